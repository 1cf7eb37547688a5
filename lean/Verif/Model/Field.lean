import Mathlib.Data.Finset.Lattice.Fold
import Mathlib.Data.Finset.SDiff
import Mathlib.Algebra.BigOperators.Group.Finset.Basic
import Mathlib.Analysis.Real.Sqrt

/-!
# Component layout, degree-of-freedom sets and norms of `FEField`

deal.II supplies the degree-of-freedom numbering (`distribute_dofs`, `extract_dofs`); it enters as
arbitrary finite sets.
-/

namespace Verif.Fld

/-- Template and constructor arguments: `dim`, `n_crystals`, `n_slips`, `flag_allow_decohesion`
(`source/fe_field.cc:17-40,121-126`). -/
structure Layout where
  dim : ℕ
  nC : ℕ
  nS : ℕ
  decohesion : Bool

/-- First component of `displacement_extractors[i]`
(`source/fe_field.cc:144-145,161-162`). -/
def Layout.dispExtractor (L : Layout) (i : ℕ) : ℕ := if L.decohesion then i * L.dim else 0

/-- `slips_extractors[i][j]` (`source/fe_field.cc:150-153,166-168`). -/
def Layout.slipExtractor (L : Layout) (i j : ℕ) : ℕ :=
  if L.decohesion then L.nC * L.dim + i * L.nS + j else L.dim + i * L.nS + j

/-- Kinds of the scalar elements that make up an `FESystem`. -/
inductive Elem
  | disp
  | slip
  | nothing
  deriving DecidableEq

/-- The list `finite_elements` of the `i`-th crystal, in order (`source/fe_field.cc:204-231`). -/
def Layout.elements (L : Layout) (i : ℕ) : List Elem :=
  (if L.decohesion then
    (List.range L.nC).flatMap fun j =>
      (List.range L.dim).map fun _ => if i = j then Elem.disp else Elem.nothing
   else (List.range L.dim).map fun _ => Elem.disp) ++
  (List.range L.nC).flatMap fun j =>
    (List.range L.nS).map fun _ => if i = j then Elem.slip else Elem.nothing

/-- `n_displacement_components` (`source/fe_field.cc:254-255`). -/
def Layout.nDisp (L : Layout) : ℕ := L.dim * (if L.decohesion then L.nC else 1)

/-- `n_total_components` (`source/fe_field.cc:257-258`). -/
def Layout.nTotal (L : Layout) : ℕ := L.nDisp + L.nS * L.nC

/-- `block_component` (`source/fe_field.cc:260-266`). -/
def Layout.blockComponent (L : Layout) : List ℕ :=
  (List.range L.nTotal).map fun c => if L.nDisp ≤ c then 1 else 0

/-- Size after `global_component_mapping.resize` (`source/fe_field.cc:357,371`). -/
def Layout.mappingSize (L : Layout) : ℕ :=
  if L.decohesion then L.nC * (L.dim + L.nS) else L.dim + L.nC * L.nS

/-- The assignments `global_component_mapping[a] = v` in program order
(`source/fe_field.cc:359-367,373-380`). -/
def Layout.mappingWrites (L : Layout) : List (ℕ × ℕ) :=
  (List.range L.nC).flatMap fun i =>
    ((List.range L.dim).map fun j => ((if L.decohesion then i * L.dim + j else j), j)) ++
    ((List.range L.nS).map fun j =>
      ((if L.decohesion then L.nC * L.dim + i * L.nS + j else L.dim + i * L.nS + j), L.dim + j))

/-- Write into a `std::vector`; outside its size the behaviour is undefined (`none`). -/
def write (m : List ℕ) (w : ℕ × ℕ) : Option (List ℕ) :=
  if w.1 < m.length then some (m.set w.1 w.2) else none

/-- `global_component_mapping` after `setup_dofs` (`source/fe_field.cc:354-381`); `resize` value
initialises the entries with zero. -/
def Layout.mapping (L : Layout) : Option (List ℕ) :=
  L.mappingWrites.foldlM write (List.replicate L.mappingSize 0)

/-- `get_global_component` (`include/gCP/fe_field.h:656-663`) of a local degree of freedom whose
component (`system_to_component_index(·).first`) is `c`. -/
def Layout.globalComponent (L : Layout) (c : ℕ) : Option ℕ := L.mapping.bind fun m => m[c]?

/-! ## Degrees of freedom -/

/-- `locally_owned_plastic_slip_dofs` (`source/fe_field.cc:428-441`): the owned ones minus, for each
crystal, those `extract_dofs` finds for the crystal's displacement extractor. -/
def ownedSlip (owned : Finset ℕ) (extracted : ℕ → Finset ℕ) (nC : ℕ) : Finset ℕ :=
  (List.range nC).foldl (fun s c => s \ extracted c) owned

/-- `locally_owned_displacement_dofs` (`source/fe_field.cc:426,443-446`). -/
def ownedDisp (owned : Finset ℕ) (extracted : ℕ → Finset ℕ) (nC : ℕ) : Finset ℕ :=
  owned \ ownedSlip owned extracted nC

/-- One process: its owned degrees of freedom and the extracted displacement ones. -/
structure Proc where
  owned : Finset ℕ
  extracted : ℕ → Finset ℕ

/-- `BlockVector::l2_norm` over all processes: Trilinos' norm of the distributed vector, whose
entries are the owned ones of all processes (`source/fe_field.cc:586-601,618`). -/
noncomputable def l2Norm (procs : List Proc) (v : ℕ → ℝ) : ℝ :=
  √((procs.map fun p => ∑ i ∈ p.owned, v i * v i).sum)

/-- `get_sub_l2_norms` for a single block (`source/fe_field.cc:620-663,670`). -/
noncomputable def subNormsSingle (procs : List Proc) (nC : ℕ) (v : ℕ → ℝ) (factor : ℝ) : ℝ × ℝ :=
  (√((procs.map fun p => ∑ i ∈ ownedDisp p.owned p.extracted nC, v i * v i).sum) / factor,
   √((procs.map fun p => ∑ i ∈ ownedSlip p.owned p.extracted nC, v i * v i).sum))

/-- `get_sub_l2_norms` for two blocks (`source/fe_field.cc:664-670`): the blocks are the degrees of
freedom below and from `n0 = dofs_per_block[0]` on (`source/fe_field.cc:300-311`). -/
noncomputable def subNormsBlocks (procs : List Proc) (n0 : ℕ) (v : ℕ → ℝ) (factor : ℝ) : ℝ × ℝ :=
  (√((procs.map fun p => ∑ i ∈ p.owned.filter (· < n0), v i * v i).sum) / factor,
   √((procs.map fun p => ∑ i ∈ p.owned.filter (n0 ≤ ·), v i * v i).sum))

/-! ## Solution vectors -/

/-- The three solution vectors (`include/gCP/fe_field.h:50-80`). -/
structure Sols (V : Type*) where
  solution : V
  old : V
  oldOld : V

/-- `update_solution_vectors` (`source/fe_field.cc:556-562`). -/
def Sols.update {V : Type*} (s : Sols V) : Sols V := ⟨s.solution, s.solution, s.old⟩

/-- A time step replaces `solution` and then shifts (`applications/simple_shear.cc:880-899`). -/
def Sols.step {V : Type*} (s : Sols V) (v : V) : Sols V := Sols.update { s with solution := v }

end Verif.Fld
