import Verif.Model.App
import Verif.Model.TrialMicro

/-!
# The linear systems of the Newton iteration

Sparsity pattern of the Jacobian, the transfer of the local matrices and vectors into the global system
and the three ways to solve it.  Degrees of freedom are numbered by `ℕ` and all owned by one process.
-/

namespace Verif.Lin
open Verif.Sol Verif.Asm Finset

/-- A cell: material, degrees of freedom and faces (`none` at the boundary of the domain, otherwise the
index of the neighbour). -/
structure Cell where
  material : ℕ
  dofs : List ℕ
  faces : List (Option ℕ)

/-- Parameters that decide about grain boundary terms. -/
structure Flags where
  decohesion : Bool
  microtraction : Bool

/-- The faces of a cell whose neighbour has another material: the neighbours
(`source/gradient_crystal_plasticity/setup.cc:376-379`, `assembly.cc:323-326`). -/
def grainFaces (cell : ℕ → Cell) (c : Cell) : List ℕ :=
  c.faces.filterMap fun f => f.bind fun j => if c.material = (cell j).material then none else some j

/-- `cell_is_at_grain_boundary` (`setup.cc:61-72`). -/
def atGrainBoundary (cell : ℕ → Cell) (c : Cell) : Bool := !(grainFaces cell c).isEmpty

/-- Degrees of freedom through which a degree of freedom enters the global system: itself or the entries
of its line (deal.II). -/
def resolve (K : Constraints ℕ) (g : ℕ) : List ℕ :=
  match K g with
  | none => [g]
  | some l => l.entries.map Prod.fst

/-- Entries `AffineConstraints::add_entries_local_to_global(rows, cols, .., false)` adds to a pattern,
and entries `distribute_local_to_global(matrix, rows, cols, ..)` writes (deal.II). -/
def coupleEntries (K : Constraints ℕ) (rows cols : List ℕ) (r c : ℕ) : Prop :=
  (∃ i ∈ rows, r ∈ resolve K i) ∧ ∃ j ∈ cols, c ∈ resolve K j

/-- The same with equal rows and columns (deal.II): in addition the diagonal entries of constrained
degrees of freedom. -/
def squareEntries (K : Constraints ℕ) (rows : List ℕ) (r c : ℕ) : Prop :=
  coupleEntries K rows rows r c ∨ (r = c ∧ r ∈ rows ∧ K r ≠ none)

/-- `make_sparsity_pattern` (`setup.cc:315-404`). -/
def pattern (fl : Flags) (newton : Constraints ℕ) (cell : ℕ → Cell) (n : ℕ) (r c : ℕ) : Prop :=
  ∃ k < n, squareEntries newton (cell k).dofs r c ∨
    (atGrainBoundary cell (cell k) ∧ (fl.decohesion ∨ fl.microtraction) ∧
      ∃ j ∈ grainFaces cell (cell k), coupleEntries newton (cell k).dofs (cell j).dofs r c)

/-- Entries of the Jacobian `copy_local_to_global_jacobian` writes (`assembly.cc:316-326,566-617`). -/
def written (fl : Flags) (internal : Constraints ℕ) (cell : ℕ → Cell) (n : ℕ) (r c : ℕ) : Prop :=
  ∃ k < n, squareEntries internal (cell k).dofs r c ∨
    (atGrainBoundary cell (cell k) ∧ (fl.decohesion ∨ fl.microtraction) ∧
      ∃ j ∈ grainFaces cell (cell k), coupleEntries internal (cell k).dofs (cell j).dofs r c)

/-- What the local assembly of a cell hands over: degrees of freedom, `local_matrix`, `local_rhs`, and
for each grain boundary face the degrees of freedom of the neighbour and `local_coupling_matrix`.
`diag` is what deal.II puts on the diagonal of constrained degrees of freedom. -/
structure Local (N : ℕ) where
  dofs : Fin N → ℕ
  mat : Fin N → Fin N → ℝ
  rhs : Fin N → ℝ
  diag : Fin N → ℝ
  couplings : List ((Fin N → ℕ) × (Fin N → Fin N → ℝ))

open Classical in
/-- Entry of `jacobian` (`assembly.cc:581-617`): `distribute_local_to_global` of deal.II with the
internal constraints. -/
noncomputable def jacobian {N : ℕ} (internal : Constraints ℕ) (cells : List (Local N)) (r c : ℕ) : ℝ :=
  (cells.map fun a =>
    ∑ i, ∑ j, weight internal (a.dofs i) r * a.mat i j * weight internal (a.dofs j) c +
    (∑ i, if a.dofs i = r ∧ r = c ∧ internal r ≠ none then a.diag i else 0) +
    (a.couplings.map fun b =>
      ∑ i, ∑ j, weight internal (a.dofs i) r * b.2 i j * weight internal (b.1 j) c).sum).sum

/-- Entry of `residual` (`assembly.cc:1147-1162`). -/
noncomputable def residual {N : ℕ} (internal : Constraints ℕ) (cells : List (Local N)) (r : ℕ) : ℝ :=
  (cells.map fun a => ∑ i, weight internal (a.dofs i) r * a.rhs i).sum

/-- `x` solves the monolithic system (`solve_linearized_system`, `solve.cc:1044-1163`): all
degrees of freedom are in block 0.  The solver is taken to be exact; its tolerance is C62's subject. -/
def SolvesAll {N : ℕ} (internal : Constraints ℕ) (cells : List (Local N)) (n : ℕ) (x : ℕ → ℝ) : Prop :=
  ∀ r < n, ∑ c ∈ range n, jacobian internal cells r c * x c = residual internal cells r

/-- `x` solves the system of one block (`solve_decoupled_linearized_subsystem`, `solve.cc:1185-1318`);
the other block of the vector is zero. -/
structure SolvesBlock {N : ℕ} (internal : Constraints ℕ) (cells : List (Local N)) (n : ℕ)
    (blk : ℕ → ℕ) (b : ℕ) (x : ℕ → ℝ) : Prop where
  rows : ∀ r < n, blk r = b →
    ∑ c ∈ (range n).filter (blk · = b), jacobian internal cells r c * x c = residual internal cells r
  zero : ∀ r, blk r ≠ b → x r = 0

/-- `x` solves the reduced system `(D - E G⁻¹ F) x = r` (`solve_reduced_linearized_system`,
`solve.cc:1344-1448`), `y` being what `inv_G * F` returns for it; the micro block of `x` is zero. -/
structure SolvesReduced {N : ℕ} (internal : Constraints ℕ) (cells : List (Local N)) (n : ℕ)
    (blk : ℕ → ℕ) (x y : ℕ → ℝ) : Prop where
  inv : ∀ r < n, blk r = 1 → ∑ c ∈ (range n).filter (blk · = 1), jacobian internal cells r c * y c =
    ∑ c ∈ (range n).filter (blk · = 0), jacobian internal cells r c * x c
  rows : ∀ r < n, blk r = 0 → ∑ c ∈ (range n).filter (blk · = 0), jacobian internal cells r c * x c -
    ∑ c ∈ (range n).filter (blk · = 1), jacobian internal cells r c * y c = residual internal cells r
  zero : ∀ r, blk r ≠ 0 → x r = 0

/-- `newton_update` from the solution of the monolithic system (`solve.cc:1168-1175`): the constraints
are distributed to the vector. -/
noncomputable def newtonUpdate (internal : Constraints ℕ) (x : ℕ → ℝ) : ℕ → ℝ := distribute internal x

/-- `newton_update` from the solution of a block or of the reduced system
(`solve.cc:1322-1329,1449-1456`): zero, except for the block of the vector to which the constraints have
been distributed. -/
noncomputable def newtonUpdateBlock (internal : Constraints ℕ) (blk : ℕ → ℕ) (b : ℕ) (x : ℕ → ℝ) :
    ℕ → ℝ := fun d => if blk d = b then distribute internal x d else 0

end Verif.Lin
