import Verif.Model.Face
import Verif.Model.ActiveSet

/-!
# Assembly of the trial microstress

The right-hand side and the lumped matrix from which `compute_trial_microstress`
(`AS.trialMicrostress`) obtains the trial microstress of the active set.
-/

namespace Verif.Asm
open Matrix Finset Verif.Cry Verif.Micro

/-- A quadrature point of a boundary face: `JxW`, outward normal, values and gradients of the slip
views (`source/gradient_crystal_plasticity/assembly.cc:2484-2537`). -/
structure BShape (d n N : ℕ) where
  jxw : ℝ
  normal : Vec d
  phi : Fin n → Fin N → ℝ
  grad : Fin n → Fin N → Vec d

/-- A cell in the assembly of the trial microstress: its parameters, degrees of freedom, quadrature
points and the quadrature points of its faces at the boundary of the domain. -/
structure TCell (d n N : ℕ) where
  prm : CellPrm d n
  kind : Kind n N
  dofs : Fin N → ℕ
  Q : ℕ
  pts : Fin Q → Shape d n N
  F : ℕ
  faces : Fin F → BShape d n N

/-- `scratch.stress_values[quadrature_point_id]` (`assembly.cc:2381-2421`): the strain of the trial
solution `u`, but the slips of the old solution. -/
noncomputable def CellPrm.trialStress {d n N : ℕ} (c : CellPrm d n) (s : Shape d n N)
    (u old : Fin N → ℝ) : Mat d :=
  c.elastic.stress c.rot (c.macroStrain +
    elasticStrain c.dn0 ((List.finRange n).map fun a => (c.sys a, s.slip old a)) (s.strain u))

/-- Contribution of a quadrature point to `local_right_hand_side(i)` (`assembly.cc:2423-2482`); `none`
is NaN. -/
noncomputable def CellPrm.trialTerm {d n N : ℕ} (c : CellPrm d n) (kind : Kind n N)
    (s : Shape d n N) (u old : Fin N → ℝ) (i : Fin N) : Option ℝ :=
  match kind i with
  | none => some 0
  | some a => (c.vec.microstress (c.sys a) (s.slipGrad old a)).map fun x =>
      -1 * (c.dn2 * (s.grad a i ⬝ᵥ x) -
        c.dn3 * s.phi a i * resolvedShear (c.sys a) (c.trialStress s u old)) * s.jxw

/-- Slip gradient on a boundary face (`assembly.cc:2503-2512`). -/
noncomputable def BShape.slipGrad {d n N : ℕ} (s : BShape d n N) (u : Fin N → ℝ) (a : Fin n) : Vec d :=
  ∑ j, u j • s.grad a j

/-- Contribution of a boundary face quadrature point to `local_right_hand_side(i)`
(`assembly.cc:2514-2565`).  There is no contribution of grain boundary faces. -/
noncomputable def CellPrm.trialFaceTerm {d n N : ℕ} (c : CellPrm d n) (kind : Kind n N)
    (s : BShape d n N) (old : Fin N → ℝ) (i : Fin N) : Option ℝ :=
  match kind i with
  | none => some 0
  | some a => (c.vec.microstress (c.sys a) (s.slipGrad old a)).map fun x =>
      c.dn2 * s.phi a i * (x ⬝ᵥ s.normal) * s.jxw

/-- `local_right_hand_side(i)` (`assembly.cc:2349-2568`); `u`, `old` are global vectors. -/
noncomputable def TCell.rhs {d n N : ℕ} (c : TCell d n N) (u old : ℕ → ℝ) (i : Fin N) : Option ℝ :=
  (sumOpt fun q => c.prm.trialTerm c.kind (c.pts q) (u ∘ c.dofs) (old ∘ c.dofs) i).bind fun x =>
    (sumOpt fun f => c.prm.trialFaceTerm c.kind (c.faces f) (old ∘ c.dofs) i).map (x + ·)

/-- `local_lumped_matrix(i)` (`assembly.cc:2186-2254`). -/
noncomputable def TCell.lumped {d n N : ℕ} (c : TCell d n N) (i : Fin N) : ℝ :=
  match c.kind i with
  | none => 0
  | some a => ∑ q, ∑ j, if c.kind j = some a then
      (c.pts q).phi a i * (c.pts q).phi a j * (c.pts q).jxw else 0

open Classical in
/-- Weight with which local contributions of the degree of freedom `g` enter the entry `k` in
`distribute_local_to_global` of the hanging-node constraints (deal.II). -/
noncomputable def weight (hn : Sol.Constraints ℕ) (g k : ℕ) : ℝ :=
  match hn g with
  | none => if g = k then 1 else 0
  | some l => (l.entries.map fun e => if e.1 = k then e.2 else 0).sum

/-- `trial_microstress_right_hand_side(k)` (`assembly.cc:2282-2345, 2574-2584`).  Simplification: a NaN
in a local entry spoils every global entry here. -/
noncomputable def trialRhs {d n N : ℕ} (hn : Sol.Constraints ℕ) (cells : List (TCell d n N))
    (u old : ℕ → ℝ) (k : ℕ) : Option ℝ :=
  cells.foldl (fun acc c => acc.bind fun x =>
    (sumOpt fun i => (c.rhs u old i).map (weight hn (c.dofs i) k * ·)).map (x + ·)) (some 0)

/-- `trial_microstress_lumped_matrix(k)` (`assembly.cc:2100-2160, 2260-2270`). -/
noncomputable def trialLumped {d n N : ℕ} (hn : Sol.Constraints ℕ) (cells : List (TCell d n N))
    (k : ℕ) : ℝ :=
  (cells.map fun c => ∑ i, weight hn (c.dofs i) k * c.lumped i).sum

end Verif.Asm
