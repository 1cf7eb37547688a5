import Verif.Model.RoundedHistory
import Verif.Model.Partition

/-!
# The effective opening of a grain boundary in double precision

`get_effective_opening_displacement` and `store_effective_opening_displacement` compute the same
quantity in two ways.  Both are modelled here operation by operation, together with the record of a
quadrature point both cells of a face write to.
-/

namespace Verif.Fp
open Cry Itf Hist

variable (fl : ℝ → ℝ)

/-- Contraction of two rank-one tensors (deal.II), summed from the left. -/
def contract {d : ℕ} (a b : Vec d) : ℝ :=
  (List.finRange d).foldl (fun s i => fl (s + fl (a i * b i))) 0

/-- `Tensor<1,dim>::norm()` (deal.II). -/
noncomputable def normOf {d : ℕ} (a : Vec d) : ℝ := fl √(contract fl a a)

/-- `symmetrize(outer_product(n, n))` (`source/constitutive_laws.cc:1381-1383`,
`source/gradient_crystal_plasticity/quadrature_point_history.cc:195-198,233-236`): diagonal entries
are copied, the others are halved sums. -/
noncomputable def normalPart {d : ℕ} (n : Vec d) : Mat d := Matrix.of fun i j =>
  if i = j then fl (n i * n i) else fl (fl (fl (n i * n j) + fl (n j * n i)) / 2)

/-- `unit_symmetric_tensor − normal_projector` (`source/constitutive_laws.cc:1385-1386`,
`source/gradient_crystal_plasticity/quadrature_point_history.cc:199-200,237-238`). -/
noncomputable def tangentialPart {d : ℕ} (n : Vec d) : Mat d := Matrix.of fun i j =>
  fl ((if i = j then 1 else 0) - normalPart fl n i j)

/-- `SymmetricTensor<2,dim> * Tensor<1,dim>` (deal.II). -/
def applyTo {d : ℕ} (m : Mat d) (v : Vec d) : Vec d := fun i => contract fl (m i) v

/-- `std::sqrt(a * a + ratio * ratio * t * t)` (`source/constitutive_laws.cc:1395-1402`,
`source/gradient_crystal_plasticity/quadrature_point_history.cc:212-219,250-257`). -/
noncomputable def combine (ratio a t : ℝ) : ℝ :=
  fl √(fl (fl (a * a) + fl (fl (fl (ratio * ratio) * t) * t)))

/-- `get_effective_opening_displacement` and the first member of `get_effective_quantities`
(`source/constitutive_laws.cc:1375-1407,1411-1443`). -/
noncomputable def measuredOpening {d : ℕ} (ratio : ℝ) (δ n : Vec d) : ℝ :=
  combine fl ratio (Itf.macaulay (contract fl n δ)) (normOf fl (applyTo fl (tangentialPart fl n) δ))

/-- `store_effective_opening_displacement`
(`source/gradient_crystal_plasticity/quadrature_point_history.cc:186-275`): the value it records. -/
noncomputable def recordedOpening {d : ℕ} (ratio : ℝ) (current neighbour n : Vec d) : ℝ :=
  let δ := fun i => fl (neighbour i - current i)
  combine fl ratio (Itf.macaulay (normOf fl (applyTo fl (normalPart fl n) δ)))
    (normOf fl (applyTo fl (tangentialPart fl n) δ))

open Classical in
/-- Branch selection in `get_cohesive_traction` and `get_jacobian`
(`source/constitutive_laws.cc:1220-1245,1290-1329`). -/
noncomputable def branchOf (eff mx old dt : ℝ) : Branch :=
  let rate := fl (fl (eff - old) / dt)
  if eff = mx ∧ 0 ≤ rate then .loading
  else if eff < mx ∨ (eff = mx ∧ rate < 0) then .unloading
  else .neither

/-- A quadrature point of a face between the cells `false` and `true`; `normal` points out of the cell
`false` (`source/gradient_crystal_plasticity/assembly.cc:1409-1526`). -/
structure Point (d : ℕ) where
  ratio : ℝ
  dmg : DamagePrm
  normal : Vec d

/-- `fe_face_values.get_normal_vectors()` of a cell
(`source/gradient_crystal_plasticity/assembly.cc:1475-1476`): outward. -/
def Point.normalOf {d : ℕ} (f : Point d) (side : Bool) : Vec d :=
  if side then fun i => -f.normal i else f.normal

/-- The opening the cell `side` measures from the displacements of the two cells
(`source/gradient_crystal_plasticity/assembly.cc:1481-1485`, also `421-434` and `1017-1030`). -/
noncomputable def Point.seen {d : ℕ} (f : Point d) (u : Bool → Vec d) (side : Bool) : ℝ :=
  measuredOpening fl f.ratio (fun i => fl (u (!side) i - u side i)) (f.normalOf side)

/-- The opening the cell `side` records: it passes the displacements in exchanged order
(`source/gradient_crystal_plasticity/assembly.cc:1689-1697`). -/
noncomputable def Point.kept {d : ℕ} (f : Point d) (u : Bool → Vec d) (side : Bool) : ℝ :=
  recordedOpening fl f.ratio (u (!side)) (u side) (f.normalOf side)

/-- Collective calls of the solver that touch the records (`assembly.cc:1167-1212`, `1294-1347`,
`1217-1278`, `1542-1595`), with the displacements of the two cells. -/
inductive Visit (d : ℕ)
  | prepare
  | evaluate (u : Bool → Vec d)
  | reset
  | record (u : Bool → Vec d)

/-- What the visit of the cell `side` does to the record with the damage evolution of Ortiz et al.
(`assembly.cc:1190-1210`, `1486-1494`, `1246-1273`, `1689-1697`). -/
noncomputable def Point.visit {d : ℕ} (expf : ℝ → ℝ) (f : Point d) (c : Visit d) (r : Iface)
    (side : Bool) : Iface :=
  match c with
  | .prepare => r.store
  | .evaluate u => updateOrtiz fl expf f.dmg r (f.seen fl u side)
  | .reset => r.reset
  | .record u => r.storeOpening (f.kept fl u side)

/-- The record after a sequence of calls, each made by the listed cells in the listed order: all that the
owner of the face's cells and the scheduling of the workers decide
(`source/gradient_crystal_plasticity/setup.cc:420-500` builds it). -/
noncomputable def Point.recordOf {d : ℕ} (expf : ℝ → ℝ) (f : Point d)
    (calls : List (Visit d × List Bool)) : Iface :=
  calls.foldl (fun r c => c.2.foldl (f.visit fl expf c.1) r) Iface.new

end Verif.Fp
