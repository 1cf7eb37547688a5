import Verif.Model.Interface

/-!
# Interface records in a distributed run

Every process keeps its own `InterfaceDataStorage`.  A face between two crystals has one record per
quadrature point on each process that owns at least one of its two cells; the loops over the locally owned
cells visit the record once per owned cell.  This module follows one quadrature point of one face.
-/

namespace Verif.Itf
open Matrix Verif.Cry Verif.Hist

/-- The laws at a point of a face; the two cells are `false` and `true`, `normal` points out of the cell
`false` (`source/gradient_crystal_plasticity/assembly.cc:1353-1534`). -/
structure Site (d e n : ℕ) where
  coh : Coh
  dmg : DamagePrm
  micro : MicroPrm
  lat : Vec d → Vec d → Fin e → ℝ
  crystal : Bool → Crystal d n
  normal : Vec d
  m1 : Bool
  degradationExponent : ℝ
  charDisp : ℝ

/-- `fe_face_values.get_normal_vectors()` of a cell (`assembly.cc:1475-1476`): outward. -/
def Site.normalOf {d e n : ℕ} (f : Site d e n) (side : Bool) : Vec d :=
  if side then -f.normal else f.normal

/-- Displacements and slips of the two cells at the point. -/
structure Traces (d n : ℕ) where
  disp : Bool → Vec d
  slip : Bool → Fin n → ℝ

/-- Effective opening as the cell `side` computes it (`assembly.cc:1481-1485`). -/
noncomputable def Site.openingFrom {d e n : ℕ} (f : Site d e n) (t : Traces d n) (side : Bool) : ℝ :=
  effOpening f.coh (t.disp (!side) - t.disp side) (f.normalOf side)

/-- Sum of the two free energy densities as the cell `side` computes it (`assembly.cc:1502-1514`). -/
noncomputable def Site.energyFrom {d e n : ℕ} (f : Site d e n) (t : Traces d n) (side : Bool) : ℝ :=
  f.coh.energy (f.charDisp * f.openingFrom t side) +
    interfaceEnergy f.micro f.lat (f.crystal (!side)) (f.crystal side) (f.normalOf side)
      (t.slip (!side)) (t.slip side)

/-- Collective calls of the solver that touch the records: `prepare_quadrature_point_history`
(`assembly.cc:1167-1212`), `reset_and_update_quadrature_point_history` (`1294-1347`),
`reset_quadrature_point_history` (`1217-1278`) and
`store_effective_opening_displacement_in_quadrature_history` (`1542-1595`). -/
inductive Call (d n : ℕ)
  | prepare
  | evaluate (t : Traces d n)
  | reset
  | record (t : Traces d n)

/-- What the visit of the cell `side` does to the record (`assembly.cc:1190-1210`, `1486-1525`,
`1246-1273`, `1689-1697`). The measured quantities other than the old effective opening are output
only and not kept here. -/
noncomputable def Site.visit {d e n : ℕ} (f : Site d e n) (c : Call d n) (r : Iface) (side : Bool) : Iface :=
  match c with
  | .prepare => r.store
  | .evaluate t =>
    if f.m1 then
      r.evalM1 f.dmg f.degradationExponent f.charDisp (f.openingFrom t side) (f.energyFrom t side)
    else r.updateOrtiz f.dmg (f.openingFrom t side)
  | .reset => r.reset
  | .record t => r.storeOpening (storedOpening f.coh.ratio (t.disp (!side)) (t.disp side) (f.normalOf side))

/-- The cells of the face a process owns, in the order of its cell iterators. -/
def ownedSides {P : Type*} [DecidableEq P] (owner : Bool → P) (first : Bool) (p : P) : List Bool :=
  [first, !first].filter fun s => owner s = p

/-- The record of a process after a sequence of collective calls, from its construction
(`source/gradient_crystal_plasticity/setup.cc:420-500`). -/
noncomputable def Site.recordOf {P : Type*} [DecidableEq P] {d e n : ℕ} (f : Site d e n)
    (owner : Bool → P) (first : Bool) (calls : List (Call d n)) (p : P) : Iface :=
  calls.foldl (fun r c => (ownedSides owner first p).foldl (f.visit c) r) Iface.new

end Verif.Itf
