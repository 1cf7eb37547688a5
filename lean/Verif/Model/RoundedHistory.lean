import Verif.Model.Rounded
import Verif.Model.History

/-!
# The history variables in double precision

`Model/History.lean` computes with real numbers.  Here every operation of the updates of slip
resistances and damage is rounded to a double (see `Model/Rounded.lean`).  Comparisons, `std::max`
and `std::fabs` are exact.
-/

namespace Verif.Fp
open Hist

/-- `std::exp` for arguments that are not positive: within one unit of `2⁻⁵²`, relative, of the exact
value (absolute below the normal numbers), exact at zero, and in `[0,1]`. -/
structure IsExp (expf : ℝ → ℝ) : Prop where
  near : ∀ t ≤ 0, |expf t - Real.exp t| ≤ (2 : ℝ) ^ (-52 : ℤ) * Real.exp t + (2 : ℝ) ^ (-1074 : ℤ)
  zero : expf 0 = 1
  nonneg : ∀ t ≤ 0, 0 ≤ expf t
  le_one : ∀ t ≤ 0, expf t ≤ 1

variable (fl : ℝ → ℝ)

/-! ## Slip resistances -/

/-- `get_hardening_matrix_entry` (`include/gCP/quadrature_point_history.h:433-446`). -/
noncomputable def entry (p : Hardening) (self : Bool) : ℝ :=
  fl (fl (p.modulus / p.characteristic) *
    fl (p.parameter + if self then fl (1 - p.parameter) else 0))

/-- `init` (`source/gradient_crystal_plasticity/quadrature_point_history.cc:288-315`). -/
noncomputable def bulkInit (p : Hardening) (n : ℕ) : Bulk n :=
  ⟨p, fun _ => fl (p.initial / p.characteristic), fun _ => fl (p.initial / p.characteristic)⟩

/-- Inner loop over `slip_id_beta` (`quadrature_point_history.cc:364-372`). -/
noncomputable def hardenRow {n : ℕ} (p : Hardening) (slips old : Fin n → ℝ) (a : Fin n)
    (r : Fin n → ℝ) : Fin n → ℝ :=
  (List.finRange n).foldl (fun r b => Function.update r a
    (fl (r a + fl (entry fl p (decide (a = b)) * |fl (slips b - old b)|)))) r

/-- `update_values` (`quadrature_point_history.cc:343-374`). -/
noncomputable def bulkUpdate {n : ℕ} (b : Bulk n) (slips old : Fin n → ℝ) : Bulk n :=
  if b.prm.perfect then { b with res := b.tmp }
  else { b with res := (List.finRange n).foldl (fun r a => hardenRow fl b.prm slips old a r) b.tmp }

/-- Effect of a call between two `store_current_values`. -/
noncomputable def bulkOp {n : ℕ} (b : Bulk n) : BulkOp n → Bulk n
  | .update s o => bulkUpdate fl b s o
  | .reset => b.reset

/-- A time step: store, trial evaluations, evaluation at the accepted state
(`source/gradient_crystal_plasticity/solve.cc:86-145`). -/
noncomputable def bulkStep {n : ℕ} (b : Bulk n) (s : BulkStep n) : Bulk n :=
  bulkUpdate fl (s.trials.foldl (bulkOp fl) b.store) s.slips s.old

/-- `get_hardening_modulus` of `setup.cc:634-645`. -/
noncomputable def dofEntry (p : Hardening) (self : Bool) : ℝ :=
  fl (fl (p.modulus / p.characteristic) *
    fl (p.parameter + fl (fl (1 - p.parameter) * if self then 1 else 0)))

/-- Value of an active slip degree of freedom after `reset_and_update_slip_resistances`
(`setup.cc:647-668`): `dofs` are the degrees of freedom of all slips at its point, `tmp` the stored
value. -/
noncomputable def dofValue {n : ℕ} (p : Hardening) (dofs : Fin n → ℕ) (slip : Fin n)
    (trial old : ℕ → ℝ) (tmp : ℝ) : ℝ :=
  fl (tmp + (List.finRange n).foldl (fun h s =>
    fl (h + fl (dofEntry fl p (decide (slip = s)) * |fl (trial (dofs s) - old (dofs s))|))) 0)

/-! ## Damage -/

/-- `update_values(effective_opening_displacement)` (`quadrature_point_history.cc:128-149`). -/
noncomputable def updateOrtiz (expf : ℝ → ℝ) (p : DamagePrm) (s : Iface) (opening : ℝ) : Iface :=
  let m := max s.tmpMax opening
  let r := fl (m / p.critical)
  { s with
    maxOpening := m
    damage := if p.setZero then 0 else fl (1 - fl (fl (1 + r) * expf (-r))) }

/-- Effect of a call between two `store_current_values`. -/
noncomputable def ifaceOp (expf : ℝ → ℝ) (p : DamagePrm) (s : Iface) : IfaceOp → Iface
  | .update d => updateOrtiz fl expf p s d
  | .reset => s.reset

/-- A time step with the damage evolution of Ortiz et al. (`solve.cc:86-145`). -/
noncomputable def ifaceStep (expf : ℝ → ℝ) (p : DamagePrm) (s : Iface) (t : IfaceStep) : Iface :=
  (updateOrtiz fl expf p (t.trials.foldl (ifaceOp fl expf p) s.store) t.opening).storeOpening
    t.measured

/-- `update_values` of the model M1 (`quadrature_point_history.cc:153-182`), `powf` is `std::pow`. -/
noncomputable def updateM1 (powf : ℝ → ℝ → ℝ) (p : DamagePrm) (s : Iface)
    (opening cd force : ℝ) : Iface :=
  let x := fl (fl (fl (fl (p.accumulation * cd) * macaulay (fl (opening - s.oldOpening))) *
    powf (fl (fl (1 - s.tmpDamage) + p.decay)) p.exponent) * fl (force - p.endurance))
  let d := fl (s.tmpDamage + x)
  let d := if d > 1 then 1 else d
  { s with
    maxOpening := max s.tmpMax opening
    damage := if p.setZero then 0 else d }

end Verif.Fp
