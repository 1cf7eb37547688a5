import Mathlib.Analysis.SpecialFunctions.Pow.Real
import Mathlib.Analysis.SpecialFunctions.Exp
import Mathlib.Data.List.FinRange
import Mathlib.Algebra.BigOperators.Fin

/-!
# Model of the history variables

`QuadraturePointHistory`, the slip resistances kept per degree of freedom,
`InterfaceQuadraturePointHistory` and the concurrent update of the latter.  Values are real
numbers (no rounding, no NaN).
-/

namespace Verif.Hist

/-! ## Bulk: `QuadraturePointHistory` -/

/-- `RunTimeParameters::HardeningLaw` and the characteristic slip resistance
(`include/gCP/quadrature_point_history.h:357-371`). -/
structure Hardening where
  initial : ℝ
  modulus : ℝ
  parameter : ℝ
  characteristic : ℝ
  perfect : Bool

/-- `get_hardening_matrix_entry` (`quadrature_point_history.h:433-446`). -/
noncomputable def Hardening.entry (p : Hardening) (self : Bool) : ℝ :=
  p.modulus / p.characteristic * (p.parameter + (if self then 1 - p.parameter else 0))

/-- State of one `QuadraturePointHistory` with `n` slip systems
(`quadrature_point_history.h:357-373`). -/
structure Bulk (n : ℕ) where
  prm : Hardening
  res : Fin n → ℝ
  tmp : Fin n → ℝ

/-- `init` (`source/gradient_crystal_plasticity/quadrature_point_history.cc:288-315`).  An
instance that was not initialised throws on every access; it is not represented. -/
noncomputable def Bulk.init (p : Hardening) (n : ℕ) : Bulk n :=
  ⟨p, fun _ => p.initial / p.characteristic, fun _ => p.initial / p.characteristic⟩

/-- `store_current_values` (`quadrature_point_history.cc:319-327`). -/
def Bulk.store {n : ℕ} (b : Bulk n) : Bulk n := { b with tmp := b.res }

/-- `reset_values` (`quadrature_point_history.cc:331-339`). -/
def Bulk.reset {n : ℕ} (b : Bulk n) : Bulk n := { b with res := b.tmp }

/-- Inner loop over `slip_id_beta` (`quadrature_point_history.cc:364-372`). -/
noncomputable def hardenRow {n : ℕ} (p : Hardening) (slips old : Fin n → ℝ) (a : Fin n)
    (r : Fin n → ℝ) : Fin n → ℝ :=
  (List.finRange n).foldl
    (fun r b => Function.update r a (r a + p.entry (decide (a = b)) * |slips b - old b|)) r

/-- `update_values` (`quadrature_point_history.cc:343-374`); `slips` and `old` are the
values at the quadrature point. -/
noncomputable def Bulk.update {n : ℕ} (b : Bulk n) (slips old : Fin n → ℝ) : Bulk n :=
  if b.prm.perfect then { b with res := b.tmp }
  else { b with res := (List.finRange n).foldl (fun r a => hardenRow b.prm slips old a r) b.tmp }

/-- Calls the solver makes between two `store_current_values`. -/
inductive BulkOp (n : ℕ)
  | update (slips old : Fin n → ℝ)
  | reset

/-- Effect of a call. -/
noncomputable def Bulk.op {n : ℕ} (b : Bulk n) : BulkOp n → Bulk n
  | .update s o => b.update s o
  | .reset => b.reset

/-- One time step as the solver drives it (`source/gradient_crystal_plasticity/solve.cc:86-145`
and `assembly.cc:1166-1290`): store, any trial evaluations, and the evaluation at the
accepted state. -/
structure BulkStep (n : ℕ) where
  trials : List (BulkOp n)
  slips : Fin n → ℝ
  old : Fin n → ℝ

/-- Effect of a time step. -/
noncomputable def Bulk.step {n : ℕ} (b : Bulk n) (s : BulkStep n) : Bulk n :=
  (s.trials.foldl Bulk.op b.store).update s.slips s.old

/-! ## Slip resistances per degree of freedom -/

/-- Key of a slip degree of freedom: support point, crystal, slip
(`source/gradient_crystal_plasticity/setup.cc:501-568`). -/
structure Key (P : Type*) where
  point : P
  crystal : ℕ
  slip : ℕ
deriving DecidableEq

/-- `dof_to_info[d].first` (`setup.cc:570-594`): for each slip id the owned degrees of
freedom with the same point and crystal and that slip, appended in increasing order. -/
def infoDofs {P : Type*} [DecidableEq P] (nSlips : ℕ) (owned : List ℕ) (key : ℕ → Key P)
    (d : ℕ) : List ℕ :=
  (List.range nSlips).flatMap fun s =>
    owned.filter fun e => decide (key e = { key d with slip := s })

/-- `get_hardening_modulus` of `setup.cc:634-645`. -/
noncomputable def Hardening.dofEntry (p : Hardening) (self : Bool) : ℝ :=
  p.modulus / p.characteristic * (p.parameter + (1 - p.parameter) * (if self then 1 else 0))

/-- Hardening sum of one degree of freedom (`setup.cc:652-667`); `none` is the out-of-range
access `dofs[slip_id]`. -/
noncomputable def dofHardening (p : Hardening) (nSlips : ℕ) (dofs : List ℕ) (slipId : ℕ)
    (trial old : ℕ → ℝ) : Option ℝ :=
  (List.range nSlips).foldl
    (fun acc s => acc.bind fun h => (dofs[s]?).map fun e =>
      h + p.dofEntry (decide (slipId = s)) * |trial e - old e|) (some 0)

/-- `reset_and_update_slip_resistances` (`setup.cc:609-670`): value at an owned slip degree
of freedom; `cur` is the value before the call and `tmp` the stored one. -/
noncomputable def dofUpdate {P : Type*} [DecidableEq P] (p : Hardening) (nSlips : ℕ)
    (owned active : List ℕ) (key : ℕ → Key P) (trial old tmp cur : ℕ → ℝ) (d : ℕ) :
    Option ℝ :=
  if p.perfect then some (cur d)
  else if d ∈ owned ∧ d ∈ active then
    (dofHardening p nSlips (infoDofs nSlips owned key d) (key d).slip trial old).map
      fun h => tmp d + h
  else some (tmp d)

/-! ## Interfaces: `InterfaceQuadraturePointHistory` -/

/-- Parameters (`quadrature_point_history.h:132-144,165`). -/
structure DamagePrm where
  critical : ℝ
  accumulation : ℝ
  decay : ℝ
  exponent : ℝ
  endurance : ℝ
  setZero : Bool

/-- State (`quadrature_point_history.h:146-152`); `tmpDamage`, `tmpMax` are
`tmp_scalar_values[0]` and `[1]`. -/
structure Iface where
  damage : ℝ
  maxOpening : ℝ
  oldOpening : ℝ
  tmpDamage : ℝ
  tmpMax : ℝ

/-- Constructor (`quadrature_point_history.cc:44-61`). -/
def Iface.new : Iface := ⟨0, 0, 0, 0, 0⟩

/-- `store_current_values` (`quadrature_point_history.cc:107-114`). -/
def Iface.store (s : Iface) : Iface := { s with tmpDamage := s.damage, tmpMax := s.maxOpening }

/-- `reset_values` (`quadrature_point_history.cc:118-124`). -/
def Iface.reset (s : Iface) : Iface := { s with damage := s.tmpDamage, maxOpening := s.tmpMax }

/-- `update_values(effective_opening_displacement)` (`quadrature_point_history.cc:128-149`). -/
noncomputable def Iface.updateOrtiz (p : DamagePrm) (s : Iface) (opening : ℝ) : Iface :=
  let m := max s.tmpMax opening
  let r := m / p.critical
  { s with
    maxOpening := m
    damage := if p.setZero then 0 else 1 - (1 + r) * Real.exp (-r) }

/-- `macaulay_brackets` (`quadrature_point_history.h:224-233`). -/
noncomputable def macaulay (x : ℝ) : ℝ := if x > 0 then x else 0

/-- `update_values(effective_opening_displacement, characteristic_displacement,
thermodynamic_force)` (`quadrature_point_history.cc:153-182`).  `std::pow` of a negative
base is not modelled: the theorems keep the base non-negative. -/
noncomputable def Iface.updateM1 (p : DamagePrm) (s : Iface) (opening cd force : ℝ) : Iface :=
  let d := s.tmpDamage + p.accumulation * cd * macaulay (opening - s.oldOpening) *
    (1 - s.tmpDamage + p.decay) ^ p.exponent * (force - p.endurance)
  let d := if d > 1 then 1 else d
  { s with
    maxOpening := max s.tmpMax opening
    damage := if p.setZero then 0 else d }

/-- Thermodynamic force of the M1 model (`source/gradient_crystal_plasticity/assembly.cc:1497-1515`
with `include/gCP/constitutive_laws.h:566-580`): minus the degradation derivative at the
*current* damage times the sum `energy` of the free energy densities. -/
noncomputable def m1Force (degradationExponent energy : ℝ) (s : Iface) : ℝ :=
  -(-degradationExponent * (1 - s.damage) ^ (degradationExponent - 1)) * energy

/-- The solver's M1 evaluation of a trial state (`assembly.cc:1497-1525`). -/
noncomputable def Iface.evalM1 (p : DamagePrm) (degradationExponent cd : ℝ) (s : Iface)
    (opening energy : ℝ) : Iface :=
  s.updateM1 p opening cd (m1Force degradationExponent energy s)

/-- Calls between two `store_current_values` (Ortiz). -/
inductive IfaceOp
  | update (opening : ℝ)
  | reset

/-- Effect of a call. -/
noncomputable def Iface.op (p : DamagePrm) (s : Iface) : IfaceOp → Iface
  | .update d => s.updateOrtiz p d
  | .reset => s.reset

/-- `store_effective_opening_displacement` as far as the state is concerned
(`quadrature_point_history.cc:186-275`): the measured opening is kept for the next step. -/
def Iface.storeOpening (s : Iface) (opening : ℝ) : Iface := { s with oldOpening := opening }

/-- One time step: store, trial evaluations, evaluation at the accepted state, and storing
of a measured opening (`solve.cc:86-145`). -/
structure IfaceStep where
  trials : List IfaceOp
  opening : ℝ
  measured : ℝ

/-- Effect of a time step (Ortiz). -/
noncomputable def Iface.step (p : DamagePrm) (s : Iface) (t : IfaceStep) : Iface :=
  ((t.trials.foldl (Iface.op p) s.store).updateOrtiz p t.opening).storeOpening t.measured

/-! ## Concurrent update of a face's record

The two cells of a face update the shared record from `WorkStream` worker threads
(`assembly.cc:1293-1345`, `applications/simple_shear.cc:929-930`: no thread limit).  Each
thread runs the six statements of `update_values` (`quadrature_point_history.cc:132-146`)
with its own `displacement_ratio`.  Statements are atomic and memory is sequentially
consistent, which is more benign than C++ makes it. -/

/-- Shared record and the two threads' program counters and local variables. -/
structure Race where
  damage : ℝ
  maxOpening : ℝ
  pc : Bool → ℕ
  ratio : Bool → ℝ

/-- One statement of thread `t` (`quadrature_point_history.cc:132-146`). -/
noncomputable def Race.stmt (p : DamagePrm) (tmpD tmpM opening : ℝ) (s : Race) (t : Bool) : Race :=
  let s' := { s with pc := Function.update s.pc t (s.pc t + 1) }
  match s.pc t with
  | 0 => { s' with damage := tmpD }
  | 1 => { s' with maxOpening := tmpM }
  | 2 => { s' with maxOpening := max s.maxOpening opening }
  | 3 => { s' with ratio := Function.update s.ratio t (s.maxOpening / p.critical) }
  | 4 => { s' with damage := 1 - (1 + s.ratio t) * Real.exp (-s.ratio t) }
  | 5 => { s' with damage := if p.setZero then 0 else s.damage }
  | _ => s

/-- Run a schedule: which thread executes its next statement. -/
noncomputable def Race.run (p : DamagePrm) (tmpD tmpM opening : ℝ) (s : Race)
    (sched : List Bool) : Race :=
  sched.foldl (Race.stmt p tmpD tmpM opening) s

/-- Both threads at their first statement. -/
def Race.start (s : Iface) : Race := ⟨s.damage, s.maxOpening, fun _ => 0, fun _ => 0⟩

/-- Both threads have executed all statements. -/
def Race.done (s : Race) : Prop := ∀ t, s.pc t = 6

end Verif.Hist
