import Verif.Model.Trial
import Mathlib.Data.List.Basic

/-!
# Model of the active-set determination

Degrees of freedom are natural numbers (global dof indices).  `owned` is the increasing
list of the process's slip degrees of freedom, the order in which a `dealii::IndexSet` is
iterated.  Index sets are lists read as sets.
-/

namespace Verif.AS
open Verif Verif.Sol

/-- `AffineConstraints::is_constrained` (deal.II). -/
def isConstrained (c : Constraints ℕ) (d : ℕ) : Prop := (c d).isSome

/-- `AffineConstraints::is_identity_constrained` (deal.II): one entry of weight one (the
inhomogeneity is not looked at).  Returns the other degree of freedom. -/
noncomputable def identityMaster (c : Constraints ℕ) (d : ℕ) : Option ℕ :=
  match c d with
  | none => none
  | some l => match l.entries with
    | [e] => if e.2 = 1 then some e.1 else none
    | _ => none

/-- The hardening parameters the determination reads
(`source/gradient_crystal_plasticity/active_set.cc:51-52, 72-83`). -/
structure Yield where
  perfect : Bool
  initial : ℝ
  characteristic : ℝ
  resistance : ℕ → ℝ

/-- `local_yield_stress` (`active_set.cc:70-83`). -/
noncomputable def Yield.at (y : Yield) (d : ℕ) : ℝ :=
  if y.perfect then y.initial / y.characteristic else y.resistance d

open Classical in
/-- The degrees of freedom one over-yield degree of freedom adds to the active set
(`active_set.cc:85-115`). -/
noncomputable def added (c : Constraints ℕ) (trial : ℕ → ℝ) (y : Yield) (d : ℕ) : List ℕ :=
  if y.at d < |trial d| then
    (if isConstrained c d then [] else [d]) ++
      (match identityMaster c d with
        | none => []
        | some m => [d, m])
  else []

/-- `add_line`: a line without entries and inhomogeneity; nothing happens if the degree of
freedom already has a line (deal.II). -/
def addLine (c : Constraints ℕ) (d : ℕ) : Constraints ℕ := fun i =>
  if i = d then (match c d with | none => some ⟨[], 0⟩ | some l => some l) else c i

open Classical in
/-- Loop body of `determine_active_set` (`active_set.cc:67-121`): state is the active set
so far and `inactive_set_affine_constraints`. -/
noncomputable def pass (c : Constraints ℕ) (trial : ℕ → ℝ) (y : Yield)
    (s : List ℕ × Constraints ℕ) (d : ℕ) : List ℕ × Constraints ℕ :=
  let active := s.1 ++ added c trial y d
  (active, if d ∈ active then s.2 else addLine s.2 d)

/-- `merge(other, right_object_wins)` (deal.II). -/
def mergeRight (l r : Constraints ℕ) : Constraints ℕ := fun i =>
  match r i with
  | none => l i
  | some x => some x

/-- `determine_active_set` (`active_set.cc:42-148`): active set and internal Newton
constraints.  `c` are the affine constraints, `hn` the hanging-node constraints and
`newton` the Newton constraints the internal ones were reset to
(`source/gradient_crystal_plasticity/setup.cc:674-687`).  The trial microstress is an
input here; the debug output (130-147) and the closing of the merged object are left out. -/
noncomputable def determineActive (c hn newton : Constraints ℕ) (owned : List ℕ)
    (trial : ℕ → ℝ) (y : Yield) : List ℕ × Constraints ℕ :=
  let r := owned.foldl (pass c trial y) ([], hn)
  (r.1, mergeRight newton r.2)

open Classical in
/-- `determine_inactive_set` (`active_set.cc:152-181`). -/
noncomputable def determineInactive (c : Constraints ℕ) (ownedDofs ownedSlips active : List ℕ) :
    List ℕ :=
  ownedDofs.filter fun d =>
    decide (d ∈ ownedSlips ∧ ((identityMaster c d).isSome ∨ ¬ isConstrained c d) ∧ d ∉ active)

/-- Everything the active-set algorithm writes. -/
structure State where
  active : List ℕ
  inactive : List ℕ
  internal : Constraints ℕ
  trialSolution : ℕ → ℝ
  flagCompute : Bool

open Classical in
/-- `active_set_algorithm` (`active_set.cc:10-39`).  With no slip systems `owned` is empty
and the early return of `determine_active_set` (45-48) is the empty loop, except that the
old active set is kept; it is empty, too. -/
noncomputable def activeSetAlgorithm (rateIndependent : Bool) (c hn newton : Constraints ℕ)
    (ownedDofs owned : List ℕ) (trial : ℕ → ℝ) (y : Yield) (old : ℕ → ℝ) (s : State) : State :=
  if rateIndependent then
    if s.flagCompute then
      let r := determineActive c hn newton owned trial y
      let ina := determineInactive c ownedDofs owned r.1
      { active := r.1, inactive := ina, internal := r.2,
        trialSolution := resetInactive c (fun d => d ∈ ina) old s.trialSolution,
        flagCompute := false }
    else s
  else { s with active := owned }

/-- `compute_trial_microstress` (`active_set.cc:208-299`): `none` is the `AssertThrow` on a
zero lumped mass.  `hn` are the hanging-node constraints of the trial microstress field. -/
noncomputable def trialMicrostress (hn : Constraints ℕ) (ownedSlips : List ℕ)
    (lumped rhs : ℕ → ℝ) : Option (ℕ → ℝ) :=
  open Classical in
  if ∃ d ∈ ownedSlips, lumped d = 0 then none
  else some (distribute hn fun d => if d ∈ ownedSlips then rhs d / lumped d else 0)

end Verif.AS
