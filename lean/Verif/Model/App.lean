import Verif.Model.ActiveSet

/-!
# The application: constraints over the load history

The simple shear application builds all boundary conditions once (`setup_constraints`), and before
every step replaces the affine constraints by new ones (`update_dirichlet_boundary_conditions`) that
contain the displacements of the upper boundary only.  The mesh is refined globally
(`applications/simple_shear.cc:265-266`), so there are no hanging nodes.  Degrees of freedom are
numbered by `ℕ` and all owned by one process.
-/

namespace Verif.App
open Verif.Sol Verif.AS

/-- What the boundary conditions refer to: `top` the displacements at the upper boundary, `fixed` all
degrees of freedom with a Dirichlet value (displacements at both boundaries, slips at both boundaries
and, with microhard boundary conditions, slips at grain boundaries;
`applications/simple_shear.cc:508-600`), `tie` the partner on the opposite periodic face after
`close()` has resolved chains (`602-605`), `slips` the slip degrees of freedom and `blk` the block. -/
structure Setting where
  top : ℕ → Prop
  fixed : ℕ → Prop
  tie : ℕ → Option ℕ
  dofs : List ℕ
  slips : List ℕ
  blk : ℕ → ℕ

open Classical in
/-- The affine constraints during a step, from `update_dirichlet_boundary_conditions`
(`applications/simple_shear.cc:641-675`): `g` is the displacement control at the time of the step. -/
noncomputable def Setting.affine (s : Setting) (g : ℕ → ℝ) : Constraints ℕ := fun d =>
  if s.top d then some ⟨[], g d⟩ else none

open Classical in
/-- The Newton constraints (`applications/simple_shear.cc:508-607`): boundary values first, then
periodicity for degrees of freedom that have no line yet
(`DoFTools::make_periodicity_constraints`). -/
noncomputable def Setting.newton (s : Setting) : Constraints ℕ := fun d =>
  if s.fixed d then some ⟨[], 0⟩
  else match s.tie d with
    | none => none
    | some m => some ⟨[(m, 1)], 0⟩

/-- `AffineConstraints::close`, also called at the end of `merge` of a closed object (deal.II):
entries that are constrained themselves are replaced by their lines.  One pass suffices here, since
lines refer to degrees of freedom with empty lines only. -/
def closeLines (c : Constraints ℕ) : Constraints ℕ := fun d =>
  (c d).map fun l =>
    ⟨l.entries.flatMap fun e => match c e.1 with
        | none => [e]
        | some k => k.entries.map fun f => (f.1, e.2 * f.2),
      (l.entries.map fun e => match c e.1 with
        | none => 0
        | some k => e.2 * k.inhom).sum + l.inhom⟩

/-- What a determination of the active set reads: trial microstress and yield values. -/
structure Determination where
  trial : ℕ → ℝ
  yield : Yield

/-- `internal_newton_method_constraints`: for rate-dependent behaviour a copy of the Newton constraints
(`source/gradient_crystal_plasticity/setup.cc:674-687`), else merged with the inactive set
(`source/gradient_crystal_plasticity/active_set.cc:117-126`). -/
noncomputable def Setting.internal (s : Setting) (g : ℕ → ℝ) : Option Determination → Constraints ℕ
  | none => s.newton
  | some a => closeLines
      (determineActive (s.affine g) (fun _ => none) s.newton s.slips a.trial a.yield).2

/-- The inactive set of a determination. -/
noncomputable def Setting.inactive (s : Setting) (g : ℕ → ℝ) (a : Determination) : List ℕ :=
  determineInactive (s.affine g) s.dofs s.slips
    (determineActive (s.affine g) (fun _ => none) s.newton s.slips a.trial a.yield).1

/-- The vectors the trial solution can hold during a step, for any solution algorithm, line search,
solver and sequence of active sets: `ok` says which determinations of the active set may occur
(`none` for rate-dependent behaviour).  Operations as in `Model/Trial.lean`; the solution of the linear
system `y` is arbitrary, the update is what `distribute` makes of it
(`source/gradient_crystal_plasticity/solve.cc:1169-1172,1323-1326,1450-1453`). -/
inductive Reach (s : Setting) (ok : Option Determination → Prop) (g old oldOld : ℕ → ℝ) :
    (ℕ → ℝ) → Prop
  /-- `extrapolate_initial_trial_solution`. -/
  | start (skip : Bool) (ratio : ℝ) :
      Reach s ok g old oldOld (extrapolate (fun _ => none) s.newton skip ratio old oldOld).1
  /-- `distribute_affine_constraints_to_trial_solution`. -/
  | distribute {x} : Reach s ok g old oldOld x →
      Reach s ok g old oldOld (distribute (s.affine g) x)
  /-- `update_trial_solution`. -/
  | update {x} (b : ℕ) (lam : ℝ) (y : ℕ → ℝ) (a : Option Determination) : ok a →
      Reach s ok g old oldOld x → Reach s ok g old oldOld
        (updateTrial (s.affine g) s.blk b lam (Sol.distribute (s.internal g a) y) x)
  /-- `reset_trial_solution` to a trial solution stored before. -/
  | reset {x stored} (b : ℕ) : Reach s ok g old oldOld stored → Reach s ok g old oldOld x →
      Reach s ok g old oldOld (resetTrial (s.affine g) s.blk b stored x)
  /-- `reset_inactive_set_values`. -/
  | resetInactive {x} (a : Determination) : ok (some a) → Reach s ok g old oldOld x →
      Reach s ok g old oldOld
        (open Classical in resetInactive (s.affine g) (fun d => d ∈ s.inactive g a) old x)

/-- The solution history over the time loop (`applications/simple_shear.cc:846-915`): the vectors start
with zero (`source/fe_field.cc:514-518`); every step accepts a reachable trial solution that satisfies
the affine constraints of the step (C63). -/
inductive Run (s : Setting) (ok : Option Determination → Prop) :
    List (ℕ → ℝ) → History (ℕ → ℝ) → Prop
  | init : Run s ok [] ⟨0, 0, 0⟩
  | step {gs h} (g x : ℕ → ℝ) : Run s ok gs h → Reach s ok g h.old h.oldOld x →
      Satisfies (s.affine g) x → Run s ok (g :: gs) (timeStep h x)

end Verif.App
