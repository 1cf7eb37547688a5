import Verif.Model.LineSearch
import Mathlib.Algebra.BigOperators.Group.List.Basic
import Mathlib.Data.Real.Basic

/-!
# Model of the solver's trial solution

Vectors are functions from a type `D` of degrees of freedom to `ℝ`.  A deal.II
`AffineConstraints` object is a partial map from degrees of freedom to lines.
Ghosted and distributed copies of a vector (`get_distributed_vector_instance`)
are the same vector here.
-/

namespace Verif.Sol
open Verif Verif.LS

variable {D : Type*}

/-- One constraint line `x_i = Σ w_j x_j + b` of a `dealii::AffineConstraints`. -/
structure Line (D : Type*) where
  entries : List (D × ℝ)
  inhom : ℝ

/-- `dealii::AffineConstraints<double>`: the constrained degrees of freedom and their lines. -/
abbrev Constraints (D : Type*) := D → Option (Line D)

/-- Right-hand side of a constraint line. -/
def Line.eval (l : Line D) (v : D → ℝ) : ℝ :=
  (l.entries.map fun e => e.2 * v e.1).sum + l.inhom

/-- `AffineConstraints::distribute` (deal.II): constrained entries are overwritten by
their line, all others kept.  Library function, modelled by its documented effect. -/
def distribute (c : Constraints D) (v : D → ℝ) : D → ℝ := fun i =>
  match c i with
  | none => v i
  | some l => l.eval v

/-- After `close()` no entry of a line is itself constrained (deal.II). -/
def Closed (c : Constraints D) : Prop := ∀ i l, c i = some l → ∀ e ∈ l.entries, c e.1 = none

/-- A vector satisfies all constraint lines. -/
def Satisfies (c : Constraints D) (v : D → ℝ) : Prop := ∀ i l, c i = some l → v i = l.eval v

/-- Lines relate degrees of freedom of the same block: displacements to displacements,
slips to slips (`applications/simple_shear.cc:364-675`, boundary values, periodicity and
hanging nodes act per component). -/
def BlockLocal (c : Constraints D) (blk : D → ℕ) : Prop :=
  ∀ i l, c i = some l → ∀ e ∈ l.entries, blk e.1 = blk i

/-- Block of a degree of freedom (`source/fe_field.cc:245-318`): one block in total, or
displacements in block 0 and slips in block 1. -/
def blockOf (singleBlock : Bool) (isSlip : D → Bool) (d : D) : ℕ :=
  if singleBlock then 0 else if isSlip d then 1 else 0

/-- Which layout the application builds (`applications/simple_shear.cc:130-143`). -/
def appSingleBlock (monolithic directSolver builtInPreconditioner : Bool) : Bool :=
  monolithic && (directSolver || builtInPreconditioner)

/-- `v.block(b) = w.block(b)`. -/
def assignBlock (blk : D → ℕ) (b : ℕ) (v w : D → ℝ) : D → ℝ :=
  fun d => if blk d = b then w d else v d

/-- `v.block(b).add(lambda, w.block(b))`. -/
def addBlock (blk : D → ℕ) (b : ℕ) (lam : ℝ) (v w : D → ℝ) : D → ℝ :=
  fun d => if blk d = b then v d + lam * w d else v d

/-- `update_trial_solution(relaxation_parameter, block_index)`
(`source/gradient_crystal_plasticity/solve.cc:1469-1490`). -/
def updateTrial (c : Constraints D) (blk : D → ℕ) (b : ℕ) (lam : ℝ) (upd x : D → ℝ) : D → ℝ :=
  assignBlock blk b x (distribute c (addBlock blk b lam x upd))

/-- `update_trial_solution(relaxation_parameter)` (`solve.cc:1497-1519`): `block_id = 0`. -/
def updateTrialMono (c : Constraints D) (blk : D → ℕ) (lam : ℝ) (upd x : D → ℝ) : D → ℝ :=
  updateTrial c blk 0 lam upd x

/-- `update_trial_solution(relaxation_parameters)` (`solve.cc:1523-1560`): one relaxation
parameter for displacements, one for slips; never called by the solution algorithms. -/
def updateTrialMulti (c : Constraints D) (isSlip : D → Bool) (lamU lamG : ℝ)
    (upd x : D → ℝ) : D → ℝ :=
  distribute c (fun d => x d + (if isSlip d then lamG else lamU) * upd d)

/-- `reset_trial_solution(.., block_index)` with the stored vector passed in
(`solve.cc:1663-1691`). -/
def resetTrial (c : Constraints D) (blk : D → ℕ) (b : ℕ) (stored x : D → ℝ) : D → ℝ :=
  assignBlock blk b x (distribute c stored)

/-- Body of the line-search loop for block `b` (`solve.cc:1578-1600`, `1619-1639`):
`reset_trial_solution()` with the *default* block `BlockIndex::Macro = 0`
(`include/gCP/gradient_crystal_plasticity.h:333-335`), then the update of block `b`. -/
def lsPass (c : Constraints D) (blk : D → ℕ) (b : ℕ) (stored upd : D → ℝ) (lam : ℝ)
    (x : D → ℝ) : D → ℝ :=
  updateTrial c blk b lam upd (resetTrial c blk 0 stored x)

/-- Trial solution after passes with the given relaxation parameters. -/
def lsTrial (c : Constraints D) (blk : D → ℕ) (b : ℕ) (stored upd : D → ℝ) :
    List ℝ → (D → ℝ) → (D → ℝ)
  | [], x => x
  | lam :: ls, x => lsTrial c blk b stored upd ls (lsPass c blk b stored upd lam x)

open Classical in
/-- `line_search_algorithm(line_search, block_index)` (`solve.cc:1602-1639`, and
`1564-1600` with `b = 0`): `resid` is the residual norm assembled at a trial solution
(`none` = NaN).  The trial solution is `none` once it contains NaN because the relaxation
parameter was NaN; every later relaxation parameter is then NaN too. `fuel` bounds the
recursion. -/
noncomputable def lsRun (resid : (D → ℝ) → Option ℝ) (c : Constraints D) (blk : D → ℕ) (b : ℕ)
    (stored upd : D → ℝ) :
    ℕ → LineSearch → Option ℝ → Option (D → ℝ) → Option (Option ℝ × Option (D → ℝ))
  | 0, _, _, _ => none
  | fuel + 1, s, lam, x =>
    let f := (x.bind resid).map objective
    if sufficient s f lam then some (lam, x)
    else
      let r := getLambda s f lam
      lsRun resid c blk b stored upd fuel r.1 r.2
        (match r.2, x with
          | some l, some x => some (lsPass c blk b stored upd l x)
          | _, _ => none)

/-- `reset_inactive_set_values` (`source/gradient_crystal_plasticity/active_set.cc:184-205`). -/
def resetInactive (c : Constraints D) (inactive : D → Prop) [DecidablePred inactive]
    (old x : D → ℝ) : D → ℝ :=
  distribute c (fun d => if inactive d then old d else x d)

/-- `extrapolate_initial_trial_solution` (`solve.cc:13-65`), result `(trial_solution,
newton_update)`.  `ratio` is `step_size_ratio`; `hn` the hanging-node constraints, `nc` the
Newton constraints.  `skip` is `flag_skip_extrapolation || parameters.flag_skip_extrapolation`
(`solve.cc:102-103`). -/
def extrapolate (hn nc : Constraints D) (skip : Bool) (ratio : ℝ) (old oldold : D → ℝ) :
    (D → ℝ) × (D → ℝ) :=
  let trial := if skip then old else fun d => (1 + ratio) * old d - ratio * oldold d
  let upd := if skip then old else fun d => -1 * old d + 1 * trial d
  (distribute hn trial, distribute nc upd)

/-- `step_size_ratio` (`solve.cc:16-24`). -/
noncomputable def stepRatio (stepNumber : ℕ) (factor next prev : ℝ) : ℝ :=
  if stepNumber > 0 then factor * next / prev else 1

/-- `solution`, `old_solution`, `old_old_solution` of `FEField`
(`include/gCP/fe_field.h`, `source/fe_field.cc`). -/
structure History (V : Type*) where
  solution : V
  old : V
  oldOld : V

/-- `FEField::update_solution_vectors` (`source/fe_field.cc:556-562`). -/
def updateSolutionVectors {V : Type*} (h : History V) : History V :=
  { h with oldOld := h.old, old := h.solution }

/-- One pass of the time loop that concerns the history: `solve()` assigns
`fe_field->solution = trial_solution` (`solve.cc:144`), then `update_solution_vectors()`
(`applications/simple_shear.cc:846-915`). -/
def timeStep {V : Type*} (h : History V) (accepted : V) : History V :=
  updateSolutionVectors { h with solution := accepted }

end Verif.Sol
