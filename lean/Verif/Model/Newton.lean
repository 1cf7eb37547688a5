import Verif.Model.Condense
import Verif.Model.Drivers

/-!
# The solution algorithms with their linear systems

The operations of `MonoOps` and `StagOps` written out for a step in which the set of active slips does not
change (rate-dependent behaviour, or no change of the set): assembly, linear solve, update, line search.
-/

namespace Verif.Lin
open Verif.Sol Verif.LS Verif.Drv Finset

/-- Line search parameters of one solver and `flag_line_search`
(`source/run_time_parameters.cc:880-1000`). -/
structure Search where
  on : Bool
  nMax : ℕ
  alpha : ℝ

/-- One time step: number of unknowns, affine constraints of the trial solution, internal constraints of
the Newton updates, blocks, what the assembly hands over at a trial solution (internal variables
included), linear solvers, `initial_trial_solution`, `flag_reset_trial_solution_at_micro_loop` and the line
searches. -/
structure Problem (N : ℕ) where
  n : ℕ
  aff : Constraints ℕ
  internal : Constraints ℕ
  blk : ℕ → ℕ
  cells : (ℕ → ℝ) → List (Local N)
  /-- `solve_linearized_system` before the distribution -/
  all : List (Local N) → ℕ → ℝ
  /-- `solve_decoupled_linearized_subsystem` before the distribution -/
  block : ℕ → List (Local N) → ℕ → ℝ
  /-- `solve_reduced_linearized_system` before the distribution -/
  reduced : List (Local N) → ℕ → ℝ
  initial : ℕ → ℝ
  resetSlips : Bool
  searchAll : Search
  searchMacro : Search
  searchMicro : Search

/-- What an algorithm works on: trial solution (`none` once it contains NaN), `tmp_trial_solution`,
`residual` and the cells the Jacobian was last assembled from. -/
structure Step (N : ℕ) where
  trial : Option (ℕ → ℝ)
  stored : ℕ → ℝ
  held : Option (ℕ → ℝ)
  jac : List (Local N)

variable {N : ℕ} (p : Problem N)

/-- Residual assembled at a trial solution (`assemble_residual`, `assembly.cc:1147-1162`). -/
noncomputable def Problem.resid (x : ℕ → ℝ) : ℕ → ℝ := residual p.internal (p.cells x)

/-- `get_sub_l2_norms(residual).l2_norm()` and `get_l2_norm(residual)` (`source/fe_field.cc:404-520`). -/
noncomputable def Problem.total (r : ℕ → ℝ) : ℝ := Real.sqrt (∑ d ∈ range p.n, r d ^ 2)

/-- `get_sub_l2_norms(residual)[b]`. -/
noncomputable def Problem.part (b : ℕ) (r : ℕ → ℝ) : ℝ :=
  Real.sqrt (∑ d ∈ (range p.n).filter (p.blk · = b), r d ^ 2)

/-- Full step and line search (`solve.cc:230-256`, `500-523`, `625-650`, `820-840`, `930-952`): the step
of length 1, then, if switched on, `line_search_algorithm` with a fresh `LineSearch` (the values an
instance keeps from an earlier search are not used).  `norm` is the norm of the residual the search looks
at.  `none`: the trial solution contains NaN. -/
noncomputable def Problem.advance (q : Search) (norm : (ℕ → ℝ) → ℝ) (b : ℕ) (upd stored x : ℕ → ℝ) :
    Option (ℕ → ℝ) :=
  let y := updateTrial p.aff p.blk b 1 upd x
  if q.on then
    (lsRun (fun z => some (norm (p.resid z))) p.aff p.blk b stored upd (q.nMax + 3)
      (reinit (construct q.nMax q.alpha) (objective (norm (p.resid x)))) (some 1) (some y)).elim none
      Prod.snd
  else some y

/-- State after an update: `assemble_residual` at the new trial solution.  With NaN in the trial solution
the residual contains NaN and `assemble_residual` throws (`assembly.cc:696-698`): from then on the norms are
`none` (see `Verif.Model.Raise`).  This leaves out meshes on which all unknowns are fixed. -/
noncomputable def Step.moved (s : Step N) (y : Option (ℕ → ℝ)) : Step N :=
  { s with trial := y, held := y.map p.resid }

/-- The operations of `monolithic_algorithm` (`solve.cc:183-331`); the active set is left out. -/
noncomputable def Problem.mono : MonoOps (Step N) Unit where
  pre s := { s with stored := s.trial.getD s.stored }
  recompute s := s
  post s := { s with trial := s.trial.map (distribute p.aff) }
  newton s := s.moved p (s.trial.bind fun x =>
    p.advance p.searchAll p.total 0 (newtonUpdate p.internal (p.all (p.cells x))) s.stored x)
  restart s := { s with trial := some (resetTrial p.aff p.blk 0 p.initial (s.trial.getD s.stored)) }
  norm s := s.held.map p.total
  active _ := ()

/-- The local matrices of one assembly with the local vectors of another. -/
def withRhs (a b : List (Local N)) : List (Local N) :=
  List.zipWith (fun a b => { a with rhs := b.rhs }) a b

/-- A macro update with the Jacobian assembled from `jac`: the solution of the decoupled system
(`solve.cc:798-814`, `604-636`) or of the reduced one. -/
noncomputable def Problem.macroUpdate (full : Bool) (jac : List (Local N)) (x : ℕ → ℝ) : ℕ → ℝ :=
  newtonUpdateBlock p.internal p.blk 0
    (if full then p.reduced (withRhs jac (p.cells x)) else p.block 0 (withRhs jac (p.cells x)))

/-- Micro iteration (`solve.cc:479-538`, `904-966`). -/
noncomputable def Problem.micro (s : Step N) : Step N :=
  Step.moved p { s with stored := s.trial.getD s.stored, jac := (s.trial.map p.cells).getD s.jac }
    (s.trial.bind fun x => p.advance p.searchMicro (p.part 1) 1
      (newtonUpdateBlock p.internal p.blk 1 (p.block 1 (p.cells x))) x x)

/-- Start of a micro loop (`solve.cc:443-467`, `880-893`); the bouncing algorithm distributes the
constraints. -/
noncomputable def Problem.enter (dist : Bool) (s : Step N) : Step N :=
  { s with trial := s.trial.map fun x =>
      let x := if dist then distribute p.aff x else x
      if p.resetSlips then resetTrial p.aff p.blk 1 p.initial x else x }

/-- The operations of `bouncing_algorithm` (`solve.cc:339-711`): the Jacobian is assembled in the first
macro iteration of a loop only. -/
noncomputable def Problem.bounce : StagOps (Step N) where
  macroIt k s :=
    let jac := if k = 1 then (s.trial.map p.cells).getD s.jac else s.jac
    Step.moved p { s with stored := s.trial.getD s.stored, jac := jac }
      (s.trial.bind fun x => p.advance p.searchMacro (p.part 0) 0 (p.macroUpdate false jac x) x x)
  startMicro := p.enter true
  microIt := p.micro
  evaluate s := s
  macroNorm s := s.held.map (p.part 0)
  microNorm s := s.held.map (p.part 1)

/-- The operations of `embracing_algorihtm` (`solve.cc:715-1039`): the first macro iteration solves the
decoupled system, the others the reduced one. -/
noncomputable def Problem.embrace : StagOps (Step N) where
  macroIt k s :=
    let jac := (s.trial.map p.cells).getD s.jac
    Step.moved p { s with jac := jac }
      (s.trial.bind fun x => p.advance p.searchMacro (p.part 0) 0
        (p.macroUpdate (decide (k ≠ 1)) jac x) s.stored x)
  startMicro := p.enter false
  microIt := p.micro
  evaluate s := { s with stored := s.trial.getD s.stored, held := s.trial.map p.resid }
  macroNorm s := s.held.map (p.part 0)
  microNorm s := s.held.map (p.part 1)

end Verif.Lin
