import Mathlib.Data.Real.Basic

/-!
# Model of the three solution algorithms

The solver's state (trial solution, stored trial solutions, internal variables, residual,
Jacobian, active set, …) is an arbitrary type `S`; the operations on it are arbitrary
functions, so the theorems hold for every system, linear solver and line search.  Residual
norms are `Option ℝ` (`none` = NaN).  Output, timers and averages of convergence orders are
left out.  An operation that fails ends the program at once; here it leaves a state with norms `none`
(`Verif.Model.Raise` has the exact version, `Verif.Props.Raise` relates the two).  Loops carry fuel; `outOfFuel` is shown unreachable where termination is claimed.
-/

namespace Verif.Drv

/-- `norm < tolerance` with NaN comparing false. -/
def below : Option ℝ → ℝ → Prop
  | some x, tol => x < tol
  | none, _ => False

/-- How a solution algorithm ends; `solves` counts the linear systems solved. -/
inductive Outcome (S : Type*) where
  | returned (s : S) (solves : ℕ)
  | threw (solves : ℕ)
  | outOfFuel

/-! ## Monolithic -/

/-- Operations of `monolithic_algorithm`
(`source/gradient_crystal_plasticity/solve.cc:152-335`). -/
structure MonoOps (S A : Type*) where
  /-- `store_trial_solution(); reset_and_update_internal_variables();` (208-211) -/
  pre : S → S
  /-- `active_set_algorithm(true)` for rate-independent behaviour (213): recompute both sets,
  reset the inactive values. -/
  recompute : S → S
  /-- `distribute_affine_constraints_to_trial_solution(); assemble_linear_system();` (217-220) -/
  post : S → S
  /-- `solve_linearized_system(); update_trial_solution(1.0);
  reset_and_update_internal_variables(); assemble_residual();` and the line search (230-256) -/
  newton : S → S
  /-- `reset_trial_solution(true)` (303) -/
  restart : S → S
  /-- `get_sub_l2_norms(residual).l2_norm()` -/
  norm : S → Option ℝ
  /-- `locally_owned_active_set` -/
  active : S → A

open Classical in
/-- The do-while loop (183-331) for rate-dependent behaviour.  `n` is
`nonlinear_iteration` before the pass. -/
noncomputable def monoRD {S A : Type*} (o : MonoOps S A) (nMax : ℕ) (tol : ℝ) :
    ℕ → ℕ → S → Outcome S
  | 0, _, _ => .outOfFuel
  | fuel + 1, n, s =>
    if ¬ n + 1 ≤ nMax then .threw n
    else
      let s' := o.newton (o.post (o.pre s))
      if below (o.norm s') tol then .returned s' (n + 1)
      else monoRD o nMax tol fuel (n + 1) s'

open Classical in
/-- The do-while loop (183-331) for rate-independent behaviour.  `flag` is
`flag_compute_active_set`, `k` the number of linear solves so far. -/
noncomputable def monoRI {S A : Type*} (o : MonoOps S A) (nMax : ℕ) (tol : ℝ) :
    ℕ → ℕ → Bool → ℕ → S → Outcome S
  | 0, _, _, _, _ => .outOfFuel
  | fuel + 1, n, flag, k, s =>
    if ¬ n + 1 ≤ nMax then .threw k
    else
      let s1 := o.pre s
      let s2 := if flag then o.recompute s1 else s1
      let s4 := o.newton (o.post s2)
      if below (o.norm s4) tol then
        let s5 := o.recompute s4
        if o.active s4 ≠ o.active s5 then monoRI o nMax tol fuel 0 false (k + 1) (o.restart s5)
        else .returned s5 (k + 1)
      else monoRI o nMax tol fuel (n + 1) false (k + 1) s4

/-! ## Staggered algorithms -/

/-- Operations of the staggered algorithms. -/
structure StagOps (S : Type*) where
  /-- one macro Newton iteration incl. line search, ending with the residual assembled at the
  new trial solution; the argument is the iteration number (`solve.cc:604-673` and `798-852`) -/
  macroIt : ℕ → S → S
  /-- active set, constraint distribution, optional reset of the slips before a micro loop
  (`solve.cc:443-467`, `880-893`) -/
  startMicro : S → S
  /-- one micro Newton iteration incl. line search, ending with the residual assembled at the
  new trial solution (`solve.cc:480-538`, `905-966`) -/
  microIt : S → S
  /-- `store_trial_solution(); reset_and_update_internal_variables(); assemble_residual();`
  at the top of the embracing loop (`solve.cc:767-773`) -/
  evaluate : S → S
  /-- `get_sub_l2_norms(residual)[0]` of the residual held -/
  macroNorm : S → Option ℝ
  /-- `get_sub_l2_norms(residual)[1]` of the residual held -/
  microNorm : S → Option ℝ

open Classical in
/-- Micro Newton loop (`solve.cc:479-572`, `904-1001`): `n` iterations were made.  The result
is the state and the number of iterations, or an exception. -/
noncomputable def microLoop {S : Type*} (o : StagOps S) (nMax : ℕ) (tol : ℝ) :
    ℕ → ℕ → S → Outcome S
  | 0, _, _ => .outOfFuel
  | fuel + 1, n, s =>
    if ¬ n + 1 ≤ nMax then .threw n
    else
      let s' := o.microIt s
      if below (o.microNorm s') tol then .returned s' (n + 1)
      else microLoop o nMax tol fuel (n + 1) s'

/-- Limits and tolerances of the staggered algorithms. -/
structure StagParams where
  nMacro : ℕ
  nMicro : ℕ
  nLoops : ℕ
  tolMacro : ℝ
  tolMicro : ℝ

open Classical in
/-- `bouncing_algorithm` (`solve.cc:339-711`).  `i` is `macro_nonlinear_iteration`, `c` is
`macro_loop_counter`, `m` is `flag_successful_micro_convergence`, `k` counts linear solves. -/
noncomputable def bouncing {S : Type*} (o : StagOps S) (p : StagParams) :
    ℕ → ℕ → ℕ → Bool → ℕ → S → Outcome S
  | 0, _, _, _, _, _ => .outOfFuel
  | fuel + 1, i, c, m, k, s =>
    if below (o.macroNorm s) p.tolMacro ∧ ¬ (c = 1 ∧ i = 0) then
      if m then .returned s k
      else
        match microLoop o p.nMicro p.tolMicro (p.nMicro + 1) 0 (o.startMicro s) with
        | .returned s' j =>
          if ¬ c + 1 ≤ p.nLoops then .threw (k + j)
          else bouncing o p fuel 0 (c + 1) true (k + j) s'
        | .threw j => .threw (k + j)
        | .outOfFuel => .outOfFuel
    else
      if ¬ i + 1 ≤ p.nMacro then .threw k
      else bouncing o p fuel (i + 1) c false (k + 1) (o.macroIt (i + 1) s)

open Classical in
/-- `embracing_algorihtm` (`solve.cc:715-1039`); `i` is `macro_nonlinear_iteration`, `m` is
`flag_successful_micro_convergence`, `k` counts linear solves.  `distribute_…` before the
loop (757) is part of the initial state. -/
noncomputable def embracing {S : Type*} (o : StagOps S) (p : StagParams) :
    ℕ → ℕ → Bool → ℕ → S → Outcome S
  | 0, _, _, _, _ => .outOfFuel
  | fuel + 1, i, m, k, s0 =>
    let s := o.evaluate s0
    if below (o.macroNorm s) p.tolMacro ∧ m = true then .returned s k
    else
      if ¬ i + 1 ≤ p.nMacro then .threw k
      else
        match microLoop o p.nMicro p.tolMicro (p.nMicro + 1) 0
            (o.startMicro (o.macroIt (i + 1) s)) with
        | .returned s' j => embracing o p fuel (i + 1) true (k + 1 + j) s'
        | .threw j => .threw (k + 1 + j)
        | .outOfFuel => .outOfFuel

/-! ## Linear solver control -/

/-- Tolerance handed to `dealii::SolverControl`
(`solve.cc:1069-1073`, `1229-1233`, `1399-1430`). -/
noncomputable def krylovTolerance (rhsNorm rel abs : ℝ) : ℝ := max (rhsNorm * rel) abs

end Verif.Drv
