import Verif.Model.Drivers
import Verif.Model.ActiveSet

/-!
# Model of the monolithic Newton loop on several processes

Every pass of the loop contains collective operations (assembly, linear solve, norms), so the
processes move through it in lockstep; the state `S` is the state of all of them.  Every
process has its own `locally_owned_active_set` and decides for itself whether it leaves the
loop; `split` is the outcome in which one process leaves and another one enters the next pass
and waits in its collective operations.
-/

namespace Verif.Par
open Verif Verif.Drv

/-- How the loop ends for a group of processes. -/
inductive Outcome (S : Type*) where
  | returned (s : S) (solves : ℕ)
  | threw (solves : ℕ)
  /-- process `leaves` is done, process `stays` is not -/
  | split (s : S) (leaves stays : ℕ)
  | outOfFuel

/-- Does process `p` leave the loop after the pass that ended in `s4`, `s5` being the state
after the recomputation of the active sets?  `flag_successful_convergence` with the
comparison of the *locally owned* active sets
(`source/gradient_crystal_plasticity/solve.cc:275-306, 331`).  There is no reduction over the
processes. -/
def leaves {S A : Type*} {P : ℕ} (o : MonoOps S (Fin P → A)) (ri : Bool) (tol : ℝ) (s4 s5 : S)
    (p : Fin P) : Prop :=
  below (o.norm s4) tol ∧ (ri = true → o.active s4 p = o.active s5 p)

open Classical in
/-- The do-while loop (`solve.cc:183-331`) on `P` processes; arguments as in `Drv.monoRI`.
`ri` is `flag_rate_independent`. -/
noncomputable def loop {S A : Type*} {P : ℕ} (o : MonoOps S (Fin P → A)) (ri : Bool)
    (nMax : ℕ) (tol : ℝ) : ℕ → ℕ → Bool → ℕ → S → Outcome S
  | 0, _, _, _, _ => .outOfFuel
  | fuel + 1, n, flag, k, s =>
    if ¬ n + 1 ≤ nMax then .threw k
    else
      let s1 := o.pre s
      let s2 := if ri = true ∧ flag = true then o.recompute s1 else s1
      let s4 := o.newton (o.post s2)
      let s5 := if ri = true ∧ below (o.norm s4) tol then o.recompute s4 else s4
      if ∀ p, leaves o ri tol s4 s5 p then .returned s5 (k + 1)
      else if h : ∃ p q : Fin P, leaves o ri tol s4 s5 p ∧ ¬ leaves o ri tol s4 s5 q then
        .split s5 h.choose h.choose_spec.choose
      else if below (o.norm s4) tol then loop o ri nMax tol fuel 0 false (k + 1) (o.restart s5)
      else loop o ri nMax tol fuel (n + 1) false (k + 1) s5

end Verif.Par
