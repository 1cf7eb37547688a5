import Verif.Model.Parallel
import Verif.Props.ActiveSet

/-!
# Processes leaving the Newton loop: C64
-/

namespace Verif.Par
open Verif Verif.Drv Verif.AS Verif.Sol

/-! ## Specification -/

/-- No process is left behind: the loop does not end with some processes done and others
waiting for them. -/
def Together {S : Type*} (r : Outcome S) : Prop := ∀ s p q, r ≠ .split s p q

/-! ## C64 -/

/-- C64 (part): processes leave the loop together if the behaviour is rate dependent, or if
each recomputation of the active sets changes them on all processes or on none.

Missing: rate-independent behaviour in general, see `C64_violated`. -/
theorem C64_together_partial {S A : Type*} {P : ℕ} (o : MonoOps S (Fin P → A)) (ri : Bool)
    (nMax : ℕ) (tol : ℝ)
    (h : ri = true → ∀ s, (∀ p, o.active s p = o.active (o.recompute s) p) ∨
      ∀ p, o.active s p ≠ o.active (o.recompute s) p)
    (fuel n : ℕ) (flag : Bool) (k : ℕ) (s : S) :
    Together (loop o ri nMax tol fuel n flag k s) := by
  induction fuel generalizing n flag k s with
  | zero => intro _ _ _ e; simp [loop] at e
  | succ fuel ih =>
    unfold loop
    split
    · intro _ _ _ e; simp at e
    · extract_lets s1 s2 s4 s5
      split
      · intro _ _ _ e; simp at e
      · split
        · next hex =>
          exfalso
          obtain ⟨p, q, hp, hq⟩ := hex
          cases ri with
          | false => exact hq ⟨hp.1, by simp⟩
          | true =>
            have e5 : s5 = o.recompute s4 := if_pos ⟨rfl, hp.1⟩
            rcases h rfl s4 with hs | hs
            · exact hq ⟨hp.1, fun _ => by rw [e5]; exact hs q⟩
            · exact hs p (by rw [← e5]; exact hp.2 rfl)
        · split
          · exact ih _ _ _ _
          · exact ih _ _ _ _

/-- C64, one process: the loop is the sequential one. -/
theorem C64_single_partial {S A : Type*} (o : MonoOps S (Fin 1 → A)) (nMax : ℕ) (tol : ℝ)
    (fuel n : ℕ) (flag : Bool) (k : ℕ) (s : S) :
    Together (loop o true nMax tol fuel n flag k s) ∧
    (∀ s' j, loop o true nMax tol fuel n flag k s = .returned s' j ↔
      monoRI o nMax tol fuel n flag k s = .returned s' j) := by
  refine ⟨C64_together_partial o true nMax tol (fun _ s => ?_) fuel n flag k s, ?_⟩
  · by_cases e : o.active s 0 = o.active (o.recompute s) 0
    · exact .inl fun p => by rw [Subsingleton.elim p 0]; exact e
    · exact .inr fun p => by rw [Subsingleton.elim p 0]; exact e
  · induction fuel generalizing n flag k s with
    | zero => simp [loop, monoRI]
    | succ fuel ih =>
      intro s' j
      unfold loop monoRI
      split
      · simp
      · extract_lets s1 s2 s4 s5 s2' s4' s5'
        have e2 : s2 = s2' := by simp [s2, s2']
        have e4 : s4 = s4' := by simp only [s4, s4', e2]
        by_cases hb : below (o.norm s4) tol
        · have e5 : s5 = s5' := by
            simp only [s5, s5', ← e4]; exact if_pos ⟨rfl, hb⟩
          rw [← e4, ← e5, if_pos hb]
          by_cases ha : o.active s4 = o.active s5
          · rw [if_pos (fun p => ⟨hb, fun _ => congrFun ha p⟩), if_neg (not_not.mpr ha)]
            simp
          · have h0 : ¬ ∀ p, leaves o true tol s4 s5 p := fun hl =>
              ha (funext fun p => (hl p).2 rfl)
            have h1 : ¬ ∃ p q : Fin 1, leaves o true tol s4 s5 p ∧ ¬ leaves o true tol s4 s5 q := by
              rintro ⟨p, q, hp, hq⟩
              rw [Subsingleton.elim q p] at hq; exact hq hp
            rw [if_neg h0, dif_neg h1, if_pos hb, if_pos ha]
            exact ih _ _ _ _ _ _
        · have e5 : s5 = s4 := if_neg fun h => hb h.2
          have h0 : ¬ ∀ p, leaves o true tol s4 s5 p := fun hl => hb (hl 0).1
          have h1 : ¬ ∃ p q : Fin 1, leaves o true tol s4 s5 p ∧ ¬ leaves o true tol s4 s5 q :=
            fun ⟨p, _, hp, _⟩ => hb hp.1
          rw [if_neg h0, dif_neg h1, if_neg hb, ← e4, if_neg hb, e5]
          exact ih _ _ _ _ _ _

/-! ### Witness: two processes, one slip degree of freedom each -/

/-- Trial microstresses of the two degrees of freedom and the active sets of the processes. -/
structure St where
  trial : ℕ → ℝ
  active : Fin 2 → List ℕ

/-- No constraints, yield stress 1. -/
def yield1 : Yield := ⟨true, 1, 1, fun _ => 1⟩

/-- Both processes determine their active sets, process `p` owning degree of freedom `p`; the
first Newton step raises the trial microstress of degree of freedom 1 above the yield stress.
The residual is zero after every step. -/
noncomputable def wOps : MonoOps St (Fin 2 → List ℕ) where
  pre := id
  recompute s := { s with active := fun p =>
    (determineActive (fun _ => none) (fun _ => none) (fun _ => none) [p.val] s.trial yield1).1 }
  post := id
  newton s := { s with trial := fun d => if d = 1 then 2 else 0 }
  restart := id
  norm _ := some 0
  active := St.active

theorem determine_single (t : ℕ → ℝ) (d : ℕ) :
    (determineActive (fun _ => none) (fun _ => none) (fun _ => none) [d] t yield1).1 =
      open Classical in if 1 < |t d| then [d] else [] := by
  simp only [determineActive, List.foldl_cons, List.foldl_nil, pass, added, isConstrained,
    identityMaster, Yield.at, yield1]
  by_cases h : 1 < |t d| <;> simp [h]

/-- C64 is violated: with the model of the active-set determination, a converged Newton step
after which the material starts to flow only in the part of process 1 makes process 0 leave
the loop while process 1 starts it anew. -/
theorem C64_violated (nMax : ℕ) (hn : 1 ≤ nMax) (tol : ℝ) (ht : 0 < tol) (fuel : ℕ) :
    ∃ s, loop wOps true nMax tol (fuel + 1) 0 true 0 ⟨fun _ => 0, fun _ => []⟩ =
      .split s 0 1 := by
  unfold loop
  rw [if_neg (by omega)]
  extract_lets s1 s2 s4 s5
  have hb : below (wOps.norm s4) tol := by simpa [wOps, below] using ht
  have e2 : s2 = wOps.recompute s1 := if_pos ⟨rfl, rfl⟩
  have e5 : s5 = wOps.recompute s4 := if_pos ⟨rfl, hb⟩
  have a4 : s4.active = fun _ => [] := by
    show s2.active = _
    rw [e2]
    funext p
    refine (determine_single s1.trial p.val).trans ?_
    simp [s1, wOps]
  have a5 : s5.active = fun p => if p = 1 then [1] else [] := by
    rw [e5]
    funext p
    refine (determine_single s4.trial p.val).trans ?_
    fin_cases p <;> simp [s4, wOps]
  have l0 : leaves wOps true tol s4 s5 0 := ⟨hb, fun _ => by
    show s4.active 0 = s5.active 0
    simp [a4, a5]⟩
  have l1 : ¬ leaves wOps true tol s4 s5 1 := fun h => by
    have : s4.active 1 = s5.active 1 := h.2 rfl
    simp [a4, a5] at this
  rw [if_neg fun h => l1 (h 1)]
  have hex : ∃ p q : Fin 2, leaves wOps true tol s4 s5 p ∧ ¬ leaves wOps true tol s4 s5 q :=
    ⟨0, 1, l0, l1⟩
  rw [dif_pos hex]
  refine ⟨s5, ?_⟩
  have hp : hex.choose = 0 := by
    have := hex.choose_spec.choose_spec.1
    rcases Fin.exists_fin_two.mp ⟨hex.choose, rfl⟩ with h | h
    · exact h
    · rw [h] at this; exact absurd this l1
  have hq : hex.choose_spec.choose = 1 := by
    have := hex.choose_spec.choose_spec.2
    rcases Fin.exists_fin_two.mp ⟨hex.choose_spec.choose, rfl⟩ with h | h
    · rw [h] at this; exact absurd l0 this
    · exact h
  have hp' : (hex.choose : ℕ) = 0 := by rw [hp]; rfl
  have hq' : (hex.choose_spec.choose : ℕ) = 1 := by rw [hq]; rfl
  exact congrArg₂ (Outcome.split s5) hp' hq'

/-- Non-vacuity of the partial theorem: both active sets change, or none does. -/
example : ∃ (o : MonoOps Bool (Fin 2 → Bool)),
    (∀ s, (∀ p, o.active s p = o.active (o.recompute s) p) ∨
      ∀ p, o.active s p ≠ o.active (o.recompute s) p) ∧
    o.active false 0 ≠ o.active (o.recompute false) 0 :=
  ⟨{ pre := id, recompute := fun _ => true, post := id, newton := id, restart := id,
     norm := fun _ => none, active := fun s _ => s }, by intro s; cases s <;> simp, by simp⟩

end Verif.Par
