import Verif.Model.NewtonLog
import Verif.Props.Statistics
import Verif.Props.Utilities

/-!
# C95, C96: the log of the nonlinear solver
-/

namespace Verif.Drv
open Verif.Util

/-! ## Specification -/

/-- Euclidean norm of the two entries. -/
noncomputable def SpecTotal (x : Sub) : Option ℝ :=
  match x.u, x.g with
  | some a, some b => some (Real.sqrt (a ^ 2 + b ^ 2))
  | _, _ => none

/-- The row that opens a loop: the residual it starts from. -/
noncomputable def SpecOpen (x : Sub) : Line :=
  .row { n := 0, k := 0, l := 0, ns := some 0, nsU := some 0, nsG := some 0
         r := SpecTotal x, rU := x.u, rG := x.g, rate := some 0 }

/-- Product of two numbers. -/
noncomputable def SpecMul (a b : Option ℝ) : Option ℝ :=
  match a, b with
  | some a, some b => some (a * b)
  | _, _ => none

/-- The row of iteration `n`: linear and line search iterations, norms of the relaxed step and of the residual
reached, order of convergence. -/
noncomputable def SpecRow (n : ℕ) (q : Step) (x : Sub) (rate : Option ℝ) : Line :=
  .row { n := n, k := q.krylov, l := q.search
         ns := SpecMul q.relax (SpecTotal q.update), nsU := SpecMul q.relax q.update.u
         nsG := SpecMul q.relax q.update.g
         r := SpecTotal x, rU := x.u, rG := x.g, rate := rate }

/-- State in which the system of iteration `j + 1` is assembled, after the state `s`; `fresh`: the active set is
determined in the first iteration. -/
def linearise {S A : Type*} (o : MonoOps S A) (ri fresh : Bool) (j : ℕ) (s : S) : S :=
  o.post (if ri = true ∧ fresh = true ∧ j = 0 then o.recompute (o.pre s) else o.pre s)

/-- State after `j` iterations from `s`. -/
def iterated {S A : Type*} (o : MonoOps S A) (ri fresh : Bool) (s : S) : ℕ → S
  | 0 => s
  | j + 1 => o.newton (linearise o ri fresh j (iterated o ri fresh s j))

/-- The rows of `n` iterations from `s`. -/
noncomputable def SpecMonoLines {S A : Type*} (o : MonoOps S A) (q : LogOps S) (ri fresh : Bool) (s : S)
    (n : ℕ) : List Line :=
  if n = 0 then [] else
    SpecOpen (q.sub (linearise o ri fresh 0 s)) ::
      (List.range n).map fun j =>
        SpecRow (j + 1) (q.step (iterated o ri fresh s (j + 1))) (q.sub (iterated o ri fresh s (j + 1)))
          (cRate (o.norm (iterated o ri fresh s (j + 1)))
            (o.norm (linearise o ri fresh j (iterated o ri fresh s j))))

/-- Newton iterations with one active set. -/
structure Attempt (S : Type*) where
  start : S
  fresh : Bool
  n : ℕ

namespace Attempt
variable {S A : Type*} (o : MonoOps S A) (q : LogOps S) (ri : Bool) (T : Attempt S)

/-- State after the attempt. -/
def finish : S := iterated o ri T.fresh T.start T.n

/-- Lines of the attempt. -/
noncomputable def lines : List Line := SpecMonoLines o q ri T.fresh T.start T.n

/-- The last iteration is the first with a small residual. -/
def Converged (tol : ℝ) : Prop :=
  1 ≤ T.n ∧ ∀ j, 1 ≤ j → j ≤ T.n →
    (SmallResidual (o.norm (iterated o ri T.fresh T.start j)) tol ↔ j = T.n)

/-- No small residual was met. -/
def Failed (tol : ℝ) : Prop :=
  ∀ j, 1 ≤ j → j ≤ T.n → ¬ SmallResidual (o.norm (iterated o ri T.fresh T.start j)) tol

end Attempt

/-- Finished attempts after which the active set changed; the state the next attempt starts from. -/
inductive SpecAttempts {S A : Type*} (o : MonoOps S A) (ri : Bool) (tol : ℝ) (s : S) :
    List (Attempt S) → S → Prop
  | nil : SpecAttempts o ri tol s [] s
  | snoc (done : List (Attempt S)) (T : Attempt S) (h : SpecAttempts o ri tol s done T.start)
      (h1 : T.fresh = true ↔ done = []) (h2 : T.Converged o ri tol) (h3 : ri = true)
      (h4 : o.active (T.finish o ri) ≠ o.active (o.recompute (T.finish o ri))) :
      SpecAttempts o ri tol s (done ++ [T]) (o.restart (o.recompute (T.finish o ri)))

/-- The rows of `n` micro iterations from `s`. -/
noncomputable def SpecMicroLines {S : Type*} (o : StagOps S) (q : LogOps S) (s : S) (n : ℕ) : List Line :=
  if n = 0 then [] else
    SpecOpen (q.microStart s) ::
      (List.range n).map fun j =>
        SpecRow (j + 1) (q.step (o.microIt^[j + 1] s)) (q.sub (o.microIt^[j + 1] s))
          (cRateMicro (q.sub (o.microIt^[j + 1] s)).g (q.microStart (o.microIt^[j] s)).g)

/-- The rows of the first `n` macro iterations from `s`. -/
noncomputable def SpecMacroLines {S : Type*} (o : StagOps S) (q : LogOps S) (s : S) (n : ℕ) : List Line :=
  if n = 0 then [] else
    SpecOpen (q.macroStart 1 s) ::
      (List.range n).map fun j =>
        SpecRow (j + 1) (q.step (macroAfter o s (j + 1))) (q.sub (macroAfter o s (j + 1)))
          (cRate (q.sub (macroAfter o s (j + 1))).u (q.macroStart (j + 1) (macroAfter o s j)).u)

/-- The lines of solution loop number `c`. -/
noncomputable def SpecLoopLines {S : Type*} (o : StagOps S) (q : LogOps S) (c : ℕ) (L : Loop S) : List Line :=
  .text (" Linear momentum balance: Starting solution loop #" ++ toString c) ::
    (SpecMacroLines o q L.start L.nMacro ++
      .text "  Solution converges!\n" ::
      .text (" Pseudo-balance: Starting solution loop #" ++ toString c) ::
      (SpecMicroLines o q (o.startMicro (L.corrected o)) L.nMicro ++ [.text "  Solution converges!\n"]))

/-- The lines of the loops, numbered from one. -/
noncomputable def SpecLoops {S : Type*} (o : StagOps S) (q : LogOps S) (loops : List (Loop S)) : List Line :=
  (loops.zipIdx.map fun x => SpecLoopLines o q (x.2 + 1) x.1).flatten

/-- The lines of a pass of the embracing algorithm. -/
noncomputable def SpecPassLines {S : Type*} (o : StagOps S) (q : LogOps S) (P : Pass S) : List Line :=
  (if P.number = 1 then [SpecOpen (q.sub (o.evaluate P.start))] else []) ++
  SpecRow P.number (q.step (P.corrected o)) (q.sub (P.corrected o)) (cRate (q.sub (P.corrected o)).u P.old) ::
    .text "  Microloop..." ::
    (SpecMicroLines o q (o.startMicro (P.corrected o)) P.nMicro ++ [.text "  converges!"])

/-- The rows of iterations (those that open a loop have number zero). -/
def SpecIterations (l : List Line) : List LogRow :=
  l.filterMap fun x => match x with
    | .row r => if r.n = 0 then none else some r
    | .text _ => none

/-- The norms the algorithms compare with the tolerances are those the log shows. -/
structure Shown {S : Type*} (o : StagOps S) (q : LogOps S) : Prop where
  macroNorm : ∀ s, o.macroNorm s = (q.sub s).u
  microNorm : ∀ s, o.microNorm s = (q.sub s).g

/-! ## Helpers -/

theorem total_spec (x : Sub) : x.total = SpecTotal x := by
  rcases x with ⟨_ | a, _ | b⟩ <;> rfl

theorem mul_spec (a b : Option ℝ) : mulN a b = SpecMul a b := by
  rcases a with _ | a <;> rcases b with _ | b <;> rfl

theorem zero_spec (x : Sub) : Line.row (rowZero x) = SpecOpen x := by
  unfold rowZero SpecOpen; rw [total_spec]

theorem row_spec (n : ℕ) (q : Step) (x : Sub) (rate : Option ℝ) :
    Line.row (rowOf n q x rate) = SpecRow n q x rate := by
  unfold rowOf SpecRow; rw [total_spec, total_spec, mul_spec, mul_spec, mul_spec]

/-! ## Monolithic algorithm -/

/-- C95: logging does not change what the algorithm does. -/
theorem C95_same_rate_dependent {S A : Type*} (o : MonoOps S A) (q : LogOps S) (nMax : ℕ) (tol : ℝ)
    (fuel n : ℕ) (flag : Bool) (s : S) :
    (monoLog o q false nMax tol fuel n flag n s).1 = monoRD o nMax tol fuel n s := by
  induction fuel generalizing n flag s with
  | zero => rfl
  | succ fuel ih =>
    unfold monoLog monoRD
    by_cases h : n + 1 ≤ nMax
    · rw [if_neg (not_not.2 h), if_neg (not_not.2 h)]
      simp only [Bool.false_eq_true, if_false]
      rw [prepare_false]
      by_cases hb : below (o.norm (o.newton (o.post (o.pre s)))) tol
      · rw [if_pos hb, if_pos hb]
      · rw [if_neg hb, if_neg hb]; exact ih _ _ _
    · rw [if_pos h, if_pos h]

theorem C95_same_rate_independent {S A : Type*} (o : MonoOps S A) (q : LogOps S) (nMax : ℕ) (tol : ℝ)
    (fuel n : ℕ) (flag : Bool) (k : ℕ) (s : S) :
    (monoLog o q true nMax tol fuel n flag k s).1 = monoRI o nMax tol fuel n flag k s := by
  induction fuel generalizing n flag k s with
  | zero => rfl
  | succ fuel ih =>
    unfold monoLog monoRI
    by_cases h : n + 1 ≤ nMax
    · rw [if_neg (not_not.2 h), if_neg (not_not.2 h)]
      simp only [if_true]
      rw [prepare_true]
      generalize o.newton (o.post (if flag = true then o.recompute (o.pre s) else o.pre s)) = s4
      by_cases hb : below (o.norm s4) tol
      · rw [if_pos hb, if_pos hb]
        by_cases ha : o.active s4 ≠ o.active (o.recompute s4)
        · rw [if_pos ha, if_pos ha]; exact ih _ _ _ _
        · rw [if_neg ha, if_neg ha]
      · rw [if_neg hb, if_neg hb]; exact ih _ _ _ _
    · rw [if_pos h, if_pos h]

theorem linearise_eq {S A : Type*} (o : MonoOps S A) (ri fresh : Bool) (j : ℕ) (flag : Bool) (s : S)
    (hf : flag = true ↔ fresh = true ∧ j = 0) : o.post (prepare o ri flag s) = linearise o ri fresh j s := by
  unfold linearise
  by_cases h : ri = true ∧ fresh = true ∧ j = 0
  · have h1 := hf.2 h.2
    rw [if_pos h, h.1, h1]
    rfl
  · rw [if_neg h]
    unfold prepare
    have : ¬ (ri && flag) = true := by
      rw [Bool.and_eq_true]; exact fun e => h ⟨e.1, hf.1 e.2⟩
    rw [if_neg this]

theorem mono_lines_succ {S A : Type*} (o : MonoOps S A) (q : LogOps S) (ri f : Bool) (s : S) (n : ℕ) :
    SpecMonoLines o q ri f s (n + 1) = SpecMonoLines o q ri f s n ++
      ((if n + 1 = 1 then [SpecOpen (q.sub (linearise o ri f n (iterated o ri f s n)))] else []) ++
        [SpecRow (n + 1) (q.step (iterated o ri f s (n + 1))) (q.sub (iterated o ri f s (n + 1)))
          (cRate (o.norm (iterated o ri f s (n + 1)))
            (o.norm (linearise o ri f n (iterated o ri f s n))))]) := by
  unfold SpecMonoLines
  rw [if_neg (by omega), range_map_succ]
  rcases Nat.eq_zero_or_pos n with rfl | hn
  · rfl
  · rw [if_neg (by omega), if_neg (by omega)]; simp

/-- What the lines of a run are, `head` having been written before. -/
def MonoLogged {S A : Type*} (o : MonoOps S A) (q : LogOps S) (ri : Bool) (nMax : ℕ) (tol : ℝ) (s : S)
    (head : List Line) (e : Outcome S × List Line) : Prop :=
  match e.1 with
  | .returned t k => ∃ done T, SpecAttempts o ri tol s done T.start ∧ (T.fresh = true ↔ done = []) ∧
      T.Converged o ri tol ∧ k = ((done ++ [T]).map Attempt.n).sum ∧
      (∀ T' ∈ done ++ [T], T'.n ≤ nMax) ∧
      t = (if ri = true then o.recompute (T.finish o ri) else T.finish o ri) ∧
      (ri = true → o.active (T.finish o ri) = o.active (o.recompute (T.finish o ri))) ∧
      head ++ e.2 = ((done ++ [T]).map (Attempt.lines o q ri)).flatten
  | .threw k => ∃ done T, SpecAttempts o ri tol s done T.start ∧ (T.fresh = true ↔ done = []) ∧
      T.Failed o ri tol ∧ k = ((done ++ [T]).map Attempt.n).sum ∧ T.n = nMax ∧
      (∀ T' ∈ done, T'.n ≤ nMax) ∧
      head ++ e.2 = ((done ++ [T]).map (Attempt.lines o q ri)).flatten
  | .outOfFuel => True

theorem MonoLogged.shift {S A : Type*} {o : MonoOps S A} {q : LogOps S} {ri : Bool} {nMax : ℕ} {tol : ℝ}
    {s : S} {head lines : List Line} {e : Outcome S × List Line}
    (h : MonoLogged o q ri nMax tol s (head ++ lines) e) :
    MonoLogged o q ri nMax tol s head (e.1, lines ++ e.2) := by
  unfold MonoLogged at h ⊢
  simp only [List.append_assoc] at h ⊢
  exact h

theorem mono_log {S A : Type*} (o : MonoOps S A) (q : LogOps S) (ri : Bool) (nMax : ℕ) (tol : ℝ) (s0 : S)
    (fuel n : ℕ) (flag : Bool) (k : ℕ) (s : S) (done : List (Attempt S)) (b : S) (fresh : Bool)
    (hrun : SpecAttempts o ri tol s0 done b) (hfr : fresh = true ↔ done = [])
    (hs : s = iterated o ri fresh b n) (hf : flag = true ↔ fresh = true ∧ n = 0)
    (hk : k = (done.map Attempt.n).sum + n) (hn : n ≤ nMax) (hd : ∀ T ∈ done, T.n ≤ nMax)
    (hi : Attempt.Failed o ri ⟨b, fresh, n⟩ tol) :
    MonoLogged o q ri nMax tol s0
      ((done.map (Attempt.lines o q ri)).flatten ++ SpecMonoLines o q ri fresh b n)
      (monoLog o q ri nMax tol fuel n flag k s) := by
  induction fuel generalizing n flag k s done b fresh with
  | zero => exact trivial
  | succ fuel ih =>
    unfold monoLog
    by_cases h : n + 1 ≤ nMax
    · rw [if_neg (not_not.2 h)]
      simp only
      rw [linearise_eq o ri fresh n flag s hf, zero_spec, row_spec, hs]
      have key := mono_lines_succ o q ri fresh b n
      have e4 : o.newton (linearise o ri fresh n (iterated o ri fresh b n)) =
        iterated o ri fresh b (n + 1) := rfl
      rw [e4]
      generalize ((if n + 1 = 1 then _ else _) ++ _ : List Line) = lines at key ⊢
      let T : Attempt S := ⟨b, fresh, n + 1⟩
      have hfin : T.finish o ri = iterated o ri fresh b (n + 1) := rfl
      have hlines : (done.map (Attempt.lines o q ri)).flatten ++ SpecMonoLines o q ri fresh b n ++ lines =
          ((done ++ [T]).map (Attempt.lines o q ri)).flatten := by
        rw [List.map_append, List.flatten_append, List.append_assoc, ← key]
        simp [T, Attempt.lines]
      have hsum : k + 1 = ((done ++ [T]).map Attempt.n).sum := by
        rw [hk, List.map_append, List.sum_append]; simp [T]; omega
      have hall : ∀ T' ∈ done ++ [T], T'.n ≤ nMax := by
        intro T' h'
        rcases List.mem_append.1 h' with h' | h'
        · exact hd _ h'
        · rw [List.mem_singleton.1 h']; exact h
      by_cases hb : below (o.norm (iterated o ri fresh b (n + 1))) tol
      · rw [if_pos hb]
        have conv : T.Converged o ri tol := by
          refine ⟨Nat.le_add_left 1 n, fun j h1 h2 => ?_⟩
          by_cases e : j = n + 1
          · subst e; exact iff_of_true ((below_iff _ _).1 hb) rfl
          · exact iff_of_false (hi j h1 (by have : j ≤ n + 1 := h2; show j ≤ n; omega)) e
        by_cases hri : ri = true
        · rw [if_pos hri]
          by_cases ha : o.active (iterated o ri fresh b (n + 1)) ≠
              o.active (o.recompute (iterated o ri fresh b (n + 1)))
          · rw [if_pos ha]
            refine MonoLogged.shift ?_
            rw [hlines]
            have := ih 0 false (k + 1) (o.restart (o.recompute (T.finish o ri))) (done ++ [T])
              (o.restart (o.recompute (T.finish o ri))) false (.snoc done T hrun hfr conv hri ha)
              (by simp) rfl (by simp) (by rw [hsum]; rfl) (Nat.zero_le _) hall
              (fun j h1 h2 => by have : j ≤ 0 := h2; omega)
            have e0 : SpecMonoLines o q ri false (o.restart (o.recompute (T.finish o ri))) 0 = [] := by
              unfold SpecMonoLines; rw [if_pos rfl]
            rw [e0, List.append_nil] at this
            exact this
          · rw [if_neg ha]
            exact ⟨done, T, hrun, hfr, conv, hsum, hall, by rw [if_pos hri]; rfl,
              fun _ => not_not.1 ha, hlines⟩
        · rw [if_neg hri]
          exact ⟨done, T, hrun, hfr, conv, hsum, hall, by rw [if_neg hri]; rfl,
            fun e => absurd e hri, hlines⟩
      · rw [if_neg hb]
        refine MonoLogged.shift ?_
        rw [List.append_assoc, ← key]
        refine ih (n + 1) false (k + 1) _ done b fresh hrun hfr rfl (by simp) (by omega) h hd ?_
        intro j h1 h2
        by_cases e : j = n + 1
        · subst e; exact fun q => hb ((below_iff _ _).2 q)
        · exact hi j h1 (by have : j ≤ n + 1 := h2; show j ≤ n; omega)
    · rw [if_pos h]
      refine ⟨done, ⟨b, fresh, n⟩, hrun, hfr, hi, ?_, ?_, hd, ?_⟩
      · rw [hk, List.map_append, List.sum_append]; simp
      · show n = nMax; omega
      · rw [List.map_append, List.flatten_append]; simp [Attempt.lines]

theorem mono_start {S A : Type*} (o : MonoOps S A) (q : LogOps S) (ri : Bool) (nMax : ℕ) (tol : ℝ) (fuel : ℕ)
    (s : S) : MonoLogged o q ri nMax tol s [] (monoLog o q ri nMax tol fuel 0 true 0 s) := by
  have := mono_log o q ri nMax tol s fuel 0 true 0 s [] s true .nil (by simp) rfl (by simp) rfl
    (Nat.zero_le _) (by simp) (fun j h1 h2 => by have : j ≤ 0 := h2; omega)
  have e0 : SpecMonoLines o q ri true s 0 = [] := by unfold SpecMonoLines; rw [if_pos rfl]
  rwa [e0] at this

/-- C95, monolithic algorithm, accepted step.  The step consists of attempts with one active set each; the
log has for each of them the residual it starts from and one row per Newton iteration, numbered from one,
with the norms reached.  In each attempt the last row is the only one with a small residual; the last attempt
is the one that leads to the accepted state.  Rate dependent behaviour: one attempt. -/
theorem C95_monolithic {S A : Type*} (o : MonoOps S A) (q : LogOps S) (ri : Bool) (nMax : ℕ) (tol : ℝ)
    (fuel : ℕ) (s t : S) (k : ℕ) (log : List Line)
    (h : monoLog o q ri nMax tol fuel 0 true 0 s = (.returned t k, log)) :
    ∃ done T, SpecAttempts o ri tol s done T.start ∧ (T.fresh = true ↔ done = []) ∧
      T.Converged o ri tol ∧ k = ((done ++ [T]).map Attempt.n).sum ∧
      (∀ T' ∈ done ++ [T], T'.n ≤ nMax) ∧
      t = (if ri = true then o.recompute (T.finish o ri) else T.finish o ri) ∧
      (ri = true → o.active (T.finish o ri) = o.active (o.recompute (T.finish o ri))) ∧
      (ri = false → done = []) ∧
      log = ((done ++ [T]).map (Attempt.lines o q ri)).flatten := by
  have := mono_start o q ri nMax tol fuel s
  rw [h] at this
  obtain ⟨done, T, h1, h2, h3, h4, h5, h6, h7, h8⟩ := this
  refine ⟨done, T, h1, h2, h3, h4, h5, h6, h7, fun e => ?_, h8⟩
  revert h1
  generalize T.start = x
  intro h1
  cases h1 with
  | nil => rfl
  | snoc done T h _ _ h3 _ => rw [e] at h3; cases h3

/-- C95, monolithic algorithm, step given up: the log is complete; its last attempt has the maximum number of
iterations and no small residual. -/
theorem C95_monolithic_threw {S A : Type*} (o : MonoOps S A) (q : LogOps S) (ri : Bool) (nMax : ℕ) (tol : ℝ)
    (fuel : ℕ) (s : S) (k : ℕ) (log : List Line)
    (h : monoLog o q ri nMax tol fuel 0 true 0 s = (.threw k, log)) :
    ∃ done T, SpecAttempts o ri tol s done T.start ∧ (T.fresh = true ↔ done = []) ∧
      T.Failed o ri tol ∧ k = ((done ++ [T]).map Attempt.n).sum ∧ T.n = nMax ∧
      (∀ T' ∈ done, T'.n ≤ nMax) ∧
      log = ((done ++ [T]).map (Attempt.lines o q ri)).flatten := by
  have := mono_start o q ri nMax tol fuel s
  rw [h] at this
  exact this

/-! ## Staggered algorithms -/

theorem micro_log_same {S : Type*} (o : StagOps S) (q : LogOps S) (nMax : ℕ) (tol : ℝ) (fuel n : ℕ) (s : S) :
    (microLog o q nMax tol fuel n s).1 = microLoop o nMax tol fuel n s := by
  induction fuel generalizing n s with
  | zero => rfl
  | succ fuel ih =>
    unfold microLog microLoop
    by_cases h : n + 1 ≤ nMax
    · rw [if_neg (not_not.2 h), if_neg (not_not.2 h)]
      simp only
      by_cases hb : below (o.microNorm (o.microIt s)) tol
      · rw [if_pos hb, if_pos hb]
      · rw [if_neg hb, if_neg hb]; exact ih _ _
    · rw [if_pos h, if_pos h]

/-- C95: logging does not change what the algorithm does. -/
theorem C95_same_bouncing {S : Type*} (o : StagOps S) (q : LogOps S) (p : StagParams) (fuel i c b : ℕ)
    (m : Bool) (k : ℕ) (s : S) :
    (bouncingLog o q p fuel i c b m k s).1 = bouncing o p fuel i c m k s := by
  induction fuel generalizing i c b m k s with
  | zero => rfl
  | succ fuel ih =>
    unfold bouncingLog bouncing
    by_cases h : below (o.macroNorm s) p.tolMacro ∧ ¬ (c = 1 ∧ i = 0)
    · rw [if_pos h, if_pos h]
      cases m with
      | true => rfl
      | false =>
        simp only [Bool.false_eq_true, if_false]
        rw [micro_log_same]
        generalize microLoop o p.nMicro p.tolMicro (p.nMicro + 1) 0 (o.startMicro s) = e
        rcases e with ⟨s', j⟩ | j | _
        · simp only
          by_cases hc : c + 1 ≤ p.nLoops
          · rw [if_neg (not_not.2 hc), if_neg (not_not.2 hc)]; exact ih _ _ _ _ _ _
          · rw [if_pos hc, if_pos hc]
        · rfl
        · rfl
    · rw [if_neg h, if_neg h]
      by_cases hi : i + 1 ≤ p.nMacro
      · rw [if_neg (not_not.2 hi), if_neg (not_not.2 hi)]; exact ih _ _ _ _ _ _
      · rw [if_pos hi, if_pos hi]

theorem C95_same_embracing {S : Type*} (o : StagOps S) (q : LogOps S) (p : StagParams) (fuel i : ℕ)
    (m : Bool) (k : ℕ) (old tmp : Option ℝ) (s : S) :
    (embracingLog o q p fuel i m k old tmp s).1 = embracing o p fuel i m k s := by
  induction fuel generalizing i m k old tmp s with
  | zero => rfl
  | succ fuel ih =>
    unfold embracingLog embracing
    simp only
    by_cases h : below (o.macroNorm (o.evaluate s)) p.tolMacro ∧ m = true
    · rw [if_pos h, if_pos h]
    · rw [if_neg h, if_neg h]
      by_cases hi : i + 1 ≤ p.nMacro
      · rw [if_neg (not_not.2 hi), if_neg (not_not.2 hi), micro_log_same]
        generalize microLoop o p.nMicro p.tolMicro (p.nMicro + 1) 0
          (o.startMicro (o.macroIt (i + 1) (o.evaluate s))) = e
        rcases e with ⟨s', j⟩ | j | _
        · exact ih _ _ _ _ _ _
        · rfl
        · rfl
      · rw [if_pos hi, if_pos hi]

theorem micro_lines_succ {S : Type*} (o : StagOps S) (q : LogOps S) (s : S) (n : ℕ) :
    SpecMicroLines o q s (n + 1) = SpecMicroLines o q s n ++
      ((if n + 1 = 1 then [SpecOpen (q.microStart (o.microIt^[n] s))] else []) ++
        [SpecRow (n + 1) (q.step (o.microIt^[n + 1] s)) (q.sub (o.microIt^[n + 1] s))
          (cRateMicro (q.sub (o.microIt^[n + 1] s)).g (q.microStart (o.microIt^[n] s)).g)]) := by
  unfold SpecMicroLines
  rw [if_neg (by omega), range_map_succ]
  rcases Nat.eq_zero_or_pos n with rfl | hn
  · rfl
  · rw [if_neg (by omega), if_neg (by omega)]; simp

/-- What the lines of a micro loop from `s` are, `head` having been written before. -/
def MicroLogged {S : Type*} (o : StagOps S) (q : LogOps S) (nMax : ℕ) (tol : ℝ) (s : S)
    (head : List Line) (e : Outcome S × List Line) : Prop :=
  match e.1 with
  | .returned t k => 1 ≤ k ∧ k ≤ nMax ∧ t = o.microIt^[k] s ∧
      (∀ j, 1 ≤ j → j ≤ k → (SmallResidual (o.microNorm (o.microIt^[j] s)) tol ↔ j = k)) ∧
      head ++ e.2 = SpecMicroLines o q s k
  | .threw k => k = nMax ∧ (∀ j, 1 ≤ j → j ≤ k → ¬ SmallResidual (o.microNorm (o.microIt^[j] s)) tol) ∧
      head ++ e.2 = SpecMicroLines o q s k
  | .outOfFuel => False

theorem micro_log {S : Type*} (o : StagOps S) (q : LogOps S) (nMax : ℕ) (tol : ℝ) (s : S) (fuel n : ℕ)
    (hfuel : nMax + 1 ≤ fuel + n) (hn : n ≤ nMax)
    (hi : ∀ j, 1 ≤ j → j ≤ n → ¬ SmallResidual (o.microNorm (o.microIt^[j] s)) tol) :
    MicroLogged o q nMax tol s (SpecMicroLines o q s n) (microLog o q nMax tol fuel n (o.microIt^[n] s)) := by
  induction fuel generalizing n with
  | zero => omega
  | succ fuel ih =>
    unfold microLog
    by_cases h : n + 1 ≤ nMax
    · rw [if_neg (not_not.2 h)]
      simp only
      rw [zero_spec, row_spec, ← Function.iterate_succ_apply' o.microIt n s]
      have key := micro_lines_succ o q s n
      generalize ((if n + 1 = 1 then _ else _) ++ _ : List Line) = lines at key ⊢
      by_cases hb : below (o.microNorm (o.microIt^[n + 1] s)) tol
      · rw [if_pos hb]
        refine ⟨Nat.le_add_left 1 n, h, rfl, fun j h1 h2 => ?_, key.symm⟩
        by_cases e : j = n + 1
        · subst e; exact iff_of_true ((below_iff _ _).1 hb) rfl
        · exact iff_of_false (hi j h1 (by omega)) e
      · rw [if_neg hb]
        have := ih (n + 1) (by omega) h (fun j h1 h2 => by
          by_cases e : j = n + 1
          · subst e; exact fun q => hb ((below_iff _ _).2 q)
          · exact hi j h1 (by omega))
        rw [key] at this
        unfold MicroLogged at this ⊢
        simp only [List.append_assoc] at this ⊢
        exact this
    · rw [if_pos h]
      exact ⟨by show n = nMax; omega, hi, by simp⟩

theorem micro_log_start {S : Type*} (o : StagOps S) (q : LogOps S) (nMax : ℕ) (tol : ℝ) (s : S) :
    MicroLogged o q nMax tol s [] (microLog o q nMax tol (nMax + 1) 0 s) := by
  have := micro_log o q nMax tol s (nMax + 1) 0 (by omega) (Nat.zero_le _) (fun j h1 h2 => by omega)
  have e0 : SpecMicroLines o q s 0 = [] := by unfold SpecMicroLines; rw [if_pos rfl]
  rwa [e0] at this

theorem macro_lines_succ {S : Type*} (o : StagOps S) (q : LogOps S) (s : S) (n : ℕ) :
    SpecMacroLines o q s (n + 1) = SpecMacroLines o q s n ++
      ((if n + 1 = 1 then [SpecOpen (q.macroStart (n + 1) (macroAfter o s n))] else []) ++
        [SpecRow (n + 1) (q.step (macroAfter o s (n + 1))) (q.sub (macroAfter o s (n + 1)))
          (cRate (q.sub (macroAfter o s (n + 1))).u (q.macroStart (n + 1) (macroAfter o s n)).u)]) := by
  unfold SpecMacroLines
  rw [if_neg (by omega), range_map_succ]
  rcases Nat.eq_zero_or_pos n with rfl | hn
  · rfl
  · rw [if_neg (by omega), if_neg (by omega)]; simp

theorem loops_snoc {S : Type*} (o : StagOps S) (q : LogOps S) (done : List (Loop S)) (L : Loop S) :
    SpecLoops o q (done ++ [L]) = SpecLoops o q done ++ SpecLoopLines o q (done.length + 1) L := by
  unfold SpecLoops
  rw [List.zipIdx_append]
  simp

/-- What the lines of a run of the bouncing algorithm are. -/
def BounceLogged {S : Type*} (o : StagOps S) (q : LogOps S) (p : StagParams) (s : S)
    (head : List Line) (e : Outcome S × List Line) : Prop :=
  match e.1 with
  | .returned t k => ∃ loops, SpecBounce o p s loops t ∧ loops ≠ [] ∧
      SmallResidual (o.macroNorm t) p.tolMacro ∧
      k = (loops.map fun L => L.nMacro + L.nMicro).sum ∧
      head ++ e.2 = SpecLoops o q loops ++ [macroTitle (loops.length + 1), .text "  Solution converges!"]
  | .threw k => ∃ loops b, SpecBounce o p s loops b ∧ (
      (∃ n, n = p.nMacro ∧
        (∀ j, 1 ≤ j → j ≤ n → ¬ SmallResidual (o.macroNorm (macroAfter o b j)) p.tolMacro) ∧
        k = (loops.map fun L => L.nMacro + L.nMicro).sum + n ∧
        head ++ e.2 = SpecLoops o q loops ++ macroTitle (loops.length + 1) :: SpecMacroLines o q b n) ∨
      (∃ i n, 1 ≤ i ∧ n = p.nMicro ∧
        (∀ j, 1 ≤ j → j ≤ i → (SmallResidual (o.macroNorm (macroAfter o b j)) p.tolMacro ↔ j = i)) ∧
        (∀ j, 1 ≤ j → j ≤ n →
          ¬ SmallResidual (o.microNorm (o.microIt^[j] (o.startMicro (macroAfter o b i)))) p.tolMicro) ∧
        k = (loops.map fun L => L.nMacro + L.nMicro).sum + i + n ∧
        head ++ e.2 = SpecLoops o q loops ++ macroTitle (loops.length + 1) :: (SpecMacroLines o q b i ++
          loopEnd :: microTitle (loops.length + 1) ::
            SpecMicroLines o q (o.startMicro (macroAfter o b i)) n)) ∨
      (loops ≠ [] ∧ p.nLoops ≤ loops.length ∧
        k = (loops.map fun L => L.nMacro + L.nMicro).sum ∧
        head ++ e.2 ++ [.text "  Solution converges!\n"] = SpecLoops o q loops))
  | .outOfFuel => True

theorem BounceLogged.shift {S : Type*} {o : StagOps S} {q : LogOps S} {p : StagParams} {s : S}
    {head lines : List Line} {e : Outcome S × List Line}
    (h : BounceLogged o q p s (head ++ lines) e) : BounceLogged o q p s head (e.1, lines ++ e.2) := by
  unfold BounceLogged at h ⊢
  simp only [List.append_assoc] at h ⊢
  exact h

theorem bounce_log {S : Type*} (o : StagOps S) (q : LogOps S) (p : StagParams) (s0 : S) (fuel i c u : ℕ)
    (m : Bool) (k : ℕ) (s : S) (done : List (Loop S)) (b : S)
    (hrun : SpecBounce o p s0 done b) (hs : s = macroAfter o b i) (hc : c = done.length + 1)
    (hu : u = done.length) (hm : m = true ↔ i = 0 ∧ done ≠ [])
    (hk : k = (done.map fun L => L.nMacro + L.nMicro).sum + i) (hin : i ≤ p.nMacro)
    (hi : ∀ j, 1 ≤ j → j < i → ¬ SmallResidual (o.macroNorm (macroAfter o b j)) p.tolMacro) :
    BounceLogged o q p s0 (SpecLoops o q done ++ macroTitle (done.length + 1) :: SpecMacroLines o q b i)
      (bouncingLog o q p fuel i c u m k s) := by
  induction fuel generalizing i c u m k s done b with
  | zero => exact trivial
  | succ fuel ih =>
    unfold bouncingLog
    by_cases hb : below (o.macroNorm s) p.tolMacro ∧ ¬ (c = 1 ∧ i = 0)
    · rw [if_pos hb]
      obtain ⟨hb, hci⟩ := hb
      have hb' := (below_iff _ _).1 hb
      cases hmv : m with
      | true =>
        obtain ⟨rfl, hd⟩ := hm.1 hmv
        rw [if_pos rfl]
        have hs' : s = b := hs
        have e0 : SpecMacroLines o q b 0 = [] := by unfold SpecMacroLines; rw [if_pos rfl]
        refine ⟨done, hs' ▸ hrun, hd, hb', by simpa using hk, ?_⟩
        rw [e0]; simp [allEnd]
      | false =>
        simp only [Bool.false_eq_true, if_false]
        have i1 : 1 ≤ i := by
          rcases Nat.eq_zero_or_pos i with h0 | h0
          · exfalso
            have : done = [] := by
              by_contra hd
              have := hm.2 ⟨h0, hd⟩
              rw [hmv] at this; cases this
            exact hci ⟨by rw [hc, this]; rfl, h0⟩
          · exact h0
        have hfirst : ∀ j, 1 ≤ j → j ≤ i →
            (SmallResidual (o.macroNorm (macroAfter o b j)) p.tolMacro ↔ j = i) := by
          intro j j1 j2
          by_cases e : j = i
          · subst e; exact iff_of_true (hs ▸ hb') rfl
          · exact iff_of_false (hi j j1 (lt_of_le_of_ne j2 e)) e
        have hmic := micro_log_start o q p.nMicro p.tolMicro (o.startMicro s)
        generalize microLog o q p.nMicro p.tolMicro (p.nMicro + 1) 0 (o.startMicro s) = e at hmic ⊢
        obtain ⟨e, ml⟩ := e
        cases e with
        | returned s' j =>
          obtain ⟨j1, j2, hs', hf', hl⟩ := hmic
          simp only
          let L : Loop S := ⟨b, i, j⟩
          have hcor : L.corrected o = s := hs.symm
          have hfin : L.finish o = s' := by rw [hs']; unfold Loop.finish; rw [hcor]
          have hrun' : SpecBounce o p s0 (done ++ [L]) s' := by
            rw [← hfin]
            exact SpecBounce.snoc done L hrun i1 j1 hfirst (by rw [hcor]; exact hf')
          have hml : ml = SpecMicroLines o q (o.startMicro (L.corrected o)) j := by
            rw [hcor]; exact hl
          have hsum : k + j = ((done ++ [L]).map fun L => L.nMacro + L.nMicro).sum := by
            rw [hk, List.map_append, List.sum_append]; simp [L]; omega
          have hlines : SpecLoops o q done ++ macroTitle (done.length + 1) :: SpecMacroLines o q b i ++
              ([loopEnd, microTitle (u + 1)] ++ ml ++ [loopEnd]) = SpecLoops o q (done ++ [L]) := by
            rw [loops_snoc, hml, hu]
            simp [SpecLoopLines, macroTitle, microTitle, loopEnd, L]
          by_cases hcl : c + 1 ≤ p.nLoops
          · rw [if_neg (not_not.2 hcl)]
            refine BounceLogged.shift ?_
            have := ih 0 (c + 1) (u + 1) true (k + j) s' (done ++ [L]) s' hrun' rfl (by simp [hc])
              (by simp [hu]) (by simp) (by rw [hsum]; rfl) (Nat.zero_le _) (fun q q1 q2 => by omega)
            have e0 : SpecMacroLines o q s' 0 = [] := by unfold SpecMacroLines; rw [if_pos rfl]
            rw [e0, ← hlines] at this
            rw [List.length_append] at this
            have ec : macroTitle (c + 1) = macroTitle (done.length + 1 + 1) := by rw [hc]
            rw [ec]
            simpa using this
          · rw [if_pos hcl]
            refine ⟨done ++ [L], s', hrun', Or.inr (Or.inr ⟨by simp, by simp; omega, hsum, ?_⟩)⟩
            rw [← hlines]; simp [loopEnd]
        | threw j =>
          obtain ⟨hj, hf', hl⟩ := hmic
          simp only
          refine ⟨done, b, hrun, Or.inr (Or.inl ⟨i, j, i1, hj, hfirst, by rw [← hs]; exact hf',
            by rw [hk], ?_⟩)⟩
          rw [← hs, ← hl, hu]; simp
        | outOfFuel => exact hmic.elim
    · rw [if_neg hb]
      have hnot : 1 ≤ i → ¬ SmallResidual (o.macroNorm s) p.tolMacro := fun i1 q =>
        hb ⟨(below_iff _ _).2 q, fun e => by omega⟩
      by_cases hin' : i + 1 ≤ p.nMacro
      · rw [if_neg (not_not.2 hin')]
        simp only
        rw [zero_spec, row_spec, hs]
        have e4 : o.macroIt (i + 1) (macroAfter o b i) = macroAfter o b (i + 1) := rfl
        rw [e4]
        have key := macro_lines_succ o q b i
        generalize ((if i + 1 = 1 then _ else _) ++ _ : List Line) = lines at key ⊢
        refine BounceLogged.shift ?_
        have := ih (i + 1) c u false (k + 1) (macroAfter o b (i + 1)) done b hrun rfl hc hu
          (by simp) (by omega) hin' (fun j j1 j2 => ?_)
        · rw [key] at this
          simpa using this
        · by_cases e : j = i
          · subst e; exact hs ▸ hnot j1
          · exact hi j j1 (by omega)
      · rw [if_pos hin']
        refine ⟨done, b, hrun, Or.inl ⟨i, by omega, fun j j1 j2 => ?_, hk, by simp⟩⟩
        by_cases e : j = i
        · subst e; exact hs ▸ hnot j1
        · exact hi j j1 (by omega)

theorem bounce_start {S : Type*} (o : StagOps S) (q : LogOps S) (p : StagParams) (fuel : ℕ) (s : S) :
    BounceLogged o q p s [] (bouncingRun o q p fuel s) := by
  have := bounce_log o q p s fuel 0 1 0 false 0 s [] s .nil rfl rfl rfl (by simp) (by simp)
    (Nat.zero_le _) (fun j h1 h2 => by omega)
  have e0 : SpecMacroLines o q s 0 = [] := by unfold SpecMacroLines; rw [if_pos rfl]
  rw [e0] at this
  unfold bouncingRun
  exact BounceLogged.shift (head := []) (lines := [macroTitle 1]) this

/-- C95, bouncing algorithm, accepted step: the log shows the solution loops one after the other, each with its
macro iterations and its micro iterations, and the final check. -/
theorem C95_bouncing {S : Type*} (o : StagOps S) (q : LogOps S) (p : StagParams) (fuel : ℕ) (s t : S) (k : ℕ)
    (log : List Line) (h : bouncingRun o q p fuel s = (.returned t k, log)) :
    ∃ loops, SpecBounce o p s loops t ∧ loops ≠ [] ∧
      SmallResidual (o.macroNorm t) p.tolMacro ∧
      k = (loops.map fun L => L.nMacro + L.nMicro).sum ∧
      log = SpecLoops o q loops ++
        [.text (" Linear momentum balance: Starting solution loop #" ++ toString (loops.length + 1)),
          .text "  Solution converges!"] := by
  have := bounce_start o q p fuel s
  rw [h] at this
  exact this

/-- C95, bouncing algorithm, step given up: the log ends with the macro loop, the micro loop or the solution
loop that reached its limit. -/
theorem C95_bouncing_threw {S : Type*} (o : StagOps S) (q : LogOps S) (p : StagParams) (fuel : ℕ) (s : S)
    (k : ℕ) (log : List Line) (h : bouncingRun o q p fuel s = (.threw k, log)) :
    ∃ loops b, SpecBounce o p s loops b ∧ (
      (∃ n, n = p.nMacro ∧
        (∀ j, 1 ≤ j → j ≤ n → ¬ SmallResidual (o.macroNorm (macroAfter o b j)) p.tolMacro) ∧
        k = (loops.map fun L => L.nMacro + L.nMicro).sum + n ∧
        log = SpecLoops o q loops ++
          .text (" Linear momentum balance: Starting solution loop #" ++ toString (loops.length + 1)) ::
            SpecMacroLines o q b n) ∨
      (∃ i n, 1 ≤ i ∧ n = p.nMicro ∧
        (∀ j, 1 ≤ j → j ≤ i → (SmallResidual (o.macroNorm (macroAfter o b j)) p.tolMacro ↔ j = i)) ∧
        (∀ j, 1 ≤ j → j ≤ n →
          ¬ SmallResidual (o.microNorm (o.microIt^[j] (o.startMicro (macroAfter o b i)))) p.tolMicro) ∧
        k = (loops.map fun L => L.nMacro + L.nMicro).sum + i + n ∧
        log = SpecLoops o q loops ++
          .text (" Linear momentum balance: Starting solution loop #" ++ toString (loops.length + 1)) ::
            (SpecMacroLines o q b i ++ .text "  Solution converges!\n" ::
            .text (" Pseudo-balance: Starting solution loop #" ++ toString (loops.length + 1)) ::
            SpecMicroLines o q (o.startMicro (macroAfter o b i)) n)) ∨
      (loops ≠ [] ∧ p.nLoops ≤ loops.length ∧
        k = (loops.map fun L => L.nMacro + L.nMicro).sum ∧
        log ++ [.text "  Solution converges!\n"] = SpecLoops o q loops)) := by
  have := bounce_start o q p fuel s
  rw [h] at this
  exact this

/-- The order shown in the row of the final check: the norm after the last micro iteration against the norm
after the last macro iteration. -/
noncomputable def SpecLastRate {S : Type*} (o : StagOps S) (q : LogOps S) (passes : List (Pass S)) :
    Option ℝ :=
  match passes.getLast? with
  | none => none
  | some P => cRate (q.sub (P.finish o)).u (q.sub (P.corrected o)).u

theorem embrace_log {S : Type*} (o : StagOps S) (q : LogOps S) (p : StagParams) (hq : Shown o q) (s0 : S)
    (fuel i : ℕ) (m : Bool) (k : ℕ) (old tmp : Option ℝ) (s : S) (done : List (Pass S))
    (hrun : SpecEmbrace o p s0 done s) (hi : i = done.length) (hm : m = true ↔ done ≠ [])
    (hk : k = (done.map fun P => 1 + P.nMicro).sum)
    (ho : ∀ Q, done.getLast? = some Q → old = (q.sub (Q.corrected o)).u ∧ tmp = (q.sub (Q.finish o)).u)
    (t : S) (k' : ℕ) (log : List Line)
    (h : embracingLog o q p fuel i m k old tmp s = (.returned t k', log)) :
    ∃ passes u, SpecEmbrace o p s0 passes u ∧ t = o.evaluate u ∧ passes ≠ [] ∧
      SmallResidual (o.macroNorm t) p.tolMacro ∧
      k' = (passes.map fun P => 1 + P.nMicro).sum ∧
      (done.map (SpecPassLines o q)).flatten ++ log = (passes.map (SpecPassLines o q)).flatten ++
        [SpecRow 0 ⟨0, 0, some 0, ⟨some 0, some 0⟩⟩ (q.sub t) (SpecLastRate o q passes)] := by
  induction fuel generalizing i m k old tmp s done log with
  | zero => simp [embracingLog] at h
  | succ fuel ih =>
    unfold embracingLog at h
    simp only at h
    split at h
    · rename_i hb
      injection h with e1 e2
      injection e1 with e1 e3
      subst e1 e2 e3
      refine ⟨done, s, hrun, rfl, hm.1 hb.2, (below_iff _ _).1 hb.1, hk, ?_⟩
      rw [row_spec]
      rcases List.eq_nil_or_concat done with rfl | ⟨l, Q, rfl⟩
      · exact absurd rfl (hm.1 hb.2)
      · obtain ⟨h1, h2⟩ := ho Q (by simp)
        rw [if_neg (by simp [hi]), h1, h2]
        congr 3
        simp [SpecLastRate]
    · split at h
      · simp at h
      · have hmic := micro_log_start o q p.nMicro p.tolMicro
          (o.startMicro (o.macroIt (i + 1) (o.evaluate s)))
        rw [zero_spec, row_spec] at h
        generalize microLog o q p.nMicro p.tolMicro (p.nMicro + 1) 0
          (o.startMicro (o.macroIt (i + 1) (o.evaluate s))) = e at hmic h
        obtain ⟨e, ml⟩ := e
        cases e with
        | returned s' j =>
          obtain ⟨j1, j2, hs', hfirst, hl⟩ := hmic
          simp only at h
          let P : Pass S := ⟨s, i + 1, j, if i = 0 then (q.sub (o.evaluate s)).u else old⟩
          have hfin : P.finish o = s' := hs'.symm
          have hold : P.old = match done.getLast? with
              | none => o.macroNorm (o.evaluate s0)
              | some Q => o.macroNorm (Q.corrected o) := by
            show (if i = 0 then _ else _) = _
            rcases List.eq_nil_or_concat done with rfl | ⟨l, Q, rfl⟩
            · have : s = s0 := embrace_nil hrun rfl
              simp [hi, this, hq.macroNorm]
            · rw [if_neg (by simp [hi]), (ho Q (by simp)).1]
              simp [hq.macroNorm]
          have hrun' : SpecEmbrace o p s0 (done ++ [P]) s' := by
            rw [← hfin]
            exact .snoc done P hrun (by simp [P, hi]) j1 hold hfirst
          have hml : ml = SpecMicroLines o q (o.startMicro (P.corrected o)) j := hl
          generalize hF : embracingLog o q p fuel (i + 1) true (k + 1 + j)
            (q.sub (o.macroIt (i + 1) (o.evaluate s))).u (q.sub s').u s' = F at h
          obtain ⟨f1, f2⟩ := F
          injection h with e1 e2
          subst e1
          obtain ⟨passes, u, r1, r2, r3, r4, r5, r6⟩ := ih (i + 1) true (k + 1 + j) _ _ s' (done ++ [P])
            hrun' (by simp [hi]) (by simp) (by rw [hk]; simp [P]; omega)
            (fun Q e => by
              have : P = Q := by simpa using e
              subst this
              exact ⟨rfl, by rw [hfin]⟩) f2 hF
          refine ⟨passes, u, r1, r2, r3, r4, r5, ?_⟩
          rw [← r6, List.map_append, List.flatten_append, ← e2, hml]
          simp only [List.map_cons, List.map_nil, List.flatten_cons, List.flatten_nil]
          simp only [SpecPassLines, P, Pass.corrected, microOpen, microClose]
          by_cases h0 : i = 0 <;> simp [h0]
        | threw j => simp at h
        | outOfFuel => simp at h

/-- C95, embracing algorithm, accepted step: the log shows the passes one after the other, each with its macro
iteration and its micro iterations, the initial residual at the beginning, and a last row with the residual
of the accepted state. -/
theorem C95_embracing {S : Type*} (o : StagOps S) (q : LogOps S) (p : StagParams) (hq : Shown o q) (fuel : ℕ)
    (s t : S) (k : ℕ) (old tmp : Option ℝ) (log : List Line)
    (h : embracingLog o q p fuel 0 false 0 old tmp s = (.returned t k, log)) :
    ∃ passes u, SpecEmbrace o p s passes u ∧ t = o.evaluate u ∧ passes ≠ [] ∧
      SmallResidual (o.macroNorm t) p.tolMacro ∧
      k = (passes.map fun P => 1 + P.nMicro).sum ∧
      log = (passes.map (SpecPassLines o q)).flatten ++
        [SpecRow 0 ⟨0, 0, some 0, ⟨some 0, some 0⟩⟩ (q.sub t) (SpecLastRate o q passes)] := by
  have := embrace_log o q p hq s fuel 0 false 0 old tmp s [] .nil rfl (by simp) rfl (by simp) t k log h
  simpa using this

/-! ## Number of rows -/

theorem iter_append (a b : List Line) : SpecIterations (a ++ b) = SpecIterations a ++ SpecIterations b := by
  unfold SpecIterations; rw [List.filterMap_append]

theorem iter_text (m : String) (l : List Line) : SpecIterations (.text m :: l) = SpecIterations l := rfl

theorem iter_rows (c : Prop) [Decidable c] (x : Sub) (n : ℕ) (q : Step) (y : Sub) (rate : Option ℝ) :
    (SpecIterations ((if c then [Line.row (rowZero x)] else []) ++ [Line.row (rowOf (n + 1) q y rate)])).length
      = 1 := by
  by_cases h : c
  · rw [if_pos h]; rfl
  · rw [if_neg h]; rfl

/-- Linear systems solved. -/
def SpecSolves {S : Type*} : Outcome S → Option ℕ
  | .returned _ k => some k
  | .threw k => some k
  | .outOfFuel => none

theorem mono_count {S A : Type*} (o : MonoOps S A) (q : LogOps S) (ri : Bool) (nMax : ℕ) (tol : ℝ)
    (fuel n : ℕ) (flag : Bool) (k : ℕ) (s : S) (k' : ℕ)
    (h : SpecSolves (monoLog o q ri nMax tol fuel n flag k s).1 = some k') :
    k' = k + (SpecIterations (monoLog o q ri nMax tol fuel n flag k s).2).length := by
  induction fuel generalizing n flag k s with
  | zero => simp [monoLog, SpecSolves] at h
  | succ fuel ih =>
    unfold monoLog at h ⊢
    split at h
    · rename_i hn
      rw [if_pos hn]
      simp [SpecSolves] at h
      simp [SpecIterations, h]
    · rename_i hn
      rw [if_neg hn]
      simp only at h ⊢
      have one := iter_rows (n + 1 = 1) (q.sub (o.post (prepare o ri flag s))) n
        (q.step (o.newton (o.post (prepare o ri flag s)))) (q.sub (o.newton (o.post (prepare o ri flag s))))
        (cRate (o.norm (o.newton (o.post (prepare o ri flag s)))) (o.norm (o.post (prepare o ri flag s))))
      generalize ((if n + 1 = 1 then _ else _) ++ _ : List Line) = lines at one h ⊢
      generalize o.newton (o.post (prepare o ri flag s)) = s4 at h ⊢
      split at h
      · rename_i hb
        rw [if_pos hb]
        split at h
        · rename_i hri
          rw [if_pos hri]
          split at h
          · rename_i ha
            rw [if_pos ha]
            have := ih _ _ _ _ h
            simp only
            rw [iter_append, List.length_append, one]; omega
          · rename_i ha
            rw [if_neg ha]
            simp only [SpecSolves, Option.some.injEq] at h
            simp only; rw [one, h]
        · rename_i hri
          rw [if_neg hri]
          simp only [SpecSolves, Option.some.injEq] at h
          simp only; rw [one, h]
      · rename_i hb
        rw [if_neg hb]
        have := ih _ _ _ _ h
        simp only
        rw [iter_append, List.length_append, one]; omega

theorem micro_count {S : Type*} (o : StagOps S) (q : LogOps S) (nMax : ℕ) (tol : ℝ)
    (fuel n : ℕ) (s : S) (k' : ℕ)
    (h : SpecSolves (microLog o q nMax tol fuel n s).1 = some k') :
    k' = n + (SpecIterations (microLog o q nMax tol fuel n s).2).length := by
  induction fuel generalizing n s with
  | zero => simp [microLog, SpecSolves] at h
  | succ fuel ih =>
    unfold microLog at h ⊢
    split at h
    · rename_i hn
      rw [if_pos hn]
      simp [SpecSolves] at h
      simp [SpecIterations, h]
    · rename_i hn
      rw [if_neg hn]
      simp only at h ⊢
      have one := iter_rows (n + 1 = 1) (q.microStart s) n (q.step (o.microIt s)) (q.sub (o.microIt s))
        (cRateMicro (q.sub (o.microIt s)).g (q.microStart s).g)
      generalize ((if n + 1 = 1 then _ else _) ++ _ : List Line) = lines at one h ⊢
      split at h
      · rename_i hb
        rw [if_pos hb]
        simp only [SpecSolves, Option.some.injEq] at h
        simp only; rw [one, h]
      · rename_i hb
        rw [if_neg hb]
        have := ih _ _ h
        simp only
        rw [iter_append, List.length_append, one]; omega

theorem bounce_count {S : Type*} (o : StagOps S) (q : LogOps S) (p : StagParams) (fuel i c b : ℕ)
    (m : Bool) (k : ℕ) (s : S) (k' : ℕ)
    (h : SpecSolves (bouncingLog o q p fuel i c b m k s).1 = some k') :
    k' = k + (SpecIterations (bouncingLog o q p fuel i c b m k s).2).length := by
  induction fuel generalizing i c b m k s with
  | zero => simp [bouncingLog, SpecSolves] at h
  | succ fuel ih =>
    unfold bouncingLog at h ⊢
    split at h
    · rename_i hb
      rw [if_pos hb]
      cases m with
      | true =>
        simp only [if_true, SpecSolves, Option.some.injEq] at h
        simp [SpecIterations, allEnd, h]
      | false =>
        simp only [Bool.false_eq_true, if_false] at h ⊢
        have hc := micro_count o q p.nMicro p.tolMicro (p.nMicro + 1) 0 (o.startMicro s)
        generalize microLog o q p.nMicro p.tolMicro (p.nMicro + 1) 0 (o.startMicro s) = e at h hc ⊢
        obtain ⟨e, ml⟩ := e
        cases e with
        | returned s' j =>
          have hj := hc j rfl
          simp only at h hj ⊢
          by_cases hl : c + 1 ≤ p.nLoops
          · rw [if_neg (not_not.2 hl)] at h ⊢
            have := ih _ _ _ _ _ _ h
            simp only
            rw [iter_append, iter_append, iter_append]
            simp only [List.length_append]
            have e1 : (SpecIterations [loopEnd, microTitle (b + 1)]).length = 0 := rfl
            have e2 : (SpecIterations [loopEnd, macroTitle (c + 1)]).length = 0 := rfl
            rw [e1, e2]; omega
          · rw [if_pos hl] at h ⊢
            simp only [SpecSolves, Option.some.injEq] at h
            simp only
            rw [iter_append, List.length_append]
            have e1 : (SpecIterations [loopEnd, microTitle (b + 1)]).length = 0 := rfl
            rw [e1]; omega
        | threw j =>
          have hj := hc j rfl
          simp only [SpecSolves, Option.some.injEq] at h hj ⊢
          rw [iter_append, List.length_append]
          have e1 : (SpecIterations [loopEnd, microTitle (b + 1)]).length = 0 := rfl
          rw [e1]; omega
        | outOfFuel => simp [SpecSolves] at h
    · rename_i hb
      rw [if_neg hb]
      split at h
      · rename_i hn
        rw [if_pos hn]
        simp [SpecSolves] at h
        simp [SpecIterations, h]
      · rename_i hn
        rw [if_neg hn]
        simp only at h ⊢
        have := ih _ _ _ _ _ _ h
        rw [iter_append, List.length_append, iter_rows]; omega

theorem embrace_count {S : Type*} (o : StagOps S) (q : LogOps S) (p : StagParams) (fuel i : ℕ)
    (m : Bool) (k : ℕ) (old tmp : Option ℝ) (s : S) (k' : ℕ)
    (h : SpecSolves (embracingLog o q p fuel i m k old tmp s).1 = some k') :
    k' = k + (SpecIterations (embracingLog o q p fuel i m k old tmp s).2).length := by
  induction fuel generalizing i m k old tmp s with
  | zero => simp [embracingLog, SpecSolves] at h
  | succ fuel ih =>
    unfold embracingLog at h ⊢
    simp only at h ⊢
    split at h
    · rename_i hb
      rw [if_pos hb]
      simp only [SpecSolves, Option.some.injEq] at h
      simp [SpecIterations, rowOf, h]
    · rename_i hb
      rw [if_neg hb]
      split at h
      · rename_i hn
        rw [if_pos hn]
        simp [SpecSolves] at h
        simp [SpecIterations, h]
      · rename_i hn
        rw [if_neg hn]
        have hc := micro_count o q p.nMicro p.tolMicro (p.nMicro + 1) 0
          (o.startMicro (o.macroIt (i + 1) (o.evaluate s)))
        have one : (SpecIterations ((if i + 1 = 1 then [Line.row (rowZero (q.sub (o.evaluate s)))] else []) ++
            [Line.row (rowOf (i + 1) (q.step (o.macroIt (i + 1) (o.evaluate s)))
              (q.sub (o.macroIt (i + 1) (o.evaluate s)))
              (cRate (q.sub (o.macroIt (i + 1) (o.evaluate s))).u
                (if i = 0 then (q.sub (o.evaluate s)).u else old))), microOpen])).length = 1 := by
          by_cases h0 : i + 1 = 1
          · rw [if_pos h0]; rfl
          · rw [if_neg h0]; rfl
        generalize ((if i + 1 = 1 then _ else _) ++ _ : List Line) = lines at one h ⊢
        generalize microLog o q p.nMicro p.tolMicro (p.nMicro + 1) 0
          (o.startMicro (o.macroIt (i + 1) (o.evaluate s))) = e at h hc ⊢
        obtain ⟨e, ml⟩ := e
        cases e with
        | returned s' j =>
          have hj := hc j rfl
          simp only at h hj ⊢
          have := ih _ _ _ _ _ _ h
          rw [iter_append, iter_append, iter_append]
          simp only [List.length_append]
          have e1 : (SpecIterations [microClose]).length = 0 := rfl
          rw [e1]; omega
        | threw j =>
          have hj := hc j rfl
          simp only [SpecSolves, Option.some.injEq] at h hj ⊢
          rw [iter_append, List.length_append]; omega
        | outOfFuel => simp [SpecSolves] at h

/-- C95: for each algorithm and whether the step is accepted or given up, the log has one row with a positive
iteration number per linear system solved. -/
theorem C95_count {S A : Type*} (o : MonoOps S A) (w : StagOps S) (q : LogOps S) (ri : Bool) (nMax : ℕ)
    (tol : ℝ) (p : StagParams) (fuel : ℕ) (old tmp : Option ℝ) (s : S) :
    ∀ e ∈ [monoLog o q ri nMax tol fuel 0 true 0 s, bouncingRun w q p fuel s,
      embracingLog w q p fuel 0 false 0 old tmp s],
    ∀ k, SpecSolves e.1 = some k → (SpecIterations e.2).length = k := by
  intro e he k hk
  simp only [List.mem_cons, List.not_mem_nil, or_false] at he
  rcases he with rfl | rfl | rfl
  · have := mono_count o q ri nMax tol fuel 0 true 0 s k hk
    omega
  · have := bounce_count w q p fuel 0 1 0 false 0 s k hk
    have e : (SpecIterations (bouncingRun w q p fuel s).2) =
      SpecIterations (bouncingLog w q p fuel 0 1 0 false 0 s).2 := rfl
    rw [e]; omega
  · have := embrace_count w q p fuel 0 false 0 old tmp s k hk
    omega

/-! ## The last row -/

/-- The last row of a log. -/
def SpecLastRow (l : List Line) : Option LogRow :=
  (l.filterMap fun x => match x with
    | .row r => some r
    | .text _ => none).getLast?

theorem last_texts (a : List Line) (b : List String) : SpecLastRow (a ++ b.map Line.text) = SpecLastRow a := by
  unfold SpecLastRow
  have : ((b.map Line.text).filterMap fun x => match x with
    | .row r => some r
    | .text _ => none) = [] := by
    rw [List.filterMap_eq_nil_iff]
    intro x hx
    obtain ⟨m, -, rfl⟩ := List.mem_map.1 hx
    rfl
  rw [List.filterMap_append, this, List.append_nil]

theorem last_row (a : List Line) (r : LogRow) : SpecLastRow (a ++ [.row r]) = some r := by
  unfold SpecLastRow; rw [List.filterMap_append]; simp

/-- C95: the last row of the log of an accepted step shows the residual of the accepted solution
(rate-dependent monolithic, bouncing and embracing algorithm). -/
theorem C95_last {S A : Type*} (o : MonoOps S A) (w : StagOps S) (q : LogOps S) (nMax : ℕ)
    (tol : ℝ) (p : StagParams) (hq : Shown w q) (fuel : ℕ) (old tmp : Option ℝ) (s : S) :
    ∀ e ∈ [monoLog o q false nMax tol fuel 0 true 0 s, bouncingRun w q p fuel s,
      embracingLog w q p fuel 0 false 0 old tmp s],
    ∀ t k, e.1 = .returned t k →
      ∃ r, SpecLastRow e.2 = some r ∧ r.rU = (q.sub t).u ∧ r.rG = (q.sub t).g ∧ r.r = SpecTotal (q.sub t) := by
  intro e he t k hk
  obtain ⟨e1, log⟩ := e
  simp only at hk ⊢
  subst hk
  simp only [List.mem_cons, List.not_mem_nil, or_false] at he
  rcases he with he | he | he
  · obtain ⟨done, T, -, -, hT, -, -, ht, -, -, rfl⟩ := C95_monolithic o q false nMax tol fuel s t k log he.symm
    rw [if_neg (by simp)] at ht
    obtain ⟨n, hn⟩ := Nat.exists_eq_add_of_le' hT.1
    have : T.lines o q false = SpecMonoLines o q false T.fresh T.start (n + 1) := by
      unfold Attempt.lines; rw [hn]
    rw [List.map_append, List.flatten_append]
    simp only [List.map_cons, List.map_nil, List.flatten_cons, List.flatten_nil, List.append_nil]
    have ht' : t = iterated o false T.fresh T.start (n + 1) := by rw [ht]; unfold Attempt.finish; rw [hn]
    rw [this, mono_lines_succ, ← List.append_assoc, ← List.append_assoc, ← ht']
    exact ⟨_, last_row _ _, rfl, rfl, rfl⟩
  · obtain ⟨loops, h1, h2, -, -, rfl⟩ := C95_bouncing w q p fuel s t k log he.symm
    obtain ⟨l, L, hl⟩ := List.eq_nil_or_concat loops |>.resolve_left h2
    rw [List.concat_eq_append] at hl
    subst hl
    have ht : t = L.finish w ∧ 1 ≤ L.nMicro := by
      revert h1
      generalize hg : l ++ [L] = g
      intro h1
      cases h1 with
      | nil => simp at hg
      | snoc done L' h a b c d =>
        obtain ⟨-, e⟩ := List.append_inj' hg rfl
        have : L = L' := by simpa using e
        subst this
        exact ⟨rfl, b⟩
    obtain ⟨n, hn⟩ := Nat.exists_eq_add_of_le' ht.2
    have ht' : t = w.microIt^[n + 1] (w.startMicro (L.corrected w)) := by rw [ht.1, ← hn]; rfl
    have e := micro_lines_succ w q (w.startMicro (L.corrected w)) n
    rw [← ht'] at e
    have key : ∃ r : LogRow, ∃ a, SpecMicroLines w q (w.startMicro (L.corrected w)) L.nMicro = a ++ [.row r] ∧
        r.rU = (q.sub t).u ∧ r.rG = (q.sub t).g ∧ r.r = SpecTotal (q.sub t) := by
      rw [hn, e, ← List.append_assoc]
      exact ⟨_, _, rfl, rfl, rfl, rfl⟩
    obtain ⟨r, a, hr, h5⟩ := key
    refine ⟨r, ?_, h5⟩
    rw [loops_snoc]
    unfold SpecLoopLines
    rw [hr]
    have tx : ∀ (A B C : List Line) (x y z : Line) (m1 m2 m3 : String),
        A ++ x :: (B ++ y :: z :: (C ++ [Line.row r] ++ [.text m1])) ++ [.text m2, .text m3] =
        (A ++ x :: (B ++ y :: z :: C)) ++ [Line.row r] ++ [m1, m2, m3].map Line.text := by
      intros; simp
    rw [tx, last_texts, last_row]
  · obtain ⟨passes, u, -, -, -, -, -, rfl⟩ := C95_embracing w q p hq fuel s t k old tmp log he.symm
    exact ⟨_, last_row _ _, rfl, rfl, rfl⟩

/-! ## Columns -/

/-- The columns of the log and how their values are printed. -/
def SpecTitles : List (String × Format) :=
  [("N-Itr", .integer), ("K-Itr", .integer), ("L-Itr", .integer), ("(NS)_L2", .scientific),
    ("(NS_U)_L2", .scientific), ("(NS_G)_L2", .scientific), ("(R)_L2", .scientific), ("(R_U)_L2", .scientific),
    ("(R_G)_L2", .scientific), ("C-Rate", .decimal)]

/-- Helper: the logger has these columns in these formats. -/
def Ready (l : Logger) : Prop :=
  l.keys = SpecTitles.map Prod.fst ∧ ∀ x ∈ SpecTitles, ∃ v, l.data x.1 = some (v, x.2)

theorem ready_columns : Ready (after columns) := by
  unfold Ready after columns SpecTitles
  simp [Logger.step, Logger.declare, Logger.new]

theorem ready_update (l : Logger) (h : Ready l) (x : String × Format) (_hx : x ∈ SpecTitles) (v : ℝ) :
    Ready (l.step (.update x.1 v)) := by
  refine ⟨h.1, fun y hy => ?_⟩
  obtain ⟨w, hw⟩ := h.2 y hy
  simp only [Logger.step, Logger.update, Logger.put]
  by_cases e : y.1 = x.1
  · rw [if_pos e, ← e, hw]; exact ⟨v, rfl⟩
  · rw [if_neg e]; exact ⟨w, hw⟩

theorem ready_foldl (h : List Call) (hh : ∀ a ∈ h, ∃ x ∈ SpecTitles, ∃ v, a = Call.update x.1 v) (l : Logger)
    (hl : Ready l) : Ready (h.foldl Logger.step l) := by
  induction h generalizing l with
  | nil => exact hl
  | cons a h ih =>
    obtain ⟨x, hx, v, rfl⟩ := hh a (by simp)
    exact ih (fun b hb => hh b (by simp [hb])) _ (ready_update l hl x hx v)

theorem unsigned_nat (n : ℕ) (h : n < 2 ^ 32) : toUnsigned (n : ℝ) = some n := by
  unfold toUnsigned
  rw [if_pos ⟨by have : (0 : ℝ) ≤ n := Nat.cast_nonneg n; linarith, by exact_mod_cast h⟩, Nat.floor_natCast]

/-- C95: whatever was logged before, a row of the file shows the ten values under the ten titles. -/
theorem C95_columns (h : List Call) (hh : ∀ a ∈ h, ∃ x ∈ SpecTitles, ∃ v, a = Call.update x.1 v)
    (n k l : ℕ) (hn : n < 2 ^ 32) (hk : k < 2 ^ 32) (hl : l < 2 ^ 32) (ns nsU nsG r rU rG rate : ℝ) :
    (after (columns ++ h ++ updates n k l ns nsU nsG r rU rG rate)).headers = SpecTitles.map Prod.fst ∧
    (after (columns ++ h ++ updates n k l ns nsU nsG r rU rG rate)).line =
      some [.integer n, .integer k, .integer l, .scientific ns, .scientific nsU, .scientific nsG,
        .scientific r, .scientific rU, .scientific rG, .decimal rate] := by
  have hr : Ready (after (columns ++ h)) := by
    unfold after; rw [List.foldl_append]; exact ready_foldl h hh _ ready_columns
  have e : after (columns ++ h ++ updates n k l ns nsU nsG r rU rG rate) =
      (updates n k l ns nsU nsG r rU rG rate).foldl Logger.step (after (columns ++ h)) := by
    unfold after; rw [List.foldl_append]
  rw [e]
  generalize after (columns ++ h) = g at hr ⊢
  obtain ⟨hk', hd⟩ := hr
  refine ⟨?_, ?_⟩
  · unfold updates Logger.headers
    simp only [List.foldl_cons, List.foldl_nil, Logger.step, Logger.update, Logger.put]
    exact hk'
  · simp only [SpecTitles, List.forall_mem_cons, List.not_mem_nil, false_imp_iff, implies_true,
      and_true] at hd
    obtain ⟨⟨v1, d1⟩, ⟨v2, d2⟩, ⟨v3, d3⟩, ⟨v4, d4⟩, ⟨v5, d5⟩, ⟨v6, d6⟩, ⟨v7, d7⟩, ⟨v8, d8⟩, ⟨v9, d9⟩,
      ⟨v10, d10⟩⟩ := hd
    unfold updates Logger.line
    simp only [List.foldl_cons, List.foldl_nil, Logger.step, Logger.update, Logger.put]
    rw [hk']
    simp [SpecTitles, d1, d2, d3, d4, d5, d6, d7, d8, d9, d10, field, unsigned_nat n hn,
      unsigned_nat k hk, unsigned_nat l hl]

/-! ## Debug mode -/

/-- C96 (part): in debug mode a run ends as in release mode and writes the same log if every logged number is finite;
otherwise the program is ended and the log stops before the first row with another number. -/
theorem C96_debug_partial {S : Type*} (e : Outcome S × List Line) :
    ((∀ l ∈ e.2, ¬ l.Bad) → debugRun e = (some e.1, e.2)) ∧
    (∀ pre l post, e.2 = pre ++ l :: post → (∀ x ∈ pre, ¬ x.Bad) → l.Bad → debugRun e = (none, pre)) := by
  constructor
  · intro h
    unfold debugRun
    rw [if_neg (by push Not; exact h)]
  · intro pre l post he hp hl
    unfold debugRun
    rw [if_pos ⟨l, by rw [he]; simp, hl⟩, he]
    congr 1
    rw [List.takeWhile_append_of_pos (fun x hx => by simpa using hp x hx), List.takeWhile_cons_of_neg (by simpa using hl)]
    simp

/-- C96 is violated: when the first Newton iteration reaches the solution exactly (residual zero),
the release program accepts the step, the debug program is ended and the log keeps the opening row only.  So it
is, in general, when an order of convergence is not a number. -/
theorem C96_violated_exact {S A : Type*} (o : MonoOps S A) (q : LogOps S) (nMax : ℕ) (tol : ℝ) (fuel : ℕ) (s : S)
    (hn : 1 ≤ nMax) (ht : 0 < tol) (hz : o.norm (o.newton (o.post (o.pre s))) = some 0)
    (hf : ∃ a b, q.sub (o.post (o.pre s)) = ⟨some a, some b⟩) :
    ∃ log, monoLog o q false nMax tol (fuel + 1) 0 true 0 s =
        (.returned (o.newton (o.post (o.pre s))) 1, log) ∧ log.length = 2 ∧
      debugRun (monoLog o q false nMax tol (fuel + 1) 0 true 0 s) =
        (none, [SpecOpen (q.sub (o.post (o.pre s)))]) := by
  have e : monoLog o q false nMax tol (fuel + 1) 0 true 0 s =
      (.returned (o.newton (o.post (o.pre s))) 1,
        [Line.row (rowZero (q.sub (o.post (o.pre s)))),
          Line.row (rowOf 1 (q.step (o.newton (o.post (o.pre s)))) (q.sub (o.newton (o.post (o.pre s))))
            (cRate (o.norm (o.newton (o.post (o.pre s)))) (o.norm (o.post (o.pre s)))))]) := by
    rw [monoLog, if_neg (by omega)]
    simp only
    rw [prepare_false, if_pos (by rw [hz]; exact ht)]
    simp
  refine ⟨_, e, rfl, ?_⟩
  rw [e]
  refine (C96_debug_partial _).2 [SpecOpen (q.sub (o.post (o.pre s)))] _ [] (by rw [← zero_spec]; rfl) ?_ ?_
  · obtain ⟨a, b, hab⟩ := hf
    intro x hx
    rw [List.mem_singleton.1 hx, hab]
    simp [SpecOpen, Line.Bad, LogRow.Finite, SpecTotal]
  · have : cRate (o.norm (o.newton (o.post (o.pre s)))) (o.norm (o.post (o.pre s))) = none := by
      rw [hz]
      unfold cRate
      cases o.norm (o.post (o.pre s)) with
      | none => rfl
      | some x => simp
    rw [this]
    simp [Line.Bad, LogRow.Finite, rowOf]

/-! ## Concrete cases -/

/-- The log of `quadOps`. -/
noncomputable def quadLog : LogOps ℕ where
  sub s := ⟨some ((1 / 2) ^ 2 ^ s), some 0⟩
  macroStart _ s := ⟨some ((1 / 2) ^ 2 ^ s), some 0⟩
  microStart s := ⟨some ((1 / 2) ^ 2 ^ s), some 0⟩
  step s := ⟨s, 0, some 1, ⟨some 1, some 0⟩⟩

/-- Two iterations, three rows. -/
example : monoLog quadOps quadLog false 15 (1 / 10) 2 0 true 0 0 =
    (.returned 2 2, [SpecOpen ⟨some (1 / 2), some 0⟩,
      SpecRow 1 ⟨1, 0, some 1, ⟨some 1, some 0⟩⟩ ⟨some (1 / 4), some 0⟩ (some 2),
      SpecRow 2 ⟨2, 0, some 1, ⟨some 1, some 0⟩⟩ ⟨some (1 / 16), some 0⟩ (some 2)]) := by
  have nb : ¬ below (quadOps.norm 1) (1 / 10) := by simp only [below, quadOps]; norm_num
  have b : below (quadOps.norm 2) (1 / 10) := by simp only [below, quadOps]; norm_num
  have q0 := quad_rate 0
  have q1 := quad_rate 1
  have pr : ∀ f s, prepare quadOps false f s = s := by intro f s; cases f <;> rfl
  have n0 : quadOps.newton 0 = 1 := rfl
  have n1 : quadOps.newton 1 = 2 := rfl
  have p0 : ∀ s, quadOps.post s = s := fun _ => rfl
  rw [monoLog, if_neg (by norm_num)]
  simp only
  rw [pr, p0, n0, q0, if_neg nb, monoLog, if_neg (by norm_num)]
  simp only
  rw [pr, p0, n1, q1, if_pos b]
  simp only [Bool.false_eq_true, if_false]
  rw [zero_spec, row_spec, row_spec, if_pos (by norm_num), if_neg (by norm_num)]
  simp [quadLog]
  norm_num

/-- The log of `stagOps`. -/
noncomputable def stagLog : LogOps ℕ where
  sub s := ⟨stagOps.macroNorm s, stagOps.microNorm s⟩
  macroStart _ s := ⟨stagOps.macroNorm s, stagOps.microNorm s⟩
  microStart s := ⟨stagOps.macroNorm s, stagOps.microNorm s⟩
  step s := ⟨s, 0, some 1, ⟨some 1, some 0⟩⟩

example : Shown stagOps stagLog := ⟨fun _ => rfl, fun _ => rfl⟩

/-- The bouncing and the embracing algorithm accept the step from `0`; two linear systems. -/
example : (bouncingRun stagOps stagLog stagPrm 3 0).1 = .returned 2 2 ∧
    (embracingLog stagOps stagLog stagPrm 2 0 false 0 none none 0).1 = .returned 2 2 := by
  have n1 : stagOps.macroNorm 1 = some (1 / 4) := by simp [stagOps]
  have n2 : stagOps.macroNorm 2 = some (1 / 4) := by simp [stagOps]
  have ev : ∀ s, stagOps.evaluate s = s := fun _ => rfl
  have e1 : stagOps.macroIt (0 + 1) 0 = 1 := by simp [stagOps]
  have b : below (some (1 / 4 : ℝ)) stagPrm.tolMacro := by simp only [below, stagPrm]; norm_num
  have hm : microLoop stagOps stagPrm.nMicro stagPrm.tolMicro (stagPrm.nMicro + 1) 0
      (stagOps.startMicro 1) = .returned 2 1 := by
    have : stagOps.startMicro 1 = 1 := rfl
    rw [this, microLoop, if_neg (by simp [stagPrm])]
    simp only
    rw [if_pos (by simp [stagOps, below, stagPrm]; norm_num)]
    rfl
  constructor
  · have : (bouncingRun stagOps stagLog stagPrm 3 0).1 =
      (bouncingLog stagOps stagLog stagPrm 3 0 1 0 false 0 0).1 := rfl
    rw [this, C95_same_bouncing, bouncing, if_neg (by simp), if_neg (by simp [stagPrm]), e1, bouncing, n1,
      if_pos ⟨b, by simp⟩]
    simp only [Bool.false_eq_true, if_false]
    rw [hm]
    simp only
    rw [if_neg (by simp [stagPrm]), bouncing, n2, if_pos ⟨b, by simp⟩]
    simp
  · rw [C95_same_embracing, embracing]
    rw [if_neg (by simp), if_neg (by simp [stagPrm]), ev, e1, hm]
    simp only
    rw [embracing]
    rw [ev, n2, if_pos ⟨b, rfl⟩]

/-- A residual that vanishes after one iteration. -/
example : ∃ (o : MonoOps ℕ Unit) (q : LogOps ℕ), o.norm (o.newton (o.post (o.pre 0))) = some 0 ∧
    ∃ a b, q.sub (o.post (o.pre 0)) = ⟨some a, some b⟩ :=
  ⟨⟨id, id, id, fun s => s + 1, id, fun s => if s = 0 then some 1 else some 0, fun _ => ()⟩,
    ⟨fun _ => ⟨some 1, some 0⟩, fun _ _ => ⟨none, none⟩, fun _ => ⟨none, none⟩,
      fun _ => ⟨0, 0, none, ⟨none, none⟩⟩⟩, by simp, 1, 0, rfl⟩

end Verif.Drv
