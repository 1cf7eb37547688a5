import Verif.Model.Statistics
import Verif.Props.Drivers
import Mathlib.Analysis.SpecialFunctions.Pow.Real
import Mathlib.Analysis.SpecificLimits.Basic

/-!
# C90: statistics of the solution algorithms
-/

namespace Verif.Drv
open Filter Topology

/-! ## Specification -/

/-- Arithmetic mean: not a number if one of the values is not, or if there are none. -/
noncomputable def SpecMean (l : List (Option ℝ)) : Option ℝ :=
  if l = [] ∨ none ∈ l then none else some ((l.map fun x => x.getD 0).sum / l.length)

/-- Orders of the first `n` Newton iterations from `s` (rate dependent): norm of the residual after and at
the beginning of iteration `j + 1`. -/
noncomputable def SpecOrders {S A : Type*} (o : MonoOps S A) (s : S) (n : ℕ) : List (Option ℝ) :=
  (List.range n).map fun j =>
    cRate (o.norm (newtonIterate o (j + 1) s)) (o.norm (o.post (o.pre (newtonIterate o j s))))

/-- State after `n` iterations of the rate-independent algorithm without restart: the active set is
determined in the first iteration. -/
def riIterate {S A : Type*} (o : MonoOps S A) (s : S) : ℕ → S
  | 0 => s
  | n + 1 => o.newton (o.post (if n = 0 then o.recompute (o.pre s) else o.pre (riIterate o s n)))

/-- Orders of these iterations. -/
noncomputable def SpecOrdersRI {S A : Type*} (o : MonoOps S A) (s : S) (n : ℕ) : List (Option ℝ) :=
  (List.range n).map fun j => cRate (o.norm (riIterate o s (j + 1)))
    (o.norm (o.post (if j = 0 then o.recompute (o.pre s) else o.pre (riIterate o s j))))

/-- State after `j` macro iterations (numbered from one). -/
def macroAfter {S : Type*} (o : StagOps S) (s : S) : ℕ → S
  | 0 => s
  | j + 1 => o.macroIt (j + 1) (macroAfter o s j)

/-- A solution loop of the bouncing algorithm: macro iterations, then micro iterations. -/
structure Loop (S : Type*) where
  start : S
  nMacro : ℕ
  nMicro : ℕ

namespace Loop
variable {S : Type*} (o : StagOps S) (r : OldNorms S) (L : Loop S)

def corrected : S := macroAfter o L.start L.nMacro
def finish : S := o.microIt^[L.nMicro] (o.startMicro (L.corrected o))

/-- Mean order of the macro iterations. -/
noncomputable def macroMean : Option ℝ :=
  SpecMean ((List.range L.nMacro).map fun j =>
    cRate (o.macroNorm (macroAfter o L.start (j + 1))) (r.macroOld (j + 1) (macroAfter o L.start j)))

/-- Mean order of the micro iterations; an iteration that starts from residual zero counts with order zero. -/
noncomputable def microMean : Option ℝ :=
  SpecMean ((List.range L.nMicro).map fun j =>
    cRateMicro (o.microNorm (o.microIt^[j + 1] (o.startMicro (L.corrected o))))
      (r.microOld (o.microIt^[j] (o.startMicro (L.corrected o)))))

end Loop

/-- A sequence of solution loops from `s`; each makes at least one macro and one micro iteration and ends with
the first small residual. -/
inductive SpecBounce {S : Type*} (o : StagOps S) (p : StagParams) (s : S) : List (Loop S) → S → Prop
  | nil : SpecBounce o p s [] s
  | snoc (done : List (Loop S)) (L : Loop S) (h : SpecBounce o p s done L.start)
      (h1 : 1 ≤ L.nMacro) (h2 : 1 ≤ L.nMicro)
      (h3 : ∀ j, 1 ≤ j → j ≤ L.nMacro →
        (SmallResidual (o.macroNorm (macroAfter o L.start j)) p.tolMacro ↔ j = L.nMacro))
      (h4 : ∀ j, 1 ≤ j → j ≤ L.nMicro →
        (SmallResidual (o.microNorm (o.microIt^[j] (o.startMicro (L.corrected o)))) p.tolMicro ↔
          j = L.nMicro)) :
      SpecBounce o p s (done ++ [L]) (L.finish o)

/-- A pass of the embracing algorithm: one macro iteration, then micro iterations.  `old` is the norm the
macro iteration is compared with. -/
structure Pass (S : Type*) where
  start : S
  number : ℕ
  nMicro : ℕ
  old : Option ℝ

namespace Pass
variable {S : Type*} (o : StagOps S) (r : OldNorms S) (P : Pass S)

def corrected : S := o.macroIt P.number (o.evaluate P.start)
def finish : S := o.microIt^[P.nMicro] (o.startMicro (P.corrected o))

/-- Order of the macro iteration. -/
noncomputable def order : Option ℝ := cRate (o.macroNorm (P.corrected o)) P.old

/-- Mean order of the micro iterations. -/
noncomputable def microMean : Option ℝ :=
  SpecMean ((List.range P.nMicro).map fun j =>
    cRateMicro (o.microNorm (o.microIt^[j + 1] (o.startMicro (P.corrected o))))
      (r.microOld (o.microIt^[j] (o.startMicro (P.corrected o)))))

end Pass

/-- A sequence of passes from `s`: the first macro iteration is compared with the initial residual, the others
with the residual after the previous macro iteration. -/
inductive SpecEmbrace {S : Type*} (o : StagOps S) (p : StagParams) (s : S) : List (Pass S) → S → Prop
  | nil : SpecEmbrace o p s [] s
  | snoc (done : List (Pass S)) (P : Pass S) (h : SpecEmbrace o p s done P.start)
      (h1 : P.number = done.length + 1) (h2 : 1 ≤ P.nMicro)
      (h3 : P.old = match done.getLast? with
        | none => o.macroNorm (o.evaluate s)
        | some Q => o.macroNorm (Q.corrected o))
      (h4 : ∀ j, 1 ≤ j → j ≤ P.nMicro →
        (SmallResidual (o.microNorm (o.microIt^[j] (o.startMicro (P.corrected o)))) p.tolMicro ↔
          j = P.nMicro)) :
      SpecEmbrace o p s (done ++ [P]) (P.finish o)

/-- Content of a column. -/
def SpecColumn (t : Tab) (c : String) : List (Option ℝ) := ((t.find? fun q => q.1 = c).map Prod.snd).getD []

/-! ## Helpers -/

/-- Sum of the values. -/
noncomputable def sumN (l : List (Option ℝ)) : Option ℝ := l.foldl addN (some 0)

theorem sumN_append (l : List (Option ℝ)) (x : Option ℝ) : sumN (l ++ [x]) = addN (sumN l) x := by
  simp [sumN]

theorem sumN_eq (l : List (Option ℝ)) :
    sumN l = if none ∈ l then none else some (l.map fun x => x.getD 0).sum := by
  induction l using List.reverseRecOn with
  | nil => simp [sumN]
  | append_singleton l x ih =>
    rw [sumN_append, ih]
    by_cases h : none ∈ l
    · simp [h, addN]
    · cases x with
      | none => simp [h, addN]
      | some x => simp [h, addN]

theorem mean_eq (l : List (Option ℝ)) (n : ℕ) (hn : l.length = n) : divN (sumN l) n = SpecMean l := by
  subst hn
  unfold divN SpecMean
  rw [sumN_eq]
  by_cases h : l = []
  · simp [h]
  · by_cases h' : none ∈ l
    · simp [h, h']
    · simp [h, h']

theorem range_map_succ {α : Type*} (f : ℕ → α) (n : ℕ) :
    (List.range (n + 1)).map f = (List.range n).map f ++ [f n] := by
  rw [List.range_succ, List.map_append]; rfl

theorem prepare_false {S A : Type*} (o : MonoOps S A) (flag : Bool) (s : S) :
    prepare o false flag s = o.pre s := rfl

theorem prepare_true {S A : Type*} (o : MonoOps S A) (flag : Bool) (s : S) :
    prepare o true flag s = if flag = true then o.recompute (o.pre s) else o.pre s := by
  unfold prepare; rw [Bool.true_and]

/-! ## The statistics do not disturb the algorithms -/

/-- C90: keeping statistics does not change what the algorithm does. -/
theorem C90_same_rate_dependent {S A : Type*} (o : MonoOps S A) (nMax : ℕ) (tol : ℝ) (fuel n : ℕ)
    (flag : Bool) (sum : Option ℝ) (s : S) :
    (monoStat o false nMax tol fuel n flag n sum s).forget = monoRD o nMax tol fuel n s := by
  induction fuel generalizing n flag sum s with
  | zero => rfl
  | succ fuel ih =>
    unfold monoStat monoRD
    by_cases h : n + 1 ≤ nMax
    · rw [if_neg (not_not.2 h), if_neg (not_not.2 h)]
      simp only [Bool.false_eq_true, if_false]
      rw [prepare_false]
      by_cases hb : below (o.norm (o.newton (o.post (o.pre s)))) tol
      · rw [if_pos hb, if_pos hb]; rfl
      · rw [if_neg hb, if_neg hb]; exact ih _ _ _ _
    · rw [if_pos h, if_pos h]; rfl

theorem C90_same_rate_independent {S A : Type*} (o : MonoOps S A) (nMax : ℕ) (tol : ℝ) (fuel n : ℕ)
    (flag : Bool) (k : ℕ) (sum : Option ℝ) (s : S) :
    (monoStat o true nMax tol fuel n flag k sum s).forget = monoRI o nMax tol fuel n flag k s := by
  induction fuel generalizing n flag k sum s with
  | zero => rfl
  | succ fuel ih =>
    unfold monoStat monoRI
    by_cases h : n + 1 ≤ nMax
    · rw [if_neg (not_not.2 h), if_neg (not_not.2 h)]
      simp only [if_true]
      rw [prepare_true]
      generalize o.newton (o.post (if flag = true then o.recompute (o.pre s) else o.pre s)) = s4
      by_cases hb : below (o.norm s4) tol
      · rw [if_pos hb, if_pos hb]
        by_cases ha : o.active s4 ≠ o.active (o.recompute s4)
        · rw [if_pos ha, if_pos ha]; exact ih _ _ _ _ _
        · rw [if_neg ha, if_neg ha]; rfl
      · rw [if_neg hb, if_neg hb]; exact ih _ _ _ _ _
    · rw [if_pos h, if_pos h]; rfl

theorem micro_forget {S : Type*} (o : StagOps S) (r : OldNorms S) (nMax : ℕ) (tol : ℝ) (fuel n : ℕ)
    (sum : Option ℝ) (s : S) :
    microLoop o nMax tol fuel n s = match microStat o r nMax tol fuel n sum s with
      | .returned s' j _ => .returned s' j
      | .threw j => .threw j
      | .outOfFuel => .outOfFuel := by
  induction fuel generalizing n sum s with
  | zero => rfl
  | succ fuel ih =>
    unfold microStat microLoop
    by_cases h : n + 1 ≤ nMax
    · rw [if_neg (not_not.2 h), if_neg (not_not.2 h)]
      simp only
      by_cases hb : below (o.microNorm (o.microIt s)) tol
      · rw [if_pos hb, if_pos hb]
      · rw [if_neg hb, if_neg hb]; exact ih _ _ _
    · rw [if_pos h, if_pos h]

theorem C90_same_bouncing {S : Type*} (o : StagOps S) (r : OldNorms S) (p : StagParams) (fuel i c : ℕ)
    (m : Bool) (k : ℕ) (a : Sums) (s : S) :
    (bouncingStat o r p fuel i c m k a s).forget = bouncing o p fuel i c m k s := by
  induction fuel generalizing i c m k a s with
  | zero => rfl
  | succ fuel ih =>
    unfold bouncingStat bouncing
    by_cases h : below (o.macroNorm s) p.tolMacro ∧ ¬ (c = 1 ∧ i = 0)
    · rw [if_pos h, if_pos h]
      cases m with
      | true => rfl
      | false =>
        simp only [Bool.false_eq_true, if_false]
        rw [micro_forget o r _ _ _ _ (some 0)]
        generalize microStat o r p.nMicro p.tolMicro (p.nMicro + 1) 0 (some 0) (o.startMicro s) = e
        rcases e with ⟨s', j, avg⟩ | j | _
        · simp only
          by_cases hc : c + 1 ≤ p.nLoops
          · rw [if_neg (not_not.2 hc), if_neg (not_not.2 hc)]; exact ih _ _ _ _ _ _
          · rw [if_pos hc, if_pos hc]; rfl
        · rfl
        · rfl
    · rw [if_neg h, if_neg h]
      by_cases hi : i + 1 ≤ p.nMacro
      · rw [if_neg (not_not.2 hi), if_neg (not_not.2 hi)]; exact ih _ _ _ _ _ _
      · rw [if_pos hi, if_pos hi]; rfl

theorem C90_same_embracing {S : Type*} (o : StagOps S) (r : OldNorms S) (p : StagParams) (fuel i : ℕ)
    (m : Bool) (k : ℕ) (a : ESums) (s : S) :
    (embracingStat o r p fuel i m k a s).forget = embracing o p fuel i m k s := by
  induction fuel generalizing i m k a s with
  | zero => rfl
  | succ fuel ih =>
    unfold embracingStat embracing
    simp only
    by_cases h : below (o.macroNorm (o.evaluate s)) p.tolMacro ∧ m = true
    · rw [if_pos h, if_pos h]; rfl
    · rw [if_neg h, if_neg h]
      by_cases hi : i + 1 ≤ p.nMacro
      · rw [if_neg (not_not.2 hi), if_neg (not_not.2 hi), micro_forget o r _ _ _ _ (some 0)]
        generalize microStat o r p.nMicro p.tolMicro (p.nMicro + 1) 0 (some 0)
          (o.startMicro (o.macroIt (i + 1) (o.evaluate s))) = e
        rcases e with ⟨s', j, avg⟩ | j | _
        · exact ih _ _ _ _ _
        · rfl
        · rfl
      · rw [if_pos hi, if_pos hi]; rfl

/-! ## Monolithic -/

theorem iterate_newton {S A : Type*} (o : MonoOps S A) (n : ℕ) (s : S) :
    newtonIterate o (n + 1) s = o.newton (o.post (o.pre (newtonIterate o n s))) := by
  unfold newtonIterate; rw [Function.iterate_succ_apply']

theorem rd_row {S A : Type*} (o : MonoOps S A) (nMax : ℕ) (tol : ℝ) (s : S) (fuel n : ℕ) (flag : Bool)
    (sum : Option ℝ) (hs : sum = sumN (SpecOrders o s n)) (t : S) (k : ℕ) (row : Row)
    (h : monoStat o false nMax tol fuel n flag n sum (newtonIterate o n s) = .returned t k row) :
    t = newtonIterate o k s ∧ row = ⟨k, SpecMean (SpecOrders o s k), some 0, some 0, some 0⟩ := by
  induction fuel generalizing n flag sum with
  | zero => simp [monoStat] at h
  | succ fuel ih =>
    unfold monoStat at h
    split at h
    · simp at h
    · simp only [Bool.false_eq_true, if_false] at h
      rw [prepare_false, ← iterate_newton] at h
      have hsum : addN sum (cRate (o.norm (newtonIterate o (n + 1) s))
          (o.norm (o.post (o.pre (newtonIterate o n s))))) = sumN (SpecOrders o s (n + 1)) := by
        rw [hs, ← sumN_append]; unfold SpecOrders; rw [range_map_succ]
      rw [hsum] at h
      split at h
      · injection h with h1 h2 h3
        subst h1 h2 h3
        exact ⟨rfl, by rw [mean_eq _ _ (by simp [SpecOrders])]⟩
      · exact ih _ _ _ rfl h

/-- C90, monolithic algorithm, rate dependent: the row holds the number of Newton iterations of the step and
the mean of their orders. -/
theorem C90_monolithic {S A : Type*} (o : MonoOps S A) (nMax : ℕ) (tol : ℝ) (s t : S) (k : ℕ) (row : Row)
    (fuel : ℕ) (h : monoStat o false nMax tol fuel 0 true 0 (some 0) s = .returned t k row) :
    row.iterations = k ∧ t = newtonIterate o k s ∧ row.mono = SpecMean (SpecOrders o s k) ∧
    row.macroAvg = some 0 ∧ row.reduced = some 0 ∧ row.microAvg = some 0 := by
  obtain ⟨h1, h2⟩ := rd_row o nMax tol s fuel 0 true (some 0) rfl t k row h
  subst h2
  exact ⟨rfl, h1, rfl, rfl, rfl, rfl⟩

theorem ri_row {S A : Type*} (o : MonoOps S A) (nMax : ℕ) (tol : ℝ) (s0 : S) (fuel n k : ℕ) (flag : Bool)
    (sum : Option ℝ) (s : S) (hnk : n ≤ k) (hf : flag = true ↔ k = 0)
    (hs : n = k → s = riIterate o s0 n ∧ sum = sumN (SpecOrdersRI o s0 n)) (t : S) (k' : ℕ) (row : Row)
    (h : monoStat o true nMax tol fuel n flag k sum s = .returned t k' row) :
    1 ≤ row.iterations ∧ row.iterations ≤ nMax ∧ row.iterations ≤ k' ∧
    row.macroAvg = some 0 ∧ row.reduced = some 0 ∧ row.microAvg = some 0 ∧
    (row.iterations = k' → t = o.recompute (riIterate o s0 k') ∧
      row.mono = SpecMean (SpecOrdersRI o s0 k')) := by
  induction fuel generalizing n flag sum k s with
  | zero => simp [monoStat] at h
  | succ fuel ih =>
    unfold monoStat at h
    split at h
    · simp at h
    · rename_i hn
      simp only [if_true] at h
      rw [prepare_true] at h
      have key : n = k → o.newton (o.post (if flag = true then o.recompute (o.pre s) else o.pre s)) =
            riIterate o s0 (n + 1) ∧
          addN sum (cRate (o.norm (o.newton (o.post (if flag = true then o.recompute (o.pre s) else o.pre s))))
            (o.norm (o.post (if flag = true then o.recompute (o.pre s) else o.pre s)))) =
            sumN (SpecOrdersRI o s0 (n + 1)) := by
        intro e
        obtain ⟨e1, e2⟩ := hs e
        have e3 : (if flag = true then o.recompute (o.pre s) else o.pre s) =
            if n = 0 then o.recompute (o.pre s0) else o.pre (riIterate o s0 n) := by
          by_cases h0 : n = 0
          · rw [if_pos (hf.2 (e ▸ h0)), if_pos h0, e1, h0]; rfl
          · rw [if_neg (fun q => h0 (e.trans (hf.1 q))), if_neg h0, e1]
        rw [e3]
        refine ⟨rfl, ?_⟩
        rw [e2, ← sumN_append]
        unfold SpecOrdersRI
        rw [range_map_succ]
        rfl
      generalize o.newton (o.post (if flag = true then o.recompute (o.pre s) else o.pre s)) = s4 at h key
      generalize addN sum (cRate (o.norm s4) (o.norm (o.post (if flag = true then o.recompute (o.pre s)
        else o.pre s)))) = sum' at h key
      split at h
      · split at h
        · exact ih 0 (k + 1) false sum' _ (by omega) (by simp) (by omega) h
        · injection h with h1 h2 h3
          subst h1 h2 h3
          refine ⟨by simp, by simpa using hn, by simpa using hnk, rfl, rfl, rfl, fun e => ?_⟩
          have e' : n = k := by simpa using e
          obtain ⟨e1, e2⟩ := key e'
          subst e'
          exact ⟨by rw [e1], by simp only; rw [e2, mean_eq _ _ (by simp [SpecOrdersRI])]⟩
      · refine ih (n + 1) (k + 1) false sum' _ (by omega) (by simp) (fun e => ?_) h
        exact key (by omega)

/-- C90, monolithic algorithm, rate independent, when the first active set is the final one (as many
iterations reported as linear systems solved): the reported order is the mean.  With restarts it is not,
see `C90_violated_restart`. -/
theorem C90_rate_independent_partial {S A : Type*} (o : MonoOps S A) (nMax : ℕ) (tol : ℝ) (s t : S) (k : ℕ)
    (row : Row) (fuel : ℕ) (h : monoStat o true nMax tol fuel 0 true 0 (some 0) s = .returned t k row) :
    1 ≤ row.iterations ∧ row.iterations ≤ nMax ∧ row.iterations ≤ k ∧
    row.macroAvg = some 0 ∧ row.reduced = some 0 ∧ row.microAvg = some 0 ∧
    (row.iterations = k → t = o.recompute (riIterate o s k) ∧ row.mono = SpecMean (SpecOrdersRI o s k)) :=
  ri_row o nMax tol s fuel 0 0 true (some 0) s le_rfl (by simp) (fun _ => ⟨rfl, rfl⟩) t k row h

/-- Norms `1/2`, `1/4`, restart, `1/2`, `1/4`: states `0 … 4`. -/
noncomputable def restartOps : MonoOps ℕ ℕ where
  pre s := s
  recompute s := if s = 1 then 2 else s
  post s := s
  newton s := s + 1
  restart s := s + 1
  norm s := if s = 1 ∨ s = 4 then some (1 / 4) else some (1 / 2)
  active s := s

theorem rate_two : cRate (some (1 / 4)) (some (1 / 2)) = some 2 := by
  simp only [cRate]
  rw [if_neg (by norm_num), if_neg (by norm_num), if_neg (by norm_num)]
  congr 1
  rw [show (1 / 4 : ℝ) = (1 / 2) ^ 2 by norm_num, Real.log_pow]
  have : Real.log (1 / 2 : ℝ) ≠ 0 := by
    rw [Real.log_ne_zero]; norm_num
  field_simp
  norm_num

/-- C90 is violated after a restart with another active set: every iteration is of order two, the table says
four. -/
theorem C90_violated_restart :
    ∃ t k row, monoStat restartOps true 15 (1 / 3) 2 0 true 0 (some 0) 0 = .returned t k row ∧
      row.mono = some 4 ∧
      cRate (restartOps.norm 1) (restartOps.norm 0) = some 2 ∧
      cRate (restartOps.norm 4) (restartOps.norm 3) = some 2 := by
  have n0 : restartOps.norm 0 = some (1 / 2) := by simp [restartOps]
  have n1 : restartOps.norm 1 = some (1 / 4) := by simp [restartOps]
  have n3 : restartOps.norm 3 = some (1 / 2) := by simp [restartOps]
  have n4 : restartOps.norm 4 = some (1 / 4) := by simp [restartOps]
  have b : below (some (1 / 4 : ℝ)) (1 / 3) := by unfold below; norm_num
  refine ⟨4, 2, ⟨1, some 4, some 0, some 0, some 0⟩, ?_, rfl, by rw [n0, n1, rate_two],
    by rw [n3, n4, rate_two]⟩
  have first : monoStat restartOps true 15 (1 / 3) 2 0 true 0 (some 0) 0 =
      monoStat restartOps true 15 (1 / 3) 1 0 false 1 (some 2) 3 := by
    rw [monoStat, if_neg (by norm_num)]
    simp only [if_true]
    have e1 : restartOps.newton (restartOps.post (prepare restartOps true true 0)) = 1 := by
      simp [restartOps, prepare]
    have e2 : restartOps.post (prepare restartOps true true 0) = 0 := by simp [restartOps, prepare]
    rw [e1, e2, n0, n1, rate_two, if_pos b, if_pos (by simp [restartOps])]
    have e3 : restartOps.restart (restartOps.recompute 1) = 3 := by simp [restartOps]
    rw [e3]
    simp [addN]
  rw [first, monoStat, if_neg (by norm_num)]
  simp only [if_true]
  have e1 : restartOps.newton (restartOps.post (prepare restartOps true false 3)) = 4 := by
    simp [restartOps, prepare]
  have e2 : restartOps.post (prepare restartOps true false 3) = 3 := by simp [restartOps, prepare]
  rw [e1, e2, n3, n4, rate_two, if_pos b, if_neg (by simp [restartOps])]
  have e3 : restartOps.recompute 4 = 4 := by simp [restartOps]
  rw [e3]
  simp [addN, divN]
  norm_num

/-! ## Staggered algorithms -/

theorem micro_row {S : Type*} (o : StagOps S) (r : OldNorms S) (nMax : ℕ) (tol : ℝ) (s : S) (fuel n : ℕ)
    (hn : ∀ j, 1 ≤ j → j ≤ n → ¬ SmallResidual (o.microNorm (o.microIt^[j] s)) tol)
    (t : S) (k : ℕ) (avg : Option ℝ)
    (h : microStat o r nMax tol fuel n (sumN ((List.range n).map fun j =>
      cRateMicro (o.microNorm (o.microIt^[j + 1] s)) (r.microOld (o.microIt^[j] s)))) (o.microIt^[n] s) =
      .returned t k avg) :
    1 ≤ k ∧ t = o.microIt^[k] s ∧
    (∀ j, 1 ≤ j → j ≤ k → (SmallResidual (o.microNorm (o.microIt^[j] s)) tol ↔ j = k)) ∧
    avg = SpecMean ((List.range k).map fun j =>
      cRateMicro (o.microNorm (o.microIt^[j + 1] s)) (r.microOld (o.microIt^[j] s))) := by
  induction fuel generalizing n with
  | zero => simp [microStat] at h
  | succ fuel ih =>
    unfold microStat at h
    split at h
    · simp at h
    · simp only at h
      rw [← Function.iterate_succ_apply' o.microIt n s, ← sumN_append,
        ← range_map_succ (fun j => cRateMicro (o.microNorm (o.microIt^[j + 1] s))
          (r.microOld (o.microIt^[j] s))) n] at h
      split at h
      · rename_i hb
        injection h with h1 h2 h3
        subst h1 h2 h3
        refine ⟨by omega, rfl, fun j h1 h2 => ?_, mean_eq _ _ (by simp)⟩
        by_cases e : j = n + 1
        · subst e; exact iff_of_true ((below_iff _ _).1 hb) rfl
        · exact iff_of_false (hn j h1 (by omega)) e
      · rename_i hb
        refine ih (n + 1) (fun j h1 h2 => ?_) h
        by_cases e : j = n + 1
        · subst e; exact fun q => hb ((below_iff _ _).2 q)
        · exact hn j h1 (by omega)

theorem micro_start {S : Type*} (o : StagOps S) (r : OldNorms S) (nMax : ℕ) (tol : ℝ) (s : S) (fuel : ℕ)
    (t : S) (k : ℕ) (avg : Option ℝ) (h : microStat o r nMax tol fuel 0 (some 0) s = .returned t k avg) :
    1 ≤ k ∧ t = o.microIt^[k] s ∧
    (∀ j, 1 ≤ j → j ≤ k → (SmallResidual (o.microNorm (o.microIt^[j] s)) tol ↔ j = k)) ∧
    avg = SpecMean ((List.range k).map fun j =>
      cRateMicro (o.microNorm (o.microIt^[j + 1] s)) (r.microOld (o.microIt^[j] s))) :=
  micro_row o r nMax tol s fuel 0 (fun j h1 h2 => by omega) t k avg h

/-- Orders of the macro iterations `1 … i` from `b`. -/
noncomputable def macroOrders {S : Type*} (o : StagOps S) (r : OldNorms S) (b : S) (i : ℕ) :
    List (Option ℝ) :=
  (List.range i).map fun j =>
    cRate (o.macroNorm (macroAfter o b (j + 1))) (r.macroOld (j + 1) (macroAfter o b j))

/-- Means of the macro loops: the finished ones and, once it has converged, the current one. -/
noncomputable def macroMeans {S : Type*} (o : StagOps S) (r : OldNorms S)
    (done : List (Loop S)) (b : S) (i : ℕ) (q : Prop) [Decidable q] : List (Option ℝ) :=
  done.map (fun L => L.macroMean o r) ++ if q then [SpecMean (macroOrders o r b i)] else []

open Classical in
theorem bounce_row {S : Type*} (o : StagOps S) (r : OldNorms S) (p : StagParams) (s0 : S) (fuel i c : ℕ)
    (m : Bool) (k : ℕ) (a : Sums) (s : S) (done : List (Loop S)) (b : S)
    (hrun : SpecBounce o p s0 done b) (hs : s = macroAfter o b i) (hc : c = done.length + 1)
    (hm : m = true ↔ i = 0 ∧ done ≠ [])
    (hk : k = (done.map fun L => L.nMacro + L.nMicro).sum + i)
    (hi : ∀ j, 1 ≤ j → j < i → ¬ SmallResidual (o.macroNorm (macroAfter o b j)) p.tolMacro)
    (hl : a.loops = done.length) (ha1 : a.localMacro = sumN (macroOrders o r b i))
    (ha2 : a.macroAvg = sumN (macroMeans o r done b i
      (1 ≤ i ∧ SmallResidual (o.macroNorm s) p.tolMacro)))
    (ha3 : a.microAvg = sumN (done.map fun L => L.microMean o r))
    (t : S) (k' : ℕ) (row : Row) (h : bouncingStat o r p fuel i c m k a s = .returned t k' row) :
    ∃ loops, SpecBounce o p s0 loops t ∧ loops ≠ [] ∧
      SmallResidual (o.macroNorm t) p.tolMacro ∧
      k' = (loops.map fun L => L.nMacro + L.nMicro).sum ∧
      row = ⟨loops.length, some 0, SpecMean (loops.map fun L => L.macroMean o r), some 0,
        SpecMean (loops.map fun L => L.microMean o r)⟩ := by
  induction fuel generalizing i c m k a s done b with
  | zero => simp [bouncingStat] at h
  | succ fuel ih =>
    unfold bouncingStat at h
    split at h
    · rename_i hb
      obtain ⟨hb, hci⟩ := hb
      have hb' := (below_iff _ _).1 hb
      cases hmv : m with
      | true =>
        obtain ⟨rfl, hd⟩ := hm.1 hmv
        rw [hmv, if_pos rfl] at h
        injection h with h1 h2 h3
        subst h1 h2 h3
        have hs' : s = b := hs
        refine ⟨done, hs' ▸ hrun, hd, hb', by simpa using hk, ?_⟩
        have e : a.macroAvg = sumN (done.map fun L => L.macroMean o r) := by
          rw [ha2]; unfold macroMeans; rw [if_neg (by simp)]; simp
        rw [hl, e, ha3, mean_eq _ _ (by simp), mean_eq _ _ (by simp)]
      | false =>
        rw [hmv] at h
        simp only [Bool.false_eq_true, if_false] at h
        have i1 : 1 ≤ i := by
          rcases Nat.eq_zero_or_pos i with h0 | h0
          · exfalso
            have : done = [] := by
              by_contra hd
              have := hm.2 ⟨h0, hd⟩
              rw [hmv] at this; cases this
            exact hci ⟨by rw [hc, this]; rfl, h0⟩
          · exact h0
        split at h
        · rename_i s' j avg hmic
          split at h
          · simp at h
          · rename_i hcl
            obtain ⟨j1, hs', hfirst, havg⟩ := micro_start o r _ _ _ _ _ _ _ hmic
            let L : Loop S := ⟨b, i, j⟩
            have hfin : L.finish o = s' := by
              rw [hs', hs]; rfl
            have hrun' : SpecBounce o p s0 (done ++ [L]) s' := by
              rw [← hfin]
              refine SpecBounce.snoc done L hrun i1 j1 (fun q q1 q2 => ?_) (fun q q1 q2 => ?_)
              · by_cases e : q = i
                · subst e; exact iff_of_true (hs ▸ hb') rfl
                · exact iff_of_false (hi q q1 (lt_of_le_of_ne q2 e)) e
              · have := hfirst q q1 q2
                rw [hs] at this
                exact this
            refine ih 0 (c + 1) true (k + j) _ s' (done ++ [L]) s' hrun' rfl (by simp [hc]) (by simp)
              (by rw [hk]; simp [L]; omega) (fun q q1 q2 => by omega) (by simp [hl]) rfl ?_ ?_ h
            · simp only
              rw [ha2]
              unfold macroMeans
              rw [if_pos ⟨i1, hb'⟩, if_neg (by simp)]
              simp [L, Loop.macroMean, macroOrders]
            · simp only
              rw [ha3, ← sumN_append, List.map_append]
              congr 1
              simp only [List.map_cons, List.map_nil]
              rw [havg, hs]
              rfl
        · simp at h
        · simp at h
    · rename_i hb
      split at h
      · simp at h
      · rename_i hin
        simp only at h
        have hnot : 1 ≤ i → ¬ SmallResidual (o.macroNorm s) p.tolMacro := fun i1 q =>
          hb ⟨(below_iff _ _).2 q, fun e => by omega⟩
        refine ih (i + 1) c false (k + 1) _ (o.macroIt (i + 1) s) done b hrun (by rw [hs]; rfl) hc
          (by simp) (by omega) (fun j j1 j2 => ?_) (by exact hl) ?_ ?_ (by exact ha3) h
        · by_cases e : j = i
          · subst e; exact hs ▸ hnot j1
          · exact hi j j1 (by omega)
        · simp only
          rw [ha1, ← sumN_append, hs]
          unfold macroOrders
          rw [range_map_succ]
          rfl
        · simp only
          have e0 : a.macroAvg = sumN (done.map fun L => L.macroMean o r) := by
            rw [ha2]; unfold macroMeans
            rw [if_neg (fun q => hnot q.1 q.2), List.append_nil]
          unfold macroMeans
          by_cases hsm : below (o.macroNorm (o.macroIt (i + 1) s)) p.tolMacro
          · rw [if_pos hsm, if_pos ⟨by omega, (below_iff _ _).1 hsm⟩, e0, sumN_append]
            congr 1
            rw [← mean_eq _ (i + 1) (by simp [macroOrders]), ha1, ← sumN_append, hs]
            unfold macroOrders
            rw [range_map_succ]
            rfl
          · rw [if_neg hsm, if_neg (fun q => hsm ((below_iff _ _).2 q.2)), e0, List.append_nil]

/-- C90, bouncing algorithm: the row holds the number of solution loops of the step, the mean over the loops
of the mean order of their macro iterations, and the same for the micro iterations. -/
theorem C90_bouncing {S : Type*} (o : StagOps S) (r : OldNorms S) (p : StagParams) (s t : S) (fuel k : ℕ)
    (row : Row) (h : bouncingStat o r p fuel 0 1 false 0 .zero s = .returned t k row) :
    ∃ loops, SpecBounce o p s loops t ∧ loops ≠ [] ∧
      SmallResidual (o.macroNorm t) p.tolMacro ∧
      k = (loops.map fun L => L.nMacro + L.nMicro).sum ∧
      row = ⟨loops.length, some 0, SpecMean (loops.map fun L => L.macroMean o r), some 0,
        SpecMean (loops.map fun L => L.microMean o r)⟩ := by
  classical
  exact bounce_row o r p s fuel 0 1 false 0 .zero s [] s .nil rfl rfl (by simp) (by simp)
    (fun j h1 h2 => by omega) rfl rfl (by unfold macroMeans; rw [if_neg (by simp)]; rfl) rfl t k row h

theorem embrace_nil {S : Type*} {o : StagOps S} {p : StagParams} {s0 s : S} {l : List (Pass S)}
    (h : SpecEmbrace o p s0 l s) (hl : l = []) : s = s0 := by
  induction h with
  | nil => rfl
  | snoc => simp at hl

theorem embrace_row {S : Type*} (o : StagOps S) (r : OldNorms S) (p : StagParams) (s0 : S) (fuel i : ℕ)
    (m : Bool) (k : ℕ) (a : ESums) (s : S) (done : List (Pass S))
    (hrun : SpecEmbrace o p s0 done s) (hi : i = done.length) (hm : m = true ↔ done ≠ [])
    (hk : k = (done.map fun P => 1 + P.nMicro).sum)
    (ho : a.old = match done.getLast? with
        | none => a.old
        | some Q => o.macroNorm (Q.corrected o))
    (h1 : a.macroAvg = sumN (done.map fun P => P.order o))
    (h2 : a.reduced = sumN ((done.map fun P => P.order o).drop 1))
    (h3 : a.microAvg = sumN (done.map fun P => P.microMean o r))
    (t : S) (k' : ℕ) (row : Row) (h : embracingStat o r p fuel i m k a s = .returned t k' row) :
    ∃ passes u, SpecEmbrace o p s0 passes u ∧ t = o.evaluate u ∧ passes ≠ [] ∧
      SmallResidual (o.macroNorm t) p.tolMacro ∧
      k' = (passes.map fun P => 1 + P.nMicro).sum ∧
      row = ⟨passes.length, some 0, SpecMean (passes.map fun P => P.order o),
        SpecMean ((passes.map fun P => P.order o).drop 1),
        SpecMean (passes.map fun P => P.microMean o r)⟩ := by
  induction fuel generalizing i m k a s done with
  | zero => simp [embracingStat] at h
  | succ fuel ih =>
    unfold embracingStat at h
    simp only at h
    split at h
    · rename_i hb
      injection h with e1 e2 e3
      subst e1 e2 e3
      refine ⟨done, s, hrun, rfl, hm.1 hb.2, (below_iff _ _).1 hb.1, hk, ?_⟩
      rw [h1, h2, h3, hi, mean_eq _ _ (by simp), mean_eq _ _ (by simp), mean_eq _ _ (by simp)]
    · split at h
      · simp at h
      · split at h
        · rename_i s' j avg hmic
          obtain ⟨j1, hs', hfirst, havg⟩ := micro_start o r _ _ _ _ _ _ _ hmic
          let P : Pass S := ⟨s, i + 1, j, if i = 0 then o.macroNorm (o.evaluate s) else a.old⟩
          have hfin : P.finish o = s' := hs'.symm
          have hold : P.old = match done.getLast? with
              | none => o.macroNorm (o.evaluate s0)
              | some Q => o.macroNorm (Q.corrected o) := by
            show (if i = 0 then _ else _) = _
            rcases List.eq_nil_or_concat done with rfl | ⟨l, Q, rfl⟩
            · have : s = s0 := embrace_nil hrun rfl
              simp [hi, this]
            · rw [if_neg (by simp [hi])]
              simpa using ho
          have hrun' : SpecEmbrace o p s0 (done ++ [P]) s' := by
            rw [← hfin]
            exact .snoc done P hrun (by simp [P, hi]) j1 hold hfirst
          refine ih (i + 1) true _ _ s' (done ++ [P]) hrun' (by simp [hi]) (by simp)
            (by rw [hk]; simp [P]; omega) (by simp; rfl) ?_ ?_ ?_ h
          · simp only
            rw [h1, ← sumN_append, List.map_append]; rfl
          · simp only
            by_cases h0 : i = 0
            · have : done = [] := by
                rw [h0] at hi; exact List.eq_nil_of_length_eq_zero hi.symm
              subst this
              rw [h0, if_neg (by norm_num), h2]
              rfl
            · rw [if_pos (by omega), h2, ← sumN_append, List.map_append, List.drop_append_of_le_length]
              · rfl
              · simp; omega
          · simp only
            rw [h3, ← sumN_append, List.map_append, havg]; rfl
        · simp at h
        · simp at h

/-- C90, embracing algorithm: the row holds the number of macro iterations of the step, the mean of their
orders, the mean without the first (uncoupled) one, and the mean over the passes of the mean order of the micro
iterations. -/
theorem C90_embracing {S : Type*} (o : StagOps S) (r : OldNorms S) (p : StagParams) (s t : S) (fuel k : ℕ)
    (row : Row) (h : embracingStat o r p fuel 0 false 0 .zero s = .returned t k row) :
    ∃ passes u, SpecEmbrace o p s passes u ∧ t = o.evaluate u ∧ passes ≠ [] ∧
      SmallResidual (o.macroNorm t) p.tolMacro ∧
      k = (passes.map fun P => 1 + P.nMicro).sum ∧
      row = ⟨passes.length, some 0, SpecMean (passes.map fun P => P.order o),
        SpecMean ((passes.map fun P => P.order o).drop 1),
        SpecMean (passes.map fun P => P.microMean o r)⟩ :=
  embrace_row o r p s fuel 0 false 0 .zero s [] .nil rfl (by simp) rfl rfl rfl rfl rfl t k row h

/-- C90 is violated for the reduced average: whenever one macro iteration was enough, the table gets
"not a number". -/
theorem C90_violated_reduced {S : Type*} (o : StagOps S) (r : OldNorms S) (p : StagParams) (s t : S)
    (fuel k : ℕ) (row : Row) (h : embracingStat o r p fuel 0 false 0 .zero s = .returned t k row)
    (h1 : row.iterations = 1) : row.reduced = none := by
  obtain ⟨passes, u, -, -, -, -, -, rfl⟩ := C90_embracing o r p s t fuel k row h
  have : (passes.map fun P => P.order o).drop 1 = [] := by
    rw [List.drop_eq_nil_iff]; simpa using h1.le
  simp only
  rw [this]
  simp [SpecMean]

/-! ## The logged order -/

/-- C90: if the residuals tend to zero with order `q`, that is `c rⱼ^q ≤ rⱼ₊₁ ≤ C rⱼ^q`, the logged numbers
tend to `q`. -/
theorem C90_order (x : ℕ → ℝ) (q c C : ℝ) (hc : 0 < c) (hx : ∀ j, 0 < x j) (hlim : Tendsto x atTop (𝓝 0))
    (hlo : ∀ j, c * x j ^ q ≤ x (j + 1)) (hhi : ∀ j, x (j + 1) ≤ C * x j ^ q) :
    ∃ y : ℕ → ℝ, (∀ᶠ j in atTop, cRate (some (x (j + 1))) (some (x j)) = some (y j)) ∧
      Tendsto y atTop (𝓝 q) := by
  refine ⟨fun j => Real.log (x (j + 1)) / Real.log (x j), ?_, ?_⟩
  · filter_upwards [hlim.eventually (gt_mem_nhds (show (0 : ℝ) < 1 by norm_num))] with j hj
    simp only [cRate]
    rw [if_neg (hx _).ne', if_neg (hx _).ne', if_neg hj.ne]
  · have hlog : Tendsto (fun j => Real.log (x j)) atTop atBot :=
      Real.tendsto_log_nhdsGT_zero.comp
        (tendsto_nhdsWithin_iff.2 ⟨hlim, Eventually.of_forall hx⟩)
    have hC : 0 < C := by
      have h1 := (mul_pos hc (Real.rpow_pos_of_pos (hx 0) q)).trans_le ((hlo 0).trans (hhi 0))
      exact pos_of_mul_pos_left h1 (Real.rpow_pos_of_pos (hx 0) q).le
    have lim : ∀ a : ℝ, Tendsto (fun j => a / Real.log (x j) + q) atTop (𝓝 q) := by
      intro a
      have := (hlog.const_div_atBot a).add_const q
      rwa [zero_add] at this
    have e : ∀ a, 0 < a → ∀ j, Real.log (x j) < 0 →
        Real.log (a * x j ^ q) / Real.log (x j) = Real.log a / Real.log (x j) + q := by
      intro a ha j hj
      rw [Real.log_mul ha.ne' (Real.rpow_pos_of_pos (hx j) q).ne', Real.log_rpow (hx j), add_div,
        mul_div_assoc, div_self hj.ne, mul_one]
    have ev : ∀ᶠ j in atTop, Real.log (x j) < 0 := hlog.eventually_lt_atBot 0
    refine tendsto_of_tendsto_of_tendsto_of_le_of_le' (lim (Real.log C)) (lim (Real.log c)) ?_ ?_
    · filter_upwards [ev] with j hj
      rw [← e C hC j hj]
      exact div_le_div_of_nonpos_of_le hj.le (Real.log_le_log (hx _) (hhi j))
    · filter_upwards [ev] with j hj
      rw [← e c hc j hj]
      exact div_le_div_of_nonpos_of_le hj.le
        (Real.log_le_log (mul_pos hc (Real.rpow_pos_of_pos (hx j) q)) (hlo j))

/-- Quadratic convergence: `1/2, 1/4, 1/16, …`. -/
example : Tendsto (fun j : ℕ => (1 / 2 : ℝ) ^ 2 ^ j) atTop (𝓝 0) ∧
    ∀ j : ℕ, (1 : ℝ) * ((1 / 2 : ℝ) ^ 2 ^ j) ^ (2 : ℝ) = (1 / 2) ^ 2 ^ (j + 1) := by
  constructor
  · exact (tendsto_pow_atTop_nhds_zero_of_lt_one (by norm_num) (by norm_num)).comp
      (tendsto_pow_atTop_atTop_of_one_lt (by norm_num))
  · intro j
    rw [one_mul, Real.rpow_two, ← pow_mul, pow_succ]

/-! ## Tables -/

/-- The solver's table after the rows `rows`. -/
noncomputable def tableOf (rows : List Row) : Tab := rows.foldl addRow solverTable

theorem tableOf_eq (rows : List Row) : tableOf rows =
    [("LoadStep", []), ("Iterations", rows.map fun r => some (r.iterations : ℝ)),
      ("MonoAverageConvergence", rows.map Row.mono), ("MacroAverageConvergence", rows.map Row.macroAvg),
      ("ReducedMacroAverageConvergence", rows.map Row.reduced),
      ("MicroAverageConvergence", rows.map Row.microAvg)] := by
  unfold tableOf
  induction rows using List.reverseRecOn with
  | nil => rfl
  | append_singleton rows r ih =>
    rw [List.foldl_append, ih]
    simp [addRow, Tab.add]

/-- C90: after any number of steps each of the five columns the algorithms fill has one value per step, in the
order of the steps; the column of the load steps is empty. -/
theorem C90_columns (rows : List Row) :
    SpecColumn (tableOf rows) "Iterations" = rows.map (fun r => some (r.iterations : ℝ)) ∧
    SpecColumn (tableOf rows) "MonoAverageConvergence" = rows.map Row.mono ∧
    SpecColumn (tableOf rows) "MacroAverageConvergence" = rows.map Row.macroAvg ∧
    SpecColumn (tableOf rows) "ReducedMacroAverageConvergence" = rows.map Row.reduced ∧
    SpecColumn (tableOf rows) "MicroAverageConvergence" = rows.map Row.microAvg ∧
    SpecColumn (tableOf rows) "LoadStep" = [] := by
  rw [tableOf_eq]
  refine ⟨?_, ?_, ?_, ?_, ?_, ?_⟩ <;> simp [SpecColumn, List.find?]

/-- C90 is violated: from the first accepted step on, whatever the algorithm, the table cannot be written
(before, it is written empty). -/
theorem C90_violated_table (rows : List Row) : (tableOf rows).write = none ↔ rows ≠ [] := by
  rw [tableOf_eq]
  cases rows with
  | nil => simp [Tab.write]
  | cons r rows => simp [Tab.write]

/-- C90: the shear table can be written after any number of steps and has one row per step. -/
theorem C90_shear_table (data : List (Option ℝ × Option ℝ)) :
    (data.foldl (fun t d => addShear t d.1 d.2) shearTable).write =
      some (data.map fun d => [d.1, d.2]) := by
  have e : data.foldl (fun t d => addShear t d.1 d.2) shearTable =
      [("shear_at_upper_boundary", data.map Prod.fst), ("stress_12_at_upper_boundary", data.map Prod.snd)] := by
    induction data using List.reverseRecOn with
    | nil => rfl
    | append_singleton data d ih =>
      rw [List.foldl_append, ih]
      simp [addShear, Tab.add]
  rw [e]
  simp only [Tab.write]
  rw [if_pos (by simp)]
  congr 1
  refine List.ext_getElem (by simp) fun i h1 h2 => ?_
  have h : i < data.length := by simpa using h2
  simp [h]

/-- C90: a line search's table can be written after any number of calls and has one row per call. -/
theorem C90_line_search_table (calls : List (ℕ × ℕ × ℕ × Option ℝ)) :
    (calls.foldl (fun t d => addLine t d.1 d.2.1 d.2.2.1 d.2.2.2) lineTable).write =
      some (calls.map fun d => [some (d.1 : ℝ), some (d.2.1 : ℝ), some (d.2.2.1 : ℝ), d.2.2.2]) := by
  have e : calls.foldl (fun t d => addLine t d.1 d.2.1 d.2.2.1 d.2.2.2) lineTable =
      [("S", calls.map fun d => some (d.1 : ℝ)), ("N-Itr", calls.map fun d => some (d.2.1 : ℝ)),
        ("L-Itr", calls.map fun d => some (d.2.2.1 : ℝ)), ("Rlx-Prm", calls.map fun d => d.2.2.2)] := by
    induction calls using List.reverseRecOn with
    | nil => rfl
    | append_singleton calls d ih =>
      rw [List.foldl_append, ih]
      simp [addLine, Tab.add]
  rw [e]
  simp only [Tab.write]
  rw [if_pos (by simp)]
  congr 1
  refine List.ext_getElem (by simp) fun i h1 h2 => ?_
  have h : i < calls.length := by simpa using h2
  simp [h]

/-! ## Concrete cases -/

/-- Norms halve in the exponent: `1/2`, `1/4`, `1/16`. -/
noncomputable def quadOps : MonoOps ℕ Unit where
  pre s := s
  recompute s := s
  post s := s
  newton s := s + 1
  restart s := s
  norm s := some ((1 / 2) ^ 2 ^ s)
  active _ := ()

theorem quad_rate (s : ℕ) : cRate (quadOps.norm (s + 1)) (quadOps.norm s) = some 2 := by
  simp only [cRate, quadOps]
  have h : ((1 : ℝ) / 2) ^ 2 ^ s < 1 := pow_lt_one₀ (by norm_num) (by norm_num) (by positivity)
  have p : (0 : ℝ) < (1 / 2) ^ 2 ^ s := by positivity
  rw [if_neg (by positivity), if_neg (by positivity), if_neg h.ne]
  congr 1
  rw [pow_succ, pow_mul, Real.log_pow]
  have := (Real.log_neg p h).ne
  field_simp
  norm_num

/-- Two iterations of order two: rate dependent, and rate independent with the right active set at once. -/
example (ri : Bool) : monoStat quadOps ri 15 (1 / 10) 2 0 true 0 (some 0) 0 =
    .returned 2 2 ⟨2, some 2, some 0, some 0, some 0⟩ := by
  have nb : ¬ below (quadOps.norm 1) (1 / 10) := by simp only [below, quadOps]; norm_num
  have b : below (quadOps.norm 2) (1 / 10) := by simp only [below, quadOps]; norm_num
  have pr : ∀ f s, prepare quadOps ri f s = s := by intro f s; cases ri <;> cases f <;> rfl
  have q0 := quad_rate 0
  have q1 := quad_rate 1
  have n0 : quadOps.newton (quadOps.post 0) = 1 := rfl
  have n1 : quadOps.newton (quadOps.post 1) = 2 := rfl
  have p0 : ∀ s, quadOps.post s = s := fun _ => rfl
  rw [monoStat, if_neg (by norm_num)]
  simp only
  rw [pr, n0, p0, q0, if_neg nb, monoStat, if_neg (by norm_num)]
  simp only
  rw [pr, n1, p0, q1, if_pos b]
  have v : divN (addN (addN (some 0) (some 2)) (some 2)) (0 + 1 + 1) = some 2 := by
    simp [divN, addN]
  rw [v]
  cases ri with
  | false => rfl
  | true => rw [if_pos rfl, if_neg (by simp [quadOps])]; rfl

/-- One macro iteration solves the momentum balance, one micro iteration the other one; both of order two. -/
noncomputable def stagOps : StagOps ℕ where
  macroIt _ s := max s 1
  startMicro s := s
  microIt s := max s 2
  evaluate s := s
  macroNorm s := if s = 0 then some (1 / 2) else some (1 / 4)
  microNorm s := if s = 2 then some (1 / 4) else some (1 / 2)

noncomputable def stagOld : OldNorms ℕ := ⟨fun _ s => stagOps.macroNorm s, stagOps.microNorm⟩

noncomputable def stagPrm : StagParams := ⟨15, 15, 15, 1 / 3, 1 / 3⟩

theorem stag_micro : microStat stagOps stagOld 15 (1 / 3) 16 0 (some 0) 1 = .returned 2 1 (some 2) := by
  rw [microStat, if_neg (by norm_num)]
  simp only
  have e1 : stagOps.microIt 1 = 2 := by simp [stagOps]
  have e2 : stagOps.microNorm 2 = some (1 / 4) := by simp [stagOps]
  have e3 : stagOld.microOld 1 = some (1 / 2) := by simp [stagOld, stagOps]
  have b : below (some (1 / 4 : ℝ)) (1 / 3) := by unfold below; norm_num
  have m : cRateMicro (some (1 / 4)) (some (1 / 2)) = some 2 := by
    unfold cRateMicro; rw [if_neg (by simp), rate_two]
  rw [e1, e2, e3, if_pos b, m]
  simp [addN, divN]

/-- The bouncing algorithm makes one solution loop. -/
example : bouncingStat stagOps stagOld stagPrm 3 0 1 false 0 .zero 0 =
    .returned 2 2 ⟨1, some 0, some 2, some 0, some 2⟩ := by
  have n0 : stagOps.macroNorm 0 = some (1 / 2) := by simp [stagOps]
  have n1 : stagOps.macroNorm 1 = some (1 / 4) := by simp [stagOps]
  have n2 : stagOps.macroNorm 2 = some (1 / 4) := by simp [stagOps]
  have o0 : stagOld.macroOld (0 + 1) 0 = some (1 / 2) := by simp [stagOld, stagOps]
  have e1 : stagOps.macroIt (0 + 1) 0 = 1 := by simp [stagOps]
  have b : below (some (1 / 4 : ℝ)) stagPrm.tolMacro := by simp only [below, stagPrm]; norm_num
  have hm : microStat stagOps stagOld stagPrm.nMicro stagPrm.tolMicro (stagPrm.nMicro + 1) 0 (some 0)
      (stagOps.startMicro 1) = .returned 2 1 (some 2) := stag_micro
  rw [bouncingStat, if_neg (by simp), if_neg (by simp [stagPrm])]
  simp only
  rw [e1, n1, o0, rate_two, if_pos b, bouncingStat, n1, if_pos ⟨b, by simp⟩]
  simp only [Bool.false_eq_true, if_false]
  rw [hm]
  simp only
  rw [if_neg (by simp [stagPrm]), bouncingStat, n2, if_pos ⟨b, by simp⟩]
  simp [Sums.zero, addN, divN]

/-- The embracing algorithm makes one macro iteration; the reduced average is not a number. -/
example : embracingStat stagOps stagOld stagPrm 2 0 false 0 .zero 0 =
    .returned 2 2 ⟨1, some 0, some 2, none, some 2⟩ := by
  have n0 : stagOps.macroNorm 0 = some (1 / 2) := by simp [stagOps]
  have n1 : stagOps.macroNorm 1 = some (1 / 4) := by simp [stagOps]
  have n2 : stagOps.macroNorm 2 = some (1 / 4) := by simp [stagOps]
  have ev : ∀ s, stagOps.evaluate s = s := fun _ => rfl
  have e1 : stagOps.macroIt (0 + 1) 0 = 1 := by simp [stagOps]
  have b : below (some (1 / 4 : ℝ)) stagPrm.tolMacro := by simp only [below, stagPrm]; norm_num
  have hm : microStat stagOps stagOld stagPrm.nMicro stagPrm.tolMicro (stagPrm.nMicro + 1) 0 (some 0)
      (stagOps.startMicro 1) = .returned 2 1 (some 2) := stag_micro
  rw [embracingStat]
  simp only
  rw [if_neg (by simp), if_neg (by simp [stagPrm]), ev, e1, hm, if_pos trivial, n0, n1, rate_two]
  simp only
  rw [embracingStat]
  simp only
  rw [ev, n2, if_pos ⟨b, rfl⟩]
  simp [ESums.zero, addN, divN]

/-- The logged number in all cases: the quotient of the logarithms; a previous residual of exactly zero gives the
limit of that quotient; a residual of exactly zero gives no number, the quotient growing without bound. -/
theorem C90_order_cases (a b : ℝ) (hb : 0 < b) (hb1 : b ≠ 1) :
    (0 < a → cRate (some a) (some b) = some (Real.log a / Real.log b)) ∧
    (0 < a → ∃ y, cRate (some a) (some 0) = some y ∧
      Tendsto (fun x => Real.log a / Real.log x) (𝓝[>] 0) (𝓝 y)) ∧
    (cRate (some 0) (some b) = none ∧ Tendsto (fun x => |Real.log x / Real.log b|) (𝓝[>] 0) atTop) := by
  refine ⟨fun ha => ?_, fun ha => ⟨0, ?_, ?_⟩, ?_, ?_⟩
  · simp only [cRate]; rw [if_neg ha.ne', if_neg hb.ne', if_neg hb1]
  · simp [cRate, ha.ne']
  · exact Real.tendsto_log_nhdsGT_zero.const_div_atBot _
  · simp [cRate]
  · have h0 : Real.log b ≠ 0 := by rw [Real.log_ne_zero]; exact ⟨hb.ne', hb1, by linarith⟩
    simp only [abs_div]
    exact (tendsto_abs_atBot_atTop.comp Real.tendsto_log_nhdsGT_zero).atTop_div_const (abs_pos.2 h0)

end Verif.Drv
