import Verif.Model.ActiveSet
import Verif.Props.Trial
import Mathlib.Tactic.NormNum
import Mathlib.Tactic.Linarith

/-!
# Properties of the active set: C13, C14, C15, C16
-/

namespace Verif.AS
open Verif Verif.Sol

/-! ## Specification -/

/-- A degree of freedom at which the material may flow plastically: its own value is
unknown, or it is tied to one other degree of freedom with weight one. -/
def MayFlow (c : Constraints ℕ) (d : ℕ) : Prop :=
  c d = none ∨ ∃ m b, c d = some ⟨[(m, 1)], b⟩

/-- `m` is the degree of freedom `d` is tied to. -/
def Master (c : Constraints ℕ) (d m : ℕ) : Prop := ∃ b, c d = some ⟨[(m, 1)], b⟩

/-! ## Helpers -/

theorem identityMaster_iff {c : Constraints ℕ} {d m : ℕ} :
    identityMaster c d = some m ↔ Master c d m := by
  unfold identityMaster Master
  cases hc : c d with
  | none => simp
  | some l =>
    obtain ⟨es, b⟩ := l
    match es with
    | [] => simp
    | [e] =>
      obtain ⟨a, w⟩ := e
      by_cases hw : w = 1
      · subst hw; simp
      · simp [hw]
    | _ :: _ :: _ => simp

theorem mayFlow_iff {c : Constraints ℕ} {d : ℕ} :
    MayFlow c d ↔ ((identityMaster c d).isSome ∨ ¬ isConstrained c d) := by
  unfold MayFlow isConstrained
  constructor
  · rintro (h | ⟨m, b, h⟩)
    · right; simp [h]
    · left; rw [identityMaster_iff.mpr ⟨b, h⟩]; rfl
  · rintro (h | h)
    · right
      obtain ⟨m, hm⟩ := Option.isSome_iff_exists.mp h
      obtain ⟨b, hb⟩ := identityMaster_iff.mp hm
      exact ⟨m, b, hb⟩
    · left; simpa using h

theorem mem_added {c : Constraints ℕ} {trial : ℕ → ℝ} {y : Yield} {d e : ℕ} :
    e ∈ added c trial y d ↔
      y.at d < |trial d| ∧ ((e = d ∧ MayFlow c d) ∨ Master c d e) := by
  unfold added
  by_cases h : y.at d < |trial d|
  · rw [if_pos h]
    simp only [h, true_and]
    by_cases hc : isConstrained c d
    · rw [if_pos hc]
      cases hm : identityMaster c d with
      | none =>
        have h1 : ¬ MayFlow c d := by rw [mayFlow_iff, hm]; simp [hc]
        have h2 : ¬ Master c d e := by rw [← identityMaster_iff, hm]; simp
        simp [h1, h2]
      | some m =>
        have h1 : MayFlow c d := by rw [mayFlow_iff, hm]; simp
        have h2 : Master c d e ↔ e = m := by rw [← identityMaster_iff, hm]; simp [eq_comm]
        simp [h1, h2]
    · rw [if_neg hc]
      have hn : c d = none := by simpa [isConstrained] using hc
      have hm : identityMaster c d = none := by unfold identityMaster; rw [hn]
      have h1 : MayFlow c d := Or.inl hn
      have h2 : ¬ Master c d e := by rw [← identityMaster_iff, hm]; simp
      rw [hm]; simp [h1, h2]
  · rw [if_neg h]; simp [h]

theorem foldl_active (c : Constraints ℕ) (trial : ℕ → ℝ) (y : Yield) (owned : List ℕ)
    (s : List ℕ × Constraints ℕ) (e : ℕ) :
    e ∈ (owned.foldl (pass c trial y) s).1 ↔
      e ∈ s.1 ∨ ∃ d ∈ owned, e ∈ added c trial y d := by
  induction owned generalizing s with
  | nil => simp
  | cons d ds ih =>
    rw [List.foldl_cons, ih]
    simp only [pass, List.mem_append, List.mem_cons, exists_eq_or_imp, or_assoc]

theorem addLine_other {c : Constraints ℕ} {d i : ℕ} (h : i ≠ d) : addLine c d i = c i := by
  unfold addLine; rw [if_neg h]

theorem addLine_same {c : Constraints ℕ} {d : ℕ} (h : c d = none) :
    addLine c d d = some ⟨[], 0⟩ := by
  unfold addLine; rw [if_pos rfl, h]

theorem addLine_keep {c : Constraints ℕ} {d i : ℕ} {l : Line ℕ} (h : c i = some l) :
    addLine c d i = some l := by
  unfold addLine
  split_ifs with hd
  · subst hd; rw [h]
  · exact h

theorem foldl_keep (c : Constraints ℕ) (trial : ℕ → ℝ) (y : Yield) (owned : List ℕ)
    (s : List ℕ × Constraints ℕ) (i : ℕ) (l : Line ℕ) (h : s.2 i = some l) :
    (owned.foldl (pass c trial y) s).2 i = some l := by
  induction owned generalizing s with
  | nil => exact h
  | cons d ds ih =>
    rw [List.foldl_cons]
    apply ih
    unfold pass
    simp only
    split_ifs
    · exact h
    · exact addLine_keep h

/-- Pinning is decided when a degree of freedom is visited, by the active set so far. -/
theorem foldl_pinned (c : Constraints ℕ) (trial : ℕ → ℝ) (y : Yield) (owned : List ℕ)
    (hnd : owned.Nodup) (s : List ℕ × Constraints ℕ) (i : ℕ) (hi : s.2 i = none) :
    (owned.foldl (pass c trial y) s).2 i =
      open Classical in
      if i ∈ owned ∧ ¬ (i ∈ s.1 ∨ ∃ d ∈ owned, (d = i ∨ d ∈ owned.takeWhile (· ≠ i)) ∧
          i ∈ added c trial y d)
      then some ⟨[], 0⟩ else none := by
  induction owned generalizing s with
  | nil => simp [hi]
  | cons d ds ih =>
    have hds : ds.Nodup := (List.nodup_cons.mp hnd).2
    have hd : d ∉ ds := (List.nodup_cons.mp hnd).1
    rw [List.foldl_cons]
    by_cases hid : i = d
    · subst hid
      have htw : (i :: ds).takeWhile (· ≠ i) = [] := by simp
      by_cases hact : i ∈ s.1 ++ added c trial y i
      · have hp : pass c trial y s i = (s.1 ++ added c trial y i, s.2) := by
          unfold pass; simp only; rw [if_pos hact]
        rw [hp, ih hds (s.1 ++ added c trial y i, s.2) hi, if_neg (by simp [hd]), if_neg]
        rintro ⟨-, h⟩
        apply h
        rcases List.mem_append.mp hact with h | h
        · exact Or.inl h
        · exact Or.inr ⟨i, List.mem_cons_self, Or.inl rfl, h⟩
      · have hp : pass c trial y s i = (s.1 ++ added c trial y i, addLine s.2 i) := by
          unfold pass; simp only; rw [if_neg hact]
        rw [hp, foldl_keep _ _ _ _ _ _ _ (addLine_same hi), if_pos]
        refine ⟨List.mem_cons_self, ?_⟩
        rintro (h | ⟨e, -, he, h⟩)
        · exact hact (List.mem_append.mpr (Or.inl h))
        · rw [htw] at he
          rcases he with rfl | he
          · exact hact (List.mem_append.mpr (Or.inr h))
          · simp at he
    · have hi' : (pass c trial y s d).2 i = none := by
        unfold pass; simp only
        split_ifs
        · exact hi
        · rw [addLine_other hid]; exact hi
      rw [ih hds _ hi']
      have htw : (d :: ds).takeWhile (· ≠ i) = d :: ds.takeWhile (· ≠ i) := by
        rw [List.takeWhile_cons_of_pos]
        simpa using fun h => hid h.symm
      congr 1
      rw [htw]
      simp only [pass, List.mem_append, List.mem_cons, eq_iff_iff]
      constructor
      · rintro ⟨h1, h2⟩
        refine ⟨Or.inr h1, ?_⟩
        rintro (h | ⟨e, he, h3, h4⟩)
        · exact h2 (Or.inl (Or.inl h))
        · rcases he with rfl | he
          · exact h2 (Or.inl (Or.inr h4))
          · rcases h3 with h3 | h3 | h3
            · exact h2 (Or.inr ⟨e, he, Or.inl h3, h4⟩)
            · subst h3; exact absurd he hd
            · exact h2 (Or.inr ⟨e, he, Or.inr h3, h4⟩)
      · rintro ⟨h1, h2⟩
        refine ⟨h1.resolve_left hid, ?_⟩
        rintro ((h | h) | ⟨e, he, h3, h4⟩)
        · exact h2 (Or.inl h)
        · exact h2 (Or.inr ⟨d, Or.inl rfl, Or.inr (Or.inl rfl), h⟩)
        · exact h2 (Or.inr ⟨e, Or.inr he, h3.imp_right Or.inr, h4⟩)

/-! ## C13 -/

/-- C13: the active set consists exactly of the degrees of freedom whose trial microstress
exceeds the yield value in modulus and which may flow, and their masters.  `y.at` is
unfolded: the yield value is the initial slip resistance under perfect plasticity. -/
theorem C13_active_iff (c hn newton : Constraints ℕ) (owned : List ℕ) (trial : ℕ → ℝ)
    (y : Yield) (e : ℕ) :
    e ∈ (determineActive c hn newton owned trial y).1 ↔
      (∃ d ∈ owned,
        (if y.perfect then y.initial / y.characteristic else y.resistance d) < |trial d| ∧
        ((e = d ∧ MayFlow c d) ∨ Master c d e)) := by
  unfold determineActive
  simp only
  rw [foldl_active]
  simp only [List.not_mem_nil, false_or, mem_added, Yield.at]

/-- C13: a degree of freedom exactly at yield, tied to nothing, is inactive unless a degree
of freedom tied to it flows. -/
theorem C13_boundary_inactive (c hn newton : Constraints ℕ) (owned : List ℕ) (trial : ℕ → ℝ)
    (y : Yield) (e : ℕ) (he : |trial e| = y.at e) (hs : ∀ d ∈ owned, ¬ Master c d e) :
    e ∉ (determineActive c hn newton owned trial y).1 := by
  rw [C13_active_iff]
  rintro ⟨d, hd, hlt, ⟨rfl, -⟩ | hm⟩
  · unfold Yield.at at he
    linarith
  · exact hs d hd hm

/-- Degrees of freedom 0 and 2 free, 1 tied to 0, 3 held at zero. -/
def exC : Constraints ℕ := fun d =>
  if d = 1 then some ⟨[(0, 1)], 0⟩ else if d = 3 then some ⟨[], 0⟩ else none

/-- Unit yield value. -/
def exY : Yield := ⟨false, 0, 1, fun _ => 1⟩

/-- Only degree of freedom 1 is over yield: 0 and 1 are active, 2 and 3 are not. -/
example : ∀ e, e ∈ (determineActive exC (fun _ => none) exC [0, 1, 2, 3]
    (fun d => if d = 1 then -2 else 1) exY).1 ↔ e = 0 ∨ e = 1 := by
  intro e
  rw [C13_active_iff]
  simp only [exY, List.mem_cons, List.not_mem_nil, or_false, exists_eq_or_imp, exists_eq_left]
  simp [Master, MayFlow, exC]
  tauto

/-- Non-vacuity of `C13_boundary_inactive`: 2 is exactly at yield. -/
example : |(fun d : ℕ => if d = 1 then (-2 : ℝ) else 1) 2| = exY.at 2 ∧
    ∀ d ∈ [0, 1, 2, 3], ¬ Master exC d 2 := by
  simp [exY, Yield.at, Master, exC]

/-! ## C14 -/

/-- C14, first half: every owned slip degree of freedom that is not active and is not a
hanging node gets a zero Newton update. -/
theorem C14_inactive_pinned (c hn newton : Constraints ℕ) (owned : List ℕ) (hnd : owned.Nodup)
    (trial : ℕ → ℝ) (y : Yield) (i : ℕ) (hi : i ∈ owned) (hh : hn i = none)
    (hna : i ∉ (determineActive c hn newton owned trial y).1) :
    (determineActive c hn newton owned trial y).2 i = some ⟨[], 0⟩ := by
  unfold determineActive at hna ⊢
  simp only at hna ⊢
  rw [foldl_active] at hna
  unfold mergeRight
  rw [foldl_pinned c trial y owned hnd _ i hh, if_pos]
  refine ⟨hi, ?_⟩
  rintro (h | ⟨d, hd, -, h⟩)
  · exact hna (Or.inl h)
  · exact hna (Or.inr ⟨d, hd, h⟩)

/-- Consequence for the Newton update itself: the increment of an inactive degree of
freedom is zero. -/
theorem C14_inactive_update_zero (c hn newton : Constraints ℕ) (owned : List ℕ)
    (hnd : owned.Nodup) (trial : ℕ → ℝ) (y : Yield) (i : ℕ) (hi : i ∈ owned) (hh : hn i = none)
    (hna : i ∉ (determineActive c hn newton owned trial y).1) (upd : ℕ → ℝ) :
    distribute (determineActive c hn newton owned trial y).2 upd i = 0 := by
  rw [distribute_line (C14_inactive_pinned c hn newton owned hnd trial y i hi hh hna)]
  simp [Line.eval]

/-- C14, second half, partial: an active degree of freedom keeps the constraints of the
Newton method (none when free) provided it is numbered after every degree of freedom tied
to it, or is over yield itself.  Missing: the converse numbering, see
`C14_violated_master_pinned`. -/
theorem C14_active_free_partial (c hn newton : Constraints ℕ) (owned : List ℕ)
    (hsorted : owned.Pairwise (· < ·)) (trial : ℕ → ℝ) (y : Yield) (i : ℕ) (hh : hn i = none)
    (ha : i ∈ (determineActive c hn newton owned trial y).1)
    (hord : (y.at i < |trial i| ∧ MayFlow c i ∧ i ∈ owned) ∨
      ∀ d ∈ owned, Master c d i → d < i) :
    (determineActive c hn newton owned trial y).2 i = newton i := by
  have hnd : owned.Nodup := hsorted.imp fun h => ne_of_lt h
  unfold determineActive at ha ⊢
  simp only at ha ⊢
  rw [foldl_active] at ha
  unfold mergeRight
  rw [foldl_pinned c trial y owned hnd _ i hh, if_neg]
  rintro ⟨hi, hneg⟩
  apply hneg
  right
  rcases hord with ⟨h1, h2, h3⟩ | hord
  · exact ⟨i, h3, Or.inl rfl, mem_added.mpr ⟨h1, Or.inl ⟨rfl, h2⟩⟩⟩
  · rcases ha with ha | ⟨d, hd, hda⟩
    · simp at ha
    · refine ⟨d, hd, ?_, hda⟩
      obtain ⟨hlt, ⟨rfl, -⟩ | hm⟩ := mem_added.mp hda
      · exact Or.inl rfl
      · right
        have hdi : d < i := hord d hd hm
        clear hneg hda hh hnd hord
        induction owned with
        | nil => simp at hd
        | cons a as ih =>
          rw [List.pairwise_cons] at hsorted
          have hai : a ≠ i := by
            rintro rfl
            rcases List.mem_cons.mp hd with rfl | h
            · exact lt_irrefl _ hdi
            · exact lt_asymm hdi (hsorted.1 d h)
          rw [List.takeWhile_cons_of_pos (by simpa using hai)]
          rcases List.mem_cons.mp hd with rfl | h
          · exact List.mem_cons_self
          · refine List.mem_cons_of_mem _ (ih hsorted.2 ?_ h)
            exact (List.mem_cons.mp hi).resolve_left (Ne.symm hai)

/-- C14 violated: whenever a slip degree of freedom `m` below yield is visited before a
degree of freedom tied to it that is above yield (and no earlier one is), it ends up in
the active set *and* pinned. -/
theorem C14_violated_master_pinned (c hn newton : Constraints ℕ) (owned : List ℕ)
    (hsorted : owned.Pairwise (· < ·)) (trial : ℕ → ℝ) (y : Yield) (m d : ℕ) (hm : m ∈ owned)
    (hd : d ∈ owned) (hh : hn m = none) (htie : Master c d m) (hover : y.at d < |trial d|)
    (hbelow : |trial m| ≤ y.at m) (hfirst : ∀ e ∈ owned, Master c e m → m < e) :
    m ∈ (determineActive c hn newton owned trial y).1 ∧
    (determineActive c hn newton owned trial y).2 m = some ⟨[], 0⟩ := by
  have hnd : owned.Nodup := hsorted.imp fun h => ne_of_lt h
  constructor
  · exact (C13_active_iff c hn newton owned trial y m).mpr ⟨d, hd, hover, Or.inr htie⟩
  · unfold determineActive
    simp only
    unfold mergeRight
    rw [foldl_pinned c trial y owned hnd _ m hh, if_pos]
    refine ⟨hm, ?_⟩
    rintro (h | ⟨e, he, h1, h2⟩)
    · simp at h
    · obtain ⟨hlt, ⟨rfl, -⟩ | hme⟩ := mem_added.mp h2
      · linarith
      · have hlt' : m < e := hfirst e he hme
        rcases h1 with rfl | h1
        · exact lt_irrefl _ hlt'
        · clear hfirst hnd hd hh he
          induction owned with
          | nil => simp at hm
          | cons a as ih =>
            rw [List.pairwise_cons] at hsorted
            by_cases ham : a = m
            · subst ham; simp at h1
            · rw [List.takeWhile_cons_of_pos (by simpa using ham)] at h1
              have hm' := (List.mem_cons.mp hm).resolve_left (Ne.symm ham)
              rcases List.mem_cons.mp h1 with rfl | h1
              · exact lt_asymm hlt' (hsorted.1 m hm')
              · exact ih hsorted.2 hm' h1

/-- Non-vacuity of C14: inactive 2 is pinned, active 1 is not pinned although tied, and the
master 0 is active and pinned. -/
example :
    (determineActive exC (fun _ => none) exC [0, 1, 2, 3]
      (fun d => if d = 1 then -2 else 1) exY).2 2 = some ⟨[], 0⟩ ∧
    (determineActive exC (fun _ => none) exC [0, 1, 2, 3]
      (fun d => if d = 1 then -2 else 1) exY).2 1 = exC 1 ∧
    (determineActive exC (fun _ => none) exC [0, 1, 2, 3]
      (fun d => if d = 1 then -2 else 1) exY).2 0 = some ⟨[], 0⟩ := by
  have hs : [0, 1, 2, 3].Pairwise (· < · : ℕ → ℕ → Prop) := by decide
  refine ⟨?_, ?_, ?_⟩
  · apply C14_inactive_pinned _ _ _ _ (by decide) _ _ _ (by decide) rfl
    rw [C13_active_iff]
    simp [exY, Master, MayFlow, exC]
  · apply C14_active_free_partial _ _ _ _ hs _ _ _ rfl
    · rw [C13_active_iff]
      refine ⟨1, by decide, by norm_num [exY], Or.inl ⟨rfl, Or.inr ⟨0, 0, by simp [exC]⟩⟩⟩
    · left
      exact ⟨by norm_num [exY, Yield.at], Or.inr ⟨0, 0, by simp [exC]⟩, by decide⟩
  · refine (C14_violated_master_pinned _ _ _ _ hs _ _ 0 1 (by decide) (by decide) rfl
      ⟨0, by simp [exC]⟩ (by norm_num [exY, Yield.at]) (by norm_num [exY, Yield.at]) ?_).2
    simp [Master, exC]

/-! ## C15 -/

/-- C15: the inactive set consists exactly of the owned slip degrees of freedom that may
flow and are not active. -/
theorem C15_inactive_iff (c : Constraints ℕ) (ownedDofs ownedSlips active : List ℕ)
    (hsub : ∀ d ∈ ownedSlips, d ∈ ownedDofs) (d : ℕ) :
    d ∈ determineInactive c ownedDofs ownedSlips active ↔
      d ∈ ownedSlips ∧ MayFlow c d ∧ d ∉ active := by
  unfold determineInactive
  rw [List.mem_filter, mayFlow_iff]
  simp only [decide_eq_true_eq]
  constructor
  · rintro ⟨-, h⟩; exact h
  · intro h; exact ⟨hsub d h.1, h⟩

/-- C15: after the active-set algorithm of a rate-independent run the two sets are disjoint
and cover every owned slip degree of freedom that may flow. -/
theorem C15_partition (c hn newton : Constraints ℕ) (ownedDofs owned : List ℕ)
    (hsub : ∀ d ∈ owned, d ∈ ownedDofs) (trial : ℕ → ℝ) (y : Yield) (old : ℕ → ℝ) (s : State)
    (hs : s.flagCompute = true) :
    let r := activeSetAlgorithm true c hn newton ownedDofs owned trial y old s
    (∀ d, ¬ (d ∈ r.active ∧ d ∈ r.inactive)) ∧
    (∀ d ∈ owned, MayFlow c d → d ∈ r.active ∨ d ∈ r.inactive) ∧
    (∀ d ∈ r.inactive, d ∈ owned) := by
  simp only [activeSetAlgorithm, if_true, hs]
  refine ⟨?_, ?_, ?_⟩
  · rintro d ⟨h1, h2⟩
    exact ((C15_inactive_iff c ownedDofs owned _ hsub d).mp h2).2.2 h1
  · intro d hd hf
    by_cases h : d ∈ (determineActive c hn newton owned trial y).1
    · exact Or.inl h
    · exact Or.inr ((C15_inactive_iff c ownedDofs owned _ hsub d).mpr ⟨hd, hf, h⟩)
  · intro d hd
    exact ((C15_inactive_iff c ownedDofs owned _ hsub d).mp hd).1

/-- C15: rate-dependent runs have every owned slip degree of freedom active, and nothing
else is written. -/
theorem C15_rate_dependent (c hn newton : Constraints ℕ) (ownedDofs owned : List ℕ)
    (trial : ℕ → ℝ) (y : Yield) (old : ℕ → ℝ) (s : State) :
    let r := activeSetAlgorithm false c hn newton ownedDofs owned trial y old s
    (∀ d, d ∈ r.active ↔ d ∈ owned) ∧ r.internal = s.internal ∧
      r.trialSolution = s.trialSolution := by
  simp [activeSetAlgorithm]

/-- C15: within one pass of the solution algorithm the set is determined at most once: with
the flag cleared, a second call changes nothing. -/
theorem C15_computed_once (c hn newton : Constraints ℕ) (ownedDofs owned : List ℕ)
    (trial trial' : ℕ → ℝ) (y y' : Yield) (old : ℕ → ℝ) (s : State) :
    let r := activeSetAlgorithm true c hn newton ownedDofs owned trial y old s
    r.flagCompute = false ∧
    activeSetAlgorithm true c hn newton ownedDofs owned trial' y' old r = r := by
  by_cases hs : s.flagCompute = true
  · simp [activeSetAlgorithm, hs]
  · simp [activeSetAlgorithm, hs]

/-- Non-vacuity: the sets of the example above with five owned degrees of freedom. -/
example : (∀ d ∈ [0, 1, 2, 3], d ∈ [0, 1, 2, 3, 4]) ∧
    2 ∈ determineInactive exC [0, 1, 2, 3, 4] [0, 1, 2, 3] [0, 1] ∧
    3 ∉ determineInactive exC [0, 1, 2, 3, 4] [0, 1, 2, 3] [0, 1] := by
  refine ⟨by decide, ?_, ?_⟩ <;>
    rw [C15_inactive_iff _ _ _ _ (by decide)] <;> simp [MayFlow, exC]

/-! ## C16 -/

/-- C16, partial: an unconstrained degree of freedom takes the old value if inactive and
keeps its own otherwise.  Missing: constrained inactive ones, see
`C16_violated_tied_inactive`. -/
theorem C16_reset_partial {D : Type*} (c : Constraints D) (inactive : D → Prop)
    [DecidablePred inactive] (old x : D → ℝ) (d : D) (hd : c d = none) :
    (inactive d → resetInactive c inactive old x d = old d) ∧
    (¬ inactive d → resetInactive c inactive old x d = x d) := by
  unfold resetInactive
  rw [distribute_free hd]
  exact ⟨fun h => if_pos h, fun h => if_neg h⟩

/-- C16, tied degrees of freedom: they take the value their line gives them.  If the old
solution satisfies the (homogeneous or not) tie and the master is inactive too, this is the
old value. -/
theorem C16_reset_tied {D : Type*} (c : Constraints D) (inactive : D → Prop)
    [DecidablePred inactive] (old x : D → ℝ) (hold : Satisfies c old) (d m : D) (b : ℝ)
    (hd : c d = some ⟨[(m, 1)], b⟩) (hm : inactive m) :
    resetInactive c inactive old x d = old d := by
  unfold resetInactive
  rw [distribute_line hd, hold d _ hd]
  simp [Line.eval, hm]

/-- C16: applying the reset twice is the same as once. -/
theorem C16_idempotent {D : Type*} (c : Constraints D) (hc : Closed c) (inactive : D → Prop)
    [DecidablePred inactive] (old x : D → ℝ) :
    resetInactive c inactive old (resetInactive c inactive old x) =
      resetInactive c inactive old x := by
  funext d
  have key : ∀ e, c e = none →
      (if inactive e then old e else resetInactive c inactive old x e) =
        (if inactive e then old e else x e) := by
    intro e he
    by_cases h : inactive e
    · rw [if_pos h, if_pos h]
    · rw [if_neg h, if_neg h, (C16_reset_partial c inactive old x e he).2 h]
  show distribute c (fun d => if inactive d then old d else resetInactive c inactive old x d) d
    = distribute c (fun d => if inactive d then old d else x d) d
  cases hd : c d with
  | none => rw [distribute_free hd, distribute_free hd]; exact key d hd
  | some l =>
    rw [distribute_line hd, distribute_line hd]
    exact Line.eval_congr fun e he => key e.1 (hc d l hd e he)

/-- C16 violated: an inactive degree of freedom tied to one that is active is *not* reset
to its old value: it takes the trial value of the active one. -/
theorem C16_violated_tied_inactive {D : Type*} (c : Constraints D) (inactive : D → Prop)
    [DecidablePred inactive] (old x : D → ℝ) (d m : D) (hd : c d = some ⟨[(m, 1)], 0⟩)
    (hm : ¬ inactive m) : resetInactive c inactive old x d = x m := by
  unfold resetInactive
  rw [distribute_line hd]
  simp [Line.eval, hm]

/-- The violation is reachable: master 0 over yield, slave 1 below; the algorithm makes 0
active and 1 inactive, and the reset gives 1 the trial value 7 of 0 instead of its old
value 5. -/
theorem C16_violated_reachable :
    let r := activeSetAlgorithm true exC (fun _ => none) exC [0, 1, 2, 3] [0, 1, 2, 3]
      (fun d => if d = 0 then 2 else 0) exY (fun _ => 5) ⟨[], [], exC, fun _ => 7, true⟩
    1 ∈ r.inactive ∧ r.trialSolution 1 = 7 := by
  have h1 : (1 : ℕ) ∈ determineInactive exC [0, 1, 2, 3] [0, 1, 2, 3]
      (determineActive exC (fun _ => none) exC [0, 1, 2, 3]
        (fun d => if d = 0 then 2 else 0) exY).1 := by
    rw [C15_inactive_iff _ _ _ _ (by decide), C13_active_iff]
    simp [MayFlow, Master, exC, exY]
  have h0 : (0 : ℕ) ∉ determineInactive exC [0, 1, 2, 3] [0, 1, 2, 3]
      (determineActive exC (fun _ => none) exC [0, 1, 2, 3]
        (fun d => if d = 0 then 2 else 0) exY).1 := by
    rw [C15_inactive_iff _ _ _ _ (by decide), C13_active_iff]
    simp [MayFlow, Master, exC, exY]
  simp only [activeSetAlgorithm, if_true]
  exact ⟨h1, C16_violated_tied_inactive _ _ _ _ 1 0 (by simp [exC]) h0⟩

/-- Non-vacuity of `C16_reset_tied` and `C16_idempotent`. -/
example : Closed exC ∧ Satisfies exC (fun d => if d = 3 then 0 else 5) := by
  constructor
  · intro i l h e he
    unfold exC at h ⊢
    split_ifs at h with h1 h2
    · cases h; simp at he; subst he; simp
    · cases h; simp at he
  · intro i l h
    unfold exC at h
    split_ifs at h with h1 h2
    · cases h; simp [Line.eval, h1]
    · cases h; simp [Line.eval, h2]

/-! ## Trial microstress (input of C13) -/

/-- C13: when the computation does not throw, every owned slip degree of freedom that is
not a hanging node has the lumped-projection value, i.e. the value `t` with
`lumped mass * t = right-hand side`. -/
theorem C13_trial_microstress (hn : Constraints ℕ) (ownedSlips : List ℕ) (lumped rhs t : ℕ → ℝ)
    (h : trialMicrostress hn ownedSlips lumped rhs = some t) (d : ℕ) (hd : d ∈ ownedSlips)
    (hh : hn d = none) : lumped d * t d = rhs d := by
  unfold trialMicrostress at h
  split_ifs at h with h0
  push Not at h0
  have ht := Option.some.inj h
  rw [← ht, distribute_free hh, if_pos hd, mul_div_cancel₀ _ (h0 d hd)]

example : trialMicrostress (fun _ => none) [0] (fun _ => 2) (fun _ => 6) =
    some (fun d => if d ∈ [0] then 6 / 2 else 0) := by
  unfold trialMicrostress
  rw [if_neg (by simp)]
  rfl

end Verif.AS
