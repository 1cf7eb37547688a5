import Verif.Model.App
import Verif.Props.ActiveSet

/-!
# Boundary conditions over a load history: C74
-/

namespace Verif.App
open Verif.Sol Verif.AS

/-! ## Specification -/

/-- The boundary conditions of the problem at a control value `g`: prescribed displacement at the
upper boundary, zero at all other Dirichlet degrees of freedom, equal values at periodic partners. -/
def SpecBoundary (s : Setting) (g x : ℕ → ℝ) : Prop :=
  (∀ d, s.top d → x d = g d) ∧ (∀ d, s.fixed d → ¬ s.top d → x d = 0) ∧
    ∀ d m, s.tie d = some m → x d = x m

/-- A periodic box: the partner of a boundary degree of freedom is one of the same kind, partners are
not slaves themselves; the upper boundary carries Dirichlet values. -/
structure Periodic (s : Setting) : Prop where
  fixed : ∀ d m, s.tie d = some m → (s.fixed d ↔ s.fixed m)
  top : ∀ d m, s.tie d = some m → (s.top d ↔ s.top m)
  slip : ∀ d m, s.tie d = some m → (d ∈ s.slips ↔ m ∈ s.slips)
  blk : ∀ d m, s.tie d = some m → s.blk d = s.blk m
  root : ∀ d m, s.tie d = some m → s.tie m = none
  topFixed : ∀ d, s.top d → s.fixed d
  topDispl : ∀ d, s.top d → d ∉ s.slips
  slipDofs : ∀ d ∈ s.slips, d ∈ s.dofs

/-- The prescribed displacement does not vary along the boundary. -/
def Uniform (s : Setting) (g : ℕ → ℝ) : Prop := ∀ d m, s.tie d = some m → s.top d → g d = g m

/-- Periodic partners yield together. -/
def TogetherYield (s : Setting) (a : Determination) : Prop :=
  ∀ d m, s.tie d = some m → d ∈ s.slips →
    ((if a.yield.perfect then a.yield.initial / a.yield.characteristic else a.yield.resistance d)
        < |a.trial d| ↔
     (if a.yield.perfect then a.yield.initial / a.yield.characteristic else a.yield.resistance m)
        < |a.trial m|)

/-! ## Helpers -/

/-- The homogeneous part of the boundary conditions. -/
def Hom (s : Setting) (x : ℕ → ℝ) : Prop :=
  (∀ d, s.fixed d → ¬ s.top d → x d = 0) ∧ ∀ d m, s.tie d = some m → x d = x m

theorem distribute_affine (s : Setting) (g x : ℕ → ℝ) (d : ℕ) :
    (s.top d → distribute (s.affine g) x d = g d) ∧
    (¬ s.top d → distribute (s.affine g) x d = x d) := by
  constructor
  · intro h
    rw [distribute_line (l := ⟨[], g d⟩) (by unfold Setting.affine; rw [if_pos h])]
    simp [Line.eval]
  · intro h
    exact distribute_free (by unfold Setting.affine; rw [if_neg h])

theorem hom_distribute {s : Setting} (hp : Periodic s) {g : ℕ → ℝ} (hg : Uniform s g) {x : ℕ → ℝ}
    (hx : Hom s x) : Hom s (distribute (s.affine g) x) := by
  refine ⟨fun d hf ht => ?_, fun d m hm => ?_⟩
  · rw [(distribute_affine s g x d).2 ht]; exact hx.1 d hf ht
  · by_cases ht : s.top d
    · rw [(distribute_affine s g x d).1 ht, (distribute_affine s g x m).1 ((hp.top d m hm).1 ht)]
      exact hg d m hm ht
    · rw [(distribute_affine s g x d).2 ht,
        (distribute_affine s g x m).2 (fun h => ht ((hp.top d m hm).2 h))]
      exact hx.2 d m hm

theorem hom_assign {s : Setting} (hp : Periodic s) {x y : ℕ → ℝ} (hx : Hom s x) (hy : Hom s y)
    (b : ℕ) : Hom s (assignBlock s.blk b x y) := by
  refine ⟨fun d hf ht => ?_, fun d m hm => ?_⟩
  · unfold assignBlock; split
    · exact hy.1 d hf ht
    · exact hx.1 d hf ht
  · unfold assignBlock; rw [hp.blk d m hm]; split
    · exact hy.2 d m hm
    · exact hx.2 d m hm

theorem hom_add {s : Setting} (hp : Periodic s) {x u : ℕ → ℝ} (hx : Hom s x) (hu : Hom s u)
    (b : ℕ) (lam : ℝ) : Hom s (addBlock s.blk b lam x u) := by
  refine ⟨fun d hf ht => ?_, fun d m hm => ?_⟩
  · unfold addBlock; rw [hx.1 d hf ht, hu.1 d hf ht]; simp
  · unfold addBlock; rw [hp.blk d m hm, hx.2 d m hm, hu.2 d m hm]

/-- Membership in the active set of the application. -/
theorem active_iff (s : Setting) (hp : Periodic s) (g : ℕ → ℝ) (a : Determination) (d : ℕ) :
    d ∈ (determineActive (s.affine g) (fun _ => none) s.newton s.slips a.trial a.yield).1 ↔
      d ∈ s.slips ∧ (if a.yield.perfect then a.yield.initial / a.yield.characteristic
        else a.yield.resistance d) < |a.trial d| := by
  rw [C13_active_iff]
  have hfree : ∀ e ∈ s.slips, s.affine g e = none := fun e he => by
    unfold Setting.affine; rw [if_neg (fun h => hp.topDispl e h he)]
  constructor
  · rintro ⟨e, he, hy, ⟨rfl, -⟩ | ⟨b, hb⟩⟩
    · exact ⟨he, hy⟩
    · rw [hfree e he] at hb; simp at hb
  · rintro ⟨hd, hy⟩
    exact ⟨d, hd, hy, Or.inl ⟨rfl, Or.inl (hfree d hd)⟩⟩

/-- The loop of `determine_active_set` in the application: the lines it adds. -/
theorem foldl_lines (c : Constraints ℕ) (trial : ℕ → ℝ) (y : Yield) (l : List ℕ)
    (hfree : ∀ e ∈ l, c e = none) (st : List ℕ × Constraints ℕ)
    (h0 : ∀ d, st.2 d = none ∨ st.2 d = some ⟨[], 0⟩) (hact : ∀ d ∈ st.1, y.at d < |trial d|)
    (d : ℕ) :
    ((l.foldl (pass c trial y) st).2 d = none ∨
      (l.foldl (pass c trial y) st).2 d = some ⟨[], 0⟩) ∧
    ((l.foldl (pass c trial y) st).2 d ≠ none ↔
      st.2 d ≠ none ∨ (d ∈ l ∧ ¬ y.at d < |trial d|)) := by
  induction l generalizing st with
  | nil => simp [h0 d]
  | cons e l ih =>
    rw [List.foldl_cons]
    have hadd : added c trial y e = if y.at e < |trial e| then [e] else [] := by
      unfold added isConstrained identityMaster
      rw [hfree e List.mem_cons_self]
      simp
    have hmem : e ∈ st.1 ++ added c trial y e ↔ y.at e < |trial e| := by
      rw [hadd, List.mem_append]
      constructor
      · rintro (h | h)
        · exact hact e h
        · by_contra hn; rw [if_neg hn] at h; simp at h
      · intro h; right; rw [if_pos h]; simp
    have hpass : pass c trial y st e = (st.1 ++ added c trial y e,
        if y.at e < |trial e| then st.2 else addLine st.2 e) := by
      unfold pass
      simp only
      by_cases h : y.at e < |trial e|
      · rw [if_pos (hmem.2 h), if_pos h]
      · rw [if_neg (fun k => h (hmem.1 k)), if_neg h]
    rw [hpass]
    have hline : ∀ i, addLine st.2 e i = if i = e then some ⟨[], 0⟩ else st.2 i := by
      intro i
      unfold addLine
      by_cases h : i = e
      · rw [if_pos h, if_pos h]
        rcases h0 e with h | h <;> rw [h]
      · rw [if_neg h, if_neg h]
    have hst : ∀ d, (if y.at e < |trial e| then st.2 else addLine st.2 e) d = none ∨
        (if y.at e < |trial e| then st.2 else addLine st.2 e) d = some ⟨[], 0⟩ := by
      intro i
      split
      · exact h0 i
      · rw [hline]; split
        · exact Or.inr rfl
        · exact h0 i
    have hact' : ∀ i ∈ st.1 ++ added c trial y e, y.at i < |trial i| := by
      intro i hi
      rw [List.mem_append] at hi
      rcases hi with h | h
      · exact hact i h
      · rw [hadd] at h; by_cases hy : y.at e < |trial e|
        · rw [if_pos hy] at h; simp at h; rw [h]; exact hy
        · rw [if_neg hy] at h; simp at h
    obtain ⟨i1, i2⟩ := ih (fun i hi => hfree i (List.mem_cons_of_mem _ hi))
      (st.1 ++ added c trial y e, if y.at e < |trial e| then st.2 else addLine st.2 e) hst hact'
    refine ⟨i1, i2.trans ?_⟩
    simp only
    by_cases hy : y.at e < |trial e|
    · rw [if_pos hy]
      constructor
      · rintro (h | ⟨h, k⟩)
        · exact Or.inl h
        · exact Or.inr ⟨List.mem_cons_of_mem _ h, k⟩
      · rintro (h | ⟨h, k⟩)
        · exact Or.inl h
        · rcases List.mem_cons.1 h with rfl | h
          · exact absurd hy k
          · exact Or.inr ⟨h, k⟩
    · rw [if_neg hy, hline]
      by_cases hd : d = e
      · subst hd; simp [hy]
      · rw [if_neg hd]; simp [hd]

/-- Lines of the internal constraints before closing. -/
theorem internal_line (s : Setting) (hp : Periodic s) (g : ℕ → ℝ) (a : Determination) (d : ℕ) :
    (determineActive (s.affine g) (fun _ => none) s.newton s.slips a.trial a.yield).2 d =
      open Classical in
      if d ∈ s.slips ∧ ¬ a.yield.at d < |a.trial d| then some ⟨[], 0⟩ else s.newton d := by
  have hfree : ∀ e ∈ s.slips, s.affine g e = none := fun e he => by
    unfold Setting.affine; rw [if_neg (fun h => hp.topDispl e h he)]
  obtain ⟨h1, h2⟩ := foldl_lines (s.affine g) a.trial a.yield s.slips hfree ([], fun _ => none)
    (by simp) (by simp) d
  unfold determineActive mergeRight
  simp only
  by_cases h : d ∈ s.slips ∧ ¬ a.yield.at d < |a.trial d|
  · rw [if_pos h]
    have : (s.slips.foldl (pass (s.affine g) a.trial a.yield) ([], fun _ => none)).2 d ≠ none :=
      h2.2 (Or.inr h)
    rcases h1 with h1 | h1
    · exact absurd h1 this
    · rw [h1]
  · rw [if_neg h]
    rcases h1 with h1 | h1
    · rw [h1]
    · exfalso
      have : (s.slips.foldl (pass (s.affine g) a.trial a.yield) ([], fun _ => none)).2 d ≠ none := by
        rw [h1]; simp
      rcases h2.1 this with k | k
      · simp at k
      · exact h k

theorem newton_cases (s : Setting) (d : ℕ) :
    (s.fixed d → s.newton d = some ⟨[], 0⟩) ∧
    (¬ s.fixed d → s.tie d = none → s.newton d = none) ∧
    (∀ m, ¬ s.fixed d → s.tie d = some m → s.newton d = some ⟨[(m, 1)], 0⟩) := by
  refine ⟨fun h => ?_, fun h t => ?_, fun m h t => ?_⟩
  · unfold Setting.newton; rw [if_pos h]
  · unfold Setting.newton; rw [if_neg h, t]
  · unfold Setting.newton; rw [if_neg h, t]

theorem hom_newton {s : Setting} (hp : Periodic s) (y : ℕ → ℝ) :
    Hom s (distribute s.newton y) := by
  refine ⟨fun d hf _ => ?_, fun d m hm => ?_⟩
  · rw [distribute_line ((newton_cases s d).1 hf)]; simp [Line.eval]
  · by_cases hf : s.fixed d
    · rw [distribute_line ((newton_cases s d).1 hf),
        distribute_line ((newton_cases s m).1 ((hp.fixed d m hm).1 hf))]
    · rw [distribute_line ((newton_cases s d).2.2 m hf hm),
        distribute_free ((newton_cases s m).2.1 (fun h => hf ((hp.fixed d m hm).2 h))
          (hp.root d m hm))]
      simp [Line.eval]

/-- Lines refer to free degrees of freedom or to degrees of freedom whose lines do. -/
def SpecTwoLevels (c : Constraints ℕ) : Prop := ∀ d l, c d = some l → ∀ e ∈ l.entries, ∀ k, c e.1 = some k →
  ∀ f ∈ k.entries, c f.1 = none

/-- Closing the constraints changes neither what is constrained nor which vectors satisfy them, and
afterwards lines refer to free degrees of freedom only. -/
theorem C74_close (c : Constraints ℕ) (h : SpecTwoLevels c) :
    (∀ d, closeLines c d = none ↔ c d = none) ∧ Closed (closeLines c) ∧
    ∀ x, Satisfies (closeLines c) x ↔ Satisfies c x := by
  have hn : ∀ d, closeLines c d = none ↔ c d = none := by
    intro d; unfold closeLines; rw [Option.map_eq_none_iff]
  refine ⟨hn, ?_, fun x => ?_⟩
  · intro d l hl e he
    unfold closeLines at hl
    rw [Option.map_eq_some_iff] at hl
    obtain ⟨k, hk, rfl⟩ := hl
    simp only [List.mem_flatMap] at he
    obtain ⟨f, hf, he⟩ := he
    rw [hn]
    rcases hc : c f.1 with _ | m
    · rw [hc] at he
      simp only [List.mem_singleton] at he
      rw [he, hc]
    · rw [hc] at he
      simp only [List.mem_map] at he
      obtain ⟨a, ha, rfl⟩ := he
      exact h d k hk f hf m hc a ha
  · -- the closed line evaluates the entries' lines
    have key : ∀ es : List (ℕ × ℝ), (∀ e ∈ es, ∀ k, c e.1 = some k → x e.1 = k.eval x) →
        ((es.flatMap fun e => match c e.1 with
          | none => [e]
          | some k => k.entries.map fun f => (f.1, e.2 * f.2)).map fun e => e.2 * x e.1).sum +
        (es.map fun e => match c e.1 with
          | none => 0
          | some k => e.2 * k.inhom).sum = (es.map fun e => e.2 * x e.1).sum := by
      intro es
      induction es with
      | nil => intro _; simp
      | cons e es ih =>
        intro he
        have h1 := ih fun a ha => he a (List.mem_cons_of_mem _ ha)
        rw [List.flatMap_cons, List.map_append, List.sum_append, List.map_cons, List.sum_cons,
          List.map_cons, List.sum_cons, ← h1]
        rcases hc : c e.1 with _ | k
        · simp only [List.map_cons, List.map_nil, List.sum_cons, List.sum_nil]; ring
        · have h2 := he e List.mem_cons_self k hc
          simp only [List.map_map]
          rw [h2]
          unfold Line.eval
          have : (k.entries.map ((fun e => e.2 * x e.1) ∘ fun f => (f.1, e.2 * f.2))).sum =
              e.2 * (k.entries.map fun f => f.2 * x f.1).sum := by
            rw [← List.sum_map_mul_left]
            congr 1
            exact List.map_congr_left fun f _ => by simp only [Function.comp_apply]; ring
          rw [this]; ring
    have hline : ∀ d l, c d = some l → closeLines c d = some ⟨l.entries.flatMap fun e => match c e.1 with
          | none => [e]
          | some k => k.entries.map fun f => (f.1, e.2 * f.2),
        (l.entries.map fun e => match c e.1 with
          | none => 0
          | some k => e.2 * k.inhom).sum + l.inhom⟩ := by
      intro d l hl; unfold closeLines; rw [hl]; rfl
    -- a line all of whose entries are free is not changed
    have hfree : ∀ d l, c d = some l → (∀ e ∈ l.entries, c e.1 = none) →
        Satisfies (closeLines c) x → x d = l.eval x := by
      intro d l hl hf hs
      rw [hs d _ (hline d l hl)]
      have := key l.entries fun e he k hk => by rw [hf e he] at hk; simp at hk
      unfold Line.eval
      rw [← this]; simp only; ring
    constructor
    · intro hs d l hl
      rw [hs d _ (hline d l hl)]
      have := key l.entries fun e he k hk => hfree e.1 k hk (h d l hl e he k hk) hs
      unfold Line.eval
      rw [← this]; simp only; ring
    · intro hs d l hl
      rcases hc : c d with _ | k
      · rw [(hn d).2 hc] at hl; simp at hl
      · rw [hline d k hc] at hl
        rw [← Option.some.inj hl, hs d k hc]
        have := key k.entries fun e he m hm => hs e.1 m hm
        unfold Line.eval
        rw [← this]; simp only; ring

/-- A hanging node between a fixed and a prescribed degree of freedom. -/
example : Satisfies (closeLines fun d => if d = 0 then some ⟨[(1, 1 / 2), (2, 1 / 2)], 0⟩
      else if d = 1 then some ⟨[(3, 2)], 5⟩ else none) (fun d => ([8, 13, 3, 4] : List ℝ).getD d 0) := by
  refine ((C74_close _ ?_).2.2 _).2 ?_
  · intro d l hl e he k hk f hf
    dsimp only at hl hk
    split_ifs at hl with h1 h2
    · rw [← Option.some.inj hl] at he
      simp only [List.mem_cons, List.not_mem_nil, or_false] at he
      rcases he with rfl | rfl
      · simp at hk; rw [← hk] at hf; simp at hf; subst hf; simp
      · simp at hk
    · rw [← Option.some.inj hl] at he
      simp only [List.mem_cons, List.not_mem_nil, or_false] at he
      subst he; simp at hk
  · intro d l hl
    dsimp only at hl
    split_ifs at hl with h1 h2
    · rw [← Option.some.inj hl, h1]; norm_num [Line.eval]
    · rw [← Option.some.inj hl, h2]; norm_num [Line.eval]

theorem close_none {c : Constraints ℕ} {d : ℕ} (h : c d = none) : closeLines c d = none := by
  unfold closeLines; rw [h]; rfl

theorem close_zero {c : Constraints ℕ} {d : ℕ} (h : c d = some ⟨[], 0⟩) :
    closeLines c d = some ⟨[], 0⟩ := by
  unfold closeLines; rw [h]; simp

theorem close_tie_free {c : Constraints ℕ} {d m : ℕ} (h : c d = some ⟨[(m, 1)], 0⟩)
    (hm : c m = none) : closeLines c d = some ⟨[(m, 1)], 0⟩ := by
  unfold closeLines; rw [h]; simp [hm]

theorem close_tie_zero {c : Constraints ℕ} {d m : ℕ} (h : c d = some ⟨[(m, 1)], 0⟩)
    (hm : c m = some ⟨[], 0⟩) : closeLines c d = some ⟨[], 0⟩ := by
  unfold closeLines; rw [h]; simp [hm]

theorem hom_internal {s : Setting} (hp : Periodic s) (g : ℕ → ℝ) (a : Option Determination)
    (ha : ∀ b, a = some b → TogetherYield s b) (y : ℕ → ℝ) :
    Hom s (distribute (s.internal g a) y) := by
  cases a with
  | none => exact hom_newton hp y
  | some a =>
    have ht := ha a rfl
    have hl := internal_line s hp g a
    have at_eq : ∀ d, a.yield.at d = (if a.yield.perfect then a.yield.initial / a.yield.characteristic
        else a.yield.resistance d) := fun d => rfl
    refine ⟨fun d hf _ => ?_, fun d m hm => ?_⟩
    · rw [distribute_line (l := ⟨[], 0⟩)]
      · simp [Line.eval]
      · refine close_zero ?_
        rw [hl d, (newton_cases s d).1 hf]; simp
    · by_cases hf : s.fixed d
      · have h0 : ∀ e, s.fixed e → distribute (s.internal g (some a)) y e = 0 := fun e he => by
          rw [distribute_line (l := ⟨[], 0⟩)]
          · simp [Line.eval]
          · refine close_zero ?_
            rw [hl e, (newton_cases s e).1 he]; simp
        rw [h0 d hf, h0 m ((hp.fixed d m hm).1 hf)]
      · have hfm : ¬ s.fixed m := fun h => hf ((hp.fixed d m hm).2 h)
        by_cases hin : d ∈ s.slips ∧ ¬ a.yield.at d < |a.trial d|
        · have him : m ∈ s.slips ∧ ¬ a.yield.at m < |a.trial m| :=
            ⟨(hp.slip d m hm).1 hin.1, fun h => hin.2 ((ht d m hm hin.1).2 h)⟩
          have c1 : s.internal g (some a) d = some ⟨[], 0⟩ := close_zero (by rw [hl d, if_pos hin])
          have c2 : s.internal g (some a) m = some ⟨[], 0⟩ := close_zero (by rw [hl m, if_pos him])
          rw [distribute_line c1, distribute_line c2]
        · have him : ¬ (m ∈ s.slips ∧ ¬ a.yield.at m < |a.trial m|) := by
            rintro ⟨h1, h2⟩
            have hds := (hp.slip d m hm).2 h1
            refine hin ⟨hds, fun h => h2 ((ht d m hm hds).1 h)⟩
          have e1 := hl d
          rw [if_neg hin, (newton_cases s d).2.2 m hf hm] at e1
          have e2 := hl m
          rw [if_neg him, (newton_cases s m).2.1 hfm (hp.root d m hm)] at e2
          have c1 : s.internal g (some a) d = some ⟨[(m, 1)], 0⟩ := close_tie_free e1 e2
          have c2 : s.internal g (some a) m = none := close_none e2
          rw [distribute_line c1, distribute_free c2]
          simp [Line.eval]

theorem hom_resetInactive {s : Setting} (hp : Periodic s) {g : ℕ → ℝ} (hg : Uniform s g)
    {a : Determination} (ht : TogetherYield s a) {old x : ℕ → ℝ} (ho : Hom s old) (hx : Hom s x) :
    Hom s (open Classical in resetInactive (s.affine g) (fun d => d ∈ s.inactive g a) old x) := by
  classical
  have hin : ∀ d, d ∈ s.inactive g a ↔ d ∈ s.slips ∧ ¬ (if a.yield.perfect then
      a.yield.initial / a.yield.characteristic else a.yield.resistance d) < |a.trial d| := by
    intro d
    unfold Setting.inactive
    rw [C15_inactive_iff _ _ _ _ hp.slipDofs, active_iff s hp]
    constructor
    · rintro ⟨h1, -, h2⟩; exact ⟨h1, fun h => h2 ⟨h1, h⟩⟩
    · rintro ⟨h1, h2⟩
      refine ⟨h1, Or.inl ?_, fun h => h2 h.2⟩
      unfold Setting.affine; rw [if_neg (fun h => hp.topDispl d h h1)]
  unfold resetInactive
  refine hom_distribute hp hg ⟨fun d hf htp => ?_, fun d m hm => ?_⟩
  · dsimp only
    split
    · exact ho.1 d hf htp
    · exact hx.1 d hf htp
  · have hiff : d ∈ s.inactive g a ↔ m ∈ s.inactive g a := by
      rw [hin, hin]
      constructor
      · rintro ⟨h1, h2⟩
        exact ⟨(hp.slip d m hm).1 h1, fun h => h2 ((ht d m hm h1).2 h)⟩
      · rintro ⟨h1, h2⟩
        have := (hp.slip d m hm).2 h1
        exact ⟨this, fun h => h2 ((ht d m hm this).1 h)⟩
    dsimp only
    by_cases h : d ∈ s.inactive g a
    · rw [if_pos h, if_pos (hiff.1 h)]; exact ho.2 d m hm
    · rw [if_neg h, if_neg (fun k => h (hiff.2 k))]; exact hx.2 d m hm

theorem hom_reach {s : Setting} (hp : Periodic s) {ok : Option Determination → Prop}
    (hok : ∀ a, ok (some a) → TogetherYield s a) {g : ℕ → ℝ} (hg : Uniform s g)
    {old oldOld : ℕ → ℝ} (h1 : Hom s old) (h2 : Hom s oldOld) {x : ℕ → ℝ}
    (hx : Reach s ok g old oldOld x) : Hom s x := by
  induction hx with
  | start skip ratio =>
    unfold extrapolate
    simp only
    have : ∀ v : ℕ → ℝ, distribute (fun _ => none) v = v := fun v => rfl
    rw [this]
    cases skip
    · refine ⟨fun d hf ht => ?_, fun d m hm => ?_⟩
      · simp [h1.1 d hf ht, h2.1 d hf ht]
      · simp [h1.2 d m hm, h2.2 d m hm]
    · simpa using h1
  | distribute _ ih => exact hom_distribute hp hg ih
  | update b lam y a ha _ ih =>
    refine hom_assign hp ih (hom_distribute hp hg (hom_add hp ih (hom_internal hp g a ?_ y) b lam)) b
    rintro c rfl; exact hok c ha
  | reset b _ _ ih1 ih2 => exact hom_assign hp ih2 (hom_distribute hp hg ih1) b
  | resetInactive a ha _ ih => exact hom_resetInactive hp hg (hok a ha) h1 ih

/-! ## C74 -/

/-- C74, partial: if periodic partners always yield together (in particular for rate-dependent
behaviour, where no active set is determined), every accepted solution of a run of any length
satisfies all boundary conditions: the prescribed displacement of its step, zero at the other Dirichlet
degrees of freedom and periodicity — although during a step only the first is enforced.  Missing:
partners that do not yield together, see `C74_violated`. -/
theorem C74_boundary_conditions_partial (s : Setting) (hp : Periodic s)
    (ok : Option Determination → Prop) (hok : ∀ a, ok (some a) → TogetherYield s a)
    (g : ℕ → ℝ) (gs : List (ℕ → ℝ)) (hg : ∀ f ∈ g :: gs, Uniform s f)
    (h : History (ℕ → ℝ)) (hr : Run s ok (g :: gs) h) : SpecBoundary s g h.solution := by
  have key : ∀ (l : List (ℕ → ℝ)) (h : History (ℕ → ℝ)), Run s ok l h → (∀ f ∈ l, Uniform s f) →
      Hom s h.solution ∧ Hom s h.old ∧ Hom s h.oldOld := by
    intro l h hr
    induction hr with
    | init => intro _; exact ⟨⟨by simp, by simp⟩, ⟨by simp, by simp⟩, ⟨by simp, by simp⟩⟩
    | step g x _ hx _ ih =>
      intro hu
      obtain ⟨_, i2, i3⟩ := ih fun f hf => hu f (List.mem_cons_of_mem _ hf)
      have := hom_reach hp hok (hu g List.mem_cons_self) i2 i3 hx
      exact ⟨this, this, i2⟩
  have hh := (key _ _ hr hg).1
  refine ⟨fun d hd => ?_, hh.1, hh.2⟩
  cases hr with
  | step _ x _ _ hs =>
    have := hs d ⟨[], g d⟩ (by unfold Setting.affine; rw [if_pos hd])
    simpa [Line.eval, timeStep, updateSolutionVectors] using this

/-- C74: partners yield together if they have equal trial microstress and equal slip resistance. -/
theorem C74_together (s : Setting) (a : Determination)
    (h : ∀ d m, s.tie d = some m → a.trial d = a.trial m ∧ a.yield.resistance d = a.yield.resistance m) :
    TogetherYield s a := by
  intro d m hm _
  rw [(h d m hm).1, (h d m hm).2]

/-- C74: a slip degree of freedom on a Dirichlet boundary beyond yield *is* put into the active set —
in a running application the affine constraints no longer mark it — but its update vanishes. -/
theorem C74_boundary_active (s : Setting) (hp : Periodic s) (g : ℕ → ℝ) (a : Determination) (d : ℕ)
    (hd : d ∈ s.slips) (hf : s.fixed d) (hy : (if a.yield.perfect then
      a.yield.initial / a.yield.characteristic else a.yield.resistance d) < |a.trial d|) (y : ℕ → ℝ) :
    d ∈ (determineActive (s.affine g) (fun _ => none) s.newton s.slips a.trial a.yield).1 ∧
      distribute (s.internal g (some a)) y d = 0 := by
  refine ⟨(active_iff s hp g a d).2 ⟨hd, hy⟩, ?_⟩
  rw [distribute_line (l := ⟨[], 0⟩)]
  · simp [Line.eval]
  · refine close_zero ?_
    rw [internal_line s hp g a, (newton_cases s d).1 hf]; simp

/-- A strip with one slip degree of freedom on each periodic face (0 and 1, tied), a displacement at the
upper boundary (2) and one at the lower (3). -/
def exStrip : Setting where
  top := fun d => d = 2
  fixed := fun d => d = 2 ∨ d = 3
  tie := fun d => if d = 1 then some 0 else none
  dofs := [0, 1, 2, 3]
  slips := [0, 1]
  blk := fun _ => 0

theorem exStrip_periodic : Periodic exStrip := by
  constructor <;> intro d
  · intro m h; simp only [exStrip] at *; split at h <;> simp_all; omega
  · intro m h; simp only [exStrip] at *; split at h <;> simp_all; omega
  · intro m h; simp only [exStrip] at *; split at h <;> simp_all
  · intro m h; rfl
  · intro m h; simp only [exStrip] at *; split at h <;> simp_all; omega
  · intro h; exact Or.inl h
  · intro h; simp only [exStrip] at *; subst h; simp
  · intro h; simp only [exStrip] at *; simp at *; omega

/-- Slip at the master 0 beyond yield, at its slave 1 below. -/
noncomputable def exApart : Determination where
  trial := fun d => if d = 0 then 2 else 0
  yield := ⟨true, 1, 1, fun _ => 1⟩

theorem update_all {s : Setting} (hb : ∀ d, s.blk d = 0) (g u : ℕ → ℝ) (skip : Bool) (ratio : ℝ)
    (d : ℕ) :
    (s.top d → updateTrial (s.affine g) s.blk 0 1 u
      (extrapolate (fun _ => none) s.newton skip ratio 0 0).1 d = g d) ∧
    (¬ s.top d → updateTrial (s.affine g) s.blk 0 1 u
      (extrapolate (fun _ => none) s.newton skip ratio 0 0).1 d = u d) := by
  unfold updateTrial assignBlock
  rw [if_pos (hb d)]
  refine ⟨(distribute_affine _ _ _ _).1, fun h => ?_⟩
  rw [(distribute_affine _ _ _ _).2 h]
  unfold addBlock
  rw [if_pos (hb d)]
  cases skip <;> simp [extrapolate, distribute]

theorem satisfies_affine {s : Setting} {g x : ℕ → ℝ} (h : ∀ d, s.top d → x d = g d) :
    Satisfies (s.affine g) x := by
  intro d l hl
  have ht : s.top d := by
    by_contra hn; unfold Setting.affine at hl; rw [if_neg hn] at hl; simp at hl
  unfold Setting.affine at hl; rw [if_pos ht] at hl
  obtain rfl := Option.some.inj hl
  rw [h d ht]; simp [Line.eval]

/-- C74 violated: as soon as a determination of the active set separates two periodic partners, an
accepted solution is no longer periodic.  Witness: one step, slave below and master beyond yield; the
slave is pinned by the merged constraints, which win over the periodicity. -/
theorem C74_violated (a : ℝ) (ha : a ≠ 0) : ∃ g : ℕ → ℝ, Uniform exStrip g ∧ ∃ h,
    Run exStrip (fun o => o = some exApart) [g] h ∧
    exStrip.tie 1 = some 0 ∧ h.solution 0 = a ∧ h.solution 1 = 0 ∧
    ¬ SpecBoundary exStrip g h.solution := by
  classical
  have hd : ∀ d, (distribute (exStrip.internal (fun _ => 0) (some exApart)) (fun _ => a)) d =
      if d = 0 then a else if d ∈ [1, 2, 3] then 0 else a := by
    intro d
    have hl := internal_line exStrip exStrip_periodic (fun _ => 0) exApart
    by_cases h0 : d = 0
    · subst h0
      rw [distribute_free]; · simp
      refine close_none ?_
      rw [hl, if_neg]
      · exact (newton_cases exStrip 0).2.1 (by simp [exStrip]) (by simp [exStrip])
      · rintro ⟨-, h⟩; apply h; norm_num [exApart, Yield.at]
    · by_cases h1 : d = 1
      · subst h1
        rw [distribute_line (l := ⟨[], 0⟩)]; · simp [Line.eval]
        refine close_zero ?_
        rw [hl, if_pos]
        refine ⟨by simp [exStrip], ?_⟩
        norm_num [exApart, Yield.at]
      · by_cases h2 : d = 2 ∨ d = 3
        · rw [distribute_line (l := ⟨[], 0⟩)]
          · rcases h2 with rfl | rfl <;> simp [Line.eval]
          · refine close_zero ?_
            rw [hl, (newton_cases exStrip d).1 h2]; simp
        · push Not at h2
          rw [distribute_free]; · simp [h0, h1, h2]
          refine close_none ?_
          rw [hl, if_neg]
          · exact (newton_cases exStrip d).2.1 (by simp [exStrip, h2]) (by simp [exStrip, h1])
          · rintro ⟨h, -⟩; simp [exStrip, h0, h1] at h
  have e0 := (update_all (s := exStrip) (fun _ => rfl) (fun _ => 0) (distribute
    (exStrip.internal (fun _ => 0) (some exApart)) (fun _ => a)) true 1 0).2 (by simp [exStrip])
  have e1 := (update_all (s := exStrip) (fun _ => rfl) (fun _ => 0) (distribute
    (exStrip.internal (fun _ => 0) (some exApart)) (fun _ => a)) true 1 1).2 (by simp [exStrip])
  rw [hd] at e0 e1
  refine ⟨fun _ => 0, fun _ _ _ _ => rfl, _,
    Run.step (fun _ => 0) _ Run.init (Reach.update 0 1 (fun _ => a) (some exApart) rfl
      (Reach.start true 1)) (satisfies_affine fun d =>
        (update_all (s := exStrip) (fun _ => rfl) _ _ _ _ d).1),
    by simp [exStrip], e0.trans (by simp), e1.trans (by simp), fun hb => ha ?_⟩
  have h3 := hb.2.2 1 0 (by simp [exStrip])
  have h4 : (0 : ℝ) = a := (e1.trans (by simp)).symm.trans (h3.trans (e0.trans (by simp)))
  exact h4.symm

/-- Non-vacuity of `C74_boundary_conditions_partial`: a rate-dependent step with non-trivial solution. -/
example : ∃ (g : ℕ → ℝ) (h : History (ℕ → ℝ)), Uniform exStrip g ∧
    Run exStrip (fun o => o = none) [g] h ∧ h.solution 2 = 3 ∧ h.solution 1 = 5 := by
  refine ⟨fun _ => 3, _, fun _ _ _ _ => rfl,
    Run.step (fun _ => 3) _ Run.init (Reach.update 0 1 (fun _ => 5) none rfl
      (Reach.start true 1)) (satisfies_affine fun d => (update_all (s := exStrip) (fun _ => rfl) _ _ _ _ d).1),
    (update_all (s := exStrip) (fun _ => rfl) _ _ _ _ 2).1 rfl,
    ((update_all (s := exStrip) (fun _ => rfl) _ _ _ _ 1).2 (by simp [exStrip])).trans ?_⟩
  have : exStrip.internal (fun _ => 3) none 1 = some ⟨[(0, 1)], 0⟩ :=
    (newton_cases exStrip 1).2.2 0 (by simp [exStrip]) (by simp [exStrip])
  rw [distribute_line this]
  simp [Line.eval]

end Verif.App
