import Verif.Model.Lifecycle
import Verif.Props.Hooke
import Verif.Props.Files

/-!
# C102: use before initialisation is refused, repeated initialisation is harmless

Theorems about all histories of calls (`World.run`), including calls that throw half way.  Claims about a history that runs
into undefined behaviour have no meaning for the program, whatever the theorems say of the model.
-/

namespace Verif.Life
open Verif.Cry Verif.Files Matrix

variable {d : ℕ}

/-! ## Specification -/

/-- A call of the history satisfying `P` ended without an exception. -/
def Completed (h : List Call) (r : List Status) (P : Call → Prop) : Prop :=
  ∃ (k : ℕ) (c : Call), h[k]? = some c ∧ P c ∧ r[k]? = some Status.done

/-- `CrystalsData::init`. -/
def IsInitCrystals : Call → Prop
  | .initCrystals _ => True
  | _ => False

/-- The Hooke laws constructed, in order: with or without crystals, and the parameters. -/
def hookesMade (h : List Call) : List (Bool × Elastic) :=
  h.filterMap fun c => match c with
    | .newHooke poly p => some (poly, p)
    | _ => none

/-- The vectorial microstress laws constructed, in order. -/
def vectorialsMade (h : List Call) : List (ℝ × ℝ × ℝ) :=
  h.filterMap fun c => match c with
    | .newVectorial a b e => some (a, b, e)
    | _ => none

/-- The postprocessors constructed, in order. -/
def postsMade (h : List Call) : List PostKind :=
  h.filterMap fun c => match c with
    | .newPost k => some k
    | _ => none

/-- The argument of the last completed `init` of the vectorial microstress law number `j`. -/
def lastInit (j : ℕ) (h : List Call) (r : List Status) : Option Bool :=
  (h.zip r).foldl (fun acc x => match x with
    | (.initVectorial i f, .done) => if i = j then some f else acc
    | _ => acc) none

/-! ## Histories -/

variable (dm : Dim d) (stod : List Char → Option ℝ)

theorem run_length (w : World d) (h : List Call) : (w.run dm stod h).2.length = h.length := by
  induction h generalizing w with
  | nil => rfl
  | cons c cs ih => simp only [World.run, List.length_cons, ih]

theorem run_snoc (w : World d) (h : List Call) (c : Call) :
    w.run dm stod (h ++ [c]) = (((w.run dm stod h).1.step dm stod c).1,
      (w.run dm stod h).2 ++ [((w.run dm stod h).1.step dm stod c).2]) := by
  induction h generalizing w with
  | nil => rfl
  | cons a as ih => simp only [List.cons_append, World.run, ih]

theorem run_append (w : World d) (h k : List Call) :
    w.run dm stod (h ++ k) = (((w.run dm stod h).1.run dm stod k).1,
      (w.run dm stod h).2 ++ ((w.run dm stod h).1.run dm stod k).2) := by
  induction h generalizing w with
  | nil => rfl
  | cons a as ih => simp only [List.cons_append, World.run, ih]

theorem completed_nil (r : List Status) (P : Call → Prop) : ¬ Completed [] r P := by
  rintro ⟨k, c, h, _⟩; simp at h

theorem completed_snoc {h : List Call} {r : List Status} (hl : r.length = h.length) (c : Call) (s : Status)
    (P : Call → Prop) : Completed (h ++ [c]) (r ++ [s]) P ↔ Completed h r P ∨ (P c ∧ s = .done) := by
  constructor
  · rintro ⟨k, c', h1, h2, h3⟩
    rcases lt_trichotomy k h.length with hk | hk | hk
    · rw [List.getElem?_append_left hk] at h1
      rw [List.getElem?_append_left (by omega)] at h3
      exact Or.inl ⟨k, c', h1, h2, h3⟩
    · subst hk
      rw [List.getElem?_append_right le_rfl] at h1
      rw [List.getElem?_append_right (by omega), hl] at h3
      simp at h1 h3
      subst h1
      exact Or.inr ⟨h2, h3⟩
    · rw [List.getElem?_eq_none (by simp; omega)] at h1
      cases h1
  · rintro (⟨k, c', h1, h2, h3⟩ | ⟨h1, h2⟩)
    · have hk : k < h.length := by
        by_contra hk
        rw [List.getElem?_eq_none (by omega)] at h1
        cases h1
      refine ⟨k, c', ?_, h2, ?_⟩
      · rw [List.getElem?_append_left hk, h1]
      · rw [List.getElem?_append_left (by omega), h3]
    · refine ⟨h.length, c, by simp, h1, ?_⟩
      rw [← hl]; simp [h2]

theorem lastInit_snoc (j : ℕ) {h : List Call} {r : List Status} (hl : r.length = h.length) (c : Call) (s : Status) :
    lastInit j (h ++ [c]) (r ++ [s]) = match (c, s) with
      | (.initVectorial i f, .done) => if i = j then some f else lastInit j h r
      | _ => lastInit j h r := by
  unfold lastInit
  rw [List.zip_append hl.symm, List.foldl_append]
  rfl

/-! ## The crystals -/

theorem init_flag (c : Crystals d) (i : Input) :
    (c.init dm stod i).1.flag = true ↔ c.flag = true ∨ (c.init dm stod i).2 = .done := by
  unfold Crystals.init
  simp only
  split_ifs <;> simp_all

theorem crystals_step (w : World d) (c : Call) : (w.step dm stod c).1.crystals.flag = true ↔
    w.crystals.flag = true ∨ (IsInitCrystals c ∧ (w.step dm stod c).2 = .done) := by
  cases c with
  | initCrystals i =>
    simp only [World.step, IsInitCrystals, true_and]
    exact init_flag dm stod _ i
  | newHooke p q => simp [World.step, IsInitCrystals]
  | newVectorial a b e => simp [World.step, IsInitCrystals]
  | newPost k => simp [World.step, IsInitCrystals]
  | initHooke j => simp only [World.step, IsInitCrystals, false_and, or_false]; split <;> rfl
  | initVectorial j f => simp only [World.step, IsInitCrystals, false_and, or_false]; split <;> rfl
  | initPost j => simp only [World.step, IsInitCrystals, false_and, or_false]; split <;> rfl

theorem crystals_flag (h : List Call) : ((World.new d).run dm stod h).1.crystals.flag = true ↔
    Completed h ((World.new d).run dm stod h).2 IsInitCrystals := by
  induction h using List.reverseRecOn with
  | nil => simp [World.run, World.new, Crystals.new, completed_nil]
  | append_singleton h c ih =>
    rw [run_snoc, completed_snoc (run_length dm stod _ h), ← ih]
    exact crystals_step dm stod _ c

theorem found_ne {α β : Type*} (f : α → β) (o : Option α) : found f o ≠ .throws := by
  cases o <;> simp [found]

/-- Every access function of the crystals throws exactly until some call of `init` has completed: failed attempts,
however many and however far they got, and calls on other objects do not matter. -/
theorem C102_crystals (h : List Call) (q : Ask) :
    ((World.new d).run dm stod h).1.crystals.ask q = .throws ↔
      ¬ Completed h ((World.new d).run dm stod h).2 IsInitCrystals := by
  rw [← crystals_flag, Bool.not_eq_true]
  unfold Crystals.ask
  split_ifs with hf
  · simp [hf]
  · constructor
    · intro e
      cases q <;> exact absurd e (found_ne _ _)
    · intro e; exact absurd e hf

/-! ## Law objects -/

theorem hooke_init_facts (k : Crystals d) (h : Hooke d) :
    (h.init k).1.poly = h.poly ∧ (h.init k).1.prm = h.prm ∧
      ((h.init k).1.flag = true ↔ h.flag = true ∨ (h.init k).2 = .done) := by
  unfold Hooke.init
  simp only
  split_ifs with h1 h2
  · simp [Hooke.references]
  · simp [Hooke.references]
  · cases hn : k.nC with
    | none => simp [Hooke.references]
    | some n =>
      simp only
      cases h3 : firsts n k.rotations with
      | none => simp [Hooke.references]
      | some a =>
        cases h4 : firsts n k.rotations3 with
        | none => simp [Hooke.references]
        | some b => simp [Hooke.references]

theorem vectorial_init_facts (k : Crystals d) (v : Vectorial d) (f : Bool) :
    (v.init k f).1.lengthScale = v.lengthScale ∧ (v.init k f).1.initialResistance = v.initialResistance ∧
      (v.init k f).1.index = v.index ∧ ((v.init k f).1.flag = true ↔ v.flag = true ∨ (v.init k f).2 = .done) := by
  unfold Vectorial.init
  by_cases h1 : k.flag = false
  · rw [if_pos h1]; simp
  · rw [if_neg h1]
    cases hn : k.nC with
    | none => simp
    | some n =>
      cases hm : k.nS with
      | none => simp
      | some m =>
        simp only
        cases h3 : block n m k.systems with
        | none => simp
        | some a => simp

/-- Objects of one class, made with the configurations `made`, initialised as `C` says. -/
structure Track {α β : Type*} (cfg : α → β) (flag : α → Bool) (made : List β) (C : ℕ → Prop) (l : List α) : Prop where
  len : l.length = made.length
  at_ : ∀ j a, l[j]? = some a → made[j]? = some (cfg a) ∧ (flag a = true ↔ C j)
  beyond : ∀ j, l.length ≤ j → ¬ C j

theorem Track.congr {α β : Type*} {cfg : α → β} {flag : α → Bool} {made made' : List β} {C C' : ℕ → Prop} {l : List α}
    (t : Track cfg flag made C l) (hm : made' = made) (hC : ∀ j, C' j ↔ C j) : Track cfg flag made' C' l := by
  subst hm
  exact ⟨t.len, fun j a h => ⟨(t.at_ j a h).1, by rw [(t.at_ j a h).2, hC]⟩, fun j h => by rw [hC]; exact t.beyond j h⟩

theorem Track.new {α β : Type*} {cfg : α → β} {flag : α → Bool} {made : List β} {C C' : ℕ → Prop} {l : List α}
    (t : Track cfg flag made C l) (a : α) (ha : flag a = true ↔ C' l.length) (hC : ∀ j, j ≠ l.length → (C' j ↔ C j)) :
    Track cfg flag (made ++ [cfg a]) C' (l ++ [a]) := by
  refine ⟨by simp [t.len], fun j b h => ?_, fun j h => ?_⟩
  · rcases lt_trichotomy j l.length with hk | hk | hk
    · rw [List.getElem?_append_left hk] at h
      rw [List.getElem?_append_left (by rw [← t.len]; exact hk), hC j hk.ne]
      exact t.at_ j b h
    · subst hk
      rw [List.getElem?_append_right le_rfl] at h
      simp at h
      subst h
      refine ⟨?_, ha⟩
      rw [t.len, List.getElem?_append_right le_rfl]
      simp
    · rw [List.getElem?_eq_none (by simp; omega)] at h
      cases h
  · simp only [List.length_append, List.length_singleton] at h
    rw [hC j (by omega)]
    exact t.beyond j (by omega)

theorem Track.set {α β : Type*} {cfg : α → β} {flag : α → Bool} {made : List β} {C C' : ℕ → Prop} {l : List α}
    (t : Track cfg flag made C l) (j : ℕ) (a a' : α) (D : Prop) (ha : l[j]? = some a) (hc : cfg a' = cfg a)
    (hf : flag a' = true ↔ flag a = true ∨ D) (hC : ∀ i, C' i ↔ C i ∨ (j = i ∧ D)) :
    Track cfg flag made C' (l.set j a') := by
  have hj : j < l.length := (List.getElem?_eq_some_iff.1 ha).1
  refine ⟨by simp [t.len], fun i b h => ?_, fun i h => ?_⟩
  · rw [hC]
    by_cases e : j = i
    · subst e
      rw [List.getElem?_set_self hj] at h
      simp at h
      subst h
      rw [hc, hf, (t.at_ j a ha).2]
      exact ⟨(t.at_ j a ha).1, by simp⟩
    · rw [List.getElem?_set_ne e] at h
      exact ⟨(t.at_ i b h).1, by rw [(t.at_ i b h).2]; simp [e]⟩
  · rw [List.length_set] at h
    rw [hC]
    rintro (h' | ⟨h', _⟩)
    · exact t.beyond i h h'
    · omega

/-- The state of the three kinds of objects. -/
structure Tracked (h : List Call) (r : List Status) (w : World d) : Prop where
  hookes : Track (fun H : Hooke d => (H.poly, H.prm)) (·.flag) (hookesMade h)
    (fun j => Completed h r (· = .initHooke j)) w.hookes
  vectorials : Track (fun v : Vectorial d => (v.lengthScale, v.initialResistance, v.index)) (·.flag) (vectorialsMade h)
    (fun j => Completed h r (fun c => ∃ f, c = .initVectorial j f)) w.vectorials
  posts : Track (·.kind) (fun p : PostObj => decide (p.flag = some true)) (postsMade h)
    (fun j => (postsMade h)[j]? = some (.fields true) ∨ Completed h r (· = .initPost j)) w.posts
  fresh : ∀ p ∈ w.posts, p.flag = some true ∨ p = PostObj.new p.kind

theorem tracked (h : List Call) : Tracked h ((World.new d).run dm stod h).2 ((World.new d).run dm stod h).1 := by
  induction h using List.reverseRecOn with
  | nil =>
    refine ⟨⟨rfl, fun j a h => by simp [World.run, World.new] at h, fun j _ => completed_nil _ _⟩,
      ⟨rfl, fun j a h => by simp [World.run, World.new] at h, fun j _ => completed_nil _ _⟩,
      ⟨rfl, fun j a h => by simp [World.run, World.new] at h, fun j _ => ?_⟩, by simp [World.run, World.new]⟩
    rintro (h | h)
    · simp [postsMade] at h
    · exact completed_nil _ _ h
  | append_singleton h c ih =>
    rw [run_snoc]
    have hl := run_length dm stod (World.new d) h
    generalize (World.new d).run dm stod h = x at ih hl
    obtain ⟨w, r⟩ := x
    simp only at ih hl ⊢
    have mh : ∀ c : Call, hookesMade (h ++ [c]) = hookesMade h ++ hookesMade [c] := fun c => List.filterMap_append
    have mv : ∀ c : Call, vectorialsMade (h ++ [c]) = vectorialsMade h ++ vectorialsMade [c] := fun c => List.filterMap_append
    have mp : ∀ c : Call, postsMade (h ++ [c]) = postsMade h ++ postsMade [c] := fun c => List.filterMap_append
    -- an object of another kind, or a call that does not reach it
    have kh : ∀ (c : Call) (s : Status), hookesMade [c] = [] → (∀ j, c = .initHooke j → s ≠ .done) →
        Track (fun H : Hooke d => (H.poly, H.prm)) (·.flag) (hookesMade (h ++ [c]))
          (fun j => Completed (h ++ [c]) (r ++ [s]) (· = .initHooke j)) w.hookes := fun c s h1 h2 =>
      ih.hookes.congr (by rw [mh, h1, List.append_nil]) fun j => by
        rw [completed_snoc hl]
        exact ⟨fun x => x.elim id fun y => absurd y.2 (h2 j y.1), Or.inl⟩
    have kv : ∀ (c : Call) (s : Status), vectorialsMade [c] = [] → (∀ j f, c = .initVectorial j f → s ≠ .done) →
        Track (fun v : Vectorial d => (v.lengthScale, v.initialResistance, v.index)) (·.flag) (vectorialsMade (h ++ [c]))
          (fun j => Completed (h ++ [c]) (r ++ [s]) (fun c => ∃ f, c = .initVectorial j f)) w.vectorials := fun c s h1 h2 =>
      ih.vectorials.congr (by rw [mv, h1, List.append_nil]) fun j => by
        rw [completed_snoc hl]
        exact ⟨fun x => x.elim id fun y => absurd y.2 (h2 j y.1.choose y.1.choose_spec), Or.inl⟩
    have kp : ∀ (c : Call) (s : Status), postsMade [c] = [] → (∀ j, c = .initPost j → s ≠ .done) →
        Track (·.kind) (fun p : PostObj => decide (p.flag = some true)) (postsMade (h ++ [c]))
          (fun j => (postsMade (h ++ [c]))[j]? = some (.fields true) ∨ Completed (h ++ [c]) (r ++ [s]) (· = .initPost j))
          w.posts := fun c s h1 h2 =>
      ih.posts.congr (by rw [mp, h1, List.append_nil]) fun j => by
        rw [completed_snoc hl, mp, h1, List.append_nil]
        refine or_congr Iff.rfl ?_
        exact ⟨fun x => x.elim id fun y => absurd y.2 (h2 j y.1), Or.inl⟩
    cases c with
    | initCrystals i => exact ⟨kh _ _ rfl (by simp), kv _ _ rfl (by simp), kp _ _ rfl (by simp), ih.fresh⟩
    | newHooke p q =>
      refine ⟨?_, kv _ _ rfl (by simp), kp _ _ rfl (by simp), ih.fresh⟩
      rw [mh]
      refine ih.hookes.new (Hooke.new d p q) ?_ fun j _ => ?_
      · rw [completed_snoc hl]
        simp only [Hooke.new, Bool.false_eq_true, false_iff, not_or]
        exact ⟨ih.hookes.beyond _ le_rfl, by simp⟩
      · rw [completed_snoc hl]; simp
    | newVectorial a b e =>
      refine ⟨kh _ _ rfl (by simp), ?_, kp _ _ rfl (by simp), ih.fresh⟩
      rw [mv]
      refine ih.vectorials.new (Vectorial.new d a b e) ?_ fun j _ => ?_
      · rw [completed_snoc hl]
        simp only [Vectorial.new, Bool.false_eq_true, false_iff, not_or]
        exact ⟨ih.vectorials.beyond _ le_rfl, by simp⟩
      · rw [completed_snoc hl]; simp
    | newPost k =>
      refine ⟨kh _ _ rfl (by simp), kv _ _ rfl (by simp), ?_, ?_⟩
      · have hk : postsMade [.newPost k] = [(PostObj.new k).kind] := by cases k <;> rfl
        rw [mp, hk]
        refine ih.posts.new (PostObj.new k) ?_ fun j hj => ?_
        · rw [completed_snoc hl, ih.posts.len, List.getElem?_append_right le_rfl]
          have hb := ih.posts.beyond (postsMade h).length (by rw [ih.posts.len])
          have hc : ¬ Completed h r (· = .initPost (postsMade h).length) := fun x => hb (Or.inr x)
          cases k with
          | fields l => cases l <;> simp [PostObj.new, hc]
          | simpleShear => simp [PostObj.new, hc]
          | homogenization => simp [PostObj.new, hc]
        · rw [completed_snoc hl]
          refine or_congr ?_ (by simp)
          rcases lt_or_gt_of_ne hj with hk | hk
          · rw [List.getElem?_append_left (by rw [← ih.posts.len]; exact hk)]
          · rw [List.getElem?_eq_none (by have := ih.posts.len; simp only [List.length_append, List.length_singleton]; omega),
              List.getElem?_eq_none (by rw [← ih.posts.len]; omega)]
      · intro p hp
        simp only [World.step, List.mem_append, List.mem_singleton] at hp
        rcases hp with hp | rfl
        · exact ih.fresh p hp
        · right; cases k <;> rfl
    | initHooke j =>
      simp only [World.step]
      cases hj : w.hookes[j]? with
      | none => exact ⟨kh _ _ rfl (by simp), kv _ _ rfl (by simp), kp _ _ rfl (by simp), ih.fresh⟩
      | some H =>
        refine ⟨?_, kv _ _ rfl (by simp), kp _ _ rfl (by simp), ih.fresh⟩
        rw [mh]
        have hf := hooke_init_facts w.crystals H
        refine (ih.hookes.set j H _ ((H.init w.crystals).2 = .done) hj (by rw [hf.1, hf.2.1]) hf.2.2 fun i => ?_).congr
          (by simp [hookesMade]) fun i => Iff.rfl
        rw [completed_snoc hl]; simp
    | initVectorial j f =>
      simp only [World.step]
      cases hj : w.vectorials[j]? with
      | none => exact ⟨kh _ _ rfl (by simp), kv _ _ rfl (by simp), kp _ _ rfl (by simp), ih.fresh⟩
      | some v =>
        refine ⟨kh _ _ rfl (by simp), ?_, kp _ _ rfl (by simp), ih.fresh⟩
        rw [mv]
        have hf := vectorial_init_facts w.crystals v f
        refine (ih.vectorials.set j v _ ((v.init w.crystals f).2 = .done) hj (by rw [hf.1, hf.2.1, hf.2.2.1]) hf.2.2.2
          fun i => ?_).congr (by simp [vectorialsMade]) fun i => Iff.rfl
        rw [completed_snoc hl]; simp
    | initPost j =>
      simp only [World.step]
      cases hj : w.posts[j]? with
      | none => exact ⟨kh _ _ rfl (by simp), kv _ _ rfl (by simp), kp _ _ rfl (by simp), ih.fresh⟩
      | some p =>
        refine ⟨kh _ _ rfl (by simp), kv _ _ rfl (by simp), ?_, ?_⟩
        · rw [mp]
          refine (ih.posts.set (C' := fun i => (postsMade h)[i]? = some (.fields true) ∨
            Completed (h ++ [.initPost j]) (r ++ [.done]) (· = .initPost i)) j p { p with flag := some true } True hj rfl
            (by simp) fun i => ?_).congr (by simp [postsMade]) fun i => by simp [postsMade]
          rw [completed_snoc hl]; simp [or_assoc]
        · intro q hq
          rcases List.mem_or_eq_of_mem_set hq with hq | rfl
          · exact ih.fresh q hq
          · exact Or.inl rfl

/-- The overload of the access functions of Hooke's law that names a crystal. -/
def AskHooke.named : AskHooke d → Bool
  | .tetrad c => c.isSome
  | .tetrad3 c => c.isSome
  | .stress c _ => c.isSome

/-- The `j`-th Hooke law that the history constructed exists and keeps its kind and parameters; an access
function throws exactly if it is the overload for the other kind of law or no `init` of this law has completed. -/
theorem C102_hooke (h : List Call) (j : ℕ) (poly : Bool) (p : Elastic) (hj : (hookesMade h)[j]? = some (poly, p)) :
    ∃ H, ((World.new d).run dm stod h).1.hookes[j]? = some H ∧ ∀ q : AskHooke d, (H.ask q = .throws ↔
      q.named ≠ poly ∨ ¬ Completed h ((World.new d).run dm stod h).2 (· = .initHooke j)) := by
  have t := (tracked dm stod h).hookes
  have hlt : j < ((World.new d).run dm stod h).1.hookes.length := by
    rw [t.len]; exact (List.getElem?_eq_some_iff.1 hj).1
  obtain ⟨H, hH⟩ : ∃ H, ((World.new d).run dm stod h).1.hookes[j]? = some H := ⟨_, List.getElem?_eq_getElem hlt⟩
  refine ⟨H, hH, fun q => ?_⟩
  obtain ⟨h1, h2⟩ := t.at_ j H hH
  rw [hj] at h1
  simp only [Option.some.injEq, Prod.mk.injEq] at h1
  rw [← h2, h1.1]
  cases q with
  | tetrad c => cases c <;> cases hp : H.poly <;> cases hf : H.flag <;> simp [Hooke.ask, hp, hf, AskHooke.named, found_ne]
  | tetrad3 c => cases c <;> cases hp : H.poly <;> cases hf : H.flag <;> simp [Hooke.ask, hp, hf, AskHooke.named, found_ne]
  | stress c e => cases c <;> cases hp : H.poly <;> cases hf : H.flag <;> simp [Hooke.ask, hp, hf, AskHooke.named, found_ne]

/-- An `init` of a law that needs the crystals completes only after an `init` of the crystals has. -/
theorem law_after_crystals (h : List Call) (j : ℕ) (f : Bool)
    (hc : Completed h ((World.new d).run dm stod h).2 (· = .initVectorial j f)) :
    Completed h ((World.new d).run dm stod h).2 IsInitCrystals := by
  induction h using List.reverseRecOn with
  | nil => exact absurd hc (completed_nil _ _)
  | append_singleton h c ih =>
    rw [run_snoc, completed_snoc (run_length dm stod _ h)] at hc ⊢
    rcases hc with hc | ⟨rfl, hc⟩
    · exact Or.inl (ih hc)
    · left
      rw [← crystals_flag]
      simp only [World.step] at hc
      split at hc
      · cases hc
      · simp only [Vectorial.init] at hc
        by_contra hf
        rw [Bool.not_eq_true] at hf
        rw [if_pos hf] at hc
        cases hc

/-- The `j`-th vectorial microstress law: its access functions throw exactly until an `init` of this law has completed. -/
theorem C102_vectorial (h : List Call) (j : ℕ) (a b e : ℝ) (hj : (vectorialsMade h)[j]? = some (a, b, e)) :
    ∃ v, ((World.new d).run dm stod h).1.vectorials[j]? = some v ∧ ∀ c s g,
      (v.ask ((World.new d).run dm stod h).1.crystals c s g = .throws ↔
        ¬ Completed h ((World.new d).run dm stod h).2 (fun c => ∃ f, c = .initVectorial j f)) := by
  have t := (tracked dm stod h).vectorials
  have hlt : j < ((World.new d).run dm stod h).1.vectorials.length := by
    rw [t.len]; exact (List.getElem?_eq_some_iff.1 hj).1
  obtain ⟨v, hv⟩ : ∃ v, ((World.new d).run dm stod h).1.vectorials[j]? = some v := ⟨_, List.getElem?_eq_getElem hlt⟩
  refine ⟨v, hv, fun c s g => ?_⟩
  have h2 := (t.at_ j v hv).2
  unfold Vectorial.ask
  by_cases hf : v.flag = false
  · rw [if_pos hf]
    simp only [true_iff]
    rw [← h2, hf]; simp
  · rw [if_neg hf]
    rw [Bool.not_eq_false] at hf
    have hC := h2.1 hf
    have hK : ((World.new d).run dm stod h).1.crystals.flag = true := by
      rw [crystals_flag]
      obtain ⟨k, c, h1, ⟨f, h2⟩, h3⟩ := hC
      exact law_after_crystals dm stod h j f ⟨k, c, h1, h2, h3⟩
    rw [if_neg (by rw [hK]; simp)]
    simp only [hC, not_true, iff_false]
    split <;> simp

/-- No law that depends on the crystals can be initialised before them, in no history. -/
theorem C102_order (h : List Call) (j : ℕ) :
    ((hookesMade h)[j]?.map Prod.fst = some true → Completed h ((World.new d).run dm stod h).2 (· = .initHooke j) →
      Completed h ((World.new d).run dm stod h).2 IsInitCrystals) ∧
    (∀ f, Completed h ((World.new d).run dm stod h).2 (· = .initVectorial j f) →
      Completed h ((World.new d).run dm stod h).2 IsInitCrystals) := by
  refine ⟨?_, fun f => law_after_crystals dm stod h j f⟩
  induction h using List.reverseRecOn with
  | nil => exact fun _ hc => absurd hc (completed_nil _ _)
  | append_singleton h c ih =>
    intro hj hc
    rw [run_snoc, completed_snoc (run_length dm stod _ h)] at hc ⊢
    have t := (tracked dm stod h).hookes
    have key : ∀ H, ((World.new d).run dm stod h).1.hookes[j]? = some H → (hookesMade h)[j]?.map Prod.fst = some true := by
      intro H hH
      have := (t.at_ j H hH).1
      have hlt : j < (hookesMade h).length := (List.getElem?_eq_some_iff.1 this).1
      have mh : hookesMade (h ++ [c]) = hookesMade h ++ hookesMade [c] := List.filterMap_append
      rw [mh, List.getElem?_append_left hlt] at hj
      exact hj
    rcases hc with hc | ⟨rfl, hc⟩
    · left
      have hlt : j < ((World.new d).run dm stod h).1.hookes.length := by
        by_contra hb
        exact t.beyond j (by omega) hc
      exact ih (key _ (List.getElem?_eq_getElem hlt)) hc
    · left
      rw [← crystals_flag]
      simp only [World.step] at hc
      cases hH : ((World.new d).run dm stod h).1.hookes[j]? with
      | none => rw [hH] at hc; cases hc
      | some H =>
        rw [hH] at hc
        have hk := key H hH
        rw [(t.at_ j H hH).1] at hk
        simp only [Option.map_some, Option.some.injEq] at hk
        simp only [Hooke.init] at hc
        rw [if_neg (by rw [hk]; simp)] at hc
        by_contra hf
        rw [Bool.not_eq_true] at hf
        rw [if_pos hf] at hc
        cases hc

/-- Postprocessors: the evaluations of `SimpleShear` and `Homogenization` throw exactly until their `init`; light output of
`Postprocessor` never does. -/
theorem C102_posts_partial (h : List Call) (j : ℕ) (k : PostKind) (hj : (postsMade h)[j]? = some k) :
    ∃ p, ((World.new d).run dm stod h).1.posts[j]? = some p ∧
      (Completed h ((World.new d).run dm stod h).2 (· = .initPost j) → p.check = .done) ∧
      (¬ Completed h ((World.new d).run dm stod h).2 (· = .initPost j) →
        p.check = match k with
          | .fields true => .done
          | .fields false => .undefined
          | .simpleShear => .threw
          | .homogenization => .threw) := by
  have t := (tracked dm stod h).posts
  have hlt : j < ((World.new d).run dm stod h).1.posts.length := by
    rw [t.len]; exact (List.getElem?_eq_some_iff.1 hj).1
  obtain ⟨p, hp⟩ : ∃ p, ((World.new d).run dm stod h).1.posts[j]? = some p := ⟨_, List.getElem?_eq_getElem hlt⟩
  refine ⟨p, hp, fun hc => ?_, fun hc => ?_⟩
  · have := (t.at_ j p hp).2.2 (Or.inr hc)
    unfold PostObj.check
    rw [of_decide_eq_true this]
  · have h1 := (t.at_ j p hp).1
    rw [hj, Option.some.injEq] at h1
    have h2 := (t.at_ j p hp).2
    rw [hj] at h2
    simp only [decide_eq_true_eq, hc, or_false, Option.some.injEq] at h2
    rcases (tracked dm stod h).fresh p (List.mem_of_getElem? hp) with hf | hf
    · have hk := h2.1 hf
      subst hk
      unfold PostObj.check; rw [hf]
    · rw [hf, ← h1]
      cases k with
      | fields l => cases l <;> rfl
      | simpleShear => rfl
      | homogenization => rfl

/-- C102 is violated by `Postprocessor`: for full output the constructor leaves the flag unset, so evaluating before
`init` reads an indeterminate value instead of throwing. -/
theorem C102_violated_postprocessor (h : List Call) (j : ℕ) (hj : (postsMade h)[j]? = some (.fields false))
    (hc : ¬ Completed h ((World.new d).run dm stod h).2 (· = .initPost j)) :
    ∃ p, ((World.new d).run dm stod h).1.posts[j]? = some p ∧ p.check = .undefined := by
  obtain ⟨p, h1, _, h3⟩ := C102_posts_partial dm stod h j _ hj
  exact ⟨p, h1, h3 hc⟩

/-! ## What initialised objects answer -/

/-- The two dimensions of the program. -/
inductive IsDim : ∀ {d : ℕ}, Dim d → Prop
  | two : IsDim dim2
  | three : IsDim dim3

theorem readInto_ok (euler : Bool) (ls : List (List Char)) (h : (readInto (d := d) stod euler ls).2 = .done) :
    readLines stod euler ls = .ok (readInto (d := d) stod euler ls).1 := by
  induction ls with
  | nil => rfl
  | cons l ls ih =>
    simp only [readInto, readLines] at h ⊢
    by_cases hb : blank l
    · rw [if_pos hb, if_pos hb]
    · rw [if_neg hb] at h
      rw [if_neg hb, if_neg hb]
      cases hr : readLine (dim := d) stod euler l with
      | throws => rw [hr] at h; cases h
      | undefined => rw [hr] at h; cases h
      | ok v =>
        rw [hr] at h
        simp only [Outcome.bind]
        rw [ih h]

theorem openInto_ok (euler : Bool) (f : Option (List Char)) (h : (openInto (d := d) stod euler f).2 = .done) :
    openFile stod euler f = .ok (openInto (d := d) stod euler f).1 := by
  cases f with
  | none => cases h
  | some f => exact readInto_ok stod euler _ h

/-- A slip system of a crystal from the entries of the files. -/
noncomputable def made (p : Vec d × Vec d) : Slip d :=
  ⟨Cry.normalize p.1, Cry.normalize p.2, dm.third p.2 p.1⟩

theorem systemsLoop_ok (l : List (Vec d × Vec d))
    (h : (systemsLoop dm (l.map fun p => (some p.1, some p.2))).2 = true) :
    (systemsLoop dm (l.map fun p => (some p.1, some p.2))).1 = l.map (made dm) ∧
      ∀ p ∈ l, orthogonalityCheck p.2 p.1 := by
  induction l with
  | nil => exact ⟨rfl, by simp⟩
  | cons p ps ih =>
    simp only [List.map_cons, systemsLoop] at h ⊢
    by_cases ho : Orthogonal (some p.2) (some p.1)
    · rw [if_pos ho] at h
      rw [if_pos ho]
      obtain ⟨h1, h2⟩ := ih h
      refine ⟨?_, ?_⟩
      · simp only [h1]; rfl
      · intro q hq
        rcases List.mem_cons.1 hq with rfl | hq
        · exact ho
        · exact h2 q hq
    · rw [if_neg ho] at h; cases h

/-- The crystals after the first `init` that completed. -/
noncomputable def loaded (n : ℕ) (D : Data d) : Crystals d where
  nC := some n
  nS := some (D.directions.zip D.normals).length
  euler := D.orientations
  directions := ((D.directions.zip D.normals).map (made dm)).map (·.direction)
  normals := ((D.directions.zip D.normals).map (made dm)).map (·.normal)
  rotations := D.orientations.map dm.rot
  rotations3 := D.orientations.map dm.rot3
  systems := D.orientations.map fun o => ((D.directions.zip D.normals).map (made dm)).map (·.rotate (dm.rot o))
  flag := true

theorem init_done (c : Crystals d) (i : Input) (h : (c.init dm stod i).2 = .done) :
    let n := nCrystals i.ids
    let o := openInto (d := d) stod true i.orientations
    let s := openInto (d := d) stod false i.directions
    let m := openInto (d := d) stod false i.normals
    let S := c.directions ++ s.1.map some
    let M := c.normals ++ m.1.map some
    let l := systemsLoop dm (S.zip M)
    let E := c.euler ++ o.1
    let R := c.rotations ++ (E.take n).map dm.rot
    o.2 = .done ∧ E.length = n ∧ s.2 = .done ∧ m.2 = .done ∧ M.length = S.length ∧ l.2 = true ∧
      (c.init dm stod i).1 = ⟨some n, some l.1.length, E, l.1.map (·.direction), l.1.map (·.normal), R,
        dm.store3 R c.rotations3 ((E.take n).map dm.rot3),
        c.systems ++ (R.take n).map fun r => l.1.map (·.rotate r), true⟩ := by
  extract_lets n o s m S M l E R
  unfold Crystals.init at h ⊢
  extract_lets c1 c2 c3 l0 c4 at h
  by_cases h1 : o.2 ≠ .done
  · rw [if_pos h1] at h; exact absurd h h1
  by_cases h2 : c1.euler.length ≠ n
  · rw [if_neg h1, if_pos h2] at h; cases h
  by_cases h3 : s.2 ≠ .done
  · rw [if_neg h1, if_neg h2, if_pos h3] at h; exact absurd h h3
  by_cases h4 : m.2 ≠ .done
  · rw [if_neg h1, if_neg h2, if_neg h3, if_pos h4] at h; exact absurd h h4
  by_cases h5 : c3.normals.length ≠ c3.directions.length
  · rw [if_neg h1, if_neg h2, if_neg h3, if_neg h4, if_pos h5] at h; cases h
  by_cases h6 : l0.2 = false
  · rw [if_neg h1, if_neg h2, if_neg h3, if_neg h4, if_neg h5, if_pos h6] at h; cases h
  refine ⟨not_not.1 h1, not_not.1 h2, not_not.1 h3, not_not.1 h4, not_not.1 h5, by simpa using h6, ?_⟩
  extract_lets
  rw [if_neg h1, if_neg h2, if_neg h3, if_neg h4, if_neg h5, if_neg h6]

theorem init_first {dm : Dim d} (hd : IsDim dm) (k : Option ℕ) (i : Input)
    (h : (({ Crystals.new d with nC := k } : Crystals d).init dm stod i).2 = .done) :
    ∃ D : Data d, readData stod i.ids i.orientations i.directions i.normals = .ok D ∧
      D.orientations.length = nCrystals i.ids ∧ D.normals.length = D.directions.length ∧
      (∀ p ∈ D.directions.zip D.normals, orthogonalityCheck p.2 p.1) ∧
      (({ Crystals.new d with nC := k } : Crystals d).init dm stod i).1 = loaded dm (nCrystals i.ids) D := by
  obtain ⟨h1, h2, h3, h4, h5, h6, h7⟩ := init_done dm stod _ i h
  rw [h7]
  simp only [Crystals.new, List.nil_append, List.length_map] at h1 h2 h3 h4 h5 h6 ⊢
  have hz : ((openInto (d := d) stod false i.directions).1.map some).zip
      ((openInto (d := d) stod false i.normals).1.map some) =
      ((openInto (d := d) stod false i.directions).1.zip (openInto (d := d) stod false i.normals).1).map
        fun p => (some p.1, some p.2) := by
    rw [List.zip_map]; rfl
  rw [hz] at h6 ⊢
  have o1 := openInto_ok stod true _ h1
  have o2 := openInto_ok stod false _ h3
  have o3 := openInto_ok stod false _ h4
  clear h h7 hz h1 h3 h4
  generalize (openInto (d := d) stod true i.orientations).1 = O at *
  generalize (openInto (d := d) stod false i.directions).1 = S at *
  generalize (openInto (d := d) stod false i.normals).1 = M at *
  obtain ⟨e1, e2⟩ := systemsLoop_ok dm _ h6
  refine ⟨⟨O, S, M⟩, ?_, h2, h5, e2, ?_⟩
  · unfold readData
    rw [o1]
    simp only [Outcome.bind]
    rw [if_neg (by simpa using h2), o2]
    simp only
    rw [o3]
    simp only
    rw [if_neg (by simpa using h5)]
  · rw [e1]
    unfold loaded
    have ht : O.take (nCrystals i.ids) = O := List.take_of_length_le (by omega)
    have ht' : (O.map dm.rot).take (nCrystals i.ids) = O.map dm.rot := List.take_of_length_le (by simp; omega)
    have h3d : dm.store3 (O.map dm.rot) [] (O.map dm.rot3) = O.map dm.rot3 := by cases hd <;> rfl
    rw [ht, ht', h3d]
    simp [Function.comp_def]

/-! ### Later calls -/

/-- A further call of `init` on a triangulation with `n` crystals whose file of orientations is missing, damaged or lists at
least one orientation. -/
def Further (n : ℕ) (i : Input) : Prop :=
  nCrystals i.ids = n ∧ openFile (dim := d) stod true i.orientations ≠ .ok []

/-- Such a call does not complete and changes nothing but the list of angles. -/
theorem further_init (K : Crystals d) (e : List (Vec d)) (n : ℕ) (hn : K.nC = some n) (he : n ≤ e.length) (i : Input)
    (hi : Further (d := d) stod n i) :
    (({ K with euler := e } : Crystals d).init dm stod i).2 ≠ .done ∧
      ∃ e', n ≤ e'.length ∧ (({ K with euler := e } : Crystals d).init dm stod i).1 = { K with euler := e' } := by
  have hs : K = { K with nC := some n } := by rw [← hn]
  unfold Crystals.init
  extract_lets n' o c1 s c2 m c3 l c4 rots
  have hn' : n' = n := hi.1
  by_cases h1 : o.2 ≠ .done
  · rw [if_pos h1]
    refine ⟨h1, e ++ o.1, by simp; omega, ?_⟩
    show c1 = _
    simp only [c1, hn', ← hn]
  · rw [if_neg h1]
    have hne : o.1 ≠ [] := by
      intro h0
      apply hi.2
      rw [openInto_ok stod true _ (not_not.1 h1)]
      exact congrArg _ h0
    have hlen : 0 < o.1.length := List.length_pos_iff.2 hne
    have h2 : c1.euler.length ≠ n' := by
      simp only [c1, List.length_append]; omega
    rw [if_pos h2]
    refine ⟨by simp, e ++ o.1, by simp; omega, ?_⟩
    show c1 = _
    simp only [c1, hn', ← hn]

/-- A Hooke law is uninitialised or agrees with the crystals `K`. -/
structure HookeOk (K : Crystals d) (n : ℕ) (H : Hooke d) : Prop where
  ref : H.ref = (fun _ => 0) ∨ H.ref = H.prm.reference d
  ref3 : H.ref3 = (fun _ => 0) ∨ H.ref3 = H.prm.reference 3
  set : H.flag = true → H.ref = H.prm.reference d ∧ H.ref3 = H.prm.reference 3
  empty : H.flag = false → H.tetrads = [] ∧ H.tetrads3 = []
  vals : H.flag = true → H.poly = true → ∀ c < n,
    H.tetrads[c]? = K.rotations[c]?.map (fun q => rotatedStiffness q (H.prm.reference d)) ∧
    H.tetrads3[c]? = K.rotations3[c]?.map (fun q => rotatedStiffness q (H.prm.reference 3))

theorem reference_again (p : Elastic) (d : ℕ) (t : Store4 d) (ht : t = (fun _ => 0) ∨ t = p.reference d) :
    (tuples d).foldl p.write t = p.reference d := by
  rcases ht with rfl | rfl
  · rfl
  · have key : ∀ xs : List (Fin d × Fin d × Fin d × Fin d), xs.foldl p.write (p.reference d) = p.reference d := by
      intro xs
      induction xs with
      | nil => rfl
      | cons x xs ih =>
        rw [List.foldl_cons]
        have hw : p.write (p.reference d) x = p.reference d := by
          obtain ⟨i, j, k, l⟩ := x
          have hr : ∀ v, SpecCubic p i j k l = v → Function.update (p.reference d) (slot i j k l) v = p.reference d := by
            intro v hv
            rw [← hv, ← reference_eq p i j k l]
            exact Function.update_eq_self _ _
          unfold Elastic.write
          simp only
          split_ifs with h1 h2 h3
          · apply hr; unfold SpecCubic; rw [if_pos h1]
          · apply hr; unfold SpecCubic
            rw [if_neg h1, if_neg, if_pos (Or.inl h2)]
            rintro ⟨rfl, rfl⟩; exact h1 ⟨rfl, h2.1, rfl⟩
          · apply hr; unfold SpecCubic; rw [if_neg h1, if_pos h3]
          · rfl
        rw [hw, ih]
    exact key _

theorem prefix_again {α β : Type*} (f : α → β) (l : List β) (r : List α) (c : ℕ) (hc : c < r.length)
    (hl : l = [] ∨ ∀ c < r.length, l[c]? = r[c]?.map f) : (l ++ r.map f)[c]? = r[c]?.map f := by
  rcases hl with rfl | hl
  · simp
  · have hlt : c < l.length := by
      have := hl c hc
      rw [List.getElem?_eq_getElem hc] at this
      exact (List.getElem?_eq_some_iff.1 this).1
    rw [List.getElem?_append_left hlt, hl c hc]

theorem hookeOk_init (K : Crystals d) (n : ℕ) (hr : K.rotations.length = n) (hr3 : K.rotations3.length = n)
    (k : Crystals d) (hk : k.flag = false ∨ (k.flag = true ∧ k.nC = some n ∧ k.rotations = K.rotations ∧
      k.rotations3 = K.rotations3)) (H : Hooke d) (h : HookeOk K n H) : HookeOk K n (H.init k).1 := by
  have e1 : H.references.ref = H.prm.reference d := reference_again H.prm d _ h.ref
  have e3 : H.references.ref3 = H.prm.reference 3 := reference_again H.prm 3 _ h.ref3
  have href : HookeOk K n H.references :=
    ⟨Or.inr e1, Or.inr e3, fun _ => ⟨e1, e3⟩, h.empty, h.vals⟩
  unfold Hooke.init
  extract_lets h1
  by_cases hp : H.poly = false
  · rw [if_pos hp]
    exact ⟨Or.inr e1, Or.inr e3, fun _ => ⟨e1, e3⟩, by simp, fun _ h2 => absurd (hp.symm.trans h2) (by simp)⟩
  · rw [if_neg hp]
    rcases hk with hk | ⟨hk1, hk2, hk3, hk4⟩
    · rw [if_pos hk]; exact href
    · rw [if_neg (by rw [hk1]; simp), hk2]
      simp only
      have f1 : firsts n k.rotations = some K.rotations := by
        unfold firsts; rw [hk3, if_pos (by omega), List.take_of_length_le (by omega)]
      have f3 : firsts n k.rotations3 = some K.rotations3 := by
        unfold firsts; rw [hk4, if_pos (by omega), List.take_of_length_le (by omega)]
      rw [f1, f3]
      simp only
      refine ⟨Or.inr e1, Or.inr e3, fun _ => ⟨e1, e3⟩, by simp, fun _ _ c hc => ?_⟩
      show (H.tetrads ++ K.rotations.map fun q => rotatedStiffness q H.references.ref)[c]? = _ ∧
        (H.tetrads3 ++ K.rotations3.map fun q => rotatedStiffness q H.references.ref3)[c]? = _
      rw [e1, e3]
      rw [Bool.not_eq_false] at hp
      refine ⟨prefix_again _ _ _ c (by omega) ?_, prefix_again _ _ _ c (by omega) ?_⟩
      · cases hf : H.flag with
        | false => exact Or.inl (h.empty hf).1
        | true => exact Or.inr fun c hc => (h.vals hf hp c (by omega)).1
      · cases hf : H.flag with
        | false => exact Or.inl (h.empty hf).2
        | true => exact Or.inr fun c hc => (h.vals hf hp c (by omega)).2

/-- A vectorial microstress law is uninitialised or agrees with the crystals `K`. -/
structure VectorialOk (K : Crystals d) (n : ℕ) (v : Vectorial d) : Prop where
  empty : v.flag = false → v.dyads = []
  vals : v.flag = true → ∀ c < n,
    v.dyads[c]? = K.systems[c]?.map (fun r => r.map fun s => (square s.direction, square s.third))

theorem mapM_some {α : Type*} (f : α → Option α) (l : List α) (h : ∀ x ∈ l, f x = some x) : l.mapM f = some l := by
  induction l with
  | nil => rfl
  | cons a l ih =>
    rw [List.mapM_cons, h a List.mem_cons_self, ih fun x hx => h x (List.mem_cons_of_mem _ hx)]
    rfl

theorem vectorialOk_init (K : Crystals d) (n m : ℕ) (hs : K.systems.length = n) (hm : ∀ r ∈ K.systems, r.length = m)
    (k : Crystals d) (hk : k.flag = false ∨ (k.flag = true ∧ k.nC = some n ∧ k.nS = some m ∧ k.systems = K.systems))
    (v : Vectorial d) (f : Bool) (h : VectorialOk K n v) : VectorialOk K n (v.init k f).1 := by
  unfold Vectorial.init
  rcases hk with hk | ⟨hk1, hk2, hk3, hk4⟩
  · rw [if_pos hk]; exact h
  · rw [if_neg (by rw [hk1]; simp), hk2, hk3]
    simp only
    have hb : block n m k.systems = some K.systems := by
      unfold block firsts
      rw [hk4, if_pos (by omega), List.take_of_length_le (by omega), Option.bind_some]
      refine mapM_some _ _ fun r hr => ?_
      rw [hm r hr, if_pos le_rfl, List.take_of_length_le (by rw [hm r hr])]
    rw [hb]
    refine ⟨by simp, fun _ c hc => ?_⟩
    refine prefix_again _ _ _ c (by omega) ?_
    cases hf : v.flag with
    | false => exact Or.inl (h.empty hf)
    | true => exact Or.inr fun c hc => h.vals hf c (by omega)

/-- All laws are uninitialised or agree with `K`. -/
structure LawsOk (K : Crystals d) (n : ℕ) (w : World d) : Prop where
  hookes : ∀ H ∈ w.hookes, HookeOk K n H
  vectorials : ∀ v ∈ w.vectorials, VectorialOk K n v

/-- The numbers of entries of the crystals fit. -/
structure Sizes (K : Crystals d) (n m : ℕ) : Prop where
  flag : K.flag = true
  nC : K.nC = some n
  nS : K.nS = some m
  rotations : K.rotations.length = n
  rotations3 : K.rotations3.length = n
  systems : K.systems.length = n
  rows : ∀ r ∈ K.systems, r.length = m

theorem other_step (K : Crystals d) (n m : ℕ) (z : Sizes K n m) (w : World d)
    (hk : w.crystals.flag = false ∨ ∃ e, w.crystals = { K with euler := e }) (ok : LawsOk K n w) (c : Call)
    (hc : ∀ i, c ≠ .initCrystals i) :
    (w.step dm stod c).1.crystals = w.crystals ∧ LawsOk K n (w.step dm stod c).1 := by
  cases c with
  | initCrystals i => exact absurd rfl (hc i)
  | newHooke p q =>
    refine ⟨rfl, fun H hH => ?_, ok.vectorials⟩
    rcases List.mem_append.1 hH with h | h
    · exact ok.hookes H h
    · rw [List.mem_singleton.1 h]
      exact ⟨Or.inl rfl, Or.inl rfl, by simp [Hooke.new], fun _ => ⟨rfl, rfl⟩, by simp [Hooke.new]⟩
  | newVectorial a b e =>
    refine ⟨rfl, ok.hookes, fun v hv => ?_⟩
    rcases List.mem_append.1 hv with h | h
    · exact ok.vectorials v h
    · rw [List.mem_singleton.1 h]
      exact ⟨fun _ => rfl, by simp [Vectorial.new]⟩
  | newPost k => exact ⟨rfl, ok.hookes, ok.vectorials⟩
  | initHooke j =>
    simp only [World.step]
    cases hj : w.hookes[j]? with
    | none => exact ⟨rfl, ok⟩
    | some H =>
      refine ⟨rfl, fun H' hH' => ?_, ok.vectorials⟩
      rcases List.mem_or_eq_of_mem_set hH' with h | rfl
      · exact ok.hookes H' h
      · refine hookeOk_init K n z.rotations z.rotations3 _ ?_ H (ok.hookes H (List.mem_of_getElem? hj))
        rcases hk with hk | ⟨e, hk⟩
        · exact Or.inl hk
        · rw [hk]; exact Or.inr ⟨z.flag, z.nC, rfl, rfl⟩
  | initVectorial j f =>
    simp only [World.step]
    cases hj : w.vectorials[j]? with
    | none => exact ⟨rfl, ok⟩
    | some v =>
      refine ⟨rfl, ok.hookes, fun v' hv' => ?_⟩
      rcases List.mem_or_eq_of_mem_set hv' with h | rfl
      · exact ok.vectorials v' h
      · refine vectorialOk_init K n m z.systems z.rows _ ?_ v f (ok.vectorials v (List.mem_of_getElem? hj))
        rcases hk with hk | ⟨e, hk⟩
        · exact Or.inl hk
        · rw [hk]; exact Or.inr ⟨z.flag, z.nC, z.nS, rfl⟩
  | initPost j =>
    simp only [World.step]
    split <;> exact ⟨rfl, ok.hookes, ok.vectorials⟩

theorem before (K : Crystals d) (n m : ℕ) (z : Sizes K n m) (h : List Call)
    (hp : ∀ i, Call.initCrystals i ∈ h → i.orientations = none) :
    (∃ k, ((World.new d).run dm stod h).1.crystals = { Crystals.new d with nC := k }) ∧
      LawsOk K n ((World.new d).run dm stod h).1 := by
  induction h using List.reverseRecOn with
  | nil => exact ⟨⟨none, rfl⟩, by simp [World.run, World.new], by simp [World.run, World.new]⟩
  | append_singleton h c ih =>
    obtain ⟨⟨k, hk⟩, ok⟩ := ih fun i hi => hp i (List.mem_append_left _ hi)
    rw [run_snoc]
    simp only
    by_cases hc : ∀ i, c ≠ .initCrystals i
    · obtain ⟨e1, e2⟩ := other_step dm stod K n m z _ (Or.inl (by rw [hk]; rfl)) ok c hc
      exact ⟨⟨k, by rw [e1, hk]⟩, e2⟩
    · push Not at hc
      obtain ⟨i, rfl⟩ := hc
      have ho := hp i (by simp)
      simp only [World.step]
      refine ⟨⟨some (nCrystals i.ids), ?_⟩, ok.hookes, ok.vectorials⟩
      rw [hk]
      unfold Crystals.init
      rw [ho]
      simp [openInto, Crystals.new]

theorem after (K : Crystals d) (n m : ℕ) (z : Sizes K n m) (h : List Call)
    (hp : ∀ i, Call.initCrystals i ∈ h → Further (d := d) stod n i) (w : World d) (e : List (Vec d)) (he : n ≤ e.length)
    (hw : w.crystals = { K with euler := e }) (ok : LawsOk K n w) :
    (∃ e', (w.run dm stod h).1.crystals = { K with euler := e' }) ∧ LawsOk K n (w.run dm stod h).1 ∧
      ¬ Completed h (w.run dm stod h).2 IsInitCrystals := by
  induction h generalizing w e with
  | nil => exact ⟨⟨e, hw⟩, ok, completed_nil _ _⟩
  | cons c cs ih =>
    have hp' : ∀ i, Call.initCrystals i ∈ cs → Further (d := d) stod n i := fun i hi => hp i (List.mem_cons_of_mem _ hi)
    have hcons : ∀ (s : Status) (r : List Status), (IsInitCrystals c → s ≠ .done) → ¬ Completed cs r IsInitCrystals →
        ¬ Completed (c :: cs) (s :: r) IsInitCrystals := by
      rintro s r h1 h2 ⟨k, c', a1, a2, a3⟩
      cases k with
      | zero =>
        simp only [List.getElem?_cons_zero, Option.some.injEq] at a1 a3
        subst a1
        exact h1 a2 a3
      | succ k => exact h2 ⟨k, c', by simpa using a1, a2, by simpa using a3⟩
    simp only [World.run]
    by_cases hc : ∀ i, c ≠ .initCrystals i
    · obtain ⟨e1, e2⟩ := other_step dm stod K n m z w (Or.inr ⟨e, hw⟩) ok c hc
      obtain ⟨a1, a2, a3⟩ := ih hp' _ e he (by rw [e1, hw]) e2
      refine ⟨a1, a2, hcons _ _ (fun hi => ?_) a3⟩
      cases c <;> first | exact absurd hi id | exact absurd rfl (hc _)
    · push Not at hc
      obtain ⟨i, rfl⟩ := hc
      obtain ⟨b1, e', b2, b3⟩ := further_init dm stod K e n z.nC he i (hp i List.mem_cons_self)
      have hstep : (w.step dm stod (.initCrystals i)).1.crystals = { K with euler := e' } := by
        simp only [World.step]; rw [hw, b3]
      obtain ⟨a1, a2, a3⟩ := ih hp' _ e' b2 hstep ⟨ok.hookes, ok.vectorials⟩
      refine ⟨a1, a2, hcons _ _ (fun _ => ?_) a3⟩
      simp only [World.step]; rw [hw]; exact b1

/-- A history with one `init` of the crystals that counts: before it only attempts with a missing file of orientations, afterwards
only attempts on triangulations with the same number of crystals. -/
structure OneInit (h1 : List Call) (i : Input) (h2 : List Call) : Prop where
  first : ∀ i', Call.initCrystals i' ∈ h1 → i'.orientations = none
  later : ∀ i', Call.initCrystals i' ∈ h2 → Further (d := d) stod (nCrystals i.ids) i'
  done : ((World.new d).run dm stod (h1 ++ .initCrystals i :: h2)).2[h1.length]? = some Status.done

theorem loaded_sizes (n : ℕ) (D : Data d) (hn : D.orientations.length = n) :
    Sizes (loaded dm n D) n (D.directions.zip D.normals).length where
  flag := rfl
  nC := rfl
  nS := rfl
  rotations := by simp [loaded, hn]
  rotations3 := by simp [loaded, hn]
  systems := by simp [loaded, hn]
  rows := by
    intro r hr
    simp only [loaded, List.mem_map] at hr
    obtain ⟨o, _, rfl⟩ := hr
    simp

/-- The state of all objects in such a history. -/
theorem oneInit_state {dm : Dim d} (hd : IsDim dm) (h1 : List Call) (i : Input) (h2 : List Call)
    (ho : OneInit dm stod h1 i h2) :
    ∃ D : Data d, readData stod i.ids i.orientations i.directions i.normals = .ok D ∧
      D.orientations.length = nCrystals i.ids ∧ D.normals.length = D.directions.length ∧
      (∀ p ∈ D.directions.zip D.normals, orthogonalityCheck p.2 p.1) ∧
      (∃ e, ((World.new d).run dm stod (h1 ++ .initCrystals i :: h2)).1.crystals =
        { loaded dm (nCrystals i.ids) D with euler := e }) ∧
      LawsOk (loaded dm (nCrystals i.ids) D) (nCrystals i.ids) ((World.new d).run dm stod (h1 ++ .initCrystals i :: h2)).1 ∧
      ¬ Completed h2 (((World.new d).run dm stod (h1 ++ [.initCrystals i])).1.run dm stod h2).2 IsInitCrystals := by
  have hsplit : h1 ++ Call.initCrystals i :: h2 = (h1 ++ [.initCrystals i]) ++ h2 := by simp
  have hdone := ho.done
  rw [hsplit, run_append, run_snoc] at hdone
  simp only at hdone
  have hl := run_length dm stod (World.new d) h1
  rw [List.append_assoc, List.getElem?_append_right (by omega), hl, Nat.sub_self] at hdone
  simp only [List.cons_append, List.nil_append, List.getElem?_cons_zero, Option.some.injEq, World.step] at hdone
  -- the crystals before the call
  have hk : ∃ k, ((World.new d).run dm stod h1).1.crystals = { Crystals.new d with nC := k } := by
    have z : Sizes (loaded dm 0 ⟨[], [], []⟩) 0 0 := loaded_sizes dm 0 ⟨[], [], []⟩ rfl
    exact (before dm stod _ 0 0 z h1 ho.first).1
  obtain ⟨k, hk⟩ := hk
  rw [hk] at hdone
  obtain ⟨D, r1, r2, r3, r4, r5⟩ := init_first stod hd k i hdone
  have z := loaded_sizes dm (nCrystals i.ids) D r2
  have ok := (before dm stod _ _ _ z h1 ho.first).2
  refine ⟨D, r1, r2, r3, r4, ?_⟩
  have hw : ((World.new d).run dm stod (h1 ++ [.initCrystals i])).1.crystals =
      { loaded dm (nCrystals i.ids) D with euler := D.orientations } := by
    rw [run_snoc]; simp only [World.step]; rw [hk, r5]; rfl
  have ok' : LawsOk (loaded dm (nCrystals i.ids) D) (nCrystals i.ids)
      ((World.new d).run dm stod (h1 ++ [.initCrystals i])).1 := by
    rw [run_snoc]; exact ⟨ok.hookes, ok.vectorials⟩
  obtain ⟨a1, a2, a3⟩ := after dm stod _ _ _ z h2 ho.later _ D.orientations (by omega) hw ok'
  rw [hsplit, run_append]
  exact ⟨a1, a2, a3⟩

/-- After an `init` of the crystals that completed, the access functions answer what the files say: the rotation of each
crystal, and the normalised slip systems turned with it.  Earlier attempts without a file of orientations and later ones on
triangulations with the same number of crystals, all of which throw, do not matter, nor do calls on other objects. -/
theorem C102_answers_partial {dm : Dim d} (hd : IsDim dm) (h1 : List Call) (i : Input) (h2 : List Call)
    (ho : OneInit dm stod h1 i h2) :
    ∃ D : Data d, readData stod i.ids i.orientations i.directions i.normals = .ok D ∧
      let K := ((World.new d).run dm stod (h1 ++ .initCrystals i :: h2)).1.crystals
      K.ask .nCrystals = .ok (.number (nCrystals i.ids)) ∧
      K.ask .nSlips = .ok (.number D.directions.length) ∧
      (∀ c o, D.orientations[c]? = some o →
        K.ask (.rotation c) = .ok (.tensor (dm.rot o)) ∧ K.ask (.rotation3 c) = .ok (.tensor3 (dm.rot3 o)) ∧
        K.ask (.directions c) = .ok (.vectors (D.directions.map fun a => (Cry.normalize a).map (dm.rot o *ᵥ ·))) ∧
        K.ask (.normals c) = .ok (.vectors (D.normals.map fun a => (Cry.normalize a).map (dm.rot o *ᵥ ·))) ∧
        (∀ L : List (Vec d × Vec d),
          List.Forall₂ (fun p a => Cry.normalize a = some p.1) L D.directions →
          List.Forall₂ (fun p b => Cry.normalize b = some p.2) L D.normals →
          K.ask (.symSchmids c) =
            .ok (.dyads (L.map fun p => some (symmetrize (outer (dm.rot o *ᵥ p.1) (dm.rot o *ᵥ p.2)))))) ∧
        ∀ s a b, D.directions[s]? = some a → D.normals[s]? = some b →
          orthogonalityCheck b a ∧
          K.ask (.direction c s) = .ok (.vector ((Cry.normalize a).map (dm.rot o *ᵥ ·))) ∧
          K.ask (.normal c s) = .ok (.vector ((Cry.normalize b).map (dm.rot o *ᵥ ·))) ∧
          K.ask (.third c s) = .ok (.vector ((dm.third b a).map (dm.rot o *ᵥ ·))) ∧
          ∀ a' b', Cry.normalize a = some a' → Cry.normalize b = some b' →
            K.ask (.schmid c s) = .ok (.dyad (some (outer (dm.rot o *ᵥ a') (dm.rot o *ᵥ b')))) ∧
            K.ask (.symSchmid c s) = .ok (.dyad (some (symmetrize (outer (dm.rot o *ᵥ a') (dm.rot o *ᵥ b')))))) ∧
      ¬ Completed h2 (((World.new d).run dm stod (h1 ++ [.initCrystals i])).1.run dm stod h2).2 IsInitCrystals := by
  obtain ⟨D, r1, r2, r3, r4, ⟨e, r5⟩, _, r7⟩ := oneInit_state stod hd h1 i h2 ho
  refine ⟨D, r1, ?_⟩
  intro K
  have hK : K = { loaded dm (nCrystals i.ids) D with euler := e } := r5
  rw [hK]
  refine ⟨rfl, ?_, fun c o hc => ?_, r7⟩
  · show found Answer.number (some (D.directions.zip D.normals).length) = _
    simp [found, r3]
  have hsys : (loaded dm (nCrystals i.ids) D).systems[c]? =
      some (((D.directions.zip D.normals).map (made dm)).map (·.rotate (dm.rot o))) := by
    simp only [loaded]
    rw [List.getElem?_map, hc]; rfl
  have hflag : (loaded dm (nCrystals i.ids) D).flag = true := rfl
  refine ⟨?_, ?_, ?_, ?_, fun L hL1 hL2 => ?_, fun s a b ha hb => ?_⟩
  · show found Answer.tensor (D.orientations.map dm.rot)[c]? = _
    rw [List.getElem?_map, hc]; rfl
  · show found Answer.tensor3 (D.orientations.map dm.rot3)[c]? = _
    rw [List.getElem?_map, hc]; rfl
  · show found (fun l => Answer.vectors (l.map (·.direction))) (loaded dm (nCrystals i.ids) D).systems[c]? = _
    rw [hsys]
    simp only [found, List.map_map]
    congr 2
    have : (D.directions.zip D.normals).map Prod.fst = D.directions := List.map_fst_zip (by omega)
    conv_rhs => rw [← this]
    rw [List.map_map]
    rfl
  · show found (fun l => Answer.vectors (l.map (·.normal))) (loaded dm (nCrystals i.ids) D).systems[c]? = _
    rw [hsys]
    simp only [found, List.map_map]
    congr 2
    have : (D.directions.zip D.normals).map Prod.snd = D.normals := List.map_snd_zip (by omega)
    conv_rhs => rw [← this]
    rw [List.map_map]
    rfl
  · show found (fun l => Answer.dyads (l.map (·.symSchmid))) (loaded dm (nCrystals i.ids) D).systems[c]? = _
    rw [hsys]
    simp only [found, List.map_map]
    congr 2
    clear hsys hc hK
    generalize D.directions = A at *
    generalize D.normals = B at *
    clear r2 r3 r4
    induction L generalizing A B with
    | nil => cases hL1; cases hL2; rfl
    | cons p L ih =>
      cases hL1 with
      | cons h1 h1' => cases hL2 with
        | cons h2 h2' =>
          simp only [List.zip_cons_cons, List.map_cons]
          rw [ih _ h1' _ h2']
          congr 1
          simp [Slip.symSchmid, Slip.schmid, Slip.rotate, made, h1, h2]
  · have hz : (D.directions.zip D.normals)[s]? = some (a, b) := by
      rw [List.getElem?_zip_eq_some]; exact ⟨ha, hb⟩
    have hslip : ((loaded dm (nCrystals i.ids) D).systems[c]?.bind fun l => l[s]?) =
        some ((made dm (a, b)).rotate (dm.rot o)) := by
      rw [hsys, Option.bind_some, List.getElem?_map, List.getElem?_map, hz]; rfl
    have key : ∀ (q : Ask) (f : Slip d → Answer d),
        (({ loaded dm (nCrystals i.ids) D with euler := e } : Crystals d).ask q =
          found f ((loaded dm (nCrystals i.ids) D).systems[c]?.bind fun l => l[s]?)) →
        ({ loaded dm (nCrystals i.ids) D with euler := e } : Crystals d).ask q =
          .ok (f ((made dm (a, b)).rotate (dm.rot o))) := by
      intro q f hq; rw [hq, hslip]; rfl
    refine ⟨r4 (a, b) (List.mem_of_getElem? hz), key _ (fun x => .vector x.direction) rfl,
      key _ (fun x => .vector x.normal) rfl, key _ (fun x => .vector x.third) rfl, fun a' b' ha' hb' => ⟨?_, ?_⟩⟩
    · rw [key (.schmid c s) (fun x => .dyad x.schmid) rfl]
      simp [Slip.schmid, Slip.rotate, made, ha', hb']
    · rw [key (.symSchmid c s) (fun x => .dyad x.symSchmid) rfl]
      simp [Slip.symSchmid, Slip.schmid, Slip.rotate, made, ha', hb']

/-- The factor is that of the last completed `init`. -/
theorem vectorial_factor (h : List Call) :
    (∀ j v, ((World.new d).run dm stod h).1.vectorials[j]? = some v →
      v.factor = (lastInit j h ((World.new d).run dm stod h).2).map
        (fun f => if f then 1 else v.initialResistance * v.lengthScale ^ v.index) ∧
      (v.flag = true ↔ (lastInit j h ((World.new d).run dm stod h).2).isSome)) ∧
    ∀ j, ((World.new d).run dm stod h).1.vectorials.length ≤ j → lastInit j h ((World.new d).run dm stod h).2 = none := by
  induction h using List.reverseRecOn with
  | nil => exact ⟨fun j v hv => by simp [World.run, World.new] at hv, fun j _ => rfl⟩
  | append_singleton h c ih =>
    have hl := run_length dm stod (World.new d) h
    rw [run_snoc]
    simp only [lastInit_snoc _ hl]
    generalize (World.new d).run dm stod h = x at ih hl
    obtain ⟨w, r⟩ := x
    simp only at ih hl ⊢
    cases c with
    | initCrystals i => exact ih
    | newHooke p q => exact ih
    | newPost k => exact ih
    | initHooke j => simp only [World.step]; split <;> exact ih
    | initPost j => simp only [World.step]; split <;> exact ih
    | newVectorial a b e =>
      refine ⟨fun j v hv => ?_, fun j hj => ih.2 j (by simp [World.step] at hj; omega)⟩
      simp only [World.step] at hv ⊢
      rcases lt_trichotomy j w.vectorials.length with hk | hk | hk
      · rw [List.getElem?_append_left hk] at hv
        exact ih.1 j v hv
      · subst hk
        rw [List.getElem?_append_right le_rfl] at hv
        simp at hv
        subst hv
        rw [ih.2 _ le_rfl]
        simp [Vectorial.new]
      · rw [List.getElem?_eq_none (by simp; omega)] at hv
        cases hv
    | initVectorial j f =>
      cases hj : w.vectorials[j]? with
      | none =>
        simp only [World.step, hj]
        exact ih
      | some v =>
        have hlt : j < w.vectorials.length := (List.getElem?_eq_some_iff.1 hj).1
        simp only [World.step, hj]
        have hcases : ((v.init w.crystals f).2 = .done ∧ (v.init w.crystals f).1.factor =
            some (if f then 1 else v.initialResistance * v.lengthScale ^ v.index) ∧ (v.init w.crystals f).1.flag = true) ∨
            ((v.init w.crystals f).2 ≠ .done ∧ (v.init w.crystals f).1 = v) := by
          unfold Vectorial.init
          by_cases h1 : w.crystals.flag = false
          · rw [if_pos h1]; exact Or.inr ⟨by simp, rfl⟩
          · rw [if_neg h1]
            cases hn : w.crystals.nC with
            | none => exact Or.inr ⟨by simp, rfl⟩
            | some n =>
              cases hm : w.crystals.nS with
              | none => exact Or.inr ⟨by simp, rfl⟩
              | some m =>
                simp only
                cases h3 : block n m w.crystals.systems with
                | none => exact Or.inr ⟨by simp, rfl⟩
                | some a => exact Or.inl ⟨rfl, rfl, rfl⟩
        have hfacts := vectorial_init_facts w.crystals v f
        rcases hcases with ⟨c1, c2, c3⟩ | ⟨c1, c2⟩
        · rw [c1]
          simp only
          refine ⟨fun i u hu => ?_, fun i hi => ?_⟩
          · by_cases e : j = i
            · subst e
              rw [List.getElem?_set_self hlt] at hu
              simp only [Option.some.injEq] at hu
              subst hu
              rw [if_pos rfl, c2, hfacts.1, hfacts.2.1, hfacts.2.2.1]
              exact ⟨rfl, by rw [c3]; simp⟩
            · rw [List.getElem?_set_ne e] at hu
              rw [if_neg e]
              exact ih.1 i u hu
          · rw [List.length_set] at hi
            rw [if_neg (by omega)]
            exact ih.2 i hi
        · have hm : ∀ i, (match ((Call.initVectorial j f, (v.init w.crystals f).2) : Call × Status) with
              | (.initVectorial i' f, .done) => if i' = i then some f else lastInit i h r
              | _ => lastInit i h r) = lastInit i h r := by
            intro i
            cases hs : (v.init w.crystals f).2 with
            | done => exact absurd hs c1
            | threw => rfl
            | undefined => rfl
          simp only [hm]
          rw [c2]
          have hset : w.vectorials.set j v = w.vectorials := by
            rw [List.getElem?_eq_getElem hlt, Option.some.injEq] at hj
            rw [← hj]; exact List.set_getElem_self hlt
          rw [hset]
          exact ih

/-- In such a history every initialised law answers as documented, however often and in whatever order the laws were
initialised: Hooke's law with the stiffness of the reference crystal or of the turned crystal, the vectorial microstress
law with the argument of its last completed `init`. -/
theorem C102_laws_partial {dm : Dim d} (hd : IsDim dm) (h1 : List Call) (i : Input) (h2 : List Call)
    (ho : OneInit dm stod h1 i h2) :
    ∃ D : Data d, readData stod i.ids i.orientations i.directions i.normals = .ok D ∧
      let h := h1 ++ .initCrystals i :: h2
      let w := ((World.new d).run dm stod h).1
      let r := ((World.new d).run dm stod h).2
      (∀ j p, (hookesMade h)[j]? = some (false, p) → Completed h r (· = .initHooke j) →
        ∃ H, w.hookes[j]? = some H ∧ H.ask (.tetrad none) = .ok (.tetrad (p.reference d)) ∧
          H.ask (.tetrad3 none) = .ok (.tetrad3 (p.reference 3)) ∧
          ∀ e, H.ask (.stress none e) = .ok (.stress (apply4 (p.reference d) e))) ∧
      (∀ j p, (hookesMade h)[j]? = some (true, p) → Completed h r (· = .initHooke j) →
        ∃ H, w.hookes[j]? = some H ∧ ∀ c o, D.orientations[c]? = some o →
          H.ask (.tetrad (some c)) = .ok (.tetrad (rotatedStiffness (dm.rot o) (p.reference d))) ∧
          H.ask (.tetrad3 (some c)) = .ok (.tetrad3 (rotatedStiffness (dm.rot3 o) (p.reference 3))) ∧
          ∀ e, H.ask (.stress (some c) e) = .ok (.stress (p.stress (dm.rot o) e))) ∧
      (∀ j a b e f, (vectorialsMade h)[j]? = some (a, b, e) → lastInit j h r = some f →
        ∃ v, w.vectorials[j]? = some v ∧ ∀ c o, D.orientations[c]? = some o →
          ∀ s x y x' y' z', D.directions[s]? = some x → D.normals[s]? = some y →
            Cry.normalize x = some x' → Cry.normalize y = some y' → dm.third y x = some z' → ∀ g,
              v.ask w.crystals c s g = .ok
                ((⟨a, b, e, f⟩ : VecLaw).microstress (rotateSystem (dm.rot o) ⟨x', y', z'⟩) g,
                 (⟨a, b, e, f⟩ : VecLaw).jacobian (rotateSystem (dm.rot o) ⟨x', y', z'⟩) g)) := by
  obtain ⟨D, r1, r2, r3, r4, ⟨e0, r5⟩, ok, _⟩ := oneInit_state stod hd h1 i h2 ho
  refine ⟨D, r1, ?_⟩
  intro h w r
  have t := tracked dm stod h
  have getH : ∀ j poly p, (hookesMade h)[j]? = some (poly, p) → Completed h r (· = .initHooke j) →
      ∃ H, w.hookes[j]? = some H ∧ H.poly = poly ∧ H.prm = p ∧ H.flag = true ∧
        HookeOk (loaded dm (nCrystals i.ids) D) (nCrystals i.ids) H := by
    intro j poly p hj hc
    have hlt : j < w.hookes.length := by rw [t.hookes.len]; exact (List.getElem?_eq_some_iff.1 hj).1
    have hH : w.hookes[j]? = some w.hookes[j] := List.getElem?_eq_getElem hlt
    obtain ⟨a1, a2⟩ := t.hookes.at_ j _ hH
    rw [hj, Option.some.injEq, Prod.mk.injEq] at a1
    exact ⟨_, hH, a1.1.symm, a1.2.symm, a2.2 hc, ok.hookes _ (List.mem_of_getElem? hH)⟩
  refine ⟨fun j p hj hc => ?_, fun j p hj hc => ?_, fun j a b e f hj hl => ?_⟩
  · obtain ⟨H, hH, b1, b2, b3, b4⟩ := getH j false p hj hc
    obtain ⟨e1, e2⟩ := b4.set b3
    rw [b2] at e1 e2
    refine ⟨H, hH, ?_, ?_, fun e => ?_⟩ <;> simp [Hooke.ask, b1, b3, e1, e2]
  · obtain ⟨H, hH, b1, b2, b3, b4⟩ := getH j true p hj hc
    refine ⟨H, hH, fun c o hc => ?_⟩
    have hlt : c < nCrystals i.ids := by rw [← r2]; exact (List.getElem?_eq_some_iff.1 hc).1
    obtain ⟨e1, e2⟩ := b4.vals b3 b1 c hlt
    simp only [loaded, List.getElem?_map, hc, Option.map_some, b2] at e1 e2
    refine ⟨?_, ?_, fun e => ?_⟩ <;> simp [Hooke.ask, b1, b3, e1, e2, found, Elastic.stress]
  · have hlt : j < w.vectorials.length := by rw [t.vectorials.len]; exact (List.getElem?_eq_some_iff.1 hj).1
    have hv : w.vectorials[j]? = some w.vectorials[j] := List.getElem?_eq_getElem hlt
    obtain ⟨a1, _⟩ := t.vectorials.at_ j _ hv
    rw [hj, Option.some.injEq] at a1
    simp only [Prod.mk.injEq] at a1
    obtain ⟨f1, f2⟩ := (vectorial_factor dm stod h).1 j _ hv
    have hl' : lastInit j h ((World.new d).run dm stod h).2 = some f := hl
    rw [hl'] at f1 f2
    have hflag := f2.2 rfl
    have okv := ok.vectorials _ (List.mem_of_getElem? hv)
    refine ⟨_, hv, fun c o hc s x y x' y' z' hx hy hx' hy' hz' g => ?_⟩
    have hltc : c < nCrystals i.ids := by rw [← r2]; exact (List.getElem?_eq_some_iff.1 hc).1
    have hz : (D.directions.zip D.normals)[s]? = some (x, y) := by
      rw [List.getElem?_zip_eq_some]; exact ⟨hx, hy⟩
    have hsys : (loaded dm (nCrystals i.ids) D).systems[c]? =
        some (((D.directions.zip D.normals).map (made dm)).map (·.rotate (dm.rot o))) := by
      simp only [loaded]; rw [List.getElem?_map, hc]; rfl
    have hslip : ((loaded dm (nCrystals i.ids) D).systems[c]?.bind fun l => l[s]?) =
        some ((made dm (x, y)).rotate (dm.rot o)) := by
      rw [hsys, Option.bind_some, List.getElem?_map, List.getElem?_map, hz]; rfl
    have hmade : (made dm (x, y)).rotate (dm.rot o) =
        ⟨some (dm.rot o *ᵥ x'), some (dm.rot o *ᵥ y'), some (dm.rot o *ᵥ z')⟩ := by
      simp [made, Slip.rotate, hx', hy', hz']
    have hdy := okv.vals hflag c hltc
    have hdy' : (w.vectorials[j].dyads[c]?.bind fun l => l[s]?) =
        some (some (symmetrize (outer (dm.rot o *ᵥ x') (dm.rot o *ᵥ x'))),
          some (symmetrize (outer (dm.rot o *ᵥ z') (dm.rot o *ᵥ z')))) := by
      rw [hdy, hsys]
      simp only [Option.map_some, Option.bind_some, List.getElem?_map, hz]
      rw [hmade]; rfl
    have hK : w.crystals.flag = true := by
      show ((World.new d).run dm stod h).1.crystals.flag = true
      rw [r5]; rfl
    have hKs : w.crystals.systems = (loaded dm (nCrystals i.ids) D).systems := by
      show ((World.new d).run dm stod h).1.crystals.systems = _
      rw [r5]
    unfold Vectorial.ask
    rw [if_neg (by rw [hflag]; simp), if_neg (by rw [hK]; simp), f1, hKs, hslip, hdy', hmade]
    simp only [Option.map_some]
    have hbr : w.vectorials[j].bracket ⟨some (dm.rot o *ᵥ x'), some (dm.rot o *ᵥ y'), some (dm.rot o *ᵥ z')⟩
        (some (symmetrize (outer (dm.rot o *ᵥ x') (dm.rot o *ᵥ x'))),
          some (symmetrize (outer (dm.rot o *ᵥ z') (dm.rot o *ᵥ z')))) g =
        (⟨a, b, e, f⟩ : VecLaw).bracket (rotateSystem (dm.rot o) ⟨x', y', z'⟩) g := by
      unfold Vectorial.bracket VecLaw.bracket power
      simp only [Option.map_some, Option.bind_some, rotateSystem, ← a1.2.2]
      cases fpow |(-(dm.rot o *ᵥ x')) ⬝ᵥ g| (e - 2) <;> cases fpow |(dm.rot o *ᵥ z') ⬝ᵥ g| (e - 2) <;> rfl
    rw [hbr]
    unfold VecLaw.microstress VecLaw.jacobian VecLaw.factor
    rw [← a1.1, ← a1.2.1, ← a1.2.2]

/-- A vector turned by `t` radians about the third axis. -/
noncomputable def SpecAboutZ (t : ℝ) (v : Vec 3) : Vec 3 :=
  ![Real.cos t * v 0 - Real.sin t * v 1, Real.sin t * v 0 + Real.cos t * v 1, v 2]

/-- A vector turned by `t` radians about the first axis. -/
noncomputable def SpecAboutX (t : ℝ) (v : Vec 3) : Vec 3 :=
  ![v 0, Real.cos t * v 1 - Real.sin t * v 2, Real.sin t * v 1 + Real.cos t * v 2]

/-- What the rotations and third vectors of `C102_answers_partial` and `C102_laws_partial` are: in 2D the counterclockwise
turn by the angle in degrees (about the third axis for the 3D tensor) and no third vector, in 3D the turns about the third, first and third axis by the
three Euler angles, last angle first, and the unit vector along `normal × direction`. -/
theorem C102_frames :
    (∀ (e v : Vec 2), dim2.rot e *ᵥ v =
      ![Real.cos (e 0 * (Real.pi / 180)) * v 0 - Real.sin (e 0 * (Real.pi / 180)) * v 1,
        Real.sin (e 0 * (Real.pi / 180)) * v 0 + Real.cos (e 0 * (Real.pi / 180)) * v 1]) ∧
    (∀ (e : Vec 2) (v : Vec 3), dim2.rot3 e *ᵥ v = SpecAboutZ (e 0 * (Real.pi / 180)) v) ∧
    (∀ n s : Vec 2, dim2.third n s = some 0) ∧
    (∀ (e v : Vec 3), dim3.rot e *ᵥ v = SpecAboutZ (e 0 * (Real.pi / 180))
      (SpecAboutX (e 1 * (Real.pi / 180)) (SpecAboutZ (e 2 * (Real.pi / 180)) v))) ∧
    (∀ e : Vec 3, dim3.rot3 e = dim3.rot e) ∧
    (∀ n s z : Vec 3, dim3.third n s = some z → ∑ i, z i * z i = 1 ∧ ∃ c : ℝ, 0 < c ∧
      z = c • ![n 1 * s 2 - n 2 * s 1, n 2 * s 0 - n 0 * s 2, n 0 * s 1 - n 1 * s 0]) := by
  have hZ : ∀ (t : ℝ) (v : Vec 3), rotZ t *ᵥ v = SpecAboutZ t v := by
    intro t v
    funext i
    fin_cases i <;> simp [rotZ, SpecAboutZ, Matrix.mulVec, dotProduct, Fin.sum_univ_three] <;> ring
  have hX : ∀ (t : ℝ) (v : Vec 3), rotX t *ᵥ v = SpecAboutX t v := by
    intro t v
    funext i
    fin_cases i <;> simp [rotX, SpecAboutX, Matrix.mulVec, dotProduct, Fin.sum_univ_three] <;> ring
  refine ⟨fun e v => ?_, fun e v => ?_, fun _ _ => rfl, fun e v => ?_, fun _ => rfl, fun n s z h => ?_⟩
  · funext i
    fin_cases i <;> simp [dim2, rotation2, degToRad, Matrix.mulVec, dotProduct, Fin.sum_univ_two] <;> ring
  · have h0 : rotY 0 * rotX 0 = 1 := by
      ext i j
      fin_cases i <;> fin_cases j <;> simp [rotY, rotX, Matrix.mul_apply, Fin.sum_univ_three]
    show rotation2in3 (e 0) *ᵥ v = _
    unfold rotation2in3
    rw [h0, mul_one, hZ]
    rfl
  · show rotation3 e *ᵥ v = _
    unfold rotation3
    rw [← Matrix.mulVec_mulVec, ← Matrix.mulVec_mulVec, hZ, hX, hZ]
    rfl
  · have hu := normalize_unit h
    refine ⟨hu, (norm2 (cross n s))⁻¹, ?_, ?_⟩
    · have h' : Cry.normalize (cross n s) = some z := h
      unfold Cry.normalize at h'
      by_cases h0 : norm2 (cross n s) = 0
      · rw [if_pos h0] at h'
        cases h'
      · exact inv_pos.mpr (lt_of_le_of_ne (Real.sqrt_nonneg _) (Ne.symm h0))
    · have h' : Cry.normalize (cross n s) = some z := h
      unfold Cry.normalize at h'
      by_cases h0 : norm2 (cross n s) = 0
      · rw [if_pos h0] at h'
        cases h'
      · rw [if_neg h0] at h'
        rw [← Option.some.inj h']
        funext i
        simp only [Pi.smul_apply, smul_eq_mul]
        rw [div_eq_inv_mul]
        rfl

/-- The statement about third vectors is not empty. -/
example : ∃ z, dim3.third ![0, 0, 1] ![1, 0, 0] = some z :=
  ⟨_, normalize_ne (v := cross ![0, 0, 1] ![1, 0, 0])
    (by intro h; have := congrFun h 1; simp [cross] at this)⟩

/-- In such a history every `init` of an existing law completes. -/
theorem C102_ready {dm : Dim d} (hd : IsDim dm) (h1 : List Call) (i : Input) (h2 : List Call) (ho : OneInit dm stod h1 i h2)
    (j : ℕ) :
    (j < (hookesMade (h1 ++ .initCrystals i :: h2)).length →
      (((World.new d).run dm stod (h1 ++ .initCrystals i :: h2)).1.step dm stod (.initHooke j)).2 = .done) ∧
    (j < (vectorialsMade (h1 ++ .initCrystals i :: h2)).length → ∀ f,
      (((World.new d).run dm stod (h1 ++ .initCrystals i :: h2)).1.step dm stod (.initVectorial j f)).2 = .done) := by
  obtain ⟨D, r1, r2, r3, r4, ⟨e, r5⟩, _, _⟩ := oneInit_state stod hd h1 i h2 ho
  have t := tracked dm stod (h1 ++ .initCrystals i :: h2)
  have z := loaded_sizes dm (nCrystals i.ids) D r2
  generalize (World.new d).run dm stod (h1 ++ .initCrystals i :: h2) = x at t r5
  obtain ⟨w, r⟩ := x
  simp only at t r5 ⊢
  refine ⟨fun hj => ?_, fun hj f => ?_⟩
  · rw [← t.hookes.len] at hj
    simp only [World.step, List.getElem?_eq_getElem hj]
    rw [r5]
    unfold Hooke.init
    extract_lets g
    by_cases hp : w.hookes[j].poly = false
    · rw [if_pos hp]
    · rw [if_neg hp]
      have f1 : firsts (nCrystals i.ids) (loaded dm (nCrystals i.ids) D).rotations =
          some (loaded dm (nCrystals i.ids) D).rotations := by
        unfold firsts; rw [z.rotations, if_pos le_rfl, List.take_of_length_le (by rw [z.rotations])]
      have f3 : firsts (nCrystals i.ids) (loaded dm (nCrystals i.ids) D).rotations3 =
          some (loaded dm (nCrystals i.ids) D).rotations3 := by
        unfold firsts; rw [z.rotations3, if_pos le_rfl, List.take_of_length_le (by rw [z.rotations3])]
      rw [if_neg (by rw [z.flag]; simp), z.nC]
      simp only
      rw [f1, f3]
  · rw [← t.vectorials.len] at hj
    simp only [World.step, List.getElem?_eq_getElem hj]
    rw [r5]
    unfold Vectorial.init
    have hb : block (nCrystals i.ids) (D.directions.zip D.normals).length (loaded dm (nCrystals i.ids) D).systems =
        some (loaded dm (nCrystals i.ids) D).systems := by
      unfold block firsts
      rw [z.systems, if_pos le_rfl, List.take_of_length_le (by rw [z.systems]), Option.bind_some]
      refine mapM_some _ _ fun q hq => ?_
      rw [z.rows q hq, if_pos le_rfl, List.take_of_length_le (by rw [z.rows q hq])]
    rw [if_neg (by rw [z.flag]; simp), z.nC, z.nS]
    simp only
    rw [hb]

/-! ## Violations -/

theorem readInto_of_ok (euler : Bool) (ls : List (List Char)) (vs : List (Vec d)) (h : readLines stod euler ls = .ok vs) :
    readInto stod euler ls = (vs, .done) := by
  induction ls generalizing vs with
  | nil => simp only [readLines, Outcome.ok.injEq] at h; subst h; rfl
  | cons l ls ih =>
    simp only [readInto, readLines] at h ⊢
    by_cases hb : blank l
    · rw [if_pos hb, Outcome.ok.injEq] at h
      rw [if_pos hb, ← h]
    · rw [if_neg hb] at h
      rw [if_neg hb]
      cases hr : readLine (dim := d) stod euler l with
      | throws => rw [hr] at h; cases h
      | undefined => rw [hr] at h; cases h
      | ok v =>
        rw [hr] at h
        simp only [Outcome.bind] at h
        cases hq : readLines (dim := d) stod euler ls with
        | throws => rw [hq] at h; cases h
        | undefined => rw [hq] at h; cases h
        | ok us =>
          rw [hq, Outcome.ok.injEq] at h
          simp only [ih us hq, ← h]

theorem openInto_of_ok (euler : Bool) (f : Option (List Char)) (vs : List (Vec d)) (h : openFile stod euler f = .ok vs) :
    openInto stod euler f = (vs, .done) := by
  cases f with
  | none => cases h
  | some f => exact readInto_of_ok stod euler _ vs h

/-- Whatever happens, the angles that were read are appended. -/
theorem init_euler (c : Crystals d) (i : Input) :
    (c.init dm stod i).1.euler = c.euler ++ (openInto (d := d) stod true i.orientations).1 := by
  unfold Crystals.init
  extract_lets n o c1 s c2 m c3 l c4 rots
  split_ifs <;> rfl

theorem step_euler (w : World d) (c : Call) : ∃ x, (w.step dm stod c).1.crystals.euler = w.crystals.euler ++ x := by
  cases c with
  | initCrystals i => exact ⟨_, init_euler dm stod _ i⟩
  | newHooke p q => exact ⟨[], by simp [World.step]⟩
  | newVectorial a b e => exact ⟨[], by simp [World.step]⟩
  | newPost k => exact ⟨[], by simp [World.step]⟩
  | initHooke j => simp only [World.step]; split <;> exact ⟨[], by simp⟩
  | initVectorial j f => simp only [World.step]; split <;> exact ⟨[], by simp⟩
  | initPost j => simp only [World.step]; split <;> exact ⟨[], by simp⟩

theorem run_euler (w : World d) (h : List Call) (hn : w.crystals.euler ≠ [] ∨
    ∃ i, Call.initCrystals i ∈ h ∧ (openInto (d := d) stod true i.orientations).1 ≠ []) :
    (w.run dm stod h).1.crystals.euler ≠ [] := by
  induction h generalizing w with
  | nil =>
    rcases hn with hn | ⟨i, hi, _⟩
    · exact hn
    · cases hi
  | cons c cs ih =>
    simp only [World.run]
    apply ih
    rcases hn with hn | ⟨i, hi, hx⟩
    · left
      obtain ⟨x, hx⟩ := step_euler dm stod w c
      rw [hx]; simp [hn]
    · rcases List.mem_cons.1 hi with rfl | hi
      · left
        simp only [World.step]
        rw [init_euler]; simp [hx]
      · exact Or.inr ⟨i, hi, hx⟩

/-- C102 is violated by retrying: once an `init` of the crystals has read one orientation, whether it then failed (a
missing slip file, say) or not, every later `init` with correct input throws, so the object can never be initialised. -/
theorem C102_violated_retry (h : List Call) (i : Input) (hi : .initCrystals i ∈ h) (o : Vec d) (os : List (Vec d))
    (hr : openFile stod true i.orientations = .ok (o :: os)) (i' : Input) (os' : List (Vec d))
    (hr' : openFile stod true i'.orientations = .ok os') (hn : os'.length = nCrystals i'.ids) :
    (((World.new d).run dm stod h).1.step dm stod (.initCrystals i')).2 = .threw := by
  have hne := run_euler dm stod (World.new d) h (Or.inr ⟨i, hi, by rw [openInto_of_ok stod true _ _ hr]; simp⟩)
  simp only [World.step]
  unfold Crystals.init
  extract_lets n o1 c1 s c2 m c3 l c4 rots
  have ho : o1 = (os', .done) := openInto_of_ok stod true _ _ hr'
  have hlen : 0 < ((World.new d).run dm stod h).1.crystals.euler.length := List.length_pos_iff.2 hne
  rw [if_neg (by rw [ho]; simp), if_pos ?_]
  have : c1.euler.length = ((World.new d).run dm stod h).1.crystals.euler.length + os'.length := by
    simp only [c1, ho, List.length_append]
  rw [this]
  omega

/-- C102 is violated by a failed `init` of initialised crystals on a larger triangulation: it throws, but the
object reports the new number of crystals and has no data for them. -/
theorem C102_violated_grown {dm : Dim d} (hd : IsDim dm) (h1 : List Call) (i : Input) (h2 : List Call)
    (ho : OneInit dm stod h1 i h2) (ids : List ℕ) (hm : nCrystals i.ids < nCrystals ids) :
    let w := ((World.new d).run dm stod (h1 ++ .initCrystals i :: h2)).1.step dm stod (.initCrystals ⟨ids, none, none, none⟩)
    w.2 = .threw ∧ w.1.crystals.ask .nCrystals = .ok (.number (nCrystals ids)) ∧
      ∃ c < nCrystals ids, w.1.crystals.ask (.rotation c) = .undefined := by
  obtain ⟨D, r1, r2, r3, r4, ⟨e, r5⟩, _, _⟩ := oneInit_state stod hd h1 i h2 ho
  intro w
  have hw : w = ({ ((World.new d).run dm stod (h1 ++ .initCrystals i :: h2)).1 with
      crystals := { loaded dm (nCrystals i.ids) D with euler := e ++ [], nC := some (nCrystals ids) } }, .threw) := by
    simp only [w, World.step]
    rw [r5]
    unfold Crystals.init
    simp [openInto]
  rw [hw]
  refine ⟨rfl, rfl, nCrystals i.ids, hm, ?_⟩
  show found Answer.tensor (D.orientations.map dm.rot)[nCrystals i.ids]? = _
  rw [List.getElem?_eq_none (by simp [r2])]
  rfl

/-! ## Cases -/

theorem init_eq (c : Crystals d) (i : Input) (o s m : List (Vec d)) (ho : openFile stod true i.orientations = .ok o)
    (hs : openFile stod false i.directions = .ok s) (hm : openFile stod false i.normals = .ok m)
    (hn : (c.euler ++ o).length = nCrystals i.ids)
    (hl : (c.normals ++ m.map some).length = (c.directions ++ s.map some).length)
    (l : List (Slip d)) (hx : systemsLoop dm ((c.directions ++ s.map some).zip (c.normals ++ m.map some)) = (l, true)) :
    c.init dm stod i =
      (⟨some (nCrystals i.ids), some l.length, c.euler ++ o, l.map (·.direction), l.map (·.normal),
        c.rotations ++ ((c.euler ++ o).take (nCrystals i.ids)).map dm.rot,
        dm.store3 (c.rotations ++ ((c.euler ++ o).take (nCrystals i.ids)).map dm.rot) c.rotations3
          (((c.euler ++ o).take (nCrystals i.ids)).map dm.rot3),
        c.systems ++ ((c.rotations ++ ((c.euler ++ o).take (nCrystals i.ids)).map dm.rot).take (nCrystals i.ids)).map
          fun r => l.map (·.rotate r), true⟩, .done) := by
  have e1 := openInto_of_ok stod true _ _ ho
  have e2 := openInto_of_ok stod false _ _ hs
  have e3 := openInto_of_ok stod false _ _ hm
  unfold Crystals.init
  rw [e1, e2, e3]
  extract_lets n o' c1 s' c2 m' c3 l' c4 rots
  have hl' : l' = (l, true) := hx
  rw [if_neg (by simp [o']), if_neg (by simp only [not_not]; exact hn), if_neg (by simp [s']), if_neg (by simp [m']),
    if_neg (by simp only [not_not]; exact hl), if_neg (by rw [hl']; simp)]
  simp only [rots, c4, c3, c2, c1, hl', n, o']

theorem exNormal : Cry.normalize (![1, 0] : Vec 2) = some ![1, 0] ∧ Cry.normalize (![0, 1] : Vec 2) = some ![0, 1] := by
  have h1 : norm2 (![1, 0] : Vec 2) = 1 := by simp [norm2]
  have h2 : norm2 (![0, 1] : Vec 2) = 1 := by simp [norm2]
  constructor
  · unfold Cry.normalize
    rw [if_neg (by rw [h1]; norm_num), h1]
    congr 1; funext j; simp
  · unfold Cry.normalize
    rw [if_neg (by rw [h2]; norm_num), h2]
    congr 1; funext j; simp

theorem exLoop (k : ℕ) : systemsLoop dim2 (List.replicate k (some ![1, 0], some ![0, 1])) =
    (List.replicate k ⟨some ![1, 0], some ![0, 1], some 0⟩, true) := by
  induction k with
  | zero => rfl
  | succ k ih =>
    rw [List.replicate_succ, systemsLoop, if_pos, ih]
    · simp only [Option.bind_some, exNormal.1, exNormal.2, List.replicate_succ]
      rfl
    · show |_| ≤ _
      simp [dblEpsilon]

/-- Two crystals and one slip system in the plane. -/
noncomputable def exInput : Input :=
  ⟨[0, 1, 0], some (printRows (dim := 2) exFmt 1 [![1, 0], ![0, 0]]), some (printRows (dim := 2) exFmt 2 [![1, 0]]),
    some (printRows (dim := 2) exFmt 2 [![0, 1]])⟩

theorem exFiles : openFile (dim := 2) exStod true exInput.orientations = .ok [![1, 0], ![0, 0]] ∧
    openFile (dim := 2) exStod false exInput.directions = .ok [![1, 0]] ∧
    openFile (dim := 2) exStod false exInput.normals = .ok [![0, 1]] := by
  refine ⟨?_, ?_, ?_⟩
  · refine C81_round_trip (by norm_num) _ exFmt exStod exFormat true [![1, 0], ![0, 0]] ?_ ?_
    · intro v hv j
      simp only [List.mem_cons, List.not_mem_nil, or_false] at hv
      rcases hv with rfl | rfl <;> fin_cases j <;> simp
    · intro v hv j hj
      simp only [List.mem_cons, List.not_mem_nil, or_false] at hv
      rcases hv with rfl | rfl <;> fin_cases j <;> first | rfl | simp [columns] at hj
  · refine C81_round_trip (by norm_num) _ exFmt exStod exFormat false [![1, 0]] ?_
      fun v _ j hj => absurd j.isLt (by simp [columns] at hj; omega)
    intro v hv j
    rw [List.mem_singleton.1 hv]; fin_cases j <;> simp
  · refine C81_round_trip (by norm_num) _ exFmt exStod exFormat false [![0, 1]] ?_
      fun v _ j hj => absurd j.isLt (by simp [columns] at hj; omega)
    intro v hv j
    rw [List.mem_singleton.1 hv]; fin_cases j <;> simp

theorem exIds : nCrystals exInput.ids = 2 := by decide

theorem exFirst (k : Option ℕ) : (({ Crystals.new 2 with nC := k } : Crystals 2).init dim2 exStod exInput).2 = .done := by
  rw [init_eq dim2 exStod ({ Crystals.new 2 with nC := k } : Crystals 2) exInput _ _ _ exFiles.1 exFiles.2.1 exFiles.2.2
    (by rw [exIds]; rfl) rfl _ (exLoop 1)]

/-- A history that meets the hypotheses: laws before the crystals, an attempt without files, the `init`, laws initialised
twice, a repeated `init`. -/
noncomputable def exBefore : List Call :=
  [.newHooke true ⟨3, 1, 1, 1⟩, .initHooke 0, .initCrystals ⟨[0], none, none, none⟩, .newVectorial 1 2 2]

/-- See `exBefore`. -/
noncomputable def exAfter : List Call :=
  [.initHooke 0, .initVectorial 0 false, .initCrystals exInput, .initHooke 0, .initVectorial 0 true, .newPost (.fields false)]

theorem exOneInit : OneInit dim2 exStod exBefore exInput exAfter where
  first := by
    intro i hi
    simp only [exBefore, List.mem_cons, List.not_mem_nil, or_false, reduceCtorEq, Call.initCrystals.injEq, false_or] at hi
    rw [hi]
  later := by
    intro i hi
    simp only [exAfter, List.mem_cons, List.not_mem_nil, or_false, reduceCtorEq, Call.initCrystals.injEq, false_or] at hi
    rw [hi]
    exact ⟨rfl, by rw [exFiles.1]; simp⟩
  done := by
    obtain ⟨⟨k, hk⟩, _⟩ := before dim2 exStod (loaded dim2 0 ⟨[], [], []⟩) 0 0 (loaded_sizes dim2 0 ⟨[], [], []⟩ rfl) exBefore
      (by
        intro i hi
        simp only [exBefore, List.mem_cons, List.not_mem_nil, or_false, reduceCtorEq, Call.initCrystals.injEq,
          false_or] at hi
        rw [hi])
    rw [run_append]
    simp only [World.run]
    rw [List.getElem?_append_right (by rw [run_length])]
    rw [run_length, Nat.sub_self]
    simp only [List.getElem?_cons_zero, World.step, Option.some.injEq]
    rw [hk]
    exact exFirst k

/-- The first crystal is turned by one degree and so are its slip systems. -/
example : ∃ K : Crystals 2, K = ((World.new 2).run dim2 exStod (exBefore ++ .initCrystals exInput :: exAfter)).1.crystals ∧
    K.ask .nCrystals = .ok (.number 2) ∧
    K.ask (.direction 0 0) = .ok (.vector (some (rotation2 1 *ᵥ ![1, 0]))) := by
  obtain ⟨D, h1, h2, _, h3, _⟩ := C102_answers_partial exStod IsDim.two exBefore exInput exAfter exOneInit
  have hD : D = ⟨[![1, 0], ![0, 0]], [![1, 0]], [![0, 1]]⟩ := by
    have : readData (dim := 2) exStod exInput.ids exInput.orientations exInput.directions exInput.normals =
        .ok ⟨[![1, 0], ![0, 0]], [![1, 0]], [![0, 1]]⟩ := by
      unfold readData
      rw [exFiles.1, exFiles.2.1, exFiles.2.2]
      simp [Outcome.bind, exIds]
    rw [this, Outcome.ok.injEq] at h1
    exact h1.symm
  subst hD
  refine ⟨_, rfl, by rw [h2, exIds], ?_⟩
  obtain ⟨_, _, _, _, _, h4⟩ := h3 0 ![1, 0] rfl
  obtain ⟨_, h5, _⟩ := h4 0 ![1, 0] ![0, 1] rfl rfl
  rw [h5, exNormal.1]
  rfl

/-- The law completes its `init` in this history, and the stress of the first crystal is that of the turned crystal. -/
example : ∃ H : Hooke 2, ((World.new 2).run dim2 exStod (exBefore ++ .initCrystals exInput :: [.initHooke 0])).1.hookes[0]? = some H ∧
    ∀ e, H.ask (.stress (some 0) e) = .ok (.stress ((⟨3, 1, 1, 1⟩ : Elastic).stress (rotation2 1) e)) := by
  have o0 : OneInit dim2 exStod exBefore exInput [] :=
    ⟨exOneInit.first, by simp, by
      have := exOneInit.done
      rw [run_append] at this ⊢
      simp only [World.run] at this ⊢
      rw [List.getElem?_append_right (by rw [run_length]), run_length, Nat.sub_self] at this ⊢
      simpa using this⟩
  have hdone := (C102_ready exStod IsDim.two exBefore exInput [] o0 0).1 (by decide)
  have hs : exBefore ++ Call.initCrystals exInput :: [.initHooke 0] = (exBefore ++ Call.initCrystals exInput :: []) ++ [.initHooke 0] := by
    simp
  have o1 : OneInit dim2 exStod exBefore exInput [.initHooke 0] :=
    ⟨exOneInit.first, by simp, by
      have := o0.done
      rw [hs, run_snoc]
      simp only
      rw [List.getElem?_append_left (by rw [run_length]; simp)]
      exact this⟩
  obtain ⟨D, h1, _, h3, _⟩ := C102_laws_partial exStod IsDim.two exBefore exInput [.initHooke 0] o1
  obtain ⟨H, hH, hv⟩ := h3 0 ⟨3, 1, 1, 1⟩ rfl (by
    rw [hs, run_snoc, completed_snoc (run_length _ _ _ _)]
    exact Or.inr ⟨rfl, hdone⟩)
  have hD : D = ⟨[![1, 0], ![0, 0]], [![1, 0]], [![0, 1]]⟩ := by
    have : readData (dim := 2) exStod exInput.ids exInput.orientations exInput.directions exInput.normals =
        .ok ⟨[![1, 0], ![0, 0]], [![1, 0]], [![0, 1]]⟩ := by
      unfold readData
      rw [exFiles.1, exFiles.2.1, exFiles.2.2]
      simp [Outcome.bind, exIds]
    rw [this, Outcome.ok.injEq] at h1
    exact h1.symm
  subst hD
  exact ⟨H, hH, fun e => ((hv 0 ![1, 0] rfl).2.2 e)⟩

/-- C102 is violated by a second `init` whose file of orientations is empty: it completes, the number of slip systems
doubles, and the slip systems that are reported in addition do not exist. -/
theorem C102_violated_doubled : ∃ i i' : Input, i.ids = i'.ids ∧
    let w := ((World.new 2).run dim2 exStod [.initCrystals i, .initCrystals i'])
    w.2 = [.done, .done] ∧ w.1.crystals.ask .nSlips = .ok (.number 2) ∧
      w.1.crystals.ask (.direction 0 1) = .undefined := by
  refine ⟨exInput, { exInput with orientations := some [] }, rfl, ?_⟩
  have e1 := init_eq dim2 exStod (Crystals.new 2) exInput _ _ _ exFiles.1 exFiles.2.1 exFiles.2.2
    (by rw [exIds]; rfl) rfl _ (exLoop 1)
  have hempty : openFile (dim := 2) exStod true (some []) = .ok [] := rfl
  have e2 := init_eq dim2 exStod ((Crystals.new 2).init dim2 exStod exInput).1 { exInput with orientations := some [] }
    [] _ _ hempty exFiles.2.1 exFiles.2.2 (by rw [e1]; show _ = nCrystals exInput.ids; rw [exIds]; rfl) (by rw [e1]; rfl) _
    (by rw [e1]; exact exLoop 2)
  intro w
  have hw : w = (({ World.new 2 with crystals := (((Crystals.new 2).init dim2 exStod exInput).1.init dim2 exStod
      { exInput with orientations := some [] }).1 } : World 2), [.done, .done]) := by
    simp only [w, World.run, World.step]
    have a1 : ((World.new 2).crystals.init dim2 exStod exInput).2 = .done := by
      show ((Crystals.new 2).init dim2 exStod exInput).2 = .done
      rw [e1]
    have a2 : (((World.new 2).crystals.init dim2 exStod exInput).1.init dim2 exStod
        { exInput with orientations := some [] }).2 = .done := by
      show (((Crystals.new 2).init dim2 exStod exInput).1.init dim2 exStod { exInput with orientations := some [] }).2 = _
      rw [e2]
    rw [a1, a2]
    rfl
  rw [hw]
  refine ⟨rfl, ?_, ?_⟩
  · show (Crystals.ask _ _) = _
    rw [e2]; rfl
  · show (Crystals.ask _ _) = _
    rw [e2, e1]; rfl

end Verif.Life
