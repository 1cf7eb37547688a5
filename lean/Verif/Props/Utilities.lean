import Verif.Model.Utilities
import Mathlib.Data.List.Dedup
import Mathlib.Data.List.Induction
import Mathlib.Tactic.NormNum
import Mathlib.Tactic.Linarith

/-!
# Properties of the file comparison and the log: C59, C60
-/

namespace Verif.Util

/-! ## C60 -/

theorem equal3_length : ∀ a b : List UInt8, a.length = b.length →
    equal3 a b = some (decide (a = b))
  | [], [], _ => by simp [equal3]
  | _ :: _, [], h => by simp at h
  | [], _ :: _, h => by simp at h
  | x :: xs, y :: ys, h => by
    by_cases e : x = y
    · subst e
      simp [equal3, equal3_length xs ys (by simpa using h)]
    · simp [equal3, e]

/-- C60: the comparison never reads beyond a file, and its result is true exactly if both
files can be opened and have the same bytes. -/
theorem C60_identical (fs : String → Option (List UInt8)) (a b : String) :
    ∃ r, filesAreIdentical fs a b = some r ∧
      (r = true ↔ ∃ bytes, fs a = some bytes ∧ fs b = some bytes) := by
  unfold filesAreIdentical
  cases ha : fs a with
  | none => exact ⟨false, rfl, by simp⟩
  | some x =>
    cases hb : fs b with
    | none => exact ⟨false, rfl, by simp⟩
    | some y =>
      by_cases hl : x.length = y.length
      · refine ⟨decide (x = y), by simp [hl, equal3_length x y hl], ?_⟩
        simp [eq_comm]
      · refine ⟨false, by simp [hl], ?_⟩
        simp only [Bool.false_eq_true, false_iff, Option.some.injEq, not_exists, not_and]
        rintro _ rfl rfl
        exact hl rfl

/-- Non-vacuity: equal files, files of equal length differing in the last byte, a missing
file and a prefix. -/
example :
    let fs : String → Option (List UInt8) := fun s =>
      if s = "a" then some [1, 2] else if s = "b" then some [1, 2]
      else if s = "c" then some [1, 3] else if s = "d" then some [1] else none
    filesAreIdentical fs "a" "b" = some true ∧ filesAreIdentical fs "a" "c" = some false ∧
      filesAreIdentical fs "a" "d" = some false ∧ filesAreIdentical fs "d" "a" = some false ∧
      filesAreIdentical fs "e" "e" = some false := by
  simp [filesAreIdentical, equal3]

/-! ## C59: specification -/

/-- The columns declared in a history, in the order of the calls, with repetitions. -/
def Declared (h : List Call) : List String :=
  h.filterMap fun | .declare c _ => some c | .update _ _ => none

/-- The columns of a history in the order of their first declarations. -/
def SpecColumns (h : List Call) : List String := (Declared h).reverse.dedup.reverse

/-- The formats a column was declared with. -/
def Formats (h : List Call) (c : String) : List Format :=
  h.filterMap fun | .declare d f => if d = c then some f else none | .update _ _ => none

/-- The values written to a column. -/
def Values (h : List Call) (c : String) : List ℝ :=
  h.filterMap fun | .update d v => if d = c then some v else none | .declare _ _ => none

/-- The value last written, zero if none was. -/
noncomputable def SpecValue (h : List Call) (c : String) : ℝ := (Values h c).getLast?.getD 0

/-- How a value is printed: whole numbers as such. -/
inductive Prints : Format → ℝ → Field → Prop
  | integer (n : ℕ) (hn : n < 2 ^ 32) : Prints .integer n (.integer n)
  | decimal (v : ℝ) : Prints .decimal v (.decimal v)
  | scientific (v : ℝ) : Prints .scientific v (.scientific v)

/-- Every value is written to a column declared before. -/
def Orderly (h : List Call) : Prop :=
  ∀ p c v s, h = p ++ Call.update c v :: s → c ∈ Declared p

/-- Whole-number columns hold whole numbers of 32 bits. -/
def Whole (h : List Call) : Prop :=
  ∀ c, (Formats h c).head? = some .integer → ∃ n : ℕ, n < 2 ^ 32 ∧ SpecValue h c = n

/-! ## Helpers -/

theorem after_append (h : List Call) (a : Call) : after (h ++ [a]) = (after h).step a := by
  simp [after]

/-- Every key of a reachable logger has an entry, so printing creates none. -/
theorem keys_have_data (h : List Call) : ∀ k ∈ (after h).keys, ((after h).data k).isSome := by
  induction h using List.reverseRecOn with
  | nil => intro k hk; simp [after, Logger.new] at hk
  | append_singleton h a ih =>
    rw [after_append]
    intro k hk
    cases a with
    | declare d f =>
      simp only [Logger.step, Logger.declare] at hk ⊢
      by_cases hd : ((after h).data d).isSome
      · rw [if_pos hd] at hk ⊢; exact ih k (by simpa using hk)
      · rw [if_neg hd] at hk ⊢
        simp only [Option.getD_some, List.mem_append, List.mem_singleton] at hk ⊢
        by_cases e : k = d
        · simp [e]
        · simpa [e] using ih k (by tauto)
    | update d v =>
      simp only [Logger.step, Logger.update, Logger.put] at hk ⊢
      by_cases e : k = d
      · simp [e]
      · simpa [e] using ih k hk

theorem declared_append (h : List Call) (a : Call) :
    Declared (h ++ [a]) = Declared h ++ Declared [a] := by simp [Declared]

theorem orderly_prefix {h : List Call} {a : Call} (ho : Orderly (h ++ [a])) : Orderly h := by
  intro p c v s e
  exact ho p c v (s ++ [a]) (by simp [e])

theorem specColumns_append (h : List Call) (c : String) (f : Format) :
    SpecColumns (h ++ [.declare c f]) =
      if c ∈ Declared h then SpecColumns h else SpecColumns h ++ [c] := by
  have : Declared (h ++ [.declare c f]) = Declared h ++ [c] := by simp [Declared]
  unfold SpecColumns
  rw [this, List.reverse_append, List.reverse_singleton, List.singleton_append]
  by_cases hc : c ∈ Declared h
  · rw [if_pos hc, List.dedup_cons_of_mem (by simpa using hc)]
  · rw [if_neg hc, List.dedup_cons_of_notMem (by simpa using hc), List.reverse_cons]

theorem specColumns_update (h : List Call) (c : String) (v : ℝ) :
    SpecColumns (h ++ [.update c v]) = SpecColumns h := by
  simp [SpecColumns, Declared]

theorem mem_declared_iff (h : List Call) (c : String) :
    c ∈ Declared h ↔ ∃ f, Call.declare c f ∈ h := by
  unfold Declared
  rw [List.mem_filterMap]
  constructor
  · rintro ⟨a, ha, e⟩
    cases a with
    | declare d f => simp at e; subst e; exact ⟨f, ha⟩
    | update d v => simp at e
  · rintro ⟨f, hf⟩; exact ⟨_, hf, rfl⟩

theorem formats_ne_nil (h : List Call) (c : String) : c ∈ Declared h ↔ Formats h c ≠ [] := by
  rw [mem_declared_iff]
  unfold Formats
  constructor
  · rintro ⟨f, hf⟩ e
    rw [List.filterMap_eq_nil_iff] at e
    simpa using e _ hf
  · intro e
    obtain ⟨f, hf⟩ := List.exists_mem_of_ne_nil _ e
    rw [List.mem_filterMap] at hf
    obtain ⟨a, ha, e⟩ := hf
    cases a with
    | declare d g =>
      simp only at e
      by_cases hd : d = c
      · subst hd; exact ⟨g, ha⟩
      · simp [hd] at e
    | update d v => simp at e

/-- What an orderly history leaves in the logger. -/
theorem after_spec (h : List Call) (ho : Orderly h) :
    (after h).keys = SpecColumns h ∧
    (∀ c, c ∉ Declared h → (after h).data c = none) ∧
    ∀ c f, (Formats h c).head? = some f → (after h).data c = some (SpecValue h c, f) := by
  induction h using List.reverseRecOn with
  | nil => exact ⟨rfl, fun _ _ => rfl, fun c f e => by simp [Formats] at e⟩
  | append_singleton h a ih =>
    obtain ⟨hk, hn, hs⟩ := ih (orderly_prefix ho)
    rw [after_append]
    cases a with
    | declare d g =>
      rw [specColumns_append]
      have hval : ∀ c, SpecValue (h ++ [.declare d g]) c = SpecValue h c := by
        intro c; simp [SpecValue, Values]
      by_cases hd : d ∈ Declared h
      · rw [if_pos hd]
        obtain ⟨f0, hf0⟩ : ∃ f, (Formats h d).head? = some f :=
          Option.isSome_iff_exists.mp (by
            rw [List.isSome_head?]; simpa using (formats_ne_nil h d).mp hd)
        have hstep : (after h).step (.declare d g) = after h := by
          simp [Logger.step, Logger.declare, hs d f0 hf0]
        rw [hstep]
        refine ⟨hk, fun c hc => hn c fun hm => hc ?_, fun c f e => ?_⟩
        · rw [declared_append]; exact List.mem_append_left _ hm
        · rw [hval]
          refine hs c f ?_
          by_cases hcd : d = c
          · subst hcd
            simp only [Formats, List.filterMap_append, List.head?_append] at e
            rw [show (List.filterMap _ h).head? = some f0 from hf0] at e
            rw [hf0]; simpa using e
          · simpa [Formats, hcd] using e
      · rw [if_neg hd]
        have hstep : (after h).step (.declare d g) =
            ⟨fun e => if e = d then some (0, g) else (after h).data e, (after h).keys ++ [d]⟩ := by
          simp [Logger.step, Logger.declare, hn d hd]
        rw [hstep]
        refine ⟨by simp [hk], fun c hc => ?_, fun c f e => ?_⟩
        · have hcd : c ≠ d := by
            rintro rfl; exact hc (by simp [Declared])
          simp only [hcd, if_false]
          exact hn c fun hm => hc (by rw [declared_append]; exact List.mem_append_left _ hm)
        · rw [hval]
          by_cases hcd : c = d
          · subst hcd
            have hnil : Formats h c = [] := by
              by_contra hne; exact hd ((formats_ne_nil h c).mpr hne)
            have hv : Values h c = [] := by
              by_contra hne
              obtain ⟨v, hv⟩ := List.exists_mem_of_ne_nil _ hne
              obtain ⟨a, ha, e⟩ := List.mem_filterMap.mp hv
              cases a with
              | declare => simp at e
              | update b w =>
                by_cases hb : b = c
                · subst hb
                  obtain ⟨p, s, hps⟩ := List.append_of_mem ha
                  have := ho p b w (s ++ [.declare b g]) (by simp [hps])
                  exact hd (by
                    rw [hps, mem_declared_iff]
                    obtain ⟨f', hf'⟩ := (mem_declared_iff _ _).mp this
                    exact ⟨f', by simp [hf']⟩)
                · simp [hb] at e
            have hg : f = g := by
              simp only [Formats, List.filterMap_append, List.head?_append] at e
              rw [show List.filterMap _ h = [] from hnil] at e
              simpa using e.symm
            simp [SpecValue, hv, hg]
          · have hdc : d ≠ c := fun e => hcd e.symm
            simp only [hcd, if_false]
            exact hs c f (by simpa [Formats, hdc] using e)
    | update d v =>
      rw [specColumns_update]
      have hd : d ∈ Declared h := ho h d v [] (by simp)
      have hdecl : Declared (h ++ [.update d v]) = Declared h := by simp [Declared]
      have hform : ∀ c, Formats (h ++ [.update d v]) c = Formats h c := by
        intro c; simp [Formats]
      rw [hdecl]
      simp only [Logger.step, Logger.update, Logger.put]
      refine ⟨hk, fun c hc => ?_, fun c f e => ?_⟩
      · have hcd : c ≠ d := by rintro rfl; exact hc hd
        simp [hcd, hn c hc]
      · rw [hform] at e
        by_cases hcd : c = d
        · subst hcd
          simp [hs c f e, SpecValue, Values]
        · have hdc : d ≠ c := fun e => hcd e.symm
          simp [hcd, hs c f e, SpecValue, Values, hdc]

theorem mapM_some {α β : Type} (f : α → Option β) : ∀ (l : List α) (r : List β),
    List.Forall₂ (fun a b => f a = some b) l r → l.mapM f = some r
  | [], _, h => by cases h; rfl
  | a :: l, _, h => by
    cases h with
    | cons h1 h2 =>
      rw [List.mapM_cons, h1, mapM_some f l _ h2]; rfl

theorem forall2_of_exists {α β : Type*} {R : α → β → Prop} : ∀ (l : List α),
    (∀ a ∈ l, ∃ b, R a b) → ∃ r, List.Forall₂ R l r
  | [], _ => ⟨[], .nil⟩
  | a :: l, h => by
    obtain ⟨b, hb⟩ := h a (by simp)
    obtain ⟨r, hr⟩ := forall2_of_exists l fun x hx => h x (by simp [hx])
    exact ⟨b :: r, .cons hb hr⟩

theorem field_prints {f : Format} {v : ℝ} (hw : f = .integer → ∃ n : ℕ, n < 2 ^ 32 ∧ v = n) :
    ∃ x, field v f = some x ∧ Prints f v x := by
  cases f with
  | integer =>
    obtain ⟨n, hn, rfl⟩ := hw rfl
    refine ⟨.integer n, ?_, .integer n hn⟩
    have h1 : (-1 : ℝ) < n := by have : (0 : ℝ) ≤ n := n.cast_nonneg; linarith
    have h2 : (n : ℝ) < 2 ^ 32 := by exact_mod_cast hn
    simp only [field, toUnsigned]
    rw [if_pos ⟨h1, h2⟩]
    simp
  | decimal => exact ⟨_, rfl, .decimal v⟩
  | scientific => exact ⟨_, rfl, .scientific v⟩

/-! ## C59 -/

/-- C59 (part): after any history in which values are written to declared columns and
whole-number columns hold whole numbers, a log line consists of exactly one field per declared
column, in the order of the first declarations, each printing the value last written in the
format of the first declaration; the titles are the columns in the same order.

Missing: histories that write to a column before declaring it, see `C59_violated`. -/
theorem C59_line_partial (h : List Call) (ho : Orderly h) (hw : Whole h) :
    (after h).headers = SpecColumns h ∧
    ∃ line, (after h).line = some line ∧
      List.Forall₂ (fun c x => ∃ f, (Formats h c).head? = some f ∧ Prints f (SpecValue h c) x)
        (SpecColumns h) line := by
  obtain ⟨hk, -, hs⟩ := after_spec h ho
  refine ⟨hk, ?_⟩
  have key : ∀ c ∈ SpecColumns h, ∃ x,
      (field ((((after h).data c).getD (0, .integer)).1) (((after h).data c).getD (0, .integer)).2
        = some x) ∧
      ∃ f, (Formats h c).head? = some f ∧ Prints f (SpecValue h c) x := by
    intro c hc
    have hd : c ∈ Declared h := by simpa [SpecColumns] using hc
    obtain ⟨f, hf⟩ : ∃ f, (Formats h c).head? = some f :=
      Option.isSome_iff_exists.mp (by
        rw [List.isSome_head?]; simpa using (formats_ne_nil h c).mp hd)
    obtain ⟨x, hx, hp⟩ := field_prints (f := f) (v := SpecValue h c) (fun e => hw c (e ▸ hf))
    exact ⟨x, by rw [hs c f hf]; exact hx, f, hf, hp⟩
  obtain ⟨r, hr⟩ := forall2_of_exists _ key
  refine ⟨r, ?_, hr.imp fun _ _ h => h.2⟩
  unfold Logger.line
  rw [hk]
  exact mapM_some _ _ _ (hr.imp fun _ _ h => h.1)

/-- C59: the printed columns are distinct and are the declared ones. -/
theorem C59_columns (h : List Call) :
    (SpecColumns h).Nodup ∧ ∀ c, c ∈ SpecColumns h ↔ ∃ f, Call.declare c f ∈ h := by
  refine ⟨?_, fun c => ?_⟩
  · unfold SpecColumns; rw [List.nodup_reverse]; exact List.nodup_dedup _
  · rw [← mem_declared_iff]; simp [SpecColumns]

/-- C59: declaring a column a second time is rejected and changes nothing, whatever was
called before. -/
theorem C59_twice (h : List Call) (c : String) (f g : Format) (hc : Call.declare c f ∈ h) :
    (after h).declare c g = none ∧ after (h ++ [.declare c g]) = after h := by
  have hsome : ((after h).data c).isSome := by
    induction h using List.reverseRecOn with
    | nil => simp at hc
    | append_singleton h a ih =>
      rw [after_append]
      rcases List.mem_append.mp hc with hc | hc
      · have := ih hc
        cases a with
        | declare d k =>
          simp only [Logger.step, Logger.declare]
          by_cases hd : ((after h).data d).isSome
          · simpa [hd] using this
          · by_cases hcd : c = d
            · subst hcd; exact absurd this hd
            · simpa [hd, hcd] using this
        | update d v =>
          simp only [Logger.step, Logger.update, Logger.put]
          by_cases hcd : c = d <;> simp [hcd, this]
      · simp only [List.mem_singleton] at hc
        subst hc
        simp only [Logger.step, Logger.declare]
        by_cases hd : ((after h).data c).isSome
        · simp [hd]
        · simp [hd]
  have hrej : (after h).declare c g = none := by simp [Logger.declare, hsome]
  exact ⟨hrej, by rw [after_append]; simp [Logger.step, hrej]⟩

/-- C59 is violated: a value written to a column before its declaration makes the (first)
declaration fail, and neither the column nor its value ever appears in a line.  A negative
value in a whole-number column is undefined behaviour. -/
theorem C59_violated (c : String) (v : ℝ) (f : Format) :
    (after [.update c v]).declare c f = none ∧
    (after [.update c v, .declare c f]).headers = [] ∧
    (after [.update c v, .declare c f]).line = some [] ∧
    (v ≤ -1 → (after [.declare c .integer, .update c v]).line = none) := by
  have e : (after [.update c v]).declare c f = none := by
    simp [after, Logger.step, Logger.update, Logger.put, Logger.declare]
  have e2 : after [.update c v, .declare c f] = after [.update c v] := by
    have := after_append [.update c v] (.declare c f)
    simp only [List.cons_append, List.nil_append] at this
    rw [this]; simp [Logger.step, e]
  refine ⟨e, ?_, ?_, fun hv => ?_⟩
  · rw [e2]; rfl
  · rw [e2]; rfl
  · have : ¬ (-1 < v ∧ v < 2 ^ 32) := fun h => by linarith [h.1]
    simp [after, Logger.step, Logger.update, Logger.put, Logger.declare, Logger.new, Logger.line,
      field, toUnsigned, this]

/-- Non-vacuity: the solver's first and last columns, one overwritten. -/
example : Orderly [.declare "N-Itr" .integer, .declare "(R)_L2" .scientific,
      .update "N-Itr" 1, .update "(R)_L2" (1 / 2), .update "N-Itr" 2] ∧
    Whole [.declare "N-Itr" .integer, .declare "(R)_L2" .scientific,
      .update "N-Itr" 1, .update "(R)_L2" (1 / 2), .update "N-Itr" 2] ∧
    (after [.declare "N-Itr" .integer, .declare "(R)_L2" .scientific,
      .update "N-Itr" 1, .update "(R)_L2" (1 / 2), .update "N-Itr" 2]).headers =
        ["N-Itr", "(R)_L2"] := by
  refine ⟨?_, ?_, ?_⟩
  · intro p c v s h
    match p with
    | [] => simp at h
    | [_] => simp at h
    | [a, b] => simp at h; obtain ⟨rfl, rfl, ⟨rfl, rfl⟩, rfl⟩ := h; simp [Declared]
    | [a, b, d] => simp at h; obtain ⟨rfl, rfl, rfl, ⟨rfl, rfl⟩, rfl⟩ := h; simp [Declared]
    | [a, b, d, e] => simp at h; obtain ⟨rfl, rfl, rfl, rfl, ⟨rfl, rfl⟩, rfl⟩ := h; simp [Declared]
    | _ :: _ :: _ :: _ :: _ :: _ => simp at h
  · intro c hc
    by_cases h1 : "N-Itr" = c
    · subst h1; exact ⟨2, by norm_num, by simp [SpecValue, Values]⟩
    · by_cases h2 : "(R)_L2" = c
      · subst h2; simp [Formats] at hc
      · simp [Formats, h1, h2] at hc
  · simp [after, Logger.step, Logger.update, Logger.put, Logger.declare, Logger.new, Logger.headers]

end Verif.Util
