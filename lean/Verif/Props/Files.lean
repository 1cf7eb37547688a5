import Verif.Model.Files
import Mathlib.Tactic.Linarith
import Mathlib.Tactic.NormNum
import Mathlib.Tactic.FinCases
import Mathlib.Data.Fin.VecNotation

/-!
# C81: the crystal data files are read completely and wrong ones are refused
-/

namespace Verif.Files

/-! ## Specification -/

/-- A line of text holds the vector: as many comma separated entries as there are columns, entry
`j` being the number `v j`; further components are zero. -/
def LineHolds {dim : ℕ} (stod : List Char → Option ℝ) (cols : ℕ) (line : List Char)
    (v : Fin dim → ℝ) : Prop :=
  (pieces ',' line).length = cols ∧
  (∀ (j : Fin dim) (t : List Char), (pieces ',' line)[j.val]? = some t → stod t = some (v j)) ∧
  ∀ j : Fin dim, cols ≤ j.val → v j = 0

/-- Entries joined by commas. -/
def printEntries : List (List Char) → List Char
  | [] => []
  | [e] => e
  | e :: es => e ++ ',' :: printEntries es

/-- The first `cols` components, written with `fmt`. -/
def printRow {dim : ℕ} (fmt : ℝ → List Char) (cols : ℕ) (v : Fin dim → ℝ) : List Char :=
  printEntries ((List.ofFn fun j => fmt (v j)).take cols)

/-- A file with one row per line. -/
def printRows {dim : ℕ} (fmt : ℝ → List Char) (cols : ℕ) (rows : List (Fin dim → ℝ)) : List Char :=
  rows.flatMap fun v => printRow fmt cols v ++ ['\n']

/-! ## Helpers -/

theorem pieces_ne (sep : Char) (s : List Char) (h : s ≠ []) : pieces sep s ≠ [] := by
  cases s with
  | nil => exact absurd rfl h
  | cons c cs =>
    unfold pieces
    split_ifs
    · simp
    · split <;> simp

/-- A piece followed by a separator. -/
theorem pieces_append (sep : Char) (a s : List Char) (ha : sep ∉ a) :
    pieces sep (a ++ sep :: s) = a :: pieces sep s := by
  induction a with
  | nil => simp [pieces]
  | cons c cs ih =>
    have hc : c ≠ sep := fun h => ha (by rw [h]; exact List.mem_cons_self)
    have hcs : sep ∉ cs := fun h => ha (List.mem_cons_of_mem _ h)
    rw [List.cons_append, pieces, if_neg hc, ih hcs]

/-- A last piece. -/
theorem pieces_last (sep : Char) (a : List Char) (ha : sep ∉ a) (hne : a ≠ []) :
    pieces sep a = [a] := by
  induction a with
  | nil => exact absurd rfl hne
  | cons c cs ih =>
    have hc : c ≠ sep := fun h => ha (by rw [h]; exact List.mem_cons_self)
    have hcs : sep ∉ cs := fun h => ha (List.mem_cons_of_mem _ h)
    rw [pieces, if_neg hc]
    cases cs with
    | nil => rfl
    | cons d ds => rw [ih hcs (by simp)]

theorem readComponents_ok {dim : ℕ} (stod : List Char → Option ℝ) (ts : List (List Char)) :
    ∀ (k : ℕ) (w : Fin dim → ℝ) (m : ℕ) (v : Fin dim → ℝ),
    readComponents stod k w ts = .ok (m, v) ↔
      m = k + ts.length ∧ (ts = [] ∨ m ≤ dim) ∧
      (∀ j : Fin dim, j.val < k → v j = w j) ∧
      (∀ (j : Fin dim) (i : ℕ) (t : List Char), j.val = k + i → ts[i]? = some t →
        stod t = some (v j)) ∧
      (∀ (i : ℕ) (t : List Char), ts[i]? = some t → ∃ x, stod t = some x) ∧
      (∀ j : Fin dim, k + ts.length ≤ j.val → v j = w j) := by
  induction ts with
  | nil =>
    intro k w m v
    simp only [readComponents, List.length_nil, add_zero, List.getElem?_nil, reduceCtorEq,
      Outcome.ok.injEq, Prod.mk.injEq]
    constructor
    · rintro ⟨rfl, rfl⟩
      simp
    · rintro ⟨rfl, -, h1, -, -, h2⟩
      refine ⟨rfl, ?_⟩
      funext j
      rcases lt_or_ge j.val m with h | h
      · exact (h1 j h).symm
      · exact (h2 j h).symm
  | cons t ts ih =>
    intro k w m v
    unfold readComponents
    rcases hx : stod t with _ | x
    · simp only [reduceCtorEq, false_iff]
      rintro ⟨-, -, -, -, h, -⟩
      obtain ⟨x, h⟩ := h 0 t rfl
      rw [hx] at h
      simp at h
    · simp only
      by_cases hk : k < dim
      · rw [dif_pos hk, ih]
        constructor
        · rintro ⟨h1, h2, h3, h4, h5, h6⟩
          refine ⟨by rw [h1, List.length_cons]; omega, ?_, ?_, ?_, ?_, ?_⟩
          · right
            rcases h2 with h2 | h2
            · rw [h2] at h1; simp at h1; omega
            · exact h2
          · intro j hj
            rw [h3 j (by omega), Function.update_of_ne]
            intro e
            rw [e] at hj
            simp at hj
          · intro j i u hj hu
            cases i with
            | zero =>
              simp only [List.getElem?_cons_zero, Option.some.injEq] at hu
              subst hu
              rw [hx, h3 j (by omega)]
              have : j = ⟨k, hk⟩ := Fin.ext (by simpa using hj)
              rw [this, Function.update_self]
            | succ i =>
              rw [List.getElem?_cons_succ] at hu
              exact h4 j i u (by omega) hu
          · intro i u hu
            cases i with
            | zero =>
              simp only [List.getElem?_cons_zero, Option.some.injEq] at hu
              subst hu
              exact ⟨x, hx⟩
            | succ i => exact h5 i u (by rwa [List.getElem?_cons_succ] at hu)
          · intro j hj
            rw [List.length_cons] at hj
            rw [h6 j (by omega), Function.update_of_ne]
            intro e
            rw [e] at hj
            simp at hj
        · rintro ⟨h1, h2, h3, h4, h5, h6⟩
          rw [List.length_cons] at h1
          refine ⟨by omega, ?_, ?_, ?_, ?_, ?_⟩
          · right
            rcases h2 with h2 | h2
            · simp at h2
            · exact h2
          · intro j hj
            rcases Nat.lt_or_ge j.val k with h | h
            · rw [h3 j h, Function.update_of_ne]
              intro e
              rw [e] at h
              simp at h
            · have : j = ⟨k, hk⟩ := Fin.ext (by simp; omega)
              have h' := h4 j 0 t (by omega) rfl
              rw [hx] at h'
              rw [this, Function.update_self]
              rw [this] at h'
              exact (Option.some.inj h').symm
          · intro j i u hj hu
            exact h4 j (i + 1) u (by omega) (by rw [List.getElem?_cons_succ]; exact hu)
          · intro i u hu
            exact h5 (i + 1) u (by rw [List.getElem?_cons_succ]; exact hu)
          · intro j hj
            rw [h6 j (by rw [List.length_cons]; omega), Function.update_of_ne]
            intro e
            rw [e] at hj
            simp at hj
            omega
      · rw [dif_neg hk]
        simp only [reduceCtorEq, false_iff]
        rintro ⟨h1, h2, -⟩
        rw [List.length_cons] at h1
        rcases h2 with h2 | h2
        · simp at h2
        · omega

/-- One line is accepted exactly if it holds a vector of the demanded length. -/
theorem readLine_ok {dim : ℕ} (hd : 1 ≤ dim) (stod : List Char → Option ℝ) (euler : Bool)
    (line : List Char) (v : Fin dim → ℝ) :
    readLine stod euler line = .ok v ↔ LineHolds stod (columns dim euler) line v := by
  have hcols : columns dim euler ≤ dim := by
    unfold columns
    split_ifs <;> omega
  have iff1 : readLine stod euler line = .ok v ↔
      readComponents stod 0 (fun _ => 0) (pieces ',' line) = .ok (columns dim euler, v) := by
    unfold readLine
    rcases h : readComponents stod 0 (fun _ => (0 : ℝ)) (pieces ',' line) with r | _ | _
    · obtain ⟨m, w⟩ := r
      simp only [Outcome.bind]
      by_cases hm : m = columns dim euler
      · rw [if_pos hm]
        simp [hm]
      · rw [if_neg hm]
        simp [hm]
    · simp [Outcome.bind]
    · simp [Outcome.bind]
  rw [iff1, readComponents_ok]
  unfold LineHolds
  simp only [Nat.zero_add, Nat.not_lt_zero, false_implies, implies_true, true_and]
  constructor
  · rintro ⟨h1, -, h4, -, h6⟩
    refine ⟨h1.symm, fun j t ht => h4 j j.val t rfl ht, fun j hj => h6 j (by omega)⟩
  · rintro ⟨h1, h2, h3⟩
    refine ⟨h1.symm, Or.inr hcols, ?_, ?_, fun j hj => h3 j (by omega)⟩
    · intro j i t hj ht
      subst hj
      exact h2 j t ht
    · intro i t ht
      have hi : i < dim := by
        have := (List.getElem?_eq_some_iff.1 ht).1
        omega
      exact ⟨_, h2 ⟨i, hi⟩ t ht⟩

/-! ## C81 -/

/-- C81: a file is accepted exactly if every line before the first blank one holds a vector of the
demanded length, and then the result is these vectors in the order of the lines; for every text,
dimension and number format. -/
theorem C81_accepted {dim : ℕ} (hd : 1 ≤ dim) (stod : List Char → Option ℝ) (euler : Bool)
    (file : List Char) (rows : List (Fin dim → ℝ)) :
    readFile stod euler file = .ok rows ↔
      List.Forall₂ (LineHolds stod (columns dim euler))
        ((pieces '\n' file).takeWhile fun l => !blank l) rows := by
  unfold readFile
  induction pieces '\n' file generalizing rows with
  | nil =>
    simp only [readLines, List.takeWhile_nil]
    constructor
    · intro h
      obtain rfl := (Outcome.ok.inj h).symm
      exact .nil
    · intro h
      cases h
      rfl
  | cons l ls ih =>
    unfold readLines
    by_cases hb : blank l = true
    · rw [if_pos hb, List.takeWhile_cons, if_neg (by simp [hb])]
      constructor
      · intro h
        obtain rfl := (Outcome.ok.inj h).symm
        exact .nil
      · intro h
        cases h
        rfl
    · rw [if_neg hb, List.takeWhile_cons, if_pos (by simpa using hb)]
      constructor
      · intro h
        rcases hl : readLine stod euler l with v | _ | _
        · rw [hl] at h
          rcases hr : readLines stod euler ls with vs | _ | _
          · rw [hr] at h
            simp only [Outcome.bind, Outcome.ok.injEq] at h
            subst h
            exact .cons ((readLine_ok hd stod euler l v).1 hl) ((ih vs).1 hr)
          · rw [hr] at h; simp [Outcome.bind] at h
          · rw [hr] at h; simp [Outcome.bind] at h
        · rw [hl] at h; simp [Outcome.bind] at h
        · rw [hl] at h; simp [Outcome.bind] at h
      · intro h
        cases h with
        | cons h1 h2 =>
          rw [(readLine_ok hd stod euler l _).2 h1, (ih _).2 h2]
          rfl

/-- A number format the program can read back, for the numbers of a set (those a text can
represent): entries contain no comma, no line break and something besides spaces. -/
structure Format (S : Set ℝ) (fmt : ℝ → List Char) (stod : List Char → Option ℝ) : Prop where
  comma : ∀ x ∈ S, ',' ∉ fmt x
  newline : ∀ x ∈ S, '\n' ∉ fmt x
  visible : ∀ x ∈ S, blank (fmt x) = false
  back : ∀ x ∈ S, stod (fmt x) = some x

theorem pieces_printEntries (es : List (List Char)) (hc : ∀ e ∈ es, ',' ∉ e)
    (hn : ∀ e ∈ es, e ≠ []) : pieces ',' (printEntries es) = es := by
  induction es with
  | nil => rfl
  | cons e es ih =>
    cases es with
    | nil =>
      exact pieces_last ',' e (hc e List.mem_cons_self) (hn e List.mem_cons_self)
    | cons e' es' =>
      rw [printEntries, pieces_append ',' e _ (hc e List.mem_cons_self),
        ih (fun x hx => hc x (List.mem_cons_of_mem _ hx))
          (fun x hx => hn x (List.mem_cons_of_mem _ hx))]
      simp

theorem mem_printEntries (es : List (List Char)) (c : Char) (h : c ∈ printEntries es) :
    c = ',' ∨ ∃ e ∈ es, c ∈ e := by
  induction es with
  | nil => simp [printEntries] at h
  | cons e es ih =>
    cases es with
    | nil => exact Or.inr ⟨e, List.mem_cons_self, h⟩
    | cons e' es' =>
      rw [printEntries] at h
      · rcases List.mem_append.1 h with h | h
        · exact Or.inr ⟨e, List.mem_cons_self, h⟩
        · rcases List.mem_cons.1 h with h | h
          · exact Or.inl h
          · rcases ih h with h | ⟨x, hx, h⟩
            · exact Or.inl h
            · exact Or.inr ⟨x, List.mem_cons_of_mem _ hx, h⟩
      · simp

theorem printRow_visible {dim : ℕ} (S : Set ℝ) (fmt : ℝ → List Char) (stod : List Char → Option ℝ)
    (hf : Format S fmt stod) (cols : ℕ) (hc : 1 ≤ cols) (hcd : cols ≤ dim) (v : Fin dim → ℝ)
    (hS : ∀ j, v j ∈ S) : blank (printRow fmt cols v) = false := by
  have first : ∀ (e : List Char) (es : List (List Char)), ∃ s, printEntries (e :: es) = e ++ s := by
    intro e es
    cases es with
    | nil => exact ⟨[], by simp [printEntries]⟩
    | cons a as => exact ⟨',' :: printEntries (a :: as), rfl⟩
  unfold printRow
  obtain ⟨dim, rfl⟩ : ∃ k, dim = k + 1 := ⟨dim - 1, by omega⟩
  obtain ⟨cols, rfl⟩ : ∃ k, cols = k + 1 := ⟨cols - 1, by omega⟩
  rw [List.ofFn_succ, List.take_succ_cons]
  obtain ⟨s, hs⟩ := first (fmt (v 0)) ((List.ofFn fun i : Fin dim => fmt (v i.succ)).take cols)
  rw [hs]
  have := hf.visible (v 0) (hS 0)
  unfold blank at this ⊢
  rw [List.filter_append]
  rcases h : List.filter (fun x => decide (x ≠ ' ')) (fmt (v 0)) with _ | ⟨a, as⟩
  · rw [h] at this; simp at this
  · simp

theorem printRow_holds {dim : ℕ} (S : Set ℝ) (fmt : ℝ → List Char) (stod : List Char → Option ℝ)
    (hf : Format S fmt stod) (cols : ℕ) (hcd : cols ≤ dim) (v : Fin dim → ℝ)
    (hS : ∀ j, v j ∈ S) (hz : ∀ j : Fin dim, cols ≤ j.val → v j = 0) : LineHolds stod cols (printRow fmt cols v) v := by
  have hp : pieces ',' (printRow fmt cols v) = (List.ofFn fun j => fmt (v j)).take cols := by
    apply pieces_printEntries
    · intro e he
      obtain ⟨j, rfl⟩ := (List.mem_ofFn' _ _).1 (List.mem_of_mem_take he)
      exact hf.comma _ (hS j)
    · intro e he
      obtain ⟨j, rfl⟩ := (List.mem_ofFn' _ _).1 (List.mem_of_mem_take he)
      intro h
      have := hf.visible (v j) (hS j)
      rw [show fmt (v j) = [] from h] at this
      simp [blank] at this
  refine ⟨?_, ?_, hz⟩
  · rw [hp]; simp [hcd]
  · intro j t ht
    rw [hp, List.getElem?_take] at ht
    split_ifs at ht with hj
    rw [List.getElem?_ofFn, dif_pos j.isLt] at ht
    rw [← Option.some.inj ht]
    exact hf.back _ (hS j)

theorem printRow_newline {dim : ℕ} (S : Set ℝ) (fmt : ℝ → List Char) (stod : List Char → Option ℝ)
    (hf : Format S fmt stod) (cols : ℕ) (v : Fin dim → ℝ)
    (hS : ∀ j, v j ∈ S) : '\n' ∉ printRow fmt cols v := by
  intro h
  rcases mem_printEntries _ _ h with h | ⟨e, he, h⟩
  · exact absurd h (by decide)
  · obtain ⟨j, rfl⟩ := (List.mem_ofFn' _ _).1 (List.mem_of_mem_take he)
    exact hf.newline _ (hS j) h

theorem pieces_printRows {dim : ℕ} (S : Set ℝ) (fmt : ℝ → List Char) (stod : List Char → Option ℝ)
    (hf : Format S fmt stod) (cols : ℕ) (rows : List (Fin dim → ℝ))
    (hS : ∀ v ∈ rows, ∀ j, v j ∈ S) (rest : List Char) :
    pieces '\n' (printRows fmt cols rows ++ rest) =
      rows.map (printRow fmt cols) ++ pieces '\n' rest := by
  induction rows with
  | nil => rfl
  | cons v vs ih =>
    unfold printRows at ih ⊢
    rw [List.flatMap_cons, List.append_assoc, List.append_assoc, List.singleton_append,
      pieces_append '\n' _ _ (printRow_newline S fmt stod hf cols v (hS v List.mem_cons_self)),
      ih fun w hw => hS w (List.mem_cons_of_mem _ hw)]
    rfl

/-- C81, round trip: whatever the dimension, the number format and the vectors, a file that lists
them one per line is read back as these vectors in this order. -/
theorem C81_round_trip {dim : ℕ} (hd : 1 ≤ dim) (S : Set ℝ) (fmt : ℝ → List Char)
    (stod : List Char → Option ℝ) (hf : Format S fmt stod) (euler : Bool)
    (rows : List (Fin dim → ℝ)) (hS : ∀ v ∈ rows, ∀ j, v j ∈ S)
    (hz : ∀ v ∈ rows, ∀ j : Fin dim, columns dim euler ≤ j.val → v j = 0) :
    readFile stod euler (printRows fmt (columns dim euler) rows) = .ok rows := by
  have hcols : columns dim euler ≤ dim := by
    unfold columns
    split_ifs <;> omega
  have hc1 : 1 ≤ columns dim euler := by
    unfold columns
    split_ifs <;> omega
  rw [C81_accepted hd]
  have := pieces_printRows S fmt stod hf (columns dim euler) rows hS []
  rw [List.append_nil] at this
  rw [this, pieces, List.append_nil]
  clear this
  induction rows with
  | nil => exact .nil
  | cons v vs ih =>
    rw [List.map_cons, List.takeWhile_cons, if_pos]
    · exact .cons (printRow_holds S fmt stod hf _ hcols v (hS v List.mem_cons_self) (hz v List.mem_cons_self))
        (ih (fun w hw => hS w (List.mem_cons_of_mem _ hw))
          fun w hw => hz w (List.mem_cons_of_mem _ hw))
    · rw [printRow_visible S fmt stod hf _ hc1 hcols _ (hS v List.mem_cons_self)]; rfl

/-- C81 is violated by blank lines: whatever follows the first blank line, be it further slip
systems, is dropped without notice. -/
theorem C81_violated_blank {dim : ℕ} (hd : 1 ≤ dim) (S : Set ℝ) (fmt : ℝ → List Char)
    (stod : List Char → Option ℝ) (hf : Format S fmt stod) (rows more : List (Fin dim → ℝ))
    (hS : ∀ v ∈ rows, ∀ j, v j ∈ S) :
    readFile stod false (printRows fmt dim rows ++ '\n' :: printRows fmt dim more) = .ok rows := by
  have hcols : columns dim false = dim := by simp [columns]
  rw [C81_accepted hd, hcols, pieces_printRows S fmt stod hf _ _ hS]
  have : pieces '\n' ('\n' :: printRows fmt dim more) = [] :: pieces '\n' (printRows fmt dim more) := by
    rw [pieces, if_pos rfl]
  rw [this]
  clear this
  induction rows with
  | nil =>
    rw [List.map_nil, List.nil_append, List.takeWhile_cons, if_neg (by simp [blank])]
    exact .nil
  | cons v vs ih =>
    rw [List.map_cons, List.cons_append, List.takeWhile_cons, if_pos]
    · exact .cons (printRow_holds S fmt stod hf _ le_rfl v (hS v List.mem_cons_self)
        fun j hj => absurd j.isLt (by omega)) (ih fun w hw => hS w (List.mem_cons_of_mem _ hw))
    · rw [printRow_visible S fmt stod hf _ hd le_rfl _ (hS v List.mem_cons_self)]; rfl

theorem readComponents_many {dim : ℕ} (stod : List Char → Option ℝ) (ts : List (List Char))
    (h : ∀ t ∈ ts, ∃ x, stod t = some x) :
    ∀ (k : ℕ) (w : Fin dim → ℝ), k ≤ dim → dim < k + ts.length →
      readComponents stod k w ts = .undefined := by
  induction ts with
  | nil => intro k w hk hl; simp at hl; omega
  | cons t ts ih =>
    intro k w hk hl
    obtain ⟨x, hx⟩ := h t List.mem_cons_self
    unfold readComponents
    rw [hx]
    simp only
    by_cases hkd : k < dim
    · rw [dif_pos hkd]
      exact ih (fun t ht => h t (List.mem_cons_of_mem _ ht)) _ _ (by omega)
        (by rw [List.length_cons] at hl; omega)
    · rw [dif_neg hkd]

/-- C81, too few columns: a first line with fewer numbers than demanded, or, for orientations in 2D,
with two, is refused. -/
theorem C81_refused {dim : ℕ} (stod : List Char → Option ℝ) (euler : Bool)
    (line rest : List Char) (hnl : '\n' ∉ line) (hb : blank line = false)
    (hnum : ∀ t ∈ pieces ',' line, ∃ x, stod t = some x)
    (hlen : (pieces ',' line).length ≤ dim) (hne : (pieces ',' line).length ≠ columns dim euler) :
    readFile (dim := dim) stod euler (line ++ '\n' :: rest) = .throws := by
  unfold readFile
  rw [pieces_append '\n' line rest hnl, readLines, if_neg (by simp [hb])]
  have ex : ∀ (ts : List (List Char)), (∀ t ∈ ts, ∃ x, stod t = some x) →
      ∀ (k : ℕ) (w : Fin dim → ℝ), k + ts.length ≤ dim →
      ∃ v, readComponents stod k w ts = .ok (k + ts.length, v) := by
    intro ts
    induction ts with
    | nil => intro _ k w _; exact ⟨w, rfl⟩
    | cons t ts ih =>
      intro h k w hk
      obtain ⟨x, hx⟩ := h t List.mem_cons_self
      rw [List.length_cons] at hk
      obtain ⟨v, hv⟩ := ih (fun t ht => h t (List.mem_cons_of_mem _ ht)) (k + 1)
        (Function.update w ⟨k, by omega⟩ x) (by omega)
      refine ⟨v, ?_⟩
      unfold readComponents
      rw [hx]
      simp only
      rw [dif_pos (by omega), hv, List.length_cons]
      congr 2
      omega
  obtain ⟨v, hv⟩ := ex _ hnum 0 (fun _ => 0) (by omega)
  have : readLine (dim := dim) stod euler line = .throws := by
    unfold readLine
    rw [hv]
    simp only [Outcome.bind, Nat.zero_add]
    rw [if_neg hne]
  rw [this]
  rfl

/-- C81 is violated by too many columns: a first line with more numbers than the dimension is not
refused but written behind the end of a tensor. -/
theorem C81_violated_columns {dim : ℕ} (stod : List Char → Option ℝ) (euler : Bool)
    (line rest : List Char) (hnl : '\n' ∉ line) (hb : blank line = false)
    (hnum : ∀ t ∈ pieces ',' line, ∃ x, stod t = some x)
    (hlen : dim < (pieces ',' line).length) :
    readFile (dim := dim) stod euler (line ++ '\n' :: rest) = .undefined := by
  unfold readFile
  rw [pieces_append '\n' line rest hnl, readLines, if_neg (by simp [hb])]
  have : readLine (dim := dim) stod euler line = .undefined := by
    unfold readLine
    rw [readComponents_many stod _ hnum 0 _ (Nat.zero_le _) (by omega)]
    rfl
  rw [this]
  rfl

theorem openFile_ok {dim : ℕ} {stod : List Char → Option ℝ} {euler : Bool} {f : Option (List Char)}
    {l : List (Fin dim → ℝ)} (h : openFile stod euler f = .ok l) : ∃ t, f = some t ∧ readFile stod euler t = .ok l := by
  rcases f with _ | t
  · simp [openFile] at h
  · exact ⟨t, rfl, h⟩

/-- C81, missing files: without the orientations the constructor throws; without the directions or the normals it does
so once the files before are accepted, and it never succeeds. -/
theorem C81_missing {dim : ℕ} (stod : List Char → Option ℝ) (ids : List ℕ) (fo fd fn : Option (List Char)) :
    readData (dim := dim) stod ids none fd fn = .throws ∧
    (∀ t o, readFile (dim := dim) stod true t = .ok o → readData (dim := dim) stod ids (some t) none fn = .throws) ∧
    (∀ t o s r, readFile (dim := dim) stod true t = .ok o → readFile (dim := dim) stod false s = .ok r →
      readData (dim := dim) stod ids (some t) (some s) none = .throws) ∧
    ∀ d : Data dim, readData stod ids fo fd fn = .ok d → fo ≠ none ∧ fd ≠ none ∧ fn ≠ none := by
  refine ⟨rfl, ?_, ?_, ?_⟩
  · intro t o h
    unfold readData openFile
    simp only [h, Outcome.bind]
    split_ifs <;> rfl
  · intro t o s r h h2
    unfold readData openFile
    simp only [h, h2, Outcome.bind]
    split_ifs <;> rfl
  · intro d h
    unfold readData at h
    refine ⟨?_, ?_, ?_⟩
    · rintro rfl; simp [openFile, Outcome.bind] at h
    · rintro rfl
      rcases ho : openFile (dim := dim) stod true fo with o | _ | _ <;> rw [ho] at h <;> simp [openFile, Outcome.bind] at h
    · rintro rfl
      rcases ho : openFile (dim := dim) stod true fo with o | _ | _ <;> rw [ho] at h <;>
        rcases hd : openFile (dim := dim) stod false fd with o' | _ | _ <;> rw [hd] at h <;>
        simp only [openFile, Outcome.bind] at h <;> (try split_ifs at h) <;> simp_all

/-- C81: accepted data were read from three existing files, and have one orientation per crystal and as many normals as
directions. -/
theorem C81_counts {dim : ℕ} (stod : List Char → Option ℝ) (ids : List ℕ)
    (fo fd fn : Option (List Char)) (d : Data dim) (h : readData stod ids fo fd fn = .ok d) :
    d.orientations.length = ids.toFinset.card ∧ d.normals.length = d.directions.length ∧
    (∃ t, fo = some t ∧ readFile stod true t = .ok d.orientations) ∧
    (∃ t, fd = some t ∧ readFile stod false t = .ok d.directions) ∧
    ∃ t, fn = some t ∧ readFile stod false t = .ok d.normals := by
  unfold readData at h
  rcases ho : openFile stod true fo with o | _ | _
  · rw [ho] at h
    simp only [Outcome.bind] at h
    split_ifs at h with h1
    rcases hdir : openFile stod false fd with di | _ | _
    · rw [hdir] at h
      simp only at h
      rcases hn : openFile stod false fn with n | _ | _
      · rw [hn] at h
        simp only at h
        split_ifs at h with h2
        obtain rfl := Outcome.ok.inj h
        exact ⟨not_not.1 h1, not_not.1 h2, openFile_ok ho, openFile_ok hdir, openFile_ok hn⟩
      · rw [hn] at h; simp at h
      · rw [hn] at h; simp at h
    · rw [hdir] at h; simp at h
    · rw [hdir] at h; simp at h
  · rw [ho] at h; simp [Outcome.bind] at h
  · rw [ho] at h; simp [Outcome.bind] at h

theorem ids_range (ids : List ℕ) : (∀ i ∈ ids, i < ids.toFinset.card) ↔
    ids.toFinset = Finset.range ids.toFinset.card := by
  constructor
  · intro h
    apply Finset.eq_of_subset_of_card_le
    · intro i hi
      exact Finset.mem_range.2 (h i (List.mem_toFinset.1 hi))
    · rw [Finset.card_range]
  · intro h i hi
    have : i ∈ ids.toFinset := List.mem_toFinset.2 hi
    rw [h] at this
    exact Finset.mem_range.1 this

/-- C81: with accepted data every cell finds the orientation of its crystal exactly if the material
ids are numbered `0, 1, …` without gaps; otherwise reading it is undefined. -/
theorem C81_crystals {dim : ℕ} (stod : List Char → Option ℝ) (ids : List ℕ)
    (fo fd fn : Option (List Char)) (d : Data dim) (h : readData stod ids fo fd fn = .ok d) :
    (∀ i ∈ ids, ∃ v, orientationOf d i = .ok v) ↔
      ids.toFinset = Finset.range ids.toFinset.card := by
  obtain ⟨h1, -⟩ := C81_counts stod ids fo fd fn d h
  rw [← ids_range, ← h1]
  constructor
  · intro hall i hi
    obtain ⟨v, hv⟩ := hall i hi
    unfold orientationOf at hv
    rcases hg : d.orientations[i]? with _ | w
    · rw [hg] at hv; simp at hv
    · exact (List.getElem?_eq_some_iff.1 hg).1
  · intro hall i hi
    refine ⟨d.orientations[i]'(hall i hi), ?_⟩
    unfold orientationOf
    rw [List.getElem?_eq_getElem (hall i hi)]

/-! ## Non-vacuity -/

/-- A reader of the numbers 0 and 1. -/
def exStod : List Char → Option ℝ
  | ['0'] => some 0
  | ['1'] => some 1
  | _ => none

/-- The matching format. -/
noncomputable def exFmt (x : ℝ) : List Char := if x = 0 then ['0'] else ['1']

theorem exFormat : Format {0, 1} exFmt exStod := by
  constructor
  all_goals
    rintro x (rfl | rfl)
    · simp [exFmt, exStod, blank]
    · simp [exFmt, exStod, blank]

/-- Two slip directions in 2D. -/
def exRows : List (Fin 2 → ℝ) := [![1, 0], ![0, 1]]

theorem exRows_mem : ∀ v ∈ exRows, ∀ j, v j ∈ ({0, 1} : Set ℝ) := by
  intro v hv j
  simp only [exRows, List.mem_cons, List.not_mem_nil, or_false] at hv
  rcases hv with rfl | rfl <;> fin_cases j <;> simp

example : readFile exStod false (printRows exFmt 2 exRows) = .ok exRows :=
  C81_round_trip (by norm_num) _ exFmt exStod exFormat false exRows exRows_mem
    fun v _ j hj => absurd j.isLt (by simp [columns] at hj; omega)

/-- The text of these rows. -/
example : printRows exFmt 2 exRows = ['1', ',', '0', '\n', '0', ',', '1', '\n'] := by
  simp [printRows, printRow, printEntries, exRows, exFmt, List.ofFn_succ]

/-- The second slip system is lost behind a blank line. -/
example : readFile exStod false
    (printRows exFmt 2 [![1, 0]] ++ '\n' :: printRows exFmt 2 [![0, 1]]) = .ok [![1, 0]] :=
  C81_violated_blank (by norm_num) _ exFmt exStod exFormat _ _ (fun v hv =>
    exRows_mem v (by simp only [List.mem_singleton] at hv; simp [exRows, hv]))

/-- One column in 2D is refused, three are undefined. -/
example : readFile (dim := 2) exStod false (['1'] ++ '\n' :: []) = .throws ∧
    readFile (dim := 2) exStod false (['1', ',', '0', ',', '1'] ++ '\n' :: []) = .undefined := by
  constructor
  · refine C81_refused exStod false ['1'] [] (by decide) (by decide) ?_ (by decide) (by decide)
    intro t ht
    have : pieces ',' ['1'] = [['1']] := by decide
    rw [this, List.mem_singleton] at ht
    exact ⟨1, by rw [ht]; rfl⟩
  · refine C81_violated_columns exStod false _ [] (by decide) (by decide) ?_ (by decide)
    intro t ht
    have : pieces ',' ['1', ',', '0', ',', '1'] = [['1'], ['0'], ['1']] := by decide
    rw [this] at ht
    simp only [List.mem_cons, List.not_mem_nil, or_false] at ht
    rcases ht with rfl | rfl | rfl
    · exact ⟨1, rfl⟩
    · exact ⟨0, rfl⟩
    · exact ⟨1, rfl⟩

/-- C81 is violated by gaps in the material ids: cells with ids 0 and 2 and two orientations are
accepted, but the second crystal reads behind the end. -/
theorem C81_violated_ids : ∃ d : Data 2,
    readData exStod [0, 2, 0] (some ['1', '\n', '0']) (some ['1', ',', '0']) (some ['0', ',', '1']) =
      .ok d ∧ (∃ v, orientationOf d 0 = .ok v) ∧ orientationOf d 2 = .undefined := by
  have p1 : pieces '\n' ['1', '\n', '0'] = [['1'], ['0']] := by decide
  have p2 : pieces '\n' ['1', ',', '0'] = [['1', ',', '0']] := by decide
  have p3 : pieces '\n' ['0', ',', '1'] = [['0', ',', '1']] := by decide
  have q1 : pieces ',' ['1'] = [['1']] := by decide
  have q2 : pieces ',' ['0'] = [['0']] := by decide
  have q3 : pieces ',' ['1', ',', '0'] = [['1'], ['0']] := by decide
  have q4 : pieces ',' ['0', ',', '1'] = [['0'], ['1']] := by decide
  have u1 : Function.update (fun _ => (0 : ℝ)) (⟨0, by norm_num⟩ : Fin 2) 1 = ![1, 0] := by
    funext j; fin_cases j <;> simp
  have u2 : Function.update (fun _ => (0 : ℝ)) (⟨0, by norm_num⟩ : Fin 2) 0 = ![0, 0] := by
    funext j; fin_cases j <;> simp
  have u3 : Function.update (![1, 0] : Fin 2 → ℝ) (⟨1, by norm_num⟩ : Fin 2) 0 = ![1, 0] := by
    funext j; fin_cases j <;> simp
  have u4 : Function.update (![0, 0] : Fin 2 → ℝ) (⟨1, by norm_num⟩ : Fin 2) 1 = ![0, 1] := by
    funext j; fin_cases j <;> simp
  have s0 : exStod ['0'] = some 0 := rfl
  have s1 : exStod ['1'] = some 1 := rfl
  have l1 : readLine (dim := 2) exStod true ['1'] = .ok ![1, 0] := by
    unfold readLine
    rw [q1, readComponents, s1]
    simp only
    rw [dif_pos (by norm_num), u1]
    rfl
  have l2 : readLine (dim := 2) exStod true ['0'] = .ok ![0, 0] := by
    unfold readLine
    rw [q2, readComponents, s0]
    simp only
    rw [dif_pos (by norm_num), u2]
    rfl
  have l3 : readLine (dim := 2) exStod false ['1', ',', '0'] = .ok ![1, 0] := by
    unfold readLine
    rw [q3, readComponents, s1]
    simp only
    rw [dif_pos (by norm_num), u1, readComponents, s0]
    simp only
    rw [dif_pos (by norm_num), u3]
    rfl
  have l4 : readLine (dim := 2) exStod false ['0', ',', '1'] = .ok ![0, 1] := by
    unfold readLine
    rw [q4, readComponents, s0]
    simp only
    rw [dif_pos (by norm_num), u2, readComponents, s1]
    simp only
    rw [dif_pos (by norm_num), u4]
    rfl
  have f1 : openFile (dim := 2) exStod true (some ['1', '\n', '0']) = .ok [![1, 0], ![0, 0]] := by
    unfold openFile readFile
    simp only
    rw [p1, readLines, l1, readLines, l2]
    rfl
  have f2 : openFile (dim := 2) exStod false (some ['1', ',', '0']) = .ok [![1, 0]] := by
    unfold openFile readFile
    simp only
    rw [p2, readLines, l3]
    rfl
  have f3 : openFile (dim := 2) exStod false (some ['0', ',', '1']) = .ok [![0, 1]] := by
    unfold openFile readFile
    simp only
    rw [p3, readLines, l4]
    rfl
  refine ⟨⟨[![1, 0], ![0, 0]], [![1, 0]], [![0, 1]]⟩, ?_, ⟨![1, 0], rfl⟩, rfl⟩
  unfold readData
  rw [f1, f2, f3]
  rfl

end Verif.Files
