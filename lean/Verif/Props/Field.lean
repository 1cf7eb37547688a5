import Verif.Model.Field
import Mathlib.Tactic.Linarith
import Mathlib.Tactic.Ring
import Mathlib.Tactic.NormNum
import Mathlib.Tactic.IntervalCases
import Mathlib.Data.Fintype.Basic
import Mathlib.Data.Real.Basic
import Mathlib.Algebra.Order.BigOperators.Group.Finset

/-!
# C44 (component layout) and C45 (degree-of-freedom partition and norms)
-/

namespace Verif.Fld

/-! ## Specification: what a component means -/

/-- A component of the solution: direction `k` of the displacement of crystal `i`, or slip `j` of
crystal `i`. -/
inductive Meaning
  | disp (i k : ℕ)
  | slip (i j : ℕ)
  deriving DecidableEq

/-- The meanings that exist; with continuous displacements there is one displacement field, named
after crystal 0. -/
def SpecExists (L : Layout) : Meaning → Prop
  | .disp i k => (if L.decohesion then i < L.nC else i = 0) ∧ k < L.dim
  | .slip i j => i < L.nC ∧ j < L.nS

/-- The component the extractors assign to a meaning. -/
def extracted (L : Layout) : Meaning → ℕ
  | .disp i k => L.dispExtractor i + k
  | .slip i j => L.slipExtractor i j

/-! ## Helpers -/

theorem lt_block {a b i j : ℕ} (hi : i < a) (hj : j < b) : i * b + j < a * b := by
  calc i * b + j < i * b + b := by omega
    _ = (i + 1) * b := by ring
    _ ≤ a * b := Nat.mul_le_mul_right b hi

theorem block_inj {b i j i' j' : ℕ} (hj : j < b) (hj' : j' < b)
    (h : i * b + j = i' * b + j') : i = i' ∧ j = j' := by
  have hb : 0 < b := by omega
  have h1 : (i * b + j) / b = i := by
    rw [Nat.mul_comm, Nat.mul_add_div hb, Nat.div_eq_of_lt hj, Nat.add_zero]
  have h2 : (i' * b + j') / b = i' := by
    rw [Nat.mul_comm, Nat.mul_add_div hb, Nat.div_eq_of_lt hj', Nat.add_zero]
  have : i = i' := by rw [← h1, ← h2, h]
  subst this
  exact ⟨rfl, by omega⟩

theorem block_surj {a b c : ℕ} (h : c < a * b) : ∃ i j, i < a ∧ j < b ∧ c = i * b + j := by
  have hb : 0 < b := by
    rcases Nat.eq_zero_or_pos b with h0 | h0
    · subst h0; simp at h
    · exact h0
  refine ⟨c / b, c % b, ?_, Nat.mod_lt _ hb, ?_⟩
  · rw [Nat.div_lt_iff_lt_mul hb]; exact h
  · rw [Nat.mul_comm]; exact (Nat.div_add_mod c b).symm

theorem extracted_lt (L : Layout) (m : Meaning) (h : SpecExists L m) :
    extracted L m < L.nTotal := by
  cases m with
  | disp i k =>
    obtain ⟨hi, hk⟩ := h
    unfold extracted Layout.dispExtractor Layout.nTotal Layout.nDisp
    simp only
    split_ifs at hi ⊢ with hd
    · have := lt_block hi hk
      rw [Nat.mul_comm L.dim]; omega
    · omega
  | slip i j =>
    obtain ⟨hi, hj⟩ := h
    have := lt_block hi hj
    unfold extracted Layout.slipExtractor Layout.nTotal Layout.nDisp
    simp only
    rw [Nat.mul_comm L.nS]
    split_ifs with hd
    · rw [Nat.mul_comm L.dim]; omega
    · omega

theorem extracted_disp_lt (L : Layout) (i k : ℕ) (h : SpecExists L (.disp i k)) :
    extracted L (.disp i k) < L.nDisp := by
  obtain ⟨hi, hk⟩ := h
  unfold extracted Layout.dispExtractor Layout.nDisp
  simp only
  split_ifs at hi ⊢ with hd
  · have := lt_block hi hk
    rw [Nat.mul_comm L.dim]; omega
  · omega

theorem extracted_slip_eq (L : Layout) (i j : ℕ) :
    extracted L (.slip i j) = L.nDisp + (i * L.nS + j) := by
  unfold extracted Layout.slipExtractor Layout.nDisp
  simp only
  split_ifs with hd
  · rw [Nat.mul_comm L.dim]; omega
  · omega

/-! ## C44 -/

/-- C44: the extractors are a bijection between the meanings that exist and the components
`0, …, n_components − 1`: no gap and no overlap, in both settings. -/
theorem C44_no_gaps_no_overlaps (L : Layout) :
    (∀ m, SpecExists L m → extracted L m < L.nTotal) ∧
    (∀ m m', SpecExists L m → SpecExists L m' → extracted L m = extracted L m' → m = m') ∧
    (∀ c, c < L.nTotal → ∃ m, SpecExists L m ∧ extracted L m = c) := by
  refine ⟨extracted_lt L, ?_, ?_⟩
  · intro m m' h h' he
    cases m with
    | disp i k =>
      cases m' with
      | disp i' k' =>
        unfold extracted Layout.dispExtractor at he
        obtain ⟨hi, hk⟩ := h
        obtain ⟨hi', hk'⟩ := h'
        simp only at he
        by_cases hd : L.decohesion = true
        · rw [if_pos hd, if_pos hd] at he
          obtain ⟨rfl, rfl⟩ := block_inj hk hk' he
          rfl
        · rw [if_neg hd] at hi hi'
          rw [if_neg hd, if_neg hd] at he
          have : k = k' := by omega
          rw [hi, hi', this]
      | slip i' j' =>
        have := extracted_disp_lt L i k h
        rw [he, extracted_slip_eq] at this
        omega
    | slip i j =>
      cases m' with
      | disp i' k' =>
        have := extracted_disp_lt L i' k' h'
        rw [← he, extracted_slip_eq] at this
        omega
      | slip i' j' =>
        rw [extracted_slip_eq, extracted_slip_eq] at he
        obtain ⟨rfl, rfl⟩ := block_inj h.2 h'.2 (Nat.add_left_cancel he)
        rfl
  · intro c hc
    by_cases hlt : c < L.nDisp
    · unfold Layout.nDisp at hlt
      by_cases hd : L.decohesion = true
      · rw [if_pos hd, Nat.mul_comm] at hlt
        obtain ⟨i, k, hi, hk, rfl⟩ := block_surj hlt
        refine ⟨.disp i k, ⟨by rw [if_pos hd]; exact hi, hk⟩, ?_⟩
        unfold extracted Layout.dispExtractor
        simp only
        rw [if_pos hd]
      · rw [if_neg hd, Nat.mul_one] at hlt
        refine ⟨.disp 0 c, ⟨by rw [if_neg hd], hlt⟩, ?_⟩
        unfold extracted Layout.dispExtractor
        simp only
        rw [if_neg hd]; omega
    · have : c - L.nDisp < L.nC * L.nS := by
        unfold Layout.nTotal at hc; rw [Nat.mul_comm L.nC]; omega
      obtain ⟨i, j, hi, hj, he⟩ := block_surj this
      refine ⟨.slip i j, ⟨hi, hj⟩, ?_⟩
      rw [extracted_slip_eq]; omega

/-- With continuous displacements all crystals share one displacement extractor. -/
theorem C44_shared_displacement (L : Layout) (h : L.decohesion = false) (i : ℕ) :
    L.dispExtractor i = L.dispExtractor 0 := by
  unfold Layout.dispExtractor; rw [h]; rfl

/-- Writes whose values are a function of the address leave every written address with that
value. -/
theorem foldlM_write (f : ℕ → ℕ) (ws : List (ℕ × ℕ)) :
    ∀ m : List ℕ, (∀ w ∈ ws, w.1 < m.length ∧ w.2 = f w.1) →
      ∃ m', ws.foldlM write m = some m' ∧ m'.length = m.length ∧
        ∀ a, (a ∈ ws.map Prod.fst ∨ m[a]? = some (f a)) → m'[a]? = some (f a) := by
  induction ws with
  | nil => intro m _; exact ⟨m, rfl, rfl, fun a h => by simpa using h⟩
  | cons w ws ih =>
    intro m h
    obtain ⟨h1, h2⟩ := h w List.mem_cons_self
    obtain ⟨m', e1, e2, e3⟩ := ih (m.set w.1 w.2) fun x hx => by
      rw [List.length_set]; exact h x (List.mem_cons_of_mem _ hx)
    refine ⟨m', ?_, by rw [e2, List.length_set], fun a ha => e3 a ?_⟩
    · rw [List.foldlM_cons]
      have : write m w = some (m.set w.1 w.2) := by unfold write; rw [if_pos h1]
      rw [this]; exact e1
    · by_cases haw : a = w.1
      · subst haw
        right
        rw [List.getElem?_set_self h1, h2]
      · rcases ha with ha | ha
        · left
          simp only [List.map_cons, List.mem_cons] at ha
          exact ha.resolve_left haw
        · right
          rw [List.getElem?_set_ne (fun h => haw h.symm)]; exact ha

/-- The value every slot should hold. -/
def slotValue (L : Layout) (c : ℕ) : ℕ :=
  if c < L.nDisp then (if L.dim = 0 then 0 else c % L.dim) else L.dim + (c - L.nDisp) % L.nS

theorem slotValue_disp (L : Layout) (i k : ℕ) (h : SpecExists L (.disp i k)) :
    slotValue L (extracted L (.disp i k)) = k := by
  have hlt := extracted_disp_lt L i k h
  unfold slotValue
  rw [if_pos hlt, if_neg (by have := h.2; omega)]
  unfold extracted Layout.dispExtractor
  simp only
  split_ifs
  · rw [Nat.add_comm, Nat.add_mul_mod_self_right, Nat.mod_eq_of_lt h.2]
  · rw [Nat.zero_add, Nat.mod_eq_of_lt h.2]

theorem slotValue_slip (L : Layout) (i j : ℕ) (h : SpecExists L (.slip i j)) :
    slotValue L (extracted L (.slip i j)) = L.dim + j := by
  rw [extracted_slip_eq]
  unfold slotValue
  rw [if_neg (by omega), Nat.add_sub_cancel_left, Nat.add_comm (i * L.nS),
    Nat.add_mul_mod_self_right, Nat.mod_eq_of_lt h.2]

theorem mem_writes (L : Layout) (w : ℕ × ℕ) : w ∈ L.mappingWrites ↔
    ∃ i < L.nC, (∃ k < L.dim, w = (extracted L (.disp i k), k)) ∨
      (∃ j < L.nS, w = (extracted L (.slip i j), L.dim + j)) := by
  unfold Layout.mappingWrites extracted Layout.dispExtractor Layout.slipExtractor
  simp only [List.mem_flatMap, List.mem_range, List.mem_append, List.mem_map]
  constructor
  · rintro ⟨i, hi, ⟨k, hk, rfl⟩ | ⟨j, hj, rfl⟩⟩
    · refine ⟨i, hi, Or.inl ⟨k, hk, ?_⟩⟩
      split_ifs <;> simp
    · exact ⟨i, hi, Or.inr ⟨j, hj, rfl⟩⟩
  · rintro ⟨i, hi, ⟨k, hk, rfl⟩ | ⟨j, hj, rfl⟩⟩
    · refine ⟨i, hi, Or.inl ⟨k, hk, ?_⟩⟩
      split_ifs <;> simp
    · exact ⟨i, hi, Or.inr ⟨j, hj, rfl⟩⟩

theorem mappingSize_eq (L : Layout) : L.mappingSize = L.nTotal := by
  unfold Layout.mappingSize Layout.nTotal Layout.nDisp
  split_ifs
  · ring
  · ring

/-- C44: filling the component lookup stays inside the table, and the lookup returns the direction
of a displacement component and `dim` plus the slip id of a slip component, of every crystal. -/
theorem C44_lookup (L : Layout) (hC : 0 < L.nC) :
    (∃ m, L.mapping = some m ∧ m.length = L.nTotal) ∧
    (∀ i k, SpecExists L (.disp i k) → L.globalComponent (L.dispExtractor i + k) = some k) ∧
    (∀ i j, i < L.nC → j < L.nS → L.globalComponent (L.slipExtractor i j) = some (L.dim + j)) := by
  have hw : ∀ w ∈ L.mappingWrites,
      w.1 < (List.replicate L.mappingSize 0).length ∧ w.2 = slotValue L w.1 := by
    intro w hw
    rw [List.length_replicate, mappingSize_eq]
    obtain ⟨i, hi, ⟨k, hk, rfl⟩ | ⟨j, hj, rfl⟩⟩ := (mem_writes L w).1 hw
    · by_cases hd : L.decohesion = true
      · have hs : SpecExists L (.disp i k) := ⟨by rw [if_pos hd]; exact hi, hk⟩
        exact ⟨extracted_lt L _ hs, (slotValue_disp L i k hs).symm⟩
      · have hs : SpecExists L (.disp 0 k) := ⟨by rw [if_neg hd], hk⟩
        have e : extracted L (.disp i k) = extracted L (.disp 0 k) := by
          unfold extracted
          simp only
          rw [C44_shared_displacement L (by simpa using hd) i]
        rw [e]
        exact ⟨extracted_lt L _ hs, (slotValue_disp L 0 k hs).symm⟩
    · have hs : SpecExists L (.slip i j) := ⟨hi, hj⟩
      exact ⟨extracted_lt L _ hs, (slotValue_slip L i j hs).symm⟩
  obtain ⟨m, h1, h2, h3⟩ := foldlM_write (slotValue L) L.mappingWrites _ hw
  have hm : L.mapping = some m := h1
  refine ⟨⟨m, hm, by rw [h2, List.length_replicate, mappingSize_eq]⟩, ?_, ?_⟩
  · intro i k h
    unfold Layout.globalComponent
    rw [hm]
    change m[extracted L (.disp i k)]? = some k
    rw [h3, slotValue_disp L i k h]
    left
    have hi : i < L.nC := by
      have := h.1
      split_ifs at this
      · exact this
      · omega
    exact List.mem_map.2 ⟨(extracted L (.disp i k), k),
      (mem_writes L _).2 ⟨i, hi, Or.inl ⟨k, h.2, rfl⟩⟩, rfl⟩
  · intro i j hi hj
    unfold Layout.globalComponent
    rw [hm]
    change m[extracted L (.slip i j)]? = some (L.dim + j)
    rw [h3, slotValue_slip L i j ⟨hi, hj⟩]
    left
    exact List.mem_map.2 ⟨(extracted L (.slip i j), L.dim + j),
      (mem_writes L _).2 ⟨i, hi, Or.inr ⟨j, hj, rfl⟩⟩, rfl⟩

/-- The test `get_global_component(...) < dim` by which all of the assembly decides whether a degree
of freedom is a displacement one is right for every component. -/
theorem C44_lookup_decides (L : Layout) (hC : 0 < L.nC) (m : Meaning) (h : SpecExists L m) :
    ∃ g, L.globalComponent (extracted L m) = some g ∧
      (g < L.dim ↔ ∃ i k, m = .disp i k) := by
  obtain ⟨_, h1, h2⟩ := C44_lookup L hC
  cases m with
  | disp i k => exact ⟨k, h1 i k h, by simp [h.2]⟩
  | slip i j => exact ⟨L.dim + j, h2 i j h.1 h.2, by simp⟩

theorem getElem?_flatMap_const {α : Type*} (f : ℕ → α) (b : ℕ) :
    ∀ (a i j : ℕ), i < a → j < b →
      ((List.range a).flatMap fun i => (List.range b).map fun _ => f i)[i * b + j]? = some (f i) := by
  intro a
  induction a with
  | zero => intro i j hi; omega
  | succ a ih =>
    intro i j hi hj
    rw [List.range_succ, List.flatMap_append]
    have hlen : ((List.range a).flatMap fun i => (List.range b).map fun _ => f i).length = a * b := by
      simp [List.length_flatMap]
    by_cases h : i < a
    · rw [List.getElem?_append_left (by rw [hlen]; exact lt_block h hj)]
      exact ih i j h hj
    · have : i = a := by omega
      subst this
      rw [List.getElem?_append_right (by rw [hlen]; omega), hlen]
      simp [hj]

/-- C44: the finite element of crystal `i` has shape functions in exactly the components that its
own extractors address; the components of other crystals are empty. -/
theorem C44_elements (L : Layout) (i : ℕ) (m : Meaning) (h : SpecExists L m) :
    (L.elements i)[extracted L m]? = some (match m with
      | .disp i' _ => if L.decohesion = false ∨ i = i' then Elem.disp else Elem.nothing
      | .slip i' _ => if i = i' then Elem.slip else Elem.nothing) := by
  have hA : (if L.decohesion then
      (List.range L.nC).flatMap fun j =>
        (List.range L.dim).map fun _ => if i = j then Elem.disp else Elem.nothing
     else (List.range L.dim).map fun _ => Elem.disp).length = L.nDisp := by
    unfold Layout.nDisp
    split_ifs
    · simp [List.length_flatMap, Nat.mul_comm]
    · simp
  unfold Layout.elements
  cases m with
  | disp i' k =>
    rw [List.getElem?_append_left (by rw [hA]; exact extracted_disp_lt L i' k h)]
    unfold extracted Layout.dispExtractor
    simp only
    by_cases hd : L.decohesion = true
    · rw [if_pos hd, if_pos hd]
      have h1 : i' < L.nC := by have := h.1; rwa [if_pos hd] at this
      rw [getElem?_flatMap_const (fun j => if i = j then Elem.disp else Elem.nothing) L.dim L.nC i' k
        h1 h.2, hd]
      simp
    · rw [if_neg hd, if_neg hd]
      have hd' : L.decohesion = false := by simpa using hd
      rw [if_pos (Or.inl hd')]
      simp [h.2]
  | slip i' j =>
    rw [List.getElem?_append_right (by rw [hA, extracted_slip_eq]; omega), hA, extracted_slip_eq,
      Nat.add_sub_cancel_left]
    exact getElem?_flatMap_const (fun j => if i = j then Elem.slip else Elem.nothing) L.nS L.nC i' j
      h.1 h.2

/-- C44: the block table puts exactly the displacement components into block 0 and the slips into
block 1. -/
theorem C44_blocks (L : Layout) (m : Meaning) (h : SpecExists L m) :
    L.blockComponent[extracted L m]? = some (match m with | .disp _ _ => 0 | .slip _ _ => 1) := by
  have hlt := extracted_lt L m h
  unfold Layout.blockComponent
  rw [List.getElem?_map, List.getElem?_range hlt]
  cases m with
  | disp i k =>
    have := extracted_disp_lt L i k h
    simp only [Option.map_some]
    rw [if_neg (by omega)]
  | slip i j =>
    simp only [Option.map_some]
    rw [if_pos (by rw [extracted_slip_eq]; omega)]

/-- Non-vacuity: two crystals with 12 slips in 3D: slip 5 of crystal 1 with and without
decohesion. -/
example : SpecExists ⟨3, 2, 12, true⟩ (.slip 1 5) ∧
    extracted ⟨3, 2, 12, true⟩ (.slip 1 5) = 23 ∧ extracted ⟨3, 2, 12, false⟩ (.slip 1 5) = 20 ∧
    (⟨3, 2, 12, true⟩ : Layout).globalComponent 23 = some 8 := by
  refine ⟨⟨by decide, by decide⟩, rfl, rfl, ?_⟩
  exact (C44_lookup ⟨3, 2, 12, true⟩ (by decide)).2.2 1 5 (by decide) (by decide)

/-! ## C45 -/

theorem mem_ownedSlip (owned : Finset ℕ) (ex : ℕ → Finset ℕ) (nC d : ℕ) :
    d ∈ ownedSlip owned ex nC ↔ d ∈ owned ∧ ∀ c < nC, d ∉ ex c := by
  unfold ownedSlip
  induction nC with
  | zero => simp
  | succ k ih =>
    rw [List.range_succ, List.foldl_append]
    simp only [List.foldl_cons, List.foldl_nil, Finset.mem_sdiff, ih]
    constructor
    · rintro ⟨⟨h1, h2⟩, h3⟩
      refine ⟨h1, fun c hc => ?_⟩
      rcases Nat.lt_succ_iff_lt_or_eq.1 hc with h | rfl
      · exact h2 c h
      · exact h3
    · rintro ⟨h1, h2⟩
      exact ⟨⟨h1, fun c hc => h2 c (by omega)⟩, h2 k (by omega)⟩

/-- C45: every owned degree of freedom is a displacement or a slip one and never both; the
displacement ones are the owned ones that belong to some crystal's displacement. -/
theorem C45_partition (owned : Finset ℕ) (ex : ℕ → Finset ℕ) (nC : ℕ) :
    (∀ d, d ∈ owned ↔ (d ∈ ownedDisp owned ex nC ∨ d ∈ ownedSlip owned ex nC)) ∧
    (∀ d, ¬ (d ∈ ownedDisp owned ex nC ∧ d ∈ ownedSlip owned ex nC)) ∧
    (∀ d, d ∈ ownedDisp owned ex nC ↔ d ∈ owned ∧ ∃ c < nC, d ∈ ex c) := by
  refine ⟨fun d => ?_, fun d => ?_, fun d => ?_⟩
  · unfold ownedDisp
    rw [Finset.mem_sdiff]
    constructor
    · intro h
      by_cases hs : d ∈ ownedSlip owned ex nC
      · exact Or.inr hs
      · exact Or.inl ⟨h, hs⟩
    · rintro (h | h)
      · exact h.1
      · exact ((mem_ownedSlip owned ex nC d).1 h).1
  · unfold ownedDisp
    rw [Finset.mem_sdiff]
    rintro ⟨h1, h2⟩
    exact h1.2 h2
  · unfold ownedDisp
    rw [Finset.mem_sdiff, mem_ownedSlip]
    constructor
    · rintro ⟨h1, h2⟩
      refine ⟨h1, ?_⟩
      by_contra hne
      exact h2 ⟨h1, fun c hc hd => hne ⟨c, hc, hd⟩⟩
    · rintro ⟨h1, c, hc, hd⟩
      exact ⟨h1, fun h => h.2 c hc hd⟩

theorem sum_split (p : Proc) (nC : ℕ) (v : ℕ → ℝ) :
    ∑ i ∈ p.owned, v i * v i = ∑ i ∈ ownedDisp p.owned p.extracted nC, v i * v i +
      ∑ i ∈ ownedSlip p.owned p.extracted nC, v i * v i := by
  have hsub : ownedSlip p.owned p.extracted nC ⊆ p.owned := fun d hd =>
    ((mem_ownedSlip _ _ _ _).1 hd).1
  unfold ownedDisp
  exact (Finset.sum_sdiff hsub).symm

theorem list_sum_add {α : Type*} (l : List α) (f g h : α → ℝ) (e : ∀ a, f a = g a + h a) :
    (l.map f).sum = (l.map g).sum + (l.map h).sum := by
  induction l with
  | nil => simp
  | cons a l ih => simp only [List.map_cons, List.sum_cons, ih, e a]; ring

theorem list_sum_nonneg {α : Type*} (l : List α) (f : α → ℝ) (h : ∀ a, 0 ≤ f a) :
    0 ≤ (l.map f).sum := by
  induction l with
  | nil => simp
  | cons a l ih => simp only [List.map_cons, List.sum_cons]; linarith [h a]

theorem sq_sum_nonneg (s : Finset ℕ) (v : ℕ → ℝ) : 0 ≤ ∑ i ∈ s, v i * v i :=
  Finset.sum_nonneg fun _ _ => mul_self_nonneg _

/-- C45, single block: the squared sub-norms add up to the squared norm, for every distribution
over processes. -/
theorem C45_norms_single (procs : List Proc) (nC : ℕ) (v : ℕ → ℝ) :
    (subNormsSingle procs nC v 1).1 ^ 2 + (subNormsSingle procs nC v 1).2 ^ 2 =
      l2Norm procs v ^ 2 ∧ 0 ≤ (subNormsSingle procs nC v 1).1 ∧
      0 ≤ (subNormsSingle procs nC v 1).2 := by
  unfold subNormsSingle l2Norm
  simp only [div_one]
  rw [Real.sq_sqrt (list_sum_nonneg _ _ fun p => sq_sum_nonneg _ v),
    Real.sq_sqrt (list_sum_nonneg _ _ fun p => sq_sum_nonneg _ v),
    Real.sq_sqrt (list_sum_nonneg _ _ fun p => sq_sum_nonneg _ v)]
  exact ⟨(list_sum_add procs _ _ _ fun p => sum_split p nC v).symm, Real.sqrt_nonneg _,
    Real.sqrt_nonneg _⟩

/-- C45, two blocks: the same. -/
theorem C45_norms_blocks (procs : List Proc) (n0 : ℕ) (v : ℕ → ℝ) :
    (subNormsBlocks procs n0 v 1).1 ^ 2 + (subNormsBlocks procs n0 v 1).2 ^ 2 =
      l2Norm procs v ^ 2 ∧ 0 ≤ (subNormsBlocks procs n0 v 1).1 ∧
      0 ≤ (subNormsBlocks procs n0 v 1).2 := by
  unfold subNormsBlocks l2Norm
  simp only [div_one]
  rw [Real.sq_sqrt (list_sum_nonneg _ _ fun p => sq_sum_nonneg _ v),
    Real.sq_sqrt (list_sum_nonneg _ _ fun p => sq_sum_nonneg _ v),
    Real.sq_sqrt (list_sum_nonneg _ _ fun p => sq_sum_nonneg _ v)]
  refine ⟨(list_sum_add procs _ _ _ fun p => ?_).symm, Real.sqrt_nonneg _, Real.sqrt_nonneg _⟩
  have := Finset.sum_filter_add_sum_filter_not p.owned (· < n0) (fun i => v i * v i)
  rw [← this]
  congr 1
  refine Finset.sum_congr ?_ fun _ _ => rfl
  ext i; simp

/-- C45: when the degrees of freedom are numbered block-wise (displacements first, the contract of
`DoFRenumbering::component_wise`), both layouts report the same two numbers, for every factor. -/
theorem C45_layouts_agree (procs : List Proc) (nC n0 : ℕ) (v : ℕ → ℝ) (factor : ℝ)
    (h : ∀ p ∈ procs, ∀ d ∈ p.owned, (∃ c < nC, d ∈ p.extracted c) ↔ d < n0) :
    subNormsSingle procs nC v factor = subNormsBlocks procs n0 v factor := by
  have e1 : ∀ p ∈ procs, ownedDisp p.owned p.extracted nC = p.owned.filter (· < n0) := by
    intro p hp
    ext d
    rw [(C45_partition p.owned p.extracted nC).2.2 d, Finset.mem_filter]
    constructor
    · rintro ⟨a, b⟩; exact ⟨a, (h p hp d a).1 b⟩
    · rintro ⟨a, b⟩; exact ⟨a, (h p hp d a).2 b⟩
  have e2 : ∀ p ∈ procs, ownedSlip p.owned p.extracted nC = p.owned.filter (n0 ≤ ·) := by
    intro p hp
    ext d
    rw [mem_ownedSlip, Finset.mem_filter]
    constructor
    · rintro ⟨a, b⟩
      refine ⟨a, ?_⟩
      by_contra hlt
      obtain ⟨c, hc, hd⟩ := (h p hp d a).2 (by omega)
      exact b c hc hd
    · rintro ⟨a, b⟩
      refine ⟨a, fun c hc hd => ?_⟩
      have := (h p hp d a).1 ⟨c, hc, hd⟩
      omega
  unfold subNormsSingle subNormsBlocks
  congr 2
  · congr 2
    exact List.map_congr_left fun p hp => by rw [e1 p hp]
  · congr 1
    exact List.map_congr_left fun p hp => by rw [e2 p hp]

/-- C45: distributing the owned degrees of freedom over processes differently does not change the
norm. -/
theorem C45_distribution (p q : Finset ℕ) (hpq : Disjoint p q) (ex : ℕ → Finset ℕ) (v : ℕ → ℝ) :
    l2Norm [⟨p, ex⟩, ⟨q, ex⟩] v = l2Norm [⟨p ∪ q, ex⟩] v := by
  unfold l2Norm
  simp [Finset.sum_union hpq]

/-- Non-vacuity: two processes, four degrees of freedom, the first two displacements: sub-norms 5
and 13. -/
example : ∃ (procs : List Proc) (v : ℕ → ℝ),
    (∀ p ∈ procs, ∀ d ∈ p.owned, (∃ c < 1, d ∈ p.extracted c) ↔ d < 2) ∧
    subNormsSingle procs 1 v 1 = (5, 13) := by
  refine ⟨[⟨{0, 2}, fun _ => {0, 1}⟩, ⟨{1, 3}, fun _ => {0, 1}⟩],
    fun i => if i = 0 then 3 else if i = 1 then 4 else if i = 2 then 5 else 12, ?_, ?_⟩
  · intro p hp
    simp only [List.mem_cons, List.not_mem_nil, or_false] at hp
    rcases hp with rfl | rfl <;> simp
  · rw [C45_layouts_agree _ 1 2 _ 1]
    · have e5 : √(25 : ℝ) = 5 := by
        rw [show (25 : ℝ) = 5 * 5 by norm_num]; exact Real.sqrt_mul_self (by norm_num)
      have e13 : √(169 : ℝ) = 13 := by
        rw [show (169 : ℝ) = 13 * 13 by norm_num]; exact Real.sqrt_mul_self (by norm_num)
      unfold subNormsBlocks
      simp [Finset.filter_insert, Finset.filter_singleton]
      norm_num [e5, e13]
    · intro p hp
      simp only [List.mem_cons, List.not_mem_nil, or_false] at hp
      rcases hp with rfl | rfl <;> simp

/-- The solution of the previous and the one before the previous step are the last two accepted
ones, after any number of steps. -/
theorem C45_previous_solutions {V : Type*} (s : Sols V) (vs : List V) (a b : V) :
    let r := (vs ++ [a, b]).foldl Sols.step s
    r.old = b ∧ r.oldOld = a := by
  intro r
  simp only [r, List.foldl_append, List.foldl_cons, List.foldl_nil]
  exact ⟨rfl, rfl⟩

end Verif.Fld
