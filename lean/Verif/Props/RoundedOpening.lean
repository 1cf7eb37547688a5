import Verif.Model.RoundedOpening
import Verif.Props.RoundedHistory

/-!
# C122, C123: the effective opening in double precision

Both cells of a face compute the opening with opposite signs of opening and normal and write to the same
record; and the opening is computed by one formula when it is measured and by another one when it is
recorded.  Here both are followed operation by operation.
-/

namespace Verif.Fp
open Cry Itf Hist

/-- Rounding treats positive and negative numbers alike, as the default rounding mode does. -/
def SpecOdd (fl : ℝ → ℝ) : Prop := ∀ x, fl (-x) = -fl x

section
variable {fl : ℝ → ℝ} (hfl : IsRounding fl) (ho : SpecOdd fl)

theorem contract_fold_neg (ho : SpecOdd fl) {d : ℕ} (a b c e : Vec d)
    (h : ∀ i, c i * e i = -(a i * b i)) (l : List (Fin d)) (s : ℝ) :
    l.foldl (fun s i => fl (s + fl (c i * e i))) (-s) =
      -l.foldl (fun s i => fl (s + fl (a i * b i))) s := by
  induction l generalizing s with
  | nil => rfl
  | cons i l ih =>
    simp only [List.foldl_cons]
    rw [← ih, h, ho, ← neg_add, ho]

theorem contract_neg_right (ho : SpecOdd fl) {d : ℕ} (a b : Vec d) :
    contract fl a (fun i => -b i) = -contract fl a b := by
  have := contract_fold_neg ho a b a (fun i => -b i) (fun i => by ring) (List.finRange d) 0
  rw [neg_zero] at this
  exact this

theorem contract_neg_both {d : ℕ} (a b : Vec d) :
    contract fl (fun i => -a i) (fun i => -b i) = contract fl a b := by
  simp only [contract, neg_mul_neg]

theorem normOf_neg {d : ℕ} (a : Vec d) : normOf fl (fun i => -a i) = normOf fl a := by
  rw [normOf, contract_neg_both, normOf]

theorem normalPart_neg {d : ℕ} (n : Vec d) : normalPart fl (fun i => -n i) = normalPart fl n := by
  ext i j
  simp only [normalPart, Matrix.of_apply, neg_mul_neg]

theorem tangentialPart_neg {d : ℕ} (n : Vec d) :
    tangentialPart fl (fun i => -n i) = tangentialPart fl n := by
  rw [tangentialPart, normalPart_neg, tangentialPart]

theorem applyTo_neg (ho : SpecOdd fl) {d : ℕ} (m : Mat d) (v : Vec d) :
    applyTo fl m (fun i => -v i) = fun i => -applyTo fl m v i := by
  funext i
  exact contract_neg_right ho _ _

theorem measured_flip (ho : SpecOdd fl) {d : ℕ} (ratio : ℝ) (δ n : Vec d) :
    measuredOpening fl ratio (fun i => -δ i) (fun i => -n i) = measuredOpening fl ratio δ n := by
  rw [measuredOpening, contract_neg_both, tangentialPart_neg, applyTo_neg ho, normOf_neg,
    measuredOpening]

theorem difference_flip (ho : SpecOdd fl) (x y : ℝ) : fl (x - y) = -fl (y - x) := by
  rw [← ho, neg_sub]

theorem recorded_flip (ho : SpecOdd fl) {d : ℕ} (ratio : ℝ) (u v n : Vec d) :
    recordedOpening fl ratio v u (fun i => -n i) = recordedOpening fl ratio u v n := by
  have h : (fun i => fl (u i - v i)) = fun i => -fl (v i - u i) :=
    funext fun i => difference_flip ho _ _
  simp only [recordedOpening]
  rw [h, normalPart_neg, tangentialPart_neg, applyTo_neg ho, applyTo_neg ho, normOf_neg, normOf_neg]

theorem seen_side (ho : SpecOdd fl) {d : ℕ} (f : Point d) (u : Bool → Vec d) (side : Bool) :
    f.seen fl u side = f.seen fl u false := by
  cases side
  · rfl
  · simp only [Point.seen, Point.normalOf, if_true, Bool.not_true, Bool.not_false,
      Bool.false_eq_true, if_false]
    rw [← measured_flip ho]
    congr 1
    · exact funext fun i => (difference_flip ho _ _).symm
    · simp

theorem kept_side (ho : SpecOdd fl) {d : ℕ} (f : Point d) (u : Bool → Vec d) (side : Bool) :
    f.kept fl u side = f.kept fl u false := by
  cases side
  · rfl
  · simp only [Point.kept, Point.normalOf, if_true, Bool.not_true, Bool.not_false,
      Bool.false_eq_true, if_false]
    exact recorded_flip ho _ _ _ _

/-- **C122.** Both cells of a face measure the same effective opening, bit by bit, and record the same
one. -/
theorem C122_sides (ho : SpecOdd fl) {d : ℕ} (f : Point d) (u : Bool → Vec d) (side side' : Bool) :
    f.seen fl u side = f.seen fl u side' ∧ f.kept fl u side = f.kept fl u side' := by
  rw [seen_side ho f u side, seen_side ho f u side', kept_side ho f u side, kept_side ho f u side']
  exact ⟨rfl, rfl⟩

theorem visit_side (ho : SpecOdd fl) (expf : ℝ → ℝ) {d : ℕ} (f : Point d) (c : Visit d) (r : Iface)
    (side : Bool) : f.visit fl expf c r side = f.visit fl expf c r false := by
  cases c with
  | prepare => rfl
  | reset => rfl
  | evaluate u => simp only [Point.visit, seen_side ho f u side]
  | record u => simp only [Point.visit, kept_side ho f u side]

theorem visit_twice (expf : ℝ → ℝ) {d : ℕ} (f : Point d) (c : Visit d) (r : Iface)
    (side : Bool) : f.visit fl expf c (f.visit fl expf c r side) side = f.visit fl expf c r side := by
  cases c <;> rfl

theorem visits (ho : SpecOdd fl) (expf : ℝ → ℝ) {d : ℕ} (f : Point d) (c : Visit d)
    (l : List Bool) (r : Iface) (hl : l ≠ []) :
    l.foldl (f.visit fl expf c) r = f.visit fl expf c r false := by
  induction l generalizing r with
  | nil => exact absurd rfl hl
  | cons side l ih =>
    rw [List.foldl_cons, visit_side ho]
    by_cases h : l = []
    · rw [h, List.foldl_nil]
    · rw [ih _ h, visit_twice]

/-- **C122.** The record of a face depends on the calls only: which of the two cells visit it, how often and
in which order does not change a bit. -/
theorem C122_schedule (ho : SpecOdd fl) (expf : ℝ → ℝ) {d : ℕ} (f : Point d)
    (calls calls' : List (Visit d × List Bool)) (same : calls.map Prod.fst = calls'.map Prod.fst)
    (visited : ∀ c ∈ calls, c.2 ≠ []) (visited' : ∀ c ∈ calls', c.2 ≠ []) :
    f.recordOf fl expf calls = f.recordOf fl expf calls' := by
  unfold Point.recordOf
  generalize Iface.new = r
  induction calls generalizing calls' r with
  | nil =>
    cases calls' with
    | nil => rfl
    | cons c l => simp at same
  | cons c l ih =>
    cases calls' with
    | nil => simp at same
    | cons c' l' =>
      simp only [List.map_cons, List.cons.injEq] at same
      simp only [List.foldl_cons]
      rw [visits ho expf f c.1 c.2 r (visited c (List.mem_cons_self ..)),
        visits ho expf f c'.1 c'.2 r (visited' c' (List.mem_cons_self ..)), same.1]
      exact ih l' same.2 (fun x hx => visited x (List.mem_cons_of_mem _ hx))
        (fun x hx => visited' x (List.mem_cons_of_mem _ hx)) _

/-- **C122.** After an evaluation neither cell sees an opening above the recorded maximum, and a cell
finds its opening equal to the maximum exactly if the opening is not below the maximum before the step:
the comparison of doubles by `==` decides as intended, whichever cell wrote last. -/
theorem C122_maximum (ho : SpecOdd fl) (expf : ℝ → ℝ) {d : ℕ} (f : Point d)
    (calls : List (Visit d × List Bool)) (u : Bool → Vec d) (cells : List Bool) (visited : cells ≠ [])
    (side : Bool) :
    let before := f.recordOf fl expf calls
    let after := f.recordOf fl expf (calls ++ [(Visit.evaluate u, cells)])
    f.seen fl u side ≤ after.maxOpening ∧
      (f.seen fl u side = after.maxOpening ↔ before.tmpMax ≤ f.seen fl u side) := by
  intro before after
  have h : after.maxOpening = max before.tmpMax (f.seen fl u side) := by
    show (f.recordOf fl expf (calls ++ [(Visit.evaluate u, cells)])).maxOpening = _
    unfold Point.recordOf
    rw [List.foldl_append]
    simp only [List.foldl_cons, List.foldl_nil]
    rw [visits ho expf f _ cells _ visited, seen_side ho f u side]
    rfl
  rw [h]
  refine ⟨le_max_right _ _, ?_⟩
  constructor
  · intro e
    rw [e]
    exact le_max_left _ _
  · intro e
    exact (max_eq_right e).symm


/-! ## Square root of a square -/

theorem isDouble_two_mul {x : ℝ} (h : IsDouble x) : IsDouble (x + x) := by
  obtain ⟨m, e, h1, h2, h3⟩ := h
  refine ⟨m, e + 1, h1, by omega, ?_⟩
  rw [h3, pow_split]
  norm_num
  ring

theorem root_square_pos (hfl : IsRounding fl) {x : ℝ} (hx : IsDouble x) (hb : (2 : ℝ) ^ (-400 : ℤ) ≤ x) :
    fl √(fl (x * x)) = x := by
  have hx0 : 0 < x := (pow_pos2 _).trans_le hb
  have habs : |x| = x := abs_of_pos hx0
  have hlog : (-400 : ℤ) ≤ Int.log 2 x := by
    rw [← Int.zpow_le_iff_le_log (by norm_num) hx0]
    exact_mod_cast hb
  have hg : exponent x = Int.log 2 x - 52 := by
    rw [exponent, habs]
    exact max_eq_left (by omega)
  have hlow : (2 : ℝ) ^ (Int.log 2 x) ≤ x := by
    have := (Int.zpow_le_iff_le_log (b := 2) (x := Int.log 2 x) (r := x) (by norm_num) hx0).mpr le_rfl
    exact_mod_cast this
  have hup := exponent_lt x
  rw [habs] at hup
  set g := exponent x with hgdef
  have hlow' : 2 ^ 52 * (2 : ℝ) ^ g ≤ x := by
    have : (2 : ℝ) ^ (Int.log 2 x) = 2 ^ g * 2 ^ (52 : ℤ) := by
      rw [← pow_split]
      congr 1
      omega
    rw [this] at hlow
    norm_num at hlow ⊢
    linarith
  have hp := pow_pos2 g
  have hk : ∃ k : ℤ, x = k * (2 : ℝ) ^ g := by
    rcases double_cases hx g with h | h
    · exact h
    · have h2 := h.2
      rw [habs] at h2
      refine ⟨2 ^ 52, ?_⟩
      push_cast
      linarith
  obtain ⟨k, hk⟩ := hk
  have k1 : (2 ^ 52 : ℝ) ≤ k := by
    rw [hk] at hlow'
    exact le_of_mul_le_mul_right hlow' hp
  have k2 : (k : ℝ) < 2 ^ 53 := by
    rw [hk] at hup
    exact lt_of_mul_lt_mul_right hup hp.le
  have k1' : (2 ^ 52 : ℤ) ≤ k := by exact_mod_cast k1
  have k2' : k < (2 ^ 53 : ℤ) := by exact_mod_cast k2
  rcases k1'.eq_or_lt with he | hlt
  · have hsq : IsDouble (x * x) := by
      refine ⟨1, 2 * g + 104, by norm_num, by omega, ?_⟩
      rw [hk, ← he, two_mul, pow_split, pow_split]
      norm_num
      ring
    rw [fl_double hfl hsq, Real.sqrt_mul_self hx0.le, fl_double hfl hx]
  · have k3 : (k : ℝ) ≤ 2 ^ 53 - 1 := by
      have : k ≤ 2 ^ 53 - 1 := by omega
      exact_mod_cast this
    have herr := fl_err hfl (x * x)
    rw [abs_of_nonneg (mul_self_nonneg x)] at herr
    have htiny : tiny ≤ (2 : ℝ) ^ g * 2 ^ g / 16 := by
      have h1 : (2 : ℝ) ^ (-1000 : ℤ) ≤ (2 : ℝ) ^ g * 2 ^ g / 16 := by
        have : (2 : ℝ) ^ g * 2 ^ g / 16 = 2 ^ (g + g - 4) := by
          rw [show g + g - 4 = g + g + (-4) by ring, pow_split, pow_split]
          norm_num
          ring
        rw [this]
        exact zpow_le_zpow_right₀ (by norm_num) (by omega)
      exact (tiny_le (by norm_num)).trans h1
    set y := fl (x * x)
    set q := (2 : ℝ) ^ g with hq
    rw [hk] at herr
    obtain ⟨e1, e2⟩ := abs_le.mp herr
    have e3 : k * q * (k * q) = k * k * (q * q) := by ring
    rw [e3] at e1 e2
    have hqq : 0 < q * q := mul_pos hp hp
    have hku : unit * (k * k) ≤ k - 1 / 2 := by
      have u1 : unit * (k * k) = (k / 2 ^ 53) * k := by
        rw [unit]; ring
      rw [u1]
      have : (k : ℝ) / 2 ^ 53 ≤ 1 - 1 / 2 ^ 53 := by
        rw [div_le_iff₀ (by norm_num)]
        norm_num
        norm_num at k3
        linarith
      have h3 := mul_le_mul_of_nonneg_right this (show (0 : ℝ) ≤ k by linarith)
      have h4 : (k : ℝ) / 2 ^ 53 ≥ 1 / 2 := by
        rw [ge_iff_le, div_le_div_iff₀ (by norm_num) (by norm_num)]
        norm_num
        norm_num at k1
        linarith
      nlinarith
    have e4 : unit * (k * k * (q * q)) ≤ (k - 1 / 2) * (q * q) := by
      rw [← mul_assoc]
      exact mul_le_mul_of_nonneg_right hku hqq.le
    have h := fl_eq hfl (x := √y) k g (by rw [abs_of_pos (by omega)]; exact hlt)
      (by rw [abs_of_pos (by omega)]; omega) (by omega) ?_
    · rw [h, ← hq, ← hk]
    · rw [abs_lt]
      have l1 : k * q - q / 2 < √y := by
        apply Real.lt_sqrt_of_sq_lt
        have : (k * q - q / 2) ^ 2 = (k * k - k + 1 / 4) * (q * q) := by ring
        rw [this]
        nlinarith
      have l2 : √y < k * q + q / 2 := by
        rw [Real.sqrt_lt' (by nlinarith)]
        have : (k * q + q / 2) ^ 2 = (k * k + k + 1 / 4) * (q * q) := by ring
        rw [this]
        nlinarith
      constructor <;> linarith

/-- In double precision `sqrt(x * x)` is `|x|`, unless the square is close to underflow. -/
theorem root_square (hfl : IsRounding fl) {x : ℝ} (hx : IsDouble x)
    (hb : x = 0 ∨ (2 : ℝ) ^ (-400 : ℤ) ≤ |x|) : fl √(fl (x * x)) = |x| := by
  rcases hb with rfl | hb
  · rw [mul_zero, fl_zero hfl, Real.sqrt_zero, fl_zero hfl, abs_zero]
  · rcases abs_choice x with h | h
    · rw [h] at hb ⊢
      exact root_square_pos hfl hx hb
    · rw [h] at hb ⊢
      rw [← root_square_pos hfl (isDouble_neg hx) hb, neg_mul_neg]


/-! ## Boundaries along an axis -/

/-- Sums with one term. -/
theorem fold_single (hfl : IsRounding fl) {d : ℕ} (k : Fin d) (t : Fin d → ℝ)
    (h : ∀ i, i ≠ k → t i = 0) (l : List (Fin d)) (s : ℝ) (hs : IsDouble s) (hl : k ∉ l) :
    l.foldl (fun s i => fl (s + fl (t i))) s = s := by
  induction l with
  | nil => rfl
  | cons i l ih =>
    simp only [List.mem_cons, not_or] at hl
    rw [List.foldl_cons, h i (fun e => hl.1 e.symm), fl_zero hfl, add_zero, fl_double hfl hs]
    exact ih hl.2

theorem fold_one (hfl : IsRounding fl) {d : ℕ} (k : Fin d) (t : Fin d → ℝ)
    (h : ∀ i, i ≠ k → t i = 0) (l : List (Fin d)) (hl : l.Nodup) (hk : k ∈ l) :
    l.foldl (fun s i => fl (s + fl (t i))) 0 = fl (t k) := by
  induction l with
  | nil => simp at hk
  | cons i l ih =>
    rw [List.nodup_cons] at hl
    rw [List.foldl_cons]
    by_cases e : i = k
    · rw [e, zero_add, fl_double hfl (hfl.double _)]
      exact fold_single hfl k t h l _ (hfl.double _) (e ▸ hl.1)
    · rw [h i e, fl_zero hfl, add_zero, fl_zero hfl]
      exact ih hl.2 ((List.mem_cons.mp hk).resolve_left (fun x => e x.symm))

theorem contract_single (hfl : IsRounding fl) {d : ℕ} (k : Fin d) (a b : Vec d)
    (h : ∀ i, i ≠ k → a i * b i = 0) : contract fl a b = fl (a k * b k) :=
  fold_one hfl k (fun i => a i * b i) h _ (List.nodup_finRange d) (List.mem_finRange k)

theorem normalPart_axis (hfl : IsRounding fl) {d : ℕ} (k : Fin d) (n : Vec d) (hk : |n k| = 1)
    (hn : ∀ i, i ≠ k → n i = 0) (i j : Fin d) :
    normalPart fl n i j = if i = k ∧ j = k then 1 else 0 := by
  have hsq : n k * n k = 1 := by
    rw [← abs_mul_abs_self, hk, one_mul]
  by_cases hij : i = j
  · subst hij
    by_cases e : i = k
    · subst e
      simp [normalPart, hsq, fl_one hfl]
    · simp [normalPart, e, hn i e, fl_zero hfl]
  · have hc : ¬ (i = k ∧ j = k) := fun h => hij (h.1.trans h.2.symm)
    have hz : n i * n j = 0 ∧ n j * n i = 0 := by
      by_cases e : i = k
      · have : j ≠ k := fun h => hc ⟨e, h⟩
        simp [hn j this]
      · simp [hn i e]
    simp only [normalPart, Matrix.of_apply, hij, if_false, hz.1, hz.2, fl_zero hfl, add_zero,
      zero_div, hc]

/-- On a boundary along an axis, the recorded normal part is the modulus of the normal component. -/
theorem normal_norm_axis (hfl : IsRounding fl) {d : ℕ} (k : Fin d) (n δ : Vec d) (hk : |n k| = 1)
    (hn : ∀ i, i ≠ k → n i = 0) (hδ : IsDouble (δ k)) (hb : δ k = 0 ∨ (2 : ℝ) ^ (-400 : ℤ) ≤ |δ k|) :
    normOf fl (applyTo fl (normalPart fl n) δ) = |δ k| := by
  have happ : ∀ i, applyTo fl (normalPart fl n) δ i = if i = k then δ k else 0 := by
    intro i
    rw [applyTo, contract_single hfl k _ _ (fun j hj => by
      rw [normalPart_axis hfl k n hk hn]; simp [hj]), normalPart_axis hfl k n hk hn]
    by_cases e : i = k
    · simp [e, fl_double hfl hδ]
    · simp [e, fl_zero hfl]
  rw [normOf, contract_single hfl k _ _ (fun i hi => by rw [happ]; simp [hi]), happ]
  simp only [if_true]
  exact root_square hfl hδ hb

/-- A boundary along the axis `k`. -/
def SpecAligned {d : ℕ} (f : Point d) (k : Fin d) : Prop :=
  |f.normal k| = 1 ∧ ∀ i, i ≠ k → f.normal i = 0

/-- The cells do not overlap in direction `k`: the cell the normal points to is displaced further along
the normal, or they touch; separations below `2⁻⁴⁰⁰` are left out, their squares underflow. -/
def SpecApart {d : ℕ} (f : Point d) (k : Fin d) (u : Bool → Vec d) : Prop :=
  (∀ side i, IsDouble (u side i)) ∧
    (u true k = u false k ∨ (2 : ℝ) ^ (-400 : ℤ) ≤ f.normal k * (u true k - u false k))

theorem kept_eq_seen (hfl : IsRounding fl) (ho : SpecOdd fl) {d : ℕ} (f : Point d) (k : Fin d)
    (hf : SpecAligned f k) (u : Bool → Vec d) (hu : SpecApart f k u) (side : Bool) :
    f.kept fl u side = f.seen fl u side := by
  rw [kept_side ho, seen_side ho]
  simp only [Point.kept, Point.seen, Point.normalOf, Bool.not_false, Bool.false_eq_true, if_false,
    recordedOpening, measuredOpening]
  set δ : Vec d := fun i => fl (u true i - u false i) with hδ
  have hflip : (fun i => fl (u false i - u true i)) = fun i => -δ i :=
    funext fun i => difference_flip ho _ _
  rw [hflip, applyTo_neg ho, applyTo_neg ho, normOf_neg, normOf_neg]
  have hd : IsDouble (δ k) := hfl.double _
  have hnk : f.normal k = 1 ∨ f.normal k = -1 := by
    have := hf.1
    rcases abs_choice (f.normal k) with h | h <;> rw [h] at this
    · exact Or.inl this
    · exact Or.inr (by linarith)
  have hdouble400 : IsDouble ((2 : ℝ) ^ (-400 : ℤ)) := ⟨1, -400, by norm_num, by norm_num, by simp⟩
  have hsgn : 0 ≤ f.normal k * δ k ∧ (δ k = 0 ∨ (2 : ℝ) ^ (-400 : ℤ) ≤ |δ k|) := by
    rcases hu.2 with h | h
    · have : δ k = 0 := by rw [hδ]; simp [h, fl_zero hfl]
      rw [this]
      simp
    · have : (2 : ℝ) ^ (-400 : ℤ) ≤ f.normal k * δ k := by
        rcases hnk with e | e
        · rw [e, one_mul] at h ⊢
          exact fl_ge hfl hdouble400 h
        · rw [e] at h ⊢
          have h' : (2 : ℝ) ^ (-400 : ℤ) ≤ -(u true k - u false k) := by linarith
          have := fl_ge hfl hdouble400 h'
          rw [ho] at this
          show _ ≤ -1 * fl (u true k - u false k)
          linarith
      refine ⟨(pow_pos2 _).le.trans this, Or.inr (this.trans ?_)⟩
      refine (le_abs_self _).trans ?_
      rw [abs_mul, hf.1, one_mul]
  rw [normal_norm_axis hfl k _ δ hf.1 hf.2 hd hsgn.2,
    contract_single hfl k _ _ (fun i hi => by rw [hf.2 i hi, zero_mul])]
  have hval : fl (f.normal k * δ k) = |δ k| := by
    have : f.normal k * δ k = |δ k| := by
      rw [← abs_of_nonneg hsgn.1, abs_mul, hf.1, one_mul]
    rw [this]
    rcases abs_choice (δ k) with h | h <;> rw [h]
    · exact fl_double hfl hd
    · exact fl_double hfl (isDouble_neg hd)
  rw [hval]

/-- The calls of two time steps at whose ends the displacements at the point are the same, from the
construction of the record (`solve.cc:86-145`). -/
def heldCalls {d : ℕ} (u : Bool → Vec d) (cells : List Bool) : List (Visit d × List Bool) :=
  [(.prepare, cells), (.evaluate u, cells), (.record u, cells), (.prepare, cells), (.evaluate u, cells)]

/-- The branch of the cohesive law the cell `side` takes in the second of two steps with the same
displacements. -/
noncomputable def heldBranch (fl expf : ℝ → ℝ) {d : ℕ} (f : Point d) (u : Bool → Vec d)
    (cells : List Bool) (dt : ℝ) (side : Bool) : Branch :=
  let r := f.recordOf fl expf (heldCalls u cells)
  branchOf fl (f.seen fl u side) r.maxOpening r.oldOpening dt

theorem seen_nonneg (hfl : IsRounding fl) {d : ℕ} (f : Point d) (u : Bool → Vec d) (side : Bool) :
    0 ≤ f.seen fl u side := fl_nonneg hfl (Real.sqrt_nonneg _)

theorem held_record (hfl : IsRounding fl) (ho : SpecOdd fl) (expf : ℝ → ℝ) {d : ℕ} (f : Point d)
    (u : Bool → Vec d) (cells : List Bool) (visited : cells ≠ []) :
    (f.recordOf fl expf (heldCalls u cells)).maxOpening = f.seen fl u false ∧
      (f.recordOf fl expf (heldCalls u cells)).oldOpening = f.kept fl u false := by
  have h0 := seen_nonneg hfl f u false
  unfold Point.recordOf heldCalls
  simp only [List.foldl_cons, List.foldl_nil, visits ho expf f _ cells _ visited]
  constructor
  · show max (max (0 : ℝ) (f.seen fl u false)) (f.seen fl u false) = _
    rw [max_eq_right h0, max_self]
  · rfl

/-- **C123**, part that holds. On a boundary along an axis whose sides do not overlap, an opening held at its
maximum counts as loading for both cells. -/
theorem C123_held_partial (hfl : IsRounding fl) (ho : SpecOdd fl) (expf : ℝ → ℝ) {d : ℕ} (f : Point d)
    (k : Fin d) (hf : SpecAligned f k) (u : Bool → Vec d) (hu : SpecApart f k u) (cells : List Bool)
    (visited : cells ≠ []) (dt : ℝ) (side : Bool) :
    heldBranch fl expf f u cells dt side = .loading := by
  obtain ⟨h1, h2⟩ := held_record hfl ho expf f u cells visited
  unfold heldBranch
  simp only [h1, h2, kept_eq_seen hfl ho f k hf u hu, seen_side ho f u side, branchOf, sub_self,
    fl_zero hfl, zero_div, le_refl, and_self, if_true]

/-- **C123**, part that holds. On such a boundary the recorded opening is the measured one, bit by bit. -/
theorem C123_recorded_partial (hfl : IsRounding fl) (ho : SpecOdd fl) {d : ℕ} (f : Point d) (k : Fin d)
    (hf : SpecAligned f k) (u : Bool → Vec d) (hu : SpecApart f k u) (side side' : Bool) :
    f.kept fl u side = f.seen fl u side' := by
  rw [kept_eq_seen hfl ho f k hf u hu, (C122_sides ho f u side side').1]


/-! ## Oblique boundaries -/

theorem isDouble_fl (hfl : IsRounding fl) {x y : ℝ} (h : fl x = y) : IsDouble y := h ▸ hfl.double x

/-- The two openings for the separation `1, 0`, stiffness ratio one half, operation by operation. -/
theorem opening_chain (hfl : IsRounding fl) {n0 n1 p r t0 pp rr s2 s tt t2 t h h2 m2 m ss q2 q : ℝ}
    (hn0 : IsDouble n0) (hn0' : 0 < n0) (hs : 0 < s)
    (f0 : fl (n0 * n0) = p) (f1 : fl (n0 * n1) = r) (f2 : fl (1 - p) = t0) (f3 : fl (p * p) = pp)
    (f4 : fl (r * r) = rr) (f5 : fl (pp + rr) = s2) (f6 : fl √s2 = s) (f7 : fl (t0 * t0) = tt)
    (f8 : fl (tt + rr) = t2) (f9 : fl √t2 = t) (f10 : fl (1 / 4 * t) = h) (f11 : fl (h * t) = h2)
    (f12 : fl (p + h2) = m2) (f13 : fl √m2 = m) (f14 : fl (s * s) = ss) (f15 : fl (ss + h2) = q2)
    (f16 : fl √q2 = q) :
    measuredOpening fl (1 / 2) ![1, 0] ![n0, n1] = m ∧
      recordedOpening fl (1 / 2) ![0, 0] ![1, 0] ![n0, n1] = q := by
  have z := fl_zero hfl
  have hfr : List.finRange 2 = [0, 1] := by decide
  have hp : IsDouble p := isDouble_fl hfl f0
  have hr : IsDouble r := isDouble_fl hfl f1
  have hpp : IsDouble pp := isDouble_fl hfl f3
  have htt : IsDouble tt := isDouble_fl hfl f7
  have ht0 : IsDouble t0 := isDouble_fl hfl f2
  have hquarter : fl (1 / 2 * (1 / 2)) = 1 / 4 := by
    rw [fl_double hfl ⟨1, -2, by norm_num, by norm_num, by norm_num⟩]
    norm_num
  have hrr2 : fl (fl (n1 * n0) + fl (n0 * n1)) = r + r := by
    rw [mul_comm n1 n0, f1, fl_double hfl (isDouble_two_mul hr)]
  have P00 : normalPart fl ![n0, n1] 0 0 = p := by simp [normalPart, f0]
  have P10 : normalPart fl ![n0, n1] 1 0 = r := by
    simp only [normalPart, Matrix.of_apply, Matrix.cons_val_zero, Matrix.cons_val_one,
      one_ne_zero, if_false]
    rw [hrr2, show (r + r) / 2 = r by ring, fl_double hfl hr]
  have T00 : tangentialPart fl ![n0, n1] 0 0 = t0 := by simp [tangentialPart, P00, f2]
  have T10 : tangentialPart fl ![n0, n1] 1 0 = -r := by
    simp only [tangentialPart, Matrix.of_apply, one_ne_zero, if_false, P10, zero_sub]
    exact fl_double hfl (isDouble_neg hr)
  have row : ∀ (M : Mat 2) (i : Fin 2), IsDouble (M i 0) →
      applyTo fl M ![1, 0] i = M i 0 := by
    intro M i hM
    rw [applyTo, contract_single hfl 0 _ _ (fun j hj => by fin_cases j <;> simp_all)]
    simp [fl_double hfl hM]
  have dotn : contract fl ![n0, n1] ![1, 0] = n0 := by
    rw [contract_single hfl 0 _ _ (fun j hj => by fin_cases j <;> simp_all)]
    simp [fl_double hfl hn0]
  have tang : normOf fl (applyTo fl (tangentialPart fl ![n0, n1]) ![1, 0]) = t := by
    rw [normOf, contract, hfr]
    simp only [List.foldl_cons, List.foldl_nil]
    rw [row _ 0 (T00 ▸ ht0), row _ 1 (T10 ▸ isDouble_neg hr), T00, T10, neg_mul_neg, f7, f4, zero_add,
      fl_double hfl htt, f8, f9]
  have nrm : normOf fl (applyTo fl (normalPart fl ![n0, n1]) ![1, 0]) = s := by
    rw [normOf, contract, hfr]
    simp only [List.foldl_cons, List.foldl_nil]
    rw [row _ 0 (P00 ▸ hp), row _ 1 (P10 ▸ hr), P00, P10, f3, f4, zero_add,
      fl_double hfl hpp, f5, f6]
  constructor
  · rw [measuredOpening, dotn, tang, combine, hquarter, f10, f11, Itf.macaulay, if_pos hn0', f0, f12, f13]
  · have hδ : (fun i => fl ((![1, 0] : Vec 2) i - (![0, 0] : Vec 2) i)) = ![1, 0] := by
      funext i
      fin_cases i
      · simp [fl_one hfl]
      · simp [z]
    simp only [recordedOpening]
    rw [hδ, nrm, tang, combine, hquarter, f10, f11, Itf.macaulay, if_pos hs, f14, f15, f16]

theorem slow0 (hfl : IsRounding fl) : fl ((8430738502437569 / 9007199254740992) * (8430738502437569 / 9007199254740992)) = (7891171238281565 / 9007199254740992) := by
  have h := fl_eq hfl (x := (8430738502437569 / 9007199254740992) * (8430738502437569 / 9007199254740992)) 7891171238281565 (-53)
    (by norm_num) (by norm_num) (by norm_num) (by rw [abs_lt]; constructor <;> norm_num)
  rw [h]
  norm_num

theorem slow1 (hfl : IsRounding fl) : fl ((8430738502437569 / 9007199254740992) * (6341068275337658 / 18014398509481984)) = (5935239905716048 / 18014398509481984) := by
  have h := fl_eq hfl (x := (8430738502437569 / 9007199254740992) * (6341068275337658 / 18014398509481984)) 5935239905716048 (-54)
    (by norm_num) (by norm_num) (by norm_num) (by rw [abs_lt]; constructor <;> norm_num)
  rw [h]
  norm_num

theorem slow2 (hfl : IsRounding fl) : fl (1 - (7891171238281565 / 9007199254740992)) = (8928224131675416 / 72057594037927936) := by
  have h := fl_eq hfl (x := 1 - (7891171238281565 / 9007199254740992)) 8928224131675416 (-56)
    (by norm_num) (by norm_num) (by norm_num) (by rw [abs_lt]; constructor <;> norm_num)
  rw [h]
  norm_num

theorem slow3 (hfl : IsRounding fl) : fl ((7891171238281565 / 9007199254740992) * (7891171238281565 / 9007199254740992)) = (6913423557173527 / 9007199254740992) := by
  have h := fl_eq hfl (x := (7891171238281565 / 9007199254740992) * (7891171238281565 / 9007199254740992)) 6913423557173527 (-53)
    (by norm_num) (by norm_num) (by norm_num) (by rw [abs_lt]; constructor <;> norm_num)
  rw [h]
  norm_num

theorem slow4 (hfl : IsRounding fl) : fl ((5935239905716048 / 18014398509481984) * (5935239905716048 / 18014398509481984)) = (7821981448864311 / 72057594037927936) := by
  have h := fl_eq hfl (x := (5935239905716048 / 18014398509481984) * (5935239905716048 / 18014398509481984)) 7821981448864311 (-56)
    (by norm_num) (by norm_num) (by norm_num) (by rw [abs_lt]; constructor <;> norm_num)
  rw [h]
  norm_num

theorem slow5 (hfl : IsRounding fl) : fl ((6913423557173527 / 9007199254740992) + (7821981448864311 / 72057594037927936)) = (7891171238281566 / 9007199254740992) := by
  have h := fl_eq hfl (x := (6913423557173527 / 9007199254740992) + (7821981448864311 / 72057594037927936)) 7891171238281566 (-53)
    (by norm_num) (by norm_num) (by norm_num) (by rw [abs_lt]; constructor <;> norm_num)
  rw [h]
  norm_num

theorem slow6 (hfl : IsRounding fl) : fl (√(7891171238281566 / 9007199254740992)) = (8430738502437570 / 9007199254740992) := by
  have h := fl_eq hfl (x := √(7891171238281566 / 9007199254740992)) 8430738502437570 (-53) (by norm_num) (by norm_num) (by norm_num) ?_
  · rw [h]
    norm_num
  · rw [abs_lt]
    have h1 : (8430738502437570 * (2 : ℝ) ^ (-53 : ℤ) - 2 ^ (-53 : ℤ) / 2) < √(7891171238281566 / 9007199254740992) := by
      apply Real.lt_sqrt_of_sq_lt
      norm_num
    have h2 : √(7891171238281566 / 9007199254740992) < 8430738502437570 * (2 : ℝ) ^ (-53 : ℤ) + 2 ^ (-53 : ℤ) / 2 := by
      rw [Real.sqrt_lt' (by norm_num)]
      norm_num
    push_cast
    constructor <;> linarith

theorem slow7 (hfl : IsRounding fl) : fl ((8928224131675416 / 72057594037927936) * (8928224131675416 / 72057594037927936)) = (8849941462488879 / 576460752303423488) := by
  have h := fl_eq hfl (x := (8928224131675416 / 72057594037927936) * (8928224131675416 / 72057594037927936)) 8849941462488879 (-59)
    (by norm_num) (by norm_num) (by norm_num) (by rw [abs_lt]; constructor <;> norm_num)
  rw [h]
  norm_num

theorem slow8 (hfl : IsRounding fl) : fl ((8849941462488879 / 576460752303423488) + (7821981448864311 / 72057594037927936)) = (8928224131675421 / 72057594037927936) := by
  have h := fl_eq hfl (x := (8849941462488879 / 576460752303423488) + (7821981448864311 / 72057594037927936)) 8928224131675421 (-56)
    (by norm_num) (by norm_num) (by norm_num) (by rw [abs_lt]; constructor <;> norm_num)
  rw [h]
  norm_num

theorem slow9 (hfl : IsRounding fl) : fl (√(8928224131675421 / 72057594037927936)) = (6341068275337658 / 18014398509481984) := by
  have h := fl_eq hfl (x := √(8928224131675421 / 72057594037927936)) 6341068275337658 (-54) (by norm_num) (by norm_num) (by norm_num) ?_
  · rw [h]
    norm_num
  · rw [abs_lt]
    have h1 : (6341068275337658 * (2 : ℝ) ^ (-54 : ℤ) - 2 ^ (-54 : ℤ) / 2) < √(8928224131675421 / 72057594037927936) := by
      apply Real.lt_sqrt_of_sq_lt
      norm_num
    have h2 : √(8928224131675421 / 72057594037927936) < 6341068275337658 * (2 : ℝ) ^ (-54 : ℤ) + 2 ^ (-54 : ℤ) / 2 := by
      rw [Real.sqrt_lt' (by norm_num)]
      norm_num
    push_cast
    constructor <;> linarith

theorem slow10 (hfl : IsRounding fl) : fl (1 / 4 * (6341068275337658 / 18014398509481984)) = (6341068275337658 / 72057594037927936) := by
  have h := fl_eq hfl (x := 1 / 4 * (6341068275337658 / 18014398509481984)) 6341068275337658 (-56)
    (by norm_num) (by norm_num) (by norm_num) (by rw [abs_lt]; constructor <;> norm_num)
  rw [h]
  norm_num

theorem slow11 (hfl : IsRounding fl) : fl ((6341068275337658 / 72057594037927936) * (6341068275337658 / 18014398509481984)) = (8928224131675422 / 288230376151711744) := by
  have h := fl_eq hfl (x := (6341068275337658 / 72057594037927936) * (6341068275337658 / 18014398509481984)) 8928224131675422 (-58)
    (by norm_num) (by norm_num) (by norm_num) (by rw [abs_lt]; constructor <;> norm_num)
  rw [h]
  norm_num

theorem slow12 (hfl : IsRounding fl) : fl ((7891171238281565 / 9007199254740992) + (8928224131675422 / 288230376151711744)) = (8170178242396422 / 9007199254740992) := by
  have h := fl_eq hfl (x := (7891171238281565 / 9007199254740992) + (8928224131675422 / 288230376151711744)) 8170178242396422 (-53)
    (by norm_num) (by norm_num) (by norm_num) (by rw [abs_lt]; constructor <;> norm_num)
  rw [h]
  norm_num

theorem slow13 (hfl : IsRounding fl) : fl (√(8170178242396422 / 9007199254740992)) = (8578486077159193 / 9007199254740992) := by
  have h := fl_eq hfl (x := √(8170178242396422 / 9007199254740992)) 8578486077159193 (-53) (by norm_num) (by norm_num) (by norm_num) ?_
  · rw [h]
    norm_num
  · rw [abs_lt]
    have h1 : (8578486077159193 * (2 : ℝ) ^ (-53 : ℤ) - 2 ^ (-53 : ℤ) / 2) < √(8170178242396422 / 9007199254740992) := by
      apply Real.lt_sqrt_of_sq_lt
      norm_num
    have h2 : √(8170178242396422 / 9007199254740992) < 8578486077159193 * (2 : ℝ) ^ (-53 : ℤ) + 2 ^ (-53 : ℤ) / 2 := by
      rw [Real.sqrt_lt' (by norm_num)]
      norm_num
    push_cast
    constructor <;> linarith

theorem slow14 (hfl : IsRounding fl) : fl ((8430738502437570 / 9007199254740992) * (8430738502437570 / 9007199254740992)) = (7891171238281567 / 9007199254740992) := by
  have h := fl_eq hfl (x := (8430738502437570 / 9007199254740992) * (8430738502437570 / 9007199254740992)) 7891171238281567 (-53)
    (by norm_num) (by norm_num) (by norm_num) (by rw [abs_lt]; constructor <;> norm_num)
  rw [h]
  norm_num

theorem slow15 (hfl : IsRounding fl) : fl ((7891171238281567 / 9007199254740992) + (8928224131675422 / 288230376151711744)) = (8170178242396424 / 9007199254740992) := by
  have h := fl_eq hfl (x := (7891171238281567 / 9007199254740992) + (8928224131675422 / 288230376151711744)) 8170178242396424 (-53)
    (by norm_num) (by norm_num) (by norm_num) (by rw [abs_lt]; constructor <;> norm_num)
  rw [h]
  norm_num

theorem slow16 (hfl : IsRounding fl) : fl (√(8170178242396424 / 9007199254740992)) = (8578486077159194 / 9007199254740992) := by
  have h := fl_eq hfl (x := √(8170178242396424 / 9007199254740992)) 8578486077159194 (-53) (by norm_num) (by norm_num) (by norm_num) ?_
  · rw [h]
    norm_num
  · rw [abs_lt]
    have h1 : (8578486077159194 * (2 : ℝ) ^ (-53 : ℤ) - 2 ^ (-53 : ℤ) / 2) < √(8170178242396424 / 9007199254740992) := by
      apply Real.lt_sqrt_of_sq_lt
      norm_num
    have h2 : √(8170178242396424 / 9007199254740992) < 8578486077159194 * (2 : ℝ) ^ (-53 : ℤ) + 2 ^ (-53 : ℤ) / 2 := by
      rw [Real.sqrt_lt' (by norm_num)]
      norm_num
    push_cast
    constructor <;> linarith

theorem creep0 (hfl : IsRounding fl) : fl ((7947528754183228 / 9007199254740992) * (7947528754183228 / 9007199254740992)) = (7012525371338142 / 9007199254740992) := by
  have h := fl_eq hfl (x := (7947528754183228 / 9007199254740992) * (7947528754183228 / 9007199254740992)) 7012525371338142 (-53)
    (by norm_num) (by norm_num) (by norm_num) (by rw [abs_lt]; constructor <;> norm_num)
  rw [h]
  norm_num

theorem creep1 (hfl : IsRounding fl) : fl ((7947528754183228 / 9007199254740992) * (8477364004462110 / 18014398509481984)) = (7480027062760685 / 18014398509481984) := by
  have h := fl_eq hfl (x := (7947528754183228 / 9007199254740992) * (8477364004462110 / 18014398509481984)) 7480027062760685 (-54)
    (by norm_num) (by norm_num) (by norm_num) (by rw [abs_lt]; constructor <;> norm_num)
  rw [h]
  norm_num

theorem creep2 (hfl : IsRounding fl) : fl (1 - (7012525371338142 / 9007199254740992)) = (7978695533611400 / 36028797018963968) := by
  have h := fl_eq hfl (x := 1 - (7012525371338142 / 9007199254740992)) 7978695533611400 (-55)
    (by norm_num) (by norm_num) (by norm_num) (by rw [abs_lt]; constructor <;> norm_num)
  rw [h]
  norm_num

theorem creep3 (hfl : IsRounding fl) : fl ((7012525371338142 / 9007199254740992) * (7012525371338142 / 9007199254740992)) = (5459578576301321 / 9007199254740992) := by
  have h := fl_eq hfl (x := (7012525371338142 / 9007199254740992) * (7012525371338142 / 9007199254740992)) 5459578576301321 (-53)
    (by norm_num) (by norm_num) (by norm_num) (by rw [abs_lt]; constructor <;> norm_num)
  rw [h]
  norm_num

theorem creep4 (hfl : IsRounding fl) : fl ((7480027062760685 / 18014398509481984) * (7480027062760685 / 18014398509481984)) = (6211787180147281 / 36028797018963968) := by
  have h := fl_eq hfl (x := (7480027062760685 / 18014398509481984) * (7480027062760685 / 18014398509481984)) 6211787180147281 (-55)
    (by norm_num) (by norm_num) (by norm_num) (by rw [abs_lt]; constructor <;> norm_num)
  rw [h]
  norm_num

theorem creep5 (hfl : IsRounding fl) : fl ((5459578576301321 / 9007199254740992) + (6211787180147281 / 36028797018963968)) = (7012525371338141 / 9007199254740992) := by
  have h := fl_eq hfl (x := (5459578576301321 / 9007199254740992) + (6211787180147281 / 36028797018963968)) 7012525371338141 (-53)
    (by norm_num) (by norm_num) (by norm_num) (by rw [abs_lt]; constructor <;> norm_num)
  rw [h]
  norm_num

theorem creep6 (hfl : IsRounding fl) : fl (√(7012525371338141 / 9007199254740992)) = (7947528754183227 / 9007199254740992) := by
  have h := fl_eq hfl (x := √(7012525371338141 / 9007199254740992)) 7947528754183227 (-53) (by norm_num) (by norm_num) (by norm_num) ?_
  · rw [h]
    norm_num
  · rw [abs_lt]
    have h1 : (7947528754183227 * (2 : ℝ) ^ (-53 : ℤ) - 2 ^ (-53 : ℤ) / 2) < √(7012525371338141 / 9007199254740992) := by
      apply Real.lt_sqrt_of_sq_lt
      norm_num
    have h2 : √(7012525371338141 / 9007199254740992) < 7947528754183227 * (2 : ℝ) ^ (-53 : ℤ) + 2 ^ (-53 : ℤ) / 2 := by
      rw [Real.sqrt_lt' (by norm_num)]
      norm_num
    push_cast
    constructor <;> linarith

theorem creep7 (hfl : IsRounding fl) : fl ((7978695533611400 / 36028797018963968) * (7978695533611400 / 36028797018963968)) = (7067633413856467 / 144115188075855872) := by
  have h := fl_eq hfl (x := (7978695533611400 / 36028797018963968) * (7978695533611400 / 36028797018963968)) 7067633413856467 (-57)
    (by norm_num) (by norm_num) (by norm_num) (by rw [abs_lt]; constructor <;> norm_num)
  rw [h]
  norm_num

theorem creep8 (hfl : IsRounding fl) : fl ((7067633413856467 / 144115188075855872) + (6211787180147281 / 36028797018963968)) = (7978695533611398 / 36028797018963968) := by
  have h := fl_eq hfl (x := (7067633413856467 / 144115188075855872) + (6211787180147281 / 36028797018963968)) 7978695533611398 (-55)
    (by norm_num) (by norm_num) (by norm_num) (by rw [abs_lt]; constructor <;> norm_num)
  rw [h]
  norm_num

theorem creep9 (hfl : IsRounding fl) : fl (√(7978695533611398 / 36028797018963968)) = (8477364004462110 / 18014398509481984) := by
  have h := fl_eq hfl (x := √(7978695533611398 / 36028797018963968)) 8477364004462110 (-54) (by norm_num) (by norm_num) (by norm_num) ?_
  · rw [h]
    norm_num
  · rw [abs_lt]
    have h1 : (8477364004462110 * (2 : ℝ) ^ (-54 : ℤ) - 2 ^ (-54 : ℤ) / 2) < √(7978695533611398 / 36028797018963968) := by
      apply Real.lt_sqrt_of_sq_lt
      norm_num
    have h2 : √(7978695533611398 / 36028797018963968) < 8477364004462110 * (2 : ℝ) ^ (-54 : ℤ) + 2 ^ (-54 : ℤ) / 2 := by
      rw [Real.sqrt_lt' (by norm_num)]
      norm_num
    push_cast
    constructor <;> linarith

theorem creep10 (hfl : IsRounding fl) : fl (1 / 4 * (8477364004462110 / 18014398509481984)) = (8477364004462110 / 72057594037927936) := by
  have h := fl_eq hfl (x := 1 / 4 * (8477364004462110 / 18014398509481984)) 8477364004462110 (-56)
    (by norm_num) (by norm_num) (by norm_num) (by rw [abs_lt]; constructor <;> norm_num)
  rw [h]
  norm_num

theorem creep11 (hfl : IsRounding fl) : fl ((8477364004462110 / 72057594037927936) * (8477364004462110 / 18014398509481984)) = (7978695533611398 / 144115188075855872) := by
  have h := fl_eq hfl (x := (8477364004462110 / 72057594037927936) * (8477364004462110 / 18014398509481984)) 7978695533611398 (-57)
    (by norm_num) (by norm_num) (by norm_num) (by rw [abs_lt]; constructor <;> norm_num)
  rw [h]
  norm_num

theorem creep12 (hfl : IsRounding fl) : fl ((7012525371338142 / 9007199254740992) + (7978695533611398 / 144115188075855872)) = (7511193842188854 / 9007199254740992) := by
  have h := fl_eq hfl (x := (7012525371338142 / 9007199254740992) + (7978695533611398 / 144115188075855872)) 7511193842188854 (-53)
    (by norm_num) (by norm_num) (by norm_num) (by rw [abs_lt]; constructor <;> norm_num)
  rw [h]
  norm_num

theorem creep13 (hfl : IsRounding fl) : fl (√(7511193842188854 / 9007199254740992)) = (8225254985566014 / 9007199254740992) := by
  have h := fl_eq hfl (x := √(7511193842188854 / 9007199254740992)) 8225254985566014 (-53) (by norm_num) (by norm_num) (by norm_num) ?_
  · rw [h]
    norm_num
  · rw [abs_lt]
    have h1 : (8225254985566014 * (2 : ℝ) ^ (-53 : ℤ) - 2 ^ (-53 : ℤ) / 2) < √(7511193842188854 / 9007199254740992) := by
      apply Real.lt_sqrt_of_sq_lt
      norm_num
    have h2 : √(7511193842188854 / 9007199254740992) < 8225254985566014 * (2 : ℝ) ^ (-53 : ℤ) + 2 ^ (-53 : ℤ) / 2 := by
      rw [Real.sqrt_lt' (by norm_num)]
      norm_num
    push_cast
    constructor <;> linarith

theorem creep14 (hfl : IsRounding fl) : fl ((7947528754183227 / 9007199254740992) * (7947528754183227 / 9007199254740992)) = (7012525371338140 / 9007199254740992) := by
  have h := fl_eq hfl (x := (7947528754183227 / 9007199254740992) * (7947528754183227 / 9007199254740992)) 7012525371338140 (-53)
    (by norm_num) (by norm_num) (by norm_num) (by rw [abs_lt]; constructor <;> norm_num)
  rw [h]
  norm_num

theorem creep15 (hfl : IsRounding fl) : fl ((7012525371338140 / 9007199254740992) + (7978695533611398 / 144115188075855872)) = (7511193842188852 / 9007199254740992) := by
  have h := fl_eq hfl (x := (7012525371338140 / 9007199254740992) + (7978695533611398 / 144115188075855872)) 7511193842188852 (-53)
    (by norm_num) (by norm_num) (by norm_num) (by rw [abs_lt]; constructor <;> norm_num)
  rw [h]
  norm_num

theorem creep16 (hfl : IsRounding fl) : fl (√(7511193842188852 / 9007199254740992)) = (8225254985566013 / 9007199254740992) := by
  have h := fl_eq hfl (x := √(7511193842188852 / 9007199254740992)) 8225254985566013 (-53) (by norm_num) (by norm_num) (by norm_num) ?_
  · rw [h]
    norm_num
  · rw [abs_lt]
    have h1 : (8225254985566013 * (2 : ℝ) ^ (-53 : ℤ) - 2 ^ (-53 : ℤ) / 2) < √(7511193842188852 / 9007199254740992) := by
      apply Real.lt_sqrt_of_sq_lt
      norm_num
    have h2 : √(7511193842188852 / 9007199254740992) < 8225254985566013 * (2 : ℝ) ^ (-53 : ℤ) + 2 ^ (-53 : ℤ) / 2 := by
      rw [Real.sqrt_lt' (by norm_num)]
      norm_num
    push_cast
    constructor <;> linarith

theorem slow_openings (hfl : IsRounding fl) :
    measuredOpening fl (1 / 2) ![1, 0] ![(8430738502437569 / 9007199254740992), (6341068275337658 / 18014398509481984)] = (8578486077159193 / 9007199254740992) ∧
      recordedOpening fl (1 / 2) ![0, 0] ![1, 0] ![(8430738502437569 / 9007199254740992), (6341068275337658 / 18014398509481984)] = (8578486077159194 / 9007199254740992) :=
  opening_chain hfl ⟨8430738502437569, -53, by norm_num, by norm_num, by norm_num⟩ (by norm_num) (by norm_num)
    (slow0 hfl) (slow1 hfl) (slow2 hfl) (slow3 hfl) (slow4 hfl) (slow5 hfl) (slow6 hfl) (slow7 hfl) (slow8 hfl) (slow9 hfl) (slow10 hfl) (slow11 hfl) (slow12 hfl) (slow13 hfl) (slow14 hfl) (slow15 hfl) (slow16 hfl)

theorem creep_openings (hfl : IsRounding fl) :
    measuredOpening fl (1 / 2) ![1, 0] ![(7947528754183228 / 9007199254740992), (8477364004462110 / 18014398509481984)] = (8225254985566014 / 9007199254740992) ∧
      recordedOpening fl (1 / 2) ![0, 0] ![1, 0] ![(7947528754183228 / 9007199254740992), (8477364004462110 / 18014398509481984)] = (8225254985566013 / 9007199254740992) :=
  opening_chain hfl ⟨7947528754183228, -53, by norm_num, by norm_num, by norm_num⟩ (by norm_num) (by norm_num)
    (creep0 hfl) (creep1 hfl) (creep2 hfl) (creep3 hfl) (creep4 hfl) (creep5 hfl) (creep6 hfl) (creep7 hfl) (creep8 hfl) (creep9 hfl) (creep10 hfl) (creep11 hfl) (creep12 hfl) (creep13 hfl) (creep14 hfl) (creep15 hfl) (creep16 hfl)

theorem recorded_neg {d : ℕ} (ratio : ℝ) (u v n : Vec d) :
    recordedOpening fl ratio u v (fun i => -n i) = recordedOpening fl ratio u v n := by
  simp only [recordedOpening]
  rw [normalPart_neg, tangentialPart_neg]

/-- A cell at rest and a neighbour displaced by one unit along the first axis. -/
noncomputable def exPulled : Bool → Vec 2 := fun side => if side then ![1, 0] else ![0, 0]

theorem pulled_openings (hfl : IsRounding fl) (ho : SpecOdd fl) (f : Point 2) :
    f.seen fl exPulled false = measuredOpening fl f.ratio ![1, 0] f.normal ∧
      f.kept fl exPulled false = recordedOpening fl f.ratio ![0, 0] ![1, 0] f.normal := by
  constructor
  · simp only [Point.seen, Point.normalOf, exPulled, Bool.not_false, if_true, Bool.false_eq_true, if_false]
    congr 1
    funext i
    fin_cases i
    · simp [fl_one hfl]
    · simp [fl_zero hfl]
  · simp only [Point.kept, Point.normalOf, exPulled, Bool.not_false, if_true, Bool.false_eq_true, if_false]
    rw [← recorded_flip ho, recorded_neg]

/-- **C123** fails on an oblique boundary. With the unit normal `117/125, 44/125` (rounded to doubles), a
stiffness ratio of one half and a neighbour pulled away by one unit along the first axis, the second of two
steps with the same displacements counts as unloading for both cells, whatever the step size up to one: the
recorded opening is one unit in the last place above the measured one. -/
theorem C123_violated (hfl : IsRounding fl) (ho : SpecOdd fl) (expf : ℝ → ℝ) (dmg : DamagePrm) :
    ∃ (f : Point 2) (u : Bool → Vec 2),
      f.dmg = dmg ∧ |f.normal 0 - 117 / 125| ≤ 1 / 2 ^ 53 ∧ |f.normal 1 - 44 / 125| ≤ 1 / 2 ^ 53 ∧
      (∀ i, IsDouble (f.normal i)) ∧ (∀ side i, IsDouble (u side i)) ∧
      0 < f.normal 0 * (u true 0 - u false 0) + f.normal 1 * (u true 1 - u false 1) ∧
      ∀ cells : List Bool, cells ≠ [] → ∀ dt, 0 < dt → dt ≤ 1 → ∀ side,
        heldBranch fl expf f u cells dt side = .unloading := by
  obtain ⟨e1, e2⟩ := slow_openings hfl
  refine ⟨⟨1 / 2, dmg, ![8430738502437569 / 9007199254740992, 6341068275337658 / 18014398509481984]⟩,
    exPulled, rfl, ?_, ?_, ?_, ?_, ?_, ?_⟩
  · rw [abs_le]; constructor <;> norm_num
  · rw [abs_le]; constructor <;> norm_num
  · intro i
    fin_cases i
    · exact ⟨8430738502437569, -53, by norm_num, by norm_num, by norm_num⟩
    · exact ⟨6341068275337658, -54, by norm_num, by norm_num, by norm_num⟩
  · intro side i
    cases side <;> fin_cases i <;> simp [exPulled, isDouble_zero, isDouble_one]
  · simp [exPulled]
  · intro cells visited dt hdt hdt1 side
    set f : Point 2 := ⟨1 / 2, dmg,
      ![8430738502437569 / 9007199254740992, 6341068275337658 / 18014398509481984]⟩ with hf
    obtain ⟨h1, h2⟩ := held_record hfl ho expf f exPulled cells visited
    obtain ⟨g1, g2⟩ := pulled_openings hfl ho f
    unfold heldBranch
    simp only [h1, h2, seen_side ho f exPulled side]
    rw [g1, g2]
    simp only [hf]
    rw [e1, e2]
    have hdiff : fl ((8578486077159193 / 9007199254740992) - (8578486077159194 / 9007199254740992)) =
        -(1 / 9007199254740992) := by
      rw [fl_double hfl ⟨-1, -53, by norm_num, by norm_num, by norm_num⟩]
      norm_num
    have hrate : fl (-(1 / 9007199254740992) / dt) < 0 := by
      have hd : IsDouble (-(1 / 9007199254740992)) := ⟨-1, -53, by norm_num, by norm_num, by norm_num⟩
      refine (fl_le hfl hd ?_).trans_lt (by norm_num)
      rw [div_le_iff₀ hdt]
      nlinarith
    simp only [branchOf, hdiff, true_and, lt_irrefl, false_or]
    rw [if_neg (not_le.mpr hrate), if_pos hrate]

/-- **C123** fails the other way round as well: with the unit normal `15/17, 8/17` the measured opening is
above the recorded one, and with the damage model M1 an opening that does not change damages the
boundary. -/
theorem C123_violated_damage (hfl : IsRounding fl) (ho : SpecOdd fl) (powf : ℝ → ℝ → ℝ)
    (hpow : ∀ x, powf x 0 = 1) (dmg : DamagePrm) (hd : dmg.accumulation = 1) (he : dmg.exponent = 0)
    (hn : dmg.endurance = 0) (hz : dmg.setZero = false) :
    ∃ (f : Point 2) (u : Bool → Vec 2),
      f.dmg = dmg ∧ |f.normal 0 - 15 / 17| ≤ 1 / 2 ^ 53 ∧ |f.normal 1 - 8 / 17| ≤ 1 / 2 ^ 53 ∧
      0 < f.normal 0 * (u true 0 - u false 0) + f.normal 1 * (u true 1 - u false 1) ∧
      ∀ (s : Iface) (side : Bool), s.tmpDamage = 0 → s.oldOpening = f.kept fl u side →
        0 < (updateM1 fl powf dmg s (f.seen fl u side) 1 1).damage := by
  obtain ⟨e1, e2⟩ := creep_openings hfl
  refine ⟨⟨1 / 2, dmg, ![7947528754183228 / 9007199254740992, 8477364004462110 / 18014398509481984]⟩,
    exPulled, rfl, ?_, ?_, ?_, ?_⟩
  · rw [abs_le]; constructor <;> norm_num
  · rw [abs_le]; constructor <;> norm_num
  · simp [exPulled]
  · intro s side h0 hs
    set f : Point 2 := ⟨1 / 2, dmg,
      ![7947528754183228 / 9007199254740992, 8477364004462110 / 18014398509481984]⟩ with hf
    obtain ⟨g1, g2⟩ := pulled_openings hfl ho f
    rw [kept_side ho, g2] at hs
    rw [seen_side ho, g1]
    simp only [hf] at hs ⊢
    rw [e2] at hs
    rw [e1]
    have hu : IsDouble (1 / 9007199254740992) := ⟨1, -53, by norm_num, by norm_num, by norm_num⟩
    have hdiff : fl ((8225254985566014 / 9007199254740992) - (8225254985566013 / 9007199254740992)) =
        1 / 9007199254740992 := by
      rw [show (8225254985566014 / 9007199254740992 : ℝ) - 8225254985566013 / 9007199254740992 =
        1 / 9007199254740992 by norm_num, fl_double hfl hu]
    simp only [updateM1, hs, h0, hd, he, hn, hz, hpow, hdiff, mul_one, fl_one hfl, sub_zero, one_mul,
      zero_add, Bool.false_eq_true, if_false]
    have hm : Hist.macaulay (1 / 9007199254740992) = 1 / 9007199254740992 := by
      rw [Hist.macaulay, if_pos (by norm_num)]
    rw [hm, fl_double hfl hu, fl_double hfl hu, fl_double hfl hu, fl_double hfl hu, if_neg (by norm_num)]
    norm_num

/-! ## A rounding that treats both signs alike -/

/-- Nearest multiple, ties away from zero. -/
noncomputable def awayMultiple (x : ℝ) : ℝ :=
  if 0 ≤ x then nearestMultiple x else -nearestMultiple (-x)

theorem awayMultiple_rounding : IsRounding awayMultiple := by
  have h := nearestMultiple_rounding
  refine ⟨fun x => ?_, fun x z hz => ?_⟩
  · unfold awayMultiple
    split
    · exact h.double _
    · exact isDouble_neg (h.double _)
  · unfold awayMultiple
    split
    · exact h.nearest x z hz
    · have := h.nearest (-x) (-z) (isDouble_neg hz)
      rw [show x - -nearestMultiple (-x) = -(-x - nearestMultiple (-x)) by ring, abs_neg]
      rwa [show -x - -z = -(x - z) by ring, abs_neg] at this

theorem awayMultiple_odd : SpecOdd awayMultiple := by
  intro x
  unfold awayMultiple
  rcases lt_trichotomy x 0 with h | h | h
  · rw [if_pos (by linarith), if_neg (by linarith), neg_neg]
  · rw [h]
    simp [fl_zero nearestMultiple_rounding]
  · rw [if_neg (by linarith), if_pos h.le, neg_neg]

/-- The hypotheses of `C122_schedule` and `C123_held_partial` are met: a boundary along the first axis, pulled
apart obliquely. -/
example : ∃ (f : Point 2) (u : Bool → Vec 2), SpecAligned f 1 ∧ SpecApart f 1 u ∧ u true 0 ≠ u false 0 ∧
    f.recordOf awayMultiple Real.exp (heldCalls u [true, false]) =
      f.recordOf awayMultiple Real.exp (heldCalls u [false]) ∧
    heldBranch awayMultiple Real.exp f u [false, true] 1 true = .loading := by
  refine ⟨⟨1 / 2, ⟨1, 1, 1, 0, 1, false⟩, ![0, -1]⟩, fun side => if side then ![3, -2] else ![1, 5], ?_⟩
  have hf : SpecAligned (⟨1 / 2, ⟨1, 1, 1, 0, 1, false⟩, ![0, -1]⟩ : Point 2) 1 := by
    refine ⟨by simp, fun i hi => ?_⟩
    fin_cases i
    · rfl
    · exact absurd rfl hi
  have hu : SpecApart (⟨1 / 2, ⟨1, 1, 1, 0, 1, false⟩, ![0, -1]⟩ : Point 2) 1
      (fun side => if side then ![3, -2] else ![1, 5]) := by
    refine ⟨fun side i => ?_, Or.inr ?_⟩
    · have h : ∀ k : ℤ, |k| ≤ 2 ^ 53 → IsDouble (k : ℝ) := fun k hk =>
        ⟨k, 0, hk, by norm_num, by norm_num⟩
      cases side <;> fin_cases i
      · exact_mod_cast h 1 (by norm_num)
      · exact_mod_cast h 5 (by norm_num)
      · exact_mod_cast h 3 (by norm_num)
      · exact_mod_cast h (-2) (by norm_num)
    · have : (2 : ℝ) ^ (-400 : ℤ) ≤ 1 := zpow_le_one_of_nonpos₀ (by norm_num) (by norm_num)
      show (2 : ℝ) ^ (-400 : ℤ) ≤ -1 * (-2 - 5)
      linarith
  refine ⟨hf, hu, by simp, ?_, ?_⟩
  · exact C122_schedule awayMultiple_odd _ _ _ _ rfl (by simp [heldCalls]) (by simp [heldCalls])
  · exact C123_held_partial awayMultiple_rounding awayMultiple_odd _ _ 1 hf _ hu _ (by simp) _ _

/-- The hypotheses of `C123_violated_damage` are met. -/
example : ∃ (powf : ℝ → ℝ → ℝ) (dmg : DamagePrm), (∀ x, powf x 0 = 1) ∧ dmg.accumulation = 1 ∧
    dmg.exponent = 0 ∧ dmg.endurance = 0 ∧ dmg.setZero = false :=
  ⟨fun x y => x ^ y, ⟨1, 1, 1, 0, 0, false⟩, fun x => Real.rpow_zero x, rfl, rfl, rfl, rfl⟩

end
end Verif.Fp
