import Verif.Props.RoundedOpening
import Mathlib.Analysis.InnerProductSpace.PiL2

/-!
# C128: accuracy of the effective opening
-/

namespace Verif.Fp
open Cry Itf Hist

/-- Exact contraction. -/
def along {d : ℕ} (a b : Vec d) : ℝ := ∑ i, a i * b i

/-- Exact length. -/
noncomputable def size {d : ℕ} (a : Vec d) : ℝ := √(∑ i, a i ^ 2)

/-- Sum of the absolute values of the components. -/
def extent {d : ℕ} (a : Vec d) : ℝ := ∑ i, |a i|

/-- The smallest lengths considered: `2⁻⁵⁰⁰`. -/
noncomputable def speck : ℝ := (2 : ℝ) ^ (-500 : ℤ)

theorem speck_pos : 0 < speck := pow_pos2 _

theorem tiny_speck : tiny ≤ (speck / 2 ^ 30) ^ 2 := by
  have h : (speck / 2 ^ 30) ^ 2 = (2 : ℝ) ^ (-1060 : ℤ) := by
    have e : speck / 2 ^ 30 = (2 : ℝ) ^ (-530 : ℤ) := by
      rw [speck, div_eq_iff (by norm_num), show (2 : ℝ) ^ 30 = (2 : ℝ) ^ (30 : ℤ) by norm_num, ← pow_split]
      norm_num
    rw [e, sq, ← pow_split]
    norm_num
  rw [h]
  exact tiny_le (by norm_num)

theorem speck_small : speck ≤ 1 / 10 ^ 100 := by
  have e : speck = (1 / 2 ^ 250) ^ 2 := by
    rw [speck, show (-500 : ℤ) = -((250 * 2 : ℕ) : ℤ) by norm_num, zpow_neg, zpow_natCast, pow_mul]
    rw [one_div, inv_pow]
  rw [e]
  have : ((1 : ℝ) / 2 ^ 250) ≤ 1 / 10 ^ 50 := by norm_num
  calc ((1 : ℝ) / 2 ^ 250) ^ 2 ≤ (1 / 10 ^ 50) ^ 2 := pow_le_pow_left₀ (by positivity) this 2
    _ = 1 / 10 ^ 100 := by norm_num

/-- `tiny` is negligible against a `speck`. -/
theorem tiny_negligible : tiny ≤ speck / 2 ^ 60 := by
  have h := tiny_speck
  have h1 := speck_small
  have h0 := speck_pos
  have e : (speck / 2 ^ 30) ^ 2 = speck / 2 ^ 60 * speck := by ring
  rw [e] at h
  have : speck / 2 ^ 60 * speck ≤ speck / 2 ^ 60 * 1 :=
    mul_le_mul_of_nonneg_left (h1.trans (by norm_num)) (by positivity)
  linarith

theorem unit_val : unit = 1 / 9007199254740992 := by norm_num [unit]

theorem unit_pos : 0 < unit := by norm_num [unit]
theorem unit_small : unit ≤ 1 / 10 ^ 15 := by norm_num [unit]

/-- The square root of a number known up to a relative and an absolute error. -/
theorem sqrt_err {c S κ τ : ℝ} (hS : 0 ≤ S) (hκ : 0 ≤ κ) (hκ1 : κ ≤ 1) (hτ : 0 ≤ τ)
    (h : |c - S| ≤ κ * S + τ ^ 2) : |√c - √S| ≤ κ * √S + τ := by
  have hs := Real.sqrt_nonneg S
  have hc := Real.sqrt_nonneg c
  have hss := Real.sq_sqrt hS
  obtain ⟨h1, h2⟩ := abs_le.mp h
  rw [abs_le]
  constructor
  · have : (1 - κ) * √S ≤ √c + τ := by
      apply abs_le_of_sq_le_sq' _ (by positivity) |>.2
      have a1 : ((1 - κ) * √S) ^ 2 ≤ (1 - κ) * S := by
        rw [mul_pow, hss]
        have : (1 - κ) ^ 2 ≤ 1 - κ := by nlinarith
        exact mul_le_mul_of_nonneg_right this hS
      have a2 : c ≤ √c ^ 2 := by
        rcases le_total 0 c with h | h
        · rw [Real.sq_sqrt h]
        · exact h.trans (sq_nonneg _)
      nlinarith [mul_nonneg hc hτ]
    linarith
  · have : √c ≤ (1 + κ) * √S + τ := by
      apply Real.sqrt_le_iff.mpr ⟨by positivity, ?_⟩
      have a1 : (1 + κ) * S ≤ ((1 + κ) * √S) ^ 2 := by
        rw [mul_pow, hss]
        have : (1 + κ) ≤ (1 + κ) ^ 2 := by nlinarith
        exact mul_le_mul_of_nonneg_right this hS
      have : 0 ≤ (1 + κ) * √S * τ := by positivity
      nlinarith
    linarith

theorem size_le_extent {d : ℕ} (a : Vec d) : size a ≤ extent a := by
  apply Real.sqrt_le_iff.mpr ⟨Finset.sum_nonneg fun _ _ => abs_nonneg _, ?_⟩
  have h : ∀ s : Finset (Fin d), ∑ i ∈ s, a i ^ 2 ≤ (∑ i ∈ s, |a i|) ^ 2 := by
    intro s
    have := Finset.sum_sq_le_sq_sum_of_nonneg (s := s) (f := fun i => |a i|) (fun i _ => abs_nonneg _)
    simpa using this
  exact h _

theorem size_eq_norm {d : ℕ} (a : Vec d) : size a = ‖(WithLp.toLp 2 a : EuclideanSpace ℝ (Fin d))‖ := by
  rw [EuclideanSpace.norm_eq, size]
  simp

theorem size_near {d : ℕ} (a b : Vec d) : |size a - size b| ≤ extent (fun i => a i - b i) := by
  refine le_trans ?_ (size_le_extent _)
  rw [size_eq_norm, size_eq_norm, size_eq_norm]
  exact abs_norm_sub_norm_le _ _

theorem size_nonneg {d : ℕ} (a : Vec d) : 0 ≤ size a := Real.sqrt_nonneg _
theorem extent_nonneg {d : ℕ} (a : Vec d) : 0 ≤ extent a := Finset.sum_nonneg fun _ _ => abs_nonneg _

theorem extent_component {d : ℕ} (a : Vec d) (i : Fin d) : |a i| ≤ extent a :=
  Finset.single_le_sum (f := fun i => |a i|) (fun _ _ => abs_nonneg _) (Finset.mem_univ i)

theorem along_le {d : ℕ} (a b : Vec d) {M : ℝ} (ha : ∀ i, |a i| ≤ M) : |along a b| ≤ M * extent b := by
  refine (Finset.abs_sum_le_sum_abs _ _).trans ?_
  rw [extent, Finset.mul_sum]
  refine Finset.sum_le_sum fun i _ => ?_
  rw [abs_mul]
  exact mul_le_mul_of_nonneg_right (ha i) (abs_nonneg _)

section
variable {fl : ℝ → ℝ} (hfl : IsRounding fl)
include hfl

theorem three_products (p q r : ℝ) :
    |fl (fl (fl (0 + fl p) + fl q) + fl r) - (p + q + r)| ≤ 4 * unit * (|p| + |q| + |r|) + 8 * tiny := by
  have h1 := fl_err hfl p
  have h2 := fl_err hfl q
  have h3 := fl_err hfl r
  rw [zero_add, fl_double hfl (hfl.double p)]
  have h4 := fl_err hfl (fl p + fl q)
  have h5 := fl_err hfl (fl (fl p + fl q) + fl r)
  have a1 := fl_abs hfl p
  have a2 := fl_abs hfl q
  have a3 := fl_abs hfl r
  have a4 := fl_abs hfl (fl p + fl q)
  have b1 := abs_add_le (fl p) (fl q)
  have b2 := abs_add_le (fl (fl p + fl q)) (fl r)
  have ht := tiny_pos
  have hp := abs_nonneg p
  have hq := abs_nonneg q
  have hr := abs_nonneg r
  have c1 : |fl p + fl q| ≤ 1.1 * (|p| + |q|) + 3 * tiny := by
    norm_num [unit] at a1 a2 ⊢
    linarith
  have c2 : |fl (fl p + fl q) + fl r| ≤ 1.3 * (|p| + |q| + |r|) + 6 * tiny := by
    norm_num [unit] at a3 a4 ⊢
    linarith
  have d1 : |fl p + fl q - p - q| ≤ unit * (|p| + |q|) + 2 * tiny := by
    have := abs_add_le (fl p - p) (fl q - q)
    rw [show fl p - p + (fl q - q) = fl p + fl q - p - q by ring] at this
    linarith
  rw [show fl (fl (fl p + fl q) + fl r) - (p + q + r) =
    (fl (fl (fl p + fl q) + fl r) - (fl (fl p + fl q) + fl r)) +
      (fl (fl p + fl q) - (fl p + fl q)) + ((fl p + fl q - p - q) + (fl r - r)) by ring]
  have := abs_add_three (fl (fl (fl p + fl q) + fl r) - (fl (fl p + fl q) + fl r))
    (fl (fl p + fl q) - (fl p + fl q)) ((fl p + fl q - p - q) + (fl r - r))
  have g := abs_add_le (fl p + fl q - p - q) (fl r - r)
  rw [unit_val] at *
  linarith

theorem contract_err {d : ℕ} (hd : d = 2 ∨ d = 3) (a b : Vec d) :
    |contract fl a b - along a b| ≤ 4 * unit * (∑ i, |a i * b i|) + 8 * tiny := by
  rcases hd with rfl | rfl
  · have h := three_products hfl (a 0 * b 0) (a 1 * b 1) 0
    rw [fl_zero hfl, add_zero, fl_double hfl (hfl.double _)] at h
    simpa [contract, along, Fin.sum_univ_two, List.finRange_succ] using h
  · have h := three_products hfl (a 0 * b 0) (a 1 * b 1) (a 2 * b 2)
    simpa [contract, along, Fin.sum_univ_three, List.finRange_succ] using h

theorem contract_bound {d : ℕ} (hd : d = 2 ∨ d = 3) (a b : Vec d) {M : ℝ} (ha : ∀ i, |a i| ≤ M) :
    |contract fl a b - along a b| ≤ 4 * unit * (M * extent b) + 8 * tiny := by
  refine (contract_err hfl hd a b).trans ?_
  have : ∑ i, |a i * b i| ≤ M * extent b := by
    rw [extent, Finset.mul_sum]
    refine Finset.sum_le_sum fun i _ => ?_
    rw [abs_mul]
    exact mul_le_mul_of_nonneg_right (ha i) (abs_nonneg _)
  have := mul_le_mul_of_nonneg_left this (show 0 ≤ 4 * unit by have := unit_pos; linarith)
  linarith

theorem normOf_err {d : ℕ} (hd : d = 2 ∨ d = 3) (a : Vec d) :
    |normOf fl a - size a| ≤ 6 * unit * size a + speck / 2 ^ 20 := by
  have hS : 0 ≤ ∑ i, a i ^ 2 := Finset.sum_nonneg fun i _ => sq_nonneg _
  have h := contract_err hfl hd a a
  have e1 : along a a = ∑ i, a i ^ 2 := Finset.sum_congr rfl fun i _ => by ring
  have e2 : ∑ i, |a i * a i| = ∑ i, a i ^ 2 := Finset.sum_congr rfl fun i _ => by
    rw [abs_mul_self]; ring
  rw [e1, e2] at h
  have ht : 8 * tiny ≤ (speck / 2 ^ 25) ^ 2 := by
    have := tiny_speck
    have e : (speck / 2 ^ 25) ^ 2 = (2 ^ 5 : ℝ) ^ 2 * (speck / 2 ^ 30) ^ 2 := by ring
    rw [e]
    nlinarith [sq_nonneg (speck / 2 ^ 30)]
  have hs := speck_pos
  have h1 := sqrt_err (κ := 4 * unit) (τ := speck / 2 ^ 25) hS (by have := unit_pos; linarith)
    (by norm_num [unit]) (by positivity) (h.trans (by linarith))
  have h2 := fl_err hfl (√(contract fl a a))
  have h3 : |√(contract fl a a)| ≤ 1.1 * size a + speck / 2 ^ 25 := by
    have := abs_sub_abs_le_abs_sub (√(contract fl a a)) (size a)
    rw [abs_of_nonneg (size_nonneg a)] at this
    have hz := size_nonneg a
    have : |√(contract fl a a)| ≤ size a + (4 * unit * size a + speck / 2 ^ 25) := by
      unfold size at *
      linarith
    norm_num [unit] at this ⊢
    linarith
  have h4 := tiny_negligible
  have hz := size_nonneg a
  rw [show normOf fl a - size a = (normOf fl a - √(contract fl a a)) + (√(contract fl a a) - size a) by ring]
  have := abs_add_le (normOf fl a - √(contract fl a a)) (√(contract fl a a) - size a)
  have h2' : |normOf fl a - √(contract fl a a)| ≤ unit * |√(contract fl a a)| + tiny := h2
  have h1' : |√(contract fl a a) - size a| ≤ 4 * unit * size a + speck / 2 ^ 25 := h1
  rw [unit_val] at *
  linarith

/-- The off-diagonal entries of the projector are the rounded products as well. -/
theorem normalPart_eq {d : ℕ} (n : Vec d) (i j : Fin d) : normalPart fl n i j = fl (n i * n j) := by
  simp only [normalPart, Matrix.of_apply]
  split
  · next h => rw [h]
  · rw [mul_comm (n j) (n i), fl_double hfl (isDouble_two_mul (hfl.double _)), ← two_mul,
      mul_div_cancel_left₀ _ (by norm_num : (2 : ℝ) ≠ 0), fl_double hfl (hfl.double _)]


omit hfl in
theorem normal_component {d : ℕ} {n : Vec d} (hn : |along n n - 1| ≤ 16 * unit) (i : Fin d) : |n i| ≤ 1.01 := by
  have h : n i * n i ≤ along n n :=
    Finset.single_le_sum (f := fun i => n i * n i) (fun j _ => mul_self_nonneg _) (Finset.mem_univ i)
  have h2 := (abs_le.mp hn).2
  rw [unit_val] at h2
  apply abs_le_of_sq_le_sq _ (by norm_num)
  nlinarith

omit hfl in
theorem product_bound {x y : ℝ} (hx : |x| ≤ 1.01) (hy : |y| ≤ 1.01) : |x * y| ≤ 1.03 := by
  rw [abs_mul]
  have := mul_le_mul hx hy (abs_nonneg _) (by norm_num)
  linarith

theorem normalPart_err {d : ℕ} {n : Vec d} (hn : |along n n - 1| ≤ 16 * unit) (i j : Fin d) :
    |normalPart fl n i j - n i * n j| ≤ 2 * unit := by
  rw [normalPart_eq hfl]
  have h := fl_err hfl (n i * n j)
  have h1 := product_bound (normal_component hn i) (normal_component hn j)
  have h2 := tiny_negligible
  have h3 := speck_small
  rw [unit_val] at *
  norm_num at *
  linarith

theorem difference_err {D N p : ℝ} (hD : |D| ≤ 1) (hp : |p| ≤ 1.03) (h : |N - p| ≤ 2 * unit) :
    |fl (D - N) - (D - p)| ≤ 5 * unit := by
  have h0 := fl_err hfl (D - N)
  have h2 := tiny_negligible
  have h3 := speck_small
  have h5 : |D - N| ≤ 2.1 := by
    have a := abs_sub D N
    have b := abs_sub_abs_le_abs_sub N p
    rw [unit_val] at *
    linarith
  have h6 := abs_add_le (fl (D - N) - (D - N)) (p - N)
  rw [show fl (D - N) - (D - N) + (p - N) = fl (D - N) - (D - p) by ring, abs_sub_comm p N] at h6
  rw [unit_val] at *
  norm_num at *
  linarith

theorem tangentialPart_err {d : ℕ} {n : Vec d} (hn : |along n n - 1| ≤ 16 * unit) (i j : Fin d) :
    |tangentialPart fl n i j - ((if i = j then 1 else 0) - n i * n j)| ≤ 5 * unit :=
  difference_err hfl (by split <;> norm_num)
    (product_bound (normal_component hn i) (normal_component hn j)) (normalPart_err hfl hn i j)

theorem applyTo_err {d : ℕ} (hd : d = 2 ∨ d = 3) {m' m : Mat d} {κ B : ℝ} (hB : ∀ i j, |m i j| ≤ B)
    (hm : ∀ i j, |m' i j - m i j| ≤ κ) (δ : Vec d) (i : Fin d) :
    |applyTo fl m' δ i - along (m i) δ| ≤ 4 * unit * ((B + κ) * extent δ) + 8 * tiny + κ * extent δ := by
  have h1 := contract_bound hfl hd (m' i) δ (M := B + κ) fun j => by
    have := abs_sub_abs_le_abs_sub (m' i j) (m i j)
    linarith [hB i j, hm i j]
  have h2 := along_le (fun j => m' i j - m i j) δ (hm i)
  have e : along (fun j => m' i j - m i j) δ = along (m' i) δ - along (m i) δ := by
    simp only [along, sub_mul, Finset.sum_sub_distrib]
  rw [e] at h2
  have := abs_add_le (contract fl (m' i) δ - along (m' i) δ) (along (m' i) δ - along (m i) δ)
  rw [show contract fl (m' i) δ - along (m' i) δ + (along (m' i) δ - along (m i) δ) =
    applyTo fl m' δ i - along (m i) δ by rw [applyTo]; ring] at this
  linarith

omit hfl in
theorem extent_le {d : ℕ} (hd : d = 2 ∨ d = 3) (a : Vec d) {B : ℝ} (hB : 0 ≤ B) (h : ∀ i, |a i| ≤ B) :
    extent a ≤ 3 * B := by
  have := Finset.sum_le_card_nsmul Finset.univ (fun i => |a i|) B fun i _ => h i
  simp only [Finset.card_univ, Fintype.card_fin, nsmul_eq_mul] at this
  have hd3 : (d : ℝ) ≤ 3 := by
    rcases hd with rfl | rfl <;> norm_num
  exact this.trans (mul_le_mul_of_nonneg_right hd3 hB)

/-- The exact tangential part of an opening. -/
def tangential {d : ℕ} (n δ : Vec d) : Vec d := fun i => δ i - along n δ * n i

omit hfl in
theorem tangential_sum {d : ℕ} (n δ : Vec d) (i : Fin d) :
    along (fun j => (if i = j then (1 : ℝ) else 0) - n i * n j) δ = tangential n δ i := by
  simp only [along, sub_mul, Finset.sum_sub_distrib, ite_mul, one_mul, zero_mul, Finset.sum_ite_eq,
    Finset.mem_univ, if_true, tangential, mul_assoc, ← Finset.mul_sum]
  ring

omit hfl in
theorem tangential_extent {d : ℕ} (hd : d = 2 ∨ d = 3) {n : Vec d} (hn : |along n n - 1| ≤ 16 * unit)
    (δ : Vec d) : extent (tangential n δ) ≤ 4.1 * extent δ := by
  have h1 := along_le n δ (normal_component hn)
  have hL := extent_nonneg δ
  have h2 : extent (tangential n δ) ≤ extent δ + extent (fun i => along n δ * n i) := by
    unfold extent tangential
    rw [← Finset.sum_add_distrib]
    exact Finset.sum_le_sum fun i _ => abs_sub _ _
  have h3 : extent (fun i => along n δ * n i) ≤ 3 * (1.03 * extent δ) := by
    refine extent_le hd _ (by positivity) fun i => ?_
    rw [abs_mul]
    have := mul_le_mul h1 (normal_component hn i) (abs_nonneg _) (by positivity)
    linarith
  linarith

theorem tangential_err {d : ℕ} (hd : d = 2 ∨ d = 3) {n : Vec d} (hn : |along n n - 1| ≤ 16 * unit)
    (δ : Vec d) : |normOf fl (applyTo fl (tangentialPart fl n) δ) - size (tangential n δ)| ≤
      100 * unit * extent δ + speck / 2 ^ 19 := by
  have hL := extent_nonneg δ
  have ht := tiny_negligible
  have ht0 := tiny_pos
  have hs := speck_pos
  have h1 := normOf_err hfl hd (applyTo fl (tangentialPart fl n) δ)
  have h2 : ∀ i, |applyTo fl (tangentialPart fl n) δ i - tangential n δ i| ≤ 14 * unit * extent δ + 8 * tiny := by
    intro i
    have := applyTo_err hfl hd (m := Matrix.of fun i j => (if i = j then (1 : ℝ) else 0) - n i * n j) (κ := 5 * unit)
      (B := 2.04) (fun i j => by
        simp only [Matrix.of_apply]
        have a := abs_sub (if i = j then (1 : ℝ) else 0) (n i * n j)
        have b : |(if i = j then (1 : ℝ) else 0)| ≤ 1 := by split <;> norm_num
        have c := product_bound (normal_component hn i) (normal_component hn j)
        linarith)
      (fun i j => tangentialPart_err hfl hn i j) δ i
    have e : along ((Matrix.of fun i j => (if i = j then (1 : ℝ) else 0) - n i * n j : Mat d) i) δ = tangential n δ i :=
      tangential_sum n δ i
    rw [e] at this
    rw [unit_val] at *
    linarith
  have h3 := size_near (applyTo fl (tangentialPart fl n) δ) (tangential n δ)
  have h4 := extent_le hd (fun i => applyTo fl (tangentialPart fl n) δ i - tangential n δ i)
    (B := 14 * unit * extent δ + 8 * tiny) (by have := unit_pos; positivity) h2
  have h5 := tangential_extent hd hn δ
  have h6 := size_le_extent (tangential n δ)
  generalize normOf fl (applyTo fl (tangentialPart fl n) δ) = x at *
  generalize size (applyTo fl (tangentialPart fl n) δ) = y at *
  generalize size (tangential n δ) = z at *
  have h7 := abs_add_le (x - y) (y - z)
  rw [show x - y + (y - z) = x - z by ring] at h7
  have h8 := (abs_le.mp h3).2
  rw [unit_val] at *
  norm_num at *
  linarith

theorem normal_err {d : ℕ} (hd : d = 2 ∨ d = 3) {n : Vec d} (hn : |along n n - 1| ≤ 16 * unit)
    (δ : Vec d) : abs (normOf fl (applyTo fl (normalPart fl n) δ) - |along n δ|) ≤
      100 * unit * extent δ + speck / 2 ^ 19 := by
  have hL := extent_nonneg δ
  have ht := tiny_negligible
  have ht0 := tiny_pos
  have hs := speck_pos
  have h1 := normOf_err hfl hd (applyTo fl (normalPart fl n) δ)
  have h2 : ∀ i, |applyTo fl (normalPart fl n) δ i - along n δ * n i| ≤ 7 * unit * extent δ + 8 * tiny := by
    intro i
    have := applyTo_err hfl hd (m := Matrix.of fun i j => n i * n j) (κ := 2 * unit)
      (B := 1.03) (fun i j => product_bound (normal_component hn i) (normal_component hn j))
      (fun i j => normalPart_err hfl hn i j) δ i
    have e : along ((Matrix.of fun i j => n i * n j : Mat d) i) δ = along n δ * n i := by
      simp only [along, Matrix.of_apply, mul_assoc, ← Finset.mul_sum]
      ring
    rw [e] at this
    rw [unit_val] at *
    linarith
  have h3 := size_near (applyTo fl (normalPart fl n) δ) (fun i => along n δ * n i)
  have h4 := extent_le hd (fun i => applyTo fl (normalPart fl n) δ i - along n δ * n i)
    (B := 7 * unit * extent δ + 8 * tiny) (by have := unit_pos; positivity) h2
  have h5 := along_le n δ (normal_component hn)
  have h6 : size (fun i => along n δ * n i) = |along n δ| * √(along n n) := by
    rw [size, ← Real.sqrt_sq_eq_abs, ← Real.sqrt_mul (sq_nonneg _)]
    congr 1
    generalize along n δ = c
    rw [along, Finset.mul_sum]
    exact Finset.sum_congr rfl fun i _ => by ring
  have h9 : |√(along n n) - 1| ≤ 16 * unit := by
    have := sqrt_err (c := along n n) (S := 1) (κ := 16 * unit) (τ := 0) (by norm_num)
      (by have := unit_pos; linarith) (by norm_num [unit]) le_rfl (by linarith)
    simpa using this
  have h10 : abs (size (fun i => along n δ * n i) - |along n δ|) ≤ 17 * unit * extent δ := by
    rw [h6, show |along n δ| * √(along n n) - |along n δ| = |along n δ| * (√(along n n) - 1) by ring, abs_mul, abs_abs]
    have := mul_le_mul h5 h9 (abs_nonneg _) (by positivity)
    rw [unit_val] at *
    linarith
  generalize normOf fl (applyTo fl (normalPart fl n) δ) = x at *
  generalize size (applyTo fl (normalPart fl n) δ) = y at *
  generalize size (fun i => along n δ * n i) = z at *
  have h7 := abs_add_three (x - y) (y - z) (z - |along n δ|)
  rw [show x - y + (y - z) + (z - |along n δ|) = x - |along n δ| by ring] at h7
  have h8 := (abs_le.mp h3).2
  have h11 := (abs_le.mp h10).2
  rw [unit_val] at *
  norm_num at *
  linarith

omit hfl in
/-- The exact combination of a normal and a tangential opening. -/
noncomputable def hypot (ratio a t : ℝ) : ℝ := √(a ^ 2 + ratio ^ 2 * t ^ 2)

omit hfl in
theorem hypot_size (ratio a t : ℝ) : hypot ratio a t = size (![a, ratio * t] : Vec 2) := by
  rw [hypot, size, Fin.sum_univ_two]
  simp [mul_pow]

omit hfl in
theorem hypot_near {ratio : ℝ} (hr : 0 ≤ ratio) (a t a' t' : ℝ) :
    |hypot ratio a t - hypot ratio a' t'| ≤ |a - a'| + ratio * |t - t'| := by
  rw [hypot_size, hypot_size]
  refine (size_near _ _).trans_eq ?_
  rw [extent, Fin.sum_univ_two]
  simp only [Matrix.cons_val_zero, Matrix.cons_val_one]
  rw [← mul_sub, abs_mul, abs_of_nonneg hr]

omit hfl in
theorem hypot_le {ratio : ℝ} (hr : 0 ≤ ratio) (a t : ℝ) : hypot ratio a t ≤ |a| + ratio * |t| := by
  rw [hypot_size]
  refine (size_le_extent _).trans_eq ?_
  rw [extent, Fin.sum_univ_two]
  simp only [Matrix.cons_val_zero, Matrix.cons_val_one]
  rw [abs_mul, abs_of_nonneg hr]

set_option maxRecDepth 4000 in
theorem combine_err {ratio t : ℝ} (hr : 0 ≤ ratio) (ht : 0 ≤ t) (a : ℝ) :
    |combine fl ratio a t - hypot ratio a t| ≤ 8 * unit * (|a| + ratio * t) + speck / 2 ^ 20 * (1 + t) := by
  set p := fl (a * a)
  set q1 := fl (ratio * ratio)
  set q2 := fl (q1 * t)
  set q3 := fl (q2 * t)
  set x := fl (p + q3)
  have e : combine fl ratio a t = fl √x := rfl
  have T := tiny_pos
  have hp : |p - a ^ 2| ≤ unit * a ^ 2 + tiny := by
    have := fl_err hfl (a * a)
    rw [abs_mul_self] at this
    rw [sq]
    exact this
  have h1 : |q1 - ratio ^ 2| ≤ unit * ratio ^ 2 + tiny := by
    have := fl_err hfl (ratio * ratio)
    rw [abs_mul_self] at this
    rw [sq]
    exact this
  have h2 : |q2 - q1 * t| ≤ unit * (|q1| * t) + tiny := by
    have := fl_err hfl (q1 * t)
    rwa [abs_mul, abs_of_nonneg ht] at this
  have h3 : |q3 - q2 * t| ≤ unit * (|q2| * t) + tiny := by
    have := fl_err hfl (q2 * t)
    rwa [abs_mul, abs_of_nonneg ht] at this
  have hx : |x - (p + q3)| ≤ unit * |p + q3| + tiny := fl_err hfl _
  have hR := sq_nonneg ratio
  have hA := sq_nonneg a
  have ht2 := sq_nonneg t
  -- bounds of the factors
  have b1 : |q1| ≤ 1.1 * ratio ^ 2 + tiny := by
    have := abs_sub_abs_le_abs_sub q1 (ratio ^ 2)
    rw [abs_of_nonneg hR] at this
    rw [unit_val] at *
    linarith
  have b1t : |q1| * t ^ 2 ≤ 1.1 * (ratio ^ 2 * t ^ 2) + tiny * t ^ 2 := by
    have := mul_le_mul_of_nonneg_right b1 ht2
    linarith
  have b2 : |q2| * t ≤ 1.1 * (|q1| * t ^ 2) + tiny * t := by
    have a1 := abs_sub_abs_le_abs_sub q2 (q1 * t)
    rw [abs_mul, abs_of_nonneg ht] at a1
    have a2 : |q2| ≤ 1.1 * (|q1| * t) + tiny := by
      have := mul_nonneg (abs_nonneg q1) ht
      rw [unit_val] at *
      linarith
    have := mul_le_mul_of_nonneg_right a2 ht
    linarith
  have c1 : |q1 * t ^ 2 - ratio ^ 2 * t ^ 2| ≤ unit * (ratio ^ 2 * t ^ 2) + tiny * t ^ 2 := by
    rw [← sub_mul, abs_mul, abs_of_nonneg ht2]
    have := mul_le_mul_of_nonneg_right h1 ht2
    linarith
  have c2 : |q2 * t - q1 * t ^ 2| ≤ unit * (|q1| * t ^ 2) + tiny * t := by
    rw [show q2 * t - q1 * t ^ 2 = (q2 - q1 * t) * t by ring, abs_mul, abs_of_nonneg ht]
    have := mul_le_mul_of_nonneg_right h2 ht
    linarith
  have hY : 0 ≤ ratio ^ 2 * t ^ 2 := mul_nonneg hR ht2
  have hT1 : 0 ≤ tiny * t := mul_nonneg T.le ht
  have hT2 : 0 ≤ tiny * t ^ 2 := mul_nonneg T.le ht2
  have c3 : |q3 - ratio ^ 2 * t ^ 2| ≤ 4 * unit * (ratio ^ 2 * t ^ 2) + 2 * (tiny * t ^ 2 + tiny * t + tiny) := by
    have := abs_add_three (q3 - q2 * t) (q2 * t - q1 * t ^ 2) (q1 * t ^ 2 - ratio ^ 2 * t ^ 2)
    rw [show q3 - q2 * t + (q2 * t - q1 * t ^ 2) + (q1 * t ^ 2 - ratio ^ 2 * t ^ 2) = q3 - ratio ^ 2 * t ^ 2 by ring] at this
    have hq := mul_nonneg (abs_nonneg q1) ht2
    rw [unit_val] at *
    linarith
  have c4 : |p + q3| ≤ 1.1 * (a ^ 2 + ratio ^ 2 * t ^ 2) + 2 * (tiny * t ^ 2 + tiny * t + tiny) + tiny := by
    have a1 := abs_add_le p q3
    have a2 := abs_sub_abs_le_abs_sub p (a ^ 2)
    have a3 := abs_sub_abs_le_abs_sub q3 (ratio ^ 2 * t ^ 2)
    rw [abs_of_nonneg hA] at a2
    rw [abs_of_nonneg hY] at a3
    rw [unit_val] at *
    linarith
  have c5 : |x - (a ^ 2 + ratio ^ 2 * t ^ 2)| ≤ 6 * unit * (a ^ 2 + ratio ^ 2 * t ^ 2) +
      (speck / 2 ^ 25 * (1 + t)) ^ 2 := by
    have a1 := abs_add_three (x - (p + q3)) (p - a ^ 2) (q3 - ratio ^ 2 * t ^ 2)
    rw [show x - (p + q3) + (p - a ^ 2) + (q3 - ratio ^ 2 * t ^ 2) = x - (a ^ 2 + ratio ^ 2 * t ^ 2) by ring] at a1
    have a2 : 16 * tiny ≤ (speck / 2 ^ 25) ^ 2 := by
      have := tiny_speck
      have e : (speck / 2 ^ 25) ^ 2 = (2 ^ 5 : ℝ) ^ 2 * (speck / 2 ^ 30) ^ 2 := by ring
      rw [e]
      nlinarith [sq_nonneg (speck / 2 ^ 30)]
    have a3 := mul_le_mul_of_nonneg_right a2 (sq_nonneg (1 + t))
    have a4 : (speck / 2 ^ 25 * (1 + t)) ^ 2 = (speck / 2 ^ 25) ^ 2 * (1 + t) ^ 2 := mul_pow _ _ _
    rw [a4]
    have a5 : 16 * tiny * (1 + t) ^ 2 = 16 * tiny + 32 * (tiny * t) + 16 * (tiny * t ^ 2) := by ring
    rw [a5] at a3
    rw [unit_val] at *
    linarith
  have hs := speck_pos
  have c6 := sqrt_err (c := x) (κ := 6 * unit) (τ := speck / 2 ^ 25 * (1 + t)) (by linarith)
    (by have := unit_pos; linarith) (by norm_num [unit]) (by positivity) c5
  have c7 := fl_err hfl √x
  have c8 := hypot_le hr a t
  rw [abs_of_nonneg ht] at c8
  have c9 : 0 ≤ hypot ratio a t := Real.sqrt_nonneg _
  have c6' : |√x - hypot ratio a t| ≤ 6 * unit * hypot ratio a t + speck / 2 ^ 25 * (1 + t) := c6
  have c10 := abs_sub_abs_le_abs_sub (√x) (hypot ratio a t)
  rw [abs_of_nonneg c9] at c10
  have c11 := abs_add_le (fl √x - √x) (√x - hypot ratio a t)
  rw [show fl √x - √x + (√x - hypot ratio a t) = fl √x - hypot ratio a t by ring] at c11
  rw [e]
  have c12 := tiny_negligible
  have c13 : 0 ≤ speck * t := by positivity
  have c14 : speck / 2 ^ 25 * (1 + t) = speck / 2 ^ 25 + speck * t / 2 ^ 25 := by ring
  have c15 : speck / 2 ^ 20 * (1 + t) = speck / 2 ^ 20 + speck * t / 2 ^ 20 := by ring
  rw [c14] at c6'
  rw [c15]
  have c16 : 0 ≤ ratio * t := by positivity
  have c17 := abs_nonneg a
  generalize hypot ratio a t = H at *
  generalize speck * t = Z at *
  rw [unit_val] at *
  norm_num at *
  linarith

omit hfl in
/-- The effective opening of a boundary with normal `n` as the documentation defines it: closing does not
count, sliding counts with the stiffness ratio. -/
noncomputable def trueOpening {d : ℕ} (ratio : ℝ) (n δ : Vec d) : ℝ :=
  hypot ratio (max 0 (along n δ)) (size (tangential n δ))

omit hfl in
theorem macaulay_eq (x : ℝ) : Itf.macaulay x = max 0 x := by
  unfold Itf.macaulay
  split
  · next h => exact (max_eq_right h.le).symm
  · next h => exact (max_eq_left (not_lt.mp h)).symm

omit hfl in
theorem positive_near (x y : ℝ) : |max 0 x - max 0 y| ≤ |x - y| := by
  rcases le_total 0 x with hx | hx <;> rcases le_total 0 y with hy | hy <;>
    simp only [max_eq_left, max_eq_right, hx, hy] <;> rw [abs_le] <;> constructor <;>
    cases abs_cases (x - y) <;> linarith

/-- Rounded combination of rounded parts. -/
theorem combined_err {d : ℕ} (hd : d = 2 ∨ d = 3) {n : Vec d} (hn : |along n n - 1| ≤ 16 * unit)
    {ratio : ℝ} (hr : 0 ≤ ratio) (δ : Vec d) {a a' : ℝ} (ha : |a| ≤ 1.01 * extent δ)
    (h : |a' - a| ≤ 100 * unit * extent δ + speck / 2 ^ 19) :
    |combine fl ratio a' (normOf fl (applyTo fl (tangentialPart fl n) δ)) -
      hypot ratio a (size (tangential n δ))| ≤
        150 * unit * (1 + ratio) * extent δ + speck / 2 ^ 10 * (1 + ratio + extent δ) := by
  have hL := extent_nonneg δ
  have hs := speck_pos
  have h1 := tangential_err hfl hd hn δ
  have h2 := tangential_extent hd hn δ
  have h3 := size_le_extent (tangential n δ)
  have h4 := size_nonneg (tangential n δ)
  have h5 : 0 ≤ normOf fl (applyTo fl (tangentialPart fl n) δ) := by
    rw [normOf]
    exact fl_nonneg hfl (Real.sqrt_nonneg _)
  generalize normOf fl (applyTo fl (tangentialPart fl n) δ) = t' at *
  generalize size (tangential n δ) = t at *
  have h6 := combine_err hfl hr h5 a'
  have h7 := hypot_near hr a' t' a t
  have h8 := abs_add_le (combine fl ratio a' t' - hypot ratio a' t') (hypot ratio a' t' - hypot ratio a t)
  rw [show combine fl ratio a' t' - hypot ratio a' t' + (hypot ratio a' t' - hypot ratio a t) =
    combine fl ratio a' t' - hypot ratio a t by ring] at h8
  generalize hypot ratio a' t' = x at *
  generalize hypot ratio a t = y at *
  generalize combine fl ratio a' t' = z at *
  have h9 := (abs_le.mp h1).2
  have h10 := abs_sub_abs_le_abs_sub a' a
  have h11 : ratio * |t' - t| ≤ ratio * (100 * unit * extent δ + speck / 2 ^ 19) :=
    mul_le_mul_of_nonneg_left h1 hr
  have hsm := speck_small
  have h12 : t' ≤ 4.2 * extent δ + speck := by
    rw [unit_val] at *
    linarith
  have h13 : ratio * t' ≤ ratio * (4.2 * extent δ + speck) := mul_le_mul_of_nonneg_left h12 hr
  have h14 : |a'| ≤ 1.1 * extent δ + speck := by
    rw [unit_val] at *
    linarith
  have h15 : speck / 2 ^ 20 * (1 + t') ≤ speck / 2 ^ 20 * (1 + (4.2 * extent δ + speck)) :=
    mul_le_mul_of_nonneg_left (by linarith) (by positivity)
  have h16 : speck / 2 ^ 20 * (1 + (4.2 * extent δ + speck)) ≤ speck / 2 ^ 20 * (2 + 5 * extent δ) := by
    refine mul_le_mul_of_nonneg_left ?_ (by positivity)
    norm_num at *
    linarith
  have e1 : 150 * unit * (1 + ratio) * extent δ = 150 * unit * extent δ + 150 * unit * (ratio * extent δ) := by ring
  have e2 : speck / 2 ^ 10 * (1 + ratio + extent δ) =
    speck / 2 ^ 10 + (speck * ratio) / 2 ^ 10 + speck * extent δ / 2 ^ 10 := by ring
  have e3 : ratio * (100 * unit * extent δ + speck / 2 ^ 19) =
    100 * unit * (ratio * extent δ) + speck * ratio / 2 ^ 19 := by ring
  have e4 : ratio * (4.2 * extent δ + speck) = 4.2 * (ratio * extent δ) + speck * ratio := by ring
  have e5 : speck / 2 ^ 20 * (2 + 5 * extent δ) = speck / 2 ^ 19 + 5 / 2 ^ 20 * (speck * extent δ) := by ring
  rw [e1, e2]
  rw [e3] at h11
  rw [e4] at h13
  rw [e5] at h16
  have p1 : 0 ≤ ratio * extent δ := by positivity
  have p2 : 0 ≤ speck * ratio := by positivity
  have p3 : 0 ≤ speck * extent δ := by positivity
  generalize ratio * extent δ = RL at *
  generalize speck * ratio = SR at *
  generalize speck * extent δ = SL at *
  generalize ratio * t' = RT at *
  generalize ratio * |t' - t| = RTT at *
  generalize extent δ = L at *
  rw [unit_val] at *
  norm_num at *
  linarith

/-- The opening as measured, for the rounded jump of the displacements. -/
theorem measured_err {d : ℕ} (hd : d = 2 ∨ d = 3) {n : Vec d} (hn : |along n n - 1| ≤ 16 * unit)
    {ratio : ℝ} (hr : 0 ≤ ratio) (δ : Vec d) :
    |measuredOpening fl ratio δ n - trueOpening ratio n δ| ≤
        150 * unit * (1 + ratio) * extent δ + speck / 2 ^ 10 * (1 + ratio + extent δ) := by
  have h := along_le n δ (normal_component hn)
  have hL := extent_nonneg δ
  refine combined_err hfl hd hn hr δ ?_ ?_
  · rw [abs_of_nonneg (le_max_left _ _)]
    exact max_le (by positivity) ((le_abs_self _).trans h)
  · rw [macaulay_eq]
    refine (positive_near _ _).trans ((contract_bound hfl hd n δ (normal_component hn)).trans ?_)
    have := tiny_negligible
    have hs := speck_pos
    rw [unit_val]
    linarith

theorem recorded_err {d : ℕ} (hd : d = 2 ∨ d = 3) {n : Vec d} (hn : |along n n - 1| ≤ 16 * unit)
    {ratio : ℝ} (hr : 0 ≤ ratio) (u v : Vec d) :
    |recordedOpening fl ratio u v n -
      hypot ratio |along n fun i => fl (v i - u i)| (size (tangential n fun i => fl (v i - u i)))| ≤
        150 * unit * (1 + ratio) * extent (fun i => fl (v i - u i)) +
          speck / 2 ^ 10 * (1 + ratio + extent (fun i => fl (v i - u i))) := by
  have h := along_le n (fun i => fl (v i - u i)) (normal_component hn)
  refine combined_err hfl hd hn hr _ ?_ ?_
  · rw [abs_abs]
    exact h
  · have h1 := normal_err hfl hd hn fun i => fl (v i - u i)
    rw [macaulay_eq, max_eq_right]
    · exact h1
    · rw [normOf]
      exact fl_nonneg hfl (Real.sqrt_nonneg _)

omit hfl in
theorem tangential_sub {d : ℕ} (n δ D : Vec d) (i : Fin d) :
    tangential n δ i - tangential n D i = tangential n (fun i => δ i - D i) i := by
  simp only [tangential, along, mul_sub, Finset.sum_sub_distrib]
  ring

set_option maxRecDepth 4000 in
/-- The rounding of the jump itself. -/
theorem jump_err {d : ℕ} (hd : d = 2 ∨ d = 3) {n : Vec d} (hn : |along n n - 1| ≤ 16 * unit)
    {ratio : ℝ} (hr : 0 ≤ ratio) (D : Vec d) {f : ℝ → ℝ} (hf : ∀ x y, |f x - f y| ≤ |x - y|) {z : ℝ}
    (h : |z - hypot ratio (f (along n fun i => fl (D i))) (size (tangential n fun i => fl (D i)))| ≤
      150 * unit * (1 + ratio) * extent (fun i => fl (D i)) +
          speck / 2 ^ 10 * (1 + ratio + extent (fun i => fl (D i)))) :
    |z - hypot ratio (f (along n D)) (size (tangential n D))| ≤
      200 * unit * (1 + ratio) * extent D + speck * (1 + ratio + extent D) := by
  have hL := extent_nonneg D
  have hs := speck_pos
  have hE : extent (fun i => fl (D i) - D i) ≤ unit * extent D + 3 * tiny := by
    have : extent (fun i => fl (D i) - D i) ≤ ∑ i, (unit * |D i| + tiny) :=
      Finset.sum_le_sum fun i _ => fl_err hfl _
    rw [Finset.sum_add_distrib, ← Finset.mul_sum, Finset.sum_const, Finset.card_univ, Fintype.card_fin,
      nsmul_eq_mul] at this
    have hd3 : (d : ℝ) * tiny ≤ 3 * tiny := by
      refine mul_le_mul_of_nonneg_right ?_ tiny_pos.le
      rcases hd with rfl | rfl <;> norm_num
    unfold extent at this ⊢
    linarith
  have hL' : extent (fun i => fl (D i)) ≤ extent D + extent (fun i => fl (D i) - D i) := by
    unfold extent
    rw [← Finset.sum_add_distrib]
    refine Finset.sum_le_sum fun i _ => ?_
    have := abs_add_le (D i) (fl (D i) - D i)
    rwa [add_sub_cancel] at this
  have h1 := hypot_near hr (f (along n fun i => fl (D i))) (size (tangential n fun i => fl (D i)))
    (f (along n D)) (size (tangential n D))
  have h2 := hf (along n fun i => fl (D i)) (along n D)
  have h3 : |(along n fun i => fl (D i)) - along n D| ≤ 1.01 * extent (fun i => fl (D i) - D i) := by
    have := along_le n (fun i => fl (D i) - D i) (normal_component hn)
    have e : (along n fun i => fl (D i) - D i) = (along n fun i => fl (D i)) - along n D := by
      simp only [along, mul_sub, Finset.sum_sub_distrib]
    rwa [e] at this
  have h4 := size_near (tangential n fun i => fl (D i)) (tangential n D)
  have h5 : extent (fun i => tangential n (fun i => fl (D i)) i - tangential n D i) ≤
      4.1 * extent (fun i => fl (D i) - D i) := by
    have := tangential_extent hd hn fun i => fl (D i) - D i
    have e : (fun i => tangential n (fun i => fl (D i)) i - tangential n D i) =
        tangential n fun i => fl (D i) - D i := funext fun i => tangential_sub n _ D i
    rwa [e]
  have h6 := abs_add_le
    (z - hypot ratio (f (along n fun i => fl (D i))) (size (tangential n fun i => fl (D i))))
    (hypot ratio (f (along n fun i => fl (D i))) (size (tangential n fun i => fl (D i))) -
      hypot ratio (f (along n D)) (size (tangential n D)))
  rw [sub_add_sub_cancel] at h6
  have hT := tiny_negligible
  generalize extent (fun i => fl (D i) - D i) = E at *
  generalize extent (fun i => fl (D i)) = L' at *
  generalize |size (tangential n fun i => fl (D i)) - size (tangential n D)| = W at *
  generalize extent D = L at *
  have h7 : ratio * W ≤ ratio * (4.1 * (unit * L + 3 * tiny)) :=
    mul_le_mul_of_nonneg_left (by linarith) hr
  have h8 : 150 * unit * (1 + ratio) * L' ≤ 150 * unit * (1 + ratio) * (1.1 * L + 3 * tiny) := by
    refine mul_le_mul_of_nonneg_left ?_ (by have := unit_pos; positivity)
    rw [unit_val] at *
    linarith
  have h9 : speck / 2 ^ 10 * (1 + ratio + L') ≤ speck / 2 ^ 10 * (1 + ratio + (1.1 * L + 3 * tiny)) := by
    refine mul_le_mul_of_nonneg_left ?_ (by positivity)
    rw [unit_val] at *
    linarith
  have hsm := speck_small
  have hT0 := tiny_pos
  have hT1 : tiny ≤ 1 / 10 ^ 100 := by
    refine hT.trans ?_
    norm_num at *
    linarith
  have h10 : ratio * tiny ≤ ratio * (speck / 2 ^ 60) := mul_le_mul_of_nonneg_left hT hr
  have h11 : speck * tiny ≤ speck * (1 / 10 ^ 100) := mul_le_mul_of_nonneg_left hT1 hs.le
  have p1 : 0 ≤ ratio * L := by positivity
  have p2 : 0 ≤ speck * L := by positivity
  have p3 : 0 ≤ speck * ratio := by positivity
  have e1 : ratio * (4.1 * (unit * L + 3 * tiny)) = 4.1 * unit * (ratio * L) + 12.3 * (ratio * tiny) := by ring
  have e2 : 150 * unit * (1 + ratio) * (1.1 * L + 3 * tiny) =
    165 * unit * L + 165 * unit * (ratio * L) + 450 * unit * tiny + 450 * unit * (ratio * tiny) := by ring
  have e3 : speck / 2 ^ 10 * (1 + ratio + (1.1 * L + 3 * tiny)) =
    speck / 2 ^ 10 + speck * ratio / 2 ^ 10 + 1.1 / 2 ^ 10 * (speck * L) + 3 / 2 ^ 10 * (speck * tiny) := by ring
  have e4 : 200 * unit * (1 + ratio) * L + speck * (1 + ratio + L) =
    200 * unit * L + 200 * unit * (ratio * L) + speck + speck * ratio + speck * L := by ring
  have e5 : ratio * (speck / 2 ^ 60) = speck * ratio / 2 ^ 60 := by ring
  rw [e1] at h7
  rw [e2] at h8
  rw [e3] at h9
  rw [e5] at h10
  rw [e4]
  have p4 : 0 ≤ ratio * tiny := by positivity
  generalize ratio * L = RL at *
  generalize speck * L = SL at *
  generalize speck * ratio = SR at *
  generalize speck * tiny = ST at *
  generalize ratio * tiny = RT at *
  generalize ratio * W = RW at *
  rw [unit_val] at *
  norm_num at *
  linarith

end

/-! ## The property -/

/-- The normal vector is a unit vector up to a few roundings. -/
def SpecUnitNormal {d : ℕ} (n : Vec d) : Prop := |∑ i, n i * n i - 1| ≤ 16 / 2 ^ 53

/-- The effective opening of the documentation, without rounding: a closing boundary does not count as
open, sliding counts with the stiffness ratio. -/
noncomputable def SpecOpening {d : ℕ} (ratio : ℝ) (n jump : Vec d) : ℝ :=
  √((max 0 (∑ i, n i * jump i)) ^ 2 +
    ratio ^ 2 * ∑ i, (jump i - (∑ j, n j * jump j) * n i) ^ 2)

/-- The error allowed: 200 roundings of the size of the jump, and an amount that matters only where
squares underflow. -/
noncomputable def SpecTolerance {d : ℕ} (ratio : ℝ) (jump : Vec d) : ℝ :=
  200 / 2 ^ 53 * (1 + ratio) * (∑ i, |jump i|) + 2 ^ (-500 : ℤ) * (1 + ratio + ∑ i, |jump i|)

/-- The jump of the displacements over the face. -/
def SpecJump {d : ℕ} (u : Bool → Vec d) : Vec d := fun i => u true i - u false i

theorem hypot_eq {d : ℕ} (ratio a : ℝ) (n jump : Vec d) :
    hypot ratio a (size (tangential n jump)) =
      √(a ^ 2 + ratio ^ 2 * ∑ i, (jump i - (∑ j, n j * jump j) * n i) ^ 2) := by
  rw [hypot, size, Real.sq_sqrt (Finset.sum_nonneg fun i _ => sq_nonneg _)]
  rfl

theorem along_neg_neg {d : ℕ} (n D : Vec d) : along (fun i => -n i) (fun i => -D i) = along n D := by
  simp only [along, neg_mul_neg]

theorem along_neg {d : ℕ} (n D : Vec d) : along (fun i => -n i) D = -along n D := by
  simp only [along, neg_mul, Finset.sum_neg_distrib]

theorem size_tangential_neg {d : ℕ} (n D : Vec d) :
    size (tangential (fun i => -n i) (fun i => -D i)) = size (tangential n D) := by
  have : tangential (fun i => -n i) (fun i => -D i) = fun i => -tangential n D i := by
    funext i
    simp only [tangential, along_neg_neg]
    ring
  rw [this]
  simp only [size, neg_sq]

theorem extent_neg {d : ℕ} (D : Vec d) : extent (fun i => -D i) = extent D := by
  simp only [extent, abs_neg]

theorem unit_frac : (200 : ℝ) / 2 ^ 53 = 200 * unit := by norm_num [unit]

theorem SpecTolerance_eq {d : ℕ} (ratio : ℝ) (D : Vec d) : SpecTolerance ratio D =
    200 * unit * (1 + ratio) * extent D + speck * (1 + ratio + extent D) := by
  rw [SpecTolerance, unit_frac]
  rfl

/-- **C128.** Whatever the displacements, the normal and the rounding to nearest, the opening either cell
measures agrees with the documented one up to 200 roundings of the size of the jump. -/
theorem C128_measured {fl : ℝ → ℝ} (hfl : IsRounding fl) {d : ℕ} (hd : d = 2 ∨ d = 3) (f : Point d)
    (hn : SpecUnitNormal f.normal) (hr : 0 ≤ f.ratio) (u : Bool → Vec d) (side : Bool) :
    |f.seen fl u side - SpecOpening f.ratio f.normal (SpecJump u)| ≤
      SpecTolerance f.ratio (SpecJump u) := by
  have hn' : |along f.normal f.normal - 1| ≤ 16 * unit := by
    refine le_trans hn (le_of_eq ?_)
    norm_num [unit]
  have hpos : ∀ x y : ℝ, |(fun x => max 0 x) x - (fun x => max 0 x) y| ≤ |x - y| := positive_near
  rw [SpecTolerance_eq, SpecOpening, ← hypot_eq]
  cases side
  · exact jump_err hfl hd hn' hr (SpecJump u) hpos
      (measured_err hfl hd hn' hr fun i => fl (SpecJump u i))
  · have h := jump_err hfl hd (n := fun i => -f.normal i) (by rwa [along_neg_neg]) hr
      (fun i => -SpecJump u i) hpos
      (measured_err hfl hd (by rwa [along_neg_neg]) hr fun i => fl (-SpecJump u i))
    rw [along_neg_neg, size_tangential_neg, extent_neg] at h
    have e : (fun i => fl (-SpecJump u i)) = fun i => fl (u false i - u true i) := by
      funext i
      rw [SpecJump, neg_sub]
    rw [e] at h
    exact h

/-- **C128.** The opening either cell records agrees with the documented one in the same way, provided the
boundary is not closing. -/
theorem C128_recorded {fl : ℝ → ℝ} (hfl : IsRounding fl) {d : ℕ} (hd : d = 2 ∨ d = 3) (f : Point d)
    (hn : SpecUnitNormal f.normal) (hr : 0 ≤ f.ratio) (u : Bool → Vec d)
    (apart : 0 ≤ ∑ i, f.normal i * SpecJump u i) (side : Bool) :
    |f.kept fl u side - SpecOpening f.ratio f.normal (SpecJump u)| ≤
      SpecTolerance f.ratio (SpecJump u) := by
  have hn' : |along f.normal f.normal - 1| ≤ 16 * unit := by
    refine le_trans hn (le_of_eq ?_)
    norm_num [unit]
  have habs : ∀ x y : ℝ, abs ((fun x : ℝ => |x|) x - (fun x => |x|) y) ≤ |x - y| :=
    fun x y => abs_abs_sub_abs_le x y
  rw [SpecTolerance_eq, SpecOpening, ← hypot_eq, max_eq_right apart]
  have e0 : ∑ i, f.normal i * SpecJump u i = along f.normal (SpecJump u) := rfl
  have e1 : |along f.normal (SpecJump u)| = along f.normal (SpecJump u) := abs_of_nonneg apart
  rw [e0]
  cases side
  · have e : (fun i => fl (u false i - u true i)) = fun i => fl (-SpecJump u i) := by
      funext i
      rw [SpecJump, neg_sub]
    have g := recorded_err hfl hd hn' hr (u true) (u false)
    rw [e] at g
    have h := jump_err hfl hd (n := f.normal) hn' hr (fun i => -SpecJump u i) habs g
    have e2 : size (tangential f.normal fun i => -SpecJump u i) = size (tangential f.normal (SpecJump u)) := by
      have : (tangential f.normal fun i => -SpecJump u i) = fun i => -tangential f.normal (SpecJump u) i := by
        funext i
        simp only [tangential, along, mul_neg, Finset.sum_neg_distrib]
        ring
      rw [this]
      simp only [size, neg_sq]
    have e3 : |along f.normal fun i => -SpecJump u i| = along f.normal (SpecJump u) := by
      rw [← e1, ← abs_neg (along f.normal (SpecJump u))]
      congr 1
      simp only [along, mul_neg, Finset.sum_neg_distrib]
    simp only [e2, e3, extent_neg] at h
    exact h
  · have h := jump_err hfl hd (n := fun i => -f.normal i) (by rwa [along_neg_neg]) hr (SpecJump u) habs
      (recorded_err hfl hd (by rwa [along_neg_neg]) hr (u false) (u true))
    have e2 : size (tangential (fun i => -f.normal i) (SpecJump u)) = size (tangential f.normal (SpecJump u)) := by
      have := size_tangential_neg f.normal fun i => -SpecJump u i
      simp only [neg_neg] at this
      rw [this]
      have : (tangential f.normal fun i => -SpecJump u i) = fun i => -tangential f.normal (SpecJump u) i := by
        funext i
        simp only [tangential, along, mul_neg, Finset.sum_neg_distrib]
        ring
      rw [this]
      simp only [size, neg_sq]
    simp only [e2, along_neg, abs_neg, e1] at h
    exact h

/-- A difference of doubles that is negative is not lost. -/
theorem difference_neg {fl : ℝ → ℝ} (hfl : IsRounding fl) {x y : ℝ} (hx : IsDouble x) (hy : IsDouble y)
    (h : x < y) : fl (x - y) ≤ -(2 : ℝ) ^ (-1074 : ℤ) := by
  have grid : ∀ z, IsDouble z → ∃ k : ℤ, z = k * (2 : ℝ) ^ (-1074 : ℤ) := by
    intro z hz
    rcases double_cases hz (-1074) with h | h
    · exact h
    · omega
  obtain ⟨a, ha⟩ := grid x hx
  obtain ⟨b, hb⟩ := grid y hy
  have hp := pow_pos2 (-1074)
  have hab : a < b := by
    rw [ha, hb] at h
    exact_mod_cast lt_of_mul_lt_mul_right h hp.le
  refine fl_le hfl ⟨-1, -1074, by norm_num, by norm_num, by push_cast; ring⟩ ?_
  rw [ha, hb, ← sub_mul]
  have : ((a : ℝ) - b) ≤ -1 := by
    have : a - b ≤ -1 := by omega
    exact_mod_cast this
  have := mul_le_mul_of_nonneg_right this hp.le
  linarith

/-- The branch of the cohesive law the cell `side` takes: after any history the displacements `u₀` are
recorded, the next step is prepared and the displacements `u` are evaluated. -/
noncomputable def nextBranch (fl expf : ℝ → ℝ) {d : ℕ} (f : Point d) (calls : List (Visit d × List Bool))
    (u₀ u : Bool → Vec d) (cells : List Bool) (dt : ℝ) (side : Bool) : Branch :=
  let r := f.recordOf fl expf
    (calls ++ [(.record u₀, cells), (.prepare, cells), (.evaluate u, cells)])
  branchOf fl (f.seen fl u side) r.maxOpening r.oldOpening dt

theorem next_record {fl : ℝ → ℝ} (ho : SpecOdd fl) (expf : ℝ → ℝ) {d : ℕ} (f : Point d)
    (calls : List (Visit d × List Bool)) (u₀ u : Bool → Vec d) (cells : List Bool) (visited : cells ≠ []) :
    let r := f.recordOf fl expf
      (calls ++ [(.record u₀, cells), (.prepare, cells), (.evaluate u, cells)])
    r.maxOpening = max (f.recordOf fl expf calls).maxOpening (f.seen fl u false) ∧
      r.oldOpening = f.kept fl u₀ false := by
  intro r
  show (f.recordOf fl expf _).maxOpening = _ ∧ (f.recordOf fl expf _).oldOpening = _
  unfold Point.recordOf
  rw [List.foldl_append]
  simp only [List.foldl_cons, List.foldl_nil]
  rw [visits ho expf f _ cells _ visited, visits ho expf f _ cells _ visited,
    visits ho expf f _ cells _ visited]
  exact ⟨rfl, rfl⟩

/-- **C128.** A boundary that has opened by more than the tolerance counts as loading exactly if its
opening, as measured, is not below the largest one so far: oblique boundaries included. -/
theorem C128_opens {fl : ℝ → ℝ} (hfl : IsRounding fl) (ho : SpecOdd fl) (expf : ℝ → ℝ) {d : ℕ}
    (hd : d = 2 ∨ d = 3) (f : Point d) (hn : SpecUnitNormal f.normal) (hr : 0 ≤ f.ratio)
    (calls : List (Visit d × List Bool)) (u₀ u : Bool → Vec d)
    (apart : 0 ≤ ∑ i, f.normal i * SpecJump u₀ i)
    (opens : SpecOpening f.ratio f.normal (SpecJump u₀) + SpecTolerance f.ratio (SpecJump u₀) +
      SpecTolerance f.ratio (SpecJump u) ≤ SpecOpening f.ratio f.normal (SpecJump u))
    (cells : List Bool) (visited : cells ≠ []) (dt : ℝ) (hdt : 0 < dt) (side : Bool) :
    nextBranch fl expf f calls u₀ u cells dt side =
      if (f.recordOf fl expf calls).maxOpening ≤ f.seen fl u side then .loading else .unloading := by
  obtain ⟨h1, h2⟩ := next_record ho expf f calls u₀ u cells visited
  have a1 := (abs_le.mp (C128_measured hfl hd f hn hr u false)).1
  have a2 := (abs_le.mp (C128_recorded hfl hd f hn hr u₀ apart false)).2
  have hrate : 0 ≤ fl (fl (f.seen fl u false - f.kept fl u₀ false) / dt) :=
    fl_nonneg hfl (div_nonneg (fl_nonneg hfl (by linarith)) hdt.le)
  unfold nextBranch
  simp only [h1, h2, seen_side ho f u side, branchOf]
  by_cases h : (f.recordOf fl expf calls).maxOpening ≤ f.seen fl u false
  · rw [if_pos h, if_pos ⟨(max_eq_right h).symm, hrate⟩]
  · have hlt := not_le.mp h
    rw [if_neg h, max_eq_left hlt.le, if_neg fun h => hlt.ne h.1, if_pos (Or.inl hlt)]

/-- **C128.** A boundary that has closed by more than the tolerance counts as unloading, for steps up to
one second. -/
theorem C128_closes {fl : ℝ → ℝ} (hfl : IsRounding fl) (ho : SpecOdd fl) (expf : ℝ → ℝ) {d : ℕ}
    (hd : d = 2 ∨ d = 3) (f : Point d) (hn : SpecUnitNormal f.normal) (hr : 0 ≤ f.ratio)
    (calls : List (Visit d × List Bool)) (u₀ u : Bool → Vec d)
    (apart : 0 ≤ ∑ i, f.normal i * SpecJump u₀ i)
    (closes : SpecOpening f.ratio f.normal (SpecJump u) + SpecTolerance f.ratio (SpecJump u) +
      SpecTolerance f.ratio (SpecJump u₀) < SpecOpening f.ratio f.normal (SpecJump u₀))
    (cells : List Bool) (visited : cells ≠ []) (dt : ℝ) (hdt : 0 < dt) (hdt1 : dt ≤ 1) (side : Bool) :
    nextBranch fl expf f calls u₀ u cells dt side = .unloading := by
  obtain ⟨h1, h2⟩ := next_record ho expf f calls u₀ u cells visited
  have a1 := (abs_le.mp (C128_measured hfl hd f hn hr u false)).2
  have a2 := (abs_le.mp (C128_recorded hfl hd f hn hr u₀ apart false)).1
  have hdiff := difference_neg hfl (x := f.seen fl u false) (y := f.kept fl u₀ false)
    (hfl.double _) (hfl.double _) (by linarith)
  have hrate : fl (fl (f.seen fl u false - f.kept fl u₀ false) / dt) < 0 := by
    have hp := pow_pos2 (-1074)
    refine (fl_le hfl (y := -(2 : ℝ) ^ (-1074 : ℤ))
      ⟨-1, -1074, by norm_num, by norm_num, by push_cast; ring⟩ ?_).trans_lt (by linarith)
    rw [div_le_iff₀ hdt]
    have := mul_le_mul_of_nonneg_left hdt1 hp.le
    linarith
  unfold nextBranch
  simp only [h1, h2, seen_side ho f u side, branchOf]
  rw [if_neg fun h => (not_le.mpr hrate) h.2, if_pos]
  rcases le_total (f.recordOf fl expf calls).maxOpening (f.seen fl u false) with h | h
  · exact Or.inr ⟨(max_eq_right h).symm, hrate⟩
  · rcases h.eq_or_lt with h | h
    · exact Or.inr ⟨by rw [← h, max_self], hrate⟩
    · exact Or.inl (by rwa [max_eq_left h.le])

/-! ## Example: an oblique boundary pulled apart along the first axis -/

/-- A boundary with the normal `3/5, 4/5`. -/
noncomputable def exOblique : Point 2 := ⟨1, ⟨1, 1, 1, 0, 1, false⟩, ![3 / 5, 4 / 5]⟩

/-- A cell at rest and a neighbour displaced by `x` along the first axis. -/
def exAlong (x : ℝ) : Bool → Vec 2 := fun side => if side then ![x, 0] else ![0, 0]

theorem exAlong_jump (x : ℝ) : SpecJump (exAlong x) = ![x, 0] := by
  funext i
  fin_cases i <;> simp [SpecJump, exAlong]

theorem exOblique_opening {x : ℝ} (hx : 0 ≤ x) : SpecOpening exOblique.ratio exOblique.normal ![x, 0] = x := by
  have h : 0 ≤ 3 / 5 * x := by positivity
  simp only [SpecOpening, exOblique, Fin.sum_univ_two, Matrix.cons_val_zero, Matrix.cons_val_one, mul_zero,
    add_zero]
  rw [max_eq_right h, show (3 / 5 * x) ^ 2 + 1 ^ 2 * ((x - 3 / 5 * x * (3 / 5)) ^ 2 +
    (0 - 3 / 5 * x * (4 / 5)) ^ 2) = x ^ 2 by ring, Real.sqrt_sq hx]

theorem exOblique_tolerance {x : ℝ} (hx : 0 ≤ x) (hx2 : x ≤ 2) :
    SpecTolerance exOblique.ratio (![x, 0] : Vec 2) ≤ 1 / 10 := by
  have h : (2 : ℝ) ^ (-500 : ℤ) ≤ 1 / 10 ^ 100 := speck_small
  simp only [SpecTolerance, exOblique, Fin.sum_univ_two, Matrix.cons_val_zero, Matrix.cons_val_one, abs_zero,
    add_zero, abs_of_nonneg hx]
  have := mul_le_mul_of_nonneg_right h (show 0 ≤ 1 + 1 + x by positivity)
  generalize (2 : ℝ) ^ (-500 : ℤ) * (1 + 1 + x) = y at *
  clear h
  norm_num at *
  linarith

/-- The hypotheses of the theorems are met: the boundary opens from one to two units and counts as loading,
or closes from two to one and counts as unloading, whoever visits it. -/
example : nextBranch awayMultiple Real.exp exOblique [] (exAlong 1) (exAlong 2) [true, false] 1 true =
      (if Iface.new.maxOpening ≤ exOblique.seen awayMultiple (exAlong 2) true then .loading else .unloading) ∧
    ∀ calls, nextBranch awayMultiple Real.exp exOblique calls (exAlong 2) (exAlong 1) [false] 1 true =
      .unloading := by
  have hn : SpecUnitNormal exOblique.normal := by
    simp only [SpecUnitNormal, exOblique, Fin.sum_univ_two, Matrix.cons_val_zero, Matrix.cons_val_one]
    norm_num
  have hr : 0 ≤ exOblique.ratio := by norm_num [exOblique]
  have t1 := exOblique_tolerance (x := 1) (by norm_num) (by norm_num)
  have t2 := exOblique_tolerance (x := 2) (by norm_num) (by norm_num)
  have o1 := exOblique_opening (x := 1) (by norm_num)
  have o2 := exOblique_opening (x := 2) (by norm_num)
  constructor
  · refine C128_opens awayMultiple_rounding awayMultiple_odd _ (Or.inl rfl) exOblique hn hr [] _ _ ?_ ?_ _
      (by simp) 1 (by norm_num) true
    · simp only [exAlong_jump, exOblique, Fin.sum_univ_two, Matrix.cons_val_zero, Matrix.cons_val_one]
      norm_num
    · rw [exAlong_jump, exAlong_jump, o1, o2]
      linarith
  · intro calls
    refine C128_closes awayMultiple_rounding awayMultiple_odd _ (Or.inl rfl) exOblique hn hr calls _ _ ?_ ?_ _
      (by simp) 1 (by norm_num) le_rfl true
    · simp only [exAlong_jump, exOblique, Fin.sum_univ_two, Matrix.cons_val_zero, Matrix.cons_val_one]
      norm_num
    · rw [exAlong_jump, exAlong_jump, o1, o2]
      linarith

end Verif.Fp
