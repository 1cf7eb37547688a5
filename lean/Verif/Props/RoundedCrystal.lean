import Verif.Model.RoundedCrystal
import Verif.Props.RoundedTime
import Verif.Props.Crystal
import Mathlib.Analysis.SpecialFunctions.Trigonometric.Bounds
import Mathlib.Analysis.Real.Pi.Bounds

/-!
# C112: accuracy of the slip systems in double precision

From the files with slip directions and plane normals (integer indices) to the rotated slip systems and
Schmid tensors of a crystal.
-/

namespace Verif.Fp
open Cry

section
variable {fl : ℝ → ℝ} (hfl : IsRounding fl)
include hfl

theorem fl_int' (k : ℤ) (hk : |k| ≤ 2 ^ 53) : fl (k : ℝ) = k := fl_int hfl k hk

/-! ## Integer input -/

omit hfl in
theorem prod_bound {a b : ℤ} (ha : |a| ≤ 2 ^ 25) (hb : |b| ≤ 2 ^ 25) : |a * b| ≤ 2 ^ 50 := by
  rw [abs_mul]
  calc |a| * |b| ≤ 2 ^ 25 * 2 ^ 25 := mul_le_mul ha hb (abs_nonneg _) (by norm_num)
    _ = 2 ^ 50 := by norm_num

theorem dot3_int (a b : Fin 3 → ℤ) (ha : ∀ i, |a i| ≤ 2 ^ 25) (hb : ∀ i, |b i| ≤ 2 ^ 25) :
    dot3 fl (fun i => (a i : ℝ)) (fun i => (b i : ℝ)) = ((a 0 * b 0 + a 1 * b 1 + a 2 * b 2 : ℤ) : ℝ) := by
  have h0 := prod_bound (ha 0) (hb 0)
  have h1 := prod_bound (ha 1) (hb 1)
  have h2 := prod_bound (ha 2) (hb 2)
  rw [abs_le] at h0 h1 h2
  unfold dot3
  rw [← Int.cast_mul, ← Int.cast_mul, ← Int.cast_mul, fl_int hfl _ (abs_le.2 (by omega)),
    fl_int hfl _ (abs_le.2 (by omega)), fl_int hfl (a 2 * b 2) (abs_le.2 (by omega)), ← Int.cast_add,
    fl_int hfl _ (abs_le.2 (by omega)), ← Int.cast_add, fl_int hfl _ (abs_le.2 (by omega))]

theorem dot2_int (a b : Fin 2 → ℤ) (ha : ∀ i, |a i| ≤ 2 ^ 25) (hb : ∀ i, |b i| ≤ 2 ^ 25) :
    dot2 fl (fun i => (a i : ℝ)) (fun i => (b i : ℝ)) = ((a 0 * b 0 + a 1 * b 1 : ℤ) : ℝ) := by
  have h0 := prod_bound (ha 0) (hb 0)
  have h1 := prod_bound (ha 1) (hb 1)
  rw [abs_le] at h0 h1
  unfold dot2
  rw [← Int.cast_mul, ← Int.cast_mul, fl_int hfl _ (abs_le.2 (by omega)),
    fl_int hfl (a 1 * b 1) (abs_le.2 (by omega)), ← Int.cast_add,
    fl_int hfl _ (abs_le.2 (by omega))]

/-- Exact cross product of integer vectors. -/
def crossInt (a b : Fin 3 → ℤ) : Fin 3 → ℤ :=
  ![a 1 * b 2 - a 2 * b 1, a 2 * b 0 - a 0 * b 2, a 0 * b 1 - a 1 * b 0]

theorem cross3_int (a b : Fin 3 → ℤ) (ha : ∀ i, |a i| ≤ 2 ^ 25) (hb : ∀ i, |b i| ≤ 2 ^ 25) :
    cross3 fl (fun i => (a i : ℝ)) (fun i => (b i : ℝ)) = fun i => ((crossInt a b i : ℤ) : ℝ) := by
  have key : ∀ i j k l : Fin 3, fl (fl ((a i : ℝ) * b j) - fl ((a k : ℝ) * b l)) =
      ((a i * b j - a k * b l : ℤ) : ℝ) := by
    intro i j k l
    have h0 := prod_bound (ha i) (hb j)
    have h1 := prod_bound (ha k) (hb l)
    rw [abs_le] at h0 h1
    rw [← Int.cast_mul, ← Int.cast_mul, fl_int hfl _ (abs_le.2 (by omega)),
      fl_int hfl (a k * b l) (abs_le.2 (by omega)), ← Int.cast_sub,
      fl_int hfl _ (abs_le.2 (by omega))]
  funext i
  unfold cross3 crossInt
  fin_cases i
  · exact key 1 2 2 1
  · exact key 2 0 0 2
  · exact key 0 1 1 0

/-! ## Normalisation -/

/-- A computed square `m'` close to the exact one, its rounded root, and a quotient by it. -/
theorem quotient_near (inverse : Bool) (x N m' : ℝ) (hN : 1 ≤ N) (hN' : N ≤ 10 ^ 40)
    (hm : |m' - N| ≤ 4 * unit * N) (hx : |x| ≤ √N) :
    fl √m' ≠ 0 ∧ |quotient fl inverse x (fl √m') - x / √N| ≤ 8 * unit := by
  have hu : unit = 1 / 9007199254740992 := rfl
  have hu0 : 0 < unit := by norm_num [unit]
  have ht0 := tiny_pos
  have ht := tiny_small
  have htu : tiny ≤ unit / 10 ^ 100 := by rw [hu]; norm_num at *; linarith
  set R := √N with hR
  have hR1 : 1 ≤ R := Real.one_le_sqrt.2 hN
  have hR0 : 0 < R := by linarith
  have hRR : R * R = N := Real.mul_self_sqrt (by linarith)
  have hR' : R ≤ 10 ^ 20 := by
    rw [hR]
    exact Real.sqrt_le_iff.2 ⟨by norm_num, by norm_num at *; linarith⟩
  have hm0 : 0 ≤ m' := by
    have := (abs_le.1 hm).1
    have h4 : 4 * unit * N ≤ 1 * N := mul_le_mul_of_nonneg_right (by rw [hu]; norm_num) (by linarith)
    linarith
  set r := √m' with hr
  have hr0 : 0 ≤ r := Real.sqrt_nonneg _
  have hrr : r * r = m' := Real.mul_self_sqrt hm0
  have hre : |r - R| ≤ 4 * unit * R := by
    have h1 : |r - R| * (r + R) ≤ 4 * unit * R * R := by
      have : |r - R| * (r + R) = |m' - N| := by
        rw [← hrr, ← hRR, show r * r - R * R = (r - R) * (r + R) by ring, abs_mul,
          abs_of_nonneg (show 0 ≤ r + R by linarith)]
      rw [this, mul_assoc, hRR]
      exact hm
    have h2 : |r - R| * R ≤ |r - R| * (r + R) :=
      mul_le_mul_of_nonneg_left (by linarith) (abs_nonneg _)
    exact le_of_mul_le_mul_right (h2.trans h1) hR0
  have hr1 : R / 2 ≤ r := by
    have := (abs_le.1 hre).1
    have h4 : 4 * unit * R ≤ 1 / 2 * R := mul_le_mul_of_nonneg_right (by rw [hu]; norm_num) hR0.le
    linarith
  have hnr := fl_rel_pos hfl (x := r) (by
    have : (1 : ℝ) / 10 ^ 100 ≤ 1 / 2 := by norm_num
    linarith)
  set n := fl r with hn
  have hrR : r ≤ (1 + 4 * unit) * R := by linarith [(abs_le.1 hre).2]
  have hne : |n - R| ≤ 5.1 * unit * R := by
    have h1 : |n - R| ≤ |n - r| + |r - R| := abs_sub_le _ _ _
    have h2 : 1.001 * unit * r ≤ 1.001 * unit * ((1 + 4 * unit) * R) :=
      mul_le_mul_of_nonneg_left hrR (by linarith)
    have h3 : (1.001 * unit * (1 + 4 * unit) + 4 * unit) * R ≤ 5.1 * unit * R :=
      mul_le_mul_of_nonneg_right (by rw [hu]; norm_num) hR0.le
    linarith
  have hnl : (1 - 5.1 * unit) * R ≤ n := by linarith [(abs_le.1 hne).1]
  have hn0 : 0 < n := by
    refine lt_of_lt_of_le ?_ hnl
    exact mul_pos (by rw [hu]; norm_num) hR0
  refine ⟨hn0.ne', ?_⟩
  -- the inverse of the norm
  have hinv : |1 / n - 1 / R| ≤ 5.2 * unit * (1 / R) := by
    rw [div_sub_div _ _ hn0.ne' hR0.ne', abs_div, abs_of_pos (mul_pos hn0 hR0), one_mul, mul_one,
      div_le_iff₀ (mul_pos hn0 hR0), abs_sub_comm]
    rw [show 5.2 * unit * (1 / R) * (n * R) = 5.2 * unit * n by field_simp]
    have h1 : 5.2 * unit * ((1 - 5.1 * unit) * R) ≤ 5.2 * unit * n :=
      mul_le_mul_of_nonneg_left hnl (by linarith)
    have h2 : 5.1 * unit * R ≤ 5.2 * unit * (1 - 5.1 * unit) * R :=
      mul_le_mul_of_nonneg_right (by rw [hu]; norm_num) hR0.le
    linarith
  have hxR : |x| * (1 / R) ≤ 1 := by
    rw [mul_one_div, div_le_one hR0]
    exact hx
  have hcore : |x * (1 / n) - x / R| ≤ 5.2 * unit := by
    rw [div_eq_mul_one_div x R, ← mul_sub, abs_mul]
    have := mul_le_mul_of_nonneg_left hinv (abs_nonneg x)
    have h2 : |x| * (5.2 * unit * (1 / R)) = 5.2 * unit * (|x| * (1 / R)) := by ring
    have h3 : 5.2 * unit * (|x| * (1 / R)) ≤ 5.2 * unit * 1 :=
      mul_le_mul_of_nonneg_left hxR (by linarith)
    linarith
  have hone : |x / R| ≤ 1 := by
    rw [abs_div, abs_of_pos hR0, div_le_one hR0]
    exact hx
  cases inverse with
  | false =>
    show |fl (x / n) - x / R| ≤ _
    rw [div_eq_mul_one_div x n]
    have h1 := fl_err hfl (x * (1 / n))
    have h2 : |x * (1 / n)| ≤ 1 + 5.2 * unit := by
      have := abs_sub_abs_le_abs_sub (x * (1 / n)) (x / R)
      linarith
    have h3 := mul_le_mul_of_nonneg_left h2 hu0.le
    have h4 : unit * (1 + 5.2 * unit) ≤ 1.1 * unit := by rw [hu]; norm_num
    have h5 : |fl (x * (1 / n)) - x / R| ≤ |fl (x * (1 / n)) - x * (1 / n)| + |x * (1 / n) - x / R| :=
      abs_sub_le _ _ _
    have h6 : tiny ≤ unit := htu.trans (by rw [hu]; norm_num)
    linarith
  | true =>
    show |fl (x * fl (1 / n)) - x / R| ≤ _
    have hi : 0 < 1 / n := by positivity
    have hnu : n ≤ 10 ^ 21 := by
      have := (abs_le.1 hne).2
      have h4 : 5.1 * unit * R ≤ 1 * R := mul_le_mul_of_nonneg_right (by rw [hu]; norm_num) hR0.le
      norm_num at *
      linarith
    have hib : 1 / 10 ^ 100 ≤ 1 / n := by
      refine one_div_le_one_div_of_le hn0 (hnu.trans (by norm_num))
    have hfi := fl_rel_pos hfl hib
    have h0 : |x * fl (1 / n) - x * (1 / n)| ≤ 1.1 * unit := by
      rw [← mul_sub, abs_mul]
      have h1 := mul_le_mul_of_nonneg_left hfi (abs_nonneg x)
      have h2 : |x| * (1 / n) ≤ 1 + 5.2 * unit := by
        rw [← abs_of_pos hi, ← abs_mul]
        have := abs_sub_abs_le_abs_sub (x * (1 / n)) (x / R)
        linarith
      have h3 : 1.001 * unit * (|x| * (1 / n)) ≤ 1.001 * unit * (1 + 5.2 * unit) :=
        mul_le_mul_of_nonneg_left h2 (by linarith)
      have h4 : 1.001 * unit * (1 + 5.2 * unit) ≤ 1.1 * unit := by rw [hu]; norm_num
      linarith
    have hq : |x * fl (1 / n) - x / R| ≤ 6.3 * unit := by
      have : |x * fl (1 / n) - x / R| ≤ |x * fl (1 / n) - x * (1 / n)| + |x * (1 / n) - x / R| :=
        abs_sub_le _ _ _
      linarith
    have h1 := fl_err hfl (x * fl (1 / n))
    have h2 : |x * fl (1 / n)| ≤ 1 + 6.3 * unit := by
      have := abs_sub_abs_le_abs_sub (x * fl (1 / n)) (x / R)
      linarith
    have h3 := mul_le_mul_of_nonneg_left h2 hu0.le
    have h4 : unit * (1 + 6.3 * unit) ≤ 1.1 * unit := by rw [hu]; norm_num
    have h5 : |fl (x * fl (1 / n)) - x / R| ≤ |fl (x * fl (1 / n)) - x * fl (1 / n)| +
      |x * fl (1 / n) - x / R| := abs_sub_le _ _ _
    have h6 : tiny ≤ 0.1 * unit := htu.trans (by rw [hu]; norm_num)
    linarith

/-! ## Rotation -/

theorem radians_near (angle : ℝ) (ha : |angle| ≤ 360) :
    |radians fl angle - angle * degToRad| ≤ 21 * unit := by
  have hu : unit = 1 / 9007199254740992 := rfl
  have hu0 : 0 < unit := by norm_num [unit]
  have ht0 := tiny_pos
  have ht := tiny_small
  have hpi := Real.pi_gt_three
  have hpi' : Real.pi < 3.15 := Real.pi_lt_d2
  unfold radians degToRad
  have h1 := fl_rel_pos hfl (x := Real.pi) (le_trans (by norm_num) hpi.le)
  have h1' : |fl Real.pi / 180 - Real.pi / 180| ≤ 1.001 * unit * (Real.pi / 180) := by
    rw [← sub_div, abs_div, abs_of_pos (show (0 : ℝ) < 180 by norm_num)]
    rw [show 1.001 * unit * (Real.pi / 180) = 1.001 * unit * Real.pi / 180 by ring]
    exact div_le_div_of_nonneg_right h1 (by norm_num)
  set q := fl Real.pi / 180 with hq
  have hup : 1.001 * unit * (Real.pi / 180) ≤ 0.001 * (Real.pi / 180) :=
    mul_le_mul_of_nonneg_right (by rw [hu]; norm_num) (by positivity)
  have hq0 : 1 / 100 ≤ q := by
    have := (abs_le.1 h1').1
    linarith
  have hq1 : q ≤ 1 / 50 := by
    have := (abs_le.1 h1').2
    linarith
  have h2 := fl_rel_pos hfl (x := q) (le_trans (by norm_num) hq0)
  have h3 : |fl q - Real.pi / 180| ≤ 0.0376 * unit := by
    have h5 : |fl q - Real.pi / 180| ≤ |fl q - q| + |q - Real.pi / 180| := abs_sub_le _ _ _
    have h6 : 1.001 * unit * (Real.pi / 180) ≤ 1.001 * unit * (3.15 / 180) :=
      mul_le_mul_of_nonneg_left (by linarith) (by linarith)
    have h7 : 1.001 * unit * q ≤ 1.001 * unit * (1 / 50) := mul_le_mul_of_nonneg_left hq1 (by linarith)
    linarith
  have h4 : |angle * fl q - angle * (Real.pi / 180)| ≤ 360 * (0.0376 * unit) := by
    rw [← mul_sub, abs_mul]
    exact mul_le_mul ha h3 (abs_nonneg _) (by norm_num)
  have h5 : |angle * fl q| ≤ 6.4 := by
    have h6 : |angle * (Real.pi / 180)| ≤ 360 * (3.15 / 180) := by
      rw [abs_mul, abs_of_pos (show 0 < Real.pi / 180 by positivity)]
      exact mul_le_mul ha (by linarith) (by positivity) (by norm_num)
    have := abs_sub_abs_le_abs_sub (angle * fl q) (angle * (Real.pi / 180))
    have h7 : 360 * (0.0376 * unit) ≤ 0.01 := by rw [hu]; norm_num
    linarith
  have h6 := fl_err hfl (angle * fl q)
  have h7 : |fl (angle * fl q) - angle * (Real.pi / 180)| ≤ |fl (angle * fl q) - angle * fl q| +
    |angle * fl q - angle * (Real.pi / 180)| := abs_sub_le _ _ _
  have h8 := mul_le_mul_of_nonneg_left h5 hu0.le
  have h9 : tiny ≤ 0.1 * unit := by rw [hu]; norm_num at *; linarith
  linarith

theorem trig_near {cosf sinf : ℝ → ℝ} (hm : IsLibm cosf sinf) (angle : ℝ) (ha : |angle| ≤ 360) :
    |cosf (radians fl angle) - Real.cos (angle * degToRad)| ≤ 23 * unit ∧
    |sinf (radians fl angle) - Real.sin (angle * degToRad)| ≤ 23 * unit := by
  have h := radians_near hfl angle ha
  have e : (2 : ℝ) ^ (-52 : ℤ) = 2 * unit := by norm_num [unit]
  have hc := hm.cos_near (radians fl angle)
  have hs := hm.sin_near (radians fl angle)
  rw [e] at hc hs
  have h1 := Real.abs_cos_sub_cos_le (radians fl angle) (angle * degToRad)
  have h2 := Real.abs_sin_sub_sin_le (radians fl angle) (angle * degToRad)
  constructor
  · have := abs_sub_le (cosf (radians fl angle)) (Real.cos (radians fl angle))
      (Real.cos (angle * degToRad))
    linarith
  · have := abs_sub_le (sinf (radians fl angle)) (Real.sin (radians fl angle))
      (Real.sin (angle * degToRad))
    linarith

omit hfl in
theorem product_near {a b a' b' ε η : ℝ} (ha : |a| ≤ 1) (hb : |b| ≤ 1) (hε : |a' - a| ≤ ε)
    (hη : |b' - b| ≤ η) (hε1 : ε ≤ 1 / 1000) :
    |a' * b' - a * b| ≤ ε + 1.001 * η ∧ |a' * b'| ≤ 1.001 * (1 + η) := by
  have hη0 : 0 ≤ η := (abs_nonneg _).trans hη
  have hε0 : 0 ≤ ε := (abs_nonneg _).trans hε
  have ha' : |a'| ≤ 1.001 := by
    have := abs_sub_abs_le_abs_sub a' a
    linarith
  have hb' : |b'| ≤ 1 + η := by
    have := abs_sub_abs_le_abs_sub b' b
    linarith
  constructor
  · rw [show a' * b' - a * b = a' * (b' - b) + (a' - a) * b by ring]
    refine (abs_add_le _ _).trans ?_
    rw [abs_mul, abs_mul]
    have h1 : |a'| * |b' - b| ≤ 1.001 * η := mul_le_mul ha' hη (abs_nonneg _) (by norm_num)
    have h2 : |a' - a| * |b| ≤ ε * 1 := mul_le_mul hε hb (abs_nonneg _) hε0
    linarith
  · rw [abs_mul]
    exact mul_le_mul ha' hb' (abs_nonneg _) (by norm_num)

theorem dot3_near {a b a' b' : Vec 3} {ε η : ℝ} (ha : ∀ i, |a i| ≤ 1) (hb : ∀ i, |b i| ≤ 1)
    (hε : ∀ i, |a' i - a i| ≤ ε) (hη : ∀ i, |b' i - b i| ≤ η) (hε1 : ε ≤ 1 / 1000)
    (hη1 : η ≤ 1 / 1000) :
    |dot3 fl a' b' - a ⬝ᵥ b| ≤ 3 * ε + 3.003 * η + 10 * unit := by
  have hu : unit = 1 / 9007199254740992 := rfl
  have hu0 : 0 < unit := by norm_num [unit]
  have ht0 := tiny_pos
  have ht := tiny_small
  have hd := dot3_err hfl a' b'
  obtain ⟨p0, q0⟩ := product_near (ha 0) (hb 0) (hε 0) (hη 0) hε1
  obtain ⟨p1, q1⟩ := product_near (ha 1) (hb 1) (hε 1) (hη 1) hε1
  obtain ⟨p2, q2⟩ := product_near (ha 2) (hb 2) (hε 2) (hη 2) hε1
  have e : a ⬝ᵥ b = a 0 * b 0 + a 1 * b 1 + a 2 * b 2 := by
    simp [dotProduct, Fin.sum_univ_three]
  rw [e]
  have hq : 3.1 * unit * (|a' 0 * b' 0| + |a' 1 * b' 1| + |a' 2 * b' 2|) ≤ 3.1 * unit * 3.01 :=
    mul_le_mul_of_nonneg_left (by linarith) (by linarith)
  have h9 : 8 * tiny ≤ 0.1 * unit := by rw [hu]; norm_num at *; linarith
  have e2 : dot3 fl a' b' - (a 0 * b 0 + a 1 * b 1 + a 2 * b 2) =
    (dot3 fl a' b' - (a' 0 * b' 0 + a' 1 * b' 1 + a' 2 * b' 2)) +
    ((a' 0 * b' 0 - a 0 * b 0) + (a' 1 * b' 1 - a 1 * b 1) + (a' 2 * b' 2 - a 2 * b 2)) := by ring
  rw [e2]
  refine (abs_add_le _ _).trans ?_
  have h3 := abs_add_three (a' 0 * b' 0 - a 0 * b 0) (a' 1 * b' 1 - a 1 * b 1)
    (a' 2 * b' 2 - a 2 * b 2)
  linarith

theorem dot2_near {a b a' b' : Vec 2} {ε η : ℝ} (ha : ∀ i, |a i| ≤ 1) (hb : ∀ i, |b i| ≤ 1)
    (hε : ∀ i, |a' i - a i| ≤ ε) (hη : ∀ i, |b' i - b i| ≤ η) (hε1 : ε ≤ 1 / 1000)
    (hη1 : η ≤ 1 / 1000) :
    |dot2 fl a' b' - a ⬝ᵥ b| ≤ 2 * ε + 2.002 * η + 5 * unit := by
  have hu : unit = 1 / 9007199254740992 := rfl
  have hu0 : 0 < unit := by norm_num [unit]
  have ht0 := tiny_pos
  have ht := tiny_small
  have hd := dot2_err hfl a' b'
  obtain ⟨p0, q0⟩ := product_near (ha 0) (hb 0) (hε 0) (hη 0) hε1
  obtain ⟨p1, q1⟩ := product_near (ha 1) (hb 1) (hε 1) (hη 1) hε1
  have e : a ⬝ᵥ b = a 0 * b 0 + a 1 * b 1 := by
    simp [dotProduct, Fin.sum_univ_two]
  rw [e]
  have hq : (2 * unit + unit ^ 2) * (|a' 0 * b' 0| + |a' 1 * b' 1|) ≤ (2 * unit + unit ^ 2) * 2.01 :=
    mul_le_mul_of_nonneg_left (by linarith) (by positivity)
  have hq2 : (2 * unit + unit ^ 2) * 2.01 ≤ 4.1 * unit := by rw [hu]; norm_num
  have h9 : 8 * tiny ≤ 0.1 * unit := by rw [hu]; norm_num at *; linarith
  have e2 : dot2 fl a' b' - (a 0 * b 0 + a 1 * b 1) =
    (dot2 fl a' b' - (a' 0 * b' 0 + a' 1 * b' 1)) +
    ((a' 0 * b' 0 - a 0 * b 0) + (a' 1 * b' 1 - a 1 * b 1)) := by ring
  rw [e2]
  refine (abs_add_le _ _).trans ?_
  have h3 := abs_add_le (a' 0 * b' 0 - a 0 * b 0) (a' 1 * b' 1 - a 1 * b 1)
  linarith


omit hfl in
theorem entry_le_one {d : ℕ} {r : Mat d} (h : SpecOrthogonal r) (i j : Fin d) : |r i j| ≤ 1 := by
  have h1 : (r.transpose * r) j j = 1 := by
    rw [show r.transpose * r = 1 from h]; simp
  rw [Matrix.mul_apply] at h1
  have h2 : r i j * r i j ≤ ∑ k, r.transpose j k * r k j :=
    Finset.single_le_sum (f := fun k => r.transpose j k * r k j)
      (fun k _ => mul_self_nonneg (r k j)) (Finset.mem_univ i)
  rw [h1] at h2
  exact abs_le_one_iff_mul_self_le_one.2 h2

omit hfl in
theorem rotated_le_one {d : ℕ} {r : Mat d} (h : SpecOrthogonal r) (v : Vec d)
    (hv : ∑ i, v i * v i ≤ 1) (i : Fin d) : |(r.mulVec v) i| ≤ 1 := by
  have h1 : (r.mulVec v) i * (r.mulVec v) i ≤ ∑ k, (r.mulVec v) k * (r.mulVec v) k :=
    Finset.single_le_sum (f := fun k => (r.mulVec v) k * (r.mulVec v) k)
      (fun k _ => mul_self_nonneg _) (Finset.mem_univ i)
  have h2 : ∑ k, (r.mulVec v) k * (r.mulVec v) k = ∑ i, v i * v i := rot_dot h v v
  rw [h2] at h1
  exact abs_le_one_iff_mul_self_le_one.2 (h1.trans hv)

theorem rotation2_near {cosf sinf : ℝ → ℝ} (hm : IsLibm cosf sinf) (angle : ℝ)
    (ha : |angle| ≤ 360) (i j : Fin 2) :
    |rotation2 fl cosf sinf angle i j - Cry.rotation2 angle i j| ≤ 23 * unit := by
  obtain ⟨h1, h2⟩ := trig_near hfl hm angle ha
  have h3 : |-sinf (radians fl angle) - -Real.sin (angle * degToRad)| ≤ 23 * unit := by
    rw [show -sinf (radians fl angle) - -Real.sin (angle * degToRad) =
      -(sinf (radians fl angle) - Real.sin (angle * degToRad)) by ring, abs_neg]
    exact h2
  unfold rotation2 Cry.rotation2
  fin_cases i <;> fin_cases j
  · exact h1
  · exact h3
  · exact h2
  · exact h1

theorem rotZ_near {cosf sinf : ℝ → ℝ} (hm : IsLibm cosf sinf) (angle : ℝ)
    (ha : |angle| ≤ 360) (i j : Fin 3) :
    |rotZ cosf sinf (radians fl angle) i j - Cry.rotZ (angle * degToRad) i j| ≤ 23 * unit := by
  obtain ⟨h1, h2⟩ := trig_near hfl hm angle ha
  have h3 : |-sinf (radians fl angle) - -Real.sin (angle * degToRad)| ≤ 23 * unit := by
    rw [show -sinf (radians fl angle) - -Real.sin (angle * degToRad) =
      -(sinf (radians fl angle) - Real.sin (angle * degToRad)) by ring, abs_neg]
    exact h2
  have h0 : |(0 : ℝ) - 0| ≤ 23 * unit := by norm_num [unit]
  have h4 : |(1 : ℝ) - 1| ≤ 23 * unit := by norm_num [unit]
  unfold rotZ Cry.rotZ
  fin_cases i <;> fin_cases j <;> first | exact h1 | exact h3 | exact h2 | exact h0 | exact h4

theorem rotX_near {cosf sinf : ℝ → ℝ} (hm : IsLibm cosf sinf) (angle : ℝ)
    (ha : |angle| ≤ 360) (i j : Fin 3) :
    |rotX cosf sinf (radians fl angle) i j - Cry.rotX (angle * degToRad) i j| ≤ 23 * unit := by
  obtain ⟨h1, h2⟩ := trig_near hfl hm angle ha
  have h3 : |-sinf (radians fl angle) - -Real.sin (angle * degToRad)| ≤ 23 * unit := by
    rw [show -sinf (radians fl angle) - -Real.sin (angle * degToRad) =
      -(sinf (radians fl angle) - Real.sin (angle * degToRad)) by ring, abs_neg]
    exact h2
  have h0 : |(0 : ℝ) - 0| ≤ 23 * unit := by norm_num [unit]
  have h4 : |(1 : ℝ) - 1| ≤ 23 * unit := by norm_num [unit]
  unfold rotX Cry.rotX
  fin_cases i <;> fin_cases j <;> first | exact h1 | exact h3 | exact h2 | exact h0 | exact h4

theorem mul3_near {a b a' b' : Mat 3} {ε η : ℝ} (ha : SpecOrthogonal a) (hb : SpecOrthogonal b)
    (hε : ∀ i j, |a' i j - a i j| ≤ ε) (hη : ∀ i j, |b' i j - b i j| ≤ η) (hε1 : ε ≤ 1 / 1000)
    (hη1 : η ≤ 1 / 1000) (i j : Fin 3) :
    |mul3 fl a' b' i j - (a * b) i j| ≤ 3 * ε + 3.003 * η + 10 * unit := by
  have := dot3_near hfl (a := a i) (b := fun k => b k j) (a' := a' i) (b' := fun k => b' k j)
    (fun k => entry_le_one ha i k) (fun k => entry_le_one hb k j) (fun k => hε i k)
    (fun k => hη k j) hε1 hη1
  rw [Matrix.mul_apply]
  exact this

theorem rotation3_near {cosf sinf : ℝ → ℝ} (hm : IsLibm cosf sinf) (e : Vec 3)
    (he : ∀ i, |e i| ≤ 360) (i j : Fin 3) :
    |rotation3 fl cosf sinf e i j - Cry.rotation3 e i j| ≤ 530 * unit := by
  have hu0 : 0 < unit := by norm_num [unit]
  have hu : unit ≤ 1 / 10 ^ 15 := by norm_num [unit]
  have h1 := mul3_near hfl (rotZ_orthogonal _) (rotX_orthogonal _) (rotZ_near hfl hm (e 0) (he 0))
    (rotX_near hfl hm (e 1) (he 1)) (by norm_num at *; linarith) (by norm_num at *; linarith)
  have h2 := mul3_near hfl (orthogonal_mul (rotZ_orthogonal _) (rotX_orthogonal _))
    (rotZ_orthogonal _) h1 (rotZ_near hfl hm (e 2) (he 2)) (by norm_num at *; linarith)
    (by norm_num at *; linarith) i j
  refine h2.trans ?_
  linarith


/-! ## Schmid tensors -/

theorem schmid_near {d : ℕ} {s' s : System d} {ε : ℝ} (hε1 : ε ≤ 1 / 10 ^ 10)
    (hd : ∀ i, |s.direction i| ≤ 1) (hn : ∀ i, |s.normal i| ≤ 1)
    (hd' : ∀ i, |s'.direction i - s.direction i| ≤ ε) (hn' : ∀ i, |s'.normal i - s.normal i| ≤ ε)
    (i j : Fin d) :
    |schmid fl s' i j - s.schmid i j| ≤ 2.001 * ε + 1.1 * unit ∧
    |symSchmid fl s' i j - s.symSchmid i j| ≤ 2.001 * ε + 4 * unit := by
  have hu : unit = 1 / 9007199254740992 := rfl
  have hu0 : 0 < unit := by norm_num [unit]
  have ht0 := tiny_pos
  have ht := tiny_small
  have htu : tiny ≤ 0.01 * unit := by rw [hu]; norm_num at *; linarith
  have hε0 : 0 ≤ ε := (abs_nonneg _).trans (hd' i)
  have key : ∀ i j, |schmid fl s' i j - s.schmid i j| ≤ 2.001 * ε + 1.1 * unit := by
    intro i j
    obtain ⟨p, q⟩ := product_near (hd i) (hn j) (hd' i) (hn' j) (by norm_num at *; linarith)
    have h1 := fl_err hfl (s'.direction i * s'.normal j)
    have h2 := mul_le_mul_of_nonneg_left q hu0.le
    have h3 : unit * (1.001 * (1 + ε)) ≤ unit * 1.01 :=
      mul_le_mul_of_nonneg_left (by norm_num at *; linarith) hu0.le
    have h4 := abs_sub_le (fl (s'.direction i * s'.normal j)) (s'.direction i * s'.normal j)
      (s.direction i * s.normal j)
    show |fl (s'.direction i * s'.normal j) - s.direction i * s.normal j| ≤ _
    linarith
  refine ⟨key i j, ?_⟩
  by_cases h : i = j
  · subst h
    have e1 : symSchmid fl s' i i = schmid fl s' i i := by unfold symSchmid; simp
    have e2 : s.symSchmid i i = s.schmid i i := by
      unfold System.symSchmid symmetrize
      simp
    rw [e1, e2]
    linarith [key i i]
  · have e1 : symSchmid fl s' i j = fl (fl (schmid fl s' i j + schmid fl s' j i) / 2) := by
      unfold symSchmid; simp [h]
    have e2 : s.symSchmid i j = (s.schmid i j + s.schmid j i) / 2 := by
      unfold System.symSchmid symmetrize
      simp
      try ring
    rw [e1, e2]
    have k1 := key i j
    have k2 := key j i
    have b : ∀ i j, |s.schmid i j| ≤ 1 := by
      intro i j
      show |s.direction i * s.normal j| ≤ 1
      rw [abs_mul]
      calc |s.direction i| * |s.normal j| ≤ 1 * 1 :=
            mul_le_mul (hd i) (hn j) (abs_nonneg _) (by norm_num)
        _ = 1 := by norm_num
    set x := schmid fl s' i j
    set y := schmid fl s' j i
    set X := s.schmid i j
    set Y := s.schmid j i
    have hX := b i j
    have hY := b j i
    have hxy : |x + y - (X + Y)| ≤ 2 * (2.001 * ε + 1.1 * unit) := by
      rw [show x + y - (X + Y) = (x - X) + (y - Y) by ring]
      exact (abs_add_le _ _).trans (by linarith)
    have hab : |x + y| ≤ 2.01 := by
      have h1 := abs_sub_abs_le_abs_sub (x + y) (X + Y)
      have h2 := abs_add_le X Y
      have h3 : 2 * (2.001 * ε + 1.1 * unit) ≤ 0.01 := by
        rw [hu]; norm_num at *; linarith
      have hX' : |X| ≤ 1 := hX
      have hY' : |Y| ≤ 1 := hY
      linarith
    have h1 := fl_err hfl (x + y)
    have h1' := mul_le_mul_of_nonneg_left hab hu0.le
    have h2 : |fl (x + y)| ≤ 2.02 := by
      have := abs_sub_abs_le_abs_sub (fl (x + y)) (x + y)
      have h3 : 2.02 * unit ≤ 0.01 := by rw [hu]; norm_num
      linarith
    have h3 := fl_err hfl (fl (x + y) / 2)
    have h4 : |fl (x + y) / 2| ≤ 1.01 := by
      rw [abs_div, abs_of_pos (show (0 : ℝ) < 2 by norm_num)]
      linarith
    have h4' := mul_le_mul_of_nonneg_left h4 hu0.le
    rw [show fl (fl (x + y) / 2) - (X + Y) / 2 = (fl (fl (x + y) / 2) - fl (x + y) / 2) +
      (fl (x + y) - (x + y)) / 2 + (x + y - (X + Y)) / 2 by ring]
    refine (abs_add_three _ _ _).trans ?_
    rw [abs_div, abs_div, abs_of_pos (show (0 : ℝ) < 2 by norm_num)]
    linarith

end

/-! ## Specification -/

/-- Integer indices of a slip direction or plane normal, at most `2²⁵`. -/
def SpecIndices {d : ℕ} (v : Fin d → ℤ) : Prop := ∀ i, |v i| ≤ 2 ^ 25

/-- The vector the indices stand for. -/
def vector {d : ℕ} (v : Fin d → ℤ) : Vec d := fun i => (v i : ℝ)

/-- The exact unit vector in its direction. -/
noncomputable def unitVector {d : ℕ} (v : Fin d → ℤ) : Vec d :=
  fun i => (v i : ℝ) / √(∑ j, (v j : ℝ) ^ 2)

/-- Two slip systems agree up to `ε` in every component of their vectors. -/
def SpecNear {d : ℕ} (ε : ℝ) (s t : System d) : Prop :=
  ∀ i, |s.direction i - t.direction i| ≤ ε ∧ |s.normal i - t.normal i| ≤ ε ∧
    |s.third i - t.third i| ≤ ε

theorem sum_pos_of_ne {d : ℕ} (v : Fin d → ℤ) (h : v ≠ 0) : (1 : ℝ) ≤ ∑ j, (v j : ℝ) ^ 2 := by
  obtain ⟨i, hi⟩ := Function.ne_iff.1 h
  have h1 : (1 : ℤ) ≤ (v i) ^ 2 := by
    have : 0 < (v i) ^ 2 := by
      have : v i ≠ 0 := hi
      positivity
    omega
  have h2 : (1 : ℝ) ≤ (v i : ℝ) ^ 2 := by exact_mod_cast h1
  exact h2.trans (Finset.single_le_sum (f := fun j => (v j : ℝ) ^ 2)
    (fun j _ => sq_nonneg _) (Finset.mem_univ i))

theorem unitVector_norm {d : ℕ} (v : Fin d → ℤ) (h : v ≠ 0) :
    ∑ i, unitVector v i * unitVector v i = 1 := by
  have h1 := sum_pos_of_ne v h
  have h0 : (0 : ℝ) ≤ ∑ j, (v j : ℝ) ^ 2 := by linarith
  have hs := Real.sq_sqrt h0
  unfold unitVector
  rw [Finset.sum_congr rfl (g := fun i => (v i : ℝ) ^ 2 / ∑ j, (v j : ℝ) ^ 2) fun i _ => by
    rw [div_mul_div_comm, ← pow_two, ← pow_two, hs], ← Finset.sum_div]
  exact div_self (by linarith)

theorem unitVector_le {d : ℕ} (v : Fin d → ℤ) (h : v ≠ 0) (i : Fin d) : |unitVector v i| ≤ 1 := by
  have h1 : unitVector v i * unitVector v i ≤ ∑ k, unitVector v k * unitVector v k :=
    Finset.single_le_sum (f := fun k => unitVector v k * unitVector v k)
      (fun k _ => mul_self_nonneg _) (Finset.mem_univ i)
  rw [unitVector_norm v h] at h1
  exact abs_le_one_iff_mul_self_le_one.2 h1

theorem component_le {d : ℕ} (v : Fin d → ℤ) (i : Fin d) :
    |(v i : ℝ)| ≤ √(∑ j, (v j : ℝ) ^ 2) :=
  Real.abs_le_sqrt (Finset.single_le_sum (f := fun j => (v j : ℝ) ^ 2)
    (fun j _ => sq_nonneg _) (Finset.mem_univ i))

theorem sq_le_big {v : ℤ} (h : |v| ≤ 2 ^ 52) : (v : ℝ) ^ 2 ≤ 2 ^ 104 := by
  have h1 : |(v : ℝ)| ≤ 2 ^ 52 := by exact_mod_cast h
  rw [← sq_abs]
  calc |(v : ℝ)| ^ 2 ≤ (2 ^ 52) ^ 2 := pow_le_pow_left₀ (abs_nonneg _) h1 2
    _ = 2 ^ 104 := by norm_num

theorem normalize3_int {fl : ℝ → ℝ} (hfl : IsRounding fl) (inverse : Bool) (v : Fin 3 → ℤ)
    (hv : ∀ i, |v i| ≤ 2 ^ 52) (h : v ≠ 0) :
    ∃ w, normalize3 fl inverse (vector v) = some w ∧ ∀ i, |w i - unitVector v i| ≤ 8 * unit := by
  have hu0 : 0 < unit := by norm_num [unit]
  have ht := tiny_small
  have hN := sum_pos_of_ne v h
  have hs : ∑ j, (v j : ℝ) ^ 2 = (v 0 : ℝ) ^ 2 + (v 1 : ℝ) ^ 2 + (v 2 : ℝ) ^ 2 := by
    rw [Fin.sum_univ_three]
  have hm : |dot3 fl (vector v) (vector v) - ∑ j, (v j : ℝ) ^ 2| ≤ 4 * unit * ∑ j, (v j : ℝ) ^ 2 := by
    have h1 := dot3_err hfl (vector v) (vector v)
    unfold vector at h1
    simp only [← pow_two] at h1
    rw [abs_of_nonneg (sq_nonneg (v 0 : ℝ)), abs_of_nonneg (sq_nonneg (v 1 : ℝ)),
      abs_of_nonneg (sq_nonneg (v 2 : ℝ)), ← hs] at h1
    have h2 : 0.9 * unit * 1 ≤ 0.9 * unit * ∑ j, (v j : ℝ) ^ 2 :=
      mul_le_mul_of_nonneg_left hN (by linarith)
    have h3 : 8 * tiny ≤ 0.9 * unit := by norm_num [unit] at *; linarith
    show |dot3 fl (fun i => (v i : ℝ)) (fun i => (v i : ℝ)) - _| ≤ _
    linarith
  have hbig : ∑ j, (v j : ℝ) ^ 2 ≤ 10 ^ 40 := by
    rw [hs]
    have := sq_le_big (hv 0)
    have := sq_le_big (hv 1)
    have := sq_le_big (hv 2)
    norm_num at *
    linarith
  have hq := fun i => quotient_near hfl inverse (v i) _ _ hN hbig hm (component_le v i)
  refine ⟨fun i => quotient fl inverse (vector v i) (fl √(dot3 fl (vector v) (vector v))), ?_,
    fun i => (hq i).2⟩
  unfold normalize3
  rw [if_neg (hq 0).1]

theorem normalize2_int {fl : ℝ → ℝ} (hfl : IsRounding fl) (inverse : Bool) (v : Fin 2 → ℤ)
    (hv : ∀ i, |v i| ≤ 2 ^ 52) (h : v ≠ 0) :
    ∃ w, normalize2 fl inverse (vector v) = some w ∧ ∀ i, |w i - unitVector v i| ≤ 8 * unit := by
  have hu0 : 0 < unit := by norm_num [unit]
  have ht := tiny_small
  have hN := sum_pos_of_ne v h
  have hs : ∑ j, (v j : ℝ) ^ 2 = (v 0 : ℝ) ^ 2 + (v 1 : ℝ) ^ 2 := by
    rw [Fin.sum_univ_two]
  have hm : |dot2 fl (vector v) (vector v) - ∑ j, (v j : ℝ) ^ 2| ≤ 4 * unit * ∑ j, (v j : ℝ) ^ 2 := by
    have h1 := dot2_err hfl (vector v) (vector v)
    unfold vector at h1
    simp only [← pow_two] at h1
    rw [abs_of_nonneg (sq_nonneg (v 0 : ℝ)), abs_of_nonneg (sq_nonneg (v 1 : ℝ)), ← hs] at h1
    have h2 : (2 * unit + unit ^ 2) * ∑ j, (v j : ℝ) ^ 2 ≤ 2.1 * unit * ∑ j, (v j : ℝ) ^ 2 :=
      mul_le_mul_of_nonneg_right (by norm_num [unit]) (by linarith)
    have h4 : 0.9 * unit * 1 ≤ 0.9 * unit * ∑ j, (v j : ℝ) ^ 2 :=
      mul_le_mul_of_nonneg_left hN (by linarith)
    have h3 : 8 * tiny ≤ 0.9 * unit := by norm_num [unit] at *; linarith
    have h5 := tiny_pos
    show |dot2 fl (fun i => (v i : ℝ)) (fun i => (v i : ℝ)) - _| ≤ _
    have h6 : 0 ≤ unit * ∑ j, (v j : ℝ) ^ 2 := mul_nonneg hu0.le (by linarith)
    linarith
  have hbig : ∑ j, (v j : ℝ) ^ 2 ≤ 10 ^ 40 := by
    rw [hs]
    have := sq_le_big (hv 0)
    have := sq_le_big (hv 1)
    norm_num at *
    linarith
  have hq := fun i => quotient_near hfl inverse (v i) _ _ hN hbig hm (component_le v i)
  refine ⟨fun i => quotient fl inverse (vector v i) (fl √(dot2 fl (vector v) (vector v))), ?_,
    fun i => (hq i).2⟩
  unfold normalize2
  rw [if_neg (hq 0).1]

theorem normalize3_zero {fl : ℝ → ℝ} (hfl : IsRounding fl) (inverse : Bool) :
    normalize3 fl inverse (vector 0) = none := by
  unfold normalize3 dot3 vector
  simp [fl_zero hfl]

theorem normalize2_zero {fl : ℝ → ℝ} (hfl : IsRounding fl) (inverse : Bool) :
    normalize2 fl inverse (vector 0) = none := by
  unfold normalize2 dot2 vector
  simp [fl_zero hfl]

theorem eps_int (k : ℤ) : |(k : ℝ)| ≤ dblEpsilon ↔ k = 0 := by
  constructor
  · intro h
    have h1 : |(k : ℝ)| < 1 := lt_of_le_of_lt h (by norm_num [dblEpsilon])
    have h2 : |k| < 1 := by exact_mod_cast h1
    exact Int.abs_lt_one_iff.mp h2
  · rintro rfl
    rw [Int.cast_zero, abs_zero]
    exact (pow_pos2 _).le

/-- Two orthogonal non-zero vectors are not parallel. -/
theorem crossInt_ne (a b : Fin 3 → ℤ) (ha : a ≠ 0) (hb : b ≠ 0)
    (h : ∑ i, a i * b i = 0) : crossInt a b ≠ 0 := by
  intro hc
  have h1 := sum_pos_of_ne a ha
  have h2 := sum_pos_of_ne b hb
  have hl : (∑ j, (a j : ℝ) ^ 2) * (∑ j, (b j : ℝ) ^ 2) =
      (((∑ i, a i * b i : ℤ) : ℝ)) ^ 2 + ∑ j, ((crossInt a b j : ℤ) : ℝ) ^ 2 := by
    have c0 : crossInt a b 0 = a 1 * b 2 - a 2 * b 1 := rfl
    have c1 : crossInt a b 1 = a 2 * b 0 - a 0 * b 2 := rfl
    have c2 : crossInt a b 2 = a 0 * b 1 - a 1 * b 0 := rfl
    simp only [Fin.sum_univ_three, c0, c1, c2]
    push_cast
    ring
  rw [h, hc] at hl
  simp only [Int.cast_zero, Pi.zero_apply] at hl
  norm_num at hl
  have : (0 : ℝ) < (∑ j, (a j : ℝ) ^ 2) * (∑ j, (b j : ℝ) ^ 2) := by positivity
  rcases hl with h | h <;> linarith

theorem crossInt_bound (a b : Fin 3 → ℤ) (ha : SpecIndices a) (hb : SpecIndices b) (i : Fin 3) :
    |crossInt a b i| ≤ 2 ^ 52 := by
  have key : ∀ i j k l : Fin 3, |a i * b j - a k * b l| ≤ 2 ^ 52 := by
    intro i j k l
    have h0 := prod_bound (ha i) (hb j)
    have h1 := prod_bound (ha k) (hb l)
    rw [abs_le] at h0 h1 ⊢
    omega
  fin_cases i
  · exact key 1 2 2 1
  · exact key 2 0 0 2
  · exact key 0 1 1 0

/-- **C112.**  Slip systems given by integer indices, three dimensions: the files are rejected exactly when
a direction does not lie in its plane, the vectors become NaN exactly when one of them is zero, and
otherwise, for every crystal with Euler angles between -360 and 360 degrees, the computed slip
direction, normal and third vector differ from the exact ones by at most `2⁻⁴²` in every component
and the Schmid tensors by at most `2⁻⁴¹`. -/
theorem C112_space {fl cosf sinf : ℝ → ℝ} (hfl : IsRounding fl) (hm : IsLibm cosf sinf)
    (inverse : Bool) (direction normal : Fin 3 → ℤ) (hd : SpecIndices direction)
    (hn : SpecIndices normal) :
    (∑ i, normal i * direction i ≠ 0 →
      readSystem3 fl inverse (vector direction) (vector normal) = .rejected) ∧
    (∑ i, normal i * direction i = 0 → direction = 0 ∨ normal = 0 →
      readSystem3 fl inverse (vector direction) (vector normal) = .nan) ∧
    (∑ i, normal i * direction i = 0 → direction ≠ 0 → normal ≠ 0 →
      ∃ s, readSystem3 fl inverse (vector direction) (vector normal) = .ok s ∧
        ∀ angles : Vec 3, (∀ i, |angles i| ≤ 360) →
          let exact : System 3 := rotateSystem (Cry.rotation3 angles)
            ⟨unitVector direction, unitVector normal, unitVector (crossInt normal direction)⟩
          let computed := rotateSystem3 fl (rotation3 fl cosf sinf angles) s
          SpecNear ((2 : ℝ) ^ (-42 : ℤ)) computed exact ∧
          ∀ i j, |symSchmid fl computed i j - exact.symSchmid i j| ≤ (2 : ℝ) ^ (-41 : ℤ) ∧
            |schmid fl computed i j - exact.schmid i j| ≤ (2 : ℝ) ^ (-41 : ℤ)) := by
  have hdot : dot3 fl (vector normal) (vector direction) = ((∑ i, normal i * direction i : ℤ) : ℝ) := by
    rw [Fin.sum_univ_three]
    exact dot3_int hfl normal direction hn hd
  have hcr : cross3 fl (vector normal) (vector direction) = vector (crossInt normal direction) :=
    cross3_int hfl normal direction hn hd
  have h52 : ∀ (v : Fin 3 → ℤ), SpecIndices v → ∀ i, |v i| ≤ 2 ^ 52 :=
    fun v hv i => (hv i).trans (by norm_num)
  refine ⟨fun h => ?_, fun h h0 => ?_, fun h hd0 hn0 => ?_⟩
  · unfold readSystem3
    rw [if_neg (by rw [hdot, eps_int]; exact h)]
  · unfold readSystem3
    rw [if_pos (by rw [hdot, eps_int]; exact h)]
    rcases h0 with h0 | h0
    · rw [h0, normalize3_zero hfl]
      cases normalize3 fl inverse (vector normal) <;> rfl
    · rw [h0, normalize3_zero hfl]
  · have hc0 := crossInt_ne normal direction hn0 hd0 h
    obtain ⟨wn, hwn, en⟩ := normalize3_int hfl inverse normal (h52 _ hn) hn0
    obtain ⟨wd, hwd, ed⟩ := normalize3_int hfl inverse direction (h52 _ hd) hd0
    obtain ⟨wc, hwc, ec⟩ := normalize3_int hfl inverse (crossInt normal direction)
      (crossInt_bound normal direction hn hd) hc0
    refine ⟨⟨wd, wn, wc⟩, ?_, fun angles ha => ?_⟩
    · unfold readSystem3
      rw [if_pos (by rw [hdot, eps_int]; exact h), hcr, hwn, hwd, hwc]
    · have hu0 : 0 < unit := by norm_num [unit]
      have hr := rotation3_near hfl hm angles ha
      have ho := rotation3_orthogonal angles
      have hb1 : 530 * unit ≤ 1 / 1000 := by norm_num [unit]
      have hb2 : 8 * unit ≤ 1 / 1000 := by norm_num [unit]
      have hv : ∀ (v : Fin 3 → ℤ) (w : Vec 3), v ≠ 0 → (∀ i, |w i - unitVector v i| ≤ 8 * unit) →
          ∀ i, |dot3 fl (rotation3 fl cosf sinf angles i) w -
            ((Cry.rotation3 angles).mulVec (unitVector v)) i| ≤ 1625 * unit := by
        intro v w h0 hw i
        have := dot3_near hfl (a := Cry.rotation3 angles i) (b := unitVector v)
          (fun k => entry_le_one ho i k) (unitVector_le v h0) (hr i) hw hb1 hb2
        refine le_trans (le_of_eq rfl) (this.trans ?_)
        linarith
      have e42 : (1625 : ℝ) * unit ≤ (2 : ℝ) ^ (-42 : ℤ) := by norm_num [unit]
      have e41 : 2.001 * (1625 * unit) + 4 * unit ≤ (2 : ℝ) ^ (-41 : ℤ) := by norm_num [unit]
      refine ⟨fun i => ⟨(hv _ _ hd0 ed i).trans e42, (hv _ _ hn0 en i).trans e42,
        (hv _ _ hc0 ec i).trans e42⟩, fun i j => ?_⟩
      have hs := schmid_near hfl
        (s' := rotateSystem3 fl (rotation3 fl cosf sinf angles) ⟨wd, wn, wc⟩)
        (s := rotateSystem (Cry.rotation3 angles)
            ⟨unitVector direction, unitVector normal, unitVector (crossInt normal direction)⟩)
        (ε := 1625 * unit) (by norm_num [unit])
        (rotated_le_one ho _ (unitVector_norm _ hd0).le)
        (rotated_le_one ho _ (unitVector_norm _ hn0).le) (hv _ _ hd0 ed) (hv _ _ hn0 en) i j
      exact ⟨hs.2.trans e41, hs.1.trans (by linarith)⟩

/-- **C112.**  The same in two dimensions, with one angle per crystal: `2⁻⁴⁶` and `2⁻⁴⁵`. -/
theorem C112_plane {fl cosf sinf : ℝ → ℝ} (hfl : IsRounding fl) (hm : IsLibm cosf sinf)
    (inverse : Bool) (direction normal : Fin 2 → ℤ) (hd : SpecIndices direction)
    (hn : SpecIndices normal) :
    (∑ i, normal i * direction i ≠ 0 →
      readSystem2 fl inverse (vector direction) (vector normal) = .rejected) ∧
    (∑ i, normal i * direction i = 0 → direction = 0 ∨ normal = 0 →
      readSystem2 fl inverse (vector direction) (vector normal) = .nan) ∧
    (∑ i, normal i * direction i = 0 → direction ≠ 0 → normal ≠ 0 →
      ∃ s, readSystem2 fl inverse (vector direction) (vector normal) = .ok s ∧
        ∀ angle : ℝ, |angle| ≤ 360 →
          let exact : System 2 := rotateSystem (Cry.rotation2 angle)
            ⟨unitVector direction, unitVector normal, 0⟩
          let computed := rotateSystem2 fl (rotation2 fl cosf sinf angle) s
          SpecNear ((2 : ℝ) ^ (-46 : ℤ)) computed exact ∧
          ∀ i j, |symSchmid fl computed i j - exact.symSchmid i j| ≤ (2 : ℝ) ^ (-45 : ℤ) ∧
            |schmid fl computed i j - exact.schmid i j| ≤ (2 : ℝ) ^ (-45 : ℤ)) := by
  have hdot : dot2 fl (vector normal) (vector direction) = ((∑ i, normal i * direction i : ℤ) : ℝ) := by
    rw [Fin.sum_univ_two]
    exact dot2_int hfl normal direction hn hd
  have h52 : ∀ (v : Fin 2 → ℤ), SpecIndices v → ∀ i, |v i| ≤ 2 ^ 52 :=
    fun v hv i => (hv i).trans (by norm_num)
  refine ⟨fun h => ?_, fun h h0 => ?_, fun h hd0 hn0 => ?_⟩
  · unfold readSystem2
    rw [if_neg (by rw [hdot, eps_int]; exact h)]
  · unfold readSystem2
    rw [if_pos (by rw [hdot, eps_int]; exact h)]
    rcases h0 with h0 | h0
    · rw [h0, normalize2_zero hfl]
      cases normalize2 fl inverse (vector normal) <;> rfl
    · rw [h0, normalize2_zero hfl]
  · obtain ⟨wn, hwn, en⟩ := normalize2_int hfl inverse normal (h52 _ hn) hn0
    obtain ⟨wd, hwd, ed⟩ := normalize2_int hfl inverse direction (h52 _ hd) hd0
    refine ⟨⟨wd, wn, 0⟩, ?_, fun angle ha => ?_⟩
    · unfold readSystem2
      rw [if_pos (by rw [hdot, eps_int]; exact h), hwn, hwd]
    · have hu0 : 0 < unit := by norm_num [unit]
      have hr := rotation2_near hfl hm angle ha
      have ho := rotation2_orthogonal angle
      have hb1 : 23 * unit ≤ 1 / 1000 := by norm_num [unit]
      have hb2 : 8 * unit ≤ 1 / 1000 := by norm_num [unit]
      have hv : ∀ (v : Fin 2 → ℤ) (w : Vec 2), v ≠ 0 → (∀ i, |w i - unitVector v i| ≤ 8 * unit) →
          ∀ i, |dot2 fl (rotation2 fl cosf sinf angle i) w -
            ((Cry.rotation2 angle).mulVec (unitVector v)) i| ≤ 68 * unit := by
        intro v w h0 hw i
        have := dot2_near hfl (a := Cry.rotation2 angle i) (b := unitVector v)
          (fun k => entry_le_one ho i k) (unitVector_le v h0) (hr i) hw hb1 hb2
        refine le_trans (le_of_eq rfl) (this.trans ?_)
        linarith
      have e42 : (68 : ℝ) * unit ≤ (2 : ℝ) ^ (-46 : ℤ) := by norm_num [unit]
      have e41 : 2.001 * (68 * unit) + 4 * unit ≤ (2 : ℝ) ^ (-45 : ℤ) := by norm_num [unit]
      have hz : ∀ i, |dot2 fl (rotation2 fl cosf sinf angle i) 0 -
          ((Cry.rotation2 angle).mulVec (0 : Vec 2)) i| ≤ (2 : ℝ) ^ (-46 : ℤ) := by
        intro i
        rw [Matrix.mulVec_zero]
        unfold dot2
        simp [fl_zero hfl]
      refine ⟨fun i => ⟨(hv _ _ hd0 ed i).trans e42, (hv _ _ hn0 en i).trans e42, hz i⟩,
        fun i j => ?_⟩
      have hs := schmid_near hfl
        (s' := rotateSystem2 fl (rotation2 fl cosf sinf angle) ⟨wd, wn, 0⟩)
        (s := rotateSystem (Cry.rotation2 angle) ⟨unitVector direction, unitVector normal, 0⟩)
        (ε := 68 * unit) (by norm_num [unit])
        (rotated_le_one ho _ (unitVector_norm _ hd0).le)
        (rotated_le_one ho _ (unitVector_norm _ hn0).le) (hv _ _ hd0 ed) (hv _ _ hn0 en) i j
      exact ⟨hs.2.trans e41, hs.1.trans (by linarith)⟩

/-- **C112**, limit of the guarantee: with decimals instead of integers the files may be rejected although
the direction lies in the plane.  `3·1.1 - 1·3.3` is zero, but the doubles next to `1.1` and `3.3` give
`2⁻⁵¹`, which is above the tolerance of the check, whatever the rounding. -/
theorem C112_decimals {fl : ℝ → ℝ} (hfl : IsRounding fl) (inverse : Bool) :
    (1.1 : ℝ) * 3 + 3.3 * (-1) = 0 ∧
    readSystem2 fl inverse ![fl 3, fl (-1)] ![fl 1.1, fl 3.3] = .rejected := by
  refine ⟨by norm_num, ?_⟩
  have h3 : fl 3 = 3 := fl_three hfl
  have h1 : fl (-1) = -1 := by simpa using fl_int hfl (-1) (by norm_num)
  have ha : fl 1.1 = 2476979795053773 / 2251799813685248 := by
    rw [fl_eq hfl (4953959590107546) (-52) (by norm_num) (by norm_num) (by norm_num)
      (by rw [abs_lt]; constructor <;> norm_num)]
    norm_num
  have hb : fl 3.3 = 7430939385161318 / 2251799813685248 := by
    rw [fl_eq hfl (7430939385161318) (-51) (by norm_num) (by norm_num) (by norm_num)
      (by rw [abs_lt]; constructor <;> norm_num)]
    norm_num
  have hp : fl (2476979795053773 / 2251799813685248 * 3) = 7430939385161319 / 2251799813685248 := by
    rw [show (2476979795053773 : ℝ) / 2251799813685248 * 3 = 7430939385161319 / 2251799813685248 by
      norm_num]
    exact fl_double hfl ⟨7430939385161319, -51, by norm_num, by norm_num, by norm_num⟩
  have hq : fl (7430939385161318 / 2251799813685248 * -1) = -(7430939385161318 / 2251799813685248) := by
    rw [mul_neg_one]
    exact fl_double hfl ⟨-7430939385161318, -51, by norm_num, by norm_num, by norm_num⟩
  have hs : fl (7430939385161319 / 2251799813685248 + -(7430939385161318 / 2251799813685248)) =
      1 / 2251799813685248 := by
    rw [show (7430939385161319 : ℝ) / 2251799813685248 + -(7430939385161318 / 2251799813685248) =
      1 / 2251799813685248 by norm_num]
    exact fl_double hfl ⟨1, -51, by norm_num, by norm_num, by norm_num⟩
  have hdot : dot2 fl ![fl 1.1, fl 3.3] ![fl 3, fl (-1)] = 1 / 2251799813685248 := by
    unfold dot2
    show fl (fl (fl 1.1 * fl 3) + fl (fl 3.3 * fl (-1))) = _
    rw [h3, h1, ha, hb, hp, hq, hs]
  unfold readSystem2
  rw [if_neg]
  rw [hdot, abs_of_pos (by norm_num)]
  norm_num [dblEpsilon]

/-! ### The hypotheses can be met -/

/-- `[1 -1 0]` in `(1 1 1)`, crystal turned by Euler angles 30, 45 and -60 degrees. -/
example : ∃ s, readSystem3 nearestMultiple true (vector ![1, -1, 0]) (vector ![1, 1, 1]) = .ok s ∧
    SpecNear ((2 : ℝ) ^ (-42 : ℤ))
      (rotateSystem3 nearestMultiple (rotation3 nearestMultiple Real.cos Real.sin ![30, 45, -60]) s)
      (rotateSystem (Cry.rotation3 ![30, 45, -60])
        ⟨unitVector ![1, -1, 0], unitVector ![1, 1, 1],
          unitVector (crossInt ![1, 1, 1] ![1, -1, 0])⟩) := by
  obtain ⟨s, h1, h2⟩ := (C112_space nearestMultiple_rounding exact_libm true ![1, -1, 0] ![1, 1, 1]
    (by intro i; fin_cases i <;> norm_num) (by intro i; fin_cases i <;> norm_num)).2.2
    (by decide) (by decide) (by decide)
  refine ⟨s, h1, (h2 ![30, 45, -60] ?_).1⟩
  intro i
  fin_cases i <;> norm_num [abs_le]

/-- A direction out of its plane is found. -/
example : readSystem3 nearestMultiple false (vector ![1, 0, 0]) (vector ![1, 1, 1]) = .rejected :=
  (C112_space nearestMultiple_rounding exact_libm false ![1, 0, 0] ![1, 1, 1]
    (by intro i; fin_cases i <;> norm_num) (by intro i; fin_cases i <;> norm_num)).1 (by decide)

end Verif.Fp
