import Verif.Model.Micro
import Mathlib.Analysis.SpecialFunctions.Gaussian.GaussianIntegral
import Mathlib.Analysis.SpecialFunctions.Trigonometric.ArctanDeriv
import Mathlib.Analysis.SpecialFunctions.Trigonometric.DerivHyp
import Mathlib.Analysis.Calculus.Deriv.MeanValue
import Mathlib.MeasureTheory.Integral.IntervalIntegral.FundThmCalculus
import Mathlib.MeasureTheory.Integral.IntegralEqImproper
import Mathlib.Tactic.Linarith
import Mathlib.Tactic.Positivity
import Mathlib.Tactic.FieldSimp

/-!
# Properties of the regularised sign functions: C26, C27
-/

namespace Verif.Micro
open Real

/-! ## The error function -/

theorem erf_hasDerivAt (x : ℝ) : HasDerivAt erf (2 / √π * exp (-x ^ 2)) x := by
  unfold erf
  apply HasDerivAt.const_mul
  have hc : Continuous fun t : ℝ => exp (-t ^ 2) := by fun_prop
  exact intervalIntegral.integral_hasDerivAt_right (hc.intervalIntegrable _ _)
    (hc.stronglyMeasurableAtFilter _ _) hc.continuousAt

theorem erf_neg (x : ℝ) : erf (-x) = -erf x := by
  unfold erf
  have h := intervalIntegral.integral_comp_neg (f := fun t : ℝ => exp (-t ^ 2)) (a := 0) (b := x)
  simp only [neg_sq, neg_zero] at h
  rw [intervalIntegral.integral_symm, h] 
  ring

theorem erf_strictMono : StrictMono erf :=
  strictMono_of_hasDerivAt_pos erf_hasDerivAt fun x => by positivity

theorem erf_tendsto : Filter.Tendsto erf Filter.atTop (nhds 1) := by
  have hi : MeasureTheory.IntegrableOn (fun t : ℝ => exp (-t ^ 2)) (Set.Ioi 0) := by
    have := (integrable_exp_neg_mul_sq (b := 1) one_pos).integrableOn (s := Set.Ioi 0)
    simpa using this
  have h := MeasureTheory.intervalIntegral_tendsto_integral_Ioi 0 hi Filter.tendsto_id
  have hg : ∫ t in Set.Ioi (0 : ℝ), exp (-t ^ 2) = √π / 2 := by
    have := integral_gaussian_Ioi 1
    simpa using this
  rw [hg] at h
  have h2 := h.const_mul (2 / √π)
  have hpi : √π ≠ 0 := (sqrt_pos.mpr pi_pos).ne'
  have h1 : 2 / √π * (√π / 2) = 1 := by field_simp
  rw [h1] at h2
  exact h2

theorem erf_lt_one (x : ℝ) : erf x < 1 :=
  lt_of_lt_of_le (erf_strictMono (lt_add_one x))
    (erf_strictMono.monotone.ge_of_tendsto erf_tendsto (x + 1))

/-! ## C27: the derivative -/

theorem tanh_hasDerivAt (x : ℝ) : HasDerivAt tanh ((1 / cosh x) ^ 2) x := by
  have h := (hasDerivAt_sinh x).div (hasDerivAt_cosh x) (cosh_pos x).ne'
  have he : tanh = fun y => sinh y / cosh y := by funext y; exact tanh_eq_sinh_div_cosh y
  rw [he]
  refine h.congr_deriv ?_
  have hc := (cosh_pos x).ne'
  have := cosh_sq x
  field_simp
  linarith

/-- C27: `get_regularization_function_derivative_value` is the derivative of
`get_regularization_function_value`. -/
theorem C27_derivative (f : RegFn) (k : ℝ) (hk : 0 < k) (x : ℝ) :
    HasDerivAt (reg f k) (regDeriv f k x) x := by
  have hpi := pi_pos
  cases f with
  | atan =>
    have h1 : HasDerivAt (fun y : ℝ => π / 2 * y / k) (π / 2 / k) x := by
      simpa using ((hasDerivAt_id x).const_mul (π / 2)).div_const k
    have h2 := (h1.arctan).const_mul (2 / π)
    refine HasDerivAt.congr_deriv (f := reg .atan k) h2 (Eq.symm ?_)
    unfold regDeriv
    simp only
    have : 0 < k * k + π * π * x * x / 4 := by nlinarith [mul_self_nonneg (π * x), mul_pos hk hk]
    field_simp
    ring
  | sqrt =>
    have hpos : ∀ y : ℝ, 0 < y * y + k * k := fun y => by nlinarith [mul_self_nonneg y, mul_pos hk hk]
    have h0 : HasDerivAt (fun y : ℝ => y * y + k * k) (1 * x + x * 1) x := by
      exact ((hasDerivAt_id x).mul (hasDerivAt_id x)).add_const _
    have h1 := h0.sqrt (hpos x).ne'
    have h2 := (hasDerivAt_id x).div h1 (sqrt_pos.mpr (hpos x)).ne'
    refine HasDerivAt.congr_deriv (f := reg .sqrt k) h2 (Eq.symm ?_)
    unfold regDeriv
    simp only [id]
    set a := x * x + k * k with ha
    have hap : 0 < a := hpos x
    have hs : √a * √a = a := mul_self_sqrt hap.le
    have hr : a ^ (1.5 : ℝ) = a * √a := by
      rw [sqrt_eq_rpow, ← rpow_one_add' hap.le (by norm_num)]
      norm_num
    have hsp : 0 < √a := sqrt_pos.mpr hap
    rw [hr, show √a ^ 2 = a from by rw [sq, hs]]
    field_simp
    have : √a ^ 2 = a := by rw [sq, hs]
    rw [this, ha]
    ring
  | gd =>
    have h1 : HasDerivAt (fun y : ℝ => π / 2 * y / k) (π / 2 / k) x := by
      simpa using ((hasDerivAt_id x).const_mul (π / 2)).div_const k
    have h2 := ((h1.sinh).arctan).const_mul (2 / π)
    refine HasDerivAt.congr_deriv (f := reg .gd k) h2 (Eq.symm ?_)
    unfold regDeriv
    simp only
    have hc := cosh_pos (π / 2 * x / k)
    have hsq : 1 + sinh (π / 2 * x / k) ^ 2 = cosh (π / 2 * x / k) ^ 2 := by
      rw [cosh_sq]; ring
    rw [hsq]
    field_simp
  | tanh =>
    have h1 : HasDerivAt (fun y : ℝ => y / k) (1 / k) x := (hasDerivAt_id x).div_const k
    have h2 := (tanh_hasDerivAt (x / k)).comp x h1
    refine HasDerivAt.congr_deriv (f := reg .tanh k) h2 (Eq.symm ?_)
    unfold regDeriv
    ring
  | erf =>
    have h1 : HasDerivAt (fun y : ℝ => √π / 2 * y / k) (√π / 2 / k) x := by
      simpa using ((hasDerivAt_id x).const_mul (√π / 2)).div_const k
    have h2 := (erf_hasDerivAt (√π / 2 * x / k)).comp x h1
    refine HasDerivAt.congr_deriv (f := reg .erf k) h2 (Eq.symm ?_)
    unfold regDeriv
    simp only
    have hs : √π ^ 2 = π := sq_sqrt hpi.le
    have he : -π * x * x / k / k / 4 = -(√π / 2 * x / k) ^ 2 := by
      rw [div_pow, mul_pow, div_pow, hs]; field_simp; ring
    rw [he]
    have := sqrt_pos.mpr hpi
    field_simp

/-- C27: the derivative is positive everywhere. -/
theorem C27_positive (f : RegFn) (k : ℝ) (hk : 0 < k) (x : ℝ) : 0 < regDeriv f k x := by
  unfold regDeriv
  cases f with
  | atan =>
    have : 0 < k * k + π * π * x * x / 4 := by nlinarith [mul_self_nonneg (π * x), mul_pos hk hk]
    positivity
  | sqrt =>
    have : 0 < x * x + k * k := by nlinarith [mul_self_nonneg x, mul_pos hk hk]
    positivity
  | gd => have := cosh_pos (π / 2 * x / k); positivity
  | tanh => have := cosh_pos (x / k); positivity
  | erf => positivity

/-- C27: the slope at zero is the inverse of the regularisation parameter. -/
theorem C27_slope_at_zero (f : RegFn) (k : ℝ) (hk : 0 < k) : regDeriv f k 0 = 1 / k := by
  unfold regDeriv
  cases f with
  | sqrt =>
    have h : (0 * 0 + k * k) ^ (1.5 : ℝ) = k * k * k := by
      rw [zero_mul, zero_add, ← sq, ← rpow_natCast, ← rpow_mul hk.le]
      norm_num
      ring
    simp only
    rw [h]; field_simp
  | atan => simp
  | gd => simp
  | tanh => simp
  | erf => simp

/-- C27: the copies of the two functions in `Utilities` agree with those of the law. -/
theorem C27_sigmoid_is_reg (f : RegFn) (k x : ℝ) :
    sigmoid x k f = reg f k x ∧ sigmoidDeriv x k f = regDeriv f k x := by
  cases f <;> exact ⟨rfl, rfl⟩

/-- C27 for the functions of `Utilities`. -/
theorem C27_sigmoid_derivative (f : RegFn) (k : ℝ) (hk : 0 < k) (x : ℝ) :
    HasDerivAt (fun y => sigmoid y k f) (sigmoidDeriv x k f) x := by
  have h : (fun y => sigmoid y k f) = reg f k := by
    funext y; exact (C27_sigmoid_is_reg f k y).1
  rw [h, (C27_sigmoid_is_reg f k x).2]
  exact C27_derivative f k hk x

/-! ## C26: shape -/

/-- C26: odd. -/
theorem C26_odd (f : RegFn) (k x : ℝ) : reg f k (-x) = -reg f k x := by
  unfold reg
  cases f with
  | atan => simp only [mul_neg, neg_div, arctan_neg]
  | sqrt => simp only [neg_mul_neg, neg_div]
  | gd => simp only [mul_neg, neg_div, sinh_neg, arctan_neg]
  | tanh => simp only [neg_div, tanh_neg]
  | erf => simp only [mul_neg, neg_div, erf_neg]

/-- C26: strictly increasing. -/
theorem C26_strictMono (f : RegFn) (k : ℝ) (hk : 0 < k) : StrictMono (reg f k) :=
  strictMono_of_hasDerivAt_pos (C27_derivative f k hk) (C27_positive f k hk)

/-- C26: below one. -/
theorem reg_lt_one (f : RegFn) (k : ℝ) (hk : 0 < k) (x : ℝ) : reg f k x < 1 := by
  have hpi := pi_pos
  have hat : ∀ y, 2 / π * arctan y < 1 := by
    intro y
    have := arctan_lt_pi_div_two y
    calc 2 / π * arctan y < 2 / π * (π / 2) := by
          apply mul_lt_mul_of_pos_left this; positivity
      _ = 1 := by field_simp
  unfold reg
  cases f with
  | atan => exact hat _
  | gd => exact hat _
  | sqrt =>
    have hkk : 0 < k * k := mul_pos hk hk
    have h1 : 0 < x * x + k * k := by nlinarith [mul_self_nonneg x]
    simp only
    rw [div_lt_one (sqrt_pos.mpr h1)]
    apply lt_sqrt_of_sq_lt
    rw [sq]; linarith
  | tanh =>
    simp only
    rw [tanh_eq_sinh_div_cosh, div_lt_one (cosh_pos _)]
    exact sinh_lt_cosh _
  | erf => exact erf_lt_one _

/-- C26: modulus below one. -/
theorem C26_bounded (f : RegFn) (k : ℝ) (hk : 0 < k) (x : ℝ) : |reg f k x| < 1 := by
  rw [abs_lt]
  refine ⟨?_, reg_lt_one f k hk x⟩
  have h := reg_lt_one f k hk (-x)
  rw [C26_odd] at h
  linarith

theorem reg_zero (f : RegFn) (k : ℝ) : reg f k 0 = 0 := by
  have h := C26_odd f k 0
  rw [neg_zero] at h
  linarith

/-- C26: the sign of the argument. -/
theorem C26_sign (f : RegFn) (k : ℝ) (hk : 0 < k) (x : ℝ) :
    (0 < reg f k x ↔ 0 < x) ∧ (reg f k x < 0 ↔ x < 0) ∧ (reg f k x = 0 ↔ x = 0) := by
  have hm := C26_strictMono f k hk
  refine ⟨?_, ?_, ?_⟩
  · conv_lhs => rw [← reg_zero f k]
    exact hm.lt_iff_lt
  · conv_lhs => rw [← reg_zero f k]
    exact hm.lt_iff_lt
  · conv_lhs => rw [← reg_zero f k]
    exact hm.injective.eq_iff

/-- Non-vacuity: an accepted regularisation parameter. -/
example : (0 : ℝ) < 0.0003 := by norm_num

end Verif.Micro
