import Verif.Props.Micro
import Verif.Props.Unique
import Mathlib.Analysis.Calculus.MeanValue

/-!
# Slopes of the regularisations and of the scalar microstress: helpers of C117
-/

namespace Verif.Micro
open Real

/-- A function with a bounded slope. -/
def Lip (f : ℝ → ℝ) : Prop := ∃ C, 0 ≤ C ∧ ∀ x y, |f x - f y| ≤ C * |x - y|

theorem Lip.of_deriv {f f' : ℝ → ℝ} {C : ℝ} (hC : 0 ≤ C) (h : ∀ x, HasDerivAt f (f' x) x) (hb : ∀ x, |f' x| ≤ C) :
    Lip f := by
  refine ⟨C, hC, fun x y => ?_⟩
  have := Convex.norm_image_sub_le_of_norm_hasDerivWithin_le (s := Set.univ) (f := f) (f' := f') (C := C)
    (fun x _ => (h x).hasDerivWithinAt) (fun x _ => hb x) convex_univ (Set.mem_univ y) (Set.mem_univ x)
  simpa [Real.norm_eq_abs] using this

theorem Lip.scale {f : ℝ → ℝ} (h : Lip f) (a b : ℝ) : Lip fun x => a * f (b * x) := by
  obtain ⟨C, h0, hC⟩ := h
  refine ⟨|a| * (C * |b|), by positivity, fun x y => ?_⟩
  rw [← mul_sub, abs_mul, mul_assoc]
  refine mul_le_mul_of_nonneg_left ?_ (abs_nonneg a)
  refine (hC _ _).trans (le_of_eq ?_)
  rw [← mul_sub, abs_mul]; ring

theorem Lip.mul {f g : ℝ → ℝ} (hf : Lip f) (hg : Lip g) (bf : ∀ x, |f x| ≤ 1) (bg : ∀ x, |g x| ≤ 1) :
    Lip fun x => f x * g x := by
  obtain ⟨C, h0, hC⟩ := hf
  obtain ⟨D, h1, hD⟩ := hg
  refine ⟨C + D, by positivity, fun x y => ?_⟩
  have e : f x * g x - f y * g y = (f x - f y) * g x + f y * (g x - g y) := by ring
  rw [e]
  refine (abs_add_le _ _).trans ?_
  rw [abs_mul, abs_mul, add_mul]
  have a1 := mul_le_mul (hC x y) (bg x) (abs_nonneg _) (by positivity)
  have a2 := mul_le_mul (bf y) (hD x y) (abs_nonneg _) zero_le_one
  linarith

/-- `1 / √(1 + x²)`. -/
theorem lip_cos : Lip fun x => 1 / √(1 + x ^ 2) := by
  refine ⟨1, zero_le_one, fun x y => ?_⟩
  have hx : 1 ≤ √(1 + x ^ 2) := Real.one_le_sqrt.2 (by nlinarith [sq_nonneg x])
  have hy : 1 ≤ √(1 + y ^ 2) := Real.one_le_sqrt.2 (by nlinarith [sq_nonneg y])
  have sx := Real.sq_sqrt (show 0 ≤ 1 + x ^ 2 by positivity)
  have sy := Real.sq_sqrt (show 0 ≤ 1 + y ^ 2 by positivity)
  set a := √(1 + x ^ 2)
  set b := √(1 + y ^ 2)
  have e : 1 / a - 1 / b = (b - a) / (a * b) := by field_simp
  rw [e, abs_div, abs_of_pos (show 0 < a * b by positivity), one_mul, div_le_iff₀ (by positivity)]
  have hab : 1 ≤ a * b := by nlinarith
  have h1 : |b - a| ≤ |x - y| := by
    refine abs_le_of_sq_le_sq ?_ (abs_nonneg _)
    rw [sq_abs]
    have : (1 + x * y) ≤ a * b := by
      refine le_of_abs_le (abs_le_of_sq_le_sq ?_ (by positivity))
      rw [mul_pow, sx, sy]
      nlinarith [sq_nonneg (x - y)]
    nlinarith
  nlinarith [abs_nonneg (x - y)]

theorem cos_le (x : ℝ) : |1 / √(1 + x ^ 2)| ≤ 1 := by
  have hx : 1 ≤ √(1 + x ^ 2) := Real.one_le_sqrt.2 (by nlinarith [sq_nonneg x])
  rw [abs_of_nonneg (by positivity), div_le_one (by positivity)]
  exact hx

theorem sech_le (x : ℝ) : |1 / cosh x| ≤ 1 := by
  rw [abs_of_nonneg (by have := cosh_pos x; positivity), div_le_one (cosh_pos x)]
  exact one_le_cosh x

theorem lip_sech : Lip fun x => 1 / cosh x := by
  refine Lip.of_deriv (f' := fun x => -sinh x / cosh x ^ 2) zero_le_one (fun x => ?_) fun x => ?_
  · refine ((hasDerivAt_cosh x).inv (cosh_pos x).ne').congr_of_eventuallyEq (Filter.Eventually.of_forall fun y => ?_)
    simp
  · have h1 := cosh_pos x
    have h2 := one_le_cosh x
    rw [abs_div, abs_neg, abs_of_pos (pow_pos h1 2), div_le_one (pow_pos h1 2)]
    refine abs_le_of_sq_le_sq ?_ (by positivity)
    have := cosh_sq x
    nlinarith [sq_nonneg (cosh x ^ 2)]

theorem lip_gauss : Lip fun x => exp (-x ^ 2) := by
  refine Lip.of_deriv (f' := fun x => exp (-x ^ 2) * -(2 * x)) zero_le_one (fun x => ?_) fun x => ?_
  · have := ((hasDerivAt_id x).pow 2).neg.exp
    simpa using this
  · rw [abs_mul, abs_neg, abs_of_pos (exp_pos _), exp_neg, inv_mul_le_iff₀ (exp_pos _), mul_one]
    have := add_one_le_exp (x ^ 2)
    rw [abs_mul, abs_two]
    nlinarith [sq_nonneg (|x| - 1), sq_abs x]

/-- The derivative of each regularisation has a bounded slope. -/
theorem regDeriv_lip (f : RegFn) (k : ℝ) (hk : 0 < k) : Lip (regDeriv f k) := by
  cases f with
  | atan =>
    have := (lip_cos.mul lip_cos cos_le cos_le).scale (1 / k) (π / 2 / k)
    convert this using 2 with x
    have hs := Real.mul_self_sqrt (show 0 ≤ 1 + (π / 2 / k * x) ^ 2 by positivity)
    rw [div_mul_div_comm, hs]
    simp only [regDeriv]
    have : (0:ℝ) < k * k + π * π * x * x / 4 := by nlinarith [sq_nonneg (π * x), mul_pos hk hk]
    field_simp
    ring
  | sqrt =>
    have hl := (lip_cos.mul (lip_cos.mul lip_cos cos_le cos_le) cos_le (fun x => by
      rw [abs_mul]; exact mul_le_one₀ (cos_le x) (abs_nonneg _) (cos_le x))).scale (1 / k) (1 / k)
    convert hl using 2 with x
    have hp : 0 < 1 + (1 / k * x) ^ 2 := by positivity
    have e : x * x + k * k = k ^ 2 * (1 + (1 / k * x) ^ 2) := by field_simp; ring
    simp only [regDeriv]
    rw [e, Real.mul_rpow (by positivity) hp.le]
    have e1 : (k ^ 2 : ℝ) ^ (1.5 : ℝ) = k ^ 3 := by
      rw [← Real.rpow_natCast k 2, ← Real.rpow_mul hk.le, ← Real.rpow_natCast k 3]; norm_num
    have e2 : (1 + (1 / k * x) ^ 2) ^ (1.5 : ℝ) = √(1 + (1 / k * x) ^ 2) ^ 3 := by
      rw [Real.sqrt_eq_rpow, ← Real.rpow_natCast _ 3, ← Real.rpow_mul hp.le]; norm_num
    rw [e1, e2]
    have := Real.sqrt_pos.2 hp
    field_simp
  | gd =>
    have := lip_sech.scale (1 / k) (π / 2 / k)
    convert this using 2 with x
    simp only [regDeriv]
    rw [show π / 2 * x / k = π / 2 / k * x by ring]
    ring
  | tanh =>
    have := (lip_sech.mul lip_sech sech_le sech_le).scale (1 / k) (1 / k)
    convert this using 2 with x
    simp only [regDeriv]
    rw [show x / k = 1 / k * x by ring]
    ring
  | erf =>
    have := lip_gauss.scale (1 / k) (√π / 2 / k)
    convert this using 2 with x
    simp only [regDeriv]
    congr 2
    have := Real.sq_sqrt pi_pos.le
    rw [mul_pow, div_pow, div_pow, this]
    ring

/-- The tangent of a function whose derivative has a bounded slope. -/
theorem tangent_error {f f' : ℝ → ℝ} {C : ℝ} (h : ∀ x, HasDerivAt f (f' x) x) (hC : ∀ x y, |f' x - f' y| ≤ C * |x - y|)
    (x y : ℝ) : |f y - f x - f' x * (y - x)| ≤ C * (y - x) ^ 2 := by
  have h0 : 0 ≤ C * |y - x| := (abs_nonneg _).trans (hC y x)
  have hg : ∀ z ∈ Set.uIcc x y, HasDerivWithinAt (fun z => f z - f' x * z) (f' z - f' x) (Set.uIcc x y) z := by
    intro z _
    have := ((h z).fun_sub ((hasDerivAt_id z).const_mul (f' x))).hasDerivWithinAt (s := Set.uIcc x y)
    rw [mul_one] at this
    exact this
  have hb : ∀ z ∈ Set.uIcc x y, ‖f' z - f' x‖ ≤ C * |y - x| := by
    intro z hz
    rw [Real.norm_eq_abs]
    have hzx : |z - x| ≤ |y - x| := Set.abs_sub_left_of_mem_uIcc hz
    refine (hC z x).trans ?_
    rcases (abs_nonneg (y - x)).eq_or_lt with h1 | h1
    · have : |z - x| = 0 := le_antisymm (by linarith) (abs_nonneg _)
      rw [this, ← h1]
    · have : 0 ≤ C := by
        by_contra hn
        push Not at hn
        nlinarith
      exact mul_le_mul_of_nonneg_left hzx this
  have := Convex.norm_image_sub_le_of_norm_hasDerivWithin_le hg hb (convex_uIcc x y) Set.left_mem_uIcc
    Set.right_mem_uIcc
  rw [Real.norm_eq_abs, Real.norm_eq_abs] at this
  have e : f y - f' x * y - (f x - f' x * x) = f y - f x - f' x * (y - x) := by ring
  rw [e, mul_assoc, abs_mul_abs_self] at this
  rw [pow_two]; exact this

open Verif.Hist Verif.Asm Finset in
/-- What the tangent of the scalar microstress misses: a linear error of at most twice the hardening and a quadratic
one. -/
theorem microstress_error {n : ℕ} (l : Law) (hk : 0 < l.k) (hr : l.rateIndependent = false) (b : Bulk n)
    (hb : b.prm = l.hard) (hh : SpecHardens l.hard) (dt C : ℝ) (hdt : 0 < dt)
    (hC : ∀ x y, |regDeriv l.f l.k x - regDeriv l.f l.k y| ≤ C * |x - y|) (H : ℝ)
    (hH : H = if l.hard.perfect then 0 else l.hard.modulus / l.hard.characteristic) (old s t : Fin n → ℝ) (a : Fin n) :
    |l.evalMicrostress b t old dt a - l.evalMicrostress b s old dt a -
      ∑ c, l.evalJacobian b s old dt a c * (t c - s c)| ≤
      2 * H * ∑ c, |t c - s c| + C * |(b.update s old).res a| / dt ^ 2 * (t a - s a) ^ 2 := by
  obtain ⟨E, hE, hres, hjac⟩ : ∃ E : Fin n → ℝ, (∀ c, 0 ≤ E c ∧ E c ≤ H) ∧
      (∀ u, (b.update u old).res a = b.tmp a + ∑ c, E c * |u c - old c|) ∧
      ∀ c, l.evalJacobian b s old dt a c = E c * (reg l.f l.k ((s a - old a) / dt) * reg l.f l.k ((s c - old c) / dt)) +
        if a = c then (b.update s old).res a / dt * regDeriv l.f l.k ((s a - old a) / dt) else 0 := by
    rcases hp : l.hard.perfect with _ | _
    · have hp' : b.prm.perfect = false := by rw [hb]; exact hp
      obtain ⟨h1, h2, h3, h4⟩ : 0 ≤ l.hard.modulus ∧ 0 < l.hard.characteristic ∧ 0 ≤ l.hard.parameter ∧
          l.hard.parameter ≤ 1 := by
        rcases hh with h | h
        · rw [hp] at h; simp at h
        · exact h
      have hH' : H = l.hard.modulus / l.hard.characteristic := by rw [hH, hp]; simp
      have h5 : 0 ≤ H := by rw [hH']; positivity
      refine ⟨fun c => l.hard.entry (decide (a = c)), fun c => ?_, fun u => ?_, fun c => ?_⟩
      · unfold Hardening.entry
        rw [← hH']
        by_cases hac : a = c
        · simp [hac]; exact h5
        · simp [hac]; exact ⟨by positivity, mul_le_of_le_one_right h5 h4⟩
      · rw [C17_hardening_law b u old a hp', hb]
        congr 1
        refine sum_congr rfl fun c _ => ?_
        unfold Hardening.entry
        by_cases hac : a = c <;> simp [hac]
      · unfold Law.evalJacobian Law.jacobian
        simp [hp, hr]
    · have hp' : b.prm.perfect = true := by rw [hb]; exact hp
      have hH' : H = 0 := by rw [hH, hp]; simp
      refine ⟨fun _ => 0, fun c => ⟨le_rfl, by rw [hH']⟩, fun u => ?_, fun c => ?_⟩
      · rw [C17_perfect b u old hp']; simp
      · unfold Law.evalJacobian Law.jacobian
        simp [hp, hr]
  set R := (b.update s old).res a with hR
  set x := (s a - old a) / dt with hx
  set y := (t a - old a) / dt with hy
  have hyx : y - x = (t a - s a) / dt := by rw [hx, hy]; field_simp; ring
  have e1 : l.evalMicrostress b t old dt a = (b.update t old).res a * reg l.f l.k y := by
    simp [Law.evalMicrostress, Law.microstress, hr, hy]
  have e2 : l.evalMicrostress b s old dt a = R * reg l.f l.k x := by
    simp [Law.evalMicrostress, Law.microstress, hr, hx, hR]
  have e3 : ∑ c, l.evalJacobian b s old dt a c * (t c - s c) =
      ∑ c, E c * (reg l.f l.k x * reg l.f l.k ((s c - old c) / dt)) * (t c - s c) +
        R * (regDeriv l.f l.k x * (y - x)) := by
    simp only [hjac, add_mul, sum_add_distrib, ite_mul, zero_mul, sum_ite_eq, mem_univ, if_true]
    rw [hyx]
    congr 1
    field_simp
  have e4 : (b.update t old).res a = R + ∑ c, E c * (|t c - old c| - |s c - old c|) := by
    rw [hR, hres, hres]
    simp only [mul_sub, sum_sub_distrib]
    ring
  have e5 : l.evalMicrostress b t old dt a - l.evalMicrostress b s old dt a -
      ∑ c, l.evalJacobian b s old dt a c * (t c - s c) =
      ∑ c, E c * ((|t c - old c| - |s c - old c|) * reg l.f l.k y -
        reg l.f l.k x * reg l.f l.k ((s c - old c) / dt) * (t c - s c)) +
      R * (reg l.f l.k y - reg l.f l.k x - regDeriv l.f l.k x * (y - x)) := by
    rw [e1, e2, e3, e4, add_mul, Finset.sum_mul]
    have e6 : ∀ c, E c * ((|t c - old c| - |s c - old c|) * reg l.f l.k y -
        reg l.f l.k x * reg l.f l.k ((s c - old c) / dt) * (t c - s c)) =
        E c * (|t c - old c| - |s c - old c|) * reg l.f l.k y -
        E c * (reg l.f l.k x * reg l.f l.k ((s c - old c) / dt)) * (t c - s c) := fun c => by ring
    simp only [e6, sum_sub_distrib]
    ring
  rw [e5]
  refine (abs_add_le _ _).trans (add_le_add ?_ ?_)
  · rw [mul_sum]
    refine (abs_sum_le_sum_abs _ _).trans (sum_le_sum fun c _ => ?_)
    rw [abs_mul, abs_of_nonneg (hE c).1]
    have b1 := (C26_bounded l.f l.k hk y).le
    have b2 := (C26_bounded l.f l.k hk x).le
    have b3 := (C26_bounded l.f l.k hk ((s c - old c) / dt)).le
    have b4 : abs (|t c - old c| - |s c - old c|) ≤ |t c - s c| := by
      refine (abs_abs_sub_abs_le_abs_sub _ _).trans (le_of_eq ?_)
      congr 1; ring
    have b5 : |(|t c - old c| - |s c - old c|) * reg l.f l.k y -
        reg l.f l.k x * reg l.f l.k ((s c - old c) / dt) * (t c - s c)| ≤ 2 * |t c - s c| := by
      refine (abs_sub _ _).trans ?_
      rw [abs_mul, abs_mul, abs_mul]
      have c1 := mul_le_mul b4 b1 (abs_nonneg _) (abs_nonneg _)
      have c2 := mul_le_one₀ b2 (abs_nonneg _) b3
      have c3 := mul_le_mul_of_nonneg_right c2 (abs_nonneg (t c - s c))
      linarith
    have h0 : 0 ≤ H := (hE c).1.trans (hE c).2
    calc E c * _ ≤ H * (2 * |t c - s c|) := mul_le_mul (hE c).2 b5 (abs_nonneg _) h0
      _ = _ := by ring
  · rw [abs_mul]
    have := tangent_error (fun z => C27_derivative l.f l.k hk z) hC x y
    refine (mul_le_mul_of_nonneg_left this (abs_nonneg R)).trans (le_of_eq ?_)
    rw [hyx, div_pow]
    ring

end Verif.Micro
