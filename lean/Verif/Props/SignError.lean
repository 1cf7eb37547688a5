import Verif.Props.Latent
import Mathlib.Analysis.Calculus.Deriv.MeanValue

/-! # How far the regularisations are from the sign function : C26 -/

namespace Verif.Micro

/-- For nonnegative rates the distance to one is at most `k / (k + x)`. -/
theorem one_sub_reg_le (f : RegFn) (k : ℝ) (hk : 0 < k) (x : ℝ) (hx : 0 ≤ x) : 1 - reg f k x ≤ k / (k + x) := by
  have hlt := fun y => reg_lt_one f k hk y
  have hpos : ∀ y, 0 < 1 - reg f k y := fun y => by linarith [hlt y]
  let g : ℝ → ℝ := fun y => k / (1 - reg f k y) - y
  have hd : ∀ y, HasDerivAt g (k * regDeriv f k y / (1 - reg f k y) ^ 2 - 1) y := by
    intro y
    have h1 := ((C27_derivative f k hk y).const_sub 1)
    have h2 := (h1.inv (hpos y).ne').const_mul k
    have h3 := h2.sub (hasDerivAt_id y)
    refine (h3.congr_deriv ?_).congr_of_eventuallyEq ?_
    · rw [neg_neg]; ring
    · exact Filter.Eventually.of_forall fun z => by simp [g, div_eq_mul_inv]
  have hmono : MonotoneOn g (Set.Ici 0) := by
    refine monotoneOn_of_deriv_nonneg (convex_Ici 0) (fun y _ => (hd y).continuousAt.continuousWithinAt)
      (fun y _ => (hd y).differentiableAt.differentiableWithinAt) fun y hy => ?_
    rw [interior_Ici] at hy
    rw [(hd y).deriv, sub_nonneg, le_div_iff₀ (pow_pos (hpos y) 2), one_mul]
    exact one_sub_reg_sq f k hk y (le_of_lt hy)
  have h := hmono (Set.mem_Ici.2 le_rfl) (Set.mem_Ici.2 hx) hx
  simp only [g, reg_zero, sub_zero, div_one] at h
  have h' : k + x ≤ k / (1 - reg f k x) := by linarith
  rw [le_div_iff₀ (by positivity)]
  have := (le_div_iff₀ (hpos x)).1 h'
  linarith

/-- C26: each regularisation differs from the sign function by at most `k / (k + |x|)` where the rate does not vanish; in
particular it converges to the sign function as the regularisation parameter is decreased. -/
theorem C26_error (f : RegFn) (k : ℝ) (hk : 0 < k) (x : ℝ) (hx : x ≠ 0) :
    |(if 0 < x then 1 else -1) - reg f k x| ≤ k / (k + |x|) := by
  rcases lt_or_gt_of_ne hx with h | h
  · have h1 := one_sub_reg_le f k hk (-x) (by linarith)
    have h2 := reg_lt_one f k hk (-x)
    rw [C26_odd] at h1 h2
    rw [if_neg (not_lt.2 h.le), abs_of_neg h, abs_le]
    have : 0 ≤ k / (k + -x) := div_nonneg hk.le (by linarith)
    constructor <;> linarith
  · have h1 := one_sub_reg_le f k hk x h.le
    have h2 := reg_lt_one f k hk x
    rw [if_pos h, abs_of_pos h, abs_le]
    have : 0 ≤ k / (k + x) := by positivity
    constructor <;> linarith

/-- A non-trivial rate: at five times the parameter the error is at most one sixth. -/
example (f : RegFn) : |1 - reg f (1 / 5) 1| ≤ 1 / 6 := by
  have h := C26_error f (1 / 5) (by norm_num) 1 one_ne_zero
  rw [if_pos one_pos] at h
  exact h.trans (by norm_num)

theorem sgn_cases (x : ℝ) (hx : x ≠ 0) : sgn x = if 0 < x then 1 else -1 := by
  rcases lt_or_gt_of_ne hx with h | h
  · simp [sgn, h, not_lt.2 h.le]
  · simp [sgn, h, h.le]

/-- The power of the regularised sign falls short of the modulus of the rate by the parameter at most. -/
theorem reg_power (f : RegFn) (k : ℝ) (hk : 0 < k) (x : ℝ) : |x| - k ≤ reg f k x * x := by
  by_cases hx : x = 0
  · rw [hx, abs_zero, mul_zero]; linarith
  · have h := abs_le.1 (C26_error f k hk x hx)
    have hp : 0 < |x| := abs_pos.2 hx
    have e : k / (k + |x|) * |x| ≤ k := by
      rw [div_mul_eq_mul_div, div_le_iff₀ (by positivity)]
      nlinarith
    rcases lt_or_gt_of_ne hx with h0 | h0
    · rw [if_neg (not_lt.2 h0.le)] at h
      rw [abs_of_neg h0] at *
      nlinarith
    · rw [if_pos h0] at h
      rw [abs_of_pos h0] at *
      nlinarith

/-- The sign function is the limit of the regularisations where the rate does not vanish. -/
theorem reg_limit (f : RegFn) {ι : Type*} {U : Filter ι} {k x : ι → ℝ} {x₀ : ℝ} (hk0 : ∀ j, 0 < k j)
    (hk : Filter.Tendsto k U (nhds 0)) (hx : Filter.Tendsto x U (nhds x₀)) (h0 : x₀ ≠ 0) :
    Filter.Tendsto (fun j => reg f (k j) (x j)) U (nhds (sgn x₀)) := by
  have hb : Filter.Tendsto (fun j => k j / (k j + |x j|)) U (nhds 0) := by
    have := hk.div (hk.add hx.abs) (by rw [zero_add]; exact (abs_pos.2 h0).ne')
    rwa [zero_div] at this
  have hne : ∀ᶠ j in U, x j ≠ 0 ∧ sgn (x j) = sgn x₀ := by
    rcases lt_or_gt_of_ne h0 with h | h
    · filter_upwards [hx.eventually (gt_mem_nhds h)] with j hj
      exact ⟨hj.ne, by rw [sgn_cases _ hj.ne, sgn_cases _ h.ne, if_neg (not_lt.2 hj.le), if_neg (not_lt.2 h.le)]⟩
    · filter_upwards [hx.eventually (lt_mem_nhds h)] with j hj
      exact ⟨hj.ne', by rw [sgn_cases _ hj.ne', sgn_cases _ h.ne', if_pos hj, if_pos h]⟩
  rw [tendsto_iff_norm_sub_tendsto_zero]
  refine squeeze_zero' (Filter.Eventually.of_forall fun j => norm_nonneg _) ?_ hb
  filter_upwards [hne] with j hj
  rw [Real.norm_eq_abs, abs_sub_comm, ← hj.2, sgn_cases _ hj.1]
  exact C26_error f (k j) (hk0 j) (x j) hj.1

end Verif.Micro
