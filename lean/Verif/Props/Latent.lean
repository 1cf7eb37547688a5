import Verif.Props.Regularization
import Verif.Props.Micro
import Mathlib.Analysis.SpecialFunctions.Trigonometric.Bounds
import Mathlib.Analysis.Calculus.Deriv.MeanValue
import Mathlib.Algebra.Order.Chebyshev

/-!
# Monotonicity of the microstresses with latent hardening

Helpers of C84: with a latent hardening parameter between 0 and 1 the vector of the microstresses is a
monotone function of the vector of the slips, if the regularisation is sharp enough.
-/

namespace Verif.Micro
open Real Finset Verif.Hist

/-! ## Distance of the regularised sign from one -/

theorem one_sub_erf_le (t : ℝ) (ht : 0 ≤ t) : 1 - erf t ≤ exp (-t ^ 2) := by
  have hpi : 0 < √π := sqrt_pos.2 pi_pos
  let g : ℝ → ℝ := fun t => exp (-t ^ 2) + erf t
  have hg : ∀ t, HasDerivAt g (2 * exp (-t ^ 2) * (1 / √π - t)) t := by
    intro t
    have h1 : HasDerivAt (fun t : ℝ => exp (-t ^ 2)) (exp (-t ^ 2) * (-(2 * t))) t := by
      have := ((hasDerivAt_pow 2 t).fun_neg).exp
      simpa using this
    refine (h1.fun_add (erf_hasDerivAt t)).congr_deriv ?_
    ring
  have hc : Continuous g := continuous_iff_continuousAt.2 fun t => (hg t).continuousAt
  show 1 - erf t ≤ exp (-t ^ 2)
  suffices 1 ≤ g t by simp only [g] at this; linarith
  rcases le_total t (1 / √π) with h | h
  · have hm : MonotoneOn g (Set.Icc 0 (1 / √π)) :=
      monotoneOn_of_deriv_nonneg (convex_Icc _ _) hc.continuousOn
        (fun x _ => (hg x).differentiableAt.differentiableWithinAt) fun x hx => by
          rw [interior_Icc] at hx
          rw [(hg x).deriv]
          have := exp_pos (-x ^ 2)
          have : 0 ≤ 1 / √π - x := by linarith [hx.2]
          positivity
    have := hm (Set.left_mem_Icc.2 (by positivity)) ⟨ht, h⟩ ht
    have h0 : g 0 = 1 := by
      have : erf 0 = 0 := by simp [erf]
      simp [g, this]
    rwa [h0] at this
  · have hm : AntitoneOn g (Set.Ici (1 / √π)) :=
      antitoneOn_of_deriv_nonpos (convex_Ici _) hc.continuousOn
        (fun x _ => (hg x).differentiableAt.differentiableWithinAt) fun x hx => by
          rw [interior_Ici] at hx
          rw [(hg x).deriv]
          have h1 := exp_pos (-x ^ 2)
          have h2 : 1 / √π - x ≤ 0 := by linarith [Set.mem_Ioi.1 hx]
          nlinarith
    have hl : Filter.Tendsto g Filter.atTop (nhds 1) := by
      have h1 : Filter.Tendsto (fun t : ℝ => exp (-t ^ 2)) Filter.atTop (nhds 0) :=
        tendsto_exp_atBot.comp (Filter.tendsto_neg_atTop_atBot.comp (Filter.tendsto_pow_atTop (by norm_num)))
      simpa using h1.add erf_tendsto
    refine le_of_tendsto' (f := fun s : ℝ => g (max t s)) (x := Filter.atTop) ?_ fun s =>
      hm (Set.mem_Ici.2 h) (Set.mem_Ici.2 (h.trans (le_max_left _ _))) (le_max_left _ _)
    refine hl.comp ?_
    exact Filter.tendsto_atTop_mono (fun s => le_max_right t s) Filter.tendsto_id

theorem jordan (y : ℝ) (hy : 0 ≤ y) :
    0 ≤ 1 - 2 / π * arctan y ∧ 1 - 2 / π * arctan y ≤ 1 / √(1 + y ^ 2) := by
  have hpi := pi_pos
  have h1 := arctan_lt_pi_div_two y
  have h0 : 0 ≤ arctan y := arctan_nonneg.2 hy
  have he : 1 - 2 / π * arctan y = 2 / π * (π / 2 - arctan y) := by field_simp
  rw [he]
  refine ⟨mul_nonneg (by positivity) (by linarith), ?_⟩
  have := mul_le_sin (x := π / 2 - arctan y) (by linarith) (by linarith)
  rwa [sin_pi_div_two_sub, cos_arctan] at this

/-- For slip rates of one sign the regularised sign approaches one at least as fast as its slope vanishes:
`(1 - s)² ≤ k s'` for each of the five functions. -/
theorem one_sub_reg_sq (f : RegFn) (k : ℝ) (hk : 0 < k) (x : ℝ) (hx : 0 ≤ x) :
    (1 - reg f k x) ^ 2 ≤ k * regDeriv f k x := by
  have hpi := pi_pos
  cases f with
  | atan =>
    have hy : 0 ≤ π / 2 * x / k := by positivity
    obtain ⟨h0, h1⟩ := jordan _ hy
    show (1 - 2 / π * arctan (π / 2 * x / k)) ^ 2 ≤ k * (k / (k * k + π * π * x * x / 4))
    refine (pow_le_pow_left₀ h0 h1 2).trans (le_of_eq ?_)
    rw [div_pow, sq_sqrt (by positivity)]
    field_simp
    ring
  | sqrt =>
    show (1 - x / √(x * x + k * k)) ^ 2 ≤ k * (k * k / (x * x + k * k) ^ (1.5 : ℝ))
    set a := x * x + k * k with ha
    have hap : 0 < a := by positivity
    have hs : √a * √a = a := mul_self_sqrt hap.le
    have hr : a ^ (1.5 : ℝ) = a * √a := by
      rw [sqrt_eq_rpow, ← rpow_one_add' hap.le (by norm_num)]
      norm_num
    rw [hr]
    have hc : 0 < √a := sqrt_pos.2 hap
    have hxc : x ≤ √a := by
      rw [← sqrt_sq hx]; exact sqrt_le_sqrt (by rw [ha]; nlinarith)
    have hkc : k ≤ √a := by
      rw [← sqrt_sq hk.le]; exact sqrt_le_sqrt (by rw [ha]; nlinarith)
    rw [show k * (k * k / (a * √a)) = k ^ 3 / (√a) ^ 3 by
        rw [show a * √a = √a ^ 3 by nth_rewrite 1 [← hs]; ring]; ring,
      show 1 - x / √a = (√a - x) / √a by field_simp, div_pow, div_le_div_iff₀ (by positivity) (by positivity)]
    have key : (√a - x) ^ 2 * √a ≤ k ^ 3 := by
      have e : (√a - x) * (√a + x) = k ^ 2 := by
        have : √a ^ 2 = a := by rw [sq, hs]
        nlinarith
      have h1 : √a - x ≤ k := by
        by_contra h
        push Not at h
        nlinarith
      have h2 : (√a - x) * √a ≤ k ^ 2 := by nlinarith
      calc (√a - x) ^ 2 * √a = (√a - x) * ((√a - x) * √a) := by ring
        _ ≤ k * k ^ 2 := mul_le_mul h1 h2 (by nlinarith) hk.le
        _ = k ^ 3 := by ring
    calc (√a - x) ^ 2 * √a ^ 3 = ((√a - x) ^ 2 * √a) * √a ^ 2 := by ring
      _ ≤ k ^ 3 * √a ^ 2 := mul_le_mul_of_nonneg_right key (by positivity)
  | gd =>
    have hy : 0 ≤ π / 2 * x / k := by positivity
    obtain ⟨h0, h1⟩ := jordan (sinh (π / 2 * x / k)) (sinh_nonneg_iff.2 hy)
    have hc : √(1 + sinh (π / 2 * x / k) ^ 2) = cosh (π / 2 * x / k) := by
      rw [show 1 + sinh (π / 2 * x / k) ^ 2 = cosh (π / 2 * x / k) ^ 2 by rw [cosh_sq]; ring]
      exact sqrt_sq (cosh_pos _).le
    rw [hc] at h1
    have h2 : 1 / cosh (π / 2 * x / k) ≤ 1 := by
      rw [div_le_one (cosh_pos _)]; exact one_le_cosh _
    show (1 - 2 / π * arctan (sinh (π / 2 * x / k))) ^ 2 ≤ k * (1 / cosh (π / 2 * x / k) / k)
    rw [mul_div_cancel₀ _ hk.ne']
    nlinarith
  | tanh =>
    show (1 - tanh (x / k)) ^ 2 ≤ k * ((1 / cosh (x / k)) ^ 2 / k)
    rw [mul_div_cancel₀ _ hk.ne']
    have hc := cosh_pos (x / k)
    have h0 : 0 ≤ tanh (x / k) := by
      rw [tanh_eq_sinh_div_cosh]; exact div_nonneg (sinh_nonneg_iff.2 (by positivity)) hc.le
    have h1 : tanh (x / k) ≤ 1 := (reg_lt_one .tanh k hk x).le
    have h2 : (1 / cosh (x / k)) ^ 2 = 1 - tanh (x / k) ^ 2 := by
      rw [tanh_eq_sinh_div_cosh]
      have := cosh_sq (x / k)
      field_simp
      linarith
    rw [h2]
    nlinarith
  | erf =>
    have ht : 0 ≤ √π / 2 * x / k := by positivity
    have h1 := one_sub_erf_le _ ht
    have h0 : 0 ≤ 1 - erf (√π / 2 * x / k) := by linarith [erf_lt_one (√π / 2 * x / k)]
    have h2 : exp (-(√π / 2 * x / k) ^ 2) ≤ 1 := by
      rw [exp_le_one_iff]; nlinarith
    show (1 - erf (√π / 2 * x / k)) ^ 2 ≤ k * (1 / k * exp (-π * x * x / k / k / 4))
    have hs : √π ^ 2 = π := sq_sqrt hpi.le
    have he : -π * x * x / k / k / 4 = -(√π / 2 * x / k) ^ 2 := by
      rw [div_pow, mul_pow, div_pow, hs]; field_simp; ring
    rw [he, ← mul_assoc, mul_one_div_cancel hk.ne', one_mul]
    nlinarith

/-! ## The quadratic form -/

/-- `Σ v_a s_a h((1-q) v_a + q Σ v_b) + Σ R_a p_a v_a² ≥ Σ (R_a - h q n κ/4) p_a v_a²` -/
theorem form_lower {n : ℕ} (h q κ : ℝ) (hh : 0 ≤ h) (hq : 0 ≤ q) (hq1 : q ≤ 1) (v s p R : Fin n → ℝ)
    (hs0 : ∀ a, 0 ≤ s a) (hp : ∀ a, (1 - s a) ^ 2 ≤ κ * p a) :
    ∑ a, (R a - h * q * n * κ / 4) * (p a * v a ^ 2) ≤
      ∑ a, v a * (s a * (h * ((1 - q) * v a + q * ∑ b, v b)) + R a * (p a * v a)) := by
  set V := ∑ b, v b with hV
  set W := ∑ a, (1 - s a) * v a with hW
  have hVW : ∑ a, s a * v a = V - W := by
    rw [hV, hW, ← Finset.sum_sub_distrib]
    exact sum_congr rfl fun a _ => by ring
  clear_value V W
  have e1 : ∑ a, v a * (s a * (h * ((1 - q) * v a + q * V)) + R a * (p a * v a)) =
      h * (1 - q) * ∑ a, s a * v a ^ 2 + h * q * ((V - W) * V) + ∑ a, R a * (p a * v a ^ 2) := by
    rw [← hVW, Finset.sum_mul, Finset.mul_sum, Finset.mul_sum, ← Finset.sum_add_distrib,
      ← Finset.sum_add_distrib]
    exact sum_congr rfl fun a _ => by ring
  have e2 : ∑ a, (R a - h * q * n * κ / 4) * (p a * v a ^ 2) =
      ∑ a, R a * (p a * v a ^ 2) - h * q * (n * (∑ a, κ * p a * v a ^ 2) / 4) := by
    rw [Finset.mul_sum, Finset.sum_div, Finset.mul_sum, ← Finset.sum_sub_distrib]
    exact sum_congr rfl fun a _ => by ring
  rw [e1, e2]
  have h1 : 0 ≤ h * (1 - q) * ∑ a, s a * v a ^ 2 :=
    mul_nonneg (mul_nonneg hh (by linarith)) (sum_nonneg fun a _ => mul_nonneg (hs0 a) (sq_nonneg _))
  have h2 : W ^ 2 ≤ n * ∑ a, κ * p a * v a ^ 2 := by
    have c := sq_sum_le_card_mul_sum_sq (s := (univ : Finset (Fin n))) (f := fun a => (1 - s a) * v a)
    rw [card_univ, Fintype.card_fin, ← hW] at c
    refine c.trans (mul_le_mul_of_nonneg_left (sum_le_sum fun a _ => ?_) (Nat.cast_nonneg _))
    rw [mul_pow]
    exact mul_le_mul_of_nonneg_right (hp a) (sq_nonneg _)
  have h3 : -(W ^ 2 / 4) ≤ (V - W) * V := by nlinarith [sq_nonneg (V - W / 2)]
  have h4 : h * q * (-(n * (∑ a, κ * p a * v a ^ 2) / 4)) ≤ h * q * ((V - W) * V) :=
    mul_le_mul_of_nonneg_left (by linarith) (mul_nonneg hh hq)
  linarith

/-! ## Monotonicity -/

/-- Monotone along the segment between two vectors of slip increments of one sign. -/
theorem orthant_mono {n : ℕ} (f : RegFn) (k : ℝ) (hk : 0 < k) (h q dt : ℝ) (hh : 0 ≤ h) (hq : 0 ≤ q)
    (hq1 : q ≤ 1) (hdt : 0 < dt) (g X Y : Fin n → ℝ) (hX : ∀ a, 0 ≤ X a) (hY : ∀ a, 0 ≤ Y a)
    (hg : ∀ a, h * q * n * (k * dt) / 4 ≤ g a) :
    let R : (Fin n → ℝ) → Fin n → ℝ := fun Z a => g a + h * ((1 - q) * Z a + q * ∑ b, Z b)
    0 ≤ ∑ a, (Y a - X a) * (R Y a * reg f k (Y a / dt) - R X a * reg f k (X a / dt)) ∧
    ((∀ a, h * q * n * (k * dt) / 4 < g a) → (∃ a, X a ≠ Y a) →
      0 < ∑ a, (Y a - X a) * (R Y a * reg f k (Y a / dt) - R X a * reg f k (X a / dt))) := by
  intro R
  set v : Fin n → ℝ := fun a => Y a - X a with hv
  let Z : ℝ → Fin n → ℝ := fun t a => X a + t * v a
  let φ : ℝ → ℝ := fun t => ∑ a, v a * (R (Z t) a * reg f k (Z t a / dt))
  have hZ : ∀ t ∈ Set.Icc (0 : ℝ) 1, ∀ a, 0 ≤ Z t a := by
    intro t ht a
    have : Z t a = (1 - t) * X a + t * Y a := by simp only [Z, hv]; ring
    rw [this]
    exact add_nonneg (mul_nonneg (by linarith [ht.2]) (hX a)) (mul_nonneg ht.1 (hY a))
  let s : ℝ → Fin n → ℝ := fun t a => reg f k (Z t a / dt)
  let p : ℝ → Fin n → ℝ := fun t a => regDeriv f k (Z t a / dt) / dt
  have hφ : ∀ t, HasDerivAt φ
      (∑ a, v a * (s t a * (h * ((1 - q) * v a + q * ∑ b, v b)) + R (Z t) a * (p t a * v a))) t := by
    intro t
    refine HasDerivAt.fun_sum fun a _ => ?_
    have z : ∀ b, HasDerivAt (fun t => Z t b) (v b) t := fun b => by
      refine (((hasDerivAt_id t).mul_const (v b)).const_add (X b)).congr_deriv (one_mul _)
    have r : HasDerivAt (fun t => R (Z t) a) (h * ((1 - q) * v a + q * ∑ b, v b)) t :=
      ((((z a).const_mul (1 - q)).fun_add ((HasDerivAt.fun_sum fun b _ => z b).const_mul q)).const_mul
        h).const_add (g a)
    have e : HasDerivAt (fun t => reg f k (Z t a / dt)) (regDeriv f k (Z t a / dt) * (v a / dt)) t :=
      HasDerivAt.comp (h₂ := reg f k) t (C27_derivative f k hk (Z t a / dt)) ((z a).div_const dt)
    refine ((r.fun_mul e).const_mul (v a)).congr_deriv ?_
    simp only [s, p]
    ring
  have hR : ∀ t ∈ Set.Icc (0 : ℝ) 1, ∀ a, g a ≤ R (Z t) a := by
    intro t ht a
    have h1 := hZ t ht
    have : 0 ≤ h * ((1 - q) * Z t a + q * ∑ b, Z t b) :=
      mul_nonneg hh (add_nonneg (mul_nonneg (by linarith) (h1 a)) (mul_nonneg hq (sum_nonneg fun b _ => h1 b)))
    simp only [R]; linarith
  have hs0 : ∀ t ∈ Set.Icc (0 : ℝ) 1, ∀ a, 0 ≤ s t a := by
    intro t ht a
    have := (C26_strictMono f k hk).monotone (div_nonneg (hZ t ht a) hdt.le)
    rwa [reg_zero] at this
  have hp : ∀ t ∈ Set.Icc (0 : ℝ) 1, ∀ a, (1 - s t a) ^ 2 ≤ k * dt * p t a := by
    intro t ht a
    refine (one_sub_reg_sq f k hk _ (div_nonneg (hZ t ht a) hdt.le)).trans (le_of_eq ?_)
    simp only [p]; field_simp
  have hpp : ∀ t a, 0 < p t a := fun t a => div_pos (C27_positive f k hk _) hdt
  have hlow : ∀ t ∈ Set.Icc (0 : ℝ) 1, ∑ a, (R (Z t) a - h * q * n * (k * dt) / 4) * (p t a * v a ^ 2) ≤
      deriv φ t := by
    intro t ht
    rw [(hφ t).deriv]
    exact form_lower h q (k * dt) hh hq hq1 v (s t) (p t) (R (Z t)) (hs0 t ht) (hp t ht)
  have hc : ContinuousOn φ (Set.Icc 0 1) := fun t _ => (hφ t).continuousAt.continuousWithinAt
  have hend : φ 1 - φ 0 = ∑ a, v a * (R Y a * reg f k (Y a / dt) - R X a * reg f k (X a / dt)) := by
    have z1 : Z 1 = Y := by funext a; simp [Z, hv]
    have z0 : Z 0 = X := by funext a; simp [Z]
    simp only [φ, z1, z0, ← Finset.sum_sub_distrib, mul_sub]
  have h01 : (0 : ℝ) ∈ Set.Icc (0 : ℝ) 1 := ⟨le_rfl, zero_le_one⟩
  have h11 : (1 : ℝ) ∈ Set.Icc (0 : ℝ) 1 := ⟨zero_le_one, le_rfl⟩
  rw [← hend]
  constructor
  · have hm : MonotoneOn φ (Set.Icc 0 1) :=
      monotoneOn_of_deriv_nonneg (convex_Icc _ _) hc
        (fun x _ => (hφ x).differentiableAt.differentiableWithinAt) fun t ht => by
          have ht' := interior_subset ht
          refine (sum_nonneg fun a _ => ?_).trans (hlow t ht')
          exact mul_nonneg (by linarith [hR t ht' a, hg a]) (mul_nonneg (hpp t a).le (sq_nonneg _))
    linarith [hm h01 h11 zero_le_one]
  · rintro hg' ⟨a, ha⟩
    have hm : StrictMonoOn φ (Set.Icc 0 1) :=
      strictMonoOn_of_deriv_pos (convex_Icc _ _) hc fun t ht => by
          have ht' := interior_subset ht
          refine (sum_pos' (fun a _ => ?_) ⟨a, mem_univ a, ?_⟩).trans_le (hlow t ht')
          · exact mul_nonneg (by linarith [hR t ht' a, hg a]) (mul_nonneg (hpp t a).le (sq_nonneg _))
          · have : v a ≠ 0 := fun h0 => ha (by simp only [hv] at h0; linarith)
            exact mul_pos (by linarith [hR t ht' a, hg' a]) (mul_pos (hpp t a) (by positivity))
    linarith [hm h01 h11 zero_lt_one]

/-- Reduction to increments of one sign: `(x - y)(r s(x) - r' s(y)) ≥ (|x| - |y|)(r s(|x|) - r' s(|y|))`
for an odd function that is non-negative for positive arguments. -/
theorem fold_sign {s : ℝ → ℝ} (hodd : ∀ x, s (-x) = -s x) (hpos : ∀ x, 0 ≤ x → 0 ≤ s x) {r r' : ℝ}
    (hr : 0 ≤ r) (hr' : 0 ≤ r') (x y : ℝ) :
    (|x| - |y|) * (r * s |x| - r' * s |y|) ≤ (x - y) * (r * s x - r' * s y) := by
  rcases le_total 0 x with hx | hx <;> rcases le_total 0 y with hy | hy
  · rw [abs_of_nonneg hx, abs_of_nonneg hy]
  · rw [abs_of_nonneg hx, abs_of_nonpos hy, hodd]
    have h1 := hpos x hx
    have h2 : 0 ≤ -s y := by rw [← hodd]; exact hpos _ (by linarith)
    have h3 := mul_nonneg hr h1
    have h4 := mul_nonneg hr' h2
    nlinarith [mul_nonneg (by linarith : 0 ≤ -y) h3, mul_nonneg hx h4]
  · rw [abs_of_nonpos hx, abs_of_nonneg hy, hodd]
    have h1 := hpos y hy
    have h2 : 0 ≤ -s x := by rw [← hodd]; exact hpos _ (by linarith)
    have h3 := mul_nonneg hr' h1
    have h4 := mul_nonneg hr h2
    nlinarith [mul_nonneg (by linarith : 0 ≤ -x) h3, mul_nonneg hy h4]
  · rw [abs_of_nonpos hx, abs_of_nonpos hy, hodd, hodd]
    exact le_of_eq (by ring)

end Verif.Micro
