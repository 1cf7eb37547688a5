import Mathlib.Analysis.InnerProductSpace.PiL2
import Mathlib.Topology.MetricSpace.Contracting
import Mathlib.Analysis.Calculus.MeanValue

/-!
# Zeros of monotone maps: helpers of C118
-/

namespace Verif.Mono
open Filter Topology

variable {E : Type*} [NormedAddCommGroup E]

/-- Lipschitz on every ball. -/
def LL {F : Type*} [NormedAddCommGroup F] (f : E → F) : Prop :=
  ∀ R, ∃ C, 0 ≤ C ∧ ∀ x y, ‖x‖ ≤ R → ‖y‖ ≤ R → ‖f x - f y‖ ≤ C * ‖x - y‖

section
variable {F : Type*} [NormedAddCommGroup F]

theorem LL.bounded {f : E → F} (h : LL f) (R : ℝ) : ∃ B, 0 ≤ B ∧ ∀ x, ‖x‖ ≤ R → ‖f x‖ ≤ B := by
  rcases lt_or_ge R 0 with hR | hR
  · exact ⟨0, le_rfl, fun x hx => absurd (hx.trans_lt hR) (not_lt.2 (norm_nonneg x))⟩
  · obtain ⟨C, h0, hC⟩ := h R
    refine ⟨C * R + ‖f 0‖, by positivity, fun x hx => ?_⟩
    have h1 := hC x 0 hx (by rw [norm_zero]; exact hR)
    rw [sub_zero] at h1
    have h2 := norm_add_le (f x - f 0) (f 0)
    rw [sub_add_cancel] at h2
    have := mul_le_mul_of_nonneg_left hx h0
    linarith

theorem LL.const (c : F) : LL fun _ : E => c := fun R => ⟨0, le_rfl, fun x y _ _ => by simp⟩

theorem LL.add {f g : E → F} (hf : LL f) (hg : LL g) : LL fun x => f x + g x := by
  intro R
  obtain ⟨C, h0, hC⟩ := hf R
  obtain ⟨D, h1, hD⟩ := hg R
  refine ⟨C + D, by positivity, fun x y hx hy => ?_⟩
  have e : f x + g x - (f y + g y) = (f x - f y) + (g x - g y) := by abel
  rw [e, add_mul]
  exact (norm_add_le _ _).trans (add_le_add (hC x y hx hy) (hD x y hx hy))

theorem LL.neg {f : E → F} (hf : LL f) : LL fun x => -f x := by
  intro R
  obtain ⟨C, h0, hC⟩ := hf R
  refine ⟨C, h0, fun x y hx hy => ?_⟩
  rw [← norm_neg, neg_sub, sub_neg_eq_add, neg_add_eq_sub]
  exact hC x y hx hy

theorem LL.sub {f g : E → F} (hf : LL f) (hg : LL g) : LL fun x => f x - g x := by
  simp only [sub_eq_add_neg]; exact hf.add hg.neg

theorem LL.finsum {ι : Type*} (s : Finset ι) {f : ι → E → F} (h : ∀ i ∈ s, LL (f i)) : LL fun x => ∑ i ∈ s, f i x := by
  classical
  induction s using Finset.induction_on with
  | empty => simpa using LL.const (0 : F)
  | insert a s ha ih =>
    have := (h a (Finset.mem_insert_self a s)).add (ih fun i hi => h i (Finset.mem_insert_of_mem hi))
    simpa [Finset.sum_insert ha] using this

theorem LL.listsum {ι : Type*} (l : List ι) {f : ι → E → F} (h : ∀ i ∈ l, LL (f i)) :
    LL fun x => (l.map fun i => f i x).sum := by
  induction l with
  | nil => simpa using LL.const (0 : F)
  | cons a l ih =>
    have := (h a List.mem_cons_self).add (ih fun i hi => h i (List.mem_cons_of_mem _ hi))
    simpa using this

theorem LL.continuous {f : E → F} (h : LL f) : Continuous f := by
  rw [continuous_iff_continuousAt]
  intro x
  obtain ⟨C, h0, hC⟩ := h (‖x‖ + 1)
  rw [ContinuousAt, tendsto_iff_norm_sub_tendsto_zero]
  refine squeeze_zero' (Eventually.of_forall fun y => norm_nonneg _) (g := fun y => C * ‖y - x‖) ?_ ?_
  · filter_upwards [Metric.ball_mem_nhds x one_pos] with y hy
    rw [Metric.mem_ball, dist_eq_norm] at hy
    refine hC y x ?_ (by linarith)
    have := norm_add_le (y - x) x
    rw [sub_add_cancel] at this
    linarith
  · have : Tendsto (fun y => C * ‖y - x‖) (𝓝 x) (𝓝 (C * ‖x - x‖)) :=
      ((continuous_id.sub continuous_const).norm.const_mul C |>.tendsto x)
    simpa using this

end

theorem LL.mul {f g : E → ℝ} (hf : LL f) (hg : LL g) : LL fun x => f x * g x := by
  intro R
  obtain ⟨C, h0, hC⟩ := hf R
  obtain ⟨D, h1, hD⟩ := hg R
  obtain ⟨A, h2, hA⟩ := hf.bounded R
  obtain ⟨B, h3, hB⟩ := hg.bounded R
  refine ⟨C * B + A * D, by positivity, fun x y hx hy => ?_⟩
  have e : f x * g x - f y * g y = (f x - f y) * g x + f y * (g x - g y) := by ring
  rw [e]
  refine (norm_add_le _ _).trans ?_
  rw [norm_mul, norm_mul, add_mul]
  refine add_le_add ?_ ?_
  · calc ‖f x - f y‖ * ‖g x‖ ≤ (C * ‖x - y‖) * B :=
        mul_le_mul (hC x y hx hy) (hB x hx) (norm_nonneg _) (by positivity)
      _ = _ := by ring
  · calc ‖f y‖ * ‖g x - g y‖ ≤ A * (D * ‖x - y‖) :=
        mul_le_mul (hA y hy) (hD x y hx hy) (norm_nonneg _) h2
      _ = _ := by ring

theorem LL.cmul {f : E → ℝ} (c : ℝ) (hf : LL f) : LL fun x => c * f x := (LL.const c).mul hf

theorem LL.mulc {f : E → ℝ} (c : ℝ) (hf : LL f) : LL fun x => f x * c := hf.mul (LL.const c)

theorem LL.abs {f : E → ℝ} (hf : LL f) : LL fun x => |f x| := by
  intro R
  obtain ⟨C, h0, hC⟩ := hf R
  exact ⟨C, h0, fun x y hx hy => (abs_abs_sub_abs_le_abs_sub _ _).trans (hC x y hx hy)⟩

theorem LL.comp {f : E → ℝ} {g : ℝ → ℝ} (hg : LL g) (hf : LL f) : LL fun x => g (f x) := by
  intro R
  obtain ⟨C, h0, hC⟩ := hf R
  obtain ⟨B, h1, hB⟩ := hf.bounded R
  obtain ⟨D, h2, hD⟩ := hg B
  refine ⟨D * C, by positivity, fun x y hx hy => ?_⟩
  refine (hD _ _ (hB x hx) (hB y hy)).trans ?_
  rw [mul_assoc]
  exact mul_le_mul_of_nonneg_left (hC x y hx hy) h2

/-- A function with a derivative that is bounded on balls. -/
theorem LL.of_deriv {f f' : ℝ → ℝ} (h : ∀ x, HasDerivAt f (f' x) x)
    (hb : ∀ R, ∃ B, 0 ≤ B ∧ ∀ x, ‖x‖ ≤ R → ‖f' x‖ ≤ B) : LL f := by
  intro R
  obtain ⟨B, h0, hB⟩ := hb R
  refine ⟨B, h0, fun x y hx hy => ?_⟩
  exact Convex.norm_image_sub_le_of_norm_hasDerivWithin_le (s := Metric.closedBall 0 R) (f := f) (f' := f') (C := B)
    (fun x _ => (h x).hasDerivWithinAt) (fun x hx => hB x (by simpa using hx)) (convex_closedBall 0 R)
    (by simpa using hy) (by simpa using hx)

theorem LL.of_components {n : ℕ} {f : E → EuclideanSpace ℝ (Fin n)} (h : ∀ i, LL fun x => f x i) : LL f := by
  intro R
  choose C h0 hC using fun i => h i R
  refine ⟨∑ i, C i, Finset.sum_nonneg fun i _ => h0 i, fun x y hx hy => ?_⟩
  have h1 : ‖f x - f y‖ ≤ ∑ i, ‖(f x - f y) i‖ := by
    rw [EuclideanSpace.norm_eq]
    refine Real.sqrt_le_iff.2 ⟨Finset.sum_nonneg fun _ _ => norm_nonneg _, ?_⟩
    exact Finset.sum_sq_le_sq_sum_of_nonneg fun i _ => norm_nonneg _
  refine h1.trans ?_
  rw [Finset.sum_mul]
  exact Finset.sum_le_sum fun i _ => hC i x y hx hy

section
variable [InnerProductSpace ℝ E] [CompleteSpace E]

/-- A strongly monotone map has a zero. -/
theorem strongly_zero (f : E → E) {k : ℝ} (hk : 0 < k)
    (hm : ∀ x y, k * ‖x - y‖ ^ 2 ≤ inner ℝ (f x - f y) (x - y)) (hf : LL f) : ∃ x, f x = 0 := by
  set R := 2 * ‖f 0‖ / k with hR
  have hR0 : 0 ≤ R := by positivity
  obtain ⟨C, hC0, hC⟩ := hf R
  set L := max C k with hL
  have hLk : k ≤ L := le_max_right _ _
  have hL0 : 0 < L := hk.trans_le hLk
  have hCL : ∀ x y, ‖x‖ ≤ R → ‖y‖ ≤ R → ‖f x - f y‖ ≤ L * ‖x - y‖ := fun x y hx hy =>
    (hC x y hx hy).trans (mul_le_mul_of_nonneg_right (le_max_left _ _) (norm_nonneg _))
  set τ := k / L ^ 2 with hτ
  have hτ0 : 0 < τ := by positivity
  set a := k ^ 2 / L ^ 2 with ha
  have ha0 : 0 < a := by positivity
  have ha1 : a ≤ 1 := by rw [ha, div_le_one (by positivity)]; exact pow_le_pow_left₀ hk.le hLk 2
  set T := fun x => x - τ • f x with hT
  have hcon : ∀ x y, ‖x‖ ≤ R → ‖y‖ ≤ R → ‖T x - T y‖ ≤ (1 - a / 2) * ‖x - y‖ := by
    intro x y hx hy
    refine abs_le_of_sq_le_sq' ?_ (mul_nonneg (by linarith) (norm_nonneg _)) |>.2
    have e : T x - T y = (x - y) - τ • (f x - f y) := by simp only [hT, smul_sub]; abel
    rw [e, norm_sub_sq_real, norm_smul, Real.norm_eq_abs, abs_of_pos hτ0, inner_smul_right, real_inner_comm]
    have h1 := hm x y
    have h2 := pow_le_pow_left₀ (norm_nonneg _) (hCL x y hx hy) 2
    have h3 : τ * (k * ‖x - y‖ ^ 2) ≤ τ * inner ℝ (f x - f y) (x - y) := mul_le_mul_of_nonneg_left h1 hτ0.le
    have h4 : τ ^ 2 * ‖f x - f y‖ ^ 2 ≤ τ ^ 2 * (L * ‖x - y‖) ^ 2 := mul_le_mul_of_nonneg_left h2 (sq_nonneg _)
    have e1 : τ * k = a := by rw [hτ, ha]; ring
    have e2 : τ ^ 2 * L ^ 2 = a := by rw [hτ, ha]; field_simp
    have e3 : τ ^ 2 * (L * ‖x - y‖) ^ 2 = a * ‖x - y‖ ^ 2 := by rw [mul_pow, ← mul_assoc, e2]
    have e4 : τ * (k * ‖x - y‖ ^ 2) = a * ‖x - y‖ ^ 2 := by rw [← mul_assoc, e1]
    have e5 : (τ * ‖f x - f y‖) ^ 2 = τ ^ 2 * ‖f x - f y‖ ^ 2 := mul_pow _ _ _
    nlinarith [sq_nonneg (a / 2 * ‖x - y‖)]
  have hmaps : Set.MapsTo T (Metric.closedBall 0 R) (Metric.closedBall 0 R) := by
    intro x hx
    rw [mem_closedBall_zero_iff] at hx ⊢
    have h1 := hcon x 0 hx (by rw [norm_zero]; exact hR0)
    have h2 := norm_add_le (T x - T 0) (T 0)
    rw [sub_add_cancel] at h2
    have h3 : ‖T 0‖ = τ * ‖f 0‖ := by
      simp only [hT, zero_sub, norm_neg, norm_smul, Real.norm_eq_abs, abs_of_pos hτ0]
    rw [sub_zero] at h1
    have h4 : a / 2 * R = τ * ‖f 0‖ := by rw [ha, hR, hτ]; field_simp
    have h5 := mul_le_mul_of_nonneg_left hx (show 0 ≤ 1 - a / 2 by linarith)
    linarith
  obtain ⟨θ, hθ⟩ : ∃ θ : NNReal, (θ : ℝ) = 1 - a / 2 := ⟨⟨1 - a / 2, by linarith⟩, rfl⟩
  have hc : ContractingWith θ (hmaps.restrict T _ _) := by
    refine ⟨by rw [← NNReal.coe_lt_coe, hθ, NNReal.coe_one]; linarith, LipschitzWith.of_dist_le_mul fun x y => ?_⟩
    show dist (T x) (T y) ≤ θ * dist (x : E) y
    rw [dist_eq_norm, dist_eq_norm, hθ]
    exact hcon x y (mem_closedBall_zero_iff.1 x.2) (mem_closedBall_zero_iff.1 y.2)
  obtain ⟨y, -, hy, -⟩ := hc.exists_fixedPoint' (Metric.isClosed_closedBall.isComplete) hmaps
    (x := 0) (by simpa using hR0) (edist_ne_top _ _)
  refine ⟨y, ?_⟩
  have : y - τ • f y = y := hy
  rw [sub_eq_self] at this
  exact (smul_eq_zero.1 this).resolve_left hτ0.ne'

/-- A monotone map that points outwards far away has a zero. -/
theorem monotone_zero [FiniteDimensional ℝ E] (f : E → E) (hm : ∀ x y, 0 ≤ inner ℝ (f x - f y) (x - y)) (hf : LL f)
    (R : ℝ) (hc : ∀ x, R ≤ ‖x‖ → 0 < inner ℝ (f x) x) : ∃ x, f x = 0 := by
  have hid : ∀ ε : ℝ, LL fun x : E => ε • x := fun ε R => ⟨|ε|, abs_nonneg ε, fun x y _ _ => by
    rw [← smul_sub, norm_smul, Real.norm_eq_abs]⟩
  have hex : ∀ i : ℕ, ∃ x, f x + (1 / ((i : ℝ) + 1)) • x = 0 := by
    intro i
    have hp : (0 : ℝ) < 1 / ((i : ℝ) + 1) := by positivity
    refine strongly_zero (fun x => f x + (1 / ((i : ℝ) + 1)) • x) hp (fun x y => ?_) (hf.add (hid _))
    have e : f x + (1 / ((i : ℝ) + 1)) • x - (f y + (1 / ((i : ℝ) + 1)) • y) =
        (f x - f y) + (1 / ((i : ℝ) + 1)) • (x - y) := by rw [smul_sub]; abel
    rw [e, inner_add_left, inner_smul_left, real_inner_self_eq_norm_sq]
    simp only [conj_trivial]
    linarith [hm x y]
  choose x hx using hex
  have hb : ∀ i, x i ∈ Metric.closedBall (0 : E) R := by
    intro i
    rw [mem_closedBall_zero_iff]
    by_contra hn
    push Not at hn
    have h1 := hc (x i) hn.le
    have h2 : f (x i) = -((1 / ((i : ℝ) + 1)) • x i) := eq_neg_of_add_eq_zero_left (hx i)
    rw [h2, inner_neg_left, inner_smul_left, real_inner_self_eq_norm_sq] at h1
    simp only [conj_trivial] at h1
    have : 0 ≤ 1 / ((i : ℝ) + 1) * ‖x i‖ ^ 2 := by positivity
    linarith
  have : ProperSpace E := FiniteDimensional.proper ℝ E
  obtain ⟨y, -, φ, hφ, hlim⟩ := (isCompact_closedBall (0 : E) R).tendsto_subseq hb
  refine ⟨y, ?_⟩
  have h1 : Tendsto (fun i => f (x (φ i))) atTop (𝓝 (f y)) := (hf.continuous.tendsto y).comp hlim
  have h2 : Tendsto (fun i => f (x (φ i))) atTop (𝓝 0) := by
    have e : ∀ i, f (x (φ i)) = -((1 / ((φ i : ℝ) + 1)) • x (φ i)) := fun i => eq_neg_of_add_eq_zero_left (hx (φ i))
    simp only [e]
    have h3 : Tendsto (fun i => 1 / ((φ i : ℝ) + 1)) atTop (𝓝 0) :=
      tendsto_one_div_add_atTop_nhds_zero_nat.comp hφ.tendsto_atTop
    have := (h3.smul hlim).neg
    simpa using this
  exact tendsto_nhds_unique h1 h2

end

end Verif.Mono
