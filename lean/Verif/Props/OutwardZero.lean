import Mathlib.Analysis.InnerProductSpace.PiL2
import Mathlib.Analysis.InnerProductSpace.Calculus
import Mathlib.MeasureTheory.Function.Jacobian
import Mathlib.MeasureTheory.Measure.Haar.InnerProductSpace
import Mathlib.LinearAlgebra.Lagrange
import Mathlib.LinearAlgebra.Matrix.Polynomial
import Mathlib.Geometry.Manifold.SmoothApprox
import Mathlib.Topology.MetricSpace.Contracting
import Mathlib.MeasureTheory.Measure.Lebesgue.EqHaar
import Mathlib.Analysis.SpecialFunctions.Sqrt

/-!
# Zeros of continuous maps that point outwards on a sphere: helpers of C129
-/

namespace Verif.Mono
open Metric MeasureTheory Polynomial
open scoped NNReal

abbrev Sp (m : ℕ) := EuclideanSpace ℝ (Fin m)

/-- Determinants along a line are determined by finitely many of them. -/
theorem det_interpolate {m : ℕ} (A : Sp m →L[ℝ] Sp m) (v : ℕ → ℝ)
    (hv : Set.InjOn v (Finset.range (m + 1))) (t : ℝ) :
    (ContinuousLinearMap.id ℝ (Sp m) + t • A).det = ∑ i ∈ Finset.range (m + 1),
      (Lagrange.basis (Finset.range (m + 1)) v i).eval t * (ContinuousLinearMap.id ℝ (Sp m) + v i • A).det := by
  classical
  let b := (EuclideanSpace.basisFun (Fin m) ℝ).toBasis
  let M : Matrix (Fin m) (Fin m) ℝ := LinearMap.toMatrix b b (A : Sp m →ₗ[ℝ] Sp m)
  let P : ℝ[X] := Matrix.det ((X : ℝ[X]) • M.map C + (1 : Matrix (Fin m) (Fin m) ℝ).map C)
  have hP : ∀ s, P.eval s = (ContinuousLinearMap.id ℝ (Sp m) + s • A).det := by
    intro s
    have e1 : (ContinuousLinearMap.id ℝ (Sp m) + s • A).det = (1 + s • M).det := by
      have : ((ContinuousLinearMap.id ℝ (Sp m) + s • A : Sp m →L[ℝ] Sp m) : Sp m →ₗ[ℝ] Sp m) =
          LinearMap.id + s • (A : Sp m →ₗ[ℝ] Sp m) := rfl
      unfold ContinuousLinearMap.det
      rw [this, ← LinearMap.det_toMatrix b]
      congr 1
      rw [map_add, map_smul, LinearMap.toMatrix_id]
    rw [e1]
    show (evalRingHom s) (Matrix.det _) = _
    rw [RingHom.map_det]
    congr 1
    generalize M = M'
    ext i j
    by_cases h : i = j
    · subst h
      simp [Matrix.map_apply, Matrix.add_apply, Matrix.smul_apply, add_comm]
      ring
    · simp [Matrix.map_apply, Matrix.add_apply, Matrix.smul_apply, Matrix.one_apply_ne h]
      ring
  have hd : P.degree < (Finset.range (m + 1)).card := by
    rw [Finset.card_range]
    refine (Polynomial.degree_le_natDegree).trans_lt ?_
    have := Polynomial.natDegree_det_X_add_C_le M 1
    rw [Fintype.card_fin] at this
    exact_mod_cast Nat.lt_succ_of_le this
  have h := Lagrange.eq_interpolate hv hd
  have h2 := congrArg (Polynomial.eval t) h
  rw [hP, Lagrange.interpolate_apply, eval_finsetSum] at h2
  rw [h2]
  refine Finset.sum_congr rfl fun i _ => ?_
  rw [eval_mul, eval_C, hP]
  ring

theorem det_pos {m : ℕ} (A : Sp m →L[ℝ] Sp m) (L : ℝ) (hA : ‖A‖ ≤ L) (t : ℝ) (ht : 0 ≤ t)
    (htL : t * L < 1) : 0 < (ContinuousLinearMap.id ℝ (Sp m) + t • A).det := by
  have hne : ∀ s ∈ Set.Icc 0 t, (ContinuousLinearMap.id ℝ (Sp m) + s • A).det ≠ 0 := by
    intro s hs h0
    have hk := LinearMap.bot_lt_ker_of_det_eq_zero (f := ((ContinuousLinearMap.id ℝ (Sp m) + s • A :
      Sp m →L[ℝ] Sp m) : Sp m →ₗ[ℝ] Sp m)) h0
    obtain ⟨w, hw, hw0⟩ := (Submodule.ne_bot_iff _).1 hk.ne'
    have e : w + s • A w = 0 := hw
    have e2 : ‖w‖ = s * ‖A w‖ := by
      have := congrArg norm (eq_neg_of_add_eq_zero_left e)
      rwa [norm_neg, norm_smul, Real.norm_of_nonneg hs.1] at this
    have h1 := A.le_opNorm w
    have h2 : ‖A‖ * ‖w‖ ≤ L * ‖w‖ := mul_le_mul_of_nonneg_right hA (norm_nonneg w)
    have h3 : s * ‖A w‖ ≤ t * (L * ‖w‖) := mul_le_mul hs.2 (h1.trans h2) (norm_nonneg _) ht
    have h4 : 0 < ‖w‖ := norm_pos_iff.2 hw0
    nlinarith
  have hc : Continuous fun s : ℝ => (ContinuousLinearMap.id ℝ (Sp m) + s • A).det :=
    ContinuousLinearMap.continuous_det.comp (by fun_prop)
  by_contra hneg
  have h0 : (ContinuousLinearMap.id ℝ (Sp m) + (0 : ℝ) • A).det = 1 := by
    have : ContinuousLinearMap.id ℝ (Sp m) + (0 : ℝ) • A = ContinuousLinearMap.id ℝ (Sp m) := by ext; simp
    rw [this]; simp [ContinuousLinearMap.det]
  have := intermediate_value_Icc' ht hc.continuousOn
  obtain ⟨s, hs, hs0⟩ := this ⟨not_lt.1 hneg, by rw [h0]; exact zero_le_one⟩
  exact hne s hs hs0

/-- There is no differentiable and Lipschitz retraction of the ball onto the sphere. -/
theorem no_retraction {m : ℕ} (f : Sp m → Sp m) (L : ℝ≥0) (hL : LipschitzOnWith L f (closedBall 0 1))
    (f' : Sp m → Sp m →L[ℝ] Sp m) (hf' : ∀ x ∈ ball (0 : Sp m) 1, HasFDerivAt f (f' x) x)
    (hid : ∀ x, ‖x‖ = 1 → f x = x) (hn : ∀ x ∈ ball (0 : Sp m) 1, ‖f x‖ = 1) : False := by
  classical
  let M : ℝ := L + 1
  have hM : 0 < M := by positivity
  let g : Sp m → Sp m := fun x => if ‖x‖ ≤ 1 then f x - x else 0
  have gin : ∀ x y, ‖x‖ ≤ 1 → ‖y‖ ≤ 1 → ‖g x - g y‖ ≤ M * ‖x - y‖ := by
    intro x y hx hy
    simp only [g, if_pos hx, if_pos hy]
    have h1 := hL.norm_sub_le (x := x) (y := y) (by simpa using hx) (by simpa using hy)
    have e : f x - x - (f y - y) = (f x - f y) - (x - y) := by abel
    rw [e]
    have := norm_sub_le (f x - f y) (x - y)
    simp only [M]
    linarith
  have gmix : ∀ x y, ‖x‖ ≤ 1 → 1 < ‖y‖ → ‖g x - g y‖ ≤ M * ‖x - y‖ := by
    intro x y hx hy
    have hc : Continuous fun s : ℝ => ‖x + s • (y - x)‖ := by fun_prop
    have := intermediate_value_Icc (zero_le_one' ℝ) hc.continuousOn
    obtain ⟨s, hs, hs1⟩ := this (show (1 : ℝ) ∈ Set.Icc _ _ from ⟨by simpa using hx, by simpa using hy.le⟩)
    have hz : g (x + s • (y - x)) = 0 := by
      simp only at hs1
      simp only [g, if_pos hs1.le, hid _ hs1, sub_self]
    have hy0 : g y = 0 := by simp only [g, if_neg (not_le.2 hy)]
    have h2 := gin x (x + s • (y - x)) hx hs1.le
    rw [hz] at h2
    rw [hy0]
    refine h2.trans (mul_le_mul_of_nonneg_left ?_ hM.le)
    have e : x - (x + s • (y - x)) = s • (x - y) := by rw [smul_sub, smul_sub]; abel
    rw [e, norm_smul, Real.norm_of_nonneg hs.1]
    exact mul_le_of_le_one_left (norm_nonneg _) hs.2
  have gl : ∀ x y, ‖g x - g y‖ ≤ M * ‖x - y‖ := by
    intro x y
    rcases le_or_gt ‖x‖ 1 with hx | hx <;> rcases le_or_gt ‖y‖ 1 with hy | hy
    · exact gin x y hx hy
    · exact gmix x y hx hy
    · rw [norm_sub_rev, norm_sub_rev x]; exact gmix y x hy hx
    · simp only [g, if_neg (not_le.2 hx), if_neg (not_le.2 hy), sub_self, norm_zero]; positivity
  have gout : ∀ x, 1 ≤ ‖x‖ → g x = 0 := by
    intro x hx
    rcases hx.eq_or_lt with h | h
    · simp only [g, if_pos h.symm.le, hid x h.symm, sub_self]
    · simp only [g, if_neg (not_le.2 h)]
  have glip : LipschitzWith M.toNNReal g := LipschitzWith.of_dist_le_mul fun x y => by
    rw [dist_eq_norm, dist_eq_norm, Real.coe_toNNReal _ hM.le]; exact gl x y
  let A : Sp m → Sp m →L[ℝ] Sp m := fun x => f' x - ContinuousLinearMap.id ℝ (Sp m)
  have gder : ∀ x ∈ ball (0 : Sp m) 1, HasFDerivAt g (A x) x := by
    intro x hx
    refine ((hf' x hx).sub (hasFDerivAt_id x)).congr_of_eventuallyEq ?_
    filter_upwards [isOpen_ball.mem_nhds hx] with y hy
    have : ‖y‖ ≤ 1 := by simpa using (mem_ball_zero_iff.1 hy).le
    simp only [g, if_pos this]
    rfl
  have hA : ∀ x ∈ ball (0 : Sp m) 1, ‖A x‖ ≤ M := by
    intro x hx
    have := (gder x hx).le_of_lipschitz glip
    rwa [Real.coe_toNNReal _ hM.le] at this
  let B := ball (0 : Sp m) 1
  -- the volume is kept
  have vol : ∀ t, 0 ≤ t → t * M < 1 →
      IntegrableOn (fun x => (ContinuousLinearMap.id ℝ (Sp m) + t • A x).det) B ∧
      ∫ x in B, (ContinuousLinearMap.id ℝ (Sp m) + t • A x).det = volume.real B := by
    intro t ht htM
    let F : Sp m → Sp m := fun x => x + t • g x
    have hinj : Function.Injective F := by
      intro x y hxy
      have e : x - y = -(t • (g x - g y)) := by
        have : x + t • g x = y + t • g y := hxy
        rw [smul_sub]
        rw [← sub_eq_zero] at this ⊢
        rw [← this]; abel
      by_contra hne
      have h1 : ‖x - y‖ = t * ‖g x - g y‖ := by
        rw [e, norm_neg, norm_smul, Real.norm_of_nonneg ht]
      have h2 := mul_le_mul_of_nonneg_left (gl x y) ht
      have h3 : 0 < ‖x - y‖ := norm_pos_iff.2 (sub_ne_zero.2 hne)
      nlinarith
    have hsurj : Function.Surjective F := by
      intro y
      have hK : ContractingWith (t * M).toNNReal fun x => y - t • g x := by
        refine ⟨by rw [← NNReal.coe_lt_coe, Real.coe_toNNReal _ (by positivity)]; exact htM,
          LipschitzWith.of_dist_le_mul fun a b => ?_⟩
        rw [dist_eq_norm, dist_eq_norm, Real.coe_toNNReal _ (by positivity)]
        have e : y - t • g a - (y - t • g b) = -(t • (g a - g b)) := by rw [smul_sub]; abel
        rw [e, norm_neg, norm_smul, Real.norm_of_nonneg ht, mul_assoc]
        exact mul_le_mul_of_nonneg_left (gl a b) ht
      refine ⟨hK.fixedPoint, ?_⟩
      have := hK.fixedPoint_isFixedPt
      show hK.fixedPoint + t • g hK.fixedPoint = y
      have h2 : y - t • g hK.fixedPoint = hK.fixedPoint := this
      nth_rewrite 1 [← h2]
      abel
    have himg : F '' B = B := by
      have h1 : F '' Bᶜ = Bᶜ := by
        have : Set.EqOn F id Bᶜ := by
          intro x hx
          have : 1 ≤ ‖x‖ := by simpa [B] using hx
          show x + t • g x = x
          rw [gout x this, smul_zero, add_zero]
        rw [this.image_eq, Set.image_id]
      have h2 := Set.image_compl_eq ⟨hinj, hsurj⟩ (s := Bᶜ)
      rw [compl_compl, h1, compl_compl] at h2
      exact h2
    have hder : ∀ x ∈ B, HasFDerivWithinAt F (ContinuousLinearMap.id ℝ (Sp m) + t • A x) B x := fun x hx =>
      ((hasFDerivAt_id x).add ((gder x hx).const_smul t)).hasFDerivWithinAt
    have hpos : ∀ x ∈ B, |(ContinuousLinearMap.id ℝ (Sp m) + t • A x).det| • (1 : ℝ) =
        (ContinuousLinearMap.id ℝ (Sp m) + t • A x).det := fun x hx => by
      rw [smul_eq_mul, mul_one, abs_of_pos (det_pos (A x) M (hA x hx) t ht htM)]
    have h1 := integral_image_eq_integral_abs_det_fderiv_smul volume measurableSet_ball hder hinj.injOn
      (fun _ => (1 : ℝ))
    have h2 := (integrableOn_image_iff_integrableOn_abs_det_fderiv_smul volume measurableSet_ball hder hinj.injOn
      (fun _ => (1 : ℝ))).1 (by
        rw [show F '' ball 0 1 = B from himg]
        exact integrableOn_const (measure_ball_lt_top.ne))
    have hcongr := setIntegral_congr_fun (μ := volume) measurableSet_ball hpos
    refine ⟨h2.congr_fun hpos measurableSet_ball, ?_⟩
    rw [← hcongr]
    rw [show F '' ball 0 1 = B from himg] at h1
    rw [← h1]
    simp [Measure.real]
  let v : ℕ → ℝ := fun i => i / ((m + 2) * M)
  have hv : Set.InjOn v (Finset.range (m + 1)) := by
    intro i _ j _ hij
    have : (i : ℝ) / ((m + 2) * M) = j / ((m + 2) * M) := hij
    have h0 : ((m : ℝ) + 2) * M ≠ 0 := by positivity
    rw [div_left_inj' h0] at this
    exact_mod_cast this
  have hvi : ∀ i ∈ Finset.range (m + 1), 0 ≤ v i ∧ v i * M < 1 := by
    intro i hi
    have : (i : ℝ) < m + 2 := by
      have := Finset.mem_range.1 hi
      exact_mod_cast (by omega : i < m + 2)
    refine ⟨by positivity, ?_⟩
    simp only [v]
    rw [div_mul_eq_mul_div, mul_div_mul_right _ _ hM.ne', div_lt_one (by positivity)]
    exact this
  have zero : ∀ x ∈ B, (ContinuousLinearMap.id ℝ (Sp m) + (1 : ℝ) • A x).det = 0 := by
    intro x hx
    have e : ContinuousLinearMap.id ℝ (Sp m) + (1 : ℝ) • A x = f' x := by
      simp only [A, one_smul]; abel
    rw [e]
    by_contra hdet
    have hs : Function.Surjective (f' x) := by
      have hu : IsUnit (LinearMap.det (f' x : Sp m →ₗ[ℝ] Sp m)) := isUnit_iff_ne_zero.2 hdet
      exact (Module.End.isUnit_iff _).1 ((LinearMap.isUnit_iff_isUnit_det _).2 hu) |>.2
    obtain ⟨w, hw⟩ := hs (f x)
    have hd := (hf' x hx).norm_sq
    have hc : HasFDerivAt (fun y => ‖f y‖ ^ 2) (0 : Sp m →L[ℝ] ℝ) x := by
      refine (hasFDerivAt_const (1 : ℝ) x).congr_of_eventuallyEq ?_
      filter_upwards [isOpen_ball.mem_nhds hx] with y hy
      rw [hn y hy, one_pow]
    have := congrArg (fun l : Sp m →L[ℝ] ℝ => l w) (hd.unique hc)
    simp [hw, hn x hx] at this
  have key : ∫ x in B, (ContinuousLinearMap.id ℝ (Sp m) + (1 : ℝ) • A x).det = volume.real B := by
    have e : ∀ x, (ContinuousLinearMap.id ℝ (Sp m) + (1 : ℝ) • A x).det = _ := fun x => det_interpolate (A x) v hv 1
    simp only [e]
    rw [integral_finsetSum _ fun i hi => ((vol (v i) (hvi i hi).1 (hvi i hi).2).1.const_mul _)]
    have : ∀ i ∈ Finset.range (m + 1), ∫ x in B, eval 1 (Lagrange.basis (Finset.range (m + 1)) v i) *
        (ContinuousLinearMap.id ℝ (Sp m) + v i • A x).det =
        eval 1 (Lagrange.basis (Finset.range (m + 1)) v i) * volume.real B := fun i hi => by
      rw [integral_const_mul, (vol (v i) (hvi i hi).1 (hvi i hi).2).2]
    rw [Finset.sum_congr rfl this, ← Finset.sum_mul, ← eval_finsetSum,
      Lagrange.sum_basis hv ⟨0, by simp⟩, eval_one, one_mul]
  rw [setIntegral_congr_fun (g := fun _ => (0 : ℝ)) measurableSet_ball zero, integral_zero] at key
  have hp : 0 < volume.real B := by
    unfold Measure.real
    exact ENNReal.toReal_pos (measure_ball_pos volume _ one_pos).ne' measure_ball_lt_top.ne
  linarith

/-- A continuous map that points outwards on a sphere has a zero inside. -/
theorem outward_zero {m : ℕ} (F : Sp m → Sp m) (hF : Continuous F) (R : ℝ) (hR : 0 < R)
    (h : ∀ x, ‖x‖ = R → 0 < inner ℝ (F x) x) : ∃ x, ‖x‖ ≤ R ∧ F x = 0 := by
  by_contra hno
  push Not at hno
  let f : Sp m → Sp m := fun y => F (R • y)
  have hf : Continuous f := by fun_prop
  have f0 : ∀ y ∈ closedBall (0 : Sp m) 1, f y ≠ 0 := by
    intro y hy
    refine hno _ ?_
    rw [norm_smul, Real.norm_of_nonneg hR.le]
    have : ‖y‖ ≤ 1 := by simpa using hy
    exact mul_le_of_le_one_right hR.le this
  have f1 : ∀ y : Sp m, ‖y‖ = 1 → 0 < inner ℝ (f y) y := by
    intro y hy
    have := h (R • y) (by rw [norm_smul, Real.norm_of_nonneg hR.le, hy, mul_one])
    rw [inner_smul_right] at this
    exact pos_of_mul_pos_right this hR.le
  obtain ⟨δ, hδ, hδf⟩ : ∃ δ, 0 < δ ∧ ∀ y ∈ closedBall (0 : Sp m) 1, δ ≤ ‖f y‖ := by
    obtain ⟨z, hz, hmin⟩ := (isCompact_closedBall (0 : Sp m) 1).exists_isMinOn ⟨0, by simp⟩
      hf.norm.continuousOn
    exact ⟨‖f z‖, norm_pos_iff.2 (f0 z hz), fun y hy => hmin hy⟩
  obtain ⟨μ, hμ, hμf⟩ : ∃ μ, 0 < μ ∧ ∀ y : Sp m, ‖y‖ = 1 → μ ≤ inner ℝ (f y) y := by
    by_cases hne : (sphere (0 : Sp m) 1).Nonempty
    · obtain ⟨z, hz, hmin⟩ := (isCompact_sphere (0 : Sp m) 1).exists_isMinOn hne
        (f := fun y => inner ℝ (f y) y) (by fun_prop)
      exact ⟨inner ℝ (f z) z, f1 z (by simpa using hz), fun y hy => hmin (by simpa using hy)⟩
    · exact ⟨1, one_pos, fun y hy => absurd ⟨y, by simpa using hy⟩ hne⟩
  have hε : 0 < min δ μ / 2 := by have := lt_min hδ hμ; positivity
  obtain ⟨p, hp, hpf, -⟩ := hf.exists_contDiff_approx (ε := fun _ => min δ μ / 2) 1 continuous_const fun _ => hε
  have p0 : ∀ y ∈ closedBall (0 : Sp m) 1, 0 < ‖p y‖ ^ 2 := by
    intro y hy
    have h1 := hδf y hy
    have h2 := hpf y
    rw [dist_eq_norm] at h2
    have h3 := norm_sub_norm_le (f y) (p y)
    rw [norm_sub_rev] at h3
    have h4 := min_le_left δ μ
    have : 0 < ‖p y‖ := by linarith
    positivity
  have p1 : ∀ y : Sp m, ‖y‖ = 1 → 0 < inner ℝ y (p y) := by
    intro y hy
    have h1 := hμf y hy
    have h2 := hpf y
    rw [dist_eq_norm] at h2
    have h3 := abs_real_inner_le_norm (p y - f y) y
    rw [hy, mul_one, inner_sub_left] at h3
    have h4 := min_le_right δ μ
    have h5 := neg_abs_le (inner ℝ (p y) y - inner ℝ (f y) y)
    rw [real_inner_comm]
    linarith
  let D : Sp m → ℝ := fun y => inner ℝ y (p y) ^ 2 + ‖p y‖ ^ 2 * (1 - ‖y‖ ^ 2)
  have hD : ∀ y ∈ closedBall (0 : Sp m) 1, 0 < D y := by
    intro y hy
    have hy1 : ‖y‖ ≤ 1 := by simpa using hy
    rcases hy1.eq_or_lt with e | e
    · have := p1 y e
      simp only [D, e]
      rw [one_pow, sub_self, mul_zero, add_zero]
      positivity
    · have h1 := p0 y hy
      have h2 : 0 < 1 - ‖y‖ ^ 2 := by nlinarith [norm_nonneg y]
      have := sq_nonneg (inner ℝ y (p y))
      have := mul_pos h1 h2
      simp only [D]
      linarith
  let lam : Sp m → ℝ := fun y => (√(D y) - inner ℝ y (p y)) / ‖p y‖ ^ 2
  let r : Sp m → Sp m := fun y => y + lam y • p y
  have hr : ∀ y ∈ closedBall (0 : Sp m) 1, ContDiffAt ℝ 1 r y := by
    intro y hy
    have hpy : ContDiffAt ℝ 1 p y := (hp.of_le le_rfl).contDiffAt
    have hin : ContDiffAt ℝ 1 (fun y => inner ℝ y (p y)) y := contDiffAt_id.inner ℝ hpy
    have hD' : ContDiffAt ℝ 1 D y := (hin.pow 2).add ((hpy.norm_sq ℝ).mul (contDiffAt_const.sub (contDiffAt_id.norm_sq ℝ)))
    exact contDiffAt_id.add ((((hD'.sqrt (hD y hy).ne').sub hin).div (hpy.norm_sq ℝ) (p0 y hy).ne').smul hpy)
  have hon : ContDiffOn ℝ 1 r (closedBall 0 1) := fun y hy => (hr y hy).contDiffWithinAt
  obtain ⟨L, hL⟩ := hon.exists_lipschitzOnWith one_ne_zero (convex_closedBall _ _) (isCompact_closedBall _ _)
  refine no_retraction r L hL (fderiv ℝ r) (fun x hx => ((hr x (ball_subset_closedBall hx)).differentiableAt
    one_ne_zero).hasFDerivAt) ?_ ?_
  · intro x hx
    have h1 : D x = inner ℝ x (p x) ^ 2 := by simp only [D, hx]; ring
    show x + lam x • p x = x
    simp only [lam]
    rw [h1, Real.sqrt_sq (p1 x hx).le, sub_self, zero_div, zero_smul, add_zero]
  · intro x hx
    have hx' := ball_subset_closedBall hx
    have h0 := p0 x hx'
    have hsq := Real.sq_sqrt (hD x hx').le
    have e : ‖r x‖ ^ 2 = 1 := by
      show ‖x + lam x • p x‖ ^ 2 = 1
      rw [norm_add_sq_real, inner_smul_right, norm_smul, mul_pow, Real.norm_eq_abs, sq_abs]
      have hl : lam x * ‖p x‖ ^ 2 = √(D x) - inner ℝ x (p x) := div_mul_cancel₀ _ h0.ne'
      have h3 : ‖p x‖ ^ 2 * (‖x‖ ^ 2 + 2 * (lam x * inner ℝ x (p x)) + lam x ^ 2 * ‖p x‖ ^ 2) = ‖p x‖ ^ 2 * 1 := by
        have : ‖p x‖ ^ 2 * (‖x‖ ^ 2 + 2 * (lam x * inner ℝ x (p x)) + lam x ^ 2 * ‖p x‖ ^ 2) =
          ‖p x‖ ^ 2 * ‖x‖ ^ 2 + (lam x * ‖p x‖ ^ 2) * (lam x * ‖p x‖ ^ 2 + 2 * inner ℝ x (p x)) := by ring
        rw [this, hl]
        have h4 : D x = inner ℝ x (p x) ^ 2 + ‖p x‖ ^ 2 * (1 - ‖x‖ ^ 2) := rfl
        nlinarith
      exact mul_left_cancel₀ h0.ne' h3
    rw [← sq_eq_sq₀ (norm_nonneg _) zero_le_one, e, one_pow]

end Verif.Mono
