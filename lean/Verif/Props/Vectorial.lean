import Verif.Props.Crystal
import Mathlib.Analysis.InnerProductSpace.NormPow
import Mathlib.Analysis.Convex.SpecificFunctions.Basic
import Mathlib.Analysis.Calculus.Deriv.Pi

/-!
# Properties of the vectorial microstress: C30
-/

namespace Verif.Cry
open Matrix Finset

/-! ## Specification -/

/-- The defect energy of a slip system:
`factor/p (|s·∇γ|^p + |l·∇γ|^p)`, the densities of edge and screw dislocations to the power `p`. -/
noncomputable def SpecDefectEnergy {d : ℕ} (factor p : ℝ) (s : System d) (g : Vec d) : ℝ :=
  factor / p * (|∑ i, s.direction i * g i| ^ p + |∑ i, s.third i * g i| ^ p)

/-! ## Helpers -/

/-- `|x|^(p-2) x` -/
noncomputable def phi (p x : ℝ) : ℝ := |x| ^ (p - 2) * x

theorem hasDerivAt_phi {p : ℝ} (hp : 2 ≤ p) (x : ℝ) :
    HasDerivAt (phi p) ((p - 1) * |x| ^ (p - 2)) x := by
  rcases eq_or_lt_of_le hp with h | h
  · subst h
    have : phi 2 = fun x => x := by funext x; simp [phi]
    rw [this]
    refine (hasDerivAt_id' x).congr_deriv ?_
    simp; norm_num
  · rcases lt_trichotomy x 0 with hx | hx | hx
    · have h1 : HasDerivAt (fun y : ℝ => (-y) ^ (p - 2)) (-1 * (p - 2) * (-x) ^ (p - 2 - 1)) x :=
        (hasDerivAt_neg x).rpow_const (Or.inl (by linarith))
      have h2 := h1.mul (hasDerivAt_id' x)
      have h3 : HasDerivAt (phi p) _ x := h2.congr_of_eventuallyEq (by
        filter_upwards [gt_mem_nhds hx] with y hy
        simp [phi, abs_of_neg hy])
      refine h3.congr_deriv ?_
      rw [abs_of_neg hx]
      have : (-x) ^ (p - 2) = (-x) ^ (p - 2 - 1) * (-x) := by
        have hne : -x ≠ 0 := by linarith
        rw [Real.rpow_sub_one hne]
        exact (div_mul_cancel₀ _ hne).symm
      rw [this]; ring
    · subst hx
      have : HasDerivAt (phi p) 0 0 := by
        rw [hasDerivAt_iff_tendsto_slope]
        have h1 : Filter.Tendsto (fun y : ℝ => |y| ^ (p - 2)) (nhds 0) (nhds (|(0:ℝ)| ^ (p - 2))) :=
          ((continuous_abs.rpow_const (fun _ => Or.inr (by linarith))).tendsto 0)
        rw [abs_zero, Real.zero_rpow (by linarith)] at h1
        refine (h1.mono_left nhdsWithin_le_nhds).congr' ?_
        filter_upwards [self_mem_nhdsWithin] with y hy
        have hy' : y ≠ 0 := hy
        simp only [slope, phi, vsub_eq_sub, smul_eq_mul]
        field_simp
        simp
      refine this.congr_deriv ?_
      rw [abs_zero, Real.zero_rpow (by linarith), mul_zero]
    · have h1 : HasDerivAt (fun y : ℝ => y ^ (p - 2)) (1 * (p - 2) * x ^ (p - 2 - 1)) x :=
        (hasDerivAt_id' x).rpow_const (Or.inl (by linarith))
      have h2 := h1.mul (hasDerivAt_id' x)
      have h3 : HasDerivAt (phi p) _ x := h2.congr_of_eventuallyEq (by
        filter_upwards [lt_mem_nhds hx] with y hy
        simp [phi, abs_of_pos hy])
      refine h3.congr_deriv ?_
      rw [abs_of_pos hx]
      have : x ^ (p - 2) = x ^ (p - 2 - 1) * x := by
        rw [Real.rpow_sub_one (by linarith)]
        field_simp
      rw [this]; ring

theorem phi_mul_self {p : ℝ} (hp : 0 < p) (x : ℝ) : phi p x * x = |x| ^ p := by
  unfold phi
  by_cases hx : x = 0
  · subst hx; simp [Real.zero_rpow hp.ne']
  · have h0 : 0 < |x| := abs_pos.2 hx
    rw [mul_assoc, ← abs_mul_abs_self x]
    have : |x| ^ p = |x| ^ (p - 2) * |x| ^ (2 : ℝ) := by rw [← Real.rpow_add h0]; ring_nf
    rw [this]
    norm_num [sq]

theorem fpow_some {x e : ℝ} (he : 0 ≤ e) : fpow x e = some (x ^ e) := by
  unfold fpow
  rw [if_neg (fun h => absurd h.2 (not_lt.2 he))]

theorem bracket_some {d : ℕ} (v : VecLaw) (hp : 2 ≤ v.index) (s : System d) (g : Vec d) :
    v.bracket s g = some (|s.direction ⬝ᵥ g| ^ (v.index - 2) •
        symmetrize (outer s.direction s.direction) +
      |s.third ⬝ᵥ g| ^ (v.index - 2) • symmetrize (outer s.third s.third)) := by
  unfold VecLaw.bracket
  rw [fpow_some (by linarith), fpow_some (by linarith), neg_dotProduct, abs_neg]

theorem symOuter {d : ℕ} (a : Vec d) (i j : Fin d) :
    symmetrize (outer a a) i j = a i * a j := by
  simp only [symmetrize, outer, Matrix.of_apply]; ring

theorem symOuter_mulVec {d : ℕ} (a g : Vec d) :
    symmetrize (outer a a) *ᵥ g = (a ⬝ᵥ g) • a := by
  funext i
  simp only [mulVec, dotProduct, symOuter, Pi.smul_apply, smul_eq_mul, Finset.sum_mul]
  refine Finset.sum_congr rfl fun j _ => by ring

/-- The microstress for defect energy index at least two. -/
noncomputable def xi {d : ℕ} (v : VecLaw) (s : System d) (g : Vec d) : Vec d := fun i =>
  v.factor * (phi v.index (s.direction ⬝ᵥ g) * s.direction i +
    phi v.index (s.third ⬝ᵥ g) * s.third i)

theorem microstress_eq {d : ℕ} (v : VecLaw) (hp : 2 ≤ v.index) (s : System d) (g : Vec d) :
    v.microstress s g = some (xi v s g) := by
  unfold VecLaw.microstress
  rw [bracket_some v hp, Option.map_some]
  congr 1
  rw [Matrix.smul_mulVec, Matrix.add_mulVec, Matrix.smul_mulVec, Matrix.smul_mulVec,
    symOuter_mulVec, symOuter_mulVec]
  funext i
  simp only [Pi.smul_apply, Pi.add_apply, smul_eq_mul, xi, phi]
  ring

/-- The tangent for defect energy index at least two. -/
noncomputable def jac {d : ℕ} (v : VecLaw) (s : System d) (g : Vec d) : Mat d :=
  Matrix.of fun i j =>
  v.factor * (v.index - 1) * (|s.direction ⬝ᵥ g| ^ (v.index - 2) * (s.direction i * s.direction j) +
    |s.third ⬝ᵥ g| ^ (v.index - 2) * (s.third i * s.third j))

theorem jacobian_eq {d : ℕ} (v : VecLaw) (hp : 2 ≤ v.index) (s : System d) (g : Vec d) :
    v.jacobian s g = some (jac v s g) := by
  unfold VecLaw.jacobian
  rw [bracket_some v hp, Option.map_some]
  congr 1
  ext i j
  simp only [Matrix.smul_apply, Matrix.add_apply, smul_eq_mul, symOuter, jac, Matrix.of_apply]

theorem jac_mulVec {d : ℕ} (v : VecLaw) (s : System d) (g h : Vec d) (i : Fin d) :
    (jac v s g *ᵥ h) i = v.factor * (v.index - 1) *
      (|s.direction ⬝ᵥ g| ^ (v.index - 2) * (s.direction ⬝ᵥ h) * s.direction i +
       |s.third ⬝ᵥ g| ^ (v.index - 2) * (s.third ⬝ᵥ h) * s.third i) := by
  simp only [mulVec, jac, Matrix.of_apply]
  unfold dotProduct
  simp only [Finset.mul_sum, Finset.sum_mul, ← Finset.sum_add_distrib]
  refine Finset.sum_congr rfl fun j _ => by ring

theorem line_deriv {d : ℕ} (a g h : Vec d) :
    HasDerivAt (fun t : ℝ => a ⬝ᵥ (g + t • h)) (a ⬝ᵥ h) 0 := by
  have : (fun t : ℝ => a ⬝ᵥ (g + t • h)) = fun t => a ⬝ᵥ g + t * (a ⬝ᵥ h) := by
    funext t; rw [dotProduct_add, dotProduct_smul, smul_eq_mul]
  rw [this]
  refine (((hasDerivAt_id' (0 : ℝ)).mul_const (a ⬝ᵥ h)).const_add (a ⬝ᵥ g)).congr_deriv ?_
  ring

theorem factor_nonneg {v : VecLaw} (hv : v.accepted) : 0 ≤ v.factor := by
  obtain ⟨h1, h2, _⟩ := hv
  unfold VecLaw.factor
  split_ifs
  · norm_num
  · positivity

/-! ## C30 -/

/-- C30: for a defect energy index of at least two the microstress and its tangent are defined for
every slip gradient, including the vanishing one. -/
theorem C30_defined {d : ℕ} (v : VecLaw) (hp : 2 ≤ v.index) (s : System d) (g : Vec d) :
    ∃ x J, v.microstress s g = some x ∧ v.jacobian s g = some J :=
  ⟨_, _, microstress_eq v hp s g, jacobian_eq v hp s g⟩

/-- C30: the microstress lies in the slip plane. -/
theorem C30_in_plane {d : ℕ} (v : VecLaw) (hp : 2 ≤ v.index) (s : System d)
    (h1 : ∑ i, s.direction i * s.normal i = 0) (h2 : ∑ i, s.third i * s.normal i = 0)
    (g x : Vec d) (hx : v.microstress s g = some x) : ∑ i, x i * s.normal i = 0 := by
  rw [microstress_eq v hp] at hx
  obtain rfl := Option.some.inj hx
  have : ∑ i, xi v s g i * s.normal i = v.factor *
      (phi v.index (s.direction ⬝ᵥ g) * ∑ i, s.direction i * s.normal i +
       phi v.index (s.third ⬝ᵥ g) * ∑ i, s.third i * s.normal i) := by
    unfold xi
    simp only [Finset.mul_sum, ← Finset.sum_add_distrib]
    refine Finset.sum_congr rfl fun i _ => by ring
  rw [this, h1, h2]; ring

/-- C30: the power of the microstress over the slip gradient is the index times the defect energy;
in particular it is never negative, and neither is the energy. -/
theorem C30_power {d : ℕ} (v : VecLaw) (hv : v.accepted) (hp : 2 ≤ v.index) (s : System d)
    (g x : Vec d) (hx : v.microstress s g = some x) :
    (∑ i, x i * g i = v.index * SpecDefectEnergy v.factor v.index s g) ∧
    0 ≤ SpecDefectEnergy v.factor v.index s g ∧ 0 ≤ ∑ i, x i * g i := by
  rw [microstress_eq v hp] at hx
  obtain rfl := Option.some.inj hx
  have e1 : ∑ i, xi v s g i * g i = v.factor *
      (phi v.index (s.direction ⬝ᵥ g) * (s.direction ⬝ᵥ g) +
       phi v.index (s.third ⬝ᵥ g) * (s.third ⬝ᵥ g)) := by
    unfold xi dotProduct
    simp only [Finset.mul_sum, ← Finset.sum_add_distrib]
    refine Finset.sum_congr rfl fun i _ => by ring
  have hf := factor_nonneg hv
  have e2 : 0 ≤ SpecDefectEnergy v.factor v.index s g := by
    unfold SpecDefectEnergy; positivity
  have e3 : ∑ i, xi v s g i * g i = v.index * SpecDefectEnergy v.factor v.index s g := by
    rw [e1, phi_mul_self (by linarith), phi_mul_self (by linarith)]
    unfold SpecDefectEnergy dotProduct
    field_simp
  exact ⟨e3, e2, by rw [e3]; positivity⟩

/-- C30: the microstress is the gradient of the defect energy (derivative in every direction, at
every slip gradient). -/
theorem C30_gradient {d : ℕ} (v : VecLaw) (hp : 2 ≤ v.index) (s : System d)
    (g h x : Vec d) (hx : v.microstress s g = some x) :
    HasDerivAt (fun t : ℝ => SpecDefectEnergy v.factor v.index s (g + t • h))
      (∑ i, x i * h i) 0 := by
  rw [microstress_eq v hp] at hx
  obtain rfl := Option.some.inj hx
  have k : ∀ a : Vec d, HasDerivAt (fun t : ℝ => |a ⬝ᵥ (g + t • h)| ^ v.index)
      (v.index * |a ⬝ᵥ g| ^ (v.index - 2) * (a ⬝ᵥ g) * (a ⬝ᵥ h)) 0 := by
    intro a
    have h1 := hasDerivAt_abs_rpow (a ⬝ᵥ (g + (0 : ℝ) • h)) (by linarith : 1 < v.index)
    have h2 := HasDerivAt.comp (0 : ℝ) h1 (line_deriv a g h)
    have h3 : HasDerivAt (fun t : ℝ => |a ⬝ᵥ (g + t • h)| ^ v.index) _ 0 := h2
    exact h3.congr_deriv (by simp)
  refine (((k s.direction).add (k s.third)).const_mul (v.factor / v.index)).congr_deriv ?_
  have e1 : ∑ i, xi v s g i * h i = v.factor *
      (phi v.index (s.direction ⬝ᵥ g) * (s.direction ⬝ᵥ h) +
       phi v.index (s.third ⬝ᵥ g) * (s.third ⬝ᵥ h)) := by
    unfold xi dotProduct
    simp only [Finset.mul_sum, ← Finset.sum_add_distrib]
    refine Finset.sum_congr rfl fun i _ => by ring
  rw [e1]
  unfold phi
  have : v.index ≠ 0 := by linarith
  field_simp

/-- C30: the tangent is the derivative of the microstress (in every direction, at every slip
gradient). -/
theorem C30_tangent {d : ℕ} (v : VecLaw) (hp : 2 ≤ v.index) (s : System d)
    (g h : Vec d) (J : Mat d) (hJ : v.jacobian s g = some J) (i : Fin d) :
    ∃ x : ℝ → Vec d, (∀ t, v.microstress s (g + t • h) = some (x t)) ∧
      HasDerivAt (fun t => x t i) (∑ j, J i j * h j) 0 := by
  rw [jacobian_eq v hp] at hJ
  obtain rfl := Option.some.inj hJ
  refine ⟨fun t => xi v s (g + t • h), fun t => microstress_eq v hp s _, ?_⟩
  have k : ∀ a : Vec d, HasDerivAt (fun t : ℝ => phi v.index (a ⬝ᵥ (g + t • h)))
      ((v.index - 1) * |a ⬝ᵥ g| ^ (v.index - 2) * (a ⬝ᵥ h)) 0 := by
    intro a
    have h1 := hasDerivAt_phi hp (a ⬝ᵥ (g + (0 : ℝ) • h))
    have h2 := HasDerivAt.comp (0 : ℝ) h1 (line_deriv a g h)
    have h3 : HasDerivAt (fun t : ℝ => phi v.index (a ⬝ᵥ (g + t • h))) _ 0 := h2
    exact h3.congr_deriv (by simp)
  have e := jac_mulVec v s g h i
  simp only [mulVec, dotProduct] at e
  refine ((((k s.direction).mul_const (s.direction i)).add
    ((k s.third).mul_const (s.third i))).const_mul v.factor).congr_deriv ?_
  rw [e]
  unfold dotProduct
  ring

/-- C30: the tangent is symmetric and positive semidefinite. -/
theorem C30_symmetric_psd {d : ℕ} (v : VecLaw) (hv : v.accepted) (hp : 2 ≤ v.index)
    (s : System d) (g : Vec d) (J : Mat d) (hJ : v.jacobian s g = some J) :
    (∀ i j, J i j = J j i) ∧ ∀ h : Vec d, 0 ≤ ∑ i, ∑ j, h i * J i j * h j := by
  rw [jacobian_eq v hp] at hJ
  obtain rfl := Option.some.inj hJ
  refine ⟨fun i j => by simp only [jac, Matrix.of_apply]; ring, fun h => ?_⟩
  have : ∑ i, ∑ j, h i * jac v s g i j * h j = v.factor * (v.index - 1) *
      (|s.direction ⬝ᵥ g| ^ (v.index - 2) * (s.direction ⬝ᵥ h) ^ 2 +
       |s.third ⬝ᵥ g| ^ (v.index - 2) * (s.third ⬝ᵥ h) ^ 2) := by
    have : ∀ i, ∑ j, h i * jac v s g i j * h j = h i * (jac v s g *ᵥ h) i := fun i => by
      simp only [mulVec, dotProduct, Finset.mul_sum]
      refine Finset.sum_congr rfl fun j _ => by ring
    simp only [this, jac_mulVec]
    have e : ∀ a : Vec d, (a ⬝ᵥ h) ^ 2 = ∑ i, h i * ((a ⬝ᵥ h) * a i) := fun a => by
      rw [sq]; conv_lhs => rw [dotProduct, Finset.sum_mul]
      refine Finset.sum_congr rfl fun i _ => by unfold dotProduct; ring
    rw [e, e]
    simp only [Finset.mul_sum, ← Finset.sum_add_distrib]
    refine Finset.sum_congr rfl fun i _ => by ring
  rw [this]
  have hf := factor_nonneg hv
  have : 0 ≤ v.index - 1 := by linarith
  positivity

/-- C30: the defect energy is convex. -/
theorem C30_convex {d : ℕ} (v : VecLaw) (hv : v.accepted) (s : System d) :
    ConvexOn ℝ Set.univ (SpecDefectEnergy v.factor v.index s) := by
  obtain ⟨_, _, h1⟩ := hv
  have hv : v.accepted := ⟨‹_›, ‹_›, h1⟩
  have k : ∀ a : Vec d, ConvexOn ℝ Set.univ (fun g : Vec d => |∑ i, a i * g i| ^ v.index) := by
    intro a
    refine ⟨convex_univ, fun x _ y _ t u ht hu htu => ?_⟩
    have e : ∑ i, a i * (t • x + u • y) i = t * ∑ i, a i * x i + u * ∑ i, a i * y i := by
      simp only [Pi.add_apply, Pi.smul_apply, smul_eq_mul, Finset.mul_sum,
        ← Finset.sum_add_distrib]
      refine Finset.sum_congr rfl fun i _ => by ring
    simp only [e]
    have h2 : |t * ∑ i, a i * x i + u * ∑ i, a i * y i| ≤
        t * |∑ i, a i * x i| + u * |∑ i, a i * y i| := by
      refine (abs_add_le _ _).trans ?_
      rw [abs_mul, abs_mul, abs_of_nonneg ht, abs_of_nonneg hu]
    refine (Real.rpow_le_rpow (abs_nonneg _) h2 (by linarith)).trans ?_
    exact (convexOn_rpow h1).2 (Set.mem_Ici.2 (abs_nonneg _)) (Set.mem_Ici.2 (abs_nonneg _))
      ht hu htu
  have := ((k s.direction).add (k s.third)).smul
    (div_nonneg (factor_nonneg hv) (by linarith : 0 ≤ v.index))
  exact this

/-- C30 violated: the parameter file accepts defect energy indices in `[1,2)`; then the microstress
of every homogeneous slip field (vanishing gradient), and in two dimensions of *every* slip field,
is not a number. -/
theorem C30_violated (v : VecLaw) (hp : v.index < 2) :
    (∀ {d : ℕ} (s : System d), v.microstress s 0 = none) ∧
    (∀ dir nor : Vec 2, ∀ s, readSystem2 dir nor = .ok s → ∀ (r : Mat 2) (g : Vec 2),
      v.microstress (rotateSystem r s) g = none) := by
  constructor
  · intro d s
    unfold VecLaw.microstress VecLaw.bracket fpow
    simp [hp]
  · intro dir nor s hs r g
    obtain ⟨_, _, _, h4⟩ := read2_ok hs
    unfold VecLaw.microstress VecLaw.bracket
    have : fpow |(rotateSystem r s).third ⬝ᵥ g| (v.index - 2) = none := by
      unfold rotateSystem
      simp only [h4, Matrix.mulVec_zero, zero_dotProduct, abs_zero]
      unfold fpow
      rw [if_pos ⟨rfl, by linarith⟩]
    rw [this]
    split
    · rename_i h; simp at h
    · rfl

/-- C30: the magnitude of the microstress of a problem with dimensions: initial slip resistance times
the energetic length scale to the power of the index, times the power `p−1` of the edge and screw
densities; of a dimensionless problem the same without the material parameters. -/
theorem C30_value {d : ℕ} (v : VecLaw) (hp : 2 ≤ v.index) (s : System d) (g : Vec d) :
    ∃ x, v.microstress s g = some x ∧ ∀ i, x i =
      (if v.dimensionless = true then 1 else v.initialResistance * v.lengthScale ^ v.index) *
        (|∑ j, s.direction j * g j| ^ (v.index - 2) * (∑ j, s.direction j * g j) * s.direction i +
         |∑ j, s.third j * g j| ^ (v.index - 2) * (∑ j, s.third j * g j) * s.third i) :=
  ⟨_, microstress_eq v hp s g, fun _ => rfl⟩

/-- Such indices are accepted. -/
example : ∃ v : VecLaw, v.accepted ∧ v.index < 2 :=
  ⟨⟨1, 1, 1.5, false⟩, ⟨by norm_num, by norm_num, by norm_num⟩, by norm_num⟩

/-- Non-vacuity: cubic defect energy, non-zero microstress. -/
example : ∃ (v : VecLaw) (s : System 2) (g x : Vec 2), v.accepted ∧ 2 ≤ v.index ∧
    v.microstress s g = some x ∧ x 0 = 4 := by
  refine ⟨⟨1, 1, 3, true⟩, ⟨![1, 0], ![0, 1], 0⟩, ![2, 7], _, ⟨by norm_num, by norm_num, by norm_num⟩,
    by norm_num, microstress_eq _ (by norm_num) _ _, ?_⟩
  simp [xi, phi, VecLaw.factor]
  norm_num

end Verif.Cry
