import Verif.Model.Post
import Verif.Props.Hooke
import Verif.Props.Loading
import Mathlib.Algebra.Order.BigOperators.Ring.Finset
import Mathlib.Algebra.Order.Chebyshev
import Mathlib.Algebra.Order.BigOperators.Group.List

/-!
# Von Mises measures, volume averages and boundary averages: C55, C56, C57
-/

namespace Verif.Post
open Matrix Finset Verif.Cry

/-! ## Specification -/

/-- The textbook von Mises stress of a symmetric three-dimensional stress. -/
noncomputable def SpecVonMises (t : Mat 3) : ℝ :=
  √(((t 0 0 - t 1 1) ^ 2 + (t 1 1 - t 2 2) ^ 2 + (t 2 2 - t 0 0) ^ 2) / 2 +
    3 * (t 0 1 ^ 2 + t 1 2 ^ 2 + t 0 2 ^ 2))

/-- The textbook equivalent strain of a symmetric three-dimensional strain: two thirds of the von
Mises formula. -/
noncomputable def SpecVonMisesStrain (t : Mat 3) : ℝ := 2 / 3 * SpecVonMises t

/-- A plane stress state with its out-of-plane normal stress. -/
def SpecFull (t : Mat 2) (out : ℝ) : Mat 3 :=
  !![t 0 0, t 0 1, 0; t 0 1, t 1 1, 0; 0, 0, out]

/-! ## Helpers -/

theorem ddot_one {d : ℕ} (t : Mat d) : ddot 1 t = t.trace := by
  unfold ddot Matrix.trace
  refine sum_congr rfl fun i _ => ?_
  rw [Finset.sum_eq_single i]
  · simp
  · intro j _ hj; simp [hj.symm]
  · simp

theorem dev_apply {d : ℕ} (t : Mat d) (i j : Fin d) :
    dev t i j = t i j - if i = j then t.trace / 3 else 0 := by
  unfold dev
  rw [ddot_one, Matrix.sub_apply, Matrix.smul_apply, Matrix.one_apply]
  by_cases h : i = j
  · simp [h]; ring
  · simp [h]

theorem ddot_self_nonneg {d : ℕ} (t : Mat d) : 0 ≤ ddot t t :=
  sum_nonneg fun _ _ => sum_nonneg fun _ _ => mul_self_nonneg _

theorem ddot_self_eq_zero {d : ℕ} {t : Mat d} (h : ddot t t = 0) (i j : Fin d) : t i j = 0 := by
  unfold ddot at h
  have h1 := (sum_eq_zero_iff_of_nonneg
    (fun i _ => sum_nonneg fun j _ => mul_self_nonneg (t i j))).mp h i (mem_univ _)
  have h2 := (sum_eq_zero_iff_of_nonneg (fun j _ => mul_self_nonneg (t i j))).mp h1 j (mem_univ _)
  exact mul_self_eq_zero.mp h2

theorem ddot_sq_le {d : ℕ} (a b : Mat d) : ddot a b ^ 2 ≤ ddot a a * ddot b b := by
  have := sum_mul_sq_le_sq_mul_sq (univ : Finset (Fin d × Fin d)) (fun p => a p.1 p.2)
    (fun p => b p.1 p.2)
  simp only [Fintype.sum_prod_type, pow_two] at this ⊢
  simpa [ddot] using this

theorem sqrt_ddot_add {d : ℕ} (c : ℝ) (hc : 0 ≤ c) (a b : Mat d) :
    √(c * ddot (a + b) (a + b)) ≤ √(c * ddot a a) + √(c * ddot b b) := by
  have hA : 0 ≤ c * ddot a a := mul_nonneg hc (ddot_self_nonneg a)
  have hB : 0 ≤ c * ddot b b := mul_nonneg hc (ddot_self_nonneg b)
  have hab : ddot (a + b) (a + b) = ddot a a + 2 * ddot a b + ddot b b := by
    simp only [ddot, Matrix.add_apply, mul_sum, ← sum_add_distrib]
    refine sum_congr rfl fun i _ => sum_congr rfl fun j _ => by ring
  rw [Real.sqrt_le_left (add_nonneg (Real.sqrt_nonneg _) (Real.sqrt_nonneg _)), add_sq,
    Real.sq_sqrt hA, Real.sq_sqrt hB, hab]
  have : c * ddot a b ≤ √(c * ddot a a) * √(c * ddot b b) := by
    rw [← Real.sqrt_mul hA]
    refine Real.le_sqrt_of_sq_le ?_
    have := mul_le_mul_of_nonneg_left (ddot_sq_le a b) (mul_nonneg hc hc)
    nlinarith
  nlinarith

theorem dev_add {d : ℕ} (a b : Mat d) : dev (a + b) = dev a + dev b := by
  ext i j
  simp only [Matrix.add_apply, dev_apply, Matrix.trace_add]
  split <;> ring

theorem dev_smul {d : ℕ} (c : ℝ) (a : Mat d) : dev (c • a) = c • dev a := by
  ext i j
  simp only [Matrix.smul_apply, dev_apply, Matrix.trace_smul, smul_eq_mul]
  split <;> ring

theorem ddot_smul_self {d : ℕ} (c : ℝ) (a : Mat d) : ddot (c • a) (c • a) = c ^ 2 * ddot a a := by
  simp only [ddot, Matrix.smul_apply, smul_eq_mul, mul_sum]
  refine sum_congr rfl fun i _ => sum_congr rfl fun j _ => by ring

/-! ## C55 -/

/-- C55: the reported von Mises stress is the textbook one. -/
theorem C55_formula (t : Mat 3) (ht : tᵀ = t) : vonMisesStress t = SpecVonMises t := by
  have h : ∀ i j, t j i = t i j := fun i j => by
    conv_rhs => rw [← ht]
    rfl
  unfold vonMisesStress SpecVonMises
  congr 1
  unfold ddot
  simp only [Fin.sum_univ_three, dev_apply, Matrix.trace, Matrix.diag]
  simp only [Fin.isValue, if_true, Fin.reduceEq, if_false]
  rw [h 0 1, h 0 2, h 1 2]
  ring

/-- C55: non-negative, blind to pressure, zero exactly for hydrostatic stress, homogeneous and
convex. -/
theorem C55_measure (t u : Mat 3) (c : ℝ) :
    0 ≤ vonMisesStress t ∧
    vonMisesStress (t + c • 1) = vonMisesStress t ∧
    (vonMisesStress t = 0 ↔ ∃ p : ℝ, t = p • 1) ∧
    vonMisesStress (c • t) = |c| * vonMisesStress t ∧
    vonMisesStress (t + u) ≤ vonMisesStress t + vonMisesStress u := by
  have hone : dev (1 : Mat 3) = 0 := by
    ext i j
    rw [dev_apply]
    by_cases h : i = j <;> simp [h, Matrix.trace, Matrix.one_apply]
  refine ⟨Real.sqrt_nonneg _, ?_, ⟨fun h => ?_, ?_⟩, ?_, ?_⟩
  · unfold vonMisesStress
    rw [dev_add, dev_smul, hone]; simp
  · refine ⟨t.trace / 3, ?_⟩
    unfold vonMisesStress at h
    have h0 := (Real.sqrt_eq_zero (mul_nonneg (by norm_num) (ddot_self_nonneg _))).mp h
    have h1 : ddot (dev t) (dev t) = 0 := by linarith
    ext i j
    have := ddot_self_eq_zero h1 i j
    rw [dev_apply] at this
    rw [Matrix.smul_apply, Matrix.one_apply]
    split at this <;> simp_all
    linarith
  · rintro ⟨p, rfl⟩
    unfold vonMisesStress
    rw [dev_smul, hone]
    simp [ddot]
  · unfold vonMisesStress
    rw [dev_smul, ddot_smul_self, ← Real.sqrt_sq_eq_abs, ← Real.sqrt_mul (sq_nonneg c)]
    congr 1; ring
  · unfold vonMisesStress
    rw [dev_add]
    exact sqrt_ddot_add _ (by norm_num) _ _

/-- C55: a rotation of the stress does not change the measure. -/
theorem C55_frame (t r : Mat 3) (hr : SpecOrthogonal r) :
    vonMisesStress (r * t * rᵀ) = vonMisesStress t := by
  have hdev : dev (r * t * rᵀ) = r * dev t * rᵀ := by
    have htr : (r * t * rᵀ).trace = t.trace := by
      rw [Matrix.trace_mul_comm, ← Matrix.mul_assoc, hr, Matrix.one_mul]
    unfold dev
    rw [ddot_one, ddot_one, htr, Matrix.mul_sub, Matrix.sub_mul, Matrix.mul_smul,
      Matrix.smul_mul, Matrix.mul_one]
    have : r * rᵀ = 1 := mul_eq_one_comm.1 hr
    rw [this]
  have hdd : ∀ a : Mat 3, ddot a a = (aᵀ * a).trace := by
    intro a
    simp only [ddot, Matrix.trace, Matrix.diag, Matrix.mul_apply, Matrix.transpose_apply]
    exact Finset.sum_comm
  unfold vonMisesStress
  rw [hdev, hdd, hdd]
  congr 2
  have e : (r * dev t * rᵀ)ᵀ * (r * dev t * rᵀ) = r * ((dev t)ᵀ * dev t) * rᵀ := by
    rw [Matrix.transpose_mul, Matrix.transpose_mul, Matrix.transpose_transpose]
    calc r * ((dev t)ᵀ * rᵀ) * (r * dev t * rᵀ)
        = r * (dev t)ᵀ * (rᵀ * r) * dev t * rᵀ := by simp only [Matrix.mul_assoc]
      _ = _ := by rw [hr]; simp only [Matrix.mul_one, Matrix.mul_assoc]
  rw [e, Matrix.trace_mul_comm, ← Matrix.mul_assoc, hr, Matrix.one_mul]

/-- C55: the reported von Mises plastic strain of a plane problem is the three-dimensional
equivalent strain, for any slips on systems whose directions lie in their planes. -/
theorem C55_plastic (l : List (System 2 × ℝ))
    (h : ∀ p ∈ l, ∑ i, p.1.direction i * p.1.normal i = 0) :
    vonMisesPlasticStrain (plasticStrain l) = SpecVonMisesStrain (to3 (plasticStrain l)) := by
  have htr := (C33_volume 1 l h 0).1
  have hs := C33_symmetric l
  generalize plasticStrain l = e at *
  have h10 : e 1 0 = e 0 1 := congrFun (congrFun hs 0) 1
  have h11 : e 1 1 = -e 0 0 := by
    simp only [Matrix.trace, Matrix.diag, Fin.sum_univ_two] at htr; linarith
  unfold vonMisesPlasticStrain SpecVonMisesStrain SpecVonMises
  rw [show (2 / 3 : ℝ) = √((2 / 3) ^ 2) from (Real.sqrt_sq (by norm_num)).symm,
    ← Real.sqrt_mul (sq_nonneg _), Real.sqrt_sq (by norm_num : (0 : ℝ) ≤ 2 / 3)]
  congr 1
  unfold ddot
  simp only [Fin.sum_univ_two, dev_apply, htr]
  simp [to3, h10, h11]
  ring

/-- C55: in three dimensions the reported von Mises plastic strain is the equivalent strain, for every
symmetric tensor. -/
theorem C55_plastic_3d (t : Mat 3) (ht : tᵀ = t) :
    vonMisesPlasticStrain t = SpecVonMisesStrain t := by
  have h1 := C55_formula t ht
  unfold vonMisesStress at h1
  unfold vonMisesPlasticStrain SpecVonMisesStrain
  rw [← h1, show (2 / 3 : ℝ) = √((2 / 3) ^ 2) from (Real.sqrt_sq (by norm_num)).symm,
    ← Real.sqrt_mul (sq_nonneg _), Real.sqrt_sq (by norm_num : (0 : ℝ) ≤ 2 / 3)]
  congr 1; ring

/-- C55: in three dimensions the homogenisation table holds the textbook measures. -/
theorem C55_table_3d (t : Mat 3) (ht : tᵀ = t) :
    tableStress t = SpecVonMises t ∧ tableStrain t = SpecVonMisesStrain t := by
  refine ⟨C55_formula t ht, ?_⟩
  have h1 := C55_formula t ht
  unfold vonMisesStress at h1
  unfold tableStrain SpecVonMisesStrain
  rw [← h1, show (2 / 3 : ℝ) = √((2 / 3) ^ 2) from (Real.sqrt_sq (by norm_num)).symm,
    ← Real.sqrt_mul (sq_nonneg _), Real.sqrt_sq (by norm_num : (0 : ℝ) ≤ 2 / 3)]
  congr 1; ring

/-- C55: what the table of a plane problem holds.  Its square misses the out-of-plane stress: the
three-dimensional square exceeds it by `2/3 out² − 2/3 tr·out + 1/9 tr²`, the strain's square by
`2/27 tr²`. -/
theorem C55_table_2d (t : Mat 2) (ht : tᵀ = t) (out : ℝ) :
    SpecVonMises (SpecFull t out) ^ 2 = tableStress t ^ 2 +
      (out ^ 2 - t.trace * out + t.trace ^ 2 / 6) ∧
    SpecVonMisesStrain (to3 t) ^ 2 = tableStrain t ^ 2 + 2 / 27 * t.trace ^ 2 := by
  have h10 : t 1 0 = t 0 1 := congrFun (congrFun ht 0) 1
  have hT : 0 ≤ 3 / 2 * ddot (dev t) (dev t) := mul_nonneg (by norm_num) (ddot_self_nonneg _)
  have hT2 : 0 ≤ 2 / 3 * ddot (dev t) (dev t) := mul_nonneg (by norm_num) (ddot_self_nonneg _)
  constructor
  · unfold SpecVonMises tableStress
    rw [Real.sq_sqrt (by positivity), Real.sq_sqrt hT]
    unfold ddot
    simp only [Fin.sum_univ_two, dev_apply, Matrix.trace, Matrix.diag]
    simp [SpecFull, h10]
    ring
  · unfold SpecVonMisesStrain SpecVonMises tableStrain
    rw [mul_pow, Real.sq_sqrt (by positivity), Real.sq_sqrt hT2]
    unfold ddot
    simp only [Fin.sum_univ_two, dev_apply, Matrix.trace, Matrix.diag]
    simp [to3, h10]
    ring

/-- C55 (part): the table of a plane problem is right for isochoric strains, and for stresses with
zero trace and no out-of-plane stress.  Missing: all other plane states, see `C55_violated`. -/
theorem C55_table_2d_partial (t : Mat 2) (ht : tᵀ = t) (h0 : t.trace = 0) :
    tableStress t = SpecVonMises (SpecFull t 0) ∧ tableStrain t = SpecVonMisesStrain (to3 t) := by
  obtain ⟨h1, h2⟩ := C55_table_2d t ht 0
  rw [h0] at h1 h2
  have n1 : 0 ≤ tableStress t := Real.sqrt_nonneg _
  have n2 : 0 ≤ SpecVonMises (SpecFull t 0) := Real.sqrt_nonneg _
  have n3 : 0 ≤ tableStrain t := Real.sqrt_nonneg _
  have n4 : 0 ≤ SpecVonMisesStrain (to3 t) := mul_nonneg (by norm_num) (Real.sqrt_nonneg _)
  exact ⟨(pow_left_inj₀ n1 n2 two_ne_zero).mp (by rw [h1]; ring),
    (pow_left_inj₀ n3 n4 two_ne_zero).mp (by rw [h2]; ring)⟩

/-- C55 is violated by the table of plane problems: for a uniform plane strain `diag(1,1)` of an
accepted isotropic crystal of any orientation the stress state is `diag(4,4,2)` with von Mises
stress 2, the table's square is 16/3; the table's von Mises strain is not the three-dimensional
one either. -/
theorem C55_violated (angle : ℝ) : ∃ (p : Elastic) (e : Mat 2), p.accepted ∧
    SpecVonMises (apply4 (rotatedStiffness (rotation2in3 angle) (p.reference 3)) (to3 e)) = 2 ∧
    tableStress (p.stress (rotation2 angle) e) ^ 2 = 16 / 3 ∧
    tableStrain e ≠ SpecVonMisesStrain (to3 e) := by
  refine ⟨⟨3, 1, 1, 1⟩, !![1, 0; 0, 1], ⟨by norm_num, by norm_num, by norm_num⟩, ?_, ?_, ?_⟩
  · have hr : SpecOrthogonal (rotation2in3 angle) := by
      rw [rotation2in3_eq]; exact rotZ_orthogonal _
    have hs := C31_isotropic (⟨3, 1, 1, 1⟩ : Elastic) (by norm_num) (rotation2in3 angle)
      (to3 !![1, 0; 0, 1]) hr (by ext i j; fin_cases i <;> fin_cases j <;> rfl)
    unfold Elastic.stress at hs
    rw [hs]
    unfold SpecVonMises
    rw [show (2 : ℝ) = √(2 ^ 2) from (Real.sqrt_sq (by norm_num)).symm]
    congr 1
    simp [to3, Matrix.trace, Fin.sum_univ_three]
  · have hs := C31_isotropic (⟨3, 1, 1, 1⟩ : Elastic) (by norm_num) (rotation2 angle)
      !![1, 0; 0, 1] (rotation2_orthogonal _) (by ext i j; fin_cases i <;> fin_cases j <;> rfl)
    rw [hs]
    unfold tableStress
    rw [Real.sq_sqrt (mul_nonneg (by norm_num) (ddot_self_nonneg _))]
    unfold ddot
    simp only [Fin.sum_univ_two, dev_apply, Matrix.trace, Matrix.diag]
    norm_num
  · intro h
    have := (C55_table_2d !![1, 0; 0, 1] (by ext i j; fin_cases i <;> fin_cases j <;> rfl) 0).2
    rw [h] at this
    have h2 : (!![1, 0; 0, 1] : Mat 2).trace = 2 := by
      norm_num [Matrix.trace, Fin.sum_univ_two]
    rw [h2] at this
    linarith

/-- Non-vacuity: pure shear has von Mises stress √3·τ. -/
example (τ : ℝ) (hτ : 0 ≤ τ) :
    vonMisesStress !![0, τ, 0; τ, 0, 0; 0, 0, 0] = √3 * τ := by
  rw [C55_formula _ (by ext i j; fin_cases i <;> fin_cases j <;> rfl)]
  unfold SpecVonMises
  rw [show √3 * τ = √(3 * τ ^ 2) by rw [Real.sqrt_mul (by norm_num), Real.sqrt_sq hτ]]
  congr 1; simp

/-! ## C56 -/

/-- All quadrature points of all cells of all processes, with the rotation of their crystal. -/
def points {d : ℕ} (procs : List (List (Cell d))) : List (Mat d × QPoint d) :=
  procs.flatMap fun cells => cells.flatMap fun c => c.points.map fun q => (c.rot, q)

/-- Volume average of a field over quadrature points. -/
noncomputable def SpecAverage {d : ℕ} (pts : List (Mat d × QPoint d))
    (field : Mat d × QPoint d → Mat d) : Mat d :=
  (1 / (pts.map fun x => x.2.jxw).sum) • (pts.map fun x => x.2.jxw • field x).sum

theorem fold_proj {d : ℕ} {M α : Type*} [AddCommMonoid M] (π : Integrals d → M)
    (hz : π .zero = 0) (ha : ∀ a b, π (a.add b) = π a + π b) (f : α → Integrals d) (l : List α) :
    π (l.foldl (fun acc q => acc.add (f q)) .zero) = (l.map fun q => π (f q)).sum := by
  have : ∀ (l : List α) (i : Integrals d), π (l.foldl (fun acc q => acc.add (f q)) i) =
      π i + (l.map fun q => π (f q)).sum := by
    intro l
    induction l with
    | nil => intro i; simp
    | cons x l ih => intro i; rw [List.foldl_cons, ih, ha]; simp [add_assoc]
  rw [this, hz, zero_add]

theorem total_proj {d : ℕ} {M : Type*} [AddCommMonoid M] (π : Integrals d → M)
    (hz : π .zero = 0) (ha : ∀ a b, π (a.add b) = π a + π b) (h : Homog d)
    (procs : List (List (Cell d))) :
    π (procs.foldl (fun acc p => acc.add (h.process p)) .zero) =
      ((points procs).map fun x => π (h.term x.1 x.2)).sum := by
  rw [fold_proj π hz ha]
  unfold points
  induction procs with
  | nil => rfl
  | cons p ps ih =>
    rw [List.map_cons, List.sum_cons, ih, List.flatMap_cons, List.map_append, List.sum_append]
    congr 1
    unfold Homog.process
    rw [fold_proj π hz ha]
    induction p with
    | nil => rfl
    | cons c cs ih2 =>
      rw [List.map_cons, List.sum_cons, ih2, List.flatMap_cons, List.map_append, List.sum_append]
      congr 1
      unfold Homog.cell
      rw [fold_proj π hz ha, List.map_map]
      rfl

/-- C56: the homogenised stress, stress fluctuation and strain fluctuation are the volume averages
of the stress (of the macroscopic plus the elastic strain), of the stress of the elastic strain and
of the displacement's strain over all quadrature points of all processes. -/
theorem C56_average {d : ℕ} (h : Homog d) (procs : List (List (Cell d)))
    (hV : ((points procs).map fun x => x.2.jxw).sum ≠ 0) :
    h.compute procs = some
      ⟨SpecAverage (points procs) fun x => h.elastic.stress x.1
          (h.macroStrain + elasticStrain h.dn0 x.2.slips x.2.strain),
        SpecAverage (points procs) fun x => h.elastic.stress x.1
          (elasticStrain h.dn0 x.2.slips x.2.strain),
        SpecAverage (points procs) fun x => x.2.strain,
        ((points procs).map fun x => x.2.jxw).sum⟩ := by
  have e1 := total_proj Integrals.stress rfl (fun _ _ => rfl) h procs
  have e2 := total_proj Integrals.stressFluct rfl (fun _ _ => rfl) h procs
  have e3 := total_proj Integrals.strainFluct rfl (fun _ _ => rfl) h procs
  have e4 := total_proj Integrals.volume rfl (fun _ _ => rfl) h procs
  have e4' : ((points procs).map fun x => (h.term x.1 x.2).volume) =
      (points procs).map fun x => x.2.jxw := rfl
  rw [e4'] at e4
  unfold Homog.compute
  simp only [e1, e2, e3, e4]
  rw [if_neg hV]
  rfl

/-- C56: distributing the cells differently among any number of processes changes nothing. -/
theorem C56_partition {d : ℕ} (h : Homog d) (procs procs' : List (List (Cell d)))
    (hp : procs.flatten.Perm procs'.flatten) : h.compute procs = h.compute procs' := by
  have hpts : (points procs).Perm (points procs') := by
    have e : ∀ l : List (List (Cell d)), points l =
        l.flatten.flatMap fun c => c.points.map fun q => (c.rot, q) := by
      intro l; unfold points; rw [List.flatten_eq_flatMap, List.flatMap_assoc]; rfl
    rw [e, e]
    exact hp.flatMap_right _
  have key : ∀ {M : Type} [AddCommMonoid M] (π : Integrals d → M), π .zero = 0 →
      (∀ a b, π (a.add b) = π a + π b) →
      π (procs.foldl (fun acc p => acc.add (h.process p)) .zero) =
      π (procs'.foldl (fun acc p => acc.add (h.process p)) .zero) := by
    intro M _ π hz ha
    rw [total_proj π hz ha, total_proj π hz ha]
    exact (hpts.map _).sum_eq
  unfold Homog.compute
  simp only [key Integrals.stress rfl (fun _ _ => rfl),
    key Integrals.stressFluct rfl (fun _ _ => rfl),
    key Integrals.strainFluct rfl (fun _ _ => rfl), key Integrals.volume rfl (fun _ _ => rfl)]

theorem sum_apply' {d : ℕ} (l : List (Mat d)) (i j : Fin d) : l.sum i j = (l.map fun m => m i j).sum := by
  induction l with
  | nil => rfl
  | cons m l ih => rw [List.sum_cons, Matrix.add_apply, ih]; simp

theorem average_apply {d : ℕ} (pts : List (Mat d × QPoint d)) (field : Mat d × QPoint d → Mat d)
    (i j : Fin d) : SpecAverage pts field i j =
      (pts.map fun x => x.2.jxw * field x i j).sum / (pts.map fun x => x.2.jxw).sum := by
  unfold SpecAverage
  rw [Matrix.smul_apply, sum_apply', List.map_map, smul_eq_mul, one_div, inv_mul_eq_div]
  rfl

/-- C56: an average of values between two bounds lies between them, in every component. -/
theorem C56_bounds {d : ℕ} (pts : List (Mat d × QPoint d)) (field : Mat d × QPoint d → Mat d)
    (hw : ∀ x ∈ pts, 0 ≤ x.2.jxw) (hV : 0 < (pts.map fun x => x.2.jxw).sum) (i j : Fin d)
    (lo hi : ℝ) (hb : ∀ x ∈ pts, lo ≤ field x i j ∧ field x i j ≤ hi) :
    lo ≤ SpecAverage pts field i j ∧ SpecAverage pts field i j ≤ hi := by
  rw [average_apply, le_div_iff₀ hV, div_le_iff₀ hV]
  constructor
  · rw [← List.sum_map_mul_left]
    exact List.sum_le_sum fun x hx => by
      rw [mul_comm]; exact mul_le_mul_of_nonneg_left (hb x hx).1 (hw x hx)
  · rw [← List.sum_map_mul_left]
    exact List.sum_le_sum fun x hx => by
      rw [mul_comm hi]; exact mul_le_mul_of_nonneg_left (hb x hx).2 (hw x hx)

/-- C56: the average of a uniform field is its value. -/
theorem C56_uniform {d : ℕ} (pts : List (Mat d × QPoint d)) (field : Mat d × QPoint d → Mat d)
    (hV : (pts.map fun x => x.2.jxw).sum ≠ 0) (v : Mat d) (hv : ∀ x ∈ pts, field x = v) :
    SpecAverage pts field = v := by
  ext i j
  rw [average_apply, div_eq_iff hV, ← List.sum_map_mul_left]
  refine congrArg List.sum (List.map_congr_left fun x hx => ?_)
  rw [hv x hx, mul_comm]

/-- C56: the homogenised stress is the average stress of the macroscopic strain plus the
fluctuation. -/
theorem C56_split {d : ℕ} (h : Homog d) (pts : List (Mat d × QPoint d)) :
    (SpecAverage pts fun x => h.elastic.stress x.1
      (h.macroStrain + elasticStrain h.dn0 x.2.slips x.2.strain)) =
    (SpecAverage pts fun x => h.elastic.stress x.1 h.macroStrain) +
      SpecAverage pts fun x => h.elastic.stress x.1 (elasticStrain h.dn0 x.2.slips x.2.strain) := by
  have hadd : ∀ (r a b : Mat d), h.elastic.stress r (a + b) =
      h.elastic.stress r a + h.elastic.stress r b := by
    intro r a b
    ext i j
    simp only [Elastic.stress, apply4, Matrix.of_apply, Matrix.add_apply, mul_add,
      sum_add_distrib]
  ext i j
  rw [Matrix.add_apply, average_apply, average_apply, average_apply, ← add_div,
    ← List.sum_map_add]
  congr 2
  refine List.map_congr_left fun x _ => ?_
  rw [hadd, Matrix.add_apply, mul_add]

/-- Non-vacuity: two processes with one cell each; weights 1 and 3, strains 2 and 6 give 5. -/
example : ((⟨⟨3, 1, 1, 1⟩, 1, 0⟩ : Homog 1).compute
    [[⟨1, [⟨1, !![2], []⟩]⟩], [⟨1, [⟨3, !![6], []⟩]⟩]]).map (fun r => r.strainFluct 0 0) =
      some 5 := by
  rw [C56_average]
  · simp only [Option.map_some, average_apply]
    simp [points]
    norm_num
  · simp [points]; norm_num

/-! ## C57 -/

/-- All face quadrature points of all processes: shear stress and weight. -/
def facePoints (procs : List (List (List (ℝ × ℝ)))) : List (ℝ × ℝ) :=
  procs.flatMap fun faces => faces.flatten

theorem averageStress12_eq (width : ℝ) (procs : List (List (List (ℝ × ℝ)))) :
    averageStress12 width procs =
      ((facePoints procs).map fun q => q.1 * q.2).sum / width := by
  unfold averageStress12 facePoints
  congr 1
  induction procs with
  | nil => rfl
  | cons p ps ih =>
    rw [List.map_cons, List.sum_cons, ih, List.flatMap_cons, List.map_append, List.sum_append]
    congr 1
    induction p with
    | nil => rfl
    | cons f fs ih2 =>
      rw [List.map_cons, List.sum_cons, ih2, List.flatten_cons, List.map_append, List.sum_append]

/-- C57 (part): in plane problems the reported stress is the average of the shear stress over the
upper boundary, whatever the distribution of its faces among the processes: the quadrature weights
add up to the length of the boundary.  Missing: three dimensions, see `C57_violated_3d`. -/
theorem C57_average_2d_partial (width : ℝ) (procs : List (List (List (ℝ × ℝ))))
    (hA : ((facePoints procs).map Prod.snd).sum = upperArea 2 width) :
    averageStress12 width procs = ((facePoints procs).map fun q => q.1 * q.2).sum /
      ((facePoints procs).map Prod.snd).sum := by
  rw [averageStress12_eq, hA]; simp [upperArea]

/-- C57 is violated in three dimensions: a uniform shear stress `s` is reported as `s · width`; with
the strip of the shear problem (`width = 1 / n_elements_in_y_direction`) it is too small by the
number of elements. -/
theorem C57_violated_3d (width s : ℝ) (hw : width ≠ 0) (procs : List (List (List (ℝ × ℝ))))
    (hA : ((facePoints procs).map Prod.snd).sum = upperArea 3 width)
    (hs : ∀ q ∈ facePoints procs, q.1 = s) :
    averageStress12 width procs = s * width := by
  rw [averageStress12_eq]
  have : ((facePoints procs).map fun q => q.1 * q.2) =
      (facePoints procs).map fun q => s * q.2 :=
    List.map_congr_left fun q hq => by rw [hs q hq]
  rw [this, List.sum_map_mul_left, hA]
  simp only [upperArea, Nat.reduceSub]
  field_simp

/-- C57 (part): for monotonic programmes the reported shear is the applied boundary displacement
divided by the height.  Missing: cyclic programmes, see `C57_violated_cyclic`. -/
theorem C57_load_partial (p : Load.Prog) (hm : p.type = .monotonic) (dim nC : ℕ) (height : ℝ)
    (hh : height ≠ 0) (comp : ℕ) (dec : Bool) (hC : comp < dim) (h0 : 0 < nC) (time : ℝ) :
    progReported p time =
      (Load.Control.new p dim nC height 1 comp dec).value time comp / height := by
  rw [Load.C48_monotonic_partial p dim nC height 1 comp dec hC h0]
  simp only [progReported, reportedShear, hm]
  field_simp

/-- C57 is violated for cyclic programmes: half a period into the cyclic phase of the default
programme (loads 0 and 1) the report says the boundary is back at shear 0, while 3/2 is applied. -/
theorem C57_violated_cyclic : ∃ (p : Load.Prog) (time : ℝ), p.type = .cyclic ∧
    p.startCyclic ≤ time ∧ time < p.startUnloading ∧ progReported p time = 0 ∧
    (Load.Control.new p 2 1 1 1 0 false).value time 0 / 1 = 3 / 2 := by
  refine ⟨⟨.cyclic, 0, 1, 0, 1, 20, 1, 20, 1, 1, 5, true⟩, 3 / 2, rfl,
    by norm_num [Load.Prog.startCyclic],
    by norm_num [Load.Prog.startUnloading, Load.Prog.startCyclic], ?_, ?_⟩
  · simp only [progReported, reportedShear]
    rw [if_pos (by norm_num), show 2 * Real.pi / 1 * (3 / 2 - 1) = Real.pi by ring, Real.cos_pi]
    norm_num
  · rw [Load.C48_monotonic_partial _ 2 1 1 1 0 false (by norm_num) (by norm_num)]
    norm_num

/-- Non-vacuity: two faces on two processes, stresses 1 and 3, half the width each: 2 in 2D. -/
example : averageStress12 (1 / 4) [[[(1, 1 / 8)]], [[(3, 1 / 8)]]] = 2 ∧
    ((facePoints [[[(1, 1 / 8)]], [[(3, 1 / 8)]]]).map Prod.snd).sum = upperArea 2 (1 / 4) := by
  constructor
  · norm_num [averageStress12]
  · norm_num [facePoints, upperArea]

end Verif.Post
