import Verif.Model.Crystal
import Mathlib.Tactic.Linarith
import Mathlib.Tactic.FieldSimp
import Mathlib.Tactic.Ring
import Mathlib.Tactic.Positivity
import Mathlib.Tactic.NormNum
import Mathlib.Algebra.BigOperators.Fin
import Mathlib.Algebra.BigOperators.Field
import Mathlib.LinearAlgebra.Matrix.Determinant.Basic

/-!
# Properties of crystals and kinematics: C33, C34, C35
-/

namespace Verif.Cry
open Matrix Finset

/-! ## Specifications -/

/-- A rotation: proper orthogonal matrix columns, `Rᵀ R = 1`. -/
def SpecOrthogonal {d : ℕ} (r : Mat d) : Prop := rᵀ * r = 1

/-- Unit vectors orthogonal to each other. -/
def SpecOrthonormalPair {d : ℕ} (a b : Vec d) : Prop :=
  (∑ i, a i * a i = 1) ∧ (∑ i, b i * b i = 1) ∧ (∑ i, a i * b i = 0)

/-- Orthonormal triad. -/
def SpecTriad (s : System 3) : Prop :=
  SpecOrthonormalPair s.direction s.normal ∧ SpecOrthonormalPair s.normal s.third ∧
  SpecOrthonormalPair s.third s.direction

/-! ## Helpers -/

theorem rotation2_orthogonal (a : ℝ) : SpecOrthogonal (rotation2 a) := by
  unfold SpecOrthogonal rotation2
  ext i j
  have h := Real.sin_sq_add_cos_sq (a * degToRad)
  fin_cases i <;> fin_cases j <;> simp [Matrix.mul_apply, Fin.sum_univ_two] <;> nlinarith

theorem rotZ_orthogonal (t : ℝ) : SpecOrthogonal (rotZ t) := by
  unfold SpecOrthogonal rotZ
  ext i j
  have h := Real.sin_sq_add_cos_sq t
  fin_cases i <;> fin_cases j <;> simp [Matrix.mul_apply, Fin.sum_univ_three] <;> nlinarith

theorem rotX_orthogonal (t : ℝ) : SpecOrthogonal (rotX t) := by
  unfold SpecOrthogonal rotX
  ext i j
  have h := Real.sin_sq_add_cos_sq t
  fin_cases i <;> fin_cases j <;> simp [Matrix.mul_apply, Fin.sum_univ_three] <;> nlinarith

theorem orthogonal_mul {d : ℕ} {a b : Mat d} (ha : SpecOrthogonal a) (hb : SpecOrthogonal b) :
    SpecOrthogonal (a * b) := by
  unfold SpecOrthogonal at *
  rw [Matrix.transpose_mul, Matrix.mul_assoc, ← Matrix.mul_assoc aᵀ, ha, Matrix.one_mul, hb]

theorem rotation3_orthogonal (e : Vec 3) : SpecOrthogonal (rotation3 e) :=
  orthogonal_mul (orthogonal_mul (rotZ_orthogonal _) (rotX_orthogonal _)) (rotZ_orthogonal _)

theorem rotation2in3_eq (a : ℝ) : rotation2in3 a = rotZ (a * degToRad) := by
  unfold rotation2in3
  have : rotY 0 * rotX 0 = (1 : Mat 3) := by
    unfold rotY rotX
    ext i j
    fin_cases i <;> fin_cases j <;> simp [Matrix.mul_apply, Fin.sum_univ_three]
  rw [this, Matrix.mul_one]

/-- Rotations preserve the scalar product. -/
theorem rot_dot {d : ℕ} {r : Mat d} (h : SpecOrthogonal r) (a b : Vec d) :
    (r *ᵥ a) ⬝ᵥ (r *ᵥ b) = a ⬝ᵥ b := by
  rw [Matrix.dotProduct_mulVec, Matrix.vecMul_mulVec, h, Matrix.vecMul_one]

theorem pair_iff {d : ℕ} (a b : Vec d) : SpecOrthonormalPair a b ↔
    a ⬝ᵥ a = 1 ∧ b ⬝ᵥ b = 1 ∧ a ⬝ᵥ b = 0 := Iff.rfl

theorem pair_rot {d : ℕ} {r : Mat d} (h : SpecOrthogonal r) {a b : Vec d}
    (hp : SpecOrthonormalPair a b) : SpecOrthonormalPair (r *ᵥ a) (r *ᵥ b) := by
  rw [pair_iff] at *
  rw [rot_dot h, rot_dot h, rot_dot h]; exact hp

theorem pair_symm {d : ℕ} {a b : Vec d} (hp : SpecOrthonormalPair a b) :
    SpecOrthonormalPair b a := by
  rw [pair_iff] at *
  exact ⟨hp.2.1, hp.1, by rw [dotProduct_comm]; exact hp.2.2⟩

theorem dot_self_nonneg {d : ℕ} (v : Vec d) : 0 ≤ v ⬝ᵥ v :=
  Finset.sum_nonneg fun i _ => mul_self_nonneg (v i)

theorem norm2_sq {d : ℕ} (v : Vec d) : norm2 v * norm2 v = v ⬝ᵥ v :=
  Real.mul_self_sqrt (dot_self_nonneg v)

theorem norm2_nonneg {d : ℕ} (v : Vec d) : 0 ≤ norm2 v := Real.sqrt_nonneg _

theorem norm2_eq_zero {d : ℕ} {v : Vec d} (h : norm2 v = 0) : v = 0 := by
  have h1 : v ⬝ᵥ v = 0 := by rw [← norm2_sq, h]; ring
  funext i
  have := (Finset.sum_eq_zero_iff_of_nonneg (fun i _ => mul_self_nonneg (v i))).1 h1 i
    (Finset.mem_univ i)
  simpa using this

theorem normalize_some {d : ℕ} {v w : Vec d} (h : normalize v = some w) :
    norm2 v ≠ 0 ∧ w = (norm2 v)⁻¹ • v := by
  unfold normalize at h
  split_ifs at h with h0
  refine ⟨h0, ?_⟩
  have := Option.some.inj h
  rw [← this]; funext i; simp [div_eq_inv_mul]

theorem normalize_unit {d : ℕ} {v w : Vec d} (h : normalize v = some w) : w ⬝ᵥ w = 1 := by
  obtain ⟨h0, rfl⟩ := normalize_some h
  rw [smul_dotProduct, dotProduct_smul, ← norm2_sq]
  simp only [smul_eq_mul]
  field_simp

theorem normalize_ne {d : ℕ} {v : Vec d} (h : v ≠ 0) :
    normalize v = some ((norm2 v)⁻¹ • v) := by
  have h0 : norm2 v ≠ 0 := fun h' => h (norm2_eq_zero h')
  unfold normalize
  rw [if_neg h0]
  congr 1; funext i; simp [div_eq_inv_mul]

theorem dblEpsilon_pos : 0 < dblEpsilon := by unfold dblEpsilon; positivity

theorem cross_dot_left (a b : Vec 3) : cross a b ⬝ᵥ a = 0 := by
  simp [cross, dotProduct, Fin.sum_univ_three]; ring

theorem cross_dot_right (a b : Vec 3) : cross a b ⬝ᵥ b = 0 := by
  simp [cross, dotProduct, Fin.sum_univ_three]; ring

/-- Lagrange's identity. -/
theorem cross_norm (a b : Vec 3) :
    cross a b ⬝ᵥ cross a b = (a ⬝ᵥ a) * (b ⬝ᵥ b) - (a ⬝ᵥ b) ^ 2 := by
  simp [cross, dotProduct, Fin.sum_univ_three]; ring

theorem ddot_outer {d : ℕ} (t : Mat d) (a b : Vec d) :
    ddot t (outer a b) = a ⬝ᵥ (t *ᵥ b) := by
  unfold ddot outer
  simp only [dotProduct, mulVec, Finset.mul_sum, Matrix.of_apply]
  refine Finset.sum_congr rfl fun i _ => Finset.sum_congr rfl fun j _ => by ring

theorem ddot_symmetrize {d : ℕ} (t u : Mat d) (ht : tᵀ = t) :
    ddot t (symmetrize u) = ddot t u := by
  unfold ddot symmetrize
  simp only [Matrix.of_apply]
  have h1 : ∑ i, ∑ j, t i j * u j i = ∑ i, ∑ j, t i j * u i j := by
    rw [Finset.sum_comm]
    refine Finset.sum_congr rfl fun i _ => Finset.sum_congr rfl fun j _ => ?_
    have : t j i = t i j := congrFun (congrFun ht i) j
    rw [this]
  have h2 : ∀ i j, t i j * ((u i j + u j i) / 2) = (t i j * u i j) / 2 + (t i j * u j i) / 2 :=
    fun i j => by ring
  simp only [h2, Finset.sum_add_distrib, ← Finset.sum_div]
  rw [h1]; ring

theorem trace_symSchmid {d : ℕ} (s : System d) :
    s.symSchmid.trace = s.direction ⬝ᵥ s.normal := by
  unfold System.symSchmid symmetrize System.schmid outer Matrix.trace
  simp only [Matrix.diag_apply, dotProduct, Matrix.of_apply]
  refine Finset.sum_congr rfl fun i _ => by ring

theorem symSchmid_symm {d : ℕ} (s : System d) : s.symSchmidᵀ = s.symSchmid := by
  ext i j
  simp only [Matrix.transpose_apply, System.symSchmid, symmetrize, Matrix.of_apply]
  ring

theorem plastic_foldl {d : ℕ} (l : List (System d × ℝ)) (a : Mat d) :
    l.foldl (fun acc p => acc + p.2 • p.1.symSchmid) a = a + plasticStrain l := by
  unfold plasticStrain
  induction l generalizing a with
  | nil => simp
  | cons p l ih =>
    simp only [List.foldl_cons]
    rw [ih, ih (0 + _)]; simp [add_assoc]

theorem plastic_cons {d : ℕ} (p : System d × ℝ) (l : List (System d × ℝ)) :
    plasticStrain (p :: l) = p.2 • p.1.symSchmid + plasticStrain l := by
  conv_lhs => unfold plasticStrain
  rw [List.foldl_cons, plastic_foldl]; simp

/-! ## C33 -/

/-- C33: total strain = elastic strain + (first dimensionless number) · plastic strain. -/
theorem C33_split {d : ℕ} (dn : ℝ) (l : List (System d × ℝ)) (strain : Mat d) :
    elasticStrain dn l strain + dn • plasticStrain l = strain := by
  induction l generalizing strain with
  | nil => simp [elasticStrain, plasticStrain]
  | cons p l ih =>
    rw [elasticStrain, plastic_cons, smul_add]
    have := ih (strain - (dn * p.2) • p.1.symSchmid)
    rw [smul_smul, add_left_comm, this]; simp

/-- C33: the plastic strain is `Σ γ_α sym(s_α ⊗ m_α)`, entry by entry, independently of the order
in which the slip systems are listed. -/
theorem C33_plastic_entries {d : ℕ} (l : List (System d × ℝ)) (i j : Fin d) :
    plasticStrain l i j = (l.map fun p =>
      p.2 * ((p.1.direction i * p.1.normal j + p.1.direction j * p.1.normal i) / 2)).sum := by
  induction l with
  | nil => simp [plasticStrain]
  | cons p l ih =>
    rw [plastic_cons, Matrix.add_apply, ih, List.map_cons, List.sum_cons]
    rfl

/-- C33: the plastic strain is symmetric. -/
theorem C33_symmetric {d : ℕ} (l : List (System d × ℝ)) :
    (plasticStrain l)ᵀ = plasticStrain l := by
  induction l with
  | nil => simp [plasticStrain]
  | cons p l ih =>
    rw [plastic_cons, Matrix.transpose_add, ih, Matrix.transpose_smul, symSchmid_symm]

/-- C33: the plastic strain preserves volume when slip directions lie in their slip planes; the
elastic strain then carries the whole volume change. -/
theorem C33_volume {d : ℕ} (dn : ℝ) (l : List (System d × ℝ))
    (h : ∀ p ∈ l, ∑ i, p.1.direction i * p.1.normal i = 0) (strain : Mat d) :
    (plasticStrain l).trace = 0 ∧ (elasticStrain dn l strain).trace = strain.trace := by
  have h1 : (plasticStrain l).trace = 0 := by
    induction l with
    | nil => simp [plasticStrain]
    | cons p l ih =>
      rw [plastic_cons, Matrix.trace_add, Matrix.trace_smul, trace_symSchmid,
        ih (fun q hq => h q (List.mem_cons_of_mem _ hq))]
      have := h p List.mem_cons_self
      unfold dotProduct
      rw [this]; simp
  refine ⟨h1, ?_⟩
  have := congrArg Matrix.trace (C33_split dn l strain)
  rw [Matrix.trace_add, Matrix.trace_smul, h1] at this
  simpa using this

/-- Non-vacuity: two slip systems of a plane crystal, non-zero slips, non-zero plastic strain. -/
example : ∃ l : List (System 2 × ℝ), l.length = 2 ∧
    (∀ p ∈ l, ∑ i, p.1.direction i * p.1.normal i = 0) ∧ plasticStrain l 0 1 ≠ 0 := by
  refine ⟨[(⟨![1, 0], ![0, 1], 0⟩, 1), (⟨![0, 1], ![-1, 0], 0⟩, 3)], rfl, ?_, ?_⟩
  · intro p hp
    simp only [List.mem_cons, List.not_mem_nil, or_false] at hp
    rcases hp with rfl | rfl <;> simp [Fin.sum_univ_two]
  · rw [C33_plastic_entries]; norm_num

/-! ## C34 -/

/-- What `SpecStored` says of an accepted slip system file line: the vectors are the normalised
input. -/
theorem read3_ok {dir nor : Vec 3} {s : System 3} (h : readSystem3 dir nor = .ok s) :
    |nor ⬝ᵥ dir| ≤ dblEpsilon ∧ normalize nor = some s.normal ∧
      normalize dir = some s.direction ∧ normalize (cross nor dir) = some s.third := by
  unfold readSystem3 at h
  split_ifs at h with h0
  split at h
  · rename_i n s' l h1 h2 h3
    cases h
    exact ⟨h0, h1, h2, h3⟩
  · exact absurd h (by simp)

theorem read2_ok {dir nor : Vec 2} {s : System 2} (h : readSystem2 dir nor = .ok s) :
    |nor ⬝ᵥ dir| ≤ dblEpsilon ∧ normalize nor = some s.normal ∧
      normalize dir = some s.direction ∧ s.third = 0 := by
  unfold readSystem2 at h
  split_ifs at h with h0
  split at h
  · rename_i n s' h1 h2
    cases h
    exact ⟨h0, h1, h2, rfl⟩
  · exact absurd h (by simp)

/-- C34, three dimensions: if the input vectors are non-zero and orthogonal, the input is
accepted without NaN and, for every orientation, the stored vectors form an orthonormal triad,
and the Schmid tensor is trace free. -/
theorem C34_triad_partial (dir nor : Vec 3) (hd : dir ≠ 0) (hn : nor ≠ 0)
    (h : ∑ i, nor i * dir i = 0) (angles : Vec 3) :
    ∃ s, readSystem3 dir nor = .ok s ∧
      SpecTriad (rotateSystem (rotation3 angles) s) ∧
      (rotateSystem (rotation3 angles) s).schmid.trace = 0 := by
  have hdot : nor ⬝ᵥ dir = 0 := h
  have hnn : nor ⬝ᵥ nor ≠ 0 := fun h' => hn (norm2_eq_zero (by unfold norm2; rw [h']; simp))
  have hdd : dir ⬝ᵥ dir ≠ 0 := fun h' => hd (norm2_eq_zero (by unfold norm2; rw [h']; simp))
  have hc : cross nor dir ≠ 0 := by
    intro h'
    have := cross_norm nor dir
    rw [h', hdot] at this
    simp at this
    exact this.elim hnn hdd
  have e1 := normalize_ne hn
  have e2 := normalize_ne hd
  have e3 := normalize_ne hc
  refine ⟨⟨(norm2 dir)⁻¹ • dir, (norm2 nor)⁻¹ • nor,
    (norm2 (cross nor dir))⁻¹ • cross nor dir⟩, ?_, ?_, ?_⟩
  · unfold readSystem3
    rw [if_pos (by unfold orthogonalityCheck; rw [hdot, abs_zero]; exact dblEpsilon_pos.le),
      e1, e2, e3]
  · have p1 : SpecOrthonormalPair ((norm2 dir)⁻¹ • dir) ((norm2 nor)⁻¹ • nor) :=
      ⟨normalize_unit e2, normalize_unit e1, by
        change _ ⬝ᵥ _ = 0
        rw [smul_dotProduct, dotProduct_smul, dotProduct_comm, hdot]; simp⟩
    have p2 : SpecOrthonormalPair ((norm2 nor)⁻¹ • nor)
        ((norm2 (cross nor dir))⁻¹ • cross nor dir) :=
      ⟨normalize_unit e1, normalize_unit e3, by
        change _ ⬝ᵥ _ = 0
        rw [smul_dotProduct, dotProduct_smul, dotProduct_comm, cross_dot_left]; simp⟩
    have p3 : SpecOrthonormalPair ((norm2 (cross nor dir))⁻¹ • cross nor dir)
        ((norm2 dir)⁻¹ • dir) :=
      ⟨normalize_unit e3, normalize_unit e2, by
        change _ ⬝ᵥ _ = 0
        rw [smul_dotProduct, dotProduct_smul, cross_dot_right]; simp⟩
    have hr := rotation3_orthogonal angles
    exact ⟨pair_rot hr p1, pair_rot hr p2, pair_rot hr p3⟩
  · have : ∀ s : System 3, s.schmid.trace = s.direction ⬝ᵥ s.normal := fun s => rfl
    rw [this]
    unfold rotateSystem
    simp only
    rw [rot_dot (rotation3_orthogonal angles), smul_dotProduct, dotProduct_smul,
      dotProduct_comm, hdot]; simp

/-- C34, two dimensions. -/
theorem C34_pair_partial (dir nor : Vec 2) (hd : dir ≠ 0) (hn : nor ≠ 0)
    (h : ∑ i, nor i * dir i = 0) (angle : ℝ) :
    ∃ s, readSystem2 dir nor = .ok s ∧
      SpecOrthonormalPair (rotateSystem (rotation2 angle) s).direction
        (rotateSystem (rotation2 angle) s).normal ∧
      (rotateSystem (rotation2 angle) s).schmid.trace = 0 := by
  have hdot : nor ⬝ᵥ dir = 0 := h
  have e1 := normalize_ne hn
  have e2 := normalize_ne hd
  refine ⟨⟨(norm2 dir)⁻¹ • dir, (norm2 nor)⁻¹ • nor, 0⟩, ?_, ?_, ?_⟩
  · unfold readSystem2
    rw [if_pos (by unfold orthogonalityCheck; rw [hdot, abs_zero]; exact dblEpsilon_pos.le),
      e1, e2]
  · have p1 : SpecOrthonormalPair ((norm2 dir)⁻¹ • dir) ((norm2 nor)⁻¹ • nor) :=
      ⟨normalize_unit e2, normalize_unit e1, by
        change _ ⬝ᵥ _ = 0
        rw [smul_dotProduct, dotProduct_smul, dotProduct_comm, hdot]; simp⟩
    exact pair_rot (rotation2_orthogonal angle) p1
  · have : ∀ s : System 2, s.schmid.trace = s.direction ⬝ᵥ s.normal := fun s => rfl
    rw [this]
    unfold rotateSystem
    simp only
    rw [rot_dot (rotation2_orthogonal angle), smul_dotProduct, dotProduct_smul,
      dotProduct_comm, hdot]; simp

/-- C34, for *every* accepted input without NaN and every orientation: unit vectors, the third
vector orthogonal to both, and the deviation from orthogonality is at most the machine epsilon
divided by the lengths of the vectors in the file. -/
theorem C34_accepted_partial (dir nor : Vec 3) (s : System 3)
    (h : readSystem3 dir nor = .ok s) (angles : Vec 3) :
    let t := rotateSystem (rotation3 angles) s
    (∑ i, t.direction i * t.direction i = 1) ∧ (∑ i, t.normal i * t.normal i = 1) ∧
    (∑ i, t.third i * t.third i = 1) ∧ (∑ i, t.third i * t.direction i = 0) ∧
    (∑ i, t.third i * t.normal i = 0) ∧
    |∑ i, t.direction i * t.normal i| * (norm2 dir * norm2 nor) ≤ dblEpsilon := by
  obtain ⟨h0, h1, h2, h3⟩ := read3_ok h
  have hr := rotation3_orthogonal angles
  obtain ⟨n1, w1⟩ := normalize_some h1
  obtain ⟨n2, w2⟩ := normalize_some h2
  obtain ⟨n3, w3⟩ := normalize_some h3
  intro t
  have hd : ∀ a b : Vec 3, ∑ i, a i * b i = a ⬝ᵥ b := fun a b => rfl
  simp only [hd, t, rotateSystem, rot_dot hr]
  refine ⟨normalize_unit h2, normalize_unit h1, normalize_unit h3, ?_, ?_, ?_⟩
  · rw [w3, w2, smul_dotProduct, dotProduct_smul, cross_dot_right]; simp
  · rw [w3, w1, smul_dotProduct, dotProduct_smul, cross_dot_left]; simp
  · rw [w2, w1, smul_dotProduct, dotProduct_smul, dotProduct_comm]
    have a1 : 0 < norm2 dir := lt_of_le_of_ne (norm2_nonneg _) (Ne.symm n2)
    have a2 : 0 < norm2 nor := lt_of_le_of_ne (norm2_nonneg _) (Ne.symm n1)
    simp only [smul_eq_mul, abs_mul, abs_inv, abs_of_pos a1, abs_of_pos a2]
    calc _ = |nor ⬝ᵥ dir| := by field_simp
      _ ≤ _ := h0

/-- C34 violated: the orthogonality check looks at vectors of arbitrary length, so short vectors
pass although they are parallel; after normalisation the slip direction *is* the slip normal and
the Schmid tensor has trace 1 (plastic slip changes the volume). -/
theorem C34_violated : ∃ dir nor : Vec 2, ∃ s, readSystem2 dir nor = .ok s ∧
    ∀ angle, (rotateSystem (rotation2 angle) s).direction =
        (rotateSystem (rotation2 angle) s).normal ∧
      (rotateSystem (rotation2 angle) s).schmid.trace = 1 := by
  have h0 : (![(2 : ℝ) ^ (-30 : ℤ), 0] : Vec 2) ≠ 0 := by
    intro h
    have := congrFun h 0
    simp at this
  have e := normalize_ne h0
  refine ⟨![(2 : ℝ) ^ (-30 : ℤ), 0], ![(2 : ℝ) ^ (-30 : ℤ), 0],
    ⟨(norm2 ![(2 : ℝ) ^ (-30 : ℤ), 0])⁻¹ • ![(2 : ℝ) ^ (-30 : ℤ), 0],
     (norm2 ![(2 : ℝ) ^ (-30 : ℤ), 0])⁻¹ • ![(2 : ℝ) ^ (-30 : ℤ), 0], 0⟩, ?_, ?_⟩
  · unfold readSystem2
    rw [if_pos, e]
    unfold orthogonalityCheck dblEpsilon
    simp [dotProduct, Fin.sum_univ_two]
    norm_num [abs_of_pos]
  · intro angle
    refine ⟨rfl, ?_⟩
    have : ∀ s : System 2, s.schmid.trace = s.direction ⬝ᵥ s.normal := fun s => rfl
    rw [this]
    unfold rotateSystem
    simp only
    rw [rot_dot (rotation2_orthogonal angle)]
    exact normalize_unit e

/-- C34 violated: a zero vector passes the check and is stored as NaN. -/
theorem C34_violated_zero (dir : Vec 2) : readSystem2 dir 0 = .nan := by
  unfold readSystem2
  rw [if_pos (by unfold orthogonalityCheck; simp; exact dblEpsilon_pos.le)]
  have : normalize (0 : Vec 2) = none := by
    unfold normalize norm2; simp
  rw [this]

/-- C34: every rotation used is a proper rotation (orthogonal with determinant one), and in 2D
the three-dimensional rotation acts in the plane as the two-dimensional one. -/
theorem C34_rotations (angle : ℝ) (e : Vec 3) :
    (rotation2 angle)ᵀ * rotation2 angle = 1 ∧ (rotation2 angle).det = 1 ∧
    (rotation3 e)ᵀ * rotation3 e = 1 ∧ (rotation3 e).det = 1 ∧
    (rotation2in3 angle)ᵀ * rotation2in3 angle = 1 ∧
    ∀ i j : Fin 2, rotation2in3 angle i.castSucc j.castSucc = rotation2 angle i j := by
  have dz : ∀ t, (rotZ t).det = 1 := fun t => by
    have h := Real.sin_sq_add_cos_sq t
    unfold rotZ
    rw [Matrix.det_fin_three]; simp; nlinarith
  have dx : ∀ t, (rotX t).det = 1 := fun t => by
    have h := Real.sin_sq_add_cos_sq t
    unfold rotX
    rw [Matrix.det_fin_three]; simp; nlinarith
  refine ⟨rotation2_orthogonal _, ?_, rotation3_orthogonal _, ?_, ?_, ?_⟩
  · have h := Real.sin_sq_add_cos_sq (angle * degToRad)
    unfold rotation2
    rw [Matrix.det_fin_two]; simp; nlinarith
  · unfold rotation3
    rw [Matrix.det_mul, Matrix.det_mul, dz, dx, dz]; norm_num
  · rw [rotation2in3_eq]; exact rotZ_orthogonal _
  · intro i j
    rw [rotation2in3_eq]
    fin_cases i <;> fin_cases j <;> simp [rotZ, rotation2]

/-- C34: the orientation convention.  Angles are in degrees; a plane crystal is turned
counter-clockwise; in 3D the three angles turn the crystal about the third, the first and the third
axis, and the rotation of a general triple is the product of the three in the order given. -/
theorem C34_convention :
    (∀ (a : ℝ) (v : Vec 2), rotation2 a *ᵥ v =
      ![Real.cos (a * Real.pi / 180) * v 0 - Real.sin (a * Real.pi / 180) * v 1,
        Real.sin (a * Real.pi / 180) * v 0 + Real.cos (a * Real.pi / 180) * v 1]) ∧
    (∀ (a : ℝ) (v : Vec 3), rotation3 ![a, 0, 0] *ᵥ v =
      ![Real.cos (a * Real.pi / 180) * v 0 - Real.sin (a * Real.pi / 180) * v 1,
        Real.sin (a * Real.pi / 180) * v 0 + Real.cos (a * Real.pi / 180) * v 1, v 2]) ∧
    (∀ (a : ℝ) (v : Vec 3), rotation3 ![0, a, 0] *ᵥ v =
      ![v 0, Real.cos (a * Real.pi / 180) * v 1 - Real.sin (a * Real.pi / 180) * v 2,
        Real.sin (a * Real.pi / 180) * v 1 + Real.cos (a * Real.pi / 180) * v 2]) ∧
    (∀ a b c : ℝ, rotation3 ![a, b, c] =
      rotation3 ![a, 0, 0] * rotation3 ![0, b, 0] * rotation3 ![c, 0, 0]) ∧
    (∀ (a : ℝ) (v : Vec 3), rotation2in3 a *ᵥ v = rotation3 ![a, 0, 0] *ᵥ v) := by
  have z0 : rotZ 0 = 1 := by
    ext i j; fin_cases i <;> fin_cases j <;> simp [rotZ]
  have x0 : rotX 0 = 1 := by
    ext i j; fin_cases i <;> fin_cases j <;> simp [rotX]
  have ang : ∀ a : ℝ, a * degToRad = a * Real.pi / 180 := fun a => by unfold degToRad; ring
  have rz : ∀ a, rotation3 ![a, 0, 0] = rotZ (a * Real.pi / 180) := fun a => by
    unfold rotation3; simp [ang, x0, z0]
  have rx : ∀ a, rotation3 ![0, a, 0] = rotX (a * Real.pi / 180) := fun a => by
    unfold rotation3; simp [ang, z0]
  refine ⟨fun a v => ?_, fun a v => ?_, fun a v => ?_, fun a b c => ?_, fun a v => ?_⟩
  · funext i
    fin_cases i <;>
      simp [rotation2, Matrix.mulVec, dotProduct, Fin.sum_univ_two, ang, sub_eq_add_neg]
  · rw [rz]
    funext i
    fin_cases i <;>
      simp [rotZ, Matrix.mulVec, dotProduct, Fin.sum_univ_three, sub_eq_add_neg]
  · rw [rx]
    funext i
    fin_cases i <;>
      simp [rotX, Matrix.mulVec, dotProduct, Fin.sum_univ_three, sub_eq_add_neg]
  · rw [rz, rx, rz]
    unfold rotation3
    simp [ang]
  · rw [rotation2in3_eq, rz, ang]

/-- Non-vacuity of the hypotheses of `C34_triad_partial`: an fcc system. -/
example : ∃ dir nor : Vec 3, dir ≠ 0 ∧ nor ≠ 0 ∧ ∑ i, nor i * dir i = 0 :=
  ⟨![1, -1, 0], ![1, 1, 1], by intro h; simpa using congrFun h 0,
    by intro h; simpa using congrFun h 0, by simp [Fin.sum_univ_three]⟩

/-! ## C35 -/

/-- C35: the resolved shear stress is the component in slip direction of the traction on the slip
plane, for every symmetric stress. -/
theorem C35_traction {d : ℕ} (s : System d) (stress : Mat d) (h : stressᵀ = stress) :
    resolvedShear s stress = ∑ i, s.direction i * ∑ j, stress i j * s.normal j := by
  unfold resolvedShear System.symSchmid
  rw [ddot_symmetrize _ _ h]
  exact ddot_outer _ _ _

/-- C35: work conjugacy. The stress power over the plastic strain is the sum over the slip systems
of resolved shear stress times slip. -/
theorem C35_work {d : ℕ} (l : List (System d × ℝ)) (stress : Mat d) :
    (∑ i, ∑ j, stress i j * plasticStrain l i j) =
      (l.map fun p => resolvedShear p.1 stress * p.2).sum := by
  induction l with
  | nil => simp [plasticStrain]
  | cons p l ih =>
    rw [List.map_cons, List.sum_cons, ← ih, plastic_cons]
    unfold resolvedShear ddot
    simp only [Matrix.add_apply, Matrix.smul_apply, smul_eq_mul, mul_add,
      Finset.sum_add_distrib, Finset.sum_mul]
    congr 1
    refine Finset.sum_congr rfl fun i _ => Finset.sum_congr rfl fun j _ => by ring

/-- C35: hydrostatic pressure drives no slip, and reversing the slip normal reverses the resolved
shear stress. -/
theorem C35_pressure {d : ℕ} (s : System d) (p : ℝ)
    (h : ∑ i, s.direction i * s.normal i = 0) :
    resolvedShear s (p • (1 : Mat d)) = 0 := by
  rw [C35_traction _ _ (by simp)]
  have : ∀ i, ∑ j, (p • (1 : Mat d)) i j * s.normal j = p * s.normal i := fun i => by
    simp [Matrix.one_apply]
  simp only [this]
  calc _ = p * ∑ i, s.direction i * s.normal i := by
        rw [Finset.mul_sum]; exact Finset.sum_congr rfl fun i _ => by ring
    _ = 0 := by rw [h, mul_zero]

/-- Non-vacuity: pure shear is fully resolved on the aligned system. -/
example : resolvedShear (⟨![1, 0], ![0, 1], 0⟩ : System 2) !![0, 5; 5, 0] = 5 := by
  rw [C35_traction _ _ (by ext i j; fin_cases i <;> fin_cases j <;> rfl)]
  simp [Fin.sum_univ_two]

end Verif.Cry
