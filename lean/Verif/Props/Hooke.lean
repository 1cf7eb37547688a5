import Verif.Props.Crystal
import Mathlib.Tactic.Tauto

/-!
# Properties of Hooke's law: C31, C32
-/

namespace Verif.Cry
open Matrix Finset

/-! ## Specification -/

/-- The cubic stiffness tensor in the crystal axes: `C1111` for four equal indices, `C1122` for
`iikk`, `C1212` for `ijij`, `ijji`, zero otherwise; divided by the characteristic stiffness. -/
noncomputable def SpecCubic (p : Elastic) {d : ℕ} (i j k l : Fin d) : ℝ :=
  if i = j ∧ j = k ∧ k = l then p.c1111 / p.char
  else if i = j ∧ k = l then p.c1122 / p.char
  else if (i = k ∧ j = l) ∨ (i = l ∧ j = k) then p.c1212 / p.char
  else 0

/-! ## The reference tetrad -/

theorem slot_swap1 {d : ℕ} (i j k l : Fin d) : slot j i k l = slot i j k l := by
  unfold slot; rw [min_comm, max_comm]

theorem slot_swap2 {d : ℕ} (i j k l : Fin d) : slot i j l k = slot i j k l := by
  unfold slot; rw [min_comm k, max_comm k]

theorem sorted_eq {d : ℕ} {i j i' j' : Fin d} (h1 : min i j = min i' j')
    (h2 : max i j = max i' j') : (i = i' ∧ j = j') ∨ (i = j' ∧ j = i') := by
  rcases le_total i j with h | h <;> rcases le_total i' j' with h' | h' <;>
    simp only [min_eq_left h, min_eq_right h, max_eq_left h, max_eq_right h, min_eq_left h',
      min_eq_right h', max_eq_left h', max_eq_right h'] at h1 h2 <;> tauto

theorem slot_eq {d : ℕ} {i j k l i' j' k' l' : Fin d} (h : slot i j k l = slot i' j' k' l') :
    ((i = i' ∧ j = j') ∨ (i = j' ∧ j = i')) ∧ ((k = k' ∧ l = l') ∨ (k = l' ∧ l = k')) := by
  unfold slot at h
  simp only [Prod.mk.injEq] at h
  exact ⟨sorted_eq h.1.1 h.1.2, sorted_eq h.2.1 h.2.2⟩

theorem specCubic_swap1 (p : Elastic) {d : ℕ} (i j k l : Fin d) :
    SpecCubic p j i k l = SpecCubic p i j k l := by
  unfold SpecCubic
  by_cases a : i = j <;> by_cases b : k = l <;> by_cases c : i = k <;> by_cases e : i = l <;>
    by_cases f : j = k <;> by_cases g : j = l <;> simp_all [eq_comm]

theorem specCubic_swap2 (p : Elastic) {d : ℕ} (i j k l : Fin d) :
    SpecCubic p i j l k = SpecCubic p i j k l := by
  unfold SpecCubic
  by_cases a : i = j <;> by_cases b : k = l <;> by_cases c : i = k <;> by_cases e : i = l <;>
    by_cases f : j = k <;> by_cases g : j = l <;> simp_all [eq_comm]

theorem specCubic_major (p : Elastic) {d : ℕ} (i j k l : Fin d) :
    SpecCubic p k l i j = SpecCubic p i j k l := by
  unfold SpecCubic
  by_cases a : i = j <;> by_cases b : k = l <;> by_cases c : i = k <;> by_cases e : i = l <;>
    by_cases f : j = k <;> by_cases g : j = l <;> simp_all [eq_comm]

theorem specCubic_slot (p : Elastic) {d : ℕ} {i j k l i' j' k' l' : Fin d}
    (h : slot i j k l = slot i' j' k' l') : SpecCubic p i j k l = SpecCubic p i' j' k' l' := by
  obtain ⟨h1, h2⟩ := slot_eq h
  rcases h1 with ⟨rfl, rfl⟩ | ⟨rfl, rfl⟩ <;> rcases h2 with ⟨rfl, rfl⟩ | ⟨rfl, rfl⟩
  · rfl
  · exact specCubic_swap2 p _ _ _ _
  · exact specCubic_swap1 p _ _ _ _
  · rw [specCubic_swap1, specCubic_swap2]

/-- A write changes only its slot and writes the cubic value there. -/
theorem write_at (p : Elastic) {d : ℕ} (t : Store4 d) (x : Fin d × Fin d × Fin d × Fin d)
    (i j k l : Fin d) : at4 (p.write t x) i j k l = at4 t i j k l ∨
      at4 (p.write t x) i j k l = SpecCubic p i j k l := by
  obtain ⟨a, b, c, e⟩ := x
  by_cases hs : slot a b c e = slot i j k l
  · rw [← specCubic_slot p hs]
    unfold Elastic.write at4
    simp only
    split_ifs with h1 h2 h3
    · right; rw [hs, Function.update_self]; unfold SpecCubic; rw [if_pos h1]
    · right; rw [hs, Function.update_self]; unfold SpecCubic
      rw [if_neg h1, if_neg, if_pos (Or.inl h2)]
      rintro ⟨rfl, rfl⟩; exact h1 ⟨rfl, h2.1, rfl⟩
    · right; rw [hs, Function.update_self]; unfold SpecCubic; rw [if_neg h1, if_pos h3]
    · left; trivial
  · left
    unfold Elastic.write at4
    simp only
    split_ifs <;> first | rfl | rw [Function.update_of_ne (Ne.symm hs)]

/-- The write of the tuple itself establishes the cubic value, if it is not zero. -/
theorem write_self (p : Elastic) {d : ℕ} (t : Store4 d) (i j k l : Fin d)
    (h : (i = j ∧ j = k ∧ k = l) ∨ (i = k ∧ j = l) ∨ (i = j ∧ k = l)) :
    at4 (p.write t (i, j, k, l)) i j k l = SpecCubic p i j k l := by
  unfold Elastic.write at4
  simp only
  split_ifs with h1 h2 h3
  · rw [Function.update_self]; unfold SpecCubic; rw [if_pos h1]
  · rw [Function.update_self]; unfold SpecCubic
    rw [if_neg h1, if_neg, if_pos (Or.inl h2)]
    rintro ⟨rfl, rfl⟩; exact h1 ⟨rfl, h2.1, rfl⟩
  · rw [Function.update_self]; unfold SpecCubic; rw [if_neg h1, if_pos h3]
  · tauto

theorem foldl_keeps (p : Elastic) {d : ℕ} (i j k l : Fin d) :
    ∀ (xs : List (Fin d × Fin d × Fin d × Fin d)) (t : Store4 d),
      at4 t i j k l = SpecCubic p i j k l →
      at4 (xs.foldl p.write t) i j k l = SpecCubic p i j k l
  | [], _, h => h
  | x :: xs, t, h => foldl_keeps p i j k l xs _ (by
      rcases write_at p t x i j k l with h' | h'
      · rw [h', h]
      · exact h')

theorem foldl_reaches (p : Elastic) {d : ℕ} (i j k l : Fin d)
    (h : (i = j ∧ j = k ∧ k = l) ∨ (i = k ∧ j = l) ∨ (i = j ∧ k = l)) :
    ∀ (xs : List (Fin d × Fin d × Fin d × Fin d)) (t : Store4 d), (i, j, k, l) ∈ xs →
      at4 (xs.foldl p.write t) i j k l = SpecCubic p i j k l
  | [], _, hm => absurd hm (by simp)
  | x :: xs, t, hm => by
      rw [List.foldl_cons]
      rcases List.mem_cons.1 hm with h' | h'
      · subst h'
        exact foldl_keeps p i j k l xs _ (write_self p t i j k l h)
      · exact foldl_reaches p i j k l h xs _ h'

theorem mem_tuples {d : ℕ} (i j k l : Fin d) : (i, j, k, l) ∈ tuples d := by
  unfold tuples; simp

/-- The loops with aliased writes build exactly the cubic tensor. -/
theorem reference_eq (p : Elastic) {d : ℕ} (i j k l : Fin d) :
    at4 (p.reference d) i j k l = SpecCubic p i j k l := by
  unfold Elastic.reference
  by_cases h : (i = j ∧ j = k ∧ k = l) ∨ (i = k ∧ j = l) ∨ (i = j ∧ k = l)
  · exact foldl_reaches p i j k l h _ _ (mem_tuples i j k l)
  · by_cases h' : i = l ∧ j = k
    · obtain ⟨rfl, rfl⟩ := h'
      have := foldl_reaches p i j i j (by tauto) (tuples d) (fun _ => 0) (mem_tuples i j i j)
      rw [specCubic_swap2, ← this]
      unfold at4; rw [slot_swap2]
    · apply foldl_keeps
      unfold SpecCubic at4
      rw [if_neg (by tauto), if_neg (by tauto), if_neg (by tauto)]

/-! ## The rotated tetrad -/

theorem sum_swap {d : ℕ} (f : Fin d → Fin d → ℝ) : ∑ i, ∑ j, f i j = ∑ j, ∑ i, f i j :=
  Finset.sum_comm

/-- The tetrad with unsorted indices. -/
theorem rotated_at {d : ℕ} (r : Mat d) (p : Elastic) (i j k l : Fin d) :
    at4 (rotatedStiffness r (p.reference d)) i j k l =
      ∑ o, ∑ q, ∑ s, ∑ t, r i o * r j q * r k s * r l t * SpecCubic p o q s t := by
  unfold at4 rotatedStiffness
  simp only [reference_eq]
  have h1 : ∀ i j k l : Fin d,
      (∑ o, ∑ q, ∑ s, ∑ t, r j o * r i q * r k s * r l t * SpecCubic p o q s t) =
      ∑ o, ∑ q, ∑ s, ∑ t, r i o * r j q * r k s * r l t * SpecCubic p o q s t := by
    intro i j k l
    rw [sum_swap]
    refine sum_congr rfl fun o _ => sum_congr rfl fun q _ => sum_congr rfl fun s _ =>
      sum_congr rfl fun t _ => ?_
    rw [specCubic_swap1 p o q]; ring
  have h2 : ∀ i j k l : Fin d,
      (∑ o, ∑ q, ∑ s, ∑ t, r i o * r j q * r l s * r k t * SpecCubic p o q s t) =
      ∑ o, ∑ q, ∑ s, ∑ t, r i o * r j q * r k s * r l t * SpecCubic p o q s t := by
    intro i j k l
    refine sum_congr rfl fun o _ => sum_congr rfl fun q _ => ?_
    rw [sum_swap]
    refine sum_congr rfl fun s _ => sum_congr rfl fun t _ => ?_
    rw [specCubic_swap2 p o q s t]; ring
  unfold slot
  simp only
  rcases le_total i j with h | h <;> rcases le_total k l with h' | h' <;>
    simp only [min_eq_left h, min_eq_right h, max_eq_left h, max_eq_right h, min_eq_left h',
      min_eq_right h', max_eq_left h', max_eq_right h', h1 i j, h2 _ _ k l]

theorem move2 {d : ℕ} (f : Fin d → Fin d → Fin d → ℝ) :
    ∑ k, ∑ l, ∑ o, f k l o = ∑ o, ∑ k, ∑ l, f k l o := by
  rw [sum_swap (fun o k => ∑ l, f k l o)]
  exact sum_congr rfl fun k _ => sum_swap _

/-- Stress of a rotated crystal = rotated stress of the reference crystal for the strain rotated
back. -/
theorem stress_eq {d : ℕ} (p : Elastic) (r e : Mat d) (i j : Fin d) :
    p.stress r e i j = ∑ o, ∑ q, r i o * r j q *
      ∑ s, ∑ t, SpecCubic p o q s t * (rᵀ * e * r) s t := by
  unfold Elastic.stress apply4
  simp only [Matrix.of_apply, rotated_at, Finset.sum_mul]
  rw [move2]
  refine sum_congr rfl fun o _ => ?_
  rw [move2]
  refine sum_congr rfl fun q _ => ?_
  rw [move2, Finset.mul_sum]
  refine sum_congr rfl fun s _ => ?_
  rw [move2, Finset.mul_sum]
  refine sum_congr rfl fun t _ => ?_
  simp only [Matrix.mul_apply, Matrix.transpose_apply, Finset.sum_mul, Finset.mul_sum]
  rw [sum_swap]
  refine sum_congr rfl fun k _ => sum_congr rfl fun l _ => by ring

/-- The reference law, contracted with a symmetric strain, explicitly. -/
theorem cubic_apply {d : ℕ} (p : Elastic) (e : Mat d) (he : eᵀ = e) (o q : Fin d) :
    ∑ s, ∑ t, SpecCubic p o q s t * e s t =
      (if o = q then p.c1122 / p.char * e.trace + (p.c1111 - p.c1122) / p.char * e o o
       else 2 * (p.c1212 / p.char) * e o q) := by
  have hsym : ∀ a b, e a b = e b a := fun a b => congrFun (congrFun he b) a
  by_cases hoq : o = q
  · subst hoq
    rw [if_pos rfl]
    have h1 : ∀ s t, SpecCubic p o o s t * e s t =
        (if s = t then (p.c1122 / p.char) * e s s else 0) +
        (if s = t then (if o = s then (p.c1111 - p.c1122) / p.char * e o o else 0) else 0) := by
      intro s t
      unfold SpecCubic
      by_cases h1 : s = t
      · subst h1
        by_cases h2 : o = s
        · subst h2; simp; ring
        · simp [h2]
      · simp [h1]
        intro h2
        exact absurd (h2.elim (fun h => h.1.symm.trans h.2) fun h => h.2.symm.trans h.1) h1
    simp only [h1, sum_add_distrib, Finset.sum_ite_eq, Finset.mem_univ, if_true]
    rw [← Finset.mul_sum]
    rfl
  · rw [if_neg hoq]
    have h1 : ∀ s t, SpecCubic p o q s t * e s t =
        (if o = s then (if q = t then p.c1212 / p.char * e o q else 0) else 0) +
        (if q = s then (if o = t then p.c1212 / p.char * e o q else 0) else 0) := by
      intro s t
      unfold SpecCubic
      rw [if_neg (fun h => hoq h.1), if_neg (fun h => hoq h.1)]
      by_cases h1 : o = s
      · subst h1
        have : ¬ (q = o) := fun h => hoq h.symm
        by_cases h2 : q = t
        · subst h2; simp [this]
        · simp [h2, this]
      · by_cases h3 : q = s
        · subst h3
          by_cases h2 : o = t
          · subst h2; simp [h1, hsym q o]
          · simp [h1, h2]
        · simp [h1, h3]
    have h2 : ∀ (a b : Fin d) (x : ℝ),
        ∑ s, ∑ t, (if a = s then (if b = t then x else 0) else 0) = x := by
      intro a b x
      rw [Finset.sum_eq_single a]
      · simp
      · intro s _ hs; simp [Ne.symm hs]
      · simp
    simp only [h1, sum_add_distrib, h2]
    ring

/-! ## C31 -/

/-- C31: the stiffness of the unrotated crystal is the cubic tensor, in spite of the aliased
writes of the symmetric storage. -/
theorem C31_reference (p : Elastic) {d : ℕ} (i j k l : Fin d) :
    at4 (p.reference d) i j k l = SpecCubic p i j k l := reference_eq p i j k l

/-- C31: minor and major symmetries of the stiffness of every crystal, for any rotation matrix. -/
theorem C31_symmetries (p : Elastic) {d : ℕ} (r : Mat d) (i j k l : Fin d) :
    let c := at4 (rotatedStiffness r (p.reference d))
    c j i k l = c i j k l ∧ c i j l k = c i j k l ∧ c k l i j = c i j k l := by
  intro c
  refine ⟨?_, ?_, ?_⟩
  · change at4 _ _ _ _ _ = at4 _ _ _ _ _; unfold at4; rw [slot_swap1]
  · change at4 _ _ _ _ _ = at4 _ _ _ _ _; unfold at4; rw [slot_swap2]
  · change at4 _ _ _ _ _ = at4 _ _ _ _ _
    rw [rotated_at, rotated_at, move2]
    refine sum_congr rfl fun o _ => ?_
    rw [move2]
    refine sum_congr rfl fun q _ => sum_congr rfl fun s _ => sum_congr rfl fun t _ => ?_
    rw [specCubic_major p o q s t]; ring

/-- C31: frame indifference. Rotating crystal and strain rotates the stress. -/
theorem C31_frame_indifferent (p : Elastic) {d : ℕ} (r e : Mat d) (hr : SpecOrthogonal r) :
    p.stress r (r * e * rᵀ) = r * p.stress 1 e * rᵀ := by
  have h0 : rᵀ * (r * e * rᵀ) * r = e := by
    have : rᵀ * (r * e * rᵀ) * r = (rᵀ * r) * e * (rᵀ * r) := by
      simp only [Matrix.mul_assoc]
    rw [this, hr]; simp
  have h1 : ∀ o q, p.stress 1 e o q = ∑ s, ∑ t, SpecCubic p o q s t * e s t := by
    intro o q
    rw [stress_eq]
    simp only [Matrix.transpose_one, Matrix.one_mul, Matrix.mul_one, Matrix.one_apply]
    simp [ite_mul]
  ext i j
  rw [stress_eq, h0]
  simp only [Matrix.mul_apply, Matrix.transpose_apply, Finset.sum_mul, h1]
  rw [sum_swap]
  refine sum_congr rfl fun o _ => sum_congr rfl fun q _ => by ring

/-- C31: for isotropic constants (`C1111 − C1122 = 2 C1212`) the stress is
`λ tr(ε) 1 + 2 μ ε` whatever the orientation of the crystal. -/
theorem C31_isotropic (p : Elastic) {d : ℕ} (hiso : p.c1111 - p.c1122 = 2 * p.c1212)
    (r e : Mat d) (hr : SpecOrthogonal r) (he : eᵀ = e) :
    p.stress r e = (p.c1122 / p.char * e.trace) • (1 : Mat d) + (2 * (p.c1212 / p.char)) • e := by
  have hr' : r * rᵀ = 1 := mul_eq_one_comm.1 hr
  set m := rᵀ * e * r with hm
  have hms : mᵀ = m := by
    rw [hm]; simp only [Matrix.transpose_mul, Matrix.transpose_transpose, he, Matrix.mul_assoc]
  have htr : m.trace = e.trace := by
    rw [hm, Matrix.trace_mul_comm, ← Matrix.mul_assoc, hr', Matrix.one_mul]
  have key : ∀ o q, ∑ s, ∑ t, SpecCubic p o q s t * m s t =
      ((p.c1122 / p.char * e.trace) • (1 : Mat d) + (2 * (p.c1212 / p.char)) • m) o q := by
    intro o q
    rw [cubic_apply p m hms, htr]
    simp only [Matrix.add_apply, Matrix.smul_apply, Matrix.one_apply, smul_eq_mul]
    by_cases h : o = q
    · subst h
      simp only [if_true]
      rw [hiso]; ring
    · simp [h]
  have hback : r * ((p.c1122 / p.char * e.trace) • (1 : Mat d) +
      (2 * (p.c1212 / p.char)) • m) * rᵀ =
      (p.c1122 / p.char * e.trace) • (1 : Mat d) + (2 * (p.c1212 / p.char)) • e := by
    have : r * m * rᵀ = e := by
      have : r * m * rᵀ = (r * rᵀ) * e * (r * rᵀ) := by rw [hm]; simp only [Matrix.mul_assoc]
      rw [this, hr']; simp
    rw [Matrix.mul_add, Matrix.add_mul, Matrix.mul_smul, Matrix.smul_mul, Matrix.mul_smul,
      Matrix.smul_mul, this, Matrix.mul_one, hr']
  ext i j
  rw [stress_eq]
  simp only [← hm, key]
  rw [← hback]
  simp only [Matrix.mul_apply, Matrix.transpose_apply, Finset.sum_mul]
  rw [sum_swap]
  refine sum_congr rfl fun o _ => sum_congr rfl fun q _ => by ring

/-- C31: the stress of a symmetric strain is symmetric, so the resolved shear stresses see the
physical traction. -/
theorem C31_stress_symmetric (p : Elastic) {d : ℕ} (r e : Mat d) :
    (p.stress r e)ᵀ = p.stress r e := by
  ext i j
  simp only [Matrix.transpose_apply, Elastic.stress, apply4, Matrix.of_apply]
  refine sum_congr rfl fun k _ => sum_congr rfl fun l _ => ?_
  unfold at4; rw [slot_swap1]

/-- C31: in a plane problem the three-dimensional stiffness used for post-processing restricts to
the two-dimensional one: for a plane strain both give the same in-plane stress. -/
theorem C31_plane (p : Elastic) (angle : ℝ) (i j k l : Fin 2) :
    at4 (rotatedStiffness (rotation2in3 angle) (p.reference 3)) i.castSucc j.castSucc
      k.castSucc l.castSucc =
    at4 (rotatedStiffness (rotation2 angle) (p.reference 2)) i j k l := by
  have hR : ∀ i j : Fin 2, rotation2in3 angle i.castSucc j.castSucc = rotation2 angle i j :=
    (C34_rotations angle 0).2.2.2.2.2
  have h0 : ∀ i : Fin 2, rotation2in3 angle i.castSucc (Fin.last 2) = 0 := by
    intro i
    rw [rotation2in3_eq]
    fin_cases i <;> simp [rotZ, Fin.last]
  have hC : ∀ o q s t : Fin 2, SpecCubic p o.castSucc q.castSucc s.castSucc t.castSucc =
      SpecCubic p o q s t := by
    intro o q s t
    unfold SpecCubic
    simp only [Fin.castSucc_inj]
  rw [rotated_at, rotated_at]
  simp only [Fin.sum_univ_castSucc (n := 2), h0, hR, hC, zero_mul, mul_zero, add_zero,
    Finset.sum_const_zero]

/-- Non-vacuity: an anisotropic crystal, rotated by 45 degrees, has a different stiffness. -/
example : ∃ (p : Elastic) (r : Mat 2), p.accepted ∧ SpecOrthogonal r ∧
    p.stress r !![1, 0; 0, 0] 0 0 ≠ p.stress 1 !![1, 0; 0, 0] 0 0 := by
  refine ⟨⟨3, 1, 2, 1⟩, !![3/5, -4/5; 4/5, 3/5], ⟨by norm_num, by norm_num, by norm_num⟩, ?_, ?_⟩
  · unfold SpecOrthogonal
    ext i j
    fin_cases i <;> fin_cases j <;> norm_num [Matrix.mul_apply, Fin.sum_univ_two]
  · rw [stress_eq, stress_eq]
    norm_num [Fin.sum_univ_two, Matrix.mul_apply, SpecCubic]

/-! ## C32 -/

/-- Twice the elastic energy density of a strain. -/
noncomputable def SpecEnergy2 {d : ℕ} (p : Elastic) (r e : Mat d) : ℝ :=
  ∑ i, ∑ j, e i j * p.stress r e i j

theorem energy_reference {d : ℕ} (p : Elastic) (m : Mat d) (hm : mᵀ = m) :
    ∑ o, ∑ q, m o q * ∑ s, ∑ t, SpecCubic p o q s t * m s t =
      p.c1122 / p.char * m.trace ^ 2 + (p.c1111 - p.c1122) / p.char * ∑ o, m o o ^ 2 +
      2 * (p.c1212 / p.char) * ∑ o, ∑ q, if o = q then 0 else m o q ^ 2 := by
  simp only [cubic_apply p m hm]
  have h1 : ∀ o q, m o q * (if o = q then p.c1122 / p.char * m.trace +
        (p.c1111 - p.c1122) / p.char * m o o else 2 * (p.c1212 / p.char) * m o q) =
      (if o = q then p.c1122 / p.char * m.trace * m o o + (p.c1111 - p.c1122) / p.char * m o o ^ 2
        else 0) + 2 * (p.c1212 / p.char) * (if o = q then 0 else m o q ^ 2) := by
    intro o q
    by_cases h : o = q
    · subst h; simp; ring
    · simp [h]; ring
  simp only [h1, sum_add_distrib, Finset.sum_ite_eq, Finset.mem_univ, if_true, ← Finset.mul_sum]
  have : ∑ o, m o o = m.trace := rfl
  rw [this]; ring

theorem energy_eq {d : ℕ} (p : Elastic) (r e : Mat d) :
    SpecEnergy2 p r e = ∑ o, ∑ q, (rᵀ * e * r) o q *
      ∑ s, ∑ t, SpecCubic p o q s t * (rᵀ * e * r) s t := by
  unfold SpecEnergy2
  simp only [stress_eq, Finset.mul_sum (s := (univ : Finset (Fin d)))
    (f := fun o => ∑ q, r _ o * r _ q * _)]
  rw [move2]
  refine sum_congr rfl fun o _ => ?_
  simp only [Finset.mul_sum (s := (univ : Finset (Fin d))) (f := fun q => r _ o * r _ q * _)]
  rw [move2]
  refine sum_congr rfl fun q _ => ?_
  generalize (∑ s, ∑ t, SpecCubic p o q s t * (rᵀ * e * r) s t) = x
  simp only [Matrix.mul_apply, Matrix.transpose_apply, Finset.sum_mul]
  rw [sum_swap]
  refine sum_congr rfl fun k _ => sum_congr rfl fun l _ => by ring

/-- C32 (the accepted constants with `C1122 < C1111`): the elastic energy of every non-zero
symmetric strain is positive, for every orientation. -/
theorem C32_positive_partial {d : ℕ} (p : Elastic) (hp : p.accepted) (hc : 0 < p.char)
    (hst : p.c1122 < p.c1111) (r e : Mat d) (hr : SpecOrthogonal r) (he : eᵀ = e) (h0 : e ≠ 0) :
    0 < SpecEnergy2 p r e := by
  have hr' : r * rᵀ = 1 := mul_eq_one_comm.1 hr
  rw [energy_eq]
  set m := rᵀ * e * r with hm
  have hms : mᵀ = m := by
    rw [hm]; simp only [Matrix.transpose_mul, Matrix.transpose_transpose, he, Matrix.mul_assoc]
  have hm0 : m ≠ 0 := by
    intro h
    apply h0
    have : r * m * rᵀ = e := by
      have : r * m * rᵀ = (r * rᵀ) * e * (r * rᵀ) := by rw [hm]; simp only [Matrix.mul_assoc]
      rw [this, hr']; simp
    rw [← this, h]; simp
  rw [energy_reference p m hms]
  obtain ⟨ha, hb, hg⟩ := hp
  have t1 : 0 ≤ p.c1122 / p.char * m.trace ^ 2 := by positivity
  have a2 : 0 < (p.c1111 - p.c1122) / p.char := div_pos (by linarith) hc
  have a3 : 0 < p.c1212 / p.char := div_pos hg hc
  have s2 : 0 ≤ ∑ o, m o o ^ 2 := sum_nonneg fun o _ => sq_nonneg _
  have s3 : 0 ≤ ∑ o, ∑ q, (if o = q then 0 else m o q ^ 2) :=
    sum_nonneg fun o _ => sum_nonneg fun q _ => by split_ifs <;> positivity
  have : ∃ o q, m o q ≠ 0 := by
    by_contra hcon
    push Not at hcon
    exact hm0 (by ext o q; simpa using hcon o q)
  obtain ⟨o, q, hoq⟩ := this
  by_cases h : o = q
  · subst h
    have : 0 < ∑ o, m o o ^ 2 :=
      lt_of_lt_of_le (by positivity : 0 < m o o ^ 2)
        (single_le_sum (f := fun o => m o o ^ 2) (fun _ _ => sq_nonneg _) (mem_univ o))
    have := mul_pos a2 this
    have := mul_nonneg a3.le s3
    linarith
  · have h1 : 0 < ∑ o, ∑ q, (if o = q then 0 else m o q ^ 2) := by
      refine lt_of_lt_of_le (by positivity : 0 < m o q ^ 2) ?_
      have i1 := single_le_sum (f := fun o => ∑ q, (if o = q then 0 else m o q ^ 2))
        (fun o _ => sum_nonneg fun q _ => by split_ifs <;> positivity) (mem_univ o)
      have i2 := single_le_sum (f := fun q => (if o = q then 0 else m o q ^ 2))
        (fun q _ => by split_ifs <;> positivity) (mem_univ q)
      simp only [h, if_false] at i2
      linarith
    have := mul_pos a3 h1
    have := mul_nonneg a2.le s2
    linarith

/-- C32 violated: the parameter file check accepts constants for which a crystal releases energy
when strained, in every orientation and in two and three dimensions. -/
theorem C32_violated : ∃ p : Elastic, p.accepted ∧ p.char = 1 ∧
    (∀ r : Mat 2, SpecOrthogonal r → ∃ e : Mat 2, eᵀ = e ∧ SpecEnergy2 p r e < 0) := by
  refine ⟨⟨1, 2, 1, 1⟩, ⟨by norm_num, by norm_num, by norm_num⟩, rfl, fun r hr => ?_⟩
  refine ⟨r * !![1, 0; 0, -1] * rᵀ, ?_, ?_⟩
  · have : (!![1, 0; 0, -1] : Mat 2)ᵀ = !![1, 0; 0, -1] := by
      ext i j; fin_cases i <;> fin_cases j <;> simp
    simp only [Matrix.transpose_mul, Matrix.transpose_transpose, this, Matrix.mul_assoc]
  · have h0 : rᵀ * (r * !![1, 0; 0, -1] * rᵀ) * r = !![1, 0; 0, -1] := by
      have : rᵀ * (r * !![1, 0; 0, -1] * rᵀ) * r = (rᵀ * r) * !![1, 0; 0, -1] * (rᵀ * r) := by
        simp only [Matrix.mul_assoc]
      rw [this, hr]; simp
    rw [energy_eq, h0]
    norm_num [Fin.sum_univ_two, SpecCubic]

/-- C32: for accepted constants `C1122 < C1111` is also necessary (dimension at least two): the
check missing in the parameter file is exactly this one. -/
theorem C32_necessary (p : Elastic) (hc : 0 < p.char) (hn : p.c1111 ≤ p.c1122) :
    ∃ e : Mat 2, eᵀ = e ∧ e ≠ 0 ∧ SpecEnergy2 p 1 e ≤ 0 := by
  refine ⟨!![1, 0; 0, -1], ?_, ?_, ?_⟩
  · ext i j; fin_cases i <;> fin_cases j <;> simp
  · intro h; simpa using congrFun (congrFun h 0) 0
  · have e1 : (!![1, 0; 0, -1] : Mat 2)ᵀ = !![1, 0; 0, -1] := by
      ext i j; fin_cases i <;> fin_cases j <;> simp
    rw [energy_eq]
    simp only [Matrix.transpose_one, Matrix.one_mul, Matrix.mul_one]
    rw [energy_reference p _ e1]
    simp [Fin.sum_univ_two, Matrix.trace]
    have : (p.c1111 - p.c1122) / p.char ≤ 0 := div_nonpos_of_nonpos_of_nonneg (by linarith) hc.le
    linarith

/-- Non-vacuity: the default constants of the parameter file. -/
example : (⟨134615, 576923/10, 384615/10, 1⟩ : Elastic).accepted ∧
    (⟨134615, 576923/10, 384615/10, 1⟩ : Elastic).c1122 <
    (⟨134615, 576923/10, 384615/10, 1⟩ : Elastic).c1111 := by
  refine ⟨⟨?_, ?_, ?_⟩, ?_⟩ <;> norm_num

end Verif.Cry
