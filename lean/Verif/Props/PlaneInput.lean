import Verif.Props.Plane
import Verif.Props.Post

/-!
# Plane strain: C106, input and output

What the two- and the three-dimensional program make of the same input, and what they write for the same state.
-/

namespace Verif.Asm
open Matrix Finset Verif.Cry

/-! ## Input -/

/-- Slip systems read by the two programs: both rejected, both not a number, or the same system. -/
def SpecReadAlike : Read 2 → Read 3 → Prop
  | .rejected, .rejected => True
  | .nan, .nan => True
  | .ok s, .ok s3 => SpecLifted s s3
  | _, _ => False

theorem normalize_lift (v : Vec 2) : Cry.normalize (lift v) = (Cry.normalize v).map lift := by
  unfold Cry.normalize
  rw [norm2_lift]
  split_ifs
  · rfl
  · rw [Option.map_some]
    congr 1
    funext i
    fin_cases i <;> simp [lift]

theorem cross_lift (v w : Vec 2) : cross (lift v) (lift w) = (v 0 * w 1 - v 1 * w 0) • axis := by
  funext i
  fin_cases i <;> simp [cross, lift, axis]

theorem norm2_axis (t : ℝ) : norm2 (t • axis) = |t| := by
  unfold norm2
  rw [← Real.sqrt_mul_self_eq_abs]
  congr 1
  simp [axis, dotProduct, Fin.sum_univ_three]

theorem norm2_zero_iff {d : ℕ} (v : Vec d) : norm2 v = 0 ↔ v = 0 := by
  unfold norm2
  have h : 0 ≤ v ⬝ᵥ v := Finset.sum_nonneg fun i _ => mul_self_nonneg (v i)
  rw [Real.sqrt_eq_zero h, dotProduct, Finset.sum_eq_zero_iff_of_nonneg fun i _ => mul_self_nonneg (v i)]
  simp only [mem_univ, mul_self_eq_zero, forall_const, funext_iff, Pi.zero_apply]

theorem liftR_lift (r : Mat 2) (v : Vec 2) : liftR r *ᵥ lift v = lift (r *ᵥ v) := by
  funext i; fin_cases i <;> simp [liftR, lift, Matrix.mulVec, dotProduct, Fin.sum_univ_three, Fin.sum_univ_two]

theorem liftR_axis (r : Mat 2) : liftR r *ᵥ axis = axis := by
  funext i; fin_cases i <;> simp [liftR, axis, Matrix.mulVec, dotProduct, Fin.sum_univ_three]

/-- C106, orientations: the angle of the two-dimensional input file, given as first of the three Euler angles of the
three-dimensional one with the others zero, is the same rotation, also in the three-dimensional stiffness used for the
output of two-dimensional computations. -/
theorem C106_orientation (angle : ℝ) :
    rotation3 ![angle, 0, 0] = liftR (rotation2 angle) ∧ rotation2in3 angle = liftR (rotation2 angle) := by
  have hx : rotX 0 = 1 := by
    ext i j; fin_cases i <;> fin_cases j <;> simp [rotX]
  have hy : rotY 0 = 1 := by
    ext i j; fin_cases i <;> fin_cases j <;> simp [rotY]
  have hz : rotZ 0 = 1 := by
    ext i j; fin_cases i <;> fin_cases j <;> simp [rotZ]
  have hl : rotZ (angle * degToRad) = liftR (rotation2 angle) := by
    ext i j; fin_cases i <;> fin_cases j <;> simp [rotZ, liftR, rotation2]
  refine ⟨?_, ?_⟩
  · unfold rotation3
    simp only [Matrix.cons_val, zero_mul, hx, hz, hl, Matrix.mul_one]
  · unfold rotation2in3
    rw [hx, hy, hl, Matrix.mul_one, Matrix.mul_one]

/-- C106, slip systems: the same direction and normal, with third components zero, are rejected by both programs, not a
number in both, or the same slip system in both, unless they are parallel to each other. -/
theorem C106_slip_system (direction normal : Vec 2)
    (hp : normal 0 * direction 1 = normal 1 * direction 0 → direction = 0 ∨ normal = 0) :
    SpecReadAlike (readSystem2 direction normal) (readSystem3 (lift direction) (lift normal)) := by
  unfold readSystem2 readSystem3
  have ho : orthogonalityCheck (lift normal) (lift direction) ↔ orthogonalityCheck normal direction := by
    unfold orthogonalityCheck
    rw [lift_dot]
  by_cases hc : orthogonalityCheck normal direction
  · rw [if_pos hc, if_pos (ho.2 hc), normalize_lift, normalize_lift, cross_lift]
    by_cases hn : norm2 normal = 0
    · have : Cry.normalize normal = none := by unfold Cry.normalize; rw [if_pos hn]
      rw [this]
      trivial
    · by_cases hd : norm2 direction = 0
      · have : Cry.normalize direction = none := by unfold Cry.normalize; rw [if_pos hd]
        rw [this]
        cases Cry.normalize normal <;> trivial
      · have ht : normal 0 * direction 1 - normal 1 * direction 0 ≠ 0 := by
          intro h0
          rcases hp (sub_eq_zero.1 h0) with h | h
          · exact hd ((norm2_zero_iff _).2 h)
          · exact hn ((norm2_zero_iff _).2 h)
        have e1 : ∀ {d : ℕ} (v : Vec d), norm2 v ≠ 0 → Cry.normalize v = some fun i => v i / norm2 v := by
          intro d v h; unfold Cry.normalize; rw [if_neg h]
        rw [e1 _ hn, e1 _ hd, e1 ((normal 0 * direction 1 - normal 1 * direction 0) • axis) (by
          rw [norm2_axis]; exact abs_ne_zero.2 ht)]
        refine ⟨rfl, rfl, rfl, (normal 0 * direction 1 - normal 1 * direction 0) /
          |normal 0 * direction 1 - normal 1 * direction 0|, ?_⟩
        rw [norm2_axis]
        funext i
        simp only [Pi.smul_apply, smul_eq_mul]
        ring
  · rw [if_neg hc, if_neg (fun h => hc (ho.1 h))]
    trivial

/-- C106, crystals: slip systems turned into a grain by the two programs stay the same. -/
theorem C106_turned {s : System 2} {s3 : System 3} (h : SpecLifted s s3) (r : Mat 2) :
    SpecLifted (rotateSystem r s) (rotateSystem (liftR r) s3) := by
  obtain ⟨t, ht⟩ := h.third
  refine ⟨?_, ?_, ?_, t, ?_⟩
  · show r *ᵥ s.third = 0
    rw [h.flat, Matrix.mulVec_zero]
  · show liftR r *ᵥ s3.direction = lift (r *ᵥ s.direction)
    rw [h.direction, liftR_lift]
  · show liftR r *ᵥ s3.normal = lift (r *ᵥ s.normal)
    rw [h.normal, liftR_lift]
  · show liftR r *ᵥ s3.third = t • axis
    rw [ht, Matrix.mulVec_smul, liftR_axis]

/-- Not vacuous: an inclined slip system is read by both. -/
example : ∃ s s3, readSystem2 ![3, 4] ![-4, 3] = .ok s ∧ readSystem3 ![3, 4, 0] ![-4, 3, 0] = .ok s3 ∧ SpecLifted s s3 := by
  have h := C106_slip_system ![3, 4] ![-4, 3] (by norm_num)
  have h2 : ∃ s, readSystem2 ![3, 4] ![-4, 3] = .ok s := by
    have hn : norm2 (![-4, 3] : Vec 2) ≠ 0 := by rw [Ne, norm2_zero_iff]; intro h; have := congrFun h 0; norm_num at this
    have hd : norm2 (![3, 4] : Vec 2) ≠ 0 := by rw [Ne, norm2_zero_iff]; intro h; have := congrFun h 0; norm_num at this
    unfold readSystem2 Cry.normalize
    rw [if_pos (by unfold orthogonalityCheck dblEpsilon; norm_num [dotProduct]), if_neg hn, if_neg hd]
    exact ⟨_, rfl⟩
  obtain ⟨s, hs⟩ := h2
  have l1 : lift ![3, 4] = ![3, 4, 0] := by simp [lift]
  have l2 : lift ![-4, 3] = ![-4, 3, 0] := by simp [lift]
  rw [l1, l2, hs] at h
  cases h3 : readSystem3 ![3, 4, 0] ![-4, 3, 0] with
  | ok s3 => rw [h3] at h; exact ⟨s, s3, hs, rfl, h⟩
  | nan => rw [h3] at h; exact h.elim
  | rejected => rw [h3] at h; exact h.elim

/-! ## Output -/

open Verif.Post

/-- The same settings, crystals and macroscopic strain. -/
structure SpecOutputAlike {nC nS : ℕ} (o : Output 2 nC nS) (o3 : Output 3 nC nS) : Prop where
  given : o3.given = o.given
  dimensionless : o3.dimensionless = o.dimensionless
  dn0 : o3.dn0 = o.dn0
  light : o3.light = o.light
  fluctuations : o3.fluctuations = o.fluctuations
  decohesion : o3.decohesion = o.decohesion
  sys : ∀ c a, SpecLifted (o.sys c a) (o3.sys c a) ∧ (o.sys c a).direction ⬝ᵥ (o.sys c a).normal = 0
  tetrad : o3.tetrad = o.tetrad
  macroStrain : o3.macroStrain = liftM o.macroStrain
  symmetric : o.macroStrain.IsSymm

/-- Number of displacement vectors among the components of the solution: one per crystal with decohesion. -/
def SpecVectors {d nC nS : ℕ} (o : Output d nC nS) : ℕ := if o.decohesion then nC else 1

/-- The same displacements and slips at the two evaluation points: displacement components come first, vector by
vector, then the slips crystal by crystal. -/
structure SpecInputsAlike {nC nS : ℕ} (o : Output 2 nC nS) (x : Inputs 2) (x3 : Inputs 3) : Prop where
  disp : ∀ c < SpecVectors o, ∀ i < 2, x3.value (i + 3 * c) = x.value (i + 2 * c) ∧
    x3.gradient (i + 3 * c) = lift (x.gradient (i + 2 * c))
  out : ∀ c < SpecVectors o, x3.value (2 + 3 * c) = 0 ∧ x3.gradient (2 + 3 * c) = 0
  slip : ∀ k < nC * nS, x3.value (3 * SpecVectors o + k) = x.value (2 * SpecVectors o + k) ∧
    x3.gradient (3 * SpecVectors o + k) = lift (x.gradient (2 * SpecVectors o + k))

variable {nC nS : ℕ} {o : Output 2 nC nS} {o3 : Output 3 nC nS} {x : Inputs 2} {x3 : Inputs 3}

theorem SpecOutputAlike.units (h : SpecOutputAlike o o3) : o3.units = o.units := by
  unfold Output.units
  rw [h.dimensionless, h.given]

theorem slips_alike (h : SpecOutputAlike o o3) (hx : SpecInputsAlike o x x3) (c : Fin nC) (a : Fin nS) :
    x3.value (o3.slipIndex c a) = x.value (o.slipIndex c a) ∧
    x3.gradient (o3.slipIndex c a) = lift (x.gradient (o.slipIndex c a)) := by
  have hk : (a : ℕ) + nS * c < nC * nS := by
    have h1 := a.isLt; have h2 := c.isLt
    have : nS * (c + 1) ≤ nS * nC := Nat.mul_le_mul_left _ h2
    rw [mul_comm nC nS]
    linarith [this, Nat.mul_succ nS c]
  have e3 : o3.slipIndex c a = 3 * SpecVectors o + (a + nS * c) := by
    unfold Output.slipIndex Output.offset SpecVectors
    rw [h.decohesion]; split_ifs <;> omega
  have e2 : o.slipIndex c a = 2 * SpecVectors o + (a + nS * c) := by
    unfold Output.slipIndex Output.offset SpecVectors
    split_ifs <;> omega
  rw [e3, e2]
  exact hx.slip _ hk

theorem slip_alike (h : SpecOutputAlike o o3) (hx : SpecInputsAlike o x x3) (a : Fin nS) : o3.slip x3 a = o.slip x a := by
  unfold Output.slip
  exact sum_congr rfl fun c _ => (slips_alike h hx c a).1

theorem plastic_alike (h : SpecOutputAlike o o3) (hx : SpecInputsAlike o x x3) : o3.plastic x3 = liftM (o.plastic x) := by
  unfold Output.plastic
  rw [liftM_sum]
  refine sum_congr rfl fun a _ => ?_
  rw [liftM_sum]
  refine sum_congr rfl fun c _ => ?_
  rw [(slips_alike h hx c a).1, (h.sys c a).1.symSchmid, liftM_smul]

theorem displacement_alike (h : SpecOutputAlike o o3) (hx : SpecInputsAlike o x x3) :
    (∀ i : Fin 2, o3.displacement x3 i.castSucc = o.displacement x i) ∧ o3.displacement x3 2 = 0 := by
  unfold Output.displacement
  rw [h.decohesion, h.units]
  have hv : ∀ c < SpecVectors o, ∀ i < 2, x3.value (i + 3 * c) = x.value (i + 2 * c) := fun c hc i hi => (hx.disp c hc i hi).1
  have ho := fun c hc => (hx.out c hc).1
  unfold SpecVectors at hv ho
  by_cases hd : o.decohesion = true
  · simp only [hd, if_true] at hv ho ⊢
    refine ⟨fun i => sum_congr rfl fun c _ => ?_, sum_eq_zero fun c _ => ?_⟩
    · have := hv c c.isLt i i.isLt
      rw [show ((i.castSucc : Fin 3) : ℕ) = i from rfl, this]
    · have := ho c c.isLt
      rw [show (((2 : Fin 3)) : ℕ) = 2 from rfl, this, mul_zero]
  · rw [if_neg hd] at hv ho
    simp only [if_neg hd]
    refine ⟨fun i => ?_, ?_⟩
    · have := hv 0 one_pos i i.isLt
      rw [show ((i.castSucc : Fin 3) : ℕ) = i from rfl]
      simp only [mul_zero, add_zero] at this
      rw [this]
    · have := ho 0 one_pos
      simp only [mul_zero, add_zero] at this
      rw [show (((2 : Fin 3)) : ℕ) = 2 from rfl, this, mul_zero]

theorem gradient_alike (h : SpecOutputAlike o o3) (hx : SpecInputsAlike o x x3) : o3.gradient x3 = liftM (o.gradient x) := by
  have hv : ∀ c < SpecVectors o, ∀ i < 2, x3.gradient (i + 3 * c) = lift (x.gradient (i + 2 * c)) :=
    fun c hc i hi => (hx.disp c hc i hi).2
  have ho := fun c hc => (hx.out c hc).2
  unfold SpecVectors at hv ho
  unfold Output.gradient
  rw [h.decohesion]
  by_cases hd : o.decohesion = true
  · simp only [hd, if_true] at hv ho ⊢
    have h0 := fun c : Fin nC => hv c c.isLt 0 (by norm_num)
    have h1 := fun c : Fin nC => hv c c.isLt 1 (by norm_num)
    have h2 := fun c : Fin nC => ho c c.isLt
    simp only [zero_add] at h0
    ext i j
    fin_cases i <;> fin_cases j <;> simp [liftM, h0, h1, h2, lift]
  · simp only [if_neg hd] at hv ho ⊢
    have h0 := hv 0 one_pos 0 (by norm_num)
    have h1 := hv 0 one_pos 1 (by norm_num)
    have h2 := ho 0 one_pos
    simp only [mul_zero, add_zero] at h0 h1 h2
    ext i j
    fin_cases i <;> fin_cases j <;> simp [liftM, h0, h1, h2, lift]

theorem strain_alike (h : SpecOutputAlike o o3) (hx : SpecInputsAlike o x x3) (b : Bool) :
    o3.strain x3 b = liftM (o.strain x b) := by
  unfold Output.strain
  rw [gradient_alike h hx, liftM_symmetrize, h.macroStrain]
  split_ifs
  · rw [liftM_add]
  · rfl

theorem elastic_alike (h : SpecOutputAlike o o3) (hx : SpecInputsAlike o x x3) (b : Bool) :
    o3.elastic x3 b = liftM (o.elastic x b) := by
  unfold Output.elastic
  rw [strain_alike h hx, plastic_alike h hx, h.dn0, liftM_sub, liftM_smul]

theorem symmetrize_isSymm {d : ℕ} (m : Mat d) : (symmetrize m).IsSymm := by
  ext i j
  simp [symmetrize, add_comm]

theorem plastic_symm (o : Output 2 nC nS) (x : Inputs 2) : (o.plastic x).IsSymm := by
  unfold Output.plastic Matrix.IsSymm
  simp only [Matrix.transpose_sum, Matrix.transpose_smul]
  refine sum_congr rfl fun a _ => sum_congr rfl fun c _ => ?_
  rw [System.symSchmid, (symmetrize_isSymm _).eq]

theorem strain_symm (h : o.macroStrain.IsSymm) (x : Inputs 2) (b : Bool) : (o.strain x b).IsSymm := by
  unfold Output.strain
  split_ifs
  · exact (symmetrize_isSymm _).add h
  · exact symmetrize_isSymm _

theorem elastic_symm (h : o.macroStrain.IsSymm) (x : Inputs 2) (b : Bool) : (o.elastic x b).IsSymm := by
  unfold Output.elastic
  exact (strain_symm h x b).sub ((plastic_symm o x).smul _)

theorem convert_symm {m : Mat 2} (h : m.IsSymm) : convert 2 m = liftM m := by
  have : m 1 0 = m 0 1 := h.apply 0 1
  ext i j; fin_cases i <;> fin_cases j <;> simp [convert, to3, liftM, this]

theorem trace_plastic (h : SpecOutputAlike o o3) (x : Inputs 2) : o.plastic x 0 0 + o.plastic x 1 1 = 0 := by
  have : ∀ (m : Mat 2), m 0 0 + m 1 1 = Matrix.trace m := fun m => by simp [Matrix.trace, Fin.sum_univ_two]
  rw [this]
  unfold Output.plastic
  simp only [Matrix.trace_sum, Matrix.trace_smul]
  refine sum_eq_zero fun a _ => sum_eq_zero fun c _ => ?_
  have hp := (h.sys c a).2
  have : Matrix.trace (o.sys c a).symSchmid = 0 := by
    simp only [dotProduct, Fin.sum_univ_two] at hp
    simp only [System.symSchmid, System.schmid, symmetrize, outer, Matrix.trace, Fin.sum_univ_two, Matrix.diag, Matrix.of_apply]
    linarith
  rw [this, smul_zero]

theorem mises_alike (h : SpecOutputAlike o o3) (hx : SpecInputsAlike o x x3) :
    vonMisesPlasticStrain (o3.plastic x3) = vonMisesPlasticStrain (o.plastic x) := by
  have ht := trace_plastic h x
  rw [plastic_alike h hx]
  unfold vonMisesPlasticStrain
  have e2 : dev (o.plastic x) = o.plastic x := by
    unfold dev
    have : ddot 1 (o.plastic x) = 0 := by simp [ddot, Fin.sum_univ_two, Matrix.one_apply, ht]
    rw [this, mul_zero, zero_smul, sub_zero]
  have e3 : dev (liftM (o.plastic x)) = liftM (o.plastic x) := by
    unfold dev
    have : ddot 1 (liftM (o.plastic x)) = 0 := by simp [ddot, Fin.sum_univ_three, Matrix.one_apply, liftM, ht]
    rw [this, mul_zero, zero_smul, sub_zero]
  rw [e2, e3, ddot_lift (o.plastic x) (o.plastic x) _ (by intro i j; fin_cases i <;> fin_cases j <;> simp [liftM])]

theorem density_alike (h : SpecOutputAlike o o3) (hx : SpecInputsAlike o x x3) :
    o3.density x3 System.direction = o.density x System.direction ∧ o3.density x3 System.third = o.density x System.third := by
  unfold Output.density
  rw [h.units]
  constructor
  · congr 2
    refine sum_congr rfl fun a _ => sum_congr rfl fun c _ => ?_
    rw [(slips_alike h hx c a).2, (h.sys c a).1.direction, lift_dot]
  · congr 2
    refine sum_congr rfl fun a _ => sum_congr rfl fun c _ => ?_
    obtain ⟨t, ht⟩ := (h.sys c a).1.third
    rw [(slips_alike h hx c a).2, ht, (h.sys c a).1.flat, dotProduct_smul, lift_axis]
    simp

theorem foldl_shift (l : List (ℕ × ℝ)) (hl : ∀ w ∈ l, 2 ≤ w.1) (v v3 : ℕ → ℝ) (hv : ∀ k, 2 ≤ k → v3 (k + 1) = v k) :
    (∀ k, 2 ≤ k → (l.map fun w => (w.1 + 1, w.2)).foldl (fun v w => Function.update v w.1 w.2) v3 (k + 1) =
      l.foldl (fun v w => Function.update v w.1 w.2) v k) ∧
    (∀ k < 3, (l.map fun w => (w.1 + 1, w.2)).foldl (fun v w => Function.update v w.1 w.2) v3 k = v3 k) ∧
    (∀ k < 2, l.foldl (fun v w => Function.update v w.1 w.2) v k = v k) := by
  induction l generalizing v v3 with
  | nil => exact ⟨hv, fun _ _ => rfl, fun _ _ => rfl⟩
  | cons w l ih =>
    have hw := hl w List.mem_cons_self
    obtain ⟨h1, h2, h3⟩ := ih (fun w h => hl w (List.mem_cons_of_mem _ h)) (Function.update v w.1 w.2)
      (Function.update v3 (w.1 + 1) w.2) (fun k hk => by
        by_cases e : k = w.1
        · subst e; simp
        · rw [Function.update_of_ne e, Function.update_of_ne (by omega), hv k hk])
    refine ⟨h1, fun k hk => ?_, fun k hk => ?_⟩
    · rw [List.map_cons, List.foldl_cons, h2 k hk, Function.update_of_ne (by omega)]
    · rw [List.foldl_cons, h3 k hk, Function.update_of_ne (by omega)]

/-- What is written after the displacements when they have `d` components. -/
noncomputable def writtenRest (o : Output 2 nC nS) (x : Inputs 2) (d : ℕ) : List (ℕ × ℝ) :=
  let b := d + nS
  let block (start : ℕ) (l : List ℝ) : List (ℕ × ℝ) := l.mapIdx fun i v => (b + start + i, v)
  ((List.finRange nS).map fun a : Fin nS => (d + (a : ℕ), o.slip x a)) ++
  (if o.light then [] else
    [(b, ∑ a : Fin nS, o.slip x a), (b + 1, ∑ a : Fin nS, ∑ c : Fin nC, |x.value (o.slipIndex c a)|),
      (b + 2, o.density x System.direction), (b + 3, o.density x System.third),
      (b + 4, o.units.stress * vonMisesStress (o.stress x)),
      (b + 5, vonMisesPlasticStrain (o.plastic x))] ++
    block 6 ((voigt (o.stress x)).map (o.units.stress * ·)) ++
    block 12 ((voigt2 (convert 2 (o.strain x true))).map (o.units.strain * ·)) ++
    block 18 ((voigt2 (convert 2 (o.elastic x true))).map (o.units.strain * ·)) ++
    block 24 (voigt2 (convert 2 (o.plastic x))) ++
    (if o.fluctuations then
      [(b + 30, o.units.stress * vonMisesStress (o.stressFluct x))] ++
      block 31 ((voigt (o.stressFluct x)).map (o.units.stress * ·)) ++
      block 37 ((voigt2 (convert 2 (o.strain x false))).map (o.units.strain * ·))
    else []))

theorem writtenRest_shift (o : Output 2 nC nS) (x : Inputs 2) (d : ℕ) :
    writtenRest o x (d + 1) = (writtenRest o x d).map fun w => (w.1 + 1, w.2) := by
  unfold writtenRest
  simp only [List.map_append]
  congr 1
  · rw [List.map_map]
    refine List.map_congr_left fun a _ => ?_
    simp only [Function.comp_apply, Prod.mk.injEq, and_true]
    omega
  · by_cases hl : o.light = true
    · simp [hl]
    · have e : ∀ k, d + 1 + nS + k = d + nS + k + 1 := fun k => by omega
      have e0 : d + 1 + nS = d + nS + 1 := by omega
      by_cases hf : o.fluctuations = true
      · simp [hl, hf, voigt, voigt2, List.mapIdx, List.mapIdx.go]
        omega
      · simp [hl, hf, voigt, voigt2, List.mapIdx, List.mapIdx.go]
        omega

theorem writtenRest_le (o : Output 2 nC nS) (x : Inputs 2) (d : ℕ) : ∀ w ∈ writtenRest o x d, d ≤ w.1 := by
  intro w hw
  unfold writtenRest at hw
  rcases List.mem_append.1 hw with hw | hw
  · obtain ⟨a, _, rfl⟩ := List.mem_map.1 hw
    simp
  · by_cases hl : o.light = true
    · simp [hl] at hw
    · by_cases hf : o.fluctuations = true
      · simp [hl, hf, voigt, voigt2, List.mapIdx, List.mapIdx.go] at hw
        rcases hw with h | h | h | h | h | h | h | h | h | h | h | h | h | h | h | h | h | h | h | h | h | h | h | h | h | h | h | h | h | h | h | h | h | h | h | h | h | h | h | h | h | h | h <;>
          (rw [h]; first | (simp; done) | (simp; omega))
      · simp [hl, hf, voigt, voigt2, List.mapIdx, List.mapIdx.go] at hw
        rcases hw with h | h | h | h | h | h | h | h | h | h | h | h | h | h | h | h | h | h | h | h | h | h | h | h | h | h | h | h | h | h <;>
          (rw [h]; first | (simp; done) | (simp; omega))

/-- C106, output files: for the same state the two programs write the same fields under the same names, displacements
with a third component that is zero. -/
theorem C106_output (h : SpecOutputAlike o o3) (hx : SpecInputsAlike o x x3) :
    (∀ k < 2, o3.result x3 k = o.result x k) ∧ o3.result x3 2 = 0 ∧ (∀ k, 2 ≤ k → o3.result x3 (k + 1) = o.result x k) ∧
    o3.names = "Displacement" :: o.names := by
  obtain ⟨hd, hd2⟩ := displacement_alike h hx
  have hs := slip_alike h hx
  have hst : o3.stress x3 = o.stress x := by
    unfold Output.stress
    rw [elastic_alike h hx, convert_symm (elastic_symm h.symmetric x true), h.tetrad]
    rfl
  have hsf : o3.stressFluct x3 = o.stressFluct x := by
    unfold Output.stressFluct
    rw [elastic_alike h hx, convert_symm (elastic_symm h.symmetric x false), h.tetrad, h.units]
    rfl
  have hc1 : ∀ b, convert 3 (o3.strain x3 b) = convert 2 (o.strain x b) := fun b => by
    rw [strain_alike h hx, convert_symm (strain_symm h.symmetric x b)]; rfl
  have hc2 : ∀ b, convert 3 (o3.elastic x3 b) = convert 2 (o.elastic x b) := fun b => by
    rw [elastic_alike h hx, convert_symm (elastic_symm h.symmetric x b)]; rfl
  have hc3 : convert 3 (o3.plastic x3) = convert 2 (o.plastic x) := by
    rw [plastic_alike h hx, convert_symm (plastic_symm o x)]; rfl
  have h0 : o3.displacement x3 0 = o.displacement x 0 := hd 0
  have h1 : o3.displacement x3 1 = o.displacement x 1 := hd 1
  have w2 : o.writes x = [(0, o.displacement x 0), (1, o.displacement x 1)] ++ writtenRest o x 2 := by
    unfold Output.writes
    rw [show List.finRange 2 = [0, 1] from rfl]
    simp only [List.append_assoc]
    rfl
  have w3 : o3.writes x3 = [(0, o.displacement x 0), (1, o.displacement x 1), (2, 0)] ++ writtenRest o x 3 := by
    unfold Output.writes
    rw [show List.finRange 3 = [0, 1, 2] from rfl]
    simp only [hst, hsf, hc1, hc2, hc3, hs, h.light, h.fluctuations, h.units, (density_alike h hx).1, (density_alike h hx).2,
      mises_alike h hx, (slips_alike h hx _ _).1, List.map_cons, List.map_nil, h0, h1, hd2, List.append_assoc]
    rfl
  unfold Output.result
  rw [w2, w3, writtenRest_shift o x 2, List.foldl_append, List.foldl_append]
  obtain ⟨g1, g2, g3⟩ := foldl_shift (writtenRest o x 2) (writtenRest_le o x 2)
    ([(0, o.displacement x 0), (1, o.displacement x 1)].foldl (fun v w => Function.update v w.1 w.2) (fun _ => (0 : ℝ)))
    ([(0, o.displacement x 0), (1, o.displacement x 1), (2, 0)].foldl (fun v w => Function.update v w.1 w.2) (fun _ => (0 : ℝ)))
    (fun k hk => by
      simp only [List.foldl_cons, List.foldl_nil]
      by_cases e : k = 2
      · subst e; simp [Function.update]
      · have : ∀ j < 3, k + 1 ≠ j := by omega
        have h' : ∀ j < 2, k ≠ j := by omega
        simp [Function.update, h' 0, h' 1])
  refine ⟨fun k hk => ?_, ?_, fun k hk => g1 k hk, ?_⟩
  · rw [g2 k (by omega), g3 k hk]
    interval_cases k <;> simp [Function.update]
  · rw [g2 2 (by omega)]
    simp [Function.update]
  · unfold Output.names
    rw [h.light, h.fluctuations]
    simp [List.replicate]

/-! ## Averages -/

/-- A quadrature point of the body above one of the plane, `w` being its weight over the thickness. -/
structure SpecPointAbove (x : Mat 2 × QPoint 2) (w : ℝ) (y : Mat 3 × QPoint 3) : Prop where
  rot : y.1 = liftR x.1
  jxw : y.2.jxw = x.2.jxw * w
  strain : y.2.strain = liftM x.2.strain
  slips : List.Forall₂ (fun a b => SpecLifted a.1 b.1 ∧ b.2 = a.2) x.2.slips y.2.slips

/-- The quadrature points of the body, in any order: for each of the plane one for each weight. -/
def SpecPointsAbove (pts : List (Mat 2 × QPoint 2)) (ws : List ℝ) (pts3 : List (Mat 3 × QPoint 3)) : Prop :=
  ∃ cols, List.Forall₂ (fun x col => List.Forall₂ (SpecPointAbove x) ws col) pts cols ∧ pts3.Perm cols.flatten

theorem elasticStrain_lift (dn : ℝ) {l : List (System 2 × ℝ)} {l3 : List (System 3 × ℝ)}
    (h : List.Forall₂ (fun a b => SpecLifted a.1 b.1 ∧ b.2 = a.2) l l3) (e : Mat 2) :
    elasticStrain dn l3 (liftM e) = liftM (elasticStrain dn l e) := by
  induction h generalizing e with
  | nil => rfl
  | @cons a b l l3 hab _ ih =>
    obtain ⟨s, γ⟩ := a
    obtain ⟨s3, γ3⟩ := b
    obtain ⟨hs, rfl⟩ := hab
    simp only [elasticStrain]
    rw [hs.symSchmid, ← liftM_smul, ← liftM_sub, ih]

theorem points_sum {pts : List (Mat 2 × QPoint 2)} {ws : List ℝ} {pts3 : List (Mat 3 × QPoint 3)}
    (h : SpecPointsAbove pts ws pts3) (f : Mat 2 × QPoint 2 → ℝ) (g : Mat 3 × QPoint 3 → ℝ)
    (hg : ∀ x w y, SpecPointAbove x w y → g y = f x) :
    (pts3.map fun y => y.2.jxw * g y).sum = ws.sum * (pts.map fun x => x.2.jxw * f x).sum := by
  obtain ⟨cols, h1, h2⟩ := h
  rw [(h2.map _).sum_eq]
  clear h2
  induction h1 with
  | nil => simp
  | @cons x col pts cols hx h2 ih =>
    rw [List.flatten_cons, List.map_append, List.sum_append, ih, List.map_cons, List.sum_cons, mul_add]
    congr 1
    clear ih h2
    induction hx with
    | nil => simp
    | @cons w y ws col hy _ ih =>
      rw [List.map_cons, List.sum_cons, ih, hg x w y hy, hy.jxw, List.sum_cons]
      ring

/-- C106, averages: the homogenisation of the body gives the in-plane macroscopic stresses and the strains of the plane,
and the volume times the thickness. -/
theorem C106_average (h : Homog 2) (h3 : Homog 3) (he : h3.elastic = h.elastic) (hd : h3.dn0 = h.dn0)
    (hm : h3.macroStrain = liftM h.macroStrain) (procs : List (List (Cell 2))) (procs3 : List (List (Cell 3))) (ws : List ℝ)
    (hp : SpecPointsAbove (points procs) ws (points procs3)) (hw : ws.sum ≠ 0) (a : Integrals 2)
    (ha : h.compute procs = some a) :
    ∃ a3, h3.compute procs3 = some a3 ∧ a3.volume = ws.sum * a.volume ∧ a3.strainFluct = liftM a.strainFluct ∧
      (∀ i j : Fin 2, a3.stress i.castSucc j.castSucc = a.stress i j) ∧
      (∀ i j : Fin 2, a3.stressFluct i.castSucc j.castSucc = a.stressFluct i j) ∧
      (∀ i : Fin 2, a3.stress i.castSucc 2 = 0 ∧ a3.stressFluct i.castSucc 2 = 0) := by
  have hv : ((points procs3).map fun y => y.2.jxw).sum = ws.sum * ((points procs).map fun x => x.2.jxw).sum := by
    have := points_sum hp (fun _ => 1) (fun _ => 1) fun _ _ _ _ => rfl
    simpa using this
  have hV : ((points procs).map fun x => x.2.jxw).sum ≠ 0 := by
    intro h0
    have e4 := total_proj Integrals.volume rfl (fun _ _ => rfl) h procs
    have e4' : ((points procs).map fun x => (h.term x.1 x.2).volume) = (points procs).map fun x => x.2.jxw := rfl
    rw [e4', h0] at e4
    unfold Homog.compute at ha
    simp only [e4, if_true] at ha
    cases ha
  have hV3 : ((points procs3).map fun y => y.2.jxw).sum ≠ 0 := by rw [hv]; exact mul_ne_zero hw hV
  rw [C56_average h procs hV] at ha
  cases ha
  have key : ∀ (F : Mat 2 × QPoint 2 → Mat 2) (G : Mat 3 × QPoint 3 → Mat 3) (i j : Fin 3) (f : Mat 2 × QPoint 2 → ℝ),
      (∀ x w y, SpecPointAbove x w y → G y i j = f x) →
      SpecAverage (points procs3) G i j =
        ((points procs).map fun x => x.2.jxw * f x).sum / ((points procs).map fun x => x.2.jxw).sum := by
    intro F G i j f hf
    rw [average_apply, points_sum hp f (fun y => G y i j) hf, hv, mul_div_mul_left _ _ hw]
  have hel : ∀ x w y, SpecPointAbove x w y →
      elasticStrain h3.dn0 y.2.slips y.2.strain = liftM (elasticStrain h.dn0 x.2.slips x.2.strain) := by
    intro x w y hy
    rw [hy.strain, hd, elasticStrain_lift _ hy.slips]
  have hs : ∀ x w y, SpecPointAbove x w y → ∀ e e3, e3 = liftM e →
      (∀ i j : Fin 2, h3.elastic.stress y.1 e3 i.castSucc j.castSucc = h.elastic.stress x.1 e i j) ∧
      ∀ i : Fin 2, h3.elastic.stress y.1 e3 i.castSucc 2 = 0 := by
    rintro x w y hy e _ rfl
    rw [hy.rot, he]
    exact ⟨(C106_stress _ _ _).1, fun i => ((C106_stress _ _ _).2 i).1⟩
  refine ⟨_, C56_average h3 procs3 hV3, hv, ?_, fun i j => ?_, fun i j => ?_, fun i => ⟨?_, ?_⟩⟩
  · have e2 : ∀ i j, SpecAverage (points procs) (fun x => x.2.strain) i j = _ := average_apply _ _
    ext i j
    have := key (fun x => x.2.strain) (fun y => y.2.strain) i j (fun x => liftM x.2.strain i j) fun x w y hy => by rw [hy.strain]
    refine this.trans ?_
    fin_cases i <;> fin_cases j <;> simp [liftM, e2]
  · refine (key (fun x => x.2.strain) _ i.castSucc j.castSucc _ fun x w y hy =>
      (hs x w y hy _ _ (by rw [hel x w y hy, hm, ← liftM_add])).1 i j).trans ?_
    exact (average_apply _ _ i j).symm
  · refine (key (fun x => x.2.strain) _ i.castSucc j.castSucc _ fun x w y hy =>
      (hs x w y hy _ _ (hel x w y hy)).1 i j).trans ?_
    exact (average_apply _ _ i j).symm
  · refine (key (fun x => x.2.strain) _ i.castSucc 2 (fun _ => 0) fun x w y hy =>
      (hs x w y hy _ _ (by rw [hel x w y hy, hm, ← liftM_add])).2 i).trans ?_
    simp
  · refine (key (fun x => x.2.strain) _ i.castSucc 2 (fun _ => 0) fun x w y hy =>
      (hs x w y hy _ _ (hel x w y hy)).2 i).trans ?_
    simp

/-- Not vacuous: two points of different weight, two heights. -/
example : SpecPointsAbove [(1, ⟨2, !![1, 2; 2, 3], [(⟨![1, 0], ![0, 1], 0⟩, 4)]⟩), (1, ⟨3, 0, []⟩)] [1, 5]
    [(liftR 1, ⟨2 * 1, liftM !![1, 2; 2, 3], [(⟨![1, 0, 0], ![0, 1, 0], ![0, 0, -1]⟩, 4)]⟩),
     (liftR 1, ⟨2 * 5, liftM !![1, 2; 2, 3], [(⟨![1, 0, 0], ![0, 1, 0], ![0, 0, -1]⟩, 4)]⟩),
     (liftR 1, ⟨3 * 1, liftM 0, []⟩), (liftR 1, ⟨3 * 5, liftM 0, []⟩)] := by
  have hl : SpecLifted ⟨![1, 0], ![0, 1], 0⟩ ⟨![1, 0, 0], ![0, 1, 0], ![0, 0, -1]⟩ :=
    ⟨rfl, by simp [lift], by simp [lift], -1, by simp [axis]⟩
  exact ⟨[[_, _], [_, _]], .cons (.cons ⟨rfl, rfl, rfl, .cons ⟨hl, rfl⟩ .nil⟩ (.cons ⟨rfl, rfl, rfl, .cons ⟨hl, rfl⟩ .nil⟩ .nil))
    (.cons (.cons ⟨rfl, rfl, rfl, .nil⟩ (.cons ⟨rfl, rfl, rfl, .nil⟩ .nil)) .nil), List.Perm.refl _⟩

end Verif.Asm
