import Verif.Model.Interface
import Verif.Props.Crystal
import Mathlib.Analysis.Calculus.Deriv.Mul
import Mathlib.Analysis.Calculus.Deriv.Add
import Mathlib.Algebra.Order.BigOperators.Ring.Finset

/-!
# Properties of the microtraction law: C36, C37
-/

namespace Verif.Itf
open Matrix Finset Verif.Cry

/-- Cauchy–Schwarz for the scalar product. -/
theorem dot_sq_le {d : ℕ} (a b : Fin d → ℝ) : (a ⬝ᵥ b) ^ 2 ≤ (a ⬝ᵥ a) * (b ⬝ᵥ b) := by
  have := Finset.sum_mul_sq_le_sq_mul_sq univ a b
  simpa [dotProduct, sq] using this

theorem abs_dot_le_one {d : ℕ} {a b : Fin d → ℝ} (ha : a ⬝ᵥ a ≤ 1) (hb : b ⬝ᵥ b ≤ 1) :
    |a ⬝ᵥ b| ≤ 1 := by
  have h := dot_sq_le a b
  have h0 : 0 ≤ a ⬝ᵥ a := Finset.sum_nonneg fun i _ => mul_self_nonneg _
  have h1 : 0 ≤ b ⬝ᵥ b := Finset.sum_nonneg fun i _ => mul_self_nonneg _
  have : (a ⬝ᵥ b) ^ 2 ≤ 1 := by nlinarith
  exact (sq_le_one_iff_abs_le_one _).1 this

theorem lateral2_le (m n : Vec 2) (hm : m ⬝ᵥ m = 1) (hn : n ⬝ᵥ n = 1) :
    lateral2 m n ⬝ᵥ lateral2 m n ≤ 1 := by
  simp only [lateral2, dotProduct, Fin.sum_univ_two, Finset.univ_unique, Finset.sum_singleton] at *
  nlinarith [sq_nonneg (m 0 * n 0 + m 1 * n 1)]

theorem lateral3_le (m n : Vec 3) (hm : m ⬝ᵥ m = 1) (hn : n ⬝ᵥ n = 1) :
    lateral3 m n ⬝ᵥ lateral3 m n ≤ 1 := by
  unfold lateral3
  rw [cross_norm, hm, hn]
  nlinarith [sq_nonneg (m ⬝ᵥ n)]

/-- What both lateral factors have in common: odd in the interface normal, at most of unit length
for unit vectors. -/
structure Lateral {d e : ℕ} (lat : Vec d → Vec d → Fin e → ℝ) : Prop where
  odd : ∀ m n, lat m (-n) = -lat m n
  le : ∀ m n, m ⬝ᵥ m = 1 → n ⬝ᵥ n = 1 → lat m n ⬝ᵥ lat m n ≤ 1

theorem lateral2_ok : Lateral lateral2 :=
  ⟨fun m n => by funext i; simp [lateral2]; ring, lateral2_le⟩

theorem lateral3_ok : Lateral lateral3 := by
  refine ⟨fun m n => ?_, lateral3_le⟩
  funext i
  fin_cases i <;> simp [lateral3, cross] <;> ring

theorem modulus_symm {d e : ℕ} (lat : Vec d → Vec d → Fin e → ℝ) (a b : System d) (n : Vec d) :
    modulus lat a b n = modulus lat b a n := by
  unfold modulus
  rw [dotProduct_comm, dotProduct_comm (lat _ _)]

theorem modulus_neg {d e : ℕ} {lat : Vec d → Vec d → Fin e → ℝ} (h : Lateral lat)
    (a b : System d) (n : Vec d) : modulus lat a b (-n) = modulus lat a b n := by
  unfold modulus
  rw [h.odd, h.odd, neg_dotProduct_neg]

theorem modulus_le {d e : ℕ} {lat : Vec d → Vec d → Fin e → ℝ} (h : Lateral lat)
    {a b : System d} {n : Vec d} (ha : SpecOrthonormalPair a.direction a.normal)
    (hb : SpecOrthonormalPair b.direction b.normal) (hn : ∑ i, n i * n i = 1) :
    |modulus lat a b n| ≤ 1 := by
  unfold modulus
  rw [abs_mul]
  exact mul_le_one₀ (abs_dot_le_one ha.1.le hb.1.le) (abs_nonneg _)
    (abs_dot_le_one (h.le _ _ ha.2.1 hn) (h.le _ _ hb.2.1 hn))

/-! ## C36 -/

/-- C36: intra-grain moduli are symmetric (2D and 3D). -/
theorem C36_intra_symmetric {n : ℕ} :
    (∀ (cur : Crystal 2 n) (nrm : Vec 2) (α β), intra lateral2 cur nrm α β =
      intra lateral2 cur nrm β α) ∧
    (∀ (cur : Crystal 3 n) (nrm : Vec 3) (α β), intra lateral3 cur nrm α β =
      intra lateral3 cur nrm β α) :=
  ⟨fun _ _ _ _ => modulus_symm _ _ _ _, fun _ _ _ _ => modulus_symm _ _ _ _⟩

/-- C36: for orthonormal slip systems and unit interface normals no modulus exceeds one in modulus,
so the range checks of the code never throw. -/
theorem C36_bounded {n : ℕ} :
    (∀ (cur nb : Crystal 2 n) (nrm : Vec 2),
      (∀ α, SpecOrthonormalPair (cur α).direction (cur α).normal) →
      (∀ α, SpecOrthonormalPair (nb α).direction (nb α).normal) →
      (∑ i, nrm i * nrm i = 1) →
      moduliAccepted 1 (intra lateral2 cur nrm) ∧ moduliAccepted 1 (inter lateral2 cur nb nrm)) ∧
    (∀ (cur nb : Crystal 3 n) (nrm : Vec 3),
      (∀ α, SpecOrthonormalPair (cur α).direction (cur α).normal) →
      (∀ α, SpecOrthonormalPair (nb α).direction (nb α).normal) →
      (∑ i, nrm i * nrm i = 1) →
      moduliAccepted 1 (intra lateral3 cur nrm) ∧ moduliAccepted 1 (inter lateral3 cur nb nrm)) :=
  ⟨fun _ _ _ hc hn h => ⟨fun α β => ⟨abs_nonneg _, modulus_le lateral2_ok (hc α) (hc β) h⟩,
      fun α β => ⟨abs_nonneg _, modulus_le lateral2_ok (hc α) (hn β) h⟩⟩,
   fun _ _ _ hc hn h => ⟨fun α β => ⟨abs_nonneg _, modulus_le lateral3_ok (hc α) (hc β) h⟩,
      fun α β => ⟨abs_nonneg _, modulus_le lateral3_ok (hc α) (hn β) h⟩⟩⟩

/-- C36: inter-grain moduli computed from the two sides of a face (normals opposite) are transposes
of each other, and the intra-grain moduli do not depend on the orientation of the normal. -/
theorem C36_sides {n : ℕ} :
    (∀ (cur nb : Crystal 2 n) (nrm : Vec 2) (α β),
      inter lateral2 nb cur (-nrm) β α = inter lateral2 cur nb nrm α β ∧
      intra lateral2 cur (-nrm) α β = intra lateral2 cur nrm α β) ∧
    (∀ (cur nb : Crystal 3 n) (nrm : Vec 3) (α β),
      inter lateral3 nb cur (-nrm) β α = inter lateral3 cur nb nrm α β ∧
      intra lateral3 cur (-nrm) α β = intra lateral3 cur nrm α β) := by
  refine ⟨fun cur nb nrm α β => ⟨?_, modulus_neg lateral2_ok _ _ _⟩,
    fun cur nb nrm α β => ⟨?_, modulus_neg lateral3_ok _ _ _⟩⟩
  · unfold inter; rw [modulus_neg lateral2_ok, modulus_symm]
  · unfold inter; rw [modulus_neg lateral3_ok, modulus_symm]

/-- C36: crystals of equal orientation have equal intra- and inter-grain moduli, and no modulus
couples through a boundary parallel to the slip plane. -/
theorem C36_equal_orientation {n : ℕ} :
    (∀ (cur nb : Crystal 2 n) (nrm : Vec 2) (α β),
      (nb β).direction = (cur β).direction → (nb β).normal = (cur β).normal →
      inter lateral2 cur nb nrm α β = intra lateral2 cur nrm α β) ∧
    (∀ (cur nb : Crystal 3 n) (nrm : Vec 3) (α β),
      (nb β).direction = (cur β).direction → (nb β).normal = (cur β).normal →
      inter lateral3 cur nb nrm α β = intra lateral3 cur nrm α β) ∧
    (∀ (cur nb : Crystal 3 n) (nrm : Vec 3) (α β), (cur α).normal = nrm →
      inter lateral3 cur nb nrm α β = 0 ∧ intra lateral3 cur nrm α β = 0) := by
  refine ⟨fun cur nb nrm α β h1 h2 => ?_, fun cur nb nrm α β h1 h2 => ?_,
    fun cur nb nrm α β h => ?_⟩
  · unfold inter intra modulus; rw [h1, h2]
  · unfold inter intra modulus; rw [h1, h2]
  · have : lateral3 (cur α).normal nrm = 0 := by
      rw [h]; funext i; fin_cases i <;> simp [lateral3, cross] <;> ring
    unfold inter intra modulus
    rw [this]; simp

/-- C36: the value of the moduli, by scalar products only: for a unit normal `ν`,
`(s·s') ((m·m') − (m·ν)(m'·ν))`; the second factor is the scalar product of the projections of the slip
plane normals on the boundary.  The same formula in 2D and 3D, within and between grains. -/
theorem C36_value {n : ℕ} :
    (∀ (cur nb : Crystal 2 n) (ν : Vec 2) (α β), (∑ i, ν i * ν i = 1) →
      (inter lateral2 cur nb ν α β = (∑ i, (cur α).direction i * (nb β).direction i) *
        ((∑ i, (cur α).normal i * (nb β).normal i) -
          (∑ i, (cur α).normal i * ν i) * ∑ i, (nb β).normal i * ν i)) ∧
      (intra lateral2 cur ν α β = inter lateral2 cur cur ν α β)) ∧
    (∀ (cur nb : Crystal 3 n) (ν : Vec 3) (α β), (∑ i, ν i * ν i = 1) →
      (inter lateral3 cur nb ν α β = (∑ i, (cur α).direction i * (nb β).direction i) *
        ((∑ i, (cur α).normal i * (nb β).normal i) -
          (∑ i, (cur α).normal i * ν i) * ∑ i, (nb β).normal i * ν i)) ∧
      (intra lateral3 cur ν α β = inter lateral3 cur cur ν α β)) := by
  refine ⟨fun cur nb ν α β h => ⟨?_, rfl⟩, fun cur nb ν α β h => ⟨?_, rfl⟩⟩
  · unfold inter modulus lateral2 dotProduct
    simp only [Fin.sum_univ_two, Fin.sum_univ_one] at h ⊢
    generalize (cur α).normal = m at *
    generalize (nb β).normal = m' at *
    congr 1
    linear_combination (m 0 * m' 0 + m 1 * m' 1) * h
  · unfold inter modulus lateral3 cross dotProduct
    simp only [Fin.sum_univ_three, Matrix.cons_val_zero, Matrix.cons_val_one, Matrix.cons_val] at h ⊢
    generalize (cur α).normal = m at *
    generalize (nb β).normal = m' at *
    congr 1
    linear_combination (m 0 * m' 0 + m 1 * m' 1 + m 2 * m' 2) * h

/-- Non-vacuity: two plane crystals with the default system, one of them rotated; the modulus is
not trivial. -/
example : ∃ (cur nb : Crystal 2 1) (nrm : Vec 2),
    (∀ α, SpecOrthonormalPair (cur α).direction (cur α).normal) ∧
    (∀ α, SpecOrthonormalPair (nb α).direction (nb α).normal) ∧ (∑ i, nrm i * nrm i = 1) ∧
    inter lateral2 cur nb nrm 0 0 = 9 / 25 := by
  refine ⟨fun _ => ⟨![1, 0], ![0, 1], 0⟩, fun _ => ⟨![3/5, 4/5], ![-4/5, 3/5], 0⟩, ![1, 0],
    fun _ => ?_, fun _ => ?_, ?_, ?_⟩
  · refine ⟨?_, ?_, ?_⟩ <;> norm_num [Fin.sum_univ_two]
  · refine ⟨?_, ?_, ?_⟩ <;> norm_num [Fin.sum_univ_two]
  · norm_num [Fin.sum_univ_two]
  · norm_num [inter, modulus, lateral2, dotProduct, Fin.sum_univ_two]

/-! ## C37 -/

section
variable {d e n : ℕ} (p : MicroPrm) (lat : Vec d → Vec d → Fin e → ℝ)

/-- Interface energy is non-negative for an accepted (non-negative) grain boundary modulus. -/
theorem C37_nonneg (hp : 0 ≤ p.modulus) (nb cur : Crystal d n) (nrm : Vec d)
    (γn γ : Fin n → ℝ) : 0 ≤ interfaceEnergy p lat nb cur nrm γn γ := by
  unfold interfaceEnergy
  have : 0 ≤ ∑ i, ∑ j, burgers lat nb cur nrm γn γ i j * burgers lat nb cur nrm γn γ i j :=
    sum_nonneg fun i _ => sum_nonneg fun j _ => mul_self_nonneg _
  positivity

theorem dot_outer_outer (a b : Fin d → ℝ) (x y : Fin e → ℝ) :
    ∑ i, ∑ j, (a i * x j) * (b i * y j) = (a ⬝ᵥ b) * (x ⬝ᵥ y) := by
  unfold dotProduct
  rw [Finset.sum_mul_sum]
  refine sum_congr rfl fun i _ => sum_congr rfl fun j _ => by ring

/-- Product of the Burgers tensor with the dyad of a slip system. -/
theorem burgers_dyad (nb cur : Crystal d n) (nrm : Vec d) (γn γ : Fin n → ℝ) (s : System d) :
    ∑ i, ∑ j, burgers lat nb cur nrm γn γ i j * (s.direction i * lat s.normal nrm j) =
      ∑ β, (γn β * modulus lat s (nb β) nrm - γ β * modulus lat s (cur β) nrm) := by
  unfold burgers
  simp only [Finset.sum_mul]
  have h1 : ∀ i, ∑ j, ∑ α, (γn α * ((nb α).direction i * lat (nb α).normal nrm j) -
      γ α * ((cur α).direction i * lat (cur α).normal nrm j)) *
        (s.direction i * lat s.normal nrm j) = ∑ α, ∑ j,
      (γn α * ((nb α).direction i * lat (nb α).normal nrm j) -
      γ α * ((cur α).direction i * lat (cur α).normal nrm j)) *
        (s.direction i * lat s.normal nrm j) := fun i => Finset.sum_comm
  simp only [h1]
  rw [Finset.sum_comm]
  refine sum_congr rfl fun α _ => ?_
  unfold modulus
  rw [← dot_outer_outer, ← dot_outer_outer]
  simp only [Finset.mul_sum, ← Finset.sum_sub_distrib]
  refine sum_congr rfl fun i _ => sum_congr rfl fun j _ => by ring

/-- The energy written with the interaction moduli: a quadratic form in the slips of both
grains. -/
theorem C37_quadratic (nb cur : Crystal d n) (nrm : Vec d) (γn γ : Fin n → ℝ) :
    interfaceEnergy p lat nb cur nrm γn γ = p.modulus / 2 *
      ((∑ α, ∑ β, γn α * intra lat nb nrm α β * γn β) +
       (∑ α, ∑ β, γ α * intra lat cur nrm α β * γ β) -
       2 * ∑ α, ∑ β, γ α * inter lat cur nb nrm α β * γn β) := by
  have key : ∑ i, ∑ j, burgers lat nb cur nrm γn γ i j * burgers lat nb cur nrm γn γ i j =
      ∑ α, (γn α * ∑ β, (γn β * modulus lat (nb α) (nb β) nrm -
          γ β * modulus lat (nb α) (cur β) nrm) -
        γ α * ∑ β, (γn β * modulus lat (cur α) (nb β) nrm -
          γ β * modulus lat (cur α) (cur β) nrm)) := by
    have h1 : ∀ i j, burgers lat nb cur nrm γn γ i j * burgers lat nb cur nrm γn γ i j =
        ∑ α, (γn α * (burgers lat nb cur nrm γn γ i j *
            ((nb α).direction i * lat (nb α).normal nrm j)) -
          γ α * (burgers lat nb cur nrm γn γ i j *
            ((cur α).direction i * lat (cur α).normal nrm j))) := by
      intro i j
      conv_lhs => rw [show burgers lat nb cur nrm γn γ i j * burgers lat nb cur nrm γn γ i j =
        burgers lat nb cur nrm γn γ i j * ∑ α, (γn α * ((nb α).direction i *
          lat (nb α).normal nrm j) - γ α * ((cur α).direction i * lat (cur α).normal nrm j))
        from rfl, Finset.mul_sum]
      refine sum_congr rfl fun α _ => by ring
    simp only [h1]
    have h2 : ∀ i, ∑ j, ∑ α, (γn α * (burgers lat nb cur nrm γn γ i j *
            ((nb α).direction i * lat (nb α).normal nrm j)) -
          γ α * (burgers lat nb cur nrm γn γ i j *
            ((cur α).direction i * lat (cur α).normal nrm j))) =
        ∑ α, ∑ j, (γn α * (burgers lat nb cur nrm γn γ i j *
            ((nb α).direction i * lat (nb α).normal nrm j)) -
          γ α * (burgers lat nb cur nrm γn γ i j *
            ((cur α).direction i * lat (cur α).normal nrm j))) := fun i => Finset.sum_comm
    simp only [h2]
    rw [Finset.sum_comm]
    refine sum_congr rfl fun α _ => ?_
    rw [← burgers_dyad, ← burgers_dyad]
    simp only [Finset.mul_sum, ← Finset.sum_sub_distrib]
  have e1 : ∑ α, ∑ β, γn α * (γ β * modulus lat (nb α) (cur β) nrm) =
      ∑ α, ∑ β, γ α * inter lat cur nb nrm α β * γn β := by
    rw [Finset.sum_comm]
    refine sum_congr rfl fun α _ => sum_congr rfl fun β _ => ?_
    unfold inter; rw [modulus_symm]; ring
  have e2 : ∀ α β, γn α * (γn β * modulus lat (nb α) (nb β) nrm) =
      γn α * intra lat nb nrm α β * γn β := fun α β => by unfold intra; ring
  have e3 : ∀ α β, γ α * (γ β * modulus lat (cur α) (cur β) nrm) =
      γ α * intra lat cur nrm α β * γ β := fun α β => by unfold intra; ring
  have e4 : ∀ α β, γ α * (γn β * modulus lat (cur α) (nb β) nrm) =
      γ α * inter lat cur nb nrm α β * γn β := fun α β => by unfold inter; ring
  simp only [Finset.sum_sub_distrib, mul_sub, Finset.mul_sum, e2, e3, e4] at key
  unfold interfaceEnergy
  rw [key, e1]
  norm_num
  ring

/-- C37: the microtraction on slip system `α` is minus the derivative of the interface energy with
respect to slip `α` of the current grain, divided by the characteristic microstress. -/
theorem C37_traction_is_gradient (nb cur : Crystal d n) (nrm : Vec d) (γn γ : Fin n → ℝ)
    (α : Fin n) :
    HasDerivAt (fun x => interfaceEnergy p lat nb cur nrm γn (Function.update γ α x) / p.char)
      (-microtraction p lat cur nb nrm γ γn α) (γ α) := by
  have hb : ∀ i j, HasDerivAt (fun x => burgers lat nb cur nrm γn (Function.update γ α x) i j)
      (-((cur α).direction i * lat (cur α).normal nrm j)) (γ α) := by
    intro i j
    have : (fun x => burgers lat nb cur nrm γn (Function.update γ α x) i j) = fun x =>
        burgers lat nb cur nrm γn γ i j -
          (x - γ α) * ((cur α).direction i * lat (cur α).normal nrm j) := by
      funext x
      unfold burgers
      rw [← Finset.add_sum_erase _ _ (mem_univ α), ← Finset.add_sum_erase univ
        (fun α => (γn α * ((nb α).direction i * lat (nb α).normal nrm j) -
        γ α * ((cur α).direction i * lat (cur α).normal nrm j))) (mem_univ α)]
      have : ∀ β ∈ univ.erase α, (γn β * ((nb β).direction i * lat (nb β).normal nrm j) -
          Function.update γ α x β * ((cur β).direction i * lat (cur β).normal nrm j)) =
          (γn β * ((nb β).direction i * lat (nb β).normal nrm j) -
          γ β * ((cur β).direction i * lat (cur β).normal nrm j)) := by
        intro β hβ
        rw [Function.update_of_ne (Finset.ne_of_mem_erase hβ)]
      rw [Finset.sum_congr rfl this, Function.update_self]
      ring
    rw [this]
    refine ((((hasDerivAt_id' (γ α)).sub_const (γ α)).mul_const _).const_sub _).congr_deriv ?_
    ring
  have hs : HasDerivAt (fun x => ∑ i, ∑ j, burgers lat nb cur nrm γn (Function.update γ α x) i j *
      burgers lat nb cur nrm γn (Function.update γ α x) i j)
      (∑ i, ∑ j, 2 * (burgers lat nb cur nrm γn γ i j *
        -((cur α).direction i * lat (cur α).normal nrm j))) (γ α) := by
    refine HasDerivAt.fun_sum fun i _ => HasDerivAt.fun_sum fun j _ => ?_
    refine ((hb i j).mul (hb i j)).congr_deriv ?_
    simp only [Function.update_eq_self]
    ring
  have := (hs.const_mul (0.5 * p.modulus)).div_const p.char
  refine HasDerivAt.congr_deriv (f := fun x => interfaceEnergy p lat nb cur nrm γn
    (Function.update γ α x) / p.char) this ?_
  have e : ∑ i, ∑ j, 2 * (burgers lat nb cur nrm γn γ i j *
        -((cur α).direction i * lat (cur α).normal nrm j)) =
      -2 * ∑ β, (γn β * modulus lat (cur α) (nb β) nrm - γ β * modulus lat (cur α) (cur β) nrm) := by
    rw [← burgers_dyad]
    simp only [Finset.mul_sum]
    refine sum_congr rfl fun i _ => sum_congr rfl fun j _ => by ring
  rw [e]
  unfold microtraction
  have e2 : ∑ β, (intra lat cur nrm α β * γ β - inter lat cur nb nrm α β * γn β) =
      -∑ β, (γn β * modulus lat (cur α) (nb β) nrm - γ β * modulus lat (cur α) (cur β) nrm) := by
    rw [← Finset.sum_neg_distrib]
    refine sum_congr rfl fun β _ => by unfold intra inter; ring
  rw [e2]
  ring

/-- C37: `get_intra_gateaux_derivative` and `get_inter_gateaux_derivative` are the derivatives of
the microtraction with respect to the slips of the current and of the neighbouring grain. -/
theorem C37_tangents (nb cur : Crystal d n) (nrm : Vec d) (γn γ : Fin n → ℝ) (α β : Fin n) :
    HasDerivAt (fun x => microtraction p lat cur nb nrm (Function.update γ β x) γn α)
      (intraDerivative p lat cur nrm α β) (γ β) ∧
    HasDerivAt (fun x => microtraction p lat cur nb nrm γ (Function.update γn β x) α)
      (interDerivative p lat cur nb nrm α β) (γn β) := by
  have upd : ∀ (a : Fin n → ℝ) (v : Fin n → ℝ) (x : ℝ),
      ∑ k, a k * Function.update v β x k = ∑ k, a k * v k + a β * (x - v β) := by
    intro a v x
    rw [← Finset.add_sum_erase _ _ (mem_univ β), ← Finset.add_sum_erase univ
      (fun k => a k * v k) (mem_univ β)]
    have : ∀ k ∈ univ.erase β, a k * Function.update v β x k = a k * v k := by
      intro k hk
      rw [Function.update_of_ne (Finset.ne_of_mem_erase hk)]
    rw [Finset.sum_congr rfl this, Function.update_self]
    ring
  constructor
  · have : (fun x => microtraction p lat cur nb nrm (Function.update γ β x) γn α) = fun x =>
        microtraction p lat cur nb nrm γ γn α +
          intra lat cur nrm α β * (x - γ β) * (-p.modulus / p.char) := by
      funext x
      unfold microtraction
      simp only [Finset.sum_sub_distrib, upd]
      ring
    rw [this]
    refine (((((hasDerivAt_id' (γ β)).sub_const (γ β)).const_mul _).mul_const _).const_add
      _).congr_deriv ?_
    unfold intraDerivative; ring
  · have : (fun x => microtraction p lat cur nb nrm γ (Function.update γn β x) α) = fun x =>
        microtraction p lat cur nb nrm γ γn α +
          inter lat cur nb nrm α β * (x - γn β) * (p.modulus / p.char) := by
      funext x
      unfold microtraction
      simp only [Finset.sum_sub_distrib, upd]
      ring
    rw [this]
    refine (((((hasDerivAt_id' (γn β)).sub_const (γn β)).const_mul _).mul_const _).const_add
      _).congr_deriv ?_
    unfold interDerivative; ring

end

/-- C37: the energy does not depend on which grain is called the current one (the normal changes
sign), in 2D and 3D. -/
theorem C37_sides {n : ℕ} (p : MicroPrm) :
    (∀ (nb cur : Crystal 2 n) (nrm : Vec 2) (γn γ : Fin n → ℝ),
      interfaceEnergy p lateral2 cur nb (-nrm) γ γn = interfaceEnergy p lateral2 nb cur nrm γn γ) ∧
    (∀ (nb cur : Crystal 3 n) (nrm : Vec 3) (γn γ : Fin n → ℝ),
      interfaceEnergy p lateral3 cur nb (-nrm) γ γn = interfaceEnergy p lateral3 nb cur nrm γn γ) := by
  have key : ∀ {d e : ℕ} {lat : Vec d → Vec d → Fin e → ℝ}, Lateral lat →
      ∀ (nb cur : Crystal d n) (nrm : Vec d) (γn γ : Fin n → ℝ) i j,
      burgers lat cur nb (-nrm) γ γn i j = burgers lat nb cur nrm γn γ i j := by
    intro d e lat h nb cur nrm γn γ i j
    unfold burgers
    refine sum_congr rfl fun α _ => ?_
    rw [h.odd, h.odd]
    simp only [Pi.neg_apply]; ring
  constructor <;> intro nb cur nrm γn γ <;> unfold interfaceEnergy
  · simp only [key lateral2_ok]
  · simp only [key lateral3_ok]

/-- C37: compatible slip (equal orientations, equal slips) stores no energy and exerts no
microtraction. -/
theorem C37_compatible {d e n : ℕ} (p : MicroPrm) (lat : Vec d → Vec d → Fin e → ℝ)
    (c : Crystal d n) (nrm : Vec d) (γ : Fin n → ℝ) (α : Fin n) :
    interfaceEnergy p lat c c nrm γ γ = 0 ∧ microtraction p lat c c nrm γ γ α = 0 := by
  constructor
  · unfold interfaceEnergy burgers; simp
  · unfold microtraction intra inter; simp

/-- Non-vacuity: a boundary storing energy. -/
example : ∃ (nb cur : Crystal 2 1) (nrm : Vec 2),
    interfaceEnergy ⟨2, 1⟩ lateral2 nb cur nrm (fun _ => 1) (fun _ => 0) = 1 := by
  refine ⟨fun _ => ⟨![1, 0], ![0, 1], 0⟩, fun _ => ⟨![3/5, 4/5], ![-4/5, 3/5], 0⟩, ![1, 0], ?_⟩
  norm_num [interfaceEnergy, burgers, lateral2, Fin.sum_univ_two]

end Verif.Itf
