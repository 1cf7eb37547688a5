import Verif.Props.Microtraction
import Verif.Props.History
import Mathlib.Analysis.SpecialFunctions.ExpDeriv
import Mathlib.Analysis.SpecialFunctions.Sqrt
import Mathlib.Analysis.SpecialFunctions.Pow.Deriv
import Mathlib.Analysis.Calculus.Deriv.Pi

/-!
# Properties of the cohesive law, contact and degradation: C38–C43, C65
-/

namespace Verif.Itf
open Matrix Finset Verif.Cry

/-! ## Helpers -/

theorem macaulay_nonneg (x : ℝ) : 0 ≤ macaulay x := by
  unfold macaulay; split_ifs <;> linarith

theorem macaulay_of_nonneg {x : ℝ} (h : 0 ≤ x) : macaulay x = x := by
  unfold macaulay
  split_ifs with h'
  · rfl
  · linarith

theorem macaulay_of_nonpos {x : ℝ} (h : x ≤ 0) : macaulay x = 0 := by
  unfold macaulay; rw [if_neg (by linarith)]

theorem macaulay_mul_self' (x : ℝ) : macaulay x * x = macaulay x * macaulay x := by
  unfold macaulay; split_ifs <;> ring

theorem normalProjector_mulVec {d : ℕ} (n δ : Vec d) :
    normalProjector n *ᵥ δ = (n ⬝ᵥ δ) • n := by
  funext i
  simp only [normalProjector, symmetrize, outer, mulVec, dotProduct, Matrix.of_apply,
    Pi.smul_apply, smul_eq_mul, Finset.sum_mul]
  refine Finset.sum_congr rfl fun j _ => by ring

theorem tangential_mulVec {d : ℕ} (n δ : Vec d) :
    tangentialProjector n *ᵥ δ = δ - (n ⬝ᵥ δ) • n := by
  unfold tangentialProjector
  rw [Matrix.sub_mulVec, Matrix.one_mulVec, normalProjector_mulVec]

theorem normalProjector_neg {d : ℕ} (n : Vec d) : normalProjector (-n) = normalProjector n := by
  ext i j; simp [normalProjector, symmetrize, outer]

theorem tangential_neg {d : ℕ} (n : Vec d) : tangentialProjector (-n) = tangentialProjector n := by
  unfold tangentialProjector; rw [normalProjector_neg]

theorem norm2_neg {d : ℕ} (v : Vec d) : norm2 (-v) = norm2 v := by
  unfold norm2; rw [neg_dotProduct_neg]

theorem norm2_smul {d : ℕ} (a : ℝ) (v : Vec d) : norm2 (a • v) = |a| * norm2 v := by
  unfold norm2
  rw [smul_dotProduct, dotProduct_smul, smul_eq_mul, smul_eq_mul, ← mul_assoc,
    Real.sqrt_mul (mul_self_nonneg a), Real.sqrt_mul_self_eq_abs]

/-- Tangential part is orthogonal to a unit normal. -/
theorem tangential_dot {d : ℕ} {n : Vec d} (hn : n ⬝ᵥ n = 1) (δ : Vec d) :
    n ⬝ᵥ (tangentialProjector n *ᵥ δ) = 0 := by
  rw [tangential_mulVec, dotProduct_sub, dotProduct_smul, hn]; simp

/-- `|Tδ|² = Tδ·δ` for a unit normal. -/
theorem tangential_sq {d : ℕ} {n : Vec d} (hn : n ⬝ᵥ n = 1) (δ h : Vec d) :
    (tangentialProjector n *ᵥ δ) ⬝ᵥ (tangentialProjector n *ᵥ h) =
      (tangentialProjector n *ᵥ δ) ⬝ᵥ h := by
  conv_lhs => rw [tangential_mulVec n h, dotProduct_sub, dotProduct_smul, dotProduct_comm _ n,
    tangential_dot hn]
  simp

theorem effOpening_sq {d : ℕ} (c : Coh) (δ n : Vec d) :
    effOpening c δ n * effOpening c δ n = macaulay (n ⬝ᵥ δ) * macaulay (n ⬝ᵥ δ) +
      c.ratio * c.ratio * ((tangentialProjector n *ᵥ δ) ⬝ᵥ (tangentialProjector n *ᵥ δ)) := by
  unfold effOpening
  simp only
  rw [Real.mul_self_sqrt, mul_assoc (c.ratio * c.ratio), norm2_sq]
  have := mul_self_nonneg (macaulay (n ⬝ᵥ δ))
  have h2 := mul_nonneg (mul_self_nonneg c.ratio)
    (mul_self_nonneg (norm2 (tangentialProjector n *ᵥ δ)))
  nlinarith

theorem effOpening_nonneg {d : ℕ} (c : Coh) (δ n : Vec d) : 0 ≤ effOpening c δ n :=
  Real.sqrt_nonneg _

/-- `D·δ = δ_eff²`. -/
theorem raw_dot {d : ℕ} (c : Coh) {n : Vec d} (hn : n ⬝ᵥ n = 1) (δ : Vec d) :
    rawDirection c δ n ⬝ᵥ δ = effOpening c δ n * effOpening c δ n := by
  rw [effOpening_sq]
  unfold rawDirection
  rw [add_dotProduct, smul_dotProduct, smul_dotProduct, tangential_sq hn]
  simp only [smul_eq_mul]
  rw [macaulay_mul_self']

/-- A closed interface has no direction. -/
theorem raw_zero {d : ℕ} (c : Coh) (δ n : Vec d) (h : effOpening c δ n = 0) :
    rawDirection c δ n = 0 := by
  have h1 := effOpening_sq c δ n
  rw [h] at h1
  have a1 := mul_self_nonneg (macaulay (n ⬝ᵥ δ))
  have a2 := mul_nonneg (mul_self_nonneg c.ratio)
    (dot_self_nonneg (tangentialProjector n *ᵥ δ))
  have b1 : macaulay (n ⬝ᵥ δ) = 0 := mul_self_eq_zero.1 (by linarith)
  have b2 : c.ratio * c.ratio * ((tangentialProjector n *ᵥ δ) ⬝ᵥ (tangentialProjector n *ᵥ δ)) = 0 :=
    by linarith
  unfold rawDirection
  rw [b1, zero_smul, zero_add]
  rcases mul_eq_zero.1 b2 with h' | h'
  · rw [h', zero_smul]
  · have : tangentialProjector n *ᵥ δ = 0 := norm2_eq_zero (by unfold norm2; rw [h']; simp)
    rw [this, smul_zero]

theorem eff_smul_direction {d : ℕ} (c : Coh) (δ n : Vec d) :
    effOpening c δ n • direction c δ n = rawDirection c δ n := by
  unfold direction
  split_ifs with h
  · rw [smul_smul, mul_inv_cancel₀ h, one_smul]
  · push Not at h
    rw [raw_zero c δ n h, smul_zero]

theorem raw_dot_normal {d : ℕ} (c : Coh) {n : Vec d} (hn : n ⬝ᵥ n = 1) (δ : Vec d) :
    rawDirection c δ n ⬝ᵥ n = macaulay (n ⬝ᵥ δ) := by
  unfold rawDirection
  rw [add_dotProduct, smul_dotProduct, smul_dotProduct, hn, dotProduct_comm _ n,
    tangential_dot hn]
  simp

theorem branch_loading {eff mx old dt : ℝ} (h : eff = mx) (ho : old ≤ eff) (hdt : 0 < dt) :
    branch eff mx old dt = .loading := by
  unfold branch
  simp only
  rw [if_pos ⟨h, div_nonneg (by linarith) hdt.le⟩]

theorem branch_unloading_lt {eff mx old dt : ℝ} (h : eff < mx) :
    branch eff mx old dt = .unloading := by
  unfold branch
  simp only
  rw [if_neg (fun h' => absurd h'.1 h.ne), if_pos (Or.inl h)]

theorem branch_unloading_eq {eff mx old dt : ℝ} (h : eff = mx) (ho : eff < old) (hdt : 0 < dt) :
    branch eff mx old dt = .unloading := by
  have : (eff - old) / dt < 0 := div_neg_of_neg_of_pos (by linarith) hdt
  unfold branch
  simp only
  rw [if_neg (fun h' => absurd h'.2 (not_le.2 this)), if_pos (Or.inr ⟨h, this⟩)]

theorem traction_loading {d : ℕ} (c : Coh) (δ n : Vec d) {mx old dt : ℝ}
    (h : effOpening c δ n = mx) (ho : old ≤ effOpening c δ n) (hdt : 0 < dt) :
    c.traction δ n mx old dt =
      some (c.charStress⁻¹ • (c.scalar (c.charDisp * effOpening c δ n) • direction c δ n)) := by
  unfold Coh.traction
  simp only
  rw [branch_loading h ho hdt]

theorem traction_unloading {d : ℕ} (c : Coh) (δ n : Vec d) {mx old dt : ℝ} (hm : mx ≠ 0)
    (h : branch (effOpening c δ n) mx old dt = .unloading) :
    c.traction δ n mx old dt = some (c.charStress⁻¹ •
      ((c.scalar (c.charDisp * mx) * effOpening c δ n / mx) • direction c δ n)) := by
  unfold Coh.traction
  simp only
  rw [h]
  simp only
  rw [if_neg hm]

/-! ## C38 -/

/-- C38: the scalar traction never exceeds the critical traction, which is attained exactly at the
critical opening (for a positive critical traction). -/
theorem C38_bound (c : Coh) (h : c.sensible) (x : ℝ) :
    c.scalar x ≤ c.tc ∧ c.scalar c.δc = c.tc ∧
      (0 < c.tc → c.scalar x = c.tc → x = c.δc) := by
  obtain ⟨h1, h2, _⟩ := h
  have e0 : c.scalar x = c.tc * ((x / c.δc) * Real.exp (1 - x / c.δc)) := by
    unfold Coh.scalar; ring
  have k : ∀ y : ℝ, y * Real.exp (1 - y) ≤ 1 := by
    intro y
    have := Real.add_one_le_exp (y - 1)
    have e : Real.exp (1 - y) * Real.exp (y - 1) = 1 := by
      rw [← Real.exp_add]; simp
    have p := Real.exp_pos (1 - y)
    nlinarith
  refine ⟨?_, ?_, fun hpos heq => ?_⟩
  · rw [e0]; nlinarith [k (x / c.δc)]
  · unfold Coh.scalar
    rw [div_self h2.ne']; simp; field_simp
  · rw [e0] at heq
    have e1 : (x / c.δc) * Real.exp (1 - x / c.δc) = 1 := by
      have := mul_left_cancel₀ hpos.ne' (heq.trans (mul_one c.tc).symm)
      exact this
    by_contra hne
    have hne' : x / c.δc - 1 ≠ 0 := by
      intro h0
      apply hne
      have : x / c.δc = 1 := by linarith
      rwa [div_eq_one_iff_eq h2.ne'] at this
    have := Real.add_one_lt_exp hne'
    have e : Real.exp (1 - x / c.δc) * Real.exp (x / c.δc - 1) = 1 := by
      rw [← Real.exp_add]; simp
    have p := Real.exp_pos (1 - x / c.δc)
    nlinarith

/-- C38: the scalar traction is the derivative of the cohesive free energy, which vanishes for the
closed interface and is non-negative for non-negative openings. -/
theorem C38_energy (c : Coh) (h : c.sensible) (x : ℝ) :
    HasDerivAt c.energy (c.scalar x) x ∧ c.energy 0 = 0 ∧ (0 ≤ x → 0 ≤ c.energy x) := by
  obtain ⟨h1, h2, _⟩ := h
  refine ⟨?_, by unfold Coh.energy; simp, fun hx => ?_⟩
  · have e1 : HasDerivAt (fun y : ℝ => Real.exp (-y / c.δc))
        (Real.exp (-x / c.δc) * (-1 / c.δc)) x :=
      ((hasDerivAt_neg x).div_const c.δc).exp
    have e2 : HasDerivAt (fun y : ℝ => 1 + y / c.δc) (1 / c.δc) x :=
      ((hasDerivAt_id' x).div_const c.δc).const_add 1
    have e3 := ((e2.mul e1).const_sub 1).const_mul (c.tc * c.δc * Real.exp 1)
    refine HasDerivAt.congr_deriv (f := c.energy) e3 ?_
    unfold Coh.scalar
    rw [sub_eq_add_neg, Real.exp_add, neg_div]
    field_simp
    ring
  · unfold Coh.energy
    have : (1 + x / c.δc) * Real.exp (-x / c.δc) ≤ 1 := by
      have h3 := Real.add_one_le_exp (x / c.δc)
      have e : Real.exp (x / c.δc) * Real.exp (-x / c.δc) = 1 := by
        rw [← Real.exp_add, neg_div]; simp
      have p := Real.exp_pos (-x / c.δc)
      nlinarith
    have : 0 ≤ 1 - (1 + x / c.δc) * Real.exp (-x / c.δc) := by linarith
    positivity

/-- C38: on the loading branch (current effective opening is the maximum and does not decrease)
the traction is the Smith–Ferrante law in the effective direction; its work on the opening is
scalar traction times effective opening. -/
theorem C38_loading {d : ℕ} (c : Coh) (δ n : Vec d) (old dt : ℝ) (hdt : 0 < dt)
    (hn : ∑ i, n i * n i = 1) (ho : old ≤ effOpening c δ n) :
    ∃ t, c.traction δ n (effOpening c δ n) old dt = some t ∧
      t = (c.tc * (c.charDisp * effOpening c δ n / c.δc) *
        Real.exp (1 - c.charDisp * effOpening c δ n / c.δc) / c.charStress) • direction c δ n ∧
      ∑ i, t i * δ i = c.scalar (c.charDisp * effOpening c δ n) / c.charStress *
        effOpening c δ n := by
  refine ⟨_, traction_loading c δ n rfl ho hdt, ?_, ?_⟩
  · rw [smul_smul]
    congr 1
    unfold Coh.scalar
    ring
  · change _ ⬝ᵥ δ = _
    rw [smul_smul, smul_dotProduct]
    have : effOpening c δ n * (direction c δ n ⬝ᵥ δ) = effOpening c δ n * effOpening c δ n := by
      rw [← smul_eq_mul, ← smul_dotProduct, eff_smul_direction, raw_dot c hn]
    by_cases h0 : effOpening c δ n = 0
    · rw [h0]; unfold Coh.scalar; simp
    · have h2 := mul_left_cancel₀ h0 this
      rw [h2]
      simp only [smul_eq_mul]
      ring

/-- C38: on unloading the traction is *linear* in the opening: the secant stiffness of the maximum
opening times `⟨δ·n⟩ n + β² δ_t`. -/
theorem C38_unloading {d : ℕ} (c : Coh) (δ n : Vec d) (mx old dt : ℝ)
    (h : effOpening c δ n < mx) :
    c.traction δ n mx old dt = some ((c.scalar (c.charDisp * mx) / mx / c.charStress) •
      (macaulay (∑ i, n i * δ i) • n +
        (c.ratio * c.ratio) • (δ - (∑ i, n i * δ i) • n))) := by
  have hm : mx ≠ 0 := (lt_of_le_of_lt (effOpening_nonneg c δ n) h).ne'
  unfold Coh.traction
  simp only
  rw [branch_unloading_lt h]
  simp only
  rw [if_neg hm]
  congr 1
  have : (macaulay (∑ i, n i * δ i) • n + (c.ratio * c.ratio) • (δ - (∑ i, n i * δ i) • n)) =
      rawDirection c δ n := by
    unfold rawDirection
    rw [tangential_mulVec]; rfl
  rw [this, ← eff_smul_direction, smul_smul, smul_smul]
  congr 1
  ring

/-- C38: both branches agree at the maximum opening. -/
theorem C38_continuous {d : ℕ} (c : Coh) (δ n : Vec d) (old old' dt : ℝ) (hdt : 0 < dt)
    (hpos : 0 < effOpening c δ n) (ho : old ≤ effOpening c δ n)
    (ho' : effOpening c δ n < old') :
    c.traction δ n (effOpening c δ n) old dt = c.traction δ n (effOpening c δ n) old' dt ∧
    c.traction δ n (effOpening c δ n) old dt ≠ none := by
  unfold Coh.traction
  simp only
  rw [branch_loading rfl ho hdt, branch_unloading_eq rfl ho' hdt]
  simp only
  rw [if_neg hpos.ne']
  refine ⟨?_, by simp⟩
  congr 3
  field_simp

/-- C38: unloading and reloading never exceed the loading curve's work (the secant is below). For
every opening with effective opening at most the maximum, traction times opening is non-negative. -/
theorem C38_dissipative {d : ℕ} (c : Coh) (hc : c.sensible) (δ n t : Vec d) (mx old dt : ℝ)
    (hdt : 0 < dt) (hn : ∑ i, n i * n i = 1) (hm : effOpening c δ n ≤ mx)
    (ht : c.traction δ n mx old dt = some t) : 0 ≤ ∑ i, t i * δ i := by
  obtain ⟨h1, h2, h3, h4, h5⟩ := hc
  have hnn : n ⬝ᵥ n = 1 := hn
  have e0 := effOpening_nonneg c δ n
  have sc : ∀ x, 0 ≤ x → 0 ≤ c.scalar x := fun x hx => by unfold Coh.scalar; positivity
  rcases eq_or_lt_of_le hm with h | h
  · rcases le_or_gt old (effOpening c δ n) with ho | ho
    · subst h
      obtain ⟨t', a, _, b⟩ := C38_loading c δ n old dt hdt hn ho
      rw [a] at ht
      obtain rfl := Option.some.inj ht
      rw [b]
      have := sc _ (mul_nonneg h5.le e0)
      positivity
    · by_cases hz : effOpening c δ n = 0
      · unfold Coh.traction at ht
        simp only at ht
        rw [branch_unloading_eq h ho hdt] at ht
        simp only at ht
        rw [if_pos (by rw [← h]; exact hz)] at ht
        exact absurd ht (by simp)
      · subst h
        have := (C38_continuous c δ n (effOpening c δ n) old dt hdt
          (lt_of_le_of_ne e0 (Ne.symm hz)) le_rfl ho).1
        obtain ⟨t', a, _, b⟩ := C38_loading c δ n (effOpening c δ n) dt hdt hn le_rfl
        rw [← this, a] at ht
        obtain rfl := Option.some.inj ht
        rw [b]
        have := sc _ (mul_nonneg h5.le e0)
        positivity
  · rw [C38_unloading c δ n mx old dt h] at ht
    obtain rfl := Option.some.inj ht
    have e1 : (macaulay (∑ i, n i * δ i) • n + (c.ratio * c.ratio) • (δ - (∑ i, n i * δ i) • n)) =
        rawDirection c δ n := by
      unfold rawDirection
      rw [tangential_mulVec]; rfl
    rw [e1]
    change 0 ≤ _ ⬝ᵥ δ
    rw [smul_dotProduct, raw_dot c hnn]
    have hm' : 0 < mx := lt_of_le_of_lt e0 h
    have := sc _ (mul_nonneg h5.le hm'.le)
    simp only [smul_eq_mul]
    positivity

/-- Non-vacuity: default parameters, an opening of the critical size loads to the critical
traction. -/
example : ∃ (c : Coh) (δ n t : Vec 2), c.sensible ∧ (∑ i, n i * n i = 1) ∧
    c.traction δ n (effOpening c δ n) 0 1 = some t ∧ t 0 = 700 := by
  have e : effOpening ⟨700, 1, 1, 1, 1⟩ (![1, 0] : Vec 2) ![1, 0] = 1 := by
    have := effOpening_sq ⟨700, 1, 1, 1, 1⟩ (![1, 0] : Vec 2) ![1, 0]
    rw [tangential_mulVec] at this
    simp [macaulay] at this
    have h0 := effOpening_nonneg ⟨700, 1, 1, 1, 1⟩ (![1, 0] : Vec 2) ![1, 0]
    nlinarith
  refine ⟨⟨700, 1, 1, 1, 1⟩, ![1, 0], ![1, 0], _, ⟨by norm_num, by norm_num, by norm_num,
    by norm_num, by norm_num⟩, by simp,
    traction_loading _ _ _ rfl (by rw [e]; norm_num) (by norm_num), ?_⟩
  simp [e, Coh.scalar, direction, rawDirection, macaulay, tangential_mulVec]

end Verif.Itf
