import Verif.Props.Regularization
import Verif.Props.History
import Mathlib.Analysis.Calculus.Deriv.Abs

/-!
# Properties of the scalar microstress: C28, C29
-/

namespace Verif.Micro
open Verif.Hist

theorem sgn_of_pos {x : ℝ} (h : 0 < x) : sgn x = 1 := by
  unfold sgn; rw [if_pos h, if_neg (by linarith)]; norm_num

theorem sgn_of_neg {x : ℝ} (h : x < 0) : sgn x = -1 := by
  unfold sgn; rw [if_neg (by linarith), if_pos h]; norm_num

theorem sgn_zero : sgn 0 = 0 := by unfold sgn; norm_num

theorem sgn_mul_self (x : ℝ) : sgn x * x = |x| := by
  rcases lt_trichotomy x 0 with h | h | h
  · rw [sgn_of_neg h, abs_of_neg h]; ring
  · subst h; simp
  · rw [sgn_of_pos h, abs_of_pos h]; ring

theorem sgn_abs_le (x : ℝ) : |sgn x| ≤ 1 := by
  rcases lt_trichotomy x 0 with h | h | h
  · rw [sgn_of_neg h]; simp
  · subst h; simp [sgn_zero]
  · rw [sgn_of_pos h]; simp

theorem sgn_abs_ne {x : ℝ} (h : x ≠ 0) : |sgn x| = 1 := by
  rcases lt_or_gt_of_ne h with h | h
  · rw [sgn_of_neg h]; simp
  · rw [sgn_of_pos h]; simp

/-- The time step does not change the sign of the increment. -/
theorem sgn_div {x dt : ℝ} (hdt : 0 < dt) : sgn (x / dt) = sgn x := by
  rcases lt_trichotomy x 0 with h | h | h
  · rw [sgn_of_neg h, sgn_of_neg (div_neg_of_neg_of_pos h hdt)]
  · subst h; simp
  · rw [sgn_of_pos h, sgn_of_pos (div_pos h hdt)]

/-! ## C28 -/

/-- C28: the scalar microstress dissipates. -/
theorem C28_dissipative (l : Law) (hk : 0 < l.k) (slip old g dt : ℝ) (hg : 0 ≤ g)
    (hdt : 0 < dt) : 0 ≤ l.microstress slip old g dt * (slip - old) := by
  unfold Law.microstress
  simp only
  have key : ∀ s : ℝ, 0 ≤ s * ((slip - old) / dt) → 0 ≤ g * s * (slip - old) := by
    intro s hs
    have : g * s * (slip - old) = g * dt * (s * ((slip - old) / dt)) := by
      field_simp
    rw [this]; positivity
  split_ifs
  · apply key; rw [sgn_mul_self]; exact abs_nonneg _
  · apply key
    obtain ⟨h1, h2, h3⟩ := C26_sign l.f l.k hk ((slip - old) / dt)
    rcases lt_trichotomy ((slip - old) / dt) 0 with h | h | h
    · exact (mul_pos_of_neg_of_neg (h2.mpr h) h).le
    · rw [h]; simp
    · exact (mul_pos (h1.mpr h) h).le

/-- C28: its modulus never exceeds the slip resistance. -/
theorem C28_bounded (l : Law) (hk : 0 < l.k) (slip old g dt : ℝ) (hg : 0 ≤ g) :
    |l.microstress slip old g dt| ≤ g := by
  unfold Law.microstress
  simp only
  split_ifs
  · rw [abs_mul, abs_of_nonneg hg]
    exact mul_le_of_le_one_right hg (sgn_abs_le _)
  · rw [abs_mul, abs_of_nonneg hg]
    exact mul_le_of_le_one_right hg (C26_bounded l.f l.k hk _).le

/-- C28: it vanishes with the slip increment. -/
theorem C28_vanishes (l : Law) (slip g dt : ℝ) : l.microstress slip slip g dt = 0 := by
  unfold Law.microstress
  simp [sgn_zero, reg_zero]

/-- C28: rate-independent behaviour: the modulus is the slip resistance whenever the slip
changes. -/
theorem C28_rate_independent (l : Law) (hr : l.rateIndependent = true) (slip old g dt : ℝ)
    (hg : 0 ≤ g) (hdt : 0 < dt) (h : slip ≠ old) : |l.microstress slip old g dt| = g := by
  unfold Law.microstress
  simp only [hr, if_true]
  rw [abs_mul, abs_of_nonneg hg, sgn_abs_ne, mul_one]
  exact div_ne_zero (sub_ne_zero.mpr h) hdt.ne'

/-- C28: rate-dependent behaviour: larger increments give larger microstresses. -/
theorem C28_monotone (l : Law) (hk : 0 < l.k) (hr : l.rateIndependent = false)
    (slip slip' old g dt : ℝ) (hg : 0 < g) (hdt : 0 < dt) (h : slip < slip') :
    l.microstress slip old g dt < l.microstress slip' old g dt := by
  unfold Law.microstress
  simp only [hr, Bool.false_eq_true, if_false]
  apply mul_lt_mul_of_pos_left _ hg
  apply C26_strictMono l.f l.k hk
  exact (div_lt_div_iff_of_pos_right hdt).mpr (by linarith)

/-- C28, the microstress in the equations: its bound is the slip resistance hardened by the slip increments of
the trial state itself; it dissipates, and rate-independently its modulus is that resistance. -/
theorem C28_current {n : ℕ} (l : Law) (hk : 0 < l.k) (b : Bulk n) (hp : b.prm.perfect = false)
    (slips old : Fin n → ℝ) (dt : ℝ) (hdt : 0 < dt) (a : Fin n) (g : ℝ) (hg : 0 ≤ g)
    (h : g = b.tmp a + ∑ β, b.prm.modulus / b.prm.characteristic *
      (b.prm.parameter + (1 - b.prm.parameter) * (if a = β then 1 else 0)) * |slips β - old β|) :
    |l.evalMicrostress b slips old dt a| ≤ g ∧
    0 ≤ l.evalMicrostress b slips old dt a * (slips a - old a) ∧
    (l.rateIndependent = true → slips a ≠ old a → |l.evalMicrostress b slips old dt a| = g) ∧
    (l.rateIndependent = false → l.evalMicrostress b slips old dt a =
      g * reg l.f l.k ((slips a - old a) / dt)) := by
  have e : (b.update slips old).res a = g := by rw [C17_hardening_law b slips old a hp, h]
  unfold Law.evalMicrostress
  rw [e]
  refine ⟨C28_bounded l hk _ _ _ _ hg, C28_dissipative l hk _ _ _ _ hg hdt,
    fun hr hs => C28_rate_independent l hr _ _ _ _ hg hdt hs, fun hr => ?_⟩
  unfold Law.microstress
  simp only [hr, Bool.false_eq_true, if_false]

/-- Two systems: the first flows at its hardened resistance `10 + 100 · 2 + 140 · 3`. -/
example : |(⟨.tanh, 1 / 1000, true, ⟨10, 100, 1.4, 1, false⟩⟩ : Law).evalMicrostress
    (Bulk.init ⟨10, 100, 1.4, 1, false⟩ 2) ![2, 3] ![0, 0] 1 0| = 630 :=
  (C28_current _ (by norm_num) _ rfl _ _ 1 one_pos 0 630 (by norm_num) (by
    rw [Fin.sum_univ_two]; norm_num [Bulk.init])).2.2.1 rfl (by norm_num)

/-- A law that meets the hypotheses, and a case with non-zero dissipation. -/
noncomputable def exLaw : Law := ⟨.tanh, 1 / 1000, true, ⟨10, 100, 1.4, 1, false⟩⟩

example : 0 < exLaw.k ∧ exLaw.microstress 1 3 5 (1 / 2) * (1 - 3) = 10 := by
  refine ⟨by norm_num [exLaw], ?_⟩
  unfold Law.microstress
  simp only [exLaw, if_true]
  rw [sgn_of_neg (by norm_num)]
  norm_num

/-! ## C29 -/

theorem abs_hasDerivAt {x : ℝ} (h : x ≠ 0) : HasDerivAt (fun y : ℝ => |y|) (sgn x) x := by
  rcases lt_or_gt_of_ne h with h | h
  · rw [sgn_of_neg h]; exact hasDerivAt_abs_neg h
  · rw [sgn_of_pos h]; exact hasDerivAt_abs_pos h

/-- Derivative of the updated slip resistance of system `a` with respect to the slip of
system `b`. -/
theorem resistance_hasDerivAt {n : ℕ} (h : Bulk n) (hp : h.prm.perfect = false)
    (slips old : Fin n → ℝ) (a b : Fin n) (hb : slips b ≠ old b) :
    HasDerivAt (fun x => (h.update (Function.update slips b x) old).res a)
      (h.prm.entry (decide (a = b)) * sgn (slips b - old b)) (slips b) := by
  have hform : (fun x => (h.update (Function.update slips b x) old).res a) =
      fun x => h.prm.entry (decide (a = b)) * |x - old b| +
        (h.tmp a + ∑ β ∈ Finset.univ.erase b, h.prm.entry (decide (a = β)) * |slips β - old β|) := by
    funext x
    have hent : ∀ β, h.prm.modulus / h.prm.characteristic *
        (h.prm.parameter + (1 - h.prm.parameter) * (if a = β then 1 else 0)) =
        h.prm.entry (decide (a = β)) := by
      intro β; unfold Hardening.entry
      by_cases hab : a = β <;> simp [hab]
    rw [C17_hardening_law h _ _ _ hp, ← Finset.add_sum_erase _ _ (Finset.mem_univ b)]
    simp only [hent, Function.update_self]
    have : ∑ β ∈ Finset.univ.erase b,
        h.prm.entry (decide (a = β)) * |Function.update slips b x β - old β| =
        ∑ β ∈ Finset.univ.erase b, h.prm.entry (decide (a = β)) * |slips β - old β| := by
      apply Finset.sum_congr rfl
      intro β hβ
      rw [Function.update_of_ne (Finset.ne_of_mem_erase hβ)]
    rw [this]; ring
  rw [hform]
  apply HasDerivAt.add_const
  apply HasDerivAt.const_mul
  have h1 : HasDerivAt (fun x : ℝ => x - old b) 1 (slips b) := (hasDerivAt_id _).sub_const _
  have h2 := (abs_hasDerivAt (sub_ne_zero.mpr hb)).comp (slips b) h1
  exact h2.congr_deriv (mul_one _)

theorem rate_hasDerivAt {n : ℕ} (slips old : Fin n → ℝ) (dt : ℝ) (a b : Fin n) :
    HasDerivAt (fun x => (Function.update slips b x a - old a) / dt)
      (if a = b then 1 / dt else 0) (slips b) := by
  by_cases hab : a = b
  · subst hab
    rw [if_pos rfl]
    simp only [Function.update_self]
    exact ((hasDerivAt_id _).sub_const _).div_const _
  · rw [if_neg hab]
    simp only [Function.update_of_ne hab]
    exact hasDerivAt_const _ _

theorem sgn_rate_hasDerivAt {n : ℕ} (slips old : Fin n → ℝ) (dt : ℝ) (hdt : 0 < dt) (a b : Fin n)
    (ha : slips a ≠ old a) :
    HasDerivAt (fun x => sgn ((Function.update slips b x a - old a) / dt)) 0 (slips b) := by
  simp only [sgn_div hdt]
  by_cases hab : a = b
  · subst hab
    simp only [Function.update_self]
    have hloc : (fun x => sgn (x - old a)) =ᶠ[nhds (slips a)] fun _ => sgn (slips a - old a) := by
      rcases lt_or_gt_of_ne ha with h | h
      · filter_upwards [Iio_mem_nhds h] with x hx
        rw [sgn_of_neg (sub_neg.mpr hx), sgn_of_neg (sub_neg.mpr h)]
      · filter_upwards [Ioi_mem_nhds h] with x hx
        rw [sgn_of_pos (sub_pos.mpr hx), sgn_of_pos (sub_pos.mpr h)]
    exact (hasDerivAt_const _ _).congr_of_eventuallyEq hloc
  · simp only [Function.update_of_ne hab]
    exact hasDerivAt_const _ _

/-- C29: rate-independent behaviour: the tangent is the exact derivative of the microstress,
hardening of all systems by all systems included, wherever the two increments involved do
not vanish. -/
theorem C29_rate_independent {n : ℕ} (l : Law) (hr : l.rateIndependent = true) (h : Bulk n)
    (hl : h.prm = l.hard) (hp : l.hard.perfect = false) (slips old : Fin n → ℝ) (dt : ℝ)
    (hdt : 0 < dt) (a b : Fin n) (ha : slips a ≠ old a) (hb : slips b ≠ old b) :
    HasDerivAt (fun x => l.evalMicrostress h (Function.update slips b x) old dt a)
      (l.evalJacobian h slips old dt a b) (slips b) := by
  unfold Law.evalMicrostress Law.microstress
  simp only [hr, if_true]
  have h1 := resistance_hasDerivAt h (hl ▸ hp) slips old a b hb
  have h2 := sgn_rate_hasDerivAt slips old dt hdt a b ha
  have h3 := h1.mul h2
  simp only [Function.update_eq_self] at h3
  refine h3.congr_deriv ?_
  unfold Law.evalJacobian Law.jacobian
  simp only [hr, hp, Bool.false_eq_true, if_false, if_true, sgn_div hdt]
  rw [if_neg (by simp), hl]
  ring

/-- C29, partial: rate-dependent behaviour: the derivative is the tangent plus the error
`h_ab * r(v_a) * (sgn v_b - r(v_b))`: the code replaces the sign of the increment of system
`b` by its regularisation.  Missing: exactness, which does not hold
(`C29_violated_rate_dependent`). -/
theorem C29_rate_dependent_partial {n : ℕ} (l : Law) (hk : 0 < l.k)
    (hr : l.rateIndependent = false) (h : Bulk n)
    (hl : h.prm = l.hard) (hp : l.hard.perfect = false) (slips old : Fin n → ℝ) (dt : ℝ)
    (hdt : 0 < dt) (a b : Fin n) (hb : slips b ≠ old b) :
    HasDerivAt (fun x => l.evalMicrostress h (Function.update slips b x) old dt a)
      (l.evalJacobian h slips old dt a b +
        l.hard.entry (decide (a = b)) * reg l.f l.k ((slips a - old a) / dt) *
          (sgn (slips b - old b) - reg l.f l.k ((slips b - old b) / dt))) (slips b) := by
  unfold Law.evalMicrostress Law.microstress
  simp only [hr, Bool.false_eq_true, if_false]
  have h1 := resistance_hasDerivAt h (hl ▸ hp) slips old a b hb
  have h2 : HasDerivAt (fun x => reg l.f l.k ((Function.update slips b x a - old a) / dt))
      (regDeriv l.f l.k ((slips a - old a) / dt) * (if a = b then 1 / dt else 0)) (slips b) := by
    have hv : (Function.update slips b (slips b) a - old a) / dt = (slips a - old a) / dt := by
      rw [Function.update_eq_self]
    have hd := C27_derivative l.f l.k hk ((slips a - old a) / dt)
    rw [← hv] at hd
    have h2 := HasDerivAt.comp (slips b) hd (rate_hasDerivAt slips old dt a b)
    rw [hv] at h2
    exact h2
  have h3 := h1.mul h2
  simp only [Function.update_eq_self, Function.comp] at h3
  refine h3.congr_deriv ?_
  unfold Law.evalJacobian Law.jacobian
  simp only [hr, hp, Bool.false_eq_true, if_false, and_true, hl]
  by_cases hab : a = b
  · subst hab; simp only [if_true]; ring
  · simp only [if_neg hab]; ring

/-- C29: under perfect plasticity the rate-dependent tangent is exact, everywhere. -/
theorem C29_perfect {n : ℕ} (l : Law) (hk : 0 < l.k)
    (hr : l.rateIndependent = false) (h : Bulk n)
    (hl : h.prm = l.hard) (hp : l.hard.perfect = true) (slips old : Fin n → ℝ) (dt : ℝ)
    (a b : Fin n) :
    HasDerivAt (fun x => l.evalMicrostress h (Function.update slips b x) old dt a)
      (l.evalJacobian h slips old dt a b) (slips b) := by
  have hup : ∀ s, (h.update s old).res = h.tmp := fun s => C17_perfect h s old (hl ▸ hp)
  unfold Law.evalMicrostress Law.microstress
  simp only [hr, Bool.false_eq_true, if_false, hup]
  have h2 : HasDerivAt (fun x => reg l.f l.k ((Function.update slips b x a - old a) / dt))
      (regDeriv l.f l.k ((slips a - old a) / dt) * (if a = b then 1 / dt else 0)) (slips b) := by
    have hv : (Function.update slips b (slips b) a - old a) / dt = (slips a - old a) / dt := by
      rw [Function.update_eq_self]
    have hd := C27_derivative l.f l.k hk ((slips a - old a) / dt)
    rw [← hv] at hd
    have h2 := HasDerivAt.comp (slips b) hd (rate_hasDerivAt slips old dt a b)
    rw [hv] at h2
    exact h2
  have h3 := h2.const_mul (h.tmp a)
  refine h3.congr_deriv ?_
  unfold Law.evalJacobian Law.jacobian
  simp only [hr, hp, if_true, and_true, hup]
  by_cases hab : a = b
  · subst hab; simp only [if_true]; ring
  · simp only [if_neg hab]; ring

/-- C29 violated: in rate-dependent behaviour with hardening the tangent entry is never the
derivative when both increments are non-zero. -/
theorem C29_violated_rate_dependent {n : ℕ} (l : Law) (hk : 0 < l.k)
    (hr : l.rateIndependent = false) (h : Bulk n) (hl : h.prm = l.hard)
    (hp : l.hard.perfect = false) (slips old : Fin n → ℝ) (dt : ℝ) (hdt : 0 < dt) (a b : Fin n)
    (ha : slips a ≠ old a) (hb : slips b ≠ old b) (hent : l.hard.entry (decide (a = b)) ≠ 0) :
    ¬ HasDerivAt (fun x => l.evalMicrostress h (Function.update slips b x) old dt a)
      (l.evalJacobian h slips old dt a b) (slips b) := by
  intro hd
  have h1 := C29_rate_dependent_partial l hk hr h hl hp slips old dt hdt a b hb
  have h2 := hd.unique h1
  have h3 : l.hard.entry (decide (a = b)) * reg l.f l.k ((slips a - old a) / dt) *
      (sgn (slips b - old b) - reg l.f l.k ((slips b - old b) / dt)) = 0 := by linarith
  rcases mul_eq_zero.mp h3 with h4 | h4
  · rcases mul_eq_zero.mp h4 with h5 | h5
    · exact hent h5
    · have := (C26_sign l.f l.k hk _).2.2.mp h5
      exact div_ne_zero (sub_ne_zero.mpr ha) hdt.ne' this
  · have h5 : |reg l.f l.k ((slips b - old b) / dt)| = 1 := by
      rw [← sub_eq_zero.mp h4]; exact sgn_abs_ne (sub_ne_zero.mpr hb)
    exact absurd h5 (C26_bounded l.f l.k hk _).ne

/-- C29: the error vanishes as the regularisation saturates: it is at most
`h_ab * (1 - |r(v_b)|)`. -/
theorem C29_error_bound (l : Law) (hk : 0 < l.k) (hent va vb : ℝ) (hvb : vb ≠ 0)
    (hh : 0 ≤ hent) :
    |hent * reg l.f l.k va * (sgn vb - reg l.f l.k vb)| ≤ hent * (1 - |reg l.f l.k vb|) := by
  have h1 := (C26_bounded l.f l.k hk va).le
  have h2 : |sgn vb - reg l.f l.k vb| = 1 - |reg l.f l.k vb| := by
    have hb := C26_bounded l.f l.k hk vb
    have hs := C26_sign l.f l.k hk vb
    rcases lt_or_gt_of_ne hvb with h | h
    · have hneg := hs.2.1.mpr h
      rw [abs_of_neg hneg] at hb ⊢
      rw [sgn_of_neg h, abs_of_neg (by linarith)]; ring
    · have hpos := hs.1.mpr h
      rw [abs_of_pos hpos] at hb ⊢
      rw [sgn_of_pos h, abs_of_pos (by linarith)]
  rw [abs_mul, abs_mul, h2, abs_of_nonneg hh]
  have h3 : 0 ≤ 1 - |reg l.f l.k vb| := by linarith [C26_bounded l.f l.k hk vb]
  nlinarith [mul_nonneg hh h3]

/-- C29: the tangent matrix is symmetric. -/
theorem C29_symmetric {n : ℕ} (l : Law) (slips old res : Fin n → ℝ) (dt : ℝ) (a b : Fin n) :
    l.jacobian slips old res dt a b = l.jacobian slips old res dt b a := by
  unfold Law.jacobian
  by_cases hab : a = b
  · subst hab; rfl
  · have hba : ¬ b = a := fun h => hab h.symm
    simp only [hab, hba, decide_false, false_and, if_false]
    congr 1
    split_ifs <;> ring

/-- A two-system state meeting the hypotheses of the C29 theorems. -/
example : (Bulk.init exLaw.hard 2).prm = exLaw.hard ∧ exLaw.hard.perfect = false ∧
    (![1, -2] : Fin 2 → ℝ) 0 ≠ ![0, 0] 0 ∧ (![1, -2] : Fin 2 → ℝ) 1 ≠ ![0, 0] 1 ∧
    exLaw.hard.entry (decide ((0 : Fin 2) = 1)) ≠ 0 := by
  refine ⟨rfl, rfl, by norm_num, by norm_num, ?_⟩
  norm_num [exLaw, Hardening.entry]

end Verif.Micro
