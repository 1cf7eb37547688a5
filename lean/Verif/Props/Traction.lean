import Verif.Model.Traction
import Mathlib.Tactic.Linarith
import Mathlib.Tactic.NormNum
import Mathlib.Tactic.FieldSimp
import Mathlib.Analysis.SpecialFunctions.Trigonometric.Basic

/-!
# C82: the traction boundary condition applies the traction of the loading programme
-/

namespace Verif.Load

/-- A monotonic programme prescribes `max_load` per unit of time, in units of the characteristic
traction. -/
noncomputable def SpecMonotonicTraction (p : Prog) (charTraction time : ℝ) : ℝ :=
  time * p.maxLoad / charTraction

/-- C82: what the object returns is no traction at all, for every programme, time and component. -/
theorem C82_zero (p : Prog) (ct time : ℝ) (i : ℕ) : (Traction.new p ct).value time i = 0 := by
  unfold Traction.value Traction.load Traction.new
  simp

/-- C82 is violated by every monotonic programme with a load, at every time but zero: no component of
the traction is the prescribed one. -/
theorem C82_violated (p : Prog) (hm : p.maxLoad ≠ 0) (ct : ℝ) (hc : ct ≠ 0) (time : ℝ)
    (ht : time ≠ 0) (i : ℕ) :
    (Traction.new p ct).value time i ≠ SpecMonotonicTraction p ct time := by
  rw [C82_zero]
  exact (div_ne_zero (mul_ne_zero ht hm) hc).symm

/-- C82 restricted to programmes without load, the only ones for which it holds. -/
theorem C82_unloaded_partial (p : Prog) (hm : p.maxLoad = 0) (ct time : ℝ) (i : ℕ) :
    (Traction.new p ct).value time i = SpecMonotonicTraction p ct time := by
  rw [C82_zero, SpecMonotonicTraction, hm, mul_zero, zero_div]

/-! ## The formulas behind the constructor

What the object would return had it been given loads; not reachable through the constructor. -/

/-- Monotonic: the prescribed component is the time times the largest traction, all others vanish. -/
theorem C82_monotonic_partial (c : Traction) (h : c.type = .monotonic) (time : ℝ) (i : ℕ) :
    c.value time i = if i = c.component then time * c.maxTraction / c.charTraction else 0 := by
  unfold Traction.value Traction.load
  rw [h]

/-- Cyclic: the traction rises linearly to the mean traction, oscillates about it with the period of the
programme between the smallest and the largest traction, and falls linearly to zero within one unit of time
after the start of the unloading; all other components vanish. -/
theorem C82_cyclic_partial (c : Traction) (h : c.type = .cyclic) (hT : 0 < c.period) :
    let mean := (c.minTraction + c.maxTraction) / 2
    (∀ time i, i ≠ c.component → c.value time i = 0) ∧
    (∀ time, time < c.startCyclic → c.value time c.component = time * mean / c.charTraction) ∧
    (∀ m : ℕ, ∀ s, c.startCyclic ≤ s → s + m * c.period < c.startUnloading →
      c.value (s + m * c.period) c.component = c.value s c.component) ∧
    (c.startCyclic < c.startUnloading → c.value c.startCyclic c.component = mean / c.charTraction) ∧
    (c.startCyclic + c.period / 4 < c.startUnloading →
      c.value (c.startCyclic + c.period / 4) c.component = c.maxTraction / c.charTraction) ∧
    (c.startCyclic + 3 * c.period / 4 < c.startUnloading →
      c.value (c.startCyclic + 3 * c.period / 4) c.component = c.minTraction / c.charTraction) ∧
    (c.startCyclic ≤ c.startUnloading → ∀ s, 0 ≤ s →
      c.value (c.startUnloading + s) c.component = mean * (1 - s) / c.charTraction) := by
  intro mean
  have hv : ∀ time, c.value time c.component = c.load time / c.charTraction := fun time => by
    unfold Traction.value; rw [if_pos rfl]
  have hl : ∀ time, c.startCyclic ≤ time → time < c.startUnloading → c.load time =
      (c.maxTraction - c.minTraction) / 2 *
        Real.sin (2 * Real.pi / c.period * (time - c.startCyclic)) + (c.maxTraction + c.minTraction) / 2 := by
    intro time h1 h2
    unfold Traction.load
    simp only [h]
    rw [if_neg (not_lt.2 h1), if_pos h2]
  refine ⟨fun time i hi => ?_, fun time ht => ?_, fun m s h1 h2 => ?_, fun h2 => ?_, fun h2 => ?_,
    fun h2 => ?_, fun h2 s hs => ?_⟩
  · unfold Traction.value; rw [if_neg hi]
  · rw [hv]
    unfold Traction.load
    simp only [h]
    rw [if_pos ht]
    simp only [mean]; ring
  · have hm : 0 ≤ m * c.period := by positivity
    rw [hv, hv, hl _ (by linarith) h2, hl _ h1 (by linarith)]
    rw [show 2 * Real.pi / c.period * (s + m * c.period - c.startCyclic) =
      2 * Real.pi / c.period * (s - c.startCyclic) + m * (2 * Real.pi) by field_simp; ring,
      Real.sin_add_nat_mul_two_pi]
  · rw [hv, hl _ le_rfl h2, sub_self, mul_zero, Real.sin_zero]
    simp only [mean]; ring
  · rw [hv, hl _ (by linarith) h2, show 2 * Real.pi / c.period * (c.startCyclic + c.period / 4 -
      c.startCyclic) = Real.pi / 2 by field_simp; ring, Real.sin_pi_div_two]
    ring
  · rw [hv, hl _ (by linarith) h2, show 2 * Real.pi / c.period * (c.startCyclic + 3 * c.period / 4 -
      c.startCyclic) = Real.pi / 2 + Real.pi by field_simp; ring, Real.sin_add_pi, Real.sin_pi_div_two]
    ring
  · rw [hv]
    unfold Traction.load
    simp only [h]
    rw [if_neg (by linarith), if_neg (by linarith)]
    simp only [mean]; ring

/-- An object with the loads 3 and 1 and period 4: largest traction one time unit after the start. -/
example : (⟨.cyclic, 3, 1, 0, 4, 1, 9, 2⟩ : Traction).value 2 0 = 3 / 2 := by
  have := (C82_cyclic_partial ⟨.cyclic, 3, 1, 0, 4, 1, 9, 2⟩ rfl (by norm_num)).2.2.2.2.1 (by norm_num)
  norm_num at this
  exact this

example : ∃ p : Prog, p.type = .monotonic ∧ p.maxLoad ≠ 0 :=
  ⟨⟨.monotonic, 0, 1, 0, 1, 1, 1, 1, 1, 1, 1, false⟩, rfl, by norm_num⟩

end Verif.Load
