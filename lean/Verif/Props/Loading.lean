import Verif.Model.Loading
import Mathlib.Tactic.Linarith
import Mathlib.Tactic.FieldSimp
import Mathlib.Tactic.Ring
import Mathlib.Tactic.NormNum
import Mathlib.Tactic.Positivity

/-!
# C46 (time programme), C47 (skipped extrapolation), C48 (boundary displacement), C49 (strips)
-/

namespace Verif.Load

/-! ## Specification of the load programme -/

/-- Durations and step counts are positive. -/
def SpecPositive (p : Prog) : Prop :=
  match p.type with
  | .monotonic => 0 < p.durMono ∧ 0 < p.nMono
  | .cyclic => 0 < p.durLoad ∧ 0 < p.nLoad ∧ 0 < p.period ∧ 0 < p.nQuarter

/-- Prescribed number of steps. -/
def SpecSteps (p : Prog) : ℕ :=
  match p.type with
  | .monotonic => p.nMono
  | .cyclic => p.nLoad + 4 * p.nQuarter * p.nCycles + (if p.skipUnloading then 0 else p.nLoad)

/-- Prescribed time at the beginning of step `k`: equal steps within each phase. -/
noncomputable def SpecTime (p : Prog) (k : ℕ) : ℝ :=
  match p.type with
  | .monotonic => p.start + k * (p.durMono / p.nMono)
  | .cyclic =>
    if k ≤ p.nLoad then p.start + k * (p.durLoad / p.nLoad)
    else if k ≤ p.nLoad + 4 * p.nQuarter * p.nCycles then
      p.start + p.durLoad + (k - p.nLoad) * (p.period / (4 * p.nQuarter))
    else p.start + p.durLoad + p.nCycles * p.period +
      (k - (p.nLoad + 4 * p.nQuarter * p.nCycles)) * (p.durLoad / p.nLoad)

/-- What follows a phase is not shorter than the tolerance of the time stepping (5% of the last
step of the phase). -/
def SpecNotSwallowed (tol : ℝ) (p : Prog) : Prop :=
  match p.type with
  | .monotonic => True
  | .cyclic => p.nCycles = 0 ∨
      (tol * (p.durLoad / p.nLoad) ≤
          p.nCycles * p.period + (if p.skipUnloading then 0 else p.durLoad) ∧
        (p.skipUnloading = true ∨ tol * (p.period / (4 * p.nQuarter)) ≤ p.durLoad))

/-! ## Helpers -/

theorem dtCyclic_eq (p : Prog) : p.dtCyclic = p.period / (4 * p.nQuarter) := by
  unfold Prog.dtCyclic; rw [div_div]

theorem specTime_zero (p : Prog) : SpecTime p 0 = p.start := by
  unfold SpecTime
  cases p.type <;> simp

theorem cyc_period (p : Prog) (hq : 0 < p.nQuarter) :
    ((4 * p.nQuarter * p.nCycles : ℕ) : ℝ) * (p.period / (4 * p.nQuarter)) =
      p.nCycles * p.period := by
  have : (p.nQuarter : ℝ) ≠ 0 := by exact_mod_cast hq.ne'
  push_cast
  field_simp

theorem specTime_succ (p : Prog) (h : SpecPositive p) (k : ℕ) :
    SpecTime p (k + 1) = SpecTime p k + p.stepSize k := by
  unfold SpecTime Prog.stepSize SpecPositive at *
  cases ht : p.type with
  | monotonic =>
    simp only
    unfold Prog.dtMono
    push_cast; ring
  | cyclic =>
    rw [ht] at h
    simp only at h ⊢
    obtain ⟨h1, h2, h3, h4⟩ := h
    have hn : (p.nLoad : ℝ) ≠ 0 := by exact_mod_cast h2.ne'
    have hc := cyc_period p h4
    rw [dtCyclic_eq]
    unfold Prog.dtLoad
    by_cases a : k < p.nLoad
    · rw [if_pos (by omega), if_pos (by omega), if_pos a]
      push_cast; ring
    · rw [if_neg (by omega : ¬ k + 1 ≤ p.nLoad), if_neg a]
      by_cases b : k < p.nLoad + 4 * p.nQuarter * p.nCycles
      · rw [if_pos (by omega), if_pos b]
        by_cases e : k ≤ p.nLoad
        · have : k = p.nLoad := by omega
          subst this
          rw [if_pos le_rfl]
          push_cast
          field_simp
          ring
        · rw [if_neg e, if_pos (by omega)]
          push_cast; ring
      · rw [if_neg (by omega), if_neg b]
        by_cases e : k ≤ p.nLoad
        · have hk : k = p.nLoad := by omega
          have hz : 4 * p.nQuarter * p.nCycles = 0 := by omega
          rw [if_pos e]
          have hz' : (p.nCycles : ℝ) * p.period = 0 := by
            rw [← hc, hz]; simp
          have hz2 : (4 * (p.nQuarter : ℝ) * p.nCycles) = 0 := by exact_mod_cast hz
          rw [hk, hz2, hz']
          push_cast
          field_simp
          ring
        · rw [if_neg e]
          by_cases e2 : k ≤ p.nLoad + 4 * p.nQuarter * p.nCycles
          · have hk : k = p.nLoad + 4 * p.nQuarter * p.nCycles := by omega
            rw [if_pos e2, ← hc, hk]
            push_cast
            ring
          · rw [if_neg e2]
            push_cast; ring

theorem stepSize_pos (p : Prog) (h : SpecPositive p) (k : ℕ) : 0 < p.stepSize k := by
  unfold SpecPositive Prog.stepSize at *
  cases ht : p.type with
  | monotonic =>
    rw [ht] at h
    simp only at h ⊢
    unfold Prog.dtMono
    have : (0 : ℝ) < p.nMono := by exact_mod_cast h.2
    exact div_pos h.1 this
  | cyclic =>
    rw [ht] at h
    simp only at h ⊢
    obtain ⟨h1, h2, h3, h4⟩ := h
    have : (0 : ℝ) < p.nLoad := by exact_mod_cast h2
    have h5 : (0 : ℝ) < p.nQuarter := by exact_mod_cast h4
    rw [dtCyclic_eq]
    unfold Prog.dtLoad
    split_ifs <;> positivity

theorem specTime_end (p : Prog) (h : SpecPositive p) : SpecTime p (SpecSteps p) = p.endTime := by
  unfold SpecPositive SpecTime SpecSteps Prog.endTime at *
  cases ht : p.type with
  | monotonic =>
    rw [ht] at h
    simp only at h ⊢
    have : (p.nMono : ℝ) ≠ 0 := by exact_mod_cast h.2.ne'
    field_simp
  | cyclic =>
    rw [ht] at h
    simp only at h ⊢
    obtain ⟨h1, h2, h3, h4⟩ := h
    have hn : (p.nLoad : ℝ) ≠ 0 := by exact_mod_cast h2.ne'
    have hc := cyc_period p h4
    by_cases hs : p.skipUnloading = true
    · rw [if_pos hs, if_pos hs]
      by_cases hz : 4 * p.nQuarter * p.nCycles = 0
      · have hz' : (p.nCycles : ℝ) * p.period = 0 := by rw [← hc, hz]; simp
        rw [if_pos (by omega), hz, hz']
        push_cast
        field_simp
        ring
      · rw [if_neg (by omega), if_pos (by omega), ← hc]
        push_cast
        ring
    · rw [if_neg hs, if_neg hs, if_neg (by omega), if_neg (by omega)]
      push_cast
      field_simp
      ring

theorem specTime_mono (p : Prog) (h : SpecPositive p) {j k : ℕ} (hjk : j ≤ k) :
    SpecTime p j ≤ SpecTime p k := by
  induction k, hjk using Nat.le_induction with
  | base => exact le_rfl
  | succ k _ ih => rw [specTime_succ p h]; linarith [stepSize_pos p h k]

theorem specTime_gap (p : Prog) (h : SpecPositive p) {j k : ℕ} (hjk : j < k) :
    SpecTime p j + p.stepSize j ≤ SpecTime p k := by
  rw [← specTime_succ p h]
  exact specTime_mono p h hjk

/-- At the phase starts. -/
theorem specTime_phases (p : Prog) (hc : p.type = .cyclic) (h : SpecPositive p) :
    SpecTime p p.nLoad = p.startCyclic ∧
    SpecTime p (p.nLoad + 4 * p.nQuarter * p.nCycles) = p.startUnloading := by
  unfold SpecPositive SpecTime Prog.startCyclic Prog.startUnloading Prog.startCyclic at *
  rw [hc] at h ⊢
  simp only at h ⊢
  obtain ⟨h1, h2, h3, h4⟩ := h
  have hn : (p.nLoad : ℝ) ≠ 0 := by exact_mod_cast h2.ne'
  have hcp := cyc_period p h4
  constructor
  · rw [if_pos le_rfl]; field_simp
  · by_cases hz : 4 * p.nQuarter * p.nCycles = 0
    · have hz' : (p.nCycles : ℝ) * p.period = 0 := by rw [← hcp, hz]; simp
      rw [if_pos (by omega), hz, hz']
      push_cast
      field_simp
      ring
    · rw [if_neg (by omega), if_pos le_rfl, ← hcp]
      push_cast
      ring

theorem not_swallowed (p : Prog) (tol : ℝ) (ht1 : tol ≤ 1) (h : SpecPositive p)
    (hs : SpecNotSwallowed tol p) (k : ℕ) (hk : k + 1 < SpecSteps p) :
    tol * p.stepSize k ≤ p.endTime - SpecTime p (k + 1) := by
  rw [← specTime_end p h]
  have gap := specTime_gap p h hk
  have pos := stepSize_pos p h k
  have same : p.stepSize k = p.stepSize (k + 1) →
      tol * p.stepSize k ≤ SpecTime p (SpecSteps p) - SpecTime p (k + 1) := by
    intro he
    have : tol * p.stepSize k ≤ 1 * p.stepSize k := mul_le_mul_of_nonneg_right ht1 pos.le
    rw [he] at this ⊢
    linarith
  cases htp : p.type with
  | monotonic =>
    apply same
    unfold Prog.stepSize; rw [htp]
  | cyclic =>
    have hph := specTime_phases p htp h
    have hend := specTime_end p h
    have hstep : ∀ j, p.stepSize j = if j < p.nLoad then p.dtLoad
        else if j < p.nLoad + 4 * p.nQuarter * p.nCycles then p.dtCyclic else p.dtLoad := by
      intro j; unfold Prog.stepSize; rw [htp]
    have hE : p.endTime = p.start + (if p.skipUnloading then 1 else 2) * p.durLoad +
        p.nCycles * p.period := by unfold Prog.endTime; rw [htp]
    have hS : SpecSteps p = p.nLoad + 4 * p.nQuarter * p.nCycles +
        (if p.skipUnloading then 0 else p.nLoad) := by unfold SpecSteps; rw [htp]
    unfold SpecNotSwallowed at hs
    rw [htp] at hs
    simp only at hs
    by_cases hzero : 4 * p.nQuarter * p.nCycles = 0
    · apply same
      rw [hstep, hstep, hzero]
      split_ifs <;> first | rfl | omega
    · have hn0 : p.nCycles ≠ 0 := by rintro h0; rw [h0] at hzero; simp at hzero
      have hs' := hs.resolve_left hn0
      by_cases e1 : k + 1 = p.nLoad
      · -- last step of the loading phase
        have e2 : p.stepSize k = p.durLoad / p.nLoad := by
          rw [hstep, if_pos (by omega)]; rfl
        rw [e2, hend, e1, hph.1, hE]
        unfold Prog.startCyclic
        have := hs'.1
        split_ifs at this ⊢ <;> linarith
      · by_cases e3 : k + 1 = p.nLoad + 4 * p.nQuarter * p.nCycles
        · have e2 : p.stepSize k = p.period / (4 * p.nQuarter) := by
            rw [hstep, if_neg (by omega), if_pos (by omega), dtCyclic_eq]
          rw [e2, hend, e3, hph.2, hE]
          unfold Prog.startUnloading Prog.startCyclic
          rcases hs'.2 with hu | hu
          · rw [hS, if_pos hu] at hk; omega
          · have hne : ¬ p.skipUnloading = true := by
              intro hu'; rw [hS, if_pos hu'] at hk; omega
            rw [if_neg hne]
            linarith
        · apply same
          rw [hstep, hstep]
          by_cases a : k + 1 < p.nLoad
          · rw [if_pos (by omega), if_pos a]
          · rw [if_neg (by omega : ¬ k < p.nLoad), if_neg a]
            by_cases b : k + 1 < p.nLoad + 4 * p.nQuarter * p.nCycles
            · rw [if_pos (by omega), if_pos b]
            · rw [if_neg (by omega : ¬ k < p.nLoad + _), if_neg b]

/-! ## C46 -/

/-- C46: the time loop runs through exactly the prescribed times, with positive steps, enters its
body exactly the prescribed number of times, and ends exactly at the end time; the phase starts are
hit exactly.  Missing from the full property: programmes with a zero duration
(`C46_violated_zero_duration`) and those in which what follows a phase is shorter than 5% of a step
(`C46_violated_swallowed`). -/
theorem C46_programme_partial (p : Prog) (tol : ℝ) (ht1 : tol ≤ 1)
    (h : SpecPositive p) (hs : SpecNotSwallowed tol p) :
    (∀ k ≤ SpecSteps p, p.time tol k = SpecTime p k) ∧
    (∀ k, p.entered tol k ↔ k < SpecSteps p) ∧
    (∀ k < SpecSteps p, p.time tol (k + 1) - p.time tol k = p.stepSize k ∧ 0 < p.stepSize k) ∧
    p.time tol (SpecSteps p) = p.endTime ∧
    (p.type = .cyclic → p.time tol p.nLoad = p.startCyclic ∧
      p.time tol (p.nLoad + 4 * p.nQuarter * p.nCycles) = p.startUnloading) := by
  have main : ∀ k ≤ SpecSteps p, p.time tol k = SpecTime p k := by
    intro k
    induction k with
    | zero => intro _; rw [specTime_zero]; rfl
    | succ k ih =>
      intro hk
      have e := ih (by omega)
      unfold Prog.time nextTime
      rw [e, ← specTime_succ p h]
      by_cases hl : k + 1 < SpecSteps p
      · rw [if_neg]
        have := not_swallowed p tol ht1 h hs k hl
        linarith
      · have : k + 1 = SpecSteps p := by omega
        rw [this, specTime_end p h]
        split_ifs <;> rfl
  have hlt : ∀ k < SpecSteps p, p.time tol k < p.endTime := by
    intro k hk
    rw [main k hk.le, ← specTime_end p h]
    have := specTime_gap p h hk
    linarith [stepSize_pos p h k]
  refine ⟨main, fun k => ⟨fun he => ?_, fun hk j hj => hlt j (by omega)⟩, fun k hk => ?_, ?_,
    fun hc => ?_⟩
  · by_contra hcon
    have := he (SpecSteps p) (by omega)
    rw [main _ le_rfl, specTime_end p h] at this
    exact lt_irrefl _ this
  · rw [main k hk.le, main (k + 1) hk, specTime_succ p h]
    exact ⟨by ring, stepSize_pos p h k⟩
  · rw [main _ le_rfl, specTime_end p h]
  · have := specTime_phases p hc h
    have hS : SpecSteps p = p.nLoad + 4 * p.nQuarter * p.nCycles +
        (if p.skipUnloading then 0 else p.nLoad) := by unfold SpecSteps; rw [hc]
    rw [main _ (by rw [hS]; omega), main _ (by rw [hS]; omega)]
    exact this

/-- Monotonic programmes with a positive duration satisfy the hypotheses. -/
theorem C46_monotonic_partial (p : Prog) (hm : p.type = .monotonic) (hd : 0 < p.durMono)
    (hn : 0 < p.nMono) :
    p.time 0.05 p.nMono = p.endTime ∧
    ∀ k ≤ p.nMono, p.time 0.05 k = p.start + k * (p.durMono / p.nMono) := by
  have h : SpecPositive p := by unfold SpecPositive; rw [hm]; exact ⟨hd, hn⟩
  have hs : SpecNotSwallowed 0.05 p := by unfold SpecNotSwallowed; rw [hm]; trivial
  have hN : SpecSteps p = p.nMono := by unfold SpecSteps; rw [hm]
  obtain ⟨a, _, _, d, _⟩ := C46_programme_partial p 0.05 (by norm_num) h hs
  rw [hN] at a d
  refine ⟨d, fun k hk => ?_⟩
  rw [a k hk]
  unfold SpecTime; rw [hm]

/-- Non-vacuity: the cyclic default programme (20 loading steps, one cycle of 20). -/
example : ∃ p : Prog, p.type = .cyclic ∧ SpecPositive p ∧ SpecNotSwallowed 0.05 p ∧
    SpecSteps p = 40 :=
  ⟨⟨.cyclic, 0, 1, 0, 1, 20, 1, 20, 1, 1, 5, true⟩, rfl,
    ⟨by norm_num, by norm_num, by norm_num, by norm_num⟩,
    Or.inr ⟨by norm_num, Or.inl rfl⟩, rfl⟩

/-- C46 is violated: a cyclic programme whose cyclic phase is shorter than 5% of a loading step is
swallowed.  One loading step of duration 1 and one cycle of period 1/25 with unloading skipped: the
first step jumps to the end time, none of the four cyclic steps is made. -/
theorem C46_violated_swallowed : ∃ p : Prog, SpecPositive p ∧ SpecSteps p = 5 ∧
    p.time 0.05 1 = p.endTime ∧ p.time 0.05 1 ≠ SpecTime p 1 ∧ ¬ p.entered 0.05 1 := by
  have ht : (⟨.cyclic, 0, 1, 0, 1, 20, 1, 1, 1, 1 / 25, 1, true⟩ : Prog).time 0.05 1 =
      (⟨.cyclic, 0, 1, 0, 1, 20, 1, 1, 1, 1 / 25, 1, true⟩ : Prog).endTime := by
    simp only [Prog.time, nextTime, Prog.stepSize, Prog.endTime, Prog.dtLoad]
    norm_num
  refine ⟨⟨.cyclic, 0, 1, 0, 1, 20, 1, 1, 1, 1 / 25, 1, true⟩,
    ⟨by norm_num, by norm_num, by norm_num, by norm_num⟩, rfl, ht, ?_, ?_⟩
  · rw [ht]; simp [Prog.endTime, SpecTime]
  · intro he
    have := he 1 le_rfl
    rw [ht] at this
    exact lt_irrefl _ this

/-- The time never passes the end, and before the end it is never behind the programme. -/
theorem time_bounds (p : Prog) (tol : ℝ) (h0 : 0 ≤ tol) (h : SpecPositive p) (k : ℕ) :
    p.time tol k ≤ max p.start p.endTime ∧ min (SpecTime p k) p.endTime ≤ p.time tol k := by
  induction k with
  | zero => exact ⟨le_max_left _ _, by rw [specTime_zero]; exact min_le_left _ _⟩
  | succ k ih =>
    have hd := stepSize_pos p h k
    have hm : 0 ≤ tol * p.stepSize k := mul_nonneg h0 hd.le
    unfold Prog.time nextTime
    split_ifs with hc
    · exact ⟨le_max_right _ _, min_le_right _ _⟩
    · push Not at hc
      refine ⟨le_trans (by linarith) (le_max_right _ _), ?_⟩
      rcases le_total (SpecTime p k) p.endTime with hk | hk
      · have := ih.2
        rw [min_eq_left hk] at this
        refine le_trans (min_le_left _ _) ?_
        rw [specTime_succ p h]; linarith
      · have := ih.2
        rw [min_eq_right hk] at this
        exact le_trans (min_le_right _ _) (by linarith)

/-- C46: for every programme with positive durations and step counts, swallowed phases or not, the
time loop ends, exactly at the end time, after at most the programmed number of steps; time increases
in every step. -/
theorem C46_terminates (p : Prog) (tol : ℝ) (h0 : 0 ≤ tol) (h : SpecPositive p) :
    ∃ N ≤ SpecSteps p, (∀ k, p.entered tol k ↔ k < N) ∧ p.time tol N = p.endTime ∧
      ∀ k < N, p.time tol k < p.time tol (k + 1) := by
  have hse : p.start ≤ p.endTime := by
    rw [← specTime_zero, ← specTime_end p h]; exact specTime_mono p h (Nat.zero_le _)
  have hle : ∀ k, p.time tol k ≤ p.endTime := fun k => by
    have := (time_bounds p tol h0 h k).1
    rwa [max_eq_right hse] at this
  have hN : p.time tol (SpecSteps p) = p.endTime := by
    refine le_antisymm (hle _) ?_
    have := (time_bounds p tol h0 h (SpecSteps p)).2
    rwa [specTime_end p h, min_self] at this
  classical
  have hex : ∃ N, p.time tol N = p.endTime := ⟨_, hN⟩
  refine ⟨Nat.find hex, Nat.find_min' hex hN, fun k => ⟨fun he => ?_, fun hk j hj => ?_⟩,
    Nat.find_spec hex, fun k hk => ?_⟩
  · by_contra hn
    push Not at hn
    have := he _ hn
    rw [Nat.find_spec hex] at this
    exact lt_irrefl _ this
  · exact lt_of_le_of_ne (hle j) (Nat.find_min hex (lt_of_le_of_lt hj hk))
  · have hlt := lt_of_le_of_ne (hle k) (Nat.find_min hex hk)
    have hd := stepSize_pos p h k
    show _ < nextTime _ _ _ _
    unfold nextTime
    split_ifs
    · exact hlt
    · linarith

/-- Non-vacuity: the programme whose cyclic phase is swallowed ends after one step. -/
example : ∃ p : Prog, SpecPositive p ∧ SpecSteps p = 5 :=
  ⟨⟨.cyclic, 0, 1, 0, 1, 20, 1, 1, 1, 1 / 25, 1, true⟩,
    ⟨by norm_num, by norm_num, by norm_num, by norm_num⟩, rfl⟩

/-- C46 is violated for the duration 0 of the loading phase, which the parameter file accepts: the
steps of that phase have size zero. -/
theorem C46_violated_zero_duration (p : Prog) (hc : p.type = .cyclic) (hd : p.durLoad = 0)
    (k : ℕ) (hk : k < p.nLoad) : p.stepSize k = 0 := by
  unfold Prog.stepSize
  rw [hc]
  simp only
  rw [if_pos hk]
  unfold Prog.dtLoad
  rw [hd, zero_div]

/-! ## C47 -/

theorem u32_of_lt {n : ℕ} (h : n < 2 ^ 32) : u32 (n : ℤ) = n := by
  unfold u32
  rw [Int.emod_eq_of_lt (by omega) (by exact_mod_cast h)]
  simp

/-- Fractional part of a quotient of naturals. -/
theorem fract_div (a b : ℕ) (hb : 0 < b) :
    Int.fract ((a : ℝ) / b) = ((a % b : ℕ) : ℝ) / b := by
  have hb' : (0 : ℝ) < b := by exact_mod_cast hb
  have h := Nat.div_add_mod a b
  have e : (a : ℝ) / b = ((a % b : ℕ) : ℝ) / b + ((a / b : ℕ) : ℤ) := by
    have : (a : ℝ) = b * ((a / b : ℕ) : ℝ) + ((a % b : ℕ) : ℝ) := by exact_mod_cast h.symm
    rw [Int.cast_natCast]
    field_simp
    linarith
  rw [e, Int.fract_add_intCast, Int.fract_eq_self]
  refine ⟨by positivity, ?_⟩
  rw [div_lt_one hb']
  exact_mod_cast Nat.mod_lt a hb

/-- C47: extrapolation is skipped exactly at the first step of the cyclic phase, at the first step
of the unloading phase, and at those steps of the cyclic phase at which a quarter or three quarters
of a period have elapsed. -/
theorem C47_skip (p : Prog) (k : ℕ) (hq : 0 < p.nQuarter)
    (hsize : p.nLoad + 4 * p.nQuarter * p.nCycles < 2 ^ 32) :
    p.skip k = true ↔ p.type = .cyclic ∧
      (k = p.nLoad ∨ k = p.nLoad + 4 * p.nQuarter * p.nCycles ∨
        (p.nLoad < k ∧ k < p.nLoad + 4 * p.nQuarter * p.nCycles ∧
          ((k - p.nLoad) % (4 * p.nQuarter) = p.nQuarter ∨
           (k - p.nLoad) % (4 * p.nQuarter) = 3 * p.nQuarter))) := by
  unfold Prog.skip
  cases ht : p.type with
  | monotonic => simp
  | cyclic =>
    simp only [true_and]
    have e1 : u32 (4 * (p.nQuarter : ℤ) * p.nCycles) = 4 * p.nQuarter * p.nCycles := by
      have := u32_of_lt (n := 4 * p.nQuarter * p.nCycles) (by omega)
      push_cast at this
      exact this
    rw [e1]
    have e2 : u32 ((p.nLoad : ℤ) + ((4 * p.nQuarter * p.nCycles : ℕ) : ℤ)) =
        p.nLoad + 4 * p.nQuarter * p.nCycles := by
      have := u32_of_lt (n := p.nLoad + 4 * p.nQuarter * p.nCycles) hsize
      rw [← this]; push_cast; rfl
    have e3 : u32 (((4 * p.nQuarter * p.nCycles : ℕ) : ℤ) + (p.nLoad : ℤ)) =
        p.nLoad + 4 * p.nQuarter * p.nCycles := by rw [add_comm]; exact e2
    rw [e2, e3]
    simp only [Bool.or_eq_true, Bool.and_eq_true, decide_eq_true_eq]
    have core : ∀ (h1 : p.nLoad < k) (h2 : k < p.nLoad + 4 * p.nQuarter * p.nCycles),
        (Int.fract ((u32 ((k : ℤ) - p.nLoad) : ℝ) / (4 * (p.nQuarter : ℝ))) = 1 / 4 ∨
         Int.fract ((u32 ((k : ℤ) - p.nLoad) : ℝ) / (4 * (p.nQuarter : ℝ))) = 3 / 4) ↔
        ((k - p.nLoad) % (4 * p.nQuarter) = p.nQuarter ∨
           (k - p.nLoad) % (4 * p.nQuarter) = 3 * p.nQuarter) := by
      intro h1 h2
      have e4 : u32 ((k : ℤ) - p.nLoad) = k - p.nLoad := by
        have := u32_of_lt (n := k - p.nLoad) (by omega)
        rw [← this]
        congr 1
        omega
      rw [e4]
      have e5 : (4 * (p.nQuarter : ℝ)) = ((4 * p.nQuarter : ℕ) : ℝ) := by push_cast; rfl
      rw [e5, fract_div _ _ (by omega)]
      have hq' : (0 : ℝ) < p.nQuarter := by exact_mod_cast hq
      have k1 : ∀ m : ℕ, ((m : ℝ) / ((4 * p.nQuarter : ℕ) : ℝ) = 1 / 4 ↔ m = p.nQuarter) := by
        intro m
        push_cast
        rw [div_eq_div_iff (by positivity) (by norm_num)]
        constructor
        · intro h; have : (m : ℝ) = p.nQuarter := by linarith
          exact_mod_cast this
        · rintro rfl; ring
      have k2 : ∀ m : ℕ, ((m : ℝ) / ((4 * p.nQuarter : ℕ) : ℝ) = 3 / 4 ↔ m = 3 * p.nQuarter) := by
        intro m
        push_cast
        rw [div_eq_div_iff (by positivity) (by norm_num)]
        constructor
        · intro h; have : (m : ℝ) = 3 * p.nQuarter := by linarith
          exact_mod_cast this
        · rintro rfl; push_cast; ring
      rw [k1, k2]
    constructor
    · rintro ((h | h) | ⟨⟨h1, h2⟩, h3⟩)
      · exact Or.inl h
      · exact Or.inr (Or.inl h)
      · exact Or.inr (Or.inr ⟨h1, h2, (core h1 h2).1 h3⟩)
    · rintro (h | h | ⟨h1, h2, h3⟩)
      · exact Or.inl (Or.inl h)
      · exact Or.inl (Or.inr h)
      · exact Or.inr ⟨⟨h1, h2⟩, (core h1 h2).2 h3⟩

/-- C47: the cyclic steps that are skipped are those that start at a maximum or minimum of the
sinusoidal load. -/
theorem C47_extrema (p : Prog) (k : ℕ) (hc : p.type = .cyclic) (h : SpecPositive p)
    (hsize : p.nLoad + 4 * p.nQuarter * p.nCycles < 2 ^ 32) (h1 : p.nLoad < k)
    (h2 : k < p.nLoad + 4 * p.nQuarter * p.nCycles) :
    p.skip k = true ↔
      (Real.sin (2 * Real.pi / p.period * (SpecTime p k - p.startCyclic)) = 1 ∨
       Real.sin (2 * Real.pi / p.period * (SpecTime p k - p.startCyclic)) = -1) := by
  have h' := h
  unfold SpecPositive at h'
  rw [hc] at h'
  obtain ⟨_, _, hper, hq⟩ := h'
  rw [C47_skip p k hq hsize]
  have hq' : (0 : ℝ) < p.nQuarter := by exact_mod_cast hq
  have earg : 2 * Real.pi / p.period * (SpecTime p k - p.startCyclic) =
      ((k - p.nLoad : ℕ) : ℝ) / p.nQuarter * (Real.pi / 2) := by
    unfold SpecTime Prog.startCyclic
    rw [hc]
    simp only
    rw [if_neg (by omega), if_pos (by omega), Nat.cast_sub h1.le]
    field_simp
    ring
  rw [earg]
  set m := k - p.nLoad with hm
  have hmod := Nat.div_add_mod m (4 * p.nQuarter)
  set r := m % (4 * p.nQuarter) with hr
  have hrlt : r < 4 * p.nQuarter := Nat.mod_lt _ (by omega)
  have esin : Real.sin ((m : ℝ) / p.nQuarter * (Real.pi / 2)) =
      Real.sin ((r : ℝ) / p.nQuarter * (Real.pi / 2)) := by
    have : (m : ℝ) / p.nQuarter * (Real.pi / 2) =
        (r : ℝ) / p.nQuarter * (Real.pi / 2) + ((m / (4 * p.nQuarter) : ℕ) : ℤ) * (2 * Real.pi) := by
      have e : (m : ℝ) = 4 * p.nQuarter * ((m / (4 * p.nQuarter) : ℕ) : ℝ) + r := by
        exact_mod_cast hmod.symm
      rw [Int.cast_natCast]
      conv_lhs => rw [e]
      field_simp
      ring
    rw [this, Real.sin_add_int_mul_two_pi]
  rw [esin]
  have hpi := Real.pi_pos
  have a0 : 0 ≤ (r : ℝ) / p.nQuarter * (Real.pi / 2) := by positivity
  have a1 : (r : ℝ) / p.nQuarter * (Real.pi / 2) < 2 * Real.pi := by
    have : (r : ℝ) / p.nQuarter < 4 := by
      rw [div_lt_iff₀ hq']
      have : (r : ℝ) < ((4 * p.nQuarter : ℕ) : ℝ) := by exact_mod_cast hrlt
      push_cast at this
      exact this
    nlinarith
  -- cos vanishes in [0, 2π) exactly at π/2 and 3π/2
  have key : ∀ x : ℝ, 0 ≤ x → x < 2 * Real.pi →
      ((Real.sin x = 1 ∨ Real.sin x = -1) ↔ (x = Real.pi / 2 ∨ x = 3 * (Real.pi / 2))) := by
    intro x x0 x1
    constructor
    · rintro (hx | hx)
      · left
        obtain ⟨n, hn⟩ := (Real.cos_eq_one_iff (x - Real.pi / 2)).1
          (by rw [Real.cos_sub_pi_div_two]; exact hx)
        have hn0 : n = 0 := by
          have b1 : (n : ℝ) < 1 := by
            by_contra hcon; push Not at hcon; nlinarith
          have b2 : (-1 : ℝ) < n := by
            by_contra hcon; push Not at hcon; nlinarith
          have c1 : n < 1 := by exact_mod_cast b1
          have c2 : -1 < n := by exact_mod_cast b2
          omega
        rw [hn0] at hn
        push_cast at hn
        linarith
      · right
        obtain ⟨n, hn⟩ := (Real.cos_eq_one_iff (x + Real.pi / 2)).1
          (by rw [Real.cos_add_pi_div_two, hx]; norm_num)
        have hn0 : n = 1 := by
          have b1 : (n : ℝ) < 2 := by
            by_contra hcon; push Not at hcon; nlinarith
          have b2 : (0 : ℝ) < n := by
            by_contra hcon; push Not at hcon; nlinarith
          have c1 : n < 2 := by exact_mod_cast b1
          have c2 : 0 < n := by exact_mod_cast b2
          omega
        rw [hn0] at hn
        push_cast at hn
        linarith
    · rintro (rfl | rfl)
      · exact Or.inl Real.sin_pi_div_two
      · right
        rw [show 3 * (Real.pi / 2) = Real.pi / 2 + Real.pi by ring, Real.sin_add_pi,
          Real.sin_pi_div_two]
  rw [key _ a0 a1]
  have d1 : (r : ℝ) / p.nQuarter * (Real.pi / 2) = Real.pi / 2 ↔ r = p.nQuarter := by
    constructor
    · intro he
      have : (r : ℝ) = p.nQuarter := by
        field_simp at he
        linarith
      exact_mod_cast this
    · intro he; rw [he]; field_simp
  have d2 : (r : ℝ) / p.nQuarter * (Real.pi / 2) = 3 * (Real.pi / 2) ↔ r = 3 * p.nQuarter := by
    constructor
    · intro he
      have : (r : ℝ) = 3 * p.nQuarter := by
        field_simp at he
        linarith
      exact_mod_cast this
    · intro he; rw [he]; push_cast; field_simp
  rw [d1, d2]
  constructor
  · rintro ⟨_, h | h | h⟩
    · omega
    · omega
    · exact h.2.2
  · intro h
    exact ⟨hc, Or.inr (Or.inr ⟨h1, h2, h⟩)⟩

/-- Non-vacuity: default cyclic programme, step 25 (a quarter period after the start of the cyclic
phase at step 20) is skipped, step 26 is not. -/
example : let p : Prog := ⟨.cyclic, 0, 1, 0, 1, 20, 1, 20, 1, 1, 5, true⟩
    p.skip 25 = true ∧ p.skip 26 = false := by
  intro p
  constructor
  · rw [C47_skip p 25 (by decide) (by decide)]
    exact ⟨rfl, Or.inr (Or.inr ⟨by decide, by decide, Or.inl rfl⟩)⟩
  · rw [← Bool.not_eq_true, C47_skip p 26 (by decide) (by decide)]
    rintro ⟨_, h | h | ⟨_, _, h | h⟩⟩ <;> exact absurd h (by decide)

/-! ## C48 -/

theorem foldl_update_value (ws : List ℕ) (x : ℝ) (comp : ℕ) :
    ∀ v : ℕ → ℝ, ws.foldl (fun v w => Function.update v w x) v comp =
      if comp ∈ ws then x else v comp := by
  induction ws with
  | nil => intro v; simp
  | cons w ws ih =>
    intro v
    rw [List.foldl_cons, ih]
    by_cases h : comp ∈ ws
    · rw [if_pos h, if_pos (List.mem_cons_of_mem _ h)]
    · rw [if_neg h]
      by_cases hw : comp = w
      · subst hw; simp
      · rw [Function.update_of_ne hw, if_neg]
        simp [hw, h]

/-- C48: the load is prescribed on the loaded direction of every crystal's displacement (of the
common one without decohesion) and zero on every other component, and no component outside the
displacements is touched. -/
theorem C48_components (c : Control) (hd : c.component < c.dim) (hC : 0 < c.nC) (time : ℝ)
    (comp : ℕ) :
    (c.value time comp = c.load time / c.charDisp ∧
      (∃ i, (if c.decohesion then i < c.nC else i = 0) ∧ comp = i * c.dim + c.component) ∨
     c.value time comp = 0 ∧
      ¬ (∃ i, (if c.decohesion then i < c.nC else i = 0) ∧ comp = i * c.dim + c.component)) ∧
    (∀ w ∈ c.writes, w < c.dim * (if c.decohesion then c.nC else 1)) := by
  have hw : comp ∈ c.writes ↔
      ∃ i, (if c.decohesion then i < c.nC else i = 0) ∧ comp = i * c.dim + c.component := by
    unfold Control.writes
    by_cases hdc : c.decohesion = true
    · simp only [if_pos hdc, List.mem_cons, List.mem_map, List.mem_range'_1]
      constructor
      · rintro (rfl | ⟨i, hi, rfl⟩)
        · exact ⟨0, hC, by omega⟩
        · exact ⟨i, by omega, by omega⟩
      · rintro ⟨i, hi, rfl⟩
        rcases Nat.eq_zero_or_pos i with rfl | hp
        · left; omega
        · right; exact ⟨i, by omega, by omega⟩
    · simp only [if_neg hdc, List.mem_cons, List.not_mem_nil, or_false]
      constructor
      · rintro rfl; exact ⟨0, rfl, by omega⟩
      · rintro ⟨i, rfl, rfl⟩; omega
  constructor
  · unfold Control.value
    rw [foldl_update_value]
    by_cases h : comp ∈ c.writes
    · left; rw [if_pos h]; exact ⟨rfl, hw.1 h⟩
    · right; rw [if_neg h]; exact ⟨rfl, fun h' => h (hw.2 h')⟩
  · intro w hwm
    unfold Control.writes at hwm
    by_cases hdc : c.decohesion = true
    · simp only [if_pos hdc, List.mem_cons, List.mem_map, List.mem_range'_1] at hwm ⊢
      rcases hwm with rfl | ⟨i, hi, rfl⟩
      · calc c.component < c.dim * 1 := by omega
          _ ≤ c.dim * c.nC := Nat.mul_le_mul_left _ hC
      · have hi' : i + 1 ≤ c.nC := by omega
        calc c.component + i * c.dim < c.dim + i * c.dim := by omega
          _ = c.dim * (i + 1) := by ring
          _ ≤ c.dim * c.nC := Nat.mul_le_mul_left _ hi'
    · simp only [if_neg hdc, List.mem_cons, List.not_mem_nil, or_false] at hwm ⊢
      omega

/-- C48, monotonic programmes: the prescribed displacement grows linearly with time, `max_load`
times the strip height per unit time.  Missing: cyclic programmes (`C48_violated_cyclic`). -/
theorem C48_monotonic_partial (p : Prog) (dim nC : ℕ) (height cd : ℝ) (comp : ℕ) (dec : Bool)
    (hC : comp < dim) (h0 : 0 < nC) (time : ℝ) :
    (Control.new p dim nC height cd comp dec).value time comp =
      time * height * p.maxLoad / cd := by
  rcases (C48_components (Control.new p dim nC height cd comp dec) hC h0 time comp).1 with h | h
  · rw [h.1]; rfl
  · exact absurd ⟨0, by cases hd : (Control.new p dim nC height cd comp dec).decohesion <;> simp [Control.new, h0],
      by simp [Control.new]⟩ h.2

/-- The programme a cyclic parameter file describes for a strip (mean strain reached at the start
of the cyclic phase, sinusoidal around the mean, back to zero). -/
noncomputable def SpecCyclicStrain (p : Prog) (time : ℝ) : ℝ :=
  (p.maxLoad - p.minLoad) / 2 * Real.sin (2 * Real.pi / p.period * (time - p.startCyclic)) +
    (p.maxLoad + p.minLoad) / 2

/-- C48 is violated for cyclic programmes: whatever the parameter file says, the boundary
displacement keeps growing linearly, also throughout the cyclic phase.  Witness: the cyclic default
programme with loads 0 and 1, half a period into the cyclic phase. -/
theorem C48_violated_cyclic : ∃ (p : Prog) (time : ℝ), p.type = .cyclic ∧
    p.startCyclic ≤ time ∧ time < p.startUnloading ∧
    (Control.new p 2 1 1 1 0 false).value time 0 ≠ SpecCyclicStrain p time * 1 := by
  refine ⟨⟨.cyclic, 0, 1, 0, 1, 20, 1, 20, 1, 1, 5, true⟩, 3 / 2, rfl,
    by norm_num [Prog.startCyclic], by norm_num [Prog.startUnloading, Prog.startCyclic], ?_⟩
  rw [C48_monotonic_partial _ 2 1 1 1 0 false (by norm_num) (by norm_num)]
  have : Real.sin (2 * Real.pi / 1 * (3 / 2 - (0 + 1))) = 0 := by
    rw [show 2 * Real.pi / 1 * (3 / 2 - (0 + 1)) = Real.pi by ring, Real.sin_pi]
  unfold SpecCyclicStrain Prog.startCyclic
  simp only
  rw [this]
  norm_num

/-- The unused cyclic branch is not continuous either: at the start of the cyclic phase it jumps
from `time·height·offset` to `offset`, so it would need height and duration with product 1. -/
theorem C48_dead_branch_jump (c : Control) (hc : c.type = .cyclic)
    (h1 : c.startCyclic < c.startUnloading) (time : ℝ) (ht : time < c.startCyclic) :
    c.load time = time * c.height * ((c.maxStrain + c.minStrain) / 2) ∧
    c.load c.startCyclic = (c.maxStrain + c.minStrain) / 2 := by
  unfold Control.load
  rw [hc]
  simp only
  rw [if_pos ht, if_neg (lt_irrefl _), if_pos h1]
  simp

/-- Non-vacuity: two crystals with decohesion in 2D, component 0: components 0 and 2 carry the
load. -/
example : let c : Control := ⟨.monotonic, 2, 2, 3, 5, 0, 0, 1, 0, 0, 1, true⟩
    c.value 2 0 = 30 ∧ c.value 2 2 = 30 ∧ c.value 2 1 = 0 := by
  intro c
  unfold Control.value
  rw [foldl_update_value, foldl_update_value, foldl_update_value]
  simp [c, Control.writes, Control.load]
  norm_num

/-! ## C49 -/

theorem find_range'_spec (P : ℕ → Prop) [DecidablePred P] (n : ℕ) : ∀ s i : ℕ,
    (List.range' s n).find? (fun i => decide (P i)) = some i ↔
      s ≤ i ∧ i < s + n ∧ P i ∧ ∀ j, s ≤ j → j < i → ¬ P j := by
  induction n with
  | zero => intro s i; simp; omega
  | succ n ih =>
    intro s i
    rw [List.range'_succ, List.find?_cons]
    by_cases h : P s
    · simp only [h, decide_true, Option.some.injEq]
      constructor
      · rintro rfl
        exact ⟨le_rfl, by omega, h, fun j h1 h2 => by omega⟩
      · rintro ⟨h1, h2, h3, h4⟩
        by_contra hne
        exact h4 s le_rfl (by omega) h
    · simp only [h, decide_false]
      rw [ih]
      constructor
      · rintro ⟨h1, h2, h3, h4⟩
        refine ⟨by omega, by omega, h3, fun j hj1 hj2 => ?_⟩
        rcases Nat.eq_or_lt_of_le hj1 with rfl | h'
        · exact h
        · exact h4 j h' hj2
      · rintro ⟨h1, h2, h3, h4⟩
        have : s ≠ i := by rintro rfl; exact h h3
        exact ⟨by omega, by omega, h3, fun j hj1 hj2 => h4 j (by omega) hj2⟩

/-- C49: a cell with centre `0 ≤ y < height` gets the id of its strip, which is below the crystal
count. -/
theorem C49_strips (height : ℝ) (hh : 0 < height) (n : ℕ) (hn : 0 < n) (y : ℝ) (h0 : 0 ≤ y)
    (h1 : y < height) :
    (∀ i : ℕ, materialId height n y = some i ↔
      (i * height / n ≤ y ∧ y < (i + 1) * height / n)) ∧
    ∃ i < n, materialId height n y = some i := by
  classical
  have hn' : (0 : ℝ) < n := by exact_mod_cast hn
  have key : ∀ i : ℕ, materialId height n y = some i ↔
      i < n ∧ y < (i + 1) * height / n ∧ i * height / n ≤ y := by
    intro i
    unfold materialId
    rw [Option.map_eq_some_iff]
    have e := fun a : ℕ => find_range'_spec (fun i : ℕ => |y| < (i : ℝ) * height / n) n 1 a
    have conv : ((List.range' 1 n).find? fun (i : ℕ) =>
        @decide (|y| < (i : ℝ) * height / n) (Classical.propDecidable _)) =
        (List.range' 1 n).find? fun (i : ℕ) => decide (|y| < (i : ℝ) * height / n) := by
      congr 1
    rw [conv]
    constructor
    · rintro ⟨a, ha, rfl⟩
      obtain ⟨a1, a2, a3, a4⟩ := (e a).1 ha
      rw [abs_of_nonneg h0] at a3
      refine ⟨by omega, ?_, ?_⟩
      · rw [Nat.cast_sub a1]; simpa using a3
      · rcases Nat.eq_or_lt_of_le a1 with rfl | hlt
        · simpa using h0
        · have := a4 (a - 1) (by omega) (by omega)
          rw [abs_of_nonneg h0] at this
          exact not_lt.1 this
    · rintro ⟨b1, b2, b3⟩
      refine ⟨i + 1, (e (i + 1)).2 ⟨by omega, by omega, ?_, fun j hj1 hj2 => ?_⟩, by omega⟩
      · rw [abs_of_nonneg h0]; push_cast; exact b2
      · rw [abs_of_nonneg h0]
        push Not
        refine le_trans ?_ b3
        have : (j : ℝ) ≤ i := by exact_mod_cast (by omega : j ≤ i)
        have : (j : ℝ) * height ≤ i * height := mul_le_mul_of_nonneg_right this hh.le
        exact div_le_div_of_nonneg_right this hn'.le
  have fl : ∃ i < n, i * height / n ≤ y ∧ y < (i + 1) * height / n := by
    refine ⟨⌊y * n / height⌋₊, ?_, ?_, ?_⟩
    · rw [Nat.floor_lt (by positivity), div_lt_iff₀ hh]
      nlinarith
    · have := Nat.floor_le (a := y * n / height) (by positivity)
      rw [div_le_iff₀ hn']
      rw [le_div_iff₀ hh] at this
      exact this
    · have := Nat.lt_floor_add_one (y * n / height)
      rw [lt_div_iff₀ hn']
      rw [div_lt_iff₀ hh] at this
      exact this
  constructor
  · intro i
    rw [key i]
    constructor
    · rintro ⟨_, a, b⟩; exact ⟨b, a⟩
    · rintro ⟨a, b⟩
      refine ⟨?_, b, a⟩
      by_contra hge
      have : (n : ℝ) ≤ i := by exact_mod_cast not_lt.1 hge
      have h2 : height ≤ i * height / n := by
        rw [le_div_iff₀ hn']; nlinarith
      linarith
  · obtain ⟨i, hi, a, b⟩ := fl
    exact ⟨i, hi, (key i).2 ⟨hi, b, a⟩⟩

/-- C49: the ids increase with the ordinate. -/
theorem C49_monotone (height : ℝ) (hh : 0 < height) (n : ℕ) (hn : 0 < n) (y z : ℝ) (h0 : 0 ≤ y)
    (hyz : y ≤ z) (h1 : z < height) (i j : ℕ) (hi : materialId height n y = some i)
    (hj : materialId height n z = some j) : i ≤ j := by
  have hn' : (0 : ℝ) < n := by exact_mod_cast hn
  have a := ((C49_strips height hh n hn y h0 (lt_of_le_of_lt hyz h1)).1 i).1 hi
  have b := ((C49_strips height hh n hn z (le_trans h0 hyz) h1).1 j).1 hj
  by_contra hlt
  have : (j : ℝ) + 1 ≤ i := by exact_mod_cast not_le.1 hlt
  have h2 : ((j : ℝ) + 1) * height / n ≤ i * height / n :=
    div_le_div_of_nonneg_right (mul_le_mul_of_nonneg_right this hh.le) hn'.le
  linarith [a.1, b.2]

/-- Non-vacuity: three crystals in a strip of height 3: the cell at 3/2 belongs to crystal 1. -/
example : materialId 3 3 (3 / 2) = some 1 := by
  rw [(C49_strips 3 (by norm_num) 3 (by norm_num) (3 / 2) (by norm_num) (by norm_num)).1 1]
  norm_num

end Verif.Load
