import Verif.Model.RoundedTime
import Verif.Props.Rounded
import Verif.Props.Loading

/-!
# C109: rounding does not change the load programme
-/

namespace Verif.Fp
open Load

/-! ## Specification -/

/-- The steps are not lost in the rounding of the times: every step is at least `2⁻⁴⁴` of the end
time multiplied by the number of steps (for equal steps: at most four million steps), and times are
neither tiny nor huge. -/
def SpecResolved (p : Prog) : Prop :=
  p.endTime ≤ 10 ^ 70 ∧
    ∀ k < SpecSteps p, 1 / 10 ^ 70 ≤ p.stepSize k ∧
      SpecSteps p * p.endTime ≤ 2 ^ 44 * p.stepSize k

/-! ## Helpers -/

section
variable {fl : ℝ → ℝ} (hfl : IsRounding fl)
include hfl

/-- Relative error away from the subnormal range. -/
theorem fl_rel {x : ℝ} (h : x = 0 ∨ 1 / 10 ^ 100 ≤ |x|) : |fl x - x| ≤ 1.001 * unit * |x| := by
  rcases h with rfl | h
  · rw [fl_zero hfl]
    simp
  · have h1 := fl_err hfl x
    have h2 := tiny_small
    norm_num [unit] at *
    linarith

theorem fl_rel_pos {x : ℝ} (h : 1 / 10 ^ 100 ≤ x) : |fl x - x| ≤ 1.001 * unit * x := by
  have hx : 0 < x := lt_of_lt_of_le (by positivity) h
  have := fl_rel hfl (x := x) (Or.inr (by rwa [abs_of_pos hx]))
  rwa [abs_of_pos hx] at this

/-- The number of steps before the unloading phase is computed exactly. -/
theorem count_exact (p : Prog) (hsize : p.nLoad + 4 * p.nQuarter * p.nCycles < 2 ^ 32) :
    fl (p.nLoad + fl (fl (4 * p.nQuarter) * p.nCycles)) =
      ((p.nLoad + 4 * p.nQuarter * p.nCycles : ℕ) : ℝ) := by
  have nat : ∀ n : ℕ, n < 2 ^ 34 → fl (n : ℝ) = n := by
    intro n hn
    have := fl_int hfl (n : ℤ) (by rw [abs_of_nonneg (by omega)]; exact_mod_cast (by omega))
    simpa using this
  by_cases h0 : p.nCycles = 0
  · rw [h0]
    simp only [Nat.cast_zero, mul_zero, fl_zero hfl, add_zero]
    exact nat _ (by omega)
  · have hq : 4 * p.nQuarter ≤ 4 * p.nQuarter * p.nCycles := Nat.le_mul_of_pos_right _ (by omega)
    have e1 : fl (4 * (p.nQuarter : ℝ)) = ((4 * p.nQuarter : ℕ) : ℝ) := by
      have := nat (4 * p.nQuarter) (by omega)
      push_cast at this ⊢
      exact this
    have e2 : fl (((4 * p.nQuarter : ℕ) : ℝ) * (p.nCycles : ℝ)) =
        ((4 * p.nQuarter * p.nCycles : ℕ) : ℝ) := by
      have := nat (4 * p.nQuarter * p.nCycles) (by omega)
      push_cast at this ⊢
      exact this
    rw [e1, e2]
    have := nat (p.nLoad + 4 * p.nQuarter * p.nCycles) (by omega)
    push_cast at this ⊢
    exact this

theorem stepSize_err (p : Prog) (h : SpecPositive p)
    (hsize : p.nLoad + 4 * p.nQuarter * p.nCycles < 2 ^ 32) (k : ℕ)
    (hk : 1 / 10 ^ 70 ≤ p.stepSize k) :
    |stepSize fl p k - p.stepSize k| ≤ 3 * unit * p.stepSize k := by
  have weak : ∀ x : ℝ, 1 / 10 ^ 70 ≤ x → |fl x - x| ≤ 3 * unit * x := by
    intro x hx
    have hx0 : 0 < x := lt_of_lt_of_le (by positivity) hx
    have h1 := fl_rel_pos hfl (x := x) (le_trans (by norm_num) hx)
    refine h1.trans ?_
    apply mul_le_mul_of_nonneg_right _ hx0.le
    norm_num [unit]
  unfold SpecPositive at h
  cases ht : p.type with
  | monotonic =>
    have e1 : stepSize fl p k = fl (p.durMono / p.nMono) := by unfold stepSize; rw [ht]; rfl
    have e2 : p.stepSize k = p.durMono / p.nMono := by unfold Prog.stepSize; rw [ht]; rfl
    rw [e2] at hk
    rw [e1, e2]
    exact weak _ hk
  | cyclic =>
    rw [ht] at h
    obtain ⟨_, _, hper, hq⟩ := h
    have hlt : ((k : ℝ) < fl (p.nLoad + fl (fl (4 * p.nQuarter) * p.nCycles))) ↔
        k < p.nLoad + 4 * p.nQuarter * p.nCycles := by
      rw [count_exact hfl p hsize]
      exact Nat.cast_lt
    have e1 : stepSize fl p k = if k < p.nLoad then fl (p.durLoad / p.nLoad)
        else if k < p.nLoad + 4 * p.nQuarter * p.nCycles then
          fl (fl (p.period / 4) / p.nQuarter) else fl (p.durLoad / p.nLoad) := by
      unfold stepSize
      rw [ht]
      simp only [hlt]
      rfl
    have e2 : p.stepSize k = if k < p.nLoad then p.durLoad / p.nLoad
        else if k < p.nLoad + 4 * p.nQuarter * p.nCycles then p.period / 4 / p.nQuarter
        else p.durLoad / p.nLoad := by
      unfold Prog.stepSize
      rw [ht]
      rfl
    rw [e2] at hk
    rw [e1, e2]
    by_cases c1 : k < p.nLoad
    · simp only [if_pos c1] at hk ⊢
      exact weak _ hk
    · simp only [if_neg c1] at hk ⊢
      by_cases c2 : k < p.nLoad + 4 * p.nQuarter * p.nCycles
      · simp only [if_pos c2] at hk ⊢
        have hq' : (1 : ℝ) ≤ p.nQuarter := by exact_mod_cast hq
        have hx : 0 < p.period / 4 := by positivity
        have hbig : 1 / 10 ^ 70 ≤ p.period / 4 := by
          refine hk.trans ?_
          exact div_le_self hx.le hq'
        have a1 := fl_rel_pos hfl (x := p.period / 4) (le_trans (by norm_num) hbig)
        have hq0 : (0 : ℝ) < p.nQuarter := by linarith
        have a2 : |fl (p.period / 4) / p.nQuarter - p.period / 4 / p.nQuarter| ≤
            1.001 * unit * (p.period / 4 / p.nQuarter) := by
          rw [← sub_div, abs_div, abs_of_pos hq0, ← mul_div_assoc]
          exact div_le_div_of_nonneg_right a1 hq0.le
        set x := p.period / 4 / p.nQuarter with hxx
        set y := fl (p.period / 4) / p.nQuarter with hyy
        have hx0 : 0 < x := lt_of_lt_of_le (by positivity) hk
        have a2' := abs_le.mp a2
        have hy : 1 / 10 ^ 100 ≤ y := by
          norm_num [unit] at *
          linarith
        have a3 := fl_rel_pos hfl hy
        have e : fl y - x = (fl y - y) + (y - x) := by ring
        rw [e]
        refine (abs_add_le _ _).trans ?_
        norm_num [unit] at *
        linarith
      · simp only [if_neg c2] at hk ⊢
        exact weak _ hk

theorem endTime_err (p : Prog) (h : SpecPositive p) (hstart : p.start = 0) (hr : SpecResolved p) :
    |endTime fl p - p.endTime| ≤ 4 * unit * p.endTime := by
  have hr2 := hr.2
  have hN : 0 < SpecSteps p := by
    unfold SpecPositive at h
    unfold SpecSteps
    cases ht : p.type <;> rw [ht] at h <;> simp only at h ⊢ <;> omega
  have h0 := (hr2 0 hN).1
  unfold SpecPositive at h
  cases ht : p.type with
  | monotonic =>
    rw [ht] at h
    have e1 : endTime fl p = fl (0 + p.durMono) := by unfold endTime; rw [ht, hstart]
    have e2 : p.endTime = 0 + p.durMono := by unfold Prog.endTime; rw [ht, hstart]
    have e3 : p.stepSize 0 = p.durMono / p.nMono := by unfold Prog.stepSize; rw [ht]; rfl
    rw [e1, e2, zero_add]
    rw [e3] at h0
    have hn : (1 : ℝ) ≤ p.nMono := by exact_mod_cast h.2
    have : 1 / 10 ^ 70 ≤ p.durMono := h0.trans (div_le_self h.1.le hn)
    have a := fl_rel_pos hfl (x := p.durMono) (le_trans (by norm_num) this)
    refine a.trans (mul_le_mul_of_nonneg_right ?_ h.1.le)
    norm_num [unit]
  | cyclic =>
    rw [ht] at h
    obtain ⟨hd, hnL, hper, hq⟩ := h
    have e3 : p.stepSize 0 = p.durLoad / p.nLoad := by
      unfold Prog.stepSize
      rw [ht]
      simp only [hnL, if_true]
      rfl
    rw [e3] at h0
    have hn : (1 : ℝ) ≤ p.nLoad := by exact_mod_cast hnL
    have hd70 : 1 / 10 ^ 70 ≤ p.durLoad := h0.trans (div_le_self hd.le hn)
    set c : ℝ := if p.skipUnloading then 1 else 2 with hc
    have hc1 : 1 ≤ c ∧ c ≤ 2 := by rw [hc]; split_ifs <;> norm_num
    have e1 : endTime fl p = fl (fl (0 + fl (c * p.durLoad)) + fl (p.nCycles * p.period)) := by
      unfold endTime
      rw [ht, hstart]
    have e2 : p.endTime = c * p.durLoad + p.nCycles * p.period := by
      unfold Prog.endTime
      rw [ht, hstart]
      show 0 + c * p.durLoad + _ = _
      rw [zero_add]
    rw [e1, e2, zero_add, fl_double hfl (hfl.double _)]
    have hA : 1 / 10 ^ 70 ≤ c * p.durLoad := by
      refine hd70.trans ?_
      exact le_mul_of_one_le_left hd.le hc1.1
    have hB0 : 0 ≤ p.nCycles * p.period := by positivity
    have hB : p.nCycles * p.period = 0 ∨ 1 / 10 ^ 100 ≤ |p.nCycles * p.period| := by
      by_cases hz : p.nCycles = 0
      · left
        rw [hz]
        simp
      · right
        rw [abs_of_nonneg hB0]
        have hlt : p.nLoad < SpecSteps p := by
          unfold SpecSteps
          rw [ht]
          simp only
          have : 0 < 4 * p.nQuarter * p.nCycles := by positivity
          omega
        have h1 := (hr2 _ hlt).1
        have e4 : p.stepSize p.nLoad = p.period / 4 / p.nQuarter := by
          unfold Prog.stepSize
          rw [ht]
          have : 0 < 4 * p.nQuarter * p.nCycles := by positivity
          simp only [lt_irrefl, if_false]
          rw [if_pos (by omega)]
          rfl
        rw [e4] at h1
        have hq' : (1 : ℝ) ≤ p.nQuarter := by exact_mod_cast hq
        have h2 : p.period / 4 / p.nQuarter ≤ p.period := by
          refine (div_le_self (by positivity) hq').trans ?_
          linarith
        have h3 : p.period ≤ p.nCycles * p.period :=
          le_mul_of_one_le_left hper.le (by exact_mod_cast Nat.one_le_iff_ne_zero.mpr hz)
        refine le_trans ?_ (h1.trans (h2.trans h3))
        norm_num
    have a1 := fl_rel_pos hfl (x := c * p.durLoad) (le_trans (by norm_num) hA)
    have a2 := fl_rel hfl hB
    rw [abs_of_nonneg hB0] at a2
    generalize c * p.durLoad = A at *
    generalize (p.nCycles : ℝ) * p.period = B at *
    have a1' := abs_le.mp a1
    have a2' := abs_le.mp a2
    have a3 := fl_rel_pos hfl (x := fl A + fl B) (by norm_num [unit] at *; linarith)
    have e : fl (fl A + fl B) - (A + B) = (fl (fl A + fl B) - (fl A + fl B)) + (fl A - A) +
        (fl B - B) := by ring
    rw [e]
    refine (abs_add_three _ _ _).trans ?_
    norm_num [unit] at *
    linarith

/-- Rounding the quotient of two 32 bit numbers neither creates nor destroys an odd multiple of a
quarter. -/
theorem quarter_exact (m q : ℕ) (hm : m < 2 ^ 32) (hq : 0 < q) (hq4 : 4 * q < 2 ^ 32) (c : ℕ)
    (hc : c = 1 ∨ c = 3) :
    Int.fract (fl ((m : ℝ) / (4 * (q : ℝ)))) = c / 4 ↔ m % (4 * q) = c * q := by
  have hq0 : (0 : ℝ) < q := by exact_mod_cast hq
  have hq1 : (1 : ℝ) ≤ q := by exact_mod_cast hq
  set x : ℝ := (m : ℝ) / (4 * (q : ℝ)) with hx
  have hm0 : (0 : ℝ) ≤ m := by positivity
  have hx0 : 0 ≤ x := by positivity
  constructor
  · intro h
    -- the rounded quotient is `n + c / 4`
    have hf : fl x = (⌊fl x⌋ : ℝ) + c / 4 := by
      rw [← h]
      exact (Int.floor_add_fract _).symm
    generalize ⌊fl x⌋ = n at hf
    have herr := fl_err hfl x
    rw [abs_of_nonneg hx0, hf] at herr
    have hxq : x * (4 * q) = m := by
      rw [hx]
      field_simp
    have hbound : |((4 * n + c) * q : ℝ) - m| < 1 := by
      have e : ((4 * n + c) * q : ℝ) - m = (n + c / 4 - x) * (4 * q) := by
        rw [sub_mul, hxq]
        ring
      rw [e, abs_mul, abs_of_pos (show (0 : ℝ) < 4 * q by positivity)]
      have h1 := mul_le_mul_of_nonneg_right herr (show (0 : ℝ) ≤ 4 * q by positivity)
      refine lt_of_le_of_lt h1 ?_
      have e2 : (unit * x + tiny) * (4 * q) = unit * m + tiny * (4 * q) := by
        rw [← hxq]
        ring
      rw [e2]
      have ht := tiny_small
      have hmm : (m : ℝ) < 2 ^ 32 := by exact_mod_cast hm
      have hqq : (4 * q : ℝ) < 2 ^ 32 := by exact_mod_cast hq4
      have h2 : tiny * (4 * q) ≤ 1 / 10 ^ 200 * 2 ^ 32 :=
        mul_le_mul ht hqq.le (by positivity) (by positivity)
      have h3 : unit * m ≤ unit * 2 ^ 32 :=
        mul_le_mul_of_nonneg_left hmm.le (by norm_num [unit])
      refine lt_of_le_of_lt (add_le_add h3 h2) ?_
      norm_num [unit]
    have hint : ((4 * n + c) * q - m : ℤ) = 0 := by
      have : |(((4 * n + c) * q - m : ℤ) : ℝ)| < 1 := by
        push_cast
        exact hbound
      have h2 : |((4 * n + c) * q - m : ℤ)| < 1 := by exact_mod_cast this
      exact Int.abs_lt_one_iff.mp h2
    have e : (m : ℤ) = c * q + (4 * q) * n := by linarith
    have : ((m % (4 * q) : ℕ) : ℤ) = ((c * q : ℕ) : ℤ) := by
      push_cast
      rw [e, Int.add_mul_emod_self_left]
      apply Int.emod_eq_of_lt
      · positivity
      · have : (0 : ℤ) < q := by exact_mod_cast hq
        rcases hc with rfl | rfl <;> push_cast <;> linarith
    exact_mod_cast this
  · intro h
    have hd := Nat.div_add_mod m (4 * q)
    rw [h] at hd
    set n := m / (4 * q) with hn
    have hxe : x = n + c / 4 := by
      rw [hx, ← hd]
      push_cast
      field_simp
    have hnm : n ≤ m := Nat.div_le_self _ _
    have hdbl : IsDouble x := by
      refine ⟨4 * n + c, -2, ?_, by norm_num, ?_⟩
      · have : (0 : ℤ) ≤ 4 * n + c := by positivity
        rw [abs_of_nonneg this]
        rcases hc with rfl | rfl <;> push_cast <;> omega
      · rw [hxe]
        push_cast
        norm_num
        ring
    rw [fl_double hfl hdbl, hxe]
    rw [Int.fract_natCast_add, Int.fract_eq_self]
    rcases hc with rfl | rfl <;> norm_num

end

/-! ## C109 -/

/-- C109: in double precision the time loop makes exactly the prescribed number of steps, ends
exactly at the end time, and its times differ from the prescribed ones by at most `2⁻⁵⁰` of the end
time per step; for every rounding to nearest. -/
theorem C109_programme {fl : ℝ → ℝ} (hfl : IsRounding fl) (p : Prog) (hstart : p.start = 0)
    (h : SpecPositive p) (hs : SpecNotSwallowed 0.1 p) (hr : SpecResolved p)
    (hsize : p.nLoad + 4 * p.nQuarter * p.nCycles < 2 ^ 32) :
    (∀ k < SpecSteps p, |time fl p k - SpecTime p k| ≤ k * (p.endTime / 2 ^ 50)) ∧
    time fl p (SpecSteps p) = endTime fl p ∧
    |endTime fl p - p.endTime| ≤ p.endTime / 2 ^ 50 ∧
    (∀ k, entered fl p k ↔ k < SpecSteps p) ∧
    (∀ k < SpecSteps p, time fl p k < time fl p (k + 1)) := by
  have hE := endTime_err hfl p h hstart hr
  have hr2 := hr.2
  set N := SpecSteps p with hNdef
  set T := p.endTime with hT
  have hN : 0 < N := by
    rw [hNdef]
    unfold SpecPositive at h
    unfold SpecSteps
    cases ht : p.type <;> rw [ht] at h <;> simp only at h ⊢ <;> omega
  have hN1 : (1 : ℝ) ≤ N := by exact_mod_cast hN
  have hend : SpecTime p N = T := specTime_end p h
  have hle : ∀ k ≤ N, 0 ≤ SpecTime p k ∧ SpecTime p k ≤ T := by
    intro k hk
    refine ⟨?_, ?_⟩
    · have := specTime_mono p h (Nat.zero_le k)
      rwa [specTime_zero, hstart] at this
    · rw [← hend]
      exact specTime_mono p h hk
  have hT0 : 0 < T := by
    have := specTime_gap p h hN
    rw [specTime_zero, hstart, hend] at this
    linarith [stepSize_pos p h 0]
  have hTN : ∀ k < N, T ≤ 2 ^ 44 * p.stepSize k := fun k hk => by
    have := (hr2 k hk).2
    nlinarith
  have hdT : ∀ k < N, p.stepSize k ≤ T := fun k hk => by
    have := specTime_gap p h (show k < k + 1 by omega)
    have := (hle (k + 1) hk).2
    have := (hle k hk.le).1
    linarith
  -- one step
  have hstep : ∀ k < N, |time fl p k - SpecTime p k| ≤ k * (T / 2 ^ 50) →
      |fl (time fl p k + stepSize fl p k) - SpecTime p (k + 1)| ≤ (k + 1) * (T / 2 ^ 50) ∧
      |fl (time fl p k + stepSize fl p k) - SpecTime p (k + 1)| ≤ 0.02 * p.stepSize k := by
    intro k hk hind
    obtain ⟨hd70, hres⟩ := hr2 k hk
    have hserr := stepSize_err hfl p h hsize k hd70
    have hsp := stepSize_pos p h k
    have hkN : (k : ℝ) + 1 ≤ N := by exact_mod_cast hk
    have hk0 : (0 : ℝ) ≤ k := by positivity
    have hsum : SpecTime p (k + 1) = SpecTime p k + p.stepSize k := specTime_succ p h k
    have hS := hle (k + 1) hk
    have hS' := hle k hk.le
    have hkT : (k + 1) * T ≤ 2 ^ 44 * p.stepSize k := by
      refine le_trans ?_ hres
      exact mul_le_mul_of_nonneg_right hkN hT0.le
    have hdk := hdT k hk
    have hff := fl_err hfl (time fl p k + stepSize fl p k)
    have htiny := tiny_small
    have e : fl (time fl p k + stepSize fl p k) - SpecTime p (k + 1) =
        (fl (time fl p k + stepSize fl p k) - (time fl p k + stepSize fl p k)) +
        (time fl p k - SpecTime p k) + (stepSize fl p k - p.stepSize k) := by rw [hsum]; ring
    have habs : |time fl p k + stepSize fl p k| ≤ 1.01 * T + k * (T / 2 ^ 50) := by
      have b1 := abs_le.mp hind
      have b2 := abs_le.mp hserr
      rw [abs_le]
      norm_num [unit] at *
      constructor <;> linarith
    have hkd : k * (T / 2 ^ 50) ≤ 0.02 * p.stepSize k := by
      have : (k : ℝ) * (T / 2 ^ 50) = k * T / 2 ^ 50 := by ring
      rw [this]
      norm_num at *
      linarith
    have hone : |fl (time fl p k + stepSize fl p k) - SpecTime p (k + 1)| ≤
        (k + 1) * (T / 2 ^ 50) := by
      rw [e]
      refine (abs_add_three _ _ _).trans ?_
      have e2 : ((k : ℝ) + 1) * (T / 2 ^ 50) = k * (T / 2 ^ 50) + T / 2 ^ 50 := by ring
      rw [e2]
      generalize (k : ℝ) * (T / 2 ^ 50) = z at *
      norm_num [unit] at *
      linarith
    refine ⟨hone, hone.trans ?_⟩
    have : ((k : ℝ) + 1) * (T / 2 ^ 50) = (k + 1) * T / 2 ^ 50 := by ring
    rw [this]
    norm_num at *
    linarith
  -- the threshold of the end time
  have hthr : ∀ k < N, |fl (endTime fl p - fl (fl 0.05 * stepSize fl p k)) -
      (T - 0.05 * p.stepSize k)| ≤ 0.025 * p.stepSize k := by
    intro k hk
    obtain ⟨hd70, hres⟩ := hr2 k hk
    have hserr := stepSize_err hfl p h hsize k hd70
    have hsp := stepSize_pos p h k
    have hTd := hTN k hk
    have hdk := hdT k hk
    have htiny := tiny_small
    have h5 := fl_rel_pos hfl (x := 0.05) (by norm_num)
    have hm := fl_err hfl (fl 0.05 * stepSize fl p k)
    have hf := fl_err hfl (endTime fl p - fl (fl 0.05 * stepSize fl p k))
    generalize hq : fl 0.05 = q at *
    generalize stepSize fl p k = s at *
    generalize p.stepSize k = d at *
    generalize endTime fl p = E at *
    have m1 : |q * s - 0.05 * d| ≤ 0.001 * d := by
      have e : q * s - 0.05 * d = (q - 0.05) * d + 0.05 * (s - d) + (q - 0.05) * (s - d) := by ring
      rw [e]
      refine (abs_add_three _ _ _).trans ?_
      rw [abs_mul, abs_mul, abs_mul, abs_of_pos hsp]
      have t1 := mul_le_mul_of_nonneg_right h5 hsp.le
      have t2 := mul_le_mul h5 hserr (abs_nonneg _) (by norm_num [unit])
      norm_num [unit] at *
      linarith
    have m1' := abs_le.mp m1
    have m2 : |q * s| ≤ d := by
      rw [abs_le]
      norm_num at *
      constructor <;> linarith
    have hm' := abs_le.mp hm
    have hE' := abs_le.mp hE
    have m3 : |fl (q * s)| ≤ 2 * d := by
      rw [abs_le]
      norm_num [unit] at *
      constructor <;> linarith
    have m3' := abs_le.mp m3
    have m4 : |E - fl (q * s)| ≤ 4 * T := by
      rw [abs_le]
      norm_num [unit] at *
      constructor <;> linarith
    have hf' := abs_le.mp hf
    rw [abs_le]
    norm_num [unit] at *
    constructor <;> linarith
  have main : ∀ k < N, |time fl p k - SpecTime p k| ≤ k * (T / 2 ^ 50) := by
    intro k
    induction k with
    | zero =>
      intro _
      show |p.start - SpecTime p 0| ≤ _
      rw [specTime_zero]
      simp
    | succ k ih =>
      intro hk
      have hk' : k < N := by omega
      obtain ⟨s1, s2⟩ := hstep k hk' (ih hk')
      have ns := not_swallowed p 0.1 (by norm_num) h hs k hk
      have th := abs_le.mp (hthr k hk')
      have s2' := abs_le.mp s2
      have hsp := stepSize_pos p h k
      have : ¬ fl (endTime fl p - fl (fl 0.05 * stepSize fl p k)) <
          fl (time fl p k + stepSize fl p k) := by
        rw [not_lt]
        norm_num at *
        linarith
      show |nextTime fl (time fl p k) (stepSize fl p k) (endTime fl p) - SpecTime p (k + 1)| ≤ _
      unfold nextTime
      rw [if_neg this]
      push_cast
      exact s1
  have hlast : time fl p N = endTime fl p := by
    obtain ⟨k, hk⟩ : ∃ k, N = k + 1 := ⟨N - 1, by omega⟩
    have hk' : k < N := by omega
    obtain ⟨s1, s2⟩ := hstep k hk' (main k hk')
    rw [← hk, hend] at s2
    have th := abs_le.mp (hthr k hk')
    have s2' := abs_le.mp s2
    have hsp := stepSize_pos p h k
    rw [hk]
    show nextTime fl (time fl p k) (stepSize fl p k) (endTime fl p) = _
    unfold nextTime
    rw [if_pos]
    norm_num at *
    linarith
  -- every time is half a step before the next
  have hdrift : ∀ k < N, |time fl p k - SpecTime p k| ≤ 0.02 * p.stepSize k := by
    intro k hk
    refine (main k hk).trans ?_
    have hres := (hr2 k hk).2
    have hkN : (k : ℝ) ≤ N := by exact_mod_cast hk.le
    have hkT : k * T ≤ 2 ^ 44 * p.stepSize k :=
      (mul_le_mul_of_nonneg_right hkN hT0.le).trans hres
    have hsp := stepSize_pos p h k
    have : (k : ℝ) * (T / 2 ^ 50) = k * T / 2 ^ 50 := by ring
    rw [this]
    norm_num at *
    linarith
  have hlt : ∀ k < N, time fl p k < endTime fl p := by
    intro k hk
    have d := abs_le.mp (hdrift k hk)
    have g := specTime_gap p h hk
    rw [hend] at g
    have hE' := abs_le.mp hE
    have hTd := hTN k hk
    have hsp := stepSize_pos p h k
    norm_num [unit] at *
    linarith
  refine ⟨main, hlast, ?_, fun k => ⟨fun he => ?_, fun hk j hj => hlt j (by omega)⟩, fun k hk => ?_⟩
  · refine hE.trans ?_
    norm_num [unit]
    linarith
  · by_contra hcon
    have := he N (by omega)
    rw [hlast] at this
    exact lt_irrefl _ this
  · by_cases hl : k + 1 < N
    · have d := abs_le.mp (hdrift k hk)
      obtain ⟨_, s2⟩ := hstep k hk (main k hk)
      have m' := main (k + 1) hl
      have s3 := (hstep k hk (main k hk)).1
      have hsp := stepSize_pos p h k
      have hres := (hr2 k hk).2
      have hkN : ((k + 1 : ℕ) : ℝ) ≤ N := by exact_mod_cast hk
      have hkT : ((k + 1 : ℕ) : ℝ) * T ≤ 2 ^ 44 * p.stepSize k :=
        (mul_le_mul_of_nonneg_right hkN hT0.le).trans hres
      have e : ((k + 1 : ℕ) : ℝ) * (T / 2 ^ 50) = ((k + 1 : ℕ) : ℝ) * T / 2 ^ 50 := by ring
      rw [e] at m'
      have m'' := abs_le.mp m'
      have hsum : SpecTime p (k + 1) = SpecTime p k + p.stepSize k := specTime_succ p h k
      generalize ((k + 1 : ℕ) : ℝ) * T = z at *
      norm_num at *
      linarith
    · have : k + 1 = N := by omega
      rw [this, hlast]
      exact hlt k hk

/-- C109: in double precision the extrapolation is skipped exactly at the steps at which a phase
begins, and a quarter or three quarters of a period have elapsed. -/
theorem C109_skip {fl : ℝ → ℝ} (hfl : IsRounding fl) (p : Prog) (k : ℕ) (hq : 0 < p.nQuarter)
    (hsize : p.nLoad + 4 * p.nQuarter * p.nCycles < 2 ^ 32) :
    skip fl p k = true ↔ p.type = .cyclic ∧
      (k = p.nLoad ∨ k = p.nLoad + 4 * p.nQuarter * p.nCycles ∨
        (p.nLoad < k ∧ k < p.nLoad + 4 * p.nQuarter * p.nCycles ∧
          ((k - p.nLoad) % (4 * p.nQuarter) = p.nQuarter ∨
           (k - p.nLoad) % (4 * p.nQuarter) = 3 * p.nQuarter))) := by
  unfold skip
  cases ht : p.type with
  | monotonic => simp
  | cyclic =>
    simp only [true_and]
    have e1 : u32 (4 * (p.nQuarter : ℤ) * p.nCycles) = 4 * p.nQuarter * p.nCycles := by
      have := u32_of_lt (n := 4 * p.nQuarter * p.nCycles) (by omega)
      push_cast at this
      exact this
    rw [e1]
    have e2 : u32 ((p.nLoad : ℤ) + ((4 * p.nQuarter * p.nCycles : ℕ) : ℤ)) =
        p.nLoad + 4 * p.nQuarter * p.nCycles := by
      have := u32_of_lt (n := p.nLoad + 4 * p.nQuarter * p.nCycles) hsize
      rw [← this]; push_cast; rfl
    have e3 : u32 (((4 * p.nQuarter * p.nCycles : ℕ) : ℤ) + (p.nLoad : ℤ)) =
        p.nLoad + 4 * p.nQuarter * p.nCycles := by rw [add_comm]; exact e2
    rw [e2, e3]
    simp only [Bool.or_eq_true, Bool.and_eq_true, decide_eq_true_eq]
    have core : ∀ (h1 : p.nLoad < k) (h2 : k < p.nLoad + 4 * p.nQuarter * p.nCycles),
        (Int.fract (fl ((u32 ((k : ℤ) - p.nLoad) : ℝ) / fl (4 * (p.nQuarter : ℝ)))) = 1 / 4 ∨
         Int.fract (fl ((u32 ((k : ℤ) - p.nLoad) : ℝ) / fl (4 * (p.nQuarter : ℝ)))) = 3 / 4) ↔
        ((k - p.nLoad) % (4 * p.nQuarter) = p.nQuarter ∨
           (k - p.nLoad) % (4 * p.nQuarter) = 3 * p.nQuarter) := by
      intro h1 h2
      have e4 : u32 ((k : ℤ) - p.nLoad) = k - p.nLoad := by
        have := u32_of_lt (n := k - p.nLoad) (by omega)
        rw [← this]
        congr 1
        omega
      have hcy : 0 < p.nCycles := by
        rcases Nat.eq_zero_or_pos p.nCycles with h0 | h0
        · rw [h0] at h2
          omega
        · exact h0
      have hq4 : 4 * p.nQuarter < 2 ^ 32 := by
        have : 4 * p.nQuarter ≤ 4 * p.nQuarter * p.nCycles := Nat.le_mul_of_pos_right _ hcy
        omega
      have e5 : fl (4 * (p.nQuarter : ℝ)) = 4 * (p.nQuarter : ℝ) := by
        have := fl_int hfl (4 * p.nQuarter : ℤ)
          (by rw [abs_of_nonneg (by positivity)]; exact_mod_cast (by omega))
        push_cast at this
        exact this
      rw [e4, e5]
      have q1 := quarter_exact hfl (k - p.nLoad) p.nQuarter (by omega) hq hq4 1 (Or.inl rfl)
      have q3 := quarter_exact hfl (k - p.nLoad) p.nQuarter (by omega) hq hq4 3 (Or.inr rfl)
      rw [one_mul] at q1
      push_cast at q1 q3 ⊢
      exact or_congr q1 q3
    constructor
    · rintro ((h | h) | ⟨⟨h1, h2⟩, h⟩)
      · exact Or.inl h
      · exact Or.inr (Or.inl h)
      · exact Or.inr (Or.inr ⟨h1, h2, (core h1 h2).1 h⟩)
    · rintro (h | h | ⟨h1, h2, h⟩)
      · exact Or.inl (Or.inl h)
      · exact Or.inl (Or.inr h)
      · exact Or.inr ⟨⟨h1, h2⟩, (core h1 h2).2 h⟩

/-- C109 for the monotonic programme: with up to four million steps every run makes exactly the
requested number of steps and ends exactly at the end time. -/
theorem C109_monotonic {fl : ℝ → ℝ} (hfl : IsRounding fl) (p : Prog) (hstart : p.start = 0)
    (hm : p.type = .monotonic) (hd : 1 / 10 ^ 60 ≤ p.durMono) (hd' : p.durMono ≤ 10 ^ 60)
    (hn : 0 < p.nMono) (hn' : p.nMono ≤ 2 ^ 22)
    (hsize : p.nLoad + 4 * p.nQuarter * p.nCycles < 2 ^ 32) :
    (∀ k, entered fl p k ↔ k < p.nMono) ∧ time fl p p.nMono = fl p.durMono ∧
    ∀ k < p.nMono, |time fl p k - k * (p.durMono / p.nMono)| ≤ k * (p.durMono / 2 ^ 50) := by
  have hpos : SpecPositive p := by
    unfold SpecPositive
    rw [hm]
    exact ⟨lt_of_lt_of_le (by positivity) hd, hn⟩
  have hs : SpecNotSwallowed 0.1 p := by unfold SpecNotSwallowed; rw [hm]; trivial
  have hN : SpecSteps p = p.nMono := by unfold SpecSteps; rw [hm]
  have hT : p.endTime = p.durMono := by unfold Prog.endTime; rw [hm, hstart, zero_add]
  have hn0 : (0 : ℝ) < p.nMono := by exact_mod_cast hn
  have hn1 : (p.nMono : ℝ) ≤ 2 ^ 22 := by exact_mod_cast hn'
  have hd0 : 0 < p.durMono := lt_of_lt_of_le (by positivity) hd
  have hr : SpecResolved p := by
    refine ⟨?_, fun k _ => ?_⟩
    · rw [hT]
      exact hd'.trans (by norm_num)
    · have e : p.stepSize k = p.durMono / p.nMono := by unfold Prog.stepSize; rw [hm]; rfl
      rw [e, hN, hT]
      refine ⟨?_, ?_⟩
      · rw [le_div_iff₀ hn0]
        refine le_trans ?_ hd
        refine (mul_le_mul_of_nonneg_left hn1 (by positivity)).trans ?_
        norm_num
      · rw [← mul_div_assoc, le_div_iff₀ hn0]
        have : (p.nMono : ℝ) * p.nMono ≤ 2 ^ 22 * 2 ^ 22 :=
          mul_le_mul hn1 hn1 hn0.le (by positivity)
        nlinarith
  obtain ⟨h1, h2, _, h4, _⟩ := C109_programme hfl p hstart hpos hs hr hsize
  rw [hN] at h1 h2
  rw [hT] at h1
  have hE : endTime fl p = fl p.durMono := by unfold endTime; rw [hm, hstart, zero_add]
  refine ⟨fun k => by rw [h4, hN], by rw [h2, hE], fun k hk => ?_⟩
  have e : SpecTime p k = k * (p.durMono / p.nMono) := by
    unfold SpecTime
    rw [hm, hstart, zero_add]
  rw [← e]
  exact h1 k hk

/-- Non-vacuity: a cyclic programme with steps of a tenth and a hundredth, which no double is equal
to, and a rounding. -/
example : ∃ (fl : ℝ → ℝ) (p : Prog), IsRounding fl ∧ p.type = .cyclic ∧ p.start = 0 ∧
    SpecPositive p ∧ SpecNotSwallowed 0.1 p ∧ SpecResolved p ∧
    p.nLoad + 4 * p.nQuarter * p.nCycles < 2 ^ 32 ∧ SpecSteps p = 140 := by
  refine ⟨nearestMultiple, ⟨.cyclic, 0, 1, 0, 1, 20, 1, 10, 3, 2 / 5, 10, false⟩,
    nearestMultiple_rounding, rfl, rfl, ?_, ?_, ?_, by norm_num, by decide⟩
  · unfold SpecPositive
    norm_num
  · unfold SpecNotSwallowed
    norm_num
  · refine ⟨?_, fun k _ => ?_⟩
    · unfold Prog.endTime
      norm_num
    · unfold Prog.stepSize Prog.endTime Prog.dtLoad Prog.dtCyclic SpecSteps
      simp only
      split_ifs <;> norm_num

example : ∃ p : Prog, skip nearestMultiple p 13 = true ∧ skip nearestMultiple p 14 = false ∧
    p.nQuarter = 3 := by
  refine ⟨⟨.cyclic, 0, 1, 0, 1, 20, 1, 10, 7, 2 / 5, 3, false⟩, ?_, ?_, rfl⟩
  · rw [C109_skip nearestMultiple_rounding _ 13 (by norm_num) (by norm_num)]
    exact ⟨rfl, Or.inr (Or.inr ⟨by norm_num, by norm_num, Or.inl (by norm_num)⟩)⟩
  · rw [← Bool.not_eq_true, C109_skip nearestMultiple_rounding _ 14 (by norm_num) (by norm_num)]
    rintro ⟨_, h | h | ⟨_, _, h | h⟩⟩ <;> norm_num at h

end Verif.Fp
