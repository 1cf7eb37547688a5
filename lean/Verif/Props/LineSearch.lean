import Verif.Model.LineSearch
import Mathlib.Tactic.Linarith
import Mathlib.Tactic.Ring
import Mathlib.Tactic.FieldSimp
import Mathlib.Tactic.NormNum
import Mathlib.Tactic.Positivity
import Mathlib.Tactic.LinearCombination
import Mathlib.Tactic.IntervalCases

/-!
# Properties C01–C04: the line search
-/

namespace Verif.LS
open Verif

/-! ## Helpers -/

theorem clampF_mem {x : Option EReal} {lo hi y : ℝ} (hlh : lo ≤ hi)
    (h : clampF x lo hi = some y) : lo ≤ y ∧ y ≤ hi := by
  unfold clampF at h
  cases x with
  | none => simp at h
  | some x =>
    simp only at h
    split_ifs at h with h1 h2
    · simp only [Option.some.injEq] at h; subst h; exact ⟨le_refl _, hlh⟩
    · simp only [Option.some.injEq] at h; subst h; exact ⟨hlh, le_refl _⟩
    · simp only [Option.some.injEq] at h
      push Not at h1 h2
      have hx1 : x ≠ ⊥ := by
        rintro rfl; simp at h1
      have hx2 : x ≠ ⊤ := by
        rintro rfl; simp at h2
      lift x to ℝ using ⟨hx2, hx1⟩
      simp only [EReal.toReal_coe] at h
      subst h
      exact ⟨by exact_mod_cast h1, by exact_mod_cast h2⟩

theorem clampF_some_ne_none {x : EReal} {lo hi : ℝ} : clampF (some x) lo hi ≠ none := by
  unfold clampF; simp only; split_ifs <;> simp

theorem cubic_some {s : LineSearch} {l : ℝ} (h : cubic s = some l) :
    ∃ l1 l2 g1 g2, s.oldLam = some l1 ∧ s.oldOldLam = some l2 ∧ s.oldF = some g1 ∧
      s.oldOldF = some g2 ∧ l1 ≠ 0 ∧ l2 ≠ 0 ∧ l1 ≠ l2 ∧
      0 ≤ (cubicCoeffs s.f0 s.d l1 l2 g1 g2).2 * (cubicCoeffs s.f0 s.d l1 l2 g1 g2).2
          - 3 * (cubicCoeffs s.f0 s.d l1 l2 g1 g2).1 * s.d ∧
      clampF (fdiv (-(cubicCoeffs s.f0 s.d l1 l2 g1 g2).2 + Real.sqrt
          ((cubicCoeffs s.f0 s.d l1 l2 g1 g2).2 * (cubicCoeffs s.f0 s.d l1 l2 g1 g2).2
          - 3 * (cubicCoeffs s.f0 s.d l1 l2 g1 g2).1 * s.d))
          (3 * (cubicCoeffs s.f0 s.d l1 l2 g1 g2).1)) (0.1 * l1) (0.5 * l1) = some l := by
  unfold cubic at h
  split at h
  · next l1 l2 g1 g2 e1 e2 e3 e4 =>
    split_ifs at h with hz
    push Not at hz
    simp only at h
    unfold fsqrt at h
    split_ifs at h with hs
    · push Not at hs
      exact ⟨l1, l2, g1, g2, e1, e2, e3, e4, hz.1, hz.2.1, hz.2.2, hs, h⟩
  · simp at h

theorem fdiv_of_ne {a b : ℝ} (h : b ≠ 0) : fdiv a b = some ((a / b : ℝ) : EReal) := by
  unfold fdiv; exact if_neg h

/-! ## C01 -/

/-- C01, first call after `reinit`: a step length that is a number lies in `[0.1, 0.5]`. -/
theorem C01_first_step (s : LineSearch) (f lam : Option ℝ) (l : ℝ) (h0 : s.nIter = 0)
    (h : (getLambda s f lam).2 = some l) : 0.1 ≤ l ∧ l ≤ 0.5 := by
  unfold getLambda at h
  simp only [h0, if_true] at h
  cases f with
  | none => simp at h
  | some f =>
    simp only [Option.bind_some, quadratic] at h
    exact clampF_mem (by norm_num) h

/-- C01, later calls: a step length that is a number lies in `[0.1, 0.5]` times the
step length passed in, and that one was a number. -/
theorem C01_later_step (s : LineSearch) (f lam : Option ℝ) (l : ℝ) (h0 : s.nIter ≠ 0)
    (h : (getLambda s f lam).2 = some l) :
    ∃ p, lam = some p ∧ (0 ≤ p → 0.1 * p ≤ l ∧ l ≤ 0.5 * p) := by
  unfold getLambda at h
  simp only [h0, if_false] at h
  obtain ⟨l1, l2, g1, g2, e1, -, -, -, -, -, -, -, hc⟩ := cubic_some h
  simp only at e1
  exact ⟨l1, e1, fun hp => clampF_mem (by linarith) hc⟩

theorem after_nIter (s : LineSearch) (obj : ℕ → Option ℝ) (f0 : ℝ) (k : ℕ) :
    (after (reinit s f0) obj k).1.nIter = k := by
  induction k with
  | zero => simp [after, reinit]
  | succ k ih =>
    rw [after, getLambda]
    simp only
    split_ifs <;> simp only [ih]

/-- C01, whole loop: after `k` interpolations, whatever the objective values were, the
relaxation parameter is either not a number or lies in `[0.1^k, 0.5^k]`, and it is
strictly below the previous one. -/
theorem C01_compound (s : LineSearch) (f0 : ℝ) (obj : ℕ → Option ℝ) (k : ℕ) (l : ℝ)
    (h : (after (reinit s f0) obj k).2 = some l) :
    (0.1 : ℝ) ^ k ≤ l ∧ l ≤ (0.5 : ℝ) ^ k ∧
      (∀ j < k, ∃ l', (after (reinit s f0) obj j).2 = some l' ∧ l < l') := by
  induction k generalizing l with
  | zero =>
    simp only [after, Option.some.injEq] at h
    subst h
    refine ⟨by norm_num, by norm_num, by intro j hj; omega⟩
  | succ k ih =>
    rw [after] at h
    by_cases hk : k = 0
    · subst hk
      have := C01_first_step _ _ _ _ (after_nIter s obj f0 0) h
      refine ⟨by norm_num; linarith [this.1], by norm_num; linarith [this.2], ?_⟩
      intro j hj
      have : j = 0 := by omega
      subst this
      exact ⟨1, rfl, by linarith [this.2]⟩
    · obtain ⟨p, hp, hb⟩ := C01_later_step _ _ _ _ (by rw [after_nIter]; exact hk) h
      obtain ⟨h1, h2, h3⟩ := ih p hp
      have hpow : (0 : ℝ) < (0.1 : ℝ) ^ k := by positivity
      have hp0 : 0 < p := lt_of_lt_of_le hpow h1
      obtain ⟨hb1, hb2⟩ := hb hp0.le
      have hlt : l < p := by linarith
      refine ⟨?_, ?_, ?_⟩
      · rw [pow_succ]; nlinarith
      · rw [pow_succ]; nlinarith
      · intro j hj
        rcases Nat.lt_succ_iff_lt_or_eq.mp hj with hj | hj
        · obtain ⟨l', e, hl'⟩ := h3 j hj
          exact ⟨l', e, by linarith⟩
        · subst hj; exact ⟨p, hp, hlt⟩

/-- Non-vacuity of C01: a full step that quadruples an objective of 1 is cut to 1/5. -/
example : (after (reinit (construct 15 1e-4) 1) (fun _ => some 4) 1).2 = some 0.2 := by
  simp only [after, getLambda, reinit, construct, if_true, Option.bind_some, quadratic, fdiv]
  norm_num [clampF]

/-! ## C02 -/

theorem after_params (s : LineSearch) (obj : ℕ → Option ℝ) (k : ℕ) :
    (after s obj k).1.nMax = s.nMax ∧ (after s obj k).1.alpha = s.alpha ∧
    (after s obj k).1.f0 = s.f0 ∧ (after s obj k).1.d = s.d := by
  induction k with
  | zero => simp [after]
  | succ k ih =>
    rw [after, getLambda]
    simp only
    split_ifs <;> simpa using ih

theorem loop_eq_after (s : LineSearch) (obj : ℕ → Option ℝ) (fuel k : ℕ) (out : LoopOut)
    (h : loop obj fuel k (after s obj k).1 (after s obj k).2 = some out) :
    k ≤ out.k ∧ out.lam = (after s obj out.k).2 ∧ out.f = obj out.k ∧
    sufficient (after s obj out.k).1 (obj out.k) (after s obj out.k).2 ∧
    ∀ j, k ≤ j → j < out.k → ¬ sufficient (after s obj j).1 (obj j) (after s obj j).2 := by
  induction fuel generalizing k with
  | zero => simp [loop] at h
  | succ fuel ih =>
    rw [loop] at h
    split_ifs at h with hs
    · simp only [Option.some.injEq] at h
      subst h
      exact ⟨le_refl _, rfl, rfl, hs, by intro j h1 h2; simp only at h2; omega⟩
    · have := ih (k + 1) (by rw [after]; exact h)
      obtain ⟨h1, h2, h3, h4, h5⟩ := this
      refine ⟨by omega, h2, h3, h4, ?_⟩
      intro j hj1 hj2
      rcases Nat.eq_or_lt_of_le hj1 with hj | hj
      · subst hj; exact hs
      · exact h5 j hj hj2

theorem loop_finishes (s : LineSearch) (f0 : ℝ) (obj : ℕ → Option ℝ) (fuel k : ℕ)
    (hk : s.nMax + 2 ≤ k + fuel) (hk' : k ≤ s.nMax + 1) :
    ∃ out, loop obj fuel k (after (reinit s f0) obj k).1 (after (reinit s f0) obj k).2
      = some out ∧ out.k ≤ s.nMax + 1 := by
  induction fuel generalizing k with
  | zero => omega
  | succ fuel ih =>
    rw [loop]
    split_ifs with hs
    · exact ⟨_, rfl, hk'⟩
    · have hk2 : k ≤ s.nMax := by
        by_contra hc
        apply hs
        unfold sufficient
        rw [after_nIter, (after_params _ obj k).1]
        left; simpa [reinit] using hc
      have := ih (k + 1) (by omega) (by omega)
      rw [after] at this
      exact this

/-- C02.  Whatever objective values the assembly produces (`none` = not a number), the
solver's line-search loop started from `reinit f0` and `relaxation_parameter = 1` stops
after at most `n_max_iterations + 1` interpolations (fuel `n_max_iterations + 2` is never
exhausted).  It stops at the *first* relaxation parameter with sufficient decrease
`f(λ) < f(0) + α λ d`, `d = -2 f(0)`, unless more than `n_max_iterations` interpolations
were made; relaxation parameter and objective value returned belong together. -/
theorem C02_line_search_terminates (s : LineSearch) (f0 : ℝ) (obj : ℕ → Option ℝ) :
    ∃ out, loop obj (s.nMax + 2) 0 (reinit s f0) (some 1) = some out ∧
      out.k ≤ s.nMax + 1 ∧
      out.lam = (after (reinit s f0) obj out.k).2 ∧ out.f = obj out.k ∧
      ((∃ f l, out.f = some f ∧ out.lam = some l ∧ f < f0 + s.alpha * l * (-2 * f0)) ∨
        out.k = s.nMax + 1) ∧
      (∀ j < out.k, ∀ f l, obj j = some f → (after (reinit s f0) obj j).2 = some l →
        f0 + s.alpha * l * (-2 * f0) ≤ f) := by
  obtain ⟨out, ho, hle⟩ := loop_finishes s f0 obj (s.nMax + 2) 0 (by omega) (by omega)
  rw [after] at ho
  obtain ⟨-, h2, h3, h4, h5⟩ := loop_eq_after (reinit s f0) obj _ 0 out ho
  refine ⟨out, ho, hle, h2, h3, ?_, ?_⟩
  · unfold sufficient at h4
    obtain ⟨p1, p2, p3, p4⟩ := after_params (reinit s f0) obj out.k
    rw [after_nIter, p1, p2, p3, p4] at h4
    rcases h4 with hn | h4
    · right; simp only [reinit] at hn; omega
    · left
      rw [h2, h3]
      cases hf : obj out.k with
      | none => rw [hf] at h4; simp [descends] at h4
      | some f =>
        cases hl : (after (reinit s f0) obj out.k).2 with
        | none => rw [hf, hl] at h4; simp [descends] at h4
        | some l => rw [hf, hl] at h4; exact ⟨f, l, rfl, rfl, h4⟩
  · intro j hj f l hf hl
    have := h5 j (by omega) hj
    unfold sufficient at this
    obtain ⟨p1, p2, p3, p4⟩ := after_params (reinit s f0) obj j
    rw [after_nIter, p1, p2, p3, p4, hf, hl] at this
    push Not at this
    simpa [descends, reinit] using this.2

/-- Non-vacuity of C02: the bound is attained — with an objective that never decreases the
loop makes exactly `n_max + 1` interpolations. -/
example (s : LineSearch) (f0 : ℝ) : ∃ out,
    loop (fun _ => none) (s.nMax + 2) 0 (reinit s f0) (some 1) = some out ∧
      out.k = s.nMax + 1 := by
  obtain ⟨out, h1, -, -, -, h5, -⟩ := C02_line_search_terminates s f0 (fun _ => none)
  refine ⟨out, h1, ?_⟩
  rcases h5 with ⟨f, l, hf, -, -⟩ | h
  · have : out.f = none := (loop_eq_after (reinit s f0) _ _ 0 out h1).2.2.1
    rw [this] at hf; simp at hf
  · exact h

/-! ## C03 -/

/-- The curvature `(f(λ) - f(0) - λ d) / λ²` of the secant parabola at step length `l`;
two of them are equal exactly if the cubic interpolant degenerates to a parabola. -/
noncomputable def secantCurvature (f0 l f : ℝ) : ℝ := (f - f0 - l * (-2 * f0)) / (l * l)

theorem cubicCoeffs_eq (f0 d l1 l2 g1 g2 : ℝ) (h1 : l1 ≠ 0) (h2 : l2 ≠ 0) (h12 : l1 ≠ l2) :
    (cubicCoeffs f0 d l1 l2 g1 g2).1 * l1 + (cubicCoeffs f0 d l1 l2 g1 g2).2
      = (g1 - f0 - l1 * d) / (l1 * l1) ∧
    (cubicCoeffs f0 d l1 l2 g1 g2).1 * l2 + (cubicCoeffs f0 d l1 l2 g1 g2).2
      = (g2 - f0 - l2 * d) / (l2 * l2) := by
  have h12' : l1 - l2 ≠ 0 := sub_ne_zero.mpr h12
  unfold cubicCoeffs
  constructor <;> · field_simp; ring

/-- If the sufficient-decrease test failed at both step lengths and `α ≤ 1/4`, then the
radicand of the cubic interpolation is non-negative. -/
theorem radicand_nonneg (f0 alpha l1 l2 g1 g2 : ℝ) (hf0 : 0 ≤ f0) (ha : alpha ≤ 1 / 4)
    (h1 : 0 < l1) (h2 : 0 < l2) (h12 : l1 ≠ l2)
    (hg1 : f0 + alpha * l1 * (-2 * f0) ≤ g1) :
    0 ≤ (cubicCoeffs f0 (-2 * f0) l1 l2 g1 g2).2 * (cubicCoeffs f0 (-2 * f0) l1 l2 g1 g2).2
      - 3 * (cubicCoeffs f0 (-2 * f0) l1 l2 g1 g2).1 * (-2 * f0) := by
  obtain ⟨e1, -⟩ := cubicCoeffs_eq f0 (-2 * f0) l1 l2 g1 g2 h1.ne' h2.ne' h12
  set a := (cubicCoeffs f0 (-2 * f0) l1 l2 g1 g2).1
  set b := (cubicCoeffs f0 (-2 * f0) l1 l2 g1 g2).2
  have hc : (3 / 2) * f0 ≤ (a * l1 + b) * l1 := by
    rw [e1]
    rw [show (g1 - f0 - l1 * (-2 * f0)) / (l1 * l1) * l1 = (g1 - f0 - l1 * (-2 * f0)) / l1 by
      field_simp, le_div_iff₀ h1]
    have : alpha * l1 * f0 ≤ 1 / 4 * l1 * f0 := by
      have : 0 ≤ l1 * f0 := by positivity
      nlinarith
    nlinarith
  -- b l1 ≥ 3/2 f0 - a l1²
  by_cases haz : 0 ≤ a
  · have : 0 ≤ a * f0 := by positivity
    nlinarith [mul_self_nonneg b]
  · push Not at haz
    have hb : (3 / 2) * f0 + (-a) * (l1 * l1) ≤ b * l1 := by nlinarith
    have hpos : 0 ≤ (3 / 2) * f0 + (-a) * (l1 * l1) := by
      have : 0 ≤ (-a) * (l1 * l1) := by nlinarith [mul_self_nonneg l1]
      linarith
    have hsq : ((3 / 2) * f0 + (-a) * (l1 * l1)) ^ 2 ≤ (b * l1) ^ 2 :=
      pow_le_pow_left₀ hpos hb 2
    have key : 0 ≤ (b * b - 3 * a * (-2 * f0)) * (l1 * l1) := by
      nlinarith [sq_nonneg ((3 / 2) * f0 - (-a) * (l1 * l1))]
    have hl : 0 < l1 * l1 := by positivity
    exact nonneg_of_mul_nonneg_left key hl

/-- The values stored by the line search after `k+1` calls are the ones passed in. -/
theorem after_stored (s : LineSearch) (f0 : ℝ) (obj : ℕ → Option ℝ) (k : ℕ) :
    (after (reinit s f0) obj (k + 1)).1.oldF = obj k ∧
    (after (reinit s f0) obj (k + 1)).1.oldLam = (after (reinit s f0) obj k).2 := by
  rw [after, getLambda]
  simp only
  split_ifs <;> simp

/-- C03 (partial).  Full statement: if every sufficient-decrease test so far failed on
finite objective values, `f(0) > 0` and `α ≤ 1/4`, the next step length is a number.
That is false when the cubic interpolant degenerates exactly to a parabola
(`C03_violated`).  Proved here: it is the only way — whenever the last two secant
curvatures differ at every earlier interpolation, the step length is a number. -/
theorem C03_step_is_number_partial (s : LineSearch) (f0 : ℝ) (obj : ℕ → Option ℝ)
    (f : ℕ → ℝ) (k : ℕ) (hf0 : 0 < f0) (ha : s.alpha ≤ 1 / 4)
    (hobj : ∀ j < k, obj j = some (f j))
    (hfail : ∀ j < k, ∀ l, (after (reinit s f0) obj j).2 = some l →
      f0 + s.alpha * l * (-2 * f0) ≤ f j)
    (hcurv : ∀ j, j + 1 < k → ∀ l l', (after (reinit s f0) obj j).2 = some l →
      (after (reinit s f0) obj (j + 1)).2 = some l' →
      secantCurvature f0 l (f j) ≠ secantCurvature f0 l' (f (j + 1))) :
    ∃ l, (after (reinit s f0) obj k).2 = some l := by
  induction k with
  | zero => exact ⟨1, rfl⟩
  | succ k ih =>
    obtain ⟨l, hl⟩ := ih (fun j hj => hobj j (by omega)) (fun j hj => hfail j (by omega))
      (fun j hj => hcurv j (by omega))
    rw [← Option.ne_none_iff_exists']
    cases k with
    | zero =>
      have hn := after_nIter s obj f0 0
      rw [after, getLambda]
      simp only
      rw [if_pos hn]
      simp only [after]
      have h0 := hobj 0 (by omega)
      have h1 := hfail 0 (by omega) 1 rfl
      rw [h0]
      simp only [Option.bind_some, quadratic, reinit]
      have : f 0 - f0 - -2 * f0 ≠ 0 := by
        have : 0 < f 0 - f0 - -2 * f0 := by nlinarith
        exact this.ne'
      rw [fdiv_of_ne this]
      exact clampF_some_ne_none
    | succ k =>
      obtain ⟨hb1, -, hdec⟩ := C01_compound s f0 obj (k + 1) l hl
      obtain ⟨l2, hl2, hlt⟩ := hdec k (by omega)
      have hlpos : 0 < l := lt_of_lt_of_le (by positivity) hb1
      have hne : l ≠ l2 := hlt.ne
      have hst := after_stored s f0 obj k
      have hpar := after_params (reinit s f0) obj (k + 1)
      have hn := after_nIter s obj f0 (k + 1)
      rw [after, getLambda]
      simp only
      rw [if_neg (by rw [hn]; omega)]
      have hF1 := hobj (k + 1) (by omega)
      have hF0 := hobj k (by omega)
      have hrad := radicand_nonneg f0 s.alpha l l2 (f (k + 1)) (f k) hf0.le ha hlpos
        (by linarith) hne (hfail (k + 1) (by omega) l hl)
      have hc := hcurv k (by omega) l2 l hl2 hl
      obtain ⟨e1, e2⟩ := cubicCoeffs_eq f0 (-2 * f0) l l2 (f (k + 1)) (f k) hlpos.ne'
        (by linarith) hne
      have ha0 : (cubicCoeffs f0 (-2 * f0) l l2 (f (k + 1)) (f k)).1 ≠ 0 := by
        intro h0
        rw [h0] at e1 e2
        apply hc
        unfold secantCurvature
        rw [← e1, ← e2]; ring
      have hd : (after (reinit s f0) obj (k + 1)).1.d = -2 * f0 := by rw [hpar.2.2.2]; rfl
      have hf : (after (reinit s f0) obj (k + 1)).1.f0 = f0 := by rw [hpar.2.2.1]; rfl
      simp only [cubic, hst.1, hst.2, hl, hl2, hF1, hF0]
      rw [if_neg (by push Not; exact ⟨hlpos.ne', by linarith, hne⟩)]
      rw [hd, hf]
      unfold fsqrt
      rw [if_neg (not_lt.mpr hrad)]
      simp only [fdiv]
      rw [if_neg (by simpa using ha0)]
      exact clampF_some_ne_none

/-- C03 is violated: with the default `α = 10⁻⁴`, `f(0) = 1` and objective values
`f(1) = 99`, `f(0.1) = 1.8` — the values of the parabola `1 - 2λ + 100λ²`, so both
sufficient-decrease tests fail — the third relaxation parameter is not a number. -/
theorem C03_violated :
    ∃ obj : ℕ → Option ℝ,
      obj 0 = some 99 ∧ obj 1 = some 1.8 ∧
      (after (reinit (construct 15 1e-4) 1) obj 1).2 = some 0.1 ∧
      ¬ sufficient (after (reinit (construct 15 1e-4) 1) obj 0).1 (obj 0) (some 1) ∧
      ¬ sufficient (after (reinit (construct 15 1e-4) 1) obj 1).1 (obj 1) (some 0.1) ∧
      (after (reinit (construct 15 1e-4) 1) obj 2).2 = none := by
  refine ⟨fun j => if j = 0 then some 99 else some 1.8, rfl, rfl, ?_, ?_, ?_, ?_⟩
  · simp only [after, getLambda, reinit, construct, if_true, Option.bind_some, quadratic, fdiv]
    norm_num [clampF]
  · simp [sufficient, after, reinit, construct, descends]; norm_num
  · simp [sufficient, after, getLambda, reinit, construct, descends]; norm_num
  · have h1 : (after (reinit (construct 15 1e-4) 1)
        (fun j => if j = 0 then some (99 : ℝ) else some 1.8) 1).2 = some 0.1 := by
      simp only [after, getLambda, reinit, construct, if_true, Option.bind_some, quadratic, fdiv]
      norm_num [clampF]
    rw [after, h1]
    simp only [getLambda, after, reinit, construct, if_true]
    norm_num [cubic, cubicCoeffs, fsqrt, fdiv]
    rw [show (10000 : ℝ) = 100 ^ 2 by norm_num, Real.sqrt_sq (by norm_num)]
    norm_num [clampF]

/-- The hypotheses of `C03_step_is_number_partial` can be met with two interpolations. -/
example : ∃ f : ℕ → ℝ, ∃ l,
    (after (reinit (construct 15 1e-4) 1) (fun j => some (f j)) 2).2 = some l := by
  have h1 : (after (reinit (construct 15 1e-4) 1)
      (fun j => some (if j = 0 then (99 : ℝ) else 5)) 1).2 = some 0.1 := by
    simp only [after, getLambda, reinit, construct, if_true, Option.bind_some, quadratic, fdiv]
    norm_num [clampF]
  refine ⟨fun j => if j = 0 then 99 else 5, ?_⟩
  apply C03_step_is_number_partial _ _ _ (fun j => if j = 0 then 99 else 5)
  · norm_num
  · norm_num [construct]
  · intro j _; rfl
  · intro j hj l hl
    interval_cases j
    · simp only [after, Option.some.injEq] at hl; subst hl; norm_num [construct]
    · rw [h1] at hl; simp only [Option.some.injEq] at hl; subst hl; norm_num [construct]
  · intro j hj l l' hl hl'
    have : j = 0 := by omega
    subst this
    rw [h1] at hl'
    simp only [after, Option.some.injEq] at hl hl'
    subst hl; subst hl'
    norm_num [secantCurvature]

/-! ## C04 -/

/-- C04, first interpolation.  If the first step length is a number strictly inside the
safeguard interval, it minimises *the* parabola `q` with `q(0) = f(0)`, `q'(0) = -2 f(0)`,
`q(1) =` the trial value, over the whole real line. -/
theorem C04_quadratic_minimises (s : LineSearch) (f0 f1 l A B C : ℝ) (lam : Option ℝ)
    (hf0 : 0 < f0) (hA : A = f0) (hB : B = -2 * f0) (hC : A + B * 1 + C * 1 ^ 2 = f1)
    (h : (getLambda (reinit s f0) (some f1) lam).2 = some l) (h1 : 0.1 < l) (h2 : l < 0.5) :
    ∀ x, A + B * l + C * l ^ 2 ≤ A + B * x + C * x ^ 2 := by
  unfold getLambda at h
  simp only [reinit, if_true, Option.bind_some, quadratic, fdiv] at h
  have hC' : f1 - f0 - -2 * f0 = C := by rw [← hC, hA, hB]; ring
  rw [hC'] at h
  split_ifs at h with hz hp hn
  · unfold clampF at h; simp only at h
    split_ifs at h with t1 t2
    all_goals simp only [Option.some.injEq, EReal.toReal_top] at h
    all_goals linarith
  · unfold clampF at h; simp only at h
    split_ifs at h with t1 t2
    all_goals simp only [Option.some.injEq, EReal.toReal_bot] at h
    all_goals linarith
  · simp [clampF] at h
  · have hl : l = -(-2 * f0) / 2 / C := by
      unfold clampF at h; simp only at h
      split_ifs at h with t1 t2
      all_goals simp only [Option.some.injEq, EReal.toReal_coe] at h
      · linarith
      · linarith
      · exact h.symm
    have hlC : l * C = f0 := by rw [hl]; field_simp
    have hCpos : 0 < C := by
      by_contra hneg
      push Not at hneg
      nlinarith
    intro x
    rw [hB]
    nlinarith [mul_nonneg hCpos.le (sq_nonneg (x - l))]

/-- C04, later interpolations.  If a later step length is a number strictly inside the
safeguard interval, it is a stationary point with non-negative curvature of *the* cubic
`p(x) = f(0) - 2 f(0) x + b x² + a x³` that takes the last two trial values at the last two
step lengths. -/
theorem C04_cubic_minimises (s : LineSearch) (f0 a b l l1 l2 g1 g2 : ℝ)
    (hs : s.nIter ≠ 0) (hsf : s.f0 = f0) (hsd : s.d = -2 * f0)
    (hl2 : s.oldLam = some l2) (hg2 : s.oldF = some g2)
    (hp1 : f0 - 2 * f0 * l1 + b * l1 ^ 2 + a * l1 ^ 3 = g1)
    (hp2 : f0 - 2 * f0 * l2 + b * l2 ^ 2 + a * l2 ^ 3 = g2)
    (h : (getLambda s (some g1) (some l1)).2 = some l)
    (h1 : 0.1 * l1 < l) (h2 : l < 0.5 * l1) :
    (-2 * f0 + 2 * b * l + 3 * a * l ^ 2 = 0 ∧ 0 ≤ 2 * b + 6 * a * l) := by
  unfold getLambda at h
  simp only [hs, if_false] at h
  obtain ⟨l1', l2', g1', g2', e1, e2, e3, e4, n1, n2, n12, hr, hc⟩ := cubic_some h
  simp only [Option.some.injEq] at e1 e3
  simp only at e2 e4
  rw [hl2] at e2; rw [hg2] at e4
  simp only [Option.some.injEq] at e2 e4
  subst e1; subst e2; subst e3; subst e4
  simp only [hsf, hsd] at hr hc
  obtain ⟨c1, c2⟩ := cubicCoeffs_eq f0 (-2 * f0) l1 l2 g1 g2 n1 n2 n12
  have d1 : (g1 - f0 - l1 * (-2 * f0)) / (l1 * l1) = a * l1 + b := by
    rw [← hp1]; field_simp; ring
  have d2 : (g2 - f0 - l2 * (-2 * f0)) / (l2 * l2) = a * l2 + b := by
    rw [← hp2]; field_simp; ring
  rw [d1] at c1; rw [d2] at c2
  have hsub : l1 - l2 ≠ 0 := sub_ne_zero.mpr n12
  have ea : (cubicCoeffs f0 (-2 * f0) l1 l2 g1 g2).1 = a := by
    have : ((cubicCoeffs f0 (-2 * f0) l1 l2 g1 g2).1 - a) * (l1 - l2) = 0 := by
      linear_combination c1 - c2
    rcases mul_eq_zero.mp this with h | h
    · linarith
    · exact absurd h hsub
  have eb : (cubicCoeffs f0 (-2 * f0) l1 l2 g1 g2).2 = b := by rw [ea] at c1; linarith
  rw [ea, eb] at hr hc
  set r := Real.sqrt (b * b - 3 * a * (-2 * f0)) with hrdef
  have hrr : r * r = b * b - 3 * a * (-2 * f0) := Real.mul_self_sqrt hr
  have hr0 : 0 ≤ r := Real.sqrt_nonneg _
  unfold fdiv at hc
  have ha : a ≠ 0 := by
    rintro rfl
    simp only [mul_zero, if_true] at hc
    split_ifs at hc
    all_goals unfold clampF at hc; simp only at hc
    all_goals try split_ifs at hc
    all_goals simp only [Option.some.injEq, EReal.toReal_top, EReal.toReal_bot, reduceCtorEq] at hc
    all_goals linarith
  rw [if_neg (by simpa using ha)] at hc
  have hl : l = (-b + r) / (3 * a) := by
    unfold clampF at hc; simp only at hc
    split_ifs at hc with t1 t2
    all_goals simp only [Option.some.injEq, EReal.toReal_coe] at hc
    · linarith
    · linarith
    · exact hc.symm
  have hl3 : 3 * a * l = -b + r := by rw [hl]; field_simp
  constructor
  · have : 3 * a * (-2 * f0 + 2 * b * l + 3 * a * l ^ 2) = 0 := by
      have : (3 * a * l) ^ 2 = (-b + r) ^ 2 := by rw [hl3]
      nlinarith
    rcases mul_eq_zero.mp this with h | h
    · exact absurd h (by simpa using ha)
    · exact h
  · linarith

end Verif.LS
