import Verif.Model.Num

/-!
# Model of `LineSearch` and of the solver's line-search loop
-/

namespace Verif.LS
open Verif

/-- Data members of `LineSearch` that influence results
(`include/gCP/line_search.h:40-66`).  Members are uninitialised until first
written; an uninitialised or NaN member is `none`.  `table_handler`, `step_id`,
`iteration_id` (output only) and `beta` (never read, `line_search.h:98-107`) are
left out. -/
structure LineSearch where
  nIter : ℕ
  nMax : ℕ
  alpha : ℝ
  f0 : ℝ
  d : ℝ
  oldF : Option ℝ
  oldOldF : Option ℝ
  oldLam : Option ℝ
  oldOldLam : Option ℝ

/-- Constructor (`source/line_search.cc:26-39`); `f0`, `d` get values in `reinit`. -/
noncomputable def construct (nMax : ℕ) (alpha : ℝ) : LineSearch :=
  { nIter := 0, nMax, alpha, f0 := 0, d := 0, oldF := none, oldOldF := none,
    oldLam := none, oldOldLam := none }

/-- `LineSearch::reinit` (`source/line_search.cc:45-61`).  The old values of the
previous search are *not* cleared, as in the code. -/
noncomputable def reinit (s : LineSearch) (f0 : ℝ) : LineSearch :=
  { s with nIter := 0, f0 := f0, d := -2 * f0 }

/-- `LineSearch::quadratic_backtracking` (`source/line_search.cc:114-129`). -/
noncomputable def quadratic (s : LineSearch) (trialF : ℝ) : Option ℝ :=
  clampF (fdiv (-s.d / 2) (trialF - s.f0 - s.d)) 0.1 0.5

/-- Coefficients `(coefficients[0], coefficients[1])` of the 2×2 system in
`LineSearch::cubic_backtracking` (`source/line_search.cc:135-158`), for finite
data with non-zero, distinct step lengths. -/
noncomputable def cubicCoeffs (f0 d oldLam oldOldLam oldF oldOldF : ℝ) : ℝ × ℝ :=
  let factor := 1 / (oldLam - oldOldLam)
  let m00 := 1 / (oldLam * oldLam)
  let m01 := -1 / (oldOldLam * oldOldLam)
  let m10 := -oldOldLam / (oldLam * oldLam)
  let m11 := oldLam / (oldOldLam * oldOldLam)
  let v0 := oldF - f0 - oldLam * d
  let v1 := oldOldF - f0 - oldOldLam * d
  ((m00 * v0 + m01 * v1) * factor, (m10 * v0 + m11 * v1) * factor)

/-- `LineSearch::cubic_backtracking` (`source/line_search.cc:133-167`).
Simplification: if a divisor of the coefficient computation is zero
(`old_lambda`, `old_old_lambda` zero or equal) the result is `none`; the code
then computes with infinities. -/
noncomputable def cubic (s : LineSearch) : Option ℝ :=
  match s.oldLam, s.oldOldLam, s.oldF, s.oldOldF with
  | some l1, some l2, some g1, some g2 =>
    if l1 = 0 ∨ l2 = 0 ∨ l1 = l2 then none
    else
      let a := (cubicCoeffs s.f0 s.d l1 l2 g1 g2).1
      let b := (cubicCoeffs s.f0 s.d l1 l2 g1 g2).2
      match fsqrt (b * b - 3 * a * s.d) with
      | none => none
      | some r => clampF (fdiv (-b + r) (3 * a)) (0.1 * l1) (0.5 * l1)
  | _, _, _, _ => none

/-- `LineSearch::get_lambda` (`source/line_search.cc:65-97`); arguments may be NaN. -/
noncomputable def getLambda (s : LineSearch) (trialF trialLam : Option ℝ) :
    LineSearch × Option ℝ :=
  let s := { s with oldOldF := s.oldF, oldF := trialF }
  if s.nIter = 0 then
    let s := { s with oldLam := trialLam }
    ({ s with nIter := s.nIter + 1 }, trialF.bind (quadratic s))
  else
    let s := { s with oldOldLam := s.oldLam, oldLam := trialLam }
    ({ s with nIter := s.nIter + 1 }, cubic s)

/-- `trial < f0 + alpha*lambda*d` with NaN comparing false
(`include/gCP/line_search.h:109-111`). -/
def descends (f0 d alpha : ℝ) : Option ℝ → Option ℝ → Prop
  | some f, some l => f < f0 + alpha * l * d
  | _, _ => False

/-- `LineSearch::suficient_descent_condition` (`include/gCP/line_search.h:85-113`):
`true` beyond the maximum number of iterations, else the decrease test. -/
def sufficient (s : LineSearch) (trialF lam : Option ℝ) : Prop :=
  s.nIter > s.nMax ∨ descends s.f0 s.d s.alpha trialF lam

/-- Result of the solver's loop: number of interpolations, relaxation parameter,
last objective value. -/
structure LoopOut where
  k : ℕ
  lam : Option ℝ
  f : Option ℝ

open Classical in
/-- `while (!suficient_descent_condition(..)) relaxation_parameter = get_lambda(..)`
(`source/gradient_crystal_plasticity/solve.cc:1564-1600`, `1602-1639`).
`obj k` is the objective value `0.5*|residual|^2` found after `k` interpolations:
an arbitrary sequence, so every behaviour of the assembly is covered.  `fuel`
bounds the recursion; `none` means it was exhausted. -/
noncomputable def loop (obj : ℕ → Option ℝ) :
    ℕ → ℕ → LineSearch → Option ℝ → Option LoopOut
  | 0, _, _, _ => none
  | fuel + 1, k, s, lam =>
    if sufficient s (obj k) lam then some ⟨k, lam, obj k⟩
    else loop obj fuel (k + 1) (getLambda s (obj k) lam).1 (getLambda s (obj k) lam).2

/-- State of the line search and current relaxation parameter after `k` passes of
the loop body, starting from `relaxation_parameter = 1.0`
(`solve.cc:1571`, `1612`). -/
noncomputable def after (s : LineSearch) (obj : ℕ → Option ℝ) : ℕ → LineSearch × Option ℝ
  | 0 => (s, some 1)
  | k + 1 => getLambda (after s obj k).1 (obj k) (after s obj k).2

/-- `LineSearch::get_objective_function_value` (`include/gCP/line_search.h:117-122`). -/
noncomputable def objective (residuum : ℝ) : ℝ := 0.5 * residuum * residuum

end Verif.LS
