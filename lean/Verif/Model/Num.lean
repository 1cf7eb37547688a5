import Mathlib.Data.EReal.Basic
import Mathlib.Analysis.Real.Sqrt

/-!
# Numbers

`double` is modelled by `ℝ`; the value "not a number" by `none : Option ℝ`.
An IEEE division whose divisor is zero yields an infinity or NaN; that result is
an `Option EReal` (`none` = NaN).  Rounding and signed zeros are not modelled:
a zero divisor counts as positive zero.
-/

namespace Verif

/-- IEEE division of two finite numbers (divisor zero counted as `+0`). -/
noncomputable def fdiv (a b : ℝ) : Option EReal :=
  if b = 0 then (if 0 < a then some ⊤ else if a < 0 then some ⊥ else none)
  else some ((a / b : ℝ) : EReal)

/-- `std::sqrt` of a finite number: NaN for negative arguments. -/
noncomputable def fsqrt (a : ℝ) : Option ℝ := if a < 0 then none else some (Real.sqrt a)

/-- `if (x < lo) return lo; else if (x > hi) return hi; else return x;`
where `x` may be infinite or NaN.  Comparisons with NaN are false, so NaN is
returned; infinities are clamped. -/
noncomputable def clampF (x : Option EReal) (lo hi : ℝ) : Option ℝ :=
  match x with
  | none => none
  | some x => if x < (lo : EReal) then some lo else if (hi : EReal) < x then some hi
              else some x.toReal

end Verif
