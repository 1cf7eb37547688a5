import Verif.Model.History
import Mathlib.Analysis.SpecialFunctions.Trigonometric.Arctan
import Mathlib.Analysis.SpecialFunctions.Sqrt
import Mathlib.MeasureTheory.Integral.IntervalIntegral.Basic

/-!
# Model of the regularised sign functions and the scalar microstress law

Values are real numbers; `M_PI` is `π`.  `std::erf` is the error function.
-/

namespace Verif.Micro
open Verif.Hist

/-- `RunTimeParameters::RegularizationFunction`
(`include/gCP/run_time_parameters.h`, used in `source/constitutive_laws.cc:447-572`). -/
inductive RegFn
  | atan | sqrt | gd | tanh | erf

/-- `std::erf`. -/
noncomputable def erf (x : ℝ) : ℝ := 2 / √Real.pi * ∫ t in (0 : ℝ)..x, Real.exp (-t ^ 2)

/-- `ScalarMicrostressLaw::get_regularization_function_value`
(`source/constitutive_laws.cc:445-507`). -/
noncomputable def reg (f : RegFn) (k x : ℝ) : ℝ :=
  match f with
  | .atan => 2 / Real.pi * Real.arctan (Real.pi / 2 * x / k)
  | .sqrt => x / √(x * x + k * k)
  | .gd => 2 / Real.pi * Real.arctan (Real.sinh (Real.pi / 2 * x / k))
  | .tanh => Real.tanh (x / k)
  | .erf => erf (√Real.pi / 2 * x / k)

/-- `ScalarMicrostressLaw::get_regularization_function_derivative_value`
(`source/constitutive_laws.cc:511-573`). -/
noncomputable def regDeriv (f : RegFn) (k x : ℝ) : ℝ :=
  match f with
  | .atan => k / (k * k + Real.pi * Real.pi * x * x / 4)
  | .sqrt => k * k / (x * x + k * k) ^ (1.5 : ℝ)
  | .gd => 1 / Real.cosh (Real.pi / 2 * x / k) / k
  | .tanh => (1 / Real.cosh (x / k)) ^ 2 / k
  | .erf => 1 / k * Real.exp (-Real.pi * x * x / k / k / 4)

/-- `Utilities::sigmoid_function(value, parameter, function_type)`
(`source/utilities.cc:75-130`). -/
noncomputable def sigmoid (value parameter : ℝ) (f : RegFn) : ℝ :=
  match f with
  | .atan => 2 / Real.pi * Real.arctan (Real.pi / 2 * value / parameter)
  | .sqrt => value / √(value * value + parameter * parameter)
  | .gd => 2 / Real.pi * Real.arctan (Real.sinh (Real.pi / 2 * value / parameter))
  | .tanh => Real.tanh (value / parameter)
  | .erf => erf (√Real.pi / 2 * value / parameter)

/-- `Utilities::sigmoid_function_derivative(value, parameter, function_type)`
(`source/utilities.cc:134-193`). -/
noncomputable def sigmoidDeriv (value parameter : ℝ) (f : RegFn) : ℝ :=
  match f with
  | .atan => parameter / (parameter * parameter + Real.pi * Real.pi * value * value / 4)
  | .sqrt => parameter * parameter / (value * value + parameter * parameter) ^ (1.5 : ℝ)
  | .gd => 1 / Real.cosh (Real.pi / 2 * value / parameter) / parameter
  | .tanh => (1 / Real.cosh (value / parameter)) ^ 2 / parameter
  | .erf => 1 / parameter * Real.exp (-Real.pi * value * value / parameter / parameter / 4)

/-- `sgn` (`include/gCP/constitutive_laws.h:308-314`, `source/utilities.cc:66-71`). -/
noncomputable def sgn (x : ℝ) : ℝ := (if 0 < x then 1 else 0) - (if x < 0 then 1 else 0)

/-- Parameters of `ScalarMicrostressLaw` (`source/constitutive_laws.cc:296-326`). -/
structure Law where
  f : RegFn
  k : ℝ
  rateIndependent : Bool
  hard : Hardening

/-- `get_scalar_microstress` (`source/constitutive_laws.cc:329-361`). -/
noncomputable def Law.microstress (l : Law) (slip old resistance dt : ℝ) : ℝ :=
  let rate := (slip - old) / dt
  if l.rateIndependent then resistance * sgn rate else resistance * reg l.f l.k rate

/-- One entry of `get_jacobian` (`source/constitutive_laws.cc:365-441`);
`get_hardening_matrix_entry` of this class (`include/gCP/constitutive_laws.h:295-304`) is
the same expression as the one of the history class. -/
noncomputable def Law.jacobian {n : ℕ} (l : Law) (slips old res : Fin n → ℝ) (dt : ℝ)
    (a b : Fin n) : ℝ :=
  let rate := fun i => (slips i - old i) / dt
  (if l.hard.perfect then 0
    else if l.rateIndependent then l.hard.entry (decide (a = b)) * (sgn (rate a) * sgn (rate b))
    else l.hard.entry (decide (a = b)) * (reg l.f l.k (rate a) * reg l.f l.k (rate b))) +
  (if a = b ∧ l.rateIndependent = false then res a / dt * regDeriv l.f l.k (rate a) else 0)

/-- The microstress of slip system `a` as the assembly evaluates it
(`source/gradient_crystal_plasticity/assembly.cc:1399-1402` and the residual): slip
resistances are updated at the current slips first. -/
noncomputable def Law.evalMicrostress {n : ℕ} (l : Law) (h : Bulk n) (slips old : Fin n → ℝ)
    (dt : ℝ) (a : Fin n) : ℝ :=
  l.microstress (slips a) (old a) ((h.update slips old).res a) dt

/-- The tangent entry as the assembly evaluates it: with the updated resistances. -/
noncomputable def Law.evalJacobian {n : ℕ} (l : Law) (h : Bulk n) (slips old : Fin n → ℝ)
    (dt : ℝ) (a b : Fin n) : ℝ :=
  l.jacobian slips old (h.update slips old).res dt a b

end Verif.Micro
