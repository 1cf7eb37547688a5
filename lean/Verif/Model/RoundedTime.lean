import Verif.Model.Rounded
import Verif.Model.Loading

/-!
# The load programme in double precision

`Model/Loading.lean` computes times with real numbers.  Here every operation on times is rounded to
a double (see `Model/Rounded.lean`).  Step counts are `unsigned int`; where the code multiplies them
in `double`, the products are rounded.
-/

namespace Verif.Fp
open Load

variable (fl : ℝ → ℝ) (p : Prog)

/-- `time_step_size_monotonic_load` (`source/run_time_parameters.cc:1506-1507`). -/
noncomputable def dtMono : ℝ := fl (p.durMono / p.nMono)

/-- `time_step_size_loading_and_unloading_phase` (`source/run_time_parameters.cc:1519-1521`). -/
noncomputable def dtLoad : ℝ := fl (p.durLoad / p.nLoad)

/-- `time_step_size_cyclic_phase` (`source/run_time_parameters.cc:1530`). -/
noncomputable def dtCyclic : ℝ := fl (fl (p.period / 4) / p.nQuarter)

/-- `end_time` (`source/run_time_parameters.cc:1538-1552`). -/
noncomputable def endTime : ℝ :=
  match p.type with
  | .monotonic => fl (p.start + p.durMono)
  | .cyclic => fl (fl (p.start + fl ((if p.skipUnloading then 1 else 2) * p.durLoad)) +
      fl (p.nCycles * p.period))

/-- `get_next_time_step_size` (`source/run_time_parameters.cc:1595-1623`). -/
noncomputable def stepSize (k : ℕ) : ℝ :=
  match p.type with
  | .monotonic => dtMono fl p
  | .cyclic =>
    if k < p.nLoad then dtLoad fl p
    else if (k : ℝ) < fl (p.nLoad + fl (fl (4 * p.nQuarter) * p.nCycles)) then dtCyclic fl p
    else dtLoad fl p

/-- `calculate_next_time` of `dealii::DiscreteTime`; not part of the repository. -/
noncomputable def nextTime (cur dt fin : ℝ) : ℝ :=
  if fl (fin - fl (fl 0.05 * dt)) < fl (cur + dt) then fin else fl (cur + dt)

/-- Current time at the beginning of the `k`-th pass (counting from 0) of the time loop
(`applications/simple_shear.cc:863-902`). -/
noncomputable def time : ℕ → ℝ
  | 0 => p.start
  | k + 1 => nextTime fl (time k) (stepSize fl p k) (endTime fl p)

/-- The loop is entered for the `k`-th pass iff all tests `current < end` so far were true
(`applications/simple_shear.cc:863`). -/
def entered (k : ℕ) : Prop := ∀ j ≤ k, time fl p j < endTime fl p

/-- `skip_extrapolation` (`source/run_time_parameters.cc:1627-1671`): the quotient of the step
number and the steps of a period is rounded; `std::modf` is exact. -/
noncomputable def skip (k : ℕ) : Bool :=
  match p.type with
  | .monotonic => false
  | .cyclic =>
    let nCyc := u32 (4 * p.nQuarter * p.nCycles)
    let atCyclic := decide (k = p.nLoad)
    let atUnloading := decide (k = u32 (p.nLoad + nCyc))
    let inCyclic := decide (p.nLoad < k) && decide (k < u32 (nCyc + p.nLoad))
    let frac := Int.fract (fl ((u32 ((k : ℤ) - p.nLoad) : ℝ) / fl (4 * (p.nQuarter : ℝ))))
    let extremum := frac = 1 / 4 ∨ frac = 3 / 4
    (atCyclic || atUnloading) || (inCyclic && @decide extremum (Classical.propDecidable _))

end Verif.Fp
