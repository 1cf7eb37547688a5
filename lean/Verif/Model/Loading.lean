import Mathlib.Analysis.SpecialFunctions.Trigonometric.Basic
import Mathlib.Algebra.Order.Floor.Ring
import Mathlib.Algebra.Order.Floor.Semiring

/-!
# Load programme, time loop, boundary displacement and crystal strips

Times are real numbers; products of step counts that the code forms in `double` are exact, those it
forms in `unsigned int` are taken modulo `2 ^ 32`.
-/

namespace Verif.Load

/-- `LoadingType`. -/
inductive LoadingType | monotonic | cyclic
  deriving DecidableEq

/-- Members of `SimpleLoading` that are read from the parameter file
(`include/gCP/run_time_parameters.h:1243-1330`, `source/run_time_parameters.cc:1491-1591`).
`start` is not read: it keeps the value of the base class constructor, 0
(`source/run_time_parameters.cc:1343-1348`). -/
structure Prog where
  type : LoadingType
  start : ℝ
  maxLoad : ℝ
  minLoad : ℝ
  durMono : ℝ
  nMono : ℕ
  durLoad : ℝ
  nLoad : ℕ
  nCycles : ℕ
  period : ℝ
  nQuarter : ℕ
  skipUnloading : Bool

/-- `time_step_size_monotonic_load` (`source/run_time_parameters.cc:1506-1507`). -/
noncomputable def Prog.dtMono (p : Prog) : ℝ := p.durMono / p.nMono

/-- `time_step_size_loading_and_unloading_phase` (`source/run_time_parameters.cc:1519-1521`). -/
noncomputable def Prog.dtLoad (p : Prog) : ℝ := p.durLoad / p.nLoad

/-- `time_step_size_cyclic_phase` (`source/run_time_parameters.cc:1530`). -/
noncomputable def Prog.dtCyclic (p : Prog) : ℝ := p.period / 4 / p.nQuarter

/-- `start_of_cyclic_phase` (`source/run_time_parameters.cc:1566-1567`). -/
noncomputable def Prog.startCyclic (p : Prog) : ℝ := p.start + p.durLoad

/-- `start_of_unloading_phase` (`source/run_time_parameters.cc:1569-1570`). -/
noncomputable def Prog.startUnloading (p : Prog) : ℝ := p.startCyclic + p.nCycles * p.period

/-- `end_time` (`source/run_time_parameters.cc:1538-1552`). -/
noncomputable def Prog.endTime (p : Prog) : ℝ :=
  match p.type with
  | .monotonic => p.start + p.durMono
  | .cyclic => p.start + (if p.skipUnloading then 1 else 2) * p.durLoad + p.nCycles * p.period

/-- `get_next_time_step_size` (`source/run_time_parameters.cc:1595-1623`). -/
noncomputable def Prog.stepSize (p : Prog) (k : ℕ) : ℝ :=
  match p.type with
  | .monotonic => p.dtMono
  | .cyclic =>
    if k < p.nLoad then p.dtLoad
    else if k < p.nLoad + 4 * p.nQuarter * p.nCycles then p.dtCyclic
    else p.dtLoad

/-- Arithmetic of `unsigned int`. -/
def u32 (n : ℤ) : ℕ := (n % 2 ^ 32).toNat

/-- `skip_extrapolation` (`source/run_time_parameters.cc:1627-1671`). -/
noncomputable def Prog.skip (p : Prog) (k : ℕ) : Bool :=
  match p.type with
  | .monotonic => false
  | .cyclic =>
    let nCyc := u32 (4 * p.nQuarter * p.nCycles)
    let atCyclic := decide (k = p.nLoad)
    let atUnloading := decide (k = u32 (p.nLoad + nCyc))
    let inCyclic := decide (p.nLoad < k) && decide (k < u32 (nCyc + p.nLoad))
    let frac := Int.fract ((u32 ((k : ℤ) - p.nLoad) : ℝ) / (4 * (p.nQuarter : ℝ)))
    let extremum := frac = 1 / 4 ∨ frac = 3 / 4
    (atCyclic || atUnloading) || (inCyclic && @decide extremum (Classical.propDecidable _))

/-- `dealii::DiscreteTime`: the next time for a desired step size, moved to the end time when it
would come within `tol` (0.05 in deal.II) step sizes of it.  Not part of the repository. -/
noncomputable def nextTime (tol cur dt fin : ℝ) : ℝ :=
  if fin - tol * dt < cur + dt then fin else cur + dt

/-- Current time at the beginning of the `k`-th pass (counting from 0) of the time loop
(`applications/simple_shear.cc:863-902`). -/
noncomputable def Prog.time (p : Prog) (tol : ℝ) : ℕ → ℝ
  | 0 => p.start
  | k + 1 => nextTime tol (p.time tol k) (p.stepSize k) p.endTime

/-- The loop is entered for the `k`-th pass iff all tests `current < end` so far were true
(`applications/simple_shear.cc:863`). -/
def Prog.entered (p : Prog) (tol : ℝ) (k : ℕ) : Prop := ∀ j ≤ k, p.time tol j < p.endTime

/-! ## Boundary displacement -/

/-- Members of `DisplacementControl` (`source/boundary_conditions.cc:15-42`). -/
structure Control where
  type : LoadingType
  dim : ℕ
  nC : ℕ
  height : ℝ
  maxStrain : ℝ
  minStrain : ℝ
  component : ℕ
  period : ℝ
  startCyclic : ℝ
  startUnloading : ℝ
  charDisp : ℝ
  decohesion : Bool

/-- Constructor (`source/boundary_conditions.cc:15-42`): the loading type is always `Monotonic`. -/
noncomputable def Control.new (p : Prog) (dim nC : ℕ) (height charDisp : ℝ) (component : ℕ)
    (decohesion : Bool) : Control :=
  ⟨.monotonic, dim, nC, height, p.maxLoad, p.minLoad, component, p.period, p.startCyclic,
    p.startUnloading, charDisp, decohesion⟩

/-- `displacement_load` in `vector_value` (`source/boundary_conditions.cc:55-96`). -/
noncomputable def Control.load (c : Control) (time : ℝ) : ℝ :=
  match c.type with
  | .monotonic => time * c.height * c.maxStrain
  | .cyclic =>
    let amplitude := (c.maxStrain - c.minStrain) / 2
    let offset := (c.maxStrain + c.minStrain) / 2
    if time < c.startCyclic then time * c.height * offset
    else if time < c.startUnloading then
      amplitude * Real.sin (2 * Real.pi / c.period * (time - c.startCyclic)) + offset
    else offset * (1 - time + c.startUnloading)

/-- The components `vector_value` writes (`source/boundary_conditions.cc:98-108`). -/
def Control.writes (c : Control) : List ℕ :=
  c.component :: (if c.decohesion then (List.range' 1 (c.nC - 1)).map fun i => c.component + i * c.dim
    else [])

/-- `vector_value` (`source/boundary_conditions.cc:46-109`): the entry of the returned vector. -/
noncomputable def Control.value (c : Control) (time : ℝ) (comp : ℕ) : ℝ :=
  c.writes.foldl (fun v w => Function.update v w (c.load time / c.charDisp)) (fun _ => 0) comp

/-! ## Crystal strips -/

/-- The loop of `make_grid` over a cell with centre ordinate `y`
(`applications/simple_shear.cc:268-283`): the material id set, if any. -/
noncomputable def materialId (height : ℝ) (n : ℕ) (y : ℝ) : Option ℕ :=
  ((List.range' 1 n).find? fun (i : ℕ) =>
    @decide (|y| < (i : ℝ) * height / n) (Classical.propDecidable _)).map (· - 1)

end Verif.Load
