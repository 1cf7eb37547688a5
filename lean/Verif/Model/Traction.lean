import Verif.Model.Loading

/-!
# Traction boundary condition
-/

namespace Verif.Load

/-- Members of `LoadControl` (`include/gCP/boundary_conditions.h:71-106`). -/
structure Traction where
  type : LoadingType
  maxTraction : ℝ
  minTraction : ℝ
  component : ℕ
  period : ℝ
  startCyclic : ℝ
  startUnloading : ℝ
  charTraction : ℝ

/-- Constructor (`source/boundary_conditions.cc:110-134`): of the programme only the start time is
used, which is the initial time of the function object. -/
def Traction.new (_p : Prog) (charTraction : ℝ) : Traction :=
  ⟨.monotonic, 0, 0, 0, 0, 0, 0, charTraction⟩

/-- `traction_load` (`source/boundary_conditions.cc:145-187`). -/
noncomputable def Traction.load (c : Traction) (time : ℝ) : ℝ :=
  match c.type with
  | .monotonic => time * c.maxTraction
  | .cyclic =>
    let amplitude := (c.maxTraction - c.minTraction) / 2
    let offset := (c.maxTraction + c.minTraction) / 2
    if time < c.startCyclic then time * offset
    else if time < c.startUnloading then
      amplitude * Real.sin (2 * Real.pi / c.period * (time - c.startCyclic)) + offset
    else offset * (1 - time + c.startUnloading)

/-- `value` (`source/boundary_conditions.cc:136-192`). -/
noncomputable def Traction.value (c : Traction) (time : ℝ) (i : ℕ) : ℝ :=
  if i = c.component then c.load time / c.charTraction else 0

end Verif.Load
