import Verif.Model.Assembly
import Verif.Model.Loading

/-!
# Parameter checks and the dimensionless form

`none` is a rejected parameter file (an exception) for the parse functions and a division by zero
(an infinity or NaN in the dimensionless numbers) for `DimForm.init`.
-/

namespace Verif.Prm
open Matrix Verif.Cry Verif.Hist Verif.Micro Verif.Asm

/-! ## Solver parameters -/

/-- `dealii::Patterns::Double(lower)`: values below are rejected when the file is read. -/
noncomputable def readDouble (lower x : ℝ) : Option ℝ := if lower ≤ x then some x else none

/-- `dealii::Patterns::Double(lower, upper)`. -/
noncomputable def readBetween (lower upper x : ℝ) : Option ℝ :=
  if lower ≤ x ∧ x ≤ upper then some x else none

/-- `AssertThrow(b)`. -/
noncomputable def check (b : Prop) [Decidable b] : Option Unit := if b then some () else none

/-- Tolerances of the linear or the nonlinear solver. -/
structure Tolerances where
  relative : ℝ
  absolute : ℝ

/-- `KrylovParameters::parse_parameters` (`source/run_time_parameters.cc:801-873`). -/
noncomputable def Tolerances.krylov (rel abs : ℝ) : Option Tolerances := do
  let r ← readDouble 0 rel
  let a ← readDouble 0 abs
  check (r > 0)
  check (a > 0)
  check (r > a)
  return ⟨r, a⟩

/-- `NewtonRaphsonParameters::parse_parameters` (`source/run_time_parameters.cc:888-952`); the step
tolerance is only read. -/
noncomputable def Tolerances.newton (rel abs step : ℝ) : Option (Tolerances × ℝ) := do
  let r ← readDouble 0 rel
  let a ← readDouble 0 abs
  let s ← readDouble 0 step
  check (r > 0)
  check (a > 0)
  check (r > a)
  return (⟨r, a⟩, s)

/-- `LineSearchParameters::parse_parameters` (`source/run_time_parameters.cc:967-1014`): returns
`alpha`, `beta`. -/
noncomputable def lineSearch (alpha beta : ℝ) : Option (ℝ × ℝ) := do
  let a ← readBetween 0 1 alpha
  let b ← readBetween 0 1 beta
  check (a > 0)
  check (b > a)
  check (1 > b)
  return (a, b)

/-! ## Dimensionless form -/

/-- `CharacteristicQuantities` (`source/run_time_parameters.cc:622-638`). -/
structure CharQ where
  length : ℝ
  time : ℝ
  displacement : ℝ
  stiffness : ℝ
  slipResistance : ℝ
  strain : ℝ
  stress : ℝ
  resolvedShear : ℝ
  macroTraction : ℝ
  microTraction : ℝ
  bodyForce : ℝ
  density : ℝ

/-- `CharacteristicQuantities()` (`source/run_time_parameters.cc:622-638`). -/
def CharQ.one : CharQ := ⟨1, 1, 1, 1, 1, 1, 1, 1, 1, 1, 1, 1⟩

/-- `DimensionlessForm`. -/
structure DimForm where
  flag : Bool
  q : CharQ
  /-- `dimensionless_numbers` -/
  dn : Fin 4 → ℝ

/-- The five reference values of the parameter file. -/
structure Reference where
  length : ℝ
  time : ℝ
  displacement : ℝ
  stiffness : ℝ
  slipResistance : ℝ

/-- `DimensionlessForm()` and `parse_parameters` (`source/run_time_parameters.cc:643-720`). -/
noncomputable def DimForm.parse (flag : Bool) (r : Reference) : Option DimForm := do
  let l ← readDouble 0 r.length
  let t ← readDouble 0 r.time
  let u ← readDouble 0 r.displacement
  let c ← readDouble 0 r.stiffness
  let s ← readDouble 0 r.slipResistance
  return ⟨flag, if flag then { CharQ.one with length := l, time := t, displacement := u, stiffness := c, slipResistance := s } else .one, fun _ => 1⟩

/-- Material parameters `init` and the solver read. -/
structure Material where
  c1111 : ℝ
  c1122 : ℝ
  c1212 : ℝ
  /-- `vectorial_microstress_law_parameters` -/
  lengthScale : ℝ
  vecResistance : ℝ
  index : ℝ
  /-- `hardening_law_parameters` -/
  resistance : ℝ
  modulus : ℝ
  parameter : ℝ
  perfect : Bool
  /-- `scalar_microstress_law_parameters` -/
  f : RegFn
  k : ℝ
  rateIndependent : Bool

/-- A finite quotient. -/
noncomputable def fdiv (a b : ℝ) : Option ℝ := if b = 0 then none else some (a / b)

/-- `DimensionlessForm::init` (`source/run_time_parameters.cc:724-788`). -/
noncomputable def DimForm.init (d : DimForm) (m : Material) : Option DimForm :=
  if d.flag = false then some d
  else do
    let strain ← fdiv d.q.displacement d.q.length
    let stress := d.q.stiffness * strain
    let p1 ← fpow d.q.length (m.index - 1)
    let micro ← fdiv (m.vecResistance * m.lengthScale ^ m.index) p1
    let body ← fdiv stress d.q.length
    let density ← fdiv 1 d.q.length
    let n0 ← fdiv d.q.length d.q.displacement
    let n1 ← fdiv m.modulus d.q.slipResistance
    let g ← fdiv m.vecResistance d.q.slipResistance
    let l ← fdiv m.lengthScale d.q.length
    let n3 ← fdiv stress d.q.slipResistance
    return { d with q := { d.q with strain := strain, stress := stress, resolvedShear := stress, macroTraction := stress, microTraction := micro, bodyForce := body, density := density }, dn := ![n0, n1, g * l ^ m.index, n3] }

/-- The parameters of a cell's assembly as the solver's constructor and `init` set them
(`source/gradient_crystal_plasticity/gradient_crystal_plasticity_solver.cc:24-52`,
`setup.cc:105-110`): the vectorial microstress law is told whether the fourth dimensionless number
differs from one. -/
noncomputable def DimForm.cell {d n : ℕ} (f : DimForm) (m : Material) (sys : Fin n → System d)
    (rot : Mat d) (dt : ℝ) (macroStrain : Mat d) : CellPrm d n where
  sys := sys
  elastic := ⟨m.c1111, m.c1122, m.c1212, f.q.stiffness⟩
  rot := rot
  vec := ⟨m.lengthScale, m.vecResistance, m.index,
    @decide (f.dn 3 ≠ 1) (Classical.propDecidable _)⟩
  law := ⟨m.f, m.k, m.rateIndependent,
    ⟨m.resistance, m.modulus, m.parameter, f.q.slipResistance, m.perfect⟩⟩
  dn0 := f.dn 0
  dn2 := f.dn 2
  dn3 := f.dn 3
  dt := dt
  macroStrain := macroStrain

/-- The history a quadrature point starts with (`setup.cc:452-459`). -/
noncomputable def DimForm.history (f : DimForm) (m : Material) (n : ℕ) : Bulk n :=
  Bulk.init ⟨m.resistance, m.modulus, m.parameter, f.q.slipResistance, m.perfect⟩ n

end Verif.Prm
