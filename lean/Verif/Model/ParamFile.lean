import Verif.Model.Params

/-!
# The parameter file

`dealii::ParameterHandler`, the declarations, the constructors and the parse functions of
`source/run_time_parameters.cc`.  A file is a list of assignments of values; the conversion of text to numbers is
deal.II's and not modelled.  `Double` patterns have no upper bound unless given; NaN and infinities do not
pass deal.II's conversion.
-/

namespace Verif.Ini

/-! ## deal.II's parameter handler -/

/-- Value of an entry. -/
inductive Val where
  | num (x : ℝ)
  | int (n : ℤ)
  | bool (b : Bool)
  | str (s : String)

/-- `dealii::Patterns`: `Double(lower, upper)`, `Integer(lower)`, `Bool()`, `Selection`, and `FileName()` or
`DirectoryName()`. -/
inductive Pattern where
  | double (lower upper : Option ℝ)
  | integer (lower : ℤ)
  | bool
  | selection (l : List String)
  | text

/-- Whether the value matches; `Integer` takes values of type `int`. -/
def Pattern.accepts : Pattern → Val → Prop
  | .double lo hi, .num x => (∀ a, lo = some a → a ≤ x) ∧ ∀ b, hi = some b → x ≤ b
  | .integer lo, .int n => lo ≤ n ∧ n ≤ 2147483647
  | .bool, .bool _ => True
  | .selection l, .str s => s ∈ l
  | .text, .str _ => True
  | _, _ => False

/-- A declared entry: subsections, name, default value, pattern. -/
structure Entry where
  path : List String
  name : String
  dflt : Val
  pattern : Pattern

/-- The values of the entries. -/
abbrev Store := List String → String → Option Val

/-- After the declarations every entry has its default value. -/
def initial : List Entry → Store
  | [] => fun _ _ => none
  | e :: l => fun p n => if p = e.path ∧ n = e.name then some e.dflt else initial l p n

/-- A line of the file: subsections, name, value. -/
structure Line where
  path : List String
  name : String
  value : Val

open Classical in
/-- `ParameterHandler::parse_input`: undeclared entries and values not matching the pattern are errors (`none`);
of two lines for an entry the later one counts. -/
noncomputable def load (d : List Entry) : List Line → Store → Option Store
  | [], s => some s
  | l :: f, s =>
    match d.find? fun e => e.path = l.path ∧ e.name = l.name with
    | none => none
    | some e =>
      if e.pattern.accepts l.value then
        load d f fun p n => if p = l.path ∧ n = l.name then some l.value else s p n
      else none

/-- How reading the parameters ends if not normally. -/
inductive Err where
  /-- an entry that was not declared -/
  | undeclared
  /-- a conversion that fails -/
  | conversion
  /-- an unexpected identifier -/
  | unexpected
  /-- an exception of a range check (`AssertThrow`) -/
  | range
  /-- a failed `Assert`, in debug builds only -/
  | assertion
  /-- `std::abort()` -/
  | abort

/-- Reading. -/
abbrev Rd (α : Type) := Except Err α

/-- `get_double`, which also converts whole numbers. -/
noncomputable def getDouble (s : Store) (p : List String) (n : String) : Rd ℝ :=
  match s p n with
  | none => .error .undeclared
  | some (.num x) => .ok x
  | some (.int k) => .ok k
  | some _ => .error .conversion

/-- `get_integer`, assigned to an `unsigned int` (all patterns are nonnegative). -/
def getNat (s : Store) (p : List String) (n : String) : Rd ℕ :=
  match s p n with
  | none => .error .undeclared
  | some (.int k) => .ok k.toNat
  | some _ => .error .conversion

/-- `get_bool`. -/
def getBool (s : Store) (p : List String) (n : String) : Rd Bool :=
  match s p n with
  | none => .error .undeclared
  | some (.bool b) => .ok b
  | some _ => .error .conversion

/-- `get`. -/
def getStr (s : Store) (p : List String) (n : String) : Rd String :=
  match s p n with
  | none => .error .undeclared
  | some (.str t) => .ok t
  | some _ => .error .conversion

open Classical in
/-- `AssertThrow(c, …)`. -/
noncomputable def assertThrow (c : Prop) : Rd Unit := if c then .ok () else .error .range

open Classical in
/-- `Assert(c, …)`: without effect in release builds. -/
noncomputable def assertDebug (debug : Bool) (c : Prop) : Rd Unit :=
  if debug = true → c then .ok () else .error .assertion

/-- The `if … else if … else AssertThrow(false, …)` chains for identifiers. -/
def select {α : Type} (t : String) : List (String × α) → Rd α
  | [] => .error .unexpected
  | q :: l => if t = q.1 then .ok q.2 else select t l

/-! ## Constitutive laws -/

/-- `HookeLawParameters`. -/
structure Hooke where
  c1111 : ℝ
  c1122 : ℝ
  c1212 : ℝ

/-- Constructor (`source/run_time_parameters.cc:35-40`). -/
noncomputable def Hooke.new : Hooke := ⟨134615, 57692.3, 38461.5⟩

/-- `declare_parameters` (`source/run_time_parameters.cc:44-61`). -/
noncomputable def Hooke.declare (p : List String) : List Entry :=
  let q := p ++ ["Hooke-Law's parameters"]
  [⟨q, "C1111", .num 134615, .double (some 0) none⟩,
   ⟨q, "C1122", .num 57692.3, .double (some 0) none⟩,
   ⟨q, "C1212", .num 38461.5, .double (some 0) none⟩]

/-- `parse_parameters` (`source/run_time_parameters.cc:65-85`). -/
noncomputable def Hooke.parse (s : Store) (p : List String) : Rd Hooke := do
  let q := p ++ ["Hooke-Law's parameters"]
  let a ← getDouble s q "C1111"
  let b ← getDouble s q "C1122"
  let c ← getDouble s q "C1212"
  assertThrow (a > 0)
  assertThrow (b > 0)
  assertThrow (c > 0)
  return ⟨a, b, c⟩

/-- `RegularizationFunction` (`include/gCP/run_time_parameters.h`). -/
inductive RegKind where
  | atan | sqrt | gd | tanh | erf
  deriving DecidableEq

/-- `ScalarMicrostressLawParameters`. -/
structure Scalar where
  function : RegKind
  parameter : ℝ
  rateIndependent : Bool

/-- Constructor (`source/run_time_parameters.cc:89-94`). -/
noncomputable def Scalar.new : Scalar := ⟨.tanh, 3e-4, false⟩

/-- `declare_parameters` (`source/run_time_parameters.cc:98-115`). -/
noncomputable def Scalar.declare (p : List String) : List Entry :=
  let q := p ++ ["Scalar microstress law's parameters"]
  [⟨q, "Regularization function", .str "tanh", .selection ["atan", "sqrt", "gd", "tanh", "erf"]⟩,
   ⟨q, "Regularization parameter", .num 3e-4, .double (some 0) none⟩,
   ⟨q, "Rate-independent behavior", .bool false, .bool⟩]

/-- The identifiers of `parse_parameters` (`source/run_time_parameters.cc:124-151`). -/
def Scalar.names : List (String × RegKind) :=
  [("atan", .atan), ("sqrt", .sqrt), ("gd", .gd), ("tanh", .tanh), ("erf", .erf)]

/-- `parse_parameters` (`source/run_time_parameters.cc:119-163`). -/
noncomputable def Scalar.parse (s : Store) (p : List String) : Rd Scalar := do
  let q := p ++ ["Scalar microstress law's parameters"]
  let t ← getStr s q "Regularization function"
  let f ← select t Scalar.names
  let k ← getDouble s q "Regularization parameter"
  let r ← getBool s q "Rate-independent behavior"
  assertThrow (k > 0)
  return ⟨f, k, r⟩

/-- `VectorialMicrostressLawParameters`. -/
structure Vectorial where
  lengthScale : ℝ
  resistance : ℝ
  index : ℝ
  parameter : ℝ

/-- Constructor (`source/run_time_parameters.cc:167-173`). -/
noncomputable def Vectorial.new : Vectorial := ⟨0, 0, 2, 1e-6⟩

/-- `declare_parameters` (`source/run_time_parameters.cc:177-198`). -/
noncomputable def Vectorial.declare (p : List String) : List Entry :=
  let q := p ++ ["Vectorial microstress law's parameters"]
  [⟨q, "Energetic length scale", .num 0, .double (some 0) none⟩,
   ⟨q, "Initial slip resistance", .num 0, .double (some 0) none⟩,
   ⟨q, "Defect energy index", .num 2, .double (some 1) none⟩,
   ⟨q, "Regularization parameter", .num 1e-6, .double (some 0) none⟩]

/-- `parse_parameters` (`source/run_time_parameters.cc:202-224`). -/
noncomputable def Vectorial.parse (s : Store) (p : List String) : Rd Vectorial := do
  let q := p ++ ["Vectorial microstress law's parameters"]
  let l ← getDouble s q "Energetic length scale"
  let r ← getDouble s q "Initial slip resistance"
  let i ← getDouble s q "Defect energy index"
  let k ← getDouble s q "Regularization parameter"
  assertThrow (k > 0)
  return ⟨l, r, i, k⟩

/-- `CohesiveLawParameters`; the only model is the one of Ortiz et al. -/
structure Cohesive where
  traction : ℝ
  opening : ℝ
  ratio : ℝ

/-- Constructor (`source/run_time_parameters.cc:261-267`). -/
noncomputable def Cohesive.new : Cohesive := ⟨700, 2.5e-2, 1⟩

/-- `declare_parameters` (`source/run_time_parameters.cc:271-293`). -/
noncomputable def Cohesive.declare (p : List String) : List Entry :=
  let q := p ++ ["Cohesive law's parameters"]
  [⟨q, "Cohesive law model", .str "OrtizEtAl", .selection ["OrtizEtAl"]⟩,
   ⟨q, "Critical cohesive traction", .num 700, .double (some 0) none⟩,
   ⟨q, "Critical opening displacement", .num 2.5e-2, .double (some 0) none⟩,
   ⟨q, "Tangential to normal stiffness ratio", .num 1, .double (some 0) none⟩]

/-- `parse_parameters` (`source/run_time_parameters.cc:297-327`). -/
noncomputable def Cohesive.parse (s : Store) (p : List String) : Rd Cohesive := do
  let q := p ++ ["Cohesive law's parameters"]
  let t ← getStr s q "Cohesive law model"
  let _ ← select t [("OrtizEtAl", ())]
  let a ← getDouble s q "Critical cohesive traction"
  let b ← getDouble s q "Critical opening displacement"
  let c ← getDouble s q "Tangential to normal stiffness ratio"
  return ⟨a, b, c⟩

/-- `HardeningLaw`. -/
structure Hardening where
  resistance : ℝ
  modulus : ℝ
  parameter : ℝ
  perfect : Bool

/-- Constructor (`source/run_time_parameters.cc:364-370`). -/
noncomputable def Hardening.new : Hardening := ⟨0, 500, 1.4, false⟩

/-- `declare_parameters` (`source/run_time_parameters.cc:374-395`). -/
noncomputable def Hardening.declare (p : List String) : List Entry :=
  let q := p ++ ["Hardening law's parameters"]
  [⟨q, "Initial slip resistance", .num 0, .double (some 0) none⟩,
   ⟨q, "Linear hardening modulus", .num 500, .double (some 0) none⟩,
   ⟨q, "Hardening parameter", .num 1.4, .double (some 0) none⟩,
   ⟨q, "Perfect plasticity", .bool false, .bool⟩]

/-- `parse_parameters` (`source/run_time_parameters.cc:399-426`).  The subsection of the vectorial law exists in
every handler of the program; its slip resistance is compared in debug builds only. -/
noncomputable def Hardening.parse (debug : Bool) (s : Store) (p : List String) : Rd Hardening := do
  let q := p ++ ["Hardening law's parameters"]
  let r ← getDouble s q "Initial slip resistance"
  let h ← getDouble s q "Linear hardening modulus"
  let k ← getDouble s q "Hardening parameter"
  let b ← getBool s q "Perfect plasticity"
  if debug then
    let r' ← getDouble s (p ++ ["Vectorial microstress law's parameters"]) "Initial slip resistance"
    assertDebug debug (r = r')
  return ⟨r, h, k, b⟩

/-- `DamageEvolutionModel`. -/
inductive DamageModel where
  | ortiz | m1
  deriving DecidableEq

/-- `DamageEvolution`.  The member `degradation_exponent` (`include/gCP/run_time_parameters.h:570`) is given a
value neither by the constructor nor by `parse_parameters`: `none` stands for an indeterminate value. -/
structure Damage where
  model : DamageModel
  accumulation : ℝ
  decay : ℝ
  decayExponent : ℝ
  endurance : ℝ
  degradationExponent : Option ℝ
  coupleMicro : Bool
  coupleMacro : Bool
  zero : Bool

/-- Constructor (`source/run_time_parameters.cc:430-440`). -/
noncomputable def Damage.new : Damage := ⟨.m1, 1, 0, 1, 0, none, true, true, false⟩

/-- `declare_parameters` (`source/run_time_parameters.cc:444-482`). -/
noncomputable def Damage.declare (p : List String) : List Entry :=
  let q := p ++ ["Damage evolution parameters"]
  [⟨q, "Damage evolution model", .str "M1", .selection ["OrtizEtAl", "M1"]⟩,
   ⟨q, "Damage accumulation constant", .num 1, .double (some 0) none⟩,
   ⟨q, "Damage decay constant", .num 0, .double (some 0) none⟩,
   ⟨q, "Damage decay exponent", .num 1, .double (some 0) none⟩,
   ⟨q, "Endurance limit", .num 0, .double (some 0) none⟩,
   ⟨q, "Set damage to zero", .bool false, .bool⟩,
   ⟨q, "Couple microtraction to damage", .bool true, .bool⟩,
   ⟨q, "Couple macrotraction to damage", .bool false, .bool⟩]

/-- `parse_parameters` (`source/run_time_parameters.cc:486-528`). -/
noncomputable def Damage.parse (s : Store) (p : List String) : Rd Damage := do
  let q := p ++ ["Damage evolution parameters"]
  let t ← getStr s q "Damage evolution model"
  let m ← select t [("OrtizEtAl", DamageModel.ortiz), ("M1", .m1)]
  let a ← getDouble s q "Damage accumulation constant"
  let b ← getDouble s q "Damage decay constant"
  let c ← getDouble s q "Damage decay exponent"
  let e ← getDouble s q "Endurance limit"
  let z ← getBool s q "Set damage to zero"
  let x ← getBool s q "Couple microtraction to damage"
  let y ← getBool s q "Couple macrotraction to damage"
  return { Damage.new with
    model := m, accumulation := a, decay := b, decayExponent := c, endurance := e, zero := z, coupleMicro := x,
    coupleMacro := y }

/-- `ConstitutiveLawsParameters`. -/
structure Laws where
  hooke : Hooke
  scalar : Scalar
  vectorial : Vectorial
  /-- `grain_boundary_modulus` -/
  microtraction : ℝ
  cohesive : Cohesive
  /-- `penalty_coefficient` -/
  contact : ℝ
  hardening : Hardening
  /-- `degradation_exponent` of `DegradationFunction` -/
  degradation : ℝ
  damage : Damage

/-- Constructors of the members (`source/run_time_parameters.cc:228-231`, `331-334`, `532-535`). -/
noncomputable def Laws.new : Laws :=
  ⟨.new, .new, .new, 0, .new, 100, .new, 1, .new⟩

/-- `declare_parameters` (`source/run_time_parameters.cc:570-594`; microtraction, contact and degradation:
`235-245`, `338-348`, `539-549`). -/
noncomputable def Laws.declare (p : List String) : List Entry :=
  let q := p ++ ["Constitutive laws' parameters"]
  Hooke.declare q ++ Scalar.declare q ++ Vectorial.declare q ++
    [⟨q ++ ["Microtraction law's parameters"], "Grain boundary modulus", .num 0, .double (some 0) none⟩] ++
    Cohesive.declare q ++
    [⟨q ++ ["Contact law's parameters"], "Penalty coefficient", .num 100, .double (some 0) none⟩,
     ⟨q ++ ["Degradation function parameters"], "Degradation exponent", .num 1, .double (some 0) none⟩] ++
    Hardening.declare q ++ Damage.declare q

/-- `parse_parameters` (`source/run_time_parameters.cc:598-621`; microtraction, contact and degradation:
`249-257`, `352-360`, `553-561`). -/
noncomputable def Laws.parse (debug : Bool) (s : Store) (p : List String) : Rd Laws := do
  let q := p ++ ["Constitutive laws' parameters"]
  let h ← Hooke.parse s q
  let f ← Scalar.parse s q
  let v ← Vectorial.parse s q
  let g ← getDouble s (q ++ ["Microtraction law's parameters"]) "Grain boundary modulus"
  let c ← Cohesive.parse s q
  let t ← getDouble s (q ++ ["Contact law's parameters"]) "Penalty coefficient"
  let k ← Hardening.parse debug s q
  let e ← getDouble s (q ++ ["Degradation function parameters"]) "Degradation exponent"
  let d ← Damage.parse s q
  return ⟨h, f, v, g, c, t, k, e, d⟩

/-! ## Dimensionless form -/

/-- `DimensionlessForm::declare_parameters` (`source/run_time_parameters.cc:651-685`). -/
noncomputable def Form.declare (p : List String) : List Entry :=
  let q := p ++ ["Dimensionless formulation parameters"]
  let r := q ++ ["Reference parameters"]
  [⟨q, "Solve the dimensionless problem", .bool false, .bool⟩,
   ⟨r, "Reference length value", .num 1, .double (some 0) none⟩,
   ⟨r, "Reference time value", .num 1, .double (some 0) none⟩,
   ⟨r, "Reference displacement value", .num 1, .double (some 0) none⟩,
   ⟨r, "Reference stiffness value", .num 1, .double (some 0) none⟩,
   ⟨r, "Reference slip resistance value", .num 1, .double (some 0) none⟩]

/-- `DimensionlessForm()` (`source/run_time_parameters.cc:643-647`). -/
noncomputable def Form.new : Prm.DimForm := ⟨false, .one, fun _ => 1⟩

/-- `DimensionlessForm::parse_parameters` (`source/run_time_parameters.cc:689-720`). -/
noncomputable def Form.parse (s : Store) (p : List String) : Rd Prm.DimForm := do
  let q := p ++ ["Dimensionless formulation parameters"]
  let b ← getBool s q "Solve the dimensionless problem"
  if b then
    let r := q ++ ["Reference parameters"]
    let l ← getDouble s r "Reference length value"
    let t ← getDouble s r "Reference time value"
    let u ← getDouble s r "Reference displacement value"
    let c ← getDouble s r "Reference stiffness value"
    let g ← getDouble s r "Reference slip resistance value"
    let one := Prm.CharQ.one
    return ⟨true, { one with length := l, time := t, displacement := u, stiffness := c, slipResistance := g }, fun _ => 1⟩
  else return ⟨false, .one, fun _ => 1⟩

/-! ## Solvers -/

/-- `SolverType`. -/
inductive SolverKind where
  | direct | cg | gmres
  deriving DecidableEq

/-- `KrylovParameters`. -/
structure Krylov where
  solver : SolverKind
  relative : ℝ
  absolute : ℝ
  iterations : ℕ

/-- Constructor (`source/run_time_parameters.cc:792-798`). -/
noncomputable def Krylov.new : Krylov := ⟨.cg, 1e-6, 1e-8, 1000⟩

/-- `declare_parameters` (`source/run_time_parameters.cc:802-824`). -/
noncomputable def Krylov.declare (p : List String) : List Entry :=
  let q := p ++ ["Krylov parameters"]
  [⟨q, "Solver type", .str "cg", .selection ["directsolver", "cg", "gmres"]⟩,
   ⟨q, "Relative tolerance", .num 1e-6, .double (some 0) none⟩,
   ⟨q, "Absolute tolerance", .num 1e-8, .double (some 0) none⟩,
   ⟨q, "Maximum number of iterations", .int 1000, .integer 1⟩]

/-- `parse_parameters` (`source/run_time_parameters.cc:828-873`). -/
noncomputable def Krylov.parse (s : Store) (p : List String) : Rd Krylov := do
  let q := p ++ ["Krylov parameters"]
  let t ← getStr s q "Solver type"
  let k ← select t [("directsolver", SolverKind.direct), ("cg", .cg), ("gmres", .gmres)]
  let r ← getDouble s q "Relative tolerance"
  let a ← getDouble s q "Absolute tolerance"
  let n ← getNat s q "Maximum number of iterations"
  assertThrow (r > 0)
  assertThrow (a > 0)
  assertThrow (r > a)
  return ⟨k, r, a, n⟩

/-- `NewtonRaphsonParameters`. -/
structure Newton where
  relative : ℝ
  absolute : ℝ
  step : ℝ
  iterations : ℕ
  lineSearch : Bool

/-- Constructor (`source/run_time_parameters.cc:877-884`). -/
noncomputable def Newton.new : Newton := ⟨1e-6, 1e-8, 1e-8, 15, true⟩

/-- `declare_parameters` (`source/run_time_parameters.cc:888-914`). -/
noncomputable def Newton.declare (p : List String) : List Entry :=
  let q := p ++ ["Newton-Raphson parameters"]
  [⟨q, "Relative tolerance of the residual", .num 1e-6, .double (some 0) none⟩,
   ⟨q, "Absolute tolerance of the residual", .num 1e-8, .double (some 0) none⟩,
   ⟨q, "Absolute tolerance of the step", .num 1e-8, .double (some 0) none⟩,
   ⟨q, "Maximum number of iterations", .int 15, .integer 1⟩,
   ⟨q, "Line search algorithm", .bool true, .bool⟩]

/-- `parse_parameters` (`source/run_time_parameters.cc:918-952`). -/
noncomputable def Newton.parse (s : Store) (p : List String) : Rd Newton := do
  let q := p ++ ["Newton-Raphson parameters"]
  let r ← getDouble s q "Relative tolerance of the residual"
  let a ← getDouble s q "Absolute tolerance of the residual"
  let t ← getDouble s q "Absolute tolerance of the step"
  let n ← getNat s q "Maximum number of iterations"
  let b ← getBool s q "Line search algorithm"
  assertThrow (r > 0)
  assertThrow (a > 0)
  assertThrow (r > a)
  return ⟨r, a, t, n, b⟩

/-- `LineSearchParameters`. -/
structure LineSearch where
  alpha : ℝ
  beta : ℝ
  iterations : ℕ

/-- Constructor (`source/run_time_parameters.cc:956-961`). -/
noncomputable def LineSearch.new : LineSearch := ⟨1e-4, 0.9, 15⟩

/-- `declare_parameters` (`source/run_time_parameters.cc:965-983`). -/
noncomputable def LineSearch.declare (p : List String) : List Entry :=
  let q := p ++ ["Line search parameters"]
  [⟨q, "Alpha condition constant", .num 1e-4, .double (some 0) (some 1)⟩,
   ⟨q, "Beta condition constant", .num 0.9, .double (some 0) (some 1)⟩,
   ⟨q, "Maximum number of iterations", .int 15, .integer 0⟩]

/-- `parse_parameters` (`source/run_time_parameters.cc:987-1014`). -/
noncomputable def LineSearch.parse (s : Store) (p : List String) : Rd LineSearch := do
  let q := p ++ ["Line search parameters"]
  let a ← getDouble s q "Alpha condition constant"
  let b ← getDouble s q "Beta condition constant"
  let n ← getNat s q "Maximum number of iterations"
  assertThrow (a > 0)
  assertThrow (b > a)
  assertThrow (1 > b)
  return ⟨a, b, n⟩

/-- `NonlinearSystemSolverParameters`. -/
structure Nonlinear where
  krylov : Krylov
  newton : Newton
  line : LineSearch

/-- Constructor (`source/run_time_parameters.cc:1018`). -/
noncomputable def Nonlinear.new : Nonlinear := ⟨.new, .new, .new⟩

/-- `declare_parameters` (`source/run_time_parameters.cc:1022-1030`). -/
noncomputable def Nonlinear.declare (p : List String) : List Entry :=
  Newton.declare p ++ LineSearch.declare p ++ Krylov.declare p

/-- `parse_parameters` (`source/run_time_parameters.cc:1034-1042`). -/
noncomputable def Nonlinear.parse (s : Store) (p : List String) : Rd Nonlinear := do
  let k ← Krylov.parse s p
  let n ← Newton.parse s p
  let l ← LineSearch.parse s p
  return ⟨k, n, l⟩

/-- `MonolithicAlgorithmParameters`; `block` is `MonolithicPreconditioner::Block`. -/
structure Mono where
  solver : Nonlinear
  block : Bool

/-- Constructor (`source/run_time_parameters.cc:1046-1049`). -/
noncomputable def Mono.new : Mono := ⟨.new, false⟩

/-- `declare_parameters` (`source/run_time_parameters.cc:1053-1066`). -/
noncomputable def Mono.declare (p : List String) : List Entry :=
  let q := p ++ ["Monolithic algorithm"]
  Nonlinear.declare q ++
    [⟨q, "Monolithic preconditioner", .str "built-in", .selection ["built-in", "block"]⟩]

/-- `parse_parameters` (`source/run_time_parameters.cc:1070-1099`). -/
noncomputable def Mono.parse (debug : Bool) (s : Store) (p : List String) : Rd Mono := do
  let q := p ++ ["Monolithic algorithm"]
  let n ← Nonlinear.parse s q
  let t ← getStr s q "Monolithic preconditioner"
  let b ← select t [("built-in", false), ("block", true)]
  assertDebug debug (b = false)
  return ⟨n, b⟩

/-- `StaggeredAlgorithmParameters`. -/
structure Stag where
  momentum : Nonlinear
  pseudo : Nonlinear
  loops : ℕ
  reset : Bool

/-- Constructor (`source/run_time_parameters.cc:1103-1107`). -/
noncomputable def Stag.new : Stag := ⟨.new, .new, 15, true⟩

/-- `declare_parameters` (`source/run_time_parameters.cc:1111-1137`). -/
noncomputable def Stag.declare (p : List String) : List Entry :=
  let q := p ++ ["Staggered algorithm"]
  Nonlinear.declare (q ++ ["Linear momentum balance"]) ++ Nonlinear.declare (q ++ ["Pseudo-balance"]) ++
    [⟨q, "Maximum number of solution loops", .int 15, .integer 2⟩,
     ⟨q, "Reset trial solution at each micro loop", .bool true, .bool⟩]

/-- `parse_parameters` (`source/run_time_parameters.cc:1141-1165`). -/
noncomputable def Stag.parse (s : Store) (p : List String) : Rd Stag := do
  let q := p ++ ["Staggered algorithm"]
  let m ← Nonlinear.parse s (q ++ ["Linear momentum balance"])
  let g ← Nonlinear.parse s (q ++ ["Pseudo-balance"])
  let n ← getNat s q "Maximum number of solution loops"
  let b ← getBool s q "Reset trial solution at each micro loop"
  return ⟨m, g, n, b⟩

/-- `SolutionAlgorithm`. -/
inductive Algorithm where
  | monolithic | bouncing | embracing
  deriving DecidableEq

/-- `BoundaryConditionsAtGrainBoundaries`. -/
inductive GrainBC where
  | microhard | microfree | microtraction
  deriving DecidableEq

/-- `SolverParameters`. -/
structure Solver where
  algorithm : Algorithm
  mono : Mono
  stag : Stag
  laws : Laws
  form : Prm.DimForm
  decohesion : Bool
  grainBC : GrainBC
  loggerDirectory : String
  skipExtrapolation : Bool
  skipAtExtrema : Bool
  extrapolationFactor : ℝ
  zeroDamage : Bool
  debugFields : Bool
  printSparsity : Bool
  verbose : Bool

/-- Constructor (`source/run_time_parameters.cc:1169-1183`). -/
noncomputable def Solver.new : Solver :=
  ⟨.monolithic, .new, .new, .new, Form.new, false, .microfree, "results/default/", false, false, 1, false, false,
    false, false⟩

/-- `declare_parameters` (`source/run_time_parameters.cc:1187-1242`). -/
noncomputable def Solver.declare : List Entry :=
  let q := ["6. Solver parameters"]
  Laws.declare q ++ Mono.declare q ++ Stag.declare q ++ Form.declare q ++
    [⟨q, "Solution algorithm", .str "monolithic", .selection ["monolithic", "bouncing", "embracing"]⟩,
     ⟨q, "Allow decohesion at grain boundaries", .bool false, .bool⟩,
     ⟨q, "Boundary conditions at grain boundaries", .str "microfree",
       .selection ["microhard", "microfree", "microtraction"]⟩,
     ⟨q, "Skip extrapolation of start value", .bool false, .bool⟩,
     ⟨q, "Skip extrapolation of start value at extrema", .bool false, .bool⟩,
     ⟨q, "Extrapolation factor", .num 1, .double (some 0) none⟩,
     ⟨q, "Zero damage evolution during un- and loading", .bool false, .bool⟩,
     ⟨q, "Print sparsity pattern", .bool false, .bool⟩,
     ⟨q, "Output debug fields", .bool false, .bool⟩,
     ⟨q, "Verbose", .bool false, .bool⟩]

/-- The parameters of the algorithm chosen; those of the other one keep the values of the constructor
(`source/run_time_parameters.cc:1252-1276`). -/
noncomputable def Solver.algorithms (debug : Bool) (s : Store) (q : List String) (a : Algorithm) :
    Rd (Mono × Stag) :=
  match a with
  | .monolithic => do
    let m ← Mono.parse debug s q
    return (m, .new)
  | _ => do
    let g ← Stag.parse s q
    return (.new, g)

/-- The material parameters handed to `DimensionlessForm::init`.  Of the regularisation only the four functions
of the model of the law matter there; they are not read by `init`. -/
noncomputable def Laws.material (l : Laws) (f : Micro.RegFn) : Prm.Material :=
  ⟨l.hooke.c1111, l.hooke.c1122, l.hooke.c1212, l.vectorial.lengthScale, l.vectorial.resistance,
    l.vectorial.index, l.hardening.resistance, l.hardening.modulus, l.hardening.parameter, l.hardening.perfect,
    f, l.scalar.parameter, l.scalar.rateIndependent⟩

/-- `parse_parameters` (`source/run_time_parameters.cc:1246-1339`).  The final `DimensionlessForm::init` is
`Prm.DimForm.init` (C61) and not repeated here. -/
noncomputable def Solver.parse (debug : Bool) (s : Store) : Rd Solver := do
  let q := ["6. Solver parameters"]
  let l ← Laws.parse debug s q
  let t ← getStr s q "Solution algorithm"
  let a ← select t [("monolithic", Algorithm.monolithic), ("bouncing", .bouncing), ("embracing", .embracing)]
  let g ← Solver.algorithms debug s q a
  let f ← Form.parse s q
  let d ← getBool s q "Allow decohesion at grain boundaries"
  let u ← getStr s q "Boundary conditions at grain boundaries"
  let b ← select u [("microhard", GrainBC.microhard), ("microfree", .microfree), ("microtraction", .microtraction)]
  let e ← getBool s q "Skip extrapolation of start value"
  let x ← getBool s q "Skip extrapolation of start value at extrema"
  let k ← getDouble s q "Extrapolation factor"
  let z ← getBool s q "Zero damage evolution during un- and loading"
  let p ← getBool s q "Print sparsity pattern"
  let o ← getBool s q "Output debug fields"
  let v ← getBool s q "Verbose"
  let dir ← getStr s ["4. Output parameters"] "Graphical output directory"
  return ⟨a, g.1, g.2, l, f, d, b, dir, e, x, k, z, o, p, v⟩

/-! ## Discretisation, input and output -/

/-- `TemporalDiscretizationParameters`. -/
structure Temporal where
  start : ℝ
  fin : ℝ
  step : ℝ

/-- Constructor (`source/run_time_parameters.cc:1343-1348`). -/
noncomputable def Temporal.new : Temporal := ⟨0, 1, 0.25⟩

/-- `declare_parameters` (`source/run_time_parameters.cc:1352-1370`). -/
noncomputable def Temporal.declare : List Entry :=
  let q := ["2. Temporal discretization parameters"]
  [⟨q, "Start time", .num 0, .double (some 0) none⟩,
   ⟨q, "End time", .num 1, .double (some 0) none⟩,
   ⟨q, "Time step size", .num 1e-1, .double (some 0) none⟩]

/-- `parse_parameters` (`source/run_time_parameters.cc:1374-1399`). -/
noncomputable def Temporal.parse (debug : Bool) (s : Store) : Rd Temporal := do
  let q := ["2. Temporal discretization parameters"]
  let a ← getDouble s q "Start time"
  let b ← getDouble s q "End time"
  let h ← getDouble s q "Time step size"
  assertDebug debug (a ≥ 0)
  assertDebug debug (b > a)
  assertDebug debug (h > 0)
  assertDebug debug (b ≥ a + h)
  return ⟨a, b, h⟩

/-- `SimpleLoading`, derived from `TemporalDiscretizationParameters`; the two members the constructor does not
initialise are `Option`s. -/
structure Loading where
  base : Temporal
  type : Load.LoadingType
  maxLoad : ℝ
  minLoad : ℝ
  durMono : ℝ
  nMono : ℕ
  dtMono : ℝ
  durLoad : ℝ
  nLoad : ℕ
  dtLoad : ℝ
  nCycles : ℕ
  period : ℝ
  nQuarter : ℕ
  dtCyclic : ℝ
  skipUnloading : Bool
  startCyclic : Option ℝ
  startUnloading : Option ℝ

/-- Constructor (`source/run_time_parameters.cc:1404-1420`). -/
noncomputable def Loading.new : Loading :=
  ⟨.new, .monotonic, 0.02, 0, 1, 20, 5e-2, 1, 20, 5e-2, 1, 1, 5, 5e-2, true, none, none⟩

/-- `declare_parameters` (`source/run_time_parameters.cc:1424-1487`). -/
noncomputable def Loading.declare : List Entry :=
  let q := ["2. Temporal discretization parameters", "Simple loading"]
  let m := q ++ ["Monotonic load parameters"]
  let c := q ++ ["Cyclic load parameters"]
  [⟨q, "Loading type", .str "monotonic", .selection ["monotonic", "cyclic"]⟩,
   ⟨q, "Maximum load", .num 1, .double (some 0) none⟩,
   ⟨q, "Minimum load", .num 0, .double (some 0) none⟩,
   ⟨m, "Duration of monotonic load", .num 1, .double (some 0) none⟩,
   ⟨m, "Number of steps during monotonic load", .int 20, .integer 1⟩,
   ⟨c, "Duration of un- and loading phase", .num 1, .double (some 0) none⟩,
   ⟨c, "Number of steps during un- and loading phase", .int 20, .integer 1⟩,
   ⟨c, "Period", .num 1, .double (some 0) none⟩,
   ⟨c, "Number of steps during a quarter cycle", .int 5, .integer 1⟩,
   ⟨c, "Number of cycles", .int 1, .integer 0⟩,
   ⟨c, "Skip unloading phase", .bool true, .bool⟩]

/-- `parse_parameters` (`source/run_time_parameters.cc:1491-1591`).  `start_time` is the member of this object;
it is not read from the file here. -/
noncomputable def Loading.parse (debug : Bool) (s : Store) : Rd Loading := do
  let q := ["2. Temporal discretization parameters", "Simple loading"]
  let m := q ++ ["Monotonic load parameters"]
  let c := q ++ ["Cyclic load parameters"]
  let dm ← getDouble s m "Duration of monotonic load"
  let nm ← getNat s m "Number of steps during monotonic load"
  let dl ← getDouble s c "Duration of un- and loading phase"
  let nl ← getNat s c "Number of steps during un- and loading phase"
  let nc ← getNat s c "Number of cycles"
  let per ← getDouble s c "Period"
  let nq ← getNat s c "Number of steps during a quarter cycle"
  let sk ← getBool s c "Skip unloading phase"
  let t ← getStr s q "Loading type"
  let ty ← select t [("monotonic", Load.LoadingType.monotonic), ("cyclic", .cyclic)]
  let start := Temporal.new.start
  let fin := match ty with
    | .monotonic => start + dm
    | .cyclic => start + (if sk then 1 else 2) * dl + nc * per
  let hi ← getDouble s q "Maximum load"
  let lo ← getDouble s q "Minimum load"
  assertDebug debug (dm > 0)
  assertDebug debug (per > 0)
  assertDebug debug (hi > lo)
  return ⟨{ Temporal.new with fin := fin }, ty, hi, lo, dm, nm, dm / nm, dl, nl, dl / nl, nc, per, nq, per / 4 / nq,
    sk, some (start + dl), some (start + dl + nc * per)⟩

/-- `SpatialDiscretizationBase`. -/
structure Spatial where
  dim : ℕ
  degreeU : ℕ
  degreeSlips : ℕ
  refinements : ℕ
  mappingDegree : ℕ
  mappingInterior : Bool

/-- Constructor (`source/run_time_parameters.cc:1675-1683`). -/
def Spatial.new : Spatial := ⟨2, 2, 1, 0, 1, false⟩

/-- `declare_parameters` (`source/run_time_parameters.cc:1687-1717`). -/
noncomputable def Spatial.declare : List Entry :=
  let q := ["1. Spatial discretization parameters"]
  [⟨q, "Spatial dimension", .int 2, .integer 2⟩,
   ⟨q, "Mapping - Polynomial degree", .int 1, .integer 1⟩,
   ⟨q, "Mapping - Apply to interior cells", .bool false, .bool⟩,
   ⟨q, "Number of global refinements", .int 0, .integer 0⟩,
   ⟨q, "FE's polynomial degree - Displacements", .int 2, .integer 1⟩,
   ⟨q, "FE's polynomial degree - Slips", .int 1, .integer 1⟩]

/-- `parse_parameters` (`source/run_time_parameters.cc:1721-1747`). -/
noncomputable def Spatial.parse (s : Store) : Rd Spatial := do
  let q := ["1. Spatial discretization parameters"]
  let d ← getNat s q "Spatial dimension"
  let u ← getNat s q "FE's polynomial degree - Displacements"
  let g ← getNat s q "FE's polynomial degree - Slips"
  let r ← getNat s q "Number of global refinements"
  let m ← getNat s q "Mapping - Polynomial degree"
  let b ← getBool s q "Mapping - Apply to interior cells"
  assertThrow (d = 2 ∨ d = 3)
  return ⟨d, u, g, r, m, b⟩

/-- `Input`. -/
structure Input where
  normals : String
  directions : String
  angles : String

/-- Constructor (`source/run_time_parameters.cc:1751-1758`). -/
def Input.new : Input :=
  ⟨"input/crystal_structure/symmetric_double_slip_system/slip_normals",
   "input/crystal_structure/symmetric_double_slip_system/slip_directions",
   "input/crystal_orientation/euler_angles_0_30"⟩

/-- `declare_parameters` (`source/run_time_parameters.cc:1762-1783`). -/
noncomputable def Input.declare : List Entry :=
  let q := ["3. Input parameters"]
  [⟨q, "Slip normals path name", .str "input/crystal_structure/symmetric_double_slip_system/slip_normals", .text⟩,
   ⟨q, "Slip directions path name",
     .str "input/crystal_structure/symmetric_double_slip_system/slip_directions", .text⟩,
   ⟨q, "Euler angles path name", .str "input/crystal_orientation/euler_angles_0_30", .text⟩]

/-- `parse_parameters` (`source/run_time_parameters.cc:1787-1799`). -/
noncomputable def Input.parse (s : Store) : Rd Input := do
  let q := ["3. Input parameters"]
  let a ← getStr s q "Slip normals path name"
  let b ← getStr s q "Slip directions path name"
  let c ← getStr s q "Euler angles path name"
  return ⟨a, b, c⟩

/-- The file system as seen by a process. -/
structure Env where
  /-- `this_mpi_process(MPI_COMM_WORLD) == 0` -/
  root : Bool
  /-- `fs::exists` -/
  has : String → Bool
  /-- whether `fs::create_directories` succeeds -/
  mkdir : String → Bool

/-- `Output`; `homogenization_output_frequency` is not read from the file. -/
structure Output where
  directory : String
  graphical : ℕ
  terminal : ℕ
  homogenization : ℕ
  damage : Bool
  fluctuations : Bool
  dimensionless : Bool

/-- Constructor (`source/run_time_parameters.cc:1803-1812`). -/
def Output.new : Output := ⟨"results/default/", 1, 1, 1, false, false, false⟩

/-- `declare_parameters` (`source/run_time_parameters.cc:1816-1850`). -/
noncomputable def Output.declare : List Entry :=
  let q := ["4. Output parameters"]
  [⟨q, "Graphical output directory", .str "results/default/", .text⟩,
   ⟨q, "Graphical output frequency", .int 1, .integer 0⟩,
   ⟨q, "Terminal output frequency", .int 1, .integer 0⟩,
   ⟨q, "Output damage variable field", .bool false, .bool⟩,
   ⟨q, "Output dimensionless quantities", .bool false, .bool⟩,
   ⟨q, "Output fluctuations fields", .bool false, .bool⟩,
   ⟨q, "Store checkpoints", .bool false, .bool⟩]

/-- `parse_parameters` (`source/run_time_parameters.cc:1854-1919`). -/
noncomputable def Output.parse (env : Env) (s : Store) : Rd Output := do
  let q := ["4. Output parameters"]
  let d ← getStr s q "Graphical output directory"
  if env.root = true ∧ env.has (d ++ "paraview/") = false ∧ env.mkdir (d ++ "paraview/") = false then
    throw .abort
  let g ← getNat s q "Graphical output frequency"
  let t ← getNat s q "Terminal output frequency"
  let x ← getBool s q "Output damage variable field"
  let y ← getBool s q "Output fluctuations fields"
  let z ← getBool s q "Output dimensionless quantities"
  return ⟨d, g, t, Output.new.homogenization, x, y, z⟩

/-- `Homogenization`. -/
structure Homog where
  frequency : ℕ
  compute : Bool

/-- Constructor (`source/run_time_parameters.cc:1923-1927`). -/
def Homog.new : Homog := ⟨1, false⟩

/-- `declare_parameters` (`source/run_time_parameters.cc:1931-1945`, in the subsection of `2022-2026`). -/
noncomputable def Homog.declare : List Entry :=
  let q := ["5. Postprocessing parameters", "Homogenization"]
  [⟨q, "Compute homogenized quantities", .bool false, .bool⟩,
   ⟨q, "Homogenization frequency", .int 1, .integer 0⟩]

/-- `parse_parameters` (`source/run_time_parameters.cc:1949-1961`). -/
noncomputable def Homog.parse (s : Store) : Rd Homog := do
  let q := ["5. Postprocessing parameters", "Homogenization"]
  let n ← getNat s q "Homogenization frequency"
  let b ← getBool s q "Compute homogenized quantities"
  return ⟨n, b⟩

/-! ## Problems -/

/-- `BasicProblem`. -/
structure Basic where
  spatial : Spatial
  temporal : Temporal
  input : Input
  output : Output
  solver : Solver
  homogenization : Homog
  verbose : Bool

/-- Constructor (`source/run_time_parameters.cc:1965-1968`). -/
noncomputable def Basic.new : Basic := ⟨.new, .new, .new, .new, .new, .new, true⟩

/-- `declare_parameters` (`source/run_time_parameters.cc:2010-2031`). -/
noncomputable def Basic.declare : List Entry :=
  Spatial.declare ++ Temporal.declare ++ Input.declare ++ Output.declare ++ Solver.declare ++ Homog.declare ++
    [⟨[], "Verbose", .bool false, .bool⟩]

/-- The three-dimensional input files are preferred if all of them exist
(`source/run_time_parameters.cc:2054-2063`). -/
def Input.names (i : Input) (env : Env) (dim : ℕ) : Input :=
  if dim = 3 ∧ env.has (i.normals ++ "_3d.txt") = true ∧ env.has (i.directions ++ "_3d.txt") = true ∧
      env.has (i.angles ++ "_3d.txt") = true then
    ⟨i.normals ++ "_3d", i.directions ++ "_3d", i.angles ++ "_3d"⟩
  else i

/-- `parse_parameters` (`source/run_time_parameters.cc:2035-2064`). -/
noncomputable def Basic.parse (debug : Bool) (env : Env) (s : Store) : Rd Basic := do
  let a ← Spatial.parse s
  let t ← Temporal.parse debug s
  let i ← Input.parse s
  let o ← Output.parse env s
  let v ← Solver.parse debug s
  let h ← Homog.parse s
  let b ← getBool s [] "Verbose"
  return ⟨a, t, i.names env a.dim, o, v, h, b⟩

/-- `ControlType`. -/
inductive Control where
  | displacement | load
  deriving DecidableEq

/-- `InfiniteStripProblem`. -/
structure Strip where
  basic : Basic
  loading : Loading
  control : Control
  height : ℝ
  elements : ℕ
  crystals : ℕ

/-- Constructor (`source/run_time_parameters.cc:2068-2075`). -/
noncomputable def Strip.new : Strip := ⟨.new, .new, .displacement, 1, 100, 1⟩

/-- `declare_parameters` (`source/run_time_parameters.cc:2132-2170`). -/
noncomputable def Strip.declare : List Entry :=
  let q := ["1. Spatial discretization parameters", "Problem specific parameters"]
  Basic.declare ++ Loading.declare ++
    [⟨q, "Height of the strip", .num 1, .double (some 0) none⟩,
     ⟨q, "Number of elements in y-direction", .int 100, .integer 1⟩,
     ⟨q, "Number of equally sized crystals in y-direction", .int 1, .integer 1⟩,
     ⟨["0. Infinite strip parameters (Extended in 1. and 2.)", "Loading parameters"], "Control type",
       .str "displacement_control", .selection ["load_control", "displacement_control"]⟩]

/-- `parse_parameters` (`source/run_time_parameters.cc:2174-2227`).  The two whole numbers are read by
`get_double` and converted to `unsigned int`. -/
noncomputable def Strip.parse (debug : Bool) (env : Env) (s : Store) : Rd Strip := do
  let q := ["1. Spatial discretization parameters", "Problem specific parameters"]
  let b ← Basic.parse debug env s
  let l ← Loading.parse debug s
  let h ← getDouble s q "Height of the strip"
  let e ← getDouble s q "Number of elements in y-direction"
  let c ← getDouble s q "Number of equally sized crystals in y-direction"
  assertThrow (h > 0)
  let t ← getStr s ["0. Infinite strip parameters (Extended in 1. and 2.)", "Loading parameters"] "Control type"
  let k ← select t [("load_control", Control.load), ("displacement_control", .displacement)]
  return ⟨b, l, k, h, ⌊e⌋₊, ⌊c⌋₊⟩

/-- The constructor reading a file (`source/run_time_parameters.cc:2079-2128`): declarations, `parse_input`,
`parse_parameters`; `none` if `parse_input` throws. -/
noncomputable def Strip.read (debug : Bool) (env : Env) (f : List Line) : Option (Rd Strip) :=
  (load Strip.declare f (initial Strip.declare)).map (Strip.parse debug env)

/-- `SemicoupledParameters`. -/
structure Semi where
  basic : Basic
  e11 : ℝ
  e22 : ℝ
  e33 : ℝ
  e23 : ℝ
  e13 : ℝ
  e12 : ℝ
  ratio : ℝ
  mesh : String

/-- Constructor (`source/run_time_parameters.cc:2231-2242`). -/
noncomputable def Semi.new : Semi :=
  ⟨.new, 0.01, 0.01, 0.01, 0.01, 0.01, 0.01, 0.5, "input/mesh/periodic_polycrystal.msh"⟩

/-- `declare_parameters` (`source/run_time_parameters.cc:2297-2336`). -/
noncomputable def Semi.declare : List Entry :=
  let q := ["Semi-coupled problem"]
  Basic.declare ++
    [⟨q, "Max strain component 11", .num 0, .double none none⟩,
     ⟨q, "Max strain component 22", .num 0, .double none none⟩,
     ⟨q, "Max strain component 33", .num 0, .double none none⟩,
     ⟨q, "Max strain component 23", .num 0, .double none none⟩,
     ⟨q, "Max strain component 13", .num 0, .double none none⟩,
     ⟨q, "Max strain component 12", .num 0.01, .double none none⟩,
     ⟨q, "Minimum to maximum strain load ratio", .num 0.5, .double none none⟩,
     ⟨q, "Mesh file (*.msh) path name", .str "input/mesh/periodic_polycrystal.msh", .text⟩]

/-- The extension of a path: what follows the last dot. -/
def extension (p : String) : Option (List Char) :=
  if '.' ∈ p.toList then some (p.toList.reverse.takeWhile (· ≠ '.')).reverse else none

/-- `parse_parameters` (`source/run_time_parameters.cc:2340-2390`). -/
noncomputable def Semi.parse (debug : Bool) (env : Env) (s : Store) : Rd Semi := do
  let q := ["Semi-coupled problem"]
  let b ← Basic.parse debug env s
  let e11 ← getDouble s q "Max strain component 11"
  let e22 ← getDouble s q "Max strain component 22"
  let e33 ← getDouble s q "Max strain component 33"
  let e23 ← getDouble s q "Max strain component 23"
  let e13 ← getDouble s q "Max strain component 13"
  let e12 ← getDouble s q "Max strain component 12"
  let m ← getStr s q "Mesh file (*.msh) path name"
  let r ← getDouble s q "Minimum to maximum strain load ratio"
  assertDebug debug (0 ≤ r ∧ r < 1)
  assertDebug debug (extension m = some ['m', 's', 'h'])
  return ⟨b, e11, e22, e33, e23, e13, e12, r, m⟩

/-- The constructor reading a file (`source/run_time_parameters.cc:2246-2293`). -/
noncomputable def Semi.read (debug : Bool) (env : Env) (f : List Line) : Option (Rd Semi) :=
  (load Semi.declare f (initial Semi.declare)).map (Semi.parse debug env)

/-! ## Copies of the parameter file -/

/-- `print_parameters`: every entry with its value (`source/run_time_parameters.cc:2104-2105` for the template,
`2115-2127` for the copy in the output directory).  Comments are left out. -/
def printed (d : List Entry) (s : Store) : List Line :=
  d.filterMap fun e => (s e.path e.name).map fun v => ⟨e.path, e.name, v⟩

/-! ## What the program does with the parameters -/

/-- The parameters without the members no other file of the program reads: `temporal_discretization_parameters`,
`control_type`, `relative_tolerance` and `step_tolerance` of the Newton solvers (the comparisons in `solve.cc:280-282`
and `394-396` are commented out), `characteristic_quantities.time`, `flag_skip_extrapolation_at_extrema`,
`flag_zero_damage_during_loading_and_unloading`, `flag_apply_mapping_to_interior_cells` and
`terminal_output_frequency`. -/
noncomputable def Strip.observed (r : Strip) : Strip :=
  let n (x : Nonlinear) : Nonlinear := { x with newton := { x.newton with relative := 0, step := 0 } }
  let v := r.basic.solver
  { r with
    control := .displacement
    basic := { r.basic with
      temporal := .new
      spatial := { r.basic.spatial with mappingInterior := false }
      output := { r.basic.output with terminal := 1 }
      solver := { v with
        mono := { v.mono with solver := n v.mono.solver }
        stag := { v.stag with momentum := n v.stag.momentum, pseudo := n v.stag.pseudo }
        form := { v.form with q := { v.form.q with time := 1 } }
        skipAtExtrema := false
        zeroDamage := false } } }

/-- The traction recorded at a quadrature point of a grain boundary at the end of a step
(`source/gradient_crystal_plasticity/assembly.cc:1689-1697`): the norm of the cohesive traction, degraded with the
exponent of `DamageEvolution`; `none` if that value is indeterminate. -/
noncomputable def recorded (d : Damage) (damage traction : ℝ) : Option ℝ :=
  if d.coupleMacro then d.degradationExponent.bind fun e => (Cry.fpow (1 - damage) e).map (· * traction)
  else some traction

end Verif.Ini
