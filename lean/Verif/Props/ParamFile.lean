import Verif.Model.ParamFile

/-!
# The parameter file

* C91: every file deal.II's parameter handler accepts is read without internal error and rejected only if it
  violates a range condition; each parameter has the value the file gives.
* C92: template, defaults and the copy of the file.
* C93: which entries take effect.
-/

namespace Verif.Ini

/-! ## Specification: the value the file gives to an entry -/

/-- The last line of the file for the entry, or else its default. -/
def SpecValue (d : List Entry) (f : List Line) (p : List String) (n : String) : Option Val :=
  match f.reverse.find? fun l => l.path = p ∧ l.name = n with
  | some l => some l.value
  | none => (d.find? fun e => e.path = p ∧ e.name = n).map Entry.dflt

/-- A value as a number. -/
noncomputable def num (s : Store) (p : List String) (n : String) : ℝ :=
  match s p n with
  | some (.num x) => x
  | some (.int k) => k
  | _ => 0

/-- A value as a natural number. -/
def nat (s : Store) (p : List String) (n : String) : ℕ :=
  match s p n with
  | some (.int k) => k.toNat
  | _ => 0

/-- A value as a truth value. -/
def flag (s : Store) (p : List String) (n : String) : Bool :=
  match s p n with
  | some (.bool b) => b
  | _ => false

/-- A value as a word. -/
def word (s : Store) (p : List String) (n : String) : String :=
  match s p n with
  | some (.str t) => t
  | _ => ""

/-! ## Reading declared entries -/

/-- The entry has a value matching the pattern. -/
def Has (s : Store) (p : List String) (n : String) (t : Pattern) : Prop := ∃ v, s p n = some v ∧ t.accepts v

/-- All entries have. -/
def Valid (d : List Entry) (s : Store) : Prop := ∀ e ∈ d, Has s e.path e.name e.pattern

theorem valid_nil (s : Store) : Valid [] s := by simp [Valid]

theorem valid_cons (e : Entry) (d : List Entry) (s : Store) :
    Valid (e :: d) s ↔ Has s e.path e.name e.pattern ∧ Valid d s := by simp [Valid]

theorem valid_append (d d' : List Entry) (s : Store) : Valid (d ++ d') s ↔ Valid d s ∧ Valid d' s := by
  simp [Valid, or_imp, forall_and]

theorem has_double {s : Store} {p : List String} {n : String} {lo hi : Option ℝ} (h : Has s p n (.double lo hi)) :
    getDouble s p n = .ok (num s p n) := by
  obtain ⟨v, hv, ha⟩ := h
  cases v <;> simp_all [Pattern.accepts, getDouble, num]

theorem has_double_int {s : Store} {p : List String} {n : String} {lo : ℤ} (h : Has s p n (.integer lo)) :
    getDouble s p n = .ok (num s p n) := by
  obtain ⟨v, hv, ha⟩ := h
  cases v <;> simp_all [Pattern.accepts, getDouble, num]

theorem has_lower {s : Store} {p : List String} {n : String} {lo : ℝ} {hi : Option ℝ}
    (h : Has s p n (.double (some lo) hi)) : lo ≤ num s p n := by
  obtain ⟨v, hv, ha⟩ := h
  cases v <;> simp_all [Pattern.accepts, num]

theorem has_int {s : Store} {p : List String} {n : String} {lo : ℤ} (h : Has s p n (.integer lo)) :
    getNat s p n = .ok (nat s p n) := by
  obtain ⟨v, hv, ha⟩ := h
  cases v <;> simp_all [Pattern.accepts, getNat, nat]

theorem has_int_lower {s : Store} {p : List String} {n : String} {lo : ℕ} (h : Has s p n (.integer lo)) :
    lo ≤ nat s p n := by
  obtain ⟨v, hv, ha⟩ := h
  cases v <;> simp_all [Pattern.accepts, nat]
  omega

theorem has_bool {s : Store} {p : List String} {n : String} (h : Has s p n .bool) :
    getBool s p n = .ok (flag s p n) := by
  obtain ⟨v, hv, ha⟩ := h
  cases v <;> simp_all [Pattern.accepts, getBool, flag]

theorem has_text {s : Store} {p : List String} {n : String} (h : Has s p n .text) :
    getStr s p n = .ok (word s p n) := by
  obtain ⟨v, hv, ha⟩ := h
  cases v <;> simp_all [Pattern.accepts, getStr, word]

theorem has_selection {s : Store} {p : List String} {n : String} {l : List String}
    (h : Has s p n (.selection l)) : getStr s p n = .ok (word s p n) ∧ word s p n ∈ l := by
  obtain ⟨v, hv, ha⟩ := h
  cases v <;> simp_all [Pattern.accepts, getStr, word]

/-! ## Files -/

/-- The key of an entry. -/
def key (e : Entry) : List String × String := (e.path, e.name)

theorem initial_eq (d : List Entry) (p : List String) (n : String) :
    initial d p n = (d.find? fun e => e.path = p ∧ e.name = n).map Entry.dflt := by
  induction d with
  | nil => rfl
  | cons e l ih =>
    by_cases h : e.path = p ∧ e.name = n
    · simp [initial, h]
    · have h' : ¬ (p = e.path ∧ n = e.name) := fun h' => h ⟨h'.1.symm, h'.2.symm⟩
      simp [initial, h, h', ih]

theorem find_key {d : List Entry} (hd : (d.map key).Nodup) {e : Entry} (he : e ∈ d) :
    (d.find? fun x => x.path = e.path ∧ x.name = e.name) = some e := by
  induction d with
  | nil => simp at he
  | cons x l ih =>
    rw [List.map_cons, List.nodup_cons] at hd
    rcases List.mem_cons.1 he with rfl | h
    · simp
    · have hx : ¬ (x.path = e.path ∧ x.name = e.name) := by
        rintro ⟨h1, h2⟩
        exact hd.1 (List.mem_map.2 ⟨e, h, by simp [key, h1, h2]⟩)
      rw [List.find?_cons_of_neg (by simpa using hx)]
      exact ih hd.2 h

/-- What a file that is not rejected leaves in the handler. -/
theorem load_value (d : List Entry) (f : List Line) : ∀ (s s' : Store), load d f s = some s' → ∀ p n, s' p n =
    match f.reverse.find? fun l => l.path = p ∧ l.name = n with
    | some l => some l.value
    | none => s p n := by
  induction f with
  | nil => intro s s' h p n; simp [load] at h; simp [h]
  | cons l f ih =>
    intro s s' h p n
    rw [load] at h
    split at h
    · simp at h
    · split at h
      · rw [ih _ _ h p n, List.reverse_cons, List.find?_append]
        cases f.reverse.find? (fun l => decide (l.path = p ∧ l.name = n)) with
        | some x => rfl
        | none =>
          by_cases hk : l.path = p ∧ l.name = n
          · obtain ⟨rfl, rfl⟩ := hk; simp
          · have h' : ¬ (p = l.path ∧ n = l.name) := fun h' => hk ⟨h'.1.symm, h'.2.symm⟩
            simp [hk, h']
      · simp at h

/-- After reading a file that is not rejected every entry has the value the file gives, or else its default. -/
theorem C91_value (d : List Entry) (f : List Line) (s : Store) (h : load d f (initial d) = some s)
    (p : List String) (n : String) : s p n = SpecValue d f p n := by
  rw [load_value d f _ _ h, SpecValue]
  split <;> simp_all [initial_eq]

theorem load_valid (d : List Entry) (hd : (d.map key).Nodup) (f : List Line) :
    ∀ (s s' : Store), Valid d s → load d f s = some s' → Valid d s' := by
  induction f with
  | nil => intro s s' hs h; simp [load] at h; rwa [← h]
  | cons l f ih =>
    intro s s' hs h
    rw [load] at h
    split at h
    · simp at h
    · rename_i e he
      split at h
      · rename_i ha
        refine ih _ _ (fun x hx => ?_) h
        by_cases hk : x.path = l.path ∧ x.name = l.name
        · have := find_key hd hx
          rw [hk.1, hk.2] at this
          have hxe : x = e := by
            have h2 := he
            simp only [this, Option.some.injEq] at h2
            exact h2
          exact ⟨l.value, by simp [hk], hxe ▸ ha⟩
        · obtain ⟨v, hv, hv'⟩ := hs x hx
          exact ⟨v, by simp [hk, hv], hv'⟩
      · simp at h

theorem initial_valid (d : List Entry) (hd : (d.map key).Nodup) (ha : ∀ e ∈ d, e.pattern.accepts e.dflt) :
    Valid d (initial d) := fun e he => ⟨e.dflt, by rw [initial_eq, find_key hd he]; rfl, ha e he⟩

set_option maxRecDepth 100000 in
set_option maxHeartbeats 4000000 in
/-- No entry is declared twice. -/
theorem strip_nodup : (Strip.declare.map key).Nodup := by
  simp [Strip.declare, Basic.declare, Spatial.declare, Temporal.declare, Input.declare, Output.declare,
    Solver.declare, Laws.declare, Hooke.declare, Scalar.declare, Vectorial.declare, Cohesive.declare,
    Hardening.declare, Damage.declare, Mono.declare, Stag.declare, Nonlinear.declare, Newton.declare,
    LineSearch.declare, Krylov.declare, Form.declare, Homog.declare, Loading.declare, key]

set_option maxRecDepth 100000 in
set_option maxHeartbeats 4000000 in
/-- No entry is declared twice. -/
theorem semi_nodup : (Semi.declare.map key).Nodup := by
  simp [Semi.declare, Basic.declare, Spatial.declare, Temporal.declare, Input.declare, Output.declare,
    Solver.declare, Laws.declare, Hooke.declare, Scalar.declare, Vectorial.declare, Cohesive.declare,
    Hardening.declare, Damage.declare, Mono.declare, Stag.declare, Nonlinear.declare, Newton.declare,
    LineSearch.declare, Krylov.declare, Form.declare, Homog.declare, key]

set_option maxRecDepth 100000 in
set_option maxHeartbeats 4000000 in
/-- Every default matches its pattern. -/
theorem strip_defaults : ∀ e ∈ Strip.declare, e.pattern.accepts e.dflt := by
  simp [Strip.declare, Basic.declare, Spatial.declare, Temporal.declare, Input.declare, Output.declare,
    Solver.declare, Laws.declare, Hooke.declare, Scalar.declare, Vectorial.declare, Cohesive.declare,
    Hardening.declare, Damage.declare, Mono.declare, Stag.declare, Nonlinear.declare, Newton.declare,
    LineSearch.declare, Krylov.declare, Form.declare, Homog.declare, Loading.declare, Pattern.accepts]
  norm_num

set_option maxRecDepth 100000 in
set_option maxHeartbeats 4000000 in
/-- Every default matches its pattern. -/
theorem semi_defaults : ∀ e ∈ Semi.declare, e.pattern.accepts e.dflt := by
  simp [Semi.declare, Basic.declare, Spatial.declare, Temporal.declare, Input.declare, Output.declare,
    Solver.declare, Laws.declare, Hooke.declare, Scalar.declare, Vectorial.declare, Cohesive.declare,
    Hardening.declare, Damage.declare, Mono.declare, Stag.declare, Nonlinear.declare, Newton.declare,
    LineSearch.declare, Krylov.declare, Form.declare, Homog.declare, Pattern.accepts]
  norm_num

/-! ## Specification: when a file is accepted -/

/-- An ending the user can act on: a range exception, a failed assertion of the debug build, or the abort when
the output directory cannot be created. -/
def Err.documented : Err → Prop
  | .range | .assertion | .abort => True
  | _ => False

/-- The reader returns `a` if the condition holds and ends with a documented error otherwise. -/
def Meets {α : Type} (x : Rd α) (c : Prop) (a : α) : Prop :=
  (c → x = .ok a) ∧ (¬ c → ∃ e, x = .error e ∧ e.documented)

/-- Positive elastic constants. -/
def HookeOk (s : Store) (p : List String) : Prop :=
  0 < num s (p ++ ["Hooke-Law's parameters"]) "C1111" ∧
  0 < num s (p ++ ["Hooke-Law's parameters"]) "C1122" ∧
  0 < num s (p ++ ["Hooke-Law's parameters"]) "C1212"

/-- The constants the file gives. -/
noncomputable def specHooke (s : Store) (p : List String) : Hooke where
  c1111 := num s (p ++ ["Hooke-Law's parameters"]) "C1111"
  c1122 := num s (p ++ ["Hooke-Law's parameters"]) "C1122"
  c1212 := num s (p ++ ["Hooke-Law's parameters"]) "C1212"

/-- The regularisation function of a word. -/
def specReg (t : String) : RegKind :=
  if t = "atan" then .atan else if t = "sqrt" then .sqrt else if t = "gd" then .gd
  else if t = "tanh" then .tanh else .erf

/-- The scalar law the file gives. -/
noncomputable def specScalar (s : Store) (p : List String) : Scalar where
  function := specReg (word s (p ++ ["Scalar microstress law's parameters"]) "Regularization function")
  parameter := num s (p ++ ["Scalar microstress law's parameters"]) "Regularization parameter"
  rateIndependent := flag s (p ++ ["Scalar microstress law's parameters"]) "Rate-independent behavior"

/-- The vectorial law the file gives. -/
noncomputable def specVectorial (s : Store) (p : List String) : Vectorial where
  lengthScale := num s (p ++ ["Vectorial microstress law's parameters"]) "Energetic length scale"
  resistance := num s (p ++ ["Vectorial microstress law's parameters"]) "Initial slip resistance"
  index := num s (p ++ ["Vectorial microstress law's parameters"]) "Defect energy index"
  parameter := num s (p ++ ["Vectorial microstress law's parameters"]) "Regularization parameter"

/-- The cohesive law the file gives. -/
noncomputable def specCohesive (s : Store) (p : List String) : Cohesive where
  traction := num s (p ++ ["Cohesive law's parameters"]) "Critical cohesive traction"
  opening := num s (p ++ ["Cohesive law's parameters"]) "Critical opening displacement"
  ratio := num s (p ++ ["Cohesive law's parameters"]) "Tangential to normal stiffness ratio"

/-- The hardening law the file gives. -/
noncomputable def specHardening (s : Store) (p : List String) : Hardening where
  resistance := num s (p ++ ["Hardening law's parameters"]) "Initial slip resistance"
  modulus := num s (p ++ ["Hardening law's parameters"]) "Linear hardening modulus"
  parameter := num s (p ++ ["Hardening law's parameters"]) "Hardening parameter"
  perfect := flag s (p ++ ["Hardening law's parameters"]) "Perfect plasticity"

/-- The damage evolution the file gives; the file has no entry for its degradation exponent. -/
noncomputable def specDamage (s : Store) (p : List String) : Damage where
  model := if word s (p ++ ["Damage evolution parameters"]) "Damage evolution model" = "OrtizEtAl" then .ortiz
    else .m1
  accumulation := num s (p ++ ["Damage evolution parameters"]) "Damage accumulation constant"
  decay := num s (p ++ ["Damage evolution parameters"]) "Damage decay constant"
  decayExponent := num s (p ++ ["Damage evolution parameters"]) "Damage decay exponent"
  endurance := num s (p ++ ["Damage evolution parameters"]) "Endurance limit"
  degradationExponent := none
  coupleMicro := flag s (p ++ ["Damage evolution parameters"]) "Couple microtraction to damage"
  coupleMacro := flag s (p ++ ["Damage evolution parameters"]) "Couple macrotraction to damage"
  zero := flag s (p ++ ["Damage evolution parameters"]) "Set damage to zero"

/-- Conditions on the constitutive laws; the last one in debug builds only. -/
def LawsOk (debug : Bool) (s : Store) (q : List String) : Prop :=
  HookeOk s q ∧
  0 < num s (q ++ ["Scalar microstress law's parameters"]) "Regularization parameter" ∧
  0 < num s (q ++ ["Vectorial microstress law's parameters"]) "Regularization parameter" ∧
  (debug = true → num s (q ++ ["Hardening law's parameters"]) "Initial slip resistance" =
    num s (q ++ ["Vectorial microstress law's parameters"]) "Initial slip resistance")

/-- The constitutive laws the file gives. -/
noncomputable def specLaws (s : Store) (q : List String) : Laws where
  hooke := specHooke s q
  scalar := specScalar s q
  vectorial := specVectorial s q
  microtraction := num s (q ++ ["Microtraction law's parameters"]) "Grain boundary modulus"
  cohesive := specCohesive s q
  contact := num s (q ++ ["Contact law's parameters"]) "Penalty coefficient"
  hardening := specHardening s q
  degradation := num s (q ++ ["Degradation function parameters"]) "Degradation exponent"
  damage := specDamage s q

/-- The reference values the file gives, all 1 unless the dimensionless problem is to be solved. -/
noncomputable def specForm (s : Store) (p : List String) : Prm.DimForm :=
  let q := p ++ ["Dimensionless formulation parameters"]
  let r (n : String) : ℝ :=
    if flag s q "Solve the dimensionless problem" then num s (q ++ ["Reference parameters"]) n else 1
  ⟨flag s q "Solve the dimensionless problem",
   ⟨r "Reference length value", r "Reference time value", r "Reference displacement value",
    r "Reference stiffness value", r "Reference slip resistance value", 1, 1, 1, 1, 1, 1, 1⟩, fun _ => 1⟩

/-- Positive tolerances, the relative one above the absolute one, and line search constants
`0 < alpha < beta < 1`. -/
def NonlinearOk (s : Store) (p : List String) : Prop :=
  (0 < num s (p ++ ["Krylov parameters"]) "Absolute tolerance" ∧
    num s (p ++ ["Krylov parameters"]) "Absolute tolerance" <
      num s (p ++ ["Krylov parameters"]) "Relative tolerance") ∧
  (0 < num s (p ++ ["Newton-Raphson parameters"]) "Absolute tolerance of the residual" ∧
    num s (p ++ ["Newton-Raphson parameters"]) "Absolute tolerance of the residual" <
      num s (p ++ ["Newton-Raphson parameters"]) "Relative tolerance of the residual") ∧
  0 < num s (p ++ ["Line search parameters"]) "Alpha condition constant" ∧
  num s (p ++ ["Line search parameters"]) "Alpha condition constant" <
    num s (p ++ ["Line search parameters"]) "Beta condition constant" ∧
  num s (p ++ ["Line search parameters"]) "Beta condition constant" < 1

/-- The parameters of a nonlinear solver the file gives. -/
noncomputable def specNonlinear (s : Store) (p : List String) : Nonlinear where
  krylov := {
    solver := if word s (p ++ ["Krylov parameters"]) "Solver type" = "directsolver" then .direct
      else if word s (p ++ ["Krylov parameters"]) "Solver type" = "cg" then .cg else .gmres
    relative := num s (p ++ ["Krylov parameters"]) "Relative tolerance"
    absolute := num s (p ++ ["Krylov parameters"]) "Absolute tolerance"
    iterations := nat s (p ++ ["Krylov parameters"]) "Maximum number of iterations" }
  newton := {
    relative := num s (p ++ ["Newton-Raphson parameters"]) "Relative tolerance of the residual"
    absolute := num s (p ++ ["Newton-Raphson parameters"]) "Absolute tolerance of the residual"
    step := num s (p ++ ["Newton-Raphson parameters"]) "Absolute tolerance of the step"
    iterations := nat s (p ++ ["Newton-Raphson parameters"]) "Maximum number of iterations"
    lineSearch := flag s (p ++ ["Newton-Raphson parameters"]) "Line search algorithm" }
  line := {
    alpha := num s (p ++ ["Line search parameters"]) "Alpha condition constant"
    beta := num s (p ++ ["Line search parameters"]) "Beta condition constant"
    iterations := nat s (p ++ ["Line search parameters"]) "Maximum number of iterations" }

/-- Conditions on the parameters of the algorithm chosen. -/
def AlgorithmOk (debug : Bool) (s : Store) (q : List String) : Prop :=
  (word s q "Solution algorithm" = "monolithic" →
    NonlinearOk s (q ++ ["Monolithic algorithm"]) ∧
    (debug = true → word s (q ++ ["Monolithic algorithm"]) "Monolithic preconditioner" = "built-in")) ∧
  (word s q "Solution algorithm" ≠ "monolithic" →
    NonlinearOk s (q ++ ["Staggered algorithm"] ++ ["Linear momentum balance"]) ∧
    NonlinearOk s (q ++ ["Staggered algorithm"] ++ ["Pseudo-balance"]))

/-- The algorithm of a word. -/
def specAlgorithm (t : String) : Algorithm :=
  if t = "monolithic" then .monolithic else if t = "bouncing" then .bouncing else .embracing

/-- The solver's parameters the file gives; those of the algorithms not chosen are the constructors'. -/
noncomputable def specSolver (s : Store) : Solver :=
  let q := ["6. Solver parameters"]
  { algorithm := specAlgorithm (word s q "Solution algorithm")
    mono := if word s q "Solution algorithm" = "monolithic" then
        ⟨specNonlinear s (q ++ ["Monolithic algorithm"]),
          decide (word s (q ++ ["Monolithic algorithm"]) "Monolithic preconditioner" = "block")⟩
      else .new
    stag := if word s q "Solution algorithm" = "monolithic" then .new
      else
        ⟨specNonlinear s (q ++ ["Staggered algorithm"] ++ ["Linear momentum balance"]),
          specNonlinear s (q ++ ["Staggered algorithm"] ++ ["Pseudo-balance"]),
          nat s (q ++ ["Staggered algorithm"]) "Maximum number of solution loops",
          flag s (q ++ ["Staggered algorithm"]) "Reset trial solution at each micro loop"⟩
    laws := specLaws s (q ++ ["Constitutive laws' parameters"])
    form := specForm s q
    decohesion := flag s q "Allow decohesion at grain boundaries"
    grainBC := if word s q "Boundary conditions at grain boundaries" = "microhard" then .microhard
      else if word s q "Boundary conditions at grain boundaries" = "microfree" then .microfree
      else .microtraction
    loggerDirectory := word s ["4. Output parameters"] "Graphical output directory"
    skipExtrapolation := flag s q "Skip extrapolation of start value"
    skipAtExtrema := flag s q "Skip extrapolation of start value at extrema"
    extrapolationFactor := num s q "Extrapolation factor"
    zeroDamage := flag s q "Zero damage evolution during un- and loading"
    debugFields := flag s q "Output debug fields"
    printSparsity := flag s q "Print sparsity pattern"
    verbose := flag s q "Verbose" }

/-- Conditions on a problem: dimension 2 or 3, the output directory exists or can be created, the conditions on
laws and algorithms, and in debug builds a consistent time interval. -/
def BasicOk (debug : Bool) (env : Env) (s : Store) : Prop :=
  (nat s ["1. Spatial discretization parameters"] "Spatial dimension" = 2 ∨
    nat s ["1. Spatial discretization parameters"] "Spatial dimension" = 3) ∧
  (debug = true →
    num s ["2. Temporal discretization parameters"] "Start time" <
      num s ["2. Temporal discretization parameters"] "End time" ∧
    0 < num s ["2. Temporal discretization parameters"] "Time step size" ∧
    num s ["2. Temporal discretization parameters"] "Start time" +
      num s ["2. Temporal discretization parameters"] "Time step size" ≤
        num s ["2. Temporal discretization parameters"] "End time") ∧
  (env.root = true →
    env.has (word s ["4. Output parameters"] "Graphical output directory" ++ "paraview/") = true ∨
    env.mkdir (word s ["4. Output parameters"] "Graphical output directory" ++ "paraview/") = true) ∧
  LawsOk debug s (["6. Solver parameters"] ++ ["Constitutive laws' parameters"]) ∧
  AlgorithmOk debug s ["6. Solver parameters"]

/-- The input files the file gives, with the suffix for three dimensions if all these files exist. -/
def specInput (env : Env) (s : Store) : Input :=
  let q := ["3. Input parameters"]
  let a := word s q "Slip normals path name"
  let b := word s q "Slip directions path name"
  let c := word s q "Euler angles path name"
  let x := if nat s ["1. Spatial discretization parameters"] "Spatial dimension" = 3 ∧
    (∀ t ∈ [a, b, c], env.has (t ++ "_3d.txt") = true) then "_3d" else ""
  ⟨a ++ x, b ++ x, c ++ x⟩

/-- The parameters of a problem the file gives. -/
noncomputable def specBasic (env : Env) (s : Store) : Basic where
  spatial := {
    dim := nat s ["1. Spatial discretization parameters"] "Spatial dimension"
    degreeU := nat s ["1. Spatial discretization parameters"] "FE's polynomial degree - Displacements"
    degreeSlips := nat s ["1. Spatial discretization parameters"] "FE's polynomial degree - Slips"
    refinements := nat s ["1. Spatial discretization parameters"] "Number of global refinements"
    mappingDegree := nat s ["1. Spatial discretization parameters"] "Mapping - Polynomial degree"
    mappingInterior := flag s ["1. Spatial discretization parameters"] "Mapping - Apply to interior cells" }
  temporal := {
    start := num s ["2. Temporal discretization parameters"] "Start time"
    fin := num s ["2. Temporal discretization parameters"] "End time"
    step := num s ["2. Temporal discretization parameters"] "Time step size" }
  input := specInput env s
  output := {
    directory := word s ["4. Output parameters"] "Graphical output directory"
    graphical := nat s ["4. Output parameters"] "Graphical output frequency"
    terminal := nat s ["4. Output parameters"] "Terminal output frequency"
    homogenization := 1
    damage := flag s ["4. Output parameters"] "Output damage variable field"
    fluctuations := flag s ["4. Output parameters"] "Output fluctuations fields"
    dimensionless := flag s ["4. Output parameters"] "Output dimensionless quantities" }
  solver := specSolver s
  homogenization := {
    frequency := nat s ["5. Postprocessing parameters", "Homogenization"] "Homogenization frequency"
    compute := flag s ["5. Postprocessing parameters", "Homogenization"] "Compute homogenized quantities" }
  verbose := flag s [] "Verbose"

/-- Subsections of the loading programme. -/
def loadPath : List String := ["2. Temporal discretization parameters", "Simple loading"]
/-- Subsections of the monotonic programme. -/
def monoPath : List String := ["2. Temporal discretization parameters", "Simple loading", "Monotonic load parameters"]
/-- Subsections of the cyclic programme. -/
def cyclicPath : List String := ["2. Temporal discretization parameters", "Simple loading", "Cyclic load parameters"]

/-- Conditions on the loading programme, in debug builds only. -/
def LoadingOk (debug : Bool) (s : Store) : Prop :=
  debug = true → 0 < num s monoPath "Duration of monotonic load" ∧ 0 < num s cyclicPath "Period" ∧
    num s loadPath "Minimum load" < num s loadPath "Maximum load"

/-- The loading programme the file gives; it starts at time zero. -/
noncomputable def specLoading (s : Store) : Loading :=
  let dm := num s monoPath "Duration of monotonic load"
  let dl := num s cyclicPath "Duration of un- and loading phase"
  let nc := nat s cyclicPath "Number of cycles"
  let per := num s cyclicPath "Period"
  let fin := if word s loadPath "Loading type" = "monotonic" then dm
    else (if flag s cyclicPath "Skip unloading phase" then dl else dl + dl) + nc * per
  { base := ⟨0, fin, 0.25⟩
    type := if word s loadPath "Loading type" = "monotonic" then .monotonic else .cyclic
    maxLoad := num s loadPath "Maximum load"
    minLoad := num s loadPath "Minimum load"
    durMono := dm
    nMono := nat s monoPath "Number of steps during monotonic load"
    dtMono := dm / nat s monoPath "Number of steps during monotonic load"
    durLoad := dl
    nLoad := nat s cyclicPath "Number of steps during un- and loading phase"
    dtLoad := dl / nat s cyclicPath "Number of steps during un- and loading phase"
    nCycles := nc
    period := per
    nQuarter := nat s cyclicPath "Number of steps during a quarter cycle"
    dtCyclic := per / (4 * nat s cyclicPath "Number of steps during a quarter cycle")
    skipUnloading := flag s cyclicPath "Skip unloading phase"
    startCyclic := some dl
    startUnloading := some (dl + nc * per) }

/-- Subsections of the strip's geometry. -/
def stripPath : List String := ["1. Spatial discretization parameters", "Problem specific parameters"]

/-- Subsections of the control type. -/
def controlPath : List String := ["0. Infinite strip parameters (Extended in 1. and 2.)", "Loading parameters"]

/-- When a file of the application is accepted. -/
def StripOk (debug : Bool) (env : Env) (s : Store) : Prop :=
  BasicOk debug env s ∧ LoadingOk debug s ∧ 0 < num s stripPath "Height of the strip"

/-- The parameters of the application the file gives. -/
noncomputable def specStrip (env : Env) (s : Store) : Strip where
  basic := specBasic env s
  loading := specLoading s
  control := if word s controlPath "Control type" = "load_control" then .load else .displacement
  height := num s stripPath "Height of the strip"
  elements := nat s stripPath "Number of elements in y-direction"
  crystals := nat s stripPath "Number of equally sized crystals in y-direction"

/-- When a file of the semi-coupled problem is accepted. -/
def SemiOk (debug : Bool) (env : Env) (s : Store) : Prop :=
  BasicOk debug env s ∧ (debug = true →
    (0 ≤ num s ["Semi-coupled problem"] "Minimum to maximum strain load ratio" ∧
      num s ["Semi-coupled problem"] "Minimum to maximum strain load ratio" < 1) ∧
    ∃ l, (word s ["Semi-coupled problem"] "Mesh file (*.msh) path name").toList = l ++ ['.', 'm', 's', 'h'])

/-- The parameters of the semi-coupled problem the file gives. -/
noncomputable def specSemi (env : Env) (s : Store) : Semi :=
  let e (n : String) : ℝ := num s ["Semi-coupled problem"] n
  ⟨specBasic env s, e "Max strain component 11", e "Max strain component 22", e "Max strain component 33",
    e "Max strain component 23", e "Max strain component 13", e "Max strain component 12",
    e "Minimum to maximum strain load ratio", word s ["Semi-coupled problem"] "Mesh file (*.msh) path name"⟩

/-! ## Readers -/

theorem meets_pure {α : Type} (a : α) : Meets (pure a) True a := ⟨fun _ => rfl, fun h => absurd trivial h⟩

theorem meets_ok {α β : Type} {x : Rd α} {a : α} {f : α → Rd β} {c : Prop} {b : β} (hx : x = .ok a)
    (h : Meets (f a) c b) : Meets (x >>= f) c b := by
  subst hx; exact h

theorem meets_bind {α β : Type} {x : Rd α} {a : α} {f : α → Rd β} {c c' : Prop} {b : β} (hx : Meets x c a)
    (h : Meets (f a) c' b) : Meets (x >>= f) (c ∧ c') b := by
  by_cases hc : c
  · rw [hx.1 hc]
    exact ⟨fun h' => h.1 h'.2, fun h' => h.2 fun h'' => h' ⟨hc, h''⟩⟩
  · obtain ⟨e, he, hd⟩ := hx.2 hc
    rw [he]
    exact ⟨fun h' => absurd h'.1 hc, fun _ => ⟨e, rfl, hd⟩⟩

theorem meets_iff {α : Type} {x : Rd α} {a a' : α} {c c' : Prop} (h : Meets x c a) (hc : c ↔ c') (ha : c' → a = a') :
    Meets x c' a' :=
  ⟨fun h' => ha h' ▸ h.1 (hc.2 h'), fun h' => h.2 fun h'' => h' (hc.1 h'')⟩

theorem meets_throw (c : Prop) : Meets (assertThrow c) c () := by
  unfold assertThrow Meets
  by_cases h : c
  · simp [h]
  · simp [h, Err.documented]

theorem meets_debug (debug : Bool) (c : Prop) : Meets (assertDebug debug c) (debug = true → c) () := by
  unfold assertDebug Meets
  by_cases h : debug = true → c
  · rw [if_pos h]; exact ⟨fun _ => rfl, fun h' => absurd h h'⟩
  · rw [if_neg h]; exact ⟨fun h' => absurd h' h, fun _ => ⟨_, rfl, trivial⟩⟩

theorem hooke_meets {s : Store} {p : List String} (h : Valid (Hooke.declare p) s) :
    Meets (Hooke.parse s p) (HookeOk s p) (specHooke s p) := by
  simp only [Hooke.declare, valid_cons, valid_nil, and_true] at h
  obtain ⟨h1, h2, h3⟩ := h
  unfold Hooke.parse
  refine meets_iff (meets_ok (has_double h1) (meets_ok (has_double h2) (meets_ok (has_double h3)
    (meets_bind (meets_throw _) (meets_bind (meets_throw _) (meets_bind (meets_throw _) (meets_pure _)))))))
    ?_ fun _ => rfl
  simp [HookeOk]

theorem scalar_meets {s : Store} {p : List String} (h : Valid (Scalar.declare p) s) :
    Meets (Scalar.parse s p)
      (0 < num s (p ++ ["Scalar microstress law's parameters"]) "Regularization parameter")
      (specScalar s p) := by
  simp only [Scalar.declare, valid_cons, valid_nil, and_true] at h
  obtain ⟨h1, h2, h3⟩ := h
  have hs := has_selection h1
  have hsel : ∀ t ∈ ["atan", "sqrt", "gd", "tanh", "erf"], select t Scalar.names = .ok (specReg t) := by
    simp [select, Scalar.names, specReg]
  unfold Scalar.parse
  refine meets_iff (meets_ok hs.1 (meets_ok (hsel _ hs.2) (meets_ok (has_double h2) (meets_ok (has_bool h3)
    (meets_bind (meets_throw _) (meets_pure _)))))) ?_ fun _ => rfl
  simp

theorem vectorial_meets {s : Store} {p : List String} (h : Valid (Vectorial.declare p) s) :
    Meets (Vectorial.parse s p)
      (0 < num s (p ++ ["Vectorial microstress law's parameters"]) "Regularization parameter")
      (specVectorial s p) := by
  simp only [Vectorial.declare, valid_cons, valid_nil, and_true] at h
  obtain ⟨h1, h2, h3, h4⟩ := h
  unfold Vectorial.parse
  refine meets_iff (meets_ok (has_double h1) (meets_ok (has_double h2) (meets_ok (has_double h3)
    (meets_ok (has_double h4) (meets_bind (meets_throw _) (meets_pure _)))))) ?_ fun _ => rfl
  simp

theorem cohesive_meets {s : Store} {p : List String} (h : Valid (Cohesive.declare p) s) :
    Meets (Cohesive.parse s p) True (specCohesive s p) := by
  simp only [Cohesive.declare, valid_cons, valid_nil, and_true] at h
  obtain ⟨h1, h2, h3, h4⟩ := h
  have hs := has_selection h1
  have hsel : ∀ t ∈ ["OrtizEtAl"], select t [("OrtizEtAl", ())] = .ok () := by simp [select]
  unfold Cohesive.parse
  exact meets_ok hs.1 (meets_ok (hsel _ hs.2) (meets_ok (has_double h2) (meets_ok (has_double h3)
    (meets_ok (has_double h4) (meets_pure _)))))

theorem hardening_meets {debug : Bool} {s : Store} {p : List String} (h : Valid (Hardening.declare p) s)
    (hv : Valid (Vectorial.declare p) s) :
    Meets (Hardening.parse debug s p)
      (debug = true → num s (p ++ ["Hardening law's parameters"]) "Initial slip resistance" =
        num s (p ++ ["Vectorial microstress law's parameters"]) "Initial slip resistance")
      (specHardening s p) := by
  simp only [Hardening.declare, Vectorial.declare, valid_cons, valid_nil, and_true] at h hv
  obtain ⟨h1, h2, h3, h4⟩ := h
  unfold Hardening.parse
  refine meets_ok (has_double h1) (meets_ok (has_double h2) (meets_ok (has_double h3) (meets_ok (has_bool h4) ?_)))
  cases debug with
  | false => exact meets_iff (meets_pure _) (by simp) fun _ => rfl
  | true =>
    exact meets_iff (meets_ok (has_double hv.2.1) (meets_bind (meets_debug _ _) (meets_pure _))) (by simp)
      fun _ => rfl

theorem damage_meets {s : Store} {p : List String} (h : Valid (Damage.declare p) s) :
    Meets (Damage.parse s p) True (specDamage s p) := by
  simp only [Damage.declare, valid_cons, valid_nil, and_true] at h
  obtain ⟨h1, h2, h3, h4, h5, h6, h7, h8⟩ := h
  have hs := has_selection h1
  have hsel : ∀ t ∈ ["OrtizEtAl", "M1"], select t [("OrtizEtAl", DamageModel.ortiz), ("M1", .m1)] =
      .ok (if t = "OrtizEtAl" then .ortiz else .m1) := by simp [select]
  unfold Damage.parse
  exact meets_ok hs.1 (meets_ok (hsel _ hs.2) (meets_ok (has_double h2) (meets_ok (has_double h3)
    (meets_ok (has_double h4) (meets_ok (has_double h5) (meets_ok (has_bool h6) (meets_ok (has_bool h7)
    (meets_ok (has_bool h8) (meets_pure _)))))))))

theorem laws_meets {debug : Bool} {s : Store} {p : List String} (h : Valid (Laws.declare p) s) :
    Meets (Laws.parse debug s p) (LawsOk debug s (p ++ ["Constitutive laws' parameters"]))
      (specLaws s (p ++ ["Constitutive laws' parameters"])) := by
  simp only [Laws.declare, valid_append, valid_cons, valid_nil, and_true] at h
  obtain ⟨⟨⟨⟨⟨⟨⟨h1, h2⟩, h3⟩, h4⟩, h5⟩, h6, h7⟩, h8⟩, h9⟩ := h
  unfold Laws.parse
  refine meets_iff (meets_bind (hooke_meets h1) (meets_bind (scalar_meets h2) (meets_bind (vectorial_meets h3)
    (meets_ok (has_double h4) (meets_bind (cohesive_meets h5) (meets_ok (has_double h6)
    (meets_bind (hardening_meets h8 h3) (meets_ok (has_double h7) (meets_bind (damage_meets h9)
    (meets_pure _))))))))))  ?_ fun _ => rfl
  simp [LawsOk]

theorem form_meets {s : Store} {p : List String} (h : Valid (Form.declare p) s) :
    Meets (Form.parse s p) True (specForm s p) := by
  simp only [Form.declare, valid_cons, valid_nil, and_true] at h
  obtain ⟨h1, h2, h3, h4, h5, h6⟩ := h
  unfold Form.parse
  refine meets_ok (has_bool h1) ?_
  cases hb : flag s (p ++ ["Dimensionless formulation parameters"]) "Solve the dimensionless problem" with
  | false => exact meets_iff (meets_pure _) Iff.rfl fun _ => by simp [specForm, hb, Prm.CharQ.one]
  | true =>
    exact meets_iff (meets_ok (has_double h2) (meets_ok (has_double h3) (meets_ok (has_double h4)
      (meets_ok (has_double h5) (meets_ok (has_double h6) (meets_pure _)))))) Iff.rfl
      fun _ => by simp [specForm, hb, Prm.CharQ.one]

theorem nonlinear_meets {s : Store} {p : List String} (h : Valid (Nonlinear.declare p) s) :
    Meets (Nonlinear.parse s p) (NonlinearOk s p) (specNonlinear s p) := by
  simp only [Nonlinear.declare, Newton.declare, LineSearch.declare, Krylov.declare, valid_append, valid_cons,
    valid_nil, and_true] at h
  obtain ⟨⟨⟨a1, a2, a3, a4, a5⟩, b1, b2, b3⟩, c1, c2, c3, c4⟩ := h
  have hs := has_selection c1
  have hsel : ∀ t ∈ ["directsolver", "cg", "gmres"],
      select t [("directsolver", SolverKind.direct), ("cg", .cg), ("gmres", .gmres)] =
      .ok (if t = "directsolver" then .direct else if t = "cg" then .cg else .gmres) := by simp [select]
  have hk : Meets (Krylov.parse s p) (0 < num s (p ++ ["Krylov parameters"]) "Absolute tolerance" ∧
      num s (p ++ ["Krylov parameters"]) "Absolute tolerance" <
        num s (p ++ ["Krylov parameters"]) "Relative tolerance") (specNonlinear s p).krylov := by
    unfold Krylov.parse
    refine meets_iff (meets_ok hs.1 (meets_ok (hsel _ hs.2) (meets_ok (has_double c2) (meets_ok (has_double c3)
      (meets_ok (has_int c4) (meets_bind (meets_throw _) (meets_bind (meets_throw _) (meets_bind (meets_throw _)
      (meets_pure _))))))))) ?_ fun _ => rfl
    constructor
    · rintro ⟨-, h2, h3, -⟩; exact ⟨h2, h3⟩
    · rintro ⟨h2, h3⟩; exact ⟨h2.trans h3, h2, h3, trivial⟩
  have hn : Meets (Newton.parse s p)
      (0 < num s (p ++ ["Newton-Raphson parameters"]) "Absolute tolerance of the residual" ∧
      num s (p ++ ["Newton-Raphson parameters"]) "Absolute tolerance of the residual" <
        num s (p ++ ["Newton-Raphson parameters"]) "Relative tolerance of the residual")
      (specNonlinear s p).newton := by
    unfold Newton.parse
    refine meets_iff (meets_ok (has_double a1) (meets_ok (has_double a2) (meets_ok (has_double a3)
      (meets_ok (has_int a4) (meets_ok (has_bool a5) (meets_bind (meets_throw _) (meets_bind (meets_throw _)
      (meets_bind (meets_throw _) (meets_pure _))))))))) ?_ fun _ => rfl
    constructor
    · rintro ⟨-, h2, h3, -⟩; exact ⟨h2, h3⟩
    · rintro ⟨h2, h3⟩; exact ⟨h2.trans h3, h2, h3, trivial⟩
  have hl : Meets (LineSearch.parse s p) (0 < num s (p ++ ["Line search parameters"]) "Alpha condition constant" ∧
      num s (p ++ ["Line search parameters"]) "Alpha condition constant" <
        num s (p ++ ["Line search parameters"]) "Beta condition constant" ∧
      num s (p ++ ["Line search parameters"]) "Beta condition constant" < 1) (specNonlinear s p).line := by
    unfold LineSearch.parse
    refine meets_iff (meets_ok (has_double b1) (meets_ok (has_double b2) (meets_ok (has_int b3)
      (meets_bind (meets_throw _) (meets_bind (meets_throw _) (meets_bind (meets_throw _) (meets_pure _))))))) ?_
      fun _ => rfl
    simp
  unfold Nonlinear.parse
  refine meets_iff (meets_bind hk (meets_bind hn (meets_bind hl (meets_pure _)))) ?_ fun _ => rfl
  simp [NonlinearOk]

theorem mono_meets {debug : Bool} {s : Store} {p : List String} (h : Valid (Mono.declare p) s) :
    Meets (Mono.parse debug s p) (NonlinearOk s (p ++ ["Monolithic algorithm"]) ∧
      (debug = true → word s (p ++ ["Monolithic algorithm"]) "Monolithic preconditioner" = "built-in"))
      ⟨specNonlinear s (p ++ ["Monolithic algorithm"]),
        decide (word s (p ++ ["Monolithic algorithm"]) "Monolithic preconditioner" = "block")⟩ := by
  simp only [Mono.declare, valid_append, valid_cons, valid_nil, and_true] at h
  have hs := has_selection h.2
  have hsel : ∀ t ∈ ["built-in", "block"], select t [("built-in", false), ("block", true)] =
      .ok (decide (t = "block")) := by simp [select]
  unfold Mono.parse
  refine meets_iff (meets_bind (nonlinear_meets h.1) (meets_ok hs.1 (meets_ok (hsel _ hs.2)
    (meets_bind (meets_debug _ _) (meets_pure _))))) ?_ fun _ => rfl
  have : ∀ t ∈ ["built-in", "block"], (decide (t = "block") = false ↔ t = "built-in") := by simp
  rw [this _ hs.2]
  simp

theorem stag_meets {s : Store} {p : List String} (h : Valid (Stag.declare p) s) :
    Meets (Stag.parse s p) (NonlinearOk s (p ++ ["Staggered algorithm"] ++ ["Linear momentum balance"]) ∧
      NonlinearOk s (p ++ ["Staggered algorithm"] ++ ["Pseudo-balance"]))
      ⟨specNonlinear s (p ++ ["Staggered algorithm"] ++ ["Linear momentum balance"]),
        specNonlinear s (p ++ ["Staggered algorithm"] ++ ["Pseudo-balance"]),
        nat s (p ++ ["Staggered algorithm"]) "Maximum number of solution loops",
        flag s (p ++ ["Staggered algorithm"]) "Reset trial solution at each micro loop"⟩ := by
  simp only [Stag.declare, valid_append, valid_cons, valid_nil, and_true] at h
  obtain ⟨⟨h1, h2⟩, h3, h4⟩ := h
  unfold Stag.parse
  refine meets_iff (meets_bind (nonlinear_meets h1) (meets_bind (nonlinear_meets h2) (meets_ok (has_int h3)
    (meets_ok (has_bool h4) (meets_pure _))))) ?_ fun _ => rfl
  simp

theorem solver_meets {debug : Bool} {s : Store} (h : Valid Solver.declare s) (ho : Valid Output.declare s) :
    Meets (Solver.parse debug s)
      (LawsOk debug s (["6. Solver parameters"] ++ ["Constitutive laws' parameters"]) ∧
        AlgorithmOk debug s ["6. Solver parameters"]) (specSolver s) := by
  simp only [Solver.declare, Output.declare, valid_append, valid_cons, valid_nil, and_true] at h ho
  obtain ⟨⟨⟨⟨h1, h2⟩, h3⟩, h4⟩, k1, k2, k3, k4, k5, k6, k7, k8, k9, k10⟩ := h
  have hs := has_selection k1
  have hsel : ∀ t ∈ ["monolithic", "bouncing", "embracing"],
      select t [("monolithic", Algorithm.monolithic), ("bouncing", .bouncing), ("embracing", .embracing)] =
      .ok (specAlgorithm t) := by simp [select, specAlgorithm]
  have hb := has_selection k3
  have hbel : ∀ t ∈ ["microhard", "microfree", "microtraction"],
      select t [("microhard", GrainBC.microhard), ("microfree", .microfree), ("microtraction", .microtraction)] =
      .ok (if t = "microhard" then .microhard else if t = "microfree" then .microfree else .microtraction) := by
    simp [select]
  have ha : Meets (Solver.algorithms debug s ["6. Solver parameters"]
      (specAlgorithm (word s ["6. Solver parameters"] "Solution algorithm")))
      (AlgorithmOk debug s ["6. Solver parameters"]) ((specSolver s).mono, (specSolver s).stag) := by
    by_cases hw : word s ["6. Solver parameters"] "Solution algorithm" = "monolithic"
    · have : specAlgorithm (word s ["6. Solver parameters"] "Solution algorithm") = .monolithic := by
        simp [specAlgorithm, hw]
      rw [this]
      unfold Solver.algorithms
      refine meets_iff (meets_bind (mono_meets h2) (meets_pure _)) ?_ fun _ => ?_
      · simp [AlgorithmOk, hw]
      · simp [specSolver, hw]
    · have : specAlgorithm (word s ["6. Solver parameters"] "Solution algorithm") ≠ .monolithic := by
        simp only [specAlgorithm, if_neg hw]
        split <;> simp
      have h' : Solver.algorithms debug s ["6. Solver parameters"]
          (specAlgorithm (word s ["6. Solver parameters"] "Solution algorithm")) =
          (do let g ← Stag.parse s ["6. Solver parameters"]; return (.new, g)) := by
        revert this
        cases specAlgorithm (word s ["6. Solver parameters"] "Solution algorithm") <;> simp [Solver.algorithms]
      rw [h']
      refine meets_iff (meets_bind (stag_meets h3) (meets_pure _)) ?_ fun _ => ?_
      · simp [AlgorithmOk, hw]
      · simp [specSolver, hw]
  unfold Solver.parse
  refine meets_iff (meets_bind (laws_meets h1) (meets_ok hs.1 (meets_ok (hsel _ hs.2) (meets_bind ha
    (meets_bind (form_meets h4) (meets_ok (has_bool k2) (meets_ok hb.1 (meets_ok (hbel _ hb.2)
    (meets_ok (has_bool k4) (meets_ok (has_bool k5) (meets_ok (has_double k6) (meets_ok (has_bool k7)
    (meets_ok (has_bool k8) (meets_ok (has_bool k9) (meets_ok (has_bool k10) (meets_ok (has_text ho.1)
    (meets_pure _)))))))))))))))))  ?_ fun _ => rfl
  simp

theorem basic_meets {debug : Bool} {env : Env} {s : Store} (h : Valid Basic.declare s) :
    Meets (Basic.parse debug env s) (BasicOk debug env s) (specBasic env s) := by
  simp only [Basic.declare, valid_append, valid_cons, valid_nil, and_true] at h
  obtain ⟨⟨⟨⟨⟨⟨h1, h2⟩, h3⟩, h4⟩, h5⟩, h6⟩, h7⟩ := h
  have hsolver := solver_meets (debug := debug) h5 h4
  have hs : Meets (Spatial.parse s) (nat s ["1. Spatial discretization parameters"] "Spatial dimension" = 2 ∨
      nat s ["1. Spatial discretization parameters"] "Spatial dimension" = 3) (specBasic env s).spatial := by
    simp only [Spatial.declare, valid_cons, valid_nil, and_true] at h1
    obtain ⟨a1, a2, a3, a4, a5, a6⟩ := h1
    unfold Spatial.parse
    exact meets_iff (meets_ok (has_int a1) (meets_ok (has_int a5) (meets_ok (has_int a6) (meets_ok (has_int a4)
      (meets_ok (has_int a2) (meets_ok (has_bool a3) (meets_bind (meets_throw _) (meets_pure _))))))))
      (by simp) fun _ => rfl
  have ht : Meets (Temporal.parse debug s) (debug = true →
      num s ["2. Temporal discretization parameters"] "Start time" <
        num s ["2. Temporal discretization parameters"] "End time" ∧
      0 < num s ["2. Temporal discretization parameters"] "Time step size" ∧
      num s ["2. Temporal discretization parameters"] "Start time" +
        num s ["2. Temporal discretization parameters"] "Time step size" ≤
          num s ["2. Temporal discretization parameters"] "End time") (specBasic env s).temporal := by
    simp only [Temporal.declare, valid_cons, valid_nil, and_true] at h2
    obtain ⟨a1, a2, a3⟩ := h2
    have h0 := has_lower a1
    unfold Temporal.parse
    refine meets_iff (meets_ok (has_double a1) (meets_ok (has_double a2) (meets_ok (has_double a3)
      (meets_bind (meets_debug _ _) (meets_bind (meets_debug _ _) (meets_bind (meets_debug _ _)
      (meets_bind (meets_debug _ _) (meets_pure _)))))))) ?_ fun _ => rfl
    cases debug
    · simp
    · simpa using fun _ _ _ => h0
  have hi : Meets (Input.parse s) True ⟨word s ["3. Input parameters"] "Slip normals path name",
      word s ["3. Input parameters"] "Slip directions path name",
      word s ["3. Input parameters"] "Euler angles path name"⟩ := by
    simp only [Input.declare, valid_cons, valid_nil, and_true] at h3
    exact meets_ok (has_text h3.1) (meets_ok (has_text h3.2.1) (meets_ok (has_text h3.2.2) (meets_pure _)))
  have ho : Meets (Output.parse env s) (env.root = true →
      env.has (word s ["4. Output parameters"] "Graphical output directory" ++ "paraview/") = true ∨
      env.mkdir (word s ["4. Output parameters"] "Graphical output directory" ++ "paraview/") = true)
      (specBasic env s).output := by
    simp only [Output.declare, valid_cons, valid_nil, and_true] at h4
    obtain ⟨a1, a2, a3, a4, a5, a6, -⟩ := h4
    unfold Output.parse
    refine meets_ok (has_text a1) ?_
    by_cases hd : env.root = true ∧
        env.has (word s ["4. Output parameters"] "Graphical output directory" ++ "paraview/") = false ∧
        env.mkdir (word s ["4. Output parameters"] "Graphical output directory" ++ "paraview/") = false
    · simp only [if_pos hd]
      refine ⟨fun h => ?_, fun _ => ⟨.abort, rfl, trivial⟩⟩
      have := h hd.1
      simp [hd.2.1, hd.2.2] at this
    · simp only [if_neg hd]
      refine meets_iff (meets_ok (has_int a2) (meets_ok (has_int a3) (meets_ok (has_bool a4)
        (meets_ok (has_bool a6) (meets_ok (has_bool a5) (meets_pure _)))))) ?_ fun _ => rfl
      simp only [true_iff]
      intro hr
      by_contra hc
      rw [not_or, Bool.not_eq_true, Bool.not_eq_true] at hc
      exact hd ⟨hr, hc⟩
  have hh : Meets (Homog.parse s) True (specBasic env s).homogenization := by
    simp only [Homog.declare, valid_cons, valid_nil, and_true] at h6
    exact meets_ok (has_int h6.2) (meets_ok (has_bool h6.1) (meets_pure _))
  unfold Basic.parse
  refine meets_iff (meets_bind hs (meets_bind ht (meets_bind hi (meets_bind ho (meets_bind hsolver
    (meets_bind hh (meets_ok (has_bool h7) (meets_pure _)))))))) ?_ fun _ => ?_
  · simp [BasicOk]
  · have : (specBasic env s).input = specInput env s := rfl
    show Basic.mk _ _ _ _ _ _ _ = Basic.mk _ _ (specInput env s) _ _ _ _
    congr 1
    unfold Input.names specInput specBasic
    by_cases hc : nat s ["1. Spatial discretization parameters"] "Spatial dimension" = 3 ∧
        (∀ t ∈ [word s ["3. Input parameters"] "Slip normals path name",
          word s ["3. Input parameters"] "Slip directions path name",
          word s ["3. Input parameters"] "Euler angles path name"], env.has (t ++ "_3d.txt") = true)
    · dsimp only
      rw [if_pos hc, if_pos (by simpa using hc)]
    · dsimp only
      rw [if_neg hc, if_neg (by simpa using hc)]
      simp

theorem loading_meets {debug : Bool} {s : Store} (h : Valid Loading.declare s) :
    Meets (Loading.parse debug s) (LoadingOk debug s) (specLoading s) := by
  simp only [Loading.declare, valid_cons, valid_nil, and_true, List.cons_append, List.nil_append] at h
  obtain ⟨h1, h2, h3, m1, m2, c1, c2, c3, c4, c5, c6⟩ := h
  have hs := has_selection h1
  have hsel : ∀ t ∈ ["monotonic", "cyclic"], select t [("monotonic", Load.LoadingType.monotonic), ("cyclic", .cyclic)] =
      .ok (if t = "monotonic" then .monotonic else .cyclic) := by simp [select]
  unfold Loading.parse
  refine meets_iff (meets_ok (has_double m1) (meets_ok (has_int m2) (meets_ok (has_double c1) (meets_ok (has_int c2)
    (meets_ok (has_int c5) (meets_ok (has_double c3) (meets_ok (has_int c4) (meets_ok (has_bool c6) (meets_ok hs.1
    (meets_ok (hsel _ hs.2) (meets_ok (has_double h2) (meets_ok (has_double h3) (meets_bind (meets_debug _ _)
    (meets_bind (meets_debug _ _) (meets_bind (meets_debug _ _) (meets_pure _)))))))))))))))) ?_ fun _ => ?_
  · simp only [LoadingOk, monoPath, cyclicPath, loadPath]
    cases debug <;> simp
  · have e1 (b : Bool) (x : ℝ) : (if b = true then (1 : ℝ) else 2) * x = if b = true then x else x + x := by
      cases b <;> simp; ring
    have e2 (x y : ℝ) : x / 4 / y = x / (4 * y) := by rw [div_div]
    by_cases hw : word s ["2. Temporal discretization parameters", "Simple loading"] "Loading type" = "monotonic"
    · simp [specLoading, monoPath, cyclicPath, loadPath, hw, Temporal.new, e2]
    · simp [specLoading, monoPath, cyclicPath, loadPath, hw, Temporal.new, e1, e2]
      congr

theorem has_floor {s : Store} {p : List String} {n : String} {lo : ℤ} (h : Has s p n (.integer lo)) :
    ⌊num s p n⌋₊ = nat s p n := by
  obtain ⟨v, hv, ha⟩ := h
  cases v <;> simp_all [Pattern.accepts, num, nat]
  rw [← Int.floor_toNat, Int.floor_intCast]

theorem strip_meets {debug : Bool} {env : Env} {s : Store} (h : Valid Strip.declare s) :
    Meets (Strip.parse debug env s) (StripOk debug env s) (specStrip env s) := by
  simp only [Strip.declare, valid_append, valid_cons, valid_nil, and_true] at h
  obtain ⟨⟨h1, h2⟩, h3, h4, h5, h6⟩ := h
  have hs := has_selection h6
  have hsel : ∀ t ∈ ["load_control", "displacement_control"],
      select t [("load_control", Control.load), ("displacement_control", .displacement)] =
      .ok (if t = "load_control" then .load else .displacement) := by simp [select]
  unfold Strip.parse
  refine meets_iff (meets_bind (basic_meets h1) (meets_bind (loading_meets h2) (meets_ok (has_double h3)
    (meets_ok (has_double_int h4) (meets_ok (has_double_int h5) (meets_bind (meets_throw _) (meets_ok hs.1
    (meets_ok (hsel _ hs.2) (meets_pure _))))))))) ?_ fun _ => ?_
  · simp [StripOk, stripPath]
  · rw [has_floor h4, has_floor h5]; rfl

theorem extension_msh (p : String) :
    extension p = some ['m', 's', 'h'] ↔ ∃ l, p.toList = l ++ ['.', 'm', 's', 'h'] := by
  have key : ∀ r : List Char, '.' ∈ r → r.takeWhile (· ≠ '.') = ['h', 's', 'm'] →
      ∃ l, r = 'h' :: 's' :: 'm' :: '.' :: l := by
    intro r hd h
    match r with
    | [] => simp at hd
    | [a] => by_cases ha : a = '.' <;> simp_all [List.takeWhile]
    | [a, b] =>
      by_cases ha : a = '.' <;> by_cases hb : b = '.' <;> simp_all [List.takeWhile]
    | [a, b, c] =>
      by_cases ha : a = '.' <;> by_cases hb : b = '.' <;> by_cases hc : c = '.' <;> simp_all [List.takeWhile]
    | a :: b :: c :: d :: l =>
      by_cases ha : a = '.' <;> by_cases hb : b = '.' <;> by_cases hc : c = '.' <;> by_cases hd : d = '.' <;>
        simp_all [List.takeWhile]
  unfold extension
  generalize p.toList = q
  constructor
  · intro h
    split at h
    · rename_i hd
      have h1 : (q.reverse.takeWhile (· ≠ '.')) = ['h', 's', 'm'] := by
        have := Option.some.inj h
        rw [← List.reverse_inj, List.reverse_reverse] at this
        simpa using this
      obtain ⟨l, hl⟩ := key q.reverse (by simpa using hd) h1
      refine ⟨l.reverse, ?_⟩
      rw [← List.reverse_inj, hl]
      simp
    · simp at h
  · rintro ⟨l, rfl⟩
    rw [if_pos (by simp)]
    simp [List.takeWhile]

theorem semi_meets {debug : Bool} {env : Env} {s : Store} (h : Valid Semi.declare s) :
    Meets (Semi.parse debug env s) (SemiOk debug env s) (specSemi env s) := by
  simp only [Semi.declare, valid_append, valid_cons, valid_nil, and_true] at h
  obtain ⟨h0, h1, h2, h3, h4, h5, h6, h7, h8⟩ := h
  unfold Semi.parse
  refine meets_iff (meets_bind (basic_meets h0) (meets_ok (has_double h1) (meets_ok (has_double h2)
    (meets_ok (has_double h3) (meets_ok (has_double h4) (meets_ok (has_double h5) (meets_ok (has_double h6)
    (meets_ok (has_text h8) (meets_ok (has_double h7) (meets_bind (meets_debug _ _) (meets_bind (meets_debug _ _)
    (meets_pure _)))))))))))) ?_ fun _ => rfl
  simp only [SemiOk, extension_msh]
  cases debug <;> simp

/-! ## C91: reading a parameter file -/

/-- Every line of the file names a declared entry and gives it a value of its type and in its range. -/
def WellFormed (d : List Entry) (f : List Line) : Prop :=
  ∀ l ∈ f, ∃ e ∈ d, e.path = l.path ∧ e.name = l.name ∧ e.pattern.accepts l.value

theorem load_some (d : List Entry) (hd : (d.map key).Nodup) (f : List Line) (hf : WellFormed d f) :
    ∀ s, ∃ s', load d f s = some s' := by
  induction f with
  | nil => exact fun s => ⟨s, rfl⟩
  | cons l f ih =>
    intro s
    obtain ⟨e, he, hp, hn, ha⟩ := hf l (by simp)
    rw [load]
    have hfind := find_key hd he
    rw [hp, hn] at hfind
    have : (d.find? fun e => decide (e.path = l.path ∧ e.name = l.name)) = some e := hfind
    simp only [this, if_pos ha]
    exact ih (fun x hx => hf x (by simp [hx])) _

theorem load_none (d : List Entry) (f : List Line) (s s' : Store) (h : load d f s = some s') :
    WellFormed d f := by
  induction f generalizing s with
  | nil => simp [WellFormed]
  | cons l f ih =>
    rw [load] at h
    split at h
    · simp at h
    · rename_i e he
      split at h
      · rename_i ha
        intro x hx
        rcases List.mem_cons.1 hx with rfl | hx
        · have := List.find?_some he
          simp only [decide_eq_true_eq] at this
          exact ⟨e, List.mem_of_find?_eq_some he, this.1, this.2, ha⟩
        · exact ih _ h x hx
      · simp at h

theorem load_spec (d : List Entry) (hd : (d.map key).Nodup) (f : List Line) (hf : WellFormed d f) :
    load d f (initial d) = some (SpecValue d f) := by
  obtain ⟨s, hs⟩ := load_some d hd f hf (initial d)
  rw [hs]
  congr 1
  funext p n
  exact C91_value d f s hs p n

theorem spec_valid (d : List Entry) (hd : (d.map key).Nodup) (ha : ∀ e ∈ d, e.pattern.accepts e.dflt)
    (f : List Line) (hf : WellFormed d f) : Valid d (SpecValue d f) :=
  load_valid d hd f _ _ (initial_valid d hd ha) (load_spec d hd f hf)

/-- A file of the strip problem is refused by the parameter handler exactly if some line of it names no entry of
the problem or gives a value of the wrong type or out of range. -/
theorem C91_refused (debug : Bool) (env : Env) (f : List Line) :
    Strip.read debug env f = none ↔ ¬ WellFormed Strip.declare f := by
  unfold Strip.read
  constructor
  · intro h hf
    rw [load_spec _ strip_nodup f hf] at h
    simp at h
  · intro h
    cases hl : load Strip.declare f (initial Strip.declare) with
    | none => rfl
    | some s => exact absurd (load_none _ _ _ _ hl) h

/-- Otherwise it is read without any internal error (an entry not declared, a failing conversion, an identifier
not expected): it is accepted exactly under the conditions `StripOk` on the values of the file, and then every
parameter has the value the file gives, or else its default. -/
theorem C91_read (debug : Bool) (env : Env) (f : List Line) (hf : WellFormed Strip.declare f) :
    ∃ x, Strip.read debug env f = some x ∧
      Meets x (StripOk debug env (SpecValue Strip.declare f)) (specStrip env (SpecValue Strip.declare f)) :=
  ⟨_, by rw [Strip.read, load_spec _ strip_nodup f hf]; rfl,
    strip_meets (spec_valid _ strip_nodup strip_defaults f hf)⟩

/-- The same for the semi-coupled problem. -/
theorem C91_semi_refused (debug : Bool) (env : Env) (f : List Line) :
    Semi.read debug env f = none ↔ ¬ WellFormed Semi.declare f := by
  unfold Semi.read
  constructor
  · intro h hf
    rw [load_spec _ semi_nodup f hf] at h
    simp at h
  · intro h
    cases hl : load Semi.declare f (initial Semi.declare) with
    | none => rfl
    | some s => exact absurd (load_none _ _ _ _ hl) h

/-- The same for the semi-coupled problem. -/
theorem C91_semi_read (debug : Bool) (env : Env) (f : List Line) (hf : WellFormed Semi.declare f) :
    ∃ x, Semi.read debug env f = some x ∧
      Meets x (SemiOk debug env (SpecValue Semi.declare f)) (specSemi env (SpecValue Semi.declare f)) :=
  ⟨_, by rw [Semi.read, load_spec _ semi_nodup f hf]; rfl,
    semi_meets (spec_valid _ semi_nodup semi_defaults f hf)⟩

/-- Ranges of the constitutive laws. -/
def LawsIn (l : Laws) : Prop :=
  (0 < l.hooke.c1111 ∧ 0 < l.hooke.c1122 ∧ 0 < l.hooke.c1212) ∧
  0 < l.scalar.parameter ∧ 0 < l.vectorial.parameter ∧ 1 ≤ l.vectorial.index ∧
  (0 ≤ l.vectorial.lengthScale ∧ 0 ≤ l.vectorial.resistance) ∧ 0 ≤ l.microtraction ∧
  (0 ≤ l.cohesive.traction ∧ 0 ≤ l.cohesive.opening ∧ 0 ≤ l.cohesive.ratio) ∧ 0 ≤ l.contact ∧
  (0 ≤ l.hardening.resistance ∧ 0 ≤ l.hardening.modulus ∧ 0 ≤ l.hardening.parameter) ∧ 0 ≤ l.degradation ∧
  (0 ≤ l.damage.accumulation ∧ 0 ≤ l.damage.decay ∧ 0 ≤ l.damage.decayExponent ∧ 0 ≤ l.damage.endurance)

/-- Ranges of the parameters of a nonlinear solver. -/
def NonlinearIn (n : Nonlinear) : Prop :=
  (0 < n.krylov.absolute ∧ n.krylov.absolute < n.krylov.relative ∧ 1 ≤ n.krylov.iterations) ∧
  (0 < n.newton.absolute ∧ n.newton.absolute < n.newton.relative ∧ 0 ≤ n.newton.step ∧ 1 ≤ n.newton.iterations) ∧
  (0 < n.line.alpha ∧ n.line.alpha < n.line.beta ∧ n.line.beta < 1)

/-- Ranges of the solver's parameters. -/
def SolverIn (v : Solver) : Prop :=
  LawsIn v.laws ∧ NonlinearIn v.mono.solver ∧ NonlinearIn v.stag.momentum ∧ NonlinearIn v.stag.pseudo ∧
  2 ≤ v.stag.loops ∧ 0 ≤ v.extrapolationFactor

/-- Ranges of the parameters of a problem. -/
def BasicIn (r : Basic) : Prop :=
  (r.spatial.dim = 2 ∨ r.spatial.dim = 3) ∧ 1 ≤ r.spatial.degreeU ∧ 1 ≤ r.spatial.degreeSlips ∧
  1 ≤ r.spatial.mappingDegree ∧ 0 ≤ r.temporal.start ∧ 0 ≤ r.temporal.fin ∧ 0 ≤ r.temporal.step ∧ SolverIn r.solver

/-- Ranges of the loading programme. -/
def LoadingIn (l : Loading) : Prop :=
  0 ≤ l.minLoad ∧ 0 ≤ l.maxLoad ∧ 0 ≤ l.durMono ∧ 0 ≤ l.durLoad ∧ 0 ≤ l.period ∧ 1 ≤ l.nMono ∧ 1 ≤ l.nLoad ∧
  1 ≤ l.nQuarter ∧ l.base.start = 0 ∧ 0 ≤ l.base.fin

theorem laws_in {debug : Bool} {s : Store} {q : List String} (h : Valid (Laws.declare q) s)
    (ho : LawsOk debug s (q ++ ["Constitutive laws' parameters"])) :
    LawsIn (specLaws s (q ++ ["Constitutive laws' parameters"])) := by
  simp only [Laws.declare, Vectorial.declare, Cohesive.declare, Hardening.declare, Damage.declare, valid_append,
    valid_cons, valid_nil, and_true] at h
  obtain ⟨⟨⟨⟨⟨⟨⟨-, -⟩, v1, v2, v3, -⟩, g⟩, -, c1, c2, c3⟩, p, d⟩, k1, k2, k3, -⟩, -, e1, e2, e3, e4, -⟩ := h
  exact ⟨ho.1, ho.2.1, ho.2.2.1, has_lower v3, ⟨has_lower v1, has_lower v2⟩, has_lower g,
    ⟨has_lower c1, has_lower c2, has_lower c3⟩, has_lower p, ⟨has_lower k1, has_lower k2, has_lower k3⟩,
    has_lower d, ⟨has_lower e1, has_lower e2, has_lower e3, has_lower e4⟩⟩

theorem nonlinear_in {s : Store} {p : List String} (h : Valid (Nonlinear.declare p) s) (ho : NonlinearOk s p) :
    NonlinearIn (specNonlinear s p) := by
  simp only [Nonlinear.declare, Newton.declare, LineSearch.declare, Krylov.declare, valid_append, valid_cons,
    valid_nil, and_true] at h
  obtain ⟨⟨⟨a1, a2, a3, a4, a5⟩, b1, b2, b3⟩, c1, c2, c3, c4⟩ := h
  exact ⟨⟨ho.1.1, ho.1.2, has_int_lower c4⟩, ⟨ho.2.1.1, ho.2.1.2, has_lower a3, has_int_lower a4⟩, ho.2.2⟩

theorem nonlinear_new : NonlinearIn Nonlinear.new := by
  unfold NonlinearIn Nonlinear.new Krylov.new Newton.new LineSearch.new
  norm_num

theorem basic_in {debug : Bool} {env : Env} {s : Store} (h : Valid Basic.declare s) (ho : BasicOk debug env s) :
    BasicIn (specBasic env s) := by
  simp only [Basic.declare, Spatial.declare, Temporal.declare, Solver.declare, Mono.declare, Stag.declare,
    valid_append, valid_cons, valid_nil, and_true] at h
  obtain ⟨⟨⟨⟨⟨⟨h1, h2⟩, h3⟩, h4⟩, ⟨⟨⟨⟨l, m, -⟩, ⟨g1, g2⟩, g3, -⟩, -⟩, k⟩⟩, h6⟩, h7⟩ := h
  refine ⟨ho.1, has_int_lower h1.2.2.2.2.1, has_int_lower h1.2.2.2.2.2, has_int_lower h1.2.1, has_lower h2.1,
    has_lower h2.2.1, has_lower h2.2.2, laws_in l ho.2.2.2.1, ?_, ?_, ?_, ?_, has_lower k.2.2.2.2.2.1⟩
  all_goals
    by_cases hw : word s ["6. Solver parameters"] "Solution algorithm" = "monolithic"
    · simp only [specBasic, specSolver, if_pos hw]
      first
        | exact nonlinear_in m (ho.2.2.2.2.1 hw).1
        | exact nonlinear_new
        | exact (by norm_num [Stag.new])
    · simp only [specBasic, specSolver, if_neg hw]
      first
        | exact nonlinear_new
        | exact nonlinear_in g1 (ho.2.2.2.2.2 hw).1
        | exact nonlinear_in g2 (ho.2.2.2.2.2 hw).2
        | exact has_int_lower g3

/-- The parameters of an accepted file of the strip problem are in their ranges, in debug and release builds. -/
theorem C91_ranges (debug : Bool) (env : Env) (f : List Line) (r : Strip)
    (h : Strip.read debug env f = some (.ok r)) :
    BasicIn r.basic ∧ LoadingIn r.loading ∧ 0 < r.height ∧ 1 ≤ r.elements ∧ 1 ≤ r.crystals := by
  have hf : WellFormed Strip.declare f := by
    by_contra hf
    rw [(C91_refused debug env f).2 hf] at h
    simp at h
  obtain ⟨x, hx, hm⟩ := C91_read debug env f hf
  rw [hx] at h
  have hv := spec_valid _ strip_nodup strip_defaults f hf
  generalize SpecValue Strip.declare f = s at hm hv
  have ho : StripOk debug env s := by
    by_contra hc
    obtain ⟨e, he, -⟩ := hm.2 hc
    rw [he] at h
    simp at h
  have hr : r = specStrip env s := by
    rw [hm.1 ho] at h
    simpa using h.symm
  subst hr
  simp only [Strip.declare, Loading.declare, valid_append, valid_cons, valid_nil, and_true, List.cons_append,
    List.nil_append] at hv
  obtain ⟨⟨h1, h2⟩, h3, h4, h5, h6⟩ := hv
  obtain ⟨-, l2, l3, m1, m2, c1, c2, c3, c4, c5, c6⟩ := h2
  refine ⟨basic_in h1 ho.1, ⟨has_lower l3, has_lower l2, has_lower m1, has_lower c1, has_lower c3, has_int_lower m2,
    has_int_lower c2, has_int_lower c4, rfl, ?_⟩, ho.2.2, has_int_lower h4, has_int_lower h5⟩
  have q1 := has_lower m1
  have q2 := has_lower c1
  have q3 := has_lower c3
  have q4 : 0 ≤ ((nat s cyclicPath "Number of cycles" : ℕ) : ℝ) * num s cyclicPath "Period" :=
    mul_nonneg (Nat.cast_nonneg _) q3
  show 0 ≤ (specLoading s).base.fin
  simp only [specLoading]
  split
  · exact q1
  · split
    · exact add_nonneg q2 q4
    · exact add_nonneg (add_nonneg q2 q2) q4

/-- A debug build accepts no file a release build does not accept, and gives the same parameters. -/
theorem C91_builds (env : Env) (f : List Line) (r : Strip) (h : Strip.read true env f = some (.ok r)) :
    Strip.read false env f = some (.ok r) := by
  have hf : WellFormed Strip.declare f := by
    by_contra hf
    rw [(C91_refused true env f).2 hf] at h
    simp at h
  obtain ⟨x, hx, hm⟩ := C91_read true env f hf
  obtain ⟨x', hx', hm'⟩ := C91_read false env f hf
  rw [hx] at h
  generalize SpecValue Strip.declare f = s at hm hm'
  have ho : StripOk true env s := by
    by_contra hc
    obtain ⟨e, he, -⟩ := hm.2 hc
    rw [he] at h
    simp at h
  have ho' : StripOk false env s := by
    obtain ⟨⟨b1, b2, b3, b4, b5⟩, -, b7⟩ := ho
    refine ⟨⟨b1, by simp, b3, ⟨b4.1, b4.2.1, b4.2.2.1, by simp⟩, ?_⟩, by simp [LoadingOk], b7⟩
    exact ⟨fun hw => ⟨(b5.1 hw).1, by simp⟩, b5.2⟩
  rw [hx', hm'.1 ho']
  rw [hm.1 ho] at h
  exact h

end Verif.Ini
