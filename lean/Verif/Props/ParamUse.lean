import Verif.Props.ParamFile

/-!
# Defaults, copies and effect of the parameter file (C92, C93)
-/

namespace Verif.Ini

/-! ## C92: template, defaults and copy -/

/-- All entries have their defaults. -/
def Defaults (d : List Entry) (s : Store) : Prop := ∀ e ∈ d, s e.path e.name = some e.dflt

theorem defaults_nil (s : Store) : Defaults [] s := by simp [Defaults]

theorem defaults_cons (e : Entry) (d : List Entry) (s : Store) :
    Defaults (e :: d) s ↔ s e.path e.name = some e.dflt ∧ Defaults d s := by simp [Defaults]

theorem defaults_append (d d' : List Entry) (s : Store) :
    Defaults (d ++ d') s ↔ Defaults d s ∧ Defaults d' s := by
  simp [Defaults, or_imp, forall_and]

theorem defaults_spec (d : List Entry) (hd : (d.map key).Nodup) : Defaults d (SpecValue d []) := by
  intro e he
  have := find_key hd he
  show (List.find? (fun x => decide (x.path = e.path ∧ x.name = e.name)) d).map Entry.dflt = _
  rw [this]; rfl

theorem laws_default {q : List String} {s : Store} (h : Defaults (Laws.declare q) s) :
    specLaws s (q ++ ["Constitutive laws' parameters"]) =
      { Laws.new with damage := { Damage.new with coupleMacro := false } } := by
  simp only [Laws.declare, Hooke.declare, Scalar.declare, Vectorial.declare, Cohesive.declare, Hardening.declare,
    Damage.declare, defaults_cons, defaults_nil, and_true, List.append_assoc, List.cons_append, List.nil_append] at h
  simp [specLaws, specHooke, specScalar, specVectorial, specCohesive, specHardening, specDamage, num, flag, word,
    specReg, h, Laws.new, Hooke.new, Scalar.new, Vectorial.new, Cohesive.new, Hardening.new, Damage.new]

theorem nonlinear_default {q : List String} {s : Store} (h : Defaults (Nonlinear.declare q) s) :
    specNonlinear s q = Nonlinear.new := by
  simp only [Nonlinear.declare, Newton.declare, LineSearch.declare, Krylov.declare, defaults_cons,
    defaults_nil, and_true, List.cons_append, List.nil_append] at h
  simp [specNonlinear, num, nat, flag, word, h, Nonlinear.new, Newton.new, LineSearch.new, Krylov.new]

theorem solver_default {s : Store} (h : Defaults Solver.declare s) (ho : Defaults Output.declare s) :
    specSolver s = { Solver.new with
      laws := { Laws.new with damage := { Damage.new with coupleMacro := false } } } := by
  simp only [Solver.declare, Mono.declare, Stag.declare, Form.declare, Output.declare, defaults_append, defaults_cons,
    defaults_nil, and_true] at h ho
  obtain ⟨⟨⟨⟨l, m, m'⟩, -⟩, f⟩, k⟩ := h
  simp only [List.cons_append, List.nil_append] at f m'
  simp only [specSolver, laws_default l, nonlinear_default m]
  simp [word, flag, num, specForm, specAlgorithm, k, ho, f, m', Solver.new, Mono.new, Form.new, Prm.CharQ.one]

/-- What the entries' defaults give. -/
noncomputable def basicDefault : Basic :=
  { Basic.new with
    verbose := false
    temporal := { Temporal.new with step := 0.1 }
    solver := { Solver.new with laws := { Laws.new with damage := { Damage.new with coupleMacro := false } } } }

theorem basic_default {env : Env} {s : Store} (h : Defaults Basic.declare s) :
    specBasic env s = basicDefault := by
  simp only [Basic.declare, defaults_append] at h
  obtain ⟨⟨⟨⟨⟨⟨h1, h2⟩, h3⟩, h4⟩, h5⟩, h6⟩, h7⟩ := h
  have hs := solver_default h5 h4
  simp only [Spatial.declare, Temporal.declare, Input.declare, Output.declare, Homog.declare, defaults_cons,
    defaults_nil, and_true] at h1 h2 h3 h4 h6 h7
  simp only [specBasic, hs, specInput]
  simp [word, flag, num, nat, h1, h2, h3, h4, h6, h7, basicDefault, Basic.new, Spatial.new, Temporal.new, Input.new,
    Output.new, Homog.new]

theorem loading_default {s : Store} (h : Defaults Loading.declare s) :
    specLoading s = { Loading.new with
      maxLoad := 1, startCyclic := some 1, startUnloading := some 2 } := by
  simp only [Loading.declare, List.cons_append, List.nil_append, defaults_cons, defaults_nil, and_true] at h
  simp [specLoading, loadPath, monoPath, cyclicPath, word, flag, num, nat, h, Loading.new, Temporal.new]
  norm_num

/-- What the entries' defaults give for the strip problem. -/
noncomputable def stripDefault : Strip :=
  { Strip.new with
    basic := basicDefault
    loading := { Loading.new with maxLoad := 1, startCyclic := some 1, startUnloading := some 2 } }

theorem strip_default {env : Env} {s : Store} (h : Defaults Strip.declare s) : specStrip env s = stripDefault := by
  simp only [Strip.declare, defaults_append, defaults_cons, defaults_nil, and_true] at h
  obtain ⟨⟨h1, h2⟩, h3, h4, h5, h6⟩ := h
  simp only [specStrip, basic_default h1, loading_default h2]
  simp [stripPath, controlPath, num, nat, word, h3, h4, h5, h6, stripDefault, Strip.new]

theorem basic_default_ok {debug : Bool} {env : Env} {s : Store} (h : Defaults Basic.declare s)
    (he : env.root = true → env.has "results/default/paraview/" = true ∨ env.mkdir "results/default/paraview/" = true) :
    BasicOk debug env s := by
  simp only [Basic.declare, defaults_append, defaults_cons, defaults_nil, and_true] at h
  obtain ⟨⟨⟨⟨⟨⟨h1, h2⟩, h3⟩, h4⟩, h5⟩, h6⟩, h7⟩ := h
  simp only [Spatial.declare, Temporal.declare, Output.declare, Solver.declare, Mono.declare, Stag.declare,
    Form.declare, defaults_append, defaults_cons, defaults_nil, and_true] at h1 h2 h4 h5
  obtain ⟨⟨⟨⟨l, m, m'⟩, -⟩, f⟩, k⟩ := h5
  simp only [Laws.declare, Hooke.declare, Scalar.declare, Vectorial.declare, Hardening.declare, Nonlinear.declare,
    Newton.declare, LineSearch.declare, Krylov.declare, defaults_append, defaults_cons, defaults_nil, and_true] at l m
  refine ⟨?_, ?_, ?_, ?_, ?_⟩
  · simp [nat, h1]
  · simp only [num, h2]; norm_num
  · simpa [word, h4] using he
  · simp only [LawsOk, HookeOk, num, l]; norm_num
  · simp only [AlgorithmOk, NonlinearOk, num, word, k, m, m']; norm_num

theorem strip_default_ok {debug : Bool} {env : Env} {s : Store} (h : Defaults Strip.declare s)
    (he : env.root = true → env.has "results/default/paraview/" = true ∨ env.mkdir "results/default/paraview/" = true) :
    StripOk debug env s := by
  simp only [Strip.declare, Loading.declare, defaults_append, defaults_cons, defaults_nil, and_true,
    List.cons_append, List.nil_append] at h
  obtain ⟨⟨hb, hl⟩, g1, -⟩ := h
  refine ⟨basic_default_ok hb he, ?_, ?_⟩
  · simp only [LoadingOk, monoPath, cyclicPath, loadPath, num, hl]; norm_num
  · simp [stripPath, num, g1]

/-- A copy of the file, as printed by `print_parameters`, gives every entry the value it has. -/
theorem printed_value (d : List Entry) (s : Store) (hs : Valid d s)
    (hn : ∀ p n, (∀ e ∈ d, ¬ (e.path = p ∧ e.name = n)) → s p n = none) : SpecValue d (printed d s) = s := by
  funext p n
  have hmem : ∀ l ∈ printed d s, s l.path l.name = some l.value := by
    intro l hl
    simp only [printed, List.mem_filterMap, Option.map_eq_some_iff] at hl
    obtain ⟨e, -, v, hv, rfl⟩ := hl
    exact hv
  unfold SpecValue
  cases hf : (printed d s).reverse.find? (fun l => decide (l.path = p ∧ l.name = n)) with
  | some l =>
    have h1 := List.find?_some hf
    simp only [decide_eq_true_eq] at h1
    have h2 := hmem l (by simpa using List.mem_of_find?_eq_some hf)
    rw [h1.1, h1.2] at h2
    exact h2.symm
  | none =>
    have hnot : ∀ e ∈ d, ¬ (e.path = p ∧ e.name = n) := by
      rintro e he ⟨rfl, rfl⟩
      obtain ⟨v, hv, -⟩ := hs e he
      rw [List.find?_eq_none] at hf
      have := hf ⟨e.path, e.name, v⟩ (by
        simp only [List.mem_reverse, printed, List.mem_filterMap, Option.map_eq_some_iff]
        exact ⟨e, he, v, hv, rfl⟩)
      simp at this
    have h0 : (d.find? fun e => decide (e.path = p ∧ e.name = n)) = none := by
      rw [List.find?_eq_none]
      intro e he
      simpa using hnot e he
    rw [hn p n hnot]
    show Option.map Entry.dflt (d.find? fun e => decide (e.path = p ∧ e.name = n)) = none
    rw [h0]; rfl

theorem printed_wellFormed (d : List Entry) (s : Store) (hs : Valid d s) : WellFormed d (printed d s) := by
  intro l hl
  simp only [printed, List.mem_filterMap, Option.map_eq_some_iff] at hl
  obtain ⟨e, he, v, hv, rfl⟩ := hl
  obtain ⟨v', hv', ha⟩ := hs e he
  rw [hv] at hv'
  cases hv'
  exact ⟨e, he, rfl, rfl, ha⟩

theorem spec_undeclared (d : List Entry) (f : List Line) (hf : WellFormed d f) (p : List String) (n : String)
    (h : ∀ e ∈ d, ¬ (e.path = p ∧ e.name = n)) : SpecValue d f p n = none := by
  unfold SpecValue
  have h1 : f.reverse.find? (fun l => decide (l.path = p ∧ l.name = n)) = none := by
    rw [List.find?_eq_none]
    intro l hl
    obtain ⟨e, he, hp, hn, -⟩ := hf l (by simpa using hl)
    have := h e he
    rw [hp, hn] at this
    simpa using this
  have h0 : (d.find? fun e => decide (e.path = p ∧ e.name = n)) = none := by
    rw [List.find?_eq_none]
    intro e he
    simpa using h e he
  rw [h1]
  show Option.map Entry.dflt (d.find? fun e => decide (e.path = p ∧ e.name = n)) = none
  rw [h0]; rfl

/-- The copy of the parameter file in the output directory: reading it again is reading the file, for every file
the parameter handler takes; it states the value of every entry. -/
theorem C92_copy (debug : Bool) (env : Env) (f : List Line) (hf : WellFormed Strip.declare f) :
    Strip.read debug env (printed Strip.declare (SpecValue Strip.declare f)) = Strip.read debug env f ∧
    ∀ e ∈ Strip.declare, ∃ l ∈ printed Strip.declare (SpecValue Strip.declare f),
      l.path = e.path ∧ l.name = e.name ∧ SpecValue Strip.declare f e.path e.name = some l.value := by
  have hv := spec_valid _ strip_nodup strip_defaults f hf
  constructor
  · unfold Strip.read
    rw [load_spec _ strip_nodup f hf, load_spec _ strip_nodup _ (printed_wellFormed _ _ hv),
      printed_value _ _ hv (spec_undeclared _ f hf)]
  · intro e he
    obtain ⟨v, h, -⟩ := hv e he
    exact ⟨⟨e.path, e.name, v⟩, by
      simp only [printed, List.mem_filterMap, Option.map_eq_some_iff]; exact ⟨e, he, v, h, rfl⟩, rfl, rfl, h⟩

/-- The same for the semi-coupled problem. -/
theorem C92_semi_copy (debug : Bool) (env : Env) (f : List Line) (hf : WellFormed Semi.declare f) :
    Semi.read debug env (printed Semi.declare (SpecValue Semi.declare f)) = Semi.read debug env f := by
  have hv := spec_valid _ semi_nodup semi_defaults f hf
  unfold Semi.read
  rw [load_spec _ semi_nodup f hf, load_spec _ semi_nodup _ (printed_wellFormed _ _ hv),
    printed_value _ _ hv (spec_undeclared _ f hf)]

theorem strip_empty (debug : Bool) (env : Env)
    (he : env.root = true → env.has "results/default/paraview/" = true ∨ env.mkdir "results/default/paraview/" = true) :
    Strip.read debug env [] = some (.ok stripDefault) := by
  obtain ⟨x, hx, hm⟩ := C91_read debug env [] (by simp [WellFormed])
  have hd := defaults_spec _ strip_nodup
  rw [hx, hm.1 (strip_default_ok hd he), strip_default hd]

/-- The file of defaults, which the program writes if it finds no parameter file, is accepted by debug and release
builds (on a machine where the default output directory can be created); it gives the same parameters as an empty
file. -/
theorem C92_template (debug : Bool) (env : Env)
    (he : env.root = true → env.has "results/default/paraview/" = true ∨ env.mkdir "results/default/paraview/" = true) :
    Strip.read debug env (printed Strip.declare (initial Strip.declare)) = some (.ok stripDefault) ∧
    Strip.read debug env [] = some (.ok stripDefault) := by
  have h0 : SpecValue Strip.declare [] = initial Strip.declare := by
    funext p n
    exact (C91_value _ [] _ rfl p n).symm
  have := (C92_copy debug env [] (by simp [WellFormed])).1
  rw [h0] at this
  exact ⟨this.trans (strip_empty debug env he), strip_empty debug env he⟩

/-- What the entries' defaults give for the semi-coupled problem. -/
noncomputable def semiDefault : Semi :=
  ⟨basicDefault, 0, 0, 0, 0, 0, 0.01, 0.5, "input/mesh/periodic_polycrystal.msh"⟩

/-- The same for the semi-coupled problem; here default constructor and file disagree on five of the six strain
components. -/
theorem C92_semi_template (debug : Bool) (env : Env)
    (he : env.root = true → env.has "results/default/paraview/" = true ∨ env.mkdir "results/default/paraview/" = true) :
    Semi.read debug env (printed Semi.declare (initial Semi.declare)) = some (.ok semiDefault) ∧
    Semi.read debug env [] = some (.ok semiDefault) ∧
    semiDefault = { Semi.new with basic := basicDefault, e11 := 0, e22 := 0, e33 := 0, e23 := 0, e13 := 0 } := by
  have h1 : Semi.read debug env [] = some (.ok semiDefault) := by
    obtain ⟨x, hx, hm⟩ := C91_semi_read debug env [] (by simp [WellFormed])
    have hd := defaults_spec _ semi_nodup
    generalize SpecValue Semi.declare [] = s at hm hd
    simp only [Semi.declare, defaults_append, defaults_cons, defaults_nil, and_true] at hd
    obtain ⟨hb, d⟩ := hd
    have ho : SemiOk debug env s := by
      refine ⟨basic_default_ok hb he, fun _ => ⟨?_, ?_⟩⟩
      · simp only [num, d]; norm_num
      · refine ⟨"input/mesh/periodic_polycrystal".toList, ?_⟩
        simp only [word, d]
        rfl
    rw [hx, hm.1 ho, specSemi, basic_default hb]
    simp [num, word, d, semiDefault]
  have h0 : SpecValue Semi.declare [] = initial Semi.declare := by
    funext p n
    exact (C91_value _ [] _ rfl p n).symm
  have := C92_semi_copy debug env [] (by simp [WellFormed])
  rw [h0] at this
  exact ⟨this.trans h1, h1, rfl⟩

/-- The parameters without a file (the default constructor) and with an empty file agree except for these. -/
theorem C92_defaults_partial : stripDefault = { Strip.new with
    basic := { Basic.new with
      verbose := false
      temporal := { Temporal.new with step := 0.1 }
      solver := { Solver.new with laws := { Laws.new with damage := { Damage.new with coupleMacro := false } } } }
    loading := { Loading.new with maxLoad := 1, startCyclic := some 1, startUnloading := some 2 } } := rfl

/-- Default constructor and default of the file disagree: verbosity, time step size, coupling of the macroscopic
traction to damage, maximum load (fifty times as large in the file), and two times the constructor leaves
uninitialised. -/
theorem C92_violated_defaults :
    (stripDefault.basic.verbose = false ∧ Strip.new.basic.verbose = true) ∧
    (stripDefault.basic.temporal.step = 1 / 10 ∧ Strip.new.basic.temporal.step = 1 / 4) ∧
    (stripDefault.basic.solver.laws.damage.coupleMacro = false ∧
      Strip.new.basic.solver.laws.damage.coupleMacro = true) ∧
    (stripDefault.loading.maxLoad = 50 * Strip.new.loading.maxLoad ∧ Strip.new.loading.maxLoad = 1 / 50) ∧
    stripDefault.loading.startCyclic = some 1 ∧ Strip.new.loading.startCyclic = none := by
  refine ⟨⟨rfl, rfl⟩, ⟨?_, ?_⟩, ⟨rfl, rfl⟩, ⟨?_, ?_⟩, rfl, rfl⟩ <;>
    norm_num [stripDefault, basicDefault, Strip.new, Basic.new, Temporal.new, Loading.new]

/-! ## C93: entries without effect -/

/-- The entries of the file of the strip problem that change nothing: time interval and step, control type, relative
and step tolerances of the Newton solvers, reference time, extrapolation at extrema, damage evolution during un- and
loading, mapping of interior cells, terminal output, checkpoints, and the choice among one cohesive law. -/
def ignored : List (List String × String) :=
  let t := ["2. Temporal discretization parameters"]
  let v := ["6. Solver parameters"]
  let newton (q : List String) : List (List String × String) :=
    [(v ++ q ++ ["Newton-Raphson parameters"], "Relative tolerance of the residual"),
     (v ++ q ++ ["Newton-Raphson parameters"], "Absolute tolerance of the step")]
  [(t, "Start time"), (t, "End time"), (t, "Time step size"),
   (["0. Infinite strip parameters (Extended in 1. and 2.)", "Loading parameters"], "Control type"),
   (v ++ ["Dimensionless formulation parameters", "Reference parameters"], "Reference time value"),
   (v ++ ["Constitutive laws' parameters", "Cohesive law's parameters"], "Cohesive law model"),
   (v, "Skip extrapolation of start value at extrema"), (v, "Zero damage evolution during un- and loading"),
   (["1. Spatial discretization parameters"], "Mapping - Apply to interior cells"),
   (["4. Output parameters"], "Terminal output frequency"), (["4. Output parameters"], "Store checkpoints")] ++
  newton ["Monolithic algorithm"] ++ newton ["Staggered algorithm", "Linear momentum balance"] ++
  newton ["Staggered algorithm", "Pseudo-balance"]

set_option maxRecDepth 10000 in
theorem observed_eq (env : Env) (s s' : Store) (h : ∀ p n, (p, n) ∉ ignored → s p n = s' p n) :
    (specStrip env s).observed = (specStrip env s').observed := by
  have e1 : ∀ p n, (p, n) ∉ ignored → num s p n = num s' p n := fun p n hp => by simp [num, h p n hp]
  have e2 : ∀ p n, (p, n) ∉ ignored → nat s p n = nat s' p n := fun p n hp => by simp [nat, h p n hp]
  have e3 : ∀ p n, (p, n) ∉ ignored → flag s p n = flag s' p n := fun p n hp => by simp [flag, h p n hp]
  have e4 : ∀ p n, (p, n) ∉ ignored → word s p n = word s' p n := fun p n hp => by simp [word, h p n hp]
  have hl : specLaws s (["6. Solver parameters"] ++ ["Constitutive laws' parameters"]) =
      specLaws s' (["6. Solver parameters"] ++ ["Constitutive laws' parameters"]) := by
    simp [specLaws, specHooke, specScalar, specVectorial, specCohesive, specHardening, specDamage, e1, e3, e4, ignored]
  have hd : specLoading s = specLoading s' := by
    simp [specLoading, loadPath, monoPath, cyclicPath, e1, e2, e3, e4, ignored]
    constructor <;> congr
  have hi : specInput env s = specInput env s' := by
    simp [specInput, e2, e4, ignored]
  simp only [Strip.observed, specStrip, specBasic, specSolver, hl, hd, hi]
  have hw : word s ["6. Solver parameters"] "Solution algorithm" = word s' ["6. Solver parameters"] "Solution algorithm" :=
    e4 _ _ (by simp [ignored])
  by_cases hm : word s' ["6. Solver parameters"] "Solution algorithm" = "monolithic"
  · simp [hw, hm, specNonlinear, specForm, stripPath, e1, e2, e3, e4, ignored]
  · simp [hw, hm, specNonlinear, specForm, stripPath, e1, e2, e3, e4, ignored]

theorem accepted {debug : Bool} {env : Env} {f : List Line} {r : Strip}
    (h : Strip.read debug env f = some (.ok r)) :
    WellFormed Strip.declare f ∧ StripOk debug env (SpecValue Strip.declare f) ∧
      r = specStrip env (SpecValue Strip.declare f) := by
  have hf : WellFormed Strip.declare f := by
    by_contra hf
    rw [(C91_refused debug env f).2 hf] at h
    simp at h
  obtain ⟨x, hx, hm⟩ := C91_read debug env f hf
  rw [hx] at h
  have ho : StripOk debug env (SpecValue Strip.declare f) := by
    by_contra hc
    obtain ⟨e, he, -⟩ := hm.2 hc
    rw [he] at h
    simp at h
  refine ⟨hf, ho, ?_⟩
  rw [hm.1 ho] at h
  simpa using h.symm

theorem accepts {debug : Bool} {env : Env} {f : List Line} (hf : WellFormed Strip.declare f)
    (ho : StripOk debug env (SpecValue Strip.declare f)) :
    Strip.read debug env f = some (.ok (specStrip env (SpecValue Strip.declare f))) := by
  obtain ⟨x, hx, hm⟩ := C91_read debug env f hf
  rw [hx, hm.1 ho]

/-- Two accepted files that differ only in these entries run the same simulation. -/
theorem C93_ignored (debug : Bool) (env : Env) (f f' : List Line) (r r' : Strip)
    (h : Strip.read debug env f = some (.ok r)) (h' : Strip.read debug env f' = some (.ok r'))
    (hs : ∀ p n, (p, n) ∉ ignored → SpecValue Strip.declare f p n = SpecValue Strip.declare f' p n) :
    r.observed = r'.observed := by
  rw [(accepted h).2.2, (accepted h').2.2]
  exact observed_eq env _ _ hs

/-- Those of them on which acceptance does not depend either. -/
def unchecked : List (List String × String) :=
  let v := ["6. Solver parameters"]
  let newton (q : List String) : List String × String :=
    (v ++ q ++ ["Newton-Raphson parameters"], "Absolute tolerance of the step")
  [(["0. Infinite strip parameters (Extended in 1. and 2.)", "Loading parameters"], "Control type"),
   (v ++ ["Dimensionless formulation parameters", "Reference parameters"], "Reference time value"),
   (v ++ ["Constitutive laws' parameters", "Cohesive law's parameters"], "Cohesive law model"),
   (v, "Skip extrapolation of start value at extrema"), (v, "Zero damage evolution during un- and loading"),
   (["1. Spatial discretization parameters"], "Mapping - Apply to interior cells"),
   (["4. Output parameters"], "Terminal output frequency"), (["4. Output parameters"], "Store checkpoints"),
   newton ["Monolithic algorithm"], newton ["Staggered algorithm", "Linear momentum balance"],
   newton ["Staggered algorithm", "Pseudo-balance"]]

theorem unchecked_ignored : ∀ k ∈ unchecked, k ∈ ignored := by simp [unchecked, ignored]

set_option maxRecDepth 10000 in
theorem ok_eq {debug : Bool} {env : Env} {s s' : Store} (h : ∀ p n, (p, n) ∉ unchecked → s p n = s' p n)
    (ho : StripOk debug env s) : StripOk debug env s' := by
  have e1 : ∀ p n, (p, n) ∉ unchecked → num s p n = num s' p n := fun p n hp => by simp [num, h p n hp]
  have e2 : ∀ p n, (p, n) ∉ unchecked → nat s p n = nat s' p n := fun p n hp => by simp [nat, h p n hp]
  have e4 : ∀ p n, (p, n) ∉ unchecked → word s p n = word s' p n := fun p n hp => by simp [word, h p n hp]
  simpa [StripOk, BasicOk, LoadingOk, LawsOk, HookeOk, AlgorithmOk, NonlinearOk, stripPath, loadPath, monoPath,
    cyclicPath, e1, e2, e4, unchecked] using ho

theorem spec_snoc (d : List Entry) (f : List Line) (l : Line) (p : List String) (n : String)
    (h : ¬ (l.path = p ∧ l.name = n)) : SpecValue d (f ++ [l]) p n = SpecValue d f p n := by
  simp [SpecValue, h]

/-- A further line of the file for one of these entries, whatever its value, changes nothing: the file is still
accepted and runs the same simulation.  In particular a file asking for load control runs under displacement
control. -/
theorem C93_no_effect (debug : Bool) (env : Env) (f : List Line) (r : Strip)
    (h : Strip.read debug env f = some (.ok r)) (l : Line) (hl : WellFormed Strip.declare [l])
    (hk : (l.path, l.name) ∈ unchecked) :
    ∃ r', Strip.read debug env (f ++ [l]) = some (.ok r') ∧ r'.observed = r.observed := by
  obtain ⟨hf, ho, hr⟩ := accepted h
  have hne : ∀ p n, (p, n) ∉ unchecked → ¬ (l.path = p ∧ l.name = n) := by
    rintro p n hp ⟨rfl, rfl⟩
    exact hp hk
  have hf' : WellFormed Strip.declare (f ++ [l]) := by
    intro x hx
    rcases List.mem_append.1 hx with hx | hx
    · exact hf x hx
    · exact hl x hx
  refine ⟨_, accepts hf' (ok_eq (fun p n hp => (spec_snoc _ f l p n (hne p n hp)).symm) ho), ?_⟩
  rw [hr]
  exact observed_eq env _ _ fun p n hp =>
    spec_snoc _ f l p n (hne p n fun hu => hp (unchecked_ignored _ hu))

/-- The parameters of the algorithm not chosen have no effect, nor are they checked: two files that choose the
monolithic algorithm and differ only in the parameters of the staggered ones give the same parameters. -/
theorem C93_unchosen (debug : Bool) (env : Env) (f f' : List Line) (r : Strip)
    (h : Strip.read debug env f = some (.ok r)) (hf' : WellFormed Strip.declare f')
    (ha : r.basic.solver.algorithm = .monolithic)
    (hs : ∀ p n, ¬ ["6. Solver parameters", "Staggered algorithm"] <+: p →
      SpecValue Strip.declare f p n = SpecValue Strip.declare f' p n) :
    Strip.read debug env f' = some (.ok r) := by
  obtain ⟨hf, ho, hr⟩ := accepted h
  revert hs
  generalize hs1 : SpecValue Strip.declare f = s
  generalize hs2 : SpecValue Strip.declare f' = s'
  intro hs
  rw [hs1] at ho hr
  have e1 : ∀ p n, ¬ ["6. Solver parameters", "Staggered algorithm"] <+: p → num s p n = num s' p n :=
    fun p n hp => by simp [num, hs p n hp]
  have e2 : ∀ p n, ¬ ["6. Solver parameters", "Staggered algorithm"] <+: p → nat s p n = nat s' p n :=
    fun p n hp => by simp [nat, hs p n hp]
  have e3 : ∀ p n, ¬ ["6. Solver parameters", "Staggered algorithm"] <+: p → flag s p n = flag s' p n :=
    fun p n hp => by simp [flag, hs p n hp]
  have e4 : ∀ p n, ¬ ["6. Solver parameters", "Staggered algorithm"] <+: p → word s p n = word s' p n :=
    fun p n hp => by simp [word, hs p n hp]
  have hm : word s ["6. Solver parameters"] "Solution algorithm" = "monolithic" := by
    rw [hr] at ha
    by_contra hc
    simp only [specStrip, specBasic, specSolver, specAlgorithm, if_neg hc] at ha
    split at ha <;> simp at ha
  have hm' : word s' ["6. Solver parameters"] "Solution algorithm" = "monolithic" := by
    rw [← e4 _ _ (by simp)]; exact hm
  have ho' : StripOk debug env s' := by
    simp only [StripOk, BasicOk, LoadingOk, LawsOk, HookeOk, AlgorithmOk, NonlinearOk, stripPath, loadPath, monoPath,
      cyclicPath, hm, hm', ne_eq, not_true_eq_false, false_imp_iff, and_true, true_imp_iff] at ho ⊢
    simpa [e1, e2, e4] using ho
  have heq : specStrip env s = specStrip env s' := by
    have hl : specLaws s (["6. Solver parameters"] ++ ["Constitutive laws' parameters"]) =
        specLaws s' (["6. Solver parameters"] ++ ["Constitutive laws' parameters"]) := by
      simp [specLaws, specHooke, specScalar, specVectorial, specCohesive, specHardening, specDamage, e1, e3, e4]
    have hd : specLoading s = specLoading s' := by
      simp [specLoading, loadPath, monoPath, cyclicPath, e1, e2, e3, e4]
      constructor <;> congr
    have hi : specInput env s = specInput env s' := by
      simp [specInput, e2, e4]
    simp only [specStrip, specBasic, specSolver, hl, hd, hi]
    simp [hm, hm', specNonlinear, specForm, stripPath, controlPath, e1, e2, e3, e4]
    congr
  subst hs2
  rw [accepts hf' ho', hr, heq]

/-! ### Witnesses -/

/-- A machine with a file system. -/
def machine : Env := ⟨true, fun _ => false, fun _ => true⟩

/-- A file of one line. -/
theorem one_line (l : Line) (hl : WellFormed Strip.declare [l]) {debug : Bool}
    (h : ∀ s, (∀ p n, ¬ (l.path = p ∧ l.name = n) → s p n = SpecValue Strip.declare [] p n) →
      s l.path l.name = some l.value → StripOk debug machine (SpecValue Strip.declare []) → StripOk debug machine s) :
    ∃ r, Strip.read debug machine [l] = some (.ok r) ∧ r = specStrip machine (SpecValue Strip.declare [l]) := by
  refine ⟨_, accepts hl (h _ (fun p n hp => spec_snoc _ [] l p n hp) ?_ ?_), rfl⟩
  · simp [SpecValue]
  · exact strip_default_ok (defaults_spec _ strip_nodup) fun _ => .inr rfl

/-- The start time of the file is not the start time of the simulation: it is zero for every accepted file. -/
theorem C93_violated_start :
    (∀ debug env f r, Strip.read debug env f = some (.ok r) → r.loading.base.start = 0) ∧
    ∃ f r, Strip.read true machine f = some (.ok r) ∧
      SpecValue Strip.declare f ["2. Temporal discretization parameters"] "Start time" = some (.num (1 / 2)) := by
  refine ⟨fun debug env f r h => (C91_ranges debug env f r h).2.1.2.2.2.2.2.2.2.2.1, ?_⟩
  have hl : WellFormed Strip.declare [⟨["2. Temporal discretization parameters"], "Start time", .num (1 / 2)⟩] := by
    intro l hl
    rw [List.mem_singleton] at hl
    subst hl
    refine ⟨⟨["2. Temporal discretization parameters"], "Start time", .num 0, .double (some 0) none⟩, ?_, rfl, rfl, ?_⟩
    · simp [Strip.declare, Basic.declare, Temporal.declare]
    · simp [Pattern.accepts]
  obtain ⟨r, hr, -⟩ := one_line (debug := true) _ hl (by
    intro s h1 h2 ho
    have e1 : ∀ p n, ¬ (["2. Temporal discretization parameters"] = p ∧ "Start time" = n) →
        num s p n = num (SpecValue Strip.declare []) p n := fun p n hp => by simp [num, h1 p n hp]
    have e2 : ∀ p n, ¬ (["2. Temporal discretization parameters"] = p ∧ "Start time" = n) →
        nat s p n = nat (SpecValue Strip.declare []) p n := fun p n hp => by simp [nat, h1 p n hp]
    have e4 : ∀ p n, ¬ (["2. Temporal discretization parameters"] = p ∧ "Start time" = n) →
        word s p n = word (SpecValue Strip.declare []) p n := fun p n hp => by simp [word, h1 p n hp]
    have hd := defaults_spec _ strip_nodup
    simp only [Strip.declare, Basic.declare, defaults_append, Temporal.declare, defaults_cons] at hd
    obtain ⟨⟨⟨⟨⟨⟨⟨⟨-, d2⟩, -⟩, -⟩, -⟩, -⟩, -⟩, -⟩, -⟩ := hd
    have hst : num s ["2. Temporal discretization parameters"] "Start time" = 1 / 2 := by simp [num, h2]
    have hen : num s ["2. Temporal discretization parameters"] "End time" = 1 := by
      rw [e1 _ _ (by simp)]; exact by rw [num, show SpecValue Strip.declare [] _ _ = _ from d2.2.1]
    have hdt : num s ["2. Temporal discretization parameters"] "Time step size" = 1e-1 := by
      rw [e1 _ _ (by simp)]; exact by rw [num, show SpecValue Strip.declare [] _ _ = _ from d2.2.2.1]
    obtain ⟨⟨b1, b2, b3, b4, b5⟩, b6, b7⟩ := ho
    refine ⟨⟨?_, ?_, ?_, ?_, ?_⟩, ?_, ?_⟩
    · simpa [e2] using b1
    · rw [hst, hen, hdt]; norm_num
    · simpa [e4] using b3
    · simpa [LawsOk, HookeOk, e1] using b4
    · simpa [AlgorithmOk, NonlinearOk, e1, e4] using b5
    · simpa [LoadingOk, monoPath, cyclicPath, loadPath, e1] using b6
    · simpa [stripPath, e1] using b7)
  exact ⟨_, r, hr, by simp [SpecValue]⟩

/-- A file asking for load control is accepted and runs under displacement control, as the default does. -/
theorem C93_violated_control :
    ∃ f r, Strip.read true machine f = some (.ok r) ∧
      SpecValue Strip.declare f ["0. Infinite strip parameters (Extended in 1. and 2.)", "Loading parameters"]
        "Control type" = some (.str "load_control") ∧
      r.control = .load ∧ r.observed = stripDefault.observed := by
  have h0 := strip_empty true machine fun _ => .inr rfl
  have hl : WellFormed Strip.declare [⟨["0. Infinite strip parameters (Extended in 1. and 2.)", "Loading parameters"],
      "Control type", .str "load_control"⟩] := by
    intro l hl
    rw [List.mem_singleton] at hl
    subst hl
    exact ⟨⟨["0. Infinite strip parameters (Extended in 1. and 2.)", "Loading parameters"], "Control type",
       .str "displacement_control", .selection ["load_control", "displacement_control"]⟩, by simp [Strip.declare],
       rfl, rfl, by simp [Pattern.accepts]⟩
  obtain ⟨r, hr, ho⟩ := C93_no_effect true machine [] stripDefault h0 _ hl (by simp [unchecked])
  refine ⟨_, r, hr, by simp [SpecValue], ?_, ho⟩
  rw [(accepted hr).2.2]
  simp [specStrip, controlPath, word, SpecValue]

/-- The traction recorded at the grain boundaries depends on a value that is never set: for every accepted file
that couples the macroscopic traction to damage it is indeterminate; there is such a file. -/
theorem C93_violated_recorded :
    (∀ debug env f r, Strip.read debug env f = some (.ok r) → r.basic.solver.laws.damage.coupleMacro = true →
      ∀ d τ, recorded r.basic.solver.laws.damage d τ = none) ∧
    ∃ f r, Strip.read true machine f = some (.ok r) ∧ r.basic.solver.laws.damage.coupleMacro = true := by
  constructor
  · intro debug env f r h hc d τ
    have : r.basic.solver.laws.damage.degradationExponent = none := by rw [(accepted h).2.2]; rfl
    simp [recorded, hc, this]
  · have hl : WellFormed Strip.declare [⟨["6. Solver parameters", "Constitutive laws' parameters", "Damage evolution parameters"],
        "Couple macrotraction to damage", .bool true⟩] := by
      intro l hl
      rw [List.mem_singleton] at hl
      subst hl
      exact ⟨⟨["6. Solver parameters", "Constitutive laws' parameters", "Damage evolution parameters"],
        "Couple macrotraction to damage", .bool false, .bool⟩, by
          simp [Strip.declare, Basic.declare, Solver.declare, Laws.declare, Damage.declare], rfl, rfl, trivial⟩
    obtain ⟨r, hr, he⟩ := one_line (debug := true) _ hl (by
      intro s h1 h2 ho
      dsimp only at h1
      have e1 : ∀ p n, ¬ (["6. Solver parameters", "Constitutive laws' parameters", "Damage evolution parameters"] = p ∧ "Couple macrotraction to damage" = n) →
          num s p n = num (SpecValue Strip.declare []) p n := fun p n hp => by simp [num, h1 p n hp]
      have e2 : ∀ p n, ¬ (["6. Solver parameters", "Constitutive laws' parameters", "Damage evolution parameters"] = p ∧ "Couple macrotraction to damage" = n) →
          nat s p n = nat (SpecValue Strip.declare []) p n := fun p n hp => by simp [nat, h1 p n hp]
      have e4 : ∀ p n, ¬ (["6. Solver parameters", "Constitutive laws' parameters", "Damage evolution parameters"] = p ∧ "Couple macrotraction to damage" = n) →
          word s p n = word (SpecValue Strip.declare []) p n := fun p n hp => by simp [word, h1 p n hp]
      simpa [StripOk, BasicOk, LoadingOk, LawsOk, HookeOk, AlgorithmOk, NonlinearOk, stripPath, loadPath, monoPath,
        cyclicPath, e1, e2, e4] using ho)
    refine ⟨_, r, hr, ?_⟩
    rw [he]
    simp [specStrip, specBasic, specSolver, specLaws, specDamage, flag, SpecValue]

/-- Release builds accept a file whose maximum load is not above its minimum load; debug builds do not. -/
theorem C94_violated_release :
    ∃ f r, Strip.read false machine f = some (.ok r) ∧ r.loading.maxLoad ≤ r.loading.minLoad ∧
      ∀ r', Strip.read true machine f ≠ some (.ok r') := by
  have hl : WellFormed Strip.declare [⟨["2. Temporal discretization parameters", "Simple loading"],
      "Maximum load", .num 0⟩] := by
    intro l hl
    rw [List.mem_singleton] at hl
    subst hl
    exact ⟨⟨["2. Temporal discretization parameters", "Simple loading"], "Maximum load", .num 1,
      .double (some 0) none⟩, by simp [Strip.declare, Loading.declare], rfl, rfl, by simp [Pattern.accepts]⟩
  obtain ⟨r, hr, he⟩ := one_line (debug := false) _ hl (by
    intro s h1 h2 ho
    dsimp only at h1
    have e1 : ∀ p n, ¬ (["2. Temporal discretization parameters", "Simple loading"] = p ∧ "Maximum load" = n) →
        num s p n = num (SpecValue Strip.declare []) p n := fun p n hp => by simp [num, h1 p n hp]
    have e2 : ∀ p n, ¬ (["2. Temporal discretization parameters", "Simple loading"] = p ∧ "Maximum load" = n) →
        nat s p n = nat (SpecValue Strip.declare []) p n := fun p n hp => by simp [nat, h1 p n hp]
    have e4 : ∀ p n, ¬ (["2. Temporal discretization parameters", "Simple loading"] = p ∧ "Maximum load" = n) →
        word s p n = word (SpecValue Strip.declare []) p n := fun p n hp => by simp [word, h1 p n hp]
    simpa [StripOk, BasicOk, LoadingOk, LawsOk, HookeOk, AlgorithmOk, NonlinearOk, stripPath, loadPath, monoPath,
      cyclicPath, e1, e2, e4] using ho)
  have hmax : r.loading.maxLoad = 0 := by
    rw [he]; simp [specStrip, specLoading, loadPath, num, SpecValue]
  refine ⟨_, r, hr, ?_, ?_⟩
  · rw [hmax]; exact (C91_ranges _ _ _ _ hr).2.1.1
  · intro r' hr'
    have hb := C91_builds machine _ r' hr'
    have hrr : r = r' := by rw [hr] at hb; simpa using hb
    obtain ⟨-, ⟨-, ho, -⟩, hs⟩ := accepted hr'
    have h1 := (ho rfl).2.2
    have h2 : r'.loading.minLoad < r'.loading.maxLoad := by rw [hs]; exact h1
    rw [← hrr, hmax] at h2
    exact absurd (C91_ranges _ _ _ _ hr).2.1.1 (not_le.2 h2)

/-- Both builds accept elastic constants whose energy is not positive: `C1111 < C1122`, so the energy of the strain
`diag(1, -1, 0)`, which is `C1111 - C1122`, is negative. -/
theorem C94_violated_elastic :
    ∃ f r, (∀ debug, Strip.read debug machine f = some (.ok r)) ∧
      r.basic.solver.laws.hooke.c1111 < r.basic.solver.laws.hooke.c1122 := by
  have hl : WellFormed Strip.declare [⟨["6. Solver parameters", "Constitutive laws' parameters", "Hooke-Law's parameters"],
      "C1111", .num 1⟩] := by
    intro l hl
    rw [List.mem_singleton] at hl
    subst hl
    exact ⟨⟨["6. Solver parameters", "Constitutive laws' parameters", "Hooke-Law's parameters"],
      "C1111", .num 134615, .double (some 0) none⟩, by
        simp [Strip.declare, Basic.declare, Solver.declare, Laws.declare, Hooke.declare], rfl, rfl,
        by simp [Pattern.accepts]⟩
  obtain ⟨r, hr, he⟩ := one_line (debug := true) _ hl (by
    intro s h1 h2 ho
    dsimp only at h1
    have e1 : ∀ p n, ¬ (["6. Solver parameters", "Constitutive laws' parameters", "Hooke-Law's parameters"] = p ∧ "C1111" = n) →
        num s p n = num (SpecValue Strip.declare []) p n := fun p n hp => by simp [num, h1 p n hp]
    have e2 : ∀ p n, ¬ (["6. Solver parameters", "Constitutive laws' parameters", "Hooke-Law's parameters"] = p ∧ "C1111" = n) →
        nat s p n = nat (SpecValue Strip.declare []) p n := fun p n hp => by simp [nat, h1 p n hp]
    have e4 : ∀ p n, ¬ (["6. Solver parameters", "Constitutive laws' parameters", "Hooke-Law's parameters"] = p ∧ "C1111" = n) →
        word s p n = word (SpecValue Strip.declare []) p n := fun p n hp => by simp [word, h1 p n hp]
    have hc : num s ["6. Solver parameters", "Constitutive laws' parameters", "Hooke-Law's parameters"] "C1111" = 1 := by
      simp [num, h2]
    obtain ⟨⟨b1, b2, b3, b4, b5⟩, b6, b7⟩ := ho
    refine ⟨⟨?_, ?_, ?_, ?_, ?_⟩, ?_, ?_⟩
    · simpa [e2] using b1
    · simpa [e1] using b2
    · simpa [e4] using b3
    · simp [LawsOk, HookeOk, e1, hc] at b4 ⊢
      exact ⟨b4.1.2, b4.2⟩
    · simpa [AlgorithmOk, NonlinearOk, e1, e4] using b5
    · simpa [LoadingOk, monoPath, cyclicPath, loadPath, e1] using b6
    · simpa [stripPath, e1] using b7)
  refine ⟨[⟨["6. Solver parameters", "Constitutive laws' parameters", "Hooke-Law's parameters"], "C1111", .num 1⟩], r,
    ?_, ?_⟩
  · intro debug
    cases debug with
    | true => exact hr
    | false => exact C91_builds _ _ _ hr
  · have h11 : r.basic.solver.laws.hooke.c1111 = 1 := by
      rw [he]; simp [specStrip, specBasic, specSolver, specLaws, specHooke, num, SpecValue]
    have h12 : r.basic.solver.laws.hooke.c1122 = 57692.3 := by
      rw [he]
      simp only [specStrip, specBasic, specSolver, specLaws, specHooke, List.cons_append, List.nil_append]
      have hd := defaults_spec _ strip_nodup ⟨["6. Solver parameters", "Constitutive laws' parameters", "Hooke-Law's parameters"],
        "C1122", .num 57692.3, .double (some 0) none⟩ (by
          simp [Strip.declare, Basic.declare, Solver.declare, Laws.declare, Hooke.declare])
      have hv := (spec_snoc Strip.declare [] ⟨["6. Solver parameters", "Constitutive laws' parameters", "Hooke-Law's parameters"], "C1111", .num 1⟩
        ["6. Solver parameters", "Constitutive laws' parameters", "Hooke-Law's parameters"] "C1122" (by simp)).trans hd
      rw [List.nil_append] at hv
      rw [num, hv]
    rw [h11, h12]; norm_num

/-! ### Non-vacuity -/

/-- The empty file and a file of one line are accepted. -/
example : Strip.read true machine [] = some (.ok stripDefault) := strip_empty true machine fun _ => .inr rfl

/-- A file with an unknown entry is refused. -/
example : Strip.read true machine [⟨[], "No such entry", .num 0⟩] = none := by
  rw [C91_refused]
  intro h
  obtain ⟨e, he, hp, hn, -⟩ := h _ (List.mem_singleton_self _)
  simp [Strip.declare, Basic.declare, Spatial.declare, Temporal.declare, Input.declare, Output.declare,
    Solver.declare, Laws.declare, Hooke.declare, Scalar.declare, Vectorial.declare, Cohesive.declare,
    Hardening.declare, Damage.declare, Mono.declare, Stag.declare, Nonlinear.declare, Newton.declare,
    LineSearch.declare, Krylov.declare, Form.declare, Homog.declare, Loading.declare] at he
  aesop

end Verif.Ini
