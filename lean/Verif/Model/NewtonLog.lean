import Verif.Model.Statistics
import Verif.Model.Utilities

/-!
# The log of the nonlinear solver

The drivers of `Verif.Model.Drivers` with the lines they write to `nonlinear_solver_log.txt`.  Numbers are
`Option ℝ`; `none` stands for NaN and for the infinities.  Lines that go to the terminal only (headers, the
message about a restart) are left out.
-/

namespace Verif.Drv
open Verif.Util

/-- The result of `get_sub_l2_norms`: displacements, slips. -/
structure Sub where
  u : Option ℝ
  g : Option ℝ

/-- `l2_norm()` of the two entries. -/
noncomputable def Sub.total (x : Sub) : Option ℝ := x.u.bind fun a => x.g.map fun b => Real.sqrt (a ^ 2 + b ^ 2)

/-- Product, NaN being absorbing. -/
noncomputable def mulN (a b : Option ℝ) : Option ℝ := a.bind fun x => b.map fun y => x * y

/-- What an iteration leaves for the log: `solver_control.last_step()`, `line_search->get_n_iterations()`, the
relaxation parameter and the norms of `newton_update` (`solve.cc:230-274`). -/
structure Step where
  krylov : ℕ
  search : ℕ
  relax : Option ℝ
  update : Sub

/-- The ten values of a row. -/
structure LogRow where
  n : ℕ
  k : ℕ
  l : ℕ
  ns : Option ℝ
  nsU : Option ℝ
  nsG : Option ℝ
  r : Option ℝ
  rU : Option ℝ
  rG : Option ℝ
  rate : Option ℝ

/-- `update_and_output_nonlinear_solver_logger(residual_l2_norms)` (`solve.cc:1697-1724`). -/
noncomputable def rowZero (x : Sub) : LogRow :=
  ⟨0, 0, 0, some 0, some 0, some 0, x.total, x.u, x.g, some 0⟩

/-- `update_and_output_nonlinear_solver_logger` with seven arguments (`solve.cc:1728-1768`). -/
noncomputable def rowOf (n : ℕ) (q : Step) (x : Sub) (rate : Option ℝ) : LogRow :=
  ⟨n, q.krylov, q.search, mulN q.relax q.update.total, mulN q.relax q.update.u, mulN q.relax q.update.g,
    x.total, x.u, x.g, rate⟩

/-- A line of the file: a row (`Logger::log_to_file`) or a message (`Logger::log_to_all`). -/
inductive Line where
  | row (r : LogRow)
  | text (m : String)

/-- What the log reads from the solver's state: norms of the residual held, of the residual assembled at the
beginning of an iteration (`solve.cc:490-495`, `623-628`, `913-918`), and the data of the last iteration. -/
structure LogOps (S : Type*) where
  sub : S → Sub
  macroStart : ℕ → S → Sub
  microStart : S → Sub
  step : S → Step

/-! ## Drivers -/

open Classical in
/-- `monolithic_algorithm` (`solve.cc:152-335`) and its lines. -/
noncomputable def monoLog {S A : Type*} (o : MonoOps S A) (q : LogOps S) (ri : Bool) (nMax : ℕ) (tol : ℝ) :
    ℕ → ℕ → Bool → ℕ → S → Outcome S × List Line
  | 0, _, _, _, _ => (.outOfFuel, [])
  | fuel + 1, n, flag, k, s =>
    if ¬ n + 1 ≤ nMax then (.threw k, [])
    else
      let s3 := o.post (prepare o ri flag s)
      let s4 := o.newton s3
      let lines := (if n + 1 = 1 then [Line.row (rowZero (q.sub s3))] else []) ++
        [Line.row (rowOf (n + 1) (q.step s4) (q.sub s4) (cRate (o.norm s4) (o.norm s3)))]
      if below (o.norm s4) tol then
        if ri = true then
          let s5 := o.recompute s4
          if o.active s4 ≠ o.active s5 then
            let e := monoLog o q ri nMax tol fuel 0 false (k + 1) (o.restart s5)
            (e.1, lines ++ e.2)
          else (.returned s5 (k + 1), lines)
        else (.returned s4 (k + 1), lines)
      else
        let e := monoLog o q ri nMax tol fuel (n + 1) false (k + 1) s4
        (e.1, lines ++ e.2)

open Classical in
/-- Micro loop (`solve.cc:469-576`, `903-1001`) and its lines. -/
noncomputable def microLog {S : Type*} (o : StagOps S) (q : LogOps S) (nMax : ℕ) (tol : ℝ) :
    ℕ → ℕ → S → Outcome S × List Line
  | 0, _, _ => (.outOfFuel, [])
  | fuel + 1, n, s =>
    if ¬ n + 1 ≤ nMax then (.threw n, [])
    else
      let s' := o.microIt s
      let lines := (if n + 1 = 1 then [Line.row (rowZero (q.microStart s))] else []) ++
        [Line.row (rowOf (n + 1) (q.step s') (q.sub s')
          (cRateMicro (q.sub s').g (q.microStart s).g))]
      if below (o.microNorm s') tol then (.returned s' (n + 1), lines)
      else
        let e := microLog o q nMax tol fuel (n + 1) s'
        (e.1, lines ++ e.2)

/-- The message at the beginning of a macro loop (`solve.cc:367-369`, `589-591`). -/
def macroTitle (c : ℕ) : Line := .text (" Linear momentum balance: Starting solution loop #" ++ toString c)

/-- The message at the beginning of a micro loop (`solve.cc:436-438`). -/
def microTitle (c : ℕ) : Line := .text (" Pseudo-balance: Starting solution loop #" ++ toString c)

/-- The messages at the end of a loop (`solve.cc:432`, `587`) and of the algorithm (411). -/
def loopEnd : Line := .text "  Solution converges!\n"

@[inherit_doc loopEnd]
def allEnd : Line := .text "  Solution converges!"

open Classical in
/-- `bouncing_algorithm` (`solve.cc:339-711`) and its lines, without the first title (367), which is written
before the loop.  `b` is `micro_loop_counter`. -/
noncomputable def bouncingLog {S : Type*} (o : StagOps S) (q : LogOps S) (p : StagParams) :
    ℕ → ℕ → ℕ → ℕ → Bool → ℕ → S → Outcome S × List Line
  | 0, _, _, _, _, _, _ => (.outOfFuel, [])
  | fuel + 1, i, c, b, m, k, s =>
    if below (o.macroNorm s) p.tolMacro ∧ ¬ (c = 1 ∧ i = 0) then
      if m then (.returned s k, [allEnd])
      else
        let e := microLog o q p.nMicro p.tolMicro (p.nMicro + 1) 0 (o.startMicro s)
        let lines := [loopEnd, microTitle (b + 1)] ++ e.2
        match e.1 with
        | .returned s' j =>
          if ¬ c + 1 ≤ p.nLoops then (.threw (k + j), lines)
          else
            let f := bouncingLog o q p fuel 0 (c + 1) (b + 1) true (k + j) s'
            (f.1, lines ++ [loopEnd, macroTitle (c + 1)] ++ f.2)
        | .threw j => (.threw (k + j), lines)
        | .outOfFuel => (.outOfFuel, lines)
    else
      if ¬ i + 1 ≤ p.nMacro then (.threw k, [])
      else
        let s' := o.macroIt (i + 1) s
        let lines := (if i + 1 = 1 then [Line.row (rowZero (q.macroStart (i + 1) s))] else []) ++
          [Line.row (rowOf (i + 1) (q.step s') (q.sub s')
            (cRate (q.sub s').u (q.macroStart (i + 1) s).u))]
        let f := bouncingLog o q p fuel (i + 1) c b false (k + 1) s'
        (f.1, lines ++ f.2)

/-- The whole of the algorithm. -/
noncomputable def bouncingRun {S : Type*} (o : StagOps S) (q : LogOps S) (p : StagParams) (fuel : ℕ) (s : S) :
    Outcome S × List Line :=
  let e := bouncingLog o q p fuel 0 1 0 false 0 s
  (e.1, macroTitle 1 :: e.2)

/-- The messages around a micro loop (`solve.cc:880`, `1003`). -/
def microOpen : Line := .text "  Microloop..."

@[inherit_doc microOpen]
def microClose : Line := .text "  converges!"

open Classical in
/-- `embracing_algorihtm` (`solve.cc:715-1039`) and its lines.  `old` is `old_residual_l2_norms[0]`, `tmp` is
`tmp_residual_l2_norms[0]`, the norm after the last micro iteration. -/
noncomputable def embracingLog {S : Type*} (o : StagOps S) (q : LogOps S) (p : StagParams) :
    ℕ → ℕ → Bool → ℕ → Option ℝ → Option ℝ → S → Outcome S × List Line
  | 0, _, _, _, _, _, _ => (.outOfFuel, [])
  | fuel + 1, i, m, k, old0, tmp, s0 =>
    let s := o.evaluate s0
    let old := if i = 0 then (q.sub s).u else old0
    if below (o.macroNorm s) p.tolMacro ∧ m = true then
      (.returned s k, [Line.row (rowOf 0 ⟨0, 0, some 0, ⟨some 0, some 0⟩⟩ (q.sub s) (cRate tmp old))])
    else
      if ¬ i + 1 ≤ p.nMacro then (.threw k, [])
      else
        let s1 := o.macroIt (i + 1) s
        let lines := (if i + 1 = 1 then [Line.row (rowZero (q.sub s))] else []) ++
          [Line.row (rowOf (i + 1) (q.step s1) (q.sub s1) (cRate (q.sub s1).u old)), microOpen]
        let e := microLog o q p.nMicro p.tolMicro (p.nMicro + 1) 0 (o.startMicro s1)
        match e.1 with
        | .returned s' j =>
          let f := embracingLog o q p fuel (i + 1) true (k + 1 + j) (q.sub s1).u (q.sub s').u s'
          (f.1, lines ++ e.2 ++ [microClose] ++ f.2)
        | .threw j => (.threw (k + 1 + j), lines ++ e.2)
        | .outOfFuel => (.outOfFuel, lines ++ e.2)

/-! ## Debug mode -/

/-- Every value passed to `Logger::update_value` is finite. -/
def LogRow.Finite (r : LogRow) : Prop :=
  r.ns.isSome ∧ r.nsU.isSome ∧ r.nsG.isSome ∧ r.r.isSome ∧ r.rU.isSome ∧ r.rG.isSome ∧ r.rate.isSome

/-- A row that is not finite. -/
def Line.Bad : Line → Prop
  | .row r => ¬ r.Finite
  | .text _ => False

open Classical in
/-- In debug mode `AssertIsFinite` in `Logger::update_value` (`source/utilities.cc:261`) ends the program before
the row is written.  `none`: the program was ended; the lines written. -/
noncomputable def debugRun {S : Type*} (e : Outcome S × List Line) : Option (Outcome S) × List Line :=
  if ∃ l ∈ e.2, l.Bad then (none, e.2.takeWhile fun l => ¬ l.Bad) else (some e.1, e.2)

/-! ## Columns -/

/-- The solver's logger (`source/gradient_crystal_plasticity/gradient_crystal_plasticity_solver.cc:154-165`). -/
def columns : List Call :=
  [.declare "N-Itr" .integer, .declare "K-Itr" .integer, .declare "L-Itr" .integer,
    .declare "(NS)_L2" .scientific, .declare "(NS_U)_L2" .scientific, .declare "(NS_G)_L2" .scientific,
    .declare "(R)_L2" .scientific, .declare "(R_U)_L2" .scientific, .declare "(R_G)_L2" .scientific,
    .declare "C-Rate" .decimal]

/-- The `update_value` calls for a row of finite values (`solve.cc:1701-1721`, `1738-1764`). -/
noncomputable def updates (n k l : ℕ) (ns nsU nsG r rU rG rate : ℝ) : List Call :=
  [.update "N-Itr" n, .update "K-Itr" k, .update "L-Itr" l,
    .update "(NS)_L2" ns, .update "(NS_U)_L2" nsU, .update "(NS_G)_L2" nsG,
    .update "(R)_L2" r, .update "(R_U)_L2" rU, .update "(R_G)_L2" rG, .update "C-Rate" rate]

end Verif.Drv
