import Verif.Model.Drivers
import Mathlib.Analysis.SpecialFunctions.Log.Basic

/-!
# Statistics of the solution algorithms

The drivers of `Verif.Model.Drivers` together with the averages they keep, and the tables the values go to.
Numbers are `Option ℝ`; `none` stands for NaN and for the infinities.
-/

namespace Verif.Drv

/-! ## Orders of convergence -/

/-- `std::log(a) / std::log(b)` of two norms
(`source/gradient_crystal_plasticity/solve.cc:258-260`, `674-676`, `855-857`).  `log(0)` is minus infinity:
the quotient is not finite if `a = 0`, and zero if only `b = 0`; `log(1) = 0` in the denominator gives NaN
or an infinity. -/
noncomputable def cRate (a b : Option ℝ) : Option ℝ :=
  match a, b with
  | some a, some b =>
    if a = 0 then none else if b = 0 then some 0 else if b = 1 then none
    else some (Real.log a / Real.log b)
  | _, _ => none

open Classical in
/-- The same with `old != 0. ? … : 0.0` (`solve.cc:544-548`, `969-972`). -/
noncomputable def cRateMicro (a b : Option ℝ) : Option ℝ := if b = some 0 then some 0 else cRate a b

/-- Addition and division by a counter, NaN being absorbing. -/
noncomputable def addN (a b : Option ℝ) : Option ℝ := a.bind fun x => b.map fun y => x + y

/-- `x / counter`; division by the counter zero gives NaN or an infinity. -/
noncomputable def divN (a : Option ℝ) (n : ℕ) : Option ℝ := if n = 0 then none else a.map fun x => x / n

/-- The values added to the table at the end of a step (`solve.cc:313-330`, `416-424`, `1019-1034`). -/
structure Row where
  iterations : ℕ
  mono : Option ℝ
  macroAvg : Option ℝ
  reduced : Option ℝ
  microAvg : Option ℝ

/-- How an algorithm ends; the row it has added to the table. -/
inductive Ended (S : Type*) where
  | returned (s : S) (solves : ℕ) (row : Row)
  | threw (solves : ℕ)
  | outOfFuel

/-- Without the row. -/
def Ended.forget {S : Type*} : Ended S → Outcome S
  | .returned s k _ => .returned s k
  | .threw k => .threw k
  | .outOfFuel => .outOfFuel

/-! ## Monolithic -/

/-- Beginning of an iteration (`solve.cc:208-213`): for rate-independent behaviour the active set is determined
if `flag_compute_active_set`; the flag is reset afterwards. -/
def prepare {S A : Type*} (o : MonoOps S A) (ri flag : Bool) (s : S) : S :=
  if ri && flag then o.recompute (o.pre s) else o.pre s

open Classical in
/-- `monolithic_algorithm` (`solve.cc:152-335`); `ri` is `flag_rate_independent`, `sum` is
`average_order_of_convergence`, which is set to zero before the loop only (175). -/
noncomputable def monoStat {S A : Type*} (o : MonoOps S A) (ri : Bool) (nMax : ℕ) (tol : ℝ) :
    ℕ → ℕ → Bool → ℕ → Option ℝ → S → Ended S
  | 0, _, _, _, _, _ => .outOfFuel
  | fuel + 1, n, flag, k, sum, s =>
    if ¬ n + 1 ≤ nMax then .threw k
    else
      let s3 := o.post (prepare o ri flag s)
      let s4 := o.newton s3
      let sum' := addN sum (cRate (o.norm s4) (o.norm s3))
      if below (o.norm s4) tol then
        if ri = true then
          let s5 := o.recompute s4
          if o.active s4 ≠ o.active s5 then
            monoStat o ri nMax tol fuel 0 false (k + 1) sum' (o.restart s5)
          else .returned s5 (k + 1) ⟨n + 1, divN sum' (n + 1), some 0, some 0, some 0⟩
        else .returned s4 (k + 1) ⟨n + 1, divN sum' (n + 1), some 0, some 0, some 0⟩
      else monoStat o ri nMax tol fuel (n + 1) false (k + 1) sum' s4

/-! ## Staggered algorithms -/

/-- Norms of the residual assembled at the beginning of an iteration
(`solve.cc:490-497`, `625-630`, `916-921`). -/
structure OldNorms (S : Type*) where
  macroOld : ℕ → S → Option ℝ
  microOld : S → Option ℝ

/-- How a micro loop ends; `average` is `local_average_micro_order_of_convergence / micro_nonlinear_iteration`. -/
inductive MicroEnd (S : Type*) where
  | returned (s : S) (n : ℕ) (average : Option ℝ)
  | threw (n : ℕ)
  | outOfFuel

open Classical in
/-- Micro loop (`solve.cc:469-576`, `903-1001`). -/
noncomputable def microStat {S : Type*} (o : StagOps S) (r : OldNorms S) (nMax : ℕ) (tol : ℝ) :
    ℕ → ℕ → Option ℝ → S → MicroEnd S
  | 0, _, _, _ => .outOfFuel
  | fuel + 1, n, sum, s =>
    if ¬ n + 1 ≤ nMax then .threw n
    else
      let s' := o.microIt s
      let sum' := addN sum (cRateMicro (o.microNorm s') (r.microOld s))
      if below (o.microNorm s') tol then .returned s' (n + 1) (divN sum' (n + 1))
      else microStat o r nMax tol fuel (n + 1) sum' s'

/-- Variables for the statistics of `bouncing_algorithm` (`solve.cc:342-346`, `372-374`). -/
structure Sums where
  /-- `micro_loop_counter` -/
  loops : ℕ
  /-- `local_average_macro_order_of_convergence` -/
  localMacro : Option ℝ
  /-- `average_macro_order_of_convergence` -/
  macroAvg : Option ℝ
  /-- `average_micro_order_of_convergence` -/
  microAvg : Option ℝ

/-- Initial values. -/
noncomputable def Sums.zero : Sums := ⟨0, some 0, some 0, some 0⟩

open Classical in
/-- `bouncing_algorithm` (`solve.cc:339-711`). -/
noncomputable def bouncingStat {S : Type*} (o : StagOps S) (r : OldNorms S) (p : StagParams) :
    ℕ → ℕ → ℕ → Bool → ℕ → Sums → S → Ended S
  | 0, _, _, _, _, _, _ => .outOfFuel
  | fuel + 1, i, c, m, k, a, s =>
    if below (o.macroNorm s) p.tolMacro ∧ ¬ (c = 1 ∧ i = 0) then
      if m then
        .returned s k ⟨a.loops, some 0, divN a.macroAvg a.loops, some 0, divN a.microAvg a.loops⟩
      else
        match microStat o r p.nMicro p.tolMicro (p.nMicro + 1) 0 (some 0) (o.startMicro s) with
        | .returned s' j avg =>
          if ¬ c + 1 ≤ p.nLoops then .threw (k + j)
          else bouncingStat o r p fuel 0 (c + 1) true (k + j)
            ⟨a.loops + 1, some 0, a.macroAvg, addN a.microAvg avg⟩ s'
        | .threw j => .threw (k + j)
        | .outOfFuel => .outOfFuel
    else
      if ¬ i + 1 ≤ p.nMacro then .threw k
      else
        let s' := o.macroIt (i + 1) s
        let l := addN a.localMacro (cRate (o.macroNorm s') (r.macroOld (i + 1) s))
        let t := if below (o.macroNorm s') p.tolMacro then addN a.macroAvg (divN l (i + 1)) else a.macroAvg
        bouncingStat o r p fuel (i + 1) c false (k + 1) ⟨a.loops, l, t, a.microAvg⟩ s'

/-- Variables for the statistics of `embracing_algorihtm` (`solve.cc:749-753`). -/
structure ESums where
  /-- `old_residual_l2_norms[0]` -/
  old : Option ℝ
  /-- `average_macro_order_of_convergence` -/
  macroAvg : Option ℝ
  /-- `reduced_average_macro_order_of_convergence` -/
  reduced : Option ℝ
  /-- `average_micro_order_of_convergence` -/
  microAvg : Option ℝ

/-- Initial values; the old norm is set in the first pass. -/
noncomputable def ESums.zero : ESums := ⟨some 0, some 0, some 0, some 0⟩

open Classical in
/-- `embracing_algorihtm` (`solve.cc:715-1039`). -/
noncomputable def embracingStat {S : Type*} (o : StagOps S) (r : OldNorms S) (p : StagParams) :
    ℕ → ℕ → Bool → ℕ → ESums → S → Ended S
  | 0, _, _, _, _, _ => .outOfFuel
  | fuel + 1, i, m, k, a, s0 =>
    let s := o.evaluate s0
    let old := if i = 0 then o.macroNorm s else a.old
    if below (o.macroNorm s) p.tolMacro ∧ m = true then
      .returned s k ⟨i, some 0, divN a.macroAvg i, divN a.reduced (i - 1), divN a.microAvg i⟩
    else
      if ¬ i + 1 ≤ p.nMacro then .threw k
      else
        let s1 := o.macroIt (i + 1) s
        let x := cRate (o.macroNorm s1) old
        match microStat o r p.nMicro p.tolMicro (p.nMicro + 1) 0 (some 0) (o.startMicro s1) with
        | .returned s' j avg =>
          embracingStat o r p fuel (i + 1) true (k + 1 + j)
            ⟨o.macroNorm s1, addN a.macroAvg x, if 1 < i + 1 then addN a.reduced x else a.reduced,
              addN a.microAvg avg⟩ s'
        | .threw j => .threw (k + 1 + j)
        | .outOfFuel => .outOfFuel

/-! ## Tables -/

/-- deal.II's `TableHandler` without automatic filling: columns in the order of their declaration. -/
abbrev Tab := List (String × List (Option ℝ))

/-- `declare_column`. -/
def Tab.declare (t : Tab) (c : String) : Tab := t ++ [(c, [])]

/-- A table with the given columns declared. -/
def Tab.ofNames (l : List String) : Tab := l.foldl Tab.declare []

/-- `add_value`: an unknown column is declared, the value is appended to its column. -/
noncomputable def Tab.add (t : Tab) (c : String) (v : Option ℝ) : Tab :=
  (if c ∈ t.map Prod.fst then t else t.declare c).map fun q => if q.1 = c then (q.1, q.2 ++ [v]) else q

/-- `write_text`: the rows, or a fault (`none`) if the columns differ in length.  deal.II requires columns of
equal length (`ExcWrongNumberOfDataEntries`, checked in debug mode; without the check it reads behind the
end of the short columns). -/
noncomputable def Tab.write (t : Tab) : Option (List (List (Option ℝ))) :=
  match t with
  | [] => some []
  | q :: _ =>
    if ∀ r ∈ t, r.2.length = q.2.length then
      some ((List.range q.2.length).map fun i => t.map fun r => r.2.getD i none)
    else none

/-- The solver's table as constructed
(`source/gradient_crystal_plasticity/gradient_crystal_plasticity_solver.cc:169-180`). -/
def solverTable : Tab :=
  Tab.ofNames ["LoadStep", "Iterations", "MonoAverageConvergence", "MacroAverageConvergence",
    "ReducedMacroAverageConvergence", "MicroAverageConvergence"]

/-- The `add_value` calls at the end of an algorithm (`solve.cc:313-319`, `324-330`, `416-424`, `1019-1034`). -/
noncomputable def addRow (t : Tab) (r : Row) : Tab :=
  ((((t.add "Iterations" (some r.iterations)).add "MonoAverageConvergence" r.mono).add
    "MacroAverageConvergence" r.macroAvg).add "ReducedMacroAverageConvergence" r.reduced).add
    "MicroAverageConvergence" r.microAvg

/-- The table of `Postprocessing::SimpleShear` (`source/postprocessing.cc:701-702`). -/
def shearTable : Tab := Tab.ofNames ["shear_at_upper_boundary", "stress_12_at_upper_boundary"]

/-- The calls of `compute_data` (`source/postprocessing.cc:782-783`). -/
noncomputable def addShear (t : Tab) (load stress : Option ℝ) : Tab :=
  (t.add "shear_at_upper_boundary" load).add "stress_12_at_upper_boundary" stress

/-- The table of a `LineSearch` (`source/line_search.cc:16-19`, `33-36`). -/
def lineTable : Tab := Tab.ofNames ["S", "N-Itr", "L-Itr", "Rlx-Prm"]

/-- The calls of `get_lambda` (`source/line_search.cc:85-88`). -/
noncomputable def addLine (t : Tab) (step iteration n : ℕ) (lambda : Option ℝ) : Tab :=
  (((t.add "S" (some step)).add "N-Itr" (some iteration)).add "L-Itr" (some n)).add "Rlx-Prm" lambda

end Verif.Drv
