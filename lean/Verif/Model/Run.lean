import Verif.Model.Loading

/-!
# The time loop and its output files

Which steps write which files.  Writing itself (deal.II's `DataOut`, `TableHandler`) always succeeds in
the model; the content of the files is the subject of C56-C58, C70, C71.
-/

namespace Verif.Run
open Verif.Load

/-- Parameters of the output (`source/run_time_parameters.cc:1825-1831,1940-1965`): the frequencies are
non-negative integers, without further check. -/
structure Freq where
  graphical : ℕ
  homogenized : Bool
  homogenization : ℕ

/-- What a run has written: the step numbers behind `solution_0`, `solution_1`, ... (`out_index` is a
counter, so the list index is the file's number), the times of the rows of `homogenization.txt` and of
`stress12_vs_shear_strain_at_boundary.txt`. -/
structure Log where
  files : List ℕ
  rows : List ℝ
  shear : List ℝ

/-- Nothing written. -/
def Log.empty : Log := ⟨[], [], []⟩

open Classical in
/-- `step % frequency == 0 || current == end`; the remainder by zero is undefined behaviour (`none`)
(`applications/simple_shear.cc:681-685,905-908`). -/
noncomputable def due (frequency step : ℕ) (current fin : ℝ) : Option Bool :=
  if frequency = 0 then none else some (step % frequency = 0 ∨ current = fin)

/-- `postprocessing` and the output at the end of a pass; `step`, `current` are the values after
`advance_time` (`applications/simple_shear.cc:677-713,795-841,898-911`). -/
noncomputable def pass (f : Freq) (fin : ℝ) (l : Log) (step : ℕ) (current : ℝ) : Option Log := do
  let h ← if f.homogenized then due f.homogenization step current fin else some false
  let l := if h then { l with rows := l.rows ++ [current] } else l
  let l := { l with shear := l.shear ++ [current] }
  let g ← due f.graphical step current fin
  return if g then { l with files := l.files ++ [step] } else l

/-- The log after `k` passes of the time loop (`applications/simple_shear.cc:863-912`). -/
noncomputable def after (p : Prog) (tol : ℝ) (f : Freq) : ℕ → Option Log
  | 0 => some .empty
  | k + 1 => (after p tol f k).bind fun l => pass f p.endTime l (k + 1) (p.time tol (k + 1))

/-- The run makes exactly `n` passes. -/
def Passes (p : Prog) (tol : ℝ) (n : ℕ) : Prop := ∀ k, p.entered tol k ↔ k < n

/-! ## Command line -/

/-- What `main` does with its arguments. -/
inductive Start where
  /-- run with the parameter file of that name -/
  | file (name : List Char)
  /-- exception -/
  | rejected
  deriving DecidableEq

/-- `arg.find_last_of(".")`: number of characters before the last dot. -/
def lastDot (arg : List Char) : Option ℕ :=
  (arg.reverse.findIdx? (· == '.')).map fun i => arg.length - 1 - i

/-- The switch of `main` over `argc`; `args` are the arguments after the program name
(`applications/simple_shear.cc:934-976`).  `argc == 0` also ends in the `default` branch. -/
def start (args : List (List Char)) : Start :=
  match args with
  | [] => .file "input/parameter_files/simple_shear.prm".toList
  | [arg] =>
    match lastDot arg with
    | some i => if arg.drop (i + 1) = "prm".toList then .file arg else .rejected
    | none => .rejected
  | _ => .rejected

end Verif.Run
