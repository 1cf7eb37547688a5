import Verif.Model.Drivers

/-!
# Operations that fail

The three solution algorithms with operations that may end the program: an exception (`AssertThrow` in the
constitutive laws and the assembly, a residual that is not a number, `source/gradient_crystal_plasticity/assembly.cc:696-698`,
a linear solver called without handler) or `std::abort` (a linear solver called with the handlers of
`source/utilities.cc:16-44`).  Norms are numbers: with NaN, `assemble_residual` throws.

`Verif.Model.Drivers` describes the same algorithms with total operations; a failure is there a state whose
norms are NaN.  `Verif.Props.Raise` relates the two.
-/

namespace Verif.Drv

/-- How the program leaves an algorithm that does not return. -/
inductive Stop where
  /-- an exception the caller can handle -/
  | exception
  /-- `std::abort()` -/
  | abort
  deriving DecidableEq

/-- End of an algorithm; the number counts the linear systems solved. -/
inductive Ending (S : Type*) where
  | returned (s : S) (solves : ℕ)
  | stopped (c : Stop) (solves : ℕ)
  | outOfFuel

/-- Operations of `monolithic_algorithm` (`solve.cc:152-335`); `none`: the operation fails. -/
structure MonoParts (S A : Type*) where
  /-- `store_trial_solution(); reset_and_update_internal_variables();` (200-202) -/
  pre : S → Option S
  /-- `active_set_algorithm` (204, 295) -/
  recompute : S → Option S
  /-- `distribute_affine_constraints_to_trial_solution(); assemble_linear_system();` (208-211) -/
  post : S → Option S
  /-- `solve_linearized_system()` (231) -/
  solve : S → Option S
  /-- `update_trial_solution(1.0);` … line search (233-256) -/
  move : S → Option S
  /-- `reset_trial_solution(true)` (303) -/
  restart : S → Option S
  /-- `get_sub_l2_norms(residual).l2_norm()` -/
  norm : S → ℝ
  /-- `locally_owned_active_set` -/
  active : S → A

open Classical in
/-- `monolithic_algorithm` (`solve.cc:183-331`), rate-independent if `ri`.  The linear solver is called with the
handlers (1085-1160). -/
noncomputable def monoX {S A : Type*} (o : MonoParts S A) (ri : Bool) (nMax : ℕ) (tol : ℝ) :
    ℕ → ℕ → Bool → ℕ → S → Ending S
  | 0, _, _, _, _ => .outOfFuel
  | fuel + 1, n, flag, k, s =>
    if ¬ n + 1 ≤ nMax then .stopped .exception k
    else
      match ((o.pre s).bind fun s1 => if ri = true ∧ flag = true then o.recompute s1 else some s1).bind o.post with
      | none => .stopped .exception k
      | some s3 =>
        match o.solve s3 with
        | none => .stopped .abort k
        | some s' =>
          match o.move s' with
          | none => .stopped .exception (k + 1)
          | some s4 =>
            if o.norm s4 < tol then
              if ri = true then
                match o.recompute s4 with
                | none => .stopped .exception (k + 1)
                | some s5 =>
                  if o.active s4 ≠ o.active s5 then
                    match o.restart s5 with
                    | none => .stopped .exception (k + 1)
                    | some s6 => monoX o ri nMax tol fuel 0 false (k + 1) s6
                  else .returned s5 (k + 1)
              else .returned s4 (k + 1)
            else monoX o ri nMax tol fuel (n + 1) false (k + 1) s4

/-- Operations of the staggered algorithms; `none`: the operation fails. -/
structure StagParts (S : Type*) where
  /-- assembly before a macro solve (`solve.cc:614-632`, `801`) -/
  macroHead : ℕ → S → Option S
  /-- macro linear solve (651, 822-830); the number is that of the iteration -/
  macroSolve : ℕ → S → Option S
  /-- update, residual and line search (653-673, 832-852) -/
  macroMove : S → Option S
  /-- active set, optional reset (`solve.cc:443-467`, `880-893`) -/
  startMicro : S → Option S
  /-- assembly before a micro solve (490-495, 913-920) -/
  microHead : S → Option S
  /-- `solve_decoupled_linearized_subsystem(BlockIndex::Micro)` -/
  microSolve : S → Option S
  /-- update, residual and line search (518-538, 943-966) -/
  microMove : S → Option S
  /-- `store_trial_solution(); … assemble_residual();` (`solve.cc:766-773`) -/
  evaluate : S → Option S
  macroNorm : S → ℝ
  microNorm : S → ℝ

open Classical in
/-- Micro loop (`solve.cc:479-572`, `904-1001`); the solver is called with the handlers (1229-1315). -/
noncomputable def microX {S : Type*} (o : StagParts S) (nMax : ℕ) (tol : ℝ) : ℕ → ℕ → S → Ending S
  | 0, _, _ => .outOfFuel
  | fuel + 1, n, s =>
    if ¬ n + 1 ≤ nMax then .stopped .exception n
    else
      match o.microHead s with
      | none => .stopped .exception n
      | some s1 =>
        match o.microSolve s1 with
        | none => .stopped .abort n
        | some s2 =>
          match o.microMove s2 with
          | none => .stopped .exception (n + 1)
          | some s' =>
            if o.microNorm s' < tol then .returned s' (n + 1) else microX o nMax tol fuel (n + 1) s'

/-- One macro iteration, or how it ends; the linear solver fails with `c`. -/
def macroX {S : Type*} (o : StagParts S) (c : Stop) (i k : ℕ) (s : S) : S ⊕ (Stop × ℕ) :=
  match o.macroHead i s with
  | none => .inr (.exception, k)
  | some s1 =>
    match o.macroSolve i s1 with
    | none => .inr (c, k)
    | some s2 =>
      match o.macroMove s2 with
      | none => .inr (.exception, k + 1)
      | some s' => .inl s'

open Classical in
/-- `bouncing_algorithm` (`solve.cc:339-711`); all linear solvers are called with the handlers. -/
noncomputable def bouncingX {S : Type*} (o : StagParts S) (p : StagParams) :
    ℕ → ℕ → ℕ → Bool → ℕ → S → Ending S
  | 0, _, _, _, _, _ => .outOfFuel
  | fuel + 1, i, c, m, k, s =>
    if o.macroNorm s < p.tolMacro ∧ ¬ (c = 1 ∧ i = 0) then
      if m then .returned s k
      else
        match o.startMicro s with
        | none => .stopped .exception k
        | some s1 =>
          match microX o p.nMicro p.tolMicro (p.nMicro + 1) 0 s1 with
          | .returned s' j =>
            if ¬ c + 1 ≤ p.nLoops then .stopped .exception (k + j)
            else bouncingX o p fuel 0 (c + 1) true (k + j) s'
          | .stopped e j => .stopped e (k + j)
          | .outOfFuel => .outOfFuel
    else
      if ¬ i + 1 ≤ p.nMacro then .stopped .exception k
      else
        match macroX o .abort (i + 1) k s with
        | .inr e => .stopped e.1 e.2
        | .inl s' => bouncingX o p fuel (i + 1) c false (k + 1) s'

open Classical in
/-- `embracing_algorihtm` (`solve.cc:715-1039`); the solver of the reduced system, used from the second macro
iteration on, is called without handler (1425-1449). -/
noncomputable def embracingX {S : Type*} (o : StagParts S) (p : StagParams) :
    ℕ → ℕ → Bool → ℕ → S → Ending S
  | 0, _, _, _, _ => .outOfFuel
  | fuel + 1, i, m, k, s0 =>
    match o.evaluate s0 with
    | none => .stopped .exception k
    | some s =>
      if o.macroNorm s < p.tolMacro ∧ m = true then .returned s k
      else
        if ¬ i + 1 ≤ p.nMacro then .stopped .exception k
        else
          match macroX o (if i + 1 = 1 then .abort else .exception) (i + 1) k s with
          | .inr e => .stopped e.1 e.2
          | .inl s1 =>
            match o.startMicro s1 with
            | none => .stopped .exception (k + 1)
            | some s2 =>
              match microX o p.nMicro p.tolMicro (p.nMicro + 1) 0 s2 with
              | .returned s' j => embracingX o p fuel (i + 1) true (k + 1 + j) s'
              | .stopped e j => .stopped e (k + 1 + j)
              | .outOfFuel => .outOfFuel

end Verif.Drv
