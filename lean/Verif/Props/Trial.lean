import Verif.Model.Trial
import Verif.Props.LineSearch
import Mathlib.Tactic.Linarith
import Mathlib.Tactic.Ring
import Mathlib.Tactic.NormNum
import Mathlib.Tactic.FieldSimp
import Mathlib.Tactic.FinCases

/-!
# Properties C05, C06, C11, C12 and the constraint part of C63
-/

namespace Verif.Sol
open Verif Verif.LS

variable {D : Type*}

/-! ## Helpers on constraints and blocks -/

theorem distribute_free {c : Constraints D} {v : D → ℝ} {d : D} (h : c d = none) :
    distribute c v d = v d := by
  unfold distribute; rw [h]

theorem distribute_line {c : Constraints D} {v : D → ℝ} {d : D} {l : Line D} (h : c d = some l) :
    distribute c v d = l.eval v := by
  unfold distribute; rw [h]

theorem Line.eval_congr {l : Line D} {v w : D → ℝ} (h : ∀ e ∈ l.entries, v e.1 = w e.1) :
    l.eval v = l.eval w := by
  unfold Line.eval
  congr 2
  apply List.map_congr_left
  intro e he; rw [h e he]

theorem distribute_satisfies {c : Constraints D} (hc : Closed c) (v : D → ℝ) :
    Satisfies c (distribute c v) := by
  intro i l hl
  rw [distribute_line hl]
  apply Line.eval_congr
  intro e he
  rw [distribute_free (hc i l hl e he)]

theorem distribute_of_satisfies {c : Constraints D} {v : D → ℝ} (h : Satisfies c v) :
    distribute c v = v := by
  funext i
  cases hi : c i with
  | none => exact distribute_free hi
  | some l => rw [distribute_line hi]; exact (h i l hi).symm

/-- If every block of a vector comes from a vector that satisfies block-local constraints,
the vector satisfies them. -/
theorem satisfies_assignBlock {c : Constraints D} {blk : D → ℕ} (hb : BlockLocal c blk) {b : ℕ}
    {v w : D → ℝ} (hv : ∀ i l, c i = some l → blk i ≠ b → v i = l.eval v)
    (hw : Satisfies c w) : Satisfies c (assignBlock blk b v w) := by
  intro i l hl
  by_cases h : blk i = b
  · unfold assignBlock; rw [if_pos h, hw i l hl]
    apply Line.eval_congr
    intro e he
    rw [if_pos (by rw [hb i l hl e he, h])]
  · rw [show assignBlock blk b v w i = v i by unfold assignBlock; rw [if_neg h], hv i l hl h]
    apply Line.eval_congr
    intro e he
    unfold assignBlock
    rw [if_neg (by rw [hb i l hl e he]; exact h)]

theorem updateTrial_free {c : Constraints D} {blk : D → ℕ} {b : ℕ} {lam : ℝ} {upd x : D → ℝ}
    {d : D} (hd : c d = none) (hb : blk d = b) :
    updateTrial c blk b lam upd x d = x d + lam * upd d := by
  unfold updateTrial assignBlock
  rw [if_pos hb, distribute_free hd]
  unfold addBlock; rw [if_pos hb]

theorem updateTrial_other {c : Constraints D} {blk : D → ℕ} {b : ℕ} {lam : ℝ} {upd x : D → ℝ}
    {d : D} (hb : blk d ≠ b) : updateTrial c blk b lam upd x d = x d := by
  unfold updateTrial assignBlock; rw [if_neg hb]

theorem resetTrial_other {c : Constraints D} {blk : D → ℕ} {b : ℕ} {stored x : D → ℝ}
    {d : D} (hb : blk d ≠ b) : resetTrial c blk b stored x d = x d := by
  unfold resetTrial assignBlock; rw [if_neg hb]

theorem resetTrial_free {c : Constraints D} {blk : D → ℕ} {b : ℕ} {stored x : D → ℝ}
    {d : D} (hd : c d = none) (hb : blk d = b) : resetTrial c blk b stored x d = stored d := by
  unfold resetTrial assignBlock; rw [if_pos hb, distribute_free hd]

/-! ## C05 -/

/-- C05 for the macro block (and, with a single block, for the monolithic line search): the
trial solution was `x0` when it was stored, the full Newton update was applied, then the
line search tried the relaxation parameters `lams` (any number of them).  Every
unconstrained degree of freedom of the block is at `x0 + λ·Δ` with the *last* relaxation
parameter, and every degree of freedom of the other block is where it was. -/
theorem C05_line_search_result_macro (c : Constraints D) (blk : D → ℕ) (x0 upd : D → ℝ)
    (lams : List ℝ) (d : D) :
    (blk d = 0 → c d = none →
      lsTrial c blk 0 x0 upd lams (updateTrial c blk 0 1 upd x0) d
        = x0 d + (lams.getLast?.getD 1) * upd d) ∧
    (blk d ≠ 0 → lsTrial c blk 0 x0 upd lams (updateTrial c blk 0 1 upd x0) d = x0 d) := by
  have key : ∀ (ls : List ℝ) (x : D → ℝ),
      (blk d = 0 → c d = none → lsTrial c blk 0 x0 upd ls x d
        = if ls = [] then x d else x0 d + (ls.getLast?.getD 1) * upd d) ∧
      (blk d ≠ 0 → lsTrial c blk 0 x0 upd ls x d = x d) := by
    intro ls
    induction ls with
    | nil => intro x; simp [lsTrial]
    | cons l ls ih =>
      intro x
      obtain ⟨h1, h2⟩ := ih (lsPass c blk 0 x0 upd l x)
      constructor
      · intro hb hd
        rw [lsTrial, h1 hb hd]
        by_cases hls : ls = []
        · subst hls
          simp only [if_true, List.cons_ne_nil, if_false, List.getLast?_singleton, Option.getD_some]
          rw [lsPass, updateTrial_free hd hb, resetTrial_free hd hb]
        · rw [if_neg hls, if_neg (by simp)]
          rw [List.getLast?_cons]
          cases h : ls.getLast? with
          | none => exact absurd (List.getLast?_eq_none_iff.mp h) hls
          | some z => simp
      · intro hb
        rw [lsTrial, h2 hb, lsPass, updateTrial_other hb, resetTrial_other hb]
  obtain ⟨h1, h2⟩ := key lams (updateTrial c blk 0 1 upd x0)
  constructor
  · intro hb hd
    rw [h1 hb hd]
    by_cases hl : lams = []
    · subst hl; rw [if_pos rfl, updateTrial_free hd hb]; simp
    · rw [if_neg hl]
  · intro hb; rw [h2 hb, updateTrial_other hb]

/-- What the line search really does to the micro (slip) block: because the reset concerns
the macro block only, the relaxed updates accumulate. -/
theorem C05_line_search_result_micro_partial (c : Constraints D) (blk : D → ℕ) (x0 upd : D → ℝ)
    (lams : List ℝ) (d : D) (hb : blk d = 1) (hd : c d = none) :
    lsTrial c blk 1 x0 upd lams (updateTrial c blk 1 1 upd x0) d
      = x0 d + (1 + lams.sum) * upd d := by
  have key : ∀ (ls : List ℝ) (x : D → ℝ),
      lsTrial c blk 1 x0 upd ls x d = x d + ls.sum * upd d := by
    intro ls
    induction ls with
    | nil => intro x; simp [lsTrial]
    | cons l ls ih =>
      intro x
      rw [lsTrial, ih, lsPass, updateTrial_free hd hb, resetTrial_other (by omega), List.sum_cons]
      ring
  rw [key, updateTrial_free hd hb]; ring

/-- C05 is violated for the slip block: for *every* unconstrained slip degree of freedom with a
non-zero update and every list of positive relaxation parameters tried, the result is not
`x0 + λ·Δ` with the relaxation parameter the line search reports. -/
theorem C05_violated_micro (c : Constraints D) (blk : D → ℕ) (x0 upd : D → ℝ)
    (lams : List ℝ) (hne : lams ≠ []) (hpos : ∀ l ∈ lams, 0 < l)
    (d : D) (hb : blk d = 1) (hd : c d = none) (hu : upd d ≠ 0) :
    lsTrial c blk 1 x0 upd lams (updateTrial c blk 1 1 upd x0) d
      ≠ x0 d + (lams.getLast?.getD 1) * upd d := by
  rw [C05_line_search_result_micro_partial c blk x0 upd lams d hb hd]
  obtain ⟨ls, z, rfl⟩ := (List.eq_nil_or_concat lams).resolve_left hne
  have hs : 0 ≤ ls.sum := List.sum_nonneg (fun x hx => (hpos x (by simp [hx])).le)
  simp only [List.concat_eq_append, List.getLast?_append, List.getLast?_singleton, Option.some_or,
    Option.getD_some, List.sum_append, List.sum_singleton]
  intro h
  have : (1 + ls.sum) * upd d = 0 := by linarith
  rcases mul_eq_zero.mp this with h | h
  · linarith
  · exact hu h

/-- Non-vacuity of the three theorems above: one displacement and one slip, no constraints,
relaxation parameters 1/2 and 1/4. -/
example :
    lsTrial (D := Bool) (fun _ => none) (blockOf false id) 0 (fun _ => 1) (fun _ => 8) [1/2, 1/4]
      (updateTrial (fun _ => none) (blockOf false id) 0 1 (fun _ => 8) (fun _ => 1)) false = 3 ∧
    lsTrial (D := Bool) (fun _ => none) (blockOf false id) 1 (fun _ => 1) (fun _ => 8) [1/2, 1/4]
      (updateTrial (fun _ => none) (blockOf false id) 1 1 (fun _ => 8) (fun _ => 1)) true = 15 := by
  constructor
  · rw [(C05_line_search_result_macro _ _ _ _ _ _).1 (by simp [blockOf]) rfl]; norm_num
  · rw [C05_line_search_result_micro_partial _ _ _ _ _ _ (by simp [blockOf]) rfl]; norm_num

/-! ### The line search as a whole -/

/-- State after `k` passes of `lsRun`: line search, relaxation parameter, trial solution. -/
noncomputable def lsAfter (resid : (D → ℝ) → Option ℝ) (c : Constraints D) (blk : D → ℕ) (b : ℕ)
    (stored upd : D → ℝ) (s : LineSearch) (x : Option (D → ℝ)) :
    ℕ → LineSearch × Option ℝ × Option (D → ℝ)
  | 0 => (s, some 1, x)
  | k + 1 =>
    let p := lsAfter resid c blk b stored upd s x k
    let r := getLambda p.1 ((p.2.2.bind resid).map objective) p.2.1
    (r.1, r.2, match r.2, p.2.2 with
      | some l, some x => some (lsPass c blk b stored upd l x)
      | _, _ => none)

theorem lsAfter_after (resid : (D → ℝ) → Option ℝ) (c : Constraints D) (blk : D → ℕ) (b : ℕ)
    (stored upd : D → ℝ) (s : LineSearch) (x : Option (D → ℝ)) (k : ℕ) :
    after s (fun j => ((lsAfter resid c blk b stored upd s x j).2.2.bind resid).map objective) k
      = ((lsAfter resid c blk b stored upd s x k).1, (lsAfter resid c blk b stored upd s x k).2.1) := by
  induction k with
  | zero => rfl
  | succ k ih => rw [after, ih]; rfl

theorem lsRun_loop (resid : (D → ℝ) → Option ℝ) (c : Constraints D) (blk : D → ℕ) (b : ℕ)
    (stored upd : D → ℝ) (s : LineSearch) (x : Option (D → ℝ)) (fuel k : ℕ) :
    lsRun resid c blk b stored upd fuel (lsAfter resid c blk b stored upd s x k).1
        (lsAfter resid c blk b stored upd s x k).2.1 (lsAfter resid c blk b stored upd s x k).2.2
      = (loop (fun j => ((lsAfter resid c blk b stored upd s x j).2.2.bind resid).map objective)
          fuel k (lsAfter resid c blk b stored upd s x k).1
          (lsAfter resid c blk b stored upd s x k).2.1).map
        (fun out => (out.lam, (lsAfter resid c blk b stored upd s x out.k).2.2)) := by
  induction fuel generalizing k with
  | zero => simp [lsRun, loop]
  | succ fuel ih =>
    rw [lsRun, loop]
    simp only
    split_ifs with h
    · simp
    · exact ih (k + 1)

theorem lsAfter_lsTrial (resid : (D → ℝ) → Option ℝ) (c : Constraints D) (blk : D → ℕ) (b : ℕ)
    (stored upd : D → ℝ) (s : LineSearch) (f0 : ℝ) (x : D → ℝ) (k : ℕ) (l : ℝ)
    (h : (lsAfter resid c blk b stored upd (reinit s f0) (some x) k).2.1 = some l) :
    ∃ lams : List ℝ, lams.length = k ∧ (lams.getLast?.getD 1) = l ∧ (∀ z ∈ lams, 0 < z) ∧
      (lsAfter resid c blk b stored upd (reinit s f0) (some x) k).2.2
        = some (lsTrial c blk b stored upd lams x) := by
  induction k generalizing l with
  | zero =>
    simp only [lsAfter, Option.some.injEq] at h
    exact ⟨[], rfl, by simpa using h, by simp, rfl⟩
  | succ k ih =>
    have hc := C01_compound s f0
      (fun j => ((lsAfter resid c blk b stored upd (reinit s f0) (some x) j).2.2.bind resid).map
        objective) (k + 1) l (by rw [lsAfter_after]; exact h)
    obtain ⟨l', hl', -⟩ := hc.2.2 k (by omega)
    rw [lsAfter_after] at hl'
    obtain ⟨lams, hlen, -, hpos, hx⟩ := ih l' hl'
    have hlpos : 0 < l := lt_of_lt_of_le (by positivity) hc.1
    refine ⟨lams ++ [l], by simp [hlen], by simp, ?_, ?_⟩
    · intro z hz
      rcases List.mem_append.mp hz with hz | hz
      · exact hpos z hz
      · rw [List.mem_singleton.mp hz]; exact hlpos
    · have happ : ∀ (ls : List ℝ) (y : D → ℝ),
          lsTrial c blk b stored upd (ls ++ [l]) y
            = lsPass c blk b stored upd l (lsTrial c blk b stored upd ls y) := by
        intro ls
        induction ls with
        | nil => intro y; rfl
        | cons a ls ih2 => intro y; rw [List.cons_append, lsTrial, ih2, lsTrial]
      rw [happ]
      rw [lsAfter] at h ⊢
      simp only at h ⊢
      rw [h, hx]

/-- C05, whole algorithm on the macro block (and the monolithic one on a single block), for
*any* residual norm function: the line search finishes; if the relaxation parameter `λ` it
returns is a number, the trial solution it leaves is `x0 + λ·Δ` on the unconstrained degrees
of freedom of the block and `x0` on the other block, and its objective value has sufficient
decrease unless the iteration limit was exceeded. -/
theorem C05_line_search_macro (resid : (D → ℝ) → Option ℝ) (c : Constraints D) (blk : D → ℕ)
    (x0 upd : D → ℝ) (s : LineSearch) (f0 : ℝ) :
    ∃ lam x, lsRun resid c blk 0 x0 upd (s.nMax + 2) (reinit s f0) (some 1)
        (some (updateTrial c blk 0 1 upd x0)) = some (lam, x) ∧
      ∀ l, lam = some l → ∃ y, x = some y ∧
        (∀ d, blk d = 0 → c d = none → y d = x0 d + l * upd d) ∧
        (∀ d, blk d ≠ 0 → y d = x0 d) ∧
        ((∃ r, resid y = some r ∧ r ^ 2 / 2 < f0 + s.alpha * l * (-2 * f0)) ∨
          l ≤ (0.5 : ℝ) ^ (s.nMax + 1)) := by
  set x1 := updateTrial c blk 0 1 upd x0
  set obj := fun j => ((lsAfter resid c blk 0 x0 upd (reinit s f0) (some x1) j).2.2.bind resid).map
    objective with hobj
  obtain ⟨out, ho, -, hlam, hf, hend, -⟩ := C02_line_search_terminates s f0 obj
  have hrun := lsRun_loop resid c blk 0 x0 upd (reinit s f0) (some x1) (s.nMax + 2) 0
  simp only [lsAfter] at hrun
  refine ⟨out.lam, (lsAfter resid c blk 0 x0 upd (reinit s f0) (some x1) out.k).2.2, ?_, ?_⟩
  · rw [hrun, ho]; rfl
  · intro l hl
    rw [hl, lsAfter_after] at hlam
    obtain ⟨lams, hlen, hlast, -, hx⟩ :=
      lsAfter_lsTrial resid c blk 0 x0 upd s f0 x1 out.k l hlam.symm
    refine ⟨_, hx, ?_, ?_, ?_⟩
    · intro d hb hd
      rw [(C05_line_search_result_macro c blk x0 upd lams d).1 hb hd, hlast]
    · intro d hb
      rw [(C05_line_search_result_macro c blk x0 upd lams d).2 hb]
    · rcases hend with ⟨f, l', hf', hl', hlt⟩ | hk
      · left
        rw [hl] at hl'
        simp only [Option.some.injEq] at hl'
        subst hl'
        rw [hf, hobj] at hf'
        simp only [hx, Option.bind_some] at hf'
        cases hr : resid (lsTrial c blk 0 x0 upd lams x1) with
        | none => rw [hr] at hf'; simp at hf'
        | some r =>
          rw [hr] at hf'
          simp only [Option.map_some, Option.some.injEq] at hf'
          refine ⟨r, rfl, ?_⟩
          have e : r ^ 2 / 2 = objective r := by unfold objective; ring
          rw [e, hf']; exact hlt
      · right
        have hc := C01_compound s f0 obj out.k l (by rw [lsAfter_after]; exact hlam.symm)
        rw [hk] at hc
        exact hc.2.1

/-- Non-vacuity: one unknown, residual `x - 3`, start value 0, exact Newton update 3: the
line search keeps the full step. -/
example : lsRun (D := Unit) (fun y => some |y () - 3|) (fun _ => none) (fun _ => 0) 0 (fun _ => 0)
    (fun _ => 3) (15 + 2) (reinit (construct 15 1e-4) (objective 3)) (some 1)
    (some (updateTrial (fun _ => none) (fun _ => 0) 0 1 (fun _ => 3) (fun _ => 0)))
      = some (some 1, some (updateTrial (fun _ => none) (fun _ => 0) 0 1 (fun _ => 3) (fun _ => 0))) := by
  rw [show (15 + 2 : ℕ) = 16 + 1 from rfl, lsRun]
  simp only
  rw [if_pos]
  right
  simp only [Option.bind_some, Option.map_some, updateTrial_free (c := fun _ : Unit => none)
    (blk := fun _ => 0) (b := 0) (d := ()) rfl rfl, descends, reinit, construct, objective]
  norm_num

/-- C05 in the monolithic loop is also violated when an active set was just determined: the
trial solution is stored *before* the inactive slips are reset to their old values
(`solve.cc:208-217`), so a backtrack puts an inactive slip back to the extrapolated value
instead of the value the Newton update was computed at (Newton update zero there). -/
theorem C05_violated_inactive (c : Constraints D) (blk : D → ℕ) (inactive : D → Prop)
    [DecidablePred inactive] (old x upd : D → ℝ) (lams : List ℝ) (hne : lams ≠ [])
    (d : D) (hb : blk d = 0) (hd : c d = none) (hi : inactive d) (hu : upd d = 0)
    (hx : x d ≠ old d) :
    resetInactive c inactive old x d = old d ∧
    lsTrial c blk 0 x upd lams
      (updateTrial c blk 0 1 upd (resetInactive c inactive old x)) d ≠ old d := by
  constructor
  · unfold resetInactive; rw [distribute_free hd, if_pos hi]
  · obtain ⟨l, ls, rfl⟩ := List.exists_cons_of_ne_nil hne
    have h1 : ∀ y, lsPass c blk 0 x upd l y = lsPass c blk 0 x upd l y := fun _ => rfl
    have key : ∀ (ls : List ℝ) (y : D → ℝ), y d = x d → lsTrial c blk 0 x upd ls y d = x d := by
      intro ls
      induction ls with
      | nil => intro y hy; exact hy
      | cons a ls ih =>
        intro y _
        rw [lsTrial]
        apply ih
        rw [lsPass, updateTrial_free hd hb, resetTrial_free hd hb, hu]; ring
    rw [lsTrial, key]
    · exact hx
    · rw [lsPass, updateTrial_free hd hb, resetTrial_free hd hb, hu]; ring

/-! ## C06 -/

/-- C06 with the single-block layout: the monolithic update adds `λ·Δ` to every unconstrained
degree of freedom, and the result satisfies the constraints. -/
theorem C06_single_block (c : Constraints D) (hc : Closed c) (isSlip : D → Bool) (lam : ℝ)
    (upd x : D → ℝ) :
    (∀ d, c d = none →
      updateTrialMono c (blockOf true isSlip) lam upd x d = x d + lam * upd d) ∧
    Satisfies c (updateTrialMono c (blockOf true isSlip) lam upd x) := by
  constructor
  · intro d hd; exact updateTrial_free hd rfl
  · have : updateTrialMono c (blockOf true isSlip) lam upd x
        = distribute c (addBlock (blockOf true isSlip) 0 lam x upd) := by
      funext d; simp [updateTrialMono, updateTrial, assignBlock, blockOf]
    rw [this]; exact distribute_satisfies hc _

/-- The application does build the two-block layout for the monolithic algorithm. -/
theorem C06_two_block_reachable : appSingleBlock true false false = false := rfl

/-- C06 is violated in the two-block layout: no slip degree of freedom is ever changed by the
monolithic update, whatever the Newton update says. -/
theorem C06_violated_two_block (c : Constraints D) (isSlip : D → Bool) (lam : ℝ)
    (upd x : D → ℝ) (d : D) (hd : isSlip d = true) :
    updateTrialMono c (blockOf false isSlip) lam upd x d = x d ∧
    (lam * upd d ≠ 0 →
      updateTrialMono c (blockOf false isSlip) lam upd x d ≠ x d + lam * upd d) := by
  have h : updateTrialMono c (blockOf false isSlip) lam upd x d = x d :=
    updateTrial_other (by simp [blockOf, hd])
  refine ⟨h, fun hne => ?_⟩
  rw [h]; intro he; apply hne; linarith

/-- The overload with one relaxation parameter per field updates every degree of freedom:
displacements with the first, slips with the second parameter. -/
theorem C06_multi (c : Constraints D) (isSlip : D → Bool) (lamU lamG : ℝ) (upd x : D → ℝ) (d : D)
    (hd : c d = none) :
    (isSlip d = false → updateTrialMulti c isSlip lamU lamG upd x d = x d + lamU * upd d) ∧
    (isSlip d = true → updateTrialMulti c isSlip lamU lamG upd x d = x d + lamG * upd d) := by
  unfold updateTrialMulti; rw [distribute_free hd]
  constructor <;> intro h <;> simp [h]

/-- Non-vacuity: a closed constraint object with a real line (`x_true = 2 x_false + 1`). -/
example : Closed (D := Bool) (fun d => if d then some ⟨[(false, 2)], 1⟩ else none) ∧
    updateTrialMono (fun d => if d then some ⟨[(false, 2)], 1⟩ else none) (blockOf true id) 1
      (fun _ => 5) (fun _ => 0) true = 11 := by
  constructor
  · intro i l hl e he
    cases i <;> simp at hl
    subst hl; simp at he; simp [he]
  · norm_num [updateTrialMono, updateTrial, assignBlock, blockOf, distribute, Line.eval, addBlock]

/-! ## C11 -/

/-- C11, accuracy: if the last two accepted solutions are `a + t₁·v` and `a + t₀·v`, the start
value at the next time `t₂` with extrapolation factor 1 is `a + t₂·v` on every degree of
freedom without hanging-node constraint, for any step sizes. -/
theorem C11_extrapolation_exact_on_lines (hn nc : Constraints D) (n : ℕ) (hnpos : 0 < n)
    (t0 t1 t2 : ℝ) (h01 : t0 < t1) (a v : D → ℝ) (d : D) (hd : hn d = none) :
    (extrapolate hn nc false (stepRatio n 1 (t2 - t1) (t1 - t0))
      (fun d => a d + t1 * v d) (fun d => a d + t0 * v d)).1 d = a d + t2 * v d := by
  have h : t1 - t0 ≠ 0 := by linarith
  simp only [extrapolate, Bool.false_eq_true, if_false, stepRatio, if_pos hnpos]
  rw [distribute_free hd]
  field_simp
  ring

/-- C11: on the first step (equal histories) and whenever extrapolation is skipped the start
value is the last accepted solution (if that satisfies the hanging-node constraints). -/
theorem C11_first_step_or_skipped (hn nc : Constraints D) (skip : Bool) (ratio : ℝ)
    (old oldold : D → ℝ) (hs : Satisfies hn old) (h : skip = true ∨ oldold = old) :
    (extrapolate hn nc skip ratio old oldold).1 = old := by
  rcases h with h | h
  · simp only [extrapolate, h, if_true]; exact distribute_of_satisfies hs
  · subst h
    have : (fun d => (1 + ratio) * oldold d - ratio * oldold d) = oldold := by funext d; ring
    simp only [extrapolate, this]
    cases skip <;> exact distribute_of_satisfies hs

/-- C11 (partial): when extrapolation is not skipped, the stored update is start value minus
last solution on every degree of freedom free of hanging-node and Newton constraints. -/
theorem C11_update_partial (hn nc : Constraints D) (ratio : ℝ) (old oldold : D → ℝ) (d : D)
    (h1 : hn d = none) (h2 : nc d = none) :
    (extrapolate hn nc false ratio old oldold).2 d
      = (extrapolate hn nc false ratio old oldold).1 d - old d := by
  simp only [extrapolate, Bool.false_eq_true, if_false]
  rw [distribute_free h1, distribute_free h2]; ring

/-- C11 is violated when extrapolation is skipped: the stored update is the last solution
itself, not start value minus last solution (which would be zero). -/
theorem C11_violated_skipped_update (hn nc : Constraints D) (ratio : ℝ) (old oldold : D → ℝ)
    (d : D) (h1 : hn d = none) (h2 : nc d = none) (hold : old d ≠ 0) :
    (extrapolate hn nc true ratio old oldold).2 d
      ≠ (extrapolate hn nc true ratio old oldold).1 d - old d := by
  simp only [extrapolate, if_true]
  rw [distribute_free h1, distribute_free h2]
  simpa using hold

/-- Non-vacuity: times 1, 2, 5 and the line `3 + t·2` are extrapolated to 13. -/
example : (extrapolate (D := Unit) (fun _ => none) (fun _ => none) false (stepRatio 1 1 3 1)
    (fun _ => 7) (fun _ => 5)).1 () = 13 := by
  have := C11_extrapolation_exact_on_lines (D := Unit) (fun _ => none) (fun _ => none) 1
    (by norm_num) 1 2 5 (by norm_num) (fun _ => 3) (fun _ => 2) () rfl
  norm_num at this ⊢
  exact this

/-! ## C12 -/

/-- C12.  Start with all vectors zero (or any `z`); after accepting the solutions
`xs = [x₁, …, x_n]` in order, `old_solution` is the last of them and `old_old_solution` the one
before, with `z` standing in where there are too few. -/
theorem C12_history {V : Type*} (z : V) (xs : List V) :
    (xs.foldl timeStep ⟨z, z, z⟩).old = (xs.getLast?.getD z) ∧
    (xs.foldl timeStep ⟨z, z, z⟩).oldOld = (xs.dropLast.getLast?.getD z) ∧
    (xs.foldl timeStep ⟨z, z, z⟩).solution = (xs.getLast?.getD z) := by
  induction xs using List.reverseRecOn with
  | nil => simp
  | append_singleton ys y ih =>
    rw [List.foldl_append]
    simp only [List.foldl_cons, List.foldl_nil, timeStep, updateSolutionVectors]
    refine ⟨by simp, ?_, by simp⟩
    rw [ih.1]; simp

example : ([1, 2, 3].foldl timeStep (⟨0, 0, 0⟩ : History ℕ)).old = 3 ∧
    ([1, 2, 3].foldl timeStep (⟨0, 0, 0⟩ : History ℕ)).oldOld = 2 := by
  have := C12_history 0 [1, 2, 3]; exact ⟨this.1, this.2.1⟩

/-! ## C63: constraints of the step -/

/-- `update_trial_solution` on any block keeps block-local closed constraints satisfied on the
other block and establishes them on the updated one. -/
theorem C63_update_keeps (c : Constraints D) (hc : Closed c) (blk : D → ℕ)
    (hb : BlockLocal c blk) (b : ℕ) (lam : ℝ) (upd x : D → ℝ) (hx : Satisfies c x) :
    Satisfies c (updateTrial c blk b lam upd x) :=
  satisfies_assignBlock hb (fun i l hl _ => hx i l hl) (distribute_satisfies hc _)

/-- The same for `reset_trial_solution`, whatever vector was stored. -/
theorem C63_reset_keeps (c : Constraints D) (hc : Closed c) (blk : D → ℕ)
    (hb : BlockLocal c blk) (b : ℕ) (stored x : D → ℝ) (hx : Satisfies c x) :
    Satisfies c (resetTrial c blk b stored x) :=
  satisfies_assignBlock hb (fun i l hl _ => hx i l hl) (distribute_satisfies hc _)

/-- The whole line search keeps the constraints satisfied. -/
theorem C63_line_search_keeps (c : Constraints D) (hc : Closed c) (blk : D → ℕ)
    (hb : BlockLocal c blk) (b : ℕ) (stored upd : D → ℝ) (lams : List ℝ) (x : D → ℝ)
    (hx : Satisfies c x) : Satisfies c (lsTrial c blk b stored upd lams x) := by
  induction lams generalizing x with
  | nil => exact hx
  | cons l ls ih =>
    rw [lsTrial]
    exact ih _ (C63_update_keeps c hc blk hb b l upd _ (C63_reset_keeps c hc blk hb 0 stored x hx))

/-- Distributing the constraints, and resetting inactive slips, establishes them. -/
theorem C63_distribute_establishes (c : Constraints D) (hc : Closed c) (inactive : D → Prop)
    [DecidablePred inactive] (old x : D → ℝ) :
    Satisfies c (distribute c x) ∧ Satisfies c (resetInactive c inactive old x) :=
  ⟨distribute_satisfies hc _, distribute_satisfies hc _⟩

end Verif.Sol
