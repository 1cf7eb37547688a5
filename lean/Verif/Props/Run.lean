import Verif.Model.Run
import Verif.Props.Loading

/-!
# Output schedule and command line: C75
-/

namespace Verif.Run
open Verif.Load

/-! ## Specification -/

/-- The steps of a run of `n` steps that are to be written: every `f`-th and the last one. -/
def SpecSteps (f n : ℕ) : List ℕ := (List.range' 1 n).filter fun k => k % f = 0 ∨ k = n

/-- The argument ends in `.prm`. -/
def SpecPrm (arg : List Char) : Prop := ∃ base : List Char, arg = base ++ ".prm".toList

/-! ## Helpers -/

theorem due_some {f : ℕ} (hf : f ≠ 0) (k : ℕ) (t fin : ℝ) :
    ∃ b, due f k t fin = some b ∧ (b = true ↔ k % f = 0 ∨ t = fin) := by
  unfold due
  rw [if_neg hf]
  exact ⟨_, rfl, by simp⟩

/-- The log after some passes of a run of `n` passes. -/
theorem after_eq (p : Prog) (tol : ℝ) (f : Freq) (hf : f.graphical ≠ 0)
    (hh : f.homogenized = true → f.homogenization ≠ 0) (n : ℕ)
    (hlt : ∀ k < n, p.time tol k < p.endTime) (hn : p.time tol n = p.endTime) (k : ℕ)
    (hk : k ≤ n) :
    after p tol f k = some
      ⟨(List.range' 1 k).filter fun j => j % f.graphical = 0 ∨ j = n,
       if f.homogenized then ((List.range' 1 k).filter fun j =>
          j % f.homogenization = 0 ∨ j = n).map (p.time tol) else [],
       (List.range' 1 k).map (p.time tol)⟩ := by
  induction k with
  | zero => simp [after, Log.empty]
  | succ k ih =>
    have hend : p.time tol (k + 1) = p.endTime ↔ k + 1 = n := by
      constructor
      · intro h
        by_contra hne
        exact absurd h (hlt (k + 1) (by omega)).ne
      · rintro rfl; exact hn
    have hr : List.range' 1 (k + 1) = List.range' 1 k ++ [k + 1] := by
      rw [List.range'_1_concat]; congr 2; omega
    unfold after
    rw [ih (by omega), Option.bind_some]
    unfold pass
    obtain ⟨g, hg, hgi⟩ := due_some hf (k + 1) (p.time tol (k + 1)) p.endTime
    rw [hend] at hgi
    rw [hg, hr]
    simp only [List.filter_append, List.map_append, List.map_cons, List.map_nil]
    have hfil : ∀ m : ℕ, (List.filter (fun j => decide (j % m = 0 ∨ j = n)) [k + 1]) =
        if (k + 1) % m = 0 ∨ k + 1 = n then [k + 1] else [] := by
      intro m
      by_cases h : (k + 1) % m = 0 ∨ k + 1 = n
      · rw [if_pos h, List.filter_cons_of_pos (by simpa using h), List.filter_nil]
      · rw [if_neg h, List.filter_cons_of_neg (by simpa using h), List.filter_nil]
    rw [hfil]
    cases hz : f.homogenized
    · simp only [Bool.false_eq_true, if_false]
      cases g with
      | true => rw [if_pos (hgi.1 rfl)]; rfl
      | false => rw [if_neg (fun h => by simpa using hgi.2 h)]; simp
    · simp only [if_true]
      obtain ⟨b, hb, hbi⟩ := due_some (hh hz) (k + 1) (p.time tol (k + 1)) p.endTime
      rw [hend] at hbi
      rw [hb, hfil]
      cases g with
      | true =>
        rw [if_pos (hgi.1 rfl)]
        cases b with
        | true => rw [if_pos (hbi.1 rfl)]; rfl
        | false => rw [if_neg (fun h => by simpa using hbi.2 h)]; simp
      | false =>
        rw [if_neg (fun h => by simpa using hgi.2 h)]
        cases b with
        | true => rw [if_pos (hbi.1 rfl)]; simp
        | false => rw [if_neg (fun h => by simpa using hbi.2 h)]; simp

/-! ## C75 -/

/-- C75 for frequencies that are not zero: every run of a programme with positive durations and step
counts ends; it has then written the solution of every `f`-th step and of the last one, each once and in
order, a homogenised row for the same rule with its own frequency, and a row of the shear table for
every step.  Missing from the full property: frequency zero (`C75_violated`). -/
theorem C75_schedule_partial (p : Prog) (tol : ℝ) (h0 : 0 ≤ tol) (h : SpecPositive p) (f : Freq)
    (hf : f.graphical ≠ 0) (hh : f.homogenized = true → f.homogenization ≠ 0) :
    ∃ n, Passes p tol n ∧ after p tol f n = some
      ⟨SpecSteps f.graphical n,
       if f.homogenized then (SpecSteps f.homogenization n).map (p.time tol) else [],
       (List.range' 1 n).map (p.time tol)⟩ := by
  obtain ⟨n, -, hp, hn, -⟩ := C46_terminates p tol h0 h
  exact ⟨n, hp, after_eq p tol f hf hh n (fun k hk => (hp k).2 hk k le_rfl) hn n le_rfl⟩

/-- C75: the final state of the programme is always the content of the last file. -/
theorem C75_last (p : Prog) (tol : ℝ) (h0 : 0 ≤ tol) (h : SpecPositive p) (hlt : p.start < p.endTime)
    (f : Freq) (hf : f.graphical ≠ 0) (hh : f.homogenized = true → f.homogenization ≠ 0) :
    ∃ n l, Passes p tol n ∧ after p tol f n = some l ∧ l.files.getLast? = some n ∧
      p.time tol n = p.endTime ∧ (f.homogenized = true → l.rows.getLast? = some p.endTime) := by
  obtain ⟨n, -, hp, hn, -⟩ := C46_terminates p tol h0 h
  have hpos : n ≠ 0 := by
    rintro rfl
    exact absurd hn hlt.ne
  obtain ⟨m, rfl⟩ := Nat.exists_eq_succ_of_ne_zero hpos
  have hlast : ∀ g : ℕ, ((List.range' 1 (m + 1)).filter
      fun j => j % g = 0 ∨ j = m + 1).getLast? = some (m + 1) := by
    intro g
    rw [List.range'_1_concat, List.filter_append, List.filter_cons_of_pos (by simp; omega),
      List.filter_nil, List.getLast?_append]
    simp; omega
  refine ⟨m + 1, _, hp, after_eq p tol f hf hh (m + 1) (fun k hk => (hp k).2 hk k le_rfl) hn _ le_rfl,
    hlast _, hn, fun hz => ?_⟩
  simp only [hz, if_true]
  rw [List.getLast?_map, hlast, Option.map_some, hn]

/-- C75: the number of files. -/
theorem C75_count (f n : ℕ) (hn : n ≠ 0) :
    (SpecSteps f n).length = n / f + if f ∣ n then 0 else 1 := by
  have key : ∀ k, ((List.range' 1 k).filter fun j => decide (f ∣ j)).length = k / f := by
    intro k
    induction k with
    | zero => simp
    | succ k ih =>
      rw [List.range'_1_concat, List.filter_append, List.length_append, ih, Nat.succ_div,
        Nat.add_comm 1 k]
      by_cases h : f ∣ k + 1
      · rw [List.filter_cons_of_pos (by simpa using h), if_pos h]; simp
      · rw [List.filter_cons_of_neg (by simpa using h), if_neg h]; simp
  obtain ⟨m, rfl⟩ := Nat.exists_eq_succ_of_ne_zero hn
  have hcong : (List.range' 1 m).filter (fun k => decide (k % f = 0 ∨ k = m + 1)) =
      (List.range' 1 m).filter fun j => decide (f ∣ j) := by
    refine List.filter_congr fun j hj => ?_
    rw [List.mem_range'_1] at hj
    simp only [decide_eq_decide, Nat.dvd_iff_mod_eq_zero]
    constructor
    · rintro (h | h)
      · exact h
      · omega
    · exact Or.inl
  unfold SpecSteps
  rw [List.range'_1_concat, List.filter_append, List.length_append, hcong, key,
    List.filter_cons_of_pos (by simp; omega), List.filter_nil, Nat.succ_div]
  by_cases h : f ∣ m + 1
  · rw [if_pos h, if_pos h]; simp
  · rw [if_neg h, if_neg h]; simp

/-- C75 is violated for the graphical frequency 0, which the parameter file accepts: the first pass of
every run takes a remainder by zero. -/
theorem C75_violated (p : Prog) (tol : ℝ) (f : Freq) (hf : f.graphical = 0) (k : ℕ) :
    after p tol f (k + 1) = none := by
  induction k with
  | zero =>
    unfold after pass after
    simp only [Option.bind_some]
    have : ∀ k t, due f.graphical k t p.endTime = none := by intro k t; unfold due; rw [if_pos hf]
    rw [this]
    cases f.homogenized <;> simp
  | succ k ih => unfold after; rw [ih]; rfl

/-- C75, command line: a single argument is taken as the parameter file iff it ends in `.prm`; without
arguments the default file is used; more arguments are rejected. -/
theorem C75_command_line (args : List (List Char)) (name : List Char) :
    start args = .file name ↔
      (args = [] ∧ name = "input/parameter_files/simple_shear.prm".toList) ∨
      (args = [name] ∧ SpecPrm name) := by
  have hprm : "prm".toList = ['p', 'r', 'm'] := by decide
  have hdot : ".prm".toList = ['.', 'p', 'r', 'm'] := by decide
  have key : ∀ arg : List Char, (∃ i, lastDot arg = some i ∧ arg.drop (i + 1) = "prm".toList) ↔
      SpecPrm arg := by
    intro arg
    unfold lastDot SpecPrm
    rw [hprm, hdot]
    constructor
    · rintro ⟨i, hi, hd⟩
      rw [Option.map_eq_some_iff] at hi
      obtain ⟨j, hj, rfl⟩ := hi
      rw [List.findIdx?_eq_some_iff_getElem] at hj
      obtain ⟨hlt, hc, -⟩ := hj
      rw [List.length_reverse] at hlt
      rw [List.getElem_reverse] at hc
      refine ⟨arg.take (arg.length - 1 - j), ?_⟩
      conv_lhs => rw [← List.take_append_drop (arg.length - 1 - j) arg]
      rw [List.drop_eq_getElem_cons (by omega), hd]
      rw [beq_iff_eq] at hc
      rw [hc]
    · rintro ⟨base, rfl⟩
      refine ⟨base.length, ?_, ?_⟩
      · rw [List.reverse_append]
        simp [List.findIdx?_cons]
      · rw [← List.drop_drop, List.drop_left]; rfl
  match args with
  | [] => simp [start, eq_comm]
  | [arg] =>
    unfold start
    simp only
    constructor
    · intro h
      right
      cases hl : lastDot arg with
      | none => rw [hl] at h; simp at h
      | some i =>
        rw [hl] at h
        simp only at h
        split_ifs at h with hd
        injection h with h
        subst h
        exact ⟨rfl, (key arg).1 ⟨i, hl, hd⟩⟩
    · rintro (⟨h, -⟩ | ⟨h, hs⟩)
      · simp at h
      · injection h with h
        subst h
        obtain ⟨i, hl, hd⟩ := (key arg).2 hs
        rw [hl]
        simp only
        rw [if_pos hd]
  | _ :: _ :: _ => simp [start]

/-- Non-vacuity: five steps with frequency 2 give three files. -/
example : SpecSteps 2 5 = [2, 4, 5] := by decide

/-- Non-vacuity: a programme of three steps, graphical output every second, homogenised every third. -/
example : ∃ (p : Prog) (f : Freq), SpecPositive p ∧ p.start < p.endTime ∧ f.graphical ≠ 0 ∧
    f.homogenized = true ∧ f.homogenization ≠ 0 :=
  ⟨⟨.monotonic, 0, 1, 0, 1, 3, 1, 1, 1, 1, 1, true⟩, ⟨2, true, 3⟩,
    ⟨by norm_num, by norm_num⟩, by simp [Prog.endTime], by decide, rfl, by decide⟩

/-- Non-vacuity: names with and without the extension. -/
example : start ["a.b/c.prm".toList] = .file "a.b/c.prm".toList ∧ start ["c.prm.txt".toList] = .rejected ∧
    start ["prm".toList] = .rejected := by decide

end Verif.Run
