import Verif.Model.Newton
import Verif.Props.Condense
import Verif.Props.Drivers

/-!
# Linear steps and steps in equilibrium: C97
-/

namespace Verif.Lin
open Verif.Sol Verif.LS Verif.Drv Finset

variable {N : ℕ}

/-! ## Specification -/

/-- The equations of the step are linear (for instance: no slip is active): between admissible trial
solutions the weak residual changes by the same bilinear form everywhere. -/
structure SpecLinear (p : Problem N) : Prop where
  homogeneous : Homogeneous p.internal p.n
  closed : Closed p.aff
  numbered : ∀ x, Numbered (p.cells x) p.n
  /-- Newton updates keep the boundary values -/
  admissible : ∀ x u, Satisfies p.aff x → Satisfies p.internal u → Satisfies p.aff fun d => x d + u d
  difference : ∀ x u v, Satisfies p.aff x → Satisfies p.internal u → Satisfies p.internal v →
    SpecResidual (p.cells fun d => x d + u d) v =
      SpecResidual (p.cells x) v - SpecTangent (p.cells x) v u
  tangent : ∀ x y, Satisfies p.aff x → Satisfies p.aff y → ∀ u v, Satisfies p.internal u →
    Satisfies p.internal v → SpecTangent (p.cells x) v u = SpecTangent (p.cells y) v u

/-- The trial solution satisfies the boundary conditions and all equations of the step. -/
def SpecSolution (p : Problem N) (x : ℕ → ℝ) : Prop :=
  Satisfies p.aff x ∧ ∀ v, Satisfies p.internal v → SpecResidual (p.cells x) v = 0

/-- The linear solver of the monolithic algorithm is exact for the systems of the step. -/
def SpecExactAll (p : Problem N) : Prop :=
  ∀ x, Satisfies p.aff x → SolvesAll p.internal (p.cells x) p.n (p.all (p.cells x))

/-- The linear solvers of the staggered algorithms are exact for the systems of the step. -/
structure SpecExactBlocks (p : Problem N) : Prop where
  block : ∀ b x, Satisfies p.aff x →
    SolvesBlock p.internal (p.cells x) p.n p.blk b (p.block b (p.cells x))
  reduced : ∀ x, Satisfies p.aff x → ∃ y,
    SolvesReduced p.internal (p.cells x) p.n p.blk (p.reduced (p.cells x)) y

/-- The equations derive from a convex energy: the bilinear form is symmetric and positive semidefinite. -/
structure SpecConvex (p : Problem N) : Prop where
  symmetric : ∀ x u v, Satisfies p.aff x → Satisfies p.internal u → Satisfies p.internal v →
    SpecTangent (p.cells x) v u = SpecTangent (p.cells x) u v
  nonneg : ∀ x u, Satisfies p.aff x → Satisfies p.internal u → 0 ≤ SpecTangent (p.cells x) u u

/-- Blocks 0 (displacements) and 1 (slips), not mixed by the constraints. -/
structure SpecBlocks (p : Problem N) : Prop where
  two : ∀ d, p.blk d = 0 ∨ p.blk d = 1
  internal : BlockLocal p.internal p.blk
  aff : BlockLocal p.aff p.blk

/-! ## Helpers -/

theorem withRhs_self (a : List (Local N)) : withRhs a a = a := by
  unfold withRhs
  induction a with
  | nil => rfl
  | cons a l ih => rw [List.zipWith_cons_cons, ih]

theorem resid_zero {p : Problem N} (hl : SpecLinear p) {x : ℕ → ℝ}
    (h : ∀ v, Satisfies p.internal v → SpecResidual (p.cells x) v = 0) {r : ℕ} (hr : r < p.n) :
    p.resid x r = 0 :=
  (C78_residual hl.homogeneous (hl.numbered x)).2 h r hr

theorem total_zero (p : Problem N) {r : ℕ → ℝ} (h : ∀ d < p.n, r d = 0) : p.total r = 0 := by
  unfold Problem.total
  rw [sum_eq_zero fun d hd => by rw [h d (mem_range.1 hd)]; norm_num, Real.sqrt_zero]

theorem part_zero (p : Problem N) {b : ℕ} {r : ℕ → ℝ} (h : ∀ d < p.n, p.blk d = b → r d = 0) :
    p.part b r = 0 := by
  unfold Problem.part
  rw [sum_eq_zero fun d hd => by
    rw [h d (mem_range.1 (mem_filter.1 hd).1) (mem_filter.1 hd).2]; norm_num, Real.sqrt_zero]

theorem resid_eq {p : Problem N} (hl : SpecLinear p) (x : ℕ → ℝ) {r : ℕ} (hr : r < p.n) :
    p.resid x r = SpecResidual (p.cells x) (unit p.internal r) :=
  (unit_test hl.homogeneous (hl.numbered x) (fun a => a.rhs) hr).symm

/-- The step of length 1. -/
theorem step_eq {p : Problem N} {x u : ℕ → ℝ} {b : ℕ} (hs : Satisfies p.aff fun d => x d + u d)
    (hz : ∀ d, p.blk d ≠ b → u d = 0) :
    updateTrial p.aff p.blk b 1 u x = fun d => x d + u d := by
  have : addBlock p.blk b 1 x u = fun d => x d + u d := by
    funext d
    unfold addBlock
    split_ifs with h
    · ring
    · rw [hz d h, add_zero]
  unfold updateTrial
  rw [this, distribute_of_satisfies hs]
  funext d
  unfold assignBlock
  split_ifs with h
  · rfl
  · rw [hz d h, add_zero]

theorem advance_off (p : Problem N) {q : Search} (hq : q.on = false) (norm : (ℕ → ℝ) → ℝ) (b : ℕ)
    (u stored x : ℕ → ℝ) : p.advance q norm b u stored x = some (updateTrial p.aff p.blk b 1 u x) := by
  unfold Problem.advance
  simp [hq]

/-- A full step to a vanishing residual is accepted by the line search unless the search starts there. -/
theorem advance_zero (p : Problem N) (q : Search) (norm : (ℕ → ℝ) → ℝ) (b : ℕ) (u stored x : ℕ → ℝ)
    (h0 : norm (p.resid (updateTrial p.aff p.blk b 1 u x)) = 0)
    (hq : q.on = true → norm (p.resid x) ≠ 0 ∧ q.alpha < 1 / 2) :
    p.advance q norm b u stored x = some (updateTrial p.aff p.blk b 1 u x) := by
  unfold Problem.advance
  by_cases h : q.on = true
  · obtain ⟨h1, h2⟩ := hq h
    simp only [h, if_true]
    rw [lsRun]
    simp only [Option.bind_some, Option.map_some, h0]
    rw [if_pos]
    · rfl
    · right
      simp only [reinit, construct, descends, objective]
      have : 0 < norm (p.resid x) ^ 2 := by positivity
      nlinarith
  · simp [h]

/-! ## Monolithic algorithm -/

/-- The trial solution after a monolithic Newton step. -/
theorem mono_step {p : Problem N} (hl : SpecLinear p) (hx : SpecExactAll p)
    (hb : ∀ d, p.blk d = 0) {x : ℕ → ℝ} (ha : Satisfies p.aff x) :
    SpecSolution p (updateTrial p.aff p.blk 0 1 (newtonUpdate p.internal (p.all (p.cells x))) x) := by
  obtain ⟨hu, hw⟩ := (C78_monolithic hl.homogeneous (hl.numbered x)
    (newtonUpdate p.internal (p.all (p.cells x)))).1 ⟨_, hx x ha, rfl⟩
  have hs := hl.admissible x _ ha hu
  rw [step_eq hs fun d hd => absurd (hb d) hd]
  refine ⟨hs, fun v hv => ?_⟩
  rw [hl.difference x _ v ha hu hv, hw v hv, sub_self]

/-- C97, monolithic algorithm: a linear step takes exactly one linear solve and ends in a solution, from
every start value, for every tolerance and every limit on the iterations.  Missing from the full property:
a line search that starts in equilibrium (`C97_violated_equilibrium`). -/
theorem C97_monolithic_partial (p : Problem N) (hl : SpecLinear p) (hx : SpecExactAll p)
    (hb : ∀ d, p.blk d = 0) (nMax : ℕ) (hn : 1 ≤ nMax) (tol : ℝ) (ht : 0 < tol) (s : Step N)
    (x : ℕ → ℝ) (hs : s.trial = some x)
    (hq : p.searchAll.on = true →
      p.total (p.resid (distribute p.aff x)) ≠ 0 ∧ p.searchAll.alpha < 1 / 2) :
    ∃ s' y, monoRD p.mono nMax tol (nMax + 1) 0 s = .returned s' 1 ∧ s'.trial = some y ∧
      SpecSolution p y := by
  have ha : Satisfies p.aff (distribute p.aff x) := distribute_satisfies hl.closed x
  have hsol := mono_step hl hx hb ha
  set x' := distribute p.aff x with hx'
  set y := updateTrial p.aff p.blk 0 1 (newtonUpdate p.internal (p.all (p.cells x'))) x' with hy
  have hz : p.total (p.resid y) = 0 := total_zero p fun d hd => resid_zero hl hsol.2 hd
  have hstep : p.advance p.searchAll p.total 0 (newtonUpdate p.internal (p.all (p.cells x'))) x x' =
      some y := advance_zero p p.searchAll p.total 0 _ x x' hz hq
  set s' := p.mono.newton (p.mono.post (p.mono.pre s)) with hs'
  have htr : s'.trial = some y := by
    rw [hs']
    simp only [Problem.mono, Step.moved, hs, Option.map_some, Option.bind_some, Option.getD_some]
    rw [← hx', hstep]
  have hnorm : p.mono.norm s' = some 0 := by
    have : s'.held = some (p.resid y) := by
      rw [hs']
      simp only [Problem.mono, Step.moved, hs, Option.map_some, Option.bind_some, Option.getD_some]
      rw [← hx', hstep]; rfl
    show s'.held.map p.total = _
    rw [this, Option.map_some, hz]
  refine ⟨s', y, ?_, htr, hsol⟩
  rw [monoRD, if_neg (by omega)]
  simp only
  rw [← hs', if_pos (by rw [hnorm]; exact ht)]

/-! ## A line search that starts in equilibrium -/

/-- Once NaN, a line search ends with NaN. -/
theorem lsRun_nan (resid : (ℕ → ℝ) → Option ℝ) (c : Constraints ℕ) (blk : ℕ → ℕ) (b : ℕ)
    (stored upd : ℕ → ℝ) (fuel : ℕ) (s : LineSearch) (l : Option ℝ) :
    (lsRun resid c blk b stored upd fuel s l none).elim none Prod.snd = none := by
  induction fuel generalizing s l with
  | zero => rfl
  | succ fuel ih =>
    rw [lsRun]
    simp only [Option.bind_none, Option.map_none]
    split_ifs with h
    · rfl
    · cases (getLambda s none l).2 <;> exact ih _ _

/-- A line search that starts with a vanishing residual and whose full step keeps it vanishing ends with
NaN. -/
theorem advance_nan (p : Problem N) (q : Search) (hq : q.on = true) (norm : (ℕ → ℝ) → ℝ) (b : ℕ)
    (u stored x : ℕ → ℝ) (h0 : norm (p.resid x) = 0)
    (h1 : norm (p.resid (updateTrial p.aff p.blk b 1 u x)) = 0) :
    p.advance q norm b u stored x = none := by
  unfold Problem.advance
  simp only [hq, if_true]
  rw [lsRun]
  simp only [Option.bind_some, Option.map_some, h1, h0]
  rw [if_neg]
  · have : (getLambda (reinit (construct q.nMax q.alpha) (objective 0)) (some (objective 0))
        (some 1)).2 = none := by
      simp [getLambda, reinit, construct, objective, quadratic, fdiv, clampF]
    rw [this]
    exact lsRun_nan _ _ _ _ _ _ _ _ _
  · simp [sufficient, reinit, construct, descends, objective, h0, h1]

theorem mono_nan (p : Problem N) (nMax : ℕ) (tol : ℝ) (fuel n : ℕ) (s : Step N) (hf : nMax - n < fuel)
    (hn : n ≤ nMax) (hs : s.trial = none) :
    monoRD p.mono nMax tol fuel n s = .threw nMax := by
  induction fuel generalizing n s with
  | zero => omega
  | succ fuel ih =>
    rw [monoRD]
    by_cases h : n + 1 ≤ nMax
    · rw [if_neg (by omega)]
      simp only
      have ht : (p.mono.newton (p.mono.post (p.mono.pre s))).trial = none := by
        simp [Problem.mono, Step.moved, hs]
      have hh : p.mono.norm (p.mono.newton (p.mono.post (p.mono.pre s))) = none := by
        simp [Problem.mono, Step.moved, hs]
      rw [if_neg (by rw [hh]; exact id)]
      exact ih (n + 1) _ (by omega) h ht
    · rw [if_pos h]
      congr 1
      omega

/-- C97 is violated: with the line search (the default) a step that starts in equilibrium is not accepted.
The line search divides zero by zero, the trial solution becomes NaN and the algorithm ends with an
exception, whatever the limits and the tolerance (at once, see `Verif.Model.Raise`). -/
theorem C97_violated_equilibrium (p : Problem N) (hl : SpecLinear p) (hx : SpecExactAll p)
    (hb : ∀ d, p.blk d = 0) (hq : p.searchAll.on = true) (nMax : ℕ) (hn : 1 ≤ nMax) (tol : ℝ)
    (s : Step N) (x : ℕ → ℝ) (hs : s.trial = some x) (heq : SpecSolution p x) :
    ∃ k, monoRD p.mono nMax tol (nMax + 1) 0 s = .threw k := by
  refine ⟨nMax, ?_⟩
  have hd : distribute p.aff x = x := distribute_of_satisfies heq.1
  have hsol := mono_step hl hx hb heq.1
  have hstep := advance_nan p p.searchAll hq p.total 0
    (newtonUpdate p.internal (p.all (p.cells x))) x x
    (total_zero p fun d hd => resid_zero hl heq.2 hd)
    (total_zero p fun d hd => resid_zero hl hsol.2 hd)
  have ht : (p.mono.newton (p.mono.post (p.mono.pre s))).trial = none := by
    simp only [Problem.mono, Step.moved, hs, Option.map_some, Option.bind_some, Option.getD_some]
    rw [hd, hstep]
  have hh : p.mono.norm (p.mono.newton (p.mono.post (p.mono.pre s))) = none := by
    show (p.mono.newton (p.mono.post (p.mono.pre s))).held.map p.total = none
    have : (p.mono.newton (p.mono.post (p.mono.pre s))).held = none := by
      simp only [Problem.mono, Step.moved, hs, Option.map_some, Option.bind_some, Option.getD_some]
      rw [hd, hstep]; rfl
    rw [this]; rfl
  rw [monoRD, if_neg (by omega)]
  simp only
  rw [if_neg (by rw [hh]; exact id)]
  exact mono_nan p nMax tol nMax 1 _ (by omega) hn ht

theorem micro_nan (p : Problem N) (o : StagOps (Step N)) (ho : o.microIt = p.micro) (nMax : ℕ) (tol : ℝ)
    (fuel n : ℕ) (s : Step N) (hs : s.trial = none) {s' : Step N} {k : ℕ}
    (h : microLoop o nMax tol fuel n s = .returned s' k) : s'.trial = none ∧ s'.held = none := by
  induction fuel generalizing n s with
  | zero => simp [microLoop] at h
  | succ fuel ih =>
    rw [microLoop] at h
    have ht : (o.microIt s).trial = none := by simp [ho, Problem.micro, Step.moved, hs]
    simp only at h
    split_ifs at h with h1
    · have h := (Outcome.returned.inj h).1
      rw [← h]
      exact ⟨ht, by simp [ho, Problem.micro, Step.moved, hs]⟩
    · exact ih _ _ ht h

/-- The slips are all inactive: fixed by the internal constraints. -/
def SpecElastic (p : Problem N) : Prop := ∀ d, p.blk d = 1 → p.internal d = some ⟨[], 0⟩

theorem micro_elastic (p : Problem N) (o : StagOps (Step N)) (ho : o.microIt = p.micro)
    (hK : Homogeneous p.internal p.n) (he : SpecElastic p) (hq : p.searchMicro.on = true) (nMax : ℕ)
    (tol : ℝ) (fuel n : ℕ) (s : Step N) {s' : Step N} {k : ℕ}
    (h : microLoop o nMax tol fuel n s = .returned s' k) : s'.trial = none ∧ s'.held = none := by
  have hpart : ∀ x, p.part 1 (p.resid x) = 0 := fun x => part_zero p fun d _ hd =>
    residual_constrained hK _ (by rw [he d hd]; simp)
  cases fuel with
  | zero => simp [microLoop] at h
  | succ fuel =>
    rw [microLoop] at h
    have ht : (o.microIt s).trial = none := by
      rw [ho]
      simp only [Problem.micro, Step.moved]
      cases hx : s.trial with
      | none => rfl
      | some x => exact advance_nan p _ hq _ _ _ _ _ (hpart _) (hpart _)
    have hh : (o.microIt s).held = none := by
      have : (o.microIt s).held = (o.microIt s).trial.map p.resid := by rw [ho]; rfl
      rw [this, ht]; rfl
    simp only at h
    split_ifs at h with h1
    · rw [← (Outcome.returned.inj h).1]
      exact ⟨ht, hh⟩
    · exact micro_nan p o ho nMax tol _ _ _ ht h

theorem bounce_nan (p : Problem N) (q : StagParams) (fuel i c k : ℕ) (m : Bool) (s s' : Step N) (k' : ℕ)
    (hs : s.trial = none) (hh : s.held = none) : bouncing p.bounce q fuel i c m k s ≠ .returned s' k' := by
  induction fuel generalizing i c k m s with
  | zero => intro h; simp [bouncing] at h
  | succ fuel ih =>
    intro h
    rw [bouncing] at h
    have hn : p.bounce.macroNorm s = none := by simp [Problem.bounce, hh]
    rw [if_neg (by rw [hn]; exact fun h => h.1)] at h
    split_ifs at h
    exact ih _ _ _ _ _ (by simp [Problem.bounce, Step.moved, hs]) (by simp [Problem.bounce, Step.moved, hs]) h

theorem embrace_nan (p : Problem N) (q : StagParams) (fuel i k : ℕ) (m : Bool) (s s' : Step N) (k' : ℕ)
    (hs : s.trial = none) : embracing p.embrace q fuel i m k s ≠ .returned s' k' := by
  induction fuel generalizing i k m s with
  | zero => intro h; simp [embracing] at h
  | succ fuel ih =>
    intro h
    rw [embracing] at h
    have hn : p.embrace.macroNorm (p.embrace.evaluate s) = none := by simp [Problem.embrace, hs]
    rw [if_neg (by rw [hn]; exact fun h => h.1)] at h
    split_ifs at h
    have ht : (p.embrace.startMicro (p.embrace.macroIt (i + 1) (p.embrace.evaluate s))).trial = none := by
      simp [Problem.embrace, Problem.enter, Step.moved, hs]
    cases hm : microLoop p.embrace q.nMicro q.tolMicro (q.nMicro + 1) 0
        (p.embrace.startMicro (p.embrace.macroIt (i + 1) (p.embrace.evaluate s))) with
    | returned t j =>
      rw [hm] at h
      exact ih _ _ _ _ (micro_nan p p.embrace rfl _ _ _ _ _ ht hm).1 h
    | threw j => rw [hm] at h; simp at h
    | outOfFuel => rw [hm] at h; simp at h

/-- C97 is violated: while no slip is active, the staggered algorithms with a line search for the slips
(the default) never accept a step, whatever the material, the linear solvers, the limits, the tolerances
and the start value: the residual of the slips is exactly zero and the line search divides zero by
zero. -/
theorem C97_violated_elastic (p : Problem N) (hK : Homogeneous p.internal p.n) (he : SpecElastic p)
    (hq : p.searchMicro.on = true) (q : StagParams) (s : Step N) :
    (∃ k, bouncing p.bounce q (max q.nLoops 1 * (q.nMacro + 1)) 0 1 false 0 s = .threw k) ∧
    ∃ k, embracing p.embrace q (q.nMacro + 1) 0 false 0 s = .threw k := by
  constructor
  · rcases C09_bouncing p.bounce q s with ⟨s', k, h, -, -⟩ | ⟨k, h, -⟩
    · exfalso
      have key : ∀ fuel i k s s' k', bouncing p.bounce q fuel i 1 false k s ≠ .returned s' k' := by
        intro fuel
        induction fuel with
        | zero => intro i k s s' k' h; simp [bouncing] at h
        | succ fuel ih =>
          intro i k s s' k' h
          rw [bouncing] at h
          by_cases h1 : below (p.bounce.macroNorm s) q.tolMacro ∧ ¬ (1 = 1 ∧ i = 0)
          · rw [if_pos h1] at h
            simp only [Bool.false_eq_true, if_false] at h
            cases hm : microLoop p.bounce q.nMicro q.tolMicro (q.nMicro + 1) 0 (p.bounce.startMicro s) with
            | returned t j =>
              rw [hm] at h
              simp only at h
              split_ifs at h
              obtain ⟨a, b⟩ := micro_elastic p p.bounce rfl hK he hq _ _ _ _ _ hm
              exact bounce_nan p q _ _ _ _ _ _ _ _ a b h
            | threw j => rw [hm] at h; simp at h
            | outOfFuel => rw [hm] at h; simp at h
          · rw [if_neg h1] at h
            split_ifs at h
            exact ih _ _ _ _ _ h
      exact key _ _ _ _ _ _ h
    · exact ⟨k, h⟩
  · rcases embracing_spec p.embrace q (q.nMacro + 1) 0 false 0 s (by omega) (by simp) (by omega) with
      ⟨s', k, h, -⟩ | ⟨k, h, -⟩
    · exfalso
      rw [embracing] at h
      simp only [Bool.false_eq_true, and_false, if_false] at h
      split_ifs at h
      cases hm : microLoop p.embrace q.nMicro q.tolMicro (q.nMicro + 1) 0
          (p.embrace.startMicro (p.embrace.macroIt (0 + 1) (p.embrace.evaluate s))) with
      | returned t j =>
        rw [hm] at h
        exact embrace_nan p q _ _ _ _ _ _ _ (micro_elastic p p.embrace rfl hK he hq _ _ _ _ _ hm).1 h
      | threw j => rw [hm] at h; simp at h
      | outOfFuel => rw [hm] at h; simp at h
    · exact ⟨k, h⟩

/-! ## Staggered algorithms: helpers -/

theorem tangent_add_right (cells : List (Local N)) (v u w : ℕ → ℝ) :
    SpecTangent cells v (fun d => u d + w d) = SpecTangent cells v u + SpecTangent cells v w := by
  unfold SpecTangent
  rw [← List.sum_map_add]
  congr 2
  funext a
  simp only [mul_add, Finset.sum_add_distrib, List.sum_map_add]
  ring

theorem tangent_smul_right (cells : List (Local N)) (v u : ℕ → ℝ) (t : ℝ) :
    SpecTangent cells v (fun d => t * u d) = t * SpecTangent cells v u := by
  unfold SpecTangent
  rw [← List.sum_map_mul_left]
  congr 2
  funext a
  rw [mul_add, ← List.sum_map_mul_left]
  simp only [Finset.mul_sum]
  congr 1
  · exact sum_congr rfl fun i _ => sum_congr rfl fun j _ => by ring
  · congr 2
    funext b
    exact sum_congr rfl fun i _ => sum_congr rfl fun j _ => by ring

theorem comb_satisfies {K : Constraints ℕ} {n : ℕ} (hK : Homogeneous K n) {v w : ℕ → ℝ}
    (hv : Satisfies K v) (hw : Satisfies K w) (s t : ℝ) : Satisfies K fun d => s * v d + t * w d := by
  intro d l hl
  have e1 := hv d l hl
  have e2 := hw d l hl
  unfold Line.eval at e1 e2 ⊢
  rw [hK.inhom d l hl, add_zero] at e1 e2 ⊢
  simp only
  rw [e1, e2, ← List.sum_map_mul_left, ← List.sum_map_mul_left, ← List.sum_map_add]
  congr 2
  funext e
  ring

theorem add_satisfies {K : Constraints ℕ} {n : ℕ} (hK : Homogeneous K n) {v w : ℕ → ℝ}
    (hv : Satisfies K v) (hw : Satisfies K w) : Satisfies K fun d => v d + w d := by
  have := comb_satisfies hK hv hw 1 1
  simpa using this

theorem sub_satisfies {K : Constraints ℕ} {n : ℕ} (hK : Homogeneous K n) {v w : ℕ → ℝ}
    (hv : Satisfies K v) (hw : Satisfies K w) : Satisfies K fun d => v d - w d := by
  have := comb_satisfies hK hv hw 1 (-1)
  have e : (fun d => (1:ℝ) * v d + -1 * w d) = fun d => v d - w d := by funext d; ring
  rwa [e] at this

/-- Cauchy–Schwarz for the bilinear form. -/
theorem tangent_cauchy {p : Problem N} (hl : SpecLinear p) (hc : SpecConvex p) {x v w : ℕ → ℝ}
    (hx : Satisfies p.aff x) (hv : Satisfies p.internal v) (hw : Satisfies p.internal w) :
    SpecTangent (p.cells x) v w ^ 2 ≤ SpecTangent (p.cells x) v v * SpecTangent (p.cells x) w w := by
  set T := SpecTangent (p.cells x) with hT
  have hq : ∀ t : ℝ, 0 ≤ T w w * (t * t) + 2 * T v w * t + T v v := by
    intro t
    have hs : Satisfies p.internal fun d => 1 * v d + t * w d := comb_satisfies hl.homogeneous hv hw 1 t
    have h0 := hc.nonneg x _ hx hs
    have e : ∀ u, T u (fun d => 1 * v d + t * w d) = T u v + t * T u w := by
      intro u
      rw [hT, tangent_add_right (p.cells x) u (fun d => 1 * v d) (fun d => t * w d),
        tangent_smul_right, tangent_smul_right]
      ring
    have e1 := e fun d => 1 * v d + t * w d
    have e2 : T (fun d => 1 * v d + t * w d) v = T v v + t * T v w := by
      rw [hT, hc.symmetric x v _ hx hv hs, ← hT, e v]
    have e3 : T (fun d => 1 * v d + t * w d) w = T v w + t * T w w := by
      rw [hT, hc.symmetric x w _ hx hw hs, ← hT, e w, hT, hc.symmetric x v w hx hv hw]
    rw [← hT, e1, e2, e3] at h0
    nlinarith
  have := discrim_le_zero hq
  unfold discrim at this
  nlinarith

/-- Trial solutions with the prescribed values of `x`. -/
def Reach (p : Problem N) (x z : ℕ → ℝ) : Prop := Satisfies p.internal fun d => z d - x d

theorem Reach.aff {p : Problem N} (hl : SpecLinear p) {x z : ℕ → ℝ} (hx : Satisfies p.aff x)
    (h : Reach p x z) : Satisfies p.aff z := by
  have := hl.admissible x _ hx h
  simpa using this

/-- Weak residual in terms of the bilinear form at `x`. -/
theorem Reach.resid {p : Problem N} (hl : SpecLinear p) {x y z : ℕ → ℝ} (hx : Satisfies p.aff x)
    (hy : Reach p x y) (hz : Reach p x z) {v : ℕ → ℝ} (hv : Satisfies p.internal v) :
    SpecResidual (p.cells y) v = SpecResidual (p.cells z) v -
      SpecTangent (p.cells x) v fun d => y d - z d := by
  have hu : Satisfies p.internal fun d => y d - z d := by
    have := sub_satisfies hl.homogeneous hy hz
    have e : (fun d => y d - x d - (z d - x d)) = fun d => y d - z d := by funext d; ring
    rwa [e] at this
  have e : (fun d => z d + (y d - z d)) = y := by funext d; ring
  have := hl.difference z _ v (hz.aff hl hx) hu hv
  rw [e] at this
  rw [this, hl.tangent z x (hz.aff hl hx) hx _ _ hu hv]

/-- Block `b` solved from `z`: `y` differs from `z` in block `b` only and the equations of the block
hold. -/
structure Solved (p : Problem N) (x : ℕ → ℝ) (b : ℕ) (z y : ℕ → ℝ) : Prop where
  reach : Reach p x y
  other : ∀ d, p.blk d ≠ b → y d = z d
  zero : ∀ v, Satisfies p.internal v → (∀ d, p.blk d ≠ b → v d = 0) → SpecResidual (p.cells y) v = 0

theorem block_step {p : Problem N} (hl : SpecLinear p) (hB : SpecBlocks p) (he : SpecExactBlocks p)
    (b : ℕ) {x z : ℕ → ℝ} (hx : Satisfies p.aff x) (hz : Reach p x z) :
    Solved p x b z (updateTrial p.aff p.blk b 1
      (newtonUpdateBlock p.internal p.blk b (p.block b (p.cells z))) z) := by
  obtain ⟨h1, h2, h3⟩ := C78_block hl.homogeneous (hl.numbered z) p.blk hB.internal b _
    (he.block b z (hz.aff hl hx))
  set u := newtonUpdateBlock p.internal p.blk b (p.block b (p.cells z)) with hu
  rw [step_eq (hl.admissible z u (hz.aff hl hx) h1) h2]
  have hr : Reach p x fun d => z d + u d := by
    have := add_satisfies hl.homogeneous hz h1
    have e : (fun d => z d - x d + u d) = fun d => z d + u d - x d := by funext d; ring
    unfold Reach
    rwa [e] at this
  refine ⟨hr, fun d hd => by rw [h2 d hd, add_zero], fun v hv hvb => ?_⟩
  rw [hl.difference z u v (hz.aff hl hx) h1 hv, h3 v hv hvb, sub_self]

theorem Solved.part {p : Problem N} (hl : SpecLinear p) (hB : SpecBlocks p) {x z y : ℕ → ℝ} {b : ℕ}
    (h : Solved p x b z y) : p.part b (p.resid y) = 0 := by
  refine part_zero p fun d hd hb => ?_
  rw [resid_eq hl y hd]
  refine h.zero _ (unit_satisfies hl.homogeneous d) fun e hne => ?_
  exact distribute_block hl.homogeneous hB.internal (b := b) (fun r hr => by
    rw [Pi.single_eq_of_ne]; rintro rfl; exact hr hb) hne

/-- A micro loop takes one iteration. -/
theorem micro_pass {p : Problem N} (hl : SpecLinear p) (hB : SpecBlocks p) (he : SpecExactBlocks p)
    (hq : p.searchMicro.on = false) (o : StagOps (Step N)) (dist : Bool) (ho : o.microIt = p.micro)
    (hst : o.startMicro = p.enter dist)
    (hm : o.microNorm = fun s => s.held.map (p.part 1)) (nMax : ℕ) (hn : 1 ≤ nMax) (tol : ℝ) (ht : 0 < tol)
    {x z : ℕ → ℝ} (hx : Satisfies p.aff x) (hz : Reach p x z)
    (hi : p.resetSlips = true → Reach p x p.initial) (s : Step N) (hs : s.trial = some z) :
    ∃ s' y, microLoop o nMax tol (nMax + 1) 0 (o.startMicro s) = .returned s' 1 ∧
      s'.trial = some y ∧ s'.held = some (p.resid y) ∧ Solved p x 1 z y := by
  obtain ⟨z', hz', hr', hzz⟩ : ∃ z', (p.enter dist s).trial = some z' ∧ Reach p x z' ∧
      ∀ d, p.blk d ≠ 1 → z' d = z d := by
    have hd : (if dist then distribute p.aff z else z) = z := by
      cases dist
      · rfl
      · exact distribute_of_satisfies (hz.aff hl hx)
    unfold Problem.enter
    simp only [hs, Option.map_some, hd]
    by_cases h : p.resetSlips = true
    · rw [if_pos h]
      refine ⟨_, rfl, ?_, fun d hd => resetTrial_other hd⟩
      have e : resetTrial p.aff p.blk 1 p.initial z = assignBlock p.blk 1 z p.initial := by
        unfold resetTrial
        rw [distribute_of_satisfies ((hi h).aff hl hx)]
      rw [e]
      have := satisfies_assignBlock hB.internal (b := 1)
        (fun i l hl _ => hz i l hl) (hi h)
      unfold Reach
      have e2 : assignBlock p.blk 1 (fun d => z d - x d) (fun d => p.initial d - x d) =
          fun d => assignBlock p.blk 1 z p.initial d - x d := by
        funext d
        unfold assignBlock
        split_ifs <;> rfl
      rwa [e2] at this
    · rw [if_neg h]
      exact ⟨z, rfl, hz, fun d _ => rfl⟩
  have hsol := block_step hl hB he 1 hx hr'
  set y := updateTrial p.aff p.blk 1 1
    (newtonUpdateBlock p.internal p.blk 1 (p.block 1 (p.cells z'))) z' with hy
  have htr : (o.microIt (o.startMicro s)).trial = some y := by
    rw [ho, hst]
    simp only [Problem.micro, Step.moved, hz', Option.bind_some]
    rw [advance_off p hq]
  have hheld : (o.microIt (o.startMicro s)).held = some (p.resid y) := by
    have : (o.microIt (o.startMicro s)).held = (o.microIt (o.startMicro s)).trial.map p.resid := by
      rw [ho]; rfl
    rw [this, htr]; rfl
  refine ⟨_, y, ?_, htr, hheld, hsol.reach, fun d hd => by rw [hsol.other d hd, hzz d hd], hsol.zero⟩
  rw [microLoop, if_neg (by omega)]
  simp only
  rw [if_pos]
  rw [hm]
  simp only [hheld, Option.map_some, hsol.part hl hB]
  exact ht

/-- Energy of a trial solution relative to a solution `e`. -/
noncomputable def gap (p : Problem N) (x e y : ℕ → ℝ) : ℝ :=
  SpecTangent (p.cells x) (fun d => y d - e d) fun d => y d - e d

/-- Solving a block lowers the energy by the energy of the correction. -/
theorem gap_drop {p : Problem N} (hl : SpecLinear p) (hc : SpecConvex p) {x e z y : ℕ → ℝ} {b : ℕ}
    (hx : Satisfies p.aff x) (hz : Reach p x z) (he : Reach p x e)
    (hs : ∀ v, Satisfies p.internal v → SpecResidual (p.cells e) v = 0) (h : Solved p x b z y) :
    gap p x e y = gap p x e z - SpecTangent (p.cells x) (fun d => y d - z d) fun d => y d - z d := by
  have hsub : ∀ {a c : ℕ → ℝ}, Reach p x a → Reach p x c → Satisfies p.internal fun d => a d - c d := by
    intro a c ha hc
    have := sub_satisfies hl.homogeneous ha hc
    have e : (fun d => a d - x d - (c d - x d)) = fun d => a d - c d := by funext d; ring
    rwa [e] at this
  have hu := hsub h.reach hz
  have hze := hsub hz he
  have hye := hsub h.reach he
  set T := SpecTangent (p.cells x) with hT
  -- the correction is orthogonal to the error after it
  have h0 : T (fun d => y d - z d) (fun d => y d - e d) = 0 := by
    have := Reach.resid hl hx h.reach he hu
    rw [h.zero _ hu fun d hd => by rw [h.other d hd, sub_self], hs _ hu, zero_sub] at this
    linarith
  have hsplit : (fun d => y d - e d) = fun d => (y d - z d) + (z d - e d) := by funext d; ring
  have e1 : T (fun d => y d - z d) (fun d => y d - e d) =
      T (fun d => y d - z d) (fun d => y d - z d) + T (fun d => y d - z d) (fun d => z d - e d) := by
    rw [hsplit, hT, tangent_add_right (p.cells x) _ (fun d => y d - z d) (fun d => z d - e d)]
  have e2 : gap p x e y = T (fun d => y d - e d) (fun d => y d - z d) +
      T (fun d => y d - e d) (fun d => z d - e d) := by
    unfold gap
    conv_lhs => rw [← hT]; arg 2; rw [hsplit]
    rw [hT, tangent_add_right (p.cells x) _ (fun d => y d - z d) (fun d => z d - e d)]
  have e3 : T (fun d => y d - e d) (fun d => y d - z d) = 0 := by
    rw [hT, hc.symmetric x _ _ hx hu hye, ← hT, h0]
  have e4 : T (fun d => y d - e d) (fun d => z d - e d) =
      T (fun d => z d - e d) (fun d => y d - z d) + T (fun d => z d - e d) (fun d => z d - e d) := by
    rw [hT, hc.symmetric x _ _ hx hze hye]
    conv_lhs => arg 3; rw [hsplit]
    rw [tangent_add_right (p.cells x) _ (fun d => y d - z d) (fun d => z d - e d)]
  have e5 : T (fun d => z d - e d) (fun d => y d - z d) =
      T (fun d => y d - z d) (fun d => z d - e d) := by
    rw [hT, hc.symmetric x _ _ hx hu hze]
  have e6 : gap p x e z = T (fun d => z d - e d) (fun d => z d - e d) := rfl
  rw [e2, e3, e4, e5, e6]
  linarith

/-- Bound of the residual of the displacements after the slips have been solved. -/
noncomputable def stiffness (p : Problem N) (x : ℕ → ℝ) : ℝ :=
  ∑ r ∈ range p.n, SpecTangent (p.cells x) (unit p.internal r) (unit p.internal r)

theorem part_bound {p : Problem N} (hl : SpecLinear p) (hc : SpecConvex p) (hB : SpecBlocks p)
    {x z y : ℕ → ℝ} (hx : Satisfies p.aff x) (hz : Reach p x z) (hy : Reach p x y)
    (h0 : ∀ v, Satisfies p.internal v → (∀ d, p.blk d ≠ 0 → v d = 0) → SpecResidual (p.cells z) v = 0) :
    p.part 0 (p.resid y) ^ 2 ≤ stiffness p x *
      SpecTangent (p.cells x) (fun d => y d - z d) fun d => y d - z d := by
  have hu : Satisfies p.internal fun d => y d - z d := by
    have := sub_satisfies hl.homogeneous hy hz
    have e : (fun d => y d - x d - (z d - x d)) = fun d => y d - z d := by funext d; ring
    rwa [e] at this
  unfold Problem.part stiffness
  rw [Real.sq_sqrt (sum_nonneg fun d _ => sq_nonneg _), Finset.sum_mul, Finset.sum_filter]
  refine sum_le_sum fun r hr => ?_
  have hun := unit_satisfies hl.homogeneous r
  by_cases hb : p.blk r = 0
  · rw [if_pos hb, resid_eq hl y (mem_range.1 hr), Reach.resid hl hx hy hz hun, h0 _ hun fun e hne =>
      distribute_block hl.homogeneous hB.internal (b := 0) (fun r' hr' => by
        rw [Pi.single_eq_of_ne]; rintro rfl; exact hr' hb) hne, zero_sub, neg_sq]
    exact tangent_cauchy hl hc hx hun hu
  · rw [if_neg hb]
    exact mul_nonneg (hc.nonneg x _ hx hun) (hc.nonneg x _ hx hu)

theorem withRhs_residual (K : Constraints ℕ) (a b : List (Local N))
    (h : a.map Local.dofs = b.map Local.dofs) (r : ℕ) :
    residual K (withRhs a b) r = residual K b r := by
  unfold residual
  congr 1
  induction a generalizing b with
  | nil => cases b with
    | nil => rfl
    | cons y t => cases h
  | cons x l ih => cases b with
    | nil => cases h
    | cons y t =>
      simp only [List.map_cons, List.cons.injEq] at h
      rw [withRhs, List.zipWith_cons_cons, List.map_cons, List.map_cons, ← withRhs, ih t h.2, h.1]

theorem withRhs_jacobian (K : Constraints ℕ) (a b : List (Local N))
    (h : a.map Local.dofs = b.map Local.dofs) (r c : ℕ) :
    jacobian K (withRhs a b) r c = jacobian K a r c := by
  unfold jacobian
  congr 1
  induction a generalizing b with
  | nil => cases b with
    | nil => rfl
    | cons y t => cases h
  | cons x l ih => cases b with
    | nil => cases h
    | cons y t =>
      simp only [List.map_cons, List.cons.injEq] at h
      rw [withRhs, List.zipWith_cons_cons, List.map_cons, List.map_cons, ← withRhs, ih t h.2]

/-- C97, any step, linear or not: a macro iteration of the bouncing algorithm without line search changes
the displacements by the solution of the system with the residual of the current trial solution and the
Jacobian of the first iteration of the loop. -/
theorem C97_bouncing_iteration (p : Problem N) (hq : p.searchMacro.on = false) (k : ℕ) (s : Step N)
    (x : ℕ → ℝ) (hs : s.trial = some x) (hmesh : s.jac.map Local.dofs = (p.cells x).map Local.dofs)
    (he : ∀ L : List (Local N), (∀ r, residual p.internal L r = p.resid x r) →
      (∀ r c, jacobian p.internal L r c =
        jacobian p.internal (if k = 1 then p.cells x else s.jac) r c) →
      SolvesBlock p.internal L p.n p.blk 0 (p.block 0 L)) :
    ∃ v, (∀ r < p.n, p.blk r = 0 →
        ∑ c ∈ (range p.n).filter (p.blk · = 0),
          jacobian p.internal (if k = 1 then p.cells x else s.jac) r c * v c = p.resid x r) ∧
      (p.bounce.macroIt k s).trial =
        some (updateTrial p.aff p.blk 0 1 (newtonUpdateBlock p.internal p.blk 0 v) x) := by
  set J := if k = 1 then p.cells x else s.jac with hJ
  have hd : J.map Local.dofs = (p.cells x).map Local.dofs := by
    rw [hJ]; split_ifs
    · rfl
    · exact hmesh
  refine ⟨p.block 0 (withRhs J (p.cells x)), fun r hr hb => ?_, ?_⟩
  · have := (he _ (withRhs_residual _ _ _ hd) (withRhs_jacobian _ _ _ hd)).rows r hr hb
    rw [withRhs_residual _ _ _ hd] at this
    simp only [withRhs_jacobian _ _ _ hd] at this
    exact this
  · simp only [Problem.bounce, Step.moved, hs, Option.bind_some, Option.map_some, Option.getD_some,
      Problem.macroUpdate, Bool.false_eq_true, if_false]
    rw [advance_off p hq, ← hJ]

/-! ## Bouncing algorithm -/

theorem bounce_macro {p : Problem N} (hl : SpecLinear p) (hB : SpecBlocks p) (he : SpecExactBlocks p)
    (hq : p.searchMacro.on = false) {x z : ℕ → ℝ} (hx : Satisfies p.aff x) (hz : Reach p x z)
    (s : Step N) (hs : s.trial = some z) :
    ∃ y, (p.bounce.macroIt 1 s).trial = some y ∧ (p.bounce.macroIt 1 s).held = some (p.resid y) ∧
      Solved p x 0 z y := by
  refine ⟨_, ?_, ?_, block_step hl hB he 0 hx hz⟩
  · simp only [Problem.bounce, Step.moved, hs, Option.bind_some, if_true, Option.map_some,
      Option.getD_some, Problem.macroUpdate, Bool.false_eq_true, if_false, withRhs_self]
    rw [advance_off p hq]
  · simp only [Problem.bounce, Step.moved, hs, Option.bind_some, if_true, Option.map_some,
      Option.getD_some, Problem.macroUpdate, Bool.false_eq_true, if_false, withRhs_self]
    rw [advance_off p hq]; rfl

theorem bounce_loops {p : Problem N} (hl : SpecLinear p) (hc : SpecConvex p) (hB : SpecBlocks p)
    (he : SpecExactBlocks p) (hq0 : p.searchMacro.on = false) (hq1 : p.searchMicro.on = false)
    (q : StagParams) (hM : 1 ≤ q.nMacro) (hm : 1 ≤ q.nMicro) (ht0 : 0 < q.tolMacro) (ht1 : 0 < q.tolMicro)
    {x e : ℕ → ℝ} (hx : Satisfies p.aff x) (hie : Reach p x e)
    (hsol : ∀ v, Satisfies p.internal v → SpecResidual (p.cells e) v = 0)
    (hi : p.resetSlips = true → Reach p x p.initial)
    (L fuel c k : ℕ) (m : Bool) (z : ℕ → ℝ) (s : Step N) (hs : s.trial = some z) (hz : Reach p x z)
    (hc1 : 1 ≤ c) (hstart : ¬ (below (p.bounce.macroNorm s) q.tolMacro ∧ ¬ (c = 1 ∧ 0 = 0)))
    (hL : stiffness p x * gap p x e z < L * q.tolMacro ^ 2) (hcL : c + L ≤ q.nLoops)
    (hf : 2 * L + 1 ≤ fuel) :
    ∃ s' y k', bouncing p.bounce q fuel 0 c m k s = .returned s' k' ∧ s'.trial = some y ∧
      Reach p x y ∧ k' ≤ k + 2 * L ∧ s'.held = some (p.resid y) := by
  have hK : 0 ≤ stiffness p x := sum_nonneg fun r _ => hc.nonneg x _ hx (unit_satisfies hl.homogeneous r)
  induction L generalizing fuel c k m z s with
  | zero =>
    exfalso
    have : 0 ≤ gap p x e z := by
      have := sub_satisfies hl.homogeneous hz hie
      have e : (fun d => z d - x d - (e d - x d)) = fun d => z d - e d := by funext d; ring
      rw [e] at this
      exact hc.nonneg x _ hx this
    have := mul_nonneg hK this
    simp at hL
    linarith
  | succ L ih =>
    obtain ⟨f, rfl⟩ : ∃ f, fuel = f + 3 := ⟨fuel - 3, by omega⟩
    rw [bouncing, if_neg hstart, if_neg (by omega)]
    obtain ⟨y, hy, hyh, hys⟩ := bounce_macro hl hB he hq0 hx hz s hs
    set s1 := p.bounce.macroIt (0 + 1) s with hs1
    have hn1 : p.bounce.macroNorm s1 = some 0 := by
      show s1.held.map (p.part 0) = _
      rw [hyh, Option.map_some, hys.part hl hB]
    rw [bouncing, if_pos ⟨by rw [hn1]; exact ht0, by omega⟩]
    simp only [Bool.false_eq_true, if_false]
    obtain ⟨s2, w, hmic, hw, hwh, hws⟩ := micro_pass hl hB he hq1 p.bounce true rfl rfl rfl q.nMicro hm
      q.tolMicro ht1 hx hys.reach hi s1 hy
    rw [hmic]
    simp only
    rw [if_neg (by omega)]
    by_cases hbel : below (p.bounce.macroNorm s2) q.tolMacro
    · rw [bouncing, if_pos ⟨hbel, by omega⟩]
      simp only [if_true]
      exact ⟨s2, w, _, rfl, hw, hws.reach, by omega, hwh⟩
    · have hg := gap_drop hl hc hx hys.reach hie hsol hws
      have hg0 := gap_drop hl hc hx hz hie hsol hys
      have hb := part_bound hl hc hB hx hys.reach hws.reach hys.zero
      have hge : q.tolMacro ≤ p.part 0 (p.resid w) := by
        have e : p.bounce.macroNorm s2 = some (p.part 0 (p.resid w)) := by
          show s2.held.map (p.part 0) = _
          rw [hwh]; rfl
        rw [e] at hbel
        exact not_lt.1 hbel
      have hsq : q.tolMacro ^ 2 ≤ p.part 0 (p.resid w) ^ 2 := by
        exact pow_le_pow_left₀ ht0.le hge 2
      have hyz : 0 ≤ SpecTangent (p.cells x) (fun d => y d - z d) fun d => y d - z d := by
        have := sub_satisfies hl.homogeneous hys.reach hz
        have e : (fun d => y d - x d - (z d - x d)) = fun d => y d - z d := by funext d; ring
        rw [e] at this
        exact hc.nonneg x _ hx this
      have hlt : stiffness p x * gap p x e w < L * q.tolMacro ^ 2 := by
        have h1 : stiffness p x * gap p x e y ≤ stiffness p x * gap p x e z := by
          apply mul_le_mul_of_nonneg_left _ hK
          linarith
        push_cast at hL
        rw [hg, mul_sub]
        nlinarith
      obtain ⟨s', y', k', h1, h2, h3, h4, h5⟩ := ih (f + 1) (c + 1) (k + 1 + 1) true w s2 hw hws.reach (by omega)
        (fun h => hbel h.1) hlt (by omega) (by omega)
      exact ⟨s', y', k', h1, h2, h3, by omega, h5⟩

/-- C97, bouncing algorithm: a linear step whose equations derive from a convex energy and have a solution
is solved to every tolerance if the limit on the solution loops is large enough; each loop takes two linear
solves.  Missing from the full property: line searches (`C97_violated_elastic`). -/
theorem C97_bouncing_partial (p : Problem N) (hl : SpecLinear p) (hc : SpecConvex p)
    (hB : SpecBlocks p) (he : SpecExactBlocks p) (hq0 : p.searchMacro.on = false)
    (hq1 : p.searchMicro.on = false) (x e : ℕ → ℝ) (hx : Satisfies p.aff x) (hsol : SpecSolution p e)
    (hxe : Satisfies p.internal fun d => e d - x d)
    (hi : p.resetSlips = true → Satisfies p.internal fun d => p.initial d - x d)
    (s : Step N) (hs : s.trial = some x) (tol0 tol1 : ℝ) (ht0 : 0 < tol0) (ht1 : 0 < tol1) :
    ∃ L, ∀ q : StagParams, q.tolMacro = tol0 → q.tolMicro = tol1 → L ≤ q.nLoops → 1 ≤ q.nMacro →
      1 ≤ q.nMicro →
      ∃ s' y k, bouncing p.bounce q (max q.nLoops 1 * (q.nMacro + 1)) 0 1 false 0 s = .returned s' k ∧
        k ≤ 2 * L ∧ s'.trial = some y ∧ Satisfies p.aff y ∧ p.part 0 (p.resid y) < tol0 ∧
        p.part 1 (p.resid y) < tol1 := by
  obtain ⟨L, hL⟩ := exists_nat_gt (stiffness p x * gap p x e x / tol0 ^ 2)
  rw [div_lt_iff₀ (by positivity)] at hL
  have hxx : Reach p x x := by
    intro d l h
    unfold Line.eval
    rw [hl.homogeneous.inhom d l h]
    simp
  refine ⟨L + 1, fun q h0 h1 hL1 hM hm => ?_⟩
  subst h0 h1
  obtain ⟨s', y, k', hret, h2, h3, h4, h5⟩ := bounce_loops hl hc hB he hq0 hq1 q hM hm ht0 ht1 hx hxe hsol.2 hi
    L (max q.nLoops 1 * (q.nMacro + 1)) 1 0 false x s hs hxx le_rfl (by simp) hL (by omega)
    (by
      have : max q.nLoops 1 = q.nLoops := by omega
      rw [this]
      calc 2 * L + 1 ≤ q.nLoops * 2 := by omega
        _ ≤ q.nLoops * (q.nMacro + 1) := Nat.mul_le_mul_left _ (by omega))
  rcases C09_bouncing p.bounce q s with ⟨t, j, hr, hbc, -⟩ | ⟨j, hr, -⟩
  · rw [hret] at hr
    simp only [Outcome.returned.injEq] at hr
    obtain ⟨rfl, rfl⟩ := hr
    obtain ⟨hb0, hb1, -⟩ := hbc
    rw [← below_iff] at hb0 hb1
    have e0 : p.bounce.macroNorm s' = some (p.part 0 (p.resid y)) := by
      show s'.held.map (p.part 0) = _
      rw [h5]; rfl
    have e1 : p.bounce.microNorm s' = some (p.part 1 (p.resid y)) := by
      show s'.held.map (p.part 1) = _
      rw [h5]; rfl
    rw [e0] at hb0
    rw [e1] at hb1
    exact ⟨s', y, k', hret, by omega, h2, h3.aff hl hx, hb0, hb1⟩
  · rw [hret] at hr; simp at hr

/-! ## Embracing algorithm -/

theorem embrace_first {p : Problem N} (hl : SpecLinear p) (hB : SpecBlocks p) (he : SpecExactBlocks p)
    (hq : p.searchMacro.on = false) {x z : ℕ → ℝ} (hx : Satisfies p.aff x) (hz : Reach p x z)
    (s : Step N) (hs : s.trial = some z) :
    ∃ y, (p.embrace.macroIt 1 s).trial = some y ∧ Solved p x 0 z y := by
  refine ⟨_, ?_, block_step hl hB he 0 hx hz⟩
  simp only [Problem.embrace, Step.moved, hs, Option.bind_some, Option.map_some, ne_eq, not_true_eq_false,
    decide_false, Option.getD_some, Problem.macroUpdate, Bool.false_eq_true, if_false, withRhs_self]
  rw [advance_off p hq]

/-- A reduced step from a state in which the equations of the slips hold, followed by the solution of the
slips, gives a solution. -/
theorem reduced_step {p : Problem N} (hl : SpecLinear p) (hc : SpecConvex p) (hB : SpecBlocks p)
    (he : SpecExactBlocks p) (hq : p.searchMacro.on = false) {x z : ℕ → ℝ} (hx : Satisfies p.aff x)
    (hz : Reach p x z)
    (h1 : ∀ v, Satisfies p.internal v → (∀ d, p.blk d ≠ 1 → v d = 0) → SpecResidual (p.cells z) v = 0)
    (k : ℕ) (hk : k ≠ 1) (s : Step N) (hs : s.trial = some z) :
    ∃ y, (p.embrace.macroIt k s).trial = some y ∧ Reach p x y ∧
      ∀ w, Solved p x 1 y w → ∀ v, Satisfies p.internal v → SpecResidual (p.cells w) v = 0 := by
  obtain ⟨y0, hred⟩ := he.reduced z (hz.aff hl hx)
  obtain ⟨hu, huz, m, hm, hmz, hweak⟩ := C79_reduced hl.homogeneous (hl.numbered z) p.blk hB.two hB.internal
    _ y0 hred
  set u := newtonUpdateBlock p.internal p.blk 0 (p.reduced (p.cells z)) with hudef
  have hsub : ∀ {a c : ℕ → ℝ}, Reach p x a → Reach p x c → Satisfies p.internal fun d => a d - c d := by
    intro a c ha hc
    have := sub_satisfies hl.homogeneous ha hc
    have e : (fun d => a d - x d - (c d - x d)) = fun d => a d - c d := by funext d; ring
    rwa [e] at this
  have hy : Reach p x fun d => z d + u d := by
    have := add_satisfies hl.homogeneous hz hu
    have e : (fun d => z d - x d + u d) = fun d => z d + u d - x d := by funext d; ring
    unfold Reach
    rwa [e] at this
  refine ⟨fun d => z d + u d, ?_, hy, fun w hw v hv => ?_⟩
  · simp only [Problem.embrace, Step.moved, hs, Option.bind_some, Option.map_some, ne_eq, hk,
      not_false_eq_true, decide_true, Option.getD_some, Problem.macroUpdate, if_true, withRhs_self]
    rw [advance_off p hq, ← hudef, step_eq (hl.admissible z u (hz.aff hl hx) hu) huz]
  set T := SpecTangent (p.cells x) with hT
  have hTz : ∀ a b, Satisfies p.internal a → Satisfies p.internal b →
      SpecTangent (p.cells z) a b = T a b := fun a b ha hb =>
    hl.tangent z x (hz.aff hl hx) hx b a hb ha
  -- the correction of the slips
  set δ : ℕ → ℝ := fun d => w d - (z d + u d) with hδ
  have hδs : Satisfies p.internal δ := hsub hw.reach hy
  have hdm : Satisfies p.internal fun d => δ d - m d := sub_satisfies hl.homogeneous hδs hm
  have hsum : Satisfies p.internal fun d => u d + m d := add_satisfies hl.homogeneous hu hm
  have hweak' : ∀ v, Satisfies p.internal v → T v u + T v m =
      SpecResidual (p.cells z) fun d => if p.blk d = 0 then v d else 0 := by
    intro v hv
    rw [← hweak v hv, hTz v _ hv hsum, hT, tangent_add_right]
  have hres : ∀ v, Satisfies p.internal v → SpecResidual (p.cells w) v =
      SpecResidual (p.cells z) v - T v u - T v δ := by
    intro v hv
    rw [Reach.resid hl hx hw.reach hy hv, Reach.resid hl hx hy hz hv]
    congr 2
    · congr 1
      funext d; ring
  have hzero0 : SpecResidual (p.cells z) (fun _ => 0) = 0 := by
    unfold SpecResidual; simp
  have hk0 : ∀ v, Satisfies p.internal v → (∀ d, p.blk d ≠ 1 → v d = 0) →
      T v (fun d => δ d - m d) = 0 := by
    intro v hv hv1
    have a1 := hres v hv
    rw [hw.zero v hv hv1, h1 v hv hv1] at a1
    have a2 := hweak' v hv
    have : (fun d => if p.blk d = 0 then v d else 0) = fun _ => (0:ℝ) := by
      funext d
      split_ifs with h
      · exact hv1 d (by omega)
      · rfl
    rw [this, hzero0] at a2
    have e : (fun d => δ d - m d) = fun d => δ d + (-1) * m d := by funext d; ring
    rw [e, hT, tangent_add_right (p.cells x) v δ (fun d => -1 * m d), tangent_smul_right, ← hT]
    linarith
  have hself : T (fun d => δ d - m d) (fun d => δ d - m d) = 0 :=
    hk0 _ hdm fun d hd => by rw [hmz d hd, hδ]; simp only; rw [hw.other d hd]; ring
  have hall : T v (fun d => δ d - m d) = 0 := by
    have := tangent_cauchy hl hc hx hv hdm
    rw [← hT, hself, mul_zero] at this
    nlinarith [sq_nonneg (T v fun d => δ d - m d)]
  have e : T v δ = T v m := by
    have e : (fun d => δ d - m d) = fun d => δ d + (-1) * m d := by funext d; ring
    rw [e, hT, tangent_add_right (p.cells x) v δ (fun d => -1 * m d), tangent_smul_right, ← hT] at hall
    linarith
  have hv0 := restrict_satisfies hl.homogeneous hB.internal hv
  have hv1 : Satisfies p.internal fun d => v d - if p.blk d = 0 then v d else 0 :=
    sub_satisfies hl.homogeneous hv hv0
  have hsplit : SpecResidual (p.cells z) v =
      SpecResidual (p.cells z) fun d => if p.blk d = 0 then v d else 0 := by
    have h := h1 _ hv1 fun d hd => by
      rw [if_pos ((hB.two d).resolve_right hd), sub_self]
    have e : SpecResidual (p.cells z) (fun d => v d - if p.blk d = 0 then v d else 0) =
        SpecResidual (p.cells z) v - SpecResidual (p.cells z) fun d => if p.blk d = 0 then v d else 0 := by
      rw [← residual_test hl.homogeneous (hl.numbered z) hv1,
        ← residual_test hl.homogeneous (hl.numbered z) hv,
        ← residual_test hl.homogeneous (hl.numbered z) hv0, ← Finset.sum_sub_distrib]
      exact sum_congr rfl fun r _ => by ring
    rw [e] at h
    linarith
  rw [hres v hv, e]
  have := hweak' v hv
  linarith

/-- C97, embracing algorithm: a linear step whose equations derive from a convex energy takes one
correction of the displacements and of the slips if that meets the tolerances, and two of each otherwise,
which then give a solution.  Missing from the full property: line searches (`C97_violated_elastic`). -/
theorem C97_embracing_partial (p : Problem N) (hl : SpecLinear p) (hc : SpecConvex p)
    (hB : SpecBlocks p) (he : SpecExactBlocks p) (hq0 : p.searchMacro.on = false)
    (hq1 : p.searchMicro.on = false) (x : ℕ → ℝ) (hx : Satisfies p.aff x)
    (hi : p.resetSlips = true → Satisfies p.internal fun d => p.initial d - x d)
    (s : Step N) (hs : s.trial = some x) (q : StagParams) (hM : 2 ≤ q.nMacro) (hm : 1 ≤ q.nMicro)
    (ht0 : 0 < q.tolMacro) (ht1 : 0 < q.tolMicro) :
    ∃ s' y k, embracing p.embrace q (q.nMacro + 1) 0 false 0 s = .returned s' k ∧ s'.trial = some y ∧
      Satisfies p.aff y ∧ p.part 0 (p.resid y) < q.tolMacro ∧ p.part 1 (p.resid y) < q.tolMicro ∧
      (k = 2 ∨ k = 4 ∧ SpecSolution p y) := by
  have hxx : Reach p x x := by
    intro d l h
    unfold Line.eval
    rw [hl.homogeneous.inhom d l h]
    simp
  obtain ⟨f, hf⟩ : ∃ f, q.nMacro + 1 = f + 3 := ⟨q.nMacro - 2, by omega⟩
  rw [hf, embracing]
  simp only [Bool.false_eq_true, and_false, if_false]
  rw [if_neg (by omega)]
  obtain ⟨y1, hy1, hs1⟩ := embrace_first hl hB he hq0 hx hxx (p.embrace.evaluate s) hs
  obtain ⟨t1, w1, hmic1, hw1, hwh1, hws1⟩ := micro_pass hl hB he hq1 p.embrace false rfl rfl rfl q.nMicro hm
    q.tolMicro ht1 hx hs1.reach hi (p.embrace.macroIt 1 (p.embrace.evaluate s)) hy1
  simp only [Nat.zero_add]
  rw [hmic1]
  simp only
  have hn1 : p.embrace.macroNorm (p.embrace.evaluate t1) = some (p.part 0 (p.resid w1)) := by
    show (t1.trial.map p.resid).map (p.part 0) = _
    rw [hw1]; rfl
  rw [embracing]
  by_cases hb : below (p.embrace.macroNorm (p.embrace.evaluate t1)) q.tolMacro
  · rw [if_pos ⟨hb, rfl⟩]
    rw [hn1] at hb
    exact ⟨_, w1, _, rfl, hw1, hws1.reach.aff hl hx, hb, by rw [hws1.part hl hB]; exact ht1, Or.inl rfl⟩
  · rw [if_neg fun h => hb h.1, if_neg (by omega)]
    obtain ⟨y2, hy2, hr2, hfin⟩ := reduced_step hl hc hB he hq0 hx hws1.reach hws1.zero (1 + 1) (by omega)
      (p.embrace.evaluate t1) hw1
    obtain ⟨t2, w2, hmic2, hw2, hwh2, hws2⟩ := micro_pass hl hB he hq1 p.embrace false rfl rfl rfl q.nMicro
      hm q.tolMicro ht1 hx hr2 hi (p.embrace.macroIt (1 + 1) (p.embrace.evaluate t1)) hy2
    rw [hmic2]
    simp only
    have hsol : SpecSolution p w2 := ⟨hws2.reach.aff hl hx, hfin w2 hws2⟩
    have h0 : p.part 0 (p.resid w2) = 0 := part_zero p fun d hd _ => resid_zero hl hsol.2 hd
    have hn2 : p.embrace.macroNorm (p.embrace.evaluate t2) = some 0 := by
      show (t2.trial.map p.resid).map (p.part 0) = _
      rw [hw2]
      simp only [Option.map_some, h0]
    rw [embracing]
    rw [if_pos ⟨by rw [hn2]; exact ht0, rfl⟩]
    exact ⟨_, w2, _, rfl, hw2, hsol.1, by rw [h0]; exact ht0, by rw [hws2.part hl hB]; exact ht1,
      Or.inr ⟨rfl, hsol⟩⟩

/-! ## Non-vacuity -/

/-- A displacement (0) and a slip (1) under a force of 1 on the displacement, energy
`u² - u g + g²/2 - u`. -/
def exSpring (x : ℕ → ℝ) : Local 2 where
  dofs := fun i => i
  mat := ![![2, -1], ![-1, 1]]
  rhs := ![1 - 2 * x 0 + x 1, x 0 - x 1]
  diag := fun _ => 1
  couplings := []

/-- The step with it, with exact solvers. -/
noncomputable def exStep (single : Bool) (on : Bool) : Problem 2 where
  n := 2
  aff := fun _ => none
  internal := fun _ => none
  blk := fun d => if single then 0 else if d = 0 then 0 else 1
  cells := fun x => [exSpring x]
  all := fun c d => if d = 0 then residual (fun _ => none) c 0 + residual (fun _ => none) c 1
    else residual (fun _ => none) c 0 + 2 * residual (fun _ => none) c 1
  block := fun b c d => if b = 0 then (if d = 0 then residual (fun _ => none) c 0 / 2 else 0)
    else if d = 0 then 0 else if b = 1 then residual (fun _ => none) c 1 else 0
  reduced := fun c d => if d = 0 then residual (fun _ => none) c 0 else 0
  initial := fun _ => 0
  resetSlips := true
  searchAll := ⟨on, 15, 1e-4⟩
  searchMacro := ⟨false, 15, 1e-4⟩
  searchMicro := ⟨false, 15, 1e-4⟩

theorem exSpring_entries (x : ℕ → ℝ) : jacobian (fun _ => none) [exSpring x] 0 0 = 2 ∧
    jacobian (fun _ => none) [exSpring x] 0 1 = -1 ∧ jacobian (fun _ => none) [exSpring x] 1 0 = -1 ∧
    jacobian (fun _ => none) [exSpring x] 1 1 = 1 ∧
    residual (fun _ => none) [exSpring x] 0 = 1 - 2 * x 0 + x 1 ∧
    residual (fun _ => none) [exSpring x] 1 = x 0 - x 1 := by
  unfold jacobian residual
  simp only [free_weight]
  simp [exSpring, Fin.sum_univ_two]

theorem free_satisfies (v : ℕ → ℝ) : Satisfies (fun _ => none) v := fun _ _ h => by simp at h

theorem exSpring_tangent (x v u : ℕ → ℝ) : SpecTangent [exSpring x] v u =
    v 0 * (2 * u 0 - u 1) + v 1 * (u 1 - u 0) := by
  simp [SpecTangent, exSpring, Fin.sum_univ_two]
  ring

theorem exStep_linear (single on : Bool) : SpecLinear (exStep single on) where
  homogeneous := ⟨fun _ _ h => by simp [exStep] at h, fun _ _ h => by simp [exStep] at h,
    fun _ _ h => by simp [exStep] at h⟩
  closed := fun _ _ h => by simp [exStep] at h
  numbered := fun x => ⟨fun a ha i => by
      simp only [exStep, List.mem_singleton] at ha ⊢
      subst ha; exact i.2, fun a ha b hb => by
      simp only [exStep, List.mem_singleton] at ha
      subst ha
      simp [exSpring] at hb⟩
  admissible := fun _ _ _ _ => free_satisfies _
  difference := fun x u v _ _ _ => by
    show SpecResidual [exSpring _] v = SpecResidual [exSpring x] v - SpecTangent [exSpring x] v u
    rw [exSpring_tangent]
    simp [SpecResidual, exSpring, Fin.sum_univ_two]
    ring
  tangent := fun x y _ _ u v _ _ => by
    show SpecTangent [exSpring x] v u = SpecTangent [exSpring y] v u
    rw [exSpring_tangent, exSpring_tangent]

theorem exStep_all (single on : Bool) : SpecExactAll (exStep single on) := by
  intro x _ r hr
  obtain ⟨h00, h01, h10, h11, r0, r1⟩ := exSpring_entries x
  simp only [exStep] at hr ⊢
  rw [Finset.sum_range_succ, Finset.sum_range_one]
  have : r = 0 ∨ r = 1 := by omega
  rcases this with rfl | rfl
  · rw [h00, h01, r0, r1]; norm_num; ring
  · rw [h10, h11, r0, r1]; norm_num; ring

theorem exStep_convex (on : Bool) : SpecConvex (exStep false on) where
  symmetric := fun x u v _ _ _ => by
    show SpecTangent [exSpring x] v u = SpecTangent [exSpring x] u v
    rw [exSpring_tangent, exSpring_tangent]; ring
  nonneg := fun x u _ _ => by
    show 0 ≤ SpecTangent [exSpring x] u u
    rw [exSpring_tangent]
    nlinarith [sq_nonneg (u 0), sq_nonneg (u 0 - u 1)]

theorem exStep_blocks (on : Bool) : SpecBlocks (exStep false on) where
  two := fun d => by
    show (if d = 0 then 0 else 1) = 0 ∨ (if d = 0 then 0 else 1) = 1
    split_ifs <;> simp
  internal := fun _ _ h => by simp [exStep] at h
  aff := fun _ _ h => by simp [exStep] at h

theorem exStep_exact (on : Bool) : SpecExactBlocks (exStep false on) where
  block := fun b x _ => by
    obtain ⟨h00, h01, h10, h11, r0, r1⟩ := exSpring_entries x
    refine ⟨fun r hr hb => ?_, fun r hr => ?_⟩
    · have : r = 0 ∨ r = 1 := by simp only [exStep] at hr; omega
      rw [Finset.sum_filter]
      simp only [exStep, Finset.sum_range_succ, Finset.range_zero, Finset.sum_empty] at hb ⊢
      rcases this with rfl | rfl
      · simp at hb
        subst hb
        simp [h00, r0]
        ring
      · simp at hb
        subst hb
        simp [h11, r1]
    · simp only [exStep] at hr ⊢
      by_cases h : r = 0
      · subst h
        simp at hr
        simp [Ne.symm hr]
      · simp [h] at hr ⊢
        by_cases hb : b = 0
        · simp [hb]
        · simp [hb, Ne.symm hr]
  reduced := fun x _ => by
    obtain ⟨h00, h01, h10, h11, r0, r1⟩ := exSpring_entries x
    refine ⟨fun d => if d = 1 then -residual (fun _ => none) [exSpring x] 0 else 0, ⟨?_, ?_, ?_⟩⟩
    · intro r hr hb
      have : r = 1 := by
        simp only [exStep] at hr hb
        by_contra h
        have : r = 0 := by omega
        subst this; simp at hb
      subst this
      rw [Finset.sum_filter, Finset.sum_filter]
      simp [exStep, Finset.sum_range_succ, h10, h11]
    · intro r hr hb
      have : r = 0 := by
        simp only [exStep] at hr hb
        by_contra h
        simp [h] at hb
      subst this
      rw [Finset.sum_filter, Finset.sum_filter]
      simp [exStep, Finset.sum_range_succ, h00, h01]
      ring
    · intro r hr
      simp only [exStep] at hr ⊢
      by_cases h : r = 0
      · subst h; simp at hr
      · simp [h]

/-- The monolithic algorithm with line search solves the example in one step, from a state that is not in
equilibrium. -/
example : ∃ s' y, monoRD (exStep true true).mono 15 1e-8 16 0 ⟨some fun _ => 0, fun _ => 0, none, []⟩ =
    .returned s' 1 ∧ s'.trial = some y ∧ SpecSolution (exStep true true) y :=
  C97_monolithic_partial _ (exStep_linear _ _) (exStep_all _ _) (fun d => by simp [exStep]) 15 (by norm_num) _
    (by norm_num) _ _ rfl fun _ => ⟨by
      have hd : distribute (exStep true true).aff (fun _ => (0:ℝ)) = fun _ => 0 := by
        funext d; exact distribute_free rfl
      have h := (exSpring_entries fun _ => 0).2.2.2.2.1
      rw [hd]
      unfold Problem.total Problem.resid
      simp only [exStep, Finset.sum_range_succ, Finset.range_zero, Finset.sum_empty]
      rw [h]
      have : 0 < (0:ℝ) + (1 - 2 * 0 + 0) ^ 2 + residual (fun _ => none) [exSpring fun _ => 0] 1 ^ 2 := by
        positivity
      exact (Real.sqrt_pos.2 this).ne', by norm_num [exStep]⟩

/-- It gives up if the step starts in the solution `u = g = 1`. -/
example : ∃ k, monoRD (exStep true true).mono 15 1e-8 16 0 ⟨some fun _ => 1, fun _ => 0, none, []⟩ = .threw k :=
  C97_violated_equilibrium _ (exStep_linear _ _) (exStep_all _ _) (fun d => by simp [exStep]) rfl 15
    (by norm_num) _ _ _ rfl ⟨free_satisfies _, fun v _ => by
      show SpecResidual [exSpring fun _ => 1] v = 0
      simp [SpecResidual, exSpring, Fin.sum_univ_two]
      right; norm_num⟩

example : ∃ L, ∀ q : StagParams, q.tolMacro = 1e-8 → q.tolMicro = 1e-8 → L ≤ q.nLoops → 1 ≤ q.nMacro →
    1 ≤ q.nMicro → ∃ s' y k, bouncing (exStep false false).bounce q (max q.nLoops 1 * (q.nMacro + 1)) 0 1
        false 0 ⟨some fun _ => 0, fun _ => 0, none, []⟩ = .returned s' k ∧
        k ≤ 2 * L ∧ s'.trial = some y ∧ Satisfies (exStep false false).aff y ∧
        (exStep false false).part 0 ((exStep false false).resid y) < 1e-8 ∧
        (exStep false false).part 1 ((exStep false false).resid y) < 1e-8 :=
  C97_bouncing_partial _ (exStep_linear _ _) (exStep_convex _) (exStep_blocks _) (exStep_exact _) rfl rfl
    (fun _ => 0) (fun _ => 1) (free_satisfies _) ⟨free_satisfies _, fun v _ => by
      show SpecResidual [exSpring fun _ => 1] v = 0
      simp [SpecResidual, exSpring, Fin.sum_univ_two]
      right; norm_num⟩ (free_satisfies _) (fun _ => free_satisfies _) _ rfl
    _ _ (by norm_num) (by norm_num)

example : ∃ s' y k, embracing (exStep false false).embrace ⟨15, 15, 3, 1e-8, 1e-8⟩ 16 0 false 0
      ⟨some fun _ => 0, fun _ => 0, none, []⟩ = .returned s' k ∧ s'.trial = some y ∧
      Satisfies (exStep false false).aff y ∧
      (exStep false false).part 0 ((exStep false false).resid y) < 1e-8 ∧
      (exStep false false).part 1 ((exStep false false).resid y) < 1e-8 ∧
      (k = 2 ∨ k = 4 ∧ SpecSolution (exStep false false) y) :=
  C97_embracing_partial _ (exStep_linear _ _) (exStep_convex _) (exStep_blocks _) (exStep_exact _) rfl rfl
    (fun _ => 0) (free_satisfies _) (fun _ => free_satisfies _) _ rfl ⟨15, 15, 3, 1e-8, 1e-8⟩ (by norm_num)
    (by norm_num) (by norm_num) (by norm_num)

/-- Second macro iteration of a loop of the bouncing algorithm in the example. -/
example (x y : ℕ → ℝ) : ∃ v, (∀ r < 2, (exStep false false).blk r = 0 →
      ∑ c ∈ (range 2).filter ((exStep false false).blk · = 0),
        jacobian (fun _ => none) [exSpring y] r c * v c = (exStep false false).resid x r) ∧
    ((exStep false false).bounce.macroIt 2 ⟨some x, y, none, [exSpring y]⟩).trial =
      some (updateTrial (fun _ => none) (exStep false false).blk 0 1
        (newtonUpdateBlock (fun _ => none) (exStep false false).blk 0 v) x) := by
  refine C97_bouncing_iteration (exStep false false) rfl 2 ⟨some x, y, none, [exSpring y]⟩ x rfl rfl ?_
  intro L hr hj
  have hj0 : jacobian (fun _ => none) L 0 0 = 2 := by
    refine (hj 0 0).trans ?_
    simp [jacobian, exSpring, Asm.weight, exStep, Fin.sum_univ_two]
  have hf : (range 2).filter ((exStep false false).blk · = 0) = {0} := by
    ext d; simp [exStep]
  refine ⟨fun r hr' hb => ?_, fun r hb => ?_⟩
  · have h0 : r = 0 := by
      simp [exStep] at hb; exact hb
    subst h0
    rw [show (exStep false false).n = 2 from rfl, hf, sum_singleton]
    show jacobian (fun _ => none) L 0 0 * (residual (fun _ => none) L 0 / 2) = residual (fun _ => none) L 0
    rw [hj0]; ring
  · have h0 : r ≠ 0 := by
      rintro rfl; simp [exStep] at hb
    simp [exStep, h0]

/-- The example with the slip inactive and a line search for the slips. -/
noncomputable def exElastic : Problem 2 :=
  { exStep false false with
    internal := fun d => if d = 0 then none else some ⟨[], 0⟩, searchMicro := ⟨true, 15, 1e-4⟩ }

example (q : StagParams) (s : Step 2) :
    (∃ k, bouncing exElastic.bounce q (max q.nLoops 1 * (q.nMacro + 1)) 0 1 false 0 s = .threw k) ∧
    ∃ k, embracing exElastic.embrace q (q.nMacro + 1) 0 false 0 s = .threw k := by
  refine C97_violated_elastic exElastic ⟨fun d l h => ?_, fun d l h => ?_, fun d l h => ?_⟩
    (fun d h => ?_) rfl q s
  · simp only [exElastic] at h
    split_ifs at h
    rw [← Option.some.inj h]
  · simp only [exElastic] at h
    split_ifs at h
    rw [← Option.some.inj h]; simp
  · simp only [exElastic] at h
    split_ifs at h
    rw [← Option.some.inj h]; simp
  · simp only [exElastic, exStep] at h ⊢
    by_cases hd : d = 0
    · subst hd; simp at h
    · rw [if_neg hd]

end Verif.Lin
