import Verif.Props.Existence

/-!
# The staggered algorithms find the solution of a step: C120
-/

namespace Verif.Asm
open Finset

variable {d n N : ℕ}

/-! ## Helpers -/

/-- A state whose residual was assembled at its admissible trial solution. -/
def Admitted (p : Lin.Problem N) (s : Lin.Step N) : Prop :=
  (∀ x, s.trial = some x → Sol.Satisfies p.aff x)

theorem micro_admitted {p : Lin.Problem N} (hc : Sol.Closed p.aff) (hb : Sol.BlockLocal p.aff p.blk)
    {s : Lin.Step N} (hs : Admitted p s) : Admitted p (p.micro s) := by
  intro y hy
  have hy : (s.trial.bind fun x => p.advance p.searchMicro (p.part 1) 1
      (Lin.newtonUpdateBlock p.internal p.blk 1 (p.block 1 (p.cells x))) x x) = some y := hy
  obtain ⟨x, hx, he⟩ := Option.bind_eq_some_iff.1 hy
  exact advance_satisfies hc hb _ _ _ _ _ x (hs x hx) y he

theorem enter_admitted {p : Lin.Problem N} (hc : Sol.Closed p.aff) (hb : Sol.BlockLocal p.aff p.blk)
    (dist : Bool) {s : Lin.Step N} (hs : dist = false → Admitted p s) : Admitted p (p.enter dist s) := by
  intro y hy
  obtain ⟨x, hx, rfl⟩ := Option.map_eq_some_iff.1 (show s.trial.map _ = some y from hy)
  have h1 : Sol.Satisfies p.aff (if dist then Sol.distribute p.aff x else x) := by
    cases dist with
    | true => exact Sol.distribute_satisfies hc x
    | false => exact hs rfl x hx
  show Sol.Satisfies p.aff (if p.resetSlips then _ else _)
  cases p.resetSlips with
  | true => exact Sol.C63_reset_keeps p.aff hc p.blk hb 1 _ _ h1
  | false => exact h1

theorem part_total (p : Lin.Problem N) (hblk : ∀ g < p.n, p.blk g = 0 ∨ p.blk g = 1) (r : ℕ → ℝ) :
    SpecLength p.n r ^ 2 = p.part 0 r ^ 2 + p.part 1 r ^ 2 := by
  unfold SpecLength Lin.Problem.part
  rw [Real.sq_sqrt (sum_nonneg fun _ _ => sq_nonneg _), Real.sq_sqrt (sum_nonneg fun _ _ => sq_nonneg _),
    Real.sq_sqrt (sum_nonneg fun _ _ => sq_nonneg _), ← sum_filter_add_sum_filter_not (range p.n) (p.blk · = 0)]
  congr 1
  refine sum_congr ?_ fun _ _ => rfl
  ext g
  simp only [mem_filter, mem_range]
  refine and_congr_right fun hg => ?_
  rcases hblk g hg with h | h <;> simp [h]

/-- A state with both norms below their tolerances. -/
theorem both_small {p : Lin.Problem N} (hblk : ∀ g < p.n, p.blk g = 0 ∨ p.blk g = 1) {r : ℕ → ℝ} {a b : ℝ}
    (h0 : p.part 0 r < a) (h1 : p.part 1 r < b) : SpecLength p.n r ≤ √(a ^ 2 + b ^ 2) := by
  refine Real.le_sqrt_of_sq_le ?_
  rw [part_total p hblk]
  have a0 : 0 ≤ p.part 0 r := Real.sqrt_nonneg _
  have a1 : 0 ≤ p.part 1 r := Real.sqrt_nonneg _
  nlinarith

/-- What both staggered algorithms return. -/
def Found (p : Lin.Problem N) (q : Drv.StagParams) (s : Lin.Step N) : Prop :=
  ∃ x, s.trial = some x ∧ Sol.Satisfies p.aff x ∧ SpecLength p.n (p.resid x) ≤ √(q.tolMacro ^ 2 + q.tolMicro ^ 2)

theorem bouncing_found {p : Lin.Problem N} (hc : Sol.Closed p.aff) (hb : Sol.BlockLocal p.aff p.blk)
    (hblk : ∀ g < p.n, p.blk g = 0 ∨ p.blk g = 1) (q : Drv.StagParams) {s s' : Lin.Step N} {k : ℕ}
    (h : Drv.bouncing p.bounce q (max q.nLoops 1 * (q.nMacro + 1)) 0 1 false 0 s = .returned s' k) :
    Found p q s' := by
  have hadm : Admitted p s' := Drv.bouncing_invariant p.bounce q (Admitted p)
    (fun s => enter_admitted hc hb true (fun h => by simp at h)) (fun s hs => micro_admitted hc hb hs)
    _ _ _ _ _ _ _ _ (by simp) h
  rcases Drv.C09_bouncing p.bounce q s with ⟨t, j, ht, ⟨h1, h2, t', rfl⟩, -⟩ | ⟨j, ht, -⟩
  · rw [ht] at h
    obtain ⟨rfl, -⟩ := Drv.Outcome.returned.inj h
    have h1 := (Drv.below_iff _ _).2 h1
    have h2 := (Drv.below_iff _ _).2 h2
    have eh : (p.bounce.microIt t').held = (p.bounce.microIt t').trial.map p.resid := rfl
    have e0 : p.bounce.macroNorm (p.bounce.microIt t') = (p.bounce.microIt t').held.map (p.part 0) := rfl
    have e1 : p.bounce.microNorm (p.bounce.microIt t') = (p.bounce.microIt t').held.map (p.part 1) := rfl
    rw [e0, eh] at h1
    rw [e1, eh] at h2
    cases hx : (p.bounce.microIt t').trial with
    | none => rw [hx] at h1; exact absurd h1 id
    | some x =>
      rw [hx] at h1 h2
      exact ⟨x, hx, hadm x hx, both_small hblk h1 h2⟩
  · rw [ht] at h; simp at h

theorem embracing_found {p : Lin.Problem N} (hc : Sol.Closed p.aff) (hb : Sol.BlockLocal p.aff p.blk)
    (hblk : ∀ g < p.n, p.blk g = 0 ∨ p.blk g = 1) (q : Drv.StagParams) {s s' : Lin.Step N} {k : ℕ}
    (hs : ∀ x, s.trial = some x → Sol.Satisfies p.aff x)
    (h : Drv.embracing p.embrace q (q.nMacro + 1) 0 false 0 s = .returned s' k) : Found p q s' := by
  have hadm : Admitted p s' := Drv.embracing_invariant p.embrace q (Admitted p) (fun s hs => hs)
    (fun i s hs y hy => by
      obtain ⟨x, hx, he⟩ := Option.bind_eq_some_iff.1 (show s.trial.bind _ = some y from hy)
      exact advance_satisfies hc hb _ _ _ _ _ x (hs x hx) y he)
    (fun s hs => enter_admitted hc hb false fun _ => hs) (fun s hs => micro_admitted hc hb hs)
    _ _ _ _ _ _ _ hs h
  rcases Drv.embracing_spec p.embrace q (q.nMacro + 1) 0 false 0 s (by omega) (by simp) (by omega) with
    ⟨t, j, ht, h1, ⟨t', rfl, h2⟩, -⟩ | ⟨j, ht, -⟩
  · rw [ht] at h
    obtain ⟨rfl, -⟩ := Drv.Outcome.returned.inj h
    have eh : (p.embrace.microIt t').held = (p.embrace.microIt t').trial.map p.resid := rfl
    have e0 : p.embrace.macroNorm (p.embrace.evaluate (p.embrace.microIt t')) =
      ((p.embrace.microIt t').trial.map p.resid).map (p.part 0) := rfl
    have e1 : p.embrace.microNorm (p.embrace.microIt t') = (p.embrace.microIt t').held.map (p.part 1) := rfl
    rw [e0] at h1
    rw [e1, eh] at h2
    cases hx : (p.embrace.microIt t').trial with
    | none => rw [hx] at h1; exact absurd h1 id
    | some x =>
      rw [hx] at h1 h2
      exact ⟨x, hx, hadm x hx, both_small hblk h1 h2⟩
  · rw [ht] at h; simp at h

theorem found_error (cells : List (MeshCell d n N)) (h : SpecStableBody cells) {p : Lin.Problem N}
    (hp : SpecBodyStep cells p) {q : Drv.StagParams} {s : Lin.Step N} (hf : Found p q s) :
    ∃ x, s.trial = some x ∧ Sol.Satisfies p.aff x ∧
      ∀ v, Sol.Satisfies p.aff v → SpecSolution cells p.internal p.n v →
        SpecElasticError cells x v + SpecDefectError cells x v + SpecSlipError cells x v ≤
          √(q.tolMacro ^ 2 + q.tolMicro ^ 2) * SpecLength p.n (x - v) := by
  obtain ⟨x, hx, hsat, hle⟩ := hf
  refine ⟨x, hx, hsat, fun v hv hsol => ?_⟩
  exact (C115_converged cells h p.internal p.n hp.homogeneous hp.dofs x v (p.resid x) _
    ⟨_, assembled_always cells h x, fun g _ => (handed_residual cells p hp.handed x g).symm⟩ hle hsol
    (hp.difference x v hsat hv)).2

/-! ## Properties -/

/-- C120: whatever the bouncing algorithm returns — with or without line search, however exact the linear solvers are,
from whatever start — the energy of its error against every solution of the step is at most the tolerances, taken
together, times the distance of the unknowns. -/
theorem C120_bouncing_error (cells : List (MeshCell d n N)) (h : SpecStableBody cells) (p : Lin.Problem N)
    (hp : SpecBodyStep cells p) (hblk : ∀ g < p.n, p.blk g = 0 ∨ p.blk g = 1) (q : Drv.StagParams)
    (s s' : Lin.Step N) (k : ℕ)
    (hret : Drv.bouncing p.bounce q (max q.nLoops 1 * (q.nMacro + 1)) 0 1 false 0 s = .returned s' k) :
    ∃ x, s'.trial = some x ∧ Sol.Satisfies p.aff x ∧
      ∀ v, Sol.Satisfies p.aff v → SpecSolution cells p.internal p.n v →
        SpecElasticError cells x v + SpecDefectError cells x v + SpecSlipError cells x v ≤
          √(q.tolMacro ^ 2 + q.tolMicro ^ 2) * SpecLength p.n (x - v) :=
  found_error cells h hp (bouncing_found hp.closed hp.local_ hblk q hret)

/-- C120, for the embracing algorithm, which does not distribute the constraints: the start value has to be
admissible. -/
theorem C120_embracing_error (cells : List (MeshCell d n N)) (h : SpecStableBody cells) (p : Lin.Problem N)
    (hp : SpecBodyStep cells p) (hblk : ∀ g < p.n, p.blk g = 0 ∨ p.blk g = 1) (q : Drv.StagParams)
    (s s' : Lin.Step N) (k : ℕ) (hs : ∀ x, s.trial = some x → Sol.Satisfies p.aff x)
    (hret : Drv.embracing p.embrace q (q.nMacro + 1) 0 false 0 s = .returned s' k) :
    ∃ x, s'.trial = some x ∧ Sol.Satisfies p.aff x ∧
      ∀ v, Sol.Satisfies p.aff v → SpecSolution cells p.internal p.n v →
        SpecElasticError cells x v + SpecDefectError cells x v + SpecSlipError cells x v ≤
          √(q.tolMacro ^ 2 + q.tolMicro ^ 2) * SpecLength p.n (x - v) :=
  found_error cells h hp (embracing_found hp.closed hp.local_ hblk q hs hret)

/-- The same step with unknowns in one block (`p`, monolithic algorithm) and in two (`p'`, staggered algorithms). -/
structure SpecSameStep (p p' : Lin.Problem N) : Prop where
  internal : p'.internal = p.internal
  aff : p'.aff = p.aff
  n : p'.n = p.n
  blk : ∀ g < p'.n, p'.blk g = 0 ∨ p'.blk g = 1

/-- C120: the three algorithms find the same solution.  A step has one solution, and for every distance there is a
tolerance such that with tolerances below it whatever any of the three algorithms returns lies within that
distance. -/
theorem C120_algorithms (cells : List (MeshCell d n N)) (h : SpecStableBody cells)
    (hr : ∀ c ∈ cells, c.prm.law.rateIndependent = false) (p p' : Lin.Problem N) (hp : SpecBodyStep cells p)
    (hp' : SpecBodyStep cells p') (hsame : SpecSameStep p p')
    (hadm : ∀ x u, Sol.Satisfies p.aff x → Sol.Satisfies p.internal u → Sol.Satisfies p.aff fun g => x g + u g)
    (hdet : SpecDetermined cells p.internal p.n) :
    ∃ x, Sol.Satisfies p.aff x ∧ SpecSolution cells p.internal p.n x ∧
      (∀ y, Sol.Satisfies p.aff y → SpecSolution cells p.internal p.n y → ∀ g < p.n, y g = x g) ∧
      ∀ ε > 0, ∃ tol > 0,
        (∀ (nMax : ℕ) (tolAll : ℝ), tolAll ≤ tol → ∀ (s s' : Lin.Step N) (k : ℕ),
          Drv.monoRD p.mono nMax tolAll (nMax + 1) 0 s = .returned s' k →
          ∃ y, s'.trial = some y ∧ Sol.Satisfies p.aff y ∧ SpecLength p.n (y - x) < ε) ∧
        ∀ q : Drv.StagParams, |q.tolMacro| ≤ tol → |q.tolMicro| ≤ tol → ∀ (s s' : Lin.Step N) (k : ℕ),
          (Drv.bouncing p'.bounce q (max q.nLoops 1 * (q.nMacro + 1)) 0 1 false 0 s = .returned s' k ∨
            (∀ x, s.trial = some x → Sol.Satisfies p.aff x) ∧
            Drv.embracing p'.embrace q (q.nMacro + 1) 0 false 0 s = .returned s' k) →
          ∃ y, s'.trial = some y ∧ Sol.Satisfies p.aff y ∧ SpecLength p.n (y - x) < ε := by
  obtain ⟨x, hx, hx2, hu, -⟩ := C118_step cells h hr p hp hadm hdet
  refine ⟨x, hx, hx2, hu, fun ε hε => ?_⟩
  obtain ⟨tol, ht, htol⟩ := error_close cells h hp.homogeneous hp.dofs hdet hε
  refine ⟨tol / 2, by positivity, fun nMax tolAll hle s s' k hret => ?_, fun q hq0 hq1 s s' k hret => ?_⟩
  · obtain ⟨y, h1, h2, h3⟩ := C115_returned cells h p hp nMax tolAll s s' k hret
    refine ⟨y, h1, h2, htol y x (hp.difference y x h2 hx) ((h3 x hx hx2).trans ?_)⟩
    exact mul_le_mul_of_nonneg_right (by linarith) (length_nonneg _ _)
  · have hf : Found p' q s' := by
      rcases hret with hret | ⟨hs, hret⟩
      · exact bouncing_found hp'.closed hp'.local_ hsame.blk q hret
      · exact embracing_found hp'.closed hp'.local_ hsame.blk q (by rw [hsame.aff]; exact hs) hret
    obtain ⟨y, h1, h2, h3⟩ := found_error cells h hp' hf
    rw [hsame.aff, hsame.internal, hsame.n] at h3
    rw [hsame.aff] at h2
    refine ⟨y, h1, h2, htol y x (hp.difference y x h2 hx) ((h3 x hx hx2).trans ?_)⟩
    refine mul_le_mul_of_nonneg_right ?_ (length_nonneg _ _)
    rw [Real.sqrt_le_left ht.le]
    have a0 := sq_le_sq' (neg_le_of_abs_le hq0) (le_of_abs_le hq0)
    have a1 := sq_le_sq' (neg_le_of_abs_le hq1) (le_of_abs_le hq1)
    nlinarith

/-! ## Non-vacuity -/

/-- The step of `exSoft` with displacement and slip in two blocks. -/
noncomputable def exSoftStag (H f : ℝ) : Lin.Problem 2 :=
  { exSoftStep H f with blk := fun g => if g = 0 then 0 else 1, resetSlips := false }

theorem exSoftStag_body (H f : ℝ) (h0 : 0 ≤ H) (h1 : H ≤ 4) : SpecBodyStep [exSoft H f] (exSoftStag H f) where
  handed := fun _ => rfl
  homogeneous := (exSoft_body H f h0 h1).step.homogeneous
  closed := fun _ _ h => by simp [exSoftStag, exSoftStep] at h
  local_ := fun _ _ h => by simp [exSoftStag, exSoftStep] at h
  dofs := (exSoft_body H f h0 h1).step.dofs
  difference := fun _ _ _ _ _ _ h => by simp [exSoftStag, exSoftStep] at h

theorem exSoftStag_same (H f : ℝ) : SpecSameStep (exSoftStep H f) (exSoftStag H f) where
  internal := rfl
  aff := rfl
  n := rfl
  blk := fun g _ => by
    show (if g = 0 then 0 else 1) = 0 ∨ (if g = 0 then 0 else 1) = 1
    split_ifs <;> simp

theorem solution_resid (cells : List (MeshCell d n N)) (p : Lin.Problem N)
    (hp : ∀ x, p.cells x = cells.map (Lin.SpecHanded · x)) (x : ℕ → ℝ) (hx : SpecSolution cells p.internal p.n x) :
    ∀ g < p.n, p.resid x g = 0 := by
  intro g hg
  obtain ⟨R, hR, h0⟩ := hx
  rw [handed_residual cells p hp x g]
  refine Eq.trans ?_ (h0 g hg)
  congr 1
  refine List.map_congr_left fun c hc => ?_
  unfold MeshCell.local
  congr 1
  funext i
  show (c.prm.rhs c.kind c.pts (x ∘ c.dofs) i).getD 0 = R c i
  rw [hR c hc i]; rfl

theorem exSoftStag_advance (H f : ℝ) (q : Lin.Search) (hq : q.on = false) (norm : (ℕ → ℝ) → ℝ) (b : ℕ)
    (stored x : ℕ → ℝ) : (exSoftStag H f).advance q norm b 0 stored x = some x := by
  rw [Lin.advance_off _ hq]
  congr 1
  have hd : ∀ y, Sol.distribute (exSoftStag H f).aff y = y := fun y => by
    funext g; exact Sol.distribute_free rfl
  funext g
  unfold Sol.updateTrial
  rw [hd]
  unfold Sol.assignBlock Sol.addBlock
  split_ifs <;> simp

theorem exSoftStag_update (H f : ℝ) (b : ℕ) :
    Lin.newtonUpdateBlock (exSoftStag H f).internal (exSoftStag H f).blk b 0 = 0 := by
  funext g
  unfold Lin.newtonUpdateBlock
  split_ifs
  · exact Sol.distribute_free rfl
  · rfl

/-- At the solution both staggered algorithms return, whatever the tolerances. -/
theorem exSoftStag_returns (H f : ℝ) (x : ℕ → ℝ) (hx : SpecSolution [exSoft H f] (fun _ => none) 2 x) (tol : ℝ)
    (ht : 0 < tol) (s : Lin.Step 2) (hs : s.trial = some x) :
    (∃ s' k, Drv.bouncing (exSoftStag H f).bounce ⟨15, 15, 3, tol, tol⟩ 48 0 1 false 0 s = .returned s' k) ∧
    ∃ s' k, Drv.embracing (exSoftStag H f).embrace ⟨15, 15, 3, tol, tol⟩ 16 0 false 0 s = .returned s' k := by
  set p := exSoftStag H f with hp
  have h0 : ∀ b, p.part b (p.resid x) = 0 := fun b =>
    Lin.part_zero p fun g hg _ => solution_resid _ p (fun _ => rfl) x hx g hg
  have hmacro : ∀ full jac, p.macroUpdate full jac x = 0 := by
    intro full jac
    unfold Lin.Problem.macroUpdate
    have : (if full then p.reduced (Lin.withRhs jac (p.cells x)) else p.block 0 (Lin.withRhs jac (p.cells x))) = 0 := by
      cases full <;> rfl
    rw [this]
    exact exSoftStag_update H f 0
  have hstay : ∀ q : Lin.Search, q.on = false → ∀ norm b stored, p.advance q norm b 0 stored x = some x :=
    fun q hq norm b stored => exSoftStag_advance H f q hq norm b stored x
  have hmicro : ∀ t : Lin.Step 2, t.trial = some x → (p.micro t).trial = some x ∧ (p.micro t).held = some (p.resid x) := by
    intro t htr
    have e : (p.micro t).trial = some x := by
      show t.trial.bind _ = _
      rw [htr, Option.bind_some]
      show p.advance p.searchMicro _ 1 (Lin.newtonUpdateBlock p.internal p.blk 1 0) x x = _
      rw [exSoftStag_update]
      exact hstay _ rfl _ _ _
    exact ⟨e, by show (p.micro t).trial.map p.resid = _; rw [e]; rfl⟩
  have henter : ∀ b (t : Lin.Step 2), t.trial = some x → (p.enter b t).trial = some x := by
    intro b t htr
    show t.trial.map _ = _
    rw [htr]
    have hd : Sol.distribute p.aff x = x := by funext g; exact Sol.distribute_free rfl
    have hf : p.resetSlips = false := rfl
    cases b <;> simp [hd, hf]
  have hbm : ∀ k (t : Lin.Step 2), t.trial = some x →
      (p.bounce.macroIt k t).trial = some x ∧ (p.bounce.macroIt k t).held = some (p.resid x) := by
    intro k t htr
    have e : (p.bounce.macroIt k t).trial = some x := by
      show t.trial.bind _ = _
      rw [htr, Option.bind_some, hmacro]
      exact hstay _ rfl _ _ _
    exact ⟨e, by show (p.bounce.macroIt k t).trial.map p.resid = _; rw [e]; rfl⟩
  have hem : ∀ k (t : Lin.Step 2), t.trial = some x → (p.embrace.macroIt k t).trial = some x := by
    intro k t htr
    show t.trial.bind _ = _
    rw [htr, Option.bind_some, hmacro]
    exact hstay _ rfl _ _ _
  have hb0 : ∀ (t : Lin.Step 2), t.held = some (p.resid x) → ∀ b, Drv.below (t.held.map (p.part b)) tol := by
    intro t hh b
    rw [hh, Option.map_some, h0]; exact ht
  constructor
  · rw [Drv.bouncing]
    rw [if_neg (by simp)]
    simp only
    rw [if_neg (by norm_num), Drv.bouncing]
    obtain ⟨a1, a2⟩ := hbm (0 + 1) s hs
    rw [if_pos ⟨hb0 _ a2 0, by simp⟩]
    simp only [Bool.false_eq_true, if_false]
    obtain ⟨c1, c2⟩ := hmicro _ (henter true _ a1)
    rw [Drv.microLoop, if_neg (by norm_num)]
    simp only
    rw [if_pos (show Drv.below (p.bounce.microNorm (p.bounce.microIt (p.bounce.startMicro (p.bounce.macroIt (0 + 1) s)))) tol from hb0 _ c2 1)]
    simp only
    rw [if_neg (by norm_num), Drv.bouncing, if_pos ⟨show Drv.below (p.bounce.macroNorm (p.bounce.microIt (p.bounce.startMicro (p.bounce.macroIt (0 + 1) s)))) tol from hb0 _ c2 0, by simp⟩]
    exact ⟨_, _, rfl⟩
  · rw [Drv.embracing]
    rw [if_neg (by simp)]
    simp only
    rw [if_neg (by norm_num), Drv.microLoop, if_neg (by norm_num)]
    simp only
    obtain ⟨c1, c2⟩ := hmicro _ (henter false _ (hem (0 + 1) (p.embrace.evaluate s) hs))
    rw [if_pos (show Drv.below (p.embrace.microNorm (p.embrace.microIt (p.embrace.startMicro (p.embrace.macroIt (0 + 1) (p.embrace.evaluate s))))) tol from hb0 _ c2 1)]
    simp only
    have hm : Drv.below (p.embrace.macroNorm (p.embrace.evaluate (p.embrace.microIt (p.embrace.startMicro
        (p.embrace.macroIt (0 + 1) (p.embrace.evaluate s)))))) tol := by
      have : p.embrace.macroNorm (p.embrace.evaluate (p.embrace.microIt (p.embrace.startMicro
          (p.embrace.macroIt (0 + 1) (p.embrace.evaluate s))))) =
        ((p.micro (p.enter false (p.embrace.macroIt (0 + 1) (p.embrace.evaluate s)))).trial.map p.resid).map
          (p.part 0) := rfl
      rw [this, c1]
      show p.part 0 (p.resid x) < tol
      rw [h0]; exact ht
    rw [Drv.embracing, if_pos ⟨hm, rfl⟩]
    exact ⟨_, _, rfl⟩

/-- C120 in a concrete case: for every load and every hardening up to the bound of C84. -/
example (H f : ℝ) (h0 : 0 ≤ H) (h1 : H ≤ 4) : ∃ x, SpecSolution [exSoft H f] (fun _ => none) 2 x ∧
    ∀ ε > 0, ∃ tol > 0, (∀ s s' k,
      Drv.bouncing (exSoftStag H f).bounce ⟨15, 15, 3, tol, tol⟩ 48 0 1 false 0 s = .returned s' k →
      ∃ y, s'.trial = some y ∧ SpecLength 2 (y - x) < ε) ∧
      ∃ s s' k, Drv.bouncing (exSoftStag H f).bounce ⟨15, 15, 3, tol, tol⟩ 48 0 1 false 0 s = .returned s' k := by
  obtain ⟨x, -, hx, -, hε⟩ := C120_algorithms [exSoft H f] (exSoft_stable H f h0 h1)
    (by intro c hc; rw [List.mem_singleton] at hc; subst hc; rfl) (exSoftStep H f) (exSoftStag H f)
    (exSoft_body H f h0 h1).step (exSoftStag_body H f h0 h1) (exSoftStag_same H f)
    (exSoft_body H f h0 h1).admissible (exSoft_determined H f h0 h1)
  refine ⟨x, hx, fun ε he => ?_⟩
  obtain ⟨tol, ht, -, h2⟩ := hε ε he
  refine ⟨tol, ht, fun s s' k hret => ?_, ?_⟩
  · obtain ⟨y, a, -, b⟩ := h2 ⟨15, 15, 3, tol, tol⟩ (abs_of_pos ht).le (abs_of_pos ht).le s s' k (Or.inl hret)
    exact ⟨y, a, b⟩
  · obtain ⟨⟨s', k, h⟩, -⟩ := exSoftStag_returns H f x hx tol ht ⟨some x, x, none, []⟩ rfl
    exact ⟨_, s', k, h⟩

end Verif.Asm
