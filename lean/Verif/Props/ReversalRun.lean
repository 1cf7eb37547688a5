import Verif.Props.Reversal
import Verif.Model.Raise
import Verif.Props.Output

/-!
# Reversing the load: runs, solution algorithms, active set, output (C103)
-/

namespace Verif.Drv

/-- The outcome with another description of the state. -/
def Outcome.map {S T : Type*} (f : S → T) : Outcome S → Outcome T
  | .returned s k => .returned (f s) k
  | .threw k => .threw k
  | .outOfFuel => .outOfFuel

variable {S T A : Type*} (f : S → T)

/-- Two monolithic algorithms with corresponding operations. -/
structure MonoSame (o : MonoOps S A) (o' : MonoOps T A) : Prop where
  pre : ∀ s, o'.pre (f s) = f (o.pre s)
  recompute : ∀ s, o'.recompute (f s) = f (o.recompute s)
  post : ∀ s, o'.post (f s) = f (o.post s)
  newton : ∀ s, o'.newton (f s) = f (o.newton s)
  restart : ∀ s, o'.restart (f s) = f (o.restart s)
  norm : ∀ s, o'.norm (f s) = o.norm s
  active : ∀ s, o'.active (f s) = o.active s

/-- Two staggered algorithms with corresponding operations. -/
structure StagSame (o : StagOps S) (o' : StagOps T) : Prop where
  macroIt : ∀ k s, o'.macroIt k (f s) = f (o.macroIt k s)
  startMicro : ∀ s, o'.startMicro (f s) = f (o.startMicro s)
  microIt : ∀ s, o'.microIt (f s) = f (o.microIt s)
  evaluate : ∀ s, o'.evaluate (f s) = f (o.evaluate s)
  macroNorm : ∀ s, o'.macroNorm (f s) = o.macroNorm s
  microNorm : ∀ s, o'.microNorm (f s) = o.microNorm s

variable {f}

theorem monoRD_map {o : MonoOps S A} {o' : MonoOps T A} (h : MonoSame f o o') (nMax : ℕ) (tol : ℝ) (fuel n : ℕ) (s : S) :
    monoRD o' nMax tol fuel n (f s) = (monoRD o nMax tol fuel n s).map f := by
  induction fuel generalizing n s with
  | zero => rfl
  | succ fuel ih =>
    simp only [monoRD]
    rw [h.pre, h.post, h.newton, h.norm]
    split_ifs <;> first | rfl | exact ih _ _

theorem monoRI_map {o : MonoOps S A} {o' : MonoOps T A} (h : MonoSame f o o') (nMax : ℕ) (tol : ℝ) (fuel n : ℕ)
    (flag : Bool) (k : ℕ) (s : S) :
    monoRI o' nMax tol fuel n flag k (f s) = (monoRI o nMax tol fuel n flag k s).map f := by
  induction fuel generalizing n flag k s with
  | zero => rfl
  | succ fuel ih =>
    have e : (if flag = true then o'.recompute (f (o.pre s)) else f (o.pre s)) =
        f (if flag = true then o.recompute (o.pre s) else o.pre s) := by
      rw [h.recompute]; split_ifs <;> rfl
    simp only [monoRI]
    rw [h.pre, e, h.post, h.newton, h.recompute, h.norm, h.active, h.active, h.restart]
    generalize o.newton (o.post (if flag = true then o.recompute (o.pre s) else o.pre s)) = t
    split_ifs <;> first | rfl | exact ih _ _ _ _

theorem microLoop_map {o : StagOps S} {o' : StagOps T} (h : StagSame f o o') (nMax : ℕ) (tol : ℝ) (fuel n : ℕ) (s : S) :
    microLoop o' nMax tol fuel n (f s) = (microLoop o nMax tol fuel n s).map f := by
  induction fuel generalizing n s with
  | zero => rfl
  | succ fuel ih =>
    simp only [microLoop]
    rw [h.microIt, h.microNorm]
    split_ifs <;> first | rfl | exact ih _ _

theorem bouncing_map {o : StagOps S} {o' : StagOps T} (h : StagSame f o o') (p : StagParams) (fuel i c : ℕ) (m : Bool)
    (k : ℕ) (s : S) : bouncing o' p fuel i c m k (f s) = (bouncing o p fuel i c m k s).map f := by
  induction fuel generalizing i c m k s with
  | zero => rfl
  | succ fuel ih =>
    simp only [bouncing]
    rw [h.macroNorm, h.startMicro, microLoop_map h, h.macroIt]
    cases microLoop o p.nMicro p.tolMicro (p.nMicro + 1) 0 (o.startMicro s) <;> simp only [Outcome.map] <;>
      split_ifs <;> first | rfl | exact ih _ _ _ _ _

theorem embracing_map {o : StagOps S} {o' : StagOps T} (h : StagSame f o o') (p : StagParams) (fuel i : ℕ) (m : Bool)
    (k : ℕ) (s : S) : embracing o' p fuel i m k (f s) = (embracing o p fuel i m k s).map f := by
  induction fuel generalizing i m k s with
  | zero => rfl
  | succ fuel ih =>
    simp only [embracing]
    rw [h.evaluate, h.macroNorm, h.macroIt, h.startMicro, microLoop_map h]
    cases microLoop o p.nMicro p.tolMicro (p.nMicro + 1) 0 (o.startMicro (o.macroIt (i + 1) (o.evaluate s))) <;>
      simp only [Outcome.map] <;> split_ifs <;> first | rfl | exact ih _ _ _ _

end Verif.Drv

namespace Verif.Lin
open Verif.Sol Verif.LS Verif.Drv Verif.Asm Finset

variable {N : ℕ}

/-! ## Specification -/

/-- What a cell hands over under the reversed load. -/
def Local.reversed (a : Local N) : Local N := { a with rhs := -a.rhs }

/-- Two time steps with opposite loads, solved with linear solvers that give opposite results for opposite right-hand
sides. -/
structure SpecOpposite (p p' : Problem N) : Prop where
  n : p'.n = p.n
  aff : p'.aff = SpecReversed p.aff
  internal : p'.internal = SpecReversed p.internal
  blk : p'.blk = p.blk
  cells : ∀ x, p'.cells (-x) = (p.cells x).map Local.reversed
  all : ∀ l, p'.all (l.map Local.reversed) = -p.all l
  block : ∀ b l, p'.block b (l.map Local.reversed) = -p.block b l
  reduced : ∀ l, p'.reduced (l.map Local.reversed) = -p.reduced l
  initial : p'.initial = -p.initial
  resetSlips : p'.resetSlips = p.resetSlips
  searchAll : p'.searchAll = p.searchAll
  searchMacro : p'.searchMacro = p.searchMacro
  searchMicro : p'.searchMicro = p.searchMicro

/-- The reversed state of an algorithm. -/
def Step.reversed (s : Step N) : Step N :=
  ⟨s.trial.map Neg.neg, -s.stored, s.held.map Neg.neg, s.jac.map Local.reversed⟩

/-! ## Linear systems -/

theorem residual_neg (K : Constraints ℕ) (cells : List (Local N)) (r : ℕ) :
    Lin.residual (SpecReversed K) (cells.map Local.reversed) r = -Lin.residual K cells r := by
  unfold Lin.residual
  rw [List.map_map]
  induction cells with
  | nil => simp
  | cons a l ih =>
    rw [List.map_cons, List.map_cons, List.sum_cons, List.sum_cons, ih, neg_add]
    congr 1
    simp [Local.reversed, weight_reversed]

theorem jacobian_neg (K : Constraints ℕ) (cells : List (Local N)) (r c : ℕ) :
    Lin.jacobian (SpecReversed K) (cells.map Local.reversed) r c = Lin.jacobian K cells r c := by
  have h : SpecReversed K r ≠ none ↔ K r ≠ none := by simp [SpecReversed]
  unfold Lin.jacobian
  rw [List.map_map]
  congr 1
  refine List.map_congr_left fun a _ => ?_
  simp only [Function.comp_apply, weight_reversed, Local.reversed, h]
  congr

theorem sum_neg_vec (s : Finset ℕ) (J x : ℕ → ℝ) : ∑ c ∈ s, J c * (-x) c = -∑ c ∈ s, J c * x c := by
  rw [← sum_neg_distrib]
  exact sum_congr rfl fun c _ => by rw [Pi.neg_apply]; ring

/-- C103, linear systems: the Jacobian is the same, the right-hand side reversed, and the reversed vector solves each of
the three systems if and only if the vector solves the system of the original load. -/
theorem C103_newton (K : Constraints ℕ) (cells : List (Local N)) (n : ℕ) (blk : ℕ → ℕ) (b : ℕ) (x y : ℕ → ℝ) :
    (∀ r c, Lin.jacobian (SpecReversed K) (cells.map Local.reversed) r c = Lin.jacobian K cells r c) ∧
    (SolvesAll (SpecReversed K) (cells.map Local.reversed) n (-x) ↔ SolvesAll K cells n x) ∧
    (SolvesBlock (SpecReversed K) (cells.map Local.reversed) n blk b (-x) ↔ SolvesBlock K cells n blk b x) ∧
    (SolvesReduced (SpecReversed K) (cells.map Local.reversed) n blk (-x) (-y) ↔ SolvesReduced K cells n blk x y) := by
  refine ⟨jacobian_neg K cells, ?_, ⟨fun h => ⟨?_, ?_⟩, fun h => ⟨?_, ?_⟩⟩, ⟨fun h => ⟨?_, ?_, ?_⟩, fun h => ⟨?_, ?_, ?_⟩⟩⟩
  · unfold SolvesAll
    simp only [jacobian_neg, residual_neg, sum_neg_vec, neg_inj]
  · have := h.rows
    simpa only [jacobian_neg, residual_neg, sum_neg_vec, neg_inj] using this
  · have := h.zero
    simpa only [Pi.neg_apply, neg_eq_zero] using this
  · have := h.rows
    simpa only [jacobian_neg, residual_neg, sum_neg_vec, neg_inj] using this
  · have := h.zero
    simpa only [Pi.neg_apply, neg_eq_zero] using this
  · have := h.inv
    simpa only [jacobian_neg, residual_neg, sum_neg_vec, neg_inj] using this
  · have := h.rows
    simpa only [jacobian_neg, residual_neg, sum_neg_vec, ← neg_sub', neg_inj] using this
  · have := h.zero
    simpa only [Pi.neg_apply, neg_eq_zero] using this
  · have := h.inv
    simpa only [jacobian_neg, residual_neg, sum_neg_vec, neg_inj] using this
  · have := h.rows
    simpa only [jacobian_neg, residual_neg, sum_neg_vec, ← neg_sub', neg_inj] using this
  · have := h.zero
    simpa only [Pi.neg_apply, neg_eq_zero] using this

/-! ## Algorithms -/

theorem assignBlock_neg (blk : ℕ → ℕ) (b : ℕ) (v w : ℕ → ℝ) : assignBlock blk b (-v) (-w) = -assignBlock blk b v w := by
  funext d
  unfold assignBlock
  by_cases h : blk d = b
  · rw [if_pos h, Pi.neg_apply, Pi.neg_apply, if_pos h]
  · rw [if_neg h, Pi.neg_apply, Pi.neg_apply, if_neg h]

theorem addBlock_neg (blk : ℕ → ℕ) (b : ℕ) (l : ℝ) (v w : ℕ → ℝ) :
    addBlock blk b l (-v) (-w) = -addBlock blk b l v w := by
  funext d
  simp only [addBlock, Pi.neg_apply]
  by_cases h : blk d = b
  · rw [if_pos h, if_pos h]; ring
  · rw [if_neg h, if_neg h]

theorem updateTrial_neg (c : Constraints ℕ) (blk : ℕ → ℕ) (b : ℕ) (l : ℝ) (u x : ℕ → ℝ) :
    updateTrial (SpecReversed c) blk b l (-u) (-x) = -updateTrial c blk b l u x := by
  unfold updateTrial
  rw [addBlock_neg, distribute_neg, assignBlock_neg]

theorem resetTrial_neg (c : Constraints ℕ) (blk : ℕ → ℕ) (b : ℕ) (st x : ℕ → ℝ) :
    resetTrial (SpecReversed c) blk b (-st) (-x) = -resetTrial c blk b st x := by
  unfold resetTrial
  rw [distribute_neg, assignBlock_neg]

theorem lsRun_neg (resid resid' : (ℕ → ℝ) → Option ℝ) (hr : ∀ x, resid' (-x) = resid x) (c : Constraints ℕ)
    (blk : ℕ → ℕ) (b : ℕ) (st u : ℕ → ℝ) (fuel : ℕ) (s : LineSearch) (lam : Option ℝ) (x : Option (ℕ → ℝ)) :
    lsRun resid' (SpecReversed c) blk b (-st) (-u) fuel s lam (x.map Neg.neg) =
      (lsRun resid c blk b st u fuel s lam x).map fun r => (r.1, r.2.map Neg.neg) := by
  induction fuel generalizing s lam x with
  | zero => rfl
  | succ fuel ih =>
    have e : (x.map Neg.neg).bind resid' = x.bind resid := by
      cases x with
      | none => rfl
      | some x => exact hr x
    simp only [lsRun]
    rw [e]
    by_cases h : sufficient s ((x.bind resid).map objective) lam
    · rw [if_pos h, if_pos h]; rfl
    · rw [if_neg h, if_neg h, ← ih]
      congr 1
      cases (getLambda s ((x.bind resid).map objective) lam).2 with
      | none => rfl
      | some l =>
        cases x with
        | none => rfl
        | some x =>
          show some (lsPass _ _ _ _ _ _ _) = some (-lsPass _ _ _ _ _ _ _)
          unfold lsPass
          rw [resetTrial_neg, updateTrial_neg]

variable {p p' : Problem N}

theorem resid_neg (h : SpecOpposite p p') (x : ℕ → ℝ) : p'.resid (-x) = -p.resid x := by
  funext r
  unfold Problem.resid
  rw [h.internal, h.cells]
  exact residual_neg _ _ r

theorem norms_neg (h : SpecOpposite p p') (r : ℕ → ℝ) :
    p'.total (-r) = p.total r ∧ ∀ b, p'.part b (-r) = p.part b r := by
  unfold Problem.total Problem.part
  simp only [h.n, h.blk, Pi.neg_apply, neg_sq]
  exact ⟨trivial, fun _ => trivial⟩

theorem advance_neg (h : SpecOpposite p p') (q : Search) (norm norm' : (ℕ → ℝ) → ℝ) (hn : ∀ r, norm' (-r) = norm r)
    (b : ℕ) (u st x : ℕ → ℝ) :
    p'.advance q norm' b (-u) (-st) (-x) = (p.advance q norm b u st x).map Neg.neg := by
  unfold Problem.advance
  rw [h.aff, h.blk, updateTrial_neg, resid_neg h, hn]
  by_cases hq : q.on = true
  · simp only [hq, if_true]
    have := lsRun_neg (fun z => some (norm (p.resid z))) (fun z => some (norm' (p'.resid z)))
      (fun x => by simp only [resid_neg h, hn]) p.aff p.blk b st u (q.nMax + 3)
      (reinit (construct q.nMax q.alpha) (objective (norm (p.resid x)))) (some 1) (some (updateTrial p.aff p.blk b 1 u x))
    rw [Option.map_some] at this
    rw [this]
    cases lsRun (fun z => some (norm (p.resid z))) p.aff p.blk b st u (q.nMax + 3)
      (reinit (construct q.nMax q.alpha) (objective (norm (p.resid x)))) (some 1)
      (some (updateTrial p.aff p.blk b 1 u x)) <;> rfl
  · simp only [if_neg hq]; rfl

theorem newtonUpdate_neg (K : Constraints ℕ) (blk : ℕ → ℕ) (b : ℕ) (x : ℕ → ℝ) :
    newtonUpdate (SpecReversed K) (-x) = -newtonUpdate K x ∧
    newtonUpdateBlock (SpecReversed K) blk b (-x) = -newtonUpdateBlock K blk b x := by
  refine ⟨distribute_neg K x, ?_⟩
  funext d
  unfold newtonUpdateBlock
  rw [distribute_neg]
  simp only [Pi.neg_apply]
  split_ifs
  · rfl
  · rw [neg_zero]

theorem getD_neg (x : Option (ℕ → ℝ)) (st : ℕ → ℝ) : (x.map Neg.neg).getD (-st) = -x.getD st := by cases x <;> rfl

theorem moved_neg (h : SpecOpposite p p') (s : Step N) (y : Option (ℕ → ℝ)) :
    s.reversed.moved p' (y.map Neg.neg) = (s.moved p y).reversed := by
  unfold Step.moved Step.reversed
  congr 1
  cases y with
  | none => rfl
  | some y => simp only [Option.map_some, resid_neg h]

theorem bind_neg (g g' : (ℕ → ℝ) → Option (ℕ → ℝ)) (hg : ∀ x, g' (-x) = (g x).map Neg.neg) (x : Option (ℕ → ℝ)) :
    (x.map Neg.neg).bind g' = (x.bind g).map Neg.neg := by
  cases x with
  | none => rfl
  | some x => exact hg x

theorem withRhs_neg (a b : List (Local N)) :
    withRhs (a.map Local.reversed) (b.map Local.reversed) = (withRhs a b).map Local.reversed := by
  unfold withRhs
  induction a generalizing b with
  | nil => rfl
  | cons x a ih =>
    cases b with
    | nil => rfl
    | cons y b =>
      simp only [List.map_cons, List.zipWith_cons_cons, List.cons.injEq]
      exact ⟨rfl, ih b⟩

theorem jac_neg (h : SpecOpposite p p') (x : Option (ℕ → ℝ)) (l : List (Local N)) :
    ((x.map Neg.neg).map p'.cells).getD (l.map Local.reversed) = ((x.map p.cells).getD l).map Local.reversed := by
  cases x with
  | none => rfl
  | some x => exact h.cells x

theorem macroUpdate_neg (h : SpecOpposite p p') (full : Bool) (jac : List (Local N)) (x : ℕ → ℝ) :
    p'.macroUpdate full (jac.map Local.reversed) (-x) = -p.macroUpdate full jac x := by
  unfold Problem.macroUpdate
  rw [h.internal, h.blk, h.cells, withRhs_neg, h.reduced, h.block]
  cases full
  · exact (newtonUpdate_neg _ _ _ _).2
  · exact (newtonUpdate_neg _ _ _ _).2

theorem micro_neg (h : SpecOpposite p p') (s : Step N) : p'.micro s.reversed = (p.micro s).reversed := by
  unfold Problem.micro
  rw [← moved_neg h]
  congr 1
  · unfold Step.reversed
    congr 1
    · exact getD_neg _ _
    · exact jac_neg h _ _
  · refine bind_neg _ _ (fun x => ?_) s.trial
    rw [h.searchMicro, h.internal, h.blk, h.cells, h.block, (newtonUpdate_neg _ _ _ _).2]
    exact advance_neg h _ _ _ (fun r => (norms_neg h r).2 1) _ _ _ _

theorem enter_neg (h : SpecOpposite p p') (d : Bool) (s : Step N) :
    p'.enter d s.reversed = (p.enter d s).reversed := by
  unfold Problem.enter Step.reversed
  congr 1
  rw [Option.map_map, Option.map_map]
  congr 1
  funext x
  simp only [Function.comp_apply, h.aff, h.blk, h.initial, h.resetSlips, distribute_neg]
  cases d <;> cases p.resetSlips <;> simp only [if_true, Bool.false_eq_true, if_false, resetTrial_neg]

/-- The monolithic algorithm under opposite loads. -/
theorem mono_neg (h : SpecOpposite p p') : MonoSame Step.reversed p.mono p'.mono where
  pre s := by
    show Step.mk _ _ _ _ = Step.mk _ _ _ _
    congr 1
    exact getD_neg _ _
  recompute _ := rfl
  post s := by
    show Step.mk _ _ _ _ = Step.mk _ _ _ _
    congr 1
    show Option.map _ (Option.map _ s.trial) = Option.map _ (Option.map _ s.trial)
    rw [Option.map_map, Option.map_map]
    congr 1
    funext x
    simp only [Function.comp_apply, h.aff, distribute_neg]
  newton s := by
    show Step.moved p' s.reversed _ = (Step.moved p s _).reversed
    rw [← moved_neg h]
    congr 1
    refine bind_neg _ _ (fun x => ?_) s.trial
    rw [h.searchAll, h.internal, h.cells, h.all, (newtonUpdate_neg _ p.blk 0 _).1]
    exact advance_neg h _ _ _ (fun r => (norms_neg h r).1) _ _ _ _
  restart s := by
    show Step.mk (some _) _ _ _ = Step.mk (some _) _ _ _
    congr 2
    rw [h.aff, h.blk, h.initial, ← resetTrial_neg]
    exact congrArg _ (getD_neg _ _)
  norm s := by
    show Option.map _ (Option.map _ s.held) = Option.map _ s.held
    rw [Option.map_map]
    congr 1
    funext r
    exact (norms_neg h r).1
  active _ := rfl

theorem held_neg (h : SpecOpposite p p') (b : ℕ) (s : Step N) :
    s.reversed.held.map (p'.part b) = s.held.map (p.part b) := by
  show Option.map _ (Option.map _ s.held) = Option.map _ s.held
  rw [Option.map_map]
  congr 1
  funext r
  exact (norms_neg h r).2 b

/-- The bouncing algorithm under opposite loads. -/
theorem bounce_neg (h : SpecOpposite p p') : StagSame Step.reversed p.bounce p'.bounce where
  macroIt k s := by
    show Step.moved p' _ _ = (Step.moved p _ _).reversed
    rw [← moved_neg h]
    have hj : (if k = 1 then (s.reversed.trial.map p'.cells).getD s.reversed.jac else s.reversed.jac) =
        (if k = 1 then (s.trial.map p.cells).getD s.jac else s.jac).map Local.reversed := by
      by_cases hk : k = 1
      · rw [if_pos hk, if_pos hk]; exact jac_neg h _ _
      · rw [if_neg hk, if_neg hk]; rfl
    rw [hj]
    congr 1
    · show Step.mk _ _ _ _ = Step.mk _ _ _ _
      congr 1
      exact getD_neg _ _
    · refine bind_neg _ _ (fun x => ?_) s.trial
      rw [h.searchMacro, macroUpdate_neg h]
      exact advance_neg h _ _ _ (fun r => (norms_neg h r).2 0) _ _ _ _
  startMicro s := enter_neg h true s
  microIt s := micro_neg h s
  evaluate _ := rfl
  macroNorm s := held_neg h 0 s
  microNorm s := held_neg h 1 s

/-- The embracing algorithm under opposite loads. -/
theorem embrace_neg (h : SpecOpposite p p') : StagSame Step.reversed p.embrace p'.embrace where
  macroIt k s := by
    show Step.moved p' _ _ = (Step.moved p _ _).reversed
    rw [← moved_neg h]
    have hj : (s.reversed.trial.map p'.cells).getD s.reversed.jac =
        ((s.trial.map p.cells).getD s.jac).map Local.reversed := jac_neg h _ _
    rw [hj]
    congr 1
    refine bind_neg _ _ (fun x => ?_) s.trial
    rw [h.searchMacro, macroUpdate_neg h]
    exact advance_neg h _ _ _ (fun r => (norms_neg h r).2 0) _ _ _ _
  startMicro s := enter_neg h false s
  microIt s := micro_neg h s
  evaluate s := by
    show Step.mk _ _ _ _ = Step.mk _ _ _ _
    congr 1
    · exact getD_neg _ _
    · show Option.map _ (Option.map _ s.trial) = Option.map _ (Option.map _ s.trial)
      rw [Option.map_map, Option.map_map]
      congr 1
      funext x
      exact resid_neg h x
  macroNorm s := held_neg h 0 s
  microNorm s := held_neg h 1 s

/-- C103, solution algorithms: under the opposite load each algorithm makes the same iterations and linear solves, ends
the same way, and returns the reversed state. -/
theorem C103_algorithms (h : SpecOpposite p p') (nMax : ℕ) (tol : ℝ) (q : StagParams) (s : Step N) :
    (∀ fuel n, monoRD p'.mono nMax tol fuel n s.reversed = (monoRD p.mono nMax tol fuel n s).map Step.reversed) ∧
    (∀ fuel i c m k, bouncing p'.bounce q fuel i c m k s.reversed =
      (bouncing p.bounce q fuel i c m k s).map Step.reversed) ∧
    ∀ fuel i m k, embracing p'.embrace q fuel i m k s.reversed =
      (embracing p.embrace q fuel i m k s).map Step.reversed :=
  ⟨fun fuel n => monoRD_map (mono_neg h) nMax tol fuel n s,
    fun fuel i c m k => bouncing_map (bounce_neg h) q fuel i c m k s,
    fun fuel i m k => embracing_map (embrace_neg h) q fuel i m k s⟩

/-- C103, extrapolation: the starting values of the next step are reversed. -/
theorem C103_extrapolation (hn nc : Constraints ℕ) (skip : Bool) (ratio : ℝ) (old oldold : ℕ → ℝ) :
    extrapolate (SpecReversed hn) (SpecReversed nc) skip ratio (-old) (-oldold) =
      (-(extrapolate hn nc skip ratio old oldold).1, -(extrapolate hn nc skip ratio old oldold).2) := by
  unfold extrapolate
  rw [← distribute_neg, ← distribute_neg]
  cases skip
  · simp only [Bool.false_eq_true, if_false]
    congr 2 <;> · funext d; simp only [Pi.neg_apply]; ring
  · rfl

end Verif.Lin

namespace Verif.Asm
open Matrix Finset Verif.Cry Verif.Hist Verif.Micro Verif.Lin Verif.Itf

variable {d e n N : ℕ}

/-! ## What the cells hand over -/

/-- `l` is what the assembly hands over in the state `u`: whole local vectors and matrices and the coupling matrices of
the grain boundary faces. -/
def SpecHanded (cells : List (GrainCell d e n N)) (u : ℕ → ℝ) (l : List (Local N)) : Prop :=
  List.Forall₂ (fun (g : GrainCell d e n N) (a : Local N) => a.dofs = g.cell.dofs ∧
    (∀ i, localRhs g.cell.prm g.cell.kind g.cell.pts g.cell.dofs g.views g.loads u i = some (a.rhs i)) ∧
    (∀ i j, ((g.cell.prm.mat g.cell.kind g.cell.pts (u ∘ g.cell.dofs) i j).bind fun x =>
      (sumOpt fun f => (g.views f).prm.localTerm g.cell.kind (g.views f).own (g.views f).nrm (g.views f).jxw
        (g.views f).hist (g.views f).cur (g.views f).nb (u ∘ g.cell.dofs) (u ∘ (g.views f).nbDofs) i j).map (x + ·)) =
      some (a.mat i j)) ∧
    List.Forall₂ (fun (v : View d e n N) (b : (Fin N → ℕ) × (Fin N → Fin N → ℝ)) => b.1 = v.nbDofs ∧
      ∀ i j, v.prm.couplingTerm g.cell.kind v.own v.other v.nrm v.jxw v.hist v.cur v.nb (u ∘ g.cell.dofs)
        (u ∘ v.nbDofs) i j = some (b.2 i j)) (List.ofFn g.views) a.couplings) cells l

/-- C103, assembly: under the reversed load, in the reversed state, the cells hand over the reversed vectors and the same
matrices. -/
theorem C103_handed (cells : List (GrainCell d e n N)) (hb : SpecBonded cells) (u : ℕ → ℝ) (l : List (Local N))
    (h : SpecHanded cells u l) : SpecHanded (cells.map GrainCell.reversed) (-u) (l.map Local.reversed) := by
  have hc : ∀ f : Fin N → ℕ, (-u) ∘ f = -(u ∘ f) := fun f => rfl
  unfold SpecHanded at h ⊢
  induction h with
  | nil => exact List.Forall₂.nil
  | @cons g a cells l h1 _ ih =>
    refine List.Forall₂.cons ⟨h1.1, fun i => ?_, fun i j => ?_, ?_⟩ (ih fun g' hg' => hb g' (List.mem_cons_of_mem _ hg'))
    · rw [localRhs_neg g (hb g List.mem_cons_self) u i, h1.2.1 i]
      rfl
    · refine Eq.trans ?_ (h1.2.2.1 i j)
      show ((g.cell.prm.reversed.mat g.cell.kind (fun q => (g.cell.pts q).reversed) ((-u) ∘ g.cell.dofs) i j).bind
        fun x => (sumOpt fun f => (g.views f).prm.localTerm g.cell.kind (g.views f).own (g.views f).nrm (g.views f).jxw
          (g.views f).hist (g.views f).cur (g.views f).nb ((-u) ∘ g.cell.dofs) ((-u) ∘ (g.views f).nbDofs) i j).map
          (x + ·)) = _
      simp only [hc]
      rw [(C103_cell g.cell.prm g.cell.kind g.cell.pts (u ∘ g.cell.dofs) i j).2]
      simp only [fun f => (C103_face (g.views f).prm (hb g List.mem_cons_self f) g.cell.kind (g.views f).own
        (g.views f).other (g.views f).nrm (g.views f).jxw (g.views f).hist (g.views f).cur (g.views f).nb
        (u ∘ g.cell.dofs) (u ∘ (g.views f).nbDofs) i j).2.1]
    · have hv : ∀ v ∈ List.ofFn g.views, v.prm.decohesion = false := by
        intro v hv
        obtain ⟨f, rfl⟩ := List.mem_ofFn.1 hv
        exact hb g List.mem_cons_self f
      have key : ∀ (vs : List (View d e n N)) (bs : List ((Fin N → ℕ) × (Fin N → Fin N → ℝ))),
          (∀ v ∈ vs, v.prm.decohesion = false) →
          List.Forall₂ (fun (v : View d e n N) (b : (Fin N → ℕ) × (Fin N → Fin N → ℝ)) => b.1 = v.nbDofs ∧
            ∀ i j, v.prm.couplingTerm g.cell.kind v.own v.other v.nrm v.jxw v.hist v.cur v.nb (u ∘ g.cell.dofs)
              (u ∘ v.nbDofs) i j = some (b.2 i j)) vs bs →
          List.Forall₂ (fun (v : View d e n N) (b : (Fin N → ℕ) × (Fin N → Fin N → ℝ)) => b.1 = v.nbDofs ∧
            ∀ i j, v.prm.couplingTerm g.cell.kind v.own v.other v.nrm v.jxw v.hist v.cur v.nb ((-u) ∘ g.cell.dofs)
              ((-u) ∘ v.nbDofs) i j = some (b.2 i j)) vs bs := by
        intro vs bs hvs h
        induction h with
        | nil => exact List.Forall₂.nil
        | @cons v b vs bs h1 _ ih =>
          refine List.Forall₂.cons ⟨h1.1, fun i j => ?_⟩ (ih fun v' hv' => hvs v' (List.mem_cons_of_mem _ hv'))
          rw [hc, hc, (C103_face v.prm (hvs v List.mem_cons_self) g.cell.kind v.own v.other v.nrm v.jxw v.hist v.cur v.nb
            (u ∘ g.cell.dofs) (u ∘ v.nbDofs) i j).2.2]
          exact h1.2 i j
      exact key _ _ hv h1.2.2.2

/-! ## Runs -/

/-- The same cell over a run with reversed supply, macroscopic strain and loads, from the reversed state. -/
def RunGrain.reversed (r : RunGrain d e n N) : RunGrain d e n N :=
  ⟨⟨r.run.cell.reversed, fun k q => -r.run.supply k q⟩, r.F, r.views, r.B, fun k b => (r.loads k b).reversed⟩

/-- C103, history: what a quadrature point remembers is the same in all steps. -/
theorem C103_history (r : RunGrain d e n N) (u : ℕ → ℕ → ℝ) (q : Fin r.run.cell.Q) (k : ℕ) :
    r.reversed.run.histAt (fun k => -u k) q k = r.run.histAt u q k := by
  induction k with
  | zero => rfl
  | succ k ih =>
    simp only [RunCell.histAt]
    rw [ih]
    show ((r.run.histAt u q k).update ((r.run.cell.pts q).shape.slip (-(u (k + 1) ∘ r.run.cell.dofs)))
      ((r.run.cell.pts q).shape.slip (-(u k ∘ r.run.cell.dofs)))).store = _
    rw [slip_neg, slip_neg, update_neg]

theorem at_reversed (r : RunGrain d e n N) (dt : ℕ → ℝ) (u : ℕ → ℕ → ℝ) (k : ℕ) :
    r.reversed.at dt (fun k => -u k) k = (r.at dt u k).reversed := by
  unfold RunGrain.at RunCell.at GrainCell.reversed MeshCell.reversed
  show GrainCell.mk ⟨_, _, _, _, fun q => ⟨_, _, r.reversed.run.histAt (fun k => -u k) q k,
    (r.run.cell.pts q).shape.slip (-(u k ∘ r.run.cell.dofs))⟩⟩ _ _ _ _ = _
  have e : (fun q => (⟨(r.run.cell.pts q).shape, -r.run.supply k q, r.reversed.run.histAt (fun k => -u k) q k,
      (r.run.cell.pts q).shape.slip (-(u k ∘ r.run.cell.dofs))⟩ : Point d n N)) =
      fun q => (⟨(r.run.cell.pts q).shape, -r.run.supply k q, r.run.histAt u q k,
      -(r.run.cell.pts q).shape.slip (u k ∘ r.run.cell.dofs)⟩ : Point d n N) := by
    funext q
    rw [slip_neg]
    exact congrArg (fun h => Point.mk _ _ h _) (C103_history r u q k)
  exact congrArg (fun pts => GrainCell.mk ⟨_, _, _, _, pts⟩ _ _ _ _) e

/-- C103, whole runs: a sequence of states solves all time steps of a run if and only if the reversed states solve all
time steps of the run with reversed loads and boundary values. -/
theorem C103_run (run : List (RunGrain d e n N)) (hb : ∀ r ∈ run, ∀ f, (r.views f).prm.decohesion = false)
    (K : ℕ → Sol.Constraints ℕ) (m : ℕ) (dt : ℕ → ℝ) (u : ℕ → ℕ → ℝ) (T : ℕ) :
    (∀ k < T, SpecGrainSolution (SpecGrains (run.map RunGrain.reversed) dt (fun k => -u k) k) (SpecReversed (K k)) m
        (-u (k + 1)) ∧ Sol.Satisfies (SpecReversed (K k)) (-u (k + 1))) ↔
    ∀ k < T, SpecGrainSolution (SpecGrains run dt u k) (K k) m (u (k + 1)) ∧ Sol.Satisfies (K k) (u (k + 1)) := by
  refine forall_congr' fun k => imp_congr_right fun _ => ?_
  have e1 : SpecGrains (run.map RunGrain.reversed) dt (fun k => -u k) k =
      (SpecGrains run dt u k).map GrainCell.reversed := by
    unfold SpecGrains
    rw [List.map_map, List.map_map]
    refine List.map_congr_left fun r _ => ?_
    exact at_reversed r dt u k
  have key := C103_solution (SpecGrains run dt u k) (fun g hg f => by
    obtain ⟨r, hr, rfl⟩ := List.mem_map.1 hg
    exact hb r hr f) (K k) m (u (k + 1))
  rw [e1, key.1, key.2]

/-! ## Active set -/

/-- The same cell of the trial microstress under the reversed macroscopic strain. -/
def TCell.reversed (c : TCell d n N) : TCell d n N := { c with prm := c.prm.reversed }

theorem trialStress_neg (c : CellPrm d n) (s : Shape d n N) (u old : Fin N → ℝ) :
    c.reversed.trialStress s (-u) (-old) = -c.trialStress s u old := by
  unfold CellPrm.trialStress
  show c.elastic.stress c.rot (-c.macroStrain +
    elasticStrain c.dn0 ((List.finRange n).map fun a => (c.sys a, s.slip (-old) a)) (s.strain (-u))) = _
  rw [slip_neg, strain_neg, elastic_neg, ← neg_add, stress_neg]

theorem trialTerm_neg (c : CellPrm d n) (kind : Kind n N) (s : Shape d n N) (u old : Fin N → ℝ) (i : Fin N) :
    c.reversed.trialTerm kind s (-u) (-old) i = minus (c.trialTerm kind s u old i) := by
  unfold CellPrm.trialTerm minus
  cases kind i with
  | none => simp
  | some a =>
    simp only [trialStress_neg, slipGrad_neg]
    show Option.map _ (c.vec.microstress (c.sys a) (-s.slipGrad old a)) = _
    have : c.vec.microstress (c.sys a) (-s.slipGrad old a) =
        (c.vec.microstress (c.sys a) (s.slipGrad old a)).map (- ·) := by
      unfold VecLaw.microstress
      rw [bracket_neg, Option.map_map]
      congr 1
      funext m
      simp [mulVec_neg]
    rw [this, Option.map_map, Option.map_map]
    congr 1
    funext x
    simp only [Function.comp_apply, dotProduct_neg]
    show -1 * (c.dn2 * -(s.grad a i ⬝ᵥ x) - c.dn3 * s.phi a i * resolvedShear (c.sys a) (-c.trialStress s u old)) * s.jxw = _
    rw [resolved_neg]
    ring

theorem trialFaceTerm_neg (c : CellPrm d n) (kind : Kind n N) (s : BShape d n N) (old : Fin N → ℝ) (i : Fin N) :
    c.reversed.trialFaceTerm kind s (-old) i = minus (c.trialFaceTerm kind s old i) := by
  unfold CellPrm.trialFaceTerm minus
  cases kind i with
  | none => simp
  | some a =>
    have hg : s.slipGrad (-old) a = -s.slipGrad old a := by simp [BShape.slipGrad]
    simp only [hg]
    show Option.map _ (c.vec.microstress (c.sys a) (-s.slipGrad old a)) = _
    have : c.vec.microstress (c.sys a) (-s.slipGrad old a) =
        (c.vec.microstress (c.sys a) (s.slipGrad old a)).map (- ·) := by
      unfold VecLaw.microstress
      rw [bracket_neg, Option.map_map]
      congr 1
      funext m
      simp [mulVec_neg]
    rw [this, Option.map_map, Option.map_map]
    congr 1
    funext x
    simp only [Function.comp_apply, neg_dotProduct]
    show c.dn2 * s.phi a i * -(x ⬝ᵥ s.normal) * s.jxw = _
    ring

theorem tcell_neg (c : TCell d n N) (u old : ℕ → ℝ) (i : Fin N) :
    c.reversed.rhs (-u) (-old) i = minus (c.rhs u old i) := by
  have hc : ∀ v : ℕ → ℝ, (-v) ∘ c.dofs = -(v ∘ c.dofs) := fun v => rfl
  unfold TCell.rhs
  show ((sumOpt fun q => c.prm.reversed.trialTerm c.kind (c.pts q) ((-u) ∘ c.dofs) ((-old) ∘ c.dofs) i).bind fun x =>
    (sumOpt fun f => c.prm.reversed.trialFaceTerm c.kind (c.faces f) ((-old) ∘ c.dofs) i).map (x + ·)) = _
  simp only [hc, trialTerm_neg, trialFaceTerm_neg, sumOpt_minus]
  cases sumOpt fun q => c.prm.trialTerm c.kind (c.pts q) (u ∘ c.dofs) (old ∘ c.dofs) i with
  | none => rfl
  | some x =>
    cases sumOpt fun f => c.prm.trialFaceTerm c.kind (c.faces f) (old ∘ c.dofs) i with
    | none => rfl
    | some y =>
      show some (-x + -y) = some (-(x + y))
      congr 1; ring

/-- C103, trial microstress: the assembled right-hand side of the trial microstress is reversed, its matrix the same. -/
theorem C103_trial (hn : Sol.Constraints ℕ) (cells : List (TCell d n N)) (u old : ℕ → ℝ) (k : ℕ) :
    trialRhs (SpecReversed hn) (cells.map TCell.reversed) (-u) (-old) k = minus (trialRhs hn cells u old k) ∧
    trialLumped (SpecReversed hn) (cells.map TCell.reversed) k = trialLumped hn cells k := by
  constructor
  · unfold trialRhs
    rw [List.foldl_map]
    have key : ∀ (l : List (TCell d n N)) (acc : Option ℝ),
        l.foldl (fun acc c => acc.bind fun x => (sumOpt fun i => (c.reversed.rhs (-u) (-old) i).map
          (weight (SpecReversed hn) (c.reversed.dofs i) k * ·)).map (x + ·)) (minus acc) =
        minus (l.foldl (fun acc c => acc.bind fun x => (sumOpt fun i => (c.rhs u old i).map
          (weight hn (c.dofs i) k * ·)).map (x + ·)) acc) := by
      intro l
      induction l with
      | nil => intro acc; rfl
      | cons c l ih =>
        intro acc
        rw [List.foldl_cons, List.foldl_cons, ← ih]
        congr 1
        have e1 : (sumOpt fun i => (c.reversed.rhs (-u) (-old) i).map
            (weight (SpecReversed hn) (c.reversed.dofs i) k * ·)) =
            minus (sumOpt fun i => (c.rhs u old i).map (weight hn (c.dofs i) k * ·)) := by
          rw [← sumOpt_minus]
          congr 1
          funext i
          rw [tcell_neg, weight_reversed]
          unfold minus
          rw [Option.map_map, Option.map_map]
          congr 1
          funext x
          show weight hn (c.dofs i) k * -x = -(weight hn (c.dofs i) k * x)
          ring
        rw [e1]
        cases acc with
        | none => rfl
        | some x =>
          cases sumOpt fun i => (c.rhs u old i).map (weight hn (c.dofs i) k * ·) with
          | none => rfl
          | some y =>
            show some (-x + -y) = some (-(x + y))
            congr 1; ring
    have := key cells (some 0)
    rw [show minus (some 0) = some 0 by simp [minus]] at this
    exact this
  · unfold trialLumped
    rw [List.map_map]
    congr 1
    refine List.map_congr_left fun c _ => ?_
    simp only [Function.comp_apply, weight_reversed]
    rfl

end Verif.Asm

namespace Verif.AS
open Verif.Sol Verif.Asm

/-- What the active-set algorithm writes, reversed. -/
def State.reversed (s : State) : State :=
  { s with internal := SpecReversed s.internal, trialSolution := -s.trialSolution }

theorem constrained_neg (c : Constraints ℕ) : isConstrained (SpecReversed c) = isConstrained c := by
  funext d
  unfold isConstrained SpecReversed
  rw [Option.isSome_map]

theorem identity_neg (c : Constraints ℕ) : identityMaster (SpecReversed c) = identityMaster c := by
  funext d
  unfold identityMaster SpecReversed
  cases c d <;> rfl

theorem added_neg (c : Constraints ℕ) (trial : ℕ → ℝ) (y : Yield) (d : ℕ) :
    added (SpecReversed c) (-trial) y d = added c trial y d := by
  have h : |(-trial) d| = |trial d| := by rw [Pi.neg_apply, abs_neg]
  unfold added
  rw [h, identity_neg, constrained_neg]

theorem addLine_neg (c : Constraints ℕ) (d : ℕ) : addLine (SpecReversed c) d = SpecReversed (addLine c d) := by
  funext i
  unfold addLine SpecReversed
  by_cases h : i = d
  · simp only [if_pos h]
    cases c d <;> simp
  · simp only [if_neg h]

theorem determine_neg (c hn newton : Constraints ℕ) (owned : List ℕ) (trial : ℕ → ℝ) (y : Yield) :
    determineActive (SpecReversed c) (SpecReversed hn) (SpecReversed newton) owned (-trial) y =
      ((determineActive c hn newton owned trial y).1, SpecReversed (determineActive c hn newton owned trial y).2) := by
  have key : ∀ (l : List ℕ) (a : List ℕ) (k : Constraints ℕ),
      l.foldl (pass (SpecReversed c) (-trial) y) (a, SpecReversed k) =
        ((l.foldl (pass c trial y) (a, k)).1, SpecReversed (l.foldl (pass c trial y) (a, k)).2) := by
    intro l
    induction l with
    | nil => intro a k; rfl
    | cons d l ih =>
      intro a k
      rw [List.foldl_cons, List.foldl_cons]
      have e : pass (SpecReversed c) (-trial) y (a, SpecReversed k) d =
          ((pass c trial y (a, k) d).1, SpecReversed (pass c trial y (a, k) d).2) := by
        unfold pass
        simp only [added_neg, addLine_neg]
        split_ifs <;> rfl
      rw [e, ih]
  have hm : ∀ l r : Constraints ℕ, mergeRight (SpecReversed l) (SpecReversed r) = SpecReversed (mergeRight l r) := by
    intro l r
    funext i
    show (match SpecReversed r i with | none => SpecReversed l i | some x => some x) =
      Option.map _ (match r i with | none => l i | some x => some x)
    unfold SpecReversed
    cases r i <;> rfl
  unfold determineActive
  rw [key owned [] hn]
  simp only [hm]

/-- C103, active set: with the reversed trial microstress, old solution, trial solution and constraints the active and
inactive sets are the same, and trial solution and internal constraints are the reversed ones. -/
theorem C103_active (ri : Bool) (c hn newton : Constraints ℕ) (ownedDofs owned : List ℕ) (trial : ℕ → ℝ) (y : Yield)
    (old : ℕ → ℝ) (s : State) :
    activeSetAlgorithm ri (SpecReversed c) (SpecReversed hn) (SpecReversed newton) ownedDofs owned (-trial) y (-old)
      s.reversed = (activeSetAlgorithm ri c hn newton ownedDofs owned trial y old s).reversed := by
  have hd : ∀ a, determineInactive (SpecReversed c) ownedDofs owned a = determineInactive c ownedDofs owned a := by
    intro a
    unfold determineInactive
    rw [identity_neg, constrained_neg]
  unfold activeSetAlgorithm
  cases ri
  · rfl
  · simp only [if_true]
    show (if s.flagCompute = true then _ else _) = _
    cases s.flagCompute
    · rfl
    · have hr : ∀ (ina : List ℕ), (open Classical in resetInactive (SpecReversed c) (fun d => d ∈ ina) (-old)
          (-s.trialSolution)) = -(open Classical in resetInactive c (fun d => d ∈ ina) old s.trialSolution) := by
        intro ina
        unfold resetInactive
        rw [← distribute_neg]
        congr 1
        funext d
        simp only [Pi.neg_apply]
        split_ifs <;> rfl
      rw [determine_neg]
      simp only [if_true]
      rw [hd]
      show State.mk _ _ _ _ _ = State.mk _ _ _ _ _
      congr 1
      exact hr _

/-- C103, trial microstress: it is reversed where it is defined. -/
theorem C103_microstress (hn : Constraints ℕ) (ownedSlips : List ℕ) (lumped rhs : ℕ → ℝ) :
    trialMicrostress (SpecReversed hn) ownedSlips lumped (-rhs) =
      (trialMicrostress hn ownedSlips lumped rhs).map Neg.neg := by
  unfold trialMicrostress
  by_cases h : ∃ d ∈ ownedSlips, lumped d = 0
  · rw [if_pos h, if_pos h]; rfl
  · rw [if_neg h, if_neg h, Option.map_some, ← distribute_neg]
    congr 2
    funext d
    simp only [Pi.neg_apply]
    split_ifs
    · ring
    · rw [neg_zero]

end Verif.AS

namespace Verif.Post
open Matrix Finset Verif.Cry

variable {d nC nS : ℕ}

/-- Output under the reversed macroscopic strain. -/
def Output.reversed (o : Output d nC nS) : Output d nC nS := { o with macroStrain := -o.macroStrain }

/-- The reversed solution at an evaluation point. -/
def Inputs.reversed (x : Inputs d) : Inputs d := ⟨fun i => -x.value i, fun i => -x.gradient i⟩

theorem out_displacement_neg (o : Output d nC nS) (x : Inputs d) (i : Fin d) :
    o.reversed.displacement x.reversed i = -o.displacement x i := by
  show (if o.decohesion then ∑ c : Fin nC, o.units.displacement * -x.value (i + d * c) else
    o.units.displacement * -x.value i) = -(if o.decohesion then _ else _)
  split_ifs
  · simp only [mul_neg, sum_neg_distrib]
  · ring

theorem out_gradient_neg (o : Output d nC nS) (x : Inputs d) : o.reversed.gradient x.reversed = -o.gradient x := by
  ext i j
  show (if o.decohesion then ∑ c : Fin nC, -x.gradient (i + d * c) j else -x.gradient i j) =
    -(if o.decohesion then _ else _)
  split_ifs
  · simp only [sum_neg_distrib]
  · rfl

theorem out_slip_neg (o : Output d nC nS) (x : Inputs d) (a : Fin nS) : o.reversed.slip x.reversed a = -o.slip x a := by
  show ∑ c : Fin nC, -x.value (o.slipIndex c a) = -∑ c : Fin nC, x.value (o.slipIndex c a)
  rw [sum_neg_distrib]

theorem out_plastic_neg (o : Output d nC nS) (x : Inputs d) : o.reversed.plastic x.reversed = -o.plastic x := by
  show ∑ a : Fin nS, ∑ c : Fin nC, (-x.value (o.slipIndex c a)) • (o.sys c a).symSchmid = -o.plastic x
  unfold Output.plastic
  simp only [neg_smul, sum_neg_distrib]

theorem out_density_neg (o : Output d nC nS) (x : Inputs d) (v : System d → Vec d) :
    o.reversed.density x.reversed v = o.density x v := by
  show o.units.density * √(∑ a : Fin nS, ∑ c : Fin nC, (-x.gradient (o.slipIndex c a) ⬝ᵥ v (o.sys c a)) ^ 2) = _
  simp only [neg_dotProduct, neg_sq]
  rfl

theorem out_strain_neg (o : Output d nC nS) (x : Inputs d) (t : Bool) :
    o.reversed.strain x.reversed t = -o.strain x t := by
  unfold Output.strain
  rw [out_gradient_neg]
  have : symmetrize (-o.gradient x) = -symmetrize (o.gradient x) := by
    ext i j; simp [symmetrize]; ring
  rw [this]
  cases t
  · rfl
  · simp only [if_true]
    show -symmetrize (o.gradient x) + -o.macroStrain = _
    rw [neg_add]

theorem out_elastic_neg (o : Output d nC nS) (x : Inputs d) (t : Bool) :
    o.reversed.elastic x.reversed t = -o.elastic x t := by
  unfold Output.elastic
  rw [out_strain_neg, out_plastic_neg]
  show -o.strain x t - o.dn0 • -o.plastic x = _
  rw [smul_neg, neg_sub, sub_neg_eq_add]
  abel

theorem convert_neg (t : Mat d) : convert d (-t) = -convert d t := by
  match d, t with
  | 2, t => ext i j; fin_cases i <;> fin_cases j <;> simp [convert, to3]
  | 3, t => rfl
  | 0, t => simp [convert]
  | 1, t => simp [convert]
  | d + 4, t => simp [convert]

theorem apply_neg (C : Store4 3) (t : Mat 3) : apply4 C (-t) = -apply4 C t := by
  ext i j
  simp [apply4]

theorem out_stress_neg (o : Output d nC nS) (x : Inputs d) :
    o.reversed.stress x.reversed = -o.stress x ∧ o.reversed.stressFluct x.reversed = -o.stressFluct x := by
  unfold Output.stress Output.stressFluct
  rw [out_elastic_neg, out_elastic_neg, convert_neg, convert_neg]
  show apply4 o.tetrad _ = _ ∧ o.units.stress • apply4 o.tetrad _ = _
  rw [apply_neg, apply_neg, smul_neg]
  exact ⟨rfl, rfl⟩

theorem mises_neg (t : Mat d) : vonMisesPlasticStrain (-t) = vonMisesPlasticStrain t := by
  have : dev (-t) = -dev t := by
    unfold dev
    rw [Asm.ddot_neg, mul_neg, neg_smul]
    abel
  unfold vonMisesPlasticStrain
  rw [this, Asm.ddot_neg]
  have h : ddot (-dev t) (dev t) = -ddot (dev t) (dev t) := by simp [ddot]
  rw [h, neg_neg]

theorem misesStress_neg (t : Mat 3) : vonMisesStress (-t) = vonMisesStress t := by
  have : dev (-t) = -dev t := by
    unfold dev
    rw [Asm.ddot_neg, mul_neg, neg_smul]
    abel
  unfold vonMisesStress
  rw [this, Asm.ddot_neg]
  have h : ddot (-dev t) (dev t) = -ddot (dev t) (dev t) := by simp [ddot]
  rw [h, neg_neg]

/-- C103, output files: displacements, slips, equivalent plastic strain, stresses and strains are reversed; absolute
plastic strain, dislocation densities and von Mises measures are the same.  `true` marks a column that does not change. -/
theorem C103_output (o : Output d nC nS) (x : Inputs d) :
    (∀ i : Fin d, o.reversed.result x.reversed i = -o.result x i) ∧
    (∀ a : Fin nS, o.reversed.result x.reversed (d + a) = -o.result x (d + a)) ∧
    (o.light = false → ((List.range (nColumns o)).map (o.reversed.result x.reversed)).drop (d + nS) =
      List.zipWith (fun (same : Bool) v => if same then v else -v)
        ([false, true, true, true, true, true] ++ List.replicate 24 false ++ [true] ++ List.replicate 12 false)
        (((List.range (nColumns o)).map (o.result x)).drop (d + nS))) := by
  have hres : ∀ (o : Output d nC nS) (x : Inputs d) p, p ∈ o.writes x →
      o.result x p.1 = p.2 := fun o x p hp => by
    refine foldl_update_nodup _ ?_ _ p hp
    rw [writes_slots]; exact List.nodup_range
  have hdisp : ∀ (o : Output d nC nS) (x : Inputs d) (i : Fin d),
      o.result x i = o.displacement x i := fun o x i => by
    refine hres o x ((i : ℕ), o.displacement x i) ?_
    unfold Output.writes
    simp only [List.append_assoc]
    exact List.mem_append_left _ (List.mem_map_of_mem (List.mem_finRange i))
  have hslip : ∀ (o : Output d nC nS) (x : Inputs d) (b : Fin nS),
      o.result x (d + b) = o.slip x b := fun o x b => by
    refine hres o x (d + (b : ℕ), o.slip x b) ?_
    unfold Output.writes
    simp only [List.append_assoc]
    exact List.mem_append_right _ (List.mem_append_left _ (List.mem_map_of_mem (List.mem_finRange b)))
  refine ⟨fun i => ?_, fun a => ?_, fun hl => ?_⟩
  · rw [hdisp, hdisp, out_displacement_neg]
  · rw [hslip, hslip, out_slip_neg]
  · have e1 := derived_values o.reversed x.reversed hl
    have e2 := derived_values o x hl
    have hn : nColumns o.reversed = nColumns o := rfl
    have hu : o.reversed.units = o.units := rfl
    have hf : o.reversed.fluctuations = o.fluctuations := rfl
    have habs : ∑ a : Fin nS, ∑ c : Fin nC, |x.reversed.value (o.reversed.slipIndex c a)| =
        ∑ a : Fin nS, ∑ c : Fin nC, |x.value (o.slipIndex c a)| :=
      sum_congr rfl fun a _ => sum_congr rfl fun c _ => abs_neg _
    rw [hn] at e1
    rw [e1, e2]
    simp only [hu, hf, habs, out_slip_neg, out_density_neg, (out_stress_neg o x).1, (out_stress_neg o x).2,
      misesStress_neg, mises_neg, out_plastic_neg, out_strain_neg, out_elastic_neg, convert_neg, sum_neg_distrib]
    cases o.fluctuations <;>
      simp [voigt, voigt2, List.replicate]

end Verif.Post

/-! ## Non-vacuity -/

namespace Verif.Lin
open Verif.Sol Verif.Drv Verif.Asm Finset

/-- The step of the example under the opposite force. -/
noncomputable def exPull (single on : Bool) : Problem 2 :=
  { exStep single on with cells := fun x => [⟨fun i => i, ![![2, -1], ![-1, 1]], ![-1 - 2 * x 0 + x 1, x 0 - x 1],
      fun _ => 1, []⟩] }

theorem exPull_opposite (single on : Bool) : SpecOpposite (exStep single on) (exPull single on) := by
  have hr : ∀ (l : List (Local 2)) r, Lin.residual (fun _ => none) (l.map Local.reversed) r =
      -Lin.residual (fun _ => none) l r := fun l r => residual_neg (fun _ => none) l r
  refine ⟨rfl, rfl, rfl, rfl, fun x => ?_, fun l => ?_, fun b l => ?_, fun l => ?_, ?_, rfl, rfl, rfl, rfl⟩
  · show [_] = [_]
    congr 1
    show Local.mk _ _ _ _ _ = Local.mk _ _ _ _ _
    congr 1
    funext i
    fin_cases i <;> simp [exSpring] <;> ring
  · funext d
    show (if d = 0 then _ else _) = -(if d = 0 then _ else _)
    simp only [hr]
    split_ifs <;> ring
  · funext d
    show (if b = 0 then (if d = 0 then _ else (0 : ℝ)) else if d = 0 then 0 else if b = 1 then _ else 0) =
      -(if b = 0 then (if d = 0 then _ else (0 : ℝ)) else if d = 0 then 0 else if b = 1 then _ else 0)
    simp only [hr]
    split_ifs <;> ring
  · funext d
    show (if d = 0 then _ else (0 : ℝ)) = -(if d = 0 then _ else (0 : ℝ))
    simp only [hr]
    split_ifs <;> ring
  · funext d
    show (0 : ℝ) = -0
    simp

/-- Pulling instead of pushing: all algorithms, from any state. -/
example (on : Bool) (q : StagParams) (s : Step 2) :=
  C103_algorithms (exPull_opposite false on) 10 1e-8 q s

end Verif.Lin

namespace Verif.Asm
open Matrix Finset Verif.Cry Verif.Hist Verif.Micro Verif.Lin Verif.Itf

theorem exBonded (p q : ℝ) : SpecBonded [exLeft p, exRight q] := by
  intro g hg f
  rcases List.mem_cons.1 hg with rfl | hg
  · rfl
  · obtain rfl := List.mem_singleton.1 hg; rfl

/-- Two grains in a state that solves a time step, and the reversed one. -/
example (u : ℕ → ℝ) (h1 : u 1 = 0) (h3 : u 3 = 0) : ∃ p q,
    SpecGrainSolution [(exLeft p).reversed, (exRight q).reversed] (SpecReversed exHeld) 4 (-u) ∧
    Sol.Satisfies (SpecReversed exHeld) (-u) := by
  obtain ⟨p, q, R, hR, h⟩ := exPoly_solution u
  have key := C103_solution [exLeft p, exRight q] (exBonded p q) exHeld 4 u
  exact ⟨p, q, key.1.2 ⟨R, hR, h⟩, key.2.2 (exHeld_satisfies u h1 h3)⟩

/-- A run of two grains. -/
example (K : ℕ → Sol.Constraints ℕ) (dt : ℕ → ℝ) (u : ℕ → ℕ → ℝ) (T : ℕ) :=
  C103_run exRun (fun r hr f => by
    rcases List.mem_cons.1 hr with rfl | hr
    · rfl
    · obtain rfl := List.mem_singleton.1 hr; rfl) K 4 dt u T

/-- Where grain boundaries open this is not so: pressed together they resist, pulled apart they do not. -/
example : (⟨1, 1, 1⟩ : Itf.Contact).traction (-![1, 0] : Vec 2) ![1, 0] ≠
    -(⟨1, 1, 1⟩ : Itf.Contact).traction (![1, 0] : Vec 2) ![1, 0] := by
  intro h
  have := congrFun h 0
  simp [Itf.Contact.traction, Itf.macaulay] at this
  rw [if_neg (by norm_num)] at this
  norm_num at this

end Verif.Asm
