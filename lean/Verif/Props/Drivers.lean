import Verif.Model.Drivers
import Verif.Props.Trial
import Mathlib.Logic.Function.Iterate
import Mathlib.Tactic.Linarith
import Mathlib.Tactic.NormNum

/-!
# Properties C07–C10, C62, C63: the solution algorithms
-/

namespace Verif.Drv
open Verif.Sol

theorem updateMono_single {D : Type*} {c : Constraints D} {f : D → Bool} {lam : ℝ}
    {upd x : D → ℝ} {d : D} (h : c d = none) :
    updateTrialMono c (blockOf true f) lam upd x d = x d + lam * upd d :=
  updateTrial_free h rfl

theorem reset_single {D : Type*} {c : Constraints D} {f : D → Bool} {v w : D → ℝ} {d : D}
    (h : c d = none) : resetTrial c (blockOf true f) 0 v w d = v d :=
  resetTrial_free h rfl

/-! ## C07 -/

/-- Specification: a residual norm that is a number below the tolerance (not NaN). -/
def SmallResidual (norm : Option ℝ) (tol : ℝ) : Prop := ∃ r, norm = some r ∧ r < tol

theorem below_iff (norm : Option ℝ) (tol : ℝ) : below norm tol ↔ SmallResidual norm tol := by
  unfold SmallResidual below
  cases norm <;> simp

/-- Trial state after `k` full Newton iterations. -/
def newtonIterate {S A : Type*} (o : MonoOps S A) (k : ℕ) (s : S) : S :=
  (fun s => o.newton (o.post (o.pre s)))^[k] s

theorem monoRD_spec {S A : Type*} (o : MonoOps S A) (nMax : ℕ) (tol : ℝ) (s : S)
    (fuel n : ℕ) (hfuel : nMax + 1 ≤ n + fuel) (hn : n ≤ nMax)
    (hprev : ∀ j, 1 ≤ j → j ≤ n → ¬ below (o.norm (newtonIterate o j s)) tol) :
    (∃ k, 1 ≤ k ∧ k ≤ nMax ∧ below (o.norm (newtonIterate o k s)) tol ∧
      (∀ j, 1 ≤ j → j < k → ¬ below (o.norm (newtonIterate o j s)) tol) ∧
      monoRD o nMax tol fuel n (newtonIterate o n s) = .returned (newtonIterate o k s) k) ∨
    ((∀ k, 1 ≤ k → k ≤ nMax → ¬ below (o.norm (newtonIterate o k s)) tol) ∧
      monoRD o nMax tol fuel n (newtonIterate o n s) = .threw nMax) := by
  induction fuel generalizing n with
  | zero => omega
  | succ fuel ih =>
    rw [monoRD]
    by_cases h : n + 1 ≤ nMax
    · rw [if_neg (by simpa using h)]
      have hs : o.newton (o.post (o.pre (newtonIterate o n s))) = newtonIterate o (n + 1) s := by
        unfold newtonIterate; rw [Function.iterate_succ_apply']
      simp only
      rw [hs]
      by_cases hb : below (o.norm (newtonIterate o (n + 1) s)) tol
      · left
        rw [if_pos hb]
        exact ⟨n + 1, by omega, h, hb, fun j h1 h2 => hprev j h1 (by omega), rfl⟩
      · rw [if_neg hb]
        apply ih (n + 1) (by omega) h
        intro j h1 h2
        rcases Nat.eq_or_lt_of_le h2 with h3 | h3
        · rw [h3]; exact hb
        · exact hprev j h1 (by omega)
    · right
      have hn' : n = nMax := by omega
      rw [if_pos h, hn']
      exact ⟨fun k h1 h2 => hprev k h1 (by omega), rfl⟩

/-- C07.  For every residual, linear solver and line search: the rate-dependent monolithic
loop ends.  It returns the state of the *first* of the first `n_max` Newton iterations whose
residual norm is below the absolute tolerance, and throws after exactly `n_max` iterations
if there is none. -/
theorem C07_monolithic_rate_dependent {S A : Type*} (o : MonoOps S A) (nMax : ℕ) (tol : ℝ)
    (s : S) :
    (∃ k, 1 ≤ k ∧ k ≤ nMax ∧ SmallResidual (o.norm (newtonIterate o k s)) tol ∧
      (∀ j, 1 ≤ j → j < k → ¬ SmallResidual (o.norm (newtonIterate o j s)) tol) ∧
      monoRD o nMax tol (nMax + 1) 0 s = .returned (newtonIterate o k s) k) ∨
    ((∀ k, 1 ≤ k → k ≤ nMax → ¬ SmallResidual (o.norm (newtonIterate o k s)) tol) ∧
      monoRD o nMax tol (nMax + 1) 0 s = .threw nMax) := by
  simp only [← below_iff]
  exact monoRD_spec o nMax tol s (nMax + 1) 0 (by omega) (by omega) (by intro j h1 h2; omega)

/-- Non-vacuity: bisection-like residual `1/2^k`, tolerance 1/5, limit 15: three iterations. -/
example : monoRD (S := ℕ) (A := Unit)
    ⟨id, id, id, (· + 1), id, fun n => some ((1 / 2 : ℝ) ^ n), fun _ => ()⟩ 15 (1 / 5) 16 0 0
      = .returned 3 3 := by
  rcases C07_monolithic_rate_dependent (S := ℕ) (A := Unit)
    ⟨id, id, id, (· + 1), id, fun n => some ((1 / 2 : ℝ) ^ n), fun _ => ()⟩ 15 (1 / 5) 0 with
    ⟨k, h1, h2, h3, h4, h5⟩ | ⟨h, -⟩
  · have hit : ∀ k, newtonIterate (S := ℕ) (A := Unit)
        ⟨id, id, id, (· + 1), id, fun n => some ((1 / 2 : ℝ) ^ n), fun _ => ()⟩ k 0 = k := by
      intro k; unfold newtonIterate
      induction k with
      | zero => rfl
      | succ k ih => rw [Function.iterate_succ_apply', ih]; rfl
    have hk : k = 3 := by
      by_contra hne
      rcases Nat.lt_or_gt_of_ne hne with h | h
      · have h3' : below (some ((1 / 2 : ℝ) ^ k)) (1 / 5) := by rw [hit, ← below_iff] at h3; exact h3
        unfold below at h3'
        interval_cases k <;> norm_num at h3'
      · apply h4 3 (by omega) h
        rw [hit, ← below_iff]; simp only [below]; norm_num
    rw [h5, hit, hk]
  · exfalso
    apply h 3 (by omega) (by omega)
    rw [← below_iff]
    simp only [newtonIterate, Function.iterate_succ, Function.iterate_zero, below, id,
      Function.comp]
    norm_num

/-! ## C08 -/

/-- C08 (partial): the rate-independent loop returns only a state obtained by recomputing the
active set at a state whose residual is below the tolerance, and the recomputed set equals
the one used.  Missing: termination (`C08_violated_termination`) and smallness of the
residual *at the returned state* (`C08_violated_residual`). -/
theorem C08_active_set_consistent_partial {S A : Type*} (o : MonoOps S A) (nMax : ℕ) (tol : ℝ)
    (fuel n : ℕ) (flag : Bool) (k : ℕ) (s t : S) (j : ℕ)
    (h : monoRI o nMax tol fuel n flag k s = .returned t j) :
    ∃ u, t = o.recompute u ∧ SmallResidual (o.norm u) tol ∧ o.active u = o.active t := by
  simp only [← below_iff]
  induction fuel generalizing n flag k s with
  | zero => simp [monoRI] at h
  | succ fuel ih =>
    rw [monoRI] at h
    by_cases h1 : n + 1 ≤ nMax
    · rw [if_neg (by omega)] at h
      simp only at h
      by_cases h2 : below (o.norm (o.newton (o.post
          (if flag = true then o.recompute (o.pre s) else o.pre s)))) tol
      · rw [if_pos h2] at h
        by_cases h3 : o.active (o.newton (o.post
            (if flag = true then o.recompute (o.pre s) else o.pre s)))
            ≠ o.active (o.recompute (o.newton (o.post
              (if flag = true then o.recompute (o.pre s) else o.pre s))))
        · rw [if_pos h3] at h; exact ih _ _ _ _ h
        · rw [if_neg h3] at h
          push Not at h3
          simp only [Outcome.returned.injEq] at h
          obtain ⟨rfl, -⟩ := h
          exact ⟨_, rfl, h2, h3⟩
      · rw [if_neg h2] at h; exact ih _ _ _ _ h
    · rw [if_pos h1] at h; simp at h

theorem monoRI_mismatch {S A : Type*} (o : MonoOps S A) {nMax : ℕ} {tol : ℝ} {fuel n : ℕ}
    {flag : Bool} {k : ℕ} {s : S} (s4 s' : S) (hn : n + 1 ≤ nMax)
    (h4 : o.newton (o.post (if flag = true then o.recompute (o.pre s) else o.pre s)) = s4)
    (hb : below (o.norm s4) tol) (hact : o.active s4 ≠ o.active (o.recompute s4))
    (hs' : o.restart (o.recompute s4) = s') :
    monoRI o nMax tol (fuel + 1) n flag k s = monoRI o nMax tol fuel 0 false (k + 1) s' := by
  rw [monoRI, if_neg (by omega)]
  simp only
  rw [h4, if_pos hb, if_pos hact, hs']

theorem monoRI_return {S A : Type*} (o : MonoOps S A) {nMax : ℕ} {tol : ℝ} {fuel n : ℕ}
    {flag : Bool} {k : ℕ} {s : S} (s4 s' : S) (hn : n + 1 ≤ nMax)
    (h4 : o.newton (o.post (if flag = true then o.recompute (o.pre s) else o.pre s)) = s4)
    (hb : below (o.norm s4) tol) (hact : o.active s4 = o.active (o.recompute s4))
    (hs' : o.recompute s4 = s') :
    monoRI o nMax tol (fuel + 1) n flag k s = .returned s' (k + 1) := by
  rw [monoRI, if_neg (by omega)]
  simp only
  rw [h4, if_pos hb, if_neg (by simpa using hact), hs']

/-! ### A concrete instance: single block, no line search -/

/-- State of the monolithic rate-independent algorithm: trial solution, trial solution stored
for the line search, initial trial solution, old solution, active set. -/
structure MState (D : Type*) where
  trial : D → ℝ
  tmp : D → ℝ
  initial : D → ℝ
  old : D → ℝ
  active : D → Bool

/-- The data of a rate-independent problem: affine constraints, slip degrees of freedom,
active set at a trial solution (`determine_active_set`), Newton update for an active set, and
residual norm with the rows of inactive degrees of freedom condensed out. -/
structure MEnv (D : Type*) where
  aff : Constraints D
  isSlip : D → Bool
  activeAt : (D → ℝ) → D → Bool
  update : (D → Bool) → (D → ℝ) → D → ℝ
  normAt : (D → Bool) → (D → ℝ) → Option ℝ

/-- Inactive set: free slip degrees of freedom which are not active
(`active_set.cc:152-181`; identity-constrained ones left out). -/
def MEnv.inactive {D : Type*} (e : MEnv D) (act : D → Bool) (d : D) : Prop :=
  e.isSlip d = true ∧ e.aff d = none ∧ act d = false

open Classical in
/-- `monolithic_algorithm` for one block without line search
(`solve.cc:183-331` with `flag_line_search = false`). -/
noncomputable def MEnv.ops {D : Type*} (e : MEnv D) : MonoOps (MState D) (D → Bool) where
  pre s := { s with tmp := s.trial }
  recompute s := { s with
    active := e.activeAt s.trial
    trial := resetInactive e.aff (e.inactive (e.activeAt s.trial)) s.old s.trial }
  post s := { s with trial := distribute e.aff s.trial }
  newton s := { s with
    trial := updateTrialMono e.aff (blockOf true e.isSlip) 1 (e.update s.active s.trial) s.trial }
  restart s := { s with
    trial := resetTrial e.aff (blockOf true e.isSlip) 0 s.initial s.trial }
  norm s := e.normAt s.active s.trial
  active s := s.active

/-- One elastic, perfectly plastic material point with stiffness 1, prescribed strain 2 and
yield stress 1 (unknown: the slip `x`; stress `2 - x`): active where the stress exceeds the
yield stress, Newton update and residual of `2 - x = 1` when active, nothing to solve when not. -/
noncomputable def pointEnv : MEnv Unit where
  aff _ := none
  isSlip _ := true
  activeAt x := fun _ => @decide (1 < |2 - x ()|) (Classical.dec _)
  update act x := fun _ => if act () then 1 - x () else 0
  normAt act x := if act () then some |1 - x ()| else some 0

theorem resetInactive_unit (P : Unit → Prop) [DecidablePred P] (old x : Unit → ℝ) :
    resetInactive (fun _ => none) P old x = fun d => if P d then old d else x d := by
  funext d; unfold resetInactive; rw [distribute_free rfl]

/-- C08 is violated: for a single elastic–perfectly plastic point the monolithic
rate-independent algorithm never ends, whatever the limit on iterations and the tolerance:
at the converged plastic solution the stress *equals* the yield stress, so the point is found
inactive; with the point inactive the start value converges, and there it is found active. -/
theorem C08_violated_termination (nMax : ℕ) (hn : 1 ≤ nMax) (tol : ℝ) (ht : 0 < tol) :
    ∀ fuel, monoRI pointEnv.ops nMax tol fuel 0 true 0
      ⟨fun _ => 0, fun _ => 0, fun _ => 0, fun _ => 0, fun _ => false⟩ = .outOfFuel := by
  have act0 : pointEnv.activeAt (fun _ => 0) = fun _ => true := by
    funext _; simp [pointEnv]
  have act1 : pointEnv.activeAt (fun _ => 1) = fun _ => false := by
    funext _; simp only [pointEnv]; norm_num
  have upd1 : updateTrialMono pointEnv.aff (blockOf true pointEnv.isSlip) 1
      (pointEnv.update (fun _ => true) (fun _ => 0)) (fun _ => 0) = fun _ => 1 := by
    funext d
    rw [updateMono_single rfl]; simp [pointEnv]
  have upd0 : updateTrialMono pointEnv.aff (blockOf true pointEnv.isSlip) 1
      (pointEnv.update (fun _ => false) (fun _ => 0)) (fun _ => 0) = fun _ => 0 := by
    funext d
    rw [updateMono_single rfl]; simp [pointEnv]
  have dist : ∀ v : Unit → ℝ, distribute pointEnv.aff v = v := by
    intro v; funext d; exact distribute_free rfl
  have rst : ∀ v w : Unit → ℝ,
      resetTrial pointEnv.aff (blockOf true pointEnv.isSlip) 0 v w = v := by
    intro v w; funext d; exact reset_single rfl
  have ri : ∀ (a : Unit → Bool) (v : Unit → ℝ), (@resetInactive Unit pointEnv.aff
      (pointEnv.inactive a) (Classical.decPred _) (fun _ => 0) v)
        = fun _ => if a () then v () else 0 := by
    intro a v; funext d
    unfold resetInactive
    rw [distribute_free rfl]
    by_cases h : pointEnv.inactive a d
    · rw [if_pos h]; rw [if_neg]; simp [MEnv.inactive] at h; simp [h.2.2]
    · rw [if_neg h]
      have : a () = true := by
        by_contra hc
        apply h; exact ⟨rfl, rfl, by simpa using hc⟩
      rw [if_pos this]
  have key : ∀ fuel k tmp,
      monoRI pointEnv.ops nMax tol fuel 0 false k
        ⟨fun _ => 0, tmp, fun _ => 0, fun _ => 0, fun _ => true⟩ = .outOfFuel ∧
      monoRI pointEnv.ops nMax tol fuel 0 false k
        ⟨fun _ => 0, tmp, fun _ => 0, fun _ => 0, fun _ => false⟩ = .outOfFuel := by
    intro fuel
    induction fuel with
    | zero => intro k tmp; simp [monoRI]
    | succ fuel ih =>
      intro k tmp
      constructor
      · rw [monoRI_mismatch _ ⟨fun _ => 1, fun _ => 0, fun _ => 0, fun _ => 0, fun _ => true⟩
          ⟨fun _ => 0, fun _ => 0, fun _ => 0, fun _ => 0, fun _ => false⟩ (by omega)
          (by simp [MEnv.ops, dist, upd1]) (by simp [MEnv.ops, below, pointEnv, ht])
          (by intro h; have := congrFun h (); simp [MEnv.ops, act1] at this)
          (by simp [MEnv.ops, act1, rst])]
        exact (ih _ _).2
      · rw [monoRI_mismatch _ ⟨fun _ => 0, fun _ => 0, fun _ => 0, fun _ => 0, fun _ => false⟩
          ⟨fun _ => 0, fun _ => 0, fun _ => 0, fun _ => 0, fun _ => true⟩ (by omega)
          (by simp [MEnv.ops, dist, upd0]) (by simp [MEnv.ops, below, pointEnv, ht])
          (by intro h; have := congrFun h (); simp [MEnv.ops, act0] at this)
          (by simp [MEnv.ops, act0, rst])]
        exact (ih _ _).1
  intro fuel
  cases fuel with
  | zero => simp [monoRI]
  | succ fuel =>
    rw [monoRI_mismatch _ ⟨fun _ => 1, fun _ => 0, fun _ => 0, fun _ => 0, fun _ => true⟩
      ⟨fun _ => 0, fun _ => 0, fun _ => 0, fun _ => 0, fun _ => false⟩ (by omega)
      (by simp [MEnv.ops, dist, upd1, act0, ri]) (by simp [MEnv.ops, below, pointEnv, ht])
      (by intro h; have := congrFun h (); simp [MEnv.ops, act1] at this)
      (by simp [MEnv.ops, act1, rst])]
    exact (key _ _ _).2

/-- A displacement `u` (`false`) and a slip `g` (`true`) with the balance `u = g` and old slip 0;
the slip is active exactly while the displacement is zero. -/
noncomputable def pairEnv : MEnv Bool where
  aff _ := none
  isSlip := id
  activeAt x := fun d => d && @decide (x false = 0) (Classical.dec _)
  update act x := fun d =>
    if act true then (if d then 0 else x true - x false)
    else if d then 0 else x true - x false
  normAt _ x := some |x false - x true|

/-- C08 is violated in a second way: after a restart caused by an active-set mismatch the
inactive slips start from the *extrapolated* value and are pinned there; when the loop then
finds the residual below tolerance it resets them to the old value after the check.  The
returned solution has residual norm 1 for the tolerance 1/2. -/
theorem C08_violated_residual :
    ∃ s j, monoRI pairEnv.ops 15 (1 / 2) 2 0 true 0
      ⟨fun d => if d then 1 else 0, fun _ => 0, fun d => if d then 1 else 0, fun _ => 0,
        fun _ => false⟩ = .returned s j ∧
      pairEnv.ops.norm s = some 1 ∧ ¬ SmallResidual (pairEnv.ops.norm s) (1 / 2) := by
  simp only [← below_iff]
  have dist : ∀ v : Bool → ℝ, distribute pairEnv.aff v = v := by
    intro v; funext d; exact distribute_free rfl
  have upd : ∀ (w v : Bool → ℝ), updateTrialMono pairEnv.aff (blockOf true pairEnv.isSlip) 1 w v
      = fun d => v d + w d := by
    intro w v; funext d; rw [updateMono_single rfl]; ring
  have rst : ∀ v w : Bool → ℝ,
      resetTrial pairEnv.aff (blockOf true pairEnv.isSlip) 0 v w = v := by
    intro v w; funext d; exact reset_single rfl
  have ri : ∀ (a : Bool → Bool) (v : Bool → ℝ), (@resetInactive Bool pairEnv.aff
      (pairEnv.inactive a) (Classical.decPred _) (fun _ => 0) v)
        = fun d => if d = true ∧ a true = false then 0 else v d := by
    intro a v; funext d
    unfold resetInactive
    rw [distribute_free rfl]
    cases d <;> simp [MEnv.inactive, pairEnv]
  have act0 : ∀ g, pairEnv.activeAt (fun d => if d then g else 0) = fun d => d := by
    intro g; funext d; simp [pairEnv]
  have act1 : pairEnv.activeAt (fun _ => 1) = fun _ => false := by
    funext d; simp [pairEnv]
  have e1 : (fun d : Bool => (if d then (1:ℝ) else 0) + pairEnv.update (fun d => d)
      (fun d => if d then 1 else 0) d) = fun _ => 1 := by
    funext d; cases d <;> simp [pairEnv]
  have e2 : (fun d : Bool => (if d then (1:ℝ) else 0) + pairEnv.update (fun _ => false)
      (fun d => if d then 1 else 0) d) = fun _ => 1 := by
    funext d; cases d <;> simp [pairEnv]
  have n1 : ∀ a, pairEnv.normAt a (fun _ => 1) = some 0 := by intro a; simp [pairEnv]
  refine ⟨⟨fun d => if d = true then 0 else 1, fun d => if d then 1 else 0,
    fun d => if d then 1 else 0, fun _ => 0, fun _ => false⟩, 2, ?_, ?_, ?_⟩
  · rw [monoRI_mismatch _ ⟨fun _ => 1, fun d => if d then 1 else 0, fun d => if d then 1 else 0,
        fun _ => 0, fun d => d⟩
      ⟨fun d => if d then 1 else 0, fun d => if d then 1 else 0, fun d => if d then 1 else 0,
        fun _ => 0, fun _ => false⟩ (by norm_num)
      (by simp [MEnv.ops, dist, upd, act0, ri, e1]) (by simp [MEnv.ops, below, n1])
      (by intro h; have := congrFun h true; simp [MEnv.ops, act1] at this)
      (by simp [MEnv.ops, act1, rst])]
    rw [monoRI_return _ ⟨fun _ => 1, fun d => if d then 1 else 0, fun d => if d then 1 else 0,
        fun _ => 0, fun _ => false⟩
      ⟨fun d => if d = true then 0 else 1, fun d => if d then 1 else 0, fun d => if d then 1 else 0,
        fun _ => 0, fun _ => false⟩ (by norm_num)
      (by simp [MEnv.ops, dist, upd, e2]) (by simp [MEnv.ops, below, n1])
      (by simp [MEnv.ops, act1]) (by simp [MEnv.ops, act1, ri])]
  · simp [MEnv.ops, pairEnv]
  · simp only [MEnv.ops, pairEnv, below]; norm_num

/-- C08 (partial, residual): when extrapolation was skipped (the initial trial solution is the
old solution on free slip degrees of freedom) and the Newton update vanishes on inactive
degrees of freedom, the returned solution itself has a residual norm below the tolerance for
the returned active set, which is the one computed at that solution. -/
theorem C08_residual_partial {D : Type*} (e : MEnv D) (hc : Closed e.aff)
    (hupd : ∀ act x d, e.inactive act d → e.update act x d = 0)
    (nMax : ℕ) (tol : ℝ) (fuel : ℕ) (s0 t : MState D) (j : ℕ)
    (hskip : ∀ d, e.isSlip d = true → e.aff d = none → s0.initial d = s0.old d)
    (h : monoRI e.ops nMax tol fuel 0 true 0 s0 = .returned t j) :
    SmallResidual (e.normAt t.active t.trial) tol ∧ e.activeAt t.trial = t.active := by
  simp only [← below_iff]
  classical
  have ri_free : ∀ act old x d, e.aff d = none →
      (@resetInactive D e.aff (e.inactive act) (Classical.decPred _) old x) d
        = if e.inactive act d then old d else x d := by
    intro act old x d hd
    unfold resetInactive; rw [distribute_free hd]
  have main : ∀ fuel n (flag : Bool) k (s : MState D),
      (∀ d, e.isSlip d = true → e.aff d = none → s.initial d = s.old d) →
      (flag = false → ∀ d, e.inactive s.active d → s.trial d = s.old d) →
      monoRI e.ops nMax tol fuel n flag k s = .returned t j →
      below (e.normAt t.active t.trial) tol ∧ e.activeAt t.trial = t.active := by
    intro fuel
    induction fuel with
    | zero => intro n flag k s _ _ h; simp [monoRI] at h
    | succ fuel ih =>
      intro n flag k s hinit hJ h
      rw [monoRI] at h
      by_cases hn : n + 1 ≤ nMax
      · rw [if_neg (by omega)] at h
        -- state after the (possible) recomputation
        obtain ⟨s2, hs2, hold2, hinit2, hJ2⟩ : ∃ s2 : MState D,
            (if flag = true then e.ops.recompute (e.ops.pre s) else e.ops.pre s) = s2 ∧
            s2.old = s.old ∧ s2.initial = s.initial ∧
            (∀ d, e.inactive s2.active d → s2.trial d = s.old d) := by
          cases flag with
          | false => exact ⟨_, rfl, rfl, rfl, hJ rfl⟩
          | true =>
            refine ⟨_, rfl, rfl, rfl, ?_⟩
            intro d hd
            simp only [MEnv.ops, if_true] at hd ⊢
            rw [ri_free _ _ _ _ hd.2.1, if_pos hd]
        simp only [hs2] at h
        -- after post and newton
        have h4J : ∀ d, e.inactive s2.active d →
            (e.ops.newton (e.ops.post s2)).trial d = s.old d := by
          intro d hd
          simp only [MEnv.ops]
          rw [updateMono_single hd.2.1, hupd _ _ _ hd,
            distribute_free hd.2.1, hJ2 d hd]; ring
        have h4S : Satisfies e.aff (e.ops.newton (e.ops.post s2)).trial :=
          (C06_single_block e.aff hc e.isSlip 1 _ _).2
        set s4 := e.ops.newton (e.ops.post s2) with hs4
        have h4a : s4.active = s2.active := rfl
        have h4o : s4.old = s.old := hold2
        have h4i : s4.initial = s.initial := hinit2
        by_cases hb : below (e.ops.norm s4) tol
        · rw [if_pos hb] at h
          by_cases hact : e.ops.active s4 ≠ e.ops.active (e.ops.recompute s4)
          · rw [if_pos hact] at h
            refine ih 0 false _ _ ?_ ?_ h
            · intro d h1 h2
              simp only [MEnv.ops]; rw [h4i, h4o]; exact hinit d h1 h2
            · intro _ d hd
              simp only [MEnv.ops]
              rw [reset_single hd.2.1, h4i, h4o]
              exact hinit d hd.1 hd.2.1
          · rw [if_neg hact] at h
            push Not at hact
            simp only [Outcome.returned.injEq] at h
            obtain ⟨rfl, -⟩ := h
            have hact' : s4.active = e.activeAt s4.trial := hact
            have htr : (e.ops.recompute s4).trial = s4.trial := by
              have : (fun d => if e.inactive (e.activeAt s4.trial) d then s4.old d
                  else s4.trial d) = s4.trial := by
                funext d
                by_cases hd : e.inactive (e.activeAt s4.trial) d
                · rw [if_pos hd, h4J d (by rw [← h4a, hact']; exact hd), h4o]
                · rw [if_neg hd]
              show resetInactive e.aff _ s4.old s4.trial = s4.trial
              unfold resetInactive
              rw [this]
              exact distribute_of_satisfies h4S
            refine ⟨?_, ?_⟩
            · rw [htr]
              show below (e.normAt (e.activeAt s4.trial) s4.trial) tol
              rw [← hact']; exact hb
            · rw [htr]; rfl
        · rw [if_neg hb] at h
          refine ih _ false _ _ ?_ ?_ h
          · intro d h1 h2; rw [h4i, h4o]; exact hinit d h1 h2
          · intro _ d hd; rw [h4o]; exact h4J d hd
      · rw [if_pos hn] at h; simp at h
  exact main fuel 0 true 0 s0 hskip (by simp) h

/-- Non-vacuity of `C08_residual_partial`: prescribed strain 1/2 keeps the point elastic
(here: the point with everything shifted so that it starts inactive) and the loop returns. -/
example : ∃ t j, monoRI pointEnv.ops 15 1 1 0 true 0
    ⟨fun _ => 2, fun _ => 0, fun _ => 2, fun _ => 2, fun _ => false⟩ = .returned t j := by
  have act2 : pointEnv.activeAt (fun _ => 2) = fun _ => false := by
    funext _; simp only [pointEnv]; norm_num
  have upd0 : updateTrialMono pointEnv.aff (blockOf true pointEnv.isSlip) 1
      (pointEnv.update (fun _ => false) (fun _ => 2)) (fun _ => 2) = fun _ => 2 := by
    funext d
    rw [updateMono_single rfl]; simp [pointEnv]
  have dist : ∀ v : Unit → ℝ, distribute pointEnv.aff v = v := by
    intro v; funext d; exact distribute_free rfl
  have ri : ∀ (a : Unit → Bool), (@resetInactive Unit pointEnv.aff
      (pointEnv.inactive a) (Classical.decPred _) (fun _ => 2) (fun _ => 2)) = fun _ => 2 := by
    intro a; funext d
    unfold resetInactive
    rw [distribute_free rfl]; split_ifs <;> rfl
  exact ⟨_, _, monoRI_return _ ⟨fun _ => 2, fun _ => 2, fun _ => 2, fun _ => 2, fun _ => false⟩ _
    (by norm_num) (by simp [MEnv.ops, dist, act2, ri, upd0])
    (by simp [MEnv.ops, below, pointEnv]) (by simp [MEnv.ops, act2]) rfl⟩

/-! ## C09, C10 -/

theorem microLoop_spec {S : Type*} (o : StagOps S) (nMax : ℕ) (tol : ℝ) (fuel n : ℕ) (s : S)
    (hfuel : nMax + 1 ≤ n + fuel) (hn : n ≤ nMax) :
    (∃ s' j, microLoop o nMax tol fuel n s = .returned s' j ∧ n + 1 ≤ j ∧ j ≤ nMax ∧
      below (o.microNorm s') tol ∧ ∃ t, s' = o.microIt t) ∨
    microLoop o nMax tol fuel n s = .threw nMax := by
  induction fuel generalizing n s with
  | zero => omega
  | succ fuel ih =>
    rw [microLoop]
    by_cases h : n + 1 ≤ nMax
    · rw [if_neg (by omega)]
      simp only
      by_cases hb : below (o.microNorm (o.microIt s)) tol
      · left; rw [if_pos hb]
        exact ⟨_, _, rfl, by omega, h, hb, _, rfl⟩
      · rw [if_neg hb]
        rcases ih (n + 1) (o.microIt s) (by omega) h with ⟨s', j, h1, h2, h3, h4, h5⟩ | h1
        · left; exact ⟨s', j, h1, by omega, h3, h4, h5⟩
        · right; exact h1
    · right; rw [if_pos h]; congr 1; omega

/-- What may be said of an end state: both norms below tolerance and the residual was assembled
at the end of a micro iteration at this very state. -/
def BothConverged {S : Type*} (o : StagOps S) (p : StagParams) (s : S) : Prop :=
  SmallResidual (o.macroNorm s) p.tolMacro ∧ SmallResidual (o.microNorm s) p.tolMicro ∧ ∃ t, s = o.microIt t

theorem bouncing_spec {S : Type*} (o : StagOps S) (p : StagParams) (fuel i c : ℕ) (m : Bool)
    (k : ℕ) (s : S) (hc : 1 ≤ c) (hc' : c ≤ max p.nLoops 1) (hi : i ≤ p.nMacro)
    (hm : m = true → below (o.microNorm s) p.tolMicro ∧ (∃ t, s = o.microIt t) ∧ 2 ≤ k)
    (hmk : 1 ≤ i ∨ 2 ≤ c → 1 ≤ k)
    (hfuel : (max p.nLoops 1 - c) * (p.nMacro + 1) + (p.nMacro - i) + 1 ≤ fuel) :
    (∃ s' k', bouncing o p fuel i c m k s = .returned s' k' ∧ BothConverged o p s' ∧ 2 ≤ k' ∧
      k' ≤ k + (max p.nLoops 1 - c) * (p.nMacro + p.nMicro) + (p.nMacro - i) + p.nMicro) ∨
    (∃ k', bouncing o p fuel i c m k s = .threw k' ∧
      k' ≤ k + (max p.nLoops 1 - c) * (p.nMacro + p.nMicro) + (p.nMacro - i) + p.nMicro) := by
  induction fuel generalizing i c m k s with
  | zero => omega
  | succ fuel ih =>
    rw [bouncing]
    by_cases hb : below (o.macroNorm s) p.tolMacro ∧ ¬ (c = 1 ∧ i = 0)
    · rw [if_pos hb]
      cases m with
      | true =>
        left
        simp only [if_true]
        obtain ⟨h1, h2, h3⟩ := hm rfl
        exact ⟨s, k, rfl, ⟨(below_iff _ _).1 hb.1, (below_iff _ _).1 h1, h2⟩, h3, by omega⟩
      | false =>
        simp only [Bool.false_eq_true, if_false]
        rcases microLoop_spec o p.nMicro p.tolMicro (p.nMicro + 1) 0 (o.startMicro s) (by omega)
          (by omega) with ⟨s', j, h1, h2, h3, h4, h5⟩ | h1
        · rw [h1]
          simp only
          by_cases hl : c + 1 ≤ p.nLoops
          · rw [if_neg (by omega)]
            have hmax : max p.nLoops 1 = p.nLoops := by omega
            have hk1 : 1 ≤ k := hmk (by omega)
            have hsub : max p.nLoops 1 - c = (max p.nLoops 1 - (c + 1)) + 1 := by omega
            have key := ih 0 (c + 1) true (k + j) s' (by omega) (by omega) (by omega)
              (fun _ => ⟨h4, h5, by omega⟩) (by omega) (by
                rw [hsub, Nat.add_mul] at hfuel; omega)
            rw [hsub, Nat.add_mul]
            rcases key with ⟨s'', k', e, hB, h2', hk⟩ | ⟨k', e, hk⟩
            · left; exact ⟨s'', k', e, hB, h2', by omega⟩
            · right; exact ⟨k', e, by omega⟩
          · rw [if_pos hl]
            right; exact ⟨_, rfl, by omega⟩
        · rw [h1]; right; exact ⟨_, rfl, by omega⟩
    · rw [if_neg hb]
      by_cases hi' : i + 1 ≤ p.nMacro
      · rw [if_neg (by omega)]
        have key := ih (i + 1) c false (k + 1) (o.macroIt (i + 1) s) hc hc' hi' (by simp)
          (by omega) (by omega)
        rcases key with ⟨s'', k', e, hB, h2', hk⟩ | ⟨k', e, hk⟩
        · left; exact ⟨s'', k', e, hB, h2', by omega⟩
        · right; exact ⟨k', e, by omega⟩
      · rw [if_pos hi']
        right; exact ⟨k, rfl, by omega⟩

/-- C09.  Whatever the update maps and residuals do and whatever residual is left over from
the last step in the initial state `s`: the bouncing algorithm ends (the given fuel, a bound
on the passes of its loop, is never exhausted), within
`max(n_loops,1)·(n_macro + n_micro)` linear solves; and if it returns, macro and micro norm
of the residual assembled at the returned state are both below their tolerances. -/
theorem C09_bouncing {S : Type*} (o : StagOps S) (p : StagParams) (s : S) :
    (∃ s' k, bouncing o p (max p.nLoops 1 * (p.nMacro + 1)) 0 1 false 0 s = .returned s' k ∧
      BothConverged o p s' ∧ k ≤ max p.nLoops 1 * (p.nMacro + p.nMicro)) ∨
    (∃ k, bouncing o p (max p.nLoops 1 * (p.nMacro + 1)) 0 1 false 0 s = .threw k ∧
      k ≤ max p.nLoops 1 * (p.nMacro + p.nMicro)) := by
  have hsub : ∀ x, max p.nLoops 1 * x = (max p.nLoops 1 - 1) * x + x := by
    intro x
    conv_lhs => rw [show max p.nLoops 1 = (max p.nLoops 1 - 1) + 1 by omega]
    rw [Nat.add_mul]; omega
  have key := bouncing_spec o p (max p.nLoops 1 * (p.nMacro + 1)) 0 1 false 0 s (by omega)
    (by omega) (by omega) (by simp) (by omega) (by rw [hsub]; omega)
  rcases key with ⟨s', k, e, hB, -, hk⟩ | ⟨k, e, hk⟩
  · left; exact ⟨s', k, e, hB, by rw [hsub]; omega⟩
  · right; exact ⟨k, e, by rw [hsub]; omega⟩

/-- C09: a returned solution is never the untouched start value — at least one macro and one
micro system were solved, so a small residual left over from the previous step is not taken
for convergence. -/
theorem C09_no_stale_acceptance {S : Type*} (o : StagOps S) (p : StagParams) (s s' : S) (k : ℕ)
    (h : bouncing o p (max p.nLoops 1 * (p.nMacro + 1)) 0 1 false 0 s = .returned s' k) :
    2 ≤ k := by
  have hsub : max p.nLoops 1 * (p.nMacro + 1)
      = (max p.nLoops 1 - 1) * (p.nMacro + 1) + (p.nMacro + 1) := by
    conv_lhs => rw [show max p.nLoops 1 = (max p.nLoops 1 - 1) + 1 by omega]
    rw [Nat.add_mul]; omega
  have key := bouncing_spec o p (max p.nLoops 1 * (p.nMacro + 1)) 0 1 false 0 s (by omega)
    (by omega) (by omega) (by simp) (by omega) (by rw [hsub]; omega)
  rcases key with ⟨s'', k', e, -, h2, -⟩ | ⟨k', e, -⟩
  · rw [h] at e; simp only [Outcome.returned.injEq] at e; omega
  · rw [h] at e; simp at e

theorem embracing_spec {S : Type*} (o : StagOps S) (p : StagParams) (fuel i : ℕ) (m : Bool)
    (k : ℕ) (s : S) (hi : i ≤ p.nMacro)
    (hm : m = true → below (o.microNorm s) p.tolMicro ∧ ∃ t, s = o.microIt t)
    (hfuel : (p.nMacro - i) + 1 ≤ fuel) :
    (∃ s' k', embracing o p fuel i m k s = .returned s' k' ∧
      below (o.macroNorm s') p.tolMacro ∧
      (∃ t, s' = o.evaluate (o.microIt t) ∧ below (o.microNorm (o.microIt t)) p.tolMicro) ∧
      k' ≤ k + (p.nMacro - i) * (1 + p.nMicro)) ∨
    (∃ k', embracing o p fuel i m k s = .threw k' ∧
      k' ≤ k + (p.nMacro - i) * (1 + p.nMicro)) := by
  induction fuel generalizing i m k s with
  | zero => omega
  | succ fuel ih =>
    rw [embracing]
    by_cases hb : below (o.macroNorm (o.evaluate s)) p.tolMacro ∧ m = true
    · rw [if_pos hb]
      left
      obtain ⟨h1, t, rfl⟩ := hm hb.2
      exact ⟨_, k, rfl, hb.1, ⟨t, rfl, h1⟩, by omega⟩
    · rw [if_neg hb]
      by_cases hi' : i + 1 ≤ p.nMacro
      · rw [if_neg (by omega)]
        have hsub : p.nMacro - i = (p.nMacro - (i + 1)) + 1 := by omega
        rcases microLoop_spec o p.nMicro p.tolMicro (p.nMicro + 1) 0
          (o.startMicro (o.macroIt (i + 1) (o.evaluate s))) (by omega) (by omega) with
          ⟨s', j, h1, h2, h3, h4, h5⟩ | h1
        · rw [h1]
          simp only
          have key := ih (i + 1) true (k + 1 + j) s' hi' (fun _ => ⟨h4, h5⟩) (by omega)
          rw [hsub, Nat.add_mul]
          rcases key with ⟨s'', k', e, hB, h2', hk⟩ | ⟨k', e, hk⟩
          · left; exact ⟨s'', k', e, hB, h2', by omega⟩
          · right; exact ⟨k', e, by omega⟩
        · rw [h1]; right
          refine ⟨_, rfl, ?_⟩
          rw [hsub, Nat.add_mul]; omega
      · rw [if_pos hi']; right; exact ⟨k, rfl, by omega⟩

/-- C10.  Whatever the update maps and residuals do: the embracing algorithm ends within
`n_macro·(1 + n_micro)` linear solves.  If re-evaluating the residual at an unchanged trial
solution does not change it (C18, C22), then on return macro and micro norm at the returned
state are both below their tolerances. -/
theorem C10_embracing {S : Type*} (o : StagOps S) (p : StagParams) (s : S)
    (heval : ∀ t, o.microNorm (o.evaluate (o.microIt t)) = o.microNorm (o.microIt t)) :
    (∃ s' k, embracing o p (p.nMacro + 1) 0 false 0 s = .returned s' k ∧
      SmallResidual (o.macroNorm s') p.tolMacro ∧ SmallResidual (o.microNorm s') p.tolMicro ∧
      (∃ t, s' = o.evaluate t) ∧
      k ≤ p.nMacro * (1 + p.nMicro)) ∨
    (∃ k, embracing o p (p.nMacro + 1) 0 false 0 s = .threw k ∧
      k ≤ p.nMacro * (1 + p.nMicro)) := by
  simp only [← below_iff]
  rcases embracing_spec o p (p.nMacro + 1) 0 false 0 s (by omega) (by simp) (by omega) with
    ⟨s', k, e, h1, ⟨t, rfl, h2⟩, hk⟩ | ⟨k, e, hk⟩
  · left; exact ⟨_, k, e, h1, by rw [heval]; exact h2, ⟨_, rfl⟩, by simpa using hk⟩
  · right; exact ⟨k, e, by simpa using hk⟩

/-- Non-vacuity: a system with two unknowns solved by alternating exact solves
(`u = 1`, then `g = u`): both algorithms return. -/
noncomputable def twoUnknowns : StagOps (ℝ × ℝ) where
  macroIt _ s := (1, s.2)
  startMicro s := s
  microIt s := (s.1, s.1)
  evaluate s := s
  macroNorm s := some |s.1 - 1|
  microNorm s := some |s.2 - s.1|

example : bouncing twoUnknowns ⟨15, 15, 3, 1, 1⟩ 48 0 1 false 0 (5, 7) = .returned (1, 1) 2 := by
  simp [bouncing, microLoop, twoUnknowns, below]

example : embracing twoUnknowns ⟨15, 15, 3, 1, 1⟩ 16 0 false 0 (5, 7) = .returned (1, 1) 2 := by
  simp [embracing, microLoop, twoUnknowns, below]

/-! ## C62 -/

/-- C62: for every right-hand side norm and accepted parameters (`0 < abs < rel`,
`run_time_parameters.cc:856-870`) the tolerance is positive, at least both the absolute
tolerance and the relative one, and equal to one of them; the zero right-hand side meets it
with the zero solution. -/
theorem C62_krylov_tolerance (rhsNorm rel abs : ℝ) (hrhs : 0 ≤ rhsNorm) (h1 : 0 < abs)
    (h2 : abs < rel) :
    0 < krylovTolerance rhsNorm rel abs ∧
    abs ≤ krylovTolerance rhsNorm rel abs ∧
    rhsNorm * rel ≤ krylovTolerance rhsNorm rel abs ∧
    (krylovTolerance rhsNorm rel abs = abs ∨ krylovTolerance rhsNorm rel abs = rhsNorm * rel) ∧
    (rhsNorm = 0 → krylovTolerance rhsNorm rel abs = abs) ∧
    (1 ≤ rhsNorm → krylovTolerance rhsNorm rel abs = rhsNorm * rel) := by
  unfold krylovTolerance
  refine ⟨lt_of_lt_of_le h1 (le_max_right _ _), le_max_right _ _, le_max_left _ _, ?_, ?_, ?_⟩
  · rcases max_choice (rhsNorm * rel) abs with h | h
    · right; exact h
    · left; exact h
  · rintro rfl; rw [zero_mul]; exact max_eq_right h1.le
  · intro h; exact max_eq_left (by nlinarith)

example : krylovTolerance 100 1e-6 1e-8 = 1e-4 := by unfold krylovTolerance; norm_num

/-! ## C63 -/

/-- Generic invariant of the monolithic rate-dependent loop. -/
theorem monoRD_invariant {S A : Type*} (o : MonoOps S A) (P : S → Prop)
    (hpost : ∀ s, P (o.post s)) (hnewton : ∀ s, P s → P (o.newton s)) (nMax : ℕ) (tol : ℝ)
    (fuel n : ℕ) (s t : S) (k : ℕ) (h : monoRD o nMax tol fuel n s = .returned t k) : P t := by
  induction fuel generalizing n s with
  | zero => simp [monoRD] at h
  | succ fuel ih =>
    rw [monoRD] at h
    simp only at h
    split_ifs at h with h1 h2
    · simp only [Outcome.returned.injEq] at h
      rw [← h.1]; exact hnewton _ (hpost _)
    · exact ih _ _ h

theorem microLoop_invariant {S : Type*} (o : StagOps S) (P : S → Prop)
    (hmicro : ∀ s, P s → P (o.microIt s)) (nMax : ℕ) (tol : ℝ)
    (fuel n : ℕ) (s t : S) (k : ℕ) (hs : P s)
    (h : microLoop o nMax tol fuel n s = .returned t k) : P t := by
  induction fuel generalizing n s with
  | zero => simp [microLoop] at h
  | succ fuel ih =>
    rw [microLoop] at h
    simp only at h
    split_ifs at h with h1 h2
    · simp only [Outcome.returned.injEq] at h
      rw [← h.1]; exact hmicro _ hs
    · exact ih _ _ (hmicro _ hs) h

/-- Invariant of the bouncing loop: established when the micro loop starts. -/
theorem bouncing_invariant {S : Type*} (o : StagOps S) (p : StagParams) (P : S → Prop)
    (hstart : ∀ s, P (o.startMicro s)) (hmicro : ∀ s, P s → P (o.microIt s))
    (fuel i c : ℕ) (m : Bool) (k : ℕ) (s t : S) (j : ℕ) (hm : m = true → P s)
    (h : bouncing o p fuel i c m k s = .returned t j) : P t := by
  induction fuel generalizing i c m k s with
  | zero => simp [bouncing] at h
  | succ fuel ih =>
    rw [bouncing] at h
    by_cases hb : below (o.macroNorm s) p.tolMacro ∧ ¬ (c = 1 ∧ i = 0)
    · rw [if_pos hb] at h
      cases m with
      | true =>
        simp only [if_true, Outcome.returned.injEq] at h
        rw [← h.1]; exact hm rfl
      | false =>
        simp only [Bool.false_eq_true, if_false] at h
        cases hml : microLoop o p.nMicro p.tolMicro (p.nMicro + 1) 0 (o.startMicro s) with
        | returned s' j' =>
          rw [hml] at h
          simp only at h
          split_ifs at h
          exact ih _ _ _ _ _ (fun _ => microLoop_invariant o P hmicro _ _ _ _ _ _ _ (hstart s) hml) h
        | threw j' => rw [hml] at h; simp at h
        | outOfFuel => rw [hml] at h; simp at h
    · rw [if_neg hb] at h
      split_ifs at h
      exact ih _ _ _ _ _ (by simp) h

/-- Invariant of the embracing loop: holds at the start and is preserved. -/
theorem embracing_invariant {S : Type*} (o : StagOps S) (p : StagParams) (P : S → Prop)
    (heval : ∀ s, P s → P (o.evaluate s)) (hmacro : ∀ i s, P s → P (o.macroIt i s))
    (hstart : ∀ s, P s → P (o.startMicro s)) (hmicro : ∀ s, P s → P (o.microIt s))
    (fuel i : ℕ) (m : Bool) (k : ℕ) (s t : S) (j : ℕ) (hs : P s)
    (h : embracing o p fuel i m k s = .returned t j) : P t := by
  induction fuel generalizing i m k s with
  | zero => simp [embracing] at h
  | succ fuel ih =>
    rw [embracing] at h
    by_cases hb : below (o.macroNorm (o.evaluate s)) p.tolMacro ∧ m = true
    · rw [if_pos hb] at h
      simp only [Outcome.returned.injEq] at h
      rw [← h.1]; exact heval _ hs
    · rw [if_neg hb] at h
      split_ifs at h
      cases hml : microLoop o p.nMicro p.tolMicro (p.nMicro + 1) 0
          (o.startMicro (o.macroIt (i + 1) (o.evaluate s))) with
      | returned s' j' =>
        rw [hml] at h
        exact ih _ _ _ _ (microLoop_invariant o P hmicro _ _ _ _ _ _ _
          (hstart _ (hmacro _ _ (heval _ hs))) hml) h
      | threw j' => rw [hml] at h; simp at h
      | outOfFuel => rw [hml] at h; simp at h

/-- C63, monolithic, rate-dependent: if the operations change the trial solution as the code
does — constraints are distributed before the assembly, then a full update of block 0 and any
line search — then every returned trial solution satisfies the affine constraints, for every
block layout in which constraints are block-local. -/
theorem C63_monolithic {S A D : Type*} (o : MonoOps S A) (trial : S → D → ℝ)
    (c : Constraints D) (hc : Closed c) (blk : D → ℕ) (hb : BlockLocal c blk)
    (hpost : ∀ s, ∃ x, trial (o.post s) = distribute c x)
    (hnewton : ∀ s, ∃ stored upd lams, trial (o.newton s)
      = lsTrial c blk 0 stored upd lams (updateTrialMono c blk 1 upd (trial s)))
    (nMax : ℕ) (tol : ℝ) (fuel : ℕ) (s t : S) (k : ℕ)
    (h : monoRD o nMax tol fuel 0 s = .returned t k) : Satisfies c (trial t) := by
  refine monoRD_invariant o (fun s => Satisfies c (trial s)) ?_ ?_ nMax tol fuel 0 s t k h
  · intro s; obtain ⟨x, hx⟩ := hpost s; rw [hx]; exact distribute_satisfies hc x
  · intro s hs
    obtain ⟨stored, upd, lams, e⟩ := hnewton s
    show Satisfies c (trial (o.newton s))
    rw [e]
    exact C63_line_search_keeps c hc blk hb 0 stored upd lams _
      (C63_update_keeps c hc blk hb 0 1 upd _ hs)

/-- C63, monolithic, rate-independent: the last operation resets the inactive slips and
distributes the constraints. -/
theorem C63_monolithic_rate_independent {S A D : Type*} (o : MonoOps S A) (trial : S → D → ℝ)
    (c : Constraints D) (hc : Closed c)
    (hrec : ∀ s, ∃ x, trial (o.recompute s) = distribute c x)
    (nMax : ℕ) (tol : ℝ) (fuel : ℕ) (s t : S) (k : ℕ)
    (h : monoRI o nMax tol fuel 0 true 0 s = .returned t k) : Satisfies c (trial t) := by
  obtain ⟨u, rfl, -, -⟩ := C08_active_set_consistent_partial o nMax tol fuel 0 true 0 s t k h
  obtain ⟨x, hx⟩ := hrec u
  rw [hx]; exact distribute_satisfies hc x

/-- C63, bouncing: the micro loop starts from a trial solution with constraints distributed and
possibly its slip block reset to a stored vector; micro iterations update the slip block and
search a line.  No assumption on macro iterations is needed. -/
theorem C63_bouncing {S D : Type*} (o : StagOps S) (p : StagParams) (trial : S → D → ℝ)
    (c : Constraints D) (hc : Closed c) (blk : D → ℕ) (hb : BlockLocal c blk)
    (hstart : ∀ s, ∃ x init, trial (o.startMicro s) = distribute c x ∨
      trial (o.startMicro s) = resetTrial c blk 1 init (distribute c x))
    (hmicro : ∀ s, ∃ stored upd lams, trial (o.microIt s)
      = lsTrial c blk 1 stored upd lams (updateTrial c blk 1 1 upd (trial s)))
    (fuel : ℕ) (s t : S) (k : ℕ)
    (h : bouncing o p fuel 0 1 false 0 s = .returned t k) : Satisfies c (trial t) := by
  refine bouncing_invariant o p (fun s => Satisfies c (trial s)) ?_ ?_ fuel 0 1 false 0 s t k
    (by simp) h
  · intro s
    obtain ⟨x, init, e | e⟩ := hstart s
    · rw [e]; exact distribute_satisfies hc x
    · rw [e]; exact C63_reset_keeps c hc blk hb 1 init _ (distribute_satisfies hc x)
  · intro s hs
    obtain ⟨stored, upd, lams, e⟩ := hmicro s
    show Satisfies c (trial (o.microIt s))
    rw [e]
    exact C63_line_search_keeps c hc blk hb 1 stored upd lams _
      (C63_update_keeps c hc blk hb 1 1 upd _ hs)

/-- C63, embracing: constraints are distributed before the loop; every operation either leaves
the trial solution alone, distributes constraints, resets or updates one block. -/
theorem C63_embracing {S D : Type*} (o : StagOps S) (p : StagParams) (trial : S → D → ℝ)
    (c : Constraints D) (hc : Closed c) (blk : D → ℕ) (hb : BlockLocal c blk)
    (heval : ∀ s, trial (o.evaluate s) = trial s)
    (hmacro : ∀ i s, ∃ stored upd lams, trial (o.macroIt i s)
      = lsTrial c blk 0 stored upd lams (updateTrial c blk 0 1 upd (trial s)))
    (hstart : ∀ s, ∃ x init, (x = trial s ∨ ∃ y, x = distribute c y) ∧
      (trial (o.startMicro s) = x ∨ trial (o.startMicro s) = resetTrial c blk 1 init x))
    (hmicro : ∀ s, ∃ stored upd lams, trial (o.microIt s)
      = lsTrial c blk 1 stored upd lams (updateTrial c blk 1 1 upd (trial s)))
    (fuel : ℕ) (s t : S) (k : ℕ) (x0 : D → ℝ) (hs : trial s = distribute c x0)
    (h : embracing o p fuel 0 false 0 s = .returned t k) : Satisfies c (trial t) := by
  have hls : ∀ b stored upd lams (x : D → ℝ), Satisfies c x →
      Satisfies c (lsTrial c blk b stored upd lams (updateTrial c blk b 1 upd x)) := by
    intro b stored upd lams x hx
    exact C63_line_search_keeps c hc blk hb b stored upd lams _
      (C63_update_keeps c hc blk hb b 1 upd _ hx)
  refine embracing_invariant o p (fun s => Satisfies c (trial s)) ?_ ?_ ?_ ?_ fuel 0 false 0 s t k
    (by rw [hs]; exact distribute_satisfies hc x0) h
  · intro s hs; show Satisfies c (trial (o.evaluate s)); rw [heval]; exact hs
  · intro i s hs
    obtain ⟨stored, upd, lams, e⟩ := hmacro i s
    show Satisfies c (trial (o.macroIt i s)); rw [e]; exact hls _ _ _ _ _ hs
  · intro s hs
    obtain ⟨x, init, hx, e⟩ := hstart s
    have hx' : Satisfies c x := by
      rcases hx with rfl | ⟨y, rfl⟩
      · exact hs
      · exact distribute_satisfies hc y
    show Satisfies c (trial (o.startMicro s))
    rcases e with e | e
    · rw [e]; exact hx'
    · rw [e]; exact C63_reset_keeps c hc blk hb 1 init _ hx'
  · intro s hs
    obtain ⟨stored, upd, lams, e⟩ := hmicro s
    show Satisfies c (trial (o.microIt s)); rw [e]; exact hls _ _ _ _ _ hs

end Verif.Drv
