import Verif.Model.History
import Mathlib.Tactic.Linarith
import Mathlib.Tactic.NormNum
import Mathlib.Tactic.Positivity
import Mathlib.Tactic.Ring
import Mathlib.Tactic.FieldSimp
import Mathlib.Algebra.Order.BigOperators.Group.Finset

/-!
# Properties of the history variables: C17–C24
-/

namespace Verif.Hist
open Finset

/-! ## Helpers: the loops are sums -/

theorem foldl_update_add {n : ℕ} (a : Fin n) (f : Fin n → ℝ) (l : List (Fin n))
    (r : Fin n → ℝ) :
    l.foldl (fun r b => Function.update r a (r a + f b)) r =
      Function.update r a (r a + (l.map f).sum) := by
  induction l generalizing r with
  | nil => simp
  | cons b l ih =>
    rw [List.foldl_cons, ih]
    funext i
    by_cases h : i = a
    · subst h; simp [add_assoc]
    · simp [Function.update_of_ne h]

theorem hardenRow_eq {n : ℕ} (p : Hardening) (s o : Fin n → ℝ) (a : Fin n) (r : Fin n → ℝ) :
    hardenRow p s o a r =
      Function.update r a (r a + ∑ b, p.entry (decide (a = b)) * |s b - o b|) := by
  unfold hardenRow
  rw [foldl_update_add a (fun b => p.entry (decide (a = b)) * |s b - o b|)]
  rw [← List.ofFn_eq_map, List.sum_ofFn]

theorem foldl_rows {n : ℕ} (g : Fin n → ℝ) (l : List (Fin n)) (hl : l.Nodup) (r : Fin n → ℝ)
    (i : Fin n) :
    (l.foldl (fun r a => Function.update r a (r a + g a)) r) i =
      if i ∈ l then r i + g i else r i := by
  induction l generalizing r with
  | nil => simp
  | cons a l ih =>
    obtain ⟨ha, hl⟩ := List.nodup_cons.mp hl
    rw [List.foldl_cons, ih hl]
    by_cases h : i = a
    · subst h; simp [ha]
    · simp [h]

/-! ## C17 -/

/-- C17: after `update_values` the slip resistance of system `a` is the stored value plus
`Σ_b H/c (q + (1-q)[a=b]) |γ_b - γ_b,old|`. -/
theorem C17_hardening_law {n : ℕ} (b : Bulk n) (slips old : Fin n → ℝ) (a : Fin n)
    (hp : b.prm.perfect = false) :
    (b.update slips old).res a = b.tmp a +
      ∑ β, b.prm.modulus / b.prm.characteristic *
        (b.prm.parameter + (1 - b.prm.parameter) * (if a = β then 1 else 0)) *
        |slips β - old β| := by
  unfold Bulk.update
  rw [hp]
  simp only [Bool.false_eq_true, if_false, hardenRow_eq]
  rw [foldl_rows _ _ (List.nodup_finRange n), if_pos (List.mem_finRange a)]
  congr 1
  apply Finset.sum_congr rfl
  intro β _
  unfold Hardening.entry
  by_cases h : a = β <;> simp [h]

/-- C17: under perfect plasticity it is the stored value. -/
theorem C17_perfect {n : ℕ} (b : Bulk n) (slips old : Fin n → ℝ)
    (hp : b.prm.perfect = true) : (b.update slips old).res = b.tmp := by
  unfold Bulk.update; rw [hp]; rfl

/-- Nothing but the resistances is written. -/
theorem C17_frame {n : ℕ} (b : Bulk n) (slips old : Fin n → ℝ) :
    (b.update slips old).tmp = b.tmp ∧ (b.update slips old).prm = b.prm := by
  unfold Bulk.update; split_ifs <;> simp

/-- Two systems, `H = 100`, `q = 1.4`, `c = 50`, increments 1 and -2: the first resistance
rises by `2*1 + 2*1.4*2 = 7.6`. -/
example : ((Bulk.init ⟨10, 100, 1.4, 50, false⟩ 2).update ![1, -2] ![0, 0]).res 0 = 0.2 + 7.6 := by
  rw [C17_hardening_law _ _ _ _ rfl, Fin.sum_univ_two]
  norm_num [Bulk.init]

/-! ## C18 -/

theorem Bulk.op_tmp {n : ℕ} (b : Bulk n) (o : BulkOp n) :
    (b.op o).tmp = b.tmp ∧ (b.op o).prm = b.prm := by
  cases o with
  | update s o => exact C17_frame b s o
  | reset => exact ⟨rfl, rfl⟩

theorem Bulk.ops_tmp {n : ℕ} (b : Bulk n) (l : List (BulkOp n)) :
    (l.foldl Bulk.op b).tmp = b.tmp ∧ (l.foldl Bulk.op b).prm = b.prm := by
  induction l generalizing b with
  | nil => exact ⟨rfl, rfl⟩
  | cons o l ih =>
    rw [List.foldl_cons]
    exact ⟨(ih _).1.trans (Bulk.op_tmp b o).1, (ih _).2.trans (Bulk.op_tmp b o).2⟩

theorem Bulk.update_congr {n : ℕ} (b b' : Bulk n) (ht : b.tmp = b'.tmp) (hp : b.prm = b'.prm)
    (s o : Fin n → ℝ) : b.update s o = b'.update s o := by
  cases b; cases b'; simp only at ht hp; subst ht hp
  unfold Bulk.update; rfl

/-- C18: whatever trial evaluations and resets came before, an evaluation gives the same
state as that evaluation alone. -/
theorem C18_trials_leave_no_trace {n : ℕ} (b : Bulk n) (trials : List (BulkOp n))
    (slips old : Fin n → ℝ) :
    (trials.foldl Bulk.op b).update slips old = b.update slips old :=
  Bulk.update_congr _ _ (Bulk.ops_tmp b trials).1 (Bulk.ops_tmp b trials).2 _ _

/-- C18: in particular evaluating twice is evaluating once. -/
theorem C18_idempotent {n : ℕ} (b : Bulk n) (slips old : Fin n → ℝ) :
    (b.update slips old).update slips old = b.update slips old :=
  C18_trials_leave_no_trace b [.update slips old] slips old

/-- C18: a reset restores the values at the last store whatever happened in between. -/
theorem C18_reset_restores {n : ℕ} (b : Bulk n) (trials : List (BulkOp n)) :
    ((trials ++ [BulkOp.reset]).foldl Bulk.op b.store).res = b.res := by
  rw [List.foldl_append]
  show (trials.foldl Bulk.op b.store).tmp = b.res
  rw [(Bulk.ops_tmp _ _).1]; rfl

/-- The trials do change the state in between, so the statement is not about no-ops. -/
example : ((Bulk.init ⟨10, 100, 1, 50, false⟩ 1).update ![1] ![0]).res 0 ≠
    (Bulk.init ⟨10, 100, 1, 50, false⟩ 1).res 0 := by
  rw [C17_hardening_law _ _ _ _ rfl]
  norm_num [Bulk.init]

/-! ## C19 -/

theorem Bulk.step_prm {n : ℕ} (b : Bulk n) (s : BulkStep n) : (b.step s).prm = b.prm := by
  unfold Bulk.step
  rw [(C17_frame _ _ _).2, (Bulk.ops_tmp _ _).2]; rfl

theorem entry_nonneg (p : Hardening) (hH : 0 ≤ p.modulus) (hc : 0 < p.characteristic)
    (hq : 0 ≤ p.parameter) (s : Bool) : 0 ≤ p.entry s := by
  unfold Hardening.entry
  have : 0 ≤ p.modulus / p.characteristic := div_nonneg hH hc.le
  apply mul_nonneg this
  cases s <;> simp [hq]

theorem Bulk.step_mono {n : ℕ} (b : Bulk n) (s : BulkStep n) (hH : 0 ≤ b.prm.modulus)
    (hc : 0 < b.prm.characteristic) (hq : 0 ≤ b.prm.parameter) (a : Fin n) :
    b.res a ≤ (b.step s).res a := by
  unfold Bulk.step
  rw [C18_trials_leave_no_trace]
  unfold Bulk.update
  split_ifs with hp
  · exact le_rfl
  · simp only [hardenRow_eq]
    rw [foldl_rows _ _ (List.nodup_finRange n), if_pos (List.mem_finRange a)]
    have : 0 ≤ ∑ β, b.store.prm.entry (decide (a = β)) * |s.slips β - s.old β| :=
      Finset.sum_nonneg fun β _ =>
        mul_nonneg (entry_nonneg _ hH hc hq _) (abs_nonneg _)
    show b.res a ≤ b.res a + _
    linarith

/-- C17, whole history: after any number of accepted steps, whatever trial evaluations were made in
them, the slip resistance is the initial one plus the hardening of all accepted increments; with
perfect plasticity it is the initial one. -/
theorem C17_accumulated {n : ℕ} (p : Hardening) (history : List (BulkStep n)) (a : Fin n) :
    (history.foldl Bulk.step (Bulk.init p n)).res a = p.initial / p.characteristic +
      (if p.perfect then 0 else (history.map fun s =>
        ∑ β, p.modulus / p.characteristic *
          (p.parameter + (1 - p.parameter) * (if a = β then 1 else 0)) *
          |s.slips β - s.old β|).sum) := by
  have step : ∀ (b : Bulk n) (s : BulkStep n), b.prm = p → (b.step s).res a = b.res a +
      (if p.perfect then 0 else ∑ β, p.modulus / p.characteristic *
          (p.parameter + (1 - p.parameter) * (if a = β then 1 else 0)) *
          |s.slips β - s.old β|) := by
    intro b s hb
    unfold Bulk.step
    rw [C18_trials_leave_no_trace]
    have hb' : b.store.prm = p := hb
    cases hp : p.perfect
    · rw [C17_hardening_law _ _ _ _ (hb' ▸ hp), hb']
      rfl
    · rw [C17_perfect _ _ _ (hb' ▸ hp)]
      simp [Bulk.store]
  have key : ∀ (b : Bulk n), b.prm = p → (history.foldl Bulk.step b).res a = b.res a +
      (if p.perfect then 0 else (history.map fun s =>
        ∑ β, p.modulus / p.characteristic *
          (p.parameter + (1 - p.parameter) * (if a = β then 1 else 0)) *
          |s.slips β - s.old β|).sum) := by
    induction history with
    | nil => intro b _; simp
    | cons s l ih =>
      intro b hb
      rw [List.foldl_cons, ih (b.step s) (by rw [Bulk.step_prm, hb]), step b s hb]
      cases p.perfect <;> simp [add_assoc]
  exact key _ rfl

/-- Non-vacuity: two steps of a single system, with a trial in the second. -/
example : (([⟨[], fun _ => 1, fun _ => 0⟩,
      ⟨[.update (fun _ => 7) (fun _ => 1)], fun _ => -1, fun _ => 1⟩] : List (BulkStep 1)).foldl
      Bulk.step (Bulk.init ⟨10, 2, 1, 1, false⟩ 1)).res 0 = 16 := by
  rw [C17_accumulated]; norm_num

/-- C19: over any load history the slip resistances at each accepted step are at least
those at the step before, and at least the initial slip resistance. -/
theorem C19_never_decreases {n : ℕ} (p : Hardening) (hH : 0 ≤ p.modulus)
    (hc : 0 < p.characteristic) (hq : 0 ≤ p.parameter) (history : List (BulkStep n))
    (next : BulkStep n) (a : Fin n) :
    let b := history.foldl Bulk.step (Bulk.init p n)
    p.initial / p.characteristic ≤ b.res a ∧ b.res a ≤ (b.step next).res a := by
  have key : ∀ (b : Bulk n), b.prm = p → (history.foldl Bulk.step b).prm = p ∧
      b.res a ≤ (history.foldl Bulk.step b).res a := by
    induction history with
    | nil => intro b hb; exact ⟨hb, le_rfl⟩
    | cons s l ih =>
      intro b hb
      rw [List.foldl_cons]
      obtain ⟨h1, h2⟩ := ih (b.step s) (by rw [Bulk.step_prm, hb])
      exact ⟨h1, (Bulk.step_mono b s (hb ▸ hH) (hb ▸ hc) (hb ▸ hq) a).trans h2⟩
  obtain ⟨h1, h2⟩ := key (Bulk.init p n) rfl
  exact ⟨h2, Bulk.step_mono _ next (h1.symm ▸ hH) (h1.symm ▸ hc) (h1.symm ▸ hq) a⟩

/-- C19: with `H > 0` and a slip system that moved, its own resistance rises strictly. -/
theorem C19_strict {n : ℕ} (b : Bulk n) (s : BulkStep n) (hp : b.prm.perfect = false)
    (hH : 0 < b.prm.modulus) (hc : 0 < b.prm.characteristic) (hq : 0 ≤ b.prm.parameter)
    (a : Fin n) (hmove : s.slips a ≠ s.old a) : b.res a < (b.step s).res a := by
  unfold Bulk.step
  rw [C18_trials_leave_no_trace]
  unfold Bulk.update
  rw [if_neg (by show ¬ b.prm.perfect = true; simp [hp])]
  simp only [hardenRow_eq]
  rw [foldl_rows _ _ (List.nodup_finRange n), if_pos (List.mem_finRange a)]
  have hpos : 0 < ∑ β, b.store.prm.entry (decide (a = β)) * |s.slips β - s.old β| := by
    apply Finset.sum_pos'
    · intro β _
      exact mul_nonneg (entry_nonneg _ hH.le hc hq _) (abs_nonneg _)
    · refine ⟨a, Finset.mem_univ a, ?_⟩
      apply mul_pos _ (abs_pos.mpr (sub_ne_zero.mpr hmove))
      simp only [decide_true, Hardening.entry, if_true]
      have : 0 < b.prm.modulus / b.prm.characteristic := div_pos hH hc
      show 0 < b.prm.modulus / b.prm.characteristic * (b.prm.parameter + (1 - b.prm.parameter))
      nlinarith
  show b.res a < b.res a + _
  linarith

/-- The default parameters of the code meet the hypotheses. -/
example : (0 : ℝ) ≤ (⟨0, 500, 1.4, 1, false⟩ : Hardening).modulus ∧
    (0 : ℝ) < (⟨0, 500, 1.4, 1, false⟩ : Hardening).characteristic ∧
    (0 : ℝ) ≤ (⟨0, 500, 1.4, 1, false⟩ : Hardening).parameter := by
  norm_num

/-! ## C20 -/

/-- `e` is the degree of freedom of slip `s` at the support point and in the crystal of `d`. -/
def IsPartner {P : Type*} (owned : List ℕ) (key : ℕ → Key P) (d s e : ℕ) : Prop :=
  e ∈ owned ∧ (key e).point = (key d).point ∧ (key e).crystal = (key d).crystal ∧
    (key e).slip = s

/-- Every slip system of the crystal has exactly one owned degree of freedom at the support
point of `d`; `partner s` names it. -/
def Complete {P : Type*} (nSlips : ℕ) (owned : List ℕ) (key : ℕ → Key P) (d : ℕ)
    (partner : ℕ → ℕ) : Prop :=
  ∀ s < nSlips, ∀ e, IsPartner owned key d s e ↔ e = partner s

theorem infoDofs_complete {P : Type*} [DecidableEq P] (nSlips : ℕ) (owned : List ℕ)
    (hnd : owned.Nodup) (key : ℕ → Key P) (d : ℕ) (partner : ℕ → ℕ)
    (h : Complete nSlips owned key d partner) :
    infoDofs nSlips owned key d = (List.range nSlips).map partner := by
  unfold infoDofs
  have hrow : ∀ s ∈ List.range nSlips,
      owned.filter (fun e => decide (key e = { key d with slip := s })) = [partner s] := by
    intro s hs
    have hs := List.mem_range.mp hs
    have hmem : ∀ e, e ∈ owned.filter (fun e => decide (key e = { key d with slip := s })) ↔
        e = partner s := by
      intro e
      rw [List.mem_filter, decide_eq_true_eq, ← h s hs e]
      unfold IsPartner
      constructor
      · rintro ⟨h1, h2⟩; rw [h2]; exact ⟨h1, rfl, rfl, rfl⟩
      · rintro ⟨h1, h2, h3, h4⟩
        refine ⟨h1, ?_⟩
        cases hk : key e
        rw [hk] at h2 h3 h4
        simp only at h2 h3 h4
        subst h4; rw [h2, h3]
    have hnd' := hnd.filter (fun e => decide (key e = { key d with slip := s }))
    generalize owned.filter (fun e => decide (key e = { key d with slip := s })) = l at hmem hnd'
    match l with
    | [] => exact absurd ((hmem (partner s)).mpr rfl) (by simp)
    | [e] => rw [(hmem e).mp (by simp)]
    | e :: f :: t =>
      have h1 := (hmem e).mp (by simp)
      have h2 := (hmem f).mp (by simp)
      rw [h1, h2] at hnd'
      simp at hnd'
  clear h
  generalize List.range nSlips = r at hrow
  induction r with
  | nil => rfl
  | cons s r ih =>
    rw [List.flatMap_cons, hrow s List.mem_cons_self, List.map_cons,
      ih fun t ht => hrow t (List.mem_cons_of_mem _ ht)]
    rfl

theorem foldl_bind_sum (f : ℕ → ℝ) (dofs : List ℕ) (g : ℕ → ℝ → ℝ) (l : List ℕ) (h0 : ℝ)
    (hg : ∀ s ∈ l, ∃ e, dofs[s]? = some e) :
    l.foldl (fun acc s => acc.bind fun h => (dofs[s]?).map fun e => h + g s (f e)) (some h0) =
      some (h0 + (l.map fun s => g s (f (dofs.getD s 0))).sum) := by
  induction l generalizing h0 with
  | nil => simp
  | cons s l ih =>
    obtain ⟨e, he⟩ := hg s List.mem_cons_self
    rw [List.foldl_cons]
    simp only [Option.bind_some, he, Option.map_some]
    rw [ih _ fun t ht => hg t (List.mem_cons_of_mem _ ht)]
    simp [he, add_assoc]

theorem sum_map_range (f : ℕ → ℝ) (n : ℕ) :
    ((List.range n).map f).sum = ∑ s ∈ Finset.range n, f s := by
  induction n with
  | zero => simp
  | succ n ih => rw [List.range_succ, Finset.sum_range_succ, ← ih]; simp

/-- C20: an active owned slip degree of freedom gets the stored value plus the hardening sum
over the slip systems of its crystal at its support point, the same law as C17; no
out-of-range access happens. -/
theorem C20_active {P : Type*} [DecidableEq P] (p : Hardening) (hp : p.perfect = false)
    (nSlips : ℕ) (owned active : List ℕ) (hnd : owned.Nodup) (key : ℕ → Key P)
    (trial old tmp cur : ℕ → ℝ) (d : ℕ) (ho : d ∈ owned) (ha : d ∈ active) (partner : ℕ → ℕ)
    (hcomp : Complete nSlips owned key d partner) :
    dofUpdate p nSlips owned active key trial old tmp cur d =
      some (tmp d + ∑ s ∈ Finset.range nSlips,
        p.modulus / p.characteristic *
          (p.parameter + (1 - p.parameter) * (if (key d).slip = s then 1 else 0)) *
          |trial (partner s) - old (partner s)|) := by
  unfold dofUpdate
  rw [if_neg (by simp [hp]), if_pos ⟨ho, ha⟩, infoDofs_complete _ _ hnd _ _ _ hcomp]
  unfold dofHardening
  rw [foldl_bind_sum (fun e => |trial e - old e|) _
    (fun s x => p.dofEntry (decide ((key d).slip = s)) * x)]
  · simp only [Option.map_some, zero_add]
    congr 2
    rw [sum_map_range]
    apply Finset.sum_congr rfl
    intro s hs
    have hs' : s < nSlips := Finset.mem_range.mp hs
    unfold Hardening.dofEntry
    simp [hs']
  · intro s hs
    exact ⟨partner s, by simp [List.mem_range.mp hs]⟩

/-- C20: an inactive degree of freedom gets the stored value. -/
theorem C20_inactive {P : Type*} [DecidableEq P] (p : Hardening) (hp : p.perfect = false)
    (nSlips : ℕ) (owned active : List ℕ) (key : ℕ → Key P)
    (trial old tmp cur : ℕ → ℝ) (d : ℕ) (ha : d ∉ active) :
    dofUpdate p nSlips owned active key trial old tmp cur d = some (tmp d) := by
  unfold dofUpdate
  rw [if_neg (by simp [hp]), if_neg (fun h => ha h.2)]

/-- C20: the result depends on the stored values only, not on the current ones: a second
evaluation with the same trial solution gives the same values, and trial evaluations leave
no trace. -/
theorem C20_no_trace {P : Type*} [DecidableEq P] (p : Hardening) (hp : p.perfect = false)
    (nSlips : ℕ) (owned active : List ℕ) (key : ℕ → Key P)
    (trial old tmp cur cur' : ℕ → ℝ) (d : ℕ) :
    dofUpdate p nSlips owned active key trial old tmp cur d =
      dofUpdate p nSlips owned active key trial old tmp cur' d := by
  unfold dofUpdate
  simp only [hp, Bool.false_eq_true, if_false]

/-- C20: under perfect plasticity the values never change. -/
theorem C20_perfect {P : Type*} [DecidableEq P] (p : Hardening) (hp : p.perfect = true)
    (nSlips : ℕ) (owned active : List ℕ) (key : ℕ → Key P)
    (trial old tmp cur : ℕ → ℝ) (d : ℕ) :
    dofUpdate p nSlips owned active key trial old tmp cur d = some (cur d) := by
  unfold dofUpdate
  rw [if_pos hp]

/-- C20: the two implementations of the hardening law agree. -/
theorem C20_same_law (p : Hardening) (self : Bool) : p.dofEntry self = p.entry self := by
  unfold Hardening.dofEntry Hardening.entry
  cases self <;> simp

/-- C20: where a partner is not owned the code reads past the end of the list. -/
theorem C20_missing_partner {P : Type*} [DecidableEq P] (p : Hardening) (hp : p.perfect = false)
    (nSlips : ℕ) (owned active : List ℕ) (key : ℕ → Key P)
    (trial old tmp cur : ℕ → ℝ) (d : ℕ) (ho : d ∈ owned) (ha : d ∈ active)
    (hshort : (infoDofs nSlips owned key d).length < nSlips) :
    dofUpdate p nSlips owned active key trial old tmp cur d = none := by
  unfold dofUpdate
  rw [if_neg (by simp [hp]), if_pos ⟨ho, ha⟩]
  generalize infoDofs nSlips owned key d = dofs at hshort
  unfold dofHardening
  obtain ⟨k, rfl⟩ : ∃ k, nSlips = dofs.length + 1 + k := ⟨nSlips - (dofs.length + 1), by omega⟩
  have h1 : ∀ (l : List ℕ), l.foldl (fun acc s => acc.bind fun h => (dofs[s]?).map fun e =>
      h + p.dofEntry (decide ((key d).slip = s)) * |trial e - old e|) none = none := by
    intro l
    induction l with
    | nil => rfl
    | cons s l ih => rw [List.foldl_cons]; exact ih
  rw [List.range_add, List.foldl_append, List.range_succ, List.foldl_append]
  have h2 : ∀ acc : Option ℝ, [dofs.length].foldl (fun acc s => acc.bind fun h =>
      (dofs[s]?).map fun e =>
      h + p.dofEntry (decide ((key d).slip = s)) * |trial e - old e|) acc = none := by
    intro acc
    cases acc <;> simp
  rw [h2, h1]; rfl

/-- Four degrees of freedom: points 0 and 1, one crystal, two slips. -/
def exKey : ℕ → Key ℕ := fun d => ⟨d / 2, 0, d % 2⟩

/-- Non-vacuity: degree of freedom 3 has partners 2 and 3. -/
example : Complete 2 [0, 1, 2, 3] exKey 3 (fun s => s + 2) := by
  intro s hs e
  unfold IsPartner exKey
  simp only [List.mem_cons, List.not_mem_nil, or_false]
  constructor
  · rintro ⟨h1, h2, -, h3⟩; show e = s + 2; omega
  · intro h
    have h : e = s + 2 := h
    obtain rfl | rfl : s = 0 ∨ s = 1 := by omega
    all_goals (subst h; decide)

/-- Non-vacuity of `C20_missing_partner`. -/
example : (infoDofs 2 [0, 1, 3] exKey 3).length < 2 := by decide

/-! ## C21, C22: Ortiz damage -/

/-- Damage of the Ortiz model at the largest opening `m` (specification). -/
noncomputable def ortiz (critical m : ℝ) : ℝ :=
  1 - (1 + m / critical) * Real.exp (-(m / critical))

theorem Iface.op_tmp (p : DamagePrm) (s : Iface) (o : IfaceOp) :
    (s.op p o).tmpDamage = s.tmpDamage ∧ (s.op p o).tmpMax = s.tmpMax ∧
      (s.op p o).oldOpening = s.oldOpening := by
  cases o <;> exact ⟨rfl, rfl, rfl⟩

theorem Iface.ops_tmp (p : DamagePrm) (s : Iface) (l : List IfaceOp) :
    (l.foldl (Iface.op p) s).tmpDamage = s.tmpDamage ∧
      (l.foldl (Iface.op p) s).tmpMax = s.tmpMax ∧
      (l.foldl (Iface.op p) s).oldOpening = s.oldOpening := by
  induction l generalizing s with
  | nil => exact ⟨rfl, rfl, rfl⟩
  | cons o l ih =>
    rw [List.foldl_cons]
    obtain ⟨h1, h2, h3⟩ := ih (s.op p o)
    obtain ⟨g1, g2, g3⟩ := Iface.op_tmp p s o
    exact ⟨h1.trans g1, h2.trans g2, h3.trans g3⟩

/-- C22: whatever trial evaluations and resets came before, an evaluation gives the same
record as that evaluation alone. -/
theorem C22_trials_leave_no_trace (p : DamagePrm) (s : Iface) (trials : List IfaceOp)
    (opening : ℝ) :
    (trials.foldl (Iface.op p) s).updateOrtiz p opening = s.updateOrtiz p opening := by
  obtain ⟨h1, h2, h3⟩ := Iface.ops_tmp p s trials
  unfold Iface.updateOrtiz
  simp only [h1, h2, h3]

/-- C22: evaluating twice is evaluating once, in particular when both cells of a face
evaluate one after the other. -/
theorem C22_idempotent (p : DamagePrm) (s : Iface) (opening : ℝ) :
    (s.updateOrtiz p opening).updateOrtiz p opening = s.updateOrtiz p opening :=
  C22_trials_leave_no_trace p s [.update opening] opening

/-- C22: a reset restores the values at the last store. -/
theorem C22_reset_restores (p : DamagePrm) (s : Iface) (trials : List IfaceOp) :
    ((trials ++ [IfaceOp.reset]).foldl (Iface.op p) s.store).damage = s.damage ∧
    ((trials ++ [IfaceOp.reset]).foldl (Iface.op p) s.store).maxOpening = s.maxOpening := by
  rw [List.foldl_append]
  obtain ⟨h1, h2, h3⟩ := Iface.ops_tmp p s.store trials
  exact ⟨h1, h2⟩

/-- A trial evaluation does change the record. -/
example : ((Iface.new).updateOrtiz ⟨1, 1, 0, 1, 0, false⟩ 2).maxOpening ≠
    Iface.new.maxOpening := by
  norm_num [Iface.updateOrtiz, Iface.new]

theorem step_max (p : DamagePrm) (s : Iface) (t : IfaceStep) :
    (s.step p t).maxOpening = max s.maxOpening t.opening ∧
    (s.step p t).damage =
      if p.setZero then 0 else ortiz p.critical (max s.maxOpening t.opening) := by
  unfold Iface.step
  rw [C22_trials_leave_no_trace]
  exact ⟨rfl, rfl⟩

/-- C21: the stored maximum is the running maximum of the accepted openings (starting at
zero), and the damage is the Ortiz value of it. -/
theorem C21_closed_form (p : DamagePrm) (hz : p.setZero = false) (history : List IfaceStep) :
    let s := history.foldl (Iface.step p) Iface.new
    s.maxOpening = (history.map (·.opening)).foldl max 0 ∧
    s.damage = ortiz p.critical ((history.map (·.opening)).foldl max 0) := by
  have key : ∀ s : Iface, s.damage = ortiz p.critical s.maxOpening →
      (history.foldl (Iface.step p) s).maxOpening =
        (history.map (·.opening)).foldl max s.maxOpening ∧
      (history.foldl (Iface.step p) s).damage =
        ortiz p.critical ((history.map (·.opening)).foldl max s.maxOpening) := by
    induction history with
    | nil => intro s hs; exact ⟨rfl, hs⟩
    | cons t l ih =>
      intro s hs
      obtain ⟨h1, h2⟩ := step_max p s t
      rw [hz, if_neg (by simp)] at h2
      have := ih (s.step p t) (by rw [h1, h2])
      rw [h1] at this
      simpa using this
  exact key Iface.new (by simp [Iface.new, ortiz])

theorem foldl_max_le (l : List ℝ) (m : ℝ) : m ≤ l.foldl max m ∧ ∀ x ∈ l, x ≤ l.foldl max m := by
  induction l generalizing m with
  | nil => simp
  | cons a l ih =>
    rw [List.foldl_cons]
    obtain ⟨h1, h2⟩ := ih (max m a)
    refine ⟨(le_max_left _ _).trans h1, ?_⟩
    intro x hx
    rcases List.mem_cons.mp hx with rfl | hx
    · exact (le_max_right _ _).trans h1
    · exact h2 x hx

/-- C21: the maximum is at least every opening so far. -/
theorem C21_max_is_bound (p : DamagePrm) (hz : p.setZero = false) (history : List IfaceStep)
    (t : IfaceStep) (ht : t ∈ history) :
    t.opening ≤ (history.foldl (Iface.step p) Iface.new).maxOpening := by
  rw [(C21_closed_form p hz history).1]
  exact (foldl_max_le _ 0).2 _ (List.mem_map_of_mem ht)

theorem ortiz_range (c m : ℝ) (hc : 0 < c) (hm : 0 ≤ m) : 0 ≤ ortiz c m ∧ ortiz c m < 1 := by
  unfold ortiz
  have hr : 0 ≤ m / c := div_nonneg hm hc.le
  have he : 0 < Real.exp (-(m / c)) := Real.exp_pos _
  constructor
  · have h1 : 1 + m / c ≤ Real.exp (m / c) := by linarith [Real.add_one_le_exp (m / c)]
    have h2 : (1 + m / c) * Real.exp (-(m / c)) ≤ 1 := by
      calc (1 + m / c) * Real.exp (-(m / c))
          ≤ Real.exp (m / c) * Real.exp (-(m / c)) := by
            exact mul_le_mul_of_nonneg_right h1 he.le
        _ = 1 := by rw [← Real.exp_add]; simp
    linarith
  · have : 0 < (1 + m / c) * Real.exp (-(m / c)) := by positivity
    linarith

theorem ortiz_mono (c m m' : ℝ) (hc : 0 < c) (hm : 0 ≤ m) (h : m ≤ m') :
    ortiz c m ≤ ortiz c m' := by
  unfold ortiz
  have hr : 0 ≤ m / c := div_nonneg hm hc.le
  have hr' : m / c ≤ m' / c := (div_le_div_iff_of_pos_right hc).mpr h
  set r := m / c
  set r' := m' / c
  have h1 : 1 + (r' - r) ≤ Real.exp (r' - r) := by linarith [Real.add_one_le_exp (r' - r)]
  have he : 0 < Real.exp (-r') := Real.exp_pos _
  have h2 : Real.exp (-r) = Real.exp (r' - r) * Real.exp (-r') := by
    rw [← Real.exp_add]; congr 1; ring
  have h3 : (1 + r') ≤ (1 + r) * Real.exp (r' - r) := by nlinarith
  have h4 : (1 + r') * Real.exp (-r') ≤ (1 + r) * Real.exp (-r) := by
    rw [h2]
    nlinarith [mul_le_mul_of_nonneg_right h3 he.le]
  linarith

/-- C21: the damage lies in `[0,1)` and never decreases, over any history. -/
theorem C21_range_and_irreversible (p : DamagePrm) (hz : p.setZero = false)
    (hc : 0 < p.critical) (history : List IfaceStep) (next : IfaceStep) :
    let s := history.foldl (Iface.step p) Iface.new
    0 ≤ s.damage ∧ s.damage < 1 ∧ s.damage ≤ (s.step p next).damage := by
  obtain ⟨h1, h2⟩ := C21_closed_form p hz history
  have h0 : 0 ≤ (history.map (·.opening)).foldl max (0 : ℝ) := (foldl_max_le _ 0).1
  obtain ⟨h3, h4⟩ := ortiz_range p.critical _ hc h0
  refine ⟨by rw [h2]; exact h3, by rw [h2]; exact h4, ?_⟩
  rw [(step_max p _ next).2, hz, if_neg (by simp), h2, h1]
  exact ortiz_mono _ _ _ hc h0 (le_max_left _ _)

/-- C21: with the option "set damage to zero" the damage is zero after any step. -/
theorem C21_set_to_zero (p : DamagePrm) (hz : p.setZero = true) (s : Iface) (t : IfaceStep) :
    (s.step p t).damage = 0 := by
  rw [(step_max p s t).2, if_pos hz]

/-- C21: damage is strictly positive once the interface has opened. -/
theorem C21_positive (p : DamagePrm) (hz : p.setZero = false) (hc : 0 < p.critical) (s : Iface)
    (t : IfaceStep) (ht : 0 < t.opening) : 0 < (s.step p t).damage := by
  rw [(step_max p s t).2, hz, if_neg (by simp)]
  have hm : 0 < max s.maxOpening t.opening := lt_max_of_lt_right ht
  unfold ortiz
  set r := max s.maxOpening t.opening / p.critical
  have hr : 0 < r := div_pos hm hc
  have h1 : r + 1 < Real.exp r := Real.add_one_lt_exp hr.ne'
  have he : 0 < Real.exp (-r) := Real.exp_pos _
  have h2 : Real.exp r * Real.exp (-r) = 1 := by rw [← Real.exp_add]; simp
  nlinarith

/-- A history with opening, closing and reopening: maximum 3. -/
example : ([⟨[], 3, 3⟩, ⟨[.update 9, .reset], 1, 1⟩, ⟨[], 2, 2⟩].foldl
    (Iface.step ⟨1, 1, 0, 1, 0, false⟩) Iface.new).maxOpening = 3 := by
  rw [(C21_closed_form _ rfl _).1]
  norm_num

/-! ## C23: M1 damage -/

theorem macaulay_nonneg (x : ℝ) : 0 ≤ macaulay x := by
  unfold macaulay; split_ifs with h
  · exact h.le
  · exact le_rfl

/-- C23, partial: if the thermodynamic force is at least the endurance limit, an evaluation
from a stored damage in `[0,1]` gives a damage in `[0,1]` that is not smaller.  Missing: the
case of a smaller force, and re-evaluation; see the violations below. -/
theorem C23_range_partial (p : DamagePrm) (hz : p.setZero = false) (ha : 0 ≤ p.accumulation)
    (hk : 0 ≤ p.decay) (s : Iface) (opening cd force : ℝ) (hcd : 0 ≤ cd)
    (hd0 : 0 ≤ s.tmpDamage) (hd1 : s.tmpDamage ≤ 1) (hf : p.endurance ≤ force) :
    s.tmpDamage ≤ (s.updateM1 p opening cd force).damage ∧
    0 ≤ (s.updateM1 p opening cd force).damage ∧
    (s.updateM1 p opening cd force).damage ≤ 1 := by
  have hbase : 0 ≤ 1 - s.tmpDamage + p.decay := by linarith
  have hinc : 0 ≤ p.accumulation * cd * macaulay (opening - s.oldOpening) *
      (1 - s.tmpDamage + p.decay) ^ p.exponent * (force - p.endurance) := by
    have := macaulay_nonneg (opening - s.oldOpening)
    have := Real.rpow_nonneg hbase p.exponent
    have : 0 ≤ force - p.endurance := by linarith
    positivity
  unfold Iface.updateM1
  simp only [hz, Bool.false_eq_true, if_false]
  split_ifs with h
  · exact ⟨hd1, by norm_num, le_rfl⟩
  · push Not at h
    exact ⟨by linarith, by linarith, h⟩

/-- The force is non-negative when the energies are and the current damage is at most one,
so the hypothesis holds for the default endurance limit zero. -/
theorem C23_force_nonneg (n energy : ℝ) (hn : 0 ≤ n) (he : 0 ≤ energy) (s : Iface)
    (hs : s.damage ≤ 1) : 0 ≤ m1Force n energy s := by
  unfold m1Force
  have := Real.rpow_nonneg (by linarith : 0 ≤ 1 - s.damage) (n - 1)
  have : -(-n * (1 - s.damage) ^ (n - 1)) * energy = n * (1 - s.damage) ^ (n - 1) * energy := by
    ring
  rw [this]; positivity

/-- Calls of the M1 model between two `store_current_values`. -/
inductive M1Op
  | eval (opening energy : ℝ)
  | reset

/-- Effect of a call. -/
noncomputable def m1op (p : DamagePrm) (n cd : ℝ) (s : Iface) : M1Op → Iface
  | .eval o e => s.evalM1 p n cd o e
  | .reset => s.reset

/-- C23, partial: with endurance limit zero, the damage of every step of every history lies
in `[0,1]` and does not fall below the stored one, whatever trial evaluations were made. -/
theorem C23_history_partial (p : DamagePrm) (hz : p.setZero = false) (hend : p.endurance = 0)
    (ha : 0 ≤ p.accumulation) (hk : 0 ≤ p.decay) (n cd : ℝ) (hn : 0 ≤ n) (hcd : 0 ≤ cd)
    (s : Iface) (hs0 : 0 ≤ s.damage) (hs1 : s.damage ≤ 1) (ops : List M1Op)
    (hops : ∀ o e, M1Op.eval o e ∈ ops → 0 ≤ e) :
    let r := ops.foldl (m1op p n cd) s.store
    s.damage ≤ r.damage ∧ 0 ≤ r.damage ∧ r.damage ≤ 1 := by
  have key : ∀ (t : Iface), t.tmpDamage = s.damage → s.damage ≤ t.damage → t.damage ≤ 1 →
      s.damage ≤ (ops.foldl (m1op p n cd) t).damage ∧
      (ops.foldl (m1op p n cd) t).damage ≤ 1 := by
    induction ops with
    | nil => intro t _ h1 h2; exact ⟨h1, h2⟩
    | cons o l ih =>
      intro t ht h1 h2
      rw [List.foldl_cons]
      cases o with
      | reset =>
        exact ih (fun o e h => hops o e (List.mem_cons_of_mem _ h)) _ ht
          (by show s.damage ≤ t.tmpDamage; rw [ht]) (by show t.tmpDamage ≤ 1; rw [ht]; exact hs1)
      | eval op en =>
        have hen := hops op en List.mem_cons_self
        have hf : p.endurance ≤ m1Force n en t := by
          rw [hend]; exact C23_force_nonneg n en hn hen t h2
        obtain ⟨g1, g2, g3⟩ := C23_range_partial p hz ha hk t op cd (m1Force n en t) hcd
          (by rw [ht]; exact hs0) (by rw [ht]; exact hs1) hf
        rw [ht] at g1
        exact ih (fun o e h => hops o e (List.mem_cons_of_mem _ h)) _ ht g1 g3
  obtain ⟨h1, h2⟩ := key s.store rfl le_rfl hs1
  exact ⟨h1, hs0.trans h1, h2⟩

/-- C23 violated: below the endurance limit an opening interface heals, and from no damage
the damage becomes negative. -/
theorem C23_violated_negative (p : DamagePrm) (hz : p.setZero = false)
    (ha : 0 < p.accumulation) (hk : 0 ≤ p.decay) (s : Iface) (opening cd force : ℝ)
    (hcd : 0 < cd) (ho : s.oldOpening < opening) (hd : s.tmpDamage < 1)
    (hf : force < p.endurance) :
    (s.updateM1 p opening cd force).damage < s.tmpDamage := by
  have hbase : 0 < 1 - s.tmpDamage + p.decay := by linarith
  have hm : 0 < macaulay (opening - s.oldOpening) := by
    unfold macaulay
    rw [if_pos (by linarith)]
    linarith
  have hinc : p.accumulation * cd * macaulay (opening - s.oldOpening) *
      (1 - s.tmpDamage + p.decay) ^ p.exponent * (force - p.endurance) < 0 := by
    have := Real.rpow_pos_of_pos hbase p.exponent
    apply mul_neg_of_pos_of_neg
    · positivity
    · linarith
  unfold Iface.updateM1
  simp only [hz, Bool.false_eq_true, if_false]
  rw [if_neg (by linarith)]
  linarith

/-- Witness: parameters the parameter file accepts, fresh record. -/
example : (Iface.new.store.updateM1 ⟨1, 1, 0, 1, 5, false⟩ 1 1 0).damage < 0 :=
  C23_violated_negative ⟨1, 1, 0, 1, 5, false⟩ rfl (by norm_num) le_rfl _ 1 1 0 (by norm_num)
    (by norm_num [Iface.store, Iface.new]) (by norm_num [Iface.store, Iface.new]) (by norm_num)

/-- C23 violated: evaluating the same trial state twice does not give the same damage,
because the force is computed from the damage of the previous evaluation.  Witness:
quadratic degradation, one opening of a fresh interface; first evaluation 1/2, second 1/4. -/
theorem C23_violated_reevaluation :
    let p : DamagePrm := ⟨1, 1, 0, 1, 0, false⟩
    let s1 := Iface.new.store.evalM1 p 2 1 1 (1 / 4)
    let s2 := s1.evalM1 p 2 1 1 (1 / 4)
    s1.damage = 1 / 2 ∧ s2.damage = 1 / 4 := by
  have h1 : (1 : ℝ) - 1 / 2 = 1 / 2 := by norm_num
  norm_num [Iface.evalM1, Iface.updateM1, m1Force, Iface.store, Iface.new, macaulay]

/-! ## C24: concurrent updates of the two cells -/

/-- Invariant of the race. -/
structure RaceInv (p : DamagePrm) (tmpM opening : ℝ) (s : Race) : Prop where
  bound : ∀ t, s.pc t ≤ 6
  maxVal : ∀ t, 2 ≤ s.pc t → s.maxOpening = tmpM ∨ s.maxOpening = max tmpM opening
  maxDone : ∀ t, 3 ≤ s.pc t → s.maxOpening = max tmpM opening ∨ ∃ u, s.pc u = 2
  ratioVal : ∀ t, 4 ≤ s.pc t →
    s.ratio t = tmpM / p.critical ∨ s.ratio t = max tmpM opening / p.critical
  damageVal : ∀ t, 5 ≤ s.pc t → s.damage = ortiz p.critical tmpM ∨
    s.damage = ortiz p.critical (max tmpM opening) ∨ (p.setZero = true ∧ s.damage = 0) ∨
    ∃ u, 1 ≤ s.pc u ∧ s.pc u ≤ 4
  zeroVal : p.setZero = true → ∀ t, s.pc t = 6 → s.damage = 0 ∨ ∃ u, 1 ≤ s.pc u ∧ s.pc u ≤ 5

theorem RaceInv.stmt {p : DamagePrm} {tmpD tmpM opening : ℝ} {s : Race}
    (h : RaceInv p tmpM opening s) (t : Bool) :
    RaceInv p tmpM opening (s.stmt p tmpD tmpM opening t) := by
  obtain ⟨hb, h1, h2, h3, h4, h5⟩ := h
  have hbt := hb t
  have up : ∀ k u, Function.update s.pc t k u = if u = t then k else s.pc u := by
    intro k u; by_cases hu : u = t
    · subst hu; simp
    · simp [hu]
  have ur : ∀ (k : ℝ) u, Function.update s.ratio t k u = if u = t then k else s.ratio u := by
    intro k u; by_cases hu : u = t
    · subst hu; simp
    · simp [hu]
  have hx : ∀ v : ℝ, v = tmpM ∨ v = max tmpM opening → max v opening = max tmpM opening := by
    rintro v (rfl | rfl)
    · rfl
    · simp
  obtain hk | hk | hk | hk | hk | hk | hk : s.pc t = 0 ∨ s.pc t = 1 ∨ s.pc t = 2 ∨ s.pc t = 3 ∨
      s.pc t = 4 ∨ s.pc t = 5 ∨ s.pc t = 6 := by omega
  all_goals (unfold Race.stmt; simp only [hk])
  · constructor <;> simp only [up]
    · intro u; split_ifs <;> [omega; exact hb u]
    · intro u hu; split_ifs at hu <;> [omega; exact h1 u hu]
    · intro u hu; split_ifs at hu <;> [omega; skip]
      rcases h2 u hu with h | ⟨v, hv⟩
      · exact Or.inl h
      · exact Or.inr ⟨v, by split_ifs with hvt <;> [(subst hvt; omega); exact hv]⟩
    · intro u hu; split_ifs at hu <;> [omega; exact h3 u hu]
    · intro u hu; exact Or.inr (Or.inr (Or.inr ⟨t, by simp⟩))
    · intro _ u hu; exact Or.inr ⟨t, by simp⟩
  · constructor <;> simp only [up]
    · intro u; split_ifs <;> [omega; exact hb u]
    · intro u hu; simp
    · intro u hu; exact Or.inr ⟨t, by simp⟩
    · intro u hu; split_ifs at hu <;> [omega; exact h3 u hu]
    · intro u hu; exact Or.inr (Or.inr (Or.inr ⟨t, by simp⟩))
    · intro _ u hu; exact Or.inr ⟨t, by simp⟩
  · have hm := hx _ (h1 t (by omega))
    constructor <;> simp only [up]
    · intro u; split_ifs <;> [omega; exact hb u]
    · intro u hu; exact Or.inr hm
    · intro u hu; exact Or.inl hm
    · intro u hu; split_ifs at hu <;> [omega; exact h3 u hu]
    · intro u hu; exact Or.inr (Or.inr (Or.inr ⟨t, by simp⟩))
    · intro _ u hu; exact Or.inr ⟨t, by simp⟩
  · have hm := h1 t (by omega)
    constructor <;> simp only [up, ur]
    · intro u; split_ifs <;> [omega; exact hb u]
    · intro u hu; exact hm
    · intro u hu
      have : 3 ≤ s.pc u := by
        split_ifs at hu with hut
        · subst hut; omega
        · exact hu
      rcases h2 u this with h | ⟨v, hv⟩
      · exact Or.inl h
      · exact Or.inr ⟨v, by split_ifs with hvt <;> [(subst hvt; omega); exact hv]⟩
    · intro u hu; split_ifs at hu ⊢ with hut
      · rcases hm with h | h <;> rw [h] <;> simp
      · exact h3 u hu
    · intro u hu; exact Or.inr (Or.inr (Or.inr ⟨t, by simp⟩))
    · intro _ u hu; exact Or.inr ⟨t, by simp⟩
  · have hm := h1 t (by omega)
    have hr := h3 t (by omega)
    constructor <;> simp only [up]
    · intro u; split_ifs <;> [omega; exact hb u]
    · intro u hu; exact hm
    · intro u hu
      have : 3 ≤ s.pc u := by
        split_ifs at hu with hut
        · subst hut; omega
        · exact hu
      rcases h2 u this with h | ⟨v, hv⟩
      · exact Or.inl h
      · exact Or.inr ⟨v, by split_ifs with hvt <;> [(subst hvt; omega); exact hv]⟩
    · intro u hu
      split_ifs at hu with hut
      · subst hut; exact hr
      · exact h3 u hu
    · intro u hu
      rcases hr with h | h
      · left; unfold ortiz; rw [h]
      · right; left; unfold ortiz; rw [h]
    · intro _ u hu; exact Or.inr ⟨t, by simp⟩
  · have hm := h1 t (by omega)
    have hr := h3 t (by omega)
    have hd := h4 t (by omega)
    constructor <;> simp only [up]
    · intro u; split_ifs <;> [omega; exact hb u]
    · intro u hu; exact hm
    · intro u hu
      have : 3 ≤ s.pc u := by
        split_ifs at hu with hut
        · subst hut; omega
        · exact hu
      rcases h2 u this with h | ⟨v, hv⟩
      · exact Or.inl h
      · exact Or.inr ⟨v, by split_ifs with hvt <;> [(subst hvt; omega); exact hv]⟩
    · intro u hu
      split_ifs at hu with hut
      · subst hut; exact hr
      · exact h3 u hu
    · intro u hu
      by_cases hz : p.setZero = true
      · rw [if_pos hz]; exact Or.inr (Or.inr (Or.inl ⟨hz, rfl⟩))
      · rw [if_neg hz]
        rcases hd with h | h | h | ⟨v, hv⟩
        · exact Or.inl h
        · exact Or.inr (Or.inl h)
        · exact Or.inr (Or.inr (Or.inl h))
        · exact Or.inr (Or.inr (Or.inr ⟨v, by
            split_ifs with hvt <;> [(subst hvt; omega); exact hv]⟩))
    · intro hz u hu; left; rw [if_pos hz]
  · exact ⟨hb, h1, h2, h3, h4, h5⟩

theorem RaceInv.run {p : DamagePrm} {tmpD tmpM opening : ℝ} {s : Race}
    (h : RaceInv p tmpM opening s) (sched : List Bool) :
    RaceInv p tmpM opening (s.run p tmpD tmpM opening sched) := by
  unfold Race.run
  induction sched generalizing s with
  | nil => exact h
  | cons t l ih => exact ih (h.stmt t)

theorem RaceInv.start (p : DamagePrm) (tmpM opening : ℝ) (s : Iface) :
    RaceInv p tmpM opening (Race.start s) := by
  constructor <;> simp [Race.start]

/-- C24, partial: in every interleaving of the two cells' updates the maximum opening is the
one a single update gives, and the damage is either the one a single update gives or the one
of the stored maximum.  Missing: that it is always the former; it is not, see
`C24_violated_interleaving`. -/
theorem C24_interleavings_partial (p : DamagePrm) (s : Iface) (opening : ℝ) (sched : List Bool)
    (hdone : ((Race.start s).run p s.tmpDamage s.tmpMax opening sched).done) :
    let r := (Race.start s).run p s.tmpDamage s.tmpMax opening sched
    r.maxOpening = (s.updateOrtiz p opening).maxOpening ∧
    (r.damage = (s.updateOrtiz p opening).damage ∨
      (p.setZero = false ∧ r.damage = ortiz p.critical s.tmpMax)) := by
  have inv := (RaceInv.start p s.tmpMax opening s).run (tmpD := s.tmpDamage) sched
  simp only
  set r := (Race.start s).run p s.tmpDamage s.tmpMax opening sched
  have hpc : ∀ t, r.pc t = 6 := hdone
  constructor
  · rcases inv.maxDone true (by rw [hpc]; norm_num) with h | ⟨u, hu⟩
    · exact h
    · rw [hpc] at hu; omega
  · cases hz : p.setZero with
    | true =>
      left
      rcases inv.zeroVal hz true (hpc true) with h | ⟨u, hu⟩
      · rw [h]; simp [Iface.updateOrtiz, hz]
      · rw [hpc] at hu; omega
    | false =>
      rcases inv.damageVal true (by rw [hpc]; norm_num) with h | h | h | ⟨u, hu⟩
      · exact Or.inr ⟨rfl, h⟩
      · left; rw [h]; simp [Iface.updateOrtiz, hz, ortiz]
      · rw [hz] at h; simp at h
      · rw [hpc] at hu; omega

/-- C24: interleavings in which one cell's update finishes before the other's starts (the
single-threaded case) end with the record of a single update. -/
theorem C24_sequential (p : DamagePrm) (s : Iface) (opening : ℝ) (t : Bool) :
    let r := (Race.start s).run p s.tmpDamage s.tmpMax opening
      (List.replicate 6 t ++ List.replicate 6 (!t))
    r.done ∧ r.maxOpening = (s.updateOrtiz p opening).maxOpening ∧
      r.damage = (s.updateOrtiz p opening).damage := by
  cases t <;>
  · simp only [List.replicate, Race.run, Race.start, Race.stmt, Race.done, List.cons_append,
      List.nil_append, List.foldl_cons, List.foldl_nil, Iface.updateOrtiz]
    simp [Function.update]

/-- C24 violated: cell `false` stops after raising the maximum, cell `true` resets the
maximum to the stored value, cell `false` computes its ratio from that value and is overtaken
by cell `true`'s complete update before it writes the damage.  The final damage is that of
the stored maximum although the maximum opening is the new one. -/
theorem C24_violated_interleaving (p : DamagePrm) (hz : p.setZero = false) (s : Iface)
    (opening : ℝ) :
    let r := (Race.start s).run p s.tmpDamage s.tmpMax opening
      [false, false, false, true, true, false, true, true, true, true, false, false]
    r.done ∧ r.maxOpening = max s.tmpMax opening ∧ r.damage = ortiz p.critical s.tmpMax := by
  simp only [Race.run, Race.start, Race.stmt, Race.done, List.foldl_cons, List.foldl_nil]
  simp [Function.update, hz, ortiz]

/-- The two damages differ: first opening of a fresh interface to the critical opening. -/
example : ortiz 1 (Iface.new.store.tmpMax) ≠
    (Iface.new.store.updateOrtiz ⟨1, 1, 0, 1, 0, false⟩ 1).damage := by
  have h : (1 : ℝ) + 1 < Real.exp 1 := Real.add_one_lt_exp (by norm_num)
  have he : Real.exp 1 * Real.exp (-1) = 1 := by rw [← Real.exp_add]; simp
  have hp : 0 < Real.exp (-1) := Real.exp_pos _
  norm_num [ortiz, Iface.store, Iface.new, Iface.updateOrtiz]
  nlinarith

end Verif.Hist
