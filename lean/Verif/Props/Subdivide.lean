import Verif.Props.Speed

/-!
# Subdividing time steps: C105
-/

namespace Verif.Asm
open Matrix Finset Verif.Cry Verif.Hist Verif.Micro Verif.Lin Verif.Itf

variable {d e n N : ℕ}

/-! ## Specification -/

/-- Slip of system `a` at a quadrature point of a cell after step `k`. -/
noncomputable def SpecSlip (r : RunCell d n N) (u : ℕ → ℕ → ℝ) (q : Fin r.cell.Q) (a : Fin n) (k : ℕ) : ℝ :=
  (r.cell.pts q).shape.slip (u k ∘ r.cell.dofs) a

/-- The run with fewer steps: step `j` of it replaces the steps `κ j, …, κ (j + 1) - 1`, under the loads of the last of
them. -/
def RunGrain.coarse (κ : ℕ → ℕ) (r : RunGrain d e n N) : RunGrain d e n N :=
  ⟨⟨r.run.cell, fun j => r.run.supply (κ (j + 1) - 1)⟩, r.F, r.views, r.B, fun j => r.loads (κ (j + 1) - 1)⟩

/-- Length of the replaced steps together. -/
noncomputable def SpecTogether (κ : ℕ → ℕ) (dt : ℕ → ℝ) (j : ℕ) : ℝ := ∑ k ∈ Ico (κ j) (κ (j + 1)), dt k

/-- Between `κ j` and `κ (j + 1)` every slip moves one way. -/
def SpecOneWay (r : RunCell d n N) (u : ℕ → ℕ → ℝ) (κ : ℕ → ℕ) (j : ℕ) : Prop := ∀ q a,
  MonotoneOn (SpecSlip r u q a) (Set.Icc (κ j) (κ (j + 1))) ∨ AntitoneOn (SpecSlip r u q a) (Set.Icc (κ j) (κ (j + 1)))

/-- In the last of the replaced steps every slip that has moved still moves (rate-independent material), or it moves at the
average rate. -/
def SpecSteady (r : RunCell d n N) (dt : ℕ → ℝ) (u : ℕ → ℕ → ℝ) (κ : ℕ → ℕ) (j : ℕ) : Prop := ∀ q a,
  (r.cell.prm.law.rateIndependent = true ∧
    (SpecSlip r u q a (κ (j + 1)) = SpecSlip r u q a (κ (j + 1) - 1) →
      SpecSlip r u q a (κ (j + 1)) = SpecSlip r u q a (κ j))) ∨
  (SpecSlip r u q a (κ (j + 1)) - SpecSlip r u q a (κ (j + 1) - 1)) / dt (κ (j + 1) - 1) =
    (SpecSlip r u q a (κ (j + 1)) - SpecSlip r u q a (κ j)) / SpecTogether κ dt j

/-! ## Helpers -/

/-- Two updates one after the other along a one-way path are one update. -/
theorem update_twice (b : Bulk n) (s0 s1 s2 : Fin n → ℝ)
    (h : ∀ a, |s2 a - s0 a| = |s2 a - s1 a| + |s1 a - s0 a|) :
    ((b.update s1 s0).store.update s2 s1).res = (b.update s2 s0).res := by
  funext a
  have hp : (b.update s1 s0).store.prm = b.prm := update_prm _ _ _
  cases hperf : b.prm.perfect with
  | true =>
    rw [C17_perfect _ _ _ (by rw [hp]; exact hperf), C17_perfect _ _ _ hperf]
    show (b.update s1 s0).res a = _
    rw [C17_perfect _ _ _ hperf]
  | false =>
    rw [C17_hardening_law _ _ _ _ (by rw [hp]; exact hperf), C17_hardening_law _ _ _ _ hperf, hp]
    show (b.update s1 s0).res a + _ = _
    rw [C17_hardening_law _ _ _ _ hperf, add_assoc, ← sum_add_distrib]
    congr 1
    refine sum_congr rfl fun β _ => ?_
    rw [h]
    ring

theorem store_eq {b b' : Bulk n} (h1 : b.prm = b'.prm) (h2 : b.res = b'.res) : b.store = b'.store := by
  unfold Bulk.store
  rw [h1, h2]

theorem oneWay_abs {f : ℕ → ℝ} {x y : ℕ} (h : MonotoneOn f (Set.Icc x y) ∨ AntitoneOn f (Set.Icc x y)) {i k : ℕ}
    (h1 : x ≤ i) (h2 : i ≤ k) (h3 : k ≤ y) : |f k - f x| = |f k - f i| + |f i - f x| := by
  have mx : x ∈ Set.Icc x y := ⟨le_rfl, by omega⟩
  have mi : i ∈ Set.Icc x y := ⟨h1, by omega⟩
  have mk : k ∈ Set.Icc x y := ⟨by omega, h3⟩
  rcases h with h | h
  · have a1 := h mx mi h1
    have a2 := h mi mk h2
    rw [abs_of_nonneg (by linarith), abs_of_nonneg (by linarith), abs_of_nonneg (by linarith)]
    ring
  · have a1 := h mx mi h1
    have a2 := h mi mk h2
    rw [abs_of_nonpos (by linarith), abs_of_nonpos (by linarith), abs_of_nonpos (by linarith)]
    ring

/-- History in the middle of a replaced step. -/
theorem hist_between (r : RunCell d n N) (u : ℕ → ℕ → ℝ) (q : Fin r.cell.Q) {x y : ℕ}
    (h : ∀ a, MonotoneOn (SpecSlip r u q a) (Set.Icc x y) ∨ AntitoneOn (SpecSlip r u q a) (Set.Icc x y)) (i : ℕ)
    (hi : x + i + 1 ≤ y) :
    r.histAt u q (x + i + 1) =
      ((r.histAt u q x).update (fun a => SpecSlip r u q a (x + i + 1)) fun a => SpecSlip r u q a x).store := by
  induction i with
  | zero => rfl
  | succ i ih =>
    rw [show x + (i + 1) + 1 = (x + i + 1) + 1 by omega]
    show ((r.histAt u q (x + i + 1)).update (fun a => SpecSlip r u q a (x + i + 1 + 1))
      fun a => SpecSlip r u q a (x + i + 1)).store = _
    rw [ih (by omega)]
    refine store_eq ?_ (update_twice _ _ _ _ fun a => oneWay_abs (h a) (by omega) (by omega) (by omega))
    rw [update_prm, update_prm]
    exact update_prm _ _ _

/-! ## C105 -/

/-- C105, internal variables: while slips move one way they do not depend on how many steps that takes. -/
theorem C105_history (r : RunCell d n N) (u : ℕ → ℕ → ℝ) (κ : ℕ → ℕ) (h0 : κ 0 = 0) (hκ : StrictMono κ) (M : ℕ)
    (h : ∀ j < M, SpecOneWay r u κ j) (supply : ℕ → Fin r.cell.Q → Vec d) (q : Fin r.cell.Q) (j : ℕ) (hj : j ≤ M) :
    RunCell.histAt ⟨r.cell, supply⟩ (fun j => u (κ j)) q j = r.histAt u q (κ j) := by
  induction j with
  | zero => rw [h0]; rfl
  | succ j ih =>
    have hlt : κ j < κ (j + 1) := hκ (Nat.lt_succ_self j)
    have key := hist_between r u q (h j (by omega) q) (κ (j + 1) - κ j - 1) (by omega)
    rw [show κ j + (κ (j + 1) - κ j - 1) + 1 = κ (j + 1) by omega] at key
    rw [key, ← ih (by omega)]
    rfl

theorem sgn_div_pos (x : ℝ) {t : ℝ} (ht : 0 < t) : sgn (x / t) = sgn x := sgn_pos_div x ht

theorem sgn_oneWay {f : ℕ → ℝ} {x y : ℕ} (hxy : x < y) (h : MonotoneOn f (Set.Icc x y) ∨ AntitoneOn f (Set.Icc x y))
    (hs : f y = f (y - 1) → f y = f x) : sgn (f y - f (y - 1)) = sgn (f y - f x) := by
  have mx : x ∈ Set.Icc x y := ⟨le_rfl, by omega⟩
  have mi : y - 1 ∈ Set.Icc x y := ⟨by omega, by omega⟩
  have mk : y ∈ Set.Icc x y := ⟨by omega, le_rfl⟩
  by_cases h0 : f y = f (y - 1)
  · rw [← h0, hs h0]
  unfold sgn
  rcases h with h | h
  · have a1 := h mx mi (by omega)
    have a2 := h mi mk (by omega)
    have a3 : f (y - 1) < f y := lt_of_le_of_ne a2 (Ne.symm h0)
    rw [if_pos (by linarith), if_neg (by linarith), if_pos (by linarith), if_neg (by linarith)]
  · have a1 := h mx mi (by omega)
    have a2 := h mi mk (by omega)
    have a3 : f y < f (y - 1) := lt_of_le_of_ne a2 h0
    rw [if_neg (by linarith), if_pos (by linarith), if_neg (by linarith), if_pos (by linarith)]

/-- C105, microstress: at the end of the replaced steps the law gives the same microstress. -/
theorem C105_microstress (r : RunCell d n N) (dt : ℕ → ℝ) (hdt : ∀ k, 0 < dt k) (u : ℕ → ℕ → ℝ) (κ : ℕ → ℕ)
    (hκ : StrictMono κ) (j : ℕ) (h : SpecOneWay r u κ j) (hs : SpecSteady r dt u κ j) (q : Fin r.cell.Q) (a : Fin n) :
    r.cell.prm.law.evalMicrostress (r.histAt u q (κ j)) (fun a => SpecSlip r u q a (κ (j + 1)))
        (fun a => SpecSlip r u q a (κ j)) (SpecTogether κ dt j) a =
    r.cell.prm.law.evalMicrostress (r.histAt u q (κ (j + 1) - 1)) (fun a => SpecSlip r u q a (κ (j + 1)))
        (fun a => SpecSlip r u q a (κ (j + 1) - 1)) (dt (κ (j + 1) - 1)) a := by
  have hlt : κ j < κ (j + 1) := hκ (Nat.lt_succ_self j)
  have hres : ((r.histAt u q (κ (j + 1) - 1)).update (fun a => SpecSlip r u q a (κ (j + 1)))
      fun a => SpecSlip r u q a (κ (j + 1) - 1)).res =
      ((r.histAt u q (κ j)).update (fun a => SpecSlip r u q a (κ (j + 1))) fun a => SpecSlip r u q a (κ j)).res := by
    by_cases h1 : κ (j + 1) - 1 = κ j
    · rw [h1]
    · have key := hist_between r u q (h q) (κ (j + 1) - 1 - κ j - 1) (by omega)
      rw [show κ j + (κ (j + 1) - 1 - κ j - 1) + 1 = κ (j + 1) - 1 by omega] at key
      rw [key]
      exact update_twice _ _ _ _ fun a => oneWay_abs (h q a) (by omega) (by omega) le_rfl
  have htog : 0 < SpecTogether κ dt j :=
    sum_pos (fun k _ => hdt k) ⟨κ j, mem_Ico.2 ⟨le_rfl, hlt⟩⟩
  unfold Law.evalMicrostress Law.microstress
  simp only [hres]
  rcases hs q a with ⟨hri, hst⟩ | hst
  · rw [if_pos hri, if_pos hri, sgn_div_pos _ htog, sgn_div_pos _ (hdt _), sgn_oneWay hlt (h q a) hst]
  · rw [hst]

theorem rhsTerm_hist (c : CellPrm d n) (t t' : ℝ) (kind : Kind n N) (s : Shape d n N) (b : Vec d) (h h' : Bulk n)
    (o o' : Fin n → ℝ) (u : Fin N → ℝ) (i : Fin N)
    (hm : ∀ a, c.law.evalMicrostress h (s.slip u) o t a = c.law.evalMicrostress h' (s.slip u) o' t' a) :
    ({ c with dt := t } : CellPrm d n).rhsTerm kind ⟨s, b, h, o⟩ u i =
      ({ c with dt := t' } : CellPrm d n).rhsTerm kind ⟨s, b, h', o'⟩ u i := by
  unfold CellPrm.rhsTerm
  cases kind i with
  | none => rfl
  | some a =>
    simp only [hm a]
    rfl

theorem cell_coarse (r : RunCell d n N) (dt : ℕ → ℝ) (hdt : ∀ k, 0 < dt k) (u : ℕ → ℕ → ℝ) (κ : ℕ → ℕ)
    (h0 : κ 0 = 0) (hκ : StrictMono κ) (M : ℕ) (h : ∀ j < M, SpecOneWay r u κ j)
    (hs : ∀ j < M, SpecSteady r dt u κ j) (j : ℕ) (hj : j < M) (i : Fin N) :
    ({ r.cell.prm with dt := SpecTogether κ dt j } : CellPrm d n).rhs r.cell.kind
      (fun q => (⟨(r.cell.pts q).shape, r.supply (κ (j + 1) - 1) q,
        RunCell.histAt ⟨r.cell, fun j => r.supply (κ (j + 1) - 1)⟩ (fun j => u (κ j)) q j,
        fun a => SpecSlip r u q a (κ j)⟩ : Point d n N)) (u (κ (j + 1)) ∘ r.cell.dofs) i =
      ({ r.cell.prm with dt := dt (κ (j + 1) - 1) } : CellPrm d n).rhs r.cell.kind
      (fun q => (⟨(r.cell.pts q).shape, r.supply (κ (j + 1) - 1) q, r.histAt u q (κ (j + 1) - 1),
        fun a => SpecSlip r u q a (κ (j + 1) - 1)⟩ : Point d n N)) (u (κ (j + 1)) ∘ r.cell.dofs) i := by
  have hm := fun q a => C105_microstress r dt hdt u κ hκ j (h j hj) (hs j hj) q a
  have hh := fun q => C105_history r u κ h0 hκ M h (fun j => r.supply (κ (j + 1) - 1)) q j hj.le
  unfold CellPrm.rhs
  congr 1
  funext q
  exact rhsTerm_hist r.cell.prm _ _ r.cell.kind _ _ _ _ _ _ _ i fun a =>
    (congrArg (fun H => r.cell.prm.law.evalMicrostress H (fun a => SpecSlip r u q a (κ (j + 1)))
      (fun a => SpecSlip r u q a (κ j)) (SpecTogether κ dt j) a) (hh q)).trans (hm q a)

/-- C105, time steps: the state at the end of one-way steady slips solves the single long step if and only if it solves the
last of the short ones. Grain boundaries do not open. -/
theorem C105_step (run : List (RunGrain d e n N)) (_hb : ∀ r ∈ run, ∀ f, (r.views f).prm.decohesion = false)
    (dt : ℕ → ℝ) (hdt : ∀ k, 0 < dt k) (u : ℕ → ℕ → ℝ) (κ : ℕ → ℕ)
    (h0 : κ 0 = 0) (hκ : StrictMono κ) (M : ℕ) (h : ∀ r ∈ run, ∀ j < M, SpecOneWay r.run u κ j)
    (hs : ∀ r ∈ run, ∀ j < M, SpecSteady r.run dt u κ j) (K : Sol.Constraints ℕ) (m : ℕ) (j : ℕ) (hj : j < M) :
    SpecGrainSolution (SpecGrains (run.map (RunGrain.coarse κ)) (SpecTogether κ dt) (fun j => u (κ j)) j) K m
        (u (κ (j + 1))) ↔
      SpecGrainSolution (SpecGrains run dt u (κ (j + 1) - 1)) K m (u (κ (j + 1))) := by
  refine solution_congr _ ?_ K m
  unfold SpecGrains
  rw [List.map_map, List.forall₂_map_left_iff, List.forall₂_map_right_iff, List.forall₂_same]
  intro r hr
  refine ⟨rfl, fun i => ?_⟩
  have key := cell_coarse r.run dt hdt u κ h0 hκ M (h r hr) (hs r hr) j hj i
  unfold localRhs
  exact congrArg (fun x => Option.bind x _) key

/-- C105, runs: of a sequence of states that solves all time steps, those kept solve all time steps of the run with fewer
steps. -/
theorem C105_run (run : List (RunGrain d e n N)) (_hb : ∀ r ∈ run, ∀ f, (r.views f).prm.decohesion = false)
    (dt : ℕ → ℝ) (hdt : ∀ k, 0 < dt k) (u : ℕ → ℕ → ℝ) (κ : ℕ → ℕ)
    (h0 : κ 0 = 0) (hκ : StrictMono κ) (M : ℕ) (h : ∀ r ∈ run, ∀ j < M, SpecOneWay r.run u κ j)
    (hs : ∀ r ∈ run, ∀ j < M, SpecSteady r.run dt u κ j) (K : ℕ → Sol.Constraints ℕ) (m : ℕ)
    (hsol : ∀ k < κ M, SpecGrainSolution (SpecGrains run dt u k) (K k) m (u (k + 1)) ∧ Sol.Satisfies (K k) (u (k + 1))) :
    ∀ j < M, SpecGrainSolution (SpecGrains (run.map (RunGrain.coarse κ)) (SpecTogether κ dt) (fun j => u (κ j)) j)
        (K (κ (j + 1) - 1)) m (u (κ (j + 1))) ∧ Sol.Satisfies (K (κ (j + 1) - 1)) (u (κ (j + 1))) := by
  intro j hj
  have hlt : κ j < κ (j + 1) := hκ (Nat.lt_succ_self j)
  have hle : κ (j + 1) ≤ κ M := hκ.monotone (by omega)
  have := hsol (κ (j + 1) - 1) (by omega)
  rw [show κ (j + 1) - 1 + 1 = κ (j + 1) by omega] at this
  exact ⟨(C105_step run _hb dt hdt u κ h0 hκ M h hs _ m j hj).2 this.1, this.2⟩

/-! ## Opening grain boundaries -/

/-- The same for a cell of a run with opening grain boundaries. -/
def OpenGrain.coarse {J : ℕ} (κ : ℕ → ℕ) (r : OpenGrain d n N J) : OpenGrain d n N J :=
  ⟨⟨r.run.cell, fun j => r.run.supply (κ (j + 1) - 1)⟩, r.F, r.sees, r.B, fun j => r.loads (κ (j + 1) - 1)⟩

/-- What happens to the records in the run with fewer steps: any trial evaluations, and the opening recorded at the end of
the last of the replaced steps. -/
def SpecHappens {J : ℕ} (κ : ℕ → ℕ) (hap : Happens J) (trials : ℕ → Fin J → List IfaceOp) : Happens J :=
  ⟨trials, fun j => hap.measured (κ (j + 1) - 1)⟩

/-- In the replaced steps the grain boundary opens no more than at their end, or than ever before; and at the end it either
is less open than before, or at least as open as was recorded at the beginning and in the step before the end. -/
structure SpecOpensSteadily {J : ℕ} (face : Fin J → Face d e n N) (dmg : DamagePrm) (hap : Happens J) (u : ℕ → ℕ → ℝ)
    (κ : ℕ → ℕ) (j : ℕ) (f : Fin J) : Prop where
  most : ∀ k, κ j < k → k ≤ κ (j + 1) → SpecOpening (face f) (u k) ≤
    max (SpecRecord face dmg hap u f (κ j)).maxOpening (SpecOpening (face f) (u (κ (j + 1))))
  last : SpecOpening (face f) (u (κ (j + 1))) < (SpecRecord face dmg hap u f (κ j)).maxOpening ∨
    ((SpecRecord face dmg hap u f (κ j)).oldOpening ≤ SpecOpening (face f) (u (κ (j + 1))) ∧
     (SpecRecord face dmg hap u f (κ (j + 1) - 1)).oldOpening ≤ SpecOpening (face f) (u (κ (j + 1))))

theorem record_max {J : ℕ} (face : Fin J → Face d e n N) (dmg : DamagePrm) (hap : Happens J) (u : ℕ → ℕ → ℝ)
    (f : Fin J) (k : ℕ) : (SpecRecord face dmg hap u f (k + 1)).maxOpening =
      max (SpecRecord face dmg hap u f k).maxOpening (SpecOpening (face f) (u (k + 1))) :=
  (step_max dmg (SpecRecord face dmg hap u f k)
    ⟨hap.trials k f, SpecOpening (face f) (u (k + 1)), hap.measured k f⟩).1

theorem record_between {J : ℕ} (face : Fin J → Face d e n N) (dmg : DamagePrm) (hap : Happens J) (u : ℕ → ℕ → ℝ)
    (f : Fin J) (x y : ℕ) (X : ℝ) (h : ∀ k, x < k → k ≤ y → SpecOpening (face f) (u k) ≤
      max (SpecRecord face dmg hap u f x).maxOpening X) (i : ℕ) (hi : x + i ≤ y) :
    (SpecRecord face dmg hap u f x).maxOpening ≤ (SpecRecord face dmg hap u f (x + i)).maxOpening ∧
    (SpecRecord face dmg hap u f (x + i)).maxOpening ≤ max (SpecRecord face dmg hap u f x).maxOpening X := by
  induction i with
  | zero => exact ⟨le_rfl, le_max_left _ _⟩
  | succ i ih =>
    obtain ⟨h1, h2⟩ := ih (by omega)
    rw [← add_assoc, record_max]
    exact ⟨h1.trans (le_max_left _ _), max_le h2 (h _ (by omega) (by omega))⟩

theorem record_end {J : ℕ} (face : Fin J → Face d e n N) (dmg : DamagePrm) (hap : Happens J) (u : ℕ → ℕ → ℝ)
    (f : Fin J) {x y : ℕ} (hxy : x < y) (h : ∀ k, x < k → k ≤ y → SpecOpening (face f) (u k) ≤
      max (SpecRecord face dmg hap u f x).maxOpening (SpecOpening (face f) (u y))) :
    (SpecRecord face dmg hap u f y).maxOpening =
      max (SpecRecord face dmg hap u f x).maxOpening (SpecOpening (face f) (u y)) := by
  obtain ⟨h1, h2⟩ := record_between face dmg hap u f x y _ h (y - 1 - x) (by omega)
  rw [show x + (y - 1 - x) = y - 1 by omega] at h1 h2
  have h3 := record_max face dmg hap u f (y - 1)
  rw [show y - 1 + 1 = y by omega] at h3
  rw [h3]
  exact le_antisymm (max_le h2 (le_max_right _ _)) (max_le_max h1 le_rfl)

theorem record_old {J : ℕ} (face : Fin J → Face d e n N) (dmg : DamagePrm) (hap : Happens J) (u : ℕ → ℕ → ℝ)
    (f : Fin J) (k : ℕ) : (SpecRecord face dmg hap u f (k + 1)).oldOpening = hap.measured k f := rfl

/-- C105, records of opening grain boundaries: the largest opening, the damage and the recorded opening do not depend on the
number of steps. -/
theorem C105_record {J : ℕ} (face : Fin J → Face d e n N) (dmg : DamagePrm) (hap : Happens J)
    (trials : ℕ → Fin J → List IfaceOp) (u : ℕ → ℕ → ℝ) (κ : ℕ → ℕ) (h0 : κ 0 = 0) (hκ : StrictMono κ) (M : ℕ)
    (f : Fin J) (h : ∀ j < M, SpecOpensSteadily face dmg hap u κ j f) (j : ℕ) (hj : j ≤ M) :
    let fine := SpecRecord face dmg hap u f (κ j)
    let coarse := SpecRecord face dmg (SpecHappens κ hap trials) (fun j => u (κ j)) f j
    coarse.maxOpening = fine.maxOpening ∧ coarse.damage = fine.damage ∧ coarse.oldOpening = fine.oldOpening := by
  have hmax : ∀ j ≤ M, (SpecRecord face dmg (SpecHappens κ hap trials) (fun j => u (κ j)) f j).maxOpening =
      (SpecRecord face dmg hap u f (κ j)).maxOpening := by
    intro j hj
    induction j with
    | zero => rw [h0]; rfl
    | succ j ih =>
      rw [record_max, ih (by omega), record_end face dmg hap u f (hκ (Nat.lt_succ_self j)) (h j (by omega)).most]
  refine ⟨hmax j hj, ?_, ?_⟩
  · rw [(record_ok face dmg _ _ f j).2, (record_ok face dmg hap u f (κ j)).2, hmax j hj]
  · cases j with
    | zero => rw [h0]; rfl
    | succ j =>
      have hlt : κ j < κ (j + 1) := hκ (Nat.lt_succ_self j)
      have := record_old face dmg hap u f (κ (j + 1) - 1)
      rw [show κ (j + 1) - 1 + 1 = κ (j + 1) by omega] at this
      rw [this]
      rfl

theorem ops_old (dmg : DamagePrm) (ops : List IfaceOp) (s : Iface) :
    (ops.foldl (Iface.op dmg) s).oldOpening = s.oldOpening := by
  induction ops generalizing s with
  | nil => rfl
  | cons o ops ih => rw [List.foldl_cons, ih]; cases o <;> rfl

theorem traction_branch (c : Coh) (δ nrm : Vec d) {mx old old' t t' : ℝ}
    (h : branch (effOpening c δ nrm) mx old t = branch (effOpening c δ nrm) mx old' t') :
    c.traction δ nrm mx old t = c.traction δ nrm mx old' t' := by
  unfold Coh.traction
  dsimp only
  rw [h]

/-- The force of a face depends on what was recorded through the branch of the cohesive law only. -/
theorem face_hist (p : FacePrm d e) (t t' : ℝ) (kind : Kind n N) (cc cn : Crystal d n) (nrm : Vec d) (jxw : ℝ)
    (h h' : Iface) (cur nb : Side d n N) (u un : Fin N → ℝ) (i : Fin N) (h1 : h.maxOpening = h'.maxOpening)
    (h2 : h.damage = h'.damage)
    (h3 : branch (effOpening p.coh (opening cur nb u un) nrm) h.maxOpening h.oldOpening t =
      branch (effOpening p.coh (opening cur nb u un) nrm) h'.maxOpening h'.oldOpening t') :
    ({ p with dt := t } : FacePrm d e).rhsTerm kind cc cn nrm jxw h cur nb u un i =
      ({ p with dt := t' } : FacePrm d e).rhsTerm kind cc cn nrm jxw h' cur nb u un i := by
  have hd : ∀ t, ({ p with dt := t } : FacePrm d e).damage h = ({ p with dt := t' } : FacePrm d e).damage h' := by
    intro t
    unfold FacePrm.damage
    rw [h2]
  unfold FacePrm.rhsTerm
  rw [hd]
  cases kind i with
  | none =>
    rw [h1] at h3
    simp only [h1, traction_branch _ _ _ h3]
  | some a => rfl

theorem branch_steady {x mx old old' t t' : ℝ} (ht : 0 < t) (ht' : 0 < t')
    (h : x < mx ∨ (old ≤ x ∧ old' ≤ x)) : branch x mx old t = branch x mx old' t' := by
  unfold branch
  rcases h with h | ⟨h, h'⟩
  · simp only
    rw [if_neg (fun hc => absurd hc.1 h.ne), if_pos (Or.inl h), if_neg (fun hc => absurd hc.1 h.ne), if_pos (Or.inl h)]
  · have h1 : 0 ≤ (x - old) / t := div_nonneg (by linarith) ht.le
    have h2 : 0 ≤ (x - old') / t' := div_nonneg (by linarith) ht'.le
    simp only [h1, h2, not_lt.2 h1, not_lt.2 h2]

theorem look_opening (f : Face d e n N) (b : Bool) (u : ℕ → ℝ) :
    effOpening (SpecLook f b).2.prm.coh (opening (SpecLook f b).2.cur (SpecLook f b).2.nb (u ∘ (SpecLook f b).1)
      (u ∘ (SpecLook f b).2.nbDofs)) (SpecLook f b).2.nrm = SpecOpening f u := by
  cases b
  · rfl
  · unfold SpecOpening SpecLook
    show effOpening f.2.prm.coh (opening f.2.nb f.2.cur (u ∘ f.2.nbDofs) (u ∘ f.1)) (-f.2.nrm) = _
    rw [← effOpening_flip, neg_neg]
    congr 1
    unfold opening
    rw [neg_sub]

theorem look_force (kind : Kind n N) (dofs : Fin N → ℕ) (f : Face d e n N) (t t' : ℝ) (h h' : Iface) (b : Bool)
    (u : ℕ → ℝ) (i : Fin N) (h1 : h.maxOpening = h'.maxOpening) (h2 : h.damage = h'.damage)
    (h3 : branch (SpecOpening f u) h.maxOpening h.oldOpening t = branch (SpecOpening f u) h'.maxOpening h'.oldOpening t')
    (hd : dofs = (SpecLook f b).1) :
    let v := (SpecLook (f.1, { f.2 with prm := { f.2.prm with dt := t }, hist := h }) b).2
    let v' := (SpecLook (f.1, { f.2 with prm := { f.2.prm with dt := t' }, hist := h' }) b).2
    v.prm.rhsTerm kind v.own v.other v.nrm v.jxw v.hist v.cur v.nb (u ∘ dofs) (u ∘ v.nbDofs) i =
      v'.prm.rhsTerm kind v'.own v'.other v'.nrm v'.jxw v'.hist v'.cur v'.nb (u ∘ dofs) (u ∘ v'.nbDofs) i := by
  have lo := look_opening f b u
  rw [← lo] at h3
  subst hd
  cases b
  · exact face_hist f.2.prm t t' kind _ _ _ _ _ _ _ _ _ _ i h1 h2 h3
  · exact face_hist f.2.prm t t' kind _ _ _ _ _ _ _ _ _ _ i h1 h2 h3

/-- C105, runs in which grain boundaries open: of a sequence of states that solves all time steps, those kept solve all
time steps of the run with fewer steps. -/
theorem C105_run_opening {J : ℕ} (run : List (OpenGrain d n N J)) (face : Fin J → Face d e n N)
    (hside : ∀ r ∈ run, ∀ s, r.run.cell.dofs = (SpecLook (face (r.sees s).1) (r.sees s).2).1) (dmg : DamagePrm)
    (hap : Happens J) (trials : ℕ → Fin J → List IfaceOp) (dt : ℕ → ℝ) (hdt : ∀ k, 0 < dt k) (u : ℕ → ℕ → ℝ) (κ : ℕ → ℕ)
    (h0 : κ 0 = 0) (hκ : StrictMono κ) (M : ℕ) (h : ∀ r ∈ run, ∀ j < M, SpecOneWay r.run u κ j)
    (hs : ∀ r ∈ run, ∀ j < M, SpecSteady r.run dt u κ j)
    (ho : ∀ f, ∀ j < M, SpecOpensSteadily face dmg hap u κ j f) (K : ℕ → Sol.Constraints ℕ) (m : ℕ)
    (hsol : ∀ k < κ M, SpecGrainSolution (SpecOpenGrains run face dmg hap dt u k) (K k) m (u (k + 1)) ∧
      Sol.Satisfies (K k) (u (k + 1))) :
    ∀ j < M, SpecGrainSolution (SpecOpenGrains (run.map (OpenGrain.coarse κ)) face dmg (SpecHappens κ hap trials)
        (SpecTogether κ dt) (fun j => u (κ j)) j) (K (κ (j + 1) - 1)) m (u (κ (j + 1))) ∧
      Sol.Satisfies (K (κ (j + 1) - 1)) (u (κ (j + 1))) := by
  intro j hj
  have hlt : κ j < κ (j + 1) := hκ (Nat.lt_succ_self j)
  have hle : κ (j + 1) ≤ κ M := hκ.monotone (by omega)
  have hsolj := hsol (κ (j + 1) - 1) (by omega)
  rw [show κ (j + 1) - 1 + 1 = κ (j + 1) by omega] at hsolj
  refine ⟨(solution_congr _ ?_ _ m).2 hsolj.1, hsolj.2⟩
  unfold SpecOpenGrains
  rw [List.map_map, List.forall₂_map_left_iff, List.forall₂_map_right_iff, List.forall₂_same]
  intro r hr
  refine ⟨rfl, fun i => ?_⟩
  have key := cell_coarse r.run dt hdt u κ h0 hκ M (h r hr) (hs r hr) j hj i
  have htog : 0 < SpecTogether κ dt j := sum_pos (fun k _ => hdt k) ⟨κ j, mem_Ico.2 ⟨le_rfl, hlt⟩⟩
  unfold localRhs
  refine (congrArg (fun x => Option.bind x _) key).trans ?_
  congr 1
  funext x
  congr 1
  congr 1
  funext s
  obtain ⟨c1, c2, c3⟩ := C105_record face dmg hap trials u κ h0 hκ M (r.sees s).1 (ho _) j hj.le
  have f1 := record_trial face dmg (SpecHappens κ hap trials) (SpecTogether κ dt) (fun j => u (κ j)) j (r.sees s).1
  have f2 := record_trial face dmg hap dt u (κ (j + 1) - 1) (r.sees s).1
  rw [show κ (j + 1) - 1 + 1 = κ (j + 1) by omega] at f2
  obtain ⟨e1, e2, _⟩ := C105_record face dmg hap trials u κ h0 hκ M (r.sees s).1 (ho _) (j + 1) hj
  have g1 := f1.1.trans (e1.trans f2.1.symm)
  have g2 := f1.2.trans (e2.trans f2.2.symm)
  have o1 : (SpecFaceAt face dmg (SpecHappens κ hap trials) (SpecTogether κ dt) (fun j => u (κ j)) j (r.sees s).1).2.hist.oldOpening =
      (SpecRecord face dmg hap u (r.sees s).1 (κ j)).oldOpening := by
    rw [← c3]
    exact ops_old dmg _ _
  have o2 : (SpecFaceAt face dmg hap dt u (κ (j + 1) - 1) (r.sees s).1).2.hist.oldOpening =
      (SpecRecord face dmg hap u (r.sees s).1 (κ (j + 1) - 1)).oldOpening := ops_old dmg _ _
  have hb : branch (SpecOpening (face (r.sees s).1) (u (κ (j + 1))))
      (SpecFaceAt face dmg (SpecHappens κ hap trials) (SpecTogether κ dt) (fun j => u (κ j)) j (r.sees s).1).2.hist.maxOpening
      (SpecFaceAt face dmg (SpecHappens κ hap trials) (SpecTogether κ dt) (fun j => u (κ j)) j (r.sees s).1).2.hist.oldOpening
      (SpecTogether κ dt j) =
      branch (SpecOpening (face (r.sees s).1) (u (κ (j + 1))))
      (SpecFaceAt face dmg hap dt u (κ (j + 1) - 1) (r.sees s).1).2.hist.maxOpening
      (SpecFaceAt face dmg hap dt u (κ (j + 1) - 1) (r.sees s).1).2.hist.oldOpening (dt (κ (j + 1) - 1)) := by
    rw [g1, o1, o2, f2.1]
    refine branch_steady htog (hdt _) ?_
    rcases (ho (r.sees s).1 j hj).last with hl | hl
    · left
      rw [record_end face dmg hap u _ hlt (ho (r.sees s).1 j hj).most]
      exact lt_max_of_lt_left hl
    · exact Or.inr hl
  exact look_force r.run.cell.kind r.run.cell.dofs (face (r.sees s).1) (SpecTogether κ dt j) (dt (κ (j + 1) - 1)) _ _
    (r.sees s).2 (u (κ (j + 1))) i g1 g2 hb (hside r hr s)

/-! ## Examples -/

theorem exSlip (r : RunCell d n N) (w : ℕ → ℝ) (q : Fin r.cell.Q) (a : Fin n) (k : ℕ) :
    SpecSlip r (fun k i => (k : ℝ) * w i) q a k = k * (r.cell.pts q).shape.slip (w ∘ r.cell.dofs) a := by
  unfold SpecSlip Shape.slip
  rw [mul_sum]
  exact sum_congr rfl fun j _ => by simp only [Function.comp_apply]; ring

/-- Proportional paths are one-way and steady. -/
theorem exProportional (r : RunCell d n N) (w : ℕ → ℝ) (j : ℕ) :
    SpecOneWay r (fun k i => (k : ℝ) * w i) (fun j => 3 * j) j ∧
    SpecSteady r (fun _ => 1) (fun k i => (k : ℝ) * w i) (fun j => 3 * j) j := by
  constructor
  · intro q a
    rcases le_total 0 ((r.cell.pts q).shape.slip (w ∘ r.cell.dofs) a) with h | h
    · left
      intro x _ y _ hxy
      rw [exSlip, exSlip]
      exact mul_le_mul_of_nonneg_right (by exact_mod_cast hxy) h
    · right
      intro x _ y _ hxy
      rw [exSlip, exSlip]
      exact mul_le_mul_of_nonpos_right (by exact_mod_cast hxy) h
  · intro q a
    right
    rw [exSlip, exSlip, exSlip]
    unfold SpecTogether
    rw [sum_const, Nat.card_Ico, show 3 * (j + 1) - 3 * j = 3 by omega, show 3 * (j + 1) - 1 = 3 * j + 2 by omega]
    push_cast
    norm_num
    ring

/-- Two grains: three steps along a proportional path are one step. -/
example (w : ℕ → ℝ) (K : Sol.Constraints ℕ) (j : ℕ) :=
  C105_step exRun (fun r hr f => by
    rcases List.mem_cons.1 hr with rfl | hr
    · rfl
    · obtain rfl := List.mem_singleton.1 hr; rfl) (fun _ => 1) (fun _ => one_pos) (fun k i => (k : ℝ) * w i)
    (fun j => 3 * j) rfl (fun _ _ h => by simp only; omega) (j + 1) (fun r _ j _ => (exProportional r.run w j).1)
    (fun r _ j _ => (exProportional r.run w j).2) K 4 j (Nat.lt_succ_self j)

/-- The grain boundary of the example opens steadily when the normal displacement jump grows. -/
theorem exOpens (w : ℕ → ℝ) (hw : 0 ≤ w 2 - w 0) (j : ℕ) (f : Fin 1) :
    SpecOpensSteadily exOpen exDamage ⟨fun _ _ => [.update 9, .reset], fun k _ => ((k : ℝ) + 1) * (w 2 - w 0)⟩
      (fun k i => (k : ℝ) * w i) (fun j => 3 * j) j f := by
  obtain rfl : f = 0 := Subsingleton.elim _ _
  have ho : ∀ k : ℕ, SpecOpening (exOpen 0) (fun i => (k : ℝ) * w i) = k * (w 2 - w 0) := fun k => by
    rw [exOpen_opening _ (by rw [← mul_sub]; positivity)]; ring
  have hold : ∀ k x : ℕ, k ≤ x → (SpecRecord exOpen exDamage
      ⟨fun _ _ => [.update 9, .reset], fun k _ => ((k : ℝ) + 1) * (w 2 - w 0)⟩ (fun k i => (k : ℝ) * w i) 0 k).oldOpening ≤
        x * (w 2 - w 0) := by
    intro k x hx
    cases k with
    | zero => exact mul_nonneg (by positivity) hw
    | succ k =>
      rw [record_old]
      exact mul_le_mul_of_nonneg_right (by exact_mod_cast hx) hw
  refine ⟨fun k _ h2 => ?_, Or.inr ⟨?_, ?_⟩⟩
  · rw [ho, ho]
    exact le_max_of_le_right (mul_le_mul_of_nonneg_right (by exact_mod_cast h2) hw)
  · rw [ho]; exact hold _ _ (by omega)
  · rw [ho]; exact hold _ _ (by omega)

/-- Two grains whose boundary opens: the hypotheses of `C105_run_opening` hold. -/
example (w : ℕ → ℝ) (hw : 0 ≤ w 2 - w 0) (p q : ℕ → ℝ) (trials : ℕ → Fin 1 → List IfaceOp) (K : ℕ → Sol.Constraints ℕ)
    (M : ℕ) :=
  C105_run_opening (exOpenRun p q) exOpen (fun r hr s => by
    rcases List.mem_cons.1 hr with rfl | hr
    · rfl
    · obtain rfl := List.mem_singleton.1 hr; rfl) exDamage _ trials (fun _ => 1) (fun _ => one_pos)
    (fun k i => (k : ℝ) * w i) (fun j => 3 * j) rfl (fun _ _ h => by simp only; omega) M
    (fun r _ j _ => (exProportional r.run w j).1) (fun r _ j _ => (exProportional r.run w j).2)
    (fun f j _ => exOpens w hw j f) K 4

/-- Slips that go back and forth harden the material; one step does not show that. -/
example : let b := Bulk.init ⟨10, 100, 1, 1, false⟩ 1
    ((b.update ![1] ![0]).store.update ![0] ![1]).res 0 = 210 ∧ (b.update ![0] ![0]).res 0 = 10 := by
  intro b
  have hp : (b.update ![1] ![0]).store.prm = b.prm := update_prm _ _ _
  constructor
  · rw [C17_hardening_law _ _ _ _ (by rw [hp]; rfl), hp]
    show (b.update ![1] ![0]).res 0 + _ = _
    rw [C17_hardening_law _ _ _ _ rfl]
    norm_num [b, Bulk.init]
  · rw [C17_hardening_law _ _ _ _ rfl]
    norm_num [b, Bulk.init]

end Verif.Asm
