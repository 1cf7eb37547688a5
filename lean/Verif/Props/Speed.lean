import Verif.Props.ReversalRun
import Verif.Props.Decohesion
import Verif.Model.Loading

/-!
# Speed of loading: C104
-/

namespace Verif.Asm
open Matrix Finset Verif.Cry Verif.Hist Verif.Micro Verif.Lin Verif.Itf

variable {d e n N : ℕ}

/-! ## Specification -/

/-- Two materials and time steps that differ in nothing but the size of the time step and the regularisation parameter
of the slip rate: both sizes are multiplied by some number and the parameter is divided by it, or the material is
rate-independent. -/
structure SpecPace (c c' : CellPrm d n) : Prop where
  same : c' = { c with dt := c'.dt, law := { c.law with k := c'.law.k } }
  pace : (∃ l > 0, c'.dt = l * c.dt ∧ c'.law.k = c.law.k / l) ∨
    (c.law.rateIndependent = true ∧ 0 < c.dt ∧ 0 < c'.dt)

/-- The same for a grain boundary. -/
structure SpecFacePace (v v' : View d e n N) : Prop where
  same : v' = { v with prm := { v.prm with dt := v'.prm.dt } }
  pace : v.prm.decohesion = false ∨ ∃ l > 0, v'.prm.dt = l * v.prm.dt

/-- The same for a cell. -/
structure SpecCellPace (g g' : GrainCell d e n N) : Prop where
  cell : ∃ prm, SpecPace g.cell.prm prm ∧ g'.cell = { g.cell with prm := prm }
  views : ∃ views, (∀ f, SpecFacePace (g.views f) (views f)) ∧
    g' = ⟨g'.cell, g.F, views, g.B, g.loads⟩

/-! ## Laws -/

theorem reg_pace (f : RegFn) (k x : ℝ) {l : ℝ} (hl : 0 < l) : reg f (k / l) (x / l) = reg f k x := by
  have h0 := hl.ne'
  have h : ∀ c : ℝ, c * (x / l) / (k / l) = c * x / k := fun c => by
    rw [← mul_div_assoc, div_div_div_cancel_right₀ h0]
  cases f with
  | atan => simp only [reg, h]
  | sqrt =>
    simp only [reg]
    rw [show x / l * (x / l) + k / l * (k / l) = (x * x + k * k) / l ^ 2 by field_simp,
      Real.sqrt_div' _ (by positivity), Real.sqrt_sq hl.le, div_div_div_cancel_right₀ h0]
  | gd => simp only [reg, h]
  | tanh => simp only [reg, div_div_div_cancel_right₀ h0]
  | erf => simp only [reg, h]

theorem regDeriv_pace (f : RegFn) (k x : ℝ) {l : ℝ} (hl : 0 < l) :
    regDeriv f (k / l) (x / l) = l * regDeriv f k x := by
  have h0 := hl.ne'
  have h : ∀ c : ℝ, c * (x / l) / (k / l) = c * x / k := fun c => by
    rw [← mul_div_assoc, div_div_div_cancel_right₀ h0]
  cases f with
  | atan =>
    simp only [regDeriv]
    rw [show k / l * (k / l) + Real.pi * Real.pi * (x / l) * (x / l) / 4 =
      (k * k + Real.pi * Real.pi * x * x / 4) / l ^ 2 by field_simp, div_div_eq_mul_div]
    field_simp
  | sqrt =>
    simp only [regDeriv]
    have hA : 0 ≤ x * x + k * k := by nlinarith [mul_self_nonneg x, mul_self_nonneg k]
    rw [show x / l * (x / l) + k / l * (k / l) = (x * x + k * k) / l ^ 2 by field_simp,
      Real.div_rpow hA (by positivity), show (l ^ 2) ^ (1.5 : ℝ) = l ^ 3 by
        rw [← Real.rpow_natCast, ← Real.rpow_mul hl.le, ← Real.rpow_natCast]; norm_num]
    rw [div_div_eq_mul_div]
    field_simp
  | gd => simp only [regDeriv, h]; rw [div_div_eq_mul_div]; field_simp
  | tanh =>
    simp only [regDeriv, div_div_div_cancel_right₀ h0]; rw [div_div_eq_mul_div]; field_simp
  | erf =>
    simp only [regDeriv]
    rw [show -Real.pi * (x / l) * (x / l) / (k / l) / (k / l) / 4 = -Real.pi * x * x / k / k / 4 by
      rcases eq_or_ne k 0 with rfl | hk
      · simp
      · field_simp]
    rw [one_div, inv_div, one_div]
    ring

theorem sgn_pos_div (x : ℝ) {t : ℝ} (ht : 0 < t) : sgn (x / t) = sgn x := by
  have h1 : 0 < x / t ↔ 0 < x := by rw [lt_div_iff₀ ht, zero_mul]
  have h2 : x / t < 0 ↔ x < 0 := by rw [div_lt_iff₀ ht, zero_mul]
  unfold sgn
  simp only [h1, h2]

/-- C104, laws: microstresses and tangents are the same. -/
theorem C104_laws {c c' : CellPrm d n} (h : SpecPace c c') (b : Bulk n) (slips old : Fin n → ℝ) (i j : Fin n) :
    c'.law.evalMicrostress b slips old c'.dt i = c.law.evalMicrostress b slips old c.dt i ∧
    c'.law.evalJacobian b slips old c'.dt i j = c.law.evalJacobian b slips old c.dt i j := by
  have hlaw : c'.law = { c.law with k := c'.law.k } := by
    have := h.same
    generalize hk : c'.law.k = k at this
    generalize ht : c'.dt = t at this
    subst this
    rfl
  obtain ⟨⟨f, k, ri, hard⟩, t, k', t', e1⟩ : ∃ (l : Law) (t k' t' : ℝ), c.law = l ∧ c.dt = t ∧ c'.law.k = k' ∧ c'.dt = t' :=
    ⟨_, _, _, _, rfl, rfl, rfl, rfl⟩
  obtain ⟨e1, e2, e3, e4⟩ := e1
  have hp := h.pace
  rw [e3] at hlaw hp
  rw [hlaw, e1, e2, e4]
  rw [e1, e2, e4] at hp
  unfold Law.evalMicrostress Law.evalJacobian Law.microstress Law.jacobian
  simp only
  rcases hp with ⟨l, hl, rfl, rfl⟩ | ⟨hri, h1, h2⟩
  · have hr : ∀ i, (slips i - old i) / (l * t) = (slips i - old i) / t / l := fun i => by
      rw [mul_comm, div_div]
    simp only [hr, reg_pace _ _ _ hl, regDeriv_pace _ _ _ hl, sgn_pos_div _ hl]
    refine ⟨trivial, ?_⟩
    congr 1
    split_ifs
    · rw [show (b.update slips old).res i / (l * t) = (b.update slips old).res i / t / l by rw [mul_comm, div_div]]
      field_simp
    · rfl
  · simp only [] at hri
    subst hri
    simp only [if_true, sgn_pos_div _ h1, sgn_pos_div _ h2, Bool.true_eq_false, and_false, if_false]
    trivial

theorem branch_pace (x mx old dt : ℝ) {l : ℝ} (hl : 0 < l) : branch x mx old (l * dt) = branch x mx old dt := by
  have e : (x - old) / (l * dt) = (x - old) / dt / l := by rw [mul_comm, div_div]
  have h1 : 0 ≤ (x - old) / dt / l ↔ 0 ≤ (x - old) / dt := by rw [le_div_iff₀ hl, zero_mul]
  have h2 : (x - old) / dt / l < 0 ↔ (x - old) / dt < 0 := by rw [div_lt_iff₀ hl, zero_mul]
  unfold branch
  rw [e]
  simp only [h1, h2]

/-- C104, opening grain boundaries: tractions and tangents are the same. -/
theorem C104_cohesive (c : Coh) (δ nrm : Vec d) (mx old dt : ℝ) {l : ℝ} (hl : 0 < l) :
    c.traction δ nrm mx old (l * dt) = c.traction δ nrm mx old dt ∧
    c.jacobian δ nrm mx old (l * dt) = c.jacobian δ nrm mx old dt := by
  unfold Coh.traction Coh.jacobian
  simp only [branch_pace _ _ _ _ hl]
  exact ⟨trivial, trivial⟩

/-! ## Assembly -/

theorem C104_cell {c c' : CellPrm d n} (h : SpecPace c c') (kind : Kind n N) {Q : ℕ} (pts : Fin Q → Point d n N)
    (u : Fin N → ℝ) (i j : Fin N) :
    c'.rhs kind pts u i = c.rhs kind pts u i ∧ c'.mat kind pts u i j = c.mat kind pts u i j := by
  have hl := fun b (s o : Fin n → ℝ) i j => C104_laws h b s o i j
  have hs := h.same
  generalize hL : c'.law = L at hl hs
  generalize hT : c'.dt = T at hl hs
  subst hs
  simp only at hL hT hl
  constructor
  · unfold CellPrm.rhs CellPrm.rhsTerm
    congr 1
    funext q
    cases kind i with
    | none => rfl
    | some a =>
      simp only [hL, (hl _ _ _ a a).1]
      rfl
  · unfold CellPrm.mat CellPrm.matTerm
    congr 1
    funext q
    cases kind i with
    | none => cases kind j <;> rfl
    | some a =>
      cases kind j with
      | none => rfl
      | some b =>
        simp only [hL, (hl _ _ _ a b).2]
        rfl

theorem face_pace {v v' : View d e n N} (h : SpecFacePace v v') (kind : Kind n N) (u un : Fin N → ℝ) (i j : Fin N) :
    v'.prm.rhsTerm kind v'.own v'.other v'.nrm v'.jxw v'.hist v'.cur v'.nb u un i =
      v.prm.rhsTerm kind v.own v.other v.nrm v.jxw v.hist v.cur v.nb u un i ∧
    v'.prm.localTerm kind v'.own v'.nrm v'.jxw v'.hist v'.cur v'.nb u un i j =
      v.prm.localTerm kind v.own v.nrm v.jxw v.hist v.cur v.nb u un i j ∧
    v'.prm.couplingTerm kind v'.own v'.other v'.nrm v'.jxw v'.hist v'.cur v'.nb u un i j =
      v.prm.couplingTerm kind v.own v.other v.nrm v.jxw v.hist v.cur v.nb u un i j ∧ v'.nbDofs = v.nbDofs := by
  have hs := h.same
  have hp := h.pace
  generalize v'.prm.dt = T at hs hp
  subst hs
  refine ⟨?_, ?_, ?_, rfl⟩
  · unfold FacePrm.rhsTerm
    cases kind i with
    | none =>
      rcases hp with hp | ⟨l, hl, rfl⟩
      · simp [hp]
      · simp only [(C104_cohesive _ _ _ _ _ _ hl).1]; rfl
    | some a => rfl
  · unfold FacePrm.localTerm
    cases kind i with
    | none =>
      cases kind j with
      | none =>
        rcases hp with hp | ⟨l, hl, rfl⟩
        · simp [hp]
        · simp only [(C104_cohesive _ _ _ _ _ _ hl).2]; rfl
      | some b => rfl
    | some a => cases kind j <;> rfl
  · unfold FacePrm.couplingTerm
    cases kind i with
    | none =>
      cases kind j with
      | none =>
        rcases hp with hp | ⟨l, hl, rfl⟩
        · simp [hp]
        · simp only [(C104_cohesive _ _ _ _ _ _ hl).2]; rfl
      | some b => rfl
    | some a => cases kind j <;> rfl

theorem localRhs_pace {g g' : GrainCell d e n N} (h : SpecCellPace g g') (u : ℕ → ℝ) (i : Fin N) :
    localRhs g'.cell.prm g'.cell.kind g'.cell.pts g'.cell.dofs g'.views g'.loads u i =
      localRhs g.cell.prm g.cell.kind g.cell.pts g.cell.dofs g.views g.loads u i := by
  obtain ⟨prm, hprm, hc⟩ := h.cell
  obtain ⟨views, hv, hg⟩ := h.views
  have hn : ∀ f, (views f).nbDofs = (g.views f).nbDofs := fun f => by rw [(hv f).same]
  rw [hg, hc]
  unfold localRhs
  simp only [hn]
  rw [(C104_cell hprm g.cell.kind g.cell.pts (u ∘ g.cell.dofs) i i).1]
  simp only [fun f => (face_pace (hv f) g.cell.kind (u ∘ g.cell.dofs) (u ∘ (g.views f).nbDofs) i i).1]

theorem forall_ofFn {α β : Type*} {F : ℕ} (f f' : Fin F → α) (P : α → β → Prop)
    (h : ∀ i b, P (f' i) b ↔ P (f i) b) (l : List β) :
    List.Forall₂ P (List.ofFn f') l ↔ List.Forall₂ P (List.ofFn f) l := by
  rw [List.forall₂_iff_get, List.forall₂_iff_get]
  simp only [List.length_ofFn, List.get_ofFn]
  refine and_congr_right fun _ => forall_congr' fun i => forall_congr' fun h1 => forall_congr' fun h2 => ?_
  exact h _ _

/-- C104, assembly: the cells hand over the same vectors and matrices in every state, so that linear systems, solution
algorithms and line searches see no difference. -/
theorem C104_handed {cells cells' : List (GrainCell d e n N)} (h : List.Forall₂ SpecCellPace cells cells') (u : ℕ → ℝ)
    (l : List (Local N)) : SpecHanded cells' u l ↔ SpecHanded cells u l := by
  unfold SpecHanded
  induction h generalizing l with
  | nil => exact Iff.rfl
  | @cons g g' cells cells' hg _ ih =>
    cases l with
    | nil => constructor <;> intro h <;> cases h
    | cons a l =>
      rw [List.forall₂_cons, List.forall₂_cons, ih l]
      refine and_congr_left fun _ => ?_
      simp only [localRhs_pace hg]
      obtain ⟨prm, hprm, hc⟩ := hg.cell
      obtain ⟨views, hv, hg'⟩ := hg.views
      have hn : ∀ f, (views f).nbDofs = (g.views f).nbDofs := fun f => by rw [(hv f).same]
      rw [hg', hc]
      simp only [(C104_cell hprm g.cell.kind g.cell.pts (u ∘ g.cell.dofs) _ _).2, hn,
        fun f i j => (face_pace (hv f) g.cell.kind (u ∘ g.cell.dofs) (u ∘ (g.views f).nbDofs) i j).2.1]
      rw [forall_ofFn g.views views _ (fun f b => by
        simp only [hn, fun i j =>
          (face_pace (hv f) g.cell.kind (u ∘ g.cell.dofs) (u ∘ (g.views f).nbDofs) i j).2.2.1])]

/-! ## Solutions and runs -/

/-- What is a solution depends on the local right-hand sides only. -/
theorem solution_congr {cells cells' : List (GrainCell d e n N)} (u : ℕ → ℝ)
    (h : List.Forall₂ (fun g g' : GrainCell d e n N => g'.cell.dofs = g.cell.dofs ∧
      ∀ i, localRhs g'.cell.prm g'.cell.kind g'.cell.pts g'.cell.dofs g'.views g'.loads u i =
        localRhs g.cell.prm g.cell.kind g.cell.pts g.cell.dofs g.views g.loads u i) cells cells')
    (K : Sol.Constraints ℕ) (m : ℕ) :
    SpecGrainSolution cells' K m u ↔ SpecGrainSolution cells K m u := by
  have canon : ∀ cells : List (GrainCell d e n N), SpecGrainSolution cells K m u ↔
      (∀ g ∈ cells, ∀ i, localRhs g.cell.prm g.cell.kind g.cell.pts g.cell.dofs g.views g.loads u i ≠ none) ∧
      ∀ r < m, Lin.residual K (cells.map fun g => (⟨g.cell.dofs, fun _ _ => 0,
        fun i => (localRhs g.cell.prm g.cell.kind g.cell.pts g.cell.dofs g.views g.loads u i).getD 0, fun _ => 0, []⟩ :
          Local N)) r = 0 := by
    intro cells
    constructor
    · rintro ⟨R, hR, h0⟩
      refine ⟨fun g hg i => by rw [hR g hg i]; exact Option.some_ne_none _, fun r hr => ?_⟩
      refine Eq.trans ?_ (h0 r hr)
      congr 1
      refine List.map_congr_left fun g hg => ?_
      unfold GrainCell.local
      congr 1
      funext i
      rw [hR g hg i]
      rfl
    · rintro ⟨h1, h2⟩
      refine ⟨fun g i => (localRhs g.cell.prm g.cell.kind g.cell.pts g.cell.dofs g.views g.loads u i).getD 0,
        fun g hg i => ?_, h2⟩
      obtain ⟨x, hx⟩ := Option.ne_none_iff_exists'.1 (h1 g hg i)
      simp only [hx]
      rfl
  rw [canon, canon]
  refine and_congr ?_ ?_
  · clear canon
    induction h with
    | nil => simp
    | cons hg _ ih =>
      rw [List.forall_mem_cons, List.forall_mem_cons, ih]
      simp only [hg.2]
  · have e : (cells'.map fun g => (⟨g.cell.dofs, fun _ _ => 0,
        fun i => (localRhs g.cell.prm g.cell.kind g.cell.pts g.cell.dofs g.views g.loads u i).getD 0, fun _ => 0, []⟩ :
          Local N)) = cells.map fun g => (⟨g.cell.dofs, fun _ _ => 0,
        fun i => (localRhs g.cell.prm g.cell.kind g.cell.pts g.cell.dofs g.views g.loads u i).getD 0, fun _ => 0, []⟩ :
          Local N) := by
      clear canon
      induction h with
      | nil => rfl
      | cons hg _ ih =>
        rw [List.map_cons, List.map_cons, ih]
        congr 1
        show Local.mk _ _ _ _ _ = Local.mk _ _ _ _ _
        congr 1
        · exact hg.1
        · funext i
          exact congrArg (·.getD 0) (hg.2 i)
    rw [e]

/-- C104, one time step: the solutions are the same. -/
theorem C104_solution {cells cells' : List (GrainCell d e n N)} (h : List.Forall₂ SpecCellPace cells cells')
    (K : Sol.Constraints ℕ) (m : ℕ) (u : ℕ → ℝ) :
    SpecGrainSolution cells' K m u ↔ SpecGrainSolution cells K m u := by
  refine solution_congr u (h.imp fun g g' hg => ⟨?_, localRhs_pace hg u⟩) K m
  obtain ⟨prm, _, hc⟩ := hg.cell
  rw [hc]

/-- The cell of a run at another speed: with regularisation parameter `k / l`, and grain boundaries that are told the
`l`-fold size of the time step. -/
noncomputable def RunGrain.slowed (l : ℝ) (r : RunGrain d e n N) : RunGrain d e n N :=
  ⟨⟨{ r.run.cell with prm := { r.run.cell.prm with law := { r.run.cell.prm.law with k := r.run.cell.prm.law.k / l } } },
    r.run.supply⟩, r.F, fun f => { r.views f with prm := { (r.views f).prm with dt := l * (r.views f).prm.dt } },
    r.B, r.loads⟩

theorem cell_slowed (r : RunCell d n N) (l : ℝ) (dt : ℕ → ℝ) (u : ℕ → ℕ → ℝ) (k : ℕ) :
    (RunCell.at ⟨{ r.cell with prm := { r.cell.prm with law := { r.cell.prm.law with k := r.cell.prm.law.k / l } } },
      r.supply⟩ (fun k => l * dt k) u k) = { r.at dt u k with prm := { r.cell.prm with
        dt := l * dt k, law := { r.cell.prm.law with k := r.cell.prm.law.k / l } } } := by
  have hh : ∀ q, RunCell.histAt ⟨{ r.cell with prm := { r.cell.prm with
      law := { r.cell.prm.law with k := r.cell.prm.law.k / l } } }, r.supply⟩ u q k = r.histAt u q k := by
    intro q
    induction k with
    | zero => rfl
    | succ k ih => simp only [RunCell.histAt, ih]
  have e1 : (fun q => (⟨(r.cell.pts q).shape, r.supply k q, RunCell.histAt ⟨{ r.cell with prm := { r.cell.prm with
      law := { r.cell.prm.law with k := r.cell.prm.law.k / l } } }, r.supply⟩ u q k,
      (r.cell.pts q).shape.slip (u k ∘ r.cell.dofs)⟩ : Point d n N)) =
      fun q => ⟨(r.cell.pts q).shape, r.supply k q, r.histAt u q k,
      (r.cell.pts q).shape.slip (u k ∘ r.cell.dofs)⟩ := funext fun q => congrArg (fun h => Point.mk _ _ h _) (hh q)
  exact congrArg (fun pts => (⟨{ r.cell.prm with
    dt := l * dt k, law := { r.cell.prm.law with k := r.cell.prm.law.k / l } }, r.cell.kind,
    r.cell.dofs, r.cell.Q, pts⟩ : MeshCell d n N)) e1

theorem at_slowed (r : RunGrain d e n N) {l : ℝ} (hl : 0 < l) (dt : ℕ → ℝ) (u : ℕ → ℕ → ℝ) (k : ℕ) :
    SpecCellPace (r.at dt u k) ((r.slowed l).at (fun k => l * dt k) u k) := by
  exact ⟨⟨_, ⟨rfl, Or.inl ⟨l, hl, rfl, rfl⟩⟩, cell_slowed r.run l dt u k⟩,
    ⟨fun f => { r.views f with prm := { (r.views f).prm with dt := l * (r.views f).prm.dt } },
      fun f => ⟨rfl, Or.inr ⟨l, hl, rfl⟩⟩, rfl⟩⟩

/-- C104, whole runs: the states that solve all time steps are the same when all steps are `l` times as long and the
regularisation parameter is divided by `l`. -/
theorem C104_run (run : List (RunGrain d e n N)) {l : ℝ} (hl : 0 < l) (K : ℕ → Sol.Constraints ℕ) (m : ℕ) (dt : ℕ → ℝ)
    (u : ℕ → ℕ → ℝ) (T : ℕ) :
    (∀ k < T, SpecGrainSolution (SpecGrains (run.map (RunGrain.slowed l)) (fun k => l * dt k) u k) (K k) m (u (k + 1)) ∧
      Sol.Satisfies (K k) (u (k + 1))) ↔
    ∀ k < T, SpecGrainSolution (SpecGrains run dt u k) (K k) m (u (k + 1)) ∧ Sol.Satisfies (K k) (u (k + 1)) := by
  refine forall_congr' fun k => imp_congr_right fun _ => and_congr_left fun _ => ?_
  refine C104_solution ?_ (K k) m (u (k + 1))
  unfold SpecGrains
  rw [List.map_map, List.forall₂_map_left_iff, List.forall₂_map_right_iff, List.forall₂_same]
  exact fun r _ => at_slowed r hl dt u k

/-- C104, rate-independent runs: with bonded grain boundaries the states that solve all time steps are the same for any
two sequences of positive step sizes. -/
theorem C104_run_independent (run : List (RunGrain d e n N)) (hri : ∀ r ∈ run, r.run.cell.prm.law.rateIndependent = true)
    (hb : ∀ r ∈ run, ∀ f, (r.views f).prm.decohesion = false)
    (K : ℕ → Sol.Constraints ℕ) (m : ℕ) (dt dt' : ℕ → ℝ) (hdt : ∀ k, 0 < dt k) (hdt' : ∀ k, 0 < dt' k)
    (u : ℕ → ℕ → ℝ) (T : ℕ) :
    (∀ k < T, SpecGrainSolution (SpecGrains run dt' u k) (K k) m (u (k + 1)) ∧ Sol.Satisfies (K k) (u (k + 1))) ↔
    ∀ k < T, SpecGrainSolution (SpecGrains run dt u k) (K k) m (u (k + 1)) ∧ Sol.Satisfies (K k) (u (k + 1)) := by
  refine forall_congr' fun k => imp_congr_right fun _ => and_congr_left fun _ => ?_
  refine C104_solution ?_ (K k) m (u (k + 1))
  unfold SpecGrains
  rw [List.forall₂_map_left_iff, List.forall₂_map_right_iff, List.forall₂_same]
  exact fun r hr => ⟨⟨_, ⟨rfl, Or.inr ⟨hri r hr, hdt k, hdt' k⟩⟩, rfl⟩, ⟨r.views, fun f => ⟨rfl, Or.inl (hb r hr f)⟩, rfl⟩⟩

/-- The same for a cell of a run with opening grain boundaries. -/
noncomputable def OpenGrain.slowed {J : ℕ} (l : ℝ) (r : OpenGrain d n N J) : OpenGrain d n N J :=
  ⟨⟨{ r.run.cell with prm := { r.run.cell.prm with law := { r.run.cell.prm.law with k := r.run.cell.prm.law.k / l } } },
    r.run.supply⟩, r.F, r.sees, r.B, r.loads⟩

theorem look_pace {J : ℕ} (face : Fin J → Face d e n N) (dmg : DamagePrm) (hap : Happens J) (dt dt' : ℕ → ℝ)
    (u : ℕ → ℕ → ℝ) (k : ℕ) (s : Fin J × Bool) {l : ℝ} (hl : 0 < l) (h : dt' k = l * dt k) :
    SpecFacePace (SpecLook (SpecFaceAt face dmg hap dt u k s.1) s.2).2
      (SpecLook (SpecFaceAt face dmg hap dt' u k s.1) s.2).2 := by
  obtain ⟨j, b⟩ := s
  cases b
  · exact ⟨rfl, Or.inr ⟨l, hl, h⟩⟩
  · exact ⟨rfl, Or.inr ⟨l, hl, h⟩⟩

/-- C104, runs in which grain boundaries open, with damage, contact and whatever happens to the records in between. -/
theorem C104_run_opening {J : ℕ} (run : List (OpenGrain d n N J)) (face : Fin J → Face d e n N) (dmg : DamagePrm)
    (hap : Happens J) {l : ℝ} (hl : 0 < l) (K : ℕ → Sol.Constraints ℕ) (m : ℕ) (dt : ℕ → ℝ)
    (u : ℕ → ℕ → ℝ) (T : ℕ) :
    (∀ k < T, SpecGrainSolution (SpecOpenGrains (run.map (OpenGrain.slowed l)) face dmg hap (fun k => l * dt k) u k)
      (K k) m (u (k + 1)) ∧ Sol.Satisfies (K k) (u (k + 1))) ↔
    ∀ k < T, SpecGrainSolution (SpecOpenGrains run face dmg hap dt u k) (K k) m (u (k + 1)) ∧
      Sol.Satisfies (K k) (u (k + 1)) := by
  refine forall_congr' fun k => imp_congr_right fun _ => and_congr_left fun _ => ?_
  refine C104_solution ?_ (K k) m (u (k + 1))
  unfold SpecOpenGrains
  rw [List.map_map, List.forall₂_map_left_iff, List.forall₂_map_right_iff, List.forall₂_same]
  intro r _
  exact ⟨⟨_, ⟨rfl, Or.inl ⟨l, hl, rfl, rfl⟩⟩, cell_slowed r.run l dt u k⟩,
    ⟨_, fun f => look_pace face dmg hap dt (fun k => l * dt k) u k (r.sees f) hl rfl, rfl⟩⟩

/-- C104, rate-independent runs, grain boundaries opening or not: the states that solve all time steps are the same for
any two sequences of positive step sizes. -/
theorem C104_run_opening_independent {J : ℕ} (run : List (OpenGrain d n N J)) (face : Fin J → Face d e n N)
    (dmg : DamagePrm) (hap : Happens J) (hri : ∀ r ∈ run, r.run.cell.prm.law.rateIndependent = true)
    (K : ℕ → Sol.Constraints ℕ) (m : ℕ) (dt dt' : ℕ → ℝ) (hdt : ∀ k, 0 < dt k) (hdt' : ∀ k, 0 < dt' k)
    (u : ℕ → ℕ → ℝ) (T : ℕ) :
    (∀ k < T, SpecGrainSolution (SpecOpenGrains run face dmg hap dt' u k) (K k) m (u (k + 1)) ∧
      Sol.Satisfies (K k) (u (k + 1))) ↔
    ∀ k < T, SpecGrainSolution (SpecOpenGrains run face dmg hap dt u k) (K k) m (u (k + 1)) ∧
      Sol.Satisfies (K k) (u (k + 1)) := by
  refine forall_congr' fun k => imp_congr_right fun _ => and_congr_left fun _ => ?_
  refine C104_solution ?_ (K k) m (u (k + 1))
  unfold SpecOpenGrains
  rw [List.forall₂_map_left_iff, List.forall₂_map_right_iff, List.forall₂_same]
  exact fun r hr => ⟨⟨_, ⟨rfl, Or.inr ⟨hri r hr, hdt k, hdt' k⟩⟩, rfl⟩,
    ⟨_, fun f => look_pace face dmg hap dt dt' u k (r.sees f) (div_pos (hdt' k) (hdt k))
      (div_mul_cancel₀ _ (hdt k).ne').symm, rfl⟩⟩

/-! ## Examples -/

/-- Two grains in a state that solves a time step, and the same state at half the speed. -/
example (u : ℕ → ℝ) : ∃ p q, SpecGrainSolution
    [{ exLeft p with cell := { (exLeft p).cell with prm := { (exLeft p).cell.prm with
        dt := 2 * (exLeft p).cell.prm.dt, law := { (exLeft p).cell.prm.law with k := (exLeft p).cell.prm.law.k / 2 } } } },
     { exRight q with cell := { (exRight q).cell with prm := { (exRight q).cell.prm with
        dt := 2 * (exRight q).cell.prm.dt, law := { (exRight q).cell.prm.law with
          k := (exRight q).cell.prm.law.k / 2 } } } }] exHeld 4 u := by
  obtain ⟨p, q, R, hR, h⟩ := exPoly_solution u
  refine ⟨p, q, (C104_solution (cells := [exLeft p, exRight q]) ?_ exHeld 4 u).2 ⟨R, hR, h⟩⟩
  have hc : ∀ g : GrainCell 2 1 1 2, (∀ f, (g.views f).prm.decohesion = false) → SpecCellPace g
      { g with cell := { g.cell with prm := { g.cell.prm with
        dt := 2 * g.cell.prm.dt, law := { g.cell.prm.law with k := g.cell.prm.law.k / 2 } } } } := fun g hb =>
    ⟨⟨_, ⟨rfl, Or.inl ⟨2, by norm_num, rfl, rfl⟩⟩, rfl⟩, ⟨g.views, fun f => ⟨rfl, Or.inl (hb f)⟩, rfl⟩⟩
  exact .cons (hc _ (exBonded p q _ List.mem_cons_self))
    (.cons (hc _ (exBonded p q _ (List.mem_cons_of_mem _ List.mem_cons_self))) .nil)

/-- A run of two grains whose boundary opens. -/
example (p q : ℕ → ℝ) (K : ℕ → Sol.Constraints ℕ) (u : ℕ → ℕ → ℝ) (T : ℕ) :=
  C104_run_opening (exOpenRun p q) exOpen exDamage exHappens (l := 10) (by norm_num) K 4 (fun _ => 1) u T

/-- Rate-dependent material does depend on the speed of loading when only the time step changes. -/
example : reg .sqrt 1 (1 / 1) ≠ reg .sqrt 1 ((1 : ℝ) / 2) := by
  simp only [reg]
  intro h
  have h1 : Real.sqrt (1 / 1 * (1 / 1) + 1 * 1) ^ 2 = 2 := by rw [Real.sq_sqrt] <;> norm_num
  have h2 : Real.sqrt (1 / 2 * (1 / 2) + 1 * 1) ^ 2 = 5 / 4 := by rw [Real.sq_sqrt] <;> norm_num
  have p1 : 0 < Real.sqrt (1 / 1 * (1 / 1) + 1 * 1) := Real.sqrt_pos.2 (by norm_num)
  have p2 : 0 < Real.sqrt (1 / 2 * (1 / 2) + 1 * 1) := Real.sqrt_pos.2 (by norm_num)
  rw [div_eq_div_iff p1.ne' p2.ne'] at h
  nlinarith [congrArg (· ^ 2) h]

end Verif.Asm

/-! ## Load programme -/

namespace Verif.Load

/-- The load programme at another speed: all durations are multiplied by `l`, the loads per unit of time are divided by it.
The numbers of steps and cycles are the same. -/
noncomputable def Prog.slowed (l : ℝ) (p : Prog) : Prog :=
  { p with start := l * p.start, durMono := l * p.durMono, durLoad := l * p.durLoad, period := l * p.period,
           maxLoad := p.maxLoad / l, minLoad := p.minLoad / l }

theorem slowed_end (l : ℝ) (p : Prog) : (p.slowed l).endTime = l * p.endTime := by
  unfold Prog.endTime Prog.slowed
  cases p.type with
  | monotonic => simp only; ring
  | cyclic => simp only; ring

theorem slowed_step (l : ℝ) (p : Prog) (k : ℕ) : (p.slowed l).stepSize k = l * p.stepSize k := by
  have h1 : (p.slowed l).dtLoad = l * p.dtLoad := by unfold Prog.dtLoad Prog.slowed; ring
  have h2 : (p.slowed l).dtMono = l * p.dtMono := by unfold Prog.dtMono Prog.slowed; ring
  have h3 : (p.slowed l).dtCyclic = l * p.dtCyclic := by unfold Prog.dtCyclic Prog.slowed; ring
  unfold Prog.stepSize
  rw [h1, h2, h3]
  show (match p.type with
    | .monotonic => l * p.dtMono
    | .cyclic => if k < p.nLoad then l * p.dtLoad
      else if k < p.nLoad + 4 * p.nQuarter * p.nCycles then l * p.dtCyclic else l * p.dtLoad) = _
  cases p.type with
  | monotonic => rfl
  | cyclic => simp only; split_ifs <;> rfl

theorem slowed_time {l : ℝ} (hl : 0 < l) (p : Prog) (tol : ℝ) (k : ℕ) : (p.slowed l).time tol k = l * p.time tol k := by
  induction k with
  | zero => rfl
  | succ k ih =>
    simp only [Prog.time]
    rw [ih, slowed_step, slowed_end]
    unfold nextTime
    have : (l * p.endTime - tol * (l * p.stepSize k) < l * p.time tol k + l * p.stepSize k) ↔
        p.endTime - tol * p.stepSize k < p.time tol k + p.stepSize k := by
      rw [show l * p.endTime - tol * (l * p.stepSize k) = l * (p.endTime - tol * p.stepSize k) by ring, ← mul_add,
        mul_lt_mul_iff_right₀ hl]
    by_cases h : p.endTime - tol * p.stepSize k < p.time tol k + p.stepSize k
    · rw [if_pos h, if_pos (this.2 h)]
    · rw [if_neg h, if_neg (fun h' => h (this.1 h')), mul_add]

/-- C104, load programme: with durations multiplied by `l` and loads divided by it the run makes the same number of steps,
all of them `l` times as long, restarts the extrapolation in the same ones, and prescribes the same boundary values
in them. -/
theorem C104_programme {l : ℝ} (hl : 0 < l) (p : Prog) (tol : ℝ) (k : ℕ) :
    (p.slowed l).stepSize k = l * p.stepSize k ∧
    (p.slowed l).time tol k = l * p.time tol k ∧
    ((p.slowed l).entered tol k ↔ p.entered tol k) ∧
    (p.slowed l).skip k = p.skip k ∧
    ∀ dim nC height charDisp comp decohesion c,
      (Control.new (p.slowed l) dim nC height charDisp comp decohesion).value ((p.slowed l).time tol k) c =
        (Control.new p dim nC height charDisp comp decohesion).value (p.time tol k) c := by
  refine ⟨slowed_step l p k, slowed_time hl p tol k, ?_, rfl, fun dim nC height charDisp comp decohesion c => ?_⟩
  · unfold Prog.entered
    simp only [slowed_time hl, slowed_end, mul_lt_mul_iff_right₀ hl]
  · unfold Control.value
    have : (Control.new (p.slowed l) dim nC height charDisp comp decohesion).load ((p.slowed l).time tol k) =
        (Control.new p dim nC height charDisp comp decohesion).load (p.time tol k) := by
      show (p.slowed l).time tol k * height * (p.maxLoad / l) = p.time tol k * height * p.maxLoad
      rw [slowed_time hl]
      field_simp
    rw [this]
    rfl

/-- Two cycles after a loading phase, at a tenth of the speed. -/
example := C104_programme (l := 10) (by norm_num) ⟨.cyclic, 0, 0.1, -0.1, 1, 10, 1, 20, 2, 1, 10, false⟩ 0.05 21

end Verif.Load
