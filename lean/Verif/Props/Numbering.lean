import Verif.Props.GrainRun

/-!
# Results do not depend on how cells and degrees of freedom are numbered and distributed: C124
-/

namespace Verif.Asm
open Matrix Finset Verif.Cry Verif.Hist Verif.Micro Verif.Lin Verif.Mono

variable {d e n N : ℕ}

/-! ## Specification -/

/-- The same constraint line in the numbering `σ`. -/
def SpecLine (σ : Equiv.Perm ℕ) (l : Sol.Line ℕ) : Sol.Line ℕ := ⟨l.entries.map fun e => (σ e.1, e.2), l.inhom⟩

/-- `K'` are the constraints `K` in the numbering `σ`. -/
def SpecSameConstraints (σ : Equiv.Perm ℕ) (K K' : Sol.Constraints ℕ) : Prop :=
  ∀ g, K' (σ g) = (K g).map (SpecLine σ)

/-- The entry of `g` in `x` is the entry of `σ g` in `x'`. -/
def SpecSameVector (σ : Equiv.Perm ℕ) (x x' : ℕ → ℝ) : Prop := ∀ g, x' (σ g) = x g

/-- The renumbering keeps the `m` degrees of freedom apart from all other numbers. -/
def SpecWithin (σ : Equiv.Perm ℕ) (m : ℕ) : Prop := ∀ g, σ g < m ↔ g < m

/-- The same cell with renumbered degrees of freedom. -/
def MeshCell.numbered (σ : Equiv.Perm ℕ) (c : MeshCell d n N) : MeshCell d n N :=
  ⟨c.prm, c.kind, σ ∘ c.dofs, c.Q, c.pts⟩

/-- The same cell of a run with renumbered degrees of freedom. -/
def RunCell.numbered (σ : Equiv.Perm ℕ) (r : RunCell d n N) : RunCell d n N := ⟨r.cell.numbered σ, r.supply⟩

/-- What a cell hands over to the global assembly, with renumbered degrees of freedom. -/
def SpecLocal (σ : Equiv.Perm ℕ) (a : Local N) : Local N :=
  ⟨σ ∘ a.dofs, a.mat, a.rhs, a.diag, a.couplings.map fun b => (σ ∘ b.1, b.2)⟩

/-- The cells of the processes `procs'` are those of the processes `procs`, in the numbering `σ`, in whatever order and
on whatever processes. -/
def SpecSameBody (σ : Equiv.Perm ℕ) (procs procs' : List (List (RunCell d n N))) : Prop :=
  procs'.flatten.Perm (procs.flatten.map (RunCell.numbered σ))

/-- A grain boundary face as one of its cells sees it, the neighbour's degrees of freedom renumbered. -/
def View.numbered (σ : Equiv.Perm ℕ) (f : View d e n N) : View d e n N :=
  ⟨f.prm, f.own, f.other, f.nrm, f.jxw, f.hist, f.cur, f.nb, σ ∘ f.nbDofs⟩

/-- The same cell of a polycrystal with renumbered degrees of freedom, its own and those of its neighbours. -/
def GrainCell.numbered (σ : Equiv.Perm ℕ) (g : GrainCell d e n N) : GrainCell d e n N :=
  ⟨g.cell.numbered σ, g.F, fun k => (g.views k).numbered σ, g.B, g.loads⟩

/-- The same cell of a run of a polycrystal. -/
def RunGrain.numbered (σ : Equiv.Perm ℕ) (r : RunGrain d e n N) : RunGrain d e n N :=
  ⟨r.run.numbered σ, r.F, fun k => (r.views k).numbered σ, r.B, r.loads⟩

/-- The cells of the polycrystal on the processes `procs'` are those on the processes `procs`, in the numbering `σ`. -/
def SpecSameGrains (σ : Equiv.Perm ℕ) (procs procs' : List (List (RunGrain d e n N))) : Prop :=
  procs'.flatten.Perm (procs.flatten.map (RunGrain.numbered σ))

/-! ## Helpers -/

theorem weight_numbered {σ : Equiv.Perm ℕ} {K K' : Sol.Constraints ℕ} (h : SpecSameConstraints σ K K') (g r : ℕ) :
    weight K' (σ g) (σ r) = weight K g r := by
  unfold weight
  rw [h g]
  cases K g with
  | none => simp
  | some l =>
    simp only [Option.map_some, SpecLine, List.map_map]
    congr 1
    refine List.map_congr_left fun e _ => ?_
    simp

theorem residual_perm {K : Sol.Constraints ℕ} {a b : List (Local N)} (h : a.Perm b) (r : ℕ) :
    Lin.residual K a r = Lin.residual K b r := (h.map _).sum_eq

theorem residual_numbered {σ : Equiv.Perm ℕ} {K K' : Sol.Constraints ℕ} (h : SpecSameConstraints σ K K')
    {a a' : List (Local N)} (ha : a'.Perm (a.map (SpecLocal σ))) (r : ℕ) :
    Lin.residual K' a' (σ r) = Lin.residual K a r := by
  rw [residual_perm ha]
  unfold Lin.residual
  rw [List.map_map]
  congr 1
  refine List.map_congr_left fun c _ => ?_
  simp only [Function.comp_apply, SpecLocal]
  exact sum_congr rfl fun i _ => by rw [weight_numbered h]

theorem jacobian_numbered {σ : Equiv.Perm ℕ} {K K' : Sol.Constraints ℕ} (h : SpecSameConstraints σ K K')
    {a a' : List (Local N)} (ha : a'.Perm (a.map (SpecLocal σ))) (r s : ℕ) :
    Lin.jacobian K' a' (σ r) (σ s) = Lin.jacobian K a r s := by
  have e : Lin.jacobian K' a' (σ r) (σ s) = Lin.jacobian K' (a.map (SpecLocal σ)) (σ r) (σ s) := (ha.map _).sum_eq
  rw [e]
  unfold Lin.jacobian
  rw [List.map_map]
  congr 1
  refine List.map_congr_left fun c _ => ?_
  simp only [Function.comp_apply, SpecLocal, List.map_map]
  have e1 : K' (σ r) ≠ none ↔ K r ≠ none := by rw [h r]; simp
  congr 1
  · congr 1
    · exact sum_congr rfl fun i _ => sum_congr rfl fun j _ => by rw [weight_numbered h, weight_numbered h]
    · refine sum_congr rfl fun i _ => if_congr ?_ rfl rfl
      rw [e1, σ.injective.eq_iff, σ.injective.eq_iff]
  · congr 1
    refine List.map_congr_left fun b _ => ?_
    simp only [Function.comp_apply]
    exact sum_congr rfl fun i _ => sum_congr rfl fun j _ => by rw [weight_numbered h, weight_numbered h]

theorem sum_numbered {σ : Equiv.Perm ℕ} {m : ℕ} (hσ : SpecWithin σ m) (f : ℕ → ℝ) :
    ∑ g ∈ range m, f (σ g) = ∑ g ∈ range m, f g := by
  refine sum_nbij' σ σ.symm ?_ ?_ ?_ ?_ ?_
  · intro g hg; rw [mem_range] at hg ⊢; exact (hσ g).2 hg
  · intro g hg
    rw [mem_range] at hg ⊢
    rw [← hσ (σ.symm g), Equiv.apply_symm_apply]
    exact hg
  · intro g _; exact σ.symm_apply_apply g
  · intro g _; exact σ.apply_symm_apply g
  · intro g _; rfl

theorem length_numbered {σ : Equiv.Perm ℕ} {m : ℕ} (hσ : SpecWithin σ m) {x x' : ℕ → ℝ} (h : SpecSameVector σ x x') :
    SpecLength m x' = SpecLength m x := by
  unfold SpecLength
  rw [← sum_numbered hσ]
  congr 1
  exact sum_congr rfl fun g _ => by rw [h g]

theorem same_sub {σ : Equiv.Perm ℕ} {x x' y y' : ℕ → ℝ} (h : SpecSameVector σ x x') (k : SpecSameVector σ y y') :
    SpecSameVector σ (x - y) (x' - y') := fun g => by
  rw [Pi.sub_apply, Pi.sub_apply, h g, k g]

theorem eval_numbered {σ : Equiv.Perm ℕ} {x x' : ℕ → ℝ} (h : SpecSameVector σ x x') (l : Sol.Line ℕ) :
    (SpecLine σ l).eval x' = l.eval x := by
  unfold Sol.Line.eval SpecLine
  rw [List.map_map]
  congr 2
  refine List.map_congr_left fun e _ => ?_
  simp only [Function.comp_apply]
  rw [h]

theorem distribute_numbered {σ : Equiv.Perm ℕ} {K K' : Sol.Constraints ℕ} (h : SpecSameConstraints σ K K')
    {x x' : ℕ → ℝ} (hx : SpecSameVector σ x x') : SpecSameVector σ (Sol.distribute K x) (Sol.distribute K' x') := by
  intro g
  unfold Sol.distribute
  rw [h g]
  cases K g with
  | none => exact hx g
  | some l => exact eval_numbered hx l

theorem satisfies_numbered {σ : Equiv.Perm ℕ} {K K' : Sol.Constraints ℕ} (h : SpecSameConstraints σ K K')
    {x x' : ℕ → ℝ} (hx : SpecSameVector σ x x') (hs : Sol.Satisfies K x) : Sol.Satisfies K' x' := by
  intro g' l' hl
  obtain ⟨g, rfl⟩ := σ.surjective g'
  rw [h g] at hl
  cases hK : K g with
  | none => rw [hK] at hl; cases hl
  | some l =>
    rw [hK] at hl
    obtain rfl : SpecLine σ l = l' := by simpa using hl
    rw [eval_numbered hx, hx g]
    exact hs g l hK

theorem same_symm {σ : Equiv.Perm ℕ} {x x' : ℕ → ℝ} (h : SpecSameVector σ x x') : SpecSameVector σ.symm x' x := by
  intro g
  rw [← h, Equiv.apply_symm_apply]

theorem constraints_symm {σ : Equiv.Perm ℕ} {K K' : Sol.Constraints ℕ} (h : SpecSameConstraints σ K K') :
    SpecSameConstraints σ.symm K' K := by
  intro g
  have := h (σ.symm g)
  rw [Equiv.apply_symm_apply] at this
  rw [this]
  cases K (σ.symm g) with
  | none => rfl
  | some l =>
    obtain ⟨e, b⟩ := l
    simp [SpecLine, Function.comp_def]

theorem within_symm {σ : Equiv.Perm ℕ} {m : ℕ} (h : SpecWithin σ m) : SpecWithin σ.symm m := by
  intro g
  rw [← h (σ.symm g), Equiv.apply_symm_apply]

theorem numbered_numbered (σ τ : Equiv.Perm ℕ) (h : ∀ g, τ (σ g) = g) (r : RunCell d n N) :
    (r.numbered σ).numbered τ = r := by
  obtain ⟨⟨p, k, f, Q, pts⟩, s⟩ := r
  have : τ ∘ σ ∘ f = f := funext fun i => h _
  show (⟨⟨p, k, τ ∘ σ ∘ f, Q, pts⟩, s⟩ : RunCell d n N) = ⟨⟨p, k, f, Q, pts⟩, s⟩
  generalize τ ∘ σ ∘ f = f' at this
  subst this
  rfl

theorem mesh_numbered_numbered (σ τ : Equiv.Perm ℕ) (h : ∀ g, τ (σ g) = g) (c : MeshCell d n N) :
    (c.numbered σ).numbered τ = c := by
  obtain ⟨p, k, f, Q, pts⟩ := c
  unfold MeshCell.numbered
  have : τ ∘ σ ∘ f = f := funext fun i => h _
  simp only [this]

theorem body_symm {σ : Equiv.Perm ℕ} {procs procs' : List (List (RunCell d n N))} (h : SpecSameBody σ procs procs') :
    SpecSameBody σ.symm procs' procs := by
  unfold SpecSameBody at h ⊢
  have := (h.map (RunCell.numbered σ.symm)).symm
  rw [List.map_map] at this
  have e : (RunCell.numbered σ.symm ∘ RunCell.numbered σ : RunCell d n N → RunCell d n N) = id :=
    funext fun r => numbered_numbered σ σ.symm σ.symm_apply_apply r
  rwa [e, List.map_id] at this

theorem hist_numbered {σ : Equiv.Perm ℕ} {u u' : ℕ → ℕ → ℝ} (hu : ∀ k, SpecSameVector σ (u k) (u' k))
    (r : RunCell d n N) (q : Fin r.cell.Q) (k : ℕ) : (r.numbered σ).histAt u' q k = r.histAt u q k := by
  have e : ∀ k, u' k ∘ (r.numbered σ).cell.dofs = u k ∘ r.cell.dofs := fun k => funext fun i => hu k _
  induction k with
  | zero => rfl
  | succ k ih =>
    show (((r.numbered σ).histAt u' q k).update ((r.cell.pts q).shape.slip (u' (k + 1) ∘ (r.numbered σ).cell.dofs))
      ((r.cell.pts q).shape.slip (u' k ∘ (r.numbered σ).cell.dofs))).store = _
    rw [e, e, ih]
    rfl

theorem at_numbered {σ : Equiv.Perm ℕ} {u u' : ℕ → ℕ → ℝ} (hu : ∀ k, SpecSameVector σ (u k) (u' k))
    (r : RunCell d n N) (dt : ℕ → ℝ) (k : ℕ) : (r.numbered σ).at dt u' k = (r.at dt u k).numbered σ := by
  have e : u' k ∘ (r.numbered σ).cell.dofs = u k ∘ r.cell.dofs := funext fun i => hu k _
  unfold RunCell.at MeshCell.numbered
  rw [e]
  congr 1
  funext q
  have := hist_numbered hu r q k
  exact congrArg (fun b => (⟨(r.cell.pts q).shape, r.supply k q, b, (r.cell.pts q).shape.slip (u k ∘ r.cell.dofs)⟩ :
    Point d n N)) this

theorem mesh_numbered {σ : Equiv.Perm ℕ} {procs procs' : List (List (RunCell d n N))}
    (h : SpecSameBody σ procs procs') {u u' : ℕ → ℕ → ℝ} (hu : ∀ k, SpecSameVector σ (u k) (u' k)) (dt : ℕ → ℝ) (k : ℕ) :
    (SpecMesh procs'.flatten dt u' k).Perm ((SpecMesh procs.flatten dt u k).map (MeshCell.numbered σ)) := by
  unfold SpecMesh
  have := h.map fun r : RunCell d n N => r.at dt u' k
  rw [List.map_map] at this
  rw [List.map_map]
  have e : ((fun r : RunCell d n N => r.at dt u' k) ∘ RunCell.numbered σ) =
      (MeshCell.numbered σ ∘ fun r : RunCell d n N => r.at dt u k) := funext fun r => at_numbered hu r dt k
  rwa [e] at this

/-! ## Property: one linear system -/

/-- C124: in another numbering, with the cells in another order, the Jacobian and the residual have the same entries, the
residual has the same norm, and the Newton update that solves the linearised equations is the same. -/
theorem C124_newton (σ : Equiv.Perm ℕ) (m : ℕ) (hσ : SpecWithin σ m) (K K' : Sol.Constraints ℕ)
    (hK : SpecSameConstraints σ K K') (cells cells' : List (Local N)) (hcells : cells'.Perm (cells.map (SpecLocal σ))) :
    (∀ r s, Lin.jacobian K' cells' (σ r) (σ s) = Lin.jacobian K cells r s) ∧
    (∀ r, Lin.residual K' cells' (σ r) = Lin.residual K cells r) ∧
    SpecLength m (Lin.residual K' cells') = SpecLength m (Lin.residual K cells) ∧
    ∀ x x', SpecSameVector σ x x' → (SolvesAll K cells m x ↔ SolvesAll K' cells' m x') ∧
      SpecSameVector σ (newtonUpdate K x) (newtonUpdate K' x') := by
  have hj := jacobian_numbered hK hcells
  have hr := residual_numbered hK hcells
  refine ⟨hj, hr, length_numbered hσ hr, fun x x' hx => ⟨?_, distribute_numbered hK hx⟩⟩
  have key : ∀ r, ∑ c ∈ range m, Lin.jacobian K' cells' (σ r) c * x' c = ∑ c ∈ range m, Lin.jacobian K cells r c * x c := by
    intro r
    rw [← sum_numbered hσ]
    exact sum_congr rfl fun c _ => by rw [hj, hx]
  constructor
  · intro h r hr'
    obtain ⟨g, rfl⟩ := σ.surjective r
    rw [key, hr]
    exact h g ((hσ g).1 hr')
  · intro h r hr'
    rw [← key, ← hr]
    exact h (σ r) ((hσ r).2 hr')

/-! ## Property: the equations and the runs -/

/-- C124: a state has, in another numbering and with the cells in another order, the residual vector it had. -/
theorem C124_residual (σ : Equiv.Perm ℕ) (m : ℕ) (hσ : SpecWithin σ m) (K K' : Sol.Constraints ℕ)
    (hK : SpecSameConstraints σ K K') (cells cells' : List (MeshCell d n N))
    (hcells : cells'.Perm (cells.map (MeshCell.numbered σ))) (u u' r r' : ℕ → ℝ) (hu : SpecSameVector σ u u')
    (hr : SpecSameVector σ r r') (h : SpecResidualVector cells K m u r) : SpecResidualVector cells' K' m u' r' := by
  obtain ⟨R, hR, hres⟩ := h
  refine ⟨fun c => R (c.numbered σ.symm), fun c' hc' i => ?_, fun g' hg' => ?_⟩
  · obtain ⟨c, hc, rfl⟩ := List.mem_map.1 (hcells.mem_iff.1 hc')
    dsimp only
    rw [mesh_numbered_numbered σ σ.symm σ.symm_apply_apply]
    have e : u' ∘ (c.numbered σ).dofs = u ∘ c.dofs := funext fun i => hu _
    rw [e]
    exact hR c hc i
  · obtain ⟨g, rfl⟩ := σ.surjective g'
    rw [hr g, ← hres g ((hσ g).1 hg')]
    refine residual_numbered hK ?_ g
    have := hcells.map fun c => c.local fun c => R (c.numbered σ.symm)
    rw [List.map_map] at this ⊢
    refine this.trans (List.Perm.of_eq (List.map_congr_left fun c _ => ?_))
    simp only [Function.comp_apply, MeshCell.local, SpecLocal, List.map_nil]
    rw [mesh_numbered_numbered σ σ.symm σ.symm_apply_apply]
    rfl

/-- C124: the runs in one numbering and distribution over processes are the runs in any other, renumbered. -/
theorem C124_run (σ : Equiv.Perm ℕ) (m : ℕ) (hσ : SpecWithin σ m) (K K' : Sol.Constraints ℕ)
    (hK : SpecSameConstraints σ K K') (procs procs' : List (List (RunCell d n N))) (hbody : SpecSameBody σ procs procs')
    (dt : ℕ → ℝ) (B B' : ℕ → ℕ → ℝ) (hB : ∀ k, SpecSameVector σ (B k) (B' k)) (u u' : ℕ → ℕ → ℝ)
    (hu : ∀ k, SpecSameVector σ (u k) (u' k)) :
    (SpecRun procs.flatten dt K m B u ↔ SpecRun procs'.flatten dt K' m B' u') ∧
    ∀ tol T, SpecComputed procs.flatten dt K m B tol T u ↔ SpecComputed procs'.flatten dt K' m B' tol T u' := by
  have step : ∀ (σ : Equiv.Perm ℕ), SpecWithin σ m → ∀ (K K' : Sol.Constraints ℕ), SpecSameConstraints σ K K' →
      ∀ (procs procs' : List (List (RunCell d n N))), SpecSameBody σ procs procs' → ∀ (B B' u u' : ℕ → ℕ → ℝ),
      (∀ k, SpecSameVector σ (B k) (B' k)) → (∀ k, SpecSameVector σ (u k) (u' k)) →
      ∀ k r, Sol.Satisfies K (u (k + 1) - B k) ∧ SpecResidualVector (SpecMesh procs.flatten dt u k) K m (u (k + 1)) r →
        Sol.Satisfies K' (u' (k + 1) - B' k) ∧
          SpecResidualVector (SpecMesh procs'.flatten dt u' k) K' m (u' (k + 1)) (r ∘ σ.symm) := by
    intro σ hσ K K' hK procs procs' hbody B B' u u' hB hu k r h
    refine ⟨satisfies_numbered hK (same_sub (hu (k + 1)) (hB k)) h.1, ?_⟩
    exact C124_residual σ m hσ K K' hK _ _ (mesh_numbered hbody hu dt k) _ _ _ _ (hu (k + 1))
      (fun g => by simp) h.2
  have run : ∀ (σ : Equiv.Perm ℕ), SpecWithin σ m → ∀ (K K' : Sol.Constraints ℕ), SpecSameConstraints σ K K' →
      ∀ (procs procs' : List (List (RunCell d n N))), SpecSameBody σ procs procs' → ∀ (B B' u u' : ℕ → ℕ → ℝ),
      (∀ k, SpecSameVector σ (B k) (B' k)) → (∀ k, SpecSameVector σ (u k) (u' k)) →
      SpecRun procs.flatten dt K m B u → SpecRun procs'.flatten dt K' m B' u' := by
    intro σ hσ K K' hK procs procs' hbody B B' u u' hB hu h k
    obtain ⟨h1, R, h2, h3⟩ := h k
    exact step σ hσ K K' hK procs procs' hbody B B' u u' hB hu k 0 ⟨h1, R, h2, h3⟩
  have comp : ∀ (σ : Equiv.Perm ℕ), SpecWithin σ m → ∀ (K K' : Sol.Constraints ℕ), SpecSameConstraints σ K K' →
      ∀ (procs procs' : List (List (RunCell d n N))), SpecSameBody σ procs procs' → ∀ (B B' u u' : ℕ → ℕ → ℝ),
      (∀ k, SpecSameVector σ (B k) (B' k)) → (∀ k, SpecSameVector σ (u k) (u' k)) → ∀ tol T,
      SpecComputed procs.flatten dt K m B tol T u → SpecComputed procs'.flatten dt K' m B' tol T u' := by
    intro σ hσ K K' hK procs procs' hbody B B' u u' hB hu tol T h k hk
    obtain ⟨h1, r, h2, h3⟩ := h k hk
    obtain ⟨s1, s2⟩ := step σ hσ K K' hK procs procs' hbody B B' u u' hB hu k r ⟨h1, h2⟩
    refine ⟨s1, _, s2, ?_⟩
    rwa [length_numbered hσ (x := r) (fun g => by simp)]
  exact ⟨⟨run σ hσ K K' hK procs procs' hbody B B' u u' hB hu, run σ.symm (within_symm hσ) K' K (constraints_symm hK)
      procs' procs (body_symm hbody) B' B u' u (fun k => same_symm (hB k)) fun k => same_symm (hu k)⟩,
    fun tol T => ⟨comp σ hσ K K' hK procs procs' hbody B B' u u' hB hu tol T, comp σ.symm (within_symm hσ) K' K
      (constraints_symm hK) procs' procs (body_symm hbody) B' B u' u (fun k => same_symm (hB k))
      (fun k => same_symm (hu k)) tol T⟩⟩

/-- C124: whatever two sets of processes the cells are distributed over, in whatever order, and however the degrees of
freedom are numbered, for every number of steps and every distance there is a tolerance with which the two computed runs
stay within that distance of each other. -/
theorem C124_results (σ : Equiv.Perm ℕ) (m : ℕ) (hσ : SpecWithin σ m) (K K' : Sol.Constraints ℕ)
    (hK : SpecSameConstraints σ K K') (procs procs' : List (List (RunCell d n N))) (hbody : SpecSameBody σ procs procs')
    (dt : ℕ → ℝ) (hst : SpecStableRun procs.flatten dt K m) (B B' : ℕ → ℕ → ℝ)
    (hB : ∀ k, SpecSameVector σ (B k) (B' k)) (u₀ u₀' : ℕ → ℝ) (h₀ : SpecSameVector σ u₀ u₀') (T : ℕ) (ε : ℝ) (hε : 0 < ε) :
    ∃ tol > 0, ∀ v v', v 0 = u₀ → v' 0 = u₀' → SpecComputed procs.flatten dt K m B tol T v →
      SpecComputed procs'.flatten dt K' m B' tol T v' → ∀ k ≤ T, ∀ g < m, |v' k (σ g) - v k g| < ε := by
  obtain ⟨u, hu0, hu⟩ := C119_exists _ dt K m hst B u₀
  obtain ⟨tol, ht, h⟩ := C119_tolerance _ dt K m hst B u hu T (ε / 2) (by positivity)
  refine ⟨tol, ht, fun v v' hv hv' hc hc' k hk g hg => ?_⟩
  have hw : ∀ k, SpecSameVector σ (fun g => v' k (σ g)) (v' k) := fun k g => rfl
  have hcw := ((C124_run σ m hσ K K' hK procs procs' hbody dt B B' hB (fun k g => v' k (σ g)) v' hw).2 tol T).2 hc'
  have hz : ∀ x : ℕ → ℝ, x = u₀ → SpecLength m (x - u 0) ≤ tol := by
    rintro x rfl
    rw [hu0, sub_self]
    simp [SpecLength]
    exact ht.le
  have hb : ∀ (w : ℕ → ℝ), SpecLength m w < ε / 2 → |w g| < ε / 2 := by
    intro w hw
    refine lt_of_le_of_lt ?_ hw
    unfold SpecLength
    refine Real.abs_le_sqrt ?_
    exact single_le_sum (f := fun g => w g ^ 2) (fun _ _ => sq_nonneg _) (mem_range.2 hg)
  have b1 := hb _ (h v (hz _ hv) hc k hk)
  have b2 := hb _ (h (fun k g => v' k (σ g)) (hz _ (funext fun g => by rw [hv', h₀ g])) hcw k hk)
  rw [Pi.sub_apply, abs_lt] at b1 b2
  rw [abs_lt]
  constructor <;> linarith [b1.1, b1.2, b2.1, b2.2]

/-! ## Polycrystals -/

theorem grain_numbered_numbered (σ τ : Equiv.Perm ℕ) (h : ∀ g, τ (σ g) = g) (c : GrainCell d e n N) :
    (c.numbered σ).numbered τ = c := by
  have hv : ∀ f : View d e n N, (f.numbered σ).numbered τ = f := by
    rintro ⟨p, o, oth, nr, j, hi, cu, nb, nd⟩
    have : τ ∘ σ ∘ nd = nd := funext fun i => h _
    unfold View.numbered
    simp only [this]
  obtain ⟨c, F, v, B, l⟩ := c
  unfold GrainCell.numbered
  simp only [mesh_numbered_numbered σ τ h, hv]

theorem run_grain_numbered (σ τ : Equiv.Perm ℕ) (h : ∀ g, τ (σ g) = g) (c : RunGrain d e n N) :
    (c.numbered σ).numbered τ = c := by
  have hv : ∀ f : View d e n N, (f.numbered σ).numbered τ = f := by
    rintro ⟨p, o, oth, nr, j, hi, cu, nb, nd⟩
    have : τ ∘ σ ∘ nd = nd := funext fun i => h _
    unfold View.numbered
    simp only [this]
  obtain ⟨c, F, v, B, l⟩ := c
  unfold RunGrain.numbered
  simp only [numbered_numbered σ τ h, hv]

theorem grains_symm {σ : Equiv.Perm ℕ} {procs procs' : List (List (RunGrain d e n N))}
    (h : SpecSameGrains σ procs procs') : SpecSameGrains σ.symm procs' procs := by
  unfold SpecSameGrains at h ⊢
  have := (h.map (RunGrain.numbered σ.symm)).symm
  rw [List.map_map] at this
  have e : (RunGrain.numbered σ.symm ∘ RunGrain.numbered σ : RunGrain d e n N → RunGrain d e n N) = id :=
    funext fun r => run_grain_numbered σ σ.symm σ.symm_apply_apply r
  rwa [e, List.map_id] at this

theorem grains_numbered {σ : Equiv.Perm ℕ} {procs procs' : List (List (RunGrain d e n N))}
    (h : SpecSameGrains σ procs procs') {u u' : ℕ → ℕ → ℝ} (hu : ∀ k, SpecSameVector σ (u k) (u' k)) (dt : ℕ → ℝ) (k : ℕ) :
    (SpecGrains procs'.flatten dt u' k).Perm ((SpecGrains procs.flatten dt u k).map (GrainCell.numbered σ)) := by
  unfold SpecGrains
  have := h.map fun r : RunGrain d e n N => r.at dt u' k
  rw [List.map_map] at this
  rw [List.map_map]
  have e : ((fun r : RunGrain d e n N => r.at dt u' k) ∘ RunGrain.numbered σ) =
      (GrainCell.numbered σ ∘ fun r : RunGrain d e n N => r.at dt u k) := funext fun r => by
    simp only [Function.comp_apply, RunGrain.at, GrainCell.numbered, RunGrain.numbered]
    rw [at_numbered hu]
  rwa [e] at this

/-- C124 for polycrystals: a state has, in another numbering and with the cells in another order, the residual vector it
had. -/
theorem C124_grains_residual (σ : Equiv.Perm ℕ) (m : ℕ) (hσ : SpecWithin σ m) (K K' : Sol.Constraints ℕ)
    (hK : SpecSameConstraints σ K K') (cells cells' : List (GrainCell d e n N))
    (hcells : cells'.Perm (cells.map (GrainCell.numbered σ))) (u u' r r' : ℕ → ℝ) (hu : SpecSameVector σ u u')
    (hr : SpecSameVector σ r r') (h : SpecGrainResidual cells K m u r) : SpecGrainResidual cells' K' m u' r' := by
  obtain ⟨R, hR, hres⟩ := h
  refine ⟨fun c => R (c.numbered σ.symm), fun c' hc' i => ?_, fun g' hg' => ?_⟩
  · obtain ⟨c, hc, rfl⟩ := List.mem_map.1 (hcells.mem_iff.1 hc')
    dsimp only
    rw [grain_numbered_numbered σ σ.symm σ.symm_apply_apply, ← hR c hc i]
    have e : ∀ f : Fin N → ℕ, u' ∘ σ ∘ f = u ∘ f := fun f => funext fun i => hu _
    unfold GrainCell.numbered MeshCell.numbered View.numbered localRhs
    simp only [e]
  · obtain ⟨g, rfl⟩ := σ.surjective g'
    rw [hr g, ← hres g ((hσ g).1 hg')]
    refine residual_numbered hK ?_ g
    have := hcells.map fun c => c.local fun c => R (c.numbered σ.symm)
    rw [List.map_map] at this ⊢
    refine this.trans (List.Perm.of_eq (List.map_congr_left fun c _ => ?_))
    simp only [Function.comp_apply, GrainCell.local, SpecLocal, List.map_nil]
    rw [grain_numbered_numbered σ σ.symm σ.symm_apply_apply]
    rfl

/-- C124 for polycrystals: the runs in one numbering and distribution over processes are the runs in any other,
renumbered. -/
theorem C124_grains_run (σ : Equiv.Perm ℕ) (m : ℕ) (hσ : SpecWithin σ m) (K K' : Sol.Constraints ℕ)
    (hK : SpecSameConstraints σ K K') (procs procs' : List (List (RunGrain d e n N)))
    (hbody : SpecSameGrains σ procs procs') (dt : ℕ → ℝ) (B B' : ℕ → ℕ → ℝ)
    (hB : ∀ k, SpecSameVector σ (B k) (B' k)) (u u' : ℕ → ℕ → ℝ) (hu : ∀ k, SpecSameVector σ (u k) (u' k)) :
    (SpecGrainRun procs.flatten dt K m B u ↔ SpecGrainRun procs'.flatten dt K' m B' u') ∧
    ∀ tol T, SpecGrainComputed procs.flatten dt K m B tol T u ↔ SpecGrainComputed procs'.flatten dt K' m B' tol T u' := by
  have step : ∀ (σ : Equiv.Perm ℕ), SpecWithin σ m → ∀ (K K' : Sol.Constraints ℕ), SpecSameConstraints σ K K' →
      ∀ (procs procs' : List (List (RunGrain d e n N))), SpecSameGrains σ procs procs' → ∀ (B B' u u' : ℕ → ℕ → ℝ),
      (∀ k, SpecSameVector σ (B k) (B' k)) → (∀ k, SpecSameVector σ (u k) (u' k)) →
      ∀ k r, Sol.Satisfies K (u (k + 1) - B k) ∧ SpecGrainResidual (SpecGrains procs.flatten dt u k) K m (u (k + 1)) r →
        Sol.Satisfies K' (u' (k + 1) - B' k) ∧
          SpecGrainResidual (SpecGrains procs'.flatten dt u' k) K' m (u' (k + 1)) (r ∘ σ.symm) := by
    intro σ hσ K K' hK procs procs' hbody B B' u u' hB hu k r h
    refine ⟨satisfies_numbered hK (same_sub (hu (k + 1)) (hB k)) h.1, ?_⟩
    exact C124_grains_residual σ m hσ K K' hK _ _ (grains_numbered hbody hu dt k) _ _ _ _ (hu (k + 1))
      (fun g => by simp) h.2
  have run : ∀ (σ : Equiv.Perm ℕ), SpecWithin σ m → ∀ (K K' : Sol.Constraints ℕ), SpecSameConstraints σ K K' →
      ∀ (procs procs' : List (List (RunGrain d e n N))), SpecSameGrains σ procs procs' → ∀ (B B' u u' : ℕ → ℕ → ℝ),
      (∀ k, SpecSameVector σ (B k) (B' k)) → (∀ k, SpecSameVector σ (u k) (u' k)) →
      SpecGrainRun procs.flatten dt K m B u → SpecGrainRun procs'.flatten dt K' m B' u' := by
    intro σ hσ K K' hK procs procs' hbody B B' u u' hB hu h k
    obtain ⟨h1, R, h2, h3⟩ := h k
    exact step σ hσ K K' hK procs procs' hbody B B' u u' hB hu k 0 ⟨h1, R, h2, h3⟩
  have comp : ∀ (σ : Equiv.Perm ℕ), SpecWithin σ m → ∀ (K K' : Sol.Constraints ℕ), SpecSameConstraints σ K K' →
      ∀ (procs procs' : List (List (RunGrain d e n N))), SpecSameGrains σ procs procs' → ∀ (B B' u u' : ℕ → ℕ → ℝ),
      (∀ k, SpecSameVector σ (B k) (B' k)) → (∀ k, SpecSameVector σ (u k) (u' k)) → ∀ tol T,
      SpecGrainComputed procs.flatten dt K m B tol T u → SpecGrainComputed procs'.flatten dt K' m B' tol T u' := by
    intro σ hσ K K' hK procs procs' hbody B B' u u' hB hu tol T h k hk
    obtain ⟨h1, r, h2, h3⟩ := h k hk
    obtain ⟨s1, s2⟩ := step σ hσ K K' hK procs procs' hbody B B' u u' hB hu k r ⟨h1, h2⟩
    refine ⟨s1, _, s2, ?_⟩
    rwa [length_numbered hσ (x := r) (fun g => by simp)]
  exact ⟨⟨run σ hσ K K' hK procs procs' hbody B B' u u' hB hu, run σ.symm (within_symm hσ) K' K (constraints_symm hK)
      procs' procs (grains_symm hbody) B' B u' u (fun k => same_symm (hB k)) fun k => same_symm (hu k)⟩,
    fun tol T => ⟨comp σ hσ K K' hK procs procs' hbody B B' u u' hB hu tol T, comp σ.symm (within_symm hσ) K' K
      (constraints_symm hK) procs' procs (grains_symm hbody) B' B u' u (fun k => same_symm (hB k))
      (fun k => same_symm (hu k)) tol T⟩⟩

/-- C124 for polycrystals: whatever two sets of processes the cells are distributed over, in whatever order, and however the degrees of
freedom are numbered, for every number of steps and every distance there is a tolerance with which the two computed runs
stay within that distance of each other. -/
theorem C124_grains (σ : Equiv.Perm ℕ) (m : ℕ) (hσ : SpecWithin σ m) (K K' : Sol.Constraints ℕ)
    (hK : SpecSameConstraints σ K K') (procs procs' : List (List (RunGrain d e n N))) (hbody : SpecSameGrains σ procs procs')
    (dt : ℕ → ℝ) {kind : Kind n N} (faces : List (Face d e n N))
    (hst : SpecStableGrainRun kind procs.flatten faces dt K m) (B B' : ℕ → ℕ → ℝ)
    (hB : ∀ k, SpecSameVector σ (B k) (B' k)) (u₀ u₀' : ℕ → ℝ) (h₀ : SpecSameVector σ u₀ u₀') (T : ℕ) (ε : ℝ) (hε : 0 < ε) :
    ∃ tol > 0, ∀ v v', v 0 = u₀ → v' 0 = u₀' → SpecGrainComputed procs.flatten dt K m B tol T v →
      SpecGrainComputed procs'.flatten dt K' m B' tol T v' → ∀ k ≤ T, ∀ g < m, |v' k (σ g) - v k g| < ε := by
  obtain ⟨u, hu0, hu⟩ := C125_exists _ faces dt K m hst B u₀
  obtain ⟨tol, ht, h⟩ := C125_tolerance _ faces dt K m hst B u hu T (ε / 2) (by positivity)
  refine ⟨tol, ht, fun v v' hv hv' hc hc' k hk g hg => ?_⟩
  have hw : ∀ k, SpecSameVector σ (fun g => v' k (σ g)) (v' k) := fun k g => rfl
  have hcw := ((C124_grains_run σ m hσ K K' hK procs procs' hbody dt B B' hB (fun k g => v' k (σ g)) v' hw).2 tol T).2 hc'
  have hz : ∀ x : ℕ → ℝ, x = u₀ → SpecLength m (x - u 0) ≤ tol := by
    rintro x rfl
    rw [hu0, sub_self]
    simp [SpecLength]
    exact ht.le
  have hb : ∀ (w : ℕ → ℝ), SpecLength m w < ε / 2 → |w g| < ε / 2 := by
    intro w hw
    refine lt_of_le_of_lt ?_ hw
    unfold SpecLength
    refine Real.abs_le_sqrt ?_
    exact single_le_sum (f := fun g => w g ^ 2) (fun _ _ => sq_nonneg _) (mem_range.2 hg)
  have b1 := hb _ (h v (hz _ hv) hc k hk)
  have b2 := hb _ (h (fun k g => v' k (σ g)) (hz _ (funext fun g => by rw [hv', h₀ g])) hcw k hk)
  rw [Pi.sub_apply, abs_lt] at b1 b2
  rw [abs_lt]
  constructor <;> linarith [b1.1, b1.2, b2.1, b2.2]

/-! ## Non-vacuity -/

/-- The mean of two neighbours constrains a degree of freedom. -/
noncomputable def exHanging : Sol.Constraints ℕ := fun g => if g = 2 then some ⟨[(0, 1 / 2), (1, 1 / 2)], 0⟩ else none

/-- C124 in a concrete case: two cells with a hanging node, in the opposite order, the node having the number 0. -/
example (a b : Local 2) (ha : a.dofs = ![0, 2]) (hb : b.dofs = ![1, 2]) (x : ℕ → ℝ)
    (hx : SolvesAll exHanging [a, b] 3 x) :
    ∃ K' : Sol.Constraints ℕ, K' 0 = some ⟨[(2, 1 / 2), (1, 1 / 2)], 0⟩ ∧ SolvesAll K'
      [⟨![1, 0], b.mat, b.rhs, b.diag, b.couplings.map fun c => (Equiv.swap 0 2 ∘ c.1, c.2)⟩,
        ⟨![2, 0], a.mat, a.rhs, a.diag, a.couplings.map fun c => (Equiv.swap 0 2 ∘ c.1, c.2)⟩] 3
      (x ∘ Equiv.swap 0 2) := by
  have hσ : SpecWithin (Equiv.swap 0 2) 3 := by
    intro g
    rcases Nat.lt_or_ge g 3 with hg | hg
    · interval_cases g <;> simp [Equiv.swap_apply_of_ne_of_ne]
    · rw [Equiv.swap_apply_of_ne_of_ne (by omega) (by omega)]
  have h := ((C124_newton (Equiv.swap 0 2) 3 hσ exHanging
    (fun g => (exHanging (Equiv.swap 0 2 g)).map (SpecLine (Equiv.swap 0 2))) (fun g => by simp) [a, b]
    [SpecLocal (Equiv.swap 0 2) b, SpecLocal (Equiv.swap 0 2) a] (List.Perm.swap _ _ _)).2.2.2 x (x ∘ Equiv.swap 0 2)
    (fun g => by simp)).1.1 hx
  have e1 : SpecLocal (Equiv.swap 0 2) b =
      ⟨![1, 0], b.mat, b.rhs, b.diag, b.couplings.map fun c => (Equiv.swap 0 2 ∘ c.1, c.2)⟩ := by
    unfold SpecLocal
    rw [hb]
    congr 1
    funext i
    fin_cases i <;> simp [Equiv.swap_apply_of_ne_of_ne]
  have e2 : SpecLocal (Equiv.swap 0 2) a =
      ⟨![2, 0], a.mat, a.rhs, a.diag, a.couplings.map fun c => (Equiv.swap 0 2 ∘ c.1, c.2)⟩ := by
    unfold SpecLocal
    rw [ha]
    congr 1
    funext i
    fin_cases i <;> simp
  rw [e1, e2] at h
  refine ⟨_, ?_, h⟩
  simp [exHanging, SpecLine, Equiv.swap_apply_of_ne_of_ne]

/-- C124 in a concrete case: the displacement and the slip of a cell exchange their numbers. -/
example (f : ℕ → ℝ) (T : ℕ) (ε : ℝ) (hε : 0 < ε) : ∃ tol > 0, ∀ v v', v 0 = 0 → v' 0 = 0 →
    SpecComputed (exSoftRun f) (fun _ => 1) (fun _ => none) 2 0 tol T v →
    SpecComputed ((exSoftRun f).map (RunCell.numbered (Equiv.swap 0 1))) (fun _ => 1) (fun _ => none) 2 0 tol T v' →
    ∀ k ≤ T, |v' k 1 - v k 0| < ε ∧ |v' k 0 - v k 1| < ε := by
  have hσ : SpecWithin (Equiv.swap 0 1) 2 := by
    intro g
    rcases Nat.lt_or_ge g 2 with hg | hg
    · interval_cases g <;> simp
    · rw [Equiv.swap_apply_of_ne_of_ne (by omega) (by omega)]
  obtain ⟨tol, ht, h⟩ := C124_results (Equiv.swap 0 1) 2 hσ (fun _ => none) (fun _ => none) (fun _ => rfl)
    [exSoftRun f] [[], (exSoftRun f).map (RunCell.numbered (Equiv.swap 0 1)), []]
    (by simp [SpecSameBody]) (fun _ => 1) (by simpa using exSoftRun_stable f) 0 0 (fun _ _ => rfl) 0 0 (fun _ => rfl) T ε hε
  refine ⟨tol, ht, fun v v' hv hv' hc hc' k hk => ?_⟩
  have := h v v' hv hv' (by simpa using hc) (by simpa using hc') k hk
  exact ⟨by simpa using this 0 (by norm_num), by simpa using this 1 (by norm_num)⟩

/-- C124 for polycrystals in a concrete case: the two grains on one process, or on two in the opposite order with their
degrees of freedom exchanged. -/
example (f p : ℕ → ℝ) (T : ℕ) (ε : ℝ) (hε : 0 < ε) : ∃ a b tol, exSoftGrainRun f p = [a, b] ∧ tol > 0 ∧
    ∀ v v', v 0 = 0 → v' 0 = 0 →
    SpecGrainComputed (exSoftGrainRun f p) (fun _ => 1) (fun _ => none) 4 0 tol T v →
    SpecGrainComputed ([[b.numbered (Equiv.swap 0 2)], [a.numbered (Equiv.swap 0 2)]] : List (List _)).flatten
      (fun _ => 1) (fun _ => none) 4 0 tol T v' →
    ∀ k ≤ T, |v' k 2 - v k 0| < ε ∧ |v' k 0 - v k 2| < ε := by
  have hσ : SpecWithin (Equiv.swap 0 2) 4 := by
    intro g
    rcases Nat.lt_or_ge g 4 with hg | hg
    · interval_cases g <;> simp [Equiv.swap_apply_of_ne_of_ne]
    · rw [Equiv.swap_apply_of_ne_of_ne (by omega) (by omega)]
  obtain ⟨a, b, hab⟩ : ∃ a b, exSoftGrainRun f p = [a, b] := ⟨_, _, rfl⟩
  obtain ⟨tol, ht, h⟩ := C124_grains (Equiv.swap 0 2) 4 hσ (fun _ => none) (fun _ => none) (fun _ => rfl)
    [exSoftGrainRun f p] [[b.numbered (Equiv.swap 0 2)], [a.numbered (Equiv.swap 0 2)]]
    (by rw [hab]; exact List.Perm.swap _ _ _) (fun _ => 1) [(fun i => i, exView)]
    (by simpa using exSoftGrainRun_stable f p) 0 0 (fun _ _ => rfl) 0 0 (fun _ => rfl) T ε hε
  refine ⟨a, b, tol, hab, ht, fun v v' hv hv' hc hc' k hk => ?_⟩
  have := h v v' hv hv' (by simpa using hc) hc' k hk
  exact ⟨by simpa using this 0 (by norm_num), by simpa using this 2 (by norm_num)⟩

end Verif.Asm
