import Verif.Props.Polycrystal
import Verif.Props.Staggered

/-!
# Steps of polycrystals with microtractions at the grain boundaries: C121
-/

namespace Verif.Asm
open Matrix Finset Verif.Cry Verif.Hist Verif.Micro Verif.Lin Verif.Mono Verif.Itf

variable {d e n N : ℕ}

/-! ## Specification -/

/-- A polycrystal whose grains are stable (C84) and whose grain boundaries do not open and have admissible parameters. -/
structure SpecStableGrains (kind : Kind n N) (cells : List (GrainCell d e n N)) (faces : List (Face d e n N)) : Prop where
  paired : SpecPaired cells faces
  face : ∀ f ∈ faces, SpecFace kind f
  kinds : ∀ g ∈ cells, g.cell.kind = kind
  body : SpecStableBody (cells.map GrainCell.cell)

/-- Twice the energy the grain boundaries store in the difference of two states. -/
noncomputable def SpecFaceError (faces : List (Face d e n N)) (u v : ℕ → ℝ) : ℝ :=
  (faces.map fun f => 2 * SpecFaceEnergy f (u - v)).sum

/-- Error between two states of a polycrystal: elastic strains, slip gradients, slips, grain boundaries. -/
noncomputable def SpecGrainError (cells : List (GrainCell d e n N)) (faces : List (Face d e n N)) (u v : ℕ → ℝ) : ℝ :=
  SpecElasticError (cells.map GrainCell.cell) u v + SpecDefectError (cells.map GrainCell.cell) u v +
    SpecSlipError (cells.map GrainCell.cell) u v + SpecFaceError faces u v

/-- The residual vector the solver measures in the state `u` of a polycrystal. -/
def SpecGrainResidual (cells : List (GrainCell d e n N)) (K : Sol.Constraints ℕ) (m : ℕ) (u r : ℕ → ℝ) : Prop :=
  ∃ R, SpecGrainAssembled cells u R ∧ ∀ g < m, Lin.residual K (cells.map fun c => c.local R) g = r g

/-- A step of a polycrystal: at every trial solution the cells hand over their whole right-hand sides; matrices and
linear solvers are arbitrary. -/
structure SpecGrainStep (cells : List (GrainCell d e n N)) (p : Lin.Problem N) : Prop where
  handed : ∀ x, ∃ L : GrainCell d e n N → Local N, p.cells x = cells.map L ∧
    ∀ g ∈ cells, (L g).dofs = g.cell.dofs ∧ ∀ i, (L g).rhs i =
      (localRhs g.cell.prm g.cell.kind g.cell.pts g.cell.dofs g.views g.loads x i).getD 0
  homogeneous : Homogeneous p.internal p.n
  closed : Sol.Closed p.aff
  local_ : Sol.BlockLocal p.aff p.blk
  dofs : ∀ g ∈ cells, ∀ i, g.cell.dofs i < p.n
  difference : ∀ x y, Sol.Satisfies p.aff x → Sol.Satisfies p.aff y → Sol.Satisfies p.internal (x - y)

/-! ## Helpers -/

theorem faceError_eq (faces : List (Face d e n N)) (u v : ℕ → ℝ) : SpecFaceError faces u v =
    (faces.map fun f => if f.2.prm.microtraction then faceFactor f * faceForm f (u - v) (u - v) else 0).sum := by
  unfold SpecFaceError
  congr 1
  refine List.map_congr_left fun f _ => ?_
  rcases hm : f.2.prm.microtraction with _ | _
  · unfold SpecFaceEnergy; simp [hm]
  · rw [if_pos rfl, faceEnergy_eq f hm]; ring

theorem faceError_nonneg {kind : Kind n N} {faces : List (Face d e n N)} (hf : ∀ f ∈ faces, SpecFace kind f)
    (u v : ℕ → ℝ) : 0 ≤ SpecFaceError faces u v := by
  rw [faceError_eq]
  refine List.sum_nonneg fun x hx => ?_
  obtain ⟨f, hff, rfl⟩ := List.mem_map.1 hx
  split_ifs
  · exact mul_nonneg (faceFactor_nonneg (hf f hff)) (faceForm_self_nonneg _ _)
  · exact le_rfl

theorem faceError_gap (faces : List (Face d e n N)) (u v : ℕ → ℝ) : SpecFaceError faces u v =
    (faces.map fun f => if f.2.prm.microtraction then faceFactor f * faceForm f u (u - v) else 0).sum -
    (faces.map fun f => if f.2.prm.microtraction then faceFactor f * faceForm f v (u - v) else 0).sum := by
  rw [faceError_eq, eq_sub_iff_add_eq, ← List.sum_map_add]
  congr 1
  refine List.map_congr_left fun f _ => ?_
  split_ifs
  · rw [← faceForm_sub f u v (u - v)]; ring
  · ring

theorem grain_work_residual (cells : List (GrainCell d e n N)) {w : ℕ → ℝ} {R : GrainCell d e n N → Fin N → ℝ}
    {K : Sol.Constraints ℕ} {m : ℕ} (hK : Homogeneous K m) (hm : ∀ c ∈ cells, ∀ i, c.cell.dofs i < m)
    (hsat : Sol.Satisfies K w) {r : ℕ → ℝ}
    (hr : ∀ g < m, Lin.residual K (cells.map fun c => c.local R) g = r g) :
    SpecGrainWork cells R w = -∑ g ∈ range m, w g * r g := by
  have hn : Numbered (cells.map fun c => c.local R) m := by
    constructor
    · intro a ha i
      obtain ⟨c, hc, rfl⟩ := List.mem_map.1 ha
      exact hm c hc i
    · intro a ha b hb
      obtain ⟨c, hc, rfl⟩ := List.mem_map.1 ha
      simp [GrainCell.local] at hb
  have ht := residual_test hK hn hsat
  rw [sum_congr rfl fun g hg => by rw [hr g (mem_range.1 hg)]] at ht
  rw [ht]
  unfold SpecGrainWork Lin.SpecResidual
  rw [List.map_map, ← neg_one_mul, ← List.sum_map_mul_left]
  congr 1
  refine List.map_congr_left fun c _ => ?_
  rw [Function.comp_apply, Finset.mul_sum]
  exact sum_congr rfl fun i _ => by show _ = -1 * (w (c.cell.dofs i) * R c i); ring

theorem grain_gap {kind : Kind n N} {cells : List (GrainCell d e n N)} {faces : List (Face d e n N)}
    (h : SpecStableGrains kind cells faces) (u v : ℕ → ℝ) (R R' : GrainCell d e n N → Fin N → ℝ)
    (hR : SpecGrainAssembled cells u R) (hR' : SpecGrainAssembled cells v R') :
    SpecGrainError cells faces u v = SpecGrainWork cells R (u - v) - SpecGrainWork cells R' (u - v) := by
  have h1 := work_gap _ h.body u v (cellRhs u) (cellRhs v) (cells_assembled h.paired h.face h.kinds hR)
    (cells_assembled h.paired h.face h.kinds hR')
  have p1 := mesh_power h.paired h.face h.kinds hR (u - v)
  have p2 := mesh_power h.paired h.face h.kinds hR' (u - v)
  unfold SpecGrainError
  rw [faceError_gap, h1, p1, p2]
  ring

/-- What the cells of a polycrystal hand over in the state `u`. -/
noncomputable def grainForces (u : ℕ → ℝ) (g : GrainCell d e n N) (i : Fin N) : ℝ :=
  (localRhs g.cell.prm g.cell.kind g.cell.pts g.cell.dofs g.views g.loads u i).getD 0

theorem grains_always {kind : Kind n N} {cells : List (GrainCell d e n N)} {faces : List (Face d e n N)}
    (h : SpecStableGrains kind cells faces) (u : ℕ → ℝ) : SpecGrainAssembled cells u (grainForces u) := by
  obtain ⟨R, hR⟩ := grain_assembled_exists cells faces h.paired h.face h.kinds
    (fun g hg => h.body.cell _ (List.mem_map.2 ⟨g, hg, rfl⟩))
    (fun g hg => h.body.material _ (List.mem_map.2 ⟨g, hg, rfl⟩)) u
  intro g hg i
  unfold grainForces
  rw [hR g hg i]
  rfl

theorem seen_dofs {kind : Kind n N} {cells : List (GrainCell d e n N)} {faces : List (Face d e n N)}
    (h : SpecStableGrains kind cells faces) {g : GrainCell d e n N} (hg : g ∈ cells) (k : Fin g.F) :
    ∃ g' ∈ cells, (g.views k).nbDofs = g'.cell.dofs := by
  have hmem : (g.cell.dofs, g.views k) ∈ SpecSeen cells :=
    List.mem_flatMap.2 ⟨g, hg, List.mem_map.2 ⟨g.views k, List.mem_ofFn.2 ⟨k, rfl⟩, rfl⟩⟩
  obtain ⟨f, hf', hmem⟩ := List.mem_flatMap.1 (h.paired.mem_iff.1 hmem)
  have back : ∀ x : Face d e n N, x ∈ [f, f.flip] → ∃ g' ∈ cells, x.1 = g'.cell.dofs := by
    intro x hx
    have := h.paired.mem_iff.2 (List.mem_flatMap.2 ⟨f, hf', hx⟩)
    obtain ⟨g', hg', h2⟩ := List.mem_flatMap.1 this
    obtain ⟨y, -, rfl⟩ := List.mem_map.1 h2
    exact ⟨g', hg', rfl⟩
  rcases List.mem_cons.1 hmem with h1 | h1
  · obtain ⟨g', hg', ed⟩ := back f.flip (by simp)
    refine ⟨g', hg', ?_⟩
    rw [← ed, ← h1]
    rfl
  · rw [List.mem_singleton] at h1
    obtain ⟨g', hg', ed⟩ := back f (by simp)
    refine ⟨g', hg', ?_⟩
    rw [← ed]
    exact congrArg (fun x : Face d e n N => x.2.nbDofs) h1

section
variable {E : Type*} [NormedAddCommGroup E]

theorem side_ll (s : Side d n N) {u : E → Fin N → ℝ} (hu : ∀ j, LL fun x => u x j) (a : Fin n) :
    LL fun x => s.slip (u x) a := by
  unfold Side.slip
  exact LL.finsum _ fun j _ => (hu j).mulc _

theorem view_ll (kind : Kind n N) (f : Face d e n N) (h : f.2.prm.decohesion = false) {u : E → ℕ → ℝ}
    (hu : ∀ j, LL fun x => u x (f.1 j)) (hv : ∀ j, LL fun x => u x (f.2.nbDofs j)) (i : Fin N) :
    LL fun x => viewForce kind f (u x) i := by
  rcases hm : f.2.prm.microtraction with _ | _
  · simp only [viewForce_none kind f h hm]
    exact LL.const _
  · rcases hi : kind i with _ | a
    · simp only [fun x => viewForce_disp kind f h (u x) i hi]
      exact LL.const _
    · have e : ∀ x, viewForce kind f (u x) i = f.2.prm.dn2 * f.2.cur.phi a i *
          degradation f.2.prm.exponent (f.2.prm.damage f.2.hist) f.2.prm.coupleMicro *
          Itf.microtraction f.2.prm.micro f.2.prm.lat f.2.own f.2.other f.2.nrm (f.2.cur.slip (u x ∘ f.1))
            (f.2.nb.slip (u x ∘ f.2.nbDofs)) a * f.2.jxw := by
        intro x
        unfold viewForce FacePrm.rhsTerm
        simp only [hi, hm, if_true, Option.getD_some]
      simp only [e]
      refine LL.mulc _ (LL.cmul _ ?_)
      unfold Itf.microtraction
      refine LL.mulc _ (LL.finsum _ fun b _ => LL.sub (LL.cmul _ ?_) (LL.cmul _ ?_))
      · exact side_ll _ (u := fun x => u x ∘ f.1) hu b
      · exact side_ll _ (u := fun x => u x ∘ f.2.nbDofs) hv b

theorem grain_ll {kind : Kind n N} {cells : List (GrainCell d e n N)} {faces : List (Face d e n N)}
    (h : SpecStableGrains kind cells faces) (hr : ∀ g ∈ cells, g.cell.prm.law.rateIndependent = false)
    {u : E → ℕ → ℝ} (hu : ∀ g ∈ cells, ∀ j, LL fun x => u x (g.cell.dofs j)) {g : GrainCell d e n N} (hg : g ∈ cells)
    (i : Fin N) : LL fun x => grainForces (u x) g i := by
  have e : ∀ x, grainForces (u x) g i = cellRhs (u x) g.cell i +
      ∑ k, viewForce kind (g.cell.dofs, g.views k) (u x) i +
      ∑ b, ((g.loads b).side.disp i ⬝ᵥ (g.loads b).value) * (g.loads b).jxw := fun x =>
    (split_rhs h.paired h.face h.kinds (grains_always h (u x)) hg i).2
  simp only [e]
  have hmem : g.cell ∈ cells.map GrainCell.cell := List.mem_map.2 ⟨g, hg, rfl⟩
  refine LL.add (LL.add ?_ (LL.finsum _ fun k _ => ?_)) (LL.const _)
  · exact rhs_ll g.cell (h.body.material _ hmem) (hr g hg) (u := fun x => u x ∘ g.cell.dofs) (hu g hg) i
  · obtain ⟨g', hg', e'⟩ := seen_dofs h hg k
    refine view_ll kind (g.cell.dofs, g.views k) (seen_closed h.paired h.face hg k) (hu g hg) (fun j => ?_) i
    show LL fun x => u x ((g.views k).nbDofs j)
    rw [e']
    exact hu g' hg' j

end

noncomputable def grainRow (cells : List (GrainCell d e n N)) (K : Sol.Constraints ℕ) (x₀ : ℕ → ℝ) {m : ℕ}
    (w : EuclideanSpace ℝ (Fin m)) (r : ℕ) : ℝ :=
  Lin.residual K (cells.map fun c => c.local (grainForces (state K x₀ w))) r

noncomputable def grainMap (cells : List (GrainCell d e n N)) (K : Sol.Constraints ℕ) (x₀ : ℕ → ℝ) {m : ℕ}
    (w : EuclideanSpace ℝ (Fin m)) : EuclideanSpace ℝ (Fin m) :=
  WithLp.toLp 2 fun r => if (K r).isNone then -grainRow cells K x₀ w r else w r

theorem grainMap_inner {kind : Kind n N} {cells : List (GrainCell d e n N)} {faces : List (Face d e n N)}
    (h : SpecStableGrains kind cells faces) {K : Sol.Constraints ℕ} {m : ℕ}
    (hK : Homogeneous K m) (hm : ∀ c ∈ cells, ∀ i, c.cell.dofs i < m) (x₀ : ℕ → ℝ) (w v : EuclideanSpace ℝ (Fin m)) :
    inner ℝ (grainMap cells K x₀ w - grainMap cells K x₀ v) (w - v) =
      SpecGrainError cells faces (state K x₀ w) (state K x₀ v) + pinned K (w - v) := by
  have hsat : Sol.Satisfies K (state K x₀ w - state K x₀ v) := by
    rw [state_sub hK]; exact Sol.distribute_satisfies hK.closed _
  rw [grain_gap h _ _ _ _ (grains_always h _) (grains_always h _),
    grain_work_residual cells hK hm hsat (r := grainRow cells K x₀ w) (fun g _ => rfl),
    grain_work_residual cells hK hm hsat (r := grainRow cells K x₀ v) (fun g _ => rfl), PiLp.inner_apply,
    sum_range, sum_range]
  unfold pinned
  rw [sub_neg_eq_add, neg_add_eq_sub, ← sum_sub_distrib, ← sum_add_distrib]
  refine sum_congr rfl fun r _ => ?_
  rw [state_sub hK]
  simp only [grainMap, PiLp.sub_apply, RCLike.inner_apply, conj_trivial]
  cases hk : K r with
  | none =>
    rw [Sol.distribute_free hk, ext_fin]
    simp only [Option.isNone_none, if_true, PiLp.sub_apply]
    ring
  | some l =>
    have e : ∀ z : EuclideanSpace ℝ (Fin m), grainRow cells K x₀ z r = 0 := fun z =>
      residual_constrained hK _ (by rw [hk]; simp)
    rw [e, e]
    simp
    ring

theorem grainMap_ll {kind : Kind n N} {cells : List (GrainCell d e n N)} {faces : List (Face d e n N)}
    (h : SpecStableGrains kind cells faces) (hr : ∀ g ∈ cells, g.cell.prm.law.rateIndependent = false)
    {K : Sol.Constraints ℕ} {m : ℕ} (hK : Homogeneous K m) (hm : ∀ c ∈ cells, ∀ i, c.cell.dofs i < m) (x₀ : ℕ → ℝ) :
    LL (grainMap cells K x₀ (m := m)) := by
  refine LL.of_components fun r => ?_
  unfold grainMap
  cases hk : (K r).isNone with
  | false =>
    simp only [hk]
    have := ext_ll (m := m) r
    simp only [ext_fin] at this
    simpa using this
  | true =>
    simp only [hk, if_true]
    refine LL.neg ?_
    unfold grainRow Lin.residual
    simp only [List.map_map]
    refine LL.listsum cells fun c hc => ?_
    simp only [Function.comp_apply]
    refine LL.finsum _ fun i _ => ?_
    show LL fun w => weight K (c.cell.dofs i) r * grainForces (state K x₀ w) c i
    refine LL.cmul _ ?_
    exact grain_ll h hr (u := fun w => state K x₀ w)
      (fun g hg j => (LL.const _).add (distribute_ll hK (hm g hg j))) hc i

theorem grain_dofs {cells : List (GrainCell d e n N)} {m : ℕ} (hm : ∀ c ∈ cells, ∀ i, c.cell.dofs i < m) :
    ∀ c ∈ cells.map GrainCell.cell, ∀ i, c.dofs i < m := by
  intro c hc i
  obtain ⟨g, hg, rfl⟩ := List.mem_map.1 hc
  exact hm g hg i

/-! ## Properties -/

/-- C121: between two states of a step of a polycrystal, the errors in elastic strain, slip gradients, slips and at the
grain boundaries are not negative, and together at most the distance of the residuals times the distance of the
states. -/
theorem C121_error {kind : Kind n N} (cells : List (GrainCell d e n N)) (faces : List (Face d e n N))
    (h : SpecStableGrains kind cells faces) (K : Sol.Constraints ℕ) (m : ℕ) (hK : Homogeneous K m)
    (hm : ∀ c ∈ cells, ∀ i, c.cell.dofs i < m) (u v r s : ℕ → ℝ) (hu : SpecGrainResidual cells K m u r)
    (hv : SpecGrainResidual cells K m v s) (hsat : Sol.Satisfies K (u - v)) :
    (0 ≤ SpecElasticError (cells.map GrainCell.cell) u v ∧ 0 ≤ SpecDefectError (cells.map GrainCell.cell) u v ∧
      0 ≤ SpecSlipError (cells.map GrainCell.cell) u v ∧ 0 ≤ SpecFaceError faces u v) ∧
    SpecGrainError cells faces u v ≤ SpecLength m (r - s) * SpecLength m (u - v) := by
  obtain ⟨e1, e2, e3⟩ := errors_nonneg _ h.body u v
  refine ⟨⟨e1, e2, e3, faceError_nonneg h.face u v⟩, ?_⟩
  obtain ⟨R, hR, hr⟩ := hu
  obtain ⟨S, hS, hs⟩ := hv
  rw [grain_gap h u v R S hR hS, grain_work_residual cells hK hm hsat hr, grain_work_residual cells hK hm hsat hs]
  have := neg_abs_le (∑ g ∈ range m, (r - s) g * (u - v) g)
  have h2 := cauchy m (r - s) (u - v)
  have e : ∑ g ∈ range m, (r - s) g * (u - v) g =
      ∑ g ∈ range m, (u - v) g * r g - ∑ g ∈ range m, (u - v) g * s g := by
    rw [← sum_sub_distrib]
    exact sum_congr rfl fun g _ => by rw [Pi.sub_apply]; ring
  linarith

/-- C121: every step of a stable rate-dependent polycrystal has a solution that fulfils the boundary conditions. -/
theorem C121_exists {kind : Kind n N} (cells : List (GrainCell d e n N)) (faces : List (Face d e n N))
    (h : SpecStableGrains kind cells faces) (hr : ∀ g ∈ cells, g.cell.prm.law.rateIndependent = false)
    (K : Sol.Constraints ℕ) (m : ℕ) (hK : Homogeneous K m) (hm : ∀ c ∈ cells, ∀ i, c.cell.dofs i < m)
    (hdet : SpecDetermined (cells.map GrainCell.cell) K m) (x₀ : ℕ → ℝ) :
    ∃ u, Sol.Satisfies K (u - x₀) ∧ SpecGrainSolution cells K m u := by
  obtain ⟨s, hs0, hs1, hs⟩ := defect_lower _ h.body
  obtain ⟨μ, hμ0, hμ⟩ := potential_grows _ h.body hK (grain_dofs hm) hdet
  set F := grainMap cells K x₀ (m := m) with hF
  have lower : ∀ w, 1 ≤ ‖w‖ → s * μ * ‖w‖ ^ 2 ≤ inner ℝ (F w - F 0) w := by
    intro w hw
    have h1 := grainMap_inner h hK hm x₀ w 0
    rw [sub_zero] at h1
    rw [hF, h1]
    obtain ⟨e1, e2, e3⟩ := errors_nonneg _ h.body (state K x₀ w) (state K x₀ (0 : EuclideanSpace ℝ (Fin m)))
    have e4 := faceError_nonneg h.face (state K x₀ w) (state K x₀ (0 : EuclideanSpace ℝ (Fin m)))
    have h2 := hs (state K x₀ w) (state K x₀ (0 : EuclideanSpace ℝ (Fin m)))
    unfold SpecGrainError
    rw [elastic_shift] at e1 ⊢
    rw [state_sub hK, sub_zero] at h2 e1 ⊢
    have h3 := hμ w hw
    unfold potential at h3
    have h4 := pinned_nonneg K w
    have h5 := mul_le_mul_of_nonneg_left h3 hs0.le
    nlinarith
  obtain ⟨w, hw⟩ := monotone_zero F (fun x y => by
      rw [hF, grainMap_inner h hK hm]
      obtain ⟨e1, e2, e3⟩ := errors_nonneg _ h.body (state K x₀ x) (state K x₀ y)
      have e4 := faceError_nonneg h.face (state K x₀ x) (state K x₀ y)
      have := pinned_nonneg K (x - y)
      unfold SpecGrainError
      linarith) (grainMap_ll h hr hK hm x₀) (max 1 (‖F 0‖ / (s * μ) + 1)) (fun w hw => by
      have h1 : 1 ≤ ‖w‖ := (le_max_left _ _).trans hw
      have h2 : ‖F 0‖ / (s * μ) + 1 ≤ ‖w‖ := (le_max_right _ _).trans hw
      have h3 := lower w h1
      rw [inner_sub_left] at h3
      have h4 := neg_le_of_abs_le (abs_real_inner_le_norm (F 0) w)
      have h5 : ‖F 0‖ < s * μ * ‖w‖ := by
        have : ‖F 0‖ / (s * μ) < ‖w‖ := by linarith
        rw [div_lt_iff₀ (by positivity)] at this
        linarith
      nlinarith)
  refine ⟨state K x₀ w, ?_, grainForces (state K x₀ w), grains_always h _, fun r hrm => ?_⟩
  · unfold state
    rw [add_sub_cancel_left]
    exact Sol.distribute_satisfies hK.closed _
  · cases hk : K r with
    | some l => exact residual_constrained hK _ (by rw [hk]; simp)
    | none =>
      have := congrArg (fun z : EuclideanSpace ℝ (Fin m) => z ⟨r, hrm⟩) hw
      simp only [hF, grainMap, hk, Option.isNone_none, if_true] at this
      have h2 : -grainRow cells K x₀ w r = 0 := this
      exact neg_eq_zero.1 h2

/-- A state with a small residual lies close to every solution. -/
theorem grain_close {kind : Kind n N} (cells : List (GrainCell d e n N)) (faces : List (Face d e n N))
    (h : SpecStableGrains kind cells faces) {K : Sol.Constraints ℕ} {m : ℕ} (hK : Homogeneous K m)
    (hm : ∀ c ∈ cells, ∀ i, c.cell.dofs i < m) (hdet : SpecDetermined (cells.map GrainCell.cell) K m) {ε : ℝ} (hε : 0 < ε) :
    ∃ tol > 0, ∀ u v r, SpecGrainResidual cells K m u r → SpecLength m r ≤ tol → SpecGrainSolution cells K m v →
      Sol.Satisfies K (u - v) → SpecLength m (u - v) < ε := by
  obtain ⟨tol, ht, htol⟩ := error_close _ h.body hK (grain_dofs hm) hdet hε
  refine ⟨tol, ht, fun u v r hu hr hv hsat => htol u v hsat ?_⟩
  obtain ⟨⟨-, -, -, h4⟩, h5⟩ := C121_error cells faces h K m hK hm u v r 0 hu hv hsat
  rw [sub_zero] at h5
  have := mul_le_mul_of_nonneg_right hr (length_nonneg m (u - v))
  unfold SpecGrainError at h5
  linarith

/-- C121: and only one. -/
theorem C121_unique {kind : Kind n N} (cells : List (GrainCell d e n N)) (faces : List (Face d e n N))
    (h : SpecStableGrains kind cells faces) (K : Sol.Constraints ℕ) (m : ℕ) (hK : Homogeneous K m)
    (hm : ∀ c ∈ cells, ∀ i, c.cell.dofs i < m) (hdet : SpecDetermined (cells.map GrainCell.cell) K m) (u v : ℕ → ℝ)
    (hu : SpecGrainSolution cells K m u) (hv : SpecGrainSolution cells K m v) (hsat : Sol.Satisfies K (u - v)) :
    ∀ g < m, u g = v g := by
  have h0 : SpecLength m (u - v) ≤ 0 := by
    refine le_of_forall_pos_le_add fun ε hε => ?_
    obtain ⟨tol, ht, htol⟩ := grain_close cells faces h hK hm hdet hε
    have := htol u v 0 hu (by simp [SpecLength]; exact ht.le) hv hsat
    linarith
  intro g hg
  have h1 : SpecLength m (u - v) ^ 2 = 0 := by
    have := le_antisymm h0 (length_nonneg _ _)
    rw [this]; ring
  rw [length_sq] at h1
  have := (sum_eq_zero_iff_of_nonneg fun g _ => sq_nonneg ((u - v) g)).1 h1 g (mem_range.2 hg)
  have := pow_eq_zero_iff (two_ne_zero) |>.1 this
  rw [Pi.sub_apply] at this
  linarith

/-! ## What the algorithms return -/

theorem mono_found {p : Lin.Problem N} (hc : Sol.Closed p.aff) (hb : Sol.BlockLocal p.aff p.blk) (nMax : ℕ) (tol : ℝ)
    (s s' : Lin.Step N) (k : ℕ) (hret : Drv.monoRD p.mono nMax tol (nMax + 1) 0 s = .returned s' k) :
    ∃ x, s'.trial = some x ∧ Sol.Satisfies p.aff x ∧ SpecLength p.n (p.resid x) < tol := by
  have key : ∃ t, s' = p.mono.newton (p.mono.post (p.mono.pre t)) ∧ Drv.below (p.mono.norm s') tol := by
    rcases Drv.C07_monolithic_rate_dependent p.mono nMax tol s with ⟨j, h1, _, h3, _, h5⟩ | ⟨_, h5⟩
    · rw [h5] at hret
      injection hret with e1 e2
      rw [← e1]
      obtain ⟨i, rfl⟩ : ∃ i, j = i + 1 := ⟨j - 1, by omega⟩
      refine ⟨Drv.newtonIterate p.mono i s, ?_, (Drv.below_iff _ _).2 h3⟩
      unfold Drv.newtonIterate
      rw [Function.iterate_succ_apply']
    · rw [h5] at hret; simp at hret
  obtain ⟨t, ht, hbl⟩ := key
  have hheld : s'.held = s'.trial.map p.resid := by rw [ht]; rfl
  cases hx : s'.trial with
  | none =>
    rw [hx] at hheld
    have : p.mono.norm s' = none := by show s'.held.map _ = _; rw [hheld]; rfl
    rw [this] at hbl
    exact absurd hbl id
  | some x =>
    rw [hx] at hheld
    have hn : p.mono.norm s' = some (p.total (p.resid x)) := by
      show s'.held.map _ = _; rw [hheld]; rfl
    rw [hn] at hbl
    have hlt : p.total (p.resid x) < tol := hbl
    refine ⟨x, rfl, ?_, hlt⟩
    have e : s'.trial = ((p.mono.post (p.mono.pre t)).trial.bind fun x =>
      p.advance p.searchAll p.total 0 (Lin.newtonUpdate p.internal (p.all (p.cells x)))
        (p.mono.post (p.mono.pre t)).stored x) := by rw [ht]; rfl
    rw [hx] at e
    obtain ⟨y, hy, he⟩ := Option.bind_eq_some_iff.1 e.symm
    refine advance_satisfies hc hb _ _ _ _ _ y ?_ x he
    have : (p.mono.post (p.mono.pre t)).trial = (p.mono.pre t).trial.map (Sol.distribute p.aff) := rfl
    rw [this] at hy
    obtain ⟨z, -, rfl⟩ := Option.map_eq_some_iff.1 hy
    exact Sol.distribute_satisfies hc z

theorem grain_handed {kind : Kind n N} {cells : List (GrainCell d e n N)} {faces : List (Face d e n N)}
    (h : SpecStableGrains kind cells faces) {p : Lin.Problem N} (hp : SpecGrainStep cells p) (x : ℕ → ℝ) :
    SpecGrainResidual cells p.internal p.n x (p.resid x) := by
  refine ⟨grainForces x, grains_always h x, fun g _ => ?_⟩
  obtain ⟨L, hL, hd⟩ := hp.handed x
  unfold Lin.Problem.resid
  rw [hL]
  unfold Lin.residual
  rw [List.map_map, List.map_map]
  congr 1
  refine List.map_congr_left fun c hc => ?_
  simp only [Function.comp_apply]
  rw [(hd c hc).1]
  exact sum_congr rfl fun i _ => by rw [(hd c hc).2 i]; rfl

/-- C121, for all algorithms: a step of a stable rate-dependent polycrystal has exactly one solution, and with
sufficiently small tolerances whatever the monolithic (`p`) or a staggered algorithm (`p'`) returns — with or without line
search, from whatever start, whatever matrices and linear solvers are used — lies as close to it as one wishes. -/
theorem C121_algorithms {kind : Kind n N} (cells : List (GrainCell d e n N)) (faces : List (Face d e n N))
    (h : SpecStableGrains kind cells faces) (hr : ∀ g ∈ cells, g.cell.prm.law.rateIndependent = false)
    (p p' : Lin.Problem N) (hp : SpecGrainStep cells p) (hp' : SpecGrainStep cells p') (hsame : SpecSameStep p p')
    (hadm : ∀ x u, Sol.Satisfies p.aff x → Sol.Satisfies p.internal u → Sol.Satisfies p.aff fun g => x g + u g)
    (hdet : SpecDetermined (cells.map GrainCell.cell) p.internal p.n) :
    ∃ x, Sol.Satisfies p.aff x ∧ SpecGrainSolution cells p.internal p.n x ∧
      (∀ y, Sol.Satisfies p.aff y → SpecGrainSolution cells p.internal p.n y → ∀ g < p.n, y g = x g) ∧
      ∀ ε > 0, ∃ tol > 0,
        (∀ (nMax : ℕ) (tolAll : ℝ), tolAll ≤ tol → ∀ (s s' : Lin.Step N) (k : ℕ),
          Drv.monoRD p.mono nMax tolAll (nMax + 1) 0 s = .returned s' k →
          ∃ y, s'.trial = some y ∧ Sol.Satisfies p.aff y ∧ SpecLength p.n (y - x) < ε) ∧
        ∀ q : Drv.StagParams, |q.tolMacro| ≤ tol → |q.tolMicro| ≤ tol → ∀ (s s' : Lin.Step N) (k : ℕ),
          (Drv.bouncing p'.bounce q (max q.nLoops 1 * (q.nMacro + 1)) 0 1 false 0 s = .returned s' k ∨
            (∀ x, s.trial = some x → Sol.Satisfies p.aff x) ∧
            Drv.embracing p'.embrace q (q.nMacro + 1) 0 false 0 s = .returned s' k) →
          ∃ y, s'.trial = some y ∧ Sol.Satisfies p.aff y ∧ SpecLength p.n (y - x) < ε := by
  have h0 : Sol.Satisfies p.aff (Sol.distribute p.aff 0) := Sol.distribute_satisfies hp.closed _
  obtain ⟨x, hx1, hx2⟩ := C121_exists cells faces h hr p.internal p.n hp.homogeneous hp.dofs hdet (Sol.distribute p.aff 0)
  have hx : Sol.Satisfies p.aff x := by
    have := hadm _ _ h0 hx1
    have e : (fun g => Sol.distribute p.aff 0 g + (x - Sol.distribute p.aff 0) g) = x := by
      funext g; rw [Pi.sub_apply]; ring
    rwa [e] at this
  refine ⟨x, hx, hx2, fun y hy hys => ?_, fun ε hε => ?_⟩
  · exact C121_unique cells faces h p.internal p.n hp.homogeneous hp.dofs hdet y x hys hx2 (hp.difference y x hy hx)
  · obtain ⟨tol, ht, htol⟩ := grain_close cells faces h hp.homogeneous hp.dofs hdet hε
    refine ⟨tol / 2, by positivity, fun nMax tolAll hle s s' k hret => ?_, fun q hq0 hq1 s s' k hret => ?_⟩
    · obtain ⟨y, h1, h2, h3⟩ := mono_found hp.closed hp.local_ nMax tolAll s s' k hret
      exact ⟨y, h1, h2, htol y x _ (grain_handed h hp y) (by linarith) hx2 (hp.difference y x h2 hx)⟩
    · have hf : Found p' q s' := by
        rcases hret with hret | ⟨hs, hret⟩
        · exact bouncing_found hp'.closed hp'.local_ hsame.blk q hret
        · exact embracing_found hp'.closed hp'.local_ hsame.blk q (by rw [hsame.aff]; exact hs) hret
      obtain ⟨y, h1, h2, h3⟩ := hf
      have h4 := grain_handed h hp' y
      rw [hsame.internal, hsame.n] at h4
      rw [hsame.n] at h3
      rw [hsame.aff] at h2
      refine ⟨y, h1, h2, htol y x _ h4 (h3.trans ?_) hx2 (hp.difference y x h2 hx)⟩
      rw [Real.sqrt_le_left ht.le]
      have a0 := sq_le_sq' (neg_le_of_abs_le hq0) (le_of_abs_le hq0)
      have a1 := sq_le_sq' (neg_le_of_abs_le hq1) (le_of_abs_le hq1)
      nlinarith

/-! ## Non-vacuity -/

/-- Two grains of different orientation, with all degrees of freedom free, that meet at a face on which microtractions
act; the first carries the supply `f`, the second is loaded at its boundary by `p`. -/
noncomputable def exSoftLeft (H f : ℝ) : GrainCell 2 1 1 2 := ⟨exSoft H f, 1, fun _ => exView, 0, Fin.elim0⟩
noncomputable def exSoftRight (H p : ℝ) : GrainCell 2 1 1 2 :=
  ⟨⟨{ (exSoft H 0).prm with sys := exGrainB }, exKind, fun i => i + 2, 1, (exSoft H 0).pts⟩, 1,
    fun _ => exView.flip fun i => i, 1, fun _ => ⟨exMeet, ![p, 0], 1⟩⟩

theorem exSoftGrains (H f p : ℝ) (h0 : 0 ≤ H) (h1 : H ≤ 4) :
    SpecStableGrains exKind [exSoftLeft H f, exSoftRight H p] [(fun i => i, exView)] where
  paired := List.Perm.refl _
  face := exView_ok
  kinds := by
    intro g hg
    rcases List.mem_cons.1 hg with rfl | hg
    · rfl
    · obtain rfl := List.mem_singleton.1 hg; rfl
  body := by
    have ha := exSoft_stable H f h0 h1
    have hb := exSoft_stable H 0 h0 h1
    constructor <;> intro c hc <;> rcases List.mem_cons.1 hc with rfl | hc
    · exact ha.cell _ (by simp [exSoftLeft])
    · obtain rfl := List.mem_singleton.1 hc
      have h := hb.cell _ (List.mem_singleton.2 rfl)
      exact ⟨h.primitive, h.weight, h.hist, h.res⟩
    · exact ha.material _ (by simp [exSoftLeft])
    · obtain rfl := List.mem_singleton.1 hc
      have h := hb.material _ (List.mem_singleton.2 rfl)
      exact { h with }
    · exact ha.hardens _ (by simp [exSoftLeft])
    · obtain rfl := List.mem_singleton.1 hc
      exact hb.hardens (exSoft H 0) (List.mem_singleton.2 rfl)
    · exact ha.sharp _ (by simp [exSoftLeft])
    · obtain rfl := List.mem_singleton.1 hc
      exact hb.sharp (exSoft H 0) (List.mem_singleton.2 rfl)

/-- Elastic strains that store no energy vanish. -/
theorem elastic_none (cells : List (MeshCell d n N)) (h : SpecStableBody cells) (w : ℕ → ℝ)
    (h0 : SpecElasticError cells w 0 = 0) :
    ∀ c ∈ cells, ∀ q, SpecElasticStrain c.prm (c.pts q).shape (w ∘ c.dofs) = 0 := by
  intro c hc q
  have key : ∀ c ∈ cells, ∀ q, 0 ≤ SpecEnergy2 c.prm.elastic c.prm.rot
      (c.prm.elasticStrainAt (c.pts q).shape (w ∘ c.dofs) -
        c.prm.elasticStrainAt (c.pts q).shape ((0 : ℕ → ℝ) ∘ c.dofs)) ∧
      (SpecEnergy2 c.prm.elastic c.prm.rot (c.prm.elasticStrainAt (c.pts q).shape (w ∘ c.dofs) -
        c.prm.elasticStrainAt (c.pts q).shape ((0 : ℕ → ℝ) ∘ c.dofs)) = 0 →
        SpecElasticStrain c.prm (c.pts q).shape (w ∘ c.dofs) = 0) := by
    intro c hc q
    have hm := h.material c hc
    rw [elasticStrainAt_sub]
    have e : w ∘ c.dofs - (0 : ℕ → ℝ) ∘ c.dofs = w ∘ c.dofs := by funext i; simp
    rw [e]
    have hs : (SpecElasticStrain c.prm (c.pts q).shape (w ∘ c.dofs))ᵀ =
        SpecElasticStrain c.prm (c.pts q).shape (w ∘ c.dofs) :=
      elasticStrain_symm _ _ c.kind ((h.cell c hc).primitive q) _
    by_cases hz : SpecElasticStrain c.prm (c.pts q).shape (w ∘ c.dofs) = 0
    · rw [hz]
      exact ⟨le_of_eq (by simp [SpecEnergy2]), fun _ => rfl⟩
    · have := C32_positive_partial _ hm.elastic hm.char hm.cubic _ _ hm.rot hs hz
      exact ⟨this.le, fun h => absurd h this.ne'⟩
  have nn : ∀ c ∈ cells, ∀ q, 0 ≤ (c.pts q).shape.jxw * (c.prm.dn3 / c.prm.dn0 *
    SpecEnergy2 c.prm.elastic c.prm.rot (c.prm.elasticStrainAt (c.pts q).shape (w ∘ c.dofs) -
      c.prm.elasticStrainAt (c.pts q).shape ((0 : ℕ → ℝ) ∘ c.dofs))) := fun c hc q =>
    mul_nonneg ((h.cell c hc).weight q).le (mul_nonneg
      (div_nonneg (h.material c hc).dn3.le (h.material c hc).dn0.le) (key c hc q).1)
  unfold SpecElasticError at h0
  have h1 := List.single_le_sum (l := cells.map fun c => ∑ q, (c.pts q).shape.jxw * (c.prm.dn3 / c.prm.dn0 *
    SpecEnergy2 c.prm.elastic c.prm.rot (c.prm.elasticStrainAt (c.pts q).shape (w ∘ c.dofs) -
      c.prm.elasticStrainAt (c.pts q).shape ((0 : ℕ → ℝ) ∘ c.dofs)))) (fun x hx => by
      obtain ⟨c, hc, rfl⟩ := List.mem_map.1 hx
      exact sum_nonneg fun q _ => nn c hc q) _ (List.mem_map.2 ⟨c, hc, rfl⟩)
  rw [h0] at h1
  have h2 := (sum_eq_zero_iff_of_nonneg fun q _ => nn c hc q).1
    (le_antisymm h1 (sum_nonneg fun q _ => nn c hc q)) q (mem_univ q)
  refine (key c hc q).2 ?_
  have := (h.cell c hc).weight q
  have := (h.material c hc).dn3
  have := (h.material c hc).dn0
  rcases mul_eq_zero.1 h2 with h3 | h3
  · linarith
  · rcases mul_eq_zero.1 h3 with h4 | h4
    · exact absurd h4 (by positivity)
    · exact h4

theorem exSoftGrains_determined (H f p : ℝ) (h0 : 0 ≤ H) (h1 : H ≤ 4) :
    SpecDetermined ([exSoftLeft H f, exSoftRight H p].map GrainCell.cell) (fun _ => none) 4 := by
  intro w _ he
  have hs := (exSoftGrains H f p h0 h1).body
  obtain ⟨e1, e2, -⟩ := errors_nonneg _ hs w 0
  have hz := elastic_none _ hs w (by linarith)
  have a := hz (exSoftLeft H f).cell (by simp) (0 : Fin 1)
  have b := hz (exSoftRight H p).cell (by simp) (0 : Fin 1)
  have a' : SpecElasticStrain (exSoft H f).prm exShape (w ∘ fun i : Fin 2 => (i : ℕ)) = 0 := a
  have b' : SpecElasticStrain { (exSoft H 0).prm with sys := exGrainB } exShape
    (w ∘ fun i : Fin 2 => (i + 2 : ℕ)) = 0 := b
  have a00 := congrFun (congrFun a' 0) 0
  have a01 := congrFun (congrFun a' 0) 1
  have b11 := congrFun (congrFun b' 1) 1
  have b00 := congrFun (congrFun b' 0) 0
  simp [SpecElasticStrain, Shape.strain, Shape.slip, exShape, exSoft, exCell, exGrainB, Fin.sum_univ_two,
    System.symSchmid, System.schmid, symmetrize, outer] at a00 a01 b11 b00
  have w0 : w 0 = 0 := by linarith
  have w1 : w 1 = 0 := by linarith
  have w3 : w 3 = 0 := by linarith
  have w2 : w 2 = 0 := by linarith
  intro g hg
  interval_cases g <;> assumption

/-- C121 in a concrete case: two grains under arbitrary loads have exactly one solution. -/
example (H f p : ℝ) (h0 : 0 ≤ H) (h1 : H ≤ 4) : ∃ x, SpecGrainSolution [exSoftLeft H f, exSoftRight H p] (fun _ => none) 4 x ∧
    ∀ y, SpecGrainSolution [exSoftLeft H f, exSoftRight H p] (fun _ => none) 4 y → ∀ g < 4, y g = x g := by
  have hK : Homogeneous (fun _ => none) 4 := ⟨fun _ _ h => by simp at h, fun _ _ h => by simp at h, fun _ _ h => by simp at h⟩
  have hd : ∀ c ∈ [exSoftLeft H f, exSoftRight H p], ∀ i, c.cell.dofs i < 4 := by
    intro g hg i
    rcases List.mem_cons.1 hg with rfl | hg
    · show (i : ℕ) < 4
      have := (i : Fin 2).2; omega
    · obtain rfl := List.mem_singleton.1 hg
      show (i : ℕ) + 2 < 4
      have := (i : Fin 2).2; omega
  have hr : ∀ g ∈ [exSoftLeft H f, exSoftRight H p], g.cell.prm.law.rateIndependent = false := by
    intro g hg
    rcases List.mem_cons.1 hg with rfl | hg
    · rfl
    · obtain rfl := List.mem_singleton.1 hg; rfl
  obtain ⟨x, -, hx⟩ := C121_exists _ _ (exSoftGrains H f p h0 h1) hr _ 4 hK hd (exSoftGrains_determined H f p h0 h1) 0
  exact ⟨x, hx, fun y hy => C121_unique _ _ (exSoftGrains H f p h0 h1) _ 4 hK hd (exSoftGrains_determined H f p h0 h1)
    y x hy hx (fun _ _ h => by simp at h)⟩

open Classical in
/-- The step of the two grains, with the trivial solver. -/
noncomputable def exGrainStep (H f p : ℝ) : Lin.Problem 2 where
  n := 4
  aff := fun _ => none
  internal := fun _ => none
  blk := fun g => g % 2
  cells := fun x => [exSoftLeft H f, exSoftRight H p].map fun g => g.local (grainForces x)
  all := fun _ _ => 0
  block := fun _ _ _ => 0
  reduced := fun _ _ => 0
  initial := fun _ => 0
  resetSlips := false
  searchAll := ⟨true, 15, 1e-4⟩
  searchMacro := ⟨false, 15, 1e-4⟩
  searchMicro := ⟨false, 15, 1e-4⟩

/-- The hypotheses of C121_algorithms in the concrete case. -/
example (H f p : ℝ) (h0 : 0 ≤ H) (h1 : H ≤ 4) : ∃ x,
    SpecGrainSolution [exSoftLeft H f, exSoftRight H p] (fun _ => none) 4 x ∧
    ∀ ε > 0, ∃ tol > 0, ∀ (nMax : ℕ) (tolAll : ℝ), tolAll ≤ tol → ∀ (s s' : Lin.Step 2) (k : ℕ),
      Drv.monoRD (exGrainStep H f p).mono nMax tolAll (nMax + 1) 0 s = .returned s' k →
      ∃ y, s'.trial = some y ∧ SpecLength 4 (y - x) < ε := by
  have hstep : SpecGrainStep [exSoftLeft H f, exSoftRight H p] (exGrainStep H f p) := by
    refine ⟨fun x => ⟨fun g => g.local (grainForces x), rfl, fun g _ => ⟨rfl, fun i => rfl⟩⟩,
      ⟨fun _ _ h => by simp [exGrainStep] at h, fun _ _ h => by simp [exGrainStep] at h,
        fun _ _ h => by simp [exGrainStep] at h⟩, fun _ _ h => by simp [exGrainStep] at h,
      fun _ _ h => by simp [exGrainStep] at h, ?_, fun _ _ _ _ _ _ h => by simp [exGrainStep] at h⟩
    intro g hg i
    rcases List.mem_cons.1 hg with rfl | hg
    · show (i : ℕ) < 4
      have := (i : Fin 2).2; omega
    · obtain rfl := List.mem_singleton.1 hg
      show (i : ℕ) + 2 < 4
      have := (i : Fin 2).2; omega
  obtain ⟨x, -, hx, -, hε⟩ := C121_algorithms _ _ (exSoftGrains H f p h0 h1) (by
      intro g hg
      rcases List.mem_cons.1 hg with rfl | hg
      · rfl
      · obtain rfl := List.mem_singleton.1 hg; rfl) (exGrainStep H f p) (exGrainStep H f p) hstep hstep
    ⟨rfl, rfl, rfl, fun g _ => by show g % 2 = 0 ∨ g % 2 = 1; omega⟩ (fun _ _ _ _ _ _ h => by simp [exGrainStep] at h)
    (exSoftGrains_determined H f p h0 h1)
  refine ⟨x, hx, fun ε he => ?_⟩
  obtain ⟨tol, ht, ha, -⟩ := hε ε he
  refine ⟨tol, ht, fun nMax tolAll hle s s' k hret => ?_⟩
  obtain ⟨y, h1, -, h2⟩ := ha nMax tolAll hle s s' k hret
  exact ⟨y, h1, h2⟩

end Verif.Asm
