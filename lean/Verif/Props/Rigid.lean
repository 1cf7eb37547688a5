import Verif.Props.Polycrystal

/-!
# C89: rigid motions and the balance of forces and moments

The whole mesh, with grain boundaries that may open (cohesive and contact tractions), microtractions,
supply terms and loaded faces.
-/

namespace Verif.Asm
open Matrix Finset Verif.Cry Verif.Hist Verif.Micro Verif.Lin Verif.Itf

variable {d e n N : ℕ}

/-! ## Specification -/

/-- Places of the quadrature points of a cell, of its grain boundary faces and of its loaded faces. -/
structure Places (d : ℕ) where
  cell : ℕ → Vec d
  face : ℕ → Vec d
  load : ℕ → Vec d

/-- Infinitesimal rigid motion: translation and spin. -/
noncomputable def SpecMotion (a : Vec d) (W : Mat d) (x : Vec d) : Vec d := a + W *ᵥ x

/-- The degrees of freedom `v` represent the displacement field `x ↦ a + W x` and no slips: values and
strains at all quadrature points are those of the field, on both sides of the grain boundaries. -/
structure SpecRepresents (cells : List (GrainCell d e n N)) (x : GrainCell d e n N → Places d)
    (a : Vec d) (W : Mat d) (v : ℕ → ℝ) : Prop where
  slips : ∀ g ∈ cells, ∀ i α, g.cell.kind i = some α → v (g.cell.dofs i) = 0
  value : ∀ g ∈ cells, ∀ q, (g.cell.pts q).shape.displacement (v ∘ g.cell.dofs) =
    SpecMotion a W ((x g).cell q)
  strain : ∀ g ∈ cells, ∀ q, (g.cell.pts q).shape.strain (v ∘ g.cell.dofs) = (1 / 2 : ℝ) • (W + Wᵀ)
  face : ∀ g ∈ cells, ∀ k, (g.views k).cur.displacement (v ∘ g.cell.dofs) =
      SpecMotion a W ((x g).face k) ∧
    (g.views k).nb.displacement (v ∘ (g.views k).nbDofs) = SpecMotion a W ((x g).face k)
  load : ∀ g ∈ cells, ∀ b, (g.loads b).side.displacement (v ∘ g.cell.dofs) =
    SpecMotion a W ((x g).load b)

/-- deal.II's shape functions: primitive elements in the cells and on the faces, the same on both sides. -/
structure SpecElements (cells : List (GrainCell d e n N)) (kind : Kind n N) : Prop where
  same : ∀ g ∈ cells, g.cell.kind = kind
  shape : ∀ g ∈ cells, ∀ q, (g.cell.pts q).shape.Primitive kind
  cur : ∀ g ∈ cells, ∀ k, (g.views k).cur.Primitive kind
  nb : ∀ g ∈ cells, ∀ k, (g.views k).nb.Primitive kind

/-- Resultant of the supply term on the cells (with its factor in the residual) and of the loads on the
boundary: the power on the motion. -/
noncomputable def SpecAppliedPower (cells : List (GrainCell d e n N)) (x : GrainCell d e n N → Places d)
    (a : Vec d) (W : Mat d) : ℝ :=
  (cells.map fun g =>
    (∑ q : Fin g.cell.Q, g.cell.prm.dn3 / g.cell.prm.dn0 * (g.cell.pts q).shape.jxw *
      (SpecMotion a W ((x g).cell q) ⬝ᵥ (g.cell.pts q).supply)) +
    ∑ b, (g.loads b).jxw * (SpecMotion a W ((x g).load b) ⬝ᵥ (g.loads b).value)).sum

/-- Reaction: the force the rest of the world has to exert on a degree of freedom. -/
noncomputable def SpecReaction (cells : List (GrainCell d e n N)) (R : GrainCell d e n N → Fin N → ℝ)
    (k : ℕ) : ℝ := -(cells.map fun g => ∑ i, if g.cell.dofs i = k then R g i else 0).sum

/-! ## Helpers -/

theorem sumOpt_inv {Q : ℕ} (f : Fin Q → Option ℝ) {r : ℝ} (h : sumOpt f = some r) :
    ∃ g : Fin Q → ℝ, (∀ q, f q = some (g q)) ∧ r = ∑ q, g q := by
  have key : ∀ (l : List (Fin Q)) (acc : Option ℝ) (r : ℝ),
      l.foldl (fun acc q => acc.bind fun x => (f q).map (x + ·)) acc = some r →
      (∃ x, acc = some x) ∧ ∀ q ∈ l, ∃ y, f q = some y := by
    intro l
    induction l with
    | nil => intro acc r h; exact ⟨⟨r, h⟩, by simp⟩
    | cons p t ih =>
      intro acc r h
      obtain ⟨⟨x, hx⟩, ht⟩ := ih _ _ h
      rcases acc with _ | y
      · simp at hx
      · simp only [Option.bind_some] at hx
        rcases hp : f p with _ | z
        · rw [hp] at hx; simp at hx
        · refine ⟨⟨y, rfl⟩, fun q hq => ?_⟩
          rcases List.mem_cons.1 hq with rfl | hq
          · exact ⟨z, hp⟩
          · exact ht q hq
  have h2 := (key _ _ _ h).2
  choose g hg using fun q => h2 q (List.mem_finRange q)
  refine ⟨g, hg, ?_⟩
  rw [sumOpt_some f g hg] at h
  exact (Option.some.inj h).symm

/-- Virtual power of a cell on a variation of the displacements. -/
theorem cell_disp_power {Q : ℕ} (c : CellPrm d n) (kind : Kind n N) (pts : Fin Q → Point d n N)
    (u v : Fin N → ℝ) (hv : SpecDisplacementsOnly kind v) (R : Fin N → ℝ)
    (hR : ∀ i, c.rhs kind pts u i = some (R i)) :
    ∑ i, v i * R i = ∑ q, -(c.dn3 / c.dn0 * (ddot ((pts q).shape.strain v) (c.stressAt (pts q).shape u) -
      (pts q).shape.displacement v ⬝ᵥ (pts q).supply) * (pts q).shape.jxw) := by
  have e1 : ∀ i, v i * R i = ∑ q, v i * -(c.dn3 / c.dn0 *
      (ddot ((pts q).shape.symGrad i) (c.stressAt (pts q).shape u) -
        (pts q).shape.disp i ⬝ᵥ (pts q).supply) * (pts q).shape.jxw) := by
    intro i
    rcases hk : kind i with _ | a
    · have := hR i
      unfold CellPrm.rhs at this
      rw [sumOpt_some _ (fun q => -(c.dn3 / c.dn0 *
        (ddot ((pts q).shape.symGrad i) (c.stressAt (pts q).shape u) -
        (pts q).shape.disp i ⬝ᵥ (pts q).supply) * (pts q).shape.jxw)) fun q => by
          simp only [CellPrm.rhsTerm, hk]] at this
      rw [← Option.some.inj this, Finset.mul_sum]
    · rw [hv i a hk]; simp
  rw [Finset.sum_congr rfl fun i _ => e1 i, Finset.sum_comm]
  refine sum_congr rfl fun q _ => ?_
  unfold Shape.strain Shape.displacement
  rw [ddot_sum_left, sum_dotProduct]
  simp only [ddot_smul_left, smul_dotProduct, smul_eq_mul]
  rw [← Finset.sum_sub_distrib, Finset.mul_sum, Finset.sum_mul, ← Finset.sum_neg_distrib]
  exact sum_congr rfl fun i _ => by ring

theorem flip_flip (f : Face d e n N) : f.flip.flip = f := by
  obtain ⟨dofs, f⟩ := f
  unfold Face.flip View.flip
  simp

/-- The neighbour across a face is a cell of the mesh. -/
theorem neighbour {cells : List (GrainCell d e n N)} {faces : List (Face d e n N)}
    (hp : SpecPaired cells faces) {g : GrainCell d e n N} (hg : g ∈ cells) (k : Fin g.F) :
    ∃ g' ∈ cells, g'.cell.dofs = (g.views k).nbDofs := by
  have hmem : (g.cell.dofs, g.views k) ∈ SpecSeen cells :=
    List.mem_flatMap.2 ⟨g, hg, List.mem_map.2 ⟨g.views k, List.mem_ofFn.2 ⟨k, rfl⟩, rfl⟩⟩
  obtain ⟨f, hf, hmem⟩ := List.mem_flatMap.1 (hp.mem_iff.1 hmem)
  have hflip : Face.flip (g.cell.dofs, g.views k) ∈ SpecSeen cells := by
    refine hp.mem_iff.2 (List.mem_flatMap.2 ⟨f, hf, ?_⟩)
    rcases List.mem_cons.1 hmem with h | h
    · rw [h]; simp
    · rw [List.mem_singleton.1 h, flip_flip]; simp
  obtain ⟨g', hg', h⟩ := List.mem_flatMap.1 hflip
  obtain ⟨w, -, hw⟩ := List.mem_map.1 h
  exact ⟨g', hg', congrArg Prod.fst hw⟩

theorem shape_slip_add (kind : Kind n N) {s : Shape d n N} (hs : s.Primitive kind) (u v : Fin N → ℝ)
    (hv : SpecDisplacementsOnly kind v) : s.slip (u + v) = s.slip u := by
  funext a
  unfold Shape.slip
  refine sum_congr rfl fun i _ => ?_
  by_cases h : kind i = some a
  · rw [Pi.add_apply, hv i a h, add_zero]
  · rw [hs.phi i a h]; simp

theorem shape_slipGrad_add (kind : Kind n N) {s : Shape d n N} (hs : s.Primitive kind) (u v : Fin N → ℝ)
    (hv : SpecDisplacementsOnly kind v) : s.slipGrad (u + v) = s.slipGrad u := by
  funext a
  unfold Shape.slipGrad
  refine sum_congr rfl fun i _ => ?_
  by_cases h : kind i = some a
  · rw [Pi.add_apply, hv i a h, add_zero]
  · rw [hs.grad i a h]; simp

theorem side_slip_add (kind : Kind n N) {s : Side d n N} (hs : s.Primitive kind) (u v : Fin N → ℝ)
    (hv : SpecDisplacementsOnly kind v) : s.slip (u + v) = s.slip u := by
  funext a
  unfold Side.slip
  refine sum_congr rfl fun i _ => ?_
  by_cases h : kind i = some a
  · rw [Pi.add_apply, hv i a h, add_zero]
  · rw [hs.phi i a h]; simp

theorem strain_add (s : Shape d n N) (u v : Fin N → ℝ) : s.strain (u + v) = s.strain u + s.strain v := by
  unfold Shape.strain
  rw [← Finset.sum_add_distrib]
  exact sum_congr rfl fun i _ => by rw [Pi.add_apply, add_smul]

theorem side_disp_add (s : Side d n N) (u v : Fin N → ℝ) :
    s.displacement (u + v) = s.displacement u + s.displacement v := by
  unfold Side.displacement
  rw [← Finset.sum_add_distrib]
  exact sum_congr rfl fun i _ => by rw [Pi.add_apply, add_smul]

theorem skew_strain {W : Mat d} (hW : Wᵀ = -W) : (1 / 2 : ℝ) • (W + Wᵀ) = 0 := by
  rw [hW, add_neg_cancel, smul_zero]

/-! ## C89 -/

/-- C89: a superposed rigid motion changes nothing.  The stress at every quadrature point, the opening of
every grain boundary and every entry of every local right-hand side (also whether it is a number) are
those of the state without the rigid motion. -/
theorem C89_objective {kind : Kind n N} (cells : List (GrainCell d e n N)) (faces : List (Face d e n N))
    (hp : SpecPaired cells faces) (hs : SpecElements cells kind) (x : GrainCell d e n N → Places d)
    (a : Vec d) (W : Mat d) (hW : Wᵀ = -W) (u v : ℕ → ℝ) (hv : SpecRepresents cells x a W v)
    (g : GrainCell d e n N) (hg : g ∈ cells) :
    (∀ q, g.cell.prm.stressAt (g.cell.pts q).shape ((u + v) ∘ g.cell.dofs) =
      g.cell.prm.stressAt (g.cell.pts q).shape (u ∘ g.cell.dofs)) ∧
    (∀ k, opening (g.views k).cur (g.views k).nb ((u + v) ∘ g.cell.dofs) ((u + v) ∘ (g.views k).nbDofs) =
      opening (g.views k).cur (g.views k).nb (u ∘ g.cell.dofs) (u ∘ (g.views k).nbDofs)) ∧
    ∀ i, localRhs g.cell.prm g.cell.kind g.cell.pts g.cell.dofs g.views g.loads (u + v) i =
      localRhs g.cell.prm g.cell.kind g.cell.pts g.cell.dofs g.views g.loads u i := by
  have only : ∀ g ∈ cells, SpecDisplacementsOnly kind (v ∘ g.cell.dofs) := by
    intro g hg i α h
    exact hv.slips g hg i α (by rw [hs.same g hg]; exact h)
  have c1 : ∀ dofs : Fin N → ℕ, (u + v) ∘ dofs = u ∘ dofs + v ∘ dofs := fun _ => rfl
  have hslip : ∀ q, (g.cell.pts q).shape.slip (u ∘ g.cell.dofs + v ∘ g.cell.dofs) =
      (g.cell.pts q).shape.slip (u ∘ g.cell.dofs) := fun q =>
    shape_slip_add kind (hs.shape g hg q) _ _ (only g hg)
  have hgrad : ∀ q, (g.cell.pts q).shape.slipGrad (u ∘ g.cell.dofs + v ∘ g.cell.dofs) =
      (g.cell.pts q).shape.slipGrad (u ∘ g.cell.dofs) := fun q =>
    shape_slipGrad_add kind (hs.shape g hg q) _ _ (only g hg)
  have hσ : ∀ q, g.cell.prm.stressAt (g.cell.pts q).shape (u ∘ g.cell.dofs + v ∘ g.cell.dofs) =
      g.cell.prm.stressAt (g.cell.pts q).shape (u ∘ g.cell.dofs) := by
    intro q
    unfold CellPrm.stressAt CellPrm.elasticStrainAt
    rw [hslip q, strain_add, hv.strain g hg q, skew_strain hW, add_zero]
  have hδ : ∀ k, opening (g.views k).cur (g.views k).nb (u ∘ g.cell.dofs + v ∘ g.cell.dofs)
      (u ∘ (g.views k).nbDofs + v ∘ (g.views k).nbDofs) =
      opening (g.views k).cur (g.views k).nb (u ∘ g.cell.dofs) (u ∘ (g.views k).nbDofs) := by
    intro k
    unfold opening
    rw [side_disp_add, side_disp_add, (hv.face g hg k).1, (hv.face g hg k).2]
    abel
  have hcur : ∀ k, (g.views k).cur.slip (u ∘ g.cell.dofs + v ∘ g.cell.dofs) =
      (g.views k).cur.slip (u ∘ g.cell.dofs) := fun k =>
    side_slip_add kind (hs.cur g hg k) _ _ (only g hg)
  have hnb : ∀ k, (g.views k).nb.slip (u ∘ (g.views k).nbDofs + v ∘ (g.views k).nbDofs) =
      (g.views k).nb.slip (u ∘ (g.views k).nbDofs) := by
    intro k
    obtain ⟨g', hg', h⟩ := neighbour hp hg k
    refine side_slip_add kind (hs.nb g hg k) _ _ ?_
    rw [← h]
    exact only g' hg'
  refine ⟨hσ, hδ, fun i => ?_⟩
  unfold localRhs CellPrm.rhs
  have t1 : (fun q => g.cell.prm.rhsTerm g.cell.kind (g.cell.pts q) ((u + v) ∘ g.cell.dofs) i) =
      fun q => g.cell.prm.rhsTerm g.cell.kind (g.cell.pts q) (u ∘ g.cell.dofs) i := by
    funext q
    unfold CellPrm.rhsTerm
    simp only [c1, hσ, hslip, hgrad]
  have t2 : (fun f => (g.views f).prm.rhsTerm g.cell.kind (g.views f).own (g.views f).other
      (g.views f).nrm (g.views f).jxw (g.views f).hist (g.views f).cur (g.views f).nb
      ((u + v) ∘ g.cell.dofs) ((u + v) ∘ (g.views f).nbDofs) i) =
      fun f => (g.views f).prm.rhsTerm g.cell.kind (g.views f).own (g.views f).other
      (g.views f).nrm (g.views f).jxw (g.views f).hist (g.views f).cur (g.views f).nb
      (u ∘ g.cell.dofs) (u ∘ (g.views f).nbDofs) i := by
    funext k
    unfold FacePrm.rhsTerm
    simp only [c1, hδ, hcur, hnb]
  rw [t1, t2]

/-- Contributions of a cell to the row `i`: of its interior, of its grain boundary faces, of its loads. -/
theorem row_parts {g : GrainCell d e n N} {u : ℕ → ℝ} {i : Fin N} {r : ℝ}
    (h : localRhs g.cell.prm g.cell.kind g.cell.pts g.cell.dofs g.views g.loads u i = some r) :
    ∃ (x : ℝ) (y : Fin g.F → ℝ), g.cell.prm.rhs g.cell.kind g.cell.pts (u ∘ g.cell.dofs) i = some x ∧
      (∀ k, (g.views k).prm.rhsTerm g.cell.kind (g.views k).own (g.views k).other (g.views k).nrm
        (g.views k).jxw (g.views k).hist (g.views k).cur (g.views k).nb (u ∘ g.cell.dofs)
        (u ∘ (g.views k).nbDofs) i = some (y k)) ∧
      r = x + ∑ k, y k + ∑ b, ((g.loads b).side.disp i ⬝ᵥ (g.loads b).value) * (g.loads b).jxw := by
  unfold localRhs at h
  rcases hx : g.cell.prm.rhs g.cell.kind g.cell.pts (u ∘ g.cell.dofs) i with _ | x
  · rw [hx] at h; simp at h
  · rw [hx, Option.bind_some] at h
    obtain ⟨z, hz, h⟩ := Option.map_eq_some_iff.1 h
    obtain ⟨y, hy, rfl⟩ := sumOpt_inv _ hz
    exact ⟨x, y, rfl, hy, h.symm⟩

/-- C89: the internal forces have no resultant.  In any state in which the right-hand sides are numbers,
their power on a rigid motion is the power of the supply term and of the loads: stresses, microstresses,
cohesive, contact and microscopic tractions contribute nothing.  With `W = 0` these are the forces, with
`a = 0` the moments. -/
theorem C89_resultant {kind : Kind n N} (cells : List (GrainCell d e n N)) (faces : List (Face d e n N))
    (hp : SpecPaired cells faces) (hs : SpecElements cells kind) (x : GrainCell d e n N → Places d)
    (a : Vec d) (W : Mat d) (hW : Wᵀ = -W) (u v : ℕ → ℝ) (hv : SpecRepresents cells x a W v)
    (R : GrainCell d e n N → Fin N → ℝ) (hR : SpecGrainAssembled cells u R) :
    (cells.map fun g => ∑ i, v (g.cell.dofs i) * R g i).sum = SpecAppliedPower cells x a W := by
  have only : ∀ g ∈ cells, SpecDisplacementsOnly kind (v ∘ g.cell.dofs) := by
    intro g hg i α h
    exact hv.slips g hg i α (by rw [hs.same g hg]; exact h)
  -- forces of a face on the cell that sees it
  have vf : ∀ g ∈ cells, ∀ k i, (g.views k).prm.rhsTerm kind (g.views k).own (g.views k).other
      (g.views k).nrm (g.views k).jxw (g.views k).hist (g.views k).cur (g.views k).nb (u ∘ g.cell.dofs)
      (u ∘ (g.views k).nbDofs) i = some (viewForce kind (g.cell.dofs, g.views k) u i) := by
    intro g hg k i
    obtain ⟨-, y, -, hy, -⟩ := row_parts (hR g hg i)
    have := hy k
    rw [hs.same g hg] at this
    unfold viewForce
    simp only
    rw [this]
    rfl
  have seen : ∀ f ∈ SpecSeen cells, (∀ i, f.2.prm.rhsTerm kind f.2.own f.2.other f.2.nrm f.2.jxw f.2.hist
      f.2.cur f.2.nb (u ∘ f.1) (u ∘ f.2.nbDofs) i = some (viewForce kind f u i)) ∧
      SpecDisplacementsOnly kind (v ∘ f.1) ∧
      f.2.cur.displacement (v ∘ f.1) = f.2.nb.displacement (v ∘ f.2.nbDofs) := by
    intro f hf
    obtain ⟨g, hg, h⟩ := List.mem_flatMap.1 hf
    obtain ⟨w, hw, rfl⟩ := List.mem_map.1 h
    obtain ⟨k, rfl⟩ := List.mem_ofFn.1 hw
    exact ⟨vf g hg k, only g hg, (hv.face g hg k).1.trans (hv.face g hg k).2.symm⟩
  have pair : ∀ f ∈ faces, ∑ i, v (f.1 i) * viewForce kind f u i +
      ∑ i, v (f.flip.1 i) * viewForce kind f.flip u i = 0 := by
    intro f hf
    have h1 := seen f (hp.mem_iff.2 (List.mem_flatMap.2 ⟨f, hf, by simp⟩))
    have h2 := seen f.flip (hp.mem_iff.2 (List.mem_flatMap.2 ⟨f, hf, by simp⟩))
    exact C52_balance f.2.prm kind f.2.own f.2.other f.2.nrm f.2.jxw f.2.hist f.2.cur f.2.nb (u ∘ f.1)
      (u ∘ f.2.nbDofs) (v ∘ f.1) (v ∘ f.2.nbDofs) h1.2.1 h2.2.1 h1.2.2 _ _ h1.1 h2.1
  have zero : (cells.map fun g => ∑ k, ∑ i, v (g.cell.dofs i) *
      viewForce kind (g.cell.dofs, g.views k) u i).sum = 0 := by
    have e3 : ((SpecSeen cells).map fun f => ∑ i, v (f.1 i) * viewForce kind f u i).sum =
        (cells.map fun g => ∑ k, ∑ i, v (g.cell.dofs i) *
          viewForce kind (g.cell.dofs, g.views k) u i).sum := by
      unfold SpecSeen
      rw [List.map_flatMap, List.flatMap_def, List.sum_flatten, List.map_map]
      congr 1
      refine List.map_congr_left fun g _ => ?_
      simp only [Function.comp_apply, List.map_map]
      rw [List.map_ofFn, List.sum_ofFn]
      rfl
    have e2 : ((SpecSeen cells).map fun f => ∑ i, v (f.1 i) * viewForce kind f u i).sum =
        (faces.map fun f => ∑ i, v (f.1 i) * viewForce kind f u i +
          ∑ i, v (f.flip.1 i) * viewForce kind f.flip u i).sum := by
      rw [(hp.map _).sum_eq, List.map_flatMap, List.flatMap_def, List.sum_flatten, List.map_map]
      congr 1
      refine List.map_congr_left fun f _ => ?_
      simp
    rw [← e3, e2, List.map_congr_left pair]
    simp
  have main : (cells.map fun g => ∑ i, v (g.cell.dofs i) * R g i).sum = SpecAppliedPower cells x a W +
      (cells.map fun g => ∑ k, ∑ i, v (g.cell.dofs i) *
        viewForce kind (g.cell.dofs, g.views k) u i).sum := by
    unfold SpecAppliedPower
    rw [← List.sum_map_add]
    congr 1
    refine List.map_congr_left fun g hg => ?_
    choose c y hc hy hr using fun i => row_parts (hR g hg i)
    have hyv : ∀ i k, y i k = viewForce kind (g.cell.dofs, g.views k) u i := by
      intro i k
      have h1 := hy i k
      rw [hs.same g hg, vf g hg k i] at h1
      exact (Option.some.inj h1).symm
    have hcell := cell_disp_power g.cell.prm g.cell.kind g.cell.pts (u ∘ g.cell.dofs) (v ∘ g.cell.dofs)
      (by rw [hs.same g hg]; exact only g hg) c hc
    have hq : ∑ q, -(g.cell.prm.dn3 / g.cell.prm.dn0 *
        (ddot ((g.cell.pts q).shape.strain (v ∘ g.cell.dofs))
          (g.cell.prm.stressAt (g.cell.pts q).shape (u ∘ g.cell.dofs)) -
        (g.cell.pts q).shape.displacement (v ∘ g.cell.dofs) ⬝ᵥ (g.cell.pts q).supply) *
        (g.cell.pts q).shape.jxw) =
        ∑ q : Fin g.cell.Q, g.cell.prm.dn3 / g.cell.prm.dn0 * (g.cell.pts q).shape.jxw *
          (SpecMotion a W ((x g).cell q) ⬝ᵥ (g.cell.pts q).supply) := by
      refine sum_congr rfl fun q _ => ?_
      rw [hv.strain g hg q, skew_strain hW, hv.value g hg q]
      have : ddot (0 : Mat d) (g.cell.prm.stressAt (g.cell.pts q).shape (u ∘ g.cell.dofs)) = 0 := by
        simp [ddot]
      rw [this]; ring
    have hb : ∑ b, (g.loads b).jxw * (SpecMotion a W ((x g).load b) ⬝ᵥ (g.loads b).value) =
        ∑ i, v (g.cell.dofs i) *
          ∑ b, ((g.loads b).side.disp i ⬝ᵥ (g.loads b).value) * (g.loads b).jxw := by
      simp only [Finset.mul_sum]
      rw [Finset.sum_comm]
      refine sum_congr rfl fun b _ => ?_
      rw [← hv.load g hg b]
      unfold Side.displacement
      rw [sum_dotProduct, Finset.mul_sum]
      refine sum_congr rfl fun i _ => ?_
      rw [smul_dotProduct, smul_eq_mul, Function.comp_apply]
      ring
    have hk : ∑ k, ∑ i, v (g.cell.dofs i) * viewForce kind (g.cell.dofs, g.views k) u i =
        ∑ i, v (g.cell.dofs i) * ∑ k, y i k := by
      rw [Finset.sum_comm]
      refine sum_congr rfl fun i _ => ?_
      rw [Finset.mul_sum]
      exact sum_congr rfl fun k _ => by rw [hyv]
    rw [← hq, ← hcell, hb, hk, ← Finset.sum_add_distrib, ← Finset.sum_add_distrib]
    refine sum_congr rfl fun i _ => ?_
    rw [hr i, Function.comp_apply]
    ring
  rw [main, zero, add_zero]

theorem all_reactions {kind : Kind n N} (cells : List (GrainCell d e n N)) (faces : List (Face d e n N))
    (hp : SpecPaired cells faces) (hs : SpecElements cells kind) (x : GrainCell d e n N → Places d)
    (a : Vec d) (W : Mat d) (hW : Wᵀ = -W) (u v : ℕ → ℝ) (hv : SpecRepresents cells x a W v)
    (R : GrainCell d e n N → Fin N → ℝ) (hR : SpecGrainAssembled cells u R)
    (m : ℕ) (hm : ∀ g ∈ cells, ∀ i, g.cell.dofs i < m) :
    ∑ k ∈ range m, v k * SpecReaction cells R k + SpecAppliedPower cells x a W = 0 := by
  have h := C89_resultant cells faces hp hs x a W hW u v hv R hR
  have h2 : ∀ l : List (GrainCell d e n N), (∀ g ∈ l, ∀ i, g.cell.dofs i < m) →
      ∑ k ∈ range m, v k * SpecReaction l R k =
      -(l.map fun g => ∑ i, v (g.cell.dofs i) * R g i).sum := by
    intro l hl
    unfold SpecReaction
    simp only [mul_neg, Finset.sum_neg_distrib, neg_inj]
    induction l with
    | nil => simp
    | cons g t ih =>
      simp only [List.map_cons, List.sum_cons, mul_add, Finset.sum_add_distrib]
      rw [ih fun g' hg' => hl g' (List.mem_cons_of_mem _ hg')]
      congr 1
      simp only [Finset.mul_sum]
      rw [Finset.sum_comm]
      refine sum_congr rfl fun i _ => ?_
      rw [Finset.sum_eq_single (g.cell.dofs i)]
      · rw [if_pos rfl]
      · intro k _ hk
        rw [if_neg (Ne.symm hk), mul_zero]
      · intro hk
        exact absurd (mem_range.2 (hl g (by simp) i)) hk
  rw [h2 cells hm, h]
  ring

/-- C89: the reactions balance the applied loads.  If the residual vanishes at the degrees of freedom that
are not prescribed, the reactions at the prescribed ones together with the supply term and the loads do no
work on rigid motions: resultant force and resultant moment vanish. -/
theorem C89_reactions {kind : Kind n N} (cells : List (GrainCell d e n N)) (faces : List (Face d e n N))
    (hp : SpecPaired cells faces) (hs : SpecElements cells kind) (x : GrainCell d e n N → Places d)
    (a : Vec d) (W : Mat d) (hW : Wᵀ = -W) (u v : ℕ → ℝ) (hv : SpecRepresents cells x a W v)
    (R : GrainCell d e n N → Fin N → ℝ) (hR : SpecGrainAssembled cells u R)
    (m : ℕ) (hm : ∀ g ∈ cells, ∀ i, g.cell.dofs i < m) (P : Finset ℕ) (hP : P ⊆ range m)
    (free : ∀ k < m, k ∉ P → SpecReaction cells R k = 0) :
    ∑ k ∈ P, v k * SpecReaction cells R k + SpecAppliedPower cells x a W = 0 := by
  have h1 : ∑ k ∈ P, v k * SpecReaction cells R k = ∑ k ∈ range m, v k * SpecReaction cells R k := by
    refine Finset.sum_subset hP fun k hk hk' => ?_
    rw [free k (mem_range.1 hk) hk', mul_zero]
  rw [h1]
  exact all_reactions cells faces hp hs x a W hW u v hv R hR m hm

/-- C89 with residuals that are merely small, as the solver accepts them: the imbalance is at most the
tolerance times the size of the motion. -/
theorem C89_reactions_tolerance {kind : Kind n N} (cells : List (GrainCell d e n N))
    (faces : List (Face d e n N))
    (hp : SpecPaired cells faces) (hs : SpecElements cells kind) (x : GrainCell d e n N → Places d)
    (a : Vec d) (W : Mat d) (hW : Wᵀ = -W) (u v : ℕ → ℝ) (hv : SpecRepresents cells x a W v)
    (R : GrainCell d e n N → Fin N → ℝ) (hR : SpecGrainAssembled cells u R)
    (m : ℕ) (hm : ∀ g ∈ cells, ∀ i, g.cell.dofs i < m) (P : Finset ℕ) (hP : P ⊆ range m) (tol : ℝ)
    (small : √(∑ k ∈ range m \ P, SpecReaction cells R k ^ 2) ≤ tol) :
    |∑ k ∈ P, v k * SpecReaction cells R k + SpecAppliedPower cells x a W| ≤
      tol * √(∑ k ∈ range m \ P, v k ^ 2) := by
  have h := all_reactions cells faces hp hs x a W hW u v hv R hR m hm
  rw [← Finset.sum_sdiff hP] at h
  have e : ∑ k ∈ P, v k * SpecReaction cells R k + SpecAppliedPower cells x a W =
      -∑ k ∈ range m \ P, v k * SpecReaction cells R k := by linarith
  rw [e, abs_neg]
  have cs := Finset.sum_mul_sq_le_sq_mul_sq (range m \ P) v (SpecReaction cells R)
  calc |∑ k ∈ range m \ P, v k * SpecReaction cells R k|
      = √((∑ k ∈ range m \ P, v k * SpecReaction cells R k) ^ 2) := (Real.sqrt_sq_eq_abs _).symm
    _ ≤ √((∑ k ∈ range m \ P, v k ^ 2) * ∑ k ∈ range m \ P, SpecReaction cells R k ^ 2) :=
        Real.sqrt_le_sqrt cs
    _ = √(∑ k ∈ range m \ P, v k ^ 2) * √(∑ k ∈ range m \ P, SpecReaction cells R k ^ 2) :=
        Real.sqrt_mul (sum_nonneg fun _ _ => sq_nonneg _) _
    _ ≤ √(∑ k ∈ range m \ P, v k ^ 2) * tol := mul_le_mul_of_nonneg_left small (Real.sqrt_nonneg _)
    _ = tol * √(∑ k ∈ range m \ P, v k ^ 2) := mul_comm _ _

/-! ## A concrete case

Two linear triangles, `(0,0) (1,0) (1,1)` and `(1,0) (2,0) (1,1)`, of two crystals; the grain boundary
`x = 1` may open.  Degrees of freedom: displacements of the three nodes, then one slip per cell. -/

/-- Kinds of the seven degrees of freedom of a triangle. -/
def triKind : Kind 1 7 := fun i => if i = 6 then some 0 else none

/-- Vector values of the displacement shape functions from the scalar ones. -/
noncomputable def triDisp (φ : Fin 3 → ℝ) : Fin 7 → Vec 2 :=
  fun i => match i with
    | 0 => ![φ 0, 0]
    | 1 => ![0, φ 0]
    | 2 => ![φ 1, 0]
    | 3 => ![0, φ 1]
    | 4 => ![φ 2, 0]
    | 5 => ![0, φ 2]
    | 6 => 0

/-- Symmetric gradients from the gradients of the scalar shape functions. -/
noncomputable def triGrad (g : Fin 3 → Vec 2) : Fin 7 → Mat 2 :=
  fun i => match i with
    | 0 => !![g 0 0, g 0 1 / 2; g 0 1 / 2, 0]
    | 1 => !![0, g 0 0 / 2; g 0 0 / 2, g 0 1]
    | 2 => !![g 1 0, g 1 1 / 2; g 1 1 / 2, 0]
    | 3 => !![0, g 1 0 / 2; g 1 0 / 2, g 1 1]
    | 4 => !![g 2 0, g 2 1 / 2; g 2 1 / 2, 0]
    | 5 => !![0, g 2 0 / 2; g 2 0 / 2, g 2 1]
    | 6 => 0

noncomputable def triSlip : Fin 1 → Fin 7 → ℝ := fun _ i => if i = 6 then 1 else 0

noncomputable def triShape (g : Fin 3 → Vec 2) : Shape 2 1 7 :=
  ⟨1 / 2, triDisp fun _ => 1 / 3, triGrad g, triSlip, fun _ _ => 0⟩

noncomputable def triSide (φ : Fin 3 → ℝ) : Side 2 1 7 := ⟨triDisp φ, triSlip⟩

/-- The grain boundary as the left triangle sees it: midpoint `(1, 1/2)`; it was opened before. -/
noncomputable def triView : View 2 1 1 7 :=
  ⟨exFace true, exGrainA, exGrainB, ![1, 0], 1, ⟨0, 1, 0, 0, 0⟩, triSide ![0, 1 / 2, 1 / 2],
    triSide ![1 / 2, 0, 1 / 2], fun i => i + 7⟩

noncomputable def triCell (sys : Fin 1 → System 2) (g : Fin 3 → Vec 2) (dofs : Fin 7 → ℕ) :
    MeshCell 2 1 7 :=
  ⟨{ exCell false 7 with sys := sys }, triKind, dofs, 1,
    fun _ => ⟨triShape g, ![0, -1], Bulk.init ⟨1, 7, 1, 1, false⟩ 1, fun _ => 3⟩⟩

/-- Left triangle under its weight, right triangle under its weight and loaded at the middle `(3/2, 1/2)` of
its free face. -/
noncomputable def triLeft : GrainCell 2 1 1 7 :=
  ⟨triCell exGrainA ![![-1, 0], ![1, -1], ![0, 1]] fun i => i, 1, fun _ => triView, 0, fun b => b.elim0⟩
noncomputable def triRight : GrainCell 2 1 1 7 :=
  ⟨triCell exGrainB ![![-1, -1], ![1, 0], ![0, 1]] fun i => i + 7, 1, fun _ => triView.flip fun i => i, 1,
    fun _ => ⟨triSide ![0, 1 / 2, 1 / 2], ![2, 5], 1⟩⟩

/-- Centroids, middle of the grain boundary, loaded point. -/
noncomputable def triPlaces (g : GrainCell 2 1 1 7) : Places 2 :=
  ⟨fun _ => if g.B = 0 then ![2 / 3, 1 / 3] else ![4 / 3, 1 / 3], fun _ => ![1, 1 / 2],
    fun _ => ![3 / 2, 1 / 2]⟩

/-- Nodal values of the motion with translation `a` and spin `w`. -/
noncomputable def triMotion (a : Vec 2) (w : ℝ) (k : ℕ) : ℝ :=
  match k with
  | 0 => a 0
  | 1 => a 1
  | 2 => a 0
  | 3 => a 1 + w
  | 4 => a 0 - w
  | 5 => a 1 + w
  | 7 => a 0
  | 8 => a 1 + w
  | 9 => a 0
  | 10 => a 1 + 2 * w
  | 11 => a 0 - w
  | 12 => a 1 + w
  | _ => 0

theorem tri_paired : SpecPaired [triLeft, triRight] [(fun i => i, triView)] := List.Perm.refl _

theorem tri_elements : SpecElements [triLeft, triRight] triKind := by
  have hs : ∀ g, (triShape g).Primitive triKind := by
    intro g
    constructor
    · intro i α h; fin_cases i <;> simp [triKind] at h; rfl
    · intro i α h; fin_cases i <;> simp [triKind] at h; rfl
    · intro i α h
      obtain rfl : α = 0 := Subsingleton.elim _ _
      fin_cases i <;> simp [triKind, triShape, triSlip] at h ⊢
    · intro i α h; rfl
    · intro i
      fin_cases i <;> ext r c <;> fin_cases r <;> fin_cases c <;> rfl
  have hf : ∀ φ, (triSide φ).Primitive triKind := by
    intro φ
    constructor
    · intro i α h; fin_cases i <;> simp [triKind] at h; rfl
    · intro i α h
      obtain rfl : α = 0 := Subsingleton.elim _ _
      fin_cases i <;> simp [triKind, triSide, triSlip] at h ⊢
  constructor
  · intro g hg
    rcases List.mem_cons.1 hg with rfl | hg
    · rfl
    · obtain rfl := List.mem_singleton.1 hg; rfl
  · intro g hg q
    rcases List.mem_cons.1 hg with rfl | hg
    · exact hs _
    · obtain rfl := List.mem_singleton.1 hg; exact hs _
  · intro g hg k
    rcases List.mem_cons.1 hg with rfl | hg
    · exact hf _
    · obtain rfl := List.mem_singleton.1 hg; exact hf _
  · intro g hg k
    rcases List.mem_cons.1 hg with rfl | hg
    · exact hf _
    · obtain rfl := List.mem_singleton.1 hg; exact hf _

theorem tri_represents (a : Vec 2) (w : ℝ) :
    SpecRepresents [triLeft, triRight] triPlaces a !![0, -w; w, 0] (triMotion a w) := by
  have l : (triMotion a w) ∘ triLeft.cell.dofs =
      ![a 0, a 1, a 0, a 1 + w, a 0 - w, a 1 + w, 0] := by
    funext i; fin_cases i <;> rfl
  have r : (triMotion a w) ∘ triRight.cell.dofs =
      ![a 0, a 1 + w, a 0, a 1 + 2 * w, a 0 - w, a 1 + w, 0] := by
    funext i; fin_cases i <;> rfl
  have disp : ∀ (φ : Fin 3 → ℝ) (y : Fin 7 → ℝ), ∑ j, y j • triDisp φ j =
      ![y 0 * φ 0 + y 2 * φ 1 + y 4 * φ 2, y 1 * φ 0 + y 3 * φ 1 + y 5 * φ 2] := by
    intro φ y
    funext c
    fin_cases c <;> simp [triDisp, Fin.sum_univ_seven]
  have e0 : (1 / 2 : ℝ) • (!![0, -w; w, 0] + (!![0, -w; w, 0] : Mat 2)ᵀ) = 0 := by
    ext i j; fin_cases i <;> fin_cases j <;> simp
  constructor
  · intro g hg i α h
    rcases List.mem_cons.1 hg with rfl | hg
    · fin_cases i <;> first | rfl | simp [triLeft, triCell, triKind] at h
    · obtain rfl := List.mem_singleton.1 hg
      fin_cases i <;> first | rfl | simp [triRight, triCell, triKind] at h
  · intro g hg q
    rcases List.mem_cons.1 hg with rfl | hg
    · rw [l]
      refine (disp (fun _ => 1 / 3) _).trans ?_
      funext c
      fin_cases c <;> simp [SpecMotion, triPlaces, triLeft] <;> ring
    · obtain rfl := List.mem_singleton.1 hg
      rw [r]
      refine (disp (fun _ => 1 / 3) _).trans ?_
      funext c
      fin_cases c <;> simp [SpecMotion, triPlaces, triRight] <;> ring
  · intro g hg q
    rw [e0]
    rcases List.mem_cons.1 hg with rfl | hg
    · rw [l]
      show ∑ j, _ • triGrad _ j = 0
      ext i j
      fin_cases i <;> fin_cases j <;> simp [triGrad, Fin.sum_univ_seven, Matrix.add_apply] <;> ring
    · obtain rfl := List.mem_singleton.1 hg
      rw [r]
      show ∑ j, _ • triGrad _ j = 0
      ext i j
      fin_cases i <;> fin_cases j <;> simp [triGrad, Fin.sum_univ_seven, Matrix.add_apply] <;> ring
  · intro g hg k
    have hl := (disp ![0, 1 / 2, 1 / 2] ![a 0, a 1, a 0, a 1 + w, a 0 - w, a 1 + w, 0])
    have hr := (disp ![1 / 2, 0, 1 / 2] ![a 0, a 1 + w, a 0, a 1 + 2 * w, a 0 - w, a 1 + w, 0])
    have hl' : ∑ j, (![a 0, a 1, a 0, a 1 + w, a 0 - w, a 1 + w, 0] : Fin 7 → ℝ) j •
        triDisp ![0, 1 / 2, 1 / 2] j = SpecMotion a !![0, -w; w, 0] ![1, 1 / 2] := by
      rw [hl]; funext c
      fin_cases c <;> simp [SpecMotion] <;> ring
    have hr' : ∑ j, (![a 0, a 1 + w, a 0, a 1 + 2 * w, a 0 - w, a 1 + w, 0] : Fin 7 → ℝ) j •
        triDisp ![1 / 2, 0, 1 / 2] j = SpecMotion a !![0, -w; w, 0] ![1, 1 / 2] := by
      rw [hr]; funext c
      fin_cases c <;> simp [SpecMotion] <;> ring
    have l' : (triMotion a w) ∘ (fun i : Fin 7 => (i : ℕ)) = _ := l
    have r' : (triMotion a w) ∘ (fun i : Fin 7 => (i + 7 : ℕ)) = _ := r
    rcases List.mem_cons.1 hg with rfl | hg
    · rw [l]; exact ⟨hl', by rw [show (triLeft.views k).nbDofs = fun i : Fin 7 => (i + 7 : ℕ) from rfl, r']; exact hr'⟩
    · obtain rfl := List.mem_singleton.1 hg
      rw [r]; exact ⟨hr', by rw [show (triRight.views k).nbDofs = fun i : Fin 7 => (i : ℕ) from rfl, l']; exact hl'⟩
  · intro g hg b
    rcases List.mem_cons.1 hg with rfl | hg
    · exact b.elim0
    · obtain rfl := List.mem_singleton.1 hg
      rw [r]
      refine (disp ![0, 1 / 2, 1 / 2] _).trans ?_
      funext c
      fin_cases c <;> simp [SpecMotion, triPlaces] <;> ring

/-- In every state the right-hand sides are numbers. -/
theorem tri_assembled (u : ℕ → ℝ) : ∃ R, SpecGrainAssembled [triLeft, triRight] u R := by
  refine ⟨fun g i => (localRhs g.cell.prm g.cell.kind g.cell.pts g.cell.dofs g.views g.loads u i).getD 0,
    fun g hg i => ?_⟩
  have hc : ∀ sys gr dofs, ∃ x, (triCell sys gr dofs).prm.rhs (triCell sys gr dofs).kind
      (triCell sys gr dofs).pts (u ∘ dofs) i = some x := by
    intro sys gr dofs
    refine ⟨_, sumOpt_some _ (fun q => ((triCell sys gr dofs).prm.rhsTerm (triCell sys gr dofs).kind
      ((triCell sys gr dofs).pts q) (u ∘ dofs) i).getD 0) fun q => ?_⟩
    unfold CellPrm.rhsTerm
    rcases (triCell sys gr dofs).kind i with _ | a
    · rfl
    · simp only
      rw [microstress_eq _ (by simp [triCell, exCell])]
      rfl
  have hf : ∀ (ca cb : Crystal 2 1) (nrm : Vec 2) (A B : Side 2 1 7) (x y : Fin 7 → ℝ),
      ∃ z, (exFace true).rhsTerm triKind ca cb nrm 1 ⟨0, 1, 0, 0, 0⟩ A B x y i = some z := by
    intro ca cb nrm A B x y
    unfold FacePrm.rhsTerm
    rcases triKind i with _ | a
    · simp only [exFace, if_true]
      have : ∃ t, (⟨1, 1, 1, 1, 1⟩ : Coh).traction (opening A B x y) nrm 1 0 1 = some t := by
        unfold Coh.traction
        simp only
        split
        · exact ⟨_, rfl⟩
        · rw [if_neg one_ne_zero]; exact ⟨_, rfl⟩
        · exact ⟨_, rfl⟩
      obtain ⟨t, ht⟩ := this
      rw [ht]
      exact ⟨_, rfl⟩
    · simp only [exFace, if_true]
      exact ⟨_, rfl⟩
  have join : ∀ g : GrainCell 2 1 1 7, ∀ x, g.cell.prm.rhs g.cell.kind g.cell.pts (u ∘ g.cell.dofs) i =
      some x → ∀ y, (sumOpt fun f => (g.views f).prm.rhsTerm g.cell.kind (g.views f).own (g.views f).other
        (g.views f).nrm (g.views f).jxw (g.views f).hist (g.views f).cur (g.views f).nb (u ∘ g.cell.dofs)
        (u ∘ (g.views f).nbDofs) i) = some y →
      ∃ x, localRhs g.cell.prm g.cell.kind g.cell.pts g.cell.dofs g.views g.loads u i = some x := by
    intro g x hx y hy
    unfold localRhs
    rw [hx, Option.bind_some, hy]
    exact ⟨_, rfl⟩
  have : ∃ x, localRhs g.cell.prm g.cell.kind g.cell.pts g.cell.dofs g.views g.loads u i = some x := by
    rcases List.mem_cons.1 hg with rfl | hg
    · obtain ⟨x, hx⟩ := hc exGrainA ![![-1, 0], ![1, -1], ![0, 1]] fun i => i
      choose z hz using fun k : Fin 1 => hf exGrainA exGrainB ![1, 0] (triSide ![0, 1 / 2, 1 / 2])
        (triSide ![1 / 2, 0, 1 / 2]) (u ∘ fun i : Fin 7 => (i : ℕ)) (u ∘ fun i : Fin 7 => (i + 7 : ℕ))
      exact join _ x hx _ (sumOpt_some _ z hz)
    · obtain rfl := List.mem_singleton.1 hg
      obtain ⟨x, hx⟩ := hc exGrainB ![![-1, -1], ![1, 0], ![0, 1]] fun i => i + 7
      choose z hz using fun k : Fin 1 => hf exGrainB exGrainA (-![1, 0]) (triSide ![1 / 2, 0, 1 / 2])
        (triSide ![0, 1 / 2, 1 / 2]) (u ∘ fun i : Fin 7 => (i + 7 : ℕ)) (u ∘ fun i : Fin 7 => (i : ℕ))
      exact join _ x hx _ (sumOpt_some _ z hz)
  obtain ⟨x, hx⟩ := this
  show _ = some (Option.getD _ 0)
  rw [hx]
  rfl

/-- Whatever the state, the forces on the two triangles have the moment of the load and the weights. -/
example (u : ℕ → ℝ) : ∃ R, SpecGrainAssembled [triLeft, triRight] u R ∧
    ([triLeft, triRight].map fun g => ∑ i, triMotion 0 1 (g.cell.dofs i) * R g i).sum = 4 := by
  obtain ⟨R, hR⟩ := tri_assembled u
  refine ⟨R, hR, (C89_resultant _ _ tri_paired tri_elements triPlaces 0 !![0, -1; 1, 0] (by
    ext i j; fin_cases i <;> fin_cases j <;> simp) u _ (tri_represents 0 1) R hR).trans ?_⟩
  simp [SpecAppliedPower, SpecMotion, triLeft, triRight, triPlaces, triCell, triShape, exCell]
  norm_num

end Verif.Asm
