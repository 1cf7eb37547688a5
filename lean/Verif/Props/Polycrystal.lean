import Verif.Model.Polycrystal
import Verif.Props.EnergyRun
import Verif.Props.Unique
import Verif.Props.Face

/-!
# Energy balance and uniqueness for polycrystals (C83, C84)

The mesh has grain boundary faces with microtraction (or without any condition) and loaded faces;
displacements do not jump.
-/

namespace Verif.Asm
open Matrix Finset Verif.Cry Verif.Hist Verif.Micro Verif.Lin Verif.Itf

variable {d e n N : ℕ}

/-! ## Specification -/

/-- A cell with the quadrature points of its grain boundary faces and of its loaded faces. -/
structure GrainCell (d e n N : ℕ) where
  cell : MeshCell d n N
  F : ℕ
  views : Fin F → View d e n N
  B : ℕ
  loads : Fin B → Loaded d n N

/-- A grain boundary face: degrees of freedom of the first cell and what that cell sees. -/
abbrev Face (d e n N : ℕ) := (Fin N → ℕ) × View d e n N

/-- The same face from the other cell. -/
def Face.flip (f : Face d e n N) : Face d e n N := (f.2.nbDofs, f.2.flip f.1)

/-- Everything the cells see of grain boundaries. -/
def SpecSeen (cells : List (GrainCell d e n N)) : List (Face d e n N) :=
  cells.flatMap fun g => (List.ofFn g.views).map fun f => (g.cell.dofs, f)

/-- Each grain boundary face is seen by exactly its two cells, from opposite sides. -/
def SpecPaired (cells : List (GrainCell d e n N)) (faces : List (Face d e n N)) : Prop :=
  (SpecSeen cells).Perm (faces.flatMap fun f : Face d e n N => [f, f.flip])

/-- A grain boundary at which displacements do not jump, with admissible parameters. -/
structure SpecFace (kind : Kind n N) (f : Face d e n N) : Prop where
  closed : f.2.prm.decohesion = false
  lat : Lateral f.2.prm.lat
  cur : f.2.cur.Primitive kind
  nb : f.2.nb.Primitive kind
  weight : 0 < f.2.jxw
  dn2 : 0 ≤ f.2.prm.dn2
  modulus : 0 ≤ f.2.prm.micro.modulus
  char : 0 < f.2.prm.micro.char

/-- Energy a grain boundary face stores in the incompatibility of the slips, if microtractions act. -/
noncomputable def SpecFaceEnergy (f : Face d e n N) (u : ℕ → ℝ) : ℝ :=
  if f.2.prm.microtraction then
    SpecSlipEnergy f.2.prm f.2.hist f.2.own f.2.other f.2.nrm f.2.jxw f.2.cur f.2.nb (u ∘ f.1)
      (u ∘ f.2.nbDofs)
  else 0

/-- Energy stored in the grains and the grain boundaries. -/
noncomputable def SpecGrainEnergy (cells : List (GrainCell d e n N)) (faces : List (Face d e n N))
    (u : ℕ → ℝ) : ℝ :=
  SpecStored (cells.map GrainCell.cell) u + (faces.map fun f => SpecFaceEnergy f u).sum

/-- Work of the loads at the boundary of the body on the displacement increment `w`. -/
noncomputable def SpecLoadWork (cells : List (GrainCell d e n N)) (w : ℕ → ℝ) : ℝ :=
  (cells.map fun g => ∑ b, (g.loads b).jxw *
    ((g.loads b).side.displacement (w ∘ g.cell.dofs) ⬝ᵥ (g.loads b).value)).sum

/-- `R` is the whole local right-hand side in the state `u`. -/
def SpecGrainAssembled (cells : List (GrainCell d e n N)) (u : ℕ → ℝ)
    (R : GrainCell d e n N → Fin N → ℝ) : Prop := ∀ g ∈ cells, ∀ i,
  localRhs g.cell.prm g.cell.kind g.cell.pts g.cell.dofs g.views g.loads u i = some (R g i)

/-- Work of the forces the rest of the world exerts on the degrees of freedom on the increment `w`. -/
noncomputable def SpecGrainWork (cells : List (GrainCell d e n N)) (R : GrainCell d e n N → Fin N → ℝ)
    (w : ℕ → ℝ) : ℝ := (cells.map fun g => ∑ i, w (g.cell.dofs i) * -R g i).sum

/-- The cells as the global assembly sees them. -/
noncomputable def GrainCell.local (g : GrainCell d e n N) (R : GrainCell d e n N → Fin N → ℝ) : Local N :=
  ⟨g.cell.dofs, fun _ _ => 0, R g, fun _ => 0, []⟩

/-- Net Burgers tensor of the slips at a grain boundary face. -/
noncomputable def SpecNetBurgers (f : Face d e n N) (u : ℕ → ℝ) (i : Fin d) (j : Fin e) : ℝ :=
  burgers f.2.prm.lat f.2.other f.2.own f.2.nrm (f.2.nb.slip (u ∘ f.2.nbDofs))
    (f.2.cur.slip (u ∘ f.1)) i j

/-! ## Helpers -/

/-- Force of a face on a row of the cell that sees it. -/
noncomputable def viewForce (kind : Kind n N) (f : Face d e n N) (u : ℕ → ℝ) (i : Fin N) : ℝ :=
  (f.2.prm.rhsTerm kind f.2.own f.2.other f.2.nrm f.2.jxw f.2.hist f.2.cur f.2.nb (u ∘ f.1)
    (u ∘ f.2.nbDofs) i).getD 0

theorem viewForce_some (kind : Kind n N) (f : Face d e n N) (h : f.2.prm.decohesion = false)
    (u : ℕ → ℝ) (i : Fin N) :
    f.2.prm.rhsTerm kind f.2.own f.2.other f.2.nrm f.2.jxw f.2.hist f.2.cur f.2.nb (u ∘ f.1)
      (u ∘ f.2.nbDofs) i = some (viewForce kind f u i) := by
  unfold viewForce FacePrm.rhsTerm
  rcases kind i with _ | a
  · simp only [h]; simp
  · simp only
    split_ifs <;> simp

theorem viewForce_disp (kind : Kind n N) (f : Face d e n N) (h : f.2.prm.decohesion = false)
    (u : ℕ → ℝ) (i : Fin N) (hi : kind i = none) : viewForce kind f u i = 0 := by
  unfold viewForce FacePrm.rhsTerm
  rw [hi]
  simp [h]

theorem viewForce_none (kind : Kind n N) (f : Face d e n N) (h : f.2.prm.decohesion = false)
    (hm : f.2.prm.microtraction = false) (u : ℕ → ℝ) (i : Fin N) : viewForce kind f u i = 0 := by
  unfold viewForce FacePrm.rhsTerm
  rcases kind i with _ | a <;> simp [h, hm]

/-- The part of a variation on the slips. -/
noncomputable def slipPart (kind : Kind n N) (v : Fin N → ℝ) (i : Fin N) : ℝ :=
  match kind i with
  | none => 0
  | some _ => v i

theorem slipPart_only (kind : Kind n N) (v : Fin N → ℝ) : SpecSlipsOnly kind (slipPart kind v) := by
  intro i hi; unfold slipPart; rw [hi]

theorem slipPart_slip (kind : Kind n N) (s : Side d n N) (hs : s.Primitive kind) (v : Fin N → ℝ) :
    s.slip (slipPart kind v) = s.slip v := by
  funext a
  unfold Side.slip slipPart
  refine sum_congr rfl fun i _ => ?_
  rcases hi : kind i with _ | b
  · rw [hs.phi i a (by rw [hi]; simp)]; simp
  · rfl

/-- Factor of a face: stiffness of the grain boundary times weight. -/
noncomputable def faceFactor (f : Face d e n N) : ℝ :=
  f.2.prm.dn2 * degradation f.2.prm.exponent (f.2.prm.damage f.2.hist) f.2.prm.coupleMicro * f.2.jxw *
    (f.2.prm.micro.modulus / f.2.prm.micro.char)

theorem degradation_closed (f : Face d e n N) (h : f.2.prm.decohesion = false) :
    degradation f.2.prm.exponent (f.2.prm.damage f.2.hist) f.2.prm.coupleMicro = 1 := by
  unfold degradation FacePrm.damage
  rw [h]
  simp

theorem faceFactor_nonneg {kind : Kind n N} {f : Face d e n N} (h : SpecFace kind f) :
    0 ≤ faceFactor f := by
  unfold faceFactor
  rw [degradation_closed f h.closed]
  have := h.dn2; have := h.weight; have := h.modulus; have := h.char
  positivity

/-- Contraction of two net Burgers tensors. -/
noncomputable def faceForm (f : Face d e n N) (u w : ℕ → ℝ) : ℝ :=
  ∑ i, ∑ j, SpecNetBurgers f u i j * SpecNetBurgers f w i j

theorem faceEnergy_eq (f : Face d e n N) (hm : f.2.prm.microtraction = true) (u : ℕ → ℝ) :
    SpecFaceEnergy f u = 1 / 2 * faceFactor f * faceForm f u u := by
  unfold SpecFaceEnergy SpecSlipEnergy interfaceEnergy faceFactor faceForm SpecNetBurgers
  rw [hm, if_pos rfl]
  norm_num
  ring

theorem netBurgers_line (f : Face d e n N) (u w : ℕ → ℝ) (t : ℝ) (i : Fin d) (j : Fin e) :
    SpecNetBurgers f (fun k => u k + t * w k) i j = SpecNetBurgers f u i j +
      t * SpecNetBurgers f w i j := by
  unfold SpecNetBurgers
  rw [← burgers_line]
  have lin : ∀ (s : Side d n N) (g : Fin N → ℕ),
      s.slip ((fun k => u k + t * w k) ∘ g) = fun c => s.slip (u ∘ g) c + t * s.slip (w ∘ g) c := by
    intro s g
    funext c
    unfold Side.slip
    rw [Finset.mul_sum, ← Finset.sum_add_distrib]
    exact sum_congr rfl fun i _ => by simp only [Function.comp_apply]; ring
  rw [lin, lin]

theorem netBurgers_sub (f : Face d e n N) (u v : ℕ → ℝ) (i : Fin d) (j : Fin e) :
    SpecNetBurgers f (u - v) i j = SpecNetBurgers f u i j - SpecNetBurgers f v i j := by
  have h := netBurgers_line f u v (-1) i j
  have : (u - v) = fun k => u k + -1 * v k := by funext k; simp; ring
  rw [this, h]; ring

/-- Virtual power of a face: both sides together. -/
theorem face_power (kind : Kind n N) (f : Face d e n N) (h : SpecFace kind f)
    (hm : f.2.prm.microtraction = true) (u w : ℕ → ℝ) :
    ∑ i, w (f.1 i) * -viewForce kind f u i + ∑ i, w (f.flip.1 i) * -viewForce kind f.flip u i =
      faceFactor f * faceForm f u w := by
  obtain ⟨dofs, f⟩ := f
  have red : ∀ (g : Face d e n N), g.2.prm.decohesion = false →
      ∑ i, w (g.1 i) * -viewForce kind g u i =
      -∑ i, slipPart kind (w ∘ g.1) i * viewForce kind g u i := by
    intro g hg
    rw [← Finset.sum_neg_distrib]
    refine sum_congr rfl fun i _ => ?_
    unfold slipPart
    rcases hi : kind i with _ | a
    · rw [viewForce_disp kind g hg u i hi]; simp
    · simp
  rw [red (dofs, f) h.closed, red (Face.flip (dofs, f)) h.closed]
  have hd := C52_slips f.prm h.lat hm kind f.own f.other f.nrm f.jxw f.hist f.cur f.nb h.cur h.nb
    (u ∘ dofs) (u ∘ f.nbDofs) (slipPart kind (w ∘ dofs)) (slipPart kind (w ∘ f.nbDofs))
    (slipPart_only _ _) (slipPart_only _ _) (viewForce kind (dofs, f) u)
    (viewForce kind (Face.flip (dofs, f)) u)
    (fun i => viewForce_some kind (dofs, f) h.closed u i)
    (fun i => viewForce_some kind (Face.flip (dofs, f)) h.closed u i)
  have hE : ∀ t : ℝ, SpecSlipEnergy f.prm f.hist f.own f.other f.nrm f.jxw f.cur f.nb
      (fun i => (u ∘ dofs) i + t * slipPart kind (w ∘ dofs) i)
      (fun i => (u ∘ f.nbDofs) i + t * slipPart kind (w ∘ f.nbDofs) i) =
      1 / 2 * faceFactor (dofs, f) * ∑ i, ∑ j, (SpecNetBurgers (dofs, f) u i j +
        t * SpecNetBurgers (dofs, f) w i j) * (SpecNetBurgers (dofs, f) u i j +
        t * SpecNetBurgers (dofs, f) w i j) := by
    intro t
    have lin : ∀ (s : Side d n N) (hs : s.Primitive kind) (x y : Fin N → ℝ),
        s.slip (fun i => x i + t * slipPart kind y i) = fun c => s.slip x c + t * s.slip y c := by
      intro s hs x y
      rw [← slipPart_slip kind s hs y]
      funext c
      unfold Side.slip
      rw [Finset.mul_sum, ← Finset.sum_add_distrib]
      exact sum_congr rfl fun i _ => by ring
    unfold SpecSlipEnergy interfaceEnergy faceFactor SpecNetBurgers
    rw [lin _ h.cur, lin _ h.nb]
    simp only [burgers_line]
    norm_num
    ring
  have hB : HasDerivAt (fun t : ℝ => 1 / 2 * faceFactor (dofs, f) * ∑ i, ∑ j,
      (SpecNetBurgers (dofs, f) u i j + t * SpecNetBurgers (dofs, f) w i j) *
      (SpecNetBurgers (dofs, f) u i j + t * SpecNetBurgers (dofs, f) w i j))
      (1 / 2 * faceFactor (dofs, f) * (2 * faceForm (dofs, f) u w)) 0 := by
    refine HasDerivAt.const_mul _ ?_
    unfold faceForm
    rw [Finset.mul_sum]
    refine HasDerivAt.fun_sum fun i _ => ?_
    rw [Finset.mul_sum]
    refine HasDerivAt.fun_sum fun j _ => ?_
    have h1 := ((hasDerivAt_id' (0 : ℝ)).mul_const
      (SpecNetBurgers (dofs, f) w i j)).const_add (SpecNetBurgers (dofs, f) u i j)
    refine (h1.mul h1).congr_deriv ?_
    ring
  have := hd.unique (hB.congr_of_eventuallyEq (Filter.Eventually.of_forall hE))
  have h2 : (slipPart kind (w ∘ (Face.flip (dofs, f)).1)) = slipPart kind (w ∘ f.nbDofs) := rfl
  rw [h2]
  linarith

theorem faceForm_self_nonneg (f : Face d e n N) (w : ℕ → ℝ) : 0 ≤ faceForm f w w :=
  sum_nonneg fun _ _ => sum_nonneg fun _ _ => mul_self_nonneg _

theorem faceForm_sub (f : Face d e n N) (u v w : ℕ → ℝ) :
    faceForm f u w - faceForm f v w = faceForm f (u - v) w := by
  unfold faceForm
  simp only [netBurgers_sub, sub_mul, Finset.sum_sub_distrib]

theorem faceForm_symm (f : Face d e n N) (u w : ℕ → ℝ) : faceForm f u w = faceForm f w u := by
  unfold faceForm
  exact sum_congr rfl fun i _ => sum_congr rfl fun j _ => mul_comm _ _

theorem seen_closed {kind : Kind n N} {cells : List (GrainCell d e n N)} {faces : List (Face d e n N)}
    (hp : SpecPaired cells faces) (hf : ∀ f ∈ faces, SpecFace kind f) {g : GrainCell d e n N}
    (hg : g ∈ cells) (k : Fin g.F) : (g.views k).prm.decohesion = false := by
  have hmem : (g.cell.dofs, g.views k) ∈ SpecSeen cells :=
    List.mem_flatMap.2 ⟨g, hg, List.mem_map.2 ⟨g.views k, List.mem_ofFn.2 ⟨k, rfl⟩, rfl⟩⟩
  obtain ⟨f, hf', hmem⟩ := List.mem_flatMap.1 (hp.mem_iff.1 hmem)
  rcases List.mem_cons.1 hmem with h | h
  · have := (hf f hf').closed
    rw [← h] at this; exact this
  · have := (hf f hf').closed
    rw [List.mem_singleton] at h
    have h2 := congrArg (fun x : Face d e n N => x.2.prm.decohesion) h
    exact h2.trans this

/-- Cell part of the right-hand side. -/
noncomputable def cellRhs (u : ℕ → ℝ) (c : MeshCell d n N) (i : Fin N) : ℝ :=
  (c.prm.rhs c.kind c.pts (u ∘ c.dofs) i).getD 0

theorem split_rhs {kind : Kind n N} {cells : List (GrainCell d e n N)} {faces : List (Face d e n N)}
    (hp : SpecPaired cells faces) (hf : ∀ f ∈ faces, SpecFace kind f)
    (hk : ∀ g ∈ cells, g.cell.kind = kind) {u : ℕ → ℝ} {R : GrainCell d e n N → Fin N → ℝ}
    (hR : SpecGrainAssembled cells u R) {g : GrainCell d e n N} (hg : g ∈ cells) (i : Fin N) :
    g.cell.prm.rhs g.cell.kind g.cell.pts (u ∘ g.cell.dofs) i = some (cellRhs u g.cell i) ∧
    R g i = cellRhs u g.cell i + ∑ k, viewForce kind (g.cell.dofs, g.views k) u i +
      ∑ b, ((g.loads b).side.disp i ⬝ᵥ (g.loads b).value) * (g.loads b).jxw := by
  have h := hR g hg i
  unfold localRhs at h
  rcases hx : g.cell.prm.rhs g.cell.kind g.cell.pts (u ∘ g.cell.dofs) i with _ | x
  · rw [hx] at h; simp at h
  · refine ⟨by unfold cellRhs; rw [hx]; rfl, ?_⟩
    rw [hx, hk g hg, sumOpt_some _ (fun k => viewForce kind (g.cell.dofs, g.views k) u i) fun k =>
      viewForce_some kind (g.cell.dofs, g.views k) (seen_closed hp hf hg k) u i] at h
    simp only [Option.bind_some, Option.map_some, Option.some.injEq] at h
    rw [← h]
    unfold cellRhs neumannTerm
    rw [hx]
    rfl

theorem cells_assembled {kind : Kind n N} {cells : List (GrainCell d e n N)}
    {faces : List (Face d e n N)} (hp : SpecPaired cells faces) (hf : ∀ f ∈ faces, SpecFace kind f)
    (hk : ∀ g ∈ cells, g.cell.kind = kind) {u : ℕ → ℝ} {R : GrainCell d e n N → Fin N → ℝ}
    (hR : SpecGrainAssembled cells u R) :
    SpecAssembled (cells.map GrainCell.cell) u (cellRhs u) := by
  intro c hc i
  obtain ⟨g, hg, rfl⟩ := List.mem_map.1 hc
  exact (split_rhs hp hf hk hR hg i).1

/-- Virtual power of the whole mesh. -/
theorem mesh_power {kind : Kind n N} {cells : List (GrainCell d e n N)} {faces : List (Face d e n N)}
    (hp : SpecPaired cells faces) (hf : ∀ f ∈ faces, SpecFace kind f)
    (hk : ∀ g ∈ cells, g.cell.kind = kind) {u : ℕ → ℝ} {R : GrainCell d e n N → Fin N → ℝ}
    (hR : SpecGrainAssembled cells u R) (w : ℕ → ℝ) :
    SpecGrainWork cells R w = SpecNodalWork (cells.map GrainCell.cell) (cellRhs u) w +
      (faces.map fun f => if f.2.prm.microtraction then faceFactor f * faceForm f u w else 0).sum -
      SpecLoadWork cells w := by
  have e1 : (faces.map fun f => if f.2.prm.microtraction then faceFactor f * faceForm f u w else 0) =
      faces.map fun f => ∑ i, w (f.1 i) * -viewForce kind f u i +
        ∑ i, w (f.flip.1 i) * -viewForce kind f.flip u i := by
    refine List.map_congr_left fun f hff => ?_
    rcases hm : f.2.prm.microtraction with _ | _
    · rw [if_neg (by simp)]
      have hc := (hf f hff).closed
      have z1 : ∀ i, viewForce kind f u i = 0 := viewForce_none kind f hc hm u
      have z2 : ∀ i, viewForce kind f.flip u i = 0 := viewForce_none kind f.flip hc hm u
      simp [z1, z2]
    · rw [if_pos rfl, face_power kind f (hf f hff) hm]
  have e2 : (faces.map fun f => ∑ i, w (f.1 i) * -viewForce kind f u i +
        ∑ i, w (f.flip.1 i) * -viewForce kind f.flip u i).sum =
      ((SpecSeen cells).map fun f => ∑ i, w (f.1 i) * -viewForce kind f u i).sum := by
    rw [(hp.map _).sum_eq, List.map_flatMap, List.flatMap_def, List.sum_flatten, List.map_map]
    congr 1
    refine List.map_congr_left fun f _ => ?_
    simp
  have e3 : ((SpecSeen cells).map fun f => ∑ i, w (f.1 i) * -viewForce kind f u i).sum =
      (cells.map fun g => ∑ k, ∑ i, w (g.cell.dofs i) *
        -viewForce kind (g.cell.dofs, g.views k) u i).sum := by
    unfold SpecSeen
    rw [List.map_flatMap, List.flatMap_def, List.sum_flatten, List.map_map]
    congr 1
    refine List.map_congr_left fun g _ => ?_
    simp only [Function.comp_apply, List.map_map]
    rw [List.map_ofFn, List.sum_ofFn]
    rfl
  rw [e1, e2, e3]
  unfold SpecGrainWork SpecNodalWork SpecLoadWork
  rw [List.map_map, sub_eq_add_neg, ← neg_one_mul (cells.map _).sum, ← List.sum_map_mul_left,
    ← List.sum_map_add, ← List.sum_map_add]
  congr 1
  refine List.map_congr_left fun g hg => ?_
  simp only [Function.comp_apply]
  simp only [fun i => (split_rhs hp hf hk hR hg i).2]
  have l1 : ∑ b, (g.loads b).jxw * ((g.loads b).side.displacement (w ∘ g.cell.dofs) ⬝ᵥ
      (g.loads b).value) = ∑ i, w (g.cell.dofs i) *
        ∑ b, ((g.loads b).side.disp i ⬝ᵥ (g.loads b).value) * (g.loads b).jxw := by
    simp only [Finset.mul_sum]
    rw [Finset.sum_comm]
    refine sum_congr rfl fun b _ => ?_
    unfold Side.displacement
    rw [sum_dotProduct, Finset.mul_sum]
    refine sum_congr rfl fun i _ => ?_
    rw [smul_dotProduct, smul_eq_mul, Function.comp_apply]
    ring
  have l2 : ∑ k, ∑ i, w (g.cell.dofs i) * -viewForce kind (g.cell.dofs, g.views k) u i =
      ∑ i, w (g.cell.dofs i) * -∑ k, viewForce kind (g.cell.dofs, g.views k) u i := by
    rw [Finset.sum_comm]
    refine sum_congr rfl fun i _ => ?_
    rw [← Finset.sum_neg_distrib, Finset.mul_sum]
  rw [l1, l2, neg_one_mul, ← Finset.sum_neg_distrib, ← Finset.sum_add_distrib,
    ← Finset.sum_add_distrib]
  exact sum_congr rfl fun i _ => by ring

/-- Nodal work vanishes in a solution, for increments that satisfy the constraints. -/
theorem grain_solution_work (cells : List (GrainCell d e n N)) {w : ℕ → ℝ}
    {R : GrainCell d e n N → Fin N → ℝ}
    {K : Sol.Constraints ℕ} {m : ℕ} (hK : Homogeneous K m) (hm : ∀ c ∈ cells, ∀ i, c.cell.dofs i < m)
    (hsat : Sol.Satisfies K w)
    (hconv : ∀ r < m, Lin.residual K (cells.map fun c => c.local R) r = 0) :
    SpecGrainWork cells R w = 0 := by
  have hn : Numbered (cells.map fun c => c.local R) m := by
    constructor
    · intro a ha i
      obtain ⟨c, hc, rfl⟩ := List.mem_map.1 ha
      exact hm c hc i
    · intro a ha b hb
      obtain ⟨c, hc, rfl⟩ := List.mem_map.1 ha
      simp [GrainCell.local] at hb
  have ht := test_rows hK hn hsat (fun a i => a.rhs i)
  have h0 : ∑ r ∈ range m, w r * ((cells.map fun c => c.local R).map fun a =>
      ∑ i, weight K (a.dofs i) r * a.rhs i).sum = 0 :=
    sum_eq_zero fun r hr => by
      have := hconv r (mem_range.1 hr)
      unfold Lin.residual at this
      rw [this, mul_zero]
  rw [h0, List.map_map] at ht
  unfold SpecGrainWork
  have : (cells.map fun c => ∑ i, w (c.cell.dofs i) * -R c i) =
      (cells.map fun c => (-1 : ℝ) * ∑ i, w (c.cell.dofs i) * R c i) := by
    refine List.map_congr_left fun c _ => ?_
    rw [Finset.mul_sum]
    exact sum_congr rfl fun i _ => by ring
  rw [this, List.sum_map_mul_left]
  have : (cells.map fun c => ∑ i, w (c.cell.dofs i) * R c i).sum = 0 := ht.symm
  rw [this, mul_zero]

/-- The energy of a face lies above its tangent. -/
theorem face_tangent {kind : Kind n N} (f : Face d e n N) (h : SpecFace kind f) (u v : ℕ → ℝ) :
    SpecFaceEnergy f u - SpecFaceEnergy f v ≤
      if f.2.prm.microtraction then faceFactor f * faceForm f u (u - v) else 0 := by
  rcases hm : f.2.prm.microtraction with _ | _
  · unfold SpecFaceEnergy; simp [hm]
  · rw [if_pos rfl, faceEnergy_eq f hm, faceEnergy_eq f hm]
    have h1 := faceForm_self_nonneg f (u - v)
    have h2 : faceForm f (u - v) (u - v) = faceForm f u u - 2 * faceForm f u v + faceForm f v v := by
      rw [← faceForm_sub, faceForm_symm f u (u - v), faceForm_symm f v (u - v), ← faceForm_sub,
        ← faceForm_sub, faceForm_symm f v u]
      ring
    have h3 : faceForm f u (u - v) = faceForm f u u - faceForm f u v := by
      rw [faceForm_symm, ← faceForm_sub, faceForm_symm f v u]
    have h4 := mul_nonneg (faceFactor_nonneg h) h1
    rw [h3]
    rw [h2] at h4
    linarith

/-! ## C83 -/

/-- C83 for polycrystals: with grain boundaries on which microtractions act and with loaded faces,
stored energy (elastic, defect and grain boundary energy) plus dissipation do not exceed the old
stored energy plus the work of supply, loads and external nodal forces. -/
theorem C83_grains_partial {kind : Kind n N} (cells : List (GrainCell d e n N))
    (faces : List (Face d e n N)) (hp : SpecPaired cells faces) (hf : ∀ f ∈ faces, SpecFace kind f)
    (hk : ∀ g ∈ cells, g.cell.kind = kind)
    (hcell : ∀ g ∈ cells, SpecCell g.cell) (hmat : ∀ g ∈ cells, SpecMaterial g.cell.prm) (u v : ℕ → ℝ)
    (hold : ∀ g ∈ cells, ∀ q a,
      (g.cell.pts q).old a = (g.cell.pts q).shape.slip (v ∘ g.cell.dofs) a)
    (R : GrainCell d e n N → Fin N → ℝ) (hR : SpecGrainAssembled cells u R) :
    SpecGrainEnergy cells faces u + SpecDissipated (cells.map GrainCell.cell) u ≤
      SpecGrainEnergy cells faces v + SpecSupplyWork (cells.map GrainCell.cell) (u - v) +
        SpecLoadWork cells (u - v) + SpecGrainWork cells R (u - v) ∧
    0 ≤ SpecDissipated (cells.map GrainCell.cell) u := by
  have hall : ∀ {P : MeshCell d n N → Prop}, (∀ g ∈ cells, P g.cell) →
      ∀ c ∈ cells.map GrainCell.cell, P c := by
    intro P h c hc
    obtain ⟨g, hg, rfl⟩ := List.mem_map.1 hc
    exact h g hg
  obtain ⟨h1, h2⟩ := C83_balance_partial (cells.map GrainCell.cell) (hall hcell)
    (hall (P := fun c => SpecMaterial c.prm) hmat) u v
    (hall (P := fun c => ∀ q a, (c.pts q).old a = (c.pts q).shape.slip (v ∘ c.dofs) a) hold)
    (cellRhs u) (cells_assembled hp hf hk hR)
  refine ⟨?_, h2⟩
  have h3 := mesh_power hp hf hk hR (u - v)
  have h4 : (faces.map fun f => SpecFaceEnergy f u).sum ≤ (faces.map fun f => SpecFaceEnergy f v).sum +
      (faces.map fun f =>
        if f.2.prm.microtraction then faceFactor f * faceForm f u (u - v) else 0).sum := by
    rw [← List.sum_map_add]
    refine List.sum_le_sum fun f hff => ?_
    linarith [face_tangent f (hf f hff) u v]
  unfold SpecGrainEnergy
  linarith

/-- C83 for an accepted step of a polycrystal with constant boundary values. -/
theorem C83_grains_accepted_partial {kind : Kind n N} (cells : List (GrainCell d e n N))
    (faces : List (Face d e n N)) (hp : SpecPaired cells faces) (hf : ∀ f ∈ faces, SpecFace kind f)
    (hk : ∀ g ∈ cells, g.cell.kind = kind)
    (hcell : ∀ g ∈ cells, SpecCell g.cell) (hmat : ∀ g ∈ cells, SpecMaterial g.cell.prm) (u v : ℕ → ℝ)
    (hold : ∀ g ∈ cells, ∀ q a,
      (g.cell.pts q).old a = (g.cell.pts q).shape.slip (v ∘ g.cell.dofs) a)
    (R : GrainCell d e n N → Fin N → ℝ) (hR : SpecGrainAssembled cells u R)
    (K : Sol.Constraints ℕ) (m : ℕ) (hK : Homogeneous K m) (hm : ∀ c ∈ cells, ∀ i, c.cell.dofs i < m)
    (hsat : Sol.Satisfies K (u - v))
    (hconv : ∀ r < m, Lin.residual K (cells.map fun c => c.local R) r = 0) :
    SpecGrainEnergy cells faces u + SpecDissipated (cells.map GrainCell.cell) u ≤
      SpecGrainEnergy cells faces v + SpecSupplyWork (cells.map GrainCell.cell) (u - v) +
        SpecLoadWork cells (u - v) := by
  have h := (C83_grains_partial cells faces hp hf hk hcell hmat u v hold R hR).1
  rw [grain_solution_work cells hK hm hsat hconv, add_zero] at h
  exact h

/-! ## C84 -/

/-- The state `u` solves the time step of a polycrystal. -/
def SpecGrainSolution (cells : List (GrainCell d e n N)) (K : Sol.Constraints ℕ) (m : ℕ)
    (u : ℕ → ℝ) : Prop :=
  ∃ R, SpecGrainAssembled cells u R ∧ ∀ r < m, Lin.residual K (cells.map fun c => c.local R) r = 0

/-- C84 for polycrystals: two solutions of the same time step have the same elastic strain and stress
at every quadrature point, for rate-dependent behaviour the same slips and strains, and at every grain
boundary with microtractions the same net Burgers tensor. -/
theorem C84_grains_partial {kind : Kind n N} (cells : List (GrainCell d e n N))
    (faces : List (Face d e n N)) (hp : SpecPaired cells faces) (hf : ∀ f ∈ faces, SpecFace kind f)
    (hk : ∀ g ∈ cells, g.cell.kind = kind)
    (hcell : ∀ g ∈ cells, SpecCell g.cell) (hmat : ∀ g ∈ cells, SpecMaterial g.cell.prm)
    (hhard : ∀ g ∈ cells, SpecHardens g.cell.prm.law.hard)
    (hsharp : ∀ g ∈ cells, ∀ q a,
      SpecLatent g.cell.prm.law n g.cell.prm.dt ≤ (g.cell.pts q).hist.tmp a)
    (K : Sol.Constraints ℕ) (m : ℕ) (hK : Homogeneous K m) (hm : ∀ c ∈ cells, ∀ i, c.cell.dofs i < m)
    (u v : ℕ → ℝ) (hu : SpecGrainSolution cells K m u) (hv : SpecGrainSolution cells K m v)
    (hsat : Sol.Satisfies K (u - v)) :
    (∀ g ∈ cells, ∀ q,
      g.cell.prm.elasticStrainAt (g.cell.pts q).shape (u ∘ g.cell.dofs) =
        g.cell.prm.elasticStrainAt (g.cell.pts q).shape (v ∘ g.cell.dofs) ∧
      g.cell.prm.stressAt (g.cell.pts q).shape (u ∘ g.cell.dofs) =
        g.cell.prm.stressAt (g.cell.pts q).shape (v ∘ g.cell.dofs) ∧
      (g.cell.prm.law.rateIndependent = false →
          (∀ a, SpecLatent g.cell.prm.law n g.cell.prm.dt < (g.cell.pts q).hist.tmp a) →
        (∀ a, (g.cell.pts q).shape.slip (u ∘ g.cell.dofs) a =
          (g.cell.pts q).shape.slip (v ∘ g.cell.dofs) a) ∧
        (g.cell.pts q).shape.strain (u ∘ g.cell.dofs) =
          (g.cell.pts q).shape.strain (v ∘ g.cell.dofs))) ∧
    ∀ f ∈ faces, f.2.prm.microtraction = true → 0 < f.2.prm.dn2 → 0 < f.2.prm.micro.modulus →
      SpecNetBurgers f u = SpecNetBurgers f v := by
  obtain ⟨R, hR, h0⟩ := hu
  obtain ⟨R', hR', h0'⟩ := hv
  have hall : ∀ {P : MeshCell d n N → Prop}, (∀ g ∈ cells, P g.cell) →
      ∀ c ∈ cells.map GrainCell.cell, P c := by
    intro P h c hc
    obtain ⟨g, hg, rfl⟩ := List.mem_map.1 hc
    exact h g hg
  have p1 := mesh_power hp hf hk hR (u - v)
  have p2 := mesh_power hp hf hk hR' (u - v)
  rw [grain_solution_work cells hK hm hsat h0] at p1
  rw [grain_solution_work cells hK hm hsat h0'] at p2
  have hgap : (faces.map fun f =>
        if f.2.prm.microtraction then faceFactor f * faceForm f (u - v) (u - v) else 0).sum =
      (faces.map fun f =>
        if f.2.prm.microtraction then faceFactor f * faceForm f u (u - v) else 0).sum -
      (faces.map fun f =>
        if f.2.prm.microtraction then faceFactor f * faceForm f v (u - v) else 0).sum := by
    rw [eq_sub_iff_add_eq, ← List.sum_map_add]
    congr 1
    refine List.map_congr_left fun f _ => ?_
    split_ifs
    · rw [← faceForm_sub f u v (u - v)]; ring
    · ring
  have hnn : ∀ x ∈ faces.map fun f =>
      if f.2.prm.microtraction then faceFactor f * faceForm f (u - v) (u - v) else 0, 0 ≤ x := by
    intro x hx
    obtain ⟨f, hff, rfl⟩ := List.mem_map.1 hx
    split_ifs
    · exact mul_nonneg (faceFactor_nonneg (hf f hff)) (faceForm_self_nonneg _ _)
    · exact le_rfl
  have hnn' := List.sum_nonneg hnn
  have hmono := nodal_monotone (cells.map GrainCell.cell) (hall hcell)
    (hall (P := fun c => SpecMaterial c.prm) hmat) (hall (P := fun c => SpecHardens c.prm.law.hard) hhard)
    (hall (P := fun c => ∀ q a, SpecLatent c.prm.law n c.prm.dt ≤ (c.pts q).hist.tmp a) hsharp)
    u v (cellRhs u) (cellRhs v) (cells_assembled hp hf hk hR) (cells_assembled hp hf hk hR')
  constructor
  · intro g hg q
    exact unique_core (cells.map GrainCell.cell) (hall hcell)
      (hall (P := fun c => SpecMaterial c.prm) hmat) (hall (P := fun c => SpecHardens c.prm.law.hard) hhard)
      (hall (P := fun c => ∀ q a, SpecLatent c.prm.law n c.prm.dt ≤ (c.pts q).hist.tmp a) hsharp)
      u v (cellRhs u) (cellRhs v) (cells_assembled hp hf hk hR) (cells_assembled hp hf hk hR')
      (by linarith) g.cell (List.mem_map.2 ⟨g, hg, rfl⟩) q
  · intro f hff hmt h2 h3
    have hz : faceFactor f * faceForm f (u - v) (u - v) ≤ 0 := by
      have := List.single_le_sum hnn _ (List.mem_map.2 ⟨f, hff, rfl⟩)
      rw [if_pos hmt] at this
      linarith
    have hpos : 0 < faceFactor f := by
      unfold faceFactor
      rw [degradation_closed f (hf f hff).closed]
      have := (hf f hff).weight; have := (hf f hff).char
      positivity
    have hz' : faceForm f (u - v) (u - v) = 0 :=
      le_antisymm (by nlinarith) (faceForm_self_nonneg _ _)
    funext i j
    have h5 := (sum_eq_zero_iff_of_nonneg fun i _ =>
      sum_nonneg fun j _ => mul_self_nonneg (SpecNetBurgers f (u - v) i j)).1 hz' i (mem_univ i)
    have h6 := (sum_eq_zero_iff_of_nonneg fun j _ =>
      mul_self_nonneg (SpecNetBurgers f (u - v) i j)).1 h5 j (mem_univ j)
    have h7 := mul_self_eq_zero.1 h6
    rw [netBurgers_sub] at h7
    linarith

/-- C84 for the degrees of freedom of a polycrystal. -/
theorem C84_grains_state_partial {kind : Kind n N} (cells : List (GrainCell d e n N))
    (faces : List (Face d e n N)) (hp : SpecPaired cells faces) (hf : ∀ f ∈ faces, SpecFace kind f)
    (hk : ∀ g ∈ cells, g.cell.kind = kind)
    (hcell : ∀ g ∈ cells, SpecCell g.cell) (hmat : ∀ g ∈ cells, SpecMaterial g.cell.prm)
    (hhard : ∀ g ∈ cells, SpecHardens g.cell.prm.law.hard)
    (hrate : ∀ g ∈ cells, g.cell.prm.law.rateIndependent = false)
    (hpos : ∀ g ∈ cells, ∀ q a,
      SpecLatent g.cell.prm.law n g.cell.prm.dt < (g.cell.pts q).hist.tmp a)
    (K : Sol.Constraints ℕ) (m : ℕ) (hK : Homogeneous K m) (hm : ∀ c ∈ cells, ∀ i, c.cell.dofs i < m)
    (hdet : ∀ w : ℕ → ℝ, Sol.Satisfies K w →
      (∀ g ∈ cells, ∀ q, (g.cell.pts q).shape.strain (w ∘ g.cell.dofs) = 0 ∧
        ∀ a, (g.cell.pts q).shape.slip (w ∘ g.cell.dofs) a = 0) → ∀ r < m, w r = 0)
    (u v : ℕ → ℝ) (hu : SpecGrainSolution cells K m u) (hv : SpecGrainSolution cells K m v)
    (hsat : Sol.Satisfies K (u - v)) : ∀ r < m, u r = v r := by
  intro r hr
  have := hdet (u - v) hsat (fun g hg q => ?_) r hr
  · simpa [sub_eq_zero] using this
  · obtain ⟨e1, e2⟩ := ((C84_grains_partial cells faces hp hf hk hcell hmat hhard
      (fun g hg q a => (hpos g hg q a).le) K m hK hm u v hu hv hsat).1 g hg q).2.2
      (hrate g hg) (hpos g hg q)
    have hd : (u - v) ∘ g.cell.dofs = u ∘ g.cell.dofs - v ∘ g.cell.dofs := rfl
    rw [hd]
    refine ⟨?_, fun a => by rw [slip_sub, e1 a, sub_self]⟩
    have h6 : (g.cell.pts q).shape.strain (u ∘ g.cell.dofs - v ∘ g.cell.dofs) =
        (g.cell.pts q).shape.strain (u ∘ g.cell.dofs) - (g.cell.pts q).shape.strain (v ∘ g.cell.dofs) := by
      unfold Shape.strain
      rw [← Finset.sum_sub_distrib]
      exact sum_congr rfl fun j _ => by rw [Pi.sub_apply, sub_smul]
    rw [h6, e2, sub_self]

/-! ## Runs -/

/-- A cell of a polycrystal with the supply and the loads of every time step. -/
structure RunGrain (d e n N : ℕ) where
  run : RunCell d n N
  F : ℕ
  views : Fin F → View d e n N
  B : ℕ
  loads : ℕ → Fin B → Loaded d n N

/-- The cell as step `k` sees it (`source/gradient_crystal_plasticity/solve.cc:86-145`). -/
noncomputable def RunGrain.at (r : RunGrain d e n N) (dt : ℕ → ℝ) (u : ℕ → ℕ → ℝ) (k : ℕ) :
    GrainCell d e n N := ⟨r.run.at dt u k, r.F, r.views, r.B, r.loads k⟩

/-- The polycrystal in step `k`. -/
noncomputable def SpecGrains (run : List (RunGrain d e n N)) (dt : ℕ → ℝ) (u : ℕ → ℕ → ℝ) (k : ℕ) :
    List (GrainCell d e n N) := run.map fun r => r.at dt u k

/-- Energy stored in a polycrystal. -/
noncomputable def SpecPolyEnergy (run : List (RunGrain d e n N)) (faces : List (Face d e n N))
    (u : ℕ → ℝ) : ℝ :=
  SpecBodyEnergy (run.map RunGrain.run) u + (faces.map fun f => SpecFaceEnergy f u).sum

/-- Each grain boundary face is seen by exactly its two cells, throughout the run. -/
def SpecRunPaired (run : List (RunGrain d e n N)) (faces : List (Face d e n N)) : Prop :=
  (run.flatMap fun r => (List.ofFn r.views).map fun f => (r.run.cell.dofs, f)).Perm
    (faces.flatMap fun f : Face d e n N => [f, f.flip])

theorem run_paired {run : List (RunGrain d e n N)} {faces : List (Face d e n N)}
    (hp : SpecRunPaired run faces) (dt : ℕ → ℝ) (u : ℕ → ℕ → ℝ) (k : ℕ) :
    SpecPaired (SpecGrains run dt u k) faces := by
  unfold SpecPaired SpecSeen SpecGrains
  rw [List.flatMap_map]
  exact hp

theorem grains_cells (run : List (RunGrain d e n N)) (dt : ℕ → ℝ) (u : ℕ → ℕ → ℝ) (k : ℕ) :
    (SpecGrains run dt u k).map GrainCell.cell = SpecMesh (run.map RunGrain.run) dt u k := by
  unfold SpecGrains SpecMesh
  rw [List.map_map, List.map_map]
  rfl

theorem grains_energy (run : List (RunGrain d e n N)) (faces : List (Face d e n N)) (dt : ℕ → ℝ)
    (u : ℕ → ℕ → ℝ) (k : ℕ) (w : ℕ → ℝ) :
    SpecGrainEnergy (SpecGrains run dt u k) faces w = SpecPolyEnergy run faces w := by
  unfold SpecGrainEnergy SpecPolyEnergy
  rw [grains_cells, stored_at]

/-- C83 over a run of a polycrystal: any number of steps, of any sizes, with any supply and loads and
whatever the states are. -/
theorem C83_grains_run_partial {kind : Kind n N} (run : List (RunGrain d e n N))
    (faces : List (Face d e n N)) (hp : SpecRunPaired run faces) (hf : ∀ f ∈ faces, SpecFace kind f)
    (hk : ∀ r ∈ run, r.run.cell.kind = kind) (hcell : ∀ r ∈ run, SpecCell r.run.cell)
    (hmat : ∀ r ∈ run, SpecMaterial r.run.cell.prm) (dt : ℕ → ℝ) (u : ℕ → ℕ → ℝ)
    (R : ℕ → GrainCell d e n N → Fin N → ℝ) (T : ℕ) (hdt : ∀ k < T, 0 < dt k)
    (hR : ∀ k < T, SpecGrainAssembled (SpecGrains run dt u k) (u (k + 1)) (R k)) :
    SpecPolyEnergy run faces (u T) + ∑ k ∈ range T,
        SpecDissipated (SpecMesh (run.map RunGrain.run) dt u k) (u (k + 1)) ≤
      SpecPolyEnergy run faces (u 0) + ∑ k ∈ range T,
        (SpecSupplyWork (SpecMesh (run.map RunGrain.run) dt u k) (u (k + 1) - u k) +
         SpecLoadWork (SpecGrains run dt u k) (u (k + 1) - u k) +
         SpecGrainWork (SpecGrains run dt u k) (R k) (u (k + 1) - u k)) ∧
    ∀ k < T, 0 ≤ SpecDissipated (SpecMesh (run.map RunGrain.run) dt u k) (u (k + 1)) := by
  have step : ∀ k < T, _ := fun k hkT =>
    C83_grains_partial (kind := kind) (SpecGrains run dt u k) faces (run_paired hp dt u k) hf
      (fun g hg => by obtain ⟨r, hr, rfl⟩ := List.mem_map.1 hg; exact hk r hr)
      (fun g hg => by
        obtain ⟨r, hr, rfl⟩ := List.mem_map.1 hg
        exact at_ok r.run (hcell r hr) (hmat r hr) dt u k)
      (fun g hg => by
        obtain ⟨r, hr, rfl⟩ := List.mem_map.1 hg
        exact at_material r.run (hmat r hr) dt u k (hdt k hkT))
      (u (k + 1)) (u k)
      (fun g hg q a => by obtain ⟨r, hr, rfl⟩ := List.mem_map.1 hg; rfl) (R k) (hR k hkT)
  refine ⟨?_, fun k hkT => by have := (step k hkT).2; rwa [grains_cells] at this⟩
  clear hdt hR
  induction T with
  | zero => simp
  | succ T ih =>
    have h1 := ih fun k hk => step k (by omega)
    have h2 := (step T (by omega)).1
    rw [grains_energy, grains_energy, grains_cells] at h2
    rw [sum_range_succ, sum_range_succ]
    linarith

/-- C83 over a run of a polycrystal of accepted steps with constant boundary values: the energy stored
and dissipated comes from the energy at the start, the supply and the loads. -/
theorem C83_grains_run_accepted_partial {kind : Kind n N} (run : List (RunGrain d e n N))
    (faces : List (Face d e n N)) (hp : SpecRunPaired run faces) (hf : ∀ f ∈ faces, SpecFace kind f)
    (hk : ∀ r ∈ run, r.run.cell.kind = kind) (hcell : ∀ r ∈ run, SpecCell r.run.cell)
    (hmat : ∀ r ∈ run, SpecMaterial r.run.cell.prm) (dt : ℕ → ℝ) (u : ℕ → ℕ → ℝ)
    (R : ℕ → GrainCell d e n N → Fin N → ℝ) (T : ℕ) (hdt : ∀ k < T, 0 < dt k)
    (hR : ∀ k < T, SpecGrainAssembled (SpecGrains run dt u k) (u (k + 1)) (R k))
    (K : Sol.Constraints ℕ) (m : ℕ) (hK : Homogeneous K m)
    (hm : ∀ r ∈ run, ∀ i, r.run.cell.dofs i < m)
    (hsat : ∀ k < T, Sol.Satisfies K (u (k + 1) - u k))
    (hconv : ∀ k < T, ∀ r < m,
      Lin.residual K ((SpecGrains run dt u k).map fun c => c.local (R k)) r = 0) :
    SpecPolyEnergy run faces (u T) + ∑ k ∈ range T,
        SpecDissipated (SpecMesh (run.map RunGrain.run) dt u k) (u (k + 1)) ≤
      SpecPolyEnergy run faces (u 0) + ∑ k ∈ range T,
        (SpecSupplyWork (SpecMesh (run.map RunGrain.run) dt u k) (u (k + 1) - u k) +
         SpecLoadWork (SpecGrains run dt u k) (u (k + 1) - u k)) := by
  have h := (C83_grains_run_partial run faces hp hf hk hcell hmat dt u R T hdt hR).1
  refine h.trans (le_of_eq ?_)
  congr 1
  refine sum_congr rfl fun k hkT => ?_
  have hkT := mem_range.1 hkT
  rw [grain_solution_work (SpecGrains run dt u k) hK (fun g hg => by
    obtain ⟨r, hr, rfl⟩ := List.mem_map.1 hg; exact hm r hr) (hsat k hkT) (hconv k hkT), add_zero]

/-! ## Non-vacuity -/

/-- The right-hand side of a polycrystal is defined. -/
theorem grain_assembled_exists {kind : Kind n N} (cells : List (GrainCell d e n N))
    (faces : List (Face d e n N)) (hp : SpecPaired cells faces) (hf : ∀ f ∈ faces, SpecFace kind f)
    (hk : ∀ g ∈ cells, g.cell.kind = kind)
    (hcell : ∀ g ∈ cells, SpecCell g.cell) (hmat : ∀ g ∈ cells, SpecMaterial g.cell.prm) (u : ℕ → ℝ) :
    ∃ R, SpecGrainAssembled cells u R := by
  refine ⟨fun g i => (localRhs g.cell.prm g.cell.kind g.cell.pts g.cell.dofs g.views g.loads u i).getD 0,
    fun g hg i => ?_⟩
  choose rq hrq _ using fun q => point_power g.cell.prm (hmat g hg).index (hmat g hg).dn0.ne' g.cell.kind
    (g.cell.pts q) ((hcell g hg).primitive q) (u ∘ g.cell.dofs)
  have : ∃ x, localRhs g.cell.prm g.cell.kind g.cell.pts g.cell.dofs g.views g.loads u i = some x := by
    unfold localRhs CellPrm.rhs
    rw [sumOpt_some _ (fun q => rq q i) fun q => hrq q i, hk g hg,
      sumOpt_some _ (fun k => viewForce kind (g.cell.dofs, g.views k) u i) fun k =>
        viewForce_some kind (g.cell.dofs, g.views k) (seen_closed hp hf hg k) u i]
    exact ⟨_, rfl⟩
  obtain ⟨x, hx⟩ := this
  show _ = some (Option.getD _ 0)
  rw [hx]
  rfl

/-- Two grains of different orientation meeting at a face on which microtractions act. -/
noncomputable def exView : View 2 1 1 2 :=
  ⟨{ exFace false with decohesion := false }, exGrainA, exGrainB, ![1, 0], 1, Iface.new, exMeet, exMeet,
    fun i => i + 2⟩

/-- The two cells, loaded at their boundaries by `p`. -/
noncomputable def exLeft (p : ℝ) : GrainCell 2 1 1 2 :=
  ⟨exMeshOf (1 / 4) 1, 1, fun _ => exView, 1, fun _ => ⟨exMeet, ![p, 0], 1⟩⟩
noncomputable def exRight (p : ℝ) : GrainCell 2 1 1 2 :=
  ⟨⟨{ (exMeshOf (1 / 4) 1).prm with sys := exGrainB }, exKind, fun i => i + 2, 1,
    (exMeshOf (1 / 4) 1).pts⟩, 1, fun _ => exView.flip fun i => i, 1, fun _ => ⟨exMeet, ![p, 0], 1⟩⟩

theorem exPoly_paired (p q : ℝ) : SpecPaired [exLeft p, exRight q] [(fun i => i, exView)] :=
  List.Perm.refl _

theorem exView_ok : ∀ f ∈ [((fun i => i, exView) : Face 2 1 1 2)], SpecFace exKind f := by
  intro f hf
  obtain rfl := List.mem_singleton.1 hf
  refine ⟨rfl, lateral2_ok, exMeet_primitive, exMeet_primitive, ?_, ?_, ?_, ?_⟩ <;>
    norm_num [exView, exFace]

theorem exPoly_kind (p q : ℝ) : ∀ g ∈ [exLeft p, exRight q], g.cell.kind = exKind := by
  intro g hg
  rcases List.mem_cons.1 hg with rfl | hg
  · rfl
  · obtain rfl := List.mem_singleton.1 hg; rfl

theorem exPoly_cell (p q : ℝ) : ∀ g ∈ [exLeft p, exRight q], SpecCell g.cell := by
  have h := exMesh_cell (1 / 4) 1
  intro g hg
  rcases List.mem_cons.1 hg with rfl | hg
  · exact h
  · obtain rfl := List.mem_singleton.1 hg
    exact ⟨h.primitive, h.weight, h.hist, h.res⟩

theorem exPoly_material (p q : ℝ) : ∀ g ∈ [exLeft p, exRight q], SpecMaterial g.cell.prm := by
  have h := exMesh_material (1 / 4) (by norm_num) 1
  intro g hg
  rcases List.mem_cons.1 hg with rfl | hg
  · exact h
  · obtain rfl := List.mem_singleton.1 hg
    exact { h with }

/-- The slips are held fixed. -/
noncomputable def exHeld : Sol.Constraints ℕ := fun i => if i = 1 ∨ i = 3 then some ⟨[], 0⟩ else none

theorem exHeld_ok : Homogeneous exHeld 4 := by
  constructor
  · intro g l h; unfold exHeld at h; split_ifs at h; rw [← Option.some.inj h]
  · intro g l h e he; unfold exHeld at h; split_ifs at h; rw [← Option.some.inj h] at he; simp at he
  · intro g l h e he; unfold exHeld at h; split_ifs at h; rw [← Option.some.inj h] at he; simp at he

theorem exHeld_satisfies (w : ℕ → ℝ) (h : w 1 = 0) (h' : w 3 = 0) : Sol.Satisfies exHeld w := by
  intro i l hl
  unfold exHeld at hl
  split_ifs at hl with hi
  rw [← Option.some.inj hl]
  rcases hi with rfl | rfl <;> simp [Sol.Line.eval, h, h']

/-- With suitable loads every state in which the slips have the held values is a solution. -/
theorem exPoly_solution (u : ℕ → ℝ) : ∃ p q R, SpecGrainAssembled [exLeft p, exRight q] u R ∧
    ∀ r < 4, Lin.residual exHeld ([exLeft p, exRight q].map fun c => c.local R) r = 0 := by
  let p := -cellRhs u (exLeft 0).cell 0
  let q := -cellRhs u (exRight 0).cell 0
  obtain ⟨R, hR⟩ := grain_assembled_exists [exLeft p, exRight q] _ (exPoly_paired p q) exView_ok
    (exPoly_kind p q) (exPoly_cell p q) (exPoly_material p q) u
  have zl : R (exLeft p) 0 = 0 := by
    rw [(split_rhs (exPoly_paired p q) exView_ok (exPoly_kind p q) hR (by simp) 0).2]
    have h1 : ∀ k, viewForce exKind ((exLeft p).cell.dofs, (exLeft p).views k) u 0 = 0 := fun k =>
      viewForce_disp exKind _ rfl u 0 rfl
    have h2 : ∑ b, ((exLeft p).loads b).side.disp 0 ⬝ᵥ ((exLeft p).loads b).value *
        ((exLeft p).loads b).jxw = p := by
      show ∑ b : Fin 1, exMeet.disp 0 ⬝ᵥ ![p, 0] * 1 = p
      simp [exMeet]
    rw [h2]
    simp only [h1, Finset.sum_const_zero, add_zero]
    exact add_neg_cancel (cellRhs u (exLeft 0).cell 0)
  have zr : R (exRight q) 0 = 0 := by
    rw [(split_rhs (exPoly_paired p q) exView_ok (exPoly_kind p q) hR (by simp) 0).2]
    have h1 : ∀ k, viewForce exKind ((exRight q).cell.dofs, (exRight q).views k) u 0 = 0 := fun k =>
      viewForce_disp exKind _ rfl u 0 rfl
    have h2 : ∑ b, ((exRight q).loads b).side.disp 0 ⬝ᵥ ((exRight q).loads b).value *
        ((exRight q).loads b).jxw = q := by
      show ∑ b : Fin 1, exMeet.disp 0 ⬝ᵥ ![q, 0] * 1 = q
      simp [exMeet]
    rw [h2]
    simp only [h1, Finset.sum_const_zero, add_zero]
    exact add_neg_cancel (cellRhs u (exRight 0).cell 0)
  refine ⟨p, q, R, hR, fun r hr => ?_⟩
  by_cases h1 : r = 1 ∨ r = 3
  · exact residual_constrained exHeld_ok _ (by unfold exHeld; rw [if_pos h1]; simp)
  · unfold Lin.residual
    rw [List.map_map, List.map_cons, List.map_singleton, List.sum_cons, List.sum_singleton]
    show ∑ i : Fin 2, Asm.weight exHeld (i : ℕ) r * R (exLeft p) i +
      ∑ i : Fin 2, Asm.weight exHeld (i + 2 : ℕ) r * R (exRight q) i = 0
    rw [Fin.sum_univ_two, Fin.sum_univ_two, zl, zr]
    simp [Asm.weight, exHeld]

theorem exPoly_old (p q : ℝ) (v : ℕ → ℝ) (h1 : v 1 = 3) (h3 : v 3 = 3) :
    ∀ g ∈ [exLeft p, exRight q], ∀ k a,
      (g.cell.pts k).old a = (g.cell.pts k).shape.slip (v ∘ g.cell.dofs) a := by
  intro g hg k a
  rcases List.mem_cons.1 hg with rfl | hg
  · show (3 : ℝ) = exShape.slip (v ∘ fun i : Fin 2 => (i : ℕ)) a
    simp [exShape, Shape.slip, Fin.sum_univ_two, h1]
  · obtain rfl := List.mem_singleton.1 hg
    show (3 : ℝ) = exShape.slip (v ∘ fun i : Fin 2 => (i + 2 : ℕ)) a
    simp [exShape, Shape.slip, Fin.sum_univ_two, h3]

/-- C83 in a concrete case: the two grains slip by different amounts, the grain boundary stores energy. -/
example (u v : ℕ → ℝ) (_ : u 1 = 4) (_ : u 3 = 1) (h1 : v 1 = 3) (h3 : v 3 = 3) :
    ∃ R, SpecGrainAssembled [exLeft 2, exRight 5] u R ∧
    SpecGrainEnergy [exLeft 2, exRight 5] [(fun i => i, exView)] u +
        SpecDissipated ([exLeft 2, exRight 5].map GrainCell.cell) u ≤
      SpecGrainEnergy [exLeft 2, exRight 5] [(fun i => i, exView)] v +
        SpecSupplyWork ([exLeft 2, exRight 5].map GrainCell.cell) (u - v) +
        SpecLoadWork [exLeft 2, exRight 5] (u - v) + SpecGrainWork [exLeft 2, exRight 5] R (u - v) := by
  obtain ⟨R, hR⟩ := grain_assembled_exists [exLeft 2, exRight 5] _ (exPoly_paired 2 5) exView_ok
    (exPoly_kind 2 5) (exPoly_cell 2 5) (exPoly_material 2 5) u
  exact ⟨R, hR, (C83_grains_partial _ _ (exPoly_paired 2 5) exView_ok (exPoly_kind 2 5)
    (exPoly_cell 2 5) (exPoly_material 2 5) u v (exPoly_old 2 5 v h1 h3) R hR).1⟩

/-- The grain boundary of the example stores energy. -/
example : 0 < SpecFaceEnergy ((fun i => i, exView) : Face 2 1 1 2) (fun i => if i = 1 then 1 else 0) := by
  rw [faceEnergy_eq _ rfl]
  have hF : faceFactor ((fun i => i, exView) : Face 2 1 1 2) = 1 := by
    unfold faceFactor
    rw [degradation_closed _ rfl]
    norm_num [exView, exFace]
  have hB : ∀ i j, SpecNetBurgers ((fun i => i, exView) : Face 2 1 1 2)
      (fun i => if i = 1 then 1 else 0) i j = -((exGrainA 0).direction i *
        lateral2 (exGrainA 0).normal ![1, 0] j) := by
    intro i j
    simp [SpecNetBurgers, exView, exFace, burgers, Side.slip, exMeet, Fin.sum_univ_two]
  rw [hF]
  unfold faceForm
  simp only [hB]
  simp [Fin.sum_univ_two, exGrainA, lateral2]

/-- C83 for an accepted step and C84 in a concrete case. -/
example (u v v' : ℕ → ℝ) (_ : u 0 = 1) (_ : u 2 = 5) (hu1 : u 1 = 3) (hu3 : u 3 = 3) (hv1 : v 1 = 3)
    (hv3 : v 3 = 3) (_ : v 0 = 0) (hw1 : v' 1 = 3) (hw3 : v' 3 = 3) :
    ∃ p q, SpecGrainSolution [exLeft p, exRight q] exHeld 4 u ∧
    (SpecGrainEnergy [exLeft p, exRight q] [(fun i => i, exView)] u +
        SpecDissipated ([exLeft p, exRight q].map GrainCell.cell) u ≤
      SpecGrainEnergy [exLeft p, exRight q] [(fun i => i, exView)] v +
        SpecSupplyWork ([exLeft p, exRight q].map GrainCell.cell) (u - v) +
        SpecLoadWork [exLeft p, exRight q] (u - v)) ∧
    (SpecGrainSolution [exLeft p, exRight q] exHeld 4 v' → ∀ r < 4, u r = v' r) := by
  obtain ⟨p, q, R, hR, hz⟩ := exPoly_solution u
  have hdof : ∀ c ∈ [exLeft p, exRight q], ∀ i, c.cell.dofs i < 4 := by
    intro g hg i
    rcases List.mem_cons.1 hg with rfl | hg
    · show (i : ℕ) < 4
      have := (i : Fin 2).2; omega
    · obtain rfl := List.mem_singleton.1 hg
      show (i : ℕ) + 2 < 4
      have := (i : Fin 2).2; omega
  refine ⟨p, q, ⟨R, hR, hz⟩, C83_grains_accepted_partial _ _ (exPoly_paired p q) exView_ok
    (exPoly_kind p q) (exPoly_cell p q) (exPoly_material p q) u v (exPoly_old p q v hv1 hv3) R hR
    exHeld 4 exHeld_ok hdof (exHeld_satisfies _ (by simp [hu1, hv1]) (by simp [hu3, hv3])) hz,
    fun h => ?_⟩
  refine C84_grains_state_partial _ _ (exPoly_paired p q) exView_ok
    (exPoly_kind p q) (exPoly_cell p q) (exPoly_material p q) ?_ ?_ ?_ exHeld 4 exHeld_ok hdof ?_ u v'
    ⟨R, hR, hz⟩ h (exHeld_satisfies _ (by simp [hu1, hw1]) (by simp [hu3, hw3]))
  · intro g hg
    have h : SpecHardens (exMeshOf (1 / 4) 1).prm.law.hard := Or.inr ⟨by norm_num [exMeshOf],
      by norm_num [exMeshOf], by norm_num [exMeshOf], by norm_num [exMeshOf]⟩
    rcases List.mem_cons.1 hg with rfl | hg
    · exact h
    · obtain rfl := List.mem_singleton.1 hg; exact h
  · intro g hg
    rcases List.mem_cons.1 hg with rfl | hg
    · rfl
    · obtain rfl := List.mem_singleton.1 hg; rfl
  · intro g hg k a
    have h : SpecLatent (exMeshOf (1 / 4) 1).prm.law 1 (exMeshOf (1 / 4) 1).prm.dt < (1 / 1 : ℝ) := by
      norm_num [SpecLatent, exMeshOf, exCell]
    rcases List.mem_cons.1 hg with rfl | hg
    · exact h
    · obtain rfl := List.mem_singleton.1 hg; exact h
  · intro w _ h r hr
    obtain ⟨a1, a2⟩ := h (exLeft p) (by simp) (0 : Fin 1)
    obtain ⟨b1, b2⟩ := h (exRight q) (by simp) (0 : Fin 1)
    have a3 : exShape.strain (w ∘ fun i : Fin 2 => (i : ℕ)) 0 0 = 0 := congrFun (congrFun a1 0) 0
    have a4 : exShape.slip (w ∘ fun i : Fin 2 => (i : ℕ)) 0 = 0 := a2 0
    have b3 : exShape.strain (w ∘ fun i : Fin 2 => (i + 2 : ℕ)) 0 0 = 0 := congrFun (congrFun b1 0) 0
    have b4 : exShape.slip (w ∘ fun i : Fin 2 => (i + 2 : ℕ)) 0 = 0 := b2 0
    simp [exShape, Shape.strain] at a3 b3
    simp [exShape, Shape.slip, Fin.sum_univ_two] at a4 b4
    interval_cases r
    · exact a3
    · exact a4
    · exact b3
    · exact b4

/-- A run of two grains under changing loads and supply. -/
noncomputable def exRun : List (RunGrain 2 1 1 2) :=
  [⟨⟨(exLeft 0).cell, fun _ _ => 0⟩, 1, fun _ => exView, 1, fun k _ => ⟨exMeet, ![(k : ℝ), 0], 1⟩⟩,
   ⟨⟨(exRight 0).cell, fun k _ => ![0, (k : ℝ)]⟩, 1, fun _ => exView.flip fun i => i, 0, fun _ => Fin.elim0⟩]

theorem exRun_all {P : MeshCell 2 1 2 → Prop} (h : ∀ g ∈ [exLeft 0, exRight 0], P g.cell) :
    ∀ r ∈ exRun, P r.run.cell := by
  intro r hr
  rcases List.mem_cons.1 hr with rfl | hr
  · exact h (exLeft 0) (by simp)
  · obtain rfl := List.mem_singleton.1 hr
    exact h (exRight 0) (by simp)

/-- C83 over three steps of the run. -/
example (u : ℕ → ℕ → ℝ) (_ : u 1 1 = 4) (_ : u 2 3 = 7) :
    ∃ R : ℕ → GrainCell 2 1 1 2 → Fin 2 → ℝ,
    (∀ k, SpecGrainAssembled (SpecGrains exRun (fun _ => 1) u k) (u (k + 1)) (R k)) ∧
    SpecPolyEnergy exRun [(fun i => i, exView)] (u 3) + ∑ k ∈ range 3,
        SpecDissipated (SpecMesh (exRun.map RunGrain.run) (fun _ => 1) u k) (u (k + 1)) ≤
      SpecPolyEnergy exRun [(fun i => i, exView)] (u 0) + ∑ k ∈ range 3,
        (SpecSupplyWork (SpecMesh (exRun.map RunGrain.run) (fun _ => 1) u k) (u (k + 1) - u k) +
         SpecLoadWork (SpecGrains exRun (fun _ => 1) u k) (u (k + 1) - u k) +
         SpecGrainWork (SpecGrains exRun (fun _ => 1) u k) (R k) (u (k + 1) - u k)) := by
  have hp : SpecRunPaired exRun [(fun i => i, exView)] := List.Perm.refl _
  have hk := exRun_all (P := fun c => c.kind = exKind) (exPoly_kind 0 0)
  have hc := exRun_all (exPoly_cell 0 0)
  have hm := exRun_all (P := fun c => SpecMaterial c.prm) (exPoly_material 0 0)
  have hex : ∀ k, ∃ R, SpecGrainAssembled (SpecGrains exRun (fun _ => 1) u k) (u (k + 1)) R := fun k =>
    grain_assembled_exists _ _ (run_paired hp _ u k) exView_ok
      (fun g hg => by obtain ⟨r, hr, rfl⟩ := List.mem_map.1 hg; exact hk r hr)
      (fun g hg => by
        obtain ⟨r, hr, rfl⟩ := List.mem_map.1 hg
        exact at_ok r.run (hc r hr) (hm r hr) (fun _ => 1) u k)
      (fun g hg => by
        obtain ⟨r, hr, rfl⟩ := List.mem_map.1 hg
        exact at_material r.run (hm r hr) (fun _ => 1) u k one_pos) _
  choose R hR using hex
  exact ⟨R, hR, (C83_grains_run_partial exRun _ hp exView_ok hk hc hm (fun _ => 1) u R 3
    (fun _ _ => one_pos) fun k _ => hR k).1⟩

end Verif.Asm
