import Verif.Props.Newton
import Verif.Props.Energy

/-!
# Elastic steps are linear: C97
-/

namespace Verif.Lin
open Verif.Sol Verif.LS Verif.Drv Verif.Asm Verif.Cry Finset Matrix

variable {d n N : ℕ}

/-! ## Specification -/

/-- What the assembly of a cell hands over at the trial solution `x` (C50, C78); a number that is not
defined counts as zero, which does not occur for displacements. -/
noncomputable def SpecHanded (c : MeshCell d n N) (x : ℕ → ℝ) : Local N :=
  ⟨c.dofs, fun i j => (c.prm.mat c.kind c.pts (x ∘ c.dofs) i j).getD 0,
    fun i => (c.prm.rhs c.kind c.pts (x ∘ c.dofs) i).getD 0, fun _ => 1, []⟩

/-- A step on a mesh without grain boundary tractions in which every slip is inactive, with constraints
as the application sets them up. -/
structure SpecElasticStep (cells : List (MeshCell d n N)) (p : Problem N) : Prop where
  handed : ∀ x, p.cells x = cells.map (SpecHanded · x)
  primitive : ∀ c ∈ cells, ∀ q, (c.pts q).shape.Primitive c.kind
  dofs : ∀ c ∈ cells, ∀ i, c.dofs i < p.n
  homogeneous : Homogeneous p.internal p.n
  closed : Closed p.aff
  admissible : ∀ x u, Satisfies p.aff x → Satisfies p.internal u → Satisfies p.aff fun d => x d + u d
  inactive : ∀ c ∈ cells, ∀ i a, c.kind i = some a → p.internal (c.dofs i) = some ⟨[], 0⟩

/-! ## Helpers -/

/-- Elastic energy product of two displacement fields of a cell. -/
noncomputable def elasticWork (c : MeshCell d n N) (v u : Fin N → ℝ) : ℝ :=
  ∑ q, c.prm.dn3 / c.prm.dn0 * cc c.prm.tetrad ((c.pts q).shape.strain v) ((c.pts q).shape.strain u) *
    (c.pts q).shape.jxw

theorem strain_left (c : CellPrm d n) (s : Shape d n N) (v : Fin N → ℝ) (B : Mat d) :
    cc c.tetrad (s.strain v) B = ∑ i, v i * cc c.tetrad (s.symGrad i) B := by
  rw [cc_symm _ (tetrad_major c), strain_sum]
  exact sum_congr rfl fun i _ => by rw [cc_symm _ (tetrad_major c)]

theorem slip_inactive {c : MeshCell d n N} (hp : ∀ q, (c.pts q).shape.Primitive c.kind) {u : Fin N → ℝ}
    (hu : ∀ i a, c.kind i = some a → u i = 0) (q : Fin c.Q) (a : Fin n) :
    (c.pts q).shape.slip u a = 0 := by
  unfold Shape.slip
  refine sum_eq_zero fun j _ => ?_
  by_cases h : c.kind j = some a
  · rw [hu j a h, zero_mul]
  · rw [(hp q).phi j a h, mul_zero]

theorem handed_mat (c : MeshCell d n N) (x : ℕ → ℝ) {v u : Fin N → ℝ}
    (hv : ∀ i a, c.kind i = some a → v i = 0) (hu : ∀ i a, c.kind i = some a → u i = 0) :
    ∑ i, ∑ j, v i * (SpecHanded c x).mat i j * u j = elasticWork c v u := by
  have e : ∀ i j, v i * (SpecHanded c x).mat i j * u j = ∑ q, c.prm.dn3 / c.prm.dn0 *
      (v i * (u j * cc c.prm.tetrad ((c.pts q).shape.symGrad i) ((c.pts q).shape.symGrad j))) *
        (c.pts q).shape.jxw := by
    intro i j
    cases hi : c.kind i with
    | some a => rw [hv i a hi]; simp
    | none =>
      cases hj : c.kind j with
      | some b => rw [hu j b hj]; simp
      | none =>
        have : c.prm.mat c.kind c.pts (x ∘ c.dofs) i j = some (∑ q, c.prm.dn3 / c.prm.dn0 *
            sandwich ((c.pts q).shape.symGrad i) c.prm.tetrad ((c.pts q).shape.symGrad j) *
              (c.pts q).shape.jxw) :=
          sumOpt_some _ _ fun q => by unfold CellPrm.matTerm; simp only [hi, hj]
        show v i * (c.prm.mat c.kind c.pts (x ∘ c.dofs) i j).getD 0 * u j = _
        rw [this, Option.getD_some, Finset.mul_sum, Finset.sum_mul]
        exact sum_congr rfl fun q _ => by rw [sandwich_eq]; ring
  simp only [e]
  unfold elasticWork
  have r : ∀ i : Fin N, ∑ j, ∑ q, c.prm.dn3 / c.prm.dn0 *
      (v i * (u j * cc c.prm.tetrad ((c.pts q).shape.symGrad i) ((c.pts q).shape.symGrad j))) *
        (c.pts q).shape.jxw = ∑ q, ∑ j, c.prm.dn3 / c.prm.dn0 *
      (v i * (u j * cc c.prm.tetrad ((c.pts q).shape.symGrad i) ((c.pts q).shape.symGrad j))) *
        (c.pts q).shape.jxw := fun i => Finset.sum_comm
  simp only [r]
  rw [Finset.sum_comm]
  refine sum_congr rfl fun q _ => ?_
  rw [strain_left, Finset.mul_sum, Finset.sum_mul]
  refine sum_congr rfl fun i _ => ?_
  rw [strain_sum, Finset.mul_sum, Finset.mul_sum, Finset.sum_mul]

theorem handed_rhs (c : MeshCell d n N) (hp : ∀ q, (c.pts q).shape.Primitive c.kind) (x u : ℕ → ℝ)
    {v : Fin N → ℝ} (hv : ∀ i a, c.kind i = some a → v i = 0)
    (hu : ∀ i a, c.kind i = some a → u (c.dofs i) = 0) :
    ∑ i, v i * (SpecHanded c fun d => x d + u d).rhs i =
      ∑ i, v i * (SpecHanded c x).rhs i - elasticWork c v (u ∘ c.dofs) := by
  have e : ∀ i, v i * (SpecHanded c fun d => x d + u d).rhs i = v i * (SpecHanded c x).rhs i -
      ∑ q, c.prm.dn3 / c.prm.dn0 * (v i * cc c.prm.tetrad ((c.pts q).shape.symGrad i)
        ((c.pts q).shape.strain (u ∘ c.dofs))) * (c.pts q).shape.jxw := by
    intro i
    cases hi : c.kind i with
    | some a => rw [hv i a hi]; simp
    | none =>
      have hr : ∀ y : ℕ → ℝ, (SpecHanded c y).rhs i = ∑ q, -(c.prm.dn3 / c.prm.dn0 *
          (ddot ((c.pts q).shape.symGrad i) (c.prm.stressAt (c.pts q).shape (y ∘ c.dofs)) -
            (c.pts q).shape.disp i ⬝ᵥ (c.pts q).supply) * (c.pts q).shape.jxw) := by
        intro y
        have : c.prm.rhs c.kind c.pts (y ∘ c.dofs) i = some (∑ q, -(c.prm.dn3 / c.prm.dn0 *
            (ddot ((c.pts q).shape.symGrad i) (c.prm.stressAt (c.pts q).shape (y ∘ c.dofs)) -
              (c.pts q).shape.disp i ⬝ᵥ (c.pts q).supply) * (c.pts q).shape.jxw)) :=
          sumOpt_some _ _ fun q => by unfold CellPrm.rhsTerm; simp only [hi]
        show (c.prm.rhs c.kind c.pts (y ∘ c.dofs) i).getD 0 = _
        rw [this]; rfl
      rw [hr, hr, Finset.mul_sum, Finset.mul_sum, ← Finset.sum_sub_distrib]
      refine sum_congr rfl fun q _ => ?_
      have h := stress_line c.prm (c.pts q).shape ((c.pts q).shape.symGrad i) (x ∘ c.dofs) (u ∘ c.dofs) 1
      have hz : ∑ a, (c.pts q).shape.slip (u ∘ c.dofs) a *
          cc c.prm.tetrad ((c.pts q).shape.symGrad i) (c.prm.sys a).symSchmid = 0 :=
        sum_eq_zero fun a _ => by rw [slip_inactive hp (u := u ∘ c.dofs) hu q a, zero_mul]
      rw [hz, mul_zero, sub_zero, one_mul, one_smul] at h
      have e : (fun d => x d + u d) ∘ c.dofs = x ∘ c.dofs + u ∘ c.dofs := rfl
      rw [e, h]
      ring
  simp only [e, Finset.sum_sub_distrib]
  congr 1
  rw [Finset.sum_comm]
  unfold elasticWork
  refine sum_congr rfl fun q _ => ?_
  rw [strain_left, Finset.mul_sum, Finset.sum_mul]

theorem inactive_zero {cells : List (MeshCell d n N)} {p : Problem N} (h : SpecElasticStep cells p)
    {v : ℕ → ℝ} (hv : Satisfies p.internal v) {c : MeshCell d n N} (hc : c ∈ cells) {i : Fin N} {a : Fin n}
    (hi : c.kind i = some a) : v (c.dofs i) = 0 := by
  have := hv _ _ (h.inactive c hc i a hi)
  simpa [Line.eval] using this

theorem elastic_tangent {cells : List (MeshCell d n N)} {p : Problem N} (h : SpecElasticStep cells p)
    {u v : ℕ → ℝ} (hu : Satisfies p.internal u) (hv : Satisfies p.internal v) (x : ℕ → ℝ) :
    SpecTangent (p.cells x) v u =
      (cells.map fun c => elasticWork c (v ∘ c.dofs) (u ∘ c.dofs)).sum := by
  rw [h.handed x]
  unfold SpecTangent
  rw [List.map_map]
  congr 1
  refine List.map_congr_left fun c hc => ?_
  have := handed_mat c x (v := v ∘ c.dofs) (u := u ∘ c.dofs) (fun i a hi => inactive_zero h hv hc hi)
    (fun i a hi => inactive_zero h hu hc hi)
  rw [← this]
  show _ + (([] : List ((Fin N → ℕ) × (Fin N → Fin N → ℝ))).map _).sum = _
  rw [List.map_nil, List.sum_nil, add_zero]
  rfl

/-- C97: while no slip is active, the equations of a step are linear, for all cells, quadrature points,
material data and slips; with stable elastic constants they derive from a convex energy. -/
theorem C97_elastic (cells : List (MeshCell d n N)) (p : Problem N) (h : SpecElasticStep cells p) :
    SpecLinear p ∧ ((∀ c ∈ cells, SpecMaterial c.prm ∧ ∀ q, 0 ≤ (c.pts q).shape.jxw) → SpecConvex p) := by
  refine ⟨⟨h.homogeneous, h.closed, fun x => ?_, h.admissible, fun x u v _ hu hv => ?_,
    fun x y _ _ u v hu hv => ?_⟩, fun hst => ⟨fun x u v _ hu hv => ?_, fun x u _ hu => ?_⟩⟩
  · rw [h.handed x]
    constructor
    · intro a ha i
      obtain ⟨c, hc, rfl⟩ := List.mem_map.1 ha
      exact h.dofs c hc i
    · intro a ha b hb
      obtain ⟨c, hc, rfl⟩ := List.mem_map.1 ha
      simp [SpecHanded] at hb
  · rw [elastic_tangent h hu hv x, h.handed x, h.handed fun d => x d + u d]
    unfold SpecResidual
    rw [List.map_map, List.map_map]
    have : ∀ l : List (MeshCell d n N), (∀ c ∈ l, c ∈ cells) →
        (l.map ((fun a : Local N => ∑ i, v (a.dofs i) * a.rhs i) ∘ (SpecHanded · fun d => x d + u d))).sum =
        (l.map ((fun a : Local N => ∑ i, v (a.dofs i) * a.rhs i) ∘ (SpecHanded · x))).sum -
          (l.map fun c => elasticWork c (v ∘ c.dofs) (u ∘ c.dofs)).sum := by
      intro l hl
      induction l with
      | nil => simp
      | cons c l ih =>
        rw [List.map_cons, List.map_cons, List.map_cons, List.sum_cons, List.sum_cons, List.sum_cons,
          ih fun c hc => hl c (List.mem_cons_of_mem _ hc)]
        have hc := hl c List.mem_cons_self
        have := handed_rhs c (h.primitive c hc) x u (v := v ∘ c.dofs)
          (fun i a hi => inactive_zero h hv hc hi) (fun i a hi => inactive_zero h hu hc hi)
        simp only [Function.comp_apply] at this ⊢
        have e : ∀ y, (SpecHanded c y).dofs = c.dofs := fun y => rfl
        rw [e, e, this]
        ring
    exact this cells fun c hc => hc
  · rw [elastic_tangent h hu hv x, elastic_tangent h hu hv y]
  · rw [elastic_tangent h hu hv x, elastic_tangent h hv hu x]
    congr 1
    refine List.map_congr_left fun c _ => ?_
    unfold elasticWork
    exact sum_congr rfl fun q _ => by rw [cc_symm _ (tetrad_major c.prm)]
  · rw [elastic_tangent h hu hu x]
    refine List.sum_nonneg fun y hy => ?_
    obtain ⟨c, hc, rfl⟩ := List.mem_map.1 hy
    obtain ⟨hs, hj⟩ := hst c hc
    unfold elasticWork
    refine sum_nonneg fun q _ => mul_nonneg (mul_nonneg (div_nonneg hs.dn3.le hs.dn0.le) ?_) (hj q)
    refine energy_nonneg' c.prm hs _ ?_
    unfold Shape.strain
    rw [Matrix.transpose_sum]
    exact sum_congr rfl fun i _ => by
      rw [Matrix.transpose_smul, (h.primitive c hc q).sym]

/-- One cell under a body force with its slip held, and a step with it. -/
noncomputable def exHeld (f : ℝ) : Problem 2 where
  n := 2
  aff := exPinned
  internal := exPinned
  blk := fun d => if d = 0 then 0 else 1
  cells := fun x => [exMesh f].map (SpecHanded · x)
  all := fun _ _ => 0
  block := fun _ _ _ => 0
  reduced := fun _ _ => 0
  initial := fun _ => 0
  resetSlips := true
  searchAll := ⟨true, 15, 1e-4⟩
  searchMacro := ⟨true, 15, 1e-4⟩
  searchMicro := ⟨true, 15, 1e-4⟩

/-- C97_elastic in a concrete case. -/
example (f : ℝ) : SpecLinear (exHeld f) ∧ SpecConvex (exHeld f) := by
  have h : SpecElasticStep [exMesh f] (exHeld f) := by
    refine ⟨fun _ => rfl, ?_, ?_, exPinned_ok, ?_, ?_, ?_⟩
    · intro c hc; rw [List.mem_singleton] at hc; subst hc; exact (exMesh_cell 1.4 f).primitive
    · intro c hc i; rw [List.mem_singleton] at hc; subst hc; exact i.2
    · intro i l hl e he
      change exPinned i = some l at hl
      unfold exPinned at hl
      split_ifs at hl
      rw [← Option.some.inj hl] at he
      simp at he
    · intro x u hx hu
      refine exPinned_satisfies _ ?_
      have a := hx 1 ⟨[], 0⟩ (by simp [exHeld, exPinned])
      have b := hu 1 ⟨[], 0⟩ (by simp [exHeld, exPinned])
      simp only [Line.eval, List.map_nil, List.sum_nil, add_zero] at a b
      rw [a, b, add_zero]
    · intro c hc i a hi
      rw [List.mem_singleton] at hc; subst hc
      have : i = 1 := by
        change exKind i = some a at hi
        unfold exKind at hi
        split_ifs at hi with h0
        omega
      subst this
      simp [exHeld, exPinned, exMesh, exMeshOf]
  obtain ⟨h1, h2⟩ := C97_elastic _ _ h
  refine ⟨h1, h2 fun c hc => ?_⟩
  rw [List.mem_singleton] at hc; subst hc
  exact ⟨exMesh_material 1.4 (by norm_num) f, fun q => ((exMesh_cell 1.4 f).weight q).le⟩

end Verif.Lin
