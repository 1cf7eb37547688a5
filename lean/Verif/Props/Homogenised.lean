import Verif.Props.Homogeneous
import Verif.Props.OpeningExistence

/-! # Homogenised stress: work, symmetry and bounds : C133 -/

namespace Verif.Asm
open Matrix Finset Verif.Cry Verif.Hist Verif.Micro Verif.Lin

variable {d n N : ℕ}

/-! ## Specification -/

/-- A specimen: grains of one material in any orientations, under the macroscopic strain `E`, without supply. -/
structure SpecSpecimen (cells : List (MeshCell d n N)) (el : Elastic) (dn0 dn3 : ℝ) (E : Mat d) : Prop where
  elastic : ∀ c ∈ cells, c.prm.elastic = el
  dn0 : ∀ c ∈ cells, c.prm.dn0 = dn0
  dn3 : ∀ c ∈ cells, c.prm.dn3 = dn3
  strain : ∀ c ∈ cells, c.prm.macroStrain = E
  supply : ∀ c ∈ cells, ∀ q, (c.pts q).supply = 0

/-- What the postprocessor sees of the cell in the state `u` (`source/postprocessing.cc:1244-1318`). -/
noncomputable def MeshCell.reported (u : ℕ → ℝ) (c : MeshCell d n N) : Post.Cell d :=
  ⟨c.prm.rot, (List.finRange c.Q).map fun q => ⟨(c.pts q).shape.jxw, (c.pts q).shape.strain (u ∘ c.dofs),
    (List.finRange n).map fun a => (c.prm.sys a, (c.pts q).shape.slip (u ∘ c.dofs) a)⟩⟩

/-- No degree of freedom of a slip takes part. -/
def SpecNoSlip (cells : List (MeshCell d n N)) (w : ℕ → ℝ) : Prop :=
  ∀ c ∈ cells, ∀ i a, c.kind i = some a → w (c.dofs i) = 0

/-- The displacements of `u`, without its slips, satisfy the homogeneous constraints: the fluctuation vanishes where it is
prescribed and is periodic where it is periodic. -/
def SpecFluctuation (cells : List (MeshCell d n N)) (K : Sol.Constraints ℕ) (u : ℕ → ℝ) : Prop :=
  ∃ w, Sol.Satisfies K w ∧ SpecNoSlip cells w ∧ ∀ c ∈ cells, ∀ i, c.kind i = none → w (c.dofs i) = u (c.dofs i)

/-- Integral over all quadrature points. -/
noncomputable def SpecIntegral (cells : List (MeshCell d n N)) (f : (c : MeshCell d n N) → Fin c.Q → ℝ) : ℝ :=
  (cells.map fun c => ∑ q, (c.pts q).shape.jxw * f c q).sum

/-- The cell under the macroscopic strain `E`. -/
def MeshCell.under (E : Mat d) (c : MeshCell d n N) : MeshCell d n N := ⟨{ c.prm with macroStrain := E }, c.kind, c.dofs, c.Q, c.pts⟩

/-! ## Helpers -/

theorem ddot_add_left (a b e : Mat d) : ddot (a + b) e = ddot a e + ddot b e := by
  simp [ddot, add_mul, Finset.sum_add_distrib]

theorem integral_add (cells : List (MeshCell d n N)) (f g : (c : MeshCell d n N) → Fin c.Q → ℝ) :
    SpecIntegral cells (fun c q => f c q + g c q) = SpecIntegral cells f + SpecIntegral cells g := by
  unfold SpecIntegral
  rw [← List.sum_map_add]
  congr 1
  refine List.map_congr_left fun c _ => ?_
  rw [← sum_add_distrib]
  exact sum_congr rfl fun q _ => by ring

theorem integral_smul (cells : List (MeshCell d n N)) (t : ℝ) (f : (c : MeshCell d n N) → Fin c.Q → ℝ) :
    SpecIntegral cells (fun c q => t * f c q) = t * SpecIntegral cells f := by
  unfold SpecIntegral
  rw [← List.sum_map_mul_left]
  congr 1
  refine List.map_congr_left fun c _ => ?_
  rw [Finset.mul_sum]
  exact sum_congr rfl fun q _ => by ring

theorem integral_congr {cells : List (MeshCell d n N)} {f g : (c : MeshCell d n N) → Fin c.Q → ℝ}
    (h : ∀ c ∈ cells, ∀ q, f c q = g c q) : SpecIntegral cells f = SpecIntegral cells g := by
  unfold SpecIntegral
  congr 1
  exact List.map_congr_left fun c hc => sum_congr rfl fun q _ => by rw [h c hc q]

theorem integral_nonneg {cells : List (MeshCell d n N)} (hcell : ∀ c ∈ cells, SpecCell c)
    {f : (c : MeshCell d n N) → Fin c.Q → ℝ} (h : ∀ c ∈ cells, ∀ q, 0 ≤ f c q) : 0 ≤ SpecIntegral cells f := by
  refine List.sum_nonneg fun x hx => ?_
  obtain ⟨c, hc, rfl⟩ := List.mem_map.1 hx
  exact sum_nonneg fun q _ => mul_nonneg ((hcell c hc).weight q).le (h c hc q)

theorem reported_sum (u : ℕ → ℝ) (cells : List (MeshCell d n N)) (procs : List (List (MeshCell d n N)))
    (hprocs : procs.flatten.Perm cells) (g : Mat d × Post.QPoint d → ℝ) :
    ((Post.points (procs.map fun p => p.map (MeshCell.reported u))).map fun x => x.2.jxw * g x).sum =
      SpecIntegral cells fun c q => g (c.prm.rot, ⟨(c.pts q).shape.jxw, (c.pts q).shape.strain (u ∘ c.dofs),
        (List.finRange n).map fun a => (c.prm.sys a, (c.pts q).shape.slip (u ∘ c.dofs) a)⟩) := by
  unfold SpecIntegral
  rw [← (hprocs.map _).sum_eq]
  clear hprocs
  induction procs with
  | nil => rfl
  | cons p l ih =>
    have e : Post.points ((p :: l).map fun p => p.map (MeshCell.reported u)) =
        ((p.map (MeshCell.reported u)).flatMap fun c => c.points.map fun q => (c.rot, q)) ++
        Post.points (l.map fun p => p.map (MeshCell.reported u)) := rfl
    rw [e, List.map_append, List.sum_append, ih, List.flatten_cons, List.map_append, List.sum_append]
    congr 1
    induction p with
    | nil => rfl
    | cons r p ihp =>
      rw [List.map_cons, List.flatMap_cons, List.map_append, List.sum_append, ihp rfl, List.map_cons,
        List.sum_cons]
      congr 1
      simp only [MeshCell.reported, List.map_map]
      rw [← List.sum_ofFn, List.ofFn_eq_map]
      rfl

theorem ddot_average (pts : List (Mat d × Post.QPoint d)) (field : Mat d × Post.QPoint d → Mat d) (E : Mat d) :
    ddot E (Post.SpecAverage pts field) =
      (pts.map fun x => x.2.jxw * ddot E (field x)).sum / (pts.map fun x => x.2.jxw).sum := by
  have hl : ∀ l : List (Mat d × Post.QPoint d), (l.map fun x => x.2.jxw * ddot E (field x)).sum =
      ∑ i, ∑ j, E i j * (l.map fun x => x.2.jxw * field x i j).sum := by
    intro l
    induction l with
    | nil => simp
    | cons x l ih =>
      simp only [List.map_cons, List.sum_cons, ih, mul_add, Finset.sum_add_distrib]
      congr 1
      unfold ddot
      simp only [Finset.mul_sum]
      exact sum_congr rfl fun i _ => sum_congr rfl fun j _ => by ring
  rw [hl, Finset.sum_div]
  unfold ddot
  refine sum_congr rfl fun i _ => ?_
  rw [Finset.sum_div]
  refine sum_congr rfl fun j _ => ?_
  rw [Post.average_apply, mul_div_assoc]

/-- The homogenised stress as an integral. -/
theorem reported_work (cells : List (MeshCell d n N)) {el : Elastic} {dn0 dn3 : ℝ} {E : Mat d}
    (hs : SpecSpecimen cells el dn0 dn3 E) (hV : SpecIntegral cells (fun _ _ => 1) ≠ 0) (u : ℕ → ℝ)
    (procs : List (List (MeshCell d n N))) (hprocs : procs.flatten.Perm cells) :
    ∃ h, Post.Homog.compute ⟨el, dn0, E⟩ (procs.map fun p => p.map (MeshCell.reported u)) = some h ∧
      h.volume = SpecIntegral cells (fun _ _ => 1) ∧ ∀ F : Mat d, h.volume * ddot F h.stress =
        SpecIntegral cells fun c q => ddot F (c.prm.stressAt (c.pts q).shape (u ∘ c.dofs)) := by
  have hv := reported_sum u cells procs hprocs fun _ => 1
  simp only [mul_one] at hv
  have hV' := hV
  rw [← hv] at hV'
  refine ⟨_, Post.C56_average _ _ hV', hv, fun F => ?_⟩
  show _ * ddot F (Post.SpecAverage _ _) = _
  rw [ddot_average, mul_div_cancel₀ _ hV', reported_sum u cells procs hprocs (fun x => ddot F (el.stress x.1
    (E + elasticStrain dn0 x.2.slips x.2.strain)))]
  refine integral_congr fun c hc q => ?_
  unfold CellPrm.stressAt CellPrm.elasticStrainAt
  rw [hs.elastic c hc, hs.dn0 c hc, hs.strain c hc]

theorem noSlip_fields (cells : List (MeshCell d n N)) (hcell : ∀ c ∈ cells, SpecCell c) {w : ℕ → ℝ}
    (hw : SpecNoSlip cells w) : ∀ c ∈ cells, ∀ q a, (c.pts q).shape.slip (w ∘ c.dofs) a = 0 ∧
      (c.pts q).shape.slipGrad (w ∘ c.dofs) a = 0 := by
  intro c hc q a
  have hz : ∀ i, (w ∘ c.dofs) i = 0 ∨ ((c.pts q).shape.phi a i = 0 ∧ (c.pts q).shape.grad a i = 0) := by
    intro i
    rcases hk : c.kind i with _ | b
    · exact Or.inr ⟨((hcell c hc).primitive q).phi i a (by rw [hk]; simp),
        ((hcell c hc).primitive q).grad i a (by rw [hk]; simp)⟩
    · exact Or.inl (hw c hc i b hk)
  constructor
  · unfold Shape.slip
    refine sum_eq_zero fun i _ => ?_
    rcases hz i with h | h
    · rw [h, zero_mul]
    · rw [h.1, mul_zero]
  · unfold Shape.slipGrad
    refine sum_eq_zero fun i _ => ?_
    rcases hz i with h | h
    · rw [h, zero_smul]
    · rw [h.2, smul_zero]

/-- Principle of virtual work for displacements. -/
theorem virtual_work (cells : List (MeshCell d n N)) (hcell : ∀ c ∈ cells, SpecCell c)
    (hmat : ∀ c ∈ cells, SpecMaterial c.prm) {el : Elastic} {dn0 dn3 : ℝ} {E : Mat d}
    (hs : SpecSpecimen cells el dn0 dn3 E) (h0 : 0 < dn0) (h3 : 0 < dn3) {K : Sol.Constraints ℕ} {m : ℕ}
    (hK : Homogeneous K m) (hm : ∀ c ∈ cells, ∀ i, c.dofs i < m) {u : ℕ → ℝ} (hu : SpecSolution cells K m u) {w : ℕ → ℝ}
    (hw : Sol.Satisfies K w) (hn : SpecNoSlip cells w) :
    (SpecIntegral cells fun c q => ddot ((c.pts q).shape.strain (w ∘ c.dofs))
      (c.prm.stressAt (c.pts q).shape (u ∘ c.dofs))) = 0 := by
  obtain ⟨R, hR, hz⟩ := hu
  have h := solution_work cells hK hm hw hz
  have hf := noSlip_fields cells hcell hn
  have e : dn3 / dn0 * (SpecIntegral cells fun c q => ddot ((c.pts q).shape.strain (w ∘ c.dofs))
      (c.prm.stressAt (c.pts q).shape (u ∘ c.dofs))) = SpecNodalWork cells R w := by
    rw [← integral_smul]
    unfold SpecIntegral SpecNodalWork
    congr 1
    refine List.map_congr_left fun c hc => ?_
    have p := cell_power c.prm (hmat c hc).index (hmat c hc).dn0.ne' c.kind c.pts (hcell c hc).primitive (u ∘ c.dofs)
      (R c) (hR c hc) (w ∘ c.dofs)
    simp only [Function.comp_apply] at p
    rw [p]
    refine sum_congr rfl fun q _ => ?_
    have e1 : SpecElasticStrain c.prm (c.pts q).shape (w ∘ c.dofs) = (c.pts q).shape.strain (w ∘ c.dofs) := by
      unfold SpecElasticStrain
      simp [hf c hc q]
    rw [e1, hs.dn0 c hc, hs.dn3 c hc, hs.supply c hc q]
    simp [hf c hc q]
  rw [h] at e
  exact (mul_eq_zero.1 e).resolve_left (div_pos h3 h0).ne'

theorem fluctuation_strain (cells : List (MeshCell d n N)) (hcell : ∀ c ∈ cells, SpecCell c) {u w : ℕ → ℝ}
    (h : ∀ c ∈ cells, ∀ i, c.kind i = none → w (c.dofs i) = u (c.dofs i)) : ∀ c ∈ cells, ∀ q,
    (c.pts q).shape.strain (w ∘ c.dofs) = (c.pts q).shape.strain (u ∘ c.dofs) := by
  intro c hc q
  unfold Shape.strain
  refine sum_congr rfl fun i _ => ?_
  rcases hk : c.kind i with _ | a
  · rw [Function.comp_apply, Function.comp_apply, h c hc i hk]
  · rw [((hcell c hc).primitive q).symGrad i a hk, smul_zero, smul_zero]

/-! ## Theorems -/

/-- C133, the macroscopic stress does the work of the stresses: on however many processes the cells are, the volume times
the work of the reported stress on any macroscopic strain is what the stresses do on that strain and the fluctuation that
belongs to any admissible displacement.  In particular on the strain of the specimen itself. -/
theorem C133_work (cells : List (MeshCell d n N)) (hcell : ∀ c ∈ cells, SpecCell c)
    (hmat : ∀ c ∈ cells, SpecMaterial c.prm) (el : Elastic) (dn0 dn3 : ℝ) (E : Mat d)
    (hs : SpecSpecimen cells el dn0 dn3 E) (h0 : 0 < dn0) (h3 : 0 < dn3) (hV : SpecIntegral cells (fun _ _ => 1) ≠ 0)
    (K : Sol.Constraints ℕ) (m : ℕ) (hK : Homogeneous K m) (hm : ∀ c ∈ cells, ∀ i, c.dofs i < m) (u : ℕ → ℝ)
    (hu : SpecSolution cells K m u) (procs : List (List (MeshCell d n N))) (hprocs : procs.flatten.Perm cells) :
    ∃ h, Post.Homog.compute ⟨el, dn0, E⟩ (procs.map fun p => p.map (MeshCell.reported u)) = some h ∧
      h.volume = SpecIntegral cells (fun _ _ => 1) ∧
      ∀ (F : Mat d) (v : ℕ → ℝ), SpecFluctuation cells K v → h.volume * ddot F h.stress =
        SpecIntegral cells fun c q => ddot (F + (c.pts q).shape.strain (v ∘ c.dofs))
          (c.prm.stressAt (c.pts q).shape (u ∘ c.dofs)) := by
  obtain ⟨h, h1, h2, h4⟩ := reported_work cells hs hV u procs hprocs
  refine ⟨h, h1, h2, fun F v hv => ?_⟩
  obtain ⟨w, w1, w2, w3⟩ := hv
  have hz := virtual_work cells hcell hmat hs h0 h3 hK hm hu w1 w2
  have hst := fluctuation_strain cells hcell w3
  have e : (SpecIntegral cells fun c q => ddot ((c.pts q).shape.strain (v ∘ c.dofs))
      (c.prm.stressAt (c.pts q).shape (u ∘ c.dofs))) = 0 := by
    rw [← hz]
    exact integral_congr fun c hc q => by rw [hst c hc q]
  rw [h4]
  have : (fun (c : MeshCell d n N) (q : Fin c.Q) => ddot (F + (c.pts q).shape.strain (v ∘ c.dofs))
      (c.prm.stressAt (c.pts q).shape (u ∘ c.dofs))) = fun c q => ddot F (c.prm.stressAt (c.pts q).shape (u ∘ c.dofs)) +
      ddot ((c.pts q).shape.strain (v ∘ c.dofs)) (c.prm.stressAt (c.pts q).shape (u ∘ c.dofs)) := by
    funext c q
    exact ddot_add_left _ _ _
  rw [this, integral_add, e, add_zero]

theorem under_ok {cells : List (MeshCell d n N)} (hcell : ∀ c ∈ cells, SpecCell c)
    (hmat : ∀ c ∈ cells, SpecMaterial c.prm) {el : Elastic} {dn0 dn3 : ℝ} {E₀ : Mat d}
    (hs : SpecSpecimen cells el dn0 dn3 E₀) {m : ℕ} (hm : ∀ c ∈ cells, ∀ i, c.dofs i < m) (E : Mat d) :
    (∀ c ∈ cells.map (MeshCell.under E), SpecCell c) ∧ (∀ c ∈ cells.map (MeshCell.under E), SpecMaterial c.prm) ∧
    SpecSpecimen (cells.map (MeshCell.under E)) el dn0 dn3 E ∧ (∀ c ∈ cells.map (MeshCell.under E), ∀ i, c.dofs i < m) := by
  have key : ∀ {P : MeshCell d n N → Prop}, (∀ c ∈ cells, P (c.under E)) → ∀ c ∈ cells.map (MeshCell.under E), P c := by
    intro P h c hc
    obtain ⟨b, hb, rfl⟩ := List.mem_map.1 hc
    exact h b hb
  refine ⟨key fun c hc => ⟨(hcell c hc).primitive, (hcell c hc).weight, (hcell c hc).hist, (hcell c hc).res⟩,
    key (P := fun c => SpecMaterial c.prm) fun c hc => { hmat c hc with }, ⟨key (P := fun c => c.prm.elastic = el) hs.elastic,
    key (P := fun c => c.prm.dn0 = dn0) hs.dn0, key (P := fun c => c.prm.dn3 = dn3) hs.dn3,
    key (P := fun c => c.prm.macroStrain = E) fun _ _ => rfl, key (P := fun c => ∀ q, (c.pts q).supply = 0) hs.supply⟩,
    key (P := fun c => ∀ i, c.dofs i < m) hm⟩

/-- The stress of an elastic state. -/
theorem elastic_stress {cells : List (MeshCell d n N)} (hcell : ∀ c ∈ cells, SpecCell c) {u : ℕ → ℝ}
    (hn : SpecNoSlip cells u) (E : Mat d) : ∀ c ∈ cells, ∀ q, (c.under E).prm.stressAt (c.pts q).shape (u ∘ c.dofs) =
      apply4 c.prm.tetrad (E + (c.pts q).shape.strain (u ∘ c.dofs)) := by
  intro c hc q
  unfold CellPrm.stressAt CellPrm.elasticStrainAt
  rw [elasticStrain_finRange]
  simp only [(noSlip_fields cells hcell hn c hc q _).1, zero_smul, sum_const_zero, smul_zero, sub_zero]
  rfl

theorem shape_strain_symm {c : MeshCell d n N} (hc : SpecCell c) (q : Fin c.Q) (u : Fin N → ℝ) :
    ((c.pts q).shape.strain u)ᵀ = (c.pts q).shape.strain u := by
  unfold Shape.strain
  rw [Matrix.transpose_sum]
  exact sum_congr rfl fun i _ => by rw [Matrix.transpose_smul, ((hc).primitive q).sym]

/-- Integral form of the work in elastic states. -/
theorem elastic_work {cells : List (MeshCell d n N)} (hcell : ∀ c ∈ cells, SpecCell c)
    (hmat : ∀ c ∈ cells, SpecMaterial c.prm) {el : Elastic} {dn0 dn3 : ℝ} {E₀ : Mat d}
    (hs : SpecSpecimen cells el dn0 dn3 E₀) (h0 : 0 < dn0) (h3 : 0 < dn3) (hV : SpecIntegral cells (fun _ _ => 1) ≠ 0)
    {K : Sol.Constraints ℕ} {m : ℕ} (hK : Homogeneous K m) (hm : ∀ c ∈ cells, ∀ i, c.dofs i < m) (E : Mat d) {u : ℕ → ℝ}
    (hu : SpecSolution (cells.map (MeshCell.under E)) K m u) (hn : SpecNoSlip cells u)
    (procs : List (List (MeshCell d n N))) (hprocs : procs.flatten.Perm cells) :
    ∃ h, Post.Homog.compute ⟨el, dn0, E⟩ (procs.map fun p => p.map (MeshCell.reported u)) = some h ∧
      h.volume = SpecIntegral cells (fun _ _ => 1) ∧
      ∀ (F : Mat d) (v : ℕ → ℝ), SpecFluctuation cells K v → h.volume * ddot F h.stress =
        SpecIntegral cells fun c q => cc c.prm.tetrad (F + (c.pts q).shape.strain (v ∘ c.dofs))
          (E + (c.pts q).shape.strain (u ∘ c.dofs)) := by
  obtain ⟨a1, a2, a3, a4⟩ := under_ok hcell hmat hs hm E
  have e : ∀ f : (c : MeshCell d n N) → Fin c.Q → ℝ, SpecIntegral (cells.map (MeshCell.under E)) f =
      SpecIntegral cells fun c q => f (c.under E) q := by
    intro f
    unfold SpecIntegral
    rw [List.map_map]
    rfl
  have hV' : SpecIntegral (cells.map (MeshCell.under E)) (fun _ _ => 1) ≠ 0 := by rw [e]; exact hV
  obtain ⟨h, h1, h2, h4⟩ := C133_work _ a1 a2 el dn0 dn3 E a3 h0 h3 hV' K m hK a4 u hu
    (procs.map fun p => p.map (MeshCell.under E)) (by
      rw [← List.map_flatten]; exact hprocs.map _)
  refine ⟨h, ?_, by rw [h2, e], fun F v hv => ?_⟩
  · rw [← h1, List.map_map]
    congr 1
    refine List.map_congr_left fun p _ => ?_
    rw [Function.comp_apply, List.map_map]
    rfl
  · obtain ⟨w, w1, w2, w3⟩ := hv
    rw [h4 F v ⟨w, w1, fun c hc => by obtain ⟨b, hb, rfl⟩ := List.mem_map.1 hc; exact w2 b hb,
      fun c hc => by obtain ⟨b, hb, rfl⟩ := List.mem_map.1 hc; exact w3 b hb⟩, e]
    refine integral_congr fun c hc q => ?_
    show ddot _ ((c.under E).prm.stressAt (c.pts q).shape (u ∘ c.dofs)) = _
    rw [elastic_stress hcell hn E c hc q]
    rfl

/-- C133, the homogenised stiffness is symmetric: two macroscopic strains, each with its elastic state, do the same work on
each other's reported stresses. -/
theorem C133_symmetric (cells : List (MeshCell d n N)) (hcell : ∀ c ∈ cells, SpecCell c)
    (hmat : ∀ c ∈ cells, SpecMaterial c.prm) (el : Elastic) (dn0 dn3 : ℝ) (E₀ : Mat d)
    (hs : SpecSpecimen cells el dn0 dn3 E₀) (h0 : 0 < dn0) (h3 : 0 < dn3) (hV : SpecIntegral cells (fun _ _ => 1) ≠ 0)
    (K : Sol.Constraints ℕ) (m : ℕ) (hK : Homogeneous K m) (hm : ∀ c ∈ cells, ∀ i, c.dofs i < m)
    (procs : List (List (MeshCell d n N))) (hprocs : procs.flatten.Perm cells) (E E' : Mat d) (u u' : ℕ → ℝ)
    (hu : SpecSolution (cells.map (MeshCell.under E)) K m u) (hn : SpecNoSlip cells u) (hf : SpecFluctuation cells K u)
    (hu' : SpecSolution (cells.map (MeshCell.under E')) K m u') (hn' : SpecNoSlip cells u')
    (hf' : SpecFluctuation cells K u') :
    ∃ h h', Post.Homog.compute ⟨el, dn0, E⟩ (procs.map fun p => p.map (MeshCell.reported u)) = some h ∧
      Post.Homog.compute ⟨el, dn0, E'⟩ (procs.map fun p => p.map (MeshCell.reported u')) = some h' ∧
      ddot E' h.stress = ddot E h'.stress := by
  obtain ⟨h, h1, h2, h4⟩ := elastic_work hcell hmat hs h0 h3 hV hK hm E hu hn procs hprocs
  obtain ⟨h', h1', h2', h4'⟩ := elastic_work hcell hmat hs h0 h3 hV hK hm E' hu' hn' procs hprocs
  refine ⟨h, h', h1, h1', ?_⟩
  have e1 := h4 E' u' hf'
  have e2 := h4' E u hf
  have e : h.volume * ddot E' h.stress = h'.volume * ddot E h'.stress := by
    rw [e1, e2]
    exact integral_congr fun c _ q => cc_symm _ (fun i j k l => tetrad_major c.prm i j k l) _ _
  rw [h2, h2'] at e
  exact mul_left_cancel₀ hV e

/-- C133, bounds of Voigt and Reuss: the work of the reported stress on the macroscopic strain is not negative, does not
exceed that of the stresses of a uniform strain, and not fall short of that of a uniform stress `S` whose strains `e`
average to the macroscopic strain. -/
theorem C133_bounds (cells : List (MeshCell d n N)) (hcell : ∀ c ∈ cells, SpecCell c)
    (hmat : ∀ c ∈ cells, SpecMaterial c.prm) (el : Elastic) (dn0 dn3 : ℝ) (E₀ : Mat d)
    (hs : SpecSpecimen cells el dn0 dn3 E₀) (h0 : 0 < dn0) (h3 : 0 < dn3) (hV : SpecIntegral cells (fun _ _ => 1) ≠ 0)
    (K : Sol.Constraints ℕ) (m : ℕ) (hK : Homogeneous K m) (hm : ∀ c ∈ cells, ∀ i, c.dofs i < m)
    (procs : List (List (MeshCell d n N))) (hprocs : procs.flatten.Perm cells) (E : Mat d) (hE : Eᵀ = E) (u : ℕ → ℝ)
    (hu : SpecSolution (cells.map (MeshCell.under E)) K m u) (hn : SpecNoSlip cells u) (hf : SpecFluctuation cells K u) :
    ∃ h, Post.Homog.compute ⟨el, dn0, E⟩ (procs.map fun p => p.map (MeshCell.reported u)) = some h ∧
      0 < h.volume ∧ 0 ≤ ddot E h.stress ∧
      h.volume * ddot E h.stress ≤ (SpecIntegral cells fun c _ => ddot E (el.stress c.prm.rot E)) ∧
      ∀ (S : Mat d) (e : (c : MeshCell d n N) → Fin c.Q → Mat d),
        (∀ c ∈ cells, ∀ q, (e c q)ᵀ = e c q ∧ el.stress c.prm.rot (e c q) = S) →
        (SpecIntegral cells fun c q => ddot (e c q) S) = h.volume * ddot E S →
        (SpecIntegral cells fun c q => ddot ((c.pts q).shape.strain (u ∘ c.dofs)) S) = 0 →
        ddot E S ≤ ddot E h.stress := by
  obtain ⟨h, h1, h2, h4⟩ := elastic_work hcell hmat hs h0 h3 hV hK hm E hu hn procs hprocs
  have hpos : 0 < h.volume := by
    rw [h2]
    exact lt_of_le_of_ne (integral_nonneg hcell fun _ _ _ => zero_le_one) hV.symm
  have hz : SpecFluctuation cells K 0 := by
    refine ⟨0, ?_, fun _ _ _ _ _ => rfl, fun _ _ _ _ => rfl⟩
    have := satisfies_sub hK (Sol.distribute_satisfies hK.closed 0) (Sol.distribute_satisfies hK.closed 0)
    rwa [sub_self] at this
  have s0 : ∀ (c : MeshCell d n N) (q : Fin c.Q), (c.pts q).shape.strain ((0 : ℕ → ℝ) ∘ c.dofs) = 0 := by
    intro c q
    unfold Shape.strain
    exact sum_eq_zero fun i _ => by rw [Function.comp_apply, Pi.zero_apply, zero_smul]
  have w1 := h4 E u hf
  have w0 := h4 E 0 hz
  simp only [s0, add_zero] at w0
  have en : ∀ c ∈ cells, ∀ e : Mat d, eᵀ = e → 0 ≤ cc c.prm.tetrad e e := fun c hc e he =>
    energy_nonneg' c.prm (hmat c hc) e he
  have sy : ∀ c ∈ cells, ∀ q, (E + (c.pts q).shape.strain (u ∘ c.dofs))ᵀ = E + (c.pts q).shape.strain (u ∘ c.dofs) := by
    intro c hc q
    rw [Matrix.transpose_add, hE, shape_strain_symm (hcell c hc)]
  have cs : ∀ (c : MeshCell d n N) (a b : Mat d), cc c.prm.tetrad a b = cc c.prm.tetrad b a := fun c a b =>
    cc_symm _ (fun i j k l => tetrad_major c.prm i j k l) _ _
  have ca : ∀ (c : MeshCell d n N) (a b b' : Mat d), cc c.prm.tetrad (a + b) b' = cc c.prm.tetrad a b' + cc c.prm.tetrad b b' :=
    fun c a b b' => by rw [cs, cc_add, cs c b', cs c b']
  refine ⟨h, h1, hpos, ?_, ?_, fun S e he hav hmean => ?_⟩
  · have : 0 ≤ h.volume * ddot E h.stress := by
      rw [w1]; exact integral_nonneg hcell fun c hc q => en c hc _ (sy c hc q)
    exact nonneg_of_mul_nonneg_right this hpos
  · have hd : (SpecIntegral cells fun c _ => ddot E (el.stress c.prm.rot E)) =
        h.volume * ddot E h.stress + SpecIntegral cells fun c q =>
          cc c.prm.tetrad ((c.pts q).shape.strain (u ∘ c.dofs)) ((c.pts q).shape.strain (u ∘ c.dofs)) := by
      have e3 : (SpecIntegral cells fun c q => cc c.prm.tetrad E (E + (c.pts q).shape.strain (u ∘ c.dofs)) +
          cc c.prm.tetrad E (E + (c.pts q).shape.strain (u ∘ c.dofs))) = h.volume * ddot E h.stress +
          h.volume * ddot E h.stress := by rw [integral_add, ← w0]
      have e4 : (SpecIntegral cells fun c _ => ddot E (el.stress c.prm.rot E)) + h.volume * ddot E h.stress =
          (SpecIntegral cells fun c q => cc c.prm.tetrad E (E + (c.pts q).shape.strain (u ∘ c.dofs)) +
          cc c.prm.tetrad E (E + (c.pts q).shape.strain (u ∘ c.dofs))) + SpecIntegral cells fun c q =>
          cc c.prm.tetrad ((c.pts q).shape.strain (u ∘ c.dofs)) ((c.pts q).shape.strain (u ∘ c.dofs)) := by
        rw [w1, ← integral_add, ← integral_add]
        refine integral_congr fun c hc q => ?_
        have : ddot E (el.stress c.prm.rot E) = cc c.prm.tetrad E E := by rw [← hs.elastic c hc]; rfl
        rw [this, ca, cc_add, cc_add, cs c ((c.pts q).shape.strain (u ∘ c.dofs)) E]
        ring
      linarith
    rw [hd]
    have := integral_nonneg hcell (f := fun c q =>
      cc c.prm.tetrad ((c.pts q).shape.strain (u ∘ c.dofs)) ((c.pts q).shape.strain (u ∘ c.dofs)))
      fun c hc q => en c hc _ (shape_strain_symm (hcell c hc) q _)
    linarith
  · have hnn := integral_nonneg hcell (f := fun c q => cc c.prm.tetrad (E + (c.pts q).shape.strain (u ∘ c.dofs) + -1 • e c q)
      (E + (c.pts q).shape.strain (u ∘ c.dofs) + -1 • e c q)) fun c hc q => en c hc _ (by
        rw [Matrix.transpose_add, sy c hc q, Matrix.transpose_smul, (he c hc q).1])
    have hsum : (SpecIntegral cells fun c q => cc c.prm.tetrad (E + (c.pts q).shape.strain (u ∘ c.dofs) + -1 • e c q)
        (E + (c.pts q).shape.strain (u ∘ c.dofs) + -1 • e c q)) + 2 * (h.volume * ddot E S) =
        h.volume * ddot E h.stress + h.volume * ddot E S := by
      have e5 : h.volume * ddot E S = SpecIntegral cells fun c q => ddot (E + (c.pts q).shape.strain (u ∘ c.dofs)) S := by
        have : (fun (c : MeshCell d n N) (q : Fin c.Q) => ddot (E + (c.pts q).shape.strain (u ∘ c.dofs)) S) =
            fun c q => ddot E S * 1 + ddot ((c.pts q).shape.strain (u ∘ c.dofs)) S := by
          funext c q
          rw [ddot_add_left, mul_one]
        rw [this, integral_add, hmean, add_zero, integral_smul, h2, mul_comm]
      have e6 : h.volume * ddot E h.stress + h.volume * ddot E S = SpecIntegral cells fun c q =>
          cc c.prm.tetrad (E + (c.pts q).shape.strain (u ∘ c.dofs)) (E + (c.pts q).shape.strain (u ∘ c.dofs)) +
          ddot (e c q) S := by rw [integral_add, hav, w1]
      rw [e6, e5, ← integral_smul, ← integral_add]
      refine integral_congr fun c hc q => ?_
      have x1 : ∀ a, cc c.prm.tetrad a (e c q) = ddot a S := by
        intro a
        show ddot a (c.prm.elastic.stress c.prm.rot (e c q)) = _
        rw [hs.elastic c hc, (he c hc q).2]
      have n1 : ∀ a, cc c.prm.tetrad a (-1 • e c q) = -ddot a S := by
        intro a
        have : (-1 : ℤ) • e c q = (-1 : ℝ) • e c q := by simp
        rw [this, cc_smul, x1]; ring
      generalize E + (c.pts q).shape.strain (u ∘ c.dofs) = A
      rw [ca, cc_add, cc_add, n1, n1, cs c (-1 • e c q) A, n1]
      have : ddot (-1 • e c q) S = -ddot (e c q) S := by
        have : (-1 : ℤ) • e c q = (-1 : ℝ) • e c q := by simp
        rw [this, ddot_smul_left]; ring
      rw [this]
      ring
    have : h.volume * ddot E S ≤ h.volume * ddot E h.stress := by linarith
    exact le_of_mul_le_mul_left this hpos

/-! ## A concrete case: two elastic grains of anisotropic material and different orientation -/

noncomputable def exTurned : Mat 2 := !![3/5, -4/5; 4/5, 3/5]

/-- The shape functions on the other side of the specimen. -/
noncomputable def exShapeBack : Shape 2 1 2 := { exShape with symGrad := fun i => -exShape.symGrad i }

noncomputable def exGrain (r : Mat 2) (s : Shape 2 1 2) : MeshCell 2 1 2 :=
  ⟨{ exCell false 1 with elastic := ⟨3, 1, 2, 1⟩, rot := r }, exKind, fun i => i, 1,
    fun _ => ⟨s, 0, Bulk.init ⟨1, 1, 1, 1, false⟩ 1, fun _ => 0⟩⟩

noncomputable def exSpecimen : List (MeshCell 2 1 2) := [exGrain 1 exShape, exGrain exTurned exShapeBack]

/-- No slip. -/
noncomputable def exNoSlip : Sol.Constraints ℕ := fun k => if k = 1 then some ⟨[], 0⟩ else none

theorem exNoSlip_ok : Homogeneous exNoSlip 2 := by
  refine ⟨fun g l h => ?_, fun g l h => ?_, fun g l h => ?_⟩ <;> by_cases hg : g = 1 <;> simp [exNoSlip, hg] at h <;>
    subst h <;> simp

theorem exNoSlip_slip {w : ℕ → ℝ} (h : Sol.Satisfies exNoSlip w) : w 1 = 0 := by
  have := h 1 ⟨[], 0⟩ (by simp [exNoSlip])
  simpa [Sol.Line.eval] using this

theorem exSpecimen_forall {P : MeshCell 2 1 2 → Prop} (a : P (exGrain 1 exShape)) (b : P (exGrain exTurned exShapeBack)) :
    ∀ c ∈ exSpecimen, P c := by
  intro c hc
  rcases List.mem_cons.1 hc with rfl | hc
  · exact a
  · obtain rfl := List.mem_singleton.1 hc
    exact b

theorem exShapeBack_primitive : exShapeBack.Primitive exKind :=
  ⟨exShape_primitive.disp, fun i a h => by
    show -exShape.symGrad i = 0
    rw [exShape_primitive.symGrad i a h, neg_zero], exShape_primitive.phi, exShape_primitive.grad, fun i => by
    show (-exShape.symGrad i)ᵀ = -exShape.symGrad i
    rw [Matrix.transpose_neg, exShape_primitive.sym i]⟩

theorem exGrain_cell (r : Mat 2) (s : Shape 2 1 2) (hs : s.Primitive exKind) (hj : s.jxw = 1 / 2) : SpecCell (exGrain r s) := by
  constructor
  · exact fun _ => hs
  · intro q
    show (0 : ℝ) < s.jxw
    rw [hj]; norm_num
  · exact fun _ => rfl
  · intro q a
    show (0 : ℝ) ≤ 1 / 1
    norm_num

theorem exGrain_material (r : Mat 2) (s : Shape 2 1 2) (hr : SpecOrthogonal r) : SpecMaterial (exGrain r s).prm :=
  ⟨by norm_num [exGrain, Elastic.accepted], by norm_num [exGrain], by norm_num [exGrain], hr,
    by norm_num [exGrain, exCell, VecLaw.accepted], by norm_num [exGrain, exCell], by norm_num [exGrain, exCell],
    by norm_num [exGrain, exCell], by norm_num [exGrain, exCell], by norm_num [exGrain, exCell], by norm_num [exGrain, exCell],
    by norm_num [exGrain, exCell]⟩

theorem exTurned_orthogonal : SpecOrthogonal exTurned := by
  unfold SpecOrthogonal exTurned
  ext i j
  fin_cases i <;> fin_cases j <;> norm_num [Matrix.mul_apply, Fin.sum_univ_two]

theorem exSpecimen_cell : ∀ c ∈ exSpecimen, SpecCell c :=
  exSpecimen_forall (exGrain_cell _ _ exShape_primitive rfl) (exGrain_cell _ _ exShapeBack_primitive rfl)

theorem exSpecimen_material : ∀ c ∈ exSpecimen, SpecMaterial c.prm :=
  exSpecimen_forall (P := fun c => SpecMaterial c.prm) (exGrain_material _ _ (by simp [SpecOrthogonal]))
    (exGrain_material _ _ exTurned_orthogonal)

theorem exSpecimen_ok : SpecSpecimen exSpecimen ⟨3, 1, 2, 1⟩ 2 5 0 :=
  ⟨exSpecimen_forall rfl rfl, exSpecimen_forall rfl rfl, exSpecimen_forall rfl rfl, exSpecimen_forall rfl rfl,
    exSpecimen_forall (P := fun c => ∀ q, (c.pts q).supply = 0) (fun _ => rfl) (fun _ => rfl)⟩

theorem exSpecimen_dofs : ∀ c ∈ exSpecimen, ∀ i, c.dofs i < 2 :=
  exSpecimen_forall (P := fun c => ∀ i, c.dofs i < 2) (fun i => i.2) (fun i => i.2)

theorem exSpecimen_integral (f : (c : MeshCell 2 1 2) → Fin c.Q → ℝ) : SpecIntegral exSpecimen f =
    1 / 2 * f (exGrain 1 exShape) (0 : Fin 1) + 1 / 2 * f (exGrain exTurned exShapeBack) (0 : Fin 1) := by
  have hs : ∀ f : Fin 1 → ℝ, ∑ q, f q = f 0 := fun f => Fin.sum_univ_one f
  have h1 : ∀ f : Fin (exGrain 1 exShape).Q → ℝ, ∑ q, f q = f (0 : Fin 1) := hs
  have h2 : ∀ f : Fin (exGrain exTurned exShapeBack).Q → ℝ, ∑ q, f q = f (0 : Fin 1) := hs
  simp only [SpecIntegral, exSpecimen, List.map_cons, List.map_nil, List.sum_cons, List.sum_nil, add_zero]
  rw [h1, h2]
  rfl

theorem exSpecimen_volume : SpecIntegral exSpecimen (fun _ _ => 1) = 1 := by
  rw [exSpecimen_integral]; norm_num

/-- An elastic state of the specimen. -/
theorem exSpecimen_state (E : Mat 2) : ∃ u, SpecSolution (exSpecimen.map (MeshCell.under E)) exNoSlip 2 u ∧
    SpecNoSlip exSpecimen u ∧ SpecFluctuation exSpecimen exNoSlip u := by
  obtain ⟨a1, a2, -, a4⟩ := under_ok exSpecimen_cell exSpecimen_material exSpecimen_ok exSpecimen_dofs E
  have key : ∀ {P : MeshCell 2 1 2 → Prop}, (∀ c ∈ exSpecimen, P (c.under E)) → ∀ c ∈ exSpecimen.map (MeshCell.under E), P c := by
    intro P h c hc
    obtain ⟨b, hb, rfl⟩ := List.mem_map.1 hc
    exact h b hb
  have hb : SpecStableBody (exSpecimen.map (MeshCell.under E)) := by
    refine ⟨a1, a2, key (P := fun c => SpecHardens c.prm.law.hard) (exSpecimen_forall
      (P := fun c => SpecHardens c.prm.law.hard) ?_ ?_), key (P := fun c => ∀ q a, SpecLatent c.prm.law 1 c.prm.dt ≤
      (c.pts q).hist.tmp a) (exSpecimen_forall (P := fun c => ∀ q a, SpecLatent c.prm.law 1 c.prm.dt ≤ (c.pts q).hist.tmp a)
      ?_ ?_)⟩
    · norm_num [SpecHardens, exGrain, exCell]
    · norm_num [SpecHardens, exGrain, exCell]
    · intro q a
      show _ ≤ (1 / 1 : ℝ)
      norm_num [SpecLatent, exGrain, exCell]
    · intro q a
      show _ ≤ (1 / 1 : ℝ)
      norm_num [SpecLatent, exGrain, exCell]
  have hdet : SpecDetermined (exSpecimen.map (MeshCell.under E)) exNoSlip 2 := by
    intro w hw he
    obtain ⟨e1, e2, -⟩ := errors_nonneg _ hb w 0
    have w1 := exNoSlip_slip hw
    have a := elastic_none _ hb w (by linarith) ((exGrain 1 exShape).under E) (by simp [exSpecimen]) (0 : Fin 1)
    have a' : SpecElasticStrain { (exGrain 1 exShape).prm with macroStrain := E } exShape (w ∘ fun i : Fin 2 => (i : ℕ)) = 0 := a
    have a00 := congrFun (congrFun a' 0) 0
    simp [SpecElasticStrain, Shape.strain, Shape.slip, exShape, exGrain, exCell, Fin.sum_univ_two, w1] at a00
    intro g hg
    interval_cases g <;> assumption
  obtain ⟨u, hu, h2⟩ := C129_body _ a1 a2 (key (P := fun c => c.prm.law.rateIndependent = false) (exSpecimen_forall rfl rfl))
    exNoSlip 2 exNoSlip_ok a4 hdet 0
  rw [sub_zero] at hu
  have hn : SpecNoSlip exSpecimen u := exSpecimen_forall
    (P := fun c => ∀ i a, c.kind i = some a → u (c.dofs i) = 0) (by
      intro i a h
      have : (i : Fin 2) = 1 := by
        by_contra h'
        have : (i : Fin 2) = 0 := by omega
        subst this; simp [exGrain, exKind] at h
      subst this; exact exNoSlip_slip hu) (by
      intro i a h
      have : (i : Fin 2) = 1 := by
        by_contra h'
        have : (i : Fin 2) = 0 := by omega
        subst this; simp [exGrain, exKind] at h
      subst this; exact exNoSlip_slip hu)
  exact ⟨u, h2, hn, u, hu, hn, fun _ _ _ _ => rfl⟩

/-- C133 in the concrete case, on one process and on two: what is reported does the work, is symmetric and within the bounds. -/
example (E E' : Mat 2) : ∃ u u' h h',
    Post.Homog.compute ⟨⟨3, 1, 2, 1⟩, 2, E⟩ ([exSpecimen].map fun p => p.map (MeshCell.reported u)) = some h ∧
    Post.Homog.compute ⟨⟨3, 1, 2, 1⟩, 2, E'⟩ ([exSpecimen].map fun p => p.map (MeshCell.reported u')) = some h' ∧
    ddot E' h.stress = ddot E h'.stress := by
  obtain ⟨u, a, b, c⟩ := exSpecimen_state E
  obtain ⟨u', a', b', c'⟩ := exSpecimen_state E'
  obtain ⟨h, h', x⟩ := C133_symmetric exSpecimen exSpecimen_cell exSpecimen_material _ _ _ _ exSpecimen_ok (by norm_num)
    (by norm_num) (by rw [exSpecimen_volume]; exact one_ne_zero) exNoSlip 2 exNoSlip_ok exSpecimen_dofs [exSpecimen]
    (by simp) E E' u u' a b c a' b' c'
  exact ⟨u, u', h, h', x⟩

theorem exHooke (r : Mat 2) (hr : SpecOrthogonal r) : (⟨3, 1, 2, 1⟩ : Elastic).stress r 1 = (4 : ℝ) • (1 : Mat 2) := by
  have h := C31_frame_indifferent ⟨3, 1, 2, 1⟩ r 1 hr
  have hr' : r * rᵀ = 1 := mul_eq_one_comm.1 hr
  rw [Matrix.mul_one, hr'] at h
  have h1 : (⟨3, 1, 2, 1⟩ : Elastic).stress 1 (1 : Mat 2) = (4 : ℝ) • (1 : Mat 2) := by
    ext o q
    rw [stress_eq]
    simp only [Matrix.transpose_one, Matrix.mul_one]
    simp only [cubic_apply _ (1 : Mat 2) Matrix.transpose_one]
    fin_cases o <;> fin_cases q <;> norm_num [Fin.sum_univ_two, Matrix.trace, Matrix.one_apply]
  rw [h, h1, Matrix.mul_smul, Matrix.mul_one, Matrix.smul_mul, hr']

/-- Dilated in the plane the two grains, on two processes, report exactly what both bounds give: eight times the volume. -/
example : ∃ u h, SpecSolution (exSpecimen.map (MeshCell.under 1)) exNoSlip 2 u ∧
    Post.Homog.compute ⟨⟨3, 1, 2, 1⟩, 2, 1⟩ ([[exGrain exTurned exShapeBack], [exGrain 1 exShape]].map fun p =>
      p.map (MeshCell.reported u)) = some h ∧ h.volume = 1 ∧ ddot 1 h.stress = 8 := by
  obtain ⟨u, a, b, c⟩ := exSpecimen_state 1
  have hV : SpecIntegral exSpecimen (fun _ _ => 1) ≠ 0 := by rw [exSpecimen_volume]; exact one_ne_zero
  have hp : [[exGrain exTurned exShapeBack], [exGrain 1 exShape]].flatten.Perm exSpecimen := List.Perm.swap _ _ _
  obtain ⟨h, h1, h2, h3, h4, h5⟩ := C133_bounds exSpecimen exSpecimen_cell exSpecimen_material _ _ _ _ exSpecimen_ok
    (by norm_num) (by norm_num) hV exNoSlip 2 exNoSlip_ok exSpecimen_dofs _ hp 1 Matrix.transpose_one u a b c
  obtain ⟨h', h1', h2', -⟩ := elastic_work exSpecimen_cell exSpecimen_material exSpecimen_ok (by norm_num) (by norm_num) hV
    exNoSlip_ok exSpecimen_dofs 1 a b _ hp
  obtain rfl : h = h' := Option.some.inj (h1.symm.trans h1')
  have hv : h.volume = 1 := by rw [h2', exSpecimen_volume]
  have hI : (SpecOrthogonal (1 : Mat 2)) := by simp [SpecOrthogonal]
  have d8 : ddot (1 : Mat 2) ((4 : ℝ) • (1 : Mat 2)) = 8 := by
    norm_num [ddot, Fin.sum_univ_two, Matrix.one_apply]
  refine ⟨u, h, a, h1, hv, le_antisymm ?_ ?_⟩
  · rw [exSpecimen_integral, hv, one_mul] at h4
    have e1 : ddot (1 : Mat 2) ((⟨3, 1, 2, 1⟩ : Elastic).stress (exGrain 1 exShape).prm.rot 1) = 8 := by
      rw [show (exGrain 1 exShape).prm.rot = 1 from rfl, exHooke 1 hI, d8]
    have e2 : ddot (1 : Mat 2) ((⟨3, 1, 2, 1⟩ : Elastic).stress (exGrain exTurned exShapeBack).prm.rot 1) = 8 := by
      rw [show (exGrain exTurned exShapeBack).prm.rot = exTurned from rfl, exHooke _ exTurned_orthogonal, d8]
    rw [e1, e2] at h4
    linarith
  · have := h5 ((4 : ℝ) • 1) (fun _ _ => 1) (exSpecimen_forall
      (P := fun c => Fin c.Q → (1 : Mat 2)ᵀ = 1 ∧ (⟨3, 1, 2, 1⟩ : Elastic).stress c.prm.rot 1 = (4 : ℝ) • 1)
      (fun _ => ⟨Matrix.transpose_one, exHooke 1 hI⟩) (fun _ => ⟨Matrix.transpose_one, exHooke _ exTurned_orthogonal⟩))
      (by rw [exSpecimen_integral, hv, d8]; norm_num) (by
        rw [exSpecimen_integral]
        have : ∀ w : Fin 2 → ℝ, exShapeBack.strain w = -exShape.strain w := by
          intro w
          simp [Shape.strain, exShapeBack]
        show 1 / 2 * ddot (exShape.strain (u ∘ fun i : Fin 2 => (i : ℕ))) _ +
          1 / 2 * ddot (exShapeBack.strain (u ∘ fun i : Fin 2 => (i : ℕ))) _ = 0
        rw [this, ← neg_one_smul ℝ, ddot_smul_left]
        ring)
    rwa [d8] at this

end Verif.Asm
