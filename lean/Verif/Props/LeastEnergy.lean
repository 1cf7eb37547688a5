import Verif.Props.Homogenised

/-! # Homogenised elastic behaviour: least energy, boundary conditions, refinement, linearity : C134 -/

namespace Verif.Asm
open Matrix Finset Verif.Cry Verif.Hist Verif.Micro Verif.Lin

variable {d n N : ℕ}

/-! ## Specification -/

/-- Twice the elastic energy of the specimen in the state that the macroscopic strain `E` and the displacements of `v` give,
without slips. -/
noncomputable def SpecEnergyOf (cells : List (MeshCell d n N)) (el : Elastic) (E : Mat d) (v : ℕ → ℝ) : ℝ :=
  SpecIntegral cells fun c q => SpecEnergy2 el c.prm.rot (E + (c.pts q).shape.strain (v ∘ c.dofs))

/-- A specimen as in C133 with its constraints, on a number of processes. -/
structure SpecElasticSpecimen (cells : List (MeshCell d n N)) (el : Elastic) (dn0 dn3 : ℝ) (K : Sol.Constraints ℕ) (m : ℕ)
    (procs : List (List (MeshCell d n N))) : Prop where
  cell : ∀ c ∈ cells, SpecCell c
  material : ∀ c ∈ cells, SpecMaterial c.prm
  specimen : ∃ E₀, SpecSpecimen cells el dn0 dn3 E₀
  dn0 : 0 < dn0
  dn3 : 0 < dn3
  volume : SpecIntegral cells (fun _ _ => 1) ≠ 0
  constraints : Homogeneous K m
  dofs : ∀ c ∈ cells, ∀ i, c.dofs i < m
  procs : procs.flatten.Perm cells

/-- `u` is an elastic state of the specimen under the macroscopic strain `E`. -/
structure SpecElasticState (cells : List (MeshCell d n N)) (K : Sol.Constraints ℕ) (m : ℕ) (E : Mat d) (u : ℕ → ℝ) : Prop where
  solution : SpecSolution (cells.map (MeshCell.under E)) K m u
  noSlip : SpecNoSlip cells u
  fluctuation : SpecFluctuation cells K u

/-! ## Helpers -/

theorem integral_zero {cells : List (MeshCell d n N)} (hcell : ∀ c ∈ cells, SpecCell c)
    {f : (c : MeshCell d n N) → Fin c.Q → ℝ} (h : ∀ c ∈ cells, ∀ q, 0 ≤ f c q) (h0 : SpecIntegral cells f = 0) :
    ∀ c ∈ cells, ∀ q, f c q = 0 := by
  intro c hc q
  have hp : ∀ c ∈ cells, ∀ q, 0 ≤ (c.pts q).shape.jxw * f c q := fun c hc q =>
    mul_nonneg ((hcell c hc).weight q).le (h c hc q)
  have h1 := List.single_le_sum (l := cells.map fun c => ∑ q, (c.pts q).shape.jxw * f c q) (fun x hx => by
    obtain ⟨c, hc, rfl⟩ := List.mem_map.1 hx
    exact sum_nonneg fun q _ => hp c hc q) _ (List.mem_map.2 ⟨c, hc, rfl⟩)
  have h2 : (cells.map fun c => ∑ q, (c.pts q).shape.jxw * f c q).sum = 0 := h0
  rw [h2] at h1
  have h3 := (sum_eq_zero_iff_of_nonneg fun q _ => hp c hc q).1 (le_antisymm h1 (sum_nonneg fun q _ => hp c hc q)) q
    (mem_univ q)
  exact (mul_eq_zero.1 h3).resolve_left ((hcell c hc).weight q).ne'

theorem strain_comb (s : Shape d n N) (t : ℝ) (u v : Fin N → ℝ) : s.strain (t • u + v) = t • s.strain u + s.strain v := by
  unfold Shape.strain
  rw [Finset.smul_sum, ← sum_add_distrib]
  exact sum_congr rfl fun i _ => by rw [Pi.add_apply, Pi.smul_apply, smul_eq_mul, add_smul, mul_smul]

theorem satisfies_comb {K : Sol.Constraints ℕ} {m : ℕ} (hK : Homogeneous K m) {a b : ℕ → ℝ} (ha : Sol.Satisfies K a)
    (hb : Sol.Satisfies K b) (t : ℝ) : Sol.Satisfies K (t • a + b) := by
  intro i l hl
  have h0 := hK.inhom i l hl
  have hlin : ∀ (es : List (ℕ × ℝ)), (es.map fun e => e.2 * (t • a + b) e.1).sum =
      t * (es.map fun e => e.2 * a e.1).sum + (es.map fun e => e.2 * b e.1).sum := by
    intro es
    induction es with
    | nil => simp
    | cons e es ih =>
      rw [List.map_cons, List.sum_cons, ih, List.map_cons, List.sum_cons, List.map_cons, List.sum_cons, Pi.add_apply,
        Pi.smul_apply, smul_eq_mul]
      ring
  have e1 := ha i l hl
  have e2 := hb i l hl
  unfold Sol.Line.eval at *
  rw [h0] at *
  rw [Pi.add_apply, Pi.smul_apply, smul_eq_mul, e1, e2, hlin]
  ring

theorem fluctuation_comb {cells : List (MeshCell d n N)} {K : Sol.Constraints ℕ} {m : ℕ} (hK : Homogeneous K m)
    {a b : ℕ → ℝ} (ha : SpecFluctuation cells K a) (hb : SpecFluctuation cells K b) (t : ℝ) :
    SpecFluctuation cells K (t • a + b) := by
  obtain ⟨w, w1, w2, w3⟩ := ha
  obtain ⟨z, z1, z2, z3⟩ := hb
  refine ⟨t • w + z, satisfies_comb hK w1 z1 t, fun c hc i a h => ?_, fun c hc i h => ?_⟩
  · simp [w2 c hc i a h, z2 c hc i a h]
  · simp [w3 c hc i h, z3 c hc i h]

theorem cc_add_left (c : MeshCell d n N) (a b e : Mat d) :
    cc c.prm.tetrad (a + b) e = cc c.prm.tetrad a e + cc c.prm.tetrad b e := by
  have cs : ∀ a b : Mat d, cc c.prm.tetrad a b = cc c.prm.tetrad b a := fun a b =>
    cc_symm _ (fun i j k l => tetrad_major c.prm i j k l) _ _
  rw [cs, cc_add, cs e, cs e]

/-! ## Theorems -/

/-- C134, least energy: the volume times the work of the reported stress on the macroscopic strain is twice the elastic
energy of the computed state, and no admissible fluctuation gives less. -/
theorem C134_least (cells : List (MeshCell d n N)) (el : Elastic) (dn0 dn3 : ℝ) (K : Sol.Constraints ℕ) (m : ℕ)
    (procs : List (List (MeshCell d n N))) (hs : SpecElasticSpecimen cells el dn0 dn3 K m procs) (E : Mat d)
    (u : ℕ → ℝ) (hu : SpecElasticState cells K m E u) :
    ∃ h, Post.Homog.compute ⟨el, dn0, E⟩ (procs.map fun p => p.map (MeshCell.reported u)) = some h ∧ 0 < h.volume ∧
      h.volume * ddot E h.stress = SpecEnergyOf cells el E u ∧
      ∀ v, SpecFluctuation cells K v → h.volume * ddot E h.stress ≤ SpecEnergyOf cells el E v := by
  obtain ⟨E₀, hsp⟩ := hs.specimen
  obtain ⟨h, h1, h2, h4⟩ := elastic_work hs.cell hs.material hsp hs.dn0 hs.dn3 hs.volume hs.constraints hs.dofs E
    hu.solution hu.noSlip procs hs.procs
  have hen : ∀ v, SpecEnergyOf cells el E v = SpecIntegral cells fun c q => cc c.prm.tetrad
      (E + (c.pts q).shape.strain (v ∘ c.dofs)) (E + (c.pts q).shape.strain (v ∘ c.dofs)) := fun v =>
    integral_congr fun c hc q => by rw [← hsp.elastic c hc]; rfl
  refine ⟨h, h1, ?_, ?_, fun v hv => ?_⟩
  · rw [h2]
    exact lt_of_le_of_ne (integral_nonneg hs.cell fun _ _ _ => zero_le_one) hs.volume.symm
  · rw [hen, h4 E u hu.fluctuation]
  · have w1 := h4 E u hu.fluctuation
    have wv := h4 E v hv
    have hnn := integral_nonneg hs.cell (f := fun c q => cc c.prm.tetrad
      ((c.pts q).shape.strain ((-1 : ℝ) • (u ∘ c.dofs) + v ∘ c.dofs))
      ((c.pts q).shape.strain ((-1 : ℝ) • (u ∘ c.dofs) + v ∘ c.dofs)))
      fun c hc q => energy_nonneg' c.prm (hs.material c hc) _ (shape_strain_symm (hs.cell c hc) q _)
    have e : (SpecIntegral cells fun c q => cc c.prm.tetrad
        ((c.pts q).shape.strain ((-1 : ℝ) • (u ∘ c.dofs) + v ∘ c.dofs))
        ((c.pts q).shape.strain ((-1 : ℝ) • (u ∘ c.dofs) + v ∘ c.dofs))) + (h.volume * ddot E h.stress +
        h.volume * ddot E h.stress) = SpecEnergyOf cells el E v + h.volume * ddot E h.stress := by
      have r : SpecEnergyOf cells el E v + h.volume * ddot E h.stress = SpecIntegral cells fun c q =>
          cc c.prm.tetrad (E + (c.pts q).shape.strain (v ∘ c.dofs)) (E + (c.pts q).shape.strain (v ∘ c.dofs)) +
          cc c.prm.tetrad (E + (c.pts q).shape.strain (u ∘ c.dofs)) (E + (c.pts q).shape.strain (u ∘ c.dofs)) := by
        rw [integral_add, hen, w1]
      have l : h.volume * ddot E h.stress + h.volume * ddot E h.stress = SpecIntegral cells fun c q =>
          cc c.prm.tetrad (E + (c.pts q).shape.strain (v ∘ c.dofs)) (E + (c.pts q).shape.strain (u ∘ c.dofs)) +
          cc c.prm.tetrad (E + (c.pts q).shape.strain (v ∘ c.dofs)) (E + (c.pts q).shape.strain (u ∘ c.dofs)) := by
        rw [integral_add, ← wv]
      rw [r, l, ← integral_add]
      refine integral_congr fun c hc q => ?_
      have es : (c.pts q).shape.strain ((-1 : ℝ) • (u ∘ c.dofs) + v ∘ c.dofs) =
          (E + (c.pts q).shape.strain (v ∘ c.dofs)) + (-1 : ℝ) • (E + (c.pts q).shape.strain (u ∘ c.dofs)) := by
        rw [strain_comb, smul_add, neg_one_smul, neg_one_smul]
        abel
      rw [es]
      generalize E + (c.pts q).shape.strain (v ∘ c.dofs) = A
      generalize E + (c.pts q).shape.strain (u ∘ c.dofs) = B
      have cs : ∀ a b : Mat d, cc c.prm.tetrad a b = cc c.prm.tetrad b a := fun a b =>
        cc_symm _ (fun i j k l => tetrad_major c.prm i j k l) _ _
      rw [cc_add_left, cc_add, cc_add, cc_smul, cs ((-1 : ℝ) • B) A, cc_smul, cc_smul, cs ((-1 : ℝ) • B) B, cc_smul]
      ring
    linarith

/-- C134, boundary conditions: the more the boundary conditions forbid, the stiffer the specimen; in particular prescribed
displacements at the boundary are at least as stiff as periodic ones, and these as fewer constraints. -/
theorem C134_boundary (cells : List (MeshCell d n N)) (el : Elastic) (dn0 dn3 : ℝ) (K K' : Sol.Constraints ℕ) (m : ℕ)
    (procs procs' : List (List (MeshCell d n N))) (hs : SpecElasticSpecimen cells el dn0 dn3 K m procs)
    (hs' : SpecElasticSpecimen cells el dn0 dn3 K' m procs') (hKK : ∀ w, Sol.Satisfies K' w → Sol.Satisfies K w)
    (E : Mat d) (u u' : ℕ → ℝ) (hu : SpecElasticState cells K m E u) (hu' : SpecElasticState cells K' m E u') :
    ∃ h h', Post.Homog.compute ⟨el, dn0, E⟩ (procs.map fun p => p.map (MeshCell.reported u)) = some h ∧
      Post.Homog.compute ⟨el, dn0, E⟩ (procs'.map fun p => p.map (MeshCell.reported u')) = some h' ∧
      ddot E h.stress ≤ ddot E h'.stress := by
  obtain ⟨h, h1, hp, -, h4⟩ := C134_least cells el dn0 dn3 K m procs hs E u hu
  obtain ⟨h', h1', hp', h3', -⟩ := C134_least cells el dn0 dn3 K' m procs' hs' E u' hu'
  refine ⟨h, h', h1, h1', ?_⟩
  obtain ⟨w, w1, w2, w3⟩ := hu'.fluctuation
  have := h4 u' ⟨w, hKK w w1, w2, w3⟩
  rw [← h3'] at this
  have hv : h'.volume = h.volume := by
    obtain ⟨E₀, hsp⟩ := hs.specimen
    obtain ⟨a, a1, a2, -⟩ := elastic_work hs.cell hs.material hsp hs.dn0 hs.dn3 hs.volume hs.constraints hs.dofs E
      hu.solution hu.noSlip procs hs.procs
    obtain ⟨b, b1, b2, -⟩ := elastic_work hs'.cell hs'.material hsp hs.dn0 hs.dn3 hs.volume hs'.constraints hs'.dofs E
      hu'.solution hu'.noSlip procs' hs'.procs
    rw [h1] at a1; rw [h1'] at b1
    rw [Option.some.inj a1, Option.some.inj b1, a2, b2]
  rw [hv] at this
  exact le_of_mul_le_mul_left this hp

/-- C134, refinement: if the displacements of the coarse mesh can be represented on the fine one, with the same energy and
volume, the fine mesh is not stiffer.  The meshes may have different elements. -/
theorem C134_refined {N' : ℕ} (coarse : List (MeshCell d n N)) (fine : List (MeshCell d n N')) (el : Elastic) (dn0 dn3 : ℝ)
    (K K' : Sol.Constraints ℕ) (m m' : ℕ) (procs : List (List (MeshCell d n N))) (procs' : List (List (MeshCell d n N')))
    (hs : SpecElasticSpecimen coarse el dn0 dn3 K m procs) (hs' : SpecElasticSpecimen fine el dn0 dn3 K' m' procs')
    (E : Mat d) (hrep : ∀ v, SpecFluctuation coarse K v → ∃ v', SpecFluctuation fine K' v' ∧
      SpecEnergyOf fine el E v' = SpecEnergyOf coarse el E v)
    (hvol : SpecIntegral fine (fun _ _ => 1) = SpecIntegral coarse (fun _ _ => 1)) (u u' : ℕ → ℝ)
    (hu : SpecElasticState coarse K m E u) (hu' : SpecElasticState fine K' m' E u') :
    ∃ h h', Post.Homog.compute ⟨el, dn0, E⟩ (procs.map fun p => p.map (MeshCell.reported u)) = some h ∧
      Post.Homog.compute ⟨el, dn0, E⟩ (procs'.map fun p => p.map (MeshCell.reported u')) = some h' ∧
      ddot E h'.stress ≤ ddot E h.stress := by
  obtain ⟨h, h1, hp, h3, -⟩ := C134_least coarse el dn0 dn3 K m procs hs E u hu
  obtain ⟨h', h1', hp', -, h4'⟩ := C134_least fine el dn0 dn3 K' m' procs' hs' E u' hu'
  refine ⟨h, h', h1, h1', ?_⟩
  obtain ⟨v', hv', he⟩ := hrep u hu.fluctuation
  have := h4' v' hv'
  rw [he, ← h3] at this
  have hv : h'.volume = h.volume := by
    obtain ⟨E₀, hsp⟩ := hs.specimen
    obtain ⟨E₁, hsp'⟩ := hs'.specimen
    obtain ⟨a, a1, a2, -⟩ := elastic_work hs.cell hs.material hsp hs.dn0 hs.dn3 hs.volume hs.constraints hs.dofs E
      hu.solution hu.noSlip procs hs.procs
    obtain ⟨b, b1, b2, -⟩ := elastic_work hs'.cell hs'.material hsp' hs.dn0 hs.dn3 hs'.volume hs'.constraints hs'.dofs E
      hu'.solution hu'.noSlip procs' hs'.procs
    rw [h1] at a1; rw [h1'] at b1
    rw [Option.some.inj a1, Option.some.inj b1, a2, b2, hvol]
  rw [hv] at this
  exact le_of_mul_le_mul_left this hp

/-- C134, superposition: elastic states of the same specimen superpose, whatever states were found; in particular (`t = 0`)
the stresses are determined by the macroscopic strain. -/
theorem C134_linear (cells : List (MeshCell d n N)) (el : Elastic) (dn0 dn3 : ℝ) (K : Sol.Constraints ℕ) (m : ℕ)
    (procs : List (List (MeshCell d n N))) (hs : SpecElasticSpecimen cells el dn0 dn3 K m procs) (E E' : Mat d) (t : ℝ)
    (u u' w : ℕ → ℝ) (hu : SpecElasticState cells K m E u) (hu' : SpecElasticState cells K m E' u')
    (hw : SpecElasticState cells K m (t • E + E') w) :
    (∀ c ∈ cells, ∀ q, (c.under (t • E + E')).prm.stressAt (c.pts q).shape (w ∘ c.dofs) =
      t • (c.under E).prm.stressAt (c.pts q).shape (u ∘ c.dofs) + (c.under E').prm.stressAt (c.pts q).shape (u' ∘ c.dofs)) ∧
    ∃ h h' k, Post.Homog.compute ⟨el, dn0, E⟩ (procs.map fun p => p.map (MeshCell.reported u)) = some h ∧
      Post.Homog.compute ⟨el, dn0, E'⟩ (procs.map fun p => p.map (MeshCell.reported u')) = some h' ∧
      Post.Homog.compute ⟨el, dn0, t • E + E'⟩ (procs.map fun p => p.map (MeshCell.reported w)) = some k ∧
      k.stress = t • h.stress + h'.stress := by
  obtain ⟨E₀, hsp⟩ := hs.specimen
  have W : ∀ {F u}, SpecElasticState cells K m F u → ∃ h, Post.Homog.compute ⟨el, dn0, F⟩
      (procs.map fun p => p.map (MeshCell.reported u)) = some h ∧ h.volume = SpecIntegral cells (fun _ _ => 1) ∧
      ∀ (G : Mat d) (v : ℕ → ℝ), SpecFluctuation cells K v → h.volume * ddot G h.stress =
        SpecIntegral cells fun c q => cc c.prm.tetrad (G + (c.pts q).shape.strain (v ∘ c.dofs))
          (F + (c.pts q).shape.strain (u ∘ c.dofs)) := fun {F u} h =>
    elastic_work hs.cell hs.material hsp hs.dn0 hs.dn3 hs.volume hs.constraints hs.dofs F h.solution h.noSlip procs hs.procs
  obtain ⟨h, h1, h2, h4⟩ := W hu
  obtain ⟨h', h1', h2', h4'⟩ := W hu'
  obtain ⟨k, k1, k2, k4⟩ := W hw
  have hd := fluctuation_comb hs.constraints hw.fluctuation
    (fluctuation_comb hs.constraints hu.fluctuation hu'.fluctuation t) (-1)
  have es : ∀ (c : MeshCell d n N) q, (c.pts q).shape.strain (((-1 : ℝ) • w + (t • u + u')) ∘ c.dofs) =
      (-1 : ℝ) • (t • E + E' + (c.pts q).shape.strain (w ∘ c.dofs)) +
      (t • (E + (c.pts q).shape.strain (u ∘ c.dofs)) + (E' + (c.pts q).shape.strain (u' ∘ c.dofs))) := by
    intro c q
    have : ((-1 : ℝ) • w + (t • u + u')) ∘ c.dofs = (-1 : ℝ) • (w ∘ c.dofs) + (t • (u ∘ c.dofs) + u' ∘ c.dofs) := rfl
    rw [this, strain_comb, strain_comb]
    module
  have vw : ∀ {F v h}, (∀ (G : Mat d) (V : ℕ → ℝ), SpecFluctuation cells K V → Post.Integrals.volume h *
      ddot G (Post.Integrals.stress h) = SpecIntegral cells fun c q => cc c.prm.tetrad
      (G + (c.pts q).shape.strain (V ∘ c.dofs)) (F + (c.pts q).shape.strain (v ∘ c.dofs))) →
      (SpecIntegral cells fun c q => cc c.prm.tetrad ((c.pts q).shape.strain (((-1 : ℝ) • w + (t • u + u')) ∘ c.dofs))
        (F + (c.pts q).shape.strain (v ∘ c.dofs))) = 0 := by
    intro F v h hh
    have := hh 0 _ hd
    simp only [zero_add] at this
    rw [← this]
    simp [ddot]
  have hzero : ∀ c ∈ cells, ∀ q, (c.pts q).shape.strain (((-1 : ℝ) • w + (t • u + u')) ∘ c.dofs) = 0 := by
    have nn : ∀ c ∈ cells, ∀ q, 0 ≤ cc c.prm.tetrad ((c.pts q).shape.strain (((-1 : ℝ) • w + (t • u + u')) ∘ c.dofs))
        ((c.pts q).shape.strain (((-1 : ℝ) • w + (t • u + u')) ∘ c.dofs)) := fun c hc q =>
      energy_nonneg' c.prm (hs.material c hc) _ (shape_strain_symm (hs.cell c hc) q _)
    have hz : (SpecIntegral cells fun c q => cc c.prm.tetrad
        ((c.pts q).shape.strain (((-1 : ℝ) • w + (t • u + u')) ∘ c.dofs))
        ((c.pts q).shape.strain (((-1 : ℝ) • w + (t • u + u')) ∘ c.dofs))) = 0 := by
      have e := integral_smul cells (-1) fun c q => cc c.prm.tetrad
        ((c.pts q).shape.strain (((-1 : ℝ) • w + (t • u + u')) ∘ c.dofs)) (t • E + E' + (c.pts q).shape.strain (w ∘ c.dofs))
      have e' := integral_smul cells t fun c q => cc c.prm.tetrad
        ((c.pts q).shape.strain (((-1 : ℝ) • w + (t • u + u')) ∘ c.dofs)) (E + (c.pts q).shape.strain (u ∘ c.dofs))
      rw [vw k4, mul_zero] at e
      rw [vw h4, mul_zero] at e'
      have e2 := vw h4'
      have e3 := integral_add cells (fun c q => t * cc c.prm.tetrad
        ((c.pts q).shape.strain (((-1 : ℝ) • w + (t • u + u')) ∘ c.dofs)) (E + (c.pts q).shape.strain (u ∘ c.dofs)))
        (fun c q => cc c.prm.tetrad
        ((c.pts q).shape.strain (((-1 : ℝ) • w + (t • u + u')) ∘ c.dofs)) (E' + (c.pts q).shape.strain (u' ∘ c.dofs)))
      rw [e', e2] at e3
      have e4 := integral_add cells (fun c q => -1 * cc c.prm.tetrad
        ((c.pts q).shape.strain (((-1 : ℝ) • w + (t • u + u')) ∘ c.dofs)) (t • E + E' + (c.pts q).shape.strain (w ∘ c.dofs)))
        (fun c q => t * cc c.prm.tetrad
        ((c.pts q).shape.strain (((-1 : ℝ) • w + (t • u + u')) ∘ c.dofs)) (E + (c.pts q).shape.strain (u ∘ c.dofs)) +
        cc c.prm.tetrad ((c.pts q).shape.strain (((-1 : ℝ) • w + (t • u + u')) ∘ c.dofs))
        (E' + (c.pts q).shape.strain (u' ∘ c.dofs)))
      rw [e3, e] at e4
      simp only [add_zero] at e4
      rw [← e4]
      refine integral_congr fun c hc q => ?_
      conv_lhs => rw [show (cc c.prm.tetrad ((c.pts q).shape.strain (((-1 : ℝ) • w + (t • u + u')) ∘ c.dofs))
        ((c.pts q).shape.strain (((-1 : ℝ) • w + (t • u + u')) ∘ c.dofs))) = cc c.prm.tetrad
          ((c.pts q).shape.strain (((-1 : ℝ) • w + (t • u + u')) ∘ c.dofs)) _ from congrArg _ (es c q)]
      rw [cc_add, cc_add, cc_smul, cc_smul]
    intro c hc q
    have := integral_zero hs.cell nn hz c hc q
    by_contra hne
    have hm := hs.material c hc
    exact (C32_positive_partial _ hm.elastic hm.char hm.cubic _ _ hm.rot (shape_strain_symm (hs.cell c hc) q _) hne).ne' this
  have hstrain : ∀ c ∈ cells, ∀ q, t • E + E' + (c.pts q).shape.strain (w ∘ c.dofs) =
      t • (E + (c.pts q).shape.strain (u ∘ c.dofs)) + (E' + (c.pts q).shape.strain (u' ∘ c.dofs)) := by
    intro c hc q
    have := es c q
    rw [hzero c hc q, neg_one_smul] at this
    exact (neg_add_eq_zero.1 this.symm)
  refine ⟨fun c hc q => ?_, h, h', k, h1, h1', k1, ?_⟩
  · rw [elastic_stress hs.cell hw.noSlip _ c hc q, elastic_stress hs.cell hu.noSlip _ c hc q,
      elastic_stress hs.cell hu'.noSlip _ c hc q, hstrain c hc q]
    generalize E + (c.pts q).shape.strain (u ∘ c.dofs) = A
    generalize E' + (c.pts q).shape.strain (u' ∘ c.dofs) = B
    ext i j
    simp only [apply4, Matrix.of_apply, Matrix.add_apply, Matrix.smul_apply, smul_eq_mul, mul_add, sum_add_distrib,
      Finset.mul_sum]
    congr 1
    exact sum_congr rfl fun a _ => sum_congr rfl fun b _ => by ring
  · have key : ∀ G : Mat d, ddot G k.stress = t * ddot G h.stress + ddot G h'.stress := by
      intro G
      have a := k4 G u hu.fluctuation
      have b := h4 G u hu.fluctuation
      have b' := h4' G u hu.fluctuation
      have : k.volume * ddot G k.stress = k.volume * (t * ddot G h.stress + ddot G h'.stress) := by
        rw [a, mul_add, show k.volume * (t * ddot G h.stress) = t * (h.volume * ddot G h.stress) by rw [k2, h2]; ring,
          show k.volume * ddot G h'.stress = h'.volume * ddot G h'.stress by rw [k2, h2'], b, b', ← integral_smul,
          ← integral_add]
        refine integral_congr fun c hc q => ?_
        rw [hstrain c hc q, cc_add, cc_smul]
      rw [k2] at this
      exact mul_left_cancel₀ hs.volume this
    ext i j
    have := key (Matrix.single i j 1)
    simpa [ddot, Matrix.single_apply, ite_and, Finset.sum_ite_eq] using this

/-! ## Concrete cases: the specimen of C133 -/

theorem exSpecimen_elastic (K : Sol.Constraints ℕ) (hK : Homogeneous K 2) (procs : List (List (MeshCell 2 1 2)))
    (hp : procs.flatten.Perm exSpecimen) : SpecElasticSpecimen exSpecimen ⟨3, 1, 2, 1⟩ 2 5 K 2 procs :=
  ⟨exSpecimen_cell, exSpecimen_material, ⟨0, exSpecimen_ok⟩, by norm_num, by norm_num,
    by rw [exSpecimen_volume]; exact one_ne_zero, hK, exSpecimen_dofs, hp⟩

/-- All degrees of freedom prescribed. -/
noncomputable def exAllHeld : Sol.Constraints ℕ := fun k => if k < 2 then some ⟨[], 0⟩ else none

theorem exAllHeld_ok : Homogeneous exAllHeld 2 := by
  refine ⟨fun g l h => ?_, fun g l h => ?_, fun g l h => ?_⟩ <;> by_cases hg : g < 2 <;> simp [exAllHeld, hg] at h <;>
    subst h <;> simp

theorem exAllHeld_state (E : Mat 2) : SpecElasticState exSpecimen exAllHeld 2 E 0 := by
  obtain ⟨a1, a2, -, -⟩ := under_ok exSpecimen_cell exSpecimen_material exSpecimen_ok exSpecimen_dofs E
  refine ⟨⟨_, forces_assembled _ a1 a2 0, fun r hr => residual_constrained exAllHeld_ok _ (by simp [exAllHeld, hr])⟩,
    fun _ _ _ _ _ => rfl, 0, fun i l h => ?_, fun _ _ _ _ _ => rfl, fun _ _ _ _ => rfl⟩
  by_cases hi : i < 2 <;> simp [exAllHeld, hi] at h
  subst h
  simp [Sol.Line.eval]

theorem exAllHeld_more (w : ℕ → ℝ) (h : Sol.Satisfies exAllHeld w) : Sol.Satisfies exNoSlip w := by
  intro i l hl
  by_cases hi : i = 1
  · subst hi
    simp [exNoSlip] at hl
    subst hl
    exact h 1 _ (by simp [exAllHeld])
  · simp [exNoSlip, hi] at hl

/-- C134, least energy and boundary conditions: the specimen with free displacements, on one process, is not stiffer than
with prescribed ones, on two. -/
example (E : Mat 2) : ∃ u h h', SpecElasticState exSpecimen exNoSlip 2 E u ∧
    Post.Homog.compute ⟨⟨3, 1, 2, 1⟩, 2, E⟩ ([exSpecimen].map fun p => p.map (MeshCell.reported u)) = some h ∧
    Post.Homog.compute ⟨⟨3, 1, 2, 1⟩, 2, E⟩ ([[exGrain exTurned exShapeBack], [exGrain 1 exShape]].map fun p =>
      p.map (MeshCell.reported 0)) = some h' ∧ ddot E h.stress ≤ ddot E h'.stress := by
  obtain ⟨u, a, b, c⟩ := exSpecimen_state E
  obtain ⟨h, h', x⟩ := C134_boundary exSpecimen _ _ _ exNoSlip exAllHeld 2 _ _
    (exSpecimen_elastic exNoSlip exNoSlip_ok [exSpecimen] (by simp))
    (exSpecimen_elastic exAllHeld exAllHeld_ok [[exGrain exTurned exShapeBack], [exGrain 1 exShape]] (List.Perm.swap _ _ _))
    exAllHeld_more E u 0 ⟨a, b, c⟩ (exAllHeld_state E)
  exact ⟨u, h, h', ⟨a, b, c⟩, x⟩

/-- C134, refinement: the displacement that one mesh holds is a degree of freedom of the other. -/
example (E : Mat 2) : ∃ u h h', SpecElasticState exSpecimen exNoSlip 2 E u ∧
    Post.Homog.compute ⟨⟨3, 1, 2, 1⟩, 2, E⟩ ([exSpecimen].map fun p => p.map (MeshCell.reported 0)) = some h ∧
    Post.Homog.compute ⟨⟨3, 1, 2, 1⟩, 2, E⟩ ([exSpecimen].map fun p => p.map (MeshCell.reported u)) = some h' ∧
    ddot E h'.stress ≤ ddot E h.stress := by
  obtain ⟨u, a, b, c⟩ := exSpecimen_state E
  obtain ⟨h, h', x⟩ := C134_refined exSpecimen exSpecimen _ _ _ exAllHeld exNoSlip 2 2 _ _
    (exSpecimen_elastic exAllHeld exAllHeld_ok [exSpecimen] (by simp)) (exSpecimen_elastic exNoSlip exNoSlip_ok [exSpecimen] (by simp))
    E (fun v hv => by
      obtain ⟨w, w1, w2⟩ := hv
      exact ⟨v, ⟨w, exAllHeld_more w w1, w2⟩, rfl⟩) rfl 0 u (exAllHeld_state E) ⟨a, b, c⟩
  exact ⟨u, h, h', ⟨a, b, c⟩, x⟩

/-- C134, superposition, for any two strains and any factor. -/
example (E E' : Mat 2) (t : ℝ) : ∃ u u' w h h' k,
    Post.Homog.compute ⟨⟨3, 1, 2, 1⟩, 2, E⟩ ([exSpecimen].map fun p => p.map (MeshCell.reported u)) = some h ∧
    Post.Homog.compute ⟨⟨3, 1, 2, 1⟩, 2, E'⟩ ([exSpecimen].map fun p => p.map (MeshCell.reported u')) = some h' ∧
    Post.Homog.compute ⟨⟨3, 1, 2, 1⟩, 2, t • E + E'⟩ ([exSpecimen].map fun p => p.map (MeshCell.reported w)) = some k ∧
    k.stress = t • h.stress + h'.stress := by
  obtain ⟨u, a, b, c⟩ := exSpecimen_state E
  obtain ⟨u', a', b', c'⟩ := exSpecimen_state E'
  obtain ⟨w, a'', b'', c''⟩ := exSpecimen_state (t • E + E')
  obtain ⟨-, h, h', k, x⟩ := C134_linear exSpecimen _ _ _ exNoSlip 2 _ (exSpecimen_elastic exNoSlip exNoSlip_ok [exSpecimen]
    (by simp)) E E' t u u' w ⟨a, b, c⟩ ⟨a', b', c'⟩ ⟨a'', b'', c''⟩
  exact ⟨u, u', w, h, h', k, x⟩

end Verif.Asm
