import Verif.Props.StrainDrivenOpening
import Verif.Props.GrainExistence

/-! # The reported stress depends monotonically and Lipschitz continuously on the macroscopic strain : C137 -/

namespace Verif.Asm
open Matrix Finset Verif.Cry Verif.Hist Verif.Micro Verif.Lin

variable {d e n N : ℕ}

/-! ## Specification -/

/-- Difference of the elastic strains of the state `u` under the macroscopic strain `E` and the state `v` under `E'`. -/
noncomputable def SpecStrainGap (E E' : Mat d) (u v : ℕ → ℝ) (c : MeshCell d n N) (q : Fin c.Q) : Mat d :=
  (c.under E).prm.elasticStrainAt (c.pts q).shape (u ∘ c.dofs) - (c.under E').prm.elasticStrainAt (c.pts q).shape (v ∘ c.dofs)

/-- Work that the stresses of the elastic strains `b` do on the strains `a`, in the units of the slip equations. -/
noncomputable def SpecStiffWork (cells : List (MeshCell d n N)) (a b : (c : MeshCell d n N) → Fin c.Q → Mat d) : ℝ :=
  SpecIntegral cells fun c q => c.prm.dn3 / c.prm.dn0 * ddot (a c q) (c.prm.elastic.stress c.prm.rot (b c q))

/-- Work of the stresses of the uniform strain `F` on that strain. -/
noncomputable def SpecUniformWork (cells : List (MeshCell d n N)) (F : Mat d) : ℝ :=
  SpecIntegral cells fun c _ => ddot F (c.prm.elastic.stress c.prm.rot F)

/-! ## Helpers -/

theorem stiff_add_left (cells : List (MeshCell d n N)) (a a' b : (c : MeshCell d n N) → Fin c.Q → Mat d) :
    SpecStiffWork cells (fun c q => a c q + a' c q) b = SpecStiffWork cells a b + SpecStiffWork cells a' b := by
  unfold SpecStiffWork
  rw [← integral_add]
  exact integral_congr fun c _ q => by rw [ddot_add_left]; ring

theorem stiff_smul_left (cells : List (MeshCell d n N)) (t : ℝ) (a b : (c : MeshCell d n N) → Fin c.Q → Mat d) :
    SpecStiffWork cells (fun c q => t • a c q) b = t * SpecStiffWork cells a b := by
  unfold SpecStiffWork
  rw [← integral_smul]
  exact integral_congr fun c _ q => by rw [ddot_smul_left]; ring

theorem stiff_symm (cells : List (MeshCell d n N)) (a b : (c : MeshCell d n N) → Fin c.Q → Mat d) :
    SpecStiffWork cells a b = SpecStiffWork cells b a := by
  unfold SpecStiffWork
  refine integral_congr fun c _ q => ?_
  have h : ∀ x y : Mat d, ddot x (c.prm.elastic.stress c.prm.rot y) = cc c.prm.tetrad x y := fun _ _ => rfl
  rw [h, h, cc_symm _ fun i j k l => tetrad_major c.prm i j k l]

theorem stiff_nonneg (cells : List (MeshCell d n N)) (hcell : ∀ c ∈ cells, SpecCell c) (hmat : ∀ c ∈ cells, SpecMaterial c.prm)
    (a : (c : MeshCell d n N) → Fin c.Q → Mat d) (ha : ∀ c ∈ cells, ∀ q, (a c q)ᵀ = a c q) : 0 ≤ SpecStiffWork cells a a :=
  integral_nonneg hcell fun c hc q => mul_nonneg (div_pos (hmat c hc).dn3 (hmat c hc).dn0).le
    (energy_nonneg' c.prm (hmat c hc) _ (ha c hc q))

/-- Cauchy–Schwarz. -/
theorem stiff_sq_le (cells : List (MeshCell d n N)) (hcell : ∀ c ∈ cells, SpecCell c) (hmat : ∀ c ∈ cells, SpecMaterial c.prm)
    (a b : (c : MeshCell d n N) → Fin c.Q → Mat d) (ha : ∀ c ∈ cells, ∀ q, (a c q)ᵀ = a c q)
    (hb : ∀ c ∈ cells, ∀ q, (b c q)ᵀ = b c q) :
    SpecStiffWork cells a b ^ 2 ≤ SpecStiffWork cells a a * SpecStiffWork cells b b := by
  have h : ∀ t : ℝ, 0 ≤ SpecStiffWork cells a a * (t * t) + 2 * SpecStiffWork cells a b * t + SpecStiffWork cells b b := by
    intro t
    have h1 := stiff_nonneg cells hcell hmat (fun c q => t • a c q + b c q) fun c hc q => by
      rw [Matrix.transpose_add, Matrix.transpose_smul, ha c hc, hb c hc]
    rw [stiff_add_left cells (fun c q => t • a c q) b, stiff_smul_left, stiff_symm cells a, stiff_symm cells b,
      stiff_add_left cells (fun c q => t • a c q) b a, stiff_add_left cells (fun c q => t • a c q) b b,
      stiff_smul_left, stiff_smul_left, stiff_symm cells b a] at h1
    linarith
  have := discrim_le_zero h
  unfold discrim at this
  nlinarith

theorem gap_split (c : MeshCell d n N) (q : Fin c.Q) (E E' : Mat d) (u v : ℕ → ℝ) :
    SpecStrainGap E E' u v c q = (E - E') + SpecElasticStrain c.prm (c.pts q).shape (u ∘ c.dofs - v ∘ c.dofs) := by
  rw [← elasticStrainAt_sub]
  have h : ∀ x y m : Mat d, (E + x) - (E' + y) = (E - E') + ((m + x) - (m + y)) := by intro x y m; abel
  exact h _ _ _

theorem gap_symm {c : MeshCell d n N} (hc : SpecCell c) (q : Fin c.Q) {E E' : Mat d} (hE : Eᵀ = E) (hE' : E'ᵀ = E')
    (u v : ℕ → ℝ) : (SpecStrainGap E E' u v c q)ᵀ = SpecStrainGap E E' u v c q := by
  rw [gap_split, Matrix.transpose_add, Matrix.transpose_sub, hE, hE', elasticStrain_symm c.prm _ c.kind (hc.primitive q)]

/-- The states of one step under two macroscopic strains, when the nodal forces do no more on the difference. -/
theorem macro_core (cells : List (MeshCell d n N)) (h : SpecStableBody cells) (E E' : Mat d) (u v : ℕ → ℝ)
    (R R' : MeshCell d n N → Fin N → ℝ) (hR : SpecAssembled (cells.map (MeshCell.under E)) u R)
    (hR' : SpecAssembled (cells.map (MeshCell.under E')) v R')
    (hle : SpecNodalWork (cells.map (MeshCell.under E)) R (u - v) -
      SpecNodalWork (cells.map (MeshCell.under E')) R' (u - v) ≤ 0) :
    SpecStiffWork cells (SpecStrainGap E E' u v) (SpecStrainGap E E' u v) ≤
      SpecStiffWork cells (fun _ _ => E - E') (SpecStrainGap E E' u v) := by
  have key : ∀ c ∈ cells, ∑ q, (c.pts q).shape.jxw * (c.prm.dn3 / c.prm.dn0 *
      ddot (SpecStrainGap E E' u v c q) (c.prm.elastic.stress c.prm.rot (SpecStrainGap E E' u v c q))) -
      ∑ q, (c.pts q).shape.jxw * (c.prm.dn3 / c.prm.dn0 *
      ddot (E - E') (c.prm.elastic.stress c.prm.rot (SpecStrainGap E E' u v c q))) ≤
      ∑ i, (u - v) (c.dofs i) * -R (c.under E) i - ∑ i, (u - v) (c.dofs i) * -R' (c.under E') i := by
    intro c hc
    have hs := h.material c hc
    have hC := h.cell c hc
    have p1 := cell_power (c.under E).prm hs.index hs.dn0.ne' c.kind c.pts hC.primitive (u ∘ c.dofs)
      (R (c.under E)) (hR _ (List.mem_map_of_mem hc)) ((u - v) ∘ c.dofs)
    have p2 := cell_power (c.under E').prm hs.index hs.dn0.ne' c.kind c.pts hC.primitive (v ∘ c.dofs)
      (R' (c.under E')) (hR' _ (List.mem_map_of_mem hc)) ((u - v) ∘ c.dofs)
    simp only [Function.comp_apply] at p1 p2
    rw [p1, p2, ← Finset.sum_sub_distrib, ← Finset.sum_sub_distrib]
    refine sum_le_sum fun q _ => ?_
    obtain ⟨-, g2, g3⟩ := gap_parts c.prm hs (h.hardens c hc) c.kind (c.pts q) (hC.primitive q) (hC.hist q) (hC.res q)
      (h.sharp c hc q) (u ∘ c.dofs) (v ∘ c.dofs)
    have hd : (u - v) ∘ c.dofs = u ∘ c.dofs - v ∘ c.dofs := rfl
    rw [hd]
    have e1 : ddot (SpecElasticStrain c.prm (c.pts q).shape (u ∘ c.dofs - v ∘ c.dofs))
          ((c.under E).prm.stressAt (c.pts q).shape (u ∘ c.dofs)) -
        ddot (SpecElasticStrain c.prm (c.pts q).shape (u ∘ c.dofs - v ∘ c.dofs))
          ((c.under E').prm.stressAt (c.pts q).shape (v ∘ c.dofs)) =
        ddot (SpecStrainGap E E' u v c q) (c.prm.elastic.stress c.prm.rot (SpecStrainGap E E' u v c q)) -
          ddot (E - E') (c.prm.elastic.stress c.prm.rot (SpecStrainGap E E' u v c q)) := by
      have h1 : ∀ a b : Mat d, ddot a (c.prm.elastic.stress c.prm.rot b) = cc c.prm.tetrad a b := fun _ _ => rfl
      have e2 : SpecElasticStrain c.prm (c.pts q).shape (u ∘ c.dofs - v ∘ c.dofs) =
          SpecStrainGap E E' u v c q - (E - E') := by rw [gap_split]; abel
      have e3 : cc c.prm.tetrad (SpecStrainGap E E' u v c q) (SpecStrainGap E E' u v c q) -
          cc c.prm.tetrad (E - E') (SpecStrainGap E E' u v c q) =
          cc c.prm.tetrad (SpecStrainGap E E' u v c q - (E - E')) (SpecStrainGap E E' u v c q) := (ddot_sub_left _ _ _).symm
      rw [h1, h1, e3, ← e2]
      have e4 : ∀ (x a b : Mat d), cc c.prm.tetrad x (a - b) = cc c.prm.tetrad x a - cc c.prm.tetrad x b := by
        intro x a b
        rw [sub_eq_add_neg, cc_add, ← neg_one_smul ℝ b, cc_smul]; ring
      exact (e4 _ _ _).symm
    have hw := (hC.weight q).le
    have e5 : ∑ a, (c.pts q).shape.slip (u ∘ c.dofs - v ∘ c.dofs) a * c.prm.law.evalMicrostress (c.pts q).hist
          ((c.pts q).shape.slip (u ∘ c.dofs)) (c.pts q).old c.prm.dt a -
        ∑ a, (c.pts q).shape.slip (u ∘ c.dofs - v ∘ c.dofs) a * c.prm.law.evalMicrostress (c.pts q).hist
          ((c.pts q).shape.slip (v ∘ c.dofs)) (c.pts q).old c.prm.dt a =
        ∑ a, ((c.pts q).shape.slip (u ∘ c.dofs) a - (c.pts q).shape.slip (v ∘ c.dofs) a) *
          (c.prm.law.evalMicrostress (c.pts q).hist ((c.pts q).shape.slip (u ∘ c.dofs)) (c.pts q).old c.prm.dt a -
          c.prm.law.evalMicrostress (c.pts q).hist ((c.pts q).shape.slip (v ∘ c.dofs)) (c.pts q).old c.prm.dt a) := by
      rw [← Finset.sum_sub_distrib]
      exact sum_congr rfl fun a _ => by rw [slip_sub]; ring
    rw [Finset.sum_sub_distrib, mul_sub] at g2
    rw [← e5] at g3
    rw [← mul_sub, ← mul_sub, ← mul_sub, ← e1]
    refine mul_le_mul_of_nonneg_left ?_ hw
    have arith : ∀ k x1 x2 s m b1 b2 t1 t2 : ℝ, 0 ≤ m * b1 - m * b2 → 0 ≤ t1 - t2 →
        k * (x1 - x2) ≤ (k * (x1 - s) + m * b1 + t1) - (k * (x2 - s) + m * b2 + t2) := by
      intro k x1 x2 s m b1 b2 t1 t2 h1 h2
      nlinarith
    exact arith _ _ _ _ _ _ _ _ _ g2 g3
  have hsum := List.sum_le_sum key
  have e6 : ∀ f g : MeshCell d n N → ℝ, (cells.map fun c => f c - g c).sum = (cells.map f).sum - (cells.map g).sum := by
    intro f g
    rw [show (fun c => f c - g c) = fun c => f c + (-1) * g c from funext fun c => by ring, List.sum_map_add,
      List.sum_map_mul_left]
    ring
  rw [e6, e6] at hsum
  unfold SpecNodalWork at hle
  rw [List.map_map, List.map_map] at hle
  have hle' : (cells.map fun c => ∑ i, (u - v) (c.dofs i) * -R (c.under E) i).sum -
      (cells.map fun c => ∑ i, (u - v) (c.dofs i) * -R' (c.under E') i).sum ≤ 0 := hle
  unfold SpecStiffWork SpecIntegral
  linarith

/-- Consequences for the elastic strains. -/
theorem macro_bounds (cells : List (MeshCell d n N)) (h : SpecStableBody cells) {E E' : Mat d} (hE : Eᵀ = E) (hE' : E'ᵀ = E')
    (u v : ℕ → ℝ) (hc : SpecStiffWork cells (SpecStrainGap E E' u v) (SpecStrainGap E E' u v) ≤
      SpecStiffWork cells (fun _ _ => E - E') (SpecStrainGap E E' u v)) :
    SpecStiffWork cells (SpecStrainGap E E' u v) (SpecStrainGap E E' u v) ≤
      SpecStiffWork cells (fun _ _ => E - E') (fun _ _ => E - E') ∧
    0 ≤ SpecStiffWork cells (fun _ _ => E - E') (SpecStrainGap E E' u v) ∧
    SpecStiffWork cells (fun _ _ => E - E') (SpecStrainGap E E' u v) ≤
      SpecStiffWork cells (fun _ _ => E - E') (fun _ _ => E - E') ∧
    ∀ F : Mat d, Fᵀ = F → SpecStiffWork cells (fun _ _ => F) (SpecStrainGap E E' u v) ^ 2 ≤
      SpecStiffWork cells (fun _ _ => F) (fun _ _ => F) * SpecStiffWork cells (fun _ _ => E - E') (fun _ _ => E - E') := by
  have hs : ∀ c ∈ cells, ∀ q, (SpecStrainGap E E' u v c q)ᵀ = SpecStrainGap E E' u v c q := fun c hc q =>
    gap_symm (h.cell c hc) q hE hE' u v
  have hD : (E - E')ᵀ = E - E' := by rw [Matrix.transpose_sub, hE, hE']
  have n1 := stiff_nonneg cells h.cell h.material _ hs
  have n2 := stiff_nonneg cells h.cell h.material (fun _ _ => E - E') fun _ _ _ => hD
  have cs := stiff_sq_le cells h.cell h.material (fun _ _ => E - E') _ (fun _ _ _ => hD) hs
  have hxz : SpecStiffWork cells (SpecStrainGap E E' u v) (SpecStrainGap E E' u v) ≤
      SpecStiffWork cells (fun _ _ => E - E') (fun _ _ => E - E') := by
    by_contra hlt
    push Not at hlt
    nlinarith
  refine ⟨hxz, n1.trans hc, ?_, fun F hF => ?_⟩
  · by_contra hlt
    push Not at hlt
    nlinarith
  · exact (stiff_sq_le cells h.cell h.material (fun _ _ => F) _ (fun _ _ _ => hF) hs).trans
      (mul_le_mul_of_nonneg_left hxz (stiff_nonneg cells h.cell h.material (fun _ _ => F) fun _ _ _ => hF))

theorem stable_under {cells : List (MeshCell d n N)} (h : SpecStableBody cells) (E : Mat d) :
    SpecStableBody (cells.map (MeshCell.under E)) :=
  ⟨under_forall fun c hc => ⟨(h.cell c hc).primitive, (h.cell c hc).weight, (h.cell c hc).hist, (h.cell c hc).res⟩,
    under_forall (P := fun c => SpecMaterial c.prm) fun c hc => { h.material c hc with },
    under_forall (P := fun c => SpecHardens c.prm.law.hard) h.hardens,
    under_forall (P := fun c => ∀ q a, SpecLatent c.prm.law n c.prm.dt ≤ (c.pts q).hist.tmp a) h.sharp⟩

/-- From the elastic strains to the reported stresses. -/
theorem macro_reported (cells : List (MeshCell d n N)) (h : SpecStableBody cells) {el : Elastic} {dn0 dn3 : ℝ} {E₀ : Mat d}
    (hs : SpecSpecimen cells el dn0 dn3 E₀) (h0 : 0 < dn0) (h3 : 0 < dn3)
    (hV : SpecIntegral cells (fun _ _ => 1) ≠ 0) {E E' : Mat d} (hE : Eᵀ = E) (hE' : E'ᵀ = E') (u v : ℕ → ℝ)
    (procs procs' : List (List (MeshCell d n N))) (hp : procs.flatten.Perm (cells.map (MeshCell.under E)))
    (hp' : procs'.flatten.Perm (cells.map (MeshCell.under E')))
    (hc : SpecStiffWork cells (SpecStrainGap E E' u v) (SpecStrainGap E E' u v) ≤
      SpecStiffWork cells (fun _ _ => E - E') (SpecStrainGap E E' u v)) :
    ∃ r r', Post.Homog.compute ⟨el, dn0, E⟩ (procs.map fun p => p.map (MeshCell.reported u)) = some r ∧
      Post.Homog.compute ⟨el, dn0, E'⟩ (procs'.map fun p => p.map (MeshCell.reported v)) = some r' ∧
      r.volume = SpecIntegral cells (fun _ _ => 1) ∧
      0 ≤ r.volume * ddot (E - E') (r.stress - r'.stress) ∧
      r.volume * ddot (E - E') (r.stress - r'.stress) ≤ SpecUniformWork cells (E - E') ∧
      ∀ F : Mat d, Fᵀ = F → (r.volume * ddot F (r.stress - r'.stress)) ^ 2 ≤
        SpecUniformWork cells F * SpecUniformWork cells (E - E') := by
  have sp : ∀ F : Mat d, SpecSpecimen (cells.map (MeshCell.under F)) el dn0 dn3 F := fun F =>
    ⟨under_forall (P := fun c => c.prm.elastic = el) hs.elastic, under_forall (P := fun c => c.prm.dn0 = dn0) hs.dn0,
      under_forall (P := fun c => c.prm.dn3 = dn3) hs.dn3, under_forall (P := fun c => c.prm.macroStrain = F) fun _ _ => rfl,
      under_forall (P := fun c => ∀ q, (c.pts q).supply = 0) hs.supply⟩
  have hvol : ∀ F : Mat d, SpecIntegral (cells.map (MeshCell.under F)) (fun _ _ => 1) = SpecIntegral cells (fun _ _ => 1) := by
    intro F
    unfold SpecIntegral
    rw [List.map_map]
    rfl
  obtain ⟨r, r1, r2, r3⟩ := reported_work _ (sp E) (by rw [hvol]; exact hV) u procs hp
  obtain ⟨r', r1', r2', r3'⟩ := reported_work _ (sp E') (by rw [hvol]; exact hV) v procs' hp'
  rw [hvol] at r2 r2'
  have hk : 0 < dn3 / dn0 := div_pos h3 h0
  have conv : ∀ F : Mat d, SpecStiffWork cells (fun _ _ => F) (SpecStrainGap E E' u v) =
      dn3 / dn0 * (r.volume * ddot F (r.stress - r'.stress)) := by
    intro F
    have e1 : ddot F (r.stress - r'.stress) = ddot F r.stress - ddot F r'.stress := by
      rw [ddot_comm F, ddot_sub_left, ddot_comm F, ddot_comm F]
    have i1 : SpecIntegral (cells.map (MeshCell.under E)) (fun c q => ddot F (c.prm.stressAt (c.pts q).shape (u ∘ c.dofs))) =
        SpecIntegral cells fun c q => ddot F ((c.under E).prm.stressAt (c.pts q).shape (u ∘ c.dofs)) := by
      unfold SpecIntegral
      rw [List.map_map]
      rfl
    have i2 : SpecIntegral (cells.map (MeshCell.under E')) (fun c q => ddot F (c.prm.stressAt (c.pts q).shape (v ∘ c.dofs))) =
        SpecIntegral cells fun c q => ddot F ((c.under E').prm.stressAt (c.pts q).shape (v ∘ c.dofs)) := by
      unfold SpecIntegral
      rw [List.map_map]
      rfl
    rw [e1, mul_sub, r3, r2, ← r2', r3', i1, i2]
    have e2 : ∀ x y : ℝ, x - y = x + (-1) * y := fun x y => by ring
    rw [e2, ← integral_smul, ← integral_add, ← integral_smul]
    refine integral_congr fun c hcc q => ?_
    have e4 : ∀ (x a b : Mat d), cc c.prm.tetrad x (a - b) = cc c.prm.tetrad x a - cc c.prm.tetrad x b := by
      intro x a b
      rw [sub_eq_add_neg, cc_add, ← neg_one_smul ℝ b, cc_smul]; ring
    rw [hs.dn0 c hcc, hs.dn3 c hcc, ← e2]
    congr 1
    exact e4 _ _ _
  have unif : ∀ F : Mat d, SpecStiffWork cells (fun _ _ => F) (fun _ _ => F) = dn3 / dn0 * SpecUniformWork cells F := by
    intro F
    unfold SpecStiffWork SpecUniformWork
    rw [← integral_smul]
    exact integral_congr fun c hcc q => by rw [hs.dn0 c hcc, hs.dn3 c hcc]
  obtain ⟨-, m2, m3, m4⟩ := macro_bounds cells h hE hE' u v hc
  rw [conv] at m2 m3
  rw [unif] at m3
  refine ⟨r, r', r1, r1', r2, nonneg_of_mul_nonneg_right m2 hk, le_of_mul_le_mul_left m3 hk, fun F hF => ?_⟩
  have := m4 F hF
  rw [conv, unif, unif] at this
  have h2 : (dn3 / dn0) ^ 2 * (r.volume * ddot F (r.stress - r'.stress)) ^ 2 ≤
      (dn3 / dn0) ^ 2 * (SpecUniformWork cells F * SpecUniformWork cells (E - E')) := by
    calc _ = (dn3 / dn0 * (r.volume * ddot F (r.stress - r'.stress))) ^ 2 := by ring
      _ ≤ _ := this
      _ = _ := by ring
  exact le_of_mul_le_mul_left h2 (pow_pos hk 2)

theorem stable_grains_under {kind : Kind n N} {cells : List (GrainCell d e n N)} {faces : List (Face d e n N)}
    (h : SpecStableGrains kind cells faces) (E : Mat d) : SpecStableGrains kind (cells.map (GrainCell.under E)) faces where
  paired := by
    have h1 := h.paired
    unfold SpecPaired SpecSeen at *
    rw [List.flatMap_map]
    exact h1
  face := h.face
  kinds := fun g hg => by
    obtain ⟨a, ha, rfl⟩ := List.mem_map.1 hg
    exact h.kinds a ha
  body := by
    have e : (cells.map (GrainCell.under E)).map GrainCell.cell = (cells.map GrainCell.cell).map (MeshCell.under E) := by
      rw [List.map_map, List.map_map]
      rfl
    rw [e]
    exact stable_under h.body E

theorem determined_under {cells : List (MeshCell d n N)} {K : Sol.Constraints ℕ} {m : ℕ} (h : SpecDetermined cells K m)
    (E : Mat d) : SpecDetermined (cells.map (MeshCell.under E)) K m := by
  intro w hw he
  refine h w hw (Eq.trans ?_ he)
  unfold SpecElasticError SpecDefectError
  rw [List.map_map, List.map_map]
  congr 2
  refine List.map_congr_left fun c _ => ?_
  simp only [Function.comp_apply, elasticStrainAt_sub]
  rfl

/-! ## Theorems -/

/-- C137: in a time step, with given histories and step size, the reported macroscopic stress is a monotone function of the
macroscopic strain, its increase does not exceed that of the grains in elastic parallel connection (Voigt), and it is
Lipschitz continuous with the Voigt stiffness, rate-dependent or rate-independent, however the grains are distributed over processes. -/
theorem C137_body (cells : List (MeshCell d n N)) (h : SpecStableBody cells) {el : Elastic} {dn0 dn3 : ℝ} {E₀ : Mat d}
    (hs : SpecSpecimen cells el dn0 dn3 E₀) (h0 : 0 < dn0) (h3 : 0 < dn3) (hV : SpecIntegral cells (fun _ _ => 1) ≠ 0)
    (K : Sol.Constraints ℕ) (m : ℕ) (hK : Homogeneous K m) (hm : ∀ c ∈ cells, ∀ i, c.dofs i < m)
    {E E' : Mat d} (hE : Eᵀ = E) (hE' : E'ᵀ = E') (u v : ℕ → ℝ) (hu : SpecSolution (cells.map (MeshCell.under E)) K m u)
    (hv : SpecSolution (cells.map (MeshCell.under E')) K m v) (huv : Sol.Satisfies K (u - v))
    (procs procs' : List (List (MeshCell d n N))) (hp : procs.flatten.Perm (cells.map (MeshCell.under E)))
    (hp' : procs'.flatten.Perm (cells.map (MeshCell.under E'))) :
    ∃ r r', Post.Homog.compute ⟨el, dn0, E⟩ (procs.map fun p => p.map (MeshCell.reported u)) = some r ∧
      Post.Homog.compute ⟨el, dn0, E'⟩ (procs'.map fun p => p.map (MeshCell.reported v)) = some r' ∧
      r.volume = SpecIntegral cells (fun _ _ => 1) ∧
      0 ≤ r.volume * ddot (E - E') (r.stress - r'.stress) ∧
      r.volume * ddot (E - E') (r.stress - r'.stress) ≤ SpecUniformWork cells (E - E') ∧
      ∀ F : Mat d, Fᵀ = F → (r.volume * ddot F (r.stress - r'.stress)) ^ 2 ≤
        SpecUniformWork cells F * SpecUniformWork cells (E - E') := by
  obtain ⟨R, hR, hr⟩ := hu
  obtain ⟨R', hR', hr'⟩ := hv
  have hd : ∀ F, ∀ c ∈ cells.map (MeshCell.under F), ∀ i, c.dofs i < m := fun F =>
    under_forall (P := fun c => ∀ i, c.dofs i < m) hm
  refine macro_reported cells h hs h0 h3 hV hE hE' u v procs procs' hp hp'
    (macro_core cells h E E' u v R R' hR hR' (le_of_eq ?_))
  rw [solution_work _ hK (hd E) huv hr, solution_work _ hK (hd E') huv hr', sub_self]

/-- C137 for polycrystals whose grain boundaries store energy of slip incompatibility, with loads at the boundary. -/
theorem C137_grains {kind : Kind n N} (cells : List (GrainCell d e n N)) (faces : List (Face d e n N))
    (h : SpecStableGrains kind cells faces) {el : Elastic} {dn0 dn3 : ℝ} {E₀ : Mat d}
    (hs : SpecSpecimen (cells.map GrainCell.cell) el dn0 dn3 E₀) (h0 : 0 < dn0) (h3 : 0 < dn3)
    (hV : SpecIntegral (cells.map GrainCell.cell) (fun _ _ => 1) ≠ 0)
    (K : Sol.Constraints ℕ) (m : ℕ) (hK : Homogeneous K m) (hm : ∀ g ∈ cells, ∀ i, g.cell.dofs i < m)
    {E E' : Mat d} (hE : Eᵀ = E) (hE' : E'ᵀ = E') (u v : ℕ → ℝ)
    (hu : SpecGrainSolution (cells.map (GrainCell.under E)) K m u)
    (hv : SpecGrainSolution (cells.map (GrainCell.under E')) K m v) (huv : Sol.Satisfies K (u - v))
    (procs procs' : List (List (MeshCell d n N)))
    (hp : procs.flatten.Perm ((cells.map GrainCell.cell).map (MeshCell.under E)))
    (hp' : procs'.flatten.Perm ((cells.map GrainCell.cell).map (MeshCell.under E'))) :
    ∃ r r', Post.Homog.compute ⟨el, dn0, E⟩ (procs.map fun p => p.map (MeshCell.reported u)) = some r ∧
      Post.Homog.compute ⟨el, dn0, E'⟩ (procs'.map fun p => p.map (MeshCell.reported v)) = some r' ∧
      r.volume = SpecIntegral (cells.map GrainCell.cell) (fun _ _ => 1) ∧
      0 ≤ r.volume * ddot (E - E') (r.stress - r'.stress) ∧
      r.volume * ddot (E - E') (r.stress - r'.stress) ≤ SpecUniformWork (cells.map GrainCell.cell) (E - E') ∧
      ∀ F : Mat d, Fᵀ = F → (r.volume * ddot F (r.stress - r'.stress)) ^ 2 ≤
        SpecUniformWork (cells.map GrainCell.cell) F * SpecUniformWork (cells.map GrainCell.cell) (E - E') := by
  have key : ∀ {F : Mat d} {P : GrainCell d e n N → Prop}, (∀ g ∈ cells, P (g.under F)) → ∀ g ∈ cells.map (GrainCell.under F), P g := by
    intro F P hP g hg
    obtain ⟨a, ha, rfl⟩ := List.mem_map.1 hg
    exact hP a ha
  have ec : ∀ F : Mat d, (cells.map (GrainCell.under F)).map GrainCell.cell = (cells.map GrainCell.cell).map (MeshCell.under F) := by
    intro F
    rw [List.map_map, List.map_map]
    rfl
  have hd : ∀ F, ∀ g ∈ cells.map (GrainCell.under F), ∀ i, g.cell.dofs i < m := fun F =>
    key (P := fun g => ∀ i, g.cell.dofs i < m) hm
  obtain ⟨R, hR, hr⟩ := hu
  obtain ⟨R', hR', hr'⟩ := hv
  have a1 := cells_assembled (stable_grains_under h E).paired h.face (stable_grains_under h E).kinds hR
  have a2 := cells_assembled (stable_grains_under h E').paired h.face (stable_grains_under h E').kinds hR'
  have p1 := mesh_power (stable_grains_under h E).paired h.face (stable_grains_under h E).kinds hR (u - v)
  have p2 := mesh_power (stable_grains_under h E').paired h.face (stable_grains_under h E').kinds hR' (u - v)
  rw [grain_solution_work _ hK (hd E) huv hr] at p1
  rw [grain_solution_work _ hK (hd E') huv hr'] at p2
  have hl : SpecLoadWork (cells.map (GrainCell.under E)) (u - v) = SpecLoadWork (cells.map (GrainCell.under E')) (u - v) := by
    unfold SpecLoadWork
    rw [List.map_map, List.map_map]
    rfl
  have hg := faceError_nonneg h.face u v
  rw [faceError_gap] at hg
  rw [ec] at a1 a2 p1 p2
  refine macro_reported _ h.body hs h0 h3 hV hE hE' u v procs procs' hp hp'
    (macro_core _ h.body E E' u v (cellRhs u) (cellRhs v) a1 a2 ?_)
  linarith

/-- C137, the same strain: whichever states are found, with whatever slips, and however the grains are distributed over
processes, the reported stresses are the same. -/
theorem C137_same {kind : Kind n N} (cells : List (GrainCell d e n N)) (faces : List (Face d e n N))
    (h : SpecStableGrains kind cells faces) {el : Elastic} {dn0 dn3 : ℝ} {E₀ : Mat d}
    (hs : SpecSpecimen (cells.map GrainCell.cell) el dn0 dn3 E₀) (h0 : 0 < dn0) (h3 : 0 < dn3)
    (hV : SpecIntegral (cells.map GrainCell.cell) (fun _ _ => 1) ≠ 0)
    (K : Sol.Constraints ℕ) (m : ℕ) (hK : Homogeneous K m) (hm : ∀ g ∈ cells, ∀ i, g.cell.dofs i < m)
    {E : Mat d} (hE : Eᵀ = E) (u v : ℕ → ℝ)
    (hu : SpecGrainSolution (cells.map (GrainCell.under E)) K m u)
    (hv : SpecGrainSolution (cells.map (GrainCell.under E)) K m v) (huv : Sol.Satisfies K (u - v))
    (procs procs' : List (List (MeshCell d n N)))
    (hp : procs.flatten.Perm ((cells.map GrainCell.cell).map (MeshCell.under E)))
    (hp' : procs'.flatten.Perm ((cells.map GrainCell.cell).map (MeshCell.under E))) :
    ∃ r r', Post.Homog.compute ⟨el, dn0, E⟩ (procs.map fun p => p.map (MeshCell.reported u)) = some r ∧
      Post.Homog.compute ⟨el, dn0, E⟩ (procs'.map fun p => p.map (MeshCell.reported v)) = some r' ∧
      ∀ F : Mat d, Fᵀ = F → ddot F r.stress = ddot F r'.stress := by
  obtain ⟨r, r', a1, a2, a3, -, -, a6⟩ := C137_grains cells faces h hs h0 h3 hV K m hK hm hE hE u v hu hv huv procs procs' hp hp'
  refine ⟨r, r', a1, a2, fun F hF => ?_⟩
  have hz : SpecUniformWork (cells.map GrainCell.cell) (E - E) = 0 := by
    have e : ∀ x : Mat d, ddot (E - E) x = 0 := fun x => by rw [ddot_sub_left, sub_self]
    unfold SpecUniformWork
    rw [integral_congr (g := fun _ _ => (0 : ℝ) * 0) fun c _ q => by rw [e, mul_zero], integral_smul, zero_mul]
  have := a6 F hF
  rw [hz, mul_zero] at this
  have h2 : r.volume * ddot F (r.stress - r'.stress) = 0 := pow_eq_zero_iff (two_ne_zero) |>.1 (le_antisymm this (sq_nonneg _))
  rcases mul_eq_zero.1 h2 with h4 | h4
  · exact absurd (a3.symm.trans h4) hV
  · rw [ddot_comm, ddot_sub_left, ddot_comm, ddot_comm r'.stress] at h4
    linarith

/-- C137 in a concrete case: the two grains of C133 have a state under any two strains, with slip, and report stresses
that differ as claimed. -/
example (E E' : Mat 2) (hE : Eᵀ = E) (hE' : E'ᵀ = E') : ∃ u v r r',
    SpecSolution (exSpecimen.map (MeshCell.under E)) (fun _ => none) 2 u ∧
    SpecSolution (exSpecimen.map (MeshCell.under E')) (fun _ => none) 2 v ∧
    Post.Homog.compute ⟨⟨3, 1, 2, 1⟩, 2, E⟩ ([exSpecimen.map (MeshCell.under E)].map fun p => p.map (MeshCell.reported u)) = some r ∧
    Post.Homog.compute ⟨⟨3, 1, 2, 1⟩, 2, E'⟩ ([[], exSpecimen.map (MeshCell.under E')].map fun p => p.map (MeshCell.reported v)) = some r' ∧
    0 ≤ ddot (E - E') (r.stress - r'.stress) := by
  have hK : Homogeneous (fun _ => none) 2 := ⟨fun _ _ h => by simp at h, fun _ _ h => by simp at h, fun _ _ h => by simp at h⟩
  have hst : ∀ F : Mat 2, ∃ x, SpecSolution (exSpecimen.map (MeshCell.under F)) (fun _ => none) 2 x := by
    intro F
    have hs := stable_under exSpecimen_stable F
    obtain ⟨x, -, h2⟩ := C129_body _ hs.cell hs.material
      (under_forall (P := fun c => c.prm.law.rateIndependent = false)
        (exSpecimen_forall (P := fun c => (c.under F).prm.law.rateIndependent = false) rfl rfl)) (fun _ => none) 2 hK
      (under_forall (P := fun c => ∀ i, c.dofs i < 2) exSpecimen_dofs) (determined_under exDriven_determined F) 0
    exact ⟨x, h2⟩
  obtain ⟨u, hu⟩ := hst E
  obtain ⟨v, hv⟩ := hst E'
  obtain ⟨r, r', h1, h2, h3, h4, -, -⟩ := C137_body exSpecimen exSpecimen_stable exSpecimen_ok (by norm_num) (by norm_num)
    (by rw [exSpecimen_volume]; exact one_ne_zero) (fun _ => none) 2 hK exSpecimen_dofs hE hE' u v hu hv
    (fun _ _ h => by simp at h) [exSpecimen.map (MeshCell.under E)] [[], exSpecimen.map (MeshCell.under E')] (by simp) (by simp)
  refine ⟨u, v, r, r', hu, hv, h1, h2, ?_⟩
  rw [h3, exSpecimen_volume, one_mul] at h4
  exact h4

/-- C137 for the two grains of C121 with microtractions at their boundary and any load `p` on the second, under any two strains. -/
example (H p : ℝ) (h0 : 0 ≤ H) (h1 : H ≤ 4) (E E' : Mat 2) (hE : Eᵀ = E) (hE' : E'ᵀ = E') : ∃ u v r r',
    SpecGrainSolution ([exSoftLeft H 0, exSoftRight H p].map (GrainCell.under E)) (fun _ => none) 4 u ∧
    SpecGrainSolution ([exSoftLeft H 0, exSoftRight H p].map (GrainCell.under E')) (fun _ => none) 4 v ∧
    Post.Homog.compute ⟨⟨3, 1, 1, 1⟩, 2, E⟩ ([([exSoftLeft H 0, exSoftRight H p].map GrainCell.cell).map (MeshCell.under E)].map fun c =>
      c.map (MeshCell.reported u)) = some r ∧
    Post.Homog.compute ⟨⟨3, 1, 1, 1⟩, 2, E'⟩ ([([exSoftLeft H 0, exSoftRight H p].map GrainCell.cell).map (MeshCell.under E')].map fun c =>
      c.map (MeshCell.reported v)) = some r' ∧
    0 ≤ ddot (E - E') (r.stress - r'.stress) := by
  have all : ∀ {P : GrainCell 2 1 1 2 → Prop}, P (exSoftLeft H 0) → P (exSoftRight H p) →
      ∀ g ∈ [exSoftLeft H 0, exSoftRight H p], P g := by
    intro P a b g hg
    rcases List.mem_cons.1 hg with rfl | hg
    · exact a
    · obtain rfl := List.mem_singleton.1 hg
      exact b
  have hst := exSoftGrains H 0 p h0 h1
  have hK : Homogeneous (fun _ => none) 4 := ⟨fun _ _ h => by simp at h, fun _ _ h => by simp at h, fun _ _ h => by simp at h⟩
  have hd : ∀ c ∈ [exSoftLeft H 0, exSoftRight H p], ∀ i, c.cell.dofs i < 4 :=
    all (P := fun c => ∀ i, c.cell.dofs i < 4) (fun i => by
      show (i : ℕ) < 4
      have := (i : Fin 2).2; omega) (fun i => by
      show (i : ℕ) + 2 < 4
      have := (i : Fin 2).2; omega)
  have hex : ∀ F : Mat 2, ∃ x, SpecGrainSolution ([exSoftLeft H 0, exSoftRight H p].map (GrainCell.under F)) (fun _ => none) 4 x := by
    intro F
    obtain ⟨x, -, hx⟩ := C121_exists _ _ (stable_grains_under hst F) (fun g hg => by
        obtain ⟨a, ha, rfl⟩ := List.mem_map.1 hg
        exact all (P := fun a => a.cell.prm.law.rateIndependent = false) rfl rfl a ha) (fun _ => none) 4 hK (fun g hg => by
        obtain ⟨a, ha, rfl⟩ := List.mem_map.1 hg
        exact hd a ha) (determined_under (exSoftGrains_determined H 0 p h0 h1) F) 0
    exact ⟨x, hx⟩
  have hall : ∀ {P : MeshCell 2 1 2 → Prop}, P (exSoftLeft H 0).cell → P (exSoftRight H p).cell →
      ∀ c ∈ [exSoftLeft H 0, exSoftRight H p].map GrainCell.cell, P c := by
    intro P a b c hc
    obtain ⟨g, hg, rfl⟩ := List.mem_map.1 hc
    exact all (P := fun g => P g.cell) a b g hg
  have hs1 : ∀ f : Fin 1 → ℝ, ∑ q, f q = f (0 : Fin 1) := fun f => Fin.sum_univ_one f
  have hvol : SpecIntegral ([exSoftLeft H 0, exSoftRight H p].map GrainCell.cell) (fun _ _ => 1) = 1 := by
    show (∑ q : Fin 1, (1 / 2 : ℝ) * 1) + ((∑ q : Fin 1, (1 / 2 : ℝ) * 1) + 0) = 1
    rw [hs1]
    norm_num
  have hz : (![0, 0] : Vec 2) = 0 := by funext i; fin_cases i <;> rfl
  have sp : SpecSpecimen ([exSoftLeft H 0, exSoftRight H p].map GrainCell.cell) ⟨3, 1, 1, 1⟩ 2 5 0 :=
    ⟨hall (P := fun c => c.prm.elastic = ⟨3, 1, 1, 1⟩) rfl rfl, hall (P := fun c => c.prm.dn0 = 2) rfl rfl,
      hall (P := fun c => c.prm.dn3 = 5) rfl rfl, hall (P := fun c => c.prm.macroStrain = 0) rfl rfl,
      hall (P := fun c => ∀ q, (c.pts q).supply = 0) (fun _ => hz) (fun _ => hz)⟩
  obtain ⟨u, hu⟩ := hex E
  obtain ⟨v, hv⟩ := hex E'
  obtain ⟨r, r', a1, a2, a3, a4, -, -⟩ := C137_grains _ _ hst sp (by norm_num) (by norm_num) (by rw [hvol]; exact one_ne_zero)
    (fun _ => none) 4 hK hd hE hE' u v hu hv (fun _ _ h => by simp at h)
    [([exSoftLeft H 0, exSoftRight H p].map GrainCell.cell).map (MeshCell.under E)]
    [([exSoftLeft H 0, exSoftRight H p].map GrainCell.cell).map (MeshCell.under E')] (by simp) (by simp)
  refine ⟨u, v, r, r', hu, hv, a1, a2, ?_⟩
  rw [a3, hvol, one_mul] at a4
  exact a4

end Verif.Asm
