import Verif.Props.EnergyRun
import Verif.Props.Unique
import Verif.Props.Post

/-!
# C113: a homogeneous body responds like a material point
-/

namespace Verif.Asm
open Matrix Finset Verif.Cry Verif.Hist Verif.Micro Verif.Lin

variable {d n N : ℕ}

/-! ## Specification -/

/-- Stress of a material point with strain `E` and slips `s`: Hooke's law of the crystal for the macroscopic
strain plus `E` less the plastic strain. -/
noncomputable def SpecPointStress (c : CellPrm d n) (E : Mat d) (s : Fin n → ℝ) : Mat d :=
  c.elastic.stress c.rot (c.macroStrain + (E - c.dn0 • ∑ a, s a • (c.sys a).symSchmid))

/-- Slip resistances of a material point before step `k` when its slips are `g 0, g 1, …`. -/
noncomputable def SpecPointHist (b : Bulk n) (g : ℕ → Fin n → ℝ) : ℕ → Bulk n
  | 0 => b
  | k + 1 => ((SpecPointHist b g k).update (g (k + 1)) (g k)).store

/-- The material point solves its equations in `T` steps: resolved shear stress equals microstress. -/
def SpecPointRun (c : CellPrm d n) (b : Bulk n) (dt : ℕ → ℝ) (E : ℕ → Mat d) (g : ℕ → Fin n → ℝ) (T : ℕ) :
    Prop :=
  ∀ k < T, ∀ a, c.dn3 * resolvedShear (c.sys a) (SpecPointStress c (E (k + 1)) (g (k + 1))) =
    c.law.evalMicrostress (SpecPointHist b g k) (g (k + 1)) (g k) (dt k) a

/-- A homogeneous body: the same crystal and the same initial resistances everywhere, no supply. -/
structure SpecHomogeneous (run : List (RunCell d n N)) (c : CellPrm d n) (b : Bulk n) : Prop where
  prm : ∀ r ∈ run, r.cell.prm = c
  hist : ∀ r ∈ run, ∀ q, (r.cell.pts q).hist = b
  supply : ∀ r ∈ run, ∀ k q, r.supply k q = 0

/-- The fields of `u` have strain `E` and slips `s` at all quadrature points. -/
def SpecUniform (run : List (RunCell d n N)) (u : ℕ → ℝ) (E : Mat d) (s : Fin n → ℝ) : Prop :=
  ∀ r ∈ run, ∀ q, (r.cell.pts q).shape.strain (u ∘ r.cell.dofs) = E ∧
    ∀ a, (r.cell.pts q).shape.slip (u ∘ r.cell.dofs) a = s a

/-- The slips of `u` have no gradient. -/
def SpecFlat (run : List (RunCell d n N)) (u : ℕ → ℝ) : Prop :=
  ∀ r ∈ run, ∀ q a, (r.cell.pts q).shape.slipGrad (u ∘ r.cell.dofs) a = 0

/-- Variations that vanish where displacements are prescribed, or are periodic, have no mean strain
(Gauss' theorem on the mesh). -/
def SpecNoMean (run : List (RunCell d n N)) (K : Sol.Constraints ℕ) : Prop :=
  ∀ w, Sol.Satisfies K w →
    (run.map fun r => ∑ q, (r.cell.pts q).shape.jxw • (r.cell.pts q).shape.strain (w ∘ r.cell.dofs)).sum = 0

/-! ## Helpers -/

theorem stressAt_uniform (c : CellPrm d n) (s : Shape d n N) (u : Fin N → ℝ) (E : Mat d) (g : Fin n → ℝ)
    (h1 : s.strain u = E) (h2 : ∀ a, s.slip u a = g a) : c.stressAt s u = SpecPointStress c E g := by
  unfold CellPrm.stressAt CellPrm.elasticStrainAt SpecPointStress
  rw [elasticStrain_finRange, h1]
  simp only [h2]

theorem hist_uniform (r : RunCell d n N) (u : ℕ → ℕ → ℝ) (q : Fin r.cell.Q) (b : Bulk n)
    (g : ℕ → Fin n → ℝ) (hb : (r.cell.pts q).hist = b) (k : ℕ)
    (h : ∀ j ≤ k, ∀ a, (r.cell.pts q).shape.slip (u j ∘ r.cell.dofs) a = g j a) :
    r.histAt u q k = SpecPointHist b g k := by
  induction k with
  | zero => exact hb
  | succ k ih =>
    have h1 : (r.cell.pts q).shape.slip (u (k + 1) ∘ r.cell.dofs) = g (k + 1) := funext fun a => h _ le_rfl a
    have h2 : (r.cell.pts q).shape.slip (u k ∘ r.cell.dofs) = g k := funext fun a => h _ (by omega) a
    show ((r.histAt u q k).update _ _).store = _
    rw [ih fun j hj => h j (by omega), h1, h2]
    rfl

theorem xi_zero (v : VecLaw) (s : System d) : xi v s 0 = 0 := by
  funext i
  simp [xi, phi]

/-- A point of the homogeneous body in the uniform state. -/
theorem point_uniform (c : CellPrm d n) (h0 : c.dn0 ≠ 0) (p : Point d n N) (u w : Fin N → ℝ)
    (E : Mat d) (s : Fin n → ℝ) (h1 : p.shape.strain u = E) (h2 : ∀ a, p.shape.slip u a = s a)
    (h3 : ∀ a, p.shape.slipGrad u a = 0) (hf : p.supply = 0)
    (heq : ∀ a, c.dn3 * resolvedShear (c.sys a) (SpecPointStress c E s) =
      c.law.evalMicrostress p.hist (p.shape.slip u) p.old c.dt a) :
    p.shape.jxw * (c.dn3 / c.dn0 *
        (ddot (SpecElasticStrain c p.shape w) (c.stressAt p.shape u) -
          p.shape.displacement w ⬝ᵥ p.supply) +
        c.dn2 * ∑ a, p.shape.slipGrad w a ⬝ᵥ xi c.vec (c.sys a) (p.shape.slipGrad u a) +
        ∑ a, p.shape.slip w a * c.law.evalMicrostress p.hist (p.shape.slip u) p.old c.dt a) =
      c.dn3 / c.dn0 * ddot (p.shape.jxw • p.shape.strain w) (SpecPointStress c E s) := by
  rw [stressAt_uniform c p.shape u E s h1 h2, hf]
  simp only [h3, xi_zero, dotProduct_zero, Finset.sum_const_zero, mul_zero, add_zero, sub_zero, ← heq]
  unfold SpecElasticStrain
  rw [ddot_sub_left, ddot_smul_left, ddot_sum_left, ddot_smul_left]
  simp only [ddot_smul_left, resolvedShear]
  have : ∀ a, ddot (c.sys a).symSchmid (SpecPointStress c E s) =
      ddot (SpecPointStress c E s) (c.sys a).symSchmid := fun a => ddot_comm _ _
  simp only [this]
  have e : ∑ a, p.shape.slip w a * (c.dn3 * ddot (SpecPointStress c E s) (c.sys a).symSchmid) =
      c.dn3 * ∑ a, p.shape.slip w a * ddot (SpecPointStress c E s) (c.sys a).symSchmid := by
    rw [Finset.mul_sum]
    exact sum_congr rfl fun a _ => by ring
  rw [e]
  field_simp
  ring

/-- The rows of the assembly exist. -/
theorem assembled_exists (cells : List (MeshCell d n N)) (hc : ∀ c ∈ cells, SpecCell c)
    (hm : ∀ c ∈ cells, SpecMaterial c.prm) (u : ℕ → ℝ) : ∃ R, SpecAssembled cells u R := by
  refine ⟨fun c i => (c.prm.rhs c.kind c.pts (u ∘ c.dofs) i).getD 0, fun c h i => ?_⟩
  choose rq hrq _ using fun q => point_power c.prm (hm c h).index (hm c h).dn0.ne' c.kind (c.pts q)
    ((hc c h).primitive q) (u ∘ c.dofs)
  have : c.prm.rhs c.kind c.pts (u ∘ c.dofs) i = some (∑ q, rq q i) := sumOpt_some _ _ fun q => hrq q i
  simp only [this, Option.getD_some]

/-- Vanishing work on all admissible variations is a vanishing residual. -/
theorem solution_of_work (cells : List (MeshCell d n N)) {R : MeshCell d n N → Fin N → ℝ}
    {K : Sol.Constraints ℕ} {m : ℕ} (hK : Homogeneous K m) (hm : ∀ c ∈ cells, ∀ i, c.dofs i < m)
    (h : ∀ w, Sol.Satisfies K w → SpecNodalWork cells R w = 0) :
    ∀ r < m, Lin.residual K (cells.map fun c => c.local R) r = 0 := by
  intro r hr
  have hn : Numbered (cells.map fun c => c.local R) m := by
    constructor
    · intro a ha i
      obtain ⟨c, hc, rfl⟩ := List.mem_map.1 ha
      exact hm c hc i
    · intro a ha b hb
      obtain ⟨c, hc, rfl⟩ := List.mem_map.1 ha
      simp [MeshCell.local] at hb
  unfold Lin.residual
  rw [← unit_test hK hn (fun a i => a.rhs i) hr, List.map_map]
  have h1 := h _ (unit_satisfies hK r)
  unfold SpecNodalWork at h1
  have h2 : (cells.map ((fun a : Local N => ∑ i, Lin.unit K r (a.dofs i) * a.rhs i) ∘ fun c => c.local R)) =
      cells.map fun c => (-1 : ℝ) * ∑ i, Lin.unit K r (c.dofs i) * -R c i := by
    refine List.map_congr_left fun c _ => ?_
    simp [MeshCell.local]
  rw [h2, List.sum_map_mul_left, h1, mul_zero]

theorem hist_point (c : CellPrm d n) (hm : SpecMaterial c) (b : Bulk n) (hb : b.prm = c.law.hard)
    (g : ℕ → Fin n → ℝ) (k : ℕ) :
    (SpecPointHist b g k).prm = c.law.hard ∧ ∀ a, b.tmp a ≤ (SpecPointHist b g k).tmp a := by
  induction k with
  | zero => exact ⟨hb, fun a => le_rfl⟩
  | succ k ih =>
    refine ⟨(update_prm _ _ _).trans ih.1, fun a => (ih.2 a).trans (resistance_ge' _ ?_ _ _ a)⟩
    rw [ih.1]
    exact hm.hard

/-! ## C113 -/

/-- C113: the uniform fields of the material point solve the equations of the body in every step, on
every mesh. -/
theorem C113_solves (run : List (RunCell d n N)) (c : CellPrm d n) (b : Bulk n)
    (hbody : SpecHomogeneous run c b) (hcell : ∀ r ∈ run, SpecCell r.cell) (hmat : SpecMaterial c)
    (K : Sol.Constraints ℕ) (m : ℕ) (hK : Homogeneous K m) (hm : ∀ r ∈ run, ∀ i, r.cell.dofs i < m)
    (hmean : SpecNoMean run K) (dt : ℕ → ℝ) (T : ℕ) (hdt : ∀ k < T, 0 < dt k)
    (E : ℕ → Mat d) (g : ℕ → Fin n → ℝ) (hpoint : SpecPointRun c b dt E g T)
    (U : ℕ → ℕ → ℝ) (hU : ∀ k ≤ T, SpecUniform run (U k) (E k) (g k)) (hflat : ∀ k ≤ T, SpecFlat run (U k)) :
    ∀ k < T, SpecSolution (SpecMesh run dt U k) K m (U (k + 1)) := by
  intro k hk
  have hc' : ∀ x ∈ SpecMesh run dt U k, SpecCell x := by
    intro x hx
    obtain ⟨r, hr, rfl⟩ := List.mem_map.1 hx
    exact at_ok r (hcell r hr) (by rw [hbody.prm r hr]; exact hmat) dt U k
  have hm' : ∀ x ∈ SpecMesh run dt U k, SpecMaterial x.prm := by
    intro x hx
    obtain ⟨r, hr, rfl⟩ := List.mem_map.1 hx
    exact at_material r (by rw [hbody.prm r hr]; exact hmat) dt U k (hdt k hk)
  obtain ⟨R, hR⟩ := assembled_exists _ hc' hm' (U (k + 1))
  refine ⟨R, hR, solution_of_work _ hK ?_ fun w hw => ?_⟩
  · intro x hx
    obtain ⟨r, hr, rfl⟩ := List.mem_map.1 hx
    exact hm r hr
  · unfold SpecNodalWork
    have key : ((SpecMesh run dt U k).map fun x => ∑ i, w (x.dofs i) * -R x i) =
        run.map fun r => c.dn3 / c.dn0 * ddot (∑ q, (r.cell.pts q).shape.jxw •
          (r.cell.pts q).shape.strain (w ∘ r.cell.dofs)) (SpecPointStress c (E (k + 1)) (g (k + 1))) := by
      unfold SpecMesh
      rw [List.map_map]
      refine List.map_congr_left fun r hr => ?_
      have hx : r.at dt U k ∈ SpecMesh run dt U k := List.mem_map.2 ⟨r, hr, rfl⟩
      have hp := cell_power (r.at dt U k).prm (hm' _ hx).index (hm' _ hx).dn0.ne' (r.at dt U k).kind
        (r.at dt U k).pts (hc' _ hx).primitive (U (k + 1) ∘ (r.at dt U k).dofs) (R _) (hR _ hx)
        (w ∘ (r.at dt U k).dofs)
      refine hp.trans ?_
      rw [ddot_sum_left, Finset.mul_sum]
      refine sum_congr rfl fun q _ => ?_
      have hprm : (r.at dt U k).prm = { c with dt := dt k } := by
        show { r.cell.prm with dt := dt k } = _
        rw [hbody.prm r hr]
      rw [hprm]
      have u1 := hU (k + 1) hk r hr q
      refine point_uniform { c with dt := dt k } hmat.dn0.ne' ((r.at dt U k).pts q) _ _ (E (k + 1)) (g (k + 1))
        u1.1 u1.2 (hflat (k + 1) hk r hr q) (hbody.supply r hr k q) fun a => ?_
      have e1 : ((r.at dt U k).pts q).shape.slip (U (k + 1) ∘ (r.at dt U k).dofs) = g (k + 1) := funext u1.2
      have e2 : ((r.at dt U k).pts q).old = g k := funext (hU k hk.le r hr q).2
      have e3 : ((r.at dt U k).pts q).hist = SpecPointHist b g k :=
        hist_uniform r U q b g (hbody.hist r hr q) k fun j hj => (hU j (hj.trans hk.le) r hr q).2
      rw [e1, e2, e3]
      exact hpoint k hk a
    rw [key, List.sum_map_mul_left]
    have : (run.map fun r => ddot (∑ q, (r.cell.pts q).shape.jxw •
        (r.cell.pts q).shape.strain (w ∘ r.cell.dofs)) (SpecPointStress c (E (k + 1)) (g (k + 1)))).sum =
        ddot (run.map fun r => ∑ q, (r.cell.pts q).shape.jxw •
          (r.cell.pts q).shape.strain (w ∘ r.cell.dofs)).sum (SpecPointStress c (E (k + 1)) (g (k + 1))) := by
      clear hmean key hm' hc' hR hU hflat hbody hcell hm
      induction run with
      | nil => simp [ddot]
      | cons r l ih =>
        simp only [List.map_cons, List.sum_cons]
        rw [ih]
        simp only [ddot, Matrix.add_apply, add_mul, Finset.sum_add_distrib]
    rw [this, hmean w hw]
    simp [ddot]

/-- C113: conversely, every run of the body with rate-dependent slips that starts with the slips of the
point and has the boundary values of its uniform fields has, after every step and at every quadrature
point, the strain, the slips, the stress and the slip resistances of the point. -/
theorem C113_only (run : List (RunCell d n N)) (c : CellPrm d n) (b : Bulk n)
    (hbody : SpecHomogeneous run c b) (hcell : ∀ r ∈ run, SpecCell r.cell) (hmat : SpecMaterial c)
    (hhard : SpecHardens c.law.hard) (hrate : c.law.rateIndependent = false)
    (K : Sol.Constraints ℕ) (m : ℕ) (hK : Homogeneous K m) (hm : ∀ r ∈ run, ∀ i, r.cell.dofs i < m)
    (hmean : SpecNoMean run K) (dt : ℕ → ℝ) (T : ℕ) (hdt : ∀ k < T, 0 < dt k)
    (hlatent : ∀ k < T, ∀ a, SpecLatent c.law n (dt k) < b.tmp a)
    (E : ℕ → Mat d) (g : ℕ → Fin n → ℝ) (hpoint : SpecPointRun c b dt E g T)
    (U : ℕ → ℕ → ℝ) (hU : ∀ k ≤ T, SpecUniform run (U k) (E k) (g k)) (hflat : ∀ k ≤ T, SpecFlat run (U k))
    (u : ℕ → ℕ → ℝ) (hstart : SpecUniform run (u 0) (E 0) (g 0))
    (hsol : ∀ k < T, SpecSolution (SpecMesh run dt u k) K m (u (k + 1)))
    (hbc : ∀ k < T, Sol.Satisfies K (u (k + 1) - U (k + 1))) :
    ∀ k ≤ T, SpecUniform run (u k) (E k) (g k) ∧
      ∀ r ∈ run, ∀ q, r.histAt u q k = SpecPointHist b g k ∧
        r.cell.prm.stressAt (r.cell.pts q).shape (u k ∘ r.cell.dofs) = SpecPointStress c (E k) (g k) := by
  have hsolU := C113_solves run c b hbody hcell hmat K m hK hm hmean dt T hdt E g hpoint U hU hflat
  have main : ∀ k ≤ T, ∀ j ≤ k, SpecUniform run (u j) (E j) (g j) := by
    intro k
    induction k with
    | zero =>
      intro _ j hj
      obtain rfl : j = 0 := by omega
      exact hstart
    | succ k ih =>
      intro hk j hj
      rcases Nat.lt_or_ge j (k + 1) with h | h
      · exact ih (by omega) j (by omega)
      obtain rfl : j = k + 1 := by omega
      have ihk := ih (by omega)
      have hmesh : SpecMesh run dt u k = SpecMesh run dt U k := by
        unfold SpecMesh
        refine List.map_congr_left fun r hr => ?_
        unfold RunCell.at
        congr 1
        funext q
        have e2 : (r.cell.pts q).shape.slip (u k ∘ r.cell.dofs) =
            (r.cell.pts q).shape.slip (U k ∘ r.cell.dofs) := by
          funext a
          rw [(ihk k le_rfl r hr q).2 a, (hU k (by omega) r hr q).2 a]
        have e3 : r.histAt u q k = r.histAt U q k := by
          rw [hist_uniform r u q b g (hbody.hist r hr q) k fun j hj => (ihk j hj r hr q).2,
            hist_uniform r U q b g (hbody.hist r hr q) k fun j hj => (hU j (by omega) r hr q).2]
        rw [e2, e3]
      have hsu := hsol k (by omega)
      rw [hmesh] at hsu
      intro r hr q
      have hx : r.at dt U k ∈ SpecMesh run dt U k := List.mem_map.2 ⟨r, hr, rfl⟩
      have hmr : ∀ r ∈ run, SpecMaterial r.cell.prm := fun r hr => by rw [hbody.prm r hr]; exact hmat
      have hhist : ∀ r ∈ run, ∀ q a, SpecLatent c.law n (dt k) < ((r.at dt U k).pts q).hist.tmp a := by
        intro r hr q a
        show _ < (r.histAt U q k).tmp a
        rw [hist_uniform r U q b g (hbody.hist r hr q) k fun j hj => (hU j (by omega) r hr q).2]
        refine (hlatent k (by omega) a).trans_le ((hist_point c hmat b ?_ g k).2 a)
        rw [← hbody.hist r hr q, (hcell r hr).hist q, hbody.prm r hr]
      have hlaw : ∀ r ∈ run, (r.at dt U k).prm.law = c.law ∧ (r.at dt U k).prm.dt = dt k := by
        intro r hr
        refine ⟨?_, rfl⟩
        show r.cell.prm.law = _
        rw [hbody.prm r hr]
      obtain ⟨-, -, h3⟩ := C84_unique_partial (SpecMesh run dt U k)
        (fun x hx => by
          obtain ⟨r, hr, rfl⟩ := List.mem_map.1 hx
          exact at_ok r (hcell r hr) (hmr r hr) dt U k)
        (fun x hx => by
          obtain ⟨r, hr, rfl⟩ := List.mem_map.1 hx
          exact at_material r (hmr r hr) dt U k (hdt k (by omega)))
        (fun x hx => by
          obtain ⟨r, hr, rfl⟩ := List.mem_map.1 hx
          rw [(hlaw r hr).1]; exact hhard)
        (fun x hx q a => by
          obtain ⟨r, hr, rfl⟩ := List.mem_map.1 hx
          rw [(hlaw r hr).1, (hlaw r hr).2]
          exact (hhist r hr q a).le)
        K m hK
        (fun x hx => by
          obtain ⟨r, hr, rfl⟩ := List.mem_map.1 hx
          exact hm r hr)
        (u (k + 1)) (U (k + 1)) hsu (hsolU k (by omega)) (hbc k (by omega)) (r.at dt U k) hx q
      obtain ⟨h4, h5⟩ := h3 (by rw [(hlaw r hr).1]; exact hrate) fun a => by
        rw [(hlaw r hr).1, (hlaw r hr).2]
        exact hhist r hr q a
      have hu1 := hU (k + 1) hk r hr q
      exact ⟨h5.trans hu1.1, fun a => (h4 a).trans (hu1.2 a)⟩
  intro k hk
  refine ⟨main k hk k le_rfl, fun r hr q => ⟨?_, ?_⟩⟩
  · exact hist_uniform r u q b g (hbody.hist r hr q) k fun j hj => (main k hk j hj r hr q).2
  · rw [hbody.prm r hr]
    exact stressAt_uniform c _ _ _ _ (main k hk k le_rfl r hr q).1 (main k hk k le_rfl r hr q).2

/-- C113: where the discretisation determines the fields, the degrees of freedom themselves are those of
the uniform fields. -/
theorem C113_state (run : List (RunCell d n N)) (c : CellPrm d n) (b : Bulk n)
    (hbody : SpecHomogeneous run c b) (hcell : ∀ r ∈ run, SpecCell r.cell) (hmat : SpecMaterial c)
    (hhard : SpecHardens c.law.hard) (hrate : c.law.rateIndependent = false)
    (K : Sol.Constraints ℕ) (m : ℕ) (hK : Homogeneous K m) (hm : ∀ r ∈ run, ∀ i, r.cell.dofs i < m)
    (hmean : SpecNoMean run K) (dt : ℕ → ℝ) (T : ℕ) (hdt : ∀ k < T, 0 < dt k)
    (hlatent : ∀ k < T, ∀ a, SpecLatent c.law n (dt k) < b.tmp a)
    (hdet : ∀ w, Sol.Satisfies K w → SpecUniform run w 0 0 → ∀ i < m, w i = 0)
    (E : ℕ → Mat d) (g : ℕ → Fin n → ℝ) (hpoint : SpecPointRun c b dt E g T)
    (U : ℕ → ℕ → ℝ) (hU : ∀ k ≤ T, SpecUniform run (U k) (E k) (g k)) (hflat : ∀ k ≤ T, SpecFlat run (U k))
    (u : ℕ → ℕ → ℝ) (hstart : SpecUniform run (u 0) (E 0) (g 0))
    (hsol : ∀ k < T, SpecSolution (SpecMesh run dt u k) K m (u (k + 1)))
    (hbc : ∀ k < T, Sol.Satisfies K (u (k + 1) - U (k + 1))) :
    ∀ k < T, ∀ i < m, u (k + 1) i = U (k + 1) i := by
  intro k hk i hi
  have h := C113_only run c b hbody hcell hmat hhard hrate K m hK hm hmean dt T hdt hlatent E g hpoint U hU
    hflat u hstart hsol hbc (k + 1) hk
  refine sub_eq_zero.1 (hdet _ (hbc k hk) (fun r hr q => ?_) i hi)
  have h1 := h.1 r hr q
  have h2 := hU (k + 1) hk r hr q
  have e : (u (k + 1) - U (k + 1)) ∘ r.cell.dofs = u (k + 1) ∘ r.cell.dofs - U (k + 1) ∘ r.cell.dofs := rfl
  rw [e]
  constructor
  · have : (r.cell.pts q).shape.strain (u (k + 1) ∘ r.cell.dofs - U (k + 1) ∘ r.cell.dofs) =
        (r.cell.pts q).shape.strain (u (k + 1) ∘ r.cell.dofs) -
          (r.cell.pts q).shape.strain (U (k + 1) ∘ r.cell.dofs) := by
      unfold Shape.strain
      rw [← Finset.sum_sub_distrib]
      exact sum_congr rfl fun j _ => by rw [Pi.sub_apply, sub_smul]
    rw [this, h1.1, h2.1, sub_self]
  · intro a
    rw [slip_sub, h1.2 a, h2.2 a, sub_self]
    rfl

/-- A cell with the solution, as the homogenisation sees it. -/
noncomputable def RunCell.reported (r : RunCell d n N) (u : ℕ → ℝ) : Post.Cell d :=
  ⟨r.cell.prm.rot, (List.finRange r.cell.Q).map fun q => ⟨(r.cell.pts q).shape.jxw,
    (r.cell.pts q).shape.strain (u ∘ r.cell.dofs),
    (List.finRange n).map fun a => (r.cell.prm.sys a, (r.cell.pts q).shape.slip (u ∘ r.cell.dofs) a)⟩⟩

/-- C113: on whatever processes the cells are, the homogenised stress and strain of a body in a uniform
state are those of the point. -/
theorem C113_homogenised (run : List (RunCell d n N)) (c : CellPrm d n) (b : Bulk n)
    (hbody : SpecHomogeneous run c b) (u : ℕ → ℝ) (E : Mat d) (s : Fin n → ℝ) (hu : SpecUniform run u E s)
    (procs : List (List (RunCell d n N))) (hprocs : procs.flatten.Perm run)
    (hV : (run.map fun r => ∑ q, (r.cell.pts q).shape.jxw).sum ≠ 0) :
    Post.Homog.compute ⟨c.elastic, c.dn0, c.macroStrain⟩
        (procs.map fun p => p.map fun r => r.reported u) =
      some ⟨SpecPointStress c E s, SpecPointStress { c with macroStrain := 0 } E s, E, (run.map fun r => ∑ q, (r.cell.pts q).shape.jxw).sum⟩ := by
  have hmem : ∀ x ∈ Post.points (procs.map fun p => p.map fun r => r.reported u), x.1 = c.rot ∧
      x.2.strain = E ∧ x.2.slips = (List.finRange n).map fun a => (c.sys a, s a) := by
    intro x hx
    simp only [Post.points, List.mem_flatMap, List.mem_map] at hx
    obtain ⟨_, ⟨p, hp, rfl⟩, cell, hc, y, hy, rfl⟩ := hx
    obtain ⟨r, hr, rfl⟩ := List.mem_map.1 hc
    obtain ⟨q, -, rfl⟩ := List.mem_map.1 hy
    have hr' : r ∈ run := hprocs.subset (List.mem_flatten.2 ⟨p, hp, hr⟩)
    have h := hu r hr' q
    have hprm := hbody.prm r hr'
    refine ⟨?_, h.1, ?_⟩
    · show r.cell.prm.rot = _
      rw [hprm]
    · refine List.map_congr_left fun a _ => ?_
      rw [hprm, h.2 a]
  have hvol : ((Post.points (procs.map fun p => p.map fun r => r.reported u)).map fun x => x.2.jxw).sum =
      (run.map fun r => ∑ q, (r.cell.pts q).shape.jxw).sum := by
    rw [← (hprocs.map fun r : RunCell d n N => ∑ q, (r.cell.pts q).shape.jxw).sum_eq]
    clear hprocs hmem
    induction procs with
    | nil => rfl
    | cons p l ih =>
      have e : Post.points ((p :: l).map fun p => p.map fun r => r.reported u) =
          ((p.map fun r => r.reported u).flatMap fun c => c.points.map fun q => (c.rot, q)) ++
          Post.points (l.map fun p => p.map fun r => r.reported u) := rfl
      rw [e, List.map_append, List.sum_append, ih, List.flatten_cons, List.map_append, List.sum_append]
      congr 1
      induction p with
      | nil => rfl
      | cons r p ihp =>
        rw [List.map_cons, List.flatMap_cons, List.map_append, List.sum_append, ihp rfl, List.map_cons,
          List.sum_cons]
        congr 1
        simp only [RunCell.reported, List.map_map]
        rw [← List.sum_ofFn, List.ofFn_eq_map]
        rfl
  have hV' := hV
  rw [← hvol] at hV'
  rw [Post.C56_average _ _ hV', hvol]
  rw [Post.C56_uniform _ _ hV' (SpecPointStress c E s) fun x hx => ?_,
    Post.C56_uniform _ _ hV' (SpecPointStress { c with macroStrain := 0 } E s) fun x hx => ?_,
    Post.C56_uniform _ (fun x => x.2.strain) hV' E fun x hx => (hmem x hx).2.1]
  · obtain ⟨h1, h2, h3⟩ := hmem x hx
    rw [h1, h2, h3, elasticStrain_finRange]
    unfold SpecPointStress
    rw [zero_add]
  · obtain ⟨h1, h2, h3⟩ := hmem x hx
    rw [h1, h2, h3, elasticStrain_finRange]
    rfl

/-- C113: in the plane the reported shear stress of the upper boundary is that of the point, if strain and
slips are uniform there. -/
theorem C113_boundary (c : CellPrm 2 n) (h0 : c.macroStrain = 0) (E : Mat 2) (s : Fin n → ℝ)
    (procs : List (List (List (Shape 2 n N × (Fin N → ℝ))))) (width : ℝ) (hw : width ≠ 0)
    (hu : ∀ p ∈ procs, ∀ f ∈ p, ∀ x ∈ f, x.1.strain x.2 = E ∧ ∀ a, x.1.slip x.2 a = s a)
    (hA : (procs.map fun p => (p.map fun f => (f.map fun x => x.1.jxw).sum).sum).sum = width) :
    Post.averageStress12 width (procs.map fun p => p.map fun f => f.map fun x =>
      (c.elastic.stress c.rot (elasticStrain c.dn0 ((List.finRange n).map fun a => (c.sys a, x.1.slip x.2 a))
        (x.1.strain x.2)) 0 1, x.1.jxw)) = SpecPointStress c E s 0 1 := by
  have key : ∀ p ∈ procs, ∀ f ∈ p, ∀ x ∈ f, c.elastic.stress c.rot
      (elasticStrain c.dn0 ((List.finRange n).map fun a => (c.sys a, x.1.slip x.2 a)) (x.1.strain x.2)) =
      SpecPointStress c E s := by
    intro p hp f hf x hx
    obtain ⟨h1, h2⟩ := hu p hp f hf x hx
    rw [elasticStrain_finRange, h1]
    unfold SpecPointStress
    rw [h0, zero_add]
    simp only [h2]
  unfold Post.averageStress12
  rw [div_eq_iff hw, ← hA, ← List.sum_map_mul_left, List.map_map]
  refine congrArg List.sum (List.map_congr_left fun p hp => ?_)
  simp only [Function.comp, List.map_map]
  rw [← List.sum_map_mul_left]
  refine congrArg List.sum (List.map_congr_left fun f hf => ?_)
  simp only [Function.comp, List.map_map]
  rw [← List.sum_map_mul_left]
  refine congrArg List.sum (List.map_congr_left fun x hx => ?_)
  simp only [Function.comp]
  rw [key p hp f hf x hx]

/-! ## A column of any number of layers in simple shear -/

/-- Slip in `x` on planes `y = const`, perfect plasticity. -/
noncomputable def exColPrm : CellPrm 2 1 where
  sys := fun _ => ⟨![1, 0], ![0, 1], 0⟩
  elastic := ⟨3, 1, 1, 1⟩
  rot := 1
  vec := ⟨1, 1, 2, false⟩
  law := ⟨.sqrt, 1, false, ⟨1, 1, 1, 1, true⟩⟩
  dn0 := 1
  dn2 := 1
  dn3 := 1
  dt := 1
  macroStrain := 0

/-- Shear of one half. -/
noncomputable def exShear : Mat 2 := !![0, 1 / 2; 1 / 2, 0]

/-- A layer of height `1 / M` with displacements in `x` and slips at its lower and upper side; two
quadrature points at the sides. -/
noncomputable def exColLayerShape (M : ℕ) (q : Fin 2) : Shape 2 1 4 where
  jxw := 1 / (2 * M)
  disp := ![![if q = 0 then 1 else 0, 0], ![if q = 1 then 1 else 0, 0], 0, 0]
  symGrad := ![-(M : ℝ) • exShear, (M : ℝ) • exShear, 0, 0]
  phi := fun _ => ![0, 0, if q = 0 then 1 else 0, if q = 1 then 1 else 0]
  grad := fun _ => ![0, 0, ![0, -(M : ℝ)], ![0, M]]

/-- Layer `i` of `M`: displacements are numbered first, then slips. -/
noncomputable def exColLayer (M i : ℕ) : RunCell 2 1 4 where
  cell := ⟨exColPrm, ![none, none, some 0, some 0], ![i, i + 1, M + 1 + i, M + 2 + i], 2,
    fun q => ⟨exColLayerShape M q, 0, Bulk.init ⟨1, 1, 1, 1, true⟩ 1, fun _ => 0⟩⟩
  supply := fun _ _ => 0

noncomputable def exColumn (M : ℕ) : List (RunCell 2 1 4) := (List.range M).map (exColLayer M)

/-- Displacements prescribed at the bottom and the top. -/
noncomputable def exClamped (M : ℕ) : Sol.Constraints ℕ := fun i =>
  if i = 0 ∨ i = M then some ⟨[], 0⟩ else none

/-- Prescribed shear and slip after `k` steps. -/
noncomputable def exGamma (k : ℕ) : ℝ := if k = 0 then 0 else 3 / 4 * k + 3 / 5
noncomputable def exColSlip (k : ℕ) : Fin 1 → ℝ := fun _ => 3 / 4 * k

/-- The uniform fields. -/
noncomputable def exField (M k i : ℕ) : ℝ := if i ≤ M then exGamma k * i / M else 3 / 4 * k

theorem exColLayer_strain (M i : ℕ) (q : Fin 2) (w : ℕ → ℝ) :
    (exColLayerShape M q).strain (w ∘ (exColLayer M i).cell.dofs) = ((M : ℝ) * (w (i + 1) - w i)) • exShear := by
  show ∑ j, _ • (exColLayerShape M q).symGrad j = _
  rw [Fin.sum_univ_four]
  simp only [exColLayer, exColLayerShape, Function.comp]
  show w i • (-(M : ℝ) • exShear) + w (i + 1) • ((M : ℝ) • exShear) + w (M + 1 + i) • (0 : Mat 2) +
    w (M + 2 + i) • (0 : Mat 2) = _
  module

theorem exColLayer_slip (M i : ℕ) (q : Fin 2) (w : ℕ → ℝ) (a : Fin 1) :
    (exColLayerShape M q).slip (w ∘ (exColLayer M i).cell.dofs) a = if q = 0 then w (M + 1 + i) else w (M + 2 + i) := by
  show ∑ j, _ * (exColLayerShape M q).phi a j = _
  rw [Fin.sum_univ_four]
  show w i * 0 + w (i + 1) * 0 + w (M + 1 + i) * (if q = 0 then 1 else 0) +
    w (M + 2 + i) * (if q = 1 then 1 else 0) = _
  fin_cases q <;> simp

theorem exColLayer_slipGrad (M i : ℕ) (q : Fin 2) (w : ℕ → ℝ) (a : Fin 1) :
    (exColLayerShape M q).slipGrad (w ∘ (exColLayer M i).cell.dofs) a =
      ![0, (M : ℝ) * (w (M + 2 + i) - w (M + 1 + i))] := by
  show ∑ j, _ • (exColLayerShape M q).grad a j = _
  rw [Fin.sum_univ_four]
  show w i • (0 : Vec 2) + w (i + 1) • (0 : Vec 2) + w (M + 1 + i) • (![0, -(M : ℝ)] : Vec 2) +
    w (M + 2 + i) • (![0, (M : ℝ)] : Vec 2) = _
  ext j
  fin_cases j <;> simp
  ring

theorem exColumn_mem {M : ℕ} {r : RunCell 2 1 4} (h : r ∈ exColumn M) : ∃ i < M, r = exColLayer M i := by
  obtain ⟨i, hi, rfl⟩ := List.mem_map.1 h
  exact ⟨i, List.mem_range.1 hi, rfl⟩

theorem exColumn_homogeneous (M : ℕ) :
    SpecHomogeneous (exColumn M) exColPrm (Bulk.init ⟨1, 1, 1, 1, true⟩ 1) := by
  constructor <;> intro r hr <;> obtain ⟨i, -, rfl⟩ := exColumn_mem hr
  · rfl
  · exact fun _ => rfl
  · exact fun _ _ => rfl

theorem exColPrm_material : SpecMaterial exColPrm := by
  constructor <;> norm_num [exColPrm, Elastic.accepted, SpecOrthogonal, VecLaw.accepted]

theorem exColumn_cell (M : ℕ) (hM : 0 < M) : ∀ r ∈ exColumn M, SpecCell r.cell := by
  intro r hr
  obtain ⟨i, -, rfl⟩ := exColumn_mem hr
  have hM' : (0 : ℝ) < M := by exact_mod_cast hM
  constructor
  · intro q
    show (exColLayerShape M q).Primitive ![none, none, some 0, some 0]
    constructor
    · intro i a h; fin_cases i <;> simp_all [exColLayerShape]
    · intro i a h; fin_cases i <;> simp_all [exColLayerShape]
    · intro i a h; fin_cases i <;> simp_all [exColLayerShape, Subsingleton.elim a 0]
    · intro i a h; fin_cases i <;> simp_all [exColLayerShape, Subsingleton.elim a 0]
    · intro i
      have : exShearᵀ = exShear := by
        ext a b; fin_cases a <;> fin_cases b <;> rfl
      fin_cases i <;> simp [exColLayerShape, this]
  · intro q
    show (0 : ℝ) < 1 / (2 * M)
    positivity
  · exact fun _ => rfl
  · intro q a
    show (0 : ℝ) ≤ 1 / 1
    norm_num

theorem exClamped_ok (M : ℕ) : Homogeneous (exClamped M) (2 * M + 2) := by
  constructor <;> intro g l h <;> unfold exClamped at h <;> split_ifs at h <;> rw [← Option.some.inj h]
  · simp
  · simp

theorem exColumn_noMean (M : ℕ) (hM : 0 < M) : SpecNoMean (exColumn M) (exClamped M) := by
  intro w hw
  have h0 : w 0 = 0 := by
    have := hw 0 ⟨[], 0⟩ (by simp [exClamped])
    simpa [Sol.Line.eval] using this
  have hT : w M = 0 := by
    have := hw M ⟨[], 0⟩ (by simp [exClamped])
    simpa [Sol.Line.eval] using this
  have hM' : (M : ℝ) ≠ 0 := by positivity
  unfold exColumn
  rw [List.map_map]
  have e : ((List.range M).map ((fun r : RunCell 2 1 4 => ∑ q, (r.cell.pts q).shape.jxw •
      (r.cell.pts q).shape.strain (w ∘ r.cell.dofs)) ∘ exColLayer M)) =
      (List.range M).map fun i : ℕ => (w (i + 1) - w i) • exShear := by
    refine List.map_congr_left fun i _ => ?_
    show ∑ q : Fin 2, (1 / (2 * (M : ℝ))) • (exColLayerShape M q).strain (w ∘ (exColLayer M i).cell.dofs) = _
    simp only [exColLayer_strain, Fin.sum_univ_two, smul_smul, ← add_smul]
    congr 1
    field_simp
    ring
  rw [e]
  have tel : ∀ k : ℕ, ((List.range k).map fun i : ℕ => (w (i + 1) - w i) • exShear).sum =
      (w k - w 0) • exShear := by
    intro k
    induction k with
    | zero => simp
    | succ k ih =>
      rw [List.range_succ, List.map_append, List.sum_append, ih]
      simp only [List.map_cons, List.map_nil, List.sum_cons, List.sum_nil, add_zero]
      module
  rw [tel, h0, hT, sub_zero, zero_smul]

theorem exField_uniform (M : ℕ) (hM : 0 < M) (k : ℕ) :
    SpecUniform (exColumn M) (exField M k) (exGamma k • exShear) (exColSlip k) := by
  intro r hr q
  obtain ⟨i, hi, rfl⟩ := exColumn_mem hr
  have hM' : (M : ℝ) ≠ 0 := by positivity
  refine ⟨?_, fun a => ?_⟩
  · refine (exColLayer_strain M i q _).trans ?_
    congr 1
    unfold exField
    rw [if_pos (by omega), if_pos (by omega)]
    push_cast
    field_simp
    ring
  · refine (exColLayer_slip M i q _ a).trans ?_
    have e1 : exField M k (M + 1 + i) = 3 / 4 * k := if_neg (by omega)
    have e2 : exField M k (M + 2 + i) = 3 / 4 * k := if_neg (by omega)
    rw [e1, e2, ite_self]
    rfl

theorem exField_flat (M k : ℕ) : SpecFlat (exColumn M) (exField M k) := by
  intro r hr q a
  obtain ⟨i, hi, rfl⟩ := exColumn_mem hr
  refine (exColLayer_slipGrad M i q _ a).trans ?_
  unfold exField
  rw [if_neg (by omega), if_neg (by omega), sub_self, mul_zero]
  ext j
  fin_cases j <;> rfl

/-- The shear stress of the point is the elastic part of the shear. -/
theorem exCol_stress (γ s : ℝ) :
    SpecPointStress exColPrm (γ • exShear) (fun _ => s) = (2 * (γ - s)) • exShear := by
  have hP : (exColPrm.sys 0).symSchmid = exShear := by
    ext i j
    fin_cases i <;> fin_cases j <;> simp [exColPrm, System.symSchmid, System.schmid, symmetrize, outer, exShear]
  have ht : exShearᵀ = exShear := by ext a b; fin_cases a <;> fin_cases b <;> rfl
  unfold SpecPointStress
  rw [Fin.sum_univ_one, hP]
  have e : exColPrm.macroStrain + (γ • exShear - exColPrm.dn0 • (s • exShear)) = (γ - s) • exShear := by
    simp only [exColPrm]
    module
  rw [e, C31_isotropic _ (by norm_num [exColPrm]) _ _ (by simp [SpecOrthogonal, exColPrm])
    (by rw [Matrix.transpose_smul, ht])]
  have h0 : ((γ - s) • exShear).trace = 0 := by simp [Matrix.trace, exShear]
  rw [h0]
  simp only [exColPrm]
  module

/-- The point yields with three fifths of its resistance in every step. -/
theorem exCol_point (T : ℕ) : SpecPointRun exColPrm (Bulk.init ⟨1, 1, 1, 1, true⟩ 1) (fun _ => 1)
    (fun k => exGamma k • exShear) exColSlip T := by
  intro k _ a
  have hh : ∀ k, ∃ b : Bulk 1, SpecPointHist (Bulk.init ⟨1, 1, 1, 1, true⟩ 1) exColSlip k = b ∧
      b.prm.perfect = true ∧ ∀ a, b.res a = 1 ∧ b.tmp a = 1 := by
    intro k
    induction k with
    | zero => exact ⟨_, rfl, rfl, fun a => ⟨by norm_num [SpecPointHist, Bulk.init], by norm_num [SpecPointHist, Bulk.init]⟩⟩
    | succ k ih =>
      obtain ⟨b, hb, hp, hr⟩ := ih
      refine ⟨_, rfl, ?_, ?_⟩
      · show ((SpecPointHist _ exColSlip k).update _ _).prm.perfect = true
        rw [update_prm, hb, hp]
      · intro a
        show ((SpecPointHist _ exColSlip k).update _ _).res a = 1 ∧ ((SpecPointHist _ exColSlip k).update _ _).res a = 1
        rw [hb]
        unfold Bulk.update
        rw [if_pos hp]
        exact ⟨(hr a).2, (hr a).2⟩
  obtain ⟨b, hb, hp, hr⟩ := hh k
  have hres : (b.update (exColSlip (k + 1)) (exColSlip k)).res a = 1 := by
    unfold Bulk.update
    rw [if_pos hp]
    exact (hr a).2
  rw [hb]
  have e1 : exColSlip (k + 1) = fun _ => 3 / 4 * ((k + 1 : ℕ) : ℝ) := rfl
  rw [e1, exCol_stress]
  have hP : (exColPrm.sys a).symSchmid = exShear := by
    ext i j
    fin_cases i <;> fin_cases j <;> simp [exColPrm, System.symSchmid, System.schmid, symmetrize, outer, exShear]
  unfold resolvedShear Law.evalMicrostress Law.microstress
  rw [hP, ← e1, hres]
  have r1 : √((3 / 4 : ℝ) * (3 / 4) + 1 * 1) = 5 / 4 := by
    rw [show (3 / 4 : ℝ) * (3 / 4) + 1 * 1 = (5 / 4) ^ 2 by norm_num]
    exact Real.sqrt_sq (by norm_num)
  have e2 : (exColSlip (k + 1) a - exColSlip k a) / 1 = 3 / 4 := by
    simp only [exColSlip]; push_cast; ring
  simp only [exColPrm, reg, e2, r1, ddot, Fin.sum_univ_two, exShear, exGamma]
  norm_num

theorem exColumn_numbered (M : ℕ) : ∀ r ∈ exColumn M, ∀ i, r.cell.dofs i < 2 * M + 2 := by
  intro r hr i
  obtain ⟨j, hj, rfl⟩ := exColumn_mem hr
  have : ∀ i : Fin 4, (![j, j + 1, M + 1 + j, M + 2 + j] : Fin 4 → ℕ) i < 2 * M + 2 := by
    intro i
    fin_cases i
    · show j < _; omega
    · show j + 1 < _; omega
    · show M + 1 + j < _; omega
    · show M + 2 + j < _; omega
  exact this i

/-- The strains and slips of the column determine its degrees of freedom. -/
theorem exColumn_det (M : ℕ) (hM : 0 < M) (w : ℕ → ℝ) (hw : Sol.Satisfies (exClamped M) w)
    (h : SpecUniform (exColumn M) w 0 0) : ∀ i < 2 * M + 2, w i = 0 := by
  have h0 : w 0 = 0 := by
    have := hw 0 ⟨[], 0⟩ (by simp [exClamped])
    simpa [Sol.Line.eval] using this
  have hM' : (M : ℝ) ≠ 0 := by positivity
  have hl : ∀ j < M, exColLayer M j ∈ exColumn M := fun j hj => List.mem_map.2 ⟨j, List.mem_range.2 hj, rfl⟩
  have hd : ∀ j ≤ M, w j = 0 := by
    intro j
    induction j with
    | zero => exact fun _ => h0
    | succ j ih =>
      intro hj
      have e := (exColLayer_strain M j 0 w).symm.trans (h _ (hl j (by omega)) (0 : Fin 2)).1
      have e2 := congrFun (congrFun e 0) 1
      simp only [exShear, Matrix.smul_apply, smul_eq_mul, Matrix.zero_apply, Matrix.of_apply, Matrix.cons_val', Matrix.cons_val_zero, Matrix.cons_val_one, ih (by omega), sub_zero] at e2
      have e3 : (M : ℝ) * w (j + 1) * (1 / 2) = 0 := by simpa using e2
      have : (M : ℝ) * w (j + 1) = 0 := by linarith
      rcases mul_eq_zero.1 this with h | h
      · exact absurd h hM'
      · exact h
  intro i hi
  rcases Nat.lt_or_ge M i with h1 | h1
  · rcases Nat.eq_or_lt_of_le h1 with h2 | h2
    · have e := (exColLayer_slip M 0 0 w 0).symm.trans ((h _ (hl 0 hM) (0 : Fin 2)).2 0)
      rw [if_pos rfl] at e
      rw [← h2]
      exact e
    · obtain ⟨j, rfl⟩ : ∃ j, i = M + 2 + j := ⟨i - (M + 2), by omega⟩
      have e := (exColLayer_slip M j 1 w 0).symm.trans ((h _ (hl j (by omega)) (1 : Fin 2)).2 0)
      rw [if_neg (by decide)] at e
      exact e
  · exact hd i h1

/-- The uniform fields solve the equations of columns of any number of layers, in any number of steps. -/
example (M T : ℕ) (hM : 0 < M) : ∀ k < T, SpecSolution (SpecMesh (exColumn M) (fun _ => 1) (exField M) k)
    (exClamped M) (2 * M + 2) (exField M (k + 1)) :=
  C113_solves (exColumn M) exColPrm _ (exColumn_homogeneous M) (exColumn_cell M hM) exColPrm_material
    (exClamped M) (2 * M + 2) (exClamped_ok M) (exColumn_numbered M) (exColumn_noMean M hM) (fun _ => 1) T
    (fun _ _ => one_pos) _ _ (exCol_point T) (exField M) (fun k _ => exField_uniform M hM k)
    fun k _ => exField_flat M k

/-- They are the only ones; and such runs exist, by the example above. -/
example (M T : ℕ) (hM : 0 < M) (u : ℕ → ℕ → ℝ) (h0 : u 0 = exField M 0)
    (hsol : ∀ k < T, SpecSolution (SpecMesh (exColumn M) (fun _ => 1) u k) (exClamped M) (2 * M + 2) (u (k + 1)))
    (hbc : ∀ k < T, u (k + 1) 0 = 0 ∧ u (k + 1) M = exGamma (k + 1)) :
    ∀ k < T, ∀ i < 2 * M + 2, u (k + 1) i = exField M (k + 1) i := by
  have hM' : (M : ℝ) ≠ 0 := by positivity
  refine C113_state (exColumn M) exColPrm _ (exColumn_homogeneous M) (exColumn_cell M hM) exColPrm_material
    (Or.inl rfl) rfl (exClamped M) (2 * M + 2) (exClamped_ok M) (exColumn_numbered M) (exColumn_noMean M hM)
    (fun _ => 1) T (fun _ _ => one_pos) (fun k _ a => ?_) (exColumn_det M hM) _ _ (exCol_point T) (exField M)
    (fun k _ => exField_uniform M hM k) (fun k _ => exField_flat M k) u ?_ hsol ?_
  · norm_num [SpecLatent, exColPrm, Bulk.init]
  · rw [h0]
    exact exField_uniform M hM 0
  · intro k hk i l hl
    have h1 := (hbc k hk).1
    have h2 := (hbc k hk).2
    unfold exClamped at hl
    split_ifs at hl with hi
    rw [← Option.some.inj hl]
    show u (k + 1) i - exField M (k + 1) i = _
    rcases hi with rfl | rfl
    · rw [h1]
      simp [exField, Sol.Line.eval]
    · rw [h2]
      simp [exField, Sol.Line.eval, hM']

/-- The homogenised shear stress of the column after `k + 1` steps is three fifths of the resistance. -/
example (M k : ℕ) (hM : 0 < M) :
    ∃ h, Post.Homog.compute ⟨exColPrm.elastic, 1, 0⟩ [(exColumn M).map fun r => r.reported (exField M (k + 1))] =
      some h ∧ h.stress 0 1 = 3 / 5 := by
  have hM' : (M : ℝ) ≠ 0 := by positivity
  refine ⟨_, C113_homogenised (exColumn M) exColPrm _ (exColumn_homogeneous M) (exField M (k + 1)) _ _
    (exField_uniform M hM (k + 1)) [exColumn M] (by simp) ?_, ?_⟩
  · have e : ((exColumn M).map fun r => ∑ q, (r.cell.pts q).shape.jxw) = (List.range M).map fun _ : ℕ => 1 / (M : ℝ) := by
      unfold exColumn
      rw [List.map_map]
      refine List.map_congr_left fun i _ => ?_
      show ∑ q : Fin 2, (1 / (2 * (M : ℝ))) = _
      rw [Fin.sum_univ_two]
      field_simp
      ring
    rw [e, List.map_const', List.sum_replicate, List.length_range, nsmul_eq_mul]
    field_simp
    exact one_ne_zero
  · show SpecPointStress exColPrm (exGamma (k + 1) • exShear) (exColSlip (k + 1)) 0 1 = _
    have : exColSlip (k + 1) = fun _ => 3 / 4 * ((k + 1 : ℕ) : ℝ) := rfl
    rw [this, exCol_stress]
    simp [exGamma, exShear]
    ring

end Verif.Asm
