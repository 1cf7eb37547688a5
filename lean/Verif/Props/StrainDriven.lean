import Verif.Props.LeastEnergy
import Verif.Props.EnergyRun
import Verif.Props.RunDetermined

/-! # Runs driven by a macroscopic strain: the reported work covers stored energy and dissipation : C135 -/

namespace Verif.Asm
open Matrix Finset Verif.Cry Verif.Hist Verif.Micro Verif.Lin

variable {d n N : ℕ}

/-! ## Specification -/

/-- Work of the stresses in the state `u` on the change `D` of the macroscopic strain, in the units of the slip equations. -/
noncomputable def SpecMacroWork (cells : List (MeshCell d n N)) (D : Mat d) (u : ℕ → ℝ) : ℝ :=
  SpecIntegral cells fun c q => c.prm.dn3 / c.prm.dn0 * ddot D (c.prm.stressAt (c.pts q).shape (u ∘ c.dofs))

/-- The mesh in step `k` of a run in which step `k` ends at the macroscopic strain `E (k + 1)`. -/
noncomputable def SpecDriven (run : List (RunCell d n N)) (dt : ℕ → ℝ) (E : ℕ → Mat d) (u : ℕ → ℕ → ℝ) (k : ℕ) :
    List (MeshCell d n N) := (SpecMesh run dt u k).map (MeshCell.under (E (k + 1)))

/-- Energy stored in the body in the state `w` under the macroscopic strain `F`. -/
noncomputable def SpecEnergyUnder (run : List (RunCell d n N)) (F : Mat d) (w : ℕ → ℝ) : ℝ :=
  SpecStored (run.map fun r => r.cell.under F) w

/-! ## Helpers -/

theorem under_forall {cells : List (MeshCell d n N)} {E : Mat d} {P : MeshCell d n N → Prop} (h : ∀ c ∈ cells, P (c.under E)) :
    ∀ c ∈ cells.map (MeshCell.under E), P c := by
  intro c hc
  obtain ⟨b, hb, rfl⟩ := List.mem_map.1 hc
  exact h b hb

/-- The elastic energy lies above its tangent. -/
theorem energy_tangent (c : CellPrm d n) (hc : SpecMaterial c) (a b : Mat d) (h : (a - b)ᵀ = a - b) :
    1 / 2 * SpecEnergy2 c.elastic c.rot a - 1 / 2 * SpecEnergy2 c.elastic c.rot b ≤
      ddot (a - b) (c.elastic.stress c.rot a) := by
  have hsym := tetrad_major c
  have h1 : ∀ a, SpecEnergy2 c.elastic c.rot a = cc c.tetrad a a := fun a => rfl
  have h2 : ddot (a - b) (c.elastic.stress c.rot a) = cc c.tetrad (a - b) a := rfl
  have h5 := energy_nonneg' c hc (a - b) h
  rw [h1] at h5
  rw [h1, h1, h2]
  have h3 : ∀ x, cc c.tetrad x (a - b) = cc c.tetrad x a - cc c.tetrad x b := by
    intro x
    rw [sub_eq_add_neg, cc_add, ← neg_one_smul ℝ b, cc_smul]; ring
  have h4 : ∀ x, cc c.tetrad (a - b) x = cc c.tetrad a x - cc c.tetrad b x := by
    intro x
    rw [cc_symm _ hsym, h3, cc_symm _ hsym x, cc_symm _ hsym x]
  rw [h4, h3, h3, cc_symm _ hsym b a] at h5
  rw [h4, cc_symm _ hsym b a]
  linarith

/-- Stored energy at a point while the macroscopic strain changes. -/
theorem point_driven (c : CellPrm d n) (hc : SpecMaterial c) (E₀ : Mat d) (kind : Kind n N) (s : Shape d n N)
    (hs : s.Primitive kind) (hE : (c.macroStrain - E₀)ᵀ = c.macroStrain - E₀) (u v : Fin N → ℝ) :
    SpecStoredAt c s u - SpecStoredAt { c with macroStrain := E₀ } s v ≤
      c.dn3 / c.dn0 * (ddot (c.macroStrain - E₀) (c.stressAt s u) + ddot (SpecElasticStrain c s (u - v)) (c.stressAt s u)) +
      c.dn2 * ∑ a, s.slipGrad (u - v) a ⬝ᵥ xi c.vec (c.sys a) (s.slipGrad u a) := by
  have hd : c.elasticStrainAt s u - ({ c with macroStrain := E₀ } : CellPrm d n).elasticStrainAt s v =
      (c.macroStrain - E₀) + SpecElasticStrain c s (u - v) := by
    rw [← elasticStrainAt_sub]
    unfold CellPrm.elasticStrainAt
    abel
  have hsym : (c.elasticStrainAt s u - ({ c with macroStrain := E₀ } : CellPrm d n).elasticStrainAt s v)ᵀ =
      c.elasticStrainAt s u - ({ c with macroStrain := E₀ } : CellPrm d n).elasticStrainAt s v := by
    rw [hd, Matrix.transpose_add, hE, elasticStrain_symm c s kind hs]
  have e1 := energy_tangent c hc _ _ hsym
  rw [hd, ddot_add_left] at e1
  unfold SpecStoredAt
  have h3 := hc.dn3
  have h0 := hc.dn0
  have e3 : ∑ a, SpecDefectEnergy c.vec.factor c.vec.index (c.sys a) (s.slipGrad u a) -
      ∑ a, SpecDefectEnergy c.vec.factor c.vec.index (c.sys a) (s.slipGrad v a) ≤
      ∑ a, s.slipGrad (u - v) a ⬝ᵥ xi c.vec (c.sys a) (s.slipGrad u a) := by
    rw [← Finset.sum_sub_distrib]
    refine sum_le_sum fun a _ => ?_
    have := defect_tangent c.vec hc.vec hc.index (c.sys a) (s.slipGrad u a) (s.slipGrad v a)
    rw [slipGrad_sub, dot_sub']
    rw [dot_sub'] at this
    linarith
  have hq : 0 < c.dn3 / c.dn0 := div_pos h3 h0
  have k1 := mul_le_mul_of_nonneg_left e1 hq.le
  have k2 := mul_le_mul_of_nonneg_left e3 hc.dn2
  show c.dn3 / c.dn0 * (1 / 2 * SpecEnergy2 c.elastic c.rot (c.elasticStrainAt s u)) + _ -
    (c.dn3 / c.dn0 * (1 / 2 * SpecEnergy2 c.elastic c.rot
      (({ c with macroStrain := E₀ } : CellPrm d n).elasticStrainAt s v)) + _) ≤
    c.dn3 / c.dn0 * (_ + ddot _ (c.elastic.stress c.rot (c.elasticStrainAt s u))) + _
  have : c.stressAt s u = c.elastic.stress c.rot (c.elasticStrainAt s u) := rfl
  rw [this]
  linarith

/-! ## Theorems -/

/-- C135, one step from the state `v` under the macroscopic strain `E₀` to the state `u` under the strains of the cells. -/
theorem C135_step (cells : List (MeshCell d n N)) (hcell : ∀ c ∈ cells, SpecCell c) (hst : ∀ c ∈ cells, SpecMaterial c.prm)
    (E E₀ : Mat d) (hE : ∀ c ∈ cells, c.prm.macroStrain = E) (hs : Eᵀ = E) (hs₀ : E₀ᵀ = E₀) (u v : ℕ → ℝ)
    (hold : ∀ c ∈ cells, ∀ q a, (c.pts q).old a = (c.pts q).shape.slip (v ∘ c.dofs) a)
    (R : MeshCell d n N → Fin N → ℝ) (hR : SpecAssembled cells u R) :
    SpecStored cells u + SpecDissipated cells u ≤ SpecStored (cells.map (MeshCell.under E₀)) v +
      SpecSupplyWork cells (u - v) + SpecNodalWork cells R (u - v) + SpecMacroWork cells (E - E₀) u ∧
    0 ≤ SpecDissipated cells u := by
  refine ⟨?_, (C83_balance_partial cells hcell hst u v hold R hR).2⟩
  unfold SpecStored SpecDissipated SpecSupplyWork SpecNodalWork SpecMacroWork SpecIntegral
  rw [List.map_map, ← List.sum_map_add, ← List.sum_map_add, ← List.sum_map_add, ← List.sum_map_add]
  refine List.sum_le_sum fun c hc => ?_
  have hm := hst c hc
  have hC := hcell c hc
  have hp := cell_power c.prm hm.index hm.dn0.ne' c.kind c.pts hC.primitive (u ∘ c.dofs) (R c) (hR c hc) ((u - v) ∘ c.dofs)
  simp only [Function.comp_apply] at hp
  rw [hp, ← Finset.sum_add_distrib]
  show _ ≤ (∑ q, (c.pts q).shape.jxw * SpecStoredAt { c.prm with macroStrain := E₀ } (c.pts q).shape (v ∘ c.dofs)) + _ + _ + _
  rw [← Finset.sum_add_distrib, ← Finset.sum_add_distrib, ← Finset.sum_add_distrib]
  refine sum_le_sum fun q _ => ?_
  have hb := point_driven c.prm hm E₀ c.kind (c.pts q).shape (hC.primitive q)
    (by rw [hE c hc, Matrix.transpose_sub, hs, hs₀]) (u ∘ c.dofs) (v ∘ c.dofs)
  rw [hE c hc] at hb
  have hd : (u - v) ∘ c.dofs = u ∘ c.dofs - v ∘ c.dofs := rfl
  rw [hd]
  have e : ∑ a, (c.pts q).shape.slip (u ∘ c.dofs - v ∘ c.dofs) a *
      c.prm.law.evalMicrostress (c.pts q).hist ((c.pts q).shape.slip (u ∘ c.dofs)) (c.pts q).old
        c.prm.dt a = ∑ a, c.prm.law.evalMicrostress (c.pts q).hist
          ((c.pts q).shape.slip (u ∘ c.dofs)) (c.pts q).old
        c.prm.dt a * ((c.pts q).shape.slip (u ∘ c.dofs) a - (c.pts q).old a) := by
    refine sum_congr rfl fun a _ => ?_
    rw [slip_sub, hold c hc q a]; ring
  rw [e]
  have hw := hC.weight q
  nlinarith [mul_le_mul_of_nonneg_left hb hw.le]

theorem driven_ok {run : List (RunCell d n N)} (hcell : ∀ r ∈ run, SpecCell r.cell)
    (hmat : ∀ r ∈ run, SpecMaterial r.cell.prm) (dt : ℕ → ℝ) (E : ℕ → Mat d) (u : ℕ → ℕ → ℝ) (k : ℕ) (hdt : 0 < dt k) :
    (∀ c ∈ SpecDriven run dt E u k, SpecCell c) ∧ (∀ c ∈ SpecDriven run dt E u k, SpecMaterial c.prm) ∧
    (∀ c ∈ SpecDriven run dt E u k, c.prm.macroStrain = E (k + 1)) ∧
    ∀ c ∈ SpecDriven run dt E u k, ∀ q a, (c.pts q).old a = (c.pts q).shape.slip (u k ∘ c.dofs) a := by
  have key : ∀ {P : MeshCell d n N → Prop}, (∀ r ∈ run, P ((r.at dt u k).under (E (k + 1)))) →
      ∀ c ∈ SpecDriven run dt E u k, P c := fun {P} h => under_forall fun c hc => by
    obtain ⟨r, hr, rfl⟩ := List.mem_map.1 hc
    exact h r hr
  refine ⟨key fun r hr => ?_, key (P := fun c => SpecMaterial c.prm) fun r hr =>
    { at_material r (hmat r hr) dt u k hdt with }, key (P := fun c => c.prm.macroStrain = E (k + 1)) fun _ _ => rfl,
    key (P := fun c => ∀ q a, (c.pts q).old a = (c.pts q).shape.slip (u k ∘ c.dofs) a) fun _ _ _ _ => rfl⟩
  have h := at_ok r (hcell r hr) (hmat r hr) dt u k
  exact ⟨h.primitive, h.weight, h.hist, h.res⟩

theorem driven_stored (run : List (RunCell d n N)) (dt : ℕ → ℝ) (E : ℕ → Mat d) (u : ℕ → ℕ → ℝ) (k : ℕ) (w : ℕ → ℝ) :
    SpecStored (SpecDriven run dt E u k) w = SpecEnergyUnder run (E (k + 1)) w ∧
    ∀ F, SpecStored ((SpecDriven run dt E u k).map (MeshCell.under F)) w = SpecEnergyUnder run F w := by
  constructor
  · unfold SpecDriven SpecMesh SpecEnergyUnder SpecStored
    rw [List.map_map, List.map_map, List.map_map]
    rfl
  · intro F
    unfold SpecDriven SpecMesh SpecEnergyUnder SpecStored
    rw [List.map_map, List.map_map, List.map_map, List.map_map]
    rfl

/-- C135, a run: whatever the programme of macroscopic strains, step sizes, supply and states, the stored energy and
everything dissipated do not exceed the energy at the start and the work of the macroscopic strain, the supply and the
external nodal forces. -/
theorem C135_run (run : List (RunCell d n N)) (hcell : ∀ r ∈ run, SpecCell r.cell)
    (hmat : ∀ r ∈ run, SpecMaterial r.cell.prm) (dt : ℕ → ℝ) (E : ℕ → Mat d) (hE : ∀ k, (E k)ᵀ = E k) (u : ℕ → ℕ → ℝ)
    (R : ℕ → MeshCell d n N → Fin N → ℝ) (T : ℕ) (hdt : ∀ k < T, 0 < dt k)
    (hR : ∀ k < T, SpecAssembled (SpecDriven run dt E u k) (u (k + 1)) (R k)) :
    SpecEnergyUnder run (E T) (u T) + ∑ k ∈ range T, SpecDissipated (SpecDriven run dt E u k) (u (k + 1)) ≤
      SpecEnergyUnder run (E 0) (u 0) + ∑ k ∈ range T, (SpecSupplyWork (SpecDriven run dt E u k) (u (k + 1) - u k) +
        SpecNodalWork (SpecDriven run dt E u k) (R k) (u (k + 1) - u k) +
        SpecMacroWork (SpecDriven run dt E u k) (E (k + 1) - E k) (u (k + 1))) ∧
    ∀ k < T, 0 ≤ SpecDissipated (SpecDriven run dt E u k) (u (k + 1)) := by
  have step : ∀ k < T, _ := fun k hk => by
    obtain ⟨a, b, c, e⟩ := driven_ok hcell hmat dt E u k (hdt k hk)
    exact C135_step (SpecDriven run dt E u k) a b (E (k + 1)) (E k) c (hE _) (hE _) (u (k + 1)) (u k) e (R k) (hR k hk)
  refine ⟨?_, fun k hk => (step k hk).2⟩
  clear hdt hR
  induction T with
  | zero => simp
  | succ T ih =>
    have h1 := ih fun k hk => step k (by omega)
    have h2 := (step T (by omega)).1
    rw [(driven_stored run dt E u T _).1, (driven_stored run dt E u T _).2] at h2
    rw [sum_range_succ, sum_range_succ]
    linarith

theorem macroWork_reported (cells : List (MeshCell d n N)) {el : Elastic} {dn0 dn3 : ℝ} {E : Mat d}
    (hs : SpecSpecimen cells el dn0 dn3 E) (hV : SpecIntegral cells (fun _ _ => 1) ≠ 0) (u : ℕ → ℝ)
    (procs : List (List (MeshCell d n N))) (hprocs : procs.flatten.Perm cells) :
    ∃ h, Post.Homog.compute ⟨el, dn0, E⟩ (procs.map fun p => p.map (MeshCell.reported u)) = some h ∧
      h.volume = SpecIntegral cells (fun _ _ => 1) ∧ ∀ D, SpecMacroWork cells D u = dn3 / dn0 * (h.volume * ddot D h.stress) := by
  obtain ⟨h, h1, h2, h3⟩ := reported_work cells hs hV u procs hprocs
  refine ⟨h, h1, h2, fun D => ?_⟩
  rw [h3, ← integral_smul]
  exact integral_congr fun c hc q => by rw [hs.dn0 c hc, hs.dn3 c hc]

/-- A specimen driven by the macroscopic strains `E 1, E 2, …`: grains of one material, without supply, whose computed
states fulfil the equations of every step, with displacement and slip increments that satisfy the homogeneous constraints;
the cells are distributed over processes in each step as in `procs`. -/
structure SpecDrivenRun (run : List (RunCell d n N)) (el : Elastic) (dn0 dn3 : ℝ) (K : Sol.Constraints ℕ) (m : ℕ)
    (dt : ℕ → ℝ) (E : ℕ → Mat d) (u : ℕ → ℕ → ℝ) (procs : ℕ → List (List (MeshCell d n N))) (T : ℕ) : Prop where
  cell : ∀ r ∈ run, SpecCell r.cell
  material : ∀ r ∈ run, SpecMaterial r.cell.prm
  elastic : ∀ r ∈ run, r.cell.prm.elastic = el
  eqn0 : ∀ r ∈ run, r.cell.prm.dn0 = dn0
  eqn3 : ∀ r ∈ run, r.cell.prm.dn3 = dn3
  supply : ∀ r ∈ run, ∀ k q, r.supply k q = 0
  pos0 : 0 < dn0
  pos3 : 0 < dn3
  symm : ∀ k, (E k)ᵀ = E k
  step : ∀ k < T, 0 < dt k
  volume : SpecIntegral (run.map RunCell.cell) (fun _ _ => 1) ≠ 0
  constraints : Homogeneous K m
  dofs : ∀ r ∈ run, ∀ i, r.cell.dofs i < m
  increments : ∀ k < T, Sol.Satisfies K (u (k + 1) - u k)
  solution : ∀ k < T, SpecSolution (SpecDriven run dt E u k) K m (u (k + 1))
  procs : ∀ k < T, (procs k).flatten.Perm (SpecDriven run dt E u k)

/-- C135, what is reported: the energy stored and dissipated in the specimen does not exceed the energy at the start and
the volume times the sum over the steps of the work of the reported macroscopic stress on the change of the macroscopic
strain (in the units of the slip equations). -/
theorem C135_reported (run : List (RunCell d n N)) (el : Elastic) (dn0 dn3 : ℝ) (K : Sol.Constraints ℕ) (m : ℕ)
    (dt : ℕ → ℝ) (E : ℕ → Mat d) (u : ℕ → ℕ → ℝ) (procs : ℕ → List (List (MeshCell d n N))) (T : ℕ)
    (h : SpecDrivenRun run el dn0 dn3 K m dt E u procs T) :
    ∃ H : ℕ → Post.Integrals d, (∀ k < T, Post.Homog.compute ⟨el, dn0, E (k + 1)⟩
        ((procs k).map fun p => p.map (MeshCell.reported (u (k + 1)))) = some (H k)) ∧
      SpecEnergyUnder run (E T) (u T) + ∑ k ∈ range T, SpecDissipated (SpecDriven run dt E u k) (u (k + 1)) ≤
        SpecEnergyUnder run (E 0) (u 0) + dn3 / dn0 * (SpecIntegral (run.map RunCell.cell) (fun _ _ => 1) *
          ∑ k ∈ range T, ddot (E (k + 1) - E k) (H k).stress) ∧
      ∀ k < T, 0 ≤ SpecDissipated (SpecDriven run dt E u k) (u (k + 1)) := by
  have key : ∀ {k} {P : MeshCell d n N → Prop}, (∀ r ∈ run, P ((r.at dt u k).under (E (k + 1)))) →
      ∀ c ∈ SpecDriven run dt E u k, P c := fun {k P} h => under_forall fun c hc => by
    obtain ⟨r, hr, rfl⟩ := List.mem_map.1 hc
    exact h r hr
  have hsp : ∀ k, SpecSpecimen (SpecDriven run dt E u k) el dn0 dn3 (E (k + 1)) := fun k =>
    ⟨key (P := fun c => c.prm.elastic = el) h.elastic, key (P := fun c => c.prm.dn0 = dn0) h.eqn0,
      key (P := fun c => c.prm.dn3 = dn3) h.eqn3, key (P := fun c => c.prm.macroStrain = E (k + 1)) fun _ _ => rfl,
      key (P := fun c => ∀ q, (c.pts q).supply = 0) fun r hr q => h.supply r hr k q⟩
  have hvol : ∀ k, SpecIntegral (SpecDriven run dt E u k) (fun _ _ => 1) =
      SpecIntegral (run.map RunCell.cell) (fun _ _ => 1) := by
    intro k
    unfold SpecIntegral SpecDriven SpecMesh
    rw [List.map_map, List.map_map, List.map_map]
    rfl
  have : Nonempty (Post.Integrals d) := ⟨.zero⟩
  choose! H hH using fun k (hk : k < T) => macroWork_reported (SpecDriven run dt E u k) (hsp k)
    (by rw [hvol]; exact h.volume) (u (k + 1)) (procs k) (h.procs k hk)
  choose! R hR using h.solution
  have hrun := C135_run run h.cell h.material dt E h.symm u R T h.step fun k hk => (hR k hk).1
  refine ⟨H, fun k hk => (hH k hk).1, ?_, hrun.2⟩
  refine hrun.1.trans (le_of_eq ?_)
  congr 1
  rw [Finset.mul_sum, Finset.mul_sum]
  refine sum_congr rfl fun k hk => ?_
  have hk := mem_range.1 hk
  rw [supplyWork_zero _ _ (hsp k).supply, solution_work (SpecDriven run dt E u k) h.constraints
    (key (P := fun c => ∀ i, c.dofs i < m) h.dofs) (h.increments k hk) (hR k hk).2, (hH k hk).2.2, (hH k hk).2.1, hvol]
  ring

/-- C135, passivity: from a state without stored energy, no programme of macroscopic strains, closed or not, gains work. -/
theorem C135_passive (run : List (RunCell d n N)) (el : Elastic) (dn0 dn3 : ℝ) (K : Sol.Constraints ℕ) (m : ℕ)
    (dt : ℕ → ℝ) (E : ℕ → Mat d) (u : ℕ → ℕ → ℝ) (procs : ℕ → List (List (MeshCell d n N))) (T : ℕ)
    (h : SpecDrivenRun run el dn0 dn3 K m dt E u procs T) (h0 : SpecEnergyUnder run (E 0) (u 0) = 0) :
    ∃ H : ℕ → Post.Integrals d, (∀ k < T, Post.Homog.compute ⟨el, dn0, E (k + 1)⟩
        ((procs k).map fun p => p.map (MeshCell.reported (u (k + 1)))) = some (H k)) ∧
      0 ≤ ∑ k ∈ range T, ddot (E (k + 1) - E k) (H k).stress := by
  obtain ⟨H, h1, h2, h3⟩ := C135_reported run el dn0 dn3 K m dt E u procs T h
  refine ⟨H, h1, ?_⟩
  have hr : ∀ c ∈ run.map fun r => r.cell.under (E T), ∃ r ∈ run, c = r.cell.under (E T) := fun c hc => by
    obtain ⟨r, hr, rfl⟩ := List.mem_map.1 hc
    exact ⟨r, hr, rfl⟩
  have e1 : 0 ≤ SpecEnergyUnder run (E T) (u T) := by
    refine C83_stored_nonneg _ (fun c hc => ?_) (fun c hc => ?_) (fun c hc => ?_) _ <;> obtain ⟨r, hr, rfl⟩ := hr c hc
    · exact ⟨(h.cell r hr).primitive, (h.cell r hr).weight, (h.cell r hr).hist, (h.cell r hr).res⟩
    · exact { h.material r hr with }
    · exact h.symm T
  have e2 : 0 ≤ ∑ k ∈ range T, SpecDissipated (SpecDriven run dt E u k) (u (k + 1)) :=
    sum_nonneg fun k hk => h3 k (mem_range.1 hk)
  have hV : 0 < SpecIntegral (run.map RunCell.cell) (fun _ _ => 1) := by
    refine lt_of_le_of_ne (integral_nonneg (fun c hc => ?_) fun _ _ _ => zero_le_one) h.volume.symm
    obtain ⟨r, hr, rfl⟩ := List.mem_map.1 hc
    exact h.cell r hr
  have hq := div_pos h.pos3 h.pos0
  have : 0 ≤ dn3 / dn0 * (SpecIntegral (run.map RunCell.cell) (fun _ _ => 1) *
      ∑ k ∈ range T, ddot (E (k + 1) - E k) (H k).stress) := by linarith
  exact nonneg_of_mul_nonneg_right (nonneg_of_mul_nonneg_right this hq) hV

/-! ## Existence and a concrete case -/

theorem driven_elastic (run : List (RunCell d n N)) (dt : ℕ → ℝ) (E : ℕ → Mat d) (u : ℕ → ℕ → ℝ) (k : ℕ) (w v : ℕ → ℝ) :
    SpecElasticError (SpecDriven run dt E u k) w v = SpecElasticError (run.map RunCell.cell) w v ∧
    SpecDefectError (SpecDriven run dt E u k) w v = SpecDefectError (run.map RunCell.cell) w v := by
  unfold SpecElasticError SpecDefectError SpecDriven SpecMesh
  constructor
  · rw [List.map_map, List.map_map, List.map_map]
    congr 1
    refine List.map_congr_left fun r _ => ?_
    simp only [Function.comp_apply, elasticStrainAt_sub]
    rfl
  · rw [List.map_map, List.map_map, List.map_map]
    rfl

/-- C135: every programme of macroscopic strains has a run. -/
theorem C135_exists (run : List (RunCell d n N)) (dt : ℕ → ℝ) (K : Sol.Constraints ℕ) (m : ℕ) (E : ℕ → Mat d)
    (hcell : ∀ r ∈ run, SpecCell r.cell) (hmat : ∀ r ∈ run, SpecMaterial r.cell.prm)
    (hrate : ∀ r ∈ run, r.cell.prm.law.rateIndependent = false) (hdt : ∀ k, 0 < dt k) (hK : Homogeneous K m)
    (hm : ∀ r ∈ run, ∀ i, r.cell.dofs i < m) (hdet : SpecDetermined (run.map RunCell.cell) K m) (u₀ : ℕ → ℝ) :
    ∃ u : ℕ → ℕ → ℝ, u 0 = u₀ ∧ ∀ k, Sol.Satisfies K (u (k + 1) - u k) ∧
      SpecSolution (SpecDriven run dt E u k) K m (u (k + 1)) := by
  have key : ∀ {u : ℕ → ℕ → ℝ} {k} {P : MeshCell d n N → Prop}, (∀ r ∈ run, P ((r.at dt u k).under (E (k + 1)))) →
      ∀ c ∈ SpecDriven run dt E u k, P c := fun {u k P} h => under_forall fun c hc => by
    obtain ⟨r, hr, rfl⟩ := List.mem_map.1 hc
    exact h r hr
  have hex : ∀ (u : ℕ → ℕ → ℝ) (k : ℕ), ∃ x, Sol.Satisfies K (x - u k) ∧ SpecSolution (SpecDriven run dt E u k) K m x :=
    fun u k => by
    obtain ⟨a, b, -, -⟩ := driven_ok hcell hmat dt E u k (hdt k)
    refine C129_body _ a b (key (P := fun c => c.prm.law.rateIndependent = false) hrate) K m hK
      (key (P := fun c => ∀ i, c.dofs i < m) hm) (fun w hw he => hdet w hw ?_) (u k)
    rwa [(driven_elastic run dt E u k w 0).1, (driven_elastic run dt E u k w 0).2] at he
  choose S h1 h2 using hex
  let P : ℕ → ℕ → ℕ → ℝ := fun k => Nat.rec (fun _ => u₀) (fun k p => Function.update p (k + 1) (S p k)) k
  have hP : ∀ k, P (k + 1) = Function.update (P k) (k + 1) (S (P k) k) := fun _ => rfl
  have hle : ∀ k i j, i ≤ j → P (j + k) i = P j i := by
    intro k i j hij
    induction k with
    | zero => rfl
    | succ k ih => rw [← add_assoc, hP, Function.update_of_ne (by omega), ih]
  refine ⟨fun k => P k k, rfl, fun k => ?_⟩
  have e : SpecDriven run dt E (fun k => P k k) k = SpecDriven run dt E (P k) k := by
    unfold SpecDriven
    congr 1
    refine mesh_congr run dt hm k fun j hj g _ => ?_
    have := hle (k - j) j j le_rfl
    rw [Nat.add_sub_cancel' hj] at this
    rw [this]
  have e2 : P (k + 1) (k + 1) = S (P k) k := by rw [hP, Function.update_self]
  show Sol.Satisfies K (P (k + 1) (k + 1) - P k k) ∧ SpecSolution (SpecDriven run dt E (fun k => P k k) k) K m (P (k + 1) (k + 1))
  rw [e, e2]
  exact ⟨h1 _ _, h2 _ _⟩

/-- The two grains of C133, with slips. -/
noncomputable def exDriven : List (RunCell 2 1 2) :=
  [⟨exGrain 1 exShape, fun _ _ => 0⟩, ⟨exGrain exTurned exShapeBack, fun _ _ => 0⟩]

theorem exDriven_forall {P : RunCell 2 1 2 → Prop} (a : P ⟨exGrain 1 exShape, fun _ _ => 0⟩)
    (b : P ⟨exGrain exTurned exShapeBack, fun _ _ => 0⟩) : ∀ r ∈ exDriven, P r := by
  intro c hc
  rcases List.mem_cons.1 hc with rfl | hc
  · exact a
  · obtain rfl := List.mem_singleton.1 hc
    exact b

theorem exSpecimen_stable : SpecStableBody exSpecimen := by
  refine ⟨exSpecimen_cell, exSpecimen_material, exSpecimen_forall (P := fun c => SpecHardens c.prm.law.hard) ?_ ?_,
    exSpecimen_forall (P := fun c => ∀ q a, SpecLatent c.prm.law 1 c.prm.dt ≤ (c.pts q).hist.tmp a) ?_ ?_⟩
  · norm_num [SpecHardens, exGrain, exCell]
  · norm_num [SpecHardens, exGrain, exCell]
  · intro q a
    show _ ≤ (1 / 1 : ℝ)
    norm_num [SpecLatent, exGrain, exCell]
  · intro q a
    show _ ≤ (1 / 1 : ℝ)
    norm_num [SpecLatent, exGrain, exCell]

theorem exDriven_determined : SpecDetermined (exDriven.map RunCell.cell) (fun _ => none) 2 := by
  intro w hw he
  have he : SpecElasticError exSpecimen w 0 + SpecDefectError exSpecimen w 0 = 0 := he
  obtain ⟨e1, e2, -⟩ := errors_nonneg _ exSpecimen_stable w 0
  have a := elastic_none _ exSpecimen_stable w (by linarith) (exGrain 1 exShape) (by simp [exSpecimen]) (0 : Fin 1)
  have a' : SpecElasticStrain (exGrain 1 exShape).prm exShape (w ∘ fun i : Fin 2 => (i : ℕ)) = 0 := a
  have a00 := congrFun (congrFun a' 0) 0
  have a01 := congrFun (congrFun a' 0) 1
  simp [SpecElasticStrain, Shape.strain, Shape.slip, exShape, exGrain, exCell, Fin.sum_univ_two,
    System.symSchmid, System.schmid, symmetrize, outer] at a00 a01
  have w0 : w 0 = 0 := by linarith
  have w1 : w 1 = 0 := by linarith
  intro g hg
  interval_cases g <;> assumption

theorem exDriven_rest : SpecEnergyUnder exDriven 0 0 = 0 := by
  unfold SpecEnergyUnder SpecStored
  refine List.sum_eq_zero fun x hx => ?_
  rw [List.map_map] at hx
  obtain ⟨r, hr, rfl⟩ := List.mem_map.1 hx
  refine sum_eq_zero fun q _ => ?_
  have hg : ∀ a, (r.cell.pts q).shape.slipGrad ((0 : ℕ → ℝ) ∘ r.cell.dofs) a = 0 := fun a => by
    unfold Shape.slipGrad
    exact sum_eq_zero fun i _ => by rw [Function.comp_apply, Pi.zero_apply, zero_smul]
  have hst : ({ r.cell.prm with macroStrain := 0 } : CellPrm 2 1).elasticStrainAt (r.cell.pts q).shape
      ((0 : ℕ → ℝ) ∘ r.cell.dofs) = 0 := by
    unfold CellPrm.elasticStrainAt
    rw [elasticStrain_finRange]
    simp [Shape.strain, Shape.slip]
  have hd : ∀ c ∈ exDriven.map RunCell.cell, ∀ a, SpecDefectEnergy c.prm.vec.factor c.prm.vec.index (c.prm.sys a) 0 = 0 := by
    intro c hc a
    have hc' : c ∈ exSpecimen := hc
    have hv : c.prm.vec = ⟨1, 1, 2, false⟩ := exSpecimen_forall (P := fun c => c.prm.vec = ⟨1, 1, 2, false⟩) rfl rfl c hc'
    rw [hv]
    norm_num [SpecDefectEnergy]
  show (r.cell.pts q).shape.jxw * SpecStoredAt { r.cell.prm with macroStrain := 0 } (r.cell.pts q).shape
    ((0 : ℕ → ℝ) ∘ r.cell.dofs) = 0
  unfold SpecStoredAt
  rw [hst]
  simp only [hg]
  rw [show (∑ a, SpecDefectEnergy r.cell.prm.vec.factor r.cell.prm.vec.index (r.cell.prm.sys a) 0) = 0 from
    sum_eq_zero fun a _ => hd _ (List.mem_map.2 ⟨r, hr, rfl⟩) a]
  simp [SpecEnergy2]

/-- C135 in the concrete case: any programme of strains that starts at rest, with any number of steps, has a run on two
processes, and what is reported of it is never a gain. -/
example (E : ℕ → Mat 2) (h0 : E 0 = 0) (hE : ∀ k, (E k)ᵀ = E k) (T : ℕ) : ∃ u : ℕ → ℕ → ℝ, ∃ H : ℕ → Post.Integrals 2,
    u 0 = 0 ∧ (∀ k, SpecSolution (SpecDriven exDriven (fun _ => 1) E u k) (fun _ => none) 2 (u (k + 1))) ∧
    (∀ k < T, Post.Homog.compute ⟨⟨3, 1, 2, 1⟩, 2, E (k + 1)⟩ ([SpecDriven exDriven (fun _ => 1) E u k, []].map fun p =>
      p.map (MeshCell.reported (u (k + 1)))) = some (H k)) ∧
    0 ≤ ∑ k ∈ range T, ddot (E (k + 1) - E k) (H k).stress := by
  have hc : ∀ r ∈ exDriven, SpecCell r.cell := fun r hr => exSpecimen_cell _ (List.mem_map_of_mem (f := RunCell.cell) hr)
  have hm : ∀ r ∈ exDriven, SpecMaterial r.cell.prm := fun r hr =>
    exSpecimen_material _ (List.mem_map_of_mem (f := RunCell.cell) hr)
  have hK : Homogeneous (fun _ => none) 2 := ⟨fun _ _ h => by simp at h, fun _ _ h => by simp at h, fun _ _ h => by simp at h⟩
  have hd : ∀ r ∈ exDriven, ∀ i, r.cell.dofs i < 2 := fun r hr =>
    exSpecimen_dofs _ (List.mem_map_of_mem (f := RunCell.cell) hr)
  obtain ⟨u, hu, h⟩ := C135_exists exDriven (fun _ => 1) (fun _ => none) 2 E hc hm
    (exDriven_forall (P := fun r => r.cell.prm.law.rateIndependent = false) rfl rfl) (fun _ => one_pos) hK hd
    exDriven_determined 0
  obtain ⟨H, h1, h2⟩ := C135_passive exDriven ⟨3, 1, 2, 1⟩ 2 5 (fun _ => none) 2 (fun _ => 1) E u
    (fun k => [SpecDriven exDriven (fun _ => 1) E u k, []]) T
    { cell := hc
      material := hm
      elastic := exDriven_forall (P := fun r => r.cell.prm.elastic = ⟨3, 1, 2, 1⟩) rfl rfl
      eqn0 := exDriven_forall (P := fun r => r.cell.prm.dn0 = 2) rfl rfl
      eqn3 := exDriven_forall (P := fun r => r.cell.prm.dn3 = 5) rfl rfl
      supply := exDriven_forall (P := fun r => ∀ k q, r.supply k q = 0) (fun _ _ => rfl) (fun _ _ => rfl)
      pos0 := by norm_num
      pos3 := by norm_num
      symm := hE
      step := fun _ _ => one_pos
      volume := by
        show SpecIntegral exSpecimen (fun _ _ => 1) ≠ 0
        rw [exSpecimen_volume]
        exact one_ne_zero
      constraints := hK
      dofs := hd
      increments := fun k _ => (h k).1
      solution := fun k _ => (h k).2
      procs := fun k _ => by simp } (by rw [h0, hu]; exact exDriven_rest)
  exact ⟨u, H, hu, fun k => (h k).2, h1, h2⟩

end Verif.Asm
