import Verif.Props.StrainDriven

/-! # Strain-driven runs of polycrystals whose grain boundaries open : C136 -/

namespace Verif.Asm
open Matrix Finset Verif.Cry Verif.Hist Verif.Micro Verif.Lin

variable {d e n N : ℕ}

/-! ## Specification -/

/-- The cell under the macroscopic strain `E`; its grain boundaries and loads do not see the macroscopic strain. -/
def GrainCell.under (E : Mat d) (g : GrainCell d e n N) : GrainCell d e n N := ⟨g.cell.under E, g.F, g.views, g.B, g.loads⟩

/-- The polycrystal in step `k` of a run in which step `k` ends at the macroscopic strain `E (k + 1)`. -/
noncomputable def SpecDrivenGrains {J : ℕ} (run : List (OpenGrain d n N J)) (face : Fin J → Face d e n N)
    (dmg : DamagePrm) (hap : Happens J) (dt : ℕ → ℝ) (E : ℕ → Mat d) (u : ℕ → ℕ → ℝ) (k : ℕ) : List (GrainCell d e n N) :=
  (SpecOpenGrains run face dmg hap dt u k).map (GrainCell.under (E (k + 1)))

/-- Energy stored in grains and grain boundaries at the beginning of step `k`, under the macroscopic strain `F`. -/
noncomputable def SpecOpenEnergyUnder {J : ℕ} (run : List (OpenGrain d n N J)) (face : Fin J → Face d e n N)
    (dmg : DamagePrm) (hap : Happens J) (F : Mat d) (u : ℕ → ℕ → ℝ) (k : ℕ) : ℝ :=
  SpecEnergyUnder (run.map OpenGrain.run) F (u k) + ∑ j, SpecJointEnergy (face j) (SpecRecord face dmg hap u j k) (u k)

/-! ## Helpers -/

theorem drivenGrains_cells {J : ℕ} (run : List (OpenGrain d n N J)) (face : Fin J → Face d e n N)
    (dmg : DamagePrm) (hap : Happens J) (dt : ℕ → ℝ) (E : ℕ → Mat d) (u : ℕ → ℕ → ℝ) (k : ℕ) :
    (SpecDrivenGrains run face dmg hap dt E u k).map GrainCell.cell = SpecDriven (run.map OpenGrain.run) dt E u k := by
  unfold SpecDrivenGrains SpecDriven
  rw [← open_cells run face dmg hap dt u k, List.map_map, List.map_map]
  rfl

theorem drivenGrains_forall {J : ℕ} {run : List (OpenGrain d n N J)} {face : Fin J → Face d e n N}
    {dmg : DamagePrm} {hap : Happens J} {dt : ℕ → ℝ} {E : ℕ → Mat d} {u : ℕ → ℕ → ℝ} {k : ℕ}
    {P : GrainCell d e n N → Prop} (h : ∀ r ∈ run, P ((r.at face dmg hap dt u k).under (E (k + 1)))) :
    ∀ g ∈ SpecDrivenGrains run face dmg hap dt E u k, P g := by
  intro g hg
  obtain ⟨a, ha, rfl⟩ := List.mem_map.1 hg
  obtain ⟨r, hr, rfl⟩ := List.mem_map.1 ha
  exact h r hr

theorem drivenGrains_paired {J : ℕ} {run : List (OpenGrain d n N J)} {face : Fin J → Face d e n N}
    (h : SpecSides run face) (dmg : DamagePrm) (hap : Happens J) (dt : ℕ → ℝ) (E : ℕ → Mat d) (u : ℕ → ℕ → ℝ) (k : ℕ) :
    SpecPaired (SpecDrivenGrains run face dmg hap dt E u k) (List.ofFn (SpecFaceAt face dmg hap dt u k)) := by
  have h1 := open_paired h dmg hap dt u k
  unfold SpecPaired SpecSeen SpecDrivenGrains at *
  rw [List.flatMap_map]
  exact h1

/-! ## Theorems -/

/-- C136, one step from the state `v` under the macroscopic strain `E₀` to the state `u` under the strains of the cells,
with opening grain boundaries, whose records before the step are `old`. -/
theorem C136_step {kind : Kind n N} (cells : List (GrainCell d e n N)) {J : ℕ}
    (face : Fin J → Face d e n N) (old : Fin J → Iface)
    (hp : SpecPaired cells (List.ofFn face)) (hf : ∀ j, SpecJoint kind (face j))
    (hk : ∀ g ∈ cells, g.cell.kind = kind)
    (hcell : ∀ g ∈ cells, SpecCell g.cell) (hmat : ∀ g ∈ cells, SpecMaterial g.cell.prm)
    (E E₀ : Mat d) (hE : ∀ g ∈ cells, g.cell.prm.macroStrain = E) (hs : Eᵀ = E) (hs₀ : E₀ᵀ = E₀) (u v : ℕ → ℝ)
    (hold : ∀ g ∈ cells, ∀ q a,
      (g.cell.pts q).old a = (g.cell.pts q).shape.slip (v ∘ g.cell.dofs) a)
    (hadv : ∀ j, SpecAdvanced (face j) (old j) u)
    (R : GrainCell d e n N → Fin N → ℝ) (hR : SpecGrainAssembled cells u R) :
    SpecStored (cells.map GrainCell.cell) u + ∑ j, SpecJointEnergy (face j) (face j).2.hist u +
        SpecDissipated (cells.map GrainCell.cell) u ≤
      SpecStored ((cells.map GrainCell.cell).map (MeshCell.under E₀)) v + ∑ j, SpecJointEnergy (face j) (old j) v +
        SpecSupplyWork (cells.map GrainCell.cell) (u - v) + SpecLoadWork cells (u - v) + SpecGrainWork cells R (u - v) +
        SpecMacroWork (cells.map GrainCell.cell) (E - E₀) u ∧
    0 ≤ SpecDissipated (cells.map GrainCell.cell) u := by
  have hall : ∀ {P : MeshCell d n N → Prop}, (∀ g ∈ cells, P g.cell) →
      ∀ c ∈ cells.map GrainCell.cell, P c := by
    intro P h c hc
    obtain ⟨g, hg, rfl⟩ := List.mem_map.1 hc
    exact h g hg
  obtain ⟨hseen, hrow⟩ := rows_seen hk hR
  obtain ⟨h1, h2⟩ := C135_step (cells.map GrainCell.cell) (hall hcell)
    (hall (P := fun c => SpecMaterial c.prm) hmat) E E₀ (hall (P := fun c => c.prm.macroStrain = E) hE) hs hs₀ u v
    (hall (P := fun c => ∀ q a, (c.pts q).old a = (c.pts q).shape.slip (v ∘ c.dofs) a) hold)
    (cellRhs u) (fun c hc i => by
      obtain ⟨g, hg, rfl⟩ := List.mem_map.1 hc
      exact (hrow g hg i).1)
  refine ⟨?_, h2⟩
  have h3 := open_mesh_power hp hk hR (u - v)
  rw [List.map_ofFn, List.sum_ofFn] at h3
  have h4 : ∑ j, SpecJointEnergy (face j) (face j).2.hist u ≤ ∑ j, SpecJointEnergy (face j) (old j) v +
      ∑ j, ((fun f : Face d e n N => ∑ i, (u - v) (f.1 i) * -viewForce kind f u i +
        ∑ i, (u - v) (f.flip.1 i) * -viewForce kind f.flip u i) ∘ face) j := by
    rw [← Finset.sum_add_distrib]
    refine Finset.sum_le_sum fun j _ => ?_
    have m1 := hseen (face j) (hp.mem_iff.2 (List.mem_flatMap.2
      ⟨face j, List.mem_ofFn.2 ⟨j, rfl⟩, by simp⟩))
    have m2 := hseen (face j).flip (hp.mem_iff.2 (List.mem_flatMap.2
      ⟨face j, List.mem_ofFn.2 ⟨j, rfl⟩, by simp⟩))
    have := joint_work kind (face j) (hf j) (old j) u v (hadv j) _ _ m1 m2
    simp only [Function.comp_apply]
    have hfl : ∀ i, (face j).flip.1 i = (face j).2.nbDofs i := fun _ => rfl
    simp only [hfl]
    linarith
  linarith

/-- C136, a run, from undamaged grain boundaries: whatever the programme of macroscopic strains, step sizes, supply, loads,
states and trial evaluations, what is stored in grains and grain boundaries and dissipated does not exceed the energy at
the start and the work of macroscopic strain, supply, loads and external nodal forces. -/
theorem C136_run {kind : Kind n N} {J : ℕ} (run : List (OpenGrain d n N J))
    (face : Fin J → Face d e n N) (hp : SpecSides run face) (hf : ∀ j, SpecJoint kind (face j))
    (hk : ∀ r ∈ run, r.run.cell.kind = kind) (hcell : ∀ r ∈ run, SpecCell r.run.cell)
    (hmat : ∀ r ∈ run, SpecMaterial r.run.cell.prm) (dmg : DamagePrm) (hcrit : 0 < dmg.critical)
    (hap : Happens J) (dt : ℕ → ℝ) (E : ℕ → Mat d) (hE : ∀ k, (E k)ᵀ = E k) (u : ℕ → ℕ → ℝ)
    (R : ℕ → GrainCell d e n N → Fin N → ℝ) (T : ℕ) (hdt : ∀ k < T, 0 < dt k)
    (hR : ∀ k < T, SpecGrainAssembled (SpecDrivenGrains run face dmg hap dt E u k) (u (k + 1)) (R k)) :
    SpecOpenEnergyUnder run face dmg hap (E T) u T + ∑ k ∈ range T,
        SpecDissipated (SpecDriven (run.map OpenGrain.run) dt E u k) (u (k + 1)) ≤
      SpecOpenEnergyUnder run face dmg hap (E 0) u 0 + ∑ k ∈ range T,
        (SpecSupplyWork (SpecDriven (run.map OpenGrain.run) dt E u k) (u (k + 1) - u k) +
         SpecLoadWork (SpecDrivenGrains run face dmg hap dt E u k) (u (k + 1) - u k) +
         SpecGrainWork (SpecDrivenGrains run face dmg hap dt E u k) (R k) (u (k + 1) - u k) +
         SpecMacroWork (SpecDriven (run.map OpenGrain.run) dt E u k) (E (k + 1) - E k) (u (k + 1))) ∧
    ∀ k < T, 0 ≤ SpecDissipated (SpecDriven (run.map OpenGrain.run) dt E u k) (u (k + 1)) := by
  have hc' : ∀ r ∈ run.map OpenGrain.run, SpecCell r.cell := fun r hr => by
    obtain ⟨g, hg, rfl⟩ := List.mem_map.1 hr; exact hcell g hg
  have hm' : ∀ r ∈ run.map OpenGrain.run, SpecMaterial r.cell.prm := fun r hr => by
    obtain ⟨g, hg, rfl⟩ := List.mem_map.1 hr; exact hmat g hg
  have step : ∀ k < T, _ := fun k hkT => by
    obtain ⟨a, b, c, f⟩ := driven_ok hc' hm' dt E u k (hdt k hkT)
    rw [← drivenGrains_cells run face dmg hap dt E u k] at a b c f
    exact C136_step (kind := kind) (SpecDrivenGrains run face dmg hap dt E u k)
      (SpecFaceAt face dmg hap dt u k) (fun j => SpecRecord face dmg hap u j k)
      (drivenGrains_paired hp dmg hap dt E u k) (fun j => { hf j with })
      (drivenGrains_forall fun r hr => hk r hr)
      (fun g hg => a _ (List.mem_map_of_mem hg)) (fun g hg => b _ (List.mem_map_of_mem hg)) (E (k + 1)) (E k)
      (fun g hg => c _ (List.mem_map_of_mem hg)) (hE _) (hE _) (u (k + 1)) (u k)
      (fun g hg => f _ (List.mem_map_of_mem hg))
      (fun j => run_advanced face dmg hcrit hap dt u k j) (R k) (hR k hkT)
  refine ⟨?_, fun k hkT => by have := (step k hkT).2; rwa [drivenGrains_cells] at this⟩
  clear hdt hR
  induction T with
  | zero => simp
  | succ T ih =>
    have h1 := ih fun k hk => step k (by omega)
    have h2 := (step T (by omega)).1
    rw [drivenGrains_cells, (driven_stored _ dt E u T _).1, (driven_stored _ dt E u T _).2] at h2
    have c1 : ∀ j, SpecJointEnergy (SpecFaceAt face dmg hap dt u T j)
        (SpecFaceAt face dmg hap dt u T j).2.hist (u (T + 1)) =
        SpecJointEnergy (face j) (SpecRecord face dmg hap u j (T + 1)) (u (T + 1)) := fun j =>
      jointEnergy_congr _ _ _ _ _ _ rfl rfl
    have c2 : ∀ j, SpecJointEnergy (SpecFaceAt face dmg hap dt u T j)
        (SpecRecord face dmg hap u j T) (u T) =
        SpecJointEnergy (face j) (SpecRecord face dmg hap u j T) (u T) := fun j =>
      jointEnergy_congr _ _ _ _ _ _ rfl rfl
    simp only [c1, c2] at h2
    rw [sum_range_succ, sum_range_succ]
    unfold SpecOpenEnergyUnder at h1 ⊢
    linarith

/-- A polycrystal with opening grain boundaries driven by the macroscopic strains `E 1, E 2, …`: grains of one material,
without supply, whose computed states fulfil the equations of every step, with increments that satisfy the homogeneous
constraints; the cells are distributed over processes in each step as in `procs`. -/
structure SpecDrivenPoly {J : ℕ} (kind : Kind n N) (run : List (OpenGrain d n N J)) (face : Fin J → Face d e n N)
    (dmg : DamagePrm) (hap : Happens J) (el : Elastic) (dn0 dn3 : ℝ) (K : Sol.Constraints ℕ) (m : ℕ) (dt : ℕ → ℝ)
    (E : ℕ → Mat d) (u : ℕ → ℕ → ℝ) (procs : ℕ → List (List (MeshCell d n N))) (T : ℕ) : Prop where
  sides : SpecSides run face
  joint : ∀ j, SpecJoint kind (face j)
  kinds : ∀ r ∈ run, r.run.cell.kind = kind
  cell : ∀ r ∈ run, SpecCell r.run.cell
  material : ∀ r ∈ run, SpecMaterial r.run.cell.prm
  critical : 0 < dmg.critical
  elastic : ∀ r ∈ run, r.run.cell.prm.elastic = el
  eqn0 : ∀ r ∈ run, r.run.cell.prm.dn0 = dn0
  eqn3 : ∀ r ∈ run, r.run.cell.prm.dn3 = dn3
  supply : ∀ r ∈ run, ∀ k q, r.run.supply k q = 0
  pos0 : 0 < dn0
  pos3 : 0 < dn3
  symm : ∀ k, (E k)ᵀ = E k
  step : ∀ k < T, 0 < dt k
  volume : SpecIntegral (run.map fun r => r.run.cell) (fun _ _ => 1) ≠ 0
  constraints : Homogeneous K m
  dofs : ∀ r ∈ run, ∀ i, r.run.cell.dofs i < m
  increments : ∀ k < T, Sol.Satisfies K (u (k + 1) - u k)
  solution : ∀ k < T, SpecGrainSolution (SpecDrivenGrains run face dmg hap dt E u k) K m (u (k + 1))
  procs : ∀ k < T, (procs k).flatten.Perm (SpecDriven (run.map OpenGrain.run) dt E u k)

/-- C136, what is reported: what is stored in grains and grain boundaries and dissipated in the grains does not exceed the
energy at the start, the work of the loads, and the volume times the sum over the steps of the work of the reported
macroscopic stress on the change of the macroscopic strain (in the units of the slip equations). -/
theorem C136_reported {J : ℕ} {kind : Kind n N} (run : List (OpenGrain d n N J)) (face : Fin J → Face d e n N)
    (dmg : DamagePrm) (hap : Happens J) (el : Elastic) (dn0 dn3 : ℝ) (K : Sol.Constraints ℕ) (m : ℕ) (dt : ℕ → ℝ)
    (E : ℕ → Mat d) (u : ℕ → ℕ → ℝ) (procs : ℕ → List (List (MeshCell d n N))) (T : ℕ)
    (h : SpecDrivenPoly kind run face dmg hap el dn0 dn3 K m dt E u procs T) :
    ∃ H : ℕ → Post.Integrals d, (∀ k < T, Post.Homog.compute ⟨el, dn0, E (k + 1)⟩
        ((procs k).map fun p => p.map (MeshCell.reported (u (k + 1)))) = some (H k)) ∧
      SpecOpenEnergyUnder run face dmg hap (E T) u T + ∑ k ∈ range T,
          SpecDissipated (SpecDriven (run.map OpenGrain.run) dt E u k) (u (k + 1)) ≤
        SpecOpenEnergyUnder run face dmg hap (E 0) u 0 +
          ∑ k ∈ range T, SpecLoadWork (SpecDrivenGrains run face dmg hap dt E u k) (u (k + 1) - u k) +
          dn3 / dn0 * (SpecIntegral (run.map fun r => r.run.cell) (fun _ _ => 1) *
            ∑ k ∈ range T, ddot (E (k + 1) - E k) (H k).stress) ∧
      ∀ k < T, 0 ≤ SpecDissipated (SpecDriven (run.map OpenGrain.run) dt E u k) (u (k + 1)) := by
  have key : ∀ {k} {P : MeshCell d n N → Prop}, (∀ r ∈ run, P ((r.run.at dt u k).under (E (k + 1)))) →
      ∀ c ∈ SpecDriven (run.map OpenGrain.run) dt E u k, P c := fun {k P} h => under_forall fun c hc => by
    obtain ⟨r, hr, rfl⟩ := List.mem_map.1 hc
    obtain ⟨g, hg, rfl⟩ := List.mem_map.1 hr
    exact h g hg
  have hsp : ∀ k, SpecSpecimen (SpecDriven (run.map OpenGrain.run) dt E u k) el dn0 dn3 (E (k + 1)) := fun k =>
    ⟨key (P := fun c => c.prm.elastic = el) h.elastic, key (P := fun c => c.prm.dn0 = dn0) h.eqn0,
      key (P := fun c => c.prm.dn3 = dn3) h.eqn3, key (P := fun c => c.prm.macroStrain = E (k + 1)) fun _ _ => rfl,
      key (P := fun c => ∀ q, (c.pts q).supply = 0) fun r hr q => h.supply r hr k q⟩
  have hvol : ∀ k, SpecIntegral (SpecDriven (run.map OpenGrain.run) dt E u k) (fun _ _ => 1) =
      SpecIntegral (run.map fun r => r.run.cell) (fun _ _ => 1) := by
    intro k
    unfold SpecIntegral SpecDriven SpecMesh
    rw [List.map_map, List.map_map, List.map_map, List.map_map]
    rfl
  have : Nonempty (Post.Integrals d) := ⟨.zero⟩
  choose! H hH using fun k (hk : k < T) => macroWork_reported (SpecDriven (run.map OpenGrain.run) dt E u k) (hsp k)
    (by rw [hvol]; exact h.volume) (u (k + 1)) (procs k) (h.procs k hk)
  choose! R hR using h.solution
  have hrun := C136_run run face h.sides h.joint h.kinds h.cell h.material dmg h.critical hap dt E h.symm u R T h.step
    fun k hk => (hR k hk).1
  refine ⟨H, fun k hk => (hH k hk).1, ?_, hrun.2⟩
  refine hrun.1.trans (le_of_eq ?_)
  rw [add_assoc]
  congr 1
  rw [Finset.mul_sum, Finset.mul_sum, ← Finset.sum_add_distrib]
  refine sum_congr rfl fun k hk => ?_
  have hk := mem_range.1 hk
  rw [supplyWork_zero _ _ (hsp k).supply, grain_solution_work (SpecDrivenGrains run face dmg hap dt E u k) h.constraints
    (drivenGrains_forall (P := fun c => ∀ i, c.cell.dofs i < m) h.dofs) (h.increments k hk) (hR k hk).2,
    (hH k hk).2.2, (hH k hk).2.1, hvol]
  ring

/-- C136, passivity: without loads at the boundary, from a state without stored energy, no programme of macroscopic strains,
closed or not, gains work, however the grain boundaries open, close, slide, touch and are damaged. -/
theorem C136_passive {J : ℕ} {kind : Kind n N} (run : List (OpenGrain d n N J)) (face : Fin J → Face d e n N)
    (dmg : DamagePrm) (hap : Happens J) (el : Elastic) (dn0 dn3 : ℝ) (K : Sol.Constraints ℕ) (m : ℕ) (dt : ℕ → ℝ)
    (E : ℕ → Mat d) (u : ℕ → ℕ → ℝ) (procs : ℕ → List (List (MeshCell d n N))) (T : ℕ)
    (h : SpecDrivenPoly kind run face dmg hap el dn0 dn3 K m dt E u procs T)
    (hl : ∀ r ∈ run, ∀ k b, (r.loads k b).value = 0) (h0 : SpecOpenEnergyUnder run face dmg hap (E 0) u 0 = 0) :
    ∃ H : ℕ → Post.Integrals d, (∀ k < T, Post.Homog.compute ⟨el, dn0, E (k + 1)⟩
        ((procs k).map fun p => p.map (MeshCell.reported (u (k + 1)))) = some (H k)) ∧
      0 ≤ ∑ k ∈ range T, ddot (E (k + 1) - E k) (H k).stress := by
  obtain ⟨H, h1, h2, h3⟩ := C136_reported run face dmg hap el dn0 dn3 K m dt E u procs T h
  refine ⟨H, h1, ?_⟩
  have hload : ∑ k ∈ range T, SpecLoadWork (SpecDrivenGrains run face dmg hap dt E u k) (u (k + 1) - u k) = 0 := by
    refine sum_eq_zero fun k _ => ?_
    unfold SpecLoadWork
    refine List.sum_eq_zero fun x hx => ?_
    obtain ⟨g, hg, rfl⟩ := List.mem_map.1 hx
    refine sum_eq_zero fun b _ => ?_
    have := drivenGrains_forall (P := fun g => ∀ b, (g.loads b).value = 0) (fun r hr b => hl r hr k b) g hg b
    rw [this, dotProduct_zero, mul_zero]
  have e1 : 0 ≤ SpecEnergyUnder (run.map OpenGrain.run) (E T) (u T) := by
    have hr : ∀ c ∈ (run.map OpenGrain.run).map fun r => r.cell.under (E T), ∃ r ∈ run, c = r.run.cell.under (E T) :=
      fun c hc => by
        obtain ⟨a, ha, rfl⟩ := List.mem_map.1 hc
        obtain ⟨r, hr, rfl⟩ := List.mem_map.1 ha
        exact ⟨r, hr, rfl⟩
    refine C83_stored_nonneg _ (fun c hc => ?_) (fun c hc => ?_) (fun c hc => ?_) _ <;> obtain ⟨r, hr, rfl⟩ := hr c hc
    · exact ⟨(h.cell r hr).primitive, (h.cell r hr).weight, (h.cell r hr).hist, (h.cell r hr).res⟩
    · exact { h.material r hr with }
    · exact h.symm T
  have e2 : 0 ≤ ∑ k ∈ range T, SpecDissipated (SpecDriven (run.map OpenGrain.run) dt E u k) (u (k + 1)) :=
    sum_nonneg fun k hk => h3 k (mem_range.1 hk)
  have hV : 0 < SpecIntegral (run.map fun r => r.run.cell) (fun _ _ => 1) := by
    refine lt_of_le_of_ne (integral_nonneg (fun c hc => ?_) fun _ _ _ => zero_le_one) h.volume.symm
    obtain ⟨r, hr, rfl⟩ := List.mem_map.1 hc
    exact h.cell r hr
  have hq := div_pos h.pos3 h.pos0
  rcases T with _ | T
  · simp
  · have e3 : 0 ≤ ∑ j, SpecJointEnergy (face j) (SpecRecord face dmg hap u j (T + 1)) (u (T + 1)) := by
      refine sum_nonneg fun j _ => ?_
      have hj : SpecJoint kind (SpecFaceAt face dmg hap dt u T j) := { h.joint j with }
      have := jointEnergy_nonneg hj (run_advanced face dmg h.critical hap dt u T j)
      rwa [show SpecJointEnergy (SpecFaceAt face dmg hap dt u T j)
        (SpecFaceAt face dmg hap dt u T j).2.hist (u (T + 1)) =
        SpecJointEnergy (face j) (SpecRecord face dmg hap u j (T + 1)) (u (T + 1)) from
          jointEnergy_congr _ _ _ _ _ _ rfl rfl] at this
    rw [h0, hload] at h2
    unfold SpecOpenEnergyUnder at h2
    have : 0 ≤ dn3 / dn0 * (SpecIntegral (run.map fun r => r.run.cell) (fun _ _ => 1) *
        ∑ k ∈ range (T + 1), ddot (E (k + 1) - E k) (H k).stress) := by linarith
    exact nonneg_of_mul_nonneg_right (nonneg_of_mul_nonneg_right this hq) hV

theorem body_rest (run : List (RunCell d n N)) (hmat : ∀ r ∈ run, SpecMaterial r.cell.prm) : SpecEnergyUnder run 0 0 = 0 := by
  unfold SpecEnergyUnder SpecStored
  refine List.sum_eq_zero fun x hx => ?_
  rw [List.map_map] at hx
  obtain ⟨r, hr, rfl⟩ := List.mem_map.1 hx
  refine sum_eq_zero fun q _ => ?_
  have hg : ∀ a, (r.cell.pts q).shape.slipGrad ((0 : ℕ → ℝ) ∘ r.cell.dofs) a = 0 := fun a => by
    unfold Shape.slipGrad
    exact sum_eq_zero fun i _ => by rw [Function.comp_apply, Pi.zero_apply, zero_smul]
  have hst : ({ r.cell.prm with macroStrain := 0 } : CellPrm d n).elasticStrainAt (r.cell.pts q).shape
      ((0 : ℕ → ℝ) ∘ r.cell.dofs) = 0 := by
    unfold CellPrm.elasticStrainAt
    rw [elasticStrain_finRange]
    simp [Shape.strain, Shape.slip]
  show (r.cell.pts q).shape.jxw * SpecStoredAt { r.cell.prm with macroStrain := 0 } (r.cell.pts q).shape
    ((0 : ℕ → ℝ) ∘ r.cell.dofs) = 0
  unfold SpecStoredAt
  rw [hst]
  simp only [hg]
  have hi := (hmat r hr).index
  rw [show (∑ a, SpecDefectEnergy r.cell.prm.vec.factor r.cell.prm.vec.index (r.cell.prm.sys a) 0) = 0 from
    sum_eq_zero fun a _ => by
      unfold SpecDefectEnergy
      simp [Real.zero_rpow (show r.cell.prm.vec.index ≠ 0 by linarith)]]
  simp [SpecEnergy2]

theorem joint_rest (f : Face d e n N) (h : Iface) : SpecJointEnergy f h 0 = 0 := by
  have ho : opening f.2.cur f.2.nb ((0 : ℕ → ℝ) ∘ f.1) ((0 : ℕ → ℝ) ∘ f.2.nbDofs) = 0 := by
    simp [opening, Side.displacement]
  have hs : ∀ (s : Side d n N) (g : Fin N → ℕ), s.slip ((0 : ℕ → ℝ) ∘ g) = 0 := fun s g => by
    funext a; simp [Side.slip]
  have hf : faceForm f 0 0 = 0 := by
    unfold faceForm
    refine sum_eq_zero fun i _ => sum_eq_zero fun j _ => ?_
    have : SpecNetBurgers f 0 i j = 0 := by
      unfold SpecNetBurgers
      rw [hs, hs]
      unfold Itf.burgers
      exact sum_eq_zero fun a _ => by simp
    rw [this, zero_mul]
  unfold SpecJointEnergy
  rw [ho, slipEnergy_eq, hf]
  simp [SpecOpeningEnergy, Itf.effOpening, Itf.macaulay, norm2]

/-- C136, passivity from rest: undeformed, without slips and with new grain boundaries. -/
theorem C136_rest {J : ℕ} {kind : Kind n N} (run : List (OpenGrain d n N J)) (face : Fin J → Face d e n N)
    (dmg : DamagePrm) (hap : Happens J) (el : Elastic) (dn0 dn3 : ℝ) (K : Sol.Constraints ℕ) (m : ℕ) (dt : ℕ → ℝ)
    (E : ℕ → Mat d) (u : ℕ → ℕ → ℝ) (procs : ℕ → List (List (MeshCell d n N))) (T : ℕ)
    (h : SpecDrivenPoly kind run face dmg hap el dn0 dn3 K m dt E u procs T)
    (hl : ∀ r ∈ run, ∀ k b, (r.loads k b).value = 0) (hE : E 0 = 0) (hu : u 0 = 0) :
    ∃ H : ℕ → Post.Integrals d, (∀ k < T, Post.Homog.compute ⟨el, dn0, E (k + 1)⟩
        ((procs k).map fun p => p.map (MeshCell.reported (u (k + 1)))) = some (H k)) ∧
      0 ≤ ∑ k ∈ range T, ddot (E (k + 1) - E k) (H k).stress := by
  refine C136_passive run face dmg hap el dn0 dn3 K m dt E u procs T h hl ?_
  unfold SpecOpenEnergyUnder
  rw [hE, hu, body_rest _ fun r hr => by obtain ⟨g, hg, rfl⟩ := List.mem_map.1 hr; exact h.material g hg, zero_add]
  exact sum_eq_zero fun j _ => joint_rest _ _

/-! ## Existence -/

/-- The cell of a run under the macroscopic strain `E`. -/
def OpenGrain.under {J : ℕ} (E : Mat d) (r : OpenGrain d n N J) : OpenGrain d n N J :=
  ⟨⟨r.run.cell.under E, r.run.supply⟩, r.F, r.sees, r.B, r.loads⟩

theorem under_hist {J : ℕ} (r : OpenGrain d n N J) (F : Mat d) (u : ℕ → ℕ → ℝ) (q : Fin r.run.cell.Q) (k : ℕ) :
    RunCell.histAt (r.under F).run u q k = r.run.histAt u q k := by
  induction k with
  | zero => rfl
  | succ k ih =>
    show Bulk.store (Bulk.update (RunCell.histAt (r.under F).run u q k) _ _) = Bulk.store (Bulk.update (r.run.histAt u q k) _ _)
    exact congrArg (fun h => Bulk.store (Bulk.update h _ _)) ih

theorem drivenGrains_under {J : ℕ} (run : List (OpenGrain d n N J)) (face : Fin J → Face d e n N)
    (dmg : DamagePrm) (hap : Happens J) (dt : ℕ → ℝ) (E : ℕ → Mat d) (u : ℕ → ℕ → ℝ) (k : ℕ) :
    SpecDrivenGrains run face dmg hap dt E u k =
      SpecOpenGrains (run.map (OpenGrain.under (E (k + 1)))) face dmg hap dt u k := by
  unfold SpecDrivenGrains SpecOpenGrains
  rw [List.map_map, List.map_map]
  refine List.map_congr_left fun r _ => ?_
  have hh : (fun q => RunCell.histAt (r.under (E (k + 1))).run u q k) = fun q => r.run.histAt u q k :=
    funext fun q => under_hist r _ u q k
  have hc : (r.run.at dt u k).under (E (k + 1)) = RunCell.at (r.under (E (k + 1))).run dt u k := by
    show MeshCell.mk _ _ _ _ (fun q => ⟨_, _, (fun q => r.run.histAt u q k) q, _⟩) =
      MeshCell.mk _ _ _ _ (fun q => ⟨_, _, (fun q => RunCell.histAt (r.under (E (k + 1))).run u q k) q, _⟩)
    rw [hh]
    rfl
  show GrainCell.mk ((r.run.at dt u k).under (E (k + 1))) _ _ _ _ = GrainCell.mk _ _ _ _ _
  rw [hc]
  rfl

theorem openRun_under {J : ℕ} {kind : Kind n N} {run : List (OpenGrain d n N J)} {face : Fin J → Face d e n N}
    {dmg : DamagePrm} {dt : ℕ → ℝ} {K : Sol.Constraints ℕ} {m : ℕ} (h : SpecOpenRun kind run face dmg dt K m) (E : Mat d) :
    SpecOpenRun kind (run.map (OpenGrain.under E)) face dmg dt K m := by
  have key : ∀ {P : OpenGrain d n N J → Prop}, (∀ r ∈ run, P (r.under E)) → ∀ r ∈ run.map (OpenGrain.under E), P r :=
    fun {P} h r hr => by
      obtain ⟨a, ha, rfl⟩ := List.mem_map.1 hr
      exact h a ha
  refine ⟨?_, h.joint, key h.kinds, key fun r hr => ?_, key fun r hr => { h.material r hr with }, key h.rate, h.critical, h.step,
    h.homogeneous, key h.dofs, fun w hw he => h.determined w hw ?_⟩
  · have := h.sides
    unfold SpecSides at *
    rw [List.flatMap_map]
    exact this
  · exact ⟨(h.cell r hr).primitive, (h.cell r hr).weight, (h.cell r hr).hist, (h.cell r hr).res⟩
  · rw [← he]
    have e1 : SpecElasticError (run.map fun r => r.run.cell) w 0 =
        SpecElasticError ((run.map (OpenGrain.under E)).map fun r => r.run.cell) w 0 := by
      unfold SpecElasticError
      rw [List.map_map, List.map_map, List.map_map]
      congr 1
      refine List.map_congr_left fun r _ => ?_
      simp only [Function.comp_apply, elasticStrainAt_sub]
      rfl
    have e2 : SpecDefectError (run.map fun r => r.run.cell) w 0 =
        SpecDefectError ((run.map (OpenGrain.under E)).map fun r => r.run.cell) w 0 := by
      unfold SpecDefectError
      rw [List.map_map, List.map_map, List.map_map]
      rfl
    rw [e1, e2]

/-- C136: every programme of macroscopic strains has a run, but for steps whose records lead to 0/0 (as C129). -/
theorem C136_exists {J : ℕ} {kind : Kind n N} (run : List (OpenGrain d n N J)) (face : Fin J → Face d e n N)
    (dmg : DamagePrm) (dt : ℕ → ℝ) (E : ℕ → Mat d) (K : Sol.Constraints ℕ) (m : ℕ)
    (h : SpecOpenRun kind run face dmg dt K m)
    (trials : ℕ → Fin J → List IfaceOp) (M : Fin J → (ℕ → ℝ) → ℝ) (u₀ : ℕ → ℝ) :
    ∃ u : ℕ → ℕ → ℝ, u 0 = u₀ ∧ ∀ k, let hap : Happens J := ⟨trials, fun i j => M j (u (i + 1))⟩
      SpecRecords face dmg hap u k → Sol.Satisfies K (u (k + 1) - u k) ∧
        SpecGrainSolution (SpecDrivenGrains run face dmg hap dt E u k) K m (u (k + 1)) := by
  let hap : (ℕ → ℕ → ℝ) → Happens J := fun u => ⟨trials, fun i j => M j (u (i + 1))⟩
  have hex : ∀ (u : ℕ → ℕ → ℝ) (k : ℕ), ∃ x, SpecRecords face dmg (hap u) u k → Sol.Satisfies K (x - u k) ∧
      SpecGrainSolution (SpecDrivenGrains run face dmg (hap u) dt E (Function.update u (k + 1) x) k) K m x := by
    intro u k
    by_cases hc : SpecRecords face dmg (hap u) u k
    · obtain ⟨x, h1, h2⟩ := open_step (openRun_under h (E (k + 1))) (hap u) hc (u k)
      exact ⟨x, fun _ => ⟨h1, by rw [drivenGrains_under]; exact h2⟩⟩
    · exact ⟨0, fun h => absurd h hc⟩
  choose S hS using hex
  let P : ℕ → ℕ → ℕ → ℝ := fun k => Nat.rec (fun _ => u₀) (fun k p => Function.update p (k + 1) (S p k)) k
  have hP : ∀ k, P (k + 1) = Function.update (P k) (k + 1) (S (P k) k) := fun _ => rfl
  have hle : ∀ k i j, i ≤ j → P (j + k) i = P j i := by
    intro k i j hij
    induction k with
    | zero => rfl
    | succ k ih => rw [← add_assoc, hP, Function.update_of_ne (by omega), ih]
  have hd : ∀ k, ∀ i ≤ k, P i i = P k i := by
    intro k i hi
    have := hle (k - i) i i le_rfl
    rw [Nat.add_sub_cancel' hi] at this
    exact this.symm
  refine ⟨fun k => P k k, rfl, fun k => ?_⟩
  intro hap' hc
  have e2 : P (k + 1) (k + 1) = S (P k) k := by rw [hP, Function.update_self]
  have hm : ∀ i < k, hap'.measured i = (hap (P k)).measured i := fun i hi => by
    show (fun j => M j (P (i + 1) (i + 1))) = fun j => M j (P k (i + 1))
    rw [hd k (i + 1) (by omega)]
  have := hS (P k) k (records_congr (hap := hap') k (fun i hi => hd k i hi) rfl hm hc)
  rw [← e2] at this
  refine ⟨this.1, ?_⟩
  rw [drivenGrains_under, openGrains_congr _ face dmg (hap := hap') (hap' := hap (P k))
    (v := Function.update (P k) (k + 1) (P (k + 1) (k + 1))) dt k (fun i hi => ?_) rfl hm, ← drivenGrains_under]
  · exact this.2
  · by_cases hi' : i = k + 1
    · subst hi'; rw [Function.update_self]
    · rw [Function.update_of_ne hi']; exact hd k i (by omega)

/-! ## Non-vacuity -/

/-- Two soft grains of different orientation whose common boundary may open, without supply and loads; hardening `H`. -/
noncomputable def exPulledRun (H : ℝ) : List (OpenGrain 2 1 2 1) :=
  [⟨⟨(exSoftLeft H 0).cell, fun _ _ => 0⟩, 1, fun _ => (0, false), 0, fun _ => Fin.elim0⟩,
   ⟨⟨(exSoftRight H 0).cell, fun _ _ => 0⟩, 1, fun _ => (0, true), 0, fun _ => Fin.elim0⟩]

theorem exPulled_forall {H : ℝ} {P : MeshCell 2 1 2 → Prop} (a : P (exSoftLeft H 0).cell) (b : P (exSoftRight H 0).cell) :
    ∀ r ∈ exPulledRun H, P r.run.cell := by
  intro r hr
  rcases List.mem_cons.1 hr with rfl | hr
  · exact a
  · obtain rfl := List.mem_singleton.1 hr
    exact b

theorem exPulled_ok (H : ℝ) (h0 : 0 ≤ H) :
    SpecOpenRun exKind (exPulledRun H) exOpen exDamage (fun _ => 1) (fun _ => none) 4 := by
  have h := exTornRun_ok H h0 0 0
  have m := exSoft_material H 0 h0
  have c := exSoft_cell H 0
  exact {
    sides := List.Perm.refl _
    joint := exOpen_ok
    kinds := exPulled_forall (P := fun c => c.kind = exKind) rfl rfl
    cell := exPulled_forall c ⟨c.primitive, c.weight, c.hist, c.res⟩
    material := exPulled_forall (P := fun c => SpecMaterial c.prm) m { m with }
    rate := exPulled_forall (P := fun c => c.prm.law.rateIndependent = false) rfl rfl
    critical := h.critical
    step := fun _ => one_pos
    homogeneous := h.homogeneous
    dofs := exPulled_forall (P := fun c => ∀ i, c.dofs i < 4) (fun i => by
        show (i : ℕ) < 4
        have := (i : Fin 2).2; omega) (fun i => by
        show (i : ℕ) + 2 < 4
        have := (i : Fin 2).2; omega)
    determined := exSoftGrains_determined 0 0 0 le_rfl (by norm_num) }

/-- C136 in the concrete case: any programme of strains that starts at rest pulls, presses and shears the two grains, for
any number of steps, has a run on two processes, and what is reported of it is never a gain. -/
example (H : ℝ) (hH : 0 ≤ H) (E : ℕ → Mat 2) (h0 : E 0 = 0) (hE : ∀ k, (E k)ᵀ = E k) (T : ℕ) :
    ∃ u : ℕ → ℕ → ℝ, ∃ G : ℕ → Post.Integrals 2, u 0 = 0 ∧
    (∀ k, SpecGrainSolution (SpecDrivenGrains (exPulledRun H) exOpen exDamage ⟨fun _ _ => [.update 9, .reset], fun _ _ => 0⟩
      (fun _ => 1) E u k) (fun _ => none) 4 (u (k + 1))) ∧
    (∀ k < T, Post.Homog.compute ⟨⟨3, 1, 1, 1⟩, 2, E (k + 1)⟩
      ([SpecDriven ((exPulledRun H).map OpenGrain.run) (fun _ => 1) E u k, []].map fun p =>
        p.map (MeshCell.reported (u (k + 1)))) = some (G k)) ∧
    0 ≤ ∑ k ∈ range T, ddot (E (k + 1) - E k) (G k).stress := by
  have ok := exPulled_ok H hH
  obtain ⟨u, hu, h⟩ := C136_exists (exPulledRun H) exOpen exDamage (fun _ => 1) E (fun _ => none) 4 ok
    (fun _ _ => [.update 9, .reset]) (fun _ _ => 0) 0
  have hs := fun k => h k fun j _ => Or.inr (by cases k <;> exact le_refl (0 : ℝ))
  obtain ⟨G, h1, h2⟩ := C136_rest (exPulledRun H) exOpen exDamage ⟨fun _ _ => [.update 9, .reset], fun _ _ => 0⟩
    ⟨3, 1, 1, 1⟩ 2 5 (fun _ => none) 4 (fun _ => 1) E u
    (fun k => [SpecDriven ((exPulledRun H).map OpenGrain.run) (fun _ => 1) E u k, []]) T
    { sides := ok.sides
      joint := ok.joint
      kinds := ok.kinds
      cell := ok.cell
      material := ok.material
      critical := ok.critical
      elastic := exPulled_forall (P := fun c => c.prm.elastic = ⟨3, 1, 1, 1⟩) rfl rfl
      eqn0 := exPulled_forall (P := fun c => c.prm.dn0 = 2) rfl rfl
      eqn3 := exPulled_forall (P := fun c => c.prm.dn3 = 5) rfl rfl
      supply := fun r hr k q => by
        rcases List.mem_cons.1 hr with rfl | hr
        · rfl
        · obtain rfl := List.mem_singleton.1 hr
          rfl
      pos0 := by norm_num
      pos3 := by norm_num
      symm := hE
      step := fun _ _ => one_pos
      volume := by
        have hs : ∀ f : Fin 1 → ℝ, ∑ q, f q = f (0 : Fin 1) := fun f => Fin.sum_univ_one f
        have e : SpecIntegral ((exPulledRun H).map fun r => r.run.cell) (fun _ _ => 1) = 1 := by
          show (∑ q : Fin 1, (1 / 2 : ℝ) * 1) + ((∑ q : Fin 1, (1 / 2 : ℝ) * 1) + 0) = 1
          rw [hs]
          norm_num
        rw [e]
        exact one_ne_zero
      constraints := ok.homogeneous
      dofs := ok.dofs
      increments := fun k _ => (hs k).1
      solution := fun k _ => (hs k).2
      procs := fun k _ => by simp }
    (fun r hr k b => by
      rcases List.mem_cons.1 hr with rfl | hr
      · exact b.elim0
      · obtain rfl := List.mem_singleton.1 hr
        exact b.elim0) h0 hu
  exact ⟨u, G, hu, fun k => (hs k).2, h1, h2⟩

end Verif.Asm
