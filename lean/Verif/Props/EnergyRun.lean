import Verif.Props.Energy

/-!
# Energy balance of a whole run (C83)
-/

namespace Verif.Asm
open Matrix Finset Verif.Cry Verif.Hist Verif.Micro Verif.Lin

variable {d n N : ℕ}

/-! ## Specification -/

/-- A cell with the supply term of every time step at its quadrature points. The supply, the history
and the old slips stored in `cell` are those before the first step. -/
structure RunCell (d n N : ℕ) where
  cell : MeshCell d n N
  supply : ℕ → Fin cell.Q → Vec d

/-- History of a quadrature point before step `k` of a run through the states `u 0, u 1, …`
(`source/gradient_crystal_plasticity/solve.cc:86-145`): at the end of every step it has been updated
with the slips at both ends of the step, and it is stored at the beginning of the next one. -/
noncomputable def RunCell.histAt (r : RunCell d n N) (u : ℕ → ℕ → ℝ) (q : Fin r.cell.Q) : ℕ → Bulk n
  | 0 => (r.cell.pts q).hist
  | k + 1 => ((r.histAt u q k).update ((r.cell.pts q).shape.slip (u (k + 1) ∘ r.cell.dofs))
      ((r.cell.pts q).shape.slip (u k ∘ r.cell.dofs))).store

/-- The cell as step `k`, from state `u k` to `u (k + 1)`, sees it, with the step's size. -/
noncomputable def RunCell.at (r : RunCell d n N) (dt : ℕ → ℝ) (u : ℕ → ℕ → ℝ) (k : ℕ) :
    MeshCell d n N :=
  ⟨{ r.cell.prm with dt := dt k }, r.cell.kind, r.cell.dofs, r.cell.Q, fun q =>
    ⟨(r.cell.pts q).shape, r.supply k q, r.histAt u q k,
      (r.cell.pts q).shape.slip (u k ∘ r.cell.dofs)⟩⟩

/-- The mesh in step `k`. -/
noncomputable def SpecMesh (run : List (RunCell d n N)) (dt : ℕ → ℝ) (u : ℕ → ℕ → ℝ) (k : ℕ) :
    List (MeshCell d n N) := run.map fun r => r.at dt u k

/-- Energy stored in the body. -/
noncomputable def SpecBodyEnergy (run : List (RunCell d n N)) (u : ℕ → ℝ) : ℝ :=
  SpecStored (run.map RunCell.cell) u

/-! ## Helpers -/

theorem stored_at (run : List (RunCell d n N)) (dt : ℕ → ℝ) (u : ℕ → ℕ → ℝ) (k : ℕ) (w : ℕ → ℝ) :
    SpecStored (SpecMesh run dt u k) w = SpecBodyEnergy run w := by
  unfold SpecStored SpecMesh SpecBodyEnergy SpecStored
  rw [List.map_map, List.map_map]
  rfl

theorem update_prm (b : Bulk n) (s o : Fin n → ℝ) : (b.update s o).prm = b.prm := by
  unfold Bulk.update; split <;> rfl

theorem hist_ok (r : RunCell d n N) (hc : SpecCell r.cell) (hm : SpecMaterial r.cell.prm)
    (u : ℕ → ℕ → ℝ) (q : Fin r.cell.Q) (k : ℕ) :
    (r.histAt u q k).prm = r.cell.prm.law.hard ∧ ∀ a, 0 ≤ (r.histAt u q k).tmp a := by
  induction k with
  | zero => exact ⟨hc.hist q, hc.res q⟩
  | succ k ih =>
    refine ⟨(update_prm _ _ _).trans ih.1, fun a => ?_⟩
    refine (ih.2 a).trans (resistance_ge' _ ?_ _ _ a)
    rw [ih.1]
    exact hm.hard

theorem at_ok (r : RunCell d n N) (hc : SpecCell r.cell) (hm : SpecMaterial r.cell.prm)
    (dt : ℕ → ℝ) (u : ℕ → ℕ → ℝ) (k : ℕ) : SpecCell (r.at dt u k) :=
  ⟨fun q => hc.primitive q, fun q => hc.weight q, fun q => (hist_ok r hc hm u q k).1,
    fun q => (hist_ok r hc hm u q k).2⟩

theorem at_material (r : RunCell d n N) (hm : SpecMaterial r.cell.prm)
    (dt : ℕ → ℝ) (u : ℕ → ℕ → ℝ) (k : ℕ) (hdt : 0 < dt k) : SpecMaterial (r.at dt u k).prm :=
  { hm with dt := hdt }

/-! ## C83 -/

/-- C83 over a run: after any number of steps, of any sizes, with any supply, and whatever the
states are, the stored energy and everything dissipated do not exceed the energy stored at the start
and the work of supply and external nodal forces; and no step has negative dissipation. Missing for
the full claim: cohesive and contact interfaces, microtraction and changing macroscopic strain (C135). -/
theorem C83_run_partial (run : List (RunCell d n N)) (hcell : ∀ r ∈ run, SpecCell r.cell)
    (hmat : ∀ r ∈ run, SpecMaterial r.cell.prm) (dt : ℕ → ℝ) (u : ℕ → ℕ → ℝ)
    (R : ℕ → MeshCell d n N → Fin N → ℝ) (K : ℕ) (hdt : ∀ k < K, 0 < dt k)
    (hR : ∀ k < K, SpecAssembled (SpecMesh run dt u k) (u (k + 1)) (R k)) :
    SpecBodyEnergy run (u K) + ∑ k ∈ range K, SpecDissipated (SpecMesh run dt u k) (u (k + 1)) ≤
      SpecBodyEnergy run (u 0) + ∑ k ∈ range K,
        (SpecSupplyWork (SpecMesh run dt u k) (u (k + 1) - u k) +
          SpecNodalWork (SpecMesh run dt u k) (R k) (u (k + 1) - u k)) ∧
    ∀ k < K, 0 ≤ SpecDissipated (SpecMesh run dt u k) (u (k + 1)) := by
  have step : ∀ k < K, _ := fun k hk =>
    C83_balance_partial (SpecMesh run dt u k)
      (fun c hc => by
        obtain ⟨r, hr, rfl⟩ := List.mem_map.1 hc
        exact at_ok r (hcell r hr) (hmat r hr) dt u k)
      (fun c hc => by
        obtain ⟨r, hr, rfl⟩ := List.mem_map.1 hc
        exact at_material r (hmat r hr) dt u k (hdt k hk))
      (u (k + 1)) (u k)
      (fun c hc q a => by
        obtain ⟨r, hr, rfl⟩ := List.mem_map.1 hc
        rfl) (R k) (hR k hk)
  refine ⟨?_, fun k hk => (step k hk).2⟩
  clear hdt hR
  induction K with
  | zero => simp
  | succ K ih =>
    have h1 := ih fun k hk => step k (by omega)
    have h2 := (step K (by omega)).1
    rw [stored_at, stored_at] at h2
    rw [sum_range_succ, sum_range_succ]
    linarith

/-- C83 over a run of accepted steps: with converged residuals and homogeneous constraints on every
increment only the supply does work. -/
theorem C83_run_accepted_partial (run : List (RunCell d n N)) (hcell : ∀ r ∈ run, SpecCell r.cell)
    (hmat : ∀ r ∈ run, SpecMaterial r.cell.prm) (dt : ℕ → ℝ) (u : ℕ → ℕ → ℝ)
    (R : ℕ → MeshCell d n N → Fin N → ℝ) (T : ℕ) (hdt : ∀ k < T, 0 < dt k)
    (hR : ∀ k < T, SpecAssembled (SpecMesh run dt u k) (u (k + 1)) (R k))
    (K : Sol.Constraints ℕ) (m : ℕ) (hK : Homogeneous K m)
    (hm : ∀ r ∈ run, ∀ i, r.cell.dofs i < m)
    (hsat : ∀ k < T, Sol.Satisfies K (u (k + 1) - u k))
    (hconv : ∀ k < T, ∀ r < m,
      Lin.residual K ((SpecMesh run dt u k).map fun c => c.local (R k)) r = 0) :
    SpecBodyEnergy run (u T) + ∑ k ∈ range T, SpecDissipated (SpecMesh run dt u k) (u (k + 1)) ≤
      SpecBodyEnergy run (u 0) + ∑ k ∈ range T,
        SpecSupplyWork (SpecMesh run dt u k) (u (k + 1) - u k) := by
  have step : ∀ k < T, _ := fun k hk =>
    C83_accepted_partial (SpecMesh run dt u k)
      (fun c hc => by
        obtain ⟨r, hr, rfl⟩ := List.mem_map.1 hc
        exact at_ok r (hcell r hr) (hmat r hr) dt u k)
      (fun c hc => by
        obtain ⟨r, hr, rfl⟩ := List.mem_map.1 hc
        exact at_material r (hmat r hr) dt u k (hdt k hk))
      (u (k + 1)) (u k)
      (fun c hc q a => by
        obtain ⟨r, hr, rfl⟩ := List.mem_map.1 hc
        rfl) (R k) (hR k hk) K m hK
      (fun c hc => by
        obtain ⟨r, hr, rfl⟩ := List.mem_map.1 hc
        exact hm r hr) (hsat k hk) (hconv k hk)
  clear hdt hR hsat hconv
  induction T with
  | zero => simp
  | succ T ih =>
    have h1 := ih fun k hk => step k (by omega)
    have h2 := step T (by omega)
    rw [stored_at, stored_at] at h2
    rw [sum_range_succ, sum_range_succ]
    linarith

theorem supplyWork_zero (cells : List (MeshCell d n N)) (w : ℕ → ℝ)
    (h : ∀ c ∈ cells, ∀ q, (c.pts q).supply = 0) : SpecSupplyWork cells w = 0 := by
  unfold SpecSupplyWork
  refine List.sum_eq_zero fun x hx => ?_
  obtain ⟨c, hc, rfl⟩ := List.mem_map.1 hx
  refine sum_eq_zero fun q _ => ?_
  rw [h c hc q, dotProduct_zero, mul_zero, mul_zero]

theorem strainAt_symm (c : CellPrm d n) (hmacro : c.macroStrainᵀ = c.macroStrain) (kind : Kind n N)
    (s : Shape d n N) (hs : s.Primitive kind) (u : Fin N → ℝ) :
    (c.elasticStrainAt s u)ᵀ = c.elasticStrainAt s u := by
  unfold CellPrm.elasticStrainAt
  rw [elasticStrain_finRange, Matrix.transpose_add, hmacro]
  congr 1
  exact elasticStrain_symm c s kind hs u

/-- C83: the stored energy is never negative. -/
theorem C83_stored_nonneg (cells : List (MeshCell d n N)) (hcell : ∀ c ∈ cells, SpecCell c)
    (hst : ∀ c ∈ cells, SpecMaterial c.prm)
    (hmacro : ∀ c ∈ cells, c.prm.macroStrainᵀ = c.prm.macroStrain) (u : ℕ → ℝ) :
    0 ≤ SpecStored cells u := by
  unfold SpecStored
  refine List.sum_nonneg fun x hx => ?_
  obtain ⟨c, hc, rfl⟩ := List.mem_map.1 hx
  have hs := hst c hc
  refine sum_nonneg fun q _ => mul_nonneg ((hcell c hc).weight q).le ?_
  unfold SpecStoredAt
  have h1 := energy_nonneg' c.prm hs _ (strainAt_symm c.prm (hmacro c hc) c.kind _
    ((hcell c hc).primitive q) (u ∘ c.dofs))
  have h2 : 0 ≤ ∑ a, SpecDefectEnergy c.prm.vec.factor c.prm.vec.index (c.prm.sys a)
      ((c.pts q).shape.slipGrad (u ∘ c.dofs) a) := sum_nonneg fun a _ =>
    (C30_power c.prm.vec hs.vec hs.index (c.prm.sys a) _ _ (microstress_eq c.prm.vec hs.index _ _)).2.1
  have := hs.dn0; have := hs.dn2; have := hs.dn3
  positivity

/-- C83 for a body left alone: without supply, however long the run, all the energy dissipated comes
out of the energy stored at the start. -/
theorem C83_unloaded_partial (run : List (RunCell d n N)) (hcell : ∀ r ∈ run, SpecCell r.cell)
    (hmat : ∀ r ∈ run, SpecMaterial r.cell.prm)
    (hmacro : ∀ r ∈ run, r.cell.prm.macroStrainᵀ = r.cell.prm.macroStrain)
    (hsup : ∀ r ∈ run, ∀ k q, r.supply k q = 0) (dt : ℕ → ℝ) (u : ℕ → ℕ → ℝ)
    (R : ℕ → MeshCell d n N → Fin N → ℝ) (T : ℕ) (hdt : ∀ k < T, 0 < dt k)
    (hR : ∀ k < T, SpecAssembled (SpecMesh run dt u k) (u (k + 1)) (R k))
    (K : Sol.Constraints ℕ) (m : ℕ) (hK : Homogeneous K m)
    (hm : ∀ r ∈ run, ∀ i, r.cell.dofs i < m)
    (hsat : ∀ k < T, Sol.Satisfies K (u (k + 1) - u k))
    (hconv : ∀ k < T, ∀ r < m,
      Lin.residual K ((SpecMesh run dt u k).map fun c => c.local (R k)) r = 0) :
    ∑ k ∈ range T, SpecDissipated (SpecMesh run dt u k) (u (k + 1)) ≤ SpecBodyEnergy run (u 0) := by
  have h := C83_run_accepted_partial run hcell hmat dt u R T hdt hR K m hK hm hsat hconv
  have h0 : ∑ k ∈ range T, SpecSupplyWork (SpecMesh run dt u k) (u (k + 1) - u k) = 0 :=
    sum_eq_zero fun k _ => supplyWork_zero _ _ fun c hc q => by
      obtain ⟨r, hr, rfl⟩ := List.mem_map.1 hc
      exact hsup r hr k q
  have h1 : 0 ≤ SpecBodyEnergy run (u T) := by
    refine C83_stored_nonneg _ ?_ ?_ ?_ _ <;> intro c hc <;> obtain ⟨r, hr, rfl⟩ := List.mem_map.1 hc
    · exact hcell r hr
    · exact hmat r hr
    · exact hmacro r hr
  linarith

/-! ## Elastic constants the code accepts although the balance fails -/

/-- One displacement degree of freedom, an isochoric stretch, and elastic constants with
`C1122 > C1111`. -/
noncomputable def badMesh : MeshCell 2 0 1 where
  prm := { sys := Fin.elim0, elastic := ⟨1, 2, 1, 1⟩, rot := 1, vec := ⟨1, 1, 2, false⟩,
           law := ⟨.tanh, 1, false, ⟨1, 7, 1, 1, false⟩⟩, dn0 := 1, dn2 := 1, dn3 := 1, dt := 1,
           macroStrain := 0 }
  kind := fun _ => none
  dofs := fun _ => 0
  Q := 1
  pts := fun _ => ⟨⟨1, fun _ => 0, fun _ => !![1, 0; 0, -1], Fin.elim0, Fin.elim0⟩, 0,
    Bulk.init ⟨1, 7, 1, 1, false⟩ 0, Fin.elim0⟩

theorem badMesh_primitive (q : Fin badMesh.Q) : (badMesh.pts q).shape.Primitive badMesh.kind := by
  constructor
  · intro i a; exact a.elim0
  · intro i a; exact a.elim0
  · intro i a; exact a.elim0
  · intro i a; exact a.elim0
  · intro i
    show (!![1, 0; 0, -1] : Mat 2)ᵀ = !![1, 0; 0, -1]
    ext i j; fin_cases i <;> fin_cases j <;> simp

/-- C83 fails for elastic constants the parameter file may contain (all positive, but
`C1122 > C1111`): a purely elastic step releases more energy than the body gives up. -/
theorem C83_violated : ∃ (c : MeshCell 2 0 1) (R : MeshCell 2 0 1 → Fin 1 → ℝ) (u v : ℕ → ℝ),
    c.prm.elastic.accepted ∧ c.prm.vec.accepted ∧ 0 < c.prm.dn0 ∧ 0 < c.prm.dn3 ∧ SpecCell c ∧
    SpecAssembled [c] u R ∧
    SpecStored [c] v + SpecSupplyWork [c] (u - v) + SpecNodalWork [c] R (u - v) <
      SpecStored [c] u + SpecDissipated [c] u := by
  obtain ⟨r, hr, hw⟩ := point_power badMesh.prm (by norm_num [badMesh]) (by norm_num [badMesh])
    badMesh.kind (badMesh.pts (0 : Fin 1)) (badMesh_primitive (0 : Fin 1)) ((fun _ => 1 : ℕ → ℝ) ∘ badMesh.dofs)
  have hA : SpecAssembled [badMesh] (fun _ => 1) fun _ i => r i := by
    intro c hc i
    rw [List.mem_singleton] at hc
    subst hc
    have := sumOpt_some (fun q : Fin badMesh.Q => badMesh.prm.rhsTerm badMesh.kind
      (badMesh.pts q) ((fun _ => 1 : ℕ → ℝ) ∘ badMesh.dofs) i) (fun _ => r i) fun q => hr i
    refine this.trans ?_
    show some (∑ _q : Fin 1, r i) = _
    rw [Fin.sum_univ_one]
  refine ⟨badMesh, fun _ => r, fun _ => 1, fun _ => 0, ?_, ?_, ?_, ?_, ?_, hA, ?_⟩
  · norm_num [badMesh, Elastic.accepted]
  · norm_num [badMesh, VecLaw.accepted]
  · norm_num [badMesh]
  · norm_num [badMesh]
  · exact ⟨badMesh_primitive, fun q => show (0 : ℝ) < 1 by norm_num, fun q => rfl, fun q a => a.elim0⟩
  · have hstr : ∀ t : ℝ, badMesh.prm.elasticStrainAt (badMesh.pts (0 : Fin 1)).shape
        ((fun _ => t : ℕ → ℝ) ∘ badMesh.dofs) = t • !![1, 0; 0, -1] := by
      intro t
      unfold CellPrm.elasticStrainAt
      rw [elasticStrain_finRange, Finset.univ_eq_empty, Finset.sum_empty, smul_zero, sub_zero]
      show 0 + ∑ _j : Fin 1, t • !![(1 : ℝ), 0; 0, -1] = _
      rw [Fin.sum_univ_one, zero_add]
    have hen : ∀ t : ℝ, SpecEnergy2 badMesh.prm.elastic badMesh.prm.rot
        (t • !![1, 0; 0, -1]) = -2 * t ^ 2 := by
      intro t
      rw [energy_eq]
      have hrot : badMesh.prm.rot = 1 := rfl
      have hel : badMesh.prm.elastic = ⟨1, 2, 1, 1⟩ := rfl
      rw [hrot, hel, Matrix.transpose_one, Matrix.one_mul, Matrix.mul_one]
      simp [Fin.sum_univ_two, SpecCubic]
      ring
    have hst : ∀ t : ℝ, SpecStored [badMesh] (fun _ => t) = -t ^ 2 := by
      intro t
      unfold SpecStored
      rw [List.map_singleton, List.sum_singleton]
      show ∑ q : Fin 1, (1 : ℝ) * SpecStoredAt badMesh.prm (badMesh.pts (0 : Fin 1)).shape
        ((fun _ => t : ℕ → ℝ) ∘ badMesh.dofs) = _
      rw [Fin.sum_univ_one]
      unfold SpecStoredAt
      rw [hstr, hen, Finset.univ_eq_empty, Finset.sum_empty]
      show (1 : ℝ) * (1 / 1 * (1 / 2 * (-2 * t ^ 2)) + _ * 0) = _
      ring
    have hdis : SpecDissipated [badMesh] (fun _ => 1) = 0 := by
      unfold SpecDissipated
      rw [List.map_singleton, List.sum_singleton]
      refine sum_eq_zero fun q _ => ?_
      rw [Finset.univ_eq_empty, Finset.sum_empty, mul_zero]
    have hsup : SpecSupplyWork [badMesh] ((fun _ => 1) - fun _ => 0) = 0 :=
      supplyWork_zero _ _ fun c hc q => by rw [List.mem_singleton] at hc; subst hc; rfl
    have hnod : SpecNodalWork [badMesh] (fun _ => r) ((fun _ => 1) - fun _ => 0) = -2 := by
      unfold SpecNodalWork
      rw [List.map_singleton, List.sum_singleton]
      have h1 := hw fun _ => 1
      have h2 : ∑ i, ((fun _ => 1) - fun _ => 0 : ℕ → ℝ) (badMesh.dofs i) * -r i =
          ∑ i, (1 : ℝ) * -r i := sum_congr rfl fun i _ => by simp
      rw [h2, h1]
      have h3 : SpecElasticStrain badMesh.prm (badMesh.pts (0 : Fin 1)).shape (fun _ => 1) =
          !![1, 0; 0, -1] := by
        have h4 := elasticStrainAt_sub badMesh.prm (badMesh.pts (0 : Fin 1)).shape
          ((fun _ => 1 : ℕ → ℝ) ∘ badMesh.dofs) ((fun _ => 0 : ℕ → ℝ) ∘ badMesh.dofs)
        rw [hstr, hstr, one_smul, zero_smul, sub_zero] at h4
        rw [h4]
        congr 1
        ext i
        simp
      have h5 : ddot !![1, 0; 0, -1] (badMesh.prm.stressAt (badMesh.pts (0 : Fin 1)).shape
          ((fun _ => 1 : ℕ → ℝ) ∘ badMesh.dofs)) = -2 := by
        have := hen 1
        unfold SpecEnergy2 at this
        unfold CellPrm.stressAt ddot
        rw [hstr, one_smul] at *
        simpa using this
      rw [h3, h5]
      have h6 : (badMesh.pts (0 : Fin 1)).supply = 0 := rfl
      rw [h6, dotProduct_zero]
      simp only [Finset.univ_eq_empty, Finset.sum_empty]
      have h7 : (badMesh.pts (0 : Fin 1)).shape.jxw = 1 := rfl
      rw [h7]
      norm_num [badMesh]
    rw [hst, hst, hdis, hsup, hnod]
    norm_num

/-! ## Concrete case -/

/-- Two steps of the concrete cell, first slipping forwards, then backwards, under changing forces. -/
example (u : ℕ → ℕ → ℝ) (_ : u 0 1 = 0) (_ : u 1 1 = 4) (_ : u 2 1 = 1) :
    ∃ R : ℕ → MeshCell 2 1 2 → Fin 2 → ℝ, SpecBodyEnergy [⟨exMesh 1, fun k _ => ![(k : ℝ), 0]⟩] (u 2) +
      ∑ k ∈ range 2, SpecDissipated (SpecMesh [⟨exMesh 1, fun k _ => ![(k : ℝ), 0]⟩]
        (fun k => (k : ℝ) + 1) u k) (u (k + 1)) ≤
      SpecBodyEnergy [⟨exMesh 1, fun k _ => ![(k : ℝ), 0]⟩] (u 0) + ∑ k ∈ range 2,
        (SpecSupplyWork (SpecMesh [⟨exMesh 1, fun k _ => ![(k : ℝ), 0]⟩]
          (fun k => (k : ℝ) + 1) u k) (u (k + 1) - u k) +
        SpecNodalWork (SpecMesh [⟨exMesh 1, fun k _ => ![(k : ℝ), 0]⟩]
          (fun k => (k : ℝ) + 1) u k) (R k) (u (k + 1) - u k)) := by
  have hA : ∀ k, ∃ R, SpecAssembled (SpecMesh [⟨exMesh 1, fun k _ => ![(k : ℝ), 0]⟩]
      (fun k => (k : ℝ) + 1) u k) (u (k + 1)) R := by
    intro k
    set c : MeshCell 2 1 2 := RunCell.at ⟨exMesh 1, fun k _ => ![(k : ℝ), 0]⟩ (fun k => (k : ℝ) + 1) u k
    have hm := exMesh_material 1.4 (by norm_num) 1
    obtain ⟨r, hr, -⟩ := point_power c.prm hm.index hm.dn0.ne' c.kind (c.pts (0 : Fin 1))
      exShape_primitive (u (k + 1) ∘ c.dofs)
    refine ⟨fun _ i => r i, fun c' hc' i => ?_⟩
    obtain rfl := List.mem_singleton.1 hc'
    have := sumOpt_some (fun q : Fin c.Q => c.prm.rhsTerm c.kind
      (c.pts q) (u (k + 1) ∘ c.dofs) i) (fun _ => r i) fun q => by
        have : q = (0 : Fin 1) := Subsingleton.elim (α := Fin 1) _ _
        rw [this]; exact hr i
    refine this.trans ?_
    show some (∑ _q : Fin 1, r i) = _
    rw [Fin.sum_univ_one]
  choose R hR using hA
  refine ⟨R, (C83_run_partial [⟨exMesh 1, fun k _ => ![(k : ℝ), 0]⟩] ?_ ?_ (fun k => (k : ℝ) + 1) u R 2
    (fun k _ => by positivity) fun k _ => hR k).1⟩
  · intro r hr; obtain rfl := List.mem_singleton.1 hr; exact exMesh_cell 1.4 1
  · intro r hr; obtain rfl := List.mem_singleton.1 hr; exact exMesh_material 1.4 (by norm_num) 1

/-- Unloading in a concrete case: the displacement 1 springs back to zero, the slip is held. -/
example (u : ℕ → ℕ → ℝ) (_ : u 0 0 = 1) (h01 : u 0 1 = 0) (h1 : u 1 = 0) :
    ∃ R : ℕ → MeshCell 2 1 2 → Fin 2 → ℝ,
    (∀ k < 1, SpecAssembled (SpecMesh [⟨exMesh 0, fun _ _ => 0⟩] (fun _ => 1) u k) (u (k + 1)) (R k)) ∧
    ∑ k ∈ range 1, SpecDissipated (SpecMesh [⟨exMesh 0, fun _ _ => 0⟩] (fun _ => 1) u k) (u (k + 1)) ≤
      SpecBodyEnergy [⟨exMesh 0, fun _ _ => 0⟩] (u 0) := by
  set c : MeshCell 2 1 2 := RunCell.at ⟨exMesh 0, fun _ _ => 0⟩ (fun _ => 1) u 0 with hc
  have hm := exMesh_material 1.4 (by norm_num) 0
  obtain ⟨r, hr, -⟩ := point_power c.prm hm.index hm.dn0.ne' c.kind (c.pts (0 : Fin 1))
    exShape_primitive (u 1 ∘ c.dofs)
  have hA : SpecAssembled (SpecMesh [⟨exMesh 0, fun _ _ => 0⟩] (fun _ => 1) u 0) (u 1) fun _ => r := by
    intro c' hc' i
    obtain rfl := List.mem_singleton.1 hc'
    have := sumOpt_some (fun q : Fin c.Q => c.prm.rhsTerm c.kind
      (c.pts q) (u 1 ∘ c.dofs) i) (fun _ => r i) fun q => by
        have : q = (0 : Fin 1) := Subsingleton.elim (α := Fin 1) _ _
        rw [this]; exact hr i
    refine this.trans ?_
    show some (∑ _q : Fin 1, r i) = _
    rw [Fin.sum_univ_one]
  have hz : r 0 = 0 := by
    have hs : c.prm.stressAt exShape (u 1 ∘ c.dofs) = 0 := by
      have he : c.prm.elasticStrainAt exShape (u 1 ∘ c.dofs) = 0 := by
        unfold CellPrm.elasticStrainAt
        rw [elasticStrain_finRange, h1]
        show (0 : Mat 2) + _ = 0
        simp [Shape.strain, Shape.slip]
      unfold CellPrm.stressAt
      rw [he]
      ext i j
      simp [stress_eq]
    have h := hr 0
    have h' : c.prm.rhsTerm c.kind (c.pts (0 : Fin 1)) (u 1 ∘ c.dofs) 0 =
        some (-(5 / 2 * (ddot (exShape.symGrad 0) (c.prm.stressAt exShape (u 1 ∘ c.dofs)) -
          exShape.disp 0 ⬝ᵥ 0) * (1 / 2))) := rfl
    rw [h', hs] at h
    rw [← Option.some.inj h]
    simp [ddot]
  refine ⟨fun _ _ => r, fun k hk => ?_, C83_unloaded_partial [⟨exMesh 0, fun _ _ => 0⟩] ?_ ?_ ?_ ?_
    (fun _ => 1) u (fun _ _ => r) 1 (fun _ _ => one_pos) ?_ exPinned 2 exPinned_ok ?_ ?_ ?_⟩
  · obtain rfl : k = 0 := by omega
    exact hA
  · intro r hr; obtain rfl := List.mem_singleton.1 hr; exact exMesh_cell 1.4 0
  · intro r hr; obtain rfl := List.mem_singleton.1 hr; exact hm
  · intro r hr; obtain rfl := List.mem_singleton.1 hr
    show (0 : Mat 2)ᵀ = 0
    simp
  · intro r hr; obtain rfl := List.mem_singleton.1 hr; exact fun _ _ => rfl
  · intro k hk
    obtain rfl : k = 0 := by omega
    exact hA
  · intro r hr i; obtain rfl := List.mem_singleton.1 hr; exact i.2
  · intro k hk
    obtain rfl : k = 0 := by omega
    exact exPinned_satisfies _ (by simp [h1, h01])
  · intro k hk r' hr'
    obtain rfl : k = 0 := by omega
    by_cases h : r' = 1
    · exact residual_constrained exPinned_ok _ (by rw [h]; simp [exPinned])
    · obtain rfl : r' = 0 := by omega
      unfold Lin.residual SpecMesh
      rw [List.map_map, List.map_singleton, List.map_singleton, List.sum_singleton]
      show ∑ i : Fin 2, Asm.weight exPinned (i : ℕ) 0 * r i = 0
      rw [Fin.sum_univ_two, hz, mul_zero, zero_add]
      simp [Asm.weight, exPinned]

end Verif.Asm
