import Verif.Props.Unique
import Verif.Props.ElasticStep

/-!
# The residual controls the error: C115
-/

namespace Verif.Asm
open Matrix Finset Verif.Cry Verif.Hist Verif.Micro Verif.Lin

variable {d n N : ℕ}

/-! ## Specification -/

/-- Energy of the difference of the elastic strains of two states (twice the elastic energy). -/
noncomputable def SpecElasticError (cells : List (MeshCell d n N)) (u v : ℕ → ℝ) : ℝ :=
  (cells.map fun c => ∑ q, (c.pts q).shape.jxw * (c.prm.dn3 / c.prm.dn0 *
    SpecEnergy2 c.prm.elastic c.prm.rot (c.prm.elasticStrainAt (c.pts q).shape (u ∘ c.dofs) -
      c.prm.elasticStrainAt (c.pts q).shape (v ∘ c.dofs)))).sum

/-- Work of the difference of the vectorial microstresses of two states on the difference of their slip
gradients. -/
noncomputable def SpecDefectError (cells : List (MeshCell d n N)) (u v : ℕ → ℝ) : ℝ :=
  (cells.map fun c => ∑ q, (c.pts q).shape.jxw * (c.prm.dn2 * ∑ a,
    ((c.pts q).shape.slipGrad (u ∘ c.dofs) a - (c.pts q).shape.slipGrad (v ∘ c.dofs) a) ⬝ᵥ
      (xi c.prm.vec (c.prm.sys a) ((c.pts q).shape.slipGrad (u ∘ c.dofs) a) -
        xi c.prm.vec (c.prm.sys a) ((c.pts q).shape.slipGrad (v ∘ c.dofs) a)))).sum

/-- Work of the difference of the scalar microstresses of two states on the difference of their slips. -/
noncomputable def SpecSlipError (cells : List (MeshCell d n N)) (u v : ℕ → ℝ) : ℝ :=
  (cells.map fun c => ∑ q, (c.pts q).shape.jxw * ∑ a,
    ((c.pts q).shape.slip (u ∘ c.dofs) a - (c.pts q).shape.slip (v ∘ c.dofs) a) *
      (c.prm.law.evalMicrostress (c.pts q).hist ((c.pts q).shape.slip (u ∘ c.dofs)) (c.pts q).old c.prm.dt a -
        c.prm.law.evalMicrostress (c.pts q).hist ((c.pts q).shape.slip (v ∘ c.dofs)) (c.pts q).old
          c.prm.dt a)).sum

/-- The residual vector the solver measures in the state `u`: assembled and condensed. -/
def SpecResidualVector (cells : List (MeshCell d n N)) (K : Sol.Constraints ℕ) (m : ℕ) (u r : ℕ → ℝ) : Prop :=
  ∃ R, SpecAssembled cells u R ∧ ∀ g < m, Lin.residual K (cells.map fun c => c.local R) g = r g

/-- Euclidean length of the first `m` entries. -/
noncomputable def SpecLength (m : ℕ) (w : ℕ → ℝ) : ℝ := √(∑ g ∈ range m, w g ^ 2)

/-- The body with other supplies at the quadrature points. -/
def SpecWithSupply (c : MeshCell d n N) (f : (c : MeshCell d n N) → Fin c.Q → Vec d) : MeshCell d n N :=
  ⟨c.prm, c.kind, c.dofs, c.Q, fun q => { c.pts q with supply := f c q }⟩

/-- What the material and the mesh have to meet (C84): stable elasticity, latent hardening within the bound. -/
structure SpecStableBody (cells : List (MeshCell d n N)) : Prop where
  cell : ∀ c ∈ cells, SpecCell c
  material : ∀ c ∈ cells, SpecMaterial c.prm
  hardens : ∀ c ∈ cells, SpecHardens c.prm.law.hard
  sharp : ∀ c ∈ cells, ∀ q a, SpecLatent c.prm.law n c.prm.dt ≤ (c.pts q).hist.tmp a

/-! ## Helpers -/

/-- Work of the nodal forces is minus the residual times the increment. -/
theorem work_residual (cells : List (MeshCell d n N)) {w : ℕ → ℝ} {R : MeshCell d n N → Fin N → ℝ}
    {K : Sol.Constraints ℕ} {m : ℕ} (hK : Homogeneous K m) (hm : ∀ c ∈ cells, ∀ i, c.dofs i < m)
    (hsat : Sol.Satisfies K w) {r : ℕ → ℝ}
    (hr : ∀ g < m, Lin.residual K (cells.map fun c => c.local R) g = r g) :
    SpecNodalWork cells R w = -∑ g ∈ range m, w g * r g := by
  have hn : Numbered (cells.map fun c => c.local R) m := by
    constructor
    · intro a ha i
      obtain ⟨c, hc, rfl⟩ := List.mem_map.1 ha
      exact hm c hc i
    · intro a ha b hb
      obtain ⟨c, hc, rfl⟩ := List.mem_map.1 ha
      simp [MeshCell.local] at hb
  have ht := residual_test hK hn hsat
  rw [sum_congr rfl fun g hg => by rw [hr g (mem_range.1 hg)]] at ht
  rw [ht]
  unfold SpecNodalWork SpecResidual
  rw [List.map_map, ← neg_one_mul, ← List.sum_map_mul_left]
  congr 1
  refine List.map_congr_left fun c _ => ?_
  rw [Function.comp_apply, Finset.mul_sum]
  exact sum_congr rfl fun i _ => by show _ = -1 * (w (c.dofs i) * R c i); ring

/-- Difference of the works of the nodal forces of two states. -/
theorem work_gap (cells : List (MeshCell d n N)) (h : SpecStableBody cells)
    (u v : ℕ → ℝ) (R R' : MeshCell d n N → Fin N → ℝ) (hR : SpecAssembled cells u R)
    (hR' : SpecAssembled cells v R') :
    SpecElasticError cells u v + SpecDefectError cells u v + SpecSlipError cells u v =
      SpecNodalWork cells R (u - v) - SpecNodalWork cells R' (u - v) := by
  have hgap : ∀ c ∈ cells, ∑ q, (c.pts q).shape.jxw * gap c.prm (c.pts q) (u ∘ c.dofs) (v ∘ c.dofs) =
      ∑ i, (u - v) (c.dofs i) * -R c i - ∑ i, (u - v) (c.dofs i) * -R' c i := by
    intro c hc
    have hs := h.material c hc
    have p1 := cell_power c.prm hs.index hs.dn0.ne' c.kind c.pts (h.cell c hc).primitive (u ∘ c.dofs)
      (R c) (hR c hc) ((u - v) ∘ c.dofs)
    have p2 := cell_power c.prm hs.index hs.dn0.ne' c.kind c.pts (h.cell c hc).primitive (v ∘ c.dofs)
      (R' c) (hR' c hc) ((u - v) ∘ c.dofs)
    simp only [Function.comp_apply] at p1 p2
    rw [p1, p2, ← Finset.sum_sub_distrib]
    refine sum_congr rfl fun q _ => ?_
    have hd : (u - v) ∘ c.dofs = u ∘ c.dofs - v ∘ c.dofs := rfl
    rw [hd]
    unfold gap
    rw [← elastic_gap]
    simp only [slip_sub, Finset.sum_sub_distrib, mul_sub]
    ring
  unfold SpecElasticError SpecDefectError SpecSlipError SpecNodalWork
  have e : ∀ c ∈ cells, ∑ i, (u - v) (c.dofs i) * -R c i =
      ∑ i, (u - v) (c.dofs i) * -R' c i +
        ∑ q, (c.pts q).shape.jxw * gap c.prm (c.pts q) (u ∘ c.dofs) (v ∘ c.dofs) := fun c hc => by
    rw [hgap c hc]; ring
  rw [List.map_congr_left e, List.sum_map_add (f := fun c => ∑ i, (u - v) (c.dofs i) * -R' c i),
    add_sub_cancel_left, ← List.sum_map_add, ← List.sum_map_add]
  congr 1
  refine List.map_congr_left fun c _ => ?_
  rw [← sum_add_distrib, ← sum_add_distrib]
  refine sum_congr rfl fun q _ => ?_
  unfold gap
  rw [elasticStrainAt_sub]
  simp only [slipGrad_sub, ← dotProduct_sub]
  ring

theorem errors_nonneg (cells : List (MeshCell d n N)) (h : SpecStableBody cells) (u v : ℕ → ℝ) :
    0 ≤ SpecElasticError cells u v ∧ 0 ≤ SpecDefectError cells u v ∧ 0 ≤ SpecSlipError cells u v := by
  have key : ∀ c ∈ cells, ∀ q, _ := fun c hc q => gap_parts c.prm (h.material c hc) (h.hardens c hc) c.kind (c.pts q)
    ((h.cell c hc).primitive q) ((h.cell c hc).hist q) ((h.cell c hc).res q) (h.sharp c hc q) (u ∘ c.dofs)
      (v ∘ c.dofs)
  refine ⟨List.sum_nonneg fun x hx => ?_, List.sum_nonneg fun x hx => ?_, List.sum_nonneg fun x hx => ?_⟩ <;>
    obtain ⟨c, hc, rfl⟩ := List.mem_map.1 hx <;>
    refine sum_nonneg fun q _ => mul_nonneg ((h.cell c hc).weight q).le ?_
  · rw [elasticStrainAt_sub]
    exact (key c hc q).1
  · have := (key c hc q).2.1
    simp only [slipGrad_sub, ← dotProduct_sub] at this
    exact this
  · exact (key c hc q).2.2

theorem length_nonneg (m : ℕ) (w : ℕ → ℝ) : 0 ≤ SpecLength m w := Real.sqrt_nonneg _

theorem length_sq (m : ℕ) (w : ℕ → ℝ) : SpecLength m w ^ 2 = ∑ g ∈ range m, w g ^ 2 :=
  Real.sq_sqrt (sum_nonneg fun _ _ => sq_nonneg _)

theorem cauchy (m : ℕ) (a b : ℕ → ℝ) : |∑ g ∈ range m, a g * b g| ≤ SpecLength m a * SpecLength m b := by
  refine abs_le_of_sq_le_sq ?_ (mul_nonneg (length_nonneg m a) (length_nonneg m b))
  rw [mul_pow, length_sq, length_sq]
  exact sum_mul_sq_le_sq_mul_sq _ _ _

/-! ## Property -/

/-- C115: the errors of two states of a step, in elastic strain, slip gradients and slips, are not negative,
and together at most the distance of their residuals times the distance of the states. -/
theorem C115_error (cells : List (MeshCell d n N)) (h : SpecStableBody cells) (K : Sol.Constraints ℕ) (m : ℕ)
    (hK : Homogeneous K m) (hm : ∀ c ∈ cells, ∀ i, c.dofs i < m) (u v r s : ℕ → ℝ)
    (hu : SpecResidualVector cells K m u r) (hv : SpecResidualVector cells K m v s)
    (hsat : Sol.Satisfies K (u - v)) :
    (0 ≤ SpecElasticError cells u v ∧ 0 ≤ SpecDefectError cells u v ∧ 0 ≤ SpecSlipError cells u v) ∧
    SpecElasticError cells u v + SpecDefectError cells u v + SpecSlipError cells u v ≤
      SpecLength m (r - s) * SpecLength m (u - v) := by
  refine ⟨errors_nonneg cells h u v, ?_⟩
  obtain ⟨R, hR, hr⟩ := hu
  obtain ⟨S, hS, hs⟩ := hv
  rw [work_gap cells h u v R S hR hS, work_residual cells hK hm hsat hr, work_residual cells hK hm hsat hs]
  have := neg_abs_le (∑ g ∈ range m, (r - s) g * (u - v) g)
  have h2 := cauchy m (r - s) (u - v)
  have e : ∑ g ∈ range m, (r - s) g * (u - v) g =
      ∑ g ∈ range m, (u - v) g * r g - ∑ g ∈ range m, (u - v) g * s g := by
    rw [← sum_sub_distrib]
    exact sum_congr rfl fun g _ => by rw [Pi.sub_apply]; ring
  linarith

/-- C115, for a converged state: against every solution of the step, the energy of the error in the elastic
strains is at most the tolerance times the distance. -/
theorem C115_converged (cells : List (MeshCell d n N)) (h : SpecStableBody cells) (K : Sol.Constraints ℕ) (m : ℕ)
    (hK : Homogeneous K m) (hm : ∀ c ∈ cells, ∀ i, c.dofs i < m) (u v r : ℕ → ℝ) (tol : ℝ)
    (hu : SpecResidualVector cells K m u r) (ht : SpecLength m r ≤ tol) (hv : SpecSolution cells K m v)
    (hsat : Sol.Satisfies K (u - v)) :
    SpecElasticError cells u v ≤ tol * SpecLength m (u - v) ∧
    SpecElasticError cells u v + SpecDefectError cells u v + SpecSlipError cells u v ≤
      tol * SpecLength m (u - v) := by
  obtain ⟨⟨h1, h2, h3⟩, h4⟩ := C115_error cells h K m hK hm u v r 0 hu hv hsat
  rw [sub_zero] at h4
  have := mul_le_mul_of_nonneg_right ht (length_nonneg m (u - v))
  constructor <;> linarith

/-- C115, where the mesh and the stored energy determine the unknowns (the stored energy of a difference of
states is at least `k` times its square): the distance of a converged state from the solution is at most
the tolerance over `k`. -/
theorem C115_distance (cells : List (MeshCell d n N)) (h : SpecStableBody cells) (K : Sol.Constraints ℕ) (m : ℕ)
    (hK : Homogeneous K m) (hm : ∀ c ∈ cells, ∀ i, c.dofs i < m) (u v r : ℕ → ℝ) (tol k : ℝ) (hk : 0 < k)
    (hu : SpecResidualVector cells K m u r) (ht : SpecLength m r ≤ tol) (hv : SpecSolution cells K m v)
    (hsat : Sol.Satisfies K (u - v))
    (hstiff : ∀ u v, Sol.Satisfies K (u - v) →
      k * SpecLength m (u - v) ^ 2 ≤ SpecElasticError cells u v + SpecDefectError cells u v) :
    SpecLength m (u - v) ≤ tol / k := by
  obtain ⟨⟨h1, h2, h3⟩, -⟩ := C115_error cells h K m hK hm u v r 0 hu hv hsat
  have h4 := (C115_converged cells h K m hK hm u v r tol hu ht hv hsat).2
  have h5 := hstiff u v hsat
  have h6 := length_nonneg m (u - v)
  rw [le_div_iff₀ hk]
  rcases h6.eq_or_lt with h0 | h0
  · rw [← h0, zero_mul]
    exact (length_nonneg m r).trans ht
  · exact le_of_mul_le_mul_right (by nlinarith) h0

/-! ## Loads -/

theorem supply_cell {c : MeshCell d n N} (hc : SpecCell c) (f : (c : MeshCell d n N) → Fin c.Q → Vec d) :
    SpecCell (SpecWithSupply c f) :=
  ⟨hc.primitive, hc.weight, hc.hist, hc.res⟩

/-- C115 for loads: the solutions of a step under two supplies differ by an energy of at most the work of the
difference of the supplies on the difference of the displacements. -/
theorem C115_loads (cells : List (MeshCell d n N)) (h : SpecStableBody cells) (K : Sol.Constraints ℕ) (m : ℕ)
    (hK : Homogeneous K m) (hm : ∀ c ∈ cells, ∀ i, c.dofs i < m)
    (f g : (c : MeshCell d n N) → Fin c.Q → Vec d) (u v : ℕ → ℝ)
    (hu : SpecSolution (cells.map (SpecWithSupply · f)) K m u)
    (hv : SpecSolution (cells.map (SpecWithSupply · g)) K m v) (hsat : Sol.Satisfies K (u - v)) :
    SpecElasticError cells u v + SpecDefectError cells u v + SpecSlipError cells u v =
      SpecSupplyWork (cells.map (SpecWithSupply · fun c q => f c q - g c q)) (u - v) := by
  obtain ⟨R, hR, hr⟩ := hu
  obtain ⟨S, hS, hs⟩ := hv
  have w1 := solution_work _ hK (by
    intro c hc i; obtain ⟨c', hc', rfl⟩ := List.mem_map.1 hc; exact hm c' hc' i) hsat hr
  have w2 := solution_work _ hK (by
    intro c hc i; obtain ⟨c', hc', rfl⟩ := List.mem_map.1 hc; exact hm c' hc' i) hsat hs
  have hgap : ∀ c ∈ cells, ∑ q, (c.pts q).shape.jxw * gap c.prm (c.pts q) (u ∘ c.dofs) (v ∘ c.dofs) =
      (∑ i, (u - v) (c.dofs i) * -R (SpecWithSupply c f) i - ∑ i, (u - v) (c.dofs i) * -S (SpecWithSupply c g) i) +
      ∑ q, (c.pts q).shape.jxw * (c.prm.dn3 / c.prm.dn0 *
        ((c.pts q).shape.displacement ((u - v) ∘ c.dofs) ⬝ᵥ (f c q - g c q))) := by
    intro c hc
    have hs := h.material c hc
    have p1 := cell_power c.prm hs.index hs.dn0.ne' c.kind
      (fun q : Fin c.Q => ({ c.pts q with supply := f c q } : Point d n N)) (h.cell c hc).primitive
      (u ∘ c.dofs) (R (SpecWithSupply c f)) (hR _ (List.mem_map.2 ⟨c, hc, rfl⟩)) ((u - v) ∘ c.dofs)
    have p2 := cell_power c.prm hs.index hs.dn0.ne' c.kind
      (fun q : Fin c.Q => ({ c.pts q with supply := g c q } : Point d n N)) (h.cell c hc).primitive
      (v ∘ c.dofs) (S (SpecWithSupply c g)) (hS _ (List.mem_map.2 ⟨c, hc, rfl⟩)) ((u - v) ∘ c.dofs)
    simp only [Function.comp_apply] at p1 p2
    rw [p1, p2, ← Finset.sum_sub_distrib, ← Finset.sum_add_distrib]
    refine sum_congr rfl fun q _ => ?_
    have hd : (u - v) ∘ c.dofs = u ∘ c.dofs - v ∘ c.dofs := rfl
    rw [hd]
    unfold gap
    rw [← elastic_gap]
    simp only [slip_sub, Finset.sum_sub_distrib, mul_sub, dotProduct_sub]
    ring
  unfold SpecElasticError SpecDefectError SpecSlipError
  rw [← List.sum_map_add, ← List.sum_map_add]
  unfold SpecNodalWork at w1 w2
  rw [List.map_map] at w1 w2
  unfold SpecSupplyWork
  rw [List.map_map]
  have t : (cells.map fun c => ∑ q, (c.pts q).shape.jxw * gap c.prm (c.pts q) (u ∘ c.dofs) (v ∘ c.dofs)).sum =
      (cells.map fun c => ∑ q, (c.pts q).shape.jxw * (c.prm.dn3 / c.prm.dn0 *
        ((c.pts q).shape.displacement ((u - v) ∘ c.dofs) ⬝ᵥ (f c q - g c q)))).sum := by
    rw [List.map_congr_left hgap, List.sum_map_add]
    have : (cells.map fun c => ∑ i, (u - v) (c.dofs i) * -R (SpecWithSupply c f) i -
        ∑ i, (u - v) (c.dofs i) * -S (SpecWithSupply c g) i) =
        cells.map fun c => (∑ i, (u - v) (c.dofs i) * -R (SpecWithSupply c f) i) +
          (-1 : ℝ) * ∑ i, (u - v) (c.dofs i) * -S (SpecWithSupply c g) i :=
      List.map_congr_left fun c _ => by ring
    rw [this, List.sum_map_add, List.sum_map_mul_left]
    have w1' : (cells.map fun c => ∑ i, (u - v) (c.dofs i) * -R (SpecWithSupply c f) i).sum = 0 := w1
    have w2' : (cells.map fun c => ∑ i, (u - v) (c.dofs i) * -S (SpecWithSupply c g) i).sum = 0 := w2
    rw [w1', w2']
    ring
  refine Eq.trans ?_ t
  congr 1
  refine List.map_congr_left fun c _ => ?_
  rw [← sum_add_distrib, ← sum_add_distrib]
  refine sum_congr rfl fun q _ => ?_
  unfold gap
  rw [elasticStrainAt_sub]
  simp only [slipGrad_sub, ← dotProduct_sub]
  ring

/-! ## What the Newton loop returns -/

theorem lsRun_satisfies (resid : (ℕ → ℝ) → Option ℝ) {c : Sol.Constraints ℕ} (hc : Sol.Closed c) {blk : ℕ → ℕ}
    (hb : Sol.BlockLocal c blk) (b : ℕ) (stored upd : ℕ → ℝ) (fuel : ℕ) (s : LS.LineSearch) (lam : Option ℝ)
    (x : Option (ℕ → ℝ)) (hx : ∀ y, x = some y → Sol.Satisfies c y) {lam' : Option ℝ} {x' : Option (ℕ → ℝ)}
    (h : Sol.lsRun resid c blk b stored upd fuel s lam x = some (lam', x')) :
    ∀ y, x' = some y → Sol.Satisfies c y := by
  induction fuel generalizing s lam x with
  | zero => simp [Sol.lsRun] at h
  | succ k ih =>
    rw [Sol.lsRun] at h
    simp only at h
    split_ifs at h with hs
    · obtain ⟨-, rfl⟩ := Prod.mk.inj (Option.some.inj h)
      exact hx
    · refine ih _ _ _ ?_ h
      intro y hy
      generalize (LS.getLambda s ((x.bind resid).map LS.objective) lam).2 = o at hy
      cases o with
      | none => simp at hy
      | some l =>
        cases x with
        | none => simp at hy
        | some z =>
          simp only [Option.some.injEq] at hy
          subst hy
          exact Sol.C63_line_search_keeps c hc blk hb b stored upd [l] z (hx z rfl)

theorem advance_satisfies {p : Lin.Problem N} (hc : Sol.Closed p.aff) (hb : Sol.BlockLocal p.aff p.blk)
    (q : Lin.Search) (norm : (ℕ → ℝ) → ℝ) (b : ℕ) (upd stored x : ℕ → ℝ) (hx : Sol.Satisfies p.aff x) :
    ∀ y, p.advance q norm b upd stored x = some y → Sol.Satisfies p.aff y := by
  intro y hy
  have hk := Sol.C63_update_keeps p.aff hc p.blk hb b 1 upd x hx
  unfold Lin.Problem.advance at hy
  simp only at hy
  split_ifs at hy with hq
  · cases hr : Sol.lsRun (fun z => some (norm (p.resid z))) p.aff p.blk b stored upd (q.nMax + 3)
      (LS.reinit (LS.construct q.nMax q.alpha) (LS.objective (norm (p.resid x)))) (some 1)
      (some (Sol.updateTrial p.aff p.blk b 1 upd x)) with
    | none => rw [hr] at hy; simp at hy
    | some r =>
      rw [hr] at hy
      simp only [Option.elim_some] at hy
      exact lsRun_satisfies _ hc hb b stored upd _ _ _ _ (fun z hz => by
        rw [← Option.some.inj hz]; exact hk) (lam' := r.1) (x' := r.2) hr y hy
  · rw [← Option.some.inj hy]; exact hk

theorem assembled_always (cells : List (MeshCell d n N)) (h : SpecStableBody cells) (u : ℕ → ℝ) :
    SpecAssembled cells u fun c i => (c.prm.rhs c.kind c.pts (u ∘ c.dofs) i).getD 0 := by
  intro c hc i
  choose r hr _ using fun q => point_power c.prm (h.material c hc).index (h.material c hc).dn0.ne' c.kind
    (c.pts q) ((h.cell c hc).primitive q) (u ∘ c.dofs)
  have := sumOpt_some (fun q : Fin c.Q => c.prm.rhsTerm c.kind (c.pts q) (u ∘ c.dofs) i) (fun q => r q i)
    fun q => hr q i
  have e : c.prm.rhs c.kind c.pts (u ∘ c.dofs) i = some (∑ q, r q i) := this
  show _ = some ((c.prm.rhs c.kind c.pts (u ∘ c.dofs) i).getD 0)
  rw [e]; rfl

theorem handed_residual (cells : List (MeshCell d n N)) (p : Lin.Problem N)
    (hp : ∀ x, p.cells x = cells.map (Lin.SpecHanded · x)) (u : ℕ → ℝ) (g : ℕ) :
    p.resid u g = Lin.residual p.internal (cells.map fun c => c.local fun c i =>
      (c.prm.rhs c.kind c.pts (u ∘ c.dofs) i).getD 0) g := by
  unfold Lin.Problem.resid
  rw [hp u]
  unfold Lin.residual
  rw [List.map_map, List.map_map]
  rfl

/-- A step of a rate-dependent body without grain boundary tractions: the cells are assembled at every trial
solution; the differences of admissible trial solutions are admissible variations. -/
structure SpecBodyStep (cells : List (MeshCell d n N)) (p : Lin.Problem N) : Prop where
  handed : ∀ x, p.cells x = cells.map (Lin.SpecHanded · x)
  homogeneous : Homogeneous p.internal p.n
  closed : Sol.Closed p.aff
  local_ : Sol.BlockLocal p.aff p.blk
  dofs : ∀ c ∈ cells, ∀ i, c.dofs i < p.n
  difference : ∀ x y, Sol.Satisfies p.aff x → Sol.Satisfies p.aff y → Sol.Satisfies p.internal (x - y)

/-- C115, for the monolithic algorithm: whatever it returns, with or without line search, the energy of the
error of its elastic strains against every solution of the step is at most the tolerance of the Newton method
times the distance of the unknowns. -/
theorem C115_returned (cells : List (MeshCell d n N)) (h : SpecStableBody cells) (p : Lin.Problem N)
    (hp : SpecBodyStep cells p) (nMax : ℕ) (tol : ℝ) (s s' : Lin.Step N) (k : ℕ)
    (hret : Drv.monoRD p.mono nMax tol (nMax + 1) 0 s = .returned s' k) :
    ∃ x, s'.trial = some x ∧ Sol.Satisfies p.aff x ∧
      ∀ v, Sol.Satisfies p.aff v → SpecSolution cells p.internal p.n v →
        SpecElasticError cells x v + SpecDefectError cells x v + SpecSlipError cells x v ≤
          tol * SpecLength p.n (x - v) := by
  have key : ∃ t, s' = p.mono.newton (p.mono.post (p.mono.pre t)) ∧ Drv.below (p.mono.norm s') tol := by
    rcases Drv.C07_monolithic_rate_dependent p.mono nMax tol s with ⟨j, h1, _, h3, _, h5⟩ | ⟨_, h5⟩
    · rw [h5] at hret
      injection hret with e1 e2
      rw [← e1]
      obtain ⟨i, rfl⟩ : ∃ i, j = i + 1 := ⟨j - 1, by omega⟩
      refine ⟨Drv.newtonIterate p.mono i s, ?_, (Drv.below_iff _ _).2 h3⟩
      unfold Drv.newtonIterate
      rw [Function.iterate_succ_apply']
    · rw [h5] at hret; simp at hret
  obtain ⟨t, ht, hb⟩ := key
  have hheld : s'.held = s'.trial.map p.resid := by rw [ht]; rfl
  cases hx : s'.trial with
  | none =>
    rw [hx] at hheld
    have : p.mono.norm s' = none := by show s'.held.map _ = _; rw [hheld]; rfl
    rw [this] at hb
    exact absurd hb id
  | some x =>
    rw [hx] at hheld
    have hn : p.mono.norm s' = some (p.total (p.resid x)) := by
      show s'.held.map _ = _; rw [hheld]; rfl
    rw [hn] at hb
    have hlt : p.total (p.resid x) < tol := hb
    have hsat : Sol.Satisfies p.aff x := by
      have e : s'.trial = ((p.mono.post (p.mono.pre t)).trial.bind fun x =>
        p.advance p.searchAll p.total 0 (Lin.newtonUpdate p.internal (p.all (p.cells x)))
          (p.mono.post (p.mono.pre t)).stored x) := by rw [ht]; rfl
      rw [hx] at e
      obtain ⟨y, hy, he⟩ := Option.bind_eq_some_iff.1 e.symm
      refine advance_satisfies hp.closed hp.local_ _ _ _ _ _ y ?_ x he
      have : (p.mono.post (p.mono.pre t)).trial = (p.mono.pre t).trial.map (Sol.distribute p.aff) := rfl
      rw [this] at hy
      obtain ⟨z, -, rfl⟩ := Option.map_eq_some_iff.1 hy
      exact Sol.distribute_satisfies hp.closed z
    refine ⟨x, rfl, hsat, fun v hv hsol => ?_⟩
    exact (C115_converged cells h p.internal p.n hp.homogeneous hp.dofs x v (p.resid x) tol
      ⟨_, assembled_always cells h x, fun g _ => (handed_residual cells p hp.handed x g).symm⟩ hlt.le hsol
      (hp.difference x v hsat hv)).2

/-! ## Concrete cases -/

theorem exStable (f : ℝ) : SpecStableBody [exMeshOf (1 / 4) f] := by
  constructor <;> intro c hc <;> rw [List.mem_singleton] at hc <;> subst hc
  · exact exMesh_cell (1 / 4) f
  · exact exMesh_material (1 / 4) (by norm_num) f
  · exact Or.inr ⟨by norm_num [exMeshOf], by norm_num [exMeshOf], by norm_num [exMeshOf], by norm_num [exMeshOf]⟩
  · intro q a
    show _ ≤ (1 / 1 : ℝ)
    norm_num [SpecLatent, exMeshOf, exCell]

theorem exBound (f : ℝ) : ∀ c ∈ [exMeshOf (1 / 4) f], ∀ i, c.dofs i < 2 := by
  intro c hc i; rw [List.mem_singleton] at hc; subst hc; exact i.2

/-- C115_error for one cell with its slip held, between any two states. -/
example (f : ℝ) (u v : ℕ → ℝ) (hu : u 1 = 3) (hv : v 1 = 3) : ∃ r s,
    SpecResidualVector [exMeshOf (1 / 4) f] exPinned 2 u r ∧ SpecResidualVector [exMeshOf (1 / 4) f] exPinned 2 v s ∧
    SpecElasticError [exMeshOf (1 / 4) f] u v + SpecDefectError [exMeshOf (1 / 4) f] u v +
      SpecSlipError [exMeshOf (1 / 4) f] u v ≤ SpecLength 2 (r - s) * SpecLength 2 (u - v) := by
  have hR := assembled_always _ (exStable f) u
  have hS := assembled_always _ (exStable f) v
  exact ⟨_, _, ⟨_, hR, fun _ _ => rfl⟩, ⟨_, hS, fun _ _ => rfl⟩, (C115_error _ (exStable f) exPinned 2 exPinned_ok
    (exBound f) u v _ _ ⟨_, hR, fun _ _ => rfl⟩ ⟨_, hS, fun _ _ => rfl⟩ (exPinned_satisfies _ (by simp [hu, hv]))).2⟩

/-- Stiffness of the cell against the displacement. -/
noncomputable def exStiffness : ℝ :=
  1 / 2 * (5 / 2 * SpecEnergy2 (exMeshOf (1 / 4) 0).prm.elastic (exMeshOf (1 / 4) 0).prm.rot (exShape.symGrad 0))

theorem exStiffness_pos : 0 < exStiffness := by
  have hm := exMesh_material (1 / 4) (by norm_num) 0
  have hA : (exShape.symGrad 0)ᵀ = exShape.symGrad 0 := exShape_primitive.sym 0
  have h0 : exShape.symGrad 0 ≠ 0 := by
    intro h
    have : exShape.symGrad 0 0 0 = 0 := by rw [h]; rfl
    simp [exShape] at this
  have := C32_positive_partial _ hm.elastic hm.char hm.cubic _ _ hm.rot hA h0
  unfold exStiffness
  positivity

theorem exStiff (f : ℝ) (u v : ℕ → ℝ) (h : u 1 = v 1) :
    SpecElasticError [exMeshOf (1 / 4) f] u v = exStiffness * SpecLength 2 (u - v) ^ 2 := by
  unfold SpecElasticError
  rw [List.map_singleton, List.sum_singleton, length_sq, sum_range_succ, sum_range_one]
  show ∑ _q : Fin 1, _ = _
  rw [Fin.sum_univ_one, elasticStrainAt_sub]
  have e : SpecElasticStrain (exMeshOf (1 / 4) f).prm exShape (u ∘ (exMeshOf (1 / 4) f).dofs -
      v ∘ (exMeshOf (1 / 4) f).dofs) = (u 0 - v 0) • exShape.symGrad 0 := by
    unfold SpecElasticStrain
    have h1 : exShape.strain (u ∘ (exMeshOf (1 / 4) f).dofs - v ∘ (exMeshOf (1 / 4) f).dofs) =
        (u 0 - v 0) • exShape.symGrad 0 := by
      unfold Shape.strain
      rw [Fin.sum_univ_two]
      show (u 0 - v 0) • exShape.symGrad 0 + (u 1 - v 1) • exShape.symGrad 1 = _
      rw [h, sub_self, zero_smul, add_zero]
    have h2 : ∀ a, exShape.slip (u ∘ (exMeshOf (1 / 4) f).dofs - v ∘ (exMeshOf (1 / 4) f).dofs) a = 0 := by
      intro a
      unfold Shape.slip
      rw [Fin.sum_univ_two]
      show (u 0 - v 0) * exShape.phi a 0 + (u 1 - v 1) * exShape.phi a 1 = 0
      simp [h, exShape]
    simp only [h1, h2, zero_smul, Finset.sum_const_zero, smul_zero, sub_zero]
  show 1 / 2 * (5 / 2 * SpecEnergy2 (exMeshOf (1 / 4) f).prm.elastic (exMeshOf (1 / 4) f).prm.rot
    (SpecElasticStrain (exMeshOf (1 / 4) f).prm exShape (u ∘ (exMeshOf (1 / 4) f).dofs -
      v ∘ (exMeshOf (1 / 4) f).dofs))) = _
  rw [e]
  have h3 : ∀ (t : ℝ) (A : Mat 2), SpecEnergy2 (exMeshOf (1 / 4) f).prm.elastic (exMeshOf (1 / 4) f).prm.rot (t • A) =
      t ^ 2 * SpecEnergy2 (exMeshOf (1 / 4) f).prm.elastic (exMeshOf (1 / 4) f).prm.rot A := by
    intro t A
    show cc (exMeshOf (1 / 4) f).prm.tetrad _ _ = _ * cc (exMeshOf (1 / 4) f).prm.tetrad _ _
    rw [cc_smul, cc_symm _ (tetrad_major _), cc_smul, cc_symm _ (tetrad_major _)]
    ring
  rw [h3]
  show _ = exStiffness * ((u 0 - v 0) ^ 2 + (u 1 - v 1) ^ 2)
  rw [h, sub_self]
  unfold exStiffness
  show 1 / 2 * (5 / 2 * ((u 0 - v 0) ^ 2 * SpecEnergy2 (exMeshOf (1 / 4) 0).prm.elastic (exMeshOf (1 / 4) 0).prm.rot
    (exShape.symGrad 0))) = _
  ring

/-- C115_distance in a concrete case: a state whose residual is below the tolerance is close to the solution. -/
example (v : ℕ → ℝ) (hv : v 1 = 3) : ∃ f, SpecSolution [exMeshOf (1 / 4) f] exPinned 2 v ∧
    ∀ u r, u 1 = 3 → SpecResidualVector [exMeshOf (1 / 4) f] exPinned 2 u r → SpecLength 2 r ≤ 1 / 100 →
      SpecLength 2 (u - v) ≤ 1 / 100 / exStiffness := by
  obtain ⟨f, R, hA, hz⟩ := exMesh_solution (1 / 4) (by norm_num) v
  refine ⟨f, ⟨R, hA, hz⟩, fun u r hu hr ht => ?_⟩
  refine C115_distance _ (exStable f) exPinned 2 exPinned_ok (exBound f) u v r _ _ exStiffness_pos hr ht ⟨R, hA, hz⟩
    (exPinned_satisfies _ (by simp [hu, hv])) fun a b hab => ?_
  have h1 : a 1 = b 1 := by
    have := hab 1 ⟨[], 0⟩ (by simp [exPinned])
    simp only [Sol.Line.eval, List.map_nil, List.sum_nil, add_zero, Pi.sub_apply] at this
    linarith
  rw [exStiff f a b h1]
  linarith [(errors_nonneg _ (exStable f) a b).2.1]

/-- A step that only evaluates the residual, with the slip held at 3. -/
noncomputable def exEvaluated (f : ℝ) : Lin.Problem 2 where
  n := 2
  aff := fun d => if d = 1 then some ⟨[], 3⟩ else none
  internal := exPinned
  blk := fun _ => 0
  cells := fun x => [exMeshOf (1 / 4) f].map (Lin.SpecHanded · x)
  all := fun _ _ => 0
  block := fun _ _ _ => 0
  reduced := fun _ _ => 0
  initial := fun _ => 0
  resetSlips := true
  searchAll := ⟨false, 15, 1e-4⟩
  searchMacro := ⟨false, 15, 1e-4⟩
  searchMicro := ⟨false, 15, 1e-4⟩

theorem exEvaluated_step (f : ℝ) : SpecBodyStep [exMeshOf (1 / 4) f] (exEvaluated f) where
  handed := fun _ => rfl
  homogeneous := exPinned_ok
  closed := by
    intro i l hl e he
    simp only [exEvaluated] at hl
    split_ifs at hl
    rw [← Option.some.inj hl] at he
    simp at he
  local_ := by
    intro i l hl e he
    simp only [exEvaluated] at hl
    split_ifs at hl
    rw [← Option.some.inj hl] at he
    simp at he
  dofs := exBound f
  difference := by
    intro x y hx hy
    have a := hx 1 ⟨[], 3⟩ (by simp [exEvaluated])
    have b := hy 1 ⟨[], 3⟩ (by simp [exEvaluated])
    simp only [Sol.Line.eval, List.map_nil, List.sum_nil, zero_add] at a b
    exact exPinned_satisfies _ (by simp [a, b])

/-- C115_returned in a concrete case: with a tolerance above the residual of the state the loop returns it. -/
example (f : ℝ) (s : Lin.Step 2) (x : ℕ → ℝ) (hs : s.trial = some x) : ∃ tol s' k,
    Drv.monoRD (exEvaluated f).mono 15 tol 16 0 s = .returned s' k := by
  let t := (exEvaluated f).mono.newton ((exEvaluated f).mono.post ((exEvaluated f).mono.pre s))
  obtain ⟨y, hy⟩ : ∃ y, t.trial = some y := by
    have h : t.trial = (s.trial.map (Sol.distribute (exEvaluated f).aff)).bind fun x =>
        (exEvaluated f).advance (exEvaluated f).searchAll (exEvaluated f).total 0
          (Lin.newtonUpdate (exEvaluated f).internal ((exEvaluated f).all ((exEvaluated f).cells x)))
          (s.trial.getD s.stored) x := rfl
    rw [hs, Option.map_some, Option.bind_some, Lin.advance_off _ rfl] at h
    exact ⟨_, h⟩
  have hheld : t.held = some ((exEvaluated f).resid y) := by
    have : t.held = t.trial.map (exEvaluated f).resid := rfl
    rw [this, hy]; rfl
  refine ⟨(exEvaluated f).total ((exEvaluated f).resid y) + 1, t, 1, ?_⟩
  rw [Drv.monoRD, if_neg (by norm_num)]
  simp only
  rw [if_pos]
  show Drv.below (t.held.map _) _
  rw [hheld]
  show _ < _ + (1 : ℝ)
  linarith

/-- C115_loads in a concrete case: the body force changes the displacement. -/
example (u : ℕ → ℝ) (_ : u 1 = 3) : ∃ f R, SpecAssembled ([exMeshOf (1 / 4) 0].map
      (SpecWithSupply · fun _ _ => ![f, 0])) u R ∧
    ∀ r < 2, Lin.residual exPinned (([exMeshOf (1 / 4) 0].map
      (SpecWithSupply · fun _ _ => ![f, 0])).map fun c => c.local R) r = 0 :=
  exMesh_solution (1 / 4) (by norm_num) u

end Verif.Asm
