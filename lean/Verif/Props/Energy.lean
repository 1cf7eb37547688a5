import Verif.Props.Definite
import Verif.Props.Condense
import Mathlib.Analysis.Convex.Deriv

/-!
# Energy balance of a time step (C83) and uniqueness of its solution (C84)
-/

namespace Verif.Asm
open Matrix Finset Verif.Cry Verif.Hist Verif.Micro Verif.Lin

variable {d n N : ℕ}

/-! ## Specification -/

/-- A cell of the mesh: material data, local degrees of freedom with their global numbers, and
quadrature points (`source/gradient_crystal_plasticity/assembly.cc:637-882`). -/
structure MeshCell (d n N : ℕ) where
  prm : CellPrm d n
  kind : Kind n N
  dofs : Fin N → ℕ
  Q : ℕ
  pts : Fin Q → Point d n N

/-- Free energy stored at a quadrature point in the state `u`: elastic and defect energy, in the
units of the slip equations. -/
noncomputable def SpecStoredAt (c : CellPrm d n) (s : Shape d n N) (u : Fin N → ℝ) : ℝ :=
  c.dn3 / c.dn0 * (1 / 2 * SpecEnergy2 c.elastic c.rot (c.elasticStrainAt s u)) +
    c.dn2 * ∑ a, SpecDefectEnergy c.vec.factor c.vec.index (c.sys a) (s.slipGrad u a)

/-- Energy stored in the body in the state `u` of the degrees of freedom. -/
noncomputable def SpecStored (cells : List (MeshCell d n N)) (u : ℕ → ℝ) : ℝ :=
  (cells.map fun c => ∑ q, (c.pts q).shape.jxw * SpecStoredAt c.prm (c.pts q).shape (u ∘ c.dofs)).sum

/-- Energy dissipated in the step that ends in the state `u`: microstress times slip increment. -/
noncomputable def SpecDissipated (cells : List (MeshCell d n N)) (u : ℕ → ℝ) : ℝ :=
  (cells.map fun c => ∑ q, (c.pts q).shape.jxw * ∑ a,
    c.prm.law.evalMicrostress (c.pts q).hist ((c.pts q).shape.slip (u ∘ c.dofs)) (c.pts q).old
      c.prm.dt a * ((c.pts q).shape.slip (u ∘ c.dofs) a - (c.pts q).old a)).sum

/-- Work of the supply term on the displacement increment `w`. -/
noncomputable def SpecSupplyWork (cells : List (MeshCell d n N)) (w : ℕ → ℝ) : ℝ :=
  (cells.map fun c => ∑ q, (c.pts q).shape.jxw * (c.prm.dn3 / c.prm.dn0 *
    ((c.pts q).shape.displacement (w ∘ c.dofs) ⬝ᵥ (c.pts q).supply))).sum

/-- Work of the forces the rest of the world exerts on the degrees of freedom (minus the assembled
right-hand side `R`) on the increment `w`. -/
noncomputable def SpecNodalWork (cells : List (MeshCell d n N)) (R : MeshCell d n N → Fin N → ℝ)
    (w : ℕ → ℝ) : ℝ := (cells.map fun c => ∑ i, w (c.dofs i) * -R c i).sum

/-- `R` is what the local assembly computes in the state `u`. -/
def SpecAssembled (cells : List (MeshCell d n N)) (u : ℕ → ℝ) (R : MeshCell d n N → Fin N → ℝ) :
    Prop := ∀ c ∈ cells, ∀ i, c.prm.rhs c.kind c.pts (u ∘ c.dofs) i = some (R c i)

/-- The cells as the global assembly sees them. -/
noncomputable def MeshCell.local (c : MeshCell d n N) (R : MeshCell d n N → Fin N → ℝ) : Local N :=
  ⟨c.dofs, fun _ _ => 0, R c, fun _ => 0, []⟩

/-- Well-formed mesh cell: deal.II's guarantees, and history data of the same material. -/
structure SpecCell (c : MeshCell d n N) : Prop where
  primitive : ∀ q, (c.pts q).shape.Primitive c.kind
  weight : ∀ q, 0 < (c.pts q).shape.jxw
  hist : ∀ q, (c.pts q).hist.prm = c.prm.law.hard
  res : ∀ q a, 0 ≤ (c.pts q).hist.tmp a

/-- Material and characteristic quantities for which the balance is claimed; any latent hardening
parameter that is not negative. -/
structure SpecMaterial (c : CellPrm d n) : Prop where
  elastic : c.elastic.accepted
  cubic : c.elastic.c1122 < c.elastic.c1111
  char : 0 < c.elastic.char
  rot : SpecOrthogonal c.rot
  vec : c.vec.accepted
  index : 2 ≤ c.vec.index
  k : 0 < c.law.k
  dt : 0 < c.dt
  dn0 : 0 < c.dn0
  dn2 : 0 ≤ c.dn2
  dn3 : 0 < c.dn3
  hard : c.law.hard.perfect = true ∨
    0 ≤ c.law.hard.modulus ∧ 0 < c.law.hard.characteristic ∧ 0 ≤ c.law.hard.parameter

/-! ## Helpers -/

theorem energy_nonneg' (c : CellPrm d n) (hc : SpecMaterial c) (e : Mat d) (he : eᵀ = e) :
    0 ≤ SpecEnergy2 c.elastic c.rot e := by
  by_cases h : e = 0
  · subst h; simp [SpecEnergy2]
  · exact (C32_positive_partial _ hc.elastic hc.char hc.cubic _ _ hc.rot he h).le

theorem resistance_ge' (b : Bulk n) (hh : b.prm.perfect = true ∨
      0 ≤ b.prm.modulus ∧ 0 < b.prm.characteristic ∧ 0 ≤ b.prm.parameter)
    (slips old : Fin n → ℝ) (a : Fin n) : b.tmp a ≤ (b.update slips old).res a := by
  rcases hb : b.prm.perfect with _ | _
  · rw [C17_hardening_law b slips old a hb]
    rcases hh with h | ⟨h1, h2, h3⟩
    · rw [hb] at h; simp at h
    · have : 0 ≤ ∑ β, b.prm.modulus / b.prm.characteristic *
          (b.prm.parameter + (1 - b.prm.parameter) * (if a = β then 1 else 0)) *
          |slips β - old β| := by
        refine sum_nonneg fun β _ => ?_
        have : 0 ≤ b.prm.modulus / b.prm.characteristic := div_nonneg h1 h2.le
        split_ifs
        · rw [show b.prm.parameter + (1 - b.prm.parameter) * 1 = 1 by ring]; positivity
        · rw [mul_zero, add_zero]; positivity
      linarith
  · rw [C17_perfect b slips old hb]

theorem ddot_sum_left {ι : Type*} (s : Finset ι) (f : ι → Mat d) (b : Mat d) :
    ddot (∑ i ∈ s, f i) b = ∑ i ∈ s, ddot (f i) b := by
  unfold ddot
  simp only [Matrix.sum_apply, Finset.sum_mul]
  have : ∀ k, ∑ j, ∑ i ∈ s, f i k j * b k j = ∑ i ∈ s, ∑ j, f i k j * b k j :=
    fun k => Finset.sum_comm
  simp only [this]
  rw [Finset.sum_comm]

theorem ddot_smul_left (t : ℝ) (a b : Mat d) : ddot (t • a) b = t * ddot a b := by
  unfold ddot
  simp only [Matrix.smul_apply, smul_eq_mul, Finset.mul_sum, mul_assoc]

theorem ddot_sub_left (a a' b : Mat d) : ddot (a - a') b = ddot a b - ddot a' b := by
  unfold ddot
  simp only [Matrix.sub_apply, sub_mul, Finset.sum_sub_distrib]

/-- Principle of virtual power at a quadrature point. -/
theorem point_power (c : CellPrm d n) (hvec : 2 ≤ c.vec.index) (h0 : c.dn0 ≠ 0) (kind : Kind n N)
    (p : Point d n N) (hs : p.shape.Primitive kind) (u : Fin N → ℝ) :
    ∃ r : Fin N → ℝ, (∀ i, c.rhsTerm kind p u i = some (r i)) ∧ ∀ w : Fin N → ℝ,
      ∑ i, w i * -r i = p.shape.jxw * (c.dn3 / c.dn0 *
        (ddot (SpecElasticStrain c p.shape w) (c.stressAt p.shape u) -
          p.shape.displacement w ⬝ᵥ p.supply) +
        c.dn2 * ∑ a, p.shape.slipGrad w a ⬝ᵥ xi c.vec (c.sys a) (p.shape.slipGrad u a) +
        ∑ a, p.shape.slip w a * c.law.evalMicrostress p.hist (p.shape.slip u) p.old c.dt a) := by
  set s := p.shape with hsdef
  set σ := c.stressAt s u with hσ
  set π := fun a => c.law.evalMicrostress p.hist (s.slip u) p.old c.dt a with hπ
  set x := fun a => xi c.vec (c.sys a) (s.slipGrad u a) with hx
  -- a uniform form of the entries
  refine ⟨fun i => -((c.dn3 / c.dn0 * (ddot (s.symGrad i) σ - s.disp i ⬝ᵥ p.supply) +
    c.dn2 * ∑ a, s.grad a i ⬝ᵥ x a -
    ∑ a, s.phi a i * (c.dn3 * resolvedShear (c.sys a) σ - π a)) * s.jxw), fun i => ?_, fun w => ?_⟩
  · unfold CellPrm.rhsTerm
    simp only
    rcases hi : kind i with _ | a
    · simp only
      rw [sum_phi_none s hs _ hi, Finset.sum_eq_zero fun a _ => by
        rw [hs.grad i a (by rw [hi]; simp), zero_dotProduct]]
      congr 1; ring
    · simp only
      rw [microstress_eq c.vec hvec, Option.map_some, sum_phi s hs _ hi, hs.symGrad i a hi,
        hs.disp i a hi, Finset.sum_eq_single a (fun b _ hb => by
          rw [hs.grad i b (by rw [hi]; intro h; exact hb (Option.some.inj h).symm), zero_dotProduct])
          (by simp), zero_dotProduct]
      have : ddot (0 : Mat d) σ = 0 := by simp [ddot]
      rw [this]
      congr 1; ring
  · have e1 : ddot (SpecElasticStrain c s w) σ = ∑ i, w i * (ddot (s.symGrad i) σ) -
        c.dn0 * ∑ i, w i * ∑ a, s.phi a i * resolvedShear (c.sys a) σ := by
      unfold SpecElasticStrain Shape.strain
      rw [ddot_sub_left, ddot_sum_left, ddot_smul_left, ddot_sum_left]
      simp only [ddot_smul_left]
      congr 2
      rw [← slip_sum]
      refine sum_congr rfl fun a _ => ?_
      unfold resolvedShear
      rw [ddot_comm]
    have e2 : s.displacement w ⬝ᵥ p.supply = ∑ i, w i * (s.disp i ⬝ᵥ p.supply) := by
      unfold Shape.displacement
      rw [sum_dotProduct]
      exact sum_congr rfl fun i _ => by rw [smul_dotProduct, smul_eq_mul]
    have e3 : ∑ a, s.slipGrad w a ⬝ᵥ x a = ∑ i, w i * ∑ a, s.grad a i ⬝ᵥ x a := by
      unfold Shape.slipGrad
      simp only [sum_dotProduct, smul_dotProduct, smul_eq_mul, Finset.mul_sum]
      exact Finset.sum_comm
    have e4 : ∑ a, s.slip w a * π a = ∑ i, w i * ∑ a, s.phi a i * π a := slip_sum s w π
    rw [e1, e2, e3, e4]
    have e5 : ∀ i, ∑ a, s.phi a i * (c.dn3 * resolvedShear (c.sys a) σ - π a) =
        c.dn3 * ∑ a, s.phi a i * resolvedShear (c.sys a) σ - ∑ a, s.phi a i * π a := by
      intro i
      rw [Finset.mul_sum, ← Finset.sum_sub_distrib]
      exact sum_congr rfl fun a _ => by ring
    simp only [e5]
    rw [show c.dn3 / c.dn0 * (∑ i, w i * ddot (s.symGrad i) σ -
        c.dn0 * ∑ i, w i * ∑ a, s.phi a i * resolvedShear (c.sys a) σ -
        ∑ i, w i * (s.disp i ⬝ᵥ p.supply)) = c.dn3 / c.dn0 * (∑ i, w i * ddot (s.symGrad i) σ -
        ∑ i, w i * (s.disp i ⬝ᵥ p.supply)) -
        c.dn3 * ∑ i, w i * ∑ a, s.phi a i * resolvedShear (c.sys a) σ by field_simp; ring]
    simp only [Finset.mul_sum (s := (univ : Finset (Fin N))), ← Finset.sum_sub_distrib,
      ← Finset.sum_add_distrib]
    exact sum_congr rfl fun i _ => by ring

/-- Principle of virtual power for a cell. -/
theorem cell_power {Q : ℕ} (c : CellPrm d n) (hvec : 2 ≤ c.vec.index) (h0 : c.dn0 ≠ 0)
    (kind : Kind n N) (pts : Fin Q → Point d n N) (hs : ∀ q, (pts q).shape.Primitive kind)
    (u : Fin N → ℝ) (r : Fin N → ℝ) (hr : ∀ i, c.rhs kind pts u i = some (r i)) (w : Fin N → ℝ) :
    ∑ i, w i * -r i = ∑ q, (pts q).shape.jxw * (c.dn3 / c.dn0 *
        (ddot (SpecElasticStrain c (pts q).shape w) (c.stressAt (pts q).shape u) -
          (pts q).shape.displacement w ⬝ᵥ (pts q).supply) +
        c.dn2 * ∑ a, (pts q).shape.slipGrad w a ⬝ᵥ
          xi c.vec (c.sys a) ((pts q).shape.slipGrad u a) +
        ∑ a, (pts q).shape.slip w a *
          c.law.evalMicrostress (pts q).hist ((pts q).shape.slip u) (pts q).old c.dt a) := by
  choose rq hrq hw using fun q => point_power c hvec h0 kind (pts q) (hs q) u
  have : ∀ i, r i = ∑ q, rq q i := by
    intro i
    have h1 := hr i
    unfold CellPrm.rhs at h1
    rw [sumOpt_some _ _ fun q => hrq q i] at h1
    exact (Option.some.inj h1).symm
  simp only [this, ← hw]
  rw [Finset.sum_comm]
  refine sum_congr rfl fun i _ => ?_
  rw [← Finset.sum_neg_distrib, Finset.mul_sum]

theorem dot_sub' (x g h : Vec d) : (g - h) ⬝ᵥ x = g ⬝ᵥ x - h ⬝ᵥ x := sub_dotProduct _ _ _

/-- The defect energy lies above its tangent. -/
theorem defect_tangent (v : VecLaw) (hv : v.accepted) (hp : 2 ≤ v.index) (s : System d)
    (g g' : Vec d) : SpecDefectEnergy v.factor v.index s g +
      (g' - g) ⬝ᵥ xi v s g ≤ SpecDefectEnergy v.factor v.index s g' := by
  have hd := C30_gradient v hp s g (g' - g) _ (microstress_eq v hp s g)
  have hc : ConvexOn ℝ Set.univ
      (fun t : ℝ => SpecDefectEnergy v.factor v.index s (g + t • (g' - g))) := by
    have h1 := C30_convex v hv s
    refine ⟨convex_univ, fun x _ y _ a b ha hb hab => ?_⟩
    have := h1.2 (Set.mem_univ (g + x • (g' - g))) (Set.mem_univ (g + y • (g' - g))) ha hb hab
    have e : g + (a • x + b • y) • (g' - g) =
        a • (g + x • (g' - g)) + b • (g + y • (g' - g)) := by
      funext i
      simp only [Pi.add_apply, Pi.smul_apply, smul_eq_mul, Pi.sub_apply]
      have : g i = a * g i + b * g i := by rw [← add_mul, hab, one_mul]
      linear_combination this
    rw [← e] at this
    exact this
  have := hc.le_slope_of_hasDerivAt (Set.mem_univ 0) (Set.mem_univ 1) one_pos hd
  rw [slope_def_field] at this
  simp only [sub_zero, div_one, one_smul, zero_smul, add_zero, add_sub_cancel] at this
  have e : (g' - g) ⬝ᵥ xi v s g = ∑ i, xi v s g i * (g' - g) i := by
    unfold dotProduct
    exact sum_congr rfl fun i _ => mul_comm _ _
  rw [e]
  linarith

/-- Elastic strains of two states differ by the strain of the difference. -/
theorem elasticStrainAt_sub (c : CellPrm d n) (s : Shape d n N) (u v : Fin N → ℝ) :
    c.elasticStrainAt s u - c.elasticStrainAt s v = SpecElasticStrain c s (u - v) := by
  unfold CellPrm.elasticStrainAt SpecElasticStrain
  rw [elasticStrain_finRange, elasticStrain_finRange]
  have e1 : s.strain (u - v) = s.strain u - s.strain v := by
    unfold Shape.strain
    rw [← Finset.sum_sub_distrib]
    exact sum_congr rfl fun j _ => by rw [Pi.sub_apply, sub_smul]
  have e2 : ∀ a, s.slip (u - v) a = s.slip u a - s.slip v a := by
    intro a
    unfold Shape.slip
    rw [← Finset.sum_sub_distrib]
    exact sum_congr rfl fun j _ => by rw [Pi.sub_apply, sub_mul]
  rw [e1]
  simp only [e2, sub_smul, Finset.sum_sub_distrib, smul_sub]
  abel

theorem slip_sub (s : Shape d n N) (u v : Fin N → ℝ) (a : Fin n) :
    s.slip (u - v) a = s.slip u a - s.slip v a := by
  unfold Shape.slip
  rw [← Finset.sum_sub_distrib]
  exact sum_congr rfl fun j _ => by rw [Pi.sub_apply, sub_mul]

theorem slipGrad_sub (s : Shape d n N) (u v : Fin N → ℝ) (a : Fin n) :
    s.slipGrad (u - v) a = s.slipGrad u a - s.slipGrad v a := by
  unfold Shape.slipGrad
  rw [← Finset.sum_sub_distrib]
  exact sum_congr rfl fun j _ => by rw [Pi.sub_apply, sub_smul]

/-- The elastic energy lies above its tangent; the gap is the energy of the difference. -/
theorem elastic_tangent (c : CellPrm d n) (s : Shape d n N) (u v : Fin N → ℝ) :
    1 / 2 * SpecEnergy2 c.elastic c.rot (c.elasticStrainAt s u) -
      1 / 2 * SpecEnergy2 c.elastic c.rot (c.elasticStrainAt s v) =
    ddot (SpecElasticStrain c s (u - v)) (c.stressAt s u) -
      1 / 2 * SpecEnergy2 c.elastic c.rot (SpecElasticStrain c s (u - v)) := by
  have hsym := tetrad_major c
  rw [← elasticStrainAt_sub]
  set e := c.elasticStrainAt s u
  set f := c.elasticStrainAt s v
  have h1 : ∀ a, SpecEnergy2 c.elastic c.rot a = cc c.tetrad a a := fun a => rfl
  have h2 : ∀ a, ddot a (c.stressAt s u) = cc c.tetrad a e := fun a => rfl
  rw [h1, h1, h1, h2]
  have h3 : ∀ a, cc c.tetrad a (e - f) = cc c.tetrad a e - cc c.tetrad a f := by
    intro a
    rw [sub_eq_add_neg, cc_add, ← neg_one_smul ℝ f, cc_smul]; ring
  have h4 : ∀ a, cc c.tetrad (e - f) a = cc c.tetrad e a - cc c.tetrad f a := by
    intro a
    rw [cc_symm _ hsym, h3, cc_symm _ hsym a, cc_symm _ hsym a]
  rw [h4, h4, h3, h3, cc_symm _ hsym f e]
  ring

/-! ## C83 -/

/-- C83 at a quadrature point: stored energy plus dissipation do not exceed the power. -/
theorem point_balance (c : CellPrm d n) (hc : SpecMaterial c) (kind : Kind n N) (p : Point d n N)
    (hs : p.shape.Primitive kind)
    (u v : Fin N → ℝ) :
    SpecStoredAt c p.shape u - SpecStoredAt c p.shape v ≤
      c.dn3 / c.dn0 * ddot (SpecElasticStrain c p.shape (u - v)) (c.stressAt p.shape u) +
      c.dn2 * ∑ a, p.shape.slipGrad (u - v) a ⬝ᵥ xi c.vec (c.sys a) (p.shape.slipGrad u a) := by
  unfold SpecStoredAt
  have h3 := hc.dn3
  have h0 := hc.dn0
  have e1 := elastic_tangent c p.shape u v
  have e2 := energy_nonneg' c hc _ (elasticStrain_symm c p.shape kind hs (u - v))
  have e3 : ∑ a, SpecDefectEnergy c.vec.factor c.vec.index (c.sys a) (p.shape.slipGrad u a) -
      ∑ a, SpecDefectEnergy c.vec.factor c.vec.index (c.sys a) (p.shape.slipGrad v a) ≤
      ∑ a, p.shape.slipGrad (u - v) a ⬝ᵥ xi c.vec (c.sys a) (p.shape.slipGrad u a) := by
    rw [← Finset.sum_sub_distrib]
    refine sum_le_sum fun a _ => ?_
    have := defect_tangent c.vec hc.vec hc.index (c.sys a) (p.shape.slipGrad u a)
      (p.shape.slipGrad v a)
    rw [slipGrad_sub, dot_sub']
    rw [dot_sub'] at this
    linarith
  have hq : 0 < c.dn3 / c.dn0 := div_pos h3 h0
  have k1 := mul_le_mul_of_nonneg_left (show
    1 / 2 * SpecEnergy2 c.elastic c.rot (c.elasticStrainAt p.shape u) -
      1 / 2 * SpecEnergy2 c.elastic c.rot (c.elasticStrainAt p.shape v) ≤
      ddot (SpecElasticStrain c p.shape (u - v)) (c.stressAt p.shape u) by linarith) hq.le
  have k2 := mul_le_mul_of_nonneg_left e3 hc.dn2
  linarith

/-- C83: in every time step of rate-dependent or rate-independent behaviour, whatever the mesh, the
number of cells and slip systems, the old state `v` and the new state `u`: the increase of the stored
energy plus the dissipation do not exceed the work done by the supply term and by the forces acting on
the degrees of freedom; and the dissipation is not negative. -/
theorem C83_balance_partial (cells : List (MeshCell d n N)) (hcell : ∀ c ∈ cells, SpecCell c)
    (hst : ∀ c ∈ cells, SpecMaterial c.prm) (u v : ℕ → ℝ)
    (hold : ∀ c ∈ cells, ∀ q a, (c.pts q).old a = (c.pts q).shape.slip (v ∘ c.dofs) a)
    (R : MeshCell d n N → Fin N → ℝ) (hR : SpecAssembled cells u R) :
    SpecStored cells u + SpecDissipated cells u ≤
      SpecStored cells v + SpecSupplyWork cells (u - v) + SpecNodalWork cells R (u - v) ∧
    0 ≤ SpecDissipated cells u := by
  constructor
  · have key : ∀ c ∈ cells,
        ∑ q, (c.pts q).shape.jxw * SpecStoredAt c.prm (c.pts q).shape (u ∘ c.dofs) +
        ∑ q, (c.pts q).shape.jxw * ∑ a,
          c.prm.law.evalMicrostress (c.pts q).hist ((c.pts q).shape.slip (u ∘ c.dofs)) (c.pts q).old
            c.prm.dt a * ((c.pts q).shape.slip (u ∘ c.dofs) a - (c.pts q).old a) ≤
        ∑ q, (c.pts q).shape.jxw * SpecStoredAt c.prm (c.pts q).shape (v ∘ c.dofs) +
        ∑ q, (c.pts q).shape.jxw * (c.prm.dn3 / c.prm.dn0 *
          ((c.pts q).shape.displacement ((u - v) ∘ c.dofs) ⬝ᵥ (c.pts q).supply)) +
        ∑ i, (u - v) (c.dofs i) * -R c i := by
      intro c hc
      have hs := hst c hc
      have hC := hcell c hc
      have hp := cell_power c.prm hs.index hs.dn0.ne' c.kind c.pts hC.primitive (u ∘ c.dofs) (R c)
        (hR c hc) ((u - v) ∘ c.dofs)
      simp only [Function.comp_apply] at hp
      rw [hp, ← Finset.sum_add_distrib, ← Finset.sum_add_distrib, ← Finset.sum_add_distrib]
      refine sum_le_sum fun q _ => ?_
      have hb := point_balance c.prm hs c.kind (c.pts q) (hC.primitive q)
        (u ∘ c.dofs) (v ∘ c.dofs)
      have hd : (u - v) ∘ c.dofs = u ∘ c.dofs - v ∘ c.dofs := rfl
      rw [hd]
      have e : ∑ a, (c.pts q).shape.slip (u ∘ c.dofs - v ∘ c.dofs) a *
          c.prm.law.evalMicrostress (c.pts q).hist ((c.pts q).shape.slip (u ∘ c.dofs)) (c.pts q).old
            c.prm.dt a = ∑ a, c.prm.law.evalMicrostress (c.pts q).hist
              ((c.pts q).shape.slip (u ∘ c.dofs)) (c.pts q).old
            c.prm.dt a * ((c.pts q).shape.slip (u ∘ c.dofs) a - (c.pts q).old a) := by
        refine sum_congr rfl fun a _ => ?_
        rw [slip_sub, hold c hc q a]; ring
      rw [e]
      have hw := hC.weight q
      nlinarith [mul_le_mul_of_nonneg_left hb hw.le]
    unfold SpecStored SpecDissipated SpecSupplyWork SpecNodalWork
    rw [← List.sum_map_add, ← List.sum_map_add, ← List.sum_map_add]
    exact List.sum_le_sum key
  · unfold SpecDissipated
    refine List.sum_nonneg fun x hx => ?_
    obtain ⟨c, hc, rfl⟩ := List.mem_map.1 hx
    have hs := hst c hc
    have hC := hcell c hc
    refine sum_nonneg fun q _ => mul_nonneg (hC.weight q).le (sum_nonneg fun a _ => ?_)
    unfold Law.evalMicrostress
    exact C28_dissipative _ hs.k _ _ _ _ ((hC.res q a).trans
      (resistance_ge' (c.pts q).hist (by rw [hC.hist q]; exact hs.hard) _ _ a)) hs.dt

/-- C83 for an accepted step: if the global residual, with all constraints condensed, vanishes and the
increment satisfies the homogeneous constraints (constant boundary values), the stored energy plus the
dissipation do not exceed the old stored energy plus the work of the supply term. -/
theorem C83_accepted_partial (cells : List (MeshCell d n N)) (hcell : ∀ c ∈ cells, SpecCell c)
    (hst : ∀ c ∈ cells, SpecMaterial c.prm) (u v : ℕ → ℝ)
    (hold : ∀ c ∈ cells, ∀ q a, (c.pts q).old a = (c.pts q).shape.slip (v ∘ c.dofs) a)
    (R : MeshCell d n N → Fin N → ℝ) (hR : SpecAssembled cells u R)
    (K : Sol.Constraints ℕ) (m : ℕ) (hK : Homogeneous K m) (hm : ∀ c ∈ cells, ∀ i, c.dofs i < m)
    (hsat : Sol.Satisfies K (u - v))
    (hconv : ∀ r < m, Lin.residual K (cells.map fun c => c.local R) r = 0) :
    SpecStored cells u + SpecDissipated cells u ≤
      SpecStored cells v + SpecSupplyWork cells (u - v) := by
  have h := (C83_balance_partial cells hcell hst u v hold R hR).1
  have hz : SpecNodalWork cells R (u - v) = 0 := by
    have hn : Numbered (cells.map fun c => c.local R) m := by
      constructor
      · intro a ha i
        obtain ⟨c, hc, rfl⟩ := List.mem_map.1 ha
        exact hm c hc i
      · intro a ha b hb
        obtain ⟨c, hc, rfl⟩ := List.mem_map.1 ha
        simp [MeshCell.local] at hb
    have ht := test_rows hK hn hsat (fun a i => a.rhs i)
    have h0 : ∑ r ∈ range m, (u - v) r * ((cells.map fun c => c.local R).map fun a =>
        ∑ i, weight K (a.dofs i) r * a.rhs i).sum = 0 :=
      sum_eq_zero fun r hr => by
        have := hconv r (mem_range.1 hr)
        unfold Lin.residual at this
        rw [this, mul_zero]
    rw [h0, List.map_map] at ht
    unfold SpecNodalWork
    have : (cells.map fun c => ∑ i, (u - v) (c.dofs i) * -R c i) =
        (cells.map fun c => (-1 : ℝ) * ∑ i, (u - v) (c.dofs i) * R c i) := by
      refine List.map_congr_left fun c _ => ?_
      rw [Finset.mul_sum]
      exact sum_congr rfl fun i _ => by ring
    rw [this, List.sum_map_mul_left]
    have : (cells.map fun c => ∑ i, (u - v) (c.dofs i) * R c i).sum = 0 := ht.symm
    rw [this, mul_zero]
  linarith

/-- A cell with the latent hardening parameter `l`, under the body force `f`. -/
noncomputable def exMeshOf (l f : ℝ) : MeshCell 2 1 2 :=
  ⟨{ exCell false 7 with law := ⟨.tanh, 1, false, ⟨1, 7, l, 1, false⟩⟩ }, exKind, fun i => i, 1,
    fun _ => ⟨exShape, ![f, 0], Bulk.init ⟨1, 7, l, 1, false⟩ 1, fun _ => 3⟩⟩

/-- The same with the default latent hardening parameter. -/
noncomputable abbrev exMesh (f : ℝ) : MeshCell 2 1 2 := exMeshOf 1.4 f

theorem exMesh_cell (l f : ℝ) : SpecCell (exMeshOf l f) := by
  constructor
  · exact fun _ => exShape_primitive
  · intro q
    show (0 : ℝ) < 1 / 2
    norm_num
  · exact fun _ => rfl
  · intro q a
    show (0 : ℝ) ≤ 1 / 1
    norm_num

theorem exMesh_material (l : ℝ) (hl : 0 ≤ l) (f : ℝ) : SpecMaterial (exMeshOf l f).prm := by
  constructor <;> norm_num [exMeshOf, hl, exCell, Elastic.accepted, SpecOrthogonal, VecLaw.accepted]

theorem exMesh_assembled (l : ℝ) (hl : 0 ≤ l) (f : ℝ) (u : ℕ → ℝ) : ∃ R, SpecAssembled [exMeshOf l f] u R := by
  obtain ⟨r, hr, -⟩ := point_power (exMeshOf l f).prm (exMesh_material l hl f).index
    (exMesh_material l hl f).dn0.ne' (exMeshOf l f).kind
    ((exMeshOf l f).pts (0 : Fin 1)) exShape_primitive (u ∘ (exMeshOf l f).dofs)
  refine ⟨fun _ i => r i, fun c hc i => ?_⟩
  rw [List.mem_singleton] at hc
  subst hc
  have := sumOpt_some (fun q : Fin (exMeshOf l f).Q => (exMeshOf l f).prm.rhsTerm (exMeshOf l f).kind
    ((exMeshOf l f).pts q) (u ∘ (exMeshOf l f).dofs) i) (fun _ => r i) fun q => hr i
  refine this.trans ?_
  show some (∑ _q : Fin 1, r i) = _
  rw [Fin.sum_univ_one]

theorem exMesh_old (l f : ℝ) (v : ℕ → ℝ) (hv : v 1 = 3) : ∀ c ∈ [exMeshOf l f], ∀ q a,
    (c.pts q).old a = (c.pts q).shape.slip (v ∘ c.dofs) a := by
  intro c hc q a
  rw [List.mem_singleton] at hc; subst hc
  show (3 : ℝ) = exShape.slip (v ∘ fun i : Fin 2 => (i : ℕ)) a
  simp [exShape, Shape.slip, Fin.sum_univ_two, hv]

/-- C83 in a concrete case, from the slip 3 to the slip 4 under a body force. -/
example (u v : ℕ → ℝ) (_ : u 0 = 1) (_ : u 1 = 4) (_ : v 0 = 0) (hv : v 1 = 3) :
    ∃ R, SpecAssembled [exMesh 1] u R ∧
    SpecStored [exMesh 1] u + SpecDissipated [exMesh 1] u ≤
    SpecStored [exMesh 1] v + SpecSupplyWork [exMesh 1] (u - v) + SpecNodalWork [exMesh 1] R (u - v) := by
  obtain ⟨R, hA⟩ := exMesh_assembled 1.4 (by norm_num) 1 u
  refine ⟨R, hA, (C83_balance_partial [exMesh 1] ?_ ?_ _ _ (exMesh_old 1.4 1 v hv) _ hA).1⟩
  · intro c hc; rw [List.mem_singleton] at hc; subst hc; exact exMesh_cell 1.4 1
  · intro c hc; rw [List.mem_singleton] at hc; subst hc; exact exMesh_material 1.4 (by norm_num) 1

/-- The slip is held fixed. -/
noncomputable def exPinned : Sol.Constraints ℕ := fun i => if i = 1 then some ⟨[], 0⟩ else none

theorem exPinned_ok : Homogeneous exPinned 2 := by
  constructor
  · intro g l h; unfold exPinned at h; split_ifs at h; rw [← Option.some.inj h]
  · intro g l h e he; unfold exPinned at h; split_ifs at h; rw [← Option.some.inj h] at he; simp at he
  · intro g l h e he; unfold exPinned at h; split_ifs at h; rw [← Option.some.inj h] at he; simp at he

/-- In a concrete case the slip is held, and the body force is the one that keeps the state in
equilibrium. -/
theorem exMesh_solution (l : ℝ) (hl : 0 ≤ l) (u : ℕ → ℝ) :
    ∃ f R, SpecAssembled [exMeshOf l f] u R ∧
    (∀ r < 2, Lin.residual exPinned ([exMeshOf l f].map fun c => c.local R) r = 0) := by
  let f := ddot (exShape.symGrad 0) ((exMeshOf l 0).prm.stressAt exShape (u ∘ (exMeshOf l 0).dofs))
  obtain ⟨R, hA⟩ := exMesh_assembled l hl f u
  have h0 : R (exMeshOf l f) 0 = 0 := by
    have h := hA _ (List.mem_singleton_self _) 0
    have := sumOpt_some (fun q : Fin (exMeshOf l f).Q => (exMeshOf l f).prm.rhsTerm (exMeshOf l f).kind
      ((exMeshOf l f).pts q) (u ∘ (exMeshOf l f).dofs) 0) (fun _ => 0) fun q => by
        show some _ = some _
        congr 1
        show -(5 / 2 * (f - exShape.disp 0 ⬝ᵥ ![f, 0]) * (1 / 2)) = 0
        simp [exShape]
    unfold CellPrm.rhs at h
    rw [this] at h
    simpa using (Option.some.inj h).symm
  refine ⟨f, R, hA, fun r hr => ?_⟩
  by_cases h1 : r = 1
  · exact residual_constrained exPinned_ok _ (by rw [h1]; simp [exPinned])
  · have h2 : r = 0 := by omega
    subst h2
    unfold Lin.residual
    rw [List.map_map, List.map_singleton, List.sum_singleton]
    show ∑ i : Fin 2, Asm.weight exPinned (i : ℕ) 0 * R (exMeshOf l f) i = 0
    rw [Fin.sum_univ_two, h0, mul_zero, zero_add]
    simp [Asm.weight, exPinned]

theorem exPinned_satisfies (w : ℕ → ℝ) (h : w 1 = 0) : Sol.Satisfies exPinned w := by
  intro i l hl
  unfold exPinned at hl
  split_ifs at hl with hi
  rw [← Option.some.inj hl, hi]
  simp [Sol.Line.eval, h]

/-- C83 for an accepted step in a concrete case. -/
example (u v : ℕ → ℝ) (_ : u 0 = 2) (hu : u 1 = 3) (_ : v 0 = 0) (hv : v 1 = 3) :
    ∃ f R, SpecAssembled [exMesh f] u R ∧
    (∀ r < 2, Lin.residual exPinned ([exMesh f].map fun c => c.local R) r = 0) ∧
    SpecStored [exMesh f] u + SpecDissipated [exMesh f] u ≤
      SpecStored [exMesh f] v + SpecSupplyWork [exMesh f] (u - v) := by
  obtain ⟨f, R, hA, hz⟩ := exMesh_solution 1.4 (by norm_num) u
  refine ⟨f, R, hA, hz, C83_accepted_partial [exMesh f] ?_ ?_ _ _ (exMesh_old 1.4 f v hv) _ hA exPinned 2
    exPinned_ok ?_ (exPinned_satisfies _ (by simp [hu, hv])) hz⟩
  · intro c hc; rw [List.mem_singleton] at hc; subst hc; exact exMesh_cell 1.4 f
  · intro c hc; rw [List.mem_singleton] at hc; subst hc; exact exMesh_material 1.4 (by norm_num) f
  · intro c hc i; rw [List.mem_singleton] at hc; subst hc; exact i.2

end Verif.Asm
