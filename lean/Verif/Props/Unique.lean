import Verif.Props.Energy
import Verif.Props.Latent

/-!
# Uniqueness of the solution of a time step (C84)
-/

namespace Verif.Asm
open Matrix Finset Verif.Cry Verif.Hist Verif.Micro Verif.Lin

variable {d n N : ℕ}

/-! ## Specification -/

/-- The state `u` solves the time step: the residual, with all constraints condensed, vanishes. -/
def SpecSolution (cells : List (MeshCell d n N)) (K : Sol.Constraints ℕ) (m : ℕ) (u : ℕ → ℝ) : Prop :=
  ∃ R, SpecAssembled cells u R ∧ ∀ r < m, Lin.residual K (cells.map fun c => c.local R) r = 0

/-- No hardening, or hardening in which a slip system hardens the others at most as much as itself. -/
def SpecHardens (p : Hardening) : Prop :=
  p.perfect = true ∨ 0 ≤ p.modulus ∧ 0 < p.characteristic ∧ 0 ≤ p.parameter ∧ p.parameter ≤ 1

/-- A quarter of the latent hardening of `n` systems whose slips change by the width of the
regularisation, `modulus · parameter · n · k dt / 4`; zero without latent hardening or regularisation. -/
noncomputable def SpecLatent (l : Law) (n : ℕ) (dt : ℝ) : ℝ :=
  if l.hard.perfect ∨ l.rateIndependent then 0
  else l.hard.modulus / l.hard.characteristic * l.hard.parameter * n * (l.k * dt) / 4

/-! ## Helpers -/

/-- Resistances after an update: self hardening plus latent hardening by the sum of all slips. -/
theorem resistances (b : Bulk n) (hh : SpecHardens b.prm) (old : Fin n → ℝ) : ∃ h q : ℝ,
    0 ≤ h ∧ 0 ≤ q ∧ q ≤ 1 ∧
    h * q = (if b.prm.perfect then 0 else b.prm.modulus / b.prm.characteristic * b.prm.parameter) ∧
    ∀ slips a, (b.update slips old).res a =
      b.tmp a + h * ((1 - q) * |slips a - old a| + q * ∑ c, |slips c - old c|) := by
  rcases hb : b.prm.perfect with _ | _
  · rcases hh with h | ⟨h1, h2, h3, h4⟩
    · rw [hb] at h; simp at h
    · refine ⟨b.prm.modulus / b.prm.characteristic, b.prm.parameter, div_nonneg h1 h2.le, h3, h4,
        by simp, fun slips a => ?_⟩
      rw [C17_hardening_law b slips old a hb]
      congr 1
      have e : ∀ c, b.prm.modulus / b.prm.characteristic *
          (b.prm.parameter + (1 - b.prm.parameter) * (if a = c then 1 else 0)) * |slips c - old c| =
          b.prm.modulus / b.prm.characteristic * ((1 - b.prm.parameter) *
            (if a = c then |slips c - old c| else 0) + b.prm.parameter * |slips c - old c|) := by
        intro c; split_ifs <;> ring
      simp only [e]
      rw [← Finset.mul_sum, Finset.sum_add_distrib, ← Finset.mul_sum, ← Finset.mul_sum,
        Finset.sum_ite_eq univ a, if_pos (mem_univ a)]
  · exact ⟨0, 0, le_rfl, le_rfl, zero_le_one, by simp, fun slips a => by
      rw [C17_perfect b slips old hb]; ring⟩

theorem sgn_nonneg {x : ℝ} (h : 0 ≤ x) : 0 ≤ sgn x := by
  unfold sgn; rw [if_neg (not_lt.2 h)]; split_ifs <;> norm_num

theorem sgn_odd (x : ℝ) : sgn (-x) = -sgn x := by
  unfold sgn; simp

/-- The microstresses are a monotone function of the slips. -/
theorem micro_gap (l : Law) (hk : 0 < l.k) (b : Bulk n) (hb : b.prm = l.hard) (hh : SpecHardens l.hard)
    (x y old : Fin n → ℝ) (dt : ℝ) (hdt : 0 < dt) (hres : ∀ a, 0 ≤ b.tmp a)
    (hl : ∀ a, SpecLatent l n dt ≤ b.tmp a) :
    0 ≤ ∑ a, (x a - y a) * (l.evalMicrostress b x old dt a - l.evalMicrostress b y old dt a) ∧
    (l.rateIndependent = false → (∀ a, SpecLatent l n dt < b.tmp a) →
      ∑ a, (x a - y a) * (l.evalMicrostress b x old dt a - l.evalMicrostress b y old dt a) = 0 →
        ∀ a, x a = y a) := by
  obtain ⟨h, q, hh0, hq0, hq1, hhq, hr⟩ := resistances b (by rw [hb]; exact hh) old
  let X : Fin n → ℝ := fun a => |x a - old a|
  let Y : Fin n → ℝ := fun a => |y a - old a|
  let R : (Fin n → ℝ) → Fin n → ℝ := fun Z a => b.tmp a + h * ((1 - q) * Z a + q * ∑ c, Z c)
  have hX : ∀ a, 0 ≤ X a := fun a => abs_nonneg _
  have hY : ∀ a, 0 ≤ Y a := fun a => abs_nonneg _
  have hR : ∀ Z : Fin n → ℝ, (∀ a, 0 ≤ Z a) → ∀ a, b.tmp a ≤ R Z a := by
    intro Z hZ a
    have : 0 ≤ h * ((1 - q) * Z a + q * ∑ b, Z b) :=
      mul_nonneg hh0 (add_nonneg (mul_nonneg (by linarith) (hZ a))
        (mul_nonneg hq0 (sum_nonneg fun b _ => hZ b)))
    simp only [R]; linarith
  have hxy : ∀ a, x a - y a = (x a - old a) - (y a - old a) := fun a => by ring
  -- the law with a general sign function
  have fold : ∀ s : ℝ → ℝ, (∀ z, s (-z) = -s z) → (∀ z, 0 ≤ z → 0 ≤ s z) →
      ∀ a, (X a - Y a) * (R X a * s (X a) - R Y a * s (Y a)) ≤
        (x a - y a) * (R X a * s (x a - old a) - R Y a * s (y a - old a)) := by
    intro s h1 h2 a
    rw [hxy]
    exact fold_sign h1 h2 ((hres a).trans (hR X hX a)) ((hres a).trans (hR Y hY a)) _ _
  cases hri : l.rateIndependent
  · -- rate-dependent
    have ev : ∀ a, l.evalMicrostress b x old dt a - l.evalMicrostress b y old dt a =
        R X a * reg l.f l.k ((x a - old a) / dt) - R Y a * reg l.f l.k ((y a - old a) / dt) := by
      intro a
      unfold Law.evalMicrostress Law.microstress
      simp only [hri, Bool.false_eq_true, if_false, hr]
      rfl
    have hlat : h * q * n * (l.k * dt) / 4 = SpecLatent l n dt := by
      unfold SpecLatent
      rw [hhq, hb]
      rcases l.hard.perfect with _ | _ <;> simp [hri]
    have hs : ∀ a, (X a - Y a) * (R X a * reg l.f l.k (X a / dt) - R Y a * reg l.f l.k (Y a / dt)) ≤
        (x a - y a) * (l.evalMicrostress b x old dt a - l.evalMicrostress b y old dt a) := by
      intro a
      rw [ev]
      refine fold (fun z => reg l.f l.k (z / dt)) (fun z => ?_) (fun z hz => ?_) a
      · show reg l.f l.k (-z / dt) = -reg l.f l.k (z / dt)
        rw [neg_div, C26_odd]
      · have := (C26_strictMono l.f l.k hk).monotone (div_nonneg hz hdt.le)
        rwa [reg_zero] at this
    obtain ⟨m1, m2⟩ := orthant_mono l.f l.k hk h q dt hh0 hq0 hq1 hdt b.tmp Y X hY hX
      (fun a => by rw [hlat]; exact hl a)
    have hsum := Finset.sum_le_sum fun a (_ : a ∈ univ) => hs a
    refine ⟨m1.trans hsum, fun _ hstrict hzero => ?_⟩
    have hXY : ∀ a, Y a = X a := by
      by_contra hne
      push Not at hne
      have := m2 (fun a => by rw [hlat]; exact hstrict a) hne
      have h3 := this.trans_le hsum
      rw [hzero] at h3
      exact lt_irrefl _ h3
    have hXY' : X = Y := funext fun a => (hXY a).symm
    have hpos : 0 ≤ SpecLatent l n dt := by
      rw [← hlat]; positivity
    have hnn : ∀ a, 0 ≤ (x a - y a) * (R X a * reg l.f l.k ((x a - old a) / dt) -
        R Y a * reg l.f l.k ((y a - old a) / dt)) := by
      intro a
      refine le_trans (le_of_eq ?_) ((hs a).trans_eq (by rw [ev]))
      rw [hXY']; ring
    simp only [ev] at hzero
    intro a
    have h0 := (sum_eq_zero_iff_of_nonneg fun a _ => hnn a).1 hzero a (mem_univ a)
    rw [hXY'] at h0
    have hRp : 0 < R Y a := (hpos.trans_lt (hstrict a)).trans_le (hR Y hY a)
    by_contra hne
    rcases lt_or_gt_of_ne hne with hlt | hlt
    · have := C26_strictMono l.f l.k hk ((div_lt_div_iff_of_pos_right hdt).mpr
        (by linarith : x a - old a < y a - old a))
      nlinarith [mul_pos (sub_pos.2 hlt) (mul_pos hRp (sub_pos.2 this))]
    · have := C26_strictMono l.f l.k hk ((div_lt_div_iff_of_pos_right hdt).mpr
        (by linarith : y a - old a < x a - old a))
      nlinarith [mul_pos (sub_pos.2 hlt) (mul_pos hRp (sub_pos.2 this))]
  · -- rate-independent
    refine ⟨?_, fun h => absurd h (by simp)⟩
    have ev : ∀ a, l.evalMicrostress b x old dt a - l.evalMicrostress b y old dt a =
        R X a * sgn ((x a - old a) / dt) - R Y a * sgn ((y a - old a) / dt) := by
      intro a
      unfold Law.evalMicrostress Law.microstress
      simp only [hri, if_true, hr]
      rfl
    have hs : ∀ a, (X a - Y a) * (R X a - R Y a) ≤
        (x a - y a) * (l.evalMicrostress b x old dt a - l.evalMicrostress b y old dt a) := by
      intro a
      rw [ev, hxy]
      have key : ∀ z w : ℝ, sgn (z / dt) * z = |z| ∧ sgn (z / dt) * w ≤ |w| := by
        intro z w
        unfold sgn
        have e1 : 0 < z / dt ↔ 0 < z := div_pos_iff_of_pos_right hdt
        have e2 : z / dt < 0 ↔ z < 0 := by rw [div_lt_iff₀ hdt, zero_mul]
        rcases lt_trichotomy z 0 with hz | hz | hz
        · rw [if_neg (by rw [e1]; exact not_lt.2 hz.le), if_pos (e2.2 hz), abs_of_neg hz]
          exact ⟨by ring, by linarith [neg_abs_le w]⟩
        · subst hz; simp
        · rw [if_pos (e1.2 hz), if_neg (by rw [e2]; exact not_lt.2 hz.le), abs_of_pos hz]
          exact ⟨by ring, by linarith [le_abs_self w]⟩
      obtain ⟨k1, k2⟩ := key (x a - old a) (y a - old a)
      obtain ⟨k3, k4⟩ := key (y a - old a) (x a - old a)
      have r1 := mul_le_mul_of_nonneg_left k2 ((hres a).trans (hR X hX a))
      have r2 := mul_le_mul_of_nonneg_left k4 ((hres a).trans (hR Y hY a))
      have e1 : R X a * X a = R X a * (sgn ((x a - old a) / dt) * (x a - old a)) := by rw [k1]
      have e2 : R Y a * Y a = R Y a * (sgn ((y a - old a) / dt) * (y a - old a)) := by rw [k3]
      change R X a * _ ≤ R X a * Y a at r1
      change R Y a * _ ≤ R Y a * X a at r2
      linarith
    have hq : ∑ a, (X a - Y a) * (R X a - R Y a) =
        h * ((1 - q) * ∑ a, (X a - Y a) ^ 2 + q * (∑ a, (X a - Y a)) ^ 2) := by
      have e : ∀ a, (X a - Y a) * (R X a - R Y a) = h * ((1 - q) * (X a - Y a) ^ 2) +
          (X a - Y a) * (h * (q * ∑ a, (X a - Y a))) := by
        intro a
        simp only [R]
        rw [Finset.sum_sub_distrib]
        ring
      simp only [e]
      rw [Finset.sum_add_distrib, ← Finset.sum_mul, ← Finset.mul_sum, ← Finset.mul_sum]
      ring
    refine le_trans ?_ (Finset.sum_le_sum fun a _ => hs a)
    rw [hq]
    exact mul_nonneg hh0 (add_nonneg (mul_nonneg (by linarith) (sum_nonneg fun a _ => sq_nonneg _))
      (mul_nonneg hq0 (sq_nonneg _)))

/-- Nodal work vanishes in a solution, for increments that satisfy the constraints. -/
theorem solution_work (cells : List (MeshCell d n N)) {w : ℕ → ℝ} {R : MeshCell d n N → Fin N → ℝ}
    {K : Sol.Constraints ℕ} {m : ℕ} (hK : Homogeneous K m) (hm : ∀ c ∈ cells, ∀ i, c.dofs i < m)
    (hsat : Sol.Satisfies K w)
    (hconv : ∀ r < m, Lin.residual K (cells.map fun c => c.local R) r = 0) :
    SpecNodalWork cells R w = 0 := by
  have hn : Numbered (cells.map fun c => c.local R) m := by
    constructor
    · intro a ha i
      obtain ⟨c, hc, rfl⟩ := List.mem_map.1 ha
      exact hm c hc i
    · intro a ha b hb
      obtain ⟨c, hc, rfl⟩ := List.mem_map.1 ha
      simp [MeshCell.local] at hb
  have ht := test_rows hK hn hsat (fun a i => a.rhs i)
  have h0 : ∑ r ∈ range m, w r * ((cells.map fun c => c.local R).map fun a =>
      ∑ i, weight K (a.dofs i) r * a.rhs i).sum = 0 :=
    sum_eq_zero fun r hr => by
      have := hconv r (mem_range.1 hr)
      unfold Lin.residual at this
      rw [this, mul_zero]
  rw [h0, List.map_map] at ht
  unfold SpecNodalWork
  have : (cells.map fun c => ∑ i, w (c.dofs i) * -R c i) =
      (cells.map fun c => (-1 : ℝ) * ∑ i, w (c.dofs i) * R c i) := by
    refine List.map_congr_left fun c _ => ?_
    rw [Finset.mul_sum]
    exact sum_congr rfl fun i _ => by ring
  rw [this, List.sum_map_mul_left]
  have : (cells.map fun c => ∑ i, w (c.dofs i) * R c i).sum = 0 := ht.symm
  rw [this, mul_zero]

theorem elastic_gap (c : CellPrm d n) (s : Shape d n N) (u v : Fin N → ℝ) :
    ddot (SpecElasticStrain c s (u - v)) (c.stressAt s u) -
      ddot (SpecElasticStrain c s (u - v)) (c.stressAt s v) =
    SpecEnergy2 c.elastic c.rot (SpecElasticStrain c s (u - v)) := by
  have h1 : ∀ a, SpecEnergy2 c.elastic c.rot a = cc c.tetrad a a := fun a => rfl
  have h2 : ∀ a w, ddot a (c.stressAt s w) = cc c.tetrad a (c.elasticStrainAt s w) := fun a w => rfl
  rw [h1, h2, h2]
  conv_rhs => rw [← elasticStrainAt_sub]
  rw [← elasticStrainAt_sub, sub_eq_add_neg (c.elasticStrainAt s u) (c.elasticStrainAt s v)]
  conv_rhs => rw [cc_add, ← neg_one_smul ℝ (c.elasticStrainAt s v), cc_smul]
  rw [← neg_one_smul ℝ (c.elasticStrainAt s v)]
  ring

theorem defect_gap (v : VecLaw) (hv : v.accepted) (hp : 2 ≤ v.index) (s : System d) (g g' : Vec d) :
    0 ≤ (g - g') ⬝ᵥ xi v s g - (g - g') ⬝ᵥ xi v s g' := by
  have h1 := defect_tangent v hv hp s g g'
  have h2 := defect_tangent v hv hp s g' g
  rw [dot_sub'] at h1 h2
  rw [dot_sub', dot_sub']
  linarith

/-- Difference of the virtual powers of two states at a quadrature point, per weight. -/
noncomputable def gap (c : CellPrm d n) (p : Point d n N) (u v : Fin N → ℝ) : ℝ :=
  c.dn3 / c.dn0 * SpecEnergy2 c.elastic c.rot (SpecElasticStrain c p.shape (u - v)) +
    c.dn2 * ∑ a, (p.shape.slipGrad (u - v) a ⬝ᵥ xi c.vec (c.sys a) (p.shape.slipGrad u a) -
      p.shape.slipGrad (u - v) a ⬝ᵥ xi c.vec (c.sys a) (p.shape.slipGrad v a)) +
    ∑ a, (p.shape.slip u a - p.shape.slip v a) *
      (c.law.evalMicrostress p.hist (p.shape.slip u) p.old c.dt a -
        c.law.evalMicrostress p.hist (p.shape.slip v) p.old c.dt a)

theorem gap_parts (c : CellPrm d n) (hc : SpecMaterial c) (hh : SpecHardens c.law.hard)
    (kind : Kind n N) (p : Point d n N) (hs : p.shape.Primitive kind) (hp : p.hist.prm = c.law.hard)
    (hres : ∀ a, 0 ≤ p.hist.tmp a) (hl : ∀ a, SpecLatent c.law n c.dt ≤ p.hist.tmp a)
    (u v : Fin N → ℝ) :
    0 ≤ c.dn3 / c.dn0 * SpecEnergy2 c.elastic c.rot (SpecElasticStrain c p.shape (u - v)) ∧
    0 ≤ c.dn2 * ∑ a, (p.shape.slipGrad (u - v) a ⬝ᵥ xi c.vec (c.sys a) (p.shape.slipGrad u a) -
      p.shape.slipGrad (u - v) a ⬝ᵥ xi c.vec (c.sys a) (p.shape.slipGrad v a)) ∧
    0 ≤ ∑ a, (p.shape.slip u a - p.shape.slip v a) *
      (c.law.evalMicrostress p.hist (p.shape.slip u) p.old c.dt a -
        c.law.evalMicrostress p.hist (p.shape.slip v) p.old c.dt a) := by
  refine ⟨mul_nonneg (div_pos hc.dn3 hc.dn0).le (energy_nonneg' c hc _
    (elasticStrain_symm c p.shape kind hs _)), mul_nonneg hc.dn2 (sum_nonneg fun a _ => ?_),
    (micro_gap c.law hc.k p.hist hp hh _ _ p.old c.dt hc.dt hres hl).1⟩
  rw [slipGrad_sub]
  exact defect_gap c.vec hc.vec hc.index _ _ _

/-- Nodal forces are a monotone function of the state. -/
theorem nodal_monotone (cells : List (MeshCell d n N)) (hcell : ∀ c ∈ cells, SpecCell c)
    (hmat : ∀ c ∈ cells, SpecMaterial c.prm) (hhard : ∀ c ∈ cells, SpecHardens c.prm.law.hard)
    (hsharp : ∀ c ∈ cells, ∀ q a, SpecLatent c.prm.law n c.prm.dt ≤ (c.pts q).hist.tmp a)
    (u v : ℕ → ℝ) (R R' : MeshCell d n N → Fin N → ℝ) (hR : SpecAssembled cells u R)
    (hR' : SpecAssembled cells v R') :
    0 ≤ SpecNodalWork cells R (u - v) - SpecNodalWork cells R' (u - v) := by
  have hgap : ∀ c ∈ cells, ∑ q, (c.pts q).shape.jxw * gap c.prm (c.pts q) (u ∘ c.dofs) (v ∘ c.dofs) =
      ∑ i, (u - v) (c.dofs i) * -R c i - ∑ i, (u - v) (c.dofs i) * -R' c i := by
    intro c hc
    have hs := hmat c hc
    have p1 := cell_power c.prm hs.index hs.dn0.ne' c.kind c.pts (hcell c hc).primitive (u ∘ c.dofs)
      (R c) (hR c hc) ((u - v) ∘ c.dofs)
    have p2 := cell_power c.prm hs.index hs.dn0.ne' c.kind c.pts (hcell c hc).primitive (v ∘ c.dofs)
      (R' c) (hR' c hc) ((u - v) ∘ c.dofs)
    simp only [Function.comp_apply] at p1 p2
    rw [p1, p2, ← Finset.sum_sub_distrib]
    refine sum_congr rfl fun q _ => ?_
    have hd : (u - v) ∘ c.dofs = u ∘ c.dofs - v ∘ c.dofs := rfl
    rw [hd]
    unfold gap
    rw [← elastic_gap]
    simp only [slip_sub, Finset.sum_sub_distrib, mul_sub]
    ring
  have hnn : ∀ c ∈ cells, ∀ q, 0 ≤ gap c.prm (c.pts q) (u ∘ c.dofs) (v ∘ c.dofs) := by
    intro c hc q
    obtain ⟨g1, g2, g3⟩ := gap_parts c.prm (hmat c hc) (hhard c hc) c.kind (c.pts q)
      ((hcell c hc).primitive q) ((hcell c hc).hist q) ((hcell c hc).res q) (hsharp c hc q) (u ∘ c.dofs) (v ∘ c.dofs)
    exact add_nonneg (add_nonneg g1 g2) g3
  have hsum : (cells.map fun c => ∑ q, (c.pts q).shape.jxw *
      gap c.prm (c.pts q) (u ∘ c.dofs) (v ∘ c.dofs)).sum =
      SpecNodalWork cells R (u - v) - SpecNodalWork cells R' (u - v) := by
    rw [List.map_congr_left hgap]
    have : (cells.map fun c => ∑ i, (u - v) (c.dofs i) * -R c i - ∑ i, (u - v) (c.dofs i) * -R' c i) =
        cells.map fun c => (∑ i, (u - v) (c.dofs i) * -R c i) +
          (-1 : ℝ) * ∑ i, (u - v) (c.dofs i) * -R' c i :=
      List.map_congr_left fun c _ => by ring
    rw [this, List.sum_map_add, List.sum_map_mul_left]
    unfold SpecNodalWork
    ring
  rw [← hsum]
  refine List.sum_nonneg fun x hx => ?_
  obtain ⟨c, hc, rfl⟩ := List.mem_map.1 hx
  exact sum_nonneg fun q _ => mul_nonneg ((hcell c hc).weight q).le (hnn c hc q)

/-- Two states between which the nodal forces do no more than the difference of their powers agree
in elastic strain, stress and, for rate-dependent behaviour, slips and strains. -/
theorem unique_core (cells : List (MeshCell d n N)) (hcell : ∀ c ∈ cells, SpecCell c)
    (hmat : ∀ c ∈ cells, SpecMaterial c.prm) (hhard : ∀ c ∈ cells, SpecHardens c.prm.law.hard)
    (hsharp : ∀ c ∈ cells, ∀ q a, SpecLatent c.prm.law n c.prm.dt ≤ (c.pts q).hist.tmp a)
    (u v : ℕ → ℝ) (R R' : MeshCell d n N → Fin N → ℝ) (hR : SpecAssembled cells u R)
    (hR' : SpecAssembled cells v R')
    (hle : SpecNodalWork cells R (u - v) - SpecNodalWork cells R' (u - v) ≤ 0) : ∀ c ∈ cells, ∀ q,
    c.prm.elasticStrainAt (c.pts q).shape (u ∘ c.dofs) =
      c.prm.elasticStrainAt (c.pts q).shape (v ∘ c.dofs) ∧
    c.prm.stressAt (c.pts q).shape (u ∘ c.dofs) = c.prm.stressAt (c.pts q).shape (v ∘ c.dofs) ∧
    (c.prm.law.rateIndependent = false →
        (∀ a, SpecLatent c.prm.law n c.prm.dt < (c.pts q).hist.tmp a) →
      (∀ a, (c.pts q).shape.slip (u ∘ c.dofs) a = (c.pts q).shape.slip (v ∘ c.dofs) a) ∧
      (c.pts q).shape.strain (u ∘ c.dofs) = (c.pts q).shape.strain (v ∘ c.dofs)) := by
  have hgap : ∀ c ∈ cells, ∑ q, (c.pts q).shape.jxw * gap c.prm (c.pts q) (u ∘ c.dofs) (v ∘ c.dofs) =
      ∑ i, (u - v) (c.dofs i) * -R c i - ∑ i, (u - v) (c.dofs i) * -R' c i := by
    intro c hc
    have hs := hmat c hc
    have p1 := cell_power c.prm hs.index hs.dn0.ne' c.kind c.pts (hcell c hc).primitive (u ∘ c.dofs)
      (R c) (hR c hc) ((u - v) ∘ c.dofs)
    have p2 := cell_power c.prm hs.index hs.dn0.ne' c.kind c.pts (hcell c hc).primitive (v ∘ c.dofs)
      (R' c) (hR' c hc) ((u - v) ∘ c.dofs)
    simp only [Function.comp_apply] at p1 p2
    rw [p1, p2, ← Finset.sum_sub_distrib]
    refine sum_congr rfl fun q _ => ?_
    have hd : (u - v) ∘ c.dofs = u ∘ c.dofs - v ∘ c.dofs := rfl
    rw [hd]
    unfold gap
    rw [← elastic_gap]
    simp only [slip_sub, Finset.sum_sub_distrib, mul_sub]
    ring
  have hnn : ∀ c ∈ cells, ∀ q, 0 ≤ gap c.prm (c.pts q) (u ∘ c.dofs) (v ∘ c.dofs) := by
    intro c hc q
    obtain ⟨g1, g2, g3⟩ := gap_parts c.prm (hmat c hc) (hhard c hc) c.kind (c.pts q)
      ((hcell c hc).primitive q) ((hcell c hc).hist q) ((hcell c hc).res q) (hsharp c hc q) (u ∘ c.dofs) (v ∘ c.dofs)
    exact add_nonneg (add_nonneg g1 g2) g3
  have hsum : (cells.map fun c => ∑ q, (c.pts q).shape.jxw *
      gap c.prm (c.pts q) (u ∘ c.dofs) (v ∘ c.dofs)).sum ≤ 0 := by
    rw [List.map_congr_left hgap]
    have : (cells.map fun c => ∑ i, (u - v) (c.dofs i) * -R c i - ∑ i, (u - v) (c.dofs i) * -R' c i) =
        cells.map fun c => (∑ i, (u - v) (c.dofs i) * -R c i) +
          (-1 : ℝ) * ∑ i, (u - v) (c.dofs i) * -R' c i :=
      List.map_congr_left fun c _ => by ring
    rw [this, List.sum_map_add, List.sum_map_mul_left]
    unfold SpecNodalWork at hle
    linarith
  have hz : ∀ c ∈ cells, ∀ q, gap c.prm (c.pts q) (u ∘ c.dofs) (v ∘ c.dofs) = 0 := by
    intro c hc q
    have hcnn : ∀ c ∈ cells, ∀ q ∈ (univ : Finset (Fin c.Q)), 0 ≤ (c.pts q).shape.jxw *
        gap c.prm (c.pts q) (u ∘ c.dofs) (v ∘ c.dofs) := fun c hc q _ =>
      mul_nonneg ((hcell c hc).weight q).le (hnn c hc q)
    have h1 : ∑ q, (c.pts q).shape.jxw * gap c.prm (c.pts q) (u ∘ c.dofs) (v ∘ c.dofs) = 0 := by
      have hl : ∀ x ∈ cells.map fun c => ∑ q, (c.pts q).shape.jxw *
          gap c.prm (c.pts q) (u ∘ c.dofs) (v ∘ c.dofs), 0 ≤ x := by
        intro x hx
        obtain ⟨c, hc, rfl⟩ := List.mem_map.1 hx
        exact sum_nonneg (hcnn c hc)
      refine le_antisymm ?_ (sum_nonneg (hcnn c hc))
      exact (List.single_le_sum hl _ (List.mem_map.2 ⟨c, hc, rfl⟩)).trans hsum
    have h2 := (sum_eq_zero_iff_of_nonneg (hcnn c hc)).1 h1 q (mem_univ q)
    exact (mul_eq_zero.1 h2).resolve_left ((hcell c hc).weight q).ne'
  intro c hc q
  have hs := hmat c hc
  have hC := hcell c hc
  obtain ⟨g1, g2, g3⟩ := gap_parts c.prm hs (hhard c hc) c.kind (c.pts q)
    (hC.primitive q) (hC.hist q) (hC.res q) (hsharp c hc q) (u ∘ c.dofs) (v ∘ c.dofs)
  have hg := hz c hc q
  unfold gap at hg
  have e1 : SpecElasticStrain c.prm (c.pts q).shape (u ∘ c.dofs - v ∘ c.dofs) = 0 := by
    by_contra hne
    have := C32_positive_partial _ hs.elastic hs.char hs.cubic _ _ hs.rot
      (elasticStrain_symm c.prm (c.pts q).shape c.kind (hC.primitive q) (u ∘ c.dofs - v ∘ c.dofs)) hne
    have := mul_pos (div_pos hs.dn3 hs.dn0) this
    linarith
  have e2 : c.prm.elasticStrainAt (c.pts q).shape (u ∘ c.dofs) =
      c.prm.elasticStrainAt (c.pts q).shape (v ∘ c.dofs) := by
    rw [← sub_eq_zero, elasticStrainAt_sub, e1]
  refine ⟨e2, by unfold CellPrm.stressAt; rw [e2], fun hl hpos => ?_⟩
  have e3 : ∀ a, (c.pts q).shape.slip (u ∘ c.dofs) a = (c.pts q).shape.slip (v ∘ c.dofs) a := by
    exact (micro_gap c.prm.law hs.k (c.pts q).hist (hC.hist q) (hhard c hc) _ _ (c.pts q).old
      c.prm.dt hs.dt (hC.res q) (hsharp c hc q)).2 hl hpos (by linarith)
  refine ⟨e3, ?_⟩
  have h4 := e1
  unfold SpecElasticStrain at h4
  have h5 : ∀ a, (c.pts q).shape.slip (u ∘ c.dofs - v ∘ c.dofs) a = 0 := by
    intro a; rw [slip_sub, e3 a, sub_self]
  simp only [h5, zero_smul, Finset.sum_const_zero, smul_zero, sub_zero] at h4
  have h6 : (c.pts q).shape.strain (u ∘ c.dofs - v ∘ c.dofs) =
      (c.pts q).shape.strain (u ∘ c.dofs) - (c.pts q).shape.strain (v ∘ c.dofs) := by
    unfold Shape.strain
    rw [← Finset.sum_sub_distrib]
    exact sum_congr rfl fun j _ => by rw [Pi.sub_apply, sub_smul]
  rw [h6, sub_eq_zero] at h4
  exact h4

/-- C84: Two solutions of the same time step have the same elastic strain and stress at every
quadrature point and, for rate-dependent behaviour, the same slips and strains. -/
theorem C84_unique_partial (cells : List (MeshCell d n N)) (hcell : ∀ c ∈ cells, SpecCell c)
    (hmat : ∀ c ∈ cells, SpecMaterial c.prm) (hhard : ∀ c ∈ cells, SpecHardens c.prm.law.hard)
    (hsharp : ∀ c ∈ cells, ∀ q a, SpecLatent c.prm.law n c.prm.dt ≤ (c.pts q).hist.tmp a)
    (K : Sol.Constraints ℕ) (m : ℕ) (hK : Homogeneous K m) (hm : ∀ c ∈ cells, ∀ i, c.dofs i < m)
    (u v : ℕ → ℝ) (hu : SpecSolution cells K m u) (hv : SpecSolution cells K m v)
    (hsat : Sol.Satisfies K (u - v)) : ∀ c ∈ cells, ∀ q,
    c.prm.elasticStrainAt (c.pts q).shape (u ∘ c.dofs) =
      c.prm.elasticStrainAt (c.pts q).shape (v ∘ c.dofs) ∧
    c.prm.stressAt (c.pts q).shape (u ∘ c.dofs) = c.prm.stressAt (c.pts q).shape (v ∘ c.dofs) ∧
    (c.prm.law.rateIndependent = false →
        (∀ a, SpecLatent c.prm.law n c.prm.dt < (c.pts q).hist.tmp a) →
      (∀ a, (c.pts q).shape.slip (u ∘ c.dofs) a = (c.pts q).shape.slip (v ∘ c.dofs) a) ∧
      (c.pts q).shape.strain (u ∘ c.dofs) = (c.pts q).shape.strain (v ∘ c.dofs)) := by
  obtain ⟨R, hR, h0⟩ := hu
  obtain ⟨R', hR', h0'⟩ := hv
  refine unique_core cells hcell hmat hhard hsharp u v R R' hR hR' ?_
  rw [solution_work cells hK hm hsat h0, solution_work cells hK hm hsat h0', sub_zero]

/-- C84 for the degrees of freedom: where the discretisation determines the fields (a variation that
satisfies the constraints and has neither strain nor slip at the quadrature points is zero), the time
step has at most one solution. -/
theorem C84_state_partial (cells : List (MeshCell d n N)) (hcell : ∀ c ∈ cells, SpecCell c)
    (hmat : ∀ c ∈ cells, SpecMaterial c.prm) (hhard : ∀ c ∈ cells, SpecHardens c.prm.law.hard)
    (hrate : ∀ c ∈ cells, c.prm.law.rateIndependent = false)
    (hpos : ∀ c ∈ cells, ∀ q a, SpecLatent c.prm.law n c.prm.dt < (c.pts q).hist.tmp a)
    (K : Sol.Constraints ℕ) (m : ℕ) (hK : Homogeneous K m) (hm : ∀ c ∈ cells, ∀ i, c.dofs i < m)
    (hdet : ∀ w : ℕ → ℝ, Sol.Satisfies K w → (∀ c ∈ cells, ∀ q, (c.pts q).shape.strain (w ∘ c.dofs) = 0 ∧
      ∀ a, (c.pts q).shape.slip (w ∘ c.dofs) a = 0) → ∀ g < m, w g = 0)
    (u v : ℕ → ℝ) (hu : SpecSolution cells K m u) (hv : SpecSolution cells K m v)
    (hsat : Sol.Satisfies K (u - v)) : ∀ g < m, u g = v g := by
  intro g hg
  have := hdet (u - v) hsat (fun c hc q => ?_) g hg
  · simpa [sub_eq_zero] using this
  · obtain ⟨e1, e2⟩ := (C84_unique_partial cells hcell hmat hhard (fun c hc q a => (hpos c hc q a).le) K m hK hm u v hu hv hsat c hc q).2.2
      (hrate c hc) (hpos c hc q)
    have hd : (u - v) ∘ c.dofs = u ∘ c.dofs - v ∘ c.dofs := rfl
    rw [hd]
    refine ⟨?_, fun a => by rw [slip_sub, e1 a, sub_self]⟩
    have h6 : (c.pts q).shape.strain (u ∘ c.dofs - v ∘ c.dofs) =
        (c.pts q).shape.strain (u ∘ c.dofs) - (c.pts q).shape.strain (v ∘ c.dofs) := by
      unfold Shape.strain
      rw [← Finset.sum_sub_distrib]
      exact sum_congr rfl fun j _ => by rw [Pi.sub_apply, sub_smul]
    rw [h6, e2, sub_self]

/-- With a latent hardening parameter of 1/4, a state in equilibrium under a body force is the only one with the given
slip: the hypotheses of C84 are met. -/
example (u v : ℕ → ℝ) (hu : u 1 = 3) (hv : v 1 = 3) : ∃ f, SpecSolution [exMeshOf (1 / 4) f] exPinned 2 u ∧
    (SpecSolution [exMeshOf (1 / 4) f] exPinned 2 v → ∀ g < 2, u g = v g) := by
  obtain ⟨f, R, hA, hz⟩ := exMesh_solution (1 / 4) (by norm_num) u
  refine ⟨f, ⟨R, hA, hz⟩, fun hv' => ?_⟩
  refine C84_state_partial [exMeshOf (1 / 4) f] ?_ ?_ ?_ ?_ ?_ exPinned 2 exPinned_ok ?_ ?_ u v ⟨R, hA, hz⟩ hv'
    (exPinned_satisfies _ (by simp [hu, hv]))
  · intro c hc; rw [List.mem_singleton] at hc; subst hc; exact exMesh_cell (1 / 4) f
  · intro c hc; rw [List.mem_singleton] at hc; subst hc; exact exMesh_material (1 / 4) (by norm_num) f
  · intro c hc; rw [List.mem_singleton] at hc; subst hc
    exact Or.inr ⟨by norm_num [exMeshOf], by norm_num [exMeshOf], by norm_num [exMeshOf], by norm_num [exMeshOf]⟩
  · intro c hc; rw [List.mem_singleton] at hc; subst hc; rfl
  · intro c hc q a; rw [List.mem_singleton] at hc; subst hc
    show _ < (1 / 1 : ℝ)
    norm_num [SpecLatent, exMeshOf, exCell]
  · intro c hc i; rw [List.mem_singleton] at hc; subst hc; exact i.2
  · intro w _ h g hg
    obtain ⟨h1, h2⟩ := h _ (List.mem_singleton_self _) (0 : Fin 1)
    have h3 : exShape.strain (w ∘ fun i : Fin 2 => (i : ℕ)) 0 0 = 0 := congrFun (congrFun h1 0) 0
    have h4 : exShape.slip (w ∘ fun i : Fin 2 => (i : ℕ)) 0 = 0 := h2 0
    simp [exShape, Shape.strain] at h3
    simp [exShape, Shape.slip, Fin.sum_univ_two] at h4
    interval_cases g
    · exact h3
    · exact h4

/-! ## Violation with latent hardening -/

/-- Two slip systems with the same Schmid tensor, default latent hardening parameter. -/
noncomputable def exTwinPrm (e : ℝ) : CellPrm 2 2 where
  sys := fun a => if a = 0 then ⟨![1, 0], ![0, 1], 0⟩ else ⟨![0, 1], ![1, 0], 0⟩
  elastic := ⟨3, 1, 1, 1⟩
  rot := 1
  vec := ⟨1, 1, 2, false⟩
  law := ⟨.sqrt, 1, false, ⟨1363 / 660, 1, 1.4, 1, false⟩⟩
  dn0 := 1
  dn2 := 1
  dn3 := 1
  dt := 1
  macroStrain := e • !![0, 1 / 2; 1 / 2, 0]

/-- Uniform slips in a cell whose displacements are prescribed. -/
noncomputable def exTwinShape : Shape 2 2 2 where
  jxw := 1
  disp := fun _ => 0
  symGrad := fun _ => 0
  phi := fun a i => if i = a then 1 else 0
  grad := fun _ _ => 0

noncomputable def exTwin (e : ℝ) : MeshCell 2 2 2 :=
  ⟨exTwinPrm e, fun i => some i, fun i => i, 1,
    fun _ => ⟨exTwinShape, 0, Bulk.init ⟨1363 / 660, 1, 1.4, 1, false⟩ 2, fun _ => 0⟩⟩

theorem exTwin_cell (e : ℝ) : SpecCell (exTwin e) := by
  constructor
  · intro q
    show exTwinShape.Primitive fun i => some i
    constructor <;> intros <;> simp_all [exTwinShape]
  · intro q
    show (0 : ℝ) < 1
    norm_num
  · exact fun _ => rfl
  · intro q a
    show (0 : ℝ) ≤ 1363 / 660 / 1
    norm_num

theorem exTwin_material (e : ℝ) : SpecMaterial (exTwin e).prm := by
  constructor <;> norm_num [exTwin, exTwinPrm, Elastic.accepted, SpecOrthogonal, VecLaw.accepted]

theorem exTwin_schmid (e : ℝ) (a : Fin 2) :
    ((exTwinPrm e).sys a).symSchmid = !![0, 1 / 2; 1 / 2, 0] := by
  ext i j
  fin_cases a <;> fin_cases i <;> fin_cases j <;>
    simp [exTwinPrm, System.symSchmid, System.schmid, symmetrize, outer]

theorem exTwin_slip (w : Fin 2 → ℝ) (a : Fin 2) : exTwinShape.slip w a = w a := by
  simp [exTwinShape, Shape.slip]

theorem exTwin_microstress (e x y : ℝ) (a b : Fin 2) (hab : a ≠ b) (w : Fin 2 → ℝ) (hx : w a = x)
    (hy : w b = y) (h0 : 0 ≤ x) (h1 : 0 ≤ y) :
    (exTwinPrm e).law.evalMicrostress (Bulk.init ⟨1363 / 660, 1, 1.4, 1, false⟩ 2) w (fun _ => 0) 1 a =
      (1363 / 660 + x + 1.4 * y) * (x / √(x * x + 1)) := by
  unfold Law.evalMicrostress Law.microstress
  rw [C17_hardening_law _ _ _ _ rfl]
  have hs : ∀ f : Fin 2 → ℝ, ∑ i, f i = f a + f b := by
    intro f
    fin_cases a <;> fin_cases b <;> simp_all [Fin.sum_univ_two, add_comm]
  rw [hs, if_pos rfl, if_neg hab, hx, hy]
  simp only [exTwinPrm, Bulk.init, reg, Bool.false_eq_true, if_false, sub_zero, div_one,
    abs_of_nonneg h0, abs_of_nonneg h1, mul_one, mul_zero, add_zero, one_mul]
  ring

/-- C84 is violated with the default latent hardening: the same time step of rate-dependent behaviour
has two different solutions, with the same resolved shear stresses. -/
theorem C84_violated : ∃ (e : ℝ) (u v : ℕ → ℝ), SpecCell (exTwin e) ∧ SpecMaterial (exTwin e).prm ∧
    SpecSolution [exTwin e] (fun _ => none) 2 u ∧ SpecSolution [exTwin e] (fun _ => none) 2 v ∧
    u 0 = 12 / 5 ∧ v 0 = 35 / 12 := by
  let P : Mat 2 := !![0, 1 / 2; 1 / 2, 0]
  have hPs : Pᵀ = P := by ext i j; fin_cases i <;> fin_cases j <;> rfl
  have hP0 : P ≠ 0 := by
    intro h
    have : P 0 1 = 0 := by rw [h]; rfl
    norm_num [P] at this
  let κ := cc (exTwinPrm 0).tetrad P P
  have hm := exTwin_material 0
  have hκ : 0 < κ := C32_positive_partial _ hm.elastic hm.char hm.cubic _ _ hm.rot hPs hP0
  let e := 12 / 5 + 35 / 12 + 434 / 55 / κ
  have r1 : √((12 / 5 : ℝ) * (12 / 5) + 1) = 13 / 5 := by
    rw [show (12 / 5 : ℝ) * (12 / 5) + 1 = (13 / 5) ^ 2 by norm_num]
    exact Real.sqrt_sq (by norm_num)
  have r2 : √((35 / 12 : ℝ) * (35 / 12) + 1) = 37 / 12 := by
    rw [show (35 / 12 : ℝ) * (35 / 12) + 1 = (37 / 12) ^ 2 by norm_num]
    exact Real.sqrt_sq (by norm_num)
  have key : ∀ w : ℕ → ℝ, (w 0 = 12 / 5 ∧ w 1 = 35 / 12 ∨ w 0 = 35 / 12 ∧ w 1 = 12 / 5) →
      SpecSolution [exTwin e] (fun _ => none) 2 w := by
    intro w hw
    have hsum : w 0 + w 1 = 12 / 5 + 35 / 12 := by
      rcases hw with h | h <;> rw [h.1, h.2] <;> ring
    let wl : Fin 2 → ℝ := w ∘ fun i : Fin 2 => (i : ℕ)
    have hτ : ∀ a, resolvedShear ((exTwinPrm e).sys a) ((exTwinPrm e).stressAt exTwinShape wl) =
        434 / 55 := by
      intro a
      have h1 : resolvedShear ((exTwinPrm e).sys a) ((exTwinPrm e).stressAt exTwinShape wl) =
          cc (exTwinPrm 0).tetrad P ((exTwinPrm e).elasticStrainAt exTwinShape wl) := by
        unfold resolvedShear
        rw [exTwin_schmid, ddot_comm]
        rfl
      have h2 : (exTwinPrm e).elasticStrainAt exTwinShape wl = (e - (w 0 + w 1)) • P := by
        unfold CellPrm.elasticStrainAt
        rw [elasticStrain_finRange]
        have : exTwinShape.strain wl = 0 := by simp [exTwinShape, Shape.strain]
        rw [this, Fin.sum_univ_two, exTwin_slip, exTwin_slip, exTwin_schmid, exTwin_schmid]
        show e • P + (0 - (1 : ℝ) • (w 0 • P + w 1 • P)) = _
        module
      rw [h1, h2, cc_smul, hsum]
      show (e - (12 / 5 + 35 / 12)) * κ = _
      show (12 / 5 + 35 / 12 + 434 / 55 / κ - (12 / 5 + 35 / 12)) * κ = _
      field_simp
      ring
    have hμ : ∀ a, (exTwinPrm e).law.evalMicrostress (Bulk.init ⟨1363 / 660, 1, 1.4, 1, false⟩ 2)
        (exTwinShape.slip wl) (fun _ => 0) 1 a = 434 / 55 := by
      intro a
      have hsl : exTwinShape.slip wl = wl := funext fun a => exTwin_slip wl a
      rw [hsl]
      fin_cases a
      · rcases hw with ⟨h0, h1⟩ | ⟨h0, h1⟩
        · refine (exTwin_microstress e (12 / 5) (35 / 12) 0 1 (by simp) wl h0 h1 (by norm_num)
            (by norm_num)).trans ?_
          rw [r1]; norm_num
        · refine (exTwin_microstress e (35 / 12) (12 / 5) 0 1 (by simp) wl h0 h1 (by norm_num)
            (by norm_num)).trans ?_
          rw [r2]; norm_num
      · rcases hw with ⟨h0, h1⟩ | ⟨h0, h1⟩
        · refine (exTwin_microstress e (35 / 12) (12 / 5) 1 0 (by simp) wl h1 h0 (by norm_num)
            (by norm_num)).trans ?_
          rw [r2]; norm_num
        · refine (exTwin_microstress e (12 / 5) (35 / 12) 1 0 (by simp) wl h1 h0 (by norm_num)
            (by norm_num)).trans ?_
          rw [r1]; norm_num
    refine ⟨fun _ _ => 0, fun c hc i => ?_, fun r hr => ?_⟩
    · rw [List.mem_singleton] at hc
      subst hc
      have := sumOpt_some (fun q : Fin (exTwin e).Q => (exTwin e).prm.rhsTerm (exTwin e).kind
        ((exTwin e).pts q) (w ∘ (exTwin e).dofs) i) (fun _ => 0) fun q => by
          show ((exTwin e).prm.vec.microstress _ _).map _ = some _
          rw [microstress_eq _ (exTwin_material e).index, Option.map_some]
          congr 1
          show -((1 * ((0 : Vec 2) ⬝ᵥ _) - (if i = i then (1 : ℝ) else 0) *
            (1 * resolvedShear ((exTwinPrm e).sys i) ((exTwinPrm e).stressAt exTwinShape wl) -
            (exTwinPrm e).law.evalMicrostress (Bulk.init ⟨1363 / 660, 1, 1.4, 1, false⟩ 2)
              (exTwinShape.slip wl) (fun _ => 0) 1 i)) * 1) = 0
          rw [hτ, hμ, zero_dotProduct]
          ring
      refine this.trans ?_
      simp
    · unfold Lin.residual
      simp [MeshCell.local]
  refine ⟨e, fun i => if i = 0 then 12 / 5 else 35 / 12, fun i => if i = 0 then 35 / 12 else 12 / 5,
    exTwin_cell e, exTwin_material e, key _ (Or.inl ⟨by simp, by simp⟩),
    key _ (Or.inr ⟨by simp, by simp⟩), by simp, by simp⟩

end Verif.Asm
