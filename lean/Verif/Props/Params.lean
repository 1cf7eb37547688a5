import Verif.Model.Params
import Verif.Props.Output
import Verif.Props.Assembly

/-!
# C61: parameters; C72: the dimensionless form solves the same problem; C73: applied shear
-/

namespace Verif.Prm
open Matrix Finset Verif.Cry Verif.Hist Verif.Micro Verif.Asm

/-! ## C61 -/

/-- C61: accepted Krylov tolerances are exactly those with `0 < absolute < relative`, and they are
used unchanged. -/
theorem C61_krylov (rel abs : ℝ) (t : Tolerances) :
    Tolerances.krylov rel abs = some t ↔ 0 < abs ∧ abs < rel ∧ t = ⟨rel, abs⟩ := by
  unfold Tolerances.krylov readDouble check
  by_cases h1 : 0 < abs <;> by_cases h2 : abs < rel
  · have h3 : 0 < rel := h1.trans h2
    simp [h1, h2, h3, h1.le, h3.le, eq_comm]
  · by_cases h3 : 0 < rel <;> by_cases h4 : 0 ≤ rel <;> simp [h1, h2, h3, h4, h1.le]
  · by_cases h3 : 0 < rel <;> by_cases h4 : 0 ≤ rel <;> by_cases h5 : 0 ≤ abs <;>
      simp [h1, h2, h4, h5]
  · by_cases h3 : 0 < rel <;> by_cases h4 : 0 ≤ rel <;> by_cases h5 : 0 ≤ abs <;>
      simp [h1, h2, h4, h5]

/-- C61: likewise for the Newton iteration; the step tolerance only has to be non-negative. -/
theorem C61_newton (rel abs step : ℝ) (t : Tolerances) (s : ℝ) :
    Tolerances.newton rel abs step = some (t, s) ↔
      0 < abs ∧ abs < rel ∧ 0 ≤ step ∧ t = ⟨rel, abs⟩ ∧ s = step := by
  unfold Tolerances.newton readDouble check
  by_cases h6 : 0 ≤ step <;> by_cases h1 : 0 < abs <;> by_cases h2 : abs < rel
  · have h3 : 0 < rel := h1.trans h2
    simp [h1, h2, h3, h1.le, h3.le, h6, eq_comm]
  all_goals
    by_cases h3 : 0 < rel <;> by_cases h4 : 0 ≤ rel <;> by_cases h5 : 0 ≤ abs <;>
      simp [h1, h2, h3, h4, h5, h6]

/-- C61: accepted line-search constants are exactly those with `0 < alpha < beta < 1`. -/
theorem C61_line_search (alpha beta : ℝ) (r : ℝ × ℝ) :
    lineSearch alpha beta = some r ↔ 0 < alpha ∧ alpha < beta ∧ beta < 1 ∧ r = (alpha, beta) := by
  unfold lineSearch readBetween check
  by_cases h : 0 < alpha ∧ alpha < beta ∧ beta < 1
  · obtain ⟨h1, h2, h3⟩ := h
    have h4 : alpha ≤ 1 := by linarith
    have h5 : 0 ≤ beta := by linarith
    simp [h1, h2, h3, h4, h5, h1.le, h3.le, eq_comm]
  · constructor
    · intro h'
      exfalso
      apply h
      by_cases a1 : 0 ≤ alpha ∧ alpha ≤ 1 <;> by_cases a2 : 0 ≤ beta ∧ beta ≤ 1 <;>
        by_cases a3 : 0 < alpha <;> by_cases a4 : alpha < beta <;> by_cases a5 : beta < 1 <;>
        simp [a1, a2, a3, a4, a5] at h' ⊢
    · rintro ⟨h1, h2, h3, _⟩
      exact absurd ⟨h1, h2, h3⟩ h

/-- The accepted reference values are positive. -/
def Reference.positive (r : Reference) : Prop :=
  0 < r.length ∧ 0 < r.time ∧ 0 < r.displacement ∧ 0 < r.stiffness ∧ 0 < r.slipResistance

/-- The form the program works with. -/
noncomputable def form (flag : Bool) (r : Reference) (m : Material) : Option DimForm :=
  (DimForm.parse flag r).bind fun d => d.init m

theorem parse_positive (flag : Bool) (r : Reference) (hr : r.positive) :
    DimForm.parse flag r = some ⟨flag, if flag then { CharQ.one with length := r.length, time := r.time, displacement := r.displacement, stiffness := r.stiffness, slipResistance := r.slipResistance } else .one, fun _ => 1⟩ := by
  obtain ⟨h1, h2, h3, h4, h5⟩ := hr
  unfold DimForm.parse readDouble
  simp [h1.le, h2.le, h3.le, h4.le, h5.le]

/-- C61: for positive reference values the dimensionless form is well defined; its characteristic
quantities and dimensionless numbers are the stated ratios. -/
theorem C61_numbers (r : Reference) (m : Material) (hr : r.positive) :
    ∃ f, form true r m = some f ∧ f.flag = true ∧ f.q.length = r.length ∧
      f.q.displacement = r.displacement ∧ f.q.stiffness = r.stiffness ∧
      f.q.slipResistance = r.slipResistance ∧
      f.q.strain = r.displacement / r.length ∧
      f.q.stress = r.stiffness * (r.displacement / r.length) ∧
      f.q.resolvedShear = f.q.stress ∧ f.q.macroTraction = f.q.stress ∧
      f.q.bodyForce = f.q.stress / r.length ∧ f.q.density = 1 / r.length ∧
      f.q.microTraction = m.vecResistance * m.lengthScale ^ m.index / r.length ^ (m.index - 1) ∧
      f.dn 0 = r.length / r.displacement ∧ f.dn 1 = m.modulus / r.slipResistance ∧
      f.dn 2 = m.vecResistance / r.slipResistance * (m.lengthScale / r.length) ^ m.index ∧
      f.dn 3 = f.q.stress / r.slipResistance := by
  have hp := parse_positive true r hr
  obtain ⟨h1, h2, h3, h4, h5⟩ := hr
  have hpow : r.length ^ (m.index - 1) ≠ 0 := (Real.rpow_pos_of_pos h1 _).ne'
  unfold form
  rw [hp]
  simp [DimForm.init, fdiv, fpow, h1.ne', h3.ne', h5.ne', hpow]

/-- C61: without the dimensionless form all quantities and numbers are one. -/
theorem C61_default (r : Reference) (m : Material) (hr : r.positive) :
    form false r m = some ⟨false, .one, fun _ => 1⟩ := by
  unfold form
  rw [parse_positive false r hr]
  simp [DimForm.init]

/-- C61 is violated by zero reference values: the parameter file is accepted but the dimensionless
numbers are infinite or undefined. -/
theorem C61_violated (m : Material) : ∃ r : Reference, (DimForm.parse true r).isSome ∧
    form true r m = none := by
  refine ⟨⟨0, 1, 1, 1, 1⟩, ?_, ?_⟩
  · simp [DimForm.parse, readDouble]
  · simp [form, DimForm.parse, readDouble, DimForm.init, fdiv]

/-! ## C72: specification -/

/-- The physical quadrature point that a dimensionless one stands for: coordinates times the
characteristic length, supply times the characteristic body force, slip resistances times the
characteristic slip resistance. -/
noncomputable def physPoint (f : DimForm) {d n N : ℕ} (p : Point d n N) : Point d n N where
  shape := { jxw := f.q.length ^ d * p.shape.jxw, disp := p.shape.disp, symGrad := fun i => (1 / f.q.length) • p.shape.symGrad i, phi := p.shape.phi, grad := fun a i => (1 / f.q.length) • p.shape.grad a i }
  supply := f.q.bodyForce • p.supply
  hist := ⟨{ p.hist.prm with characteristic := 1 }, fun a => f.q.slipResistance * p.hist.res a, fun a => f.q.slipResistance * p.hist.tmp a⟩
  old := p.old

/-- The physical degrees of freedom: displacements times the characteristic displacement. -/
noncomputable def physDofs (f : DimForm) {n N : ℕ} (kind : Kind n N) (u : Fin N → ℝ) : Fin N → ℝ :=
  fun i => match kind i with
  | none => f.q.displacement * u i
  | some _ => u i

/-- Unit of the residual of an equation. -/
noncomputable def resUnit (f : DimForm) (d : ℕ) {n N : ℕ} (kind : Kind n N) (i : Fin N) : ℝ :=
  match kind i with
  | none => f.q.length ^ d * f.q.slipResistance / f.q.displacement
  | some _ => f.q.length ^ d * f.q.slipResistance

/-! ## Helpers -/

theorem specCubic_char (a b c K : ℝ) (hK : K ≠ 0) {d : ℕ} (i j k l : Fin d) :
    SpecCubic ⟨a, b, c, 1⟩ i j k l = K * SpecCubic ⟨a, b, c, K⟩ i j k l := by
  unfold SpecCubic
  split_ifs <;> simp [mul_div_cancel₀, hK]

theorem stress_char (a b c K : ℝ) (hK : K ≠ 0) {d : ℕ} (r e : Mat d) :
    (⟨a, b, c, 1⟩ : Elastic).stress r e = K • (⟨a, b, c, K⟩ : Elastic).stress r e := by
  ext i j
  rw [Matrix.smul_apply, stress_eq, stress_eq, smul_eq_mul]
  simp only [specCubic_char a b c K hK, Finset.mul_sum]
  refine sum_congr rfl fun _ _ => sum_congr rfl fun _ _ => sum_congr rfl fun _ _ =>
    sum_congr rfl fun _ _ => by ring

theorem stress_smul (p : Elastic) {d : ℕ} (r e : Mat d) (c : ℝ) :
    p.stress r (c • e) = c • p.stress r e := by
  ext i j
  unfold Elastic.stress apply4
  simp only [Matrix.of_apply, Matrix.smul_apply, smul_eq_mul, Finset.mul_sum]
  refine sum_congr rfl fun _ _ => sum_congr rfl fun _ _ => by ring

theorem fpow_scale (c x e : ℝ) (hc : 0 < c) (hx : 0 ≤ x) :
    fpow (c * x) e = (fpow x e).map (c ^ e * ·) := by
  unfold fpow
  by_cases h : x = 0 ∧ e < 0
  · rw [if_pos h, if_pos ⟨by rw [h.1, mul_zero], h.2⟩]; rfl
  · rw [if_neg h, if_neg]
    · rw [Option.map_some, Real.mul_rpow hc.le hx]
    · rintro ⟨h1, h2⟩
      exact h ⟨(mul_eq_zero.mp h1).resolve_left hc.ne', h2⟩

theorem bracket_scale {d : ℕ} (v v' : VecLaw) (hv : v'.index = v.index) (s : System d) (g : Vec d)
    (c : ℝ) (hc : 0 < c) :
    v'.bracket s (c • g) = (v.bracket s g).map (c ^ (v.index - 2) • ·) := by
  unfold VecLaw.bracket
  rw [dotProduct_smul, dotProduct_smul, smul_eq_mul, smul_eq_mul, abs_mul, abs_mul, abs_of_pos hc,
    hv, fpow_scale c _ _ hc (abs_nonneg _), fpow_scale c _ _ hc (abs_nonneg _)]
  rcases fpow |(-s.direction) ⬝ᵥ g| (v.index - 2) with _ | a <;>
    rcases fpow |s.third ⬝ᵥ g| (v.index - 2) with _ | b <;> try rfl
  simp only [Option.map_some, smul_add, smul_smul]

theorem microstress_scale {d : ℕ} (v v' : VecLaw) (hv : v'.index = v.index) (h1 : v.factor = 1)
    (s : System d) (g : Vec d) (c : ℝ) (hc : 0 < c) :
    v'.microstress s (c • g) =
      (v.microstress s g).map ((v'.factor * c ^ (v.index - 1)) • ·) := by
  unfold VecLaw.microstress
  rw [bracket_scale v v' hv s g c hc, h1]
  rcases v.bracket s g with _ | m
  · rfl
  · simp only [Option.map_some, one_smul]
    congr 1
    rw [Matrix.smul_mulVec, Matrix.smul_mulVec, Matrix.mulVec_smul, smul_smul, smul_smul]
    congr 1
    rw [mul_assoc, ← Real.rpow_add_one hc.ne']
    congr 2; ring

theorem eval_scale {n : ℕ} (f : DimForm) (hR : f.q.slipResistance ≠ 0) (m : Material)
    (h : Bulk n) (hh : h.prm = ⟨m.resistance, m.modulus, m.parameter, f.q.slipResistance, m.perfect⟩)
    (slips old : Fin n → ℝ) (a : Fin n) :
    ((⟨{ h.prm with characteristic := 1 }, fun a => f.q.slipResistance * h.res a, fun a => f.q.slipResistance * h.tmp a⟩ : Bulk n).update slips old).res a =
      f.q.slipResistance * (h.update slips old).res a := by
  by_cases hp : m.perfect = true
  · have h1 : h.prm.perfect = true := by rw [hh]; exact hp
    rw [C17_perfect _ _ _ (by exact h1), C17_perfect _ _ _ h1]
  · have h1 : h.prm.perfect = false := by rw [hh]; simpa using hp
    rw [C17_hardening_law _ _ _ _ (by exact h1), C17_hardening_law _ _ _ _ h1, hh]
    simp only [mul_add, Finset.mul_sum]
    congr 1
    refine sum_congr rfl fun b _ => ?_
    by_cases hab : a = b <;> simp [hab] <;> field_simp

theorem phys_strain (f : DimForm) {d n N : ℕ} (kind : Kind n N) (p : Point d n N)
    (hs : p.shape.Primitive kind) (u : Fin N → ℝ) :
    (physPoint f p).shape.strain (physDofs f kind u) =
      (f.q.displacement / f.q.length) • p.shape.strain u := by
  unfold Shape.strain
  rw [Finset.smul_sum]
  refine sum_congr rfl fun j _ => ?_
  show physDofs f kind u j • (1 / f.q.length) • p.shape.symGrad j = _
  unfold physDofs
  rcases hk : kind j with _ | a
  · simp only [smul_smul]
    congr 1; ring
  · rw [hs.symGrad j a hk]; simp

theorem phys_slip (f : DimForm) {d n N : ℕ} (kind : Kind n N) (p : Point d n N)
    (hs : p.shape.Primitive kind) (u : Fin N → ℝ) (a : Fin n) :
    (physPoint f p).shape.slip (physDofs f kind u) a = p.shape.slip u a := by
  unfold Shape.slip
  refine sum_congr rfl fun j _ => ?_
  show physDofs f kind u j * p.shape.phi a j = _
  unfold physDofs
  rcases hk : kind j with _ | b
  · rw [hs.phi j a (by simp [hk])]; simp
  · rfl

theorem phys_slipGrad (f : DimForm) {d n N : ℕ} (kind : Kind n N) (p : Point d n N)
    (hs : p.shape.Primitive kind) (u : Fin N → ℝ) (a : Fin n) :
    (physPoint f p).shape.slipGrad (physDofs f kind u) a =
      (1 / f.q.length) • p.shape.slipGrad u a := by
  unfold Shape.slipGrad
  rw [Finset.smul_sum]
  refine sum_congr rfl fun j _ => ?_
  show physDofs f kind u j • (1 / f.q.length) • p.shape.grad a j = _
  unfold physDofs
  rcases hk : kind j with _ | b
  · rw [hs.grad j a (by simp [hk])]; simp
  · rw [smul_comm]

/-! ## C72 -/

/-- C72 at a quadrature point: the residual of the physical problem at the physical fields is the
residual of the dimensionless problem times the unit of the residual; NaN corresponds to NaN. -/
theorem C72_point {d n N : ℕ} (r : Reference) (hr : r.positive) (m : Material)
    (hl : 0 ≤ m.lengthScale) (f : DimForm) (hf : form true r m = some f) (h3 : f.dn 3 ≠ 1)
    (g : DimForm) (hg : form false r m = some g)
    (sys : Fin n → System d) (rot : Mat d) (dt : ℝ) (macroStrain : Mat d) (kind : Kind n N)
    (p : Point d n N) (hs : p.shape.Primitive kind)
    (hh : p.hist.prm = (f.cell m sys rot dt macroStrain).law.hard) (u : Fin N → ℝ) (i : Fin N) :
    (g.cell m sys rot dt (f.q.strain • macroStrain)).rhsTerm kind (physPoint f p)
        (physDofs f kind u) i =
      ((f.cell m sys rot dt macroStrain).rhsTerm kind p u i).map (resUnit f d kind i * ·) := by
  obtain ⟨f', hf', -, hL, hU, hK, hR, he, hσ, -, -, hb, -, -, d0, -, d2, d3⟩ := C61_numbers r m hr
  rw [hf] at hf'
  obtain rfl := Option.some.inj hf'
  rw [C61_default r m hr] at hg
  obtain rfl := Option.some.inj hg
  obtain ⟨pL, -, pU, pK, pR⟩ := hr
  have hsl : (physPoint f p).shape.slip (physDofs f kind u) = p.shape.slip u :=
    funext fun a => phys_slip f kind p hs u a
  set c := f.cell m sys rot dt macroStrain with hc
  set c' := (⟨false, .one, fun _ => 1⟩ : DimForm).cell m sys rot dt (f.q.strain • macroStrain)
    with hc'
  -- elastic strain
  have hE : c'.elasticStrainAt (physPoint f p).shape (physDofs f kind u) =
      f.q.strain • c.elasticStrainAt p.shape u := by
    unfold CellPrm.elasticStrainAt
    rw [eq_sub_of_add_eq (C33_split _ _ _), eq_sub_of_add_eq (C33_split _ _ _), hsl,
      phys_strain f kind p hs u]
    show f.q.strain • macroStrain + (_ - (1 : ℝ) • _) =
      f.q.strain • (macroStrain + (_ - f.dn 0 • _))
    rw [smul_add, smul_sub, smul_smul f.q.strain (f.dn 0), d0, he, hU, hL]
    have : r.displacement / r.length * (r.length / r.displacement) = 1 := by field_simp
    rw [this]
    rfl
  have hS : c'.stressAt (physPoint f p).shape (physDofs f kind u) =
      f.q.stress • c.stressAt p.shape u := by
    unfold CellPrm.stressAt
    rw [hE]
    show (⟨m.c1111, m.c1122, m.c1212, 1⟩ : Elastic).stress rot _ =
      f.q.stress • (⟨m.c1111, m.c1122, m.c1212, f.q.stiffness⟩ : Elastic).stress rot _
    rw [stress_smul, stress_char m.c1111 m.c1122 m.c1212 f.q.stiffness (by rw [hK]; exact pK.ne'),
      smul_smul, hσ, he, hK, mul_comm]
  unfold CellPrm.rhsTerm resUnit
  rcases hk : kind i with _ | a
  · simp only [hS, Option.map_some]
    congr 1
    show -(1 / 1 * (ddot ((1 / f.q.length) • p.shape.symGrad i) (f.q.stress • c.stressAt p.shape u) -
        p.shape.disp i ⬝ᵥ (f.q.bodyForce • p.supply)) * (f.q.length ^ d * p.shape.jxw)) =
      f.q.length ^ d * f.q.slipResistance / f.q.displacement * -(f.dn 3 / f.dn 0 *
        (ddot (p.shape.symGrad i) (c.stressAt p.shape u) - p.shape.disp i ⬝ᵥ p.supply) *
        p.shape.jxw)
    have hdd : ∀ (x y : ℝ) (A B : Mat d), ddot (x • A) (y • B) = x * y * ddot A B := by
      intro x y A B
      unfold ddot
      simp only [Matrix.smul_apply, smul_eq_mul, Finset.mul_sum]
      refine sum_congr rfl fun _ _ => sum_congr rfl fun _ _ => by ring
    rw [hdd, dotProduct_smul, smul_eq_mul, hb, hL, hU, hR, d3, d0]
    field_simp
  · have hξ : c'.vec.microstress (c'.sys a)
        ((physPoint f p).shape.slipGrad (physDofs f kind u) a) =
        (c.vec.microstress (c.sys a) (p.shape.slipGrad u a)).map
          ((m.vecResistance * m.lengthScale ^ m.index * (1 / f.q.length) ^ (m.index - 1)) • ·) := by
      rw [phys_slipGrad f kind p hs u a]
      have h1 : c.vec.factor = 1 := by
        show (if @decide (f.dn 3 ≠ 1) (Classical.propDecidable _) = true then (1 : ℝ) else _) = 1
        rw [if_pos (by simpa using h3)]
      have h2 : c'.vec.factor = m.vecResistance * m.lengthScale ^ m.index := by
        show (if @decide ((1 : ℝ) ≠ 1) (Classical.propDecidable _) = true then (1 : ℝ) else _) = _
        rw [if_neg (by simp)]
        rfl
      have := microstress_scale c.vec c'.vec rfl h1 (sys a) (p.shape.slipGrad u a)
        (1 / f.q.length) (by rw [hL]; positivity)
      rw [h2] at this
      exact this
    have hπ : c'.law.evalMicrostress (physPoint f p).hist ((physPoint f p).shape.slip
        (physDofs f kind u)) (physPoint f p).old c'.dt a =
        f.q.slipResistance * c.law.evalMicrostress p.hist (p.shape.slip u) p.old c.dt a := by
      rw [hsl]
      unfold Law.evalMicrostress Law.microstress
      have := eval_scale f (by rw [hR]; exact pR.ne') m p.hist hh (p.shape.slip u) p.old a
      show (if m.rateIndependent = true then _ * _ else _ * _) =
        f.q.slipResistance * (if m.rateIndependent = true then _ * _ else _ * _)
      erw [this]
      split_ifs
      · exact mul_assoc _ _ _
      · exact mul_assoc _ _ _
    simp only [hξ, hπ, hS, Option.map_map]
    refine Option.map_congr fun x _ => ?_
    have hrs : resolvedShear (c'.sys a) (f.q.stress • c.stressAt p.shape u) =
        f.q.stress * resolvedShear (c.sys a) (c.stressAt p.shape u) := by
      show resolvedShear (sys a) _ = _ * resolvedShear (sys a) _
      unfold resolvedShear ddot
      simp only [Matrix.smul_apply, smul_eq_mul, Finset.mul_sum]
      refine sum_congr rfl fun _ _ => sum_congr rfl fun _ _ => by ring
    simp only [Function.comp_apply, hrs]
    show -((1 * (((1 / f.q.length) • p.shape.grad a i) ⬝ᵥ (_ • x)) -
        p.shape.phi a i * (1 * _ - _)) * (f.q.length ^ d * p.shape.jxw)) = _ * -((f.dn 2 * _ -
        p.shape.phi a i * (f.dn 3 * _ - _)) * p.shape.jxw)
    rw [smul_dotProduct, dotProduct_smul, smul_eq_mul, smul_eq_mul, d2, d3, hL, hR]
    have hpow : (1 / r.length) ^ (m.index - 1) * (1 / r.length) = (1 / r.length) ^ m.index := by
      rw [← Real.rpow_add_one (by positivity)]; congr 1; ring
    rw [Real.div_rpow hl pL.le]
    have hpow2 : (1 / r.length) ^ m.index = 1 / r.length ^ m.index := by
      rw [Real.div_rpow zero_le_one pL.le, Real.one_rpow]
    rw [hpow2] at hpow
    have hne : r.length ^ m.index ≠ 0 := (Real.rpow_pos_of_pos pL _).ne'
    have e1 : m.vecResistance * m.lengthScale ^ m.index * (1 / r.length) ^ (m.index - 1) *
        (1 / r.length) = m.vecResistance * m.lengthScale ^ m.index / r.length ^ m.index := by
      rw [mul_assoc, hpow]; ring
    have e2 : 1 * (1 / r.length * (m.vecResistance * m.lengthScale ^ m.index *
        (1 / r.length) ^ (m.index - 1) * (p.shape.grad a i ⬝ᵥ x))) =
        m.vecResistance * m.lengthScale ^ m.index / r.length ^ m.index *
          (p.shape.grad a i ⬝ᵥ x) := by
      rw [← e1]; ring
    rw [e2]
    field_simp

theorem sumOpt_map {Q : ℕ} (k : ℝ) (f g : Fin Q → Option ℝ) (h : ∀ q, g q = (f q).map (k * ·)) :
    sumOpt g = (sumOpt f).map (k * ·) := by
  unfold sumOpt
  have key : ∀ (l : List (Fin Q)) (acc : Option ℝ),
      l.foldl (fun acc q => acc.bind fun x => (g q).map (x + ·)) (acc.map (k * ·)) =
        (l.foldl (fun acc q => acc.bind fun x => (f q).map (x + ·)) acc).map (k * ·) := by
    intro l
    induction l with
    | nil => intro _; rfl
    | cons q l ih =>
      intro acc
      rw [List.foldl_cons, List.foldl_cons, ← ih]
      congr 1
      rw [h q]
      rcases acc with _ | x
      · rfl
      · rcases f q with _ | y
        · rfl
        · simp [mul_add]
  have := key (List.finRange Q) (some 0)
  simpa using this

/-- C72: solving the dimensionless problem is solving the physical problem: in every cell the
residual of the program without the dimensionless form, at the physical fields, is the residual of
the program with it times a positive unit, so one vanishes exactly if the other does.  Partial: it
needs the fourth dimensionless number to differ from one. -/
theorem C72_similar_partial {d n N Q : ℕ} (r : Reference) (hr : r.positive) (m : Material)
    (hl : 0 ≤ m.lengthScale) (f : DimForm) (hf : form true r m = some f) (h3 : f.dn 3 ≠ 1)
    (g : DimForm) (hg : form false r m = some g)
    (sys : Fin n → System d) (rot : Mat d) (dt : ℝ) (macroStrain : Mat d) (kind : Kind n N)
    (pts : Fin Q → Point d n N) (hs : ∀ q, (pts q).shape.Primitive kind)
    (hh : ∀ q, (pts q).hist.prm = (f.cell m sys rot dt macroStrain).law.hard) (u : Fin N → ℝ)
    (i : Fin N) :
    0 < resUnit f d kind i ∧
    (g.cell m sys rot dt (f.q.strain • macroStrain)).rhs kind (fun q => physPoint f (pts q))
        (physDofs f kind u) i =
      ((f.cell m sys rot dt macroStrain).rhs kind pts u i).map (resUnit f d kind i * ·) ∧
    ((f.cell m sys rot dt macroStrain).rhs kind pts u i = some 0 ↔
      (g.cell m sys rot dt (f.q.strain • macroStrain)).rhs kind (fun q => physPoint f (pts q))
        (physDofs f kind u) i = some 0) := by
  have hpos : 0 < resUnit f d kind i := by
    obtain ⟨f', hf', -, hL, hU, -, hR, -⟩ := C61_numbers r m hr
    rw [hf] at hf'
    obtain rfl := Option.some.inj hf'
    obtain ⟨pL, -, pU, -, pR⟩ := hr
    unfold resUnit
    rw [hL, hU, hR]
    rcases kind i <;> positivity
  have heq := sumOpt_map (resUnit f d kind i) _ _ fun q =>
    C72_point r hr m hl f hf h3 g hg sys rot dt macroStrain kind (pts q) (hs q) (hh q) u i
  refine ⟨hpos, heq, ?_⟩
  unfold CellPrm.rhs at *
  rw [heq]
  rcases sumOpt _ with _ | x
  · simp
  · simp [hpos.ne']

/-- The initial history corresponds to the physical initial history. -/
theorem C72_history {n : ℕ} (r : Reference) (hr : r.positive) (m : Material) (f g : DimForm)
    (hf : form true r m = some f) (hg : form false r m = some g) (a : Fin n) :
    (g.history m n).res a = f.q.slipResistance * (f.history m n).res a := by
  obtain ⟨f', hf', -, -, -, -, hR, -⟩ := C61_numbers r m hr
  rw [hf] at hf'
  obtain rfl := Option.some.inj hf'
  rw [C61_default r m hr] at hg
  obtain rfl := Option.some.inj hg
  have : f.q.slipResistance ≠ 0 := by rw [hR]; exact hr.2.2.2.2.ne'
  show m.resistance / 1 = f.q.slipResistance * (m.resistance / f.q.slipResistance)
  field_simp

/-- All reference values one: the default of the parameter file. -/
def unitRef : Reference := ⟨1, 1, 1, 1, 1⟩

/-- A material with initial slip resistance 2 and length scale 1. -/
def exMat : Material := ⟨3, 1, 1, 1, 2, 2, 2, 0, 1, true, .tanh, 1, false⟩

/-- A slip degree of freedom whose shape function vanishes with gradient `(1, 0)`. -/
def exPt : Point 2 1 1 where
  shape := ⟨1, fun _ => 0, fun _ => 0, fun _ _ => 0, fun _ _ => ![1, 0]⟩
  supply := 0
  hist := ⟨⟨2, 0, 1, 1, true⟩, fun _ => 2, fun _ => 2⟩
  old := fun _ => 0

theorem exPt_primitive : exPt.shape.Primitive (fun _ => some 0) := by
  constructor
  · intro i a _; rfl
  · intro i a _; rfl
  · intro i a _; rfl
  · intro i a h
    exact absurd (by simp [Subsingleton.elim a 0]) h
  · intro i; show (0 : Mat 2)ᵀ = 0; simp

theorem ex_rhs (f : DimForm) (h3 : f.dn 3 = 1) :
    (f.cell exMat (fun _ => ⟨![1, 0], ![0, 1], 0⟩) 1 1 0).rhsTerm (fun _ => some 0) exPt
      (fun _ => 1) 0 = some (-(2 * f.dn 2)) := by
  have hv : (f.cell (n := 1) exMat (fun _ => (⟨![1, 0], ![0, 1], 0⟩ : System 2)) 1 1 0).vec.factor =
      2 := by
    show (if @decide (f.dn 3 ≠ 1) (Classical.propDecidable _) = true then (1 : ℝ) else
      2 * 1 ^ (2 : ℝ)) = 2
    rw [if_neg (by simpa using h3)]
    simp
  have hm := microstress_eq (f.cell (n := 1) exMat
    (fun _ => (⟨![1, 0], ![0, 1], 0⟩ : System 2)) 1 1 0).vec (le_refl 2)
    (⟨![1, 0], ![0, 1], 0⟩ : System 2) (exPt.shape.slipGrad (fun _ => 1) 0)
  have hg : exPt.shape.slipGrad (fun _ => 1) 0 = ![1, 0] := by
    simp [Shape.slipGrad, exPt]
  unfold CellPrm.rhsTerm
  show Option.map _ (VecLaw.microstress _ (⟨![1, 0], ![0, 1], 0⟩ : System 2) _) = _
  rw [hm, hg, Option.map_some]
  congr 1
  have hx : (![1, 0] : Vec 2) ⬝ᵥ xi (f.cell (n := 1) exMat
      (fun _ => (⟨![1, 0], ![0, 1], 0⟩ : System 2)) 1 1 0).vec
      (⟨![1, 0], ![0, 1], 0⟩ : System 2) ![1, 0] = 2 := by
    unfold xi
    rw [hv]
    simp [phi, dotProduct, Fin.sum_univ_two]
  show -((f.dn 2 * ((![1, 0] : Vec 2) ⬝ᵥ _) - 0 * _) * 1) = _
  rw [hx]
  ring

/-- C72 is violated when the fourth dimensionless number is one: with all reference values at
their default of one the "dimensionless" problem is in the same units, yet the defect energy
enters twice and the residual differs. -/
theorem C72_violated : ∃ (f g : DimForm), form true unitRef exMat = some f ∧
    form false unitRef exMat = some g ∧
    (f.cell exMat (fun _ => ⟨![1, 0], ![0, 1], 0⟩) 1 1 0).rhsTerm (fun _ => some 0) exPt
      (fun _ => 1) 0 = some (-4) ∧
    (g.cell exMat (fun _ => ⟨![1, 0], ![0, 1], 0⟩) 1 1 0).rhsTerm (fun _ => some 0)
      (physPoint f exPt) (physDofs f (fun _ => some (0 : Fin 1)) fun _ => 1) 0 = some (-2) ∧
    resUnit f 2 (fun _ : Fin 1 => some (0 : Fin 1)) 0 = 1 := by
  have hr : unitRef.positive := ⟨one_pos, one_pos, one_pos, one_pos, one_pos⟩
  obtain ⟨f, hf, -, hL, hU, hK, hR, he, hσ, -, -, hb, -, -, d0, -, d2, d3⟩ :=
    C61_numbers unitRef exMat hr
  have e2 : f.dn 2 = 2 := by rw [d2]; simp [unitRef, exMat]
  have e3 : f.dn 3 = 1 := by rw [d3, hσ]; simp [unitRef]
  have eL : f.q.length = 1 := by rw [hL]; rfl
  have eR : f.q.slipResistance = 1 := by rw [hR]; rfl
  refine ⟨f, _, hf, C61_default _ _ hr, ?_, ?_, ?_⟩
  · rw [ex_rhs f e3, e2]; norm_num
  · have hp : physPoint f exPt = exPt := by
      unfold physPoint
      rw [eL, eR]
      unfold exPt
      simp
    have hu : physDofs f (fun _ : Fin 1 => some (0 : Fin 1)) (fun _ => 1) = fun _ => 1 := rfl
    rw [hp, hu, ex_rhs _ rfl]; norm_num
  · unfold resUnit
    rw [eL, eR]; norm_num

/-- Non-vacuity of `C72_similar_partial`: a micrometre-sized crystal with length 1/1000, stiffness
1000, slip resistance 2: the fourth number is 500·displacement/length ≠ 1. -/
example : ∃ f, (⟨1 / 1000, 1, 1 / 1000, 1000, 2⟩ : Reference).positive ∧
    form true ⟨1 / 1000, 1, 1 / 1000, 1000, 2⟩ exMat = some f ∧ f.dn 3 ≠ 1 ∧
    exPt.shape.Primitive (fun _ => some 0) := by
  have hr : (⟨1 / 1000, 1, 1 / 1000, 1000, 2⟩ : Reference).positive := by
    unfold Reference.positive; norm_num
  obtain ⟨f, hf, -, -, -, -, -, -, hσ, -, -, -, -, -, -, -, -, d3⟩ := C61_numbers _ exMat hr
  refine ⟨f, hr, hf, ?_, exPt_primitive⟩
  rw [d3, hσ]; norm_num

/-! ## C73 -/

/-- The displacement `DisplacementControl` prescribes at the upper boundary, with the characteristic
displacement the program passes (`applications/simple_shear.cc:327-337`). -/
noncomputable def upperDisplacement (f : DimForm) (p : Load.Prog) (dim nC : ℕ) (height : ℝ)
    (decohesion : Bool) (time : ℝ) : ℝ :=
  (Load.Control.new p dim nC height f.q.displacement 0 decohesion).value time 0

open Verif.Post in
/-- C73: a homogeneous plane simple shear of the strip between the fixed lower and the displaced
upper boundary is reported as shear strain `2ε₁₂ = load / characteristic length`. -/
theorem C73_reported (r : Reference) (hr : r.positive) (m : Material) (f : DimForm)
    (hf : form true r m = some f) (p : Load.Prog) (nC nS : ℕ) (height time : ℝ)
    (hh : 0 < height) (o : Output 2 nC nS) (x : Inputs 2) (hl : o.light = false)
    (hdim : o.dimensionless = false) (hgiven : o.given.strain = f.q.strain)
    (hdec : o.decohesion = false) (hm : o.macroStrain = 0)
    (hx : x.gradient 0 = ![0, upperDisplacement f p 2 nC height false time / height])
    (hy : x.gradient 1 = 0) :
    o.result x (2 + nS + 17) = time * p.maxLoad / r.length := by
  obtain ⟨f', hf', -, hL, hU, -, -, he, -⟩ := C61_numbers r m hr
  rw [hf] at hf'
  obtain rfl := Option.some.inj hf'
  obtain ⟨pL, -, pU, -, -⟩ := hr
  have hv : upperDisplacement f p 2 nC height false time =
      time * height * p.maxLoad / r.displacement := by
    unfold upperDisplacement Load.Control.value Load.Control.writes Load.Control.new
    simp [Load.Control.load, hU]
  rw [derived_get o x hl 17 _ (nColumns_ge o hl (by omega)) rfl]
  have hu : o.units.strain = f.q.strain := by unfold Output.units; rw [hdim]; exact hgiven
  have hg : o.strain x true 0 1 = time * p.maxLoad / r.displacement / 2 := by
    unfold Output.strain Output.gradient
    rw [hm, hdec]
    simp [symmetrize, hx, hy, hv]
    field_simp
  show o.units.strain * (2 * o.strain x true 0 1) = _
  rw [hg, hu, he]
  field_simp

open Verif.Post in
/-- C73: the reported shear is the load of the programme if the characteristic length is one.
Partial: by `C73_reported` it is wrong by that factor otherwise. -/
theorem C73_shear_partial (r : Reference) (hr : r.positive) (h1 : r.length = 1) (m : Material)
    (f : DimForm) (hf : form true r m = some f) (p : Load.Prog) (nC nS : ℕ) (height time : ℝ)
    (hh : 0 < height) (o : Output 2 nC nS) (x : Inputs 2) (hl : o.light = false)
    (hdim : o.dimensionless = false) (hgiven : o.given.strain = f.q.strain)
    (hdec : o.decohesion = false) (hm : o.macroStrain = 0)
    (hx : x.gradient 0 = ![0, upperDisplacement f p 2 nC height false time / height])
    (hy : x.gradient 1 = 0) :
    o.result x (2 + nS + 17) = time * p.maxLoad := by
  rw [C73_reported r hr m f hf p nC nS height time hh o x hl hdim hgiven hdec hm hx hy, h1, div_one]

open Verif.Post in
/-- C73 is violated for a characteristic length of two: half of the programmed shear 1/50 is
reported, and it is reported as the load nevertheless (`progReported`). -/
theorem C73_violated : ∃ (r : Reference) (f : DimForm) (p : Load.Prog) (o : Output 2 1 1)
    (x : Inputs 2), r.positive ∧ form true r exMat = some f ∧ o.given.strain = f.q.strain ∧
    x.gradient 0 = ![0, upperDisplacement f p 2 1 1 false 1 / 1] ∧ x.gradient 1 = 0 ∧
    progReported p 1 = 1 / 50 ∧ o.result x (2 + 1 + 17) = 1 / 100 := by
  have hr : (⟨2, 1, 1, 1, 1⟩ : Reference).positive := by unfold Reference.positive; norm_num
  obtain ⟨f, hf, -⟩ := C61_numbers _ exMat hr
  let p : Load.Prog := ⟨.monotonic, 0, 1 / 50, 0, 1, 20, 1, 20, 1, 1, 5, true⟩
  let o : Output 2 1 1 := ⟨⟨f.q.displacement, f.q.strain, f.q.stress, f.q.density⟩, false, f.dn 0,
    false, false, false, fun _ _ => ⟨![1, 0], ![0, 1], 0⟩, fun _ => 0, 0⟩
  let x : Inputs 2 := ⟨fun _ => 0,
    fun n => if n = 0 then ![0, upperDisplacement f p 2 1 1 false 1 / 1] else 0⟩
  refine ⟨_, f, p, o, x, hr, hf, rfl, by simp [x], by simp [x], ?_, ?_⟩
  · simp [progReported, reportedShear, p]
  · rw [C73_reported _ hr exMat f hf p 1 1 1 1 one_pos o x rfl rfl rfl rfl rfl (by simp [x])
      (by simp [x])]
    norm_num [p]

open Verif.Post in
/-- The units of the output satisfy the hypothesis of `C70_split_partial` for every accepted
dimensionless form with positive reference values. -/
theorem C70_units (r : Reference) (hr : r.positive) (m : Material) (f : DimForm)
    (hf : form true r m = some f) : f.q.strain * f.dn 0 = 1 := by
  obtain ⟨f', hf', -, -, -, -, -, he, -, -, -, -, -, -, d0, -⟩ := C61_numbers r m hr
  rw [hf] at hf'
  obtain rfl := Option.some.inj hf'
  obtain ⟨pL, -, pU, -, -⟩ := hr
  rw [he, d0]; field_simp

end Verif.Prm
