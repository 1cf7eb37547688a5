import Verif.Props.Assembly

/-!
# Definiteness of the local matrix: C66

The default linear solver is the conjugate gradient method, and the block solver inverts the slip
block with it; both need a positive definite matrix.
-/

namespace Verif.Asm
open Matrix Finset Verif.Cry Verif.Hist Verif.Micro

variable {d n N : ℕ}

/-- Value of the quadratic form of a matrix. -/
def SpecForm (M : Fin N → Fin N → ℝ) (v : Fin N → ℝ) : ℝ := ∑ i, ∑ j, v i * M i j * v j

/-- Elastic strain caused by the nodal values `v`. -/
noncomputable def SpecElasticStrain (c : CellPrm d n) (s : Shape d n N) (v : Fin N → ℝ) : Mat d :=
  s.strain v - c.dn0 • ∑ a, s.slip v a • (c.sys a).symSchmid

theorem combine_strain (c : CellPrm d n) (s : Shape d n N) (v : Fin N → ℝ) :
    ∑ i, v i • dofStrain c s i = SpecElasticStrain c s v := by
  unfold dofStrain SpecElasticStrain Shape.strain Shape.slip
  simp only [smul_add, Finset.sum_add_distrib]
  rw [sub_eq_add_neg]
  congr 1
  rw [← neg_smul, Finset.smul_sum]
  simp only [Finset.smul_sum, Finset.sum_smul, smul_smul]
  rw [Finset.sum_comm]
  refine sum_congr rfl fun a _ => sum_congr rfl fun i _ => ?_
  congr 1; ring

theorem cc_form (c : CellPrm d n) (s : Shape d n N) (v : Fin N → ℝ) :
    ∑ i, ∑ j, v i * cc c.tetrad (dofStrain c s i) (dofStrain c s j) * v j =
      SpecEnergy2 c.elastic c.rot (SpecElasticStrain c s v) := by
  have hsym := tetrad_major c
  have e : SpecEnergy2 c.elastic c.rot (SpecElasticStrain c s v) =
      cc c.tetrad (SpecElasticStrain c s v) (SpecElasticStrain c s v) := rfl
  rw [e]
  conv_rhs => rw [← combine_strain, cc_sum]
  simp only [cc_smul]
  rw [Finset.sum_comm]
  refine sum_congr rfl fun j _ => ?_
  rw [cc_symm _ hsym, cc_sum, Finset.mul_sum]
  refine sum_congr rfl fun i _ => ?_
  rw [cc_smul, cc_symm _ hsym (dofStrain c s j)]
  ring

theorem grad_form (s : Shape d n N) (v : Fin N → ℝ) (J : Fin n → Mat d) :
    ∑ i, ∑ j, v i * (∑ a, ∑ k, s.grad a i k * ∑ m, J a k m * s.grad a j m) * v j =
      ∑ a, ∑ k, ∑ m, s.slipGrad v a k * J a k m * s.slipGrad v a m := by
  have e : ∀ a k, s.slipGrad v a k = ∑ i, v i * s.grad a i k := by
    intro a k; simp [Shape.slipGrad, Finset.sum_apply]
  simp only [e, Finset.mul_sum, Finset.sum_mul]
  have r1 : ∀ i : Fin N, ∑ j, ∑ a, ∑ k, ∑ m, v i * (s.grad a i k * (J a k m * s.grad a j m)) * v j =
      ∑ a, ∑ k, ∑ m, ∑ j, v i * (s.grad a i k * (J a k m * s.grad a j m)) * v j := by
    intro i
    rw [Finset.sum_comm]; refine sum_congr rfl fun a _ => ?_
    rw [Finset.sum_comm]; refine sum_congr rfl fun k _ => ?_
    rw [Finset.sum_comm]
  simp only [r1]
  rw [Finset.sum_comm]; refine sum_congr rfl fun a _ => ?_
  rw [Finset.sum_comm]; refine sum_congr rfl fun k _ => ?_
  rw [Finset.sum_comm]; refine sum_congr rfl fun m _ => ?_
  rw [Finset.sum_comm]
  refine sum_congr rfl fun i _ => sum_congr rfl fun j _ => by ring

theorem slip_form (s : Shape d n N) (v : Fin N → ℝ) (A : Fin n → Fin n → ℝ) :
    ∑ i, ∑ j, v i * (∑ a, s.phi a i * ∑ b, s.phi b j * A a b) * v j =
      ∑ a, ∑ b, s.slip v a * A a b * s.slip v b := by
  unfold Shape.slip
  simp only [Finset.mul_sum, Finset.sum_mul]
  have r1 : ∀ i : Fin N, ∑ j, ∑ a, ∑ b, v i * (s.phi a i * (s.phi b j * A a b)) * v j =
      ∑ a, ∑ b, ∑ j, v i * (s.phi a i * (s.phi b j * A a b)) * v j := by
    intro i
    rw [Finset.sum_comm]; refine sum_congr rfl fun a _ => ?_
    rw [Finset.sum_comm]
  simp only [r1]
  rw [Finset.sum_comm]; refine sum_congr rfl fun a _ => ?_
  rw [Finset.sum_comm]; refine sum_congr rfl fun k _ => ?_
  rw [Finset.sum_comm]
  refine sum_congr rfl fun i _ => sum_congr rfl fun j _ => by ring

theorem form_sum {Q : ℕ} (T : Fin Q → Fin N → Fin N → ℝ) (v : Fin N → ℝ) :
    SpecForm (fun i j => ∑ q, T q i j) v = ∑ q, SpecForm (T q) v := by
  unfold SpecForm
  simp only [Finset.mul_sum, Finset.sum_mul]
  have r1 : ∀ i : Fin N, ∑ j, ∑ q, v i * T q i j * v j = ∑ q, ∑ j, v i * T q i j * v j :=
    fun i => Finset.sum_comm
  simp only [r1]
  rw [Finset.sum_comm]

theorem form_split (A B C : Fin N → Fin N → ℝ) (x y w : ℝ) (v : Fin N → ℝ) :
    ∑ i, ∑ j, v i * ((x * A i j + y * B i j + C i j) * w) * v j =
      (x * ∑ i, ∑ j, v i * A i j * v j + y * ∑ i, ∑ j, v i * B i j * v j +
        ∑ i, ∑ j, v i * C i j * v j) * w := by
  simp only [Finset.mul_sum, Finset.sum_mul, ← Finset.sum_add_distrib]
  refine sum_congr rfl fun i _ => sum_congr rfl fun j _ => by ring

/-- The quadratic form of the local matrix, split into elastic energy, defect energy curvature and
scalar microstress tangent. -/
theorem form_eq {Q : ℕ} (c : CellPrm d n) (h0 : c.dn0 ≠ 0) (hvec : 2 ≤ c.vec.index)
    (kind : Kind n N) (pts : Fin Q → Point d n N) (hs : ∀ q, (pts q).shape.Primitive kind)
    (u v : Fin N → ℝ) :
    ∃ (M : Fin N → Fin N → ℝ) (Jv : Fin Q → Fin n → Mat d),
      (∀ i j, c.mat kind pts u i j = some (M i j)) ∧
      (∀ q a, c.vec.jacobian (c.sys a) ((pts q).shape.slipGrad u a) = some (Jv q a)) ∧
      SpecForm M v = ∑ q, (c.dn3 / c.dn0 *
          SpecEnergy2 c.elastic c.rot (SpecElasticStrain c (pts q).shape v) +
        c.dn2 * (∑ a, ∑ k, ∑ m, (pts q).shape.slipGrad v a k * Jv q a k m *
          (pts q).shape.slipGrad v a m) +
        ∑ a, ∑ b, (pts q).shape.slip v a *
          c.law.evalJacobian (pts q).hist ((pts q).shape.slip u) (pts q).old c.dt a b *
          (pts q).shape.slip v b) * (pts q).shape.jxw := by
  choose x Jv _ hJ using fun (q : Fin Q) (a : Fin n) =>
    C30_defined c.vec hvec (c.sys a) ((pts q).shape.slipGrad u a)
  refine ⟨_, Jv, fun i j => sumOpt_some _ _ fun q =>
    matTerm_eq c h0 kind (pts q) (hs q) u (Jv q) (hJ q) i j, hJ, ?_⟩
  rw [form_sum]
  refine sum_congr rfl fun q _ => ?_
  rw [← cc_form, ← grad_form, ← slip_form]
  unfold SpecForm
  exact form_split _ _ _ _ _ _ _

/-! ## The scalar microstress tangent -/

/-- The hardening tangent plus the viscous tangent, as a quadratic form of the slips. -/
theorem hardening_form (p : Hardening) (x γ : Fin n → ℝ) :
    ∑ a, ∑ b, γ a * (p.entry (decide (a = b)) * (x a * x b)) * γ b =
      p.modulus / p.characteristic * (p.parameter * (∑ a, γ a * x a) ^ 2 +
        (1 - p.parameter) * ∑ a, (γ a * x a) ^ 2) := by
  have e : ∀ a b, γ a * (p.entry (decide (a = b)) * (x a * x b)) * γ b =
      p.modulus / p.characteristic * (p.parameter * ((γ a * x a) * (γ b * x b)) +
        (1 - p.parameter) * (if a = b then (γ a * x a) ^ 2 else 0)) := by
    intro a b
    unfold Hardening.entry
    by_cases h : a = b
    · subst h; simp; ring
    · simp [h]; ring
  simp only [e, ← Finset.mul_sum, Finset.sum_add_distrib]
  simp only [Finset.sum_ite_eq, Finset.mem_univ, if_true]
  rw [sq, Finset.sum_mul]

/-- What the rates enter the tangent with: signs or their regularisation. -/
noncomputable def rateFactor (l : Law) (slips old : Fin n → ℝ) (dt : ℝ) (a : Fin n) : ℝ :=
  if l.rateIndependent then sgn ((slips a - old a) / dt) else reg l.f l.k ((slips a - old a) / dt)

theorem tangent_form (l : Law) (slips old res : Fin n → ℝ) (dt : ℝ) (γ : Fin n → ℝ) :
    ∑ a, ∑ b, γ a * l.jacobian slips old res dt a b * γ b =
      (if l.hard.perfect then 0 else l.hard.modulus / l.hard.characteristic *
        (l.hard.parameter * (∑ a, γ a * rateFactor l slips old dt a) ^ 2 +
        (1 - l.hard.parameter) * ∑ a, (γ a * rateFactor l slips old dt a) ^ 2)) +
      (if l.rateIndependent then 0 else
        ∑ a, res a / dt * regDeriv l.f l.k ((slips a - old a) / dt) * γ a ^ 2) := by
  rw [← hardening_form]
  have e : ∀ a b, γ a * l.jacobian slips old res dt a b * γ b =
      (if l.hard.perfect then 0 else γ a * (l.hard.entry (decide (a = b)) *
        (rateFactor l slips old dt a * rateFactor l slips old dt b)) * γ b) +
      (if l.rateIndependent then 0 else if a = b then
        res a / dt * regDeriv l.f l.k ((slips a - old a) / dt) * γ a ^ 2 else 0) := by
    intro a b
    unfold Law.jacobian rateFactor
    simp only
    rcases l.hard.perfect with _ | _ <;> rcases l.rateIndependent with _ | _ <;>
    · by_cases h : a = b
      · subst h; simp; try ring
      · simp [h]; try ring
  simp only [e, Finset.sum_add_distrib]
  congr 1
  · rcases l.hard.perfect with _ | _ <;> simp
  · rcases l.rateIndependent with _ | _ <;> simp

/-- Hardening parameters for which the hardening matrix is positive semidefinite. -/
def SpecStableHardening (p : Hardening) : Prop :=
  0 ≤ p.modulus ∧ 0 < p.characteristic ∧ 0 ≤ p.parameter ∧ p.parameter ≤ 1

theorem tangent_nonneg (l : Law) (hh : l.hard.perfect = true ∨ SpecStableHardening l.hard)
    (hk : 0 < l.k) (slips old res : Fin n → ℝ) (hres : ∀ a, 0 ≤ res a) (dt : ℝ) (hdt : 0 < dt)
    (γ : Fin n → ℝ) : 0 ≤ ∑ a, ∑ b, γ a * l.jacobian slips old res dt a b * γ b := by
  rw [tangent_form]
  refine add_nonneg ?_ ?_
  · rcases hh with h | ⟨h1, h2, h3, h4⟩
    · rw [if_pos h]
    · by_cases hp : l.hard.perfect = true
      · rw [if_pos hp]
      · rw [if_neg hp]
        have := sub_nonneg.mpr h4
        positivity
  · by_cases hr : l.rateIndependent = true
    · rw [if_pos hr]
    · rw [if_neg hr]
      refine sum_nonneg fun a _ => ?_
      have := C27_positive l.f l.k hk ((slips a - old a) / dt)
      have := hres a
      positivity

theorem resistance_ge (b : Bulk n) (hh : b.prm.perfect = true ∨ SpecStableHardening b.prm)
    (slips old : Fin n → ℝ) (a : Fin n) : b.tmp a ≤ (b.update slips old).res a := by
  rcases hb : b.prm.perfect with _ | _
  · rw [C17_hardening_law b slips old a hb]
    rcases hh with h | ⟨h1, h2, h3, h4⟩
    · rw [hb] at h; simp at h
    · have : 0 ≤ 1 - b.prm.parameter := by linarith
      have : 0 ≤ ∑ β, b.prm.modulus / b.prm.characteristic *
          (b.prm.parameter + (1 - b.prm.parameter) * (if a = β then 1 else 0)) *
          |slips β - old β| := sum_nonneg fun β _ => by split_ifs <;> positivity
      linarith
  · rw [C17_perfect b slips old hb]

theorem elasticStrain_symm (c : CellPrm d n) (s : Shape d n N) (kind : Kind n N)
    (hs : s.Primitive kind) (v : Fin N → ℝ) :
    (SpecElasticStrain c s v)ᵀ = SpecElasticStrain c s v := by
  unfold SpecElasticStrain Shape.strain
  simp only [Matrix.transpose_sub, Matrix.transpose_smul, Matrix.transpose_sum]
  congr 1
  · exact sum_congr rfl fun j _ => by rw [hs.sym]
  · congr 1
    refine sum_congr rfl fun a _ => ?_
    congr 1
    ext i j
    simp only [System.symSchmid, symmetrize, Matrix.transpose_apply, Matrix.of_apply]
    ring

/-- Material and characteristic quantities for which the tangent should be stable. -/
structure SpecStable (c : CellPrm d n) : Prop where
  elastic : c.elastic.accepted
  cubic : c.elastic.c1122 < c.elastic.c1111
  char : 0 < c.elastic.char
  rot : SpecOrthogonal c.rot
  vec : c.vec.accepted
  index : 2 ≤ c.vec.index
  k : 0 < c.law.k
  dt : 0 < c.dt
  dn0 : 0 < c.dn0
  dn2 : 0 ≤ c.dn2
  dn3 : 0 < c.dn3
  hard : c.law.hard.perfect = true ∨ SpecStableHardening c.law.hard

theorem energy_nonneg (c : CellPrm d n) (hc : SpecStable c) (e : Mat d) (he : eᵀ = e) :
    0 ≤ SpecEnergy2 c.elastic c.rot e := by
  by_cases h : e = 0
  · subst h; simp [SpecEnergy2]
  · exact (C32_positive_partial _ hc.elastic hc.char hc.cubic _ _ hc.rot he h).le

/-- The three parts of a quadrature point's quadratic form are not negative. -/
theorem point_parts (c : CellPrm d n) (hc : SpecStable c) (kind : Kind n N) (p : Point d n N)
    (hs : p.shape.Primitive kind) (hh : p.hist.prm = c.law.hard) (hres : ∀ a, 0 ≤ p.hist.tmp a)
    (u v : Fin N → ℝ) (Jv : Fin n → Mat d)
    (hJ : ∀ a, c.vec.jacobian (c.sys a) (p.shape.slipGrad u a) = some (Jv a)) :
    0 ≤ c.dn3 / c.dn0 * SpecEnergy2 c.elastic c.rot (SpecElasticStrain c p.shape v) ∧
    0 ≤ c.dn2 * (∑ a, ∑ k, ∑ m, p.shape.slipGrad v a k * Jv a k m * p.shape.slipGrad v a m) ∧
    0 ≤ ∑ a, ∑ b, p.shape.slip v a *
          c.law.evalJacobian p.hist (p.shape.slip u) p.old c.dt a b * p.shape.slip v b := by
  refine ⟨?_, ?_, ?_⟩
  · have h3 := hc.dn3; have h0 := hc.dn0
    have := energy_nonneg c hc _ (elasticStrain_symm c p.shape kind hs v)
    positivity
  · exact mul_nonneg hc.dn2 (sum_nonneg fun a _ =>
      (C30_symmetric_psd c.vec hc.vec hc.index (c.sys a) _ (Jv a) (hJ a)).2 _)
  · exact tangent_nonneg c.law hc.hard hc.k _ _ _ (fun a => (hres a).trans
      (resistance_ge p.hist (by rw [hh]; exact hc.hard) _ _ a)) _ hc.dt _

/-- C66: with the stiffness of a stable cubic crystal and a hardening parameter between zero and
one, the local matrix is defined and positive semidefinite, for every element, state, step size and
characteristic quantities.  Missing: hardening parameters above one, for which it is not
(`C66_violated`). -/
theorem C66_semidefinite_partial {Q : ℕ} (c : CellPrm d n) (hc : SpecStable c) (kind : Kind n N)
    (pts : Fin Q → Point d n N) (hs : ∀ q, (pts q).shape.Primitive kind)
    (hw : ∀ q, 0 < (pts q).shape.jxw) (hh : ∀ q, (pts q).hist.prm = c.law.hard)
    (hres : ∀ q a, 0 ≤ (pts q).hist.tmp a) (u : Fin N → ℝ) :
    ∃ M : Fin N → Fin N → ℝ, (∀ i j, c.mat kind pts u i j = some (M i j)) ∧
      ∀ v, 0 ≤ SpecForm M v := by
  obtain ⟨M, _, hM, _, _⟩ := form_eq c hc.dn0.ne' hc.index kind pts hs u 0
  refine ⟨M, hM, fun v => ?_⟩
  obtain ⟨M', Jv, hM', hJ, hf⟩ := form_eq c hc.dn0.ne' hc.index kind pts hs u v
  have : M = M' := by
    funext i j; have := hM i j; rw [hM' i j] at this; exact (Option.some.inj this).symm
  rw [this, hf]
  refine sum_nonneg fun q _ => ?_
  obtain ⟨h1, h2, h3⟩ := point_parts c hc kind (pts q) (hs q) (hh q) (hres q) u v (Jv q) (hJ q)
  have := hw q
  positivity

theorem tangent_pos (l : Law) (hh : l.hard.perfect = true ∨ SpecStableHardening l.hard)
    (hr : l.rateIndependent = false) (hk : 0 < l.k) (slips old res : Fin n → ℝ)
    (hres : ∀ a, 0 < res a) (dt : ℝ) (hdt : 0 < dt)
    (γ : Fin n → ℝ) (hγ : ∃ a, γ a ≠ 0) :
    0 < ∑ a, ∑ b, γ a * l.jacobian slips old res dt a b * γ b := by
  rw [tangent_form]
  refine add_pos_of_nonneg_of_pos ?_ ?_
  · rcases hh with h | ⟨h1, h2, h3, h4⟩
    · rw [if_pos h]
    · by_cases hp : l.hard.perfect = true
      · rw [if_pos hp]
      · rw [if_neg hp]
        have := sub_nonneg.mpr h4
        positivity
  · rw [if_neg (by simp [hr])]
    obtain ⟨a, ha⟩ := hγ
    refine Finset.sum_pos' (fun b _ => ?_) ⟨a, Finset.mem_univ a, ?_⟩
    · have := C27_positive l.f l.k hk ((slips b - old b) / dt)
      have := (hres b).le
      positivity
    · have := C27_positive l.f l.k hk ((slips a - old a) / dt)
      have := hres a
      positivity

/-- C66: in rate-dependent behaviour with positive slip resistances the form is positive for all
nodal values that cause a slip or a strain at some quadrature point: only rigid motions are left,
which the boundary conditions exclude. -/
theorem C66_definite_partial {Q : ℕ} (c : CellPrm d n) (hc : SpecStable c)
    (hr : c.law.rateIndependent = false) (kind : Kind n N)
    (pts : Fin Q → Point d n N) (hs : ∀ q, (pts q).shape.Primitive kind)
    (hw : ∀ q, 0 < (pts q).shape.jxw) (hh : ∀ q, (pts q).hist.prm = c.law.hard)
    (hres : ∀ q a, 0 < (pts q).hist.tmp a) (u : Fin N → ℝ) (M : Fin N → Fin N → ℝ)
    (hM : ∀ i j, c.mat kind pts u i j = some (M i j)) (v : Fin N → ℝ)
    (hv : ∃ q, (∃ a, (pts q).shape.slip v a ≠ 0) ∨ (pts q).shape.strain v ≠ 0) :
    0 < SpecForm M v := by
  obtain ⟨M', Jv, hM', hJ, hf⟩ := form_eq c hc.dn0.ne' hc.index kind pts hs u v
  have : M = M' := by
    funext i j; have := hM i j; rw [hM' i j] at this; exact (Option.some.inj this).symm
  rw [this, hf]
  obtain ⟨q, hq⟩ := hv
  refine Finset.sum_pos' (fun q _ => ?_) ⟨q, Finset.mem_univ q, ?_⟩
  · obtain ⟨h1, h2, h3⟩ := point_parts c hc kind (pts q) (hs q) (hh q) (fun a => (hres q a).le) u v
      (Jv q) (hJ q)
    have := hw q
    positivity
  · obtain ⟨h1, h2, h3⟩ := point_parts c hc kind (pts q) (hs q) (hh q) (fun a => (hres q a).le) u v
      (Jv q) (hJ q)
    have hwq := hw q
    refine mul_pos ?_ hwq
    by_cases hz : ∃ a, (pts q).shape.slip v a ≠ 0
    · have := tangent_pos c.law hc.hard hr hc.k ((pts q).shape.slip u) (pts q).old
        ((pts q).hist.update ((pts q).shape.slip u) (pts q).old).res (fun a => (hres q a).trans_le
        (resistance_ge (pts q).hist (by rw [hh]; exact hc.hard) _ _ a)) c.dt hc.dt _ hz
      exact add_pos_of_nonneg_of_pos (add_nonneg h1 h2) this
    · push Not at hz
      have hst : (pts q).shape.strain v ≠ 0 := by
        rcases hq with ⟨a, ha⟩ | h
        · exact absurd (hz a) ha
        · exact h
      have he : SpecElasticStrain c (pts q).shape v = (pts q).shape.strain v := by
        unfold SpecElasticStrain
        simp [hz]
      have := C32_positive_partial c.elastic hc.elastic hc.char hc.cubic c.rot _ hc.rot
        (elasticStrain_symm c (pts q).shape kind (hs q) v) (by rw [he]; exact hst)
      have h3' := hc.dn3; have h0 := hc.dn0
      have : 0 < c.dn3 / c.dn0 *
        SpecEnergy2 c.elastic c.rot (SpecElasticStrain c (pts q).shape v) := by positivity
      linarith

/-- C66 violated: with a hardening parameter above one (the default is 1.4), rate-independent
behaviour, two systems `a`, `b` with the same Schmid tensor (direction and normal exchanged), both
increasing, the opposite homogeneous slips `v` give a negative value.  The slip block alone, which
the block solver inverts by conjugate gradients, is indefinite then. -/
theorem C66_violated {Q : ℕ} (c : CellPrm d n) (h0 : c.dn0 ≠ 0) (hvec : 2 ≤ c.vec.index)
    (hr : c.law.rateIndependent = true) (hp : c.law.hard.perfect = false)
    (hH : 0 < c.law.hard.modulus) (hch : 0 < c.law.hard.characteristic)
    (hq : 1 < c.law.hard.parameter) (hdt : 0 < c.dt) (a b : Fin n) (hab : a ≠ b)
    (hsys : (c.sys a).symSchmid = (c.sys b).symSchmid) (kind : Kind n N)
    (pts : Fin Q → Point d n N) (hs : ∀ q, (pts q).shape.Primitive kind) (hQ : 0 < Q)
    (hw : ∀ q, 0 < (pts q).shape.jxw) (u v : Fin N → ℝ)
    (hinc : ∀ q, (pts q).old a < (pts q).shape.slip u a ∧ (pts q).old b < (pts q).shape.slip u b)
    (hv : ∀ q, (pts q).shape.strain v = 0 ∧ (∀ e, (pts q).shape.slipGrad v e = 0) ∧
      ∀ e, (pts q).shape.slip v e = if e = a then 1 else if e = b then -1 else 0)
    (M : Fin N → Fin N → ℝ) (hM : ∀ i j, c.mat kind pts u i j = some (M i j)) :
    SpecForm M v < 0 := by
  obtain ⟨M', Jv, hM', hJ, hf⟩ := form_eq c h0 hvec kind pts hs u v
  have : M = M' := by
    funext i j; have := hM i j; rw [hM' i j] at this; exact (Option.some.inj this).symm
  rw [this, hf]
  have hne : (univ : Finset (Fin Q)).Nonempty := ⟨⟨0, hQ⟩, Finset.mem_univ _⟩
  have twosum : ∀ f : Fin n → ℝ, (∀ e, e ≠ a → e ≠ b → f e = 0) → ∑ e, f e = f a + f b := by
    intro f hf
    rw [Finset.sum_eq_add a b hab (fun e _ h => hf e h.1 h.2) (by simp) (by simp)]
  refine Finset.sum_neg (fun q _ => ?_) hne
  obtain ⟨h1, h2, h3⟩ := hv q
  have e1 : SpecElasticStrain c (pts q).shape v = 0 := by
    unfold SpecElasticStrain
    rw [h1, Finset.sum_eq_add a b hab (fun e _ h => by rw [h3, if_neg h.1, if_neg h.2, zero_smul])
      (by simp) (by simp), h3, h3, if_pos rfl, if_neg hab.symm, if_pos rfl, hsys]
    simp
  have e2 : SpecEnergy2 c.elastic c.rot (0 : Mat d) = 0 := by simp [SpecEnergy2]
  rw [e1, e2]
  have e3 : ∑ e, ∑ e', (pts q).shape.slip v e * c.law.evalJacobian (pts q).hist
      ((pts q).shape.slip u) (pts q).old c.dt e e' * (pts q).shape.slip v e' =
      2 * (c.law.hard.modulus / c.law.hard.characteristic) * (1 - c.law.hard.parameter) := by
    unfold Law.evalJacobian
    rw [tangent_form, if_neg (by simp [hp]), if_pos hr, add_zero]
    have ra : rateFactor c.law ((pts q).shape.slip u) (pts q).old c.dt a = 1 := by
      unfold rateFactor sgn
      have : 0 < ((pts q).shape.slip u a - (pts q).old a) / c.dt :=
        div_pos (by linarith [(hinc q).1]) hdt
      rw [if_pos hr, if_pos this, if_neg this.not_gt]; ring
    have rb : rateFactor c.law ((pts q).shape.slip u) (pts q).old c.dt b = 1 := by
      unfold rateFactor sgn
      have : 0 < ((pts q).shape.slip u b - (pts q).old b) / c.dt :=
        div_pos (by linarith [(hinc q).2]) hdt
      rw [if_pos hr, if_pos this, if_neg this.not_gt]; ring
    rw [twosum _ fun e x y => by rw [h3, if_neg x, if_neg y]; ring,
      twosum _ fun e x y => by rw [h3, if_neg x, if_neg y]; ring, h3, h3, if_pos rfl,
      if_neg hab.symm, if_pos rfl, ra, rb]
    ring
  rw [e3]
  simp only [h2, Pi.zero_apply, mul_zero, zero_mul, Finset.sum_const_zero, zero_add]
  have : 0 < c.law.hard.modulus / c.law.hard.characteristic := div_pos hH hch
  have h5 : 2 * (c.law.hard.modulus / c.law.hard.characteristic) * (1 - c.law.hard.parameter) < 0 :=
    mul_neg_of_pos_of_neg (by positivity) (by linarith)
  exact mul_neg_of_neg_of_pos h5 (hw q)

/-! ## Concrete cases -/

theorem exCell_stable (b : Bool) : SpecStable (exCell b 7) := by
  constructor <;> norm_num [exCell, Elastic.accepted, SpecOrthogonal, VecLaw.accepted,
    SpecStableHardening]

example : ∃ M : Fin 2 → Fin 2 → ℝ, (∀ i j, (exCell true 7).mat exKind
      (fun _ : Fin 1 => exPoint 7) (fun _ => 1) i j = some (M i j)) ∧ ∀ v, 0 ≤ SpecForm M v :=
  C66_semidefinite_partial _ (exCell_stable true) exKind (fun _ => exPoint 7)
    (fun _ => exShape_primitive) (fun _ => by norm_num [exPoint, exShape]) (fun _ => rfl)
    (fun _ _ => by norm_num [exPoint, Bulk.init]) _

/-- The kernel condition is met by a non-trivial vector. -/
example (M : Fin 2 → Fin 2 → ℝ) (hM : ∀ i j, (exCell false 7).mat exKind
      (fun _ : Fin 1 => exPoint 7) (fun _ => 1) i j = some (M i j)) :
    0 < SpecForm M ![0, 1] :=
  C66_definite_partial _ (exCell_stable false) rfl exKind (fun _ => exPoint 7)
    (fun _ => exShape_primitive) (fun _ => by norm_num [exPoint, exShape]) (fun _ => rfl)
    (fun _ _ => by norm_num [exPoint, Bulk.init]) _ M hM _
    ⟨0, Or.inl ⟨0, by simp [exPoint, exShape, Shape.slip, Fin.sum_univ_two]⟩⟩

/-- Two degrees of freedom per slip system, linear on an interval of the first coordinate. -/
noncomputable def exShape2 : Shape 2 2 4 where
  jxw := 1
  disp := fun _ => 0
  symGrad := fun _ => 0
  phi := fun a i => if i.val / 2 = a.val then 1 / 2 else 0
  grad := fun a i => if i.val / 2 = a.val then (if i.val % 2 = 0 then ![-1, 0] else ![1, 0]) else 0

def exKind2 : Kind 2 4 := fun i => some ⟨i.val / 2, by omega⟩

theorem exShape2_primitive : exShape2.Primitive exKind2 := by
  constructor
  · intro i a _; rfl
  · intro i a _; rfl
  · intro i a h
    have : ¬ i.val / 2 = a.val := fun e => h (by unfold exKind2; congr 1; exact Fin.ext e)
    simp [exShape2, this]
  · intro i a h
    have : ¬ i.val / 2 = a.val := fun e => h (by unfold exKind2; congr 1; exact Fin.ext e)
    simp [exShape2, this]
  · intro i; simp [exShape2]

/-- The default hardening parameters (`source/run_time_parameters.cc:364-370`). -/
noncomputable def exCell2 : CellPrm 2 2 :=
  { (exCell true 7) with
    sys := fun a => if a = 0 then ⟨![1, 0], ![0, 1], 0⟩ else ⟨![0, 1], ![1, 0], 0⟩
    law := ⟨.tanh, 1, true, ⟨1, 500, 1.4, 1, false⟩⟩
    macroStrain := 0 }

noncomputable def exPoint2 : Point 2 2 4 :=
  ⟨exShape2, 0, Bulk.init ⟨1, 500, 1.4, 1, false⟩ 2, fun _ => 0⟩

example (M : Fin 4 → Fin 4 → ℝ) (hM : ∀ i j, exCell2.mat exKind2
      (fun _ : Fin 1 => exPoint2) (fun _ => 1) i j = some (M i j)) :
    SpecForm M (fun i => if i.val < 2 then 1 else -1) < 0 :=
  C66_violated exCell2 (by norm_num [exCell2, exCell]) (by norm_num [exCell2, exCell]) rfl rfl
    (by norm_num [exCell2]) (by norm_num [exCell2]) (by norm_num [exCell2])
    (by norm_num [exCell2, exCell]) 0 1 (by simp)
    (by
      ext i j
      fin_cases i <;> fin_cases j <;>
      simp [exCell2, System.symSchmid, System.schmid, symmetrize, outer, add_comm])
    exKind2 _ (fun _ => exShape2_primitive) one_pos (fun _ => by norm_num [exPoint2, exShape2]) _ _
    (fun _ => by
      constructor <;> norm_num [exPoint2, exShape2, Shape.slip, Fin.sum_univ_four])
    (fun _ => by
      refine ⟨by simp [exPoint2, exShape2, Shape.strain], fun e => ?_, fun e => ?_⟩
      · fin_cases e <;> ext k <;> fin_cases k <;>
        norm_num [exPoint2, exShape2, Shape.slipGrad, Fin.sum_univ_four]
      · fin_cases e <;>
        norm_num [exPoint2, exShape2, Shape.slip, Fin.sum_univ_four])
    M hM

end Verif.Asm
