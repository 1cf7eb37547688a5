import Verif.Props.ResidualError
import Verif.Props.NewtonBody
import Verif.Props.RegSlope
import Verif.Props.MonotoneZero

/-!
# Every step of a stable rate-dependent body has exactly one solution: C118
-/

namespace Verif.Asm
open Matrix Finset Verif.Cry Verif.Hist Verif.Micro Verif.Lin Verif.Mono

variable {d n N : ℕ}

/-! ## Specification -/

/-- Mesh, stored energy and boundary conditions determine the unknowns: an admissible variation that stores no energy
vanishes. -/
def SpecDetermined (cells : List (MeshCell d n N)) (K : Sol.Constraints ℕ) (m : ℕ) : Prop :=
  ∀ w, Sol.Satisfies K w → SpecElasticError cells w 0 + SpecDefectError cells w 0 = 0 → ∀ g < m, w g = 0

/-! ## Helpers: growth of the defect stress -/

theorem phi_neg (p x : ℝ) : Cry.phi p (-x) = -Cry.phi p x := by unfold Cry.phi; rw [abs_neg]; ring

theorem phi_pos {p x : ℝ} (hx : 0 ≤ x) (hp : 2 ≤ p) : Cry.phi p x = x ^ (p - 1) := by
  unfold Cry.phi
  rcases hx.eq_or_lt with h | h
  · rw [← h, mul_zero, Real.zero_rpow (by linarith)]
  · rw [abs_of_pos h, ← Real.rpow_add_one h.ne']; ring_nf

theorem rpow_split {p z : ℝ} (hz : 0 ≤ z) (hp : 2 ≤ p) : z ^ (p - 1) * z = z ^ p := by
  rcases hz.eq_or_lt with h | h
  · rw [← h, mul_zero, Real.zero_rpow (by linarith)]
  · rw [← Real.rpow_add_one h.ne']; ring_nf

theorem half_le {p : ℝ} (hp : 2 ≤ p) : (1 / 2 : ℝ) ^ p ≤ 1 :=
  Real.rpow_le_one (by norm_num) (by norm_num) (by linarith)

theorem phi_gap_pos {p x y : ℝ} (hp : 2 ≤ p) (hy : 0 ≤ y) (hxy : y ≤ x) :
    (1 / 2 : ℝ) ^ p * (x - y) ^ p ≤ (Cry.phi p x - Cry.phi p y) * (x - y) := by
  have hd : 0 ≤ x - y := by linarith
  rw [phi_pos (hy.trans hxy) hp, phi_pos hy hp]
  have h1 := Real.add_rpow_le_rpow_add hd hy (show 1 ≤ p - 1 by linarith)
  rw [sub_add_cancel] at h1
  have h2 : (x - y) ^ (p - 1) * (x - y) ≤ (x ^ (p - 1) - y ^ (p - 1)) * (x - y) :=
    mul_le_mul_of_nonneg_right (by linarith) hd
  rw [rpow_split hd hp] at h2
  have h3 := mul_le_mul_of_nonneg_right (half_le hp) (Real.rpow_nonneg hd p)
  linarith

theorem phi_gap_mixed {p a b : ℝ} (hp : 2 ≤ p) (ha : 0 ≤ a) (hb : 0 ≤ b) :
    (1 / 2 : ℝ) ^ p * (a + b) ^ p ≤ (Cry.phi p a + Cry.phi p b) * (a + b) := by
  rw [phi_pos ha hp, phi_pos hb hp, ← Real.mul_rpow (by norm_num) (by positivity)]
  have h0 : 0 ≤ 1 / 2 * (a + b) := by positivity
  have h1 : (1 / 2 * (a + b)) ^ (p - 1) ≤ a ^ (p - 1) + b ^ (p - 1) := by
    rcases le_total a b with h | h
    · have := Real.rpow_le_rpow h0 (show 1 / 2 * (a + b) ≤ b by linarith) (show 0 ≤ p - 1 by linarith)
      have := Real.rpow_nonneg ha (p - 1)
      linarith
    · have := Real.rpow_le_rpow h0 (show 1 / 2 * (a + b) ≤ a by linarith) (show 0 ≤ p - 1 by linarith)
      have := Real.rpow_nonneg hb (p - 1)
      linarith
  rw [← rpow_split h0 hp]
  have h2 := Real.rpow_nonneg h0 (p - 1)
  exact mul_le_mul h1 (by linarith) h0 (h2.trans h1)

theorem phi_gap {p : ℝ} (hp : 2 ≤ p) (x y : ℝ) :
    (1 / 2 : ℝ) ^ p * |x - y| ^ p ≤ (Cry.phi p x - Cry.phi p y) * (x - y) := by
  wlog h : y ≤ x generalizing x y
  · have := this y x (by linarith)
    rw [abs_sub_comm] at this
    linarith
  rw [abs_of_nonneg (by linarith)]
  rcases le_total 0 y with hy | hy
  · exact phi_gap_pos hp hy h
  · rcases le_total 0 x with hx | hx
    · have := phi_gap_mixed hp hx (show 0 ≤ -y by linarith)
      rw [phi_neg] at this
      simpa [sub_eq_add_neg] using this
    · have := phi_gap_pos hp (show 0 ≤ -x by linarith) (show -x ≤ -y by linarith)
      rw [phi_neg, phi_neg, show -y - -x = x - y by ring] at this
      linarith

/-- Sum of the powers of the dislocation densities. -/
noncomputable def powers (v : VecLaw) (s : System d) (g : Vec d) : ℝ :=
  v.factor * (|s.direction ⬝ᵥ g| ^ v.index + |s.third ⬝ᵥ g| ^ v.index)

theorem dot_xi (v : VecLaw) (s : System d) (h g : Vec d) : h ⬝ᵥ xi v s g =
    v.factor * (Cry.phi v.index (s.direction ⬝ᵥ g) * (s.direction ⬝ᵥ h) +
      Cry.phi v.index (s.third ⬝ᵥ g) * (s.third ⬝ᵥ h)) := by
  unfold xi dotProduct
  rw [mul_sum, mul_sum, ← sum_add_distrib, mul_sum]
  refine sum_congr rfl fun i _ => by ring

theorem factor_nonneg {v : VecLaw} (hv : v.accepted) : 0 ≤ v.factor := by
  unfold VecLaw.factor
  split_ifs
  · exact zero_le_one
  · exact mul_nonneg hv.2.1 (Real.rpow_nonneg hv.1 _)

theorem powers_nonneg {v : VecLaw} (hv : v.accepted) (s : System d) (g : Vec d) : 0 ≤ powers v s g :=
  mul_nonneg (factor_nonneg hv) (by positivity)

theorem xi_gap {v : VecLaw} (hv : v.accepted) (hp : 2 ≤ v.index) (s : System d) (g g' : Vec d) :
    (1 / 2 : ℝ) ^ v.index * powers v s (g - g') ≤ (g - g') ⬝ᵥ (xi v s g - xi v s g') := by
  rw [dotProduct_sub, dot_xi, dot_xi]
  have h1 := phi_gap hp (s.direction ⬝ᵥ g) (s.direction ⬝ᵥ g')
  have h2 := phi_gap hp (s.third ⬝ᵥ g) (s.third ⬝ᵥ g')
  have := mul_le_mul_of_nonneg_left (add_le_add h1 h2) (factor_nonneg hv)
  unfold powers
  rw [dotProduct_sub, dotProduct_sub]
  refine le_trans (le_of_eq ?_) (this.trans (le_of_eq ?_)) <;> ring

theorem xi_at_zero {v : VecLaw} (hp : 2 ≤ v.index) (s : System d) (g : Vec d) :
    g ⬝ᵥ xi v s g = powers v s g := by
  rw [dot_xi, phi_mul_self (by linarith), phi_mul_self (by linarith)]
  rfl

theorem powers_smul {v : VecLaw} (hv : v.accepted) (hp : 2 ≤ v.index) (s : System d) (g : Vec d) {t : ℝ} (ht : 1 ≤ t) :
    t ^ 2 * powers v s g ≤ powers v s (t • g) := by
  unfold powers
  have ht0 : 0 ≤ t := by linarith
  have h1 : t ^ 2 ≤ t ^ v.index := by
    rw [← Real.rpow_two]; exact Real.rpow_le_rpow_of_exponent_le ht hp
  rw [dotProduct_smul, dotProduct_smul, smul_eq_mul, smul_eq_mul, abs_mul, abs_mul, abs_of_nonneg ht0,
    Real.mul_rpow ht0 (abs_nonneg _), Real.mul_rpow ht0 (abs_nonneg _)]
  have h2 : 0 ≤ v.factor * (|s.direction ⬝ᵥ g| ^ v.index + |s.third ⬝ᵥ g| ^ v.index) :=
    mul_nonneg (factor_nonneg hv) (by positivity)
  have := mul_le_mul_of_nonneg_right h1 h2
  refine this.trans (le_of_eq ?_)
  ring

theorem slipGrad_zero (s : Shape d n N) (a : Fin n) : s.slipGrad 0 a = 0 := by
  unfold Shape.slipGrad; simp

theorem xi_nil {v : VecLaw} (s : System d) : xi v s (0 : Vec d) = 0 := by
  unfold xi Cry.phi; funext i; simp

theorem defect_eq (cells : List (MeshCell d n N)) (h : SpecStableBody cells) (w : ℕ → ℝ) :
    SpecDefectError cells w 0 = (cells.map fun c => ∑ q, (c.pts q).shape.jxw * (c.prm.dn2 * ∑ a,
      powers c.prm.vec (c.prm.sys a) ((c.pts q).shape.slipGrad (w ∘ c.dofs) a))).sum := by
  unfold SpecDefectError
  congr 1
  refine List.map_congr_left fun c hc => sum_congr rfl fun q _ => ?_
  congr 2
  refine sum_congr rfl fun a _ => ?_
  have e : ((0 : ℕ → ℝ) ∘ c.dofs) = 0 := rfl
  rw [e, slipGrad_zero, xi_nil, sub_zero, sub_zero, xi_at_zero (h.material c hc).index]

theorem defect_lower (cells : List (MeshCell d n N)) (h : SpecStableBody cells) :
    ∃ s, 0 < s ∧ s ≤ 1 ∧ ∀ u v, s * SpecDefectError cells (u - v) 0 ≤ SpecDefectError cells u v := by
  obtain ⟨t, ht0, ht⟩ := uniform cells (fun c t => (2 : ℝ) ^ c.prm.vec.index ≤ t) (fun c s t hst hs => hs.trans hst)
    fun c _ => ⟨(2 : ℝ) ^ c.prm.vec.index, by positivity, le_rfl⟩
  refine ⟨1 / (t + 1), by positivity, by rw [div_le_one (by positivity)]; linarith, fun u v => ?_⟩
  rw [defect_eq cells h, ← List.sum_map_mul_left]
  unfold SpecDefectError
  refine List.sum_le_sum fun c hc => ?_
  rw [mul_sum]
  refine sum_le_sum fun q _ => ?_
  have hs : 1 / (t + 1) ≤ (1 / 2 : ℝ) ^ c.prm.vec.index := by
    rw [Real.div_rpow (by norm_num) (by norm_num), Real.one_rpow]
    exact one_div_le_one_div_of_le (by positivity) (by have := ht c hc; linarith)
  have key : 1 / (t + 1) * ∑ a, powers c.prm.vec (c.prm.sys a) ((c.pts q).shape.slipGrad ((u - v) ∘ c.dofs) a) ≤
      ∑ a, ((c.pts q).shape.slipGrad (u ∘ c.dofs) a - (c.pts q).shape.slipGrad (v ∘ c.dofs) a) ⬝ᵥ
      (xi c.prm.vec (c.prm.sys a) ((c.pts q).shape.slipGrad (u ∘ c.dofs) a) -
        xi c.prm.vec (c.prm.sys a) ((c.pts q).shape.slipGrad (v ∘ c.dofs) a)) := by
    rw [mul_sum]
    refine sum_le_sum fun a _ => ?_
    have e : (u - v) ∘ c.dofs = u ∘ c.dofs - v ∘ c.dofs := rfl
    rw [e, slipGrad_sub]
    have hm := h.material c hc
    exact (mul_le_mul_of_nonneg_right hs (powers_nonneg hm.vec _ _)).trans (xi_gap hm.vec hm.index _ _ _)
  have := mul_le_mul_of_nonneg_left (mul_le_mul_of_nonneg_left key (h.material c hc).dn2)
    ((h.cell c hc).weight q).le
  refine le_trans (le_of_eq ?_) this
  ring

theorem elastic_shift (cells : List (MeshCell d n N)) (u v : ℕ → ℝ) :
    SpecElasticError cells u v = SpecElasticError cells (u - v) 0 := by
  unfold SpecElasticError
  congr 1
  refine List.map_congr_left fun c _ => sum_congr rfl fun q _ => ?_
  rw [elasticStrainAt_sub, elasticStrainAt_sub]
  have e : (u - v) ∘ c.dofs - (0 : ℕ → ℝ) ∘ c.dofs = u ∘ c.dofs - v ∘ c.dofs := by
    funext i; simp
  rw [e]

theorem elastic_smul (cells : List (MeshCell d n N)) (w : ℕ → ℝ) (t : ℝ) :
    SpecElasticError cells (t • w) 0 = t ^ 2 * SpecElasticError cells w 0 := by
  unfold SpecElasticError
  rw [← List.sum_map_mul_left]
  congr 1
  refine List.map_congr_left fun c _ => ?_
  rw [mul_sum]
  refine sum_congr rfl fun q _ => ?_
  rw [elasticStrainAt_sub, elasticStrainAt_sub, ← cc_form, ← cc_form]
  have e : ∀ i, ((t • w) ∘ c.dofs - (0 : ℕ → ℝ) ∘ c.dofs) i = t * (w ∘ c.dofs - (0 : ℕ → ℝ) ∘ c.dofs) i := by
    intro i; simp
  simp only [e, mul_sum]
  exact sum_congr rfl fun i _ => sum_congr rfl fun j _ => by ring

theorem slipGrad_smul (s : Shape d n N) (u : Fin N → ℝ) (t : ℝ) (a : Fin n) :
    s.slipGrad (t • u) a = t • s.slipGrad u a := by
  have := slipGrad_line s 0 u t a
  rwa [zero_add, slipGrad_zero, zero_add] at this

theorem defect_smul (cells : List (MeshCell d n N)) (h : SpecStableBody cells) (w : ℕ → ℝ) {t : ℝ} (ht : 1 ≤ t) :
    t ^ 2 * SpecDefectError cells w 0 ≤ SpecDefectError cells (t • w) 0 := by
  rw [defect_eq cells h, defect_eq cells h, ← List.sum_map_mul_left]
  refine List.sum_le_sum fun c hc => ?_
  rw [mul_sum]
  refine sum_le_sum fun q _ => ?_
  have hm := h.material c hc
  have key : t ^ 2 * ∑ a, powers c.prm.vec (c.prm.sys a) ((c.pts q).shape.slipGrad (w ∘ c.dofs) a) ≤
      ∑ a, powers c.prm.vec (c.prm.sys a) ((c.pts q).shape.slipGrad ((t • w) ∘ c.dofs) a) := by
    rw [mul_sum]
    refine sum_le_sum fun a _ => ?_
    have e : (t • w) ∘ c.dofs = t • (w ∘ c.dofs) := rfl
    rw [e, slipGrad_smul]
    exact powers_smul hm.vec hm.index _ _ ht
  have := mul_le_mul_of_nonneg_left (mul_le_mul_of_nonneg_left key hm.dn2) ((h.cell c hc).weight q).le
  refine le_trans (le_of_eq ?_) this
  ring

/-! ## Helpers: everything is Lipschitz on balls -/

section
variable {E : Type*} [NormedAddCommGroup E]

theorem phi_ll {p : ℝ} (hp : 2 ≤ p) : LL (Cry.phi p) := by
  refine LL.of_deriv (fun x => hasDerivAt_phi hp x) fun R => ?_
  refine ⟨(p - 1) * |R| ^ (p - 2), mul_nonneg (by linarith) (Real.rpow_nonneg (abs_nonneg _) _), fun x hx => ?_⟩
  rw [Real.norm_eq_abs] at hx ⊢
  rw [abs_mul, abs_of_nonneg (show 0 ≤ p - 1 by linarith), abs_of_nonneg (Real.rpow_nonneg (abs_nonneg x) _)]
  refine mul_le_mul_of_nonneg_left (Real.rpow_le_rpow (abs_nonneg _) (hx.trans (le_abs_self R)) (by linarith))
    (by linarith)

theorem reg_ll (f : RegFn) {k : ℝ} (hk : 0 < k) : LL (reg f k) := by
  refine LL.of_deriv (fun x => C27_derivative f k hk x) fun R => ?_
  obtain ⟨C, h0, hC⟩ := regDeriv_lip f k hk
  refine ⟨C * |R| + |regDeriv f k 0|, by positivity, fun x hx => ?_⟩
  rw [Real.norm_eq_abs] at hx ⊢
  have h1 := hC x 0
  rw [sub_zero] at h1
  have h2 := abs_add_le (regDeriv f k x - regDeriv f k 0) (regDeriv f k 0)
  rw [sub_add_cancel] at h2
  have := mul_le_mul_of_nonneg_left (hx.trans (le_abs_self R)) h0
  linarith

theorem slip_ll (s : Shape d n N) {u : E → Fin N → ℝ} (hu : ∀ j, LL fun x => u x j) (a : Fin n) :
    LL fun x => s.slip (u x) a := by
  unfold Shape.slip
  exact LL.finsum _ fun j _ => (hu j).mulc _

theorem slipGrad_ll (s : Shape d n N) {u : E → Fin N → ℝ} (hu : ∀ j, LL fun x => u x j) (a : Fin n) (k : Fin d) :
    LL fun x => s.slipGrad (u x) a k := by
  unfold Shape.slipGrad
  simp only [Finset.sum_apply, Pi.smul_apply, smul_eq_mul]
  exact LL.finsum _ fun j _ => (hu j).mulc _

theorem dot_ll (v : Vec d) {g : E → Vec d} (hg : ∀ k, LL fun x => g x k) : LL fun x => v ⬝ᵥ g x := by
  unfold dotProduct
  exact LL.finsum _ fun j _ => (hg j).cmul _

theorem xi_ll (v : VecLaw) (hp : 2 ≤ v.index) (s : System d) {g : E → Vec d} (hg : ∀ k, LL fun x => g x k) (k : Fin d) :
    LL fun x => xi v s (g x) k := by
  unfold xi
  exact (((LL.comp (phi_ll hp) (dot_ll s.direction hg)).mulc _).add
    ((LL.comp (phi_ll hp) (dot_ll s.third hg)).mulc _)).cmul _

theorem stress_ll (c : CellPrm d n) (s : Shape d n N) (A : Mat d) {u : E → Fin N → ℝ} (hu : ∀ j, LL fun x => u x j) :
    LL fun x => ddot A (c.stressAt s (u x)) := by
  have e : ∀ x, ddot A (c.stressAt s (u x)) = ddot A (c.stressAt s 0) +
      (∑ j, u x j * cc c.tetrad A (s.symGrad j) -
        c.dn0 * ∑ a, s.slip (u x) a * cc c.tetrad A (c.sys a).symSchmid) := by
    intro x
    have := stress_line c s A 0 (u x) 1
    rwa [one_smul, zero_add, one_mul, strain_sum] at this
  simp only [e]
  exact (LL.const _).add ((LL.finsum _ fun j _ => (hu j).mulc _).sub
    (LL.cmul _ (LL.finsum _ fun a _ => (slip_ll s hu a).mulc _)))

theorem res_ll (b : Bulk n) (old : Fin n → ℝ) {γ : E → Fin n → ℝ} (hg : ∀ a, LL fun x => γ x a) (a : Fin n) :
    LL fun x => (b.update (γ x) old).res a := by
  rcases hp : b.prm.perfect with _ | _
  · simp only [C17_hardening_law _ _ _ a hp]
    exact (LL.const _).add (LL.finsum _ fun c _ => LL.cmul _ (((hg c).sub (LL.const _)).abs))
  · simp only [C17_perfect _ _ _ hp]
    exact LL.const _

theorem micro_ll (l : Law) (hk : 0 < l.k) (hr : l.rateIndependent = false) (b : Bulk n) (old : Fin n → ℝ) (dt : ℝ)
    {γ : E → Fin n → ℝ} (hg : ∀ a, LL fun x => γ x a) (a : Fin n) :
    LL fun x => l.evalMicrostress b (γ x) old dt a := by
  have e : ∀ x, l.evalMicrostress b (γ x) old dt a =
      (b.update (γ x) old).res a * reg l.f l.k ((γ x a - old a) * dt⁻¹) := by
    intro x
    simp [Law.evalMicrostress, Law.microstress, hr, div_eq_mul_inv]
  simp only [e]
  exact (res_ll b old hg a).mul (LL.comp (reg_ll l.f hk) (((hg a).sub (LL.const _)).mulc _))

theorem term_ll (c : CellPrm d n) (hc : SpecMaterial c) (hr : c.law.rateIndependent = false) (kind : Kind n N)
    (p : Point d n N) {u : E → Fin N → ℝ} (hu : ∀ j, LL fun x => u x j) (i : Fin N) :
    ∃ R : E → ℝ, (∀ x, c.rhsTerm kind p (u x) i = some (R x)) ∧ LL R := by
  set s := p.shape with hsdef
  rcases hi : kind i with _ | a
  · refine ⟨fun x => -(c.dn3 / c.dn0 * (ddot (s.symGrad i) (c.stressAt s (u x)) - s.disp i ⬝ᵥ p.supply) * s.jxw), ?_, ?_⟩
    · intro x; unfold CellPrm.rhsTerm; simp only [hi, ← hsdef]
    · exact (LL.mulc _ (LL.cmul _ ((stress_ll c s _ hu).sub (LL.const _)))).neg
  · refine ⟨fun x => -((c.dn2 * (s.grad a i ⬝ᵥ xi c.vec (c.sys a) (s.slipGrad (u x) a)) -
        s.phi a i * (c.dn3 * ddot (c.sys a).symSchmid (c.stressAt s (u x)) -
          c.law.evalMicrostress p.hist (s.slip (u x)) p.old c.dt a)) * s.jxw), ?_, ?_⟩
    · intro x
      unfold CellPrm.rhsTerm
      simp only [hi, ← hsdef, microstress_eq c.vec hc.index, Option.map_some]
      unfold resolvedShear
      rw [ddot_comm]
    · exact (LL.mulc _ ((LL.cmul _ (dot_ll _ (xi_ll c.vec hc.index _ (slipGrad_ll s hu a)))).sub
        (LL.cmul _ ((LL.cmul _ (stress_ll c s _ hu)).sub (micro_ll c.law hc.k hr _ _ _ (slip_ll s hu) a))))).neg

theorem rhs_ll (c : MeshCell d n N) (hc : SpecMaterial c.prm) (hr : c.prm.law.rateIndependent = false)
    {u : E → Fin N → ℝ} (hu : ∀ j, LL fun x => u x j) (i : Fin N) :
    LL fun x => (c.prm.rhs c.kind c.pts (u x) i).getD 0 := by
  choose R h1 h2 using fun q => term_ll c.prm hc hr c.kind (c.pts q) hu i
  have e : ∀ x, (c.prm.rhs c.kind c.pts (u x) i).getD 0 = ∑ q, R q x := by
    intro x
    have : c.prm.rhs c.kind c.pts (u x) i = some (∑ q, R q x) := sumOpt_some _ _ fun q => h1 q x
    rw [this]; rfl
  simp only [e]
  exact LL.finsum _ fun q _ => h2 q

theorem elastic_ll (cells : List (MeshCell d n N)) {u : E → ℕ → ℝ} (hu : ∀ c ∈ cells, ∀ i, LL fun x => u x (c.dofs i)) :
    LL fun x => SpecElasticError cells (u x) 0 := by
  unfold SpecElasticError
  refine LL.listsum cells fun c hc => LL.finsum _ fun q _ => ?_
  simp only [elasticStrainAt_sub, ← cc_form]
  have hv : ∀ i, LL fun x => (u x ∘ c.dofs - (0 : ℕ → ℝ) ∘ c.dofs) i := fun i => by
    simp only [Pi.sub_apply, Function.comp_apply, Pi.zero_apply, sub_zero]
    exact hu c hc i
  exact LL.cmul _ (LL.cmul _ (LL.finsum _ fun i _ => LL.finsum _ fun j _ => ((hv i).mulc _).mul (hv j)))

theorem defect_ll (cells : List (MeshCell d n N)) (h : SpecStableBody cells) {u : E → ℕ → ℝ}
    (hu : ∀ c ∈ cells, ∀ i, LL fun x => u x (c.dofs i)) : LL fun x => SpecDefectError cells (u x) 0 := by
  unfold SpecDefectError
  refine LL.listsum cells fun c hc => LL.finsum _ fun q _ => ?_
  refine LL.cmul _ (LL.cmul _ (LL.finsum _ fun a _ => ?_))
  unfold dotProduct
  have hg := fun a => slipGrad_ll (c.pts q).shape (u := fun x => u x ∘ c.dofs) (fun j => hu c hc j) a
  refine LL.finsum _ fun k _ => LL.mul ?_ ?_
  · simp only [Pi.sub_apply]
    exact (hg a k).sub (LL.const _)
  · simp only [Pi.sub_apply]
    exact (xi_ll c.prm.vec (h.material c hc).index _ (hg a) k).sub (LL.const _)

end

/-! ## Helpers: the map whose zero is sought -/

/-- Numbers behind the last unknown are zero. -/
noncomputable def ext {m : ℕ} (w : EuclideanSpace ℝ (Fin m)) (g : ℕ) : ℝ := if h : g < m then w ⟨g, h⟩ else 0

theorem ext_sub {m : ℕ} (w v : EuclideanSpace ℝ (Fin m)) : ext (w - v) = ext w - ext v := by
  funext g
  unfold ext
  by_cases h : g < m <;> simp [h]

theorem ext_smul {m : ℕ} (w : EuclideanSpace ℝ (Fin m)) (t : ℝ) : ext (t • w) = t • ext w := by
  funext g
  unfold ext
  by_cases h : g < m <;> simp [h]

theorem ext_fin {m : ℕ} (w : EuclideanSpace ℝ (Fin m)) (r : Fin m) : ext w r = w r := by
  unfold ext; rw [dif_pos r.2]

theorem ext_ll {m : ℕ} (g : ℕ) : LL fun w : EuclideanSpace ℝ (Fin m) => ext w g := by
  unfold ext
  by_cases h : g < m
  · simp only [h, dif_pos]
    intro R
    refine ⟨1, zero_le_one, fun x y _ _ => ?_⟩
    rw [one_mul]
    have := PiLp.norm_apply_le (x - y) ⟨g, h⟩
    simpa using this
  · simp only [h, dif_neg, not_false_eq_true]
    exact LL.const _

theorem distribute_sub {K : Sol.Constraints ℕ} {m : ℕ} (hK : Homogeneous K m) (x y : ℕ → ℝ) :
    Sol.distribute K (x - y) = Sol.distribute K x - Sol.distribute K y := by
  funext g
  rw [Pi.sub_apply]
  cases hk : K g with
  | none => rw [Sol.distribute_free hk, Sol.distribute_free hk, Sol.distribute_free hk, Pi.sub_apply]
  | some l =>
    rw [Sol.distribute_line hk, Sol.distribute_line hk, Sol.distribute_line hk]
    unfold Sol.Line.eval
    rw [hK.inhom g l hk]
    generalize l.entries = es
    induction es with
    | nil => simp
    | cons e es ih =>
      simp only [List.map_cons, List.sum_cons, add_zero, Pi.sub_apply] at ih ⊢
      rw [ih]; ring

theorem distribute_smul {K : Sol.Constraints ℕ} {m : ℕ} (hK : Homogeneous K m) (x : ℕ → ℝ) (t : ℝ) :
    Sol.distribute K (t • x) = t • Sol.distribute K x := by
  funext g
  rw [Pi.smul_apply]
  cases hk : K g with
  | none => rw [Sol.distribute_free hk, Sol.distribute_free hk, Pi.smul_apply]
  | some l =>
    rw [Sol.distribute_line hk, Sol.distribute_line hk]
    unfold Sol.Line.eval
    rw [hK.inhom g l hk]
    generalize l.entries = es
    induction es with
    | nil => simp
    | cons e es ih =>
      simp only [List.map_cons, List.sum_cons, add_zero, Pi.smul_apply, smul_eq_mul] at ih ⊢
      rw [ih]; ring

theorem distribute_ll {K : Sol.Constraints ℕ} {m : ℕ} (hK : Homogeneous K m) {g : ℕ} (hg : g < m) :
    LL fun w : EuclideanSpace ℝ (Fin m) => Sol.distribute K (ext w) g := by
  simp only [← weight_sum hK _ hg]
  exact LL.finsum _ fun r _ => LL.cmul _ (ext_ll r)

/-- What the cells hand over in the state `u`. -/
noncomputable def forces (u : ℕ → ℝ) (c : MeshCell d n N) (i : Fin N) : ℝ :=
  (c.prm.rhs c.kind c.pts (u ∘ c.dofs) i).getD 0

/-- The state belonging to the unknowns `w`. -/
noncomputable def state (K : Sol.Constraints ℕ) (x₀ : ℕ → ℝ) {m : ℕ} (w : EuclideanSpace ℝ (Fin m)) : ℕ → ℝ :=
  x₀ + Sol.distribute K (ext w)

noncomputable def rowOf (cells : List (MeshCell d n N)) (K : Sol.Constraints ℕ) (x₀ : ℕ → ℝ) {m : ℕ}
    (w : EuclideanSpace ℝ (Fin m)) (r : ℕ) : ℝ :=
  Lin.residual K (cells.map fun c => c.local (forces (state K x₀ w))) r

noncomputable def theMap (cells : List (MeshCell d n N)) (K : Sol.Constraints ℕ) (x₀ : ℕ → ℝ) {m : ℕ}
    (w : EuclideanSpace ℝ (Fin m)) : EuclideanSpace ℝ (Fin m) :=
  WithLp.toLp 2 fun r => if (K r).isNone then -rowOf cells K x₀ w r else w r

/-- Squares of the constrained entries. -/
noncomputable def pinned (K : Sol.Constraints ℕ) {m : ℕ} (w : EuclideanSpace ℝ (Fin m)) : ℝ :=
  ∑ r : Fin m, if (K r).isNone then 0 else w r ^ 2

theorem pinned_nonneg (K : Sol.Constraints ℕ) {m : ℕ} (w : EuclideanSpace ℝ (Fin m)) : 0 ≤ pinned K w := by
  unfold pinned
  exact sum_nonneg fun r _ => by split_ifs <;> positivity

theorem state_sub {K : Sol.Constraints ℕ} {m : ℕ} (hK : Homogeneous K m) (x₀ : ℕ → ℝ) (w v : EuclideanSpace ℝ (Fin m)) :
    state K x₀ w - state K x₀ v = Sol.distribute K (ext (w - v)) := by
  unfold state
  rw [ext_sub, distribute_sub hK]
  abel

theorem map_inner (cells : List (MeshCell d n N)) (h : SpecStableBody cells) {K : Sol.Constraints ℕ} {m : ℕ}
    (hK : Homogeneous K m) (hm : ∀ c ∈ cells, ∀ i, c.dofs i < m) (x₀ : ℕ → ℝ) (w v : EuclideanSpace ℝ (Fin m)) :
    inner ℝ (theMap cells K x₀ w - theMap cells K x₀ v) (w - v) =
      SpecElasticError cells (state K x₀ w) (state K x₀ v) + SpecDefectError cells (state K x₀ w) (state K x₀ v) +
        SpecSlipError cells (state K x₀ w) (state K x₀ v) + pinned K (w - v) := by
  have hsat : Sol.Satisfies K (state K x₀ w - state K x₀ v) := by
    rw [state_sub hK]; exact Sol.distribute_satisfies hK.closed _
  rw [work_gap cells h _ _ (forces (state K x₀ w)) (forces (state K x₀ v)) (assembled_always cells h _)
    (assembled_always cells h _), work_residual cells hK hm hsat (r := rowOf cells K x₀ w) (fun g _ => rfl),
    work_residual cells hK hm hsat (r := rowOf cells K x₀ v) (fun g _ => rfl), PiLp.inner_apply,
    sum_range, sum_range]
  unfold pinned
  rw [sub_neg_eq_add, neg_add_eq_sub, ← sum_sub_distrib, ← sum_add_distrib]
  refine sum_congr rfl fun r _ => ?_
  rw [state_sub hK]
  simp only [theMap, PiLp.sub_apply, RCLike.inner_apply, conj_trivial]
  cases hk : K r with
  | none =>
    rw [Sol.distribute_free hk, ext_fin]
    simp only [Option.isNone_none, if_true, PiLp.sub_apply]
    ring
  | some l =>
    have e : ∀ z : EuclideanSpace ℝ (Fin m), rowOf cells K x₀ z r = 0 := fun z =>
      residual_constrained hK _ (by rw [hk]; simp)
    rw [e, e]
    simp
    ring

theorem map_ll (cells : List (MeshCell d n N)) (h : SpecStableBody cells)
    (hr : ∀ c ∈ cells, c.prm.law.rateIndependent = false) {K : Sol.Constraints ℕ} {m : ℕ}
    (hK : Homogeneous K m) (hm : ∀ c ∈ cells, ∀ i, c.dofs i < m) (x₀ : ℕ → ℝ) :
    LL (theMap cells K x₀ (m := m)) := by
  refine LL.of_components fun r => ?_
  unfold theMap
  cases hk : (K r).isNone with
  | false =>
    simp only [hk]
    have := ext_ll (m := m) r
    simp only [ext_fin] at this
    simpa using this
  | true =>
    simp only [hk, if_true]
    refine LL.neg ?_
    unfold rowOf Lin.residual
    simp only [List.map_map]
    refine LL.listsum cells fun c hc => ?_
    simp only [Function.comp_apply]
    refine LL.finsum _ fun i _ => ?_
    show LL fun w => weight K (c.dofs i) r * forces (state K x₀ w) c i
    refine LL.cmul _ ?_
    refine rhs_ll c (h.material c hc) (hr c hc) (u := fun w => state K x₀ w ∘ c.dofs) (fun j => ?_) i
    exact (LL.const _).add (distribute_ll hK (hm c hc j))

/-- Energy of a variation. -/
noncomputable def potential (cells : List (MeshCell d n N)) (K : Sol.Constraints ℕ) {m : ℕ}
    (w : EuclideanSpace ℝ (Fin m)) : ℝ :=
  SpecElasticError cells (Sol.distribute K (ext w)) 0 + SpecDefectError cells (Sol.distribute K (ext w)) 0 + pinned K w

theorem potential_smul (cells : List (MeshCell d n N)) (h : SpecStableBody cells) {K : Sol.Constraints ℕ} {m : ℕ}
    (hK : Homogeneous K m) (w : EuclideanSpace ℝ (Fin m)) {t : ℝ} (ht : 1 ≤ t) :
    t ^ 2 * potential cells K w ≤ potential cells K (t • w) := by
  unfold potential
  rw [ext_smul, distribute_smul hK, elastic_smul]
  have h1 := defect_smul cells h (Sol.distribute K (ext w)) ht
  have h2 : pinned K (t • w) = t ^ 2 * pinned K w := by
    unfold pinned
    rw [mul_sum]
    refine sum_congr rfl fun r _ => ?_
    split_ifs
    · simp
    · rw [PiLp.smul_apply, smul_eq_mul]; ring
  rw [h2]
  linarith

theorem potential_ll (cells : List (MeshCell d n N)) (h : SpecStableBody cells) {K : Sol.Constraints ℕ} {m : ℕ}
    (hK : Homogeneous K m) (hm : ∀ c ∈ cells, ∀ i, c.dofs i < m) : LL (potential cells K (m := m)) := by
  unfold potential
  have hu : ∀ c ∈ cells, ∀ i, LL fun w : EuclideanSpace ℝ (Fin m) => Sol.distribute K (ext w) (c.dofs i) :=
    fun c hc i => distribute_ll hK (hm c hc i)
  refine ((elastic_ll cells hu).add (defect_ll cells h hu)).add ?_
  unfold pinned
  refine LL.finsum _ fun r _ => ?_
  cases hk : (K r).isNone with
  | true => simp only [if_true]; exact LL.const _
  | false =>
    have := ext_ll (m := m) r
    simp only [ext_fin] at this
    simp only [Bool.false_eq_true, if_false, pow_two]
    exact this.mul this

theorem potential_pos (cells : List (MeshCell d n N)) (h : SpecStableBody cells) {K : Sol.Constraints ℕ} {m : ℕ}
    (hK : Homogeneous K m) (hdet : SpecDetermined cells K m) (w : EuclideanSpace ℝ (Fin m)) (hw : w ≠ 0) :
    0 < potential cells K w := by
  obtain ⟨h1, h2, -⟩ := errors_nonneg cells h (Sol.distribute K (ext w)) 0
  have h3 := pinned_nonneg K w
  by_contra hneg
  unfold potential at hneg
  have z1 : SpecElasticError cells (Sol.distribute K (ext w)) 0 + SpecDefectError cells (Sol.distribute K (ext w)) 0 = 0 := by
    linarith
  have z2 : pinned K w = 0 := by linarith
  have d1 := hdet _ (Sol.distribute_satisfies hK.closed _) z1
  apply hw
  ext r
  cases hk : K r with
  | none =>
    have := d1 r r.2
    rwa [Sol.distribute_free hk, ext_fin] at this
  | some l =>
    unfold pinned at z2
    have := (sum_eq_zero_iff_of_nonneg (fun r _ => by split_ifs <;> positivity)).1 z2 r (mem_univ r)
    rw [hk] at this
    simpa using this

theorem potential_grows (cells : List (MeshCell d n N)) (h : SpecStableBody cells) {K : Sol.Constraints ℕ} {m : ℕ}
    (hK : Homogeneous K m) (hm : ∀ c ∈ cells, ∀ i, c.dofs i < m) (hdet : SpecDetermined cells K m) :
    ∃ μ, 0 < μ ∧ ∀ w : EuclideanSpace ℝ (Fin m), 1 ≤ ‖w‖ → μ * ‖w‖ ^ 2 ≤ potential cells K w := by
  have key : ∃ μ, 0 < μ ∧ ∀ w : EuclideanSpace ℝ (Fin m), ‖w‖ = 1 → μ ≤ potential cells K w := by
    by_cases hne : (Metric.sphere (0 : EuclideanSpace ℝ (Fin m)) 1).Nonempty
    · obtain ⟨z, hz, hmin⟩ := (isCompact_sphere (0 : EuclideanSpace ℝ (Fin m)) 1).exists_isMinOn hne
        (potential_ll cells h hK hm).continuous.continuousOn
      refine ⟨potential cells K z, potential_pos cells h hK hdet z ?_, fun w hw => hmin (by simpa using hw)⟩
      rintro rfl
      simp at hz
    · refine ⟨1, one_pos, fun w hw => absurd ⟨w, by simpa using hw⟩ hne⟩
  obtain ⟨μ, h0, hμ⟩ := key
  refine ⟨μ, h0, fun w hw => ?_⟩
  have hw0 : 0 < ‖w‖ := by linarith
  have e : w = ‖w‖ • (‖w‖⁻¹ • w) := by rw [smul_smul, mul_inv_cancel₀ hw0.ne', one_smul]
  have h1 := hμ (‖w‖⁻¹ • w) (by rw [norm_smul, norm_inv, norm_norm, inv_mul_cancel₀ hw0.ne'])
  have h2 := potential_smul cells h hK (‖w‖⁻¹ • w) hw
  rw [← e] at h2
  have := mul_le_mul_of_nonneg_left h1 (sq_nonneg ‖w‖)
  linarith

/-! ## Property -/

/-- C118: a step of a stable rate-dependent body has a solution that fulfils the boundary conditions, for every load,
history and time step; whatever state the boundary values are taken from. -/
theorem C118_exists (cells : List (MeshCell d n N)) (h : SpecStableBody cells)
    (hr : ∀ c ∈ cells, c.prm.law.rateIndependent = false) (K : Sol.Constraints ℕ) (m : ℕ) (hK : Homogeneous K m)
    (hm : ∀ c ∈ cells, ∀ i, c.dofs i < m) (hdet : SpecDetermined cells K m) (x₀ : ℕ → ℝ) :
    ∃ u, Sol.Satisfies K (u - x₀) ∧ SpecSolution cells K m u := by
  obtain ⟨s, hs0, hs1, hs⟩ := defect_lower cells h
  obtain ⟨μ, hμ0, hμ⟩ := potential_grows cells h hK hm hdet
  set F := theMap cells K x₀ (m := m) with hF
  have lower : ∀ w, 1 ≤ ‖w‖ → s * μ * ‖w‖ ^ 2 ≤ inner ℝ (F w - F 0) w := by
    intro w hw
    have h1 := map_inner cells h hK hm x₀ w 0
    rw [sub_zero] at h1
    rw [hF, h1]
    obtain ⟨e1, e2, e3⟩ := errors_nonneg cells h (state K x₀ w) (state K x₀ (0 : EuclideanSpace ℝ (Fin m)))
    have h2 := hs (state K x₀ w) (state K x₀ (0 : EuclideanSpace ℝ (Fin m)))
    rw [elastic_shift] at e1 ⊢
    rw [state_sub hK, sub_zero] at h2 e1 ⊢
    have h3 := hμ w hw
    unfold potential at h3
    have h4 := pinned_nonneg K w
    have h5 := mul_le_mul_of_nonneg_left h3 hs0.le
    nlinarith
  obtain ⟨w, hw⟩ := monotone_zero F (fun x y => by
      rw [hF, map_inner cells h hK hm]
      obtain ⟨e1, e2, e3⟩ := errors_nonneg cells h (state K x₀ x) (state K x₀ y)
      have := pinned_nonneg K (x - y)
      linarith) (map_ll cells h hr hK hm x₀) (max 1 (‖F 0‖ / (s * μ) + 1)) (fun w hw => by
      have h1 : 1 ≤ ‖w‖ := (le_max_left _ _).trans hw
      have h2 : ‖F 0‖ / (s * μ) + 1 ≤ ‖w‖ := (le_max_right _ _).trans hw
      have h3 := lower w h1
      rw [inner_sub_left] at h3
      have h4 := neg_le_of_abs_le (abs_real_inner_le_norm (F 0) w)
      have h5 : ‖F 0‖ < s * μ * ‖w‖ := by
        have : ‖F 0‖ / (s * μ) < ‖w‖ := by linarith
        rw [div_lt_iff₀ (by positivity)] at this
        linarith
      nlinarith)
  refine ⟨state K x₀ w, ?_, forces (state K x₀ w), assembled_always cells h _, fun r hrm => ?_⟩
  · unfold state
    rw [add_sub_cancel_left]
    exact Sol.distribute_satisfies hK.closed _
  · cases hk : K r with
    | some l => exact residual_constrained hK _ (by rw [hk]; simp)
    | none =>
      have := congrArg (fun z : EuclideanSpace ℝ (Fin m) => z ⟨r, hrm⟩) hw
      simp only [hF, theMap, hk, Option.isNone_none, if_true] at this
      have h2 : -rowOf cells K x₀ w r = 0 := this
      exact neg_eq_zero.1 h2

/-- C118: and only one. -/
theorem C118_unique (cells : List (MeshCell d n N)) (h : SpecStableBody cells) (K : Sol.Constraints ℕ) (m : ℕ)
    (hK : Homogeneous K m) (hm : ∀ c ∈ cells, ∀ i, c.dofs i < m) (hdet : SpecDetermined cells K m) (u v : ℕ → ℝ)
    (hu : SpecSolution cells K m u) (hv : SpecSolution cells K m v) (hsat : Sol.Satisfies K (u - v)) :
    ∀ g < m, u g = v g := by
  obtain ⟨s, hs0, hs1, hs⟩ := defect_lower cells h
  obtain ⟨⟨h1, h2, h3⟩, -⟩ := C115_error cells h K m hK hm u v 0 0 hu hv hsat
  have h4 := (C115_converged cells h K m hK hm u v 0 0 hu (by simp [SpecLength]) hv hsat).2
  rw [zero_mul] at h4
  have h5 := hs u v
  obtain ⟨e1, e2, -⟩ := errors_nonneg cells h (u - v) 0
  rw [elastic_shift] at h1 h4
  intro g hg
  have := hdet (u - v) hsat (by nlinarith) g hg
  rw [Pi.sub_apply] at this
  linarith

/-! ## The tolerance controls the distance -/

theorem elastic_congr (cells : List (MeshCell d n N)) {m : ℕ} (hm : ∀ c ∈ cells, ∀ i, c.dofs i < m) {u v : ℕ → ℝ}
    (h : ∀ g < m, u g = v g) : SpecElasticError cells u 0 = SpecElasticError cells v 0 := by
  unfold SpecElasticError
  congr 1
  refine List.map_congr_left fun c hc => ?_
  have : u ∘ c.dofs = v ∘ c.dofs := funext fun i => h _ (hm c hc i)
  rw [this]

theorem defect_congr (cells : List (MeshCell d n N)) {m : ℕ} (hm : ∀ c ∈ cells, ∀ i, c.dofs i < m) {u v : ℕ → ℝ}
    (h : ∀ g < m, u g = v g) : SpecDefectError cells u 0 = SpecDefectError cells v 0 := by
  unfold SpecDefectError
  congr 1
  refine List.map_congr_left fun c hc => ?_
  have : u ∘ c.dofs = v ∘ c.dofs := funext fun i => h _ (hm c hc i)
  rw [this]

/-- The stored energy of an admissible variation grows at least quadratically. -/
theorem energy_grows (cells : List (MeshCell d n N)) (h : SpecStableBody cells) {K : Sol.Constraints ℕ} {m : ℕ}
    (hK : Homogeneous K m) (hm : ∀ c ∈ cells, ∀ i, c.dofs i < m) (hdet : SpecDetermined cells K m) {ε : ℝ} (hε : 0 < ε) :
    ∃ μ, 0 < μ ∧ ∀ w, Sol.Satisfies K w → ε ≤ SpecLength m w →
      μ * SpecLength m w ^ 2 ≤ SpecElasticError cells w 0 + SpecDefectError cells w 0 := by
  set A : Set (EuclideanSpace ℝ (Fin m)) :=
    Metric.sphere 0 ε ∩ ⋂ r : Fin m, {w | Sol.distribute K (ext w) r = w r} with hA
  set Ψ : EuclideanSpace ℝ (Fin m) → ℝ := fun w =>
    SpecElasticError cells (Sol.distribute K (ext w)) 0 + SpecDefectError cells (Sol.distribute K (ext w)) 0 with hΨ
  have hΨc : Continuous Ψ := by
    have hu : ∀ c ∈ cells, ∀ i, LL fun w : EuclideanSpace ℝ (Fin m) => Sol.distribute K (ext w) (c.dofs i) :=
      fun c hc i => distribute_ll hK (hm c hc i)
    exact ((elastic_ll cells hu).add (defect_ll cells h hu)).continuous
  have hcomp : IsCompact A := by
    refine (isCompact_sphere _ _).inter_right (isClosed_iInter fun r => ?_)
    refine isClosed_eq (distribute_ll hK r.2).continuous ?_
    have := (ext_ll (m := m) r).continuous
    simpa only [ext_fin] using this
  have key : ∃ μ, 0 < μ ∧ ∀ w ∈ A, μ ≤ Ψ w := by
    by_cases hne : A.Nonempty
    · obtain ⟨z, hz, hmin⟩ := hcomp.exists_isMinOn hne hΨc.continuousOn
      refine ⟨Ψ z, ?_, fun w hw => hmin hw⟩
      obtain ⟨h1, h2, -⟩ := errors_nonneg cells h (Sol.distribute K (ext z)) 0
      refine lt_of_le_of_ne (add_nonneg h1 h2) fun h0 => ?_
      have d1 := hdet _ (Sol.distribute_satisfies hK.closed _) h0.symm
      have hz0 : z = 0 := by
        ext r
        have h3 : Sol.distribute K (ext z) r = z r := by
          have := Set.mem_iInter.1 hz.2 r
          exact this
        rw [← h3, d1 r r.2]; rfl
      have := hz.1
      rw [hz0] at this
      simp at this
      exact hε.ne this
    · exact ⟨1, one_pos, fun w hw => absurd ⟨w, hw⟩ hne⟩
  obtain ⟨μ, h0, hμ⟩ := key
  refine ⟨μ / ε ^ 2, by positivity, fun w hw hl => ?_⟩
  set δ := SpecLength m w with hδ
  have hδ0 : 0 < δ := hε.trans_le hl
  set z : EuclideanSpace ℝ (Fin m) := WithLp.toLp 2 fun r => w r with hz
  have hzn : ‖z‖ = δ := by
    rw [EuclideanSpace.norm_eq, hδ]
    unfold SpecLength
    congr 1
    rw [sum_range]
    exact sum_congr rfl fun r _ => by rw [Real.norm_eq_abs, sq_abs]
  have hext : ∀ g < m, ext z g = w g := by
    intro g hg
    unfold ext
    rw [dif_pos hg]
  have hdist : ∀ g < m, Sol.distribute K (ext z) g = w g := by
    intro g hg
    rw [← weight_sum hK _ hg, sum_congr rfl fun r hr => by rw [hext r (mem_range.1 hr)], weight_sum hK _ hg,
      Sol.distribute_of_satisfies hw]
  set t := δ / ε with ht
  have ht1 : 1 ≤ t := by rw [ht, le_div_iff₀ hε]; linarith
  set y := (ε / δ) • z with hy
  have hty : t • y = z := by
    rw [hy, smul_smul, ht]
    rw [show δ / ε * (ε / δ) = 1 by field_simp, one_smul]
  have hyA : y ∈ A := by
    refine ⟨?_, Set.mem_iInter.2 fun r => ?_⟩
    · rw [mem_sphere_zero_iff_norm, hy, norm_smul, hzn, Real.norm_eq_abs, abs_of_pos (by positivity)]
      field_simp
    · show Sol.distribute K (ext y) r = y r
      rw [hy, ext_smul, distribute_smul hK, Pi.smul_apply, hdist r r.2]
      rfl
  have h1 := hμ y hyA
  have h2 := defect_smul cells h (Sol.distribute K (ext y)) ht1
  have h3 := elastic_smul cells (Sol.distribute K (ext y)) t
  rw [← distribute_smul hK, ← ext_smul, hty] at h2 h3
  rw [elastic_congr cells hm hdist] at h3
  rw [defect_congr cells hm hdist] at h2
  rw [h3]
  have e : μ / ε ^ 2 * δ ^ 2 = t ^ 2 * μ := by rw [ht, div_pow]; ring
  have h4 := mul_le_mul_of_nonneg_left h1 (sq_nonneg t)
  rw [hΨ] at h4
  simp only at h4
  linarith

theorem error_close (cells : List (MeshCell d n N)) (h : SpecStableBody cells) {K : Sol.Constraints ℕ} {m : ℕ}
    (hK : Homogeneous K m) (hm : ∀ c ∈ cells, ∀ i, c.dofs i < m) (hdet : SpecDetermined cells K m) {ε : ℝ} (hε : 0 < ε) :
    ∃ tol, 0 < tol ∧ ∀ u v, Sol.Satisfies K (u - v) →
      SpecElasticError cells u v + SpecDefectError cells u v + SpecSlipError cells u v ≤ tol * SpecLength m (u - v) →
      SpecLength m (u - v) < ε := by
  obtain ⟨s, hs0, hs1, hs⟩ := defect_lower cells h
  obtain ⟨μ, hμ0, hμ⟩ := energy_grows cells h hK hm hdet hε
  refine ⟨s * μ * ε / 2, by positivity, fun u v hsat hle => ?_⟩
  by_contra hge
  push Not at hge
  obtain ⟨-, -, e3⟩ := errors_nonneg cells h u v
  obtain ⟨e1, e2, -⟩ := errors_nonneg cells h (u - v) 0
  have h1 := hs u v
  have h2 := hμ (u - v) hsat hge
  rw [elastic_shift] at hle
  set δ := SpecLength m (u - v)
  have hδ0 : 0 < δ := hε.trans_le hge
  have h3 := mul_le_mul_of_nonneg_left h2 hs0.le
  have h4 : s * μ * δ ^ 2 ≤ s * μ * ε / 2 * δ := by nlinarith
  have h5 : s * μ * ε / 2 * δ < s * μ * δ ^ 2 := by
    have h6 : 0 < s * μ * δ := by positivity
    nlinarith
  linarith

/-- C118: for every distance there is a tolerance such that every state with a residual within the tolerance lies within
that distance of the solution. -/
theorem C118_tolerance (cells : List (MeshCell d n N)) (h : SpecStableBody cells) (K : Sol.Constraints ℕ) (m : ℕ)
    (hK : Homogeneous K m) (hm : ∀ c ∈ cells, ∀ i, c.dofs i < m) (hdet : SpecDetermined cells K m) (ε : ℝ) (hε : 0 < ε) :
    ∃ tol > 0, ∀ u v r, SpecResidualVector cells K m u r → SpecLength m r ≤ tol → SpecSolution cells K m v →
      Sol.Satisfies K (u - v) → SpecLength m (u - v) < ε := by
  obtain ⟨tol, ht, htol⟩ := error_close cells h hK hm hdet hε
  refine ⟨tol, ht, fun u v r hu hr hv hsat => htol u v hsat ?_⟩
  exact (C115_converged cells h K m hK hm u v r tol hu hr hv hsat).2

/-- C118, for the monolithic algorithm: the step has exactly one solution, and with a sufficiently small tolerance
whatever the algorithm returns, with or without line search, after however many iterations and from whatever start,
lies as close to it as one wishes. -/
theorem C118_step (cells : List (MeshCell d n N)) (h : SpecStableBody cells)
    (hr : ∀ c ∈ cells, c.prm.law.rateIndependent = false) (p : Lin.Problem N) (hp : SpecBodyStep cells p)
    (hadm : ∀ x u, Sol.Satisfies p.aff x → Sol.Satisfies p.internal u → Sol.Satisfies p.aff fun g => x g + u g)
    (hdet : SpecDetermined cells p.internal p.n) :
    ∃ x, Sol.Satisfies p.aff x ∧ SpecSolution cells p.internal p.n x ∧
      (∀ y, Sol.Satisfies p.aff y → SpecSolution cells p.internal p.n y → ∀ g < p.n, y g = x g) ∧
      ∀ ε > 0, ∃ tol > 0, ∀ (nMax : ℕ) (s s' : Lin.Step N) (k : ℕ),
        Drv.monoRD p.mono nMax tol (nMax + 1) 0 s = .returned s' k →
        ∃ y, s'.trial = some y ∧ Sol.Satisfies p.aff y ∧ SpecLength p.n (y - x) < ε := by
  have h0 : Sol.Satisfies p.aff (Sol.distribute p.aff 0) := Sol.distribute_satisfies hp.closed _
  obtain ⟨x, hx1, hx2⟩ := C118_exists cells h hr p.internal p.n hp.homogeneous hp.dofs hdet (Sol.distribute p.aff 0)
  have hx : Sol.Satisfies p.aff x := by
    have := hadm _ _ h0 hx1
    have e : (fun g => Sol.distribute p.aff 0 g + (x - Sol.distribute p.aff 0) g) = x := by
      funext g; rw [Pi.sub_apply]; ring
    rwa [e] at this
  refine ⟨x, hx, hx2, fun y hy hys => ?_, fun ε hε => ?_⟩
  · exact C118_unique cells h p.internal p.n hp.homogeneous hp.dofs hdet y x hys hx2 (hp.difference y x hy hx)
  · obtain ⟨tol, ht, htol⟩ := error_close cells h hp.homogeneous hp.dofs hdet hε
    refine ⟨tol, ht, fun nMax s s' k hret => ?_⟩
    obtain ⟨y, h1, h2, h3⟩ := C115_returned cells h p hp nMax tol s s' k hret
    exact ⟨y, h1, h2, htol y x (hp.difference y x h2 hx) (h3 x hx hx2)⟩

/-! ## Non-vacuity -/

theorem exSoft_determined (H f : ℝ) (h0 : 0 ≤ H) (h1 : H ≤ 4) : SpecDetermined [exSoft H f] (fun _ => none) 2 := by
  intro w _ he g hg
  obtain ⟨-, h3, -⟩ := errors_nonneg _ (exSoft_stable H f h0 h1) w 0
  rw [exSoft_elastic] at he
  simp only [Pi.zero_apply, sub_zero] at he
  have e0 : w 0 = 0 := by
    have : w 0 ^ 2 = 0 := by nlinarith [sq_nonneg (w 0), sq_nonneg (2 * w 0 - w 1)]
    simpa using this
  have e1 : w 1 = 0 := by
    have : (2 * w 0 - w 1) ^ 2 = 0 := by nlinarith [sq_nonneg (w 0), sq_nonneg (2 * w 0 - w 1)]
    rw [e0] at this
    simpa using this
  interval_cases g <;> assumption

/-- C118 in a concrete case: for every load `f` and hardening up to the bound of C84. -/
example (H f : ℝ) (h0 : 0 ≤ H) (h1 : H ≤ 4) : ∃ x, SpecSolution [exSoft H f] (fun _ => none) 2 x ∧
    (∀ y, SpecSolution [exSoft H f] (fun _ => none) 2 y → y 0 = x 0 ∧ y 1 = x 1) := by
  obtain ⟨x, -, hx, hu, -⟩ := C118_step [exSoft H f] (exSoft_stable H f h0 h1)
    (by intro c hc; rw [List.mem_singleton] at hc; subst hc; rfl) (exSoftStep H f) (exSoft_body H f h0 h1).step
    (exSoft_body H f h0 h1).admissible (exSoft_determined H f h0 h1)
  refine ⟨x, hx, fun y hy => ?_⟩
  have := hu y (fun _ _ h => by simp [exSoftStep] at h) hy
  exact ⟨this 0 (by norm_num [exSoftStep]), this 1 (by norm_num [exSoftStep])⟩

end Verif.Asm
