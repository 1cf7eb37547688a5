import Verif.Props.ResidualError
import Verif.Props.ElasticStep
import Verif.Props.RegSlope
import Verif.Props.Quadratic

/-!
# Convergence of the Newton loop for a body: C116, C117
-/

namespace Verif.Asm
open Matrix Finset Verif.Cry Verif.Hist Verif.Micro Verif.Lin

variable {d n N : ℕ}

/-! ## Specification -/

/-- Integral of the squares of the slips of a field. -/
noncomputable def SpecSlipSquare (cells : List (MeshCell d n N)) (w : ℕ → ℝ) : ℝ :=
  (cells.map fun c => ∑ q, (c.pts q).shape.jxw * ∑ a, (c.pts q).shape.slip (w ∘ c.dofs) a ^ 2).sum

/-- A step of a rate-dependent body with a quadratic defect energy, whose stored energy determines the unknowns with
stiffness `k`; `m` bounds the slips of the unknowns, `H` the hardening moduli. -/
structure SpecNewtonBody (cells : List (MeshCell d n N)) (p : Lin.Problem N) (k m H : ℝ) : Prop where
  stable : SpecStableBody cells
  step : SpecBodyStep cells p
  admissible : ∀ x u, Sol.Satisfies p.aff x → Sol.Satisfies p.internal u → Sol.Satisfies p.aff fun g => x g + u g
  rate : ∀ c ∈ cells, c.prm.law.rateIndependent = false
  defect : ∀ c ∈ cells, c.prm.vec.index = 2
  stiff : ∀ u v, Sol.Satisfies p.internal (u - v) →
    k * SpecLength p.n (u - v) ^ 2 ≤ SpecElasticError cells u v + SpecDefectError cells u v
  mass : ∀ w, SpecSlipSquare cells (Sol.distribute p.internal w) ≤ m * SpecLength p.n w ^ 2
  hardening : ∀ c ∈ cells, c.prm.law.hard.perfect = true ∨ c.prm.law.hard.modulus / c.prm.law.hard.characteristic ≤ H
  m_nonneg : 0 ≤ m
  H_nonneg : 0 ≤ H

/-! ## Helpers: the local difference -/

/-- With a quadratic defect energy the vectorial microstress is linear. -/
theorem xi_add (v : VecLaw) (hv : v.index = 2) (s : System d) (g h : Vec d) (k : Fin d) :
    xi v s (g + h) k = xi v s g k + ∑ m, jac v s g k m * h m := by
  have hp : ∀ x : ℝ, Cry.phi v.index x = x := fun x => by
    unfold Cry.phi; rw [hv]; simp
  have e : ∑ m, jac v s g k m * h m = xi v s h k := by
    unfold jac xi
    simp only [hp]
    simp only [hv, Matrix.of_apply]
    norm_num
    simp only [dotProduct, Finset.sum_mul, Finset.mul_sum, ← sum_add_distrib]
    exact sum_congr rfl fun m _ => by ring
  rw [e]
  unfold xi
  simp only [hp, dotProduct_add]
  ring

/-- What the tangent of the microstress misses. -/
noncomputable def missed (c : CellPrm d n) (p : Point d n N) (u h : Fin N → ℝ) (a : Fin n) : ℝ :=
  c.law.evalMicrostress p.hist (p.shape.slip (u + h)) p.old c.dt a -
    c.law.evalMicrostress p.hist (p.shape.slip u) p.old c.dt a -
    ∑ b, c.law.evalJacobian p.hist (p.shape.slip u) p.old c.dt a b * p.shape.slip h b

theorem term_diff (c : CellPrm d n) (kind : Kind n N) (p : Point d n N) (hs : p.shape.Primitive kind)
    (hvec : c.vec.index = 2) (u h : Fin N → ℝ) (i : Fin N) :
    ∃ (R R' : ℝ) (J : Fin N → ℝ), c.rhsTerm kind p u i = some R ∧ c.rhsTerm kind p (u + h) i = some R' ∧
      (∀ j, c.matTerm kind p u i j = some (J j)) ∧
      R' - R + ∑ j, J j * h j = -∑ a, p.shape.phi a i * (p.shape.jxw * missed c p u h a) := by
  have hv2 : 2 ≤ c.vec.index := hvec.ge
  have h1 : u + h = u + (1 : ℝ) • h := by rw [one_smul]
  set s := p.shape with hsdef
  rcases hi : kind i with _ | a
  · refine ⟨-(c.dn3 / c.dn0 * (ddot (s.symGrad i) (c.stressAt s u) - s.disp i ⬝ᵥ p.supply) * s.jxw),
      -(c.dn3 / c.dn0 * (ddot (s.symGrad i) (c.stressAt s (u + h)) - s.disp i ⬝ᵥ p.supply) * s.jxw),
      fun j => c.dn3 / c.dn0 * (cc c.tetrad (s.symGrad i) (s.symGrad j) -
        c.dn0 * ∑ b, s.phi b j * cc c.tetrad (s.symGrad i) (c.sys b).symSchmid) * s.jxw, ?_, ?_, ?_, ?_⟩
    · unfold CellPrm.rhsTerm; simp only [hi, ← hsdef]
    · unfold CellPrm.rhsTerm; simp only [hi, ← hsdef]
    · intro j
      unfold CellPrm.matTerm
      rcases hj : kind j with _ | b
      · simp only [hi, sandwich_eq, ← hsdef]
        rw [sum_phi_none s hs _ hj]
        congr 1; ring
      · simp only [hi, sandwich_eq, ← hsdef]
        rw [sum_phi s hs _ hj, hs.symGrad j b hj, cc_zero]
        congr 1; ring
    · rw [sum_phi_none s hs _ hi, h1, stress_line, strain_sum, slip_sum, Finset.mul_sum, ← Finset.sum_sub_distrib,
        one_mul]
      have e : ∑ j, c.dn3 / c.dn0 * (cc c.tetrad (s.symGrad i) (s.symGrad j) -
          c.dn0 * ∑ b, s.phi b j * cc c.tetrad (s.symGrad i) (c.sys b).symSchmid) * s.jxw * h j =
          c.dn3 / c.dn0 * (∑ j, (h j * cc c.tetrad (s.symGrad i) (s.symGrad j) -
            c.dn0 * (h j * ∑ b, s.phi b j * cc c.tetrad (s.symGrad i) (c.sys b).symSchmid))) * s.jxw := by
        rw [Finset.mul_sum, Finset.sum_mul]
        exact sum_congr rfl fun j _ => by ring
      rw [e]
      ring
  · have hJv := jacobian_eq c.vec hv2 (c.sys a) (s.slipGrad u a)
    set Jv := jac c.vec (c.sys a) (s.slipGrad u a) with hJ
    refine ⟨-((c.dn2 * (s.grad a i ⬝ᵥ xi c.vec (c.sys a) (s.slipGrad u a)) -
        s.phi a i * (c.dn3 * ddot (c.sys a).symSchmid (c.stressAt s u) -
          c.law.evalMicrostress p.hist (s.slip u) p.old c.dt a)) * s.jxw),
      -((c.dn2 * (s.grad a i ⬝ᵥ xi c.vec (c.sys a) (s.slipGrad (u + h) a)) -
        s.phi a i * (c.dn3 * ddot (c.sys a).symSchmid (c.stressAt s (u + h)) -
          c.law.evalMicrostress p.hist (s.slip (u + h)) p.old c.dt a)) * s.jxw),
      fun j => (c.dn2 * (∑ k, s.grad a i k * ∑ m, Jv k m * s.grad a j m) -
        s.phi a i * (c.dn3 * (cc c.tetrad (c.sys a).symSchmid (s.symGrad j) -
          c.dn0 * ∑ b, s.phi b j * cc c.tetrad (c.sys a).symSchmid (c.sys b).symSchmid) -
          ∑ b, s.phi b j * c.law.evalJacobian p.hist (s.slip u) p.old c.dt a b)) * s.jxw,
      ?_, ?_, ?_, ?_⟩
    · unfold CellPrm.rhsTerm
      simp only [hi, ← hsdef, microstress_eq c.vec hv2, Option.map_some]
      unfold resolvedShear
      rw [ddot_comm]
    · unfold CellPrm.rhsTerm
      simp only [hi, ← hsdef, microstress_eq c.vec hv2, Option.map_some]
      unfold resolvedShear
      rw [ddot_comm]
    · intro j
      unfold CellPrm.matTerm
      rcases hj : kind j with _ | b
      · simp only [hi, sandwich_eq, ← hsdef]
        rw [sum_phi_none s hs _ hj, sum_phi_none s hs _ hj,
          hs.grad j a (by rw [hj]; simp)]
        simp only [Pi.zero_apply, mul_zero, Finset.sum_const_zero]
        congr 1; ring
      · simp only [hi, sandwich_eq, ← hsdef]
        rw [sum_phi s hs _ hj, sum_phi s hs _ hj, hs.symGrad j b hj, cc_zero]
        by_cases hab : a = b
        · subst hab
          rw [if_pos rfl, hJv, Option.map_some, vecMul_dot]
          congr 1; ring
        · rw [if_neg hab, hs.grad j a (by rw [hj]; intro h; exact hab (Option.some.inj h).symm)]
          simp only [Pi.zero_apply, mul_zero, Finset.sum_const_zero]
          congr 1; ring
    · rw [sum_phi s hs _ hi]
      have e0 : s.slipGrad (u + h) a = s.slipGrad u a + s.slipGrad h a := by
        rw [h1, slipGrad_line, one_smul]
      have ex : s.grad a i ⬝ᵥ xi c.vec (c.sys a) (s.slipGrad (u + h) a) =
          s.grad a i ⬝ᵥ xi c.vec (c.sys a) (s.slipGrad u a) + ∑ k, s.grad a i k * ∑ m, Jv k m * s.slipGrad h a m := by
        unfold dotProduct
        rw [e0, ← sum_add_distrib]
        exact sum_congr rfl fun k _ => by rw [xi_add c.vec hvec, mul_add]
      have es : ddot (c.sys a).symSchmid (c.stressAt s (u + h)) = ddot (c.sys a).symSchmid (c.stressAt s u) +
          (cc c.tetrad (c.sys a).symSchmid (s.strain h) -
            c.dn0 * ∑ b, s.slip h b * cc c.tetrad (c.sys a).symSchmid (c.sys b).symSchmid) := by
        rw [h1, stress_line, one_mul]
      have e1 : ∑ k, s.grad a i k * ∑ m, Jv k m * s.slipGrad h a m =
          ∑ j, h j * ∑ k, s.grad a i k * ∑ m, Jv k m * s.grad a j m := by
        unfold Shape.slipGrad
        simp only [Finset.sum_apply, Pi.smul_apply, smul_eq_mul, Finset.mul_sum]
        have e2 : ∀ k : Fin d, ∑ m, ∑ j, s.grad a i k * (Jv k m * (h j * s.grad a j m)) =
            ∑ j, ∑ m, s.grad a i k * (Jv k m * (h j * s.grad a j m)) := fun k => Finset.sum_comm
        simp only [e2]
        rw [Finset.sum_comm]
        refine sum_congr rfl fun j _ => sum_congr rfl fun k _ => sum_congr rfl fun m _ => by ring
      have e3 : ∑ b, c.law.evalJacobian p.hist (s.slip u) p.old c.dt a b * s.slip h b =
          ∑ j, h j * ∑ b, s.phi b j * c.law.evalJacobian p.hist (s.slip u) p.old c.dt a b := by
        rw [← slip_sum]
        exact sum_congr rfl fun b _ => mul_comm _ _
      have hc := comb (fun j => ∑ k, s.grad a i k * ∑ m, Jv k m * s.grad a j m)
        (fun j => cc c.tetrad (c.sys a).symSchmid (s.symGrad j))
        (fun j => ∑ b, s.phi b j * cc c.tetrad (c.sys a).symSchmid (c.sys b).symSchmid)
        (fun j => ∑ b, s.phi b j * c.law.evalJacobian p.hist (s.slip u) p.old c.dt a b) h
        c.dn2 c.dn3 c.dn0 (s.phi a i) s.jxw
      rw [← e1, ← e3, ← strain_sum, ← slip_sum] at hc
      rw [← hc, ex, es]
      unfold missed
      rw [← hsdef]
      ring

/-- The difference of a cell tested with `V`. -/
theorem cell_diff (c : MeshCell d n N) (hs : ∀ q, (c.pts q).shape.Primitive c.kind) (hvec : c.prm.vec.index = 2)
    (x u V : ℕ → ℝ) :
    ∑ i, V (c.dofs i) * ((Lin.SpecHanded c fun g => x g + u g).rhs i - (Lin.SpecHanded c x).rhs i +
      ∑ j, (Lin.SpecHanded c x).mat i j * u (c.dofs j)) =
    -∑ q, (c.pts q).shape.jxw * ∑ a, (c.pts q).shape.slip (V ∘ c.dofs) a *
      missed c.prm (c.pts q) (x ∘ c.dofs) (u ∘ c.dofs) a := by
  choose R R' J h1 h2 h3 h4 using fun q i => term_diff c.prm c.kind (c.pts q) (hs q) hvec (x ∘ c.dofs) (u ∘ c.dofs) i
  have e1 : ∀ i, (Lin.SpecHanded c x).rhs i = ∑ q, R q i := by
    intro i
    have : c.prm.rhs c.kind c.pts (x ∘ c.dofs) i = some (∑ q, R q i) := sumOpt_some _ _ fun q => h1 q i
    show (c.prm.rhs c.kind c.pts (x ∘ c.dofs) i).getD 0 = _
    rw [this]; rfl
  have e2 : ∀ i, (Lin.SpecHanded c fun g => x g + u g).rhs i = ∑ q, R' q i := by
    intro i
    have : c.prm.rhs c.kind c.pts ((fun g => x g + u g) ∘ c.dofs) i = some (∑ q, R' q i) :=
      sumOpt_some _ _ fun q => h2 q i
    show (c.prm.rhs c.kind c.pts ((fun g => x g + u g) ∘ c.dofs) i).getD 0 = _
    rw [this]; rfl
  have e3 : ∀ i j, (Lin.SpecHanded c x).mat i j = ∑ q, J q i j := by
    intro i j
    have : c.prm.mat c.kind c.pts (x ∘ c.dofs) i j = some (∑ q, J q i j) := sumOpt_some _ _ fun q => h3 q i j
    show (c.prm.mat c.kind c.pts (x ∘ c.dofs) i j).getD 0 = _
    rw [this]; rfl
  have e4 : ∀ i, (Lin.SpecHanded c fun g => x g + u g).rhs i - (Lin.SpecHanded c x).rhs i +
      ∑ j, (Lin.SpecHanded c x).mat i j * u (c.dofs j) =
      ∑ q, -∑ a, (c.pts q).shape.phi a i * ((c.pts q).shape.jxw *
        missed c.prm (c.pts q) (x ∘ c.dofs) (u ∘ c.dofs) a) := by
    intro i
    rw [e1, e2]
    simp only [e3, Finset.sum_mul]
    rw [Finset.sum_comm, ← sum_sub_distrib, ← sum_add_distrib]
    exact sum_congr rfl fun q _ => h4 q i
  simp only [e4, Finset.mul_sum]
  rw [Finset.sum_comm, ← sum_neg_distrib]
  refine sum_congr rfl fun q _ => ?_
  simp only [mul_neg, sum_neg_distrib, Finset.mul_sum]
  congr 1
  rw [Finset.sum_comm]
  refine sum_congr rfl fun a _ => ?_
  unfold Shape.slip
  rw [Finset.sum_mul, Finset.mul_sum]
  exact sum_congr rfl fun i _ => by rw [Function.comp_apply]; ring

theorem handed_numbered (cells : List (MeshCell d n N)) {m : ℕ} (hm : ∀ c ∈ cells, ∀ i, c.dofs i < m) (x : ℕ → ℝ) :
    Numbered (cells.map (Lin.SpecHanded · x)) m := by
  constructor
  · intro a ha i
    obtain ⟨c, hc, rfl⟩ := List.mem_map.1 ha
    exact hm c hc i
  · intro a ha b hb
    obtain ⟨c, hc, rfl⟩ := List.mem_map.1 ha
    simp [Lin.SpecHanded] at hb

/-- The entries of what the prediction misses. -/
noncomputable def missedRow (p : Lin.Problem N) (x u : ℕ → ℝ) (r : ℕ) : ℝ :=
  p.resid (fun g => x g + u g) r - p.resid x r + Lin.SpecRate p x u r

theorem missedRow_eq (cells : List (MeshCell d n N)) (p : Lin.Problem N) (hp : SpecBodyStep cells p) (x u : ℕ → ℝ)
    {r : ℕ} (hr : r < p.n) :
    missedRow p x u r = (cells.map fun c => ∑ i, weight p.internal (c.dofs i) r *
      ((Lin.SpecHanded c fun g => x g + u g).rhs i - (Lin.SpecHanded c x).rhs i +
      ∑ j, (Lin.SpecHanded c x).mat i j * u (c.dofs j))).sum := by
  unfold missedRow Lin.SpecRate Lin.Problem.resid
  rw [hp.handed, hp.handed, tangent_act, unit_test hp.homogeneous (handed_numbered cells hp.dofs x) _ hr]
  unfold Lin.residual
  simp only [List.map_map]
  have e : ∀ (l : List (MeshCell d n N)) (f g h k : MeshCell d n N → ℝ), (∀ c, k c = f c - g c + h c) →
      (l.map f).sum - (l.map g).sum + (l.map h).sum = (l.map k).sum := by
    intro l f g h k hk
    induction l with
    | nil => simp
    | cons c l ih => simp only [List.map_cons, List.sum_cons, ← ih, hk]; ring
  refine e cells _ _ _ _ fun c => ?_
  simp only [Function.comp_apply]
  rw [← sum_sub_distrib, ← sum_add_distrib]
  refine sum_congr rfl fun i _ => ?_
  have ea : act (Lin.SpecHanded c x) u i = ∑ j, (Lin.SpecHanded c x).mat i j * u (c.dofs j) := by
    unfold act
    simp [Lin.SpecHanded]
  rw [ea]
  show _ = weight p.internal (c.dofs i) r * _ - weight p.internal (c.dofs i) r * _ + weight p.internal (c.dofs i) r * _
  ring

/-- What the prediction misses, tested. -/
theorem missed_test (cells : List (MeshCell d n N)) (h : SpecStableBody cells) (p : Lin.Problem N)
    (hp : SpecBodyStep cells p) (hvec : ∀ c ∈ cells, c.prm.vec.index = 2) (x u V : ℕ → ℝ)
    (hV : Sol.Satisfies p.internal V) :
    ∑ r ∈ range p.n, V r * missedRow p x u r = -(cells.map fun c => ∑ q, (c.pts q).shape.jxw * ∑ a,
      (c.pts q).shape.slip (V ∘ c.dofs) a * missed c.prm (c.pts q) (x ∘ c.dofs) (u ∘ c.dofs) a).sum := by
  rw [sum_congr rfl fun r hr => by rw [missedRow_eq cells p hp x u (mem_range.1 hr)]]
  simp only [← List.sum_map_mul_left]
  rw [sum_list, ← neg_one_mul, ← List.sum_map_mul_left]
  congr 1
  refine List.map_congr_left fun c hc => ?_
  rw [neg_one_mul, ← cell_diff c (h.cell c hc).primitive (hvec c hc)]
  simp only [Finset.mul_sum univ (fun i => weight _ _ _ * _)]
  rw [Finset.sum_comm]
  refine sum_congr rfl fun i _ => ?_
  have hvi : V (c.dofs i) = Sol.distribute p.internal V (c.dofs i) := by
    rw [Sol.distribute_of_satisfies hV]
  rw [hvi, ← weight_sum hp.homogeneous V (hp.dofs c hc i)]
  rw [Finset.sum_mul]
  exact sum_congr rfl fun r _ => by ring

theorem missed_sq (cells : List (MeshCell d n N)) (p : Lin.Problem N) (hp : SpecBodyStep cells p) (x u : ℕ → ℝ) :
    p.total (missedRow p x u) ^ 2 =
      ∑ r ∈ range p.n, Sol.distribute p.internal (missedRow p x u) r * missedRow p x u r := by
  rw [total_sq]
  refine sum_congr rfl fun r hr => ?_
  cases hk : p.internal r with
  | none => rw [Sol.distribute_free hk, pow_two]
  | some l =>
    have : missedRow p x u r = 0 := by
      rw [missedRow_eq cells p hp x u (mem_range.1 hr)]
      apply List.sum_eq_zero
      intro y hy
      obtain ⟨c, -, rfl⟩ := List.mem_map.1 hy
      exact sum_eq_zero fun i _ => by rw [weight_constrained hp.homogeneous (by rw [hk]; simp), zero_mul]
    rw [this]; ring

/-! ## Helpers: bounds -/

theorem uniform {α : Type*} (l : List α) (P : α → ℝ → Prop) (mono : ∀ a s t, s ≤ t → P a s → P a t)
    (h : ∀ a ∈ l, ∃ s, 0 ≤ s ∧ P a s) : ∃ s, 0 ≤ s ∧ ∀ a ∈ l, P a s := by
  induction l with
  | nil => exact ⟨0, le_rfl, fun a ha => by simp at ha⟩
  | cons b l ih =>
    obtain ⟨s, h0, hs⟩ := h b List.mem_cons_self
    obtain ⟨t, h1, ht⟩ := ih fun a ha => h a (List.mem_cons_of_mem _ ha)
    refine ⟨max s t, h0.trans (le_max_left _ _), fun a ha => ?_⟩
    rcases List.mem_cons.1 ha with rfl | ha
    · exact mono _ _ _ (le_max_left _ _) hs
    · exact mono _ _ _ (le_max_right _ _) (ht a ha)

theorem uniform_points (cells : List (MeshCell d n N)) (P : (c : MeshCell d n N) → Fin c.Q → Fin n → ℝ → Prop)
    (mono : ∀ c q a s t, s ≤ t → P c q a s → P c q a t) (h : ∀ c ∈ cells, ∀ q a, ∃ s, 0 ≤ s ∧ P c q a s) :
    ∃ s, 0 ≤ s ∧ ∀ c ∈ cells, ∀ q a, P c q a s := by
  refine uniform cells (fun c s => ∀ q a, P c q a s) (fun c s t hst hp q a => mono c q a s t hst (hp q a)) fun c hc => ?_
  obtain ⟨s, h0, hs⟩ := uniform (List.finRange c.Q) (fun q s => ∀ a, P c q a s)
    (fun q s t hst hp a => mono c q a s t hst (hp a)) fun q _ => by
      obtain ⟨s, h0, hs⟩ := uniform (List.finRange n) (fun a s => P c q a s) (fun a s t hst hp => mono c q a s t hst hp)
        fun a _ => h c hc q a
      exact ⟨s, h0, fun a => hs a (List.mem_finRange a)⟩
  exact ⟨s, h0, fun q => hs q (List.mem_finRange q)⟩

/-- The slips of a field are bounded by its length. -/
theorem slip_bound (cells : List (MeshCell d n N)) (p : Lin.Problem N) (hp : SpecBodyStep cells p) :
    ∃ S, 0 ≤ S ∧ ∀ c ∈ cells, ∀ (q : Fin c.Q) (a : Fin n) (w : ℕ → ℝ),
      |(c.pts q).shape.slip (Sol.distribute p.internal w ∘ c.dofs) a| ≤ S * p.total w := by
  refine uniform_points cells (fun c q a S => ∀ w : ℕ → ℝ,
    |(c.pts q).shape.slip (Sol.distribute p.internal w ∘ c.dofs) a| ≤ S * p.total w) ?_ ?_
  · intro c q a s t hst hs w
    exact (hs w).trans (mul_le_mul_of_nonneg_right hst (total_nonneg p w))
  · intro c hc q a
    refine ⟨∑ i, (∑ r ∈ range p.n, |weight p.internal (c.dofs i) r|) * |(c.pts q).shape.phi a i|, by positivity,
      fun w => ?_⟩
    unfold Shape.slip
    rw [Finset.sum_mul]
    refine (abs_sum_le_sum_abs _ _).trans (sum_le_sum fun i _ => ?_)
    rw [abs_mul, Function.comp_apply, ← weight_sum hp.homogeneous w (hp.dofs c hc i), mul_right_comm]
    refine mul_le_mul_of_nonneg_right ?_ (abs_nonneg _)
    rw [Finset.sum_mul]
    refine (abs_sum_le_sum_abs _ _).trans (sum_le_sum fun r hr => ?_)
    rw [abs_mul]
    exact mul_le_mul_of_nonneg_left (entry_le p w (mem_range.1 hr)) (abs_nonneg _)

/-- The slip resistances are bounded around a state. -/
theorem res_bound (cells : List (MeshCell d n N)) (p : Lin.Problem N) (hp : SpecBodyStep cells p) (x₀ : ℕ → ℝ) (ρ : ℝ) :
    ∃ B, 0 ≤ B ∧ ∀ c ∈ cells, ∀ (q : Fin c.Q) (a : Fin n) (x : ℕ → ℝ), Lin.SpecDistance p x x₀ ≤ ρ →
      |((c.pts q).hist.update ((c.pts q).shape.slip (x ∘ c.dofs)) (c.pts q).old).res a| ≤ B := by
  refine uniform_points cells (fun c q a B => ∀ x : ℕ → ℝ, Lin.SpecDistance p x x₀ ≤ ρ →
      |((c.pts q).hist.update ((c.pts q).shape.slip (x ∘ c.dofs)) (c.pts q).old).res a| ≤ B) ?_ ?_
  · intro c q a s t hst hs x hx
    exact (hs x hx).trans hst
  · intro c hc q a
    rcases hperf : (c.pts q).hist.prm.perfect with _ | _
    · set h := (c.pts q).hist
      have hs : ∀ (b : Fin n) (x : ℕ → ℝ), Lin.SpecDistance p x x₀ ≤ ρ →
          |(c.pts q).shape.slip (x ∘ c.dofs) b - (c.pts q).old b| ≤
            (∑ i, (|x₀ (c.dofs i)| + |ρ|) * |(c.pts q).shape.phi b i|) + |(c.pts q).old b| := by
        intro b x hx
        refine (abs_sub _ _).trans (add_le_add ?_ le_rfl)
        unfold Shape.slip
        refine (abs_sum_le_sum_abs _ _).trans (sum_le_sum fun i _ => ?_)
        rw [abs_mul]
        refine mul_le_mul_of_nonneg_right ?_ (abs_nonneg _)
        have h1 := entry_le p (fun g => x g - x₀ g) (hp.dofs c hc i)
        have h2 : p.total (fun g => x g - x₀ g) ≤ ρ := hx
        have h3 := abs_add_le (x (c.dofs i) - x₀ (c.dofs i)) (x₀ (c.dofs i))
        rw [sub_add_cancel] at h3
        have h4 := le_abs_self ρ
        simp only [Function.comp_apply]
        linarith
      refine ⟨|h.tmp a| + ∑ b, |h.prm.modulus / h.prm.characteristic *
          (h.prm.parameter + (1 - h.prm.parameter) * if a = b then 1 else 0)| *
          ((∑ i, (|x₀ (c.dofs i)| + |ρ|) * |(c.pts q).shape.phi b i|) + |(c.pts q).old b|), by positivity,
        fun x hx => ?_⟩
      rw [C17_hardening_law _ _ _ a hperf]
      refine (abs_add_le _ _).trans (add_le_add le_rfl ?_)
      refine (abs_sum_le_sum_abs _ _).trans (sum_le_sum fun b _ => ?_)
      rw [abs_mul, abs_abs]
      exact mul_le_mul_of_nonneg_left (hs b x hx) (abs_nonneg _)
    · exact ⟨|(c.pts q).hist.tmp a|, abs_nonneg _, fun x _ => by rw [C17_perfect _ _ _ hperf]⟩

/-- A quadratic inequality. -/
theorem solve_quadratic {A D E U : ℝ} (hA : 0 ≤ A) (hD : 0 ≤ D) (hE : 0 ≤ E) (hU : 0 ≤ U)
    (h : ∀ t > 0, E ^ 2 ≤ A * (t * E ^ 2 + U ^ 2 / t) + D * E * U ^ 2) : E ≤ 2 * A * U + D * U ^ 2 := by
  rcases hE.eq_or_lt with h0 | h0
  · rw [← h0]; positivity
  · rcases hU.eq_or_lt with h1 | h1
    · exfalso
      have := h (1 / (2 * A + 2)) (by positivity)
      rw [← h1] at this
      have e : A * (1 / (2 * A + 2) * E ^ 2 + 0 ^ 2 / (1 / (2 * A + 2))) + D * E * 0 ^ 2 =
          A / (2 * A + 2) * E ^ 2 := by ring
      rw [e] at this
      have h2 : A / (2 * A + 2) < 1 := by rw [div_lt_one (by positivity)]; linarith
      nlinarith [pow_pos h0 2]
    · have := h (U / E) (by positivity)
      have e : A * (U / E * E ^ 2 + U ^ 2 / (U / E)) + D * E * U ^ 2 = E * (2 * A * U + D * U ^ 2) := by
        field_simp
        ring
      rw [e, pow_two] at this
      exact le_of_mul_le_mul_left this h0

/-- At a point. -/
theorem point_bound {H B T t : ℝ} (v s m : Fin n → ℝ) (hH : 0 ≤ H) (hB : 0 ≤ B) (ht : 0 < t)
    (hm : ∀ a, |m a| ≤ 2 * H * ∑ b, |s b| + B * s a ^ 2) (hT : ∀ a, |v a| ≤ T) :
    |∑ a, v a * m a| ≤ H * n * (t * ∑ a, v a ^ 2 + (∑ a, s a ^ 2) / t) + B * T * ∑ a, s a ^ 2 := by
  have h1 : |∑ a, v a * m a| ≤ 2 * H * ((∑ a, |v a|) * ∑ b, |s b|) + B * T * ∑ a, s a ^ 2 := by
    refine (abs_sum_le_sum_abs _ _).trans ?_
    have e : 2 * H * ((∑ a, |v a|) * ∑ b, |s b|) + B * T * ∑ a, s a ^ 2 =
        ∑ a, (2 * H * (|v a| * ∑ b, |s b|) + B * T * s a ^ 2) := by
      rw [sum_add_distrib, ← Finset.mul_sum, ← Finset.mul_sum, ← Finset.sum_mul]
    rw [e]
    refine sum_le_sum fun a _ => ?_
    rw [abs_mul]
    have h2 := mul_le_mul_of_nonneg_left (hm a) (abs_nonneg (v a))
    have h3 : |v a| * (B * s a ^ 2) ≤ T * (B * s a ^ 2) := mul_le_mul_of_nonneg_right (hT a) (by positivity)
    nlinarith
  have c1 : (∑ a, |v a|) ^ 2 ≤ n * ∑ a, v a ^ 2 := by
    have := sq_sum_le_card_mul_sum_sq (s := (univ : Finset (Fin n))) (f := fun a => |v a|)
    simpa using this
  have c2 : (∑ a, |s a|) ^ 2 ≤ n * ∑ a, s a ^ 2 := by
    have := sq_sum_le_card_mul_sum_sq (s := (univ : Finset (Fin n))) (f := fun a => |s a|)
    simpa using this
  set X := ∑ a, |v a|
  set Y := ∑ a, |s a|
  have h4 : 2 * (X * Y) ≤ t * X ^ 2 + Y ^ 2 / t := by
    have : 0 ≤ (t * X - Y) ^ 2 / t := by positivity
    have e : (t * X - Y) ^ 2 / t = t * X ^ 2 - 2 * (X * Y) + Y ^ 2 / t := by field_simp; ring
    linarith
  have h5 : t * X ^ 2 ≤ t * (n * ∑ a, v a ^ 2) := mul_le_mul_of_nonneg_left c1 ht.le
  have h6 : Y ^ 2 / t ≤ n * (∑ a, s a ^ 2) / t := div_le_div_of_nonneg_right c2 ht.le
  have h7 : H * (2 * (X * Y)) ≤ H * (t * (n * ∑ a, v a ^ 2) + n * (∑ a, s a ^ 2) / t) :=
    mul_le_mul_of_nonneg_left (by linarith) hH
  have e8 : H * (t * (n * ∑ a, v a ^ 2) + n * (∑ a, s a ^ 2) / t) =
      H * n * (t * ∑ a, v a ^ 2 + (∑ a, s a ^ 2) / t) := by ring
  linarith

theorem list_abs_le {α : Type*} (l : List α) (f g : α → ℝ) (h : ∀ a ∈ l, |f a| ≤ g a) : |(l.map f).sum| ≤ (l.map g).sum := by
  induction l with
  | nil => simp
  | cons a l ih =>
    rw [List.map_cons, List.sum_cons, List.map_cons, List.sum_cons]
    exact (abs_add_le _ _).trans (add_le_add (h a List.mem_cons_self) (ih fun b hb => h b (List.mem_cons_of_mem _ hb)))

/-- What the prediction misses: a linear error from the hardening and a quadratic one. -/
theorem missed_bound (cells : List (MeshCell d n N)) (p : Lin.Problem N) {k m H : ℝ}
    (h : SpecNewtonBody cells p k m H) (x₀ : ℕ → ℝ) (ρ : ℝ) :
    ∃ D, 0 ≤ D ∧ ∀ x u, Sol.Satisfies p.internal u → Lin.SpecDistance p x x₀ ≤ ρ →
      p.total (missedRow p x u) ≤ 2 * (H * n * m) * p.total u + D * p.total u ^ 2 := by
  obtain ⟨S, hS0, hS⟩ := slip_bound cells p h.step
  obtain ⟨R, hR0, hR⟩ := res_bound cells p h.step x₀ ρ
  obtain ⟨B, hB0, hB⟩ := uniform cells (fun c B => ∀ (q : Fin c.Q) (x u : ℕ → ℝ) (a : Fin n), Lin.SpecDistance p x x₀ ≤ ρ →
      |missed c.prm (c.pts q) (x ∘ c.dofs) (u ∘ c.dofs) a| ≤
        2 * H * ∑ b, |(c.pts q).shape.slip (u ∘ c.dofs) b| + B * (c.pts q).shape.slip (u ∘ c.dofs) a ^ 2)
    (fun c s t hst hs q x u a hx => (hs q x u a hx).trans (by
      have := mul_le_mul_of_nonneg_right hst (sq_nonneg ((c.pts q).shape.slip (u ∘ c.dofs) a)); linarith))
    fun c hc => by
      have hm := h.stable.material c hc
      obtain ⟨C, hC0, hC⟩ := regDeriv_lip c.prm.law.f c.prm.law.k hm.k
      refine ⟨C * R / c.prm.dt ^ 2, by positivity, fun q x u a hx => ?_⟩
      have hslip : (c.pts q).shape.slip (x ∘ c.dofs + u ∘ c.dofs) =
          fun b => (c.pts q).shape.slip (x ∘ c.dofs) b + (c.pts q).shape.slip (u ∘ c.dofs) b := by
        funext b
        unfold Shape.slip
        rw [← sum_add_distrib]
        exact sum_congr rfl fun i _ => by rw [Pi.add_apply]; ring
      have key := microstress_error c.prm.law hm.k (h.rate c hc) (c.pts q).hist ((h.stable.cell c hc).hist q)
        (h.stable.hardens c hc) c.prm.dt C hm.dt hC _ rfl (c.pts q).old ((c.pts q).shape.slip (x ∘ c.dofs))
        ((c.pts q).shape.slip (x ∘ c.dofs + u ∘ c.dofs)) a
      have e : ∀ b, (c.pts q).shape.slip (x ∘ c.dofs + u ∘ c.dofs) b - (c.pts q).shape.slip (x ∘ c.dofs) b =
          (c.pts q).shape.slip (u ∘ c.dofs) b := fun b => by rw [hslip]; ring
      simp only [e] at key
      refine key.trans (add_le_add ?_ ?_)
      · refine mul_le_mul_of_nonneg_right (mul_le_mul_of_nonneg_left ?_ zero_le_two)
          (sum_nonneg fun _ _ => abs_nonneg _)
        rcases h.hardening c hc with hp | hp
        · rw [if_pos hp]; exact h.H_nonneg
        · split_ifs
          · exact h.H_nonneg
          · exact hp
      · refine mul_le_mul_of_nonneg_right ?_ (sq_nonneg _)
        refine div_le_div_of_nonneg_right ?_ (by positivity)
        exact mul_le_mul_of_nonneg_left (hR c hc q a x hx) hC0
  refine ⟨B * S * m, by have := h.m_nonneg; positivity, fun x u hu hx => ?_⟩
  set E := p.total (missedRow p x u) with hE
  set U := p.total u with hU
  set V := Sol.distribute p.internal (missedRow p x u) with hV
  have hVs : Sol.Satisfies p.internal V := Sol.distribute_satisfies h.step.homogeneous.closed _
  have hud : Sol.distribute p.internal u = u := Sol.distribute_of_satisfies hu
  have hH := h.H_nonneg
  have hm0 := h.m_nonneg
  have m1 : SpecSlipSquare cells V ≤ m * E ^ 2 := h.mass _
  have m2 : SpecSlipSquare cells u ≤ m * U ^ 2 := by
    have := h.mass u
    rw [hud] at this
    exact this
  have key : ∀ t > 0, E ^ 2 ≤ H * n * m * (t * E ^ 2 + U ^ 2 / t) + B * S * m * E * U ^ 2 := by
    intro t ht
    have h1 : |(cells.map fun c => ∑ q, (c.pts q).shape.jxw * ∑ a,
        (c.pts q).shape.slip (V ∘ c.dofs) a * missed c.prm (c.pts q) (x ∘ c.dofs) (u ∘ c.dofs) a).sum| ≤
        (cells.map fun c => H * n * t * ∑ q, (c.pts q).shape.jxw * ∑ a, (c.pts q).shape.slip (V ∘ c.dofs) a ^ 2).sum +
        (cells.map fun c => (H * n / t + B * (S * E)) *
          ∑ q, (c.pts q).shape.jxw * ∑ a, (c.pts q).shape.slip (u ∘ c.dofs) a ^ 2).sum := by
      rw [← List.sum_map_add]
      refine list_abs_le _ _ _ fun c hc => ?_
      refine (abs_sum_le_sum_abs _ _).trans ?_
      rw [Finset.mul_sum, Finset.mul_sum, ← sum_add_distrib]
      refine sum_le_sum fun q _ => ?_
      have hw := ((h.stable.cell c hc).weight q).le
      rw [abs_mul, abs_of_nonneg hw]
      have := mul_le_mul_of_nonneg_left (point_bound (H := H) (B := B) (T := S * E) (t := t)
        ((c.pts q).shape.slip (V ∘ c.dofs)) ((c.pts q).shape.slip (u ∘ c.dofs))
        (missed c.prm (c.pts q) (x ∘ c.dofs) (u ∘ c.dofs)) hH hB0 ht (fun a => hB c hc q x u a hx)
        (fun a => hS c hc q a _)) hw
      refine this.trans (le_of_eq ?_)
      ring
    rw [List.sum_map_mul_left, List.sum_map_mul_left] at h1
    have h2 : E ^ 2 = _ := missed_sq cells p h.step x u
    rw [missed_test cells h.stable p h.step h.defect x u V hVs] at h2
    have h3 := neg_le_abs (cells.map fun c => ∑ q, (c.pts q).shape.jxw * ∑ a,
        (c.pts q).shape.slip (V ∘ c.dofs) a * missed c.prm (c.pts q) (x ∘ c.dofs) (u ∘ c.dofs) a).sum
    have h4 := mul_le_mul_of_nonneg_left m1 (show 0 ≤ H * n * t by positivity)
    have hE0 : 0 ≤ E := total_nonneg p _
    have h5 := mul_le_mul_of_nonneg_left m2 (show 0 ≤ H * n / t + B * (S * E) by positivity)
    unfold SpecSlipSquare at h4 h5
    calc E ^ 2 ≤ H * n * t * (m * E ^ 2) + (H * n / t + B * (S * E)) * (m * U ^ 2) := by linarith
      _ = _ := by ring
  have := solve_quadratic (by positivity) (by positivity) (total_nonneg p _) (total_nonneg p _) key
  exact this

theorem rate_smul (p : Lin.Problem N) (x u : ℕ → ℝ) (t : ℝ) (r : ℕ) :
    Lin.SpecRate p x (fun g => t * u g) r = t * Lin.SpecRate p x u r := by
  unfold Lin.SpecRate
  rw [tangent_act, tangent_act, ← List.sum_map_mul_left]
  congr 1
  refine List.map_congr_left fun a _ => ?_
  rw [Finset.mul_sum]
  refine sum_congr rfl fun i _ => ?_
  have : act a (fun g => t * u g) i = t * act a u i := by
    unfold act
    rw [mul_add, Finset.mul_sum, ← List.sum_map_mul_left]
    congr 1
    · exact sum_congr rfl fun j _ => by ring
    · congr 1
      refine List.map_congr_left fun b _ => ?_
      rw [Finset.mul_sum]
      exact sum_congr rfl fun j _ => by ring
  rw [this]; ring

/-- The matrix is regular. -/
theorem body_regular (cells : List (MeshCell d n N)) (p : Lin.Problem N) {k m H : ℝ}
    (h : SpecNewtonBody cells p k m H) (hk : 2 * (H * n * m) < k) (x u : ℕ → ℝ)
    (hu : Sol.Satisfies p.internal u) :
    p.total u ≤ 1 / (k - 2 * (H * n * m)) * p.total (Lin.SpecRate p x u) := by
  obtain ⟨D, hD0, hD⟩ := missed_bound cells p h x 0
  set U := p.total u with hU
  have hU0 : 0 ≤ U := total_nonneg p _
  rw [one_div, inv_mul_eq_div, le_div_iff₀ (by linarith)]
  have key : ∀ t > 0, k * U ≤ 2 * (H * n * m) * U + D * t * U ^ 2 + p.total (Lin.SpecRate p x u) := by
    intro t ht
    have hut := smul_satisfies h.step.homogeneous hu t
    have h1 := hD x _ hut (by rw [distance_self])
    have eU : p.total (fun g => t * u g) = t * U := by rw [total_smul, abs_of_pos ht]
    rw [eU] at h1
    set y : ℕ → ℝ := fun g => x g + t * u g with hy
    have hyx : y - x = fun g => t * u g := by funext g; simp [hy]
    have hs : Sol.Satisfies p.internal (y - x) := by rw [hyx]; exact hut
    obtain ⟨⟨c1, c2, c3⟩, c4⟩ := C115_error cells h.stable p.internal p.n h.step.homogeneous h.step.dofs y x (p.resid y)
      (p.resid x)
      ⟨_, assembled_always cells h.stable y, fun g _ => (handed_residual cells p h.step.handed y g).symm⟩
      ⟨_, assembled_always cells h.stable x, fun g _ => (handed_residual cells p h.step.handed x g).symm⟩ hs
    have c5 := h.stiff y x hs
    have eL : SpecLength p.n (y - x) = t * U := by
      rw [hyx]; exact eU
    have c6 : SpecLength p.n (p.resid y - p.resid x) ≤ p.total (missedRow p x fun g => t * u g) +
        t * p.total (Lin.SpecRate p x u) := by
      have e1 : SpecLength p.n (p.resid y - p.resid x) = p.total fun r => missedRow p x (fun g => t * u g) r +
          -t * Lin.SpecRate p x u r := by
        show p.total _ = _
        refine total_congr p fun r _ => ?_
        unfold missedRow
        rw [rate_smul]
        simp only [Pi.sub_apply, hy]
        ring
      rw [e1]
      refine (total_add p _ _).trans (add_le_add le_rfl (le_of_eq ?_))
      rw [total_smul, abs_neg, abs_of_pos ht]
    rw [eL] at c4 c5
    rcases hU0.eq_or_lt with h0 | h0
    · rw [← h0]
      have := total_nonneg p (Lin.SpecRate p x u)
      linarith
    · have c7 : k * (t * U) ≤ SpecLength p.n (p.resid y - p.resid x) := by
        refine le_of_mul_le_mul_right ?_ (show 0 < t * U by positivity)
        nlinarith
      have c8 : t * (k * U) ≤ t * (2 * (H * n * m) * U + D * t * U ^ 2 + p.total (Lin.SpecRate p x u)) := by
        nlinarith
      exact le_of_mul_le_mul_left c8 ht
  have hlim : k * U ≤ 2 * (H * n * m) * U + p.total (Lin.SpecRate p x u) := by
    refine le_of_forall_pos_le_add fun ε hε => ?_
    have := key (ε / (D * U ^ 2 + 1)) (by positivity)
    have h2 : D * (ε / (D * U ^ 2 + 1)) * U ^ 2 ≤ ε := by
      have e : D * (ε / (D * U ^ 2 + 1)) * U ^ 2 = ε * (D * U ^ 2 / (D * U ^ 2 + 1)) := by ring
      rw [e]
      refine mul_le_of_le_one_right hε.le ?_
      rw [div_le_one (by positivity)]
      linarith
    linarith
  linarith

/-! ## Property -/

/-- C116, C117 for a body: around every trial solution, up to every distance, the matrix the code assembles predicts
the change of the residual up to a linear error of the hardening and a quadratic error. -/
theorem C117_close (cells : List (MeshCell d n N)) (p : Lin.Problem N) (k m H : ℝ)
    (h : SpecNewtonBody cells p k m H) (hex : SpecExactAll p) (hk : 2 * (H * n * m) < k) (x₀ : ℕ → ℝ) (ρ : ℝ) :
    ∃ L, SpecClose p x₀ ρ (2 * (H * n * m)) (1 / (k - 2 * (H * n * m))) L := by
  obtain ⟨D, hD0, hD⟩ := missed_bound cells p h x₀ ρ
  have hH := h.H_nonneg
  have hm := h.m_nonneg
  refine ⟨2 * D, h.step.homogeneous, h.step.closed, fun x => by rw [h.step.handed]; exact handed_numbered cells h.step.dofs x,
    h.admissible, fun x u _ hu hx _ => ?_, fun x u _ _ hu => body_regular cells p h hk x u hu, fun x hx _ => hex x hx,
    by positivity, by positivity, ?_⟩
  · have := hD x u hu hx
    have e : 2 * D / 2 = D := by ring
    rw [e]; exact this
  · have : 0 < k - 2 * (H * n * m) := by linarith
    positivity

/-- A matrix that is regular has a solution for its residual. -/
theorem regular_solvable (p : Lin.Problem N) (hK : Homogeneous p.internal p.n) (x : ℕ → ℝ)
    (hc : Numbered (p.cells x) p.n) (M : ℝ)
    (h : ∀ u, Sol.Satisfies p.internal u → p.total u ≤ M * p.total (Lin.SpecRate p x u)) :
    ∃ z, SolvesAll p.internal (p.cells x) p.n z := by
  classical
  set J : Matrix (Fin p.n) (Fin p.n) ℝ := fun r c => if p.internal r = none then jacobian p.internal (p.cells x) r c
    else if r = c then 1 else 0 with hJ
  have hact : ∀ (w : ℕ → ℝ) (r : Fin p.n), (J *ᵥ fun c => w c) r = if p.internal r = none then
      Lin.SpecRate p x (Sol.distribute p.internal w) r else w r := by
    intro w r
    unfold mulVec dotProduct
    by_cases hr : p.internal r = none
    · rw [if_pos hr]
      have e1 := jacobian_row hK hc w hr
      unfold Lin.SpecRate
      rw [tangent_act, unit_test hK hc _ r.2, ← e1, ← Fin.sum_univ_eq_sum_range
        (fun c => jacobian p.internal (p.cells x) r c * w c)]
      refine sum_congr rfl fun c _ => ?_
      rw [hJ]; simp only; rw [if_pos hr]
    · rw [if_neg hr]
      simp [hJ, hr]
  have hdet : J.det ≠ 0 := by
    intro h0
    obtain ⟨v, hv, hz⟩ := Matrix.exists_mulVec_eq_zero_iff.2 h0
    set w : ℕ → ℝ := fun c => if hc : c < p.n then v ⟨c, hc⟩ else 0 with hw
    have ev : v = fun c : Fin p.n => w c := by funext c; simp [hw]
    rw [ev] at hz
    have hcon : ∀ r < p.n, p.internal r ≠ none → w r = 0 := by
      intro r hr hk
      have := congrFun hz ⟨r, hr⟩
      rw [hact] at this
      simpa [hk] using this
    have hrate : p.total (Lin.SpecRate p x (Sol.distribute p.internal w)) = 0 := by
      have : p.total (Lin.SpecRate p x (Sol.distribute p.internal w)) = p.total fun _ => 0 := by
        refine total_congr p fun r hr => ?_
        by_cases hk : p.internal r = none
        · have := congrFun hz ⟨r, hr⟩
          rw [hact] at this
          simpa [hk] using this
        · unfold Lin.SpecRate
          rw [tangent_act, unit_test hK hc _ hr]
          exact row_constrained hK (p.cells x) _ hk
      rw [this]; simp [Lin.Problem.total]
    have ht := h _ (Sol.distribute_satisfies hK.closed w)
    rw [hrate, mul_zero] at ht
    apply hv
    funext c
    rw [ev]
    show w c = 0
    by_cases hk : p.internal c = none
    · have := (entry_le p (Sol.distribute p.internal w) c.2).trans ht
      rw [Sol.distribute_free hk] at this
      exact abs_eq_zero.1 (le_antisymm this (abs_nonneg _))
    · exact hcon c c.2 hk
  set b : Fin p.n → ℝ := fun r => Lin.residual p.internal (p.cells x) r with hb
  have hsol : J *ᵥ (J⁻¹ *ᵥ b) = b := by
    rw [Matrix.mulVec_mulVec, Matrix.mul_nonsing_inv _ (isUnit_iff_ne_zero.2 hdet), Matrix.one_mulVec]
  set w : ℕ → ℝ := fun c => if hc : c < p.n then (J⁻¹ *ᵥ b) ⟨c, hc⟩ else 0 with hw
  have ev : (J⁻¹ *ᵥ b) = fun c : Fin p.n => w c := by funext c; simp [hw]
  rw [ev] at hsol
  have key : ∀ v, Sol.Satisfies p.internal v →
      SpecTangent (p.cells x) v (Sol.distribute p.internal w) = SpecResidual (p.cells x) v := by
    intro v hv
    rw [tangent_act, ← test_rows hK hc hv, ← residual_test hK hc hv]
    refine sum_congr rfl fun r hr => ?_
    congr 1
    by_cases hk : p.internal r = none
    · have := congrFun hsol ⟨r, mem_range.1 hr⟩
      rw [hact] at this
      simp only [hk, if_true] at this
      unfold Lin.SpecRate at this
      rw [tangent_act, unit_test hK hc _ (mem_range.1 hr)] at this
      exact this
    · rw [row_constrained hK _ _ hk, residual_constrained hK _ hk]
  obtain ⟨z, hz, -⟩ := (C78_monolithic hK hc (Sol.distribute p.internal w)).2
    ⟨Sol.distribute_satisfies hK.closed w, key⟩
  exact ⟨z, hz⟩

/-- C117: in every trial solution the linear system of the body has a solution, so that the monolithic solver can be
exact. -/
theorem C117_solvable (cells : List (MeshCell d n N)) (p : Lin.Problem N) (k m H : ℝ)
    (h : SpecNewtonBody cells p k m H) (hk : 2 * (H * n * m) < k) (x : ℕ → ℝ) :
    ∃ z, SolvesAll p.internal (p.cells x) p.n z :=
  regular_solvable p h.step.homogeneous x (by rw [h.step.handed]; exact handed_numbered cells h.step.dofs x) _
    fun u hu => body_regular cells p h hk x u hu

theorem close_inside {p : Lin.Problem N} {x₀ x : ℕ → ℝ} {ρ δ M L : ℝ} (h : SpecClose p x₀ (2 * ρ) δ M L)
    (hx : Lin.SpecDistance p x x₀ ≤ ρ) : SpecClose p x ρ δ M L := by
  have hin : ∀ y, Lin.SpecDistance p y x ≤ ρ → Lin.SpecDistance p y x₀ ≤ 2 * ρ := fun y hy =>
    (distance_triangle p y x x₀).trans (by linarith)
  exact ⟨h.homogeneous, h.closed, h.numbered, h.admissible, fun y u hy hu h0 h1 => h.predicts y u hy hu (hin _ h0) (hin _ h1),
    fun y u hy h0 hu => h.regular y u hy (hin _ h0) hu, fun y hy h0 => h.exact y hy (hin _ h0), h.δ_nonneg, h.L_nonneg,
    h.M_nonneg⟩

/-- The rate for small residuals. -/
theorem small_rate {a c M ρ q : ℝ} (ha : a < q) (hc : 0 ≤ c) (hM : 0 ≤ M) (hρ : 0 < ρ) (hq1 : q < 1) :
    ∃ ε > 0, ∀ r, 0 ≤ r → r ≤ ε → a + c * r ≤ q ∧ M * r / (1 - (a + c * r)) ≤ ρ := by
  refine ⟨min ((q - a) / (c + 1)) (ρ * (1 - q) / (M + 1)), lt_min (div_pos (by linarith) (by linarith))
    (div_pos (mul_pos hρ (by linarith)) (by linarith)), fun r hr0 hr => ?_⟩
  have h1 := hr.trans (min_le_left _ _)
  have h2 := hr.trans (min_le_right _ _)
  rw [le_div_iff₀ (by linarith)] at h1 h2
  have h3 : a + c * r ≤ q := by nlinarith
  refine ⟨h3, ?_⟩
  rw [div_le_iff₀ (by linarith)]
  nlinarith

/-- C117, for a body: in every region there is a size of the residual below which the loop converges linearly, with every
factor `q` above `δ / (k - δ)`, where `δ = 2 H n m` is the error of the matrix. -/
theorem C117_body (cells : List (MeshCell d n N)) (p : Lin.Problem N) (k m H : ℝ)
    (h : SpecNewtonBody cells p k m H) (hex : SpecExactAll p) (hb : ∀ g, p.blk g = 0) (δ : ℝ) (hδ : δ = 2 * (H * n * m))
    (hk : δ < k) (q : ℝ) (hq : δ / (k - δ) < q) (hq1 : q < 1) (hls : p.searchAll.on = true → q ^ 2 < 1 - 2 * p.searchAll.alpha)
    (x₀ : ℕ → ℝ) (ρ : ℝ) (hρ : 0 < ρ) :
    ∃ ε > 0, ∀ (s : Lin.Step N) (x : ℕ → ℝ) (r₀ : ℝ), s.trial = some x →
      Lin.SpecDistance p (Sol.distribute p.aff x) x₀ ≤ ρ → r₀ = p.total (p.resid (Sol.distribute p.aff x)) →
      0 < r₀ → r₀ ≤ ε → ∀ (nMax : ℕ) (tol : ℝ) (j : ℕ), 1 ≤ j → j ≤ nMax → r₀ * q ^ j < tol →
      ∃ (s' : Lin.Step N) (y : ℕ → ℝ) (i : ℕ), i ≤ j ∧ Drv.monoRD p.mono nMax tol (nMax + 1) 0 s = .returned s' i ∧
        s'.trial = some y ∧ Sol.Satisfies p.aff y ∧ p.total (p.resid y) < tol ∧
        Lin.SpecDistance p y (Sol.distribute p.aff x) ≤ ρ := by
  subst hδ
  obtain ⟨L, hL⟩ := C117_close cells p k m H h hex hk x₀ (2 * ρ)
  have hL0 := hL.L_nonneg
  set δ := 2 * (H * n * m) with hδ
  have hδ0 : 0 ≤ δ := hL.δ_nonneg
  have hM0 : 0 ≤ 1 / (k - δ) := hL.M_nonneg
  obtain ⟨ε, hε, he⟩ := small_rate (a := δ * (1 / (k - δ))) (c := L * (1 / (k - δ)) ^ 2 / 2) (M := 1 / (k - δ)) (ρ := ρ)
    (q := q) (by rw [mul_one_div]; exact hq) (by positivity) hM0 hρ hq1
  refine ⟨ε, hε, fun s x r₀ hs hx hr hr0 hre nMax tol j hj hjn htol => ?_⟩
  obtain ⟨h1, h2⟩ := he r₀ hr0.le hre
  set q' := δ * (1 / (k - δ)) + L * (1 / (k - δ)) ^ 2 / 2 * r₀ with hq'
  have hq0 : 0 ≤ q' := by positivity
  have hp : q' ^ j ≤ q ^ j := pow_le_pow_left₀ hq0 h1 j
  obtain ⟨s', y, i, a1, a2, a3, a4, a5, a6, -⟩ := C117_linear p s x hs ρ δ _ L (close_inside hL hx) hb r₀ q' hr rfl
    (by linarith) h2 (fun hon => ⟨hr0.ne', lt_of_le_of_lt (pow_le_pow_left₀ hq0 h1 2) (hls hon)⟩) nMax tol j hj hjn
    (lt_of_le_of_lt (mul_le_mul_of_nonneg_left hp hr0.le) htol)
  exact ⟨s', y, i, a1, a2, a3, a4, a5, a6.trans h2⟩

/-- C116, for a body without hardening: in every region there is a size of the residual below which the loop converges
quadratically. -/
theorem C116_body (cells : List (MeshCell d n N)) (p : Lin.Problem N) (k m : ℝ)
    (h : SpecNewtonBody cells p k m 0) (hex : SpecExactAll p) (hb : ∀ g, p.blk g = 0)
    (hk : 0 < k) (q : ℝ) (hq : 0 < q) (hq1 : q < 1) (hls : p.searchAll.on = true → q ^ 2 < 1 - 2 * p.searchAll.alpha)
    (x₀ : ℕ → ℝ) (ρ : ℝ) (hρ : 0 < ρ) :
    ∃ ε > 0, ∀ (s : Lin.Step N) (x : ℕ → ℝ) (r₀ : ℝ), s.trial = some x →
      Lin.SpecDistance p (Sol.distribute p.aff x) x₀ ≤ ρ → r₀ = p.total (p.resid (Sol.distribute p.aff x)) →
      0 < r₀ → r₀ ≤ ε → ∀ (nMax : ℕ) (tol : ℝ) (j : ℕ), 1 ≤ j → j ≤ nMax → r₀ * q ^ (2 ^ j - 1) < tol →
      ∃ (s' : Lin.Step N) (y : ℕ → ℝ) (i : ℕ), i ≤ j ∧ Drv.monoRD p.mono nMax tol (nMax + 1) 0 s = .returned s' i ∧
        s'.trial = some y ∧ Sol.Satisfies p.aff y ∧ p.total (p.resid y) < tol ∧
        Lin.SpecDistance p y (Sol.distribute p.aff x) ≤ ρ := by
  have hz : 2 * ((0 : ℝ) * n * m) = 0 := by ring
  obtain ⟨L, hL⟩ := C117_close cells p k m 0 h hex (by rw [hz]; exact hk) x₀ (2 * ρ)
  rw [hz, sub_zero] at hL
  have hL0 := hL.L_nonneg
  have hM0 : 0 ≤ 1 / k := hL.M_nonneg
  obtain ⟨ε, hε, he⟩ := small_rate (a := 0) (c := L * (1 / k) ^ 2 / 2) (M := 1 / k) (ρ := ρ)
    (q := q) hq (by positivity) hM0 hρ hq1
  refine ⟨ε, hε, fun s x r₀ hs hx hr hr0 hre nMax tol j hj hjn htol => ?_⟩
  obtain ⟨h1, h2⟩ := he r₀ hr0.le hre
  rw [zero_add] at h1 h2
  have hq0 : 0 ≤ L * (1 / k) ^ 2 / 2 * r₀ := by positivity
  have hp := pow_le_pow_left₀ hq0 h1 (2 ^ j - 1)
  obtain ⟨s', y, i, a1, a2, a3, a4, a5, a6, -⟩ := quadratic_close p s x hs ρ _ L (close_inside hL hx) hb r₀ _ hr rfl
    (by linarith) h2 (fun hon => ⟨hr0.ne', lt_of_le_of_lt (pow_le_pow_left₀ hq0 h1 2) (hls hon)⟩) nMax tol j hj hjn
    (lt_of_le_of_lt (mul_le_mul_of_nonneg_left hp hr0.le) htol)
  exact ⟨s', y, i, a1, a2, a3, a4, a5, a6.trans h2⟩

/-! ## Non-vacuity -/

/-- A cell with one displacement and one slip, both free; hardening `H`. -/
noncomputable def exSoft (H f : ℝ) : MeshCell 2 1 2 :=
  ⟨{ exCell false 7 with law := ⟨.tanh, 1, false, ⟨1, H, 1, 1, false⟩⟩ }, exKind, fun i => i, 1,
    fun _ => ⟨exShape, ![f, 0], Bulk.init ⟨1, H, 1, 1, false⟩ 1, fun _ => 3⟩⟩

theorem exSoft_stable (H f : ℝ) (h0 : 0 ≤ H) (h1 : H ≤ 4) : SpecStableBody [exSoft H f] := by
  constructor <;> intro c hc <;> rw [List.mem_singleton] at hc <;> subst hc
  · constructor
    · exact fun _ => exShape_primitive
    · intro q
      show (0 : ℝ) < 1 / 2
      norm_num
    · exact fun _ => rfl
    · intro q a
      show (0 : ℝ) ≤ 1 / 1
      norm_num
  · constructor <;> norm_num [exSoft, exCell, Elastic.accepted, SpecOrthogonal, VecLaw.accepted, h0]
  · exact Or.inr ⟨h0, by norm_num [exSoft], by norm_num [exSoft], by norm_num [exSoft]⟩
  · intro q a
    show _ ≤ (1 / 1 : ℝ)
    norm_num [SpecLatent, exSoft, exCell]
    linarith

theorem exSoft_elastic (H f : ℝ) (u v : ℕ → ℝ) : SpecElasticError [exSoft H f] u v =
    15 / 4 * (u 0 - v 0) ^ 2 + 5 * (2 * (u 0 - v 0) - (u 1 - v 1)) ^ 2 := by
  unfold SpecElasticError
  rw [List.map_singleton, List.sum_singleton]
  show ∑ _q : Fin 1, _ = _
  rw [Fin.sum_univ_one, elasticStrainAt_sub]
  have e : SpecElasticStrain (exSoft H f).prm exShape (u ∘ (exSoft H f).dofs - v ∘ (exSoft H f).dofs) =
      !![u 0 - v 0, 2 * (u 0 - v 0) - (u 1 - v 1); 2 * (u 0 - v 0) - (u 1 - v 1), 0] := by
    unfold SpecElasticStrain Shape.strain Shape.slip
    ext i j
    fin_cases i <;> fin_cases j <;>
      simp [exShape, exSoft, exCell, Fin.sum_univ_two, System.symSchmid, System.schmid, symmetrize, outer] <;> ring
  show 1 / 2 * (5 / 2 * SpecEnergy2 (exSoft H f).prm.elastic (exSoft H f).prm.rot
    (SpecElasticStrain (exSoft H f).prm exShape (u ∘ (exSoft H f).dofs - v ∘ (exSoft H f).dofs))) = _
  rw [e, energy_eq]
  have hr : (exSoft H f).prm.rot = 1 := rfl
  rw [hr, Matrix.transpose_one, Matrix.one_mul, Matrix.mul_one, energy_reference _ _ (by
    ext i j; fin_cases i <;> fin_cases j <;> simp [Matrix.transpose])]
  simp [exSoft, exCell, Matrix.trace, Fin.sum_univ_two]
  ring

open Classical in
/-- The step with a line search and an exact solver. -/
noncomputable def exSoftStep (H f : ℝ) : Lin.Problem 2 where
  n := 2
  aff := fun _ => none
  internal := fun _ => none
  blk := fun _ => 0
  cells := fun x => [exSoft H f].map (Lin.SpecHanded · x)
  all := fun c => if h : ∃ z, SolvesAll (fun _ => none) c 2 z then h.choose else 0
  block := fun _ _ _ => 0
  reduced := fun _ _ => 0
  initial := fun _ => 0
  resetSlips := true
  searchAll := ⟨true, 15, 1e-4⟩
  searchMacro := ⟨false, 15, 1e-4⟩
  searchMicro := ⟨false, 15, 1e-4⟩

theorem exSoft_body (H f : ℝ) (h0 : 0 ≤ H) (h1 : H ≤ 4) :
    SpecNewtonBody [exSoft H f] (exSoftStep H f) (1 / 2) (1 / 2) H where
  stable := exSoft_stable H f h0 h1
  step := {
    handed := fun _ => rfl
    homogeneous := ⟨fun _ _ h => by simp [exSoftStep] at h, fun _ _ h => by simp [exSoftStep] at h,
      fun _ _ h => by simp [exSoftStep] at h⟩
    closed := fun _ _ h => by simp [exSoftStep] at h
    local_ := fun _ _ h => by simp [exSoftStep] at h
    dofs := by
      intro c hc i; rw [List.mem_singleton] at hc; subst hc; exact i.2
    difference := fun _ _ _ _ _ _ h => by simp [exSoftStep] at h }
  admissible := fun _ _ _ _ _ _ h => by simp [exSoftStep] at h
  rate := by intro c hc; rw [List.mem_singleton] at hc; subst hc; rfl
  defect := by intro c hc; rw [List.mem_singleton] at hc; subst hc; norm_num [exSoft, exCell]
  stiff := by
    intro u v _
    have := (errors_nonneg _ (exSoft_stable H f h0 h1) u v).2.1
    rw [exSoft_elastic, length_sq]
    show _ * ∑ g ∈ range 2, _ ≤ _
    rw [sum_range_succ, sum_range_one]
    simp only [Pi.sub_apply]
    nlinarith [sq_nonneg (19 * (u 0 - v 0) - 9 * (u 1 - v 1)), sq_nonneg (u 0 - v 0), sq_nonneg (u 1 - v 1),
      sq_nonneg (20 * (u 0 - v 0) - 9 * (u 1 - v 1))]
  mass := by
    intro w
    have hd : Sol.distribute (exSoftStep H f).internal w = w := by
      funext g; exact Sol.distribute_free rfl
    rw [hd, length_sq]
    unfold SpecSlipSquare
    rw [List.map_singleton, List.sum_singleton]
    show ∑ _q : Fin 1, _ ≤ 1 / 2 * ∑ g ∈ range 2, _
    rw [Fin.sum_univ_one, Fin.sum_univ_one, sum_range_succ, sum_range_one]
    show 1 / 2 * (exShape.slip (w ∘ fun i : Fin 2 => (i : ℕ)) 0) ^ 2 ≤ _
    have : exShape.slip (w ∘ fun i : Fin 2 => (i : ℕ)) 0 = w 1 := by
      simp [exShape, Shape.slip, Fin.sum_univ_two]
    rw [this]
    nlinarith [sq_nonneg (w 0)]
  hardening := by
    intro c hc; rw [List.mem_singleton] at hc; subst hc
    right; simp [exSoft]
  m_nonneg := by norm_num
  H_nonneg := h0

theorem exSoft_exact (H f : ℝ) (h0 : 0 ≤ H) (h1 : H < 1 / 2) : SpecExactAll (exSoftStep H f) := by
  classical
  intro x _
  have h : ∃ z, SolvesAll (fun _ => none) ((exSoftStep H f).cells x) 2 z :=
    C117_solvable _ _ _ _ _ (exSoft_body H f h0 (by linarith)) (by norm_num; linarith) x
  have : (exSoftStep H f).all ((exSoftStep H f).cells x) = h.choose := dif_pos h
  rw [this]
  exact h.choose_spec

/-- C117_body in a concrete case: with the hardening 1/10 the loop gains a factor of 1/3 in every step. -/
example (f : ℝ) (x₀ : ℕ → ℝ) : ∃ ε > 0, ∀ (s : Lin.Step 2) (x : ℕ → ℝ) (r₀ : ℝ), s.trial = some x →
      Lin.SpecDistance (exSoftStep (1 / 10) f) (Sol.distribute (exSoftStep (1 / 10) f).aff x) x₀ ≤ 1 →
      r₀ = (exSoftStep (1 / 10) f).total ((exSoftStep (1 / 10) f).resid (Sol.distribute (exSoftStep (1 / 10) f).aff x)) →
      0 < r₀ → r₀ ≤ ε → ∀ (nMax : ℕ) (tol : ℝ) (j : ℕ), 1 ≤ j → j ≤ nMax → r₀ * (1 / 3) ^ j < tol →
      ∃ s' i, i ≤ j ∧ Drv.monoRD (exSoftStep (1 / 10) f).mono nMax tol (nMax + 1) 0 s = .returned s' i := by
  obtain ⟨ε, hε, h⟩ := C117_body _ _ _ _ _ (exSoft_body (1 / 10) f (by norm_num) (by norm_num))
    (exSoft_exact (1 / 10) f (by norm_num) (by norm_num)) (fun _ => rfl) _ rfl (by norm_num) (1 / 3) (by norm_num)
    (by norm_num) (fun _ => by norm_num [exSoftStep]) x₀ 1 one_pos
  refine ⟨ε, hε, fun s x r₀ hs hx hr h0 he nMax tol j hj hjn ht => ?_⟩
  obtain ⟨s', y, i, a, b, -⟩ := h s x r₀ hs hx hr h0 he nMax tol j hj hjn ht
  exact ⟨s', i, a, b⟩

/-- C116_body in a concrete case. -/
example (f : ℝ) (x₀ : ℕ → ℝ) : ∃ ε > 0, ∀ (s : Lin.Step 2) (x : ℕ → ℝ) (r₀ : ℝ), s.trial = some x →
      Lin.SpecDistance (exSoftStep 0 f) (Sol.distribute (exSoftStep 0 f).aff x) x₀ ≤ 1 →
      r₀ = (exSoftStep 0 f).total ((exSoftStep 0 f).resid (Sol.distribute (exSoftStep 0 f).aff x)) →
      0 < r₀ → r₀ ≤ ε → ∀ (nMax : ℕ) (tol : ℝ) (j : ℕ), 1 ≤ j → j ≤ nMax → r₀ * (1 / 2) ^ (2 ^ j - 1) < tol →
      ∃ s' i, i ≤ j ∧ Drv.monoRD (exSoftStep 0 f).mono nMax tol (nMax + 1) 0 s = .returned s' i := by
  obtain ⟨ε, hε, h⟩ := C116_body _ _ _ _ (exSoft_body 0 f le_rfl (by norm_num))
    (exSoft_exact 0 f le_rfl (by norm_num)) (fun _ => rfl) (by norm_num) (1 / 2) (by norm_num)
    (by norm_num) (fun _ => by norm_num [exSoftStep]) x₀ 1 one_pos
  refine ⟨ε, hε, fun s x r₀ hs hx hr h0 he nMax tol j hj hjn ht => ?_⟩
  obtain ⟨s', y, i, a, b, -⟩ := h s x r₀ hs hx hr h0 he nMax tol j hj hjn ht
  exact ⟨s', i, a, b⟩

end Verif.Asm
