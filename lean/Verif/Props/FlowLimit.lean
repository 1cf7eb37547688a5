import Verif.Props.FlowExistence

/-! # The rate-dependent law near its rate-independent limit : C132 -/

namespace Verif.Asm
open Matrix Finset Verif.Cry Verif.Hist Verif.Micro Verif.Mono Verif.Lin

variable {d n N : ℕ}

/-- Power of the resistances of the state `u` at the quadrature points, times the time step: the work the slip resistances
would do if all slip systems slipped at unit rate. -/
noncomputable def SpecUnitWork (cells : List (MeshCell d n N)) (u : ℕ → ℝ) : ℝ :=
  (cells.map fun c => ∑ q, (c.pts q).shape.jxw * (c.prm.dt * ∑ a,
    ((c.pts q).hist.update ((c.pts q).shape.slip (u ∘ c.dofs)) (c.pts q).old).res a)).sum

/-- What a slip resistance grows by when all `n` slip systems slip by one: a row of the hardening matrix. -/
noncomputable def SpecRowSum (l : Hardening) (n : ℕ) : ℝ :=
  if l.perfect then 0 else l.modulus / l.characteristic * (1 - l.parameter + l.parameter * n)

/-- Work of the hardening at unit slip rate in all systems, up to a factor. -/
noncomputable def SpecUnitHardening (cells : List (MeshCell d n N)) : ℝ :=
  (cells.map fun c => ∑ q, (c.pts q).shape.jxw * (c.prm.dt ^ 2 * (SpecRowSum c.prm.law.hard n * n / 4))).sum

/-! ## Helpers -/

/-- Resistances after an update, with both hardening parameters. -/
theorem resistances' (b : Bulk n) (hh : SpecHardens b.prm) : ∃ h q : ℝ,
    0 ≤ h ∧ 0 ≤ q ∧ q ≤ 1 ∧ SpecRowSum b.prm n = h * (1 - q + q * n) ∧ ∀ old slips a, (b.update slips old).res a =
      b.tmp a + h * ((1 - q) * |slips a - old a| + q * ∑ c, |slips c - old c|) := by
  rcases hb : b.prm.perfect with _ | _
  · rcases hh with h | ⟨h1, h2, h3, h4⟩
    · rw [hb] at h; simp at h
    · refine ⟨b.prm.modulus / b.prm.characteristic, b.prm.parameter, div_nonneg h1 h2.le, h3, h4,
        by simp [SpecRowSum, hb], fun old slips a => ?_⟩
      rw [C17_hardening_law b slips old a hb]
      congr 1
      have e : ∀ c, b.prm.modulus / b.prm.characteristic *
          (b.prm.parameter + (1 - b.prm.parameter) * (if a = c then 1 else 0)) * |slips c - old c| =
          b.prm.modulus / b.prm.characteristic * ((1 - b.prm.parameter) *
            (if a = c then |slips c - old c| else 0) + b.prm.parameter * |slips c - old c|) := by
        intro c; split_ifs <;> ring
      simp only [e]
      rw [← Finset.mul_sum, Finset.sum_add_distrib, ← Finset.mul_sum, ← Finset.mul_sum,
        Finset.sum_ite_eq univ a, if_pos (mem_univ a)]
  · exact ⟨0, 0, le_rfl, le_rfl, zero_le_one, by simp [SpecRowSum, hb], fun old slips a => by
      rw [C17_perfect b slips old hb]; ring⟩

/-- Two microstresses within the resistances that fall short of the resistances' power by `κ` and `κ'`. -/
theorem flow_gap_point (x y z P p R R' κ κ' : ℝ) (hP : |P| ≤ R) (hp : |p| ≤ R') (hP' : R * (|x - z| - κ) ≤ P * (x - z))
    (hp' : R' * (|y - z| - κ') ≤ p * (y - z)) :
    (|x - z| - |y - z|) * (R - R') - κ * R - κ' * R' ≤ (x - y) * (P - p) := by
  have h1 : P * (y - z) ≤ R * |y - z| := (le_abs_self _).trans
    (by rw [abs_mul]; exact mul_le_mul_of_nonneg_right hP (abs_nonneg _))
  have h2 : p * (x - z) ≤ R' * |x - z| := (le_abs_self _).trans
    (by rw [abs_mul]; exact mul_le_mul_of_nonneg_right hp (abs_nonneg _))
  nlinarith

/-- Hardening works against the difference of two slips. -/
theorem hardening_gap (b : Bulk n) (hh : SpecHardens b.prm) (old x y : Fin n → ℝ) :
    0 ≤ ∑ a, (|x a - old a| - |y a - old a|) * ((b.update x old).res a - (b.update y old).res a) ∧
    ∀ κ, -(κ ^ 2 * (SpecRowSum b.prm n * n / 4)) ≤
      ∑ a, (|x a - old a| - |y a - old a|) * ((b.update x old).res a - (b.update y old).res a) -
        κ * ∑ a, ((b.update x old).res a - (b.update y old).res a) := by
  obtain ⟨h, q, h0, q0, q1, hg, hr⟩ := resistances' b hh
  obtain ⟨z, hz⟩ : ∃ z : Fin n → ℝ, ∀ a, |x a - old a| - |y a - old a| = z a := ⟨_, fun _ => rfl⟩
  have er : ∀ a, (b.update x old).res a - (b.update y old).res a = h * (1 - q) * z a + h * q * ∑ c, z c := by
    intro a
    rw [hr, hr, ← hz]
    simp only [← hz, Finset.sum_sub_distrib]
    ring
  simp only [er, hz]
  have e1 : ∑ a, z a * (h * (1 - q) * z a + h * q * ∑ c, z c) = h * ((1 - q) * ∑ a, z a ^ 2 + q * (∑ a, z a) ^ 2) := by
    have : ∀ a, z a * (h * (1 - q) * z a + h * q * ∑ c, z c) = h * (1 - q) * z a ^ 2 + z a * (h * q * ∑ c, z c) :=
      fun a => by ring
    simp only [this]
    rw [Finset.sum_add_distrib, ← Finset.sum_mul, ← Finset.mul_sum]
    ring
  have e2 : ∑ a, (h * (1 - q) * z a + h * q * ∑ c, z c) = SpecRowSum b.prm n * ∑ a, z a := by
    rw [Finset.sum_add_distrib, ← Finset.mul_sum, Finset.sum_const, card_univ, Fintype.card_fin, nsmul_eq_mul, hg]
    ring
  have hnn : 0 ≤ h * ((1 - q) * ∑ a, z a ^ 2 + q * (∑ a, z a) ^ 2) :=
    mul_nonneg h0 (add_nonneg (mul_nonneg (by linarith) (sum_nonneg fun a _ => sq_nonneg _))
      (mul_nonneg q0 (sq_nonneg _)))
  rw [e1, e2]
  refine ⟨hnn, fun κ => ?_⟩
  rcases Nat.eq_zero_or_pos n with h1 | h1
  · subst h1; simp
  have hc : (∑ a, z a) ^ 2 ≤ n * ∑ a, z a ^ 2 := by
    have := sq_sum_le_card_mul_sum_sq (s := (univ : Finset (Fin n))) (f := z)
    rwa [card_univ, Fintype.card_fin] at this
  have hn : (0 : ℝ) < n := by exact_mod_cast h1
  rw [hg]
  generalize (∑ a, z a) = S at *
  generalize (∑ a, z a ^ 2) = T at *
  have hq : 0 ≤ 1 - q := by linarith
  have g0 : 0 ≤ h * (1 - q + q * n) := mul_nonneg h0 (by positivity)
  refine le_of_mul_le_mul_left ?_ hn
  have k1 := mul_le_mul_of_nonneg_left hc (mul_nonneg h0 hq)
  nlinarith [mul_nonneg g0 (sq_nonneg (S - κ * n / 2))]

/-- Work of the microstresses `p` on the slips of `w`. -/
theorem slipForce_work (c : MeshCell d n N) (hc : SpecCell c) (p : Fin c.Q → Fin n → ℝ) (w : ℕ → ℝ) :
    ∑ i, w (c.dofs i) * slipForce c p i = ∑ q, (c.pts q).shape.jxw * ∑ a, (c.pts q).shape.slip (w ∘ c.dofs) a * p q a := by
  have e : ∀ i, slipForce c p i = ∑ q, ∑ a, (c.pts q).shape.phi a i * p q a * (c.pts q).shape.jxw := by
    intro i
    unfold slipForce
    rcases hk : c.kind i with _ | a
    · simp only
      have z : ∀ q a, (c.pts q).shape.phi a i = 0 := fun q a => (hc.primitive q).phi i a (by rw [hk]; simp)
      simp [z]
    · show ∑ q, _ = _
      refine Finset.sum_congr rfl fun q _ => ?_
      symm
      refine Finset.sum_eq_single a (fun b _ hb => ?_) (fun h => absurd (mem_univ a) h)
      rw [(hc.primitive q).phi i b (by rw [hk]; exact fun h => hb (Option.some.inj h).symm)]
      ring
  simp only [e, Finset.mul_sum]
  rw [Finset.sum_comm]
  refine sum_congr rfl fun q _ => ?_
  rw [Finset.sum_comm]
  refine sum_congr rfl fun a _ => ?_
  unfold Shape.slip
  rw [Finset.sum_mul, Finset.mul_sum]
  refine sum_congr rfl fun i _ => ?_
  simp only [Function.comp_apply]
  ring

/-- Work of the difference of two microstresses on the difference of the slips of two states. -/
noncomputable def flowGap (cells : List (MeshCell d n N)) (u v : ℕ → ℝ)
    (P p : (c : MeshCell d n N) → Fin c.Q → Fin n → ℝ) : ℝ :=
  (cells.map fun c => ∑ q, (c.pts q).shape.jxw * ∑ a,
    ((c.pts q).shape.slip (u ∘ c.dofs) a - (c.pts q).shape.slip (v ∘ c.dofs) a) * (P c q a - p c q a)).sum

/-- Nodal work of a flow solution. -/
theorem flow_work (cells : List (MeshCell d n N)) (hcell : ∀ c ∈ cells, SpecCell c)
    (hmat : ∀ c ∈ cells, SpecMaterial c.prm) {K : Sol.Constraints ℕ} {m : ℕ} (hK : Homogeneous K m)
    (hm : ∀ c ∈ cells, ∀ i, c.dofs i < m) {u : ℕ → ℝ} {P : (c : MeshCell d n N) → Fin c.Q → Fin n → ℝ}
    (hu : SpecFlowSolution cells K m u P) {w : ℕ → ℝ} (hw : Sol.Satisfies K w) :
    SpecNodalWork (cells.map tame) (forces u) w = -(cells.map fun c => ∑ q, (c.pts q).shape.jxw * ∑ a,
      (c.pts q).shape.slip (w ∘ c.dofs) a * P c q a).sum := by
  obtain ⟨R, hR, hz⟩ := hu
  have hz' : ∀ r < m, Lin.residual K (cells.map fun c => c.local fun c i =>
      forces u (tame c) i - slipForce c (P c) i) r = 0 := by
    intro r hr
    rw [← hz r hr]
    unfold Lin.residual
    simp only [List.map_map]
    congr 1
    refine List.map_congr_left fun c hc => ?_
    simp only [Function.comp_apply]
    refine sum_congr rfl fun i _ => ?_
    show weight K (c.dofs i) r * _ = weight K (c.dofs i) r * _
    congr 1
    have hf : R c i = forces u c i := by
      have h1 := hR c hc i
      have h2 := forces_assembled cells hcell hmat u c hc i
      rw [h1] at h2
      exact Option.some.inj h2
    show forces u (tame c) i - slipForce c (P c) i = R c i + _ - _
    rw [hf, forces_tame c (hmat c hc).index]
    ring
  have h0 := solution_work cells hK hm hw hz'
  rw [eq_neg_iff_add_eq_zero, ← h0]
  unfold SpecNodalWork
  rw [List.map_map, ← List.sum_map_add]
  congr 1
  refine List.map_congr_left fun c hc => ?_
  rw [← slipForce_work c (hcell c hc)]
  simp only [Function.comp_apply]
  show ∑ i, w (c.dofs i) * -forces u (tame c) i + _ = _
  rw [← sum_add_distrib]
  refine sum_congr rfl fun i _ => ?_
  ring

/-- The errors between two flow solutions are what the difference of their microstresses gives away. -/
theorem flow_gap (cells : List (MeshCell d n N)) (hcell : ∀ c ∈ cells, SpecCell c)
    (hmat : ∀ c ∈ cells, SpecMaterial c.prm) {K : Sol.Constraints ℕ} {m : ℕ} (hK : Homogeneous K m)
    (hm : ∀ c ∈ cells, ∀ i, c.dofs i < m) {u v : ℕ → ℝ} {P p : (c : MeshCell d n N) → Fin c.Q → Fin n → ℝ}
    (hu : SpecFlowSolution cells K m u P) (hv : SpecFlowSolution cells K m v p) (hsat : Sol.Satisfies K (u - v)) :
    SpecElasticError cells u v + SpecDefectError cells u v + flowGap cells u v P p = 0 := by
  have ht := tame_stable cells hcell hmat
  have hg := work_gap (cells.map tame) ht u v (forces u) (forces v)
    (forces_assembled _ ht.cell ht.material u) (forces_assembled _ ht.cell ht.material v)
  have hs : SpecSlipError (cells.map tame) u v = 0 := by
    unfold SpecSlipError
    rw [List.map_map]
    refine List.sum_eq_zero fun x hx => ?_
    obtain ⟨c, -, rfl⟩ := List.mem_map.1 hx
    refine sum_eq_zero fun q _ => ?_
    have : ∀ a, (tame c).prm.law.evalMicrostress ((tame c).pts q).hist (((tame c).pts q).shape.slip (u ∘ (tame c).dofs))
        ((tame c).pts q).old (tame c).prm.dt a = 0 := fun a => tame_micro c q _ _ _ a
    have h' : ∀ a, (tame c).prm.law.evalMicrostress ((tame c).pts q).hist (((tame c).pts q).shape.slip (v ∘ (tame c).dofs))
        ((tame c).pts q).old (tame c).prm.dt a = 0 := fun a => tame_micro c q _ _ _ a
    refine mul_eq_zero_of_right _ (sum_eq_zero fun a _ => ?_)
    rw [this, h']
    ring
  rw [tame_elastic, tame_defect, hs, flow_work cells hcell hmat hK hm hu hsat,
    flow_work cells hcell hmat hK hm hv hsat] at hg
  have e : flowGap cells u v P p = (cells.map fun c => ∑ q, (c.pts q).shape.jxw * ∑ a,
      (c.pts q).shape.slip ((u - v) ∘ c.dofs) a * P c q a).sum - (cells.map fun c => ∑ q, (c.pts q).shape.jxw * ∑ a,
      (c.pts q).shape.slip ((u - v) ∘ c.dofs) a * p c q a).sum := by
    rw [eq_sub_iff_add_eq]
    unfold flowGap
    rw [← List.sum_map_add]
    congr 1
    refine List.map_congr_left fun c _ => ?_
    rw [← sum_add_distrib]
    refine sum_congr rfl fun q _ => ?_
    rw [← mul_add, ← sum_add_distrib]
    congr 1
    refine sum_congr rfl fun a _ => ?_
    have hd : (u - v) ∘ c.dofs = u ∘ c.dofs - v ∘ c.dofs := rfl
    rw [hd, slip_sub]
    ring
  rw [e]
  linarith

/-- Microstresses within the resistances, whose power falls short of that of the resistances by `κ` at most. -/
def Near (cells : List (MeshCell d n N)) (u : ℕ → ℝ) (P : (c : MeshCell d n N) → Fin c.Q → Fin n → ℝ) (k : ℝ) : Prop :=
  ∀ c ∈ cells, ∀ q a,
    |P c q a| ≤ ((c.pts q).hist.update ((c.pts q).shape.slip (u ∘ c.dofs)) (c.pts q).old).res a ∧
    ((c.pts q).hist.update ((c.pts q).shape.slip (u ∘ c.dofs)) (c.pts q).old).res a *
      (|(c.pts q).shape.slip (u ∘ c.dofs) a - (c.pts q).old a| - k * c.prm.dt) ≤
        P c q a * ((c.pts q).shape.slip (u ∘ c.dofs) a - (c.pts q).old a)

theorem flowGap_lower (cells : List (MeshCell d n N)) (hcell : ∀ c ∈ cells, SpecCell c)
    (hhard : ∀ c ∈ cells, SpecHardens c.prm.law.hard) {u v : ℕ → ℝ} {P p : (c : MeshCell d n N) → Fin c.Q → Fin n → ℝ}
    {k : ℝ} (hP : Near cells u P k) (hp : Near cells v p 0) : -(k * SpecUnitWork cells u) ≤ flowGap cells u v P p := by
  unfold SpecUnitWork flowGap
  rw [← neg_mul, ← List.sum_map_mul_left]
  refine List.sum_le_sum fun c hc => ?_
  rw [Finset.mul_sum]
  refine sum_le_sum fun q _ => ?_
  rw [mul_left_comm]
  refine mul_le_mul_of_nonneg_left ?_ ((hcell c hc).weight q).le
  have hg := (hardening_gap (c.pts q).hist (by rw [(hcell c hc).hist q]; exact hhard c hc) (c.pts q).old
    ((c.pts q).shape.slip (u ∘ c.dofs)) ((c.pts q).shape.slip (v ∘ c.dofs))).1
  have hs := Finset.sum_le_sum fun a (_ : a ∈ univ) =>
    flow_gap_point _ _ _ _ _ _ _ (k * c.prm.dt) (0 * c.prm.dt) (hP c hc q a).1 (hp c hc q a).1 (hP c hc q a).2 (hp c hc q a).2
  refine le_trans ?_ hs
  simp only [zero_mul, sub_zero]
  rw [Finset.sum_sub_distrib, ← Finset.mul_sum]
  linarith

theorem flowGap_lower' (cells : List (MeshCell d n N)) (hcell : ∀ c ∈ cells, SpecCell c)
    (hhard : ∀ c ∈ cells, SpecHardens c.prm.law.hard) {u v : ℕ → ℝ} {P p : (c : MeshCell d n N) → Fin c.Q → Fin n → ℝ}
    {k : ℝ} (hP : Near cells u P k) (hp : Near cells v p 0) :
    -(k * SpecUnitWork cells v + k ^ 2 * SpecUnitHardening cells) ≤ flowGap cells u v P p := by
  unfold SpecUnitWork SpecUnitHardening flowGap
  rw [← List.sum_map_mul_left, ← List.sum_map_mul_left, ← List.sum_map_add, ← neg_one_mul, ← List.sum_map_mul_left]
  refine List.sum_le_sum fun c hc => ?_
  rw [Finset.mul_sum, Finset.mul_sum, ← sum_add_distrib, Finset.mul_sum]
  refine sum_le_sum fun q _ => ?_
  have e : ∀ j A B : ℝ, -1 * (k * (j * A) + k ^ 2 * (j * B)) = j * -(k * A + k ^ 2 * B) := fun j A B => by ring
  rw [e]
  refine mul_le_mul_of_nonneg_left ?_ ((hcell c hc).weight q).le
  have hpr := (hcell c hc).hist q
  have hg := (hardening_gap (c.pts q).hist (by rw [hpr]; exact hhard c hc) (c.pts q).old
    ((c.pts q).shape.slip (u ∘ c.dofs)) ((c.pts q).shape.slip (v ∘ c.dofs))).2 (k * c.prm.dt)
  have hs := Finset.sum_le_sum fun a (_ : a ∈ univ) =>
    flow_gap_point _ _ _ _ _ _ _ (k * c.prm.dt) (0 * c.prm.dt) (hP c hc q a).1 (hp c hc q a).1 (hP c hc q a).2 (hp c hc q a).2
  refine le_trans ?_ hs
  simp only [zero_mul, sub_zero]
  rw [Finset.sum_sub_distrib, ← Finset.mul_sum]
  rw [Finset.sum_sub_distrib (f := fun a => ((c.pts q).hist.update ((c.pts q).shape.slip (u ∘ c.dofs)) (c.pts q).old).res a),
    hpr] at hg
  nlinarith

theorem near_flow {cells : List (MeshCell d n N)} (hmat : ∀ c ∈ cells, SpecMaterial c.prm)
    (hrate : ∀ c ∈ cells, c.prm.law.rateIndependent = true) {v : ℕ → ℝ}
    {p : (c : MeshCell d n N) → Fin c.Q → Fin n → ℝ} (hp : SpecFlowRule cells v p) : Near cells v p 0 := by
  intro c hc q a
  refine ⟨(hp c hc q a).1, ?_⟩
  rw [zero_mul, sub_zero]
  by_cases h : (c.pts q).shape.slip (v ∘ c.dofs) a = (c.pts q).old a
  · rw [h, sub_self, abs_zero, mul_zero, mul_zero]
  · rw [(hp c hc q a).2 h]
    have hdt := (hmat c hc).dt
    unfold Law.evalMicrostress Law.microstress
    simp only [hrate c hc, if_true]
    rw [mul_assoc]
    refine le_of_eq (congrArg _ ?_)
    have h0 := sub_ne_zero.2 h
    rw [sgn_cases _ (div_ne_zero h0 hdt.ne')]
    rcases lt_or_gt_of_ne h0 with h1 | h1
    · rw [if_neg (not_lt.2 (div_nonpos_of_nonpos_of_nonneg h1.le hdt.le)), abs_of_neg h1]; ring
    · rw [if_pos (div_pos h1 hdt), abs_of_pos h1]; ring

/-- Microstresses of the law with regularisation parameter `k`. -/
noncomputable def softStress (k : ℝ) (u : ℕ → ℝ) (c : MeshCell d n N) (q : Fin c.Q) (a : Fin n) : ℝ :=
  (soften k c).prm.law.evalMicrostress (c.pts q).hist ((c.pts q).shape.slip (u ∘ c.dofs)) (c.pts q).old c.prm.dt a

theorem near_soft {cells : List (MeshCell d n N)} (hcell : ∀ c ∈ cells, SpecCell c)
    (hmat : ∀ c ∈ cells, SpecMaterial c.prm) {k : ℝ} (hk : 0 < k) (u : ℕ → ℝ) : Near cells u (softStress k u) k := by
  intro c hc q a
  have hres : 0 ≤ ((c.pts q).hist.update ((c.pts q).shape.slip (u ∘ c.dofs)) (c.pts q).old).res a :=
    ((hcell c hc).res q a).trans (resistance_ge' (c.pts q).hist (by rw [(hcell c hc).hist q]; exact (hmat c hc).hard) _ _ a)
  refine ⟨C28_bounded (soften k c).prm.law hk _ _ _ _ hres, ?_⟩
  have hdt := (hmat c hc).dt
  show _ ≤ _ * reg c.prm.law.f k (((c.pts q).shape.slip (u ∘ c.dofs) a - (c.pts q).old a) / c.prm.dt) * _
  rw [mul_assoc]
  refine mul_le_mul_of_nonneg_left ?_ hres
  have h := mul_le_mul_of_nonneg_right (reg_power c.prm.law.f k hk
    (((c.pts q).shape.slip (u ∘ c.dofs) a - (c.pts q).old a) / c.prm.dt)) hdt.le
  rw [abs_div, abs_of_pos hdt, sub_mul, div_mul_cancel₀ _ hdt.ne', mul_assoc, div_mul_cancel₀ _ hdt.ne'] at h
  exact h

/-- Solutions with the regularised law are flow solutions with its microstresses. -/
theorem soft_flow {cells : List (MeshCell d n N)} (hcell : ∀ c ∈ cells, SpecCell c)
    (hmat : ∀ c ∈ cells, SpecMaterial c.prm) {K : Sol.Constraints ℕ} {m : ℕ} {k : ℝ} (hk : 0 < k) {u : ℕ → ℝ}
    (hu : SpecSolution (cells.map (soften k)) K m u) : SpecFlowSolution cells K m u (softStress k u) := by
  obtain ⟨R, hR, hz⟩ := hu
  refine ⟨forces u, forces_assembled cells hcell hmat u, fun r hr => ?_⟩
  rw [← hz r hr]
  unfold Lin.residual
  simp only [List.map_map]
  congr 1
  refine List.map_congr_left fun c hc => ?_
  simp only [Function.comp_apply]
  refine sum_congr rfl fun i _ => ?_
  show weight K (c.dofs i) r * _ = weight K (c.dofs i) r * R (soften k c) i
  congr 1
  have hms := soften_material hmat hk
  have hf : R (soften k c) i = forces u (soften k c) i := by
    have h1 := hR _ (List.mem_map_of_mem hc) i
    have h2 := forces_assembled _ (soften_cells hcell k) hms u _ (List.mem_map_of_mem hc) i
    rw [h1] at h2
    exact Option.some.inj h2
  have h1 := forces_tame c (hmat c hc).index u i
  have h2 := forces_tame (soften k c) (hms _ (List.mem_map_of_mem hc)).index u i
  show forces u c i + _ - _ = _
  rw [hf, h1, h2, sub_add_cancel]
  rfl

/-! ## Theorems -/

/-- C132, the error the regularised law makes: a solution of the step with the rate-dependent law differs from one with the
rate-independent flow rule, in elastic and defect energy, by no more than the regularisation parameter times the work of
the slip resistances it has reached, at unit slip rate. -/
theorem C132_error (cells : List (MeshCell d n N)) (hcell : ∀ c ∈ cells, SpecCell c)
    (hmat : ∀ c ∈ cells, SpecMaterial c.prm) (hhard : ∀ c ∈ cells, SpecHardens c.prm.law.hard)
    (hrate : ∀ c ∈ cells, c.prm.law.rateIndependent = true) (K : Sol.Constraints ℕ) (m : ℕ) (hK : Homogeneous K m)
    (hm : ∀ c ∈ cells, ∀ i, c.dofs i < m) (k : ℝ) (hk : 0 < k) (u v : ℕ → ℝ)
    (p : (c : MeshCell d n N) → Fin c.Q → Fin n → ℝ) (hu : SpecSolution (cells.map (soften k)) K m u)
    (hv : SpecFlowSolution cells K m v p) (hp : SpecFlowRule cells v p) (hsat : Sol.Satisfies K (u - v)) :
    SpecElasticError cells u v + SpecDefectError cells u v ≤ k * SpecUnitWork cells u := by
  have h1 := flow_gap cells hcell hmat hK hm (soft_flow hcell hmat hk hu) hv hsat
  have h2 := flowGap_lower cells hcell hhard (near_soft hcell hmat hk u) (near_flow hmat hrate hp)
  linarith

/-- C132, the same error bounded in advance: it tends to zero with the regularisation parameter. -/
theorem C132_rate (cells : List (MeshCell d n N)) (hcell : ∀ c ∈ cells, SpecCell c)
    (hmat : ∀ c ∈ cells, SpecMaterial c.prm) (hhard : ∀ c ∈ cells, SpecHardens c.prm.law.hard)
    (hrate : ∀ c ∈ cells, c.prm.law.rateIndependent = true) (K : Sol.Constraints ℕ) (m : ℕ) (hK : Homogeneous K m)
    (hm : ∀ c ∈ cells, ∀ i, c.dofs i < m) (k : ℝ) (hk : 0 < k) (u v : ℕ → ℝ)
    (p : (c : MeshCell d n N) → Fin c.Q → Fin n → ℝ) (hu : SpecSolution (cells.map (soften k)) K m u)
    (hv : SpecFlowSolution cells K m v p) (hp : SpecFlowRule cells v p) (hsat : Sol.Satisfies K (u - v)) :
    SpecElasticError cells u v + SpecDefectError cells u v ≤
      k * SpecUnitWork cells v + k ^ 2 * SpecUnitHardening cells := by
  have h1 := flow_gap cells hcell hmat hK hm (soft_flow hcell hmat hk hu) hv hsat
  have h2 := flowGap_lower' cells hcell hhard (near_soft hcell hmat hk u) (near_flow hmat hrate hp)
  linarith

/-- C132, for every body and load there are a rate-independent solution and a constant such that every solution with the
rate-dependent law is as close to it as the constant times the regularisation parameter. -/
theorem C132_limit (cells : List (MeshCell d n N)) (hcell : ∀ c ∈ cells, SpecCell c)
    (hmat : ∀ c ∈ cells, SpecMaterial c.prm) (hhard : ∀ c ∈ cells, SpecHardens c.prm.law.hard)
    (hrate : ∀ c ∈ cells, c.prm.law.rateIndependent = true) (K : Sol.Constraints ℕ) (m : ℕ) (hK : Homogeneous K m)
    (hm : ∀ c ∈ cells, ∀ i, c.dofs i < m) (hdet : SpecDetermined cells K m) (B : ℕ → ℝ) :
    ∃ v p, Sol.Satisfies K (v - B) ∧ SpecFlowSolution cells K m v p ∧ SpecFlowRule cells v p ∧
      ∃ C, ∀ k, 0 < k → k ≤ 1 → ∀ u, Sol.Satisfies K (u - B) → SpecSolution (cells.map (soften k)) K m u →
        SpecElasticError cells u v + SpecDefectError cells u v ≤ C * k := by
  obtain ⟨v, p, h1, h2, h3⟩ := C131_partial cells hcell hmat hrate K m hK hm hdet B
  refine ⟨v, p, h1, h2, h3, SpecUnitWork cells v + |SpecUnitHardening cells|, fun k hk hk1 u hu hs => ?_⟩
  have h := C132_rate cells hcell hmat hhard hrate K m hK hm k hk u v p hs h2 h3
    (by have := satisfies_sub hK hu h1; rwa [sub_sub_sub_cancel_right] at this)
  have a1 := le_abs_self (SpecUnitHardening cells)
  have a2 := abs_nonneg (SpecUnitHardening cells)
  have : k ^ 2 * SpecUnitHardening cells ≤ k * |SpecUnitHardening cells| := by
    have : k ^ 2 * SpecUnitHardening cells ≤ k ^ 2 * |SpecUnitHardening cells| :=
      mul_le_mul_of_nonneg_left a1 (sq_nonneg k)
    nlinarith [mul_nonneg hk.le a2, mul_nonneg (mul_nonneg hk.le a2) (sub_nonneg.2 hk1)]
  linarith

/-- C132, the rate-independent solution is unique: two of them have the same elastic strains and stresses. -/
theorem C132_unique (cells : List (MeshCell d n N)) (hcell : ∀ c ∈ cells, SpecCell c)
    (hmat : ∀ c ∈ cells, SpecMaterial c.prm) (hhard : ∀ c ∈ cells, SpecHardens c.prm.law.hard)
    (hrate : ∀ c ∈ cells, c.prm.law.rateIndependent = true) (K : Sol.Constraints ℕ) (m : ℕ) (hK : Homogeneous K m)
    (hm : ∀ c ∈ cells, ∀ i, c.dofs i < m) (u v : ℕ → ℝ) (P p : (c : MeshCell d n N) → Fin c.Q → Fin n → ℝ)
    (hu : SpecFlowSolution cells K m u P) (hP : SpecFlowRule cells u P) (hv : SpecFlowSolution cells K m v p)
    (hp : SpecFlowRule cells v p) (hsat : Sol.Satisfies K (u - v)) : ∀ c ∈ cells, ∀ q,
    c.prm.elasticStrainAt (c.pts q).shape (u ∘ c.dofs) = c.prm.elasticStrainAt (c.pts q).shape (v ∘ c.dofs) ∧
    c.prm.stressAt (c.pts q).shape (u ∘ c.dofs) = c.prm.stressAt (c.pts q).shape (v ∘ c.dofs) := by
  have h1 := flow_gap cells hcell hmat hK hm hu hv hsat
  have h2 := flowGap_lower cells hcell hhard (near_flow hmat hrate hP) (near_flow hmat hrate hp)
  rw [zero_mul, neg_zero] at h2
  have ht := tame_stable cells hcell hmat
  obtain ⟨e1, e2, -⟩ := errors_nonneg _ ht u v
  have hg := work_gap (cells.map tame) ht u v (forces u) (forces v)
    (forces_assembled _ ht.cell ht.material u) (forces_assembled _ ht.cell ht.material v)
  have hs := (errors_nonneg _ ht u v).2.2
  rw [tame_elastic] at e1 hg
  rw [tame_defect] at e2 hg
  have hle : SpecNodalWork (cells.map tame) (forces u) (u - v) - SpecNodalWork (cells.map tame) (forces v) (u - v) ≤ 0 := by
    rw [← hg]
    have hz : SpecSlipError (cells.map tame) u v = 0 := by
      unfold SpecSlipError
      rw [List.map_map]
      refine List.sum_eq_zero fun x hx => ?_
      obtain ⟨c, -, rfl⟩ := List.mem_map.1 hx
      refine sum_eq_zero fun q _ => mul_eq_zero_of_right _ (sum_eq_zero fun a _ => ?_)
      refine mul_eq_zero_of_right _ ?_
      rw [sub_eq_zero]
      exact (tame_micro c q _ _ _ a).trans (tame_micro c q _ _ _ a).symm
    linarith
  intro c hc q
  have := unique_core (cells.map tame) ht.cell ht.material ht.hardens ht.sharp u v _ _
    (forces_assembled _ ht.cell ht.material u) (forces_assembled _ ht.cell ht.material v) hle (tame c)
    (List.mem_map_of_mem hc) q
  exact ⟨this.1, this.2.1⟩

/-- C132, what the code accepts with the rate-independent law is a flow solution, with the microstresses of the law. -/
theorem C132_accepted (cells : List (MeshCell d n N)) (hcell : ∀ c ∈ cells, SpecCell c)
    (hmat : ∀ c ∈ cells, SpecMaterial c.prm) (K : Sol.Constraints ℕ) (m : ℕ) (u : ℕ → ℝ) (hu : SpecSolution cells K m u) :
    ∃ p, SpecFlowSolution cells K m u p ∧ SpecFlowRule cells u p := by
  obtain ⟨R, hR, hz⟩ := hu
  refine ⟨fun c q a => c.prm.law.evalMicrostress (c.pts q).hist ((c.pts q).shape.slip (u ∘ c.dofs)) (c.pts q).old
    c.prm.dt a, ⟨R, hR, fun r hr => ?_⟩, fun c hc q a => ⟨?_, fun _ => rfl⟩⟩
  · simp only [add_sub_cancel_right]
    exact hz r hr
  · exact C28_bounded c.prm.law (hmat c hc).k _ _ _ _ (((hcell c hc).res q a).trans
      (resistance_ge' (c.pts q).hist (by rw [(hcell c hc).hist q]; exact (hmat c hc).hard) _ _ a))

/-! ## Non-vacuity -/

theorem exSharp_cells (H f : ℝ) : ∀ c ∈ [exSharp H f], SpecCell c := by
  intro c hc; rw [List.mem_singleton] at hc; subst hc
  exact ⟨fun q => (exSoft_cell H f).primitive q, fun q => (exSoft_cell H f).weight q, fun q => (exSoft_cell H f).hist q,
    fun q a => (exSoft_cell H f).res q a⟩

theorem exSharp_materials (H f : ℝ) (h0 : 0 ≤ H) : ∀ c ∈ [exSharp H f], SpecMaterial c.prm := by
  intro c hc; rw [List.mem_singleton] at hc; subst hc
  exact { exSoft_material H f h0 with k := one_pos }

example (H f : ℝ) (h0 : 0 ≤ H) : ∃ (v : ℕ → ℝ) (p : (c : MeshCell 2 1 2) → Fin c.Q → Fin 1 → ℝ),
    SpecFlowSolution [exSharp H f] (fun _ => none) 2 v p ∧ SpecFlowRule [exSharp H f] v p ∧
    ∃ C, ∀ k, 0 < k → k ≤ 1 → (∃ u, SpecSolution ([exSharp H f].map (soften k)) (fun _ => none) 2 u) ∧
      ∀ u, SpecSolution ([exSharp H f].map (soften k)) (fun _ => none) 2 u →
        SpecElasticError [exSharp H f] u v + SpecDefectError [exSharp H f] u v ≤ C * k := by
  have hK : Homogeneous (fun _ => none) 2 := ⟨fun _ _ h => by simp at h, fun _ _ h => by simp at h, fun _ _ h => by simp at h⟩
  have hm : ∀ c ∈ [exSharp H f], ∀ i, c.dofs i < 2 := by
    intro c hc; rw [List.mem_singleton] at hc; subst hc; exact fun i => (i : Fin 2).2
  have hd : SpecDetermined [exSharp H f] (fun _ => none) 2 := exSoft_determined_any H f
  obtain ⟨v, p, -, h1, h2, C, h3⟩ := C132_limit [exSharp H f] (exSharp_cells H f) (exSharp_materials H f h0)
    (by intro c hc; rw [List.mem_singleton] at hc; subst hc
        exact Or.inr ⟨h0, one_pos, zero_le_one, le_rfl⟩)
    (by intro c hc; rw [List.mem_singleton] at hc; subst hc; rfl) (fun _ => none) 2 hK hm hd 0
  refine ⟨v, p, h1, h2, C, fun k hk hk1 => ⟨?_, fun u hu => h3 k hk hk1 u (fun _ _ h => by simp at h) hu⟩⟩
  obtain ⟨x, -, hx⟩ := C129_body ([exSharp H f].map (soften k)) (soften_cells (exSharp_cells H f) k)
    (soften_material (exSharp_materials H f h0) hk)
    (by intro c hc; obtain ⟨b, -, rfl⟩ := List.mem_map.1 hc; rfl) (fun _ => none) 2 hK (soften_dofs hm k)
    (show SpecDetermined [exSharp H f] _ 2 from hd) 0
  exact ⟨x, hx⟩

end Verif.Asm
