import Verif.Props.Existence

/-!
# Forces of a body grow outwards, whatever its hardening: helpers of C129
-/

namespace Verif.Asm
open Matrix Finset Verif.Cry Verif.Hist Verif.Micro Verif.Lin Verif.Mono

variable {d n N : ℕ}

/-! ## Functions that grow at most linearly -/

/-- The function grows at most linearly. -/
def Grows {E : Type*} [NormedAddCommGroup E] (f : E → ℝ) : Prop := ∃ C, 0 ≤ C ∧ ∀ w, |f w| ≤ C * (1 + ‖w‖)

section
variable {E : Type*} [NormedAddCommGroup E]

theorem Grows.const (c : ℝ) : Grows fun _ : E => c :=
  ⟨|c|, abs_nonneg _, fun w => le_mul_of_one_le_right (abs_nonneg _) (by have := norm_nonneg w; linarith)⟩

theorem Grows.add {f g : E → ℝ} (hf : Grows f) (hg : Grows g) : Grows fun w => f w + g w := by
  obtain ⟨C, h0, hC⟩ := hf
  obtain ⟨D, h1, hD⟩ := hg
  refine ⟨C + D, by positivity, fun w => (abs_add_le _ _).trans ?_⟩
  rw [add_mul]
  exact add_le_add (hC w) (hD w)

theorem Grows.mono {f g : E → ℝ} (hf : Grows f) (h : ∀ w, |g w| ≤ |f w|) : Grows g := by
  obtain ⟨C, h0, hC⟩ := hf
  exact ⟨C, h0, fun w => (h w).trans (hC w)⟩

theorem Grows.neg {f : E → ℝ} (hf : Grows f) : Grows fun w => -f w := hf.mono fun w => by rw [abs_neg]

theorem Grows.abs {f : E → ℝ} (hf : Grows f) : Grows fun w => |f w| := hf.mono fun w => by rw [abs_abs]

theorem Grows.sub {f g : E → ℝ} (hf : Grows f) (hg : Grows g) : Grows fun w => f w - g w := by
  simp only [sub_eq_add_neg]; exact hf.add hg.neg

theorem Grows.cmul {f : E → ℝ} (c : ℝ) (hf : Grows f) : Grows fun w => c * f w := by
  obtain ⟨C, h0, hC⟩ := hf
  refine ⟨|c| * C, by positivity, fun w => ?_⟩
  rw [abs_mul, mul_assoc]
  exact mul_le_mul_of_nonneg_left (hC w) (abs_nonneg _)

theorem Grows.mulc {f : E → ℝ} (c : ℝ) (hf : Grows f) : Grows fun w => f w * c := by
  simp only [mul_comm _ c]; exact hf.cmul c

theorem Grows.finsum {ι : Type*} (s : Finset ι) {f : ι → E → ℝ} (h : ∀ i ∈ s, Grows (f i)) :
    Grows fun w => ∑ i ∈ s, f i w := by
  classical
  induction s using Finset.induction_on with
  | empty => simpa using Grows.const (0 : ℝ)
  | insert a s ha ih =>
    have := (h a (Finset.mem_insert_self a s)).add (ih fun i hi => h i (Finset.mem_insert_of_mem hi))
    simpa [Finset.sum_insert ha] using this

theorem Grows.listsum {ι : Type*} (l : List ι) {f : ι → E → ℝ} (h : ∀ i ∈ l, Grows (f i)) :
    Grows fun w => (l.map fun i => f i w).sum := by
  induction l with
  | nil => simpa using Grows.const (0 : ℝ)
  | cons a l ih =>
    have := (h a List.mem_cons_self).add (ih fun i hi => h i (List.mem_cons_of_mem _ hi))
    simpa using this

theorem Grows.linear [NormedSpace ℝ E] {f : E → ℝ} (hf : LL f) (h : ∀ (t : ℝ) w, f (t • w) = t * f w) : Grows f := by
  obtain ⟨B, h0, hB⟩ := hf.bounded 1
  refine ⟨B, h0, fun w => ?_⟩
  by_cases hw : w = 0
  · have : f w = 0 := by
      have := h 0 w
      rwa [zero_smul, zero_mul, ← hw] at this
    rw [this, abs_zero]
    positivity
  · have hn : 0 < ‖w‖ := norm_pos_iff.2 hw
    have e : f w = ‖w‖ * f (‖w‖⁻¹ • w) := by rw [← h, smul_smul, mul_inv_cancel₀ hn.ne', one_smul]
    have h1 := hB (‖w‖⁻¹ • w) (by rw [norm_smul, norm_inv, norm_norm, inv_mul_cancel₀ hn.ne'])
    rw [Real.norm_eq_abs] at h1
    rw [e, abs_mul, abs_of_pos hn]
    have := mul_le_mul_of_nonneg_left h1 hn.le
    nlinarith

end

/-! ## The states -/

section
variable {K : Sol.Constraints ℕ} {m : ℕ}

theorem distribute_grows (hK : Homogeneous K m) {g : ℕ} (hg : g < m) :
    Grows fun w : EuclideanSpace ℝ (Fin m) => Sol.distribute K (ext w) g :=
  Grows.linear (distribute_ll hK hg) fun t w => by rw [ext_smul, distribute_smul hK]; rfl

theorem state_grows (hK : Homogeneous K m) (x₀ : ℕ → ℝ) {g : ℕ} (hg : g < m) :
    Grows fun w : EuclideanSpace ℝ (Fin m) => state K x₀ w g :=
  (Grows.const (x₀ g)).add (distribute_grows hK hg)

theorem slip_grows (hK : Homogeneous K m) (x₀ : ℕ → ℝ) {dofs : Fin N → ℕ} (hm : ∀ i, dofs i < m) (s : Shape d n N)
    (a : Fin n) : Grows fun w : EuclideanSpace ℝ (Fin m) => s.slip (state K x₀ w ∘ dofs) a := by
  unfold Shape.slip
  exact Grows.finsum _ fun j _ => (state_grows hK x₀ (hm j)).mulc _

theorem res_grows {E : Type*} [NormedAddCommGroup E] (b : Bulk n) (old : Fin n → ℝ) {γ : E → Fin n → ℝ}
    (hg : ∀ a, Grows fun x => γ x a) (a : Fin n) : Grows fun x => (b.update (γ x) old).res a := by
  rcases hp : b.prm.perfect with _ | _
  · simp only [C17_hardening_law _ _ _ a hp]
    exact (Grows.const _).add (Grows.finsum _ fun c _ => Grows.cmul _ (((hg c).sub (Grows.const _)).abs))
  · simp only [C17_perfect _ _ _ hp]
    exact Grows.const _

end

/-! ## The body without resistance -/

/-- The cell with a material that resists slip by nothing but its defect energy. -/
def tame (c : MeshCell d n N) : MeshCell d n N :=
  ⟨{ c.prm with law := ⟨.sqrt, 1, false, { c.prm.law.hard with perfect := true }⟩ }, c.kind, c.dofs, c.Q,
    fun q => { c.pts q with hist := ⟨{ c.prm.law.hard with perfect := true }, fun _ => 0, fun _ => 0⟩ }⟩

theorem tame_stable (cells : List (MeshCell d n N)) (hcell : ∀ c ∈ cells, SpecCell c)
    (hmat : ∀ c ∈ cells, SpecMaterial c.prm) : SpecStableBody (cells.map tame) := by
  constructor <;> intro t ht <;> obtain ⟨c, hc, rfl⟩ := List.mem_map.1 ht
  · exact ⟨fun q => (hcell c hc).primitive q, fun q => (hcell c hc).weight q, fun q => rfl, fun q a => le_rfl⟩
  · exact { hmat c hc with hard := Or.inl rfl, k := one_pos }
  · exact Or.inl rfl
  · intro q a
    unfold SpecLatent
    rw [if_pos (Or.inl (show (tame c).prm.law.hard.perfect = true from rfl))]
    exact le_rfl

theorem tame_micro (c : MeshCell d n N) (q : Fin c.Q) (γ old : Fin n → ℝ) (dt : ℝ) (a : Fin n) :
    (tame c).prm.law.evalMicrostress ((tame c).pts q).hist γ old dt a = 0 := by
  have e : (((tame c).pts q).hist.update γ old).res a = 0 := by
    rw [C17_perfect _ _ _ (show ((tame c).pts q).hist.prm.perfect = true from rfl)]
    rfl
  unfold Law.evalMicrostress
  rw [e]
  unfold Law.microstress
  simp

theorem tame_elastic (cells : List (MeshCell d n N)) (u v : ℕ → ℝ) :
    SpecElasticError (cells.map tame) u v = SpecElasticError cells u v := by
  unfold SpecElasticError
  rw [List.map_map]
  rfl

theorem tame_defect (cells : List (MeshCell d n N)) (u v : ℕ → ℝ) :
    SpecDefectError (cells.map tame) u v = SpecDefectError cells u v := by
  unfold SpecDefectError
  rw [List.map_map]
  rfl

/-- Work of the microstresses of the state `u` on the slips that lead to it from `v`. -/
noncomputable def slipWork (cells : List (MeshCell d n N)) (u v : ℕ → ℝ) : ℝ :=
  (cells.map fun c => ∑ q, (c.pts q).shape.jxw * ∑ a,
    ((c.pts q).shape.slip (u ∘ c.dofs) a - (c.pts q).shape.slip (v ∘ c.dofs) a) *
      c.prm.law.evalMicrostress (c.pts q).hist ((c.pts q).shape.slip (u ∘ c.dofs)) (c.pts q).old c.prm.dt a).sum

theorem forces_assembled (cells : List (MeshCell d n N)) (hcell : ∀ c ∈ cells, SpecCell c)
    (hmat : ∀ c ∈ cells, SpecMaterial c.prm) (u : ℕ → ℝ) : SpecAssembled cells u (forces u) := by
  intro c hc i
  choose r hr _ using fun q => point_power c.prm (hmat c hc).index (hmat c hc).dn0.ne' c.kind
    (c.pts q) ((hcell c hc).primitive q) (u ∘ c.dofs)
  have := sumOpt_some (fun q : Fin c.Q => c.prm.rhsTerm c.kind (c.pts q) (u ∘ c.dofs) i) (fun q => r q i)
    fun q => hr q i
  have e : c.prm.rhs c.kind c.pts (u ∘ c.dofs) i = some (∑ q, r q i) := this
  unfold forces
  rw [e]; rfl

theorem tame_work (cells : List (MeshCell d n N)) (hcell : ∀ c ∈ cells, SpecCell c)
    (hmat : ∀ c ∈ cells, SpecMaterial c.prm) (u v : ℕ → ℝ) :
    SpecNodalWork cells (forces u) (u - v) =
      SpecNodalWork (cells.map tame) (forces u) (u - v) + slipWork cells u v := by
  unfold SpecNodalWork slipWork
  rw [List.map_map, ← List.sum_map_add]
  congr 1
  refine List.map_congr_left fun c hc => ?_
  have hs := hmat c hc
  have p1 := cell_power c.prm hs.index hs.dn0.ne' c.kind c.pts (hcell c hc).primitive (u ∘ c.dofs)
    (forces u c) (forces_assembled cells hcell hmat u c hc) ((u - v) ∘ c.dofs)
  have ht := tame_stable cells hcell hmat
  have hm : tame c ∈ cells.map tame := List.mem_map.2 ⟨c, hc, rfl⟩
  have p2 := cell_power (tame c).prm hs.index hs.dn0.ne' c.kind (tame c).pts (hcell c hc).primitive (u ∘ c.dofs)
    (forces u (tame c)) (fun i => forces_assembled _ ht.cell ht.material u (tame c) hm i) ((u - v) ∘ c.dofs)
  simp only [Function.comp_apply] at p1 p2 ⊢
  have e : ∑ i, (u - v) ((tame c).dofs i) * -forces u (tame c) i = ∑ i, (u - v) (c.dofs i) * -forces u (tame c) i := rfl
  rw [e, p1, p2]
  have add : ∀ X Y Z : Fin c.Q → ℝ, (∀ q, X q = Y q + Z q) → ∑ q, X q = ∑ q, Y q + ∑ q, Z q := fun X Y Z h => by
    rw [← sum_add_distrib]; exact sum_congr rfl fun q _ => h q
  refine add _ _ _ fun q => ?_
  have z : ∀ γ old dt a, (tame c).prm.law.evalMicrostress ((tame c).pts q).hist γ old dt a = 0 := fun γ old dt a =>
    tame_micro c q γ old dt a
  simp only [z, mul_zero, sum_const_zero, add_zero]
  have hd : (u - v) ∘ c.dofs = u ∘ c.dofs - v ∘ c.dofs := rfl
  rw [hd]
  simp only [slip_sub]
  show _ = (c.pts q).shape.jxw * (c.prm.dn3 / c.prm.dn0 *
        (ddot (SpecElasticStrain c.prm (c.pts q).shape (u ∘ c.dofs - v ∘ c.dofs))
            (c.prm.stressAt (c.pts q).shape (u ∘ c.dofs)) -
          (c.pts q).shape.displacement (u ∘ c.dofs - v ∘ c.dofs) ⬝ᵥ (c.pts q).supply) +
        c.prm.dn2 * ∑ a, (c.pts q).shape.slipGrad (u ∘ c.dofs - v ∘ c.dofs) a ⬝ᵥ
          xi c.prm.vec (c.prm.sys a) ((c.pts q).shape.slipGrad (u ∘ c.dofs) a)) + _
  ring

/-- Work of the slip resistances on the slips before the step. -/
noncomputable def slipCost (cells : List (MeshCell d n N)) (u v : ℕ → ℝ) : ℝ :=
  (cells.map fun c => ∑ q, (c.pts q).shape.jxw * ∑ a,
    |(c.pts q).old a - (c.pts q).shape.slip (v ∘ c.dofs) a| *
      ((c.pts q).hist.update ((c.pts q).shape.slip (u ∘ c.dofs)) (c.pts q).old).res a).sum

theorem slipCost_grows (cells : List (MeshCell d n N)) {K : Sol.Constraints ℕ} {m : ℕ}
    (hK : Homogeneous K m) (hm : ∀ c ∈ cells, ∀ i, c.dofs i < m) (x₀ : ℕ → ℝ) :
    Grows fun w : EuclideanSpace ℝ (Fin m) => slipCost cells (state K x₀ w) x₀ :=
  Grows.listsum cells fun c hc => Grows.finsum _ fun q _ => Grows.cmul _ (Grows.finsum _ fun a _ =>
    Grows.cmul _ (res_grows _ _ (fun b => slip_grows hK x₀ (hm c hc) _ b) a))

/-- The microstresses take energy from the slips, but for what the slips before the step cost. -/
theorem slipWork_cost (cells : List (MeshCell d n N)) (hcell : ∀ c ∈ cells, SpecCell c)
    (hmat : ∀ c ∈ cells, SpecMaterial c.prm) (u v : ℕ → ℝ) : -slipCost cells u v ≤ slipWork cells u v := by
  unfold slipCost
  rw [← neg_one_mul, ← List.sum_map_mul_left]
  unfold slipWork
  refine List.sum_le_sum fun c hc => ?_
  rw [neg_one_mul, ← sum_neg_distrib]
  refine sum_le_sum fun q _ => ?_
  rw [← mul_neg, ← sum_neg_distrib]
  refine mul_le_mul_of_nonneg_left (sum_le_sum fun a _ => ?_) ((hcell c hc).weight q).le
  have hs := hmat c hc
  have hres : 0 ≤ ((c.pts q).hist.update ((c.pts q).shape.slip (u ∘ c.dofs)) (c.pts q).old).res a :=
    ((hcell c hc).res q a).trans (resistance_ge' (c.pts q).hist (by rw [(hcell c hc).hist q]; exact hs.hard) _ _ a)
  have h1 := C28_dissipative c.prm.law hs.k ((c.pts q).shape.slip (u ∘ c.dofs) a) ((c.pts q).old a) _ _
    hres hs.dt
  have h2 := C28_bounded c.prm.law hs.k ((c.pts q).shape.slip (u ∘ c.dofs) a) ((c.pts q).old a) _ c.prm.dt hres
  unfold Law.evalMicrostress
  set μ := c.prm.law.microstress ((c.pts q).shape.slip (u ∘ c.dofs) a) ((c.pts q).old a)
    (((c.pts q).hist.update ((c.pts q).shape.slip (u ∘ c.dofs)) (c.pts q).old).res a) c.prm.dt
  have h3 := neg_le_of_abs_le (le_of_eq (abs_mul ((c.pts q).old a - (c.pts q).shape.slip (v ∘ c.dofs) a) μ))
  have h4 := mul_le_mul_of_nonneg_left h2 (abs_nonneg ((c.pts q).old a - (c.pts q).shape.slip (v ∘ c.dofs) a))
  nlinarith

theorem slipWork_lower (cells : List (MeshCell d n N)) (hcell : ∀ c ∈ cells, SpecCell c)
    (hmat : ∀ c ∈ cells, SpecMaterial c.prm) {K : Sol.Constraints ℕ} {m : ℕ}
    (hK : Homogeneous K m) (hm : ∀ c ∈ cells, ∀ i, c.dofs i < m) (x₀ : ℕ → ℝ) :
    ∃ C, 0 ≤ C ∧ ∀ w : EuclideanSpace ℝ (Fin m), -(C * (1 + ‖w‖)) ≤ slipWork cells (state K x₀ w) x₀ := by
  obtain ⟨C, h0, hC⟩ := slipCost_grows cells hK hm x₀
  exact ⟨C, h0, fun w => (neg_le_neg ((le_abs_self _).trans (hC w))).trans (slipWork_cost cells hcell hmat _ _)⟩

/-- Far out the forces of the body point outwards. -/
theorem body_outward (cells : List (MeshCell d n N)) (hcell : ∀ c ∈ cells, SpecCell c)
    (hmat : ∀ c ∈ cells, SpecMaterial c.prm) {K : Sol.Constraints ℕ} {m : ℕ}
    (hK : Homogeneous K m) (hm : ∀ c ∈ cells, ∀ i, c.dofs i < m) (hdet : SpecDetermined cells K m) (x₀ : ℕ → ℝ) :
    ∃ a, 0 < a ∧ ∃ C, 0 ≤ C ∧ ∀ w : EuclideanSpace ℝ (Fin m), 1 ≤ ‖w‖ →
      a * ‖w‖ ^ 2 - C * (1 + ‖w‖) ≤
        SpecNodalWork cells (forces (state K x₀ w)) (state K x₀ w - x₀) + pinned K w := by
  have h := tame_stable cells hcell hmat
  have hm' : ∀ c ∈ cells.map tame, ∀ i, c.dofs i < m := by
    intro t ht i
    obtain ⟨c, hc, rfl⟩ := List.mem_map.1 ht
    exact hm c hc i
  have hdet' : SpecDetermined (cells.map tame) K m := fun w hw he => hdet w hw (by rwa [tame_elastic, tame_defect] at he)
  obtain ⟨s, hs0, hs1, hs⟩ := defect_lower _ h
  obtain ⟨μ, hμ0, hμ⟩ := potential_grows _ h hK hm' hdet'
  obtain ⟨C, hC0, hC⟩ := slipWork_lower cells hcell hmat hK hm x₀
  set F := theMap (cells.map tame) K x₀ (m := m) with hF
  refine ⟨s * μ, by positivity, C + ‖F 0‖, by positivity, fun w hw => ?_⟩
  have lower : s * μ * ‖w‖ ^ 2 ≤ inner ℝ (F w - F 0) w := by
    have h1 := map_inner _ h hK hm' x₀ w 0
    rw [sub_zero] at h1
    rw [hF, h1]
    obtain ⟨e1, e2, e3⟩ := errors_nonneg _ h (state K x₀ w) (state K x₀ (0 : EuclideanSpace ℝ (Fin m)))
    have h2 := hs (state K x₀ w) (state K x₀ (0 : EuclideanSpace ℝ (Fin m)))
    rw [elastic_shift] at e1 ⊢
    rw [state_sub hK, sub_zero] at h2 e1 ⊢
    have h3 := hμ w hw
    unfold potential at h3
    have h4 := pinned_nonneg K w
    have h5 := mul_le_mul_of_nonneg_left h3 hs0.le
    nlinarith
  have e0 : state K x₀ w - x₀ = Sol.distribute K (ext w) := by unfold state; rw [add_sub_cancel_left]
  have hsat : Sol.Satisfies K (state K x₀ w - x₀) := by rw [e0]; exact Sol.distribute_satisfies hK.closed _
  have hin : inner ℝ (F w) w =
      SpecNodalWork (cells.map tame) (forces (state K x₀ w)) (state K x₀ w - x₀) + pinned K w := by
    rw [work_residual _ hK hm' hsat (r := rowOf (cells.map tame) K x₀ w) (fun g _ => rfl), PiLp.inner_apply, sum_range]
    unfold pinned
    rw [neg_add_eq_sub, ← sum_sub_distrib]
    refine sum_congr rfl fun r _ => ?_
    rw [e0]
    simp only [hF, theMap, RCLike.inner_apply, conj_trivial]
    cases hk : K r with
    | none =>
      rw [Sol.distribute_free hk, ext_fin]
      simp
    | some l =>
      have e : rowOf (cells.map tame) K x₀ w r = 0 := residual_constrained hK _ (by rw [hk]; simp)
      rw [e]
      simp
      ring
  rw [tame_work cells hcell hmat]
  have h1 := hC w
  rw [inner_sub_left, hin] at lower
  have h2 := neg_le_of_abs_le (abs_real_inner_le_norm (F 0) w)
  have h3 := norm_nonneg (F 0)
  nlinarith

end Verif.Asm
