import Verif.Props.EnergyRun
import Verif.Props.Existence

/-!
# A whole run is determined by its input, and the tolerance controls its error: C119
-/

namespace Verif.Asm
open Matrix Finset Verif.Cry Verif.Hist Verif.Micro Verif.Lin Verif.Mono

variable {d n N : ℕ}

/-! ## Specification -/

/-- What the body, the mesh and the time steps have to meet (C84), stated for the material before the first step. -/
structure SpecStableRun (run : List (RunCell d n N)) (dt : ℕ → ℝ) (K : Sol.Constraints ℕ) (m : ℕ) : Prop where
  cell : ∀ r ∈ run, SpecCell r.cell
  material : ∀ r ∈ run, SpecMaterial r.cell.prm
  hardens : ∀ r ∈ run, SpecHardens r.cell.prm.law.hard
  rate : ∀ r ∈ run, r.cell.prm.law.rateIndependent = false
  step : ∀ k, 0 < dt k
  sharp : ∀ r ∈ run, ∀ q a k, SpecLatent r.cell.prm.law n (dt k) ≤ (r.cell.pts q).hist.tmp a
  homogeneous : Homogeneous K m
  dofs : ∀ r ∈ run, ∀ i, r.cell.dofs i < m
  determined : SpecDetermined (run.map RunCell.cell) K m

/-- The states `u 0, u 1, …` are a run: step `k` fulfils the boundary values of `B k`, and all equations with the history
of the preceding states. -/
def SpecRun (run : List (RunCell d n N)) (dt : ℕ → ℝ) (K : Sol.Constraints ℕ) (m : ℕ) (B u : ℕ → ℕ → ℝ) : Prop :=
  ∀ k, Sol.Satisfies K (u (k + 1) - B k) ∧ SpecSolution (SpecMesh run dt u k) K m (u (k + 1))

/-- As before, but the equations are only met up to the tolerance, for `T` steps. -/
def SpecComputed (run : List (RunCell d n N)) (dt : ℕ → ℝ) (K : Sol.Constraints ℕ) (m : ℕ) (B : ℕ → ℕ → ℝ)
    (tol : ℝ) (T : ℕ) (v : ℕ → ℕ → ℝ) : Prop :=
  ∀ k < T, Sol.Satisfies K (v (k + 1) - B k) ∧
    ∃ r, SpecResidualVector (SpecMesh run dt v k) K m (v (k + 1)) r ∧ SpecLength m r ≤ tol

/-! ## Helpers: the mesh of a step -/

theorem hist_congr (r : RunCell d n N) {u v : ℕ → ℕ → ℝ} (q : Fin r.cell.Q) (k : ℕ)
    (h : ∀ j ≤ k, ∀ i, u j (r.cell.dofs i) = v j (r.cell.dofs i)) : r.histAt u q k = r.histAt v q k := by
  induction k with
  | zero => rfl
  | succ k ih =>
    have e : ∀ j ≤ k + 1, u j ∘ r.cell.dofs = v j ∘ r.cell.dofs := fun j hj => funext fun i => h j hj i
    unfold RunCell.histAt
    rw [ih fun j hj => h j (by omega), e k (by omega), e (k + 1) le_rfl]

theorem at_congr (r : RunCell d n N) (dt : ℕ → ℝ) {u v : ℕ → ℕ → ℝ} (k : ℕ)
    (h : ∀ j ≤ k, ∀ i, u j (r.cell.dofs i) = v j (r.cell.dofs i)) : r.at dt u k = r.at dt v k := by
  have e : u k ∘ r.cell.dofs = v k ∘ r.cell.dofs := funext fun i => h k le_rfl i
  unfold RunCell.at
  rw [e]
  congr 1
  funext q
  rw [hist_congr r q k h]

theorem mesh_congr (run : List (RunCell d n N)) (dt : ℕ → ℝ) {m : ℕ} (hm : ∀ r ∈ run, ∀ i, r.cell.dofs i < m)
    {u v : ℕ → ℕ → ℝ} (k : ℕ) (h : ∀ j ≤ k, ∀ g < m, u j g = v j g) : SpecMesh run dt u k = SpecMesh run dt v k :=
  List.map_congr_left fun r hr => at_congr r dt k fun j hj i => h j hj _ (hm r hr i)

theorem hist_ge (r : RunCell d n N) (hc : SpecCell r.cell) (hm : SpecMaterial r.cell.prm) (u : ℕ → ℕ → ℝ)
    (q : Fin r.cell.Q) (k : ℕ) (a : Fin n) : (r.cell.pts q).hist.tmp a ≤ (r.histAt u q k).tmp a := by
  induction k with
  | zero => exact le_rfl
  | succ k ih =>
    refine ih.trans (resistance_ge' _ ?_ _ _ a)
    rw [(hist_ok r hc hm u q k).1]
    exact hm.hard

theorem mesh_stable {run : List (RunCell d n N)} {dt : ℕ → ℝ} {K : Sol.Constraints ℕ} {m : ℕ}
    (h : SpecStableRun run dt K m) (u : ℕ → ℕ → ℝ) (k : ℕ) : SpecStableBody (SpecMesh run dt u k) := by
  constructor <;> intro c hc <;> obtain ⟨r, hr, rfl⟩ := List.mem_map.1 hc
  · exact at_ok r (h.cell r hr) (h.material r hr) dt u k
  · exact at_material r (h.material r hr) dt u k (h.step k)
  · exact h.hardens r hr
  · intro q a
    exact (h.sharp r hr q a k).trans (hist_ge r (h.cell r hr) (h.material r hr) u q k a)

theorem mesh_rate {run : List (RunCell d n N)} {dt : ℕ → ℝ} {K : Sol.Constraints ℕ} {m : ℕ}
    (h : SpecStableRun run dt K m) (u : ℕ → ℕ → ℝ) (k : ℕ) :
    ∀ c ∈ SpecMesh run dt u k, c.prm.law.rateIndependent = false := by
  intro c hc
  obtain ⟨r, hr, rfl⟩ := List.mem_map.1 hc
  exact h.rate r hr

theorem mesh_dofs {run : List (RunCell d n N)} {dt : ℕ → ℝ} {K : Sol.Constraints ℕ} {m : ℕ}
    (h : SpecStableRun run dt K m) (u : ℕ → ℕ → ℝ) (k : ℕ) : ∀ c ∈ SpecMesh run dt u k, ∀ i, c.dofs i < m := by
  intro c hc
  obtain ⟨r, hr, rfl⟩ := List.mem_map.1 hc
  exact h.dofs r hr

theorem mesh_elastic (run : List (RunCell d n N)) (dt : ℕ → ℝ) (u : ℕ → ℕ → ℝ) (k : ℕ) (w w' : ℕ → ℝ) :
    SpecElasticError (SpecMesh run dt u k) w w' = SpecElasticError (run.map RunCell.cell) w w' := by
  unfold SpecElasticError SpecMesh
  rw [List.map_map, List.map_map]
  rfl

theorem mesh_defect (run : List (RunCell d n N)) (dt : ℕ → ℝ) (u : ℕ → ℕ → ℝ) (k : ℕ) (w w' : ℕ → ℝ) :
    SpecDefectError (SpecMesh run dt u k) w w' = SpecDefectError (run.map RunCell.cell) w w' := by
  unfold SpecDefectError SpecMesh
  rw [List.map_map, List.map_map]
  rfl

theorem mesh_determined {run : List (RunCell d n N)} {dt : ℕ → ℝ} {K : Sol.Constraints ℕ} {m : ℕ}
    (h : SpecStableRun run dt K m) (u : ℕ → ℕ → ℝ) (k : ℕ) : SpecDetermined (SpecMesh run dt u k) K m := by
  intro w hw he
  rw [mesh_elastic, mesh_defect] at he
  exact h.determined w hw he

/-! ## Property: existence and uniqueness -/

/-- C119: for every start state, all boundary values, loads and time steps there is a run. -/
theorem C119_exists (run : List (RunCell d n N)) (dt : ℕ → ℝ) (K : Sol.Constraints ℕ) (m : ℕ)
    (h : SpecStableRun run dt K m) (B : ℕ → ℕ → ℝ) (u₀ : ℕ → ℝ) :
    ∃ u, u 0 = u₀ ∧ SpecRun run dt K m B u := by
  have hex : ∀ (u : ℕ → ℕ → ℝ) (k : ℕ), ∃ x, Sol.Satisfies K (x - B k) ∧ SpecSolution (SpecMesh run dt u k) K m x :=
    fun u k => C118_exists _ (mesh_stable h u k) (mesh_rate h u k) K m h.homogeneous (mesh_dofs h u k)
      (mesh_determined h u k) (B k)
  choose S h1 h2 using hex
  let P : ℕ → ℕ → ℕ → ℝ := fun k => Nat.rec (fun _ => u₀) (fun k p => Function.update p (k + 1) (S p k)) k
  have hP : ∀ k, P (k + 1) = Function.update (P k) (k + 1) (S (P k) k) := fun _ => rfl
  have hle : ∀ k i j, i ≤ j → P (j + k) i = P j i := by
    intro k i j hij
    induction k with
    | zero => rfl
    | succ k ih => rw [← add_assoc, hP, Function.update_of_ne (by omega), ih]
  refine ⟨fun k => P k k, rfl, fun k => ?_⟩
  have e : SpecMesh run dt (fun k => P k k) k = SpecMesh run dt (P k) k := by
    refine mesh_congr run dt h.dofs k fun j hj g _ => ?_
    have := hle (k - j) j j le_rfl
    rw [Nat.add_sub_cancel' hj] at this
    rw [this]
  have e2 : P (k + 1) (k + 1) = S (P k) k := by rw [hP, Function.update_self]
  show Sol.Satisfies K (P (k + 1) (k + 1) - B k) ∧ SpecSolution (SpecMesh run dt (fun k => P k k) k) K m (P (k + 1) (k + 1))
  rw [e, e2]
  exact ⟨h1 _ _, h2 _ _⟩

theorem satisfies_sub {K : Sol.Constraints ℕ} {m : ℕ} (hK : Homogeneous K m) {x y : ℕ → ℝ}
    (hx : Sol.Satisfies K x) (hy : Sol.Satisfies K y) : Sol.Satisfies K (x - y) := by
  have := Sol.distribute_satisfies hK.closed (x - y)
  rwa [distribute_sub hK, Sol.distribute_of_satisfies hx, Sol.distribute_of_satisfies hy] at this

/-- C119: and only one; runs that start with the same nodal values have the same nodal values at all times. -/
theorem C119_unique (run : List (RunCell d n N)) (dt : ℕ → ℝ) (K : Sol.Constraints ℕ) (m : ℕ)
    (h : SpecStableRun run dt K m) (B u v : ℕ → ℕ → ℝ) (h0 : ∀ g < m, u 0 g = v 0 g)
    (hu : SpecRun run dt K m B u) (hv : SpecRun run dt K m B v) : ∀ k, ∀ g < m, u k g = v k g := by
  have key : ∀ k, ∀ j ≤ k, ∀ g < m, u j g = v j g := by
    intro k
    induction k with
    | zero =>
      intro j hj
      obtain rfl : j = 0 := by omega
      exact h0
    | succ k ih =>
      intro j hj
      rcases Nat.lt_or_ge j (k + 1) with hjk | hjk
      · exact ih j (by omega)
      · obtain rfl : j = k + 1 := by omega
        have e := mesh_congr run dt h.dofs k ih
        obtain ⟨a1, a2⟩ := hu k
        obtain ⟨b1, b2⟩ := hv k
        rw [← e] at b2
        refine C118_unique _ (mesh_stable h u k) K m h.homogeneous (mesh_dofs h u k) (mesh_determined h u k) _ _ a2 b2 ?_
        have := satisfies_sub h.homogeneous a1 b1
        rwa [sub_sub_sub_cancel_right] at this
  exact fun k => key k k le_rfl

/-! ## Helpers: the equations depend continuously on the history -/

section
variable {E : Type*} [NormedAddCommGroup E]

theorem hist_prm (r : RunCell d n N) (u : ℕ → ℕ → ℝ) (q : Fin r.cell.Q) (k : ℕ) :
    (r.histAt u q k).prm = (r.cell.pts q).hist.prm := by
  induction k with
  | zero => rfl
  | succ k ih => exact (update_prm _ _ _).trans ih

/-- Resistances of a varying history. -/
theorem res_ll2 (b : E → Bulk n) (P : Hardening) (hb : ∀ x, (b x).prm = P) {γ old : E → Fin n → ℝ}
    (ht : ∀ a, LL fun x => (b x).tmp a) (hg : ∀ a, LL fun x => γ x a) (ho : ∀ a, LL fun x => old x a) (a : Fin n) :
    LL fun x => ((b x).update (γ x) (old x)).res a := by
  rcases hp : P.perfect with _ | _
  · have e : ∀ x, ((b x).update (γ x) (old x)).res a = (b x).tmp a + ∑ c, P.modulus / P.characteristic *
        (P.parameter + (1 - P.parameter) * (if a = c then 1 else 0)) * |γ x c - old x c| := fun x => by
      rw [C17_hardening_law _ _ _ a (by rw [hb]; exact hp), hb]
    simp only [e]
    exact (ht a).add (LL.finsum _ fun c _ => LL.cmul _ (((hg c).sub (ho c)).abs))
  · have e : ∀ x, ((b x).update (γ x) (old x)).res a = (b x).tmp a := fun x => by
      rw [C17_perfect _ _ _ (by rw [hb]; exact hp)]
    simp only [e]
    exact ht a

theorem hist_ll (r : RunCell d n N) {V : E → ℕ → ℕ → ℝ} (q : Fin r.cell.Q) (k : ℕ)
    (h : ∀ j ≤ k, ∀ i, LL fun x => V x j (r.cell.dofs i)) (a : Fin n) : LL fun x => (r.histAt (V x) q k).tmp a := by
  induction k generalizing a with
  | zero =>
    show LL fun _ : E => (r.cell.pts q).hist.tmp a
    exact LL.const _
  | succ k ih =>
    exact res_ll2 (fun x => r.histAt (V x) q k) _ (fun x => hist_prm r (V x) q k) (ih fun j hj => h j (by omega))
      (slip_ll _ (u := fun x => V x (k + 1) ∘ r.cell.dofs) fun i => h (k + 1) le_rfl i)
      (slip_ll _ (u := fun x => V x k ∘ r.cell.dofs) fun i => h k (by omega) i) a

theorem micro_ll2 (l : Law) (hk : 0 < l.k) (hr : l.rateIndependent = false) (b : E → Bulk n) (P : Hardening)
    (hb : ∀ x, (b x).prm = P) {γ old : E → Fin n → ℝ} (dt : ℝ) (ht : ∀ a, LL fun x => (b x).tmp a)
    (hg : ∀ a, LL fun x => γ x a) (ho : ∀ a, LL fun x => old x a) (a : Fin n) :
    LL fun x => l.evalMicrostress (b x) (γ x) (old x) dt a := by
  have e : ∀ x, l.evalMicrostress (b x) (γ x) (old x) dt a =
      ((b x).update (γ x) (old x)).res a * reg l.f l.k ((γ x a - old x a) * dt⁻¹) := by
    intro x
    simp [Law.evalMicrostress, Law.microstress, hr, div_eq_mul_inv]
  simp only [e]
  exact (res_ll2 b P hb ht hg ho a).mul (LL.comp (reg_ll l.f hk) (((hg a).sub (ho a)).mulc _))

theorem run_term_ll (r : RunCell d n N) (hc : SpecMaterial r.cell.prm) (hr : r.cell.prm.law.rateIndependent = false)
    (dt : ℕ → ℝ) {V : E → ℕ → ℕ → ℝ} {Z : E → ℕ → ℝ} (k : ℕ)
    (h : ∀ j ≤ k, ∀ i, LL fun x => V x j (r.cell.dofs i)) (hz : ∀ i, LL fun x => Z x (r.cell.dofs i))
    (q : Fin r.cell.Q) (i : Fin N) :
    ∃ R : E → ℝ, (∀ x, (r.at dt (V x) k).prm.rhsTerm r.cell.kind ((r.at dt (V x) k).pts q) (Z x ∘ r.cell.dofs) i =
      some (R x)) ∧ LL R := by
  set s := (r.cell.pts q).shape with hsdef
  have hu : ∀ j, LL fun x => (Z x ∘ r.cell.dofs) j := hz
  have hs := stress_ll (u := fun x => Z x ∘ r.cell.dofs) r.cell.prm s
  rcases hi : r.cell.kind i with _ | a
  · refine ⟨fun x => -(r.cell.prm.dn3 / r.cell.prm.dn0 * (ddot (s.symGrad i) (r.cell.prm.stressAt s (Z x ∘ r.cell.dofs)) -
      s.disp i ⬝ᵥ r.supply k q) * s.jxw), ?_, ?_⟩
    · intro x; unfold CellPrm.rhsTerm; simp only [hi]; rfl
    · exact (LL.mulc _ (LL.cmul _ ((hs _ hu).sub (LL.const _)))).neg
  · refine ⟨fun x => -((r.cell.prm.dn2 * (s.grad a i ⬝ᵥ xi r.cell.prm.vec (r.cell.prm.sys a)
          (s.slipGrad (Z x ∘ r.cell.dofs) a)) -
        s.phi a i * (r.cell.prm.dn3 * ddot (r.cell.prm.sys a).symSchmid (r.cell.prm.stressAt s (Z x ∘ r.cell.dofs)) -
          r.cell.prm.law.evalMicrostress (r.histAt (V x) q k) (s.slip (Z x ∘ r.cell.dofs))
            (s.slip (V x k ∘ r.cell.dofs)) (dt k) a)) * s.jxw), ?_, ?_⟩
    · intro x
      have hx : (r.at dt (V x) k).prm.vec = r.cell.prm.vec := rfl
      unfold CellPrm.rhsTerm
      simp only [hi, hx, microstress_eq r.cell.prm.vec hc.index, Option.map_some]
      unfold resolvedShear
      rw [ddot_comm]
      rfl
    · exact (LL.mulc _ ((LL.cmul _ (dot_ll _ (xi_ll r.cell.prm.vec hc.index _ (slipGrad_ll s hu a)))).sub
        (LL.cmul _ ((LL.cmul _ (hs _ hu)).sub (micro_ll2 r.cell.prm.law hc.k hr _ _ (fun x => hist_prm r (V x) q k) _
          (hist_ll r q k h) (slip_ll s hu) (slip_ll s (u := fun x => V x k ∘ r.cell.dofs) (fun i => h k le_rfl i))
          a))))).neg

theorem run_row_ll {run : List (RunCell d n N)} {dt : ℕ → ℝ} {K : Sol.Constraints ℕ} {m : ℕ}
    (h : SpecStableRun run dt K m) {V : E → ℕ → ℕ → ℝ} {Z : E → ℕ → ℝ} (k : ℕ)
    (hV : ∀ j ≤ k, ∀ g < m, LL fun x => V x j g) (hZ : ∀ g < m, LL fun x => Z x g) (g : ℕ) :
    LL fun x => Lin.residual K ((SpecMesh run dt (V x) k).map fun c => c.local (forces (Z x))) g := by
  unfold Lin.residual SpecMesh
  simp only [List.map_map]
  refine LL.listsum run fun r hr => ?_
  simp only [Function.comp_apply]
  refine LL.finsum _ fun i _ => ?_
  show LL fun x => weight K (r.cell.dofs i) g * forces (Z x) (r.at dt (V x) k) i
  refine LL.cmul _ ?_
  choose R h1 h2 using fun q => run_term_ll r (h.material r hr) (h.rate r hr) dt (V := V) (Z := Z) k
    (fun j hj i => hV j hj _ (h.dofs r hr i)) (fun i => hZ _ (h.dofs r hr i)) q i
  have e : ∀ x, forces (Z x) (r.at dt (V x) k) i = ∑ q, R q x := by
    intro x
    have : (r.at dt (V x) k).prm.rhs r.cell.kind (r.at dt (V x) k).pts (Z x ∘ r.cell.dofs) i = some (∑ q, R q x) :=
      sumOpt_some _ _ fun q => h1 q x
    show ((r.at dt (V x) k).prm.rhs r.cell.kind (r.at dt (V x) k).pts (Z x ∘ r.cell.dofs) i).getD 0 = _
    rw [this]; rfl
  simp only [e]
  exact LL.finsum _ fun q _ => h2 q

end

/-! ## Helpers: one step -/

/-- The unknowns as a vector. -/
noncomputable def rest (m : ℕ) (u : ℕ → ℝ) : EuclideanSpace ℝ (Fin m) := WithLp.toLp 2 fun r => u r

theorem rest_norm (m : ℕ) (u : ℕ → ℝ) : ‖rest m u‖ = SpecLength m u := by
  rw [EuclideanSpace.norm_eq]
  unfold SpecLength rest
  congr 1
  rw [sum_range]
  exact sum_congr rfl fun r _ => by rw [Real.norm_eq_abs, sq_abs]

theorem rest_sub (m : ℕ) (u v : ℕ → ℝ) : rest m (u - v) = rest m u - rest m v := rfl

theorem rest_ext (m : ℕ) (u : ℕ → ℝ) {g : ℕ} (hg : g < m) : ext (rest m u) g = u g := by
  unfold ext; rw [dif_pos hg]; rfl

theorem length_smul (m : ℕ) (w : ℕ → ℝ) (t : ℝ) : SpecLength m (t • w) = |t| * SpecLength m w := by
  rw [← rest_norm, ← rest_norm, ← Real.norm_eq_abs, ← norm_smul]
  rfl

/-- The residual vector of a state after the history `V`. -/
noncomputable def runRow (run : List (RunCell d n N)) (dt : ℕ → ℝ) (K : Sol.Constraints ℕ) (k : ℕ) (V : ℕ → ℕ → ℝ)
    (z : ℕ → ℝ) (g : ℕ) : ℝ :=
  Lin.residual K ((SpecMesh run dt V k).map fun c => c.local (forces z)) g

theorem runRow_congr {run : List (RunCell d n N)} {dt : ℕ → ℝ} {K : Sol.Constraints ℕ} {m : ℕ}
    (h : SpecStableRun run dt K m) (k : ℕ) {V W : ℕ → ℕ → ℝ} {z y : ℕ → ℝ} (hV : ∀ j ≤ k, ∀ g < m, V j g = W j g)
    (hz : ∀ g < m, z g = y g) (g : ℕ) : runRow run dt K k V z g = runRow run dt K k W y g := by
  unfold runRow
  rw [mesh_congr run dt h.dofs k hV]
  congr 1
  refine List.map_congr_left fun c hc => ?_
  unfold MeshCell.local forces
  have : z ∘ c.dofs = y ∘ c.dofs := funext fun i => hz _ (mesh_dofs h W k c hc i)
  rw [this]

/-- Near a history the rows are close. -/
theorem row_close {run : List (RunCell d n N)} {dt : ℕ → ℝ} {K : Sol.Constraints ℕ} {m : ℕ}
    (h : SpecStableRun run dt K m) (k : ℕ) (U : ℕ → ℕ → ℝ) (R : ℝ) :
    ∃ C, 0 ≤ C ∧ ∀ (V : ℕ → ℕ → ℝ) (z : ℕ → ℝ) (η : ℝ), 0 ≤ η → η ≤ 1 → (∀ j ≤ k, SpecLength m (V j - U j) ≤ η) →
      SpecLength m z ≤ R → ∀ g < m, |runRow run dt K k U z g - runRow run dt K k V z g| ≤ C * η := by
  let E := Fin (k + 2) → EuclideanSpace ℝ (Fin m)
  let hist : E → ℕ → ℕ → ℝ := fun x j => if hj : j < k + 1 then ext (x ⟨j, by omega⟩) else 0
  let last : E → ℕ → ℝ := fun x => ext (x ⟨k + 1, by omega⟩)
  have hcomp : ∀ (i : Fin (k + 2)) (g : ℕ), LL fun x : E => ext (x i) g := by
    intro i g R
    obtain ⟨C, h0, hC⟩ := ext_ll (m := m) g R
    refine ⟨C, h0, fun x y hx hy => (hC (x i) (y i) ((norm_le_pi_norm x i).trans hx) ((norm_le_pi_norm y i).trans hy)).trans ?_⟩
    exact mul_le_mul_of_nonneg_left (norm_le_pi_norm (x - y) i) h0
  have hLL : ∀ g, LL fun x : E => runRow run dt K k (hist x) (last x) g := fun g =>
    run_row_ll h k (fun j hj g _ => by
      have : j < k + 1 := by omega
      simp only [hist, this, dif_pos]
      exact hcomp _ g) (fun g _ => hcomp _ g) g
  obtain ⟨C, hC0, hC⟩ := uniform (List.finRange m) (fun g C => ∀ x y : E,
      ‖x‖ ≤ |R| + ∑ j ∈ range (k + 1), SpecLength m (U j) + 1 → ‖y‖ ≤ |R| + ∑ j ∈ range (k + 1), SpecLength m (U j) + 1 →
      |runRow run dt K k (hist x) (last x) g - runRow run dt K k (hist y) (last y) g| ≤ C * ‖x - y‖)
    (fun g s t hst hs x y hx hy => (hs x y hx hy).trans (mul_le_mul_of_nonneg_right hst (norm_nonneg _)))
    fun g _ => by
      obtain ⟨C, h0, hC⟩ := hLL g (|R| + ∑ j ∈ range (k + 1), SpecLength m (U j) + 1)
      exact ⟨C, h0, hC⟩
  refine ⟨C, hC0, fun V z η h0 h1 hV hz g hg => ?_⟩
  let X : (ℕ → ℕ → ℝ) → E := fun W j => if (j : ℕ) < k + 1 then rest m (W j) else rest m z
  have hX : ∀ W g, runRow run dt K k (hist (X W)) (last (X W)) g = runRow run dt K k W z g := by
    intro W g
    refine runRow_congr h k (fun j hj g hg => ?_) (fun g hg => ?_) g
    · have : j < k + 1 := by omega
      simp only [hist, this, dif_pos, X, if_true]
      exact rest_ext m _ hg
    · simp only [last, X, lt_irrefl, if_false]
      exact rest_ext m _ hg
  have hs : ∀ j ≤ k, SpecLength m (U j) ≤ ∑ j ∈ range (k + 1), SpecLength m (U j) := fun j hj =>
    single_le_sum (f := fun j => SpecLength m (U j)) (fun j _ => length_nonneg m (U j)) (mem_range.2 (by omega))
  have hsn : 0 ≤ ∑ j ∈ range (k + 1), SpecLength m (U j) := sum_nonneg fun j _ => length_nonneg m (U j)
  have hball : ∀ W : ℕ → ℕ → ℝ, (∀ j ≤ k, SpecLength m (W j - U j) ≤ 1) →
      ‖X W‖ ≤ |R| + ∑ j ∈ range (k + 1), SpecLength m (U j) + 1 := by
    intro W hW
    refine (pi_norm_le_iff_of_nonneg (by positivity)).2 fun j => ?_
    simp only [X]
    split_ifs with hj
    · have h2 := norm_add_le (rest m (W j) - rest m (U j)) (rest m (U j))
      rw [sub_add_cancel, ← rest_sub, rest_norm, rest_norm, rest_norm] at h2
      have h3 := hW j (by omega)
      have h4 := hs j (by omega)
      have h5 := abs_nonneg R
      rw [rest_norm]
      linarith
    · rw [rest_norm]
      have := le_abs_self R
      linarith
  have key := hC ⟨g, hg⟩ (List.mem_finRange _) (X U) (X V) (hball U fun j _ => by
      rw [sub_self, ← rest_norm]; have : rest m 0 = 0 := rfl
      rw [this, norm_zero]; exact zero_le_one) (hball V fun j hj => (hV j hj).trans h1)
  rw [hX, hX] at key
  refine key.trans (mul_le_mul_of_nonneg_left ?_ hC0)
  refine (pi_norm_le_iff_of_nonneg h0).2 fun j => ?_
  have e : (X U - X V) j = X U j - X V j := rfl
  rw [e]
  simp only [X]
  split_ifs with hj
  · rw [← norm_neg, neg_sub, ← rest_sub, rest_norm]
    exact hV j (by omega)
  · rw [sub_self, norm_zero]; exact h0

set_option maxHeartbeats 1000000 in
/-- One step: close histories and a small residual keep the states close. -/
theorem step_close {run : List (RunCell d n N)} {dt : ℕ → ℝ} {K : Sol.Constraints ℕ} {m : ℕ}
    (h : SpecStableRun run dt K m) (k : ℕ) (u : ℕ → ℕ → ℝ) (hu : SpecSolution (SpecMesh run dt u k) K m (u (k + 1)))
    {ε : ℝ} (hε : 0 < ε) : ∃ η, 0 < η ∧ ∀ (v : ℕ → ℕ → ℝ) (r : ℕ → ℝ), (∀ j ≤ k, SpecLength m (v j - u j) ≤ η) →
      SpecResidualVector (SpecMesh run dt v k) K m (v (k + 1)) r → SpecLength m r ≤ η →
      Sol.Satisfies K (v (k + 1) - u (k + 1)) → SpecLength m (v (k + 1) - u (k + 1)) < ε := by
  have hK := h.homogeneous
  obtain ⟨s, hs0, hs1, hs⟩ := defect_lower _ (mesh_stable h u k)
  obtain ⟨μ, hμ0, hμ⟩ := energy_grows _ (mesh_stable h u k) hK (mesh_dofs h u k) (mesh_determined h u k)
    (show 0 < ε / 2 by positivity)
  obtain ⟨C, hC0, hC⟩ := row_close h k u (SpecLength m (u (k + 1)) + ε)
  set A := s * μ * ε / (4 * (1 + C * m)) with hA
  have hA0 : 0 < A := by positivity
  refine ⟨min 1 A, lt_min one_pos hA0, fun v r hv hr hrl hsat => ?_⟩
  by_contra hge
  push Not at hge
  obtain ⟨η, hη⟩ : ∃ η, η = min 1 A := ⟨_, rfl⟩
  rw [← hη] at hv hrl
  have hη0 : 0 ≤ η := by rw [hη]; exact (lt_min one_pos hA0).le
  have hη1 : η ≤ 1 := by rw [hη]; exact min_le_left _ _
  have hηA : η ≤ A := by rw [hη]; exact min_le_right _ _
  set D := v (k + 1) - u (k + 1) with hD
  set δ := SpecLength m D with hδ
  have hδ0 : 0 < δ := hε.trans_le hge
  set θ := ε / (2 * δ) with hθ
  have hθ0 : 0 < θ := by positivity
  have hθ1 : θ < 1 := by rw [hθ, div_lt_one (by positivity)]; linarith
  have hθδ : θ * δ = ε / 2 := by rw [hθ]; field_simp
  set z := u (k + 1) + θ • D with hz
  have ez : z - u (k + 1) = θ • D := by rw [hz]; abel
  have ev : v (k + 1) - z = (1 - θ) • D := by
    rw [hz, sub_smul, one_smul, hD]; abel
  have hsm : ∀ t : ℝ, Sol.Satisfies K (t • D) := fun t => smul_satisfies hK hsat t
  obtain ⟨Rv, hRv, hrv⟩ := hr
  -- on the computed history
  have g1 := work_gap _ (mesh_stable h v k) (v (k + 1)) z Rv (forces z) hRv (assembled_always _ (mesh_stable h v k) z)
  obtain ⟨n1, n2, n3⟩ := errors_nonneg _ (mesh_stable h v k) (v (k + 1)) z
  rw [work_residual _ hK (mesh_dofs h v k) (by rw [ev]; exact hsm _) hrv,
    work_residual _ hK (mesh_dofs h v k) (by rw [ev]; exact hsm _) (r := runRow run dt K k v z) (fun g _ => rfl), ev] at g1
  have p1 : ∀ (t : ℝ) (f : ℕ → ℝ), ∑ g ∈ range m, (t • D) g * f g = t * ∑ g ∈ range m, D g * f g := by
    intro t f
    rw [mul_sum]
    exact sum_congr rfl fun g _ => by rw [Pi.smul_apply, smul_eq_mul]; ring
  rw [p1, p1] at g1
  have q1 : ∑ g ∈ range m, D g * r g ≤ ∑ g ∈ range m, D g * runRow run dt K k v z g := by
    have h1 : 0 < 1 - θ := by linarith
    have : 0 ≤ (1 - θ) * (∑ g ∈ range m, D g * runRow run dt K k v z g - ∑ g ∈ range m, D g * r g) := by nlinarith
    have := nonneg_of_mul_nonneg_right this h1
    linarith
  -- on the exact history
  obtain ⟨Ru, hRu, hru⟩ := hu
  have g2 := work_gap _ (mesh_stable h u k) z (u (k + 1)) (forces z) Ru (assembled_always _ (mesh_stable h u k) z) hRu
  rw [work_residual _ hK (mesh_dofs h u k) (by rw [ez]; exact hsm _) (r := runRow run dt K k u z) (fun g _ => rfl),
    work_residual _ hK (mesh_dofs h u k) (by rw [ez]; exact hsm _) (r := 0) hru, ez, p1] at g2
  simp only [Pi.zero_apply, mul_zero, sum_const_zero, neg_zero, sub_zero] at g2
  obtain ⟨-, -, m3⟩ := errors_nonneg _ (mesh_stable h u k) z (u (k + 1))
  have l1 := hs z (u (k + 1))
  rw [elastic_shift, ez] at g2
  rw [ez] at l1
  obtain ⟨e1, e2, -⟩ := errors_nonneg _ (mesh_stable h u k) (θ • D) 0
  have hlen : SpecLength m (θ • D) = ε / 2 := by rw [length_smul, abs_of_pos hθ0, ← hδ, hθδ]
  have l2 := hμ (θ • D) (hsm θ) (by rw [hlen])
  rw [hlen] at l2
  have l3 := mul_le_mul_of_nonneg_left l2 hs0.le
  -- comparison
  have hzl : SpecLength m z ≤ SpecLength m (u (k + 1)) + ε := by
    have := norm_add_le (rest m (u (k + 1))) (rest m (θ • D))
    have e : rest m (u (k + 1)) + rest m (θ • D) = rest m z := rfl
    rw [e, rest_norm, rest_norm, rest_norm, hlen] at this
    linarith
  have c1 : |∑ g ∈ range m, D g * (runRow run dt K k u z g - runRow run dt K k v z g)| ≤ δ * (C * η * m) := by
    refine (cauchy m D fun g => runRow run dt K k u z g - runRow run dt K k v z g).trans ?_
    refine mul_le_mul_of_nonneg_left ?_ hδ0.le
    refine Real.sqrt_le_iff.2 ⟨by positivity, ?_⟩
    have : ∀ g ∈ range m, (runRow run dt K k u z g - runRow run dt K k v z g) ^ 2 ≤ (C * η) ^ 2 := by
      intro g hg
      have := hC v z η hη0 hη1 hv hzl g (mem_range.1 hg)
      rw [← sq_abs]
      exact pow_le_pow_left₀ (abs_nonneg _) this 2
    refine (sum_le_sum this).trans ?_
    rw [sum_const, card_range, nsmul_eq_mul, mul_pow]
    have hm1 : (m : ℝ) ≤ (m : ℝ) ^ 2 := by
      have : m ≤ m ^ 2 := Nat.le_self_pow (by norm_num) m
      exact_mod_cast this
    have := mul_le_mul_of_nonneg_right hm1 (sq_nonneg (C * η))
    linarith
  have c2 : ∑ g ∈ range m, D g * (runRow run dt K k u z g - runRow run dt K k v z g) =
      ∑ g ∈ range m, D g * runRow run dt K k u z g - ∑ g ∈ range m, D g * runRow run dt K k v z g := by
    rw [← sum_sub_distrib]
    exact sum_congr rfl fun g _ => by ring
  have c3 := neg_le_of_abs_le (cauchy m D r)
  have c4 := neg_le_of_abs_le c1
  rw [c2] at c4
  have c5 : δ * SpecLength m r ≤ δ * η := mul_le_mul_of_nonneg_left hrl hδ0.le
  have c6 : -∑ g ∈ range m, D g * runRow run dt K k u z g ≤ δ * η * (1 + C * m) := by
    have : SpecLength m D * SpecLength m r = δ * SpecLength m r := rfl
    nlinarith
  have c7 := mul_le_mul_of_nonneg_left c6 hθ0.le
  have c8 : s * μ * (ε / 2) ^ 2 ≤ ε / 2 * η * (1 + C * m) := by
    have : θ * (δ * η * (1 + C * m)) = ε / 2 * η * (1 + C * m) := by rw [← hθδ]; ring
    nlinarith
  have c9 : ε / 2 * η * (1 + C * m) ≤ ε / 2 * A * (1 + C * m) := by
    have : 0 ≤ 1 + C * m := by positivity
    gcongr
  have c10 : ε / 2 * A * (1 + C * m) = s * μ * ε ^ 2 / 8 := by
    rw [hA]; field_simp; ring
  have : 0 < s * μ * ε ^ 2 := by positivity
  nlinarith

/-! ## Property: the tolerance -/

/-- C119: for every number of steps and every distance there is a tolerance such that all states computed within the
tolerance, every step with the history of the computed states, and from a start within the tolerance, lie within that
distance of the run. -/
theorem C119_tolerance (run : List (RunCell d n N)) (dt : ℕ → ℝ) (K : Sol.Constraints ℕ) (m : ℕ)
    (h : SpecStableRun run dt K m) (B u : ℕ → ℕ → ℝ) (hu : SpecRun run dt K m B u) (T : ℕ) (ε : ℝ) (hε : 0 < ε) :
    ∃ tol > 0, ∀ v, SpecLength m (v 0 - u 0) ≤ tol → SpecComputed run dt K m B tol T v →
      ∀ k ≤ T, SpecLength m (v k - u k) < ε := by
  induction T generalizing ε with
  | zero =>
    refine ⟨ε / 2, by positivity, fun v h0 _ k hk => ?_⟩
    obtain rfl : k = 0 := by omega
    linarith
  | succ T ih =>
    obtain ⟨η, hη, hstep⟩ := step_close h T u (hu T).2 hε
    obtain ⟨tol, ht, htol⟩ := ih (min ε η) (lt_min hε hη)
    refine ⟨min tol η, lt_min ht hη, fun v h0 hv k hk => ?_⟩
    have hprev := htol v (h0.trans (min_le_left _ _)) fun j hj => by
      obtain ⟨a, r, b, c⟩ := hv j (by omega)
      exact ⟨a, r, b, c.trans (min_le_left _ _)⟩
    rcases Nat.lt_or_ge k (T + 1) with hkT | hkT
    · exact (hprev k (by omega)).trans_le (min_le_left _ _)
    · obtain rfl : k = T + 1 := by omega
      obtain ⟨a, r, b, c⟩ := hv T (by omega)
      refine hstep v r (fun j hj => ((hprev j hj).trans_le (min_le_right _ _)).le) b (c.trans (min_le_right _ _)) ?_
      have := satisfies_sub h.homogeneous a (hu T).1
      rwa [sub_sub_sub_cancel_right] at this

/-! ## Non-vacuity -/

/-- One cell with a displacement and a slip, hardening 1/10, under the load `f k` in step `k`. -/
noncomputable def exSoftRun (f : ℕ → ℝ) : List (RunCell 2 1 2) := [⟨exSoft (1 / 10) 0, fun k _ => ![f k, 0]⟩]

theorem exSoftRun_stable (f : ℕ → ℝ) : SpecStableRun (exSoftRun f) (fun _ => 1) (fun _ => none) 2 := by
  have hst := exSoft_stable (1 / 10) 0 (by norm_num) (by norm_num)
  have hmem : exSoft (1 / 10) 0 ∈ [exSoft (1 / 10) 0] := List.mem_singleton.2 rfl
  constructor
  · intro r hr; rw [exSoftRun, List.mem_singleton] at hr; subst hr; exact hst.cell _ hmem
  · intro r hr; rw [exSoftRun, List.mem_singleton] at hr; subst hr; exact hst.material _ hmem
  · intro r hr; rw [exSoftRun, List.mem_singleton] at hr; subst hr; exact hst.hardens _ hmem
  · intro r hr; rw [exSoftRun, List.mem_singleton] at hr; subst hr; rfl
  · exact fun _ => one_pos
  · intro r hr q a k
    rw [exSoftRun, List.mem_singleton] at hr; subst hr
    show _ ≤ (1 / 1 : ℝ)
    norm_num [SpecLatent, exSoft, exCell]
  · exact ⟨fun _ _ h => by simp at h, fun _ _ h => by simp at h, fun _ _ h => by simp at h⟩
  · intro r hr i; rw [exSoftRun, List.mem_singleton] at hr; subst hr; exact i.2
  · exact exSoft_determined (1 / 10) 0 (by norm_num) (by norm_num)

/-- C119 in a concrete case: for every sequence of loads there is exactly one run from rest, and computed runs come as
close to it as one wishes. -/
example (f : ℕ → ℝ) : ∃ u, u 0 = 0 ∧ SpecRun (exSoftRun f) (fun _ => 1) (fun _ => none) 2 0 u ∧
    (∀ v, v 0 = 0 → SpecRun (exSoftRun f) (fun _ => 1) (fun _ => none) 2 0 v → ∀ k, ∀ g < 2, v k g = u k g) ∧
    ∀ T, ∀ ε > 0, ∃ tol > 0, ∀ v, v 0 = 0 → SpecComputed (exSoftRun f) (fun _ => 1) (fun _ => none) 2 0 tol T v →
      ∀ k ≤ T, SpecLength 2 (v k - u k) < ε := by
  obtain ⟨u, h0, hu⟩ := C119_exists _ _ _ _ (exSoftRun_stable f) 0 0
  refine ⟨u, h0, hu, fun v hv hr => C119_unique _ _ _ _ (exSoftRun_stable f) 0 v u (fun g _ => by rw [h0, hv]) hr hu,
    fun T ε hε => ?_⟩
  obtain ⟨tol, ht, h⟩ := C119_tolerance _ _ _ _ (exSoftRun_stable f) 0 u hu T ε hε
  refine ⟨tol, ht, fun v hv hc => h v ?_ hc⟩
  rw [hv, h0, sub_self]
  simp [SpecLength]
  exact ht.le

end Verif.Asm
