import Verif.Props.GrainExistence
import Verif.Props.RunDetermined

/-!
# Runs of polycrystals are determined by their input: C125
-/

namespace Verif.Asm
open Matrix Finset Verif.Cry Verif.Hist Verif.Micro Verif.Lin Verif.Mono Verif.Itf

variable {d e n N : ℕ}

/-! ## Specification -/

/-- What a polycrystal, the mesh and the time steps have to meet: every grain boundary face is seen by its two cells, does
not open and has admissible parameters, and the grains are stable, before the first step. -/
structure SpecStableGrainRun (kind : Kind n N) (run : List (RunGrain d e n N)) (faces : List (Face d e n N)) (dt : ℕ → ℝ)
    (K : Sol.Constraints ℕ) (m : ℕ) : Prop where
  paired : SpecRunPaired run faces
  face : ∀ f ∈ faces, SpecFace kind f
  kinds : ∀ r ∈ run, r.run.cell.kind = kind
  body : SpecStableRun (run.map RunGrain.run) dt K m

/-- The states `u 0, u 1, …` are a run of the polycrystal: step `k` fulfils the boundary values of `B k`, and all
equations with the loads of the step and the history of the preceding states. -/
def SpecGrainRun (run : List (RunGrain d e n N)) (dt : ℕ → ℝ) (K : Sol.Constraints ℕ) (m : ℕ) (B u : ℕ → ℕ → ℝ) : Prop :=
  ∀ k, Sol.Satisfies K (u (k + 1) - B k) ∧ SpecGrainSolution (SpecGrains run dt u k) K m (u (k + 1))

/-- As before, but the equations are only met up to the tolerance, for `T` steps. -/
def SpecGrainComputed (run : List (RunGrain d e n N)) (dt : ℕ → ℝ) (K : Sol.Constraints ℕ) (m : ℕ) (B : ℕ → ℕ → ℝ)
    (tol : ℝ) (T : ℕ) (v : ℕ → ℕ → ℝ) : Prop :=
  ∀ k < T, Sol.Satisfies K (v (k + 1) - B k) ∧
    ∃ r, SpecGrainResidual (SpecGrains run dt v k) K m (v (k + 1)) r ∧ SpecLength m r ≤ tol

/-! ## Helpers: the polycrystal of a step -/

theorem grains_congr (run : List (RunGrain d e n N)) (dt : ℕ → ℝ) {m : ℕ} (hm : ∀ r ∈ run, ∀ i, r.run.cell.dofs i < m)
    {u v : ℕ → ℕ → ℝ} (k : ℕ) (h : ∀ j ≤ k, ∀ g < m, u j g = v j g) : SpecGrains run dt u k = SpecGrains run dt v k :=
  List.map_congr_left fun r hr => by
    unfold RunGrain.at
    rw [at_congr r.run dt k fun j hj i => h j hj _ (hm r hr i)]

theorem grains_stable {kind : Kind n N} {run : List (RunGrain d e n N)} {faces : List (Face d e n N)} {dt : ℕ → ℝ}
    {K : Sol.Constraints ℕ} {m : ℕ} (h : SpecStableGrainRun kind run faces dt K m) (u : ℕ → ℕ → ℝ) (k : ℕ) :
    SpecStableGrains kind (SpecGrains run dt u k) faces where
  paired := run_paired h.paired dt u k
  face := h.face
  kinds := fun g hg => by obtain ⟨r, hr, rfl⟩ := List.mem_map.1 hg; exact h.kinds r hr
  body := by rw [grains_cells]; exact mesh_stable h.body u k

theorem grains_rate {kind : Kind n N} {run : List (RunGrain d e n N)} {faces : List (Face d e n N)} {dt : ℕ → ℝ}
    {K : Sol.Constraints ℕ} {m : ℕ} (h : SpecStableGrainRun kind run faces dt K m) (u : ℕ → ℕ → ℝ) (k : ℕ) :
    ∀ g ∈ SpecGrains run dt u k, g.cell.prm.law.rateIndependent = false := by
  intro g hg
  obtain ⟨r, hr, rfl⟩ := List.mem_map.1 hg
  exact h.body.rate r.run (List.mem_map.2 ⟨r, hr, rfl⟩)

theorem run_dofs {kind : Kind n N} {run : List (RunGrain d e n N)} {faces : List (Face d e n N)} {dt : ℕ → ℝ}
    {K : Sol.Constraints ℕ} {m : ℕ} (h : SpecStableGrainRun kind run faces dt K m) :
    ∀ r ∈ run, ∀ i, r.run.cell.dofs i < m := fun r hr => h.body.dofs r.run (List.mem_map.2 ⟨r, hr, rfl⟩)

theorem grains_dofs {kind : Kind n N} {run : List (RunGrain d e n N)} {faces : List (Face d e n N)} {dt : ℕ → ℝ}
    {K : Sol.Constraints ℕ} {m : ℕ} (h : SpecStableGrainRun kind run faces dt K m) (u : ℕ → ℕ → ℝ) (k : ℕ) :
    ∀ g ∈ SpecGrains run dt u k, ∀ i, g.cell.dofs i < m := by
  intro g hg
  obtain ⟨r, hr, rfl⟩ := List.mem_map.1 hg
  exact run_dofs h r hr

theorem grains_determined {kind : Kind n N} {run : List (RunGrain d e n N)} {faces : List (Face d e n N)} {dt : ℕ → ℝ}
    {K : Sol.Constraints ℕ} {m : ℕ} (h : SpecStableGrainRun kind run faces dt K m) (u : ℕ → ℕ → ℝ) (k : ℕ) :
    SpecDetermined ((SpecGrains run dt u k).map GrainCell.cell) K m := by
  rw [grains_cells]
  exact mesh_determined h.body u k

/-! ## Property: existence and uniqueness -/

/-- C125: for every start state, all boundary values, loads and time steps there is a run of the polycrystal. -/
theorem C125_exists {kind : Kind n N} (run : List (RunGrain d e n N)) (faces : List (Face d e n N)) (dt : ℕ → ℝ)
    (K : Sol.Constraints ℕ) (m : ℕ) (h : SpecStableGrainRun kind run faces dt K m) (B : ℕ → ℕ → ℝ) (u₀ : ℕ → ℝ) :
    ∃ u, u 0 = u₀ ∧ SpecGrainRun run dt K m B u := by
  have hex : ∀ (u : ℕ → ℕ → ℝ) (k : ℕ), ∃ x, Sol.Satisfies K (x - B k) ∧
      SpecGrainSolution (SpecGrains run dt u k) K m x :=
    fun u k => C121_exists _ faces (grains_stable h u k) (grains_rate h u k) K m h.body.homogeneous (grains_dofs h u k)
      (grains_determined h u k) (B k)
  choose S h1 h2 using hex
  let P : ℕ → ℕ → ℕ → ℝ := fun k => Nat.rec (fun _ => u₀) (fun k p => Function.update p (k + 1) (S p k)) k
  have hP : ∀ k, P (k + 1) = Function.update (P k) (k + 1) (S (P k) k) := fun _ => rfl
  have hle : ∀ k i j, i ≤ j → P (j + k) i = P j i := by
    intro k i j hij
    induction k with
    | zero => rfl
    | succ k ih => rw [← add_assoc, hP, Function.update_of_ne (by omega), ih]
  refine ⟨fun k => P k k, rfl, fun k => ?_⟩
  have e : SpecGrains run dt (fun k => P k k) k = SpecGrains run dt (P k) k := by
    refine grains_congr run dt (run_dofs h) k fun j hj g _ => ?_
    have := hle (k - j) j j le_rfl
    rw [Nat.add_sub_cancel' hj] at this
    rw [this]
  have e2 : P (k + 1) (k + 1) = S (P k) k := by rw [hP, Function.update_self]
  show Sol.Satisfies K (P (k + 1) (k + 1) - B k) ∧
    SpecGrainSolution (SpecGrains run dt (fun k => P k k) k) K m (P (k + 1) (k + 1))
  rw [e, e2]
  exact ⟨h1 _ _, h2 _ _⟩

/-- C125: and only one. -/
theorem C125_unique {kind : Kind n N} (run : List (RunGrain d e n N)) (faces : List (Face d e n N)) (dt : ℕ → ℝ)
    (K : Sol.Constraints ℕ) (m : ℕ) (h : SpecStableGrainRun kind run faces dt K m) (B u v : ℕ → ℕ → ℝ)
    (h0 : ∀ g < m, u 0 g = v 0 g) (hu : SpecGrainRun run dt K m B u) (hv : SpecGrainRun run dt K m B v) :
    ∀ k, ∀ g < m, u k g = v k g := by
  have key : ∀ k, ∀ j ≤ k, ∀ g < m, u j g = v j g := by
    intro k
    induction k with
    | zero =>
      intro j hj
      obtain rfl : j = 0 := by omega
      exact h0
    | succ k ih =>
      intro j hj
      rcases Nat.lt_or_ge j (k + 1) with hjk | hjk
      · exact ih j (by omega)
      · obtain rfl : j = k + 1 := by omega
        have e := grains_congr run dt (run_dofs h) k ih
        obtain ⟨a1, a2⟩ := hu k
        obtain ⟨b1, b2⟩ := hv k
        rw [← e] at b2
        refine C121_unique _ faces (grains_stable h u k) K m h.body.homogeneous (grains_dofs h u k)
          (grains_determined h u k) _ _ a2 b2 ?_
        have := satisfies_sub h.body.homogeneous a1 b1
        rwa [sub_sub_sub_cancel_right] at this
  exact fun k => key k k le_rfl

/-! ## Helpers: the equations depend continuously on the history -/

section
variable {E : Type*} [NormedAddCommGroup E]

theorem run_force_ll (r : RunCell d n N) (hc : SpecMaterial r.cell.prm) (hr : r.cell.prm.law.rateIndependent = false)
    (dt : ℕ → ℝ) {V : E → ℕ → ℕ → ℝ} {Z : E → ℕ → ℝ} (k : ℕ)
    (h : ∀ j ≤ k, ∀ i, LL fun x => V x j (r.cell.dofs i)) (hz : ∀ i, LL fun x => Z x (r.cell.dofs i)) (i : Fin N) :
    LL fun x => cellRhs (Z x) (r.at dt (V x) k) i := by
  choose R h1 h2 using fun q => run_term_ll r hc hr dt (V := V) (Z := Z) k h hz q i
  have e : ∀ x, cellRhs (Z x) (r.at dt (V x) k) i = ∑ q, R q x := by
    intro x
    have : (r.at dt (V x) k).prm.rhs r.cell.kind (r.at dt (V x) k).pts (Z x ∘ r.cell.dofs) i = some (∑ q, R q x) :=
      sumOpt_some _ _ fun q => h1 q x
    show ((r.at dt (V x) k).prm.rhs r.cell.kind (r.at dt (V x) k).pts (Z x ∘ r.cell.dofs) i).getD 0 = _
    rw [this]; rfl
  simp only [e]
  exact LL.finsum _ fun q _ => h2 q

theorem grains_row_ll {kind : Kind n N} {run : List (RunGrain d e n N)} {faces : List (Face d e n N)} {dt : ℕ → ℝ}
    {K : Sol.Constraints ℕ} {m : ℕ} (h : SpecStableGrainRun kind run faces dt K m) {V : E → ℕ → ℕ → ℝ} {Z : E → ℕ → ℝ}
    (k : ℕ) (hV : ∀ j ≤ k, ∀ g < m, LL fun x => V x j g) (hZ : ∀ g < m, LL fun x => Z x g) (g : ℕ) :
    LL fun x => Lin.residual K ((SpecGrains run dt (V x) k).map fun c => c.local (grainForces (Z x))) g := by
  unfold Lin.residual SpecGrains
  simp only [List.map_map]
  refine LL.listsum run fun r hr => ?_
  simp only [Function.comp_apply]
  refine LL.finsum _ fun i _ => ?_
  show LL fun x => weight K (r.run.cell.dofs i) g * grainForces (Z x) (r.at dt (V x) k) i
  refine LL.cmul _ ?_
  have hmem : ∀ v : ℕ → ℕ → ℝ, r.at dt v k ∈ SpecGrains run dt v k := fun v => List.mem_map.2 ⟨r, hr, rfl⟩
  have e : ∀ x, grainForces (Z x) (r.at dt (V x) k) i = cellRhs (Z x) (r.run.at dt (V x) k) i +
      ∑ b, viewForce kind (r.run.cell.dofs, r.views b) (Z x) i +
      ∑ b, ((r.loads k b).side.disp i ⬝ᵥ (r.loads k b).value) * (r.loads k b).jxw := fun x =>
    (split_rhs (grains_stable h (V x) k).paired h.face (grains_stable h (V x) k).kinds
      (grains_always (grains_stable h (V x) k) (Z x)) (hmem _) i).2
  simp only [e]
  have hin : r.run ∈ run.map RunGrain.run := List.mem_map.2 ⟨r, hr, rfl⟩
  refine LL.add (LL.add ?_ (LL.finsum _ fun b _ => ?_)) (LL.const _)
  · exact run_force_ll r.run (h.body.material _ hin) (h.body.rate _ hin) dt k
      (fun j hj i => hV j hj _ (run_dofs h r hr i)) (fun i => hZ _ (run_dofs h r hr i)) i
  · obtain ⟨g', hg', e'⟩ := seen_dofs (grains_stable h 0 k) (hmem 0) b
    refine view_ll kind (r.run.cell.dofs, r.views b) (seen_closed (grains_stable h 0 k).paired h.face (hmem 0) b)
      (fun j => hZ _ (run_dofs h r hr j)) (fun j => ?_) i
    have e2 : (r.views b).nbDofs = g'.cell.dofs := e'
    show LL fun x => Z x ((r.views b).nbDofs j)
    rw [e2]
    exact hZ _ (grains_dofs h 0 k g' hg' j)

end

/-! ## Helpers: one step -/

/-- The residual vector of a state of a polycrystal after the history `V`. -/
noncomputable def grainsRow (run : List (RunGrain d e n N)) (dt : ℕ → ℝ) (K : Sol.Constraints ℕ) (k : ℕ)
    (V : ℕ → ℕ → ℝ) (z : ℕ → ℝ) (g : ℕ) : ℝ :=
  Lin.residual K ((SpecGrains run dt V k).map fun c => c.local (grainForces z)) g

theorem grainsRow_congr {kind : Kind n N} {run : List (RunGrain d e n N)} {faces : List (Face d e n N)} {dt : ℕ → ℝ}
    {K : Sol.Constraints ℕ} {m : ℕ} (h : SpecStableGrainRun kind run faces dt K m) (k : ℕ) {V W : ℕ → ℕ → ℝ}
    {z y : ℕ → ℝ} (hV : ∀ j ≤ k, ∀ g < m, V j g = W j g) (hz : ∀ g < m, z g = y g) (g : ℕ) :
    grainsRow run dt K k V z g = grainsRow run dt K k W y g := by
  unfold grainsRow
  rw [grains_congr run dt (run_dofs h) k hV]
  congr 1
  refine List.map_congr_left fun c hc => ?_
  have e1 : z ∘ c.cell.dofs = y ∘ c.cell.dofs := funext fun i => hz _ (grains_dofs h W k c hc i)
  have e2 : ∀ b, z ∘ (c.views b).nbDofs = y ∘ (c.views b).nbDofs := by
    intro b
    obtain ⟨g', hg', e'⟩ := seen_dofs (grains_stable h W k) hc b
    rw [e']
    exact funext fun i => hz _ (grains_dofs h W k g' hg' i)
  unfold GrainCell.local grainForces localRhs
  simp only [e1, e2]

/-- Near a history the rows are close. -/
theorem grains_row_close {kind : Kind n N} {run : List (RunGrain d e n N)} {faces : List (Face d e n N)} {dt : ℕ → ℝ}
    {K : Sol.Constraints ℕ} {m : ℕ} (h : SpecStableGrainRun kind run faces dt K m) (k : ℕ) (U : ℕ → ℕ → ℝ) (R : ℝ) :
    ∃ C, 0 ≤ C ∧ ∀ (V : ℕ → ℕ → ℝ) (z : ℕ → ℝ) (η : ℝ), 0 ≤ η → η ≤ 1 → (∀ j ≤ k, SpecLength m (V j - U j) ≤ η) →
      SpecLength m z ≤ R → ∀ g < m, |grainsRow run dt K k U z g - grainsRow run dt K k V z g| ≤ C * η := by
  let E := Fin (k + 2) → EuclideanSpace ℝ (Fin m)
  let hist : E → ℕ → ℕ → ℝ := fun x j => if hj : j < k + 1 then ext (x ⟨j, by omega⟩) else 0
  let last : E → ℕ → ℝ := fun x => ext (x ⟨k + 1, by omega⟩)
  have hcomp : ∀ (i : Fin (k + 2)) (g : ℕ), LL fun x : E => ext (x i) g := by
    intro i g R
    obtain ⟨C, h0, hC⟩ := ext_ll (m := m) g R
    refine ⟨C, h0, fun x y hx hy => (hC (x i) (y i) ((norm_le_pi_norm x i).trans hx) ((norm_le_pi_norm y i).trans hy)).trans ?_⟩
    exact mul_le_mul_of_nonneg_left (norm_le_pi_norm (x - y) i) h0
  have hLL : ∀ g, LL fun x : E => grainsRow run dt K k (hist x) (last x) g := fun g =>
    grains_row_ll h k (fun j hj g _ => by
      have : j < k + 1 := by omega
      simp only [hist, this, dif_pos]
      exact hcomp _ g) (fun g _ => hcomp _ g) g
  obtain ⟨C, hC0, hC⟩ := uniform (List.finRange m) (fun g C => ∀ x y : E,
      ‖x‖ ≤ |R| + ∑ j ∈ range (k + 1), SpecLength m (U j) + 1 → ‖y‖ ≤ |R| + ∑ j ∈ range (k + 1), SpecLength m (U j) + 1 →
      |grainsRow run dt K k (hist x) (last x) g - grainsRow run dt K k (hist y) (last y) g| ≤ C * ‖x - y‖)
    (fun g s t hst hs x y hx hy => (hs x y hx hy).trans (mul_le_mul_of_nonneg_right hst (norm_nonneg _)))
    fun g _ => by
      obtain ⟨C, h0, hC⟩ := hLL g (|R| + ∑ j ∈ range (k + 1), SpecLength m (U j) + 1)
      exact ⟨C, h0, hC⟩
  refine ⟨C, hC0, fun V z η h0 h1 hV hz g hg => ?_⟩
  let X : (ℕ → ℕ → ℝ) → E := fun W j => if (j : ℕ) < k + 1 then rest m (W j) else rest m z
  have hX : ∀ W g, grainsRow run dt K k (hist (X W)) (last (X W)) g = grainsRow run dt K k W z g := by
    intro W g
    refine grainsRow_congr h k (fun j hj g hg => ?_) (fun g hg => ?_) g
    · have : j < k + 1 := by omega
      simp only [hist, this, dif_pos, X, if_true]
      exact rest_ext m _ hg
    · simp only [last, X, lt_irrefl, if_false]
      exact rest_ext m _ hg
  have hs : ∀ j ≤ k, SpecLength m (U j) ≤ ∑ j ∈ range (k + 1), SpecLength m (U j) := fun j hj =>
    single_le_sum (f := fun j => SpecLength m (U j)) (fun j _ => length_nonneg m (U j)) (mem_range.2 (by omega))
  have hsn : 0 ≤ ∑ j ∈ range (k + 1), SpecLength m (U j) := sum_nonneg fun j _ => length_nonneg m (U j)
  have hball : ∀ W : ℕ → ℕ → ℝ, (∀ j ≤ k, SpecLength m (W j - U j) ≤ 1) →
      ‖X W‖ ≤ |R| + ∑ j ∈ range (k + 1), SpecLength m (U j) + 1 := by
    intro W hW
    refine (pi_norm_le_iff_of_nonneg (by positivity)).2 fun j => ?_
    simp only [X]
    split_ifs with hj
    · have h2 := norm_add_le (rest m (W j) - rest m (U j)) (rest m (U j))
      rw [sub_add_cancel, ← rest_sub, rest_norm, rest_norm, rest_norm] at h2
      have h3 := hW j (by omega)
      have h4 := hs j (by omega)
      have h5 := abs_nonneg R
      rw [rest_norm]
      linarith
    · rw [rest_norm]
      have := le_abs_self R
      linarith
  have key := hC ⟨g, hg⟩ (List.mem_finRange _) (X U) (X V) (hball U fun j _ => by
      rw [sub_self, ← rest_norm]; have : rest m 0 = 0 := rfl
      rw [this, norm_zero]; exact zero_le_one) (hball V fun j hj => (hV j hj).trans h1)
  rw [hX, hX] at key
  refine key.trans (mul_le_mul_of_nonneg_left ?_ hC0)
  refine (pi_norm_le_iff_of_nonneg h0).2 fun j => ?_
  have e : (X U - X V) j = X U j - X V j := rfl
  rw [e]
  simp only [X]
  split_ifs with hj
  · rw [← norm_neg, neg_sub, ← rest_sub, rest_norm]
    exact hV j (by omega)
  · rw [sub_self, norm_zero]; exact h0

set_option maxHeartbeats 1000000 in
/-- One step: close histories and a small residual keep the states close. -/
theorem grains_step_close {kind : Kind n N} {run : List (RunGrain d e n N)} {faces : List (Face d e n N)} {dt : ℕ → ℝ}
    {K : Sol.Constraints ℕ} {m : ℕ} (h : SpecStableGrainRun kind run faces dt K m) (k : ℕ) (u : ℕ → ℕ → ℝ) (hu : SpecGrainSolution (SpecGrains run dt u k) K m (u (k + 1)))
    {ε : ℝ} (hε : 0 < ε) : ∃ η, 0 < η ∧ ∀ (v : ℕ → ℕ → ℝ) (r : ℕ → ℝ), (∀ j ≤ k, SpecLength m (v j - u j) ≤ η) →
      SpecGrainResidual (SpecGrains run dt v k) K m (v (k + 1)) r → SpecLength m r ≤ η →
      Sol.Satisfies K (v (k + 1) - u (k + 1)) → SpecLength m (v (k + 1) - u (k + 1)) < ε := by
  have hK := h.body.homogeneous
  obtain ⟨s, hs0, hs1, hs⟩ := defect_lower _ (grains_stable h u k).body
  obtain ⟨μ, hμ0, hμ⟩ := energy_grows _ (grains_stable h u k).body hK (grain_dofs (grains_dofs h u k)) (grains_determined h u k)
    (show 0 < ε / 2 by positivity)
  obtain ⟨C, hC0, hC⟩ := grains_row_close h k u (SpecLength m (u (k + 1)) + ε)
  set A := s * μ * ε / (4 * (1 + C * m)) with hA
  have hA0 : 0 < A := by positivity
  refine ⟨min 1 A, lt_min one_pos hA0, fun v r hv hr hrl hsat => ?_⟩
  by_contra hge
  push Not at hge
  obtain ⟨η, hη⟩ : ∃ η, η = min 1 A := ⟨_, rfl⟩
  rw [← hη] at hv hrl
  have hη0 : 0 ≤ η := by rw [hη]; exact (lt_min one_pos hA0).le
  have hη1 : η ≤ 1 := by rw [hη]; exact min_le_left _ _
  have hηA : η ≤ A := by rw [hη]; exact min_le_right _ _
  set D := v (k + 1) - u (k + 1) with hD
  set δ := SpecLength m D with hδ
  have hδ0 : 0 < δ := hε.trans_le hge
  set θ := ε / (2 * δ) with hθ
  have hθ0 : 0 < θ := by positivity
  have hθ1 : θ < 1 := by rw [hθ, div_lt_one (by positivity)]; linarith
  have hθδ : θ * δ = ε / 2 := by rw [hθ]; field_simp
  set z := u (k + 1) + θ • D with hz
  have ez : z - u (k + 1) = θ • D := by rw [hz]; abel
  have ev : v (k + 1) - z = (1 - θ) • D := by
    rw [hz, sub_smul, one_smul, hD]; abel
  have hsm : ∀ t : ℝ, Sol.Satisfies K (t • D) := fun t => smul_satisfies hK hsat t
  obtain ⟨Rv, hRv, hrv⟩ := hr
  -- on the computed history
  have g1 := grain_gap (grains_stable h v k) (v (k + 1)) z Rv (grainForces z) hRv (grains_always (grains_stable h v k) z)
  obtain ⟨n1, n2, n3⟩ := errors_nonneg _ (grains_stable h v k).body (v (k + 1)) z
  have n4 := faceError_nonneg h.face (v (k + 1)) z
  unfold SpecGrainError at g1
  rw [grain_work_residual _ hK (grains_dofs h v k) (by rw [ev]; exact hsm _) hrv,
    grain_work_residual _ hK (grains_dofs h v k) (by rw [ev]; exact hsm _) (r := grainsRow run dt K k v z) (fun g _ => rfl), ev] at g1
  have p1 : ∀ (t : ℝ) (f : ℕ → ℝ), ∑ g ∈ range m, (t • D) g * f g = t * ∑ g ∈ range m, D g * f g := by
    intro t f
    rw [mul_sum]
    exact sum_congr rfl fun g _ => by rw [Pi.smul_apply, smul_eq_mul]; ring
  rw [p1, p1] at g1
  have q1 : ∑ g ∈ range m, D g * r g ≤ ∑ g ∈ range m, D g * grainsRow run dt K k v z g := by
    have h1 : 0 < 1 - θ := by linarith
    have : 0 ≤ (1 - θ) * (∑ g ∈ range m, D g * grainsRow run dt K k v z g - ∑ g ∈ range m, D g * r g) := by nlinarith
    have := nonneg_of_mul_nonneg_right this h1
    linarith
  -- on the exact history
  obtain ⟨Ru, hRu, hru⟩ := hu
  have g2 := grain_gap (grains_stable h u k) z (u (k + 1)) (grainForces z) Ru (grains_always (grains_stable h u k) z) hRu
  rw [grain_work_residual _ hK (grains_dofs h u k) (by rw [ez]; exact hsm _) (r := grainsRow run dt K k u z) (fun g _ => rfl),
    grain_work_residual _ hK (grains_dofs h u k) (by rw [ez]; exact hsm _) (r := 0) hru, ez, p1] at g2
  simp only [Pi.zero_apply, mul_zero, sum_const_zero, neg_zero, sub_zero] at g2
  obtain ⟨-, -, m3⟩ := errors_nonneg _ (grains_stable h u k).body z (u (k + 1))
  have m4 := faceError_nonneg h.face z (u (k + 1))
  have l1 := hs z (u (k + 1))
  unfold SpecGrainError at g2
  rw [elastic_shift, ez] at g2
  rw [ez] at l1
  obtain ⟨e1, e2, -⟩ := errors_nonneg _ (grains_stable h u k).body (θ • D) 0
  have hlen : SpecLength m (θ • D) = ε / 2 := by rw [length_smul, abs_of_pos hθ0, ← hδ, hθδ]
  have l2 := hμ (θ • D) (hsm θ) (by rw [hlen])
  rw [hlen] at l2
  have l3 := mul_le_mul_of_nonneg_left l2 hs0.le
  -- comparison
  have hzl : SpecLength m z ≤ SpecLength m (u (k + 1)) + ε := by
    have := norm_add_le (rest m (u (k + 1))) (rest m (θ • D))
    have e : rest m (u (k + 1)) + rest m (θ • D) = rest m z := rfl
    rw [e, rest_norm, rest_norm, rest_norm, hlen] at this
    linarith
  have c1 : |∑ g ∈ range m, D g * (grainsRow run dt K k u z g - grainsRow run dt K k v z g)| ≤ δ * (C * η * m) := by
    refine (cauchy m D fun g => grainsRow run dt K k u z g - grainsRow run dt K k v z g).trans ?_
    refine mul_le_mul_of_nonneg_left ?_ hδ0.le
    refine Real.sqrt_le_iff.2 ⟨by positivity, ?_⟩
    have : ∀ g ∈ range m, (grainsRow run dt K k u z g - grainsRow run dt K k v z g) ^ 2 ≤ (C * η) ^ 2 := by
      intro g hg
      have := hC v z η hη0 hη1 hv hzl g (mem_range.1 hg)
      rw [← sq_abs]
      exact pow_le_pow_left₀ (abs_nonneg _) this 2
    refine (sum_le_sum this).trans ?_
    rw [sum_const, card_range, nsmul_eq_mul, mul_pow]
    have hm1 : (m : ℝ) ≤ (m : ℝ) ^ 2 := by
      have : m ≤ m ^ 2 := Nat.le_self_pow (by norm_num) m
      exact_mod_cast this
    have := mul_le_mul_of_nonneg_right hm1 (sq_nonneg (C * η))
    linarith
  have c2 : ∑ g ∈ range m, D g * (grainsRow run dt K k u z g - grainsRow run dt K k v z g) =
      ∑ g ∈ range m, D g * grainsRow run dt K k u z g - ∑ g ∈ range m, D g * grainsRow run dt K k v z g := by
    rw [← sum_sub_distrib]
    exact sum_congr rfl fun g _ => by ring
  have c3 := neg_le_of_abs_le (cauchy m D r)
  have c4 := neg_le_of_abs_le c1
  rw [c2] at c4
  have c5 : δ * SpecLength m r ≤ δ * η := mul_le_mul_of_nonneg_left hrl hδ0.le
  have c6 : -∑ g ∈ range m, D g * grainsRow run dt K k u z g ≤ δ * η * (1 + C * m) := by
    have : SpecLength m D * SpecLength m r = δ * SpecLength m r := rfl
    nlinarith
  have c7 := mul_le_mul_of_nonneg_left c6 hθ0.le
  have c8 : s * μ * (ε / 2) ^ 2 ≤ ε / 2 * η * (1 + C * m) := by
    have : θ * (δ * η * (1 + C * m)) = ε / 2 * η * (1 + C * m) := by rw [← hθδ]; ring
    nlinarith
  have c9 : ε / 2 * η * (1 + C * m) ≤ ε / 2 * A * (1 + C * m) := by
    have : 0 ≤ 1 + C * m := by positivity
    gcongr
  have c10 : ε / 2 * A * (1 + C * m) = s * μ * ε ^ 2 / 8 := by
    rw [hA]; field_simp; ring
  have : 0 < s * μ * ε ^ 2 := by positivity
  nlinarith

/-! ## Property: the tolerance -/

/-- C125: for every number of steps and every distance there is a tolerance such that all states computed within the
tolerance, every step with the history of the computed states, and from a start within the tolerance, lie within that
distance of the run. -/
theorem C125_tolerance {kind : Kind n N} (run : List (RunGrain d e n N)) (faces : List (Face d e n N)) (dt : ℕ → ℝ)
    (K : Sol.Constraints ℕ) (m : ℕ) (h : SpecStableGrainRun kind run faces dt K m) (B u : ℕ → ℕ → ℝ) (hu : SpecGrainRun run dt K m B u) (T : ℕ) (ε : ℝ) (hε : 0 < ε) :
    ∃ tol > 0, ∀ v, SpecLength m (v 0 - u 0) ≤ tol → SpecGrainComputed run dt K m B tol T v →
      ∀ k ≤ T, SpecLength m (v k - u k) < ε := by
  induction T generalizing ε with
  | zero =>
    refine ⟨ε / 2, by positivity, fun v h0 _ k hk => ?_⟩
    obtain rfl : k = 0 := by omega
    linarith
  | succ T ih =>
    obtain ⟨η, hη, hstep⟩ := grains_step_close h T u (hu T).2 hε
    obtain ⟨tol, ht, htol⟩ := ih (min ε η) (lt_min hε hη)
    refine ⟨min tol η, lt_min ht hη, fun v h0 hv k hk => ?_⟩
    have hprev := htol v (h0.trans (min_le_left _ _)) fun j hj => by
      obtain ⟨a, r, b, c⟩ := hv j (by omega)
      exact ⟨a, r, b, c.trans (min_le_left _ _)⟩
    rcases Nat.lt_or_ge k (T + 1) with hkT | hkT
    · exact (hprev k (by omega)).trans_le (min_le_left _ _)
    · obtain rfl : k = T + 1 := by omega
      obtain ⟨a, r, b, c⟩ := hv T (by omega)
      refine hstep v r (fun j hj => ((hprev j hj).trans_le (min_le_right _ _)).le) b (c.trans (min_le_right _ _)) ?_
      have := satisfies_sub h.body.homogeneous a (hu T).1
      rwa [sub_sub_sub_cancel_right] at this

/-! ## Non-vacuity -/

/-- Two grains with microtractions between them; the first carries the supply `f k`, the second the load `p k`. -/
noncomputable def exSoftGrainRun (f p : ℕ → ℝ) : List (RunGrain 2 1 1 2) :=
  [⟨⟨(exSoftLeft (1 / 10) 0).cell, fun k _ => ![f k, 0]⟩, 1, fun _ => exView, 0, fun _ => Fin.elim0⟩,
    ⟨⟨(exSoftRight (1 / 10) 0).cell, fun _ _ => 0⟩, 1, fun _ => exView.flip fun i => i, 1,
      fun k _ => ⟨exMeet, ![p k, 0], 1⟩⟩]

theorem exSoftGrainRun_stable (f p : ℕ → ℝ) :
    SpecStableGrainRun exKind (exSoftGrainRun f p) [(fun i => i, exView)] (fun _ => 1) (fun _ => none) 4 := by
  have hg := exSoftGrains (1 / 10) 0 0 (by norm_num) (by norm_num)
  have hall : ∀ (P : MeshCell 2 1 2 → Prop), P (exSoftLeft (1 / 10) 0).cell → P (exSoftRight (1 / 10) 0).cell →
      ∀ r ∈ (exSoftGrainRun f p).map RunGrain.run, P r.cell := by
    intro P ha hb r hr
    rcases List.mem_cons.1 hr with rfl | hr
    · exact ha
    · obtain rfl := List.mem_singleton.1 hr; exact hb
  have ma : (exSoftLeft (1 / 10) 0).cell ∈ [exSoftLeft (1 / 10) 0, exSoftRight (1 / 10) 0].map GrainCell.cell := by simp
  have mb : (exSoftRight (1 / 10) 0).cell ∈ [exSoftLeft (1 / 10) 0, exSoftRight (1 / 10) 0].map GrainCell.cell := by simp
  refine ⟨List.Perm.refl _, exView_ok, ?_, ?_⟩
  · intro r hr
    rcases List.mem_cons.1 hr with rfl | hr
    · rfl
    · obtain rfl := List.mem_singleton.1 hr; rfl
  · constructor
    · exact hall _ (hg.body.cell _ ma) (hg.body.cell _ mb)
    · exact hall (fun c => SpecMaterial c.prm) (hg.body.material _ ma) (hg.body.material _ mb)
    · exact hall (fun c => SpecHardens c.prm.law.hard) (hg.body.hardens _ ma) (hg.body.hardens _ mb)
    · exact hall (fun c => c.prm.law.rateIndependent = false) rfl rfl
    · exact fun _ => one_pos
    · refine hall (fun c => ∀ q a, ∀ _ : ℕ, SpecLatent c.prm.law 1 1 ≤ (c.pts q).hist.tmp a) ?_ ?_
      · intro q a _
        exact hg.body.sharp _ ma q a
      · intro q a _
        exact hg.body.sharp _ mb q a
    · exact ⟨fun _ _ h => by simp at h, fun _ _ h => by simp at h, fun _ _ h => by simp at h⟩
    · refine hall (fun c => ∀ i, c.dofs i < 4) ?_ ?_
      · intro i
        show (i : ℕ) < 4
        have := (i : Fin 2).2; omega
      · intro i
        show (i : ℕ) + 2 < 4
        have := (i : Fin 2).2; omega
    · exact exSoftGrains_determined (1 / 10) 0 0 (by norm_num) (by norm_num)

/-- C125 in a concrete case: for all sequences of loads two grains have exactly one run from rest, and computed runs come
as close to it as one wishes. -/
example (f p : ℕ → ℝ) : ∃ u, u 0 = 0 ∧ SpecGrainRun (exSoftGrainRun f p) (fun _ => 1) (fun _ => none) 4 0 u ∧
    (∀ v, v 0 = 0 → SpecGrainRun (exSoftGrainRun f p) (fun _ => 1) (fun _ => none) 4 0 v → ∀ k, ∀ g < 4, v k g = u k g) ∧
    ∀ T, ∀ ε > 0, ∃ tol > 0, ∀ v, v 0 = 0 →
      SpecGrainComputed (exSoftGrainRun f p) (fun _ => 1) (fun _ => none) 4 0 tol T v →
      ∀ k ≤ T, SpecLength 4 (v k - u k) < ε := by
  obtain ⟨u, h0, hu⟩ := C125_exists _ _ _ _ _ (exSoftGrainRun_stable f p) 0 0
  refine ⟨u, h0, hu, fun v hv hr => C125_unique _ _ _ _ _ (exSoftGrainRun_stable f p) 0 v u (fun g _ => by rw [h0, hv]) hr hu,
    fun T ε hε => ?_⟩
  obtain ⟨tol, ht, h⟩ := C125_tolerance _ _ _ _ _ (exSoftGrainRun_stable f p) 0 u hu T ε hε
  refine ⟨tol, ht, fun v hv hc => h v ?_ hc⟩
  rw [hv, h0, sub_self]
  simp [SpecLength]
  exact ht.le

end Verif.Asm
