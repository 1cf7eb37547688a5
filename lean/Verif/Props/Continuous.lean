import Verif.Props.GrainRun

/-!
# A run depends continuously on everything that is prescribed: C127
-/

namespace Verif.Asm
open Matrix Finset Verif.Cry Verif.Hist Verif.Micro Verif.Lin Verif.Mono Verif.Itf

variable {d e n N : ℕ}

/-! ## Specification -/

/-- Supplies of all steps at the quadrature points of the cells. -/
abbrev Supplies (d e n N : ℕ) := (r : RunGrain d e n N) → ℕ → Fin r.run.cell.Q → Vec d

/-- Tractions of all steps at the quadrature points of the loaded faces. -/
abbrev Tractions (d e n N : ℕ) := (r : RunGrain d e n N) → ℕ → Fin r.B → Vec d

/-- The same polycrystal under other supplies and tractions. -/
def SpecReloaded (run : List (RunGrain d e n N)) (f : Supplies d e n N) (p : Tractions d e n N) :
    List (RunGrain d e n N) :=
  run.map fun r => ⟨⟨r.run.cell, f r⟩, r.F, r.views, r.B, fun k b => { r.loads k b with value := p r k b }⟩

/-- The other supplies and tractions of a step differ from the original ones by no more than `η`. -/
def SpecLoadsWithin (run : List (RunGrain d e n N)) (f : Supplies d e n N) (p : Tractions d e n N) (k : ℕ) (η : ℝ) : Prop :=
  ∀ r ∈ run, (∀ q j, |f r k q j - r.run.supply k q j| ≤ η) ∧ ∀ b j, |p r k b j - (r.loads k b).value j| ≤ η

/-! ## Helpers: other loads -/

theorem reloaded_cells (run : List (RunGrain d e n N)) (f : Supplies d e n N) (p : Tractions d e n N) :
    ((SpecReloaded run f p).map RunGrain.run).map RunCell.cell = (run.map RunGrain.run).map RunCell.cell := by
  unfold SpecReloaded
  simp only [List.map_map]
  rfl

theorem reloaded_stable {kind : Kind n N} {run : List (RunGrain d e n N)} {faces : List (Face d e n N)} {dt : ℕ → ℝ}
    {K : Sol.Constraints ℕ} {m : ℕ} (h : SpecStableGrainRun kind run faces dt K m) (f : Supplies d e n N)
    (p : Tractions d e n N) : SpecStableGrainRun kind (SpecReloaded run f p) faces dt K m := by
  have key : ∀ r ∈ (SpecReloaded run f p).map RunGrain.run, ∃ r' ∈ run.map RunGrain.run, r.cell = r'.cell := by
    intro r hr
    obtain ⟨g, hg, rfl⟩ := List.mem_map.1 hr
    obtain ⟨g', hg', rfl⟩ := List.mem_map.1 hg
    exact ⟨g'.run, List.mem_map.2 ⟨g', hg', rfl⟩, rfl⟩
  refine ⟨?_, h.face, ?_, ?_⟩
  · have := h.paired
    unfold SpecRunPaired at this ⊢
    unfold SpecReloaded
    rw [List.flatMap_map]
    exact this
  · intro r hr
    obtain ⟨g, hg, rfl⟩ := List.mem_map.1 hr
    exact h.kinds g hg
  · constructor
    · intro r hr; obtain ⟨r', h', e⟩ := key r hr; rw [e]; exact h.body.cell r' h'
    · intro r hr; obtain ⟨r', h', e⟩ := key r hr; rw [e]; exact h.body.material r' h'
    · intro r hr; obtain ⟨r', h', e⟩ := key r hr; rw [e]; exact h.body.hardens r' h'
    · intro r hr; obtain ⟨r', h', e⟩ := key r hr; rw [e]; exact h.body.rate r' h'
    · exact h.body.step
    · intro r hr; obtain ⟨r', h', e⟩ := key r hr; rw [e]; exact h.body.sharp r' h'
    · exact h.body.homogeneous
    · intro r hr; obtain ⟨r', h', e⟩ := key r hr; rw [e]; exact h.body.dofs r' h'
    · rw [reloaded_cells]; exact h.body.determined

theorem reloaded_hist (r : RunCell d n N) (s : ℕ → Fin r.cell.Q → Vec d) (u : ℕ → ℕ → ℝ) (q : Fin r.cell.Q) (k : ℕ) :
    RunCell.histAt ⟨r.cell, s⟩ u q k = r.histAt u q k := by
  induction k with
  | zero => rfl
  | succ k ih => unfold RunCell.histAt; rw [ih]

/-- Another supply moves the right-hand side by the work of the difference. -/
theorem reloaded_rhs (r : RunCell d n N) (hc : SpecMaterial r.cell.prm) (hr : r.cell.prm.law.rateIndependent = false)
    (s : ℕ → Fin r.cell.Q → Vec d) (dt : ℕ → ℝ) (v : ℕ → ℕ → ℝ) (z : ℕ → ℝ) (k : ℕ) (i : Fin N) :
    cellRhs z (RunCell.at ⟨r.cell, s⟩ dt v k) i = cellRhs z (r.at dt v k) i + ∑ q, (match r.cell.kind i with
      | none => r.cell.prm.dn3 / r.cell.prm.dn0 * ((r.cell.pts q).shape.disp i ⬝ᵥ (s k q - r.supply k q)) *
          (r.cell.pts q).shape.jxw
      | some _ => 0) := by
  choose R h1 _ using fun q => run_term_ll (E := ℝ) r hc hr dt (V := fun _ => v) (Z := fun _ => z) k
    (fun _ _ _ => LL.const _) (fun _ => LL.const _) q i
  have e1 : (r.at dt v k).prm.rhs r.cell.kind (r.at dt v k).pts (z ∘ r.cell.dofs) i = some (∑ q, R q 0) :=
    sumOpt_some _ _ fun q => h1 q 0
  have e2 : (RunCell.at ⟨r.cell, s⟩ dt v k).prm.rhs r.cell.kind (RunCell.at ⟨r.cell, s⟩ dt v k).pts (z ∘ r.cell.dofs) i =
      some (∑ q, (R q 0 + (match r.cell.kind i with
      | none => r.cell.prm.dn3 / r.cell.prm.dn0 * ((r.cell.pts q).shape.disp i ⬝ᵥ (s k q - r.supply k q)) *
          (r.cell.pts q).shape.jxw
      | some _ => 0))) := by
    refine sumOpt_some _ _ fun (q : Fin r.cell.Q) => ?_
    have h2 := h1 q 0
    have eh : ((RunCell.at ⟨r.cell, s⟩ dt v k).pts q) =
        { (r.at dt v k).pts q with supply := s k q } :=
      congrArg (fun H : Bulk n => (⟨(r.cell.pts q).shape, s k q, H, (r.cell.pts q).shape.slip (v k ∘ r.cell.dofs)⟩ :
        Point d n N)) (reloaded_hist r s v q k)
    have ep : (RunCell.at ⟨r.cell, s⟩ dt v k).prm = (r.at dt v k).prm := rfl
    rw [eh, ep]
    rcases hi : r.cell.kind i with _ | a
    · unfold CellPrm.rhsTerm at h2 ⊢
      simp only [hi, Option.some.injEq] at h2 ⊢
      rw [← h2, dotProduct_sub]
      show _ = -(r.cell.prm.dn3 / r.cell.prm.dn0 * (_ - (r.cell.pts q).shape.disp i ⬝ᵥ r.supply k q) * (r.cell.pts q).shape.jxw) + _
      show -(r.cell.prm.dn3 / r.cell.prm.dn0 * (_ - (r.cell.pts q).shape.disp i ⬝ᵥ s k q) * (r.cell.pts q).shape.jxw) = _
      ring
    · simp only [add_zero]
      rw [← h2]
      unfold CellPrm.rhsTerm
      simp only [hi]
  have f1 : cellRhs z (r.at dt v k) i = ∑ q, R q 0 := by
    show ((r.at dt v k).prm.rhs r.cell.kind (r.at dt v k).pts (z ∘ r.cell.dofs) i).getD 0 = _
    rw [e1]; rfl
  rw [f1, ← sum_add_distrib]
  show ((RunCell.at ⟨r.cell, s⟩ dt v k).prm.rhs r.cell.kind (RunCell.at ⟨r.cell, s⟩ dt v k).pts (z ∘ r.cell.dofs) i).getD 0 = _
  rw [e2]; rfl

theorem dot_bound (a x : Vec d) {η : ℝ} (h : ∀ j, |x j| ≤ η) : |a ⬝ᵥ x| ≤ (∑ j, |a j|) * η := by
  unfold dotProduct
  refine (abs_sum_le_sum_abs _ _).trans ?_
  rw [sum_mul]
  exact sum_le_sum fun j _ => by rw [abs_mul]; exact mul_le_mul_of_nonneg_left (h j) (abs_nonneg _)

/-- How much the force of a cell moves per unit of load. -/
noncomputable def leverage (r : RunGrain d e n N) (k : ℕ) (i : Fin N) : ℝ :=
  ∑ q, |r.run.cell.prm.dn3 / r.run.cell.prm.dn0| * (∑ j, |(r.run.cell.pts q).shape.disp i j|) *
      |(r.run.cell.pts q).shape.jxw| +
    ∑ b, (∑ j, |(r.loads k b).side.disp i j|) * |(r.loads k b).jxw|

theorem leverage_nonneg (r : RunGrain d e n N) (k : ℕ) (i : Fin N) : 0 ≤ leverage r k i := by
  unfold leverage; positivity

/-- Close loads keep the rows close. -/
theorem load_close {kind : Kind n N} {run : List (RunGrain d e n N)} {faces : List (Face d e n N)} {dt : ℕ → ℝ}
    {K : Sol.Constraints ℕ} {m : ℕ} (h : SpecStableGrainRun kind run faces dt K m) (k : ℕ) :
    ∃ C, 0 ≤ C ∧ ∀ (f : Supplies d e n N) (p : Tractions d e n N) (η : ℝ), 0 ≤ η → SpecLoadsWithin run f p k η →
      ∀ (v : ℕ → ℕ → ℝ) (z : ℕ → ℝ), ∀ g < m,
        |grainsRow run dt K k v z g - grainsRow (SpecReloaded run f p) dt K k v z g| ≤ C * η := by
  refine ⟨∑ g ∈ range m, (run.map fun r => ∑ i, |weight K (r.run.cell.dofs i) g| * leverage r k i).sum, ?_, ?_⟩
  · refine sum_nonneg fun g _ => List.sum_nonneg ?_
    intro x hx
    obtain ⟨r, _, rfl⟩ := List.mem_map.1 hx
    exact sum_nonneg fun i _ => mul_nonneg (abs_nonneg _) (leverage_nonneg r k i)
  intro f p η hη hf v z g hg
  have hle : (run.map fun r => ∑ i, |weight K (r.run.cell.dofs i) g| * leverage r k i).sum * η ≤
      (∑ g ∈ range m, (run.map fun r => ∑ i, |weight K (r.run.cell.dofs i) g| * leverage r k i).sum) * η := by
    refine mul_le_mul_of_nonneg_right ?_ hη
    refine single_le_sum (f := fun g => (run.map fun r => ∑ i, |weight K (r.run.cell.dofs i) g| * leverage r k i).sum)
      (fun g _ => List.sum_nonneg ?_) (mem_range.2 hg)
    intro x hx
    obtain ⟨r, _, rfl⟩ := List.mem_map.1 hx
    exact sum_nonneg fun i _ => mul_nonneg (abs_nonneg _) (leverage_nonneg r k i)
  refine le_trans ?_ hle
  have h' := reloaded_stable h f p
  unfold grainsRow Lin.residual SpecGrains SpecReloaded
  simp only [List.map_map]
  have key : ∀ r ∈ run, |(∑ i, weight K (r.run.cell.dofs i) g * grainForces z (r.at dt v k) i) -
      ∑ i, weight K (r.run.cell.dofs i) g * grainForces z (RunGrain.at (⟨⟨r.run.cell, f r⟩, r.F, r.views, r.B,
        fun k b => { r.loads k b with value := p r k b }⟩ : RunGrain d e n N) dt v k) i| ≤
      (∑ i, |weight K (r.run.cell.dofs i) g| * leverage r k i) * η := by
    intro r hr
    rw [← sum_sub_distrib, sum_mul]
    refine (abs_sum_le_sum_abs _ _).trans (sum_le_sum fun i _ => ?_)
    rw [← mul_sub, abs_mul, mul_assoc]
    refine mul_le_mul_of_nonneg_left ?_ (abs_nonneg _)
    have hin : r.run ∈ run.map RunGrain.run := List.mem_map.2 ⟨r, hr, rfl⟩
    have s1 := (split_rhs (grains_stable h v k).paired h.face (grains_stable h v k).kinds
      (grains_always (grains_stable h v k) z) (g := r.at dt v k) (List.mem_map.2 ⟨r, hr, rfl⟩) i).2
    have s2 := (split_rhs (grains_stable h' v k).paired h.face (grains_stable h' v k).kinds
      (grains_always (grains_stable h' v k) z) (g := RunGrain.at (⟨⟨r.run.cell, f r⟩, r.F, r.views, r.B,
        fun k b => { r.loads k b with value := p r k b }⟩ : RunGrain d e n N) dt v k)
      (List.mem_map.2 ⟨_, List.mem_map.2 ⟨r, hr, rfl⟩, rfl⟩) i).2
    have s3 := reloaded_rhs r.run (h.body.material _ hin) (h.body.rate _ hin) (f r) dt v z k i
    rw [s1, s2]
    show |(cellRhs z (r.run.at dt v k) i + ∑ b, viewForce kind (r.run.cell.dofs, r.views b) z i +
        ∑ b, ((r.loads k b).side.disp i ⬝ᵥ (r.loads k b).value) * (r.loads k b).jxw) -
      (cellRhs z (RunCell.at ⟨r.run.cell, f r⟩ dt v k) i + ∑ b, viewForce kind (r.run.cell.dofs, r.views b) z i +
        ∑ b, ((r.loads k b).side.disp i ⬝ᵥ p r k b) * (r.loads k b).jxw)| ≤ _
    rw [s3]
    obtain ⟨hs, ht⟩ := hf r hr
    have b1 : |∑ q, (match r.run.cell.kind i with
      | none => r.run.cell.prm.dn3 / r.run.cell.prm.dn0 * ((r.run.cell.pts q).shape.disp i ⬝ᵥ (f r k q - r.run.supply k q)) *
          (r.run.cell.pts q).shape.jxw
      | some _ => 0)| ≤ (∑ q, |r.run.cell.prm.dn3 / r.run.cell.prm.dn0| * (∑ j, |(r.run.cell.pts q).shape.disp i j|) *
      |(r.run.cell.pts q).shape.jxw|) * η := by
      rw [sum_mul]
      refine (abs_sum_le_sum_abs _ _).trans (sum_le_sum fun q _ => ?_)
      split
      · rw [abs_mul, abs_mul]
        have := dot_bound ((r.run.cell.pts q).shape.disp i) (f r k q - r.run.supply k q) fun j => hs q j
        calc _ ≤ |r.run.cell.prm.dn3 / r.run.cell.prm.dn0| * ((∑ j, |(r.run.cell.pts q).shape.disp i j|) * η) *
              |(r.run.cell.pts q).shape.jxw| := by gcongr
          _ = _ := by ring
      · rw [abs_zero]; positivity
    have b2 : |∑ b, ((r.loads k b).side.disp i ⬝ᵥ (p r k b - (r.loads k b).value)) * (r.loads k b).jxw| ≤
        (∑ b, (∑ j, |(r.loads k b).side.disp i j|) * |(r.loads k b).jxw|) * η := by
      rw [sum_mul]
      refine (abs_sum_le_sum_abs _ _).trans (sum_le_sum fun b _ => ?_)
      rw [abs_mul]
      have := dot_bound ((r.loads k b).side.disp i) (p r k b - (r.loads k b).value) fun j => ht b j
      calc _ ≤ ((∑ j, |(r.loads k b).side.disp i j|) * η) * |(r.loads k b).jxw| := by gcongr
        _ = _ := by ring
    have b3 : ∑ b, ((r.loads k b).side.disp i ⬝ᵥ (p r k b - (r.loads k b).value)) * (r.loads k b).jxw =
        ∑ b, ((r.loads k b).side.disp i ⬝ᵥ p r k b) * (r.loads k b).jxw -
        ∑ b, ((r.loads k b).side.disp i ⬝ᵥ (r.loads k b).value) * (r.loads k b).jxw := by
      rw [← sum_sub_distrib]
      exact sum_congr rfl fun b _ => by rw [dotProduct_sub]; ring
    rw [b3] at b2
    unfold leverage
    rw [add_mul]
    have b4 := abs_add_le (∑ q, (match r.run.cell.kind i with
      | none => r.run.cell.prm.dn3 / r.run.cell.prm.dn0 * ((r.run.cell.pts q).shape.disp i ⬝ᵥ (f r k q - r.run.supply k q)) *
          (r.run.cell.pts q).shape.jxw
      | some _ => 0)) (∑ b, ((r.loads k b).side.disp i ⬝ᵥ p r k b) * (r.loads k b).jxw -
        ∑ b, ((r.loads k b).side.disp i ⬝ᵥ (r.loads k b).value) * (r.loads k b).jxw)
    rw [abs_sub_comm]
    refine le_trans (le_of_eq ?_) (b4.trans (add_le_add b1 b2))
    congr 1
    ring
  clear hle hf h h'
  induction run with
  | nil => simp
  | cons r l ih =>
    simp only [List.map_cons, List.sum_cons, add_mul]
    have i1 := key r List.mem_cons_self
    have i2 := ih fun r hr => key r (List.mem_cons_of_mem _ hr)
    refine le_trans ?_ (add_le_add i1 i2)
    refine le_trans (le_of_eq ?_) (abs_add_le _ _)
    congr 1
    simp only [Function.comp_apply]
    exact (add_sub_add_comm _ _ _ _)

/-! ## Helpers: one step -/

/-- Near a history and a state the rows are close. -/
theorem grains_row_near {kind : Kind n N} {run : List (RunGrain d e n N)} {faces : List (Face d e n N)} {dt : ℕ → ℝ}
    {K : Sol.Constraints ℕ} {m : ℕ} (h : SpecStableGrainRun kind run faces dt K m) (k : ℕ) (U : ℕ → ℕ → ℝ) (R : ℝ) :
    ∃ C, 0 ≤ C ∧ ∀ (V : ℕ → ℕ → ℝ) (z y : ℕ → ℝ) (η : ℝ), 0 ≤ η → η ≤ 1 → (∀ j ≤ k, SpecLength m (V j - U j) ≤ η) →
      SpecLength m z ≤ R → SpecLength m (y - z) ≤ η →
      ∀ g < m, |grainsRow run dt K k U z g - grainsRow run dt K k V y g| ≤ C * η := by
  let E := Fin (k + 2) → EuclideanSpace ℝ (Fin m)
  let hist : E → ℕ → ℕ → ℝ := fun x j => if hj : j < k + 1 then ext (x ⟨j, by omega⟩) else 0
  let last : E → ℕ → ℝ := fun x => ext (x ⟨k + 1, by omega⟩)
  have hcomp : ∀ (i : Fin (k + 2)) (g : ℕ), LL fun x : E => ext (x i) g := by
    intro i g R
    obtain ⟨C, h0, hC⟩ := ext_ll (m := m) g R
    refine ⟨C, h0, fun x y hx hy => (hC (x i) (y i) ((norm_le_pi_norm x i).trans hx) ((norm_le_pi_norm y i).trans hy)).trans ?_⟩
    exact mul_le_mul_of_nonneg_left (norm_le_pi_norm (x - y) i) h0
  have hLL : ∀ g, LL fun x : E => grainsRow run dt K k (hist x) (last x) g := fun g =>
    grains_row_ll h k (fun j hj g _ => by
      have : j < k + 1 := by omega
      simp only [hist, this, dif_pos]
      exact hcomp _ g) (fun g _ => hcomp _ g) g
  obtain ⟨C, hC0, hC⟩ := uniform (List.finRange m) (fun g C => ∀ x y : E,
      ‖x‖ ≤ |R| + ∑ j ∈ range (k + 1), SpecLength m (U j) + 1 → ‖y‖ ≤ |R| + ∑ j ∈ range (k + 1), SpecLength m (U j) + 1 →
      |grainsRow run dt K k (hist x) (last x) g - grainsRow run dt K k (hist y) (last y) g| ≤ C * ‖x - y‖)
    (fun g s t hst hs x y hx hy => (hs x y hx hy).trans (mul_le_mul_of_nonneg_right hst (norm_nonneg _)))
    fun g _ => by
      obtain ⟨C, h0, hC⟩ := hLL g (|R| + ∑ j ∈ range (k + 1), SpecLength m (U j) + 1)
      exact ⟨C, h0, hC⟩
  refine ⟨C, hC0, fun V z y η h0 h1 hV hz hy g hg => ?_⟩
  let X : (ℕ → ℕ → ℝ) → (ℕ → ℝ) → E := fun W x j => if (j : ℕ) < k + 1 then rest m (W j) else rest m x
  have hX : ∀ W x g, grainsRow run dt K k (hist (X W x)) (last (X W x)) g = grainsRow run dt K k W x g := by
    intro W x g
    refine grainsRow_congr h k (fun j hj g hg => ?_) (fun g hg => ?_) g
    · have : j < k + 1 := by omega
      simp only [hist, this, dif_pos, X, if_true]
      exact rest_ext m _ hg
    · simp only [last, X, lt_irrefl, if_false]
      exact rest_ext m _ hg
  have hs : ∀ j ≤ k, SpecLength m (U j) ≤ ∑ j ∈ range (k + 1), SpecLength m (U j) := fun j hj =>
    single_le_sum (f := fun j => SpecLength m (U j)) (fun j _ => length_nonneg m (U j)) (mem_range.2 (by omega))
  have hsn : 0 ≤ ∑ j ∈ range (k + 1), SpecLength m (U j) := sum_nonneg fun j _ => length_nonneg m (U j)
  have hball : ∀ (W : ℕ → ℕ → ℝ) (x : ℕ → ℝ), (∀ j ≤ k, SpecLength m (W j - U j) ≤ 1) → SpecLength m x ≤ |R| + 1 →
      ‖X W x‖ ≤ |R| + ∑ j ∈ range (k + 1), SpecLength m (U j) + 1 := by
    intro W x hW hx
    refine (pi_norm_le_iff_of_nonneg (by positivity)).2 fun j => ?_
    simp only [X]
    split_ifs with hj
    · have h2 := norm_add_le (rest m (W j) - rest m (U j)) (rest m (U j))
      rw [sub_add_cancel, ← rest_sub, rest_norm, rest_norm, rest_norm] at h2
      have h3 := hW j (by omega)
      have h4 := hs j (by omega)
      have h5 := abs_nonneg R
      rw [rest_norm]
      linarith
    · rw [rest_norm]
      linarith
  have hyl : SpecLength m y ≤ |R| + 1 := by
    have := norm_add_le (rest m (y - z)) (rest m z)
    have e : rest m (y - z) + rest m z = rest m y := by rw [rest_sub, sub_add_cancel]
    rw [e, rest_norm, rest_norm, rest_norm] at this
    have := le_abs_self R
    linarith
  have key := hC ⟨g, hg⟩ (List.mem_finRange _) (X U z) (X V y) (hball U z (fun j _ => by
      rw [sub_self, ← rest_norm]; have : rest m 0 = 0 := rfl
      rw [this, norm_zero]; exact zero_le_one) (by have := le_abs_self R; linarith))
    (hball V y (fun j hj => (hV j hj).trans h1) hyl)
  rw [hX, hX] at key
  refine key.trans (mul_le_mul_of_nonneg_left ?_ hC0)
  refine (pi_norm_le_iff_of_nonneg h0).2 fun j => ?_
  have e : (X U z - X V y) j = X U z j - X V y j := rfl
  rw [e]
  simp only [X]
  split_ifs with hj
  · rw [← norm_neg, neg_sub, ← rest_sub, rest_norm]
    exact hV j (by omega)
  · rw [← norm_neg, neg_sub, ← rest_sub, rest_norm]; exact hy

set_option maxHeartbeats 1000000 in
/-- One step: close histories, loads and boundary values and a small residual keep the states close. -/
theorem grains_step_stable {kind : Kind n N} {run : List (RunGrain d e n N)} {faces : List (Face d e n N)} {dt : ℕ → ℝ}
    {K : Sol.Constraints ℕ} {m : ℕ} (h : SpecStableGrainRun kind run faces dt K m) (k : ℕ) (u : ℕ → ℕ → ℝ) (hu : SpecGrainSolution (SpecGrains run dt u k) K m (u (k + 1)))
    {ε : ℝ} (hε : 0 < ε) : ∃ η, 0 < η ∧ ∀ (f : Supplies d e n N) (p : Tractions d e n N) (v : ℕ → ℕ → ℝ) (b r : ℕ → ℝ),
      SpecLoadsWithin run f p k η → (∀ j ≤ k, SpecLength m (v j - u j) ≤ η) → SpecLength m b ≤ η →
      SpecGrainResidual (SpecGrains (SpecReloaded run f p) dt v k) K m (v (k + 1)) r → SpecLength m r ≤ η →
      Sol.Satisfies K (v (k + 1) - u (k + 1) - b) → SpecLength m (v (k + 1) - u (k + 1) - b) < ε := by
  have hK := h.body.homogeneous
  obtain ⟨s, hs0, hs1, hs⟩ := defect_lower _ (grains_stable h u k).body
  obtain ⟨μ, hμ0, hμ⟩ := energy_grows _ (grains_stable h u k).body hK (grain_dofs (grains_dofs h u k)) (grains_determined h u k)
    (show 0 < ε / 2 by positivity)
  obtain ⟨C₁, hC₁, hC⟩ := grains_row_near h k u (SpecLength m (u (k + 1)) + ε)
  obtain ⟨C₂, hC₂, hL⟩ := load_close h k
  set C := C₁ + C₂ with hCdef
  have hC0 : 0 ≤ C := by positivity
  set A := s * μ * ε / (4 * (1 + C * m)) with hA
  have hA0 : 0 < A := by positivity
  refine ⟨min 1 A, lt_min one_pos hA0, fun f p v b r hf hv hb hr hrl hsat => ?_⟩
  by_contra hge
  push Not at hge
  obtain ⟨η, hη⟩ : ∃ η, η = min 1 A := ⟨_, rfl⟩
  rw [← hη] at hv hrl hf hb
  have hη0 : 0 ≤ η := by rw [hη]; exact (lt_min one_pos hA0).le
  have hη1 : η ≤ 1 := by rw [hη]; exact min_le_left _ _
  have hηA : η ≤ A := by rw [hη]; exact min_le_right _ _
  have h' := reloaded_stable h f p
  set D := v (k + 1) - u (k + 1) - b with hD
  set δ := SpecLength m D with hδ
  have hδ0 : 0 < δ := hε.trans_le hge
  set θ := ε / (2 * δ) with hθ
  have hθ0 : 0 < θ := by positivity
  have hθ1 : θ < 1 := by rw [hθ, div_lt_one (by positivity)]; linarith
  have hθδ : θ * δ = ε / 2 := by rw [hθ]; field_simp
  set z := u (k + 1) + θ • D with hz
  have ez : z - u (k + 1) = θ • D := by rw [hz]; abel
  have ev : v (k + 1) - (z + b) = (1 - θ) • D := by
    rw [hz, sub_smul, one_smul, hD]; abel
  have hsm : ∀ t : ℝ, Sol.Satisfies K (t • D) := fun t => smul_satisfies hK hsat t
  obtain ⟨Rv, hRv, hrv⟩ := hr
  -- on the computed history
  have g1 := grain_gap (grains_stable h' v k) (v (k + 1)) (z + b) Rv (grainForces (z + b)) hRv (grains_always (grains_stable h' v k) (z + b))
  obtain ⟨n1, n2, n3⟩ := errors_nonneg _ (grains_stable h' v k).body (v (k + 1)) (z + b)
  have n4 := faceError_nonneg h.face (v (k + 1)) (z + b)
  unfold SpecGrainError at g1
  rw [grain_work_residual _ hK (grains_dofs h' v k) (by rw [ev]; exact hsm _) hrv,
    grain_work_residual _ hK (grains_dofs h' v k) (by rw [ev]; exact hsm _) (r := grainsRow (SpecReloaded run f p) dt K k v (z + b)) (fun g _ => rfl), ev] at g1
  have p1 : ∀ (t : ℝ) (f : ℕ → ℝ), ∑ g ∈ range m, (t • D) g * f g = t * ∑ g ∈ range m, D g * f g := by
    intro t f
    rw [mul_sum]
    exact sum_congr rfl fun g _ => by rw [Pi.smul_apply, smul_eq_mul]; ring
  rw [p1, p1] at g1
  have q1 : ∑ g ∈ range m, D g * r g ≤ ∑ g ∈ range m, D g * grainsRow (SpecReloaded run f p) dt K k v (z + b) g := by
    have h1 : 0 < 1 - θ := by linarith
    have : 0 ≤ (1 - θ) * (∑ g ∈ range m, D g * grainsRow (SpecReloaded run f p) dt K k v (z + b) g - ∑ g ∈ range m, D g * r g) := by nlinarith
    have := nonneg_of_mul_nonneg_right this h1
    linarith
  -- on the exact history
  obtain ⟨Ru, hRu, hru⟩ := hu
  have g2 := grain_gap (grains_stable h u k) z (u (k + 1)) (grainForces z) Ru (grains_always (grains_stable h u k) z) hRu
  rw [grain_work_residual _ hK (grains_dofs h u k) (by rw [ez]; exact hsm _) (r := grainsRow run dt K k u z) (fun g _ => rfl),
    grain_work_residual _ hK (grains_dofs h u k) (by rw [ez]; exact hsm _) (r := 0) hru, ez, p1] at g2
  simp only [Pi.zero_apply, mul_zero, sum_const_zero, neg_zero, sub_zero] at g2
  obtain ⟨-, -, m3⟩ := errors_nonneg _ (grains_stable h u k).body z (u (k + 1))
  have m4 := faceError_nonneg h.face z (u (k + 1))
  have l1 := hs z (u (k + 1))
  unfold SpecGrainError at g2
  rw [elastic_shift, ez] at g2
  rw [ez] at l1
  obtain ⟨e1, e2, -⟩ := errors_nonneg _ (grains_stable h u k).body (θ • D) 0
  have hlen : SpecLength m (θ • D) = ε / 2 := by rw [length_smul, abs_of_pos hθ0, ← hδ, hθδ]
  have l2 := hμ (θ • D) (hsm θ) (by rw [hlen])
  rw [hlen] at l2
  have l3 := mul_le_mul_of_nonneg_left l2 hs0.le
  -- comparison
  have hzl : SpecLength m z ≤ SpecLength m (u (k + 1)) + ε := by
    have := norm_add_le (rest m (u (k + 1))) (rest m (θ • D))
    have e : rest m (u (k + 1)) + rest m (θ • D) = rest m z := rfl
    rw [e, rest_norm, rest_norm, rest_norm, hlen] at this
    linarith
  have c1 : |∑ g ∈ range m, D g * (grainsRow run dt K k u z g - grainsRow (SpecReloaded run f p) dt K k v (z + b) g)| ≤ δ * (C * η * m) := by
    refine (cauchy m D fun g => grainsRow run dt K k u z g - grainsRow (SpecReloaded run f p) dt K k v (z + b) g).trans ?_
    refine mul_le_mul_of_nonneg_left ?_ hδ0.le
    refine Real.sqrt_le_iff.2 ⟨by positivity, ?_⟩
    have : ∀ g ∈ range m, (grainsRow run dt K k u z g - grainsRow (SpecReloaded run f p) dt K k v (z + b) g) ^ 2 ≤ (C * η) ^ 2 := by
      intro g hg
      have t1 := hC v z (z + b) η hη0 hη1 hv hzl (by rw [add_sub_cancel_left]; exact hb) g (mem_range.1 hg)
      have t2 := hL f p η hη0 hf v (z + b) g (mem_range.1 hg)
      have t3 := abs_sub_le (grainsRow run dt K k u z g) (grainsRow run dt K k v (z + b) g)
        (grainsRow (SpecReloaded run f p) dt K k v (z + b) g)
      have : |grainsRow run dt K k u z g - grainsRow (SpecReloaded run f p) dt K k v (z + b) g| ≤ C * η := by
        rw [hCdef, add_mul]; linarith
      rw [← sq_abs]
      exact pow_le_pow_left₀ (abs_nonneg _) this 2
    refine (sum_le_sum this).trans ?_
    rw [sum_const, card_range, nsmul_eq_mul, mul_pow]
    have hm1 : (m : ℝ) ≤ (m : ℝ) ^ 2 := by
      have : m ≤ m ^ 2 := Nat.le_self_pow (by norm_num) m
      exact_mod_cast this
    have := mul_le_mul_of_nonneg_right hm1 (sq_nonneg (C * η))
    linarith
  have c2 : ∑ g ∈ range m, D g * (grainsRow run dt K k u z g - grainsRow (SpecReloaded run f p) dt K k v (z + b) g) =
      ∑ g ∈ range m, D g * grainsRow run dt K k u z g - ∑ g ∈ range m, D g * grainsRow (SpecReloaded run f p) dt K k v (z + b) g := by
    rw [← sum_sub_distrib]
    exact sum_congr rfl fun g _ => by ring
  have c3 := neg_le_of_abs_le (cauchy m D r)
  have c4 := neg_le_of_abs_le c1
  rw [c2] at c4
  have c5 : δ * SpecLength m r ≤ δ * η := mul_le_mul_of_nonneg_left hrl hδ0.le
  have c6 : -∑ g ∈ range m, D g * grainsRow run dt K k u z g ≤ δ * η * (1 + C * m) := by
    have : SpecLength m D * SpecLength m r = δ * SpecLength m r := rfl
    nlinarith
  have c7 := mul_le_mul_of_nonneg_left c6 hθ0.le
  have c8 : s * μ * (ε / 2) ^ 2 ≤ ε / 2 * η * (1 + C * m) := by
    have : θ * (δ * η * (1 + C * m)) = ε / 2 * η * (1 + C * m) := by rw [← hθδ]; ring
    nlinarith
  have c9 : ε / 2 * η * (1 + C * m) ≤ ε / 2 * A * (1 + C * m) := by
    have : 0 ≤ 1 + C * m := by positivity
    gcongr
  have c10 : ε / 2 * A * (1 + C * m) = s * μ * ε ^ 2 / 8 := by
    rw [hA]; field_simp; ring
  have : 0 < s * μ * ε ^ 2 := by positivity
  nlinarith

/-! ## Helpers: results -/

/-- A function of the states of `k` steps that is Lipschitz on bounded sets is close for close states. -/
theorem states_close {m : ℕ} (k : ℕ) (F : (ℕ → ℕ → ℝ) → ℝ)
    (hc : ∀ V W : ℕ → ℕ → ℝ, (∀ j ≤ k, ∀ g < m, V j g = W j g) → F V = F W)
    (hF : ∀ (E : Type) [NormedAddCommGroup E] (V : E → ℕ → ℕ → ℝ), (∀ j ≤ k, ∀ g < m, LL fun x => V x j g) →
      LL fun x => F (V x)) (u : ℕ → ℕ → ℝ) (ε : ℝ) (hε : 0 < ε) :
    ∃ δ > 0, ∀ v : ℕ → ℕ → ℝ, (∀ j ≤ k, SpecLength m (v j - u j) < δ) → |F v - F u| < ε := by
  let E := Fin (k + 1) → EuclideanSpace ℝ (Fin m)
  let hist : E → ℕ → ℕ → ℝ := fun x j => if hj : j < k + 1 then ext (x ⟨j, hj⟩) else 0
  have hcomp : ∀ (i : Fin (k + 1)) (g : ℕ), LL fun x : E => ext (x i) g := by
    intro i g R
    obtain ⟨C, h0, hC⟩ := ext_ll (m := m) g R
    refine ⟨C, h0, fun x y hx hy => (hC (x i) (y i) ((norm_le_pi_norm x i).trans hx) ((norm_le_pi_norm y i).trans hy)).trans ?_⟩
    exact mul_le_mul_of_nonneg_left (norm_le_pi_norm (x - y) i) h0
  let X : (ℕ → ℕ → ℝ) → E := fun W j => rest m (W j)
  have hX : ∀ W, F (hist (X W)) = F W := by
    intro W
    refine hc _ _ fun j hj g hg => ?_
    have : j < k + 1 := by omega
    simp only [hist, this, dif_pos, X]
    exact rest_ext m _ hg
  obtain ⟨C, hC0, hC⟩ := hF E hist (fun j hj g _ => by
    have : j < k + 1 := by omega
    simp only [hist, this, dif_pos]
    exact hcomp _ g) (‖X u‖ + 1)
  refine ⟨min 1 (ε / (C + 1)), lt_min one_pos (by positivity), fun v hv => ?_⟩
  have hd : ‖X v - X u‖ ≤ min 1 (ε / (C + 1)) := by
    refine (pi_norm_le_iff_of_nonneg (lt_min one_pos (by positivity)).le).2 fun j => ?_
    have e : (X v - X u) j = rest m (v j - u j) := rfl
    rw [e, rest_norm]
    exact (hv j (by omega)).le
  have hb : ‖X v‖ ≤ ‖X u‖ + 1 := by
    have := norm_add_le (X v - X u) (X u)
    rw [sub_add_cancel] at this
    have := hd.trans (min_le_left _ _)
    linarith
  have key : ‖F (hist (X v)) - F (hist (X u))‖ ≤ C * ‖X v - X u‖ := hC (X v) (X u) hb (by linarith)
  rw [hX, hX, Real.norm_eq_abs] at key
  have h2 : C * ‖X v - X u‖ ≤ C * (ε / (C + 1)) := mul_le_mul_of_nonneg_left (hd.trans (min_le_right _ _)) hC0
  have h3 : C * (ε / (C + 1)) < ε := by
    rw [← mul_div_assoc, div_lt_iff₀ (by positivity)]
    nlinarith
  linarith

theorem ddot_single (i j : Fin d) (M : Mat d) : ddot (Matrix.single i j 1) M = M i j := by
  unfold ddot
  simp [Matrix.single_apply, ite_and]

/-! ## Property -/

/-- C127: for every run of a stable polycrystal, number of steps and distance there is a tolerance such that all states
computed within the tolerance, under supplies, tractions and boundary values and from a start that differ from those of
the run by no more than the tolerance, lie within that distance of the run. -/
theorem C127_run {kind : Kind n N} (run : List (RunGrain d e n N)) (faces : List (Face d e n N)) (dt : ℕ → ℝ)
    (K : Sol.Constraints ℕ) (m : ℕ) (h : SpecStableGrainRun kind run faces dt K m) (B u : ℕ → ℕ → ℝ)
    (hu : SpecGrainRun run dt K m B u) (T : ℕ) (ε : ℝ) (hε : 0 < ε) :
    ∃ tol > 0, ∀ (f : Supplies d e n N) (p : Tractions d e n N) (B' v : ℕ → ℕ → ℝ),
      (∀ k < T, SpecLoadsWithin run f p k tol) → (∀ k < T, SpecLength m (B' k - B k) ≤ tol) →
      SpecLength m (v 0 - u 0) ≤ tol → SpecGrainComputed (SpecReloaded run f p) dt K m B' tol T v →
      ∀ k ≤ T, SpecLength m (v k - u k) < ε := by
  induction T generalizing ε with
  | zero =>
    refine ⟨ε / 2, by positivity, fun f p B' v _ _ h0 _ k hk => ?_⟩
    obtain rfl : k = 0 := by omega
    linarith
  | succ T ih =>
    obtain ⟨η, hη, hstep⟩ := grains_step_stable h T u (hu T).2 (half_pos hε)
    obtain ⟨tol, ht, htol⟩ := ih (min ε η) (lt_min hε hη)
    have hpos : 0 < min (min tol η) (ε / 2) := lt_min (lt_min ht hη) (half_pos hε)
    refine ⟨min (min tol η) (ε / 2), hpos, fun f p B' v hf hB h0 hv k hk => ?_⟩
    have m1 : min (min tol η) (ε / 2) ≤ tol := (min_le_left _ _).trans (min_le_left _ _)
    have m2 : min (min tol η) (ε / 2) ≤ η := (min_le_left _ _).trans (min_le_right _ _)
    have m3 : min (min tol η) (ε / 2) ≤ ε / 2 := min_le_right _ _
    have hmono : ∀ {a b : ℝ}, a ≤ b → ∀ k, SpecLoadsWithin run f p k a → SpecLoadsWithin run f p k b :=
      fun hab k hw r hr => ⟨fun q j => ((hw r hr).1 q j).trans hab, fun b j => ((hw r hr).2 b j).trans hab⟩
    have hprev := htol f p B' v (fun j hj => hmono m1 j (hf j (by omega))) (fun j hj => (hB j (by omega)).trans m1)
      (h0.trans m1) fun j hj => by
        obtain ⟨a, r, b, c⟩ := hv j (by omega)
        exact ⟨a, r, b, c.trans m1⟩
    rcases Nat.lt_or_ge k (T + 1) with hkT | hkT
    · exact (hprev k (by omega)).trans_le (min_le_left _ _)
    · obtain rfl : k = T + 1 := by omega
      obtain ⟨a, r, b, c⟩ := hv T (by omega)
      have hsat : Sol.Satisfies K (v (T + 1) - u (T + 1) - (B' T - B T)) := by
        have := satisfies_sub h.body.homogeneous a (hu T).1
        rwa [sub_sub_sub_comm] at this
      have hd := hstep f p v (B' T - B T) r (hmono m2 T (hf T (by omega)))
        (fun j hj => ((hprev j hj).trans_le (min_le_right _ _)).le) ((hB T (by omega)).trans m2) b (c.trans m2) hsat
      have ht := norm_add_le (rest m (v (T + 1) - u (T + 1) - (B' T - B T))) (rest m (B' T - B T))
      have e' : rest m (v (T + 1) - u (T + 1) - (B' T - B T)) + rest m (B' T - B T) = rest m (v (T + 1) - u (T + 1)) := by
        rw [rest_sub, sub_add_cancel]
      rw [e', rest_norm, rest_norm, rest_norm] at ht
      have := (hB T (by omega)).trans m3
      linarith

/-- C127 for what is reported: likewise the stresses and the slip resistances at every quadrature point. -/
theorem C127_results {kind : Kind n N} (run : List (RunGrain d e n N)) (faces : List (Face d e n N)) (dt : ℕ → ℝ)
    (K : Sol.Constraints ℕ) (m : ℕ) (h : SpecStableGrainRun kind run faces dt K m) (B u : ℕ → ℕ → ℝ)
    (hu : SpecGrainRun run dt K m B u) (k : ℕ) (r : RunGrain d e n N) (hr : r ∈ run) (q : Fin r.run.cell.Q) (ε : ℝ)
    (hε : 0 < ε) :
    ∃ tol > 0, ∀ (f : Supplies d e n N) (p : Tractions d e n N) (B' v : ℕ → ℕ → ℝ),
      (∀ j < k, SpecLoadsWithin run f p j tol) → (∀ j < k, SpecLength m (B' j - B j) ≤ tol) →
      SpecLength m (v 0 - u 0) ≤ tol → SpecGrainComputed (SpecReloaded run f p) dt K m B' tol k v →
      (∀ i j, |r.run.cell.prm.stressAt (r.run.cell.pts q).shape (v k ∘ r.run.cell.dofs) i j -
        r.run.cell.prm.stressAt (r.run.cell.pts q).shape (u k ∘ r.run.cell.dofs) i j| < ε) ∧
      ∀ a, |(r.run.histAt v q k).tmp a - (r.run.histAt u q k).tmp a| < ε := by
  have hd := run_dofs h r hr
  have h1 : ∀ i j : Fin d, ∃ δ > 0, ∀ v : ℕ → ℕ → ℝ, (∀ j ≤ k, SpecLength m (v j - u j) < δ) →
      |r.run.cell.prm.stressAt (r.run.cell.pts q).shape (v k ∘ r.run.cell.dofs) i j -
        r.run.cell.prm.stressAt (r.run.cell.pts q).shape (u k ∘ r.run.cell.dofs) i j| < ε := by
    intro i j
    refine states_close k (fun V => r.run.cell.prm.stressAt (r.run.cell.pts q).shape (V k ∘ r.run.cell.dofs) i j) ?_ ?_ u ε hε
    · intro V W hVW
      have : V k ∘ r.run.cell.dofs = W k ∘ r.run.cell.dofs := funext fun l => hVW k le_rfl _ (hd l)
      simp only [this]
    · intro E _ V hV
      have := stress_ll (u := fun x => V x k ∘ r.run.cell.dofs) r.run.cell.prm (r.run.cell.pts q).shape
        (Matrix.single i j 1) (fun l => hV k le_rfl _ (hd l))
      simpa only [ddot_single] using this
  have h2 : ∀ a, ∃ δ > 0, ∀ v : ℕ → ℕ → ℝ, (∀ j ≤ k, SpecLength m (v j - u j) < δ) →
      |(r.run.histAt v q k).tmp a - (r.run.histAt u q k).tmp a| < ε := by
    intro a
    refine states_close k (fun V => (r.run.histAt V q k).tmp a) ?_ ?_ u ε hε
    · intro V W hVW
      show (r.run.histAt V q k).tmp a = (r.run.histAt W q k).tmp a
      rw [hist_congr r.run q k fun j hj l => hVW j hj _ (hd l)]
    · intro E _ V hV
      exact hist_ll r.run q k (fun j hj l => hV j hj _ (hd l)) a
  choose δ₁ p1 c1 using h1
  choose δ₂ p2 c2 using h2
  obtain ⟨D, hD0, hD1⟩ : ∃ D > 0, (∀ i j, D ≤ δ₁ i j) ∧ ∀ a, D ≤ δ₂ a := by
    have f1 : (Set.range fun x : Fin d × Fin d => δ₁ x.1 x.2).Finite := Set.finite_range _
    have f2 : (Set.range δ₂).Finite := Set.finite_range _
    obtain ⟨D, hD, hm⟩ := ((f1.union f2).insert 1).exists_minimalFor id _ ⟨1, Set.mem_insert _ _⟩
    have hle : ∀ x ∈ insert 1 ((Set.range fun x : Fin d × Fin d => δ₁ x.1 x.2) ∪ Set.range δ₂), D ≤ x := by
      intro x hx
      rcases le_total D x with hx' | hx'
      · exact hx'
      · exact hm hx hx'
    refine ⟨D, ?_, fun i j => hle _ (Or.inr (Or.inl ⟨(i, j), rfl⟩)), fun a => hle _ (Or.inr (Or.inr ⟨a, rfl⟩))⟩
    rcases hD with rfl | ⟨x, rfl⟩ | ⟨x, rfl⟩
    · exact one_pos
    · exact p1 _ _
    · exact p2 _
  obtain ⟨tol, ht, hrun⟩ := C127_run run faces dt K m h B u hu k D hD0
  refine ⟨tol, ht, fun f p B' v hf hB h0 hv => ?_⟩
  have hc := hrun f p B' v hf hB h0 hv
  exact ⟨fun i j => c1 i j v fun l hl => (hc l hl).trans_le (hD1.1 i j),
    fun a => c2 a v fun l hl => (hc l hl).trans_le (hD1.2 a)⟩

/-! ## Non-vacuity -/

/-- C127 in a concrete case: two grains under arbitrary sequences of loads; runs under nearby loads exist and are close. -/
example (f p : ℕ → ℝ) (T : ℕ) (ε : ℝ) (hε : 0 < ε) :
    ∃ u, u 0 = 0 ∧ SpecGrainRun (exSoftGrainRun f p) (fun _ => 1) (fun _ => none) 4 0 u ∧ ∃ tol > 0,
      ∃ v, v 0 = 0 ∧ SpecGrainRun (exSoftGrainRun (fun k => f k + tol) (fun k => p k - tol)) (fun _ => 1) (fun _ => none) 4 0 v ∧
        ∀ k ≤ T, SpecLength 4 (v k - u k) < ε := by
  obtain ⟨u, h0, hu⟩ := C125_exists _ _ _ _ _ (exSoftGrainRun_stable f p) 0 0
  obtain ⟨tol, ht, h⟩ := C127_run _ _ _ _ _ (exSoftGrainRun_stable f p) 0 u hu T ε hε
  refine ⟨u, h0, hu, tol, ht, ?_⟩
  obtain ⟨v, g0, hv⟩ := C125_exists _ _ _ _ _ (exSoftGrainRun_stable (fun k => f k + tol) (fun k => p k - tol)) 0 0
  refine ⟨v, g0, hv, ?_⟩
  have z0 : SpecLength 4 (0 : ℕ → ℝ) = 0 := by simp [SpecLength]
  let F : Supplies 2 1 1 2 := fun r k q j => r.run.supply k q j + (if r.B = 0 ∧ j = 0 then tol else 0)
  let P : Tractions 2 1 1 2 := fun r k b j => (r.loads k b).value j - (if j = 0 then tol else 0)
  have hre : SpecReloaded (exSoftGrainRun f p) F P = exSoftGrainRun (fun k => f k + tol) (fun k => p k - tol) := by
    unfold SpecReloaded exSoftGrainRun
    simp only [List.map_cons, List.map_nil]
    congr 1
    · congr 1
      · congr 1
        funext k q j
        fin_cases j <;> simp [F]
      · funext k b; exact b.elim0
    · congr 1
      congr 1
      · congr 1
        funext k q j
        simp [F]
      · funext k b
        congr 1
        funext j
        fin_cases j <;> simp [P]
  refine h F P 0 v ?_ ?_ ?_ ?_
  · intro k _ r _
    refine ⟨fun q j => ?_, fun b j => ?_⟩
    · show |r.run.supply k q j + (if r.B = 0 ∧ j = 0 then tol else 0) - r.run.supply k q j| ≤ tol
      rw [add_sub_cancel_left]
      split_ifs
      · rw [abs_of_pos ht]
      · rw [abs_zero]; exact ht.le
    · show |(r.loads k b).value j - (if j = 0 then tol else 0) - (r.loads k b).value j| ≤ tol
      rw [sub_sub_cancel_left, abs_neg]
      split_ifs
      · rw [abs_of_pos ht]
      · rw [abs_zero]; exact ht.le
  · intro k _
    rw [sub_self, z0]; exact ht.le
  · rw [g0, h0, sub_self, z0]; exact ht.le
  · rw [hre]
    intro k _
    obtain ⟨a, R, hR, hz⟩ := hv k
    exact ⟨a, 0, ⟨R, hR, hz⟩, by rw [z0]; exact ht.le⟩

end Verif.Asm
