import Verif.Props.TrialMicro
import Verif.Props.Micro
import Verif.Props.Hooke
import Verif.Props.ActiveSet

/-! # The yield condition in a converged step : C130

The active set is determined from the trial microstress, which is evaluated with the *old* slips of all systems
(assembly.cc 2349-2568, active_set.cc 43-148).  A step is accepted when the residual rows of the active slips vanish and
the active set, determined again, is the same (solve.cc 277-303). -/

namespace Verif.Asm
open Matrix Finset Verif.Cry Verif.Hist Verif.Micro Verif.Itf

variable {d n N : ℕ}

/-- The yield condition at the slip degree of freedom `k` in the state `w`: its microforce balance holds with a scalar
microstress that does not exceed the slip resistance. -/
def SpecYield (hn : Sol.Constraints ℕ) (cells : List (TCell d n N)) (y : AS.Yield) (w : ℕ → ℝ) (k : ℕ) : Prop :=
  ∃ p, |p| ≤ y.at k ∧ SpecBalance hn cells w w k p = 0

/-- Row `k` of the residual in the state `w`, of slip degrees of freedom; `hist`, `supply` and `prev` are the slip
resistances, body forces and old slips at the quadrature points. -/
noncomputable def SpecSlipRow (hn : Sol.Constraints ℕ) (cells : List (TCell d n N))
    (supply : (c : TCell d n N) → Fin c.Q → Vec d) (hist : (c : TCell d n N) → Fin c.Q → Bulk n)
    (prev : (c : TCell d n N) → Fin c.Q → Fin n → ℝ) (w : ℕ → ℝ) (k : ℕ) : ℝ :=
  (cells.map fun c => ∑ i, if c.kind i = none then 0 else SpecWeight hn (c.dofs i) k *
    (c.prm.rhs c.kind (fun q => ⟨c.pts q, supply c q, hist c q, prev c q⟩) (w ∘ c.dofs) i).getD 0).sum

/-- Where slips that influence `k` have not changed, the balance is that of the old slips. -/
theorem balance_unchanged (hn : Sol.Constraints ℕ) (cells : List (TCell d n N)) (old w : ℕ → ℝ) (k : ℕ)
    (h : SpecCells cells)
    (hk : ∀ c ∈ cells, (∃ i, SpecWeight hn (c.dofs i) k ≠ 0) → ∀ j a, c.kind j = some a →
      w (c.dofs j) = old (c.dofs j)) (p : ℝ) :
    SpecBalance hn cells w w k p = SpecBalance hn cells w old k p := by
  unfold SpecBalance
  congr 1
  refine List.map_congr_left fun c hc => sum_congr rfl fun i _ => ?_
  by_cases hw : SpecWeight hn (c.dofs i) k = 0
  · rw [hw, zero_mul, zero_mul]
  · have hs := hk c hc ⟨i, hw⟩
    have hslip : ∀ q b, (c.pts q).slip (w ∘ c.dofs) b = (c.pts q).slip (old ∘ c.dofs) b := by
      intro q b
      unfold Shape.slip
      refine sum_congr rfl fun j _ => ?_
      cases hj : c.kind j with
      | none => rw [(h.primitive c hc q).phi j b (by rw [hj]; simp), mul_zero, mul_zero]
      | some e => show w (c.dofs j) * _ = old (c.dofs j) * _; rw [hs j e hj]
    have hgrad : ∀ q b, (c.pts q).slipGrad (w ∘ c.dofs) b = (c.pts q).slipGrad (old ∘ c.dofs) b := by
      intro q b
      unfold Shape.slipGrad
      refine sum_congr rfl fun j _ => ?_
      cases hj : c.kind j with
      | none => rw [(h.primitive c hc q).grad j b (by rw [hj]; simp), smul_zero, smul_zero]
      | some e => show w (c.dofs j) • _ = old (c.dofs j) • _; rw [hs j e hj]
    congr 1
    unfold SpecRow CellPrm.trialStress
    cases c.kind i with
    | none => rfl
    | some a => simp only [hslip, hgrad]

/-- C130, inactive slips around which no slip has changed fulfil the yield condition.  Missing from the full property:
inactive slips next to, or of another system than, slips that have changed (`C130_violated`), and those at the boundary of
the domain with an old slip gradient (`C76_violated_boundary`). -/
theorem C130_inactive_partial (hn affine newton : Sol.Constraints ℕ) (cells : List (TCell d n N))
    (h : SpecCells cells) (old w : ℕ → ℝ) (slips : List ℕ) (rhs t : ℕ → ℝ)
    (hr : ∀ k, trialRhs hn cells w old k = some (rhs k))
    (ht : AS.trialMicrostress hn slips (trialLumped hn cells) rhs = some t)
    (y : AS.Yield) (hfree : ∀ e ∈ slips, affine e = none)
    (k : ℕ) (hk : k ∈ slips) (hf : hn k = none) (hin : SpecInterior hn cells k)
    (hina : k ∉ (AS.determineActive affine hn newton slips t y).1)
    (hun : ∀ c ∈ cells, (∃ i, SpecWeight hn (c.dofs i) k ≠ 0) → ∀ j a, c.kind j = some a →
      w (c.dofs j) = old (c.dofs j)) : SpecYield hn cells y w k := by
  refine ⟨t k, ?_, ?_⟩
  · by_contra hle
    refine hina ((AS.C13_active_iff ..).2 ⟨k, hk, ?_, Or.inl ⟨rfl, Or.inl (hfree k hk)⟩⟩)
    simpa [AS.Yield.at] using hle
  · rw [balance_unchanged hn cells old w k h hun]
    exact (C76_balance_partial hn cells h w old slips rhs t hr ht k hk hf hin (t k)).1 rfl

/-- C130, slips whose residual row vanishes fulfil the yield condition, whether they have moved or not, when the shape
functions of the degree of freedom are nonnegative (linear elements). -/
theorem C130_active (hn : Sol.Constraints ℕ) (cells : List (TCell d n N)) (h : SpecCells cells)
    (supply : (c : TCell d n N) → Fin c.Q → Vec d) (hist : (c : TCell d n N) → Fin c.Q → Bulk n)
    (prev : (c : TCell d n N) → Fin c.Q → Fin n → ℝ) (w : ℕ → ℝ) (k : ℕ) (y : AS.Yield)
    (hlaw : ∀ c ∈ cells, 0 < c.prm.law.k)
    (hpos : ∀ c ∈ cells, ∀ i a q, c.kind i = some a → 0 ≤ SpecWeight hn (c.dofs i) k * ((c.pts q).phi a i * (c.pts q).jxw))
    (hsome : ∃ c ∈ cells, ∃ i a q, c.kind i = some a ∧
      SpecWeight hn (c.dofs i) k * ((c.pts q).phi a i * (c.pts q).jxw) ≠ 0)
    (hres : ∀ c ∈ cells, ∀ q a, 0 ≤ ((hist c q).update ((c.pts q).slip (w ∘ c.dofs)) (prev c q)).res a ∧
      ((hist c q).update ((c.pts q).slip (w ∘ c.dofs)) (prev c q)).res a ≤ y.at k)
    (hrow : SpecSlipRow hn cells supply hist prev w k = 0) : SpecYield hn cells y w k := by
  let S : (c : TCell d n N) → Fin c.Q → Fin n → ℝ := fun c q a =>
    c.prm.law.evalMicrostress (hist c q) ((c.pts q).slip (w ∘ c.dofs)) (prev c q) c.prm.dt a
  let W : (c : TCell d n N) → Fin N → Fin n → Fin c.Q → ℝ := fun c i a q =>
    SpecWeight hn (c.dofs i) k * ((c.pts q).phi a i * (c.pts q).jxw)
  let L : ℝ := (cells.map fun c => ∑ i, (match c.kind i with
    | none => 0 | some a => ∑ q, W c i a q)).sum
  let M : ℝ := (cells.map fun c => ∑ i, (match c.kind i with
    | none => 0 | some a => ∑ q, W c i a q * S c q a)).sum
  have hY : ∀ c ∈ cells, ∀ q a, |S c q a| ≤ y.at k := fun c hc q a =>
    (C28_bounded c.prm.law (hlaw c hc) _ _ _ _ (hres c hc q a).1).trans (hres c hc q a).2
  have hL : 0 < L := by
    obtain ⟨c, hc, i, a, q, ha, hne⟩ := hsome
    have nn : ∀ c ∈ cells, ∀ i, 0 ≤ (match c.kind i with | none => (0 : ℝ) | some a => ∑ q, W c i a q) := by
      intro c hc i
      rcases hi : c.kind i with _ | a
      · exact le_refl _
      · exact sum_nonneg fun q _ => hpos c hc i a q hi
    refine lt_of_lt_of_le ?_ (List.single_le_sum (fun x hx => by
      obtain ⟨c, hc, rfl⟩ := List.mem_map.1 hx
      exact sum_nonneg fun i _ => nn c hc i) _ (List.mem_map.2 ⟨c, hc, rfl⟩))
    refine lt_of_lt_of_le ?_ (single_le_sum (fun i _ => nn c hc i) (mem_univ i))
    rw [ha]
    exact lt_of_lt_of_le (lt_of_le_of_ne (hpos c hc i a q ha) hne.symm)
      (single_le_sum (f := fun q => W c i a q) (fun q _ => hpos c hc i a q ha) (mem_univ q))
  have hM : |M| ≤ y.at k * L := by
    have hsum : ∀ l : List (TCell d n N), (∀ c ∈ l, c ∈ cells) →
        |(l.map fun c => ∑ i, (match c.kind i with | none => 0 | some a => ∑ q, W c i a q * S c q a)).sum| ≤
        y.at k * (l.map fun c => ∑ i, (match c.kind i with | none => (0 : ℝ) | some a => ∑ q, W c i a q)).sum := by
      intro l hl
      induction l with
      | nil => simp
      | cons c l ih =>
        rw [List.map_cons, List.map_cons, List.sum_cons, List.sum_cons, mul_add]
        refine (abs_add_le _ _).trans (add_le_add ?_ (ih fun c hc => hl c (List.mem_cons_of_mem _ hc)))
        rw [mul_sum]
        refine (abs_sum_le_sum_abs _ _).trans (sum_le_sum fun i _ => ?_)
        rcases hi : c.kind i with _ | a
        · simp
        · simp only
          rw [mul_sum]
          refine (abs_sum_le_sum_abs _ _).trans (sum_le_sum fun q _ => ?_)
          have hc := hl c List.mem_cons_self
          rw [abs_mul, abs_of_nonneg (hpos c hc i a q hi), mul_comm (y.at k)]
          exact mul_le_mul_of_nonneg_left (hY c hc q a) (hpos c hc i a q hi)
    exact hsum cells fun c hc => hc
  refine ⟨M / L, ?_, ?_⟩
  · rw [abs_div, abs_of_pos hL]
    exact (div_le_iff₀ hL).2 hM
  · have key : ∀ l : List (TCell d n N), (∀ c ∈ l, c ∈ cells) → ∀ p : ℝ,
        (l.map fun c => ∑ i, SpecWeight hn (c.dofs i) k * SpecRow c w w i fun _ => p).sum =
        SpecSlipRow hn l supply hist prev w k +
        (l.map fun c => ∑ i, (match c.kind i with | none => 0 | some a => ∑ q, W c i a q * S c q a)).sum -
        p * (l.map fun c => ∑ i, (match c.kind i with | none => (0 : ℝ) | some a => ∑ q, W c i a q)).sum := by
      intro l hl p
      induction l with
      | nil => simp [SpecSlipRow]
      | cons c l ih =>
        have ih := ih fun c hc => hl c (List.mem_cons_of_mem _ hc)
        unfold SpecSlipRow at ih ⊢
        simp only [List.map_cons, List.sum_cons]
        rw [ih]
        have hc := hl c List.mem_cons_self
        have e : ∑ i, SpecWeight hn (c.dofs i) k * SpecRow c w w i (fun _ => p) =
            (∑ i, if c.kind i = none then 0 else SpecWeight hn (c.dofs i) k *
              (c.prm.rhs c.kind (fun q => ⟨c.pts q, supply c q, hist c q, prev c q⟩) (w ∘ c.dofs) i).getD 0) +
            (∑ i, (match c.kind i with | none => 0 | some a => ∑ q, W c i a q * S c q a)) -
            p * ∑ i, (match c.kind i with | none => (0 : ℝ) | some a => ∑ q, W c i a q) := by
          rw [mul_sum, ← sum_add_distrib, ← sum_sub_distrib]
          refine sum_congr rfl fun i _ => ?_
          rcases hi : c.kind i with _ | a
          · simp [SpecRow, hi]
          · rw [if_neg (by simp), C76_residual c (h.index c hc) (h.primitive c hc) w w (w ∘ c.dofs) (fun _ _ => rfl)
              (fun _ _ _ => rfl) (supply c) (hist c) (prev c) i a hi, Option.getD_some]
            unfold SpecRow
            simp only [hi]
            rw [mul_sum, mul_sum, mul_sum, ← sum_add_distrib, ← sum_sub_distrib]
            refine sum_congr rfl fun q _ => ?_
            simp only [W, S]
            ring
        rw [e]
        ring
    have := key cells (fun c hc => hc) (M / L)
    unfold SpecBalance
    rw [this, hrow]
    show 0 + M - M / L * L = 0
    field_simp
    ring

/-! ## Violation and non-vacuity -/

/-- An isotropic cell with one displacement and two slip systems, sheared in the first one. -/
noncomputable def exTwoShape : Shape 2 2 3 where
  jxw := 1
  disp := fun i => if i = 0 then ![1, 0] else 0
  symGrad := fun i => if i = 0 then !![0, 1; 1, 73 / 48] else 0
  phi := fun a i => if i = a.succ then 1 else 0
  grad := fun _ _ => 0

noncomputable def exTwo : TCell 2 2 3 where
  prm :=
    { sys := ![⟨![1, 0], ![0, 1], 0⟩, ⟨![3 / 5, 4 / 5], ![-4 / 5, 3 / 5], 0⟩]
      elastic := ⟨3, 1, 1, 1⟩
      rot := 1
      vec := ⟨1, 1, 2, false⟩
      law := ⟨.tanh, 1, true, ⟨1, 0, 1, 1, true⟩⟩
      dn0 := 1, dn2 := 1, dn3 := 1, dt := 1
      macroStrain := 0 }
  kind := ![none, some 0, some 1]
  dofs := fun i => i
  Q := 1
  pts := fun _ => exTwoShape
  F := 0
  faces := Fin.elim0

theorem exTwo_ok : SpecCells [exTwo] := by
  constructor
  · intro c hc; rw [List.mem_singleton.1 hc]; norm_num [exTwo]
  · intro c hc; rw [List.mem_singleton.1 hc]
    intro _
    show exTwoShape.Primitive ![none, some 0, some 1]
    constructor
    · intro i a h; fin_cases i <;> fin_cases a <;> simp [exTwoShape] at h ⊢
    · intro i a h; fin_cases i <;> fin_cases a <;> simp [exTwoShape] at h ⊢
    · intro i a h; fin_cases i <;> fin_cases a <;> simp [exTwoShape] at h ⊢
    · intro i a h; rfl
    · intro i; fin_cases i
      · ext a b; fin_cases a <;> fin_cases b <;> simp [exTwoShape]
      · simp [exTwoShape]
      · simp [exTwoShape]
  · intro c hc; rw [List.mem_singleton.1 hc]
    intro q a
    show ∑ j, exTwoShape.phi a j = 1
    fin_cases a <;> simp [exTwoShape]

/-- Resolved shear stresses for the displacement `u 0` and the slips `v 1`, `v 2`. -/
theorem exTwo_shear (u v : ℕ → ℝ) :
    resolvedShear (exTwo.prm.sys 0) (exTwo.prm.trialStress exTwoShape (u ∘ exTwo.dofs) (v ∘ exTwo.dofs)) =
      2 * u 0 - v 1 + 7 / 25 * v 2 ∧
    resolvedShear (exTwo.prm.sys 1) (exTwo.prm.trialStress exTwoShape (u ∘ exTwo.dofs) (v ∘ exTwo.dofs)) =
      9 / 10 * u 0 + 7 / 25 * v 1 - v 2 := by
  have e : exTwo.prm.macroStrain + elasticStrain exTwo.prm.dn0
      ((List.finRange 2).map fun a => (exTwo.prm.sys a, exTwoShape.slip (v ∘ exTwo.dofs) a))
      (exTwoShape.strain (u ∘ exTwo.dofs)) =
      !![12 / 25 * v 2, u 0 - 1 / 2 * v 1 + 7 / 50 * v 2; u 0 - 1 / 2 * v 1 + 7 / 50 * v 2,
        73 / 48 * u 0 - 12 / 25 * v 2] := by
    have l2 : List.finRange 2 = [0, 1] := by decide
    rw [l2]
    have s0 : exTwoShape.slip (v ∘ exTwo.dofs) 0 = v 1 := by
      simp [Shape.slip, exTwoShape, exTwo]
    have s1 : exTwoShape.slip (v ∘ exTwo.dofs) 1 = v 2 := by
      simp [Shape.slip, exTwoShape, exTwo]
    have st : exTwoShape.strain (u ∘ exTwo.dofs) = !![0, u 0; u 0, 73 / 48 * u 0] := by
      ext a b
      fin_cases a <;> fin_cases b <;> simp [Shape.strain, exTwoShape, exTwo] <;> ring
    have m0 : (exTwo.prm.sys 0).symSchmid = !![0, 1 / 2; 1 / 2, 0] := by
      ext a b
      fin_cases a <;> fin_cases b <;> simp [exTwo, System.symSchmid, System.schmid, symmetrize, outer]
    have m1 : (exTwo.prm.sys 1).symSchmid = !![-12 / 25, -7 / 50; -7 / 50, 12 / 25] := by
      ext a b
      fin_cases a <;> fin_cases b <;> simp [exTwo, System.symSchmid, System.schmid, symmetrize, outer] <;> norm_num
    have z : exTwo.prm.macroStrain = 0 := rfl
    have dd : exTwo.prm.dn0 = 1 := rfl
    simp only [List.map_cons, List.map_nil, elasticStrain, s0, s1, st, m0, m1, z, dd]
    ext a b
    fin_cases a <;> fin_cases b <;> simp <;> ring
  have h := C31_isotropic exTwo.prm.elastic (d := 2) (by norm_num [exTwo]) exTwo.prm.rot
    (!![12 / 25 * v 2, u 0 - 1 / 2 * v 1 + 7 / 50 * v 2; u 0 - 1 / 2 * v 1 + 7 / 50 * v 2,
        73 / 48 * u 0 - 12 / 25 * v 2]) (by simp [SpecOrthogonal, exTwo]) (by
      ext a b; fin_cases a <;> fin_cases b <;> simp)
  have t : exTwo.prm.trialStress exTwoShape (u ∘ exTwo.dofs) (v ∘ exTwo.dofs) = exTwo.prm.elastic.stress exTwo.prm.rot
      (!![12 / 25 * v 2, u 0 - 1 / 2 * v 1 + 7 / 50 * v 2; u 0 - 1 / 2 * v 1 + 7 / 50 * v 2,
        73 / 48 * u 0 - 12 / 25 * v 2]) := by
    rw [← e]; rfl
  rw [t, h]
  constructor <;>
  · simp [resolvedShear, ddot, exTwo, System.symSchmid, System.schmid, symmetrize, outer, Fin.sum_univ_two,
      Matrix.trace, Matrix.one_apply]
    ring

theorem exTwo_balance (u v : ℕ → ℝ) (p : ℝ) :
    SpecBalance (fun _ => none) [exTwo] u v 1 p = 2 * u 0 - v 1 + 7 / 25 * v 2 - p ∧
    SpecBalance (fun _ => none) [exTwo] u v 2 p = 9 / 10 * u 0 + 7 / 25 * v 1 - v 2 - p := by
  obtain ⟨h0, h1⟩ := exTwo_shear u v
  have hs : ∀ f : Fin exTwo.Q → ℝ, ∑ q, f q = f (0 : Fin 1) := fun f => Fin.sum_univ_one f
  have k0 : exTwo.kind 0 = none := rfl
  have k1 : exTwo.kind 1 = some 0 := rfl
  have k2 : exTwo.kind 2 = some 1 := rfl
  have hp : exTwo.pts (0 : Fin 1) = exTwoShape := rfl
  have h3 : exTwo.prm.dn3 = 1 := rfl
  have g : ∀ a i, exTwoShape.grad a i = 0 := fun _ _ => rfl
  have j : exTwoShape.jxw = 1 := rfl
  have p0 : exTwoShape.phi 0 1 = 1 := by simp [exTwoShape]
  have p1 : exTwoShape.phi 1 2 = 1 := by simp [exTwoShape]
  have w : ∀ (i : Fin 3) (k : ℕ), SpecWeight (fun _ => none) (exTwo.dofs i) k = if (i : ℕ) = k then 1 else 0 := by
    intro i k
    show SpecWeight (fun _ => none) (i : ℕ) k = _
    simp [SpecWeight, Sol.distribute, Pi.single_apply]
  unfold SpecBalance
  simp only [List.map_cons, List.map_nil, List.sum_cons, List.sum_nil, Fin.sum_univ_three, w, SpecRow, k0, k1, k2, hs, hp,
    g, j, h3, h0, h1, p0, p1, zero_dotProduct]
  constructor <;> norm_num

theorem exTwo_lumped (k : ℕ) (hk : k ∈ [1, 2]) : trialLumped (fun _ => none) [exTwo] k ≠ 0 := by
  unfold trialLumped
  simp only [List.map_cons, List.map_nil, List.sum_cons, List.sum_nil, Fin.sum_univ_three]
  rw [lumped_eq exTwo_ok List.mem_cons_self, lumped_eq exTwo_ok List.mem_cons_self,
    lumped_eq exTwo_ok List.mem_cons_self]
  have hs : ∀ f : Fin exTwo.Q → ℝ, ∑ q, f q = f (0 : Fin 1) := fun f => Fin.sum_univ_one f
  simp only [hs]
  rcases List.mem_cons.1 hk with rfl | hk
  · simp [exTwo, exTwoShape, weight]
  · obtain rfl := List.mem_singleton.1 hk
    simp [exTwo, exTwoShape, weight]

theorem exTwo_trial (u old : ℕ → ℝ) : ∃ rhs t : ℕ → ℝ,
    (∀ k, trialRhs (fun _ => none) [exTwo] u old k = some (rhs k)) ∧
    AS.trialMicrostress (fun _ => none) [1, 2] (trialLumped (fun _ => none) [exTwo]) rhs = some t := by
  refine ⟨fun k => SpecBalance (fun _ => none) [exTwo] u old k 0 +
      0 * trialLumped (fun _ => none) [exTwo] k + SpecFlux (fun _ => none) [exTwo] old k,
    _, fun k => trialRhs_eq _ _ exTwo_ok u old k 0, if_neg ?_⟩
  rintro ⟨e, he, hz⟩
  exact exTwo_lumped e he hz

theorem exTwo_interior (k : ℕ) : SpecInterior (fun _ => none) [exTwo] k := by
  intro c hc
  obtain rfl := List.mem_singleton.1 hc
  intro i _ f
  exact Fin.elim0 f

/-- The row of the first slip in a state with flow in it. -/
theorem exTwo_row (w : ℕ → ℝ) (hw : 0 < w 1) :
    exTwo.prm.rhs exTwo.kind (fun q : Fin exTwo.Q => ⟨exTwo.pts q, 0, Bulk.init ⟨1, 0, 1, 1, true⟩ 2, 0⟩) (w ∘ exTwo.dofs) 1 =
      some (2 * w 0 - w 1 + 7 / 25 * w 2 - 1) := by
  have hc := C76_residual exTwo (exTwo_ok.index _ List.mem_cons_self) (exTwo_ok.primitive _ List.mem_cons_self) w w
    (w ∘ exTwo.dofs) (fun _ _ => rfl) (fun _ _ _ => rfl) (fun _ => 0) (fun _ => Bulk.init ⟨1, 0, 1, 1, true⟩ 2)
    (fun _ => 0) 1 0 rfl
  refine (show _ = _ from hc).trans ?_
  have hs : ∀ f : Fin exTwo.Q → ℝ, ∑ q, f q = f (0 : Fin 1) := fun f => Fin.sum_univ_one f
  have k1 : exTwo.kind 1 = some 0 := rfl
  have hp : exTwo.pts (0 : Fin 1) = exTwoShape := rfl
  have h3 : exTwo.prm.dn3 = 1 := rfl
  have g : ∀ a i, exTwoShape.grad a i = 0 := fun _ _ => rfl
  have j : exTwoShape.jxw = 1 := rfl
  have p0 : exTwoShape.phi 0 1 = 1 := by simp [exTwoShape]
  have s0 : exTwoShape.slip (w ∘ exTwo.dofs) 0 = w 1 := by
    simp [Shape.slip, exTwoShape, exTwo]
  have m : exTwo.prm.law.evalMicrostress (Bulk.init ⟨1, 0, 1, 1, true⟩ 2) (exTwoShape.slip (w ∘ exTwo.dofs)) 0
      exTwo.prm.dt 0 = 1 := by
    have l : exTwo.prm.law = ⟨.tanh, 1, true, ⟨1, 0, 1, 1, true⟩⟩ := rfl
    have t : exTwo.prm.dt = 1 := rfl
    simp [Law.evalMicrostress, Law.microstress, s0, Bulk.update, Bulk.init, l, t, sgn, hw, hw.le]
  unfold SpecRow
  simp only [k1, hs, hp, g, j, h3, (exTwo_shear w w).1, p0, m, zero_dotProduct]
  congr 1
  ring

/-- C130 is violated: a rate-independent step from rest whose accepted state fulfils every condition of the algorithm (the
residual of the active slip vanishes, the inactive slip keeps its value, and the active set determined in this state is the
one used), and in which the inactive system is stressed beyond its slip resistance. -/
theorem C130_violated : ∃ (cell : TCell 2 2 3) (hist : Fin cell.Q → Bulk 2) (old w rhs t : ℕ → ℝ) (y : AS.Yield),
    SpecCells [cell] ∧ cell.prm.law.rateIndependent = true ∧ cell.prm.elastic.accepted ∧
    (∀ k, SpecInterior (fun _ => none) [cell] k) ∧
    (∀ k, trialRhs (fun _ => none) [cell] w old k = some (rhs k)) ∧
    AS.trialMicrostress (fun _ => none) [1, 2] (trialLumped (fun _ => none) [cell]) rhs = some t ∧
    1 ∈ (AS.determineActive (fun _ => none) (fun _ => none) (fun _ => none) [1, 2] t y).1 ∧
    2 ∉ (AS.determineActive (fun _ => none) (fun _ => none) (fun _ => none) [1, 2] t y).1 ∧
    cell.kind 1 = some 0 ∧ cell.kind 2 = some 1 ∧ (∀ i, cell.dofs i = i) ∧
    cell.prm.rhs cell.kind (fun q => ⟨cell.pts q, 0, hist q, 0⟩) (w ∘ cell.dofs) 1 = some 0 ∧
    (∀ k, old k = 0) ∧ w 2 = old 2 ∧
    (∀ q a k, y.at k = ((hist q).update ((cell.pts q).slip (w ∘ cell.dofs)) fun _ => 0).res a) ∧
    SpecYield (fun _ => none) [cell] y w 1 ∧ ¬SpecYield (fun _ => none) [cell] y w 2 := by
  let w : ℕ → ℝ := fun k => if k = 2 then 0 else 1
  have w0 : w 0 = 1 := by simp [w]
  have w1 : w 1 = 1 := by simp [w]
  have w2 : w 2 = 0 := by simp [w]
  obtain ⟨rhs, t, hr, ht⟩ := exTwo_trial w fun _ => 0
  have bal := fun k hk p => C76_balance_partial (fun _ => none) [exTwo] exTwo_ok w (fun _ => 0) [1, 2] rhs t hr ht k hk rfl
    (exTwo_interior k) p
  have t1 : t 1 = 2 := (bal 1 (by simp) 2).2 (by rw [(exTwo_balance _ _ _).1, w0]; norm_num)
  have t2 : t 2 = 9 / 10 := (bal 2 (by simp) (9 / 10)).2 (by rw [(exTwo_balance _ _ _).2, w0]; norm_num)
  have ya : ∀ k, (⟨true, 1, 1, fun _ => 1⟩ : AS.Yield).at k = 1 := fun k => by simp [AS.Yield.at]
  refine ⟨exTwo, fun _ => Bulk.init ⟨1, 0, 1, 1, true⟩ 2, fun _ => 0, w, rhs, t, ⟨true, 1, 1, fun _ => 1⟩, exTwo_ok, rfl,
    ?_, exTwo_interior, hr, ht, ?_, ?_, rfl, rfl, fun _ => rfl, ?_, fun _ => rfl, w2, ?_, ⟨1, ?_, ?_⟩, ?_⟩
  · norm_num [exTwo, Elastic.accepted]
  · exact (AS.C13_active_iff ..).2 ⟨1, by simp, by norm_num [t1], Or.inl ⟨rfl, Or.inl rfl⟩⟩
  · intro hin
    obtain ⟨k, hk, hlt, hm⟩ := (AS.C13_active_iff ..).1 hin
    rcases hm with ⟨rfl, _⟩ | hm
    · rw [t2] at hlt; norm_num [abs_of_pos] at hlt
    · simp [AS.Master] at hm
  · refine (exTwo_row w (by rw [w1]; norm_num)).trans ?_
    rw [w0, w1, w2]; norm_num
  · intro q a k; rw [ya]; simp [Bulk.update, Bulk.init]
  · rw [ya]; norm_num
  · rw [(exTwo_balance _ _ _).1, w0, w1, w2]; norm_num
  · rintro ⟨p, hp, hb⟩
    rw [(exTwo_balance _ _ _).2, w0, w1, w2] at hb
    rw [ya] at hp
    have := (abs_le.1 hp).2
    norm_num at hb
    linarith

/-- The slips of `C130_inactive_partial` exist: an elastic step. -/
example : ∃ (rhs t : ℕ → ℝ) (y : AS.Yield) (w : ℕ → ℝ), w 0 ≠ 0 ∧ SpecCells [exTwo] ∧
    (∀ k, trialRhs (fun _ => none) [exTwo] w (fun _ => 0) k = some (rhs k)) ∧
    AS.trialMicrostress (fun _ => none) [1, 2] (trialLumped (fun _ => none) [exTwo]) rhs = some t ∧
    2 ∉ (AS.determineActive (fun _ => none) (fun _ => none) (fun _ => none) [1, 2] t y).1 ∧
    (∀ c ∈ [exTwo], (∃ i, SpecWeight (fun _ => none) (c.dofs i) 2 ≠ 0) → ∀ j a, c.kind j = some a →
      w (c.dofs j) = (fun _ => (0 : ℝ)) (c.dofs j)) := by
  let w : ℕ → ℝ := fun k => if k = 0 then 1 else 0
  obtain ⟨rhs, t, hr, ht⟩ := exTwo_trial w fun _ => 0
  have t2 : t 2 = 9 / 10 := (C76_balance_partial (fun _ => none) [exTwo] exTwo_ok w (fun _ => 0) [1, 2] rhs t hr ht 2
    (by simp) rfl (exTwo_interior 2) (9 / 10)).2 (by rw [(exTwo_balance _ _ _).2]; norm_num [w])
  refine ⟨rhs, t, ⟨true, 1, 1, fun _ => 1⟩, w, by simp [w], exTwo_ok, hr, ht, ?_, ?_⟩
  · intro hin
    obtain ⟨k, hk, hlt, hm⟩ := (AS.C13_active_iff ..).1 hin
    rcases hm with ⟨rfl, _⟩ | hm
    · rw [t2] at hlt; norm_num [abs_of_pos] at hlt
    · simp [AS.Master] at hm
  · intro c hc _ j a hj
    obtain rfl := List.mem_singleton.1 hc
    fin_cases j
    · simp [exTwo] at hj
    · simp [w, exTwo]
    · simp [w, exTwo]

/-- The hypotheses of `C130_active` are met by a flowing slip. -/
example : ∃ w : ℕ → ℝ, w 1 ≠ 0 ∧ 0 < exTwo.prm.law.k ∧
    (∀ c ∈ [exTwo], ∀ i a q, c.kind i = some a →
      0 ≤ SpecWeight (fun _ => none) (c.dofs i) 1 * ((c.pts q).phi a i * (c.pts q).jxw)) ∧
    (∃ c ∈ [exTwo], ∃ i a q, c.kind i = some a ∧
      SpecWeight (fun _ => none) (c.dofs i) 1 * ((c.pts q).phi a i * (c.pts q).jxw) ≠ 0) ∧
    SpecSlipRow (fun _ => none) [exTwo] (fun _ _ => 0) (fun _ _ => Bulk.init ⟨1, 0, 1, 1, true⟩ 2) (fun _ _ => 0) w 1 = 0 := by
  have wt : ∀ (i : Fin 3) (k : ℕ), SpecWeight (fun _ => none) (exTwo.dofs i) k = if (i : ℕ) = k then 1 else 0 := by
    intro i k
    show SpecWeight (fun _ => none) (i : ℕ) k = _
    simp [SpecWeight, Sol.distribute, Pi.single_apply]
  refine ⟨fun k => if k = 2 then 0 else 1, by simp, by norm_num [exTwo], ?_, ?_, ?_⟩
  · intro c hc i a q _
    obtain rfl := List.mem_singleton.1 hc
    rw [wt]
    refine mul_nonneg (by split_ifs <;> norm_num) ?_
    show 0 ≤ exTwoShape.phi a i * 1
    simp only [exTwoShape]
    split_ifs <;> norm_num
  · refine ⟨exTwo, List.mem_cons_self, 1, 0, (0 : Fin 1), rfl, ?_⟩
    rw [wt]
    show _ * (exTwoShape.phi 0 1 * 1) ≠ 0
    simp [exTwoShape]
  · unfold SpecSlipRow
    have k0 : exTwo.kind 0 = none := rfl
    have k1 : exTwo.kind 1 = some 0 := rfl
    have k2 : exTwo.kind 2 = some 1 := rfl
    have r := exTwo_row (fun k => if k = 2 then 0 else 1) (by norm_num)
    simp only [List.map_cons, List.map_nil, List.sum_cons, List.sum_nil, Fin.sum_univ_three, wt, k0, k1, k2]
    have r' : exTwo.prm.rhs exTwo.kind (fun q => ⟨exTwo.pts q, 0, Bulk.init ⟨1, 0, 1, 1, true⟩ 2, 0⟩)
      ((fun k : ℕ => if k = 2 then (0 : ℝ) else 1) ∘ exTwo.dofs) 1 = _ := r
    rw [r']
    norm_num

end Verif.Asm
