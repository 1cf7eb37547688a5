import Verif.Props.FlowRule
import Verif.Props.OpeningExistence
import Verif.Props.SignError

/-! # Existence of rate-independent steps : C131 -/

namespace Verif.Asm
open Matrix Finset Verif.Cry Verif.Hist Verif.Micro Verif.Mono Verif.Lin

variable {d n N : ℕ}

/-- An isotropic cell with one displacement and two slip systems, sheared in the first one and, less, in the second one. -/
noncomputable def exLostShape : Shape 2 2 3 where
  jxw := 1
  disp := fun i => if i = 0 then ![1, 0] else 0
  symGrad := fun i => if i = 0 then !![0, 1; 1, 9 / 16] else 0
  phi := fun a i => if i = a.succ then 1 else 0
  grad := fun _ _ => 0

noncomputable def exLost : TCell 2 2 3 where
  prm :=
    { sys := ![⟨![1, 0], ![0, 1], 0⟩, ⟨![4 / 5, 3 / 5], ![-3 / 5, 4 / 5], 0⟩]
      elastic := ⟨3, 1, 1, 1⟩
      rot := 1
      vec := ⟨1, 1, 2, false⟩
      law := ⟨.tanh, 1, true, ⟨1, 0, 1, 1, true⟩⟩
      dn0 := 1, dn2 := 1, dn3 := 1, dt := 1
      macroStrain := 0 }
  kind := ![none, some 0, some 1]
  dofs := fun i => i
  Q := 1
  pts := fun _ => exLostShape
  F := 0
  faces := Fin.elim0

theorem exLost_ok : SpecCells [exLost] := by
  constructor
  · intro c hc; rw [List.mem_singleton.1 hc]; norm_num [exLost]
  · intro c hc; rw [List.mem_singleton.1 hc]
    intro _
    show exLostShape.Primitive ![none, some 0, some 1]
    constructor
    · intro i a h; fin_cases i <;> fin_cases a <;> simp [exLostShape] at h ⊢
    · intro i a h; fin_cases i <;> fin_cases a <;> simp [exLostShape] at h ⊢
    · intro i a h; fin_cases i <;> fin_cases a <;> simp [exLostShape] at h ⊢
    · intro i a h; rfl
    · intro i; fin_cases i
      · ext a b; fin_cases a <;> fin_cases b <;> simp [exLostShape]
      · simp [exLostShape]
      · simp [exLostShape]
  · intro c hc; rw [List.mem_singleton.1 hc]
    intro q a
    show ∑ j, exLostShape.phi a j = 1
    fin_cases a <;> simp [exLostShape]

/-- Resolved shear stresses for the displacement `u 0` and the slips `v 1`, `v 2`. -/
theorem exLost_shear (u v : ℕ → ℝ) :
    resolvedShear (exLost.prm.sys 0) (exLost.prm.trialStress exLostShape (u ∘ exLost.dofs) (v ∘ exLost.dofs)) =
      2 * u 0 - v 1 - 7 / 25 * v 2 ∧
    resolvedShear (exLost.prm.sys 1) (exLost.prm.trialStress exLostShape (u ∘ exLost.dofs) (v ∘ exLost.dofs)) =
      11 / 10 * u 0 - 7 / 25 * v 1 - v 2 := by
  have e : exLost.prm.macroStrain + elasticStrain exLost.prm.dn0
      ((List.finRange 2).map fun a => (exLost.prm.sys a, exLostShape.slip (v ∘ exLost.dofs) a))
      (exLostShape.strain (u ∘ exLost.dofs)) =
      !![12 / 25 * v 2, u 0 - 1 / 2 * v 1 - 7 / 50 * v 2; u 0 - 1 / 2 * v 1 - 7 / 50 * v 2,
        9 / 16 * u 0 - 12 / 25 * v 2] := by
    have l2 : List.finRange 2 = [0, 1] := by decide
    rw [l2]
    have s0 : exLostShape.slip (v ∘ exLost.dofs) 0 = v 1 := by
      simp [Shape.slip, exLostShape, exLost]
    have s1 : exLostShape.slip (v ∘ exLost.dofs) 1 = v 2 := by
      simp [Shape.slip, exLostShape, exLost]
    have st : exLostShape.strain (u ∘ exLost.dofs) = !![0, u 0; u 0, 9 / 16 * u 0] := by
      ext a b
      fin_cases a <;> fin_cases b <;> simp [Shape.strain, exLostShape, exLost] <;> ring
    have m0 : (exLost.prm.sys 0).symSchmid = !![0, 1 / 2; 1 / 2, 0] := by
      ext a b
      fin_cases a <;> fin_cases b <;> simp [exLost, System.symSchmid, System.schmid, symmetrize, outer]
    have m1 : (exLost.prm.sys 1).symSchmid = !![-12 / 25, 7 / 50; 7 / 50, 12 / 25] := by
      ext a b
      fin_cases a <;> fin_cases b <;> simp [exLost, System.symSchmid, System.schmid, symmetrize, outer] <;> norm_num
    have z : exLost.prm.macroStrain = 0 := rfl
    have dd : exLost.prm.dn0 = 1 := rfl
    simp only [List.map_cons, List.map_nil, elasticStrain, s0, s1, st, m0, m1, z, dd]
    ext a b
    fin_cases a <;> fin_cases b <;> simp <;> ring
  have h := C31_isotropic exLost.prm.elastic (d := 2) (by norm_num [exLost]) exLost.prm.rot
    (!![12 / 25 * v 2, u 0 - 1 / 2 * v 1 - 7 / 50 * v 2; u 0 - 1 / 2 * v 1 - 7 / 50 * v 2,
        9 / 16 * u 0 - 12 / 25 * v 2]) (by simp [SpecOrthogonal, exLost]) (by
      ext a b; fin_cases a <;> fin_cases b <;> simp)
  have t : exLost.prm.trialStress exLostShape (u ∘ exLost.dofs) (v ∘ exLost.dofs) = exLost.prm.elastic.stress exLost.prm.rot
      (!![12 / 25 * v 2, u 0 - 1 / 2 * v 1 - 7 / 50 * v 2; u 0 - 1 / 2 * v 1 - 7 / 50 * v 2,
        9 / 16 * u 0 - 12 / 25 * v 2]) := by
    rw [← e]; rfl
  rw [t, h]
  constructor <;>
  · simp [resolvedShear, ddot, exLost, System.symSchmid, System.schmid, symmetrize, outer, Fin.sum_univ_two,
      Matrix.trace, Matrix.one_apply]
    ring

theorem exLost_balance (u v : ℕ → ℝ) (p : ℝ) :
    SpecBalance (fun _ => none) [exLost] u v 1 p = 2 * u 0 - v 1 - 7 / 25 * v 2 - p ∧
    SpecBalance (fun _ => none) [exLost] u v 2 p = 11 / 10 * u 0 - 7 / 25 * v 1 - v 2 - p := by
  obtain ⟨h0, h1⟩ := exLost_shear u v
  have hs : ∀ f : Fin exLost.Q → ℝ, ∑ q, f q = f (0 : Fin 1) := fun f => Fin.sum_univ_one f
  have k0 : exLost.kind 0 = none := rfl
  have k1 : exLost.kind 1 = some 0 := rfl
  have k2 : exLost.kind 2 = some 1 := rfl
  have hp : exLost.pts (0 : Fin 1) = exLostShape := rfl
  have h3 : exLost.prm.dn3 = 1 := rfl
  have g : ∀ a i, exLostShape.grad a i = 0 := fun _ _ => rfl
  have j : exLostShape.jxw = 1 := rfl
  have p0 : exLostShape.phi 0 1 = 1 := by simp [exLostShape]
  have p1 : exLostShape.phi 1 2 = 1 := by simp [exLostShape]
  have w : ∀ (i : Fin 3) (k : ℕ), SpecWeight (fun _ => none) (exLost.dofs i) k = if (i : ℕ) = k then 1 else 0 := by
    intro i k
    show SpecWeight (fun _ => none) (i : ℕ) k = _
    simp [SpecWeight, Sol.distribute, Pi.single_apply]
  unfold SpecBalance
  simp only [List.map_cons, List.map_nil, List.sum_cons, List.sum_nil, Fin.sum_univ_three, w, SpecRow, k0, k1, k2, hs, hp,
    g, j, h3, h0, h1, p0, p1, zero_dotProduct]
  constructor <;> norm_num

theorem exLost_lumped (k : ℕ) (hk : k ∈ [1, 2]) : trialLumped (fun _ => none) [exLost] k ≠ 0 := by
  unfold trialLumped
  simp only [List.map_cons, List.map_nil, List.sum_cons, List.sum_nil, Fin.sum_univ_three]
  rw [lumped_eq exLost_ok List.mem_cons_self, lumped_eq exLost_ok List.mem_cons_self,
    lumped_eq exLost_ok List.mem_cons_self]
  have hs : ∀ f : Fin exLost.Q → ℝ, ∑ q, f q = f (0 : Fin 1) := fun f => Fin.sum_univ_one f
  simp only [hs]
  rcases List.mem_cons.1 hk with rfl | hk
  · simp [exLost, exLostShape, weight]
  · obtain rfl := List.mem_singleton.1 hk
    simp [exLost, exLostShape, weight]

theorem exLost_trial (u old : ℕ → ℝ) : ∃ rhs t : ℕ → ℝ,
    (∀ k, trialRhs (fun _ => none) [exLost] u old k = some (rhs k)) ∧
    AS.trialMicrostress (fun _ => none) [1, 2] (trialLumped (fun _ => none) [exLost]) rhs = some t := by
  refine ⟨fun k => SpecBalance (fun _ => none) [exLost] u old k 0 +
      0 * trialLumped (fun _ => none) [exLost] k + SpecFlux (fun _ => none) [exLost] old k,
    _, fun k => trialRhs_eq _ _ exLost_ok u old k 0, if_neg ?_⟩
  rintro ⟨e, he, hz⟩
  exact exLost_lumped e he hz

theorem exLost_interior (k : ℕ) : SpecInterior (fun _ => none) [exLost] k := by
  intro c hc
  obtain rfl := List.mem_singleton.1 hc
  intro i _ f
  exact Fin.elim0 f


/-- Sign of the slip as the microstress law has it. -/
theorem exLost_row (w : ℕ → ℝ) :
    exLost.prm.rhs exLost.kind (fun q : Fin exLost.Q => ⟨exLost.pts q, 0, Bulk.init ⟨1, 0, 1, 1, true⟩ 2, 0⟩)
      (w ∘ exLost.dofs) 1 = some (2 * w 0 - w 1 - 7 / 25 * w 2 - sgn (w 1)) ∧
    exLost.prm.rhs exLost.kind (fun q : Fin exLost.Q => ⟨exLost.pts q, 0, Bulk.init ⟨1, 0, 1, 1, true⟩ 2, 0⟩)
      (w ∘ exLost.dofs) 2 = some (11 / 10 * w 0 - 7 / 25 * w 1 - w 2 - sgn (w 2)) := by
  have hc := fun i a ha => C76_residual exLost (exLost_ok.index _ List.mem_cons_self)
    (exLost_ok.primitive _ List.mem_cons_self) w w
    (w ∘ exLost.dofs) (fun _ _ => rfl) (fun _ _ _ => rfl) (fun _ => 0) (fun _ => Bulk.init ⟨1, 0, 1, 1, true⟩ 2)
    (fun _ => 0) i a ha
  have hs : ∀ f : Fin exLost.Q → ℝ, ∑ q, f q = f (0 : Fin 1) := fun f => Fin.sum_univ_one f
  have k1 : exLost.kind 1 = some 0 := rfl
  have k2 : exLost.kind 2 = some 1 := rfl
  have hp : exLost.pts (0 : Fin 1) = exLostShape := rfl
  have h3 : exLost.prm.dn3 = 1 := rfl
  have g : ∀ a i, exLostShape.grad a i = 0 := fun _ _ => rfl
  have j : exLostShape.jxw = 1 := rfl
  have p0 : exLostShape.phi 0 1 = 1 := by simp [exLostShape]
  have p1 : exLostShape.phi 1 2 = 1 := by simp [exLostShape]
  have s0 : exLostShape.slip (w ∘ exLost.dofs) 0 = w 1 := by
    simp [Shape.slip, exLostShape, exLost]
  have s1 : exLostShape.slip (w ∘ exLost.dofs) 1 = w 2 := by
    simp [Shape.slip, exLostShape, exLost]
  have l : exLost.prm.law = ⟨.tanh, 1, true, ⟨1, 0, 1, 1, true⟩⟩ := rfl
  have t : exLost.prm.dt = 1 := rfl
  have m0 : exLost.prm.law.evalMicrostress (Bulk.init ⟨1, 0, 1, 1, true⟩ 2) (exLostShape.slip (w ∘ exLost.dofs)) 0
      exLost.prm.dt 0 = sgn (w 1) := by
    simp [Law.evalMicrostress, Law.microstress, s0, Bulk.update, Bulk.init, l, t]
  have m1 : exLost.prm.law.evalMicrostress (Bulk.init ⟨1, 0, 1, 1, true⟩ 2) (exLostShape.slip (w ∘ exLost.dofs)) 0
      exLost.prm.dt 1 = sgn (w 2) := by
    simp [Law.evalMicrostress, Law.microstress, s1, Bulk.update, Bulk.init, l, t]
  constructor
  · refine (show _ = _ from hc 1 0 rfl).trans ?_
    unfold SpecRow
    simp only [k1, hs, hp, g, j, h3, (exLost_shear w w).1, p0, m0, zero_dotProduct]
    congr 1
    ring
  · refine (show _ = _ from hc 2 1 rfl).trans ?_
    unfold SpecRow
    simp only [k2, hs, hp, g, j, h3, (exLost_shear w w).2, p1, m1, zero_dotProduct]
    congr 1
    ring

/-- C131 is violated: a rate-independent step from rest, of ideally plastic material under a prescribed displacement, in which
both slip systems are active whatever the slips are, and in which no slips make the residual smaller than 1/10: the slip of
the second system would stop as soon as the first one flows, which the law takes for a state without microstress. -/
theorem C131_violated : ∃ (cell : TCell 2 2 3) (hist : Fin cell.Q → Bulk 2) (y : AS.Yield),
    SpecCells [cell] ∧ cell.prm.law.rateIndependent = true ∧ cell.prm.elastic.accepted ∧
    (∀ k, SpecInterior (fun _ => none) [cell] k) ∧
    cell.kind 0 = none ∧ cell.kind 1 = some 0 ∧ cell.kind 2 = some 1 ∧ (∀ i, cell.dofs i = i) ∧
    ∀ w : ℕ → ℝ, w 0 = 1 →
    (∃ rhs t : ℕ → ℝ, (∀ k, trialRhs (fun _ => none) [cell] w (fun _ => 0) k = some (rhs k)) ∧
      AS.trialMicrostress (fun _ => none) [1, 2] (trialLumped (fun _ => none) [cell]) rhs = some t ∧
      1 ∈ (AS.determineActive (fun _ => none) (fun _ => none) (fun _ => none) [1, 2] t y).1 ∧
      2 ∈ (AS.determineActive (fun _ => none) (fun _ => none) (fun _ => none) [1, 2] t y).1) ∧
    (∀ q a k, y.at k = ((hist q).update ((cell.pts q).slip (w ∘ cell.dofs)) fun _ => 0).res a) ∧
    ∃ r₁ r₂ : ℝ, cell.prm.rhs cell.kind (fun q => ⟨cell.pts q, 0, hist q, 0⟩) (w ∘ cell.dofs) 1 = some r₁ ∧
      cell.prm.rhs cell.kind (fun q => ⟨cell.pts q, 0, hist q, 0⟩) (w ∘ cell.dofs) 2 = some r₂ ∧
      1 / 10 ≤ |r₁| + |r₂| := by
  have ya : ∀ k, (⟨true, 1, 1, fun _ => 1⟩ : AS.Yield).at k = 1 := fun k => by simp [AS.Yield.at]
  refine ⟨exLost, fun _ => Bulk.init ⟨1, 0, 1, 1, true⟩ 2, ⟨true, 1, 1, fun _ => 1⟩, exLost_ok, rfl, ?_, exLost_interior,
    rfl, rfl, rfl, fun _ => rfl, fun w w0 => ⟨?_, ?_, _, _, (exLost_row w).1, (exLost_row w).2, ?_⟩⟩
  · norm_num [exLost, Elastic.accepted]
  · obtain ⟨rhs, t, hr, ht⟩ := exLost_trial w fun _ => 0
    have bal := fun k hk p => C76_balance_partial (fun _ => none) [exLost] exLost_ok w (fun _ => 0) [1, 2] rhs t hr ht k hk
      rfl (exLost_interior k) p
    have t1 : t 1 = 2 := (bal 1 (by simp) 2).2 (by rw [(exLost_balance _ _ _).1, w0]; norm_num)
    have t2 : t 2 = 11 / 10 := (bal 2 (by simp) (11 / 10)).2 (by rw [(exLost_balance _ _ _).2, w0]; norm_num)
    exact ⟨rhs, t, hr, ht, (AS.C13_active_iff ..).2 ⟨1, by simp, by norm_num [t1], Or.inl ⟨rfl, Or.inl rfl⟩⟩,
      (AS.C13_active_iff ..).2 ⟨2, by simp, by norm_num [t2, abs_of_pos], Or.inl ⟨rfl, Or.inl rfl⟩⟩⟩
  · intro q a k; rw [ya]; simp [Bulk.update, Bulk.init]
  · rw [w0]
    by_contra hlt
    rw [not_le] at hlt
    have a1 := neg_abs_le (2 * 1 - w 1 - 7 / 25 * w 2 - sgn (w 1))
    have a2 := le_abs_self (2 * 1 - w 1 - 7 / 25 * w 2 - sgn (w 1))
    have b1 := neg_abs_le (11 / 10 * 1 - 7 / 25 * w 1 - w 2 - sgn (w 2))
    have b2 := le_abs_self (11 / 10 * 1 - 7 / 25 * w 1 - w 2 - sgn (w 2))
    have c1 := abs_nonneg (2 * 1 - w 1 - 7 / 25 * w 2 - sgn (w 1))
    have c2 := abs_nonneg (11 / 10 * 1 - 7 / 25 * w 1 - w 2 - sgn (w 2))
    have s : ∀ x : ℝ, (0 < x ∧ sgn x = 1) ∨ (x = 0 ∧ sgn x = 0) ∨ (x < 0 ∧ sgn x = -1) := by
      intro x
      rcases lt_trichotomy x 0 with h | h | h
      · exact Or.inr (Or.inr ⟨h, by simp [sgn, h, h.le]⟩)
      · exact Or.inr (Or.inl ⟨h, by simp [sgn, h]⟩)
      · exact Or.inl ⟨h, by simp [sgn, h, h.le]⟩
    rcases s (w 1) with ⟨x1, e1⟩ | ⟨x1, e1⟩ | ⟨x1, e1⟩ <;> rcases s (w 2) with ⟨x2, e2⟩ | ⟨x2, e2⟩ | ⟨x2, e2⟩ <;>
    · rw [e1] at a1 a2 c1 hlt
      rw [e2] at b1 b2 c2 hlt
      linarith

/-! ## Existence with the microstress of a stopped slip left open -/

/-- What the microstresses `p` contribute to the local residual. -/
noncomputable def slipForce (c : MeshCell d n N) (p : Fin c.Q → Fin n → ℝ) (i : Fin N) : ℝ :=
  match c.kind i with
  | none => 0
  | some a => ∑ q, (c.pts q).shape.phi a i * p q a * (c.pts q).shape.jxw

/-- The assembled residual vanishes in the state `x` when the scalar microstresses of the law are replaced by `p`. -/
def SpecFlowSolution (cells : List (MeshCell d n N)) (K : Sol.Constraints ℕ) (m : ℕ) (x : ℕ → ℝ)
    (p : (c : MeshCell d n N) → Fin c.Q → Fin n → ℝ) : Prop :=
  ∃ R, SpecAssembled cells x R ∧ ∀ r < m, Lin.residual K (cells.map fun c => c.local fun c i => R c i +
    slipForce c (fun q a => c.prm.law.evalMicrostress (c.pts q).hist ((c.pts q).shape.slip (x ∘ c.dofs)) (c.pts q).old
      c.prm.dt a) i - slipForce c (p c) i) r = 0

/-- The microstresses `p` are those of the law where slip takes place, and nowhere exceed the slip resistance. -/
def SpecFlowRule (cells : List (MeshCell d n N)) (x : ℕ → ℝ) (p : (c : MeshCell d n N) → Fin c.Q → Fin n → ℝ) : Prop :=
  ∀ c ∈ cells, ∀ q a,
    |p c q a| ≤ ((c.pts q).hist.update ((c.pts q).shape.slip (x ∘ c.dofs)) (c.pts q).old).res a ∧
    ((c.pts q).shape.slip (x ∘ c.dofs) a ≠ (c.pts q).old a → p c q a =
      c.prm.law.evalMicrostress (c.pts q).hist ((c.pts q).shape.slip (x ∘ c.dofs)) (c.pts q).old c.prm.dt a)

theorem forces_tame (c : MeshCell d n N) (hi : 2 ≤ c.prm.vec.index) (x : ℕ → ℝ) (i : Fin N) :
    forces x c i = forces x (tame c) i - slipForce c (fun q a => c.prm.law.evalMicrostress (c.pts q).hist
      ((c.pts q).shape.slip (x ∘ c.dofs)) (c.pts q).old c.prm.dt a) i := by
  unfold forces slipForce
  have tm : ∀ q a, (tame c).prm.law.evalMicrostress ((tame c).pts q).hist ((c.pts q).shape.slip (x ∘ c.dofs)) (c.pts q).old
      c.prm.dt a = 0 := fun q a => tame_micro c q _ _ _ a
  rcases hk : c.kind i with _ | a
  · have : c.prm.rhs c.kind c.pts (x ∘ c.dofs) i =
        (tame c).prm.rhs (tame c).kind (tame c).pts (x ∘ (tame c).dofs) i := by
      unfold CellPrm.rhs
      congr 1
      funext q
      unfold CellPrm.rhsTerm
      have : (tame c).kind i = none := hk
      simp only [hk, this]
      rfl
    rw [this, sub_zero]
  · have e1 : c.prm.rhs c.kind c.pts (x ∘ c.dofs) i = some (∑ q,
        -((c.prm.dn2 * ((c.pts q).shape.grad a i ⬝ᵥ xi c.prm.vec (c.prm.sys a) ((c.pts q).shape.slipGrad (x ∘ c.dofs) a)) -
        (c.pts q).shape.phi a i * (c.prm.dn3 * resolvedShear (c.prm.sys a) (c.prm.stressAt (c.pts q).shape (x ∘ c.dofs)) -
          c.prm.law.evalMicrostress (c.pts q).hist ((c.pts q).shape.slip (x ∘ c.dofs)) (c.pts q).old c.prm.dt a)) *
          (c.pts q).shape.jxw)) := by
      refine sumOpt_some _ _ fun q => ?_
      unfold CellPrm.rhsTerm
      simp only [hk, microstress_eq c.prm.vec hi, Option.map_some]
    have e2 : (tame c).prm.rhs (tame c).kind (tame c).pts (x ∘ (tame c).dofs) i = some (∑ q : Fin c.Q,
        -((c.prm.dn2 * ((c.pts q).shape.grad a i ⬝ᵥ xi c.prm.vec (c.prm.sys a) ((c.pts q).shape.slipGrad (x ∘ c.dofs) a)) -
        (c.pts q).shape.phi a i * (c.prm.dn3 * resolvedShear (c.prm.sys a) (c.prm.stressAt (c.pts q).shape (x ∘ c.dofs)) -
          0)) * (c.pts q).shape.jxw)) := by
      refine sumOpt_some (Q := c.Q) _ _ fun q => ?_
      unfold CellPrm.rhsTerm
      have hk' : (tame c).kind i = some a := hk
      have hv : (tame c).prm.vec = c.prm.vec := rfl
      simp only [hk', hv, microstress_eq c.prm.vec hi, Option.map_some]
      have := tm q a
      refine congrArg some ?_
      rw [← this]
      rfl
    rw [e1, e2, Option.getD_some, Option.getD_some, ← sum_sub_distrib]
    refine sum_congr rfl fun q _ => ?_
    ring

/-- The cell with the rate-dependent law of regularisation parameter `k`. -/
noncomputable def soften (k : ℝ) (c : MeshCell d n N) : MeshCell d n N :=
  ⟨{ c.prm with law := { c.prm.law with k := k, rateIndependent := false } }, c.kind, c.dofs, c.Q, c.pts⟩

theorem soften_cells {cells : List (MeshCell d n N)} (hcell : ∀ c ∈ cells, SpecCell c) (k : ℝ) :
    ∀ c ∈ cells.map (soften k), SpecCell c := by
  intro t ht
  obtain ⟨c, hc, rfl⟩ := List.mem_map.1 ht
  exact ⟨fun q => (hcell c hc).primitive q, fun q => (hcell c hc).weight q, fun q => (hcell c hc).hist q,
    fun q a => (hcell c hc).res q a⟩

theorem soften_material {cells : List (MeshCell d n N)} (hmat : ∀ c ∈ cells, SpecMaterial c.prm) {k : ℝ} (hk : 0 < k) :
    ∀ c ∈ cells.map (soften k), SpecMaterial c.prm := by
  intro t ht
  obtain ⟨c, hc, rfl⟩ := List.mem_map.1 ht
  exact { hmat c hc with k := hk }

theorem soften_dofs {cells : List (MeshCell d n N)} {m : ℕ} (hm : ∀ c ∈ cells, ∀ i, c.dofs i < m) (k : ℝ) :
    ∀ c ∈ cells.map (soften k), ∀ i, c.dofs i < m := by
  intro t ht i
  obtain ⟨c, hc, rfl⟩ := List.mem_map.1 ht
  exact hm c hc i

theorem tame_dofs {cells : List (MeshCell d n N)} {m : ℕ} (hm : ∀ c ∈ cells, ∀ i, c.dofs i < m) :
    ∀ c ∈ cells.map tame, ∀ i, c.dofs i < m := by
  intro t ht i
  obtain ⟨c, hc, rfl⟩ := List.mem_map.1 ht
  exact hm c hc i

/-- The softened steps have solutions in a ball that does not depend on the regularisation. -/
theorem soften_root (cells : List (MeshCell d n N)) (hcell : ∀ c ∈ cells, SpecCell c)
    (hmat : ∀ c ∈ cells, SpecMaterial c.prm) (K : Sol.Constraints ℕ) (m : ℕ) (hK : Homogeneous K m)
    (hm : ∀ c ∈ cells, ∀ i, c.dofs i < m) (hdet : SpecDetermined cells K m) (B : ℕ → ℝ) :
    ∃ ρ : ℝ, ∀ k : ℝ, 0 < k → ∃ w : EuclideanSpace ℝ (Fin m), ‖w‖ ≤ ρ ∧
      ∀ r < m, rowOf (cells.map (soften k)) K B w r = 0 := by
  have ht := tame_stable cells hcell hmat
  have hdet' : SpecDetermined (cells.map tame) K m := fun w hw he => hdet w hw (by rwa [tame_elastic, tame_defect] at he)
  obtain ⟨a, ha, C₁, hC₁, h₁⟩ := body_outward (cells.map tame) ht.cell ht.material hK (tame_dofs hm) hdet' B
  obtain ⟨C₂, hC₂, h₂⟩ := slipCost_grows cells hK hm B
  have e0 : ∀ w : EuclideanSpace ℝ (Fin m), state K B w - B = Sol.distribute K (ext w) := fun w => by
    unfold state; rw [add_sub_cancel_left]
  refine ⟨1 + 2 * (C₁ + C₂ + 1) / a, fun k hk => ?_⟩
  have hcs := soften_cells hcell k
  have hms := soften_material hmat hk
  have hds := soften_dofs hm k
  refine find_root (K := K) (m := m) (fun w g => rowOf (cells.map (soften k)) K B w g) (fun r _ => by
      unfold rowOf Lin.residual
      simp only [List.map_map]
      refine continuous_list_sum cells fun c hc => ?_
      simp only [Function.comp_apply]
      refine continuous_finsetSum _ fun i _ => ?_
      show Continuous fun w => weight K (c.dofs i) r * forces (state K B w) (soften k c) i
      refine continuous_const.mul ?_
      exact (rhs_ll (soften k c) (hms _ (List.mem_map_of_mem hc)) rfl (u := fun w => state K B w ∘ c.dofs)
        (fun j => (LL.const _).add (distribute_ll hK (hm c hc j))) i).continuous)
    (fun w r hr => residual_constrained hK _ hr) ha (by positivity : 0 ≤ C₁ + C₂) fun w hw => by
      have hsat : Sol.Satisfies K (state K B w - B) := by rw [e0]; exact Sol.distribute_satisfies hK.closed _
      have w1 := work_residual (cells.map (soften k)) hK hds hsat (R := forces (state K B w))
        (r := rowOf (cells.map (soften k)) K B w) (fun g _ => rfl)
      rw [← e0, ← w1, tame_work _ hcs hms]
      have et : (cells.map (soften k)).map tame = cells.map tame := by rw [List.map_map]; rfl
      have ec : slipCost (cells.map (soften k)) (state K B w) B = slipCost cells (state K B w) B := by
        unfold slipCost; rw [List.map_map]; rfl
      rw [et]
      have s1 := slipWork_cost (cells.map (soften k)) hcs hms (state K B w) B
      rw [ec] at s1
      have s2 := (le_abs_self _).trans (h₂ w)
      have s3 := h₁ w hw
      nlinarith

theorem reg_abs_le (f : RegFn) {k : ℝ} (hk : 0 < k) (x : ℝ) : |reg f k x| ≤ 1 := by
  have := C28_bounded ⟨f, k, false, ⟨1, 0, 1, 1, true⟩⟩ hk x 0 1 1 zero_le_one
  simpa [Law.microstress] using this

/-- C131, for every rate-independent body, whatever its hardening, history, loads and boundary values, there are a state and
microstresses that do not exceed the slip resistances, are those of the law where slip takes place, and fulfil all equations
of the step.  Missing from the full property: that they can be chosen as the law has them where a slip stops
(`C131_violated`). -/
theorem C131_partial (cells : List (MeshCell d n N)) (hcell : ∀ c ∈ cells, SpecCell c)
    (hmat : ∀ c ∈ cells, SpecMaterial c.prm) (hrate : ∀ c ∈ cells, c.prm.law.rateIndependent = true)
    (K : Sol.Constraints ℕ) (m : ℕ) (hK : Homogeneous K m) (hm : ∀ c ∈ cells, ∀ i, c.dofs i < m)
    (hdet : SpecDetermined cells K m) (B : ℕ → ℝ) :
    ∃ x p, Sol.Satisfies K (x - B) ∧ SpecFlowSolution cells K m x p ∧ SpecFlowRule cells x p := by
  obtain ⟨ρ, hρ⟩ := soften_root cells hcell hmat K m hK hm hdet B
  let k : ℕ → ℝ := fun j => 1 / ((j : ℝ) + 1)
  have hk0 : ∀ j, 0 < k j := fun j => by positivity
  choose w hw hrow using fun j => hρ (k j) (hk0 j)
  let U : Ultrafilter ℕ := Ultrafilter.of Filter.atTop
  have hU : (U : Filter ℕ) ≤ Filter.atTop := Ultrafilter.of_le _
  have hk : Filter.Tendsto k U (nhds 0) := tendsto_one_div_add_atTop_nhds_zero_nat.mono_left hU
  obtain ⟨v, -, hv⟩ := (isCompact_closedBall (0 : EuclideanSpace ℝ (Fin m)) ρ).ultrafilter_le_nhds (U.map w)
    (by
      refine Filter.tendsto_principal.2 (Filter.Eventually.of_forall fun j => ?_)
      exact mem_closedBall_zero_iff.2 (hw j))
  have hv : Filter.Tendsto w U (nhds v) := hv
  let x := state K B v
  let X : ℕ → ℕ → ℝ := fun j => state K B (w j)
  let rate : (c : MeshCell d n N) → Fin c.Q → Fin n → (ℕ → ℝ) → ℝ := fun c q a y =>
    ((c.pts q).shape.slip (y ∘ c.dofs) a - (c.pts q).old a) / c.prm.dt
  let σ : (c : MeshCell d n N) → Fin c.Q → Fin n → ℕ → ℝ := fun c q a j => reg c.prm.law.f (k j) (rate c q a (X j))
  have hσ : ∀ c q a, ∃ y ∈ Set.Icc (-1 : ℝ) 1, Filter.Tendsto (σ c q a) U (nhds y) := by
    intro c q a
    obtain ⟨y, h1, h2⟩ := (isCompact_Icc (a := (-1 : ℝ)) (b := 1)).ultrafilter_le_nhds (U.map (σ c q a))
      (by
        refine Filter.tendsto_principal.2 (Filter.Eventually.of_forall fun j => ?_)
        exact abs_le.1 (reg_abs_le _ (hk0 j) _))
    exact ⟨y, h1, h2⟩
  choose s hs1 hs2 using hσ
  let res : (c : MeshCell d n N) → Fin c.Q → Fin n → (ℕ → ℝ) → ℝ := fun c q a y =>
    ((c.pts q).hist.update ((c.pts q).shape.slip (y ∘ c.dofs)) (c.pts q).old).res a
  have hstate : ∀ c ∈ cells, ∀ i, LL fun w : EuclideanSpace ℝ (Fin m) => (state K B w ∘ c.dofs) i := fun c hc i =>
    (LL.const _).add (distribute_ll hK (hm c hc i))
  have hres0 : ∀ c ∈ cells, ∀ q a y, 0 ≤ res c q a y := fun c hc q a y =>
    ((hcell c hc).res q a).trans (resistance_ge' (c.pts q).hist (by rw [(hcell c hc).hist q]; exact (hmat c hc).hard) _ _ a)
  have hresc : ∀ c ∈ cells, ∀ q a, Filter.Tendsto (fun j => res c q a (X j)) U (nhds (res c q a x)) := fun c hc q a =>
    ((res_ll (c.pts q).hist (c.pts q).old (fun b => slip_ll (c.pts q).shape (hstate c hc) b) a).continuous.tendsto v).comp hv
  have hratec : ∀ c ∈ cells, ∀ q a, Filter.Tendsto (fun j => rate c q a (X j)) U (nhds (rate c q a x)) := fun c hc q a =>
    ((((slip_ll (c.pts q).shape (hstate c hc) a).continuous.sub continuous_const).div_const _).tendsto v).comp hv
  have e0 : x - B = Sol.distribute K (ext v) := by show state K B v - B = _; unfold state; rw [add_sub_cancel_left]
  refine ⟨x, fun c q a => res c q a x * s c q a, by rw [e0]; exact Sol.distribute_satisfies hK.closed _,
    ⟨forces x, forces_assembled cells hcell hmat _, fun r hr => ?_⟩, fun c hc q a => ⟨?_, fun hne => ?_⟩⟩
  · -- the rows
    have hl : ∀ j, Lin.residual K (cells.map fun c => c.local fun c i => forces (X j) (tame c) i -
        slipForce c (fun q a => res c q a (X j) * σ c q a j) i) r = 0 := by
      intro j
      rw [← hrow j r hr]
      unfold rowOf Lin.residual
      simp only [List.map_map]
      congr 1
      refine List.map_congr_left fun c hc => ?_
      simp only [Function.comp_apply]
      refine sum_congr rfl fun i _ => ?_
      show weight K (c.dofs i) r * _ = weight K (c.dofs i) r * forces (X j) (soften (k j) c) i
      rw [forces_tame (soften (k j) c) (hmat c hc).index]
      rfl
    have hlim : Filter.Tendsto (fun j => Lin.residual K (cells.map fun c => c.local fun c i => forces (X j) (tame c) i -
        slipForce c (fun q a => res c q a (X j) * σ c q a j) i) r) U
        (nhds (Lin.residual K (cells.map fun c => c.local fun c i => forces x (tame c) i -
        slipForce c (fun q a => res c q a x * s c q a) i) r)) := by
      unfold Lin.residual
      simp only [List.map_map]
      refine tendsto_list_sum cells fun c hc => ?_
      simp only [Function.comp_apply]
      refine tendsto_finsetSum _ fun i _ => ?_
      show Filter.Tendsto (fun j => weight K (c.dofs i) r * (forces (X j) (tame c) i -
        slipForce c (fun q a => res c q a (X j) * σ c q a j) i)) U (nhds (weight K (c.dofs i) r * (forces x (tame c) i -
        slipForce c (fun q a => res c q a x * s c q a) i)))
      refine Filter.Tendsto.const_mul _ (Filter.Tendsto.sub ?_ ?_)
      · have ht := tame_stable cells hcell hmat
        exact ((rhs_ll (tame c) (ht.material _ (List.mem_map_of_mem hc)) rfl (u := fun w => state K B w ∘ c.dofs)
          (hstate c hc) i).continuous.tendsto v).comp hv
      · unfold slipForce
        rcases hki : c.kind i with _ | a
        · exact tendsto_const_nhds
        · simp only
          refine tendsto_finsetSum _ fun q _ => ?_
          exact (((hresc c hc q a).mul (hs2 c q a)).const_mul _).mul_const _
    have h0 := tendsto_nhds_unique hlim (by simp only [hl]; exact tendsto_const_nhds)
    rw [← h0]
    unfold Lin.residual
    simp only [List.map_map]
    congr 1
    refine List.map_congr_left fun c hc => ?_
    simp only [Function.comp_apply]
    refine sum_congr rfl fun i _ => ?_
    show weight K (c.dofs i) r * _ = weight K (c.dofs i) r * _
    congr 1
    show forces x c i + _ - _ = forces x (tame c) i - slipForce c (fun q a => res c q a x * s c q a) i
    rw [forces_tame c (hmat c hc).index]
    ring
  · show |res c q a x * s c q a| ≤ res c q a x
    rw [abs_mul, abs_of_nonneg (hres0 c hc q a x)]
    exact mul_le_of_le_one_right (hres0 c hc q a x) (abs_le.2 (hs1 c q a))
  · have hr0 : rate c q a x ≠ 0 := div_ne_zero (sub_ne_zero.2 hne) (hmat c hc).dt.ne'
    have h1 := tendsto_nhds_unique (hs2 c q a) (reg_limit c.prm.law.f hk0 hk (hratec c hc q a) hr0)
    show res c q a x * s c q a = _
    rw [h1]
    unfold Law.evalMicrostress Law.microstress
    simp only [hrate c hc, if_true]
    rfl

/-- C131, a flow solution in which every slip that is free somewhere has moved fulfils the equations as the code has them. -/
theorem C131_moving_partial (cells : List (MeshCell d n N)) (K : Sol.Constraints ℕ) (m : ℕ) (x : ℕ → ℝ)
    (p : (c : MeshCell d n N) → Fin c.Q → Fin n → ℝ) (hx : SpecFlowSolution cells K m x p) (hp : SpecFlowRule cells x p)
    (hmove : ∀ c ∈ cells, ∀ i a, c.kind i = some a → (∃ r < m, weight K (c.dofs i) r ≠ 0) →
      ∀ q, (c.pts q).shape.phi a i ≠ 0 → (c.pts q).shape.slip (x ∘ c.dofs) a ≠ (c.pts q).old a) : SpecSolution cells K m x := by
  obtain ⟨R, hR, hz⟩ := hx
  refine ⟨R, hR, fun r hr => ?_⟩
  rw [← hz r hr]
  unfold Lin.residual
  simp only [List.map_map]
  congr 1
  refine List.map_congr_left fun c hc => ?_
  simp only [Function.comp_apply]
  refine sum_congr rfl fun i _ => ?_
  show weight K (c.dofs i) r * R c i = weight K (c.dofs i) r * _
  by_cases hwt : weight K (c.dofs i) r = 0
  · rw [hwt, zero_mul, zero_mul]
  congr 1
  show R c i = R c i + slipForce c _ i - slipForce c (p c) i
  rw [add_sub_assoc, left_eq_add, sub_eq_zero]
  unfold slipForce
  rcases hki : c.kind i with _ | a
  · rfl
  · refine sum_congr rfl fun q _ => ?_
    by_cases h0 : (c.pts q).shape.phi a i = 0
    · rw [h0, zero_mul, zero_mul, zero_mul, zero_mul]
    · rw [(hp c hc q a).2 (hmove c hc i a hki ⟨r, hr, hwt⟩ q h0)]

/-! ## Non-vacuity -/

/-- A rate-independent body with hardening and any load. -/
noncomputable def exSharp (H f : ℝ) : MeshCell 2 1 2 :=
  ⟨{ exCell true 7 with law := ⟨.tanh, 1, true, ⟨1, H, 1, 1, false⟩⟩ }, exKind, fun i => i, 1,
    fun _ => ⟨exShape, ![f, 0], Bulk.init ⟨1, H, 1, 1, false⟩ 1, fun _ => 3⟩⟩

example (H f : ℝ) (h0 : 0 ≤ H) : ∃ x p, SpecFlowSolution [exSharp H f] (fun _ => none) 2 x p ∧
    SpecFlowRule [exSharp H f] x p := by
  obtain ⟨x, p, -, h1, h2⟩ := C131_partial [exSharp H f]
    (by
      intro c hc; rw [List.mem_singleton] at hc; subst hc
      exact ⟨fun q => (exSoft_cell H f).primitive q, fun q => (exSoft_cell H f).weight q, fun q => (exSoft_cell H f).hist q,
        fun q a => (exSoft_cell H f).res q a⟩)
    (by
      intro c hc; rw [List.mem_singleton] at hc; subst hc
      exact { exSoft_material H f h0 with k := one_pos })
    (by intro c hc; rw [List.mem_singleton] at hc; subst hc; rfl) (fun _ => none) 2
    ⟨fun _ _ h => by simp at h, fun _ _ h => by simp at h, fun _ _ h => by simp at h⟩
    (by intro c hc; rw [List.mem_singleton] at hc; subst hc; exact fun i => (i : Fin 2).2)
    (show SpecDetermined [exSharp H f] _ 2 from exSoft_determined_any H f) 0
  exact ⟨x, p, h1, h2⟩

/-- The body of `C130_violated`, displacement and second slip given. -/
noncomputable def exTwoMesh : MeshCell 2 2 3 :=
  ⟨exTwo.prm, exTwo.kind, exTwo.dofs, exTwo.Q, fun q => ⟨exTwo.pts q, 0, Bulk.init ⟨1, 0, 1, 1, true⟩ 2, 0⟩⟩

/-- All but the first slip are given. -/
def exOnly : Sol.Constraints ℕ := fun k => if k = 1 then none else some ⟨[], 0⟩

example : ∃ (x : ℕ → ℝ) (p : (c : MeshCell 2 2 3) → Fin c.Q → Fin 2 → ℝ), x 1 ≠ 0 ∧
    SpecFlowSolution [exTwoMesh] exOnly 3 x p ∧ SpecFlowRule [exTwoMesh] x p ∧
    (∀ c ∈ [exTwoMesh], ∀ i a, c.kind i = some a → (∃ r < 3, weight exOnly (c.dofs i) r ≠ 0) →
      ∀ q, (c.pts q).shape.phi a i ≠ 0 → (c.pts q).shape.slip (x ∘ c.dofs) a ≠ (c.pts q).old a) := by
  let x : ℕ → ℝ := fun k => if k = 2 then 0 else 1
  have hcell : ∀ c ∈ [exTwoMesh], SpecCell c := by
    intro c hc; rw [List.mem_singleton] at hc; subst hc
    exact ⟨exTwo_ok.primitive _ List.mem_cons_self, fun _ => one_pos, fun _ => rfl, fun _ _ => by
      show (0 : ℝ) ≤ 1 / 1; norm_num⟩
  have hmat : ∀ c ∈ [exTwoMesh], SpecMaterial c.prm := by
    intro c hc; rw [List.mem_singleton] at hc; subst hc
    constructor <;> norm_num [exTwoMesh, exTwo, Elastic.accepted, SpecOrthogonal, VecLaw.accepted]
  have hK : Homogeneous exOnly 3 := by
    constructor <;> intro g l hg <;> unfold exOnly at hg <;> split_ifs at hg <;> cases hg <;> simp
  refine ⟨x, fun c q a => c.prm.law.evalMicrostress (c.pts q).hist ((c.pts q).shape.slip (x ∘ c.dofs)) (c.pts q).old
    c.prm.dt a, by simp [x], ⟨forces x, forces_assembled _ hcell hmat x, fun r hr => ?_⟩, fun c hc q a => ⟨?_, fun _ => rfl⟩,
    ?_⟩
  · simp only [add_sub_cancel_right]
    by_cases h1 : r = 1
    · subst h1
      unfold Lin.residual
      simp only [List.map_map, List.map_cons, List.map_nil, List.sum_cons, List.sum_nil, Function.comp_apply]
      show ∑ i : Fin 3, weight exOnly (i : ℕ) 1 * forces x exTwoMesh i + 0 = 0
      have h : forces x exTwoMesh 1 = 0 := by
        have e : exTwoMesh.prm.rhs exTwoMesh.kind exTwoMesh.pts (x ∘ exTwoMesh.dofs) 1 = some 0 := by
          refine (exTwo_row x (by simp [x])).trans ?_
          norm_num [x]
        unfold forces
        rw [e]; rfl
      rw [Fin.sum_univ_three, h]
      simp [weight, exOnly]
    · exact residual_constrained hK _ (by simp [exOnly, h1])
  · have hs := hmat c hc
    exact C28_bounded c.prm.law hs.k _ _ _ _ (((hcell c hc).res q a).trans
      (resistance_ge' (c.pts q).hist (by rw [(hcell c hc).hist q]; exact hs.hard) _ _ a))
  · intro c hc i a hi hr q _
    rw [List.mem_singleton] at hc; subst hc
    obtain ⟨r, -, hr⟩ := hr
    have hi1 : i = 1 := by
      fin_cases i
      · simp [exTwoMesh, exTwo] at hi
      · rfl
      · exact absurd (by simp [exTwoMesh, exTwo, weight, exOnly]) hr
    subst hi1
    obtain rfl : a = 0 := by
      have : some (0 : Fin 2) = some a := hi
      exact (Option.some.inj this).symm
    have s0 : exTwoShape.slip (x ∘ exTwo.dofs) 0 = 1 := by
      simp [Shape.slip, exTwoShape, exTwo, x]
    show exTwoShape.slip (x ∘ exTwo.dofs) 0 ≠ 0
    rw [s0]; exact one_ne_zero

end Verif.Asm
