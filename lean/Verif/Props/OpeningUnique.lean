import Verif.Props.Decohesion
import Verif.Props.Quotient

/-!
# Several solutions with opening grain boundaries (C84)

The cohesive law softens: beyond the critical opening a grain boundary pulls the less the further it opens.
-/

namespace Verif.Asm
open Finset Matrix
open Verif.Itf Verif.Cry Verif.Hist Verif.Micro Verif.Lin

/-- The boundary of two grains; its strength is `tc`. -/
noncomputable def exTearFace (tc : ℝ) : Fin 1 → Face 2 1 1 2 := fun _ =>
  (fun i => i, { exView with prm := { exFace false with coh := ⟨tc, 1, 1, 1, 1⟩ } })

/-- The two grains, pulled apart by forces of size `P`. -/
noncomputable def exTearRun (P : ℝ) : List (OpenGrain 2 1 2 1) :=
  [⟨⟨(exLeft 0).cell, fun _ _ => 0⟩, 1, fun _ => (0, false), 1, fun _ _ => ⟨exMeet, ![-P, 0], 1⟩⟩,
   ⟨⟨(exRight 0).cell, fun _ _ => 0⟩, 1, fun _ => (0, true), 1, fun _ _ => ⟨exMeet, ![P, 0], 1⟩⟩]

/-- At rest before the first step, and opened by `x` after it. -/
noncomputable def exTorn (x : ℝ) : ℕ → ℕ → ℝ := fun k i =>
  if k = 0 then 0 else if i = 0 then -x / 2 else if i = 2 then x / 2 else 0

theorem cell_row (c : CellPrm 2 1) (p : Point 2 1 2) (he : c.elastic = ⟨3, 1, 1, 1⟩) (hr : c.rot = 1)
    (hm : c.macroStrain = 0) (hs : p.shape = exShape) (h0 : p.supply = 0) (u : Fin 2 → ℝ) (hu : u 1 = 0) :
    c.rhsTerm exKind p u 0 = some (-(c.dn3 / c.dn0 * (19 * u 0) * (1 / 2))) := by
  have hstr : exShape.strain u = !![u 0, u 0 * 2; u 0 * 2, 0] := by
    ext i j
    fin_cases i <;> fin_cases j <;> simp [exShape, Shape.strain]
  have hel : c.elasticStrainAt exShape u = !![u 0, u 0 * 2; u 0 * 2, 0] := by
    unfold CellPrm.elasticStrainAt
    rw [elasticStrain_finRange, hm, hstr]
    have : ∀ a, exShape.slip u a = 0 := fun a => by simp [exShape, Shape.slip, Fin.sum_univ_two, hu]
    simp [this]
  have hd : ddot (exShape.symGrad 0) (c.stressAt exShape u) = 19 * u 0 := by
    have : ddot (exShape.symGrad 0) (c.stressAt exShape u) =
        cc c.tetrad (exShape.symGrad 0) (c.elasticStrainAt exShape u) := rfl
    rw [this, hel]
    have := ex_cc c he hr (u 0) (u 0 * 2) 0
    have e : exShape.symGrad 0 = !![1, 2; 2, 0] := by simp [exShape]
    rw [e, this]
    ring
  unfold CellPrm.rhsTerm
  simp only [exKind]
  rw [hs, h0, hd]
  simp [exShape]

theorem tear_eff (tc x : ℝ) (hx : 0 ≤ x) :
    effOpening ⟨tc, 1, 1, 1, 1⟩ (![x, 0] : Vec 2) ![1, 0] = x := exEff x hx

theorem tear_opening (tc x : ℝ) (hx : 0 ≤ x) : SpecOpening (exTearFace tc 0) (exTorn x 1) = x := by
  have ho : opening exMeet exMeet (exTorn x 1 ∘ fun i : Fin 2 => (i : ℕ))
      (exTorn x 1 ∘ fun i : Fin 2 => (i : ℕ) + 2) = ![x, 0] := by
    funext k
    fin_cases k <;> simp [opening, Side.displacement, exMeet, exTorn]; try ring
  show effOpening ⟨tc, 1, 1, 1, 1⟩ (opening exMeet exMeet _ _) ![1, 0] = _
  have ho' : opening exMeet exMeet (exTorn x 1 ∘ (exTearFace tc 0).1) (exTorn x 1 ∘ (exTearFace tc 0).2.nbDofs) =
      ![x, 0] := ho
  rw [ho', tear_eff tc x hx]

theorem tear_traction (tc x : ℝ) (hx : 0 < x) :
    Coh.traction ⟨tc, 1, 1, 1, 1⟩ (![x, 0] : Vec 2) ![1, 0] x 0 1 = some ![tc * x * Real.exp (1 - x), 0] := by
  have hd : direction ⟨tc, 1, 1, 1, 1⟩ (![x, 0] : Vec 2) ![1, 0] = ![1, 0] := exDirection x hx
  have hb : branch (effOpening ⟨tc, 1, 1, 1, 1⟩ (![x, 0] : Vec 2) ![1, 0]) x 0 1 = .loading := by
    unfold branch
    rw [tear_eff tc x hx.le]
    simp [hx.le]
  unfold Coh.traction
  simp only [hb]
  rw [hd, tear_eff tc x hx.le]
  congr 1
  funext k
  fin_cases k <;> simp [Coh.scalar]

theorem tear_left (tc x : ℝ) (hx : 0 < x) (h : Iface) (hm : h.maxOpening = x) (ho : h.oldOpening = 0) :
    viewForce exKind (fun i => i, { (exTearFace tc 0).2 with hist := h, prm := { (exTearFace tc 0).2.prm with dt := 1 } })
      (exTorn x 1) 0 = tc * x * Real.exp (1 - x) := by
  have e : opening exMeet exMeet (exTorn x 1 ∘ fun i : Fin 2 => (i : ℕ))
      (exTorn x 1 ∘ fun i : Fin 2 => (i : ℕ) + 2) = ![x, 0] := by
    funext k
    fin_cases k <;> simp [opening, Side.displacement, exMeet, exTorn]; try ring
  unfold viewForce FacePrm.rhsTerm
  simp only [exKind]
  show (if true = true then (Coh.traction ⟨tc, 1, 1, 1, 1⟩ (opening exMeet exMeet (exTorn x 1 ∘ fun i : Fin 2 => (i : ℕ))
      (exTorn x 1 ∘ fun i : Fin 2 => (i : ℕ) + 2)) ![1, 0] h.maxOpening h.oldOpening 1).map _ else some 0).getD 0 = _
  rw [e, hm, ho, tear_traction tc x hx]
  simp [exMeet, exTearFace, exView, exFace, degradation, Contact.traction]

theorem tear_right (tc x : ℝ) (hx : 0 < x) (h : Iface) (hm : h.maxOpening = x) (ho : h.oldOpening = 0) :
    viewForce exKind (Face.flip (fun i => i, { (exTearFace tc 0).2 with hist := h, prm := { (exTearFace tc 0).2.prm with dt := 1 } }))
      (exTorn x 1) 0 = -(tc * x * Real.exp (1 - x)) := by
  have e : opening exMeet exMeet 
      (exTorn x 1 ∘ fun i : Fin 2 => (i : ℕ) + 2) (exTorn x 1 ∘ fun i : Fin 2 => (i : ℕ)) = -![x, 0] := by
    funext k
    fin_cases k <;> simp [opening, Side.displacement, exMeet, exTorn]; try ring
  unfold viewForce FacePrm.rhsTerm
  simp only [exKind]
  show (if true = true then (Coh.traction ⟨tc, 1, 1, 1, 1⟩ (opening exMeet exMeet (exTorn x 1 ∘ fun i : Fin 2 => (i : ℕ) + 2)
      (exTorn x 1 ∘ fun i : Fin 2 => (i : ℕ))) (-![1, 0]) h.maxOpening h.oldOpening 1).map _ else some 0).getD 0 = _
  have hf := (C40_cohesive ⟨tc, 1, 1, 1, 1⟩ (![x, 0] : Vec 2) ![1, 0] x 0 1).2
  rw [tear_traction tc x hx] at hf
  have hf' : Coh.traction ⟨tc, 1, 1, 1, 1⟩ (-![x, 0] : Vec 2) (-![1, 0]) x 0 1 =
      some fun i => -(![tc * x * Real.exp (1 - x), 0] : Vec 2) i := hf
  rw [e, hm, ho, hf']
  simp [exMeet, exTearFace, exView, exFace, degradation, Contact.traction, Face.flip, View.flip]
  rfl

theorem tear_cells (P : ℝ) {p : MeshCell 2 1 2 → Prop} (h : p (exMeshOf (1 / 4) 1))
    (h' : p (exRight 0).cell) : ∀ r ∈ exTearRun P, p r.run.cell := by
  intro r hr
  rcases List.mem_cons.1 hr with rfl | hr
  · exact h
  · obtain rfl := List.mem_singleton.1 hr; exact h'

theorem tear_dofs (P : ℝ) : ∀ r ∈ exTearRun P, ∀ i, r.run.cell.dofs i < 4 := by
  refine tear_cells P (p := fun c => ∀ i, c.dofs i < 4) (fun i => ?_) fun i => ?_
  · show (i : ℕ) < 4
    have := (i : Fin 2).2; omega
  · show (i : ℕ) + 2 < 4
    have := (i : Fin 2).2; omega

/-- The state opened by `x` solves the first step under the forces that balance the boundary's traction and the
grains' stress. -/
theorem tear_solves (tc x : ℝ) (hx : 0 < x) :
    SpecGrainSolution (SpecOpenGrains (exTearRun (95 / 8 * x + tc * x * Real.exp (1 - x))) (exTearFace tc) exDamage
      exHappens (fun _ => 1) (exTorn x) 0) exHeld 4 (exTorn x 1) := by
  let P := 95 / 8 * x + tc * x * Real.exp (1 - x)
  let g : OpenGrain 2 1 2 1 → GrainCell 2 1 1 2 := fun r =>
    r.at (exTearFace tc) exDamage exHappens (fun _ => 1) (exTorn x) 0
  let L : OpenGrain 2 1 2 1 :=
    ⟨⟨(exLeft 0).cell, fun _ _ => 0⟩, 1, fun _ => (0, false), 1, fun _ _ => ⟨exMeet, ![-P, 0], 1⟩⟩
  let M : OpenGrain 2 1 2 1 :=
    ⟨⟨(exRight 0).cell, fun _ _ => 0⟩, 1, fun _ => (0, true), 1, fun _ _ => ⟨exMeet, ![P, 0], 1⟩⟩
  have hl : SpecOpenGrains (exTearRun P) (exTearFace tc) exDamage exHappens (fun _ => 1) (exTorn x) 0 =
      [g L, g M] := rfl
  have hcell : ∀ r ∈ exTearRun P, SpecCell r.run.cell :=
    tear_cells P (exMesh_cell (1 / 4) 1) (exPoly_cell 0 0 (exRight 0) (by simp))
  have hmat : ∀ r ∈ exTearRun P, SpecMaterial r.run.cell.prm :=
    tear_cells P (p := fun c => SpecMaterial c.prm) (exMesh_material (1 / 4) (by norm_num) 1)
      (exPoly_material 0 0 (exRight 0) (by simp))
  have hkind : ∀ r ∈ exTearRun P, r.run.cell.kind = exKind :=
    tear_cells P (p := fun c => c.kind = exKind) rfl rfl
  set h : Iface := ((exHappens.trials 0 0).foldl (Iface.op exDamage) (Iface.new).store).updateOrtiz exDamage
      (SpecOpening (exTearFace tc 0) (exTorn x 1)) with hh
  have hm : h.maxOpening = x := by
    rw [hh, tear_opening tc x hx.le]
    simp [exHappens, Iface.op, Iface.reset, Iface.updateOrtiz, Iface.store, Iface.new, hx.le]
  have ho : h.oldOpening = 0 := by
    rw [hh]
    simp [exHappens, Iface.op, Iface.reset, Iface.updateOrtiz, Iface.store, Iface.new]
  obtain ⟨R, hR⟩ : ∃ R, SpecGrainAssembled [g L, g M] (exTorn x 1) R := by
    refine open_assembled_exists _ ?_ ?_ ?_ _
    · intro c hc k
      have : (c.views k).hist = h := by
        rcases List.mem_cons.1 hc with rfl | hc
        · rfl
        · obtain rfl := List.mem_singleton.1 hc; rfl
      rw [this, hm]
      exact hx.ne'
    · intro c hc
      rw [← hl] at hc
      obtain ⟨r, hr, rfl⟩ := List.mem_map.1 hc
      exact at_ok r.run (hcell r hr) (hmat r hr) (fun _ => 1) _ 0
    · intro c hc
      rw [← hl] at hc
      obtain ⟨r, hr, rfl⟩ := List.mem_map.1 hc
      exact at_material r.run (hmat r hr) (fun _ => 1) _ 0 one_pos
  have hk : ∀ c ∈ [g L, g M], c.cell.kind = exKind := by
    intro c hc
    rw [← hl] at hc
    obtain ⟨r, hr, rfl⟩ := List.mem_map.1 hc
    exact hkind r hr
  have rows := (rows_seen hk hR).2
  have one : ∀ c : CellPrm 2 1, ∀ p : Point 2 1 2, c.elastic = ⟨3, 1, 1, 1⟩ → c.rot = 1 → c.macroStrain = 0 →
      c.dn0 = 2 → c.dn3 = 5 → p.shape = exShape → p.supply = 0 → ∀ u : Fin 2 → ℝ, u 1 = 0 →
      (c.rhs exKind (fun _ : Fin 1 => p) u 0).getD 0 = -(95 / 4 * u 0) := by
    intro c p a1 a2 a3 a4 a5 a6 a7 u hu
    unfold CellPrm.rhs
    rw [sumOpt_some _ (fun _ => _) fun _ => cell_row c p a1 a2 a3 a6 a7 u hu, a4, a5]
    simp
    ring
  have zl : R (g L) 0 = 0 := by
    rw [(rows (g L) (by simp) 0).2]
    have c1 : cellRhs (exTorn x 1) (g L).cell 0 = -(95 / 4 * (-x / 2)) := by
      refine (one (g L).cell.prm ((g L).cell.pts (0 : Fin 1)) rfl rfl rfl rfl rfl rfl rfl
        (exTorn x 1 ∘ fun i : Fin 2 => (i : ℕ)) (by simp [exTorn])).trans ?_
      simp [exTorn]
    have c2 : ∑ k, viewForce exKind ((g L).cell.dofs, (g L).views k) (exTorn x 1) 0 = tc * x * Real.exp (1 - x) := by
      refine (Fintype.sum_eq_single (0 : Fin 1) fun k hk => absurd (Subsingleton.elim k 0) hk).trans ?_
      exact tear_left tc x hx h hm ho
    have c3 : ∑ b, ((g L).loads b).side.disp 0 ⬝ᵥ ((g L).loads b).value * ((g L).loads b).jxw = -P := by
      show ∑ b : Fin 1, exMeet.disp 0 ⬝ᵥ ![-P, 0] * 1 = -P
      simp [exMeet]
    rw [c1, c2, c3]
    simp only [P]
    ring
  have zr : R (g M) 0 = 0 := by
    rw [(rows (g M) (by simp) 0).2]
    have c1 : cellRhs (exTorn x 1) (g M).cell 0 = -(95 / 4 * (x / 2)) := by
      refine (one (g M).cell.prm ((g M).cell.pts (0 : Fin 1)) rfl rfl rfl rfl rfl rfl rfl
        (exTorn x 1 ∘ fun i : Fin 2 => (i : ℕ) + 2) (by simp [exTorn])).trans ?_
      simp [exTorn]
    have c2 : ∑ k, viewForce exKind ((g M).cell.dofs, (g M).views k) (exTorn x 1) 0 = -(tc * x * Real.exp (1 - x)) := by
      refine (Fintype.sum_eq_single (0 : Fin 1) fun k hk => absurd (Subsingleton.elim k 0) hk).trans ?_
      exact tear_right tc x hx h hm ho
    have c3 : ∑ b, ((g M).loads b).side.disp 0 ⬝ᵥ ((g M).loads b).value * ((g M).loads b).jxw = P := by
      show ∑ b : Fin 1, exMeet.disp 0 ⬝ᵥ ![P, 0] * 1 = P
      simp [exMeet]
    rw [c1, c2, c3]
    simp only [P]
    ring
  refine ⟨R, ?_, fun r hr => ?_⟩
  · exact hR
  show Lin.residual exHeld ([g L, g M].map fun c => c.local R) r = 0
  by_cases h1 : r = 1 ∨ r = 3
  · exact residual_constrained exHeld_ok _ (by unfold exHeld; rw [if_pos h1]; simp)
  · unfold Lin.residual
    rw [List.map_map, List.map_cons, List.map_singleton, List.sum_cons, List.sum_singleton]
    show ∑ i : Fin 2, Asm.weight exHeld (i : ℕ) r * R (g L) i +
      ∑ i : Fin 2, Asm.weight exHeld (i + 2 : ℕ) r * R (g M) i = 0
    rw [Fin.sum_univ_two, Fin.sum_univ_two, zl, zr]
    simp [Asm.weight, exHeld]

/-- C84 is violated when grain boundaries may open, however mild the latent hardening: two grains held together by a
cohesive boundary are pulled apart by given forces.  Every other hypothesis of `C84_grains_state_partial` holds, and the
first time step from rest has two solutions: one in which the boundary has opened by 1, another in which it has opened by 2. -/
theorem C84_violated_opening : ∃ tc P : ℝ, 0 < tc ∧
    SpecSides (exTearRun P) (exTearFace tc) ∧ (∀ j, SpecJoint exKind (exTearFace tc j)) ∧
    (∀ r ∈ exTearRun P, r.run.cell.kind = exKind ∧ SpecCell r.run.cell ∧ SpecMaterial r.run.cell.prm ∧
      SpecHardens r.run.cell.prm.law.hard ∧ r.run.cell.prm.law.rateIndependent = false ∧
      ∀ q a, SpecLatent r.run.cell.prm.law 1 1 < (r.run.cell.pts q).hist.tmp a) ∧
    Homogeneous exHeld 4 ∧ (∀ r ∈ exTearRun P, ∀ i, r.run.cell.dofs i < 4) ∧
    (∀ w : ℕ → ℝ, Sol.Satisfies exHeld w →
      (∀ r ∈ exTearRun P, ∀ q, (r.run.cell.pts q).shape.strain (w ∘ r.run.cell.dofs) = 0 ∧
        ∀ a, (r.run.cell.pts q).shape.slip (w ∘ r.run.cell.dofs) a = 0) → ∀ r < 4, w r = 0) ∧
    ∃ u v : ℕ → ℕ → ℝ, u 0 = 0 ∧ v 0 = 0 ∧ Sol.Satisfies exHeld (u 1) ∧ Sol.Satisfies exHeld (v 1) ∧
      SpecGrainSolution (SpecOpenGrains (exTearRun P) (exTearFace tc) exDamage exHappens (fun _ => 1) u 0) exHeld 4 (u 1) ∧
      SpecGrainSolution (SpecOpenGrains (exTearRun P) (exTearFace tc) exDamage exHappens (fun _ => 1) v 0) exHeld 4 (v 1) ∧
      SpecOpening (exTearFace tc 0) (u 1) = 1 ∧ SpecOpening (exTearFace tc 0) (v 1) = 2 := by
  have he : Real.exp (-1) < 1 / 2 := by
    rw [Real.exp_neg, one_div]
    refine inv_strictAnti₀ (by norm_num) ?_
    have := Real.add_one_lt_exp (x := 1) one_ne_zero
    linarith
  have hd : 0 < 1 - 2 * Real.exp (-1) := by linarith
  let tc : ℝ := 95 / 8 / (1 - 2 * Real.exp (-1))
  have htc : 0 < tc := by positivity
  have key : tc * (1 - 2 * Real.exp (-1)) = 95 / 8 := div_mul_cancel₀ _ hd.ne'
  let P : ℝ := 95 / 8 * 1 + tc * 1 * Real.exp (1 - 1)
  have hP : P = 95 / 8 * 2 + tc * 2 * Real.exp (1 - 2) := by
    simp only [P]
    rw [show (1 : ℝ) - 2 = -1 by norm_num, sub_self, Real.exp_zero]
    linarith
  refine ⟨tc, P, htc, List.Perm.refl _, ?_, ?_, exHeld_ok, tear_dofs P, ?_, exTorn 1, exTorn 2, ?_, ?_, ?_, ?_,
    tear_solves tc 1 one_pos, ?_, tear_opening tc 1 zero_le_one, tear_opening tc 2 (by norm_num)⟩
  · intro j
    refine ⟨lateral2_ok, exMeet_primitive, exMeet_primitive, ?_, ?_, ?_, ?_, ?_, ?_, ?_, ?_, ?_, ?_, ?_, ?_⟩ <;>
      norm_num [exTearFace, exView, exFace, Coh.sensible, htc.le]
  · have hh : SpecHardens (exMeshOf (1 / 4) 1).prm.law.hard := Or.inr ⟨by norm_num [exMeshOf],
      by norm_num [exMeshOf], by norm_num [exMeshOf], by norm_num [exMeshOf]⟩
    have hs : SpecLatent (exMeshOf (1 / 4) 1).prm.law 1 1 < (1 / 1 : ℝ) := by
      norm_num [SpecLatent, exMeshOf, exCell]
    refine tear_cells P (p := fun c => c.kind = exKind ∧ SpecCell c ∧ SpecMaterial c.prm ∧
      SpecHardens c.prm.law.hard ∧ c.prm.law.rateIndependent = false ∧
      ∀ q a, SpecLatent c.prm.law 1 1 < (c.pts q).hist.tmp a) ?_ ?_
    · exact ⟨rfl, exMesh_cell _ _, exMesh_material _ (by norm_num) _, hh, rfl, fun _ _ => hs⟩
    · exact ⟨rfl, exPoly_cell 0 0 (exRight 0) (by simp), exPoly_material 0 0 (exRight 0) (by simp), hh, rfl, fun _ _ => hs⟩
  · intro w _ h r hr
    obtain ⟨a1, a2⟩ := h _ (List.mem_cons_self ..) (0 : Fin 1)
    obtain ⟨b1, b2⟩ := h _ (List.mem_cons_of_mem _ (List.mem_cons_self ..)) (0 : Fin 1)
    have a3 : exShape.strain (w ∘ fun i : Fin 2 => (i : ℕ)) 0 0 = 0 := congrFun (congrFun a1 0) 0
    have a4 : exShape.slip (w ∘ fun i : Fin 2 => (i : ℕ)) 0 = 0 := a2 0
    have b3 : exShape.strain (w ∘ fun i : Fin 2 => (i + 2 : ℕ)) 0 0 = 0 := congrFun (congrFun b1 0) 0
    have b4 : exShape.slip (w ∘ fun i : Fin 2 => (i + 2 : ℕ)) 0 = 0 := b2 0
    simp [exShape, Shape.strain] at a3 b3
    simp [exShape, Shape.slip, Fin.sum_univ_two] at a4 b4
    interval_cases r
    · exact a3
    · exact a4
    · exact b3
    · exact b4
  · funext i; simp [exTorn]
  · funext i; simp [exTorn]
  · exact exHeld_satisfies _ (by simp [exTorn]) (by simp [exTorn])
  · exact exHeld_satisfies _ (by simp [exTorn]) (by simp [exTorn])
  · rw [hP]
    exact tear_solves tc 2 (by norm_num)

end Verif.Asm
