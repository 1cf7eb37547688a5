import Verif.Props.PlaneInput

/-!
# Plane strain: C106, bodies

The hypotheses of C106 can be met: every plane body has a three-dimensional one above it.
-/

namespace Verif.Asm
open Matrix Finset Verif.Cry Verif.Hist Verif.Micro Verif.Lin Verif.Itf Verif.Post

variable {n N N3 M K Z J : ℕ}

/-- The slip system of space above one of the plane. -/
def aboveSystem (s : System 2) : System 3 := ⟨lift s.direction, lift s.normal, axis⟩

/-- The shape functions above those of a plane element; displacements in the third direction have a shape function
that is one. -/
noncomputable def aboveShape (loc : Locals N N3 M K) (L : Layer M Z) (z : Fin Z) (s : Shape 2 n N) : Shape 3 n N3 where
  jxw := s.jxw * L.weight z
  disp j := match loc j with
    | .inl (i, m) => L.value m z • lift (s.disp i)
    | .inr _ => axis
  symGrad j := match loc j with
    | .inl (i, m) => L.value m z • liftM (s.symGrad i) + L.slope m z • symmetrize (outer (lift (s.disp i)) axis)
    | .inr _ => 0
  phi a j := match loc j with
    | .inl (i, m) => L.value m z * s.phi a i
    | .inr _ => 0
  grad a j := match loc j with
    | .inl (i, m) => L.value m z • lift (s.grad a i) + (L.slope m z * s.phi a i) • axis
    | .inr _ => 0

/-- The same on faces. -/
noncomputable def aboveSide (loc : Locals N N3 M K) (L : Layer M Z) (z : Fin Z) (s : Side 2 n N) : Side 3 n N3 where
  disp j := match loc j with
    | .inl (i, m) => L.value m z • lift (s.disp i)
    | .inr _ => axis
  phi a j := match loc j with
    | .inl (i, m) => L.value m z * s.phi a i
    | .inr _ => 0

/-- Numbers of degrees of freedom: `extra` is the number of a displacement in the third direction. -/
def aboveDofs (loc : Locals N N3 M K) (num : Numbering) (extra : ℕ → ℕ) (L : Layer M Z) (dofs : Fin N → ℕ) : Fin N3 → ℕ :=
  fun j => match loc j with
    | .inl (i, m) => num (dofs i) (L.level m)
    | .inr k => extra k

/-- Kinds of degrees of freedom. -/
def aboveKind (loc : Locals N N3 M K) (kind : Kind n N) : Kind n N3 := fun j => match loc j with
  | .inl (i, _) => kind i
  | .inr _ => none

/-- Cell data of space. -/
def abovePrm (c : CellPrm 2 n) : CellPrm 3 n :=
  ⟨fun a => aboveSystem (c.sys a), c.elastic, liftR c.rot, c.vec, c.law, c.dn0, c.dn2, c.dn3, c.dt, liftM c.macroStrain⟩

/-- A face of space. -/
noncomputable def aboveView (loc : Locals N N3 M K) (num : Numbering) (extra : ℕ → ℕ) (L : Layer M Z) (z : Fin Z)
    (v : View 2 1 n N) : View 3 3 n N3 :=
  ⟨⟨v.prm.dn0, v.prm.dn2, v.prm.dn3, v.prm.dt, v.prm.coh, v.prm.contact, v.prm.exponent, v.prm.coupleMacro,
      v.prm.coupleMicro, v.prm.micro, lateral3, v.prm.decohesion, v.prm.microtraction⟩,
    fun a => aboveSystem (v.own a), fun a => aboveSystem (v.other a), lift v.nrm, v.jxw * L.weight z, v.hist,
    aboveSide loc L z v.cur, aboveSide loc L z v.nb, aboveDofs loc num extra L v.nbDofs⟩

/-- A loaded face of space. -/
noncomputable def aboveLoad (loc : Locals N N3 M K) (L : Layer M Z) (z : Fin Z) (l : Loaded 2 n N) : Loaded 3 n N3 :=
  ⟨aboveSide loc L z l.side, lift l.value, l.jxw * L.weight z⟩

/-- A cell of space, throughout a run. -/
noncomputable def aboveRun (loc : Locals N N3 M K) (num : Numbering) (extra : ℕ → ℕ) (L : Layer M Z) (r : RunCell 2 n N) :
    RunCell 3 n N3 :=
  ⟨⟨abovePrm r.cell.prm, aboveKind loc r.cell.kind, aboveDofs loc num extra L r.cell.dofs, r.cell.Q * Z,
    fun q => let x := finProdFinEquiv.symm q
      ⟨aboveShape loc L x.2 (r.cell.pts x.1).shape, lift (r.cell.pts x.1).supply, (r.cell.pts x.1).hist,
        (r.cell.pts x.1).old⟩⟩,
    fun k q => lift (r.supply k (finProdFinEquiv.symm q).1)⟩

/-- The same with bonded grain boundaries and loads. -/
noncomputable def aboveGrain (loc : Locals N N3 M K) (num : Numbering) (extra : ℕ → ℕ) (L : Layer M Z)
    (r : RunGrain 2 1 n N) : RunGrain 3 3 n N3 :=
  ⟨aboveRun loc num extra L r.run, r.F * Z,
    fun f => aboveView loc num extra L (finProdFinEquiv.symm f).2 (r.views (finProdFinEquiv.symm f).1),
    r.B * Z, fun k b => aboveLoad loc L (finProdFinEquiv.symm b).2 (r.loads k (finProdFinEquiv.symm b).1)⟩

theorem loc_at (loc : Locals N N3 M K) (i : Fin N) (m : Fin M) : loc (loc.at i m) = .inl (i, m) := by
  unfold Locals.at; rw [Equiv.apply_symm_apply]

theorem loc_out (loc : Locals N N3 M K) (k : Fin K) : loc (loc.out k) = .inr k := by
  unfold Locals.out; rw [Equiv.apply_symm_apply]

theorem aboveSystem_lifted {s : System 2} (h : s.third = 0) : SpecLifted s (aboveSystem s) :=
  ⟨h, rfl, rfl, 1, (one_smul _ _).symm⟩

theorem aboveSide_side (loc : Locals N N3 M K) (L : Layer M Z) (z : Fin Z) (s : Side 2 n N) :
    SpecSide loc L z s (aboveSide loc L z s) := by
  refine ⟨fun i m => ?_, fun a i m => ?_, fun a k => ?_⟩
  · simp only [aboveSide, loc_at]
  · simp only [aboveSide, loc_at]
  · simp only [aboveSide, loc_out]

theorem aboveDofs_dofs (loc : Locals N N3 M K) {num : Numbering} {extra : ℕ → ℕ} (he : ∀ k i ℓ, extra k ≠ num i ℓ)
    (L : Layer M Z) (dofs : Fin N → ℕ) : SpecDofs loc num L dofs (aboveDofs loc num extra L dofs) := by
  refine ⟨fun i m => ?_, fun k i ℓ => ?_⟩
  · simp only [aboveDofs, loc_at]
  · simp only [aboveDofs, loc_out]; exact he _ _ _

theorem aboveView_view (loc : Locals N N3 M K) {num : Numbering} {extra : ℕ → ℕ} (he : ∀ k i ℓ, extra k ≠ num i ℓ)
    (L : Layer M Z) (z : Fin Z) (v : View 2 1 n N) (ho : ∀ a, (v.own a).third = 0) (hn : ∀ a, (v.other a).third = 0)
    (hl : v.prm.lat = lateral2) : SpecView loc num L z v (aboveView loc num extra L z v) :=
  ⟨fun a => aboveSystem_lifted (ho a), fun a => aboveSystem_lifted (hn a), rfl, rfl, rfl, aboveSide_side _ _ _ _,
    aboveSide_side _ _ _ _, aboveDofs_dofs loc he L _, ⟨hl, rfl⟩, rfl⟩

theorem aboveRun_column (loc : Locals N N3 M K) {num : Numbering} {extra : ℕ → ℕ} (he : ∀ k i ℓ, extra k ≠ num i ℓ)
    (L : Layer M Z) (r : RunCell 2 n N) (hs : ∀ a, (r.cell.prm.sys a).third = 0) (hk : ∃ i, r.cell.kind i = none) :
    SpecRunColumn loc num L r (aboveRun loc num extra L r) := by
  refine ⟨⟨fun a => aboveSystem_lifted (hs a), rfl, rfl, rfl, rfl, rfl, rfl, rfl, rfl, rfl⟩, ⟨fun i m => ?_, fun k => ?_, hk⟩,
    aboveDofs_dofs loc he L _, finProdFinEquiv.symm, fun q => ⟨⟨rfl, ?_, ?_, ?_, ?_, ?_, ?_⟩, rfl, fun k => rfl⟩⟩
  · simp only [aboveRun, aboveKind, loc_at]
  · simp only [aboveRun, aboveKind, loc_out]
  · intro i m; simp only [aboveRun, aboveShape, loc_at]; rfl
  · intro i m; simp only [aboveRun, aboveShape, loc_at]; rfl
  · intro a i m; simp only [aboveRun, aboveShape, loc_at]; rfl
  · intro a i m; simp only [aboveRun, aboveShape, loc_at]; rfl
  · intro a k; simp only [aboveRun, aboveShape, loc_out]
  · intro a k; simp only [aboveRun, aboveShape, loc_out]

/-- A plane body as the two-dimensional program makes it. -/
def SpecPlaneBody (run : List (RunGrain 2 1 n N)) : Prop :=
  ∀ r ∈ run, (∀ a, (r.run.cell.prm.sys a).third = 0) ∧ (∃ i, r.run.cell.kind i = none) ∧
    ∀ f, (∀ a, ((r.views f).own a).third = 0) ∧ (∀ a, ((r.views f).other a).third = 0) ∧ (r.views f).prm.lat = lateral2

theorem forall₂_map_self {α β : Type*} {P : α → β → Prop} (f : α → β) (l : List α) (h : ∀ a ∈ l, P a (f a)) :
    List.Forall₂ P l (l.map f) := by
  induction l with
  | nil => exact .nil
  | cons a l ih => exact .cons (h a List.mem_cons_self) (ih fun a ha => h a (List.mem_cons_of_mem _ ha))

/-- C106: above every plane body, whatever its layers, there is a three-dimensional one. -/
theorem C106_body (loc : Locals N N3 M K) {num : Numbering} {extra : ℕ → ℕ} (he : ∀ k i ℓ, extra k ≠ num i ℓ)
    (layers : List (Layer M Z)) {run : List (RunGrain 2 1 n N)} (h : SpecPlaneBody run) :
    ∃ run3, SpecRunStack loc num layers run run3 := by
  refine ⟨(layers.map fun L => run.map (aboveGrain loc num extra L)).flatten,
    layers.map fun L => run.map (aboveGrain loc num extra L), forall₂_map_self _ _ fun L _ =>
      forall₂_map_self _ _ fun r hr => ?_, List.Perm.refl _⟩
  obtain ⟨h1, h2, h3⟩ := h r hr
  exact ⟨aboveRun_column loc he L _ h1 h2, ⟨finProdFinEquiv.symm, fun f => aboveView_view loc he L _ _ (h3 _).1 (h3 _).2.1 (h3 _).2.2⟩,
    ⟨finProdFinEquiv.symm, fun k b => ⟨aboveSide_side _ _ _ _, rfl, rfl⟩⟩⟩

open Classical in
/-- C106: above every state and all constraints of the plane there are those of the body. -/
theorem C106_state {num : Numbering} (hnum : ∀ i ℓ j ℓ', num i ℓ = num j ℓ' → i = j ∧ ℓ = ℓ') (u : ℕ → ℝ)
    (C : Sol.Constraints ℕ) : (∃ u3, SpecPlaneState num u u3) ∧ ∃ C3, SpecPlaneHeld num C C3 := by
  constructor
  · refine ⟨fun r => if h : ∃ i ℓ, r = num i ℓ then u h.choose else 0, fun i ℓ => ?_, fun r hr => ?_⟩
    · have h : ∃ i' ℓ', num i ℓ = num i' ℓ' := ⟨i, ℓ, rfl⟩
      rw [dif_pos h]
      obtain ⟨ℓ', hc⟩ := h.choose_spec
      rw [← (hnum _ _ _ _ hc).1]
    · rw [dif_neg (by push Not; exact hr)]
  · refine ⟨fun r => if h : ∃ x : ℕ × ℕ, r = num x.1 x.2 then (C h.choose.1).map fun l =>
        ⟨l.entries.map fun y => (num y.1 h.choose.2, y.2), l.inhom⟩ else some ⟨[], 0⟩, fun i ℓ => ?_, fun r hr => ?_⟩
    · have h : ∃ x : ℕ × ℕ, num i ℓ = num x.1 x.2 := ⟨(i, ℓ), rfl⟩
      rw [dif_pos h]
      have hc := hnum _ _ _ _ h.choose_spec
      rw [← hc.1, ← hc.2]
    · rw [dif_neg (by rintro ⟨x, hx⟩; exact hr _ _ hx)]

/-! ## Example -/

/-- One layer of linear elements with two points. -/
noncomputable def exLayer : Layer 2 2 where
  value m z := if m = z then 3 / 4 else 1 / 4
  slope m _ := if m = 0 then -1 else 1
  weight _ := 1 / 2
  level m := m

theorem exLayer_ok : exLayer.Ok := by
  refine ⟨by norm_num, fun z => ?_, fun z => ?_⟩
  · fin_cases z <;> simp [exLayer, Fin.sum_univ_two] <;> norm_num
  · simp [exLayer, Fin.sum_univ_two]

/-- Four degrees of freedom in the plane; displacements in the third direction have numbers `3 k + 1`. -/
def exNum : Numbering := fun r ℓ => if r < 4 then 3 * (r + 4 * ℓ) else 3 * (Nat.pair r ℓ + 8) + 2

theorem exNum_inj (i ℓ j ℓ' : ℕ) (h : exNum i ℓ = exNum j ℓ') : i = j ∧ ℓ = ℓ' := by
  unfold exNum at h
  split_ifs at h <;> try omega
  have : Nat.pair i ℓ = Nat.pair j ℓ' := by omega
  rw [Nat.pair_eq_pair] at this
  exact this

theorem exNum_extra (k i ℓ : ℕ) : 3 * k + 1 ≠ exNum i ℓ := by
  unfold exNum
  split_ifs <;> omega

/-- Local degrees of freedom of the body's elements: two of the plane at two levels, and four displacements in the
third direction. -/
def exLoc : Locals 2 8 2 4 := (finSumFinEquiv (m := 4) (n := 4)).symm.trans
  (Equiv.sumCongr (finProdFinEquiv (m := 2) (n := 2)).symm (Equiv.refl _))

theorem exRun_plane : SpecPlaneBody exRun := by
  have hA : ∀ a, (exGrainA a).third = 0 := fun a => by fin_cases a; rfl
  have hB : ∀ a, (exGrainB a).third = 0 := fun a => by fin_cases a; rfl
  intro r hr
  rcases List.mem_cons.1 hr with rfl | hr
  · exact ⟨fun a => by fin_cases a; rfl, ⟨0, rfl⟩, fun f => ⟨hA, hB, rfl⟩⟩
  · obtain rfl := List.mem_singleton.1 hr
    exact ⟨hB, ⟨0, rfl⟩, fun f => ⟨hB, hA, rfl⟩⟩

theorem exLayer_thickness : SpecThickness [exLayer] 0 ≠ 0 := by
  have : SpecThickness [exLayer] 0 = 1 / 2 := by
    simp [SpecThickness, Layer.thickness, exLayer, Fin.sum_univ_two]
    norm_num
  rw [this]
  norm_num

/-- C106 for two grains of different orientation with microtractions, changing loads and supply, over any number of
steps. -/
example (C : ℕ → Sol.Constraints ℕ) (u : ℕ → ℕ → ℝ) (dt : ℕ → ℝ) (T : ℕ) :
    ∃ (run3 : List (RunGrain 3 3 1 8)) (C3 : ℕ → Sol.Constraints ℕ) (u3 : ℕ → ℕ → ℝ), run3.length = 2 ∧
      ((∀ k < T, SpecGrainSolution (SpecGrains run3 dt u3 k) (C3 k) 24 (u3 (k + 1)) ∧ Sol.Satisfies (C3 k) (u3 (k + 1))) ↔
        ∀ k < T, SpecGrainSolution (SpecGrains exRun dt u k) (C k) 4 (u (k + 1)) ∧ Sol.Satisfies (C k) (u (k + 1))) := by
  obtain ⟨run3, hr⟩ := C106_body exLoc exNum_extra [exLayer] exRun_plane
  choose u3 hu using fun k => (C106_state exNum_inj (u k) (C k)).1
  choose C3 hC using fun k => (C106_state exNum_inj (u k) (C k)).2
  refine ⟨run3, C3, u3, ?_, C106_run exNum_inj hC (by simpa using exLayer_ok) hr (fun r ℓ h => ?_) ⟨0, exLayer_thickness, ?_⟩
    (by norm_num) hu dt T⟩
  · obtain ⟨cols, hf, hp⟩ := hr
    rw [hp.length_eq]
    clear hp
    cases hf with
    | cons ha hb => cases hb; simpa [exRun] using ha.length_eq.symm
  · unfold exNum at h; split_ifs at h <;> omega
  · intro r hr; unfold exNum; rw [if_pos hr]; omega

/-- C106 with a grain boundary that opens: the faces of the body are the two points above that of the plane. -/
example (C : ℕ → Sol.Constraints ℕ) (u : ℕ → ℕ → ℝ) (dt p q : ℕ → ℝ) (dmg : DamagePrm) (hap : Happens 1) (T : ℕ) :
    ∃ (face3 : Fin 2 → Face 3 3 1 8) (run3 : List (OpenGrain 3 1 8 2)) (C3 : ℕ → Sol.Constraints ℕ) (u3 : ℕ → ℕ → ℝ),
      ((∀ k < T, SpecGrainSolution (SpecOpenGrains run3 face3 dmg ⟨fun k _ => hap.trials k 0, fun k _ => hap.measured k 0⟩ dt u3 k)
          (C3 k) 24 (u3 (k + 1)) ∧ Sol.Satisfies (C3 k) (u3 (k + 1))) ↔
        ∀ k < T, SpecGrainSolution (SpecOpenGrains (exOpenRun p q) exOpen dmg hap dt u k) (C k) 4 (u (k + 1)) ∧
          Sol.Satisfies (C k) (u (k + 1))) := by
  choose u3 hu using fun k => (C106_state exNum_inj (u k) (C k)).1
  choose C3 hC using fun k => (C106_state exNum_inj (u k) (C k)).2
  have hA : ∀ a, (exGrainA a).third = 0 := fun a => by fin_cases a; rfl
  have hB : ∀ a, (exGrainB a).third = 0 := fun a => by fin_cases a; rfl
  let face3 : Fin 2 → Face 3 3 1 8 := fun z => (aboveDofs exLoc exNum (fun k => 3 * k + 1) exLayer (exOpen 0).1,
    aboveView exLoc exNum (fun k => 3 * k + 1) exLayer z (exOpen 0).2)
  have hv : ∀ z, SpecView exLoc exNum exLayer z (exOpen 0).2 (face3 z).2 ∧
      SpecDofs exLoc exNum exLayer (exOpen 0).1 (face3 z).1 := fun z =>
    ⟨aboveView_view exLoc exNum_extra exLayer z _ hA hB rfl, aboveDofs_dofs exLoc exNum_extra exLayer _⟩
  let ab (r : OpenGrain 2 1 2 1) : OpenGrain 3 1 8 2 := ⟨aboveRun exLoc exNum (fun k => 3 * k + 1) exLayer r.run, r.F * 2,
    fun f => ((finProdFinEquiv.symm f).2, (r.sees (finProdFinEquiv.symm f).1).2), r.B * 2,
    fun k b => aboveLoad exLoc exLayer (finProdFinEquiv.symm b).2 (r.loads k (finProdFinEquiv.symm b).1)⟩
  refine ⟨face3, (exOpenRun p q).map ab, C3, u3, C106_run_opening (over := fun _ => 0) exNum_inj hC
    (layers := [exLayer]) (by simpa using exLayer_ok)
    ⟨⟨[(exOpenRun p q).map ab], .cons (forall₂_map_self _ _ fun r hr => ?_) .nil, by simp⟩,
      fun j => ⟨exLayer, by simp, j, hv j⟩⟩ dmg (fun k j => ⟨rfl, rfl⟩) (fun r ℓ h => ?_)
    ⟨0, exLayer_thickness, ?_⟩ (by norm_num) hu dt T⟩
  · have h0 : ∀ x : Fin 1, x = 0 := fun x => Subsingleton.elim _ _
    refine ⟨aboveRun_column exLoc exNum_extra exLayer _ ?_ ?_, ⟨finProdFinEquiv.symm, fun f => ⟨rfl, (h0 _).symm, ?_⟩⟩,
      ⟨finProdFinEquiv.symm, fun k b => ⟨aboveSide_side _ _ _ _, rfl, rfl⟩⟩⟩
    · rcases List.mem_cons.1 hr with rfl | hr
      · intro a; fin_cases a; rfl
      · obtain rfl := List.mem_singleton.1 hr
        exact hB
    · rcases List.mem_cons.1 hr with rfl | hr
      · exact ⟨0, rfl⟩
      · obtain rfl := List.mem_singleton.1 hr
        exact ⟨0, rfl⟩
    · rw [h0 (r.sees _).1]
      exact hv _
  · unfold exNum at h; split_ifs at h <;> omega
  · intro r hr; unfold exNum; rw [if_pos hr]; omega

end Verif.Asm
