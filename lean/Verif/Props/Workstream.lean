import Verif.Model.Workstream
import Verif.Props.Condense
import Verif.Props.Polycrystal

/-!
# C110: the assembled system does not depend on threads, order of cells and old buffers
-/

namespace Verif.Ws
open Matrix Finset Verif.Cry Verif.Hist Verif.Micro Verif.Itf Verif.Asm

/-! ## Specification -/

section
variable {d e n N Q F : ℕ}

/-- The face quadrature points of the grain boundary faces of a cell. -/
def SpecViews (c : CellIn d e n N Q F) : List (View d e n N) :=
  c.faces.flatMap fun f => (List.finRange F).map fun q =>
    ⟨c.fprm, f.own, f.other, f.nrm q, f.jxw q, f.hist q, f.cur q, f.nb q, f.nbDofs⟩

/-- The quadrature points of the loaded faces of a cell. -/
def SpecLoads (c : CellIn d e n N Q F) : List (Loaded d n N) :=
  c.loads.flatMap fun f => (List.finRange F).map fun q => ⟨f.side q, f.value q, f.jxw q⟩

/-- The supply term is zero if the solver has none. -/
def SpecPoints (hasSupply : Bool) (c : CellIn d e n N Q F) (q : Fin Q) : Point d n N :=
  ⟨(c.pts q).shape, if hasSupply then (c.pts q).supply else 0, (c.pts q).hist, (c.pts q).old⟩

/-- The local right-hand side as a formula: `localRhs` of the other chapters. -/
noncomputable def SpecRhs (hasSupply : Bool) (u : ℕ → ℝ) (c : CellIn d e n N Q F) :
    Fin N → Option ℝ :=
  localRhs c.prm c.kind (SpecPoints hasSupply c) c.dofs (SpecViews c).get (SpecLoads c).get u

/-- The local matrix as a formula: cell integral and own part of the grain boundary integral. -/
noncomputable def SpecMat (u : ℕ → ℝ) (c : CellIn d e n N Q F) (i j : Fin N) : Option ℝ :=
  addO (c.prm.mat c.kind c.pts (u ∘ c.dofs) i j)
    (sumOpt fun k => let f := (SpecViews c).get k
      f.prm.localTerm c.kind f.own f.nrm f.jxw f.hist f.cur f.nb (u ∘ c.dofs) (u ∘ f.nbDofs) i j)

/-- The coupling with the neighbour at a grain boundary face as a formula. -/
noncomputable def SpecCoupling (u : ℕ → ℝ) (c : CellIn d e n N Q F) (f : FaceIn d e n N F)
    (i j : Fin N) : Option ℝ :=
  sumOpt fun q => c.fprm.couplingTerm c.kind f.own f.other (f.nrm q) (f.jxw q) (f.hist q) (f.cur q)
    (f.nb q) (u ∘ c.dofs) (u ∘ f.nbDofs) i j

/-- The grain boundary faces that couple: none if displacements do not jump and there are no
microtractions. -/
def SpecCoupled (c : CellIn d e n N Q F) : List (FaceIn d e n N F) :=
  if c.fprm.decohesion || c.fprm.microtraction then c.faces else []

end

/-- What `WorkStream` promises: a copy object is used by one cell until the copier was run with it,
exactly once, and nothing is left at the end.  `busy k` is the cell whose results are in the copy
object `k`; `cs` are the cells in the order of the copiers. -/
def Valid {C : Type} : (ℕ → Option C) → List (Event C) → List C → Prop
  | busy, [], cs => (∀ k, busy k = none) ∧ cs = []
  | busy, .work _ k c :: es, cs => busy k = none ∧ Valid (Function.update busy k (some c)) es cs
  | busy, .copy k :: es, cs => ∃ c cs', busy k = some c ∧ cs = c :: cs' ∧
      Valid (Function.update busy k none) es cs'

/-! ## Helpers -/

theorem addO_zero (x : Option ℝ) : addO x (some 0) = x := by cases x <;> simp [addO]
theorem zero_addO (x : Option ℝ) : addO (some 0) x = x := by cases x <;> simp [addO]
theorem addO_comm (x y : Option ℝ) : addO x y = addO y x := by
  cases x <;> cases y <;> simp [addO, add_comm]
theorem addO_assoc (x y z : Option ℝ) : addO (addO x y) z = addO x (addO y z) := by
  cases x <;> cases y <;> cases z <;> simp [addO, add_assoc]

theorem foldl_addO {ι : Type} (t : ι → Option ℝ) (l : List ι) (a : Option ℝ) :
    l.foldl (fun a q => addO a (t q)) a = addO a (l.foldl (fun a q => addO a (t q)) (some 0)) := by
  induction l generalizing a with
  | nil => simp [addO_zero]
  | cons q l ih =>
    rw [List.foldl_cons, List.foldl_cons, ih, ih (addO (some 0) (t q)), zero_addO, addO_assoc]

theorem sumOpt_eq {Q : ℕ} (t : Fin Q → Option ℝ) :
    sumOpt t = (List.finRange Q).foldl (fun a q => addO a (t q)) (some 0) := rfl

theorem sumOpt_get {ι : Type} (t : ι → Option ℝ) (l : List ι) :
    sumOpt (fun k => t (l.get k)) = l.foldl (fun a q => addO a (t q)) (some 0) := by
  have h : (List.finRange l.length).map l.get = l := by rw [← List.ofFn_eq_map, List.ofFn_get]
  rw [sumOpt_eq]
  conv_rhs => rw [← h]
  rw [List.foldl_map]

theorem foldl_flatMap {ι κ : Type} (t : κ → Option ℝ) (g : ι → List κ) (l : List ι) (a : Option ℝ) :
    (l.flatMap g).foldl (fun a q => addO a (t q)) a =
      l.foldl (fun a f => addO a ((g f).foldl (fun a q => addO a (t q)) (some 0))) a := by
  induction l generalizing a with
  | nil => rfl
  | cons f l ih =>
    rw [List.flatMap_cons, List.foldl_append, ih, List.foldl_cons, foldl_addO t (g f)]

theorem foldl_some {ι : Type} (x : ι → ℝ) (l : List ι) (a : ℝ) :
    l.foldl (fun a q => addO a (some (x q))) (some a) = some (a + (l.map x).sum) := by
  induction l generalizing a with
  | nil => simp
  | cons q l ih =>
    rw [List.foldl_cons]
    show l.foldl _ (some (a + x q)) = _
    rw [ih, List.map_cons, List.sum_cons, add_assoc]

theorem sumOpt_some {Q : ℕ} (x : Fin Q → ℝ) : sumOpt (fun q => some (x q)) = some (∑ q, x q) := by
  rw [sumOpt_eq, foldl_some, zero_add, ← List.ofFn_eq_map, List.sum_ofFn]

theorem perm_addO {ι : Type} (t : ι → Option ℝ) {l l' : List ι} (h : l.Perm l') (a : Option ℝ) :
    l.foldl (fun a q => addO a (t q)) a = l'.foldl (fun a q => addO a (t q)) a := by
  have : RightCommutative fun (a : Option ℝ) q => addO a (t q) :=
    ⟨fun a x y => by rw [addO_assoc, addO_comm (t x), ← addO_assoc]⟩
  exact h.foldl_eq a

section
variable {d e n N Q F : ℕ}

/-- A loop that adds to the right-hand side and keeps an invariant of the scratch. -/
theorem loop_rhs {S ι : Type} (f : S × RCopy N → ι → S × RCopy N) (P : S → Prop)
    (t : ι → Fin N → Option ℝ)
    (hf : ∀ x q, P x.1 → P (f x q).1 ∧
      (f x q).2 = ⟨x.2.dofs, fun i => addO (x.2.rhs i) (t q i)⟩)
    (l : List ι) (x : S × RCopy N) (h : P x.1) :
    P (l.foldl f x).1 ∧ (l.foldl f x).2 =
      ⟨x.2.dofs, fun i => l.foldl (fun a q => addO a (t q i)) (x.2.rhs i)⟩ := by
  induction l generalizing x with
  | nil => exact ⟨h, rfl⟩
  | cons q l ih =>
    obtain ⟨h1, h2⟩ := hf x q h
    obtain ⟨i1, i2⟩ := ih (f x q) h1
    refine ⟨i1, ?_⟩
    rw [List.foldl_cons, i2, h2]
    rfl

/-- What the loop over quadrature points relies on. -/
def Filled (hasSupply : Bool) (u : ℕ → ℝ) (c : CellIn d e n N Q F) (s : RScratch d n N Q F) : Prop :=
  (∀ q, s.jxw q = (c.pts q).shape.jxw) ∧
  (∀ q, s.strain q = (c.pts q).shape.strain (u ∘ c.dofs)) ∧
  (∀ q, s.supply q = if hasSupply then (c.pts q).supply else 0) ∧
  (∀ a q, s.slip a q = (c.pts q).shape.slip (u ∘ c.dofs) a) ∧
  (∀ a q, s.old a q = (c.pts q).old a) ∧
  (∀ a q, s.slipGrad a q = (c.pts q).shape.slipGrad (u ∘ c.dofs) a)

theorem rPoint_spec (hasSupply : Bool) (u : ℕ → ℝ) (c : CellIn d e n N Q F)
    (x : RScratch d n N Q F × RCopy N) (q : Fin Q) (h : Filled hasSupply u c x.1) :
    Filled hasSupply u c (rPoint u c x q).1 ∧ (rPoint u c x q).2 =
      ⟨x.2.dofs, fun i => addO (x.2.rhs i)
        (c.prm.rhsTerm c.kind (SpecPoints hasSupply c q) (u ∘ c.dofs) i)⟩ := by
  refine ⟨h, ?_⟩
  obtain ⟨h1, h2, h3, h4, h5, h6⟩ := h
  show RCopy.mk _ _ = RCopy.mk _ _
  congr 1
  funext i
  congr 1
  unfold rTerm CellPrm.rhsTerm
  cases hk : c.kind i with
  | none =>
    simp only [rShape, rStress, Function.update_self, h1, h2, h3, h4, SpecPoints,
      CellPrm.stressAt, CellPrm.elasticStrainAt]
  | some a =>
    simp only [rShape, rStress, setCol, Function.update_self, h1, h2, h4, h5, h6, SpecPoints,
      CellPrm.stressAt, CellPrm.elasticStrainAt, Law.evalMicrostress, CellIn.resistance]

/-- What the loop over the quadrature points of a grain boundary face relies on. -/
def FaceFilled (u : ℕ → ℝ) (c : CellIn d e n N Q F) (f : FaceIn d e n N F)
    (s : RScratch d n N Q F) : Prop :=
  s.faceJxw = f.jxw ∧ s.normal = f.nrm ∧
  (c.fprm.microtraction = true →
    (∀ q, s.moduli q = (intra c.fprm.lat f.own (f.nrm q), inter c.fprm.lat f.own f.other (f.nrm q))) ∧
    (∀ a q, s.faceSlip a q = (f.cur q).slip (u ∘ c.dofs) a) ∧
    (∀ a q, s.nbFaceSlip a q = (f.nb q).slip (u ∘ f.nbDofs) a)) ∧
  (c.fprm.decohesion = true →
    (∀ q, s.curDisp q = (f.cur q).displacement (u ∘ c.dofs)) ∧
    (∀ q, s.nbDisp q = (f.nb q).displacement (u ∘ f.nbDofs)))

theorem rFaceBegin_spec (u : ℕ → ℝ) (c : CellIn d e n N Q F) (f : FaceIn d e n N F)
    (s : RScratch d n N Q F) : FaceFilled u c f (rFaceBegin u c f s) ∧
      (rFaceBegin u c f s).supply = s.supply := by
  unfold FaceFilled rFaceBegin
  cases c.fprm.microtraction <;> cases c.fprm.decohesion <;> simp

theorem rFacePoint_spec (u : ℕ → ℝ) (c : CellIn d e n N Q F) (f : FaceIn d e n N F)
    (x : RScratch d n N Q F × RCopy N) (q : Fin F) (h : FaceFilled u c f x.1) :
    (FaceFilled u c f (rFacePoint c f x q).1 ∧ (rFacePoint c f x q).1.supply = x.1.supply) ∧
    (rFacePoint c f x q).2 = ⟨x.2.dofs, fun i => addO (x.2.rhs i)
      (c.fprm.rhsTerm c.kind f.own f.other (f.nrm q) (f.jxw q) (f.hist q) (f.cur q) (f.nb q)
        (u ∘ c.dofs) (u ∘ f.nbDofs) i)⟩ := by
  obtain ⟨h1, h2, h3, h4⟩ := h
  refine ⟨?_, ?_⟩
  · unfold FaceFilled rFacePoint rMacro rMicro
    cases hm : c.fprm.microtraction <;> cases hd : c.fprm.decohesion <;>
      simp_all
  · show RCopy.mk _ _ = RCopy.mk _ _
    congr 1
    funext i
    congr 1
    unfold rFaceTerm FacePrm.rhsTerm
    cases hk : c.kind i with
    | none =>
      cases hd : c.fprm.decohesion with
      | false => rfl
      | true =>
        obtain ⟨h5, h6⟩ := h4 hd
        cases hm : c.fprm.microtraction <;>
          simp [rMacro, rMicro, hm, hd, h1, h2, h5, h6, opening, FacePrm.damage]
    | some a =>
      cases hm : c.fprm.microtraction with
      | false => rfl
      | true =>
        obtain ⟨h5, h6, h7⟩ := h3 hm
        cases hd : c.fprm.decohesion <;>
          simp [rMacro, rMicro, setCol, hm, hd, h1, h5, h6, h7, FacePrm.damage, Itf.microtraction]

theorem rFace_spec (u : ℕ → ℝ) (c : CellIn d e n N Q F) (x : RScratch d n N Q F × RCopy N)
    (f : FaceIn d e n N F) :
    (rFace u c x f).1.supply = x.1.supply ∧ (rFace u c x f).2 = ⟨x.2.dofs, fun i => addO (x.2.rhs i)
      (sumOpt fun q => c.fprm.rhsTerm c.kind f.own f.other (f.nrm q) (f.jxw q) (f.hist q) (f.cur q)
        (f.nb q) (u ∘ c.dofs) (u ∘ f.nbDofs) i)⟩ := by
  obtain ⟨b1, b2⟩ := rFaceBegin_spec u c f x.1
  have := loop_rhs (rFacePoint c f)
    (fun s => FaceFilled u c f s ∧ s.supply = x.1.supply) _
    (fun y q hy => by
      obtain ⟨⟨p1, p2⟩, p3⟩ := rFacePoint_spec u c f y q hy.1
      exact ⟨⟨p1, p2.trans hy.2⟩, p3⟩)
    (List.finRange F) (rFaceBegin u c f x.1, x.2) ⟨b1, b2⟩
  refine ⟨this.1.2, ?_⟩
  unfold rFace
  rw [this.2]
  congr 1
  funext i
  rw [foldl_addO]
  rfl

theorem rLoad_spec (x : RScratch d n N Q F × RCopy N) (f : LoadIn d n N F) :
    (rLoad x f).1.supply = x.1.supply ∧ (rLoad x f).2 = ⟨x.2.dofs, fun i => addO (x.2.rhs i)
      (sumOpt fun q => some (neumannTerm (f.side q) (f.value q) (f.jxw q) i))⟩ := by
  have := loop_rhs (rLoadPoint f)
    (fun s : RScratch d n N Q F => s.neumann = f.value ∧ s.faceJxw = f.jxw ∧ s.supply = x.1.supply)
    (fun q i => some (neumannTerm (f.side q) (f.value q) (f.jxw q) i))
    (fun y q hy => by
      obtain ⟨y1, y2, y3⟩ := hy
      refine ⟨⟨y1, y2, y3⟩, ?_⟩
      show RCopy.mk _ _ = RCopy.mk _ _
      congr 1
      funext i
      show addO _ (some ((f.side q).disp i ⬝ᵥ y.1.neumann q * y.1.faceJxw q)) = _
      rw [y1, y2]
      rfl)
    (List.finRange F) ({ x.1 with neumann := f.value, faceJxw := f.jxw }, x.2) ⟨rfl, rfl, rfl⟩
  refine ⟨this.1.2.2, ?_⟩
  unfold rLoad
  rw [this.2]
  congr 1
  funext i
  rw [foldl_addO]
  rfl

/-- A new scratch, or one that was used before, in a solver without a supply term. -/
def RInv (hasSupply : Bool) (s : RScratch d n N Q F) : Prop := hasSupply = false → s.supply = 0

theorem rWorker_spec (hasSupply : Bool) (u : ℕ → ℝ) (c : CellIn d e n N Q F)
    (s : RScratch d n N Q F) (y : RCopy N) (h : RInv hasSupply s) :
    RInv hasSupply (rWorker hasSupply u c (s, y)).1 ∧
    (rWorker hasSupply u c (s, y)).2 = ⟨c.dofs, SpecRhs hasSupply u c⟩ := by
  unfold rWorker
  set x0 := rBegin hasSupply u c (s, y) with hx0
  have hf : Filled hasSupply u c x0.1 := by
    refine ⟨fun _ => rfl, fun _ => rfl, fun q => ?_, fun _ _ => rfl, fun _ _ => rfl, fun _ _ => rfl⟩
    cases hS : hasSupply with
    | true => rw [hx0, hS]; rfl
    | false =>
      rw [hx0, hS]
      show s.supply q = 0
      rw [h hS]
      rfl
  have h0 : x0.2 = ⟨c.dofs, fun _ => some 0⟩ := rfl
  obtain ⟨p1, p2⟩ := loop_rhs (rPoint u c) (Filled hasSupply u c) _
    (rPoint_spec hasSupply u c) (List.finRange Q) x0 hf
  set x1 := (List.finRange Q).foldl (rPoint u c) x0
  have hs1 : RInv hasSupply x1.1 := by
    intro hS
    funext q
    rw [p1.2.2.1 q, hS]
    rfl
  rw [h0] at p2
  -- grain boundary faces
  obtain ⟨x2, hx2, q1, q2⟩ : ∃ x2, (if c.fprm.decohesion || c.fprm.microtraction then
      c.faces.foldl (rFace u c) x1 else x1) = x2 ∧ x2.1.supply = x1.1.supply ∧
      x2.2 = ⟨x1.2.dofs, fun i => addO (x1.2.rhs i)
        (sumOpt fun f => let v := (SpecViews c).get f
          v.prm.rhsTerm c.kind v.own v.other v.nrm v.jxw v.hist v.cur v.nb (u ∘ c.dofs)
            (u ∘ v.nbDofs) i)⟩ := by
    refine ⟨_, rfl, ?_⟩
    have hsum : ∀ i, (sumOpt fun f => let v := (SpecViews c).get f
          v.prm.rhsTerm c.kind v.own v.other v.nrm v.jxw v.hist v.cur v.nb (u ∘ c.dofs)
            (u ∘ v.nbDofs) i) = c.faces.foldl (fun a f => addO a
        (sumOpt fun q => c.fprm.rhsTerm c.kind f.own f.other (f.nrm q) (f.jxw q) (f.hist q)
          (f.cur q) (f.nb q) (u ∘ c.dofs) (u ∘ f.nbDofs) i)) (some 0) := by
      intro i
      rw [sumOpt_get (fun v : View d e n N => v.prm.rhsTerm c.kind v.own v.other v.nrm v.jxw v.hist
        v.cur v.nb (u ∘ c.dofs) (u ∘ v.nbDofs) i)]
      unfold SpecViews
      rw [foldl_flatMap]
      simp only [List.foldl_map]
      rfl
    by_cases hc : (c.fprm.decohesion || c.fprm.microtraction) = true
    · rw [if_pos hc]
      obtain ⟨g1, g2⟩ := loop_rhs (rFace u c) (fun s => s.supply = x1.1.supply) _
        (fun y f hy => ⟨(rFace_spec u c y f).1.trans hy, (rFace_spec u c y f).2⟩) c.faces x1 rfl
      refine ⟨g1, ?_⟩
      rw [g2]
      congr 1
      funext i
      rw [hsum, foldl_addO]
    · rw [if_neg hc]
      refine ⟨rfl, ?_⟩
      rw [Bool.or_eq_true, not_or, Bool.not_eq_true, Bool.not_eq_true] at hc
      have hz : ∀ i, (sumOpt fun f => let v := (SpecViews c).get f
          v.prm.rhsTerm c.kind v.own v.other v.nrm v.jxw v.hist v.cur v.nb (u ∘ c.dofs)
            (u ∘ v.nbDofs) i) = some 0 := by
        intro i
        rw [hsum]
        have : ∀ l : List (FaceIn d e n N F), l.foldl (fun a f => addO a
            (sumOpt fun q => c.fprm.rhsTerm c.kind f.own f.other (f.nrm q) (f.jxw q) (f.hist q)
              (f.cur q) (f.nb q) (u ∘ c.dofs) (u ∘ f.nbDofs) i)) (some 0) = some 0 := by
          intro l
          induction l with
          | nil => rfl
          | cons f l ih =>
            rw [List.foldl_cons]
            have hz : (fun q => c.fprm.rhsTerm c.kind f.own f.other (f.nrm q) (f.jxw q) (f.hist q)
              (f.cur q) (f.nb q) (u ∘ c.dofs) (u ∘ f.nbDofs) i) = fun _ => some 0 := by
              funext q
              unfold FacePrm.rhsTerm
              cases c.kind i <;> simp [hc.1, hc.2]
            rw [hz, sumOpt_some]
            simp only [sum_const_zero, addO_zero]
            exact ih
        exact this _
      show x1.2 = _
      simp only [hz, addO_zero]
  show RInv hasSupply (c.loads.foldl rLoad _).1 ∧ (c.loads.foldl rLoad _).2 = _
  rw [hx2]
  obtain ⟨g1, g2⟩ := loop_rhs rLoad (fun s : RScratch d n N Q F => s.supply = x2.1.supply) _
    (fun y f hy => ⟨(rLoad_spec y f).1.trans hy, (rLoad_spec y f).2⟩) c.loads x2 rfl
  refine ⟨fun hS => by rw [g1, q1, hs1 hS], ?_⟩
  rw [g2, q2, p2]
  congr 1
  funext i
  unfold SpecRhs localRhs
  have hl : c.loads.foldl (fun a f => addO a
      (sumOpt fun q => some (neumannTerm (f.side q) (f.value q) (f.jxw q) i))) (some 0) =
      some (∑ b, neumannTerm ((SpecLoads c).get b).side ((SpecLoads c).get b).value
        ((SpecLoads c).get b).jxw i) := by
    rw [← sumOpt_some, sumOpt_get (fun l : Loaded d n N => some (neumannTerm l.side l.value l.jxw i))]
    unfold SpecLoads
    rw [foldl_flatMap]
    simp only [List.foldl_map]
    rfl
  rw [foldl_addO, hl]
  show addO (addO (c.prm.rhs c.kind (SpecPoints hasSupply c) (u ∘ c.dofs) i) _) _ = _
  generalize c.prm.rhs c.kind (SpecPoints hasSupply c) (u ∘ c.dofs) i = A
  cases A with
  | none => rfl
  | some A =>
    simp only [addO, Option.bind_some]
    generalize (sumOpt _) = B
    cases B <;> rfl


/-! ### Jacobian -/

/-- A loop that adds to the local matrix and the coupling matrix and keeps an invariant of the scratch. -/
theorem loop_mat {S ι : Type} (f : S × JCopy N → ι → S × JCopy N) (P : S → Prop)
    (t w : ι → Fin N → Fin N → Option ℝ)
    (hf : ∀ x q, P x.1 → P (f x q).1 ∧
      (f x q).2 = { x.2 with
        mat := fun i j => addO (x.2.mat i j) (t q i j)
        coupling := fun i j => addO (x.2.coupling i j) (w q i j) })
    (l : List ι) (x : S × JCopy N) (h : P x.1) :
    P (l.foldl f x).1 ∧ (l.foldl f x).2 = { x.2 with
      mat := fun i j => l.foldl (fun a q => addO a (t q i j)) (x.2.mat i j)
      coupling := fun i j => l.foldl (fun a q => addO a (w q i j)) (x.2.coupling i j) } := by
  induction l generalizing x with
  | nil => exact ⟨h, rfl⟩
  | cons q l ih =>
    obtain ⟨h1, h2⟩ := hf x q h
    obtain ⟨i1, i2⟩ := ih (f x q) h1
    refine ⟨i1, ?_⟩
    rw [List.foldl_cons, i2, h2]
    rfl

/-- What the loop over quadrature points relies on. -/
def JFilled (u : ℕ → ℝ) (c : CellIn d e n N Q F) (s : JScratch d n N Q F) : Prop :=
  s.tetrad = c.prm.tetrad ∧ (∀ a, s.schmid a = (c.prm.sys a).symSchmid) ∧
  (∀ q, s.jxw q = (c.pts q).shape.jxw) ∧
  (∀ a q, s.slip a q = (c.pts q).shape.slip (u ∘ c.dofs) a) ∧
  (∀ a q, s.old a q = (c.pts q).old a) ∧
  (∀ a q, s.slipGrad a q = (c.pts q).shape.slipGrad (u ∘ c.dofs) a)

theorem jPoint_spec (u : ℕ → ℝ) (c : CellIn d e n N Q F)
    (x : JScratch d n N Q F × JCopy N) (q : Fin Q) (h : JFilled u c x.1) :
    JFilled u c (jPoint u c x q).1 ∧ (jPoint u c x q).2 = { x.2 with
      mat := fun i j => addO (x.2.mat i j) (c.prm.matTerm c.kind (c.pts q) (u ∘ c.dofs) i j)
      coupling := fun i j => addO (x.2.coupling i j) (some 0) } := by
  refine ⟨h, ?_⟩
  obtain ⟨h1, h2, h3, h4, h5, h6⟩ := h
  simp only [addO_zero]
  show JCopy.mk _ _ _ _ _ _ _ = JCopy.mk _ _ _ _ _ _ _
  congr 1
  funext i j
  congr 1
  unfold jTerm CellPrm.matTerm
  cases hi : c.kind i with
  | none =>
    cases hj : c.kind j with
    | none => simp only [jFill, h1, h3]
    | some b => simp only [jFill, h1, h2, h3]
  | some a =>
    cases hj : c.kind j with
    | none => simp only [jFill, h1, h2, h3]
    | some b =>
      have hs : (fun a => x.1.slip a q) = (c.pts q).shape.slip (u ∘ c.dofs) := funext fun a => h4 a q
      have ho : (fun a => x.1.old a q) = (c.pts q).old := funext fun a => h5 a q
      by_cases hab : a = b
      · subst hab
        simp only [jFill, Function.update_self, h1, h2, h3, h6, hs, ho, if_true,
          Law.evalJacobian, CellIn.resistance]
        cases c.prm.vec.jacobian (c.prm.sys a) ((c.pts q).shape.slipGrad (u ∘ c.dofs) a) <;> rfl
      · simp only [jFill, Function.update_self, h1, h2, h3, hs, ho, if_neg hab, zero_addO,
          Law.evalJacobian, CellIn.resistance]

/-- What the loop over the quadrature points of a grain boundary face relies on. -/
def JFaceFilled (u : ℕ → ℝ) (c : CellIn d e n N Q F) (f : FaceIn d e n N F)
    (s : JScratch d n N Q F) : Prop :=
  s.faceJxw = f.jxw ∧ s.normal = f.nrm ∧
  (c.fprm.microtraction = true →
    ∀ q, s.moduli q = (intra c.fprm.lat f.own (f.nrm q), inter c.fprm.lat f.own f.other (f.nrm q))) ∧
  (c.fprm.decohesion = true →
    (∀ q, s.curDisp q = (f.cur q).displacement (u ∘ c.dofs)) ∧
    (∀ q, s.nbDisp q = (f.nb q).displacement (u ∘ f.nbDofs)))

theorem jFaceBegin_spec (u : ℕ → ℝ) (c : CellIn d e n N Q F) (f : FaceIn d e n N F)
    (x : JScratch d n N Q F × JCopy N) : JFaceFilled u c f (jFaceBegin u c f x).1 ∧
      (jFaceBegin u c f x).2 = { x.2 with coupling := fun _ _ => some 0, nbDofs := f.nbDofs } := by
  refine ⟨?_, rfl⟩
  unfold JFaceFilled jFaceBegin
  cases c.fprm.microtraction <;> cases c.fprm.decohesion <;> simp

theorem jFacePoint_spec (u : ℕ → ℝ) (c : CellIn d e n N Q F) (f : FaceIn d e n N F)
    (x : JScratch d n N Q F × JCopy N) (q : Fin F) (h : JFaceFilled u c f x.1) :
    JFaceFilled u c f (jFacePoint c f x q).1 ∧ (jFacePoint c f x q).2 = { x.2 with
      mat := fun i j => addO (x.2.mat i j) (c.fprm.localTerm c.kind f.own (f.nrm q) (f.jxw q)
        (f.hist q) (f.cur q) (f.nb q) (u ∘ c.dofs) (u ∘ f.nbDofs) i j)
      coupling := fun i j => addO (x.2.coupling i j) (c.fprm.couplingTerm c.kind f.own f.other
        (f.nrm q) (f.jxw q) (f.hist q) (f.cur q) (f.nb q) (u ∘ c.dofs) (u ∘ f.nbDofs) i j) } := by
  obtain ⟨h1, h2, h3, h4⟩ := h
  refine ⟨?_, ?_⟩
  · unfold JFaceFilled jFacePoint jFaceFill
    cases hm : c.fprm.microtraction <;> cases hd : c.fprm.decohesion <;>
      simp_all
  · have hl : ∀ i j, jFaceTerm c q (jFaceFill c f q x.1) i j = c.fprm.localTerm c.kind f.own
        (f.nrm q) (f.jxw q) (f.hist q) (f.cur q) (f.nb q) (u ∘ c.dofs) (u ∘ f.nbDofs) i j := by
      intro i j
      unfold jFaceTerm FacePrm.localTerm
      cases hi : c.kind i with
      | none =>
        cases hj : c.kind j with
        | some b => rfl
        | none =>
          cases hd : c.fprm.decohesion with
          | false => rfl
          | true =>
            obtain ⟨h5, h6⟩ := h4 hd
            cases hm : c.fprm.microtraction <;>
              simp [jFaceFill, hm, hd, h1, h2, h5, h6, opening, FacePrm.damage]
      | some a =>
        cases hj : c.kind j with
        | none => rfl
        | some b =>
          cases hm : c.fprm.microtraction with
          | false => rfl
          | true =>
            have h5 := h3 hm
            cases hd : c.fprm.decohesion <;>
              simp [jFaceFill, hm, hd, h1, h5, FacePrm.damage, intraDerivative]
    have hc : ∀ i j, jCouplingTerm c q (jFaceFill c f q x.1) i j = c.fprm.couplingTerm c.kind f.own
        f.other (f.nrm q) (f.jxw q) (f.hist q) (f.cur q) (f.nb q) (u ∘ c.dofs) (u ∘ f.nbDofs)
        i j := by
      intro i j
      unfold jCouplingTerm FacePrm.couplingTerm
      cases hi : c.kind i with
      | none =>
        cases hj : c.kind j with
        | some b => rfl
        | none =>
          cases hd : c.fprm.decohesion with
          | false => rfl
          | true =>
            obtain ⟨h5, h6⟩ := h4 hd
            cases hm : c.fprm.microtraction <;>
              simp [jFaceFill, hm, hd, h1, h2, h5, h6, opening, FacePrm.damage]
      | some a =>
        cases hj : c.kind j with
        | none => rfl
        | some b =>
          cases hm : c.fprm.microtraction with
          | false => rfl
          | true =>
            have h5 := h3 hm
            cases hd : c.fprm.decohesion <;>
              simp [jFaceFill, hm, hd, h1, h5, FacePrm.damage, interDerivative]
    show JCopy.mk _ _ _ _ _ _ _ = JCopy.mk _ _ _ _ _ _ _
    simp only [hl, hc]

theorem jFace_spec (u : ℕ → ℝ) (c : CellIn d e n N Q F) (x : JScratch d n N Q F × JCopy N)
    (f : FaceIn d e n N F) : (jFace u c x f).2 = { x.2 with
      nbDofs := f.nbDofs
      mat := fun i j => addO (x.2.mat i j) (sumOpt fun q => c.fprm.localTerm c.kind f.own (f.nrm q)
        (f.jxw q) (f.hist q) (f.cur q) (f.nb q) (u ∘ c.dofs) (u ∘ f.nbDofs) i j)
      coupling := SpecCoupling u c f
      nbDofsAll := x.2.nbDofsAll ++ [f.nbDofs]
      couplings := x.2.couplings ++ [SpecCoupling u c f] } := by
  obtain ⟨b1, b2⟩ := jFaceBegin_spec u c f x
  have := (loop_mat (jFacePoint c f) (JFaceFilled u c f) _ _ (jFacePoint_spec u c f)
    (List.finRange F) (jFaceBegin u c f x) b1).2
  unfold jFace
  rw [b2] at this
  simp only [this]
  congr 1
  funext i j
  rw [foldl_addO]
  rfl

/-- All grain boundary faces of a cell. -/
theorem jFaces_spec (u : ℕ → ℝ) (c : CellIn d e n N Q F) (l : List (FaceIn d e n N F))
    (x : JScratch d n N Q F × JCopy N) :
    ∃ nb cp, (l.foldl (jFace u c) x).2 = ⟨x.2.dofs, nb,
      fun i j => l.foldl (fun a f => addO a (sumOpt fun q => c.fprm.localTerm c.kind f.own (f.nrm q)
        (f.jxw q) (f.hist q) (f.cur q) (f.nb q) (u ∘ c.dofs) (u ∘ f.nbDofs) i j)) (x.2.mat i j),
      cp, x.2.nbDofsAll ++ l.map (·.nbDofs), x.2.couplings ++ l.map (SpecCoupling u c),
      x.2.atGrainBoundary⟩ := by
  induction l generalizing x with
  | nil => exact ⟨x.2.nbDofs, x.2.coupling, by simp⟩
  | cons f l ih =>
    obtain ⟨nb, cp, h⟩ := ih (jFace u c x f)
    refine ⟨nb, cp, ?_⟩
    rw [List.foldl_cons, h, jFace_spec]
    simp only [List.foldl_cons, List.map_cons, List.append_assoc, List.cons_append, List.nil_append]

theorem jWorker_spec (u : ℕ → ℝ) (c : CellIn d e n N Q F) (s : JScratch d n N Q F) (y : JCopy N) :
    ∃ nb cp, (jWorker u c (s, y)).2 = ⟨c.dofs, nb, SpecMat u c, cp,
      (SpecCoupled c).map (·.nbDofs), (SpecCoupled c).map (SpecCoupling u c),
      !(SpecCoupled c).isEmpty⟩ := by
  unfold jWorker
  set x0 := jBegin u c (s, y) with hx0
  have hf : JFilled u c x0.1 :=
    ⟨rfl, fun _ => rfl, fun _ => rfl, fun _ _ => rfl, fun _ _ => rfl, fun _ _ => rfl⟩
  obtain ⟨-, p2⟩ := loop_mat (jPoint u c) (JFilled u c) _ _ (jPoint_spec u c) (List.finRange Q) x0 hf
  set x1 := (List.finRange Q).foldl (jPoint u c) x0
  have hm : ∀ i j, x1.2.mat i j = c.prm.mat c.kind c.pts (u ∘ c.dofs) i j := by
    intro i j; rw [p2]; rfl
  have hd : x1.2.dofs = c.dofs := by rw [p2]; rfl
  have hn : x1.2.nbDofsAll = [] := by rw [p2]; rfl
  have hc : x1.2.couplings = [] := by rw [p2]; rfl
  have hg : x1.2.atGrainBoundary = false := by rw [p2]; rfl
  have hsum : ∀ i j, (sumOpt fun k => let f := (SpecViews c).get k
      f.prm.localTerm c.kind f.own f.nrm f.jxw f.hist f.cur f.nb (u ∘ c.dofs) (u ∘ f.nbDofs) i j) =
      c.faces.foldl (fun a f => addO a (sumOpt fun q => c.fprm.localTerm c.kind f.own (f.nrm q)
        (f.jxw q) (f.hist q) (f.cur q) (f.nb q) (u ∘ c.dofs) (u ∘ f.nbDofs) i j)) (some 0) := by
    intro i j
    rw [sumOpt_get (fun f : View d e n N => f.prm.localTerm c.kind f.own f.nrm f.jxw f.hist f.cur
      f.nb (u ∘ c.dofs) (u ∘ f.nbDofs) i j)]
    unfold SpecViews
    rw [foldl_flatMap]
    simp only [List.foldl_map]
    rfl
  by_cases hb : (c.fprm.decohesion || c.fprm.microtraction) = true
  · cases hl : c.faces with
    | nil =>
      refine ⟨x1.2.nbDofs, x1.2.coupling, ?_⟩
      have hS : SpecCoupled c = [] := by unfold SpecCoupled; rw [if_pos hb, hl]
      rw [hS]
      show x1.2 = _
      have hmat : SpecMat u c = x1.2.mat := by
        funext i j
        unfold SpecMat
        rw [hsum, hl, ← hm]
        exact addO_zero _
      rw [hmat, ← hd]
      show x1.2 = JCopy.mk _ _ _ _ [] [] false
      rw [← hg]
      conv_rhs => rw [← hn]
      conv_lhs => rw [show x1.2 = ⟨x1.2.dofs, x1.2.nbDofs, x1.2.mat, x1.2.coupling, x1.2.nbDofsAll,
        x1.2.couplings, x1.2.atGrainBoundary⟩ from rfl, hc]
    | cons f0 l0 =>
      have hS : SpecCoupled c = c.faces := by unfold SpecCoupled; rw [if_pos hb]
      rw [← hl]
      have hne : c.faces.isEmpty = false := by rw [hl]; rfl
      rw [hS, hne, hb]
      obtain ⟨nb, cp, h⟩ := jFaces_spec u c c.faces (x1.1, { x1.2 with atGrainBoundary := true })
      refine ⟨nb, cp, ?_⟩
      refine h.trans ?_
      show JCopy.mk x1.2.dofs _ _ _ (x1.2.nbDofsAll ++ _) (x1.2.couplings ++ _) true = _
      rw [hd, hn, hc]
      show JCopy.mk _ _ _ _ _ _ _ = JCopy.mk _ _ _ _ _ _ _
      congr 1
      funext i j
      unfold SpecMat
      rw [hsum, ← hm, foldl_addO]
  · refine ⟨x1.2.nbDofs, x1.2.coupling, ?_⟩
    have hS : SpecCoupled c = [] := by unfold SpecCoupled; rw [if_neg hb]
    rw [hS]
    have hb' := hb
    rw [Bool.or_eq_true, not_or, Bool.not_eq_true, Bool.not_eq_true] at hb'
    have hmat : SpecMat u c = x1.2.mat := by
      funext i j
      unfold SpecMat
      rw [hsum, ← hm]
      have : ∀ l : List (FaceIn d e n N F), l.foldl (fun a f => addO a
          (sumOpt fun q => c.fprm.localTerm c.kind f.own (f.nrm q) (f.jxw q) (f.hist q)
            (f.cur q) (f.nb q) (u ∘ c.dofs) (u ∘ f.nbDofs) i j)) (some 0) = some 0 := by
        intro l
        induction l with
        | nil => rfl
        | cons f l ih =>
          rw [List.foldl_cons]
          have hz : (fun q => c.fprm.localTerm c.kind f.own (f.nrm q) (f.jxw q) (f.hist q)
            (f.cur q) (f.nb q) (u ∘ c.dofs) (u ∘ f.nbDofs) i j) = fun _ => some 0 := by
            funext q
            unfold FacePrm.localTerm
            cases c.kind i <;> cases c.kind j <;> simp [hb'.1, hb'.2]
          rw [hz, sumOpt_some]
          simp only [sum_const_zero, addO_zero]
          exact ih
      rw [this, addO_zero]
    have hcond : (!c.faces.isEmpty && (c.fprm.decohesion || c.fprm.microtraction)) = false := by
      rw [Bool.not_eq_true] at hb
      rw [hb, Bool.and_false]
    rw [hcond]
    show x1.2 = JCopy.mk _ _ _ _ [] [] false
    rw [hmat, ← hd, ← hg]
    conv_rhs => rw [← hn]
    conv_lhs => rw [show x1.2 = ⟨x1.2.dofs, x1.2.nbDofs, x1.2.mat, x1.2.coupling, x1.2.nbDofsAll,
      x1.2.couplings, x1.2.atGrainBoundary⟩ from rfl, hc]

end

/-! ### Parallel loop -/

/-- If every worker leaves a result `R c` in its copy object, whatever was there before, then the loop
adds each cell once, in the order of the copiers. -/
theorem loop_total {C S D G : Type} (worker : C → S × D → S × D) (copier : G → D → G)
    (Inv : S → Prop) (R : C → D → Prop) (add : G → C → G)
    (hw : ∀ c s y, Inv s → Inv (worker c (s, y)).1 ∧ R c (worker c (s, y)).2)
    (hc : ∀ g c y, R c y → copier g y = add g c) (es : List (Event C)) :
    ∀ (busy : ℕ → Option C) (cs : List C) (l : Loop S D G), Valid busy es cs →
      (∀ t, Inv (l.scratch t)) → (∀ k c, busy k = some c → R c (l.slots k)) →
      (es.foldl (Loop.step worker copier) l).total = cs.foldl add l.total := by
  induction es with
  | nil =>
    intro busy cs l hv _ _
    rw [hv.2]
    rfl
  | cons ev es ih =>
    intro busy cs l hv hi hr
    cases ev with
    | work t k c =>
      obtain ⟨hb, hv⟩ := hv
      obtain ⟨w1, w2⟩ := hw c (l.scratch t) (l.slots k) (hi t)
      rw [List.foldl_cons]
      refine ih _ cs _ hv (fun t' => ?_) (fun k' c' hk => ?_)
      · show Inv (Function.update l.scratch t _ t')
        by_cases ht : t' = t
        · subst ht; rw [Function.update_self]; exact w1
        · rw [Function.update_of_ne ht]; exact hi t'
      · show R c' (Function.update l.slots k _ k')
        by_cases hk' : k' = k
        · subst hk'
          rw [Function.update_self] at hk ⊢
          cases hk
          exact w2
        · rw [Function.update_of_ne hk'] at hk ⊢
          exact hr k' c' hk
    | copy k =>
      obtain ⟨c, cs', hb, rfl, hv⟩ := hv
      rw [List.foldl_cons, List.foldl_cons]
      have h1 : (Loop.step worker copier l (.copy k)).total = add l.total c :=
        hc _ c _ (hr k c hb)
      rw [← h1]
      refine ih _ cs' _ hv hi (fun k' c' hk => ?_)
      by_cases hk' : k' = k
      · subst hk'
        rw [Function.update_self] at hk
        cases hk
      · rw [Function.update_of_ne hk'] at hk
        exact hr k' c' hk

theorem foldl_rows {C : Type} (t : C → ℕ → Option ℝ) (cs : List C) (g : ℕ → Option ℝ) (r : ℕ) :
    cs.foldl (fun g c r => addO (g r) (t c r)) g r = cs.foldl (fun a c => addO a (t c r)) (g r) := by
  induction cs generalizing g with
  | nil => rfl
  | cons c cs ih => rw [List.foldl_cons, List.foldl_cons, ih]

theorem foldl_entries {C : Type} (t : C → ℕ → ℕ → Option ℝ) (cs : List C) (g : ℕ → ℕ → Option ℝ) :
    cs.foldl (fun (g : Option (ℕ → ℕ → Option ℝ)) c =>
      g.map fun g r s => addO (g r s) (t c r s)) (some g) =
      some fun r s => cs.foldl (fun a c => addO a (t c r s)) (g r s) := by
  induction cs generalizing g with
  | nil => rfl
  | cons c cs ih =>
    rw [List.foldl_cons]
    show cs.foldl _ (some _) = _
    rw [ih]
    rfl

section
variable {d e n N Q F : ℕ}

/-- What the copier adds for a cell. -/
noncomputable def jSum (K : Sol.Constraints ℕ) (diag : (Fin N → Fin N → Option ℝ) → Fin N → Option ℝ)
    (u : ℕ → ℝ) (c : CellIn d e n N Q F) (r s : ℕ) : Option ℝ :=
  open Classical in
  addO (addO (addEntries K c.dofs c.dofs (SpecMat u c) r s)
    (sumOpt fun i => if c.dofs i = r ∧ r = s ∧ K r ≠ none then diag (SpecMat u c) i else some 0))
    ((SpecCoupled c).foldl (fun a f => addO a
      (addEntries K c.dofs f.nbDofs (SpecCoupling u c f) r s)) (some 0))

theorem jCopier_spec (K : Sol.Constraints ℕ)
    (diag : (Fin N → Fin N → Option ℝ) → Fin N → Option ℝ) (u : ℕ → ℝ) (c : CellIn d e n N Q F)
    (nb : Fin N → ℕ) (cp : Fin N → Fin N → Option ℝ) (g : Option (ℕ → ℕ → Option ℝ)) :
    jCopier K diag g ⟨c.dofs, nb, SpecMat u c, cp, (SpecCoupled c).map (·.nbDofs),
      (SpecCoupled c).map (SpecCoupling u c), !(SpecCoupled c).isEmpty⟩ =
      g.map fun g r s => addO (g r s) (jSum K diag u c r s) := by
  cases g with
  | none => rfl
  | some J =>
    unfold jCopier
    have hno : ¬ ((!(SpecCoupled c).isEmpty) = true ∧
        (((SpecCoupled c).map (SpecCoupling u c)).length ≠ ((SpecCoupled c).map (·.nbDofs)).length ∨
          ((SpecCoupled c).map (SpecCoupling u c)).length = 0)) := by
      rintro ⟨h1, h2⟩
      cases hl : SpecCoupled c with
      | nil => rw [hl] at h1; cases h1
      | cons f l => rw [hl] at h2; simp at h2
    simp only [Option.bind_some]
    rw [if_neg hno]
    show some _ = some _
    congr 1
    funext r s
    unfold jSum
    cases hl : SpecCoupled c with
    | nil =>
      show addO (addO _ _) _ = addO _ (addO (addO _ _) (some 0))
      rw [addO_zero, addO_assoc]
    | cons f l =>
      rw [← hl]
      have hz : ((SpecCoupled c).map (SpecCoupling u c)).zip ((SpecCoupled c).map (·.nbDofs)) =
          (SpecCoupled c).map fun f => (SpecCoupling u c f, f.nbDofs) := by
        rw [List.zip_map, List.zip_eq_zipWith]
        simp
      have he : (!(SpecCoupled c).isEmpty) = true := by rw [hl]; rfl
      simp only [he, if_true, hz, List.foldl_map]
      rw [foldl_addO (fun f : FaceIn d e n N F =>
        addEntries K c.dofs f.nbDofs (SpecCoupling u c f) r s)]
      rw [addO_assoc, addO_assoc, addO_assoc]

theorem addRows_some (K : Sol.Constraints ℕ) (dofs : Fin N → ℕ) (v : Fin N → ℝ) (r : ℕ) :
    addRows K dofs (fun i => some (v i)) r = some (∑ i, weight K (dofs i) r * v i) := by
  unfold addRows
  rw [← sumOpt_some]
  congr 1
  funext i
  split_ifs with h
  · rw [h, zero_mul]
  · rfl

theorem addEntries_some (K : Sol.Constraints ℕ) (rows cols : Fin N → ℕ) (m : Fin N → Fin N → ℝ)
    (r s : ℕ) : addEntries K rows cols (fun i j => some (m i j)) r s =
      some (∑ i, ∑ j, weight K (rows i) r * m i j * weight K (cols j) s) := by
  unfold addEntries
  rw [← sumOpt_some]
  congr 1
  funext i
  rw [← sumOpt_some]
  congr 1
  funext j
  split_ifs with h
  · rcases mul_eq_zero.1 h with h | h <;> rw [h] <;> simp
  · rfl

/-! ## Theorems -/

/-- **C110.** Whatever threads, copy objects and order `WorkStream` chooses, and whatever the copy
objects contained: the residual is the sum of the local vectors of the other chapters. -/
theorem C110_residual (hasSupply : Bool) (K : Sol.Constraints ℕ) (u : ℕ → ℝ)
    (cells : List (CellIn d e n N Q F)) (es : List (Event (CellIn d e n N Q F)))
    (cs : List (CellIn d e n N Q F)) (hv : Valid (fun _ => none) es cs) (hp : cs.Perm cells)
    (slots : ℕ → RCopy N) (loc : CellIn d e n N Q F → Lin.Local N)
    (hd : ∀ c ∈ cells, (loc c).dofs = c.dofs)
    (hr : ∀ c ∈ cells, ∀ i, SpecRhs hasSupply u c i = some ((loc c).rhs i)) (r : ℕ) :
    (es.foldl (Loop.step (rWorker hasSupply u) (rCopier K))
      ⟨fun _ => RScratch.new d n N Q F, slots, fun _ => some 0⟩).total r =
      some (Lin.residual K (cells.map loc) r) := by
  rw [loop_total (rWorker hasSupply u) (rCopier K) (RInv hasSupply)
    (fun c y => y = ⟨c.dofs, SpecRhs hasSupply u c⟩)
    (fun g c r => addO (g r) (addRows K c.dofs (SpecRhs hasSupply u c) r))
    (fun c s y h => rWorker_spec hasSupply u c s y h) (fun g c y h => by rw [h]; rfl) es
    (fun _ => none) cs _ hv (fun _ _ => rfl) (fun _ _ h => by cases h)]
  rw [foldl_rows, perm_addO _ hp]
  have : ∀ (l : List (CellIn d e n N Q F)) (a : ℝ), (∀ c ∈ l, c ∈ cells) →
      l.foldl (fun a c => addO a (addRows K c.dofs (SpecRhs hasSupply u c) r)) (some a) =
      some (a + Lin.residual K (l.map loc) r) := by
    intro l
    induction l with
    | nil => intro a _; simp [Lin.residual]
    | cons c l ih =>
      intro a hl
      have hc := hl c (List.mem_cons_self ..)
      rw [List.foldl_cons, show SpecRhs hasSupply u c = fun i => some ((loc c).rhs i) from
        funext (hr c hc), addRows_some]
      show l.foldl _ (some (a + _)) = _
      rw [ih _ fun c h => hl c (List.mem_cons_of_mem _ h)]
      simp only [Lin.residual, List.map_cons, List.sum_cons, hd c hc, add_assoc]
  rw [this cells 0 (fun _ h => h), zero_add]

/-- The same for the Jacobian; neither assertion of the copier throws. -/
theorem C110_jacobian (K : Sol.Constraints ℕ)
    (diag : (Fin N → Fin N → Option ℝ) → Fin N → Option ℝ) (u : ℕ → ℝ)
    (cells : List (CellIn d e n N Q F)) (es : List (Event (CellIn d e n N Q F)))
    (cs : List (CellIn d e n N Q F)) (hv : Valid (fun _ => none) es cs) (hp : cs.Perm cells)
    (slots : ℕ → JCopy N) (loc : CellIn d e n N Q F → Lin.Local N)
    (hd : ∀ c ∈ cells, (loc c).dofs = c.dofs)
    (hm : ∀ c ∈ cells, ∀ i j, SpecMat u c i j = some ((loc c).mat i j))
    (hg : ∀ c ∈ cells, ∀ i, diag (SpecMat u c) i = some ((loc c).diag i))
    (hc : ∀ c ∈ cells, ∃ m : FaceIn d e n N F → Fin N → Fin N → ℝ,
      (loc c).couplings = (SpecCoupled c).map (fun f => (f.nbDofs, m f)) ∧
      ∀ f ∈ SpecCoupled c, ∀ i j, SpecCoupling u c f i j = some (m f i j)) :
    (es.foldl (Loop.step (jWorker u) (jCopier K diag))
      ⟨fun _ => JScratch.new d n N Q F, slots, some fun _ _ => some 0⟩).total =
      some fun r s => some (Lin.jacobian K (cells.map loc) r s) := by
  rw [loop_total (jWorker u) (jCopier K diag) (fun _ => True)
    (fun c y => ∃ nb cp, y = ⟨c.dofs, nb, SpecMat u c, cp, (SpecCoupled c).map (·.nbDofs),
      (SpecCoupled c).map (SpecCoupling u c), !(SpecCoupled c).isEmpty⟩)
    (fun g c => g.map fun g r s => addO (g r s) (jSum K diag u c r s))
    (fun c s y _ => ⟨trivial, jWorker_spec u c s y⟩)
    (fun g c y h => by obtain ⟨nb, cp, rfl⟩ := h; exact jCopier_spec K diag u c nb cp g) es
    (fun _ => none) cs _ hv (fun _ => trivial) (fun _ _ h => by cases h)]
  rw [foldl_entries]
  congr 1
  funext r s
  rw [perm_addO _ hp]
  have : ∀ (l : List (CellIn d e n N Q F)) (a : ℝ), (∀ c ∈ l, c ∈ cells) →
      l.foldl (fun a c => addO a (jSum K diag u c r s)) (some a) =
      some (a + Lin.jacobian K (l.map loc) r s) := by
    intro l
    induction l with
    | nil => intro a _; simp [Lin.jacobian]
    | cons c l ih =>
      intro a hl
      have hcc := hl c (List.mem_cons_self ..)
      obtain ⟨m, hm1, hm2⟩ := hc c hcc
      have h1 : jSum K diag u c r s = some (
          ∑ i, ∑ j, weight K ((loc c).dofs i) r * (loc c).mat i j * weight K ((loc c).dofs j) s +
          (open Classical in ∑ i, if (loc c).dofs i = r ∧ r = s ∧ K r ≠ none then (loc c).diag i
            else 0) +
          ((loc c).couplings.map fun b =>
            ∑ i, ∑ j, weight K ((loc c).dofs i) r * b.2 i j * weight K (b.1 j) s).sum) := by
        unfold jSum
        have e1 : addEntries K c.dofs c.dofs (SpecMat u c) r s = some (∑ i, ∑ j,
            weight K ((loc c).dofs i) r * (loc c).mat i j * weight K ((loc c).dofs j) s) := by
          rw [show SpecMat u c = fun i j => some ((loc c).mat i j) from
            funext fun i => funext fun j => hm c hcc i j, addEntries_some, hd c hcc]
        have e2 : (open Classical in sumOpt fun i =>
            if c.dofs i = r ∧ r = s ∧ K r ≠ none then diag (SpecMat u c) i else some 0) =
            some (open Classical in ∑ i, if (loc c).dofs i = r ∧ r = s ∧ K r ≠ none then
              (loc c).diag i else 0) := by
          rw [← sumOpt_some]
          congr 1
          funext i
          rw [hd c hcc, hg c hcc]
          split_ifs <;> rfl
        have e3 : (SpecCoupled c).foldl (fun a f => addO a
            (addEntries K c.dofs f.nbDofs (SpecCoupling u c f) r s)) (some 0) =
            some ((loc c).couplings.map fun b =>
              ∑ i, ∑ j, weight K ((loc c).dofs i) r * b.2 i j * weight K (b.1 j) s).sum := by
          rw [hm1, List.map_map, hd c hcc]
          have : ∀ (l : List (FaceIn d e n N F)) (a : ℝ), (∀ f ∈ l, f ∈ SpecCoupled c) →
              l.foldl (fun a f => addO a
                (addEntries K c.dofs f.nbDofs (SpecCoupling u c f) r s)) (some a) =
              some (a + (l.map fun f => ∑ i, ∑ j,
                weight K (c.dofs i) r * m f i j * weight K (f.nbDofs j) s).sum) := by
            intro l
            induction l with
            | nil => intro a _; simp
            | cons f l ih =>
              intro a hl
              rw [List.foldl_cons, show SpecCoupling u c f = fun i j => some (m f i j) from
                funext fun i => funext fun j => hm2 f (hl f (List.mem_cons_self ..)) i j,
                addEntries_some]
              show l.foldl _ (some (a + _)) = _
              rw [ih _ fun f h => hl f (List.mem_cons_of_mem _ h), List.map_cons, List.sum_cons,
                add_assoc]
          rw [this _ 0 (fun _ h => h), zero_add]
          rfl
        rw [e1, e2, e3]
        rfl
      rw [List.foldl_cons, h1]
      show l.foldl _ (some (a + _)) = _
      rw [ih _ fun c h => hl c (List.mem_cons_of_mem _ h)]
      simp only [Lin.jacobian, List.map_cons, List.sum_cons, add_assoc]
  rw [this cells 0 (fun _ h => h), zero_add]

/-- Two runs with the same cells give the same residual, with NaN at the same places. -/
theorem C110_residual_schedule (hasSupply : Bool) (K : Sol.Constraints ℕ) (u : ℕ → ℝ)
    (es es' : List (Event (CellIn d e n N Q F))) (cs cs' : List (CellIn d e n N Q F))
    (hv : Valid (fun _ => none) es cs) (hv' : Valid (fun _ => none) es' cs') (hp : cs.Perm cs')
    (slots slots' : ℕ → RCopy N) :
    (es.foldl (Loop.step (rWorker hasSupply u) (rCopier K))
      ⟨fun _ => RScratch.new d n N Q F, slots, fun _ => some 0⟩).total =
    (es'.foldl (Loop.step (rWorker hasSupply u) (rCopier K))
      ⟨fun _ => RScratch.new d n N Q F, slots', fun _ => some 0⟩).total := by
  have h : ∀ (es : List (Event (CellIn d e n N Q F))) cs slots, Valid (fun _ => none) es cs →
      (es.foldl (Loop.step (rWorker hasSupply u) (rCopier K))
        ⟨fun _ => RScratch.new d n N Q F, slots, fun _ => some 0⟩).total =
      cs.foldl (fun g c r => addO (g r) (addRows K c.dofs (SpecRhs hasSupply u c) r))
        (fun _ => some 0) := fun es cs slots hv =>
    loop_total (rWorker hasSupply u) (rCopier K) (RInv hasSupply)
      (fun c y => y = ⟨c.dofs, SpecRhs hasSupply u c⟩) _
      (fun c s y h => rWorker_spec hasSupply u c s y h) (fun g c y h => by rw [h]; rfl) es
      (fun _ => none) cs _ hv (fun _ _ => rfl) (fun _ _ h => by cases h)
  rw [h es cs slots hv, h es' cs' slots' hv']
  funext r
  rw [foldl_rows, foldl_rows, perm_addO _ hp]

/-- Two runs with the same cells give the same Jacobian, with NaN at the same places. -/
theorem C110_jacobian_schedule (K : Sol.Constraints ℕ)
    (diag : (Fin N → Fin N → Option ℝ) → Fin N → Option ℝ) (u : ℕ → ℝ)
    (es es' : List (Event (CellIn d e n N Q F))) (cs cs' : List (CellIn d e n N Q F))
    (hv : Valid (fun _ => none) es cs) (hv' : Valid (fun _ => none) es' cs') (hp : cs.Perm cs')
    (slots slots' : ℕ → JCopy N) :
    (es.foldl (Loop.step (jWorker u) (jCopier K diag))
      ⟨fun _ => JScratch.new d n N Q F, slots, some fun _ _ => some 0⟩).total =
    (es'.foldl (Loop.step (jWorker u) (jCopier K diag))
      ⟨fun _ => JScratch.new d n N Q F, slots', some fun _ _ => some 0⟩).total ∧
    (es.foldl (Loop.step (jWorker u) (jCopier K diag))
      ⟨fun _ => JScratch.new d n N Q F, slots, some fun _ _ => some 0⟩).total ≠ none := by
  have h : ∀ (es : List (Event (CellIn d e n N Q F))) cs slots, Valid (fun _ => none) es cs →
      (es.foldl (Loop.step (jWorker u) (jCopier K diag))
        ⟨fun _ => JScratch.new d n N Q F, slots, some fun _ _ => some 0⟩).total =
      some fun r s => cs.foldl (fun a c => addO a (jSum K diag u c r s)) (some 0) :=
    fun es cs slots hv => by
      rw [loop_total (jWorker u) (jCopier K diag) (fun _ => True)
        (fun c y => ∃ nb cp, y = ⟨c.dofs, nb, SpecMat u c, cp, (SpecCoupled c).map (·.nbDofs),
          (SpecCoupled c).map (SpecCoupling u c), !(SpecCoupled c).isEmpty⟩)
        (fun g c => g.map fun g r s => addO (g r s) (jSum K diag u c r s))
        (fun c s y _ => ⟨trivial, jWorker_spec u c s y⟩)
        (fun g c y h => by obtain ⟨nb, cp, rfl⟩ := h; exact jCopier_spec K diag u c nb cp g) es
        (fun _ => none) cs _ hv (fun _ => trivial) (fun _ _ h => by cases h)]
      rw [foldl_entries]
  rw [h es cs slots hv, h es' cs' slots' hv']
  refine ⟨?_, by simp⟩
  congr 1
  funext r s
  rw [perm_addO _ hp]

/-- The worker leaves the same results whatever its buffers contained before. -/
theorem C110_buffers (u : ℕ → ℝ) (c : CellIn d e n N Q F) :
    (∀ (s s' : RScratch d n N Q F) (y y' : RCopy N),
      (rWorker true u c (s, y)).2 = (rWorker true u c (s', y')).2) ∧
    (∀ (s s' : RScratch d n N Q F) (y y' : RCopy N), s.supply = 0 → s'.supply = 0 →
      (rWorker false u c (s, y)).2 = (rWorker false u c (s', y')).2) ∧
    ∀ (s s' : JScratch d n N Q F) (y y' : JCopy N),
      let a := (jWorker u c (s, y)).2
      let b := (jWorker u c (s', y')).2
      a.dofs = b.dofs ∧ a.mat = b.mat ∧ a.nbDofsAll = b.nbDofsAll ∧ a.couplings = b.couplings ∧
        a.atGrainBoundary = b.atGrainBoundary := by
  refine ⟨fun s s' y y' => ?_, fun s s' y y' h h' => ?_, fun s s' y y' => ?_⟩
  · rw [(rWorker_spec true u c s y (fun h => by cases h)).2,
      (rWorker_spec true u c s' y' (fun h => by cases h)).2]
  · rw [(rWorker_spec false u c s y (fun _ => h)).2, (rWorker_spec false u c s' y' (fun _ => h')).2]
  · obtain ⟨nb, cp, h⟩ := jWorker_spec u c s y
    obtain ⟨nb', cp', h'⟩ := jWorker_spec u c s' y'
    simp [h, h']

/-! ## Non-vacuity -/

theorem sumOpt_isSome {Q : ℕ} (t : Fin Q → Option ℝ) (h : ∀ q, (t q).isSome) : (sumOpt t).isSome := by
  have : t = fun q => some ((t q).get (h q)) := funext fun q => (Option.some_get _).symm
  rw [this, sumOpt_some]
  rfl

theorem addO_isSome (x y : Option ℝ) (hx : x.isSome) (hy : y.isSome) : (addO x y).isSome := by
  cases x <;> cases y <;> simp_all [addO]

/-- Everything is finite if the index is at least two and displacements do not jump. -/
theorem finite_local (hasSupply : Bool) (u : ℕ → ℝ) (c : CellIn d e n N Q F)
    (hi : 2 ≤ c.prm.vec.index) (hd : c.fprm.decohesion = false) :
    (∀ i, (SpecRhs hasSupply u c i).isSome) ∧ (∀ i j, (SpecMat u c i j).isSome) ∧
    ∀ f i j, (SpecCoupling u c f i j).isSome := by
  have hb : ∀ a g, ∃ m, c.prm.vec.bracket (c.prm.sys a) g = some m := by
    intro a g
    have hp : ∀ x : ℝ, ∃ y, fpow |x| (c.prm.vec.index - 2) = some y := by
      intro x
      unfold fpow
      split_ifs <;> first | exact ⟨_, rfl⟩ | (exfalso; linarith)
    obtain ⟨x, hx⟩ := hp ((-(c.prm.sys a).direction) ⬝ᵥ g)
    obtain ⟨y, hy⟩ := hp ((c.prm.sys a).third ⬝ᵥ g)
    unfold VecLaw.bracket
    rw [hx, hy]
    exact ⟨_, rfl⟩
  refine ⟨fun i => ?_, fun i j => ?_, fun f i j => ?_⟩
  · have h1 : (c.prm.rhs c.kind (SpecPoints hasSupply c) (u ∘ c.dofs) i).isSome := by
      refine sumOpt_isSome _ fun q => ?_
      unfold CellPrm.rhsTerm
      cases c.kind i with
      | none => rfl
      | some a =>
        obtain ⟨m, hm⟩ := hb a ((SpecPoints hasSupply c q).shape.slipGrad (u ∘ c.dofs) a)
        simp only [VecLaw.microstress, hm]
        rfl
    have h2 : (sumOpt fun f => let v := (SpecViews c).get f
        v.prm.rhsTerm c.kind v.own v.other v.nrm v.jxw v.hist v.cur v.nb (u ∘ c.dofs)
          (u ∘ v.nbDofs) i).isSome := by
      refine sumOpt_isSome _ fun k => ?_
      have hv : ((SpecViews c).get k).prm = c.fprm := by
        have := List.get_mem (SpecViews c) k
        unfold SpecViews at this
        rw [List.mem_flatMap] at this
        obtain ⟨f, -, hf⟩ := this
        obtain ⟨q, -, hq⟩ := List.mem_map.1 hf
        unfold SpecViews
        rw [← hq]
      show (FacePrm.rhsTerm _ _ _ _ _ _ _ _ _ _ _ _).isSome
      rw [hv]
      unfold FacePrm.rhsTerm
      cases c.kind i with
      | none => simp [hd]
      | some a => simp only; split_ifs <;> rfl
    unfold SpecRhs localRhs
    obtain ⟨x, hx⟩ := Option.isSome_iff_exists.1 h1
    simp only [hx, Option.bind_some, Option.isSome_map]
    exact h2
  · refine addO_isSome _ _ (sumOpt_isSome _ fun q => ?_) (sumOpt_isSome _ fun k => ?_)
    · unfold CellPrm.matTerm
      cases c.kind i <;> cases c.kind j <;> try rfl
      rename_i a b
      obtain ⟨m, hm⟩ := hb a ((c.pts q).shape.slipGrad (u ∘ c.dofs) a)
      simp only [VecLaw.jacobian, hm]
      split_ifs <;> rfl
    · have hv : ((SpecViews c).get k).prm = c.fprm := by
        have := List.get_mem (SpecViews c) k
        unfold SpecViews at this
        rw [List.mem_flatMap] at this
        obtain ⟨f, -, hf⟩ := this
        obtain ⟨q, -, hq⟩ := List.mem_map.1 hf
        unfold SpecViews
        rw [← hq]
      show (FacePrm.localTerm _ _ _ _ _ _ _ _ _ _ _ _).isSome
      rw [hv]
      unfold FacePrm.localTerm
      cases c.kind i <;> cases c.kind j <;> simp only [hd] <;> first | rfl | (split_ifs <;> rfl)
  · refine sumOpt_isSome _ fun q => ?_
    unfold FacePrm.couplingTerm
    cases c.kind i <;> cases c.kind j <;> simp only [hd] <;> first | rfl | (split_ifs <;> rfl)

end

/-- A cell of a bicrystal with a displacement and a slip degree of freedom, a grain boundary face with
microtractions and a loaded face. -/
noncomputable def exIn (k : ℕ) (p : ℝ) : CellIn 2 1 1 2 1 1 where
  prm := exCell false 7
  fprm := { exFace false with decohesion := false }
  kind := exKind
  pts := fun _ => exPoint 7
  dofs := fun i => 2 * k + i
  faces := [⟨exGrainA, exGrainB, fun i => 2 * (1 - k) + i, fun _ => ![1, 0], fun _ => 1,
    fun _ => Iface.new, fun _ => exMeet, fun _ => exMeet⟩]
  loads := [⟨fun _ => exMeet, fun _ => ![p, 0], fun _ => 1⟩]

/-- Two threads and two copy objects; the third cell gets the scratch of the first and the copy object
of the second. -/
noncomputable def exEvents (p : ℝ) : List (Event (CellIn 2 1 1 2 1 1)) :=
  [.work 0 0 (exIn 0 p), .work 1 1 (exIn 1 p), .copy 1, .work 0 1 (exIn 1 0), .copy 0, .copy 1]

theorem exEvents_valid (p : ℝ) :
    Valid (fun _ => none) (exEvents p) [exIn 1 p, exIn 0 p, exIn 1 0] := by
  refine ⟨rfl, ?_, ?_⟩
  · simp
  · refine ⟨exIn 1 p, _, by simp, rfl, ?_⟩
    refine ⟨by simp, exIn 0 p, _, by simp, rfl, ?_⟩
    refine ⟨exIn 1 0, _, by simp, rfl, fun k => ?_, rfl⟩
    by_cases h1 : k = 1
    · simp [h1]
    · by_cases h0 : k = 0
      · subst h0; simp
      · simp [Function.update, h1, h0]

/-- All hypotheses of C110 hold for it, and the result is not zero. -/
example (p : ℝ) (u : ℕ → ℝ) (slots : ℕ → RCopy 2) : ∃ loc : CellIn 2 1 1 2 1 1 → Lin.Local 2,
    ∀ r, ((exEvents p).foldl (Loop.step (rWorker true u) (rCopier fun _ => none))
      ⟨fun _ => RScratch.new 2 1 2 1 1, slots, fun _ => some 0⟩).total r =
      some (Lin.residual (fun _ => none) ([exIn 0 p, exIn 1 p, exIn 1 0].map loc) r) := by
  let loc : CellIn 2 1 1 2 1 1 → Lin.Local 2 := fun c =>
    ⟨c.dofs, 0, fun i => (SpecRhs true u c i).getD 0, 0, []⟩
  refine ⟨loc, fun r => C110_residual true _ u _ _ _ (exEvents_valid p) (List.Perm.swap ..) slots loc
    (fun _ _ => rfl) (fun c hc i => ?_) r⟩
  have h : 2 ≤ c.prm.vec.index ∧ c.fprm.decohesion = false := by
    simp only [List.mem_cons, List.not_mem_nil, or_false] at hc
    rcases hc with rfl | rfl | rfl <;> exact ⟨le_refl (2 : ℝ), rfl⟩
  obtain ⟨x, hx⟩ := Option.isSome_iff_exists.1 ((finite_local true u c h.1 h.2).1 i)
  show SpecRhs true u c i = some ((SpecRhs true u c i).getD 0)
  rw [hx]
  rfl

example (p : ℝ) (u : ℕ → ℝ) (slots : ℕ → JCopy 2) : ∃ loc : CellIn 2 1 1 2 1 1 → Lin.Local 2,
    ((exEvents p).foldl (Loop.step (jWorker u) (jCopier (fun _ => none) fun m i => m i i))
      ⟨fun _ => JScratch.new 2 1 2 1 1, slots, some fun _ _ => some 0⟩).total =
      some fun r s =>
        some (Lin.jacobian (fun _ => none) ([exIn 0 p, exIn 1 p, exIn 1 0].map loc) r s) := by
  let loc : CellIn 2 1 1 2 1 1 → Lin.Local 2 := fun c =>
    ⟨c.dofs, fun i j => (SpecMat u c i j).getD 0, 0, fun i => (SpecMat u c i i).getD 0,
      (SpecCoupled c).map fun f => (f.nbDofs, fun i j => (SpecCoupling u c f i j).getD 0)⟩
  have hg : ∀ c ∈ [exIn 0 p, exIn 1 p, exIn 1 0],
      2 ≤ c.prm.vec.index ∧ c.fprm.decohesion = false := by
    intro c hc
    simp only [List.mem_cons, List.not_mem_nil, or_false] at hc
    rcases hc with rfl | rfl | rfl <;> exact ⟨le_refl (2 : ℝ), rfl⟩
  have hs : ∀ x : Option ℝ, x.isSome → x = some (x.getD 0) := by
    intro x hx
    cases x with
    | none => cases hx
    | some x => rfl
  refine ⟨loc, C110_jacobian _ _ u _ _ _ (exEvents_valid p) (List.Perm.swap ..) slots loc
    (fun _ _ => rfl) (fun c hc i j => ?_) (fun c hc i => ?_) (fun c hc => ?_)⟩
  · exact hs _ ((finite_local true u c (hg c hc).1 (hg c hc).2).2.1 i j)
  · exact hs _ ((finite_local true u c (hg c hc).1 (hg c hc).2).2.1 i i)
  · exact ⟨_, rfl, fun f _ i j => hs _ ((finite_local true u c (hg c hc).1 (hg c hc).2).2.2 f i j)⟩

/-- The grain boundary face couples the cells. -/
example (p : ℝ) (u : ℕ → ℝ) : ∃ f ∈ SpecCoupled (exIn 0 p), ∃ x ≠ 0,
    SpecCoupling u (exIn 0 p) f 1 1 = some x := by
  refine ⟨_, List.mem_singleton.2 rfl, -(9 / 25), by norm_num, ?_⟩
  have h : ∀ q : Fin 1, (exIn 0 p).fprm.couplingTerm (exIn 0 p).kind exGrainA exGrainB ![1, 0] 1
      Iface.new exMeet exMeet (u ∘ (exIn 0 p).dofs) (u ∘ fun i => 2 * (1 - 0) + i) 1 1 =
      some (-(9 / 25)) := by
    intro q
    unfold FacePrm.couplingTerm
    simp [exIn, exKind, exFace, exMeet, degradation, interDerivative, inter,
      modulus, lateral2, exGrainA, exGrainB, dotProduct]
    norm_num
  unfold SpecCoupling
  refine (congrArg sumOpt (funext h)).trans ?_
  rw [sumOpt_some]
  simp

end Verif.Ws
