import Verif.Model.Dataflow
import Verif.Props.Workstream
import Verif.Model.TrialMicro
import Verif.Model.Damage
import Verif.Props.Rounded

/-!
# C114: the number of threads does not change a bit of the assembled vectors and matrices
-/

namespace Verif.Ws.Bits
open Verif.Ws

/-! ## Specification -/

/-- The loop as one thread executes it with new buffers for every cell. -/
def SpecSerial {C S D G : Type} (worker : C → S × D → S × D) (copier : G → D → G) (s0 : S) (y0 : D)
    (cells : List C) (g : G) : G :=
  cells.foldl (fun g c => copier g (worker c (s0, y0)).2) g

/-! ## Helpers -/

variable {α V M T I : Type} {n N Q F : ℕ}

theorem foldl_rel {X ι : Type} (f : X → ι → X) (R : X → X → Prop) (hf : ∀ x y i, R x y → R (f x i) (f y i))
    (l : List ι) : ∀ x y, R x y → R (l.foldl f x) (l.foldl f y) := by
  induction l with
  | nil => exact fun _ _ h => h
  | cons i l ih => exact fun x y h => ih _ _ (hf x y i h)

theorem foldl_rel2 {X ι : Type} (f : X → ι → X) (A B : X → X → Prop)
    (hf : ∀ x y i, A x y ∧ B x y → A (f x i) (f y i) ∧ B (f x i) (f y i))
    (l : List ι) (x y : X) (ha : A x y) (hb : B x y) : B (l.foldl f x) (l.foldl f y) :=
  (foldl_rel f (fun x y => A x y ∧ B x y) hf l x y ⟨ha, hb⟩).2

theorem foldl_inv {X ι β : Type} (f : X → ι → X) (v : X → β) (hf : ∀ x i, v (f x i) = v x) (l : List ι) :
    ∀ x, v (l.foldl f x) = v x := by
  induction l with
  | nil => exact fun _ => rfl
  | cons i l ih => exact fun x => (ih _).trans (hf x i)

theorem setCol_self {β : Type} (b : Fin n → Fin Q → β) (q : Fin Q) (v : Fin n → β) (a : Fin n) :
    setCol b q v a q = v a := Function.update_self ..

/-- The buffers that hold function values of the cell agree. -/
def RAgree (s s' : RScratch α V M I n N Q F) : Prop :=
  s.jxw = s'.jxw ∧ s.strain = s'.strain ∧ s.supply = s'.supply ∧ s.slip = s'.slip ∧ s.old = s'.old ∧
    s.slipGrad = s'.slipGrad

def REq (x x' : RScratch α V M I n N Q F × VCopy α N) : Prop := x.2.dofs = x'.2.dofs ∧ x.2.rhs = x'.2.rhs

theorem rPoint_rel (c : Cell α V M T I n N Q F) (x x' : RScratch α V M I n N Q F × VCopy α N) (q : Fin Q)
    (h : RAgree x.1 x'.1 ∧ REq x x') :
    RAgree (rPoint c x q).1 (rPoint c x' q).1 ∧ REq (rPoint c x q) (rPoint c x' q) := by
  obtain ⟨⟨h1, h2, h3, h4, h5, h6⟩, h7, h8⟩ := h
  refine ⟨⟨h1, h2, h3, h4, h5, h6⟩, h7, ?_⟩
  funext i
  simp only [rPoint, rFill, rAdd, Function.update_self, setCol_self, h1, h2, h3, h4, h5, h6, h8]

def RFaceAgree (c : Cell α V M T I n N Q F) (s s' : RScratch α V M I n N Q F) : Prop :=
  s.faceJxw = s'.faceJxw ∧ s.normal = s'.normal ∧
  (c.microtractions → s.moduli = s'.moduli ∧ s.faceSlip = s'.faceSlip ∧ s.nbFaceSlip = s'.nbFaceSlip) ∧
  (c.decohesion → s.curDisp = s'.curDisp ∧ s.nbDisp = s'.nbDisp)

theorem rFacePoint_rel (c : Cell α V M T I n N Q F) (f : Face α V M I n N F)
    (x x' : RScratch α V M I n N Q F × VCopy α N) (q : Fin F) (h : RFaceAgree c x.1 x'.1 ∧ REq x x') :
    RFaceAgree c (rFacePoint c f x q).1 (rFacePoint c f x' q).1 ∧
      REq (rFacePoint c f x q) (rFacePoint c f x' q) := by
  obtain ⟨⟨h1, h2, h3, h4⟩, h7, h8⟩ := h
  unfold RFaceAgree REq rFacePoint rFaceFill rFaceAdd
  cases hm : c.microtractions <;> cases hd : c.decohesion <;> simp only [hm, hd] at h3 h4 ⊢ <;>
    simp_all [setCol_self]

theorem rFace_rel (c : Cell α V M T I n N Q F) (x x' : RScratch α V M I n N Q F × VCopy α N)
    (f : Face α V M I n N F) (h : REq x x') : REq (rFace c x f) (rFace c x' f) := by
  unfold rFace
  refine foldl_rel2 (rFacePoint c f) (fun x x' => RFaceAgree c x.1 x'.1) REq
    (fun x x' q h => rFacePoint_rel c f x x' q h) _ _ _ ?_ h
  unfold RFaceAgree rFaceBegin
  cases hm : c.microtractions <;> cases hd : c.decohesion <;> simp

theorem rLoad_rel (c : Cell α V M T I n N Q F) (x x' : RScratch α V M I n N Q F × VCopy α N)
    (f : Outer α V n N F) (h : REq x x') : REq (rLoad c x f) (rLoad c x' f) := by
  unfold rLoad
  refine foldl_rel2 (rLoadPoint c f) (fun x x' => x.1.neumann = x'.1.neumann ∧ x.1.faceJxw = x'.1.faceJxw)
    REq (fun x x' q h => ⟨h.1, h.2.1, ?_⟩) _ _ _ ⟨rfl, rfl⟩ h
  funext i
  simp only [rLoadPoint, h.1.1, h.1.2, h.2.2]

theorem rWorker_rel (hs : Bool) (c : Cell α V M T I n N Q F) (s s' : RScratch α V M I n N Q F)
    (y y' : VCopy α N) (h : hs = false → s.supply = s'.supply) :
    REq (rWorker hs c (s, y)) (rWorker hs c (s', y')) := by
  unfold rWorker
  refine foldl_rel (rLoad c) REq (fun x x' f h => rLoad_rel c x x' f h) _ _ _ ?_
  have hp : REq ((List.finRange Q).foldl (rPoint c) (rBegin hs c (s, y)))
      ((List.finRange Q).foldl (rPoint c) (rBegin hs c (s', y'))) := by
    refine foldl_rel2 (rPoint c) (fun x x' => RAgree x.1 x'.1) REq
      (fun x x' q h => rPoint_rel c x x' q h) _ _ _ ⟨rfl, rfl, ?_, rfl, rfl, rfl⟩ ⟨rfl, rfl⟩
    cases hs
    · exact h rfl
    · rfl
  show REq (if c.decohesion || c.microtractions then _ else _) (if c.decohesion || c.microtractions then _ else _)
  split
  · exact foldl_rel (rFace c) REq (fun x x' f h => rFace_rel c x x' f h) _ _ _ hp
  · exact hp

theorem rWorker_supply (c : Cell α V M T I n N Q F) (x : RScratch α V M I n N Q F × VCopy α N) :
    (rWorker false c x).1.supply = x.1.supply := by
  have h1 : ((List.finRange Q).foldl (rPoint c) (rBegin false c x)).1.supply = x.1.supply :=
    foldl_inv (rPoint c) (fun x => x.1.supply) (fun _ _ => rfl) _ _
  have hl : ∀ y : RScratch α V M I n N Q F × VCopy α N, (c.loads.foldl (rLoad c) y).1.supply = y.1.supply :=
    foldl_inv (rLoad c) (fun x => x.1.supply)
      (fun x f => foldl_inv (rLoadPoint c f) (fun x => x.1.supply) (fun _ _ => rfl) _ _) _
  have hf : ∀ y : RScratch α V M I n N Q F × VCopy α N, (c.faces.foldl (rFace c) y).1.supply = y.1.supply := by
    refine foldl_inv (rFace c) (fun x => x.1.supply) (fun x f => ?_) _
    refine (foldl_inv (rFacePoint c f) (fun x => x.1.supply) (fun x q => ?_) _ _).trans ?_
    · unfold rFacePoint rFaceFill
      cases c.microtractions <;> cases c.decohesion <;> rfl
    · unfold rFaceBegin
      cases c.microtractions <;> cases c.decohesion <;> rfl
  unfold rWorker
  rw [hl]
  show (if c.decohesion || c.microtractions then _ else _ : RScratch α V M I n N Q F × VCopy α N).1.supply = _
  split
  · rw [hf, h1]
  · exact h1

/-! ### Jacobian -/

def JAgree (s s' : JScratch α V M T I n N Q F) : Prop :=
  s.tetrad = s'.tetrad ∧ s.schmid = s'.schmid ∧ s.jxw = s'.jxw ∧ s.slip = s'.slip ∧ s.old = s'.old ∧
    s.slipGrad = s'.slipGrad

def JEq (x x' : JScratch α V M T I n N Q F × JCopy α N) : Prop :=
  x.2.dofs = x'.2.dofs ∧ x.2.mat = x'.2.mat ∧ x.2.nbDofsAll = x'.2.nbDofsAll ∧
    x.2.couplings = x'.2.couplings ∧ x.2.atGrainBoundary = x'.2.atGrainBoundary

theorem jPoint_rel (c : Cell α V M T I n N Q F) (x x' : JScratch α V M T I n N Q F × JCopy α N) (q : Fin Q)
    (h : JAgree x.1 x'.1 ∧ JEq x x') :
    JAgree (jPoint c x q).1 (jPoint c x' q).1 ∧ JEq (jPoint c x q) (jPoint c x' q) := by
  obtain ⟨⟨h1, h2, h3, h4, h5, h6⟩, h7, h8, h9⟩ := h
  refine ⟨⟨h1, h2, h3, h4, h5, h6⟩, h7, ?_, h9⟩
  funext i j
  simp only [jPoint, jFill, jAdd, Function.update_self, h1, h2, h3, h4, h5, h6, h8]

def JFaceAgree (c : Cell α V M T I n N Q F) (x x' : JScratch α V M T I n N Q F × JCopy α N) : Prop :=
  x.1.faceJxw = x'.1.faceJxw ∧ x.1.normal = x'.1.normal ∧
  (c.microtractions → x.1.moduli = x'.1.moduli) ∧
  (c.decohesion → x.1.curDisp = x'.1.curDisp ∧ x.1.nbDisp = x'.1.nbDisp) ∧
  x.2.coupling = x'.2.coupling ∧ x.2.nbDofs = x'.2.nbDofs

theorem jFacePoint_rel (c : Cell α V M T I n N Q F) (f : Face α V M I n N F)
    (x x' : JScratch α V M T I n N Q F × JCopy α N) (q : Fin F) (h : JFaceAgree c x x' ∧ JEq x x') :
    JFaceAgree c (jFacePoint c f x q) (jFacePoint c f x' q) ∧
      JEq (jFacePoint c f x q) (jFacePoint c f x' q) := by
  obtain ⟨⟨h1, h2, h3, h4, h5, h6⟩, h7, h8, h9⟩ := h
  unfold JFaceAgree JEq jFacePoint jFaceFill jFaceAdd jCoupleAdd
  cases hm : c.microtractions <;> cases hd : c.decohesion <;> simp only [hm, hd] at h3 h4 ⊢ <;>
    simp_all

theorem jFace_rel (c : Cell α V M T I n N Q F) (x x' : JScratch α V M T I n N Q F × JCopy α N)
    (f : Face α V M I n N F) (h : JEq x x') : JEq (jFace c x f) (jFace c x' f) := by
  have := foldl_rel (jFacePoint c f) (fun x x' => JFaceAgree c x x' ∧ JEq x x')
    (fun x x' q h => jFacePoint_rel c f x x' q h) (List.finRange F) (jFaceBegin c f x) (jFaceBegin c f x')
    ⟨?_, h⟩
  · obtain ⟨⟨-, -, -, -, h1, h2⟩, h3, h4, h5, h6, h7⟩ := this
    refine ⟨h3, h4, ?_, ?_, h7⟩
    · show _ ++ [_] = _ ++ [_]
      rw [h5, h2]
    · show _ ++ [_] = _ ++ [_]
      rw [h6, h1]
  · unfold JFaceAgree jFaceBegin
    cases hm : c.microtractions <;> cases hd : c.decohesion <;> simp

theorem jWorker_rel (c : Cell α V M T I n N Q F) (x x' : JScratch α V M T I n N Q F × JCopy α N) :
    JEq (jWorker c x) (jWorker c x') := by
  have hp : JEq ((List.finRange Q).foldl (jPoint c) (jBegin c x)) ((List.finRange Q).foldl (jPoint c) (jBegin c x')) :=
    foldl_rel2 (jPoint c) (fun x x' => JAgree x.1 x'.1) JEq
      (fun x x' q h => jPoint_rel c x x' q h) _ _ _
      ⟨rfl, rfl, rfl, rfl, rfl, rfl⟩ ⟨rfl, rfl, rfl, rfl, rfl⟩
  unfold jWorker
  show JEq (if !c.faces.isEmpty && (c.decohesion || c.microtractions) then _ else _)
    (if !c.faces.isEmpty && (c.decohesion || c.microtractions) then _ else _)
  split
  · exact foldl_rel (jFace c) JEq (fun x x' f h => jFace_rel c x x' f h) _ _ _
      ⟨hp.1, hp.2.1, hp.2.2.1, hp.2.2.2.1, rfl⟩
  · exact hp

/-! ### Trial microstress -/

def VEq {S : Type} (x x' : S × VCopy α N) : Prop := x.2.dofs = x'.2.dofs ∧ x.2.rhs = x'.2.rhs

theorem tWorker_rel (c : Cell α V M T I n N Q F) (x x' : TScratch α V M n N Q F × VCopy α N) :
    VEq (tWorker c x) (tWorker c x') := by
  unfold tWorker
  refine foldl_rel (tFace c) VEq (fun x x' f h => ?_) _ _ _ ?_
  · unfold tFace
    refine foldl_rel2 (tFacePoint c f) (fun x x' => x.1.faceJxw = x'.1.faceJxw ∧ x.1.normal = x'.1.normal ∧
      x.1.faceSlipGrad = x'.1.faceSlipGrad) VEq (fun x x' q h => ⟨h.1, h.2.1, ?_⟩) _ _ _
      ⟨rfl, rfl, rfl⟩ h
    funext i
    simp only [tFacePoint, setCol_self, h.1.1, h.1.2.1, h.1.2.2, h.2.2]
  · refine foldl_rel2 (tPoint c) (fun x x' => x.1.jxw = x'.1.jxw ∧ x.1.strain = x'.1.strain ∧
      x.1.slip = x'.1.slip ∧ x.1.slipGrad = x'.1.slipGrad) VEq (fun x x' q h => ⟨h.1, h.2.1, ?_⟩) _ _ _
      ⟨rfl, rfl, rfl, rfl⟩ ⟨rfl, rfl⟩
    funext i
    simp only [tPoint, tFill, setCol_self, Function.update_self, h.1.1, h.1.2.1, h.1.2.2.1, h.1.2.2.2, h.2.2]

theorem mWorker_rel (c : Cell α V M T I n N Q F) (x x' : MScratch α n N Q × VCopy α N) :
    VEq (mWorker c x) (mWorker c x') := by
  unfold mWorker
  refine foldl_rel2 (mPoint c) (fun x x' => x.1.jxw = x'.1.jxw) VEq (fun x x' q h => ⟨h.1, h.2.1, ?_⟩)
    _ _ _ rfl ⟨rfl, rfl⟩
  funext i
  simp only [mPoint, mAdd, h.1, h.2.2]

/-! ### Projection -/

def PEq (x x' : PScratch α N F × VCopy α N) : Prop :=
  x.2.atGrainBoundary = x'.2.atGrainBoundary ∧ (x.2.atGrainBoundary = true → x.2.dofs = x'.2.dofs) ∧
    x.2.rhs = x'.2.rhs

theorem pMatWorker_rel (c : PCell α N F) (x x' : PScratch α N F × VCopy α N) :
    PEq (pMatWorker c x) (pMatWorker c x') := by
  unfold pMatWorker
  show PEq (if !c.faces.isEmpty && c.enabled then _ else _) (if !c.faces.isEmpty && c.enabled then _ else _)
  split
  · refine foldl_rel _ PEq (fun x x' f h => ?_) _ _ _ ⟨rfl, fun _ => rfl, rfl⟩
    refine foldl_rel2 (pMatPoint c f) (fun x x' => x.1.jxw = x'.1.jxw) PEq
      (fun x x' q h => ⟨h.1, h.2.1, h.2.2.1, ?_⟩) _ _ _ rfl h
    funext i
    simp only [pMatPoint, h.1, h.2.2.2]
  · exact ⟨rfl, fun h => absurd h (by simp), rfl⟩

theorem pRhsWorker_rel (c : PCell α N F) (x x' : PScratch α N F × VCopy α N) :
    PEq (pRhsWorker c x) (pRhsWorker c x') := by
  unfold pRhsWorker
  show PEq (if !c.faces.isEmpty && c.enabled then _ else _) (if !c.faces.isEmpty && c.enabled then _ else _)
  split
  · refine foldl_rel _ PEq (fun x x' f h => ?_) _ _ _ ⟨rfl, fun _ => rfl, rfl⟩
    refine foldl_rel2 (pRhsPoint c f) (fun x x' => x.1.jxw = x'.1.jxw) PEq
      (fun x x' q h => ⟨h.1, h.2.1, h.2.2.1, ?_⟩) _ _ _ rfl h
    funext i
    simp only [pRhsPoint, Function.update_self, h.1, h.2.2.2]
  · exact ⟨rfl, fun h => absurd h (by simp), rfl⟩

/-! ## C114 -/

/-- C114, residual: however the cells are given to threads and copy objects, and whatever the copy objects
contained, the vector is the one a single thread assembles with new buffers, in any arithmetic. -/
theorem C114_residual {G : Type} (hasSupply : Bool) (distribute : G → (Fin N → ℕ) → (Fin N → α) → G)
    (cells : List (Cell α V M T I n N Q F)) (es : List (Event (Cell α V M T I n N Q F)))
    (hv : Valid (fun _ => none) es cells) (s0 : RScratch α V M I n N Q F) (slots : ℕ → VCopy α N)
    (y0 : VCopy α N) (g : G) :
    (es.foldl (Loop.step (rWorker hasSupply) (vCopier distribute)) ⟨fun _ => s0, slots, g⟩).total =
      SpecSerial (rWorker hasSupply) (vCopier distribute) s0 y0 cells g := by
  refine loop_total (rWorker hasSupply) (vCopier distribute) (fun s => hasSupply = false → s.supply = s0.supply)
    (fun c y => y.dofs = (rWorker hasSupply c (s0, y0)).2.dofs ∧ y.rhs = (rWorker hasSupply c (s0, y0)).2.rhs)
    (fun g c => vCopier distribute g (rWorker hasSupply c (s0, y0)).2) (fun c s y h => ⟨?_, ?_⟩)
    (fun g c y h => ?_) es (fun _ => none) cells _ hv (fun _ _ => rfl) (fun _ _ h => by cases h)
  · rintro rfl
    rw [rWorker_supply]
    exact h rfl
  · exact rWorker_rel hasSupply c s s0 y y0 h
  · unfold vCopier
    rw [h.1, h.2]

/-- C114, Jacobian. -/
theorem C114_jacobian {G : Type} (distribute : G → (Fin N → ℕ) → (Fin N → Fin N → α) → G)
    (couple : G → (Fin N → ℕ) → (Fin N → ℕ) → (Fin N → Fin N → α) → G)
    (cells : List (Cell α V M T I n N Q F)) (es : List (Event (Cell α V M T I n N Q F)))
    (hv : Valid (fun _ => none) es cells) (scratch : ℕ → JScratch α V M T I n N Q F) (slots : ℕ → JCopy α N)
    (s0 : JScratch α V M T I n N Q F) (y0 : JCopy α N) (g : Option G) :
    (es.foldl (Loop.step jWorker (jCopier distribute couple)) ⟨scratch, slots, g⟩).total =
      SpecSerial jWorker (jCopier distribute couple) s0 y0 cells g := by
  refine loop_total jWorker (jCopier distribute couple) (fun _ => True)
    (fun c y => JEq (s0, y) (jWorker c (s0, y0)))
    (fun g c => jCopier distribute couple g (jWorker c (s0, y0)).2) (fun c s y h => ⟨trivial, ?_⟩)
    (fun g c y h => ?_) es (fun _ => none) cells _ hv (fun _ => trivial) (fun _ _ h => by cases h)
  · exact jWorker_rel c (s, y) (s0, y0)
  · obtain ⟨h1, h2, h3, h4, h5⟩ := h
    simp only at h1 h2 h3 h4 h5
    unfold jCopier
    rw [h1, h2, h3, h4, h5]

/-- C114, right-hand side and lumped matrix of the trial microstress. -/
theorem C114_trial {G : Type} (distribute : G → (Fin N → ℕ) → (Fin N → α) → G)
    (cells : List (Cell α V M T I n N Q F)) (es : List (Event (Cell α V M T I n N Q F)))
    (hv : Valid (fun _ => none) es cells) (slots : ℕ → VCopy α N) (y0 : VCopy α N) (g : G) :
    (∀ (scratch : ℕ → TScratch α V M n N Q F) (s0 : TScratch α V M n N Q F),
      (es.foldl (Loop.step tWorker (vCopier distribute)) ⟨scratch, slots, g⟩).total =
        SpecSerial tWorker (vCopier distribute) s0 y0 cells g) ∧
    ∀ (scratch : ℕ → MScratch α n N Q) (s0 : MScratch α n N Q),
      (es.foldl (Loop.step mWorker (vCopier distribute)) ⟨scratch, slots, g⟩).total =
        SpecSerial mWorker (vCopier distribute) s0 y0 cells g := by
  refine ⟨fun scratch s0 => ?_, fun scratch s0 => ?_⟩
  · refine loop_total tWorker (vCopier distribute) (fun _ => True)
      (fun c y => VEq (s0, y) (tWorker c (s0, y0)))
      (fun g c => vCopier distribute g (tWorker c (s0, y0)).2) (fun c s y h => ⟨trivial, ?_⟩)
      (fun g c y h => ?_) es (fun _ => none) cells _ hv (fun _ => trivial) (fun _ _ h => by cases h)
    · exact tWorker_rel c (s, y) (s0, y0)
    · have h1 : y.dofs = _ := h.1
      have h2 : y.rhs = _ := h.2
      unfold vCopier
      rw [h1, h2]
  · refine loop_total mWorker (vCopier distribute) (fun _ => True)
      (fun c y => VEq (s0, y) (mWorker c (s0, y0)))
      (fun g c => vCopier distribute g (mWorker c (s0, y0)).2) (fun c s y h => ⟨trivial, ?_⟩)
      (fun g c y h => ?_) es (fun _ => none) cells _ hv (fun _ => trivial) (fun _ _ h => by cases h)
    · exact mWorker_rel c (s, y) (s0, y0)
    · have h1 : y.dofs = _ := h.1
      have h2 : y.rhs = _ := h.2
      unfold vCopier
      rw [h1, h2]

/-- C114, matrix and right-hand side of the projected damage: cells away from grain boundaries, whose copy
objects have the indices of another cell, add nothing. -/
theorem C114_projection {G : Type} (distribute : G → (Fin N → ℕ) → (Fin N → α) → G)
    (cells : List (PCell α N F)) (es : List (Event (PCell α N F)))
    (hv : Valid (fun _ => none) es cells) (scratch : ℕ → PScratch α N F) (slots : ℕ → VCopy α N)
    (s0 : PScratch α N F) (y0 : VCopy α N) (g : G) :
    (es.foldl (Loop.step pMatWorker (pCopier distribute)) ⟨scratch, slots, g⟩).total =
        SpecSerial pMatWorker (pCopier distribute) s0 y0 cells g ∧
    (es.foldl (Loop.step pRhsWorker (pCopier distribute)) ⟨scratch, slots, g⟩).total =
        SpecSerial pRhsWorker (pCopier distribute) s0 y0 cells g := by
  have hc : ∀ (w : PScratch α N F × VCopy α N) (g : G) (y : VCopy α N), PEq (s0, y) w →
      pCopier distribute g y = pCopier distribute g w.2 := by
    intro w g y h
    have h1 : y.atGrainBoundary = _ := h.1
    have h2 : y.atGrainBoundary = true → y.dofs = _ := h.2.1
    have h3 : y.rhs = _ := h.2.2
    unfold pCopier
    rw [← h1]
    split
    · rename_i hb
      rw [h2 hb, h3]
    · rfl
  constructor
  · exact loop_total pMatWorker (pCopier distribute) (fun _ => True)
      (fun c y => PEq (s0, y) (pMatWorker c (s0, y0)))
      (fun g c => pCopier distribute g (pMatWorker c (s0, y0)).2)
      (fun c s y _ => ⟨trivial, pMatWorker_rel c (s, y) (s0, y0)⟩)
      (fun g c y h => hc _ g y h) es (fun _ => none) cells _ hv (fun _ => trivial) (fun _ _ h => by cases h)
  · exact loop_total pRhsWorker (pCopier distribute) (fun _ => True)
      (fun c y => PEq (s0, y) (pRhsWorker c (s0, y0)))
      (fun g c => pCopier distribute g (pRhsWorker c (s0, y0)).2)
      (fun c s y _ => ⟨trivial, pRhsWorker_rel c (s, y) (s0, y0)⟩)
      (fun g c y h => hc _ g y h) es (fun _ => none) cells _ hv (fun _ => trivial) (fun _ _ h => by cases h)

/-! ## Values -/

open Verif.Asm Verif.Cry Verif.Micro in
/-- A cell of the trial microstress: quadrature points of the cell and of its faces at the boundary. -/
structure TIn (d n N Q F : ℕ) where
  prm : CellPrm d n
  kind : Kind n N
  dofs : Fin N → ℕ
  pts : Fin Q → Shape d n N
  outer : List (Fin F → BShape d n N)

section
open Verif.Asm Verif.Cry Verif.Micro Matrix

/-- The same cell in the formulas of C76. -/
def TIn.cell {d : ℕ} (c : TIn d n N Q F) : TCell d n N where
  prm := c.prm
  kind := c.kind
  dofs := c.dofs
  Q := Q
  pts := c.pts
  F := (c.outer.flatMap List.ofFn).length
  faces := (c.outer.flatMap List.ofFn).get

/-- The cell with real arithmetic, `none` is NaN. What the workers of the trial microstress do not read is
left empty. -/
noncomputable def TIn.bits {d : ℕ} (c : TIn d n N Q F) (u old : ℕ → ℝ) :
    Cell (Option ℝ) (Option (Vec d)) (Mat d) Unit Unit n N Q F where
  dofs := c.dofs
  kind := c.kind
  decohesion := false
  microtractions := false
  zero := some 0
  jxw := fun q => some (c.pts q).jxw
  strain := fun q => (c.pts q).strain (u ∘ c.dofs)
  supply := fun _ => none
  slip := fun _ _ => none
  old := fun a q => some ((c.pts q).slip (old ∘ c.dofs) a)
  slipGrad := fun _ _ => none
  oldGrad := fun a q => some ((c.pts q).slipGrad (old ∘ c.dofs) a)
  resistance := fun _ _ => none
  vec := fun _ _ => none
  symGrad := fun _ _ => 0
  phi := fun q a i => some ((c.pts q).phi a i)
  grad := fun q a i => some ((c.pts q).grad a i)
  tetrad := ()
  schmid := fun _ => 0
  faces := []
  loads := []
  outer := c.outer.map fun f => {
    jxw := fun q => some (f q).jxw
    normal := fun q => some (f q).normal
    value := fun _ => none
    vec := fun _ _ => none
    slipGrad := fun a q => some ((f q).slipGrad (old ∘ c.dofs) a)
    phi := fun q a i => some ((f q).phi a i) }
  elastic := fun e s => c.prm.macroStrain +
    elasticStrain c.prm.dn0 ((List.finRange n).map fun a => (c.prm.sys a, (s a).getD 0)) e
  hooke := fun e => c.prm.elastic.stress c.prm.rot e
  vectorial := fun a g => g.bind fun g => c.prm.vec.microstress (c.prm.sys a) g
  resolved := fun a s => some (resolvedShear (c.prm.sys a) s)
  microstress := fun _ _ _ => none
  vectorialJac := fun _ _ => 0
  scalarJac := fun _ _ _ _ _ => none
  addDisp := fun _ _ _ _ _ _ => none
  addSlip := fun _ _ _ _ _ _ _ => none
  addCohesive := fun _ _ _ _ _ _ => none
  addMicro := fun _ _ _ _ _ => none
  addLoad := fun _ _ _ _ => none
  addUU := fun _ _ _ _ _ => none
  addUS := fun _ _ _ _ _ _ => none
  addSU := fun _ _ _ _ _ _ => none
  addGrad := fun _ _ _ _ _ => none
  addSS := fun _ _ _ _ _ _ _ _ => none
  addFaceUU := fun _ _ _ _ _ _ _ => none
  addCoupleUU := fun _ _ _ _ _ _ _ => none
  addFaceSS := fun _ _ _ _ _ _ => none
  addCoupleSS := fun _ _ _ _ _ _ => none
  addTrial := fun x g v p r w => addO x (v.bind fun v => g.bind fun g => p.bind fun p => r.bind fun r =>
    w.map fun w => -1 * (c.prm.dn2 * (g ⬝ᵥ v) - c.prm.dn3 * p * r) * w)
  addTrialFace := fun x p v m w => addO x (v.bind fun v => p.bind fun p => m.bind fun m =>
    w.map fun w => c.prm.dn2 * p * (v ⬝ᵥ m) * w)
  addMass := fun x p r w => addO x (p.bind fun p => r.bind fun r => w.map fun w => p * r * w)

/-- What `distribute_local_to_global` adds to entry `k` (C76). -/
noncomputable def spread (hn : Sol.Constraints ℕ) (g : ℕ → Option ℝ) (dofs : Fin N → ℕ)
    (v : Fin N → Option ℝ) (k : ℕ) : Option ℝ :=
  addO (g k) (sumOpt fun i => (v i).map (weight hn (dofs i) k * ·))

theorem foldl_fun {X ι : Type} (f : X → ι → X) (v : X → Fin N → Option ℝ) (P : X → Prop)
    (t : ι → Fin N → Option ℝ) (hf : ∀ x i, P x → P (f x i) ∧ ∀ k, v (f x i) k = addO (v x k) (t i k))
    (l : List ι) : ∀ x, P x → P (l.foldl f x) ∧
      ∀ k, v (l.foldl f x) k = l.foldl (fun a i => addO a (t i k)) (v x k) := by
  induction l with
  | nil => exact fun x h => ⟨h, fun _ => rfl⟩
  | cons i l ih =>
    intro x h
    obtain ⟨h1, h2⟩ := hf x i h
    obtain ⟨h3, h4⟩ := ih _ h1
    refine ⟨h3, fun k => ?_⟩
    rw [List.foldl_cons, h4, h2, List.foldl_cons]

/-- The right-hand side that the worker leaves is that of C76. -/
theorem tWorker_value {d : ℕ} (c : TIn d n N Q F) (u old : ℕ → ℝ)
    (x : TScratch (Option ℝ) (Option (Vec d)) (Mat d) n N Q F × VCopy (Option ℝ) N) :
    (tWorker (c.bits u old) x).2.dofs = c.dofs ∧
      ∀ i, (tWorker (c.bits u old) x).2.rhs i = c.cell.rhs u old i := by
  have h1 := foldl_fun (tPoint (c.bits u old)) (fun x => x.2.rhs)
    (fun x => (x.1.jxw = (c.bits u old).jxw ∧ x.1.strain = (c.bits u old).strain ∧
      x.1.slip = (c.bits u old).old ∧ x.1.slipGrad = (c.bits u old).oldGrad) ∧ x.2.dofs = c.dofs)
    (fun q i => c.prm.trialTerm c.kind (c.pts q) (u ∘ c.dofs) (old ∘ c.dofs) i)
    (fun x q h => ⟨h, fun i => ?_⟩) (List.finRange Q) (tBegin (c.bits u old) x) ⟨⟨rfl, rfl, rfl, rfl⟩, rfl⟩
  · have hf : ∀ (y : TScratch (Option ℝ) (Option (Vec d)) (Mat d) n N Q F × VCopy (Option ℝ) N)
        (f : Fin F → BShape d n N), y.2.dofs = c.dofs → _ := fun y f hy =>
      foldl_fun (tFacePoint (c.bits u old) {
          jxw := fun q => some (f q).jxw
          normal := fun q => some (f q).normal
          value := fun _ => none
          vec := fun _ _ => none
          slipGrad := fun a q => some ((f q).slipGrad (old ∘ c.dofs) a)
          phi := fun q a i => some ((f q).phi a i) }) (fun x => x.2.rhs)
        (fun x => (x.1.faceJxw = (fun q => some (f q).jxw) ∧ x.1.normal = (fun q => some (f q).normal) ∧
          x.1.faceSlipGrad = fun a q => some ((f q).slipGrad (old ∘ c.dofs) a)) ∧ x.2.dofs = c.dofs)
        (fun q i => c.prm.trialFaceTerm c.kind (f q) (old ∘ c.dofs) i)
        (fun x q h => ⟨h, fun i => by
          obtain ⟨⟨h1, h2, h3⟩, -⟩ := h
          unfold CellPrm.trialFaceTerm
          simp only [tFacePoint, setCol_self, h1, h2, h3]
          show (match c.kind i with | none => _ | some a => _) = addO _ (match c.kind i with | none => _ | some a => _)
          cases c.kind i with
          | none => exact (addO_zero _).symm
          | some a =>
            simp only [TIn.bits, Option.bind_some, Option.map_some]
            cases c.prm.vec.microstress (c.prm.sys a) ((f q).slipGrad (old ∘ c.dofs) a) <;> rfl⟩)
        (List.finRange F)
        ({ y.1 with faceJxw := fun q => some (f q).jxw, normal := fun q => some (f q).normal,
                    faceSlipGrad := fun a q => some ((f q).slipGrad (old ∘ c.dofs) a) }, y.2)
        ⟨⟨rfl, rfl, rfl⟩, hy⟩
    have h2 := foldl_fun (fun y (f : Fin F → BShape d n N) => tFace (c.bits u old) y {
          jxw := fun q => some (f q).jxw
          normal := fun q => some (f q).normal
          value := fun _ => none
          vec := fun _ _ => none
          slipGrad := fun a q => some ((f q).slipGrad (old ∘ c.dofs) a)
          phi := fun q a i => some ((f q).phi a i) }) (fun x => x.2.rhs) (fun x => x.2.dofs = c.dofs)
      (fun f i => (List.ofFn f).foldl (fun a q => addO a (c.prm.trialFaceTerm c.kind q (old ∘ c.dofs) i)) (some 0))
      (fun y f hy => ⟨(hf y f hy).1.2, fun i => by
        refine ((hf y f hy).2 i).trans ?_
        rw [foldl_addO, List.ofFn_eq_map, List.foldl_map]⟩)
      c.outer ((List.finRange Q).foldl (tPoint (c.bits u old)) (tBegin (c.bits u old) x)) h1.1.2
    have hw : tWorker (c.bits u old) x = c.outer.foldl (fun y (f : Fin F → BShape d n N) => tFace (c.bits u old) y {
          jxw := fun q => some (f q).jxw
          normal := fun q => some (f q).normal
          value := fun _ => none
          vec := fun _ _ => none
          slipGrad := fun a q => some ((f q).slipGrad (old ∘ c.dofs) a)
          phi := fun q a i => some ((f q).phi a i) })
        ((List.finRange Q).foldl (tPoint (c.bits u old)) (tBegin (c.bits u old) x)) := by
      unfold tWorker
      exact List.foldl_map
    rw [hw]
    refine ⟨h2.1, fun i => (h2.2 i).trans ?_⟩
    rw [h1.2 i, foldl_addO]
    show addO _ _ = addO (sumOpt _) (sumOpt fun k => c.prm.trialFaceTerm c.kind
      ((c.outer.flatMap List.ofFn).get k) (old ∘ c.dofs) i)
    rw [sumOpt_get (fun q => c.prm.trialFaceTerm c.kind q (old ∘ c.dofs) i), foldl_flatMap]
    rfl
  · obtain ⟨⟨h1, h2, h3, h4⟩, -⟩ := h
    unfold CellPrm.trialTerm
    simp only [tPoint, tFill, setCol_self, Function.update_self, h1, h2, h3, h4]
    show (match c.kind i with | none => _ | some a => _) = addO _ (match c.kind i with | none => _ | some a => _)
    cases c.kind i with
    | none => exact (addO_zero _).symm
    | some a =>
      simp only [TIn.bits, Option.bind_some, Option.map_some, Option.getD_some]
      cases c.prm.vec.microstress (c.prm.sys a) ((c.pts q).slipGrad (old ∘ c.dofs) a) <;> rfl

/-- The lumped matrix that the worker leaves is that of C76. -/
theorem mWorker_value {d : ℕ} (c : TIn d n N Q F) (u old : ℕ → ℝ)
    (x : MScratch (Option ℝ) n N Q × VCopy (Option ℝ) N) :
    (mWorker (c.bits u old) x).2.dofs = c.dofs ∧
      ∀ i, (mWorker (c.bits u old) x).2.rhs i = some (c.cell.lumped i) := by
  have h1 := foldl_fun (mPoint (c.bits u old)) (fun x => x.2.rhs)
    (fun x => x.1.jxw = (c.bits u old).jxw ∧ x.2.dofs = c.dofs)
    (fun q i => some (match c.kind i with
      | none => 0
      | some a => ∑ j, if c.kind j = some a then
        (c.pts q).phi a i * (c.pts q).phi a j * (c.pts q).jxw else 0))
    (fun x q h => ⟨h, fun i => ?_⟩) (List.finRange Q) _ (⟨rfl, rfl⟩ :
      (fun x : MScratch (Option ℝ) n N Q × VCopy (Option ℝ) N =>
        x.1.jxw = (c.bits u old).jxw ∧ x.2.dofs = c.dofs) ({ x.1 with jxw := (c.bits u old).jxw },
        { x.2 with dofs := c.dofs, rhs := fun _ => some 0 }))
  · refine ⟨h1.1.2, fun i => (h1.2 i).trans ?_⟩
    rw [foldl_some, zero_add, ← List.ofFn_eq_map, List.sum_ofFn]
    unfold TCell.lumped
    have hk : c.cell.kind = c.kind := rfl
    rw [hk]
    cases c.kind i with
    | none => simp
    | some a => rfl
  · have hm : (mPoint (c.bits u old) x q).2.rhs i =
        mAdd (c.bits u old) q { x.1 with phi := (c.bits u old).phi q } i (x.2.rhs i) := rfl
    rw [hm]
    unfold mAdd
    show (match c.kind i with | none => _ | some a => _) = _
    cases c.kind i with
    | none => exact (addO_zero _).symm
    | some a =>
      have hstep : ∀ (y : Option ℝ) (j : Fin N), (match (c.bits u old).kind j with
          | none => y
          | some b => if a = b then (c.bits u old).addMass y ((c.bits u old).phi q a i)
              ((c.bits u old).phi q b j) (x.1.jxw q) else y) =
          addO y (some (if c.kind j = some a then
            (c.pts q).phi a i * (c.pts q).phi a j * (c.pts q).jxw else 0)) := by
        intro y j
        rw [h.1]
        show (match c.kind j with | none => y | some b => _) = _
        rcases hk : c.kind j with _ | b
        · simp [addO_zero]
        · by_cases hab : a = b
          · subst hab
            simp [TIn.bits]
          · have : ¬ b = a := fun h => hab h.symm
            simp [hab, this, addO_zero]
      show (List.finRange N).foldl (fun y j => match (c.bits u old).kind j with
          | none => y
          | some b => if a = b then (c.bits u old).addMass y ((c.bits u old).phi q a i)
              ((c.bits u old).phi q b j) (x.1.jxw q) else y) (x.2.rhs i) = _
      simp only [hstep]
      rw [foldl_addO, foldl_some, zero_add, ← List.ofFn_eq_map, List.sum_ofFn]

/-- C114: the trial microstress of C76 is assembled whatever the schedule and the buffers are. -/
theorem C114_trial_value {d : ℕ} (hn : Sol.Constraints ℕ) (u old : ℕ → ℝ) (cells : List (TIn d n N Q F))
    (es : List (Event (Cell (Option ℝ) (Option (Vec d)) (Mat d) Unit Unit n N Q F)))
    (hv : Valid (fun _ => none) es (cells.map fun c => c.bits u old)) (slots : ℕ → VCopy (Option ℝ) N) (k : ℕ) :
    (∀ scratch : ℕ → TScratch (Option ℝ) (Option (Vec d)) (Mat d) n N Q F,
      (es.foldl (Loop.step tWorker (vCopier (spread hn))) ⟨scratch, slots, fun _ => some 0⟩).total k =
        trialRhs hn (cells.map TIn.cell) u old k) ∧
    ∀ scratch : ℕ → MScratch (Option ℝ) n N Q,
      (es.foldl (Loop.step mWorker (vCopier (spread hn))) ⟨scratch, slots, fun _ => some 0⟩).total k =
        some (trialLumped hn (cells.map TIn.cell) k) := by
  refine ⟨fun scratch => ?_, fun scratch => ?_⟩
  · rw [(C114_trial (spread hn) _ es hv slots (slots 0) fun _ => some 0).1 scratch (scratch 0)]
    unfold SpecSerial trialRhs
    rw [List.foldl_map, List.foldl_map]
    have : ∀ (l : List (TIn d n N Q F)) (g : ℕ → Option ℝ),
        l.foldl (fun g c => vCopier (spread hn) g (tWorker (c.bits u old) (scratch 0, slots 0)).2) g k =
        l.foldl (fun acc c => acc.bind fun x => (sumOpt fun i =>
          (c.cell.rhs u old i).map (weight hn (c.cell.dofs i) k * ·)).map (x + ·)) (g k) := by
      intro l
      induction l with
      | nil => exact fun _ => rfl
      | cons c l ih =>
        intro g
        rw [List.foldl_cons, List.foldl_cons, ih]
        congr 1
        obtain ⟨h1, h2⟩ := tWorker_value c u old (scratch 0, slots 0)
        unfold vCopier spread
        rw [h1]
        simp only [h2]
        rfl
    exact this cells _
  · rw [(C114_trial (spread hn) _ es hv slots (slots 0) fun _ => some 0).2 scratch (scratch 0)]
    unfold SpecSerial trialLumped
    rw [List.foldl_map, List.map_map]
    have : ∀ (l : List (TIn d n N Q F)) (g : ℕ → Option ℝ) (a : ℝ), g k = some a →
        l.foldl (fun g c => vCopier (spread hn) g (mWorker (c.bits u old) (scratch 0, slots 0)).2) g k =
        some (a + (l.map fun c => ∑ i, weight hn (c.dofs i) k * c.cell.lumped i).sum) := by
      intro l
      induction l with
      | nil =>
        intro g a h
        simpa using h
      | cons c l ih =>
        intro g a h
        rw [List.foldl_cons, ih _ (a + ∑ i, weight hn (c.dofs i) k * c.cell.lumped i) ?_, List.map_cons,
          List.sum_cons, add_assoc]
        obtain ⟨h1, h2⟩ := mWorker_value c u old (scratch 0, slots 0)
        unfold vCopier spread
        rw [h1, h]
        simp only [h2, Option.map_some]
        rw [sumOpt_some]
        rfl
    rw [this cells _ 0 rfl, zero_add]
    rfl

end

section
open Verif.Dam

/-- A cell of the projection mesh with real arithmetic. -/
structure PIn (N F : ℕ) where
  dofs : Fin N → ℕ
  faces : List (Fin F → FacePt N)

/-- The cell in the formulas of C54. -/
def PIn.cell (c : PIn N F) : Dam.Cell N := ⟨c.dofs, c.faces.flatMap List.ofFn⟩

def PIn.bits (c : PIn N F) : PCell ℝ N F where
  dofs := c.dofs
  enabled := true
  faces := c.faces.map fun f => ⟨fun q => (f q).jxw, fun q => (f q).damage, fun q => (f q).phi⟩
  zero := 0
  addMass := fun x p r w => x + p * r * w
  addDamage := fun x p r w => x + p * r * w

/-- What `distribute_local_to_global` adds to entry `k` (C54). -/
def spreadR (K : Dam.Constraints) (g : ℕ → ℝ) (dofs : Fin N → ℕ) (v : Fin N → ℝ) (k : ℕ) : ℝ :=
  g k + ∑ i, ((resolve K (dofs i)).map fun mw => if mw.1 = k then mw.2 * v i else 0).sum

theorem foldl_add {X ι : Type} (f : X → ι → X) (v : X → Fin N → ℝ) (P : X → Prop)
    (t : ι → Fin N → ℝ) (hf : ∀ x i, P x → P (f x i) ∧ ∀ k, v (f x i) k = v x k + t i k)
    (l : List ι) : ∀ x, P x → P (l.foldl f x) ∧
      ∀ k, v (l.foldl f x) k = v x k + (l.map fun i => t i k).sum := by
  induction l with
  | nil => exact fun x h => ⟨h, fun _ => by simp⟩
  | cons i l ih =>
    intro x h
    obtain ⟨h1, h2⟩ := hf x i h
    obtain ⟨h3, h4⟩ := ih _ h1
    refine ⟨h3, fun k => ?_⟩
    rw [List.foldl_cons, h4, h2, List.map_cons, List.sum_cons, add_assoc]

theorem sum_fold {ι : Type} (t : ι → ℝ) (l : List ι) (a : ℝ) :
    l.foldl (fun y j => y + t j) a = a + (l.map t).sum := by
  induction l generalizing a with
  | nil => simp
  | cons i l ih => rw [List.foldl_cons, ih, List.map_cons, List.sum_cons, add_assoc]

theorem sum_flat {ι κ : Type} (t : κ → ℝ) (g : ι → List κ) (l : List ι) :
    ((l.flatMap g).map t).sum = (l.map fun f => ((g f).map t).sum).sum := by
  induction l with
  | nil => rfl
  | cons i l ih => rw [List.flatMap_cons, List.map_append, List.sum_append, ih]; rfl

theorem pWorker_value (c : PIn N F) (x : PScratch ℝ N F × VCopy ℝ N) :
    ((pMatWorker c.bits x).2.atGrainBoundary = !c.faces.isEmpty ∧
      ((pMatWorker c.bits x).2.atGrainBoundary = true → (pMatWorker c.bits x).2.dofs = c.dofs) ∧
      ∀ i, (pMatWorker c.bits x).2.rhs i = c.cell.lumped i) ∧
    ((pRhsWorker c.bits x).2.atGrainBoundary = !c.faces.isEmpty ∧
      ((pRhsWorker c.bits x).2.atGrainBoundary = true → (pRhsWorker c.bits x).2.dofs = c.dofs) ∧
      ∀ i, (pRhsWorker c.bits x).2.rhs i = c.cell.rhs i) := by
  have he : c.bits.faces.isEmpty = c.faces.isEmpty := by
    show (c.faces.map _).isEmpty = _
    cases c.faces <;> rfl
  have hmat : ∀ (y : PScratch ℝ N F × VCopy ℝ N) (f : Fin F → FacePt N), y.2.atGrainBoundary = true ∧
      y.2.dofs = c.dofs → _ := fun y f hy => foldl_add (pMatPoint c.bits
        ⟨fun q => (f q).jxw, fun q => (f q).damage, fun q => (f q).phi⟩) (fun x => x.2.rhs)
      (fun x => x.1.jxw = (fun q => (f q).jxw) ∧ x.2.atGrainBoundary = true ∧ x.2.dofs = c.dofs)
      (fun q i => ∑ j, (f q).phi i * (f q).phi j * (f q).jxw)
      (fun x q h => ⟨h, fun i => by
        show (List.finRange N).foldl (fun y j => y + (f q).phi i * (f q).phi j * x.1.jxw q) (x.2.rhs i) = _
        rw [sum_fold, h.1, ← List.ofFn_eq_map, List.sum_ofFn]⟩) (List.finRange F)
      ({ y.1 with jxw := fun q => (f q).jxw }, y.2) ⟨rfl, hy⟩
  have hrhs : ∀ (y : PScratch ℝ N F × VCopy ℝ N) (f : Fin F → FacePt N), y.2.atGrainBoundary = true ∧
      y.2.dofs = c.dofs → _ := fun y f hy => foldl_add (pRhsPoint c.bits
        ⟨fun q => (f q).jxw, fun q => (f q).damage, fun q => (f q).phi⟩) (fun x => x.2.rhs)
      (fun x => x.1.jxw = (fun q => (f q).jxw) ∧ x.2.atGrainBoundary = true ∧ x.2.dofs = c.dofs)
      (fun q i => (f q).phi i * (f q).damage * (f q).jxw)
      (fun x q h => ⟨h, fun i => by
        simp only [pRhsPoint, Function.update_self, h.1]
        rfl⟩) (List.finRange F)
      ({ y.1 with jxw := fun q => (f q).jxw }, y.2) ⟨rfl, hy⟩
  unfold pMatWorker pRhsWorker
  simp only [he]
  cases hb : c.faces.isEmpty
  · have hen : (!false && c.bits.enabled) = true := rfl
    rw [hen]
    simp only [if_true]
    have m := foldl_add (fun y (f : Fin F → FacePt N) => (List.finRange F).foldl (pMatPoint c.bits
        ⟨fun q => (f q).jxw, fun q => (f q).damage, fun q => (f q).phi⟩) ({ y.1 with jxw := fun q => (f q).jxw }, y.2))
      (fun x => x.2.rhs) (fun x : PScratch ℝ N F × VCopy ℝ N => x.2.atGrainBoundary = true ∧ x.2.dofs = c.dofs)
      (fun f i => ((List.finRange F).map fun q => ∑ j, (f q).phi i * (f q).phi j * (f q).jxw).sum)
      (fun y f hy => ⟨(hmat y f hy).1.2, (hmat y f hy).2⟩) c.faces
      (x.1, { x.2 with dofs := c.dofs, rhs := fun _ => 0, atGrainBoundary := true }) ⟨rfl, rfl⟩
    have r := foldl_add (fun y (f : Fin F → FacePt N) => (List.finRange F).foldl (pRhsPoint c.bits
        ⟨fun q => (f q).jxw, fun q => (f q).damage, fun q => (f q).phi⟩) ({ y.1 with jxw := fun q => (f q).jxw }, y.2))
      (fun x => x.2.rhs) (fun x : PScratch ℝ N F × VCopy ℝ N => x.2.atGrainBoundary = true ∧ x.2.dofs = c.dofs)
      (fun f i => ((List.finRange F).map fun q => (f q).phi i * (f q).damage * (f q).jxw).sum)
      (fun y f hy => ⟨(hrhs y f hy).1.2, (hrhs y f hy).2⟩) c.faces
      (x.1, { x.2 with dofs := c.dofs, rhs := fun _ => 0, atGrainBoundary := true }) ⟨rfl, rfl⟩
    have hfold : ∀ (p : PCell ℝ N F → PFace ℝ N F → PScratch ℝ N F × VCopy ℝ N → Fin F → PScratch ℝ N F × VCopy ℝ N)
        (y : PScratch ℝ N F × VCopy ℝ N), c.bits.faces.foldl (fun x f => (List.finRange F).foldl (p c.bits f)
          ({ x.1 with jxw := f.jxw }, x.2)) y = c.faces.foldl (fun y (f : Fin F → FacePt N) => (List.finRange F).foldl
          (p c.bits ⟨fun q => (f q).jxw, fun q => (f q).damage, fun q => (f q).phi⟩)
          ({ y.1 with jxw := fun q => (f q).jxw }, y.2)) y := fun p y => List.foldl_map
    have hfm := hfold pMatPoint (x.1, { x.2 with dofs := c.dofs, rhs := fun _ => 0, atGrainBoundary := true })
    have hfr := hfold pRhsPoint (x.1, { x.2 with dofs := c.dofs, rhs := fun _ => 0, atGrainBoundary := true })
    refine ⟨?_, ?_⟩
    · refine ⟨?_, ?_, ?_⟩
      · exact (congrArg (fun z => z.2.atGrainBoundary) hfm).trans m.1.1
      · exact fun _ => (congrArg (fun z => z.2.dofs) hfm).trans m.1.2
      · intro i
        refine (congrFun (congrArg (fun z => z.2.rhs) hfm) i).trans ((m.2 i).trans ?_)
        unfold Dam.Cell.lumped PIn.cell
        rw [sum_flat, zero_add]
        simp only [List.ofFn_eq_map, List.map_map]
        rfl
    · refine ⟨?_, ?_, ?_⟩
      · exact (congrArg (fun z => z.2.atGrainBoundary) hfr).trans r.1.1
      · exact fun _ => (congrArg (fun z => z.2.dofs) hfr).trans r.1.2
      · intro i
        refine (congrFun (congrArg (fun z => z.2.rhs) hfr) i).trans ((r.2 i).trans ?_)
        unfold Dam.Cell.rhs PIn.cell
        rw [sum_flat, zero_add]
        simp only [List.ofFn_eq_map, List.map_map]
        rfl
  · have hnil : c.faces = [] := List.isEmpty_iff.1 hb
    refine ⟨⟨rfl, fun h => absurd h (by simp), fun i => ?_⟩, rfl, fun h => absurd h (by simp), fun i => ?_⟩
    · simp [Dam.Cell.lumped, PIn.cell, hnil]
      rfl
    · simp [Dam.Cell.rhs, PIn.cell, hnil]
      rfl

/-- C114: matrix and right-hand side of the projected damage are those of C54. -/
theorem C114_projection_value (K : Dam.Constraints) (cells : List (PIn N F)) (es : List (Event (PCell ℝ N F)))
    (hv : Valid (fun _ => none) es (cells.map PIn.bits)) (scratch : ℕ → PScratch ℝ N F)
    (slots : ℕ → VCopy ℝ N) (k : ℕ) :
    (es.foldl (Loop.step pMatWorker (pCopier (spreadR K))) ⟨scratch, slots, fun _ => 0⟩).total k =
        assemble K Dam.Cell.lumped (cells.map PIn.cell) k ∧
    (es.foldl (Loop.step pRhsWorker (pCopier (spreadR K))) ⟨scratch, slots, fun _ => 0⟩).total k =
        assemble K Dam.Cell.rhs (cells.map PIn.cell) k := by
  obtain ⟨h1, h2⟩ := C114_projection (spreadR K) _ es hv scratch slots (scratch 0) (slots 0) fun _ => 0
  rw [h1, h2]
  have key : ∀ (w : PCell ℝ N F → PScratch ℝ N F × VCopy ℝ N → PScratch ℝ N F × VCopy ℝ N)
      (f : Dam.Cell N → Fin N → ℝ), (∀ c : PIn N F, c.faces = [] → ∀ i, f c.cell i = 0) →
      (∀ (c : PIn N F) x, (w c.bits x).2.atGrainBoundary = !c.faces.isEmpty ∧
        ((w c.bits x).2.atGrainBoundary = true → (w c.bits x).2.dofs = c.dofs) ∧
        ∀ i, (w c.bits x).2.rhs i = f c.cell i) →
      SpecSerial w (pCopier (spreadR K)) (scratch 0) (slots 0) (cells.map PIn.bits) (fun _ => 0) k =
        assemble K f (cells.map PIn.cell) k := by
    intro w f hz hw
    unfold SpecSerial assemble
    rw [List.foldl_map, List.map_map]
    have : ∀ (l : List (PIn N F)) (g : ℕ → ℝ),
        l.foldl (fun g c => pCopier (spreadR K) g (w c.bits (scratch 0, slots 0)).2) g k =
        g k + (l.map ((fun cell : Dam.Cell N => ∑ i, ((resolve K (cell.dofs i)).map fun mw =>
          if mw.1 = k then mw.2 * f cell i else 0).sum) ∘ PIn.cell)).sum := by
      intro l
      induction l with
      | nil => exact fun g => by simp
      | cons c l ih =>
        intro g
        rw [List.foldl_cons, ih, List.map_cons, List.sum_cons, ← add_assoc]
        congr 1
        obtain ⟨w1, w2, w3⟩ := hw c (scratch 0, slots 0)
        unfold pCopier
        rw [w1]
        cases hb : c.faces.isEmpty
        · rw [w1, hb] at w2
          rw [Bool.not_false, if_pos rfl]
          unfold spreadR
          rw [w2 rfl]
          simp only [w3]
          rfl
        · have hnil : c.faces = [] := List.isEmpty_iff.1 hb
          rw [Bool.not_true, if_neg (by simp)]
          simp only [Function.comp, hz c hnil, mul_zero, ite_self, List.map_const', List.sum_replicate, smul_zero,
            Finset.sum_const_zero, add_zero]
    rw [this, zero_add]
  refine ⟨key _ _ (fun c h i => ?_) fun c x => (pWorker_value c x).1,
    key _ _ (fun c h i => ?_) fun c x => (pWorker_value c x).2⟩
  · simp [Dam.Cell.lumped, PIn.cell, h]
  · simp [Dam.Cell.rhs, PIn.cell, h]

end

/-! ## Double precision -/

section
open Verif.Fp

/-- A cell with one grain boundary face of area `w` and damage one, in double precision. -/
noncomputable def exDouble (fl : ℝ → ℝ) (w : ℝ) : PCell ℝ 1 1 where
  dofs := fun _ => 0
  enabled := true
  faces := [⟨fun _ => w, fun _ => 1, fun _ _ => 1⟩]
  zero := 0
  addMass := fun x p r w => fl (x + fl (fl (p * r) * w))
  addDamage := fun x p r w => fl (x + fl (fl (p * r) * w))

/-- Addition of the local value to the global one in double precision. -/
noncomputable def exSpread (fl : ℝ → ℝ) (g : ℝ) (_ : Fin 1 → ℕ) (v : Fin 1 → ℝ) : ℝ := fl (g + v 0)

/-- The right-hand side of the projection for faces of the areas `ws`. -/
noncomputable def exTotal (fl : ℝ → ℝ) (ws : List ℝ) : ℝ :=
  SpecSerial pRhsWorker (pCopier (exSpread fl)) ⟨fun _ => 0, fun _ => 0, fun _ => 0⟩ ⟨fun _ => 0, fun _ => 0, false⟩
    (ws.map (exDouble fl)) 0

theorem exTotal_eq {fl : ℝ → ℝ} (hfl : IsRounding fl) (ws : List ℝ) (hw : ∀ w ∈ ws, IsDouble w) :
    exTotal fl ws = ws.foldl (fun g w => fl (g + w)) 0 := by
  unfold exTotal SpecSerial
  rw [List.foldl_map]
  generalize (0 : ℝ) = g
  induction ws generalizing g with
  | nil => rfl
  | cons w ws ih =>
    rw [List.foldl_cons, List.foldl_cons, ← ih fun x hx => hw x (List.mem_cons_of_mem _ hx)]
    congr 1
    have h1 := fl_double hfl (hw w (List.mem_cons_self ..))
    simp [pCopier, pRhsWorker, pRhsPoint, exDouble, exSpread, fl_one hfl, h1, List.finRange_succ]

/-- C114: why the copiers must run in the order of the cells, and why another number of processes may
change bits: a face of area 3 and two of area `3 * 2^-54`, in the first case added in this order, in the
second the small ones first, in the third on two processes. -/
theorem C114_order {fl : ℝ → ℝ} (hfl : IsRounding fl) :
    exTotal fl [3, 3 / 18014398509481984, 3 / 18014398509481984] = 3 ∧
    exTotal fl [3 / 18014398509481984, 3 / 18014398509481984, 3] = 3 + 1 / 2251799813685248 ∧
    fl (exTotal fl [3] + exTotal fl [3 / 18014398509481984, 3 / 18014398509481984]) =
      3 + 1 / 2251799813685248 := by
  have d3 : IsDouble 3 := ⟨3, 0, by norm_num, by norm_num, by norm_num⟩
  have db : IsDouble (3 / 18014398509481984) := ⟨3, -54, by norm_num, by norm_num, by norm_num⟩
  have db2 : IsDouble (3 / 18014398509481984 + 3 / 18014398509481984) :=
    ⟨3, -53, by norm_num, by norm_num, by norm_num⟩
  have e1 : fl (3 + 3 / 18014398509481984) = 3 := by
    rw [fl_eq hfl 6755399441055744 (-51) (by norm_num) (by norm_num) (by norm_num) (by norm_num [abs_lt])]
    norm_num
  have e2 : fl (3 + (3 / 18014398509481984 + 3 / 18014398509481984)) = 3 + 1 / 2251799813685248 := by
    rw [fl_eq hfl 6755399441055745 (-51) (by norm_num) (by norm_num) (by norm_num) (by norm_num [abs_lt])]
    norm_num
  rw [exTotal_eq hfl _ (by simp [d3, db]), exTotal_eq hfl _ (by simp [d3, db]), exTotal_eq hfl _ (by simp [d3]),
    exTotal_eq hfl _ (by simp [db])]
  simp only [List.foldl_cons, List.foldl_nil, zero_add, fl_double hfl d3, fl_double hfl db, fl_double hfl db2, e1,
    e2, true_and]
  rw [add_comm, e2]
  simp

/-- Two threads with two copy objects full of old data, in double precision. -/
example {fl : ℝ → ℝ} (hfl : IsRounding fl) (scratch : ℕ → PScratch ℝ 1 1) (slots : ℕ → VCopy ℝ 1) :
    (([.work 0 0 (exDouble fl 3), .work 1 1 (exDouble fl (3 / 18014398509481984)), .copy 0,
        .work 0 0 (exDouble fl (3 / 18014398509481984)), .copy 1, .copy 0] : List (Event (PCell ℝ 1 1))).foldl
      (Loop.step pRhsWorker (pCopier (exSpread fl))) ⟨scratch, slots, 0⟩).total = 3 := by
  rw [(C114_projection (exSpread fl) ([3, 3 / 18014398509481984, 3 / 18014398509481984].map (exDouble fl)) _ ?_
    scratch slots ⟨fun _ => 0, fun _ => 0, fun _ => 0⟩ ⟨fun _ => 0, fun _ => 0, false⟩ 0).2]
  · exact (C114_order hfl).1
  · refine ⟨rfl, by simp, _, _, rfl, rfl, by simp, _, _, by simp, rfl, _, _, by simp, rfl, fun k => ?_, rfl⟩
    by_cases h0 : k = 0
    · simp [h0]
    · by_cases h1 : k = 1 <;> simp [h0, h1, Function.update]

end

end Verif.Ws.Bits
