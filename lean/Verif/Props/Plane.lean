import Verif.Props.Speed
import Verif.Props.Turned
import Verif.Props.Hooke
import Verif.Props.Crystal

/-!
# Plane strain: C106

A two-dimensional computation against the three-dimensional computation of the body it is the cross-section of.
-/

namespace Verif.Asm
open Matrix Finset Verif.Cry Verif.Hist Verif.Micro Verif.Lin Verif.Itf

variable {n N N3 M K Z : ℕ}

/-! ## Specification -/

/-- A vector of the plane in space. -/
def lift (v : Vec 2) : Vec 3 := ![v 0, v 1, 0]

/-- A tensor of the plane in space. -/
def liftM (m : Mat 2) : Mat 3 := !![m 0 0, m 0 1, 0; m 1 0, m 1 1, 0; 0, 0, 0]

/-- A rotation of the plane in space. -/
def liftR (m : Mat 2) : Mat 3 := !![m 0 0, m 0 1, 0; m 1 0, m 1 1, 0; 0, 0, 1]

/-- The direction in which nothing varies. -/
def axis : Vec 3 := ![0, 0, 1]

/-- A slip system of the plane and the one of space with the same direction and normal; the third vector of the latter
is along the axis. -/
structure SpecLifted (s : System 2) (s3 : System 3) : Prop where
  flat : s.third = 0
  direction : s3.direction = lift s.direction
  normal : s3.normal = lift s.normal
  third : ∃ t : ℝ, s3.third = t • axis

/-- The same material, oriented in the plane, under the same macroscopic strain. -/
structure SpecPlaneStrain (c : CellPrm 2 n) (c3 : CellPrm 3 n) : Prop where
  sys : ∀ a, SpecLifted (c.sys a) (c3.sys a)
  rot : c3.rot = liftR c.rot
  macroStrain : c3.macroStrain = liftM c.macroStrain
  elastic : c3.elastic = c.elastic
  vec : c3.vec = c.vec
  law : c3.law = c.law
  dn0 : c3.dn0 = c.dn0
  dn2 : c3.dn2 = c.dn2
  dn3 : c3.dn3 = c.dn3
  dt : c3.dt = c.dt

/-- A layer of elements over the thickness of the body: values and slopes of its `M` shape functions in the third
direction at `Z` points, with the weights of the points, and the level of the body each of them belongs to. -/
structure Layer (M Z : ℕ) where
  value : Fin M → Fin Z → ℝ
  slope : Fin M → Fin Z → ℝ
  weight : Fin Z → ℝ
  level : Fin M → ℕ

/-- The shape functions add up to one. -/
structure Layer.Ok (L : Layer M Z) : Prop where
  points : 0 < Z
  value : ∀ z, ∑ m, L.value m z = 1
  slope : ∀ z, ∑ m, L.slope m z = 0

/-- Integral of a shape function over the thickness. -/
noncomputable def Layer.thickness (L : Layer M Z) (m : Fin M) : ℝ := ∑ z, L.weight z * L.value m z

/-- Local degrees of freedom of an element of space: those of the plane element at each of the `M` levels of the layer,
and displacements in the third direction. -/
abbrev Locals (N N3 M K : ℕ) := Fin N3 ≃ (Fin N × Fin M) ⊕ Fin K

/-- Degree of freedom `i` of the plane element at level `m` of the layer. -/
def Locals.at (loc : Locals N N3 M K) (i : Fin N) (m : Fin M) : Fin N3 := loc.symm (.inl (i, m))

/-- A displacement in the third direction. -/
def Locals.out (loc : Locals N N3 M K) (k : Fin K) : Fin N3 := loc.symm (.inr k)

/-- Kinds of the degrees of freedom. -/
structure SpecKinds (loc : Locals N N3 M K) (kind : Kind n N) (kind3 : Kind n N3) : Prop where
  at_ : ∀ i m, kind3 (loc.at i m) = kind i
  out : ∀ k, kind3 (loc.out k) = none
  disp : ∃ i, kind i = none

/-- Shape functions of an element that is a plane element times a layer. Nothing is said about the displacements in the
third direction but that slip views vanish on them. -/
structure SpecProduct (loc : Locals N N3 M K) (L : Layer M Z) (z : Fin Z) (s : Shape 2 n N) (s3 : Shape 3 n N3) : Prop where
  jxw : s3.jxw = s.jxw * L.weight z
  disp : ∀ i m, s3.disp (loc.at i m) = L.value m z • lift (s.disp i)
  symGrad : ∀ i m, s3.symGrad (loc.at i m) =
    L.value m z • liftM (s.symGrad i) + L.slope m z • symmetrize (outer (lift (s.disp i)) axis)
  phi : ∀ a i m, s3.phi a (loc.at i m) = L.value m z * s.phi a i
  grad : ∀ a i m, s3.grad a (loc.at i m) = L.value m z • lift (s.grad a i) + (L.slope m z * s.phi a i) • axis
  phi_out : ∀ a k, s3.phi a (loc.out k) = 0
  grad_out : ∀ a k, s3.grad a (loc.out k) = 0

/-- A quadrature point of the body above one of the plane. -/
structure SpecPoint (loc : Locals N N3 M K) (L : Layer M Z) (z : Fin Z) (p : Point 2 n N) (p3 : Point 3 n N3) : Prop where
  shape : SpecProduct loc L z p.shape p3.shape
  supply : p3.supply = lift p.supply
  hist : p3.hist = p.hist
  old : p3.old = p.old

/-- The same displacements and slips at all levels, no displacement in the third direction. -/
structure SpecState (loc : Locals N N3 M K) (u : Fin N → ℝ) (u3 : Fin N3 → ℝ) : Prop where
  at_ : ∀ i m, u3 (loc.at i m) = u i
  out : ∀ k, u3 (loc.out k) = 0

/-- Shape functions on a face. -/
structure SpecSide (loc : Locals N N3 M K) (L : Layer M Z) (z : Fin Z) (s : Side 2 n N) (s3 : Side 3 n N3) : Prop where
  disp : ∀ i m, s3.disp (loc.at i m) = L.value m z • lift (s.disp i)
  phi : ∀ a i m, s3.phi a (loc.at i m) = L.value m z * s.phi a i
  phi_out : ∀ a k, s3.phi a (loc.out k) = 0

/-- Numbers of the degrees of freedom of the body: `num i ℓ` is that of degree of freedom `i` of the plane at level `ℓ`;
all other numbers belong to displacements in the third direction. -/
abbrev Numbering := ℕ → ℕ → ℕ

/-- Numbers of an element's degrees of freedom. -/
structure SpecDofs (loc : Locals N N3 M K) (num : Numbering) (L : Layer M Z) (dofs : Fin N → ℕ) (dofs3 : Fin N3 → ℕ) :
    Prop where
  at_ : ∀ i m, dofs3 (loc.at i m) = num (dofs i) (L.level m)
  out : ∀ k i ℓ, dofs3 (loc.out k) ≠ num i ℓ

/-- A grain boundary that is the same at all heights, with the same laws. -/
structure SpecView (loc : Locals N N3 M K) (num : Numbering) (L : Layer M Z) (z : Fin Z) (v : View 2 1 n N)
    (v3 : View 3 3 n N3) : Prop where
  own : ∀ a, SpecLifted (v.own a) (v3.own a)
  other : ∀ a, SpecLifted (v.other a) (v3.other a)
  nrm : v3.nrm = lift v.nrm
  jxw : v3.jxw = v.jxw * L.weight z
  hist : v3.hist = v.hist
  cur : SpecSide loc L z v.cur v3.cur
  nb : SpecSide loc L z v.nb v3.nb
  nbDofs : SpecDofs loc num L v.nbDofs v3.nbDofs
  lat : v.prm.lat = lateral2 ∧ v3.prm.lat = lateral3
  prm : v3.prm = { v3.prm with
    dn0 := v.prm.dn0, dn2 := v.prm.dn2, dn3 := v.prm.dn3, dt := v.prm.dt, coh := v.prm.coh, contact := v.prm.contact,
    exponent := v.prm.exponent, coupleMacro := v.prm.coupleMacro, coupleMicro := v.prm.coupleMicro,
    micro := v.prm.micro, decohesion := v.prm.decohesion, microtraction := v.prm.microtraction }

/-- A load that is the same at all heights and lies in the plane. -/
structure SpecLoad (loc : Locals N N3 M K) (L : Layer M Z) (z : Fin Z) (l : Loaded 2 n N) (l3 : Loaded 3 n N3) : Prop where
  side : SpecSide loc L z l.side l3.side
  value : l3.value = lift l.value
  jxw : l3.jxw = l.jxw * L.weight z

/-- The cell of a layer of the body above a cell of the plane: all its quadrature points, those of its grain boundary
faces and those of its loaded faces lie above those of the plane cell, one at each height. -/
structure SpecColumn (loc : Locals N N3 M K) (num : Numbering) (L : Layer M Z) (g : GrainCell 2 1 n N)
    (g3 : GrainCell 3 3 n N3) : Prop where
  prm : SpecPlaneStrain g.cell.prm g3.cell.prm
  kinds : SpecKinds loc g.cell.kind g3.cell.kind
  dofs : SpecDofs loc num L g.cell.dofs g3.cell.dofs
  pts : ∃ e : Fin g3.cell.Q ≃ Fin g.cell.Q × Fin Z, ∀ q, SpecPoint loc L (e q).2 (g.cell.pts (e q).1) (g3.cell.pts q)
  views : ∃ e : Fin g3.F ≃ Fin g.F × Fin Z, ∀ f, SpecView loc num L (e f).2 (g.views (e f).1) (g3.views f)
  loads : ∃ e : Fin g3.B ≃ Fin g.B × Fin Z, ∀ b, SpecLoad loc L (e b).2 (g.loads (e b).1) (g3.loads b)

/-- The body: layers of cells above the cells of the plane, listed in any order. -/
def SpecStack (loc : Locals N N3 M K) (num : Numbering) (layers : List (Layer M Z)) (cells : List (GrainCell 2 1 n N))
    (cells3 : List (GrainCell 3 3 n N3)) : Prop :=
  ∃ columns, List.Forall₂ (fun L col => List.Forall₂ (SpecColumn loc num L) cells col) layers columns ∧
    cells3.Perm columns.flatten

/-- The same displacements and slips at all heights, no displacement in the third direction. -/
structure SpecPlaneState (num : Numbering) (u u3 : ℕ → ℝ) : Prop where
  at_ : ∀ i ℓ, u3 (num i ℓ) = u i
  out : ∀ r, (∀ i ℓ, r ≠ num i ℓ) → u3 r = 0

/-- The same constraints at all levels, displacements in the third direction held at zero. -/
structure SpecPlaneHeld (num : Numbering) (C C3 : Sol.Constraints ℕ) : Prop where
  at_ : ∀ i ℓ, C3 (num i ℓ) = (C i).map fun l => ⟨l.entries.map fun x => (num x.1 ℓ, x.2), l.inhom⟩
  out : ∀ r, (∀ i ℓ, r ≠ num i ℓ) → C3 r = some ⟨[], 0⟩

/-- Thickness of the body that belongs to level `ℓ`. -/
noncomputable def SpecThickness (layers : List (Layer M Z)) (ℓ : ℕ) : ℝ :=
  (layers.map fun L => ∑ m, if L.level m = ℓ then L.thickness m else 0).sum

/-! ## Algebra -/

theorem lift_dot (v w : Vec 2) : lift v ⬝ᵥ lift w = v ⬝ᵥ w := by
  simp [lift, dotProduct, Fin.sum_univ_three, Fin.sum_univ_two]

theorem lift_axis (v : Vec 2) : lift v ⬝ᵥ axis = 0 := by
  simp [lift, axis, dotProduct, Fin.sum_univ_three]

theorem axis_lift (v : Vec 2) : axis ⬝ᵥ lift v = 0 := by
  simp [lift, axis, dotProduct, Fin.sum_univ_three]

theorem lift_smul (t : ℝ) (v : Vec 2) : lift (t • v) = t • lift v := by
  funext i; fin_cases i <;> simp [lift]

theorem lift_add (v w : Vec 2) : lift (v + w) = lift v + lift w := by
  funext i; fin_cases i <;> simp [lift]

theorem lift_sub (v w : Vec 2) : lift (v - w) = lift v - lift w := by
  funext i; fin_cases i <;> simp [lift]

theorem lift_neg (v : Vec 2) : lift (-v) = -lift v := by
  funext i; fin_cases i <;> simp [lift]

theorem lift_zero : lift 0 = 0 := by
  funext i; fin_cases i <;> simp [lift]

theorem lift_sum {ι : Type*} (s : Finset ι) (f : ι → Vec 2) : lift (∑ i ∈ s, f i) = ∑ i ∈ s, lift (f i) := by
  classical
  induction s using Finset.induction_on with
  | empty => simpa using lift_zero
  | insert a s ha ih => rw [sum_insert ha, sum_insert ha, lift_add, ih]

theorem liftM_smul (t : ℝ) (m : Mat 2) : liftM (t • m) = t • liftM m := by
  ext i j; fin_cases i <;> fin_cases j <;> simp [liftM]

theorem liftM_add (v w : Mat 2) : liftM (v + w) = liftM v + liftM w := by
  ext i j; fin_cases i <;> fin_cases j <;> simp [liftM]

theorem liftM_sub (v w : Mat 2) : liftM (v - w) = liftM v - liftM w := by
  ext i j; fin_cases i <;> fin_cases j <;> simp [liftM]

theorem liftM_zero : liftM 0 = 0 := by
  ext i j; fin_cases i <;> fin_cases j <;> simp [liftM]

theorem liftM_sum {ι : Type*} (s : Finset ι) (f : ι → Mat 2) : liftM (∑ i ∈ s, f i) = ∑ i ∈ s, liftM (f i) := by
  classical
  induction s using Finset.induction_on with
  | empty => simpa using liftM_zero
  | insert a s ha ih => rw [sum_insert ha, sum_insert ha, liftM_add, ih]

theorem liftM_outer (v w : Vec 2) : outer (lift v) (lift w) = liftM (outer v w) := by
  ext i j; fin_cases i <;> fin_cases j <;> simp [liftM, outer, lift]

theorem liftM_symmetrize (m : Mat 2) : symmetrize (liftM m) = liftM (symmetrize m) := by
  ext i j; fin_cases i <;> fin_cases j <;> simp [liftM, symmetrize]

theorem liftM_mulVec (m : Mat 2) (v : Vec 2) : liftM m *ᵥ lift v = lift (m *ᵥ v) := by
  funext i; fin_cases i <;> simp [liftM, lift, Matrix.mulVec, dotProduct, Fin.sum_univ_three, Fin.sum_univ_two]

theorem ddot_lift (a b : Mat 2) (c : Mat 3) (h : ∀ i j : Fin 2, c i.castSucc j.castSucc = b i j) :
    ddot (liftM a) c = ddot a b := by
  have h00 := h 0 0; have h01 := h 0 1; have h10 := h 1 0; have h11 := h 1 1
  simp only [Fin.castSucc_zero, Fin.castSucc_one] at h00 h01 h10 h11
  simp [ddot, liftM, Fin.sum_univ_three, Fin.sum_univ_two, h00, h01, h10, h11]

theorem norm2_lift (v : Vec 2) : norm2 (lift v) = norm2 v := by unfold norm2; rw [lift_dot]

theorem SpecLifted.symSchmid {s : System 2} {s3 : System 3} (h : SpecLifted s s3) : s3.symSchmid = liftM s.symSchmid := by
  unfold System.symSchmid System.schmid
  rw [h.direction, h.normal, liftM_outer, liftM_symmetrize]

/-! ## Laws -/

/-- C106, elasticity: the stress of a plane strain in a crystal oriented in the plane has the components of the
two-dimensional stress and no shear stress out of the plane. -/
theorem C106_stress (p : Elastic) (r e : Mat 2) :
    (∀ i j : Fin 2, p.stress (liftR r) (liftM e) i.castSucc j.castSucc = p.stress r e i j) ∧
    (∀ i : Fin 2, p.stress (liftR r) (liftM e) i.castSucc 2 = 0 ∧ p.stress (liftR r) (liftM e) 2 i.castSucc = 0) := by
  have hm : (liftR r)ᵀ * liftM e * liftR r = liftM (rᵀ * e * r) := by
    ext i j
    fin_cases i <;> fin_cases j <;>
      simp [liftR, liftM, Matrix.mul_apply, Fin.sum_univ_three, Fin.sum_univ_two]
  have hC : ∀ o q s t : Fin 2, SpecCubic p o.castSucc q.castSucc s.castSucc t.castSucc = SpecCubic p o q s t := by
    intro o q s t
    unfold SpecCubic
    simp only [Fin.castSucc_inj]
  have hr : ∀ i j : Fin 2, liftR r i.castSucc j.castSucc = r i j := by
    intro i j; fin_cases i <;> fin_cases j <;> simp [liftR]
  have hl : ∀ i j : Fin 2, liftM (rᵀ * e * r) i.castSucc j.castSucc = (rᵀ * e * r) i j := by
    intro i j; fin_cases i <;> fin_cases j <;> simp [liftM]
  have hl1 : ∀ i : Fin 3, liftM (rᵀ * e * r) i (Fin.last 2) = 0 := by
    intro i; fin_cases i <;> simp [liftM, Fin.last]
  have hl2 : ∀ i : Fin 3, liftM (rᵀ * e * r) (Fin.last 2) i = 0 := by
    intro i; fin_cases i <;> simp [liftM, Fin.last]
  have h0 : ∀ i : Fin 2, liftR r i.castSucc (Fin.last 2) = 0 := by
    intro i; fin_cases i <;> simp [liftR, Fin.last]
  have h1 : ∀ i : Fin 2, liftR r (Fin.last 2) i.castSucc = 0 := by
    intro i; fin_cases i <;> simp [liftR, Fin.last]
  have hz : ∀ o s t : Fin 2, SpecCubic p o.castSucc (Fin.last 2) s.castSucc t.castSucc = 0 ∧
      SpecCubic p (Fin.last 2) o.castSucc s.castSucc t.castSucc = 0 := by
    intro o s t
    unfold SpecCubic
    fin_cases o <;> fin_cases s <;> fin_cases t <;> simp [Fin.last]
  refine ⟨fun i j => ?_, fun i => ⟨?_, ?_⟩⟩
  · rw [stress_eq, stress_eq, hm]
    simp only [Fin.sum_univ_castSucc (n := 2), h0, hr, hC, hl, hl1, hl2, zero_mul, mul_zero, add_zero,
      Finset.sum_const_zero]
  · rw [stress_eq, hm, show (2 : Fin 3) = Fin.last 2 from rfl]
    simp only [Fin.sum_univ_castSucc (n := 2), h0, h1, (hz _ _ _).1, hl1, hl2, zero_mul, mul_zero, add_zero,
      Finset.sum_const_zero]
  · rw [stress_eq, hm, show (2 : Fin 3) = Fin.last 2 from rfl]
    simp only [Fin.sum_univ_castSucc (n := 2), h0, h1, (hz _ _ _).2, hl1, hl2, zero_mul, mul_zero, add_zero,
      Finset.sum_const_zero]

/-- C106, vectorial microstress: it lies in the plane and is the two-dimensional one, also where it is not a number. -/
theorem C106_vectorial (v : VecLaw) {s : System 2} {s3 : System 3} (h : SpecLifted s s3) (g : Vec 2) :
    v.microstress s3 (lift g) = (v.microstress s g).map lift := by
  obtain ⟨t, ht⟩ := h.third
  have e1 : (-s3.direction) ⬝ᵥ lift g = (-s.direction) ⬝ᵥ g := by rw [h.direction, ← lift_neg, lift_dot]
  have e2 : s3.third ⬝ᵥ lift g = s.third ⬝ᵥ g := by
    rw [ht, h.flat, smul_dotProduct, axis_lift]; simp
  unfold VecLaw.microstress VecLaw.bracket
  rw [e1, e2]
  cases fpow |(-s.direction) ⬝ᵥ g| (v.index - 2) with
  | none => rfl
  | some a =>
    cases fpow |s.third ⬝ᵥ g| (v.index - 2) with
    | none => rfl
    | some b =>
      simp only [Option.map_some]
      congr 1
      rw [h.direction, ht, h.flat, liftM_outer, liftM_symmetrize]
      have e3 : symmetrize (outer (t • axis) (t • axis)) *ᵥ lift g = 0 := by
        funext i
        fin_cases i <;>
          simp [symmetrize, outer, axis, lift, Matrix.mulVec, dotProduct, Fin.sum_univ_three]
      have e4 : symmetrize (outer (0 : Vec 2) 0) *ᵥ g = 0 := by
        funext i
        simp [symmetrize, outer, Matrix.mulVec, dotProduct]
      rw [Matrix.smul_mulVec, Matrix.smul_mulVec, Matrix.add_mulVec, Matrix.add_mulVec, Matrix.smul_mulVec,
        Matrix.smul_mulVec, Matrix.smul_mulVec, Matrix.smul_mulVec, e3, e4, liftM_mulVec]
      simp only [smul_zero, add_zero, lift_smul]

theorem lateral_lift (a b c f : Vec 2) :
    lateral3 (lift a) (lift b) ⬝ᵥ lateral3 (lift c) (lift f) = lateral2 a b ⬝ᵥ lateral2 c f := by
  simp [lateral3, lateral2, cross, lift, dotProduct, Fin.sum_univ_three]

/-- C106, microtractions: the interaction moduli of the three-dimensional law are those of the two-dimensional one. -/
theorem C106_microtraction (p : MicroPrm) (cc cn : Crystal 2 n) (cc3 cn3 : Crystal 3 n)
    (hc : ∀ a, SpecLifted (cc a) (cc3 a)) (hn : ∀ a, SpecLifted (cn a) (cn3 a)) (nrm : Vec 2) (γ γn : Fin n → ℝ)
    (a : Fin n) :
    Itf.microtraction p lateral3 cc3 cn3 (lift nrm) γ γn a = Itf.microtraction p lateral2 cc cn nrm γ γn a := by
  unfold Itf.microtraction intra inter modulus
  simp only [(hc _).direction, (hc _).normal, (hn _).direction, (hn _).normal, lift_dot, lateral_lift]

theorem tangential_lift (nrm δ : Vec 2) :
    tangentialProjector (lift nrm) *ᵥ lift δ = lift (tangentialProjector nrm *ᵥ δ) := by
  unfold tangentialProjector normalProjector
  rw [liftM_outer, liftM_symmetrize, Matrix.sub_mulVec, Matrix.sub_mulVec, Matrix.one_mulVec, Matrix.one_mulVec,
    liftM_mulVec, lift_sub]

theorem effOpening_lift (c : Coh) (δ nrm : Vec 2) : effOpening c (lift δ) (lift nrm) = effOpening c δ nrm := by
  unfold effOpening
  rw [tangential_lift, norm2_lift, lift_dot]

theorem direction_lift (c : Coh) (δ nrm : Vec 2) : Itf.direction c (lift δ) (lift nrm) = lift (Itf.direction c δ nrm) := by
  have hr : rawDirection c (lift δ) (lift nrm) = lift (rawDirection c δ nrm) := by
    unfold rawDirection
    rw [tangential_lift, lift_dot, lift_add, lift_smul, lift_smul]
  unfold Itf.direction
  rw [effOpening_lift, hr]
  by_cases h : effOpening c δ nrm ≠ 0
  · rw [if_pos h, if_pos h, lift_smul]
  · rw [if_neg h, if_neg h]

/-- C106, opening grain boundaries: cohesive and contact tractions of an opening in the plane are the two-dimensional
ones, also where they are not numbers. -/
theorem C106_cohesive (c : Coh) (k : Contact) (δ nrm : Vec 2) (mx old dt : ℝ) :
    effOpening c (lift δ) (lift nrm) = effOpening c δ nrm ∧
    c.traction (lift δ) (lift nrm) mx old dt = (c.traction δ nrm mx old dt).map lift ∧
    k.traction (lift δ) (lift nrm) = lift (k.traction δ nrm) := by
  refine ⟨effOpening_lift c δ nrm, ?_, ?_⟩
  · unfold Coh.traction
    rw [effOpening_lift, direction_lift]
    rcases hb : branch (effOpening c δ nrm) mx old dt with _ | _ | _
    · simp only [hb, Option.map_some, lift_smul]
    · simp only [hb]
      split_ifs
      · rfl
      · simp only [Option.map_some, lift_smul]
    · simp only [hb, Option.map_some, lift_smul]
  · unfold Contact.traction
    rw [lift_dot, lift_neg, lift_smul]

/-! ## Fields -/

theorem sum_locals {α : Type*} [AddCommMonoid α] (loc : Locals N N3 M K) (f : Fin N3 → α) :
    ∑ j, f j = (∑ i, ∑ m, f (loc.at i m)) + ∑ k, f (loc.out k) := by
  rw [← Equiv.sum_comp loc.symm f, Fintype.sum_sum_type, Fintype.sum_prod_type]
  rfl

theorem sum_scaled {α : Type*} [AddCommGroup α] [Module ℝ α] (c : Fin M → ℝ) (x : α) : ∑ m, c m • x = (∑ m, c m) • x :=
  (Finset.sum_smul).symm

variable {loc : Locals N N3 M K} {L : Layer M Z} {z : Fin Z} {s : Shape 2 n N} {s3 : Shape 3 n N3}
  {u : Fin N → ℝ} {u3 : Fin N3 → ℝ}

theorem strain_product (hL : L.Ok) (h : SpecProduct loc L z s s3) (hu : SpecState loc u u3) :
    s3.strain u3 = liftM (s.strain u) := by
  unfold Shape.strain
  rw [sum_locals loc, liftM_sum]
  simp only [hu.at_, hu.out, h.symGrad, zero_smul, Finset.sum_const_zero, add_zero]
  refine sum_congr rfl fun i _ => ?_
  rw [← Finset.smul_sum, sum_add_distrib, sum_scaled, sum_scaled, hL.value, hL.slope, one_smul, zero_smul, add_zero,
    liftM_smul]

theorem slip_product (hL : L.Ok) (h : SpecProduct loc L z s s3) (hu : SpecState loc u u3) :
    s3.slip u3 = s.slip u := by
  funext a
  unfold Shape.slip
  rw [sum_locals loc]
  simp only [hu.at_, hu.out, h.phi, zero_mul, Finset.sum_const_zero, add_zero]
  refine sum_congr rfl fun i _ => ?_
  rw [← Finset.mul_sum, ← Finset.sum_mul, hL.value, one_mul]

theorem slipGrad_product (hL : L.Ok) (h : SpecProduct loc L z s s3) (hu : SpecState loc u u3) (a : Fin n) :
    s3.slipGrad u3 a = lift (s.slipGrad u a) := by
  unfold Shape.slipGrad
  rw [sum_locals loc, lift_sum]
  simp only [hu.at_, hu.out, h.grad, zero_smul, Finset.sum_const_zero, add_zero]
  refine sum_congr rfl fun i _ => ?_
  rw [← Finset.smul_sum, sum_add_distrib, sum_scaled, sum_scaled, hL.value, ← Finset.sum_mul, hL.slope, one_smul, zero_mul,
    zero_smul, add_zero, lift_smul]

theorem elasticStrain_product {c : CellPrm 2 n} {c3 : CellPrm 3 n} (hc : SpecPlaneStrain c c3) (hL : L.Ok)
    (h : SpecProduct loc L z s s3) (hu : SpecState loc u u3) :
    c3.elasticStrainAt s3 u3 = liftM (c.elasticStrainAt s u) := by
  unfold CellPrm.elasticStrainAt
  rw [elasticStrain_finRange, elasticStrain_finRange, hc.macroStrain, strain_product hL h hu, slip_product hL h hu, hc.dn0]
  simp only [(hc.sys _).symSchmid]
  rw [liftM_add, liftM_sub, liftM_smul, liftM_sum]
  simp only [liftM_smul]

theorem ddot_comm3 {d : ℕ} (a b : Mat d) : ddot a b = ddot b a := by
  unfold ddot
  refine sum_congr rfl fun i _ => sum_congr rfl fun j _ => mul_comm _ _

/-- C106, residual at a quadrature point: a row of the body is the row of the plane times value and weight of the shape
function over the thickness. -/
theorem C106_term {c : CellPrm 2 n} {c3 : CellPrm 3 n} (hc : SpecPlaneStrain c c3) (hL : L.Ok) {kind : Kind n N}
    {kind3 : Kind n N3} (hk : SpecKinds loc kind kind3) {p : Point 2 n N} {p3 : Point 3 n N3}
    (hp : SpecPoint loc L z p p3) (hu : SpecState loc u u3) (i : Fin N) (m : Fin M) :
    c3.rhsTerm kind3 p3 u3 (loc.at i m) = (c.rhsTerm kind p u i).map (L.weight z * L.value m z * ·) := by
  have hs := hp.shape
  have he := elasticStrain_product hc hL hs hu
  have h3 : c3.stressAt p3.shape u3 = c.elastic.stress (liftR c.rot) (liftM (c.elasticStrainAt p.shape u)) := by
    unfold CellPrm.stressAt
    rw [he, hc.elastic, hc.rot]
  obtain ⟨hin, hout⟩ := C106_stress c.elastic c.rot (c.elasticStrainAt p.shape u)
  unfold CellPrm.rhsTerm
  rw [hk.at_]
  cases kind i with
  | none =>
    simp only [Option.map_some]
    congr 1
    have e1 : ddot (p3.shape.symGrad (loc.at i m)) (c3.stressAt p3.shape u3) =
        L.value m z * ddot (p.shape.symGrad i) (c.stressAt p.shape u) := by
      have h0 := hout 0; have h1 := hout 1
      simp only [Fin.castSucc_zero, Fin.castSucc_one] at h0 h1
      have e : ddot (symmetrize (outer (lift (p.shape.disp i)) axis))
          (c.elastic.stress (liftR c.rot) (liftM (c.elasticStrainAt p.shape u))) = 0 := by
        simp [ddot, symmetrize, outer, lift, axis, Fin.sum_univ_three, h0, h1]
      rw [hs.symGrad, h3]
      have l1 : ∀ (a b c : Mat 3) (x y : ℝ), ddot (x • a + y • b) c = x * ddot a c + y * ddot b c := by
        intro a b c x y
        unfold ddot
        simp only [Finset.mul_sum, ← sum_add_distrib]
        refine sum_congr rfl fun i _ => sum_congr rfl fun j _ => ?_
        simp only [Matrix.add_apply, Matrix.smul_apply, smul_eq_mul]
        ring
      rw [l1, e, mul_zero, add_zero, ddot_lift _ _ _ hin]
      rfl
    rw [e1, hs.disp, hp.supply, smul_dotProduct, lift_dot, hs.jxw, hc.dn3, hc.dn0, smul_eq_mul]
    ring
  | some a =>
    simp only
    have e1 : resolvedShear (c3.sys a) (c3.stressAt p3.shape u3) = resolvedShear (c.sys a) (c.stressAt p.shape u) := by
      unfold resolvedShear
      rw [(hc.sys a).symSchmid, ddot_comm3, h3, ddot_lift _ _ _ hin, ddot_comm3]
      rfl
    rw [slipGrad_product hL hs hu, hc.vec, C106_vectorial _ (hc.sys a), slip_product hL hs hu, Option.map_map, Option.map_map]
    congr 1
    funext x
    simp only [Function.comp]
    rw [e1, hs.grad, hs.phi, hs.jxw, hp.hist, hp.old, hc.law, hc.dt, hc.dn2, hc.dn3, add_dotProduct, smul_dotProduct,
      smul_dotProduct, lift_dot, axis_lift, smul_eq_mul, smul_eq_mul]
    ring

theorem term_out (c3 : CellPrm 3 n) {kind : Kind n N} {kind3 : Kind n N3} (hk : SpecKinds loc kind kind3)
    (p3 : Point 3 n N3) (u3 : Fin N3 → ℝ) (k : Fin K) : c3.rhsTerm kind3 p3 u3 (loc.out k) ≠ none := by
  unfold CellPrm.rhsTerm
  rw [hk.out]
  exact Option.some_ne_none _

/-! ## Faces and cells -/

theorem displacement_side {s : Side 2 n N} {s3 : Side 3 n N3} (hL : L.Ok) (h : SpecSide loc L z s s3)
    (hu : SpecState loc u u3) : s3.displacement u3 = lift (s.displacement u) := by
  unfold Side.displacement
  rw [sum_locals loc, lift_sum]
  simp only [hu.at_, hu.out, h.disp, zero_smul, Finset.sum_const_zero, add_zero]
  refine sum_congr rfl fun i _ => ?_
  rw [← Finset.smul_sum, sum_scaled, hL.value, one_smul, lift_smul]

theorem slip_side {s : Side 2 n N} {s3 : Side 3 n N3} (hL : L.Ok) (h : SpecSide loc L z s s3)
    (hu : SpecState loc u u3) : s3.slip u3 = s.slip u := by
  funext a
  unfold Side.slip
  rw [sum_locals loc]
  simp only [hu.at_, hu.out, h.phi, zero_mul, Finset.sum_const_zero, add_zero]
  refine sum_congr rfl fun i _ => ?_
  rw [← Finset.mul_sum, ← Finset.sum_mul, hL.value, one_mul]

theorem opening_side {cur nb : Side 2 n N} {cur3 nb3 : Side 3 n N3} {un : Fin N → ℝ} {un3 : Fin N3 → ℝ} (hL : L.Ok)
    (hc : SpecSide loc L z cur cur3) (hn : SpecSide loc L z nb nb3) (hu : SpecState loc u u3)
    (hun : SpecState loc un un3) : opening cur3 nb3 u3 un3 = lift (opening cur nb u un) := by
  unfold opening
  rw [displacement_side hL hc hu, displacement_side hL hn hun, lift_sub]

/-- C106, grain boundaries at a quadrature point. -/
theorem C106_face {num : Numbering} (hL : L.Ok) {kind : Kind n N} {kind3 : Kind n N3} (hk : SpecKinds loc kind kind3)
    {v : View 2 1 n N} {v3 : View 3 3 n N3} (hv : SpecView loc num L z v v3) {un : Fin N → ℝ} {un3 : Fin N3 → ℝ}
    (hu : SpecState loc u u3) (hun : SpecState loc un un3) (i : Fin N) (m : Fin M) :
    v3.prm.rhsTerm kind3 v3.own v3.other v3.nrm v3.jxw v3.hist v3.cur v3.nb u3 un3 (loc.at i m) =
      (v.prm.rhsTerm kind v.own v.other v.nrm v.jxw v.hist v.cur v.nb u un i).map (L.weight z * L.value m z * ·) := by
  have hp := hv.prm
  have hd : v3.prm.damage v.hist = v.prm.damage v.hist := by
    rw [hp]; rfl
  unfold FacePrm.rhsTerm
  rw [hk.at_, hv.hist, hd]
  cases kind i with
  | none =>
    simp only
    rw [opening_side hL hv.cur hv.nb hu hun, hv.nrm, hp]
    simp only
    rw [(C106_cohesive v.prm.coh v.prm.contact _ _ _ _ _).2.1]
    by_cases hdeco : v.prm.decohesion = true
    · rw [if_pos hdeco, if_pos hdeco, Option.map_map, Option.map_map]
      congr 1
      funext t
      simp only [Function.comp]
      rw [(C106_cohesive v.prm.coh v.prm.contact _ v.nrm 0 0 0).2.2, hv.cur.disp, smul_dotProduct, ← lift_smul, ← lift_add,
        lift_dot, hv.jxw, smul_eq_mul]
      ring
    · rw [if_neg hdeco, if_neg hdeco]
      simp
  | some a =>
    simp only
    rw [hv.nrm, slip_side hL hv.cur hu, slip_side hL hv.nb hun, hv.lat.2, C106_microtraction _ _ _ _ _ hv.own hv.other, hp,
      hv.lat.1]
    simp only
    by_cases hm : v.prm.microtraction = true
    · rw [if_pos hm, if_pos hm, Option.map_some, hv.cur.phi, hv.jxw]
      congr 1
      ring
    · rw [if_neg hm, if_neg hm]
      simp

/-- A row of a displacement in the third direction is a number where those of displacements in the plane are. -/
theorem face_out {num : Numbering} (hL : L.Ok) {kind : Kind n N} {kind3 : Kind n N3} (hk : SpecKinds loc kind kind3)
    {v : View 2 1 n N} {v3 : View 3 3 n N3} (hv : SpecView loc num L z v v3) {un : Fin N → ℝ} {un3 : Fin N3 → ℝ}
    (hu : SpecState loc u u3) (hun : SpecState loc un un3) (k : Fin K) (i : Fin N) (hi : kind i = none)
    (h : v.prm.rhsTerm kind v.own v.other v.nrm v.jxw v.hist v.cur v.nb u un i ≠ none) :
    v3.prm.rhsTerm kind3 v3.own v3.other v3.nrm v3.jxw v3.hist v3.cur v3.nb u3 un3 (loc.out k) ≠ none := by
  unfold FacePrm.rhsTerm at h ⊢
  rw [hi] at h
  rw [hk.out]
  simp only at h ⊢
  rw [opening_side hL hv.cur hv.nb hu hun, hv.nrm, hv.prm, hv.hist]
  simp only
  rw [(C106_cohesive v.prm.coh v.prm.contact _ _ _ _ _).2.1]
  by_cases hdeco : v.prm.decohesion = true
  · rw [if_pos hdeco] at h ⊢
    simpa using h
  · rw [if_neg hdeco]
    simp

theorem sumOpt_product {Q Q3 : ℕ} (e : Fin Q3 ≃ Fin Q × Fin Z) (hZ : 0 < Z) (f : Fin Q → Option ℝ) (f3 : Fin Q3 → Option ℝ)
    (w : Fin Z → ℝ) (h : ∀ q, f3 q = (f (e q).1).map (w (e q).2 * ·)) :
    sumOpt f3 = (sumOpt f).map ((∑ z, w z) * ·) := by
  by_cases hex : ∃ q, f q = none
  · obtain ⟨q, hq⟩ := hex
    rw [sumOpt_none f q hq, sumOpt_none f3 (e.symm (q, ⟨0, hZ⟩)) (by rw [h]; simp [hq])]
    rfl
  · push Not at hex
    choose g hg using fun q => Option.ne_none_iff_exists'.1 (hex q)
    rw [sumOpt_some f g hg, sumOpt_some f3 (fun q => w (e q).2 * g (e q).1) (fun q => by rw [h, hg]; rfl), Option.map_some]
    congr 1
    rw [Equiv.sum_comp e (fun x => w x.2 * g x.1), Fintype.sum_prod_type, Finset.mul_sum]
    refine sum_congr rfl fun q _ => ?_
    rw [Finset.sum_mul]

theorem sum_product {Q Q3 : ℕ} (e : Fin Q3 ≃ Fin Q × Fin Z) (f : Fin Q → ℝ) (f3 : Fin Q3 → ℝ)
    (w : Fin Z → ℝ) (h : ∀ q, f3 q = w (e q).2 * f (e q).1) : ∑ q, f3 q = (∑ z, w z) * ∑ q, f q := by
  simp only [h]
  rw [Equiv.sum_comp e (fun x => w x.2 * f x.1), Fintype.sum_prod_type, Finset.mul_sum]
  refine sum_congr rfl fun q _ => ?_
  rw [Finset.sum_mul]

theorem state_local {num : Numbering} {u u3 : ℕ → ℝ} (h : SpecPlaneState num u u3) {dofs : Fin N → ℕ} {dofs3 : Fin N3 → ℕ}
    (hd : SpecDofs loc num L dofs dofs3) : SpecState loc (u ∘ dofs) (u3 ∘ dofs3) :=
  ⟨fun i m => by simp only [Function.comp]; rw [hd.at_, h.at_], fun k => h.out _ fun i ℓ => hd.out k i ℓ⟩

/-- C106, whole cells: the rows of displacements in the plane and of slips are those of the plane cell times the
thickness that belongs to the level; if all rows of the plane cell are numbers, those of the body's cell are. -/
theorem C106_cell {num : Numbering} (hL : L.Ok) {g : GrainCell 2 1 n N} {g3 : GrainCell 3 3 n N3}
    (h : SpecColumn loc num L g g3) {u u3 : ℕ → ℝ} (hu : SpecPlaneState num u u3) :
    (∀ i m, localRhs g3.cell.prm g3.cell.kind g3.cell.pts g3.cell.dofs g3.views g3.loads u3 (loc.at i m) =
      (localRhs g.cell.prm g.cell.kind g.cell.pts g.cell.dofs g.views g.loads u i).map (L.thickness m * ·)) ∧
    ((∀ i, localRhs g.cell.prm g.cell.kind g.cell.pts g.cell.dofs g.views g.loads u i ≠ none) → ∀ k,
      localRhs g3.cell.prm g3.cell.kind g3.cell.pts g3.cell.dofs g3.views g3.loads u3 (loc.out k) ≠ none) := by
  have hloc := state_local hu h.dofs
  obtain ⟨e1, he1⟩ := h.pts
  obtain ⟨e2, he2⟩ := h.views
  obtain ⟨e3, he3⟩ := h.loads
  have hnb : ∀ f, SpecState loc (u ∘ (g.views (e2 f).1).nbDofs) (u3 ∘ (g3.views f).nbDofs) := fun f =>
    state_local hu (he2 f).nbDofs
  refine ⟨fun i m => ?_, fun hall k => ?_⟩
  · unfold localRhs CellPrm.rhs
    rw [sumOpt_product e1 hL.points (fun q => g.cell.prm.rhsTerm g.cell.kind (g.cell.pts q) (u ∘ g.cell.dofs) i) _
        (fun z => L.weight z * L.value m z) (fun q => C106_term h.prm hL h.kinds (he1 q) hloc i m),
      sumOpt_product e2 hL.points (fun f => (g.views f).prm.rhsTerm g.cell.kind (g.views f).own (g.views f).other
        (g.views f).nrm (g.views f).jxw (g.views f).hist (g.views f).cur (g.views f).nb (u ∘ g.cell.dofs)
        (u ∘ (g.views f).nbDofs) i) _ (fun z => L.weight z * L.value m z)
        (fun f => C106_face hL h.kinds (he2 f) hloc (hnb f) i m),
      sum_product e3 (fun b => neumannTerm (g.loads b).side (g.loads b).value (g.loads b).jxw i) _
        (fun z => L.weight z * L.value m z) (fun b => by
          unfold neumannTerm
          rw [(he3 b).side.disp, (he3 b).value, (he3 b).jxw, smul_dotProduct, lift_dot, smul_eq_mul]
          ring)]
    unfold Layer.thickness
    cases sumOpt fun q => g.cell.prm.rhsTerm g.cell.kind (g.cell.pts q) (u ∘ g.cell.dofs) i with
    | none => rfl
    | some x =>
      cases sumOpt fun f => (g.views f).prm.rhsTerm g.cell.kind (g.views f).own (g.views f).other
        (g.views f).nrm (g.views f).jxw (g.views f).hist (g.views f).cur (g.views f).nb (u ∘ g.cell.dofs)
        (u ∘ (g.views f).nbDofs) i with
      | none => rfl
      | some y =>
        simp only [Option.map_some, Option.bind_some]
        congr 1
        ring
  · obtain ⟨i, hi⟩ := h.kinds.disp
    have hv : ∀ f, (g.views f).prm.rhsTerm g.cell.kind (g.views f).own (g.views f).other
        (g.views f).nrm (g.views f).jxw (g.views f).hist (g.views f).cur (g.views f).nb (u ∘ g.cell.dofs)
        (u ∘ (g.views f).nbDofs) i ≠ none := by
      intro f hf
      refine hall i ?_
      unfold localRhs
      rw [sumOpt_none _ f hf]
      cases g.cell.prm.rhs g.cell.kind g.cell.pts (u ∘ g.cell.dofs) i <;> rfl
    choose x hx using fun q => Option.ne_none_iff_exists'.1
      (term_out (loc := loc) g3.cell.prm h.kinds (g3.cell.pts q) (u3 ∘ g3.cell.dofs) k)
    choose y hy using fun f => Option.ne_none_iff_exists'.1
      (face_out hL h.kinds (he2 f) hloc (hnb f) k i hi (hv (e2 f).1))
    unfold localRhs CellPrm.rhs
    rw [sumOpt_some _ x hx, sumOpt_some _ y hy]
    exact Option.some_ne_none _

/-! ## Bodies -/

theorem held_weight {num : Numbering} (hnum : ∀ i ℓ j ℓ', num i ℓ = num j ℓ' → i = j ∧ ℓ = ℓ') {C C3 : Sol.Constraints ℕ}
    (h : SpecPlaneHeld num C C3) (g ℓ r ℓ' : ℕ) :
    weight C3 (num g ℓ) (num r ℓ') = if ℓ = ℓ' then weight C g r else 0 := by
  have hn : ∀ i ℓ j ℓ', num i ℓ = num j ℓ' ↔ i = j ∧ ℓ = ℓ' := fun i ℓ j ℓ' =>
    ⟨hnum i ℓ j ℓ', fun h => by rw [h.1, h.2]⟩
  unfold weight
  rw [h.at_]
  cases C g with
  | none =>
    simp only [Option.map_none, hn]
    by_cases h1 : ℓ = ℓ'
    · simp [h1]
    · simp [h1]
  | some l =>
    simp only [Option.map_some, List.map_map, Function.comp_def, hn]
    by_cases h1 : ℓ = ℓ'
    · simp [h1]
    · simp [h1]

theorem held_weight_other {num : Numbering} {C C3 : Sol.Constraints ℕ} (h : SpecPlaneHeld num C C3) (g ℓ r : ℕ)
    (hr : ∀ i ℓ, r ≠ num i ℓ) : weight C3 (num g ℓ) r = 0 := by
  unfold weight
  rw [h.at_]
  cases C g with
  | none => simp only [Option.map_none]; rw [if_neg fun e => hr g ℓ e.symm]
  | some l =>
    simp only [Option.map_some, List.map_map, Function.comp_def]
    refine List.sum_eq_zero fun x hx => ?_
    obtain ⟨y, _, rfl⟩ := List.mem_map.1 hx
    rw [if_neg fun e => hr _ ℓ e.symm]

theorem held_weight_out {num : Numbering} {C C3 : Sol.Constraints ℕ} (h : SpecPlaneHeld num C C3) (g r : ℕ)
    (hg : ∀ i ℓ, g ≠ num i ℓ) : weight C3 g r = 0 := by
  unfold weight
  rw [h.out g hg]
  rfl

/-- What is a solution, in terms of the local right-hand sides. -/
theorem solution_canon {d e n N : ℕ} (cells : List (GrainCell d e n N)) (C : Sol.Constraints ℕ) (m : ℕ) (u : ℕ → ℝ) :
    SpecGrainSolution cells C m u ↔
      (∀ g ∈ cells, ∀ i, localRhs g.cell.prm g.cell.kind g.cell.pts g.cell.dofs g.views g.loads u i ≠ none) ∧
      ∀ r < m, (cells.map fun g => ∑ i, weight C (g.cell.dofs i) r *
        (localRhs g.cell.prm g.cell.kind g.cell.pts g.cell.dofs g.views g.loads u i).getD 0).sum = 0 := by
  constructor
  · rintro ⟨R, hR, h0⟩
    refine ⟨fun g hg i => by rw [hR g hg i]; exact Option.some_ne_none _, fun r hr => ?_⟩
    refine Eq.trans ?_ (h0 r hr)
    unfold Lin.residual
    rw [List.map_map]
    congr 1
    refine List.map_congr_left fun g hg => sum_congr rfl fun i _ => ?_
    rw [hR g hg i]
    rfl
  · rintro ⟨h1, h2⟩
    refine ⟨fun g i => (localRhs g.cell.prm g.cell.kind g.cell.pts g.cell.dofs g.views g.loads u i).getD 0,
      fun g hg i => ?_, fun r hr => ?_⟩
    · obtain ⟨x, hx⟩ := Option.ne_none_iff_exists'.1 (h1 g hg i)
      simp only [hx]
      rfl
    · refine Eq.trans ?_ (h2 r hr)
      unfold Lin.residual
      rw [List.map_map]
      rfl

theorem column_residual {num : Numbering} (hnum : ∀ i ℓ j ℓ', num i ℓ = num j ℓ' → i = j ∧ ℓ = ℓ')
    {C C3 : Sol.Constraints ℕ} (hC : SpecPlaneHeld num C C3) (hL : L.Ok) {g : GrainCell 2 1 n N} {g3 : GrainCell 3 3 n N3}
    (h : SpecColumn loc num L g g3) {u u3 : ℕ → ℝ} (hu : SpecPlaneState num u u3) :
    (∀ r ℓ, ∑ i, weight C3 (g3.cell.dofs i) (num r ℓ) *
        (localRhs g3.cell.prm g3.cell.kind g3.cell.pts g3.cell.dofs g3.views g3.loads u3 i).getD 0 =
      (∑ m, if L.level m = ℓ then L.thickness m else 0) * ∑ i, weight C (g.cell.dofs i) r *
        (localRhs g.cell.prm g.cell.kind g.cell.pts g.cell.dofs g.views g.loads u i).getD 0) ∧
    (∀ r, (∀ i ℓ, r ≠ num i ℓ) → ∑ i, weight C3 (g3.cell.dofs i) r *
        (localRhs g3.cell.prm g3.cell.kind g3.cell.pts g3.cell.dofs g3.views g3.loads u3 i).getD 0 = 0) := by
  have hcell := (C106_cell hL h hu).1
  refine ⟨fun r ℓ => ?_, fun r hr => ?_⟩
  · rw [sum_locals loc]
    simp only [h.dofs.at_, held_weight_out hC _ _ (h.dofs.out _), zero_mul, Finset.sum_const_zero, add_zero,
      held_weight hnum hC, hcell]
    rw [Finset.mul_sum]
    refine sum_congr rfl fun i _ => ?_
    rw [Finset.sum_mul]
    refine sum_congr rfl fun m _ => ?_
    cases localRhs g.cell.prm g.cell.kind g.cell.pts g.cell.dofs g.views g.loads u i with
    | none => simp
    | some x =>
      simp only [Option.map_some, Option.getD_some]
      split_ifs
      · ring
      · ring
  · rw [sum_locals loc]
    simp only [h.dofs.at_, held_weight_out hC _ _ (h.dofs.out _), zero_mul, Finset.sum_const_zero, add_zero,
      held_weight_other hC _ _ _ hr]

/-- C106, residual: the assembled residual of the body is that of the plane times the thickness that belongs to the
level, and zero for displacements in the third direction. -/
theorem C106_residual {num : Numbering} (hnum : ∀ i ℓ j ℓ', num i ℓ = num j ℓ' → i = j ∧ ℓ = ℓ')
    {C C3 : Sol.Constraints ℕ} (hC : SpecPlaneHeld num C C3) {layers : List (Layer M Z)} (hL : ∀ L ∈ layers, L.Ok)
    {cells : List (GrainCell 2 1 n N)} {cells3 : List (GrainCell 3 3 n N3)} (h : SpecStack loc num layers cells cells3)
    {u u3 : ℕ → ℝ} (hu : SpecPlaneState num u u3) :
    (∀ r ℓ, (cells3.map fun g => ∑ i, weight C3 (g.cell.dofs i) (num r ℓ) *
        (localRhs g.cell.prm g.cell.kind g.cell.pts g.cell.dofs g.views g.loads u3 i).getD 0).sum =
      SpecThickness layers ℓ * (cells.map fun g => ∑ i, weight C (g.cell.dofs i) r *
        (localRhs g.cell.prm g.cell.kind g.cell.pts g.cell.dofs g.views g.loads u i).getD 0).sum) ∧
    (∀ r, (∀ i ℓ, r ≠ num i ℓ) → (cells3.map fun g => ∑ i, weight C3 (g.cell.dofs i) r *
        (localRhs g.cell.prm g.cell.kind g.cell.pts g.cell.dofs g.views g.loads u3 i).getD 0).sum = 0) := by
  obtain ⟨columns, hcol, hperm⟩ := h
  refine ⟨fun r ℓ => ?_, fun r hr => ?_⟩
  · rw [(hperm.map _).sum_eq]
    clear hperm
    unfold SpecThickness
    induction hcol with
    | nil => simp
    | @cons L col layers columns h1 h2 ih =>
      rw [List.flatten_cons, List.map_append, List.sum_append, ih fun L h => hL L (List.mem_cons_of_mem _ h),
        List.map_cons, List.sum_cons, add_mul]
      congr 1
      have hL1 := hL L List.mem_cons_self
      clear ih h2
      induction h1 with
      | nil => simp
      | cons hg _ ih =>
        rw [List.map_cons, List.sum_cons, List.map_cons, List.sum_cons, ih,
          (column_residual hnum hC hL1 hg hu).1 r ℓ, mul_add]
  · rw [(hperm.map _).sum_eq]
    clear hperm
    induction hcol with
    | nil => simp
    | @cons L col layers columns h1 h2 ih =>
      rw [List.flatten_cons, List.map_append, List.sum_append, ih fun L h => hL L (List.mem_cons_of_mem _ h), add_zero]
      have hL1 := hL L List.mem_cons_self
      clear ih h2
      induction h1 with
      | nil => simp
      | cons hg _ ih =>
        rw [List.map_cons, List.sum_cons, ih, (column_residual hnum hC hL1 hg hu).2 r hr, add_zero]

/-- C106, one time step: a state of the plane solves the two-dimensional problem if and only if the same state at all
heights, without displacement in the third direction, solves the three-dimensional one, provided that the body has a
level with thickness. -/
theorem C106_solution {num : Numbering} (hnum : ∀ i ℓ j ℓ', num i ℓ = num j ℓ' → i = j ∧ ℓ = ℓ')
    {C C3 : Sol.Constraints ℕ} (hC : SpecPlaneHeld num C C3) {layers : List (Layer M Z)} (hL : ∀ L ∈ layers, L.Ok)
    {cells : List (GrainCell 2 1 n N)} {cells3 : List (GrainCell 3 3 n N3)} (h : SpecStack loc num layers cells cells3)
    {u u3 : ℕ → ℝ} (hu : SpecPlaneState num u u3) {m m3 : ℕ} (hm : ∀ r ℓ, num r ℓ < m3 → r < m)
    (hlev : ∃ ℓ, SpecThickness layers ℓ ≠ 0 ∧ ∀ r < m, num r ℓ < m3) (hM : 0 < M) :
    SpecGrainSolution cells3 C3 m3 u3 ↔ SpecGrainSolution cells C m u := by
  rw [solution_canon, solution_canon]
  obtain ⟨hr1, hr2⟩ := C106_residual hnum hC hL h hu
  have hres : (∀ r < m3, (cells3.map fun g => ∑ i, weight C3 (g.cell.dofs i) r *
        (localRhs g.cell.prm g.cell.kind g.cell.pts g.cell.dofs g.views g.loads u3 i).getD 0).sum = 0) ↔
      ∀ r < m, (cells.map fun g => ∑ i, weight C (g.cell.dofs i) r *
        (localRhs g.cell.prm g.cell.kind g.cell.pts g.cell.dofs g.views g.loads u i).getD 0).sum = 0 := by
    obtain ⟨ℓ, hℓ, hn⟩ := hlev
    constructor
    · intro h0 r hr
      have := h0 (num r ℓ) (hn r hr)
      rw [hr1] at this
      exact (mul_eq_zero.1 this).resolve_left hℓ
    · intro h0 r hr
      by_cases hex : ∃ i ℓ, r = num i ℓ
      · obtain ⟨i, ℓ, rfl⟩ := hex
        rw [hr1, h0 i (hm i ℓ hr), mul_zero]
      · push Not at hex
        exact hr2 r hex
  refine and_congr ?_ hres
  clear hres hr1 hr2
  obtain ⟨columns, hcol, hperm⟩ := h
  have hne : layers ≠ [] := by
    obtain ⟨ℓ, hℓ, _⟩ := hlev
    rintro rfl
    exact hℓ rfl
  have hmem : ∀ g3 : GrainCell 3 3 n N3, g3 ∈ cells3 ↔ ∃ col ∈ columns, g3 ∈ col := fun g3 => by
    rw [hperm.mem_iff, List.mem_flatten]
  constructor
  · intro h0 g hg i
    cases hcol with
    | nil => exact absurd rfl hne
    | @cons L col _ _ h1 h2 =>
      obtain ⟨g3, hg3, hcg⟩ : ∃ g3 ∈ col, SpecColumn loc num L g g3 := by
        clear hmem hperm h2 hne hL hlev
        induction h1 with
        | nil => cases hg
        | cons hh _ ih =>
          rcases List.mem_cons.1 hg with rfl | hg
          · exact ⟨_, List.mem_cons_self, hh⟩
          · obtain ⟨g3, h3, h4⟩ := ih hg
            exact ⟨g3, List.mem_cons_of_mem _ h3, h4⟩
      have := h0 g3 ((hmem g3).2 ⟨col, List.mem_cons_self, hg3⟩) (loc.at i ⟨0, hM⟩)
      rw [(C106_cell (hL L List.mem_cons_self) hcg hu).1] at this
      intro hnone
      rw [hnone] at this
      exact this rfl
  · intro h0 g3 hg3 i3
    obtain ⟨col, hcolm, hgc⟩ := (hmem g3).1 hg3
    obtain ⟨L, hLm, hcc⟩ : ∃ L ∈ layers, List.Forall₂ (SpecColumn loc num L) cells col := by
      clear hmem hperm hne hL hlev
      induction hcol with
      | nil => cases hcolm
      | cons hh _ ih =>
        rcases List.mem_cons.1 hcolm with rfl | hc
        · exact ⟨_, List.mem_cons_self, hh⟩
        · obtain ⟨L, h3, h4⟩ := ih hc
          exact ⟨L, List.mem_cons_of_mem _ h3, h4⟩
    obtain ⟨g, hg, hcg⟩ : ∃ g ∈ cells, SpecColumn loc num L g g3 := by
      clear hmem hperm hne hL hlev h0 hcol hcolm hg3
      induction hcc with
      | nil => cases hgc
      | cons hh _ ih =>
        rcases List.mem_cons.1 hgc with rfl | hc
        · exact ⟨_, List.mem_cons_self, hh⟩
        · obtain ⟨L, h3, h4⟩ := ih hc
          exact ⟨L, List.mem_cons_of_mem _ h3, h4⟩
    obtain ⟨x, rfl⟩ := loc.symm.surjective i3
    rcases x with ⟨i, m⟩ | k
    · have := (C106_cell (hL L hLm) hcg hu).1 i m
      change localRhs _ _ _ _ _ _ _ (loc.at i m) ≠ none
      rw [this]
      simpa using h0 g hg i
    · exact (C106_cell (hL L hLm) hcg hu).2 (h0 g hg) k

/-- C106: the constraints of the body are satisfied if and only if those of the plane are. -/
theorem C106_satisfies {num : Numbering} {C C3 : Sol.Constraints ℕ} (hC : SpecPlaneHeld num C C3) {u u3 : ℕ → ℝ}
    (hu : SpecPlaneState num u u3) : Sol.Satisfies C3 u3 ↔ Sol.Satisfies C u := by
  have key : ∀ (l : Sol.Line ℕ) (ℓ : ℕ), Sol.Line.eval (⟨l.entries.map fun x => (num x.1 ℓ, x.2), l.inhom⟩ : Sol.Line ℕ) u3 =
      l.eval u := by
    intro l ℓ
    unfold Sol.Line.eval
    simp only [List.map_map, Function.comp_def, hu.at_]
  constructor
  · intro h i l hl
    have := h (num i 0) _ (by rw [hC.at_, hl]; rfl)
    rw [hu.at_, key] at this
    exact this
  · intro h r l hl
    by_cases hex : ∃ i ℓ, r = num i ℓ
    · obtain ⟨i, ℓ, rfl⟩ := hex
      rw [hC.at_] at hl
      obtain ⟨l', hl', rfl⟩ := Option.map_eq_some_iff.1 hl
      rw [hu.at_, key]
      exact h i l' hl'
    · push Not at hex
      rw [hC.out r hex] at hl
      cases hl
      rw [hu.out r hex]
      simp [Sol.Line.eval]

/-! ## Runs -/

/-- The cell of a layer of the body above a cell of the plane, throughout a run. -/
structure SpecRunColumn (loc : Locals N N3 M K) (num : Numbering) (L : Layer M Z) (r : RunCell 2 n N)
    (r3 : RunCell 3 n N3) : Prop where
  prm : SpecPlaneStrain r.cell.prm r3.cell.prm
  kinds : SpecKinds loc r.cell.kind r3.cell.kind
  dofs : SpecDofs loc num L r.cell.dofs r3.cell.dofs
  pts : ∃ e : Fin r3.cell.Q ≃ Fin r.cell.Q × Fin Z,
    ∀ q, SpecProduct loc L (e q).2 (r.cell.pts (e q).1).shape (r3.cell.pts q).shape ∧
      (r3.cell.pts q).hist = (r.cell.pts (e q).1).hist ∧ ∀ k, r3.supply k q = lift (r.supply k (e q).1)

/-- The same with bonded grain boundaries and loads. -/
structure SpecGrainColumn (loc : Locals N N3 M K) (num : Numbering) (L : Layer M Z) (r : RunGrain 2 1 n N)
    (r3 : RunGrain 3 3 n N3) : Prop where
  run : SpecRunColumn loc num L r.run r3.run
  views : ∃ e : Fin r3.F ≃ Fin r.F × Fin Z, ∀ f, SpecView loc num L (e f).2 (r.views (e f).1) (r3.views f)
  loads : ∃ e : Fin r3.B ≃ Fin r.B × Fin Z, ∀ k b, SpecLoad loc L (e b).2 (r.loads k (e b).1) (r3.loads k b)

/-- The body in layers, throughout a run. -/
def SpecRunStack (loc : Locals N N3 M K) (num : Numbering) (layers : List (Layer M Z)) (run : List (RunGrain 2 1 n N))
    (run3 : List (RunGrain 3 3 n N3)) : Prop :=
  ∃ columns, List.Forall₂ (fun L col => List.Forall₂ (SpecGrainColumn loc num L) run col) layers columns ∧
    run3.Perm columns.flatten

/-- C106, histories: the resistances at all heights are those of the plane, in every run. -/
theorem C106_history (hL : L.Ok) {num : Numbering} {r : RunCell 2 n N} {r3 : RunCell 3 n N3}
    (e : Fin r3.cell.Q ≃ Fin r.cell.Q × Fin Z)
    (he : ∀ q, SpecProduct loc L (e q).2 (r.cell.pts (e q).1).shape (r3.cell.pts q).shape ∧
      (r3.cell.pts q).hist = (r.cell.pts (e q).1).hist)
    (hd : SpecDofs loc num L r.cell.dofs r3.cell.dofs) {u u3 : ℕ → ℕ → ℝ} (hu : ∀ k, SpecPlaneState num (u k) (u3 k))
    (q : Fin r3.cell.Q) (k : ℕ) : r3.histAt u3 q k = r.histAt u (e q).1 k := by
  induction k with
  | zero => exact (he q).2
  | succ k ih =>
    unfold RunCell.histAt
    rw [ih, slip_product hL (he q).1 (state_local (hu (k + 1)) hd), slip_product hL (he q).1 (state_local (hu k) hd)]

theorem cell_at (hL : L.Ok) {num : Numbering} {r : RunCell 2 n N} {r3 : RunCell 3 n N3}
    (h : SpecRunColumn loc num L r r3) {u u3 : ℕ → ℕ → ℝ} (hu : ∀ k, SpecPlaneState num (u k) (u3 k)) (dt : ℕ → ℝ) (k : ℕ) :
    ∃ e : Fin (r3.at dt u3 k).Q ≃ Fin (r.at dt u k).Q × Fin Z,
      ∀ q, SpecPoint loc L (e q).2 ((r.at dt u k).pts (e q).1) ((r3.at dt u3 k).pts q) := by
  obtain ⟨e, he⟩ := h.pts
  refine ⟨e, fun q => ⟨(he q).1, (he q).2.2 k, ?_, ?_⟩⟩
  · exact C106_history hL e (fun q => ⟨(he q).1, (he q).2.1⟩) h.dofs hu q k
  · exact slip_product hL (he q).1 (state_local (hu k) h.dofs)

theorem strain_at {num : Numbering} {r : RunCell 2 n N} {r3 : RunCell 3 n N3}
    (h : SpecRunColumn loc num L r r3) (u u3 : ℕ → ℕ → ℝ) (dt : ℕ → ℝ) (k : ℕ) :
    SpecPlaneStrain (r.at dt u k).prm (r3.at dt u3 k).prm :=
  { h.prm with dt := rfl }

theorem stack_of {α β : Type*} {P : Layer M Z → α → β → Prop} {Q : Layer M Z → GrainCell 2 1 n N → GrainCell 3 3 n N3 → Prop}
    (f : α → GrainCell 2 1 n N) (f3 : β → GrainCell 3 3 n N3) {layers : List (Layer M Z)}
    (hPQ : ∀ L ∈ layers, ∀ a b, P L a b → Q L (f a) (f3 b)) {run : List α} {run3 : List β}
    (h : ∃ columns, List.Forall₂ (fun L col => List.Forall₂ (P L) run col) layers columns ∧ run3.Perm columns.flatten) :
    ∃ columns, List.Forall₂ (fun L col => List.Forall₂ (Q L) (run.map f) col) layers columns ∧
      (run3.map f3).Perm columns.flatten := by
  obtain ⟨columns, h1, h2⟩ := h
  refine ⟨columns.map (List.map f3), ?_, ?_⟩
  · rw [List.forall₂_map_right_iff]
    clear h2
    induction h1 with
    | nil => exact .nil
    | cons hh _ ih =>
      refine .cons ?_ (ih fun L hL => hPQ L (List.mem_cons_of_mem _ hL))
      rw [List.forall₂_map_left_iff, List.forall₂_map_right_iff]
      exact hh.imp fun a b => hPQ _ List.mem_cons_self a b
  · rw [← List.map_flatten]
    exact h2.map f3

/-- C106, whole runs with bonded grain boundaries: states of the plane solve all time steps of the two-dimensional
problem if and only if they solve those of the three-dimensional one. -/
theorem C106_run {num : Numbering} (hnum : ∀ i ℓ j ℓ', num i ℓ = num j ℓ' → i = j ∧ ℓ = ℓ')
    {C C3 : ℕ → Sol.Constraints ℕ} (hC : ∀ k, SpecPlaneHeld num (C k) (C3 k)) {layers : List (Layer M Z)}
    (hL : ∀ L ∈ layers, L.Ok) {run : List (RunGrain 2 1 n N)} {run3 : List (RunGrain 3 3 n N3)}
    (h : SpecRunStack loc num layers run run3) {m m3 : ℕ} (hm : ∀ r ℓ, num r ℓ < m3 → r < m)
    (hlev : ∃ ℓ, SpecThickness layers ℓ ≠ 0 ∧ ∀ r < m, num r ℓ < m3) (hM : 0 < M)
    {u u3 : ℕ → ℕ → ℝ} (hu : ∀ k, SpecPlaneState num (u k) (u3 k)) (dt : ℕ → ℝ) (T : ℕ) :
    (∀ k < T, SpecGrainSolution (SpecGrains run3 dt u3 k) (C3 k) m3 (u3 (k + 1)) ∧ Sol.Satisfies (C3 k) (u3 (k + 1))) ↔
    ∀ k < T, SpecGrainSolution (SpecGrains run dt u k) (C k) m (u (k + 1)) ∧ Sol.Satisfies (C k) (u (k + 1)) := by
  refine forall_congr' fun k => imp_congr_right fun _ => and_congr ?_ (C106_satisfies (hC k) (hu (k + 1)))
  refine C106_solution hnum (hC k) hL (stack_of (Q := SpecColumn loc num) _ _ (fun L hLm r r3 hr => ?_) h) (hu (k + 1)) hm hlev hM
  obtain ⟨e, he⟩ := hr.loads
  exact ⟨strain_at hr.run u u3 dt k, hr.run.kinds, hr.run.dofs, cell_at (hL L hLm) hr.run hu dt k, hr.views,
    ⟨e, fun b => he k b⟩⟩

/-- The same for a cell whose grain boundaries may open: faces above faces, seen from the same side. -/
structure SpecOpenColumn {J J3 : ℕ} (loc : Locals N N3 M K) (num : Numbering) (face : Fin J → Face 2 1 n N)
    (face3 : Fin J3 → Face 3 3 n N3) (over : Fin J3 → Fin J) (L : Layer M Z) (r : OpenGrain 2 n N J)
    (r3 : OpenGrain 3 n N3 J3) : Prop where
  run : SpecRunColumn loc num L r.run r3.run
  sees : ∃ e : Fin r3.F ≃ Fin r.F × Fin Z, ∀ f, (r3.sees f).2 = (r.sees (e f).1).2 ∧
    over (r3.sees f).1 = (r.sees (e f).1).1 ∧
    SpecView loc num L (e f).2 (face (r.sees (e f).1).1).2 (face3 (r3.sees f).1).2 ∧
    SpecDofs loc num L (face (r.sees (e f).1).1).1 (face3 (r3.sees f).1).1
  loads : ∃ e : Fin r3.B ≃ Fin r.B × Fin Z, ∀ k b, SpecLoad loc L (e b).2 (r.loads k (e b).1) (r3.loads k b)

/-- The body in layers with grain boundaries that may open: face `j` of the body is above face `over j` of the plane. -/
structure SpecOpenStack {J J3 : ℕ} (loc : Locals N N3 M K) (num : Numbering) (layers : List (Layer M Z))
    (face : Fin J → Face 2 1 n N) (face3 : Fin J3 → Face 3 3 n N3) (over : Fin J3 → Fin J)
    (run : List (OpenGrain 2 n N J)) (run3 : List (OpenGrain 3 n N3 J3)) : Prop where
  cells : ∃ columns, List.Forall₂ (fun L col => List.Forall₂ (SpecOpenColumn loc num face face3 over L) run col)
    layers columns ∧ run3.Perm columns.flatten
  faces : ∀ j, ∃ L ∈ layers, ∃ z, SpecView loc num L z (face (over j)).2 (face3 j).2 ∧
    SpecDofs loc num L (face (over j)).1 (face3 j).1

/-- C106, damage: the records of the faces of the body are those of the faces of the plane, in every run. -/
theorem C106_record {J J3 : ℕ} {num : Numbering} {layers : List (Layer M Z)} (hL : ∀ L ∈ layers, L.Ok)
    {face : Fin J → Face 2 1 n N} {face3 : Fin J3 → Face 3 3 n N3} {over : Fin J3 → Fin J}
    (hf : ∀ j, ∃ L ∈ layers, ∃ z, SpecView loc num L z (face (over j)).2 (face3 j).2 ∧
      SpecDofs loc num L (face (over j)).1 (face3 j).1)
    (dmg : DamagePrm) {hap : Happens J} {hap3 : Happens J3}
    (hh : ∀ k j, hap3.trials k j = hap.trials k (over j) ∧ hap3.measured k j = hap.measured k (over j))
    {u u3 : ℕ → ℕ → ℝ} (hu : ∀ k, SpecPlaneState num (u k) (u3 k)) (j : Fin J3) (k : ℕ) :
    SpecOpening (face3 j) (u3 k) = SpecOpening (face (over j)) (u k) ∧
    SpecRecord face3 dmg hap3 u3 j k = SpecRecord face dmg hap u (over j) k := by
  have ho : ∀ k, SpecOpening (face3 j) (u3 k) = SpecOpening (face (over j)) (u k) := by
    intro k
    obtain ⟨L, hLm, z, hv, hd⟩ := hf j
    unfold SpecOpening
    rw [opening_side (hL L hLm) hv.cur hv.nb (state_local (hu k) hd) (state_local (hu k) hv.nbDofs), hv.nrm, effOpening_lift,
      hv.prm]
  refine ⟨ho k, ?_⟩
  induction k with
  | zero => rfl
  | succ k ih =>
    unfold SpecRecord
    rw [ih, ho, (hh k j).1, (hh k j).2]

theorem view_flip {num : Numbering} {f : Face 2 1 n N} {f3 : Face 3 3 n N3} (hv : SpecView loc num L z f.2 f3.2)
    (hd : SpecDofs loc num L f.1 f3.1) (b : Bool) : SpecView loc num L z (SpecLook f b).2 (SpecLook f3 b).2 := by
  cases b with
  | false => exact hv
  | true =>
    exact ⟨hv.other, hv.own, by change -f3.2.nrm = _; rw [hv.nrm]; exact (lift_neg _).symm, hv.jxw, hv.hist, hv.nb, hv.cur,
      hd, hv.lat, hv.prm⟩

/-- C106, whole runs in which grain boundaries open, with damage and contact. -/
theorem C106_run_opening {J J3 : ℕ} {num : Numbering} (hnum : ∀ i ℓ j ℓ', num i ℓ = num j ℓ' → i = j ∧ ℓ = ℓ')
    {C C3 : ℕ → Sol.Constraints ℕ} (hC : ∀ k, SpecPlaneHeld num (C k) (C3 k)) {layers : List (Layer M Z)}
    (hL : ∀ L ∈ layers, L.Ok) {face : Fin J → Face 2 1 n N} {face3 : Fin J3 → Face 3 3 n N3} {over : Fin J3 → Fin J}
    {run : List (OpenGrain 2 n N J)} {run3 : List (OpenGrain 3 n N3 J3)}
    (h : SpecOpenStack loc num layers face face3 over run run3) (dmg : DamagePrm) {hap : Happens J} {hap3 : Happens J3}
    (hh : ∀ k j, hap3.trials k j = hap.trials k (over j) ∧ hap3.measured k j = hap.measured k (over j))
    {m m3 : ℕ} (hm : ∀ r ℓ, num r ℓ < m3 → r < m)
    (hlev : ∃ ℓ, SpecThickness layers ℓ ≠ 0 ∧ ∀ r < m, num r ℓ < m3) (hM : 0 < M)
    {u u3 : ℕ → ℕ → ℝ} (hu : ∀ k, SpecPlaneState num (u k) (u3 k)) (dt : ℕ → ℝ) (T : ℕ) :
    (∀ k < T, SpecGrainSolution (SpecOpenGrains run3 face3 dmg hap3 dt u3 k) (C3 k) m3 (u3 (k + 1)) ∧
      Sol.Satisfies (C3 k) (u3 (k + 1))) ↔
    ∀ k < T, SpecGrainSolution (SpecOpenGrains run face dmg hap dt u k) (C k) m (u (k + 1)) ∧
      Sol.Satisfies (C k) (u (k + 1)) := by
  refine forall_congr' fun k => imp_congr_right fun _ => and_congr ?_ (C106_satisfies (hC k) (hu (k + 1)))
  refine C106_solution hnum (hC k) hL (stack_of (Q := SpecColumn loc num) _ _ (fun L hLm r r3 hr => ?_) h.cells) (hu (k + 1))
    hm hlev hM
  obtain ⟨e, he⟩ := hr.loads
  obtain ⟨e2, he2⟩ := hr.sees
  refine ⟨strain_at hr.run u u3 dt k, hr.run.kinds, hr.run.dofs, cell_at (hL L hLm) hr.run hu dt k, ⟨e2, fun f => ?_⟩,
    ⟨e, fun b => he k b⟩⟩
  obtain ⟨h1, h2, hv, hd⟩ := he2 f
  show SpecView loc num L (e2 f).2 (SpecLook (SpecFaceAt face dmg hap dt u k (r.sees (e2 f).1).1) (r.sees (e2 f).1).2).2
    (SpecLook (SpecFaceAt face3 dmg hap3 dt u3 k (r3.sees f).1) (r3.sees f).2).2
  rw [h1]
  refine view_flip (f := SpecFaceAt face dmg hap dt u k (r.sees (e2 f).1).1)
    (f3 := SpecFaceAt face3 dmg hap3 dt u3 k (r3.sees f).1) ?_ hd _
  have hrec := fun k => C106_record hL h.faces dmg hh hu (r3.sees f).1 k
  rw [h2] at hrec
  refine ⟨hv.own, hv.other, hv.nrm, hv.jxw, ?_, hv.cur, hv.nb, hv.nbDofs, hv.lat, ?_⟩
  · show ((hap3.trials k (r3.sees f).1).foldl (Iface.op dmg) (SpecRecord face3 dmg hap3 u3 (r3.sees f).1 k).store).updateOrtiz
      dmg (SpecOpening (face3 (r3.sees f).1) (u3 (k + 1))) = _
    rw [(hrec k).2, (hrec (k + 1)).1, (hh k _).1, h2]
    rfl
  · have := hv.prm
    show FacePrm.mk _ _ _ _ _ _ _ _ _ _ _ _ _ = FacePrm.mk _ _ _ _ _ _ _ _ _ _ _ _ _
    rw [this]
    rfl

end Verif.Asm
