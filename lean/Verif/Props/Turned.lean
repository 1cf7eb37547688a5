import Verif.Props.Naming

/-!
# Turning the specimen (C101)

A specimen is turned (or mirrored) as a whole: mesh, crystals, loads and prescribed values.  The
degrees of freedom keep their numbers; displacements are components along axes that are not turned.
-/

namespace Verif.Asm
open Matrix Finset Verif.Cry Verif.Hist Verif.Micro Verif.Lin Verif.Itf

variable {d e n N : ℕ}

/-! ## Specification -/

/-- What the degrees of freedom are: the displacement component or the slip they belong to, and, for a
displacement, the degrees of freedom of all components at the same support point. -/
structure Nodes (d n : ℕ) (I : Type) where
  comp : I → Fin d ⊕ Fin n
  sib : I → Fin d → I

/-- The degrees of freedom of a support point are one for each component. -/
structure Nodes.Ok {I : Type} (o : Nodes d n I) : Prop where
  comp : ∀ i c, o.comp i = .inl c → ∀ b, o.comp (o.sib i b) = .inl b
  self : ∀ i c, o.comp i = .inl c → o.sib i c = i
  same : ∀ i c, o.comp i = .inl c → ∀ b, o.sib (o.sib i b) = o.sib i

/-- Displacement or slip. -/
def Nodes.kind (o : Nodes d n (Fin N)) : Kind n N := fun i =>
  match o.comp i with
  | .inl _ => none
  | .inr a => some a

/-- Turned state: displacement vectors are turned, slips are the same. -/
noncomputable def Nodes.turn {I : Type} (o : Nodes d n I) (r : Mat d) (u : I → ℝ) : I → ℝ := fun i =>
  match o.comp i with
  | .inl c => ∑ b, r c b * u (o.sib i b)
  | .inr _ => u i

/-- The same for quantities that may be NaN. -/
noncomputable def Nodes.turnOpt {I : Type} (o : Nodes d n I) (r : Mat d) (f : I → Option ℝ) :
    I → Option ℝ := fun i =>
  match o.comp i with
  | .inl c => sumOpt fun b => (f (o.sib i b)).map (r c b * ·)
  | .inr _ => f i

/-- Turned tensor. -/
def turnT (r t : Mat d) : Mat d := r * t * rᵀ

/-- Scalar shape functions and their gradients at a quadrature point. -/
structure Scalars (d N : ℕ) where
  value : Fin N → ℝ
  grad : Fin N → Vec d

/-- Shape functions of the components (`FESystem` of deal.II). -/
noncomputable def Scalars.shape (o : Nodes d n (Fin N)) (jxw : ℝ) (s : Scalars d N) : Shape d n N where
  jxw := jxw
  disp i := match o.comp i with
    | .inl c => s.value i • Pi.single c 1
    | .inr _ => 0
  symGrad i := match o.comp i with
    | .inl c => symmetrize (outer (Pi.single c 1) (s.grad i))
    | .inr _ => 0
  phi a i := if o.comp i = .inr a then s.value i else 0
  grad a i := if o.comp i = .inr a then s.grad i else 0

/-- Shape functions on a face, from the values of the scalar ones. -/
noncomputable def faceShape (o : Nodes d n (Fin N)) (v : Fin N → ℝ) : Side d n N where
  disp i := match o.comp i with
    | .inl c => v i • Pi.single c 1
    | .inr _ => 0
  phi a i := if o.comp i = .inr a then v i else 0

/-- On the turned mesh the scalar shape functions have the same values and turned gradients. -/
def Scalars.turned (r : Mat d) (s : Scalars d N) : Scalars d N := ⟨s.value, fun i => r *ᵥ s.grad i⟩

/-- All components use the same scalar shape function at a support point. -/
def SpecNodal (o : Nodes d n (Fin N)) (f : Fin N → E) : Prop :=
  ∀ i c, o.comp i = .inl c → ∀ b, f (o.sib i b) = f i

/-- Crystals of the turned specimen. -/
noncomputable def turnCrystal (r : Mat d) (s : Fin n → System d) : Fin n → System d := fun a =>
  rotateSystem r (s a)

/-- Material data of the turned specimen. -/
noncomputable def turnPrm (r : Mat d) (c : CellPrm d n) : CellPrm d n :=
  { c with sys := turnCrystal r c.sys, rot := r * c.rot, macroStrain := turnT r c.macroStrain }

/-! ## Tensors -/

theorem outer_turn (r : Mat d) (a b : Vec d) : outer (r *ᵥ a) (r *ᵥ b) = turnT r (outer a b) := by
  ext i j
  simp only [outer, turnT, Matrix.of_apply, Matrix.mul_apply, Matrix.transpose_apply, Matrix.mulVec,
    dotProduct, sum_mul, mul_sum]
  exact sum_congr rfl fun k _ => sum_congr rfl fun l _ => by ring

theorem symmetrize_eq (t : Mat d) : symmetrize t = (1 / 2 : ℝ) • (t + tᵀ) := by
  ext i j; simp [symmetrize]; ring

theorem turnT_add (r s t : Mat d) : turnT r (s + t) = turnT r s + turnT r t := by
  unfold turnT; rw [Matrix.mul_add, Matrix.add_mul]

theorem turnT_smul (r : Mat d) (k : ℝ) (t : Mat d) : turnT r (k • t) = k • turnT r t := by
  unfold turnT; rw [Matrix.mul_smul, Matrix.smul_mul]

theorem turnT_sub (r s t : Mat d) : turnT r (s - t) = turnT r s - turnT r t := by
  unfold turnT; rw [Matrix.mul_sub, Matrix.sub_mul]

theorem turnT_transpose (r t : Mat d) : (turnT r t)ᵀ = turnT r tᵀ := by
  unfold turnT; rw [transpose_mul, transpose_mul, transpose_transpose, Matrix.mul_assoc]

theorem turnT_sum {ι : Type*} (r : Mat d) (s : Finset ι) (f : ι → Mat d) :
    turnT r (∑ i ∈ s, f i) = ∑ i ∈ s, turnT r (f i) := by
  unfold turnT; rw [Matrix.mul_sum, Matrix.sum_mul]

theorem turnT_one {r : Mat d} (h : SpecOrthogonal r) : turnT r 1 = 1 := by
  unfold turnT; rw [Matrix.mul_one]; exact mul_eq_one_comm.1 h

theorem turnT_turnT (r s t : Mat d) : turnT (r * s) t = turnT r (turnT s t) := by
  unfold turnT; rw [transpose_mul]; simp only [Matrix.mul_assoc]

theorem turnT_mulVec {r : Mat d} (h : SpecOrthogonal r) (t : Mat d) (v : Vec d) :
    turnT r t *ᵥ (r *ᵥ v) = r *ᵥ (t *ᵥ v) := by
  unfold turnT
  rw [mulVec_mulVec, Matrix.mul_assoc, h, Matrix.mul_one, mulVec_mulVec]

theorem symmetrize_turn (r t : Mat d) : symmetrize (turnT r t) = turnT r (symmetrize t) := by
  rw [symmetrize_eq, symmetrize_eq, turnT_smul, turnT_add, turnT_transpose]

theorem ddot_eq_trace (a b : Mat d) : ddot a b = (aᵀ * b).trace := by
  simp only [ddot, Matrix.trace, Matrix.diag, Matrix.mul_apply, Matrix.transpose_apply]
  rw [sum_comm]

theorem ddot_turn {r : Mat d} (h : SpecOrthogonal r) (a b : Mat d) :
    ddot (turnT r a) (turnT r b) = ddot a b := by
  rw [ddot_eq_trace, ddot_eq_trace, turnT_transpose]
  unfold turnT
  rw [show r * aᵀ * rᵀ * (r * b * rᵀ) = r * aᵀ * ((rᵀ * r) * (b * rᵀ)) by
    simp only [Matrix.mul_assoc], h, Matrix.one_mul, ← Matrix.mul_assoc, Matrix.trace_mul_comm,
    ← Matrix.mul_assoc, ← Matrix.mul_assoc, h, Matrix.one_mul]

theorem symSchmid_turn (r : Mat d) (s : System d) :
    (rotateSystem r s).symSchmid = turnT r s.symSchmid := by
  unfold System.symSchmid System.schmid rotateSystem
  rw [outer_turn, symmetrize_turn]

theorem stress_pull (p : Elastic) (r x : Mat d) : p.stress r x = turnT r (p.stress 1 (rᵀ * x * r)) := by
  have h1 : ∀ (x : Mat d) o q, p.stress 1 x o q = ∑ s, ∑ t, SpecCubic p o q s t * x s t := by
    intro x o q
    rw [stress_eq]
    simp only [Matrix.transpose_one, Matrix.one_mul, Matrix.mul_one, Matrix.one_apply]
    simp [ite_mul]
  ext i j
  rw [stress_eq]
  simp only [turnT, Matrix.mul_apply (M := r * p.stress 1 _), Matrix.mul_apply (M := r),
    Matrix.transpose_apply, Finset.sum_mul, h1]
  rw [sum_swap]
  refine sum_congr rfl fun o _ => sum_congr rfl fun q _ => ?_
  ring

theorem stress_turn (p : Elastic) {r : Mat d} (h : SpecOrthogonal r) (q x : Mat d) :
    p.stress (r * q) (turnT r x) = turnT r (p.stress q x) := by
  rw [stress_pull, stress_pull p q, turnT_turnT]
  have : (r * q)ᵀ * turnT r x * (r * q) = qᵀ * x * q := by
    unfold turnT
    rw [transpose_mul, show qᵀ * rᵀ * (r * x * rᵀ) * (r * q) = qᵀ * ((rᵀ * r) * (x * ((rᵀ * r) * q))) by
      simp only [Matrix.mul_assoc], h]
    simp only [Matrix.one_mul, Matrix.mul_assoc]
  rw [this]

theorem sandwich_turn (p : Elastic) {r : Mat d} (h : SpecOrthogonal r) (q a b : Mat d) :
    sandwich (turnT r a) (rotatedStiffness (r * q) (p.reference d)) (turnT r b) =
      sandwich a (rotatedStiffness q (p.reference d)) b := by
  rw [sandwich_eq, sandwich_eq]
  unfold cc
  rw [show apply4 (rotatedStiffness (r * q) (p.reference d)) (turnT r b) =
    turnT r (apply4 (rotatedStiffness q (p.reference d)) b) from stress_turn p h q b, ddot_turn h]

theorem norm2_turn {r : Mat d} (h : SpecOrthogonal r) (v : Vec d) : norm2 (r *ᵥ v) = norm2 v := by
  unfold norm2; rw [rot_dot h]

theorem bracket_turn (v : VecLaw) {r : Mat d} (h : SpecOrthogonal r) (s : System d) (g : Vec d) :
    v.bracket (rotateSystem r s) (r *ᵥ g) = (v.bracket s g).map (turnT r) := by
  unfold VecLaw.bracket
  have e1 : (-(rotateSystem r s).direction) ⬝ᵥ (r *ᵥ g) = (-s.direction) ⬝ᵥ g := by
    rw [show -(rotateSystem r s).direction = r *ᵥ (-s.direction) by
      simp [rotateSystem, mulVec_neg], rot_dot h]
  have e2 : (rotateSystem r s).third ⬝ᵥ (r *ᵥ g) = s.third ⬝ᵥ g := rot_dot h _ _
  rw [e1, e2]
  rcases fpow |(-s.direction) ⬝ᵥ g| (v.index - 2) with _ | a
  · rfl
  rcases fpow |s.third ⬝ᵥ g| (v.index - 2) with _ | b
  · rfl
  simp only [Option.map_some, turnT_add, turnT_smul, ← symmetrize_turn, ← outer_turn]
  rfl

theorem vecMicrostress_turn (v : VecLaw) {r : Mat d} (h : SpecOrthogonal r) (s : System d) (g : Vec d) :
    v.microstress (rotateSystem r s) (r *ᵥ g) = (v.microstress s g).map (r *ᵥ ·) := by
  unfold VecLaw.microstress
  rw [bracket_turn v h, Option.map_map, Option.map_map]
  congr 1
  funext m
  simp only [Function.comp_apply]
  rw [← turnT_smul, turnT_mulVec h]

theorem vecJacobian_turn (v : VecLaw) {r : Mat d} (h : SpecOrthogonal r) (s : System d) (g : Vec d) :
    v.jacobian (rotateSystem r s) (r *ᵥ g) = (v.jacobian s g).map (turnT r) := by
  unfold VecLaw.jacobian
  rw [bracket_turn v h, Option.map_map, Option.map_map]
  congr 1
  funext m
  simp only [Function.comp_apply]
  rw [← turnT_smul]

/-! ### Grain boundaries -/

theorem normalProjector_turn (r : Mat d) (n : Vec d) :
    normalProjector (r *ᵥ n) = turnT r (normalProjector n) := by
  unfold normalProjector; rw [outer_turn, symmetrize_turn]

theorem tangentialProjector_turn {r : Mat d} (h : SpecOrthogonal r) (n : Vec d) :
    tangentialProjector (r *ᵥ n) = turnT r (tangentialProjector n) := by
  unfold tangentialProjector; rw [turnT_sub, turnT_one h, normalProjector_turn]

theorem effOpening_turn (c : Coh) {r : Mat d} (h : SpecOrthogonal r) (δ n : Vec d) :
    effOpening c (r *ᵥ δ) (r *ᵥ n) = effOpening c δ n := by
  unfold effOpening
  rw [tangentialProjector_turn h, turnT_mulVec h, norm2_turn h, rot_dot h]

theorem rawDirection_turn (c : Coh) {r : Mat d} (h : SpecOrthogonal r) (δ n : Vec d) :
    rawDirection c (r *ᵥ δ) (r *ᵥ n) = r *ᵥ rawDirection c δ n := by
  unfold rawDirection
  rw [tangentialProjector_turn h, turnT_mulVec h, rot_dot h, mulVec_add, mulVec_smul, mulVec_smul]

theorem direction_turn (c : Coh) {r : Mat d} (h : SpecOrthogonal r) (δ n : Vec d) :
    direction c (r *ᵥ δ) (r *ᵥ n) = r *ᵥ direction c δ n := by
  unfold direction
  rw [effOpening_turn c h, rawDirection_turn c h]
  split_ifs
  · rw [mulVec_smul]
  · rfl

theorem effIdentity_turn (c : Coh) {r : Mat d} (h : SpecOrthogonal r) (δ n : Vec d) :
    effIdentity c (r *ᵥ δ) (r *ᵥ n) = turnT r (effIdentity c δ n) := by
  unfold effIdentity
  rw [tangentialProjector_turn h, normalProjector_turn, rot_dot h, turnT_add, turnT_smul, turnT_smul]

theorem traction_turn (c : Coh) {r : Mat d} (h : SpecOrthogonal r) (δ n : Vec d) (mx old dt : ℝ) :
    c.traction (r *ᵥ δ) (r *ᵥ n) mx old dt = (c.traction δ n mx old dt).map (r *ᵥ ·) := by
  unfold Coh.traction
  simp only
  rw [effOpening_turn c h, direction_turn c h]
  rcases branch (effOpening c δ n) mx old dt
  · simp [mulVec_smul]
  · simp only
    split_ifs <;> simp [mulVec_smul]
  · simp [mulVec_smul]

theorem cohJacobian_turn (c : Coh) {r : Mat d} (h : SpecOrthogonal r) (δ n : Vec d) (mx old dt : ℝ) :
    c.jacobian (r *ᵥ δ) (r *ᵥ n) mx old dt = (c.jacobian δ n mx old dt).map (turnT r) := by
  unfold Coh.jacobian
  simp only
  rw [effOpening_turn c h, direction_turn c h, effIdentity_turn c h, outer_turn, symmetrize_turn]
  rcases branch (effOpening c δ n) mx old dt
  · simp [turnT_smul, turnT_sub]
  · simp only
    split_ifs <;> simp [turnT_smul]
  · simp [turnT]

theorem contact_turn (c : Contact) {r : Mat d} (h : SpecOrthogonal r) (δ n : Vec d) :
    c.traction (r *ᵥ δ) (r *ᵥ n) = r *ᵥ c.traction δ n := by
  unfold Contact.traction
  rw [rot_dot h, mulVec_neg, mulVec_smul]

theorem contactJacobian_turn (c : Contact) {r : Mat d} (h : SpecOrthogonal r) (δ n : Vec d) :
    c.jacobian (r *ᵥ δ) (r *ᵥ n) = turnT r (c.jacobian δ n) := by
  unfold Contact.jacobian
  rw [rot_dot h, normalProjector_turn, turnT_smul]

/-- Products of lateral factors do not change when everything is turned. -/
def LateralTurns (lat : Vec d → Vec d → Fin e → ℝ) : Prop := ∀ r : Mat d, SpecOrthogonal r →
  ∀ m m' x, lat (r *ᵥ m) (r *ᵥ x) ⬝ᵥ lat (r *ᵥ m') (r *ᵥ x) = lat m x ⬝ᵥ lat m' x

theorem lateral2_turns : LateralTurns lateral2 := by
  intro r h m m' x
  have key : ∀ m x : Vec 2, ∀ m' : Vec 2, lateral2 m x ⬝ᵥ lateral2 m' x =
      (m ⬝ᵥ m') * (x ⬝ᵥ x) - (m ⬝ᵥ x) * (m' ⬝ᵥ x) := by
    intro m x m'
    simp [lateral2, dotProduct, Fin.sum_univ_two]; ring
  rw [key, key]; simp only [rot_dot h]

theorem lateral3_turns : LateralTurns lateral3 := by
  intro r h m m' x
  have key : ∀ m x : Vec 3, ∀ m' : Vec 3, lateral3 m x ⬝ᵥ lateral3 m' x =
      (m ⬝ᵥ m') * (x ⬝ᵥ x) - (m ⬝ᵥ x) * (m' ⬝ᵥ x) := by
    intro m x m'
    simp [lateral3, cross, dotProduct, Fin.sum_univ_three]; ring
  rw [key, key]; simp only [rot_dot h]

theorem modulus_turn {lat : Vec d → Vec d → Fin e → ℝ} (hl : LateralTurns lat) {r : Mat d}
    (h : SpecOrthogonal r) (a b : System d) (x : Vec d) :
    modulus lat (rotateSystem r a) (rotateSystem r b) (r *ᵥ x) = modulus lat a b x := by
  unfold modulus rotateSystem
  rw [rot_dot h, hl r h]

/-! ### Sums over support points -/

/-- Pairs of a displacement degree of freedom and a component, with the two components exchanged. -/
def Nodes.flip {I : Type} (o : Nodes d n I) (x : I × Fin d) : I × Fin d :=
  match o.comp x.1 with
  | .inl c => (o.sib x.1 x.2, c)
  | .inr _ => x

theorem Nodes.flip_flip {I : Type} {o : Nodes d n I} (ho : o.Ok) : Function.Involutive o.flip := by
  rintro ⟨i, b⟩
  unfold Nodes.flip
  rcases hi : o.comp i with c | a
  · simp only [ho.comp i c hi b, ho.same i c hi b, ho.self i c hi]
  · simp [hi]

theorem mulVec_single (r : Mat d) (c : Fin d) :
    r *ᵥ (Pi.single c 1 : Vec d) = ∑ a, r a c • (Pi.single a 1 : Vec d) := by
  ext i
  simp [Finset.sum_apply, Pi.single_apply]

theorem transpose_mulVec_single (r : Mat d) (c : Fin d) :
    rᵀ *ᵥ (Pi.single c 1 : Vec d) = ∑ b, r c b • (Pi.single b 1 : Vec d) := by
  rw [mulVec_single]; rfl

/-- Sums over the displacement degrees of freedom. -/
theorem Nodes.sum_turn {E : Type*} [AddCommGroup E] [Module ℝ E] {o : Nodes d n (Fin N)} (ho : o.Ok)
    (r : Mat d) (u : Fin N → ℝ) (L : Fin N → Vec d →ₗ[ℝ] E) (hL : SpecNodal o L) :
    (∑ j, o.turn r u j • (match o.comp j with | .inl c => L j (Pi.single c 1) | .inr _ => 0)) =
      ∑ j, u j • (match o.comp j with | .inl c => L j (r *ᵥ Pi.single c 1) | .inr _ => 0) := by
  let F : Fin N × Fin d → E := fun x => match o.comp x.1 with
    | .inl c => (r c x.2 * u (o.sib x.1 x.2)) • L x.1 (Pi.single c 1)
    | .inr _ => 0
  let G : Fin N × Fin d → E := fun x => match o.comp x.1 with
    | .inl c => (u x.1 * r x.2 c) • L x.1 (Pi.single x.2 1)
    | .inr _ => 0
  have h1 : ∀ j, o.turn r u j • (match o.comp j with | .inl c => L j (Pi.single c 1) | .inr _ => 0) =
      ∑ b, F (j, b) := by
    intro j
    simp only [F, Nodes.turn]
    rcases o.comp j with c | a
    · simp only [sum_smul]
    · simp
  have h2 : ∀ j, u j • (match o.comp j with | .inl c => L j (r *ᵥ Pi.single c 1) | .inr _ => 0) =
      ∑ b, G (j, b) := by
    intro j
    simp only [G]
    rcases o.comp j with c | a
    · simp only [mulVec_single, map_sum, smul_sum, map_smul, smul_smul]
    · simp
  rw [sum_congr rfl fun j _ => h1 j, sum_congr rfl fun j _ => h2 j, ← Fintype.sum_prod_type,
    ← Fintype.sum_prod_type, ← Equiv.sum_comp ((Nodes.flip_flip ho).toPerm _) G]
  refine sum_congr rfl ?_
  rintro ⟨j, b⟩ _
  simp only [F, G, Function.Involutive.coe_toPerm, Nodes.flip]
  rcases hj : o.comp j with c | a
  · simp only [ho.comp j c hj b]
    rw [hL j c hj b, mul_comm]
  · simp only [hj]

/-- Sums over the slip degrees of freedom. -/
theorem Nodes.sum_slip {E : Type*} [AddCommGroup E] [Module ℝ E] (o : Nodes d n (Fin N))
    (r : Mat d) (u : Fin N → ℝ) (a : Fin n) (f : Fin N → E) :
    (∑ j, o.turn r u j • (if o.comp j = .inr a then f j else 0)) =
      ∑ j, u j • (if o.comp j = .inr a then f j else 0) := by
  refine sum_congr rfl fun j _ => ?_
  split_ifs with h
  · simp [Nodes.turn, h]
  · simp

variable {o : Nodes d n (Fin N)} {r : Mat d}

theorem Scalars.primitive (o : Nodes d n (Fin N)) (jxw : ℝ) (s : Scalars d N) :
    (s.shape o jxw).Primitive o.kind := by
  refine ⟨fun i a h => ?_, fun i a h => ?_, fun i a h => ?_, fun i a h => ?_, fun i => ?_⟩
  · unfold Nodes.kind at h
    simp only [Scalars.shape]
    rcases hi : o.comp i with c | b <;> simp [hi] at h ⊢
  · unfold Nodes.kind at h
    simp only [Scalars.shape]
    rcases hi : o.comp i with c | b <;> simp [hi] at h ⊢
  · simp only [Scalars.shape]
    refine if_neg fun hi => h ?_
    simp [Nodes.kind, hi]
  · simp only [Scalars.shape]
    refine if_neg fun hi => h ?_
    simp [Nodes.kind, hi]
  · simp only [Scalars.shape]
    rcases o.comp i with c | b
    · ext k l; simp [symmetrize]; ring
    · simp

theorem faceShape_primitive (o : Nodes d n (Fin N)) (v : Fin N → ℝ) : (faceShape o v).Primitive o.kind := by
  refine ⟨fun i a h => ?_, fun i a h => ?_⟩
  · unfold Nodes.kind at h
    simp only [faceShape]
    rcases hi : o.comp i with c | b <;> simp [hi] at h ⊢
  · simp only [faceShape]
    refine if_neg fun hi => h ?_
    simp [Nodes.kind, hi]

/-- Symmetric dyad as a linear function of its first factor. -/
noncomputable def symOuter (g : Vec d) : Vec d →ₗ[ℝ] Mat d where
  toFun v := symmetrize (outer v g)
  map_add' v w := by ext i j; simp [symmetrize, outer]; ring
  map_smul' k v := by ext i j; simp [symmetrize, outer]; ring

theorem symOuter_turn (r : Mat d) (g v : Vec d) :
    symOuter (r *ᵥ g) (r *ᵥ v) = turnT r (symOuter g v) := by
  show symmetrize _ = turnT r (symmetrize _)
  rw [outer_turn, symmetrize_turn]

theorem strain_turn (ho : o.Ok) (s : Scalars d N) (hs : SpecNodal o s.grad) (jxw : ℝ) (u : Fin N → ℝ) :
    ((s.turned r).shape o jxw).strain (o.turn r u) = turnT r ((s.shape o jxw).strain u) := by
  unfold Shape.strain
  have := o.sum_turn ho r u (fun j => symOuter (r *ᵥ s.grad j)) fun i c h b => by
    simp only [hs i c h b]
  refine Eq.trans ?_ (this.trans ?_)
  · refine sum_congr rfl fun j _ => ?_
    simp only [Scalars.shape, Scalars.turned]
    rcases o.comp j with c | a <;> rfl
  · rw [turnT_sum]
    refine sum_congr rfl fun j _ => ?_
    rw [turnT_smul]
    congr 1
    simp only [Scalars.shape]
    rcases o.comp j with c | a
    · exact symOuter_turn r _ _
    · simp [turnT]

theorem slip_turn (s : Scalars d N) (jxw : ℝ) (u : Fin N → ℝ) :
    ((s.turned r).shape o jxw).slip (o.turn r u) = (s.shape o jxw).slip u := by
  funext a
  exact o.sum_slip r u a s.value

theorem slipGrad_turn (s : Scalars d N) (jxw : ℝ) (u : Fin N → ℝ) (a : Fin n) :
    ((s.turned r).shape o jxw).slipGrad (o.turn r u) a = r *ᵥ (s.shape o jxw).slipGrad u a := by
  have := o.sum_slip r u a fun j => r *ᵥ s.grad j
  refine this.trans ?_
  unfold Shape.slipGrad
  rw [mulVec_sum]
  refine sum_congr rfl fun j _ => ?_
  rw [mulVec_smul]
  simp only [Scalars.shape]
  split_ifs <;> simp

theorem displacement_turn (ho : o.Ok) (v : Fin N → ℝ) (hv : SpecNodal o v) (u : Fin N → ℝ) :
    (faceShape o v).displacement (o.turn r u) = r *ᵥ (faceShape o v).displacement u := by
  unfold Side.displacement
  have := o.sum_turn ho r u (fun j => v j • LinearMap.id) fun i c h b => by simp only [hv i c h b]
  refine Eq.trans ?_ (this.trans ?_)
  · refine sum_congr rfl fun j _ => ?_
    simp only [faceShape]
    rcases o.comp j with c | a <;> rfl
  · rw [mulVec_sum]
    refine sum_congr rfl fun j _ => ?_
    rw [mulVec_smul]
    congr 1
    simp only [faceShape]
    rcases o.comp j with c | a
    · simp only [mulVec_smul]; rfl
    · simp

theorem faceSlip_turn (v u : Fin N → ℝ) :
    (faceShape o v).slip (o.turn r u) = (faceShape o v).slip u := by
  funext a
  exact o.sum_slip r u a v

/-! ### Cells -/

theorem elasticStrain_turn (ho : o.Ok) (c : CellPrm d n) (s : Scalars d N)
    (hs : SpecNodal o s.grad) (jxw : ℝ) (u : Fin N → ℝ) :
    (turnPrm r c).elasticStrainAt ((s.turned r).shape o jxw) (o.turn r u) =
      turnT r (c.elasticStrainAt (s.shape o jxw) u) := by
  unfold CellPrm.elasticStrainAt
  rw [turnT_add, slip_turn, strain_turn ho s hs]
  congr 1
  rw [elasticStrain_finRange, elasticStrain_finRange, turnT_sub, turnT_smul, turnT_sum]
  congr 2
  refine sum_congr rfl fun a _ => ?_
  rw [turnT_smul, ← symSchmid_turn]
  rfl

theorem stressAt_turn (ho : o.Ok) (h : SpecOrthogonal r) (c : CellPrm d n) (s : Scalars d N)
    (hs : SpecNodal o s.grad) (jxw : ℝ) (u : Fin N → ℝ) :
    (turnPrm r c).stressAt ((s.turned r).shape o jxw) (o.turn r u) =
      turnT r (c.stressAt (s.shape o jxw) u) := by
  unfold CellPrm.stressAt
  rw [elasticStrain_turn ho c s hs]
  exact stress_turn _ h _ _

/-- A quadrature point of the body. -/
structure BodyPoint (d n N : ℕ) where
  jxw : ℝ
  scalars : Scalars d N
  supply : Vec d
  hist : Bulk n
  old : Fin n → ℝ

/-- The quadrature point as the assembly sees it. -/
noncomputable def BodyPoint.point (o : Nodes d n (Fin N)) (p : BodyPoint d n N) : Point d n N :=
  ⟨p.scalars.shape o p.jxw, p.supply, p.hist, p.old⟩

/-- The turned quadrature point. -/
def BodyPoint.turned (r : Mat d) (p : BodyPoint d n N) : BodyPoint d n N :=
  ⟨p.jxw, p.scalars.turned r, r *ᵥ p.supply, p.hist, p.old⟩

/-- The components share their scalar shape functions. -/
def BodyPoint.Ok (o : Nodes d n (Fin N)) (p : BodyPoint d n N) : Prop :=
  SpecNodal o p.scalars.value ∧ SpecNodal o p.scalars.grad

/-- Combination of numbers of which some may be NaN. -/
theorem Nodes.turnOpt_inl {I : Type} (o : Nodes d n I) (r : Mat d) (f : I → Option ℝ) {i : I}
    {c : Fin d} (hi : o.comp i = .inl c) :
    o.turnOpt r f i = sumOpt fun b => (f (o.sib i b)).map (r c b * ·) := by
  unfold Nodes.turnOpt; rw [hi]

theorem Nodes.turnOpt_inr {I : Type} (o : Nodes d n I) (r : Mat d) (f : I → Option ℝ) {i : I}
    {a : Fin n} (hi : o.comp i = .inr a) : o.turnOpt r f i = f i := by
  unfold Nodes.turnOpt; rw [hi]

theorem Nodes.kind_inl (o : Nodes d n (Fin N)) {i : Fin N} {c : Fin d} (hi : o.comp i = .inl c) :
    o.kind i = none := by unfold Nodes.kind; rw [hi]

theorem Nodes.kind_inr (o : Nodes d n (Fin N)) {i : Fin N} {a : Fin n} (hi : o.comp i = .inr a) :
    o.kind i = some a := by unfold Nodes.kind; rw [hi]

/-- Testing a turned tensor with a turned shape function. -/
theorem symGrad_turn (ho : o.Ok) (h : SpecOrthogonal r) (s : Scalars d N) (hs : SpecNodal o s.grad)
    (jxw : ℝ) {i : Fin N} {c : Fin d} (hi : o.comp i = .inl c) :
    ((s.turned r).shape o jxw).symGrad i = turnT r (∑ b, r c b • (s.shape o jxw).symGrad (o.sib i b)) := by
  have e1 : ((s.turned r).shape o jxw).symGrad i = symOuter (r *ᵥ s.grad i) (Pi.single c 1) := by
    simp only [Scalars.shape, Scalars.turned, hi]; rfl
  have e2 : ∀ b, (s.shape o jxw).symGrad (o.sib i b) = symOuter (s.grad i) (Pi.single b 1) := by
    intro b
    simp only [Scalars.shape, ho.comp i c hi b, hs i c hi b]; rfl
  rw [e1]
  simp only [e2]
  have e3 : (Pi.single c 1 : Vec d) = r *ᵥ (rᵀ *ᵥ Pi.single c 1) := by
    rw [mulVec_mulVec, mul_eq_one_comm.1 h, one_mulVec]
  conv_lhs => rw [e3]
  rw [symOuter_turn, transpose_mulVec_single, map_sum]
  simp only [map_smul]

theorem disp_turn (ho : o.Ok) (v : Fin N → ℝ) (hv : SpecNodal o v) (h : SpecOrthogonal r) {i : Fin N}
    {c : Fin d} (hi : o.comp i = .inl c) :
    (faceShape o v).disp i = r *ᵥ ∑ b, r c b • (faceShape o v).disp (o.sib i b) := by
  have e2 : ∀ b, (faceShape o v).disp (o.sib i b) = v i • (Pi.single b 1 : Vec d) := by
    intro b
    simp only [faceShape, ho.comp i c hi b, hv i c hi b]
  have e1 : (faceShape o v).disp i = v i • (Pi.single c 1 : Vec d) := by simp only [faceShape, hi]
  rw [e1]
  simp only [e2]
  have e3 : (Pi.single c 1 : Vec d) = r *ᵥ (rᵀ *ᵥ Pi.single c 1) := by
    rw [mulVec_mulVec, mul_eq_one_comm.1 h, one_mulVec]
  conv_lhs => rw [e3]
  rw [transpose_mulVec_single, ← mulVec_smul, smul_sum]
  congr 1
  exact sum_congr rfl fun b _ => smul_comm _ _ _

theorem rhsTerm_turn (ho : o.Ok) (h : SpecOrthogonal r) (c : CellPrm d n) (p : BodyPoint d n N)
    (hp : p.Ok o) (u : Fin N → ℝ) (i : Fin N) :
    (turnPrm r c).rhsTerm o.kind ((p.turned r).point o) (o.turn r u) i =
      o.turnOpt r (fun j => c.rhsTerm o.kind (p.point o) u j) i := by
  have hst := stressAt_turn ho h c p.scalars hp.2 p.jxw u
  rcases hi : o.comp i with k | a
  · rw [o.turnOpt_inl r _ hi, sumOpt_some _ (fun b => r k b * -(c.dn3 / c.dn0 *
      (ddot ((p.scalars.shape o p.jxw).symGrad (o.sib i b)) (c.stressAt (p.scalars.shape o p.jxw) u) -
        (p.scalars.shape o p.jxw).disp (o.sib i b) ⬝ᵥ p.supply) * p.jxw))]
    · unfold CellPrm.rhsTerm
      simp only [o.kind_inl hi]
      congr 1
      show -(c.dn3 / c.dn0 * (ddot (((p.scalars.turned r).shape o p.jxw).symGrad i)
        ((turnPrm r c).stressAt ((p.scalars.turned r).shape o p.jxw) (o.turn r u)) -
        (faceShape o p.scalars.value).disp i ⬝ᵥ (r *ᵥ p.supply)) * p.jxw) = _
      rw [hst, symGrad_turn ho h p.scalars hp.2 p.jxw hi, disp_turn ho p.scalars.value hp.1 h hi,
        ddot_turn h, rot_dot h, ddot_sum_left, sum_dotProduct, ← sum_sub_distrib, mul_sum, sum_mul,
        ← sum_neg_distrib]
      refine sum_congr rfl fun b _ => ?_
      rw [ddot_smul_left, smul_dotProduct, smul_eq_mul]
      show _ = r k b * -(c.dn3 / c.dn0 * (_ - (faceShape o p.scalars.value).disp (o.sib i b) ⬝ᵥ p.supply)
        * p.jxw)
      ring
    · intro b
      unfold CellPrm.rhsTerm
      simp only [o.kind_inl (ho.comp i k hi b)]
      rfl
  · rw [o.turnOpt_inr r _ hi]
    unfold CellPrm.rhsTerm
    simp only [o.kind_inr hi]
    have e1 := slipGrad_turn (o := o) (r := r) p.scalars p.jxw u a
    have e2 := slip_turn (o := o) (r := r) p.scalars p.jxw u
    simp only [BodyPoint.point, BodyPoint.turned]
    rw [e1, e2, hst]
    have e3 : (turnPrm r c).sys a = rotateSystem r (c.sys a) := rfl
    have e4 : (turnPrm r c).vec.microstress (rotateSystem r (c.sys a))
        (r *ᵥ (p.scalars.shape o p.jxw).slipGrad u a) =
        (c.vec.microstress (c.sys a) ((p.scalars.shape o p.jxw).slipGrad u a)).map (r *ᵥ ·) :=
      vecMicrostress_turn c.vec h _ _
    have e5 : resolvedShear (rotateSystem r (c.sys a)) (turnT r (c.stressAt (p.scalars.shape o p.jxw) u)) =
        resolvedShear (c.sys a) (c.stressAt (p.scalars.shape o p.jxw) u) := by
      unfold resolvedShear
      rw [symSchmid_turn, ddot_turn h]
    rw [e3, e4, e5, Option.map_map]
    congr 1
    funext x
    have e6 : ((p.scalars.turned r).shape o p.jxw).grad a i ⬝ᵥ (r *ᵥ x) =
        (p.scalars.shape o p.jxw).grad a i ⬝ᵥ x := by
      simp only [Scalars.shape, Scalars.turned]
      rw [if_pos hi, if_pos hi]
      exact rot_dot h _ _
    simp only [Function.comp_apply, e6]
    rfl

theorem sumOpt_none {Q : ℕ} (f : Fin Q → Option ℝ) (q : Fin Q) (h : f q = none) : sumOpt f = none := by
  rcases hx : sumOpt f with _ | x
  · rfl
  · obtain ⟨g, hg, _⟩ := sumOpt_inv f hx
    rw [hg q] at h; cases h

theorem sumOpt_comm {P Q : ℕ} (f : Fin P → Fin Q → Option ℝ) :
    (sumOpt fun p => sumOpt fun q => f p q) = sumOpt fun q => sumOpt fun p => f p q := by
  by_cases hex : ∃ p q, f p q = none
  · obtain ⟨p, q, hpq⟩ := hex
    rw [sumOpt_none _ p (sumOpt_none _ q hpq), sumOpt_none _ q (sumOpt_none _ p hpq)]
  · push Not at hex
    choose g hg using fun p q => Option.ne_none_iff_exists'.1 (hex p q)
    rw [sumOpt_some _ (fun p => ∑ q, g p q) fun p => sumOpt_some _ _ (hg p),
      sumOpt_some _ (fun q => ∑ p, g p q) fun q => sumOpt_some _ _ fun p => hg p q, sum_comm]

theorem Nodes.turnOpt_sum {Q : ℕ} {I : Type} (o : Nodes d n I) (r : Mat d) (f : Fin Q → I → Option ℝ)
    (i : I) : (sumOpt fun q => o.turnOpt r (f q) i) = o.turnOpt r (fun j => sumOpt fun q => f q j) i := by
  rcases hi : o.comp i with c | a
  · rw [o.turnOpt_inl r _ hi]
    simp only [o.turnOpt_inl r _ hi]
    rw [sumOpt_comm]
    congr 1
    funext b
    exact Prm.sumOpt_map _ _ _ fun q => rfl
  · rw [o.turnOpt_inr r _ hi]
    simp only [o.turnOpt_inr r _ hi]

theorem Nodes.turnOpt_some {I : Type} (o : Nodes d n I) (r : Mat d) (f : I → Option ℝ) (g : I → ℝ)
    (h : ∀ i, f i = some (g i)) (i : I) : o.turnOpt r f i = some (o.turn r g i) := by
  rcases hi : o.comp i with c | a
  · rw [o.turnOpt_inl r _ hi, sumOpt_some _ (fun b => r c b * g (o.sib i b)) fun b => by rw [h]; rfl]
    simp only [Nodes.turn, hi]
  · rw [o.turnOpt_inr r _ hi, h]
    simp only [Nodes.turn, hi]

theorem sandwich_sum_right {ι : Type*} (a : Mat d) (c : Store4 d) (s : Finset ι) (f : ι → Mat d) :
    sandwich a c (∑ x ∈ s, f x) = ∑ x ∈ s, sandwich a c (f x) := by
  simp only [sandwich_eq, cc_sum]

theorem sandwich_sum_left {ι : Type*} (b : Mat d) (c : Store4 d) (s : Finset ι) (f : ι → Mat d) :
    sandwich (∑ x ∈ s, f x) c b = ∑ x ∈ s, sandwich (f x) c b := by
  simp only [sandwich_eq]
  unfold cc
  rw [ddot_sum_left]

theorem matTerm_turn (ho : o.Ok) (h : SpecOrthogonal r) (c : CellPrm d n) (p : BodyPoint d n N)
    (hp : p.Ok o) (u : Fin N → ℝ) (i j : Fin N) :
    (turnPrm r c).matTerm o.kind ((p.turned r).point o) (o.turn r u) i j =
      o.turnOpt r (fun i => o.turnOpt r (fun j => c.matTerm o.kind (p.point o) u i j) j) i := by
  have htet : (turnPrm r c).tetrad = rotatedStiffness (r * c.rot) (c.elastic.reference d) := rfl
  have hsys : ∀ a, ((turnPrm r c).sys a).symSchmid = turnT r (c.sys a).symSchmid := fun a =>
    symSchmid_turn r (c.sys a)
  have hsand : ∀ x y, sandwich (turnT r x) (turnPrm r c).tetrad (turnT r y) =
      sandwich x c.tetrad y := fun x y => by rw [htet, sandwich_turn _ h]; rfl
  have hS : ∀ {i k}, o.comp i = .inl k → ((p.turned r).point o).shape.symGrad i =
      turnT r (∑ b, r k b • (p.point o).shape.symGrad (o.sib i b)) := fun hi =>
    symGrad_turn ho h p.scalars hp.2 p.jxw hi
  have hphi : ((p.turned r).point o).shape.phi = (p.point o).shape.phi := rfl
  have hjxw : ((p.turned r).point o).shape.jxw = (p.point o).shape.jxw := rfl
  rcases hi : o.comp i with k | a <;> rcases hj : o.comp j with l | b
  · rw [o.turnOpt_inl r _ hi]
    simp only [o.turnOpt_inl r _ hj]
    rw [sumOpt_some _ (fun x => r k x * ∑ y, r l y * (c.dn3 / c.dn0 *
      sandwich ((p.point o).shape.symGrad (o.sib i x)) c.tetrad
        ((p.point o).shape.symGrad (o.sib j y)) * (p.point o).shape.jxw))]
    · unfold CellPrm.matTerm
      simp only [o.kind_inl hi, o.kind_inl hj]
      rw [hS hi, hS hj, hsand, sandwich_sum_left, hjxw]
      congr 1
      simp only [mul_sum, sum_mul, sandwich_sum_right, sandwich_smul_left, sandwich_smul_right]
      refine sum_congr rfl fun x _ => sum_congr rfl fun y _ => ?_
      show c.dn3 / c.dn0 * _ * _ = _
      ring
    · intro x
      rw [sumOpt_some _ (fun y => r l y * (c.dn3 / c.dn0 *
        sandwich ((p.point o).shape.symGrad (o.sib i x)) c.tetrad
          ((p.point o).shape.symGrad (o.sib j y)) * (p.point o).shape.jxw))]
      · rfl
      · intro y
        unfold CellPrm.matTerm
        simp only [o.kind_inl (ho.comp i k hi x), o.kind_inl (ho.comp j l hj y)]
        rfl
  · rw [o.turnOpt_inl r _ hi]
    simp only [o.turnOpt_inr r _ hj]
    rw [sumOpt_some _ (fun x => r k x * -(c.dn3 / c.dn0 * c.dn0 *
      sandwich ((p.point o).shape.symGrad (o.sib i x)) c.tetrad (c.sys b).symSchmid *
        (p.point o).shape.phi b j * (p.point o).shape.jxw))]
    · unfold CellPrm.matTerm
      simp only [o.kind_inl hi, o.kind_inr hj]
      rw [hS hi, hsys, hsand, sandwich_sum_left, hjxw, hphi]
      congr 1
      simp only [mul_sum, sum_mul, sandwich_smul_left, ← sum_neg_distrib]
      refine sum_congr rfl fun x _ => ?_
      show -(c.dn3 / c.dn0 * c.dn0 * _ * _ * _) = _
      ring
    · intro x
      unfold CellPrm.matTerm
      simp only [o.kind_inl (ho.comp i k hi x), o.kind_inr hj]
      rfl
  · rw [o.turnOpt_inr r _ hi]
    simp only [o.turnOpt_inl r _ hj]
    rw [sumOpt_some _ (fun y => r l y * -(c.dn3 * (p.point o).shape.phi a i *
      sandwich (c.sys a).symSchmid c.tetrad ((p.point o).shape.symGrad (o.sib j y)) *
        (p.point o).shape.jxw))]
    · unfold CellPrm.matTerm
      simp only [o.kind_inr hi, o.kind_inl hj]
      rw [hS hj, hsys, hsand, sandwich_sum_right, hjxw, hphi]
      congr 1
      simp only [mul_sum, sum_mul, sandwich_smul_right, ← sum_neg_distrib]
      refine sum_congr rfl fun x _ => ?_
      show -(c.dn3 * _ * _ * _) = _
      ring
    · intro x
      unfold CellPrm.matTerm
      simp only [o.kind_inr hi, o.kind_inl (ho.comp j l hj x)]
      rfl
  · rw [o.turnOpt_inr r _ hi, o.turnOpt_inr r _ hj]
    unfold CellPrm.matTerm
    simp only [o.kind_inr hi, o.kind_inr hj]
    have e2 : ((p.turned r).point o).shape.slip (o.turn r u) = (p.point o).shape.slip u :=
      slip_turn p.scalars p.jxw u
    have e1 : ((p.turned r).point o).shape.slipGrad (o.turn r u) a =
        r *ᵥ (p.point o).shape.slipGrad u a := slipGrad_turn p.scalars p.jxw u a
    have e4 : (turnPrm r c).vec.jacobian ((turnPrm r c).sys a)
        (r *ᵥ (p.point o).shape.slipGrad u a) =
        (c.vec.jacobian (c.sys a) ((p.point o).shape.slipGrad u a)).map (turnT r) :=
      vecJacobian_turn c.vec h _ _
    rw [e1, e2, e4, hsys, hsys, hsand, hphi, hjxw, Option.map_map]
    by_cases hab : a = b
    · rw [if_pos hab, if_pos hab]
      congr 1
      funext J
      have eg : ∀ {a i}, o.comp i = .inr a → ((p.turned r).point o).shape.grad a i =
          r *ᵥ (p.point o).shape.grad a i := by
        intro a i hi
        simp only [BodyPoint.point, BodyPoint.turned, Scalars.shape, Scalars.turned]
        rw [if_pos hi, if_pos hi]
      simp only [Function.comp_apply]
      rw [eg hi, eg hj, ← dotProduct_mulVec, turnT_mulVec h, rot_dot h, dotProduct_mulVec]
      rfl
    · rw [if_neg hab, if_neg hab]
      rfl

/-! ### Faces -/

/-- A quadrature point of a grain boundary face as one of its cells sees it, with the values of the
scalar shape functions of both cells. -/
structure BodyFace (d e n N : ℕ) where
  prm : FacePrm d e
  own : Crystal d n
  other : Crystal d n
  nrm : Vec d
  jxw : ℝ
  hist : Iface
  cur : Fin N → ℝ
  nb : Fin N → ℝ
  nbDofs : Fin N → ℕ

/-- The face as the assembly sees it. -/
noncomputable def BodyFace.view (o : Nodes d n (Fin N)) (f : BodyFace d e n N) : View d e n N :=
  ⟨f.prm, f.own, f.other, f.nrm, f.jxw, f.hist, faceShape o f.cur, faceShape o f.nb, f.nbDofs⟩

/-- The turned face. -/
noncomputable def BodyFace.turned (r : Mat d) (f : BodyFace d e n N) : BodyFace d e n N :=
  { f with own := turnCrystal r f.own, other := turnCrystal r f.other, nrm := r *ᵥ f.nrm }

/-- The components share their scalar shape functions, and the product of lateral factors is the one in
two or three dimensions. -/
structure BodyFace.Ok (o : Nodes d n (Fin N)) (f : BodyFace d e n N) : Prop where
  cur : SpecNodal o f.cur
  nb : SpecNodal o f.nb
  lat : LateralTurns f.prm.lat

theorem opening_turn (ho : o.Ok) {v w : Fin N → ℝ} (hv : SpecNodal o v) (hw : SpecNodal o w)
    (u un : Fin N → ℝ) :
    opening (faceShape o v) (faceShape o w) (o.turn r u) (o.turn r un) =
      r *ᵥ opening (faceShape o v) (faceShape o w) u un := by
  unfold opening
  rw [displacement_turn ho v hv, displacement_turn ho w hw, mulVec_sub]

theorem faceTerm_turn (ho : o.Ok) (h : SpecOrthogonal r) (f : BodyFace d e n N) (hf : f.Ok o)
    (u un : Fin N → ℝ) (i : Fin N) :
    f.prm.rhsTerm o.kind (turnCrystal r f.own) (turnCrystal r f.other) (r *ᵥ f.nrm) f.jxw f.hist
      (faceShape o f.cur) (faceShape o f.nb) (o.turn r u) (o.turn r un) i =
    o.turnOpt r (fun j => f.prm.rhsTerm o.kind f.own f.other f.nrm f.jxw f.hist (faceShape o f.cur)
      (faceShape o f.nb) u un j) i := by
  rcases hi : o.comp i with k | a
  · rw [o.turnOpt_inl r _ hi]
    have hk : ∀ b, o.kind (o.sib i b) = none := fun b => o.kind_inl (ho.comp i k hi b)
    unfold FacePrm.rhsTerm
    simp only [o.kind_inl hi, hk]
    by_cases hd : f.prm.decohesion = true
    · simp only [hd, if_true]
      rw [opening_turn ho hf.cur hf.nb, traction_turn _ h, contact_turn _ h, Option.map_map]
      rcases f.prm.coh.traction (opening (faceShape o f.cur) (faceShape o f.nb) u un) f.nrm
        f.hist.maxOpening f.hist.oldOpening f.prm.dt with _ | t
      · exact (sumOpt_none _ k rfl).symm
      · simp only [Option.map_some]
        rw [sumOpt_some _ _ fun b => rfl]
        congr 1
        simp only [Function.comp_apply]
        rw [disp_turn ho f.cur hf.cur h hi, ← mulVec_smul, ← mulVec_add, rot_dot h, sum_dotProduct,
          mul_sum, sum_mul]
        refine sum_congr rfl fun b _ => ?_
        rw [smul_dotProduct, smul_eq_mul]
        ring
    · simp only [hd]
      rw [sumOpt_some _ (fun _ => 0) fun b => by simp]
      simp
  · rw [o.turnOpt_inr r _ hi]
    unfold FacePrm.rhsTerm
    simp only [o.kind_inr hi]
    rw [faceSlip_turn, faceSlip_turn]
    have : ∀ γ γn, Itf.microtraction f.prm.micro f.prm.lat (turnCrystal r f.own) (turnCrystal r f.other)
        (r *ᵥ f.nrm) γ γn a =
        Itf.microtraction f.prm.micro f.prm.lat f.own f.other f.nrm γ γn a := by
      intro γ γn
      unfold Itf.microtraction intra inter turnCrystal
      simp only [modulus_turn hf.lat h]
    rw [this]

/-- Bilinear form of a turned tensor with turned shape functions. -/
theorem bilinear_turn (h : SpecOrthogonal r) (J : Mat d) {k l : Fin d} (x y : Fin d → Vec d) :
    ((r *ᵥ ∑ b, r k b • x b) ᵥ* turnT r J) ⬝ᵥ (r *ᵥ ∑ b, r l b • y b) =
      ∑ b, r k b * ∑ b', r l b' * ((x b ᵥ* J) ⬝ᵥ y b') := by
  rw [← dotProduct_mulVec, turnT_mulVec h, rot_dot h, sum_dotProduct]
  refine sum_congr rfl fun b _ => ?_
  rw [smul_dotProduct, smul_eq_mul, mulVec_sum, dotProduct_sum]
  congr 1
  refine sum_congr rfl fun b' _ => ?_
  rw [mulVec_smul, dotProduct_smul, smul_eq_mul, dotProduct_mulVec]

theorem faceLocal_turn (ho : o.Ok) (h : SpecOrthogonal r) (f : BodyFace d e n N) (hf : f.Ok o)
    (u un : Fin N → ℝ) (i j : Fin N) :
    f.prm.localTerm o.kind (turnCrystal r f.own) (r *ᵥ f.nrm) f.jxw f.hist
      (faceShape o f.cur) (faceShape o f.nb) (o.turn r u) (o.turn r un) i j =
    o.turnOpt r (fun i => o.turnOpt r (fun j => f.prm.localTerm o.kind f.own f.nrm f.jxw f.hist
      (faceShape o f.cur) (faceShape o f.nb) u un i j) j) i := by
  rcases hi : o.comp i with k | a <;> rcases hj : o.comp j with l | b
  · rw [o.turnOpt_inl r _ hi]
    simp only [o.turnOpt_inl r _ hj]
    have hk : ∀ b, o.kind (o.sib i b) = none := fun b => o.kind_inl (ho.comp i k hi b)
    have hl : ∀ b, o.kind (o.sib j b) = none := fun b => o.kind_inl (ho.comp j l hj b)
    unfold FacePrm.localTerm
    simp only [o.kind_inl hi, o.kind_inl hj, hk, hl]
    by_cases hd : f.prm.decohesion = true
    · simp only [hd, if_true]
      rw [opening_turn ho hf.cur hf.nb, cohJacobian_turn _ h, contactJacobian_turn _ h, Option.map_map]
      rcases f.prm.coh.jacobian (opening (faceShape o f.cur) (faceShape o f.nb) u un) f.nrm
        f.hist.maxOpening f.hist.oldOpening f.prm.dt with _ | t
      · refine (sumOpt_none _ k ?_).symm
        rw [sumOpt_none _ l rfl]; rfl
      · simp only [Option.map_some]
        rw [sumOpt_some _ _ fun b => by rw [sumOpt_some _ _ fun b' => rfl]; rfl]
        congr 1
        simp only [Function.comp_apply]
        rw [disp_turn ho f.cur hf.cur h hi, disp_turn ho f.cur hf.cur h hj, dotProduct_smul,
          ← turnT_smul, ← turnT_add, bilinear_turn h]
        simp only [mul_sum, sum_mul, smul_sum, ← sum_neg_distrib]
        refine sum_congr rfl fun b _ => sum_congr rfl fun b' _ => ?_
        rw [dotProduct_smul, smul_eq_mul, smul_eq_mul]
        ring
    · simp only [hd]
      rw [sumOpt_some _ (fun _ => 0) fun b => by
        rw [sumOpt_some _ (fun _ => 0) fun b' => by simp]; simp]
      simp
  · rw [o.turnOpt_inl r _ hi]
    simp only [o.turnOpt_inr r _ hj]
    have hk : ∀ b, o.kind (o.sib i b) = none := fun b => o.kind_inl (ho.comp i k hi b)
    unfold FacePrm.localTerm
    simp only [o.kind_inl hi, o.kind_inr hj, hk]
    rw [sumOpt_some _ (fun _ => 0) fun b => by simp]
    simp
  · rw [o.turnOpt_inr r _ hi]
    simp only [o.turnOpt_inl r _ hj]
    have hl : ∀ b, o.kind (o.sib j b) = none := fun b => o.kind_inl (ho.comp j l hj b)
    unfold FacePrm.localTerm
    simp only [o.kind_inr hi, o.kind_inl hj, hl]
    rw [sumOpt_some _ (fun _ => 0) fun b => by simp]
    simp
  · rw [o.turnOpt_inr r _ hi, o.turnOpt_inr r _ hj]
    unfold FacePrm.localTerm
    simp only [o.kind_inr hi, o.kind_inr hj]
    have : intraDerivative f.prm.micro f.prm.lat (turnCrystal r f.own) (r *ᵥ f.nrm) a b =
        intraDerivative f.prm.micro f.prm.lat f.own f.nrm a b := by
      unfold intraDerivative intra turnCrystal
      rw [modulus_turn hf.lat h]
    rw [this]

theorem faceCoupling_turn (ho : o.Ok) (h : SpecOrthogonal r) (f : BodyFace d e n N) (hf : f.Ok o)
    (u un : Fin N → ℝ) (i j : Fin N) :
    f.prm.couplingTerm o.kind (turnCrystal r f.own) (turnCrystal r f.other) (r *ᵥ f.nrm) f.jxw f.hist
      (faceShape o f.cur) (faceShape o f.nb) (o.turn r u) (o.turn r un) i j =
    o.turnOpt r (fun i => o.turnOpt r (fun j => f.prm.couplingTerm o.kind f.own f.other f.nrm f.jxw
      f.hist (faceShape o f.cur) (faceShape o f.nb) u un i j) j) i := by
  rcases hi : o.comp i with k | a <;> rcases hj : o.comp j with l | b
  · rw [o.turnOpt_inl r _ hi]
    simp only [o.turnOpt_inl r _ hj]
    have hk : ∀ b, o.kind (o.sib i b) = none := fun b => o.kind_inl (ho.comp i k hi b)
    have hl : ∀ b, o.kind (o.sib j b) = none := fun b => o.kind_inl (ho.comp j l hj b)
    unfold FacePrm.couplingTerm
    simp only [o.kind_inl hi, o.kind_inl hj, hk, hl]
    by_cases hd : f.prm.decohesion = true
    · simp only [hd, if_true]
      rw [opening_turn ho hf.cur hf.nb, cohJacobian_turn _ h, contactJacobian_turn _ h, Option.map_map]
      rcases f.prm.coh.jacobian (opening (faceShape o f.cur) (faceShape o f.nb) u un) f.nrm
        f.hist.maxOpening f.hist.oldOpening f.prm.dt with _ | t
      · refine (sumOpt_none _ k ?_).symm
        rw [sumOpt_none _ l rfl]; rfl
      · simp only [Option.map_some]
        rw [sumOpt_some _ _ fun b => by rw [sumOpt_some _ _ fun b' => rfl]; rfl]
        congr 1
        simp only [Function.comp_apply]
        rw [disp_turn ho f.cur hf.cur h hi, disp_turn ho f.nb hf.nb h hj,
          ← turnT_smul, ← turnT_add, bilinear_turn h]
        simp only [mul_sum, sum_mul, ← sum_neg_distrib]
        refine sum_congr rfl fun b _ => sum_congr rfl fun b' _ => ?_
        ring
    · simp only [hd]
      rw [sumOpt_some _ (fun _ => 0) fun b => by
        rw [sumOpt_some _ (fun _ => 0) fun b' => by simp]; simp]
      simp
  · rw [o.turnOpt_inl r _ hi]
    simp only [o.turnOpt_inr r _ hj]
    have hk : ∀ b, o.kind (o.sib i b) = none := fun b => o.kind_inl (ho.comp i k hi b)
    unfold FacePrm.couplingTerm
    simp only [o.kind_inl hi, o.kind_inr hj, hk]
    rw [sumOpt_some _ (fun _ => 0) fun b => by simp]
    simp
  · rw [o.turnOpt_inr r _ hi]
    simp only [o.turnOpt_inl r _ hj]
    have hl : ∀ b, o.kind (o.sib j b) = none := fun b => o.kind_inl (ho.comp j l hj b)
    unfold FacePrm.couplingTerm
    simp only [o.kind_inr hi, o.kind_inl hj, hl]
    rw [sumOpt_some _ (fun _ => 0) fun b => by simp]
    simp
  · rw [o.turnOpt_inr r _ hi, o.turnOpt_inr r _ hj]
    unfold FacePrm.couplingTerm
    simp only [o.kind_inr hi, o.kind_inr hj]
    have : interDerivative f.prm.micro f.prm.lat (turnCrystal r f.own) (turnCrystal r f.other)
        (r *ᵥ f.nrm) a b = interDerivative f.prm.micro f.prm.lat f.own f.other f.nrm a b := by
      unfold interDerivative inter turnCrystal
      rw [modulus_turn hf.lat h]
    rw [this]

/-! ### Meshes -/

/-- A quadrature point of a loaded face at the boundary. -/
structure BodyLoad (d N : ℕ) where
  scalars : Fin N → ℝ
  value : Vec d
  jxw : ℝ

/-- A cell of the body with its grain boundary and loaded faces. -/
structure Body (d e n N : ℕ) where
  prm : CellPrm d n
  dofs : Fin N → ℕ
  Q : ℕ
  pts : Fin Q → BodyPoint d n N
  F : ℕ
  faces : Fin F → BodyFace d e n N
  B : ℕ
  loads : Fin B → BodyLoad d N

/-- The cell as the assembly sees it. -/
noncomputable def Body.grain (o : Nodes d n (Fin N)) (b : Body d e n N) : GrainCell d e n N :=
  ⟨⟨b.prm, o.kind, b.dofs, b.Q, fun q => (b.pts q).point o⟩, b.F, fun f => (b.faces f).view o, b.B,
    fun l => ⟨faceShape o (b.loads l).scalars, (b.loads l).value, (b.loads l).jxw⟩⟩

/-- The turned cell. -/
noncomputable def Body.turned (r : Mat d) (b : Body d e n N) : Body d e n N :=
  ⟨turnPrm r b.prm, b.dofs, b.Q, fun q => (b.pts q).turned r, b.F, fun f => (b.faces f).turned r, b.B,
    fun l => ⟨(b.loads l).scalars, r *ᵥ (b.loads l).value, (b.loads l).jxw⟩⟩

/-- Local and global degrees of freedom agree. -/
structure SpecNumbered (o : Nodes d n (Fin N)) (O : Nodes d n ℕ) (dofs : Fin N → ℕ) : Prop where
  comp : ∀ i, O.comp (dofs i) = o.comp i
  sib : ∀ i c, o.comp i = .inl c → ∀ b, O.sib (dofs i) b = dofs (o.sib i b)

/-- The components of the displacement share scalar shape functions, and the numbering agrees. -/
structure Body.Ok (o : Nodes d n (Fin N)) (O : Nodes d n ℕ) (b : Body d e n N) : Prop where
  dofs : SpecNumbered o O b.dofs
  nbDofs : ∀ f, SpecNumbered o O (b.faces f).nbDofs
  pts : ∀ q, (b.pts q).Ok o
  faces : ∀ f, (b.faces f).Ok o
  loads : ∀ l, SpecNodal o (b.loads l).scalars

/-- Constraints treat all displacement components of a support point alike and do not mix components
(hanging nodes, periodicity, clamped or prescribed displacement vectors). -/
structure SpecVectorial (O : Nodes d n ℕ) (K : Sol.Constraints ℕ) : Prop where
  comp : ∀ g l, K g = some l → ∀ x ∈ l.entries, O.comp x.1 = O.comp g
  sib : ∀ g c, O.comp g = .inl c → ∀ b, (K (O.sib g b)).map Sol.Line.entries =
    (K g).map fun l => l.entries.map fun x => (O.sib x.1 b, x.2)

/-- Constraints of the turned specimen: prescribed vectors are turned. -/
noncomputable def Nodes.turnK (O : Nodes d n ℕ) (r : Mat d) (K : Sol.Constraints ℕ) :
    Sol.Constraints ℕ := fun g =>
  (K g).map fun l => ⟨l.entries, O.turn r (fun g => ((K g).map Sol.Line.inhom).getD 0) g⟩

theorem turn_dofs {O : Nodes d n ℕ} {dofs : Fin N → ℕ} (h : SpecNumbered o O dofs) (u : ℕ → ℝ) :
    O.turn r u ∘ dofs = o.turn r (u ∘ dofs) := by
  funext i
  simp only [Function.comp_apply, Nodes.turn, h.comp]
  rcases hi : o.comp i with c | a
  · exact sum_congr rfl fun b _ => by rw [h.sib i c hi]
  · rfl

theorem turnOpt_bind {I : Type} (o : Nodes d n I) (r : Mat d) (f g : I → Option ℝ) (z : I → ℝ) (i : I) :
    ((o.turnOpt r f i).bind fun x => (o.turnOpt r g i).map fun y => x + y + o.turn r z i) =
      o.turnOpt r (fun j => (f j).bind fun x => (g j).map fun y => x + y + z j) i := by
  rcases hi : o.comp i with c | a
  · rw [o.turnOpt_inl r _ hi, o.turnOpt_inl r _ hi, o.turnOpt_inl r _ hi]
    by_cases hf : ∃ b, f (o.sib i b) = none
    · obtain ⟨b, hb⟩ := hf
      rw [sumOpt_none _ b (by rw [hb]; rfl)]
      exact (sumOpt_none _ b (by rw [hb]; rfl)).symm
    by_cases hg : ∃ b, g (o.sib i b) = none
    · obtain ⟨b, hb⟩ := hg
      rw [sumOpt_none (fun b => Option.map (fun x => r c b * x) (g (o.sib i b))) b (by rw [hb]; rfl)]
      rw [sumOpt_none (fun b => Option.map (fun x => r c b * x)
        ((f (o.sib i b)).bind fun x => (g (o.sib i b)).map fun y => x + y + z (o.sib i b))) b
        (by rw [hb]; cases f (o.sib i b) <;> rfl)]
      cases sumOpt fun b => Option.map (fun x => r c b * x) (f (o.sib i b)) <;> rfl
    push Not at hf hg
    choose F hF using fun b => Option.ne_none_iff_exists'.1 (hf b)
    choose G hG using fun b => Option.ne_none_iff_exists'.1 (hg b)
    rw [sumOpt_some _ (fun b => r c b * F b) fun b => by rw [hF]; rfl,
      sumOpt_some _ (fun b => r c b * G b) fun b => by rw [hG]; rfl,
      sumOpt_some _ (fun b => r c b * (F b + G b + z (o.sib i b))) fun b => by rw [hF, hG]; rfl]
    simp only [Option.bind_some, Option.map_some, Nodes.turn, hi]
    rw [← sum_add_distrib, ← sum_add_distrib]
    congr 1
    exact sum_congr rfl fun b _ => by ring
  · rw [o.turnOpt_inr r _ hi, o.turnOpt_inr r _ hi, o.turnOpt_inr r _ hi]
    simp only [Nodes.turn, hi]

/-- The whole local right-hand side. -/
noncomputable def Body.rhs (o : Nodes d n (Fin N)) (b : Body d e n N) (u : ℕ → ℝ) (i : Fin N) : Option ℝ :=
  localRhs (b.grain o).cell.prm (b.grain o).cell.kind (b.grain o).cell.pts (b.grain o).cell.dofs
    (b.grain o).views (b.grain o).loads u i

theorem Nodes.turn_sum {ι I : Type} (o : Nodes d n I) (r : Mat d) (s : Finset ι) (f : ι → I → ℝ) (i : I) :
    o.turn r (fun j => ∑ x ∈ s, f x j) i = ∑ x ∈ s, o.turn r (f x) i := by
  unfold Nodes.turn
  rcases o.comp i with c | a
  · simp only [mul_sum]
    exact sum_comm
  · rfl

theorem neumann_turn (ho : o.Ok) (h : SpecOrthogonal r) (l : BodyLoad d N) (hl : SpecNodal o l.scalars)
    (i : Fin N) : neumannTerm (faceShape o l.scalars) (r *ᵥ l.value) l.jxw i =
      o.turn r (fun j => neumannTerm (faceShape o l.scalars) l.value l.jxw j) i := by
  unfold neumannTerm
  rcases hi : o.comp i with c | a
  · rw [disp_turn ho l.scalars hl h hi, rot_dot h, sum_dotProduct, sum_mul]
    simp only [Nodes.turn, hi]
    refine sum_congr rfl fun b _ => ?_
    rw [smul_dotProduct, smul_eq_mul, mul_assoc]
  · simp only [Nodes.turn, hi]
    have : (faceShape o l.scalars).disp i = 0 := by simp only [faceShape, hi]
    rw [this]; simp

theorem bodyRhs_turn (ho : o.Ok) (h : SpecOrthogonal r) {O : Nodes d n ℕ} (b : Body d e n N)
    (hb : b.Ok o O) (u : ℕ → ℝ) (i : Fin N) :
    (b.turned r).rhs o (O.turn r u) i = o.turnOpt r (b.rhs o u) i := by
  have e1 : (turnPrm r b.prm).rhs o.kind (fun q => ((b.pts q).turned r).point o)
      (O.turn r u ∘ b.dofs) i =
      o.turnOpt r (fun j => b.prm.rhs o.kind (fun q => (b.pts q).point o) (u ∘ b.dofs) j) i := by
    rw [turn_dofs hb.dofs]
    unfold CellPrm.rhs
    rw [← o.turnOpt_sum]
    congr 1
    funext q
    exact rhsTerm_turn ho h b.prm (b.pts q) (hb.pts q) _ i
  have e2 : (sumOpt fun f => (b.faces f).prm.rhsTerm o.kind (turnCrystal r (b.faces f).own)
      (turnCrystal r (b.faces f).other) (r *ᵥ (b.faces f).nrm) (b.faces f).jxw (b.faces f).hist
      (faceShape o (b.faces f).cur) (faceShape o (b.faces f).nb) (O.turn r u ∘ b.dofs)
      (O.turn r u ∘ (b.faces f).nbDofs) i) =
      o.turnOpt r (fun j => sumOpt fun f => (b.faces f).prm.rhsTerm o.kind (b.faces f).own
        (b.faces f).other (b.faces f).nrm (b.faces f).jxw (b.faces f).hist
        (faceShape o (b.faces f).cur) (faceShape o (b.faces f).nb) (u ∘ b.dofs)
        (u ∘ (b.faces f).nbDofs) j) i := by
    rw [← o.turnOpt_sum]
    congr 1
    funext f
    rw [turn_dofs hb.dofs, turn_dofs (hb.nbDofs f)]
    exact faceTerm_turn ho h (b.faces f) (hb.faces f) _ _ i
  have e3 : ∑ l, neumannTerm (faceShape o (b.loads l).scalars) (r *ᵥ (b.loads l).value)
      (b.loads l).jxw i = o.turn r (fun j => ∑ l, neumannTerm (faceShape o (b.loads l).scalars)
        (b.loads l).value (b.loads l).jxw j) i := by
    rw [o.turn_sum]
    exact sum_congr rfl fun l _ => neumann_turn ho h (b.loads l) (hb.loads l) i
  have e := turnOpt_bind o r
    (fun j => b.prm.rhs o.kind (fun q => (b.pts q).point o) (u ∘ b.dofs) j)
    (fun j => sumOpt fun f => (b.faces f).prm.rhsTerm o.kind (b.faces f).own
        (b.faces f).other (b.faces f).nrm (b.faces f).jxw (b.faces f).hist
        (faceShape o (b.faces f).cur) (faceShape o (b.faces f).nb) (u ∘ b.dofs)
        (u ∘ (b.faces f).nbDofs) j)
    (fun j => ∑ l, neumannTerm (faceShape o (b.loads l).scalars) (b.loads l).value (b.loads l).jxw j) i
  rw [← e1, ← e2, ← e3] at e
  exact e

/-! ### The global residual -/

theorem Nodes.turn_turn {I : Type} {O : Nodes d n I} (hO : O.Ok) (r s : Mat d) (u : I → ℝ) :
    O.turn r (O.turn s u) = O.turn (r * s) u := by
  funext g
  rcases hg : O.comp g with c | a
  · simp only [Nodes.turn, hg, hO.comp g c hg, hO.same g c hg, Matrix.mul_apply, sum_mul, mul_sum]
    rw [sum_comm]
    exact sum_congr rfl fun _ _ => sum_congr rfl fun _ _ => by ring
  · simp only [Nodes.turn, hg]

theorem Nodes.turn_one {I : Type} {O : Nodes d n I} (hO : O.Ok) (u : I → ℝ) : O.turn 1 u = u := by
  funext g
  rcases hg : O.comp g with c | a
  · simp only [Nodes.turn, hg, Matrix.one_apply, ite_mul, one_mul, zero_mul]
    rw [sum_ite_eq, if_pos (mem_univ _), hO.self g c hg]
  · simp only [Nodes.turn, hg]

theorem Nodes.turn_back {I : Type} {O : Nodes d n I} (hO : O.Ok) (h : SpecOrthogonal r) (u : I → ℝ) :
    O.turn rᵀ (O.turn r u) = u := by rw [O.turn_turn hO, h, O.turn_one hO]

theorem weight_turnK (O : Nodes d n ℕ) (K : Sol.Constraints ℕ) (g k : ℕ) :
    weight (O.turnK r K) g k = weight K g k := by
  unfold weight Nodes.turnK
  rcases K g with _ | l <;> rfl

theorem weight_comp {O : Nodes d n ℕ} {K : Sol.Constraints ℕ} (hK : SpecVectorial O K) {g k : ℕ}
    (h : O.comp g ≠ O.comp k) : weight K g k = 0 := by
  unfold weight
  rcases hg : K g with _ | l
  · exact if_neg fun e => h (by rw [e])
  · refine List.sum_eq_zero fun y hy => ?_
    obtain ⟨x, hx, rfl⟩ := List.mem_map.1 hy
    exact if_neg fun e => h (by rw [← hK.comp g l hg x hx, e])

theorem Nodes.sib_inj {I : Type} {O : Nodes d n I} (hO : O.Ok) {g k : I} {c : Fin d} (hg : O.comp g = .inl c)
    (hk : O.comp k = .inl c) (b : Fin d) : O.sib g b = O.sib k b ↔ g = k := by
  refine ⟨fun h => ?_, fun h => by rw [h]⟩
  rw [← hO.self g c hg, ← hO.self k c hk, ← hO.same g c hg b, ← hO.same k c hk b, h]

theorem weight_sib {O : Nodes d n ℕ} (hO : O.Ok) {K : Sol.Constraints ℕ} (hK : SpecVectorial O K)
    {g k : ℕ} {c : Fin d} (hg : O.comp g = .inl c) (hk : O.comp k = .inl c) (b : Fin d) :
    weight K (O.sib g b) (O.sib k b) = weight K g k := by
  have hs := hK.sib g c hg b
  unfold weight
  rcases h1 : K g with _ | l
  · rw [h1] at hs
    rcases h2 : K (O.sib g b) with _ | l'
    · simp only
      by_cases e : g = k
      · rw [if_pos e, if_pos (by rw [e])]
      · rw [if_neg e, if_neg fun e' => e ((O.sib_inj hO hg hk b).1 e')]
    · rw [h2] at hs; cases hs
  · rw [h1] at hs
    rcases h2 : K (O.sib g b) with _ | l'
    · rw [h2] at hs; cases hs
    · rw [h2] at hs
      simp only [Option.map_some, Option.some.injEq] at hs
      simp only [hs, List.map_map]
      congr 1
      refine List.map_congr_left fun x hx => ?_
      have hx' : O.comp x.1 = .inl c := by rw [hK.comp g l h1 x hx, hg]
      simp only [Function.comp_apply]
      by_cases e : x.1 = k
      · rw [if_pos e, if_pos (by rw [e])]
      · rw [if_neg e, if_neg fun e' => e ((O.sib_inj hO hx' hk b).1 e')]

theorem distribute_turn (ho : o.Ok) {O : Nodes d n ℕ} (hO : O.Ok) {K : Sol.Constraints ℕ}
    (hK : SpecVectorial O K) {dofs : Fin N → ℕ} (hd : SpecNumbered o O dofs) (R : Fin N → ℝ) (g : ℕ) :
    ∑ i, weight K (dofs i) g * o.turn r R i = O.turn r (fun g => ∑ i, weight K (dofs i) g * R i) g := by
  rcases hg : O.comp g with c | a
  · let F : Fin N × Fin d → ℝ := fun x => match o.comp x.1 with
      | .inl k => weight K (dofs x.1) g * (r k x.2 * R (o.sib x.1 x.2))
      | .inr _ => 0
    let G : Fin N × Fin d → ℝ := fun x => match o.comp x.1 with
      | .inl k => weight K (dofs x.1) (O.sib g x.2) * (r c x.2 * R x.1) * (if x.2 = k then 1 else 0)
      | .inr _ => 0
    have h1 : ∀ i, weight K (dofs i) g * o.turn r R i = ∑ b, F (i, b) := by
      intro i
      simp only [F, Nodes.turn]
      rcases hi : o.comp i with k | a
      · simp only [mul_sum]
      · rw [weight_comp hK (by rw [hd.comp, hi, hg]; simp)]; simp
    have h2 : O.turn r (fun g => ∑ i, weight K (dofs i) g * R i) g = ∑ i, ∑ b, G (i, b) := by
      simp only [Nodes.turn, hg, mul_sum]
      rw [sum_comm]
      refine sum_congr rfl fun i _ => sum_congr rfl fun b _ => ?_
      simp only [G]
      rcases hi : o.comp i with k | a
      · simp only
        by_cases e : b = k
        · rw [if_pos e]; ring
        · rw [if_neg e, weight_comp hK (by
            rw [hd.comp, hi, hO.comp g c hg]; intro e'; exact e (Sum.inl.inj e').symm)]
          ring
      · rw [weight_comp hK (by rw [hd.comp, hi, hO.comp g c hg]; simp)]; simp
    rw [sum_congr rfl fun i _ => h1 i, h2, ← Fintype.sum_prod_type, ← Fintype.sum_prod_type]
    rw [← Equiv.sum_comp ((Nodes.flip_flip ho).toPerm _) F, Fintype.sum_prod_type, Fintype.sum_prod_type]
    refine sum_congr rfl fun i _ => ?_
    simp only [Function.Involutive.coe_toPerm, Nodes.flip, F, G]
    rcases hi : o.comp i with k | a
    · simp only [ho.comp i k hi, ho.same i k hi, ho.self i k hi]
      rw [sum_eq_single c, sum_eq_single k]
      · rw [if_pos rfl, mul_one]
        congr 1
        rw [← hd.sib i k hi, ← weight_sib hO hK (by rw [hd.comp, hi]) (hO.comp g c hg k) c,
          hO.same g c hg, hO.self g c hg]
      · intro b _ hb; rw [if_neg hb, mul_zero]
      · intro hb; exact absurd (mem_univ _) hb
      · intro b _ hb
        rw [weight_comp hK (by
          rw [← hd.sib i k hi, hO.comp _ k (by rw [hd.comp, hi]), hg]
          intro e'; exact hb (Sum.inl.inj e')), zero_mul]
      · intro hb; exact absurd (mem_univ _) hb
    · simp only [hi]
  · simp only [Nodes.turn, hg]
    refine sum_congr rfl fun i _ => ?_
    rcases hi : o.comp i with k | a'
    · rw [weight_comp hK (by rw [hd.comp, hi, hg]; simp)]; simp
    · rfl

/-! ## C101: the discretised problem -/

/-- C101, cells: local right-hand side and matrix of the turned cell in the turned state are the
turned ones of the cell, also if they are NaN. -/
theorem C101_cell {Q : ℕ} (ho : o.Ok) (h : SpecOrthogonal r) (c : CellPrm d n)
    (pts : Fin Q → BodyPoint d n N) (hp : ∀ q, (pts q).Ok o) (u : Fin N → ℝ) :
    (∀ i, (turnPrm r c).rhs o.kind (fun q => ((pts q).turned r).point o) (o.turn r u) i =
      o.turnOpt r (fun i => c.rhs o.kind (fun q => (pts q).point o) u i) i) ∧
    (∀ i j, (turnPrm r c).mat o.kind (fun q => ((pts q).turned r).point o) (o.turn r u) i j =
      o.turnOpt r (fun i => o.turnOpt r
        (fun j => c.mat o.kind (fun q => (pts q).point o) u i j) j) i) := by
  constructor
  · intro i
    unfold CellPrm.rhs
    rw [← o.turnOpt_sum]
    congr 1
    funext q
    exact rhsTerm_turn ho h c (pts q) (hp q) u i
  · intro i j
    unfold CellPrm.mat
    simp only [← o.turnOpt_sum]
    congr 1
    funext q
    exact matTerm_turn ho h c (pts q) (hp q) u i j

/-- C101, grain boundaries: the same for the contributions of a face, in two and three dimensions. -/
theorem C101_face (ho : o.Ok) (h : SpecOrthogonal r) (f : BodyFace d e n N) (hf : f.Ok o)
    (u un : Fin N → ℝ) :
    (∀ i, f.prm.rhsTerm o.kind (turnCrystal r f.own) (turnCrystal r f.other) (r *ᵥ f.nrm) f.jxw f.hist
        (faceShape o f.cur) (faceShape o f.nb) (o.turn r u) (o.turn r un) i =
      o.turnOpt r (fun i => f.prm.rhsTerm o.kind f.own f.other f.nrm f.jxw f.hist (faceShape o f.cur)
        (faceShape o f.nb) u un i) i) ∧
    (∀ i j, f.prm.localTerm o.kind (turnCrystal r f.own) (r *ᵥ f.nrm) f.jxw f.hist
        (faceShape o f.cur) (faceShape o f.nb) (o.turn r u) (o.turn r un) i j =
      o.turnOpt r (fun i => o.turnOpt r (fun j => f.prm.localTerm o.kind f.own f.nrm f.jxw f.hist
        (faceShape o f.cur) (faceShape o f.nb) u un i j) j) i) ∧
    (∀ i j, f.prm.couplingTerm o.kind (turnCrystal r f.own) (turnCrystal r f.other) (r *ᵥ f.nrm) f.jxw
        f.hist (faceShape o f.cur) (faceShape o f.nb) (o.turn r u) (o.turn r un) i j =
      o.turnOpt r (fun i => o.turnOpt r (fun j => f.prm.couplingTerm o.kind f.own f.other f.nrm f.jxw
        f.hist (faceShape o f.cur) (faceShape o f.nb) u un i j) j) i) :=
  ⟨faceTerm_turn ho h f hf u un, faceLocal_turn ho h f hf u un, faceCoupling_turn ho h f hf u un⟩

theorem turn_list {ι : Type*} {I : Type} (O : Nodes d n I) (r : Mat d) (f : ι → I → ℝ) (l : List ι) (g : I) :
    O.turn r (fun g => (l.map fun x => f x g).sum) g = (l.map fun x => O.turn r (f x) g).sum := by
  induction l with
  | nil =>
    unfold Nodes.turn
    rcases O.comp g <;> simp
  | cons x t ih =>
    rw [List.map_cons, List.sum_cons, ← ih]
    simp only [List.map_cons, List.sum_cons]
    unfold Nodes.turn
    rcases O.comp g with c | a
    · simp only [mul_add, sum_add_distrib]
    · rfl

theorem residual_turn (ho : o.Ok) {O : Nodes d n ℕ} (hO : O.Ok) {K : Sol.Constraints ℕ}
    (hK : SpecVectorial O K) (cells : List (Body d e n N)) (hc : ∀ b ∈ cells, b.Ok o O)
    (R R' : GrainCell d e n N → Fin N → ℝ)
    (hR : ∀ b ∈ cells, R' ((b.turned r).grain o) = o.turn r (R (b.grain o))) (g : ℕ) :
    Lin.residual (O.turnK r K) ((cells.map fun b => (b.turned r).grain o).map fun c => c.local R') g =
      O.turn r (Lin.residual K ((cells.map fun b => b.grain o).map fun c => c.local R)) g := by
  have e : ∀ g, Lin.residual K ((cells.map fun b => b.grain o).map fun c => c.local R) g =
      (cells.map fun b => ∑ i, weight K (b.dofs i) g * R (b.grain o) i).sum := by
    intro g
    unfold Lin.residual
    rw [List.map_map, List.map_map]
    rfl
  have e' : Lin.residual (O.turnK r K)
      ((cells.map fun b => (b.turned r).grain o).map fun c => c.local R') g =
      (cells.map fun b => O.turn r (fun g => ∑ i, weight K (b.dofs i) g * R (b.grain o) i) g).sum := by
    unfold Lin.residual
    rw [List.map_map, List.map_map]
    congr 1
    refine List.map_congr_left fun b hb => ?_
    simp only [Function.comp_apply, GrainCell.local, weight_turnK, hR b hb]
    exact distribute_turn ho hO hK (hc b hb).dofs _ g
  rw [e', funext e]
  exact (turn_list O r _ cells g).symm

/-- The degrees of freedom of a support point are all among the first `m`. -/
def SpecWhole (O : Nodes d n ℕ) (m : ℕ) : Prop := ∀ g < m, ∀ c, O.comp g = .inl c → ∀ b, O.sib g b < m

theorem turn_zero_iff {O : Nodes d n ℕ} (hO : O.Ok) (h : SpecOrthogonal r) {m : ℕ} (hm : SpecWhole O m)
    (f : ℕ → ℝ) : (∀ g < m, O.turn r f g = 0) ↔ ∀ g < m, f g = 0 := by
  have key : ∀ (r : Mat d) (f : ℕ → ℝ), (∀ g < m, f g = 0) → ∀ g < m, O.turn r f g = 0 := by
    intro r f hf g hg
    unfold Nodes.turn
    rcases hgc : O.comp g with c | a
    · exact sum_eq_zero fun b _ => by rw [hf _ (hm g hg c hgc b), mul_zero]
    · exact hf g hg
  refine ⟨fun hf g hg => ?_, key r f⟩
  have := key rᵀ _ hf g hg
  rwa [O.turn_back hO h] at this

theorem turnOpt_inv {I : Type} {O : Nodes d n I} (hO : O.Ok) {f : I → Option ℝ} {g : I → ℝ}
    (hf : ∀ i, O.turnOpt r f i = some (g i)) (i : I) : ∃ x, f i = some x := by
  have := hf i
  rcases hi : O.comp i with c | a
  · rw [O.turnOpt_inl r f hi] at this
    obtain ⟨y, hy, _⟩ := sumOpt_inv _ this
    have h1 := hy c
    rw [hO.self i c hi] at h1
    rcases hx : f i with _ | x
    · rw [hx] at h1; cases h1
    · exact ⟨x, rfl⟩
  · rw [O.turnOpt_inr r f hi] at this
    exact ⟨_, this⟩

theorem satisfies_turn {O : Nodes d n ℕ} {K : Sol.Constraints ℕ} (hK : SpecVectorial O K)
    (r : Mat d) {u : ℕ → ℝ} (hu : Sol.Satisfies K u) : Sol.Satisfies (O.turnK r K) (O.turn r u) := by
  intro g l hg
  unfold Nodes.turnK at hg
  obtain ⟨l, hl, rfl⟩ := Option.map_eq_some_iff.1 hg
  unfold Sol.Line.eval
  rcases hgc : O.comp g with c | a
  · have hx : ∀ x ∈ l.entries, O.comp x.1 = .inl c := fun x hx => by rw [hK.comp g l hl x hx, hgc]
    have e : ∀ b, u (O.sib g b) = (l.entries.map fun x => x.2 * u (O.sib x.1 b)).sum +
        ((K (O.sib g b)).map Sol.Line.inhom).getD 0 := by
      intro b
      have hs := hK.sib g c hgc b
      rw [hl] at hs
      rcases hb : K (O.sib g b) with _ | l'
      · rw [hb] at hs; cases hs
      · rw [hb] at hs
        simp only [Option.map_some, Option.some.injEq] at hs
        rw [hu _ _ hb]
        unfold Sol.Line.eval
        rw [hs, List.map_map]
        rfl
    have e1 : (l.entries.map fun x => x.2 * O.turn r u x.1).sum =
        ∑ b, r c b * (l.entries.map fun x => x.2 * u (O.sib x.1 b)).sum := by
      have : ∀ L : List (ℕ × ℝ), (∀ x ∈ L, O.comp x.1 = .inl c) →
          (L.map fun x => x.2 * O.turn r u x.1).sum =
            ∑ b, r c b * (L.map fun x => x.2 * u (O.sib x.1 b)).sum := by
        intro L
        induction L with
        | nil => intro _; simp
        | cons x t ih =>
          intro hL
          simp only [List.map_cons, List.sum_cons, mul_add, sum_add_distrib]
          rw [ih fun y hy => hL y (List.mem_cons_of_mem _ hy)]
          congr 1
          have hxc := hL x List.mem_cons_self
          simp only [Nodes.turn, hxc, mul_sum]
          exact sum_congr rfl fun b _ => by ring
      exact this _ hx
    rw [e1]
    simp only [Nodes.turn, hgc]
    rw [← sum_add_distrib]
    exact sum_congr rfl fun b _ => by rw [e, mul_add]
  · have hx : ∀ x ∈ l.entries, O.turn r u x.1 = u x.1 := fun x hx => by
      have : O.comp x.1 = .inr a := by rw [hK.comp g l hl x hx, hgc]
      simp only [Nodes.turn, this]
    have e1 : (l.entries.map fun x => x.2 * O.turn r u x.1) = l.entries.map fun x => x.2 * u x.1 :=
      List.map_congr_left fun x hxx => by rw [hx x hxx]
    rw [e1]
    simp only [Nodes.turn, hgc, hl]
    exact hu g l hl

theorem turnK_vectorial {O : Nodes d n ℕ} {K : Sol.Constraints ℕ} (hK : SpecVectorial O K) (r : Mat d) :
    SpecVectorial O (O.turnK r K) := by
  have e : ∀ g, (O.turnK r K g).map Sol.Line.entries = (K g).map Sol.Line.entries := by
    intro g; unfold Nodes.turnK; rw [Option.map_map]; rfl
  refine ⟨fun g l hg x hx => ?_, fun g c hg b => ?_⟩
  · obtain ⟨l', hl', rfl⟩ := Option.map_eq_some_iff.1 hg
    exact hK.comp g l' hl' x hx
  · rw [e, hK.sib g c hg b]
    unfold Nodes.turnK
    rw [Option.map_map]
    rfl

theorem turnK_back {O : Nodes d n ℕ} (hO : O.Ok) (h : SpecOrthogonal r) {K : Sol.Constraints ℕ}
    (hK : SpecVectorial O K) : O.turnK rᵀ (O.turnK r K) = K := by
  have hin : (fun g => ((O.turnK r K g).map Sol.Line.inhom).getD 0) =
      O.turn r fun g => ((K g).map Sol.Line.inhom).getD 0 := by
    funext g
    unfold Nodes.turnK
    rcases hg : K g with _ | l
    · simp only [Option.map_none, Option.getD_none, Nodes.turn]
      rcases hgc : O.comp g with c | a
      · refine (sum_eq_zero fun b _ => ?_).symm
        have hs := hK.sib g c hgc b
        rw [hg] at hs
        rcases hb : K (O.sib g b) with _ | l'
        · simp
        · rw [hb] at hs; cases hs
      · simp [hg]
    · rfl
  funext g
  show (O.turnK r K g).map _ = _
  rw [hin, O.turn_back hO h]
  unfold Nodes.turnK
  rw [Option.map_map]
  rcases hg : K g with _ | l
  · rfl
  · simp [hg]

/-- C101: a state solves a time step of a polycrystal if and only if the turned state solves the step of
the turned polycrystal; it fulfils the constraints if and only if the turned state fulfils the turned
ones. -/
theorem C101_solution (ho : o.Ok) (h : SpecOrthogonal r) {O : Nodes d n ℕ} (hO : O.Ok)
    {K : Sol.Constraints ℕ} (hK : SpecVectorial O K) (cells : List (Body d e n N))
    (hc : ∀ b ∈ cells, b.Ok o O) {m : ℕ} (hm : SpecWhole O m) (u : ℕ → ℝ) :
    (SpecGrainSolution (cells.map fun b => (b.turned r).grain o) (O.turnK r K) m (O.turn r u) ↔
      SpecGrainSolution (cells.map fun b => b.grain o) K m u) ∧
    (Sol.Satisfies (O.turnK r K) (O.turn r u) ↔ Sol.Satisfies K u) := by
  refine ⟨⟨?_, ?_⟩, fun hs => ?_, satisfies_turn hK r⟩
  · rintro ⟨R', hR', hz⟩
    have hv : ∀ b ∈ cells, ∀ i, o.turnOpt r (b.rhs o u) i = some (R' ((b.turned r).grain o) i) := by
      intro b hb i
      rw [← bodyRhs_turn ho h b (hc b hb)]
      exact hR' _ (List.mem_map_of_mem (f := fun b => (b.turned r).grain o) hb) i
    let R : GrainCell d e n N → Fin N → ℝ := fun g i =>
      (localRhs g.cell.prm g.cell.kind g.cell.pts g.cell.dofs g.views g.loads u i).getD 0
    have hR : ∀ b ∈ cells, ∀ i, b.rhs o u i = some (R (b.grain o) i) := by
      intro b hb i
      obtain ⟨x, hx⟩ := turnOpt_inv ho (hv b hb) i
      show _ = some ((b.rhs o u i).getD 0)
      rw [hx]; rfl
    refine ⟨R, ?_, ?_⟩
    · intro g hg i
      obtain ⟨b, hb, rfl⟩ := List.mem_map.1 hg
      exact hR b hb i
    · rw [← turn_zero_iff hO h hm]
      intro g hg
      rw [← residual_turn ho hO hK cells hc R R' _ g]
      · exact hz g hg
      · intro b hb
        funext i
        have h1 := hv b hb i
        rw [o.turnOpt_some r _ _ (hR b hb)] at h1
        exact (Option.some.inj h1).symm
  · rintro ⟨R, hR, hz⟩
    have hv : ∀ b ∈ cells, ∀ i, (b.turned r).rhs o (O.turn r u) i =
        some (o.turn r (R (b.grain o)) i) := by
      intro b hb i
      rw [bodyRhs_turn ho h b (hc b hb)]
      exact o.turnOpt_some r _ _
        (fun i => hR _ (List.mem_map_of_mem (f := fun b => b.grain o) hb) i) i
    let R' : GrainCell d e n N → Fin N → ℝ := fun g i =>
      (localRhs g.cell.prm g.cell.kind g.cell.pts g.cell.dofs g.views g.loads (O.turn r u) i).getD 0
    have hR' : ∀ b ∈ cells, R' ((b.turned r).grain o) = o.turn r (R (b.grain o)) := by
      intro b hb
      funext i
      show ((b.turned r).rhs o (O.turn r u) i).getD 0 = _
      rw [hv b hb i]; rfl
    refine ⟨R', ?_, ?_⟩
    · intro g hg i
      obtain ⟨b, hb, rfl⟩ := List.mem_map.1 hg
      rw [hR' b hb]
      exact hv b hb i
    · intro g hg
      rw [residual_turn ho hO hK cells hc R R' hR' g]
      exact (turn_zero_iff hO h hm _).2 hz g hg
  · have := satisfies_turn (turnK_vectorial hK r) rᵀ hs
    rwa [turnK_back hO h hK, O.turn_back hO h] at this

end Verif.Asm
