import Verif.Props.Polycrystal
import Verif.Props.Params
import Verif.Props.Output
import Verif.Props.Rigid
import Verif.Props.TrialMicro

/-!
# Numbering and orientation of slip systems (C100)

A slip system may be described by either of its two slip directions and either of its two normals,
and the systems may be listed in any order.
-/

namespace Verif.Asm
open Matrix Finset Verif.Cry Verif.Hist Verif.Micro Verif.Lin Verif.Itf

variable {d e n N : ℕ}

/-! ## Specification -/

/-- Another description of the same slip systems: the order in which they are listed, and which
directions and normals are reversed.  Degrees of freedom are numbered anew in the cells and in the
mesh. -/
structure Naming (n N : ℕ) where
  /-- the system listed as number `b` was number `order b` before -/
  order : Equiv.Perm (Fin n)
  /-- whether the slip direction of a system (old number) is reversed -/
  direction : Fin n → Bool
  /-- whether the normal of a system (old number) is reversed -/
  normal : Fin n → Bool
  /-- the local degree of freedom `i` was `local i` before -/
  inCell : Equiv.Perm (Fin N)
  /-- the global degree of freedom `g` becomes `inMesh g` -/
  inMesh : Equiv.Perm ℕ

/-- `-1` for reversed. -/
noncomputable def orient (b : Bool) : ℝ := if b then -1 else 1

/-- Factor by which the slip of a system (old number) changes: a reversed direction or a reversed
normal reverses the sense of slip. -/
noncomputable def Naming.sign (w : Naming n N) (a : Fin n) : ℝ :=
  orient (w.direction a) * orient (w.normal a)

/-- The slip systems in the new description. -/
noncomputable def Naming.systems (w : Naming n N) (s : Fin n → System d) : Fin n → System d := fun b =>
  ⟨orient (w.direction (w.order b)) • (s (w.order b)).direction,
    orient (w.normal (w.order b)) • (s (w.order b)).normal, w.sign (w.order b) • (s (w.order b)).third⟩

/-- Slips in the new description. -/
noncomputable def Naming.slips (w : Naming n N) (γ : Fin n → ℝ) : Fin n → ℝ := fun b =>
  w.sign (w.order b) * γ (w.order b)

/-- History of a quadrature point in the new description: resistances are listed in the new order. -/
def Naming.hist (w : Naming n N) (b : Bulk n) : Bulk n := ⟨b.prm, b.res ∘ w.order, b.tmp ∘ w.order⟩

/-- Kinds of the local degrees of freedom. -/
def Naming.kind (w : Naming n N) (k : Kind n N) : Kind n N := fun i =>
  (k (w.inCell i)).map w.order.symm

/-- Factor by which the coefficient of a degree of freedom changes. -/
noncomputable def Naming.factor (w : Naming n N) : Option (Fin n) → ℝ
  | none => 1
  | some a => w.sign a

/-- Shape functions: those of system `order b` are listed for `b`. -/
def Naming.shape (w : Naming n N) (s : Shape d n N) : Shape d n N :=
  ⟨s.jxw, s.disp ∘ w.inCell, s.symGrad ∘ w.inCell, fun b i => s.phi (w.order b) (w.inCell i),
    fun b i => s.grad (w.order b) (w.inCell i)⟩

/-- Shape functions on a face. -/
def Naming.side (w : Naming n N) (s : Side d n N) : Side d n N :=
  ⟨s.disp ∘ w.inCell, fun b i => s.phi (w.order b) (w.inCell i)⟩

/-- A quadrature point. -/
noncomputable def Naming.point (w : Naming n N) (p : Point d n N) : Point d n N :=
  ⟨w.shape p.shape, p.supply, w.hist p.hist, w.slips p.old⟩

/-- Material data of a cell. -/
noncomputable def Naming.prm (w : Naming n N) (c : CellPrm d n) : CellPrm d n :=
  { c with sys := w.systems c.sys }

/-- Coefficients of a cell. -/
noncomputable def Naming.coeff (w : Naming n N) (k : Kind n N) (u : Fin N → ℝ) : Fin N → ℝ := fun i =>
  w.factor (k (w.inCell i)) * u (w.inCell i)

/-- A grain boundary face as a cell sees it. -/
noncomputable def Naming.view (w : Naming n N) (f : View d e n N) : View d e n N :=
  ⟨f.prm, w.systems f.own, w.systems f.other, f.nrm, f.jxw, f.hist, w.side f.cur, w.side f.nb,
    w.inMesh ∘ f.nbDofs ∘ w.inCell⟩

/-- A loaded face. -/
def Naming.loaded (w : Naming n N) (l : Loaded d n N) : Loaded d n N := ⟨w.side l.side, l.value, l.jxw⟩

/-- A cell of the mesh. -/
noncomputable def Naming.cell (w : Naming n N) (c : MeshCell d n N) : MeshCell d n N :=
  ⟨w.prm c.prm, w.kind c.kind, w.inMesh ∘ c.dofs ∘ w.inCell, c.Q, fun q => w.point (c.pts q)⟩

/-- A cell with its faces. -/
noncomputable def Naming.grain (w : Naming n N) (g : GrainCell d e n N) : GrainCell d e n N :=
  ⟨w.cell g.cell, g.F, fun f => w.view (g.views f), g.B, fun b => w.loaded (g.loads b)⟩

/-- State of all degrees of freedom; `label g` is the slip system the degree of freedom `g` belongs
to, `none` for a displacement. -/
noncomputable def Naming.state (w : Naming n N) (label : ℕ → Option (Fin n)) (u : ℕ → ℝ) : ℕ → ℝ :=
  fun g => w.factor (label (w.inMesh.symm g)) * u (w.inMesh.symm g)

/-- Constraints: the same lines between the renumbered degrees of freedom. -/
noncomputable def Naming.constraints (w : Naming n N) (label : ℕ → Option (Fin n))
    (K : Sol.Constraints ℕ) : Sol.Constraints ℕ := fun g =>
  (K (w.inMesh.symm g)).map fun l =>
    ⟨l.entries.map fun x => (w.inMesh x.1, x.2), w.factor (label (w.inMesh.symm g)) * l.inhom⟩

/-- The cells agree on what the degrees of freedom are. -/
def SpecLabelled (label : ℕ → Option (Fin n)) (g : GrainCell d e n N) : Prop :=
  (∀ i, g.cell.kind i = label (g.cell.dofs i)) ∧
  ∀ f i, g.cell.kind i = label ((g.views f).nbDofs i)

/-- What deal.II guarantees for the shape functions of a cell and on its faces. -/
structure SpecPrimitive (g : GrainCell d e n N) : Prop where
  pts : ∀ q, (g.cell.pts q).shape.Primitive g.cell.kind
  cur : ∀ f, (g.views f).cur.Primitive g.cell.kind
  nb : ∀ f, (g.views f).nb.Primitive g.cell.kind
  loads : ∀ b, (g.loads b).side.Primitive g.cell.kind

/-- Constraints act per component. -/
def SpecPerComponent (label : ℕ → Option (Fin n)) (K : Sol.Constraints ℕ) : Prop :=
  ∀ g l, K g = some l → ∀ x ∈ l.entries, label x.1 = label g

/-! ## Helpers -/

theorem orient_sq (b : Bool) : orient b * orient b = 1 := by cases b <;> simp [orient]

theorem orient_abs (b : Bool) : |orient b| = 1 := by cases b <;> simp [orient]

theorem Naming.sign_sq (w : Naming n N) (a : Fin n) : w.sign a * w.sign a = 1 := by
  unfold Naming.sign
  rw [mul_mul_mul_comm, orient_sq, orient_sq, one_mul]

theorem Naming.sign_cases (w : Naming n N) (a : Fin n) : w.sign a = 1 ∨ w.sign a = -1 := by
  unfold Naming.sign orient
  split_ifs <;> simp

theorem Naming.factor_sq (w : Naming n N) (k : Option (Fin n)) : w.factor k * w.factor k = 1 := by
  cases k with
  | none => simp [Naming.factor]
  | some a => exact w.sign_sq a

theorem Naming.factor_ne (w : Naming n N) (k : Option (Fin n)) : w.factor k ≠ 0 := by
  intro h
  have := w.factor_sq k
  rw [h] at this
  simp at this

theorem Naming.symSchmid (w : Naming n N) (s : Fin n → System d) (b : Fin n) :
    (w.systems s b).symSchmid = w.sign (w.order b) • (s (w.order b)).symSchmid := by
  ext i j
  simp only [System.symSchmid, System.schmid, symmetrize, outer, Naming.systems, Naming.sign,
    Matrix.of_apply, Matrix.smul_apply, Pi.smul_apply, smul_eq_mul]
  ring

theorem Naming.slip_coeff (w : Naming n N) {k : Kind n N} {s : Shape d n N} (hs : s.Primitive k)
    (u : Fin N → ℝ) : (w.shape s).slip (w.coeff k u) = w.slips (s.slip u) := by
  funext b
  unfold Shape.slip Naming.slips
  simp only [Naming.shape, Naming.coeff]
  rw [mul_sum, Equiv.sum_comp w.inCell fun i => w.factor (k i) * u i * s.phi (w.order b) i]
  refine sum_congr rfl fun i _ => ?_
  by_cases h : k i = some (w.order b)
  · rw [h]; simp only [Naming.factor]; ring
  · rw [hs.phi i _ h]; simp

theorem Naming.side_slip (w : Naming n N) {k : Kind n N} {s : Side d n N} (hs : s.Primitive k)
    (u : Fin N → ℝ) : (w.side s).slip (w.coeff k u) = w.slips (s.slip u) := by
  funext b
  unfold Side.slip Naming.slips
  simp only [Naming.side, Naming.coeff]
  rw [mul_sum, Equiv.sum_comp w.inCell fun i => w.factor (k i) * u i * s.phi (w.order b) i]
  refine sum_congr rfl fun i _ => ?_
  by_cases h : k i = some (w.order b)
  · rw [h]; simp only [Naming.factor]; ring
  · rw [hs.phi i _ h]; simp

theorem Naming.slipGrad_coeff (w : Naming n N) {k : Kind n N} {s : Shape d n N} (hs : s.Primitive k)
    (u : Fin N → ℝ) (b : Fin n) :
    (w.shape s).slipGrad (w.coeff k u) b = w.sign (w.order b) • s.slipGrad u (w.order b) := by
  unfold Shape.slipGrad
  simp only [Naming.shape, Naming.coeff]
  rw [smul_sum, Equiv.sum_comp w.inCell fun i => (w.factor (k i) * u i) • s.grad (w.order b) i]
  refine sum_congr rfl fun i _ => ?_
  by_cases h : k i = some (w.order b)
  · rw [h]; simp only [Naming.factor]; rw [mul_smul]
  · rw [hs.grad i _ h]; simp

theorem Naming.strain_coeff (w : Naming n N) {k : Kind n N} {s : Shape d n N} (hs : s.Primitive k)
    (u : Fin N → ℝ) : (w.shape s).strain (w.coeff k u) = s.strain u := by
  unfold Shape.strain
  simp only [Naming.shape, Naming.coeff, Function.comp_apply]
  rw [Equiv.sum_comp w.inCell fun i => (w.factor (k i) * u i) • s.symGrad i]
  refine sum_congr rfl fun i _ => ?_
  rcases h : k i with _ | a
  · simp [Naming.factor]
  · rw [hs.symGrad i a h]; simp

theorem Naming.side_displacement (w : Naming n N) {k : Kind n N} {s : Side d n N}
    (hs : s.Primitive k) (u : Fin N → ℝ) :
    (w.side s).displacement (w.coeff k u) = s.displacement u := by
  unfold Side.displacement
  simp only [Naming.side, Naming.coeff, Function.comp_apply]
  rw [Equiv.sum_comp w.inCell fun i => (w.factor (k i) * u i) • s.disp i]
  refine sum_congr rfl fun i _ => ?_
  rcases h : k i with _ | a
  · simp [Naming.factor]
  · rw [hs.disp i a h]; simp

theorem Naming.elasticStrainAt (w : Naming n N) (c : CellPrm d n) {k : Kind n N} {s : Shape d n N}
    (hs : s.Primitive k) (u : Fin N → ℝ) :
    (w.prm c).elasticStrainAt (w.shape s) (w.coeff k u) = c.elasticStrainAt s u := by
  unfold CellPrm.elasticStrainAt
  rw [elasticStrain_finRange, elasticStrain_finRange, w.slip_coeff hs, w.strain_coeff hs]
  simp only [Naming.prm, Naming.slips, w.symSchmid]
  congr 3
  rw [← Equiv.sum_comp w.order fun a => s.slip u a • (c.sys a).symSchmid]
  refine sum_congr rfl fun b _ => ?_
  rw [smul_smul, mul_assoc, mul_comm (s.slip u _), ← mul_assoc, w.sign_sq, one_mul]

theorem Naming.stressAt (w : Naming n N) (c : CellPrm d n) {k : Kind n N} {s : Shape d n N}
    (hs : s.Primitive k) (u : Fin N → ℝ) :
    (w.prm c).stressAt (w.shape s) (w.coeff k u) = c.stressAt s u := by
  unfold CellPrm.stressAt
  rw [w.elasticStrainAt c hs]
  rfl

theorem ddot_smul_right' (t : ℝ) (a b : Mat d) : ddot a (t • b) = t * ddot a b := by
  unfold ddot
  simp only [Matrix.smul_apply, smul_eq_mul, mul_sum]
  exact sum_congr rfl fun i _ => sum_congr rfl fun j _ => by ring

theorem Naming.resolved (w : Naming n N) (s : Fin n → System d) (b : Fin n) (σ : Mat d) :
    resolvedShear (w.systems s b) σ = w.sign (w.order b) * resolvedShear (s (w.order b)) σ := by
  unfold resolvedShear
  rw [w.symSchmid, ddot_smul_right']

theorem Naming.bracket (w : Naming n N) (v : VecLaw) (s : Fin n → System d) (b : Fin n) (g : Vec d) :
    v.bracket (w.systems s b) (w.sign (w.order b) • g) = v.bracket (s (w.order b)) g := by
  have e1 : |(-(w.systems s b).direction) ⬝ᵥ (w.sign (w.order b) • g)| =
      |(-(s (w.order b)).direction) ⬝ᵥ g| := by
    simp only [Naming.systems, neg_dotProduct, smul_dotProduct, dotProduct_smul, smul_eq_mul, abs_neg,
      abs_mul, orient_abs, one_mul]
    rcases w.sign_cases (w.order b) with h | h <;> rw [h] <;> simp
  have e2 : |(w.systems s b).third ⬝ᵥ (w.sign (w.order b) • g)| = |(s (w.order b)).third ⬝ᵥ g| := by
    simp only [Naming.systems, smul_dotProduct, dotProduct_smul, smul_eq_mul]
    rw [← mul_assoc, w.sign_sq, one_mul]
  have e3 : symmetrize (outer (w.systems s b).direction (w.systems s b).direction) =
      symmetrize (outer (s (w.order b)).direction (s (w.order b)).direction) := by
    ext i j
    simp only [symmetrize, outer, Naming.systems, Matrix.of_apply, Pi.smul_apply, smul_eq_mul]
    have := orient_sq (w.direction (w.order b))
    linear_combination ((s (w.order b)).direction i * (s (w.order b)).direction j) * this
  have e4 : symmetrize (outer (w.systems s b).third (w.systems s b).third) =
      symmetrize (outer (s (w.order b)).third (s (w.order b)).third) := by
    ext i j
    simp only [symmetrize, outer, Naming.systems, Matrix.of_apply, Pi.smul_apply, smul_eq_mul]
    have := w.sign_sq (w.order b)
    linear_combination ((s (w.order b)).third i * (s (w.order b)).third j) * this
  unfold VecLaw.bracket
  rw [e1, e2, e3, e4]

theorem Naming.microstress (w : Naming n N) (v : VecLaw) (s : Fin n → System d) (b : Fin n)
    (g : Vec d) : v.microstress (w.systems s b) (w.sign (w.order b) • g) =
      (v.microstress (s (w.order b)) g).map (w.sign (w.order b) • ·) := by
  unfold VecLaw.microstress
  rw [w.bracket, Option.map_map]
  congr 1
  funext m
  exact Matrix.mulVec_smul _ _ _

theorem Naming.vecJacobian (w : Naming n N) (v : VecLaw) (s : Fin n → System d) (b : Fin n)
    (g : Vec d) : v.jacobian (w.systems s b) (w.sign (w.order b) • g) =
      v.jacobian (s (w.order b)) g := by
  unfold VecLaw.jacobian
  rw [w.bracket]

theorem Naming.slips_sub (w : Naming n N) (γ o : Fin n → ℝ) (b : Fin n) :
    w.slips γ b - w.slips o b = w.sign (w.order b) * (γ (w.order b) - o (w.order b)) := by
  unfold Naming.slips; ring

theorem Naming.update (w : Naming n N) (h : Bulk n) (γ o : Fin n → ℝ) :
    (w.hist h).update (w.slips γ) (w.slips o) = w.hist (h.update γ o) := by
  have key : ∀ x y : Bulk n, x.prm = y.prm → x.res = y.res → x.tmp = y.tmp → x = y := by
    rintro ⟨a, b, c⟩ ⟨a', b', c'⟩ h1 h2 h3
    simp only at h1 h2 h3
    subst h1; subst h2; subst h3; rfl
  have f1 := C17_frame (w.hist h) (w.slips γ) (w.slips o)
  have f2 := C17_frame h γ o
  refine key _ _ (f1.2.trans f2.2.symm) ?_ ?_
  · rcases hp : h.prm.perfect with _ | _
    · funext b
      rw [C17_hardening_law _ _ _ _ (by exact hp)]
      simp only [Naming.hist, Function.comp_apply]
      rw [C17_hardening_law _ _ _ _ hp, ← Equiv.sum_comp w.order fun β =>
        h.prm.modulus / h.prm.characteristic * (h.prm.parameter + (1 - h.prm.parameter) *
          (if w.order b = β then 1 else 0)) * |γ β - o β|]
      congr 1
      refine sum_congr rfl fun β _ => ?_
      rw [w.slips_sub, abs_mul]
      rcases w.sign_cases (w.order β) with h1 | h1 <;> simp [h1]
    · rw [C17_perfect _ _ _ (by exact hp)]
      simp only [Naming.hist]
      rw [C17_perfect _ _ _ hp]
  · rw [f1.1]
    simp only [Naming.hist]
    rw [f2.1]

theorem sgn_neg' (x : ℝ) : sgn (-x) = -sgn x := by
  unfold sgn
  rcases lt_trichotomy x 0 with h | h | h
  · simp [h, not_lt.2 h.le]
  · simp [h]
  · simp [h, not_lt.2 h.le]

theorem regDeriv_neg (f : RegFn) (k x : ℝ) : regDeriv f k (-x) = regDeriv f k x := by
  unfold regDeriv
  cases f with
  | atan => simp only [mul_neg, neg_mul, neg_neg]
  | sqrt => simp only [neg_mul_neg]
  | gd => simp only [mul_neg, neg_div, Real.cosh_neg]
  | tanh => simp only [neg_div, Real.cosh_neg]
  | erf => simp only [mul_neg, neg_mul, neg_neg]

theorem Law.microstress_signed (l : Law) {s : ℝ} (hs : s = 1 ∨ s = -1) (x y r dt : ℝ) :
    l.microstress (s * x) (s * y) r dt = s * l.microstress x y r dt := by
  unfold Law.microstress
  rcases hs with rfl | rfl
  · simp
  · have e : (-1 * x - -1 * y) / dt = -((x - y) / dt) := by ring
    simp only [e]
    split_ifs
    · rw [sgn_neg']; ring
    · rw [C26_odd]; ring

theorem Naming.evalMicrostress (w : Naming n N) (l : Law) (h : Bulk n) (γ o : Fin n → ℝ) (dt : ℝ)
    (b : Fin n) : l.evalMicrostress (w.hist h) (w.slips γ) (w.slips o) dt b =
      w.sign (w.order b) * l.evalMicrostress h γ o dt (w.order b) := by
  unfold Law.evalMicrostress
  rw [w.update]
  exact Law.microstress_signed l (w.sign_cases _) _ _ _ _

theorem Naming.evalJacobian (w : Naming n N) (l : Law) (h : Bulk n) (γ o : Fin n → ℝ) (dt : ℝ)
    (a b : Fin n) : l.evalJacobian (w.hist h) (w.slips γ) (w.slips o) dt a b =
      w.sign (w.order a) * w.sign (w.order b) *
        l.evalJacobian h γ o dt (w.order a) (w.order b) := by
  unfold Law.evalJacobian
  rw [w.update]
  have r1 : ∀ b, (w.slips γ b - w.slips o b) / dt =
      w.sign (w.order b) * ((γ (w.order b) - o (w.order b)) / dt) := fun b => by
    rw [w.slips_sub]; ring
  have r2 : ∀ b x, sgn (w.sign b * x) = w.sign b * sgn x := fun b x => by
    rcases w.sign_cases b with h | h <;> rw [h]
    · simp
    · rw [neg_one_mul, sgn_neg', neg_one_mul]
  have r3 : ∀ b x, reg l.f l.k (w.sign b * x) = w.sign b * reg l.f l.k x := fun b x => by
    rcases w.sign_cases b with h | h <;> rw [h]
    · simp
    · rw [neg_one_mul, C26_odd, neg_one_mul]
  have r4 : ∀ b x, regDeriv l.f l.k (w.sign b * x) = regDeriv l.f l.k x := fun b x => by
    rcases w.sign_cases b with h | h <;> rw [h]
    · simp
    · rw [neg_one_mul, regDeriv_neg]
  unfold Law.jacobian
  simp only [r1, r2, r3, r4, Naming.hist, Function.comp_apply, EmbeddingLike.apply_eq_iff_eq]
  rw [mul_add]
  congr 1
  · split_ifs <;> ring
  · by_cases hab : a = b ∧ l.rateIndependent = false
    · rw [if_pos hab, hab.1, w.sign_sq, one_mul]
    · rw [if_neg hab, mul_zero]

/-- A quadrature point's contribution to the right-hand side. -/
theorem Naming.rhsTerm (w : Naming n N) (c : CellPrm d n) (k : Kind n N) (p : Point d n N)
    (hp : p.shape.Primitive k) (u : Fin N → ℝ) (i : Fin N) :
    (w.prm c).rhsTerm (w.kind k) (w.point p) (w.coeff k u) i =
      (c.rhsTerm k p u (w.inCell i)).map (w.factor (k (w.inCell i)) * ·) := by
  unfold CellPrm.rhsTerm
  rcases hk : k (w.inCell i) with _ | a
  · have hk' : w.kind k i = none := by simp [Naming.kind, hk]
    simp only [hk', Naming.point, w.stressAt c hp, Naming.factor]
    simp [Naming.shape, Naming.prm]
  · obtain ⟨b, rfl⟩ : ∃ b, a = w.order b := ⟨w.order.symm a, by simp⟩
    have hk' : w.kind k i = some b := by simp [Naming.kind, hk]
    simp only [hk', Naming.point, w.stressAt c hp, w.slip_coeff hp, w.slipGrad_coeff hp,
      w.evalMicrostress, Naming.factor]
    simp only [Naming.prm, w.microstress, w.resolved, Option.map_map]
    congr 1
    funext x
    simp only [Function.comp_apply, Naming.shape, dotProduct_smul, smul_eq_mul]
    ring

theorem sandwich_smul_left (t : ℝ) (a : Mat d) (c : Store4 d) (b : Mat d) :
    sandwich (t • a) c b = t * sandwich a c b := by
  unfold sandwich
  rw [← ddot_smul_left]
  congr 1
  ext k l
  simp only [lapply4, Matrix.of_apply, Matrix.smul_apply, smul_eq_mul, mul_sum]
  exact sum_congr rfl fun i _ => sum_congr rfl fun j _ => by ring

theorem sandwich_smul_right (t : ℝ) (a : Mat d) (c : Store4 d) (b : Mat d) :
    sandwich a c (t • b) = t * sandwich a c b := ddot_smul_right' _ _ _

/-- A quadrature point's contribution to the matrix. -/
theorem Naming.matTerm (w : Naming n N) (c : CellPrm d n) (k : Kind n N) (p : Point d n N)
    (hp : p.shape.Primitive k) (u : Fin N → ℝ) (i j : Fin N) :
    (w.prm c).matTerm (w.kind k) (w.point p) (w.coeff k u) i j =
      (c.matTerm k p u (w.inCell i) (w.inCell j)).map
        (w.factor (k (w.inCell i)) * w.factor (k (w.inCell j)) * ·) := by
  unfold CellPrm.matTerm
  rcases hi : k (w.inCell i) with _ | a <;> rcases hj : k (w.inCell j) with _ | b
  · have hi' : w.kind k i = none := by simp [Naming.kind, hi]
    have hj' : w.kind k j = none := by simp [Naming.kind, hj]
    simp only [hi', hj', Naming.factor]
    simp [Naming.shape, Naming.prm, Naming.point, CellPrm.tetrad]
  · obtain ⟨b, rfl⟩ : ∃ c, b = w.order c := ⟨w.order.symm b, by simp⟩
    have hi' : w.kind k i = none := by simp [Naming.kind, hi]
    have hj' : w.kind k j = some b := by simp [Naming.kind, hj]
    simp only [hi', hj', Naming.factor, Naming.prm, w.symSchmid, sandwich_smul_right, Option.map_some,
      Naming.point, Naming.shape, CellPrm.tetrad, Function.comp_apply]
    congr 1
    ring
  · obtain ⟨a, rfl⟩ : ∃ c, a = w.order c := ⟨w.order.symm a, by simp⟩
    have hi' : w.kind k i = some a := by simp [Naming.kind, hi]
    have hj' : w.kind k j = none := by simp [Naming.kind, hj]
    simp only [hi', hj', Naming.factor, Naming.prm, w.symSchmid, sandwich_smul_left, Option.map_some,
      Naming.point, Naming.shape, CellPrm.tetrad, Function.comp_apply]
    congr 1
    ring
  · obtain ⟨a, rfl⟩ : ∃ c, a = w.order c := ⟨w.order.symm a, by simp⟩
    obtain ⟨b, rfl⟩ : ∃ c, b = w.order c := ⟨w.order.symm b, by simp⟩
    have hi' : w.kind k i = some a := by simp [Naming.kind, hi]
    have hj' : w.kind k j = some b := by simp [Naming.kind, hj]
    have hbulk : -((w.shape p.shape).phi a i *
        (-1 * c.dn0 * c.dn3 * sandwich (w.systems c.sys a).symSchmid c.tetrad
          (w.systems c.sys b).symSchmid - c.law.evalJacobian (w.hist p.hist)
            (w.slips (p.shape.slip u)) (w.slips p.old) c.dt a b) * (w.shape p.shape).phi b j *
          (w.shape p.shape).jxw) = w.sign (w.order a) * w.sign (w.order b) *
        -(p.shape.phi (w.order a) (w.inCell i) * (-1 * c.dn0 * c.dn3 *
          sandwich (c.sys (w.order a)).symSchmid c.tetrad (c.sys (w.order b)).symSchmid -
          c.law.evalJacobian p.hist (p.shape.slip u) p.old c.dt (w.order a) (w.order b)) *
          p.shape.phi (w.order b) (w.inCell j) * p.shape.jxw) := by
      rw [w.symSchmid, w.symSchmid, sandwich_smul_left, sandwich_smul_right, w.evalJacobian]
      simp only [Naming.shape]
      ring
    simp only [hi', hj', Naming.factor, Naming.point, w.slip_coeff hp, w.slipGrad_coeff hp]
    by_cases hab : a = b
    · subst hab
      rw [if_pos rfl, if_pos rfl]
      simp only [Naming.prm, w.vecJacobian, Option.map_map]
      congr 1
      funext J
      have := hbulk
      simp only [CellPrm.tetrad] at this
      simp only [Function.comp_apply, CellPrm.tetrad]
      rw [this]
      simp only [Naming.shape]
      have := w.sign_sq (w.order a)
      linear_combination (-(c.dn2 * (p.shape.grad (w.order a) (w.inCell i) ᵥ* J ⬝ᵥ
        p.shape.grad (w.order a) (w.inCell j)) * p.shape.jxw)) * this
    · rw [if_neg hab, if_neg (by simpa using hab)]
      simp only [Option.map_some]
      exact congrArg some hbulk

theorem dot_orient (x y : Vec d) (s t : ℝ) : (s • x) ⬝ᵥ (t • y) = s * t * (x ⬝ᵥ y) := by
  rw [smul_dotProduct, dotProduct_smul, smul_eq_mul, smul_eq_mul, mul_assoc]

/-- The lateral factor is linear in the normal of the slip system. -/
def LateralLinear (lat : Vec d → Vec d → Fin e → ℝ) : Prop := ∀ (t : ℝ) m x, lat (t • m) x = t • lat m x

theorem lateral2_linear : LateralLinear lateral2 := by
  intro t m x; funext i; simp [lateral2]; ring

theorem lateral3_linear : LateralLinear lateral3 := by
  intro t m x; funext i; fin_cases i <;> simp [lateral3, cross] <;> ring

theorem Naming.modulus (w : Naming n N) {lat : Vec d → Vec d → Fin e → ℝ} (hl : LateralLinear lat)
    (s t : Fin n → System d) (x : Vec d) (a b : Fin n) :
    Itf.modulus lat (w.systems s a) (w.systems t b) x =
      w.sign (w.order a) * w.sign (w.order b) * Itf.modulus lat (s (w.order a)) (t (w.order b)) x := by
  unfold Itf.modulus
  simp only [Naming.systems]
  rw [hl, hl, dot_orient, dot_orient]
  unfold Naming.sign
  ring

theorem Naming.microtraction (w : Naming n N) {lat : Vec d → Vec d → Fin e → ℝ}
    (hl : LateralLinear lat) (p : MicroPrm) (s t : Fin n → System d) (x : Vec d) (γ γn : Fin n → ℝ)
    (a : Fin n) : Itf.microtraction p lat (w.systems s) (w.systems t) x (w.slips γ) (w.slips γn) a =
      w.sign (w.order a) * Itf.microtraction p lat s t x γ γn (w.order a) := by
  unfold Itf.microtraction intra inter
  rw [← mul_assoc, mul_sum, ← Equiv.sum_comp w.order fun β => w.sign (w.order a) *
    (Itf.modulus lat (s (w.order a)) (s β) x * γ β - Itf.modulus lat (s (w.order a)) (t β) x * γn β)]
  congr 1
  refine sum_congr rfl fun β _ => ?_
  rw [w.modulus hl, w.modulus hl]
  unfold Naming.slips
  linear_combination (w.sign (w.order a) *
    (Itf.modulus lat (s (w.order a)) (s (w.order β)) x * γ (w.order β) -
      Itf.modulus lat (s (w.order a)) (t (w.order β)) x * γn (w.order β))) * w.sign_sq (w.order β)

theorem Naming.opening (w : Naming n N) {k : Kind n N} {cur nb : Side d n N} (hc : cur.Primitive k)
    (hn : nb.Primitive k) (u un : Fin N → ℝ) :
    Asm.opening (w.side cur) (w.side nb) (w.coeff k u) (w.coeff k un) = Asm.opening cur nb u un := by
  unfold Asm.opening
  rw [w.side_displacement hc, w.side_displacement hn]

theorem Naming.faceTerm (w : Naming n N) (p : FacePrm d e) (hl : LateralLinear p.lat) (k : Kind n N)
    (cc cn : Crystal d n) (nrm : Vec d) (jxw : ℝ) (h : Iface) {cur nb : Side d n N}
    (hc : cur.Primitive k) (hn : nb.Primitive k) (u un : Fin N → ℝ) (i : Fin N) :
    p.rhsTerm (w.kind k) (w.systems cc) (w.systems cn) nrm jxw h (w.side cur) (w.side nb)
      (w.coeff k u) (w.coeff k un) i =
    (p.rhsTerm k cc cn nrm jxw h cur nb u un (w.inCell i)).map (w.factor (k (w.inCell i)) * ·) := by
  unfold FacePrm.rhsTerm
  rcases hk : k (w.inCell i) with _ | a
  · have hk' : w.kind k i = none := by simp [Naming.kind, hk]
    simp only [hk', w.opening hc hn, Naming.factor, one_mul]
    split_ifs
    · rw [Option.map_map]
      rfl
    · simp
  · obtain ⟨b, rfl⟩ : ∃ b, a = w.order b := ⟨w.order.symm a, by simp⟩
    have hk' : w.kind k i = some b := by simp [Naming.kind, hk]
    simp only [hk', Naming.factor]
    split_ifs
    · rw [w.side_slip hc, w.side_slip hn, w.microtraction hl, Option.map_some]
      simp only [Naming.side]
      congr 1
      ring
    · simp

theorem Naming.faceLocal (w : Naming n N) (p : FacePrm d e) (hl : LateralLinear p.lat) (k : Kind n N)
    (cc : Crystal d n) (nrm : Vec d) (jxw : ℝ) (h : Iface) {cur nb : Side d n N}
    (hc : cur.Primitive k) (hn : nb.Primitive k) (u un : Fin N → ℝ) (i j : Fin N) :
    p.localTerm (w.kind k) (w.systems cc) nrm jxw h (w.side cur) (w.side nb)
      (w.coeff k u) (w.coeff k un) i j =
    (p.localTerm k cc nrm jxw h cur nb u un (w.inCell i) (w.inCell j)).map
      (w.factor (k (w.inCell i)) * w.factor (k (w.inCell j)) * ·) := by
  unfold FacePrm.localTerm
  rcases hi : k (w.inCell i) with _ | a <;> rcases hj : k (w.inCell j) with _ | b
  · have hi' : w.kind k i = none := by simp [Naming.kind, hi]
    have hj' : w.kind k j = none := by simp [Naming.kind, hj]
    simp only [hi', hj', w.opening hc hn, Naming.factor, one_mul]
    split_ifs
    · rw [Option.map_map]
      rfl
    · simp
  · have hi' : w.kind k i = none := by simp [Naming.kind, hi]
    have hj' : w.kind k j = some (w.order.symm b) := by simp [Naming.kind, hj]
    simp only [hi', hj', Option.map_some, mul_zero]
  · have hi' : w.kind k i = some (w.order.symm a) := by simp [Naming.kind, hi]
    have hj' : w.kind k j = none := by simp [Naming.kind, hj]
    simp only [hi', hj', Option.map_some, mul_zero]
  · obtain ⟨a, rfl⟩ : ∃ c, a = w.order c := ⟨w.order.symm a, by simp⟩
    obtain ⟨b, rfl⟩ : ∃ c, b = w.order c := ⟨w.order.symm b, by simp⟩
    have hi' : w.kind k i = some a := by simp [Naming.kind, hi]
    have hj' : w.kind k j = some b := by simp [Naming.kind, hj]
    simp only [hi', hj', Naming.factor]
    split_ifs
    · unfold intraDerivative intra
      rw [w.modulus hl, Option.map_some]
      simp only [Naming.side]
      congr 1
      ring
    · simp

theorem Naming.faceCoupling (w : Naming n N) (p : FacePrm d e) (hl : LateralLinear p.lat)
    (k : Kind n N) (cc cn : Crystal d n) (nrm : Vec d) (jxw : ℝ) (h : Iface) {cur nb : Side d n N}
    (hc : cur.Primitive k) (hn : nb.Primitive k) (u un : Fin N → ℝ) (i j : Fin N) :
    p.couplingTerm (w.kind k) (w.systems cc) (w.systems cn) nrm jxw h (w.side cur) (w.side nb)
      (w.coeff k u) (w.coeff k un) i j =
    (p.couplingTerm k cc cn nrm jxw h cur nb u un (w.inCell i) (w.inCell j)).map
      (w.factor (k (w.inCell i)) * w.factor (k (w.inCell j)) * ·) := by
  unfold FacePrm.couplingTerm
  rcases hi : k (w.inCell i) with _ | a <;> rcases hj : k (w.inCell j) with _ | b
  · have hi' : w.kind k i = none := by simp [Naming.kind, hi]
    have hj' : w.kind k j = none := by simp [Naming.kind, hj]
    simp only [hi', hj', w.opening hc hn, Naming.factor, one_mul]
    split_ifs
    · rw [Option.map_map]
      rfl
    · simp
  · have hi' : w.kind k i = none := by simp [Naming.kind, hi]
    have hj' : w.kind k j = some (w.order.symm b) := by simp [Naming.kind, hj]
    simp only [hi', hj', Option.map_some, mul_zero]
  · have hi' : w.kind k i = some (w.order.symm a) := by simp [Naming.kind, hi]
    have hj' : w.kind k j = none := by simp [Naming.kind, hj]
    simp only [hi', hj', Option.map_some, mul_zero]
  · obtain ⟨a, rfl⟩ : ∃ c, a = w.order c := ⟨w.order.symm a, by simp⟩
    obtain ⟨b, rfl⟩ : ∃ c, b = w.order c := ⟨w.order.symm b, by simp⟩
    have hi' : w.kind k i = some a := by simp [Naming.kind, hi]
    have hj' : w.kind k j = some b := by simp [Naming.kind, hj]
    simp only [hi', hj', Naming.factor]
    split_ifs
    · unfold interDerivative inter
      rw [w.modulus hl, Option.map_some]
      simp only [Naming.side]
      congr 1
      ring
    · simp

theorem Naming.neumann (w : Naming n N) {k : Kind n N} {s : Side d n N} (hs : s.Primitive k)
    (value : Vec d) (jxw : ℝ) (i : Fin N) :
    neumannTerm (w.side s) value jxw i =
      w.factor (k (w.inCell i)) * neumannTerm s value jxw (w.inCell i) := by
  unfold neumannTerm
  simp only [Naming.side, Function.comp_apply]
  rcases h : k (w.inCell i) with _ | a
  · simp [Naming.factor]
  · rw [hs.disp _ a h]; simp

theorem Naming.state_cell (w : Naming n N) {label : ℕ → Option (Fin n)} {k : Kind n N}
    {dofs : Fin N → ℕ} (h : ∀ i, k i = label (dofs i)) (u : ℕ → ℝ) :
    w.state label u ∘ (w.inMesh ∘ dofs ∘ w.inCell) = w.coeff k (u ∘ dofs) := by
  funext i
  simp [Naming.state, Naming.coeff, h]

theorem weight_naming (w : Naming n N) (label : ℕ → Option (Fin n)) (K : Sol.Constraints ℕ)
    (g r : ℕ) : weight (w.constraints label K) (w.inMesh g) (w.inMesh r) = weight K g r := by
  unfold weight Naming.constraints
  rw [Equiv.symm_apply_apply]
  rcases K g with _ | l
  · simp
  · simp only [Option.map_some, List.map_map]
    congr 1
    refine List.map_congr_left fun x _ => ?_
    simp

theorem weight_label {label : ℕ → Option (Fin n)} {K : Sol.Constraints ℕ}
    (hK : SpecPerComponent label K) (w : Naming n N) (g r : ℕ) :
    w.factor (label g) * weight K g r = w.factor (label r) * weight K g r := by
  by_cases h : label g = label r
  · rw [h]
  · have : weight K g r = 0 := by
      unfold weight
      rcases hg : K g with _ | l
      · simp only
        rw [if_neg]
        rintro rfl; exact h rfl
      · simp only
        refine List.sum_eq_zero fun y hy => ?_
        obtain ⟨x, hx, rfl⟩ := List.mem_map.1 hy
        rw [if_neg]
        rintro rfl
        exact h (hK g l hg x hx).symm
    rw [this, mul_zero, mul_zero]

/-! ## C100: the discretised problem -/

/-- C100, cells: local right-hand side and matrix of a cell are those of the old description, with
the sign of the slips of reversed systems changed. -/
theorem C100_cell {Q : ℕ} (w : Naming n N) (c : CellPrm d n) (k : Kind n N)
    (pts : Fin Q → Point d n N) (hp : ∀ q, (pts q).shape.Primitive k) (u : Fin N → ℝ) :
    (∀ i, (w.prm c).rhs (w.kind k) (fun q => w.point (pts q)) (w.coeff k u) i =
      (c.rhs k pts u (w.inCell i)).map (w.factor (k (w.inCell i)) * ·)) ∧
    (∀ i j, (w.prm c).mat (w.kind k) (fun q => w.point (pts q)) (w.coeff k u) i j =
      (c.mat k pts u (w.inCell i) (w.inCell j)).map
        (w.factor (k (w.inCell i)) * w.factor (k (w.inCell j)) * ·)) :=
  ⟨fun i => Prm.sumOpt_map _ _ _ fun q => w.rhsTerm c k _ (hp q) u i,
    fun i j => Prm.sumOpt_map _ _ _ fun q => w.matTerm c k _ (hp q) u i j⟩

/-- C100, grain boundaries: the same for the contributions of a face, in two and three dimensions. -/
theorem C100_face (w : Naming n N) (p : FacePrm d e) (hl : LateralLinear p.lat) (k : Kind n N)
    (cc cn : Crystal d n) (nrm : Vec d) (jxw : ℝ) (h : Iface) (cur nb : Side d n N)
    (hc : cur.Primitive k) (hn : nb.Primitive k) (u un : Fin N → ℝ) :
    (∀ i, p.rhsTerm (w.kind k) (w.systems cc) (w.systems cn) nrm jxw h (w.side cur) (w.side nb)
        (w.coeff k u) (w.coeff k un) i =
      (p.rhsTerm k cc cn nrm jxw h cur nb u un (w.inCell i)).map (w.factor (k (w.inCell i)) * ·)) ∧
    (∀ i j, p.localTerm (w.kind k) (w.systems cc) nrm jxw h (w.side cur) (w.side nb)
        (w.coeff k u) (w.coeff k un) i j =
      (p.localTerm k cc nrm jxw h cur nb u un (w.inCell i) (w.inCell j)).map
        (w.factor (k (w.inCell i)) * w.factor (k (w.inCell j)) * ·)) ∧
    (∀ i j, p.couplingTerm (w.kind k) (w.systems cc) (w.systems cn) nrm jxw h (w.side cur) (w.side nb)
        (w.coeff k u) (w.coeff k un) i j =
      (p.couplingTerm k cc cn nrm jxw h cur nb u un (w.inCell i) (w.inCell j)).map
        (w.factor (k (w.inCell i)) * w.factor (k (w.inCell j)) * ·)) :=
  ⟨w.faceTerm p hl k cc cn nrm jxw h hc hn u un, w.faceLocal p hl k cc nrm jxw h hc hn u un,
    w.faceCoupling p hl k cc cn nrm jxw h hc hn u un⟩

/-- C100, history: after the same slips the slip resistances are the same, listed in the new order. -/
theorem C100_history (w : Naming n N) (h : Bulk n) (γ old : Fin n → ℝ) (b : Fin n) :
    ((w.hist h).update (w.slips γ) (w.slips old)).res b = (h.update γ old).res (w.order b) := by
  rw [w.update]; rfl

theorem Naming.localRhs (w : Naming n N) {label : ℕ → Option (Fin n)} {g : GrainCell d e n N}
    (hlab : SpecLabelled label g) (hp : SpecPrimitive g)
    (hl : ∀ f, LateralLinear (g.views f).prm.lat) (u : ℕ → ℝ) (i : Fin N) :
    Asm.localRhs (w.grain g).cell.prm (w.grain g).cell.kind (w.grain g).cell.pts (w.grain g).cell.dofs
      (w.grain g).views (w.grain g).loads (w.state label u) i =
    (Asm.localRhs g.cell.prm g.cell.kind g.cell.pts g.cell.dofs g.views g.loads u (w.inCell i)).map
      (w.factor (g.cell.kind (w.inCell i)) * ·) := by
  unfold Asm.localRhs
  have h1 : (w.grain g).cell.prm.rhs (w.grain g).cell.kind (w.grain g).cell.pts
      (w.state label u ∘ (w.grain g).cell.dofs) i =
      (g.cell.prm.rhs g.cell.kind g.cell.pts (u ∘ g.cell.dofs) (w.inCell i)).map
        (w.factor (g.cell.kind (w.inCell i)) * ·) := by
    have := (C100_cell w g.cell.prm g.cell.kind g.cell.pts hp.pts (u ∘ g.cell.dofs)).1 i
    rw [← w.state_cell hlab.1 u] at this
    exact this
  have h2 : (sumOpt fun f => ((w.grain g).views f).prm.rhsTerm (w.grain g).cell.kind
      ((w.grain g).views f).own ((w.grain g).views f).other ((w.grain g).views f).nrm
      ((w.grain g).views f).jxw ((w.grain g).views f).hist ((w.grain g).views f).cur
      ((w.grain g).views f).nb (w.state label u ∘ (w.grain g).cell.dofs)
      (w.state label u ∘ ((w.grain g).views f).nbDofs) i) =
      (sumOpt fun f => (g.views f).prm.rhsTerm g.cell.kind (g.views f).own (g.views f).other
        (g.views f).nrm (g.views f).jxw (g.views f).hist (g.views f).cur (g.views f).nb
        (u ∘ g.cell.dofs) (u ∘ (g.views f).nbDofs) (w.inCell i)).map
        (w.factor (g.cell.kind (w.inCell i)) * ·) := by
    refine Prm.sumOpt_map _ _ _ fun f => ?_
    have := w.faceTerm (g.views f).prm (hl f) g.cell.kind (g.views f).own (g.views f).other
      (g.views f).nrm (g.views f).jxw (g.views f).hist (hp.cur f) (hp.nb f) (u ∘ g.cell.dofs)
      (u ∘ (g.views f).nbDofs) i
    rw [← w.state_cell hlab.1 u, ← w.state_cell (hlab.2 f) u] at this
    exact this
  have h3 : ∑ b, neumannTerm ((w.grain g).loads b).side ((w.grain g).loads b).value
      ((w.grain g).loads b).jxw i = w.factor (g.cell.kind (w.inCell i)) *
      ∑ b, neumannTerm (g.loads b).side (g.loads b).value (g.loads b).jxw (w.inCell i) := by
    rw [mul_sum]
    exact sum_congr rfl fun b _ => w.neumann (hp.loads b) _ _ i
  rw [h1, h2, h3]
  rcases g.cell.prm.rhs g.cell.kind g.cell.pts (u ∘ g.cell.dofs) (w.inCell i) with _ | x
  · rfl
  · simp only [Option.map_some, Option.bind_some]
    rw [Option.map_map, Option.map_map]
    congr 1
    funext y
    simp only [Function.comp_apply]
    ring

theorem residual_naming (w : Naming n N) {label : ℕ → Option (Fin n)} {K : Sol.Constraints ℕ}
    (hK : SpecPerComponent label K) (cells : List (GrainCell d e n N))
    (hlab : ∀ g ∈ cells, SpecLabelled label g) (R R' : GrainCell d e n N → Fin N → ℝ)
    (hR : ∀ g ∈ cells, ∀ i, R' (w.grain g) i = w.factor (g.cell.kind (w.inCell i)) * R g (w.inCell i))
    (r : ℕ) :
    Lin.residual (w.constraints label K) ((cells.map w.grain).map fun c => c.local R') (w.inMesh r) =
      w.factor (label r) * Lin.residual K (cells.map fun c => c.local R) r := by
  unfold Lin.residual
  rw [← List.sum_map_mul_left, List.map_map, List.map_map, List.map_map]
  congr 1
  refine List.map_congr_left fun g hg => ?_
  simp only [Function.comp_apply, GrainCell.local]
  rw [mul_sum, ← Equiv.sum_comp w.inCell fun i =>
    w.factor (label r) * (weight K (g.cell.dofs i) r * R g i)]
  refine sum_congr rfl fun i _ => ?_
  rw [hR g hg]
  simp only [Naming.grain, Naming.cell, Function.comp_apply]
  rw [weight_naming, (hlab g hg).1, ← mul_assoc, ← mul_assoc, mul_comm (weight K _ _),
    weight_label hK]

/-- C100: a state solves a time step of a polycrystal if and only if the same state in the new
description solves the step of the polycrystal described anew; and it fulfils the constraints if and
only if that one does. -/
theorem C100_solution (w : Naming n N) (label : ℕ → Option (Fin n)) (K : Sol.Constraints ℕ)
    (hK : SpecPerComponent label K) (cells : List (GrainCell d e n N))
    (hlab : ∀ g ∈ cells, SpecLabelled label g) (hp : ∀ g ∈ cells, SpecPrimitive g)
    (hl : ∀ g ∈ cells, ∀ f, LateralLinear (g.views f).prm.lat) (m : ℕ)
    (hm : ∀ r, r < m ↔ w.inMesh r < m) (u : ℕ → ℝ) :
    (SpecGrainSolution (cells.map w.grain) (w.constraints label K) m (w.state label u) ↔
      SpecGrainSolution cells K m u) ∧
    (Sol.Satisfies (w.constraints label K) (w.state label u) ↔ Sol.Satisfies K u) := by
  refine ⟨⟨?_, ?_⟩, ?_, ?_⟩
  · rintro ⟨R', hR', hz⟩
    refine ⟨fun g i => w.factor (g.cell.kind i) * R' (w.grain g) (w.inCell.symm i), ?_, ?_⟩
    · intro g hg i
      have h := hR' _ (List.mem_map_of_mem hg) (w.inCell.symm i)
      rw [w.localRhs (hlab g hg) (hp g hg) (hl g hg), Equiv.apply_symm_apply] at h
      rcases hx : Asm.localRhs g.cell.prm g.cell.kind g.cell.pts g.cell.dofs g.views g.loads u i
        with _ | x
      · rw [hx] at h; simp at h
      · rw [hx, Option.map_some] at h
        show some x = some (w.factor (g.cell.kind i) * R' (w.grain g) (w.inCell.symm i))
        rw [← Option.some.inj h, ← mul_assoc, w.factor_sq, one_mul]
    · intro r hr
      have h := hz _ ((hm r).1 hr)
      rw [residual_naming w hK cells hlab
        (fun g i => w.factor (g.cell.kind i) * R' (w.grain g) (w.inCell.symm i)) R'] at h
      · exact (mul_eq_zero.1 h).resolve_left (w.factor_ne _)
      · intro g hg i
        rw [Equiv.symm_apply_apply, ← mul_assoc, w.factor_sq, one_mul]
  · rintro ⟨R, hR, hz⟩
    let R' : GrainCell d e n N → Fin N → ℝ := fun g i =>
      (Asm.localRhs g.cell.prm g.cell.kind g.cell.pts g.cell.dofs g.views g.loads
        (w.state label u) i).getD 0
    have hval : ∀ g ∈ cells, ∀ i, Asm.localRhs (w.grain g).cell.prm (w.grain g).cell.kind
        (w.grain g).cell.pts (w.grain g).cell.dofs (w.grain g).views (w.grain g).loads
        (w.state label u) i = some (w.factor (g.cell.kind (w.inCell i)) * R g (w.inCell i)) := by
      intro g hg i
      rw [w.localRhs (hlab g hg) (hp g hg) (hl g hg), hR g hg, Option.map_some]
    have hR' : ∀ g ∈ cells, ∀ i, R' (w.grain g) i =
        w.factor (g.cell.kind (w.inCell i)) * R g (w.inCell i) := by
      intro g hg i
      show (Asm.localRhs _ _ _ _ _ _ _ _).getD 0 = _
      rw [hval g hg i]; rfl
    refine ⟨R', ?_, ?_⟩
    · intro g' hg' i
      obtain ⟨g, hg, rfl⟩ := List.mem_map.1 hg'
      rw [hval g hg i, hR' g hg i]
    · intro r hr
      obtain ⟨r, rfl⟩ : ∃ t, r = w.inMesh t := ⟨w.inMesh.symm r, by simp⟩
      rw [residual_naming w hK cells hlab R R' hR', hz r ((hm r).2 hr), mul_zero]
  · intro h g l hg
    have hg' : w.constraints label K (w.inMesh g) =
        some ⟨l.entries.map fun x => (w.inMesh x.1, x.2), w.factor (label g) * l.inhom⟩ := by
      simp [Naming.constraints, hg]
    have h := h _ _ hg'
    simp only [Naming.state, Sol.Line.eval, Equiv.symm_apply_apply, List.map_map] at h
    rw [show (List.map ((fun x : ℕ × ℝ => x.2 * (w.factor (label (w.inMesh.symm x.1)) *
        u (w.inMesh.symm x.1))) ∘ fun x : ℕ × ℝ => (w.inMesh x.1, x.2)) l.entries) =
        l.entries.map fun x => w.factor (label g) * (x.2 * u x.1) from
        List.map_congr_left fun x hx => by
          simp only [Function.comp_apply, Equiv.symm_apply_apply]
          rw [hK g l hg x hx]; ring, List.sum_map_mul_left, ← mul_add] at h
    exact mul_left_cancel₀ (w.factor_ne _) h
  · intro h g l hg
    obtain ⟨g, rfl⟩ : ∃ t, g = w.inMesh t := ⟨w.inMesh.symm g, by simp⟩
    simp only [Naming.constraints, Equiv.symm_apply_apply] at hg
    obtain ⟨l, hl', rfl⟩ := Option.map_eq_some_iff.1 hg
    simp only [Naming.state, Sol.Line.eval, Equiv.symm_apply_apply, List.map_map]
    rw [show (List.map ((fun x : ℕ × ℝ => x.2 * (w.factor (label (w.inMesh.symm x.1)) *
        u (w.inMesh.symm x.1))) ∘ fun x : ℕ × ℝ => (w.inMesh x.1, x.2)) l.entries) =
        l.entries.map fun x => w.factor (label g) * (x.2 * u x.1) from
        List.map_congr_left fun x hx => by
          simp only [Function.comp_apply, Equiv.symm_apply_apply]
          rw [hK g l hl' x hx]; ring, List.sum_map_mul_left, ← mul_add]
    rw [h g l hl']
    rfl

/-! ### Newton updates -/

/-- What a cell hands to the global assembly, in the new description. -/
noncomputable def Naming.handed (w : Naming n N) (label : ℕ → Option (Fin n)) (a : Local N) : Local N :=
  ⟨w.inMesh ∘ a.dofs ∘ w.inCell,
    fun i j => w.factor (label (a.dofs (w.inCell i))) * w.factor (label (a.dofs (w.inCell j))) *
      a.mat (w.inCell i) (w.inCell j),
    fun i => w.factor (label (a.dofs (w.inCell i))) * a.rhs (w.inCell i), a.diag ∘ w.inCell,
    a.couplings.map fun b => (w.inMesh ∘ b.1 ∘ w.inCell, fun i j =>
      w.factor (label (a.dofs (w.inCell i))) * w.factor (label (b.1 (w.inCell j))) *
        b.2 (w.inCell i) (w.inCell j))⟩

theorem jacobian_naming (w : Naming n N) {label : ℕ → Option (Fin n)} {K : Sol.Constraints ℕ}
    (hK : SpecPerComponent label K) (cells : List (Local N)) (r c : ℕ) :
    Lin.jacobian (w.constraints label K) (cells.map (w.handed label)) (w.inMesh r) (w.inMesh c) =
      w.factor (label r) * w.factor (label c) * Lin.jacobian K cells r c := by
  have hw := weight_label hK w
  have sums : ∀ (x y : Fin N → ℕ) (M : Fin N → Fin N → ℝ),
      ∑ i, ∑ j, weight (w.constraints label K) (w.inMesh (x (w.inCell i))) (w.inMesh r) *
        (w.factor (label (x (w.inCell i))) * w.factor (label (y (w.inCell j))) *
          M (w.inCell i) (w.inCell j)) *
        weight (w.constraints label K) (w.inMesh (y (w.inCell j))) (w.inMesh c) =
      w.factor (label r) * w.factor (label c) *
        ∑ i, ∑ j, weight K (x i) r * M i j * weight K (y j) c := by
    intro x y M
    simp only [weight_naming]
    rw [Equiv.sum_comp w.inCell fun i => ∑ j, weight K (x i) r *
      (w.factor (label (x i)) * w.factor (label (y (w.inCell j))) * M i (w.inCell j)) *
      weight K (y (w.inCell j)) c, mul_sum]
    refine sum_congr rfl fun i _ => ?_
    rw [Equiv.sum_comp w.inCell fun j => weight K (x i) r *
      (w.factor (label (x i)) * w.factor (label (y j)) * M i j) * weight K (y j) c, mul_sum]
    refine sum_congr rfl fun j _ => ?_
    linear_combination (w.factor (label (y j)) * M i j * weight K (y j) c) * hw (x i) r +
      (w.factor (label r) * weight K (x i) r * M i j) * hw (y j) c
  have hnone : ∀ g, (w.constraints label K (w.inMesh g) ≠ none ↔ K g ≠ none) := by
    intro g
    simp [Naming.constraints]
  unfold Lin.jacobian
  rw [← List.sum_map_mul_left, List.map_map]
  congr 1
  refine List.map_congr_left fun a _ => ?_
  simp only [Function.comp_apply, Naming.handed, List.map_map]
  rw [sums a.dofs a.dofs a.mat, mul_add, mul_add, ← List.sum_map_mul_left]
  congr 1
  · congr 1
    classical
    rw [← Equiv.sum_comp w.inCell fun i => if a.dofs i = r ∧ r = c ∧ K r ≠ none then a.diag i else 0,
      mul_sum]
    refine sum_congr rfl fun i _ => ?_
    by_cases h : a.dofs (w.inCell i) = r ∧ r = c ∧ K r ≠ none
    · refine (if_pos ⟨by rw [h.1], by rw [h.2.1], (hnone r).2 h.2.2⟩).trans ?_
      rw [if_pos h, h.2.1, w.factor_sq, one_mul]
    · rw [if_neg h, mul_zero]
      refine if_neg ?_
      rintro ⟨h1, h2, h3⟩
      exact h ⟨w.inMesh.injective h1, w.inMesh.injective h2, (hnone r).1 h3⟩
  · congr 1
    refine List.map_congr_left fun b _ => ?_
    simp only [Function.comp_apply]
    exact sums a.dofs b.1 b.2

theorem residual_handed (w : Naming n N) {label : ℕ → Option (Fin n)} {K : Sol.Constraints ℕ}
    (hK : SpecPerComponent label K) (cells : List (Local N)) (r : ℕ) :
    Lin.residual (w.constraints label K) (cells.map (w.handed label)) (w.inMesh r) =
      w.factor (label r) * Lin.residual K cells r := by
  unfold Lin.residual
  rw [← List.sum_map_mul_left, List.map_map]
  congr 1
  refine List.map_congr_left fun a _ => ?_
  simp only [Function.comp_apply, Naming.handed]
  rw [mul_sum, ← Equiv.sum_comp w.inCell fun i => w.factor (label r) *
    (weight K (a.dofs i) r * a.rhs i)]
  refine sum_congr rfl fun i _ => ?_
  rw [weight_naming]
  linear_combination a.rhs (w.inCell i) * weight_label hK w (a.dofs (w.inCell i)) r

/-- C100, Newton updates: the linear systems have corresponding solutions, and the norm of the
residual, on which convergence is decided, is the same. -/
theorem C100_newton (w : Naming n N) (label : ℕ → Option (Fin n)) (K : Sol.Constraints ℕ)
    (hK : SpecPerComponent label K) (cells : List (Local N)) (m : ℕ)
    (hm : ∀ r, r < m ↔ w.inMesh r < m) (x : ℕ → ℝ) :
    (SolvesAll (w.constraints label K) (cells.map (w.handed label)) m (w.state label x) ↔
      SolvesAll K cells m x) ∧
    ∑ r ∈ range m, Lin.residual (w.constraints label K) (cells.map (w.handed label)) r ^ 2 =
      ∑ r ∈ range m, Lin.residual K cells r ^ 2 := by
  have hre : ∀ f : ℕ → ℝ, ∑ r ∈ range m, f (w.inMesh r) = ∑ r ∈ range m, f r := by
    intro f
    refine Finset.sum_bij (fun r _ => w.inMesh r) ?_ ?_ ?_ ?_
    · intro r hr; exact mem_range.2 ((hm r).1 (mem_range.1 hr))
    · intro a _ b _ h; exact w.inMesh.injective h
    · intro r hr
      refine ⟨w.inMesh.symm r, ?_, by simp⟩
      rw [mem_range, hm, Equiv.apply_symm_apply]
      exact mem_range.1 hr
    · intro r _; rfl
  constructor
  · have row : ∀ r, (∑ c ∈ range m, Lin.jacobian (w.constraints label K)
        (cells.map (w.handed label)) (w.inMesh r) c * w.state label x c =
          Lin.residual (w.constraints label K) (cells.map (w.handed label)) (w.inMesh r)) ↔
        ∑ c ∈ range m, Lin.jacobian K cells r c * x c = Lin.residual K cells r := by
      intro r
      rw [← hre, residual_handed w hK]
      have : ∑ c ∈ range m, Lin.jacobian (w.constraints label K) (cells.map (w.handed label))
          (w.inMesh r) (w.inMesh c) * w.state label x (w.inMesh c) =
          w.factor (label r) * ∑ c ∈ range m, Lin.jacobian K cells r c * x c := by
        rw [mul_sum]
        refine sum_congr rfl fun c _ => ?_
        rw [jacobian_naming w hK]
        simp only [Naming.state, Equiv.symm_apply_apply]
        linear_combination (w.factor (label r) * Lin.jacobian K cells r c * x c) *
          w.factor_sq (label c)
      rw [this]
      exact mul_right_inj' (w.factor_ne _)
    constructor
    · intro h r hr
      exact (row r).1 (h _ ((hm r).1 hr))
    · intro h r hr
      obtain ⟨r, rfl⟩ : ∃ t, r = w.inMesh t := ⟨w.inMesh.symm r, by simp⟩
      exact (row r).2 (h r ((hm r).2 hr))
  · rw [← hre]
    refine sum_congr rfl fun r _ => ?_
    rw [residual_handed w hK, mul_pow, pow_two (w.factor _), w.factor_sq, one_mul]

/-! ### Runs -/

/-- A cell with its loads over a run, in the new description. -/
noncomputable def Naming.run (w : Naming n N) (r : RunGrain d e n N) : RunGrain d e n N :=
  ⟨⟨w.cell r.run.cell, r.run.supply⟩, r.F, fun f => w.view (r.views f), r.B,
    fun k b => w.loaded (r.loads k b)⟩

/-- The cells of a run agree on what the degrees of freedom are, and deal.II's guarantees. -/
structure SpecRunCell (label : ℕ → Option (Fin n)) (r : RunGrain d e n N) : Prop where
  own : ∀ i, r.run.cell.kind i = label (r.run.cell.dofs i)
  other : ∀ f i, r.run.cell.kind i = label ((r.views f).nbDofs i)
  pts : ∀ q, (r.run.cell.pts q).shape.Primitive r.run.cell.kind
  cur : ∀ f, (r.views f).cur.Primitive r.run.cell.kind
  nb : ∀ f, (r.views f).nb.Primitive r.run.cell.kind
  loads : ∀ k b, (r.loads k b).side.Primitive r.run.cell.kind
  lat : ∀ f, LateralLinear (r.views f).prm.lat

theorem Naming.histAt (w : Naming n N) {label : ℕ → Option (Fin n)} {r : RunGrain d e n N}
    (h : SpecRunCell label r) (u : ℕ → ℕ → ℝ) (q : Fin r.run.cell.Q) (k : ℕ) :
    (w.run r).run.histAt (fun k => w.state label (u k)) q k = w.hist (r.run.histAt u q k) := by
  induction k with
  | zero => rfl
  | succ k ih =>
    simp only [RunCell.histAt]
    rw [ih]
    have e : ∀ k, ((w.run r).run.cell.pts q).shape.slip
        (w.state label (u k) ∘ (w.run r).run.cell.dofs) =
        w.slips ((r.run.cell.pts q).shape.slip (u k ∘ r.run.cell.dofs)) := by
      intro k
      rw [← w.slip_coeff (h.pts q), ← w.state_cell h.own]
      rfl
    rw [e, e, w.update]
    rfl

theorem Naming.runAt (w : Naming n N) {label : ℕ → Option (Fin n)} {r : RunGrain d e n N}
    (h : SpecRunCell label r) (dt : ℕ → ℝ) (u : ℕ → ℕ → ℝ) (k : ℕ) :
    (w.run r).at dt (fun k => w.state label (u k)) k = w.grain (r.at dt u k) := by
  unfold RunGrain.at Naming.grain
  congr 1
  unfold RunCell.at Naming.cell
  congr 1
  funext q
  unfold Naming.point
  congr 1
  · exact w.histAt h u q k
  · show ((w.run r).run.cell.pts q).shape.slip _ = _
    rw [← w.slip_coeff (h.pts q), ← w.state_cell h.own]
    rfl

/-- C100, whole runs: a sequence of states solves all time steps of a run if and only if the same
states in the new description solve all time steps of the run described anew. -/
theorem C100_run (w : Naming n N) (label : ℕ → Option (Fin n)) (K : ℕ → Sol.Constraints ℕ)
    (hK : ∀ k, SpecPerComponent label (K k)) (run : List (RunGrain d e n N))
    (hr : ∀ r ∈ run, SpecRunCell label r) (m : ℕ) (hm : ∀ r, r < m ↔ w.inMesh r < m)
    (dt : ℕ → ℝ) (u : ℕ → ℕ → ℝ) (T : ℕ) :
    (∀ k < T, SpecGrainSolution (SpecGrains (run.map w.run) dt (fun k => w.state label (u k)) k)
        (w.constraints label (K k)) m (w.state label (u (k + 1))) ∧
      Sol.Satisfies (w.constraints label (K k)) (w.state label (u (k + 1)))) ↔
    ∀ k < T, SpecGrainSolution (SpecGrains run dt u k) (K k) m (u (k + 1)) ∧
      Sol.Satisfies (K k) (u (k + 1)) := by
  refine forall_congr' fun k => imp_congr_right fun _ => ?_
  have e : SpecGrains (run.map w.run) dt (fun k => w.state label (u k)) k =
      (SpecGrains run dt u k).map w.grain := by
    unfold SpecGrains
    rw [List.map_map, List.map_map]
    exact List.map_congr_left fun r hrr => w.runAt (hr r hrr) dt u k
  have key := C100_solution w label (K k) (hK k) (SpecGrains run dt u k)
    (fun g hg => by
      obtain ⟨r, hrr, rfl⟩ := List.mem_map.1 hg
      exact ⟨(hr r hrr).own, (hr r hrr).other⟩)
    (fun g hg => by
      obtain ⟨r, hrr, rfl⟩ := List.mem_map.1 hg
      exact ⟨(hr r hrr).pts, (hr r hrr).cur, (hr r hrr).nb, (hr r hrr).loads k⟩)
    (fun g hg => by
      obtain ⟨r, hrr, rfl⟩ := List.mem_map.1 hg
      exact (hr r hrr).lat) m hm (u (k + 1))
  rw [e, key.1, key.2]

/-! ## C100: the active set -/

/-- Shape functions on a face at the boundary of the body. -/
def Naming.bshape (w : Naming n N) (s : BShape d n N) : BShape d n N :=
  ⟨s.jxw, s.normal, fun b i => s.phi (w.order b) (w.inCell i), fun b i => s.grad (w.order b) (w.inCell i)⟩

/-- A cell in the assembly of the trial microstress. -/
noncomputable def Naming.tcell (w : Naming n N) (c : TCell d n N) : TCell d n N :=
  ⟨w.prm c.prm, w.kind c.kind, w.inMesh ∘ c.dofs ∘ w.inCell, c.Q, fun q => w.shape (c.pts q), c.F,
    fun f => w.bshape (c.faces f)⟩

/-- deal.II's guarantees, also for the gradients on boundary faces. -/
structure SpecTrialCell (label : ℕ → Option (Fin n)) (c : TCell d n N) : Prop where
  label : ∀ i, c.kind i = label (c.dofs i)
  pts : ∀ q, (c.pts q).Primitive c.kind
  grad : ∀ f i a, c.kind i ≠ some a → (c.faces f).grad a i = 0

theorem Naming.trialStress (w : Naming n N) (c : CellPrm d n) {k : Kind n N} {s : Shape d n N}
    (hs : s.Primitive k) (u old : Fin N → ℝ) :
    (w.prm c).trialStress (w.shape s) (w.coeff k u) (w.coeff k old) = c.trialStress s u old := by
  unfold CellPrm.trialStress
  rw [elasticStrain_finRange, elasticStrain_finRange, w.slip_coeff hs, w.strain_coeff hs]
  simp only [Naming.prm, Naming.slips, w.symSchmid]
  congr 4
  rw [← Equiv.sum_comp w.order fun a => s.slip old a • (c.sys a).symSchmid]
  refine sum_congr rfl fun b _ => ?_
  rw [smul_smul, mul_assoc, mul_comm (s.slip old _), ← mul_assoc, w.sign_sq, one_mul]

/-- C100, trial microstress: right-hand side and lumped matrix correspond. -/
theorem C100_trial (w : Naming n N) (label : ℕ → Option (Fin n)) (c : TCell d n N)
    (h : SpecTrialCell label c) (u old : ℕ → ℝ) (i : Fin N) :
    (w.tcell c).rhs (w.state label u) (w.state label old) i =
      (c.rhs u old (w.inCell i)).map (w.factor (c.kind (w.inCell i)) * ·) ∧
    (w.tcell c).lumped i = c.lumped (w.inCell i) := by
  constructor
  · unfold TCell.rhs
    have e : ∀ v, w.state label v ∘ (w.tcell c).dofs = w.coeff c.kind (v ∘ c.dofs) :=
      fun v => w.state_cell h.label v
    rw [e, e]
    have h1 : (sumOpt fun q => (w.tcell c).prm.trialTerm (w.tcell c).kind ((w.tcell c).pts q)
        (w.coeff c.kind (u ∘ c.dofs)) (w.coeff c.kind (old ∘ c.dofs)) i) =
        (sumOpt fun q => c.prm.trialTerm c.kind (c.pts q) (u ∘ c.dofs) (old ∘ c.dofs)
          (w.inCell i)).map (w.factor (c.kind (w.inCell i)) * ·) := by
      refine Prm.sumOpt_map _ _ _ fun q => ?_
      show (w.prm c.prm).trialTerm (w.kind c.kind) (w.shape (c.pts q)) _ _ i = _
      unfold CellPrm.trialTerm
      rcases hk : c.kind (w.inCell i) with _ | a
      · have hk' : w.kind c.kind i = none := by simp [Naming.kind, hk]
        simp [hk', Naming.factor]
      · obtain ⟨b, rfl⟩ : ∃ b, a = w.order b := ⟨w.order.symm a, by simp⟩
        have hk' : w.kind c.kind i = some b := by simp [Naming.kind, hk]
        simp only [hk', w.trialStress c.prm (h.pts q), w.slipGrad_coeff (h.pts q), Naming.factor]
        simp only [Naming.prm, w.microstress, w.resolved, Option.map_map]
        congr 1
        funext x
        simp only [Function.comp_apply, Naming.shape, dotProduct_smul, smul_eq_mul]
        ring
    have h2 : (sumOpt fun f => (w.tcell c).prm.trialFaceTerm (w.tcell c).kind ((w.tcell c).faces f)
        (w.coeff c.kind (old ∘ c.dofs)) i) =
        (sumOpt fun f => c.prm.trialFaceTerm c.kind (c.faces f) (old ∘ c.dofs)
          (w.inCell i)).map (w.factor (c.kind (w.inCell i)) * ·) := by
      refine Prm.sumOpt_map _ _ _ fun f => ?_
      show (w.prm c.prm).trialFaceTerm (w.kind c.kind) (w.bshape (c.faces f)) _ i = _
      unfold CellPrm.trialFaceTerm
      rcases hk : c.kind (w.inCell i) with _ | a
      · have hk' : w.kind c.kind i = none := by simp [Naming.kind, hk]
        simp [hk', Naming.factor]
      · obtain ⟨b, rfl⟩ : ∃ b, a = w.order b := ⟨w.order.symm a, by simp⟩
        have hk' : w.kind c.kind i = some b := by simp [Naming.kind, hk]
        have hg : (w.bshape (c.faces f)).slipGrad (w.coeff c.kind (old ∘ c.dofs)) b =
            w.sign (w.order b) • (c.faces f).slipGrad (old ∘ c.dofs) (w.order b) := by
          unfold BShape.slipGrad
          simp only [Naming.bshape, Naming.coeff]
          rw [smul_sum, Equiv.sum_comp w.inCell fun i =>
            (w.factor (c.kind i) * (old ∘ c.dofs) i) • (c.faces f).grad (w.order b) i]
          refine sum_congr rfl fun j _ => ?_
          by_cases hj : c.kind j = some (w.order b)
          · rw [hj]; simp only [Naming.factor]; rw [mul_smul]
          · rw [h.grad f j _ hj]; simp
        simp only [hk', hg, Naming.factor]
        simp only [Naming.prm, w.microstress, Option.map_map]
        congr 1
        funext x
        simp only [Function.comp_apply, Naming.bshape, smul_dotProduct, smul_eq_mul]
        ring
    rw [h1, h2]
    rcases sumOpt fun q => c.prm.trialTerm c.kind (c.pts q) (u ∘ c.dofs) (old ∘ c.dofs)
      (w.inCell i) with _ | x
    · rfl
    · simp only [Option.map_some, Option.bind_some]
      rw [Option.map_map, Option.map_map]
      congr 1
      funext y
      simp only [Function.comp_apply]
      ring
  · unfold TCell.lumped
    show (match w.kind c.kind i with | none => _ | some a => _) = _
    rcases hk : c.kind (w.inCell i) with _ | a
    · have hk' : w.kind c.kind i = none := by simp [Naming.kind, hk]
      simp [hk']
    · obtain ⟨b, rfl⟩ : ∃ b, a = w.order b := ⟨w.order.symm a, by simp⟩
      have hk' : w.kind c.kind i = some b := by simp [Naming.kind, hk]
      simp only [hk']
      refine sum_congr rfl fun q _ => ?_
      rw [← Equiv.sum_comp w.inCell fun j => if c.kind j = some (w.order b) then
        (c.pts q).phi (w.order b) (w.inCell i) * (c.pts q).phi (w.order b) j * (c.pts q).jxw else 0]
      refine sum_congr rfl fun j _ => ?_
      have hiff : (w.kind c.kind j = some b) ↔ c.kind (w.inCell j) = some (w.order b) := by
        unfold Naming.kind
        rw [Option.map_eq_some_iff]
        constructor
        · rintro ⟨a, ha, hab⟩; rw [ha, ← hab]; simp
        · intro ha; exact ⟨_, ha, by simp⟩
      by_cases hj : c.kind (w.inCell j) = some (w.order b)
      · rw [if_pos hj]
        refine (if_pos (hiff.2 hj)).trans ?_
        rfl
      · rw [if_neg hj]
        exact if_neg fun h' => hj (hiff.1 h')

/-- C100, active set: the same slips are active, whatever the order in which the degrees of freedom
are visited. -/
theorem C100_active (w : Naming n N) (label : ℕ → Option (Fin n)) (c hn newton hn' newton' :
    Sol.Constraints ℕ) (owned owned' : List ℕ) (ho : ∀ g, g ∈ owned ↔ w.inMesh g ∈ owned')
    (trial : ℕ → ℝ) (y y' : AS.Yield) (hy : y'.perfect = y.perfect ∧ y'.initial = y.initial ∧
      y'.characteristic = y.characteristic ∧ ∀ g, y'.resistance (w.inMesh g) = y.resistance g) (g : ℕ) :
    w.inMesh g ∈ (AS.determineActive (w.constraints label c) hn' newton' owned'
        (w.state label trial) y').1 ↔
      g ∈ (AS.determineActive c hn newton owned trial y).1 := by
  rw [AS.C13_active_iff, AS.C13_active_iff]
  have hval : ∀ d, |w.state label trial (w.inMesh d)| = |trial d| := by
    intro d
    simp only [Naming.state, Equiv.symm_apply_apply, abs_mul]
    rcases hl : label d with _ | a
    · simp [Naming.factor]
    · simp only [Naming.factor]
      rcases w.sign_cases a with h | h <;> rw [h] <;> simp
  have hmaster : ∀ d e, AS.Master (w.constraints label c) (w.inMesh d) (w.inMesh e) ↔
      AS.Master c d e := by
    intro d e
    unfold AS.Master
    constructor
    · rintro ⟨b, hb⟩
      simp only [Naming.constraints, Equiv.symm_apply_apply] at hb
      obtain ⟨l, hl, hle⟩ := Option.map_eq_some_iff.1 hb
      simp only [Sol.Line.mk.injEq] at hle
      obtain ⟨x, hx, hxe⟩ := List.map_eq_singleton_iff.1 hle.1
      refine ⟨l.inhom, ?_⟩
      rw [hl]
      simp only [Prod.mk.injEq] at hxe
      have h1 := w.inMesh.injective hxe.1
      rcases l with ⟨le, li⟩
      simp only at hx
      subst hx
      rcases x with ⟨x1, x2⟩
      simp only at h1 hxe
      rw [h1, hxe.2]
    · rintro ⟨b, hb⟩
      exact ⟨w.factor (label d) * b, by simp [Naming.constraints, hb]⟩
  have hflow : ∀ d, AS.MayFlow (w.constraints label c) (w.inMesh d) ↔ AS.MayFlow c d := by
    intro d
    unfold AS.MayFlow
    constructor
    · rintro (h | ⟨m, h⟩)
      · left; simpa [Naming.constraints] using h
      · right
        refine ⟨w.inMesh.symm m, ?_⟩
        exact (hmaster d (w.inMesh.symm m)).1 (by rw [Equiv.apply_symm_apply]; exact h)
    · rintro (h | ⟨m, h⟩)
      · left; simp [Naming.constraints, h]
      · right; exact ⟨w.inMesh m, (hmaster d m).2 h⟩
  constructor
  · rintro ⟨d, hd, h1, h2⟩
    obtain ⟨d, rfl⟩ : ∃ t, d = w.inMesh t := ⟨w.inMesh.symm d, by simp⟩
    rw [hval, hy.1, hy.2.1, hy.2.2.1, hy.2.2.2] at h1
    refine ⟨d, (ho d).2 hd, h1, ?_⟩
    rcases h2 with ⟨h3, h4⟩ | h3
    · exact Or.inl ⟨w.inMesh.injective h3, (hflow d).1 h4⟩
    · exact Or.inr ((hmaster d g).1 h3)
  · rintro ⟨d, hd, h1, h2⟩
    refine ⟨w.inMesh d, (ho d).1 hd, ?_, ?_⟩
    · rw [hval, hy.1, hy.2.1, hy.2.2.1, hy.2.2.2]; exact h1
    · rcases h2 with ⟨h3, h4⟩ | h3
      · exact Or.inl ⟨by rw [h3], (hflow d).2 h4⟩
      · exact Or.inr ((hmaster d g).2 h3)

/-! ## C100: reading slip systems -/

theorem normalize_orient (b : Bool) (v : Vec d) :
    Cry.normalize (orient b • v) = (Cry.normalize v).map (orient b • ·) := by
  have h : norm2 (orient b • v) = norm2 v := by
    unfold norm2
    rw [dot_orient, orient_sq, one_mul]
  unfold Cry.normalize
  rw [h]
  split_ifs
  · rfl
  · simp only [Option.map_some]
    congr 1
    funext i
    simp only [Pi.smul_apply, smul_eq_mul]
    ring

theorem check_orient (a b : Bool) (v x : Vec d) :
    orthogonalityCheck (orient a • v) (orient b • x) ↔ orthogonalityCheck v x := by
  unfold orthogonalityCheck
  rw [dot_orient, abs_mul, abs_mul, orient_abs, orient_abs, one_mul, one_mul]

theorem cross_orient (s t : ℝ) (v x : Vec 3) : cross (s • v) (t • x) = (s * t) • cross v x := by
  funext i
  fin_cases i <;> simp [cross] <;> ring

theorem orient_xor (a b : Bool) : orient a * orient b = orient (xor a b) := by
  cases a <;> cases b <;> simp [orient]

/-- C100, input: slip systems listed in another order or with reversed vectors are accepted if and
only if they were, and are stored as the slip systems in the new description, also in the rotated
crystals. -/
theorem C100_read (w : Naming n N) :
    (∀ direction normal : Fin n → Vec 2, ∀ b,
      (readSystem2 (orient (w.direction (w.order b)) • direction (w.order b))
          (orient (w.normal (w.order b)) • normal (w.order b)) = .rejected ↔
        readSystem2 (direction (w.order b)) (normal (w.order b)) = .rejected) ∧
      ∀ s : Fin n → System 2, (∀ a, readSystem2 (direction a) (normal a) = .ok (s a)) →
        readSystem2 (orient (w.direction (w.order b)) • direction (w.order b))
          (orient (w.normal (w.order b)) • normal (w.order b)) = .ok (w.systems s b)) ∧
    (∀ direction normal : Fin n → Vec 3, ∀ b,
      (readSystem3 (orient (w.direction (w.order b)) • direction (w.order b))
          (orient (w.normal (w.order b)) • normal (w.order b)) = .rejected ↔
        readSystem3 (direction (w.order b)) (normal (w.order b)) = .rejected) ∧
      ∀ s : Fin n → System 3, (∀ a, readSystem3 (direction a) (normal a) = .ok (s a)) →
        readSystem3 (orient (w.direction (w.order b)) • direction (w.order b))
          (orient (w.normal (w.order b)) • normal (w.order b)) = .ok (w.systems s b)) ∧
    ∀ (r : Mat d) (s : Fin n → System d),
      (fun b => rotateSystem r (w.systems s b)) = w.systems fun a => rotateSystem r (s a) := by
  refine ⟨fun dir nrm b => ⟨?_, fun s hs => ?_⟩, fun dir nrm b => ⟨?_, fun s hs => ?_⟩, fun r s => ?_⟩
  · unfold readSystem2
    rw [check_orient, normalize_orient, normalize_orient]
    split_ifs
    · rcases Cry.normalize (nrm (w.order b)) with _ | x <;>
        rcases Cry.normalize (dir (w.order b)) with _ | y <;> simp
    · simp
  · have h := hs (w.order b)
    unfold readSystem2 at h ⊢
    rw [check_orient, normalize_orient, normalize_orient]
    by_cases hc : orthogonalityCheck (nrm (w.order b)) (dir (w.order b))
    · rw [if_pos hc] at h ⊢
      rcases h1 : Cry.normalize (nrm (w.order b)) with _ | x <;>
        rcases h2 : Cry.normalize (dir (w.order b)) with _ | y <;> rw [h1, h2] at h <;>
        simp only [reduceCtorEq, Read.ok.injEq] at h
      simp only [Option.map_some, Naming.systems, ← h, Read.ok.injEq, System.mk.injEq, true_and]
      simp
    · rw [if_neg hc] at h; simp at h
  · unfold readSystem3
    rw [check_orient, normalize_orient, normalize_orient, cross_orient, orient_xor, normalize_orient]
    split_ifs
    · rcases Cry.normalize (nrm (w.order b)) with _ | x <;>
        rcases Cry.normalize (dir (w.order b)) with _ | y <;>
        rcases Cry.normalize (cross (nrm (w.order b)) (dir (w.order b))) with _ | z <;> simp
    · simp
  · have h := hs (w.order b)
    unfold readSystem3 at h ⊢
    rw [check_orient, normalize_orient, normalize_orient, cross_orient, orient_xor, normalize_orient]
    by_cases hc : orthogonalityCheck (nrm (w.order b)) (dir (w.order b))
    · rw [if_pos hc] at h ⊢
      rcases h1 : Cry.normalize (nrm (w.order b)) with _ | x <;>
        rcases h2 : Cry.normalize (dir (w.order b)) with _ | y <;>
        rcases h3 : Cry.normalize (cross (nrm (w.order b)) (dir (w.order b))) with _ | z <;>
        rw [h1, h2, h3] at h <;> simp only [reduceCtorEq, Read.ok.injEq] at h
      simp only [Option.map_some, Naming.systems, ← h, Read.ok.injEq, System.mk.injEq, true_and]
      rw [← orient_xor, mul_comm]
      rfl
    · rw [if_neg hc] at h; simp at h
  · funext b
    unfold rotateSystem Naming.systems
    simp only [mulVec_smul]

/-! ## C100: output -/

/-- The solution at an evaluation point in two descriptions: displacements are the same, slips and
their gradients those of the new description. -/
structure SpecSamePoint (w : Naming n N) {nC : ℕ} (o : Post.Output d nC n) (x x' : Post.Inputs d) :
    Prop where
  disp : ∀ i < o.offset, x'.value i = x.value i ∧ x'.gradient i = x.gradient i
  value : ∀ c b, x'.value (o.slipIndex c b) = w.sign (w.order b) * x.value (o.slipIndex c (w.order b))
  gradient : ∀ c b, x'.gradient (o.slipIndex c b) =
    w.sign (w.order b) • x.gradient (o.slipIndex c (w.order b))

/-- The output in the new description. -/
noncomputable def Naming.output (w : Naming n N) {nC : ℕ} (o : Post.Output d nC n) : Post.Output d nC n :=
  { o with sys := fun c => w.systems (o.sys c) }

theorem Naming.out_slip (w : Naming n N) {nC : ℕ} (o : Post.Output d nC n) (x x' : Post.Inputs d)
    (h : SpecSamePoint w o x x') (b : Fin n) :
    (w.output o).slip x' b = w.sign (w.order b) * o.slip x (w.order b) := by
  unfold Post.Output.slip
  rw [mul_sum]
  exact sum_congr rfl fun c _ => h.value c b

theorem Naming.out_plastic (w : Naming n N) {nC : ℕ} (o : Post.Output d nC n) (x x' : Post.Inputs d)
    (h : SpecSamePoint w o x x') : (w.output o).plastic x' = o.plastic x := by
  unfold Post.Output.plastic
  rw [← Equiv.sum_comp w.order fun a => ∑ c, x.value (o.slipIndex c a) • (o.sys c a).symSchmid]
  refine sum_congr rfl fun b _ => sum_congr rfl fun c _ => ?_
  have e : x'.value ((w.output o).slipIndex c b) = _ := h.value c b
  rw [e]
  show _ • (w.systems (o.sys c) b).symSchmid = _
  rw [w.symSchmid, smul_smul, mul_comm (w.sign _) (x.value _), mul_assoc, w.sign_sq, mul_one]

theorem Naming.out_index (o : Post.Output d m n) (i : Fin d) (c : Fin m) (ho : o.decohesion = true) :
    (i : ℕ) + d * c < o.offset := by
  unfold Post.Output.offset
  rw [if_pos ho]
  have h1 := i.isLt
  have h2 : d * (c : ℕ) + d ≤ d * m := by
    have := Nat.mul_le_mul_left d (Nat.succ_le_of_lt c.isLt)
    rw [Nat.mul_succ] at this
    exact this
  omega

theorem Naming.out_gradient (w : Naming n N) {nC : ℕ} (o : Post.Output d nC n) (x x' : Post.Inputs d)
    (h : SpecSamePoint w o x x') : (w.output o).gradient x' = o.gradient x := by
  unfold Post.Output.gradient
  ext i j
  simp only [Matrix.of_apply]
  show (if o.decohesion = true then _ else _) = _
  by_cases ho : o.decohesion = true
  · rw [if_pos ho, if_pos ho]
    exact sum_congr rfl fun c _ => by rw [(h.disp _ (Naming.out_index o i c ho)).2]
  · rw [if_neg ho, if_neg ho, (h.disp _ (by unfold Post.Output.offset; rw [if_neg ho]; exact i.isLt)).2]

theorem Naming.out_displacement (w : Naming n N) {nC : ℕ} (o : Post.Output d nC n)
    (x x' : Post.Inputs d) (h : SpecSamePoint w o x x') (i : Fin d) :
    (w.output o).displacement x' i = o.displacement x i := by
  unfold Post.Output.displacement
  show (if o.decohesion = true then _ else _) = _
  by_cases ho : o.decohesion = true
  · rw [if_pos ho, if_pos ho]
    exact sum_congr rfl fun c _ => by rw [(h.disp _ (Naming.out_index o i c ho)).1]; rfl
  · rw [if_neg ho, if_neg ho, (h.disp _ (by unfold Post.Output.offset; rw [if_neg ho]; exact i.isLt)).1]
    rfl

theorem Naming.out_density (w : Naming n N) {nC : ℕ} (o : Post.Output d nC n) (x x' : Post.Inputs d)
    (h : SpecSamePoint w o x x') (v : System d → Vec d)
    (hv : ∀ s b, ∃ t : ℝ, t * t = 1 ∧ v (w.systems s b) = t • v (s (w.order b))) :
    (w.output o).density x' v = o.density x v := by
  unfold Post.Output.density
  show o.units.density * _ = _
  congr 2
  rw [← Equiv.sum_comp w.order fun a => ∑ c, (x.gradient (o.slipIndex c a) ⬝ᵥ v (o.sys c a)) ^ 2]
  refine sum_congr rfl fun b _ => sum_congr rfl fun c _ => ?_
  have e : x'.gradient ((w.output o).slipIndex c b) = _ := h.gradient c b
  obtain ⟨t, ht, hv⟩ := hv (o.sys c) b
  rw [e]
  show (_ ⬝ᵥ v (w.systems (o.sys c) b)) ^ 2 = _
  rw [hv, dot_orient, mul_pow]
  have : (w.sign (w.order b) * t) ^ 2 = 1 := by
    have := w.sign_sq (w.order b)
    calc _ = (w.sign (w.order b) * w.sign (w.order b)) * (t * t) := by ring
      _ = 1 := by rw [this, ht, one_mul]
  rw [this, one_mul]

/-- C100, output: the displacement columns and all derived columns but the first do not depend on the
description; the slip columns are those of the new description. -/
theorem C100_output_partial (w : Naming n N) {nC : ℕ} (o : Post.Output d nC n) (x x' : Post.Inputs d)
    (h : SpecSamePoint w o x x') (hl : o.light = false) :
    (∀ i : Fin d, (w.output o).result x' i = o.result x i) ∧
    (∀ b : Fin n, (w.output o).result x' (d + b) =
      w.sign (w.order b) * o.result x (d + w.order b)) ∧
    ((List.range (Post.nColumns o)).map ((w.output o).result x')).drop (d + n + 1) =
      ((List.range (Post.nColumns o)).map (o.result x)).drop (d + n + 1) := by
  have hres : ∀ (o : Post.Output d nC n) (x : Post.Inputs d) p, p ∈ o.writes x →
      o.result x p.1 = p.2 := fun o x p hp => by
    refine Post.foldl_update_nodup _ ?_ _ p hp
    rw [Post.writes_slots]; exact List.nodup_range
  have hdisp : ∀ (o : Post.Output d nC n) (x : Post.Inputs d) (i : Fin d),
      o.result x i = o.displacement x i := fun o x i => by
    refine hres o x ((i : ℕ), o.displacement x i) ?_
    unfold Post.Output.writes
    simp only [List.append_assoc]
    exact List.mem_append_left _ (List.mem_map_of_mem (List.mem_finRange i))
  have hslip : ∀ (o : Post.Output d nC n) (x : Post.Inputs d) (b : Fin n),
      o.result x (d + b) = o.slip x b := fun o x b => by
    refine hres o x (d + (b : ℕ), o.slip x b) ?_
    unfold Post.Output.writes
    simp only [List.append_assoc]
    exact List.mem_append_right _ (List.mem_append_left _ (List.mem_map_of_mem (List.mem_finRange b)))
  refine ⟨fun i => ?_, fun b => ?_, ?_⟩
  · rw [hdisp, hdisp, w.out_displacement o x x' h]
  · rw [hslip, hslip, w.out_slip o x x' h]
  · have e1 := Post.derived_values (w.output o) x' hl
    have e2 := Post.derived_values o x hl
    have hn : Post.nColumns (w.output o) = Post.nColumns o := rfl
    rw [hn] at e1
    have hd : ∀ l : List ℝ, l.drop (d + n + 1) = (l.drop (d + n)).drop 1 := fun l =>
      (List.drop_drop ..).symm
    rw [hd, hd, e1, e2]
    have hp := w.out_plastic o x x' h
    have hg := w.out_gradient o x x' h
    have hs : ∀ t, (w.output o).strain x' t = o.strain x t := fun t => by
      unfold Post.Output.strain
      rw [hg]; rfl
    have he : ∀ t, (w.output o).elastic x' t = o.elastic x t := fun t => by
      unfold Post.Output.elastic
      rw [hs, hp]; rfl
    have hσ : (w.output o).stress x' = o.stress x := by
      unfold Post.Output.stress
      rw [he]; rfl
    have hσf : (w.output o).stressFluct x' = o.stressFluct x := by
      unfold Post.Output.stressFluct
      rw [he]; rfl
    have hu : (w.output o).units = o.units := rfl
    have hf : (w.output o).fluctuations = o.fluctuations := rfl
    have habs : ∑ a : Fin n, ∑ c : Fin nC, |x'.value ((w.output o).slipIndex c a)| =
        ∑ a : Fin n, ∑ c : Fin nC, |x.value (o.slipIndex c a)| := by
      rw [← Equiv.sum_comp w.order fun a => ∑ c, |x.value (o.slipIndex c a)|]
      refine sum_congr rfl fun b _ => sum_congr rfl fun c _ => ?_
      have e : x'.value ((w.output o).slipIndex c b) = _ := h.value c b
      rw [e, abs_mul]
      rcases w.sign_cases (w.order b) with h1 | h1 <;> rw [h1] <;> simp
    have hd1 := w.out_density o x x' h System.direction fun s b => ⟨_, orient_sq _, rfl⟩
    have hd2 := w.out_density o x x' h System.third fun s b => ⟨_, w.sign_sq _, rfl⟩
    rw [habs, hd1, hd2, hσ, hσf, hs, hs, he, hp, hu, hf]
    rfl

/-- C100, macroscopic averages: stress and strain integrals of a quadrature point do not depend on the
description. -/
theorem C100_average (w : Naming n N) (hom : Post.Homog d) (rot : Mat d) (jxw : ℝ) (strain : Mat d)
    (s : Fin n → System d) (γ : Fin n → ℝ) :
    hom.term rot ⟨jxw, strain, (List.finRange n).map fun b => (w.systems s b, w.slips γ b)⟩ =
      hom.term rot ⟨jxw, strain, (List.finRange n).map fun a => (s a, γ a)⟩ := by
  have e : elasticStrain hom.dn0 ((List.finRange n).map fun b => (w.systems s b, w.slips γ b)) strain =
      elasticStrain hom.dn0 ((List.finRange n).map fun a => (s a, γ a)) strain := by
    rw [elasticStrain_finRange, elasticStrain_finRange]
    congr 2
    rw [← Equiv.sum_comp w.order fun a => γ a • (s a).symSchmid]
    refine sum_congr rfl fun b _ => ?_
    unfold Naming.slips
    rw [w.symSchmid, smul_smul, mul_comm (w.sign _) (γ _), mul_assoc, w.sign_sq, mul_one]
  unfold Post.Homog.term
  simp only [e]

/-- C100, output: if no vector is reversed, the remaining column does not depend on the description
either. -/
theorem C100_output_order (w : Naming n N) {nC : ℕ} (o : Post.Output d nC n) (x x' : Post.Inputs d)
    (h : SpecSamePoint w o x x') (hl : o.light = false) (hs : ∀ a, w.sign a = 1) :
    (w.output o).result x' (d + n) = o.result x (d + n) := by
  have hres : ∀ (o : Post.Output d nC n) (x : Post.Inputs d) (_ : o.light = false),
      o.result x (d + n) = ∑ a, o.slip x a := fun o x hl => by
    refine Post.foldl_update_nodup _ ?_ _ (d + n, ∑ a, o.slip x a) ?_
    · rw [Post.writes_slots]; exact List.nodup_range
    · unfold Post.Output.writes
      simp [hl]
  rw [hres (w.output o) x' hl, hres o x hl, ← Equiv.sum_comp w.order fun a => o.slip x a]
  exact sum_congr rfl fun b _ => by rw [w.out_slip o x x' h, hs, one_mul]

/-! ## Witnesses -/

/-- The normal of the only slip system is reversed. -/
def exReversed : Naming 1 1 :=
  ⟨Equiv.refl _, fun _ => false, fun _ => true, Equiv.refl _, Equiv.refl _⟩

/-- C100 is violated by the column `EquivalentPlasticStrain`: it is the sum of the slips with their
signs, so reversing the normal of the only slip system of a crystal that slips changes its value,
although nothing else about the crystal does. -/
theorem C100_violated : ∃ (o : Post.Output 2 2 1) (x x' : Post.Inputs 2),
    SpecSamePoint exReversed o x x' ∧ o.light = false ∧
    o.names[2 + 1]? = some "EquivalentPlasticStrain" ∧
    (exReversed.output o).result x' (2 + 1) ≠ o.result x (2 + 1) := by
  refine ⟨Post.exOut false false false, Post.exIn,
    ⟨fun n => if n = 3 then -1 else 0, fun n => if n = 0 then ![1, 0] else 0⟩, ?_, rfl, rfl, ?_⟩
  · have hs : ∀ a, exReversed.sign a = -1 := by
      intro a; simp [Naming.sign, orient, exReversed]
    refine ⟨fun i hi => ?_, fun c b => ?_, fun c b => ?_⟩
    · simp only [Post.Output.offset, Post.exOut] at hi
      have : i ≠ 3 := by simp at hi; omega
      simp [Post.exIn, this]
    · rw [hs]
      have hb : exReversed.order b = b := rfl
      rw [hb]
      simp only [Post.exIn]
      split_ifs <;> simp
    · rw [hs]
      have hb : exReversed.order b = b := rfl
      rw [hb]
      have hne : (Post.exOut false false false).slipIndex c b ≠ 0 := by
        simp [Post.Output.slipIndex, Post.Output.offset, Post.exOut]
      simp [Post.exIn, hne]
  · have hres : ∀ (o : Post.Output 2 2 1) (x : Post.Inputs 2) (_ : o.light = false),
        o.result x (2 + 1) = ∑ a, o.slip x a := fun o x hl => by
      refine Post.foldl_update_nodup _ ?_ _ (2 + 1, ∑ a, o.slip x a) ?_
      · rw [Post.writes_slots]; exact List.nodup_range
      · unfold Post.Output.writes
        simp [hl]
    rw [hres _ _ rfl, hres _ _ rfl]
    simp only [Finset.univ_unique, Finset.sum_singleton, Post.Output.slip, Fin.sum_univ_two,
      Post.Output.slipIndex, Post.Output.offset, Post.exOut, Post.exIn, Naming.output]
    norm_num

/-- Two tied degrees of freedom of one slip system change their numbers. -/
def exRenumbered : Naming 1 1 :=
  ⟨Equiv.refl _, fun _ => false, fun _ => false, Equiv.refl _, Equiv.swap 0 1⟩

/-- C100 is violated in rate-independent runs with tied (periodic) slips: of two tied degrees of
freedom only the dependent one is above yield, and both are active; whether the Newton method may
change the independent one depends on which of the two has the smaller number. -/
theorem C100_violated_numbering : ∃ (c : Sol.Constraints ℕ) (trial : ℕ → ℝ) (y : AS.Yield)
    (label : ℕ → Option (Fin 1)),
    (∀ g, y.resistance (exRenumbered.inMesh g) = y.resistance g) ∧ SpecPerComponent label c ∧
    (AS.determineActive c (fun _ => none) c [0, 1] trial y).2 0 = some ⟨[], 0⟩ ∧
    (AS.determineActive (exRenumbered.constraints label c) (fun _ => none)
      (exRenumbered.constraints label c) [0, 1] (exRenumbered.state label trial) y).2
        (exRenumbered.inMesh 0) = none := by
  have hm0 : AS.Master AS.exC 1 0 := ⟨0, by simp [AS.exC]⟩
  refine ⟨AS.exC, fun d => if d = 1 then -2 else 1, AS.exY, fun _ => some 0, fun g => rfl,
    fun _ _ _ _ _ => rfl, ?_, ?_⟩
  · exact (AS.C14_violated_master_pinned AS.exC _ _ [0, 1] (by simp) _ _ 0 1 (by simp) (by simp) rfl
      hm0 (by simp [AS.exY, AS.Yield.at]) (by simp [AS.exY, AS.Yield.at])
      (fun e he hme => by
        obtain ⟨b, hb⟩ := hme
        have : e ≠ 0 := by rintro rfl; simp [AS.exC] at hb
        omega)).2
  · have hs : ∀ a, exRenumbered.sign a = 1 := by
      intro a; simp [Naming.sign, orient, exRenumbered]
    have h1 : exRenumbered.inMesh 0 = 1 := by simp [exRenumbered]
    have hc0 : exRenumbered.constraints (fun _ => some 0) AS.exC 0 = some ⟨[(1, 1)], 0⟩ := by
      simp [Naming.constraints, exRenumbered, AS.exC]
    have hc1 : exRenumbered.constraints (fun _ => some 0) AS.exC 1 = none := by
      simp [Naming.constraints, exRenumbered, AS.exC]
    have hm1 : AS.Master (exRenumbered.constraints (fun _ => some 0) AS.exC) 0 1 := ⟨0, hc0⟩
    rw [h1]
    have hact : 1 ∈ (AS.determineActive (exRenumbered.constraints (fun _ => some 0) AS.exC)
        (fun _ => none) (exRenumbered.constraints (fun _ => some 0) AS.exC) [0, 1]
        (exRenumbered.state (fun _ => some 0) fun d => if d = 1 then -2 else 1) AS.exY).1 := by
      rw [AS.C13_active_iff]
      refine ⟨0, by simp, ?_, Or.inr hm1⟩
      have h2 : exRenumbered.inMesh.symm 0 = 1 := by simp [exRenumbered]
      simp [AS.exY, Naming.state, Naming.factor, hs, h2]
    rw [AS.C14_active_free_partial _ _ _ _ (by simp) _ _ 1 rfl hact (Or.inr ?_), hc1]
    intro e he hme
    obtain ⟨b, hb⟩ := hme
    simp only [List.mem_cons, List.not_mem_nil, or_false] at he
    rcases he with rfl | rfl
    · omega
    · rw [hc1] at hb; cases hb

/-- Two slip systems change places and the direction of the first is reversed. -/
def exSwapped : Naming 2 2 :=
  ⟨Equiv.swap 0 1, fun a => a == 0, fun _ => false, Equiv.swap 0 1, Equiv.swap 0 1⟩

/-- `C100_solution` applies to the cell with two slip systems and two slips as degrees of freedom. -/
example (e : ℝ) (K : Sol.Constraints ℕ) (hK : K = fun _ => none) (u : ℕ → ℝ) :
    let cells : List (GrainCell 2 1 2 2) := [⟨exTwin e, 0, fun f => f.elim0, 0, fun f => f.elim0⟩]
    let label : ℕ → Option (Fin 2) := fun g => if g = 0 then some 0 else some 1
    SpecGrainSolution (cells.map exSwapped.grain) (exSwapped.constraints label K) 2
      (exSwapped.state label u) ↔ SpecGrainSolution cells K 2 u := by
  intro cells label
  refine (C100_solution exSwapped label K (fun g l h => by rw [hK] at h; cases h) cells ?_ ?_ ?_ 2 ?_
    u).1
  · intro g hg
    obtain rfl := List.mem_singleton.1 hg
    refine ⟨fun i => ?_, fun f => f.elim0⟩
    show some i = label (i : ℕ)
    fin_cases i <;> simp [label]
  · intro g hg
    obtain rfl := List.mem_singleton.1 hg
    exact ⟨(exTwin_cell e).primitive, fun f => f.elim0, fun f => f.elim0, fun f => f.elim0⟩
  · intro g hg
    obtain rfl := List.mem_singleton.1 hg
    exact fun f => f.elim0
  · intro r
    show r < 2 ↔ Equiv.swap 0 1 r < 2
    rcases Nat.lt_or_ge r 2 with h | h
    · interval_cases r <;> simp
    · rw [Equiv.swap_apply_of_ne_of_ne (by omega) (by omega)]

/-- `C100_solution` applies to two grains with a grain boundary, a load and a reversed normal. -/
example (u : ℕ → ℝ) (K : Sol.Constraints ℕ) (hK : K = fun _ => none) :
    let label : ℕ → Option (Fin 1) := fun g => if g = 6 ∨ g = 13 then some 0 else none
    let w : Naming 1 7 := ⟨Equiv.refl _, fun _ => false, fun _ => true, Equiv.refl _, Equiv.refl _⟩
    SpecGrainSolution ([triLeft, triRight].map w.grain) (w.constraints label K) 14
      (w.state label u) ↔ SpecGrainSolution [triLeft, triRight] K 14 u := by
  intro label w
  have he := tri_elements
  have hlab : ∀ (i : Fin 7), triKind i = label (i : ℕ) ∧ triKind i = label ((i : ℕ) + 7) := by
    intro i
    fin_cases i <;> simp [triKind, label]
  refine (C100_solution w label K (fun g l h => by rw [hK] at h; cases h) [triLeft, triRight] ?_ ?_ ?_ 14
    (fun r => Iff.rfl) u).1
  · intro g hg
    rcases List.mem_cons.1 hg with rfl | hg
    · exact ⟨fun i => (hlab i).1, fun f i => (hlab i).2⟩
    · obtain rfl := List.mem_singleton.1 hg
      exact ⟨fun i => (hlab i).2, fun f i => (hlab i).1⟩
  · intro g hg
    refine ⟨fun q => (he.same g hg).symm ▸ he.shape g hg q, fun f => (he.same g hg).symm ▸ he.cur g hg f,
      fun f => (he.same g hg).symm ▸ he.nb g hg f, ?_⟩
    rcases List.mem_cons.1 hg with rfl | hg
    · exact fun b => b.elim0
    · obtain rfl := List.mem_singleton.1 hg
      intro b
      show (triSide _).Primitive triKind
      constructor
      · intro i α h; fin_cases i <;> simp [triKind] at h; rfl
      · intro i α h
        obtain rfl : α = 0 := Subsingleton.elim _ _
        fin_cases i <;> simp [triKind, triSide, triSlip] at h ⊢
  · intro g hg
    rcases List.mem_cons.1 hg with rfl | hg
    · exact fun f => lateral2_linear
    · obtain rfl := List.mem_singleton.1 hg
      exact fun f => lateral2_linear

end Verif.Asm
