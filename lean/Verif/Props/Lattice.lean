import Verif.Props.Naming
import Verif.Props.Plane

/-!
# Symmetry of the crystal lattice (C107)

The orientation of a cubic crystal is determined up to rotations of the lattice.  Turning a grain by a
rotation of its lattice which maps its slip systems to each other does not change the problem: slips
of the grain are listed in another order and with other signs.
-/

namespace Verif.Asm
open Matrix Finset Verif.Cry Verif.Hist Verif.Micro Verif.Lin Verif.Itf

variable {d e n N m : ℕ}

/-! ## Specification -/

/-- `Q` maps the edges of the unit cube of the lattice to each other. -/
def SpecCube (Q : Mat d) : Prop :=
  ∃ (σ : Equiv.Perm (Fin d)) (s : Fin d → Bool), ∀ i j, Q i j = if i = σ j then orient (s j) else 0

/-- What becomes of the slips of a polycrystal of `m` grains: in grain `c` the system listed as number
`b` is what was number `order c b`, with direction and normal reversed or not. The degrees of freedom
of the slips are interchanged accordingly. -/
structure Turning (m n N : ℕ) where
  order : Fin m → Equiv.Perm (Fin n)
  direction : Fin m → Fin n → Bool
  normal : Fin m → Fin n → Bool
  /-- the local degree of freedom `i` of a cell of grain `c` has what `inCell c i` had before -/
  inCell : Fin m → Equiv.Perm (Fin N)
  /-- the global degree of freedom `inMesh g` has what `g` had before -/
  inMesh : Equiv.Perm ℕ

/-- One grain's part. -/
def Turning.at (w : Turning m n N) (c : Fin m) : Naming n N :=
  ⟨w.order c, w.direction c, w.normal c, w.inCell c, w.inMesh⟩

/-- `Q c` is a symmetry of the lattice and of the slip systems, for every grain. -/
structure SpecSymmetry (w : Turning m n N) (ref : Fin n → System d) (Q : Fin m → Mat d) : Prop where
  cube : ∀ c, SpecCube (Q c)
  direction : ∀ c b, Q c *ᵥ (ref b).direction =
    orient (w.direction c (w.order c b)) • (ref (w.order c b)).direction
  normal : ∀ c b, Q c *ᵥ (ref b).normal =
    orient (w.normal c (w.order c b)) • (ref (w.order c b)).normal
  third : ∀ c b, Q c *ᵥ (ref b).third =
    (orient (w.direction c (w.order c b)) * orient (w.normal c (w.order c b))) •
      (ref (w.order c b)).third

/-- A cell of a polycrystal: its grain and the grains at the other side of its boundary faces. -/
structure Placed (m d e n N : ℕ) where
  crystal : Fin m
  run : RunGrain d e n N
  beyond : Fin run.F → Fin m

/-- The cell when the grains have the orientations `rot` and `ref` are the slip systems of the
unrotated crystal: stiffness and slip systems are rotated
(`source/crystal_data.cc:419-456`, `source/constitutive_laws.cc:190-207`). -/
noncomputable def Placed.oriented (ref : Fin n → System d) (rot : Fin m → Mat d)
    (p : Placed m d e n N) : RunGrain d e n N :=
  ⟨⟨⟨{ p.run.run.cell.prm with
        rot := rot p.crystal, sys := fun a => rotateSystem (rot p.crystal) (ref a) },
      p.run.run.cell.kind, p.run.run.cell.dofs, p.run.run.cell.Q, p.run.run.cell.pts⟩,
      p.run.run.supply⟩, p.run.F,
    fun f => { p.run.views f with
      own := fun a => rotateSystem (rot p.crystal) (ref a)
      other := fun a => rotateSystem (rot (p.beyond f)) (ref a) }, p.run.B, p.run.loads⟩

/-- The state after turning; `label g` says to which slip system of which grain the degree of freedom
`g` belongs, `none`: displacement. -/
noncomputable def Turning.factor (w : Turning m n N) : Option (Fin m × Fin n) → ℝ
  | none => 1
  | some x => (w.at x.1).sign x.2

/-- The state after turning. -/
noncomputable def Turning.state (w : Turning m n N) (label : ℕ → Option (Fin m × Fin n))
    (u : ℕ → ℝ) : ℕ → ℝ :=
  fun g => w.factor (label (w.inMesh.symm g)) * u (w.inMesh.symm g)

/-- The constraints between the degrees of freedom after turning. -/
noncomputable def Turning.constraints (w : Turning m n N) (label : ℕ → Option (Fin m × Fin n))
    (K : Sol.Constraints ℕ) : Sol.Constraints ℕ := fun g =>
  (K (w.inMesh.symm g)).map fun l =>
    ⟨l.entries.map fun x => (w.inMesh x.1, x.2), w.factor (label (w.inMesh.symm g)) * l.inhom⟩

/-- All slips are discretised in the same way: interchanging two slips of a cell interchanges
degrees of freedom with the same shape functions. -/
structure SpecSameElement (w : Naming n N) (kind : Kind n N) (dofs : Fin N → ℕ) : Prop where
  kind : ∀ i, kind (w.inCell i) = (kind i).map w.order
  dofs : ∀ i, w.inMesh (dofs (w.inCell i)) = dofs i

/-- The same for the shape functions of a cell. -/
structure SpecSameShape (w : Naming n N) (s : Shape d n N) : Prop where
  disp : ∀ i, s.disp (w.inCell i) = s.disp i
  symGrad : ∀ i, s.symGrad (w.inCell i) = s.symGrad i
  phi : ∀ b i, s.phi (w.order b) (w.inCell i) = s.phi b i
  grad : ∀ b i, s.grad (w.order b) (w.inCell i) = s.grad b i

/-- The same on a face. -/
structure SpecSameSide (w : Naming n N) (s : Side d n N) : Prop where
  disp : ∀ i, s.disp (w.inCell i) = s.disp i
  phi : ∀ b i, s.phi (w.order b) (w.inCell i) = s.phi b i

/-- A cell of a mesh: every slip of every grain has the same element, the degrees of freedom are what
`label` says, deal.II's guarantees for shape functions, and initially all slip resistances of a
quadrature point are equal. -/
structure SpecPlaced (w : Turning m n N) (label : ℕ → Option (Fin m × Fin n))
    (p : Placed m d e n N) : Prop where
  element : SpecSameElement (w.at p.crystal) p.run.run.cell.kind p.run.run.cell.dofs
  neighbour : ∀ f, SpecSameElement (w.at (p.beyond f)) p.run.run.cell.kind (p.run.views f).nbDofs
  shape : ∀ q, SpecSameShape (w.at p.crystal) (p.run.run.cell.pts q).shape
  cur : ∀ f, SpecSameSide (w.at p.crystal) (p.run.views f).cur
  nb : ∀ f, SpecSameSide (w.at (p.beyond f)) (p.run.views f).nb
  load : ∀ k b, SpecSameSide (w.at p.crystal) (p.run.loads k b).side
  own : ∀ i, label (p.run.run.cell.dofs i) = (p.run.run.cell.kind i).map fun a => (p.crystal, a)
  other : ∀ f i, label ((p.run.views f).nbDofs i) =
    (p.run.run.cell.kind i).map fun a => (p.beyond f, a)
  ptsPrim : ∀ q, (p.run.run.cell.pts q).shape.Primitive p.run.run.cell.kind
  curPrim : ∀ f, (p.run.views f).cur.Primitive p.run.run.cell.kind
  nbPrim : ∀ f, (p.run.views f).nb.Primitive p.run.run.cell.kind
  loadPrim : ∀ k b, (p.run.loads k b).side.Primitive p.run.run.cell.kind
  lat : ∀ f, LateralLinear (p.run.views f).prm.lat
  fresh : ∀ q a b, (p.run.run.cell.pts q).hist.res a = (p.run.run.cell.pts q).hist.res b ∧
    (p.run.run.cell.pts q).hist.tmp a = (p.run.run.cell.pts q).hist.tmp b

/-! ## Stiffness -/

theorem specCubic_perm (p : Elastic) (σ : Equiv.Perm (Fin d)) (i j k l : Fin d) :
    SpecCubic p (σ i) (σ j) (σ k) (σ l) = SpecCubic p i j k l := by
  unfold SpecCubic
  simp only [EmbeddingLike.apply_eq_iff_eq]

/-- Signs occur in pairs. -/
theorem specCubic_signs (p : Elastic) (s : Fin d → Bool) (i j k l : Fin d) :
    orient (s i) * orient (s j) * orient (s k) * orient (s l) * SpecCubic p i j k l =
      SpecCubic p i j k l := by
  have h := fun i => orient_sq (s i)
  unfold SpecCubic
  split_ifs with h1 h2 h3
  · obtain ⟨rfl, rfl, rfl⟩ := h1
    linear_combination (p.c1111 / p.char) * (orient (s i) * orient (s i) + 1) * h i
  · obtain ⟨rfl, rfl⟩ := h2
    linear_combination (p.c1122 / p.char) * (orient (s k) * orient (s k) * h i + h k)
  · rcases h3 with ⟨rfl, rfl⟩ | ⟨rfl, rfl⟩
    · linear_combination (p.c1212 / p.char) * (orient (s j) * orient (s j) * h i + h j)
    · linear_combination (p.c1212 / p.char) * (orient (s j) * orient (s j) * h i + h j)
  · rw [mul_zero]

theorem mul_cube (r : Mat d) {Q : Mat d} {σ : Equiv.Perm (Fin d)} {s : Fin d → Bool}
    (h : ∀ i j, Q i j = if i = σ j then orient (s j) else 0) (i o : Fin d) :
    (r * Q) i o = r i (σ o) * orient (s o) := by
  rw [Matrix.mul_apply, sum_eq_single (σ o)]
  · rw [h, if_pos rfl]
  · intro b _ hb
    rw [h, if_neg hb, mul_zero]
  · intro h; exact absurd (mem_univ _) h

/-- C107, stiffness: turning a crystal by a symmetry of its lattice does not change its stiffness. -/
theorem C107_stiffness (p : Elastic) (r Q : Mat d) (hQ : SpecCube Q) :
    rotatedStiffness (r * Q) (p.reference d) = rotatedStiffness r (p.reference d) := by
  obtain ⟨σ, s, h⟩ := hQ
  funext x
  unfold rotatedStiffness
  simp only [reference_eq, mul_cube r h]
  rw [← Equiv.sum_comp σ fun o => ∑ q, ∑ k, ∑ t,
    r x.1.1 o * r x.1.2 q * r x.2.1 k * r x.2.2 t * SpecCubic p o q k t]
  refine sum_congr rfl fun o _ => ?_
  rw [← Equiv.sum_comp σ fun q => ∑ k, ∑ t,
    r x.1.1 (σ o) * r x.1.2 q * r x.2.1 k * r x.2.2 t * SpecCubic p (σ o) q k t]
  refine sum_congr rfl fun q _ => ?_
  rw [← Equiv.sum_comp σ fun k => ∑ t,
    r x.1.1 (σ o) * r x.1.2 (σ q) * r x.2.1 k * r x.2.2 t * SpecCubic p (σ o) (σ q) k t]
  refine sum_congr rfl fun k _ => ?_
  rw [← Equiv.sum_comp σ fun t =>
    r x.1.1 (σ o) * r x.1.2 (σ q) * r x.2.1 (σ k) * r x.2.2 t * SpecCubic p (σ o) (σ q) (σ k) t]
  refine sum_congr rfl fun t _ => ?_
  rw [specCubic_perm]
  linear_combination (r x.1.1 (σ o) * r x.1.2 (σ q) * r x.2.1 (σ k) * r x.2.2 (σ t)) *
    specCubic_signs p s o q k t

/-! ## Two grains at a face -/

theorem modulus_two (w v : Naming n N) {lat : Vec d → Vec d → Fin e → ℝ} (hl : LateralLinear lat)
    (s t : Fin n → System d) (x : Vec d) (a b : Fin n) :
    Itf.modulus lat (w.systems s a) (v.systems t b) x =
      w.sign (w.order a) * v.sign (v.order b) * Itf.modulus lat (s (w.order a)) (t (v.order b)) x := by
  unfold Itf.modulus
  simp only [Naming.systems]
  rw [hl, hl, dot_orient, dot_orient]
  unfold Naming.sign
  ring

theorem microtraction_two (w v : Naming n N) {lat : Vec d → Vec d → Fin e → ℝ}
    (hl : LateralLinear lat) (p : MicroPrm) (s t : Fin n → System d) (x : Vec d) (γ γn : Fin n → ℝ)
    (a : Fin n) : Itf.microtraction p lat (w.systems s) (v.systems t) x (w.slips γ) (v.slips γn) a =
      w.sign (w.order a) * Itf.microtraction p lat s t x γ γn (w.order a) := by
  unfold Itf.microtraction intra inter
  rw [← mul_assoc]
  simp only [sum_sub_distrib]
  have e1 : ∑ β, Itf.modulus lat (w.systems s a) (w.systems s β) x * w.slips γ β =
      w.sign (w.order a) * ∑ β, Itf.modulus lat (s (w.order a)) (s β) x * γ β := by
    rw [mul_sum, ← Equiv.sum_comp w.order fun β => w.sign (w.order a) *
      (Itf.modulus lat (s (w.order a)) (s β) x * γ β)]
    refine sum_congr rfl fun β _ => ?_
    rw [modulus_two w w hl]
    unfold Naming.slips
    linear_combination (w.sign (w.order a) * (Itf.modulus lat (s (w.order a)) (s (w.order β)) x *
      γ (w.order β))) * w.sign_sq (w.order β)
  have e2 : ∑ β, Itf.modulus lat (w.systems s a) (v.systems t β) x * v.slips γn β =
      w.sign (w.order a) * ∑ β, Itf.modulus lat (s (w.order a)) (t β) x * γn β := by
    rw [mul_sum, ← Equiv.sum_comp v.order fun β => w.sign (w.order a) *
      (Itf.modulus lat (s (w.order a)) (t β) x * γn β)]
    refine sum_congr rfl fun β _ => ?_
    rw [modulus_two w v hl]
    unfold Naming.slips
    linear_combination (w.sign (w.order a) * (Itf.modulus lat (s (w.order a)) (t (v.order β)) x *
      γn (v.order β))) * v.sign_sq (v.order β)
  rw [e1, e2]
  ring

theorem faceTerm_two (w v : Naming n N) (p : FacePrm d e) (hl : LateralLinear p.lat) (k : Kind n N)
    (cc cn : Crystal d n) (nrm : Vec d) (jxw : ℝ) (h : Iface) {cur nb : Side d n N}
    (hc : cur.Primitive k) (hn : nb.Primitive k) (u un : Fin N → ℝ) (i : Fin N) :
    p.rhsTerm (w.kind k) (w.systems cc) (v.systems cn) nrm jxw h (w.side cur) (v.side nb)
      (w.coeff k u) (v.coeff k un) i =
    (p.rhsTerm k cc cn nrm jxw h cur nb u un (w.inCell i)).map (w.factor (k (w.inCell i)) * ·) := by
  have ho : Asm.opening (w.side cur) (v.side nb) (w.coeff k u) (v.coeff k un) =
      Asm.opening cur nb u un := by
    unfold Asm.opening
    rw [w.side_displacement hc, v.side_displacement hn]
  unfold FacePrm.rhsTerm
  rcases hk : k (w.inCell i) with _ | a
  · have hk' : w.kind k i = none := by simp [Naming.kind, hk]
    simp only [hk', ho, Naming.factor, one_mul]
    split_ifs
    · rw [Option.map_map]
      rfl
    · simp
  · obtain ⟨b, rfl⟩ : ∃ b, a = w.order b := ⟨w.order.symm a, by simp⟩
    have hk' : w.kind k i = some b := by simp [Naming.kind, hk]
    simp only [hk', Naming.factor]
    split_ifs
    · rw [w.side_slip hc, v.side_slip hn, microtraction_two w v hl, Option.map_some]
      simp only [Naming.side]
      congr 1
      ring
    · simp

/-! ## A cell -/

theorem SpecSameElement.kind_eq {w : Naming n N} {k : Kind n N} {dofs : Fin N → ℕ}
    (h : SpecSameElement w k dofs) : w.kind k = k := by
  funext i
  unfold Naming.kind
  rw [h.kind, Option.map_map]
  simp

theorem SpecSameShape.eq {w : Naming n N} {s : Shape d n N} (h : SpecSameShape w s) :
    w.shape s = s := by
  unfold Naming.shape
  have e1 : s.disp ∘ w.inCell = s.disp := funext h.disp
  have e2 : s.symGrad ∘ w.inCell = s.symGrad := funext h.symGrad
  have e3 : (fun b i => s.phi (w.order b) (w.inCell i)) = s.phi := funext fun b => funext (h.phi b)
  have e4 : (fun b i => s.grad (w.order b) (w.inCell i)) = s.grad := funext fun b => funext (h.grad b)
  rw [e1, e2, e3, e4]

theorem SpecSameSide.eq {w : Naming n N} {s : Side d n N} (h : SpecSameSide w s) :
    w.side s = s := by
  unfold Naming.side
  have e1 : s.disp ∘ w.inCell = s.disp := funext h.disp
  have e3 : (fun b i => s.phi (w.order b) (w.inCell i)) = s.phi := funext fun b => funext (h.phi b)
  rw [e1, e3]

theorem Turning.factor_at (w : Turning m n N) (c : Fin m) (k : Option (Fin n)) :
    w.factor (k.map fun a => (c, a)) = (w.at c).factor k := by
  cases k <;> rfl

/-- Coefficients of a cell after turning. -/
theorem Turning.state_cell (w : Turning m n N) {label : ℕ → Option (Fin m × Fin n)} {c : Fin m}
    {k : Kind n N} {dofs : Fin N → ℕ} (hk : SpecSameElement (w.at c) k dofs)
    (h : ∀ i, label (dofs i) = (k i).map fun a => (c, a)) (u : ℕ → ℝ) :
    w.state label u ∘ dofs = (w.at c).coeff k (u ∘ dofs) := by
  funext i
  have := hk.dofs i
  simp only [Function.comp_apply, Turning.state, Naming.coeff]
  have e1 : w.inMesh.symm (dofs i) = dofs ((w.at c).inCell i) := by
    rw [Equiv.symm_apply_eq]; exact this.symm
  rw [e1, h, w.factor_at]

/-- The slip systems after turning. -/
theorem SpecSymmetry.systems {w : Turning m n N} {ref : Fin n → System d} {Q : Fin m → Mat d}
    (h : SpecSymmetry w ref Q) (rot : Mat d) (c : Fin m) :
    (fun a => rotateSystem (rot * Q c) (ref a)) =
      (w.at c).systems fun a => rotateSystem rot (ref a) := by
  funext b
  have e1 := congrArg (rot *ᵥ ·) (h.direction c b)
  have e2 := congrArg (rot *ᵥ ·) (h.normal c b)
  have e3 := congrArg (rot *ᵥ ·) (h.third c b)
  simp only [Matrix.mulVec_mulVec, Matrix.mulVec_smul] at e1 e2 e3
  unfold rotateSystem Naming.systems Naming.sign
  simp only [e1, e2, e3, Turning.at]

theorem stress_cube (p : Elastic) (r : Mat d) {Q : Mat d} (hQ : SpecCube Q) (ε : Mat d) :
    p.stress (r * Q) ε = p.stress r ε := by
  unfold Elastic.stress
  rw [C107_stiffness p r Q hQ]

/-- The residual of a cell depends on its orientation through stiffness and slip systems. -/
theorem rhs_rot {Q : ℕ} (c : CellPrm d n) (r : Mat d) (h : ∀ ε, c.elastic.stress r ε = c.elastic.stress c.rot ε)
    (k : Kind n N) (pts : Fin Q → Point d n N) (u : Fin N → ℝ) (i : Fin N) :
    ({ c with rot := r } : CellPrm d n).rhs k pts u i = c.rhs k pts u i := by
  have e : ∀ s : Shape d n N, ({ c with rot := r } : CellPrm d n).stressAt s u = c.stressAt s u := by
    intro s
    unfold CellPrm.stressAt
    exact h _
  unfold CellPrm.rhs
  refine congrArg sumOpt (funext fun q => ?_)
  unfold CellPrm.rhsTerm
  simp only [e]

theorem slip_turned {w : Turning m n N} {label : ℕ → Option (Fin m × Fin n)}
    {p : Placed m d e n N} (h : SpecPlaced w label p) (q : Fin p.run.run.cell.Q) (u : ℕ → ℝ) :
    (p.run.run.cell.pts q).shape.slip (w.state label u ∘ p.run.run.cell.dofs) =
      (w.at p.crystal).slips ((p.run.run.cell.pts q).shape.slip (u ∘ p.run.run.cell.dofs)) := by
  rw [w.state_cell h.element h.own, ← (w.at p.crystal).slip_coeff (h.ptsPrim q), (h.shape q).eq]

theorem hist_turned {w : Turning m n N} {label : ℕ → Option (Fin m × Fin n)}
    {p : Placed m d e n N} (h : SpecPlaced w label p) (ref : Fin n → System d)
    (rot rot' : Fin m → Mat d) (u : ℕ → ℕ → ℝ) (q : Fin p.run.run.cell.Q) (k : ℕ) :
    (p.oriented ref rot').run.histAt (fun k => w.state label (u k)) q k =
      (w.at p.crystal).hist ((p.oriented ref rot).run.histAt u q k) := by
  induction k with
  | zero =>
    simp only [RunCell.histAt]
    show (p.run.run.cell.pts q).hist = (w.at p.crystal).hist (p.run.run.cell.pts q).hist
    unfold Naming.hist
    have e1 : (p.run.run.cell.pts q).hist.res ∘ (w.at p.crystal).order =
        (p.run.run.cell.pts q).hist.res := funext fun b => (h.fresh q _ _).1
    have e2 : (p.run.run.cell.pts q).hist.tmp ∘ (w.at p.crystal).order =
        (p.run.run.cell.pts q).hist.tmp := funext fun b => (h.fresh q _ _).2
    rw [e1, e2]
  | succ k ih =>
    simp only [RunCell.histAt]
    rw [ih]
    have e : ∀ k, ((p.oriented ref rot').run.cell.pts q).shape.slip
        (w.state label (u k) ∘ (p.oriented ref rot').run.cell.dofs) =
        (w.at p.crystal).slips (((p.oriented ref rot).run.cell.pts q).shape.slip
          (u k ∘ (p.oriented ref rot).run.cell.dofs)) := fun k => slip_turned h q (u k)
    rw [e, e, (w.at p.crystal).update]
    rfl

theorem bind_scaled (a b : Option ℝ) (s t : ℝ) :
    ((a.map (t * ·)).bind fun x => (b.map (t * ·)).map fun y => x + y + t * s) =
      (a.bind fun x => b.map fun y => x + y + s).map (t * ·) := by
  rcases a with _ | x
  · rfl
  · rcases b with _ | y
    · rfl
    · simp only [Option.map_some, Option.bind_some]
      congr 1
      ring

/-- The residual of a cell after turning. -/
theorem localRhs_turned {w : Turning m n N} {label : ℕ → Option (Fin m × Fin n)}
    {ref : Fin n → System d} {Q : Fin m → Mat d} (hs : SpecSymmetry w ref Q)
    {p : Placed m d e n N} (h : SpecPlaced w label p) (rot : Fin m → Mat d) (dt : ℕ → ℝ)
    (u : ℕ → ℕ → ℝ) (U : ℕ → ℝ) (k : ℕ) (g g' : GrainCell d e n N)
    (hg : g = (p.oriented ref rot).at dt u k)
    (hg' : g' = (p.oriented ref fun c => rot c * Q c).at dt (fun k => w.state label (u k)) k)
    (i : Fin N) :
    Asm.localRhs g'.cell.prm g'.cell.kind g'.cell.pts g'.cell.dofs g'.views g'.loads
      (w.state label U) i =
    (Asm.localRhs g.cell.prm g.cell.kind g.cell.pts g.cell.dofs g.views g.loads U
      (w.inCell p.crystal i)).map
      ((w.at p.crystal).factor (p.run.run.cell.kind (w.inCell p.crystal i)) * ·) := by
  subst hg; subst hg'
  set v := w.at p.crystal with hv
  let c : CellPrm d n := ((p.oriented ref rot).at dt u k).cell.prm
  let pts : Fin p.run.run.cell.Q → Point d n N := ((p.oriented ref rot).at dt u k).cell.pts
  have hpts : ((p.oriented ref fun c => rot c * Q c).at dt (fun k => w.state label (u k)) k).cell.pts =
      fun q => v.point (pts q) := by
    funext q
    show Point.mk _ _ _ _ = Point.mk _ _ _ _
    congr 1
    · exact ((h.shape q).eq).symm
    · exact hist_turned h ref rot _ u q k
    · exact slip_turned h q (u k)
  have hprm : ((p.oriented ref fun c => rot c * Q c).at dt
      (fun k => w.state label (u k)) k).cell.prm =
      { v.prm c with rot := rot p.crystal * Q p.crystal } := by
    show CellPrm.mk _ _ _ _ _ _ _ _ _ _ = CellPrm.mk _ _ _ _ _ _ _ _ _ _
    congr 1
    exact hs.systems (rot p.crystal) p.crystal
  have hprim : ∀ q, (pts q).shape.Primitive p.run.run.cell.kind := h.ptsPrim
  have h1 : ((p.oriented ref fun c => rot c * Q c).at dt
        (fun k => w.state label (u k)) k).cell.prm.rhs p.run.run.cell.kind
      ((p.oriented ref fun c => rot c * Q c).at dt (fun k => w.state label (u k)) k).cell.pts
      (w.state label U ∘ p.run.run.cell.dofs) i =
      (c.rhs p.run.run.cell.kind pts (U ∘ p.run.run.cell.dofs) (v.inCell i)).map
        (v.factor (p.run.run.cell.kind (v.inCell i)) * ·) := by
    rw [hpts, hprm]
    refine (rhs_rot (v.prm c) _ (fun ε => stress_cube _ _ (hs.cube _) ε) _ _ _ i).trans ?_
    rw [w.state_cell h.element h.own, ← (C100_cell v c p.run.run.cell.kind pts hprim _).1 i,
      h.element.kind_eq, hv]
    rfl
  have h2 : ∀ f : Fin p.run.F,
      (p.run.views f).prm.rhsTerm p.run.run.cell.kind
        (fun a => rotateSystem (rot p.crystal * Q p.crystal) (ref a))
        (fun a => rotateSystem (rot (p.beyond f) * Q (p.beyond f)) (ref a)) (p.run.views f).nrm
        (p.run.views f).jxw (p.run.views f).hist (p.run.views f).cur (p.run.views f).nb
        (w.state label U ∘ p.run.run.cell.dofs) (w.state label U ∘ (p.run.views f).nbDofs) i =
      ((p.run.views f).prm.rhsTerm p.run.run.cell.kind
        (fun a => rotateSystem (rot p.crystal) (ref a))
        (fun a => rotateSystem (rot (p.beyond f)) (ref a)) (p.run.views f).nrm
        (p.run.views f).jxw (p.run.views f).hist (p.run.views f).cur (p.run.views f).nb
        (U ∘ p.run.run.cell.dofs) (U ∘ (p.run.views f).nbDofs) (v.inCell i)).map
        (v.factor (p.run.run.cell.kind (v.inCell i)) * ·) := by
    intro f
    rw [hs.systems, hs.systems, w.state_cell h.element h.own,
      w.state_cell (h.neighbour f) (h.other f)]
    have := faceTerm_two v (w.at (p.beyond f)) (p.run.views f).prm (h.lat f) p.run.run.cell.kind
      (fun a => rotateSystem (rot p.crystal) (ref a))
      (fun a => rotateSystem (rot (p.beyond f)) (ref a)) (p.run.views f).nrm
      (p.run.views f).jxw (p.run.views f).hist (h.curPrim f) (h.nbPrim f)
      (U ∘ p.run.run.cell.dofs) (U ∘ (p.run.views f).nbDofs) i
    rw [h.element.kind_eq, (h.cur f).eq, (h.nb f).eq] at this
    exact this
  have h3 : ∑ b, neumannTerm (p.run.loads k b).side (p.run.loads k b).value (p.run.loads k b).jxw i =
      v.factor (p.run.run.cell.kind (v.inCell i)) * ∑ b, neumannTerm (p.run.loads k b).side
        (p.run.loads k b).value (p.run.loads k b).jxw (v.inCell i) := by
    rw [mul_sum]
    refine sum_congr rfl fun b _ => ?_
    have := v.neumann (h.loadPrim k b) (p.run.loads k b).value (p.run.loads k b).jxw i
    rwa [(h.load k b).eq] at this
  have h2' := Prm.sumOpt_map (v.factor (p.run.run.cell.kind (v.inCell i))) _ _ h2
  have key := bind_scaled (c.rhs p.run.run.cell.kind pts (U ∘ p.run.run.cell.dofs) (v.inCell i))
    (sumOpt fun f => (p.run.views f).prm.rhsTerm p.run.run.cell.kind
        (fun a => rotateSystem (rot p.crystal) (ref a))
        (fun a => rotateSystem (rot (p.beyond f)) (ref a)) (p.run.views f).nrm
        (p.run.views f).jxw (p.run.views f).hist (p.run.views f).cur (p.run.views f).nb
        (U ∘ p.run.run.cell.dofs) (U ∘ (p.run.views f).nbDofs) (v.inCell i))
    (∑ b, neumannTerm (p.run.loads k b).side
        (p.run.loads k b).value (p.run.loads k b).jxw (v.inCell i))
    (v.factor (p.run.run.cell.kind (v.inCell i)))
  rw [← h1, ← h2', ← h3] at key
  exact key

/-! ## The whole polycrystal -/

theorem Turning.factor_sq (w : Turning m n N) (k : Option (Fin m × Fin n)) :
    w.factor k * w.factor k = 1 := by
  cases k with
  | none => simp [Turning.factor]
  | some a => exact (w.at a.1).sign_sq a.2

theorem Turning.factor_ne (w : Turning m n N) (k : Option (Fin m × Fin n)) : w.factor k ≠ 0 := by
  intro h
  have := w.factor_sq k
  rw [h] at this
  simp at this

/-- Constraints act per component and grain. -/
def SpecPerGrain (label : ℕ → Option (Fin m × Fin n)) (K : Sol.Constraints ℕ) : Prop :=
  ∀ g l, K g = some l → ∀ x ∈ l.entries, label x.1 = label g

theorem weight_turned (w : Turning m n N) (label : ℕ → Option (Fin m × Fin n))
    (K : Sol.Constraints ℕ) (g r : ℕ) :
    weight (w.constraints label K) (w.inMesh g) (w.inMesh r) = weight K g r := by
  unfold weight Turning.constraints
  rw [Equiv.symm_apply_apply]
  rcases K g with _ | l
  · simp
  · simp only [Option.map_some, List.map_map]
    congr 1
    refine List.map_congr_left fun x _ => ?_
    simp

theorem weight_grain {label : ℕ → Option (Fin m × Fin n)} {K : Sol.Constraints ℕ}
    (hK : SpecPerGrain label K) (w : Turning m n N) (g r : ℕ) :
    w.factor (label g) * weight K g r = w.factor (label r) * weight K g r := by
  by_cases h : label g = label r
  · rw [h]
  · have : weight K g r = 0 := by
      unfold weight
      rcases hg : K g with _ | l
      · simp only
        rw [if_neg]
        rintro rfl; exact h rfl
      · simp only
        refine List.sum_eq_zero fun y hy => ?_
        obtain ⟨x, hx, rfl⟩ := List.mem_map.1 hy
        rw [if_neg]
        rintro rfl
        exact h (hK g l hg x hx).symm
    rw [this, mul_zero, mul_zero]

theorem satisfies_turned (w : Turning m n N) (label : ℕ → Option (Fin m × Fin n))
    (K : Sol.Constraints ℕ) (hK : SpecPerGrain label K) (u : ℕ → ℝ) :
    Sol.Satisfies (w.constraints label K) (w.state label u) ↔ Sol.Satisfies K u := by
  have eval : ∀ g l, K g = some l → (List.map ((fun x : ℕ × ℝ => x.2 *
      (w.factor (label (w.inMesh.symm x.1)) * u (w.inMesh.symm x.1))) ∘
        fun x : ℕ × ℝ => (w.inMesh x.1, x.2)) l.entries).sum =
      w.factor (label g) * (l.entries.map fun x => x.2 * u x.1).sum := by
    intro g l hg
    rw [← List.sum_map_mul_left]
    congr 1
    refine List.map_congr_left fun x hx => ?_
    simp only [Function.comp_apply, Equiv.symm_apply_apply]
    rw [hK g l hg x hx]; ring
  constructor
  · intro h g l hg
    have hg' : w.constraints label K (w.inMesh g) =
        some ⟨l.entries.map fun x => (w.inMesh x.1, x.2), w.factor (label g) * l.inhom⟩ := by
      simp [Turning.constraints, hg]
    have h := h _ _ hg'
    simp only [Turning.state, Sol.Line.eval, Equiv.symm_apply_apply, List.map_map] at h
    rw [eval g l hg, ← mul_add] at h
    exact mul_left_cancel₀ (w.factor_ne _) h
  · intro h g l hg
    obtain ⟨g, rfl⟩ : ∃ t, g = w.inMesh t := ⟨w.inMesh.symm g, by simp⟩
    simp only [Turning.constraints, Equiv.symm_apply_apply] at hg
    obtain ⟨l, hl', rfl⟩ := Option.map_eq_some_iff.1 hg
    simp only [Turning.state, Sol.Line.eval, Equiv.symm_apply_apply, List.map_map]
    rw [eval g l hl', ← mul_add, h g l hl']
    rfl

/-- C107: let every grain of a polycrystal be turned by a symmetry of its lattice and slip systems.
Then a sequence of states solves all time steps of a run if and only if the same sequence, with slips of
the grains interchanged and reversed accordingly, solves all time steps of the run with the turned grains.
Displacements are the same. -/
theorem C107_run (w : Turning m n N) (ref : Fin n → System d) (Q : Fin m → Mat d)
    (hs : SpecSymmetry w ref Q) (rot : Fin m → Mat d) (label : ℕ → Option (Fin m × Fin n))
    (cells : List (Placed m d e n N)) (hp : ∀ p ∈ cells, SpecPlaced w label p)
    (K : ℕ → Sol.Constraints ℕ) (hK : ∀ k, SpecPerGrain label (K k))
    (M : ℕ) (hM : ∀ r, r < M ↔ w.inMesh r < M) (dt : ℕ → ℝ) (u : ℕ → ℕ → ℝ) (T : ℕ) :
    (∀ k < T, SpecGrainSolution (SpecGrains (cells.map (·.oriented ref fun c => rot c * Q c)) dt
          (fun k => w.state label (u k)) k) (w.constraints label (K k)) M
          (w.state label (u (k + 1))) ∧
        Sol.Satisfies (w.constraints label (K k)) (w.state label (u (k + 1)))) ↔
    ∀ k < T, SpecGrainSolution (SpecGrains (cells.map (·.oriented ref rot)) dt u k) (K k) M
        (u (k + 1)) ∧ Sol.Satisfies (K k) (u (k + 1)) := by
  refine forall_congr' fun k => imp_congr_right fun _ => and_congr ?_
    (satisfies_turned w label (K k) (hK k) _)
  rw [solution_canon, solution_canon]
  unfold SpecGrains
  have loc := fun p hpp => localRhs_turned hs (hp p hpp) rot dt u (u (k + 1)) k _ _ rfl rfl
  simp only [List.map_map, List.mem_map, forall_exists_index, and_imp, forall_apply_eq_imp_iff₂,
    Function.comp_apply]
  refine and_congr ⟨fun h p hpp i => ?_, fun h p hpp i => ?_⟩ ?_
  · have := h p hpp ((w.inCell p.crystal).symm i)
    rw [loc p hpp, Equiv.apply_symm_apply] at this
    intro h0
    rw [h0] at this
    exact this rfl
  · rw [loc p hpp]
    simpa using h p hpp (w.inCell p.crystal i)
  · have row : ∀ r, (cells.map fun p => ∑ i, weight (w.constraints label (K k))
          (p.run.run.cell.dofs i) (w.inMesh r) * (Asm.localRhs
            ((p.oriented ref fun c => rot c * Q c).at dt (fun k => w.state label (u k)) k).cell.prm
            ((p.oriented ref fun c => rot c * Q c).at dt (fun k => w.state label (u k)) k).cell.kind
            ((p.oriented ref fun c => rot c * Q c).at dt (fun k => w.state label (u k)) k).cell.pts
            ((p.oriented ref fun c => rot c * Q c).at dt (fun k => w.state label (u k)) k).cell.dofs
            ((p.oriented ref fun c => rot c * Q c).at dt (fun k => w.state label (u k)) k).views
            ((p.oriented ref fun c => rot c * Q c).at dt (fun k => w.state label (u k)) k).loads
            (w.state label (u (k + 1))) i).getD 0).sum =
        w.factor (label r) * (cells.map fun p => ∑ i, weight (K k) (p.run.run.cell.dofs i) r *
          (Asm.localRhs ((p.oriented ref rot).at dt u k).cell.prm
            ((p.oriented ref rot).at dt u k).cell.kind ((p.oriented ref rot).at dt u k).cell.pts
            ((p.oriented ref rot).at dt u k).cell.dofs ((p.oriented ref rot).at dt u k).views
            ((p.oriented ref rot).at dt u k).loads (u (k + 1)) i).getD 0).sum := by
      intro r
      rw [← List.sum_map_mul_left]
      congr 1
      refine List.map_congr_left fun p hpp => ?_
      rw [mul_sum, ← Equiv.sum_comp (w.inCell p.crystal) fun i => w.factor (label r) *
        (weight (K k) (p.run.run.cell.dofs i) r *
          (Asm.localRhs ((p.oriented ref rot).at dt u k).cell.prm
            ((p.oriented ref rot).at dt u k).cell.kind ((p.oriented ref rot).at dt u k).cell.pts
            ((p.oriented ref rot).at dt u k).cell.dofs ((p.oriented ref rot).at dt u k).views
            ((p.oriented ref rot).at dt u k).loads (u (k + 1)) i).getD 0)]
      refine sum_congr rfl fun i _ => ?_
      have hd : p.run.run.cell.dofs i = w.inMesh (p.run.run.cell.dofs (w.inCell p.crystal i)) :=
        ((hp p hpp).element.dofs i).symm
      have hw := weight_grain (hK k) w (p.run.run.cell.dofs (w.inCell p.crystal i)) r
      rw [loc p hpp, hd, weight_turned]
      rw [(hp p hpp).own, w.factor_at] at hw
      rcases Asm.localRhs ((p.oriented ref rot).at dt u k).cell.prm
            ((p.oriented ref rot).at dt u k).cell.kind ((p.oriented ref rot).at dt u k).cell.pts
            ((p.oriented ref rot).at dt u k).cell.dofs ((p.oriented ref rot).at dt u k).views
            ((p.oriented ref rot).at dt u k).loads (u (k + 1)) (w.inCell p.crystal i) with _ | x
      · simp
      · simp only [Option.map_some, Option.getD_some]
        linear_combination x * hw
    constructor
    · intro h r hr
      have := (row r).symm.trans (h _ ((hM r).1 hr))
      exact (mul_eq_zero.1 this).resolve_left (w.factor_ne _)
    · intro h r hr
      obtain ⟨r, rfl⟩ : ∃ t, r = w.inMesh t := ⟨w.inMesh.symm r, by simp⟩
      refine (row r).trans ?_
      exact mul_eq_zero_of_right _ (h r ((hM r).2 hr))

/-- C107, stress and strain: at every quadrature point of every grain strain, elastic strain and stress
are those of the run without turning. -/
theorem C107_stress (w : Turning m n N) (ref : Fin n → System d) (Q : Fin m → Mat d)
    (hs : SpecSymmetry w ref Q) (rot : Fin m → Mat d) (label : ℕ → Option (Fin m × Fin n))
    (p : Placed m d e n N) (hp : SpecPlaced w label p) (q : Fin p.run.run.cell.Q) (u : ℕ → ℝ) :
    let r := p.oriented ref rot
    let r' := p.oriented ref fun c => rot c * Q c
    (r'.run.cell.pts q).shape.strain (w.state label u ∘ r'.run.cell.dofs) =
      (r.run.cell.pts q).shape.strain (u ∘ r.run.cell.dofs) ∧
    r'.run.cell.prm.elasticStrainAt (r'.run.cell.pts q).shape (w.state label u ∘ r'.run.cell.dofs) =
      r.run.cell.prm.elasticStrainAt (r.run.cell.pts q).shape (u ∘ r.run.cell.dofs) ∧
    r'.run.cell.prm.stressAt (r'.run.cell.pts q).shape (w.state label u ∘ r'.run.cell.dofs) =
      r.run.cell.prm.stressAt (r.run.cell.pts q).shape (u ∘ r.run.cell.dofs) := by
  intro r r'
  have hst : (r'.run.cell.pts q).shape.strain (w.state label u ∘ r'.run.cell.dofs) =
      (r.run.cell.pts q).shape.strain (u ∘ r.run.cell.dofs) := by
    show (p.run.run.cell.pts q).shape.strain (w.state label u ∘ p.run.run.cell.dofs) =
      (p.run.run.cell.pts q).shape.strain (u ∘ p.run.run.cell.dofs)
    rw [w.state_cell hp.element hp.own]
    have := (w.at p.crystal).strain_coeff (hp.ptsPrim q) (u ∘ p.run.run.cell.dofs)
    rwa [(hp.shape q).eq] at this
  have hel : r'.run.cell.prm.elasticStrainAt (r'.run.cell.pts q).shape
        (w.state label u ∘ r'.run.cell.dofs) =
      r.run.cell.prm.elasticStrainAt (r.run.cell.pts q).shape (u ∘ r.run.cell.dofs) := by
    have h := (w.at p.crystal).elasticStrainAt r.run.cell.prm (hp.ptsPrim q)
      (u ∘ p.run.run.cell.dofs)
    rw [(hp.shape q).eq, ← w.state_cell hp.element hp.own] at h
    refine Eq.trans ?_ h
    have hsys : r'.run.cell.prm.sys = (w.at p.crystal).systems r.run.cell.prm.sys :=
      hs.systems (rot p.crystal) p.crystal
    unfold CellPrm.elasticStrainAt
    rw [hsys]
    rfl
  refine ⟨hst, hel, ?_⟩
  unfold CellPrm.stressAt
  rw [hel]
  exact stress_cube _ (rot p.crystal) (hs.cube p.crystal) _

/-! ## Angles -/

theorem cube_plane : SpecCube (rotation2 90) := by
  refine ⟨Equiv.swap 0 1, fun j => j == 1, ?_⟩
  have h : (90 : ℝ) * degToRad = Real.pi / 2 := by unfold degToRad; ring
  intro i j
  fin_cases i <;> fin_cases j <;> simp [rotation2, h, orient]

/-- C107, angles: in two dimensions, adding 90 degrees to the angle of a grain turns it by a symmetry
of the cubic lattice. -/
theorem C107_angle_plane (angle : ℝ) :
    rotation2 (angle + 90) = rotation2 angle * rotation2 90 ∧ SpecCube (rotation2 90) := by
  refine ⟨?_, cube_plane⟩
  have h : (90 : ℝ) * degToRad = Real.pi / 2 := by unfold degToRad; ring
  have h' : (angle + 90) * degToRad = angle * degToRad + Real.pi / 2 := by rw [add_mul, h]
  unfold rotation2
  ext i j
  fin_cases i <;> fin_cases j <;>
    simp [h, h', Real.cos_add_pi_div_two, Real.sin_add_pi_div_two, Matrix.mul_apply, Fin.sum_univ_two]

/-- C107, Euler angles: in three dimensions, adding 90 degrees to the third Euler angle of a grain
turns it by a symmetry of the cubic lattice. -/
theorem C107_angle_space (e : Vec 3) :
    rotation3 ![e 0, e 1, e 2 + 90] = rotation3 e * rotZ (Real.pi / 2) ∧
      SpecCube (rotZ (Real.pi / 2)) := by
  constructor
  · have h : (e 2 + 90) * degToRad = e 2 * degToRad + Real.pi / 2 := by unfold degToRad; ring
    have hz : rotZ (e 2 * degToRad + Real.pi / 2) = rotZ (e 2 * degToRad) * rotZ (Real.pi / 2) := by
      unfold rotZ
      ext i j
      fin_cases i <;> fin_cases j <;>
        simp [Real.cos_add_pi_div_two, Real.sin_add_pi_div_two, Matrix.mul_apply, Fin.sum_univ_three]
    unfold rotation3
    simp only [Matrix.cons_val_zero, Matrix.cons_val_one, Matrix.cons_val_two, Matrix.head_cons,
      Matrix.tail_cons, h, hz, Matrix.mul_assoc]
  · refine ⟨Equiv.swap 0 1, fun j => j == 1, fun i j => ?_⟩
    have h2 : Equiv.swap (0 : Fin 3) 1 2 = 2 := by decide
    fin_cases i <;> fin_cases j <;> simp [rotZ, orient, h2]

/-! ## The third vector -/

theorem cross_turn (Q : Mat 3) (hQ : Qᵀ * Q = 1) (hd : Q.det = 1) (a b : Vec 3) :
    cross (Q *ᵥ a) (Q *ᵥ b) = Q *ᵥ cross a b := by
  have hQ' : Q * Qᵀ = 1 := mul_eq_one_comm.1 hQ
  have key : Qᵀ *ᵥ cross (Q *ᵥ a) (Q *ᵥ b) = cross a b := by
    have : Qᵀ *ᵥ cross (Q *ᵥ a) (Q *ᵥ b) = Q.det • cross a b := by
      rw [Matrix.det_fin_three]
      funext i
      fin_cases i <;>
        simp [Matrix.mulVec, dotProduct, Fin.sum_univ_three, cross] <;> ring
    rw [this, hd, one_smul]
  rw [← key, Matrix.mulVec_mulVec, hQ', Matrix.one_mulVec]

theorem cross_smul (s t : ℝ) (a b : Vec 3) : cross (s • a) (t • b) = (s * t) • cross a b := by
  funext i
  fin_cases i <;> simp [cross] <;> ring

theorem norm2_scaled (s : ℝ) (hs : s * s = 1) (v : Vec d) : norm2 (s • v) = norm2 v := by
  unfold norm2
  rw [dot_orient, hs, one_mul]

/-- The third vector of a system which has been read is determined by the two others. -/
theorem third_eq {a b : Vec 3} {s : System 3} (h : readSystem3 a b = .ok s) :
    s.third = (norm2 (cross s.normal s.direction))⁻¹ • cross s.normal s.direction := by
  unfold readSystem3 Cry.normalize at h
  split_ifs at h
  simp only [Read.ok.injEq] at h
  rename_i h1 h2 h3 h4
  subst h
  simp only
  have e : cross (fun i => b i / norm2 b) (fun i => a i / norm2 a) =
      ((norm2 b)⁻¹ * (norm2 a)⁻¹) • cross b a := by
    rw [← cross_smul]
    congr 1 <;> funext i <;> simp only [Pi.smul_apply, smul_eq_mul] <;> ring
  rw [e]
  have hb : 0 < (norm2 b)⁻¹ * (norm2 a)⁻¹ := by
    have h5 : 0 < norm2 b := lt_of_le_of_ne (Real.sqrt_nonneg _) (Ne.symm h2)
    have h6 : 0 < norm2 a := lt_of_le_of_ne (Real.sqrt_nonneg _) (Ne.symm h3)
    positivity
  set t := (norm2 b)⁻¹ * (norm2 a)⁻¹ with ht
  have hn : norm2 (t • cross b a) = t * norm2 (cross b a) := by
    unfold norm2
    rw [dot_orient, Real.sqrt_mul (mul_self_nonneg t), Real.sqrt_mul_self hb.le]
  rw [hn]
  funext i
  simp only [Pi.smul_apply, smul_eq_mul]
  have := hb.ne'
  field_simp

theorem cube_orthogonal {Q : Mat d} (h : SpecCube Q) : Qᵀ * Q = 1 := by
  obtain ⟨σ, s, h⟩ := h
  ext i j
  rw [mul_cube _ h, Matrix.transpose_apply, h, Matrix.one_apply]
  by_cases hij : i = j
  · subst hij
    rw [if_pos rfl, if_pos rfl, orient_sq]
  · rw [if_neg hij, if_neg (by simpa using Ne.symm hij), zero_mul]

/-- C107, reading: for slip systems read in three dimensions, a rotation of the lattice which maps
directions and normals to each other maps the third vectors as `SpecSymmetry` asks for; in two dimensions
these are zero. -/
theorem C107_third (Q : Mat 3) (hQ : SpecCube Q) (hd : Q.det = 1) {a b a' b' : Vec 3}
    {x y : System 3} (hx : readSystem3 a b = .ok x) (hy : readSystem3 a' b' = .ok y)
    (s t : Bool) (h1 : Q *ᵥ x.direction = orient s • y.direction)
    (h2 : Q *ᵥ x.normal = orient t • y.normal) :
    Q *ᵥ x.third = (orient s * orient t) • y.third := by
  rw [third_eq hx, third_eq hy, Matrix.mulVec_smul, ← cross_turn Q (cube_orthogonal hQ) hd, h1, h2,
    cross_smul]
  have hn : norm2 (cross x.normal x.direction) = norm2 (cross y.normal y.direction) := by
    have e : norm2 (Q *ᵥ cross x.normal x.direction) = norm2 (cross x.normal x.direction) := by
      unfold norm2
      rw [Matrix.dotProduct_mulVec, Matrix.vecMul_mulVec, cube_orthogonal hQ, Matrix.vecMul_one]
    rw [← e, ← cross_turn Q (cube_orthogonal hQ) hd, h1, h2, cross_smul, norm2_scaled]
    rw [mul_mul_mul_comm, orient_sq, orient_sq, one_mul]
  rw [hn, smul_smul, smul_smul, mul_comm (orient t), mul_comm (orient s * orient t)]

/-! ## The slip systems of face-centred and body-centred cubic crystals -/

/-- Normals of the twelve octahedral slip systems: `{111}`. -/
def octahedral : Fin 12 → Fin 3 → ℤ :=
  ![![1, 1, 1], ![1, 1, 1], ![1, 1, 1], ![-1, 1, 1], ![-1, 1, 1], ![-1, 1, 1],
    ![1, -1, 1], ![1, -1, 1], ![1, -1, 1], ![1, 1, -1], ![1, 1, -1], ![1, 1, -1]]

/-- Directions of the twelve octahedral slip systems: `<110>`. -/
def faceDiagonal : Fin 12 → Fin 3 → ℤ :=
  ![![0, 1, -1], ![1, 0, -1], ![1, -1, 0], ![0, 1, -1], ![1, 0, 1], ![1, 1, 0],
    ![0, 1, 1], ![1, 0, -1], ![1, 1, 0], ![0, 1, 1], ![1, 0, 1], ![1, -1, 0]]

/-- `-1` for reversed, as an integer. -/
def isign (b : Bool) : ℤ := if b then -1 else 1

theorem octahedral_closed : ∀ (σ : Equiv.Perm (Fin 3)) (s : Fin 3 → Bool) (b : Fin 12),
    ∃ (b' : Fin 12) (t1 t2 : Bool),
      (∀ j, isign (s j) * faceDiagonal b j = isign t1 * faceDiagonal b' (σ j)) ∧
      ∀ j, isign (s j) * octahedral b j = isign t2 * octahedral b' (σ j) := by
  decide +kernel

theorem octahedral_distinct : ∀ (b b' : Fin 12) (t1 t2 : Bool),
    (∀ j, faceDiagonal b j = isign t1 * faceDiagonal b' j) →
    (∀ j, octahedral b j = isign t2 * octahedral b' j) → b = b' := by
  decide +kernel

/-- An integer vector as a vector. -/
def real (v : Fin 3 → ℤ) : Vec 3 := fun i => (v i : ℝ)

theorem orient_isign (t : Bool) : orient t = (isign t : ℝ) := by
  cases t <;> simp [orient, isign]

theorem cube_real {Q : Mat 3} {σ : Equiv.Perm (Fin 3)} {s : Fin 3 → Bool}
    (h : ∀ i j, Q i j = if i = σ j then orient (s j) else 0) {v v' : Fin 3 → ℤ} {t : Bool}
    (hv : ∀ j, isign (s j) * v j = isign t * v' (σ j)) : Q *ᵥ real v = orient t • real v' := by
  funext i
  obtain ⟨j, rfl⟩ : ∃ j, i = σ j := ⟨σ.symm i, by simp⟩
  rw [Matrix.mulVec, dotProduct, sum_eq_single j]
  · rw [h, if_pos rfl, orient_isign]
    simp only [real, Pi.smul_apply, smul_eq_mul, orient_isign]
    exact_mod_cast hv j
  · intro b _ hb
    rw [h, if_neg (by simpa using Ne.symm hb), zero_mul]
  · intro h; exact absurd (mem_univ _) h

theorem read_parts {a b : Vec 3} {s : System 3} (h : readSystem3 a b = .ok s) :
    s.direction = (norm2 a)⁻¹ • a ∧ s.normal = (norm2 b)⁻¹ • b := by
  unfold readSystem3 Cry.normalize at h
  split_ifs at h
  simp only [Read.ok.injEq] at h
  subst h
  constructor <;> funext i <;> simp only [Pi.smul_apply, smul_eq_mul] <;> ring

theorem norm2_cube {Q : Mat d} (hQ : SpecCube Q) (v : Vec d) : norm2 (Q *ᵥ v) = norm2 v := by
  unfold norm2
  rw [Matrix.dotProduct_mulVec, Matrix.vecMul_mulVec, cube_orthogonal hQ, Matrix.vecMul_one]

theorem normalized_turn {Q : Mat d} (hQ : SpecCube Q) {a a' : Vec d} {t : Bool}
    (h : Q *ᵥ a = orient t • a') : Q *ᵥ ((norm2 a)⁻¹ • a) = orient t • ((norm2 a')⁻¹ • a') := by
  have : norm2 a = norm2 a' := by rw [← norm2_cube hQ a, h, norm2_scaled _ (orient_sq t)]
  rw [Matrix.mulVec_smul, h, this, smul_comm]

/-- The octahedral systems of a face-centred crystal, or, with directions and normals exchanged, the
`{110}<111>` systems of a body-centred crystal, as listed in the input file. -/
def SpecCubicFile (ref : Fin 12 → System 3) : Prop :=
  (∀ b, readSystem3 (real (faceDiagonal b)) (real (octahedral b)) = .ok (ref b)) ∨
  ∀ b, readSystem3 (real (octahedral b)) (real (faceDiagonal b)) = .ok (ref b)

theorem octahedral_turn {Q : Mat 3} (hQ : SpecCube Q) : ∃ (o : Equiv.Perm (Fin 12))
    (t1 t2 : Fin 12 → Bool), ∀ b, Q *ᵥ real (faceDiagonal b) = orient (t1 (o b)) • real (faceDiagonal (o b)) ∧
      Q *ᵥ real (octahedral b) = orient (t2 (o b)) • real (octahedral (o b)) := by
  obtain ⟨σ, s, h⟩ := hQ
  choose o t1 t2 h1 h2 using octahedral_closed σ s
  have hi : Function.Injective o := by
    intro b b' hb
    have hs : ∀ t : Bool, isign t * isign t = 1 := by decide
    refine octahedral_distinct b b' (t1 b ^^ t1 b') (t2 b ^^ t2 b') (fun j => ?_) (fun j => ?_)
    · have hx : isign (t1 b ^^ t1 b') = isign (t1 b) * isign (t1 b') := by
        cases t1 b <;> cases t1 b' <;> rfl
      have e1 := h1 b j
      have e2 := h1 b' j
      rw [← hb] at e2
      rw [hx]
      linear_combination isign (s j) * e1 - isign (s j) * isign (t1 b) * isign (t1 b') * e2 -
        (faceDiagonal b j - isign (t1 b) * isign (t1 b') * faceDiagonal b' j) * hs (s j) -
        isign (s j) * isign (t1 b) * faceDiagonal (o b) (σ j) * hs (t1 b')
    · have hx : isign (t2 b ^^ t2 b') = isign (t2 b) * isign (t2 b') := by
        cases t2 b <;> cases t2 b' <;> rfl
      have e1 := h2 b j
      have e2 := h2 b' j
      rw [← hb] at e2
      rw [hx]
      linear_combination isign (s j) * e1 - isign (s j) * isign (t2 b) * isign (t2 b') * e2 -
        (octahedral b j - isign (t2 b) * isign (t2 b') * octahedral b' j) * hs (s j) -
        isign (s j) * isign (t2 b) * octahedral (o b) (σ j) * hs (t2 b')
  let p := Equiv.ofBijective o (Finite.injective_iff_bijective.1 hi)
  refine ⟨p, t1 ∘ p.symm, t2 ∘ p.symm, fun b => ?_⟩
  simp only [Function.comp_apply, Equiv.symm_apply_apply]
  exact ⟨cube_real h (h1 b), cube_real h (h2 b)⟩

/-- C107, cubic crystals: every rotation of the cube, in every grain, is a symmetry of the twelve slip
systems of a face-centred or body-centred cubic crystal. -/
theorem C107_cubic_crystals (Q : Fin m → Mat 3) (hQ : ∀ c, SpecCube (Q c)) (hd : ∀ c, (Q c).det = 1)
    (ref : Fin 12 → System 3) (hr : SpecCubicFile ref) :
    ∃ (order : Fin m → Equiv.Perm (Fin 12)) (direction normal : Fin m → Fin 12 → Bool),
      ∀ (inCell : Fin m → Equiv.Perm (Fin N)) (inMesh : Equiv.Perm ℕ),
        SpecSymmetry ⟨order, direction, normal, inCell, inMesh⟩ ref Q := by
  choose o t1 t2 h using fun c => octahedral_turn (hQ c)
  rcases hr with hr | hr
  · refine ⟨o, t1, t2, fun _ _ => ?_⟩
    have e1 : ∀ c b, Q c *ᵥ (ref b).direction = orient (t1 c (o c b)) • (ref (o c b)).direction :=
      fun c b => by
        rw [(read_parts (hr b)).1, (read_parts (hr (o c b))).1]
        exact normalized_turn (hQ c) (h c b).1
    have e2 : ∀ c b, Q c *ᵥ (ref b).normal = orient (t2 c (o c b)) • (ref (o c b)).normal :=
      fun c b => by
        rw [(read_parts (hr b)).2, (read_parts (hr (o c b))).2]
        exact normalized_turn (hQ c) (h c b).2
    exact ⟨hQ, e1, e2, fun c b =>
      C107_third (Q c) (hQ c) (hd c) (hr b) (hr (o c b)) _ _ (e1 c b) (e2 c b)⟩
  · refine ⟨o, t2, t1, fun _ _ => ?_⟩
    have e1 : ∀ c b, Q c *ᵥ (ref b).direction = orient (t2 c (o c b)) • (ref (o c b)).direction :=
      fun c b => by
        rw [(read_parts (hr b)).1, (read_parts (hr (o c b))).1]
        exact normalized_turn (hQ c) (h c b).2
    have e2 : ∀ c b, Q c *ᵥ (ref b).normal = orient (t1 c (o c b)) • (ref (o c b)).normal :=
      fun c b => by
        rw [(read_parts (hr b)).2, (read_parts (hr (o c b))).2]
        exact normalized_turn (hQ c) (h c b).1
    exact ⟨hQ, e1, e2, fun c b =>
      C107_third (Q c) (hQ c) (hd c) (hr b) (hr (o c b)) _ _ (e1 c b) (e2 c b)⟩

/-- The files of face-centred and body-centred crystals are read. -/
theorem octahedral_read (b : Fin 12) :
    (∃ s, readSystem3 (real (faceDiagonal b)) (real (octahedral b)) = .ok s) ∧
    ∃ s, readSystem3 (real (octahedral b)) (real (faceDiagonal b)) = .ok s := by
  have key : ∀ a b : Vec 3, b ⬝ᵥ a = 0 → norm2 a ≠ 0 → norm2 b ≠ 0 → norm2 (cross b a) ≠ 0 →
      ∃ s, readSystem3 a b = .ok s := by
    intro a b h h1 h2 h3
    refine ⟨⟨fun i => a i / norm2 a, fun i => b i / norm2 b, fun i => cross b a i / norm2 (cross b a)⟩, ?_⟩
    unfold readSystem3 Cry.normalize
    have ho : orthogonalityCheck b a := by
      unfold orthogonalityCheck dblEpsilon
      rw [h, abs_zero]
      positivity
    rw [if_pos ho, if_neg h1, if_neg h2, if_neg h3]
  have hn : ∀ v : Vec 3, v ⬝ᵥ v ≠ 0 → norm2 v ≠ 0 := by
    intro v h h0
    unfold norm2 at h0
    have hpos : 0 ≤ v ⬝ᵥ v := by
      simp only [dotProduct]
      exact sum_nonneg fun i _ => mul_self_nonneg _
    exact h ((Real.sqrt_eq_zero hpos).1 h0)
  let dot : (Fin 3 → ℤ) → (Fin 3 → ℤ) → ℤ := fun v w => v 0 * w 0 + v 1 * w 1 + v 2 * w 2
  let icross : (Fin 3 → ℤ) → (Fin 3 → ℤ) → Fin 3 → ℤ := fun a b =>
    ![a 1 * b 2 - a 2 * b 1, a 2 * b 0 - a 0 * b 2, a 0 * b 1 - a 1 * b 0]
  have hdot : ∀ v w, real v ⬝ᵥ real w = (dot v w : ℝ) := by
    intro v w
    simp [real, dot, dotProduct, Fin.sum_univ_three]
  have hcross : ∀ v w, cross (real v) (real w) = real (icross v w) := by
    intro v w
    funext i
    fin_cases i <;> simp [cross, real, icross]
  have facts : ∀ b, dot (octahedral b) (faceDiagonal b) = 0 ∧ dot (faceDiagonal b) (octahedral b) = 0 ∧
      dot (faceDiagonal b) (faceDiagonal b) = 2 ∧ dot (octahedral b) (octahedral b) = 3 ∧
      dot (icross (octahedral b) (faceDiagonal b)) (icross (octahedral b) (faceDiagonal b)) = 6 ∧
      dot (icross (faceDiagonal b) (octahedral b)) (icross (faceDiagonal b) (octahedral b)) = 6 := by
    decide +kernel
  obtain ⟨f1, f2, f3, f4, f5, f6⟩ := facts b
  have n1 := hn (real (faceDiagonal b)) (by rw [hdot, f3]; norm_num)
  have n2 := hn (real (octahedral b)) (by rw [hdot, f4]; norm_num)
  exact ⟨key _ _ (by rw [hdot, f1]; norm_num) n1 n2 (hn _ (by rw [hcross, hdot, f5]; norm_num)),
    key _ _ (by rw [hdot, f2]; norm_num) n2 n1 (hn _ (by rw [hcross, hdot, f6]; norm_num))⟩

example : ∃ ref, SpecCubicFile ref := by
  choose ref h using fun b => (octahedral_read b).1
  exact ⟨ref, Or.inl h⟩

/-! ## An example -/

/-- One displacement and two slips per cell. -/
def latKind : Kind 2 3 := ![none, some 0, some 1]

noncomputable def latShape : Shape 2 2 3 where
  jxw := 1
  disp := ![![1, 0], 0, 0]
  symGrad := ![!![1, 0; 0, 0], 0, 0]
  phi := ![![0, 1, 0], ![0, 0, 1]]
  grad := ![![0, ![1, 2], 0], ![0, 0, ![1, 2]]]

noncomputable def latSide : Side 2 2 3 := ⟨![![1, 0], 0, 0], ![![0, 1, 0], ![0, 0, 1]]⟩

/-- Two perpendicular slip systems. -/
def latRef : Fin 2 → System 2 := ![⟨![1, 0], ![0, 1], 0⟩, ⟨![0, 1], ![1, 0], 0⟩]

/-- Two cells in two grains, with a grain boundary. -/
noncomputable def latCell (c : Fin 2) : Placed 2 2 1 2 3 :=
  ⟨c, ⟨⟨⟨exTwinPrm 1, latKind, fun i => (i : ℕ) + 3 * c, 1,
    fun _ => ⟨latShape, ![1, 0], Bulk.init ⟨1363 / 660, 1, 1.4, 1, false⟩ 2, fun _ => 0⟩⟩, fun _ _ => ![1, 0]⟩,
    1, fun _ => ⟨exFace false, fun _ => ⟨0, 0, 0⟩, fun _ => ⟨0, 0, 0⟩, ![1 - 2 * (c : ℝ), 0], 1,
      Iface.new, latSide, latSide, fun i => (i : ℕ) + 3 * (1 - c : Fin 2)⟩,
    1, fun _ _ => ⟨latSide, ![1, 0], 1⟩⟩, fun _ => 1 - c⟩

/-- The first grain is turned by 90 degrees: its two slips change places and their signs. -/
def latTurn : Turning 2 2 3 :=
  ⟨fun c => if c = 0 then Equiv.swap 0 1 else Equiv.refl _, fun c a => c == 0 && a == 0,
    fun c a => c == 0 && a == 1, fun c => if c = 0 then Equiv.swap 1 2 else Equiv.refl _,
    Equiv.swap 1 2⟩

def latLabel : ℕ → Option (Fin 2 × Fin 2)
  | 1 => some (0, 0)
  | 2 => some (0, 1)
  | 4 => some (1, 0)
  | 5 => some (1, 1)
  | _ => none

theorem latTurn_symmetry : SpecSymmetry latTurn latRef fun c => if c = 0 then rotation2 90 else 1 := by
  have h : (90 : ℝ) * degToRad = Real.pi / 2 := by unfold degToRad; ring
  constructor
  · intro c
    fin_cases c
    · exact cube_plane
    · refine ⟨Equiv.refl _, fun _ => false, fun i j => ?_⟩
      simp [Matrix.one_apply, orient]
  all_goals
    intro c b
    fin_cases c <;> fin_cases b <;> funext i <;> fin_cases i <;>
      simp [latTurn, latRef, rotation2, h, orient, Matrix.mulVec, dotProduct, Fin.sum_univ_two] <;>
      exact Matrix.one_apply_eq _

theorem lat_same : ∀ (c : Fin 2) (i : Fin 3) (b : Fin 2),
    latKind (latTurn.inCell c i) = (latKind i).map (latTurn.order c) ∧
    (latTurn.inMesh (latTurn.inCell c i + 3 * c) = (i : ℕ) + 3 * c) ∧
    (latTurn.inCell c i = 0 ↔ i = 0) ∧
    (latTurn.inCell c i = (latTurn.order c b).succ ↔ i = b.succ) ∧
    latLabel ((i : ℕ) + 3 * c) = (latKind i).map fun a => (c, a) := by
  decide +kernel

theorem latShape_eq : latShape = ⟨1, fun i => if i = 0 then ![1, 0] else 0,
    fun i => if i = 0 then !![1, 0; 0, 0] else 0, fun b i => if i = b.succ then 1 else 0,
    fun b i => if i = b.succ then ![1, 2] else 0⟩ := by
  unfold latShape
  congr 1
  · funext i; fin_cases i <;> simp
  · funext i; fin_cases i <;> simp
  · funext b i; fin_cases b <;> fin_cases i <;> simp [Fin.ext_iff]
  · funext b i; fin_cases b <;> fin_cases i <;> simp [Fin.ext_iff]

theorem latSide_eq : latSide = ⟨fun i => if i = 0 then ![1, 0] else 0,
    fun b i => if i = b.succ then 1 else 0⟩ := by
  unfold latSide
  congr 1
  · funext i; fin_cases i <;> simp
  · funext b i; fin_cases b <;> fin_cases i <;> simp [Fin.ext_iff]

theorem lat_element (c : Fin 2) : SpecSameElement (latTurn.at c) latKind fun i => (i : ℕ) + 3 * c :=
  ⟨fun i => (lat_same c i 0).1, fun i => (lat_same c i 0).2.1⟩

theorem lat_shape (c : Fin 2) : SpecSameShape (latTurn.at c) latShape := by
  rw [latShape_eq]
  refine ⟨fun i => ?_, fun i => ?_, fun b i => ?_, fun b i => ?_⟩
  · exact if_congr (lat_same c i 0).2.2.1 rfl rfl
  · exact if_congr (lat_same c i 0).2.2.1 rfl rfl
  · exact if_congr (lat_same c i b).2.2.2.1 rfl rfl
  · exact if_congr (lat_same c i b).2.2.2.1 rfl rfl

theorem lat_side (c : Fin 2) : SpecSameSide (latTurn.at c) latSide := by
  rw [latSide_eq]
  refine ⟨fun i => ?_, fun b i => ?_⟩
  · exact if_congr (lat_same c i 0).2.2.1 rfl rfl
  · exact if_congr (lat_same c i b).2.2.2.1 rfl rfl

theorem lat_kind : ∀ (i : Fin 3) (a : Fin 2), (latKind i = some a → ¬ i = 0) ∧
    (latKind i ≠ some a → ¬ i = a.succ) := by decide

theorem latShape_primitive : latShape.Primitive latKind := by
  rw [latShape_eq]
  refine ⟨fun i a h => if_neg ((lat_kind i a).1 h), fun i a h => if_neg ((lat_kind i a).1 h),
    fun i a h => if_neg ((lat_kind i a).2 h), fun i a h => if_neg ((lat_kind i a).2 h), fun i => ?_⟩
  simp only
  split_ifs
  · ext i j; fin_cases i <;> fin_cases j <;> simp
  · simp

theorem latSide_primitive : latSide.Primitive latKind := by
  rw [latSide_eq]
  exact ⟨fun i a h => if_neg ((lat_kind i a).1 h), fun i a h => if_neg ((lat_kind i a).2 h)⟩

theorem latCell_placed (c : Fin 2) : SpecPlaced latTurn latLabel (latCell c) where
  element := lat_element c
  neighbour := fun _ => lat_element (1 - c)
  shape := fun _ => lat_shape c
  cur := fun _ => lat_side c
  nb := fun _ => lat_side (1 - c)
  load := fun _ _ => lat_side c
  own := fun i => (lat_same c i 0).2.2.2.2
  other := fun _ i => (lat_same (1 - c) i 0).2.2.2.2
  ptsPrim := fun _ => latShape_primitive
  curPrim := fun _ => latSide_primitive
  nbPrim := fun _ => latSide_primitive
  loadPrim := fun _ _ => latSide_primitive
  lat := fun _ => lateral2_linear
  fresh := fun _ _ _ => ⟨rfl, rfl⟩

/-- `C107_run` applies: turning the first of two grains by 90 degrees. -/
example (rot : Fin 2 → Mat 2) (dt : ℕ → ℝ) (u : ℕ → ℕ → ℝ) (T : ℕ) :
    let K : ℕ → Sol.Constraints ℕ := fun k g => if g = 0 then some ⟨[], k⟩ else none
    let Q : Fin 2 → Mat 2 := fun c => if c = 0 then rotation2 90 else 1
    (∀ k < T, SpecGrainSolution (SpecGrains ([latCell 0, latCell 1].map
          (·.oriented latRef fun c => rot c * Q c)) dt (fun k => latTurn.state latLabel (u k)) k)
          (latTurn.constraints latLabel (K k)) 6 (latTurn.state latLabel (u (k + 1))) ∧
        Sol.Satisfies (latTurn.constraints latLabel (K k)) (latTurn.state latLabel (u (k + 1)))) ↔
    ∀ k < T, SpecGrainSolution (SpecGrains ([latCell 0, latCell 1].map (·.oriented latRef rot)) dt u k)
        (K k) 6 (u (k + 1)) ∧ Sol.Satisfies (K k) (u (k + 1)) := by
  intro K Q
  refine C107_run latTurn latRef Q latTurn_symmetry rot latLabel _ ?_ K ?_ 6 ?_ dt u T
  · intro p hp
    rcases List.mem_cons.1 hp with rfl | hp
    · exact latCell_placed 0
    · obtain rfl := List.mem_singleton.1 hp
      exact latCell_placed 1
  · intro k g l hg x hx
    simp only [K] at hg
    split_ifs at hg
    obtain rfl := Option.some.inj hg
    simp at hx
  · intro r
    show r < 6 ↔ Equiv.swap 1 2 r < 6
    rcases Nat.lt_or_ge r 3 with h | h
    · interval_cases r <;> simp [Equiv.swap_apply_def]
    · rw [Equiv.swap_apply_of_ne_of_ne (by omega) (by omega)]

end Verif.Asm
