import Verif.Props.Rigid

/-!
# Energy balance with opening grain boundaries (C83)

Cohesive tractions with unloading to the origin, damage, contact and microtractions together.
-/

namespace Verif.Asm
open Matrix Finset Verif.Cry Verif.Hist Verif.Micro Verif.Lin Verif.Itf

variable {d e n N : ℕ}

/-! ## Specification -/

/-- Slope of the straight line on which a grain boundary unloads: traction at the largest opening so far
over that opening, continued to the initial slope where the boundary has not opened. -/
noncomputable def SpecSecant (c : Coh) (mx : ℝ) : ℝ :=
  if mx = 0 then c.charStress⁻¹ * (c.tc * c.charDisp / c.δc * Real.exp 1)
  else c.charStress⁻¹ * c.scalar (c.charDisp * mx) / mx

/-- Energy per area recovered when a grain boundary with the record `h` closes from the opening `δ`:
elastic energy of the degraded cohesive zone and of the contact penalty. -/
noncomputable def SpecOpeningEnergy (p : FacePrm d e) (h : Iface) (δ nrm : Vec d) : ℝ :=
  1 / 2 * (degradation p.exponent (p.damage h) p.coupleMacro * SpecSecant p.coh h.maxOpening) *
      effOpening p.coh δ nrm ^ 2 +
    1 / 2 * (p.contact.penalty / p.contact.charStress * p.contact.charDisp) * Itf.macaulay (-(δ ⬝ᵥ nrm)) ^ 2

/-- Energy stored in a grain boundary face with the record `h`, in the state `u`: in the opening, if
displacements may jump, and in the incompatibility of the slips, if microtractions act. -/
noncomputable def SpecJointEnergy (f : Face d e n N) (h : Iface) (u : ℕ → ℝ) : ℝ :=
  (if f.2.prm.decohesion then f.2.prm.dn3 / f.2.prm.dn0 * f.2.jxw *
    SpecOpeningEnergy f.2.prm h (opening f.2.cur f.2.nb (u ∘ f.1) (u ∘ f.2.nbDofs)) f.2.nrm else 0) +
  (if f.2.prm.microtraction then
    SpecSlipEnergy f.2.prm h f.2.own f.2.other f.2.nrm f.2.jxw f.2.cur f.2.nb (u ∘ f.1) (u ∘ f.2.nbDofs)
   else 0)

/-- A grain boundary face, open or not, with admissible parameters. -/
structure SpecJoint (kind : Kind n N) (f : Face d e n N) : Prop where
  lat : Lateral f.2.prm.lat
  cur : f.2.cur.Primitive kind
  nb : f.2.nb.Primitive kind
  unit : f.2.nrm ⬝ᵥ f.2.nrm = 1
  weight : 0 < f.2.jxw
  dn0 : 0 < f.2.prm.dn0
  dn2 : 0 ≤ f.2.prm.dn2
  dn3 : 0 ≤ f.2.prm.dn3
  modulus : 0 ≤ f.2.prm.micro.modulus
  char : 0 < f.2.prm.micro.char
  coh : f.2.prm.coh.sensible
  penalty : 0 ≤ f.2.prm.contact.penalty
  contactStress : 0 < f.2.prm.contact.charStress
  contactDisp : 0 < f.2.prm.contact.charDisp
  exponent : 0 ≤ f.2.prm.exponent

/-- The record the residual reads in the state `u`, compared with the record `old` at the start of the
step: the largest opening has not decreased and covers the opening now, damage has not decreased. -/
structure SpecAdvanced (f : Face d e n N) (old : Iface) (u : ℕ → ℝ) : Prop where
  max : old.maxOpening ≤ f.2.hist.maxOpening
  covers : effOpening f.2.prm.coh (opening f.2.cur f.2.nb (u ∘ f.1) (u ∘ f.2.nbDofs)) f.2.nrm ≤
    f.2.hist.maxOpening
  damage : old.damage ≤ f.2.hist.damage
  range : 0 ≤ old.damage ∧ f.2.hist.damage ≤ 1

/-! ## Helpers -/

theorem secant_exp (c : Coh) (mx : ℝ) : SpecSecant c mx =
    c.charStress⁻¹ * (c.tc * c.charDisp / c.δc * Real.exp (1 - c.charDisp * mx / c.δc)) := by
  unfold SpecSecant
  split_ifs with h
  · rw [h]; simp
  · unfold Coh.scalar
    field_simp

theorem secant_nonneg {c : Coh} (h : c.sensible) (mx : ℝ) : 0 ≤ SpecSecant c mx := by
  rw [secant_exp]
  obtain ⟨h1, h2, -, h4, h5⟩ := h
  positivity

theorem secant_anti {c : Coh} (h : c.sensible) {a b : ℝ} (hab : a ≤ b) :
    SpecSecant c b ≤ SpecSecant c a := by
  rw [secant_exp, secant_exp]
  obtain ⟨h1, h2, -, h4, h5⟩ := h
  have : Real.exp (1 - c.charDisp * b / c.δc) ≤ Real.exp (1 - c.charDisp * a / c.δc) := by
    apply Real.exp_le_exp.2
    have : c.charDisp * a / c.δc ≤ c.charDisp * b / c.δc := by gcongr
    linarith
  gcongr

/-- Within the recorded opening the cohesive traction is the secant one, loading or unloading. -/
theorem traction_secant {c : Coh} {δ nrm : Vec d} {mx old dt : ℝ} (hle : effOpening c δ nrm ≤ mx)
    {t : Vec d} (h : c.traction δ nrm mx old dt = some t) :
    t = SpecSecant c mx • rawDirection c δ nrm := by
  unfold Coh.traction at h
  simp only at h
  rcases hb : branch (effOpening c δ nrm) mx old dt with _ | _ | _
  · rw [hb] at h
    simp only [Option.some.injEq] at h
    have hm : effOpening c δ nrm = mx := by
      by_contra hne
      unfold branch at hb
      simp only at hb
      rw [if_neg fun h' => hne h'.1, if_pos (Or.inl (lt_of_le_of_ne hle hne))] at hb
      simp at hb
    rw [← h, ← hm, ← eff_smul_direction c δ nrm, secant_exp, smul_smul, smul_smul]
    congr 1
    unfold Coh.scalar
    ring
  · rw [hb] at h
    simp only at h
    split_ifs at h with hm
    simp only [Option.some.injEq] at h
    rw [← h, ← eff_smul_direction c δ nrm, smul_smul, smul_smul]
    congr 1
    unfold SpecSecant
    rw [if_neg hm]
    ring
  · exfalso
    unfold branch at hb
    simp only at hb
    rcases hle.lt_or_eq with hl | hl
    · rw [if_neg (fun h' => absurd h'.1 hl.ne), if_pos (Or.inl hl)] at hb
      simp at hb
    · by_cases hr : 0 ≤ (effOpening c δ nrm - old) / dt
      · rw [if_pos ⟨hl, hr⟩] at hb; simp at hb
      · rw [if_neg (fun h' => hr h'.2), if_pos (Or.inr ⟨hl, not_le.1 hr⟩)] at hb
        simp at hb

theorem macaulay_tangent (a b : ℝ) :
    1 / 2 * Itf.macaulay a ^ 2 - 1 / 2 * Itf.macaulay b ^ 2 ≤ Itf.macaulay a * (a - b) := by
  have h1 := Itf.macaulay_mul_self' a
  have h2 := Itf.macaulay_nonneg a
  have h3 : b ≤ Itf.macaulay b := by unfold Itf.macaulay; split_ifs <;> linarith
  nlinarith [mul_le_mul_of_nonneg_left h3 h2, sq_nonneg (Itf.macaulay a - Itf.macaulay b)]

/-- Half the squared effective opening is convex with derivative `rawDirection`. -/
theorem eff_tangent (c : Coh) {nrm : Vec d} (hn : nrm ⬝ᵥ nrm = 1) (δ δ₀ : Vec d) :
    1 / 2 * effOpening c δ nrm ^ 2 - 1 / 2 * effOpening c δ₀ nrm ^ 2 ≤
      rawDirection c δ nrm ⬝ᵥ (δ - δ₀) := by
  rw [sq, sq, effOpening_sq, effOpening_sq]
  unfold rawDirection
  rw [add_dotProduct, smul_dotProduct, smul_dotProduct, ← tangential_sq hn δ (δ - δ₀), mulVec_sub,
    dotProduct_sub, dotProduct_sub, smul_eq_mul, smul_eq_mul]
  have h1 := macaulay_tangent (nrm ⬝ᵥ δ) (nrm ⬝ᵥ δ₀)
  have h2 := dot_self_nonneg (tangentialProjector nrm *ᵥ δ - tangentialProjector nrm *ᵥ δ₀)
  rw [sub_dotProduct, dotProduct_sub, dotProduct_sub,
    dotProduct_comm (tangentialProjector nrm *ᵥ δ₀) (tangentialProjector nrm *ᵥ δ)] at h2
  nlinarith [mul_nonneg (mul_self_nonneg c.ratio) h2]

theorem degradation_bounds {m x y : ℝ} (hm : 0 ≤ m) (hx : 0 ≤ x) (hxy : x ≤ y) (hy : y ≤ 1) (b : Bool) :
    0 ≤ degradation m y b ∧ degradation m y b ≤ degradation m x b := by
  obtain ⟨-, -, h3, h4, h5⟩ := C43_degradation m hm
  cases b
  · rw [h5, h5]; norm_num
  · exact ⟨(h3 y (hx.trans hxy) hy).1, h4 x y hx hxy hy⟩

theorem damage_bounds {f : Face d e n N} {old : Iface} {u : ℕ → ℝ} (h : SpecAdvanced f old u) :
    0 ≤ f.2.prm.damage old ∧ f.2.prm.damage old ≤ f.2.prm.damage f.2.hist ∧
      f.2.prm.damage f.2.hist ≤ 1 := by
  unfold FacePrm.damage
  split_ifs
  · exact ⟨h.range.1, h.damage, h.range.2⟩
  · norm_num

/-- The work of the tractions of an opening face on the change of the opening is at least the change of
the recoverable energy: the rest is dissipated by decohesion. -/
theorem opening_work {p : FacePrm d e} {h old : Iface} {δ δ₀ nrm t : Vec d} (hn : nrm ⬝ᵥ nrm = 1)
    (hc : p.coh.sensible) (hK : 0 ≤ p.contact.penalty / p.contact.charStress * p.contact.charDisp)
    (hcov : effOpening p.coh δ nrm ≤ h.maxOpening) (hmax : old.maxOpening ≤ h.maxOpening)
    (hg : 0 ≤ degradation p.exponent (p.damage h) p.coupleMacro)
    (hg' : degradation p.exponent (p.damage h) p.coupleMacro ≤
      degradation p.exponent (p.damage old) p.coupleMacro)
    (ht : SpecTraction p h δ nrm = some t) :
    SpecOpeningEnergy p h δ nrm - SpecOpeningEnergy p old δ₀ nrm ≤ (δ - δ₀) ⬝ᵥ t := by
  unfold SpecTraction at ht
  obtain ⟨s, hs, rfl⟩ := Option.map_eq_some_iff.1 ht
  rw [traction_secant hcov hs]
  unfold SpecOpeningEnergy
  set g := degradation p.exponent (p.damage h) p.coupleMacro
  set g' := degradation p.exponent (p.damage old) p.coupleMacro
  set K := p.contact.penalty / p.contact.charStress * p.contact.charDisp with hKdef
  have e1 := eff_tangent p.coh hn δ δ₀
  have e2 := macaulay_tangent (-(δ ⬝ᵥ nrm)) (-(δ₀ ⬝ᵥ nrm))
  have e3 : g * SpecSecant p.coh h.maxOpening ≤ g' * SpecSecant p.coh old.maxOpening :=
    mul_le_mul hg' (secant_anti hc hmax) (secant_nonneg hc _) (hg.trans hg')
  have e4 : 0 ≤ g * SpecSecant p.coh h.maxOpening := mul_nonneg hg (secant_nonneg hc _)
  have e5 := sq_nonneg (effOpening p.coh δ₀ nrm)
  rw [dotProduct_comm (δ - δ₀), add_dotProduct]
  have c1 : (g • SpecSecant p.coh h.maxOpening • rawDirection p.coh δ nrm) ⬝ᵥ (δ - δ₀) =
      g * SpecSecant p.coh h.maxOpening * (rawDirection p.coh δ nrm ⬝ᵥ (δ - δ₀)) := by
    rw [smul_dotProduct, smul_dotProduct, smul_eq_mul, smul_eq_mul]; ring
  have c2 : p.contact.traction δ nrm ⬝ᵥ (δ - δ₀) =
      K * (Itf.macaulay (-(δ ⬝ᵥ nrm)) * (-(δ ⬝ᵥ nrm) - -(δ₀ ⬝ᵥ nrm))) := by
    unfold Contact.traction
    rw [neg_dotProduct, smul_dotProduct, dotProduct_sub, smul_eq_mul, dotProduct_comm nrm δ,
      dotProduct_comm nrm δ₀, ← hKdef]
    ring
  rw [c1, c2]
  have m1 := mul_le_mul_of_nonneg_left e1 e4
  have m2 := mul_le_mul_of_nonneg_left e2 hK
  have m3 := mul_le_mul_of_nonneg_right e3 e5
  nlinarith

/-- The part of a variation on the displacements. -/
noncomputable def dispPart (kind : Kind n N) (v : Fin N → ℝ) (i : Fin N) : ℝ :=
  match kind i with
  | none => v i
  | some _ => 0

theorem dispPart_only (kind : Kind n N) (v : Fin N → ℝ) : SpecDisplacementsOnly kind (dispPart kind v) := by
  intro i a hi; unfold dispPart; rw [hi]

theorem parts_add (kind : Kind n N) (v : Fin N → ℝ) (i : Fin N) :
    v i = dispPart kind v i + slipPart kind v i := by
  unfold dispPart slipPart
  rcases kind i with _ | a <;> simp

theorem dispPart_disp (kind : Kind n N) (s : Side d n N) (hs : s.Primitive kind) (v : Fin N → ℝ) :
    s.displacement (dispPart kind v) = s.displacement v := by
  unfold Side.displacement dispPart
  refine sum_congr rfl fun i _ => ?_
  rcases hi : kind i with _ | b
  · rfl
  · rw [hs.disp i b hi]; simp

theorem opening_sub (cur nb : Side d n N) (u v un vn : Fin N → ℝ) :
    opening cur nb (u - v) (un - vn) = opening cur nb u un - opening cur nb v vn := by
  have lin : ∀ (s : Side d n N) (x y : Fin N → ℝ),
      s.displacement (x - y) = s.displacement x - s.displacement y := by
    intro s x y
    unfold Side.displacement
    rw [← Finset.sum_sub_distrib]
    exact sum_congr rfl fun i _ => by rw [Pi.sub_apply, sub_smul]
  unfold opening
  rw [lin, lin]
  abel

/-- Virtual power of the slips at a face: both sides together. -/
theorem slips_work (kind : Kind n N) (f : Face d e n N) (h : SpecJoint kind f)
    (hm : f.2.prm.microtraction = true) (u w : ℕ → ℝ) (Ra Rb : Fin N → ℝ)
    (hRa : ∀ i, f.2.prm.rhsTerm kind f.2.own f.2.other f.2.nrm f.2.jxw f.2.hist f.2.cur f.2.nb (u ∘ f.1)
      (u ∘ f.2.nbDofs) i = some (Ra i))
    (hRb : ∀ i, f.2.prm.rhsTerm kind f.2.other f.2.own (-f.2.nrm) f.2.jxw f.2.hist f.2.nb f.2.cur
      (u ∘ f.2.nbDofs) (u ∘ f.1) i = some (Rb i)) :
    -(∑ i, slipPart kind (w ∘ f.1) i * Ra i + ∑ i, slipPart kind (w ∘ f.2.nbDofs) i * Rb i) =
      faceFactor f * faceForm f u w := by
  obtain ⟨dofs, f⟩ := f
  have hd := C52_slips f.prm h.lat hm kind f.own f.other f.nrm f.jxw f.hist f.cur f.nb h.cur h.nb
    (u ∘ dofs) (u ∘ f.nbDofs) (slipPart kind (w ∘ dofs)) (slipPart kind (w ∘ f.nbDofs))
    (slipPart_only _ _) (slipPart_only _ _) Ra Rb hRa hRb
  have hE : ∀ t : ℝ, SpecSlipEnergy f.prm f.hist f.own f.other f.nrm f.jxw f.cur f.nb
      (fun i => (u ∘ dofs) i + t * slipPart kind (w ∘ dofs) i)
      (fun i => (u ∘ f.nbDofs) i + t * slipPart kind (w ∘ f.nbDofs) i) =
      1 / 2 * faceFactor (dofs, f) * ∑ i, ∑ j, (SpecNetBurgers (dofs, f) u i j +
        t * SpecNetBurgers (dofs, f) w i j) * (SpecNetBurgers (dofs, f) u i j +
        t * SpecNetBurgers (dofs, f) w i j) := by
    intro t
    have lin : ∀ (s : Side d n N) (hs : s.Primitive kind) (x y : Fin N → ℝ),
        s.slip (fun i => x i + t * slipPart kind y i) = fun c => s.slip x c + t * s.slip y c := by
      intro s hs x y
      rw [← slipPart_slip kind s hs y]
      funext c
      unfold Side.slip
      rw [Finset.mul_sum, ← Finset.sum_add_distrib]
      exact sum_congr rfl fun i _ => by ring
    unfold SpecSlipEnergy interfaceEnergy faceFactor SpecNetBurgers
    rw [lin _ h.cur, lin _ h.nb]
    simp only [burgers_line]
    norm_num
    ring
  have hB : HasDerivAt (fun t : ℝ => 1 / 2 * faceFactor (dofs, f) * ∑ i, ∑ j,
      (SpecNetBurgers (dofs, f) u i j + t * SpecNetBurgers (dofs, f) w i j) *
      (SpecNetBurgers (dofs, f) u i j + t * SpecNetBurgers (dofs, f) w i j))
      (1 / 2 * faceFactor (dofs, f) * (2 * faceForm (dofs, f) u w)) 0 := by
    refine HasDerivAt.const_mul _ ?_
    unfold faceForm
    rw [Finset.mul_sum]
    refine HasDerivAt.fun_sum fun i _ => ?_
    rw [Finset.mul_sum]
    refine HasDerivAt.fun_sum fun j _ => ?_
    have h1 := ((hasDerivAt_id' (0 : ℝ)).mul_const
      (SpecNetBurgers (dofs, f) w i j)).const_add (SpecNetBurgers (dofs, f) u i j)
    refine (h1.mul h1).congr_deriv ?_
    ring
  have := hd.unique (hB.congr_of_eventuallyEq (Filter.Eventually.of_forall hE))
  rw [this]
  ring

/-- Energy of the slips with the record `h`. -/
theorem slipEnergy_eq (f : Face d e n N) (h : Iface) (u : ℕ → ℝ) :
    SpecSlipEnergy f.2.prm h f.2.own f.2.other f.2.nrm f.2.jxw f.2.cur f.2.nb (u ∘ f.1) (u ∘ f.2.nbDofs) =
      1 / 2 * (f.2.prm.dn2 * degradation f.2.prm.exponent (f.2.prm.damage h) f.2.prm.coupleMicro *
        f.2.jxw * (f.2.prm.micro.modulus / f.2.prm.micro.char)) * faceForm f u u := by
  unfold SpecSlipEnergy interfaceEnergy faceForm SpecNetBurgers
  norm_num
  ring

theorem slips_energy {kind : Kind n N} (f : Face d e n N) (h : SpecJoint kind f) (old : Iface)
    (u v : ℕ → ℝ) (ha : SpecAdvanced f old u) :
    SpecSlipEnergy f.2.prm f.2.hist f.2.own f.2.other f.2.nrm f.2.jxw f.2.cur f.2.nb (u ∘ f.1)
        (u ∘ f.2.nbDofs) -
      SpecSlipEnergy f.2.prm old f.2.own f.2.other f.2.nrm f.2.jxw f.2.cur f.2.nb (v ∘ f.1)
        (v ∘ f.2.nbDofs) ≤ faceFactor f * faceForm f u (u - v) := by
  rw [slipEnergy_eq, slipEnergy_eq]
  obtain ⟨d1, d2, d3⟩ := damage_bounds ha
  obtain ⟨g1, g2⟩ := degradation_bounds h.exponent d1 d2 d3 f.2.prm.coupleMicro
  have hw := h.weight; have h2 := h.dn2; have hmod := h.modulus; have hch := h.char
  have hq : 0 ≤ f.2.prm.micro.modulus / f.2.prm.micro.char := by positivity
  have fold : f.2.prm.dn2 * degradation f.2.prm.exponent (f.2.prm.damage f.2.hist) f.2.prm.coupleMicro *
        f.2.jxw * (f.2.prm.micro.modulus / f.2.prm.micro.char) = faceFactor f := rfl
  rw [fold]
  have hF : 0 ≤ faceFactor f := by
    rw [← fold]
    positivity
  have hle : faceFactor f ≤ f.2.prm.dn2 * degradation f.2.prm.exponent (f.2.prm.damage old)
      f.2.prm.coupleMicro * f.2.jxw * (f.2.prm.micro.modulus / f.2.prm.micro.char) := by
    rw [← fold]
    gcongr
  have h1 := faceForm_self_nonneg f (u - v)
  have h2 : faceForm f (u - v) (u - v) = faceForm f u u - 2 * faceForm f u v + faceForm f v v := by
    rw [← faceForm_sub, faceForm_symm f u (u - v), faceForm_symm f v (u - v), ← faceForm_sub,
      ← faceForm_sub, faceForm_symm f v u]
    ring
  have h3 : faceForm f u (u - v) = faceForm f u u - faceForm f u v := by
    rw [faceForm_symm, ← faceForm_sub, faceForm_symm f v u]
  have h4 := mul_nonneg hF h1
  have h5 := mul_le_mul_of_nonneg_right hle (faceForm_self_nonneg f v)
  rw [h3]
  rw [h2] at h4
  linarith

/-- Without displacement rows there is no opening. -/
theorem no_rows (kind : Kind n N) (s : Side d n N) (hs : s.Primitive kind) (hk : ∀ i, kind i ≠ none)
    (v : Fin N → ℝ) : s.displacement v = 0 := by
  unfold Side.displacement
  refine sum_eq_zero fun i _ => ?_
  rcases hi : kind i with _ | a
  · exact (hk i hi).elim
  · rw [hs.disp i a hi, smul_zero]

/-- Work of a face, open or not, on both its cells. -/
theorem joint_work (kind : Kind n N) (f : Face d e n N) (h : SpecJoint kind f) (old : Iface) (u v : ℕ → ℝ)
    (ha : SpecAdvanced f old u) (Ra Rb : Fin N → ℝ)
    (hRa : ∀ i, f.2.prm.rhsTerm kind f.2.own f.2.other f.2.nrm f.2.jxw f.2.hist f.2.cur f.2.nb (u ∘ f.1)
      (u ∘ f.2.nbDofs) i = some (Ra i))
    (hRb : ∀ i, f.2.prm.rhsTerm kind f.2.other f.2.own (-f.2.nrm) f.2.jxw f.2.hist f.2.nb f.2.cur
      (u ∘ f.2.nbDofs) (u ∘ f.1) i = some (Rb i)) :
    SpecJointEnergy f f.2.hist u - SpecJointEnergy f old v ≤
      ∑ i, (u - v) (f.1 i) * -Ra i + ∑ i, (u - v) (f.2.nbDofs i) * -Rb i := by
  set w := u - v with hw
  have split : ∀ (dofs : Fin N → ℕ) (R : Fin N → ℝ), ∑ i, w (dofs i) * -R i =
      -(∑ i, dispPart kind (w ∘ dofs) i * R i) + -(∑ i, slipPart kind (w ∘ dofs) i * R i) := by
    intro dofs R
    rw [← neg_add, ← Finset.sum_add_distrib, ← Finset.sum_neg_distrib]
    refine sum_congr rfl fun i _ => ?_
    have := parts_add kind (w ∘ dofs) i
    rw [Function.comp_apply] at this
    rw [this]; ring
  rw [split, split]
  have hc : ∀ dofs : Fin N → ℕ, w ∘ dofs = u ∘ dofs - v ∘ dofs := fun _ => rfl
  -- openings
  have hopen : (if f.2.prm.decohesion then f.2.prm.dn3 / f.2.prm.dn0 * f.2.jxw *
      SpecOpeningEnergy f.2.prm f.2.hist (opening f.2.cur f.2.nb (u ∘ f.1) (u ∘ f.2.nbDofs)) f.2.nrm
        else 0) -
      (if f.2.prm.decohesion then f.2.prm.dn3 / f.2.prm.dn0 * f.2.jxw *
      SpecOpeningEnergy f.2.prm old (opening f.2.cur f.2.nb (v ∘ f.1) (v ∘ f.2.nbDofs)) f.2.nrm
        else 0) ≤
      -(∑ i, dispPart kind (w ∘ f.1) i * Ra i) + -(∑ i, dispPart kind (w ∘ f.2.nbDofs) i * Rb i) := by
    rcases hd : f.2.prm.decohesion with _ | _
    · have z : ∀ (c c' : Crystal d n) (m : Vec d) (s s' : Side d n N) (x y : Fin N → ℝ)
          (R g : Fin N → ℝ), SpecDisplacementsOnly kind g →
          (∀ i, f.2.prm.rhsTerm kind c c' m f.2.jxw f.2.hist s s' x y i = some (R i)) →
          ∑ i, g i * R i = 0 := by
        intro c c' m s s' x y R g hg hR
        refine Finset.sum_eq_zero fun i _ => ?_
        rcases hk : kind i with _ | q
        · have := hR i
          unfold FacePrm.rhsTerm at this
          rw [hk] at this
          simp only [hd] at this
          rw [if_neg (by simp)] at this
          rw [← Option.some.inj this, mul_zero]
        · rw [hg i q hk, zero_mul]
      rw [z _ _ _ _ _ _ _ Ra _ (dispPart_only _ _) hRa, z _ _ _ _ _ _ _ Rb _ (dispPart_only _ _) hRb]
      simp
    · rw [if_pos rfl, if_pos rfl]
      have hfac : 0 ≤ f.2.prm.dn3 / f.2.prm.dn0 * f.2.jxw := by
        have := h.dn3; have := h.dn0; have := h.weight
        positivity
      rcases ht : SpecTraction f.2.prm f.2.hist (opening f.2.cur f.2.nb (u ∘ f.1) (u ∘ f.2.nbDofs))
          f.2.nrm with _ | t
      · have hk : ∀ i, kind i ≠ none := by
          intro i hk
          have := hRa i
          unfold FacePrm.rhsTerm at this
          rw [hk] at this
          simp only [hd, if_true] at this
          unfold SpecTraction at ht
          rw [Option.map_eq_none_iff] at ht
          rw [ht] at this
          simp at this
        have o0 : ∀ x : ℕ → ℝ, opening f.2.cur f.2.nb (x ∘ f.1) (x ∘ f.2.nbDofs) = 0 := by
          intro x
          unfold opening
          rw [no_rows kind _ h.cur hk, no_rows kind _ h.nb hk, sub_zero]
        have en : ∀ hi : Iface, SpecOpeningEnergy f.2.prm hi 0 f.2.nrm = 0 := by
          intro hi
          have : effOpening f.2.prm.coh (0 : Vec d) f.2.nrm = 0 := by
            unfold effOpening
            simp [Itf.macaulay, norm2]
          unfold SpecOpeningEnergy
          rw [this]
          simp [Itf.macaulay]
        have dz : ∀ (x : Fin N → ℝ) i, dispPart kind x i = 0 := by
          intro x i
          unfold dispPart
          rcases hi : kind i with _ | a
          · exact (hk i hi).elim
          · rfl
        rw [o0, o0, en, en]
        simp [dz]
      · have ht' : SpecTraction f.2.prm f.2.hist (opening f.2.nb f.2.cur (u ∘ f.2.nbDofs) (u ∘ f.1))
            (-f.2.nrm) = some (-t) := by
          rw [opening_swap, traction_flip, ht]; rfl
        rw [disp_power f.2.prm hd kind _ _ f.2.nrm f.2.jxw f.2.hist f.2.cur f.2.nb _ _ _
            (dispPart_only kind (w ∘ f.1)) t ht Ra hRa,
          disp_power f.2.prm hd kind _ _ (-f.2.nrm) f.2.jxw f.2.hist f.2.nb f.2.cur _ _ _
            (dispPart_only kind (w ∘ f.2.nbDofs)) (-t) ht' Rb hRb,
          dispPart_disp kind _ h.cur, dispPart_disp kind _ h.nb, dotProduct_neg]
        obtain ⟨d1, d2, d3⟩ := damage_bounds ha
        obtain ⟨g1, g2⟩ := degradation_bounds h.exponent d1 d2 d3 f.2.prm.coupleMacro
        have key := opening_work h.unit h.coh (by
          have := h.penalty; have := h.contactStress; have := h.contactDisp
          positivity) ha.covers ha.max g1 g2 ht
          (δ₀ := opening f.2.cur f.2.nb (v ∘ f.1) (v ∘ f.2.nbDofs))
        rw [← opening_sub, ← hc, ← hc] at key
        have hop : opening f.2.cur f.2.nb (w ∘ f.1) (w ∘ f.2.nbDofs) ⬝ᵥ t =
            f.2.nb.displacement (w ∘ f.2.nbDofs) ⬝ᵥ t - f.2.cur.displacement (w ∘ f.1) ⬝ᵥ t := by
          unfold opening; rw [sub_dotProduct]
        rw [hop] at key
        have := mul_le_mul_of_nonneg_left key hfac
        linarith
  -- slips
  have hslip : (if f.2.prm.microtraction then
      SpecSlipEnergy f.2.prm f.2.hist f.2.own f.2.other f.2.nrm f.2.jxw f.2.cur f.2.nb (u ∘ f.1)
        (u ∘ f.2.nbDofs) else 0) -
      (if f.2.prm.microtraction then
      SpecSlipEnergy f.2.prm old f.2.own f.2.other f.2.nrm f.2.jxw f.2.cur f.2.nb (v ∘ f.1)
        (v ∘ f.2.nbDofs) else 0) ≤
      -(∑ i, slipPart kind (w ∘ f.1) i * Ra i) + -(∑ i, slipPart kind (w ∘ f.2.nbDofs) i * Rb i) := by
    rcases hm : f.2.prm.microtraction with _ | _
    · have z : ∀ (c c' : Crystal d n) (m : Vec d) (s s' : Side d n N) (x y : Fin N → ℝ)
          (R g : Fin N → ℝ), SpecSlipsOnly kind g →
          (∀ i, f.2.prm.rhsTerm kind c c' m f.2.jxw f.2.hist s s' x y i = some (R i)) →
          ∑ i, g i * R i = 0 := by
        intro c c' m s s' x y R g hg hR
        refine Finset.sum_eq_zero fun i _ => ?_
        rcases hk : kind i with _ | q
        · rw [hg i hk, zero_mul]
        · have := hR i
          unfold FacePrm.rhsTerm at this
          rw [hk] at this
          simp only [hm] at this
          rw [if_neg (by simp)] at this
          rw [← Option.some.inj this, mul_zero]
      rw [z _ _ _ _ _ _ _ Ra _ (slipPart_only _ _) hRa, z _ _ _ _ _ _ _ Rb _ (slipPart_only _ _) hRb]
      simp
    · rw [if_pos rfl, if_pos rfl, ← neg_add, slips_work kind f h hm u w Ra Rb hRa hRb]
      exact slips_energy f h old u v ha
  unfold SpecJointEnergy
  linarith

/-- Every row a cell sees of a face is a number, and the right-hand side is the sum of its parts. -/
theorem rows_seen {kind : Kind n N} {cells : List (GrainCell d e n N)}
    (hk : ∀ g ∈ cells, g.cell.kind = kind) {u : ℕ → ℝ} {R : GrainCell d e n N → Fin N → ℝ}
    (hR : SpecGrainAssembled cells u R) :
    (∀ f ∈ SpecSeen cells, ∀ i, f.2.prm.rhsTerm kind f.2.own f.2.other f.2.nrm f.2.jxw f.2.hist
      f.2.cur f.2.nb (u ∘ f.1) (u ∘ f.2.nbDofs) i = some (viewForce kind f u i)) ∧
    ∀ g ∈ cells, ∀ i,
      g.cell.prm.rhs g.cell.kind g.cell.pts (u ∘ g.cell.dofs) i = some (cellRhs u g.cell i) ∧
      R g i = cellRhs u g.cell i + ∑ k, viewForce kind (g.cell.dofs, g.views k) u i +
        ∑ b, ((g.loads b).side.disp i ⬝ᵥ (g.loads b).value) * (g.loads b).jxw := by
  have vf : ∀ g ∈ cells, ∀ k i, (g.views k).prm.rhsTerm kind (g.views k).own (g.views k).other
      (g.views k).nrm (g.views k).jxw (g.views k).hist (g.views k).cur (g.views k).nb (u ∘ g.cell.dofs)
      (u ∘ (g.views k).nbDofs) i = some (viewForce kind (g.cell.dofs, g.views k) u i) := by
    intro g hg k i
    obtain ⟨-, y, -, hy, -⟩ := row_parts (hR g hg i)
    have := hy k
    rw [hk g hg] at this
    unfold viewForce
    simp only
    rw [this]
    rfl
  refine ⟨?_, ?_⟩
  · intro f hf
    obtain ⟨g, hg, h⟩ := List.mem_flatMap.1 hf
    obtain ⟨w, hw, rfl⟩ := List.mem_map.1 h
    obtain ⟨k, rfl⟩ := List.mem_ofFn.1 hw
    exact vf g hg k
  · intro g hg i
    obtain ⟨x, y, hx, hy, hr⟩ := row_parts (hR g hg i)
    have hx' : cellRhs u g.cell i = x := by unfold cellRhs; rw [hx]; rfl
    have hy' : ∀ k, viewForce kind (g.cell.dofs, g.views k) u i = y k := by
      intro k
      have h1 := hy k
      rw [hk g hg, vf g hg k i] at h1
      exact Option.some.inj h1
    rw [hx', hx]
    refine ⟨rfl, ?_⟩
    rw [hr]
    simp only [hy']

/-- Virtual power of the whole mesh, faces not evaluated. -/
theorem open_mesh_power {kind : Kind n N} {cells : List (GrainCell d e n N)}
    {faces : List (Face d e n N)} (hp : SpecPaired cells faces)
    (hk : ∀ g ∈ cells, g.cell.kind = kind) {u : ℕ → ℝ} {R : GrainCell d e n N → Fin N → ℝ}
    (hR : SpecGrainAssembled cells u R) (w : ℕ → ℝ) :
    SpecGrainWork cells R w = SpecNodalWork (cells.map GrainCell.cell) (cellRhs u) w +
      (faces.map fun f => ∑ i, w (f.1 i) * -viewForce kind f u i +
        ∑ i, w (f.flip.1 i) * -viewForce kind f.flip u i).sum -
      SpecLoadWork cells w := by
  have e2 : (faces.map fun f => ∑ i, w (f.1 i) * -viewForce kind f u i +
        ∑ i, w (f.flip.1 i) * -viewForce kind f.flip u i).sum =
      ((SpecSeen cells).map fun f => ∑ i, w (f.1 i) * -viewForce kind f u i).sum := by
    rw [(hp.map _).sum_eq, List.map_flatMap, List.flatMap_def, List.sum_flatten, List.map_map]
    congr 1
    refine List.map_congr_left fun f _ => ?_
    simp
  have e3 : ((SpecSeen cells).map fun f => ∑ i, w (f.1 i) * -viewForce kind f u i).sum =
      (cells.map fun g => ∑ k, ∑ i, w (g.cell.dofs i) *
        -viewForce kind (g.cell.dofs, g.views k) u i).sum := by
    unfold SpecSeen
    rw [List.map_flatMap, List.flatMap_def, List.sum_flatten, List.map_map]
    congr 1
    refine List.map_congr_left fun g _ => ?_
    simp only [Function.comp_apply, List.map_map]
    rw [List.map_ofFn, List.sum_ofFn]
    rfl
  rw [e2, e3]
  unfold SpecGrainWork SpecNodalWork SpecLoadWork
  rw [List.map_map, sub_eq_add_neg, ← neg_one_mul (cells.map _).sum, ← List.sum_map_mul_left,
    ← List.sum_map_add, ← List.sum_map_add]
  congr 1
  refine List.map_congr_left fun g hg => ?_
  simp only [Function.comp_apply]
  simp only [fun i => ((rows_seen hk hR).2 g hg i).2]
  have l1 : ∑ b, (g.loads b).jxw * ((g.loads b).side.displacement (w ∘ g.cell.dofs) ⬝ᵥ
      (g.loads b).value) = ∑ i, w (g.cell.dofs i) *
        ∑ b, ((g.loads b).side.disp i ⬝ᵥ (g.loads b).value) * (g.loads b).jxw := by
    simp only [Finset.mul_sum]
    rw [Finset.sum_comm]
    refine sum_congr rfl fun b _ => ?_
    unfold Side.displacement
    rw [sum_dotProduct, Finset.mul_sum]
    refine sum_congr rfl fun i _ => ?_
    rw [smul_dotProduct, smul_eq_mul, Function.comp_apply]
    ring
  have l2 : ∑ k, ∑ i, w (g.cell.dofs i) * -viewForce kind (g.cell.dofs, g.views k) u i =
      ∑ i, w (g.cell.dofs i) * -∑ k, viewForce kind (g.cell.dofs, g.views k) u i := by
    rw [Finset.sum_comm]
    refine sum_congr rfl fun i _ => ?_
    rw [← Finset.sum_neg_distrib, Finset.mul_sum]
  rw [l1, l2, neg_one_mul, ← Finset.sum_neg_distrib, ← Finset.sum_add_distrib,
    ← Finset.sum_add_distrib]
  exact sum_congr rfl fun i _ => by ring

/-! ## C83 -/

/-- C83 with opening grain boundaries: for a mesh with grain boundaries on which cohesive tractions,
contact pressures and microtractions act, degraded by damage, and with loaded faces, energy stored in the
grains and the grain boundaries after the step plus dissipation in the grains do not exceed the energy
stored before plus the work of supply, loads and external nodal forces.  `old` are the records of the
faces before the step; whatever decohesion costs is lost. -/
theorem C83_opening_partial {kind : Kind n N} (cells : List (GrainCell d e n N)) {J : ℕ}
    (face : Fin J → Face d e n N) (old : Fin J → Iface)
    (hp : SpecPaired cells (List.ofFn face)) (hf : ∀ j, SpecJoint kind (face j))
    (hk : ∀ g ∈ cells, g.cell.kind = kind)
    (hcell : ∀ g ∈ cells, SpecCell g.cell) (hmat : ∀ g ∈ cells, SpecMaterial g.cell.prm) (u v : ℕ → ℝ)
    (hold : ∀ g ∈ cells, ∀ q a,
      (g.cell.pts q).old a = (g.cell.pts q).shape.slip (v ∘ g.cell.dofs) a)
    (hadv : ∀ j, SpecAdvanced (face j) (old j) u)
    (R : GrainCell d e n N → Fin N → ℝ) (hR : SpecGrainAssembled cells u R) :
    SpecStored (cells.map GrainCell.cell) u + ∑ j, SpecJointEnergy (face j) (face j).2.hist u +
        SpecDissipated (cells.map GrainCell.cell) u ≤
      SpecStored (cells.map GrainCell.cell) v + ∑ j, SpecJointEnergy (face j) (old j) v +
        SpecSupplyWork (cells.map GrainCell.cell) (u - v) +
        SpecLoadWork cells (u - v) + SpecGrainWork cells R (u - v) ∧
    0 ≤ SpecDissipated (cells.map GrainCell.cell) u := by
  have hall : ∀ {P : MeshCell d n N → Prop}, (∀ g ∈ cells, P g.cell) →
      ∀ c ∈ cells.map GrainCell.cell, P c := by
    intro P h c hc
    obtain ⟨g, hg, rfl⟩ := List.mem_map.1 hc
    exact h g hg
  obtain ⟨hseen, hrow⟩ := rows_seen hk hR
  obtain ⟨h1, h2⟩ := C83_balance_partial (cells.map GrainCell.cell) (hall hcell)
    (hall (P := fun c => SpecMaterial c.prm) hmat) u v
    (hall (P := fun c => ∀ q a, (c.pts q).old a = (c.pts q).shape.slip (v ∘ c.dofs) a) hold)
    (cellRhs u) (fun c hc i => by
      obtain ⟨g, hg, rfl⟩ := List.mem_map.1 hc
      exact (hrow g hg i).1)
  refine ⟨?_, h2⟩
  have h3 := open_mesh_power hp hk hR (u - v)
  rw [List.map_ofFn, List.sum_ofFn] at h3
  have h4 : ∑ j, SpecJointEnergy (face j) (face j).2.hist u ≤ ∑ j, SpecJointEnergy (face j) (old j) v +
      ∑ j, ((fun f : Face d e n N => ∑ i, (u - v) (f.1 i) * -viewForce kind f u i +
        ∑ i, (u - v) (f.flip.1 i) * -viewForce kind f.flip u i) ∘ face) j := by
    rw [← Finset.sum_add_distrib]
    refine Finset.sum_le_sum fun j _ => ?_
    have m1 := hseen (face j) (hp.mem_iff.2 (List.mem_flatMap.2
      ⟨face j, List.mem_ofFn.2 ⟨j, rfl⟩, by simp⟩))
    have m2 := hseen (face j).flip (hp.mem_iff.2 (List.mem_flatMap.2
      ⟨face j, List.mem_ofFn.2 ⟨j, rfl⟩, by simp⟩))
    have := joint_work kind (face j) (hf j) (old j) u v (hadv j) _ _ m1 m2
    simp only [Function.comp_apply]
    have hfl : ∀ i, (face j).flip.1 i = (face j).2.nbDofs i := fun _ => rfl
    simp only [hfl]
    linarith
  linarith

/-- C83 for an accepted step with opening grain boundaries and constant boundary values. -/
theorem C83_opening_accepted_partial {kind : Kind n N} (cells : List (GrainCell d e n N)) {J : ℕ}
    (face : Fin J → Face d e n N) (old : Fin J → Iface)
    (hp : SpecPaired cells (List.ofFn face)) (hf : ∀ j, SpecJoint kind (face j))
    (hk : ∀ g ∈ cells, g.cell.kind = kind)
    (hcell : ∀ g ∈ cells, SpecCell g.cell) (hmat : ∀ g ∈ cells, SpecMaterial g.cell.prm) (u v : ℕ → ℝ)
    (hold : ∀ g ∈ cells, ∀ q a,
      (g.cell.pts q).old a = (g.cell.pts q).shape.slip (v ∘ g.cell.dofs) a)
    (hadv : ∀ j, SpecAdvanced (face j) (old j) u)
    (R : GrainCell d e n N → Fin N → ℝ) (hR : SpecGrainAssembled cells u R)
    (K : Sol.Constraints ℕ) (m : ℕ) (hK : Homogeneous K m) (hm : ∀ c ∈ cells, ∀ i, c.cell.dofs i < m)
    (hsat : Sol.Satisfies K (u - v))
    (hconv : ∀ r < m, Lin.residual K (cells.map fun c => c.local R) r = 0) :
    SpecStored (cells.map GrainCell.cell) u + ∑ j, SpecJointEnergy (face j) (face j).2.hist u +
        SpecDissipated (cells.map GrainCell.cell) u ≤
      SpecStored (cells.map GrainCell.cell) v + ∑ j, SpecJointEnergy (face j) (old j) v +
        SpecSupplyWork (cells.map GrainCell.cell) (u - v) + SpecLoadWork cells (u - v) := by
  have h := (C83_opening_partial cells face old hp hf hk hcell hmat u v hold hadv R hR).1
  rw [grain_solution_work cells hK hm hsat hconv, add_zero] at h
  exact h

/-! ## Runs -/

/-- A cell of a polycrystal whose faces are listed elsewhere: the face's number and whether the cell is
its second one; supply and loads of every step. -/
structure OpenGrain (d n N J : ℕ) where
  run : RunCell d n N
  F : ℕ
  sees : Fin F → Fin J × Bool
  B : ℕ
  loads : ℕ → Fin B → Loaded d n N

/-- What happens to the records of the faces besides the accepted openings: trial evaluations and resets
before acceptance, and the opening recorded at the end of the step. -/
structure Happens (J : ℕ) where
  trials : ℕ → Fin J → List IfaceOp
  measured : ℕ → Fin J → ℝ

/-- Effective opening of a face. -/
noncomputable def SpecOpening (f : Face d e n N) (u : ℕ → ℝ) : ℝ :=
  effOpening f.2.prm.coh (opening f.2.cur f.2.nb (u ∘ f.1) (u ∘ f.2.nbDofs)) f.2.nrm

/-- Records of the faces at the beginning of step `k`
(`source/gradient_crystal_plasticity/solve.cc:86-145`, `quadrature_point_history.cc:107-149`): new before
the first step, then every step's effect. -/
noncomputable def SpecRecord {J : ℕ} (face : Fin J → Face d e n N) (dmg : DamagePrm) (hap : Happens J)
    (u : ℕ → ℕ → ℝ) (j : Fin J) : ℕ → Iface
  | 0 => Iface.new
  | k + 1 => (SpecRecord face dmg hap u j k).step dmg
      ⟨hap.trials k j, SpecOpening (face j) (u (k + 1)), hap.measured k j⟩

/-- Face `j` as the residual of step `k` reads it in the accepted state. -/
noncomputable def SpecFaceAt {J : ℕ} (face : Fin J → Face d e n N) (dmg : DamagePrm) (hap : Happens J)
    (dt : ℕ → ℝ) (u : ℕ → ℕ → ℝ) (k : ℕ) (j : Fin J) : Face d e n N :=
  ((face j).1, { (face j).2 with
    prm := { (face j).2.prm with dt := dt k }
    hist := ((hap.trials k j).foldl (Iface.op dmg) (SpecRecord face dmg hap u j k).store).updateOrtiz dmg
      (SpecOpening (face j) (u (k + 1))) })

/-- A face from the first or from the second cell. -/
def SpecLook (f : Face d e n N) (second : Bool) : Face d e n N := if second then f.flip else f

/-- The cell in step `k`. -/
noncomputable def OpenGrain.at {J : ℕ} (r : OpenGrain d n N J) (face : Fin J → Face d e n N)
    (dmg : DamagePrm) (hap : Happens J) (dt : ℕ → ℝ) (u : ℕ → ℕ → ℝ) (k : ℕ) : GrainCell d e n N :=
  ⟨r.run.at dt u k, r.F, fun s =>
    (SpecLook (SpecFaceAt face dmg hap dt u k (r.sees s).1) (r.sees s).2).2, r.B, r.loads k⟩

/-- The polycrystal in step `k`. -/
noncomputable def SpecOpenGrains {J : ℕ} (run : List (OpenGrain d n N J)) (face : Fin J → Face d e n N)
    (dmg : DamagePrm) (hap : Happens J) (dt : ℕ → ℝ) (u : ℕ → ℕ → ℝ) (k : ℕ) :
    List (GrainCell d e n N) := run.map fun r => r.at face dmg hap dt u k

/-- Each side of each face is seen by exactly one cell, whose degrees of freedom are that side's. -/
def SpecSides {J : ℕ} (run : List (OpenGrain d n N J)) (face : Fin J → Face d e n N) : Prop :=
  (run.flatMap fun r => (List.ofFn r.sees).map fun s => (r.run.cell.dofs, s)).Perm
    ((List.finRange J).flatMap fun j =>
      [((face j).1, (j, false)), ((face j).2.nbDofs, (j, true))])

theorem open_paired {J : ℕ} {run : List (OpenGrain d n N J)} {face : Fin J → Face d e n N}
    (h : SpecSides run face) (dmg : DamagePrm) (hap : Happens J) (dt : ℕ → ℝ) (u : ℕ → ℕ → ℝ) (k : ℕ) :
    SpecPaired (SpecOpenGrains run face dmg hap dt u k)
      (List.ofFn (SpecFaceAt face dmg hap dt u k)) := by
  have hm := h.map fun x : (Fin N → ℕ) × Fin J × Bool =>
    ((x.1, (SpecLook (SpecFaceAt face dmg hap dt u k x.2.1) x.2.2).2) : Face d e n N)
  unfold SpecPaired SpecSeen SpecOpenGrains
  rw [List.flatMap_map]
  rw [List.map_flatMap, List.map_flatMap] at hm
  refine (List.Perm.of_eq ?_).trans (hm.trans (List.Perm.of_eq ?_))
  · refine List.flatMap_congr fun r _ => ?_
    rw [List.map_map, List.map_ofFn, List.map_ofFn]
    rfl
  · rw [List.ofFn_eq_map, List.flatMap_map]
    rfl

theorem open_cells {J : ℕ} (run : List (OpenGrain d n N J)) (face : Fin J → Face d e n N)
    (dmg : DamagePrm) (hap : Happens J) (dt : ℕ → ℝ) (u : ℕ → ℕ → ℝ) (k : ℕ) :
    (SpecOpenGrains run face dmg hap dt u k).map GrainCell.cell =
      SpecMesh (run.map OpenGrain.run) dt u k := by
  unfold SpecOpenGrains SpecMesh
  rw [List.map_map, List.map_map]
  rfl

/-- Maximum and damage of the records only grow, and damage stays in the unit interval. -/
theorem record_ok {J : ℕ} (face : Fin J → Face d e n N) (dmg : DamagePrm)
    (hap : Happens J) (u : ℕ → ℕ → ℝ) (j : Fin J) (k : ℕ) :
    let s := SpecRecord face dmg hap u j k
    0 ≤ s.maxOpening ∧ s.damage = (if dmg.setZero then 0 else ortiz dmg.critical s.maxOpening) := by
  induction k with
  | zero => simp [SpecRecord, Iface.new, ortiz]
  | succ k ih =>
    simp only at ih ⊢
    obtain ⟨h1, h2⟩ := step_max dmg (SpecRecord face dmg hap u j k)
      ⟨hap.trials k j, SpecOpening (face j) (u (k + 1)), hap.measured k j⟩
    unfold SpecRecord
    rw [h1, h2]
    exact ⟨ih.1.trans (le_max_left _ _), rfl⟩

theorem record_trial {J : ℕ} (face : Fin J → Face d e n N) (dmg : DamagePrm) (hap : Happens J) (dt : ℕ → ℝ)
    (u : ℕ → ℕ → ℝ) (k : ℕ) (j : Fin J) :
    (SpecFaceAt face dmg hap dt u k j).2.hist.maxOpening =
      (SpecRecord face dmg hap u j (k + 1)).maxOpening ∧
    (SpecFaceAt face dmg hap dt u k j).2.hist.damage = (SpecRecord face dmg hap u j (k + 1)).damage :=
  ⟨rfl, rfl⟩

theorem run_advanced {J : ℕ} (face : Fin J → Face d e n N) (dmg : DamagePrm) (hcrit : 0 < dmg.critical)
    (hap : Happens J) (dt : ℕ → ℝ) (u : ℕ → ℕ → ℝ) (k : ℕ) (j : Fin J) :
    SpecAdvanced (SpecFaceAt face dmg hap dt u k j) (SpecRecord face dmg hap u j k) (u (k + 1)) := by
  obtain ⟨t1, t2⟩ := record_trial face dmg hap dt u k j
  obtain ⟨h1, h2⟩ := step_max dmg (SpecRecord face dmg hap u j k)
      ⟨hap.trials k j, SpecOpening (face j) (u (k + 1)), hap.measured k j⟩
  obtain ⟨a1, a2⟩ := record_ok face dmg hap u j k
  obtain ⟨b1, b2⟩ := record_ok face dmg hap u j (k + 1)
  have e1 : (SpecRecord face dmg hap u j (k + 1)).maxOpening =
    max (SpecRecord face dmg hap u j k).maxOpening (SpecOpening (face j) (u (k + 1))) := h1
  refine ⟨?_, ?_, ?_, ?_⟩
  · rw [t1, e1]; exact le_max_left _ _
  · rw [t1, e1]; exact le_max_right _ _
  · rw [t2, a2, b2]
    split_ifs
    · exact le_rfl
    · exact ortiz_mono _ _ _ hcrit a1 (by rw [e1]; exact le_max_left _ _)
  · rw [t2, a2, b2]
    split_ifs
    · norm_num
    · exact ⟨(ortiz_range _ _ hcrit a1).1, (ortiz_range _ _ hcrit b1).2.le⟩

/-- Energy stored in a polycrystal at the beginning of step `k`. -/
noncomputable def SpecOpenEnergy {J : ℕ} (run : List (OpenGrain d n N J)) (face : Fin J → Face d e n N)
    (dmg : DamagePrm) (hap : Happens J) (u : ℕ → ℕ → ℝ) (k : ℕ) : ℝ :=
  SpecBodyEnergy (run.map OpenGrain.run) (u k) +
    ∑ j, SpecJointEnergy (face j) (SpecRecord face dmg hap u j k) (u k)

theorem jointEnergy_congr (f : Face d e n N) (h h' : Iface) (u : ℕ → ℝ) (t : ℝ) (x : Iface)
    (hm : h.maxOpening = h'.maxOpening) (hd : h.damage = h'.damage) :
    SpecJointEnergy (f.1, { f.2 with prm := { f.2.prm with dt := t }, hist := x }) h u =
      SpecJointEnergy f h' u := by
  unfold SpecJointEnergy SpecOpeningEnergy SpecSlipEnergy FacePrm.damage
  simp only [hm, hd]

/-- C83 over a run with opening grain boundaries, from undamaged boundaries: any number of steps, of any
sizes, with any supply and loads, whatever the states, the trial evaluations and the recorded openings
are. -/
theorem C83_opening_run_partial {kind : Kind n N} {J : ℕ} (run : List (OpenGrain d n N J))
    (face : Fin J → Face d e n N) (hp : SpecSides run face) (hf : ∀ j, SpecJoint kind (face j))
    (hk : ∀ r ∈ run, r.run.cell.kind = kind) (hcell : ∀ r ∈ run, SpecCell r.run.cell)
    (hmat : ∀ r ∈ run, SpecMaterial r.run.cell.prm) (dmg : DamagePrm) (hcrit : 0 < dmg.critical)
    (hap : Happens J) (dt : ℕ → ℝ) (u : ℕ → ℕ → ℝ)
    (R : ℕ → GrainCell d e n N → Fin N → ℝ) (T : ℕ) (hdt : ∀ k < T, 0 < dt k)
    (hR : ∀ k < T, SpecGrainAssembled (SpecOpenGrains run face dmg hap dt u k) (u (k + 1)) (R k)) :
    SpecOpenEnergy run face dmg hap u T + ∑ k ∈ range T,
        SpecDissipated (SpecMesh (run.map OpenGrain.run) dt u k) (u (k + 1)) ≤
      SpecOpenEnergy run face dmg hap u 0 + ∑ k ∈ range T,
        (SpecSupplyWork (SpecMesh (run.map OpenGrain.run) dt u k) (u (k + 1) - u k) +
         SpecLoadWork (SpecOpenGrains run face dmg hap dt u k) (u (k + 1) - u k) +
         SpecGrainWork (SpecOpenGrains run face dmg hap dt u k) (R k) (u (k + 1) - u k)) ∧
    ∀ k < T, 0 ≤ SpecDissipated (SpecMesh (run.map OpenGrain.run) dt u k) (u (k + 1)) := by
  have step : ∀ k < T, _ := fun k hkT =>
    C83_opening_partial (kind := kind) (SpecOpenGrains run face dmg hap dt u k)
      (SpecFaceAt face dmg hap dt u k) (fun j => SpecRecord face dmg hap u j k)
      (open_paired hp dmg hap dt u k) (fun j => { hf j with })
      (fun g hg => by obtain ⟨r, hr, rfl⟩ := List.mem_map.1 hg; exact hk r hr)
      (fun g hg => by
        obtain ⟨r, hr, rfl⟩ := List.mem_map.1 hg
        exact at_ok r.run (hcell r hr) (hmat r hr) dt u k)
      (fun g hg => by
        obtain ⟨r, hr, rfl⟩ := List.mem_map.1 hg
        exact at_material r.run (hmat r hr) dt u k (hdt k hkT))
      (u (k + 1)) (u k)
      (fun g hg q a => by obtain ⟨r, hr, rfl⟩ := List.mem_map.1 hg; rfl)
      (fun j => run_advanced face dmg hcrit hap dt u k j) (R k) (hR k hkT)
  refine ⟨?_, fun k hkT => by have := (step k hkT).2; rwa [open_cells] at this⟩
  clear hdt hR
  induction T with
  | zero => simp
  | succ T ih =>
    have h1 := ih fun k hk => step k (by omega)
    have h2 := (step T (by omega)).1
    rw [open_cells, stored_at, stored_at] at h2
    have c1 : ∀ j, SpecJointEnergy (SpecFaceAt face dmg hap dt u T j)
        (SpecFaceAt face dmg hap dt u T j).2.hist (u (T + 1)) =
        SpecJointEnergy (face j) (SpecRecord face dmg hap u j (T + 1)) (u (T + 1)) := fun j =>
      jointEnergy_congr _ _ _ _ _ _ rfl rfl
    have c2 : ∀ j, SpecJointEnergy (SpecFaceAt face dmg hap dt u T j)
        (SpecRecord face dmg hap u j T) (u T) =
        SpecJointEnergy (face j) (SpecRecord face dmg hap u j T) (u T) := fun j =>
      jointEnergy_congr _ _ _ _ _ _ rfl rfl
    simp only [c1, c2] at h2
    rw [sum_range_succ, sum_range_succ]
    unfold SpecOpenEnergy at h1 ⊢
    linarith

/-- C83 over a run of accepted steps with opening grain boundaries and constant boundary values. -/
theorem C83_opening_run_accepted_partial {kind : Kind n N} {J : ℕ} (run : List (OpenGrain d n N J))
    (face : Fin J → Face d e n N) (hp : SpecSides run face) (hf : ∀ j, SpecJoint kind (face j))
    (hk : ∀ r ∈ run, r.run.cell.kind = kind) (hcell : ∀ r ∈ run, SpecCell r.run.cell)
    (hmat : ∀ r ∈ run, SpecMaterial r.run.cell.prm) (dmg : DamagePrm) (hcrit : 0 < dmg.critical)
    (hap : Happens J) (dt : ℕ → ℝ) (u : ℕ → ℕ → ℝ)
    (R : ℕ → GrainCell d e n N → Fin N → ℝ) (T : ℕ) (hdt : ∀ k < T, 0 < dt k)
    (hR : ∀ k < T, SpecGrainAssembled (SpecOpenGrains run face dmg hap dt u k) (u (k + 1)) (R k))
    (K : Sol.Constraints ℕ) (m : ℕ) (hK : Homogeneous K m)
    (hm : ∀ r ∈ run, ∀ i, r.run.cell.dofs i < m)
    (hsat : ∀ k < T, Sol.Satisfies K (u (k + 1) - u k))
    (hconv : ∀ k < T, ∀ r < m, Lin.residual K
      ((SpecOpenGrains run face dmg hap dt u k).map fun c => c.local (R k)) r = 0) :
    SpecOpenEnergy run face dmg hap u T + ∑ k ∈ range T,
        SpecDissipated (SpecMesh (run.map OpenGrain.run) dt u k) (u (k + 1)) ≤
      SpecOpenEnergy run face dmg hap u 0 + ∑ k ∈ range T,
        (SpecSupplyWork (SpecMesh (run.map OpenGrain.run) dt u k) (u (k + 1) - u k) +
         SpecLoadWork (SpecOpenGrains run face dmg hap dt u k) (u (k + 1) - u k)) := by
  have h := (C83_opening_run_partial run face hp hf hk hcell hmat dmg hcrit hap dt u R T hdt hR).1
  refine h.trans (le_of_eq ?_)
  congr 1
  refine sum_congr rfl fun k hkT => ?_
  have hkT := mem_range.1 hkT
  rw [grain_solution_work (SpecOpenGrains run face dmg hap dt u k) hK (fun g hg => by
    obtain ⟨r, hr, rfl⟩ := List.mem_map.1 hg; exact hm r hr) (hsat k hkT) (hconv k hkT), add_zero]

/-! ## Non-vacuity -/

/-- Once a boundary has opened its rows are numbers. -/
theorem row_defined (p : FacePrm d e) (kind : Kind n N) (cc cn : Crystal d n) (nrm : Vec d) (jxw : ℝ)
    (h : Iface) (hm : h.maxOpening ≠ 0) (cur nb : Side d n N) (u un : Fin N → ℝ) (i : Fin N) :
    ∃ r, p.rhsTerm kind cc cn nrm jxw h cur nb u un i = some r := by
  have ht : ∃ t, p.coh.traction (opening cur nb u un) nrm h.maxOpening h.oldOpening p.dt = some t := by
    unfold Coh.traction
    simp only
    rcases branch (effOpening p.coh (opening cur nb u un) nrm) h.maxOpening h.oldOpening p.dt with _ | _ | _
    · exact ⟨_, rfl⟩
    · rw [if_neg hm]; exact ⟨_, rfl⟩
    · exact ⟨_, rfl⟩
  obtain ⟨t, ht⟩ := ht
  unfold FacePrm.rhsTerm
  rcases kind i with _ | a
  · simp only [ht]
    split_ifs <;> exact ⟨_, rfl⟩
  · simp only
    split_ifs <;> exact ⟨_, rfl⟩

/-- The right-hand side of a polycrystal whose boundaries have opened is defined. -/
theorem open_assembled_exists (cells : List (GrainCell d e n N))
    (hm : ∀ g ∈ cells, ∀ k, (g.views k).hist.maxOpening ≠ 0)
    (hcell : ∀ g ∈ cells, SpecCell g.cell) (hmat : ∀ g ∈ cells, SpecMaterial g.cell.prm) (u : ℕ → ℝ) :
    ∃ R, SpecGrainAssembled cells u R := by
  refine ⟨fun g i => (localRhs g.cell.prm g.cell.kind g.cell.pts g.cell.dofs g.views g.loads u i).getD 0,
    fun g hg i => ?_⟩
  choose rq hrq _ using fun q => point_power g.cell.prm (hmat g hg).index (hmat g hg).dn0.ne' g.cell.kind
    (g.cell.pts q) ((hcell g hg).primitive q) (u ∘ g.cell.dofs)
  choose y hy using fun k => row_defined (g.views k).prm g.cell.kind (g.views k).own (g.views k).other
    (g.views k).nrm (g.views k).jxw (g.views k).hist (hm g hg k) (g.views k).cur (g.views k).nb
    (u ∘ g.cell.dofs) (u ∘ (g.views k).nbDofs) i
  have : ∃ x, localRhs g.cell.prm g.cell.kind g.cell.pts g.cell.dofs g.views g.loads u i = some x := by
    unfold localRhs CellPrm.rhs
    rw [sumOpt_some _ (fun q => rq q i) fun q => hrq q i, sumOpt_some _ y hy]
    exact ⟨_, rfl⟩
  obtain ⟨x, hx⟩ := this
  show _ = some (Option.getD _ 0)
  rw [hx]
  rfl

/-- Two grains of different orientation; the boundary may open, with damage, contact and microtractions. -/
noncomputable def exOpen : Fin 1 → Face 2 1 1 2 := fun _ =>
  (fun i => i, { exView with prm := { exFace true with contact := ⟨2, 1, 1⟩ } })

theorem exOpen_ok (j : Fin 1) : SpecJoint exKind (exOpen j) := by
  refine ⟨lateral2_ok, exMeet_primitive, exMeet_primitive, ?_, ?_, ?_, ?_, ?_, ?_, ?_, ?_, ?_, ?_, ?_, ?_⟩ <;>
    norm_num [exOpen, exView, exFace, Coh.sensible]

/-- The run: loads `p` and `q` on the two cells. -/
noncomputable def exOpenRun (p q : ℕ → ℝ) : List (OpenGrain 2 1 2 1) :=
  [⟨⟨(exLeft 0).cell, fun _ _ => 0⟩, 1, fun _ => (0, false), 1, fun k _ => ⟨exMeet, ![p k, 0], 1⟩⟩,
   ⟨⟨(exRight 0).cell, fun k _ => ![0, (k : ℝ)]⟩, 1, fun _ => (0, true), 1,
     fun k _ => ⟨exMeet, ![q k, 0], 1⟩⟩]

theorem exOpen_sides (p q : ℕ → ℝ) : SpecSides (exOpenRun p q) exOpen := List.Perm.refl _

theorem exOpen_all {P : MeshCell 2 1 2 → Prop} (h : ∀ g ∈ [exLeft 0, exRight 0], P g.cell) (p q : ℕ → ℝ) :
    ∀ r ∈ exOpenRun p q, P r.run.cell := by
  intro r hr
  rcases List.mem_cons.1 hr with rfl | hr
  · exact h (exLeft 0) (by simp)
  · obtain rfl := List.mem_singleton.1 hr
    exact h (exRight 0) (by simp)

noncomputable def exDamage : DamagePrm := ⟨1, 1, 0, 1, 0, false⟩
noncomputable def exHappens : Happens 1 := ⟨fun _ _ => [.update 9, .reset], fun _ _ => 1⟩

theorem exOpen_opening (u : ℕ → ℝ) (h : 0 ≤ u 2 - u 0) : SpecOpening (exOpen 0) u = u 2 - u 0 := by
  have ho : opening exMeet exMeet (u ∘ fun i : Fin 2 => (i : ℕ)) (u ∘ fun i : Fin 2 => (i : ℕ) + 2) =
      ![u 2 - u 0, 0] := by
    funext k
    fin_cases k <;> simp [opening, Side.displacement, exMeet]
  show effOpening ⟨1, 1, 1, 1, 1⟩ (opening exMeet exMeet (u ∘ fun i : Fin 2 => (i : ℕ))
    (u ∘ fun i : Fin 2 => (i : ℕ) + 2)) ![1, 0] = _
  rw [ho, exEff _ h]

/-- After the first step, which opens the boundary, the largest opening is positive. -/
theorem exOpen_max (u : ℕ → ℕ → ℝ) (h : u 1 2 - u 1 0 = 2) (k : ℕ) :
    2 ≤ (SpecRecord exOpen exDamage exHappens u 0 (k + 1)).maxOpening := by
  induction k with
  | zero =>
    have := (step_max exDamage (SpecRecord exOpen exDamage exHappens u 0 0)
      ⟨exHappens.trials 0 0, SpecOpening (exOpen 0) (u 1), exHappens.measured 0 0⟩).1
    show 2 ≤ ((SpecRecord exOpen exDamage exHappens u 0 0).step exDamage
      ⟨exHappens.trials 0 0, SpecOpening (exOpen 0) (u 1), exHappens.measured 0 0⟩).maxOpening
    rw [this, exOpen_opening (u 1) (by rw [h]; norm_num), h]
    exact le_max_right _ _
  | succ k ih =>
    have := (step_max exDamage (SpecRecord exOpen exDamage exHappens u 0 (k + 1))
      ⟨exHappens.trials (k + 1) 0, SpecOpening (exOpen 0) (u (k + 2)), exHappens.measured (k + 1) 0⟩).1
    show 2 ≤ ((SpecRecord exOpen exDamage exHappens u 0 (k + 1)).step exDamage
      ⟨exHappens.trials (k + 1) 0, SpecOpening (exOpen 0) (u (k + 2)),
        exHappens.measured (k + 1) 0⟩).maxOpening
    rw [this]
    exact ih.trans (le_max_left _ _)

theorem exOpen_assembled (p q : ℕ → ℝ) (u : ℕ → ℕ → ℝ) (h : u 1 2 - u 1 0 = 2) (k : ℕ) :
    ∃ R, SpecGrainAssembled (SpecOpenGrains (exOpenRun p q) exOpen exDamage exHappens (fun _ => 1) u k)
      (u (k + 1)) R := by
  have hc := exOpen_all (exPoly_cell 0 0) p q
  have hm := exOpen_all (P := fun c => SpecMaterial c.prm) (exPoly_material 0 0) p q
  refine open_assembled_exists _ ?_ (fun g hg => by
        obtain ⟨r, hr, rfl⟩ := List.mem_map.1 hg
        exact at_ok r.run (hc r hr) (hm r hr) (fun _ => 1) u k)
      (fun g hg => by
        obtain ⟨r, hr, rfl⟩ := List.mem_map.1 hg
        exact at_material r.run (hm r hr) (fun _ => 1) u k one_pos) _
  intro g hg s
  have h2 := exOpen_max u h k
  have : (g.views s).hist.maxOpening = (SpecRecord exOpen exDamage exHappens u 0 (k + 1)).maxOpening := by
    obtain ⟨r, hr, rfl⟩ := List.mem_map.1 hg
    rcases List.mem_cons.1 hr with rfl | hr
    · rfl
    · obtain rfl := List.mem_singleton.1 hr
      rfl
  rw [this]
  linarith

/-- C83 over three steps in which the boundary opens by 2, closes to 1 and is pressed together. -/
example (u : ℕ → ℕ → ℝ) (h : u 1 2 - u 1 0 = 2) (_ : u 2 2 - u 2 0 = 1) (_ : u 3 2 - u 3 0 = -1)
    (_ : u 1 1 = 4) (_ : u 2 3 = 7) (p q : ℕ → ℝ) :
    ∃ R : ℕ → GrainCell 2 1 1 2 → Fin 2 → ℝ,
    (∀ k, SpecGrainAssembled (SpecOpenGrains (exOpenRun p q) exOpen exDamage exHappens (fun _ => 1) u k)
      (u (k + 1)) (R k)) ∧
    SpecOpenEnergy (exOpenRun p q) exOpen exDamage exHappens u 3 + ∑ k ∈ range 3,
        SpecDissipated (SpecMesh ((exOpenRun p q).map OpenGrain.run) (fun _ => 1) u k) (u (k + 1)) ≤
      SpecOpenEnergy (exOpenRun p q) exOpen exDamage exHappens u 0 + ∑ k ∈ range 3,
        (SpecSupplyWork (SpecMesh ((exOpenRun p q).map OpenGrain.run) (fun _ => 1) u k)
            (u (k + 1) - u k) +
         SpecLoadWork (SpecOpenGrains (exOpenRun p q) exOpen exDamage exHappens (fun _ => 1) u k)
            (u (k + 1) - u k) +
         SpecGrainWork (SpecOpenGrains (exOpenRun p q) exOpen exDamage exHappens (fun _ => 1) u k) (R k)
            (u (k + 1) - u k)) := by
  choose R hR using exOpen_assembled p q u h
  exact ⟨R, hR, (C83_opening_run_partial (exOpenRun p q) exOpen (exOpen_sides p q) exOpen_ok
    (exOpen_all (P := fun c => c.kind = exKind) (exPoly_kind 0 0) p q)
    (exOpen_all (exPoly_cell 0 0) p q)
    (exOpen_all (P := fun c => SpecMaterial c.prm) (exPoly_material 0 0) p q) exDamage one_pos exHappens
    (fun _ => 1) u R 3 (fun _ _ => one_pos) fun k _ => hR k).1⟩

/-- With suitable loads every sequence of states that opens the boundary first and holds the slips is a
run of solutions. -/
theorem exOpen_solution (u : ℕ → ℕ → ℝ) (h : u 1 2 - u 1 0 = 2) :
    ∃ (p q : ℕ → ℝ) (R : ℕ → GrainCell 2 1 1 2 → Fin 2 → ℝ),
    (∀ k, SpecGrainAssembled (SpecOpenGrains (exOpenRun p q) exOpen exDamage exHappens (fun _ => 1) u k)
      (u (k + 1)) (R k)) ∧
    ∀ k, ∀ r < 4, Lin.residual exHeld ((SpecOpenGrains (exOpenRun p q) exOpen exDamage exHappens
      (fun _ => 1) u k).map fun c => c.local (R k)) r = 0 := by
  let L : (ℕ → ℝ) → OpenGrain 2 1 2 1 := fun p =>
    ⟨⟨(exLeft 0).cell, fun _ _ => 0⟩, 1, fun _ => (0, false), 1, fun k _ => ⟨exMeet, ![p k, 0], 1⟩⟩
  let M : (ℕ → ℝ) → OpenGrain 2 1 2 1 := fun q =>
    ⟨⟨(exRight 0).cell, fun k _ => ![0, (k : ℝ)]⟩, 1, fun _ => (0, true), 1,
     fun k _ => ⟨exMeet, ![q k, 0], 1⟩⟩
  let at' : OpenGrain 2 1 2 1 → ℕ → GrainCell 2 1 1 2 := fun r k =>
    r.at exOpen exDamage exHappens (fun _ => 1) u k
  let part : OpenGrain 2 1 2 1 → ℕ → ℝ := fun r k => cellRhs (u (k + 1)) (at' r k).cell 0 +
    ∑ s, viewForce exKind ((at' r k).cell.dofs, (at' r k).views s) (u (k + 1)) 0
  let p : ℕ → ℝ := fun k => -part (L 0) k
  let q : ℕ → ℝ := fun k => -part (M 0) k
  choose R hR using exOpen_assembled p q u h
  refine ⟨p, q, R, hR, fun k r hr => ?_⟩
  have hk : ∀ g ∈ SpecOpenGrains (exOpenRun p q) exOpen exDamage exHappens (fun _ => 1) u k,
      g.cell.kind = exKind := by
    intro g hg
    obtain ⟨r, hr, rfl⟩ := List.mem_map.1 hg
    exact exOpen_all (P := fun c => c.kind = exKind) (exPoly_kind 0 0) p q r hr
  have rows := (rows_seen hk (hR k)).2
  have zl : R k (at' (L p) k) 0 = 0 := by
    rw [(rows (at' (L p) k) (List.mem_map.2 ⟨L p, by simp [exOpenRun, L], rfl⟩) 0).2]
    have h2 : ∑ b, ((at' (L p) k).loads b).side.disp 0 ⬝ᵥ ((at' (L p) k).loads b).value *
        ((at' (L p) k).loads b).jxw = p k := by
      show ∑ b : Fin 1, exMeet.disp 0 ⬝ᵥ ![p k, 0] * 1 = p k
      simp [exMeet]
    rw [h2]
    exact add_neg_cancel (part (L 0) k)
  have zr : R k (at' (M q) k) 0 = 0 := by
    rw [(rows (at' (M q) k) (List.mem_map.2 ⟨M q, by simp [exOpenRun, M], rfl⟩) 0).2]
    have h2 : ∑ b, ((at' (M q) k).loads b).side.disp 0 ⬝ᵥ ((at' (M q) k).loads b).value *
        ((at' (M q) k).loads b).jxw = q k := by
      show ∑ b : Fin 1, exMeet.disp 0 ⬝ᵥ ![q k, 0] * 1 = q k
      simp [exMeet]
    rw [h2]
    exact add_neg_cancel (part (M 0) k)
  by_cases h1 : r = 1 ∨ r = 3
  · exact residual_constrained exHeld_ok _ (by unfold exHeld; rw [if_pos h1]; simp)
  · unfold Lin.residual
    have hl : SpecOpenGrains (exOpenRun p q) exOpen exDamage exHappens (fun _ => 1) u k =
      [at' (L p) k, at' (M q) k] := rfl
    rw [hl, List.map_map, List.map_cons, List.map_singleton, List.sum_cons, List.sum_singleton]
    show ∑ i : Fin 2, Asm.weight exHeld (i : ℕ) r * R k (at' (L p) k) i +
      ∑ i : Fin 2, Asm.weight exHeld (i + 2 : ℕ) r * R k (at' (M q) k) i = 0
    rw [Fin.sum_univ_two, Fin.sum_univ_two, zl, zr]
    simp [Asm.weight, exHeld]

/-- C83 for a run of solutions in which the boundary opens, closes partly and is pressed together. -/
example (u : ℕ → ℕ → ℝ) (h : u 1 2 - u 1 0 = 2) (_ : u 2 2 - u 2 0 = 1) (_ : u 3 2 - u 3 0 = -1)
    (hs : ∀ k, u k 1 = 3 ∧ u k 3 = 5) :
    ∃ p q : ℕ → ℝ, SpecOpenEnergy (exOpenRun p q) exOpen exDamage exHappens u 3 + ∑ k ∈ range 3,
        SpecDissipated (SpecMesh ((exOpenRun p q).map OpenGrain.run) (fun _ => 1) u k) (u (k + 1)) ≤
      SpecOpenEnergy (exOpenRun p q) exOpen exDamage exHappens u 0 + ∑ k ∈ range 3,
        (SpecSupplyWork (SpecMesh ((exOpenRun p q).map OpenGrain.run) (fun _ => 1) u k)
            (u (k + 1) - u k) +
         SpecLoadWork (SpecOpenGrains (exOpenRun p q) exOpen exDamage exHappens (fun _ => 1) u k)
            (u (k + 1) - u k)) := by
  obtain ⟨p, q, R, hR, h0⟩ := exOpen_solution u h
  refine ⟨p, q, C83_opening_run_accepted_partial (exOpenRun p q) exOpen (exOpen_sides p q) exOpen_ok
    (exOpen_all (P := fun c => c.kind = exKind) (exPoly_kind 0 0) p q)
    (exOpen_all (exPoly_cell 0 0) p q)
    (exOpen_all (P := fun c => SpecMaterial c.prm) (exPoly_material 0 0) p q) exDamage one_pos exHappens
    (fun _ => 1) u R 3 (fun _ _ => one_pos) (fun k _ => hR k) exHeld 4 exHeld_ok ?_ ?_ fun k _ => h0 k⟩
  · intro r hr i
    rcases List.mem_cons.1 hr with rfl | hr
    · show (i : ℕ) < 4
      have := (i : Fin 2).2; omega
    · obtain rfl := List.mem_singleton.1 hr
      show (i : ℕ) + 2 < 4
      have := (i : Fin 2).2; omega
  · intro k _
    exact exHeld_satisfies _ (by simp [(hs (k + 1)).1, (hs k).1]) (by simp [(hs (k + 1)).2, (hs k).2])

/-- The opened boundary of the example stores energy. -/
example : 0 < SpecOpeningEnergy (exFace true) ⟨1 / 2, 2, 0, 0, 0⟩ (![1, 0] : Vec 2) ![1, 0] := by
  unfold SpecOpeningEnergy
  have h1 : effOpening (exFace true).coh (![1, 0] : Vec 2) ![1, 0] = 1 := exEff 1 zero_le_one
  rw [h1]
  have h2 : 0 < SpecSecant (exFace true).coh 2 := by
    rw [secant_exp]
    norm_num [exFace]
    exact Real.exp_pos _
  have h3 : degradation (exFace true).exponent ((exFace true).damage ⟨1 / 2, 2, 0, 0, 0⟩)
      (exFace true).coupleMacro = 1 / 2 := by
    norm_num [exFace, degradation, FacePrm.damage]
  rw [h3]
  have h4 : (exFace true).contact.penalty = 0 := rfl
  rw [h4]
  simp only [zero_div, zero_mul, mul_zero, add_zero]
  positivity

end Verif.Asm
