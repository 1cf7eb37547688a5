import Verif.Model.DimFace
import Verif.Props.Params
import Verif.Props.Face

/-!
# C80: grain boundaries in the dimensionless form
-/

namespace Verif.Prm
open Matrix Finset Verif.Cry Verif.Hist Verif.Micro Verif.Asm Verif.Itf

/-! ## The laws scale -/

theorem macaulay_scale {U : ℝ} (hU : 0 < U) (x : ℝ) :
    Itf.macaulay (U * x) = U * Itf.macaulay x := by
  unfold Itf.macaulay
  by_cases h : 0 < x
  · rw [if_pos h, if_pos (mul_pos hU h)]
  · rw [if_neg h, if_neg (fun h' => h ((mul_pos_iff_of_pos_left hU).mp h')), mul_zero]

theorem eff_scale {d : ℕ} (tc δc ratio σ U : ℝ) (hU : 0 < U) (δ n : Vec d) :
    effOpening ⟨tc, δc, ratio, 1, 1⟩ (U • δ) n = U * effOpening ⟨tc, δc, ratio, σ, U⟩ δ n := by
  unfold effOpening
  simp only [dotProduct_smul, smul_eq_mul, macaulay_scale hU, Matrix.mulVec_smul, norm2_smul,
    abs_of_pos hU]
  rw [show U * Itf.macaulay (n ⬝ᵥ δ) * (U * Itf.macaulay (n ⬝ᵥ δ)) +
      ratio * ratio * (U * norm2 (tangentialProjector n *ᵥ δ)) *
        (U * norm2 (tangentialProjector n *ᵥ δ)) =
      (U * U) * (Itf.macaulay (n ⬝ᵥ δ) * Itf.macaulay (n ⬝ᵥ δ) +
      ratio * ratio * norm2 (tangentialProjector n *ᵥ δ) * norm2 (tangentialProjector n *ᵥ δ)) by
        ring,
    Real.sqrt_mul (mul_self_nonneg U), Real.sqrt_mul_self hU.le]

theorem raw_scale {d : ℕ} (tc δc ratio σ U : ℝ) (hU : 0 < U) (δ n : Vec d) :
    rawDirection ⟨tc, δc, ratio, 1, 1⟩ (U • δ) n = U • rawDirection ⟨tc, δc, ratio, σ, U⟩ δ n := by
  unfold rawDirection
  simp only [dotProduct_smul, smul_eq_mul, macaulay_scale hU, Matrix.mulVec_smul, smul_add,
    smul_smul]
  congr 2
  ring

theorem direction_scale {d : ℕ} (tc δc ratio σ U : ℝ) (hU : 0 < U) (δ n : Vec d) :
    direction ⟨tc, δc, ratio, 1, 1⟩ (U • δ) n = direction ⟨tc, δc, ratio, σ, U⟩ δ n := by
  unfold direction
  rw [eff_scale tc δc ratio σ U hU, raw_scale tc δc ratio σ U hU]
  by_cases h : effOpening ⟨tc, δc, ratio, σ, U⟩ δ n = 0
  · have := raw_zero ⟨tc, δc, ratio, σ, U⟩ δ n h
    rw [if_neg (by rw [h]; simp), if_neg (by rw [h]; simp), this, smul_zero]
  · rw [if_pos (mul_ne_zero hU.ne' h), if_pos h, smul_smul]
    congr 1
    field_simp

theorem branch_scale {U : ℝ} (hU : 0 < U) (eff mx old dt : ℝ) :
    branch (U * eff) (U * mx) (U * old) dt = branch eff mx old dt := by
  unfold branch
  have e1 : U * eff = U * mx ↔ eff = mx := mul_right_inj' hU.ne'
  have e2 : (U * eff - U * old) / dt = U * ((eff - old) / dt) := by ring
  have e3 : 0 ≤ U * ((eff - old) / dt) ↔ 0 ≤ (eff - old) / dt := mul_nonneg_iff_of_pos_left hU
  have e4 : U * ((eff - old) / dt) < 0 ↔ (eff - old) / dt < 0 := by
    rw [← not_le, e3, not_le]
  have e5 : U * eff < U * mx ↔ eff < mx := mul_lt_mul_iff_right₀ hU
  simp only [e1, e2, e3, e4, e5]

/-- C80, cohesive law: handed characteristic stress `σ` and displacement `U`, the law at a
dimensionless opening is the physical traction at the physical opening over `σ`, for every opening,
history and time step; it is undefined exactly if the physical one is. -/
theorem C80_cohesive {d : ℕ} (tc δc ratio σ U : ℝ) (hU : 0 < U) (δ n : Vec d) (mx old dt : ℝ) :
    (⟨tc, δc, ratio, σ, U⟩ : Coh).traction δ n mx old dt =
      ((⟨tc, δc, ratio, 1, 1⟩ : Coh).traction (U • δ) n (U * mx) (U * old) dt).map (σ⁻¹ • ·) := by
  unfold Coh.traction
  simp only [eff_scale tc δc ratio σ U hU, branch_scale hU, direction_scale tc δc ratio σ U hU,
    inv_one, one_smul, one_mul, mul_eq_zero, hU.ne', false_or]
  rcases branch (effOpening ⟨tc, δc, ratio, σ, U⟩ δ n) mx old dt with _ | _ | _
  · rfl
  · by_cases h : mx = 0
    · simp only [if_pos h, Option.map_none]
    · simp only [if_neg h, Option.map_some]
      congr 3
      unfold Coh.scalar
      field_simp
  · rfl

/-- C80, contact law. -/
theorem C80_contact {d : ℕ} (penalty σ U : ℝ) (hU : 0 < U) (δ n : Vec d) :
    (⟨penalty, σ, U⟩ : Contact).traction δ n =
      σ⁻¹ • (⟨penalty, 1, 1⟩ : Contact).traction (U • δ) n := by
  unfold Contact.traction
  simp only [smul_dotProduct, smul_eq_mul, smul_neg, smul_smul]
  rw [show -(U * (δ ⬝ᵥ n)) = U * -(δ ⬝ᵥ n) by ring, macaulay_scale hU]
  congr 2
  ring

/-- C80, microtraction law: slips are dimensionless. -/
theorem C80_microtraction {d e n : ℕ} (k χ : ℝ) (lat : Vec d → Vec d → Fin e → ℝ)
    (cur nb : Crystal d n) (nrm : Vec d) (γ γn : Fin n → ℝ) (α : Fin n) :
    microtraction ⟨k, χ⟩ lat cur nb nrm γ γn α =
      χ⁻¹ * microtraction ⟨k, 1⟩ lat cur nb nrm γ γn α := by
  unfold microtraction
  simp only [div_one]
  ring

/-! ## The residual of a face -/

/-- The physical record a dimensionless one stands for: openings times the characteristic
displacement. -/
noncomputable def physIface (f : DimForm) (h : Iface) : Iface :=
  { h with maxOpening := f.q.displacement * h.maxOpening, oldOpening := f.q.displacement * h.oldOpening, tmpMax := f.q.displacement * h.tmpMax }

theorem side_displacement (f : DimForm) {d n N : ℕ} (kind : Kind n N) (s : Side d n N)
    (hs : s.Primitive kind) (u : Fin N → ℝ) :
    s.displacement (physDofs f kind u) = f.q.displacement • s.displacement u := by
  unfold Side.displacement
  rw [Finset.smul_sum]
  refine sum_congr rfl fun j _ => ?_
  unfold physDofs
  rcases hk : kind j with _ | a
  · simp only [smul_smul]
  · rw [hs.disp j a hk]; simp

theorem side_slip (f : DimForm) {d n N : ℕ} (kind : Kind n N) (s : Side d n N)
    (hs : s.Primitive kind) (u : Fin N → ℝ) : s.slip (physDofs f kind u) = s.slip u := by
  funext a
  unfold Side.slip
  refine sum_congr rfl fun j _ => ?_
  unfold physDofs
  rcases hk : kind j with _ | b
  · rw [hs.phi j a (by simp [hk])]; simp
  · rfl

/-- The grain boundary terms a program would use that passes the characteristic quantities to all
laws. -/
noncomputable def specFace {d e : ℕ} (f : DimForm) (b : BoundaryMaterial)
    (lat : Vec d → Vec d → Fin e → ℝ) (dt : ℝ) : FacePrm d e where
  dn0 := f.dn 0
  dn2 := f.dn 2
  dn3 := f.dn 3
  dt := dt
  coh := ⟨b.tc, b.δc, b.ratio, f.q.stress, f.q.displacement⟩
  contact := ⟨b.penalty, f.q.stress, f.q.displacement⟩
  exponent := b.exponent
  coupleMacro := b.coupleMacro
  coupleMicro := b.coupleMicro
  micro := ⟨b.modulus, f.q.microTraction⟩
  lat := lat
  decohesion := b.decohesion
  microtraction := b.microtraction

/-- The physical weight of a face quadrature point: length to the power `d − 1`. -/
noncomputable def physArea (f : DimForm) (d : ℕ) (jxw : ℝ) : ℝ := f.q.length ^ d / f.q.length * jxw

/-- The laws passed all characteristic quantities make the face terms of the dimensionless problem
those of the physical problem, for every state: the form itself is consistent. -/
theorem C80_form {d e n N : ℕ} (r : Reference) (hr : r.positive) (m : Material)
    (hl : 0 < m.lengthScale) (hv : 0 < m.vecResistance) (f : DimForm)
    (hf : form true r m = some f) (g : DimForm) (hg : form false r m = some g)
    (b : BoundaryMaterial) (lat : Vec d → Vec d → Fin e → ℝ) (dt : ℝ) (kind : Kind n N)
    (cc cn : Crystal d n) (nrm : Vec d) (jxw : ℝ) (h : Iface) (cur nb : Side d n N)
    (hc : cur.Primitive kind) (hn : nb.Primitive kind) (u un : Fin N → ℝ) (i : Fin N) :
    (specFace g b lat dt).rhsTerm kind cc cn nrm (physArea f d jxw) (physIface f h) cur nb
        (physDofs f kind u) (physDofs f kind un) i =
      ((specFace f b lat dt).rhsTerm kind cc cn nrm jxw h cur nb u un i).map
        (resUnit f d kind i * ·) := by
  obtain ⟨f', hf', -, hL, hU, hK, hR, he, hσ, -, -, hb, -, hχ, d0, -, d2, d3⟩ := C61_numbers r m hr
  rw [hf] at hf'
  obtain rfl := Option.some.inj hf'
  rw [C61_default r m hr] at hg
  obtain rfl := Option.some.inj hg
  obtain ⟨pL, -, pU, pK, pR⟩ := hr
  have pσ : 0 < f.q.stress := by rw [hσ]; positivity
  have pU' : 0 < f.q.displacement := by rw [hU]; exact pU
  have pχ : 0 < f.q.microTraction := by
    rw [hχ]
    have := Real.rpow_pos_of_pos pL (m.index - 1)
    have := Real.rpow_pos_of_pos hl m.index
    positivity
  unfold FacePrm.rhsTerm
  rcases hi : kind i with _ | a
  · show (if b.decohesion = true then _ else _) = Option.map _ (if b.decohesion = true then _ else _)
    by_cases hd : b.decohesion = true
    · rw [if_pos hd, if_pos hd]
      have ho : opening cur nb (physDofs f kind u) (physDofs f kind un) =
          f.q.displacement • opening cur nb u un := by
        unfold opening
        rw [side_displacement f kind cur hc, side_displacement f kind nb hn, smul_sub]
      have e2 := C80_cohesive b.tc b.δc b.ratio f.q.stress f.q.displacement pU'
        (opening cur nb u un) nrm h.maxOpening h.oldOpening dt
      have e3 := C80_contact b.penalty f.q.stress f.q.displacement pU' (opening cur nb u un) nrm
      have hcoh : (specFace (⟨false, .one, fun _ => 1⟩ : DimForm) b lat dt).coh =
        ⟨b.tc, b.δc, b.ratio, 1, 1⟩ := rfl
      have hcon : (specFace (⟨false, .one, fun _ => 1⟩ : DimForm) b lat dt).contact =
        ⟨b.penalty, 1, 1⟩ := rfl
      have hcoh' : (specFace f b lat dt).coh =
        ⟨b.tc, b.δc, b.ratio, f.q.stress, f.q.displacement⟩ := rfl
      have hcon' : (specFace f b lat dt).contact =
        ⟨b.penalty, f.q.stress, f.q.displacement⟩ := rfl
      simp only [ho, hcoh, hcon, hcoh', hcon', e3]
      show Option.map _ ((⟨b.tc, b.δc, b.ratio, 1, 1⟩ : Coh).traction _ nrm
        (f.q.displacement * h.maxOpening) (f.q.displacement * h.oldOpening) dt) =
        Option.map _ (Option.map _ ((⟨b.tc, b.δc, b.ratio, f.q.stress, f.q.displacement⟩ :
          Coh).traction _ nrm h.maxOpening h.oldOpening dt))
      rw [e2]
      rcases (⟨b.tc, b.δc, b.ratio, 1, 1⟩ : Coh).traction (f.q.displacement • opening cur nb u un)
        nrm (f.q.displacement * h.maxOpening) (f.q.displacement * h.oldOpening) dt with _ | T
      · rfl
      · simp only [Option.map_some]
        congr 1
        have hdm : (specFace (⟨false, .one, fun _ => 1⟩ : DimForm) b lat dt).damage (physIface f h) =
          (specFace f b lat dt).damage h := rfl
        have hdeg : degradation (specFace (⟨false, .one, fun _ => 1⟩ : DimForm) b lat dt).exponent
            ((specFace (⟨false, .one, fun _ => 1⟩ : DimForm) b lat dt).damage (physIface f h))
            (specFace (⟨false, .one, fun _ => 1⟩ : DimForm) b lat dt).coupleMacro =
          degradation (specFace f b lat dt).exponent ((specFace f b lat dt).damage h)
            (specFace f b lat dt).coupleMacro := rfl
        rw [hdeg]
        generalize degradation _ _ _ = D
        show (1 : ℝ) / 1 * _ * (f.q.length ^ d / f.q.length * jxw) = resUnit f d kind i *
          (f.dn 3 / f.dn 0 * _ * jxw)
        unfold resUnit
        rw [hi, d3, d0]
        simp only [dotProduct_add, dotProduct_smul, smul_eq_mul]
        rw [hL, hU, hR]
        field_simp
    · rw [if_neg hd, if_neg hd]
      simp
  · show (if b.microtraction = true then _ else _) =
      Option.map _ (if b.microtraction = true then _ else _)
    by_cases hd : b.microtraction = true
    · rw [if_pos hd, if_pos hd, side_slip f kind cur hc, side_slip f kind nb hn, Option.map_some]
      congr 1
      have hdeg : degradation (specFace (⟨false, .one, fun _ => 1⟩ : DimForm) b lat dt).exponent
            ((specFace (⟨false, .one, fun _ => 1⟩ : DimForm) b lat dt).damage (physIface f h))
            (specFace (⟨false, .one, fun _ => 1⟩ : DimForm) b lat dt).coupleMicro =
          degradation (specFace f b lat dt).exponent ((specFace f b lat dt).damage h)
            (specFace f b lat dt).coupleMicro := rfl
      rw [hdeg]
      generalize degradation _ _ _ = D
      have hm : Itf.microtraction (specFace f b lat dt).micro (specFace f b lat dt).lat cc cn nrm
          (cur.slip u) (nb.slip un) a = f.q.microTraction⁻¹ *
          Itf.microtraction ⟨b.modulus, 1⟩ lat cc cn nrm (cur.slip u) (nb.slip un) a :=
        C80_microtraction _ _ _ _ _ _ _ _ _
      rw [hm]
      show (1 : ℝ) * _ * _ * Itf.microtraction ⟨b.modulus, 1⟩ lat cc cn nrm _ _ a *
        (f.q.length ^ d / f.q.length * jxw) = resUnit f d kind i * (f.dn 2 * _ * _ * _ * jxw)
      unfold resUnit
      rw [hi, d2, hχ]
      show _ = f.q.length ^ d * f.q.slipResistance * _
      rw [hL, hR, Real.div_rpow hl.le pL.le, Real.rpow_sub_one pL.ne']
      have := (Real.rpow_pos_of_pos pL m.index).ne'
      have := (Real.rpow_pos_of_pos hl m.index).ne'
      field_simp
    · rw [if_neg hd, if_neg hd]
      simp

/-! ## What the program does -/

/-- C80: a debug build refuses every dimensionless problem with cohesive laws or microtractions and
every rate-independent problem with microtractions, and nothing else. -/
theorem C80_debug {d e : ℕ} (f : DimForm) (m : Material) (b : BoundaryMaterial)
    (lat : Vec d → Vec d → Fin e → ℝ) (dt : ℝ) :
    f.face true m b lat dt = none ↔
      (f.flag = true ∧ (b.decohesion = true ∨ b.microtraction = true)) ∨
      (m.rateIndependent = true ∧ b.microtraction = true) := by
  unfold DimForm.face
  rcases f.flag <;> rcases b.decohesion <;> rcases b.microtraction <;> rcases m.rateIndependent <;>
    simp

/-- C80: a release build refuses nothing. -/
theorem C80_release {d e : ℕ} (f : DimForm) (m : Material) (b : BoundaryMaterial)
    (lat : Vec d → Vec d → Fin e → ℝ) (dt : ℝ) : (f.face false m b lat dt).isSome := by
  unfold DimForm.face
  simp

/-- C80, exact for the slip rows of a release build: the microforces at grain boundaries are too
large by the characteristic microtraction, for every state and material. -/
theorem C80_slip_rows {d e n N : ℕ} (r : Reference) (hr : r.positive) (m : Material)
    (hl : 0 < m.lengthScale) (hv : 0 < m.vecResistance) (f : DimForm)
    (hf : form true r m = some f) (g : DimForm) (hg : form false r m = some g)
    (b : BoundaryMaterial) (lat : Vec d → Vec d → Fin e → ℝ) (dt : ℝ) (kind : Kind n N)
    (cc cn : Crystal d n) (nrm : Vec d) (jxw : ℝ) (h : Iface) (cur nb : Side d n N)
    (hc : cur.Primitive kind) (hn : nb.Primitive kind) (u un : Fin N → ℝ) (i : Fin N) (a : Fin n)
    (hi : kind i = some a) (pf pg : FacePrm d e) (hpf : f.face false m b lat dt = some pf)
    (hpg : g.face false m b lat dt = some pg) :
    ∃ P D : ℝ, pg.rhsTerm kind cc cn nrm (physArea f d jxw) (physIface f h) cur nb
        (physDofs f kind u) (physDofs f kind un) i = some P ∧
      pf.rhsTerm kind cc cn nrm jxw h cur nb u un i = some D ∧
      resUnit f d kind i * D = f.q.microTraction * P := by
  have key := C80_form r hr m hl hv f hf g hg b lat dt kind cc cn nrm jxw h cur nb hc hn u un i
  obtain ⟨f', hf', -, hL, -, -, -, -, -, -, -, -, -, hχ, -⟩ := C61_numbers r m hr
  rw [hf] at hf'
  obtain rfl := Option.some.inj hf'
  have pχ : 0 < f.q.microTraction := by
    rw [hχ]
    have := Real.rpow_pos_of_pos hr.1 (m.index - 1)
    have := Real.rpow_pos_of_pos hl m.index
    positivity
  rw [C61_default r m hr] at hg
  obtain rfl := Option.some.inj hg
  unfold DimForm.face at hpf hpg
  simp only [Bool.false_and, Bool.false_eq_true, if_false, Option.some.injEq] at hpf hpg
  subst hpf hpg
  unfold FacePrm.rhsTerm at key ⊢
  simp only [hi] at key ⊢
  by_cases hd : b.microtraction = true
  · simp only [specFace, hd, if_true, Option.map_some, Option.some.injEq] at key
    simp only [hd, if_true]
    refine ⟨_, _, rfl, rfl, ?_⟩
    rw [C80_microtraction b.modulus f.q.microTraction] at key
    have key' := congrArg (f.q.microTraction * ·) key
    refine Eq.trans ?_ key'.symm
    simp only [FacePrm.damage]
    field_simp
  · exact ⟨0, 0, by simp [hd], by simp [hd], by simp⟩

/-- C80 where it holds in a release build: with the features in use having characteristic quantities
one (microtraction: characteristic microtraction; decohesion: characteristic stress and
displacement), in particular without both features, the face terms are those of the physical
problem.  Missing: everything else (`C80_violated`). -/
theorem C80_face_partial {d e n N : ℕ} (r : Reference) (hr : r.positive) (m : Material)
    (hl : 0 < m.lengthScale) (hv : 0 < m.vecResistance) (f : DimForm)
    (hf : form true r m = some f) (g : DimForm) (hg : form false r m = some g)
    (b : BoundaryMaterial) (hmic : b.microtraction = true → f.q.microTraction = 1)
    (hdec : b.decohesion = true → f.q.stress = 1 ∧ f.q.displacement = 1)
    (lat : Vec d → Vec d → Fin e → ℝ) (dt : ℝ) (kind : Kind n N)
    (cc cn : Crystal d n) (nrm : Vec d) (jxw : ℝ) (h : Iface) (cur nb : Side d n N)
    (hc : cur.Primitive kind) (hn : nb.Primitive kind) (u un : Fin N → ℝ) (i : Fin N)
    (pf pg : FacePrm d e) (hpf : f.face false m b lat dt = some pf)
    (hpg : g.face false m b lat dt = some pg) :
    pg.rhsTerm kind cc cn nrm (physArea f d jxw) (physIface f h) cur nb
        (physDofs f kind u) (physDofs f kind un) i =
      (pf.rhsTerm kind cc cn nrm jxw h cur nb u un i).map (resUnit f d kind i * ·) := by
  have key := C80_form r hr m hl hv f hf g hg b lat dt kind cc cn nrm jxw h cur nb hc hn u un i
  rw [C61_default r m hr] at hg
  obtain rfl := Option.some.inj hg
  unfold DimForm.face at hpf hpg
  simp only [Bool.false_and, Bool.false_eq_true, if_false, Option.some.injEq] at hpf hpg
  subst hpf hpg
  unfold FacePrm.rhsTerm at key ⊢
  rcases hi : kind i with _ | a
  · simp only [hi] at key ⊢
    by_cases hd : b.decohesion = true
    · obtain ⟨h1, h2⟩ := hdec hd
      simp only [specFace, CharQ.one, h1, h2, FacePrm.damage] at key ⊢
      exact key
    · simp [hd]
  · simp only [hi] at key ⊢
    by_cases hd : b.microtraction = true
    · simp only [specFace, CharQ.one, hmic hd, FacePrm.damage] at key ⊢
      exact key
    · simp [hd]

/-! ## Witness -/

/-- Stiffness unit 2, all other units 1. -/
def exRef : Reference := ⟨1, 1, 1, 2, 1⟩

/-- An interface with unit strength, critical opening and microtraction modulus. -/
def exBoundary : BoundaryMaterial := ⟨1, 1, 1, 0, 1, true, false, 1, true, true⟩

/-- C80 is violated: a release build accepts the problem with stiffness unit 2 (all other units 1),
where the physical fields are the dimensionless ones and the unit of the residual is 1; yet the
cohesive force and the microforce of an opened grain boundary are twice those of the program
without the dimensionless form. -/
theorem C80_violated : ∃ (f g : DimForm) (pf pg : FacePrm 2 1), form true exRef exMat = some f ∧
    form false exRef exMat = some g ∧
    f.face false exMat exBoundary lateral2 1 = some pf ∧
    g.face false exMat exBoundary lateral2 1 = some pg ∧
    (∀ i, resUnit f 2 exKind i = 1) ∧ physDofs f exKind (fun _ => 1) = (fun _ => 1) ∧
    physIface f ⟨0, 1, 0, 0, 0⟩ = ⟨0, 1, 0, 0, 0⟩ ∧ physArea f 2 1 = 1 ∧
    (∀ i, ∃ x : ℝ, x ≠ 0 ∧ pg.rhsTerm exKind exGrainA exGrainB ![1, 0] 1 ⟨0, 1, 0, 0, 0⟩ exMeet exMeet
        (fun _ => 0) (fun _ => 1) i = some x ∧
      pf.rhsTerm exKind exGrainA exGrainB ![1, 0] 1 ⟨0, 1, 0, 0, 0⟩ exMeet exMeet
        (fun _ => 0) (fun _ => 1) i = some (2 * x)) := by
  have hr : exRef.positive := by unfold Reference.positive exRef; norm_num
  obtain ⟨f, hf, hflag, hL, hU, hK, hR, he, hσ, -, -, hb, -, hχ, d0, -, d2, d3⟩ :=
    C61_numbers exRef exMat hr
  have eL : f.q.length = 1 := hL
  have eU : f.q.displacement = 1 := hU
  have eR : f.q.slipResistance = 1 := hR
  have eσ : f.q.stress = 2 := by rw [hσ]; simp [exRef]
  have e0 : f.dn 0 = 1 := by rw [d0]; simp [exRef]
  have e2 : f.dn 2 = 2 := by rw [d2]; simp [exRef, exMat]
  have e3 : f.dn 3 = 2 := by rw [d3, eσ]; simp [exRef]
  have hpf : f.face false exMat exBoundary lateral2 1 =
      some { exFace true with dn2 := 2, dn3 := 2, contact := ⟨0, 2, 1⟩ } := by
    unfold DimForm.face
    simp only [Bool.false_and, Bool.false_eq_true, if_false, e0, e2, e3, eσ, eU]
    rfl
  have hpg : (⟨false, .one, fun _ => 1⟩ : DimForm).face false exMat exBoundary lateral2 1 =
      some (exFace true) := by
    unfold DimForm.face
    simp only [Bool.false_and, Bool.false_eq_true, if_false]
    rfl
  refine ⟨f, _, _, _, hf, C61_default _ _ hr, hpf, hpg, ?_, ?_, ?_, ?_, ?_⟩
  · intro i
    unfold resUnit
    rw [eL, eU, eR]
    rcases exKind i <;> norm_num
  · funext i
    unfold physDofs
    rw [eU]
    rcases exKind i <;> norm_num
  · unfold physIface
    rw [eU]; norm_num
  · unfold physArea
    rw [eL]; norm_num
  · obtain ⟨Ra, Rb, h1, -, r0, r1⟩ := exMeet_rows
    have hcon : ∀ δ n : Vec 2, (⟨0, 2, 1⟩ : Contact).traction δ n = 0 := by
      intro δ n; simp [Contact.traction]
    have hcon' : ∀ δ n : Vec 2, (⟨0, 1, 1⟩ : Contact).traction δ n = 0 := by
      intro δ n; simp [Contact.traction]
    intro i
    refine ⟨Ra i, ?_, h1 i, ?_⟩
    · fin_cases i
      · show Ra 0 ≠ 0
        rw [r0]; norm_num
      · show Ra 1 ≠ 0
        rw [r1]; norm_num
    · have hi := h1 i
      unfold FacePrm.rhsTerm at hi ⊢
      rcases hk : exKind i with _ | a
      · simp only [hk, exFace, if_true, hcon, hcon', FacePrm.damage] at hi ⊢
        rcases ht : Coh.traction ⟨1, 1, 1, 1, 1⟩ (opening exMeet exMeet (fun _ => 0) fun _ => 1)
          (![1, 0] : Vec 2) 1 0 1 with _ | t
        · rw [ht] at hi; simp at hi
        · rw [ht] at hi
          simp only [Option.map_some, Option.some.injEq] at hi ⊢
          rw [← hi]; ring
      · simp only [hk, exFace, if_true, FacePrm.damage, Option.some.injEq] at hi ⊢
        rw [← hi]; ring

/-- Non-vacuity of `C80_face_partial` and `C80_form`: length unit 1/2 and stiffness unit 1/2 make
the characteristic stress one at displacement unit one (decohesion without microtraction), the
unit of the residual is not one. -/
example : ∃ f, (⟨1 / 2, 1, 1, 1 / 2, 3⟩ : Reference).positive ∧
    form true ⟨1 / 2, 1, 1, 1 / 2, 3⟩ exMat = some f ∧ f.q.stress = 1 ∧ f.q.displacement = 1 ∧
    resUnit f 2 exKind 0 = 3 / 4 ∧ exMeet.Primitive exKind := by
  have hr : (⟨1 / 2, 1, 1, 1 / 2, 3⟩ : Reference).positive := by
    unfold Reference.positive; norm_num
  obtain ⟨f, hf, -, hL, hU, -, hR, -, hσ, -⟩ := C61_numbers _ exMat hr
  refine ⟨f, hr, hf, by rw [hσ]; norm_num, hU, ?_, exMeet_primitive⟩
  show f.q.length ^ 2 * f.q.slipResistance / f.q.displacement = _
  rw [hL, hR, hU]; norm_num

end Verif.Prm
