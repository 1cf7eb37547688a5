import Verif.Model.Quotient
import Verif.Props.Assembly

/-!
# Property of the difference quotient check: C53
-/

namespace Verif.Asm
open Matrix Finset Verif.Cry Verif.Hist Verif.Micro

variable {d n N : ℕ}

theorem plastic_finRange (sys : Fin n → System d) (γ : Fin n → ℝ) :
    plasticStrain ((List.finRange n).map fun a => (sys a, γ a)) = ∑ a, γ a • (sys a).symSchmid := by
  have : ∀ (l : List (Fin n)) (e : Mat d),
      (l.map fun a => (sys a, γ a)).foldl (fun acc p => acc + p.2 • p.1.symSchmid) e =
      e + (l.map fun a => γ a • (sys a).symSchmid).sum := by
    intro l
    induction l with
    | nil => intro e; simp
    | cons a l ih =>
      intro e
      simp only [List.map_cons, List.foldl_cons, List.sum_cons]
      rw [ih, add_assoc]
  unfold plasticStrain
  rw [this, zero_add, ← List.ofFn_eq_map, List.sum_ofFn]

/-- The stress the trial state carries, contracted. -/
theorem stress_split (c : CellPrm d n) (s : Shape d n N) (A : Mat d) (u : Fin N → ℝ) :
    ddot A (c.stressAt s u) = cc c.tetrad A c.macroStrain +
      cc c.tetrad A (s.strain u - c.dn0 • ∑ a, s.slip u a • (c.sys a).symSchmid) := by
  have : ddot A (c.stressAt s u) = cc c.tetrad A (c.elasticStrainAt s u) := rfl
  rw [this]
  unfold CellPrm.elasticStrainAt
  rw [elasticStrain_finRange, cc_add]

theorem cc_sub {d : ℕ} (c : Store4 d) (a b b' : Mat d) : cc c a (b - b') = cc c a b - cc c a b' := by
  simp only [cc_expand, Matrix.sub_apply, mul_sub, Finset.sum_sub_distrib]

theorem resolved_eq (c : CellPrm d n) (s : Shape d n N) (u : Fin N → ℝ) (a : Fin n) :
    resolvedShear (c.sys a) (c.stressAt s u) = ddot (c.sys a).symSchmid (c.stressAt s u) := by
  unfold resolvedShear
  exact ddot_comm _ _

/-- C53, exact values of the blocks that are linear in the unknowns: against the assembled entries
`A` the difference quotients carry the error `macroscopic strain / h` in every row, and lack the
factor `dn0` in the slip columns. -/
theorem C53_values (c : CellPrm d n) (h0 : c.dn0 ≠ 0) (kind : Kind n N) (p : Point d n N)
    (u : Fin N → ℝ) (h : ℝ) (hh : h ≠ 0) (i j : Fin N) (A : ℝ)
    (hA : c.matTerm kind p u i j = some A) :
    (kind i = none → kind j = none → c.dqTerm kind p u h i j = some
      (A - c.dn3 / c.dn0 * cc c.tetrad (p.shape.symGrad i) c.macroStrain * p.shape.jxw / h)) ∧
    (∀ a, kind i = some a → kind j = none → c.dqTerm kind p u h i j = some
      (A + p.shape.phi a i * c.dn3 * cc c.tetrad (c.sys a).symSchmid c.macroStrain *
        p.shape.jxw / h)) ∧
    (∀ b, kind i = none → kind j = some b → c.dqTerm kind p u h i j = some
      (A / c.dn0 - c.dn3 / c.dn0 * cc c.tetrad (p.shape.symGrad i) c.macroStrain *
        p.shape.jxw / h)) := by
  have e1 : ∀ (X P Y : Mat d), X + h • Y - c.dn0 • P = (X - c.dn0 • P) + h • Y := by
    intro X P Y; abel
  refine ⟨fun hi hj => ?_, fun a hi hj => ?_, fun b hi hj => ?_⟩
  · unfold CellPrm.matTerm at hA
    rw [hi, hj] at hA
    simp only [sandwich_eq, Option.some.injEq] at hA
    unfold CellPrm.dqTerm
    rw [hi, hj]
    simp only [sandwich_eq, plastic_finRange, e1, cc_add, cc_smul, stress_split]
    rw [← hA]
    congr 1
    field_simp
    ring
  · unfold CellPrm.matTerm at hA
    rw [hi, hj] at hA
    simp only [sandwich_eq, Option.some.injEq] at hA
    unfold CellPrm.dqTerm
    rw [hi, hj]
    simp only [sandwich_eq, plastic_finRange, e1, cc_add, cc_smul, resolved_eq, stress_split]
    rw [← hA]
    congr 1
    field_simp
    ring
  · unfold CellPrm.matTerm at hA
    rw [hi, hj] at hA
    simp only [sandwich_eq, Option.some.injEq] at hA
    unfold CellPrm.dqTerm
    rw [hi, hj]
    simp only [sandwich_eq, plastic_finRange, cc_sub, cc_smul, stress_split]
    rw [← hA]
    congr 1
    field_simp
    ring

/-- C53 without macroscopic strain, for displacement columns, or `dn0 = 1` for the slip columns of
the displacement rows: the difference quotients are the assembled entries, for every step length.
Missing: macroscopic strains and other `dn0`, where the check fails although the assembled matrix
is right (`C53_violated`). -/
theorem C53_linear_blocks_partial (c : CellPrm d n) (h0 : c.dn0 ≠ 0) (hm : c.macroStrain = 0)
    (kind : Kind n N) (p : Point d n N) (u : Fin N → ℝ) (h : ℝ) (hh : h ≠ 0) (i j : Fin N)
    (hij : kind j = none ∨ (kind i = none ∧ c.dn0 = 1)) :
    c.dqTerm kind p u h i j = c.matTerm kind p u i j := by
  have ex : (∃ A, c.matTerm kind p u i j = some A) := by
    unfold CellPrm.matTerm
    rcases hij with hj | ⟨hi, _⟩
    · rw [hj]
      rcases kind i with _ | a <;> exact ⟨_, rfl⟩
    · rw [hi]
      rcases kind j with _ | b <;> exact ⟨_, rfl⟩
  obtain ⟨A, hA⟩ := ex
  obtain ⟨v1, v2, v3⟩ := C53_values c h0 kind p u h hh i j A hA
  rw [hm, cc_zero] at v1
  simp only [hm, cc_zero] at v2 v3
  rw [hA]
  rcases hi : kind i with _ | a
  · rcases hj : kind j with _ | b
    · rw [v1 hi hj]; simp
    · rcases hij with hj' | ⟨_, h1⟩
      · rw [hj] at hj'; simp at hj'
      · rw [v3 b hi hj, h1]; simp
  · rcases hij with hj' | ⟨hi', _⟩
    · rw [v2 a hi hj']; simp
    · rw [hi] at hi'; simp at hi'

theorem abs_line {x δ : ℝ} (h : |δ| ≤ |x|) : |x + δ| - |x| = sgn x * δ := by
  rcases lt_trichotomy x 0 with hx | hx | hx
  · rw [abs_of_neg hx] at h ⊢
    rw [sgn_of_neg hx, abs_of_nonpos (by linarith [le_abs_self δ])]
    ring
  · subst hx
    simp at h
    subst h
    simp
  · rw [abs_of_pos hx] at h ⊢
    rw [sgn_of_pos hx, abs_of_nonneg (by linarith [neg_abs_le δ])]
    ring

theorem sgn_div {x y : ℝ} (hy : 0 < y) : sgn (x / y) = sgn x := by
  rcases lt_trichotomy x 0 with hx | hx | hx
  · rw [sgn_of_neg hx, sgn_of_neg (div_neg_of_neg_of_pos hx hy)]
  · subst hx; simp
  · rw [sgn_of_pos hx, sgn_of_pos (div_pos hx hy)]

/-- C53, slip block, for rate-independent behaviour and quadratic defect energy, without macroscopic
strain, `dn0 = 1`: exact for every step that does not change the sign of the slip increment. -/
theorem C53_slip_block_partial (c : CellPrm d n) (h0 : c.dn0 = 1) (hm : c.macroStrain = 0)
    (hri : c.law.rateIndependent = true) (hidx : c.vec.index = 2) (hdt : 0 < c.dt)
    (kind : Kind n N) (p : Point d n N) (hh' : p.hist.prm = c.law.hard) (u : Fin N → ℝ) (h : ℝ)
    (hh : h ≠ 0) (i j : Fin N) (a b : Fin n)
    (hi : kind i = some a) (hj : kind j = some b)
    (hsmall : |h * p.shape.phi b j| ≤ |p.shape.slip u b - p.old b|) :
    c.dqTerm kind p u h i j = c.matTerm kind p u i j := by
  obtain ⟨m, hb⟩ : ∃ m, c.vec.bracket (c.sys a) (p.shape.slipGrad u a) = some m := by
    unfold VecLaw.bracket fpow
    rw [hidx]
    norm_num
  have hJ : c.vec.jacobian (c.sys a) (p.shape.slipGrad u a) = some (c.vec.factor • m) := by
    unfold VecLaw.jacobian
    rw [hb, hidx]
    norm_num
  have hx : c.vec.microstress (c.sys a) (p.shape.slipGrad u a) =
      some ((c.vec.factor • m) *ᵥ p.shape.slipGrad u a) := by
    unfold VecLaw.microstress
    rw [hb]; rfl
  set J := c.vec.factor • m with hJdef
  have hres : pseudoResistance c.law.hard p.hist.tmp (p.shape.slip u) p.old a b
      (h * p.shape.phi b j) = (p.hist.update (p.shape.slip u) p.old).res a +
      (if c.law.hard.perfect then 0 else c.law.hard.entry (decide (a = b)) *
        (sgn (p.shape.slip u b - p.old b) * (h * p.shape.phi b j))) := by
    unfold pseudoResistance
    by_cases hp : c.law.hard.perfect = true
    · rw [if_pos hp, if_pos hp, C17_perfect _ _ _ (by rw [hh']; exact hp), add_zero]
    · rw [if_neg hp, if_neg hp, C17_hardening_law _ _ _ _ (by rw [hh']; simpa using hp), hh']
      have e : ∀ s, c.law.hard.modulus / c.law.hard.characteristic *
          (c.law.hard.parameter + if a = s then 1 - c.law.hard.parameter else 0) *
          |p.shape.slip u s + (if b = s then 1 else 0) * (h * p.shape.phi b j) - p.old s| =
          c.law.hard.modulus / c.law.hard.characteristic *
          (c.law.hard.parameter + (1 - c.law.hard.parameter) * if a = s then 1 else 0) *
          |p.shape.slip u s - p.old s| + (if b = s then c.law.hard.entry (decide (a = b)) *
            (sgn (p.shape.slip u b - p.old b) * (h * p.shape.phi b j)) else 0) := by
        intro s
        by_cases hs : b = s
        · subst hs
          rw [if_pos rfl, if_pos rfl, ← abs_line hsmall, ← entry_eq]
          have : p.shape.slip u b + 1 * (h * p.shape.phi b j) - p.old b =
            p.shape.slip u b - p.old b + h * p.shape.phi b j := by ring
          rw [this]
          split_ifs <;> ring
        · rw [if_neg hs, if_neg hs]
          simp only [zero_mul, add_zero]
          split_ifs <;> ring
      rw [Finset.sum_congr rfl fun s _ => e s, Finset.sum_add_distrib, Finset.sum_ite_eq]
      simp only [mem_univ, if_true]
      ring
  have hsig : pseudoSigmoid c.law (p.shape.slip u) p.old c.dt a b (h * p.shape.phi b j) =
      sgn ((p.shape.slip u a - p.old a) / c.dt) := by
    unfold pseudoSigmoid
    simp [hri]
  have hmic : c.law.evalMicrostress p.hist (p.shape.slip u) p.old c.dt a =
      (p.hist.update (p.shape.slip u) p.old).res a *
        sgn ((p.shape.slip u a - p.old a) / c.dt) := by
    unfold Law.evalMicrostress Law.microstress
    simp [hri]
  have hjac : c.law.evalJacobian p.hist (p.shape.slip u) p.old c.dt a b =
      if c.law.hard.perfect then 0 else c.law.hard.entry (decide (a = b)) *
        (sgn ((p.shape.slip u a - p.old a) / c.dt) * sgn (p.shape.slip u b - p.old b)) := by
    unfold Law.evalJacobian Law.jacobian
    simp [hri, sgn_div hdt]
  unfold CellPrm.dqTerm CellPrm.matTerm
  rw [hi, hj]
  simp only [hJ, hx, Option.bind_some, Option.map_some, hres, hsig, hmic, hjac, sandwich_eq,
    plastic_finRange, cc_sub, cc_smul, resolved_eq, stress_split, hm, cc_zero, h0]
  by_cases hab : a = b
  · rw [if_pos hab]
    subst hab
    simp only [if_true, dotProduct_add, dotProduct_smul, ← dotProduct_mulVec, smul_eq_mul]
    congr 1
    split_ifs <;> field_simp <;> ring
  · rw [if_neg hab, if_neg hab]
    simp only [mul_zero, zero_smul, add_zero, ← dotProduct_mulVec]
    congr 1
    split_ifs <;> field_simp <;> ring

theorem slip_single (s : Shape d n N) (j : Fin N) (a : Fin n) :
    s.slip (Pi.single j 1) a = s.phi a j := by
  unfold Shape.slip
  rw [Finset.sum_eq_single j (fun x _ hx => by rw [Pi.single_eq_of_ne hx, zero_mul])
    (fun hx => absurd (mem_univ j) hx), Pi.single_eq_same, one_mul]

theorem slipGrad_single (s : Shape d n N) (j : Fin N) (a : Fin n) :
    s.slipGrad (Pi.single j 1) a = s.grad a j := by
  unfold Shape.slipGrad
  rw [Finset.sum_eq_single j (fun x _ hx => by rw [Pi.single_eq_of_ne hx, zero_smul])
    (fun hx => absurd (mem_univ j) hx), Pi.single_eq_same, one_smul]

theorem strain_single (s : Shape d n N) (j : Fin N) :
    s.strain (Pi.single j 1) = s.symGrad j := by
  unfold Shape.strain
  rw [Finset.sum_eq_single j (fun x _ hx => by rw [Pi.single_eq_of_ne hx, zero_smul])
    (fun hx => absurd (mem_univ j) hx), Pi.single_eq_same, one_smul]

/-- C53, every block, for rate-dependent behaviour and quadratic defect energy, without macroscopic
strain, `dn0 = 1`: for every step length `h ≠ 0`, whatever the state and however large the step, the
entry is the difference quotient of the assembled right-hand side (up to its sign, the residual is
minus the right-hand side) between the trial solution and the trial solution with unknown `j`
increased by `h`.  Missing: macroscopic strains and other `dn0` (`C53_violated`), other defect
energy indices, and rate-independent behaviour, where the sign is deliberately not perturbed
(`C53_slip_block_partial`). -/
theorem C53_quotient_partial (c : CellPrm d n) (h0 : c.dn0 = 1) (hm : c.macroStrain = 0)
    (hrd : c.law.rateIndependent = false) (hidx : c.vec.index = 2)
    (kind : Kind n N) (p : Point d n N) (hs : p.shape.Primitive kind)
    (hh' : p.hist.prm = c.law.hard) (u : Fin N → ℝ) (h : ℝ) (_hh : h ≠ 0) (i j : Fin N) :
    ∃ R0 R1 : ℝ, c.rhsTerm kind p u i = some R0 ∧
      c.rhsTerm kind p (u + h • Pi.single j 1) i = some R1 ∧
      c.dqTerm kind p u h i j = some (-(R1 - R0) / h) := by
  rcases hi : kind i with _ | a
  · have e : ∀ v, c.rhsTerm kind p v i = some (-(c.dn3 / c.dn0 *
      (ddot (p.shape.symGrad i) (c.stressAt p.shape v) - p.shape.disp i ⬝ᵥ p.supply) *
        p.shape.jxw)) := by
      intro v; unfold CellPrm.rhsTerm; rw [hi]
    refine ⟨_, _, e _, e _, ?_⟩
    rw [stress_line]
    unfold CellPrm.dqTerm
    rw [hi]
    rcases hj : kind j with _ | b
    · have z : ∀ a, p.shape.phi a j = 0 := fun a => hs.phi j a (by rw [hj]; simp)
      simp only [sandwich_eq, plastic_finRange, cc_sub, cc_add, cc_smul, stress_split, hm, cc_zero,
        h0, slip_single, strain_single, z, zero_mul, Finset.sum_const_zero]
      congr 1
      ring
    · have z : (∑ a, p.shape.phi a j * cc c.tetrad (p.shape.symGrad i) (c.sys a).symSchmid) =
          p.shape.phi b j * cc c.tetrad (p.shape.symGrad i) (c.sys b).symSchmid :=
        sum_phi p.shape hs _ hj
      simp only [sandwich_eq, plastic_finRange, cc_sub, cc_add, cc_smul, stress_split, hm, cc_zero,
        h0, slip_single, strain_single, z, hs.symGrad j b hj]
      congr 1
      ring
  · obtain ⟨m, hb⟩ : ∃ m, ∀ g, c.vec.bracket (c.sys a) g = some m := by
      unfold VecLaw.bracket fpow
      rw [hidx]
      norm_num
    have hJ : ∀ g, c.vec.jacobian (c.sys a) g = some (c.vec.factor • m) := by
      intro g
      unfold VecLaw.jacobian
      rw [hb, hidx]
      norm_num
    have hx : ∀ g, c.vec.microstress (c.sys a) g = some ((c.vec.factor • m) *ᵥ g) := by
      intro g
      unfold VecLaw.microstress
      rw [hb]; rfl
    set J := c.vec.factor • m with hJdef
    have e : ∀ v, c.rhsTerm kind p v i = some (-((c.dn2 * (p.shape.grad a i ⬝ᵥ
          (J *ᵥ p.shape.slipGrad v a)) -
        p.shape.phi a i * (c.dn3 * resolvedShear (c.sys a) (c.stressAt p.shape v) -
          c.law.evalMicrostress p.hist (p.shape.slip v) p.old c.dt a)) * p.shape.jxw)) := by
      intro v; unfold CellPrm.rhsTerm; rw [hi]
      simp only [hx, Option.map_some]
    refine ⟨_, _, e _, e _, ?_⟩
    rw [resolved_eq, resolved_eq, stress_line, slipGrad_line, slipGrad_single]
    unfold CellPrm.dqTerm
    rw [hi]
    rcases hj : kind j with _ | b
    · have z : ∀ a, p.shape.phi a j = 0 := fun a => hs.phi j a (by rw [hj]; simp)
      have hsl : p.shape.slip (u + h • Pi.single j 1) = p.shape.slip u := by
        funext a
        rw [slip_line, slip_single, z, mul_zero, add_zero]
      rw [hsl, hs.grad j a (by rw [hj]; simp)]
      simp only [sandwich_eq, plastic_finRange, cc_sub, cc_add, cc_smul, resolved_eq, stress_split,
        hm, cc_zero, h0, slip_single, strain_single, z, zero_mul, Finset.sum_const_zero, smul_zero,
        add_zero]
      congr 1
      ring
    · have z : (∑ a', p.shape.phi a' j * cc c.tetrad (c.sys a).symSchmid (c.sys a').symSchmid) =
          p.shape.phi b j * cc c.tetrad (c.sys a).symSchmid (c.sys b).symSchmid :=
        sum_phi p.shape hs _ hj
      have hphi : ∀ s, p.shape.phi s j = (if b = s then 1 else 0) * p.shape.phi b j := by
        intro s
        by_cases hbs : b = s
        · rw [if_pos hbs, hbs, one_mul]
        · rw [if_neg hbs, zero_mul]
          exact hs.phi j s (by rw [hj]; intro e; exact hbs (Option.some.inj e))
      have hsl : ∀ s, p.shape.slip (u + h • Pi.single j 1) s =
          p.shape.slip u s + (if b = s then 1 else 0) * (h * p.shape.phi b j) := by
        intro s
        rw [slip_line, slip_single, hphi s]; ring
      have hres : pseudoResistance c.law.hard p.hist.tmp (p.shape.slip u) p.old a b
          (h * p.shape.phi b j) =
          (p.hist.update (p.shape.slip (u + h • Pi.single j 1)) p.old).res a := by
        unfold pseudoResistance
        by_cases hp : c.law.hard.perfect = true
        · rw [if_pos hp, C17_perfect _ _ _ (by rw [hh']; exact hp)]
        · rw [if_neg hp, C17_hardening_law _ _ _ _ (by rw [hh']; simpa using hp), hh']
          congr 1
          refine sum_congr rfl fun s _ => ?_
          rw [hsl s]
          congr 2
          split_ifs <;> ring
      have hsig : pseudoSigmoid c.law (p.shape.slip u) p.old c.dt a b (h * p.shape.phi b j) =
          reg c.law.f c.law.k
            ((p.shape.slip (u + h • Pi.single j 1) a - p.old a) / c.dt) := by
        unfold pseudoSigmoid
        simp only [hrd, Bool.false_eq_true, if_false, one_mul]
        rw [(C27_sigmoid_is_reg _ _ _).1, hsl a]
        congr 4
        by_cases hab : a = b
        · rw [if_pos hab, if_pos hab.symm]
        · rw [if_neg hab, if_neg (Ne.symm hab)]
      have hmic : ∀ v, c.law.evalMicrostress p.hist (p.shape.slip v) p.old c.dt a =
          (p.hist.update (p.shape.slip v) p.old).res a *
            reg c.law.f c.law.k ((p.shape.slip v a - p.old a) / c.dt) := by
        intro v
        unfold Law.evalMicrostress Law.microstress
        simp [hrd]
      have hgrad : p.shape.grad a j = (if a = b then (1 : ℝ) else 0) • p.shape.grad b j := by
        by_cases hab : a = b
        · rw [if_pos hab, hab, one_smul]
        · rw [if_neg hab, zero_smul]
          exact hs.grad j a (by rw [hj]; intro e; exact hab (Option.some.inj e).symm)
      simp only [hJ, hx, Option.bind_some, Option.map_some]
      rw [hres, hsig, hmic, hmic, hgrad]
      simp only [sandwich_eq, plastic_finRange, cc_sub, cc_add, cc_smul, resolved_eq, stress_split,
        hm, cc_zero, h0, slip_single, strain_single, z, hs.symGrad j b hj,
        dotProduct_add, ← dotProduct_mulVec, smul_smul, mulVec_add, mulVec_smul, dotProduct_smul,
        smul_eq_mul]
      congr 1
      ring

/-! ### Witnesses -/

theorem cc_stress (c : CellPrm d n) (a b : Mat d) :
    cc c.tetrad a b = ddot a (c.elastic.stress c.rot b) := rfl

theorem ex_cc (c : CellPrm 2 1) (he : c.elastic = ⟨3, 1, 1, 1⟩) (hr : c.rot = 1) (x y z : ℝ) :
    cc c.tetrad !![1, 2; 2, 0] !![x, y; y, z] = 3 * x + z + 8 * y := by
  rw [cc_stress, he, hr]
  unfold ddot
  simp only [stress_eq, Fin.sum_univ_two, SpecCubic]
  simp
  ring

/-- C53 is violated: (1) under a macroscopic strain the quotient of the displacement block is off by
a term that *grows* as the step length decreases; (2) with `dn0 ≠ 1` the quotient of the coupling
block is off by the factor `dn0` for every step length.  The assembled matrix is the exact
derivative in both (C50). -/
theorem C53_violated (h : ℝ) (hh : h ≠ 0) :
    (∃ A B : ℝ, ({ exCell true 7 with macroStrain := !![1, 0; 0, 0] } : CellPrm 2 1).matTerm exKind
        (exPoint 7) (fun _ => 1) 0 0 = some A ∧
      ({ exCell true 7 with macroStrain := !![1, 0; 0, 0] } : CellPrm 2 1).dqTerm exKind
        (exPoint 7) (fun _ => 1) h 0 0 = some B ∧ A - B = 15 / 4 / h) ∧
    (∃ A B : ℝ, (exCell true 7).matTerm exKind (exPoint 7) (fun _ => 1) 0 1 = some A ∧
      (exCell true 7).dqTerm exKind (exPoint 7) (fun _ => 1) h 0 1 = some B ∧ A = -10 ∧ B = -5) := by
  constructor
  · have hA : ({ exCell true 7 with macroStrain := !![1, 0; 0, 0] } : CellPrm 2 1).matTerm exKind
        (exPoint 7) (fun _ => 1) 0 0 = some _ := rfl
    refine ⟨_, _, hA, (C53_values _ (by norm_num [exCell]) exKind (exPoint 7) (fun _ => 1) h hh 0 0
      _ hA).1 rfl rfl, ?_⟩
    have := ex_cc ({ exCell true 7 with macroStrain := !![1, 0; 0, 0] } : CellPrm 2 1) rfl rfl 1 0 0
    rw [sub_sub_cancel]
    simp only [exPoint, exShape, if_true]
    rw [this]
    norm_num [exCell]
  · have hA : (exCell true 7).matTerm exKind (exPoint 7) (fun _ => 1) 0 1 = some _ := rfl
    have val : -((exCell true 7).dn3 / (exCell true 7).dn0 * (exCell true 7).dn0 *
      sandwich ((exPoint 7).shape.symGrad 0) (exCell true 7).tetrad ((exCell true 7).sys 0).symSchmid *
        (exPoint 7).shape.phi 0 1 * (exPoint 7).shape.jxw) = -10 := by
      have e : ((exCell true 7).sys 0).symSchmid = !![0, 1 / 2; 1 / 2, 0] := by
        ext a b
        fin_cases a <;> fin_cases b <;>
          norm_num [exCell, System.symSchmid, System.schmid, symmetrize, outer]
      rw [sandwich_eq, e]
      have := ex_cc (exCell true 7) rfl rfl 0 (1 / 2) 0
      simp only [exPoint, exShape, if_true]
      rw [this]
      norm_num [exCell]
    refine ⟨_, _, hA, (C53_values _ (by norm_num [exCell]) exKind (exPoint 7) (fun _ => 1) h hh 0 1
      _ hA).2.2 0 rfl rfl, val, ?_⟩
    have hm : (exCell true 7).macroStrain = 0 := rfl
    rw [hm, cc_zero]
    change -((exCell true 7).dn3 / (exCell true 7).dn0 * (exCell true 7).dn0 *
      sandwich ((exPoint 7).shape.symGrad 0) (exCell true 7).tetrad ((exCell true 7).sys 0).symSchmid *
        (exPoint 7).shape.phi 0 1 * (exPoint 7).shape.jxw) / _ - _ = _
    rw [val]
    norm_num [exCell]

/-- Non-vacuity of the slip block: `dn0 = 1`, slip 1 from 0, step length 1/2. -/
example : ({ exCell true 7 with dn0 := 1 } : CellPrm 2 1).dqTerm exKind (exPoint 7) (fun _ => 1)
      (1 / 2) 1 1 =
    ({ exCell true 7 with dn0 := 1 } : CellPrm 2 1).matTerm exKind (exPoint 7) (fun _ => 1) 1 1 :=
  C53_slip_block_partial _ rfl rfl rfl rfl one_pos exKind (exPoint 7) rfl (fun _ => 1) (1 / 2)
    (by norm_num) 1 1 0 0 rfl rfl (by
      simp [exPoint, exShape, Shape.slip, Fin.sum_univ_two]
      norm_num)

/-- Non-vacuity of `C53_quotient_partial`: a rate-dependent hardening material, a step that reverses
the slip increment. -/
example : ∃ R0 R1 : ℝ,
    ({ exCell false 7 with dn0 := 1 } : CellPrm 2 1).rhsTerm exKind (exPoint 7) (fun _ => 1) 1 =
      some R0 ∧
    ({ exCell false 7 with dn0 := 1 } : CellPrm 2 1).rhsTerm exKind (exPoint 7)
      ((fun _ => 1) + (-2 : ℝ) • Pi.single 1 1) 1 = some R1 ∧
    ({ exCell false 7 with dn0 := 1 } : CellPrm 2 1).dqTerm exKind (exPoint 7) (fun _ => 1) (-2) 1 1 =
      some (-(R1 - R0) / (-2)) :=
  C53_quotient_partial _ rfl rfl rfl rfl exKind (exPoint 7) exShape_primitive rfl (fun _ => 1) (-2)
    (by norm_num) 1 1

end Verif.Asm
