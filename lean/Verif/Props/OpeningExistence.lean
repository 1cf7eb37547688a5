import Verif.Props.OutwardZero
import Verif.Props.BodyOutward
import Verif.Props.GrainExistence
import Verif.Props.Decohesion
import Verif.Props.RunDetermined

/-! # Every time step has a solution, with opening grain boundaries and for any hardening : C129

C118 and C121 need the bound of C84 on the hardening and grain boundaries that do not open. Existence alone needs neither:
the incremental energy grows quadratically in all directions because the records of hardening and damage are frozen within
the step (assembly.cc 1100-1270, quadrature_point_history.cc), so the equations of every step have a solution. -/

namespace Verif.Asm
open Matrix Finset Verif.Cry Verif.Hist Verif.Micro Verif.Lin Verif.Itf Verif.Mono

variable {d e n N : ℕ}

/-- What a polycrystal whose grain boundaries may open, its mesh and its time steps have to meet. -/
structure SpecOpenRun {J : ℕ} (kind : Kind n N) (run : List (OpenGrain d n N J)) (face : Fin J → Face d e n N)
    (dmg : DamagePrm) (dt : ℕ → ℝ) (K : Sol.Constraints ℕ) (m : ℕ) : Prop where
  sides : SpecSides run face
  joint : ∀ j, SpecJoint kind (face j)
  kinds : ∀ r ∈ run, r.run.cell.kind = kind
  cell : ∀ r ∈ run, SpecCell r.run.cell
  material : ∀ r ∈ run, SpecMaterial r.run.cell.prm
  rate : ∀ r ∈ run, r.run.cell.prm.law.rateIndependent = false
  critical : 0 < dmg.critical
  step : ∀ k, 0 < dt k
  homogeneous : Homogeneous K m
  dofs : ∀ r ∈ run, ∀ i, r.run.cell.dofs i < m
  determined : SpecDetermined (run.map fun r => r.run.cell) K m

/-- The records at the start of step `k` cannot lead to the division 0/0 of C39: every boundary that may open has opened
before, or no opening is recorded for it. -/
def SpecRecords {J : ℕ} (face : Fin J → Face d e n N) (dmg : DamagePrm) (hap : Happens J) (u : ℕ → ℕ → ℝ) (k : ℕ) : Prop :=
  ∀ j, (face j).2.prm.decohesion = true →
    0 < (SpecRecord face dmg hap u j k).maxOpening ∨ (SpecRecord face dmg hap u j k).oldOpening ≤ 0

/-- Rows that depend continuously on the unknowns and point outwards far away vanish somewhere. -/
theorem find_root {K : Sol.Constraints ℕ} {m : ℕ}
    (rows : EuclideanSpace ℝ (Fin m) → ℕ → ℝ) (hcont : ∀ r : Fin m, K r = none → Continuous fun w => rows w r)
    (hzero : ∀ w (r : Fin m), K r ≠ none → rows w r = 0) {a C : ℝ} (ha : 0 < a) (hC : 0 ≤ C)
    (hout : ∀ w : EuclideanSpace ℝ (Fin m), 1 ≤ ‖w‖ → a * ‖w‖ ^ 2 - C * (1 + ‖w‖) ≤
      -∑ g ∈ range m, Sol.distribute K (ext w) g * rows w g + pinned K w) :
    ∃ w, ‖w‖ ≤ 1 + 2 * (C + 1) / a ∧ ∀ r < m, rows w r = 0 := by
  let F : Sp m → Sp m := fun w => WithLp.toLp 2 fun r => if (K r).isNone then -rows w r else w r
  have hF : Continuous F := by
    refine (PiLp.continuous_toLp 2 _).comp (continuous_pi fun r => ?_)
    cases hk : K r with
    | none =>
      simp only [Option.isNone_none, if_true]
      exact (hcont r hk).neg
    | some l =>
      simp only [Option.isNone_some, Bool.false_eq_true, if_false]
      exact PiLp.continuous_apply 2 _ r
  have hin : ∀ w : Sp m, inner ℝ (F w) w = -∑ g ∈ range m, Sol.distribute K (ext w) g * rows w g + pinned K w := by
    intro w
    rw [PiLp.inner_apply, sum_range]
    unfold pinned
    rw [neg_add_eq_sub, ← sum_sub_distrib]
    refine sum_congr rfl fun r _ => ?_
    simp only [F, RCLike.inner_apply, conj_trivial]
    cases hk : K r with
    | none =>
      rw [Sol.distribute_free hk, ext_fin]
      simp
    | some l =>
      rw [hzero w r (by rw [hk]; simp)]
      simp
      ring
  have hR : 0 < 1 + 2 * (C + 1) / a := by positivity
  obtain ⟨w, hle, hw⟩ := outward_zero F hF (1 + 2 * (C + 1) / a) hR fun w hw => by
    rw [hin]
    have h1 : 1 ≤ ‖w‖ := by rw [hw]; have : 0 ≤ 2 * (C + 1) / a := by positivity
                            linarith
    refine lt_of_lt_of_le ?_ (hout w h1)
    have h2 : a * ‖w‖ = a + 2 * (C + 1) := by rw [hw]; field_simp
    nlinarith
  refine ⟨w, hle, fun r hr => ?_⟩
  by_cases hk : K r = none
  · have := congrArg (fun z : Sp m => z ⟨r, hr⟩) hw
    simp only [F, hk, Option.isNone_none, if_true, PiLp.zero_apply] at this
    linarith
  · exact hzero w ⟨r, hr⟩ hk

/-! ## Faces -/

/-- A face whose record is updated with the opening of the state `x`. -/
noncomputable def faceNow (f : Face d e n N) (dmg : DamagePrm) (H : Iface) (t : ℝ) (x : ℕ → ℝ) : Face d e n N :=
  (f.1, { f.2 with prm := { f.2.prm with dt := t }, hist := H.updateOrtiz dmg (SpecOpening f x) })

theorem macaulay_continuous : Continuous Itf.macaulay := by
  have : Itf.macaulay = fun x => max x 0 := by
    funext x
    unfold Itf.macaulay
    split_ifs with h
    · rw [max_eq_left h.le]
    · rw [max_eq_right (not_lt.1 h)]
  rw [this]
  fun_prop

section
variable {X : Type*} [TopologicalSpace X]

theorem disp_continuous (s : Side d n N) {u : X → Fin N → ℝ} (hu : ∀ j, Continuous fun x => u x j) :
    Continuous fun x => s.displacement (u x) := by
  unfold Side.displacement
  exact continuous_finsetSum _ fun j _ => (hu j).smul continuous_const

theorem sideSlip_continuous (s : Side d n N) {u : X → Fin N → ℝ} (hu : ∀ j, Continuous fun x => u x j) (a : Fin n) :
    Continuous fun x => s.slip (u x) a := by
  unfold Side.slip
  exact continuous_finsetSum _ fun j _ => (hu j).mul continuous_const

theorem dot_continuous (v : Vec d) {δ : X → Vec d} (h : Continuous δ) : Continuous fun x => v ⬝ᵥ δ x := by
  unfold dotProduct
  exact continuous_finsetSum _ fun j _ => continuous_const.mul ((continuous_apply j).comp h)

theorem mulVec_continuous (M : Mat d) {δ : X → Vec d} (h : Continuous δ) : Continuous fun x => M *ᵥ δ x :=
  continuous_pi fun i => dot_continuous (M i) h

theorem eff_continuous (c : Coh) (nrm : Vec d) {δ : X → Vec d} (h : Continuous δ) :
    Continuous fun x => effOpening c (δ x) nrm := by
  have h1 := macaulay_continuous.comp (dot_continuous nrm h)
  have h2 : Continuous fun x => norm2 (tangentialProjector nrm *ᵥ δ x) := by
    have := mulVec_continuous (tangentialProjector nrm) h
    unfold norm2 dotProduct
    exact Real.continuous_sqrt.comp (continuous_finsetSum _ fun j _ =>
      ((continuous_apply j).comp this).mul ((continuous_apply j).comp this))
  unfold effOpening
  simp only
  exact Real.continuous_sqrt.comp ((h1.mul h1).add ((continuous_const.mul h2).mul h2))

theorem raw_continuous (c : Coh) (nrm : Vec d) {δ : X → Vec d} (h : Continuous δ) :
    Continuous fun x => rawDirection c (δ x) nrm := by
  unfold rawDirection
  exact ((macaulay_continuous.comp (dot_continuous nrm h)).smul continuous_const).add
    ((mulVec_continuous _ h).fun_const_smul _)

theorem contact_continuous (c : Contact) (nrm : Vec d) {δ : X → Vec d} (h : Continuous δ) :
    Continuous fun x => c.traction (δ x) nrm := by
  unfold Contact.traction
  have h1 : Continuous fun x => Itf.macaulay (-(δ x ⬝ᵥ nrm)) := by
    refine macaulay_continuous.comp ?_
    simp only [dotProduct_comm _ nrm]
    exact (dot_continuous nrm h).neg
  exact ((continuous_const.mul h1).smul continuous_const).neg

theorem damage_continuous (p : DamagePrm) (H : Iface) {o : X → ℝ} (h : Continuous o) :
    Continuous (fun x => (H.updateOrtiz p (o x)).maxOpening) ∧ Continuous fun x => (H.updateOrtiz p (o x)).damage := by
  have hm : Continuous fun x => max H.tmpMax (o x) := continuous_const.max h
  refine ⟨hm, ?_⟩
  unfold Iface.updateOrtiz
  simp only
  split_ifs
  · exact continuous_const
  · have hr : Continuous fun x => max H.tmpMax (o x) / p.critical := hm.div_const _
    exact continuous_const.sub ((continuous_const.add hr).mul (Real.continuous_exp.comp hr.neg))

end

/-- Traction of the face in the state `x`. -/
noncomputable def tractionNow (f : Face d e n N) (dmg : DamagePrm) (H : Iface) (x : ℕ → ℝ) : Vec d :=
  degradation f.2.prm.exponent (f.2.prm.damage (H.updateOrtiz dmg (SpecOpening f x))) f.2.prm.coupleMacro •
      (SpecSecant f.2.prm.coh (H.updateOrtiz dmg (SpecOpening f x)).maxOpening •
        rawDirection f.2.prm.coh (opening f.2.cur f.2.nb (x ∘ f.1) (x ∘ f.2.nbDofs)) f.2.nrm) +
    f.2.prm.contact.traction (opening f.2.cur f.2.nb (x ∘ f.1) (x ∘ f.2.nbDofs)) f.2.nrm

theorem traction_now (f : Face d e n N) (dmg : DamagePrm) (H : Iface) {t : ℝ} (ht : 0 < t) (x : ℕ → ℝ)
    (hok : 0 < H.tmpMax ∨ H.oldOpening ≤ 0) :
    SpecTraction { f.2.prm with dt := t } (H.updateOrtiz dmg (SpecOpening f x))
      (opening f.2.cur f.2.nb (x ∘ f.1) (x ∘ f.2.nbDofs)) f.2.nrm = some (tractionNow f dmg H x) := by
  set h := H.updateOrtiz dmg (SpecOpening f x) with hh
  set δ := opening f.2.cur f.2.nb (x ∘ f.1) (x ∘ f.2.nbDofs) with hδ
  have hle : effOpening f.2.prm.coh δ f.2.nrm ≤ h.maxOpening := le_max_right _ _
  rcases hs : f.2.prm.coh.traction δ f.2.nrm h.maxOpening h.oldOpening t with _ | s
  · exfalso
    obtain ⟨h1, h2⟩ := (traction_none_iff _ _ _ _ _ _ ht hle).1 hs
    rcases hok with h3 | h3
    · have : H.tmpMax ≤ h.maxOpening := le_max_left _ _
      linarith
    · have : h.oldOpening = H.oldOpening := rfl
      linarith
  · have := traction_secant hle hs
    unfold SpecTraction
    show Option.map _ (f.2.prm.coh.traction δ f.2.nrm h.maxOpening h.oldOpening t) = _
    rw [hs, Option.map_some, this]
    rfl

theorem disp_row (p : FacePrm d e) (hd : p.decohesion = true) (kind : Kind n N) (cc cn : Crystal d n) (nrm : Vec d)
    (jxw : ℝ) (h : Iface) (cur nb : Side d n N) (u un : Fin N → ℝ) {i : Fin N} (hk : kind i = none) {τ : Vec d}
    (ht : SpecTraction p h (opening cur nb u un) nrm = some τ) :
    p.rhsTerm kind cc cn nrm jxw h cur nb u un i = some (p.dn3 / p.dn0 * (cur.disp i ⬝ᵥ τ) * jxw) := by
  unfold SpecTraction at ht
  obtain ⟨s, hs, hs'⟩ := Option.map_eq_some_iff.1 ht
  unfold FacePrm.rhsTerm
  simp only [hk, hd, if_true]
  rw [hs, Option.map_some, ← hs']

theorem degradation_continuous {X : Type*} [TopologicalSpace X] {q : ℝ} (hq : 0 ≤ q) (b : Bool) {D : X → ℝ}
    (h : Continuous D) : Continuous fun x => degradation q (D x) b := by
  unfold degradation
  cases b
  · simpa using continuous_const
  · simp only [if_true]
    exact (continuous_const.sub h).rpow_const fun _ => Or.inr hq

theorem prmDamage_continuous {X : Type*} [TopologicalSpace X] (p : FacePrm d e) {h : X → Iface}
    (hd : Continuous fun x => (h x).damage) : Continuous fun x => p.damage (h x) := by
  unfold FacePrm.damage
  split_ifs
  · exact hd
  · exact continuous_const

theorem secant_continuous {X : Type*} [TopologicalSpace X] (c : Coh) {o : X → ℝ} (h : Continuous o) :
    Continuous fun x => SpecSecant c (o x) := by
  simp only [secant_exp]
  exact continuous_const.mul (continuous_const.mul (Real.continuous_exp.comp
    (continuous_const.sub ((continuous_const.mul h).div_const _))))

section
variable {X : Type*} [TopologicalSpace X] {f : Face d e n N} {u : X → ℕ → ℝ}
  (hu : ∀ j, Continuous fun x => u x (f.1 j)) (hv : ∀ j, Continuous fun x => u x (f.2.nbDofs j))
include hu hv

theorem jump_continuous : Continuous fun x => opening f.2.cur f.2.nb (u x ∘ f.1) (u x ∘ f.2.nbDofs) := by
  unfold opening
  exact (disp_continuous _ (u := fun x => u x ∘ f.2.nbDofs) hv).sub (disp_continuous _ (u := fun x => u x ∘ f.1) hu)

theorem specOpening_continuous : Continuous fun x => SpecOpening f (u x) :=
  eff_continuous _ _ (jump_continuous hu hv)

theorem tractionNow_continuous (hq : 0 ≤ f.2.prm.exponent) (dmg : DamagePrm) (H : Iface) :
    Continuous fun x => tractionNow f dmg H (u x) := by
  have ho := specOpening_continuous hu hv
  obtain ⟨h1, h2⟩ := damage_continuous dmg H ho
  have hj := jump_continuous hu hv
  unfold tractionNow
  exact ((degradation_continuous hq _ (prmDamage_continuous _ h2)).smul
    ((secant_continuous _ h1).smul (raw_continuous _ _ hj))).add (contact_continuous _ _ hj)

/-- The rows of a face depend continuously on the state, seen from either side, and are numbers. -/
theorem now_continuous (kind : Kind n N) (hq : 0 ≤ f.2.prm.exponent) (dmg : DamagePrm) (H : Iface) {t : ℝ} (ht : 0 < t)
    (hok : f.2.prm.decohesion = true → 0 < H.tmpMax ∨ H.oldOpening ≤ 0) (second : Bool) (i : Fin N) :
    (∀ x, let g := SpecLook (faceNow f dmg H t (u x)) second
      g.2.prm.rhsTerm kind g.2.own g.2.other g.2.nrm g.2.jxw g.2.hist g.2.cur g.2.nb (u x ∘ g.1) (u x ∘ g.2.nbDofs) i =
        some (viewForce kind g (u x) i)) ∧
    Continuous fun x => viewForce kind (SpecLook (faceNow f dmg H t (u x)) second) (u x) i := by
  have key : ∃ r : X → ℝ, Continuous r ∧ ∀ x, let g := SpecLook (faceNow f dmg H t (u x)) second
      g.2.prm.rhsTerm kind g.2.own g.2.other g.2.nrm g.2.jxw g.2.hist g.2.cur g.2.nb (u x ∘ g.1) (u x ∘ g.2.nbDofs) i =
        some (r x) := by
    have ho := specOpening_continuous hu hv
    obtain ⟨-, h2⟩ := damage_continuous dmg H ho
    rcases hk : kind i with _ | a
    · rcases hd : f.2.prm.decohesion with _ | _
      · refine ⟨fun _ => 0, continuous_const, fun x => ?_⟩
        cases second <;>
        · unfold FacePrm.rhsTerm SpecLook
          simp [hk, faceNow, Face.flip, View.flip, hd]
      · have hc := tractionNow_continuous hu hv hq dmg H
        cases second with
        | false =>
          refine ⟨fun x => f.2.prm.dn3 / f.2.prm.dn0 * (f.2.cur.disp i ⬝ᵥ tractionNow f dmg H (u x)) * f.2.jxw,
            (continuous_const.mul (dot_continuous _ hc)).mul continuous_const, fun x => ?_⟩
          have h3 := traction_now f dmg H ht (u x) (hok hd)
          exact disp_row { f.2.prm with dt := t } hd kind _ _ _ _ _ _ _ _ _ hk h3
        | true =>
          refine ⟨fun x => f.2.prm.dn3 / f.2.prm.dn0 * (f.2.nb.disp i ⬝ᵥ -tractionNow f dmg H (u x)) * f.2.jxw,
            (continuous_const.mul (dot_continuous _ hc.neg)).mul continuous_const, fun x => ?_⟩
          have h3 := traction_now f dmg H ht (u x) (hok hd)
          have h4 := traction_flip { f.2.prm with dt := t } (H.updateOrtiz dmg (SpecOpening f (u x)))
            (opening f.2.cur f.2.nb (u x ∘ f.1) (u x ∘ f.2.nbDofs)) f.2.nrm
          rw [h3, ← opening_swap, Option.map_some] at h4
          exact disp_row { f.2.prm with dt := t } hd kind _ _ _ _ _ _ _ _ _ hk h4
    · rcases hm : f.2.prm.microtraction with _ | _
      · refine ⟨fun _ => 0, continuous_const, fun x => ?_⟩
        cases second <;>
        · unfold FacePrm.rhsTerm SpecLook
          simp [hk, faceNow, Face.flip, View.flip, hm]
      · have hg := degradation_continuous hq f.2.prm.coupleMicro (prmDamage_continuous f.2.prm h2)
        have s1 := fun a => sideSlip_continuous f.2.cur (u := fun x => u x ∘ f.1) hu a
        have s2 := fun a => sideSlip_continuous f.2.nb (u := fun x => u x ∘ f.2.nbDofs) hv a
        have mc : ∀ (c c' : Crystal d n) (m : Vec d) (g g' : X → Fin n → ℝ), (∀ a, Continuous fun x => g x a) →
            (∀ a, Continuous fun x => g' x a) →
            Continuous fun x => Itf.microtraction f.2.prm.micro f.2.prm.lat c c' m (g x) (g' x) a := by
          intro c c' m g g' h h'
          unfold Itf.microtraction
          exact (continuous_finsetSum _ fun b _ => (continuous_const.mul (h b)).sub (continuous_const.mul (h' b))).mul
            continuous_const
        cases second with
        | false =>
          refine ⟨_, ((continuous_const (y := f.2.prm.dn2 * f.2.cur.phi a i)).mul hg).mul
            (mc f.2.own f.2.other f.2.nrm _ _ s1 s2) |>.mul (continuous_const (y := f.2.jxw)), fun x => ?_⟩
          unfold FacePrm.rhsTerm SpecLook
          simp only [hk, faceNow, hm, if_true, Bool.false_eq_true, if_false]
          rfl
        | true =>
          refine ⟨_, ((continuous_const (y := f.2.prm.dn2 * f.2.nb.phi a i)).mul hg).mul
            (mc f.2.other f.2.own (-f.2.nrm) _ _ s2 s1) |>.mul (continuous_const (y := f.2.jxw)), fun x => ?_⟩
          unfold FacePrm.rhsTerm SpecLook
          simp only [hk, faceNow, Face.flip, View.flip, hm, if_true]
          rfl
  obtain ⟨r, hr, hx⟩ := key
  have e : ∀ x, viewForce kind (SpecLook (faceNow f dmg H t (u x)) second) (u x) i = r x := by
    intro x
    unfold viewForce
    have := hx x
    simp only at this
    rw [this]
    rfl
  refine ⟨fun x => ?_, by simpa only [e] using hr⟩
  have := hx x
  simp only at this ⊢
  rw [e x, this]

end

/-! ## Energy of the faces -/

theorem openingEnergy_nonneg (p : FacePrm d e) (hc : p.coh.sensible)
    (hK : 0 ≤ p.contact.penalty / p.contact.charStress * p.contact.charDisp) (h : Iface)
    (hg : 0 ≤ degradation p.exponent (p.damage h) p.coupleMacro) (δ nrm : Vec d) : 0 ≤ SpecOpeningEnergy p h δ nrm := by
  have := secant_nonneg hc h.maxOpening
  unfold SpecOpeningEnergy
  positivity

theorem jointEnergy_nonneg {kind : Kind n N} {f : Face d e n N} (hf : SpecJoint kind f) {old : Iface} {u : ℕ → ℝ}
    (ha : SpecAdvanced f old u) : 0 ≤ SpecJointEnergy f f.2.hist u := by
  obtain ⟨d1, d2, d3⟩ := damage_bounds ha
  have g1 := fun b => (degradation_bounds hf.exponent d1 d2 d3 b).1
  have h1 := hf.penalty; have h2 := hf.contactStress; have h3 := hf.contactDisp
  have h4 := hf.dn0; have h5 := hf.dn2; have h6 := hf.dn3; have h7 := hf.weight
  have h8 := hf.modulus; have h9 := hf.char
  unfold SpecJointEnergy
  refine add_nonneg ?_ ?_
  · split_ifs
    · exact mul_nonneg (by positivity) (openingEnergy_nonneg _ hf.coh (by positivity) _ (g1 _) _ _)
    · exact le_rfl
  · split_ifs
    · rw [slipEnergy_eq]
      have := g1 f.2.prm.coupleMicro
      have := faceForm_self_nonneg f u
      positivity
    · exact le_rfl

/-! ## The polycrystal of a step -/

section
variable {J : ℕ}

theorem record_congr' (face : Fin J → Face d e n N) (dmg : DamagePrm) {hap hap' : Happens J} {u v : ℕ → ℕ → ℝ} (j : Fin J)
    (k : ℕ) (h : ∀ i ≤ k, u i = v i) (ht : hap.trials = hap'.trials) (hm : ∀ i < k, hap.measured i = hap'.measured i) :
    SpecRecord face dmg hap u j k = SpecRecord face dmg hap' v j k := by
  induction k with
  | zero => rfl
  | succ k ih =>
    unfold SpecRecord
    rw [ih (fun i hi => h i (by omega)) (fun i hi => hm i (by omega)), h (k + 1) le_rfl, ht, hm k (by omega)]

theorem record_congr (face : Fin J → Face d e n N) (dmg : DamagePrm) (hap : Happens J) {u v : ℕ → ℕ → ℝ} (j : Fin J)
    (k : ℕ) (h : ∀ i ≤ k, u i = v i) : SpecRecord face dmg hap u j k = SpecRecord face dmg hap v j k :=
  record_congr' face dmg j k h rfl fun _ _ => rfl

/-- What the record of a face is updated from in step `k`. -/
noncomputable def recordNow (face : Fin J → Face d e n N) (dmg : DamagePrm) (hap : Happens J) (u : ℕ → ℕ → ℝ) (k : ℕ)
    (j : Fin J) : Iface := (hap.trials k j).foldl (Iface.op dmg) (SpecRecord face dmg hap u j k).store

theorem faceAt_now (face : Fin J → Face d e n N) (dmg : DamagePrm) (hap : Happens J) (dt : ℕ → ℝ) (u : ℕ → ℕ → ℝ)
    (k : ℕ) (x : ℕ → ℝ) (j : Fin J) :
    SpecFaceAt face dmg hap dt (Function.update u (k + 1) x) k j =
      faceNow (face j) dmg (recordNow face dmg hap u k j) (dt k) x := by
  unfold SpecFaceAt faceNow recordNow
  rw [Function.update_self, record_congr face dmg hap j k fun i hi =>
    Function.update_of_ne (show i ≠ k + 1 by omega) x u]

/-- A cell of step `k` in the state `x`. -/
noncomputable def grainNow (face : Fin J → Face d e n N) (dmg : DamagePrm) (hap : Happens J) (dt : ℕ → ℝ)
    (u : ℕ → ℕ → ℝ) (k : ℕ) (x : ℕ → ℝ) (r : OpenGrain d n N J) : GrainCell d e n N :=
  ⟨r.run.at dt u k, r.F, fun s =>
    (SpecLook (faceNow (face (r.sees s).1) dmg (recordNow face dmg hap u k (r.sees s).1) (dt k) x) (r.sees s).2).2,
    r.B, r.loads k⟩

/-- The polycrystal of step `k` in the state `x`. -/
noncomputable def grainsNow (run : List (OpenGrain d n N J)) (face : Fin J → Face d e n N)
    (dmg : DamagePrm) (hap : Happens J) (dt : ℕ → ℝ) (u : ℕ → ℕ → ℝ) (k : ℕ) (x : ℕ → ℝ) : List (GrainCell d e n N) :=
  run.map (grainNow face dmg hap dt u k x)

theorem grains_now (run : List (OpenGrain d n N J)) (face : Fin J → Face d e n N)
    (dmg : DamagePrm) (hap : Happens J) (dt : ℕ → ℝ) (u : ℕ → ℕ → ℝ) (k : ℕ) (x : ℕ → ℝ) :
    SpecOpenGrains run face dmg hap dt (Function.update u (k + 1) x) k = grainsNow run face dmg hap dt u k x := by
  unfold SpecOpenGrains grainsNow
  refine List.map_congr_left fun r _ => ?_
  unfold OpenGrain.at grainNow
  simp only [faceAt_now]
  rw [at_congr r.run dt (v := u) k fun j hj i => by rw [Function.update_of_ne (by omega)]]

theorem openGrains_congr (run : List (OpenGrain d n N J)) (face : Fin J → Face d e n N)
    (dmg : DamagePrm) {hap hap' : Happens J} (dt : ℕ → ℝ) {u v : ℕ → ℕ → ℝ} (k : ℕ) (h : ∀ i ≤ k + 1, u i = v i)
    (ht : hap.trials = hap'.trials) (hm : ∀ i < k, hap.measured i = hap'.measured i) :
    SpecOpenGrains run face dmg hap dt u k = SpecOpenGrains run face dmg hap' dt v k := by
  have he : ∀ j, SpecFaceAt face dmg hap dt u k j = SpecFaceAt face dmg hap' dt v k j := fun j => by
    unfold SpecFaceAt
    rw [record_congr' face dmg j k (fun i hi => h i (by omega)) ht hm, h (k + 1) le_rfl, ht]
  unfold SpecOpenGrains
  refine List.map_congr_left fun r _ => ?_
  unfold OpenGrain.at
  simp only [he]
  rw [at_congr r.run dt k fun j hj i => by rw [h j (by omega)]]

theorem localRhs_some (g : GrainCell d e n N) {kind : Kind n N} (hk : g.cell.kind = kind) (u : ℕ → ℝ) (i : Fin N) {a : ℝ}
    (h1 : g.cell.prm.rhs g.cell.kind g.cell.pts (u ∘ g.cell.dofs) i = some a) {y : Fin g.F → ℝ}
    (h2 : ∀ s, (g.views s).prm.rhsTerm kind (g.views s).own (g.views s).other (g.views s).nrm (g.views s).jxw
      (g.views s).hist (g.views s).cur (g.views s).nb (u ∘ g.cell.dofs) (u ∘ (g.views s).nbDofs) i = some (y s)) :
    ∃ z, localRhs g.cell.prm g.cell.kind g.cell.pts g.cell.dofs g.views g.loads u i = some z := by
  subst hk
  unfold localRhs
  rw [h1, Option.bind_some, sumOpt_some _ _ h2]
  exact ⟨_, rfl⟩

/-- Both sides of a face are degrees of freedom of cells. -/
theorem face_dofs {run : List (OpenGrain d n N J)} {face : Fin J → Face d e n N} (hp : SpecSides run face) {m : ℕ}
    (hm : ∀ r ∈ run, ∀ i, r.run.cell.dofs i < m) (j : Fin J) :
    (∀ i, (face j).1 i < m) ∧ ∀ i, (face j).2.nbDofs i < m := by
  have back : ∀ x ∈ [((face j).1, (j, false)), ((face j).2.nbDofs, (j, true))], ∀ i, x.1 i < m := by
    intro x hx i
    obtain ⟨r, hr, h2⟩ := List.mem_flatMap.1 (hp.mem_iff.2 (List.mem_flatMap.2 ⟨j, List.mem_finRange j, hx⟩))
    obtain ⟨y, -, rfl⟩ := List.mem_map.1 h2
    exact hm r hr i
  exact ⟨back ((face j).1, (j, false)) (by simp), back ((face j).2.nbDofs, (j, true)) (by simp)⟩

theorem sees_dofs {run : List (OpenGrain d n N J)} {face : Fin J → Face d e n N} (hp : SpecSides run face)
    {r : OpenGrain d n N J} (hr : r ∈ run) (s : Fin r.F) :
    r.run.cell.dofs = if (r.sees s).2 then (face (r.sees s).1).2.nbDofs else (face (r.sees s).1).1 := by
  have hmem : (r.run.cell.dofs, r.sees s) ∈ run.flatMap fun r => (List.ofFn r.sees).map fun s => (r.run.cell.dofs, s) :=
    List.mem_flatMap.2 ⟨r, hr, List.mem_map.2 ⟨_, List.mem_ofFn.2 ⟨s, rfl⟩, rfl⟩⟩
  obtain ⟨j, -, h⟩ := List.mem_flatMap.1 (hp.mem_iff.1 hmem)
  rcases List.mem_cons.1 h with h | h
  · have h1 := congrArg Prod.fst h
    have h2 := congrArg Prod.snd h
    simp only at h1 h2
    rw [h1, h2]; rfl
  · rw [List.mem_singleton] at h
    have h1 := congrArg Prod.fst h
    have h2 := congrArg Prod.snd h
    simp only at h1 h2
    rw [h1, h2]; rfl


variable {kind : Kind n N} {run : List (OpenGrain d n N J)} {face : Fin J → Face d e n N} {dmg : DamagePrm} {dt : ℕ → ℝ}
  {K : Sol.Constraints ℕ} {m : ℕ} (h : SpecOpenRun kind run face dmg dt K m)
include h

omit h in
theorem now_ok (hap : Happens J) {u : ℕ → ℕ → ℝ} {k : ℕ} (hc : SpecRecords face dmg hap u k) (j : Fin J) :
    (face j).2.prm.decohesion = true →
      0 < (recordNow face dmg hap u k j).tmpMax ∨ (recordNow face dmg hap u k j).oldOpening ≤ 0 := by
  intro hd
  have e1 := Iface.ops_tmp dmg (SpecRecord face dmg hap u j k).store (hap.trials k j)
  obtain ⟨-, e2, e3⟩ := e1
  unfold recordNow
  rw [e2, e3]
  exact hc j hd

theorem now_view (hap : Happens J) {u : ℕ → ℕ → ℝ} {k : ℕ} (hc : SpecRecords face dmg hap u k)
    {r : OpenGrain d n N J} (hr : r ∈ run) (s : Fin r.F) {X : Type*} [TopologicalSpace X] {x : X → ℕ → ℝ}
    (hx : ∀ g < m, Continuous fun w => x w g) (i : Fin N) :
    let f := fun w => ((r.run.cell.dofs, (SpecLook (faceNow (face (r.sees s).1) dmg
      (recordNow face dmg hap u k (r.sees s).1) (dt k) (x w)) (r.sees s).2).2) : Face d e n N)
    (∀ w, (f w).2.prm.rhsTerm kind (f w).2.own (f w).2.other (f w).2.nrm (f w).2.jxw (f w).2.hist (f w).2.cur (f w).2.nb
      (x w ∘ (f w).1) (x w ∘ (f w).2.nbDofs) i = some (viewForce kind (f w) (x w) i)) ∧
    Continuous fun w => viewForce kind (f w) (x w) i := by
  obtain ⟨d1, d2⟩ := face_dofs h.sides h.dofs (r.sees s).1
  have he : ∀ w, ((r.run.cell.dofs, (SpecLook (faceNow (face (r.sees s).1) dmg
      (recordNow face dmg hap u k (r.sees s).1) (dt k) (x w)) (r.sees s).2).2) : Face d e n N) =
      SpecLook (faceNow (face (r.sees s).1) dmg (recordNow face dmg hap u k (r.sees s).1) (dt k) (x w)) (r.sees s).2 := by
    intro w
    have := sees_dofs h.sides hr s
    rw [this]
    cases (r.sees s).2 <;> rfl
  have key := now_continuous (fun j => hx _ (d1 j)) (fun j => hx _ (d2 j)) kind (h.joint _).exponent dmg _ (h.step k)
    (now_ok hap hc (r.sees s).1) (r.sees s).2 i
  refine ⟨fun w => ?_, ?_⟩
  · have h1 := key.1 w
    simp only at h1
    rw [← he w] at h1
    exact h1
  · have e2 : (fun w => viewForce kind ((r.run.cell.dofs, (SpecLook (faceNow (face (r.sees s).1) dmg
      (recordNow face dmg hap u k (r.sees s).1) (dt k) (x w)) (r.sees s).2).2) : Face d e n N) (x w) i) =
      fun w => viewForce kind (SpecLook (faceNow (face (r.sees s).1) dmg
        (recordNow face dmg hap u k (r.sees s).1) (dt k) (x w)) (r.sees s).2) (x w) i := funext fun w => by rw [he w]
    show Continuous (fun w => viewForce kind ((r.run.cell.dofs, (SpecLook (faceNow (face (r.sees s).1) dmg
      (recordNow face dmg hap u k (r.sees s).1) (dt k) (x w)) (r.sees s).2).2) : Face d e n N) (x w) i)
    rw [e2]
    exact key.2

theorem now_assembled (hap : Happens J) {u : ℕ → ℕ → ℝ} {k : ℕ} (hc : SpecRecords face dmg hap u k) (x : ℕ → ℝ) :
    SpecGrainAssembled (grainsNow run face dmg hap dt u k x) x (grainForces x) := by
  intro g hg i
  have : ∃ y, localRhs g.cell.prm g.cell.kind g.cell.pts g.cell.dofs g.views g.loads x i = some y := by
    obtain ⟨r, hr, rfl⟩ := List.mem_map.1 hg
    have hm := at_material r.run (h.material r hr) dt u k (h.step k)
    have hs := at_ok r.run (h.cell r hr) (h.material r hr) dt u k
    have h1 := forces_assembled [r.run.at dt u k] (by simpa using hs) (by simpa using hm) x (r.run.at dt u k) (by simp) i
    have h2 := fun s => (now_view h hap hc hr s (X := Unit) (x := fun _ => x) (fun _ _ => continuous_const) i).1 ()
    exact localRhs_some (grainNow face dmg hap dt u k x r) (h.kinds r hr) x i h1 h2
  obtain ⟨y, hy⟩ := this
  unfold grainForces
  rw [hy]; rfl

theorem now_continuous_row (hap : Happens J) {u : ℕ → ℕ → ℝ} {k : ℕ} (hc : SpecRecords face dmg hap u k)
    {E : Type*} [NormedAddCommGroup E] {x : E → ℕ → ℝ} (hx : ∀ g < m, LL fun w => x w g) (g : ℕ) :
    Continuous fun w => Lin.residual K ((grainsNow run face dmg hap dt u k (x w)).map fun c =>
      c.local (grainForces (x w))) g := by
  have he : ∀ w, Lin.residual K ((grainsNow run face dmg hap dt u k (x w)).map fun c => c.local (grainForces (x w))) g =
      (run.map fun r => ∑ i, weight K (r.run.cell.dofs i) g *
        grainForces (x w) (grainNow face dmg hap dt u k (x w) r) i).sum := by
    intro w
    unfold Lin.residual grainsNow
    rw [List.map_map, List.map_map]
    rfl
  simp only [he]
  refine continuous_list_sum run fun r hr => continuous_finsetSum _ fun i _ => continuous_const.mul ?_
  have row : ∀ w, _ := fun w => ((rows_seen (kind := kind) (fun g hg => by
    obtain ⟨r, hr, rfl⟩ := List.mem_map.1 hg; exact h.kinds r hr) (now_assembled h hap hc (x w))).2 _
      (List.mem_map.2 ⟨r, hr, rfl⟩) i).2
  simp only [row]
  refine Continuous.add (Continuous.add ?_ ?_) (show Continuous fun _ : E => ∑ b : Fin r.B,
    ((r.loads k b).side.disp i ⬝ᵥ (r.loads k b).value) * (r.loads k b).jxw from continuous_const)
  · exact (rhs_ll (r.run.at dt u k) (at_material r.run (h.material r hr) dt u k (h.step k)) (h.rate r hr)
      (u := fun w => x w ∘ r.run.cell.dofs) (fun j => hx _ (h.dofs r hr j)) i).continuous
  · show Continuous fun w => ∑ s : Fin r.F, viewForce kind ((r.run.cell.dofs, (SpecLook (faceNow (face (r.sees s).1) dmg
      (recordNow face dmg hap u k (r.sees s).1) (dt k) (x w)) (r.sees s).2).2) : Face d e n N) (x w) i
    refine continuous_finsetSum _ fun s _ => ?_
    exact (now_view h hap hc hr s (fun g hg => (hx g hg).continuous) i).2


/-- Loads grow linearly. -/
theorem now_load (hap : Happens J) (u : ℕ → ℕ → ℝ) (k : ℕ) {x : EuclideanSpace ℝ (Fin m) → ℕ → ℝ}
    (D : EuclideanSpace ℝ (Fin m) → ℕ → ℝ) (hD : ∀ g < m, Grows fun w => D w g) :
    Grows fun w => SpecLoadWork (grainsNow run face dmg hap dt u k (x w)) (D w) := by
  have e : ∀ w, SpecLoadWork (grainsNow run face dmg hap dt u k (x w)) (D w) =
      (run.map fun r => ∑ b, (r.loads k b).jxw * ((r.loads k b).side.displacement (D w ∘ r.run.cell.dofs) ⬝ᵥ
        (r.loads k b).value)).sum := by
    intro w
    unfold SpecLoadWork grainsNow
    rw [List.map_map]
    rfl
  simp only [e]
  refine Grows.listsum run fun r hr => Grows.finsum _ fun b _ => Grows.cmul _ ?_
  unfold Side.displacement
  simp only [sum_dotProduct, smul_dotProduct, smul_eq_mul]
  exact Grows.finsum _ fun j _ => (hD _ (h.dofs r hr j)).mulc _

/-- The faces take energy, but for what they held before the step. -/
theorem now_faces (hap : Happens J) {u : ℕ → ℕ → ℝ} {k : ℕ} (hc : SpecRecords face dmg hap u k) (x x₀ : ℕ → ℝ) :
    -∑ j, SpecJointEnergy (face j) (SpecRecord face dmg hap u j k) x₀ ≤
      ((List.ofFn fun j => faceNow (face j) dmg (recordNow face dmg hap u k j) (dt k) x).map fun f =>
        ∑ i, (x - x₀) (f.1 i) * -viewForce kind f x i + ∑ i, (x - x₀) (f.flip.1 i) * -viewForce kind f.flip x i).sum := by
  rw [List.map_ofFn, List.sum_ofFn, ← sum_neg_distrib]
  refine sum_le_sum fun j _ => ?_
  have hadv : SpecAdvanced (faceNow (face j) dmg (recordNow face dmg hap u k j) (dt k) x)
      (SpecRecord face dmg hap u j k) x := by
    have := run_advanced face dmg h.critical hap dt (Function.update u (k + 1) x) k j
    rw [faceAt_now, Function.update_self, record_congr face dmg hap (v := u) j k fun i hi =>
      Function.update_of_ne (show i ≠ k + 1 by omega) x u] at this
    exact this
  have hjoint : SpecJoint kind (faceNow (face j) dmg (recordNow face dmg hap u k j) (dt k) x) := { h.joint j with }
  obtain ⟨d1, d2⟩ := face_dofs h.sides h.dofs j
  have rows := fun b i => (now_continuous (X := Unit) (f := face j) (u := fun _ => x) (fun _ => continuous_const)
    (fun _ => continuous_const) kind (h.joint j).exponent dmg (recordNow face dmg hap u k j) (h.step k)
    (now_ok hap hc j) b i).1 ()
  have := joint_work kind _ hjoint (SpecRecord face dmg hap u j k) x x₀ hadv _ _ (rows false) (rows true)
  have h1 := jointEnergy_nonneg hjoint hadv
  have h2 : SpecJointEnergy (faceNow (face j) dmg (recordNow face dmg hap u k j) (dt k) x)
      (SpecRecord face dmg hap u j k) x₀ = SpecJointEnergy (face j) (SpecRecord face dmg hap u j k) x₀ :=
    jointEnergy_congr _ _ _ _ _ _ rfl rfl
  rw [h2] at this
  simp only [Function.comp_apply]
  exact le_trans (by linarith) this

/-- Every step has a solution. -/
theorem open_step (hap : Happens J) {u : ℕ → ℕ → ℝ} {k : ℕ} (hc : SpecRecords face dmg hap u k) (x₀ : ℕ → ℝ) :
    ∃ x, Sol.Satisfies K (x - x₀) ∧
      SpecGrainSolution (SpecOpenGrains run face dmg hap dt (Function.update u (k + 1) x) k) K m x := by
  have hK := h.homogeneous
  have hcells : ∀ x, (grainsNow run face dmg hap dt u k x).map GrainCell.cell = SpecMesh (run.map OpenGrain.run) dt u k := by
    intro x
    unfold grainsNow SpecMesh
    rw [List.map_map, List.map_map]
    rfl
  have hmesh : ∀ c ∈ SpecMesh (run.map OpenGrain.run) dt u k, ∃ r ∈ run, c = r.run.at dt u k := by
    intro c hc
    obtain ⟨a, ha, rfl⟩ := List.mem_map.1 hc
    obtain ⟨r, hr, rfl⟩ := List.mem_map.1 ha
    exact ⟨r, hr, rfl⟩
  obtain ⟨a, ha, C, hC0, hC⟩ := body_outward (SpecMesh (run.map OpenGrain.run) dt u k)
    (fun c hc => by obtain ⟨r, hr, rfl⟩ := hmesh c hc; exact at_ok r.run (h.cell r hr) (h.material r hr) dt u k)
    (fun c hc => by obtain ⟨r, hr, rfl⟩ := hmesh c hc; exact at_material r.run (h.material r hr) dt u k (h.step k))
    hK (fun c hc => by obtain ⟨r, hr, rfl⟩ := hmesh c hc; exact h.dofs r hr)
    (fun w hw he => by
      rw [mesh_elastic, mesh_defect, List.map_map] at he
      exact h.determined w hw he) x₀
  have hdofs : ∀ x, ∀ c ∈ grainsNow run face dmg hap dt u k x, ∀ i, c.cell.dofs i < m := by
    intro x c hc
    obtain ⟨r, hr, rfl⟩ := List.mem_map.1 hc
    exact h.dofs r hr
  obtain ⟨L, hL0, hL⟩ := now_load h hap u k (x := fun w => state K x₀ w) (fun w => Sol.distribute K (ext w))
    (fun g hg => distribute_grows hK hg)
  set E := ∑ j, SpecJointEnergy (face j) (SpecRecord face dmg hap u j k) x₀
  have e0 : ∀ w : EuclideanSpace ℝ (Fin m), state K x₀ w - x₀ = Sol.distribute K (ext w) := fun w => by
    unfold state; rw [add_sub_cancel_left]
  obtain ⟨w, -, hw⟩ := find_root (K := K) (m := m) (fun w g => Lin.residual K ((grainsNow run face dmg hap dt u k
      (state K x₀ w)).map fun c => c.local (grainForces (state K x₀ w))) g)
    (fun r _ => now_continuous_row h hap hc (fun g hg => (LL.const _).add (distribute_ll hK hg)) r)
    (fun w r hr => residual_constrained hK _ hr) (a := a) (C := C + L + |E|) ha (by positivity) fun w h1 => by
      have hsat : Sol.Satisfies K (state K x₀ w - x₀) := by rw [e0]; exact Sol.distribute_satisfies hK.closed _
      have w1 := grain_work_residual (grainsNow run face dmg hap dt u k (state K x₀ w)) hK (hdofs _) hsat
        (R := grainForces (state K x₀ w)) (fun g _ => rfl)
      have hp := open_paired h.sides dmg hap dt (Function.update u (k + 1) (state K x₀ w)) k
      rw [grains_now] at hp
      have hfa : SpecFaceAt face dmg hap dt (Function.update u (k + 1) (state K x₀ w)) k = fun j =>
        faceNow (face j) dmg (recordNow face dmg hap u k j) (dt k) (state K x₀ w) := funext fun j => faceAt_now ..
      rw [hfa] at hp
      have w2 := open_mesh_power (kind := kind) hp (fun g hg => by
        obtain ⟨r, hr, rfl⟩ := List.mem_map.1 hg; exact h.kinds r hr) (now_assembled h hap hc (state K x₀ w))
        (state K x₀ w - x₀)
      rw [hcells] at w2
      have w3 := now_faces h hap hc (state K x₀ w) x₀
      have w4 := hC w h1
      have w5 := (le_abs_self _).trans (hL w)
      have e1 : SpecNodalWork (SpecMesh (run.map OpenGrain.run) dt u k) (cellRhs (state K x₀ w)) (state K x₀ w - x₀) =
        SpecNodalWork (SpecMesh (run.map OpenGrain.run) dt u k) (forces (state K x₀ w)) (state K x₀ w - x₀) := rfl
      rw [e1] at w2
      simp only at w5
      rw [← e0 w] at w5
      simp only [← e0 w]
      rw [← w1, w2]
      have h6 := le_abs_self E
      have h7 := norm_nonneg w
      have h8 := abs_nonneg E
      nlinarith
  refine ⟨state K x₀ w, by rw [e0]; exact Sol.distribute_satisfies hK.closed _, ?_⟩
  rw [grains_now]
  exact ⟨grainForces (state K x₀ w), now_assembled h hap hc _, hw⟩


omit h in
theorem records_congr {hap hap' : Happens J} {u v : ℕ → ℕ → ℝ} (k : ℕ) (hu : ∀ i ≤ k, u i = v i)
    (ht : hap.trials = hap'.trials) (hm : ∀ i < k, hap.measured i = hap'.measured i)
    (hc : SpecRecords face dmg hap u k) : SpecRecords face dmg hap' v k := by
  intro j hd
  rw [← record_congr' face dmg j k hu ht hm]
  exact hc j hd

end

/-! ## Properties -/

/-- C129, one step: whatever happened before, and for all boundary values, loads and hardening moduli, the equations of
the step have a solution, unless a record is such that they are not numbers. -/
theorem C129_step {J : ℕ} {kind : Kind n N} (run : List (OpenGrain d n N J)) (face : Fin J → Face d e n N)
    (dmg : DamagePrm) (dt : ℕ → ℝ) (K : Sol.Constraints ℕ) (m : ℕ) (h : SpecOpenRun kind run face dmg dt K m)
    (hap : Happens J) (u : ℕ → ℕ → ℝ) (k : ℕ) (hc : SpecRecords face dmg hap u k) (B : ℕ → ℝ) :
    ∃ v : ℕ → ℕ → ℝ, (∀ j, j ≠ k + 1 → v j = u j) ∧ Sol.Satisfies K (v (k + 1) - B) ∧
      SpecGrainSolution (SpecOpenGrains run face dmg hap dt v k) K m (v (k + 1)) := by
  obtain ⟨x, h1, h2⟩ := open_step h hap hc B
  refine ⟨Function.update u (k + 1) x, fun j hj => Function.update_of_ne hj x u, ?_⟩
  rw [Function.update_self]
  exact ⟨h1, h2⟩

/-- C129, a whole run: for every start state, all boundary values, loads, time steps and hardening moduli, whatever the
trial solutions were and whatever opening `M` is recorded for the accepted states, there is a sequence of states in which
every step fulfils its boundary values and all its equations, but for steps whose records lead to 0/0. -/
theorem C129_run {J : ℕ} {kind : Kind n N} (run : List (OpenGrain d n N J)) (face : Fin J → Face d e n N)
    (dmg : DamagePrm) (dt : ℕ → ℝ) (K : Sol.Constraints ℕ) (m : ℕ) (h : SpecOpenRun kind run face dmg dt K m)
    (trials : ℕ → Fin J → List IfaceOp) (M : Fin J → (ℕ → ℝ) → ℝ) (B : ℕ → ℕ → ℝ) (u₀ : ℕ → ℝ) :
    ∃ u : ℕ → ℕ → ℝ, u 0 = u₀ ∧ ∀ k, let hap : Happens J := ⟨trials, fun i j => M j (u (i + 1))⟩
      SpecRecords face dmg hap u k → Sol.Satisfies K (u (k + 1) - B k) ∧
        SpecGrainSolution (SpecOpenGrains run face dmg hap dt u k) K m (u (k + 1)) := by
  let hap : (ℕ → ℕ → ℝ) → Happens J := fun u => ⟨trials, fun i j => M j (u (i + 1))⟩
  have hex : ∀ (u : ℕ → ℕ → ℝ) (k : ℕ), ∃ x, SpecRecords face dmg (hap u) u k → Sol.Satisfies K (x - B k) ∧
      SpecGrainSolution (SpecOpenGrains run face dmg (hap u) dt (Function.update u (k + 1) x) k) K m x := by
    intro u k
    by_cases hc : SpecRecords face dmg (hap u) u k
    · obtain ⟨x, h1, h2⟩ := open_step h (hap u) hc (B k)
      exact ⟨x, fun _ => ⟨h1, h2⟩⟩
    · exact ⟨0, fun h => absurd h hc⟩
  choose S hS using hex
  let P : ℕ → ℕ → ℕ → ℝ := fun k => Nat.rec (fun _ => u₀) (fun k p => Function.update p (k + 1) (S p k)) k
  have hP : ∀ k, P (k + 1) = Function.update (P k) (k + 1) (S (P k) k) := fun _ => rfl
  have hle : ∀ k i j, i ≤ j → P (j + k) i = P j i := by
    intro k i j hij
    induction k with
    | zero => rfl
    | succ k ih => rw [← add_assoc, hP, Function.update_of_ne (by omega), ih]
  have hd : ∀ k, ∀ i ≤ k, P i i = P k i := by
    intro k i hi
    have := hle (k - i) i i le_rfl
    rw [Nat.add_sub_cancel' hi] at this
    exact this.symm
  refine ⟨fun k => P k k, rfl, fun k => ?_⟩
  intro hap' hc
  have e2 : P (k + 1) (k + 1) = S (P k) k := by rw [hP, Function.update_self]
  have hm : ∀ i < k, hap'.measured i = (hap (P k)).measured i := fun i hi => by
    show (fun j => M j (P (i + 1) (i + 1))) = fun j => M j (P k (i + 1))
    rw [hd k (i + 1) (by omega)]
  have := hS (P k) k (records_congr (hap := hap') k (fun i hi => hd k i hi) rfl hm hc)
  rw [← e2] at this
  refine ⟨this.1, ?_⟩
  rw [openGrains_congr run face dmg (hap := hap') (hap' := hap (P k)) (v := Function.update (P k) (k + 1) (P (k + 1) (k + 1))) dt k
    (fun i hi => ?_) rfl hm]
  · exact this.2
  · by_cases hi' : i = k + 1
    · subst hi'; rw [Function.update_self]
    · rw [Function.update_of_ne hi']; exact hd k i (by omega)

/-- C129 for grain boundaries that do not open: every run exists. -/
theorem C129_closed_run {J : ℕ} {kind : Kind n N} (run : List (OpenGrain d n N J)) (face : Fin J → Face d e n N)
    (dmg : DamagePrm) (dt : ℕ → ℝ) (K : Sol.Constraints ℕ) (m : ℕ) (h : SpecOpenRun kind run face dmg dt K m)
    (hclosed : ∀ j, (face j).2.prm.decohesion = false)
    (trials : ℕ → Fin J → List IfaceOp) (M : Fin J → (ℕ → ℝ) → ℝ) (B : ℕ → ℕ → ℝ) (u₀ : ℕ → ℝ) :
    ∃ u : ℕ → ℕ → ℝ, u 0 = u₀ ∧ ∀ k, Sol.Satisfies K (u (k + 1) - B k) ∧ SpecGrainSolution (SpecOpenGrains run face dmg
      ⟨trials, fun i j => M j (u (i + 1))⟩ dt u k) K m (u (k + 1)) := by
  obtain ⟨u, h0, hu⟩ := C129_run run face dmg dt K m h trials M B u₀
  exact ⟨u, h0, fun k => hu k fun j hd => absurd hd (by rw [hclosed j]; simp)⟩

/-- C129 for a body without grain boundaries, one step. -/
theorem C129_body (cells : List (MeshCell d n N)) (hcell : ∀ c ∈ cells, SpecCell c)
    (hmat : ∀ c ∈ cells, SpecMaterial c.prm) (hrate : ∀ c ∈ cells, c.prm.law.rateIndependent = false)
    (K : Sol.Constraints ℕ) (m : ℕ) (hK : Homogeneous K m) (hm : ∀ c ∈ cells, ∀ i, c.dofs i < m)
    (hdet : SpecDetermined cells K m) (B : ℕ → ℝ) : ∃ x, Sol.Satisfies K (x - B) ∧ SpecSolution cells K m x := by
  obtain ⟨a, ha, C, hC0, hC⟩ := body_outward cells hcell hmat hK hm hdet B
  have e0 : ∀ w : EuclideanSpace ℝ (Fin m), state K B w - B = Sol.distribute K (ext w) := fun w => by
    unfold state; rw [add_sub_cancel_left]
  obtain ⟨w, -, hw⟩ := find_root (K := K) (m := m) (fun w g => rowOf cells K B w g) (fun r _ => by
      unfold rowOf Lin.residual
      simp only [List.map_map]
      refine continuous_list_sum cells fun c hc => ?_
      simp only [Function.comp_apply]
      refine continuous_finsetSum _ fun i _ => ?_
      show Continuous fun w => weight K (c.dofs i) r * forces (state K B w) c i
      refine continuous_const.mul ?_
      exact (rhs_ll c (hmat c hc) (hrate c hc) (u := fun w => state K B w ∘ c.dofs)
        (fun j => (LL.const _).add (distribute_ll hK (hm c hc j))) i).continuous)
    (fun w r hr => residual_constrained hK _ hr) ha hC0 fun w h1 => by
      have hsat : Sol.Satisfies K (state K B w - B) := by rw [e0]; exact Sol.distribute_satisfies hK.closed _
      have w1 := work_residual cells hK hm hsat (R := forces (state K B w)) (r := rowOf cells K B w) (fun g _ => rfl)
      have := hC w h1
      rw [w1, e0] at this
      exact this
  exact ⟨state K B w, by rw [e0]; exact Sol.distribute_satisfies hK.closed _, forces (state K B w),
    forces_assembled cells hcell hmat _, hw⟩

/-! ## Non-vacuity -/

theorem exSoft_cell (H f : ℝ) : SpecCell (exSoft H f) := by
  constructor
  · exact fun _ => exShape_primitive
  · intro q
    show (0 : ℝ) < 1 / 2
    norm_num
  · exact fun _ => rfl
  · intro q a
    show (0 : ℝ) ≤ 1 / 1
    norm_num

theorem exSoft_material (H f : ℝ) (h0 : 0 ≤ H) : SpecMaterial (exSoft H f).prm := by
  constructor <;> norm_num [exSoft, exCell, Elastic.accepted, SpecOrthogonal, VecLaw.accepted, h0]

/-- The hardening modulus plays no role for determinedness. -/
theorem exSoft_determined_any (H f : ℝ) : SpecDetermined [exSoft H f] (fun _ => none) 2 :=
  exSoft_determined 0 f le_rfl (by norm_num)

/-- Two soft grains of different orientation whose common boundary may open; hardening `H`, loads `p` and `q`. -/
noncomputable def exTornRun (H : ℝ) (p q : ℕ → ℝ) : List (OpenGrain 2 1 2 1) :=
  [⟨⟨(exSoftLeft H 0).cell, fun k _ => ![p k, 0]⟩, 1, fun _ => (0, false), 0, fun _ => Fin.elim0⟩,
   ⟨⟨(exSoftRight H 0).cell, fun k _ => ![0, (k : ℝ)]⟩, 1, fun _ => (0, true), 1, fun k _ => ⟨exMeet, ![q k, 0], 1⟩⟩]

theorem exTornRun_ok (H : ℝ) (h0 : 0 ≤ H) (p q : ℕ → ℝ) :
    SpecOpenRun exKind (exTornRun H p q) exOpen exDamage (fun _ => 1) (fun _ => none) 4 := by
  have key : ∀ {P : MeshCell 2 1 2 → Prop}, P (exSoftLeft H 0).cell → P (exSoftRight H 0).cell →
      ∀ r ∈ exTornRun H p q, P r.run.cell := by
    intro P a b r hr
    rcases List.mem_cons.1 hr with rfl | hr
    · exact a
    · obtain rfl := List.mem_singleton.1 hr
      exact b
  have c := exSoft_cell H 0
  have m := exSoft_material H 0 h0
  exact {
    sides := List.Perm.refl _
    joint := exOpen_ok
    kinds := key (P := fun c => c.kind = exKind) rfl rfl
    cell := key c ⟨c.primitive, c.weight, c.hist, c.res⟩
    material := key (P := fun c => SpecMaterial c.prm) m { m with }
    rate := key (P := fun c => c.prm.law.rateIndependent = false) rfl rfl
    critical := by norm_num [exDamage]
    step := fun _ => one_pos
    homogeneous := ⟨fun _ _ h => by simp at h, fun _ _ h => by simp at h, fun _ _ h => by simp at h⟩
    dofs := key (P := fun c => ∀ i, c.dofs i < 4) (fun i => by
        show (i : ℕ) < 4
        have := (i : Fin 2).2; omega) (fun i => by
        show (i : ℕ) + 2 < 4
        have := (i : Fin 2).2; omega)
    determined := exSoftGrains_determined 0 0 0 le_rfl (by norm_num) }

/-- C129 in a concrete case: two grains that are pulled apart, for every hardening modulus and all loads; the first step
always has a solution. -/
example (H : ℝ) (h0 : 0 ≤ H) (p q : ℕ → ℝ) (u : ℕ → ℕ → ℝ) : ∃ v : ℕ → ℕ → ℝ, v 0 = u 0 ∧
    SpecGrainSolution (SpecOpenGrains (exTornRun H p q) exOpen exDamage exHappens (fun _ => 1) v 0) (fun _ => none) 4
      (v 1) := by
  obtain ⟨v, h1, -, h2⟩ := C129_step _ _ _ _ _ _ (exTornRun_ok H h0 p q) exHappens u 0
    (fun j _ => Or.inr (le_refl (0 : ℝ))) 0
  exact ⟨v, h1 0 (by norm_num), h2⟩

/-- Every later step too, when the boundary has opened. -/
example (H : ℝ) (h0 : 0 ≤ H) (p q : ℕ → ℝ) (u : ℕ → ℕ → ℝ) (h : u 1 2 - u 1 0 = 2) (k : ℕ) :
    ∃ v : ℕ → ℕ → ℝ, v (k + 1) = u (k + 1) ∧
    SpecGrainSolution (SpecOpenGrains (exTornRun H p q) exOpen exDamage exHappens (fun _ => 1) v (k + 1)) (fun _ => none) 4
      (v (k + 2)) := by
  obtain ⟨v, h1, -, h2⟩ := C129_step _ _ _ _ _ _ (exTornRun_ok H h0 p q) exHappens u (k + 1)
    (fun j _ => Or.inl (by
      obtain rfl := Subsingleton.elim j 0
      have := exOpen_max u h k
      linarith)) 0
  exact ⟨v, h1 (k + 1) (by omega), h2⟩

/-- A whole run in which no opening is recorded before the boundary opens: no step is excluded. -/
example (H : ℝ) (h0 : 0 ≤ H) (p q : ℕ → ℝ) (u₀ : ℕ → ℝ) : ∃ u : ℕ → ℕ → ℝ, u 0 = u₀ ∧ ∀ k,
    SpecGrainSolution (SpecOpenGrains (exTornRun H p q) exOpen exDamage ⟨fun _ _ => [.update 9, .reset], fun _ _ => 0⟩
      (fun _ => 1) u k) (fun _ => none) 4 (u (k + 1)) := by
  obtain ⟨u, h1, h2⟩ := C129_run _ _ _ _ _ _ (exTornRun_ok H h0 p q) (fun _ _ => [.update 9, .reset]) (fun _ _ => 0)
    (fun _ => 0) u₀
  refine ⟨u, h1, fun k => (h2 k fun j _ => Or.inr ?_).2⟩
  cases k with
  | zero => exact le_refl (0 : ℝ)
  | succ k => exact le_refl (0 : ℝ)

/-- A body without grain boundaries, for every hardening modulus and every load. -/
example (H f : ℝ) (h0 : 0 ≤ H) : ∃ x, SpecSolution [exSoft H f] (fun _ => none) 2 x := by
  obtain ⟨x, -, hx⟩ := C129_body [exSoft H f] (by intro c hc; rw [List.mem_singleton] at hc; subst hc; exact exSoft_cell H f)
    (by intro c hc; rw [List.mem_singleton] at hc; subst hc; exact exSoft_material H f h0)
    (by intro c hc; rw [List.mem_singleton] at hc; subst hc; rfl) (fun _ => none) 2
    ⟨fun _ _ h => by simp at h, fun _ _ h => by simp at h, fun _ _ h => by simp at h⟩
    (by intro c hc; rw [List.mem_singleton] at hc; subst hc; exact fun i => (i : Fin 2).2) (exSoft_determined_any H f) 0
  exact ⟨x, hx⟩

end Verif.Asm
