import Verif.Model.Reported
import Verif.Props.Interface

/-!
# What a grain boundary reports at the end of a time step: C126
-/

namespace Verif.Itf
open Cry Hist Matrix

/-! ## Specification -/

/-- Magnitude of the traction the cohesive law contributes to the equations
(`source/gradient_crystal_plasticity/assembly.cc:1021-1066`): degraded by damage. `none`: NaN. -/
noncomputable def SpecTransmitted {d e : ℕ} (p : Asm.FacePrm d e) (h : Iface) (n u un : Vec d) : Option ℝ :=
  (p.coh.traction (un - u) n h.maxOpening h.oldOpening p.dt).map fun t =>
    √(∑ i, (degradation p.exponent h.damage p.coupleMacro * t i) ^ 2)

/-- The record belongs to the state: its maximum is at least the effective opening (C38). -/
def SpecUpToDate {d e : ℕ} (p : Asm.FacePrm d e) (h : Iface) (n u un : Vec d) : Prop :=
  effOpening p.coh (un - u) n ≤ h.maxOpening

/-! ## Helpers -/

theorem norm2_scaled {d : ℕ} (s : ℝ) (t : Vec d) : √(∑ i, (s * t i) ^ 2) = |s| * norm2 t := by
  unfold norm2 dotProduct
  have : ∑ i, (s * t i) ^ 2 = s ^ 2 * ∑ i, t i * t i := by
    rw [Finset.mul_sum]
    exact Finset.sum_congr rfl fun i _ => by ring
  rw [this, Real.sqrt_mul (sq_nonneg s), Real.sqrt_sq_eq_abs]

/-- Where the maximum is positive the old opening does not matter. -/
theorem traction_old {d : ℕ} (c : Coh) (δ n : Vec d) (mx old old' dt : ℝ) (hle : effOpening c δ n ≤ mx) (h0 : mx ≠ 0) :
    c.traction δ n mx old dt = c.traction δ n mx old' dt := by
  have key : ∀ o, c.traction δ n mx o dt = some (c.charStress⁻¹ •
      ((c.scalar (c.charDisp * mx) * effOpening c δ n / mx) • direction c δ n)) := by
    intro o
    unfold Coh.traction branch
    simp only
    by_cases h1 : effOpening c δ n = mx ∧ 0 ≤ (effOpening c δ n - o) / dt
    · rw [if_pos h1, h1.1, mul_div_assoc, div_self h0, mul_one]
    · rw [if_neg h1]
      have h2 : effOpening c δ n < mx ∨ effOpening c δ n = mx ∧ (effOpening c δ n - o) / dt < 0 := by
        rcases lt_or_eq_of_le hle with h | h
        · exact Or.inl h
        · exact Or.inr ⟨h, not_le.1 fun hh => h1 ⟨h, hh⟩⟩
      rw [if_pos h2, if_neg h0]
  rw [key, key]

theorem degradation_nonneg {exponent damage : ℝ} (h : damage ≤ 1) (couple : Bool) :
    0 ≤ degradation exponent damage couple := by
  unfold degradation
  split_ifs
  · exact Real.rpow_nonneg (by linarith) _
  · exact zero_le_one

/-! ## Properties -/

/-- C126: the two cells of a face leave the same values, so that it does not matter whose visit is the last. -/
theorem C126_sides {d e : ℕ} (p : Asm.FacePrm d e) (memory : ℝ) (h : Iface) (n u un old oldn : Vec d) :
    report p memory h (fun i => -n i) un u oldn old = report p memory h n u un old oldn := by
  change report p memory h (-n) un u oldn old = _
  unfold report storedOpening
  have e1 : un - u = -(u - un) := by simp
  have e2 : u - un = -(un - u) := by simp
  have hN : normalProjector (-n) = normalProjector n := by
    unfold normalProjector
    congr 1
    ext i j
    simp [outer]
  have hT : tangentialProjector (-n) = tangentialProjector n := by
    unfold tangentialProjector; rw [hN]
  have hd : norm2 (old - oldn) = norm2 (oldn - old) := by
    rw [← norm2_neg, neg_sub]
  have ht : ∀ o, p.coh.traction (u - un) (-n) h.maxOpening o p.dt =
      (p.coh.traction (un - u) n h.maxOpening o p.dt).map fun t i => -t i := by
    intro o
    have := (C40_cohesive p.coh (un - u) n h.maxOpening o p.dt).2
    have ea : (fun i => -(un - u) i) = u - un := by funext i; simp
    have eb : (fun i => -n i) = -n := rfl
    rw [ea, eb] at this
    exact this
  have f1 : ∀ m : Mat d, norm2 (m *ᵥ (un - u)) = norm2 (m *ᵥ (u - un)) := by
    intro m
    rw [e1, mulVec_neg, norm2_neg]
  simp only [hN, hT, hd, ht, f1, Option.map_map]
  congr 2
  funext t
  simp only [Function.comp_apply]
  congr 1
  exact norm2_neg t

/-- C126, the part that holds: once the face has opened, without coupling of the macroscopic traction to damage, the
reported traction is the magnitude of the traction in the equations; in the equations with damage it is, if the
uninitialised exponent happens to be the one of the parameter file. -/
theorem C126_traction_partial {d e : ℕ} (p : Asm.FacePrm d e) (memory : ℝ) (h : Iface) (n u un old oldn : Vec d)
    (hup : SpecUpToDate p h n u un) (hpos : h.maxOpening ≠ 0) (hD : h.damage ≤ 1)
    (hm : p.coupleMacro = true → memory = p.exponent) :
    (report p memory h n u un old oldn).traction = SpecTransmitted p h n u un := by
  unfold report SpecTransmitted
  simp only
  rw [traction_old p.coh (un - u) n h.maxOpening _ h.oldOpening p.dt hup hpos]
  congr 1
  funext t
  rw [norm2_scaled, abs_of_nonneg (degradation_nonneg hD _)]
  congr 1
  unfold memoryDegradation degradation
  cases hc : p.coupleMacro with
  | false => rfl
  | true => rw [hm hc]

/-- C126: the reported opening is the effective opening of the law where the cells have not moved into each other, and
the parts are the magnitudes of the normal and the tangential opening. -/
theorem C126_opening_partial {d e : ℕ} (p : Asm.FacePrm d e) (memory : ℝ) (h : Iface) (n u un old oldn : Vec d)
    (hn : ∑ i, n i * n i = 1) (hδ : 0 ≤ ∑ i, n i * (un i - u i)) :
    (report p memory h n u un old oldn).opening = effOpening p.coh (fun i => un i - u i) n ∧
    (report p memory h n u un old oldn).normal = ∑ i, n i * (un i - u i) ∧
    (report p memory h n u un old oldn).tangential =
      √(∑ i, (un i - u i - (∑ j, n j * (un j - u j)) * n i) ^ 2) := by
  have hnn : n ⬝ᵥ n = 1 := hn
  have e : u - un = -(un - u) := by simp
  refine ⟨C41_stored_partial p.coh u un n hn hδ, ?_, ?_⟩
  · show norm2 (normalProjector n *ᵥ (u - un)) = _
    rw [e, mulVec_neg, norm2_neg, normalProjector_mulVec]
    have h2 : norm2 ((n ⬝ᵥ (un - u)) • n) = |n ⬝ᵥ (un - u)| * norm2 n := by
      rw [← norm2_scaled]
      unfold norm2 dotProduct
      congr 1
      exact Finset.sum_congr rfl fun i _ => by simp only [Pi.smul_apply, smul_eq_mul]; ring
    rw [h2]
    have h1 : norm2 n = 1 := by unfold norm2; rw [hnn]; simp
    rw [h1, mul_one]
    exact abs_of_nonneg hδ
  · show norm2 (tangentialProjector n *ᵥ (u - un)) = _
    rw [e, mulVec_neg, norm2_neg, tangential_mulVec]
    unfold norm2 dotProduct
    congr 1
    exact Finset.sum_congr rfl fun i _ => by
      simp only [Pi.sub_apply, Pi.smul_apply, smul_eq_mul]
      ring

/-- C126 is violated: with coupling to damage the reported traction is computed with an exponent that is never set;
whatever a partly damaged face transmits, some content of the memory makes it report another value. -/
theorem C126_violated {d e : ℕ} (p : Asm.FacePrm d e) (h : Iface) (n u un old oldn : Vec d)
    (hup : SpecUpToDate p h n u un) (hpos : h.maxOpening ≠ 0) (hc : p.coupleMacro = true) (h0 : 0 < h.damage)
    (h1 : h.damage < 1) (x : ℝ) (hx : SpecTransmitted p h n u un = some x) (hx0 : x ≠ 0) :
    ∀ memory, memory ≠ p.exponent →
      (report p memory h n u un old oldn).traction ≠ SpecTransmitted p h n u un := by
  intro memory hne heq
  have hold := traction_old p.coh (un - u) n h.maxOpening (norm2 (oldn - old)) h.oldOpening p.dt hup hpos
  unfold report at heq
  simp only at heq
  rw [hold, hx] at heq
  unfold SpecTransmitted at hx
  cases ht : p.coh.traction (un - u) n h.maxOpening h.oldOpening p.dt with
  | none => rw [ht] at hx; simp at hx
  | some t =>
    rw [ht] at hx heq
    simp only [Option.map_some, Option.some.injEq] at hx heq
    rw [norm2_scaled, abs_of_nonneg (degradation_nonneg h1.le _)] at hx
    have hn : norm2 t ≠ 0 := by
      intro hz
      rw [hz, mul_zero] at hx
      exact hx0 hx.symm
    have : memoryDegradation memory h.damage p.coupleMacro = degradation p.exponent h.damage p.coupleMacro := by
      apply mul_right_cancel₀ hn
      rw [heq, hx]
    unfold memoryDegradation degradation at this
    rw [if_pos hc, if_pos hc] at this
    have hb : 0 < 1 - h.damage := by linarith
    have := (Real.rpow_right_inj hb (by linarith)).1 this
    exact hne this

/-- C126 is violated for a face that slides but, tangential stiffness being zero, does not open effectively: nothing is
transmitted, NaN is reported. -/
theorem C126_violated_sliding {e : ℕ} (p : Asm.FacePrm 2 e) (hr : p.coh.ratio = 0) (hdt : 0 < p.dt) (memory : ℝ) :
    SpecTransmitted p Iface.new ![1, 0] ![0, 0] ![0, 1] = some 0 ∧
    (report p memory Iface.new ![1, 0] ![0, 0] ![0, 1] ![0, 0] ![0, 1]).traction = none := by
  have hδ : (![0, 1] : Vec 2) - ![0, 0] = ![0, 1] := by funext i; fin_cases i <;> simp
  have heff : effOpening p.coh (![0, 1] : Vec 2) ![1, 0] = 0 := by
    have e1 : Itf.macaulay ((![1, 0] : Vec 2) ⬝ᵥ ![0, 1]) = 0 := macaulay_of_nonpos (by simp)
    unfold effOpening
    simp only [e1, hr]
    simp
  have hdir : direction p.coh (![0, 1] : Vec 2) ![1, 0] = 0 := by
    have e1 : Itf.macaulay ((![1, 0] : Vec 2) ⬝ᵥ ![0, 1]) = 0 := macaulay_of_nonpos (by simp)
    unfold direction rawDirection
    rw [heff, e1, hr]
    simp
  have hn : norm2 (![0, 1] : Vec 2) = 1 := by simp [norm2]
  constructor
  · unfold SpecTransmitted
    rw [hδ]
    have : p.coh.traction (![0, 1] : Vec 2) ![1, 0] Iface.new.maxOpening Iface.new.oldOpening p.dt = some 0 := by
      unfold Coh.traction branch
      simp only [heff, hdir]
      have hc : (0 : ℝ) = Iface.new.maxOpening ∧ 0 ≤ (0 - Iface.new.oldOpening) / p.dt := by
        simp [Iface.new]
      rw [if_pos hc]
      simp
    rw [this]
    simp
  · unfold report
    simp only
    rw [hδ, hn]
    have : p.coh.traction (![0, 1] : Vec 2) ![1, 0] Iface.new.maxOpening 1 p.dt = none := by
      unfold Coh.traction branch
      simp only [heff]
      have hneg : (0 - 1) / p.dt < 0 := div_neg_of_neg_of_pos (by norm_num) hdt
      have hc : ¬ ((0 : ℝ) = Iface.new.maxOpening ∧ 0 ≤ (0 - 1) / p.dt) := fun h => absurd h.2 (not_le.2 hneg)
      rw [if_neg hc]
      have hc2 : (0 : ℝ) < Iface.new.maxOpening ∨ (0 : ℝ) = Iface.new.maxOpening ∧ (0 - 1) / p.dt < 0 :=
        Or.inr ⟨rfl, hneg⟩
      rw [if_pos hc2]
      have hz : Iface.new.maxOpening = 0 := rfl
      simp only [hz, if_true]
    rw [this]
    rfl

/-! ## Non-vacuity -/

/-- A face with coupling to damage. -/
noncomputable def exReporting : Asm.FacePrm 2 1 :=
  ⟨1, 1, 1, 1, ⟨1, 1, 1, 1, 1⟩, ⟨1, 1, 1⟩, 1, true, true, ⟨1, 1⟩, fun _ _ _ => 0, true, false⟩

theorem exReporting_eff : effOpening exReporting.coh ((![1, 0] : Vec 2) - ![0, 0]) ![1, 0] = 1 := by
  have hδ : (![1, 0] : Vec 2) - ![0, 0] = ![1, 0] := by funext i; fin_cases i <;> simp
  rw [hδ]
  unfold effOpening
  simp only
  rw [tangential_mulVec]
  have e : (![1, 0] : Vec 2) - ((![1, 0] : Vec 2) ⬝ᵥ ![1, 0]) • (![1, 0] : Vec 2) = 0 := by
    funext i; fin_cases i <;> simp
  rw [e]
  simp [norm2, Itf.macaulay]

/-- The hypotheses of C126 in a concrete case: a half damaged face opened to its maximum transmits half of the
critical traction and reports it only if the memory happens to hold the exponent 1. -/
example (memory : ℝ) :
    ((report exReporting memory ⟨1 / 2, 1, 0, 0, 0⟩ ![1, 0] ![0, 0] ![1, 0] ![0, 0] ![0, 0]).traction = some (1 / 2)) ↔
      memory = 1 := by
  have hup : SpecUpToDate exReporting ⟨1 / 2, 1, 0, 0, 0⟩ ![1, 0] ![0, 0] ![1, 0] := by
    unfold SpecUpToDate; rw [exReporting_eff]
  have hx : SpecTransmitted exReporting ⟨1 / 2, 1, 0, 0, 0⟩ ![1, 0] ![0, 0] ![1, 0] = some (1 / 2) := by
    have hδ : (![1, 0] : Vec 2) - ![0, 0] = ![1, 0] := by funext i; fin_cases i <;> simp
    have heff := exReporting_eff
    rw [hδ] at heff
    have hdir : direction exReporting.coh (![1, 0] : Vec 2) ![1, 0] = ![1, 0] := by
      unfold direction rawDirection
      rw [heff, tangential_mulVec]
      have e : (![1, 0] : Vec 2) - ((![1, 0] : Vec 2) ⬝ᵥ ![1, 0]) • (![1, 0] : Vec 2) = 0 := by
        funext i; fin_cases i <;> simp
      rw [e]
      funext i; fin_cases i <;> simp [Itf.macaulay]
    unfold SpecTransmitted
    rw [hδ]
    have : exReporting.coh.traction (![1, 0] : Vec 2) ![1, 0] 1 0 exReporting.dt = some ![1, 0] := by
      unfold Coh.traction branch
      simp only [heff, hdir]
      rw [if_pos (by constructor <;> norm_num [exReporting])]
      norm_num [exReporting, Coh.scalar]
    rw [this]
    simp only [Option.map_some, norm2_scaled]
    norm_num [degradation, exReporting, norm2]
  constructor
  · intro h
    by_contra hne
    exact C126_violated exReporting ⟨1 / 2, 1, 0, 0, 0⟩ ![1, 0] ![0, 0] ![1, 0] ![0, 0] ![0, 0] hup (by norm_num) rfl
      (by norm_num) (by norm_num) (1 / 2) hx (by norm_num) memory hne (h.trans hx.symm)
  · intro h
    rw [C126_traction_partial exReporting memory ⟨1 / 2, 1, 0, 0, 0⟩ ![1, 0] ![0, 0] ![1, 0] ![0, 0] ![0, 0] hup
      (by norm_num) (by norm_num) fun _ => h, hx]

/-- The opening reported in a concrete case: mode I and II together. -/
example (memory : ℝ) (h : Iface) :
    (report exReporting memory h ![1, 0] ![0, 0] ![3, 4] ![0, 0] ![0, 0]).normal = 3 ∧
    (report exReporting memory h ![1, 0] ![0, 0] ![3, 4] ![0, 0] ![0, 0]).tangential = 4 := by
  obtain ⟨-, h2, h3⟩ := C126_opening_partial exReporting memory h ![1, 0] ![0, 0] ![3, 4] ![0, 0] ![0, 0]
    (by simp) (by simp)
  refine ⟨h2.trans (by simp), h3.trans ?_⟩
  simp

end Verif.Itf
