import Verif.Model.Partition
import Verif.Props.History
import Verif.Props.Cohesive

/-!
# C88: interface variables and the distribution of the mesh
-/

namespace Verif.Itf
open Matrix Finset Verif.Cry Verif.Hist

/-! ## Both cells measure the same -/

theorem projector_neg {d : ℕ} (n : Vec d) : normalProjector (-n) = normalProjector n := by
  ext i j; simp [normalProjector, symmetrize, outer]

theorem effOpening_flip {d : ℕ} (c : Coh) (δ n : Vec d) : effOpening c (-δ) (-n) = effOpening c δ n := by
  unfold effOpening tangentialProjector
  rw [projector_neg, mulVec_neg, norm2_neg, neg_dotProduct_neg]

theorem storedOpening_flip {d : ℕ} (ratio : ℝ) (a b n : Vec d) :
    storedOpening ratio a b (-n) = storedOpening ratio b a n := by
  unfold storedOpening tangentialProjector
  have h : a - b = -(b - a) := by abel
  simp only [projector_neg, h, mulVec_neg, norm2_neg]

/-- The factor `m × n` changes its sign with the normal. -/
def SpecOdd {d e : ℕ} (lat : Vec d → Vec d → Fin e → ℝ) : Prop := ∀ m n j, lat m (-n) j = -lat m n j

theorem lateral2_odd : SpecOdd lateral2 := by
  intro m n j; simp [lateral2]; ring

theorem lateral3_odd : SpecOdd lateral3 := by
  intro m n j; fin_cases j <;> simp [lateral3, cross] <;> ring

theorem interfaceEnergy_flip {d e n : ℕ} (p : MicroPrm) (lat : Vec d → Vec d → Fin e → ℝ)
    (hl : SpecOdd lat) (a b : Crystal d n) (nrm : Vec d) (γa γb : Fin n → ℝ) :
    interfaceEnergy p lat a b (-nrm) γa γb = interfaceEnergy p lat b a nrm γb γa := by
  have h : ∀ i j, burgers lat a b (-nrm) γa γb i j = burgers lat b a nrm γb γa i j := by
    intro i j
    unfold burgers
    refine sum_congr rfl fun α _ => ?_
    rw [hl, hl]; ring
  unfold interfaceEnergy
  simp only [h]

theorem opening_side {d e n : ℕ} (f : Site d e n) (t : Traces d n) (s : Bool) :
    f.openingFrom t s = f.openingFrom t false := by
  cases s
  · rfl
  · show effOpening f.coh (t.disp false - t.disp true) (-f.normal) =
      effOpening f.coh (t.disp true - t.disp false) f.normal
    rw [← effOpening_flip, neg_sub, neg_neg]

theorem energy_side {d e n : ℕ} (f : Site d e n) (hl : SpecOdd f.lat) (t : Traces d n) (s : Bool) :
    f.energyFrom t s = f.energyFrom t false := by
  unfold Site.energyFrom
  rw [opening_side]
  congr 1
  cases s
  · rfl
  · exact interfaceEnergy_flip _ _ hl _ _ _ _ _

theorem stored_side {d e n : ℕ} (f : Site d e n) (t : Traces d n) (s : Bool) :
    storedOpening f.coh.ratio (t.disp (!s)) (t.disp s) (f.normalOf s) =
      storedOpening f.coh.ratio (t.disp true) (t.disp false) f.normal := by
  cases s
  · rfl
  · exact storedOpening_flip _ _ _ _

/-- C88: both cells of a face measure the same effective opening, the same energies and record the same
opening, for all displacements and slips. -/
theorem C88_two_views {d e n : ℕ} (f : Site d e n) (hl : SpecOdd f.lat) (t : Traces d n) :
    f.openingFrom t true = f.openingFrom t false ∧ f.energyFrom t true = f.energyFrom t false ∧
    storedOpening f.coh.ratio (t.disp false) (t.disp true) (f.normalOf true) =
      storedOpening f.coh.ratio (t.disp true) (t.disp false) (f.normalOf false) :=
  ⟨opening_side f t true, energy_side f hl t true, stored_side f t true⟩

/-- Burgers tensor of a boundary: slip of the crystal beyond the normal minus slip of the crystal the normal
points out of, each with its own slip systems. -/
noncomputable def SpecJumpOfSlip {d e n : ℕ} (f : Site d e n) (t : Traces d n) (i : Fin d) (j : Fin e) : ℝ :=
  (∑ α, t.slip true α * (f.crystal true α).direction i * f.lat (f.crystal true α).normal f.normal j) -
    ∑ α, t.slip false α * (f.crystal false α).direction i * f.lat (f.crystal false α).normal f.normal j

/-- C88: the driving energy both cells use is the cohesive energy of the opening plus half the boundary
modulus times the square of the Burgers tensor, in which the slips of each cell go with the slip systems of
the crystal of that cell. -/
theorem C88_energy_value {d e n : ℕ} (f : Site d e n) (hl : SpecOdd f.lat) (t : Traces d n) (s : Bool) :
    f.energyFrom t s =
      f.coh.energy (f.charDisp * effOpening f.coh (t.disp true - t.disp false) f.normal) +
        f.micro.modulus / 2 * ∑ i, ∑ j, SpecJumpOfSlip f t i j ^ 2 := by
  rw [energy_side f hl]
  have h : ∀ i j, burgers f.lat (f.crystal true) (f.crystal false) f.normal (t.slip true) (t.slip false) i j =
      SpecJumpOfSlip f t i j := by
    intro i j
    unfold burgers SpecJumpOfSlip
    rw [← sum_sub_distrib]
    exact sum_congr rfl fun α _ => by ring
  simp only [Site.energyFrom, Site.openingFrom, Site.normalOf, interfaceEnergy, Bool.not_false,
    Bool.false_eq_true, if_false, h]
  congr 1
  simp only [pow_two]
  ring

/-! ## A second visit changes nothing -/

/-- Visiting a record from one cell and then from another gives what one visit gives. -/
def SpecOnce {d e n : ℕ} (f : Site d e n) : Prop :=
  ∀ c r s s', f.visit c (f.visit c r s) s' = f.visit c r false ∧ f.visit c r s = f.visit c r false

theorem once_ortiz {d e n : ℕ} (f : Site d e n) (h : f.m1 = false) : SpecOnce f := by
  intro c r s s'
  cases c with
  | prepare => exact ⟨rfl, rfl⟩
  | reset => exact ⟨rfl, rfl⟩
  | evaluate t =>
    simp only [Site.visit, h, Bool.false_eq_true, if_false]
    rw [opening_side f t s, opening_side f t s']
    exact ⟨C22_idempotent _ _ _, rfl⟩
  | record t =>
    simp only [Site.visit]
    rw [stored_side f t s, stored_side f t s', stored_side f t false]
    exact ⟨rfl, rfl⟩

theorem force_linear (energy : ℝ) (r : Iface) : m1Force 1 energy r = energy := by
  simp [m1Force]

theorem once_m1 {d e n : ℕ} (f : Site d e n) (hl : SpecOdd f.lat) (he : f.degradationExponent = 1) :
    SpecOnce f := by
  intro c r s s'
  cases hm : f.m1
  · exact once_ortiz f hm c r s s'
  cases c with
  | prepare => exact ⟨rfl, rfl⟩
  | reset => exact ⟨rfl, rfl⟩
  | evaluate t =>
    simp only [Site.visit, hm, if_true, Iface.evalM1, he, force_linear]
    rw [opening_side f t s, opening_side f t s', energy_side f hl t s, energy_side f hl t s']
    exact ⟨rfl, rfl⟩
  | record t =>
    simp only [Site.visit]
    rw [stored_side f t s, stored_side f t s', stored_side f t false]
    exact ⟨rfl, rfl⟩

theorem visits_eq {P : Type*} [DecidableEq P] {d e n : ℕ} (f : Site d e n) (h : SpecOnce f)
    (owner : Bool → P) (first side : Bool) (c : Call d n) (r : Iface) :
    (ownedSides owner first (owner side)).foldl (f.visit c) r = f.visit c r false := by
  unfold ownedSides
  by_cases h1 : owner first = owner side <;> by_cases h2 : owner (!first) = owner side
  · simp only [List.filter_cons, List.filter_nil, h1, h2, decide_true, if_true, List.foldl_cons,
      List.foldl_nil]
    exact (h c r _ _).1
  · simp only [List.filter_cons, List.filter_nil, h1, h2, decide_true, if_true, decide_false,
      Bool.false_eq_true, if_false, List.foldl_cons, List.foldl_nil]
    exact (h c r _ true).2
  · simp only [List.filter_cons, List.filter_nil, h1, h2, decide_true, if_true, decide_false,
      Bool.false_eq_true, if_false, List.foldl_cons, List.foldl_nil]
    exact (h c r _ true).2
  · exfalso
    cases first <;> cases side <;> simp_all

theorem record_eq {P : Type*} [DecidableEq P] {d e n : ℕ} (f : Site d e n) (h : SpecOnce f)
    (owner : Bool → P) (first side : Bool) (calls : List (Call d n)) :
    f.recordOf owner first calls (owner side) = calls.foldl (fun r c => f.visit c r false) Iface.new := by
  unfold Site.recordOf
  congr 1
  funext r c
  exact visits_eq f h owner first side c r

/-- C88, partial: with the damage model of Ortiz et al. the interface variables a cell sees do not depend
on the distribution of the mesh.  For every sequence of collective calls, all displacements and slips, any
two assignments of the two cells to processes (both to one, or to two), any order of the cells and both
cells, the records agree.  Missing: the model M1 (see below). -/
theorem C88_ortiz_partial {P Q : Type*} [DecidableEq P] [DecidableEq Q] {d e n : ℕ} (f : Site d e n)
    (h : f.m1 = false) (owner : Bool → P) (owner' : Bool → Q) (first first' side side' : Bool)
    (calls : List (Call d n)) :
    f.recordOf owner first calls (owner side) = f.recordOf owner' first' calls (owner' side') := by
  rw [record_eq f (once_ortiz f h), record_eq f (once_ortiz f h)]

/-- C88, partial: the same for both damage models if the degradation function is linear. -/
theorem C88_linear_partial {P Q : Type*} [DecidableEq P] [DecidableEq Q] {d e n : ℕ} (f : Site d e n)
    (hl : SpecOdd f.lat) (he : f.degradationExponent = 1) (owner : Bool → P) (owner' : Bool → Q)
    (first first' side side' : Bool) (calls : List (Call d n)) :
    f.recordOf owner first calls (owner side) = f.recordOf owner' first' calls (owner' side') := by
  rw [record_eq f (once_m1 f hl he), record_eq f (once_m1 f hl he)]

/-- Largest opening, recorded opening, stored largest opening. -/
def openingsOf (r : Iface) : ℝ × ℝ × ℝ := (r.maxOpening, r.oldOpening, r.tmpMax)

/-- Their evolution, which does not involve the damage. -/
noncomputable def openingsStep {d e n : ℕ} (f : Site d e n) (x : ℝ × ℝ × ℝ) : Call d n → ℝ × ℝ × ℝ
  | .prepare => (x.1, x.2.1, x.1)
  | .evaluate t => (max x.2.2 (f.openingFrom t false), x.2.1, x.2.2)
  | .reset => (x.2.2, x.2.1, x.2.2)
  | .record t => (x.1, storedOpening f.coh.ratio (t.disp true) (t.disp false) f.normal, x.2.2)

theorem openings_eq {P : Type*} [DecidableEq P] {d e n : ℕ} (f : Site d e n) (owner : Bool → P)
    (first side : Bool) (calls : List (Call d n)) :
    openingsOf (f.recordOf owner first calls (owner side)) =
      calls.foldl (openingsStep f) (openingsOf Iface.new) := by
  have hv : ∀ c r s, openingsOf (f.visit c r s) = openingsStep f (openingsOf r) c := by
    intro c r s
    cases c with
    | prepare => rfl
    | reset => rfl
    | evaluate t =>
      simp only [Site.visit, opening_side f t s]
      split_ifs <;> rfl
    | record t =>
      simp only [Site.visit, stored_side f t s]
      rfl
  have hg : ∀ x c, openingsStep f (openingsStep f x c) c = openingsStep f x c := by
    intro x c; cases c <;> simp [openingsStep]
  have hf : ∀ c r, openingsOf ((ownedSides owner first (owner side)).foldl (f.visit c) r) =
      openingsStep f (openingsOf r) c := by
    intro c r
    unfold ownedSides
    by_cases h1 : owner first = owner side <;> by_cases h2 : owner (!first) = owner side
    · simp only [List.filter_cons, List.filter_nil, h1, h2, decide_true, if_true, List.foldl_cons,
        List.foldl_nil, hv, hg]
    · simp only [List.filter_cons, List.filter_nil, h1, h2, decide_true, if_true, decide_false,
        Bool.false_eq_true, if_false, List.foldl_cons, List.foldl_nil, hv]
    · simp only [List.filter_cons, List.filter_nil, h1, h2, decide_true, if_true, decide_false,
        Bool.false_eq_true, if_false, List.foldl_cons, List.foldl_nil, hv]
    · exfalso
      cases first <;> cases side <;> simp_all
  unfold Site.recordOf
  generalize Iface.new = r
  induction calls generalizing r with
  | nil => rfl
  | cons c cs ih => rw [List.foldl_cons, List.foldl_cons, ih, hf]

/-- C88: whatever the damage model, the largest opening and the recorded opening do not depend on the
distribution. -/
theorem C88_openings {P Q : Type*} [DecidableEq P] [DecidableEq Q] {d e n : ℕ} (f : Site d e n)
    (owner : Bool → P) (owner' : Bool → Q) (first first' side side' : Bool) (calls : List (Call d n)) :
    (f.recordOf owner first calls (owner side)).maxOpening =
      (f.recordOf owner' first' calls (owner' side')).maxOpening ∧
    (f.recordOf owner first calls (owner side)).oldOpening =
      (f.recordOf owner' first' calls (owner' side')).oldOpening := by
  have h := (openings_eq f owner first side calls).trans (openings_eq f owner' first' side' calls).symm
  exact ⟨congrArg (·.1) h, congrArg (·.2.1) h⟩

/-! ## Model M1 -/

/-- A face in 2D with one slip system per crystal, quadratic degradation and the model M1. -/
noncomputable def exSite : Site 2 1 1 where
  coh := ⟨0, 1, 1, 1, 1⟩
  dmg := ⟨1, 1, 0, 1, 0, false⟩
  micro := ⟨1 / 2, 1⟩
  lat := lateral2
  crystal := fun _ _ => ⟨![1, 0], ![0, 1], ![0, 0]⟩
  normal := ![1, 0]
  m1 := true
  degradationExponent := 2
  charDisp := 1

/-- The cell `true` is displaced by one in normal direction and slipped by one. -/
def exTraces : Traces 2 1 where
  disp := fun s => if s then ![1, 0] else 0
  slip := fun s _ => if s then 1 else 0

theorem ex_opening : exSite.openingFrom exTraces false = 1 := by
  have h := effOpening_sq exSite.coh (exTraces.disp true - exTraces.disp false) exSite.normal
  have h0 := effOpening_nonneg exSite.coh (exTraces.disp true - exTraces.disp false) exSite.normal
  have hm : tangentialProjector exSite.normal *ᵥ (exTraces.disp true - exTraces.disp false) = 0 := by
    ext i
    fin_cases i <;>
    simp [tangentialProjector, normalProjector, symmetrize, outer, exSite, exTraces, mulVec, dotProduct,
      Fin.sum_univ_two]
  have hn : macaulay (exSite.normal ⬝ᵥ (exTraces.disp true - exTraces.disp false)) = 1 := by
    simp [exSite, exTraces, dotProduct, Fin.sum_univ_two, macaulay]
  show effOpening exSite.coh (exTraces.disp true - exTraces.disp false) exSite.normal = 1
  rw [hm, hn] at h
  simp at h
  nlinarith

theorem ex_energy : exSite.energyFrom exTraces false = 1 / 4 := by
  unfold Site.energyFrom
  rw [ex_opening]
  simp [exSite, exTraces, Coh.energy, interfaceEnergy, burgers, Site.normalOf, lateral2, Fin.sum_univ_two]
  norm_num

/-- C88 violated: with the model M1 and quadratic degradation the damage after the first evaluation depends
on the distribution of the mesh: a process that owns both cells evaluates the record twice, and the second
evaluation uses the damage of the first one.  Damage 1/4 on one process, 1/2 on two. -/
theorem C88_violated :
    (exSite.recordOf (fun _ => ()) false [.prepare, .evaluate exTraces] ()).damage = 1 / 4 ∧
    ∀ side, (exSite.recordOf (id : Bool → Bool) false [.prepare, .evaluate exTraces] side).damage = 1 / 2 := by
  have hl : SpecOdd exSite.lat := lateral2_odd
  have hv : ∀ r s, exSite.visit (.evaluate exTraces) r s =
      r.evalM1 ⟨1, 1, 0, 1, 0, false⟩ 2 1 1 (1 / 4) := by
    intro r s
    simp only [Site.visit]
    rw [opening_side, energy_side _ hl, ex_opening, ex_energy]
    rfl
  obtain ⟨h1, h2⟩ := C23_violated_reevaluation
  refine ⟨?_, fun side => ?_⟩
  · simp only [Site.recordOf, ownedSides, List.foldl_cons, List.foldl_nil, List.filter_cons,
      List.filter_nil, decide_true, if_true, hv]
    exact h2
  · cases side <;>
    · simp only [Site.recordOf, ownedSides, List.foldl_cons, List.foldl_nil, List.filter_cons,
        List.filter_nil, id, decide_true, decide_false, Bool.not_false, if_true, Bool.false_eq_true,
        if_false, hv, reduceCtorEq]
      exact h1

/-- The record of a run on two processes with an opening, a second evaluation and an unloading agrees with
the serial one when the model of Ortiz et al. is used; the largest opening is the one of the first step. -/
example : ((({ exSite with m1 := false } : Site 2 1 1).recordOf (id : Bool → Bool) true
    [.prepare, .evaluate exTraces, .record exTraces, .prepare, .evaluate ⟨fun _ => 0, fun _ _ => 0⟩]
      true).maxOpening) = 1 := by
  have h := openings_eq ({ exSite with m1 := false } : Site 2 1 1) (id : Bool → Bool) true true
    [.prepare, .evaluate exTraces, .record exTraces, .prepare, .evaluate ⟨fun _ => 0, fun _ _ => 0⟩]
  have h := congrArg (·.1) h
  refine h.trans ?_
  have ho : ({ exSite with m1 := false } : Site 2 1 1).openingFrom exTraces false = 1 := ex_opening
  have hz : ({ exSite with m1 := false } : Site 2 1 1).openingFrom ⟨fun _ => 0, fun _ _ => 0⟩ false = 0 := by
    simp [Site.openingFrom, effOpening, macaulay, norm2]
  simp [openingsStep, openingsOf, Iface.new, ho, hz]

end Verif.Itf
