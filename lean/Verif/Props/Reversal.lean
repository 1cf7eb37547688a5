import Verif.Props.Polycrystal
import Verif.Props.Newton
import Verif.Props.Params
import Verif.Model.TrialMicro
import Verif.Model.Post

/-!
# Reversing the load reverses the response: C103
-/

namespace Verif.Asm
open Matrix Finset Verif.Cry Verif.Hist Verif.Micro Verif.Lin Verif.Itf

variable {d e n N : ℕ}

/-! ## Specification -/

/-- The quadrature point under the reversed load: supply and old slips reversed, same slip resistances. -/
def Point.reversed (p : Point d n N) : Point d n N := ⟨p.shape, -p.supply, p.hist, -p.old⟩

/-- The same material under the reversed macroscopic strain. -/
def CellPrm.reversed (c : CellPrm d n) : CellPrm d n := { c with macroStrain := -c.macroStrain }

/-- The same cell under the reversed load. -/
def MeshCell.reversed (c : MeshCell d n N) : MeshCell d n N :=
  ⟨c.prm.reversed, c.kind, c.dofs, c.Q, fun q => (c.pts q).reversed⟩

/-- The same loaded face under the reversed load. -/
def Loaded.reversed (l : Loaded d n N) : Loaded d n N := ⟨l.side, -l.value, l.jxw⟩

/-- The same cell of a polycrystal under the reversed load: grain boundaries are as before. -/
def GrainCell.reversed (g : GrainCell d e n N) : GrainCell d e n N :=
  ⟨g.cell.reversed, g.F, g.views, g.B, fun b => (g.loads b).reversed⟩

/-- The same constraints with reversed prescribed values. -/
def SpecReversed {D : Type*} (K : Sol.Constraints D) : Sol.Constraints D := fun g =>
  (K g).map fun l => ⟨l.entries, -l.inhom⟩

/-- The number, if there is one, with the other sign. -/
def minus (x : Option ℝ) : Option ℝ := x.map Neg.neg

/-- Grain boundaries at which displacements do not jump. -/
def SpecBonded (cells : List (GrainCell d e n N)) : Prop := ∀ g ∈ cells, ∀ f, (g.views f).prm.decohesion = false

/-! ## Laws -/

theorem fpow_neg_abs (a b : Vec d) (e : ℝ) : fpow |a ⬝ᵥ (-b)| e = fpow |a ⬝ᵥ b| e := by
  rw [dotProduct_neg, abs_neg]

theorem bracket_neg (v : VecLaw) (s : System d) (g : Vec d) : v.bracket s (-g) = v.bracket s g := by
  unfold VecLaw.bracket
  rw [fpow_neg_abs, fpow_neg_abs]

theorem reg_neg (f : RegFn) (k x : ℝ) : reg f k (-x) = -reg f k x := by
  cases f with
  | atan => simp only [reg]; rw [mul_neg, neg_div, Real.arctan_neg, mul_neg]
  | sqrt => simp only [reg]; rw [neg_mul_neg, neg_div]
  | gd => simp only [reg]; rw [mul_neg, neg_div, Real.sinh_neg, Real.arctan_neg, mul_neg]
  | tanh => simp only [reg]; rw [neg_div, Real.tanh_neg]
  | erf =>
    simp only [reg]
    rw [mul_neg, neg_div]
    unfold erf
    rw [← mul_neg]
    congr 1
    have h := intervalIntegral.integral_comp_neg (a := 0) (b := √Real.pi / 2 * x / k) fun t => Real.exp (-t ^ 2)
    simp only [even_two, Even.neg_pow, neg_zero] at h
    rw [h, intervalIntegral.integral_symm]

theorem regDeriv_neg (f : RegFn) (k x : ℝ) : regDeriv f k (-x) = regDeriv f k x := by
  cases f <;> simp [regDeriv, neg_div]

theorem sgn_neg (x : ℝ) : sgn (-x) = -sgn x := by
  unfold sgn
  rcases lt_trichotomy x 0 with h | h | h
  · simp [h, h.not_gt]
  · simp [h]
  · simp [h, h.not_gt]

theorem update_neg (b : Bulk n) (s o : Fin n → ℝ) : b.update (-s) (-o) = b.update s o := by
  have h : ∀ i, |(-s) i - (-o) i| = |s i - o i| := fun i => by
    simp only [Pi.neg_apply]; rw [show -s i - -o i = -(s i - o i) by ring, abs_neg]
  unfold Bulk.update hardenRow
  simp only [h]

theorem rate_neg (s o : Fin n → ℝ) (dt : ℝ) (a : Fin n) : ((-s) a - (-o) a) / dt = -((s a - o a) / dt) := by
  simp only [Pi.neg_apply]; ring

/-- C103, laws: reversed slips and gradients give the reversed microstresses, the same tangents and the same slip
resistances. -/
theorem C103_laws (v : VecLaw) (s : System d) (g : Vec d) (l : Law) (h : Bulk n) (slips old : Fin n → ℝ) (dt : ℝ)
    (a b : Fin n) :
    v.microstress s (-g) = (v.microstress s g).map (- ·) ∧ v.jacobian s (-g) = v.jacobian s g ∧
    l.evalMicrostress h (-slips) (-old) dt a = -l.evalMicrostress h slips old dt a ∧
    l.evalJacobian h (-slips) (-old) dt a b = l.evalJacobian h slips old dt a b ∧
    (h.update (-slips) (-old)).res = (h.update slips old).res := by
  refine ⟨?_, ?_, ?_, ?_, by rw [update_neg]⟩
  · unfold VecLaw.microstress
    rw [bracket_neg, Option.map_map]
    congr 1
    funext m
    simp [mulVec_neg]
  · unfold VecLaw.jacobian; rw [bracket_neg]
  · unfold Law.evalMicrostress Law.microstress
    simp only [update_neg, rate_neg, sgn_neg, reg_neg]
    split_ifs <;> ring
  · unfold Law.evalJacobian Law.jacobian
    simp only [update_neg, rate_neg, sgn_neg, reg_neg, regDeriv_neg, neg_mul_neg]

/-! ## Cells -/

theorem strain_neg (s : Shape d n N) (u : Fin N → ℝ) : s.strain (-u) = -s.strain u := by
  simp [Shape.strain]

theorem slip_neg (s : Shape d n N) (u : Fin N → ℝ) : s.slip (-u) = -s.slip u := by
  funext a; simp [Shape.slip]

theorem slipGrad_neg (s : Shape d n N) (u : Fin N → ℝ) (a : Fin n) : s.slipGrad (-u) a = -s.slipGrad u a := by
  simp [Shape.slipGrad]

theorem elastic_neg (dn0 : ℝ) (sys : Fin n → System d) (g : Fin n → ℝ) (E : Mat d) :
    elasticStrain dn0 ((List.finRange n).map fun a => (sys a, (-g) a)) (-E) =
      -elasticStrain dn0 ((List.finRange n).map fun a => (sys a, g a)) E := by
  rw [elasticStrain_finRange, elasticStrain_finRange]
  simp only [Pi.neg_apply, neg_smul, sum_neg_distrib, smul_neg, neg_sub, sub_neg_eq_add]
  abel

theorem stress_neg (p : Elastic) (r x : Mat d) : p.stress r (-x) = -p.stress r x := by
  have := Prm.stress_smul p r x (-1)
  simpa using this

theorem ddot_neg (a b : Mat d) : ddot a (-b) = -ddot a b := by simp [ddot]

theorem stressAt_neg (c : CellPrm d n) (s : Shape d n N) (u : Fin N → ℝ) :
    c.reversed.stressAt s (-u) = -c.stressAt s u := by
  unfold CellPrm.stressAt CellPrm.elasticStrainAt
  show c.elastic.stress c.rot (-c.macroStrain +
    elasticStrain c.dn0 ((List.finRange n).map fun a => (c.sys a, s.slip (-u) a)) (s.strain (-u))) = _
  rw [slip_neg, strain_neg, elastic_neg, ← neg_add, stress_neg]

theorem resolved_neg (s : System d) (t : Mat d) : resolvedShear s (-t) = -resolvedShear s t := by
  simp [resolvedShear, ddot]

theorem rhsTerm_neg (c : CellPrm d n) (kind : Kind n N) (p : Point d n N) (u : Fin N → ℝ) (i : Fin N) :
    c.reversed.rhsTerm kind p.reversed (-u) i = minus (c.rhsTerm kind p u i) := by
  unfold CellPrm.rhsTerm minus
  cases kind i with
  | none =>
    simp only [Point.reversed, stressAt_neg, ddot_neg, Option.map_some, dotProduct_neg]
    simp only [CellPrm.reversed]
    congr 1
    ring
  | some a =>
    simp only [Point.reversed, stressAt_neg, slip_neg, slipGrad_neg]
    simp only [CellPrm.reversed]
    rw [(C103_laws c.vec (c.sys a) _ c.law p.hist (p.shape.slip u) p.old c.dt a a).1,
      (C103_laws c.vec (c.sys a) 0 c.law p.hist (p.shape.slip u) p.old c.dt a a).2.2.1, Option.map_map, Option.map_map]
    congr 1
    funext x
    simp only [Function.comp_apply, dotProduct_neg, resolved_neg]
    ring

theorem sumOpt_minus {Q : ℕ} (f : Fin Q → Option ℝ) : (sumOpt fun q => minus (f q)) = minus (sumOpt f) := by
  have e : (Neg.neg : ℝ → ℝ) = fun x => -1 * x := by funext x; ring
  unfold minus
  rw [e]
  exact Prm.sumOpt_map (-1) f _ fun _ => rfl

theorem matTerm_neg (c : CellPrm d n) (kind : Kind n N) (p : Point d n N) (u : Fin N → ℝ) (i j : Fin N) :
    c.reversed.matTerm kind p.reversed (-u) i j = c.matTerm kind p u i j := by
  unfold CellPrm.matTerm
  cases kind i with
  | none => cases kind j <;> rfl
  | some a =>
    cases kind j with
    | none => rfl
    | some b =>
      simp only [Point.reversed, slip_neg, slipGrad_neg]
      simp only [CellPrm.reversed]
      rw [(C103_laws c.vec (c.sys a) _ c.law p.hist (p.shape.slip u) p.old c.dt a b).2.1,
        (C103_laws c.vec (c.sys a) 0 c.law p.hist (p.shape.slip u) p.old c.dt a b).2.2.2.1]
      rfl

/-- C103, cells: in the reversed state a cell under the reversed load has the reversed right-hand side and the same
matrix; NaN appears in the same entries. -/
theorem C103_cell {Q : ℕ} (c : CellPrm d n) (kind : Kind n N) (pts : Fin Q → Point d n N) (u : Fin N → ℝ) (i j : Fin N) :
    c.reversed.rhs kind (fun q => (pts q).reversed) (-u) i = minus (c.rhs kind pts u i) ∧
    c.reversed.mat kind (fun q => (pts q).reversed) (-u) i j = c.mat kind pts u i j := by
  constructor
  · unfold CellPrm.rhs
    simp only [rhsTerm_neg]
    exact sumOpt_minus _
  · unfold CellPrm.mat
    simp only [matTerm_neg]

theorem side_slip_neg (s : Side d n N) (u : Fin N → ℝ) : s.slip (-u) = -s.slip u := by
  funext a; simp [Side.slip]

theorem microtraction_neg (p : MicroPrm) (lat : Vec d → Vec d → Fin e → ℝ) (cur nb : Crystal d n) (nrm : Vec d)
    (γ γn : Fin n → ℝ) (α : Fin n) :
    Itf.microtraction p lat cur nb nrm (-γ) (-γn) α = -Itf.microtraction p lat cur nb nrm γ γn α := by
  unfold Itf.microtraction
  rw [← neg_mul, ← sum_neg_distrib]
  congr 1
  exact sum_congr rfl fun β _ => by simp only [Pi.neg_apply]; ring

/-- C103, grain boundaries at which displacements do not jump: reversed forces, same matrices. -/
theorem C103_face (p : FacePrm d e) (hp : p.decohesion = false) (kind : Kind n N) (cc cn : Crystal d n) (nrm : Vec d)
    (jxw : ℝ) (h : Iface) (cur nb : Side d n N) (u un : Fin N → ℝ) (i j : Fin N) :
    p.rhsTerm kind cc cn nrm jxw h cur nb (-u) (-un) i = minus (p.rhsTerm kind cc cn nrm jxw h cur nb u un i) ∧
    p.localTerm kind cc nrm jxw h cur nb (-u) (-un) i j = p.localTerm kind cc nrm jxw h cur nb u un i j ∧
    p.couplingTerm kind cc cn nrm jxw h cur nb (-u) (-un) i j =
      p.couplingTerm kind cc cn nrm jxw h cur nb u un i j := by
  refine ⟨?_, ?_, ?_⟩
  · unfold FacePrm.rhsTerm
    cases kind i with
    | none => simp [hp, minus]
    | some a =>
      cases hm : p.microtraction
      · simp [minus]
      · simp only [if_true, minus, Option.map_some, side_slip_neg, microtraction_neg]
        congr 1
        ring
  · unfold FacePrm.localTerm
    cases kind i <;> cases kind j <;> simp [hp]
  · unfold FacePrm.couplingTerm
    cases kind i <;> cases kind j <;> simp [hp]

theorem neumann_neg (l : Loaded d n N) (i : Fin N) :
    neumannTerm l.reversed.side l.reversed.value l.reversed.jxw i = -neumannTerm l.side l.value l.jxw i := by
  simp [neumannTerm, Loaded.reversed]

theorem localRhs_neg (g : GrainCell d e n N) (hg : ∀ f, (g.views f).prm.decohesion = false) (u : ℕ → ℝ) (i : Fin N) :
    localRhs g.reversed.cell.prm g.reversed.cell.kind g.reversed.cell.pts g.reversed.cell.dofs g.reversed.views
      g.reversed.loads (-u) i =
    minus (localRhs g.cell.prm g.cell.kind g.cell.pts g.cell.dofs g.views g.loads u i) := by
  have hc : ∀ f : Fin N → ℕ, (-u) ∘ f = -(u ∘ f) := fun f => rfl
  unfold localRhs
  show ((g.cell.prm.reversed.rhs g.cell.kind (fun q => (g.cell.pts q).reversed) ((-u) ∘ g.cell.dofs) i).bind fun x =>
    (sumOpt fun f => (g.views f).prm.rhsTerm g.cell.kind (g.views f).own (g.views f).other (g.views f).nrm
      (g.views f).jxw (g.views f).hist (g.views f).cur (g.views f).nb ((-u) ∘ g.cell.dofs) ((-u) ∘ (g.views f).nbDofs) i).map
    fun y => x + y + ∑ b, neumannTerm (g.loads b).reversed.side (g.loads b).reversed.value (g.loads b).reversed.jxw i) = _
  simp only [hc, neumann_neg, sum_neg_distrib, fun f => (C103_face (g.views f).prm (hg f) g.cell.kind (g.views f).own
    (g.views f).other (g.views f).nrm (g.views f).jxw (g.views f).hist (g.views f).cur (g.views f).nb (u ∘ g.cell.dofs)
    (u ∘ (g.views f).nbDofs) i i).1, sumOpt_minus]
  rw [(C103_cell g.cell.prm g.cell.kind g.cell.pts (u ∘ g.cell.dofs) i i).1]
  unfold minus
  rw [Option.bind_map]
  cases g.cell.prm.rhs g.cell.kind g.cell.pts (u ∘ g.cell.dofs) i with
  | none => rfl
  | some x =>
    simp only [Option.bind_some, Function.comp_apply, Option.map_map]
    congr 1
    funext y
    simp only [Function.comp_apply]
    ring

/-! ## Solutions -/

theorem weight_reversed (K : Sol.Constraints ℕ) (g k : ℕ) : weight (SpecReversed K) g k = weight K g k := by
  unfold weight SpecReversed
  cases K g <;> rfl

theorem eval_neg {D : Type*} (l : Sol.Line D) (v : D → ℝ) :
    Sol.Line.eval ⟨l.entries, -l.inhom⟩ (-v) = -l.eval v := by
  have h : ∀ es : List (D × ℝ), (es.map fun e => e.2 * (-v) e.1).sum = -(es.map fun e => e.2 * v e.1).sum := by
    intro es
    induction es with
    | nil => simp
    | cons x l ih => rw [List.map_cons, List.map_cons, List.sum_cons, List.sum_cons, ih, Pi.neg_apply]; ring
  unfold Sol.Line.eval
  rw [neg_add, ← h]

theorem distribute_neg {D : Type*} (K : Sol.Constraints D) (v : D → ℝ) :
    Sol.distribute (SpecReversed K) (-v) = -Sol.distribute K v := by
  funext i
  unfold Sol.distribute SpecReversed
  simp only [Pi.neg_apply]
  cases K i with
  | none => rfl
  | some l => exact eval_neg l v

theorem reversed_reversed {D : Type*} (K : Sol.Constraints D) : SpecReversed (SpecReversed K) = K := by
  funext g
  unfold SpecReversed
  cases K g <;> simp

theorem satisfies_neg {D : Type*} (K : Sol.Constraints D) (v : D → ℝ) :
    Sol.Satisfies (SpecReversed K) (-v) ↔ Sol.Satisfies K v := by
  have h : ∀ (K : Sol.Constraints D) (v : D → ℝ), Sol.Satisfies K v → Sol.Satisfies (SpecReversed K) (-v) := by
    intro K v h i l hl
    unfold SpecReversed at hl
    obtain ⟨l', h1, rfl⟩ := Option.map_eq_some_iff.1 hl
    rw [eval_neg, Pi.neg_apply, h i l' h1]
  refine ⟨fun hs => ?_, h K v⟩
  have := h _ _ hs
  rwa [reversed_reversed, neg_neg] at this

theorem cell_reversed_reversed (g : GrainCell d e n N) : g.reversed.reversed = g := by
  obtain ⟨⟨⟨_, _, _, _, _, _, _, _, _, m⟩, k, ds, Q, pts⟩, F, views, B, loads⟩ := g
  simp only [GrainCell.reversed, MeshCell.reversed, CellPrm.reversed, Point.reversed, Loaded.reversed, neg_neg]

/-- C103, time steps: the reversed state solves the step under the reversed load, and satisfies the reversed boundary
values, if and only if the state solves the step under the load and satisfies the boundary values. -/
theorem C103_solution (cells : List (GrainCell d e n N)) (hb : SpecBonded cells) (K : Sol.Constraints ℕ) (m : ℕ)
    (u : ℕ → ℝ) :
    (SpecGrainSolution (cells.map GrainCell.reversed) (SpecReversed K) m (-u) ↔ SpecGrainSolution cells K m u) ∧
    (Sol.Satisfies (SpecReversed K) (-u) ↔ Sol.Satisfies K u) := by
  refine ⟨?_, satisfies_neg K u⟩
  have key : ∀ (cells : List (GrainCell d e n N)) (hb : SpecBonded cells) (K : Sol.Constraints ℕ) (u : ℕ → ℝ),
      SpecGrainSolution cells K m u → SpecGrainSolution (cells.map GrainCell.reversed) (SpecReversed K) m (-u) := by
    rintro cells hb K u ⟨R, h1, h2⟩
    refine ⟨fun g i => -R g.reversed i, ?_, fun r hr => ?_⟩
    · intro g hg i
      obtain ⟨g, hg', rfl⟩ := List.mem_map.1 hg
      rw [localRhs_neg g (hb g hg') u i, h1 g hg' i]
      show minus (some (R g i)) = some (-R g.reversed.reversed i)
      rw [cell_reversed_reversed]
      rfl
    · have := h2 r hr
      unfold Lin.residual at this ⊢
      rw [List.map_map] at this
      rw [List.map_map, List.map_map]
      have e1 : (List.map (((fun a : Local N => ∑ i, weight (SpecReversed K) (a.dofs i) r * a.rhs i) ∘
          fun c : GrainCell d e n N => c.local fun g i => -R g.reversed i) ∘ GrainCell.reversed) cells) =
          List.map (fun g : GrainCell d e n N => -(∑ i, weight K (g.cell.dofs i) r * R g i)) cells := by
        refine List.map_congr_left fun g _ => ?_
        simp only [Function.comp_apply, GrainCell.local, weight_reversed, cell_reversed_reversed]
        rw [← sum_neg_distrib]
        exact sum_congr rfl fun i _ => by
          show weight K (g.cell.dofs i) r * -R g i = _
          ring
      have e2 : ∀ (f : GrainCell d e n N → ℝ) (l : List (GrainCell d e n N)),
          (l.map fun g => -f g).sum = -(l.map f).sum := by
        intro f l
        induction l with
        | nil => simp
        | cons x l ih => simp only [List.map_cons, List.sum_cons, ih]; ring
      rw [e1, e2 (fun g => ∑ i, weight K (g.cell.dofs i) r * R g i), neg_eq_zero]
      exact this
  refine ⟨fun h => ?_, key cells hb K u⟩
  have := key (cells.map GrainCell.reversed) (fun g hg f => by
    obtain ⟨g, hg', rfl⟩ := List.mem_map.1 hg
    exact hb g hg' f) _ _ h
  rw [List.map_map, reversed_reversed, neg_neg] at this
  have e : (cells.map (GrainCell.reversed ∘ GrainCell.reversed)) = cells := by
    refine (List.map_congr_left fun g _ => ?_).trans (List.map_id _)
    exact cell_reversed_reversed g
  rwa [e] at this

end Verif.Asm
