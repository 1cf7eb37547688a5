import Verif.Model.TrialMicro
import Verif.Props.Face
import Verif.Props.ActiveSet

/-!
# The trial microstress and the microforce balance: C76
-/

namespace Verif.Asm
open Matrix Finset Verif.Cry Verif.Hist Verif.Micro Verif.Itf

variable {d n N : ℕ}

/-! ## Specification -/

/-- How much the value at the degree of freedom `g` changes when the unconstrained value `k` grows by
one: the values at hanging nodes follow their constraints. -/
noncomputable def SpecWeight (hn : Sol.Constraints ℕ) (g k : ℕ) : ℝ :=
  Sol.distribute hn (Pi.single k 1) g - Sol.distribute hn 0 g

/-- Row of the microforce balance of a cell for a scalar microstress `p` at its quadrature points, with
the displacements of `u` and the slips of `old`. -/
noncomputable def SpecRow (c : TCell d n N) (u old : ℕ → ℝ) (i : Fin N) (p : Fin c.Q → ℝ) : ℝ :=
  match c.kind i with
  | none => 0
  | some a => ∑ q, -(c.prm.dn2 * ((c.pts q).grad a i ⬝ᵥ
        (c.prm.vec.microstress (c.prm.sys a) ((c.pts q).slipGrad (old ∘ c.dofs) a)).getD 0) -
      (c.pts q).phi a i * (c.prm.dn3 * resolvedShear (c.prm.sys a)
        (c.prm.trialStress (c.pts q) (u ∘ c.dofs) (old ∘ c.dofs)) - p q)) * (c.pts q).jxw

/-- The microforce balance of the degree of freedom `k` for a scalar microstress of the constant value
`p`. -/
noncomputable def SpecBalance (hn : Sol.Constraints ℕ) (cells : List (TCell d n N)) (u old : ℕ → ℝ)
    (k : ℕ) (p : ℝ) : ℝ :=
  (cells.map fun c => ∑ i, SpecWeight hn (c.dofs i) k * SpecRow c u old i fun _ => p).sum

/-- Defect energies with a microstress for every slip gradient, elements whose slip shape functions
sum to one. -/
structure SpecCells (cells : List (TCell d n N)) : Prop where
  index : ∀ c ∈ cells, 2 ≤ c.prm.vec.index
  primitive : ∀ c ∈ cells, ∀ q, (c.pts q).Primitive c.kind
  unity : ∀ c ∈ cells, ∀ q a, ∑ j, (c.pts q).phi a j = 1

/-- The shape functions of `k` vanish at the boundary of the domain. -/
def SpecInterior (hn : Sol.Constraints ℕ) (cells : List (TCell d n N)) (k : ℕ) : Prop :=
  ∀ c ∈ cells, ∀ i, SpecWeight hn (c.dofs i) k ≠ 0 → ∀ f a, (c.faces f).phi a i = 0

/-- Flux of the vectorial microstress through the boundary of the domain, tested with `k`. -/
noncomputable def SpecFlux (hn : Sol.Constraints ℕ) (cells : List (TCell d n N)) (old : ℕ → ℝ)
    (k : ℕ) : ℝ :=
  (cells.map fun c => ∑ i, SpecWeight hn (c.dofs i) k * match c.kind i with
    | none => 0
    | some a => ∑ f, c.prm.dn2 * (c.faces f).phi a i * ((c.prm.vec.microstress (c.prm.sys a)
        ((c.faces f).slipGrad (old ∘ c.dofs) a)).getD 0 ⬝ᵥ (c.faces f).normal) * (c.faces f).jxw).sum

/-! ## Helpers -/

theorem weight_eq (hn : Sol.Constraints ℕ) : weight hn = SpecWeight hn := by
  funext g k
  unfold weight SpecWeight Sol.distribute
  cases hn g with
  | none =>
    simp only [Pi.zero_apply, sub_zero]
    by_cases h : g = k
    · rw [if_pos h, h, Pi.single_eq_same]
    · rw [if_neg h, Pi.single_eq_of_ne h]
  | some l =>
    simp only [Sol.Line.eval, Pi.zero_apply, mul_zero]
    have : ∀ e : ℕ × ℝ, (if e.1 = k then e.2 else 0) = e.2 * (Pi.single k 1 : ℕ → ℝ) e.1 := by
      intro e
      by_cases h : e.1 = k
      · rw [if_pos h, h, Pi.single_eq_same, mul_one]
      · rw [if_neg h, Pi.single_eq_of_ne h, mul_zero]
    simp only [this]
    simp

theorem lumped_eq {cells : List (TCell d n N)} (h : SpecCells cells) {c : TCell d n N}
    (hc : c ∈ cells) (i : Fin N) : c.lumped i = match c.kind i with
      | none => 0
      | some a => ∑ q, (c.pts q).phi a i * (c.pts q).jxw := by
  unfold TCell.lumped
  cases c.kind i with
  | none => rfl
  | some a =>
    refine sum_congr rfl fun q _ => ?_
    have : ∀ j, (if c.kind j = some a then (c.pts q).phi a i * (c.pts q).phi a j * (c.pts q).jxw
        else 0) = (c.pts q).phi a i * (c.pts q).jxw * (c.pts q).phi a j := by
      intro j
      split_ifs with hj
      · ring
      · rw [(h.primitive c hc q).phi j a hj]; ring
    simp only [this]
    rw [← Finset.mul_sum, h.unity c hc q a, mul_one]

theorem cell_rhs {cells : List (TCell d n N)} (h : SpecCells cells) {c : TCell d n N}
    (hc : c ∈ cells) (u old : ℕ → ℝ) (p : ℝ) (i : Fin N) :
    c.rhs u old i = some (SpecRow c u old i (fun _ => p) + p * c.lumped i + match c.kind i with
      | none => 0
      | some a => ∑ f, c.prm.dn2 * (c.faces f).phi a i * ((c.prm.vec.microstress (c.prm.sys a)
          ((c.faces f).slipGrad (old ∘ c.dofs) a)).getD 0 ⬝ᵥ (c.faces f).normal) *
            (c.faces f).jxw) := by
  rw [lumped_eq h hc]
  unfold TCell.rhs SpecRow CellPrm.trialTerm CellPrm.trialFaceTerm
  cases hk : c.kind i with
  | none =>
    simp only
    rw [sumOpt_some _ (fun _ => 0) fun _ => rfl, sumOpt_some _ (fun _ => 0) fun _ => rfl]
    simp
  | some a =>
    simp only [microstress_eq c.prm.vec (h.index c hc), Option.map_some, Option.getD_some]
    rw [sumOpt_some _ _ fun _ => rfl, sumOpt_some _ _ fun _ => rfl]
    simp only [Option.bind_some, Option.map_some]
    congr 2
    rw [Finset.mul_sum, ← Finset.sum_add_distrib]
    exact sum_congr rfl fun q _ => by ring

theorem foldl_rhs (hn : Sol.Constraints ℕ) (u old : ℕ → ℝ) (k : ℕ) (g : TCell d n N → ℝ)
    (l : List (TCell d n N)) (x : ℝ) (hg : ∀ c ∈ l,
      sumOpt (fun i => (c.rhs u old i).map (weight hn (c.dofs i) k * ·)) = some (g c)) :
    l.foldl (fun acc c => acc.bind fun x =>
      (sumOpt fun i => (c.rhs u old i).map (weight hn (c.dofs i) k * ·)).map (x + ·)) (some x) =
    some (x + (l.map g).sum) := by
  induction l generalizing x with
  | nil => simp
  | cons c l ih =>
    rw [List.foldl_cons, Option.bind_some, hg c List.mem_cons_self, Option.map_some,
      ih _ fun c hc => hg c (List.mem_cons_of_mem _ hc), List.map_cons, List.sum_cons, add_assoc]

/-- The assembled right-hand side: balance row, mass times value, boundary flux. -/
theorem trialRhs_eq (hn : Sol.Constraints ℕ) (cells : List (TCell d n N)) (h : SpecCells cells)
    (u old : ℕ → ℝ) (k : ℕ) (p : ℝ) :
    trialRhs hn cells u old k = some (SpecBalance hn cells u old k p +
      p * trialLumped hn cells k + SpecFlux hn cells old k) := by
  unfold trialRhs
  rw [foldl_rhs hn u old k _ cells 0 fun c hc => by
    simp only [cell_rhs h hc u old p, Option.map_some]
    exact sumOpt_some _ _ fun i => rfl]
  unfold SpecBalance SpecFlux trialLumped
  rw [weight_eq, zero_add, ← List.sum_map_mul_left, ← List.sum_map_add, ← List.sum_map_add]
  congr 3
  funext c
  rw [Finset.mul_sum, ← Finset.sum_add_distrib, ← Finset.sum_add_distrib]
  exact sum_congr rfl fun i _ => by ring

theorem flux_interior (hn : Sol.Constraints ℕ) (cells : List (TCell d n N)) (old : ℕ → ℝ) (k : ℕ)
    (h : SpecInterior hn cells k) : SpecFlux hn cells old k = 0 := by
  unfold SpecFlux
  apply List.sum_eq_zero
  intro x hx
  obtain ⟨c, hc, rfl⟩ := List.mem_map.1 hx
  refine sum_eq_zero fun i _ => ?_
  by_cases hw : SpecWeight hn (c.dofs i) k = 0
  · rw [hw, zero_mul]
  · cases c.kind i with
    | none => simp
    | some a =>
      simp only
      rw [sum_eq_zero fun f _ => by rw [h c hc i hw f a]; ring, mul_zero]

/-! ## C76 -/

/-- C76: the rows of `SpecBalance` are the slip rows of the residual: with the displacements of the
trial solution, the slips of the old one and the scalar microstress of the law. -/
theorem C76_residual (c : TCell d n N) (hi : 2 ≤ c.prm.vec.index)
    (hp : ∀ q, (c.pts q).Primitive c.kind) (u old : ℕ → ℝ) (w : Fin N → ℝ)
    (hu : ∀ i, c.kind i = none → w i = u (c.dofs i))
    (hs : ∀ i a, c.kind i = some a → w i = old (c.dofs i))
    (supply : Fin c.Q → Vec d) (hist : Fin c.Q → Bulk n) (prev : Fin c.Q → Fin n → ℝ) (i : Fin N)
    (a : Fin n) (ha : c.kind i = some a) :
    c.prm.rhs c.kind (fun q => ⟨c.pts q, supply q, hist q, prev q⟩) w i =
      some (SpecRow c u old i fun q =>
        c.prm.law.evalMicrostress (hist q) ((c.pts q).slip w) (prev q) c.prm.dt a) := by
  have hstrain : ∀ q, (c.pts q).strain w = (c.pts q).strain (u ∘ c.dofs) := by
    intro q
    unfold Shape.strain
    refine sum_congr rfl fun j _ => ?_
    cases hj : c.kind j with
    | none => rw [hu j hj]; rfl
    | some b => rw [(hp q).symGrad j b hj, smul_zero, smul_zero]
  have hslip : ∀ q b, (c.pts q).slip w b = (c.pts q).slip (old ∘ c.dofs) b := by
    intro q b
    unfold Shape.slip
    refine sum_congr rfl fun j _ => ?_
    cases hj : c.kind j with
    | none => rw [(hp q).phi j b (by rw [hj]; simp), mul_zero, mul_zero]
    | some e => rw [hs j e hj]; rfl
  have hgrad : ∀ q b, (c.pts q).slipGrad w b = (c.pts q).slipGrad (old ∘ c.dofs) b := by
    intro q b
    unfold Shape.slipGrad
    refine sum_congr rfl fun j _ => ?_
    cases hj : c.kind j with
    | none => rw [(hp q).grad j b (by rw [hj]; simp), smul_zero, smul_zero]
    | some e => rw [hs j e hj]; rfl
  unfold CellPrm.rhs SpecRow CellPrm.rhsTerm CellPrm.stressAt CellPrm.elasticStrainAt
  rw [ha]
  simp only [microstress_eq c.prm.vec hi, Option.map_some, Option.getD_some, hstrain, hslip, hgrad]
  rw [sumOpt_some _ _ fun _ => rfl]
  congr 1
  refine sum_congr rfl fun q _ => ?_
  unfold CellPrm.trialStress
  ring

/-- C76 away from the boundary of the domain and from grain boundaries with microtractions: the trial
microstress of a slip degree of freedom is the one value of the scalar microstress with which the
microforce balance of that degree of freedom holds while the slips do not change.  Missing from the full
property: degrees of freedom at the boundary of the domain (`C76_violated_boundary`) and at grain
boundaries with microtractions (`C76_violated_microtraction`). -/
theorem C76_balance_partial (hn : Sol.Constraints ℕ) (cells : List (TCell d n N))
    (h : SpecCells cells) (u old : ℕ → ℝ) (slips : List ℕ) (rhs t : ℕ → ℝ)
    (hr : ∀ k, trialRhs hn cells u old k = some (rhs k))
    (ht : AS.trialMicrostress hn slips (trialLumped hn cells) rhs = some t)
    (k : ℕ) (hk : k ∈ slips) (hf : hn k = none) (hin : SpecInterior hn cells k) (p : ℝ) :
    t k = p ↔ SpecBalance hn cells u old k p = 0 := by
  have hm := AS.C13_trial_microstress hn slips _ rhs t ht k hk hf
  have h0 : trialLumped hn cells k ≠ 0 := by
    unfold AS.trialMicrostress at ht
    split_ifs at ht with hz
    push Not at hz
    exact hz k hk
  have e := hr k
  rw [trialRhs_eq hn cells h u old k p, flux_interior hn cells old k hin] at e
  have e := Option.some.inj e
  constructor
  · intro hp
    rw [hp] at hm
    linarith
  · intro hb
    rw [hb, ← hm] at e
    have : trialLumped hn cells k * (t k - p) = 0 := by linarith
    rcases mul_eq_zero.1 this with h | h
    · exact absurd h h0
    · linarith

/-- C76, the yield condition: an unconstrained slip degree of freedom is active iff no scalar
microstress within the slip resistance balances the microforces while the slips do not change. -/
theorem C76_active_partial (hn affine newton : Sol.Constraints ℕ) (cells : List (TCell d n N))
    (h : SpecCells cells) (u old : ℕ → ℝ) (slips : List ℕ) (rhs t : ℕ → ℝ)
    (hr : ∀ k, trialRhs hn cells u old k = some (rhs k))
    (ht : AS.trialMicrostress hn slips (trialLumped hn cells) rhs = some t)
    (y : AS.Yield) (hy : y.perfect = false) (hfree : ∀ e ∈ slips, affine e = none)
    (k : ℕ) (hk : k ∈ slips) (hf : hn k = none) (hin : SpecInterior hn cells k) :
    k ∈ (AS.determineActive affine hn newton slips t y).1 ↔
      ∀ p, |p| ≤ y.resistance k → SpecBalance hn cells u old k p ≠ 0 := by
  have key := C76_balance_partial hn cells h u old slips rhs t hr ht k hk hf hin
  rw [AS.C13_active_iff]
  simp only [hy]
  constructor
  · rintro ⟨e, he, hyl, ⟨rfl, -⟩ | ⟨b, hb⟩⟩ p hp hb0
    · rw [← (key p).2 hb0] at hp
      exact absurd hyl (by simpa using hp)
    · rw [hfree e he] at hb; simp at hb
  · intro hall
    refine ⟨k, hk, ?_, Or.inl ⟨rfl, Or.inl (hfree k hk)⟩⟩
    by_contra hle
    exact hall (t k) (by simpa using hle) ((key (t k)).1 rfl)

/-- C76: in a state with uniform resolved shear stress and without slip gradients the trial microstress
is the fourth dimensionless number times the resolved shear stress, also at boundaries. -/
theorem C76_uniform (hn : Sol.Constraints ℕ) (cells : List (TCell d n N))
    (h : SpecCells cells) (u old : ℕ → ℝ) (slips : List ℕ) (rhs t : ℕ → ℝ)
    (hr : ∀ k, trialRhs hn cells u old k = some (rhs k))
    (ht : AS.trialMicrostress hn slips (trialLumped hn cells) rhs = some t)
    (k : ℕ) (hk : k ∈ slips) (hf : hn k = none) (dn3 tau : ℝ)
    (h3 : ∀ c ∈ cells, c.prm.dn3 = dn3)
    (hg : ∀ c ∈ cells, ∀ q a, (c.pts q).slipGrad (old ∘ c.dofs) a = 0)
    (hgf : ∀ c ∈ cells, ∀ f a, (c.faces f).slipGrad (old ∘ c.dofs) a = 0)
    (htau : ∀ c ∈ cells, ∀ i a, SpecWeight hn (c.dofs i) k ≠ 0 → c.kind i = some a → ∀ q,
      resolvedShear (c.prm.sys a) (c.prm.trialStress (c.pts q) (u ∘ c.dofs) (old ∘ c.dofs)) = tau) :
    t k = dn3 * tau := by
  have hm := AS.C13_trial_microstress hn slips _ rhs t ht k hk hf
  have h0 : trialLumped hn cells k ≠ 0 := by
    unfold AS.trialMicrostress at ht
    split_ifs at ht with hz
    push Not at hz
    exact hz k hk
  have hx : ∀ c ∈ cells, ∀ a, (c.prm.vec.microstress (c.prm.sys a) (0 : Vec d)).getD 0 = 0 := by
    intro c hc a
    rw [microstress_eq c.prm.vec (h.index c hc), Option.getD_some]
    funext j
    simp [xi, phi]
  have hflux : SpecFlux hn cells old k = 0 := by
    unfold SpecFlux
    apply List.sum_eq_zero
    intro x hx'
    obtain ⟨c, hc, rfl⟩ := List.mem_map.1 hx'
    refine sum_eq_zero fun i _ => ?_
    cases c.kind i with
    | none => simp
    | some a =>
      simp only [hgf c hc, hx c hc]
      simp
  have hbal : SpecBalance hn cells u old k (dn3 * tau) = 0 := by
    unfold SpecBalance
    apply List.sum_eq_zero
    intro x hx'
    obtain ⟨c, hc, rfl⟩ := List.mem_map.1 hx'
    refine sum_eq_zero fun i _ => ?_
    by_cases hw : SpecWeight hn (c.dofs i) k = 0
    · rw [hw, zero_mul]
    · unfold SpecRow
      cases hi : c.kind i with
      | none => simp
      | some a =>
        simp only [hg c hc, hx c hc, htau c hc i a hw hi, h3 c hc]
        simp
  have e := hr k
  rw [trialRhs_eq hn cells h u old k (dn3 * tau), hbal, hflux] at e
  have e := Option.some.inj e
  have : trialLumped hn cells k * (t k - dn3 * tau) = 0 := by linarith
  rcases mul_eq_zero.1 this with h | h
  · exact absurd h h0
  · linarith

/-- C76: what is missing at the boundary of the domain: the residual assumes that no microstress flows
through it, the trial microstress takes the flux of the old slip gradient into account. -/
theorem C76_boundary (hn : Sol.Constraints ℕ) (cells : List (TCell d n N))
    (h : SpecCells cells) (u old : ℕ → ℝ) (slips : List ℕ) (rhs t : ℕ → ℝ)
    (hr : ∀ k, trialRhs hn cells u old k = some (rhs k))
    (ht : AS.trialMicrostress hn slips (trialLumped hn cells) rhs = some t)
    (k : ℕ) (hk : k ∈ slips) (hf : hn k = none) :
    SpecBalance hn cells u old k (t k) = -SpecFlux hn cells old k := by
  have hm := AS.C13_trial_microstress hn slips _ rhs t ht k hk hf
  have e := hr k
  rw [trialRhs_eq hn cells h u old k (t k)] at e
  have e := Option.some.inj e
  linarith

/-! ## Violations and non-vacuity -/

/-- One cell with a displacement and a slip degree of freedom, a face at the boundary of the domain. -/
noncomputable def exTCell (flux : ℝ) : TCell 2 1 2 where
  prm := exCell true 7
  kind := exKind
  dofs := fun i => i
  Q := 1
  pts := fun _ => exShape
  F := 1
  faces := fun _ => ⟨1, ![1, 0], fun _ i => if i = 0 then 0 else flux, fun _ i => if i = 0 then 0 else ![1, 3]⟩

theorem exTCell_ok (flux : ℝ) : SpecCells [exTCell flux] := by
  constructor
  · intro c hc; rw [List.mem_singleton.1 hc]; norm_num [exTCell, exCell]
  · intro c hc; rw [List.mem_singleton.1 hc]; exact fun _ => exShape_primitive
  · intro c hc; rw [List.mem_singleton.1 hc]
    intro q a
    show ∑ j, exShape.phi a j = 1
    simp [exShape, Fin.sum_univ_two]

theorem exTCell_lumped (flux : ℝ) : trialLumped (fun _ => none) [exTCell flux] 1 = 1 / 2 := by
  unfold trialLumped
  simp only [List.map_cons, List.map_nil, List.sum_cons, List.sum_nil, Fin.sum_univ_two]
  rw [lumped_eq (exTCell_ok flux) List.mem_cons_self, lumped_eq (exTCell_ok flux) List.mem_cons_self]
  have hs : ∀ f : Fin (exTCell flux).Q → ℝ, ∑ q, f q = f (0 : Fin 1) := fun f => Fin.sum_univ_one f
  simp only [hs]
  simp [exTCell, exKind, exShape, weight]

theorem exTCell_trial (flux : ℝ) (u old : ℕ → ℝ) : ∃ rhs t : ℕ → ℝ,
    (∀ k, trialRhs (fun _ => none) [exTCell flux] u old k = some (rhs k)) ∧
    AS.trialMicrostress (fun _ => none) [1] (trialLumped (fun _ => none) [exTCell flux]) rhs =
      some t := by
  refine ⟨fun k => SpecBalance (fun _ => none) [exTCell flux] u old k 0 +
      0 * trialLumped (fun _ => none) [exTCell flux] k + SpecFlux (fun _ => none) [exTCell flux] old k,
    _, fun k => trialRhs_eq _ _ (exTCell_ok flux) u old k 0, if_neg ?_⟩
  rintro ⟨e, he, hz⟩
  rw [List.mem_singleton.1 he, exTCell_lumped] at hz
  norm_num at hz

theorem exTCell_flux (flux : ℝ) : SpecFlux (fun _ => none) [exTCell flux] (fun _ => 1) 1 =
    3 * flux := by
  unfold SpecFlux
  simp only [List.map_cons, List.map_nil, List.sum_cons, List.sum_nil, Fin.sum_univ_two]
  have : ∀ g, (exTCell flux).prm.vec.microstress ((exTCell flux).prm.sys 0) g =
      some (xi (exTCell flux).prm.vec ((exTCell flux).prm.sys 0) g) :=
    fun g => microstress_eq _ (by norm_num [exTCell, exCell]) _ g
  have hs : ∀ f : Fin (exTCell flux).F → ℝ, ∑ q, f q = f (0 : Fin 1) := fun f => Fin.sum_univ_one f
  have h0 : (exTCell flux).kind 0 = none := rfl
  have h1 : (exTCell flux).kind 1 = some 0 := rfl
  simp only [hs, h0, h1, this, Option.getD_some]
  simp [exTCell, SpecWeight, Sol.distribute, exCell, BShape.slipGrad, Fin.sum_univ_two]
  have : vecHead (xi ⟨1, 1, 2, false⟩ ⟨![1, 0], ![0, 1], 0⟩ (![1, 3] : Fin 2 → ℝ)) = 1 := by
    show xi ⟨1, 1, 2, false⟩ ⟨![1, 0], ![0, 1], 0⟩ (![1, 3] : Fin 2 → ℝ) 0 = 1
    simp [xi, phi, VecLaw.factor]
  rw [this, mul_one]

/-- C76 is violated at the boundary of the domain: with an old slip gradient there the trial microstress
is not the value that balances the microforces of the residual. -/
theorem C76_violated_boundary : ∃ (cells : List (TCell 2 1 2)) (u old rhs t : ℕ → ℝ),
    SpecCells cells ∧ (∀ k, trialRhs (fun _ => none) cells u old k = some (rhs k)) ∧
    AS.trialMicrostress (fun _ => none) [1] (trialLumped (fun _ => none) cells) rhs = some t ∧
    SpecBalance (fun _ => none) cells u old 1 (t 1) ≠ 0 := by
  obtain ⟨rhs, t, hr, ht⟩ := exTCell_trial 1 (fun _ => 0) (fun _ => 1)
  refine ⟨_, _, _, rhs, t, exTCell_ok 1, hr, ht, ?_⟩
  rw [C76_boundary _ _ (exTCell_ok 1) _ _ _ rhs t hr ht 1 (by simp) rfl, exTCell_flux]
  norm_num

/-- C76 is violated at grain boundaries with microtractions: the trial microstress balances the cell part
of the residual's row, to which the residual adds a microtraction that does not vanish (here the
neighbour grain has slipped, the cell has not). -/
theorem C76_violated_microtraction : ∃ (cells : List (TCell 2 1 2)) (u old rhs t : ℕ → ℝ) (m : ℝ),
    SpecCells cells ∧ (∀ k, trialRhs (fun _ => none) cells u old k = some (rhs k)) ∧
    AS.trialMicrostress (fun _ => none) [1] (trialLumped (fun _ => none) cells) rhs = some t ∧
    SpecInterior (fun _ => none) cells 1 ∧
    (exFace true).rhsTerm exKind exGrainA exGrainB ![1, 0] 1 ⟨0, 1, 0, 0, 0⟩ exMeet exMeet
      (fun _ => 0) (fun _ => 1) 1 = some m ∧
    SpecBalance (fun _ => none) cells u old 1 (t 1) + m ≠ 0 := by
  obtain ⟨rhs, t, hr, ht⟩ := exTCell_trial 0 (fun _ => 0) (fun _ => 0)
  obtain ⟨Ra, -, hA, -, -, h1⟩ := exMeet_rows
  have hin : SpecInterior (fun _ => none) [exTCell 0] 1 := by
    intro c hc
    obtain rfl := List.mem_singleton.1 hc
    intro i _ f a
    simp [exTCell]
  refine ⟨_, _, _, rhs, t, Ra 1, exTCell_ok 0, hr, ht, hin, hA 1, ?_⟩
  rw [(C76_balance_partial _ _ (exTCell_ok 0) _ _ _ rhs t hr ht 1 (by simp) rfl hin (t 1)).1 rfl, h1]
  norm_num

/-- Non-vacuity of C76: a sheared cell away from the boundary; the trial microstress is five times the
resolved shear stress and not zero. -/
example : ∃ rhs t : ℕ → ℝ,
    (∀ k, trialRhs (fun _ => none) [exTCell 0] (fun _ => 1) (fun _ => 0) k = some (rhs k)) ∧
    AS.trialMicrostress (fun _ => none) [1] (trialLumped (fun _ => none) [exTCell 0]) rhs = some t ∧
    t 1 = 5 * resolvedShear ((exCell true 7).sys 0)
      ((exCell true 7).trialStress exShape (fun _ => 1) (fun _ => 0)) := by
  obtain ⟨rhs, t, hr, ht⟩ := exTCell_trial 0 (fun _ => 1) (fun _ => 0)
  refine ⟨rhs, t, hr, ht, C76_uniform _ _ (exTCell_ok 0) _ _ _ rhs t hr ht 1 (by simp) rfl 5 _
    ?_ ?_ ?_ ?_⟩
  · intro c hc; rw [List.mem_singleton.1 hc]; rfl
  · intro c hc; obtain rfl := List.mem_singleton.1 hc; intro q a; simp [exTCell, Shape.slipGrad]
  · intro c hc; obtain rfl := List.mem_singleton.1 hc; intro f a; simp [exTCell, BShape.slipGrad]
  · intro c hc
    obtain rfl := List.mem_singleton.1 hc
    intro i a _ _ q
    rw [Subsingleton.elim a 0]
    rfl

end Verif.Asm
