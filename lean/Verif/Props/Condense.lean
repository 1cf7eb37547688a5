import Verif.Model.Condense
import Verif.Props.App

/-!
# The linear systems of the Newton iteration: C77, C78, C79
-/

namespace Verif.Lin
open Verif.Sol Verif.Asm Verif.App Finset

variable {N : ℕ}

/-! ## Specification -/

/-- The weak form of the residual: the local vectors tested with `v`. -/
def SpecResidual (cells : List (Local N)) (v : ℕ → ℝ) : ℝ :=
  (cells.map fun a => ∑ i, v (a.dofs i) * a.rhs i).sum

/-- The weak form of the linearised equations: the local matrices, including the couplings across grain
boundaries, between `v` and `u`. -/
def SpecTangent (cells : List (Local N)) (v u : ℕ → ℝ) : ℝ :=
  (cells.map fun a => ∑ i, ∑ j, v (a.dofs i) * a.mat i j * u (a.dofs j) +
    (a.couplings.map fun b => ∑ i, ∑ j, v (a.dofs i) * b.2 i j * u (b.1 j)).sum).sum

/-- Linear homogeneous closed constraints between `n` degrees of freedom. -/
structure Homogeneous (K : Constraints ℕ) (n : ℕ) : Prop where
  inhom : ∀ g l, K g = some l → l.inhom = 0
  within : ∀ g l, K g = some l → ∀ e ∈ l.entries, e.1 < n
  closed : Closed K

/-- The cells use degrees of freedom below `n`. -/
structure Numbered (cells : List (Local N)) (n : ℕ) : Prop where
  dofs : ∀ a ∈ cells, ∀ i, a.dofs i < n
  couplings : ∀ a ∈ cells, ∀ b ∈ a.couplings, ∀ j, b.1 j < n

/-! ## C77 -/

/-- The internal constraints are the Newton constraints with further degrees of freedom fixed. -/
def Pins (newton internal : Constraints ℕ) : Prop :=
  ∀ g, (internal g = none → newton g = none) ∧
    ∀ l, internal g = some l → ∀ e ∈ l.entries, e.1 ∈ resolve newton g

theorem resolve_pins {newton internal : Constraints ℕ} (h : Pins newton internal) {g r : ℕ}
    (hr : r ∈ resolve internal g) : r ∈ resolve newton g := by
  unfold resolve at hr
  cases hi : internal g with
  | none =>
    rw [hi] at hr
    unfold resolve
    rw [(h g).1 hi]
    exact hr
  | some l =>
    rw [hi] at hr
    obtain ⟨e, he, rfl⟩ := List.mem_map.1 hr
    exact (h g).2 l hi e he

theorem written_pins (fl : Flags) {newton internal : Constraints ℕ} (h : Pins newton internal)
    (cell : ℕ → Cell) (n r c : ℕ) (hw : written fl internal cell n r c) :
    pattern fl newton cell n r c := by
  have hc : ∀ rows cols, coupleEntries internal rows cols r c → coupleEntries newton rows cols r c := by
    rintro rows cols ⟨⟨i, hi, hr⟩, j, hj, hc⟩
    exact ⟨⟨i, hi, resolve_pins h hr⟩, j, hj, resolve_pins h hc⟩
  obtain ⟨k, hk, hw⟩ := hw
  refine ⟨k, hk, ?_⟩
  rcases hw with (hw | ⟨rfl, hr, hK⟩) | ⟨hg, hf, j, hj, hw⟩
  · exact Or.inl (Or.inl (hc _ _ hw))
  · refine Or.inl ?_
    by_cases hn : newton r = none
    · exact Or.inl ⟨⟨r, hr, by simp [resolve, hn]⟩, r, hr, by simp [resolve, hn]⟩
    · exact Or.inr ⟨rfl, hr, hn⟩
  · exact Or.inr ⟨hg, hf, j, hj, hc _ _ hw⟩

/-- Lines of the internal constraints of the application. -/
theorem internal_cases (s : Setting) (hp : Periodic s) (g : ℕ → ℝ) (a : Option Determination) (d : ℕ) :
    (s.internal g a d = none ∧ s.newton d = none) ∨ s.internal g a d = some ⟨[], 0⟩ ∨
      ∃ m, s.tie d = some m ∧ s.newton d = some ⟨[(m, 1)], 0⟩ ∧
        s.internal g a d = some ⟨[(m, 1)], 0⟩ ∧ s.internal g a m = none := by
  have hroot : ∀ m, ¬ s.fixed d → s.tie d = some m → s.newton m = none := fun m hf hm =>
    (newton_cases s m).2.1 (fun h => hf ((hp.fixed d m hm).2 h)) (hp.root d m hm)
  cases a with
  | none =>
    show (s.newton d = none ∧ _) ∨ s.newton d = _ ∨ ∃ m, _ ∧ _ ∧ s.newton d = _ ∧ s.newton m = _
    by_cases hf : s.fixed d
    · exact Or.inr (Or.inl ((newton_cases s d).1 hf))
    · cases ht : s.tie d with
      | none => exact Or.inl ⟨(newton_cases s d).2.1 hf ht, (newton_cases s d).2.1 hf ht⟩
      | some m =>
        exact Or.inr (Or.inr ⟨m, rfl, (newton_cases s d).2.2 m hf ht, (newton_cases s d).2.2 m hf ht,
          hroot m hf ht⟩)
  | some a =>
    have hl := internal_line s hp g a
    by_cases hpin : d ∈ s.slips ∧ ¬ a.yield.at d < |a.trial d|
    · exact Or.inr (Or.inl (close_zero (by rw [hl d, if_pos hpin])))
    · have hd := hl d
      rw [if_neg hpin] at hd
      by_cases hf : s.fixed d
      · exact Or.inr (Or.inl (close_zero (by rw [hd, (newton_cases s d).1 hf])))
      · cases ht : s.tie d with
        | none =>
          exact Or.inl ⟨close_none (by rw [hd, (newton_cases s d).2.1 hf ht]),
            (newton_cases s d).2.1 hf ht⟩
        | some m =>
          rw [(newton_cases s d).2.2 m hf ht] at hd
          by_cases hm : m ∈ s.slips ∧ ¬ a.yield.at m < |a.trial m|
          · exact Or.inr (Or.inl (close_tie_zero hd (by rw [hl m, if_pos hm])))
          · have hm' := hl m
            rw [if_neg hm, hroot m hf ht] at hm'
            exact Or.inr (Or.inr ⟨m, rfl, (newton_cases s d).2.2 m hf ht, close_tie_free hd hm',
              close_none hm'⟩)

/-- C77: whatever the active set, every entry of the Jacobian the assembly writes is in the sparsity
pattern the matrix was set up with. -/
theorem C77_pattern (fl : Flags) (s : Setting) (hp : Periodic s) (g : ℕ → ℝ)
    (a : Option Determination) (cell : ℕ → Cell) (n r c : ℕ)
    (hw : written fl (s.internal g a) cell n r c) : pattern fl s.newton cell n r c := by
  refine written_pins fl (fun d => ?_) cell n r c hw
  rcases internal_cases s hp g a d with ⟨h, hn⟩ | h | ⟨m, -, hn, h, -⟩
  · exact ⟨fun _ => hn, fun l hl => by rw [h] at hl; simp at hl⟩
  · refine ⟨fun h' => by rw [h] at h'; simp at h', fun l hl e he => ?_⟩
    rw [h] at hl
    rw [← Option.some.inj hl] at he
    simp at he
  · refine ⟨fun h' => by rw [h] at h'; simp at h', fun l hl e he => ?_⟩
    rw [h] at hl
    rw [← Option.some.inj hl] at he
    rw [List.mem_singleton.1 he]
    simp [resolve, hn]

/-- C77: the two grains at a grain boundary face couple in both directions iff the interface carries
tractions of either kind. -/
theorem C77_interface (fl : Flags) (K : Constraints ℕ) (cell : ℕ → Cell) (n k j : ℕ) (hk : k < n)
    (hj : j < n) (h1 : some j ∈ (cell k).faces) (h2 : some k ∈ (cell j).faces)
    (hm : (cell k).material ≠ (cell j).material) (hf : fl.decohesion ∨ fl.microtraction)
    (d e : ℕ) (hd : d ∈ (cell k).dofs) (he : e ∈ (cell j).dofs) (hdf : K d = none) (hef : K e = none) :
    written fl K cell n d e ∧ written fl K cell n e d := by
  have key : ∀ k j, k < n → some j ∈ (cell k).faces → (cell k).material ≠ (cell j).material →
      ∀ d ∈ (cell k).dofs, ∀ e ∈ (cell j).dofs, K d = none → K e = none →
      written fl K cell n d e := by
    intro k j hk h1 hm d hd e he hdf hef
    have hg : j ∈ grainFaces cell (cell k) := by
      unfold grainFaces
      rw [List.mem_filterMap]
      exact ⟨some j, h1, by simp [hm]⟩
    refine ⟨k, hk, Or.inr ⟨?_, hf, j, hg, ⟨d, hd, by simp [resolve, hdf]⟩, e, he,
      by simp [resolve, hef]⟩⟩
    unfold atGrainBoundary
    cases hgf : grainFaces cell (cell k) with
    | nil => rw [hgf] at hg; simp at hg
    | cons => rfl
  exact ⟨key k j hk h1 hm d hd e he hdf hef, key j k hj h2 (Ne.symm hm) e he d hd hef hdf⟩

/-! ## Helpers for C78 -/

theorem weight_sum {K : Constraints ℕ} {n : ℕ} (hK : Homogeneous K n) (v : ℕ → ℝ) {g : ℕ}
    (hg : g < n) : ∑ k ∈ range n, weight K g k * v k = distribute K v g := by
  cases hl : K g with
  | none =>
    rw [distribute_free hl]
    have : ∀ k, weight K g k * v k = if g = k then v k else 0 := by
      intro k; unfold weight; rw [hl]; simp only; split_ifs <;> simp
    simp only [this]
    rw [Finset.sum_ite_eq, if_pos (mem_range.2 hg)]
  | some l =>
    rw [distribute_line hl]
    have hw : ∀ k, weight K g k = (l.entries.map fun e => if e.1 = k then e.2 else 0).sum := by
      intro k; unfold weight; rw [hl]
    simp only [hw]
    unfold Line.eval
    rw [hK.inhom g l hl, add_zero]
    have hin := hK.within g l hl
    generalize l.entries = es at hin
    induction es with
    | nil => simp
    | cons e es ih =>
      simp only [List.map_cons, List.sum_cons, add_mul, Finset.sum_add_distrib]
      rw [ih fun e he => hin e (List.mem_cons_of_mem _ he)]
      congr 1
      have : ∀ k, (if e.1 = k then e.2 else 0) * v k = if e.1 = k then e.2 * v k else 0 := by
        intro k; split_ifs <;> simp
      simp only [this]
      rw [Finset.sum_ite_eq, if_pos (mem_range.2 (hin e List.mem_cons_self))]

theorem weight_constrained {K : Constraints ℕ} {n : ℕ} (hK : Homogeneous K n) {g r : ℕ}
    (hr : K r ≠ none) : weight K g r = 0 := by
  unfold weight
  cases hl : K g with
  | none =>
    simp only
    rw [if_neg]
    rintro rfl
    exact hr hl
  | some l =>
    simp only
    apply List.sum_eq_zero
    intro x hx
    obtain ⟨e, he, rfl⟩ := List.mem_map.1 hx
    rw [if_neg]
    rintro rfl
    exact hr (hK.closed g l hl e he)

/-- Action of a cell on a vector, row `i`. -/
def act (a : Local N) (u : ℕ → ℝ) (i : Fin N) : ℝ :=
  ∑ j, a.mat i j * u (a.dofs j) + (a.couplings.map fun b => ∑ j, b.2 i j * u (b.1 j)).sum

theorem sum_list {ι α : Type*} (s : Finset ι) (l : List α) (f : ι → α → ℝ) :
    ∑ i ∈ s, (l.map (f i)).sum = (l.map fun a => ∑ i ∈ s, f i a).sum := by
  induction l with
  | nil => simp
  | cons a l ih => simp [Finset.sum_add_distrib, ih]

theorem tangent_act (cells : List (Local N)) (v u : ℕ → ℝ) :
    SpecTangent cells v u = (cells.map fun a => ∑ i, v (a.dofs i) * act a u i).sum := by
  unfold SpecTangent act
  congr 2
  funext a
  simp only [mul_add, Finset.sum_add_distrib, Finset.mul_sum]
  congr 1
  · exact sum_congr rfl fun i _ => sum_congr rfl fun j _ => by ring
  · rw [← sum_list]
    refine sum_congr rfl fun i _ => ?_
    rw [← List.sum_map_mul_left]
    congr 2
    funext b
    rw [Finset.mul_sum]
    exact sum_congr rfl fun j _ => by ring

/-- A row of the condensed matrix that belongs to an unconstrained degree of freedom. -/
theorem jacobian_row {K : Constraints ℕ} {n : ℕ} (hK : Homogeneous K n) {cells : List (Local N)}
    (hc : Numbered cells n) (x : ℕ → ℝ) {r : ℕ} (hr : K r = none) :
    ∑ c ∈ range n, jacobian K cells r c * x c =
      (cells.map fun a => ∑ i, weight K (a.dofs i) r * act a (distribute K x) i).sum := by
  unfold jacobian
  simp only [← List.sum_map_mul_right]
  rw [sum_list]
  congr 1
  refine List.map_congr_left fun a ha => ?_
  have hd : ∀ c, (∑ i, if a.dofs i = r ∧ r = c ∧ K r ≠ none then a.diag i else 0) = 0 := by
    intro c
    refine sum_eq_zero fun i _ => ?_
    rw [if_neg]
    rintro ⟨-, -, h⟩
    exact h hr
  simp only [hd, add_zero]
  have e1 : ∀ (w : Fin N → Fin N → ℝ) (dofs : Fin N → ℕ), (∀ j, dofs j < n) →
      ∑ c ∈ range n, (∑ i, ∑ j, weight K (a.dofs i) r * w i j * weight K (dofs j) c) * x c =
      ∑ i, weight K (a.dofs i) r * ∑ j, w i j * distribute K x (dofs j) := by
    intro w dofs hdofs
    simp only [Finset.sum_mul, Finset.mul_sum]
    rw [Finset.sum_comm]
    refine sum_congr rfl fun i _ => ?_
    rw [Finset.sum_comm]
    refine sum_congr rfl fun j _ => ?_
    rw [← weight_sum hK x (hdofs j), Finset.mul_sum, Finset.mul_sum]
    exact sum_congr rfl fun c _ => by ring
  simp only [add_mul, Finset.sum_add_distrib]
  rw [e1 a.mat a.dofs (hc.dofs a ha)]
  simp only [← List.sum_map_mul_right]
  rw [sum_list]
  have e2 : (a.couplings.map fun b => ∑ c ∈ range n,
      (∑ i, ∑ j, weight K (a.dofs i) r * b.2 i j * weight K (b.1 j) c) * x c) =
      a.couplings.map fun b => ∑ i, weight K (a.dofs i) r * ∑ j, b.2 i j * distribute K x (b.1 j) :=
    List.map_congr_left fun b hb => e1 b.2 b.1 (hc.couplings a ha b hb)
  rw [e2, ← sum_list, ← Finset.sum_add_distrib]
  refine sum_congr rfl fun i _ => ?_
  unfold act
  rw [mul_add, ← List.sum_map_mul_left]

/-- Testing the condensed rows. -/
theorem test_rows {K : Constraints ℕ} {n : ℕ} (hK : Homogeneous K n) {cells : List (Local N)}
    (hc : Numbered cells n) {v : ℕ → ℝ} (hv : Satisfies K v) (f : Local N → Fin N → ℝ) :
    ∑ r ∈ range n, v r * (cells.map fun a => ∑ i, weight K (a.dofs i) r * f a i).sum =
      (cells.map fun a => ∑ i, v (a.dofs i) * f a i).sum := by
  simp only [← List.sum_map_mul_left]
  rw [sum_list]
  congr 1
  refine List.map_congr_left fun a ha => ?_
  simp only [Finset.mul_sum]
  rw [Finset.sum_comm]
  refine sum_congr rfl fun i _ => ?_
  have hvi : v (a.dofs i) = distribute K v (a.dofs i) := by
    cases hl : K (a.dofs i) with
    | none => rw [distribute_free hl]
    | some l => rw [distribute_line hl]; exact hv _ l hl
  rw [hvi, ← weight_sum hK v (hc.dofs a ha i), Finset.sum_mul]
  exact sum_congr rfl fun r _ => by ring

theorem row_constrained {K : Constraints ℕ} {n : ℕ} (hK : Homogeneous K n) (cells : List (Local N))
    (f : Local N → Fin N → ℝ) {r : ℕ} (hr : K r ≠ none) :
    (cells.map fun a => ∑ i, weight K (a.dofs i) r * f a i).sum = 0 := by
  apply List.sum_eq_zero
  intro x hx
  obtain ⟨a, -, rfl⟩ := List.mem_map.1 hx
  exact sum_eq_zero fun i _ => by rw [weight_constrained hK hr, zero_mul]

/-- Rows that hold at `S` give the weak form for variations that vanish outside `S`. -/
theorem weak_of_rows {K : Constraints ℕ} {n : ℕ} (hK : Homogeneous K n) {cells : List (Local N)}
    (hc : Numbered cells n) (S : ℕ → Prop) (x : ℕ → ℝ) (b : ℕ → ℝ)
    (hrow : ∀ r < n, S r → ∑ c ∈ range n, jacobian K cells r c * x c = b r)
    (hb : ∀ r, K r ≠ none → b r = 0)
    {v : ℕ → ℝ} (hv : Satisfies K v) (hS : ∀ r, ¬ S r → v r = 0) :
    SpecTangent cells v (distribute K x) = ∑ r ∈ range n, v r * b r := by
  rw [tangent_act, ← test_rows hK hc hv]
  refine sum_congr rfl fun r hr => ?_
  by_cases hs : S r
  · by_cases hk : K r = none
    · rw [← jacobian_row hK hc x hk, hrow r (mem_range.1 hr) hs]
    · rw [row_constrained hK cells _ hk, hb r hk]
  · rw [hS r hs, zero_mul, zero_mul]

theorem residual_constrained {K : Constraints ℕ} {n : ℕ} (hK : Homogeneous K n)
    (cells : List (Local N)) {r : ℕ} (hr : K r ≠ none) : residual K cells r = 0 :=
  row_constrained hK cells (fun a => a.rhs) hr

theorem residual_test {K : Constraints ℕ} {n : ℕ} (hK : Homogeneous K n) {cells : List (Local N)}
    (hc : Numbered cells n) {v : ℕ → ℝ} (hv : Satisfies K v) :
    ∑ r ∈ range n, v r * residual K cells r = SpecResidual cells v :=
  test_rows hK hc hv fun a => a.rhs

open Classical in
/-- The variation belonging to an unconstrained degree of freedom. -/
noncomputable def unit (K : Constraints ℕ) (r : ℕ) : ℕ → ℝ := distribute K (Pi.single r 1)

theorem unit_satisfies {K : Constraints ℕ} {n : ℕ} (hK : Homogeneous K n) (r : ℕ) :
    Satisfies K (unit K r) := distribute_satisfies hK.closed _

theorem unit_weight {K : Constraints ℕ} {n : ℕ} (hK : Homogeneous K n) {r g : ℕ} (hr : r < n)
    (hg : g < n) : unit K r g = weight K g r := by
  unfold unit
  rw [← weight_sum hK _ hg]
  rw [Finset.sum_eq_single_of_mem r (mem_range.2 hr) fun k _ hk => by
    rw [Pi.single_eq_of_ne hk, mul_zero]]
  rw [Pi.single_eq_same, mul_one]

/-- A row as weak form. -/
theorem unit_test {K : Constraints ℕ} {n : ℕ} (hK : Homogeneous K n) {cells : List (Local N)}
    (hc : Numbered cells n) (f : Local N → Fin N → ℝ) {r : ℕ} (hr : r < n) :
    (cells.map fun a => ∑ i, unit K r (a.dofs i) * f a i).sum =
      (cells.map fun a => ∑ i, weight K (a.dofs i) r * f a i).sum := by
  congr 1
  refine List.map_congr_left fun a ha => sum_congr rfl fun i _ => ?_
  rw [unit_weight hK hr (hc.dofs a ha i)]

/-! ## C78 -/

/-- C78: the constraints of the linear systems in the application are homogeneous and closed, for every
active set. -/
theorem C78_internal (s : Setting) (hp : Periodic s) (n : ℕ) (ht : ∀ d m, s.tie d = some m → m < n)
    (g : ℕ → ℝ) (a : Option Determination) : Homogeneous (s.internal g a) n := by
  have key := internal_cases s hp g a
  constructor
  · intro d l hl
    rcases key d with ⟨h, -⟩ | h | ⟨m, -, -, h, -⟩ <;> rw [h] at hl
    · simp at hl
    · rw [← Option.some.inj hl]
    · rw [← Option.some.inj hl]
  · intro d l hl e he
    rcases key d with ⟨h, -⟩ | h | ⟨m, hm, -, h, -⟩ <;> rw [h] at hl
    · simp at hl
    · rw [← Option.some.inj hl] at he; simp at he
    · rw [← Option.some.inj hl] at he
      rw [List.mem_singleton.1 he]
      exact ht d m hm
  · intro d l hl e he
    rcases key d with ⟨h, -⟩ | h | ⟨m, -, -, h, hm⟩ <;> rw [h] at hl
    · simp at hl
    · rw [← Option.some.inj hl] at he; simp at he
    · rw [← Option.some.inj hl] at he
      rw [List.mem_singleton.1 he]
      exact hm

/-- C78: the residual vector vanishes iff the weak form vanishes for every variation that satisfies the
homogeneous constraints. -/
theorem C78_residual {K : Constraints ℕ} {n : ℕ} (hK : Homogeneous K n) {cells : List (Local N)}
    (hc : Numbered cells n) :
    (∀ r < n, residual K cells r = 0) ↔ ∀ v, Satisfies K v → SpecResidual cells v = 0 := by
  constructor
  · intro h v hv
    rw [← residual_test hK hc hv]
    exact sum_eq_zero fun r hr => by rw [h r (mem_range.1 hr), mul_zero]
  · intro h r hr
    have := h (unit K r) (unit_satisfies hK r)
    unfold SpecResidual at this
    rw [unit_test hK hc (fun a => a.rhs) hr] at this
    exact this

/-- C78, monolithic algorithm: the Newton correction is an admissible correction for which the linearised
equations hold for every admissible variation, and every such correction is obtained. -/
theorem C78_monolithic {K : Constraints ℕ} {n : ℕ} (hK : Homogeneous K n) {cells : List (Local N)}
    (hc : Numbered cells n) (u : ℕ → ℝ) :
    (∃ x, SolvesAll K cells n x ∧ newtonUpdate K x = u) ↔
      Satisfies K u ∧ ∀ v, Satisfies K v → SpecTangent cells v u = SpecResidual cells v := by
  constructor
  · rintro ⟨x, hx, rfl⟩
    refine ⟨distribute_satisfies hK.closed x, fun v hv => ?_⟩
    rw [← residual_test hK hc hv]
    exact weak_of_rows hK hc (fun _ => True) x _ (fun r hr _ => hx r hr)
      (fun r hr => residual_constrained hK cells hr) hv (fun r h => absurd trivial h)
  · rintro ⟨hu, hw⟩
    classical
    set x : ℕ → ℝ := fun r => if K r = none then u r else 0 with hx
    have hxu : distribute K x = u := by
      funext d
      cases hl : K d with
      | none => rw [distribute_free hl, hx]; simp only; rw [if_pos hl]
      | some l =>
        rw [distribute_line hl, hu d l hl]
        unfold Line.eval
        congr 2
        refine List.map_congr_left fun e he => ?_
        rw [hx]; simp only; rw [if_pos (hK.closed d l hl e he)]
    refine ⟨x, fun r hr => ?_, hxu⟩
    by_cases hk : K r = none
    · rw [jacobian_row hK hc x hk, hxu]
      have := hw (unit K r) (unit_satisfies hK r)
      rw [tangent_act, unit_test hK hc _ hr] at this
      rw [this]
      exact unit_test hK hc (fun a => a.rhs) hr
    · rw [residual_constrained hK cells hk]
      refine sum_eq_zero fun c _ => ?_
      by_cases hcr : r = c
      · subst hcr
        rw [hx]; simp only; rw [if_neg hk, mul_zero]
      · have : jacobian K cells r c = 0 := by
          unfold jacobian
          apply List.sum_eq_zero
          intro y hy
          obtain ⟨a, -, rfl⟩ := List.mem_map.1 hy
          rw [sum_eq_zero fun i _ => sum_eq_zero fun j _ => by
              rw [weight_constrained hK hk]; ring,
            sum_eq_zero fun i _ => by rw [if_neg]; rintro ⟨-, h, -⟩; exact hcr h,
            List.sum_eq_zero fun z hz => ?_]
          · simp
          · obtain ⟨b, -, rfl⟩ := List.mem_map.1 hz
            exact sum_eq_zero fun i _ => sum_eq_zero fun j _ => by
              rw [weight_constrained hK hk]; ring
        rw [this, zero_mul]

theorem block_sum {n : ℕ} {blk : ℕ → ℕ} {b : ℕ} {x : ℕ → ℝ} (hz : ∀ r, blk r ≠ b → x r = 0)
    (J : ℕ → ℝ) : ∑ c ∈ (range n).filter (blk · = b), J c * x c = ∑ c ∈ range n, J c * x c := by
  rw [Finset.sum_filter]
  refine sum_congr rfl fun c _ => ?_
  by_cases h : blk c = b
  · rw [if_pos h]
  · rw [if_neg h, hz c h, mul_zero]

theorem distribute_block {K : Constraints ℕ} {n : ℕ} (hK : Homogeneous K n) {blk : ℕ → ℕ}
    (hB : BlockLocal K blk) {b : ℕ} {x : ℕ → ℝ} (hz : ∀ r, blk r ≠ b → x r = 0) {d : ℕ}
    (hd : blk d ≠ b) : distribute K x d = 0 := by
  cases hl : K d with
  | none => rw [distribute_free hl, hz d hd]
  | some l =>
    rw [distribute_line hl]
    unfold Line.eval
    rw [hK.inhom d l hl, add_zero]
    apply List.sum_eq_zero
    intro y hy
    obtain ⟨e, he, rfl⟩ := List.mem_map.1 hy
    rw [hz e.1 (by rw [hB d l hl e he]; exact hd), mul_zero]

theorem updateBlock_eq {K : Constraints ℕ} {n : ℕ} (hK : Homogeneous K n) {blk : ℕ → ℕ}
    (hB : BlockLocal K blk) {b : ℕ} {x : ℕ → ℝ} (hz : ∀ r, blk r ≠ b → x r = 0) :
    newtonUpdateBlock K blk b x = distribute K x := by
  funext d
  unfold newtonUpdateBlock
  split_ifs with h
  · rfl
  · exact (distribute_block hK hB hz h).symm

/-- C78, staggered algorithms: the correction of one block is admissible, leaves the other block alone
and satisfies the linearised equations of its block for every admissible variation of the block. -/
theorem C78_block {K : Constraints ℕ} {n : ℕ} (hK : Homogeneous K n) {cells : List (Local N)}
    (hc : Numbered cells n) (blk : ℕ → ℕ) (hB : BlockLocal K blk) (b : ℕ) (x : ℕ → ℝ)
    (hx : SolvesBlock K cells n blk b x) :
    Satisfies K (newtonUpdateBlock K blk b x) ∧
      (∀ d, blk d ≠ b → newtonUpdateBlock K blk b x d = 0) ∧
      ∀ v, Satisfies K v → (∀ d, blk d ≠ b → v d = 0) →
        SpecTangent cells v (newtonUpdateBlock K blk b x) = SpecResidual cells v := by
  refine ⟨?_, fun d hd => by unfold newtonUpdateBlock; rw [if_neg hd], fun v hv hvb => ?_⟩
  · rw [updateBlock_eq hK hB hx.zero]; exact distribute_satisfies hK.closed x
  · rw [updateBlock_eq hK hB hx.zero, ← residual_test hK hc hv]
    refine weak_of_rows hK hc (fun r => blk r = b) x _ (fun r hr hb => ?_)
      (fun r hr => residual_constrained hK cells hr) hv hvb
    rw [← block_sum hx.zero]
    exact hx.rows r hr hb

/-! ## C79 -/

theorem restrict_satisfies {K : Constraints ℕ} {n : ℕ} (hK : Homogeneous K n) {blk : ℕ → ℕ}
    (hB : BlockLocal K blk) {v : ℕ → ℝ} (hv : Satisfies K v) :
    Satisfies K (fun d => if blk d = 0 then v d else 0) := by
  intro d l hl
  have hd := hv d l hl
  unfold Line.eval at hd ⊢
  rw [hK.inhom d l hl, add_zero] at hd ⊢
  simp only
  by_cases hb : blk d = 0
  · rw [if_pos hb, hd]
    congr 1
    refine List.map_congr_left fun e he => ?_
    rw [if_pos (by rw [hB d l hl e he]; exact hb)]
  · rw [if_neg hb]
    symm
    apply List.sum_eq_zero
    intro t ht
    obtain ⟨e, he, rfl⟩ := List.mem_map.1 ht
    rw [if_neg (by rw [hB d l hl e he]; exact hb), mul_zero]

/-- C79: the correction of the reduced system: there is a correction of the slips such that both together
satisfy the linearised equations, with the residual of the displacements only. -/
theorem C79_reduced {K : Constraints ℕ} {n : ℕ} (hK : Homogeneous K n) {cells : List (Local N)}
    (hc : Numbered cells n) (blk : ℕ → ℕ) (h01 : ∀ d, blk d = 0 ∨ blk d = 1)
    (hB : BlockLocal K blk) (x y : ℕ → ℝ) (hx : SolvesReduced K cells n blk x y) :
    Satisfies K (newtonUpdateBlock K blk 0 x) ∧
    (∀ d, blk d ≠ 0 → newtonUpdateBlock K blk 0 x d = 0) ∧
    ∃ w, Satisfies K w ∧ (∀ d, blk d ≠ 1 → w d = 0) ∧ ∀ v, Satisfies K v →
      SpecTangent cells v (fun d => newtonUpdateBlock K blk 0 x d + w d) =
        SpecResidual cells (fun d => if blk d = 0 then v d else 0) := by
  classical
  refine ⟨?_, fun d hd => by unfold newtonUpdateBlock; rw [if_neg hd], ?_⟩
  · rw [updateBlock_eq hK hB hx.zero]; exact distribute_satisfies hK.closed x
  set z : ℕ → ℝ := fun d => if blk d = 1 then -y d else 0 with hz
  have hz1 : ∀ r, blk r ≠ 1 → z r = 0 := fun r hr => by rw [hz]; simp only; rw [if_neg hr]
  have hlin : ∀ d, distribute K x d + distribute K z d = distribute K (fun d => x d + z d) d := by
    intro d
    cases hl : K d with
    | none => rw [distribute_free hl, distribute_free hl, distribute_free hl]
    | some l =>
      rw [distribute_line hl, distribute_line hl, distribute_line hl]
      unfold Line.eval
      rw [hK.inhom d l hl, add_zero, add_zero, add_zero, ← List.sum_map_add]
      congr 2
      funext e
      ring
  have hys : ∀ r, ∑ c ∈ (range n).filter (blk · = 1), jacobian K cells r c * y c =
      -∑ c ∈ range n, jacobian K cells r c * z c := by
    intro r
    rw [← block_sum hz1, ← Finset.sum_neg_distrib]
    refine sum_congr rfl fun c hcm => ?_
    rw [hz]; simp only
    rw [if_pos (mem_filter.1 hcm).2]
    ring
  refine ⟨distribute K z, distribute_satisfies hK.closed z,
    fun d hd => distribute_block hK hB hz1 hd, fun v hv => ?_⟩
  rw [updateBlock_eq hK hB hx.zero, funext hlin]
  have hv0 := restrict_satisfies hK hB hv
  rw [← residual_test hK hc hv0]
  have := weak_of_rows hK hc (fun _ => True) (fun d => x d + z d)
    (fun r => if blk r = 0 then residual K cells r else 0) (fun r hr _ => by
      simp only [mul_add, Finset.sum_add_distrib]
      rcases h01 r with hb | hb
      · rw [if_pos hb]
        have := hx.rows r hr hb
        rw [block_sum hx.zero, hys] at this
        linarith
      · rw [if_neg (by omega)]
        have := hx.inv r hr hb
        rw [block_sum hx.zero, hys] at this
        linarith) (fun r hr => by
      split_ifs
      · exact residual_constrained hK cells hr
      · rfl) hv (fun r h => absurd trivial h)
  rw [this]
  refine sum_congr rfl fun r _ => ?_
  split_ifs <;> ring

/-- C79 while the microforce balance holds: the correction of the displacements is the displacement
part of a correction of the monolithic Newton method.  Missing from the full property: states in which
the residual of the slips is not zero (`C79_violated`). -/
theorem C79_monolithic_partial {K : Constraints ℕ} {n : ℕ} (hK : Homogeneous K n)
    {cells : List (Local N)} (hc : Numbered cells n) (blk : ℕ → ℕ) (h01 : ∀ d, blk d = 0 ∨ blk d = 1)
    (hB : BlockLocal K blk) (x y : ℕ → ℝ) (hx : SolvesReduced K cells n blk x y)
    (hm : ∀ r < n, blk r = 1 → residual K cells r = 0) :
    ∃ u, (∃ z, SolvesAll K cells n z ∧ newtonUpdate K z = u) ∧
      ∀ d, newtonUpdateBlock K blk 0 x d = if blk d = 0 then u d else 0 := by
  obtain ⟨h1, h2, w, hw, hwb, hweak⟩ := C79_reduced hK hc blk h01 hB x y hx
  refine ⟨fun d => newtonUpdateBlock K blk 0 x d + w d, (C78_monolithic hK hc _).2 ⟨?_, ?_⟩, ?_⟩
  · intro d l hl
    have e1 := h1 d l hl
    have e2 := hw d l hl
    unfold Line.eval at e1 e2 ⊢
    rw [hK.inhom d l hl, add_zero] at e1 e2 ⊢
    simp only
    rw [e1, e2, ← List.sum_map_add]
    congr 2
    funext e
    ring
  · intro v hv
    rw [hweak v hv, ← residual_test hK hc hv]
    have hv0 := restrict_satisfies hK hB hv
    rw [← residual_test hK hc hv0]
    refine sum_congr rfl fun r hr => ?_
    by_cases hb : blk r = 0
    · rw [if_pos hb]
    · rw [if_neg hb, hm r (mem_range.1 hr) ((h01 r).resolve_left hb)]; ring
  · intro d
    by_cases hb : blk d = 0
    · rw [if_pos hb]
      show _ = newtonUpdateBlock K blk 0 x d + w d
      rw [hwb d (by omega), add_zero]
    · rw [if_neg hb, h2 d hb]

/-! ## Violation and non-vacuity -/

/-- One displacement (0) and one slip (1), not in microforce balance. -/
def exPair : Local 2 where
  dofs := fun i => i
  mat := ![![2, 1], ![1, 1]]
  rhs := ![0, 1]
  diag := fun _ => 1
  couplings := []

theorem free_weight (g k : ℕ) : weight (fun _ => none) g k = if g = k then 1 else 0 := by
  unfold weight; rfl

theorem exPair_entries : jacobian (fun _ => none) [exPair] 0 0 = 2 ∧
    jacobian (fun _ => none) [exPair] 0 1 = 1 ∧ jacobian (fun _ => none) [exPair] 1 0 = 1 ∧
    jacobian (fun _ => none) [exPair] 1 1 = 1 ∧ residual (fun _ => none) [exPair] 0 = 0 ∧
    residual (fun _ => none) [exPair] 1 = 1 := by
  unfold jacobian residual
  simp only [free_weight]
  simp [exPair, Fin.sum_univ_two]

/-- C79 is violated when the microforce balance does not hold: the right-hand side of the reduced system
lacks the residual of the slips, so the correction is not the displacement part of a Newton correction. -/
theorem C79_violated : ∃ (cells : List (Local 2)) (x y : ℕ → ℝ),
    Numbered cells 2 ∧ SolvesReduced (fun _ => none) cells 2 (fun d => if d = 0 then 0 else 1) x y ∧
    (∃ z, SolvesAll (fun _ => none) cells 2 z) ∧
    ∀ z, SolvesAll (fun _ => none) cells 2 z → newtonUpdate (fun _ => none) z 0 ≠
      newtonUpdateBlock (fun _ => none) (fun d => if d = 0 then 0 else 1) 0 x 0 := by
  obtain ⟨h00, h01, h10, h11, r0, r1⟩ := exPair_entries
  refine ⟨[exPair], 0, 0, ⟨?_, ?_⟩, ⟨?_, ?_, fun _ _ => rfl⟩, ⟨fun d => if d = 0 then -1 else 2, ?_⟩, ?_⟩
  · intro a ha i
    rw [List.mem_singleton.1 ha]
    exact i.2
  · intro a ha b hb
    rw [List.mem_singleton.1 ha] at hb
    simp [exPair] at hb
  · intro r _ _; simp
  · intro r _ hb
    have : r = 0 := by by_contra h; rw [if_neg h] at hb; omega
    rw [this, r0]; simp
  · intro r hr
    rw [Finset.sum_range_succ, Finset.sum_range_one]
    have : r = 0 ∨ r = 1 := by omega
    rcases this with rfl | rfl
    · rw [h00, h01, r0]; norm_num
    · rw [h10, h11, r1]; norm_num
  · intro z hz
    have e0 := hz 0 (by norm_num)
    have e1 := hz 1 (by norm_num)
    rw [Finset.sum_range_succ, Finset.sum_range_one, h00, h01, r0] at e0
    rw [Finset.sum_range_succ, Finset.sum_range_one, h10, h11, r1] at e1
    unfold newtonUpdate newtonUpdateBlock
    rw [if_pos (by simp), distribute_free rfl, distribute_free rfl]
    show z 0 ≠ 0
    intro h
    linarith

/-- Two displacements, the second tied to the first. -/
def exTied : Constraints ℕ := fun d => if d = 1 then some ⟨[(0, 1)], 0⟩ else none

theorem exTied_ok : Homogeneous exTied 2 := by
  have key : ∀ g l, exTied g = some l → l = ⟨[(0, 1)], 0⟩ := by
    intro g l h
    unfold exTied at h
    split_ifs at h
    exact (Option.some.inj h).symm
  refine ⟨fun g l h => by rw [key g l h], fun g l h e he => ?_, fun g l h e he => ?_⟩
  all_goals
    rw [key g l h] at he
    rw [List.mem_singleton.1 he]
  · norm_num
  · rfl

/-- Non-vacuity of C78: a cell with two springs whose ends are tied; the correction is 1 at both. -/
example : ∃ (cells : List (Local 2)) (x : ℕ → ℝ), Numbered cells 2 ∧ SolvesAll exTied cells 2 x ∧
    newtonUpdate exTied x = fun _ => 1 := by
  have hn : Numbered [(⟨fun i => i, ![![2, 0], ![0, 1]], ![1, 2], fun _ => 1, []⟩ : Local 2)] 2 := by
    refine ⟨fun a ha i => ?_, fun a ha b hb => ?_⟩
    · rw [List.mem_singleton.1 ha]; exact i.2
    · rw [List.mem_singleton.1 ha] at hb; simp at hb
  obtain ⟨x, hx, hu⟩ := (C78_monolithic exTied_ok hn (fun _ => 1)).2 ⟨by
    intro d l h
    unfold exTied at h
    split_ifs at h
    rw [← Option.some.inj h]
    simp [Line.eval], by
    intro v hv
    have h01 := hv 1 _ (show exTied 1 = some ⟨[(0, 1)], 0⟩ from rfl)
    simp only [Line.eval, List.map_cons, List.map_nil, List.sum_cons, List.sum_nil] at h01
    unfold SpecTangent SpecResidual
    simp [Fin.sum_univ_two, h01]
    ring⟩
  exact ⟨_, x, hn, hx, hu⟩

/-- The pair in microforce balance with a load on the displacement. -/
def exLoaded : Local 2 := { exPair with rhs := ![2, 0] }

/-- Non-vacuity of C78 for a block and of C79 in microforce balance: the pair with a load on the
displacement; eliminating the slip doubles the correction. -/
example : ∃ (cells : List (Local 2)) (x y z : ℕ → ℝ),
    (∀ r < 2, (if r = 0 then 0 else 1) = 1 → residual (fun _ => none) cells r = 0) ∧
    SolvesReduced (fun _ => none) cells 2 (fun d => if d = 0 then 0 else 1) x y ∧
    SolvesBlock (fun _ => none) cells 2 (fun d => if d = 0 then 0 else 1) 0 z ∧
    x 0 = 2 ∧ z 0 = 1 := by
  have e : jacobian (fun _ => none) [exLoaded] 0 0 = 2 ∧
      jacobian (fun _ => none) [exLoaded] 0 1 = 1 ∧
      jacobian (fun _ => none) [exLoaded] 1 0 = 1 ∧
      jacobian (fun _ => none) [exLoaded] 1 1 = 1 ∧
      residual (fun _ => none) [exLoaded] 0 = 2 ∧
      residual (fun _ => none) [exLoaded] 1 = 0 := by
    unfold jacobian residual
    simp only [free_weight]
    simp [exLoaded, exPair, Fin.sum_univ_two]
  obtain ⟨h00, h01, h10, h11, r0, r1⟩ := e
  have two : ∀ r < 2, r = 0 ∨ r = 1 := fun r h => by omega
  refine ⟨[exLoaded], fun d => if d = 0 then 2 else 0, fun d => 2, fun d => if d = 0 then 1 else 0, ?_,
    ⟨?_, ?_, ?_⟩, ⟨?_, ?_⟩, by simp, by simp⟩
  · intro r hr hb
    rcases two r hr with rfl | rfl
    · simp at hb
    · exact r1
  · intro r hr hb
    rcases two r hr with rfl | rfl
    · simp at hb
    · simp only [Finset.sum_filter, Finset.sum_range_succ, Finset.sum_range_zero]
      simp [h10, h11]
  · intro r hr hb
    rcases two r hr with rfl | rfl
    · simp only [Finset.sum_filter, Finset.sum_range_succ, Finset.sum_range_zero]
      simp [h00, h01, r0]; norm_num
    · simp at hb
  · intro r hr; by_cases h : r = 0
    · simp [h] at hr
    · simp [h]
  · intro r hr hb
    rcases two r hr with rfl | rfl
    · simp only [Finset.sum_filter, Finset.sum_range_succ, Finset.sum_range_zero]
      simp [h00, r0]
    · simp at hb
  · intro r hr; by_cases h : r = 0
    · simp [h] at hr
    · simp [h]

/-- Two cells of different materials; one slip degree of freedom each, the second one tied. -/
def exCells : ℕ → Cell := fun k => ⟨k, [k], [some (1 - k), none]⟩

/-- Non-vacuity of C77: with microtractions an entry between the two grains is written although the slave
is below yield, and it is in the pattern. -/
example : written ⟨false, true⟩ (fun _ => none) exCells 2 0 1 ∧
    ¬ pattern ⟨false, false⟩ (fun _ => none) exCells 2 0 1 := by
  constructor
  · exact (C77_interface ⟨false, true⟩ _ exCells 2 0 1 (by norm_num) (by norm_num) (by simp [exCells])
      (by simp [exCells]) (by simp [exCells]) (by simp) 0 1 (by simp [exCells]) (by simp [exCells])
      rfl rfl).1
  · rintro ⟨k, -, (⟨⟨i, hi, h0⟩, j, hj, h1⟩ | ⟨h, -⟩) | ⟨-, h, -⟩⟩
    · simp [exCells, resolve] at hi hj h0 h1; omega
    · omega
    · simp at h

/-- Non-vacuity of C77 with an active set: the master of the periodic pair yields, the slave does not. -/
example : written ⟨false, false⟩ (exStrip.internal (fun _ => 0) (some exApart))
    (fun _ => ⟨0, [0, 1], []⟩) 1 0 0 ∧
    exStrip.internal (fun _ => 0) (some exApart) 1 ≠ exStrip.newton 1 := by
  have hl := internal_line exStrip exStrip_periodic (fun _ => 0) exApart
  have h0 : exStrip.internal (fun _ => 0) (some exApart) 0 = none := by
    refine close_none ?_
    rw [hl, if_neg]
    · exact (newton_cases exStrip 0).2.1 (by simp [exStrip]) (by simp [exStrip])
    · rintro ⟨-, h⟩; apply h; norm_num [exApart, AS.Yield.at]
  have h1 : exStrip.internal (fun _ => 0) (some exApart) 1 = some ⟨[], 0⟩ := by
    refine close_zero ?_
    rw [hl, if_pos]
    refine ⟨by simp [exStrip], ?_⟩
    norm_num [exApart, AS.Yield.at]
  refine ⟨⟨0, by norm_num, Or.inl (Or.inl ⟨⟨0, by simp, by simp [resolve, h0]⟩, 0, by simp,
    by simp [resolve, h0]⟩)⟩, ?_⟩
  rw [h1, (newton_cases exStrip 1).2.2 0 (by simp [exStrip]) (by simp [exStrip])]
  simp

end Verif.Lin
