import Verif.Model.Damage
import Mathlib.Analysis.SpecialFunctions.Sqrt
import Mathlib.Tactic.Linarith
import Mathlib.Tactic.FieldSimp

/-!
# C54
-/

namespace Verif.Dam
open Finset

/-- All face quadrature points. -/
def allPts {N : ℕ} (cells : List (Cell N)) : List (FacePt N) := cells.flatMap Cell.pts

/-- Partition of unity, as deal.II's Lagrange elements satisfy it on the whole cell. -/
def Unity {N : ℕ} (cells : List (Cell N)) : Prop := ∀ q ∈ allPts cells, ∑ j, q.phi j = 1

theorem lumped_eq {N : ℕ} (c : Cell N) (h : ∀ q ∈ c.pts, ∑ j, q.phi j = 1) (i : Fin N) :
    c.lumped i = (c.pts.map fun q => q.phi i * q.jxw).sum := by
  unfold Cell.lumped
  congr 1
  refine List.map_congr_left fun q hq => ?_
  rw [← Finset.sum_mul, ← Finset.mul_sum, h q hq, mul_one]

theorem sum_map_mul_left' {α : Type*} (l : List α) (f : α → ℝ) (k : ℝ) :
    (l.map fun a => k * f a).sum = k * (l.map f).sum := by
  induction l with
  | nil => simp
  | cons a l ih => simp [ih, mul_add]

theorem sum_map_add' {α : Type*} (l : List α) (f g : α → ℝ) :
    (l.map fun a => f a + g a).sum = (l.map f).sum + (l.map g).sum := by
  induction l with
  | nil => simp
  | cons a l ih => simp [ih]; ring

theorem sum_map_le {α : Type*} (l : List α) (f g : α → ℝ) (h : ∀ a ∈ l, f a ≤ g a) :
    (l.map f).sum ≤ (l.map g).sum := List.sum_le_sum h

/-- `assemble` is linear and monotone in the local values of the cells of the list. -/
theorem assemble_smul {N : ℕ} (c : Constraints) (f g : Cell N → Fin N → ℝ) (cells : List (Cell N))
    (k : ℕ) (x : ℝ) (h : ∀ cell ∈ cells, ∀ i, f cell i = x * g cell i) :
    assemble c f cells k = x * assemble c g cells k := by
  unfold assemble
  rw [← sum_map_mul_left']
  congr 1
  refine List.map_congr_left fun cell hc => ?_
  rw [Finset.mul_sum]
  refine sum_congr rfl fun i _ => ?_
  rw [← sum_map_mul_left']
  congr 1
  refine List.map_congr_left fun mw _ => ?_
  rw [h cell hc i]
  split_ifs <;> ring

theorem assemble_mono {N : ℕ} (c : Constraints) (hw : ∀ k, ∀ mw ∈ resolve c k, 0 ≤ mw.2)
    (f g : Cell N → Fin N → ℝ) (cells : List (Cell N))
    (k : ℕ) (h : ∀ cell ∈ cells, ∀ i, f cell i ≤ g cell i) :
    assemble c f cells k ≤ assemble c g cells k := by
  unfold assemble
  refine sum_map_le _ _ _ fun cell hc => sum_le_sum fun i _ => sum_map_le _ _ _ fun mw hm => ?_
  have := mul_le_mul_of_nonneg_left (h cell hc i) (hw _ mw hm)
  split_ifs <;> linarith

/-- C54: a uniform damage is projected to itself, at every degree of freedom the projection
determines, hanging nodes or not. -/
theorem C54_uniform {N : ℕ} (c : Constraints) (cells : List (Cell N)) (hu : Unity cells) (δ : ℝ)
    (hd : ∀ q ∈ allPts cells, q.damage = δ) (k : ℕ) (hk : assemble c Cell.lumped cells k ≠ 0) :
    projected c cells k = δ := by
  unfold projected
  rw [if_neg hk, assemble_smul c Cell.rhs Cell.lumped cells k δ, mul_div_assoc, div_self hk, mul_one]
  intro cell hc i
  rw [lumped_eq cell (fun q hq => hu q (List.mem_flatMap.2 ⟨cell, hc, hq⟩)), ← sum_map_mul_left']
  unfold Cell.rhs
  congr 1
  refine List.map_congr_left fun q hq => ?_
  rw [hd q (List.mem_flatMap.2 ⟨cell, hc, hq⟩)]
  ring

/-- C54: the same for the returned field at a hanging node whose masters are determined and whose
weights sum to one. -/
theorem C54_uniform_hanging {N : ℕ} (c : Constraints) (cells : List (Cell N)) (hu : Unity cells)
    (δ : ℝ) (hd : ∀ q ∈ allPts cells, q.damage = δ) (k : ℕ) (l : List (ℕ × ℝ)) (hc : c k = some l)
    (hl : (l.map Prod.snd).sum = 1) (hk : ∀ mw ∈ l, assemble c Cell.lumped cells mw.1 ≠ 0) :
    damageField c cells k = δ := by
  unfold damageField
  rw [hc]
  have : (l.map fun mw => mw.2 * projected c cells mw.1) = l.map fun mw => δ * mw.2 := by
    refine List.map_congr_left fun mw hm => ?_
    rw [C54_uniform c cells hu δ hd _ (hk mw hm), mul_comm]
  show (l.map fun mw => mw.2 * projected c cells mw.1).sum = δ
  rw [this, sum_map_mul_left', hl, mul_one]

/-- C54: for non-negative shape functions the projected damage lies between bounds of the damage.
Partial: the projection uses quadratic Lagrange elements, whose shape functions change sign. -/
theorem C54_bounds_partial {N : ℕ} (c : Constraints) (cells : List (Cell N)) (hu : Unity cells)
    (hφ : ∀ q ∈ allPts cells, ∀ i, 0 ≤ q.phi i) (hJ : ∀ q ∈ allPts cells, 0 ≤ q.jxw)
    (hw : ∀ k, ∀ mw ∈ resolve c k, 0 ≤ mw.2) (lo hi : ℝ)
    (hd : ∀ q ∈ allPts cells, lo ≤ q.damage ∧ q.damage ≤ hi) (k : ℕ)
    (hk : assemble c Cell.lumped cells k ≠ 0) :
    lo ≤ projected c cells k ∧ projected c cells k ≤ hi := by
  have hl : ∀ cell ∈ cells, ∀ i, cell.lumped i = (cell.pts.map fun q => q.phi i * q.jxw).sum :=
    fun cell hc i => lumped_eq cell (fun q hq => hu q (List.mem_flatMap.2 ⟨cell, hc, hq⟩)) i
  have hpos : 0 < assemble c Cell.lumped cells k := by
    refine lt_of_le_of_ne ?_ hk.symm
    have h0 : assemble c (fun _ _ => (0 : ℝ)) cells k = 0 := by
      rw [assemble_smul c (fun _ _ => (0 : ℝ)) (fun _ _ => 0) cells k 0 (by intros; simp), zero_mul]
    rw [← h0]
    refine assemble_mono c hw _ _ cells k fun cell hc i => ?_
    rw [hl cell hc i]
    refine List.sum_nonneg ?_
    intro x hx
    obtain ⟨q, hq, rfl⟩ := List.mem_map.1 hx
    have hm := List.mem_flatMap.2 ⟨cell, hc, hq⟩
    exact mul_nonneg (hφ q hm i) (hJ q hm)
  have hb : lo * assemble c Cell.lumped cells k ≤ assemble c Cell.rhs cells k ∧
      assemble c Cell.rhs cells k ≤ hi * assemble c Cell.lumped cells k := by
    constructor
    · rw [← assemble_smul c (fun cell i => lo * cell.lumped i) Cell.lumped cells k lo
        (fun _ _ _ => rfl)]
      refine assemble_mono c hw _ _ cells k fun cell hc i => ?_
      rw [hl cell hc i, ← sum_map_mul_left']
      refine sum_map_le _ _ _ fun q hq => ?_
      have hm := List.mem_flatMap.2 ⟨cell, hc, hq⟩
      have := mul_le_mul_of_nonneg_left (hd q hm).1 (mul_nonneg (hφ q hm i) (hJ q hm))
      linarith
    · rw [← assemble_smul c (fun cell i => hi * cell.lumped i) Cell.lumped cells k hi
        (fun _ _ _ => rfl)]
      refine assemble_mono c hw _ _ cells k fun cell hc i => ?_
      rw [hl cell hc i, ← sum_map_mul_left']
      refine sum_map_le _ _ _ fun q hq => ?_
      have hm := List.mem_flatMap.2 ⟨cell, hc, hq⟩
      have := mul_le_mul_of_nonneg_left (hd q hm).2 (mul_nonneg (hφ q hm i) (hJ q hm))
      linarith
  unfold projected
  rw [if_neg hk, le_div_iff₀ hpos, div_le_iff₀ hpos]
  exact hb

/-- C54: the projection conserves the integral of the damage: the integral of the projected values
(with the lumped matrix) is the integral of the quadrature point values. -/
theorem C54_conserved {N : ℕ} (c : Constraints) (cells : List (Cell N)) (hu : Unity cells)
    (S : Finset ℕ)
    (hS : ∀ cell ∈ cells, ∀ i, ∀ mw ∈ resolve c (cell.dofs i), mw.1 ∈ S)
    (hw : ∀ cell ∈ cells, ∀ i, ((resolve c (cell.dofs i)).map Prod.snd).sum = 1)
    (hM : ∀ k ∈ S, assemble c Cell.lumped cells k ≠ 0) :
    ∑ k ∈ S, assemble c Cell.lumped cells k * projected c cells k =
      ((allPts cells).map fun q => q.damage * q.jxw).sum := by
  have h1 : ∀ k ∈ S, assemble c Cell.lumped cells k * projected c cells k =
      assemble c Cell.rhs cells k := by
    intro k hk
    unfold projected
    rw [if_neg (hM k hk), mul_div_cancel₀ _ (hM k hk)]
  rw [sum_congr rfl h1]
  clear h1 hM
  unfold assemble
  have hcell : ∀ cell ∈ cells, ∑ k ∈ S, ∑ i, ((resolve c (cell.dofs i)).map fun mw =>
      if mw.1 = k then mw.2 * cell.rhs i else 0).sum =
      (cell.pts.map fun q => q.damage * q.jxw).sum := by
    intro cell hc
    rw [Finset.sum_comm]
    have : ∀ i, ∑ k ∈ S, ((resolve c (cell.dofs i)).map fun mw =>
        if mw.1 = k then mw.2 * cell.rhs i else 0).sum = cell.rhs i := by
      intro i
      have hl : ∀ l : List (ℕ × ℝ), (∀ mw ∈ l, mw.1 ∈ S) →
          ∑ k ∈ S, (l.map fun mw => if mw.1 = k then mw.2 * cell.rhs i else 0).sum =
            (l.map Prod.snd).sum * cell.rhs i := by
        intro l
        induction l with
        | nil => simp
        | cons mw l ih =>
          intro h
          simp only [List.map_cons, List.sum_cons, sum_add_distrib, add_mul]
          rw [ih fun x hx => h x (List.mem_cons_of_mem _ hx),
            Finset.sum_ite_eq, if_pos (h mw List.mem_cons_self)]
      rw [hl _ (hS cell hc i), hw cell hc i, one_mul]
    rw [sum_congr rfl fun i _ => this i]
    unfold Cell.rhs
    have hq : ∀ q ∈ cell.pts, ∑ j, q.phi j = 1 := fun q hq =>
      hu q (List.mem_flatMap.2 ⟨cell, hc, hq⟩)
    generalize cell.pts = pts at hq
    induction pts with
    | nil => simp
    | cons q l ih =>
      simp only [List.map_cons, List.sum_cons, sum_add_distrib]
      rw [ih fun x hx => hq x (List.mem_cons_of_mem _ hx)]
      congr 1
      have := hq q List.mem_cons_self
      calc ∑ i, q.phi i * q.damage * q.jxw = (∑ i, q.phi i) * (q.damage * q.jxw) := by
            rw [Finset.sum_mul]; exact sum_congr rfl fun _ _ => by ring
        _ = _ := by rw [this, one_mul]
  have hS' : ∀ l : List (Cell N), (∀ x ∈ l, x ∈ cells) →
      ∑ k ∈ S, (l.map fun cell => ∑ i, ((resolve c (cell.dofs i)).map fun mw =>
        if mw.1 = k then mw.2 * cell.rhs i else 0).sum).sum =
      ((allPts l).map fun q => q.damage * q.jxw).sum := by
    intro l
    induction l with
    | nil => simp [allPts]
    | cons x l ih =>
      intro h
      simp only [List.map_cons, List.sum_cons, sum_add_distrib]
      rw [ih fun y hy => h y (List.mem_cons_of_mem _ hy), hcell x (h x List.mem_cons_self)]
      simp [allPts]
  exact hS' cells fun _ h => h

/-! ### The quadratic element -/

/-- Left Gauss point of three on the unit interval. -/
noncomputable def gauss : ℝ := (1 - √(3 / 5)) / 2

/-- A grain-boundary face of length 1 seen from a cell, with `FE_Q(2)` and the three-point Gauss
formula; the damage is 1 at the first point and 0 at the others. -/
noncomputable def exCell : Cell 3 where
  dofs := fun i => i
  pts := [⟨5 / 18, quadratic gauss, 1⟩, ⟨8 / 18, quadratic (1 / 2), 0⟩,
    ⟨5 / 18, quadratic (1 - gauss), 0⟩]

theorem quadratic_unity (x : ℝ) : ∑ j, quadratic x j = 1 := by
  simp [quadratic, Fin.sum_univ_three]; ring

theorem mem_ex {q : FacePt 3} (hq : q ∈ allPts [exCell, exCell]) :
    q = ⟨5 / 18, quadratic gauss, 1⟩ ∨ q = ⟨8 / 18, quadratic (1 / 2), 0⟩ ∨
      q = ⟨5 / 18, quadratic (1 - gauss), 0⟩ := by
  obtain ⟨c, hc, hq⟩ := List.mem_flatMap.1 hq
  have : c = exCell := by simpa using hc
  subst this
  simpa [exCell] using hq

theorem exCell_unity : Unity [exCell, exCell] := by
  intro q hq
  rcases mem_ex hq with rfl | rfl | rfl <;> exact quadratic_unity _

theorem gauss_sq : gauss * gauss = gauss - 1 / 10 := by
  have h : √(3 / 5) ^ 2 = 3 / 5 := Real.sq_sqrt (by norm_num)
  unfold gauss
  nlinarith

theorem exCell_lumped (k : Fin 3) : assemble (fun _ => none) Cell.lumped [exCell, exCell] k =
    2 * exCell.lumped k := by
  unfold assemble
  simp only [resolve, Option.getD_none, List.map_cons, List.map_nil, List.sum_cons, List.sum_nil,
    add_zero, one_mul]
  fin_cases k <;> simp [Fin.sum_univ_three, exCell] <;> ring

theorem exCell_rhs (k : Fin 3) : assemble (fun _ => none) Cell.rhs [exCell, exCell] k =
    2 * exCell.rhs k := by
  unfold assemble
  simp only [resolve, Option.getD_none, List.map_cons, List.map_nil, List.sum_cons, List.sum_nil,
    add_zero, one_mul]
  fin_cases k <;> simp [Fin.sum_univ_three, exCell] <;> ring

/-- C54 is violated by the projection: although every damage value lies in `[0, 1]`, the projected
damage at a vertex is negative. -/
theorem C54_violated_projection : ∃ cells : List (Cell 3), Unity cells ∧
    (∀ q ∈ allPts cells, 0 < q.jxw ∧ 0 ≤ q.damage ∧ q.damage ≤ 1 ∧
      ∃ x, 0 ≤ x ∧ x ≤ 1 ∧ q.phi = quadratic x) ∧
    assemble (fun _ => none) Cell.lumped cells 1 = 1 / 3 ∧ projected (fun _ => none) cells 1 < 0 := by
  have hs : √(3 / 5) ^ 2 = 3 / 5 := Real.sq_sqrt (by norm_num)
  have hs0 : 0 < √(3 / 5) := Real.sqrt_pos.2 (by norm_num)
  have hs1 : √(3 / 5) < 1 := by nlinarith
  have hM : assemble (fun _ => none) Cell.lumped [exCell, exCell] 1 = 1 / 3 := by
    have := exCell_lumped 1
    rw [show (((1 : Fin 3) : ℕ)) = 1 from rfl] at this
    rw [this, lumped_eq exCell (fun q hq => exCell_unity q (by simp [allPts, hq]))]
    have g := gauss_sq
    simp [exCell, quadratic]
    nlinarith
  have hR : assemble (fun _ => none) Cell.rhs [exCell, exCell] 1 = 5 / 9 * (gauss * (2 * gauss - 1)) := by
    have := exCell_rhs 1
    rw [show (((1 : Fin 3) : ℕ)) = 1 from rfl] at this
    rw [this]
    simp [Cell.rhs, exCell, quadratic]
    ring
  refine ⟨[exCell, exCell], exCell_unity, ?_, hM, ?_⟩
  · intro q hq
    rcases mem_ex hq with rfl | rfl | rfl
    · exact ⟨by norm_num, by norm_num, by norm_num, gauss, by unfold gauss; linarith,
        by unfold gauss; linarith, rfl⟩
    · exact ⟨by norm_num, by norm_num, by norm_num, 1 / 2, by norm_num, by norm_num, rfl⟩
    · exact ⟨by norm_num, by norm_num, by norm_num, 1 - gauss, by unfold gauss; linarith,
        by unfold gauss; linarith, rfl⟩
  · unfold projected
    rw [if_neg (by rw [hM]; norm_num), hM, hR]
    have h1 : 0 < gauss := by unfold gauss; linarith
    have h2 : 2 * gauss - 1 < 0 := by unfold gauss; linarith
    have := mul_neg_of_pos_of_neg h1 h2
    have h3 : 5 / 9 * (gauss * (2 * gauss - 1)) < 0 := by linarith
    exact div_neg_of_neg_of_pos h3 (by norm_num)

/-! ### The macroscopic damage -/

/-- C54: if the uninitialised accumulators happen to hold zero, the macroscopic damage is the area
average: it lies between bounds of the damage, and is the damage if that is uniform.  Partial:
nothing sets the accumulators to zero. -/
theorem C54_average_partial (procs : List Proc) (h0 : ∀ p ∈ procs, p.garbage = 0)
    (hJ : ∀ p ∈ procs, ∀ q ∈ p.pts, 0 < q.2) (lo hi : ℝ)
    (hd : ∀ p ∈ procs, ∀ q ∈ p.pts, lo ≤ q.1 ∧ q.1 ≤ hi) (hne : ∃ p ∈ procs, p.pts ≠ []) :
    ∃ D, macroDamage procs = some D ∧ lo ≤ D ∧ D ≤ hi := by
  have hnn : ∀ p ∈ procs, 0 ≤ (p.pts.map fun q => q.2).sum := by
    intro p hp
    refine List.sum_nonneg ?_
    intro x hx
    obtain ⟨q, hq, rfl⟩ := List.mem_map.1 hx
    exact (hJ p hp q hq).le
  have hpos : 0 < (procs.map fun p => (p.pts.map fun q => q.2).sum).sum := by
    obtain ⟨p, hp, hpn⟩ := hne
    have hp0 : 0 < (p.pts.map fun q => q.2).sum := by
      refine List.sum_pos _ ?_ (by simpa using hpn)
      intro x hx
      obtain ⟨q, hq, rfl⟩ := List.mem_map.1 hx
      exact hJ p hp q hq
    refine lt_of_lt_of_le hp0 ?_
    refine List.single_le_sum ?_ _ (List.mem_map.2 ⟨p, hp, rfl⟩)
    intro x hx
    obtain ⟨p', hp', rfl⟩ := List.mem_map.1 hx
    exact hnn p' hp'
  unfold macroDamage
  refine ⟨_, if_neg hpos.ne', ?_, ?_⟩
  · rw [le_div_iff₀ hpos, ← sum_map_mul_left']
    refine sum_map_le _ _ _ fun p hp => ?_
    rw [h0 p hp, zero_add, ← sum_map_mul_left']
    exact sum_map_le _ _ _ fun q hq => mul_le_mul_of_nonneg_right (hd p hp q hq).1 (hJ p hp q hq).le
  · rw [div_le_iff₀ hpos, ← sum_map_mul_left']
    refine sum_map_le _ _ _ fun p hp => ?_
    rw [h0 p hp, zero_add, ← sum_map_mul_left']
    exact sum_map_le _ _ _ fun q hq => mul_le_mul_of_nonneg_right (hd p hp q hq).2 (hJ p hp q hq).le

/-- C54 is violated by the macroscopic damage: an undamaged grain boundary can be reported with any
value at all, whatever the memory contained; and without grain-boundary faces the result is not a
number. -/
theorem C54_violated_uninitialised (D : ℝ) :
    (∃ procs : List Proc, (∀ p ∈ procs, ∀ q ∈ p.pts, q.1 = 0 ∧ 0 < q.2) ∧
      macroDamage procs = some D) ∧ macroDamage [⟨0, []⟩] = none := by
  refine ⟨⟨[⟨D, [(0, 1)]⟩], by simp, by simp [macroDamage]⟩, by simp [macroDamage]⟩

/-- Non-vacuity of `C54_bounds_partial` and `C54_conserved`: linear shape functions. -/
noncomputable def exLinear : Cell 2 where
  dofs := fun i => i
  pts := [⟨1 / 2, ![3 / 4, 1 / 4], 1⟩, ⟨1 / 2, ![1 / 4, 3 / 4], 0⟩]

example : Unity [exLinear] ∧ (∀ q ∈ allPts [exLinear], ∀ i, 0 ≤ q.phi i) ∧
    assemble (fun _ => none) Cell.lumped [exLinear] 0 ≠ 0 ∧
    projected (fun _ => none) [exLinear] 0 = 3 / 4 := by
  have hM : assemble (fun _ => none) Cell.lumped [exLinear] 0 = 1 / 2 := by
    simp [assemble, resolve, exLinear, Cell.lumped, Fin.sum_univ_two]; norm_num
  refine ⟨?_, ?_, by rw [hM]; norm_num, ?_⟩
  · intro q hq
    simp [allPts, exLinear] at hq
    rcases hq with rfl | rfl <;> norm_num [Fin.sum_univ_two]
  · intro q hq i
    simp [allPts, exLinear] at hq
    rcases hq with rfl | rfl <;> fin_cases i <;> norm_num
  · unfold projected
    rw [if_neg (by rw [hM]; norm_num), hM]
    simp [assemble, resolve, exLinear, Cell.rhs, Fin.sum_univ_two]

/-- Non-vacuity of `C54_average_partial`: two processes, one without grain-boundary faces. -/
example : ∃ D, macroDamage [⟨0, [(1 / 2, 1), (1 / 4, 3)]⟩, ⟨0, []⟩] = some D ∧ 1 / 4 ≤ D ∧ D ≤ 1 / 2 :=
  C54_average_partial _ (by simp)
    (by
      intro p hp q hq
      simp only [List.mem_cons, List.not_mem_nil, or_false] at hp
      rcases hp with rfl | rfl
      · simp only [List.mem_cons, List.not_mem_nil, or_false] at hq
        rcases hq with rfl | rfl <;> norm_num
      · simp at hq) _ _
    (by
      intro p hp q hq
      simp only [List.mem_cons, List.not_mem_nil, or_false] at hp
      rcases hp with rfl | rfl
      · simp only [List.mem_cons, List.not_mem_nil, or_false] at hq
        rcases hq with rfl | rfl <;> norm_num
      · simp at hq) ⟨_, List.mem_cons_self, by simp⟩

end Verif.Dam
