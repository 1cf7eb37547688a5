import Verif.Model.RoundedHistory
import Verif.Props.RoundedTime
import Verif.Props.History

/-!
# C111: the history variables in double precision
-/

namespace Verif.Fp
open Hist

/-! ## Specification -/

/-- Admissible parameters: modulus, latent hardening parameter and initial value not negative, a positive
reference value; the hardening parameter is a double, as everything read from the parameter file. -/
structure SpecAccepted (p : Hardening) : Prop where
  initial : 0 ≤ p.initial
  modulus : 0 ≤ p.modulus
  parameter : 0 ≤ p.parameter
  characteristic : 0 < p.characteristic
  double : IsDouble p.parameter

/-- Parameters of moderate size: no overflow, and nothing that matters underflows. -/
structure SpecModerate (p : Hardening) : Prop where
  accepted : SpecAccepted p
  modulus : p.modulus = 0 ∨ 1 / 10 ^ 40 ≤ p.modulus / p.characteristic
  modulus_le : p.modulus / p.characteristic ≤ 10 ^ 40
  parameter : p.parameter = 0 ∨ 1 / 10 ^ 40 ≤ p.parameter
  parameter_le : p.parameter ≤ 2

/-! ## Rounding -/

section
variable {fl : ℝ → ℝ} (hfl : IsRounding fl)
include hfl

theorem fl_le {x y : ℝ} (hy : IsDouble y) (h : x ≤ y) : fl x ≤ y := by
  by_contra hc
  push Not at hc
  have := hfl.nearest x y hy
  rw [abs_sub_comm x (fl x), abs_sub_comm x y, abs_of_nonneg (by linarith),
    abs_of_nonneg (by linarith)] at this
  linarith

theorem fl_ge {x y : ℝ} (hy : IsDouble y) (h : y ≤ x) : y ≤ fl x := by
  by_contra hc
  push Not at hc
  have := hfl.nearest x y hy
  rw [abs_of_nonneg (by linarith), abs_of_nonneg (by linarith)] at this
  linarith

theorem fl_nonneg {x : ℝ} (h : 0 ≤ x) : 0 ≤ fl x := fl_ge hfl isDouble_zero h

omit hfl in
theorem isDouble_neg {x : ℝ} (h : IsDouble x) : IsDouble (-x) := by
  obtain ⟨m, e, hm, he, rfl⟩ := h
  exact ⟨-m, e, by rwa [abs_neg], he, by push_cast; ring⟩

omit hfl in
theorem isDouble_one : IsDouble 1 := ⟨1, 0, by norm_num, by norm_num, by norm_num⟩

/-! ## Slip resistances -/

omit hfl in
theorem foldl_update {n : ℕ} (a : Fin n) (f : ℝ → Fin n → ℝ) (l : List (Fin n)) (r : Fin n → ℝ) :
    l.foldl (fun r b => Function.update r a (f (r a) b)) r = Function.update r a (l.foldl f (r a)) := by
  induction l generalizing r with
  | nil => simp
  | cons b l ih =>
    rw [List.foldl_cons, ih, List.foldl_cons, Function.update_self, Function.update_idem]

omit hfl in
theorem foldl_rows' {n : ℕ} (g : Fin n → ℝ → ℝ) (l : List (Fin n)) (hl : l.Nodup) (r : Fin n → ℝ)
    (i : Fin n) : l.foldl (fun r a => Function.update r a (g a (r a))) r i =
      if i ∈ l then g i (r i) else r i := by
  induction l generalizing r with
  | nil => simp
  | cons a l ih =>
    rw [List.nodup_cons] at hl
    rw [List.foldl_cons, ih hl.2]
    by_cases h : i = a
    · subst h
      simp [hl.1]
    · simp [h]

omit hfl in
theorem bulkUpdate_res {n : ℕ} (b : Bulk n) (s o : Fin n → ℝ) (hp : b.prm.perfect = false)
    (a : Fin n) : (bulkUpdate fl b s o).res a = (List.finRange n).foldl (fun x c =>
      fl (x + fl (entry fl b.prm (decide (a = c)) * |fl (s c - o c)|))) (b.tmp a) := by
  unfold bulkUpdate
  rw [hp]
  show (List.finRange n).foldl (fun r a => hardenRow fl b.prm s o a r) b.tmp a = _
  have : (fun r a => hardenRow fl b.prm s o a r) = fun (r : Fin n → ℝ) a =>
      Function.update r a ((List.finRange n).foldl (fun x c =>
        fl (x + fl (entry fl b.prm (decide (a = c)) * |fl (s c - o c)|))) (r a)) := by
    funext r a
    exact foldl_update a (fun x c => fl (x + fl (entry fl b.prm (decide (a = c)) * |fl (s c - o c)|)))
      (List.finRange n) r
  rw [this, foldl_rows' (fun a x => (List.finRange n).foldl (fun x c =>
        fl (x + fl (entry fl b.prm (decide (a = c)) * |fl (s c - o c)|))) x) _
        (List.nodup_finRange n), if_pos (List.mem_finRange a)]

omit hfl in
theorem update_res {n : ℕ} (b : Bulk n) (s o : Fin n → ℝ) (hp : b.prm.perfect = false)
    (a : Fin n) : (b.update s o).res a = (List.finRange n).foldl (fun x c =>
      x + b.prm.entry (decide (a = c)) * |s c - o c|) (b.tmp a) := by
  unfold Bulk.update
  rw [hp]
  show (List.finRange n).foldl (fun r a => Hist.hardenRow b.prm s o a r) b.tmp a = _
  have : (fun r a => Hist.hardenRow b.prm s o a r) = fun (r : Fin n → ℝ) a =>
      Function.update r a ((List.finRange n).foldl (fun x c =>
        x + b.prm.entry (decide (a = c)) * |s c - o c|) (r a)) := by
    funext r a
    exact foldl_update a (fun x c => x + b.prm.entry (decide (a = c)) * |s c - o c|)
      (List.finRange n) r
  rw [this, foldl_rows' (fun a x => (List.finRange n).foldl (fun x c =>
        x + b.prm.entry (decide (a = c)) * |s c - o c|) x) _
        (List.nodup_finRange n), if_pos (List.mem_finRange a)]

omit hfl in
theorem bulkOps_keep {n : ℕ} (l : List (BulkOp n)) (b : Bulk n) :
    (l.foldl (bulkOp fl) b).tmp = b.tmp ∧ (l.foldl (bulkOp fl) b).prm = b.prm := by
  induction l generalizing b with
  | nil => exact ⟨rfl, rfl⟩
  | cons o l ih =>
    have h : (bulkOp fl b o).tmp = b.tmp ∧ (bulkOp fl b o).prm = b.prm := by
      cases o with
      | update s o => unfold bulkOp bulkUpdate; split_ifs <;> exact ⟨rfl, rfl⟩
      | reset => exact ⟨rfl, rfl⟩
    rw [List.foldl_cons]
    exact ⟨(ih _).1.trans h.1, (ih _).2.trans h.2⟩

omit hfl in
theorem ops_keep {n : ℕ} (l : List (BulkOp n)) (b : Bulk n) :
    (l.foldl Bulk.op b).tmp = b.tmp ∧ (l.foldl Bulk.op b).prm = b.prm := by
  induction l generalizing b with
  | nil => exact ⟨rfl, rfl⟩
  | cons o l ih =>
    have h : (Bulk.op b o).tmp = b.tmp ∧ (Bulk.op b o).prm = b.prm := by
      cases o with
      | update s o => unfold Bulk.op Bulk.update; split_ifs <;> exact ⟨rfl, rfl⟩
      | reset => exact ⟨rfl, rfl⟩
    rw [List.foldl_cons]
    exact ⟨(ih _).1.trans h.1, (ih _).2.trans h.2⟩

omit hfl in
theorem bulkUpdate_congr {n : ℕ} (b b' : Bulk n) (ht : b.tmp = b'.tmp) (hp : b.prm = b'.prm)
    (s o : Fin n → ℝ) : bulkUpdate fl b s o = bulkUpdate fl b' s o := by
  unfold bulkUpdate
  rw [ht, hp]

theorem entry_nonneg {p : Hardening} (h : SpecAccepted p) (self : Bool) : 0 ≤ entry fl p self := by
  refine fl_nonneg hfl (mul_nonneg (fl_nonneg hfl (div_nonneg h.modulus h.characteristic.le))
    (fl_nonneg hfl ?_))
  cases self with
  | false => simpa using h.parameter
  | true =>
    have : -p.parameter ≤ fl (1 - p.parameter) := fl_ge hfl (isDouble_neg h.double) (by linarith)
    simp only [if_true]
    linarith

theorem foldl_ge {n : ℕ} (t : Fin n → ℝ) (ht : ∀ c, 0 ≤ t c) (l : List (Fin n)) (x : ℝ)
    (hx : IsDouble x) : IsDouble (l.foldl (fun x c => fl (x + t c)) x) ∧
      x ≤ l.foldl (fun x c => fl (x + t c)) x := by
  induction l generalizing x with
  | nil => exact ⟨hx, le_refl _⟩
  | cons c l ih =>
    obtain ⟨h1, h2⟩ := ih (fl (x + t c)) (hfl.double _)
    rw [List.foldl_cons]
    exact ⟨h1, (fl_ge hfl hx (by linarith [ht c])).trans h2⟩

/-! ### Error of the resistances -/

theorem entry_err {p : Hardening} (h : SpecModerate p) (self : Bool) :
    |entry fl p self - p.entry self| ≤ 5 * unit * p.entry self ∧ 0 ≤ p.entry self ∧
      p.entry self ≤ 10 ^ 41 := by
  have ha := h.accepted
  set q := p.modulus / p.characteristic with hq
  have hq0 : 0 ≤ q := div_nonneg ha.modulus ha.characteristic.le
  set f : ℝ := p.parameter + (if self then 1 - p.parameter else 0) with hf
  set f' := fl (p.parameter + if self then fl (1 - p.parameter) else 0) with hf'
  have hu : unit = 1 / 9007199254740992 := rfl
  have ht := tiny_small
  have ht0 := tiny_pos
  have hf0 : f = 0 ∨ (1 / 10 ^ 40 ≤ f ∧ f ≤ 2) := by
    cases self with
    | true => right; rw [hf]; simp only [if_true]; norm_num
    | false =>
      rw [hf]
      simp only [Bool.false_eq_true, if_false, add_zero]
      rcases h.parameter with h0 | h0
      · exact Or.inl h0
      · exact Or.inr ⟨h0, h.parameter_le⟩
  have hfe : |f' - f| ≤ 2.1 * unit * f := by
    cases self with
    | false =>
      rw [hf', hf]
      simp only [Bool.false_eq_true, if_false, add_zero]
      rw [fl_double hfl ha.double, sub_self, abs_zero]
      exact mul_nonneg (by norm_num [unit]) ha.parameter
    | true =>
      rw [hf', hf]
      simp only [if_true]
      have h1 := fl_err hfl (1 - p.parameter)
      have h2 : |1 - p.parameter| ≤ 1 := by
        rw [abs_le]; constructor <;> linarith [ha.parameter, h.parameter_le]
      set s := p.parameter + fl (1 - p.parameter) with hs
      have h3 := fl_err hfl s
      have h4 : |s - 1| ≤ unit + tiny := by
        rw [hs, show p.parameter + fl (1 - p.parameter) - 1 =
          fl (1 - p.parameter) - (1 - p.parameter) by ring]
        refine h1.trans ?_
        have : unit * |1 - p.parameter| ≤ unit * 1 := mul_le_mul_of_nonneg_left h2 (by norm_num [unit])
        linarith
      have h5 : |s| ≤ 1 + unit + tiny := by
        have := abs_sub_abs_le_abs_sub s 1
        rw [abs_one] at this
        linarith
      have h6 : unit * |s| ≤ unit * (1 + unit + tiny) :=
        mul_le_mul_of_nonneg_left h5 (by norm_num [unit])
      have h7 : |fl s - 1| ≤ |fl s - s| + |s - 1| := abs_sub_le _ _ _
      rw [show p.parameter + (1 - p.parameter) = 1 by ring]
      have h8 : unit * (1 + unit + tiny) ≤ 1.01 * unit := by
        rw [hu] at *
        norm_num at *
        linarith
      have h9 : 2 * tiny ≤ 0.01 * unit := by rw [hu]; norm_num at *; linarith
      linarith
  have hE : p.entry self = q * f := rfl
  rw [hE]
  have hEhat : entry fl p self = fl (fl q * f') := rfl
  rw [hEhat]
  have hf2 : 0 ≤ f ∧ f ≤ 2 := by
    rcases hf0 with h | h
    · rw [h]; norm_num
    · exact ⟨le_trans (by positivity) h.1, h.2⟩
  refine ⟨?_, mul_nonneg hq0 hf2.1, ?_⟩
  · rcases hf0 with h0 | ⟨h1, h2⟩
    · have : f' = 0 := by
        rw [h0, mul_zero, sub_zero] at hfe
        exact abs_nonpos_iff.1 hfe
      rw [this, h0, mul_zero, mul_zero, fl_zero hfl]
      simp
    · rcases h.modulus with m0 | m1
      · have : q = 0 := by rw [hq, m0, zero_div]
        rw [this, fl_zero hfl, zero_mul, zero_mul, fl_zero hfl]
        simp
      · have hqe : |fl q - q| ≤ 1.001 * unit * q :=
          fl_rel_pos hfl (le_trans (by norm_num) m1)
        have hqpos : 0 < q := lt_of_lt_of_le (by positivity) m1
        have hfpos : 0 < f := lt_of_lt_of_le (by positivity) h1
        have hprod : |fl q * f' - q * f| ≤ 3.11 * unit * (q * f) := by
          have e : fl q * f' - q * f = (fl q - q) * f' + q * (f' - f) := by ring
          have hf'le : |f'| ≤ (1 + 2.1 * unit) * f := by
            have := abs_sub_abs_le_abs_sub f' f
            rw [abs_of_pos hfpos] at this
            linarith
          rw [e]
          refine (abs_add_le _ _).trans ?_
          rw [abs_mul, abs_mul, abs_of_pos hqpos]
          have a1 : |fl q - q| * |f'| ≤ (1.001 * unit * q) * ((1 + 2.1 * unit) * f) :=
            mul_le_mul hqe hf'le (abs_nonneg _) (by norm_num [unit]; positivity)
          have a2 : q * |f' - f| ≤ q * (2.1 * unit * f) := mul_le_mul_of_nonneg_left hfe hqpos.le
          have hqf : 0 < q * f := mul_pos hqpos hfpos
          have a3 : (1.001 * unit * q) * ((1 + 2.1 * unit) * f) + q * (2.1 * unit * f) =
              (1.001 * unit * (1 + 2.1 * unit) + 2.1 * unit) * (q * f) := by ring
          have a4 : 1.001 * unit * (1 + 2.1 * unit) + 2.1 * unit ≤ 3.11 * unit := by
            rw [hu]; norm_num
          have := mul_le_mul_of_nonneg_right a4 hqf.le
          linarith
        have hqf : 1 / 10 ^ 80 ≤ q * f := by
          have := mul_le_mul m1 h1 (by positivity) hqpos.le
          norm_num at this ⊢
          linarith
        have hx : 1 / 10 ^ 100 ≤ fl q * f' := by
          have := abs_le.1 hprod
          have h3 : 3.11 * unit * (q * f) ≤ 0.5 * (q * f) :=
            mul_le_mul_of_nonneg_right (by rw [hu]; norm_num) (by positivity)
          norm_num at hqf ⊢
          linarith
        have hr := fl_rel_pos hfl hx
        have hsum : |fl (fl q * f') - q * f| ≤ |fl (fl q * f') - fl q * f'| + |fl q * f' - q * f| :=
          abs_sub_le _ _ _
        have hup : fl q * f' ≤ (1 + 3.11 * unit) * (q * f) := by
          have := (abs_le.1 hprod).2; linarith
        have : 1.001 * unit * (fl q * f') ≤ 1.001 * unit * ((1 + 3.11 * unit) * (q * f)) :=
          mul_le_mul_of_nonneg_left hup (by norm_num [unit])
        have h4 : (1.001 * unit * (1 + 3.11 * unit) + 3.11 * unit) * (q * f) ≤ 5 * unit * (q * f) :=
          mul_le_mul_of_nonneg_right (by rw [hu]; norm_num)
            (mul_pos hqpos hfpos).le
        linarith
  · have := mul_le_mul h.modulus_le hf2.2 hf2.1 (by positivity)
    norm_num at this ⊢
    linarith

/-- One summand: relative error `7u` up to an absolute error far below anything. -/
theorem term_err {p : Hardening} (h : SpecModerate p) (self : Bool) (x : ℝ) :
    abs (fl (entry fl p self * |fl x|) - p.entry self * |x|) ≤ 7.1 * unit * (p.entry self * |x|) +
      1 / 10 ^ 150 := by
  obtain ⟨h1, h2, h3⟩ := entry_err hfl h self
  set E := p.entry self
  set E' := entry fl p self
  have hu : unit = 1 / 9007199254740992 := rfl
  have ht := tiny_small
  have ht0 := tiny_pos
  have hx := fl_err hfl x
  have hx' : abs (|fl x| - |x|) ≤ unit * |x| + tiny := (abs_abs_sub_abs_le _ _).trans hx
  have hE' : |E'| ≤ (1 + 5 * unit) * E := by
    have := abs_sub_abs_le_abs_sub E' E
    rw [abs_of_nonneg h2] at this
    linarith
  have hprod : abs (E' * |fl x| - E * |x|) ≤ 6.01 * unit * (E * |x|) + 10 ^ 42 * tiny := by
    have e : E' * |fl x| - E * |x| = E' * (|fl x| - |x|) + (E' - E) * |x| := by ring
    rw [e]
    refine (abs_add_le _ _).trans ?_
    rw [abs_mul, abs_mul, abs_abs]
    have a1 : |E'| * abs (|fl x| - |x|) ≤ ((1 + 5 * unit) * E) * (unit * |x| + tiny) :=
      mul_le_mul hE' hx' (abs_nonneg _) (by norm_num [unit]; positivity)
    have a2 : |E' - E| * |x| ≤ 5 * unit * E * |x| := mul_le_mul_of_nonneg_right h1 (abs_nonneg _)
    have hEx : 0 ≤ E * |x| := mul_nonneg h2 (abs_nonneg _)
    have a3 : ((1 + 5 * unit) * unit + 5 * unit) * (E * |x|) ≤ 6.01 * unit * (E * |x|) :=
      mul_le_mul_of_nonneg_right (by rw [hu]; norm_num) hEx
    have a4 : (1 + 5 * unit) * E * tiny ≤ 10 ^ 42 * tiny := by
      refine mul_le_mul_of_nonneg_right ?_ ht0.le
      have : (1 + 5 * unit) * E ≤ 2 * 10 ^ 41 :=
        mul_le_mul (by rw [hu]; norm_num) h3 h2 (by norm_num)
      linarith
    have a5 : ((1 + 5 * unit) * E) * (unit * |x| + tiny) + 5 * unit * E * |x| =
      ((1 + 5 * unit) * unit + 5 * unit) * (E * |x|) + (1 + 5 * unit) * E * tiny := by ring
    linarith
  have hr := fl_err hfl (E' * |fl x|)
  have hEx : 0 ≤ E * |x| := mul_nonneg h2 (abs_nonneg _)
  have hab : abs (E' * |fl x|) ≤ E * |x| + (6.01 * unit * (E * |x|) + 10 ^ 42 * tiny) := by
    have := abs_sub_abs_le_abs_sub (E' * |fl x|) (E * |x|)
    rw [abs_of_nonneg hEx] at this
    linarith
  have hb := mul_le_mul_of_nonneg_left hab (show 0 ≤ unit by norm_num [unit])
  have hsum : abs (fl (E' * |fl x|) - E * |x|) ≤ abs (fl (E' * |fl x|) - E' * |fl x|) +
    abs (E' * |fl x| - E * |x|) := abs_sub_le _ _ _
  have h4 : (unit * (1 + 6.01 * unit) + 6.01 * unit) * (E * |x|) ≤ 7.1 * unit * (E * |x|) :=
    mul_le_mul_of_nonneg_right (by rw [hu]; norm_num) hEx
  have h5 : unit * (10 ^ 42 * tiny) + tiny + 10 ^ 42 * tiny ≤ 1 / 10 ^ 150 := by
    rw [hu]; norm_num at *; linarith
  have h6 : unit * (E * |x| + (6.01 * unit * (E * |x|) + 10 ^ 42 * tiny)) =
    unit * (1 + 6.01 * unit) * (E * |x|) + unit * (10 ^ 42 * tiny) := by ring
  linarith

theorem row_err {n : ℕ} (t t' : Fin n → ℝ) (ht : ∀ c, 0 ≤ t c)
    (he : ∀ c, |t' c - t c| ≤ 7.1 * unit * t c + 1 / 10 ^ 150) (l : List (Fin n)) (x x' δ η : ℝ)
    (hx : 0 ≤ x) (hδ : 7 * unit ≤ δ) (hδ' : δ + 2 * unit * l.length ≤ 1 / 2)
    (hη : η + 2 / 10 ^ 150 * l.length ≤ 5 / 10 ^ 135) (h : |x' - x| ≤ δ * x + η) :
    |l.foldl (fun x c => fl (x + t' c)) x' - l.foldl (fun x c => x + t c) x| ≤
      (δ + 2 * unit * l.length) * l.foldl (fun x c => x + t c) x +
        (η + 2 / 10 ^ 150 * l.length) ∧
    x ≤ l.foldl (fun x c => x + t c) x := by
  induction l generalizing x x' δ η with
  | nil => simpa using h
  | cons c l ih =>
    rw [List.foldl_cons, List.foldl_cons]
    have hu : unit = 1 / 9007199254740992 := rfl
    have htin := tiny_small
    have ht0 := tiny_pos
    have hc := ht c
    have hec := he c
    have hlen : ((c :: l).length : ℝ) = l.length + 1 := by simp
    rw [hlen] at hδ' hη ⊢
    have hl0 : (0 : ℝ) ≤ l.length := Nat.cast_nonneg _
    have hll : (0 : ℝ) ≤ 2 * unit * l.length := by rw [hu]; positivity
    have hu0 : 0 < unit := by norm_num [unit]
    have hδh : δ ≤ 1 / 2 := by
      rw [mul_add] at hδ'
      linarith
    have hηl : η ≤ 5 / 10 ^ 135 := by
      have : (0 : ℝ) ≤ 2 / 10 ^ 150 * (l.length + 1) := by positivity
      linarith
    have hr := fl_err hfl (x' + t' c)
    have hab : |x' + t' c| ≤ (1 + δ) * x + η + (1 + 7.1 * unit) * t c + 1 / 10 ^ 150 := by
      have e : x' + t' c = (x' - x) + (t' c - t c) + (x + t c) := by ring
      rw [e]
      refine (abs_add_three _ _ _).trans ?_
      rw [abs_of_nonneg (show 0 ≤ x + t c by linarith)]
      linarith
    have hstep : |fl (x' + t' c) - (x + t c)| ≤ (δ + 2 * unit) * (x + t c) + (η + 2 / 10 ^ 150) := by
      have e : fl (x' + t' c) - (x + t c) = (fl (x' + t' c) - (x' + t' c)) + (x' - x) +
        (t' c - t c) := by ring
      rw [e]
      refine (abs_add_three _ _ _).trans ?_
      have hb := mul_le_mul_of_nonneg_left hab (show 0 ≤ unit by norm_num [unit])
      have b1 : unit * ((1 + δ) * x + η + (1 + 7.1 * unit) * t c + 1 / 10 ^ 150) =
        unit * (1 + δ) * x + unit * η + unit * (1 + 7.1 * unit) * t c + unit * (1 / 10 ^ 150) := by ring
      have b2 : unit * (1 + δ) * x ≤ 1.5 * unit * x :=
        mul_le_mul_of_nonneg_right (by rw [hu]; linarith) hx
      have b3 : unit * (1 + 7.1 * unit) * t c ≤ 1.01 * unit * t c :=
        mul_le_mul_of_nonneg_right (by rw [hu]; norm_num) hc
      have b4 : unit * (1 / 10 ^ 150) + tiny + 1 / 10 ^ 150 ≤ 1.1 / 10 ^ 150 := by
        rw [hu]; norm_num at *; linarith
      have b5 : (8.2 * unit) * t c ≤ (δ + 2 * unit) * t c :=
        mul_le_mul_of_nonneg_right (by linarith) hc
      have b6 : 0 ≤ unit * x := mul_nonneg hu0.le hx
      have b7 : unit * η ≤ 0.9 / 10 ^ 150 := by
        refine (mul_le_mul_of_nonneg_left hηl hu0.le).trans ?_
        rw [hu]; norm_num
      nlinarith
    obtain ⟨i1, i2⟩ := ih (x + t c) (fl (x' + t' c)) (δ + 2 * unit) (η + 2 / 10 ^ 150) (by linarith)
      (by linarith) (by linarith) (by linarith) hstep
    refine ⟨?_, by linarith⟩
    rw [show δ + 2 * unit * (l.length + 1 : ℝ) = δ + 2 * unit + 2 * unit * l.length by ring,
      show η + 2 / 10 ^ 150 * (l.length + 1 : ℝ) = η + 2 / 10 ^ 150 + 2 / 10 ^ 150 * l.length by ring]
    exact i1

omit hfl in
theorem step_res {n : ℕ} (b : Bulk n) (s : BulkStep n) (hp : b.prm.perfect = false) (a : Fin n) :
    (bulkStep fl b s).res a = (List.finRange n).foldl (fun x c =>
      fl (x + fl (entry fl b.prm (decide (a = c)) * |fl (s.slips c - s.old c)|))) (b.res a) := by
  have hk := bulkOps_keep (fl := fl) s.trials b.store
  unfold bulkStep
  rw [bulkUpdate_res _ _ _ (by rw [hk.2]; exact hp), hk.1, hk.2]
  rfl

omit hfl in
theorem step_prm {n : ℕ} (b : Bulk n) (s : BulkStep n) : (bulkStep fl b s).prm = b.prm := by
  have hk := bulkOps_keep (fl := fl) s.trials b.store
  unfold bulkStep bulkUpdate
  split_ifs <;> exact hk.2

omit hfl in
theorem step_perfect {n : ℕ} (b : Bulk n) (s : BulkStep n) (hp : b.prm.perfect = true) :
    (bulkStep fl b s).res = b.res := by
  have hk := bulkOps_keep (fl := fl) s.trials b.store
  unfold bulkStep bulkUpdate
  rw [if_pos (by rw [hk.2]; exact hp)]
  exact hk.1

omit hfl in
theorem exact_step_res {n : ℕ} (b : Bulk n) (s : BulkStep n) (hp : b.prm.perfect = false)
    (a : Fin n) : (b.step s).res a = (List.finRange n).foldl (fun x c =>
      x + b.prm.entry (decide (a = c)) * |s.slips c - s.old c|) (b.res a) := by
  have hk := ops_keep s.trials b.store
  unfold Bulk.step
  rw [update_res _ _ _ (by rw [hk.2]; exact hp), hk.1, hk.2]
  rfl

omit hfl in
theorem exact_step_perfect {n : ℕ} (b : Bulk n) (s : BulkStep n) (hp : b.prm.perfect = true) :
    (b.step s).res = b.res := by
  have hk := ops_keep s.trials b.store
  unfold Bulk.step Bulk.update
  rw [if_pos (by rw [hk.2]; exact hp)]
  exact hk.1

theorem step_ge {n : ℕ} (b : Bulk n) (s : BulkStep n) (h : SpecAccepted b.prm)
    (hd : ∀ a, IsDouble (b.res a)) (a : Fin n) :
    IsDouble ((bulkStep fl b s).res a) ∧ b.res a ≤ (bulkStep fl b s).res a := by
  rcases hp : b.prm.perfect with _ | _
  · rw [step_res b s hp]
    exact foldl_ge hfl (fun c => fl (entry fl b.prm (decide (a = c)) * |fl (s.slips c - s.old c)|))
      (fun c => fl_nonneg hfl (mul_nonneg (entry_nonneg hfl h _) (abs_nonneg _))) _ _ (hd a)
  · rw [step_perfect b s hp]
    exact ⟨hd a, le_refl _⟩

theorem run_double {n : ℕ} (p : Hardening) (h : SpecAccepted p) (history : List (BulkStep n)) :
    (history.foldl (bulkStep fl) (bulkInit fl p n)).prm = p ∧
    ∀ a, IsDouble ((history.foldl (bulkStep fl) (bulkInit fl p n)).res a) ∧
      fl (p.initial / p.characteristic) ≤
        (history.foldl (bulkStep fl) (bulkInit fl p n)).res a := by
  induction history using List.reverseRecOn with
  | nil => exact ⟨rfl, fun a => ⟨hfl.double _, le_refl _⟩⟩
  | append_singleton l s ih =>
    rw [List.foldl_append, List.foldl_cons, List.foldl_nil]
    refine ⟨(step_prm _ _).trans ih.1, fun a => ?_⟩
    have := step_ge hfl _ s (by rw [ih.1]; exact h) (fun a => (ih.2 a).1) a
    exact ⟨this.1, (ih.2 a).2.trans this.2⟩

end

/-! ## C111: theorems on slip resistances -/

/-- **C111.**  Whatever the sizes of the slips, whatever was tried in between and however long the
run: in double precision a slip resistance never falls below its initial value, and a further
accepted time step never lowers it. -/
theorem C111_monotone {fl : ℝ → ℝ} (hfl : IsRounding fl) {n : ℕ} (p : Hardening)
    (h : SpecAccepted p) (history : List (BulkStep n)) (s : BulkStep n) (a : Fin n) :
    0 ≤ fl (p.initial / p.characteristic) ∧
    fl (p.initial / p.characteristic) ≤
      (history.foldl (bulkStep fl) (bulkInit fl p n)).res a ∧
    (history.foldl (bulkStep fl) (bulkInit fl p n)).res a ≤
      ((history ++ [s]).foldl (bulkStep fl) (bulkInit fl p n)).res a := by
  obtain ⟨h1, h2⟩ := run_double hfl p h history
  refine ⟨fl_nonneg hfl (div_nonneg h.initial h.characteristic.le), (h2 a).2, ?_⟩
  rw [List.foldl_append, List.foldl_cons, List.foldl_nil]
  exact (step_ge hfl _ s (by rw [h1]; exact h) (fun a => (h2 a).1) a).2

/-- **C111.**  The resistances after the accepted evaluation do not depend, to the last bit, on the
trial evaluations before it. -/
theorem C111_trials (fl : ℝ → ℝ) {n : ℕ} (b : Bulk n) (trials trials' : List (BulkOp n))
    (slips old : Fin n → ℝ) :
    bulkStep fl b ⟨trials, slips, old⟩ = bulkStep fl b ⟨trials', slips, old⟩ := by
  have h := bulkOps_keep (fl := fl) trials b.store
  have h' := bulkOps_keep (fl := fl) trials' b.store
  exact bulkUpdate_congr _ _ (h.1.trans h'.1.symm) (h.2.trans h'.2.symm) _ _

/-- **C111.**  A reset restores the resistances, the damage and the largest opening at the beginning of the step to the
last bit, whatever was evaluated in between. -/
theorem C111_reset (fl expf : ℝ → ℝ) {n : ℕ} (b : Bulk n) (trials : List (BulkOp n)) (p : DamagePrm) (s : Iface)
    (ops : List IfaceOp) :
    ((trials ++ [BulkOp.reset]).foldl (bulkOp fl) b.store).res = b.res ∧
    ((ops ++ [IfaceOp.reset]).foldl (ifaceOp fl expf p) s.store).damage = s.damage ∧
    ((ops ++ [IfaceOp.reset]).foldl (ifaceOp fl expf p) s.store).maxOpening = s.maxOpening := by
  have hk : ∀ (l : List IfaceOp) (s : Iface), (l.foldl (ifaceOp fl expf p) s).tmpDamage = s.tmpDamage ∧
      (l.foldl (ifaceOp fl expf p) s).tmpMax = s.tmpMax := by
    intro l
    induction l with
    | nil => intro s; exact ⟨rfl, rfl⟩
    | cons o l ih =>
      intro s
      obtain ⟨h1, h2⟩ := ih (ifaceOp fl expf p s o)
      rw [List.foldl_cons, h1, h2]
      cases o with
      | update d => unfold ifaceOp updateOrtiz; exact ⟨rfl, rfl⟩
      | reset => exact ⟨rfl, rfl⟩
  rw [List.foldl_append, List.foldl_append]
  exact ⟨(bulkOps_keep (fl := fl) trials b.store).1, (hk ops s.store).1, (hk ops s.store).2⟩

/-- **C111.**  After `k` time steps with `n` slip systems the computed slip resistances differ from
those of the exact hardening law by at most `(7 + 2·k·n)·2⁻⁵³`, relatively (and `10⁻¹³⁰` absolutely,
which matters only if the initial resistance is zero and nothing has hardened). -/
theorem C111_resistance {fl : ℝ → ℝ} (hfl : IsRounding fl) {n : ℕ} (p : Hardening)
    (h : SpecModerate p) (history : List (BulkStep n)) (hlen : history.length * n ≤ 2 ^ 50)
    (a : Fin n) :
    |(history.foldl (bulkStep fl) (bulkInit fl p n)).res a -
        (history.foldl Bulk.step (Bulk.init p n)).res a| ≤
      (7 + 2 * (history.length * n : ℕ)) * (2 : ℝ) ^ (-53 : ℤ) *
        (history.foldl Bulk.step (Bulk.init p n)).res a + 1 / 10 ^ 130 := by
  rw [← unit_eq]
  have hu0 : 0 < unit := by norm_num [unit]
  have ht := tiny_small
  have ht0 := tiny_pos
  have hη : tiny + 2 / 10 ^ 150 * ((history.length * n : ℕ) : ℝ) ≤ 5 / 10 ^ 135 := by
    have hc : ((history.length * n : ℕ) : ℝ) ≤ 2 ^ 50 := by exact_mod_cast hlen
    have := mul_le_mul_of_nonneg_left hc (show (0 : ℝ) ≤ 2 / 10 ^ 150 by positivity)
    have h2 : (1 : ℝ) / 10 ^ 200 + 2 / 10 ^ 150 * 2 ^ 50 ≤ 5 / 10 ^ 135 := by norm_num
    linarith
  suffices H : (history.foldl (bulkStep fl) (bulkInit fl p n)).prm = p ∧
      (history.foldl Bulk.step (Bulk.init p n)).prm = p ∧
      0 ≤ (history.foldl Bulk.step (Bulk.init p n)).res a ∧
      |(history.foldl (bulkStep fl) (bulkInit fl p n)).res a -
        (history.foldl Bulk.step (Bulk.init p n)).res a| ≤
      (7 * unit + 2 * unit * (history.length * n : ℕ)) *
        (history.foldl Bulk.step (Bulk.init p n)).res a +
        (tiny + 2 / 10 ^ 150 * (history.length * n : ℕ)) by
    have := H.2.2.2
    rw [show (7 * unit + 2 * unit * (history.length * n : ℕ)) =
      (7 + 2 * (history.length * n : ℕ)) * unit by ring] at this
    have h5 : (5 : ℝ) / 10 ^ 135 ≤ 1 / 10 ^ 130 := by norm_num
    linarith
  induction history using List.reverseRecOn with
  | nil =>
    have hi0 : 0 ≤ p.initial / p.characteristic :=
      div_nonneg h.accepted.initial h.accepted.characteristic.le
    refine ⟨rfl, rfl, hi0, ?_⟩
    have := fl_err hfl (p.initial / p.characteristic)
    rw [abs_of_nonneg hi0] at this
    have h7 : unit * (p.initial / p.characteristic) ≤ 7 * unit * (p.initial / p.characteristic) :=
      mul_le_mul_of_nonneg_right (by linarith) hi0
    show |fl (p.initial / p.characteristic) - p.initial / p.characteristic| ≤
      (7 * unit + 2 * unit * ((0 * n : ℕ) : ℝ)) * (p.initial / p.characteristic) +
        (tiny + 2 / 10 ^ 150 * ((0 * n : ℕ) : ℝ))
    rw [zero_mul, Nat.cast_zero, mul_zero, mul_zero, add_zero, add_zero]
    linarith
  | append_singleton l s ih =>
    rw [List.length_append, List.length_singleton] at hlen hη ⊢
    have hl : l.length * n ≤ 2 ^ 50 := le_trans (Nat.mul_le_mul_right n (Nat.le_succ _)) hlen
    have hcast : (((l.length + 1) * n : ℕ) : ℝ) = (l.length * n : ℕ) + n := by push_cast; ring
    have hn0 : (0 : ℝ) ≤ n := Nat.cast_nonneg n
    have hk0 : (0 : ℝ) ≤ (l.length * n : ℕ) := Nat.cast_nonneg _
    rw [hcast] at hη ⊢
    obtain ⟨q1, q2, q3, q4⟩ := ih hl (by
      have : (0 : ℝ) ≤ 2 / 10 ^ 150 * n := by positivity
      linarith)
    rw [List.foldl_append, List.foldl_cons, List.foldl_nil, List.foldl_append, List.foldl_cons,
      List.foldl_nil]
    refine ⟨(step_prm _ _).trans q1, (Bulk.step_prm _ _).trans q2, ?_⟩
    set b' := l.foldl (bulkStep fl) (bulkInit fl p n)
    set b := l.foldl Bulk.step (Bulk.init p n)
    rcases hp : p.perfect with _ | _
    · rw [step_res b' s (by rw [q1]; exact hp), exact_step_res b s (by rw [q2]; exact hp), q1, q2]
      have hb : (7 * unit + 2 * unit * (l.length * n : ℕ)) +
          2 * unit * ((List.finRange n).length : ℝ) ≤ 1 / 2 := by
        rw [List.length_finRange]
        have hc : (((l.length + 1) * n : ℕ) : ℝ) ≤ 2 ^ 50 := by exact_mod_cast hlen
        rw [hcast] at hc
        have := mul_le_mul_of_nonneg_left hc hu0.le
        have hv : 7 * unit + 2 * (unit * 2 ^ 50) ≤ 1 / 2 := by norm_num [unit]
        linarith
      have := row_err hfl (fun c => p.entry (decide (a = c)) * |s.slips c - s.old c|)
        (fun c => fl (entry fl p (decide (a = c)) * |fl (s.slips c - s.old c)|))
        (fun c => mul_nonneg (entry_err hfl h _).2.1 (abs_nonneg _))
        (fun c => term_err hfl h _ _) (List.finRange n) (b.res a) (b'.res a)
        (7 * unit + 2 * unit * (l.length * n : ℕ)) (tiny + 2 / 10 ^ 150 * (l.length * n : ℕ)) q3
        (by linarith [mul_nonneg hu0.le hk0]) hb
        (by rw [List.length_finRange]; linarith) q4
      refine ⟨q3.trans this.2, ?_⟩
      have h1 := this.1
      rw [List.length_finRange] at h1
      rw [mul_add (2 * unit), ← add_assoc (7 * unit), mul_add (2 / 10 ^ 150 : ℝ), ← add_assoc tiny]
      exact h1
    · rw [step_perfect b' s (by rw [q1]; exact hp), exact_step_perfect b s (by rw [q2]; exact hp)]
      refine ⟨q3, q4.trans ?_⟩
      refine add_le_add (mul_le_mul_of_nonneg_right ?_ q3) ?_
      · linarith [mul_nonneg hu0.le hn0]
      · have : (0 : ℝ) ≤ 2 / 10 ^ 150 * n := by positivity
        linarith

/-- **C111.**  The slip resistances kept per degree of freedom use, to the last bit, the same hardening
matrix, and are never below the stored value. -/
theorem C111_dof {fl : ℝ → ℝ} (hfl : IsRounding fl) (p : Hardening) :
    (∀ self, dofEntry fl p self = entry fl p self) ∧
    (SpecAccepted p → ∀ (n : ℕ) (dofs : Fin n → ℕ) (slip : Fin n) (trial old : ℕ → ℝ) (tmp : ℝ),
      IsDouble tmp → tmp ≤ dofValue fl p dofs slip trial old tmp) := by
  have he : ∀ self, dofEntry fl p self = entry fl p self := by
    intro self
    unfold dofEntry entry
    cases self with
    | false => simp only [Bool.false_eq_true, if_false, mul_zero]; rw [fl_zero hfl]
    | true => simp only [if_true, mul_one]; rw [fl_double hfl (hfl.double _)]
  refine ⟨he, fun h n dofs slip trial old tmp ht => fl_ge hfl ht ?_⟩
  have := (foldl_ge hfl (fun s => fl (dofEntry fl p (decide (slip = s)) *
    |fl (trial (dofs s) - old (dofs s))|)) (fun c => fl_nonneg hfl
      (mul_nonneg (by rw [he]; exact entry_nonneg hfl h _) (abs_nonneg _))) (List.finRange n) 0
      isDouble_zero).2
  linarith

/-- **C111.**  An active slip degree of freedom gets, up to `(9 + 2n)·2⁻⁵³` relatively, the stored value
plus the hardening sum over all slips. -/
theorem C111_dof_value {fl : ℝ → ℝ} (hfl : IsRounding fl) {n : ℕ} (hn : n ≤ 2 ^ 50) (p : Hardening)
    (h : SpecModerate p) (dofs : Fin n → ℕ) (slip : Fin n) (trial old : ℕ → ℝ) (tmp : ℝ)
    (ht : 0 ≤ tmp) :
    |dofValue fl p dofs slip trial old tmp -
        (tmp + ∑ s, p.modulus / p.characteristic * (if slip = s then 1 else p.parameter) *
          |trial (dofs s) - old (dofs s)|)| ≤
      (9 + 2 * n) * (2 : ℝ) ^ (-53 : ℤ) *
        (tmp + ∑ s, p.modulus / p.characteristic * (if slip = s then 1 else p.parameter) *
          |trial (dofs s) - old (dofs s)|) + 1 / 10 ^ 130 := by
  rw [← unit_eq]
  have hu : unit = 1 / 9007199254740992 := rfl
  have hu0 : 0 < unit := by norm_num [unit]
  have hn0 : (0 : ℝ) ≤ n := Nat.cast_nonneg n
  have hnr : (n : ℝ) ≤ 2 ^ 50 := by exact_mod_cast hn
  have hsum : ∑ s, p.modulus / p.characteristic * (if slip = s then 1 else p.parameter) *
      |trial (dofs s) - old (dofs s)| = (List.finRange n).foldl (fun x c =>
        x + p.entry (decide (slip = c)) * |trial (dofs c) - old (dofs c)|) 0 := by
    have hg : ∀ (l : List (Fin n)) (x : ℝ), l.foldl (fun x c =>
        x + p.entry (decide (slip = c)) * |trial (dofs c) - old (dofs c)|) x =
        x + (l.map fun c => p.entry (decide (slip = c)) * |trial (dofs c) - old (dofs c)|).sum := by
      intro l
      induction l with
      | nil => intro x; simp
      | cons c l ih => intro x; rw [List.foldl_cons, ih, List.map_cons, List.sum_cons]; ring
    rw [hg, zero_add, ← List.ofFn_eq_map, List.sum_ofFn]
    refine Finset.sum_congr rfl fun s _ => ?_
    unfold Hardening.entry
    by_cases hs : slip = s
    · simp [hs]
    · simp [hs]
  rw [hsum]
  have hn1 : 2 * unit * (n : ℝ) ≤ 2 * unit * 2 ^ 50 := mul_le_mul_of_nonneg_left hnr (by linarith)
  have hn2 : (2 : ℝ) / 10 ^ 150 * n ≤ 2 / 10 ^ 150 * 2 ^ 50 :=
    mul_le_mul_of_nonneg_left hnr (by positivity)
  have hr := row_err hfl (fun c => p.entry (decide (slip = c)) * |trial (dofs c) - old (dofs c)|)
    (fun c => fl (entry fl p (decide (slip = c)) * |fl (trial (dofs c) - old (dofs c))|))
    (fun c => mul_nonneg (entry_err hfl h _).2.1 (abs_nonneg _))
    (fun c => term_err hfl h _ _) (List.finRange n) 0 0 (7 * unit) 0 (le_refl _) (le_refl _)
    (by
      rw [List.length_finRange]
      have : 7 * unit + 2 * unit * 2 ^ 50 ≤ 1 / 2 := by rw [hu]; norm_num
      linarith)
    (by
      rw [List.length_finRange]
      have : (0 : ℝ) + 2 / 10 ^ 150 * 2 ^ 50 ≤ 5 / 10 ^ 135 := by norm_num
      linarith) (by simp)
  rw [List.length_finRange] at hr
  have hv : dofValue fl p dofs slip trial old tmp = fl (tmp + (List.finRange n).foldl (fun x c =>
      fl (x + fl (entry fl p (decide (slip = c)) * |fl (trial (dofs c) - old (dofs c))|))) 0) := by
    unfold dofValue
    simp only [(C111_dof hfl p).1]
  rw [hv]
  set H := (List.finRange n).foldl (fun x c =>
        x + p.entry (decide (slip = c)) * |trial (dofs c) - old (dofs c)|) 0
  set H' := (List.finRange n).foldl (fun x c =>
      fl (x + fl (entry fl p (decide (slip = c)) * |fl (trial (dofs c) - old (dofs c))|))) 0
  obtain ⟨h1, h2⟩ := hr
  have hf := fl_err hfl (tmp + H')
  have htin := tiny_small
  set η : ℝ := 0 + 2 / 10 ^ 150 * n with hη
  have hη1 : η ≤ 5 / 10 ^ 135 := by
    have : (2 : ℝ) / 10 ^ 150 * 2 ^ 50 ≤ 5 / 10 ^ 135 := by norm_num
    linarith
  set δ := 7 * unit + 2 * unit * (n : ℝ) with hδ
  have hδ1 : δ ≤ 1 / 2 := by
    have : 7 * unit + 2 * unit * 2 ^ 50 ≤ 1 / 2 := by rw [hu]; norm_num
    linarith
  have hab : |tmp + H'| ≤ tmp + (1 + δ) * H + η := by
    rw [show tmp + H' = (tmp + H) + (H' - H) by ring]
    refine (abs_add_le _ _).trans ?_
    rw [abs_of_nonneg (show 0 ≤ tmp + H by linarith)]
    linarith
  have hb := mul_le_mul_of_nonneg_left hab hu0.le
  have hs : |fl (tmp + H') - (tmp + H)| ≤ |fl (tmp + H') - (tmp + H')| + |H' - H| := by
    rw [show fl (tmp + H') - (tmp + H) = (fl (tmp + H') - (tmp + H')) + (H' - H) by ring]
    exact abs_add_le _ _
  have hδH : δ * H ≤ 1 / 2 * H := mul_le_mul_of_nonneg_right hδ1 h2
  have hδH' := mul_le_mul_of_nonneg_left hδH hu0.le
  have huη : unit * η ≤ 1 * η := mul_le_mul_of_nonneg_right (by rw [hu]; norm_num) (by positivity)
  have hend : 2 * (5 / 10 ^ 135) + 1 / 10 ^ 200 ≤ (1 : ℝ) / 10 ^ 130 := by norm_num
  have e : (9 + 2 * (n : ℝ)) * unit * (tmp + H) = δ * H + 2 * unit * H + (δ + 2 * unit) * tmp := by
    rw [hδ]; ring
  have hp1 : 0 ≤ unit * H := mul_nonneg hu0.le h2
  have hp2 : 0 ≤ unit * tmp := mul_nonneg hu0.le ht
  have hp3 : 7 * unit * tmp ≤ δ * tmp :=
    mul_le_mul_of_nonneg_right (by linarith [mul_nonneg hu0.le hn0]) ht
  rw [e]
  linarith

/-! ### What rounding takes away -/

/-- Linear hardening with unit initial resistance, modulus and latent ratio. -/
noncomputable def exHard : Hardening := ⟨1, 1, 1, 1, false⟩

theorem exHard_moderate : SpecModerate exHard :=
  ⟨⟨by norm_num [exHard], by norm_num [exHard], by norm_num [exHard], by norm_num [exHard],
    isDouble_one⟩, Or.inr (by norm_num [exHard]), by norm_num [exHard],
    Or.inr (by norm_num [exHard]), by norm_num [exHard]⟩

theorem exHard_entry {fl : ℝ → ℝ} (hfl : IsRounding fl) (self : Bool) :
    entry fl exHard self = 1 := by
  unfold entry exHard
  cases self with
  | false => simp [fl_one hfl]
  | true => simp [fl_one hfl, fl_zero hfl]

theorem exHard_exact (self : Bool) : exHard.entry self = 1 := by
  unfold Hardening.entry exHard
  cases self <;> simp

/-- A value less than a quarter of a unit in the last place above one is rounded to one. -/
theorem fl_absorb {fl : ℝ → ℝ} (hfl : IsRounding fl) (x : ℝ) (h0 : 0 ≤ x) (h1 : x < unit / 2) :
    fl (1 + x) = 1 := by
  have e : ((2 ^ 53 : ℤ) : ℝ) * (2 : ℝ) ^ (-53 : ℤ) = 1 := by norm_num
  have := fl_eq hfl (x := 1 + x) (2 ^ 53) (-53) (by norm_num) (by norm_num) (by norm_num) (by
    rw [e, add_sub_cancel_left, abs_of_nonneg h0, ← unit_eq]
    exact h1)
  rw [this, e]

/-- The slip grows by `2⁻⁵⁵` in every time step. -/
noncomputable def exCreep (k : ℕ) : List (BulkStep 1) :=
  (List.range k).map fun i : ℕ =>
    ⟨[], fun _ => ((i : ℝ) + 1) * (2 : ℝ) ^ (-55 : ℤ), fun _ => (i : ℝ) * (2 : ℝ) ^ (-55 : ℤ)⟩

/-- **C111**, why the bound grows with the number of steps.  A slip that grows by `2⁻⁵⁵` in every step
never hardens a resistance of one in double precision, whatever the number of steps and the rounding;
the exact law adds `2⁻⁵⁵` per step. -/
theorem C111_lost {fl : ℝ → ℝ} (hfl : IsRounding fl) (k : ℕ) :
    ((exCreep k).foldl (bulkStep fl) (bulkInit fl exHard 1)).res 0 = 1 ∧
    ((exCreep k).foldl Bulk.step (Bulk.init exHard 1)).res 0 = 1 + k * (2 : ℝ) ^ (-55 : ℤ) := by
  suffices H : ((exCreep k).foldl (bulkStep fl) (bulkInit fl exHard 1)).prm = exHard ∧
      ((exCreep k).foldl Bulk.step (Bulk.init exHard 1)).prm = exHard ∧
      ((exCreep k).foldl (bulkStep fl) (bulkInit fl exHard 1)).res 0 = 1 ∧
      ((exCreep k).foldl Bulk.step (Bulk.init exHard 1)).res 0 = 1 + k * (2 : ℝ) ^ (-55 : ℤ) from
    H.2.2
  induction k with
  | zero =>
    refine ⟨rfl, rfl, ?_, ?_⟩
    · show fl (1 / 1) = 1
      rw [div_one, fl_one hfl]
    · show (1 : ℝ) / 1 = _
      simp
  | succ k ih =>
    obtain ⟨h1, h2, h3, h4⟩ := ih
    have e : exCreep (k + 1) = exCreep k ++
        [⟨[], fun _ => (k + 1) * (2 : ℝ) ^ (-55 : ℤ), fun _ => k * (2 : ℝ) ^ (-55 : ℤ)⟩] := by
      unfold exCreep
      rw [List.range_succ, List.map_append]
      rfl
    rw [e, List.foldl_append, List.foldl_append, List.foldl_cons, List.foldl_cons, List.foldl_nil,
      List.foldl_nil]
    refine ⟨(step_prm _ _).trans h1, (Bulk.step_prm _ _).trans h2, ?_, ?_⟩
    · rw [step_res _ _ (by rw [h1]; rfl), h1, h3]
      have hd : fl ((k + 1) * (2 : ℝ) ^ (-55 : ℤ) - k * (2 : ℝ) ^ (-55 : ℤ)) = (2 : ℝ) ^ (-55 : ℤ) := by
        rw [← sub_mul, add_sub_cancel_left, one_mul]
        exact fl_double hfl ⟨1, -55, by norm_num, by norm_num, by simp⟩
      simp only [List.finRange_succ, List.finRange_zero, List.map_nil, List.foldl_cons,
        List.foldl_nil, exHard_entry hfl, one_mul, hd]
      rw [abs_of_pos (pow_pos2 _), fl_double hfl (x := (2 : ℝ) ^ (-55 : ℤ))
        ⟨1, -55, by norm_num, by norm_num, by simp⟩]
      exact fl_absorb hfl _ (pow_pos2 _).le (by norm_num [unit])
    · rw [exact_step_res _ _ (by rw [h2]; rfl), h2, h4]
      simp only [List.finRange_succ, List.finRange_zero, List.map_nil, List.foldl_cons,
        List.foldl_nil, exHard_exact, one_mul]
      rw [← sub_mul, add_sub_cancel_left, one_mul, abs_of_pos (pow_pos2 _)]
      push_cast
      ring

/-- **C111.**  The two records of the slip resistances, per quadrature point and per degree of freedom,
add the same contributions in a different order and can drift apart: with four slips of `3·2⁻⁵⁶`
the first stays at one and the second becomes `1 + 2⁻⁵²`. -/
theorem C111_records_differ {fl : ℝ → ℝ} (hfl : IsRounding fl) :
    (bulkStep fl (bulkInit fl exHard 4)
      ⟨[], fun _ => 3 * (2 : ℝ) ^ (-56 : ℤ), fun _ => 0⟩).res 0 = 1 ∧
    dofValue fl exHard (n := 4) (fun s => s) 0 (fun _ => 3 * (2 : ℝ) ^ (-56 : ℤ)) (fun _ => 0) 1 =
      1 + (2 : ℝ) ^ (-52 : ℤ) := by
  have hd : ∀ k : ℤ, |k| ≤ 2 ^ 53 → fl (k * (2 : ℝ) ^ (-56 : ℤ)) = k * (2 : ℝ) ^ (-56 : ℤ) :=
    fun k hk => fl_double hfl ⟨k, -56, hk, by norm_num, rfl⟩
  have h3 := hd 3 (by norm_num)
  have h6 := hd 6 (by norm_num)
  have h9 := hd 9 (by norm_num)
  have h12 := hd 12 (by norm_num)
  push_cast at h3 h6 h9 h12
  have hp : (0 : ℝ) < (2 : ℝ) ^ (-56 : ℤ) := pow_pos2 _
  constructor
  · rw [step_res _ _ rfl]
    have hi : (bulkInit fl exHard 4).res 0 = 1 := by
      show fl (1 / 1) = 1
      rw [div_one, fl_one hfl]
    have hprm : (bulkInit fl exHard 4).prm = exHard := rfl
    rw [hi, hprm]
    simp only [exHard_entry hfl, one_mul, sub_zero, h3]
    rw [abs_of_pos (by linarith), h3]
    have : fl (1 + 3 * (2 : ℝ) ^ (-56 : ℤ)) = 1 := fl_absorb hfl _ (by linarith) (by norm_num [unit])
    simp only [List.finRange_succ, List.finRange_zero, List.map_nil, List.map_cons, List.foldl_cons,
      List.foldl_nil, this]
  · unfold dofValue
    simp only [(C111_dof hfl exHard).1, exHard_entry hfl, one_mul, sub_zero, h3]
    rw [abs_of_pos (by linarith), h3]
    simp only [List.finRange_succ, List.finRange_zero, List.map_nil, List.map_cons, List.foldl_cons,
      List.foldl_nil, zero_add, h3]
    rw [show 3 * (2 : ℝ) ^ (-56 : ℤ) + 3 * (2 : ℝ) ^ (-56 : ℤ) = 6 * (2 : ℝ) ^ (-56 : ℤ) by ring, h6,
      show 6 * (2 : ℝ) ^ (-56 : ℤ) + 3 * (2 : ℝ) ^ (-56 : ℤ) = 9 * (2 : ℝ) ^ (-56 : ℤ) by ring, h9,
      show 9 * (2 : ℝ) ^ (-56 : ℤ) + 3 * (2 : ℝ) ^ (-56 : ℤ) = 12 * (2 : ℝ) ^ (-56 : ℤ) by ring, h12]
    have := fl_eq hfl (x := 1 + 12 * (2 : ℝ) ^ (-56 : ℤ)) (2 ^ 52 + 1) (-52) (by norm_num) (by norm_num)
      (by norm_num) (by rw [abs_lt]; constructor <;> norm_num)
    rw [this]
    norm_num

/-! ## Damage -/

/-- `a² + a ≤ eᵃ`. -/
theorem sq_add_le_exp {a : ℝ} (h : 0 ≤ a) : a ^ 2 + a ≤ Real.exp a := by
  have := Real.sum_le_exp_of_nonneg h 5
  simp only [Finset.sum_range_succ, Finset.sum_range_zero] at this
  norm_num [Nat.factorial] at this
  nlinarith [sq_nonneg (a - 3 / 2), sq_nonneg (a ^ 2 - 2), mul_nonneg h (sq_nonneg (a - 3 / 2))]

/-- `(1 + x)e⁻ˣ`. -/
noncomputable def intact (x : ℝ) : ℝ := (1 + x) * Real.exp (-x)

theorem intact_le {x : ℝ} (h : 0 ≤ x) : 0 ≤ intact x ∧ intact x ≤ 1 := by
  unfold intact
  refine ⟨by positivity, ?_⟩
  rw [Real.exp_neg, ← div_eq_mul_inv, div_le_one (Real.exp_pos _)]
  linarith [Real.add_one_le_exp x]

theorem intact_sub {a b : ℝ} (ha : 0 ≤ a) (h : a ≤ b) :
    0 ≤ intact a - intact b ∧ intact a - intact b ≤ Real.exp (-a) * b * (b - a) := by
  have hb : Real.exp (-b) = Real.exp (-a) * Real.exp (-(b - a)) := by
    rw [← Real.exp_add]; ring_nf
  unfold intact
  have h1 : -(b - a) + 1 ≤ Real.exp (-(b - a)) := Real.add_one_le_exp _
  have h2 : Real.exp (-(b - a)) * (1 + (b - a)) ≤ 1 := (intact_le (x := b - a) (by linarith)).2 |>.trans' (by
    unfold intact; linarith [mul_comm (Real.exp (-(b - a))) (1 + (b - a))])
  have hea := Real.exp_pos (-a)
  set E := Real.exp (-(b - a)) with hE
  have hE0 : 0 < E := Real.exp_pos _
  have hE1 : E ≤ 1 := by
    have := (mul_le_mul_of_nonneg_left (show (1 : ℝ) ≤ 1 + (b - a) by linarith) hE0.le)
    linarith
  rw [hb]
  constructor
  · have : (1 + b) * E ≤ 1 + a := by nlinarith
    have := mul_le_mul_of_nonneg_left this hea.le
    linarith [mul_comm ((1 + b) * E) (Real.exp (-a))]
  · have : (1 + a) - (1 + b) * E ≤ b * (b - a) := by nlinarith
    have := mul_le_mul_of_nonneg_left this hea.le
    nlinarith


theorem intact_near {r r' : ℝ} (hr : 0 ≤ r) (hr' : 0 ≤ r') (h : |r' - r| ≤ unit * r + tiny) :
    |intact r' - intact r| ≤ 1.01 * unit := by
  have hu : unit = 1 / 9007199254740992 := rfl
  have hu0 : 0 < unit := by norm_num [unit]
  have ht := tiny_small
  have ht0 := tiny_pos
  have key : ∀ a b : ℝ, 0 ≤ a → a ≤ b → b - a ≤ unit * b + tiny →
      intact a - intact b ≤ 1.01 * unit := by
    intro a b ha hab h
    have hea := Real.exp_pos (-a)
    have h1 := (intact_sub ha hab).2
    have hb : b ≤ (1 + 2 * unit) * a + 2 * tiny := by
      have : (1 - unit) * b ≤ a + tiny := by linarith
      have h2 : (1 + 2 * unit) * ((1 - unit) * b) ≤ (1 + 2 * unit) * (a + tiny) :=
        mul_le_mul_of_nonneg_left this (by linarith)
      have h3 : b ≤ (1 + 2 * unit) * ((1 - unit) * b) := by
        have : (1 : ℝ) ≤ (1 + 2 * unit) * (1 - unit) := by rw [hu]; norm_num
        have := mul_le_mul_of_nonneg_right this (ha.trans hab)
        linarith
      have h4 : (1 + 2 * unit) * tiny ≤ 2 * tiny :=
        mul_le_mul_of_nonneg_right (by rw [hu]; norm_num) ht0.le
      linarith
    have hb0 : 0 ≤ b := ha.trans hab
    have h2 : b * (b - a) ≤ ((1 + 2 * unit) * a + 2 * tiny) *
        (unit * ((1 + 2 * unit) * a + 2 * tiny) + tiny) :=
      mul_le_mul hb (h.trans (by linarith [mul_le_mul_of_nonneg_left hb hu0.le])) (by linarith)
        (by positivity)
    have hq := sq_add_le_exp ha
    have hone : (1 : ℝ) ≤ Real.exp a := by linarith [Real.add_one_le_exp a]
    have hinv : Real.exp (-a) * Real.exp a = 1 := by rw [← Real.exp_add]; simp
    have h3 : ((1 + 2 * unit) * a + 2 * tiny) * (unit * ((1 + 2 * unit) * a + 2 * tiny) + tiny) ≤
        1.01 * unit * Real.exp a := by
      have e : ((1 + 2 * unit) * a + 2 * tiny) * (unit * ((1 + 2 * unit) * a + 2 * tiny) + tiny) =
        unit * (1 + 2 * unit) ^ 2 * a ^ 2 + (1 + 2 * unit) * (4 * unit + 1) * tiny * a +
          (4 * unit * tiny + 2 * tiny) * tiny := by ring
      rw [e]
      have b1 : unit * (1 + 2 * unit) ^ 2 * a ^ 2 ≤ 1.005 * unit * a ^ 2 :=
        mul_le_mul_of_nonneg_right (by rw [hu]; norm_num) (sq_nonneg a)
      have b2 : (1 + 2 * unit) * (4 * unit + 1) * tiny ≤ 1.005 * unit := by
        have : (1 + 2 * unit) * (4 * unit + 1) ≤ 2 := by rw [hu]; norm_num
        have := mul_le_mul_of_nonneg_right this ht0.le
        have h4 : 2 * tiny ≤ 1.005 * unit := by rw [hu]; norm_num at *; linarith
        linarith
      have b2' := mul_le_mul_of_nonneg_right b2 ha
      have b3 : (4 * unit * tiny + 2 * tiny) * tiny ≤ 0.005 * unit := by
        have h5 : tiny ≤ 0.001 * unit := by rw [hu]; norm_num at *; linarith
        have h6 : 4 * unit * tiny + 2 * tiny ≤ 1 := by
          have : unit * tiny ≤ unit * 1 := mul_le_mul_of_nonneg_left (by linarith [show unit ≤ 1 by norm_num [unit]]) hu0.le
          have h8 : 4 * unit + 0.002 * unit ≤ 1 := by rw [hu]; norm_num
          linarith
        have := mul_le_mul_of_nonneg_right h6 ht0.le
        linarith
      have b4 : 1.005 * unit * (a ^ 2 + a) ≤ 1.005 * unit * Real.exp a :=
        mul_le_mul_of_nonneg_left hq (by linarith)
      have b5 : 0.005 * unit * 1 ≤ 0.005 * unit * Real.exp a :=
        mul_le_mul_of_nonneg_left hone (by linarith)
      linarith
    have h4 := mul_le_mul_of_nonneg_left (h2.trans h3) hea.le
    have h5 : Real.exp (-a) * (1.01 * unit * Real.exp a) = 1.01 * unit := by
      rw [show Real.exp (-a) * (1.01 * unit * Real.exp a) =
        1.01 * unit * (Real.exp (-a) * Real.exp a) by ring, hinv, mul_one]
    rw [h5] at h4
    linarith [mul_assoc (Real.exp (-a)) b (b - a)]
  rcases le_total r r' with hle | hle
  · have hd := abs_le.1 h
    have := key r r' hr hle (by linarith [mul_le_mul_of_nonneg_left hle hu0.le])
    have h0 := (intact_sub hr hle).1
    rw [abs_sub_comm, abs_of_nonneg h0]
    exact this
  · have hd := abs_le.1 h
    have := key r' r hr' hle (by linarith)
    have h0 := (intact_sub hr' hle).1
    rw [abs_of_nonneg h0]
    exact this

theorem damage_near {fl expf : ℝ → ℝ} (hfl : IsRounding fl) (he : IsExp expf) (r : ℝ) (hr : 0 ≤ r)
    (hbig : r ≤ 10 ^ 100) :
    |fl (1 - fl (fl (1 + fl r) * expf (-fl r))) - (1 - intact r)| ≤ 8 * unit ∧
    fl (1 - fl (fl (1 + fl r) * expf (-fl r))) ≤ 1 := by
  have hu : unit = 1 / 9007199254740992 := rfl
  have hu0 : 0 < unit := by norm_num [unit]
  have hu1 : unit ≤ 1 / 10 ^ 15 := by norm_num [unit]
  have ht := tiny_small
  have ht0 := tiny_pos
  have htu : tiny ≤ unit / 10 ^ 6 := by rw [hu]; norm_num at *; linarith
  have hr'e := fl_err hfl r
  rw [abs_of_nonneg hr] at hr'e
  set r' := fl r with hr'
  have hr0 : 0 ≤ r' := fl_nonneg hfl hr
  have hn := intact_near hr hr0 hr'e
  have hr1 : r' ≤ 2 * 10 ^ 100 := by
    have := (abs_le.1 hr'e).2
    have h2 : unit * r ≤ 1 / 10 ^ 15 * 10 ^ 100 := mul_le_mul hu1 hbig hr (by norm_num)
    norm_num at *
    linarith
  have hw := fl_err hfl (1 + r')
  rw [abs_of_nonneg (show 0 ≤ 1 + r' by linarith)] at hw
  set w := fl (1 + r') with hw'
  have hw0 : 0 ≤ w := fl_nonneg hfl (by linarith)
  have hx := he.near (-r') (by linarith)
  rw [show (2 : ℝ) ^ (-52 : ℤ) = 2 * unit by norm_num [unit],
    show (2 : ℝ) ^ (-1074 : ℤ) = 2 * tiny by
      rw [tiny, show (-1074 : ℤ) = 1 + (-1075) by norm_num, pow_split]; norm_num] at hx
  set x := expf (-r') with hx'
  have hx0 : 0 ≤ x := he.nonneg _ (by linarith)
  have hx1 : x ≤ 1 := he.le_one _ (by linarith)
  set e := Real.exp (-r') with he'
  have he0 : 0 < e := Real.exp_pos _
  have he1 : e ≤ 1 := Real.exp_le_one_iff.2 (by linarith)
  have hg : intact r' = (1 + r') * e := rfl
  have hg1 := intact_le hr0
  have htw : tiny * (1 + r') ≤ unit / 10 ^ 6 := by
    have h1 : tiny * (1 + r') ≤ 1 / 10 ^ 200 * (1 + 2 * 10 ^ 100) :=
      mul_le_mul ht (by linarith) (by linarith) (by positivity)
    have h2 : (1 : ℝ) / 10 ^ 200 * (1 + 2 * 10 ^ 100) ≤ unit / 10 ^ 6 := by rw [hu]; norm_num
    linarith
  have hp : |w * x - intact r'| ≤ 3.1 * unit := by
    rw [hg, show w * x - (1 + r') * e = (w - (1 + r')) * x + (1 + r') * (x - e) by ring]
    refine (abs_add_le _ _).trans ?_
    rw [abs_mul, abs_mul, abs_of_nonneg hx0, abs_of_nonneg (show 0 ≤ 1 + r' by linarith)]
    have a1 : |w - (1 + r')| * x ≤ (unit * (1 + r') + tiny) * x := mul_le_mul_of_nonneg_right hw hx0
    have a2 : (1 + r') * |x - e| ≤ (1 + r') * (2 * unit * e + 2 * tiny) :=
      mul_le_mul_of_nonneg_left hx (by linarith)
    have a3 : (1 + r') * x ≤ (1 + r') * ((1 + 2 * unit) * e + 2 * tiny) :=
      mul_le_mul_of_nonneg_left (by linarith [(abs_le.1 hx).2]) (by linarith)
    have a4 : unit * ((1 + r') * x) ≤ unit * ((1 + r') * ((1 + 2 * unit) * e + 2 * tiny)) :=
      mul_le_mul_of_nonneg_left a3 hu0.le
    have a5 : unit * ((1 + r') * ((1 + 2 * unit) * e + 2 * tiny)) =
      unit * (1 + 2 * unit) * intact r' + 2 * unit * (tiny * (1 + r')) := by rw [hg]; ring
    have a6 : (1 + r') * (2 * unit * e + 2 * tiny) = 2 * unit * intact r' + 2 * (tiny * (1 + r')) := by
      rw [hg]; ring
    have a7 : tiny * x ≤ tiny * 1 := mul_le_mul_of_nonneg_left hx1 ht0.le
    have a8 : unit * (1 + 2 * unit) * intact r' ≤ unit * (1 + 2 * unit) * 1 :=
      mul_le_mul_of_nonneg_left hg1.2 (by positivity)
    have a9 : 2 * unit * intact r' ≤ 2 * unit * 1 := mul_le_mul_of_nonneg_left hg1.2 (by positivity)
    have a10 : unit * (1 + 2 * unit) ≤ 1.001 * unit := by rw [hu]; norm_num
    have a11 : 2 * unit * (tiny * (1 + r')) ≤ 1 * (tiny * (1 + r')) :=
      mul_le_mul_of_nonneg_right (by rw [hu]; norm_num) (by positivity)
    linarith
  have hp0 : 0 ≤ w * x := mul_nonneg hw0 hx0
  have hp1 : w * x ≤ 1 + 3.1 * unit := by linarith [(abs_le.1 hp).2]
  have hq := fl_err hfl (w * x)
  rw [abs_of_nonneg hp0] at hq
  set q := fl (w * x) with hq'
  have hq0 : 0 ≤ q := fl_nonneg hfl hp0
  have hqu : unit * (w * x) ≤ 1.001 * unit := by
    have := mul_le_mul_of_nonneg_left hp1 hu0.le
    have h2 : unit * (1 + 3.1 * unit) ≤ 1.001 * unit := by rw [hu]; norm_num
    linarith
  have hd := fl_err hfl (1 - q)
  have hq1 : |1 - q| ≤ 1 := by
    rw [abs_le]
    have := (abs_le.1 hq).2
    constructor
    · have h3 : 4.2 * unit ≤ 1 := by rw [hu]; norm_num
      linarith
    · linarith
  have hdu : unit * |1 - q| ≤ unit * 1 := mul_le_mul_of_nonneg_left hq1 hu0.le
  refine ⟨?_, fl_le hfl isDouble_one (by linarith)⟩
  have e1 : fl (1 - q) - (1 - intact r) = (fl (1 - q) - (1 - q)) + (-(q - w * x)) +
      (-(w * x - intact r')) + (-(intact r' - intact r)) := by ring
  rw [e1]
  have b1 := abs_add_le (fl (1 - q) - (1 - q) + -(q - w * x) + -(w * x - intact r'))
    (-(intact r' - intact r))
  have b2 := abs_add_le (fl (1 - q) - (1 - q) + -(q - w * x)) (-(w * x - intact r'))
  have b3 := abs_add_le (fl (1 - q) - (1 - q)) (-(q - w * x))
  rw [abs_neg] at b1 b2 b3
  linarith


theorem ifaceOps_keep {fl expf : ℝ → ℝ} (p : DamagePrm) (l : List IfaceOp) (s : Iface) :
    (l.foldl (ifaceOp fl expf p) s).tmpDamage = s.tmpDamage ∧
    (l.foldl (ifaceOp fl expf p) s).tmpMax = s.tmpMax := by
  induction l generalizing s with
  | nil => exact ⟨rfl, rfl⟩
  | cons o l ih =>
    have h : (ifaceOp fl expf p s o).tmpDamage = s.tmpDamage ∧
        (ifaceOp fl expf p s o).tmpMax = s.tmpMax := by cases o <;> exact ⟨rfl, rfl⟩
    rw [List.foldl_cons]
    exact ⟨(ih _).1.trans h.1, (ih _).2.trans h.2⟩

/-- The openings of a history are moderate: at most `10¹⁰⁰` times the critical one. -/
def SpecOpenings (p : DamagePrm) (history : List IfaceStep) : Prop :=
  ∀ t ∈ history, t.opening / p.critical ≤ 10 ^ 100

theorem iface_run {fl expf : ℝ → ℝ} (hfl : IsRounding fl) (he : IsExp expf) (p : DamagePrm)
    (hz : p.setZero = false) (hc : 0 < p.critical) (history : List IfaceStep)
    (ho : SpecOpenings p history) :
    (history.foldl (ifaceStep fl expf p) Iface.new).maxOpening =
      (history.foldl (Iface.step p) Iface.new).maxOpening ∧
    0 ≤ (history.foldl (Iface.step p) Iface.new).maxOpening ∧
    (history.foldl (Iface.step p) Iface.new).maxOpening / p.critical ≤ 10 ^ 100 ∧
    (history.foldl (Iface.step p) Iface.new).damage =
      1 - intact ((history.foldl (Iface.step p) Iface.new).maxOpening / p.critical) ∧
    |(history.foldl (ifaceStep fl expf p) Iface.new).damage -
      (history.foldl (Iface.step p) Iface.new).damage| ≤ 8 * unit ∧
    (history.foldl (ifaceStep fl expf p) Iface.new).damage ≤ 1 := by
  induction history using List.reverseRecOn with
  | nil =>
    refine ⟨rfl, le_refl _, ?_, ?_, ?_, ?_⟩
    · show (0 : ℝ) / p.critical ≤ _
      rw [zero_div]; positivity
    · show (0 : ℝ) = 1 - intact (0 / p.critical)
      simp [intact]
    · show |(0 : ℝ) - 0| ≤ _
      norm_num [unit]
    · show (0 : ℝ) ≤ 1
      norm_num
  | append_singleton l t ih =>
    obtain ⟨h1, h2, h3, -, -, -⟩ := ih fun t ht => ho t (List.mem_append_left _ ht)
    have hot := ho t (by simp)
    simp only [List.foldl_append, List.foldl_cons, List.foldl_nil]
    set b' := l.foldl (ifaceStep fl expf p) Iface.new
    set b := l.foldl (Iface.step p) Iface.new
    have hm : (b.step p t).maxOpening = max b.maxOpening t.opening := (step_max p b t).1
    have hk := ifaceOps_keep (fl := fl) (expf := expf) p t.trials b'.store
    have hm' : (ifaceStep fl expf p b' t).maxOpening = max b.maxOpening t.opening := by
      show max (t.trials.foldl (ifaceOp fl expf p) b'.store).tmpMax t.opening = _
      rw [hk.2, ← h1]
      rfl
    have hd : (b.step p t).damage = 1 - intact (max b.maxOpening t.opening / p.critical) := by
      have hk := (Iface.ops_tmp p b.store t.trials).2
      show (if p.setZero then 0 else _) = _
      rw [hz]
      show 1 - (1 + max (t.trials.foldl (Iface.op p) b.store).tmpMax t.opening / p.critical) *
        Real.exp (-(max (t.trials.foldl (Iface.op p) b.store).tmpMax t.opening / p.critical)) = _
      rw [hk.1]
      rfl
    have hd' : (ifaceStep fl expf p b' t).damage =
        fl (1 - fl (fl (1 + fl (max b.maxOpening t.opening / p.critical)) *
          expf (-fl (max b.maxOpening t.opening / p.critical)))) := by
      show (if p.setZero then 0 else _) = _
      rw [hz]
      show fl (1 - fl (fl (1 + fl (max (t.trials.foldl (ifaceOp fl expf p) b'.store).tmpMax t.opening /
        p.critical)) * expf (-fl (max (t.trials.foldl (ifaceOp fl expf p) b'.store).tmpMax t.opening /
        p.critical)))) = _
      rw [hk.2, ← h1]
      rfl
    have hmax0 : 0 ≤ max b.maxOpening t.opening := h2.trans (le_max_left _ _)
    have hmaxc : max b.maxOpening t.opening / p.critical ≤ 10 ^ 100 := by
      rcases max_choice b.maxOpening t.opening with h | h <;> rw [h] <;> assumption
    have hn := damage_near hfl he _ (div_nonneg hmax0 hc.le) hmaxc
    rw [hm, hm', hd, hd']
    exact ⟨rfl, hmax0, hmaxc, rfl, hn.1, hn.2⟩

/-- **C111.**  Damage of Ortiz et al. in double precision, for every history of openings up to `10¹⁰⁰`
times the critical one and whatever was tried in between: the largest opening is exactly that of the
exact law, the damage is within `2⁻⁵⁰` of `1 - (1 + r)e⁻ʳ`, it never exceeds one, it is at least
`-2⁻⁵⁰`, and a further time step lowers it by at most `2⁻⁴⁹`. -/
theorem C111_damage {fl expf : ℝ → ℝ} (hfl : IsRounding fl) (he : IsExp expf) (p : DamagePrm)
    (hz : p.setZero = false) (hc : 0 < p.critical) (history : List IfaceStep) (t : IfaceStep)
    (ho : SpecOpenings p (history ++ [t])) :
    (history.foldl (ifaceStep fl expf p) Iface.new).maxOpening =
      (history.map (·.opening)).foldl max 0 ∧
    |(history.foldl (ifaceStep fl expf p) Iface.new).damage -
      (1 - (1 + (history.map (·.opening)).foldl max 0 / p.critical) *
        Real.exp (-((history.map (·.opening)).foldl max 0 / p.critical)))| ≤ (2 : ℝ) ^ (-50 : ℤ) ∧
    -(2 : ℝ) ^ (-50 : ℤ) ≤ (history.foldl (ifaceStep fl expf p) Iface.new).damage ∧
    (history.foldl (ifaceStep fl expf p) Iface.new).damage ≤ 1 ∧
    (history.foldl (ifaceStep fl expf p) Iface.new).damage - (2 : ℝ) ^ (-49 : ℤ) ≤
      ((history ++ [t]).foldl (ifaceStep fl expf p) Iface.new).damage := by
  have h := iface_run hfl he p hz hc history fun x hx => ho x (List.mem_append_left _ hx)
  have h' := iface_run hfl he p hz hc (history ++ [t]) ho
  have hm : (history.foldl (Iface.step p) Iface.new).maxOpening =
      (history.map (·.opening)).foldl max 0 := by
    have : ∀ (l : List IfaceStep) (s : Iface), (l.foldl (Iface.step p) s).maxOpening =
        (l.map (·.opening)).foldl max s.maxOpening := by
      intro l
      induction l with
      | nil => intro s; rfl
      | cons t l ih => intro s; rw [List.foldl_cons, ih, (step_max _ _ _).1, List.map_cons, List.foldl_cons]
    exact this history Iface.new
  have e50 : (2 : ℝ) ^ (-50 : ℤ) = 8 * unit := by norm_num [unit]
  have e49 : (2 : ℝ) ^ (-49 : ℤ) = 16 * unit := by norm_num [unit]
  have hu0 : 0 < unit := by norm_num [unit]
  obtain ⟨q1, q2, q3, q4, q5, q6⟩ := h
  obtain ⟨-, -, -, r4, r5, -⟩ := h'
  have hr : 0 ≤ (history.foldl (Iface.step p) Iface.new).maxOpening / p.critical :=
    div_nonneg q2 hc.le
  have hmono : (history.foldl (Iface.step p) Iface.new).damage ≤
      ((history ++ [t]).foldl (Iface.step p) Iface.new).damage := by
    rw [q4, r4, List.foldl_append, List.foldl_cons, List.foldl_nil, (step_max _ _ _).1]
    have := (intact_sub hr (div_le_div_of_nonneg_right
      (le_max_left (history.foldl (Iface.step p) Iface.new).maxOpening t.opening) hc.le)).1
    linarith
  refine ⟨q1.trans hm, ?_, ?_, q6, ?_⟩
  · rw [e50, ← hm]
    rw [q4] at q5
    exact q5
  · have := (abs_le.1 q5).1
    have h1 := (intact_le hr).2
    rw [e50]
    linarith
  · have := (abs_le.1 q5).2
    have := (abs_le.1 r5).1
    rw [e49]
    linarith

/-- **C111.**  Why the bounds are not zero: with a `std::exp` that is off by less than one unit in the last
place, an opening of `3·2⁻⁵⁴` gives the negative damage `-2⁻⁵²`, whatever the rounding. -/
theorem C111_damage_negative {fl : ℝ → ℝ} (hfl : IsRounding fl) :
    ∃ expf, IsExp expf ∧ ∀ p : DamagePrm, p.critical = 1 → p.setZero = false →
      (ifaceStep fl expf p Iface.new ⟨[], 3 * (2 : ℝ) ^ (-54 : ℤ), 0⟩).damage = -(2 : ℝ) ^ (-52 : ℤ) := by
  refine ⟨fun t => if t = -(3 * (2 : ℝ) ^ (-54 : ℤ)) then 1 else Real.exp t, ⟨?_, ?_, ?_, ?_⟩, ?_⟩
  · intro t _
    have hp : (0 : ℝ) ≤ (2 : ℝ) ^ (-1074 : ℤ) := (pow_pos2 _).le
    by_cases h : t = -(3 * (2 : ℝ) ^ (-54 : ℤ))
    · rw [if_pos h]
      have h1 : t + 1 ≤ Real.exp t := Real.add_one_le_exp t
      have h2 : Real.exp t ≤ 1 := Real.exp_le_one_iff.2 ‹_›
      rw [abs_of_nonneg (by linarith)]
      have h3 : (2 : ℝ) ^ (-52 : ℤ) * (t + 1) ≤ (2 : ℝ) ^ (-52 : ℤ) * Real.exp t :=
        mul_le_mul_of_nonneg_left h1 (pow_pos2 _).le
      have h4 : -t ≤ (2 : ℝ) ^ (-52 : ℤ) * (t + 1) := by rw [h]; norm_num
      linarith
    · rw [if_neg h, sub_self, abs_zero]
      exact add_nonneg (mul_nonneg (pow_pos2 _).le (Real.exp_pos _).le) hp
  · show (if _ then (1 : ℝ) else _) = _
    split_ifs
    · rfl
    · exact Real.exp_zero
  · intro t _
    show 0 ≤ (if _ then (1 : ℝ) else _)
    split_ifs
    · norm_num
    · exact (Real.exp_pos _).le
  · intro t ht
    show (if _ then (1 : ℝ) else _) ≤ 1
    split_ifs
    · exact le_refl _
    · exact Real.exp_le_one_iff.2 ht
  · intro p hc hz
    have hr : fl (3 * (2 : ℝ) ^ (-54 : ℤ)) = 3 * (2 : ℝ) ^ (-54 : ℤ) :=
      fl_double hfl ⟨3, -54, by norm_num, by norm_num, by norm_num⟩
    have hw : fl (1 + 3 * (2 : ℝ) ^ (-54 : ℤ)) = 1 + (2 : ℝ) ^ (-52 : ℤ) := by
      rw [fl_eq hfl (x := 1 + 3 * (2 : ℝ) ^ (-54 : ℤ)) (2 ^ 52 + 1) (-52) (by norm_num) (by norm_num)
        (by norm_num) (by rw [abs_lt]; constructor <;> norm_num)]
      norm_num
    have hm : max (0 : ℝ) (3 * (2 : ℝ) ^ (-54 : ℤ)) = 3 * (2 : ℝ) ^ (-54 : ℤ) :=
      max_eq_right (by positivity)
    show (if p.setZero then (0 : ℝ) else _) = _
    rw [hz]
    show fl (1 - fl (fl (1 + fl (max 0 (3 * (2 : ℝ) ^ (-54 : ℤ)) / p.critical)) * ite
      (-fl (max 0 (3 * (2 : ℝ) ^ (-54 : ℤ)) / p.critical) = -(3 * (2 : ℝ) ^ (-54 : ℤ))) 1
      (Real.exp _))) = _
    rw [hc, div_one, hm, hr, if_pos rfl, hw, mul_one]
    rw [fl_double hfl (x := 1 + (2 : ℝ) ^ (-52 : ℤ)) ⟨2 ^ 52 + 1, -52, by norm_num, by norm_num,
      by norm_num⟩, show 1 - (1 + (2 : ℝ) ^ (-52 : ℤ)) = -(2 : ℝ) ^ (-52 : ℤ) by ring]
    exact fl_double hfl ⟨-1, -52, by norm_num, by norm_num, by norm_num⟩

/-- **C111.**  The damage model M1 in double precision: as long as the thermodynamic force is not below
the endurance limit, an evaluation never lowers the stored damage and never exceeds one, whatever the
opening and whatever `std::pow` returns that is not negative; the result is a double again. -/
theorem C111_M1 {fl : ℝ → ℝ} (hfl : IsRounding fl) (powf : ℝ → ℝ → ℝ) (hpow : ∀ x y, 0 ≤ powf x y)
    (p : DamagePrm) (hz : p.setZero = false) (ha : 0 ≤ p.accumulation) (s : Iface)
    (hd : IsDouble s.tmpDamage) (h1 : s.tmpDamage ≤ 1) (opening cd force : ℝ) (hcd : 0 ≤ cd)
    (hf : p.endurance ≤ force) :
    s.tmpDamage ≤ (updateM1 fl powf p s opening cd force).damage ∧
    (updateM1 fl powf p s opening cd force).damage ≤ 1 ∧
    IsDouble (updateM1 fl powf p s opening cd force).damage := by
  have hm : ∀ x, 0 ≤ macaulay x := macaulay_nonneg
  set x := fl (fl (fl (fl (p.accumulation * cd) * macaulay (fl (opening - s.oldOpening))) *
    powf (fl (fl (1 - s.tmpDamage) + p.decay)) p.exponent) * fl (force - p.endurance)) with hx
  have hx0 : 0 ≤ x := fl_nonneg hfl (mul_nonneg (fl_nonneg hfl (mul_nonneg (fl_nonneg hfl
    (mul_nonneg (fl_nonneg hfl (mul_nonneg ha hcd)) (hm _))) (hpow _ _)))
      (fl_nonneg hfl (by linarith)))
  have hg : s.tmpDamage ≤ fl (s.tmpDamage + x) := fl_ge hfl hd (by linarith)
  have e : (updateM1 fl powf p s opening cd force).damage =
      if fl (s.tmpDamage + x) > 1 then 1 else fl (s.tmpDamage + x) := by
    show (if p.setZero then (0 : ℝ) else _) = _
    rw [hz]
    rfl
  rw [e]
  split_ifs with h
  · exact ⟨h1, le_refl _, isDouble_one⟩
  · exact ⟨hg, not_lt.1 h, hfl.double _⟩

/-! ### The hypotheses can be met -/

/-- Round to nearest and the exact exponential meet the assumptions. -/
theorem exact_exp : IsExp Real.exp :=
  ⟨fun t _ => by
      rw [sub_self, abs_zero]
      exact add_nonneg (mul_nonneg (pow_pos2 _).le (Real.exp_pos _).le) (pow_pos2 _).le,
    Real.exp_zero, fun t _ => (Real.exp_pos t).le, fun t ht => Real.exp_le_one_iff.2 ht⟩

/-- A thousand time steps with twelve slips: relative error at most `(7 + 24000)·2⁻⁵³`. -/
example (history : List (BulkStep 12)) (hl : history.length = 1000) (a : Fin 12) :
    |(history.foldl (bulkStep nearestMultiple) (bulkInit nearestMultiple exHard 12)).res a -
        (history.foldl Bulk.step (Bulk.init exHard 12)).res a| ≤
      (7 + 2 * ((1000 * 12 : ℕ) : ℝ)) * (2 : ℝ) ^ (-53 : ℤ) *
        (history.foldl Bulk.step (Bulk.init exHard 12)).res a + 1 / 10 ^ 130 := by
  have := C111_resistance nearestMultiple_rounding exHard exHard_moderate history
    (by rw [hl]; norm_num) a
  rwa [hl] at this

example (s : BulkStep 2) :
    ([s].foldl (bulkStep nearestMultiple) (bulkInit nearestMultiple exHard 2)).res 0 ≤
      ([s, s].foldl (bulkStep nearestMultiple) (bulkInit nearestMultiple exHard 2)).res 0 :=
  (C111_monotone nearestMultiple_rounding exHard exHard_moderate.accepted [s] s 0).2.2

/-- Opening to twice the critical value and closing again. -/
noncomputable def exIface : DamagePrm := ⟨1, 1, 0, 1, 0, false⟩

example : SpecOpenings exIface ([⟨[.update 5, .reset], 2, 2⟩] ++ [⟨[], 1, 1⟩]) := by
  intro t ht
  simp only [List.cons_append, List.nil_append, List.mem_cons, List.not_mem_nil, or_false] at ht
  rcases ht with rfl | rfl <;> norm_num [exIface]

example : (updateM1 nearestMultiple (fun x y => |x| ^ y) exIface Iface.new 1 1 1).damage ≤ 1 :=
  (C111_M1 nearestMultiple_rounding (fun x y => |x| ^ y)
    (fun x y => Real.rpow_nonneg (abs_nonneg x) y) exIface rfl (by norm_num [exIface]) Iface.new
    isDouble_zero (by norm_num [Iface.new]) 1 1 1 (by norm_num) (by norm_num [exIface])).2.1

end Verif.Fp
