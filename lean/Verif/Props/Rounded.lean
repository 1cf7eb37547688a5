import Verif.Model.Rounded
import Mathlib.Tactic.Linarith
import Mathlib.Tactic.Positivity
import Mathlib.Tactic.NormNum
import Mathlib.Tactic.FieldSimp
import Mathlib.Tactic.Ring

/-!
# C108: the range check of the grain interaction moduli in double precision
-/

namespace Verif.Fp
open Cry Itf

/-! ## Rounding -/

/-- Unit roundoff `2⁻⁵³`. -/
noncomputable def unit : ℝ := 1 / 9007199254740992

theorem unit_eq : unit = (2 : ℝ) ^ (-53 : ℤ) := by norm_num [unit]

/-- The exponent of the doubles around `x`. -/
noncomputable def exponent (x : ℝ) : ℤ := max (Int.log 2 |x| - 52) (-1074)

theorem pow_split (e k : ℤ) : (2 : ℝ) ^ (e + k) = 2 ^ e * 2 ^ k := zpow_add₀ (by norm_num) _ _

theorem pow_pos2 (e : ℤ) : (0 : ℝ) < 2 ^ e := by positivity

theorem exponent_lt (x : ℝ) : |x| < 2 ^ 53 * (2 : ℝ) ^ exponent x := by
  have h := Int.lt_zpow_succ_log_self (b := 2) (by norm_num) |x|
  have h' : (2 : ℝ) ^ (Int.log 2 |x| + 1) ≤ 2 ^ ((53 : ℤ) + exponent x) := by
    apply zpow_le_zpow_right₀ (by norm_num)
    unfold exponent
    have := le_max_left (Int.log 2 |x| - 52) (-1074)
    omega
  rw [pow_split 53] at h'
  have e53 : (2 : ℝ) ^ (53 : ℤ) = 2 ^ 53 := by norm_num
  rw [e53] at h'
  exact lt_of_lt_of_le (by exact_mod_cast h) h'

/-- The nearest multiple of the unit in the last place. -/
noncomputable def nearestMultiple (x : ℝ) : ℝ :=
  round (x / 2 ^ exponent x) * (2 : ℝ) ^ exponent x

theorem isDouble_zero : IsDouble 0 := ⟨0, 0, by norm_num, by norm_num, by norm_num⟩

theorem nearestMultiple_double (x : ℝ) : IsDouble (nearestMultiple x) := by
  by_cases hx : x = 0
  · subst hx
    simpa [nearestMultiple] using isDouble_zero
  refine ⟨round (x / 2 ^ exponent x), exponent x, ?_, le_max_right _ _, rfl⟩
  have h1 := abs_sub_round (x / 2 ^ exponent x)
  have h2 : |x / 2 ^ exponent x| < 2 ^ 53 := by
    rw [abs_div, abs_of_pos (pow_pos2 _), div_lt_iff₀ (pow_pos2 _)]
    exact exponent_lt x
  have h3 : |(round (x / 2 ^ exponent x) : ℝ)| < 2 ^ 53 + 1 := by
    have := abs_sub_abs_le_abs_sub ((round (x / 2 ^ exponent x) : ℤ) : ℝ) (x / 2 ^ exponent x)
    rw [abs_sub_comm] at this
    linarith
  have h4 : |round (x / 2 ^ exponent x)| < 2 ^ 53 + 1 := by exact_mod_cast h3
  omega

theorem nearestMultiple_le (x : ℝ) (k : ℤ) :
    |x - nearestMultiple x| ≤ |x - k * (2 : ℝ) ^ exponent x| := by
  have h := round_le (x / 2 ^ exponent x) k
  have e : ∀ t : ℝ, |x - t * (2 : ℝ) ^ exponent x| =
      |x / 2 ^ exponent x - t| * 2 ^ exponent x := by
    intro t
    rw [← abs_of_pos (pow_pos2 (exponent x)), ← abs_mul, abs_of_pos (pow_pos2 (exponent x))]
    congr 1
    field_simp
  unfold nearestMultiple
  rw [e, e]
  exact mul_le_mul_of_nonneg_right h (pow_pos2 _).le

/-- A double of a finer grid than `g` is at most `2^52` steps of `g`; a double of a coarser grid is a
multiple of `g`. -/
theorem double_cases {z : ℝ} (hz : IsDouble z) (g : ℤ) :
    (∃ k : ℤ, z = k * (2 : ℝ) ^ g) ∨ (-1074 < g ∧ |z| ≤ 2 ^ 52 * (2 : ℝ) ^ g) := by
  obtain ⟨m, f, hm, hf, rfl⟩ := hz
  by_cases h : g ≤ f
  · left
    refine ⟨m * 2 ^ (f - g).toNat, ?_⟩
    have : (2 : ℝ) ^ f = 2 ^ (f - g).toNat * 2 ^ g := by
      rw [← zpow_natCast, ← pow_split]
      congr 1
      omega
    rw [this]
    push_cast
    ring
  · right
    refine ⟨by omega, ?_⟩
    rw [abs_mul, abs_of_pos (pow_pos2 f)]
    have h1 : |(m : ℝ)| ≤ 2 ^ 53 := by exact_mod_cast hm
    have h2 : (2 : ℝ) ^ f ≤ 2 ^ (g - 1) := zpow_le_zpow_right₀ (by norm_num) (by omega)
    have h3 : (2 : ℝ) ^ (g - 1) = 2 ^ g / 2 := by
      rw [sub_eq_add_neg, pow_split]
      norm_num
      ring
    rw [h3] at h2
    calc |(m : ℝ)| * 2 ^ f ≤ 2 ^ 53 * (2 ^ g / 2) :=
          mul_le_mul h1 h2 (pow_pos2 _).le (by positivity)
      _ = 2 ^ 52 * 2 ^ g := by ring

/-- There is a rounding to nearest. -/
theorem nearestMultiple_rounding : IsRounding nearestMultiple := by
  refine ⟨nearestMultiple_double, fun x z hz => ?_⟩
  by_cases hx : x = 0
  · subst hx
    simp [nearestMultiple]
  rcases double_cases hz (exponent x) with ⟨k, rfl⟩ | ⟨hg, hz'⟩
  · exact nearestMultiple_le x k
  · have he : exponent x = Int.log 2 |x| - 52 := by
      unfold exponent at hg ⊢
      rcases max_choice (Int.log 2 |x| - 52) (-1074 : ℤ) with h | h
      · exact h
      · rw [h] at hg
        omega
    have hlog : (2 : ℝ) ^ 52 * 2 ^ exponent x ≤ |x| := by
      have h := Int.zpow_log_le_self (b := 2) (by norm_num) (abs_pos.mpr hx)
      have : (2 : ℝ) ^ 52 * 2 ^ exponent x = (2 : ℝ) ^ (Int.log 2 |x|) := by
        rw [← zpow_natCast, ← pow_split]
        congr 1
        push_cast
        omega
      rw [this]
      exact_mod_cast h
    rcases lt_or_gt_of_ne hx with h | h
    · have hk := nearestMultiple_le x (-2 ^ 52)
      push_cast at hk
      have hp := pow_pos2 (exponent x)
      refine hk.trans ?_
      rw [abs_of_neg h] at hlog
      have h1 := (abs_le.mp hz').1
      rw [abs_of_nonpos (by linarith), abs_of_nonpos (by linarith)]
      linarith
    · have hk := nearestMultiple_le x (2 ^ 52)
      push_cast at hk
      refine hk.trans ?_
      rw [abs_of_pos h] at hlog
      have h1 := (abs_le.mp hz').2
      rw [abs_of_nonneg (by linarith), abs_of_nonneg (by linarith)]
      linarith

/-- The absolute error of a result in the subnormal range. -/
noncomputable def tiny : ℝ := (2 : ℝ) ^ (-1075 : ℤ)

theorem tiny_pos : 0 < tiny := pow_pos2 _

theorem tiny_le {k : ℤ} (h : -1075 ≤ k) : tiny ≤ 2 ^ k := zpow_le_zpow_right₀ (by norm_num) h

theorem tiny_small : tiny ≤ 1 / 10 ^ 200 := by
  have h := tiny_le (k := -1000) (by norm_num)
  refine h.trans ?_
  have e : (2 : ℝ) ^ (-1000 : ℤ) = (1 / 2 ^ 250) ^ 4 := by
    rw [show (-1000 : ℤ) = -((250 * 4 : ℕ) : ℤ) by norm_num, zpow_neg, zpow_natCast, pow_mul]
    rw [one_div, inv_pow]
  rw [e]
  have : ((1 : ℝ) / 2 ^ 250) ≤ 1 / 10 ^ 50 := by norm_num
  calc ((1 : ℝ) / 2 ^ 250) ^ 4 ≤ (1 / 10 ^ 50) ^ 4 := pow_le_pow_left₀ (by positivity) this 4
    _ = 1 / 10 ^ 200 := by norm_num

/-- Cauchy–Schwarz with absolute values, two components. -/
theorem cs2 (a b c d P : ℝ) (hP : 0 ≤ P) (h : (a ^ 2 + b ^ 2) * (c ^ 2 + d ^ 2) ≤ P ^ 2) :
    |a * c| + |b * d| ≤ P := by
  apply abs_le_of_sq_le_sq' _ hP |>.2
  refine le_trans ?_ h
  rw [abs_mul, abs_mul]
  have e : (a ^ 2 + b ^ 2) * (c ^ 2 + d ^ 2) - (|a| * |c| + |b| * |d|) ^ 2 =
      (|a| * |d| - |b| * |c|) ^ 2 := by
    rw [← sq_abs a, ← sq_abs b, ← sq_abs c, ← sq_abs d]
    ring
  nlinarith [sq_nonneg (|a| * |d| - |b| * |c|)]

section
variable {fl : ℝ → ℝ} (hfl : IsRounding fl)
include hfl

theorem fl_double {x : ℝ} (h : IsDouble x) : fl x = x := by
  have := hfl.nearest x x h
  rw [sub_self, abs_zero] at this
  have := abs_nonpos_iff.mp this
  linarith

/-- The error of one operation. -/
theorem fl_err (x : ℝ) : |fl x - x| ≤ unit * |x| + tiny := by
  rw [abs_sub_comm]
  refine (hfl.nearest x _ (nearestMultiple_double x)).trans ?_
  by_cases hx : x = 0
  · subst hx
    simp [nearestMultiple, tiny_pos.le]
  have h1 := abs_sub_round (x / 2 ^ exponent x)
  have hp := pow_pos2 (exponent x)
  have e : |x - nearestMultiple x| =
      |x / 2 ^ exponent x - round (x / 2 ^ exponent x)| * 2 ^ exponent x := by
    rw [← abs_of_pos hp, ← abs_mul, abs_of_pos hp]
    congr 1
    unfold nearestMultiple
    field_simp
  rw [e]
  have h2 : |x / 2 ^ exponent x - round (x / 2 ^ exponent x)| * 2 ^ exponent x ≤
      1 / 2 * 2 ^ exponent x := mul_le_mul_of_nonneg_right h1 hp.le
  refine h2.trans ?_
  rcases max_choice (Int.log 2 |x| - 52) (-1074 : ℤ) with h | h
  · have h3 := Int.zpow_log_le_self (b := 2) (by norm_num) (abs_pos.mpr hx)
    have h4 : (1 / 2 : ℝ) * 2 ^ exponent x = unit * (2 : ℝ) ^ (Int.log 2 |x|) := by
      rw [show exponent x = Int.log 2 |x| + (-52) by unfold exponent; rw [h]; ring, pow_split]
      norm_num [unit]
      ring
    rw [h4]
    have h5 : (2 : ℝ) ^ (Int.log 2 |x|) ≤ |x| := by exact_mod_cast h3
    have := mul_le_mul_of_nonneg_left h5 (show (0 : ℝ) ≤ unit by norm_num [unit])
    linarith [tiny_pos]
  · have h4 : (1 / 2 : ℝ) * 2 ^ exponent x = tiny := by
      rw [show exponent x = -1074 by unfold exponent; exact h]
      unfold tiny
      rw [show (-1075 : ℤ) = -1074 + -1 by norm_num, pow_split]
      norm_num
      ring
    rw [h4]
    have : 0 ≤ unit * |x| := mul_nonneg (by norm_num [unit]) (abs_nonneg _)
    linarith

/-- A number within half a unit of a double with 53 significant bits rounds to that double. -/
theorem fl_eq {x : ℝ} (m e : ℤ) (hm : 2 ^ 52 < |m|) (hm' : |m| ≤ 2 ^ 53) (he : -1074 ≤ e)
    (h : |x - m * (2 : ℝ) ^ e| < (2 : ℝ) ^ e / 2) : fl x = m * (2 : ℝ) ^ e := by
  have hy : IsDouble (m * (2 : ℝ) ^ e) := ⟨m, e, hm', he, rfl⟩
  have h1 := hfl.nearest x _ hy
  have hp := pow_pos2 e
  have h2 : |fl x - m * (2 : ℝ) ^ e| < (2 : ℝ) ^ e := by
    have : fl x - m * (2 : ℝ) ^ e = -(x - fl x) + (x - m * (2 : ℝ) ^ e) := by ring
    rw [this]
    refine (abs_add_le _ _).trans_lt ?_
    rw [abs_neg]
    linarith
  rcases double_cases (hfl.double x) e with ⟨k, hk⟩ | ⟨_, hk⟩
  · rw [hk] at h2 ⊢
    rw [← sub_mul, abs_mul, abs_of_pos hp] at h2
    have h3 : |((k : ℝ) - m)| < 1 := by
      by_contra hc
      push Not at hc
      have := mul_le_mul_of_nonneg_right hc hp.le
      linarith
    have h4 : |k - m| < 1 := by exact_mod_cast h3
    have : k = m := by
      have := Int.abs_lt_one_iff.mp h4
      omega
    rw [this]
  · exfalso
    have h3 : |(m : ℝ) * (2 : ℝ) ^ e| ≤ |fl x| + |fl x - m * (2 : ℝ) ^ e| := by
      have := abs_sub_abs_le_abs_sub ((m : ℝ) * (2 : ℝ) ^ e) (fl x)
      rw [abs_sub_comm (fl x)]
      linarith
    rw [abs_mul, abs_of_pos hp] at h3
    have h4 : (2 ^ 52 + 1 : ℝ) ≤ |(m : ℝ)| := by
      have : (2 ^ 52 + 1 : ℤ) ≤ |m| := by omega
      exact_mod_cast this
    have := mul_le_mul_of_nonneg_right h4 hp.le
    linarith

theorem fl_abs (x : ℝ) : |fl x| ≤ (1 + unit) * |x| + tiny := by
  have h := fl_err hfl x
  have := abs_sub_abs_le_abs_sub (fl x) x
  linarith

theorem fl_low (x : ℝ) : (1 - unit) * |x| - tiny ≤ |fl x| := by
  have h := fl_err hfl x
  rw [abs_sub_comm] at h
  have := abs_sub_abs_le_abs_sub x (fl x)
  linarith

/-! ## Error bounds, two dimensions -/

/-- The error of a sum (or difference) of two products. -/
theorem two_products (p q σ : ℝ) (hσ : |σ| = 1) :
    |fl (fl p + σ * fl q) - (p + σ * q)| ≤ (2 * unit + unit ^ 2) * (|p| + |q|) + 4 * tiny := by
  have h1 := fl_err hfl p
  have h2 := fl_err hfl q
  have h3 := fl_err hfl (fl p + σ * fl q)
  have h4 : |fl p + σ * fl q| ≤ (1 + unit) * (|p| + |q|) + 2 * tiny := by
    have a1 := fl_abs hfl p
    have a2 := fl_abs hfl q
    have : |fl p + σ * fl q| ≤ |fl p| + |fl q| := by
      refine (abs_add_le _ _).trans ?_
      rw [abs_mul, hσ, one_mul]
    linarith
  have h5 : |σ * (fl q - q)| ≤ unit * |q| + tiny := by rw [abs_mul, hσ, one_mul]; exact h2
  have e : fl (fl p + σ * fl q) - (p + σ * q) =
      (fl (fl p + σ * fl q) - (fl p + σ * fl q)) + (fl p - p) + σ * (fl q - q) := by ring
  rw [e]
  have := abs_add_three (fl (fl p + σ * fl q) - (fl p + σ * fl q)) (fl p - p) (σ * (fl q - q))
  have h6 : unit * |fl p + σ * fl q| ≤ unit * ((1 + unit) * (|p| + |q|) + 2 * tiny) :=
    mul_le_mul_of_nonneg_left h4 (by norm_num [unit])
  have ht := tiny_pos
  have hu : unit * (2 * tiny) ≤ tiny := by
    have h := mul_le_mul_of_nonneg_right (show unit ≤ 1 / 2 by norm_num [unit])
      (show 0 ≤ 2 * tiny by linarith)
    linarith
  have e2 : unit * ((1 + unit) * (|p| + |q|) + 2 * tiny) + unit * |p| + unit * |q| =
      (2 * unit + unit ^ 2) * (|p| + |q|) + unit * (2 * tiny) := by ring
  linarith

theorem dot2_err (a b : Vec 2) :
    |dot2 fl a b - (a 0 * b 0 + a 1 * b 1)| ≤
      (2 * unit + unit ^ 2) * (|a 0 * b 0| + |a 1 * b 1|) + 4 * tiny := by
  have := two_products hfl (a 0 * b 0) (a 1 * b 1) 1 (by norm_num)
  simpa [dot2] using this

theorem lateral_err (a b : Vec 2) :
    |lateral fl a b - (a 0 * b 1 - a 1 * b 0)| ≤
      (2 * unit + unit ^ 2) * (|a 0 * b 1| + |a 1 * b 0|) + 4 * tiny := by
  have := two_products hfl (a 0 * b 1) (a 1 * b 0) (-1) (by norm_num)
  simpa [lateral, sub_eq_add_neg] using this

/-- A modulus of vectors whose norms exceed one by a few units is accepted in two dimensions. -/
theorem modulus2_accepted (a b : System 2) (nrm : Vec 2)
    (ha : (a.direction 0) ^ 2 + (a.direction 1) ^ 2 ≤ (1 + 13 * unit) ^ 2)
    (hb : (b.direction 0) ^ 2 + (b.direction 1) ^ 2 ≤ (1 + 13 * unit) ^ 2)
    (ha' : (a.normal 0) ^ 2 + (a.normal 1) ^ 2 ≤ (1 + 13 * unit) ^ 2)
    (hb' : (b.normal 0) ^ 2 + (b.normal 1) ^ 2 ≤ (1 + 13 * unit) ^ 2)
    (hn : (nrm 0) ^ 2 + (nrm 1) ^ 2 ≤ (1 + 8 * unit) ^ 2) :
    accepted2 fl (modulus2 fl a b nrm) := by
  refine ⟨abs_nonneg _, ?_⟩
  have ht := tiny_small
  have ht0 := tiny_pos
  have ht' : tiny ≤ 1 / 2 ^ 100 := ht.trans (by norm_num)
  have hD : |dot2 fl a.direction b.direction| ≤ 1 + 28.1 * unit := by
    have h := dot2_err hfl a.direction b.direction
    have hS : |a.direction 0 * b.direction 0| + |a.direction 1 * b.direction 1| ≤
        (1 + 13 * unit) ^ 2 := by
      refine cs2 _ _ _ _ _ (by norm_num [unit]) ?_
      calc _ ≤ (1 + 13 * unit) ^ 2 * (1 + 13 * unit) ^ 2 :=
            mul_le_mul ha hb (by positivity) (by positivity)
        _ = _ := by ring
    have h2 := abs_add_le (a.direction 0 * b.direction 0) (a.direction 1 * b.direction 1)
    have h3 := abs_sub_abs_le_abs_sub (dot2 fl a.direction b.direction)
      (a.direction 0 * b.direction 0 + a.direction 1 * b.direction 1)
    norm_num [unit] at *
    linarith
  have hL : ∀ m : Vec 2, (m 0) ^ 2 + (m 1) ^ 2 ≤ (1 + 13 * unit) ^ 2 →
      |lateral fl m nrm| ≤ 1 + 23.1 * unit := by
    intro m hm
    have h := lateral_err hfl m nrm
    have hS : |m 0 * nrm 1| + |m 1 * nrm 0| ≤ (1 + 13 * unit) * (1 + 8 * unit) := by
      refine cs2 _ _ _ _ _ (by norm_num [unit]) ?_
      calc _ ≤ (1 + 13 * unit) ^ 2 * (1 + 8 * unit) ^ 2 :=
            mul_le_mul hm (by rw [add_comm]; exact hn) (by positivity) (by positivity)
        _ = _ := by ring
    have h2 := abs_sub (m 0 * nrm 1) (m 1 * nrm 0)
    have h3 := abs_sub_abs_le_abs_sub (lateral fl m nrm) (m 0 * nrm 1 - m 1 * nrm 0)
    norm_num [unit] at *
    linarith
  have hA := hL _ ha'
  have hB := hL _ hb'
  have h1 : |fl (dot2 fl a.direction b.direction * lateral fl a.normal nrm)| ≤
      1 + 52.5 * unit := by
    have h := fl_abs hfl (dot2 fl a.direction b.direction * lateral fl a.normal nrm)
    rw [abs_mul] at h
    have := mul_le_mul hD hA (abs_nonneg _) (by norm_num [unit])
    norm_num [unit] at *
    linarith
  have h2 : |modulus2 fl a b nrm| ≤ 1 + 77 * unit := by
    have h := fl_abs hfl (fl (dot2 fl a.direction b.direction * lateral fl a.normal nrm) *
      lateral fl b.normal nrm)
    rw [abs_mul] at h
    have := mul_le_mul h1 hB (abs_nonneg _) (by norm_num [unit])
    unfold modulus2
    norm_num [unit] at *
    linarith
  have h3 : 1 + 77 * unit ≤ fl (1 + fl 1e-14) := by
    have e1 := (abs_le.mp (fl_err hfl 1e-14)).1
    have e2 := (abs_le.mp (fl_err hfl (1 + fl 1e-14))).1
    have e3 := (abs_le.mp (fl_err hfl 1e-14)).2
    rw [abs_of_pos (by norm_num)] at e1 e3
    have e4 : |1 + fl 1e-14| ≤ 2 := by
      rw [abs_le]
      norm_num [unit] at *
      constructor <;> linarith
    norm_num [unit] at *
    linarith
  exact h2.trans h3

/-- Normalizing a vector of moderate size gives a vector of norm at most one plus a few units. -/
theorem normalize2_norm (inverse : Bool) (v w : Vec 2) (hbig : ∀ i, |v i| ≤ 10 ^ 70)
    (hsmall : ∃ i, 1 / 10 ^ 70 ≤ |v i|) (h : normalize2 fl inverse v = some w) :
    (w 0) ^ 2 + (w 1) ^ 2 ≤ (1 + 4.5 * unit) ^ 2 := by
  have ht0 := tiny_pos
  have ht := tiny_small
  set Q : ℝ := (v 0) ^ 2 + (v 1) ^ 2 with hQ
  set R : ℝ := √Q with hR
  have hQ0 : 0 ≤ Q := by positivity
  have hRQ : R ^ 2 = Q := Real.sq_sqrt hQ0
  have hle : ∀ i, |v i| ≤ R := by
    intro i
    apply Real.abs_le_sqrt
    fin_cases i
    · show v 0 ^ 2 ≤ Q
      nlinarith [sq_nonneg (v 1)]
    · show v 1 ^ 2 ≤ Q
      nlinarith [sq_nonneg (v 0)]
  have hR1 : 1 / 10 ^ 70 ≤ R := by
    obtain ⟨i, hi⟩ := hsmall
    exact hi.trans (hle i)
  have hRpos : 0 < R := lt_of_lt_of_le (by positivity) hR1
  have hQ1 : 1 / 10 ^ 140 ≤ Q := by
    rw [← hRQ]
    calc (1 : ℝ) / 10 ^ 140 = (1 / 10 ^ 70) ^ 2 := by norm_num
      _ ≤ R ^ 2 := pow_le_pow_left₀ (by positivity) hR1 2
  have htQ : tiny ≤ Q / 10 ^ 60 := by
    refine ht.trans ?_
    have := div_le_div_of_nonneg_right hQ1 (show (0 : ℝ) ≤ 10 ^ 60 by positivity)
    refine le_trans (le_of_eq ?_) this
    norm_num
  have htR : tiny ≤ R / 10 ^ 60 := by
    refine ht.trans ?_
    have := div_le_div_of_nonneg_right hR1 (show (0 : ℝ) ≤ 10 ^ 60 by positivity)
    refine le_trans ?_ this
    norm_num
  set n2 := dot2 fl v v with hn2
  have h1 : (1 - 2.01 * unit) * Q ≤ n2 := by
    have h := (abs_le.mp (dot2_err hfl v v)).1
    rw [abs_mul_self, abs_mul_self] at h
    have e : v 0 * v 0 + v 1 * v 1 = Q := by rw [hQ]; ring
    rw [e, ← hn2] at h
    norm_num [unit] at *
    linarith
  set n := fl √n2 with hn
  have h2 : (1 - 1.01 * unit) * R ≤ √n2 := by
    apply Real.le_sqrt_of_sq_le
    refine le_trans ?_ h1
    rw [mul_pow, hRQ]
    apply mul_le_mul_of_nonneg_right _ hQ0
    norm_num [unit]
  have h3 : (1 - 2.02 * unit) * R ≤ |n| := by
    have h := fl_low hfl (√n2)
    rw [abs_of_nonneg (Real.sqrt_nonneg _), ← hn] at h
    have := mul_le_mul_of_nonneg_left h2 (show 0 ≤ 1 - unit by norm_num [unit])
    norm_num [unit] at *
    linarith
  have hc : 0 < (1 - 2.02 * unit) * R := mul_pos (by norm_num [unit]) hRpos
  have hn0 : 0 < |n| := lt_of_lt_of_le hc h3
  have h4 : 1 / |n| ≤ (1 + 2.03 * unit) / R := by
    have := one_div_le_one_div_of_le hc h3
    refine this.trans ?_
    rw [div_le_div_iff₀ hc hRpos, one_mul, ← mul_assoc]
    refine le_mul_of_one_le_left hRpos.le ?_
    norm_num [unit]
  unfold normalize2 at h
  rw [← hn2, ← hn, if_neg (abs_pos.mp hn0)] at h
  have hw : ∀ i, |w i| ≤ (1 + 4.04 * unit) * (|v i| / R) + 1 / 10 ^ 100 := by
    intro i
    obtain rfl : w = fun i => quotient fl inverse (v i) n := (Option.some.inj h).symm
    have hp : 0 ≤ |v i| / R := by positivity
    have hp1 : |v i| * (1 / |n|) ≤ (1 + 2.03 * unit) * (|v i| / R) := by
      have := mul_le_mul_of_nonneg_left h4 (abs_nonneg (v i))
      refine this.trans (le_of_eq ?_)
      ring
    cases inverse
    · have h5 := fl_abs hfl (v i / n)
      rw [abs_div, div_eq_mul_one_div |v i|] at h5
      simp only [quotient, Bool.false_eq_true, if_false]
      have h6 := mul_le_mul_of_nonneg_left hp1 (show 0 ≤ 1 + unit by norm_num [unit])
      have h7 : (1 + unit) * ((1 + 2.03 * unit) * (|v i| / R)) ≤
          (1 + 4.04 * unit) * (|v i| / R) := by
        rw [← mul_assoc]
        exact mul_le_mul_of_nonneg_right (by norm_num [unit]) hp
      have h8 : tiny ≤ 1 / 10 ^ 100 := ht.trans (by norm_num)
      linarith
    · have h5 := fl_abs hfl (v i * fl (1 / n))
      have h5' := fl_abs hfl (1 / n)
      rw [abs_div, abs_one] at h5'
      rw [abs_mul] at h5
      simp only [quotient, if_true]
      have h6 := mul_le_mul_of_nonneg_left h5' (abs_nonneg (v i))
      have h6' := mul_le_mul_of_nonneg_left hp1 (show 0 ≤ 1 + unit by norm_num [unit])
      have e1 : |v i| * ((1 + unit) * (1 / |n|) + tiny) =
          (1 + unit) * (|v i| * (1 / |n|)) + |v i| * tiny := by ring
      have h9 : |v i| * tiny ≤ 1 / 10 ^ 130 := by
        calc |v i| * tiny ≤ 10 ^ 70 * (1 / 10 ^ 200) :=
              mul_le_mul (hbig i) ht ht0.le (by positivity)
          _ = 1 / 10 ^ 130 := by norm_num
      have h10 : |v i| * |fl (1 / n)| ≤
          (1 + unit) * ((1 + 2.03 * unit) * (|v i| / R)) + 1 / 10 ^ 130 := by linarith
      have h11 := mul_le_mul_of_nonneg_left h10 (show 0 ≤ 1 + unit by norm_num [unit])
      have h7 : (1 + unit) * ((1 + unit) * ((1 + 2.03 * unit) * (|v i| / R))) ≤
          (1 + 4.04 * unit) * (|v i| / R) := by
        rw [← mul_assoc, ← mul_assoc]
        exact mul_le_mul_of_nonneg_right (by norm_num [unit]) hp
      have h8 : (1 + unit) * (1 / 10 ^ 130) + tiny ≤ 1 / 10 ^ 100 := by
        norm_num [unit] at *
        linarith
      linarith
  have hp2 : (|v 0| / R) ^ 2 + (|v 1| / R) ^ 2 = 1 := by
    rw [div_pow, div_pow, sq_abs, sq_abs, ← add_div, hRQ, ← hQ]
    exact div_self (by rw [← hRQ]; positivity)
  have hp0 : 0 ≤ |v 0| / R := by positivity
  have hp1 : 0 ≤ |v 1| / R := by positivity
  have hw0 := pow_le_pow_left₀ (abs_nonneg _) (hw 0) 2
  have hw1 := pow_le_pow_left₀ (abs_nonneg _) (hw 1) 2
  rw [sq_abs] at hw0 hw1
  generalize |v 0| / R = p at *
  generalize |v 1| / R = q at *
  have hp : p ≤ 1 := by nlinarith
  have hq : q ≤ 1 := by nlinarith
  have e : ((1 + 4.04 * unit) * p + 1 / 10 ^ 100) ^ 2 + ((1 + 4.04 * unit) * q + 1 / 10 ^ 100) ^ 2 =
      (1 + 4.04 * unit) ^ 2 * (p ^ 2 + q ^ 2) +
        2 * (1 + 4.04 * unit) * (1 / 10 ^ 100) * (p + q) + 2 * (1 / 10 ^ 100) ^ 2 := by ring
  rw [hp2] at e
  have h12 : 2 * (1 + 4.04 * unit) * (1 / 10 ^ 100) * (p + q) ≤
      2 * (1 + 4.04 * unit) * (1 / 10 ^ 100) * 2 :=
    mul_le_mul_of_nonneg_left (by linarith) (by norm_num [unit])
  have h13 : (1 + 4.04 * unit) ^ 2 * 1 + 2 * (1 + 4.04 * unit) * (1 / 10 ^ 100) * 2 +
      2 * (1 / 10 ^ 100) ^ 2 ≤ (1 + 4.5 * unit) ^ 2 := by norm_num [unit]
  linarith

/-- Rotating such a vector adds at most a few units more. -/
theorem rotate2_norm {cosf sinf : ℝ → ℝ} (hm : IsLibm cosf sinf) (angle : ℝ) (x : Vec 2)
    (hx : (x 0) ^ 2 + (x 1) ^ 2 ≤ (1 + 4.5 * unit) ^ 2) :
    (dot2 fl (rotation2 fl cosf sinf angle 0) x) ^ 2 +
      (dot2 fl (rotation2 fl cosf sinf angle 1) x) ^ 2 ≤ (1 + 13 * unit) ^ 2 := by
  set t := radians fl angle with ht
  have ht0 := tiny_pos
  have ht' := tiny_small
  have hu : (2 : ℝ) ^ (-52 : ℤ) = 2 * unit := by norm_num [unit]
  have hc := hm.cos_near t
  have hs := hm.sin_near t
  rw [hu] at hc hs
  have hcs := Real.cos_sq_add_sin_sq t
  -- one component
  have key : ∀ a b A B : ℝ, |a - A| ≤ 2 * unit → |b - B| ≤ 2 * unit → A ^ 2 + B ^ 2 = 1 →
      |fl (fl (a * x 0) + fl (b * x 1)) - (A * x 0 + B * x 1)| ≤ 5.2 * unit := by
    intro a b A B ha hb hAB
    have h1 := two_products hfl (a * x 0) (b * x 1) 1 (by norm_num)
    simp only [one_mul] at h1
    have hS : |x 0| + |x 1| ≤ 1.5 * (1 + 4.5 * unit) := by
      apply abs_le_of_sq_le_sq' _ (by norm_num [unit]) |>.2
      rw [← sq_abs (x 0), ← sq_abs (x 1)] at hx
      nlinarith [sq_nonneg (|x 0| - |x 1|)]
    have hT : |A * x 0| + |B * x 1| ≤ 1 + 4.5 * unit := by
      refine cs2 _ _ _ _ _ (by norm_num [unit]) ?_
      rw [hAB, one_mul]
      exact hx
    have d0 : |(a - A) * x 0| ≤ 2 * unit * |x 0| := by
      rw [abs_mul]
      exact mul_le_mul_of_nonneg_right ha (abs_nonneg _)
    have d1 : |(b - B) * x 1| ≤ 2 * unit * |x 1| := by
      rw [abs_mul]
      exact mul_le_mul_of_nonneg_right hb (abs_nonneg _)
    have dS : 2 * unit * |x 0| + 2 * unit * |x 1| ≤ 2 * unit * (1.5 * (1 + 4.5 * unit)) := by
      rw [← mul_add]
      exact mul_le_mul_of_nonneg_left hS (by norm_num [unit])
    have hp : |a * x 0| + |b * x 1| ≤ 1 + 10 * unit := by
      have e0 : |a * x 0| ≤ |A * x 0| + |(a - A) * x 0| := by
        rw [show a * x 0 = A * x 0 + (a - A) * x 0 by ring]
        exact abs_add_le _ _
      have e1 : |b * x 1| ≤ |B * x 1| + |(b - B) * x 1| := by
        rw [show b * x 1 = B * x 1 + (b - B) * x 1 by ring]
        exact abs_add_le _ _
      norm_num [unit] at *
      linarith
    have e : fl (fl (a * x 0) + fl (b * x 1)) - (A * x 0 + B * x 1) =
        (fl (fl (a * x 0) + fl (b * x 1)) - (a * x 0 + b * x 1)) + (a - A) * x 0 +
          (b - B) * x 1 := by ring
    rw [e]
    refine (abs_add_three _ _ _).trans ?_
    norm_num [unit] at *
    linarith
  have k0 := key (cosf t) (-sinf t) (Real.cos t) (-Real.sin t) hc
    (by rw [show -sinf t - -Real.sin t = -(sinf t - Real.sin t) by ring, abs_neg]; exact hs)
    (by rw [neg_sq]; exact hcs)
  have k1 := key (sinf t) (cosf t) (Real.sin t) (Real.cos t) hs hc (by rw [add_comm]; exact hcs)
  have e0 : dot2 fl (rotation2 fl cosf sinf angle 0) x =
      fl (fl (cosf t * x 0) + fl (-sinf t * x 1)) := rfl
  have e1 : dot2 fl (rotation2 fl cosf sinf angle 1) x =
      fl (fl (sinf t * x 0) + fl (cosf t * x 1)) := rfl
  rw [e0, e1]
  generalize fl (fl (cosf t * x 0) + fl (-sinf t * x 1)) = w0 at *
  generalize fl (fl (sinf t * x 0) + fl (cosf t * x 1)) = w1 at *
  have hr : (Real.cos t * x 0 + -Real.sin t * x 1) ^ 2 +
      (Real.sin t * x 0 + Real.cos t * x 1) ^ 2 = (x 0) ^ 2 + (x 1) ^ 2 := by
    have : (Real.cos t * x 0 + -Real.sin t * x 1) ^ 2 +
      (Real.sin t * x 0 + Real.cos t * x 1) ^ 2 =
        (Real.cos t ^ 2 + Real.sin t ^ 2) * ((x 0) ^ 2 + (x 1) ^ 2) := by ring
    rw [this, hcs, one_mul]
  generalize Real.cos t * x 0 + -Real.sin t * x 1 = r0 at *
  generalize Real.sin t * x 0 + Real.cos t * x 1 = r1 at *
  have hrr : r0 ^ 2 + r1 ^ 2 ≤ (1 + 4.5 * unit) ^ 2 := by rw [hr]; exact hx
  have hS : |r0| + |r1| ≤ 1.42 * (1 + 4.5 * unit) := by
    apply abs_le_of_sq_le_sq' _ (by norm_num [unit]) |>.2
    rw [← sq_abs r0, ← sq_abs r1] at hrr
    nlinarith [sq_nonneg (|r0| - |r1|)]
  have q0 : w0 ^ 2 ≤ (|r0| + 5.2 * unit) ^ 2 := by
    rw [← sq_abs w0]
    apply pow_le_pow_left₀ (abs_nonneg _)
    have := abs_sub_abs_le_abs_sub w0 r0
    linarith
  have q1 : w1 ^ 2 ≤ (|r1| + 5.2 * unit) ^ 2 := by
    rw [← sq_abs w1]
    apply pow_le_pow_left₀ (abs_nonneg _)
    have := abs_sub_abs_le_abs_sub w1 r1
    linarith
  have e : (|r0| + 5.2 * unit) ^ 2 + (|r1| + 5.2 * unit) ^ 2 =
      (r0 ^ 2 + r1 ^ 2) + 2 * (5.2 * unit) * (|r0| + |r1|) + 2 * (5.2 * unit) ^ 2 := by
    rw [← sq_abs r0, ← sq_abs r1]
    ring
  have h2 := mul_le_mul_of_nonneg_left hS (show 0 ≤ 2 * (5.2 * unit) by norm_num [unit])
  have h3 : (1 + 4.5 * unit) ^ 2 + 2 * (5.2 * unit) * (1.42 * (1 + 4.5 * unit)) +
      2 * (5.2 * unit) ^ 2 ≤ (1 + 13 * unit) ^ 2 := by norm_num [unit]
  linarith

/-! ## Error bounds, three dimensions -/

theorem dot3_err (a b : Vec 3) :
    |dot3 fl a b - (a 0 * b 0 + a 1 * b 1 + a 2 * b 2)| ≤
      3.1 * unit * (|a 0 * b 0| + |a 1 * b 1| + |a 2 * b 2|) + 8 * tiny := by
  have ht := tiny_pos
  have h1 := two_products hfl (a 0 * b 0) (a 1 * b 1) 1 (by norm_num)
  simp only [one_mul] at h1
  have h2 := fl_err hfl (a 2 * b 2)
  have h3 := fl_err hfl (fl (fl (a 0 * b 0) + fl (a 1 * b 1)) + fl (a 2 * b 2))
  have a2 := fl_abs hfl (a 2 * b 2)
  have a1 : |fl (fl (a 0 * b 0) + fl (a 1 * b 1))| ≤
      (1 + (2 * unit + unit ^ 2)) * (|a 0 * b 0| + |a 1 * b 1|) + 4 * tiny := by
    have := abs_sub_abs_le_abs_sub (fl (fl (a 0 * b 0) + fl (a 1 * b 1))) (a 0 * b 0 + a 1 * b 1)
    have := abs_add_le (a 0 * b 0) (a 1 * b 1)
    linarith
  have a3 := abs_add_le (fl (fl (a 0 * b 0) + fl (a 1 * b 1))) (fl (a 2 * b 2))
  have e : dot3 fl a b - (a 0 * b 0 + a 1 * b 1 + a 2 * b 2) =
      (fl (fl (fl (a 0 * b 0) + fl (a 1 * b 1)) + fl (a 2 * b 2)) -
        (fl (fl (a 0 * b 0) + fl (a 1 * b 1)) + fl (a 2 * b 2))) +
      (fl (fl (a 0 * b 0) + fl (a 1 * b 1)) - (a 0 * b 0 + a 1 * b 1)) +
      (fl (a 2 * b 2) - a 2 * b 2) := by unfold dot3; ring
  rw [e]
  refine (abs_add_three _ _ _).trans ?_
  have p0 := abs_nonneg (a 0 * b 0)
  have p1 := abs_nonneg (a 1 * b 1)
  have p2 := abs_nonneg (a 2 * b 2)
  norm_num [unit] at *
  linarith

end

/-- Cauchy–Schwarz with absolute values, three components. -/
theorem cs3 (a b : Vec 3) (P : ℝ) (hP : 0 ≤ P)
    (h : ((a 0) ^ 2 + (a 1) ^ 2 + (a 2) ^ 2) * ((b 0) ^ 2 + (b 1) ^ 2 + (b 2) ^ 2) ≤ P ^ 2) :
    |a 0 * b 0| + |a 1 * b 1| + |a 2 * b 2| ≤ P := by
  apply abs_le_of_sq_le_sq' _ hP |>.2
  refine le_trans ?_ h
  rw [abs_mul, abs_mul, abs_mul]
  rw [← sq_abs (a 0), ← sq_abs (a 1), ← sq_abs (a 2), ← sq_abs (b 0), ← sq_abs (b 1),
    ← sq_abs (b 2)]
  nlinarith [sq_nonneg (|a 0| * |b 1| - |a 1| * |b 0|), sq_nonneg (|a 0| * |b 2| - |a 2| * |b 0|),
    sq_nonneg (|a 1| * |b 2| - |a 2| * |b 1|)]

/-! ## Specification -/

/-- Input components of ordinary size: none above `1e70`, not all below `1e-70`. -/
def SpecSized {d : ℕ} (v : Vec d) : Prop := (∀ i, |v i| ≤ 10 ^ 70) ∧ ∃ i, 1 / 10 ^ 70 ≤ |v i|

/-- A unit vector up to eight units of `2⁻⁵³`. -/
def SpecUnit {d : ℕ} (v : Vec d) : Prop := ∑ i, (v i) ^ 2 ≤ (1 + 8 * (2 : ℝ) ^ (-53 : ℤ)) ^ 2

/-- A unit vector up to `2⁻⁴⁰`. -/
def SpecNearUnit {d : ℕ} (v : Vec d) : Prop := ∑ i, (v i) ^ 2 ≤ (1 + (2 : ℝ) ^ (-40 : ℤ)) ^ 2

theorem cross_component {fl : ℝ → ℝ} (hfl : IsRounding fl) {a b c d : ℝ}
    (h : (a ^ 2 + b ^ 2) * (c ^ 2 + d ^ 2) ≤ 1.001 ^ 2) :
    |fl (fl (a * c) - fl (b * d)) - (a * c - b * d)| ≤ 2.01 * unit := by
  have h1 := two_products hfl (a * c) (b * d) (-1) (by norm_num)
  have h2 := cs2 a b c d 1.001 (by norm_num) h
  have ht := tiny_pos
  have ht' := tiny_small
  rw [neg_one_mul, neg_one_mul, ← sub_eq_add_neg, ← sub_eq_add_neg] at h1
  refine h1.trans ?_
  norm_num [unit] at *
  linarith

theorem modulus3_le {fl : ℝ → ℝ} (hfl : IsRounding fl) (a b : System 3) (v : Vec 3)
    (ha : SpecNearUnit a.direction) (hb : SpecNearUnit b.direction)
    (ha' : SpecNearUnit a.normal) (hb' : SpecNearUnit b.normal) (hv : SpecNearUnit v)
    (h : |modulus lateral3 a b v| ≤ 1 - 1e-14) : |modulus3 fl a b v| ≤ 1 := by
  have ht := tiny_pos
  have ht' := tiny_small
  have sq : ∀ w : Vec 3, SpecNearUnit w → (w 0) ^ 2 + (w 1) ^ 2 + (w 2) ^ 2 ≤ 1.0000001 := by
    intro w hw
    unfold SpecNearUnit at hw
    rw [Fin.sum_univ_three] at hw
    refine hw.trans ?_
    norm_num
  have sa := sq _ ha
  have sb := sq _ hb
  have sa' := sq _ ha'
  have sb' := sq _ hb'
  have sv := sq _ hv
  -- directions
  have hD0 : |a.direction 0 * b.direction 0| + |a.direction 1 * b.direction 1| +
      |a.direction 2 * b.direction 2| ≤ 1.001 := by
    refine cs3 _ _ _ (by norm_num) ?_
    calc _ ≤ (1.0000001 : ℝ) * 1.0000001 := mul_le_mul sa sb (by positivity) (by norm_num)
      _ ≤ _ := by norm_num
  have hDe := dot3_err hfl a.direction b.direction
  have hDx : a.direction ⬝ᵥ b.direction = a.direction 0 * b.direction 0 +
      a.direction 1 * b.direction 1 + a.direction 2 * b.direction 2 := by
    rw [dotProduct, Fin.sum_univ_three]
  rw [← hDx] at hDe
  have hDb : |a.direction ⬝ᵥ b.direction| ≤ 1.001 := by
    rw [hDx]
    exact (abs_add_three _ _ _).trans hD0
  -- lateral factors
  have hC : ∀ m : Vec 3, (m 0) ^ 2 + (m 1) ^ 2 + (m 2) ^ 2 ≤ 1.0000001 →
      (∀ i, |cross3 fl m v i - cross m v i| ≤ 2.01 * unit) ∧
      (cross m v 0) ^ 2 + (cross m v 1) ^ 2 + (cross m v 2) ^ 2 ≤ 1.0001 := by
    intro m hmm
    have p0 := sq_nonneg (m 0)
    have p1 := sq_nonneg (m 1)
    have p2 := sq_nonneg (m 2)
    have q0 := sq_nonneg (v 0)
    have q1 := sq_nonneg (v 1)
    have q2 := sq_nonneg (v 2)
    have g : ∀ x y : ℝ, 0 ≤ x → 0 ≤ y → x ≤ 1.0000001 → y ≤ 1.0000001 → x * y ≤ 1.001 ^ 2 := by
      intro x y hx hy hx' hy'
      calc x * y ≤ 1.0000001 * 1.0000001 := mul_le_mul hx' hy' hy (by norm_num)
        _ ≤ _ := by norm_num
    refine ⟨?_, ?_⟩
    · intro i
      fin_cases i
      · exact cross_component hfl (g _ _ (by positivity) (by positivity) (by linarith) (by linarith))
      · exact cross_component hfl (g _ _ (by positivity) (by positivity) (by linarith) (by linarith))
      · exact cross_component hfl (g _ _ (by positivity) (by positivity) (by linarith) (by linarith))
    · have e : (cross m v 0) ^ 2 + (cross m v 1) ^ 2 + (cross m v 2) ^ 2 =
          ((m 0) ^ 2 + (m 1) ^ 2 + (m 2) ^ 2) * ((v 0) ^ 2 + (v 1) ^ 2 + (v 2) ^ 2) -
            (m 0 * v 0 + m 1 * v 1 + m 2 * v 2) ^ 2 := by
        simp only [cross, Matrix.cons_val_zero, Matrix.cons_val_one, Matrix.cons_val]
        ring
      rw [e]
      have : ((m 0) ^ 2 + (m 1) ^ 2 + (m 2) ^ 2) * ((v 0) ^ 2 + (v 1) ^ 2 + (v 2) ^ 2) ≤
          1.0000001 * 1.0000001 := mul_le_mul hmm sv (by positivity) (by norm_num)
      have h2 := sq_nonneg (m 0 * v 0 + m 1 * v 1 + m 2 * v 2)
      norm_num at *
      linarith
  obtain ⟨ea, na⟩ := hC _ sa'
  obtain ⟨eb, nb⟩ := hC _ sb'
  set c := cross a.normal v
  set d := cross b.normal v
  set c' := cross3 fl a.normal v
  set d' := cross3 fl b.normal v
  have one : ∀ w : Vec 3, (w 0) ^ 2 + (w 1) ^ 2 + (w 2) ^ 2 ≤ 1.0001 → ∀ i, |w i| ≤ 1.01 := by
    intro w hw i
    apply abs_le_of_sq_le_sq _ (by norm_num)
    have p0 := sq_nonneg (w 0)
    have p1 := sq_nonneg (w 1)
    have p2 := sq_nonneg (w 2)
    fin_cases i
    · show w 0 ^ 2 ≤ 1.01 ^ 2
      norm_num at *
      linarith
    · show w 1 ^ 2 ≤ 1.01 ^ 2
      norm_num at *
      linarith
    · show w 2 ^ 2 ≤ 1.01 ^ 2
      norm_num at *
      linarith
  have ca := one c na
  have cb := one d nb
  have diff : ∀ i, |c' i * d' i - c i * d i| ≤ 4.1 * unit := by
    intro i
    have e : c' i * d' i - c i * d i = (c' i - c i) * d i + c i * (d' i - d i) +
        (c' i - c i) * (d' i - d i) := by ring
    rw [e]
    refine (abs_add_three _ _ _).trans ?_
    rw [abs_mul, abs_mul, abs_mul]
    have h1 := mul_le_mul (ea i) (cb i) (abs_nonneg _) (by norm_num [unit])
    have h2 := mul_le_mul (ca i) (eb i) (abs_nonneg _) (by norm_num)
    have h3 := mul_le_mul (ea i) (eb i) (abs_nonneg _) (by norm_num [unit])
    norm_num [unit] at *
    linarith
  have hcd : |c 0 * d 0| + |c 1 * d 1| + |c 2 * d 2| ≤ 1.001 := by
    refine cs3 _ _ _ (by norm_num) ?_
    calc _ ≤ (1.0001 : ℝ) * 1.0001 := mul_le_mul na nb (by positivity) (by norm_num)
      _ ≤ _ := by norm_num
  have hMe := dot3_err hfl c' d'
  have hMx : c ⬝ᵥ d = c 0 * d 0 + c 1 * d 1 + c 2 * d 2 := by
    rw [dotProduct, Fin.sum_univ_three]
  have hMb : |c ⬝ᵥ d| ≤ 1.001 := by
    rw [hMx]
    exact (abs_add_three _ _ _).trans hcd
  have hM : |dot3 fl c' d' - c ⬝ᵥ d| ≤ 16 * unit := by
    have s0 := abs_sub_abs_le_abs_sub (c' 0 * d' 0) (c 0 * d 0)
    have s1 := abs_sub_abs_le_abs_sub (c' 1 * d' 1) (c 1 * d 1)
    have s2 := abs_sub_abs_le_abs_sub (c' 2 * d' 2) (c 2 * d 2)
    have d0 := diff 0
    have d1 := diff 1
    have d2 := diff 2
    have e : dot3 fl c' d' - c ⬝ᵥ d =
        (dot3 fl c' d' - (c' 0 * d' 0 + c' 1 * d' 1 + c' 2 * d' 2)) +
        ((c' 0 * d' 0 - c 0 * d 0) + (c' 1 * d' 1 - c 1 * d 1) + (c' 2 * d' 2 - c 2 * d 2)) := by
      rw [hMx]
      ring
    rw [e]
    have t1 := abs_add_le (dot3 fl c' d' - (c' 0 * d' 0 + c' 1 * d' 1 + c' 2 * d' 2))
      ((c' 0 * d' 0 - c 0 * d 0) + (c' 1 * d' 1 - c 1 * d 1) + (c' 2 * d' 2 - c 2 * d 2))
    have t2 := abs_add_three (c' 0 * d' 0 - c 0 * d 0) (c' 1 * d' 1 - c 1 * d 1)
      (c' 2 * d' 2 - c 2 * d 2)
    norm_num [unit] at *
    linarith
  have hD : |dot3 fl a.direction b.direction - a.direction ⬝ᵥ b.direction| ≤ 3.2 * unit := by
    norm_num [unit] at *
    linarith
  have hmod : modulus lateral3 a b v = (a.direction ⬝ᵥ b.direction) * (c ⬝ᵥ d) := rfl
  have hmod3 : modulus3 fl a b v = fl (dot3 fl a.direction b.direction * dot3 fl c' d') := rfl
  rw [hmod] at h
  rw [hmod3]
  generalize dot3 fl a.direction b.direction = D' at *
  generalize a.direction ⬝ᵥ b.direction = D at *
  generalize dot3 fl c' d' = M' at *
  generalize c ⬝ᵥ d = M at *
  have hp : |D' * M'| ≤ 1 - 1e-14 + 20 * unit := by
    have e : D' * M' = D * M + ((D' - D) * M + D * (M' - M) + (D' - D) * (M' - M)) := by ring
    rw [e]
    have t1 := abs_add_le (D * M) ((D' - D) * M + D * (M' - M) + (D' - D) * (M' - M))
    have t2 := abs_add_three ((D' - D) * M) (D * (M' - M)) ((D' - D) * (M' - M))
    rw [abs_mul (D' - D), abs_mul D (M' - M), abs_mul (D' - D)] at t2
    have h1 := mul_le_mul hD hMb (abs_nonneg _) (by norm_num [unit])
    have h2 := mul_le_mul hDb hM (abs_nonneg _) (by norm_num)
    have h3 := mul_le_mul hD hM (abs_nonneg _) (by norm_num [unit])
    norm_num [unit] at *
    linarith
  have hf := fl_abs hfl (D' * M')
  norm_num [unit] at *
  linarith

/-! ## C108 -/

/-- C108, two dimensions: whatever the rounding of ties, for all slip systems the reader accepts,
all orientations of the two crystals and all normals of the grain boundary, the range check of the
interaction moduli never throws. -/
theorem C108_plane {fl cosf sinf : ℝ → ℝ} (hfl : IsRounding fl) (hm : IsLibm cosf sinf)
    (inverse : Bool) {n : ℕ} (direction normal : Fin n → Vec 2)
    (hd : ∀ k, SpecSized (direction k)) (hn : ∀ k, SpecSized (normal k))
    (ref : Fin n → System 2)
    (href : ∀ k, readSystem2 fl inverse (direction k) (normal k) = .ok (ref k))
    (angle angle' : ℝ) (normals : List (Vec 2)) (hnormals : ∀ v ∈ normals, SpecUnit v) :
    Passes2 fl (fun k => rotateSystem2 fl (rotation2 fl cosf sinf angle) (ref k))
      (fun k => rotateSystem2 fl (rotation2 fl cosf sinf angle') (ref k)) normals := by
  have hs : ∀ k, (ref k).direction 0 ^ 2 + (ref k).direction 1 ^ 2 ≤ (1 + 4.5 * unit) ^ 2 ∧
      (ref k).normal 0 ^ 2 + (ref k).normal 1 ^ 2 ≤ (1 + 4.5 * unit) ^ 2 := by
    intro k
    have h := href k
    unfold readSystem2 at h
    by_cases ho : |dot2 fl (normal k) (direction k)| ≤ dblEpsilon
    · rw [if_pos ho] at h
      rcases h1 : normalize2 fl inverse (normal k) with _ | m
      · simp only [h1] at h
        cases h
      rcases h2 : normalize2 fl inverse (direction k) with _ | s
      · simp only [h1, h2] at h
        cases h
      simp only [h1, h2] at h
      have hk : ref k = ⟨s, m, 0⟩ := (Read.ok.inj h).symm
      rw [hk]
      exact ⟨normalize2_norm hfl inverse _ _ (hd k).1 (hd k).2 h2,
        normalize2_norm hfl inverse _ _ (hn k).1 (hn k).2 h1⟩
    · rw [if_neg ho] at h
      cases h
  have hr := fun (a : ℝ) k => And.intro (rotate2_norm hfl hm a _ (hs k).1)
    (rotate2_norm hfl hm a _ (hs k).2)
  intro nrm hnrm α β
  have hv : (nrm 0) ^ 2 + (nrm 1) ^ 2 ≤ (1 + 8 * unit) ^ 2 := by
    have := hnormals nrm hnrm
    unfold SpecUnit at this
    rw [Fin.sum_univ_two, ← unit_eq] at this
    exact this
  exact ⟨modulus2_accepted hfl _ _ _ (hr angle α).1 (hr angle β).1 (hr angle α).2 (hr angle β).2 hv,
    modulus2_accepted hfl _ _ _ (hr angle α).1 (hr angle' β).1 (hr angle α).2 (hr angle' β).2 hv⟩

theorem exact_libm : IsLibm Real.cos Real.sin :=
  ⟨fun _ => by rw [sub_self, abs_zero]; positivity, fun _ => by rw [sub_self, abs_zero]; positivity,
    Real.cos_zero, Real.sin_zero⟩

theorem fl_int {fl : ℝ → ℝ} (hfl : IsRounding fl) (k : ℤ) (hk : |k| ≤ 2 ^ 53) :
    fl (k : ℝ) = k := fl_double hfl ⟨k, 0, hk, by norm_num, by norm_num⟩

/-- The stored component of the direction `3, 3, 0`. -/
noncomputable def stored : ℝ := 6369051672525773 / 9007199254740992

section
variable {fl : ℝ → ℝ} (hfl : IsRounding fl)
include hfl

theorem fl_zero : fl 0 = 0 := by simpa using fl_int hfl 0 (by norm_num)
theorem fl_one : fl 1 = 1 := by simpa using fl_int hfl 1 (by norm_num)
theorem fl_three : fl 3 = 3 := by simpa using fl_int hfl 3 (by norm_num)
theorem fl_neg_three : fl (-3) = -3 := by simpa using fl_int hfl (-3) (by norm_num)
theorem fl_nine : fl 9 = 9 := by simpa using fl_int hfl 9 (by norm_num)
theorem fl_eighteen : fl 18 = 18 := by simpa using fl_int hfl 18 (by norm_num)

/-- `std::sqrt(18.0)`. -/
theorem fl_root : fl √18 = 4776788754394329 / 1125899906842624 := by
  have h := fl_eq hfl (x := √18) 4776788754394329 (-50) (by norm_num) (by norm_num) (by norm_num) ?_
  · rw [h]
    norm_num
  · rw [abs_lt]
    have h1 : (4776788754394329 * (2 : ℝ) ^ (-50 : ℤ) - 2 ^ (-50 : ℤ) / 2) < √18 := by
      apply Real.lt_sqrt_of_sq_lt
      norm_num
    have h2 : √18 < 4776788754394329 * (2 : ℝ) ^ (-50 : ℤ) + 2 ^ (-50 : ℤ) / 2 := by
      rw [Real.sqrt_lt' (by norm_num)]
      norm_num
    push_cast
    constructor <;> linarith

theorem quotient_three (inverse : Bool) :
    quotient fl inverse 3 (4776788754394329 / 1125899906842624) = stored := by
  cases inverse
  · simp only [quotient, Bool.false_eq_true, if_false]
    have h := fl_eq hfl (x := 3 / (4776788754394329 / 1125899906842624)) 6369051672525773 (-53)
      (by norm_num) (by norm_num) (by norm_num) (by rw [abs_lt]; constructor <;> norm_num)
    rw [h]
    norm_num [stored]
  · simp only [quotient, if_true]
    have h := fl_eq hfl (x := 1 / (4776788754394329 / 1125899906842624)) 8492068896701031 (-55)
      (by norm_num) (by norm_num) (by norm_num) (by rw [abs_lt]; constructor <;> norm_num)
    rw [h]
    have h := fl_eq hfl (x := 3 * (((8492068896701031 : ℤ) : ℝ) * (2 : ℝ) ^ (-55 : ℤ)))
      6369051672525773 (-53)
      (by norm_num) (by norm_num) (by norm_num) (by rw [abs_lt]; constructor <;> norm_num)
    rw [h]
    norm_num [stored]

theorem quotient_zero (inverse : Bool) (n : ℝ) : quotient fl inverse 0 n = 0 := by
  cases inverse <;> simp [quotient, fl_zero hfl]

theorem quotient_one (inverse : Bool) : quotient fl inverse 1 1 = 1 := by
  cases inverse <;> simp [quotient, fl_one hfl]

theorem stored_sq : fl (stored * stored) = 4503599627370497 / 9007199254740992 := by
  have h := fl_eq hfl (x := stored * stored) 4503599627370497 (-53)
      (by norm_num) (by norm_num) (by norm_num) (by rw [abs_lt]; constructor <;> norm_num [stored])
  rw [h]
  norm_num

theorem stored_dot : fl (4503599627370497 / 9007199254740992 + 4503599627370497 / 9007199254740992)
    = 4503599627370497 / 4503599627370496 :=
  (fl_double hfl ⟨4503599627370497, -52, by norm_num, by norm_num, by norm_num⟩).trans
    (by norm_num)

theorem fl_over : fl (4503599627370497 / 4503599627370496) = 4503599627370497 / 4503599627370496 :=
  fl_double hfl ⟨4503599627370497, -52, by norm_num, by norm_num, by norm_num⟩

end

/-- The hypotheses of `C108_plane` are met: direction `1, 0`, normal `0, 1`, crystals at 30 and 75
degrees, a grain boundary with normal `0.6, 0.8`, rounding to the nearest multiple. -/
example : ∃ ref : Fin 1 → System 2,
    (∀ k : Fin 1, readSystem2 nearestMultiple true ![1, 0] ![0, 1] = .ok (ref k)) ∧
    Passes2 nearestMultiple
      (fun k => rotateSystem2 nearestMultiple (rotation2 nearestMultiple Real.cos Real.sin 30) (ref k))
      (fun k => rotateSystem2 nearestMultiple (rotation2 nearestMultiple Real.cos Real.sin 75) (ref k))
      [![0.6, 0.8]] := by
  have hfl := nearestMultiple_rounding
  have z := fl_zero hfl
  have o := fl_one hfl
  have hn : normalize2 nearestMultiple true ![(0 : ℝ), 1] = some ![0, 1] := by
    have e : dot2 nearestMultiple ![(0 : ℝ), 1] ![0, 1] = 1 := by simp [dot2, z, o]
    unfold normalize2
    rw [e, Real.sqrt_one, o, if_neg (by norm_num)]
    congr 1
    funext i
    fin_cases i
    · exact quotient_zero hfl _ _
    · exact quotient_one hfl _
  have hs : normalize2 nearestMultiple true ![(1 : ℝ), 0] = some ![1, 0] := by
    have e : dot2 nearestMultiple ![(1 : ℝ), 0] ![1, 0] = 1 := by simp [dot2, z, o]
    unfold normalize2
    rw [e, Real.sqrt_one, o, if_neg (by norm_num)]
    congr 1
    funext i
    fin_cases i
    · exact quotient_one hfl _
    · exact quotient_zero hfl _ _
  have href : ∀ _ : Fin 1, readSystem2 nearestMultiple true ![1, 0] ![0, 1] =
      .ok ⟨![1, 0], ![0, 1], 0⟩ := by
    intro _
    have e : dot2 nearestMultiple ![(0 : ℝ), 1] ![1, 0] = 0 := by simp [dot2, z]
    unfold readSystem2
    rw [e, if_pos (by norm_num [dblEpsilon]), hn, hs]
  refine ⟨fun _ => ⟨![1, 0], ![0, 1], 0⟩, href, ?_⟩
  refine C108_plane hfl exact_libm true (fun _ => ![1, 0]) (fun _ => ![0, 1]) ?_ ?_ _ href 30 75 _ ?_
  · refine fun _ => ⟨fun i => ?_, 0, by norm_num⟩
    fin_cases i <;> norm_num
  · refine fun _ => ⟨fun i => ?_, 1, by norm_num⟩
    fin_cases i <;> norm_num
  · intro v hv
    rw [List.mem_singleton.mp hv]
    unfold SpecUnit
    rw [Fin.sum_univ_two]
    norm_num

/-- C108 fails in three dimensions.  The slip system with direction `3, 3, 0` and normal `0, 0, 1` is
accepted by the reader.  In the crystal with Euler angles zero the grain boundary with normal
`1, 0, 0` gives, in double precision, the modulus `1 + 2⁻⁵²`, and `get_grain_interaction_moduli`
throws, whatever the neighbouring crystal.  In exact arithmetic the modulus is `1` and would be
accepted. -/
theorem C108_violated {fl cosf sinf : ℝ → ℝ} (hfl : IsRounding fl) (hm : IsLibm cosf sinf)
    (inverse : Bool) :
    ∃ s : System 3, readSystem3 fl inverse ![3, 3, 0] ![0, 0, 1] = .ok s ∧
      (∀ nb : Crystal 3 1,
        ¬ Passes3 fl (fun _ : Fin 1 => rotateSystem3 fl (rotation3 fl cosf sinf ![0, 0, 0]) s) nb
          [![1, 0, 0]]) ∧
      ∃ e : System 3, Cry.readSystem3 ![3, 3, 0] ![0, 0, 1] = .ok e ∧
        modulus lateral3 (rotateSystem (Cry.rotation3 ![0, 0, 0]) e)
          (rotateSystem (Cry.rotation3 ![0, 0, 0]) e) ![1, 0, 0] = 1 := by
  have hd : dot3 fl ![0, 0, 1] ![3, 3, 0] = 0 := by
    simp [dot3, fl_zero hfl]
  have hnn : dot3 fl ![(0 : ℝ), 0, 1] ![0, 0, 1] = 1 := by
    simp [dot3, fl_zero hfl, fl_one hfl]
  have hss : dot3 fl ![(3 : ℝ), 3, 0] ![3, 3, 0] = 18 := by
    have e1 : (3 : ℝ) * 3 = 9 := by norm_num
    have e2 : (9 : ℝ) + 9 = 18 := by norm_num
    simp [dot3, fl_zero hfl, e1, fl_nine hfl, e2, fl_eighteen hfl]
  have hcr : cross3 fl ![(0 : ℝ), 0, 1] ![3, 3, 0] = ![-3, 3, 0] := by
    simp [cross3, fl_zero hfl, fl_three hfl, fl_neg_three hfl]
  have hcc : dot3 fl ![(-3 : ℝ), 3, 0] ![-3, 3, 0] = 18 := by
    have e1 : (3 : ℝ) * 3 = 9 := by norm_num
    have e2 : (9 : ℝ) + 9 = 18 := by norm_num
    simp [dot3, fl_zero hfl, e1, fl_nine hfl, e2, fl_eighteen hfl]
  have hn : normalize3 fl inverse ![(0 : ℝ), 0, 1] = some ![0, 0, 1] := by
    unfold normalize3
    rw [hnn, Real.sqrt_one, fl_one hfl, if_neg (by norm_num)]
    congr 1
    funext i
    fin_cases i
    · exact quotient_zero hfl _ _
    · exact quotient_zero hfl _ _
    · exact quotient_one hfl _
  have hs : normalize3 fl inverse ![(3 : ℝ), 3, 0] = some ![stored, stored, 0] := by
    unfold normalize3
    rw [hss, fl_root hfl, if_neg (by norm_num)]
    congr 1
    funext i
    fin_cases i
    · exact quotient_three hfl _
    · exact quotient_three hfl _
    · exact quotient_zero hfl _ _
  obtain ⟨l, hl⟩ : ∃ l, normalize3 fl inverse (cross3 fl ![(0 : ℝ), 0, 1] ![3, 3, 0]) = some l := by
    unfold normalize3
    rw [hcr, hcc, fl_root hfl, if_neg (by norm_num)]
    exact ⟨_, rfl⟩
  have hstored : fl stored = stored :=
    fl_double hfl ⟨6369051672525773, -53, by norm_num, by norm_num, by norm_num [stored]⟩
  have hrad : radians fl 0 = 0 := by simp [radians, fl_zero hfl]
  have hZ : rotZ cosf sinf 0 = 1 := by
    ext i j
    fin_cases i <;> fin_cases j <;> simp [rotZ, hm.cos_zero, hm.sin_zero]
  have hX : rotX cosf sinf 0 = 1 := by
    ext i j
    fin_cases i <;> fin_cases j <;> simp [rotX, hm.cos_zero, hm.sin_zero]
  have hmul : mul3 fl 1 1 = 1 := by
    ext i j
    fin_cases i <;> fin_cases j <;> simp [mul3, dot3, fl_zero hfl, fl_one hfl]
  have hrot : rotation3 fl cosf sinf ![0, 0, 0] = 1 := by
    show mul3 fl (mul3 fl (rotZ cosf sinf (radians fl 0)) (rotX cosf sinf (radians fl 0)))
      (rotZ cosf sinf (radians fl 0)) = 1
    rw [hrad, hZ, hX, hmul, hmul]
  have hone : ∀ v : Vec 3, (∀ i, fl (v i) = v i) → (fun i => dot3 fl ((1 : Mat 3) i) v) = v := by
    intro v hv
    funext i
    fin_cases i
    · show fl (fl (fl ((1 : Mat 3) 0 0 * v 0) + fl ((1 : Mat 3) 0 1 * v 1)) +
        fl ((1 : Mat 3) 0 2 * v 2)) = v 0
      simp [fl_zero hfl, hv]
    · show fl (fl (fl ((1 : Mat 3) 1 0 * v 0) + fl ((1 : Mat 3) 1 1 * v 1)) +
        fl ((1 : Mat 3) 1 2 * v 2)) = v 1
      simp [fl_zero hfl, hv]
    · show fl (fl (fl ((1 : Mat 3) 2 0 * v 0) + fl ((1 : Mat 3) 2 1 * v 1)) +
        fl ((1 : Mat 3) 2 2 * v 2)) = v 2
      simp [fl_zero hfl, hv]
  refine ⟨⟨![stored, stored, 0], ![0, 0, 1], l⟩, ?_, ?_, ?_⟩
  · unfold readSystem3
    rw [hd, hn, hs, hl, if_pos (by norm_num [dblEpsilon])]
  · intro nb hp
    have h := (hp ![1, 0, 0] (by simp) 0 0).1.2
    have e1 : (fun i => dot3 fl ((1 : Mat 3) i) ![stored, stored, 0]) = ![stored, stored, 0] := by
      apply hone
      intro i
      fin_cases i
      · exact hstored
      · exact hstored
      · exact fl_zero hfl
    have e2 : (fun i => dot3 fl ((1 : Mat 3) i) ![(0 : ℝ), 0, 1]) = ![0, 0, 1] := by
      apply hone
      intro i
      fin_cases i
      · exact fl_zero hfl
      · exact fl_zero hfl
      · exact fl_one hfl
    have e3 : cross3 fl ![(0 : ℝ), 0, 1] ![1, 0, 0] = ![0, 1, 0] := by
      simp [cross3, fl_zero hfl, fl_one hfl]
    have e4 : dot3 fl ![(0 : ℝ), 1, 0] ![0, 1, 0] = 1 := by
      simp [dot3, fl_zero hfl, fl_one hfl]
    have e5 : dot3 fl ![stored, stored, 0] ![stored, stored, 0] =
        4503599627370497 / 4503599627370496 := by
      simp only [dot3, Matrix.cons_val_zero, Matrix.cons_val_one, Matrix.cons_val, mul_zero]
      rw [stored_sq hfl, fl_zero hfl, stored_dot hfl, add_zero, fl_over hfl]
    simp only [rotateSystem3, modulus3, hrot, e1, e2, e3, e4, e5, mul_one] at h
    rw [fl_over hfl] at h
    norm_num at h
  · have q18 : (√18 : ℝ) ≠ 0 := by positivity
    have e18 : √18 * √18 = (18 : ℝ) := Real.mul_self_sqrt (by norm_num)
    have n1 : norm2 ![(0 : ℝ), 0, 1] = 1 := by
      simp [norm2, dotProduct, Fin.sum_univ_three]
    have n2 : norm2 ![(3 : ℝ), 3, 0] = √18 := by
      unfold norm2
      congr 1
      simp [dotProduct, Fin.sum_univ_three]
      norm_num
    have c3 : cross ![(0 : ℝ), 0, 1] ![3, 3, 0] = ![-3, 3, 0] := by simp [cross]
    have n3 : norm2 ![(-3 : ℝ), 3, 0] = √18 := by
      unfold norm2
      congr 1
      simp [dotProduct, Fin.sum_univ_three]
      norm_num
    have hr : Cry.rotation3 ![0, 0, 0] = 1 := by
      ext i j
      fin_cases i <;> fin_cases j <;>
        simp [Cry.rotation3, Cry.rotZ, Cry.rotX, Matrix.mul_apply, Fin.sum_univ_three]
    refine ⟨⟨fun i => ![(3 : ℝ), 3, 0] i / √18, fun i => ![(0 : ℝ), 0, 1] i / 1,
      fun i => ![(-3 : ℝ), 3, 0] i / √18⟩, ?_, ?_⟩
    · unfold Cry.readSystem3
      have ho : orthogonalityCheck ![(0 : ℝ), 0, 1] ![3, 3, 0] := by
        simp [orthogonalityCheck, dblEpsilon, dotProduct, Fin.sum_univ_three]
      rw [if_pos ho]
      simp only [Cry.normalize, n1, n2, n3, c3, if_neg q18, one_ne_zero, if_false]
    · rw [hr]
      simp only [modulus, rotateSystem, Matrix.one_mulVec, lateral3]
      have e1 : (fun i => ![(3 : ℝ), 3, 0] i / √18) ⬝ᵥ (fun i => ![(3 : ℝ), 3, 0] i / √18) = 1 := by
        simp only [dotProduct, Fin.sum_univ_three, Matrix.cons_val_zero, Matrix.cons_val_one,
          Matrix.cons_val]
        field_simp
        rw [Real.sq_sqrt (by norm_num)]
        norm_num
      rw [e1]
      simp [cross, dotProduct, Fin.sum_univ_three]

/-- There are roundings and libraries as `C108_violated` asks. -/
example : IsRounding nearestMultiple ∧ IsLibm Real.cos Real.sin :=
  ⟨nearestMultiple_rounding, exact_libm⟩

/-- C108, three dimensions, as far as it holds: for stored vectors that are unit vectors up to
`2⁻⁴⁰`, the check accepts every modulus whose exact value is at most `1 - 1e-14`.  It can throw only
where two slip systems are parallel and their planes are perpendicular to the grain boundary up to
that accuracy. -/
theorem C108_space_partial {fl : ℝ → ℝ} (hfl : IsRounding fl) {n : ℕ} (cur nb : Crystal 3 n)
    (normals : List (Vec 3))
    (hcur : ∀ α, SpecNearUnit (cur α).direction ∧ SpecNearUnit (cur α).normal)
    (hnb : ∀ α, SpecNearUnit (nb α).direction ∧ SpecNearUnit (nb α).normal)
    (hnormals : ∀ v ∈ normals, SpecNearUnit v)
    (hintra : ∀ v ∈ normals, ∀ α β, |intra lateral3 cur v α β| ≤ 1 - 1e-14)
    (hinter : ∀ v ∈ normals, ∀ α β, |inter lateral3 cur nb v α β| ≤ 1 - 1e-14) :
    Passes3 fl cur nb normals := by
  intro v hv α β
  have hvn := hnormals v hv
  exact ⟨⟨abs_nonneg _, modulus3_le hfl _ _ _ (hcur α).1 (hcur β).1 (hcur α).2 (hcur β).2 hvn
      (hintra v hv α β)⟩,
    ⟨abs_nonneg _, modulus3_le hfl _ _ _ (hcur α).1 (hnb β).1 (hcur α).2 (hnb β).2 hvn
      (hinter v hv α β)⟩⟩

/-- The hypotheses of `C108_space_partial` are met: direction `1, 0, 0`, normal `0, 1, 0` in both
crystals, a grain boundary with normal `0.6, 0.8, 0`; the modulus is `0.36`. -/
example : Passes3 nearestMultiple (fun _ : Fin 1 => ⟨![1, 0, 0], ![0, 1, 0], ![0, 0, -1]⟩)
    (fun _ : Fin 1 => ⟨![1, 0, 0], ![0, 1, 0], ![0, 0, -1]⟩) [![0.6, 0.8, 0]] := by
  have hs : SpecNearUnit ![(1 : ℝ), 0, 0] ∧ SpecNearUnit ![(0 : ℝ), 1, 0] := by
    constructor <;>
      (unfold SpecNearUnit
       rw [Fin.sum_univ_three]
       simp only [Matrix.cons_val_zero, Matrix.cons_val_one, Matrix.cons_val]
       norm_num)
  refine C108_space_partial nearestMultiple_rounding _ _ _ (fun _ => hs) (fun _ => hs) ?_ ?_ ?_
  · intro v hv
    rw [List.mem_singleton.mp hv]
    unfold SpecNearUnit
    rw [Fin.sum_univ_three]
    simp only [Matrix.cons_val_zero, Matrix.cons_val_one, Matrix.cons_val]
    norm_num
  all_goals
    intro v hv α β
    rw [List.mem_singleton.mp hv]
    simp only [intra, inter, modulus, lateral3, cross, dotProduct, Fin.sum_univ_three, Matrix.cons_val_zero,
      Matrix.cons_val_one, Matrix.cons_val]
    norm_num [abs_le]

end Verif.Fp
