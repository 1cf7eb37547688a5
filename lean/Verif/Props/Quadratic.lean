import Verif.Props.Newton
import Mathlib.Analysis.Calculus.Deriv.MeanValue
import Mathlib.Analysis.SpecificLimits.Basic

/-!
# Convergence of the Newton loop: C116, C117
-/

namespace Verif.Lin
open Verif.Sol Verif.LS Verif.Drv Finset

variable {N : ℕ}

/-! ## Specification -/

/-- Distance of two trial solutions. -/
noncomputable def SpecDistance (p : Problem N) (x y : ℕ → ℝ) : ℝ := √(∑ d ∈ range p.n, (x d - y d) ^ 2)

/-- The entry of unknown `r` in the change of the residual along `u` that the assembled matrix predicts, up to
the sign: the matrix between `u` and the admissible variation that belongs to `r`. -/
noncomputable def SpecRate (p : Problem N) (x u : ℕ → ℝ) (r : ℕ) : ℝ :=
  SpecTangent (p.cells x) (unit p.internal r) u

/-- Around the start value `x₀`, up to the distance `ρ`, the assembled matrix is the derivative of the residual
(C50, C68), changes with the trial solution at most at the rate `L`, and is regular: an update is at most `M` times
as long as the residual it corrects. The linear solver is exact there. -/
structure SpecSmooth (p : Problem N) (x₀ : ℕ → ℝ) (ρ M L : ℝ) : Prop where
  homogeneous : Homogeneous p.internal p.n
  closed : Closed p.aff
  numbered : ∀ x, Numbered (p.cells x) p.n
  /-- Newton updates keep the boundary values -/
  admissible : ∀ x u, Satisfies p.aff x → Satisfies p.internal u → Satisfies p.aff fun d => x d + u d
  derivative : ∀ x u, Satisfies p.aff x → SpecDistance p x x₀ ≤ ρ → Satisfies p.internal u → ∀ r < p.n,
    HasDerivAt (fun t : ℝ => p.resid (fun d => x d + t * u d) r) (-SpecRate p x u r) 0
  lipschitz : ∀ x y u, Satisfies p.aff x → Satisfies p.aff y → SpecDistance p x x₀ ≤ ρ → SpecDistance p y x₀ ≤ ρ →
    Satisfies p.internal u →
    p.total (fun r => SpecRate p x u r - SpecRate p y u r) ≤ L * SpecDistance p x y * p.total u
  regular : ∀ x u, Satisfies p.aff x → SpecDistance p x x₀ ≤ ρ → Satisfies p.internal u →
    p.total u ≤ M * p.total (SpecRate p x u)
  exact : ∀ x, Satisfies p.aff x → SpecDistance p x x₀ ≤ ρ → SolvesAll p.internal (p.cells x) p.n (p.all (p.cells x))
  L_nonneg : 0 ≤ L
  M_nonneg : 0 ≤ M

/-- The same without a derivative: around `x₀` the assembled matrix predicts the change of the residual up to
`δ` times the length of the step and up to a quadratic error, and is regular. -/
structure SpecClose (p : Problem N) (x₀ : ℕ → ℝ) (ρ δ M L : ℝ) : Prop where
  homogeneous : Homogeneous p.internal p.n
  closed : Closed p.aff
  numbered : ∀ x, Numbered (p.cells x) p.n
  admissible : ∀ x u, Satisfies p.aff x → Satisfies p.internal u → Satisfies p.aff fun d => x d + u d
  predicts : ∀ x u, Satisfies p.aff x → Satisfies p.internal u → SpecDistance p x x₀ ≤ ρ →
    SpecDistance p (fun d => x d + u d) x₀ ≤ ρ →
    p.total (fun r => p.resid (fun d => x d + u d) r - p.resid x r + SpecRate p x u r) ≤
      δ * p.total u + L / 2 * p.total u ^ 2
  regular : ∀ x u, Satisfies p.aff x → SpecDistance p x x₀ ≤ ρ → Satisfies p.internal u →
    p.total u ≤ M * p.total (SpecRate p x u)
  exact : ∀ x, Satisfies p.aff x → SpecDistance p x x₀ ≤ ρ → SolvesAll p.internal (p.cells x) p.n (p.all (p.cells x))
  δ_nonneg : 0 ≤ δ
  L_nonneg : 0 ≤ L
  M_nonneg : 0 ≤ M

/-! ## Helpers: lengths -/

theorem total_nonneg (p : Problem N) (w : ℕ → ℝ) : 0 ≤ p.total w := Real.sqrt_nonneg _

theorem total_sq (p : Problem N) (w : ℕ → ℝ) : p.total w ^ 2 = ∑ d ∈ range p.n, w d ^ 2 :=
  Real.sq_sqrt (sum_nonneg fun _ _ => sq_nonneg _)

theorem total_cauchy (p : Problem N) (a b : ℕ → ℝ) :
    |∑ d ∈ range p.n, a d * b d| ≤ p.total a * p.total b := by
  refine abs_le_of_sq_le_sq ?_ (mul_nonneg (total_nonneg p a) (total_nonneg p b))
  rw [mul_pow, total_sq, total_sq]
  exact sum_mul_sq_le_sq_mul_sq _ _ _

theorem total_congr (p : Problem N) {a b : ℕ → ℝ} (h : ∀ d < p.n, a d = b d) : p.total a = p.total b := by
  unfold Problem.total
  rw [sum_congr rfl fun d hd => by rw [h d (mem_range.1 hd)]]

theorem total_add (p : Problem N) (a b : ℕ → ℝ) : p.total (fun d => a d + b d) ≤ p.total a + p.total b := by
  refine abs_le_of_sq_le_sq' ?_ (add_nonneg (total_nonneg p a) (total_nonneg p b)) |>.2
  have h := le_of_abs_le (total_cauchy p a b)
  have e : p.total (fun d => a d + b d) ^ 2 = p.total a ^ 2 + p.total b ^ 2 + 2 * ∑ d ∈ range p.n, a d * b d := by
    rw [total_sq, total_sq, total_sq, Finset.mul_sum, ← sum_add_distrib, ← sum_add_distrib]
    exact sum_congr rfl fun d _ => by ring
  rw [e]
  nlinarith

theorem total_smul (p : Problem N) (t : ℝ) (a : ℕ → ℝ) : p.total (fun d => t * a d) = |t| * p.total a := by
  have e : p.total (fun d => t * a d) ^ 2 = (|t| * p.total a) ^ 2 := by
    rw [mul_pow, sq_abs, total_sq, total_sq, Finset.mul_sum]
    exact sum_congr rfl fun d _ => by ring
  exact (pow_left_inj₀ (total_nonneg p _) (mul_nonneg (abs_nonneg t) (total_nonneg p a)) two_ne_zero).1 e

theorem distance_eq (p : Problem N) (x y : ℕ → ℝ) : SpecDistance p x y = p.total fun d => x d - y d := rfl

theorem distance_triangle (p : Problem N) (x y z : ℕ → ℝ) :
    SpecDistance p x z ≤ SpecDistance p x y + SpecDistance p y z := by
  rw [distance_eq, distance_eq, distance_eq]
  refine le_trans (le_of_eq (total_congr p fun d _ => ?_)) (total_add p _ _)
  ring

theorem distance_self (p : Problem N) (x : ℕ → ℝ) : SpecDistance p x x = 0 := by
  unfold SpecDistance; simp

theorem distance_comm (p : Problem N) (x y : ℕ → ℝ) : SpecDistance p x y = SpecDistance p y x := by
  unfold SpecDistance
  rw [sum_congr rfl fun d _ => by rw [← neg_sub, neg_sq]]

theorem distance_step (p : Problem N) (x u : ℕ → ℝ) (t : ℝ) :
    SpecDistance p (fun d => x d + t * u d) x = |t| * p.total u := by
  rw [distance_eq, ← total_smul]
  exact total_congr p fun d _ => by ring

/-- Points between two points of a ball are in the ball. -/
theorem distance_segment (p : Problem N) {x u z : ℕ → ℝ} {ρ t : ℝ} (h0 : SpecDistance p x z ≤ ρ)
    (h1 : SpecDistance p (fun d => x d + u d) z ≤ ρ) (ht0 : 0 ≤ t) (ht1 : t ≤ 1) :
    SpecDistance p (fun d => x d + t * u d) z ≤ ρ := by
  have e : SpecDistance p (fun d => x d + t * u d) z ≤
      (1 - t) * SpecDistance p x z + t * SpecDistance p (fun d => x d + u d) z := by
    rw [distance_eq, distance_eq, distance_eq]
    have a := total_smul p (1 - t) fun d => x d - z d
    have b := total_smul p t fun d => x d + u d - z d
    rw [abs_of_nonneg (by linarith)] at a
    rw [abs_of_nonneg ht0] at b
    rw [← a, ← b]
    refine le_trans (le_of_eq (total_congr p fun d _ => ?_)) (total_add p _ _)
    ring
  nlinarith

theorem smul_satisfies {K : Constraints ℕ} {n : ℕ} (hK : Homogeneous K n) {u : ℕ → ℝ} (hu : Satisfies K u) (t : ℝ) :
    Satisfies K fun d => t * u d := by
  have := comb_satisfies hK hu hu t 0
  simpa using this

/-! ## Helpers: one Newton step -/

/-- A function whose derivative grows at most linearly. -/
theorem quadratic_bound {φ φ' : ℝ → ℝ} {C : ℝ} (h : ∀ t, 0 ≤ t → t ≤ 1 → HasDerivAt φ (φ' t) t)
    (hb : ∀ t, 0 ≤ t → t ≤ 1 → φ' t ≤ C * t) : φ 1 - φ 0 ≤ C / 2 := by
  have hd : ∀ t, 0 ≤ t → t ≤ 1 → HasDerivAt (fun t => φ t - C / 2 * t ^ 2) (φ' t - C * t) t := by
    intro t h0 h1
    have := (h t h0 h1).sub (((hasDerivAt_id t).pow 2).const_mul (C / 2))
    refine this.congr_deriv ?_
    simp
    ring
  have ha : AntitoneOn (fun t => φ t - C / 2 * t ^ 2) (Set.Icc 0 1) := by
    refine antitoneOn_of_deriv_nonpos (convex_Icc 0 1) ?_ ?_ ?_
    · exact fun t ht => (hd t ht.1 ht.2).continuousAt.continuousWithinAt
    · intro t ht
      rw [interior_Icc] at ht
      exact (hd t ht.1.le ht.2.le).differentiableAt.differentiableWithinAt
    · intro t ht
      rw [interior_Icc] at ht
      rw [(hd t ht.1.le ht.2.le).deriv]
      linarith [hb t ht.1.le ht.2.le]
  have := ha (show (0 : ℝ) ∈ Set.Icc 0 1 by simp) (show (1 : ℝ) ∈ Set.Icc 0 1 by simp) zero_le_one
  simp only at this
  linarith

/-- The residual after a step is the one the matrix predicts up to a quadratic error. -/
theorem residual_step {p : Problem N} {x₀ : ℕ → ℝ} {ρ M L : ℝ} (h : SpecSmooth p x₀ ρ M L) {x u : ℕ → ℝ}
    (hx : Satisfies p.aff x) (hu : Satisfies p.internal u) (h0 : SpecDistance p x x₀ ≤ ρ)
    (h1 : SpecDistance p (fun d => x d + u d) x₀ ≤ ρ) :
    p.total (fun r => p.resid (fun d => x d + u d) r - p.resid x r + SpecRate p x u r) ≤
      L / 2 * p.total u ^ 2 := by
  set e := fun r => p.resid (fun d => x d + u d) r - p.resid x r + SpecRate p x u r with he
  have hpt : ∀ t : ℝ, Satisfies p.aff fun d => x d + t * u d := fun t =>
    h.admissible x _ hx (smul_satisfies h.homogeneous hu t)
  have key := quadratic_bound (φ := fun t => ∑ r ∈ range p.n, e r *
      (p.resid (fun d => x d + t * u d) r + t * SpecRate p x u r))
    (φ' := fun t => ∑ r ∈ range p.n, e r * (-SpecRate p (fun d => x d + t * u d) u r + SpecRate p x u r))
    (C := p.total e * (L * p.total u ^ 2)) (fun t t0 t1 => ?_) fun t t0 t1 => ?_
  · have e1 : (fun d => x d + 1 * u d) = fun d => x d + u d := by funext d; ring
    have e0 : (fun d => x d + 0 * u d) = x := by funext d; ring
    rw [e1, e0, ← sum_sub_distrib] at key
    have e2 : ∑ r ∈ range p.n, (e r * (p.resid (fun d => x d + u d) r + 1 * SpecRate p x u r) -
        e r * (p.resid x r + 0 * SpecRate p x u r)) = p.total e ^ 2 := by
      rw [total_sq]
      exact sum_congr rfl fun r _ => by simp only [he]; ring
    rw [e2] at key
    rcases (total_nonneg p e).eq_or_lt with hz | hz
    · rw [← hz]; have := h.L_nonneg; positivity
    · refine le_of_mul_le_mul_left ?_ hz
      nlinarith
  · refine HasDerivAt.fun_sum fun r hr => HasDerivAt.const_mul _ (HasDerivAt.add ?_ ?_)
    · have hd := h.derivative (fun d => x d + t * u d) u (hpt t) (distance_segment p h0 h1 t0 t1) hu r
        (mem_range.1 hr)
      have hs : HasDerivAt (fun s : ℝ => s - t) 1 t := by simpa using (hasDerivAt_id t).sub_const t
      have := HasDerivAt.comp t (h₂ := fun s : ℝ => p.resid (fun d => x d + t * u d + s * u d) r)
        (h := fun s => s - t) (by rw [sub_self]; exact hd) hs
      rw [mul_one] at this
      refine this.congr_of_eventuallyEq (Filter.Eventually.of_forall fun s => ?_)
      show p.resid _ r = p.resid _ r
      congr 1
      funext d
      ring
    · simpa using (hasDerivAt_id t).mul_const (SpecRate p x u r)
  · have hc := le_of_abs_le (total_cauchy p e fun r =>
      -SpecRate p (fun d => x d + t * u d) u r + SpecRate p x u r)
    have hl := h.lipschitz x (fun d => x d + t * u d) u hx (hpt t) h0 (distance_segment p h0 h1 t0 t1) hu
    rw [distance_comm, distance_step, abs_of_nonneg t0] at hl
    have e3 : p.total (fun r => -SpecRate p (fun d => x d + t * u d) u r + SpecRate p x u r) =
        p.total fun r => SpecRate p x u r - SpecRate p (fun d => x d + t * u d) u r :=
      total_congr p fun d _ => by ring
    rw [e3] at hc
    refine hc.trans ?_
    have := mul_le_mul_of_nonneg_left hl (total_nonneg p e)
    linarith

/-- A smooth problem is predicted without a linear error. -/
theorem SpecSmooth.close {p : Problem N} {x₀ : ℕ → ℝ} {ρ M L : ℝ} (h : SpecSmooth p x₀ ρ M L) :
    SpecClose p x₀ ρ 0 M L :=
  ⟨h.homogeneous, h.closed, h.numbered, h.admissible, fun x u hx hu h0 h1 => by
    have := residual_step h hx hu h0 h1
    linarith, h.regular, h.exact, le_rfl, h.L_nonneg, h.M_nonneg⟩

/-- Newton correction at a trial solution. -/
noncomputable def correction (p : Problem N) (x : ℕ → ℝ) : ℕ → ℝ := newtonUpdate p.internal (p.all (p.cells x))

theorem correction_ok {p : Problem N} {x₀ : ℕ → ℝ} {ρ δ M L : ℝ} (h : SpecClose p x₀ ρ δ M L) {x : ℕ → ℝ}
    (hx : Satisfies p.aff x) (h0 : SpecDistance p x x₀ ≤ ρ) :
    Satisfies p.internal (correction p x) ∧ (∀ r < p.n, SpecRate p x (correction p x) r = p.resid x r) ∧
    p.total (correction p x) ≤ M * p.total (p.resid x) := by
  obtain ⟨hu, hw⟩ := (C78_monolithic h.homogeneous (h.numbered x) (correction p x)).1 ⟨_, h.exact x hx h0, rfl⟩
  have hr : ∀ r < p.n, SpecRate p x (correction p x) r = p.resid x r := by
    intro r hr
    unfold SpecRate
    rw [hw _ (unit_satisfies h.homogeneous r)]
    exact unit_test h.homogeneous (h.numbered x) (fun a => a.rhs) hr
  refine ⟨hu, hr, ?_⟩
  have := h.regular x _ hx h0 hu
  rwa [total_congr p hr] at this

theorem newton_step {p : Problem N} {x₀ : ℕ → ℝ} {ρ δ M L : ℝ} (h : SpecClose p x₀ ρ δ M L) {x : ℕ → ℝ}
    (hx : Satisfies p.aff x) (h0 : SpecDistance p x x₀ ≤ ρ)
    (h1 : SpecDistance p x x₀ + M * p.total (p.resid x) ≤ ρ) :
    Satisfies p.aff (fun d => x d + correction p x d) ∧
    SpecDistance p (fun d => x d + correction p x d) x ≤ M * p.total (p.resid x) ∧
    SpecDistance p (fun d => x d + correction p x d) x₀ ≤ ρ ∧
    p.total (p.resid fun d => x d + correction p x d) ≤
      (δ * M + L * M ^ 2 / 2 * p.total (p.resid x)) * p.total (p.resid x) := by
  obtain ⟨hu, hr, hM⟩ := correction_ok h hx h0
  have hd : SpecDistance p (fun d => x d + correction p x d) x ≤ M * p.total (p.resid x) := by
    have := distance_step p x (correction p x) 1
    simp only [one_mul, abs_one] at this
    rw [this]; exact hM
  have hd0 : SpecDistance p (fun d => x d + correction p x d) x₀ ≤ ρ :=
    (distance_triangle p _ x _).trans (by linarith)
  refine ⟨h.admissible x _ hx hu, hd, hd0, ?_⟩
  have := h.predicts x _ hx hu h0 hd0
  rw [total_congr p (b := p.resid fun d => x d + correction p x d) fun r hr' => by rw [hr r hr']; ring] at this
  refine this.trans ?_
  have hsq : p.total (correction p x) ^ 2 ≤ (M * p.total (p.resid x)) ^ 2 :=
    pow_le_pow_left₀ (total_nonneg p _) hM 2
  have h2 := mul_le_mul_of_nonneg_left hsq (div_nonneg h.L_nonneg zero_le_two)
  have h3 := mul_le_mul_of_nonneg_left hM h.δ_nonneg
  calc _ ≤ δ * (M * p.total (p.resid x)) + L / 2 * (M * p.total (p.resid x)) ^ 2 := add_le_add h3 h2
    _ = _ := by ring

/-- A full step that reduces the residual enough is accepted by the line search. -/
theorem advance_accept (p : Problem N) (q : Search) (norm : (ℕ → ℝ) → ℝ) (b : ℕ) (u stored x : ℕ → ℝ)
    (hq : q.on = true → norm (p.resid (updateTrial p.aff p.blk b 1 u x)) ^ 2 <
      (1 - 2 * q.alpha) * norm (p.resid x) ^ 2) :
    p.advance q norm b u stored x = some (updateTrial p.aff p.blk b 1 u x) := by
  unfold Problem.advance
  by_cases h : q.on = true
  · have h1 := hq h
    simp only [h, if_true]
    rw [lsRun]
    simp only [Option.bind_some, Option.map_some]
    rw [if_pos]
    · rfl
    · right
      show objective _ < objective _ + q.alpha * 1 * (-2 * objective _)
      unfold objective
      nlinarith
  · simp [h]

theorem geometric_le {q : ℝ} (h0 : 0 ≤ q) (h1 : q < 1) (i : ℕ) : ∑ j ∈ range i, q ^ j ≤ 1 / (1 - q) := by
  have : (∑ j ∈ range i, q ^ j) * (1 - q) = 1 - q ^ i := by
    have := geom_sum_mul_neg q i
    linarith
  rw [le_div_iff₀ (by linarith), this]
  linarith [pow_nonneg h0 i]

theorem power_step (i : ℕ) : 2 ^ (i + 1) - 1 = 1 + 2 * (2 ^ i - 1) := by
  have : 1 ≤ 2 ^ i := Nat.one_le_two_pow
  rw [pow_succ]; omega

theorem index_le (i : ℕ) : i ≤ 2 ^ i - 1 := by
  have : i < 2 ^ i := Nat.lt_two_pow_self
  omega

theorem rate_nonneg {p : Problem N} {x₀ : ℕ → ℝ} {ρ δ M L : ℝ} (h : SpecClose p x₀ ρ δ M L) {r₀ q : ℝ}
    (hr : 0 ≤ r₀) (hq : q = δ * M + L * M ^ 2 / 2 * r₀) : 0 ≤ q := by
  have := h.L_nonneg; have := h.M_nonneg; have := h.δ_nonneg
  rw [hq]; positivity

theorem rate_le {p : Problem N} {x₀ : ℕ → ℝ} {ρ δ M L : ℝ} (h : SpecClose p x₀ ρ δ M L) {r₀ q : ℝ}
    (hq : q = δ * M + L * M ^ 2 / 2 * r₀) {w : ℕ → ℝ} (hw : p.total w ≤ r₀) :
    (δ * M + L * M ^ 2 / 2 * p.total w) * p.total w ≤ q * p.total w := by
  have h1 : 0 ≤ L * M ^ 2 / 2 := by have := h.L_nonneg; positivity
  have h2 := mul_le_mul_of_nonneg_left hw h1
  refine mul_le_mul_of_nonneg_right ?_ (total_nonneg p _)
  linarith

/-- What holds after `i` iterations, with bounds `b` of the residuals. -/
structure After (p : Problem N) (x₀ : ℕ → ℝ) (M r₀ q : ℝ) (b : ℕ → ℝ) (i : ℕ) (t : Step N) (z : ℕ → ℝ) : Prop where
  trial : t.trial = some z
  resid : p.total (p.resid (distribute p.aff z)) ≤ b i
  near : SpecDistance p (distribute p.aff z) x₀ ≤ M * r₀ * ∑ j ∈ range i, q ^ j
  norm : 1 ≤ i → distribute p.aff z = z ∧ p.mono.norm t = some (p.total (p.resid z))

/-- Bounds of the residuals that follow from one another. -/
structure Bounds (δ M L r₀ q : ℝ) (b : ℕ → ℝ) : Prop where
  start : b 0 = r₀
  below : ∀ i, b i ≤ r₀ * q ^ i
  next : ∀ i t, 0 ≤ t → t ≤ b i → (δ * M + L * M ^ 2 / 2 * t) * t ≤ b (i + 1)

theorem after_step {p : Problem N} {x₀ : ℕ → ℝ} {ρ δ M L : ℝ} (h : SpecClose p x₀ ρ δ M L) (hb : ∀ d, p.blk d = 0)
    {r₀ q : ℝ} {b : ℕ → ℝ} (hB : Bounds δ M L r₀ q b)
    (hr : 0 ≤ r₀) (hq : q = δ * M + L * M ^ 2 / 2 * r₀) (hq1 : q < 1) (hρ : M * r₀ / (1 - q) ≤ ρ)
    (hls : p.searchAll.on = true → q ^ 2 < 1 - 2 * p.searchAll.alpha) {i : ℕ} {t : Step N} {z : ℕ → ℝ}
    (ha : After p x₀ M r₀ q b i t z)
    (hpos : p.searchAll.on = true → p.total (p.resid (distribute p.aff z)) ≠ 0) :
    After p x₀ M r₀ q b (i + 1) (p.mono.newton (p.mono.post (p.mono.pre t)))
      (fun d => distribute p.aff z d + correction p (distribute p.aff z) d) := by
  have hq0 : 0 ≤ q := rate_nonneg h hr hq
  set y := distribute p.aff z with hy
  have hsat : Satisfies p.aff y := distribute_satisfies h.closed z
  have hMr : 0 ≤ M * r₀ := mul_nonneg h.M_nonneg hr
  have hri : p.total (p.resid y) ≤ r₀ * q ^ i := ha.resid.trans (hB.below i)
  have hr0 : p.total (p.resid y) ≤ r₀ := by
    have := pow_le_one₀ (n := i) hq0 hq1.le
    nlinarith
  have hsum : M * r₀ * ∑ j ∈ range (i + 1), q ^ j ≤ ρ := by
    refine le_trans ?_ hρ
    rw [div_eq_mul_one_div]
    exact mul_le_mul_of_nonneg_left (geometric_le hq0 hq1 _) hMr
  have hnext : SpecDistance p y x₀ + M * p.total (p.resid y) ≤ M * r₀ * ∑ j ∈ range (i + 1), q ^ j := by
    rw [sum_range_succ, mul_add]
    have := mul_le_mul_of_nonneg_left hri h.M_nonneg
    have e := ha.near
    linarith
  have hM0 : 0 ≤ M * p.total (p.resid y) := mul_nonneg h.M_nonneg (total_nonneg p _)
  obtain ⟨s1, s2, s3, s4⟩ := newton_step h hsat (by linarith) (hnext.trans hsum)
  set y' := fun d => y d + correction p y d with hy'
  have hstep : updateTrial p.aff p.blk 0 1 (correction p y) y = y' :=
    step_eq s1 fun d hd => absurd (hb d) hd
  have hred : p.total (p.resid y') ≤ q * p.total (p.resid y) := s4.trans (rate_le h hq hr0)
  have hadv : p.advance p.searchAll p.total 0 (correction p y) z y = some y' := by
    rw [← hstep]
    refine advance_accept p _ _ _ _ _ _ fun hon => ?_
    rw [hstep]
    have h1 := hls hon
    have h2 := (total_nonneg p (p.resid y)).lt_of_ne (hpos hon).symm
    have h3 := pow_le_pow_left₀ (total_nonneg p (p.resid y')) hred 2
    rw [mul_pow] at h3
    have h4 := mul_lt_mul_of_pos_right h1 (pow_pos h2 2)
    linarith
  have htr : (p.mono.newton (p.mono.post (p.mono.pre t))).trial = some y' := by
    simp only [Problem.mono, Step.moved, ha.trial, Option.map_some, Option.bind_some, Option.getD_some]
    exact hadv
  have hdist : distribute p.aff y' = y' := distribute_of_satisfies s1
  refine ⟨htr, ?_, ?_, fun _ => ⟨hdist, ?_⟩⟩
  · rw [hdist]
    exact s4.trans (hB.next i _ (total_nonneg p _) ha.resid)
  · rw [hdist]
    refine (distance_triangle p _ y _).trans ?_
    linarith
  · have : (p.mono.newton (p.mono.post (p.mono.pre t))).held =
        (p.mono.newton (p.mono.post (p.mono.pre t))).trial.map p.resid := rfl
    show (p.mono.newton (p.mono.post (p.mono.pre t))).held.map p.total = _
    rw [this, htr]; rfl

/-- The loop with bounds `b` of the residuals. -/
theorem loop_converges (p : Problem N) (s : Step N) (x : ℕ → ℝ) (hs : s.trial = some x) (ρ δ M L : ℝ)
    (h : SpecClose p (distribute p.aff x) ρ δ M L) (hb : ∀ d, p.blk d = 0) (r₀ q : ℝ)
    (hr : r₀ = p.total (p.resid (distribute p.aff x))) (hq : q = δ * M + L * M ^ 2 / 2 * r₀) (hq1 : q < 1)
    (hρ : M * r₀ / (1 - q) ≤ ρ) (b : ℕ → ℝ) (hB : Bounds δ M L r₀ q b)
    (hls : p.searchAll.on = true → r₀ ≠ 0 ∧ q ^ 2 < 1 - 2 * p.searchAll.alpha) (nMax : ℕ) (tol : ℝ) (htol0 : 0 < tol)
    (k : ℕ) (hk : 1 ≤ k) (hkn : k ≤ nMax) (htol : b k < tol) :
    ∃ (s' : Step N) (y : ℕ → ℝ) (j : ℕ), j ≤ k ∧
      monoRD p.mono nMax tol (nMax + 1) 0 s = .returned s' j ∧ s'.trial = some y ∧ Satisfies p.aff y ∧
      p.total (p.resid y) < tol ∧ SpecDistance p y (distribute p.aff x) ≤ M * r₀ / (1 - q) ∧
      ∀ i ≤ j, ∃ z, (newtonIterate p.mono i s).trial = some z ∧
        p.total (p.resid (distribute p.aff z)) ≤ b i ∧
        (i < j → (newtonIterate p.mono (i + 1) s).trial = some fun d => distribute p.aff z d +
          newtonUpdate p.internal (p.all (p.cells (distribute p.aff z))) d) := by
  have hr0 : 0 ≤ r₀ := by rw [hr]; exact total_nonneg p _
  have hq0 : 0 ≤ q := rate_nonneg h hr0 hq
  have hsucc : ∀ i, newtonIterate p.mono (i + 1) s =
      p.mono.newton (p.mono.post (p.mono.pre (newtonIterate p.mono i s))) := by
    intro i
    unfold newtonIterate
    rw [Function.iterate_succ_apply']
  -- positive residuals while the loop goes on
  have hposit : ∀ i z, After p (distribute p.aff x) M r₀ q b i (newtonIterate p.mono i s) z →
      (∀ m, 1 ≤ m → m ≤ i → ¬ SmallResidual (p.mono.norm (newtonIterate p.mono m s)) tol) →
      p.searchAll.on = true → p.total (p.resid (distribute p.aff z)) ≠ 0 := by
    intro i z hA hns hon hz
    rcases Nat.eq_zero_or_pos i with rfl | hi
    · have : newtonIterate p.mono 0 s = s := rfl
      have e := hA.trial
      rw [this, hs] at e
      rw [← Option.some.inj e] at hz
      exact (hls hon).1 (by rw [hr]; exact hz)
    · obtain ⟨e1, e2⟩ := hA.norm hi
      rw [e1] at hz
      exact hns i hi le_rfl ⟨_, e2, by rw [hz]; exact htol0⟩
  have inv : ∀ i, (∀ m, 1 ≤ m → m < i → ¬ SmallResidual (p.mono.norm (newtonIterate p.mono m s)) tol) →
      ∃ z, After p (distribute p.aff x) M r₀ q b i (newtonIterate p.mono i s) z := by
    intro i
    induction i with
    | zero =>
      intro _
      refine ⟨x, hs, ?_, ?_, fun h => absurd h (by norm_num)⟩
      · rw [hB.start, hr]
      · simp [distance_self]
    | succ i ih =>
      intro hns
      obtain ⟨z, hz⟩ := ih fun m h1 h2 => hns m h1 (by omega)
      rw [hsucc]
      exact ⟨_, after_step h hb hB hr0 hq hq1 hρ (fun hon => (hls hon).2) hz
        (hposit i z hz fun m h1 h2 => hns m h1 (by omega))⟩
  have main : ∀ j, 1 ≤ j → (∀ m, 1 ≤ m → m < j → ¬ SmallResidual (p.mono.norm (newtonIterate p.mono m s)) tol) →
      (∃ y, (newtonIterate p.mono j s).trial = some y ∧ Satisfies p.aff y ∧
        p.mono.norm (newtonIterate p.mono j s) = some (p.total (p.resid y)) ∧
        p.total (p.resid y) ≤ b j ∧
        SpecDistance p y (distribute p.aff x) ≤ M * r₀ / (1 - q)) ∧
      ∀ i ≤ j, ∃ z, (newtonIterate p.mono i s).trial = some z ∧
        p.total (p.resid (distribute p.aff z)) ≤ b i ∧
        (i < j → (newtonIterate p.mono (i + 1) s).trial = some fun d => distribute p.aff z d +
          newtonUpdate p.internal (p.all (p.cells (distribute p.aff z))) d) := by
    intro j hj hns
    constructor
    · obtain ⟨y, hy⟩ := inv j hns
      obtain ⟨e1, e2⟩ := hy.norm hj
      refine ⟨y, hy.trial, e1 ▸ distribute_satisfies h.closed y, e2, e1 ▸ hy.resid, ?_⟩
      have := hy.near
      rw [e1] at this
      refine this.trans ?_
      rw [div_eq_mul_one_div]
      exact mul_le_mul_of_nonneg_left (geometric_le hq0 hq1 _) (mul_nonneg h.M_nonneg hr0)
    · intro i hi
      obtain ⟨z, hz⟩ := inv i fun m h1 h2 => hns m h1 (by omega)
      refine ⟨z, hz.trial, hz.resid, fun hij => ?_⟩
      rw [hsucc]
      exact (after_step h hb hB hr0 hq hq1 hρ (fun hon => (hls hon).2) hz
        (hposit i z hz fun m h1 h2 => hns m h1 (by omega))).trial
  rcases C07_monolithic_rate_dependent p.mono nMax tol s with ⟨j, h1, h2, h3, h4, h5⟩ | ⟨h4, _⟩
  · obtain ⟨⟨y, m1, m2, m3, m4, m5⟩, m6⟩ := main j h1 h4
    refine ⟨_, y, j, ?_, h5, m1, m2, ?_, m5, m6⟩
    · by_contra hlt
      push Not at hlt
      obtain ⟨⟨w, w1, _, w3, w4, _⟩, _⟩ := main k hk fun m a b => h4 m a (by omega)
      exact h4 k hk hlt ⟨_, w3, lt_of_le_of_lt w4 htol⟩
    · obtain ⟨v, v1, v2⟩ := h3
      rw [m3] at v1
      rw [Option.some.inj v1]
      exact v2
  · obtain ⟨⟨w, w1, _, w3, w4, _⟩, _⟩ := main k hk fun m a b => h4 m a (by omega)
    exact absurd ⟨_, w3, lt_of_le_of_lt w4 htol⟩ (h4 k hk hkn)

/-! ## Properties -/

/-- The loop when the matrix predicts without a linear error. -/
theorem quadratic_close (p : Problem N) (s : Step N) (x : ℕ → ℝ) (hs : s.trial = some x) (ρ M L : ℝ)
    (h : SpecClose p (distribute p.aff x) ρ 0 M L) (hb : ∀ d, p.blk d = 0) (r₀ q : ℝ)
    (hr : r₀ = p.total (p.resid (distribute p.aff x))) (hq : q = L * M ^ 2 / 2 * r₀) (hq1 : q < 1)
    (hρ : M * r₀ / (1 - q) ≤ ρ)
    (hls : p.searchAll.on = true → r₀ ≠ 0 ∧ q ^ 2 < 1 - 2 * p.searchAll.alpha) (nMax : ℕ) (tol : ℝ) (k : ℕ)
    (hk : 1 ≤ k) (hkn : k ≤ nMax) (htol : r₀ * q ^ (2 ^ k - 1) < tol) :
    ∃ (s' : Step N) (y : ℕ → ℝ) (j : ℕ), j ≤ k ∧
      monoRD p.mono nMax tol (nMax + 1) 0 s = .returned s' j ∧ s'.trial = some y ∧ Satisfies p.aff y ∧
      p.total (p.resid y) < tol ∧ SpecDistance p y (distribute p.aff x) ≤ M * r₀ / (1 - q) ∧
      ∀ i ≤ j, ∃ z, (newtonIterate p.mono i s).trial = some z ∧
        p.total (p.resid (distribute p.aff z)) ≤ r₀ * q ^ (2 ^ i - 1) ∧
        (i < j → (newtonIterate p.mono (i + 1) s).trial = some fun d => distribute p.aff z d +
          newtonUpdate p.internal (p.all (p.cells (distribute p.aff z))) d) := by
  have hr0 : 0 ≤ r₀ := by rw [hr]; exact total_nonneg p _
  have hq' : q = 0 * M + L * M ^ 2 / 2 * r₀ := by rw [hq]; ring
  have hq0 : 0 ≤ q := rate_nonneg h hr0 hq'
  refine loop_converges p s x hs ρ 0 M L h hb r₀ q hr hq' hq1 hρ (fun i => r₀ * q ^ (2 ^ i - 1)) ⟨?_, ?_, ?_⟩ hls
    nMax tol (lt_of_le_of_lt (mul_nonneg hr0 (pow_nonneg hq0 _)) htol) k hk hkn htol
  · simp
  · exact fun i => mul_le_mul_of_nonneg_left (pow_le_pow_of_le_one hq0 hq1.le (index_le i)) hr0
  · intro i t ht0 ht
    show _ ≤ r₀ * q ^ (2 ^ (i + 1) - 1)
    rw [power_step, pow_add, pow_one, pow_mul']
    have h1 : 0 ≤ L * M ^ 2 / 2 := by have := h.L_nonneg; positivity
    have h2 := pow_le_pow_left₀ ht0 ht 2
    calc (0 * M + L * M ^ 2 / 2 * t) * t = L * M ^ 2 / 2 * t ^ 2 := by ring
      _ ≤ L * M ^ 2 / 2 * (r₀ * q ^ (2 ^ i - 1)) ^ 2 := mul_le_mul_of_nonneg_left h2 h1
      _ = r₀ * ((L * M ^ 2 / 2 * r₀) * (q ^ (2 ^ i - 1)) ^ 2) := by ring
      _ = r₀ * (q * (q ^ (2 ^ i - 1)) ^ 2) := by rw [← hq]

/-- C116: from a start value with the residual `r₀` and `q = L M² r₀ / 2 < 1` (small enough for the line search, if it
is used), the rate-dependent monolithic Newton loop converges quadratically: after `i` iterations the residual
is at most `r₀ q ^ (2 ^ i - 1)`, every step is the full Newton step, and with a tolerance above
`r₀ q ^ (2 ^ k - 1)` and a limit of at least `k` iterations the loop returns after at most `k` linear solves, at a
distance of at most `M r₀ / (1 - q)` from the start. -/
theorem C116_quadratic (p : Problem N) (s : Step N) (x : ℕ → ℝ) (hs : s.trial = some x) (ρ M L : ℝ)
    (h : SpecSmooth p (distribute p.aff x) ρ M L) (hb : ∀ d, p.blk d = 0) (r₀ q : ℝ)
    (hr : r₀ = p.total (p.resid (distribute p.aff x))) (hq : q = L * M ^ 2 / 2 * r₀) (hq1 : q < 1)
    (hρ : M * r₀ / (1 - q) ≤ ρ)
    (hls : p.searchAll.on = true → r₀ ≠ 0 ∧ q ^ 2 < 1 - 2 * p.searchAll.alpha) (nMax : ℕ) (tol : ℝ) (k : ℕ)
    (hk : 1 ≤ k) (hkn : k ≤ nMax) (htol : r₀ * q ^ (2 ^ k - 1) < tol) :
    ∃ (s' : Step N) (y : ℕ → ℝ) (j : ℕ), j ≤ k ∧
      monoRD p.mono nMax tol (nMax + 1) 0 s = .returned s' j ∧ s'.trial = some y ∧ Satisfies p.aff y ∧
      p.total (p.resid y) < tol ∧ SpecDistance p y (distribute p.aff x) ≤ M * r₀ / (1 - q) ∧
      ∀ i ≤ j, ∃ z, (newtonIterate p.mono i s).trial = some z ∧
        p.total (p.resid (distribute p.aff z)) ≤ r₀ * q ^ (2 ^ i - 1) ∧
        (i < j → (newtonIterate p.mono (i + 1) s).trial = some fun d => distribute p.aff z d +
          newtonUpdate p.internal (p.all (p.cells (distribute p.aff z))) d) :=
  quadratic_close p s x hs ρ M L h.close hb r₀ q hr hq hq1 hρ hls nMax tol k hk hkn htol

/-- C117: if the matrix predicts the residual only up to `δ` times the length of a step (with `δ = 0` it is the
derivative), the loop converges linearly: with `q = δ M + L M² r₀ / 2 < 1` the residual after `i` iterations is at most
`r₀ q ^ i`, every step is the full Newton step, and the loop returns as converged after at most `k` linear solves for
every tolerance above `r₀ q ^ k`. -/
theorem C117_linear (p : Problem N) (s : Step N) (x : ℕ → ℝ) (hs : s.trial = some x) (ρ δ M L : ℝ)
    (h : SpecClose p (distribute p.aff x) ρ δ M L) (hb : ∀ d, p.blk d = 0) (r₀ q : ℝ)
    (hr : r₀ = p.total (p.resid (distribute p.aff x))) (hq : q = δ * M + L * M ^ 2 / 2 * r₀) (hq1 : q < 1)
    (hρ : M * r₀ / (1 - q) ≤ ρ)
    (hls : p.searchAll.on = true → r₀ ≠ 0 ∧ q ^ 2 < 1 - 2 * p.searchAll.alpha) (nMax : ℕ) (tol : ℝ) (k : ℕ)
    (hk : 1 ≤ k) (hkn : k ≤ nMax) (htol : r₀ * q ^ k < tol) :
    ∃ (s' : Step N) (y : ℕ → ℝ) (j : ℕ), j ≤ k ∧
      monoRD p.mono nMax tol (nMax + 1) 0 s = .returned s' j ∧ s'.trial = some y ∧ Satisfies p.aff y ∧
      p.total (p.resid y) < tol ∧ SpecDistance p y (distribute p.aff x) ≤ M * r₀ / (1 - q) ∧
      ∀ i ≤ j, ∃ z, (newtonIterate p.mono i s).trial = some z ∧
        p.total (p.resid (distribute p.aff z)) ≤ r₀ * q ^ i ∧
        (i < j → (newtonIterate p.mono (i + 1) s).trial = some fun d => distribute p.aff z d +
          newtonUpdate p.internal (p.all (p.cells (distribute p.aff z))) d) := by
  have hr0 : 0 ≤ r₀ := by rw [hr]; exact total_nonneg p _
  have hq0 : 0 ≤ q := rate_nonneg h hr0 hq
  refine loop_converges p s x hs ρ δ M L h hb r₀ q hr hq hq1 hρ (fun i => r₀ * q ^ i) ⟨?_, ?_, ?_⟩ hls
    nMax tol (lt_of_le_of_lt (mul_nonneg hr0 (pow_nonneg hq0 _)) htol) k hk hkn htol
  · simp
  · exact fun i => le_rfl
  · intro i t ht0 ht
    have h1 : 0 ≤ L * M ^ 2 / 2 := by have := h.L_nonneg; positivity
    have h2 : t ≤ r₀ := ht.trans (mul_le_of_le_one_right hr0 (pow_le_one₀ hq0 hq1.le))
    have h3 := mul_le_mul_of_nonneg_left h2 h1
    show _ ≤ r₀ * q ^ (i + 1)
    rw [pow_succ]
    calc (δ * M + L * M ^ 2 / 2 * t) * t ≤ q * t := mul_le_mul_of_nonneg_right (by linarith) ht0
      _ ≤ q * (r₀ * q ^ i) := mul_le_mul_of_nonneg_left ht hq0
      _ = _ := by ring

/-- C116 for the error: in the same neighbourhood, a Newton step reduces the distance from a solution
quadratically, and the distance is at most twice `M` times the residual where it is below `1 / (M L)`. -/
theorem C116_error (p : Problem N) (x₀ : ℕ → ℝ) (ρ M L : ℝ) (h : SpecSmooth p x₀ ρ M L) (x y : ℕ → ℝ)
    (hx : Satisfies p.aff x) (h0 : SpecDistance p x x₀ ≤ ρ) (hy : SpecSolution p y) (h1 : SpecDistance p y x₀ ≤ ρ)
    (hxy : Satisfies p.internal fun d => y d - x d) :
    SpecDistance p (fun d => x d + newtonUpdate p.internal (p.all (p.cells x)) d) y ≤
      M * L / 2 * SpecDistance p x y ^ 2 ∧
    (M * L * SpecDistance p x y ≤ 1 → SpecDistance p x y ≤ 2 * M * p.total (p.resid x)) := by
  have hyx : (fun d => x d + (y d - x d)) = y := by funext d; ring
  have hres := residual_step h hx hxy h0 (by rw [hyx]; exact h1)
  rw [hyx] at hres
  have hz : ∀ r < p.n, p.resid y r = 0 := fun r hr =>
    (C78_residual h.homogeneous (h.numbered y)).2 hy.2 r hr
  have hdist : p.total (fun d => y d - x d) = SpecDistance p x y := by rw [distance_comm]; rfl
  rw [hdist] at hres
  obtain ⟨hu, hr, hM⟩ := correction_ok h.close hx h0
  constructor
  · have hw : Satisfies p.internal fun d => correction p x d - (y d - x d) := sub_satisfies h.homogeneous hu hxy
    have e1 : SpecDistance p (fun d => x d + newtonUpdate p.internal (p.all (p.cells x)) d) y =
        p.total fun d => correction p x d - (y d - x d) := by
      rw [distance_eq]
      exact total_congr p fun d _ => by show x d + correction p x d - y d = _; ring
    rw [e1]
    refine (h.regular x _ hx h0 hw).trans ?_
    have e2 : p.total (SpecRate p x fun d => correction p x d - (y d - x d)) =
        p.total fun r => p.resid y r - p.resid x r + SpecRate p x (fun d => y d - x d) r := by
      have e3 : p.total (fun r => p.resid y r - p.resid x r + SpecRate p x (fun d => y d - x d) r) =
          p.total fun r => -1 * (p.resid y r - p.resid x r + SpecRate p x (fun d => y d - x d) r) := by
        rw [total_smul]; simp
      rw [e3]
      refine total_congr p fun r hr' => ?_
      rw [hz r hr', ← hr r hr']
      unfold SpecRate
      have e4 : (fun d => correction p x d - (y d - x d)) = fun d => correction p x d + -1 * (y d - x d) := by
        funext d; ring
      rw [e4, tangent_add_right, tangent_smul_right]
      ring
    rw [e2]
    have := mul_le_mul_of_nonneg_left hres h.M_nonneg
    linarith
  · intro hsmall
    have h2 := h.regular x _ hx h0 hxy
    rw [hdist] at h2
    have h3 : p.total (SpecRate p x fun d => y d - x d) ≤
        p.total (p.resid x) + L / 2 * SpecDistance p x y ^ 2 := by
      refine le_trans (le_of_eq (total_congr p fun r hr' => ?_)) ((total_add p (p.resid x)
        fun r => p.resid y r - p.resid x r + SpecRate p x (fun d => y d - x d) r).trans (by linarith))
      rw [hz r hr']; ring
    have h4 := mul_le_mul_of_nonneg_left h3 h.M_nonneg
    have h5 : 0 ≤ SpecDistance p x y := total_nonneg p _
    nlinarith

/-! ## Existence -/

theorem entry_le (p : Problem N) (u : ℕ → ℝ) {g : ℕ} (hg : g < p.n) : |u g| ≤ p.total u := by
  refine abs_le_of_sq_le_sq ?_ (total_nonneg p u)
  rw [total_sq]
  exact single_le_sum (f := fun d => u d ^ 2) (fun d _ => sq_nonneg _) (mem_range.2 hg)

theorem list_bound {α : Type*} (l : List α) (f : α → (ℕ → ℝ) → ℝ) (T : (ℕ → ℝ) → ℝ)
    (h : ∀ a ∈ l, ∃ C, ∀ u, |f a u| ≤ C * T u) : ∃ C, ∀ u, |(l.map (f · u)).sum| ≤ C * T u := by
  induction l with
  | nil => exact ⟨0, fun u => by simp⟩
  | cons a l ih =>
    obtain ⟨C, hC⟩ := h a List.mem_cons_self
    obtain ⟨D, hD⟩ := ih fun b hb => h b (List.mem_cons_of_mem _ hb)
    refine ⟨C + D, fun u => ?_⟩
    rw [List.map_cons, List.sum_cons, add_mul]
    exact (abs_add_le _ _).trans (add_le_add (hC u) (hD u))

theorem double_bound (p : Problem N) (c : Fin N → Fin N → ℝ) (g : Fin N → ℕ) (hg : ∀ j, g j < p.n) :
    ∃ C, ∀ u : ℕ → ℝ, |∑ i, ∑ j, c i j * u (g j)| ≤ C * p.total u := by
  refine ⟨∑ i, ∑ j, |c i j|, fun u => ?_⟩
  rw [Finset.sum_mul]
  refine (abs_sum_le_sum_abs _ _).trans (sum_le_sum fun i _ => ?_)
  rw [Finset.sum_mul]
  refine (abs_sum_le_sum_abs _ _).trans (sum_le_sum fun j _ => ?_)
  rw [abs_mul]
  exact mul_le_mul_of_nonneg_left (entry_le p u (hg j)) (abs_nonneg _)

theorem tangent_bound (p : Problem N) {cells : List (Local N)} (hc : Numbered cells p.n) (v : ℕ → ℝ) :
    ∃ C, ∀ u, |SpecTangent cells v u| ≤ C * p.total u := by
  refine list_bound cells (fun a u => ∑ i, ∑ j, v (a.dofs i) * a.mat i j * u (a.dofs j) +
    (a.couplings.map fun b => ∑ i, ∑ j, v (a.dofs i) * b.2 i j * u (b.1 j)).sum) p.total fun a ha => ?_
  obtain ⟨C, hC⟩ := double_bound p (fun i j => v (a.dofs i) * a.mat i j) a.dofs (hc.dofs a ha)
  obtain ⟨D, hD⟩ := list_bound a.couplings (fun b u => ∑ i, ∑ j, v (a.dofs i) * b.2 i j * u (b.1 j)) p.total
    fun b hb => double_bound p (fun i j => v (a.dofs i) * b.2 i j) b.1 (hc.couplings a ha b hb)
  exact ⟨C + D, fun u => by rw [add_mul]; exact (abs_add_le _ _).trans (add_le_add (hC u) (hD u))⟩

/-- Full Newton steps. -/
noncomputable def steps (p : Problem N) (x₀ : ℕ → ℝ) : ℕ → ℕ → ℝ
  | 0 => x₀
  | i + 1 => fun d => steps p x₀ i d + correction p (steps p x₀ i) d

theorem steps_ok {p : Problem N} {x₀ : ℕ → ℝ} {ρ δ M L : ℝ} (h : SpecClose p x₀ ρ δ M L) (h0 : Satisfies p.aff x₀)
    {r₀ q : ℝ} (hr : r₀ = p.total (p.resid x₀)) (hq : q = δ * M + L * M ^ 2 / 2 * r₀)
    (hq1 : q < 1) (hρ : M * r₀ / (1 - q) ≤ ρ) (i : ℕ) :
    Satisfies p.aff (steps p x₀ i) ∧ (Satisfies p.internal fun d => steps p x₀ i d - x₀ d) ∧
    p.total (p.resid (steps p x₀ i)) ≤ r₀ * q ^ i ∧
    SpecDistance p (steps p x₀ i) x₀ ≤ M * r₀ * ∑ j ∈ range i, q ^ j ∧
    SpecDistance p (steps p x₀ (i + 1)) (steps p x₀ i) ≤ M * r₀ * q ^ i := by
  have hr0 : 0 ≤ r₀ := by rw [hr]; exact total_nonneg p _
  have hq0 : 0 ≤ q := rate_nonneg h hr0 hq
  have hMr : 0 ≤ M * r₀ := mul_nonneg h.M_nonneg hr0
  have hsum : ∀ i, M * r₀ * ∑ j ∈ range i, q ^ j ≤ ρ := fun i => by
    refine le_trans ?_ hρ
    rw [div_eq_mul_one_div]
    exact mul_le_mul_of_nonneg_left (geometric_le hq0 hq1 _) hMr
  have base : Satisfies p.aff (steps p x₀ i) ∧ (Satisfies p.internal fun d => steps p x₀ i d - x₀ d) ∧
      p.total (p.resid (steps p x₀ i)) ≤ r₀ * q ^ i ∧
      SpecDistance p (steps p x₀ i) x₀ ≤ M * r₀ * ∑ j ∈ range i, q ^ j := by
    induction i with
    | zero =>
      refine ⟨h0, ?_, ?_, ?_⟩
      · intro d l hl
        show x₀ d - x₀ d = l.eval fun d => x₀ d - x₀ d
        unfold Line.eval
        rw [h.homogeneous.inhom d l hl]
        simp
      · show p.total (p.resid x₀) ≤ _
        rw [pow_zero, mul_one, hr]
      · show SpecDistance p x₀ x₀ ≤ _
        rw [distance_self, sum_range_zero, mul_zero]
    | succ i ih =>
      obtain ⟨a1, a2, a3, a4⟩ := ih
      have hM3 := mul_le_mul_of_nonneg_left a3 h.M_nonneg
      have hs := hsum (i + 1)
      have hsi := hsum i
      rw [sum_range_succ, mul_add] at hs
      obtain ⟨s1, s2, s3, s4⟩ := newton_step h a1 (a4.trans hsi) (by linarith)
      refine ⟨s1, ?_, ?_, ?_⟩
      · have := add_satisfies h.homogeneous a2 (correction_ok h a1 (a4.trans hsi)).1
        have e : (fun d => steps p x₀ (i + 1) d - x₀ d) =
            fun d => steps p x₀ i d - x₀ d + correction p (steps p x₀ i) d := by
          funext d
          show steps p x₀ i d + correction p (steps p x₀ i) d - x₀ d = _
          ring
        rw [e]; exact this
      · refine (s4.trans (rate_le h hq (a3.trans (mul_le_of_le_one_right hr0 (pow_le_one₀ hq0 hq1.le))))).trans ?_
        have := mul_le_mul_of_nonneg_left a3 hq0
        rw [pow_succ]
        linarith
      · rw [sum_range_succ, mul_add]
        refine (distance_triangle p _ (steps p x₀ i) _).trans ?_
        have : SpecDistance p (steps p x₀ (i + 1)) (steps p x₀ i) ≤ M * p.total (p.resid (steps p x₀ i)) := s2
        linarith
  obtain ⟨a1, a2, a3, a4⟩ := base
  refine ⟨a1, a2, a3, a4, ?_⟩
  have hM3 := mul_le_mul_of_nonneg_left a3 h.M_nonneg
  have hs := hsum (i + 1)
  rw [sum_range_succ, mul_add] at hs
  have s2 := (newton_step h a1 (a4.trans (hsum i)) (by linarith)).2.1
  exact s2.trans (by linarith)

open Filter Topology in
/-- C117: under the same conditions the step has a solution, at most as far from the start value. -/
theorem C117_solution (p : Problem N) (x₀ : ℕ → ℝ) (ρ δ M L : ℝ) (h : SpecClose p x₀ ρ δ M L)
    (h0 : Satisfies p.aff x₀) (r₀ q : ℝ) (hr : r₀ = p.total (p.resid x₀)) (hq : q = δ * M + L * M ^ 2 / 2 * r₀)
    (hq1 : q < 1) (hρ : M * r₀ / (1 - q) ≤ ρ) :
    ∃ y, SpecSolution p y ∧ SpecDistance p y x₀ ≤ M * r₀ / (1 - q) := by
  have hr0 : 0 ≤ r₀ := by rw [hr]; exact total_nonneg p _
  have hq0 : 0 ≤ q := rate_nonneg h hr0 hq
  have hMr : 0 ≤ M * r₀ := mul_nonneg h.M_nonneg hr0
  set x := steps p x₀ with hx
  have ok := fun i => steps_ok h h0 hr hq hq1 hρ i
  have hnear : ∀ i, SpecDistance p (x i) x₀ ≤ M * r₀ / (1 - q) := fun i => by
    refine (ok i).2.2.2.1.trans ?_
    rw [div_eq_mul_one_div]
    exact mul_le_mul_of_nonneg_left (geometric_le hq0 hq1 _) hMr
  have hlim : ∀ d, ∃ a, d < p.n → Tendsto (fun i => x i d) atTop (𝓝 a) := by
    intro d
    by_cases hd : d < p.n
    · have hc : CauchySeq fun i => x i d := by
        refine cauchySeq_of_le_geometric q (M * r₀) hq1 fun i => ?_
        rw [Real.dist_eq, abs_sub_comm]
        exact (entry_le p (fun d => x (i + 1) d - x i d) hd).trans (ok i).2.2.2.2
      obtain ⟨a, ha⟩ := cauchySeq_tendsto_of_complete hc
      exact ⟨a, fun _ => ha⟩
    · exact ⟨0, fun h => absurd h hd⟩
  choose a ha using hlim
  -- the limit, extended so that it is an admissible correction of the start value
  set w : ℕ → ℝ := fun d => if d < p.n then a d - x₀ d else 0 with hw
  set w' := distribute p.internal w with hw'
  have hw's : Satisfies p.internal w' := distribute_satisfies h.homogeneous.closed w
  have hww : ∀ d < p.n, w' d = a d - x₀ d := by
    intro d hd
    have hwd : ∀ g < p.n, w g = a g - x₀ g := fun g hg => by simp [hw, hg]
    cases hl : p.internal d with
    | none => rw [hw', distribute_free hl, hwd d hd]
    | some l =>
      rw [hw', distribute_line hl]
      have t1 : Tendsto (fun i => x i d - x₀ d) atTop (𝓝 (a d - x₀ d)) := (ha d hd).sub_const _
      have t2 : Tendsto (fun i => l.eval fun d => x i d - x₀ d) atTop (𝓝 (l.eval w)) := by
        unfold Line.eval
        refine Tendsto.add_const _ ?_
        refine tendsto_list_sum l.entries fun e he => ?_
        have hg := h.homogeneous.within d l hl e he
        have := ((ha e.1 hg).sub_const (x₀ e.1)).const_mul e.2
        rw [← hwd e.1 hg] at this
        exact this
      refine tendsto_nhds_unique t2 ?_
      refine t1.congr fun i => ?_
      exact (ok i).2.1 d l hl
  set y : ℕ → ℝ := fun d => x₀ d + w' d with hy
  have hyd : ∀ d < p.n, y d = a d := fun d hd => by show x₀ d + w' d = _; rw [hww d hd]; ring
  have hys : Satisfies p.aff y := h.admissible x₀ w' h0 hw's
  have tdist : ∀ z : ℕ → ℝ, Tendsto (fun i => SpecDistance p (x i) z) atTop (𝓝 (SpecDistance p y z)) := by
    intro z
    unfold SpecDistance
    refine (Real.continuous_sqrt.tendsto _).comp ?_
    refine tendsto_finsetSum _ fun d hd => ?_
    rw [hyd d (mem_range.1 hd)]
    exact ((ha d (mem_range.1 hd)).sub_const _).pow 2
  have hy0 : SpecDistance p y x₀ ≤ M * r₀ / (1 - q) := le_of_tendsto' (tdist x₀) hnear
  have tzero : Tendsto (fun i => p.total fun d => x i d - y d) atTop (𝓝 0) := by
    have := tdist y
    rw [distance_self] at this
    exact this
  refine ⟨y, ⟨hys, (C78_residual h.homogeneous (h.numbered y)).1 fun r hr' => ?_⟩, hy0⟩
  -- the residual of the limit vanishes
  obtain ⟨C, hC⟩ := tangent_bound p (h.numbered y) (unit p.internal r)
  have hint : ∀ i, Satisfies p.internal fun d => x i d - y d := by
    intro i
    have := sub_satisfies h.homogeneous (ok i).2.1 hw's
    have e : (fun d => steps p x₀ i d - x₀ d - w' d) = fun d => x i d - y d := by
      funext d
      show _ = steps p x₀ i d - (x₀ d + w' d)
      ring
    rwa [e] at this
  have hbound : ∀ i, |p.resid y r| ≤ r₀ * q ^ i + C * p.total (fun d => x i d - y d) +
      δ * p.total (fun d => x i d - y d) + L / 2 * p.total (fun d => x i d - y d) ^ 2 := by
    intro i
    have hyx : (fun d => y d + (x i d - y d)) = x i := by funext d; ring
    have e1 := h.predicts y _ hys (hint i) (hy0.trans hρ) (by rw [hyx]; exact (hnear i).trans hρ)
    rw [hyx] at e1
    have e2 := (entry_le p (fun r => p.resid (x i) r - p.resid y r + SpecRate p y (fun d => x i d - y d) r)
      hr').trans e1
    have e3 := (entry_le p (p.resid (x i)) hr').trans (ok i).2.2.1
    have e5 : |SpecRate p y (fun d => x i d - y d) r| ≤ _ := hC fun d => x i d - y d
    rw [abs_le] at e2 e3 e5 ⊢
    constructor <;> linarith [e2.1, e2.2, e3.1, e3.2, e5.1, e5.2]
  have hto : Tendsto (fun i => r₀ * q ^ i + C * p.total (fun d => x i d - y d) +
      δ * p.total (fun d => x i d - y d) + L / 2 * p.total (fun d => x i d - y d) ^ 2) atTop (𝓝 0) := by
    have t1 := (tendsto_pow_atTop_nhds_zero_of_lt_one hq0 hq1).const_mul r₀
    have t2 := tzero.const_mul C
    have t3 := tzero.const_mul δ
    have t4 := (tzero.pow 2).const_mul (L / 2)
    have := ((t1.add t2).add t3).add t4
    simpa using this
  have := ge_of_tendsto' hto hbound
  exact abs_eq_zero.1 (le_antisymm this (abs_nonneg _))

/-- C116: under the same conditions the step has a solution, at most as far from the start value. -/
theorem C116_solution (p : Problem N) (x₀ : ℕ → ℝ) (ρ M L : ℝ) (h : SpecSmooth p x₀ ρ M L)
    (h0 : Satisfies p.aff x₀) (r₀ q : ℝ) (hr : r₀ = p.total (p.resid x₀)) (hq : q = L * M ^ 2 / 2 * r₀)
    (hq1 : q < 1) (hρ : M * r₀ / (1 - q) ≤ ρ) :
    ∃ y, SpecSolution p y ∧ SpecDistance p y x₀ ≤ M * r₀ / (1 - q) :=
  C117_solution p x₀ ρ 0 M L h.close h0 r₀ q hr (by rw [hq]; ring) hq1 hρ

/-! ## Non-vacuity -/

/-- A slip under the resolved shear stress 1/20 with the resistance `g + g²`. -/
noncomputable def exBarrier (x : ℕ → ℝ) : Local 1 where
  dofs := fun i => i
  mat := fun _ _ => 1 + 2 * x 0
  rhs := fun _ => 1 / 20 - x 0 - x 0 ^ 2
  diag := fun _ => 1
  couplings := []

/-- The step with it, an exact solver and a line search. -/
noncomputable def exCurved : Problem 1 where
  n := 1
  aff := fun _ => none
  internal := fun _ => none
  blk := fun _ => 0
  cells := fun x => [exBarrier x]
  all := fun c _ => residual (fun _ => none) c 0 / jacobian (fun _ => none) c 0 0
  block := fun _ _ _ => 0
  reduced := fun _ _ => 0
  initial := fun _ => 0
  resetSlips := true
  searchAll := ⟨true, 15, 1e-4⟩
  searchMacro := ⟨false, 15, 1e-4⟩
  searchMicro := ⟨false, 15, 1e-4⟩

theorem exBarrier_entries (x : ℕ → ℝ) : jacobian (fun _ => none) [exBarrier x] 0 0 = 1 + 2 * x 0 ∧
    residual (fun _ => none) [exBarrier x] 0 = 1 / 20 - x 0 - x 0 ^ 2 := by
  unfold jacobian residual
  simp only [free_weight]
  simp [exBarrier]

theorem exCurved_total (w : ℕ → ℝ) : exCurved.total w = |w 0| := by
  simp [Problem.total, exCurved, Real.sqrt_sq_eq_abs]

theorem exCurved_resid (x : ℕ → ℝ) : exCurved.resid x 0 = 1 / 20 - x 0 - x 0 ^ 2 := (exBarrier_entries x).2

theorem exCurved_unit : unit (fun _ => none) 0 0 = 1 := by
  simp [unit, distribute]

theorem exCurved_rate (x u : ℕ → ℝ) : SpecRate exCurved x u 0 = (1 + 2 * x 0) * u 0 := by
  show SpecTangent [exBarrier x] (unit (fun _ => none) 0) u = _
  simp [SpecTangent, exBarrier, exCurved_unit]

theorem exCurved_distance (x y : ℕ → ℝ) : SpecDistance exCurved x y = |x 0 - y 0| := by
  rw [distance_eq, exCurved_total]

theorem exCurved_smooth : SpecSmooth exCurved (fun _ => 0) (1 / 4) 2 2 where
  homogeneous := ⟨fun _ _ h => by simp [exCurved] at h, fun _ _ h => by simp [exCurved] at h,
    fun _ _ h => by simp [exCurved] at h⟩
  closed := fun _ _ h => by simp [exCurved] at h
  numbered := fun x => ⟨fun a ha i => by
      simp only [exCurved, List.mem_singleton] at ha ⊢
      subst ha; exact i.2, fun a ha b hb => by
      simp only [exCurved, List.mem_singleton] at ha
      subst ha
      simp [exBarrier] at hb⟩
  admissible := fun _ _ _ _ => free_satisfies _
  derivative := fun x u _ _ _ r hr => by
    have hr' : r = 0 := by have : r < 1 := hr; omega
    subst hr'
    rw [exCurved_rate]
    have e : (fun t : ℝ => exCurved.resid (fun d => x d + t * u d) 0) =
        fun t => 1 / 20 - (x 0 + t * u 0) - (x 0 + t * u 0) ^ 2 := by
      funext t; rw [exCurved_resid]
    rw [e]
    have h1 : HasDerivAt (fun t : ℝ => x 0 + t * u 0) (u 0) 0 := by
      simpa using ((hasDerivAt_id (0 : ℝ)).mul_const (u 0)).const_add (x 0)
    have h2 := ((hasDerivAt_const (0 : ℝ) (1 / 20 : ℝ)).sub h1).sub (h1.pow 2)
    refine h2.congr_deriv ?_
    simp
    ring
  lipschitz := fun x y u _ _ _ _ _ => by
    rw [exCurved_total, exCurved_total, exCurved_distance, exCurved_rate, exCurved_rate]
    rw [show (1 + 2 * x 0) * u 0 - (1 + 2 * y 0) * u 0 = 2 * (x 0 - y 0) * u 0 by ring, abs_mul, abs_mul]
    norm_num
  regular := fun x u _ hx _ => by
    rw [exCurved_distance] at hx
    rw [exCurved_total, exCurved_total, exCurved_rate, abs_mul]
    have h1 := (abs_le.1 hx).1
    have h2 : 1 / 2 ≤ |1 + 2 * x 0| := le_abs.2 (Or.inl (by linarith))
    nlinarith [abs_nonneg (u 0)]
  exact := fun x _ hx => by
    rw [exCurved_distance] at hx
    have h1 := (abs_le.1 hx).1
    intro r hr
    have hr' : r = 0 := by have : r < 1 := hr; omega
    subst hr'
    show ∑ c ∈ range 1, jacobian (fun _ => none) [exBarrier x] 0 c *
      (residual (fun _ => none) [exBarrier x] 0 / jacobian (fun _ => none) [exBarrier x] 0 0) =
      residual (fun _ => none) [exBarrier x] 0
    rw [sum_range_one, (exBarrier_entries x).1]
    have : 1 + 2 * x 0 ≠ 0 := by intro h; linarith
    field_simp
  L_nonneg := by norm_num
  M_nonneg := by norm_num

theorem exCurved_start : exCurved.total (exCurved.resid fun _ => 0) = 1 / 20 := by
  rw [exCurved_total, exCurved_resid]; norm_num

/-- The example with line search: below 1e-8 after at most four linear solves. -/
example : ∃ s' y j, j ≤ 4 ∧
    monoRD exCurved.mono 15 1e-8 16 0 ⟨some fun _ => 0, fun _ => 0, none, []⟩ = .returned s' j ∧
    s'.trial = some y ∧ exCurved.total (exCurved.resid y) < 1e-8 := by
  have hd : distribute exCurved.aff (fun _ => (0 : ℝ)) = fun _ => 0 := by
    funext d; simp [distribute, exCurved]
  obtain ⟨s', y, j, hj, h1, h2, -, h3, -⟩ := C116_quadratic exCurved ⟨some fun _ => 0, fun _ => 0, none, []⟩
    (fun _ => 0) rfl (1 / 4) 2 2 (by rw [hd]; exact exCurved_smooth) (fun _ => rfl) (1 / 20) (1 / 5)
    (by rw [hd, exCurved_start]) (by norm_num) (by norm_num) (by norm_num)
    (fun _ => ⟨by norm_num, by simp only [exCurved]; norm_num⟩) 15 1e-8 4 (by norm_num) (by norm_num)
    (by norm_num)
  exact ⟨s', y, j, hj, h1, h2, h3⟩

/-- Its solution, and the error of a start value. -/
example : ∃ y, SpecSolution exCurved y ∧ SpecDistance exCurved (fun _ => 0) y ≤ 1 / 8 ∧
    SpecDistance exCurved (fun _ => 0) y ≤ 1 / 5 := by
  obtain ⟨y, hy, hd⟩ := C116_solution exCurved (fun _ => 0) (1 / 4) 2 2 exCurved_smooth (free_satisfies _) (1 / 20)
    (1 / 5) exCurved_start.symm (by norm_num) (by norm_num) (by norm_num)
  have h8 : SpecDistance exCurved (fun _ => 0) y ≤ 1 / 8 := by
    rw [distance_comm]; exact hd.trans (by norm_num)
  refine ⟨y, hy, h8, ?_⟩
  have := (C116_error exCurved (fun _ => 0) (1 / 4) 2 2 exCurved_smooth (fun _ => 0) y (free_satisfies _)
    (by rw [distance_self]; norm_num) hy (hd.trans (by norm_num)) (free_satisfies _)).2 (by linarith)
  rw [exCurved_start] at this
  exact this.trans (by norm_num)

end Verif.Lin
