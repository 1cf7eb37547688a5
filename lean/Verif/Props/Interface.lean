import Verif.Props.Cohesive

/-!
# C39–C43 and C65: definedness and symmetry of the interface laws, contact, degradation, tangents
-/

namespace Verif.Itf
open Matrix Finset Verif.Cry Verif.Hist

/-! ## C39 -/

/-- The closed interface whose stored previous opening is positive takes the unloading branch with
a vanishing maximum. -/
theorem traction_none_iff {d : ℕ} (c : Coh) (δ n : Vec d) (mx old dt : ℝ) (hdt : 0 < dt)
    (hm : effOpening c δ n ≤ mx) :
    c.traction δ n mx old dt = none ↔ mx = 0 ∧ 0 < old := by
  have e0 := effOpening_nonneg c δ n
  constructor
  · intro h
    rcases eq_or_lt_of_le hm with he | hl
    · rcases le_or_gt old (effOpening c δ n) with ho | ho
      · rw [traction_loading c δ n he ho hdt] at h
        exact absurd h (by simp)
      · by_cases hz : mx = 0
        · exact ⟨hz, lt_of_le_of_lt e0 ho⟩
        · rw [traction_unloading c δ n hz (branch_unloading_eq he ho hdt)] at h
          exact absurd h (by simp)
    · rw [traction_unloading c δ n (lt_of_le_of_lt e0 hl).ne' (branch_unloading_lt hl)] at h
      exact absurd h (by simp)
  · rintro ⟨hz, ho⟩
    have he : effOpening c δ n = 0 := le_antisymm (by rw [← hz]; exact hm) e0
    unfold Coh.traction
    simp only
    rw [branch_unloading_eq (he.trans hz.symm) (by rw [he]; exact ho) hdt]
    simp only
    rw [if_pos hz]

/-- C39: after `update_values` with the current effective opening, the traction is a vector of
numbers except exactly when interface and history are fully closed and a positive previous opening
was recorded. -/
theorem C39_defined_iff {d : ℕ} (p : DamagePrm) (c : Coh) (δ n : Vec d) (s : Iface) (dt : ℝ)
    (hdt : 0 < dt) :
    c.traction δ n (s.updateOrtiz p (effOpening c δ n)).maxOpening
        (s.updateOrtiz p (effOpening c δ n)).oldOpening dt = none ↔
      (max s.tmpMax (effOpening c δ n) = 0 ∧ 0 < s.oldOpening) :=
  traction_none_iff c δ n _ _ dt hdt (le_max_right _ _)

/-- A step as the solver performs it when the recorded opening is the effective one. -/
def SpecFaithfulRecord (steps : List IfaceStep) : Prop :=
  ∀ s ∈ steps, s.measured = s.opening ∧ 0 ≤ s.opening

theorem faithful_inv (p : DamagePrm) (steps : List IfaceStep) :
    ∀ s : Iface, SpecFaithfulRecord steps → s.oldOpening ≤ s.maxOpening →
      (steps.foldl (Iface.step p) s).oldOpening ≤ (steps.foldl (Iface.step p) s).maxOpening := by
  induction steps with
  | nil => intro s _ h; exact h
  | cons a as ih =>
    intro s hf h
    rw [List.foldl_cons]
    apply ih
    · exact fun x hx => hf x (List.mem_cons_of_mem _ hx)
    · have := (hf a List.mem_cons_self).1
      unfold Iface.step Iface.storeOpening Iface.updateOrtiz
      simp only
      rw [this]
      exact le_max_right _ _

/-- C39, for histories in which every recorded opening is the effective one (the interface was
never in compression, C41): the traction is defined at every later evaluation, in any opening state
and however many trial evaluations precede it.  Missing from the full property: histories with
compression, for which it is false (`C39_violated`). -/
theorem C39_defined_partial {d : ℕ} (p : DamagePrm) (c : Coh) (steps : List IfaceStep)
    (hf : SpecFaithfulRecord steps) (δ n : Vec d) (dt : ℝ) (hdt : 0 < dt) :
    let s := ((steps.foldl (Iface.step p) Iface.new).store).updateOrtiz p (effOpening c δ n)
    c.traction δ n s.maxOpening s.oldOpening dt ≠ none := by
  intro s h
  have h' := (C39_defined_iff p c δ n ((steps.foldl (Iface.step p) Iface.new).store) dt hdt).1 h
  have inv := faithful_inv p steps Iface.new hf le_rfl
  obtain ⟨a, b⟩ := h'
  unfold Iface.store at a b
  simp only at a b
  have := le_max_left (steps.foldl (Iface.step p) Iface.new).maxOpening (effOpening c δ n)
  rw [a] at this
  linarith

/-- Non-vacuity: a history that opens and closes again. -/
example : SpecFaithfulRecord [⟨[.update 3], 1, 1⟩, ⟨[], 0, 0⟩] := by
  intro s hs
  simp only [List.mem_cons, List.not_mem_nil, or_false] at hs
  rcases hs with rfl | rfl <;> norm_num

theorem eff_compressed (c : Coh) : effOpening c (![-1, 0] : Vec 2) ![1, 0] = 0 := by
  have h := effOpening_sq c (![-1, 0] : Vec 2) ![1, 0]
  rw [tangential_mulVec] at h
  have e1 : macaulay ((![1, 0] : Vec 2) ⬝ᵥ ![-1, 0]) = 0 := macaulay_of_nonpos (by simp)
  rw [e1] at h
  simp at h
  exact h

theorem stored_compressed (ratio : ℝ) :
    storedOpening ratio (![-1, 0] : Vec 2) ![0, 0] ![1, 0] = 1 := by
  unfold storedOpening
  simp only
  rw [normalProjector_mulVec, tangential_mulVec]
  simp [macaulay, norm2]

/-- C39 is violated: from the initial state, one step in which the interface is compressed
records a positive previous opening (`store_effective_opening_displacement`), and in the next step
the traction of the still compressed interface is not a number, for all material parameters. -/
theorem C39_violated (p : DamagePrm) (c : Coh) :
    let δ : Vec 2 := ![-1, 0]
    let n : Vec 2 := ![1, 0]
    let step : IfaceStep := ⟨[], effOpening c δ n, storedOpening c.ratio δ ![0, 0] n⟩
    let s := ((Iface.new.step p step).store).updateOrtiz p (effOpening c δ n)
    c.traction δ n s.maxOpening s.oldOpening 1 = none := by
  intro δ n step s
  rw [C39_defined_iff p c δ n _ 1 one_pos]
  have e1 : effOpening c δ n = 0 := eff_compressed c
  have e2 : storedOpening c.ratio δ ![0, 0] n = 1 := stored_compressed c.ratio
  simp only [step, Iface.step, Iface.new, Iface.store, Iface.updateOrtiz, Iface.storeOpening,
    e1, e2, List.foldl_nil, max_self]
  norm_num

/-! ## C40 -/

theorem effOpening_flip {d : ℕ} (c : Coh) (δ n : Vec d) :
    effOpening c (-δ) (-n) = effOpening c δ n := by
  unfold effOpening
  simp only
  rw [tangential_neg, mulVec_neg, norm2_neg, neg_dotProduct_neg]

theorem raw_flip {d : ℕ} (c : Coh) (δ n : Vec d) :
    rawDirection c (-δ) (-n) = -rawDirection c δ n := by
  unfold rawDirection
  rw [tangential_neg, mulVec_neg, neg_dotProduct_neg, smul_neg, smul_neg, neg_add]

theorem direction_flip {d : ℕ} (c : Coh) (δ n : Vec d) :
    direction c (-δ) (-n) = -direction c δ n := by
  unfold direction
  rw [effOpening_flip, raw_flip]
  split_ifs with h
  · rw [smul_neg]
  · rfl

/-- C40: seen from the other cell (opening and normal negated) the effective opening is the same,
and the cohesive traction is opposite, whatever the history. -/
theorem C40_cohesive {d : ℕ} (c : Coh) (δ n : Vec d) (mx old dt : ℝ) :
    effOpening c (fun i => -δ i) (fun i => -n i) = effOpening c δ n ∧
    c.traction (fun i => -δ i) (fun i => -n i) mx old dt =
      (c.traction δ n mx old dt).map fun t i => -t i := by
  change effOpening c (-δ) (-n) = _ ∧ c.traction (-δ) (-n) mx old dt = _
  refine ⟨effOpening_flip c δ n, ?_⟩
  unfold Coh.traction
  simp only
  rw [effOpening_flip, direction_flip]
  cases branch (effOpening c δ n) mx old dt with
  | loading => simp only [Option.map_some]; congr 1; ext i; simp
  | unloading =>
    simp only
    split_ifs
    · rfl
    · simp only [Option.map_some]; congr 1; ext i; simp
  | neither => simp only [Option.map_some]; congr 1; ext i; simp

/-- C40: the contact traction is opposite. -/
theorem C40_contact {d : ℕ} (c : Contact) (δ n : Vec d) (i : Fin d) :
    c.traction (fun i => -δ i) (fun i => -n i) i = -c.traction δ n i := by
  change c.traction (-δ) (-n) i = _
  unfold Contact.traction
  rw [neg_dotProduct_neg]
  simp

/-- C40: the tangents are the same from both sides. -/
theorem C40_tangents {d : ℕ} (c : Coh) (k : Contact) (δ n : Vec d) (mx old dt : ℝ) :
    c.jacobian (fun i => -δ i) (fun i => -n i) mx old dt = c.jacobian δ n mx old dt ∧
    k.jacobian (fun i => -δ i) (fun i => -n i) = k.jacobian δ n := by
  change c.jacobian (-δ) (-n) mx old dt = _ ∧ k.jacobian (-δ) (-n) = _
  constructor
  · have e1 : effIdentity c (-δ) (-n) = effIdentity c δ n := by
      unfold effIdentity
      rw [normalProjector_neg, tangential_neg, neg_dotProduct_neg]
    have e2 : outer (-direction c δ n) (-direction c δ n) =
        outer (direction c δ n) (direction c δ n) := by
      ext i j; simp [outer]
    unfold Coh.jacobian
    simp only
    rw [effOpening_flip, direction_flip, e1, e2]
  · unfold Contact.jacobian
    rw [neg_dotProduct_neg, normalProjector_neg]

/-- Non-vacuity: a sheared and opened interface has a non-zero traction that flips. -/
example : ∃ (c : Coh) (δ n t : Vec 2), c.traction δ n (effOpening c δ n) 0 1 = some t ∧
    c.traction (fun i => -δ i) (fun i => -n i) (effOpening c δ n) 0 1 = some (fun i => -t i) ∧
    t ≠ 0 := by
  have e : effOpening ⟨700, 1, 1, 1, 1⟩ (![1, 0] : Vec 2) ![1, 0] = 1 := by
    have := effOpening_sq ⟨700, 1, 1, 1, 1⟩ (![1, 0] : Vec 2) ![1, 0]
    rw [tangential_mulVec] at this
    simp [macaulay] at this
    have h0 := effOpening_nonneg ⟨700, 1, 1, 1, 1⟩ (![1, 0] : Vec 2) ![1, 0]
    nlinarith
  have ht := traction_loading ⟨700, 1, 1, 1, 1⟩ (![1, 0] : Vec 2) ![1, 0] (old := 0) (dt := 1)
    rfl (by rw [e]; norm_num) (by norm_num)
  refine ⟨⟨700, 1, 1, 1, 1⟩, ![1, 0], ![1, 0], _, ht, ?_, ?_⟩
  · rw [(C40_cohesive _ _ _ _ _ _).2, ht]; rfl
  · intro h
    have := congrFun h 0
    simp [e, Coh.scalar, direction, rawDirection, macaulay, tangential_mulVec] at this

/-! ## C41 -/

/-- C41, for interfaces that are not compressed: the recorded value is the effective opening.
Missing: compressed interfaces, for which it is false (`C41_violated`). -/
theorem C41_stored_partial {d : ℕ} (c : Coh) (u un n : Vec d) (hn : ∑ i, n i * n i = 1)
    (hδ : 0 ≤ ∑ i, n i * (un i - u i)) :
    storedOpening c.ratio u un n = effOpening c (fun i => un i - u i) n := by
  have hnn : n ⬝ᵥ n = 1 := hn
  have hn1 : norm2 n = 1 := by unfold norm2; rw [hnn]; simp
  have hδ' : 0 ≤ n ⬝ᵥ (un - u) := hδ
  change _ = effOpening c (un - u) n
  have e : u - un = -(un - u) := by simp
  unfold storedOpening effOpening
  simp only
  rw [e, mulVec_neg, mulVec_neg, norm2_neg, norm2_neg, normalProjector_mulVec, norm2_smul, hn1,
    mul_one, abs_of_nonneg hδ']

/-- C41: what is recorded in general: the compressive part counts as opening. -/
theorem C41_stored_general {d : ℕ} (c : Coh) (u un n : Vec d) (hn : ∑ i, n i * n i = 1) :
    storedOpening c.ratio u un n ^ 2 = (∑ i, n i * (un i - u i)) ^ 2 +
      c.ratio ^ 2 * ∑ i, (un i - u i - (∑ j, n j * (un j - u j)) * n i) ^ 2 := by
  have hnn : n ⬝ᵥ n = 1 := hn
  have hn1 : norm2 n = 1 := by unfold norm2; rw [hnn]; simp
  have e : u - un = -(un - u) := by simp
  have e2 : ∑ i, (un i - u i - (∑ j, n j * (un j - u j)) * n i) ^ 2 =
      norm2 (tangentialProjector n *ᵥ (un - u)) * norm2 (tangentialProjector n *ᵥ (un - u)) := by
    rw [norm2_sq, tangential_mulVec]
    simp only [dotProduct, Pi.sub_apply, Pi.smul_apply, smul_eq_mul]
    exact Finset.sum_congr rfl fun i _ => by ring
  rw [e2]
  change _ = (n ⬝ᵥ (un - u)) ^ 2 + _
  unfold storedOpening
  simp only
  rw [e, mulVec_neg, mulVec_neg, norm2_neg, norm2_neg, normalProjector_mulVec, norm2_smul, hn1,
    mul_one, macaulay_of_nonneg (abs_nonneg _), Real.sq_sqrt]
  · rw [abs_mul_abs_self]; ring
  · have := mul_self_nonneg |n ⬝ᵥ (un - u)|
    have h2 := mul_nonneg (mul_self_nonneg c.ratio)
      (mul_self_nonneg (norm2 (tangentialProjector n *ᵥ (un - u))))
    nlinarith

/-- C41: the law of the next step sees the opening measured last: whatever steps went before, and whatever trial states are
evaluated and rejected, the previous opening is the measured one. -/
theorem C41_kept (p : DamagePrm) (s : Iface) (steps : List IfaceStep) (t : IfaceStep) (trials : List IfaceOp) :
    (trials.foldl (Iface.op p) (Iface.store ((steps ++ [t]).foldl (Iface.step p) s))).oldOpening = t.measured := by
  have h : ∀ (l : List IfaceOp) (r : Iface), (l.foldl (Iface.op p) r).oldOpening = r.oldOpening := by
    intro l
    induction l with
    | nil => exact fun _ => rfl
    | cons o l ih =>
      intro r
      rw [List.foldl_cons, ih]
      cases o <;> rfl
  rw [h, List.foldl_append]
  rfl

example (p : DamagePrm) : ([.update 9, .reset, .update 4].foldl (Iface.op p)
    (Iface.store ([⟨[.update 1], 2, 3⟩, ⟨[], 6, 5⟩].foldl (Iface.step p) Iface.new))).oldOpening = 5 :=
  C41_kept p Iface.new [⟨[.update 1], 2, 3⟩] ⟨[], 6, 5⟩ [.update 9, .reset, .update 4]

/-- C41 is violated in compression, for all material parameters. -/
theorem C41_violated (c : Coh) : ∃ u un n : Vec 2, (∑ i, n i * n i = 1) ∧
    storedOpening c.ratio u un n ≠ effOpening c (fun i => un i - u i) n := by
  refine ⟨![1, 0], ![0, 0], ![1, 0], by simp, ?_⟩
  have e1 : (fun i => (![0, 0] : Vec 2) i - (![1, 0] : Vec 2) i) = ![-1, 0] := by
    funext i; fin_cases i <;> simp
  rw [e1, eff_compressed]
  have : storedOpening c.ratio (![1, 0] : Vec 2) ![0, 0] ![1, 0] = 1 := by
    unfold storedOpening
    simp only
    rw [normalProjector_mulVec, tangential_mulVec]
    simp [macaulay, norm2]
  rw [this]; norm_num

/-! ## C42 -/

/-- C42: no contact traction on an open or closed, not penetrating, interface. -/
theorem C42_open {d : ℕ} (c : Contact) (δ n : Vec d) (h : 0 ≤ ∑ i, δ i * n i) (i : Fin d) :
    c.traction δ n i = 0 := by
  have : macaulay (-(δ ⬝ᵥ n)) = 0 :=
    macaulay_of_nonpos (by have : 0 ≤ δ ⬝ᵥ n := h; linarith)
  unfold Contact.traction
  rw [this]; simp

/-- C42: on penetration the traction is normal, proportional to the penetration, points against
the normal, and does non-negative work on the opening (the sign with which an elastic traction
resists the opening displacement). -/
theorem C42_penetration {d : ℕ} (c : Contact) (hp : 0 ≤ c.penalty) (hs : 0 < c.charStress)
    (hd : 0 < c.charDisp) (δ n : Vec d) (hn : ∑ i, n i * n i = 1) (h : ∑ i, δ i * n i ≤ 0) :
    (∀ i, c.traction δ n i =
      c.penalty * c.charDisp / c.charStress * (∑ j, δ j * n j) * n i) ∧
    ∑ i, c.traction δ n i * n i ≤ 0 ∧ 0 ≤ ∑ i, c.traction δ n i * δ i := by
  have hnn : n ⬝ᵥ n = 1 := hn
  have e : c.traction δ n =
      (c.penalty * c.charDisp / c.charStress * (∑ j, δ j * n j)) • n := by
    unfold Contact.traction
    have h' : δ ⬝ᵥ n ≤ 0 := h
    rw [macaulay_of_nonneg (by linarith), ← neg_smul]
    congr 1
    change _ = c.penalty * c.charDisp / c.charStress * (δ ⬝ᵥ n)
    ring
  have k : 0 ≤ c.penalty * c.charDisp / c.charStress := by positivity
  refine ⟨fun i => by rw [e]; simp, ?_, ?_⟩
  · change c.traction δ n ⬝ᵥ n ≤ 0
    rw [e, smul_dotProduct, hnn, smul_eq_mul, mul_one]
    exact mul_nonpos_of_nonneg_of_nonpos k h
  · change 0 ≤ c.traction δ n ⬝ᵥ δ
    rw [e, smul_dotProduct, smul_eq_mul, dotProduct_comm n δ]
    change 0 ≤ _ * (δ ⬝ᵥ n) * (δ ⬝ᵥ n)
    rw [mul_assoc]
    exact mul_nonneg k (mul_self_nonneg _)

/-- C42: the contact traction is a continuous function of the opening. -/
theorem C42_continuous {d : ℕ} (c : Contact) (n : Vec d) :
    Continuous fun δ : Vec d => c.traction δ n := by
  have hm : ∀ x : ℝ, macaulay x = max x 0 := by
    intro x
    unfold macaulay
    split_ifs with h
    · exact (max_eq_left h.le).symm
    · exact (max_eq_right (not_lt.1 h)).symm
  unfold Contact.traction
  simp only [hm]
  have : Continuous fun δ : Vec d => δ ⬝ᵥ n := by
    unfold dotProduct; fun_prop
  fun_prop

/-- C42: away from closure, characteristic displacement times `get_jacobian` is the derivative of
the traction in every direction.  The property asks for `get_jacobian` itself: equal for the
characteristic displacement 1 only (`C42_violated_scaling`). -/
theorem C42_tangent_partial {d : ℕ} (c : Contact) (δ n h : Vec d) (hδ : ∑ i, δ i * n i ≠ 0)
    (i : Fin d) :
    HasDerivAt (fun t : ℝ => c.traction (fun j => δ j + t * h j) n i)
      (c.charDisp * ∑ j, c.jacobian δ n i j * h j) 0 := by
  have hδ' : δ ⬝ᵥ n ≠ 0 := hδ
  have eJ : ∑ j, c.jacobian δ n i j * h j =
      c.penalty / c.charStress * macaulayUnit (-(δ ⬝ᵥ n)) * ((n ⬝ᵥ h) * n i) := by
    change (c.jacobian δ n *ᵥ h) i = _
    unfold Contact.jacobian
    rw [smul_mulVec, normalProjector_mulVec]
    simp
  have lin : HasDerivAt (fun t : ℝ => (fun j => δ j + t * h j) ⬝ᵥ n) (h ⬝ᵥ n) 0 := by
    have : (fun t : ℝ => (fun j => δ j + t * h j) ⬝ᵥ n) = fun t => δ ⬝ᵥ n + t * (h ⬝ᵥ n) := by
      funext t
      simp only [dotProduct, Finset.mul_sum, ← Finset.sum_add_distrib]
      exact Finset.sum_congr rfl fun j _ => by ring
    rw [this]
    simpa using ((hasDerivAt_id' (0 : ℝ)).mul_const (h ⬝ᵥ n)).const_add (δ ⬝ᵥ n)
  have c0 : (fun j => δ j + (0 : ℝ) * h j) ⬝ᵥ n = δ ⬝ᵥ n := by simp
  have cont := lin.continuousAt
  rw [eJ]
  rcases lt_or_gt_of_ne hδ' with hneg | hpos
  · have ev : ∀ᶠ t in nhds (0 : ℝ), c.traction (fun j => δ j + t * h j) n i =
        c.penalty / c.charStress * c.charDisp * ((fun j => δ j + t * h j) ⬝ᵥ n) * n i := by
      have := cont.eventually_lt (continuousAt_const (y := (0 : ℝ))) (by rw [c0]; exact hneg)
      filter_upwards [this] with t ht
      unfold Contact.traction
      rw [macaulay_of_nonneg (by linarith)]
      simp only [Pi.neg_apply, Pi.smul_apply, smul_eq_mul]
      ring
    refine HasDerivAt.congr_of_eventuallyEq ?_ ev
    refine ((lin.const_mul (c.penalty / c.charStress * c.charDisp)).mul_const (n i)).congr_deriv ?_
    have hu : macaulayUnit (-(δ ⬝ᵥ n)) = 1 := by
      unfold macaulayUnit
      rw [if_neg (by simpa using hδ'), abs_of_nonneg (by linarith), div_self (by simpa using hδ')]
      exact macaulay_of_nonneg zero_le_one
    rw [hu, dotProduct_comm h n]
    ring
  · have ev : ∀ᶠ t in nhds (0 : ℝ), c.traction (fun j => δ j + t * h j) n i = 0 := by
      have := (continuousAt_const (y := (0 : ℝ))).eventually_lt cont (by rw [c0]; exact hpos)
      filter_upwards [this] with t ht
      exact C42_open c _ n ht.le i
    refine HasDerivAt.congr_of_eventuallyEq ?_ ev
    refine (hasDerivAt_const (0 : ℝ) (0 : ℝ)).congr_deriv ?_
    have hu : macaulayUnit (-(δ ⬝ᵥ n)) = 0 := by
      unfold macaulayUnit
      rw [if_neg (by simpa using hδ')]
      refine macaulay_of_nonpos (div_nonpos_of_nonpos_of_nonneg (by linarith) (abs_nonneg _))
    rw [hu]; simp

/-- C42 is violated for every characteristic displacement other than 1 (positive penalty): there
is a penetrating state in which `get_jacobian` is not the derivative of the traction. -/
theorem C42_violated_scaling (c : Contact) (hp : 0 < c.penalty) (hs : 0 < c.charStress)
    (hd : c.charDisp ≠ 1) : ∃ δ n h : Vec 2, (∑ i, n i * n i = 1) ∧ (∑ i, δ i * n i ≠ 0) ∧
      ¬ HasDerivAt (fun t : ℝ => c.traction (fun j => δ j + t * h j) n 0)
        (∑ j, c.jacobian δ n 0 j * h j) 0 := by
  refine ⟨![-1, 0], ![1, 0], ![1, 0], by simp, by simp, fun H => ?_⟩
  have h1 := C42_tangent_partial c ![-1, 0] ![1, 0] ![1, 0] (by simp) 0
  have e := H.unique h1
  have eJ : ∑ j, c.jacobian (![-1, 0] : Vec 2) ![1, 0] 0 j * (![1, 0] : Vec 2) j =
      c.penalty / c.charStress := by
    change (c.jacobian (![-1, 0] : Vec 2) ![1, 0] *ᵥ ![1, 0]) 0 = _
    unfold Contact.jacobian
    rw [smul_mulVec, normalProjector_mulVec]
    simp [macaulayUnit, macaulay]
  rw [eJ] at e
  have hk : c.penalty / c.charStress ≠ 0 := (div_pos hp hs).ne'
  apply hd
  have : c.charDisp * (c.penalty / c.charStress) = 1 * (c.penalty / c.charStress) := by
    rw [one_mul]; exact e.symm
  exact mul_right_cancel₀ hk this

/-- Non-vacuity: a penetrating state with a positive contact force. -/
example : ∃ (c : Contact) (δ n : Vec 2), 0 ≤ c.penalty ∧ (∑ i, n i * n i = 1) ∧
    (∑ i, δ i * n i ≤ 0) ∧ c.traction δ n 0 = -8 :=
  ⟨⟨2, 1, 4⟩, ![-1, 0], ![1, 0], by norm_num, by simp, by simp,
    by simp [Contact.traction, macaulay]; norm_num⟩

/-! ## C43 -/

/-- C43: coupled, the degradation is 1 at no damage, within [0,1], decreasing, and 0 at full
damage for a positive exponent; uncoupled it is 1. -/
theorem C43_degradation (m : ℝ) (hm : 0 ≤ m) :
    degradation m 0 true = 1 ∧ (0 < m → degradation m 1 true = 0) ∧
    (∀ d, 0 ≤ d → d ≤ 1 → 0 ≤ degradation m d true ∧ degradation m d true ≤ 1) ∧
    (∀ d e, 0 ≤ d → d ≤ e → e ≤ 1 → degradation m e true ≤ degradation m d true) ∧
    (∀ d, degradation m d false = 1) := by
  refine ⟨by simp [degradation], fun h => by simp [degradation, h.ne'], fun d h0 h1 => ⟨?_, ?_⟩,
    fun d e h0 h1 h2 => ?_, fun d => by simp [degradation]⟩
  · simp only [degradation, if_true]; exact Real.rpow_nonneg (by linarith) _
  · simp only [degradation, if_true]; exact Real.rpow_le_one (by linarith) (by linarith) hm
  · simp only [degradation, if_true]
    exact Real.rpow_le_rpow (by linarith) (by linarith) hm

/-- C43: coupled, the derivative value is the derivative: for every damage below one, and for
exponents of at least one everywhere in [0,1] (where it is finite). Missing: the uncoupled case,
`C43_violated_uncoupled`. -/
theorem C43_derivative_partial (m d : ℝ) (h : d < 1 ∨ (d ≤ 1 ∧ 1 ≤ m)) :
    ∃ g, degradationDerivative m d true = some g ∧
      HasDerivAt (fun x => degradation m x true) g d := by
  have hg : degradationDerivative m d true = some (-m * (1 - d) ^ (m - 1)) := by
    unfold degradationDerivative fpow
    rw [if_pos rfl, if_neg]
    · rfl
    · rintro ⟨h1, h2⟩
      rcases h with h | h
      · linarith
      · linarith [h.2]
  refine ⟨_, hg, ?_⟩
  have e : (fun x => degradation m x true) = fun x => (1 - x) ^ m := by
    funext x; simp [degradation]
  rw [e]
  have h1 : HasDerivAt (fun x : ℝ => 1 - x) (-1) d := by
    simpa using (hasDerivAt_id' d).const_sub 1
  have h2 := h1.rpow_const (p := m) (by
    rcases h with h | h
    · exact Or.inl (by linarith)
    · exact Or.inr h.2)
  refine h2.congr_deriv (by ring)

/-- C43 is violated for uncoupled interfaces: the value is constantly 1 but the derivative value
is 1. -/
theorem C43_violated_uncoupled (m d : ℝ) :
    HasDerivAt (fun x => degradation m x false) 0 d ∧ degradationDerivative m d false = some 1 ∧
      ¬ HasDerivAt (fun x => degradation m x false) 1 d := by
  have h0 : HasDerivAt (fun x => degradation m x false) 0 d := by
    simpa [degradation] using hasDerivAt_const d (1 : ℝ)
  refine ⟨h0, by simp [degradationDerivative], fun h1 => ?_⟩
  exact absurd (h0.unique h1) (by norm_num)

/-- C43 is violated for the exponent 0, which the parameter file accepts
(`source/run_time_parameters.cc:343-345`, pattern `Double(0.0)`): full damage does not degrade. For
exponents below one the derivative value at full damage is infinite. -/
theorem C43_violated_small_exponents (m : ℝ) (hm : m < 1) :
    degradation 0 1 true = 1 ∧ degradationDerivative m 1 true = none := by
  refine ⟨by simp [degradation], ?_⟩
  unfold degradationDerivative fpow
  rw [if_pos rfl, if_pos ⟨by norm_num, by linarith⟩]
  rfl

/-- Non-vacuity: quadratic degradation at half damage. -/
example : degradation 2 (1 / 2) true = 1 / 4 := by norm_num [degradation]

/-! ## C65: the cohesive tangent -/

theorem effIdentity_mulVec {d : ℕ} (c : Coh) (δ n h : Vec d) :
    effIdentity c δ n *ᵥ h = macaulayUnit (n ⬝ᵥ δ) • ((n ⬝ᵥ h) • n) +
      (c.ratio * c.ratio) • (tangentialProjector n *ᵥ h) := by
  unfold effIdentity
  rw [add_mulVec, smul_mulVec, smul_mulVec, normalProjector_mulVec]

theorem macaulayUnit_deriv (x : ℝ) (hx : x ≠ 0) : HasDerivAt macaulay (macaulayUnit x) x := by
  rcases lt_or_gt_of_ne hx with h | h
  · have e : macaulayUnit x = 0 := by
      unfold macaulayUnit
      rw [if_neg hx]
      exact macaulay_of_nonpos (div_nonpos_of_nonpos_of_nonneg h.le (abs_nonneg _))
    rw [e]
    refine HasDerivAt.congr_of_eventuallyEq (hasDerivAt_const x (0 : ℝ)) ?_
    filter_upwards [gt_mem_nhds h] with y hy
    exact macaulay_of_nonpos (le_of_lt hy)
  · have e : macaulayUnit x = 1 := by
      unfold macaulayUnit
      rw [if_neg hx, abs_of_pos h, div_self hx]
      exact macaulay_of_nonneg zero_le_one
    rw [e]
    refine HasDerivAt.congr_of_eventuallyEq (hasDerivAt_id' x) ?_
    filter_upwards [lt_mem_nhds h] with y hy
    exact macaulay_of_nonneg (le_of_lt hy)

theorem dot_line {d : ℕ} (δ h a : Vec d) :
    HasDerivAt (fun t : ℝ => a ⬝ᵥ (fun j => δ j + t * h j)) (a ⬝ᵥ h) 0 := by
  have : (fun t : ℝ => a ⬝ᵥ (fun j => δ j + t * h j)) = fun t => a ⬝ᵥ δ + t * (a ⬝ᵥ h) := by
    funext t
    simp only [dotProduct, Finset.mul_sum, ← Finset.sum_add_distrib]
    exact Finset.sum_congr rfl fun j _ => by ring
  rw [this]
  simpa using ((hasDerivAt_id' (0 : ℝ)).mul_const (a ⬝ᵥ h)).const_add (a ⬝ᵥ δ)

theorem line_zero {d : ℕ} (δ h : Vec d) : (fun j => δ j + (0 : ℝ) * h j) = δ := by
  funext j; simp

/-- The un-normalised direction is differentiable away from the closed state. -/
theorem raw_line {d : ℕ} (c : Coh) (δ n h : Vec d) (hδ : n ⬝ᵥ δ ≠ 0) (i : Fin d) :
    HasDerivAt (fun t : ℝ => rawDirection c (fun j => δ j + t * h j) n i)
      ((effIdentity c δ n *ᵥ h) i) 0 := by
  rw [effIdentity_mulVec]
  have h1 := dot_line δ h n
  have h2 : HasDerivAt macaulay (macaulayUnit (n ⬝ᵥ δ)) (n ⬝ᵥ (fun j => δ j + (0 : ℝ) * h j)) := by
    rw [line_zero]; exact macaulayUnit_deriv _ hδ
  have h3 : HasDerivAt (fun t : ℝ => macaulay (n ⬝ᵥ (fun j => δ j + t * h j)))
      (macaulayUnit (n ⬝ᵥ δ) * (n ⬝ᵥ h)) 0 := by
    have := HasDerivAt.comp (0 : ℝ) h2 h1
    exact this
  have h4 : HasDerivAt (fun t : ℝ => (tangentialProjector n *ᵥ (fun j => δ j + t * h j)) i)
      ((tangentialProjector n *ᵥ h) i) 0 := dot_line δ h (tangentialProjector n i)
  have h5 := (h3.mul_const (n i)).add (h4.const_mul (c.ratio * c.ratio))
  have h6 : HasDerivAt (fun t : ℝ => rawDirection c (fun j => δ j + t * h j) n i) _ 0 := h5
  refine h6.congr_deriv ?_
  simp only [Pi.add_apply, Pi.smul_apply, smul_eq_mul]
  ring

/-- The derivative of the effective opening is the effective direction. -/
theorem eff_line {d : ℕ} (c : Coh) (δ n h : Vec d) (hn : n ⬝ᵥ n = 1) (hδ : n ⬝ᵥ δ ≠ 0)
    (he : effOpening c δ n ≠ 0) :
    HasDerivAt (fun t : ℝ => effOpening c (fun j => δ j + t * h j) n)
      (direction c δ n ⬝ᵥ h) 0 := by
  have h1 := dot_line δ h n
  have h2 : HasDerivAt macaulay (macaulayUnit (n ⬝ᵥ δ)) (n ⬝ᵥ (fun j => δ j + (0 : ℝ) * h j)) := by
    rw [line_zero]; exact macaulayUnit_deriv _ hδ
  have h3 : HasDerivAt (fun t : ℝ => macaulay (n ⬝ᵥ (fun j => δ j + t * h j)))
      (macaulayUnit (n ⬝ᵥ δ) * (n ⬝ᵥ h)) 0 := by
    have := HasDerivAt.comp (0 : ℝ) h2 h1
    exact this
  have h4 : ∀ i, HasDerivAt (fun t : ℝ => (tangentialProjector n *ᵥ (fun j => δ j + t * h j)) i)
      ((tangentialProjector n *ᵥ h) i) 0 := fun i => dot_line δ h (tangentialProjector n i)
  have h5 : HasDerivAt (fun t : ℝ => (tangentialProjector n *ᵥ (fun j => δ j + t * h j)) ⬝ᵥ
      (tangentialProjector n *ᵥ (fun j => δ j + t * h j)))
      (∑ i, ((tangentialProjector n *ᵥ h) i * (tangentialProjector n *ᵥ (fun j => δ j + (0:ℝ) * h j)) i +
        (tangentialProjector n *ᵥ (fun j => δ j + (0:ℝ) * h j)) i * (tangentialProjector n *ᵥ h) i)) 0 :=
    HasDerivAt.fun_sum fun i _ => (h4 i).mul (h4 i)
  have h6 := (h3.fun_mul h3).fun_add (h5.const_mul (c.ratio * c.ratio))
  have sqf : (fun t : ℝ => effOpening c (fun j => δ j + t * h j) n) = fun t : ℝ =>
      √(macaulay (n ⬝ᵥ (fun j => δ j + t * h j)) * macaulay (n ⬝ᵥ (fun j => δ j + t * h j)) +
        c.ratio * c.ratio * ((tangentialProjector n *ᵥ (fun j => δ j + t * h j)) ⬝ᵥ
          (tangentialProjector n *ᵥ (fun j => δ j + t * h j)))) := by
    funext t
    rw [← effOpening_sq, Real.sqrt_mul_self (effOpening_nonneg _ _ _)]
  rw [sqf]
  have ne : macaulay (n ⬝ᵥ (fun j => δ j + (0:ℝ) * h j)) * macaulay (n ⬝ᵥ (fun j => δ j + (0:ℝ) * h j)) +
        c.ratio * c.ratio * ((tangentialProjector n *ᵥ (fun j => δ j + (0:ℝ) * h j)) ⬝ᵥ
          (tangentialProjector n *ᵥ (fun j => δ j + (0:ℝ) * h j))) =
      effOpening c δ n * effOpening c δ n := by
    rw [line_zero, effOpening_sq]
  have h7 := h6.sqrt (by
    rw [ne]; exact mul_self_ne_zero.2 he)
  refine HasDerivAt.congr_deriv (f := fun t : ℝ =>
      √(macaulay (n ⬝ᵥ (fun j => δ j + t * h j)) * macaulay (n ⬝ᵥ (fun j => δ j + t * h j)) +
        c.ratio * c.ratio * ((tangentialProjector n *ᵥ (fun j => δ j + t * h j)) ⬝ᵥ
          (tangentialProjector n *ᵥ (fun j => δ j + t * h j))))) h7 ?_
  rw [ne, Real.sqrt_mul_self (effOpening_nonneg _ _ _), line_zero]
  unfold direction
  rw [if_pos he, smul_dotProduct]
  unfold rawDirection
  rw [add_dotProduct, smul_dotProduct, smul_dotProduct, ← tangential_sq hn]
  simp only [smul_eq_mul, dotProduct]
  rw [show ∀ x : ℝ, (effOpening c δ n)⁻¹ * x = (2 * x) / (2 * effOpening c δ n) from
    fun x => by field_simp]
  congr 1
  have key : ∀ (v w : Vec d), ∑ i, (w i * v i + v i * w i) = 2 * ∑ i, v i * w i := by
    intro v w
    rw [Finset.mul_sum]
    exact Finset.sum_congr rfl fun i _ => by ring
  rw [key]
  have k2 : macaulayUnit (∑ i, n i * δ i) * macaulay (∑ i, n i * δ i) =
      macaulay (∑ i, n i * δ i) := by
    have hδ2 : ∑ i, n i * δ i ≠ 0 := hδ
    rcases lt_or_gt_of_ne hδ2 with h' | h'
    · rw [macaulay_of_nonpos h'.le]; simp
    · unfold macaulayUnit
      rw [if_neg hδ2, abs_of_pos h', div_self hδ2, macaulay_of_nonneg zero_le_one]; simp
  linear_combination (2 * ∑ i, n i * h i) * k2

theorem eff_cont {d : ℕ} (c : Coh) (δ n h : Vec d) :
    ContinuousAt (fun t : ℝ => effOpening c (fun j => δ j + t * h j) n) 0 := by
  have hmc : Continuous macaulay := by
    have : macaulay = fun x => max x 0 := by
      funext x
      unfold macaulay
      split_ifs with h
      · exact (max_eq_left h.le).symm
      · exact (max_eq_right (not_lt.1 h)).symm
    rw [this]; fun_prop
  have k1 : Continuous fun t : ℝ => macaulay (n ⬝ᵥ fun j => δ j + t * h j) :=
    hmc.comp (by unfold dotProduct; fun_prop)
  have k2 : Continuous fun t : ℝ => norm2 (tangentialProjector n *ᵥ fun j => δ j + t * h j) := by
    unfold norm2 mulVec dotProduct
    fun_prop
  unfold effOpening
  simp only
  exact (Real.continuous_sqrt.comp
    ((k1.mul k1).add ((continuous_const.mul k2).mul k2))).continuousAt

/-- With the maximum equal to a positive current opening, both branches give the loading law. -/
theorem traction_at_max {d : ℕ} (c : Coh) (δ n : Vec d) (old dt : ℝ) (hdt : 0 < dt)
    (hpos : 0 < effOpening c δ n) :
    c.traction δ n (effOpening c δ n) old dt =
      some (c.charStress⁻¹ • (c.scalar (c.charDisp * effOpening c δ n) • direction c δ n)) := by
  rcases le_or_gt old (effOpening c δ n) with h | h
  · exact traction_loading c δ n rfl h hdt
  · rw [traction_unloading c δ n hpos.ne' (branch_unloading_eq rfl h hdt)]
    congr 3
    field_simp

/-- C65 on loading: while the maximum follows the opening, characteristic displacement times
`get_jacobian` is the derivative of the traction, at every opening with non-zero normal part.
The property asks for `get_jacobian` itself: equal for the characteristic displacement 1 only
(`C65_violated_scaling`). -/
theorem C65_loading_partial {d : ℕ} (c : Coh) (δ n h : Vec d) (old dt : ℝ) (hdt : 0 < dt)
    (hn : ∑ i, n i * n i = 1) (hδ : ∑ i, n i * δ i ≠ 0) (hpos : 0 < effOpening c δ n)
    (ho : old ≤ effOpening c δ n) (i : Fin d) :
    ∃ J, c.jacobian δ n (effOpening c δ n) old dt = some J ∧
      HasDerivAt (fun t : ℝ =>
        ((c.traction (fun j => δ j + t * h j) n (effOpening c (fun j => δ j + t * h j) n) old
          dt).getD 0) i) (c.charDisp * ∑ j, J i j * h j) 0 := by
  have hJ : c.jacobian δ n (effOpening c δ n) old dt = some (c.charStress⁻¹ •
      ((c.tc / c.δc * Real.exp (1 - c.charDisp * effOpening c δ n / c.δc)) •
        (effIdentity c δ n - (c.charDisp * effOpening c δ n / c.δc) •
          symmetrize (outer (direction c δ n) (direction c δ n))))) := by
    unfold Coh.jacobian
    simp only
    rw [branch_loading rfl ho hdt]
  refine ⟨_, hJ, ?_⟩
  have heff := eff_line c δ n h hn hδ hpos.ne'
  have hraw := raw_line c δ n h hδ i
  have ev : ∀ᶠ t in nhds (0 : ℝ),
      ((c.traction (fun j => δ j + t * h j) n (effOpening c (fun j => δ j + t * h j) n) old
          dt).getD 0) i =
      c.charStress⁻¹ * (c.tc * c.charDisp / c.δc) *
        (Real.exp (1 - c.charDisp * effOpening c (fun j => δ j + t * h j) n / c.δc) *
          rawDirection c (fun j => δ j + t * h j) n i) := by
    have := (continuousAt_const (y := (0 : ℝ))).eventually_lt heff.continuousAt
      (by rw [line_zero]; exact hpos)
    filter_upwards [this] with t ht
    rw [traction_at_max c _ n old dt hdt ht, ← eff_smul_direction]
    simp only [Option.getD_some, Pi.smul_apply, smul_eq_mul, Coh.scalar]
    ring
  refine HasDerivAt.congr_of_eventuallyEq ?_ ev
  have hexp := (((heff.const_mul c.charDisp).div_const c.δc).const_sub 1).exp
  have hprod := (hexp.mul hraw).const_mul (c.charStress⁻¹ * (c.tc * c.charDisp / c.δc))
  refine HasDerivAt.congr_deriv (f := fun t : ℝ => c.charStress⁻¹ * (c.tc * c.charDisp / c.δc) *
        (Real.exp (1 - c.charDisp * effOpening c (fun j => δ j + t * h j) n / c.δc) *
          rawDirection c (fun j => δ j + t * h j) n i)) hprod ?_
  rw [line_zero, ← eff_smul_direction]
  have e2 : ∑ j, (c.charStress⁻¹ •
      ((c.tc / c.δc * Real.exp (1 - c.charDisp * effOpening c δ n / c.δc)) •
        (effIdentity c δ n - (c.charDisp * effOpening c δ n / c.δc) •
          symmetrize (outer (direction c δ n) (direction c δ n))))) i j * h j =
      c.charStress⁻¹ * ((c.tc / c.δc * Real.exp (1 - c.charDisp * effOpening c δ n / c.δc)) *
        ((effIdentity c δ n *ᵥ h) i - (c.charDisp * effOpening c δ n / c.δc) *
          ((direction c δ n ⬝ᵥ h) * direction c δ n i))) := by
    simp only [mulVec, dotProduct, Matrix.smul_apply, Matrix.sub_apply, symmetrize, outer,
      Matrix.of_apply, smul_eq_mul, Finset.sum_mul, Finset.mul_sum, ← Finset.sum_sub_distrib]
    exact Finset.sum_congr rfl fun j _ => by ring
  rw [e2]
  simp only [Pi.smul_apply, smul_eq_mul]
  ring

/-- C65 on unloading and reloading: the same, below a fixed maximum, including closed states with
zero tangential part. -/
theorem C65_unloading_partial {d : ℕ} (c : Coh) (hcd : c.charDisp ≠ 0) (δ n h : Vec d)
    (mx old dt : ℝ) (hδ : ∑ i, n i * δ i ≠ 0) (hlt : effOpening c δ n < mx) (i : Fin d) :
    ∃ J, c.jacobian δ n mx old dt = some J ∧
      HasDerivAt (fun t : ℝ =>
        ((c.traction (fun j => δ j + t * h j) n mx old dt).getD 0) i)
        (c.charDisp * ∑ j, J i j * h j) 0 := by
  have hm : mx ≠ 0 := (lt_of_le_of_lt (effOpening_nonneg c δ n) hlt).ne'
  have hJ : c.jacobian δ n mx old dt = some (c.charStress⁻¹ •
      ((c.scalar (c.charDisp * mx) / c.charDisp / mx) • effIdentity c δ n)) := by
    unfold Coh.jacobian
    simp only
    rw [branch_unloading_lt hlt]
    simp only
    rw [if_neg hm]
  refine ⟨_, hJ, ?_⟩
  have hraw := raw_line c δ n h hδ i
  have cont := eff_cont c δ n h
  have ev : ∀ᶠ t in nhds (0 : ℝ),
      ((c.traction (fun j => δ j + t * h j) n mx old dt).getD 0) i =
      c.charStress⁻¹ * (c.scalar (c.charDisp * mx) / mx) *
          rawDirection c (fun j => δ j + t * h j) n i := by
    have := cont.eventually_lt (continuousAt_const (y := mx)) (by rw [line_zero]; exact hlt)
    filter_upwards [this] with t ht
    rw [traction_unloading c _ n hm (branch_unloading_lt ht), ← eff_smul_direction]
    simp only [Option.getD_some, Pi.smul_apply, smul_eq_mul]
    ring
  refine HasDerivAt.congr_of_eventuallyEq ?_ ev
  refine (hraw.const_mul (c.charStress⁻¹ * (c.scalar (c.charDisp * mx) / mx))).congr_deriv ?_
  have e2 : ∑ j, (c.charStress⁻¹ •
      ((c.scalar (c.charDisp * mx) / c.charDisp / mx) • effIdentity c δ n)) i j * h j =
      c.charStress⁻¹ * ((c.scalar (c.charDisp * mx) / c.charDisp / mx) *
        (effIdentity c δ n *ᵥ h) i) := by
    simp only [mulVec, dotProduct, Matrix.smul_apply, smul_eq_mul, Finset.mul_sum]
    exact Finset.sum_congr rfl fun j _ => by ring
  rw [e2]
  field_simp

/-- C65 is violated for every positive characteristic displacement other than 1: at an unloading
opening `get_jacobian` is not the derivative of the traction. -/
theorem C65_violated_scaling (c : Coh) (hc : c.sensible) (ht : 0 < c.tc) (hd : c.charDisp ≠ 1) :
    ∃ (δ n h : Vec 2) (mx : ℝ) (J : Mat 2), (∑ i, n i * n i = 1) ∧ effOpening c δ n < mx ∧
      c.jacobian δ n mx 0 1 = some J ∧
      ¬ HasDerivAt (fun t : ℝ =>
        ((c.traction (fun j => δ j + t * h j) n mx 0 1).getD 0) 0) (∑ j, J 0 j * h j) 0 := by
  obtain ⟨h1, h2, h3, h4, h5⟩ := hc
  have e : effOpening c (![1, 0] : Vec 2) ![1, 0] = 1 := by
    have := effOpening_sq c (![1, 0] : Vec 2) ![1, 0]
    rw [tangential_mulVec] at this
    simp [macaulay] at this
    have h0 := effOpening_nonneg c (![1, 0] : Vec 2) ![1, 0]
    nlinarith
  obtain ⟨J, hJ, hD⟩ := C65_unloading_partial c h5.ne' (![1, 0] : Vec 2) ![1, 0] ![1, 0] 2 0 1
    (by simp) (by rw [e]; norm_num) 0
  refine ⟨![1, 0], ![1, 0], ![1, 0], 2, J, by simp, by rw [e]; norm_num, hJ, fun H => hd ?_⟩
  have eq := H.unique hD
  have hJ' : c.jacobian (![1, 0] : Vec 2) ![1, 0] 2 0 1 = some (c.charStress⁻¹ •
      ((c.scalar (c.charDisp * 2) / c.charDisp / 2) •
        effIdentity c (![1, 0] : Vec 2) ![1, 0])) := by
    unfold Coh.jacobian
    simp only
    rw [branch_unloading_lt (by rw [e]; norm_num)]
    simp only
    rw [if_neg (by norm_num)]
  have hJe := Option.some.inj (hJ.symm.trans hJ')
  have val : ∑ j, J 0 j * (![1, 0] : Vec 2) j =
      c.charStress⁻¹ * (c.scalar (c.charDisp * 2) / c.charDisp / 2) := by
    change (J *ᵥ ![1, 0]) 0 = _
    rw [hJe, smul_mulVec, smul_mulVec, effIdentity_mulVec, tangential_mulVec]
    simp [macaulayUnit, macaulay]
  have pos : 0 < ∑ j, J 0 j * (![1, 0] : Vec 2) j := by
    rw [val]
    have : 0 < c.scalar (c.charDisp * 2) := by unfold Coh.scalar; positivity
    positivity
  refine mul_right_cancel₀ pos.ne' ?_
  rw [one_mul]; exact eq.symm

/-- Non-vacuity of the loading theorem: default-like parameters with characteristic displacement
1, where `get_jacobian` is the derivative. -/
example : ∃ (c : Coh) (δ n : Vec 2), c.sensible ∧ c.charDisp = 1 ∧ (∑ i, n i * n i = 1) ∧
    (∑ i, n i * δ i ≠ 0) ∧ 0 < effOpening c δ n := by
  refine ⟨⟨700, 1, 1, 1, 1⟩, ![1, 0], ![1, 0], ⟨by norm_num, by norm_num, by norm_num,
    by norm_num, by norm_num⟩, rfl, by simp, by simp, ?_⟩
  have := effOpening_sq ⟨700, 1, 1, 1, 1⟩ (![1, 0] : Vec 2) ![1, 0]
  rw [tangential_mulVec] at this
  simp [macaulay] at this
  rcases lt_or_eq_of_le (effOpening_nonneg ⟨700, 1, 1, 1, 1⟩ (![1, 0] : Vec 2) ![1, 0]) with h | h
  · exact h
  · rw [← h] at this; norm_num at this

end Verif.Itf
