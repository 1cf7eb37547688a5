import Verif.Props.Turned

/-!
# Turning the specimen: runs, input and output (C101)
-/

namespace Verif.Asm
open Matrix Finset Verif.Cry Verif.Hist Verif.Micro Verif.Lin Verif.Itf

variable {d e n N : ℕ} {o : Nodes d n (Fin N)} {r : Mat d}

/-! ## Residual norms -/

theorem turn_adjoint {O : Nodes d n ℕ} (hO : O.Ok) {m : ℕ} (hm : SpecWhole O m) (f h : ℕ → ℝ) :
    ∑ g ∈ range m, O.turn r f g * h g = ∑ g ∈ range m, f g * O.turn rᵀ h g := by
  let F : ℕ × Fin d → ℝ := fun x => match O.comp x.1 with
    | .inl c => r c x.2 * f (O.sib x.1 x.2) * h x.1
    | .inr _ => 0
  let G : ℕ × Fin d → ℝ := fun x => match O.comp x.1 with
    | .inl c => f x.1 * (rᵀ c x.2 * h (O.sib x.1 x.2))
    | .inr _ => 0
  let S : ℕ → ℝ := fun g => match O.comp g with
    | .inl _ => 0
    | .inr _ => f g * h g
  have h1 : ∀ g, O.turn r f g * h g = ∑ b, F (g, b) + S g := by
    intro g
    simp only [F, S, Nodes.turn]
    rcases O.comp g with c | a
    · simp [sum_mul]
    · simp
  have h2 : ∀ g, f g * O.turn rᵀ h g = ∑ b, G (g, b) + S g := by
    intro g
    simp only [G, S, Nodes.turn]
    rcases O.comp g with c | a
    · simp [mul_sum]
    · simp
  rw [sum_congr rfl fun g _ => h1 g, sum_congr rfl fun g _ => h2 g, sum_add_distrib, sum_add_distrib]
  congr 1
  rw [← sum_product', ← sum_product']
  refine sum_nbij' (fun x => O.flip x) (fun x => O.flip x) ?_ ?_ ?_ ?_ ?_
  · rintro ⟨g, b⟩ hx
    simp only [mem_product, mem_range, mem_univ, and_true] at hx ⊢
    unfold Nodes.flip
    rcases hg : O.comp g with c | a
    · simp only; exact hm g hx c hg b
    · exact hx
  · rintro ⟨g, b⟩ hx
    simp only [mem_product, mem_range, mem_univ, and_true] at hx ⊢
    unfold Nodes.flip
    rcases hg : O.comp g with c | a
    · simp only; exact hm g hx c hg b
    · exact hx
  · intro x _; exact Nodes.flip_flip hO x
  · intro x _; exact Nodes.flip_flip hO x
  · rintro ⟨g, b⟩ _
    simp only [F, G, Nodes.flip]
    rcases hg : O.comp g with c | a
    · simp only [hO.comp g c hg, hO.same g c hg, hO.self g c hg, Matrix.transpose_apply]; ring
    · simp only [hg]

/-- C101, size of residuals and corrections: the sums of squares over the degrees of freedom, of the
displacement and of the slips, do not change. -/
theorem C101_norm {O : Nodes d n ℕ} (hO : O.Ok) (h : SpecOrthogonal r) {m : ℕ} (hm : SpecWhole O m)
    (f : ℕ → ℝ) :
    ∑ g ∈ range m, O.turn r f g ^ 2 = ∑ g ∈ range m, f g ^ 2 ∧
    ∑ g ∈ (range m).filter (fun g => (O.comp g).isRight), O.turn r f g ^ 2 =
      ∑ g ∈ (range m).filter (fun g => (O.comp g).isRight), f g ^ 2 ∧
    ∑ g ∈ (range m).filter (fun g => ¬ (O.comp g).isRight), O.turn r f g ^ 2 =
      ∑ g ∈ (range m).filter (fun g => ¬ (O.comp g).isRight), f g ^ 2 := by
  have h1 : ∑ g ∈ range m, O.turn r f g ^ 2 = ∑ g ∈ range m, f g ^ 2 := by
    simp only [pow_two]
    rw [turn_adjoint hO hm f (O.turn r f), O.turn_back hO h]
  have h2 : ∑ g ∈ (range m).filter (fun g => (O.comp g).isRight), O.turn r f g ^ 2 =
      ∑ g ∈ (range m).filter (fun g => (O.comp g).isRight), f g ^ 2 := by
    refine sum_congr rfl fun g hg => ?_
    have := (mem_filter.1 hg).2
    unfold Nodes.turn
    rcases hc : O.comp g with c | a
    · rw [hc] at this; cases this
    · rfl
  refine ⟨h1, h2, ?_⟩
  rw [← sum_filter_add_sum_filter_not (range m) (fun g => (O.comp g).isRight = true) fun g => O.turn r f g ^ 2,
    ← sum_filter_add_sum_filter_not (range m) (fun g => (O.comp g).isRight = true) fun g => f g ^ 2, h2] at h1
  exact add_left_cancel h1

/-! ## Newton updates -/

/-- What deal.II puts on the diagonal of a constrained degree of freedom, summed over the cells. -/
noncomputable def diagonal (cells : List (Local N)) (g : ℕ) : ℝ :=
  (cells.map fun a => ∑ i, if a.dofs i = g then a.diag i else 0).sum

/-- The system without that diagonal applied to a vector. -/
noncomputable def applied (K : Sol.Constraints ℕ) (cells : List (Local N)) (m : ℕ) (x : ℕ → ℝ) (g : ℕ) : ℝ :=
  (cells.map fun a =>
    ∑ i, weight K (a.dofs i) g * ∑ j, a.mat i j * ∑ c ∈ range m, weight K (a.dofs j) c * x c +
    (a.couplings.map fun b =>
      ∑ i, weight K (a.dofs i) g * ∑ j, b.2 i j * ∑ c ∈ range m, weight K (b.1 j) c * x c).sum).sum

theorem weight_constrained {K : Sol.Constraints ℕ} (hK : Sol.Closed K) {g k : ℕ} (hk : K k ≠ none) :
    weight K g k = 0 := by
  unfold weight
  rcases hg : K g with _ | l
  · exact if_neg fun e => hk (by rw [← e, hg])
  · refine List.sum_eq_zero fun y hy => ?_
    obtain ⟨x, hx, rfl⟩ := List.mem_map.1 hy
    exact if_neg fun e => hk (by rw [← e]; exact hK g l hg x hx)

theorem jacobian_apply (K : Sol.Constraints ℕ) (cells : List (Local N)) {m g : ℕ} (hg : g < m) (x : ℕ → ℝ) :
    ∑ c ∈ range m, Lin.jacobian K cells g c * x c = applied K cells m x g +
      (open Classical in if K g ≠ none then diagonal cells g * x g else 0) := by
  have bil : ∀ (y z : Fin N → ℕ) (M : Fin N → Fin N → ℝ),
      ∑ c ∈ range m, (∑ i, ∑ j, weight K (y i) g * M i j * weight K (z j) c) * x c =
      ∑ i, weight K (y i) g * ∑ j, M i j * ∑ c ∈ range m, weight K (z j) c * x c := by
    intro y z M
    simp only [sum_mul, mul_sum]
    rw [sum_comm]
    refine sum_congr rfl fun i _ => ?_
    rw [sum_comm]
    exact sum_congr rfl fun j _ => sum_congr rfl fun c _ => by ring
  have lst : ∀ (a : Local N) (l : List ((Fin N → ℕ) × (Fin N → Fin N → ℝ))),
      ∑ c ∈ range m, (l.map fun b => ∑ i, ∑ j, weight K (a.dofs i) g * b.2 i j * weight K (b.1 j) c).sum * x c =
      (l.map fun b => ∑ i, weight K (a.dofs i) g * ∑ j, b.2 i j * ∑ c ∈ range m, weight K (b.1 j) c * x c).sum := by
    intro a l
    induction l with
    | nil => simp
    | cons b l ih =>
      simp only [List.map_cons, List.sum_cons, add_mul, sum_add_distrib]
      rw [ih, bil]
  have dg : ∀ a : Local N, ∑ c ∈ range m,
      (open Classical in ∑ i, if a.dofs i = g ∧ g = c ∧ K g ≠ none then a.diag i else 0) * x c =
      (open Classical in if K g ≠ none then (∑ i, if a.dofs i = g then a.diag i else 0) * x g else 0) := by
    intro a
    classical
    by_cases hK : K g ≠ none
    · rw [if_pos hK, sum_eq_single g]
      · congr 1
        refine sum_congr rfl fun i _ => ?_
        by_cases hi : a.dofs i = g
        · rw [if_pos hi]; exact if_pos ⟨hi, rfl, hK⟩
        · rw [if_neg hi]; exact if_neg fun h => hi h.1
      · intro c _ hc
        rw [sum_eq_zero fun i _ => if_neg fun h => hc h.2.1.symm, zero_mul]
      · intro h; exact absurd (mem_range.2 hg) h
    · rw [if_neg hK]
      refine sum_eq_zero fun c _ => ?_
      rw [sum_eq_zero fun i _ => if_neg fun h => hK h.2.2, zero_mul]
  unfold Lin.jacobian applied diagonal
  induction cells with
  | nil => simp
  | cons a l ih =>
    simp only [List.map_cons, List.sum_cons, add_mul, sum_add_distrib]
    rw [ih, bil, lst, dg]
    by_cases hK : K g ≠ none
    · simp only [if_pos hK]; ring
    · simp only [if_neg hK]; ring

theorem solvesAll_iff {K : Sol.Constraints ℕ} (hK : Sol.Closed K) (cells : List (Local N)) {m : ℕ}
    (hd : ∀ g < m, K g ≠ none → diagonal cells g ≠ 0) (x : ℕ → ℝ) :
    SolvesAll K cells m x ↔ (∀ g < m, applied K cells m x g = Lin.residual K cells g) ∧
      ∀ g < m, K g ≠ none → x g = 0 := by
  have h0 : ∀ g, K g ≠ none → applied K cells m x g = 0 ∧ Lin.residual K cells g = 0 := by
    intro g hg
    have hw : ∀ k, weight K k g = 0 := fun k => weight_constrained hK hg
    constructor
    · unfold applied; simp [hw]
    · unfold Lin.residual; simp [hw]
  constructor
  · intro h
    refine ⟨fun g hg => ?_, fun g hg hc => ?_⟩
    · by_cases hc : K g ≠ none
      · rw [(h0 g hc).1, (h0 g hc).2]
      · have := h g hg
        rw [jacobian_apply K cells hg, if_neg hc, add_zero] at this
        exact this
    · have := h g hg
      rw [jacobian_apply K cells hg, if_pos hc, (h0 g hc).1, (h0 g hc).2, zero_add] at this
      exact (mul_eq_zero.1 this).resolve_left (hd g hg hc)
  · rintro ⟨h1, h2⟩ g hg
    rw [jacobian_apply K cells hg, h1 g hg]
    by_cases hc : K g ≠ none
    · rw [if_pos hc, h2 g hg hc, mul_zero, add_zero]
    · rw [if_neg hc, add_zero]

/-- What a turned cell hands to the assembly of the linear system. -/
noncomputable def turnHanded (o : Nodes d n (Fin N)) (r : Mat d) (diag : Fin N → ℝ) (a : Local N) : Local N :=
  ⟨a.dofs, fun i j => o.turn r (fun i => o.turn r (fun j => a.mat i j) j) i, o.turn r a.rhs, diag,
    a.couplings.map fun b => (b.1, fun i j => o.turn r (fun i => o.turn r (fun j => b.2 i j) j) i)⟩

theorem turn_adjoint_cell (ho : o.Ok) (f h : Fin N → ℝ) :
    ∑ i, o.turn r f i * h i = ∑ i, f i * o.turn rᵀ h i := by
  let F : Fin N × Fin d → ℝ := fun x => match o.comp x.1 with
    | .inl c => r c x.2 * f (o.sib x.1 x.2) * h x.1
    | .inr _ => 0
  let G : Fin N × Fin d → ℝ := fun x => match o.comp x.1 with
    | .inl c => f x.1 * (rᵀ c x.2 * h (o.sib x.1 x.2))
    | .inr _ => 0
  let S : Fin N → ℝ := fun g => match o.comp g with
    | .inl _ => 0
    | .inr _ => f g * h g
  have h1 : ∀ g, o.turn r f g * h g = ∑ b, F (g, b) + S g := by
    intro g
    simp only [F, S, Nodes.turn]
    rcases o.comp g with c | a
    · simp [sum_mul]
    · simp
  have h2 : ∀ g, f g * o.turn rᵀ h g = ∑ b, G (g, b) + S g := by
    intro g
    simp only [G, S, Nodes.turn]
    rcases o.comp g with c | a
    · simp [mul_sum]
    · simp
  rw [sum_congr rfl fun g _ => h1 g, sum_congr rfl fun g _ => h2 g, sum_add_distrib, sum_add_distrib]
  congr 1
  rw [← Fintype.sum_prod_type, ← Fintype.sum_prod_type, ← Equiv.sum_comp ((Nodes.flip_flip ho).toPerm _) G]
  refine sum_congr rfl ?_
  rintro ⟨g, b⟩ _
  simp only [F, G, Function.Involutive.coe_toPerm, Nodes.flip]
  rcases hg : o.comp g with c | a
  · simp only [ho.comp g c hg, ho.same g c hg, ho.self g c hg, Matrix.transpose_apply]; ring
  · simp only [hg]

theorem matrix_turn (ho : o.Ok) (h : SpecOrthogonal r) (M : Fin N → Fin N → ℝ) (y : Fin N → ℝ) (i : Fin N) :
    ∑ j, o.turn r (fun i => o.turn r (fun j => M i j) j) i * o.turn r y j =
      o.turn r (fun i => ∑ j, M i j * y j) i := by
  have row : ∀ i, ∑ j, o.turn r (fun j => M i j) j * o.turn r y j = ∑ j, M i j * y j := by
    intro i
    rw [turn_adjoint_cell ho, o.turn_back ho h]
  unfold Nodes.turn at row ⊢
  rcases o.comp i with c | a
  · simp only [sum_mul]
    rw [sum_comm]
    refine sum_congr rfl fun b _ => ?_
    rw [← row (o.sib i b), mul_sum]
    exact sum_congr rfl fun j _ => by ring
  · exact row i

theorem evaluate_turn {O : Nodes d n ℕ} (hO : O.Ok) {K : Sol.Constraints ℕ} (hK : SpecVectorial O K)
    {dofs : Fin N → ℕ} (hd : SpecNumbered o O dofs) {m : ℕ} (hm : SpecWhole O m) (x : ℕ → ℝ) (j : Fin N) :
    ∑ c ∈ range m, weight K (dofs j) c * O.turn r x c =
      o.turn r (fun j => ∑ c ∈ range m, weight K (dofs j) c * x c) j := by
  have h1 : ∑ c ∈ range m, weight K (dofs j) c * O.turn r x c =
      ∑ c ∈ range m, O.turn rᵀ (fun c => weight K (dofs j) c) c * x c := by
    rw [turn_adjoint hO hm, transpose_transpose]
  rw [h1]
  rcases hj : o.comp j with k | a
  · simp only [Nodes.turn, hj, mul_sum]
    rw [sum_comm]
    refine sum_congr rfl fun c _ => ?_
    have hjO : O.comp (dofs j) = .inl k := by rw [hd.comp, hj]
    rcases hc : O.comp c with b | a
    · simp only
      rw [sum_eq_single k, sum_eq_single b]
      · rw [← hd.sib j k hj, ← weight_sib hO hK hjO (hO.comp c b hc k) b, hO.same c b hc, hO.self c b hc,
          Matrix.transpose_apply]
        ring
      · intro b' _ hb'
        rw [weight_comp hK (by
          rw [← hd.sib j k hj, hO.comp _ k hjO, hc]
          intro e'; exact hb' (Sum.inl.inj e'))]
        ring
      · intro hb; exact absurd (mem_univ _) hb
      · intro b' _ hb'
        rw [weight_comp hK (by
          rw [hjO, hO.comp c b hc]; intro e'; exact hb' (Sum.inl.inj e').symm), mul_zero]
      · intro hb; exact absurd (mem_univ _) hb
    · simp only
      rw [weight_comp hK (by rw [hjO, hc]; simp), zero_mul]
      refine (sum_eq_zero fun b _ => ?_).symm
      rw [weight_comp hK (by rw [← hd.sib j k hj, hO.comp _ k hjO, hc]; simp)]
      ring
  · simp only [Nodes.turn, hj]
    refine sum_congr rfl fun c _ => ?_
    rcases hc : O.comp c with b | a'
    · simp only
      rw [weight_comp hK (by rw [hd.comp, hj, hc]; simp)]
      refine mul_eq_zero_of_left (sum_eq_zero fun b' _ => ?_) _ |>.trans (by ring)
      rw [weight_comp hK (by rw [hd.comp, hj, hO.comp c b hc]; simp), mul_zero]
    · rfl

theorem applied_turn (ho : o.Ok) (h : SpecOrthogonal r) {O : Nodes d n ℕ} (hO : O.Ok)
    {K : Sol.Constraints ℕ} (hK : SpecVectorial O K) {m : ℕ} (hm : SpecWhole O m)
    (cells : List (Local N × (Fin N → ℝ)))
    (hc : ∀ a ∈ cells, SpecNumbered o O a.1.dofs ∧ ∀ b ∈ a.1.couplings, SpecNumbered o O b.1)
    (x : ℕ → ℝ) (g : ℕ) :
    applied (O.turnK r K) (cells.map fun a => turnHanded o r a.2 a.1) m (O.turn r x) g =
      O.turn r (applied K (cells.map Prod.fst) m x) g := by
  have one : ∀ (y z : Fin N → ℕ) (M : Fin N → Fin N → ℝ), SpecNumbered o O y → SpecNumbered o O z →
      ∑ i, weight K (y i) g * ∑ j, o.turn r (fun i => o.turn r (fun j => M i j) j) i *
          ∑ c ∈ range m, weight K (z j) c * O.turn r x c =
        O.turn r (fun g => ∑ i, weight K (y i) g * ∑ j, M i j * ∑ c ∈ range m, weight K (z j) c * x c) g := by
    intro y z M hy hz
    have e : ∀ i, ∑ j, o.turn r (fun i => o.turn r (fun j => M i j) j) i *
        ∑ c ∈ range m, weight K (z j) c * O.turn r x c =
        o.turn r (fun i => ∑ j, M i j * ∑ c ∈ range m, weight K (z j) c * x c) i := by
      intro i
      rw [← matrix_turn ho h]
      exact sum_congr rfl fun j _ => by rw [evaluate_turn hO hK hz hm]
    simp only [e]
    exact distribute_turn ho hO hK hy _ g
  have add : ∀ f f' : ℕ → ℝ, O.turn r (fun g => f g + f' g) g = O.turn r f g + O.turn r f' g := by
    intro f f'
    unfold Nodes.turn
    rcases O.comp g with c | a
    · simp only [mul_add, sum_add_distrib]
    · rfl
  unfold applied
  rw [List.map_map, show (fun g => (List.map (fun a : Local N =>
      ∑ i, weight K (a.dofs i) g * ∑ j, a.mat i j * ∑ c ∈ range m, weight K (a.dofs j) c * x c +
      (a.couplings.map fun b => ∑ i, weight K (a.dofs i) g *
        ∑ j, b.2 i j * ∑ c ∈ range m, weight K (b.1 j) c * x c).sum) (cells.map Prod.fst)).sum) =
      fun g => (cells.map fun a => ∑ i, weight K (a.1.dofs i) g *
        ∑ j, a.1.mat i j * ∑ c ∈ range m, weight K (a.1.dofs j) c * x c +
      (a.1.couplings.map fun b => ∑ i, weight K (a.1.dofs i) g *
        ∑ j, b.2 i j * ∑ c ∈ range m, weight K (b.1 j) c * x c).sum).sum by
      funext g; rw [List.map_map]; rfl, turn_list]
  congr 1
  refine List.map_congr_left fun a ha => ?_
  simp only [Function.comp_apply, weight_turnK, turnHanded, List.map_map]
  rw [add, one a.1.dofs a.1.dofs a.1.mat (hc a ha).1 (hc a ha).1, turn_list]
  congr 2
  refine List.map_congr_left fun b hb => ?_
  simp only [Function.comp_apply]
  exact one a.1.dofs b.1 b.2 (hc a ha).1 ((hc a ha).2 b hb)

/-- C101, Newton updates: a vector solves the linear system if and only if the turned vector solves the
one of the turned specimen, whatever deal.II puts on the diagonal of constrained degrees of freedom, and
the norm of the residual, on which convergence is decided, is the same. -/
theorem C101_newton (ho : o.Ok) (h : SpecOrthogonal r) {O : Nodes d n ℕ} (hO : O.Ok)
    {K : Sol.Constraints ℕ} (hK : SpecVectorial O K) (hcl : Sol.Closed K) {m : ℕ} (hm : SpecWhole O m)
    (cells : List (Local N × (Fin N → ℝ)))
    (hc : ∀ a ∈ cells, SpecNumbered o O a.1.dofs ∧ ∀ b ∈ a.1.couplings, SpecNumbered o O b.1)
    (hd : ∀ g < m, K g ≠ none → diagonal (cells.map Prod.fst) g ≠ 0 ∧
      diagonal (cells.map fun a => turnHanded o r a.2 a.1) g ≠ 0) (x : ℕ → ℝ) :
    (SolvesAll (O.turnK r K) (cells.map fun a => turnHanded o r a.2 a.1) m (O.turn r x) ↔
      SolvesAll K (cells.map Prod.fst) m x) ∧
    ∑ g ∈ range m, Lin.residual (O.turnK r K) (cells.map fun a => turnHanded o r a.2 a.1) g ^ 2 =
      ∑ g ∈ range m, Lin.residual K (cells.map Prod.fst) g ^ 2 := by
  have hnone : ∀ g, O.turnK r K g ≠ none ↔ K g ≠ none := by
    intro g; simp [Nodes.turnK]
  have hcl' : Sol.Closed (O.turnK r K) := by
    intro g l hg y hy
    unfold Nodes.turnK at hg
    obtain ⟨l', hl', rfl⟩ := Option.map_eq_some_iff.1 hg
    have := hcl g l' hl' y hy
    unfold Nodes.turnK
    rw [this]; rfl
  have hres : ∀ g, Lin.residual (O.turnK r K) (cells.map fun a => turnHanded o r a.2 a.1) g =
      O.turn r (Lin.residual K (cells.map Prod.fst)) g := by
    intro g
    unfold Lin.residual
    rw [List.map_map, show (fun g => (List.map (fun a : Local N => ∑ i, weight K (a.dofs i) g * a.rhs i)
        (cells.map Prod.fst)).sum) = fun g => (cells.map fun a =>
        ∑ i, weight K (a.1.dofs i) g * a.1.rhs i).sum by funext g; rw [List.map_map]; rfl, turn_list]
    congr 1
    refine List.map_congr_left fun a ha => ?_
    simp only [Function.comp_apply, weight_turnK, turnHanded]
    exact distribute_turn ho hO hK (hc a ha).1 _ g
  refine ⟨?_, ?_⟩
  · rw [solvesAll_iff hcl' _ (fun g hg hk => (hd g hg ((hnone g).1 hk)).2),
      solvesAll_iff hcl _ (fun g hg hk => (hd g hg hk).1)]
    refine and_congr ?_ ?_
    · have lin : ∀ g, O.turn r (fun g => applied K (cells.map Prod.fst) m x g -
          Lin.residual K (cells.map Prod.fst) g) g =
          applied (O.turnK r K) (cells.map fun a => turnHanded o r a.2 a.1) m (O.turn r x) g -
          Lin.residual (O.turnK r K) (cells.map fun a => turnHanded o r a.2 a.1) g := by
        intro g
        rw [applied_turn ho h hO hK hm cells hc, hres]
        unfold Nodes.turn
        rcases O.comp g with c | a
        · simp only [mul_sub, sum_sub_distrib]
        · rfl
      have := turn_zero_iff hO h hm fun g => applied K (cells.map Prod.fst) m x g -
          Lin.residual K (cells.map Prod.fst) g
      simp only [lin, sub_eq_zero] at this
      exact this
    · simp only [hnone]
      have key : ∀ (r : Mat d) (f : ℕ → ℝ), (∀ g < m, K g ≠ none → f g = 0) →
          ∀ g < m, K g ≠ none → O.turn r f g = 0 := by
        intro r f hf g hg hk
        unfold Nodes.turn
        rcases hgc : O.comp g with c | a
        · refine sum_eq_zero fun b _ => ?_
          have hs := hK.sib g c hgc b
          rw [hf _ (hm g hg c hgc b), mul_zero]
          intro hb
          rw [hb] at hs
          rcases hkg : K g with _ | l
          · exact hk hkg
          · rw [hkg] at hs; cases hs
        · exact hf g hg hk
      refine ⟨fun hf => ?_, key r x⟩
      have := key rᵀ _ hf
      rwa [O.turn_back hO h] at this
  · rw [sum_congr rfl fun g _ => by rw [hres g]]
    exact (C101_norm hO h hm _).1

/-! ## Runs -/

/-- A cell of the body over a run: supply and loads change from step to step. -/
structure BodyRun (d e n N : ℕ) where
  prm : CellPrm d n
  dofs : Fin N → ℕ
  Q : ℕ
  pts : Fin Q → BodyPoint d n N
  supply : ℕ → Fin Q → Vec d
  F : ℕ
  faces : Fin F → BodyFace d e n N
  B : ℕ
  loads : ℕ → Fin B → BodyLoad d N

/-- The cell over the run as the solver sees it. -/
noncomputable def BodyRun.run (o : Nodes d n (Fin N)) (b : BodyRun d e n N) : RunGrain d e n N :=
  ⟨⟨⟨b.prm, o.kind, b.dofs, b.Q, fun q => (b.pts q).point o⟩, b.supply⟩, b.F,
    fun f => (b.faces f).view o, b.B,
    fun k l => ⟨faceShape o (b.loads k l).scalars, (b.loads k l).value, (b.loads k l).jxw⟩⟩

/-- The turned cell over the run. -/
noncomputable def BodyRun.turned (r : Mat d) (b : BodyRun d e n N) : BodyRun d e n N :=
  ⟨turnPrm r b.prm, b.dofs, b.Q, fun q => (b.pts q).turned r, fun k q => r *ᵥ b.supply k q, b.F,
    fun f => (b.faces f).turned r, b.B,
    fun k l => ⟨(b.loads k l).scalars, r *ᵥ (b.loads k l).value, (b.loads k l).jxw⟩⟩

/-- As `Body.Ok`. -/
structure BodyRun.Ok (o : Nodes d n (Fin N)) (O : Nodes d n ℕ) (b : BodyRun d e n N) : Prop where
  dofs : SpecNumbered o O b.dofs
  nbDofs : ∀ f, SpecNumbered o O (b.faces f).nbDofs
  pts : ∀ q, (b.pts q).Ok o
  faces : ∀ f, (b.faces f).Ok o
  loads : ∀ k l, SpecNodal o (b.loads k l).scalars

/-- The cell in a step. -/
noncomputable def BodyRun.body (o : Nodes d n (Fin N)) (b : BodyRun d e n N) (dt : ℕ → ℝ)
    (u : ℕ → ℕ → ℝ) (k : ℕ) : Body d e n N :=
  ⟨{ b.prm with dt := dt k }, b.dofs, b.Q, fun q => ⟨(b.pts q).jxw, (b.pts q).scalars, b.supply k q,
    (b.run o).run.histAt u q k, ((b.pts q).scalars.shape o (b.pts q).jxw).slip (u k ∘ b.dofs)⟩, b.F,
    b.faces, b.B, b.loads k⟩

theorem body_grain (b : BodyRun d e n N) (dt : ℕ → ℝ) (u : ℕ → ℕ → ℝ) (k : ℕ) :
    (b.run o).at dt u k = (b.body o dt u k).grain o := rfl

/-- C101, history: what the quadrature points remember does not change in any step. -/
theorem C101_history {O : Nodes d n ℕ} (b : BodyRun d e n N) (hb : b.Ok o O) (u : ℕ → ℕ → ℝ)
    (q : Fin b.Q) (k : ℕ) :
    ((b.turned r).run o).run.histAt (fun k => O.turn r (u k)) q k = (b.run o).run.histAt u q k := by
  induction k with
  | zero => rfl
  | succ k ih =>
    simp only [RunCell.histAt]
    rw [ih]
    have e : ∀ k, ((((b.turned r).run o).run.cell.pts q).shape.slip
        (O.turn r (u k) ∘ ((b.turned r).run o).run.cell.dofs)) =
        (((b.run o).run.cell.pts q).shape.slip (u k ∘ (b.run o).run.cell.dofs)) := by
      intro k
      have h1 : O.turn r (u k) ∘ ((b.turned r).run o).run.cell.dofs = o.turn r (u k ∘ b.dofs) :=
        turn_dofs hb.dofs (u k)
      rw [h1]
      exact slip_turn _ _ _
    rw [e, e]

theorem body_turn {O : Nodes d n ℕ} (b : BodyRun d e n N) (hb : b.Ok o O) (dt : ℕ → ℝ)
    (u : ℕ → ℕ → ℝ) (k : ℕ) :
    (b.turned r).body o dt (fun k => O.turn r (u k)) k = (b.body o dt u k).turned r := by
  unfold BodyRun.body Body.turned BodyRun.turned
  congr 1
  funext q
  unfold BodyPoint.turned
  congr 1
  · exact C101_history b hb u q k
  · show ((((b.pts q).scalars.turned r).shape o (b.pts q).jxw).slip (O.turn r (u k) ∘ b.dofs)) = _
    rw [turn_dofs hb.dofs (u k)]
    exact slip_turn _ _ _

/-- C101, whole runs: a sequence of states solves all time steps of a run if and only if the turned
states solve all time steps of the turned specimen. -/
theorem C101_run (ho : o.Ok) (h : SpecOrthogonal r) {O : Nodes d n ℕ} (hO : O.Ok)
    (K : ℕ → Sol.Constraints ℕ) (hK : ∀ k, SpecVectorial O (K k)) (run : List (BodyRun d e n N))
    (hr : ∀ b ∈ run, b.Ok o O) {m : ℕ} (hm : SpecWhole O m) (dt : ℕ → ℝ) (u : ℕ → ℕ → ℝ) (T : ℕ) :
    (∀ k < T, SpecGrainSolution (SpecGrains (run.map fun b => (b.turned r).run o) dt
          (fun k => O.turn r (u k)) k) (O.turnK r (K k)) m (O.turn r (u (k + 1))) ∧
        Sol.Satisfies (O.turnK r (K k)) (O.turn r (u (k + 1)))) ↔
    ∀ k < T, SpecGrainSolution (SpecGrains (run.map fun b => b.run o) dt u k) (K k) m (u (k + 1)) ∧
        Sol.Satisfies (K k) (u (k + 1)) := by
  refine forall_congr' fun k => imp_congr_right fun _ => ?_
  have e1 : SpecGrains (run.map fun b => (b.turned r).run o) dt (fun k => O.turn r (u k)) k =
      (run.map fun b => b.body o dt u k).map fun b => (b.turned r).grain o := by
    unfold SpecGrains
    rw [List.map_map, List.map_map]
    refine List.map_congr_left fun b hb => ?_
    simp only [Function.comp_apply]
    rw [body_grain, body_turn b (hr b hb)]
  have e2 : SpecGrains (run.map fun b => b.run o) dt u k =
      (run.map fun b => b.body o dt u k).map fun b => b.grain o := by
    unfold SpecGrains
    rw [List.map_map, List.map_map]
    rfl
  have key := C101_solution ho h hO (hK k) (run.map fun b => b.body o dt u k)
    (fun b hb => by
      obtain ⟨b, hb', rfl⟩ := List.mem_map.1 hb
      have hb := hb'
      exact ⟨(hr b hb).dofs, (hr b hb).nbDofs, (hr b hb).pts, (hr b hb).faces, (hr b hb).loads k⟩)
    hm (u (k + 1))
  rw [e1, e2, key.1, key.2]

/-! ## Input -/

/-- C101, input in two dimensions: adding an angle to the orientation of a crystal turns its rotation
and all its slip systems by that angle. -/
theorem C101_input_plane (a t : ℝ) (s : System 2) :
    rotation2 (a + t) = rotation2 t * rotation2 a ∧
    rotateSystem (rotation2 (a + t)) s = rotateSystem (rotation2 t) (rotateSystem (rotation2 a) s) ∧
    rotation2in3 (a + t) = rotation2in3 t * rotation2in3 a := by
  have e : rotation2 (a + t) = rotation2 t * rotation2 a := by
    unfold rotation2
    simp only [add_mul]
    ext i j
    fin_cases i <;> fin_cases j <;>
      simp [Matrix.mul_apply, Fin.sum_univ_two, Real.cos_add, Real.sin_add] <;> ring
  refine ⟨e, ?_, ?_⟩
  · rw [e]; unfold rotateSystem; simp only [mulVec_mulVec]
  · unfold rotation2in3 rotY rotX rotZ
    simp only [add_mul]
    ext i j
    fin_cases i <;> fin_cases j <;>
      simp [Matrix.mul_apply, Fin.sum_univ_three, Real.cos_add, Real.sin_add] <;> ring

/-- C101, input in three dimensions: adding an angle to the first Euler angle of a crystal turns it by
that angle about the third axis. -/
theorem C101_input_space (v : Vec 3) (t : ℝ) (s : System 3) :
    rotation3 ![v 0 + t, v 1, v 2] = rotZ (t * degToRad) * rotation3 v ∧
    rotateSystem (rotation3 ![v 0 + t, v 1, v 2]) s =
      rotateSystem (rotZ (t * degToRad)) (rotateSystem (rotation3 v) s) := by
  have z : ∀ x y : ℝ, rotZ (x + y) = rotZ y * rotZ x := by
    intro x y
    unfold rotZ
    ext i j
    fin_cases i <;> fin_cases j <;>
      simp [Matrix.mul_apply, Fin.sum_univ_three, Real.cos_add, Real.sin_add] <;> ring
  have e : rotation3 ![v 0 + t, v 1, v 2] = rotZ (t * degToRad) * rotation3 v := by
    unfold rotation3
    show rotZ ((v 0 + t) * _) * rotX (v 1 * _) * rotZ (v 2 * _) = _
    rw [add_mul, z, Matrix.mul_assoc, Matrix.mul_assoc, Matrix.mul_assoc]
  refine ⟨e, ?_⟩
  rw [e]; unfold rotateSystem; simp only [mulVec_mulVec]

/-! ## Averages and output -/

theorem dev_turn (h : SpecOrthogonal r) (t : Mat d) : Post.dev (turnT r t) = turnT r (Post.dev t) := by
  unfold Post.dev
  have : ddot 1 (turnT r t) = ddot 1 t := by
    conv_lhs => rw [← turnT_one h]
    exact ddot_turn h _ _
  rw [this, turnT_sub, turnT_smul, turnT_one h]

theorem measures_turn (h : SpecOrthogonal r) (t : Mat d) :
    Post.tableStress (turnT r t) = Post.tableStress t ∧ Post.tableStrain (turnT r t) = Post.tableStrain t ∧
    Post.vonMisesPlasticStrain (turnT r t) = Post.vonMisesPlasticStrain t := by
  unfold Post.tableStress Post.tableStrain Post.vonMisesPlasticStrain
  rw [dev_turn h, ddot_turn h]
  exact ⟨rfl, rfl, rfl⟩

theorem vonMises_turn {s : Mat 3} (h : SpecOrthogonal s) (t : Mat 3) :
    Post.vonMisesStress (turnT s t) = Post.vonMisesStress t := by
  unfold Post.vonMisesStress
  rw [dev_turn h, ddot_turn h]

/-- A quadrature point of the turned specimen. -/
noncomputable def turnQ (r : Mat d) (q : Post.QPoint d) : Post.QPoint d :=
  ⟨q.jxw, turnT r q.strain, q.slips.map fun x => (rotateSystem r x.1, x.2)⟩

/-- A cell of the turned specimen. -/
noncomputable def turnCellQ (r : Mat d) (c : Post.Cell d) : Post.Cell d :=
  ⟨r * c.rot, c.points.map (turnQ r)⟩

/-- The integrals of the turned specimen. -/
def turnI (r : Mat d) (s : Post.Integrals d) : Post.Integrals d :=
  ⟨turnT r s.stress, turnT r s.stressFluct, turnT r s.strainFluct, s.volume⟩

theorem turnI_add (r : Mat d) (a b : Post.Integrals d) : turnI r (a.add b) = (turnI r a).add (turnI r b) := by
  simp only [turnI, Post.Integrals.add, turnT_add]

theorem turnI_zero (r : Mat d) : turnI r .zero = .zero := by
  simp [turnI, Post.Integrals.zero, turnT]

theorem foldl_turnI {α β : Type*} (f : α → Post.Integrals d) (g : β → Post.Integrals d) (t : α → β)
    (r : Mat d) (l : List α) (h : ∀ x ∈ l, g (t x) = turnI r (f x)) (a : Post.Integrals d) :
    (l.map t).foldl (fun acc x => acc.add (g x)) (turnI r a) =
      turnI r (l.foldl (fun acc x => acc.add (f x)) a) := by
  induction l generalizing a with
  | nil => rfl
  | cons x l ih =>
    simp only [List.map_cons, List.foldl_cons]
    rw [h x List.mem_cons_self, ← turnI_add]
    exact ih (fun y hy => h y (List.mem_cons_of_mem _ hy)) _

theorem elasticStrain_list_turn (dn0 : ℝ) (l : List (System d × ℝ)) (e : Mat d) :
    elasticStrain dn0 (l.map fun x => (rotateSystem r x.1, x.2)) (turnT r e) =
      turnT r (elasticStrain dn0 l e) := by
  induction l generalizing e with
  | nil => rfl
  | cons x l ih =>
    simp only [List.map_cons, elasticStrain]
    rw [← ih]
    congr 1
    rw [symSchmid_turn, turnT_sub, turnT_smul]

/-- C101, homogenisation: averages of the turned specimen are the turned averages, the volume is the
same, and the von Mises measures reported do not change. -/
theorem C101_average (h : SpecOrthogonal r) (hom : Post.Homog d) (procs : List (List (Post.Cell d))) :
    (⟨hom.elastic, hom.dn0, turnT r hom.macroStrain⟩ : Post.Homog d).compute
        (procs.map fun cells => cells.map (turnCellQ r)) =
      (hom.compute procs).map (turnI r) ∧
    ∀ t : Mat d, Post.tableStress (turnT r t) = Post.tableStress t ∧
      Post.tableStrain (turnT r t) = Post.tableStrain t := by
  refine ⟨?_, fun t => ⟨(measures_turn h t).1, (measures_turn h t).2.1⟩⟩
  set hom' : Post.Homog d := ⟨hom.elastic, hom.dn0, turnT r hom.macroStrain⟩ with hh
  have ht : ∀ rot q, hom'.term (r * rot) (turnQ r q) = turnI r (hom.term rot q) := by
    intro rot q
    unfold Post.Homog.term turnI turnQ
    simp only [hh]
    rw [elasticStrain_list_turn, ← turnT_add, stress_turn _ h, stress_turn _ h, turnT_smul, turnT_smul,
      turnT_smul]
  have hc : ∀ c, hom'.cell (turnCellQ r c) = turnI r (hom.cell c) := by
    intro c
    unfold Post.Homog.cell turnCellQ
    have := foldl_turnI (fun q => hom.term c.rot q) (fun q => hom'.term (r * c.rot) q) (turnQ r) r
      c.points (fun q _ => ht c.rot q) .zero
    rw [turnI_zero] at this
    exact this
  have hp : ∀ cells, hom'.process (cells.map (turnCellQ r)) = turnI r (hom.process cells) := by
    intro cells
    unfold Post.Homog.process
    have := foldl_turnI hom.cell hom'.cell (turnCellQ r) r cells (fun c _ => hc c) .zero
    rw [turnI_zero] at this
    exact this
  have hs := foldl_turnI hom.process hom'.process (fun cells => cells.map (turnCellQ r)) r procs
    (fun p _ => hp p) .zero
  rw [turnI_zero] at hs
  unfold Post.Homog.compute
  simp only [hs]
  by_cases hv : (procs.foldl (fun acc p => acc.add (hom.process p)) Post.Integrals.zero).volume = 0
  · rw [if_pos hv]; refine (if_pos hv).trans rfl
  · rw [if_neg hv]
    refine (if_neg hv).trans ?_
    simp only [Option.map_some, turnI, turnT_smul]

/-- In three dimensions the turn itself, in two the turn about the third axis. -/
def embed : (d : ℕ) → Mat d → Mat 3
  | 2, r => !![r 0 0, r 0 1, 0; r 1 0, r 1 1, 0; 0, 0, 1]
  | 3, r => r
  | _, _ => 1

theorem embed_orthogonal : ∀ {d : ℕ} {r : Mat d}, SpecOrthogonal r → SpecOrthogonal (embed d r)
  | 2, r, h => by
    have h' : ∀ i j, (rᵀ * r) i j = (1 : Mat 2) i j := fun i j => by rw [h]
    have a := h' 0 0
    have b := h' 0 1
    have c := h' 1 0
    have f := h' 1 1
    simp [Matrix.mul_apply, Fin.sum_univ_two] at a b c f
    unfold SpecOrthogonal embed
    ext i j
    fin_cases i <;> fin_cases j <;> simp [Matrix.mul_apply, Fin.sum_univ_three] <;> linarith
  | 3, r, h => h
  | 0, _, _ => by unfold SpecOrthogonal embed; simp
  | 1, _, _ => by unfold SpecOrthogonal embed; simp
  | _ + 4, _, _ => by unfold SpecOrthogonal embed; simp

theorem convert_turn (hd : d = 2 ∨ d = 3) (r t : Mat d) (ht : tᵀ = t) :
    Post.convert d (turnT r t) = turnT (embed d r) (Post.convert d t) := by
  rcases hd with rfl | rfl
  · have hs : t 1 0 = t 0 1 := by
      have := congrFun (congrFun ht 0) 1
      simpa using this
    ext i j
    fin_cases i <;> fin_cases j <;>
      simp [Post.convert, Post.to3, embed, turnT, Matrix.mul_apply, Fin.sum_univ_two,
        Fin.sum_univ_three, hs] <;> ring
  · rfl

/-- The output of the turned specimen: turned slip systems, stiffness of the turned crystal. -/
noncomputable def turnOutput {nC nS : ℕ} (r : Mat d) (p : Elastic) (q : Mat 3) (o : Post.Output d nC nS) :
    Post.Output d nC nS :=
  { o with
    sys := fun c => turnCrystal r (o.sys c)
    tetrad := rotatedStiffness (embed d r * q) (p.reference 3)
    macroStrain := turnT r o.macroStrain }

/-- Values and gradients at the turned evaluation point: displacement vectors are turned, slips are the
same, gradients are turned. -/
structure SpecTurnedPoint {nC nS : ℕ} (r : Mat d) (o : Post.Output d nC nS) (x x' : Post.Inputs d) :
    Prop where
  value : ∀ k < (if o.decohesion then nC else 1), ∀ i : Fin d,
    x'.value (i + d * k) = ∑ b : Fin d, r i b * x.value (b + d * k)
  gradient : ∀ k < (if o.decohesion then nC else 1), ∀ i : Fin d,
    x'.gradient (i + d * k) = ∑ b : Fin d, r i b • (r *ᵥ x.gradient (b + d * k))
  slip : ∀ c a, x'.value (o.slipIndex c a) = x.value (o.slipIndex c a)
  slipGradient : ∀ c a, x'.gradient (o.slipIndex c a) = r *ᵥ x.gradient (o.slipIndex c a)

section output
variable {nC nS : ℕ} {p : Elastic} {q : Mat 3} {O : Post.Output d nC nS} {x x' : Post.Inputs d}

theorem out_displacement_turn (hx : SpecTurnedPoint r O x x') (i : Fin d) :
    (turnOutput r p q O).displacement x' i = ∑ b, r i b * O.displacement x b := by
  unfold Post.Output.displacement
  show (if O.decohesion then ∑ c : Fin nC, O.units.displacement * x'.value (i + d * c) else
    O.units.displacement * x'.value i) = _
  cases hd : O.decohesion
  · simp only [Bool.false_eq_true, if_false]
    have := hx.value 0 (by rw [hd]; simp) i
    simp only [mul_zero, add_zero] at this
    rw [this, mul_sum]
    exact sum_congr rfl fun b _ => by ring
  · simp only [if_true]
    simp only [mul_sum]
    rw [sum_comm]
    refine sum_congr rfl fun c _ => ?_
    rw [hx.value c (by rw [hd]; simp) i, mul_sum]
    exact sum_congr rfl fun b _ => by ring

theorem out_gradient_turn (hx : SpecTurnedPoint r O x x') :
    (turnOutput r p q O).gradient x' = turnT r (O.gradient x) := by
  have one : ∀ g : Fin d → Vec d, (Matrix.of fun i j => (∑ b, r i b • (r *ᵥ g b)) j) =
      turnT r (Matrix.of g) := by
    intro g
    ext i j
    simp only [turnT, Matrix.of_apply, Matrix.mul_apply, Matrix.transpose_apply, Finset.sum_apply,
      Pi.smul_apply, smul_eq_mul, Matrix.mulVec, dotProduct, mul_sum, sum_mul]
    rw [sum_comm]
    exact sum_congr rfl fun k _ => sum_congr rfl fun l _ => by ring
  unfold Post.Output.gradient
  show (Matrix.of fun (i : Fin d) j => if O.decohesion then ∑ c : Fin nC, x'.gradient (i + d * c) j else
    x'.gradient i j) = _
  cases hd : O.decohesion
  · simp only [Bool.false_eq_true, if_false]
    have h0 : ∀ i : Fin d, x'.gradient i = ∑ b : Fin d, r i b • (r *ᵥ x.gradient b) := by
      intro i
      have := hx.gradient 0 (by rw [hd]; simp) i
      simpa only [mul_zero, add_zero] using this
    rw [show (Matrix.of fun (i : Fin d) j => x'.gradient i j) =
      Matrix.of fun i j => (∑ b : Fin d, r i b • (r *ᵥ x.gradient b)) j by
        ext i j; simp only [Matrix.of_apply]; rw [h0]]
    exact one fun b => x.gradient b
  · simp only [if_true]
    have e : ∀ y : Post.Inputs d, (Matrix.of fun (i : Fin d) j => ∑ c : Fin nC, y.gradient (i + d * c) j) =
        ∑ c : Fin nC, Matrix.of fun (i : Fin d) j => y.gradient (i + d * c) j := by
      intro y; ext i j; simp [Matrix.sum_apply]
    rw [e, e, turnT_sum]
    refine sum_congr rfl fun c _ => ?_
    rw [show (Matrix.of fun (i : Fin d) j => x'.gradient (i + d * c) j) =
      Matrix.of fun i j => (∑ b : Fin d, r i b • (r *ᵥ x.gradient (b + d * c))) j by
        ext i j; simp only [Matrix.of_apply]; rw [hx.gradient c (by rw [hd]; simp) i]]
    exact one fun b => x.gradient (b + d * c)

theorem out_slip_turn (hx : SpecTurnedPoint r O x x') (a : Fin nS) :
    (turnOutput r p q O).slip x' a = O.slip x a :=
  sum_congr rfl fun c _ => hx.slip c a

theorem out_plastic_turn (hx : SpecTurnedPoint r O x x') :
    (turnOutput r p q O).plastic x' = turnT r (O.plastic x) := by
  unfold Post.Output.plastic
  simp only [turnT_sum]
  refine sum_congr rfl fun a _ => sum_congr rfl fun c _ => ?_
  rw [turnT_smul, ← symSchmid_turn]
  show x'.value (O.slipIndex c a) • _ = _
  rw [hx.slip]; rfl

theorem out_density_turn (h : SpecOrthogonal r) (hx : SpecTurnedPoint r O x x') (v : System d → Vec d)
    (hv : ∀ s, v (rotateSystem r s) = r *ᵥ v s) :
    (turnOutput r p q O).density x' v = O.density x v := by
  unfold Post.Output.density
  show O.units.density * √(∑ a : Fin nS, ∑ c : Fin nC, (x'.gradient (O.slipIndex c a) ⬝ᵥ
    v (rotateSystem r (O.sys c a))) ^ 2) = _
  congr 2
  refine sum_congr rfl fun a _ => sum_congr rfl fun c _ => ?_
  rw [hv, hx.slipGradient, rot_dot h]

theorem out_strain_turn (hx : SpecTurnedPoint r O x x') (t : Bool) :
    (turnOutput r p q O).strain x' t = turnT r (O.strain x t) := by
  unfold Post.Output.strain
  rw [out_gradient_turn hx, symmetrize_turn]
  cases t
  · rfl
  · simp only [if_true, turnT_add]; rfl

theorem out_elastic_turn (hx : SpecTurnedPoint r O x x') (t : Bool) :
    (turnOutput r p q O).elastic x' t = turnT r (O.elastic x t) := by
  unfold Post.Output.elastic
  rw [out_strain_turn hx, out_plastic_turn hx, turnT_sub, turnT_smul]
  rfl

theorem symmetrize_symm (t : Mat d) : (symmetrize t)ᵀ = symmetrize t := by
  ext i j; simp [symmetrize, add_comm]

theorem out_elastic_symm (hm : O.macroStrainᵀ = O.macroStrain) (t : Bool) :
    (O.strain x t)ᵀ = O.strain x t ∧ (O.plastic x)ᵀ = O.plastic x ∧
      (O.elastic x t)ᵀ = O.elastic x t := by
  have h1 : (O.strain x t)ᵀ = O.strain x t := by
    unfold Post.Output.strain
    cases t
    · exact symmetrize_symm _
    · simp only [if_true]
      rw [transpose_add, symmetrize_symm, hm]
  have h2 : (O.plastic x)ᵀ = O.plastic x := by
    unfold Post.Output.plastic
    simp only [transpose_sum, transpose_smul, System.symSchmid, symmetrize_symm]
  refine ⟨h1, h2, ?_⟩
  unfold Post.Output.elastic
  rw [transpose_sub, transpose_smul, h1, h2]

theorem out_stress_turn (hd : d = 2 ∨ d = 3) (h : SpecOrthogonal r)
    (ht : O.tetrad = rotatedStiffness q (p.reference 3)) (hm : O.macroStrainᵀ = O.macroStrain)
    (hx : SpecTurnedPoint r O x x') :
    (turnOutput r p q O).stress x' = turnT (embed d r) (O.stress x) ∧
    (turnOutput r p q O).stressFluct x' = turnT (embed d r) (O.stressFluct x) := by
  have key : ∀ t, apply4 (turnOutput r p q O).tetrad (Post.convert d ((turnOutput r p q O).elastic x' t)) =
      turnT (embed d r) (apply4 O.tetrad (Post.convert d (O.elastic x t))) := by
    intro t
    rw [out_elastic_turn hx, convert_turn hd r _ (out_elastic_symm hm t).2.2, ht]
    exact stress_turn p (embed_orthogonal h) q _
  unfold Post.Output.stress Post.Output.stressFluct
  refine ⟨key true, ?_⟩
  rw [key false, turnT_smul]
  rfl

/-- C101, output files: at the turned point the displacement column is the turned vector, the slips,
equivalent strains, dislocation densities and von Mises measures are the same, and the columns of the
tensors are those of the turned tensors. -/
theorem C101_output (hd : d = 2 ∨ d = 3) (h : SpecOrthogonal r) (O : Post.Output d nC nS)
    (x x' : Post.Inputs d) (ht : O.tetrad = rotatedStiffness q (p.reference 3))
    (hm : O.macroStrainᵀ = O.macroStrain) (hx : SpecTurnedPoint r O x x') :
    (∀ i : Fin d, (turnOutput r p q O).result x' i = ∑ b : Fin d, r i b * O.result x b) ∧
    (∀ a : Fin nS, (turnOutput r p q O).result x' (d + a) = O.result x (d + a)) ∧
    (O.light = false → ((List.range (Post.nColumns O)).map ((turnOutput r p q O).result x')).drop (d + nS) =
      (((List.range (Post.nColumns O)).map (O.result x)).drop (d + nS)).take 6 ++
      (Post.voigt (turnT (embed d r) (O.stress x))).map (O.units.stress * ·) ++
      (Post.voigt2 (turnT (embed d r) (Post.convert d (O.strain x true)))).map (O.units.strain * ·) ++
      (Post.voigt2 (turnT (embed d r) (Post.convert d (O.elastic x true)))).map (O.units.strain * ·) ++
      Post.voigt2 (turnT (embed d r) (Post.convert d (O.plastic x))) ++
      (if O.fluctuations then
        [O.units.stress * Post.vonMisesStress (O.stressFluct x)] ++
        (Post.voigt (turnT (embed d r) (O.stressFluct x))).map (O.units.stress * ·) ++
        (Post.voigt2 (turnT (embed d r) (Post.convert d (O.strain x false)))).map (O.units.strain * ·)
       else [])) := by
  have hres : ∀ (o : Post.Output d nC nS) (x : Post.Inputs d) p, p ∈ o.writes x →
      o.result x p.1 = p.2 := fun o x p hp => by
    refine Post.foldl_update_nodup _ ?_ _ p hp
    rw [Post.writes_slots]; exact List.nodup_range
  have hdisp : ∀ (o : Post.Output d nC nS) (x : Post.Inputs d) (i : Fin d),
      o.result x i = o.displacement x i := fun o x i => by
    refine hres o x ((i : ℕ), o.displacement x i) ?_
    unfold Post.Output.writes
    simp only [List.append_assoc]
    exact List.mem_append_left _ (List.mem_map_of_mem (List.mem_finRange i))
  have hslip : ∀ (o : Post.Output d nC nS) (x : Post.Inputs d) (b : Fin nS),
      o.result x (d + b) = o.slip x b := fun o x b => by
    refine hres o x (d + (b : ℕ), o.slip x b) ?_
    unfold Post.Output.writes
    simp only [List.append_assoc]
    exact List.mem_append_right _ (List.mem_append_left _ (List.mem_map_of_mem (List.mem_finRange b)))
  refine ⟨fun i => ?_, fun a => ?_, fun hl => ?_⟩
  · simp only [hdisp]; exact out_displacement_turn hx i
  · rw [hslip, hslip, out_slip_turn hx]
  · have e1 := Post.derived_values (turnOutput r p q O) x' hl
    have e2 := Post.derived_values O x hl
    have hn : Post.nColumns (turnOutput r p q O) = Post.nColumns O := rfl
    rw [hn] at e1
    rw [e1, e2]
    have hs := out_stress_turn hd h ht hm hx
    have hu : (turnOutput r p q O).units = O.units := rfl
    have hf : (turnOutput r p q O).fluctuations = O.fluctuations := rfl
    have hi : ∀ c a, (turnOutput r p q O).slipIndex c a = O.slipIndex c a := fun _ _ => rfl
    have hmS := vonMises_turn (embed_orthogonal h)
    simp only [hs.1, hs.2, hu, hf, hi, hx.slip, out_slip_turn hx, out_plastic_turn hx,
      out_strain_turn hx, out_elastic_turn hx, (measures_turn h _).2.2, hmS,
      convert_turn hd r _ (out_elastic_symm hm _).1, convert_turn hd r _ (out_elastic_symm hm _).2.2,
      convert_turn hd r _ (out_elastic_symm (x := x) hm true).2.1,
      out_density_turn h hx System.direction fun _ => rfl, out_density_turn h hx System.third fun _ => rfl]
    simp only [List.cons_append, List.nil_append, List.take_succ_cons, List.take_zero, List.append_assoc]

end output

/-! ## Non-vacuity -/

/-- A support point in the plane with one slip. -/
def exNodes : Nodes 2 1 (Fin 3) :=
  ⟨![.inl 0, .inl 1, .inr 0], fun i b => if i = 2 then 2 else if b = 0 then 0 else 1⟩

/-- The same as global degrees of freedom. -/
def exNodesG : Nodes 2 1 ℕ :=
  ⟨fun g => if g = 0 then .inl 0 else if g = 1 then .inl 1 else .inr 0,
    fun g b => if 2 ≤ g then g else if b = 0 then 0 else 1⟩

theorem exNodes_ok : exNodes.Ok := by
  refine ⟨?_, ?_, ?_⟩ <;> decide

theorem exNodesG_ok : exNodesG.Ok := by
  have h0 : exNodesG.comp 0 = .inl 0 := rfl
  have h1 : exNodesG.comp 1 = .inl 1 := rfl
  have h2 : ∀ g c, exNodesG.comp g = .inl c → (g = 0 ∧ c = 0) ∨ (g = 1 ∧ c = 1) := by
    intro g c hg
    unfold exNodesG at hg
    simp only at hg
    split_ifs at hg with ha hb
    · exact .inl ⟨ha, (Sum.inl.inj hg).symm⟩
    · exact .inr ⟨hb, (Sum.inl.inj hg).symm⟩
  refine ⟨fun g c hg b => ?_, fun g c hg => ?_, fun g c hg b => ?_⟩
  · rcases h2 g c hg with ⟨rfl, rfl⟩ | ⟨rfl, rfl⟩ <;> fin_cases b <;> rfl
  · rcases h2 g c hg with ⟨rfl, rfl⟩ | ⟨rfl, rfl⟩ <;> rfl
  · rcases h2 g c hg with ⟨rfl, rfl⟩ | ⟨rfl, rfl⟩ <;> fin_cases b <;> rfl

/-- The displacement of the support point is prescribed. -/
def exPrescribed : Sol.Constraints ℕ := fun g =>
  if g = 0 then some ⟨[], 1⟩ else if g = 1 then some ⟨[], 2⟩ else none

theorem exPrescribed_vectorial : SpecVectorial exNodesG exPrescribed := by
  refine ⟨fun g l hg x hx => ?_, fun g c hg b => ?_⟩
  · unfold exPrescribed at hg
    split_ifs at hg <;> (cases hg; cases hx)
  · unfold exNodesG at hg
    simp only at hg
    split_ifs at hg with ha hb
    · subst ha; fin_cases b <;> rfl
    · subst hb; fin_cases b <;> rfl

theorem exWhole (m : ℕ) (hm : 2 ≤ m) : SpecWhole exNodesG m := by
  intro g hg c hc b
  unfold exNodesG
  simp only
  split_ifs <;> omega

/-- One cell with one quadrature point, supplied and loaded. -/
noncomputable def exBodyRun (p : CellPrm 2 1) (h : Bulk 1) : BodyRun 2 1 1 3 :=
  ⟨p, fun i => i, 1, fun _ => ⟨1, ⟨fun _ => 1, fun _ => ![1, 2]⟩, 0, h, fun _ => 0⟩,
    fun k _ => ![k, 1], 0, fun f => f.elim0, 1, fun k _ => ⟨fun _ => 1, ![1, k], 1⟩⟩

theorem exBodyRun_ok (p : CellPrm 2 1) (h : Bulk 1) : (exBodyRun p h).Ok exNodes exNodesG := by
  refine ⟨⟨?_, ?_⟩, fun f => f.elim0, fun q => ⟨fun _ _ _ _ => rfl, fun _ _ _ _ => rfl⟩,
    fun f => f.elim0, fun k l => fun _ _ _ _ => rfl⟩
  · show ∀ i : Fin 3, exNodesG.comp i = exNodes.comp i
    decide
  · show ∀ (i : Fin 3) (c : Fin 2), exNodes.comp i = .inl c → ∀ b, exNodesG.sib i b = exNodes.sib i b
    decide

/-- A linear system with that support point held, and its turned one. -/
example (x : ℕ → ℝ) :=
  C101_newton (K := exPrescribed) exNodes_ok (rotation2_orthogonal 30) exNodesG_ok exPrescribed_vectorial
    (fun g l hg e he => by
      unfold exPrescribed at hg
      split_ifs at hg <;> (cases hg; cases he)) (exWhole 3 (by norm_num))
    [(⟨fun i => i, fun i j => if i = j then 2 else 1, fun i => i, fun _ => 1, []⟩, fun _ => 3)]
    (fun a ha => by
      rw [List.mem_singleton.1 ha]
      refine ⟨⟨?_, ?_⟩, fun b hb => absurd hb List.not_mem_nil⟩
      · show ∀ i : Fin 3, exNodesG.comp i = exNodes.comp i
        decide
      · show ∀ (i : Fin 3) (c : Fin 2), exNodes.comp i = .inl c → ∀ b, exNodesG.sib i b = exNodes.sib i b
        decide)
    (fun g hg _ => by
      have hg' : g = 0 ∨ g = 1 ∨ g = 2 := by omega
      rcases hg' with rfl | rfl | rfl <;>
        simp [diagonal, turnHanded, Fin.sum_univ_three]) x

/-- A cell turned by thirty degrees over a run with prescribed displacement. -/
example (p : CellPrm 2 1) (h : Bulk 1) (dt : ℕ → ℝ) (u : ℕ → ℕ → ℝ) (T : ℕ) :=
  C101_run exNodes_ok (rotation2_orthogonal 30) exNodesG_ok (fun _ => exPrescribed)
    (fun _ => exPrescribed_vectorial) [exBodyRun p h]
    (fun b hb => by rw [List.mem_singleton.1 hb]; exact exBodyRun_ok p h) (exWhole 3 (by norm_num))
    dt u T

/-- The turned displacement is another one: `(1, 0)` becomes `(0, 1)`. -/
example : exNodesG.turn (rotation2 90) (fun g => if g = 0 then 1 else 0) 0 = 0 ∧
    exNodesG.turn (rotation2 90) (fun g => if g = 0 then 1 else 0) 1 = 1 := by
  have e : (90 : ℝ) * degToRad = Real.pi / 2 := by unfold degToRad; ring
  constructor <;>
    simp [Nodes.turn, exNodesG, rotation2, e]

/-- A point turned by thirty degrees. -/
example (O : Post.Output 2 1 1) (hdec : O.decohesion = false)
    (x : Post.Inputs 2) : ∃ x', SpecTurnedPoint (rotation2 30) O x x' := by
  refine ⟨⟨fun i => if h : i < 2 then ∑ b : Fin 2, rotation2 30 ⟨i, h⟩ b * x.value b else x.value i,
    fun i => if h : i < 2 then ∑ b : Fin 2, rotation2 30 ⟨i, h⟩ b • (rotation2 30 *ᵥ x.gradient b)
      else rotation2 30 *ᵥ x.gradient i⟩, ?_, ?_, ?_, ?_⟩
  · intro k hk i
    rw [hdec] at hk
    have : k = 0 := by simp at hk; omega
    subst this
    fin_cases i <;> simp
  · intro k hk i
    rw [hdec] at hk
    have : k = 0 := by simp at hk; omega
    subst this
    fin_cases i <;> simp
  · intro c a
    have : ¬ O.slipIndex c a < 2 := by
      unfold Post.Output.slipIndex Post.Output.offset; rw [hdec]; simp
    simp only [dif_neg this]
  · intro c a
    have : ¬ O.slipIndex c a < 2 := by
      unfold Post.Output.slipIndex Post.Output.offset; rw [hdec]; simp
    simp only [dif_neg this]

end Verif.Asm
