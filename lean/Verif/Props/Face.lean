import Verif.Model.Face
import Verif.Props.Interface
import Verif.Props.Microtraction
import Verif.Props.Assembly

/-!
# Properties of the grain boundary integrals: C52, C67, C68, C69
-/

namespace Verif.Asm
open Matrix Finset Verif.Cry Verif.Hist Verif.Micro Verif.Itf

variable {d e n N : ℕ}

/-! ## C52: balance across the interface -/

theorem opening_swap (cur nb : Side d n N) (u un : Fin N → ℝ) :
    opening nb cur un u = -opening cur nb u un := by
  unfold opening; simp

/-- The traction the assembly uses, cohesive part degraded plus contact part. -/
noncomputable def SpecTraction (p : FacePrm d e) (h : Iface) (δ nrm : Vec d) : Option (Vec d) :=
  (p.coh.traction δ nrm h.maxOpening h.oldOpening p.dt).map fun t =>
    degradation p.exponent (p.damage h) p.coupleMacro • t + p.contact.traction δ nrm

theorem traction_flip (p : FacePrm d e) (h : Iface) (δ nrm : Vec d) :
    SpecTraction p h (-δ) (-nrm) = (SpecTraction p h δ nrm).map fun t => -t := by
  unfold SpecTraction
  have h1 := (C40_cohesive p.coh δ nrm h.maxOpening h.oldOpening p.dt).2
  have h2 : p.contact.traction (-δ) (-nrm) = -p.contact.traction δ nrm := by
    funext i; exact C40_contact p.contact δ nrm i
  change p.coh.traction (-δ) (-nrm) _ _ _ = _ at h1
  rw [h1, h2]
  cases p.coh.traction δ nrm h.maxOpening h.oldOpening p.dt with
  | none => rfl
  | some t =>
    simp only [Option.map_some, Option.some.injEq]
    funext i
    simp; ring

/-- Nodal values of displacements only, of slips only. -/
def SpecDisplacementsOnly (kind : Kind n N) (v : Fin N → ℝ) : Prop :=
  ∀ i a, kind i = some a → v i = 0
def SpecSlipsOnly (kind : Kind n N) (v : Fin N → ℝ) : Prop := ∀ i, kind i = none → v i = 0

theorem disp_power (p : FacePrm d e) (hd : p.decohesion = true) (kind : Kind n N)
    (cc cn : Crystal d n) (nrm : Vec d) (jxw : ℝ) (h : Iface) (cur nb : Side d n N)
    (u un v : Fin N → ℝ) (hv : SpecDisplacementsOnly kind v) (t : Vec d)
    (ht : SpecTraction p h (opening cur nb u un) nrm = some t) (R : Fin N → ℝ)
    (hR : ∀ i, p.rhsTerm kind cc cn nrm jxw h cur nb u un i = some (R i)) :
    ∑ i, v i * R i = p.dn3 / p.dn0 * (cur.displacement v ⬝ᵥ t) * jxw := by
  have e1 : ∀ i, v i * R i = v i * (p.dn3 / p.dn0 * (cur.disp i ⬝ᵥ t) * jxw) := by
    intro i
    rcases hk : kind i with _ | a
    · have := hR i
      unfold FacePrm.rhsTerm at this
      rw [hk] at this
      simp only [hd, if_true] at this
      unfold SpecTraction at ht
      rcases hc : p.coh.traction (opening cur nb u un) nrm h.maxOpening h.oldOpening p.dt with _ | x
      · rw [hc] at ht; simp at ht
      · rw [hc, Option.map_some, Option.some.injEq] at ht
        rw [hc, Option.map_some, Option.some.injEq] at this
        rw [← this, ht]
    · rw [hv i a hk]; ring
  unfold Side.displacement
  rw [Finset.sum_congr rfl fun i _ => e1 i, sum_dotProduct]
  simp only [smul_dotProduct, smul_eq_mul, Finset.mul_sum, Finset.sum_mul]
  exact sum_congr rfl fun i _ => by ring

/-- C52: the forces of a face on its two cells balance.  For displacement test functions `v`, `w`
of the two cells that agree on the face (in particular every joint rigid motion) the contributions
of the face assembled from the two sides cancel, whatever the opening, history, damage and laws;
and the forces are defined on one side iff on the other. -/
theorem C52_balance (p : FacePrm d e) (kind : Kind n N) (ca cb : Crystal d n) (nrm : Vec d)
    (jxw : ℝ) (h : Iface) (a b : Side d n N)
    (u un v w : Fin N → ℝ) (hv : SpecDisplacementsOnly kind v) (hw : SpecDisplacementsOnly kind w)
    (hcont : ∑ i, v i • a.disp i = ∑ i, w i • b.disp i) (Ra Rb : Fin N → ℝ)
    (hRa : ∀ i, p.rhsTerm kind ca cb nrm jxw h a b u un i = some (Ra i))
    (hRb : ∀ i, p.rhsTerm kind cb ca (-nrm) jxw h b a un u i = some (Rb i)) :
    ∑ i, v i * Ra i + ∑ i, w i * Rb i = 0 := by
  by_cases hd : p.decohesion = true
  · rcases ht : SpecTraction p h (opening a b u un) nrm with _ | t
    · -- NaN on a displacement row: then there is no displacement row
      have z : ∀ i, kind i = none → False := by
        intro i hk
        have := hRa i
        unfold FacePrm.rhsTerm at this
        rw [hk] at this
        simp only [hd, if_true] at this
        unfold SpecTraction at ht
        rw [Option.map_eq_none_iff] at ht
        rw [ht] at this
        simp at this
      have v0 : ∀ i, v i = 0 := fun i => by
        rcases hk : kind i with _ | x
        · exact (z i hk).elim
        · exact hv i x hk
      have w0 : ∀ i, w i = 0 := fun i => by
        rcases hk : kind i with _ | x
        · exact (z i hk).elim
        · exact hw i x hk
      simp [v0, w0]
    · have ht' : SpecTraction p h (opening b a un u) (-nrm) = some (-t) := by
        rw [opening_swap, traction_flip, ht]; rfl
      rw [disp_power p hd kind ca cb nrm jxw h a b u un v hv t ht Ra hRa,
        disp_power p hd kind cb ca (-nrm) jxw h b a un u w hw (-t) ht' Rb hRb]
      unfold Side.displacement
      rw [hcont, dotProduct_neg]
      ring
  · have z : ∀ (c c' : Crystal d n) (m : Vec d) (s s' : Side d n N) (x y : Fin N → ℝ)
        (R f : Fin N → ℝ), SpecDisplacementsOnly kind f →
        (∀ i, p.rhsTerm kind c c' m jxw h s s' x y i = some (R i)) → ∑ i, f i * R i = 0 := by
      intro c c' m s s' x y R f hf hR
      refine Finset.sum_eq_zero fun i _ => ?_
      rcases hk : kind i with _ | q
      · have := hR i
        unfold FacePrm.rhsTerm at this
        rw [hk] at this
        simp only [hd] at this
        rw [if_neg (by simp)] at this
        rw [← Option.some.inj this, mul_zero]
      · rw [hf i q hk, zero_mul]
    rw [z _ _ _ _ _ _ _ Ra v hv hRa, z _ _ _ _ _ _ _ Rb w hw hRb, add_zero]

/-- C52: the forces are defined on one side of the face iff on the other. -/
theorem C52_defined (p : FacePrm d e) (kind : Kind n N) (ca cb : Crystal d n) (nrm : Vec d)
    (jxw : ℝ) (h : Iface) (a b : Side d n N) (u un : Fin N → ℝ) (i : Fin N) :
    p.rhsTerm kind ca cb nrm jxw h a b u un i = none ↔
      p.rhsTerm kind cb ca (-nrm) jxw h b a un u i = none := by
  unfold FacePrm.rhsTerm
  rcases kind i with _ | x <;> simp only
  · by_cases hd : p.decohesion = true
    · rw [if_pos hd, if_pos hd, opening_swap a b u un]
      have h1 := (C40_cohesive p.coh (opening a b u un) nrm h.maxOpening h.oldOpening p.dt).2
      change p.coh.traction (-opening a b u un) (-nrm) _ _ _ = _ at h1
      rw [h1]
      simp
    · rw [if_neg hd, if_neg hd]
  · by_cases hd : p.microtraction = true
    · rw [if_pos hd, if_pos hd]; simp
    · rw [if_neg hd, if_neg hd]

/-- C52: the power of the face forces on the displacements themselves is never positive: the
interface resists opening and penetration (the right-hand side is minus the internal force). -/
theorem C52_resists (p : FacePrm d e) (hd : p.decohesion = true) (kind : Kind n N)
    (ca cb : Crystal d n) (nrm : Vec d) (hn : ∑ i, nrm i * nrm i = 1) (jxw : ℝ) (hj : 0 ≤ jxw)
    (h : Iface) (hdmg : h.damage ≤ 1) (a b : Side d n N) (u un : Fin N → ℝ) (hc : p.coh.sensible)
    (hk : 0 ≤ p.contact.penalty ∧ 0 < p.contact.charStress ∧ 0 < p.contact.charDisp)
    (h0 : 0 < p.dn0) (h3 : 0 < p.dn3) (hdt : 0 < p.dt)
    (hmax : effOpening p.coh (opening a b u un) nrm ≤ h.maxOpening)
    (hu : SpecDisplacementsOnly kind u) (hun : SpecDisplacementsOnly kind un) (Ra Rb : Fin N → ℝ)
    (hRa : ∀ i, p.rhsTerm kind ca cb nrm jxw h a b u un i = some (Ra i))
    (hRb : ∀ i, p.rhsTerm kind cb ca (-nrm) jxw h b a un u i = some (Rb i))
    (t : Vec d) (ht : p.coh.traction (opening a b u un) nrm h.maxOpening h.oldOpening p.dt = some t) :
    ∑ i, u i * Ra i + ∑ i, un i * Rb i = -(p.dn3 / p.dn0 *
        ((degradation p.exponent h.damage p.coupleMacro • t +
          p.contact.traction (opening a b u un) nrm) ⬝ᵥ opening a b u un) * jxw) ∧
    ∑ i, u i * Ra i + ∑ i, un i * Rb i ≤ 0 := by
  have hdm : p.damage h = h.damage := by unfold FacePrm.damage; rw [if_pos hd]
  have hT : SpecTraction p h (opening a b u un) nrm =
      some (degradation p.exponent h.damage p.coupleMacro • t +
        p.contact.traction (opening a b u un) nrm) := by
    unfold SpecTraction; rw [ht, hdm]; rfl
  have hT' : SpecTraction p h (opening b a un u) (-nrm) =
      some (-(degradation p.exponent h.damage p.coupleMacro • t +
        p.contact.traction (opening a b u un) nrm)) := by
    rw [opening_swap, traction_flip, hT]; rfl
  have key : ∑ i, u i * Ra i + ∑ i, un i * Rb i = -(p.dn3 / p.dn0 *
        ((degradation p.exponent h.damage p.coupleMacro • t +
          p.contact.traction (opening a b u un) nrm) ⬝ᵥ opening a b u un) * jxw) := by
    rw [disp_power p hd kind ca cb nrm jxw h a b u un u hu _ hT Ra hRa,
      disp_power p hd kind cb ca (-nrm) jxw h b a un u un hun _ hT' Rb hRb]
    set T := degradation p.exponent h.damage p.coupleMacro • t +
          p.contact.traction (opening a b u un) nrm with hTdef
    have : T ⬝ᵥ opening a b u un = b.displacement un ⬝ᵥ T - a.displacement u ⬝ᵥ T := by
      unfold opening
      rw [dotProduct_sub, dotProduct_comm T, dotProduct_comm T]
    rw [this, dotProduct_neg]
    ring
  refine ⟨key, ?_⟩
  rw [key]
  have w1 : 0 ≤ t ⬝ᵥ opening a b u un :=
    C38_dissipative p.coh hc _ nrm t _ _ p.dt hdt hn hmax ht
  have w2 : 0 ≤ p.contact.traction (opening a b u un) nrm ⬝ᵥ opening a b u un := by
    rcases le_or_gt 0 (∑ i, opening a b u un i * nrm i) with hp | hp
    · have : p.contact.traction (opening a b u un) nrm = 0 := by
        funext i; exact C42_open p.contact _ nrm hp i
      rw [this]; simp
    · exact (C42_penetration p.contact hk.1 hk.2.1 hk.2.2 _ nrm hn hp.le).2.2
  have w3 : 0 ≤ degradation p.exponent h.damage p.coupleMacro := by
    unfold degradation
    split_ifs
    · exact Real.rpow_nonneg (by linarith) _
    · exact zero_le_one
  rw [add_dotProduct, smul_dotProduct, smul_eq_mul]
  have : 0 ≤ p.dn3 / p.dn0 * (degradation p.exponent h.damage p.coupleMacro *
      (t ⬝ᵥ opening a b u un) + p.contact.traction (opening a b u un) nrm ⬝ᵥ opening a b u un) *
      jxw := by positivity
  linarith

/-! ### Slips -/

theorem burgers_line (lat : Vec d → Vec d → Fin e → ℝ) (nb cur : Crystal d n) (nrm : Vec d)
    (γn γ gn g : Fin n → ℝ) (t : ℝ) (i : Fin d) (j : Fin e) :
    burgers lat nb cur nrm (fun a => γn a + t * gn a) (fun a => γ a + t * g a) i j =
      burgers lat nb cur nrm γn γ i j + t * burgers lat nb cur nrm gn g i j := by
  unfold burgers
  rw [Finset.mul_sum, ← Finset.sum_add_distrib]
  exact sum_congr rfl fun a _ => by ring

theorem burgers_contract (lat : Vec d → Vec d → Fin e → ℝ) (nb cur : Crystal d n) (nrm : Vec d)
    (γn γ gn g : Fin n → ℝ) :
    ∑ i, ∑ j, burgers lat nb cur nrm γn γ i j * burgers lat nb cur nrm gn g i j =
      ∑ a, (gn a * ∑ b, (γn b * modulus lat (nb a) (nb b) nrm - γ b * modulus lat (nb a) (cur b) nrm)
        - g a * ∑ b, (γn b * modulus lat (cur a) (nb b) nrm -
            γ b * modulus lat (cur a) (cur b) nrm)) := by
  have h1 : ∀ i j, burgers lat nb cur nrm γn γ i j * burgers lat nb cur nrm gn g i j =
      ∑ a, (gn a * (burgers lat nb cur nrm γn γ i j *
          ((nb a).direction i * lat (nb a).normal nrm j)) -
        g a * (burgers lat nb cur nrm γn γ i j *
          ((cur a).direction i * lat (cur a).normal nrm j))) := by
    intro i j
    rw [show burgers lat nb cur nrm gn g i j = ∑ a, (gn a * ((nb a).direction i *
        lat (nb a).normal nrm j) - g a * ((cur a).direction i * lat (cur a).normal nrm j)) from rfl,
      Finset.mul_sum]
    exact sum_congr rfl fun a _ => by ring
  simp only [h1]
  have h2 : ∀ i, ∑ j, ∑ a, (gn a * (burgers lat nb cur nrm γn γ i j *
          ((nb a).direction i * lat (nb a).normal nrm j)) -
        g a * (burgers lat nb cur nrm γn γ i j *
          ((cur a).direction i * lat (cur a).normal nrm j))) =
      ∑ a, ∑ j, (gn a * (burgers lat nb cur nrm γn γ i j *
          ((nb a).direction i * lat (nb a).normal nrm j)) -
        g a * (burgers lat nb cur nrm γn γ i j *
          ((cur a).direction i * lat (cur a).normal nrm j))) := fun i => Finset.sum_comm
  simp only [h2]
  rw [Finset.sum_comm]
  refine sum_congr rfl fun a _ => ?_
  rw [← burgers_dyad, ← burgers_dyad]
  simp only [Finset.mul_sum, ← Finset.sum_sub_distrib]

theorem slip_power (p : FacePrm d e) (hm : p.microtraction = true) (kind : Kind n N)
    (cc cn : Crystal d n) (nrm : Vec d) (jxw : ℝ) (h : Iface) (cur nb : Side d n N)
    (hs : cur.Primitive kind) (u un v : Fin N → ℝ) (hv : SpecSlipsOnly kind v) (R : Fin N → ℝ)
    (hR : ∀ i, p.rhsTerm kind cc cn nrm jxw h cur nb u un i = some (R i)) :
    ∑ i, v i * R i = p.dn2 * degradation p.exponent (p.damage h) p.coupleMicro * jxw *
      ∑ a, cur.slip v a * Itf.microtraction p.micro p.lat cc cn nrm (cur.slip u) (nb.slip un) a := by
  have e1 : ∀ i, v i * R i = p.dn2 * degradation p.exponent (p.damage h) p.coupleMicro * jxw *
      ∑ a, v i * cur.phi a i *
        Itf.microtraction p.micro p.lat cc cn nrm (cur.slip u) (nb.slip un) a := by
    intro i
    rcases hk : kind i with _ | a
    · rw [hv i hk]; simp
    · have := hR i
      unfold FacePrm.rhsTerm at this
      rw [hk] at this
      simp only [hm, if_true] at this
      rw [← Option.some.inj this, Finset.sum_eq_single a]
      · ring
      · intro b _ hb
        rw [hs.phi i b (by rw [hk]; simpa using fun h => hb h.symm)]; ring
      · simp
  rw [Finset.sum_congr rfl fun i _ => e1 i, ← Finset.mul_sum, Finset.sum_comm]
  congr 1
  refine sum_congr rfl fun a _ => ?_
  unfold Side.slip
  rw [Finset.sum_mul]

/-- The energy the face stores in the slip incompatibility, degraded and scaled as in the
residual. -/
noncomputable def SpecSlipEnergy (p : FacePrm d e) (h : Iface) (ca cb : Crystal d n) (nrm : Vec d)
    (jxw : ℝ) (a b : Side d n N) (u un : Fin N → ℝ) : ℝ :=
  p.dn2 * degradation p.exponent (p.damage h) p.coupleMicro * jxw *
    (interfaceEnergy p.micro p.lat cb ca nrm (b.slip un) (a.slip u) / p.micro.char)

/-- C52: the slip forces of the face on its two cells together are minus the derivative of *one*
stored energy: for every variation of the slips of both cells the power of the forces assembled
from the two sides is minus the rate of the energy. -/
theorem C52_slips (p : FacePrm d e) (hlat : Lateral p.lat) (hm : p.microtraction = true)
    (kind : Kind n N) (ca cb : Crystal d n) (nrm : Vec d)
    (jxw : ℝ) (h : Iface) (a b : Side d n N) (ha : a.Primitive kind) (hb : b.Primitive kind)
    (u un v w : Fin N → ℝ) (hv : SpecSlipsOnly kind v) (hw : SpecSlipsOnly kind w)
    (Ra Rb : Fin N → ℝ)
    (hRa : ∀ i, p.rhsTerm kind ca cb nrm jxw h a b u un i = some (Ra i))
    (hRb : ∀ i, p.rhsTerm kind cb ca (-nrm) jxw h b a un u i = some (Rb i)) :
    HasDerivAt (fun t : ℝ => SpecSlipEnergy p h ca cb nrm jxw a b (fun i => u i + t * v i)
        (fun i => un i + t * w i))
      (-(∑ i, v i * Ra i + ∑ i, w i * Rb i)) 0 := by
  rw [slip_power p hm kind ca cb nrm jxw h a b ha u un v hv Ra hRa,
    slip_power p hm kind cb ca (-nrm) jxw h b a hb un u w hw Rb hRb]
  have lin : ∀ (s : Side d n N) (x y : Fin N → ℝ) (t : ℝ),
      s.slip (fun i => x i + t * y i) = fun c => s.slip x c + t * s.slip y c := by
    intro s x y t
    funext c
    unfold Side.slip
    rw [Finset.mul_sum, ← Finset.sum_add_distrib]
    exact sum_congr rfl fun i _ => by ring
  unfold SpecSlipEnergy interfaceEnergy
  simp only [lin, burgers_line]
  have hB : HasDerivAt (fun t : ℝ => ∑ i, ∑ j,
      (burgers p.lat cb ca nrm (b.slip un) (a.slip u) i j +
        t * burgers p.lat cb ca nrm (b.slip w) (a.slip v) i j) *
      (burgers p.lat cb ca nrm (b.slip un) (a.slip u) i j +
        t * burgers p.lat cb ca nrm (b.slip w) (a.slip v) i j))
      (2 * ∑ i, ∑ j, burgers p.lat cb ca nrm (b.slip un) (a.slip u) i j *
        burgers p.lat cb ca nrm (b.slip w) (a.slip v) i j) 0 := by
    rw [Finset.mul_sum]
    refine HasDerivAt.fun_sum fun i _ => ?_
    rw [Finset.mul_sum]
    refine HasDerivAt.fun_sum fun j _ => ?_
    have h1 := ((hasDerivAt_id' (0 : ℝ)).mul_const
      (burgers p.lat cb ca nrm (b.slip w) (a.slip v) i j)).const_add
      (burgers p.lat cb ca nrm (b.slip un) (a.slip u) i j)
    refine (h1.mul h1).congr_deriv ?_
    ring
  refine ((((hB.const_mul (0.5 * p.micro.modulus)).div_const p.micro.char).const_mul
    (p.dn2 * degradation p.exponent (p.damage h) p.coupleMicro * jxw))).congr_deriv ?_
  rw [burgers_contract]
  have m1 : ∀ c, Itf.microtraction p.micro p.lat ca cb nrm (a.slip u) (b.slip un) c =
      (∑ k, (b.slip un k * modulus p.lat (ca c) (cb k) nrm -
        a.slip u k * modulus p.lat (ca c) (ca k) nrm)) * (p.micro.modulus / p.micro.char) := by
    intro c
    unfold Itf.microtraction intra inter
    rw [neg_div, mul_neg, ← neg_mul, ← Finset.sum_neg_distrib]
    congr 1
    exact sum_congr rfl fun k _ => by ring
  have m2 : ∀ c, Itf.microtraction p.micro p.lat cb ca (-nrm) (b.slip un) (a.slip u) c =
      -(∑ k, (b.slip un k * modulus p.lat (cb c) (cb k) nrm -
        a.slip u k * modulus p.lat (cb c) (ca k) nrm)) * (p.micro.modulus / p.micro.char) := by
    intro c
    unfold Itf.microtraction intra inter
    rw [neg_div, mul_neg, ← neg_mul]
    congr 2
    refine sum_congr rfl fun k _ => ?_
    rw [modulus_neg hlat, modulus_neg hlat]; ring
  simp only [m1, m2]
  rw [Finset.sum_sub_distrib]
  have f1 : ∀ (x y : Fin n → ℝ) (z : ℝ), ∑ c, x c * (y c * z) = (∑ c, x c * y c) * z := by
    intro x y z; rw [Finset.sum_mul]; exact sum_congr rfl fun c _ => by ring
  have f2 : ∀ (x y : Fin n → ℝ) (z : ℝ), ∑ c, x c * (-y c * z) = -(∑ c, x c * y c) * z := by
    intro x y z
    rw [neg_mul, Finset.sum_mul, ← Finset.sum_neg_distrib]
    exact sum_congr rfl fun c _ => by ring
  rw [f1, f2]
  norm_num
  ring

/-- C52: with equal orientations and slips continuous across the face the microscopic forces
vanish. -/
theorem C52_compatible (p : FacePrm d e) (kind : Kind n N) (c : Crystal d n) (nrm : Vec d)
    (jxw : ℝ) (h : Iface) (a b : Side d n N) (u un : Fin N → ℝ) (i : Fin N) (x : Fin n)
    (hi : kind i = some x) (hcont : ∀ y, ∑ j, u j * a.phi y j = ∑ j, un j * b.phi y j) :
    p.rhsTerm kind c c nrm jxw h a b u un i = some 0 := by
  unfold FacePrm.rhsTerm
  rw [hi]
  simp only
  have : a.slip u = b.slip un := by funext y; exact hcont y
  rw [this, (C37_compatible p.micro p.lat c nrm (b.slip un) x).2]
  split_ifs <;> simp

/-! ### Symmetry of the interface blocks -/

theorem coh_symm (c : Coh) (δ nrm : Vec d) (mx old dt : ℝ) (J : Mat d)
    (h : c.jacobian δ nrm mx old dt = some J) : Jᵀ = J := by
  have s1 : ∀ m : Mat d, (symmetrize m)ᵀ = symmetrize m := by
    intro m
    funext i j
    simp [symmetrize, Matrix.transpose_apply]
    ring
  have s2 : (effIdentity c δ nrm)ᵀ = effIdentity c δ nrm := by
    unfold effIdentity tangentialProjector normalProjector
    rw [transpose_add, transpose_smul, transpose_smul, transpose_sub, s1, transpose_one]
  unfold Coh.jacobian at h
  simp only at h
  split at h
  · rw [← Option.some.inj h]
    rw [transpose_smul, transpose_smul, transpose_sub, transpose_smul, s1, s2]
  · split_ifs at h with hz
    rw [← Option.some.inj h, transpose_smul, transpose_smul, s2]
  · rw [← Option.some.inj h, transpose_zero]

theorem contact_symm (c : Contact) (δ nrm : Vec d) :
    (c.jacobian δ nrm)ᵀ = c.jacobian δ nrm := by
  unfold Contact.jacobian normalProjector
  rw [transpose_smul]
  congr 1
  funext i j
  simp [symmetrize, Matrix.transpose_apply]
  ring

theorem bilin_symm (M : Mat d) (h : Mᵀ = M) (x y : Vec d) : (x ᵥ* M) ⬝ᵥ y = (y ᵥ* M) ⬝ᵥ x := by
  rw [← dotProduct_mulVec, dotProduct_comm, ← vecMul_transpose, h]

/-- C51 on grain boundary faces: the diagonal block of a face is symmetric, and the coupling blocks
assembled from the two sides are transposes of each other: the global matrix stays symmetric.
`none` (NaN) on one side iff on the other. -/
theorem C51_interface (p : FacePrm d e) (hlat : Lateral p.lat) (kind : Kind n N)
    (ca cb : Crystal d n) (nrm : Vec d) (jxw : ℝ) (h : Iface) (a b : Side d n N)
    (u un : Fin N → ℝ) (i j : Fin N) :
    p.localTerm kind ca nrm jxw h a b u un i j = p.localTerm kind ca nrm jxw h a b u un j i ∧
    p.couplingTerm kind ca cb nrm jxw h a b u un i j =
      p.couplingTerm kind cb ca (-nrm) jxw h b a un u j i := by
  constructor
  · unfold FacePrm.localTerm
    rcases kind i with _ | x <;> rcases kind j with _ | y <;> simp only
    · by_cases hd : p.decohesion = true
      · rw [if_pos hd, if_pos hd]
        rcases hJ : p.coh.jacobian (opening a b u un) nrm h.maxOpening h.oldOpening p.dt with _ | J
        · rfl
        · simp only [Option.map_some]
          congr 1
          have sM : (degradation p.exponent (p.damage h) p.coupleMacro • J +
              p.contact.jacobian (opening a b u un) nrm)ᵀ =
              degradation p.exponent (p.damage h) p.coupleMacro • J +
              p.contact.jacobian (opening a b u un) nrm := by
            rw [transpose_add, transpose_smul, coh_symm _ _ _ _ _ _ J hJ, contact_symm]
          rw [dotProduct_smul, dotProduct_smul, bilin_symm _ sM]
      · rw [if_neg hd, if_neg hd]
    · split_ifs
      · congr 2
        unfold intraDerivative intra
        rw [modulus_symm]; ring
      · rfl
  · unfold FacePrm.couplingTerm
    rcases kind i with _ | x <;> rcases kind j with _ | y <;> simp only
    · by_cases hd : p.decohesion = true
      · rw [if_pos hd, if_pos hd, opening_swap a b u un]
        obtain ⟨t1, t2⟩ := C40_tangents p.coh p.contact (opening a b u un) nrm h.maxOpening
          h.oldOpening p.dt
        rw [show p.coh.jacobian (-opening a b u un) (-nrm) h.maxOpening h.oldOpening p.dt =
          p.coh.jacobian (opening a b u un) nrm h.maxOpening h.oldOpening p.dt from t1,
          show p.contact.jacobian (-opening a b u un) (-nrm) =
          p.contact.jacobian (opening a b u un) nrm from t2]
        rcases hJ : p.coh.jacobian (opening a b u un) nrm h.maxOpening h.oldOpening p.dt with _ | J
        · rfl
        · simp only [Option.map_some]
          congr 1
          have sM : (degradation p.exponent (p.damage h) p.coupleMacro • J +
              p.contact.jacobian (opening a b u un) nrm)ᵀ =
              degradation p.exponent (p.damage h) p.coupleMacro • J +
              p.contact.jacobian (opening a b u un) nrm := by
            rw [transpose_add, transpose_smul, coh_symm _ _ _ _ _ _ J hJ, contact_symm]
          rw [bilin_symm _ sM]
      · rw [if_neg hd, if_neg hd]
    · split_ifs
      · congr 2
        unfold interDerivative inter
        rw [modulus_neg hlat, modulus_symm]; ring
      · rfl

/-! ## C68: the interface matrix is the derivative of the interface residual -/

/-- The residual row `i` of a face at trial nodal values `u`, `un`, with the history record updated
at these values as the solver does before every assembly. -/
noncomputable def SpecResidual (p : FacePrm d e) (dmg : DamagePrm) (kind : Kind n N)
    (cc cn : Crystal d n) (nrm : Vec d) (jxw : ℝ) (h : Iface) (cur nb : Side d n N)
    (u un : Fin N → ℝ) (i : Fin N) : ℝ :=
  (p.rhsTerm kind cc cn nrm jxw (p.updated dmg nrm h cur nb u un) cur nb u un i).getD 0

theorem opening_line (cur nb : Side d n N) (u un v w : Fin N → ℝ) (t : ℝ) :
    opening cur nb (fun j => u j + t * v j) (fun j => un j + t * w j) =
      fun k => opening cur nb u un k + t * opening cur nb v w k := by
  have lin : ∀ (s : Side d n N) (x y : Fin N → ℝ),
      s.displacement (fun i => x i + t * y i) = s.displacement x + t • s.displacement y := by
    intro s x y
    unfold Side.displacement
    rw [Finset.smul_sum, ← Finset.sum_add_distrib]
    exact sum_congr rfl fun i _ => by rw [add_smul, smul_smul]
  funext k
  unfold opening
  rw [lin, lin]
  simp only [Pi.sub_apply, Pi.add_apply, Pi.smul_apply, smul_eq_mul]
  ring

theorem side_slip_line (s : Side d n N) (x y : Fin N → ℝ) (t : ℝ) (c : Fin n) :
    s.slip (fun i => x i + t * y i) c = s.slip x c + t * s.slip y c := by
  unfold Side.slip
  rw [Finset.mul_sum, ← Finset.sum_add_distrib]
  exact sum_congr rfl fun i _ => by ring

/-- Derivative of the degraded cohesive and contact traction with the history update included. -/
theorem traction_line (p : FacePrm d e) (h : Iface) (δ nrm η : Vec d)
    (hdt : 0 < p.dt) (hn : ∑ k, nrm k * nrm k = 1) (hδ : ∑ k, nrm k * δ k ≠ 0)
    (hcoh : p.coh.charDisp = 1) (hcon : p.contact.charDisp = 1) (h0 : 0 ≤ h.tmpMax) (g : ℝ)
    (hbr : effOpening p.coh δ nrm < h.tmpMax ∨
      (h.tmpMax < effOpening p.coh δ nrm ∧ h.oldOpening ≤ effOpening p.coh δ nrm)) (k : Fin d) :
    ∃ J, p.coh.jacobian δ nrm (max h.tmpMax (effOpening p.coh δ nrm)) h.oldOpening p.dt = some J ∧
      (∀ᶠ t in nhds (0 : ℝ), ∃ T, p.coh.traction (fun j => δ j + t * η j) nrm
        (max h.tmpMax (effOpening p.coh (fun j => δ j + t * η j) nrm)) h.oldOpening p.dt = some T) ∧
      HasDerivAt (fun t : ℝ => g * ((p.coh.traction (fun j => δ j + t * η j) nrm
          (max h.tmpMax (effOpening p.coh (fun j => δ j + t * η j) nrm)) h.oldOpening
          p.dt).getD 0) k + p.contact.traction (fun j => δ j + t * η j) nrm k)
        (((g • J + p.contact.jacobian δ nrm) *ᵥ η) k) 0 := by
  have hcon' := C42_tangent_partial p.contact δ nrm η
    (by simpa [mul_comm] using hδ) k
  rw [hcon, one_mul] at hcon'
  have cont := eff_cont p.coh δ nrm η
  have fin : ∀ (J : Mat d) (f : ℝ → ℝ), HasDerivAt f (∑ j, J k j * η j) 0 →
      HasDerivAt (fun t => g * f t + p.contact.traction (fun j => δ j + t * η j) nrm k)
        (((g • J + p.contact.jacobian δ nrm) *ᵥ η) k) 0 := by
    intro J f hf
    refine ((hf.const_mul g).fun_add hcon').congr_deriv ?_
    rw [add_mulVec, smul_mulVec]
    simp only [Pi.add_apply, Pi.smul_apply, smul_eq_mul, mulVec, dotProduct]
  rcases hbr with hlt | ⟨hgt, hold⟩
  · obtain ⟨J, hJ, hD⟩ := C65_unloading_partial p.coh (by rw [hcoh]; norm_num) δ nrm η h.tmpMax
      h.oldOpening p.dt hδ hlt k
    rw [hcoh, one_mul] at hD
    have ev := cont.eventually_lt (continuousAt_const (y := h.tmpMax))
      (by rw [line_zero]; exact hlt)
    refine ⟨J, by rw [max_eq_left hlt.le]; exact hJ, ?_, fin J _ ?_⟩
    · filter_upwards [ev] with t ht
      rw [max_eq_left ht.le]
      exact ⟨_, traction_unloading p.coh _ nrm
        (lt_of_le_of_lt (effOpening_nonneg _ _ _) ht).ne' (branch_unloading_lt ht)⟩
    · refine HasDerivAt.congr_of_eventuallyEq hD ?_
      filter_upwards [ev] with t ht
      rw [max_eq_left ht.le]
  · have hpos : 0 < effOpening p.coh δ nrm := lt_of_le_of_lt h0 hgt
    obtain ⟨J, hJ, hD⟩ := C65_loading_partial p.coh δ nrm η h.oldOpening p.dt hdt hn hδ hpos hold k
    rw [hcoh, one_mul] at hD
    have ev := (continuousAt_const (y := h.tmpMax)).eventually_lt cont
      (by rw [line_zero]; exact hgt)
    refine ⟨J, by rw [max_eq_right hgt.le]; exact hJ, ?_, fin J _ ?_⟩
    · filter_upwards [ev] with t ht
      rw [max_eq_right ht.le]
      exact ⟨_, traction_at_max p.coh _ nrm h.oldOpening p.dt hdt (lt_of_le_of_lt h0 ht)⟩
    · refine HasDerivAt.congr_of_eventuallyEq hD ?_
      filter_upwards [ev] with t ht
      rw [max_eq_right ht.le]

/-- The degradation factors do not vary near the trial state: no law is coupled to the damage, or
the damage is held at zero, or the interface is below its maximum opening. -/
def SpecDamageFrozen (p : FacePrm d e) (dmg : DamagePrm) (h : Iface) (eff : ℝ) : Prop :=
  (p.coupleMacro = false ∧ p.coupleMicro = false) ∨ dmg.setZero = true ∨ eff < h.tmpMax

theorem frozen_line (p : FacePrm d e) (dmg : DamagePrm) (h : Iface) (cur nb : Side d n N)
    (nrm : Vec d) (u un v w : Fin N → ℝ)
    (hf : SpecDamageFrozen p dmg h (effOpening p.coh (opening cur nb u un) nrm)) :
    ∀ᶠ t in nhds (0 : ℝ), ∀ c : Bool, (c = p.coupleMacro ∨ c = p.coupleMicro) →
      degradation p.exponent (p.damage (p.updated dmg nrm h cur nb (fun j => u j + t * v j)
        (fun j => un j + t * w j))) c =
      degradation p.exponent (p.damage (p.updated dmg nrm h cur nb u un)) c := by
  rcases hf with ⟨h1, h2⟩ | h1 | h1
  · refine Filter.Eventually.of_forall fun t c hc => ?_
    have : c = false := by rcases hc with hc | hc <;> rw [hc] <;> assumption
    rw [this]; rfl
  · refine Filter.Eventually.of_forall fun t c _ => ?_
    unfold FacePrm.damage FacePrm.updated Iface.updateOrtiz
    simp only [h1, if_true]
  · have ev := (eff_cont p.coh (opening cur nb u un) nrm (opening cur nb v w)).eventually_lt
      (continuousAt_const (y := h.tmpMax)) (by rw [line_zero]; exact h1)
    filter_upwards [ev] with t ht c _
    unfold FacePrm.damage FacePrm.updated Iface.updateOrtiz
    rw [opening_line]
    simp only
    rw [max_eq_left ht.le, max_eq_left h1.le]

/-- C68, while the damage is frozen, away from the branch points and for characteristic
displacements 1: for every simultaneous variation of the nodal values of both cells the diagonal
and coupling blocks applied to it are minus the derivative of the residual, the update of the
history record at the trial state included (`S.maxOpening = max(h.tmpMax, eff)`).  Missing: damage
that evolves while coupled, where the claim is false (`C68_violated_coupled`), characteristic
displacements other than 1, where it is false (`C65_violated_scaling`, `C42_violated_scaling`), and
the branch points themselves, where the residual has a kink. -/
theorem C68_tangent_partial (p : FacePrm d e) (dmg : DamagePrm) (kind : Kind n N)
    (cc cn : Crystal d n) (nrm : Vec d) (jxw : ℝ) (h : Iface) (cur nb : Side d n N)
    (hcur : cur.Primitive kind) (hnb : nb.Primitive kind) (u un v w : Fin N → ℝ) (hdt : 0 < p.dt)
    (hn : ∑ k, nrm k * nrm k = 1) (hδ : ∑ k, nrm k * opening cur nb u un k ≠ 0)
    (hcoh : p.coh.charDisp = 1) (hcon : p.contact.charDisp = 1) (h0 : 0 ≤ h.tmpMax)
    (hbr : effOpening p.coh (opening cur nb u un) nrm < h.tmpMax ∨
      (h.tmpMax < effOpening p.coh (opening cur nb u un) nrm ∧
        h.oldOpening ≤ effOpening p.coh (opening cur nb u un) nrm))
    (hf : SpecDamageFrozen p dmg h (effOpening p.coh (opening cur nb u un) nrm)) (i : Fin N) :
    ∃ L C : Fin N → ℝ,
      (∀ j, p.localTerm kind cc nrm jxw (p.updated dmg nrm h cur nb u un) cur nb u un i j =
        some (L j)) ∧
      (∀ j, p.couplingTerm kind cc cn nrm jxw (p.updated dmg nrm h cur nb u un) cur nb u un i j =
        some (C j)) ∧
      HasDerivAt (fun t : ℝ => SpecResidual p dmg kind cc cn nrm jxw h cur nb
          (fun j => u j + t * v j) (fun j => un j + t * w j) i)
        (-(∑ j, L j * v j + ∑ j, C j * w j)) 0 := by
  set S := p.updated dmg nrm h cur nb u un with hS
  have fz := frozen_line p dmg h cur nb nrm u un v w hf
  rw [← hS] at fz
  rcases hk : kind i with _ | a
  · -- displacement row
    by_cases hd : p.decohesion = true
    · set g := degradation p.exponent (p.damage S) p.coupleMacro with hg
      have T := fun k => traction_line p h (opening cur nb u un) nrm (opening cur nb v w) hdt hn
        hδ hcoh hcon h0 g hbr k
      rcases hJ : p.coh.jacobian (opening cur nb u un) nrm
        (max h.tmpMax (effOpening p.coh (opening cur nb u un) nrm)) h.oldOpening p.dt with _ | J
      · have hd0 : ∀ k : Fin d, False := fun k => by
          obtain ⟨J', hJ', _⟩ := T k
          rw [hJ] at hJ'; simp at hJ'
        exact absurd hδ (by
          have : ∀ k : Fin d, nrm k * opening cur nb u un k = 0 := fun k => (hd0 k).elim
          rw [Finset.sum_congr rfl fun k _ => this k]; simp)
      · set M := g • J + p.contact.jacobian (opening cur nb u un) nrm with hM
        refine ⟨fun j => -(p.dn3 / p.dn0 * ((cur.disp i ᵥ* M) ⬝ᵥ (-1 : ℝ) • cur.disp j) * jxw),
          fun j => -(p.dn3 / p.dn0 * ((cur.disp i ᵥ* M) ⬝ᵥ nb.disp j) * jxw), ?_, ?_, ?_⟩
        · intro j
          unfold FacePrm.localTerm
          rcases hkj : kind j with _ | b
          · rw [hk]
            simp only
            rw [if_pos hd]
            change (p.coh.jacobian _ nrm (max h.tmpMax _) h.oldOpening p.dt).map _ = _
            rw [hJ, Option.map_some]
          · rw [hk]
            simp only
            rw [hcur.disp j b hkj]; simp
        · intro j
          unfold FacePrm.couplingTerm
          rcases hkj : kind j with _ | b
          · rw [hk]
            simp only
            rw [if_pos hd]
            change (p.coh.jacobian _ nrm (max h.tmpMax _) h.oldOpening p.dt).map _ = _
            rw [hJ, Option.map_some]
          · rw [hk]
            simp only
            rw [hnb.disp j b hkj]; simp
        · have Tk : ∀ k, HasDerivAt (fun t : ℝ =>
              g * ((p.coh.traction (fun j => opening cur nb u un j + t * opening cur nb v w j) nrm
              (max h.tmpMax (effOpening p.coh
                (fun j => opening cur nb u un j + t * opening cur nb v w j) nrm)) h.oldOpening
              p.dt).getD 0) k + p.contact.traction
                (fun j => opening cur nb u un j + t * opening cur nb v w j) nrm k)
              ((M *ᵥ opening cur nb v w) k) 0 := by
            intro k
            obtain ⟨J', hJ', _, hD⟩ := T k
            have : J' = J := by rw [hJ] at hJ'; exact (Option.some.inj hJ').symm
            rw [this] at hD
            exact hD
          have Sum := HasDerivAt.fun_sum (u := univ) fun k _ => (Tk k).const_mul (cur.disp i k)
          refine HasDerivAt.congr_of_eventuallyEq (((Sum.const_mul (p.dn3 / p.dn0)).mul_const
            jxw).congr_deriv ?_) ?_
          · have e1 : ∑ k, cur.disp i k * (M *ᵥ opening cur nb v w) k =
                (cur.disp i ᵥ* M) ⬝ᵥ opening cur nb v w := by
              rw [← dotProduct_mulVec]; rfl
            have e2 : (cur.disp i ᵥ* M) ⬝ᵥ opening cur nb v w =
                ∑ j, w j * ((cur.disp i ᵥ* M) ⬝ᵥ nb.disp j) -
                ∑ j, v j * ((cur.disp i ᵥ* M) ⬝ᵥ cur.disp j) := by
              unfold opening Side.displacement
              rw [dotProduct_sub, dotProduct_sum, dotProduct_sum]
              simp only [dotProduct_smul, smul_eq_mul]
            rw [e1, e2]
            simp only [dotProduct_smul, smul_eq_mul]
            have f1 : ∀ (x y : Fin N → ℝ) (z : ℝ), ∑ j, -(p.dn3 / p.dn0 * (z * x j) * jxw) * y j =
                -(p.dn3 / p.dn0 * jxw * z) * ∑ j, y j * x j := by
              intro x y z
              rw [Finset.mul_sum]; exact sum_congr rfl fun j _ => by ring
            have f2 : ∀ (x y : Fin N → ℝ), ∑ j, -(p.dn3 / p.dn0 * x j * jxw) * y j =
                -(p.dn3 / p.dn0 * jxw) * ∑ j, y j * x j := by
              intro x y
              rw [Finset.mul_sum]; exact sum_congr rfl fun j _ => by ring
            rw [f1, f2]
            ring
          · have evs : ∀ᶠ t in nhds (0 : ℝ), ∃ T, p.coh.traction
                (fun j => opening cur nb u un j + t * opening cur nb v w j) nrm
                (max h.tmpMax (effOpening p.coh
                  (fun j => opening cur nb u un j + t * opening cur nb v w j) nrm)) h.oldOpening
                p.dt = some T := by
              rcases isEmpty_or_nonempty (Fin d) with he | ⟨⟨k⟩⟩
              · exact absurd hδ (by simp)
              · exact (T k).choose_spec.2.1
            filter_upwards [evs, fz] with t ht hz
            obtain ⟨X, hX⟩ := ht
            unfold SpecResidual FacePrm.rhsTerm
            rw [hk]
            simp only
            rw [if_pos hd, hz _ (Or.inl rfl), opening_line]
            have : (p.updated dmg nrm h cur nb (fun j => u j + t * v j)
              (fun j => un j + t * w j)).maxOpening = max h.tmpMax (effOpening p.coh
                (fun j => opening cur nb u un j + t * opening cur nb v w j) nrm) := by
              unfold FacePrm.updated Iface.updateOrtiz
              rw [opening_line]
            rw [this]
            change ((p.coh.traction _ nrm _ h.oldOpening p.dt).map _).getD 0 = _
            rw [hX]
            simp only [Option.map_some, Option.getD_some]
            rw [← hg]
            rfl
    · refine ⟨fun _ => 0, fun _ => 0, ?_, ?_, ?_⟩
      · intro j
        unfold FacePrm.localTerm
        rcases kind j with _ | b <;> rw [hk] <;> try simp only
        rw [if_neg hd]
      · intro j
        unfold FacePrm.couplingTerm
        rcases kind j with _ | b <;> rw [hk] <;> try simp only
        rw [if_neg hd]
      · have : (fun t : ℝ => SpecResidual p dmg kind cc cn nrm jxw h cur nb
            (fun j => u j + t * v j) (fun j => un j + t * w j) i) = fun _ => 0 := by
          funext t
          unfold SpecResidual FacePrm.rhsTerm
          rw [hk]
          simp only
          rw [if_neg hd]; rfl
        rw [this]
        refine (hasDerivAt_const (0 : ℝ) (0 : ℝ)).congr_deriv ?_
        simp
  · -- slip row
    by_cases hm : p.microtraction = true
    · set g := degradation p.exponent (p.damage S) p.coupleMicro with hg
      refine ⟨fun j => ∑ b, -(p.dn2 * cur.phi a i * g * intraDerivative p.micro p.lat cc nrm a b *
          cur.phi b j * jxw),
        fun j => ∑ b, -(p.dn2 * cur.phi a i * g * interDerivative p.micro p.lat cc cn nrm a b *
          nb.phi b j * jxw), ?_, ?_, ?_⟩
      · intro j
        unfold FacePrm.localTerm
        rcases hkj : kind j with _ | b
        · rw [hk]
          simp only
          rw [Finset.sum_eq_zero fun b _ => by rw [hcur.phi j b (by rw [hkj]; simp)]; ring]
        · rw [hk]
          simp only
          rw [if_pos hm, Finset.sum_eq_single b]
          · intro c _ hc
            rw [hcur.phi j c (by rw [hkj]; simpa using fun h => hc h.symm)]; ring
          · simp
      · intro j
        unfold FacePrm.couplingTerm
        rcases hkj : kind j with _ | b
        · rw [hk]
          simp only
          rw [Finset.sum_eq_zero fun b _ => by rw [hnb.phi j b (by rw [hkj]; simp)]; ring]
        · rw [hk]
          simp only
          rw [if_pos hm, Finset.sum_eq_single b]
          · intro c _ hc
            rw [hnb.phi j c (by rw [hkj]; simpa using fun h => hc h.symm)]; ring
          · simp
      · have mt : ∀ t : ℝ, Itf.microtraction p.micro p.lat cc cn nrm
            (cur.slip fun j => u j + t * v j) (nb.slip fun j => un j + t * w j) a =
            Itf.microtraction p.micro p.lat cc cn nrm (cur.slip u) (nb.slip un) a +
            t * (∑ b, intraDerivative p.micro p.lat cc nrm a b * cur.slip v b +
              ∑ b, interDerivative p.micro p.lat cc cn nrm a b * nb.slip w b) := by
          intro t
          unfold Itf.microtraction intraDerivative interDerivative
          simp only [side_slip_line]
          rw [Finset.sum_mul, Finset.sum_mul, ← Finset.sum_add_distrib, Finset.mul_sum,
            ← Finset.sum_add_distrib]
          exact sum_congr rfl fun b _ => by ring
        have base := ((((hasDerivAt_id' (0 : ℝ)).mul_const
            (∑ b, intraDerivative p.micro p.lat cc nrm a b * cur.slip v b +
              ∑ b, interDerivative p.micro p.lat cc cn nrm a b * nb.slip w b)).const_add
            (Itf.microtraction p.micro p.lat cc cn nrm (cur.slip u) (nb.slip un) a)).const_mul
            (p.dn2 * cur.phi a i * g)).mul_const jxw
        refine HasDerivAt.congr_of_eventuallyEq (base.congr_deriv ?_) ?_
        · have f : ∀ (D : Fin n → ℝ) (s : Side d n N) (y : Fin N → ℝ),
              ∑ j, (∑ b, -(p.dn2 * cur.phi a i * g * D b * s.phi b j * jxw)) * y j =
              -(p.dn2 * cur.phi a i * g * jxw) * ∑ b, D b * s.slip y b := by
            intro D s y
            unfold Side.slip
            simp only [Finset.sum_mul, Finset.mul_sum]
            rw [Finset.sum_comm]
            exact sum_congr rfl fun b _ => sum_congr rfl fun j _ => by ring
          rw [f, f]
          ring
        · filter_upwards [fz] with t hz
          unfold SpecResidual FacePrm.rhsTerm
          rw [hk]
          simp only
          rw [if_pos hm, hz _ (Or.inr rfl), mt, Option.getD_some]
    · refine ⟨fun _ => 0, fun _ => 0, ?_, ?_, ?_⟩
      · intro j
        unfold FacePrm.localTerm
        rcases kind j with _ | b <;> rw [hk] <;> try simp only
        rw [if_neg hm]
      · intro j
        unfold FacePrm.couplingTerm
        rcases kind j with _ | b <;> rw [hk] <;> try simp only
        rw [if_neg hm]
      · have : (fun t : ℝ => SpecResidual p dmg kind cc cn nrm jxw h cur nb
            (fun j => u j + t * v j) (fun j => un j + t * w j) i) = fun _ => 0 := by
          funext t
          unfold SpecResidual FacePrm.rhsTerm
          rw [hk]
          simp only
          rw [if_neg hm]; rfl
        rw [this]
        refine (hasDerivAt_const (0 : ℝ) (0 : ℝ)).congr_deriv ?_
        simp

/-! ### Witness: evolving damage coupled to the traction -/

/-- One displacement degree of freedom on the current side, shape value `-e_x`, interface normal
`e_x`: the nodal value is the opening. -/
noncomputable def exSide : Side 2 0 1 := ⟨fun _ => ![-1, 0], fun a => a.elim0⟩
noncomputable def exRigid : Side 2 0 1 := ⟨fun _ => 0, fun a => a.elim0⟩
def exDisp : Kind 0 1 := fun _ => none

noncomputable def exFace (coupled : Bool) : FacePrm 2 1 where
  dn0 := 1
  dn2 := 1
  dn3 := 1
  dt := 1
  coh := ⟨1, 1, 1, 1, 1⟩
  contact := ⟨0, 1, 1⟩
  exponent := 1
  coupleMacro := coupled
  coupleMicro := false
  micro := ⟨1, 1⟩
  lat := lateral2
  decohesion := true
  microtraction := true

theorem exOpening (x : ℝ) (y : Fin 1 → ℝ) :
    opening exSide exRigid (fun _ => x) y = ![x, 0] := by
  funext k
  fin_cases k <;> simp [opening, Side.displacement, exSide, exRigid]

theorem exEff (x : ℝ) (hx : 0 ≤ x) :
    effOpening ⟨1, 1, 1, 1, 1⟩ (![x, 0] : Vec 2) ![1, 0] = x := by
  have := effOpening_sq ⟨1, 1, 1, 1, 1⟩ (![x, 0] : Vec 2) ![1, 0]
  rw [tangential_mulVec] at this
  have h0 := effOpening_nonneg ⟨1, 1, 1, 1, 1⟩ (![x, 0] : Vec 2) ![1, 0]
  simp [macaulay_of_nonneg hx] at this
  nlinarith

theorem exDirection (x : ℝ) (hx : 0 < x) :
    direction ⟨1, 1, 1, 1, 1⟩ (![x, 0] : Vec 2) ![1, 0] = ![1, 0] := by
  unfold direction
  rw [exEff x hx.le, if_pos hx.ne']
  unfold rawDirection
  rw [tangential_mulVec]
  funext k
  fin_cases k <;> simp [macaulay_of_nonneg hx.le, hx.ne']

/-- C68 is violated while damage evolves and degrades the cohesive traction (linear degradation,
no previous opening): the residual at opening `x` is `-(1+x) x e^(1-2x)`, the assembled entry is
`(1-x²) e^(1-2x)` and minus the derivative is `(1-2x²) e^(1-2x)`, at every positive opening. -/
theorem C68_violated_coupled (x : ℝ) (hx : 0 < x) :
    ∃ L : ℝ, (exFace true).localTerm exDisp (fun a => a.elim0) ![1, 0] 1
        ((exFace true).updated ⟨1, 1, 1, 1, 0, false⟩ ![1, 0] Iface.new exSide exRigid
          (fun _ => x) 0) exSide exRigid (fun _ => x) 0 0 0 = some L ∧
      L = (1 - x ^ 2) * Real.exp (1 - 2 * x) ∧
      HasDerivAt (fun y : ℝ => SpecResidual (exFace true) ⟨1, 1, 1, 1, 0, false⟩ exDisp
          (fun a => a.elim0) (fun a => a.elim0) ![1, 0] 1 Iface.new exSide exRigid
          (fun _ => y) 0 0) (-((1 - 2 * x ^ 2) * Real.exp (1 - 2 * x))) x ∧
      ¬ HasDerivAt (fun y : ℝ => SpecResidual (exFace true) ⟨1, 1, 1, 1, 0, false⟩ exDisp
          (fun a => a.elim0) (fun a => a.elim0) ![1, 0] 1 Iface.new exSide exRigid
          (fun _ => y) 0 0) (-L) x := by
  have upd : ∀ y : ℝ, 0 < y → (exFace true).updated ⟨1, 1, 1, 1, 0, false⟩ ![1, 0] Iface.new
      exSide exRigid (fun _ => y) 0 = ⟨1 - (1 + y) * Real.exp (-y), y, 0, 0, 0⟩ := by
    intro y hy
    unfold FacePrm.updated Iface.updateOrtiz Iface.new
    rw [exOpening]
    simp [exFace, exEff y hy.le, max_eq_right hy.le]
  have res : ∀ y : ℝ, 0 < y → SpecResidual (exFace true) ⟨1, 1, 1, 1, 0, false⟩ exDisp
          (fun a => a.elim0) (fun a => a.elim0) ![1, 0] 1 Iface.new exSide exRigid
          (fun _ => y) 0 0 = -((y + y ^ 2) * Real.exp (1 - 2 * y)) := by
    intro y hy
    have ht := traction_at_max ⟨1, 1, 1, 1, 1⟩ (![y, 0] : Vec 2) ![1, 0] 0 1 one_pos
      (by rw [exEff y hy.le]; exact hy)
    rw [exEff y hy.le] at ht
    unfold SpecResidual FacePrm.rhsTerm
    rw [upd y hy, exOpening]
    simp only [exDisp, exFace, if_true, ht, Option.map_some, Option.getD_some,
      FacePrm.damage, degradation, exDirection y hy, exSide]
    have : Real.exp (1 - 2 * y) = Real.exp (1 - y) * Real.exp (-y) := by
      rw [← Real.exp_add]; ring_nf
    rw [this]
    simp [dotProduct, Fin.sum_univ_two, Contact.traction, Coh.scalar]
    ring
  have D : HasDerivAt (fun y : ℝ => -((y + y ^ 2) * Real.exp (1 - 2 * y)))
      (-((1 - 2 * x ^ 2) * Real.exp (1 - 2 * x))) x := by
    have h1 : HasDerivAt (fun y : ℝ => y + y ^ 2) (1 + 2 * x) x := by
      simpa using (hasDerivAt_id' x).fun_add ((hasDerivAt_id' x).fun_pow 2)
    have h2 : HasDerivAt (fun y : ℝ => Real.exp (1 - 2 * y)) (Real.exp (1 - 2 * x) * -2) x := by
      have := (((hasDerivAt_id' x).const_mul 2).const_sub 1).exp
      refine this.congr_deriv (by ring)
    refine (h1.fun_mul h2).fun_neg.congr_deriv ?_
    ring
  have DR : HasDerivAt (fun y : ℝ => SpecResidual (exFace true) ⟨1, 1, 1, 1, 0, false⟩ exDisp
          (fun a => a.elim0) (fun a => a.elim0) ![1, 0] 1 Iface.new exSide exRigid
          (fun _ => y) 0 0) (-((1 - 2 * x ^ 2) * Real.exp (1 - 2 * x))) x := by
    refine D.congr_of_eventuallyEq ?_
    filter_upwards [lt_mem_nhds hx] with y hy
    exact res y hy
  refine ⟨(1 - x ^ 2) * Real.exp (1 - 2 * x), ?_, rfl, DR, fun H => ?_⟩
  · unfold FacePrm.localTerm
    rw [upd x hx]
    have hO : opening exSide exRigid (fun _ => x) 0 = ![x, 0] := exOpening x 0
    have hJ : Coh.jacobian ⟨1, 1, 1, 1, 1⟩ (![x, 0] : Vec 2) ![1, 0] x 0 1 = some
        ((1 : ℝ)⁻¹ • ((1 / 1 * Real.exp (1 - 1 * x / 1)) •
        (effIdentity ⟨1, 1, 1, 1, 1⟩ ![x, 0] ![1, 0] - (1 * x / 1) •
          symmetrize (outer ![1, 0] ![1, 0])))) := by
      unfold Coh.jacobian
      simp only
      rw [branch_loading (exEff x hx.le) (by rw [exEff x hx.le]; exact hx.le) one_pos,
        exEff x hx.le, exDirection x hx]
    simp only [exDisp, exFace, if_true, hO, hJ, Option.map_some,
      FacePrm.damage, degradation]
    unfold exSide
    have : Real.exp (1 - 2 * x) = Real.exp (1 - x) * Real.exp (-x) := by
      rw [← Real.exp_add]; ring_nf
    rw [this]
    have hu : macaulayUnit x = 1 := by
      unfold macaulayUnit
      rw [if_neg hx.ne', abs_of_pos hx, div_self hx.ne', macaulay_of_nonneg zero_le_one]
    simp [dotProduct, Fin.sum_univ_two, vecMul, Contact.jacobian, effIdentity, hu,
      normalProjector, tangentialProjector, symmetrize, outer]
    ring
  · have := H.unique DR
    have e := Real.exp_pos (1 - 2 * x)
    have : x ^ 2 * Real.exp (1 - 2 * x) = 0 := by linarith
    have : 0 < x ^ 2 * Real.exp (1 - 2 * x) := by positivity
    linarith

/-! ## C69: boundary tractions -/

/-- A uniform stress is in equilibrium with boundary tractions `σ n` up to the factor the code
leaves out: the displacement row `i`, cell part plus boundary part, is `(1 - dn3/dn0)` times the
work of the tractions on shape function `i`.  `hdiv` is the discrete divergence theorem for shape
function `i`. -/
theorem C69_residual {Q F : ℕ} (c : CellPrm d n) (kind : Kind n N) (pts : Fin Q → Point d n N)
    (u : Fin N → ℝ) (sides : Fin F → Side d n N) (nrm : Fin F → Vec d) (jxw : Fin F → ℝ)
    (σ : Mat d) (hσ : ∀ q, c.stressAt (pts q).shape u = σ) (hb : ∀ q, (pts q).supply = 0)
    (i : Fin N) (hi : kind i = none)
    (hdiv : ∑ q, ddot ((pts q).shape.symGrad i) σ * (pts q).shape.jxw =
      ∑ f, ((sides f).disp i ⬝ᵥ (σ *ᵥ nrm f)) * jxw f) :
    ∃ r, c.rhs kind pts u i = some r ∧
      r + ∑ f, neumannTerm (sides f) (σ *ᵥ nrm f) (jxw f) i =
        (1 - c.dn3 / c.dn0) * ∑ f, ((sides f).disp i ⬝ᵥ (σ *ᵥ nrm f)) * jxw f := by
  refine ⟨_, sumOpt_some _ (fun q => -(c.dn3 / c.dn0) *
    (ddot ((pts q).shape.symGrad i) σ * (pts q).shape.jxw)) fun q => ?_, ?_⟩
  · unfold CellPrm.rhsTerm
    rw [hi]
    simp only
    rw [hσ q, hb q]
    simp
    ring
  · rw [← Finset.mul_sum, hdiv]
    unfold neumannTerm
    ring

/-- C69, for equal dimensionless numbers `dn3 = dn0` (in particular when the dimensionless form is
not used, both 1): equilibrium.  Missing: other values, for which it is false (`C69_violated`). -/
theorem C69_equilibrium_partial {Q F : ℕ} (c : CellPrm d n) (h0 : c.dn0 ≠ 0) (h3 : c.dn3 = c.dn0)
    (kind : Kind n N) (pts : Fin Q → Point d n N)
    (u : Fin N → ℝ) (sides : Fin F → Side d n N) (nrm : Fin F → Vec d) (jxw : Fin F → ℝ)
    (σ : Mat d) (hσ : ∀ q, c.stressAt (pts q).shape u = σ) (hb : ∀ q, (pts q).supply = 0)
    (i : Fin N) (hi : kind i = none)
    (hdiv : ∑ q, ddot ((pts q).shape.symGrad i) σ * (pts q).shape.jxw =
      ∑ f, ((sides f).disp i ⬝ᵥ (σ *ᵥ nrm f)) * jxw f) :
    ∃ r, c.rhs kind pts u i = some r ∧
      r + ∑ f, neumannTerm (sides f) (σ *ᵥ nrm f) (jxw f) i = 0 := by
  obtain ⟨r, h1, h2⟩ := C69_residual c kind pts u sides nrm jxw σ hσ hb i hi hdiv
  refine ⟨r, h1, ?_⟩
  rw [h2, h3, div_self h0]
  ring

/-- The unit square with displacement `u x e_x`, one quadrature point, and its right face. -/
noncomputable def exSquare : Shape 2 0 1 :=
  ⟨1, fun _ => ![1 / 2, 0], fun _ => !![1, 0; 0, 0], fun a => a.elim0, fun a => a.elim0⟩
noncomputable def exSquareCell (dn0 dn3 : ℝ) : CellPrm 2 0 where
  sys := fun a => a.elim0
  elastic := ⟨3, 1, 1, 1⟩
  rot := 1
  vec := ⟨1, 1, 2, false⟩
  law := ⟨.tanh, 1, true, ⟨1, 1, 1, 1, false⟩⟩
  dn0 := dn0
  dn2 := 1
  dn3 := dn3
  dt := 1
  macroStrain := 0

theorem exSquare_stress (dn0 dn3 : ℝ) :
    (exSquareCell dn0 dn3).stressAt exSquare (fun _ => 1) 0 0 = 3 := by
  unfold CellPrm.stressAt
  rw [stress_eq]
  simp [CellPrm.elasticStrainAt, exSquareCell, elasticStrain, Shape.strain, exSquare,
    Fin.sum_univ_two, SpecCubic]

/-- C69 is violated whenever `dn3 ≠ dn0`: the stretched square loaded by its own traction is not in
equilibrium. -/
theorem C69_violated (dn0 dn3 : ℝ) (h0 : dn0 ≠ 0) (h : dn3 ≠ dn0) :
    ∃ (σ : Mat 2) (r : ℝ),
      (exSquareCell dn0 dn3).stressAt exSquare (fun _ => 1) = σ ∧
      ddot (exSquare.symGrad 0) σ * exSquare.jxw = (![1, 0] : Vec 2) ⬝ᵥ (σ *ᵥ ![1, 0]) ∧
      (exSquareCell dn0 dn3).rhs exDisp
        (fun _ : Fin 1 => ⟨exSquare, 0, Bulk.init ⟨1, 1, 1, 1, false⟩ 0, fun a => a.elim0⟩)
        (fun _ => 1) 0 = some r ∧
      r + neumannTerm (n := 0) (N := 1) ⟨fun _ => ![1, 0], fun a => a.elim0⟩ (σ *ᵥ ![1, 0]) 1 0
        ≠ 0 := by
  have hdiv : ddot (exSquare.symGrad 0)
      ((exSquareCell dn0 dn3).stressAt exSquare (fun _ => 1)) * exSquare.jxw =
      (![1, 0] : Vec 2) ⬝ᵥ ((exSquareCell dn0 dn3).stressAt exSquare (fun _ => 1) *ᵥ ![1, 0]) := by
    simp [ddot, exSquare, Fin.sum_univ_two, dotProduct, mulVec]
  obtain ⟨r, h1, h2⟩ := C69_residual (exSquareCell dn0 dn3) exDisp
    (fun _ : Fin 1 => ⟨exSquare, 0, Bulk.init ⟨1, 1, 1, 1, false⟩ 0, fun a => a.elim0⟩)
    (fun _ => 1) (fun _ : Fin 1 => ⟨fun _ => ![1, 0], fun a => a.elim0⟩) (fun _ => ![1, 0])
    (fun _ => 1) _ (fun _ => rfl) (fun _ => rfl) 0 rfl (by simpa using hdiv)
  refine ⟨_, r, rfl, hdiv, h1, ?_⟩
  simp only [Finset.univ_unique, Finset.sum_singleton, mul_one] at h2
  rw [h2]
  have e : (![1, 0] : Vec 2) ⬝ᵥ ((exSquareCell dn0 dn3).stressAt exSquare (fun _ => 1) *ᵥ ![1, 0])
      = 3 := by
    rw [← exSquare_stress dn0 dn3]
    simp [dotProduct, mulVec, Fin.sum_univ_two]
  rw [e]
  refine mul_ne_zero ?_ (by norm_num)
  rw [sub_ne_zero]
  intro h'
  exact h (by
    have : dn3 / dn0 = 1 := h'.symm
    rwa [div_eq_one_iff_eq h0] at this)

/-! ## Non-vacuity -/

/-- Two cells meeting at a face, each with one displacement and one slip degree of freedom; the
neighbour crystal is rotated. -/
noncomputable def exMeet : Side 2 1 2 :=
  ⟨fun i => if i = 0 then ![1, 0] else 0, fun _ i => if i = 0 then 0 else 1⟩
noncomputable def exGrainA : Crystal 2 1 := fun _ => ⟨![1, 0], ![0, 1], 0⟩
noncomputable def exGrainB : Crystal 2 1 := fun _ => ⟨![3 / 5, 4 / 5], ![-4 / 5, 3 / 5], 0⟩

theorem exMeet_primitive : exMeet.Primitive exKind := by
  constructor
  · intro i a h
    fin_cases i
    · simp [exKind] at h
    · simp [exMeet]
  · intro i a h
    fin_cases i
    · simp [exMeet]
    · exact absurd (by simp [exKind, Subsingleton.elim a 0]) h

theorem exMeet_opening (x y : ℝ) :
    opening exMeet exMeet (fun _ => x) (fun _ => y) = ![y - x, 0] := by
  funext k
  fin_cases k <;> simp [opening, Side.displacement, exMeet, Fin.sum_univ_two]

/-- Opened by 1, the record loading: the rows are defined from both sides, the displacement row
is a non-zero traction and the slip row a non-zero microtraction. -/
theorem exMeet_rows : ∃ Ra Rb : Fin 2 → ℝ,
    (∀ i, (exFace true).rhsTerm exKind exGrainA exGrainB ![1, 0] 1 ⟨0, 1, 0, 0, 0⟩ exMeet exMeet
      (fun _ => 0) (fun _ => 1) i = some (Ra i)) ∧
    (∀ i, (exFace true).rhsTerm exKind exGrainB exGrainA (-![1, 0]) 1 ⟨0, 1, 0, 0, 0⟩ exMeet exMeet
      (fun _ => 1) (fun _ => 0) i = some (Rb i)) ∧ Ra 0 = 1 ∧ Ra 1 = 9 / 25 := by
  have hO : opening exMeet exMeet (fun _ => 0) (fun _ => 1) = ![1, 0] := by
    rw [exMeet_opening]; simp
  have ht := traction_at_max ⟨1, 1, 1, 1, 1⟩ (![1, 0] : Vec 2) ![1, 0] 0 1 one_pos
      (by rw [exEff 1 zero_le_one]; exact one_pos)
  rw [exEff 1 zero_le_one] at ht
  have r0 : (exFace true).rhsTerm exKind exGrainA exGrainB ![1, 0] 1 ⟨0, 1, 0, 0, 0⟩ exMeet exMeet
      (fun _ => 0) (fun _ => 1) 0 = some 1 := by
    unfold FacePrm.rhsTerm
    simp only [exKind, exFace, if_true, hO, ht, Option.map_some, exDirection 1 one_pos]
    simp [exMeet, FacePrm.damage, degradation, Contact.traction, Coh.scalar]
  have r1 : (exFace true).rhsTerm exKind exGrainA exGrainB ![1, 0] 1 ⟨0, 1, 0, 0, 0⟩ exMeet exMeet
      (fun _ => 0) (fun _ => 1) 1 = some (9 / 25) := by
    unfold FacePrm.rhsTerm
    simp [exKind, exFace, exMeet, FacePrm.damage, degradation, Itf.microtraction, intra, inter,
      modulus, lateral2, exGrainA, exGrainB, Side.slip, Fin.sum_univ_two, dotProduct]
    norm_num
  have s0 : ∀ i, (exFace true).rhsTerm exKind exGrainB exGrainA (-![1, 0]) 1 ⟨0, 1, 0, 0, 0⟩ exMeet
      exMeet (fun _ => 1) (fun _ => 0) i ≠ none := by
    intro i
    rw [ne_eq, ← C52_defined (exFace true) exKind exGrainA exGrainB ![1, 0] 1 ⟨0, 1, 0, 0, 0⟩
      exMeet exMeet (fun _ => 0) (fun _ => 1) i]
    fin_cases i
    · rw [show (⟨0, by norm_num⟩ : Fin 2) = 0 from rfl, r0]; simp
    · rw [show (⟨1, by norm_num⟩ : Fin 2) = 1 from rfl, r1]; simp
  refine ⟨![1, 9 / 25], fun i => ((exFace true).rhsTerm exKind exGrainB exGrainA (-![1, 0]) 1
    ⟨0, 1, 0, 0, 0⟩ exMeet exMeet (fun _ => 1) (fun _ => 0) i).getD 0, ?_, ?_, rfl, rfl⟩
  · intro i
    fin_cases i
    · exact r0
    · exact r1
  · intro i
    obtain ⟨x, hx⟩ := Option.ne_none_iff_exists'.1 (s0 i)
    simp only [hx, Option.getD_some]

/-- Non-vacuity of C52. -/
example : ∃ Ra Rb : Fin 2 → ℝ, Ra 0 = 1 ∧ Ra 0 + Rb 0 = 0 := by
  obtain ⟨Ra, Rb, ha, hb, h0, _⟩ := exMeet_rows
  refine ⟨Ra, Rb, h0, ?_⟩
  have := C52_balance (exFace true) exKind exGrainA exGrainB ![1, 0] 1 ⟨0, 1, 0, 0, 0⟩ exMeet exMeet
    (fun _ => 0) (fun _ => 1) (fun i => if i = 0 then 1 else 0) (fun i => if i = 0 then 1 else 0)
    (by intro i a h; fin_cases i <;> simp [exKind] at h ⊢)
    (by intro i a h; fin_cases i <;> simp [exKind] at h ⊢) rfl Ra Rb ha hb
  simpa [Fin.sum_univ_two] using this

example : ∃ Ra Rb : Fin 2 → ℝ, Ra 1 = 9 / 25 ∧ HasDerivAt (fun t : ℝ =>
    SpecSlipEnergy (exFace true) ⟨0, 1, 0, 0, 0⟩ exGrainA exGrainB ![1, 0] 1 exMeet exMeet
      (fun i => 0 + t * (if i = (1 : Fin 2) then 1 else 0)) (fun _ => 1 + t * 0))
    (-(∑ i, (if i = (1 : Fin 2) then (1 : ℝ) else 0) * Ra i + ∑ i, (0 : ℝ) * Rb i)) 0 := by
  obtain ⟨Ra, Rb, ha, hb, _, h1⟩ := exMeet_rows
  exact ⟨Ra, Rb, h1, C52_slips (exFace true) lateral2_ok rfl exKind exGrainA exGrainB ![1, 0] 1
    ⟨0, 1, 0, 0, 0⟩ exMeet exMeet exMeet_primitive exMeet_primitive (fun _ => 0) (fun _ => 1)
    (fun i => if i = 1 then 1 else 0) (fun _ => 0)
    (by intro i h; fin_cases i <;> simp [exKind] at h ⊢) (by intro i h; rfl) Ra Rb ha hb⟩

/-- Non-vacuity of C68 on loading: opening 1, no previous maximum, uncoupled damage. -/
example (i : Fin 2) : ∃ L C : Fin 2 → ℝ,
    (∀ j, (exFace false).localTerm exKind exGrainA ![1, 0] 1 ((exFace false).updated
      ⟨1, 1, 1, 1, 0, false⟩ ![1, 0] Iface.new exMeet exMeet (fun _ => 0) (fun _ => 1)) exMeet exMeet
      (fun _ => 0) (fun _ => 1) i j = some (L j)) ∧
    (∀ j, (exFace false).couplingTerm exKind exGrainA exGrainB ![1, 0] 1 ((exFace false).updated
      ⟨1, 1, 1, 1, 0, false⟩ ![1, 0] Iface.new exMeet exMeet (fun _ => 0) (fun _ => 1)) exMeet exMeet
      (fun _ => 0) (fun _ => 1) i j = some (C j)) ∧
    HasDerivAt (fun t : ℝ => SpecResidual (exFace false) ⟨1, 1, 1, 1, 0, false⟩ exKind exGrainA
      exGrainB ![1, 0] 1 Iface.new exMeet exMeet (fun _ => 0 + t * 2) (fun _ => 1 + t * 3) i)
      (-(∑ j, L j * 2 + ∑ j, C j * 3)) 0 := by
  have hO : opening exMeet exMeet (fun _ => 0) (fun _ => 1) = ![1, 0] := by
    rw [exMeet_opening]; simp
  refine C68_tangent_partial (exFace false) ⟨1, 1, 1, 1, 0, false⟩ exKind exGrainA exGrainB ![1, 0] 1
    Iface.new exMeet exMeet exMeet_primitive exMeet_primitive (fun _ => 0) (fun _ => 1)
    (fun _ => 2) (fun _ => 3) one_pos (by simp) ?_ rfl rfl (by simp [Iface.new]) (Or.inr ?_)
    (Or.inl ⟨rfl, rfl⟩) i
  · rw [hO]; simp
  · rw [hO]
    change (0 : ℝ) < effOpening ⟨1, 1, 1, 1, 1⟩ _ _ ∧ (0 : ℝ) ≤ effOpening ⟨1, 1, 1, 1, 1⟩ _ _
    rw [exEff 1 zero_le_one]; norm_num

/-- Non-vacuity of C69: the stretched square in its own units. -/
example : ∃ r, (exSquareCell 1 1).rhs exDisp
    (fun _ : Fin 1 => ⟨exSquare, 0, Bulk.init ⟨1, 1, 1, 1, false⟩ 0, fun a => a.elim0⟩)
    (fun _ => 1) 0 = some r ∧ r + ∑ _f : Fin 1, neumannTerm (n := 0) (N := 1)
      ⟨fun _ => ![1, 0], fun a => a.elim0⟩
      ((exSquareCell 1 1).stressAt exSquare (fun _ => 1) *ᵥ ![1, 0]) 1 0 = 0 :=
  C69_equilibrium_partial (exSquareCell 1 1) one_ne_zero rfl exDisp _ (fun _ => 1)
    (fun _ : Fin 1 => ⟨fun _ => ![1, 0], fun a => a.elim0⟩) (fun _ => ![1, 0]) (fun _ => 1) _
    (fun _ => rfl) (fun _ => rfl) 0 rfl (by
      simp [ddot, exSquare, Fin.sum_univ_two, dotProduct, mulVec])

end Verif.Asm
