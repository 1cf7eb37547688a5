import Verif.Props.Post
import Verif.Model.Field

/-!
# The output columns: C58, C70, C71
-/

namespace Verif.Post
open Matrix Finset Verif.Cry

/-! ## Specification -/

/-- The physical fields at an evaluation point. -/
structure Phys where
  /-- accumulated slip, accumulated absolute slip, edge and screw densities -/
  sum : ℝ
  absSum : ℝ
  edge : ℝ
  screw : ℝ
  stress : Mat 3
  strain : Mat 3
  elastic : Mat 3
  plastic : Mat 3
  vonMisesPlastic : ℝ
  stressFluct : Mat 3
  strainFluct : Mat 3

/-- The physical quantity a column title names. -/
noncomputable def Phys.column (p : Phys) : String → Option ℝ
  | "EquivalentPlasticStrain" => some p.sum
  | "EquivalentAbsolutePlasticStrain" => some p.absSum
  | "EquivalentEdgeDislocationDensity" => some p.edge
  | "EquivalentScrewDislocationDensity" => some p.screw
  | "VonMisesStress" => some (vonMisesStress p.stress)
  | "VonMisesPlasticStrain" => some p.vonMisesPlastic
  | "Stress_11" => some (p.stress 0 0)
  | "Stress_22" => some (p.stress 1 1)
  | "Stress_33" => some (p.stress 2 2)
  | "Stress_23" => some (p.stress 1 2)
  | "Stress_13" => some (p.stress 0 2)
  | "Stress_12" => some (p.stress 0 1)
  | "Strain_11" => some (p.strain 0 0)
  | "Strain_22" => some (p.strain 1 1)
  | "Strain_33" => some (p.strain 2 2)
  | "Strain_23x2" => some (2 * p.strain 1 2)
  | "Strain_13x2" => some (2 * p.strain 0 2)
  | "Strain_12x2" => some (2 * p.strain 0 1)
  | "ElasticStrain_11" => some (p.elastic 0 0)
  | "ElasticStrain_22" => some (p.elastic 1 1)
  | "ElasticStrain_33" => some (p.elastic 2 2)
  | "ElasticStrain_23x2" => some (2 * p.elastic 1 2)
  | "ElasticStrain_13x2" => some (2 * p.elastic 0 2)
  | "ElasticStrain_12x2" => some (2 * p.elastic 0 1)
  | "PlasticStrain_11" => some (p.plastic 0 0)
  | "PlasticStrain_22" => some (p.plastic 1 1)
  | "PlasticStrain_33" => some (p.plastic 2 2)
  | "PlasticStrain_23x2" => some (2 * p.plastic 1 2)
  | "PlasticStrain_13x2" => some (2 * p.plastic 0 2)
  | "PlasticStrain_12x2" => some (2 * p.plastic 0 1)
  | "VonMisesStressFluctuations" => some (vonMisesStress p.stressFluct)
  | "StressFluctuations_11" => some (p.stressFluct 0 0)
  | "StressFluctuations_22" => some (p.stressFluct 1 1)
  | "StressFluctuations_33" => some (p.stressFluct 2 2)
  | "StressFluctuations_23" => some (p.stressFluct 1 2)
  | "StressFluctuations_13" => some (p.stressFluct 0 2)
  | "StressFluctuations_12" => some (p.stressFluct 0 1)
  | "StrainFluctuations_11" => some (p.strainFluct 0 0)
  | "StrainFluctuations_22" => some (p.strainFluct 1 1)
  | "StrainFluctuations_33" => some (p.strainFluct 2 2)
  | "StrainFluctuations_23x2" => some (2 * p.strainFluct 1 2)
  | "StrainFluctuations_13x2" => some (2 * p.strainFluct 0 2)
  | "StrainFluctuations_12x2" => some (2 * p.strainFluct 0 1)
  | _ => none

/-- What deal.II guarantees in a cell of crystal `c₀`: the slips of the other crystals, and with
decohesion their displacements, are discretised with `FE_Nothing` there and vanish. -/
structure InCrystal {d nC nS : ℕ} (o : Output d nC nS) (x : Inputs d) (c₀ : Fin nC) : Prop where
  slip : ∀ c a, c ≠ c₀ → x.value (o.slipIndex c a) = 0 ∧ x.gradient (o.slipIndex c a) = 0
  disp : o.decohesion = true → ∀ (c : Fin nC) (i : Fin d), c ≠ c₀ →
    x.value (i + d * c) = 0 ∧ x.gradient (i + d * c) = 0

/-- The displacement gradient of crystal `c₀`. -/
noncomputable def SpecGradient {d nC nS : ℕ} (o : Output d nC nS) (x : Inputs d) (c₀ : Fin nC) :
    Mat d :=
  Matrix.of fun i j => x.gradient (if o.decohesion then i + d * c₀ else i) j

/-- The slips of crystal `c₀` with their systems. -/
noncomputable def SpecSlips {d nC nS : ℕ} (o : Output d nC nS) (x : Inputs d) (c₀ : Fin nC) :
    List (System d × ℝ) :=
  (List.finRange nS).map fun a => (o.sys c₀ a, x.value (o.slipIndex c₀ a))

/-- The physical fields of a cell of crystal `c₀`: dimensionless fields times their units. -/
noncomputable def SpecPhys {d nC nS : ℕ} (o : Output d nC nS) (x : Inputs d) (c₀ : Fin nC) : Phys :=
  let γ : Fin nS → ℝ := fun a => x.value (o.slipIndex c₀ a)
  let g : Fin nS → Vec d := fun a => x.gradient (o.slipIndex c₀ a)
  let e := symmetrize (SpecGradient o x c₀)
  let ep := plasticStrain (SpecSlips o x c₀)
  let ee := elasticStrain o.dn0 (SpecSlips o x c₀) (e + o.macroStrain)
  let eeF := elasticStrain o.dn0 (SpecSlips o x c₀) e
  { sum := ∑ a, γ a
    absSum := ∑ a, |γ a|
    edge := o.units.density * √(∑ a, (g a ⬝ᵥ (o.sys c₀ a).direction) ^ 2)
    screw := o.units.density * √(∑ a, (g a ⬝ᵥ (o.sys c₀ a).third) ^ 2)
    stress := o.units.stress • apply4 o.tetrad (convert d ee)
    strain := o.units.strain • convert d (e + o.macroStrain)
    elastic := o.units.strain • convert d ee
    plastic := convert d ep
    vonMisesPlastic := vonMisesPlasticStrain ep
    stressFluct := o.units.stress • apply4 o.tetrad (convert d eeF)
    strainFluct := o.units.strain • convert d e }

/-! ## Helpers -/

theorem foldl_update_nodup (ws : List (ℕ × ℝ)) (hn : (ws.map Prod.fst).Nodup) :
    ∀ v₀ : ℕ → ℝ, ∀ p ∈ ws,
      ws.foldl (fun v w => Function.update v w.1 w.2) v₀ p.1 = p.2 := by
  have keep : ∀ (ws : List (ℕ × ℝ)) (v : ℕ → ℝ) (k : ℕ), k ∉ ws.map Prod.fst →
      ws.foldl (fun v w => Function.update v w.1 w.2) v k = v k := by
    intro ws
    induction ws with
    | nil => intros; rfl
    | cons w ws ih =>
      intro v k hk
      simp only [List.map_cons, List.mem_cons, not_or] at hk
      rw [List.foldl_cons, ih _ _ hk.2, Function.update_of_ne hk.1]
  induction ws with
  | nil => intro _ p hp; simp at hp
  | cons w ws ih =>
    intro v₀ p hp
    rw [List.map_cons, List.nodup_cons] at hn
    rw [List.foldl_cons]
    rcases List.mem_cons.mp hp with rfl | hp
    · rw [keep ws _ _ hn.1, Function.update_self]
    · exact ih hn.2 _ p hp

theorem result_of_slots {d nC nS : ℕ} (o : Output d nC nS) (x : Inputs d)
    (n : ℕ) (h : (o.writes x).map Prod.fst = List.range n) :
    (List.range n).map (o.result x) = (o.writes x).map Prod.snd := by
  rw [← h, List.map_map]
  refine List.map_congr_left fun p hp => ?_
  exact foldl_update_nodup _ (by rw [h]; exact List.nodup_range) _ p hp

/-- Number of columns. -/
def nColumns {d nC nS : ℕ} (o : Output d nC nS) : ℕ :=
  d + nS + (if o.light then 0 else if o.fluctuations then 43 else 30)

theorem writes_slots {d nC nS : ℕ} (o : Output d nC nS) (x : Inputs d) :
    (o.writes x).map Prod.fst = List.range (nColumns o) := by
  have h1 : ((List.finRange d).map fun i : Fin d => ((i : ℕ), o.displacement x i)).map Prod.fst =
      List.range d := by
    rw [List.map_map]; exact List.map_coe_finRange_eq_range
  have h2 : ((List.finRange nS).map fun a : Fin nS => (d + (a : ℕ), o.slip x a)).map Prod.fst =
      (List.range nS).map (d + ·) := by
    rw [List.map_map, ← List.map_coe_finRange_eq_range, List.map_map]; rfl
  unfold Output.writes nColumns
  simp only [List.map_append, h1, h2]
  cases hl : o.light
  · cases hf : o.fluctuations
    · simp only [Bool.false_eq_true, if_false]
      rw [List.range_add (n := d + nS) (m := 30), List.range_add (n := d) (m := nS)]
      rfl
    · simp only [Bool.false_eq_true, if_false, if_true]
      rw [List.range_add (n := d + nS) (m := 43), List.range_add (n := d) (m := nS)]
      rfl
  · simp [List.range_add]

theorem slip_eq {d nC nS : ℕ} {o : Output d nC nS} {x : Inputs d} {c₀ : Fin nC}
    (h : InCrystal o x c₀) (a : Fin nS) : o.slip x a = x.value (o.slipIndex c₀ a) := by
  unfold Output.slip
  exact Finset.sum_eq_single c₀ (fun c _ hc => (h.slip c a hc).1) (by simp)

theorem gradient_eq {d nC nS : ℕ} {o : Output d nC nS} {x : Inputs d} {c₀ : Fin nC}
    (h : InCrystal o x c₀) : o.gradient x = SpecGradient o x c₀ := by
  ext i j
  unfold Output.gradient SpecGradient
  simp only [Matrix.of_apply]
  by_cases hd : o.decohesion = true
  · rw [if_pos hd, if_pos hd]
    exact Finset.sum_eq_single c₀ (fun c _ hc => by rw [(h.disp hd c i hc).2]; rfl) (by simp)
  · rw [if_neg hd, if_neg hd]

theorem plasticStrain_finRange {d n : ℕ} (f : Fin n → System d × ℝ) :
    plasticStrain ((List.finRange n).map f) = ∑ a, (f a).2 • (f a).1.symSchmid := by
  unfold plasticStrain
  rw [List.foldl_map]
  have : ∀ (l : List (Fin n)) (m : Mat d),
      l.foldl (fun acc a => acc + (f a).2 • (f a).1.symSchmid) m =
      m + (l.map fun a => (f a).2 • (f a).1.symSchmid).sum := by
    intro l
    induction l with
    | nil => simp
    | cons a l ih => intro m; rw [List.foldl_cons, ih]; simp [add_assoc]
  rw [this, zero_add, ← List.ofFn_eq_map, List.sum_ofFn]

theorem plastic_eq {d nC nS : ℕ} {o : Output d nC nS} {x : Inputs d} {c₀ : Fin nC}
    (h : InCrystal o x c₀) : o.plastic x = plasticStrain (SpecSlips o x c₀) := by
  unfold Output.plastic SpecSlips
  rw [plasticStrain_finRange]
  refine sum_congr rfl fun a _ => ?_
  exact Finset.sum_eq_single c₀ (fun c _ hc => by rw [(h.slip c a hc).1, zero_smul]) (by simp)

theorem elastic_eq {d nC nS : ℕ} {o : Output d nC nS} {x : Inputs d} {c₀ : Fin nC}
    (h : InCrystal o x c₀) : 
    o.elastic x true = elasticStrain o.dn0 (SpecSlips o x c₀)
      (symmetrize (SpecGradient o x c₀) + o.macroStrain) ∧
    o.elastic x false = elasticStrain o.dn0 (SpecSlips o x c₀)
      (symmetrize (SpecGradient o x c₀)) := by
  unfold Output.elastic Output.strain
  rw [plastic_eq h, gradient_eq h]
  exact ⟨sub_eq_of_eq_add (C33_split _ _ _).symm, sub_eq_of_eq_add (C33_split _ _ _).symm⟩

/-! ## C58 -/

/-- C58: there are as many titles as interpretations, and evaluating a point writes each of that
many entries exactly once. -/
theorem C58_complete {d nC nS : ℕ} (o : Output d nC nS) (x : Inputs d) :
    o.names.length = o.interpretation.length ∧
    (o.writes x).map Prod.fst = List.range o.names.length := by
  have hn : o.names.length = nColumns o := by
    unfold Output.names nColumns
    cases o.light <;> cases o.fluctuations <;> simp <;> omega
  refine ⟨?_, by rw [hn, writes_slots]⟩
  rw [hn]
  unfold Output.interpretation nColumns
  cases o.light <;> cases o.fluctuations <;> simp <;> omega

/-- C58: the first columns are the displacement of the cell's crystal in its unit, and its slips;
the vector part is the displacement. -/
theorem C58_primary {d nC nS : ℕ} (o : Output d nC nS) (x : Inputs d) (c₀ : Fin nC)
    (h : InCrystal o x c₀) :
    (∀ i : Fin d, o.result x i = o.units.displacement *
      x.value (if o.decohesion then i + d * c₀ else i) ∧ o.names[(i : ℕ)]? = some "Displacement" ∧
      o.interpretation[(i : ℕ)]? = some true) ∧
    (∀ a : Fin nS, o.result x (d + a) = x.value (o.slipIndex c₀ a) ∧
      o.names[d + (a : ℕ)]? = some (slipName a) ∧ o.interpretation[d + (a : ℕ)]? = some false) := by
  have hnd : ((o.writes x).map Prod.fst).Nodup := by rw [writes_slots]; exact List.nodup_range
  constructor
  · intro i
    refine ⟨?_, ?_, ?_⟩
    · have hm : ((i : ℕ), o.displacement x i) ∈ o.writes x := by
        unfold Output.writes
        simp only [List.mem_append, List.mem_map]
        exact .inl (.inl ⟨i, List.mem_finRange i, rfl⟩)
      have := foldl_update_nodup _ hnd (fun _ => 0) _ hm
      unfold Output.result
      rw [this]
      unfold Output.displacement
      by_cases hd : o.decohesion = true
      · rw [if_pos hd, if_pos hd]
        exact (Finset.sum_eq_single (s := univ) (f := fun c : Fin nC => o.units.displacement * x.value (i + d * c))
          c₀ (fun c _ hc => by show _ * _ = _; rw [(h.disp hd c i hc).1, mul_zero]) (by simp))
      · rw [if_neg hd, if_neg hd]
    · unfold Output.names
      rw [List.append_assoc, List.getElem?_append_left (by simp)]
      simp
    · unfold Output.interpretation
      rw [List.append_assoc, List.getElem?_append_left (by simp)]
      simp
  · intro a
    refine ⟨?_, ?_, ?_⟩
    · have hm : (d + (a : ℕ), o.slip x a) ∈ o.writes x := by
        unfold Output.writes
        simp only [List.mem_append, List.mem_map]
        exact .inl (.inr ⟨a, List.mem_finRange a, rfl⟩)
      have := foldl_update_nodup _ hnd (fun _ => 0) _ hm
      unfold Output.result
      rw [this]
      exact slip_eq h a
    · unfold Output.names
      rw [List.append_assoc, List.getElem?_append_right (by simp), List.getElem?_append_left (by simp)]
      simp
    · unfold Output.interpretation
      rw [List.append_assoc, List.getElem?_append_right (by simp), List.getElem?_append_left (by simp)]
      simp

/-- C58: the components the output reads are those of the finite element field: those of the slip
and displacement extractors of the crystal. -/
theorem C58_layout {d nC nS : ℕ} (o : Output d nC nS) (L : Fld.Layout) (hd : L.dim = d)
    (hc : L.nC = nC) (hs : L.nS = nS) (hdec : L.decohesion = o.decohesion) (c : Fin nC) :
    (∀ a : Fin nS, o.slipIndex c a = L.slipExtractor c a) ∧
    (∀ i : Fin d, (if o.decohesion then (i : ℕ) + d * c else i) = L.dispExtractor c + i) := by
  subst hd hc hs
  unfold Output.slipIndex Output.offset Fld.Layout.slipExtractor Fld.Layout.dispExtractor
  rw [hdec]
  cases o.decohesion <;> constructor <;> intro a <;> simp <;> ring

/-- The slip column titles end in a number of at least two digits (`std::setw(2)`,
`std::setfill('0')`). -/
def SpecTitle (a : ℕ) : List Char := "Slip_".toList ++ List.leftpad 2 '0' (Nat.toDigits 10 (a + 1))

/-- C58: the title of the column of slip system `a` is `Slip_` and the two-digit number `a + 1`, and
different systems have different titles. -/
theorem C58_titles : (∀ a, (slipName a).toList = SpecTitle a) ∧ Function.Injective slipName := by
  have h1 : ∀ a, (slipName a).toList = SpecTitle a := by
    intro a
    unfold slipName SpecTitle
    rw [String.toList_append, String.toList_append, List.append_assoc]
    congr 1
    have hd : (toString (a + 1)).toList = Nat.toDigits 10 (a + 1) := Nat.toList_repr
    rw [hd, List.leftpad]
    have hp := Nat.length_toDigits_pos (b := 10) (n := a + 1)
    have hi := Nat.length_toDigits_le_iff (b := 10) (n := a + 1) (k := 1) (by norm_num) (by norm_num)
    by_cases h : a + 1 < 10
    · rw [if_pos h]
      have : (Nat.toDigits 10 (a + 1)).length = 1 := by
        have := hi.2 (by omega)
        omega
      rw [this]
      rfl
    · rw [if_neg h]
      have : 2 ≤ (Nat.toDigits 10 (a + 1)).length := by
        by_contra hlt
        have := hi.1 (by omega)
        omega
      rw [Nat.sub_eq_zero_of_le this]
      rfl
  refine ⟨h1, fun a b hab => ?_⟩
  have h2 : SpecTitle a = SpecTitle b := by rw [← h1, ← h1, hab]
  unfold SpecTitle at h2
  have h3 := List.append_cancel_left h2
  have hz : ∀ (n : ℕ) (l : List Char), Nat.ofDigitChars 10 (List.replicate n '0' ++ l) 0 =
      Nat.ofDigitChars 10 l 0 := by
    intro n l
    induction n with
    | zero => rfl
    | succ n ih => rw [List.replicate_succ, List.cons_append, Nat.ofDigitChars_cons]; simpa using ih
  have h4 := congrArg (fun l => Nat.ofDigitChars 10 l 0) h3
  simp only [List.leftpad, hz, Nat.ofDigitChars_ten_toDigits] at h4
  omega

example : slipName 0 = "Slip_01" ∧ slipName 11 = "Slip_12" := by
  constructor <;> rfl

/-- The derived columns as values. -/
theorem derived_values {d nC nS : ℕ} (o : Output d nC nS) (x : Inputs d) (hl : o.light = false) :
    ((List.range (nColumns o)).map (o.result x)).drop (d + nS) =
      ([∑ a : Fin nS, o.slip x a, ∑ a : Fin nS, ∑ c : Fin nC, |x.value (o.slipIndex c a)|,
        o.density x System.direction, o.density x System.third,
        o.units.stress * vonMisesStress (o.stress x), vonMisesPlasticStrain (o.plastic x)] ++
       (voigt (o.stress x)).map (o.units.stress * ·) ++
       (voigt2 (convert d (o.strain x true))).map (o.units.strain * ·) ++
       (voigt2 (convert d (o.elastic x true))).map (o.units.strain * ·) ++
       voigt2 (convert d (o.plastic x)) ++
       (if o.fluctuations then
         [o.units.stress * vonMisesStress (o.stressFluct x)] ++
         (voigt (o.stressFluct x)).map (o.units.stress * ·) ++
         (voigt2 (convert d (o.strain x false))).map (o.units.strain * ·) else [])) := by
  rw [result_of_slots o x _ (writes_slots o x)]
  unfold Output.writes
  simp only [List.map_append]
  have h1 : (((List.finRange d).map fun i : Fin d => ((i : ℕ), o.displacement x i)).map Prod.snd ++
      ((List.finRange nS).map fun a : Fin nS => (d + (a : ℕ), o.slip x a)).map Prod.snd).length =
      d + nS := by simp
  rw [List.drop_left' h1, hl]
  cases o.fluctuations <;> rfl

theorem vonMises_unit (c : ℝ) (hc : 0 ≤ c) (t : Mat 3) :
    c * vonMisesStress t = vonMisesStress (c • t) := by
  rw [(C55_measure t 0 c).2.2.2.1, abs_of_nonneg hc]

theorem voigt_smul (c : ℝ) (m : Mat 3) : (voigt m).map (c * ·) = voigt (c • m) := rfl

theorem voigt2_smul (c : ℝ) (m : Mat 3) : (voigt2 m).map (c * ·) = voigt2 (c • m) := by
  simp [voigt2, mul_left_comm]

/-- C58: in a cell of crystal `c₀`, each derived column holds the quantity its title names: slips
of the crystal, stress of Hooke's law for the elastic strain, strains with doubled shear
components, all in their units.  Partial: with fluctuations requested, only for unit
characteristic stress. -/
theorem C58_values_partial {d nC nS : ℕ} (o : Output d nC nS) (x : Inputs d) (c₀ : Fin nC)
    (h : InCrystal o x c₀) (hl : o.light = false) (hs : 0 ≤ o.units.stress)
    (hf : o.fluctuations = true → o.units.stress = 1) :
    List.Forall₂ (fun title v => (SpecPhys o x c₀).column title = some v)
      (o.names.drop (d + nS))
      (((List.range o.names.length).map (o.result x)).drop (d + nS)) := by
  have hn : o.names.length = nColumns o := by
    have h1 := (C58_complete o x).2
    rw [writes_slots] at h1
    simpa using (congrArg List.length h1).symm
  rw [hn, derived_values o x hl]
  have hdens : ∀ v : System d → Vec d, o.density x v =
      o.units.density * √(∑ a, (x.gradient (o.slipIndex c₀ a) ⬝ᵥ v (o.sys c₀ a)) ^ 2) := by
    intro v
    unfold Output.density
    congr 2
    refine sum_congr rfl fun a _ => ?_
    exact Finset.sum_eq_single (s := univ)
      (f := fun c : Fin nC => (x.gradient (o.slipIndex c a) ⬝ᵥ v (o.sys c a)) ^ 2)
      c₀ (fun c _ hc => by show _ ^ 2 = _; rw [(h.slip c a hc).2]; simp) (by simp)
  have habs : ∀ a, ∑ c : Fin nC, |x.value (o.slipIndex c a)| = |x.value (o.slipIndex c₀ a)| := by
    intro a
    exact Finset.sum_eq_single (s := univ) (f := fun c : Fin nC => |x.value (o.slipIndex c a)|)
      c₀ (fun c _ hc => by show |_| = _; rw [(h.slip c a hc).1, abs_zero]) (by simp)
  have hnames : o.names.drop (d + nS) =
      (["EquivalentPlasticStrain", "EquivalentAbsolutePlasticStrain",
      "EquivalentEdgeDislocationDensity", "EquivalentScrewDislocationDensity",
      "VonMisesStress", "VonMisesPlasticStrain",
      "Stress_11", "Stress_22", "Stress_33", "Stress_23", "Stress_13", "Stress_12",
      "Strain_11", "Strain_22", "Strain_33", "Strain_23x2", "Strain_13x2", "Strain_12x2",
      "ElasticStrain_11", "ElasticStrain_22", "ElasticStrain_33",
      "ElasticStrain_23x2", "ElasticStrain_13x2", "ElasticStrain_12x2",
      "PlasticStrain_11", "PlasticStrain_22", "PlasticStrain_33",
      "PlasticStrain_23x2", "PlasticStrain_13x2", "PlasticStrain_12x2"] ++
    (if o.fluctuations then
      ["VonMisesStressFluctuations",
        "StressFluctuations_11", "StressFluctuations_22", "StressFluctuations_33",
        "StressFluctuations_23", "StressFluctuations_13", "StressFluctuations_12",
        "StrainFluctuations_11", "StrainFluctuations_22", "StrainFluctuations_33",
        "StrainFluctuations_23x2", "StrainFluctuations_13x2", "StrainFluctuations_12x2"]
    else [])) := by
    unfold Output.names
    rw [List.drop_left' (by simp), hl]
    rfl
  have hst : o.stress x = apply4 o.tetrad (convert d (o.elastic x true)) := rfl
  have hE := elastic_eq h
  have hS : o.strain x true = symmetrize (SpecGradient o x c₀) + o.macroStrain := by
    unfold Output.strain; rw [gradient_eq h]; rfl
  have hS' : o.strain x false = symmetrize (SpecGradient o x c₀) := by
    unfold Output.strain; rw [gradient_eq h]; rfl
  rw [hnames, hdens, hdens, vonMises_unit _ hs, vonMises_unit _ hs, voigt_smul, voigt2_smul,
    voigt2_smul, voigt2_smul, voigt_smul, hst, hE.1, plastic_eq h, hS, hS']
  refine List.rel_append ?_ ?_
  · simp only [slip_eq h, habs]
    simp only [voigt, voigt2, List.cons_append, List.nil_append]
    repeat' (first | exact List.Forall₂.nil | refine List.Forall₂.cons rfl ?_)
  · by_cases hfl : o.fluctuations = true
    · rw [if_pos hfl, if_pos hfl]
      have hsf : o.units.stress • o.stressFluct x = o.units.stress • apply4 o.tetrad
          (convert d (elasticStrain o.dn0 (SpecSlips o x c₀) (symmetrize (SpecGradient o x c₀)))) := by
        unfold Output.stressFluct
        rw [hf hfl, one_smul, one_smul, one_smul, hE.2]
      rw [hsf]
      simp only [voigt, voigt2, List.cons_append, List.nil_append]
      repeat' (first | exact List.Forall₂.nil | refine List.Forall₂.cons rfl ?_)
    · rw [if_neg hfl, if_neg hfl]
      exact List.Forall₂.nil

theorem derived_get {d nC nS : ℕ} (o : Output d nC nS) (x : Inputs d) (hl : o.light = false)
    (k : ℕ) (v : ℝ) (hk : d + nS + k < nColumns o)
    (h : ([∑ a : Fin nS, o.slip x a, ∑ a : Fin nS, ∑ c : Fin nC, |x.value (o.slipIndex c a)|,
        o.density x System.direction, o.density x System.third,
        o.units.stress * vonMisesStress (o.stress x), vonMisesPlasticStrain (o.plastic x)] ++
       (voigt (o.stress x)).map (o.units.stress * ·) ++
       (voigt2 (convert d (o.strain x true))).map (o.units.strain * ·) ++
       (voigt2 (convert d (o.elastic x true))).map (o.units.strain * ·) ++
       voigt2 (convert d (o.plastic x)) ++
       (if o.fluctuations then
         [o.units.stress * vonMisesStress (o.stressFluct x)] ++
         (voigt (o.stressFluct x)).map (o.units.stress * ·) ++
         (voigt2 (convert d (o.strain x false))).map (o.units.strain * ·) else []))[k]? = some v) :
    o.result x (d + nS + k) = v := by
  rw [← derived_values o x hl, List.getElem?_drop, List.getElem?_map,
    List.getElem?_range hk] at h
  exact Option.some.inj h

theorem nColumns_ge {d nC nS : ℕ} (o : Output d nC nS) (hl : o.light = false) {k : ℕ}
    (hk : k < 30) : d + nS + k < nColumns o := by
  unfold nColumns
  rw [hl]
  cases o.fluctuations <;> simp <;> omega

/-- C58: what the columns of the stress fluctuations hold in general: the physical value times the
characteristic stress once more. -/
theorem C58_fluctuations {d nC nS : ℕ} (o : Output d nC nS) (x : Inputs d) (c₀ : Fin nC)
    (h : InCrystal o x c₀) (hl : o.light = false) (hf : o.fluctuations = true) :
    o.names[d + nS + 31]? = some "StressFluctuations_11" ∧
    o.names[d + nS + 36]? = some "StressFluctuations_12" ∧
    o.result x (d + nS + 31) = o.units.stress * (SpecPhys o x c₀).stressFluct 0 0 ∧
    o.result x (d + nS + 36) = o.units.stress * (SpecPhys o x c₀).stressFluct 0 1 := by
  have hc : nColumns o = d + nS + 43 := by unfold nColumns; rw [hl, hf]; rfl
  have hE := (elastic_eq h).2
  have hS : o.stressFluct x = (SpecPhys o x c₀).stressFluct := by
    unfold Output.stressFluct SpecPhys
    rw [hE]
  refine ⟨?_, ?_, ?_, ?_⟩
  · unfold Output.names
    rw [List.getElem?_append_right (by simp), hl, hf]
    simp
  · unfold Output.names
    rw [List.getElem?_append_right (by simp), hl, hf]
    simp
  · refine derived_get o x hl 31 _ (by omega) ?_
    rw [hf, hS]; rfl
  · refine derived_get o x hl 36 _ (by omega) ?_
    rw [hf, hS]; rfl

/-! ## C70 -/

/-- C70: the reported strain, elastic strain and plastic strain (same component) satisfy the
additive split with the factor `units.strain · dn0`. -/
theorem C70_factor {d nC nS : ℕ} (o : Output d nC nS) (x : Inputs d) (hl : o.light = false)
    (hd : d = 2 ∨ d = 3) (i : Fin 6) :
    o.result x (d + nS + (12 + i)) = o.result x (d + nS + (18 + i)) +
      o.units.strain * o.dn0 * o.result x (d + nS + (24 + i)) := by
  have hsplit : ∀ i j : Fin 3, convert d (o.strain x true) i j =
      convert d (o.elastic x true) i j + o.dn0 * convert d (o.plastic x) i j := by
    intro i j
    unfold Output.elastic
    rcases hd with rfl | rfl
    · fin_cases i <;> fin_cases j <;> simp [convert, to3]
    · simp [convert]
  fin_cases i
  · show o.result x (d + nS + 12) = o.result x (d + nS + 18) + _ * o.result x (d + nS + 24)
    rw [derived_get o x hl 12 _ (nColumns_ge o hl (by omega)) rfl,
      derived_get o x hl 18 _ (nColumns_ge o hl (by omega)) rfl,
      derived_get o x hl 24 _ (nColumns_ge o hl (by omega)) rfl, hsplit]
    ring
  · show o.result x (d + nS + 13) = o.result x (d + nS + 19) + _ * o.result x (d + nS + 25)
    rw [derived_get o x hl 13 _ (nColumns_ge o hl (by omega)) rfl,
      derived_get o x hl 19 _ (nColumns_ge o hl (by omega)) rfl,
      derived_get o x hl 25 _ (nColumns_ge o hl (by omega)) rfl, hsplit]
    ring
  · show o.result x (d + nS + 14) = o.result x (d + nS + 20) + _ * o.result x (d + nS + 26)
    rw [derived_get o x hl 14 _ (nColumns_ge o hl (by omega)) rfl,
      derived_get o x hl 20 _ (nColumns_ge o hl (by omega)) rfl,
      derived_get o x hl 26 _ (nColumns_ge o hl (by omega)) rfl, hsplit]
    ring
  · show o.result x (d + nS + 15) = o.result x (d + nS + 21) + _ * o.result x (d + nS + 27)
    rw [derived_get o x hl 15 _ (nColumns_ge o hl (by omega)) rfl,
      derived_get o x hl 21 _ (nColumns_ge o hl (by omega)) rfl,
      derived_get o x hl 27 _ (nColumns_ge o hl (by omega)) rfl, hsplit]
    ring
  · show o.result x (d + nS + 16) = o.result x (d + nS + 22) + _ * o.result x (d + nS + 28)
    rw [derived_get o x hl 16 _ (nColumns_ge o hl (by omega)) rfl,
      derived_get o x hl 22 _ (nColumns_ge o hl (by omega)) rfl,
      derived_get o x hl 28 _ (nColumns_ge o hl (by omega)) rfl, hsplit]
    ring
  · show o.result x (d + nS + 17) = o.result x (d + nS + 23) + _ * o.result x (d + nS + 29)
    rw [derived_get o x hl 17 _ (nColumns_ge o hl (by omega)) rfl,
      derived_get o x hl 23 _ (nColumns_ge o hl (by omega)) rfl,
      derived_get o x hl 29 _ (nColumns_ge o hl (by omega)) rfl, hsplit]
    ring

/-- C70: with outputs in physical units, where the strain unit is the reciprocal of the
dimensionless number, the reported strain is the sum of the reported elastic and plastic strains.
Partial: dimensionless output is excluded. -/
theorem C70_split_partial {d nC nS : ℕ} (o : Output d nC nS) (x : Inputs d) (hl : o.light = false)
    (hd : d = 2 ∨ d = 3) (hdim : o.dimensionless = false) (hu : o.given.strain * o.dn0 = 1)
    (i : Fin 6) :
    o.result x (d + nS + (12 + i)) =
      o.result x (d + nS + (18 + i)) + o.result x (d + nS + (24 + i)) := by
  have : o.units.strain * o.dn0 = 1 := by unfold Output.units; rw [hdim]; exact hu
  rw [C70_factor o x hl hd i, this, one_mul]

/-! ## C71 -/

/-- C71: in a plane problem the reported in-plane stress is the characteristic stress times the
stress used in the equilibrium equations for the same strain and slips. -/
theorem C71_plane {nC nS : ℕ} (o : Output 2 nC nS) (x : Inputs 2) (c₀ : Fin nC)
    (h : InCrystal o x c₀) (hl : o.light = false) (hm : o.macroStrainᵀ = o.macroStrain)
    (p : Elastic) (angle : ℝ)
    (ht : o.tetrad = rotatedStiffness (rotation2in3 angle) (p.reference 3)) :
    let σ := p.stress (rotation2 angle) (elasticStrain o.dn0 (SpecSlips o x c₀)
      (symmetrize (SpecGradient o x c₀) + o.macroStrain))
    o.result x (2 + nS + 6) = o.units.stress * σ 0 0 ∧
    o.result x (2 + nS + 7) = o.units.stress * σ 1 1 ∧
    o.result x (2 + nS + 11) = o.units.stress * σ 0 1 := by
  intro σ
  set ee := elasticStrain o.dn0 (SpecSlips o x c₀)
      (symmetrize (SpecGradient o x c₀) + o.macroStrain) with hee
  have hsym : ee 1 0 = ee 0 1 := by
    have hs : eeᵀ = ee := by
      have h1 : ee = symmetrize (SpecGradient o x c₀) + o.macroStrain -
          o.dn0 • plasticStrain (SpecSlips o x c₀) := eq_sub_of_add_eq (C33_split _ _ _)
      rw [h1, Matrix.transpose_sub, Matrix.transpose_add, hm, Matrix.transpose_smul,
        C33_symmetric]
      congr 2
      ext i j
      simp [symmetrize, add_comm]
    exact congrFun (congrFun hs 0) 1
  have key : ∀ i j : Fin 2, o.stress x i.castSucc j.castSucc = σ i j := by
    intro i j
    show apply4 o.tetrad (convert 2 (o.elastic x true)) _ _ = _
    rw [(elastic_eq h).1, ← hee, ht]
    unfold σ Elastic.stress apply4
    simp only [Matrix.of_apply, Fin.sum_univ_castSucc (n := 2), Fin.sum_univ_two, ← C31_plane, ← hee]
    rw [hsym]
    simp [convert, to3, Fin.last]
  refine ⟨?_, ?_, ?_⟩
  · refine derived_get o x hl 6 _ (nColumns_ge o hl (by omega)) ?_
    rw [← key]; rfl
  · refine derived_get o x hl 7 _ (nColumns_ge o hl (by omega)) ?_
    rw [← key]; rfl
  · refine derived_get o x hl 11 _ (nColumns_ge o hl (by omega)) ?_
    rw [← key]; rfl

/-- C71 in three dimensions: the same for all components. -/
theorem C71_solid {nC nS : ℕ} (o : Output 3 nC nS) (x : Inputs 3) (c₀ : Fin nC)
    (h : InCrystal o x c₀) (hl : o.light = false) (p : Elastic) (r : Mat 3)
    (ht : o.tetrad = rotatedStiffness r (p.reference 3)) :
    let σ := p.stress r (elasticStrain o.dn0 (SpecSlips o x c₀)
      (symmetrize (SpecGradient o x c₀) + o.macroStrain))
    ∀ i : Fin 6, o.result x (3 + nS + (6 + i)) = o.units.stress *
      (![σ 0 0, σ 1 1, σ 2 2, σ 1 2, σ 0 2, σ 0 1] : Fin 6 → ℝ) i := by
  intro σ i
  have key : o.stress x = σ := by
    show apply4 o.tetrad (convert 3 (o.elastic x true)) = _
    rw [(elastic_eq h).1, ht]; rfl
  rw [← key]
  fin_cases i
  · exact derived_get o x hl 6 _ (nColumns_ge o hl (by omega)) rfl
  · exact derived_get o x hl 7 _ (nColumns_ge o hl (by omega)) rfl
  · exact derived_get o x hl 8 _ (nColumns_ge o hl (by omega)) rfl
  · exact derived_get o x hl 9 _ (nColumns_ge o hl (by omega)) rfl
  · exact derived_get o x hl 10 _ (nColumns_ge o hl (by omega)) rfl
  · exact derived_get o x hl 11 _ (nColumns_ge o hl (by omega)) rfl

/-! ## Witnesses -/

/-- A plane bicrystal with one slip system, dimensionless number 2, characteristic stress 2. -/
noncomputable def exOut (dimless fluct decoh : Bool) : Output 2 2 1 where
  given := ⟨1, 1 / 2, 2, 1⟩
  dimensionless := dimless
  dn0 := 2
  light := false
  fluctuations := fluct
  decohesion := decoh
  sys := fun _ _ => ⟨![1, 0], ![0, 1], ![0, 0]⟩
  tetrad := rotatedStiffness (rotation2in3 0) ((⟨3, 1, 1, 1⟩ : Elastic).reference 3)
  macroStrain := 0

/-- A point of crystal 1 with uniaxial strain and slip 1. -/
def exIn : Inputs 2 where
  value := fun n => if n = 3 then 1 else 0
  gradient := fun n => if n = 0 then ![1, 0] else 0

/-- Non-vacuity of `InCrystal`. -/
theorem ex_inCrystal (a b : Bool) : InCrystal (exOut a b false) exIn 1 := by
  constructor
  · intro c s hc
    have : c = 0 := by omega
    subst this
    have hs : s = 0 := Subsingleton.elim _ _
    subst hs
    constructor <;> simp [Output.slipIndex, Output.offset, exOut, exIn]
  · intro h; simp [exOut] at h

theorem ex_stress : apply4 (exOut false true false).tetrad
    (convert 2 ((exOut false true false).elastic exIn false)) 0 0 = 3 := by
  have hr : SpecOrthogonal (rotation2in3 0) := by
    rw [rotation2in3_eq]; exact rotZ_orthogonal _
  have he : (exOut false true false).elastic exIn false = !![1, -1; -1, 0] := by
    rw [(elastic_eq (ex_inCrystal false true)).2]
    rw [eq_sub_of_add_eq (C33_split _ _ _)]
    unfold SpecSlips
    rw [plasticStrain_finRange]
    ext i j
    fin_cases i <;> fin_cases j <;>
      simp [exOut, exIn, SpecGradient, symmetrize, System.symSchmid, System.schmid, outer,
        Output.slipIndex, Output.offset]
  rw [he]
  have hs := C31_isotropic (⟨3, 1, 1, 1⟩ : Elastic) (by norm_num) (rotation2in3 0)
      (to3 !![1, -1; -1, 0]) hr (by ext i j; fin_cases i <;> fin_cases j <;> rfl)
  unfold Elastic.stress at hs
  show apply4 (rotatedStiffness (rotation2in3 0) ((⟨3, 1, 1, 1⟩ : Elastic).reference 3))
    (to3 !![1, -1; -1, 0]) 0 0 = 3
  rw [hs]
  simp [to3, Matrix.trace, Fin.sum_univ_three]
  norm_num

/-- C58 is violated: with fluctuations requested and a characteristic stress of 2, the column
`StressFluctuations_11` holds 12 where the physical stress is 6. -/
theorem C58_violated : ∃ (o : Output 2 2 1) (x : Inputs 2) (c₀ : Fin 2), InCrystal o x c₀ ∧
    o.names[2 + 1 + 31]? = some "StressFluctuations_11" ∧
    (SpecPhys o x c₀).column "StressFluctuations_11" = some 6 ∧ o.result x (2 + 1 + 31) = 12 := by
  have h := ex_inCrystal false true
  have hf := C58_fluctuations _ _ _ h rfl rfl
  have hv : (SpecPhys (exOut false true false) exIn 1).stressFluct 0 0 = 6 := by
    have h3 := ex_stress
    rw [(elastic_eq h).2] at h3
    show (2 : ℝ) * _ = 6
    rw [h3]; norm_num
  refine ⟨exOut false true false, exIn, 1, h, hf.1, ?_, ?_⟩
  · show some _ = _
    rw [hv]
  · rw [hf.2.2.1, hv]
    show (2 : ℝ) * 6 = 12
    norm_num

/-- C70 is violated by dimensionless output: the units of the report are reset, the dimensionless
number of the split is not. -/
theorem C70_violated : ∃ (o : Output 2 2 1) (x : Inputs 2) (c₀ : Fin 2), InCrystal o x c₀ ∧
    o.given.strain * o.dn0 = 1 ∧ o.dimensionless = true ∧
    o.result x (2 + 1 + 17) ≠ o.result x (2 + 1 + 23) + o.result x (2 + 1 + 29) := by
  have h := ex_inCrystal true false
  refine ⟨exOut true false false, exIn, 1, h, by norm_num [exOut], rfl, ?_⟩
  have h1 : (exOut true false false).result exIn (2 + 1 + 17) = _ :=
    C70_factor (exOut true false false) exIn rfl (.inl rfl) 5
  rw [h1]
  have h2 : (exOut true false false).result exIn (2 + 1 + 29) = 1 := by
    rw [derived_get (exOut true false false) exIn rfl 29 _ (nColumns_ge _ rfl (by omega)) rfl,
      plastic_eq h]
    unfold SpecSlips
    rw [plasticStrain_finRange]
    simp [exOut, exIn, symmetrize, System.symSchmid, System.schmid, outer,
        Output.slipIndex, Output.offset, convert, to3]
  show (exOut true false false).result exIn (2 + 1 + 23) +
    (exOut true false false).units.strain * (exOut true false false).dn0 *
    (exOut true false false).result exIn (2 + 1 + 29) ≠ _
  rw [h2]
  norm_num [exOut, Output.units, Units.one]

/-- Non-vacuity of `C58_values_partial` and `C70_split_partial`: the same cell with physical
output. -/
example : InCrystal (exOut false false false) exIn 1 ∧ (exOut false false false).light = false ∧
    0 ≤ (exOut false false false).units.stress ∧
    (exOut false false false).given.strain * (exOut false false false).dn0 = 1 :=
  ⟨ex_inCrystal _ _, rfl, by norm_num [exOut, Output.units], by norm_num [exOut]⟩

end Verif.Post
