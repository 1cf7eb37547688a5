import Verif.Model.Table
import Verif.Props.Post

/-!
# Homogenisation table (C85) and debug fields of the slip systems (C86)
-/

namespace Verif.Post
open Verif.Cry

/-! ## Specification -/

/-- Title of the column of a tensor component, with one-based indices. -/
def SpecColumn (name : String) (i j : ℕ) : String := name ++ "_" ++ toString (i + 1) ++ toString (j + 1)

/-- The row reports the components of a symmetric tensor. -/
def SpecReports {d : ℕ} (row : List (String × ℝ)) (name : String) (m : Mat d) : Prop :=
  ∀ i j : Fin d, i ≤ j → cellOf row (SpecColumn name i j) = some (m i j)

/-! ## C85 -/

/-- Adding a constant field adds it to the average. -/
theorem average_shift {d : ℕ} (pts : List (Mat d × QPoint d))
    (hV : (pts.map fun x => x.2.jxw).sum ≠ 0) (m : Mat d) (f : Mat d × QPoint d → Mat d) :
    (SpecAverage pts fun x => m + f x) = m + SpecAverage pts f := by
  ext i j
  rw [Matrix.add_apply, average_apply, average_apply, div_eq_iff hV, add_mul, div_mul_cancel₀ _ hV,
    ← List.sum_map_mul_left, ← List.sum_map_add]
  refine congrArg List.sum (List.map_congr_left fun x _ => ?_)
  rw [Matrix.add_apply]; ring

theorem C85_row_2d (h : Homog 2) (time : ℝ) (r : Integrals 2) :
    SpecReports (row2 h time r) "Stress" r.stress ∧
    SpecReports (row2 h time r) "Strain" (h.macroStrain + r.strainFluct) ∧
    SpecReports (row2 h time r) "StressFluctuations" r.stressFluct ∧
    SpecReports (row2 h time r) "StrainFluctuations" r.strainFluct ∧
    cellOf (row2 h time r) "Time" = some time ∧
    cellOf (row2 h time r) "VonMisesStress" = some (tableStress r.stress) ∧
    cellOf (row2 h time r) "VonMisesStrain" = some (tableStrain (h.macroStrain + r.strainFluct)) ∧
    cellOf (row2 h time r) "VonMisesStressFluctuations" = some (tableStress r.stressFluct) ∧
    cellOf (row2 h time r) "VonMisesStrainFluctuations" = some (tableStrain r.strainFluct) ∧
    ((row2 h time r).map Prod.fst).Nodup ∧ ∀ c ∈ (row2 h time r).map Prod.fst, c ∈ homogColumns := by
  refine ⟨?_, ?_, ?_, ?_, rfl, rfl, rfl, rfl, rfl, ?_, ?_⟩
  iterate 4
    · intro i j hij
      fin_cases i <;> fin_cases j <;> first | rfl | exact absurd hij (by decide)
  · show (["Time", "VonMisesStress", "VonMisesStressFluctuations", "VonMisesStrain",
      "VonMisesStrainFluctuations", "Stress_11", "Stress_22", "Stress_12", "Strain_11", "Strain_22",
      "Strain_12", "StressFluctuations_11", "StressFluctuations_22", "StressFluctuations_12",
      "StrainFluctuations_11", "StrainFluctuations_22", "StrainFluctuations_12"] : List String).Nodup
    decide
  · show ∀ c ∈ (["Time", "VonMisesStress", "VonMisesStressFluctuations", "VonMisesStrain",
      "VonMisesStrainFluctuations", "Stress_11", "Stress_22", "Stress_12", "Strain_11", "Strain_22",
      "Strain_12", "StressFluctuations_11", "StressFluctuations_22", "StressFluctuations_12",
      "StrainFluctuations_11", "StrainFluctuations_22", "StrainFluctuations_12"] : List String),
      c ∈ homogColumns
    decide

/-- C85: the two-dimensional table leaves the out-of-plane columns empty. -/
theorem C85_empty_2d (h : Homog 2) (time : ℝ) (r : Integrals 2) (name : String)
    (hn : name ∈ ["Stress", "Strain", "StressFluctuations", "StrainFluctuations"]) (i : ℕ)
    (hi : i < 3) :
    SpecColumn name i 2 ∈ homogColumns ∧ cellOf (row2 h time r) (SpecColumn name i 2) = none := by
  simp only [List.mem_cons, List.not_mem_nil, or_false] at hn
  have hi' : i = 0 ∨ i = 1 ∨ i = 2 := by omega
  rcases hn with rfl | rfl | rfl | rfl <;> rcases hi' with rfl | rfl | rfl <;>
    exact ⟨by decide, rfl⟩

/-- C85 in three dimensions: every column is filled, with the quantity its title names. -/
theorem C85_row_3d (h : Homog 3) (time : ℝ) (r : Integrals 3) :
    SpecReports (row3 h time r) "Stress" r.stress ∧
    SpecReports (row3 h time r) "Strain" (h.macroStrain + r.strainFluct) ∧
    SpecReports (row3 h time r) "StressFluctuations" r.stressFluct ∧
    SpecReports (row3 h time r) "StrainFluctuations" r.strainFluct ∧
    cellOf (row3 h time r) "Time" = some time ∧
    cellOf (row3 h time r) "VonMisesStress" = some (tableStress r.stress) ∧
    cellOf (row3 h time r) "VonMisesStrain" = some (tableStrain (h.macroStrain + r.strainFluct)) ∧
    cellOf (row3 h time r) "VonMisesStressFluctuations" = some (tableStress r.stressFluct) ∧
    cellOf (row3 h time r) "VonMisesStrainFluctuations" = some (tableStrain r.strainFluct) ∧
    ((row3 h time r).map Prod.fst).Nodup ∧
    ((row3 h time r).map Prod.fst).Perm homogColumns := by
  have e : (row3 h time r).map Prod.fst = homogColumns := rfl
  refine ⟨?_, ?_, ?_, ?_, rfl, rfl, rfl, rfl, rfl, ?_, ?_⟩
  iterate 4
    · intro i j hij
      fin_cases i <;> fin_cases j <;> first | rfl | exact absurd hij (by decide)
  · rw [e]; decide
  · rw [e]

/-- C85: what the row says about the state of the whole body. The stress columns are the volume
averages of the stress, the strain columns the macroscopic strain plus the average of the
displacement's strain, over all quadrature points of all processes. -/
theorem C85_averages_3d (h : Homog 3) (time : ℝ) (procs : List (List (Cell 3)))
    (hV : ((points procs).map fun x => x.2.jxw).sum ≠ 0) :
    ∃ r, h.compute procs = some r ∧
      SpecReports (row3 h time r) "Stress" (SpecAverage (points procs) fun x =>
        h.elastic.stress x.1 (h.macroStrain + elasticStrain h.dn0 x.2.slips x.2.strain)) ∧
      SpecReports (row3 h time r) "Strain"
        (SpecAverage (points procs) fun x => h.macroStrain + x.2.strain) := by
  refine ⟨_, C56_average h procs hV, (C85_row_3d h time _).1, ?_⟩
  have := (C85_row_3d h time ⟨SpecAverage (points procs) fun x => h.elastic.stress x.1
          (h.macroStrain + elasticStrain h.dn0 x.2.slips x.2.strain),
        SpecAverage (points procs) fun x => h.elastic.stress x.1
          (elasticStrain h.dn0 x.2.slips x.2.strain),
        SpecAverage (points procs) fun x => x.2.strain,
        ((points procs).map fun x => x.2.jxw).sum⟩).2.1
  rwa [average_shift _ hV] 

/-- Two dimensions, as `C85_averages_3d`. -/
theorem C85_averages_2d (h : Homog 2) (time : ℝ) (procs : List (List (Cell 2)))
    (hV : ((points procs).map fun x => x.2.jxw).sum ≠ 0) :
    ∃ r, h.compute procs = some r ∧
      SpecReports (row2 h time r) "Stress" (SpecAverage (points procs) fun x =>
        h.elastic.stress x.1 (h.macroStrain + elasticStrain h.dn0 x.2.slips x.2.strain)) ∧
      SpecReports (row2 h time r) "Strain"
        (SpecAverage (points procs) fun x => h.macroStrain + x.2.strain) := by
  refine ⟨_, C56_average h procs hV, (C85_row_2d h time _).1, ?_⟩
  have := (C85_row_2d h time ⟨SpecAverage (points procs) fun x => h.elastic.stress x.1
          (h.macroStrain + elasticStrain h.dn0 x.2.slips x.2.strain),
        SpecAverage (points procs) fun x => h.elastic.stress x.1
          (elasticStrain h.dn0 x.2.slips x.2.strain),
        SpecAverage (points procs) fun x => x.2.strain,
        ((points procs).map fun x => x.2.jxw).sum⟩).2.1
  rwa [average_shift _ hV]

/-- Non-vacuity: one point of weight 2, macroscopic shear 1 and a fluctuation. -/
example : ∃ r, (⟨⟨3, 1, 1, 1⟩, 2, !![0, 1; 1, 0]⟩ : Homog 2).compute
      [[⟨1, [⟨2, !![5, 0; 0, 0], []⟩]⟩]] = some r ∧
    cellOf (row2 ⟨⟨3, 1, 1, 1⟩, 2, !![0, 1; 1, 0]⟩ 7 r) "Strain_11" = some 5 := by
  obtain ⟨r, h1, -, h2⟩ := C85_averages_2d ⟨⟨3, 1, 1, 1⟩, 2, !![0, 1; 1, 0]⟩ 7
    [[⟨1, [⟨2, !![5, 0; 0, 0], []⟩]⟩]] (by simp [points])
  refine ⟨r, h1, (h2 0 0 le_rfl).trans ?_⟩
  rw [average_apply]
  simp [points]

/-! ## C86 -/

/-- The component of the value vector that the field layout assigns to slip `a` of crystal `c`. -/
def SpecSlip (L : Fld.Layout) (value : ℕ → ℝ) (c a : ℕ) : ℝ := value (L.slipExtractor c a)

theorem debugValue_sum (L : Fld.Layout) (value : ℕ → ℝ) (a : ℕ) :
    debugValue L value a = ∑ c ∈ Finset.range L.nC, |SpecSlip L value c a| := by
  have key : ∀ n (f : ℕ → ℝ), (List.range n).foldl (fun acc c => acc + f c) 0 =
      ∑ c ∈ Finset.range n, f c := by
    intro n f
    induction n with
    | zero => rfl
    | succ n ih => rw [List.range_succ, List.foldl_append, ih, Finset.sum_range_succ]; rfl
  unfold debugValue
  rw [key]
  refine Finset.sum_congr rfl fun c _ => ?_
  unfold SpecSlip Fld.Layout.slipExtractor
  split <;> congr 2 <;> ring

/-- C86: at a point of crystal `c`, where the slips of the other crystals vanish, field `a` is the
magnitude of slip `a` of crystal `c`. -/
theorem C86_magnitude (L : Fld.Layout) (value : ℕ → ℝ) (c a : ℕ) (hc : c < L.nC)
    (h0 : ∀ c' < L.nC, c' ≠ c → SpecSlip L value c' a = 0) :
    debugValue L value a = |SpecSlip L value c a| := by
  rw [debugValue_sum]
  refine (Finset.sum_eq_single c (fun c' h hne => ?_) (fun h => ?_)).trans rfl
  · rw [h0 c' (Finset.mem_range.1 h) hne, abs_zero]
  · exact absurd (Finset.mem_range.2 hc) h

/-- C86: no field takes up a displacement or a slip with another number. -/
theorem C86_separate (L : Fld.Layout) (value value' : ℕ → ℝ) (a : ℕ)
    (h : ∀ c < L.nC, SpecSlip L value c a = SpecSlip L value' c a) :
    debugValue L value a = debugValue L value' a := by
  rw [debugValue_sum, debugValue_sum]
  exact Finset.sum_congr rfl fun c hc => by rw [h c (Finset.mem_range.1 hc)]

/-- C86: where the values of a point are nonnegative (slip resistances, the 0/1 active set) the
field is the value itself. -/
theorem C86_value (L : Fld.Layout) (value : ℕ → ℝ) (c a : ℕ) (hc : c < L.nC)
    (h0 : ∀ c' < L.nC, c' ≠ c → SpecSlip L value c' a = 0) (hp : 0 ≤ SpecSlip L value c a) :
    debugValue L value a = SpecSlip L value c a := by
  rw [C86_magnitude L value c a hc h0, abs_of_nonneg hp]

/-- C86 fails for signed quantities: a negative trial microstress is written with the wrong sign. -/
theorem C86_violated_sign : ∃ (L : Fld.Layout) (value : ℕ → ℝ), L.nC = 1 ∧ L.nS = 1 ∧
    SpecSlip L value 0 0 = -1 ∧ debugValue L value 0 = 1 := by
  refine ⟨⟨2, 1, 1, false⟩, fun _ => -1, rfl, rfl, rfl, ?_⟩
  simp [debugValue]

/-- C86: the fields of different slips have different names. -/
theorem C86_names (name : String) (nS : ℕ) :
    (debugNames name nS).length = nS ∧ (debugNames name nS).Nodup := by
  refine ⟨by simp [debugNames], List.Nodup.map (fun a b h => ?_) List.nodup_range⟩
  have h' : (toString a : String) = toString b := String.append_right_inj name |>.1 h
  have hd : ∀ n : ℕ, (toString n).toList = Nat.toDigits 10 n := fun n => Nat.toList_repr
  have h4 := congrArg (fun s : String => Nat.ofDigitChars 10 s.toList 0) h'
  simpa only [hd, Nat.ofDigitChars_ten_toDigits] using h4

/-- Non-vacuity of `C86_magnitude`: two crystals, decohesion, a point of the second crystal. -/
example : debugValue ⟨2, 2, 3, true⟩ (fun k => if k = 8 then -4 else 0) 1 = 4 := by
  rw [C86_magnitude ⟨2, 2, 3, true⟩ _ 1 1 (by decide) ?_]
  · simp [SpecSlip, Fld.Layout.slipExtractor]
  · intro c' hc' hne
    have : c' = 0 := by simp at hc'; omega
    subst this
    simp [SpecSlip, Fld.Layout.slipExtractor]

end Verif.Post
