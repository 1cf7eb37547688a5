import Verif.Model.Post
import Verif.Model.Field

/-!
# The homogenisation table and the debug fields of the slip systems
-/

namespace Verif.Post
open Verif.Cry

/-! ## Homogenisation table -/

/-- Names of the six tensor columns (`source/postprocessing.cc:937-960`). -/
def tensorNames (name : String) : List String :=
  [name ++ "_11", name ++ "_22", name ++ "_33", name ++ "_23", name ++ "_13", name ++ "_12"]

/-- `declare_column` calls of the constructor (`source/postprocessing.cc:932-960`). -/
def homogColumns : List String :=
  ["Time", "VonMisesStress", "VonMisesStressFluctuations", "VonMisesStrain",
    "VonMisesStrainFluctuations"] ++
  tensorNames "Stress" ++ tensorNames "Strain" ++ tensorNames "StressFluctuations" ++
  tensorNames "StrainFluctuations"

/-- `add_value` calls for a tensor in 2D (`source/postprocessing.cc:1098-1109`). -/
def tensor2 (name : String) (m : Mat 2) : List (String × ℝ) :=
  [(name ++ "_11", m 0 0), (name ++ "_22", m 1 1), (name ++ "_12", m 0 1)]

/-- `add_value` calls for a tensor in 3D (`source/postprocessing.cc:1150-1173`). -/
def tensor3 (name : String) (m : Mat 3) : List (String × ℝ) :=
  [(name ++ "_11", m 0 0), (name ++ "_22", m 1 1), (name ++ "_33", m 2 2), (name ++ "_23", m 1 2),
    (name ++ "_13", m 0 2), (name ++ "_12", m 0 1)]

/-- The scalar columns (`source/postprocessing.cc:1065-1097`, `1117-1149`). -/
noncomputable def scalarColumns {d : ℕ} (h : Homog d) (time : ℝ) (r : Integrals d) :
    List (String × ℝ) :=
  [("Time", time), ("VonMisesStress", tableStress r.stress),
    ("VonMisesStressFluctuations", tableStress r.stressFluct),
    ("VonMisesStrain", tableStrain (h.macroStrain + r.strainFluct)),
    ("VonMisesStrainFluctuations", tableStrain r.strainFluct)]

/-- `Homogenization<2>::update_table_handler_values` (`source/postprocessing.cc:1052-1112`): the
values added to the current row. -/
noncomputable def row2 (h : Homog 2) (time : ℝ) (r : Integrals 2) : List (String × ℝ) :=
  scalarColumns h time r ++ tensor2 "Stress" r.stress ++
    tensor2 "Strain" (h.macroStrain + r.strainFluct) ++
    tensor2 "StressFluctuations" r.stressFluct ++ tensor2 "StrainFluctuations" r.strainFluct

/-- `Homogenization<3>::update_table_handler_values` (`source/postprocessing.cc:1116-1176`). -/
noncomputable def row3 (h : Homog 3) (time : ℝ) (r : Integrals 3) : List (String × ℝ) :=
  scalarColumns h time r ++ tensor3 "Stress" r.stress ++
    tensor3 "Strain" (h.macroStrain + r.strainFluct) ++
    tensor3 "StressFluctuations" r.stressFluct ++ tensor3 "StrainFluctuations" r.strainFluct

/-- Content of a column in the row (deal.II's `TableHandler`): `add_value` appends to the column,
`start_new_row` fills the columns without value with an empty cell (`none`). -/
def cellOf (row : List (String × ℝ)) (c : String) : Option ℝ :=
  (row.find? fun p => p.1 = c).map Prod.snd

/-! ## Debug fields -/

/-- `SlipBasedPostprocessor::get_names` (`source/postprocessing.cc:583-597`). -/
def debugNames (name : String) (nS : ℕ) : List String :=
  (List.range nS).map fun a => name ++ toString a

/-- `SlipBasedPostprocessor::evaluate_vector_field` at one point
(`source/postprocessing.cc:627-671`): column `a`. -/
noncomputable def debugValue (L : Fld.Layout) (value : ℕ → ℝ) (a : ℕ) : ℝ :=
  (List.range L.nC).foldl
    (fun acc c => acc + |value ((if L.decohesion then L.dim * L.nC else L.dim) + a + L.nS * c)|) 0

end Verif.Post
