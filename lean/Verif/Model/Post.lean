import Verif.Model.Crystal
import Verif.Model.Loading

/-!
# Post-processing

Quantities at one evaluation point, volume averages over the cells of all processes, and the
boundary average of the shear problem.  Sums over quadrature points, cells and processes are lists
folded in the order of the code; `MPI::sum` is the sum over the list of processes.
-/

namespace Verif.Post
open Matrix Finset Verif.Cry

/-! ## Deviators and von Mises measures -/

/-- `convert_2d_to_3d` for `dim == 2` (`source/postprocessing.cc:510-530`): the symmetric storage
makes `[0][1]` also `[1][0]`; the rest stays zero. -/
def to3 (m : Mat 2) : Mat 3 := !![m 0 0, m 0 1, 0; m 0 1, m 1 1, 0; 0, 0, 0]

/-- `convert_2d_to_3d` (`source/postprocessing.cc:510-530`): the identity for `dim == 3`; other
dimensions are asserted away. -/
def convert : (d : ℕ) → Mat d → Mat 3
  | 2, m => to3 m
  | 3, m => m
  | _, _ => 0

/-- `deviatoric_projector * t` (`source/postprocessing.cc:31-42`, `916-921`): the projector is
`identity - 1/3 outer(unit, unit)` in *every* dimension. -/
noncomputable def dev {d : ℕ} (t : Mat d) : Mat d := t - (1 / 3 * ddot 1 t) • (1 : Mat d)

/-- `get_von_mises_stress` (`source/postprocessing.cc:534-546`). -/
noncomputable def vonMisesStress (t : Mat 3) : ℝ := √(3 / 2 * ddot (dev t) (dev t))

/-- `get_von_mises_plastic_strain` (`source/postprocessing.cc:550-562`). -/
noncomputable def vonMisesPlasticStrain {d : ℕ} (t : Mat d) : ℝ := √(2 / 3 * ddot (dev t) (dev t))

/-- `von_mises_stress` of the homogenisation table
(`source/postprocessing.cc:1052-1068` for `dim == 2`, `1104-1120` for `dim == 3`). -/
noncomputable def tableStress {d : ℕ} (t : Mat d) : ℝ := √(3 / 2 * ddot (dev t) (dev t))

/-- `von_mises_strain` of the homogenisation table (`source/postprocessing.cc:1058-1075`). -/
noncomputable def tableStrain {d : ℕ} (t : Mat d) : ℝ := √(2 / 3 * ddot (dev t) (dev t))

/-! ## Homogenisation -/

/-- A quadrature point: `JxW`, symmetric displacement gradient, slip systems of the cell's crystal
with the slips. -/
structure QPoint (d : ℕ) where
  jxw : ℝ
  strain : Mat d
  slips : List (System d × ℝ)

/-- A cell: the rotation of its crystal and its quadrature points. -/
structure Cell (d : ℕ) where
  rot : Mat d
  points : List (QPoint d)

/-- The four integrals of `compute_macroscopic_stress`. -/
structure Integrals (d : ℕ) where
  stress : Mat d
  stressFluct : Mat d
  strainFluct : Mat d
  volume : ℝ

/-- All integrals zero. -/
def Integrals.zero {d : ℕ} : Integrals d := ⟨0, 0, 0, 0⟩

/-- `+=` of all four integrals. -/
def Integrals.add {d : ℕ} (a b : Integrals d) : Integrals d :=
  ⟨a.stress + b.stress, a.stressFluct + b.stressFluct, a.strainFluct + b.strainFluct,
    a.volume + b.volume⟩

/-- Parameters of the homogenisation. -/
structure Homog (d : ℕ) where
  elastic : Elastic
  dn0 : ℝ
  macroStrain : Mat d

/-- Integrand at a quadrature point times `JxW` (`source/postprocessing.cc:1283-1318`). -/
noncomputable def Homog.term {d : ℕ} (h : Homog d) (rot : Mat d) (q : QPoint d) : Integrals d :=
  let e := elasticStrain h.dn0 q.slips q.strain
  ⟨q.jxw • h.elastic.stress rot (h.macroStrain + e), q.jxw • h.elastic.stress rot e,
    q.jxw • q.strain, q.jxw⟩

/-- Integrals over a cell (`source/postprocessing.cc:1244-1318`). -/
noncomputable def Homog.cell {d : ℕ} (h : Homog d) (c : Cell d) : Integrals d :=
  c.points.foldl (fun acc q => acc.add (h.term c.rot q)) .zero

/-- Integrals over the cells a process owns (`source/postprocessing.cc:1238-1331`). -/
noncomputable def Homog.process {d : ℕ} (h : Homog d) (cells : List (Cell d)) : Integrals d :=
  cells.foldl (fun acc c => acc.add (h.cell c)) .zero

/-- `compute_macroscopic_stress` (`source/postprocessing.cc:1193-1361`): sums over the processes
and division by the volume; `none` if the volume vanishes (NaN). -/
noncomputable def Homog.compute {d : ℕ} (h : Homog d) (procs : List (List (Cell d))) :
    Option (Integrals d) :=
  let s : Integrals d := procs.foldl (fun acc p => acc.add (h.process p)) .zero
  if s.volume = 0 then none
  else some ⟨(1 / s.volume) • s.stress, (1 / s.volume) • s.stressFluct,
    (1 / s.volume) • s.strainFluct, s.volume⟩

/-! ## Boundary average -/

/-- `compute_stress_12_at_boundary` (`source/postprocessing.cc:790-894`): pairs of `σ₁₂` and `JxW`
of the face quadrature points, per process and face. -/
noncomputable def averageStress12 (width : ℝ) (procs : List (List (List (ℝ × ℝ)))) : ℝ :=
  (procs.map fun faces => (faces.map fun pts => (pts.map fun q => q.1 * q.2).sum).sum).sum / width

/-- `displacement_load` in `compute_data` (`source/postprocessing.cc:726-771`); `initial` is the
constructor argument `initial_loading_time`. -/
noncomputable def reportedShear (type : Load.LoadingType) (maxS minS period initial time : ℝ) : ℝ :=
  match type with
  | .monotonic => time * maxS
  | .cyclic =>
    if initial ≤ time then
      (maxS - minS) / 2 * Real.cos (2 * Real.pi / period * (time - initial)) + (maxS + minS) / 2
    else maxS * Real.sin (Real.pi / 2 / initial * time)

/-- The load `SimpleShearProblem` lets its `Postprocessing::SimpleShear` report
(`applications/simple_shear.cc:168-178`). -/
noncomputable def progReported (p : Load.Prog) (time : ℝ) : ℝ :=
  reportedShear p.type p.maxLoad p.minLoad p.period p.durLoad time

/-- Extent in `y` of the strip's cells and width of the strip: `1 / n_elements_in_y_direction`
(`applications/simple_shear.cc:178, 213-245`).  The area of the upper boundary of the grid made by
`make_grid`: a length in 2D, the square of the width in 3D. -/
noncomputable def upperArea (dim : ℕ) (width : ℝ) : ℝ := width ^ (dim - 1)

/-! ## Pointwise output -/

/-- Characteristic quantities the output uses (`include/gCP/run_time_parameters.h`). -/
structure Units where
  displacement : ℝ
  strain : ℝ
  stress : ℝ
  density : ℝ

/-- `CharacteristicQuantities()`: all one (`source/run_time_parameters.cc`). -/
def Units.one : Units := ⟨1, 1, 1, 1⟩

/-- Members of `Postprocessor` and data of a cell. -/
structure Output (d nC nS : ℕ) where
  /-- `parameters.characteristic_quantities` as given -/
  given : Units
  /-- `flag_output_dimensionless_quantities` -/
  dimensionless : Bool
  dn0 : ℝ
  light : Bool
  fluctuations : Bool
  decohesion : Bool
  sys : Fin nC → Fin nS → System d
  /-- `get_stiffness_tetrad_3d(material_id)` -/
  tetrad : Store4 3
  macroStrain : Mat d

/-- The units the output uses (`source/postprocessing.cc:59-63`). -/
def Output.units {d nC nS : ℕ} (o : Output d nC nS) : Units :=
  if o.dimensionless then .one else o.given

/-- Values and gradients of the solution's components at an evaluation point. -/
structure Inputs (d : ℕ) where
  value : ℕ → ℝ
  gradient : ℕ → Vec d

/-- `index_offset` (`source/postprocessing.cc:305-306`). -/
def Output.offset {d nC nS : ℕ} (o : Output d nC nS) : ℕ := if o.decohesion then d * nC else d

/-- Displacement component as accumulated or assigned (`source/postprocessing.cc:327-361`). -/
noncomputable def Output.displacement {d nC nS : ℕ} (o : Output d nC nS) (x : Inputs d)
    (i : Fin d) : ℝ :=
  if o.decohesion then ∑ c : Fin nC, o.units.displacement * x.value (i + d * c)
  else o.units.displacement * x.value i

/-- `displacement_gradient` (`source/postprocessing.cc:340-359`). -/
noncomputable def Output.gradient {d nC nS : ℕ} (o : Output d nC nS) (x : Inputs d) : Mat d :=
  Matrix.of fun i j =>
    if o.decohesion then ∑ c : Fin nC, x.gradient (i + d * c) j else x.gradient i j

/-- Component of the solution holding a slip (`source/postprocessing.cc:372-374`). -/
def Output.slipIndex {d nC nS : ℕ} (o : Output d nC nS) (c : Fin nC) (a : Fin nS) : ℕ :=
  o.offset + a + nS * c

/-- Slip output (`source/postprocessing.cc:364-374`). -/
noncomputable def Output.slip {d nC nS : ℕ} (o : Output d nC nS) (x : Inputs d) (a : Fin nS) : ℝ :=
  ∑ c : Fin nC, x.value (o.slipIndex c a)

/-- `plastic_strain_tensor` (`source/postprocessing.cc:400-405`). -/
noncomputable def Output.plastic {d nC nS : ℕ} (o : Output d nC nS) (x : Inputs d) : Mat d :=
  ∑ a : Fin nS, ∑ c : Fin nC, x.value (o.slipIndex c a) • (o.sys c a).symSchmid

/-- `strain_tensor` with (`source/postprocessing.cc:420-422`) or without
(`source/postprocessing.cc:469`) the macroscopic strain. -/
noncomputable def Output.strain {d nC nS : ℕ} (o : Output d nC nS) (x : Inputs d) (withMacro : Bool) :
    Mat d :=
  if withMacro then symmetrize (o.gradient x) + o.macroStrain else symmetrize (o.gradient x)

/-- `elastic_strain_tensor` (`source/postprocessing.cc:424-425, 473-475`). -/
noncomputable def Output.elastic {d nC nS : ℕ} (o : Output d nC nS) (x : Inputs d) (withMacro : Bool) :
    Mat d := o.strain x withMacro - o.dn0 • o.plastic x

/-- `stress_tensor` (`source/postprocessing.cc:435-437`). -/
noncomputable def Output.stress {d nC nS : ℕ} (o : Output d nC nS) (x : Inputs d) : Mat 3 :=
  apply4 o.tetrad (convert d (o.elastic x true))

/-- `stress_tensor` of the fluctuations: scaled by the characteristic stress
(`source/postprocessing.cc:477-480`). -/
noncomputable def Output.stressFluct {d nC nS : ℕ} (o : Output d nC nS) (x : Inputs d) : Mat 3 :=
  o.units.stress • apply4 o.tetrad (convert d (o.elastic x false))

/-- The six entries in the order of `voigt_indices` (`source/postprocessing.cc:50-55`). -/
def voigt (m : Mat 3) : List ℝ := [m 0 0, m 1 1, m 2 2, m 1 2, m 0 2, m 0 1]

/-- The six entries with shear components doubled (`(i < 3 ? 1.0 : 2.0)`). -/
def voigt2 (m : Mat 3) : List ℝ := [m 0 0, m 1 1, m 2 2, 2 * m 1 2, 2 * m 0 2, 2 * m 0 1]

/-- `dislocation density` outputs: the root of the sum of squared gradient components along a
vector of each slip system (`source/postprocessing.cc:388-398, 410-418`). -/
noncomputable def Output.density {d nC nS : ℕ} (o : Output d nC nS) (x : Inputs d)
    (v : System d → Vec d) : ℝ :=
  o.units.density * √(∑ a : Fin nS, ∑ c : Fin nC,
    (x.gradient (o.slipIndex c a) ⬝ᵥ v (o.sys c a)) ^ 2)

/-- `evaluate_vector_field` at one point (`source/postprocessing.cc:262-506`): the vector
`computed_quantities`, as pairs of slot (relative to the writes' offsets) and value in the order
of the writes. -/
noncomputable def Output.writes {d nC nS : ℕ} (o : Output d nC nS) (x : Inputs d) :
    List (ℕ × ℝ) :=
  let b := d + nS
  let block (start : ℕ) (l : List ℝ) : List (ℕ × ℝ) := l.mapIdx fun i v => (b + start + i, v)
  ((List.finRange d).map fun i : Fin d => ((i : ℕ), o.displacement x i)) ++
  ((List.finRange nS).map fun a : Fin nS => (d + (a : ℕ), o.slip x a)) ++
  (if o.light then [] else
    [(b, ∑ a : Fin nS, o.slip x a), (b + 1, ∑ a : Fin nS, ∑ c : Fin nC, |x.value (o.slipIndex c a)|),
      (b + 2, o.density x System.direction), (b + 3, o.density x System.third),
      (b + 4, o.units.stress * vonMisesStress (o.stress x)),
      (b + 5, vonMisesPlasticStrain (o.plastic x))] ++
    block 6 ((voigt (o.stress x)).map (o.units.stress * ·)) ++
    block 12 ((voigt2 (convert d (o.strain x true))).map (o.units.strain * ·)) ++
    block 18 ((voigt2 (convert d (o.elastic x true))).map (o.units.strain * ·)) ++
    block 24 (voigt2 (convert d (o.plastic x))) ++
    (if o.fluctuations then
      [(b + 30, o.units.stress * vonMisesStress (o.stressFluct x))] ++
      block 31 ((voigt (o.stressFluct x)).map (o.units.stress * ·)) ++
      block 37 ((voigt2 (convert d (o.strain x false))).map (o.units.strain * ·))
    else []))

/-- `computed_quantities` after the writes; it was reset to zero
(`source/postprocessing.cc:277-287`). -/
noncomputable def Output.result {d nC nS : ℕ} (o : Output d nC nS) (x : Inputs d) : ℕ → ℝ :=
  (o.writes x).foldl (fun v w => Function.update v w.1 w.2) (fun _ => 0)

/-- Two-digit number of a slip system (`source/postprocessing.cc:82-88`). -/
def slipName (a : ℕ) : String :=
  "Slip_" ++ (if a + 1 < 10 then "0" else "") ++ toString (a + 1)

/-- `get_names` (`source/postprocessing.cc:72-141`). -/
def Output.names {d nC nS : ℕ} (o : Output d nC nS) : List String :=
  List.replicate d "Displacement" ++ (List.range nS).map slipName ++
  (if o.light then [] else
    ["EquivalentPlasticStrain", "EquivalentAbsolutePlasticStrain",
      "EquivalentEdgeDislocationDensity", "EquivalentScrewDislocationDensity",
      "VonMisesStress", "VonMisesPlasticStrain",
      "Stress_11", "Stress_22", "Stress_33", "Stress_23", "Stress_13", "Stress_12",
      "Strain_11", "Strain_22", "Strain_33", "Strain_23x2", "Strain_13x2", "Strain_12x2",
      "ElasticStrain_11", "ElasticStrain_22", "ElasticStrain_33",
      "ElasticStrain_23x2", "ElasticStrain_13x2", "ElasticStrain_12x2",
      "PlasticStrain_11", "PlasticStrain_22", "PlasticStrain_33",
      "PlasticStrain_23x2", "PlasticStrain_13x2", "PlasticStrain_12x2"] ++
    (if o.fluctuations then
      ["VonMisesStressFluctuations",
        "StressFluctuations_11", "StressFluctuations_22", "StressFluctuations_33",
        "StressFluctuations_23", "StressFluctuations_13", "StressFluctuations_12",
        "StrainFluctuations_11", "StrainFluctuations_22", "StrainFluctuations_33",
        "StrainFluctuations_23x2", "StrainFluctuations_13x2", "StrainFluctuations_12x2"]
    else []))

/-- `get_data_component_interpretation` (`source/postprocessing.cc:146-220`): `true` for part of a
vector, `false` for a scalar. -/
def Output.interpretation {d nC nS : ℕ} (o : Output d nC nS) : List Bool :=
  List.replicate d true ++ List.replicate nS false ++
  (if o.light then [] else List.replicate 18 false ++ List.replicate 6 false ++
    List.replicate 6 false ++ (if o.fluctuations then List.replicate 13 false else []))

end Verif.Post
