import Verif.Model.Num
import Mathlib.Data.Matrix.Mul
import Mathlib.LinearAlgebra.Matrix.Trace
import Mathlib.Analysis.SpecialFunctions.Trigonometric.Basic
import Mathlib.Analysis.SpecialFunctions.Pow.Real

/-!
# Crystals, kinematics, elasticity and the vectorial microstress

Tensors of rank one and two are `Fin d → ℝ` and matrices.  `SymmetricTensor<4,dim>` stores one
number for the index pairs `(i,j)`, `(j,i)` and `(k,l)`, `(l,k)`; that aliasing is modelled
(`Slot`), because `HookeLaw::init` relies on it.  `M_PI` is `π`.
-/

namespace Verif.Cry
open Matrix Finset

/-- `dealii::Tensor<1,dim>`. -/
abbrev Vec (d : ℕ) := Fin d → ℝ

/-- `dealii::Tensor<2,dim>`; also `SymmetricTensor<2,dim>`, of which only `symmetrize` and
arithmetic create values. -/
abbrev Mat (d : ℕ) := Matrix (Fin d) (Fin d) ℝ

/-- `Tensor::norm`. -/
noncomputable def norm2 {d : ℕ} (v : Vec d) : ℝ := √(v ⬝ᵥ v)

/-- `v /= v.norm()`: `none` when the norm vanishes (`0/0`, all components NaN). -/
noncomputable def normalize {d : ℕ} (v : Vec d) : Option (Vec d) :=
  if norm2 v = 0 then none else some (fun i => v i / norm2 v)

/-- `outer_product(a, b)`. -/
def outer {d : ℕ} (a b : Vec d) : Mat d := Matrix.of fun i j => a i * b j

/-- `dealii::symmetrize` of a rank-2 tensor. -/
noncomputable def symmetrize {d : ℕ} (t : Mat d) : Mat d :=
  Matrix.of fun i j => (t i j + t j i) / 2

/-- `SymmetricTensor * SymmetricTensor` for rank two: the double contraction. -/
def ddot {d : ℕ} (a b : Mat d) : ℝ := ∑ i, ∑ j, a i j * b i j

/-- `cross_product_3d`. -/
def cross (a b : Vec 3) : Vec 3 :=
  ![a 1 * b 2 - a 2 * b 1, a 2 * b 0 - a 0 * b 2, a 0 * b 1 - a 1 * b 0]

/-- `__DBL_EPSILON__` = 2⁻⁵². -/
noncomputable def dblEpsilon : ℝ := (2 : ℝ) ^ (-52 : ℤ)

/-- `CrystalsData::orthogonality_check` (`source/crystal_data.cc:253-261`). -/
def orthogonalityCheck {d : ℕ} (a b : Vec d) : Prop := |a ⬝ᵥ b| ≤ dblEpsilon

/-- A slip system in the reference configuration, after `read_and_store_data`: slip direction,
slip normal and the third vector. -/
structure System (d : ℕ) where
  direction : Vec d
  normal : Vec d
  third : Vec d

/-- Outcome of reading one slip system: rejected by `AssertThrow`, stored with NaN entries, or
stored. -/
inductive Read (d : ℕ)
  | rejected
  | nan
  | ok (s : System d)

open Classical in
/-- The loop body of `read_and_store_data` for `dim == 2`
(`source/crystal_data.cc:208-246`). -/
noncomputable def readSystem2 (direction normal : Vec 2) : Read 2 :=
  if orthogonalityCheck normal direction then
    match normalize normal, normalize direction with
    | some n, some s => .ok ⟨s, n, 0⟩
    | _, _ => .nan
  else .rejected

open Classical in
/-- The loop body of `read_and_store_data` for `dim == 3`
(`source/crystal_data.cc:208-246`). -/
noncomputable def readSystem3 (direction normal : Vec 3) : Read 3 :=
  if orthogonalityCheck normal direction then
    match normalize normal, normalize direction, normalize (cross normal direction) with
    | some n, some s, some l => .ok ⟨s, n, l⟩
    | _, _, _ => .nan
  else .rejected

/-- `M_PI / 180.0` (`source/crystal_data.cc:273`). -/
noncomputable def degToRad : ℝ := Real.pi / 180

/-- `compute_rotation_matrices`, `dim == 2` (`source/crystal_data.cc:275-286`). -/
noncomputable def rotation2 (angle : ℝ) : Mat 2 :=
  let t := angle * degToRad
  !![Real.cos t, -Real.sin t; Real.sin t, Real.cos t]

/-- Rotation about the third axis (`source/crystal_data.cc:324-328,336-340`). -/
noncomputable def rotZ (t : ℝ) : Mat 3 :=
  !![Real.cos t, -Real.sin t, 0; Real.sin t, Real.cos t, 0; 0, 0, 1]

/-- Rotation about the first axis (`source/crystal_data.cc:330-334`). -/
noncomputable def rotX (t : ℝ) : Mat 3 :=
  !![1, 0, 0; 0, Real.cos t, -Real.sin t; 0, Real.sin t, Real.cos t]

/-- Rotation about the second axis (`source/crystal_data.cc:392-396`). -/
noncomputable def rotY (t : ℝ) : Mat 3 :=
  !![Real.cos t, 0, Real.sin t; 0, 1, 0; -Real.sin t, 0, Real.cos t]

/-- `compute_rotation_matrices`, `dim == 3` (`source/crystal_data.cc:287-354`). -/
noncomputable def rotation3 (e : Vec 3) : Mat 3 :=
  rotZ (e 0 * degToRad) * rotX (e 1 * degToRad) * rotZ (e 2 * degToRad)

/-- `compute_3d_rotation_matrices`, `dim == 2` (`source/crystal_data.cc:365-417`). -/
noncomputable def rotation2in3 (angle : ℝ) : Mat 3 :=
  rotZ (angle * degToRad) * (rotY 0 * rotX 0)

/-- `compute_slip_systems`: one slip system of one crystal (`source/crystal_data.cc:419-456`). -/
def rotateSystem {d : ℕ} (r : Mat d) (s : System d) : System d :=
  ⟨r *ᵥ s.direction, r *ᵥ s.normal, r *ᵥ s.third⟩

/-- The Schmid tensor (`source/crystal_data.cc:442-444`). -/
def System.schmid {d : ℕ} (s : System d) : Mat d := outer s.direction s.normal

/-- The symmetrized Schmid tensor (`source/crystal_data.cc:446-447`). -/
noncomputable def System.symSchmid {d : ℕ} (s : System d) : Mat d := symmetrize s.schmid

/-- `ElasticStrain::get_elastic_strain_tensor` (`source/constitutive_laws.cc:28-54`): the loop
subtracts one slip contribution after the other. -/
noncomputable def elasticStrain {d : ℕ} (dn : ℝ) :
    List (System d × ℝ) → Mat d → Mat d
  | [], e => e
  | (s, γ) :: rest, e => elasticStrain dn rest (e - (dn * γ) • s.symSchmid)

/-- `ElasticStrain::get_plastic_strain_tensor` (`source/constitutive_laws.cc:58-82`). -/
noncomputable def plasticStrain {d : ℕ} (l : List (System d × ℝ)) : Mat d :=
  l.foldl (fun acc p => acc + p.2 • p.1.symSchmid) 0

/-- `ResolvedShearStressLaw::get_resolved_shear_stress`
(`include/gCP/constitutive_laws.h:222-240`). -/
noncomputable def resolvedShear {d : ℕ} (s : System d) (stress : Mat d) : ℝ :=
  ddot stress s.symSchmid

/-! ## Hooke's law -/

/-- A storage slot of `SymmetricTensor<4,dim>`: both index pairs sorted. -/
abbrev Slot (d : ℕ) := (Fin d × Fin d) × (Fin d × Fin d)

/-- The slot `[i][j][k][l]` refers to. -/
def slot {d : ℕ} (i j k l : Fin d) : Slot d := ((min i j, max i j), (min k l, max k l))

/-- Stored numbers of a `SymmetricTensor<4,dim>`. -/
abbrev Store4 (d : ℕ) := Slot d → ℝ

/-- `HookeLawParameters` and the characteristic stiffness. -/
structure Elastic where
  c1111 : ℝ
  c1122 : ℝ
  c1212 : ℝ
  char : ℝ

/-- `HookeLawParameters::parse_parameters` does not throw
(`source/run_time_parameters.cc:65-85`). -/
def Elastic.accepted (p : Elastic) : Prop := 0 < p.c1111 ∧ 0 < p.c1122 ∧ 0 < p.c1212

/-- Loop body of `HookeLaw::init` (`source/constitutive_laws.cc:131-144`). -/
noncomputable def Elastic.write {d : ℕ} (p : Elastic) (t : Store4 d)
    (x : Fin d × Fin d × Fin d × Fin d) : Store4 d :=
  let i := x.1; let j := x.2.1; let k := x.2.2.1; let l := x.2.2.2
  if i = j ∧ j = k ∧ k = l then Function.update t (slot i j k l) (p.c1111 / p.char)
  else if i = k ∧ j = l then Function.update t (slot i j k l) (p.c1212 / p.char)
  else if i = j ∧ k = l then Function.update t (slot i j k l) (p.c1122 / p.char)
  else t

/-- The index tuples in the order of the four nested loops. -/
def tuples (d : ℕ) : List (Fin d × Fin d × Fin d × Fin d) :=
  (List.finRange d).flatMap fun i => (List.finRange d).flatMap fun j =>
    (List.finRange d).flatMap fun k => (List.finRange d).map fun l => (i, j, k, l)

/-- `reference_stiffness_tetrad` after the loops (`source/constitutive_laws.cc:131-144`); the
constructor of `SymmetricTensor` sets all entries to zero. -/
noncomputable def Elastic.reference (p : Elastic) (d : ℕ) : Store4 d :=
  (tuples d).foldl p.write (fun _ => 0)

/-- Read access `t[i][j][k][l]`. -/
def at4 {d : ℕ} (t : Store4 d) (i j k l : Fin d) : ℝ := t (slot i j k l)

/-- The tetrad of a rotated crystal (`source/constitutive_laws.cc:190-207`): every slot is
accumulated once, from the tuples with `i ≤ j`, `k ≤ l`. -/
noncomputable def rotatedStiffness {d : ℕ} (r : Mat d) (c : Store4 d) : Store4 d := fun s =>
  ∑ o, ∑ p, ∑ q, ∑ t,
    r s.1.1 o * r s.1.2 p * r s.2.1 q * r s.2.2 t * at4 c o p q t

/-- `SymmetricTensor<4,dim> * SymmetricTensor<2,dim>`. -/
noncomputable def apply4 {d : ℕ} (c : Store4 d) (e : Mat d) : Mat d := Matrix.of fun i j =>
  ∑ k, ∑ l, at4 c i j k l * e k l

/-- `HookeLaw::get_stress_tensor(crystal_id, strain)` for a crystal with rotation `r`
(`source/constitutive_laws.cc:270-297`). -/
noncomputable def Elastic.stress {d : ℕ} (p : Elastic) (r : Mat d) (e : Mat d) : Mat d :=
  apply4 (rotatedStiffness r (p.reference d)) e

/-! ## Vectorial microstress -/

/-- `std::pow(x, e)` for `0 ≤ x`, when the result is finite; `none` = `pow(0, e)` with
negative exponent, an infinity. -/
noncomputable def fpow (x e : ℝ) : Option ℝ := if x = 0 ∧ e < 0 then none else some (x ^ e)

/-- Parameters of `VectorialMicrostressLaw`. -/
structure VecLaw where
  lengthScale : ℝ
  initialResistance : ℝ
  index : ℝ
  dimensionless : Bool

/-- The ranges of the parameter file (`source/run_time_parameters.cc:177-196`). -/
def VecLaw.accepted (v : VecLaw) : Prop :=
  0 ≤ v.lengthScale ∧ 0 ≤ v.initialResistance ∧ 1 ≤ v.index

/-- `factor` as set by `init` (`source/constitutive_laws.cc:599-602`). -/
noncomputable def VecLaw.factor (v : VecLaw) : ℝ :=
  if v.dimensionless then 1 else v.initialResistance * v.lengthScale ^ v.index

/-- The bracket common to microstress and Jacobian: `|−s·∇γ|^(p−2) s⊗s + |l·∇γ|^(p−2) l⊗l`.
An infinite power is multiplied with the dyad and then with the gradient: since the gradient is
orthogonal to the vector in that case, each component of the product contains `∞·0` or `∞−∞`, so
`none` stands for NaN in all components of the microstress. -/
noncomputable def VecLaw.bracket {d : ℕ} (v : VecLaw) (s : System d) (g : Vec d) :
    Option (Mat d) :=
  match fpow |(-s.direction) ⬝ᵥ g| (v.index - 2), fpow |s.third ⬝ᵥ g| (v.index - 2) with
  | some a, some b => some (a • symmetrize (outer s.direction s.direction) +
                            b • symmetrize (outer s.third s.third))
  | _, _ => none

/-- `get_vectorial_microstress` (`source/constitutive_laws.cc:668-699`). -/
noncomputable def VecLaw.microstress {d : ℕ} (v : VecLaw) (s : System d) (g : Vec d) :
    Option (Vec d) :=
  (v.bracket s g).map fun m => (v.factor • m) *ᵥ g

/-- `get_jacobian` (`source/constitutive_laws.cc:702-732`). -/
noncomputable def VecLaw.jacobian {d : ℕ} (v : VecLaw) (s : System d) (g : Vec d) :
    Option (Mat d) :=
  (v.bracket s g).map fun m => (v.factor * (v.index - 1)) • m

end Verif.Cry
