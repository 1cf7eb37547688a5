import Verif.Model.Interface
import Mathlib.Data.Int.Log
import Mathlib.Algebra.Order.Round

/-!
# The grain interaction moduli in double precision

The rest of the model computes with real numbers.  Here the path from the slip-system files to the
range check of the interaction moduli is modelled with every arithmetic operation rounded to a
double.  A double is `m·2^e` with `|m| ≤ 2^53` and `e ≥ -1074` (subnormals included); overflow is
not modelled, so theorems about this model ask for input in a range where nothing overflows.
Operations are rounded one by one from left to right, as the C++ expressions say (no contraction
to fused multiply-add, the default of x86-64 builds).
-/

namespace Verif.Fp
open Cry Itf

/-- The finite values of the C++ type `double` (IEEE 754 binary64), without the upper bound. -/
def IsDouble (x : ℝ) : Prop :=
  ∃ m e : ℤ, |m| ≤ 2 ^ 53 ∧ -1074 ≤ e ∧ x = m * (2 : ℝ) ^ e

/-- A rounding to nearest: the result is a double, and no double is closer.  Ties may be broken in
any way (the hardware breaks them to even). -/
structure IsRounding (fl : ℝ → ℝ) : Prop where
  double : ∀ x, IsDouble (fl x)
  nearest : ∀ x z, IsDouble z → |x - fl x| ≤ |x - z|

/-- `std::cos` and `std::sin`: within one unit of `2⁻⁵²` of the exact values, and exact at zero. -/
structure IsLibm (cosf sinf : ℝ → ℝ) : Prop where
  cos_near : ∀ t, |cosf t - Real.cos t| ≤ (2 : ℝ) ^ (-52 : ℤ)
  sin_near : ∀ t, |sinf t - Real.sin t| ≤ (2 : ℝ) ^ (-52 : ℤ)
  cos_zero : cosf 0 = 1
  sin_zero : sinf 0 = 0

variable (fl : ℝ → ℝ)

/-- `Tensor<1,2> * Tensor<1,2>` (deal.II). -/
def dot2 (a b : Vec 2) : ℝ := fl (fl (a 0 * b 0) + fl (a 1 * b 1))

/-- `Tensor<1,3> * Tensor<1,3>` (deal.II). -/
def dot3 (a b : Vec 3) : ℝ := fl (fl (fl (a 0 * b 0) + fl (a 1 * b 1)) + fl (a 2 * b 2))

/-- `cross_product_3d` (deal.II). -/
def cross3 (a b : Vec 3) : Vec 3 :=
  ![fl (fl (a 1 * b 2) - fl (a 2 * b 1)), fl (fl (a 2 * b 0) - fl (a 0 * b 2)),
    fl (fl (a 0 * b 1) - fl (a 1 * b 0))]

/-- One component of `v /= norm` (`source/crystal_data.cc:237-238`).  deal.II's
`Tensor::operator/=` has been written both ways: `inverse = true` multiplies by `1/norm`,
`inverse = false` divides. -/
noncomputable def quotient (inverse : Bool) (x norm : ℝ) : ℝ :=
  if inverse then fl (x * fl (1 / norm)) else fl (x / norm)

/-- `v /= v.norm()`, `dim == 2` (`source/crystal_data.cc:237-238`); `none` is `0/0`. -/
noncomputable def normalize2 (inverse : Bool) (v : Vec 2) : Option (Vec 2) :=
  let n := fl √(dot2 fl v v)
  if n = 0 then none else some (fun i => quotient fl inverse (v i) n)

/-- `v /= v.norm()`, `dim == 3` (`source/crystal_data.cc:237-245`); `none` is `0/0`. -/
noncomputable def normalize3 (inverse : Bool) (v : Vec 3) : Option (Vec 3) :=
  let n := fl √(dot3 fl v v)
  if n = 0 then none else some (fun i => quotient fl inverse (v i) n)

open Classical in
/-- The loop body of `read_and_store_data` for `dim == 2` (`source/crystal_data.cc:208-246`) with
`orthogonality_check` (`253-261`). -/
noncomputable def readSystem2 (inverse : Bool) (direction normal : Vec 2) : Read 2 :=
  if |dot2 fl normal direction| ≤ dblEpsilon then
    match normalize2 fl inverse normal, normalize2 fl inverse direction with
    | some n, some s => .ok ⟨s, n, 0⟩
    | _, _ => .nan
  else .rejected

open Classical in
/-- The loop body of `read_and_store_data` for `dim == 3` (`source/crystal_data.cc:208-246`) with
`orthogonality_check` (`253-261`). -/
noncomputable def readSystem3 (inverse : Bool) (direction normal : Vec 3) : Read 3 :=
  if |dot3 fl normal direction| ≤ dblEpsilon then
    match normalize3 fl inverse normal, normalize3 fl inverse direction,
        normalize3 fl inverse (cross3 fl normal direction) with
    | some n, some s, some l => .ok ⟨s, n, l⟩
    | _, _, _ => .nan
  else .rejected

/-- `euler_angle * deg_to_rad` with `deg_to_rad = M_PI / 180.0`
(`source/crystal_data.cc:271,277`). -/
noncomputable def radians (angle : ℝ) : ℝ := fl (angle * fl (fl Real.pi / 180))

/-- `compute_rotation_matrices`, `dim == 2` (`source/crystal_data.cc:275-284`). -/
noncomputable def rotation2 (cosf sinf : ℝ → ℝ) (angle : ℝ) : Mat 2 :=
  let t := radians fl angle
  !![cosf t, -sinf t; sinf t, cosf t]

/-- Rotation about the third axis (`source/crystal_data.cc:324-328,336-340`). -/
def rotZ (cosf sinf : ℝ → ℝ) (t : ℝ) : Mat 3 :=
  !![cosf t, -sinf t, 0; sinf t, cosf t, 0; 0, 0, 1]

/-- Rotation about the first axis (`source/crystal_data.cc:330-334`). -/
def rotX (cosf sinf : ℝ → ℝ) (t : ℝ) : Mat 3 :=
  !![1, 0, 0; 0, cosf t, -sinf t; 0, sinf t, cosf t]

/-- `Tensor<2,3> * Tensor<2,3>` (deal.II). -/
def mul3 (a b : Mat 3) : Mat 3 := Matrix.of fun i j => dot3 fl (a i) fun k => b k j

/-- `compute_rotation_matrices`, `dim == 3` (`source/crystal_data.cc:287-349`). -/
noncomputable def rotation3 (cosf sinf : ℝ → ℝ) (e : Vec 3) : Mat 3 :=
  mul3 fl (mul3 fl (rotZ cosf sinf (radians fl (e 0))) (rotX cosf sinf (radians fl (e 1))))
    (rotZ cosf sinf (radians fl (e 2)))

/-- `compute_slip_systems` for one slip system of one crystal, `dim == 2`
(`source/crystal_data.cc:419-456`). -/
def rotateSystem2 (r : Mat 2) (s : System 2) : System 2 :=
  ⟨fun i => dot2 fl (r i) s.direction, fun i => dot2 fl (r i) s.normal,
    fun i => dot2 fl (r i) s.third⟩

/-- `compute_slip_systems` for one slip system of one crystal, `dim == 3`
(`source/crystal_data.cc:419-456`). -/
def rotateSystem3 (r : Mat 3) (s : System 3) : System 3 :=
  ⟨fun i => dot3 fl (r i) s.direction, fun i => dot3 fl (r i) s.normal,
    fun i => dot3 fl (r i) s.third⟩

/-- `m[0] * n[1] - m[1] * n[0]` (`source/constitutive_laws.cc:802-809`). -/
def lateral (m n : Vec 2) : ℝ := fl (fl (m 0 * n 1) - fl (m 1 * n 0))

/-- One interaction modulus, `dim == 2` (`source/constitutive_laws.cc:799-821`). -/
def modulus2 (a b : System 2) (nrm : Vec 2) : ℝ :=
  fl (fl (dot2 fl a.direction b.direction * lateral fl a.normal nrm) * lateral fl b.normal nrm)

/-- One interaction modulus, `dim == 3` (`source/constitutive_laws.cc:918-936`). -/
def modulus3 (a b : System 3) (nrm : Vec 3) : ℝ :=
  fl (dot3 fl a.direction b.direction *
    dot3 fl (cross3 fl a.normal nrm) (cross3 fl b.normal nrm))

/-- The `AssertThrow` on a modulus does not throw, `dim == 2`
(`source/constitutive_laws.cc:823-841`). -/
def accepted2 (c : ℝ) : Prop := 0 ≤ |c| ∧ |c| ≤ fl (1 + fl 1e-14)

/-- The `AssertThrow` on a modulus does not throw, `dim == 3`
(`source/constitutive_laws.cc:938-950`). -/
def accepted3 (c : ℝ) : Prop := 0 ≤ |c| ∧ |c| ≤ 1

/-- `MicrotractionLaw<2>::get_grain_interaction_moduli` returns without throwing, for two different
crystals and the normals at the quadrature points of a face
(`source/constitutive_laws.cc:751-866`). -/
def Passes2 {n : ℕ} (cur nb : Crystal 2 n) (normals : List (Vec 2)) : Prop :=
  ∀ nrm ∈ normals, ∀ α β : Fin n, accepted2 fl (modulus2 fl (cur α) (cur β) nrm) ∧
    accepted2 fl (modulus2 fl (cur α) (nb β) nrm)

/-- `MicrotractionLaw<3>::get_grain_interaction_moduli` returns without throwing
(`source/constitutive_laws.cc:870-978`). -/
def Passes3 {n : ℕ} (cur nb : Crystal 3 n) (normals : List (Vec 3)) : Prop :=
  ∀ nrm ∈ normals, ∀ α β : Fin n, accepted3 (modulus3 fl (cur α) (cur β) nrm) ∧
    accepted3 (modulus3 fl (cur α) (nb β) nrm)

end Verif.Fp
