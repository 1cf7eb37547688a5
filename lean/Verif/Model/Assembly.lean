import Verif.Model.Micro
import Verif.Model.Crystal
import Verif.Model.Interface

/-!
# Local residual and local matrix

A cell with `N` local degrees of freedom and `n` slip systems.  deal.II delivers the values of the
shape functions at the quadrature points; they enter as arbitrary numbers.  A degree of freedom is
of kind `none` (`get_global_component < dim`, a displacement) or `some a` (`get_global_component =
dim + a`, the slip of system `a`; C44).  `none` as a value is NaN.  Loops over quadrature points
that accumulate with `+=`, `-=` become sums (exact arithmetic).
-/

namespace Verif.Asm
open Matrix Finset Verif.Cry Verif.Hist Verif.Micro

/-- Shape function values at a quadrature point: `JxW`, `value` and `symmetric_gradient` of the
displacement view, `value` and `gradient` of the slip views
(`source/gradient_crystal_plasticity/assembly.cc:171-197,811-835`). -/
structure Shape (d n N : ℕ) where
  jxw : ℝ
  disp : Fin N → Vec d
  symGrad : Fin N → Mat d
  phi : Fin n → Fin N → ℝ
  grad : Fin n → Fin N → Vec d

/-- Kind of each local degree of freedom (`get_global_component`,
`include/gCP/fe_field.h:656-663`). -/
abbrev Kind (n N : ℕ) := Fin N → Option (Fin n)

/-- What deal.II guarantees for a primitive element: a view vanishes on the degrees of freedom of
other components, and symmetric gradients are symmetric. -/
structure Shape.Primitive {d n N : ℕ} (s : Shape d n N) (kind : Kind n N) : Prop where
  disp : ∀ i a, kind i = some a → s.disp i = 0
  symGrad : ∀ i a, kind i = some a → s.symGrad i = 0
  phi : ∀ i a, kind i ≠ some a → s.phi a i = 0
  grad : ∀ i a, kind i ≠ some a → s.grad a i = 0
  sym : ∀ i, (s.symGrad i)ᵀ = s.symGrad i

/-- Quadrature point: shape functions, supply term, stored history and old slips
(`assembly.cc:735-747,758-760`). -/
structure Point (d n N : ℕ) where
  shape : Shape d n N
  supply : Vec d
  hist : Bulk n
  old : Fin n → ℝ

/-- Everything else a cell's assembly reads. -/
structure CellPrm (d n : ℕ) where
  sys : Fin n → System d
  elastic : Elastic
  rot : Mat d
  vec : VecLaw
  law : Law
  dn0 : ℝ
  dn2 : ℝ
  dn3 : ℝ
  dt : ℝ
  macroStrain : Mat d

/-- `get_function_symmetric_gradients` (deal.II), called in `assembly.cc:739-741`. -/
noncomputable def Shape.strain {d n N : ℕ} (s : Shape d n N) (u : Fin N → ℝ) : Mat d :=
  ∑ j, u j • s.symGrad j

/-- `get_function_values` of a slip view (deal.II), called in `assembly.cc:754-756`. -/
noncomputable def Shape.slip {d n N : ℕ} (s : Shape d n N) (u : Fin N → ℝ) (a : Fin n) : ℝ :=
  ∑ j, u j * s.phi a j

/-- `get_function_gradients` of a slip view (deal.II), called in `assembly.cc:762-764`. -/
noncomputable def Shape.slipGrad {d n N : ℕ} (s : Shape d n N) (u : Fin N → ℝ) (a : Fin n) :
    Vec d := ∑ j, u j • s.grad a j

/-- `get_function_values` of the displacement view (deal.II), called on faces in
`assembly.cc:962-981`. -/
noncomputable def Shape.displacement {d n N : ℕ} (s : Shape d n N) (u : Fin N → ℝ) : Vec d :=
  ∑ j, u j • s.disp j

/-- `elastic_strain_tensor_values[q_point]` (`assembly.cc:771-777`). -/
noncomputable def CellPrm.elasticStrainAt {d n N : ℕ} (c : CellPrm d n) (s : Shape d n N)
    (u : Fin N → ℝ) : Mat d :=
  c.macroStrain +
    elasticStrain c.dn0 ((List.finRange n).map fun a => (c.sys a, s.slip u a)) (s.strain u)

/-- `stress_tensor_values[q_point]` (`assembly.cc:780-783`). -/
noncomputable def CellPrm.stressAt {d n N : ℕ} (c : CellPrm d n) (s : Shape d n N)
    (u : Fin N → ℝ) : Mat d :=
  c.elastic.stress c.rot (c.elasticStrainAt s u)

/-- Contribution of a quadrature point to `local_rhs(i)` (`assembly.cc:787-881`).  The slip
resistances were updated at the trial solution before
(`reset_and_update_internal_variables`, `assembly.cc:1399-1402`). -/
noncomputable def CellPrm.rhsTerm {d n N : ℕ} (c : CellPrm d n) (kind : Kind n N)
    (p : Point d n N) (u : Fin N → ℝ) (i : Fin N) : Option ℝ :=
  let s := p.shape
  match kind i with
  | none => some (-(c.dn3 / c.dn0 *
      (ddot (s.symGrad i) (c.stressAt s u) - s.disp i ⬝ᵥ p.supply) * s.jxw))
  | some a => (c.vec.microstress (c.sys a) (s.slipGrad u a)).map fun x =>
      -((c.dn2 * (s.grad a i ⬝ᵥ x) -
        s.phi a i * (c.dn3 * resolvedShear (c.sys a) (c.stressAt s u) -
          c.law.evalMicrostress p.hist (s.slip u) p.old c.dt a)) * s.jxw)

/-- A sum of numbers some of which may be NaN. -/
def sumOpt {Q : ℕ} (f : Fin Q → Option ℝ) : Option ℝ :=
  (List.finRange Q).foldl (fun acc q => acc.bind fun x => (f q).map (x + ·)) (some 0)

/-- `local_rhs(i)` without boundary terms (`assembly.cc:767-882`). -/
noncomputable def CellPrm.rhs {d n N Q : ℕ} (c : CellPrm d n) (kind : Kind n N)
    (pts : Fin Q → Point d n N) (u : Fin N → ℝ) (i : Fin N) : Option ℝ :=
  sumOpt fun q => c.rhsTerm kind (pts q) u i

/-- `SymmetricTensor<2> * SymmetricTensor<4>`: contraction over the first index pair. -/
noncomputable def lapply4 {d : ℕ} (e : Mat d) (c : Store4 d) : Mat d := Matrix.of fun k l =>
  ∑ i, ∑ j, e i j * at4 c i j k l

/-- `a * stiffness_tetrad * b` for symmetric tensors, read from left to right. -/
noncomputable def sandwich {d : ℕ} (a : Mat d) (c : Store4 d) (b : Mat d) : ℝ :=
  ddot (lapply4 a c) b

/-- The stiffness tetrad of the crystal (`assembly.cc:119-120`). -/
noncomputable def CellPrm.tetrad {d n : ℕ} (c : CellPrm d n) : Store4 d :=
  rotatedStiffness c.rot (c.elastic.reference d)

/-- Contribution of a quadrature point to `local_matrix(i,j)` (`assembly.cc:160-311`). -/
noncomputable def CellPrm.matTerm {d n N : ℕ} (c : CellPrm d n) (kind : Kind n N)
    (p : Point d n N) (u : Fin N → ℝ) (i j : Fin N) : Option ℝ :=
  let s := p.shape
  match kind i, kind j with
  | none, none => some (c.dn3 / c.dn0 * sandwich (s.symGrad i) c.tetrad (s.symGrad j) * s.jxw)
  | none, some b => some (-(c.dn3 / c.dn0 * c.dn0 *
      sandwich (s.symGrad i) c.tetrad (c.sys b).symSchmid * s.phi b j * s.jxw))
  | some a, none => some (-(c.dn3 * s.phi a i *
      sandwich (c.sys a).symSchmid c.tetrad (s.symGrad j) * s.jxw))
  | some a, some b =>
    let bulk := -(s.phi a i *
      (-1 * c.dn0 * c.dn3 * sandwich (c.sys a).symSchmid c.tetrad (c.sys b).symSchmid -
        c.law.evalJacobian p.hist (s.slip u) p.old c.dt a b) * s.phi b j * s.jxw)
    if a = b then
      (c.vec.jacobian (c.sys a) (s.slipGrad u a)).map fun J =>
        c.dn2 * ((s.grad a i ᵥ* J) ⬝ᵥ s.grad b j) * s.jxw + bulk
    else some bulk

/-- `local_matrix(i,j)` without face terms (`assembly.cc:158-313`). -/
noncomputable def CellPrm.mat {d n N Q : ℕ} (c : CellPrm d n) (kind : Kind n N)
    (pts : Fin Q → Point d n N) (u : Fin N → ℝ) (i j : Fin N) : Option ℝ :=
  sumOpt fun q => c.matTerm kind (pts q) u i j

end Verif.Asm
