import Verif.Model.Assembly

/-!
# Grain boundary and boundary integrals of the local residual and matrix

One face quadrature point of a grain boundary face.  The two cells of the face are the *current*
and the *neighbour* cell; the assembly visits the face once from each cell, with opposite normals.
The values of the shape functions on the face enter as arbitrary numbers.
-/

namespace Verif.Asm
open Matrix Finset Verif.Cry Verif.Hist Verif.Micro Verif.Itf

/-- Shape function values of one cell at a face quadrature point: displacement view and slip views
(`source/gradient_crystal_plasticity/assembly.cc:441-451,467-481,1002-1006,1036-1041`). -/
structure Side (d n N : ℕ) where
  disp : Fin N → Vec d
  phi : Fin n → Fin N → ℝ

/-- A view vanishes on the degrees of freedom of the other components (deal.II, primitive element);
cf. `Shape.Primitive`. -/
structure Side.Primitive {d n N : ℕ} (s : Side d n N) (kind : Kind n N) : Prop where
  disp : ∀ i a, kind i = some a → s.disp i = 0
  phi : ∀ i a, kind i ≠ some a → s.phi a i = 0

/-- Everything a face's assembly reads besides state, normal and shape functions: dimensionless
numbers, the laws, the coupling flags, whether displacements may jump (`is_decohesion_allowed`) and
whether the grain boundary condition is microtraction (`assembly.cc:315-319,884-888`). -/
structure FacePrm (d e : ℕ) where
  dn0 : ℝ
  dn2 : ℝ
  dn3 : ℝ
  dt : ℝ
  coh : Coh
  contact : Contact
  exponent : ℝ
  coupleMacro : Bool
  coupleMicro : Bool
  micro : MicroPrm
  lat : Vec d → Vec d → Fin e → ℝ
  decohesion : Bool
  microtraction : Bool

/-- `get_function_values` of the displacement view on the face (`assembly.cc:962-976`). -/
noncomputable def Side.displacement {d n N : ℕ} (s : Side d n N) (u : Fin N → ℝ) : Vec d :=
  ∑ j, u j • s.disp j

/-- `get_function_values` of a slip view on the face (`assembly.cc:933-944`). -/
noncomputable def Side.slip {d n N : ℕ} (s : Side d n N) (u : Fin N → ℝ) (a : Fin n) : ℝ :=
  ∑ j, u j * s.phi a j

/-- `opening_displacement` (`assembly.cc:421-423,1017-1019`). -/
noncomputable def opening {d n N : ℕ} (cur nb : Side d n N) (u un : Fin N → ℝ) : Vec d :=
  nb.displacement un - cur.displacement u

/-- `damage_variable_values[face_q_point]` (`assembly.cc:413-419,1009-1015`). -/
noncomputable def FacePrm.damage {d e : ℕ} (p : FacePrm d e) (h : Iface) : ℝ :=
  if p.decohesion then h.damage else 0

/-- Contribution of a face quadrature point to `local_rhs(i)` (`assembly.cc:983-1095`), from the
history record `h` as it is.  `cc`, `cn` are the slip systems of the current and the neighbour
crystal.  `none`: NaN (C39). -/
noncomputable def FacePrm.rhsTerm {d e n N : ℕ} (p : FacePrm d e) (kind : Kind n N)
    (cc cn : Crystal d n) (nrm : Vec d) (jxw : ℝ) (h : Iface) (cur nb : Side d n N)
    (u un : Fin N → ℝ) (i : Fin N) : Option ℝ :=
  match kind i with
  | none =>
    if p.decohesion then
      let δ := opening cur nb u un
      (p.coh.traction δ nrm h.maxOpening h.oldOpening p.dt).map fun t =>
        p.dn3 / p.dn0 * (cur.disp i ⬝ᵥ (degradation p.exponent (p.damage h) p.coupleMacro • t +
          p.contact.traction δ nrm)) * jxw
    else some 0
  | some a =>
    if p.microtraction then
      some (p.dn2 * cur.phi a i * degradation p.exponent (p.damage h) p.coupleMicro *
        Itf.microtraction p.micro p.lat cc cn nrm (cur.slip u) (nb.slip un) a * jxw)
    else some 0

/-- Contribution of a face quadrature point to `local_matrix(i,j)` (`assembly.cc:408-570`). -/
noncomputable def FacePrm.localTerm {d e n N : ℕ} (p : FacePrm d e) (kind : Kind n N)
    (cc : Crystal d n) (nrm : Vec d) (jxw : ℝ) (h : Iface) (cur nb : Side d n N)
    (u un : Fin N → ℝ) (i j : Fin N) : Option ℝ :=
  match kind i, kind j with
  | none, none =>
    if p.decohesion then
      let δ := opening cur nb u un
      (p.coh.jacobian δ nrm h.maxOpening h.oldOpening p.dt).map fun J =>
        -(p.dn3 / p.dn0 * ((cur.disp i ᵥ* (degradation p.exponent (p.damage h) p.coupleMacro • J +
          p.contact.jacobian δ nrm)) ⬝ᵥ (-1 : ℝ) • cur.disp j) * jxw)
    else some 0
  | some a, some b =>
    if p.microtraction then
      some (-(p.dn2 * cur.phi a i * degradation p.exponent (p.damage h) p.coupleMicro *
        intraDerivative p.micro p.lat cc nrm a b * cur.phi b j * jxw))
    else some 0
  | _, _ => some 0

/-- Contribution of a face quadrature point to `local_coupling_matrix(i,j)`: row of the current,
column of the neighbour cell (`assembly.cc:408-570`).  The kind of column `j` is looked up in the
current crystal for the branch and in the neighbour crystal for the slip number; the two agree
(C44). -/
noncomputable def FacePrm.couplingTerm {d e n N : ℕ} (p : FacePrm d e) (kind : Kind n N)
    (cc cn : Crystal d n) (nrm : Vec d) (jxw : ℝ) (h : Iface) (cur nb : Side d n N)
    (u un : Fin N → ℝ) (i j : Fin N) : Option ℝ :=
  match kind i, kind j with
  | none, none =>
    if p.decohesion then
      let δ := opening cur nb u un
      (p.coh.jacobian δ nrm h.maxOpening h.oldOpening p.dt).map fun J =>
        -(p.dn3 / p.dn0 * ((cur.disp i ᵥ* (degradation p.exponent (p.damage h) p.coupleMacro • J +
          p.contact.jacobian δ nrm)) ⬝ᵥ nb.disp j) * jxw)
    else some 0
  | some a, some b =>
    if p.microtraction then
      some (-(p.dn2 * cur.phi a i * degradation p.exponent (p.damage h) p.coupleMicro *
        interDerivative p.micro p.lat cc cn nrm a b * nb.phi b j * jxw))
    else some 0
  | _, _ => some 0

/-- The history record the residual reads: the stored one updated at the trial opening
(`assembly.cc:1408-1502`, damage evolution of Ortiz et al.). -/
noncomputable def FacePrm.updated {d e n N : ℕ} (p : FacePrm d e) (dmg : DamagePrm) (nrm : Vec d)
    (h : Iface) (cur nb : Side d n N) (u un : Fin N → ℝ) : Iface :=
  h.updateOrtiz dmg (effOpening p.coh (opening cur nb u un) nrm)

/-- Contribution of a face quadrature point at the boundary to `local_rhs(i)`
(`assembly.cc:1100-1141`). -/
noncomputable def neumannTerm {d n N : ℕ} (s : Side d n N) (value : Vec d) (jxw : ℝ) (i : Fin N) :
    ℝ := (s.disp i ⬝ᵥ value) * jxw

end Verif.Asm
