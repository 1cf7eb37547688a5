import Verif.Model.Polycrystal
import Verif.Model.Condense

/-!
# Assembly with reused buffers

`Model/Assembly.lean` and `Model/Face.lean` give the contributions of a quadrature point as formulas.
Here the two workers are executed statement by statement on the buffers they use: the *scratch* of
the thread, which is never cleared, and the *copy* object, of which deal.II keeps a few and reuses
them.  deal.II's `WorkStream` may give any cell to any thread and any free copy object, and calls the
copiers one at a time.

A loop over all degrees of freedom (or slip systems) that only fills a buffer is one assignment of
the whole buffer.  Buffers have the size of their constructors.  `none` is NaN.  Values read from the
finite elements, the history records and the solution are arguments: no worker writes them.
`current_cell_old_displacement_values`, `neighbor_cell_old_displacement_values` and
`face_neighbor_JxW_values` are written and never read; they are left out.
-/

namespace Verif.Ws
open Matrix Finset Verif.Cry Verif.Hist Verif.Micro Verif.Itf Verif.Asm

/-- `x += y` for numbers that may be NaN. -/
def addO (x y : Option ℝ) : Option ℝ := x.bind fun a => y.map (a + ·)

/-- `for (slip_id …) b[slip_id][q] = v[slip_id]`. -/
def setCol {α : Type} {n Q : ℕ} (b : Fin n → Fin Q → α) (q : Fin Q) (v : Fin n → α) :
    Fin n → Fin Q → α := fun a => Function.update (b a) q (v a)

/-- A grain boundary face as the cell sees it (`source/gradient_crystal_plasticity/assembly.cc:323-352,
889-913`). -/
structure FaceIn (d e n N F : ℕ) where
  own : Crystal d n
  other : Crystal d n
  nbDofs : Fin N → ℕ
  nrm : Fin F → Vec d
  jxw : Fin F → ℝ
  hist : Fin F → Iface
  cur : Fin F → Side d n N
  nb : Fin F → Side d n N

/-- A loaded face of the boundary (`assembly.cc:1099-1122`). -/
structure LoadIn (d n N F : ℕ) where
  side : Fin F → Side d n N
  value : Fin F → Vec d
  jxw : Fin F → ℝ

/-- What the workers read of a cell. The laws and flags `fprm` of the faces are members of the solver. -/
structure CellIn (d e n N Q F : ℕ) where
  prm : CellPrm d n
  fprm : FacePrm d e
  kind : Kind n N
  pts : Fin Q → Point d n N
  dofs : Fin N → ℕ
  faces : List (FaceIn d e n N F)
  loads : List (LoadIn d n N F)

/-- `get_slip_resistances()` of the history record, which was updated at the trial solution before
(`assembly.cc:1399-1402`). -/
noncomputable def CellIn.resistance {d e n N Q F : ℕ} (c : CellIn d e n N Q F) (u : ℕ → ℝ)
    (q : Fin Q) : Fin n → ℝ :=
  ((c.pts q).hist.update ((c.pts q).shape.slip (u ∘ c.dofs)) (c.pts q).old).res

/-! ## Residual -/

/-- `AssemblyData::Residual::Scratch` (`source/gradient_crystal_plasticity/assembly_data.cc:219-310`). -/
structure RScratch (d n N Q F : ℕ) where
  jxw : Fin Q → ℝ
  strain : Fin Q → Mat d
  elastic : Fin Q → Mat d
  stress : Fin Q → Mat d
  supply : Fin Q → Vec d
  slip : Fin n → Fin Q → ℝ
  old : Fin n → Fin Q → ℝ
  slipGrad : Fin n → Fin Q → Vec d
  vectorial : Fin n → Fin Q → Option (Vec d)
  resolved : Fin n → Fin Q → ℝ
  scalar : Fin n → Fin Q → ℝ
  vectorPhi : Fin N → Vec d
  symGradPhi : Fin N → Mat d
  scalarPhi : Fin n → Fin N → ℝ
  gradPhi : Fin n → Fin N → Vec d
  faceJxw : Fin F → ℝ
  normal : Fin F → Vec d
  moduli : Fin F → (Fin n → Fin n → ℝ) × (Fin n → Fin n → ℝ)
  faceSlip : Fin n → Fin F → ℝ
  nbFaceSlip : Fin n → Fin F → ℝ
  curDisp : Fin F → Vec d
  nbDisp : Fin F → Vec d
  microtraction : Fin n → Fin F → ℝ
  damage : Fin F → ℝ
  cohesive : Fin F → Option (Vec d)
  contact : Fin F → Vec d
  faceScalarPhi : Fin n → Fin N → ℝ
  faceVectorPhi : Fin N → Vec d
  neumann : Fin F → Vec d

/-- Both constructors (`assembly_data.cc:219-398`): zeros. The copy constructor copies the sizes only. -/
def RScratch.new (d n N Q F : ℕ) : RScratch d n N Q F where
  jxw := 0
  strain := 0
  elastic := 0
  stress := 0
  supply := 0
  slip := 0
  old := 0
  slipGrad := 0
  vectorial := fun _ _ => some 0
  resolved := 0
  scalar := 0
  vectorPhi := 0
  symGradPhi := 0
  scalarPhi := 0
  gradPhi := 0
  faceJxw := 0
  normal := 0
  moduli := fun _ => (0, 0)
  faceSlip := 0
  nbFaceSlip := 0
  curDisp := 0
  nbDisp := 0
  microtraction := 0
  damage := 0
  cohesive := fun _ => some 0
  contact := 0
  faceScalarPhi := 0
  faceVectorPhi := 0
  neumann := 0

/-- `AssemblyData::Residual::Copy` (`assembly_data.cc:209-216`). `local_matrix_for_inhomogeneous_bcs` is
never used. -/
structure RCopy (N : ℕ) where
  dofs : Fin N → ℕ
  rhs : Fin N → Option ℝ

section
variable {d e n N Q F : ℕ}

/-- Resets and function values of the cell (`assembly.cc:706-765`); `hasSupply`: the solver has a
supply term. -/
noncomputable def rBegin (hasSupply : Bool) (u : ℕ → ℝ) (c : CellIn d e n N Q F)
    (x : RScratch d n N Q F × RCopy N) : RScratch d n N Q F × RCopy N :=
  ({ x.1 with
      jxw := fun q => (c.pts q).shape.jxw
      strain := fun q => (c.pts q).shape.strain (u ∘ c.dofs)
      supply := if hasSupply then fun q => (c.pts q).supply else x.1.supply
      slip := fun a q => (c.pts q).shape.slip (u ∘ c.dofs) a
      old := fun a q => (c.pts q).old a
      slipGrad := fun a q => (c.pts q).shape.slipGrad (u ∘ c.dofs) a },
    ⟨c.dofs, fun _ => some 0⟩)

/-- Stresses at a quadrature point (`assembly.cc:770-808`). -/
noncomputable def rStress (u : ℕ → ℝ) (c : CellIn d e n N Q F) (q : Fin Q)
    (s : RScratch d n N Q F) : RScratch d n N Q F :=
  let s := { s with
    elastic := Function.update s.elastic q (c.prm.macroStrain +
      elasticStrain c.prm.dn0 ((List.finRange n).map fun a => (c.prm.sys a, s.slip a q))
        (s.strain q)) }
  let s := { s with
    stress := Function.update s.stress q (c.prm.elastic.stress c.prm.rot (s.elastic q)) }
  let s := { s with
    vectorial := setCol s.vectorial q fun a =>
      c.prm.vec.microstress (c.prm.sys a) (s.slipGrad a q) }
  let s := { s with
    resolved := setCol s.resolved q fun a => resolvedShear (c.prm.sys a) (s.stress q) }
  { s with
    scalar := setCol s.scalar q fun a =>
      c.prm.law.microstress (s.slip a q) (s.old a q) (c.resistance u q a) c.prm.dt }

/-- Test functions at a quadrature point (`assembly.cc:811-835`). -/
noncomputable def rShape (c : CellIn d e n N Q F) (q : Fin Q) (s : RScratch d n N Q F) :
    RScratch d n N Q F :=
  { s with
    vectorPhi := (c.pts q).shape.disp
    symGradPhi := (c.pts q).shape.symGrad
    scalarPhi := (c.pts q).shape.phi
    gradPhi := (c.pts q).shape.grad }

/-- What the cell integral adds to `local_rhs(i)` (`assembly.cc:837-881`). -/
noncomputable def rTerm (c : CellIn d e n N Q F) (q : Fin Q) (s : RScratch d n N Q F)
    (i : Fin N) : Option ℝ :=
  match c.kind i with
  | none => some (-(c.prm.dn3 / c.prm.dn0 *
      (ddot (s.symGradPhi i) (s.stress q) - s.vectorPhi i ⬝ᵥ s.supply q) * s.jxw q))
  | some a => (s.vectorial a q).map fun x =>
      -((c.prm.dn2 * (s.gradPhi a i ⬝ᵥ x) -
        s.scalarPhi a i * (c.prm.dn3 * s.resolved a q - s.scalar a q)) * s.jxw q)

/-- One pass of the loop over quadrature points (`assembly.cc:768-882`). -/
noncomputable def rPoint (u : ℕ → ℝ) (c : CellIn d e n N Q F)
    (x : RScratch d n N Q F × RCopy N) (q : Fin Q) : RScratch d n N Q F × RCopy N :=
  let s := rShape c q (rStress u c q x.1)
  (s, { x.2 with rhs := fun i => addO (x.2.rhs i) (rTerm c q s i) })

/-- Function values on a grain boundary face (`assembly.cc:915-981`). -/
noncomputable def rFaceBegin (u : ℕ → ℝ) (c : CellIn d e n N Q F) (f : FaceIn d e n N F)
    (s : RScratch d n N Q F) : RScratch d n N Q F :=
  let s := { s with faceJxw := f.jxw, normal := f.nrm }
  let s := if c.fprm.microtraction then
    { s with
      moduli := fun q => (intra c.fprm.lat f.own (s.normal q),
        inter c.fprm.lat f.own f.other (s.normal q))
      faceSlip := fun a q => (f.cur q).slip (u ∘ c.dofs) a
      nbFaceSlip := fun a q => (f.nb q).slip (u ∘ f.nbDofs) a }
    else s
  if c.fprm.decohesion then
    { s with
      curDisp := fun q => (f.cur q).displacement (u ∘ c.dofs)
      nbDisp := fun q => (f.nb q).displacement (u ∘ f.nbDofs) }
  else s

/-- Microtractions and slip test functions at a face quadrature point (`assembly.cc:987-1007`). -/
noncomputable def rMicro (c : CellIn d e n N Q F) (f : FaceIn d e n N F) (q : Fin F)
    (s : RScratch d n N Q F) : RScratch d n N Q F :=
  if c.fprm.microtraction then
    { s with
      microtraction := setCol s.microtraction q fun a =>
        (∑ b, ((s.moduli q).1 a b * s.faceSlip b q - (s.moduli q).2 a b * s.nbFaceSlip b q)) *
          (-c.fprm.micro.modulus / c.fprm.micro.char)
      faceScalarPhi := (f.cur q).phi }
  else s

/-- Damage, tractions and displacement test functions at a face quadrature point
(`assembly.cc:1009-1041`). -/
noncomputable def rMacro (c : CellIn d e n N Q F) (f : FaceIn d e n N F) (q : Fin F)
    (s : RScratch d n N Q F) : RScratch d n N Q F :=
  let s := { s with damage := Function.update s.damage q 0 }
  if c.fprm.decohesion then
    let o := s.nbDisp q - s.curDisp q
    { s with
      damage := Function.update s.damage q (f.hist q).damage
      cohesive := Function.update s.cohesive q (c.fprm.coh.traction o (s.normal q)
        (f.hist q).maxOpening (f.hist q).oldOpening c.fprm.dt)
      contact := Function.update s.contact q (c.fprm.contact.traction o (s.normal q))
      faceVectorPhi := (f.cur q).disp }
  else s

/-- What the grain boundary integral adds to `local_rhs(i)` (`assembly.cc:1044-1094`). -/
noncomputable def rFaceTerm (c : CellIn d e n N Q F) (q : Fin F) (s : RScratch d n N Q F)
    (i : Fin N) : Option ℝ :=
  match c.kind i with
  | none => if c.fprm.decohesion then
      (s.cohesive q).map fun t => c.fprm.dn3 / c.fprm.dn0 * (s.faceVectorPhi i ⬝ᵥ
        (degradation c.fprm.exponent (s.damage q) c.fprm.coupleMacro • t + s.contact q)) *
          s.faceJxw q
    else some 0
  | some a => if c.fprm.microtraction then
      some (c.fprm.dn2 * s.faceScalarPhi a i *
        degradation c.fprm.exponent (s.damage q) c.fprm.coupleMicro * s.microtraction a q *
          s.faceJxw q)
    else some 0

/-- One pass of the loop over face quadrature points (`assembly.cc:983-1095`). -/
noncomputable def rFacePoint (c : CellIn d e n N Q F) (f : FaceIn d e n N F)
    (x : RScratch d n N Q F × RCopy N) (q : Fin F) : RScratch d n N Q F × RCopy N :=
  let s := rMacro c f q (rMicro c f q x.1)
  (s, { x.2 with rhs := fun i => addO (x.2.rhs i) (rFaceTerm c q s i) })

/-- A grain boundary face (`assembly.cc:889-1096`). -/
noncomputable def rFace (u : ℕ → ℝ) (c : CellIn d e n N Q F)
    (x : RScratch d n N Q F × RCopy N) (f : FaceIn d e n N F) : RScratch d n N Q F × RCopy N :=
  (List.finRange F).foldl (rFacePoint c f) (rFaceBegin u c f x.1, x.2)

/-- One pass of the loop over the quadrature points of a loaded face (`assembly.cc:1125-1139`). -/
noncomputable def rLoadPoint (f : LoadIn d n N F) (x : RScratch d n N Q F × RCopy N) (q : Fin F) :
    RScratch d n N Q F × RCopy N :=
  let s := { x.1 with faceVectorPhi := (f.side q).disp }
  (s, { x.2 with
    rhs := fun i => addO (x.2.rhs i) (some ((s.faceVectorPhi i ⬝ᵥ s.neumann q) * s.faceJxw q)) })

/-- A loaded face (`assembly.cc:1099-1140`). -/
noncomputable def rLoad (x : RScratch d n N Q F × RCopy N) (f : LoadIn d n N F) :
    RScratch d n N Q F × RCopy N :=
  (List.finRange F).foldl (rLoadPoint f) ({ x.1 with neumann := f.value, faceJxw := f.jxw }, x.2)

/-- `assemble_local_residual` (`assembly.cc:698-1142`). -/
noncomputable def rWorker (hasSupply : Bool) (u : ℕ → ℝ) (c : CellIn d e n N Q F)
    (x : RScratch d n N Q F × RCopy N) : RScratch d n N Q F × RCopy N :=
  let x := rBegin hasSupply u c x
  let x := (List.finRange Q).foldl (rPoint u c) x
  let x := if c.fprm.decohesion || c.fprm.microtraction then c.faces.foldl (rFace u c) x else x
  c.loads.foldl rLoad x

end

/-! ## Jacobian -/

/-- `AssemblyData::Jacobian::Scratch` (`assembly_data.cc:58-128`). -/
structure JScratch (d n N Q F : ℕ) where
  tetrad : Store4 d
  schmid : Fin n → Mat d
  jxw : Fin Q → ℝ
  slip : Fin n → Fin Q → ℝ
  old : Fin n → Fin Q → ℝ
  slipGrad : Fin n → Fin Q → Vec d
  vectorialJac : Fin Q → Fin n → Option (Mat d)
  scalarJac : Fin Q → Fin n → Fin n → ℝ
  symGradPhi : Fin N → Mat d
  scalarPhi : Fin n → Fin N → ℝ
  gradPhi : Fin n → Fin N → Vec d
  faceJxw : Fin F → ℝ
  normal : Fin F → Vec d
  moduli : Fin F → (Fin n → Fin n → ℝ) × (Fin n → Fin n → ℝ)
  curDisp : Fin F → Vec d
  nbDisp : Fin F → Vec d
  damage : Fin F → ℝ
  cohesiveJac : Fin F → Option (Mat d)
  contactJac : Fin F → Mat d
  faceVectorPhi : Fin N → Vec d
  nbFaceVectorPhi : Fin N → Vec d
  intraDer : Fin F → Fin n → Fin n → ℝ
  interDer : Fin F → Fin n → Fin n → ℝ
  faceScalarPhi : Fin n → Fin N → ℝ
  nbFaceScalarPhi : Fin n → Fin N → ℝ

/-- Both constructors (`assembly_data.cc:58-205`): zeros. -/
def JScratch.new (d n N Q F : ℕ) : JScratch d n N Q F where
  tetrad := 0
  schmid := 0
  jxw := 0
  slip := 0
  old := 0
  slipGrad := 0
  vectorialJac := fun _ _ => some 0
  scalarJac := 0
  symGradPhi := 0
  scalarPhi := 0
  gradPhi := 0
  faceJxw := 0
  normal := 0
  moduli := fun _ => (0, 0)
  curDisp := 0
  nbDisp := 0
  damage := 0
  cohesiveJac := fun _ => some 0
  contactJac := 0
  faceVectorPhi := 0
  nbFaceVectorPhi := 0
  intraDer := 0
  interDer := 0
  faceScalarPhi := 0
  nbFaceScalarPhi := 0

/-- `AssemblyData::Jacobian::Copy` (`assembly_data.cc:46-55`): `nbDofs` is
`neighbour_cell_local_dof_indices`, `nbDofsAll` is `neighbour_cells_local_dof_indices`. -/
structure JCopy (N : ℕ) where
  dofs : Fin N → ℕ
  nbDofs : Fin N → ℕ
  mat : Fin N → Fin N → Option ℝ
  coupling : Fin N → Fin N → Option ℝ
  nbDofsAll : List (Fin N → ℕ)
  couplings : List (Fin N → Fin N → Option ℝ)
  atGrainBoundary : Bool

section
variable {d e n N Q F : ℕ}

/-- Resets and function values of the cell (`assembly.cc:105-157`). `local_coupling_matrix` and
`neighbour_cell_local_dof_indices` are not reset here. -/
noncomputable def jBegin (u : ℕ → ℝ) (c : CellIn d e n N Q F)
    (x : JScratch d n N Q F × JCopy N) : JScratch d n N Q F × JCopy N :=
  ({ x.1 with
      tetrad := c.prm.tetrad
      schmid := fun a => (c.prm.sys a).symSchmid
      jxw := fun q => (c.pts q).shape.jxw
      slip := fun a q => (c.pts q).shape.slip (u ∘ c.dofs) a
      old := fun a q => (c.pts q).old a
      slipGrad := fun a q => (c.pts q).shape.slipGrad (u ∘ c.dofs) a },
    { x.2 with
      dofs := c.dofs
      mat := fun _ _ => some 0
      atGrainBoundary := false
      nbDofsAll := []
      couplings := [] })

/-- Derivatives and test functions at a quadrature point (`assembly.cc:162-197`). -/
noncomputable def jFill (u : ℕ → ℝ) (c : CellIn d e n N Q F) (q : Fin Q)
    (s : JScratch d n N Q F) : JScratch d n N Q F :=
  { s with
    scalarJac := Function.update s.scalarJac q (c.prm.law.jacobian (fun a => s.slip a q)
      (fun a => s.old a q) (c.resistance u q) c.prm.dt)
    symGradPhi := (c.pts q).shape.symGrad
    vectorialJac := Function.update s.vectorialJac q fun a =>
      c.prm.vec.jacobian (c.prm.sys a) (s.slipGrad a q)
    scalarPhi := (c.pts q).shape.phi
    gradPhi := (c.pts q).shape.grad }

/-- What the cell integral adds to `local_matrix(i,j)` (`assembly.cc:199-311`). For two slip degrees of
freedom there are two statements, the first for equal slip systems only. -/
noncomputable def jTerm (c : CellIn d e n N Q F) (q : Fin Q) (s : JScratch d n N Q F)
    (i j : Fin N) : Option ℝ :=
  match c.kind i, c.kind j with
  | none, none => some (c.prm.dn3 / c.prm.dn0 *
      sandwich (s.symGradPhi i) s.tetrad (s.symGradPhi j) * s.jxw q)
  | none, some b => some (-(c.prm.dn3 / c.prm.dn0 * c.prm.dn0 *
      sandwich (s.symGradPhi i) s.tetrad (s.schmid b) * s.scalarPhi b j * s.jxw q))
  | some a, none => some (-(c.prm.dn3 * s.scalarPhi a i *
      sandwich (s.schmid a) s.tetrad (s.symGradPhi j) * s.jxw q))
  | some a, some b =>
    addO
      (if a = b then (s.vectorialJac q a).map fun J =>
        c.prm.dn2 * ((s.gradPhi a i ᵥ* J) ⬝ᵥ s.gradPhi b j) * s.jxw q
       else some 0)
      (some (-(s.scalarPhi a i *
        (-1 * c.prm.dn0 * c.prm.dn3 * sandwich (s.schmid a) s.tetrad (s.schmid b) -
          s.scalarJac q a b) * s.scalarPhi b j * s.jxw q)))

/-- One pass of the loop over quadrature points (`assembly.cc:160-313`). -/
noncomputable def jPoint (u : ℕ → ℝ) (c : CellIn d e n N Q F)
    (x : JScratch d n N Q F × JCopy N) (q : Fin Q) : JScratch d n N Q F × JCopy N :=
  let s := jFill u c q x.1
  (s, { x.2 with mat := fun i j => addO (x.2.mat i j) (jTerm c q s i j) })

/-- Resets and function values on a grain boundary face (`assembly.cc:328-406`). -/
noncomputable def jFaceBegin (u : ℕ → ℝ) (c : CellIn d e n N Q F) (f : FaceIn d e n N F)
    (x : JScratch d n N Q F × JCopy N) : JScratch d n N Q F × JCopy N :=
  let s := { x.1 with faceJxw := f.jxw, normal := f.nrm }
  let s := if c.fprm.microtraction then
    { s with moduli := fun q => (intra c.fprm.lat f.own (s.normal q),
        inter c.fprm.lat f.own f.other (s.normal q)) }
    else s
  let s := if c.fprm.decohesion then
    { s with
      curDisp := fun q => (f.cur q).displacement (u ∘ c.dofs)
      nbDisp := fun q => (f.nb q).displacement (u ∘ f.nbDofs) }
    else s
  (s, { x.2 with coupling := fun _ _ => some 0, nbDofs := f.nbDofs })

/-- Derivatives and test functions at a face quadrature point (`assembly.cc:413-482`). -/
noncomputable def jFaceFill (c : CellIn d e n N Q F) (f : FaceIn d e n N F) (q : Fin F)
    (s : JScratch d n N Q F) : JScratch d n N Q F :=
  let s := { s with damage := Function.update s.damage q 0 }
  let s := if c.fprm.decohesion then
    let o := s.nbDisp q - s.curDisp q
    { s with
      damage := Function.update s.damage q (f.hist q).damage
      cohesiveJac := Function.update s.cohesiveJac q (c.fprm.coh.jacobian o (s.normal q)
        (f.hist q).maxOpening (f.hist q).oldOpening c.fprm.dt)
      contactJac := Function.update s.contactJac q (c.fprm.contact.jacobian o (s.normal q))
      faceVectorPhi := (f.cur q).disp
      nbFaceVectorPhi := (f.nb q).disp }
    else s
  if c.fprm.microtraction then
    { s with
      intraDer := Function.update s.intraDer q fun a b =>
        (s.moduli q).1 a b * (-c.fprm.micro.modulus / c.fprm.micro.char)
      interDer := Function.update s.interDer q fun a b =>
        (s.moduli q).2 a b * (c.fprm.micro.modulus / c.fprm.micro.char)
      faceScalarPhi := (f.cur q).phi
      nbFaceScalarPhi := (f.nb q).phi }
  else s

/-- What a face quadrature point adds to `local_matrix(i,j)` (`assembly.cc:484-566`). -/
noncomputable def jFaceTerm (c : CellIn d e n N Q F) (q : Fin F) (s : JScratch d n N Q F)
    (i j : Fin N) : Option ℝ :=
  match c.kind i, c.kind j with
  | none, none => if c.fprm.decohesion then
      (s.cohesiveJac q).map fun J => -(c.fprm.dn3 / c.fprm.dn0 * ((s.faceVectorPhi i ᵥ*
        (degradation c.fprm.exponent (s.damage q) c.fprm.coupleMacro • J + s.contactJac q)) ⬝ᵥ
          (-1 : ℝ) • s.faceVectorPhi j) * s.faceJxw q)
    else some 0
  | some a, some b => if c.fprm.microtraction then
      some (-(c.fprm.dn2 * s.faceScalarPhi a i *
        degradation c.fprm.exponent (s.damage q) c.fprm.coupleMicro * s.intraDer q a b *
          s.faceScalarPhi b j * s.faceJxw q))
    else some 0
  | _, _ => some 0

/-- What a face quadrature point adds to `local_coupling_matrix(i,j)` (`assembly.cc:484-566`); the slip
system of column `j` is the same in both crystals (C44). -/
noncomputable def jCouplingTerm (c : CellIn d e n N Q F) (q : Fin F) (s : JScratch d n N Q F)
    (i j : Fin N) : Option ℝ :=
  match c.kind i, c.kind j with
  | none, none => if c.fprm.decohesion then
      (s.cohesiveJac q).map fun J => -(c.fprm.dn3 / c.fprm.dn0 * ((s.faceVectorPhi i ᵥ*
        (degradation c.fprm.exponent (s.damage q) c.fprm.coupleMacro • J + s.contactJac q)) ⬝ᵥ
          s.nbFaceVectorPhi j) * s.faceJxw q)
    else some 0
  | some a, some b => if c.fprm.microtraction then
      some (-(c.fprm.dn2 * s.faceScalarPhi a i *
        degradation c.fprm.exponent (s.damage q) c.fprm.coupleMicro * s.interDer q a b *
          s.nbFaceScalarPhi b j * s.faceJxw q))
    else some 0
  | _, _ => some 0

/-- One pass of the loop over face quadrature points (`assembly.cc:409-567`). -/
noncomputable def jFacePoint (c : CellIn d e n N Q F) (f : FaceIn d e n N F)
    (x : JScratch d n N Q F × JCopy N) (q : Fin F) : JScratch d n N Q F × JCopy N :=
  let s := jFaceFill c f q x.1
  (s, { x.2 with
    mat := fun i j => addO (x.2.mat i j) (jFaceTerm c q s i j)
    coupling := fun i j => addO (x.2.coupling i j) (jCouplingTerm c q s i j) })

/-- A grain boundary face (`assembly.cc:323-573`). -/
noncomputable def jFace (u : ℕ → ℝ) (c : CellIn d e n N Q F)
    (x : JScratch d n N Q F × JCopy N) (f : FaceIn d e n N F) : JScratch d n N Q F × JCopy N :=
  let x := (List.finRange F).foldl (jFacePoint c f) (jFaceBegin u c f x)
  (x.1, { x.2 with
    nbDofsAll := x.2.nbDofsAll ++ [x.2.nbDofs]
    couplings := x.2.couplings ++ [x.2.coupling] })

/-- `assemble_local_jacobian` (`assembly.cc:98-575`). A cell is marked as being at a grain boundary iff
it has a grain boundary face (`Model/Condense.lean`). -/
noncomputable def jWorker (u : ℕ → ℝ) (c : CellIn d e n N Q F)
    (x : JScratch d n N Q F × JCopy N) : JScratch d n N Q F × JCopy N :=
  let x := jBegin u c x
  let x := (List.finRange Q).foldl (jPoint u c) x
  if !c.faces.isEmpty && (c.fprm.decohesion || c.fprm.microtraction) then
    c.faces.foldl (jFace u c) (x.1, { x.2 with atGrainBoundary := true })
  else x

end

/-! ## WorkStream -/

/-- What `WorkStream` does: thread `t` runs the worker on a cell with copy object `k`, or the copier is
run with copy object `k`. -/
inductive Event (C : Type) where
  | work (t k : ℕ) (c : C)
  | copy (k : ℕ)

/-- State of a parallel loop: scratch of each thread, copy objects, global object the copier adds to. -/
structure Loop (S D G : Type) where
  scratch : ℕ → S
  slots : ℕ → D
  total : G

/-- One event. Workers of different threads that run at the same time touch different objects, so that
their statements may be reordered. -/
def Loop.step {C S D G : Type} (worker : C → S × D → S × D) (copier : G → D → G) (l : Loop S D G) :
    Event C → Loop S D G
  | .work t k c =>
    let x := worker c (l.scratch t, l.slots k)
    { l with scratch := Function.update l.scratch t x.1, slots := Function.update l.slots k x.2 }
  | .copy k => { l with total := copier l.total (l.slots k) }

/-- A global vector, and what `distribute_local_to_global` of deal.II adds to row `r` for local values:
only rows with a nonzero weight are touched. -/
noncomputable def addRows {N : ℕ} (K : Sol.Constraints ℕ) (dofs : Fin N → ℕ) (v : Fin N → Option ℝ)
    (r : ℕ) : Option ℝ :=
  open Classical in
  sumOpt fun i => if weight K (dofs i) r = 0 then some 0 else (v i).map (weight K (dofs i) r * ·)

/-- The same for a matrix. -/
noncomputable def addEntries {N : ℕ} (K : Sol.Constraints ℕ) (rows cols : Fin N → ℕ)
    (m : Fin N → Fin N → Option ℝ) (r c : ℕ) : Option ℝ :=
  open Classical in
  sumOpt fun i => sumOpt fun j => if weight K (rows i) r * weight K (cols j) c = 0 then some 0
    else (m i j).map fun x => weight K (rows i) r * x * weight K (cols j) c

/-- `copy_local_to_global_residual` (`assembly.cc:1147-1162`). -/
noncomputable def rCopier {N : ℕ} (K : Sol.Constraints ℕ) (R : ℕ → Option ℝ) (x : RCopy N) :
    ℕ → Option ℝ := fun r => addO (R r) (addRows K x.dofs x.rhs r)

/-- `copy_local_to_global_jacobian` (`assembly.cc:580-617`): the outer `none` is the exception of the
two assertions. `diag` is what deal.II puts on the diagonal of constrained degrees of freedom. -/
noncomputable def jCopier {N : ℕ} (K : Sol.Constraints ℕ)
    (diag : (Fin N → Fin N → Option ℝ) → Fin N → Option ℝ)
    (J : Option (ℕ → ℕ → Option ℝ)) (x : JCopy N) : Option (ℕ → ℕ → Option ℝ) :=
  open Classical in
  J.bind fun J =>
    if x.atGrainBoundary ∧ (x.couplings.length ≠ x.nbDofsAll.length ∨ x.couplings.length = 0) then none
    else some fun r c =>
      let y := addO (J r c) (addEntries K x.dofs x.dofs x.mat r c)
      let y := addO y (sumOpt fun i =>
        if x.dofs i = r ∧ r = c ∧ K r ≠ none then diag x.mat i else some 0)
      if x.atGrainBoundary then
        (x.couplings.zip x.nbDofsAll).foldl (fun y b => addO y (addEntries K x.dofs b.2 b.1 r c)) y
      else y

end Verif.Ws
