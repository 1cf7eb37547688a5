import Verif.Model.Workstream

/-!
# Parallel loops in an arbitrary arithmetic

`Model/Workstream.lean` executes the workers of the residual and the Jacobian with real numbers.  Sums
of doubles depend on the order of the summands, so that for the *bits* of a result only the statements
and their order count, not the laws of arithmetic.  Here all six workers that fill vectors and matrices
are executed statement by statement with uninterpreted operations: scalars `α`, vectors `V`, second-order
tensors `M`, fourth-order tensors `T` and grain interaction moduli `I` are arbitrary types, every
right-hand side is an arbitrary function of the buffer entries it reads.  With doubles this is what the
machine does.  `x += e` is an arbitrary function of `x` and the entries that `e` reads.

Values read from finite elements, history records and solution vectors are fields of the cell; no worker
writes them.  Loops that only fill a buffer are one assignment of the whole buffer.
-/

namespace Verif.Ws.Bits
open Verif.Ws

/-- A grain boundary face as a cell sees it
(`source/gradient_crystal_plasticity/assembly.cc:323-352, 889-981`): values, and the functions of the
laws at its quadrature points. -/
structure Face (α V M I : Type) (n N F : ℕ) where
  nbDofs : Fin N → ℕ
  jxw : Fin F → α
  normal : Fin F → V
  slip : Fin n → Fin F → α
  nbSlip : Fin n → Fin F → α
  disp : Fin F → V
  nbDisp : Fin F → V
  damage : Fin F → α
  phi : Fin F → Fin n → Fin N → α
  nbPhi : Fin F → Fin n → Fin N → α
  vec : Fin F → Fin N → V
  nbVec : Fin F → Fin N → V
  moduli : V → I
  microtraction : Fin n → I → (Fin n → α) → (Fin n → α) → α
  intraDer : I → Fin n → Fin n → α
  interDer : I → Fin n → Fin n → α
  cohesive : Fin F → V → V → V
  contact : V → V → V
  cohesiveJac : Fin F → V → V → M
  contactJac : V → V → M
  opening : V → V → V

/-- A face at the boundary of the domain (`assembly.cc:1099-1122, 2484-2512`). -/
structure Outer (α V : Type) (n N F : ℕ) where
  jxw : Fin F → α
  normal : Fin F → V
  value : Fin F → V
  vec : Fin F → Fin N → V
  slipGrad : Fin n → Fin F → V
  phi : Fin F → Fin n → Fin N → α

/-- What the workers read of a cell, the laws, and what the accumulating statements compute. -/
structure Cell (α V M T I : Type) (n N Q F : ℕ) where
  dofs : Fin N → ℕ
  kind : Fin N → Option (Fin n)
  /-- Flags of the solver: decohesion, microtraction boundary condition. -/
  decohesion : Bool
  microtractions : Bool
  zero : α
  jxw : Fin Q → α
  strain : Fin Q → M
  supply : Fin Q → V
  slip : Fin n → Fin Q → α
  old : Fin n → Fin Q → α
  slipGrad : Fin n → Fin Q → V
  oldGrad : Fin n → Fin Q → V
  resistance : Fin Q → Fin n → α
  vec : Fin Q → Fin N → V
  symGrad : Fin Q → Fin N → M
  phi : Fin Q → Fin n → Fin N → α
  grad : Fin Q → Fin n → Fin N → V
  tetrad : T
  schmid : Fin n → M
  faces : List (Face α V M I n N F)
  loads : List (Outer α V n N F)
  outer : List (Outer α V n N F)
  elastic : M → (Fin n → α) → M
  hooke : M → M
  vectorial : Fin n → V → V
  resolved : Fin n → M → α
  microstress : α → α → α → α
  vectorialJac : Fin n → V → M
  scalarJac : (Fin n → α) → (Fin n → α) → (Fin n → α) → Fin n → Fin n → α
  addDisp : α → M → M → V → V → α → α
  addSlip : α → V → V → α → α → α → α → α
  addCohesive : α → V → α → V → V → α → α
  addMicro : α → α → α → α → α → α
  addLoad : α → V → V → α → α
  addUU : α → M → T → M → α → α
  addUS : α → M → T → M → α → α → α
  addSU : α → α → M → T → M → α → α
  addGrad : α → V → M → V → α → α
  addSS : α → α → M → T → M → α → α → α → α
  addFaceUU : α → V → α → M → M → V → α → α
  addCoupleUU : α → V → α → M → M → V → α → α
  addFaceSS : α → α → α → α → α → α → α
  addCoupleSS : α → α → α → α → α → α → α
  addTrial : α → V → V → α → α → α → α
  addTrialFace : α → α → V → V → α → α
  addMass : α → α → α → α → α

section
variable {α V M T I : Type} {n N Q F : ℕ}

/-! ## Residual -/

/-- `AssemblyData::Residual::Scratch` (`source/gradient_crystal_plasticity/assembly_data.cc:219-310`). -/
structure RScratch (α V M I : Type) (n N Q F : ℕ) where
  jxw : Fin Q → α
  strain : Fin Q → M
  elastic : Fin Q → M
  stress : Fin Q → M
  supply : Fin Q → V
  slip : Fin n → Fin Q → α
  old : Fin n → Fin Q → α
  slipGrad : Fin n → Fin Q → V
  vectorial : Fin n → Fin Q → V
  resolved : Fin n → Fin Q → α
  scalar : Fin n → Fin Q → α
  vectorPhi : Fin N → V
  symGradPhi : Fin N → M
  scalarPhi : Fin n → Fin N → α
  gradPhi : Fin n → Fin N → V
  faceJxw : Fin F → α
  normal : Fin F → V
  moduli : Fin F → I
  faceSlip : Fin n → Fin F → α
  nbFaceSlip : Fin n → Fin F → α
  curDisp : Fin F → V
  nbDisp : Fin F → V
  microtraction : Fin n → Fin F → α
  damage : Fin F → α
  cohesive : Fin F → V
  contact : Fin F → V
  faceScalarPhi : Fin n → Fin N → α
  faceVectorPhi : Fin N → V
  neumann : Fin F → V

/-- `AssemblyData::Residual::Copy` (`assembly_data.cc:209-216`), and those of the other vectors
(`assembly_data.cc:620-625, 782-788, 834-840`): indices, local vector, and the flag of the projections. -/
structure VCopy (α : Type) (N : ℕ) where
  dofs : Fin N → ℕ
  rhs : Fin N → α
  atGrainBoundary : Bool

/-- Resets and function values of the cell (`assembly.cc:706-765`); `hasSupply`: the solver has a supply
term. -/
def rBegin (hasSupply : Bool) (c : Cell α V M T I n N Q F) (x : RScratch α V M I n N Q F × VCopy α N) :
    RScratch α V M I n N Q F × VCopy α N :=
  ({ x.1 with
      jxw := c.jxw
      strain := c.strain
      supply := if hasSupply then c.supply else x.1.supply
      slip := c.slip
      old := c.old
      slipGrad := c.slipGrad },
    { x.2 with dofs := c.dofs, rhs := fun _ => c.zero })

/-- Stresses and test functions at a quadrature point (`assembly.cc:770-835`). -/
def rFill (c : Cell α V M T I n N Q F) (q : Fin Q) (s : RScratch α V M I n N Q F) :
    RScratch α V M I n N Q F :=
  let s := { s with elastic := Function.update s.elastic q (c.elastic (s.strain q) fun a => s.slip a q) }
  let s := { s with stress := Function.update s.stress q (c.hooke (s.elastic q)) }
  let s := { s with vectorial := setCol s.vectorial q fun a => c.vectorial a (s.slipGrad a q) }
  let s := { s with resolved := setCol s.resolved q fun a => c.resolved a (s.stress q) }
  let s := { s with
    scalar := setCol s.scalar q fun a => c.microstress (s.slip a q) (s.old a q) (c.resistance q a) }
  { s with vectorPhi := c.vec q, symGradPhi := c.symGrad q, scalarPhi := c.phi q, gradPhi := c.grad q }

/-- `local_rhs(i) += …` of the cell integral (`assembly.cc:837-881`). -/
def rAdd (c : Cell α V M T I n N Q F) (q : Fin Q) (s : RScratch α V M I n N Q F) (i : Fin N) (x : α) : α :=
  match c.kind i with
  | none => c.addDisp x (s.symGradPhi i) (s.stress q) (s.vectorPhi i) (s.supply q) (s.jxw q)
  | some a => c.addSlip x (s.gradPhi a i) (s.vectorial a q) (s.scalarPhi a i) (s.resolved a q)
      (s.scalar a q) (s.jxw q)

/-- One pass of the loop over quadrature points (`assembly.cc:768-882`). -/
def rPoint (c : Cell α V M T I n N Q F) (x : RScratch α V M I n N Q F × VCopy α N) (q : Fin Q) :
    RScratch α V M I n N Q F × VCopy α N :=
  let s := rFill c q x.1
  (s, { x.2 with rhs := fun i => rAdd c q s i (x.2.rhs i) })

/-- Function values on a grain boundary face (`assembly.cc:915-981`). -/
def rFaceBegin (c : Cell α V M T I n N Q F) (f : Face α V M I n N F) (s : RScratch α V M I n N Q F) :
    RScratch α V M I n N Q F :=
  let s := { s with faceJxw := f.jxw, normal := f.normal }
  let s := if c.microtractions then
    { s with moduli := fun q => f.moduli (s.normal q), faceSlip := f.slip, nbFaceSlip := f.nbSlip }
    else s
  if c.decohesion then { s with curDisp := f.disp, nbDisp := f.nbDisp } else s

/-- Microtractions, damage, tractions and test functions at a face quadrature point
(`assembly.cc:987-1041`). -/
def rFaceFill (c : Cell α V M T I n N Q F) (f : Face α V M I n N F) (q : Fin F)
    (s : RScratch α V M I n N Q F) : RScratch α V M I n N Q F :=
  let s := if c.microtractions then
    { s with
      microtraction := setCol s.microtraction q fun a =>
        f.microtraction a (s.moduli q) (fun b => s.faceSlip b q) fun b => s.nbFaceSlip b q
      faceScalarPhi := f.phi q }
    else s
  let s := { s with damage := Function.update s.damage q c.zero }
  if c.decohesion then
    let o := f.opening (s.nbDisp q) (s.curDisp q)
    { s with
      damage := Function.update s.damage q (f.damage q)
      cohesive := Function.update s.cohesive q (f.cohesive q o (s.normal q))
      contact := Function.update s.contact q (f.contact o (s.normal q))
      faceVectorPhi := f.vec q }
  else s

/-- `local_rhs(i) += …` of the grain boundary integral (`assembly.cc:1044-1094`). -/
def rFaceAdd (c : Cell α V M T I n N Q F) (q : Fin F) (s : RScratch α V M I n N Q F) (i : Fin N)
    (x : α) : α :=
  match c.kind i with
  | none => if c.decohesion then
      c.addCohesive x (s.faceVectorPhi i) (s.damage q) (s.cohesive q) (s.contact q) (s.faceJxw q)
    else x
  | some a => if c.microtractions then
      c.addMicro x (s.faceScalarPhi a i) (s.damage q) (s.microtraction a q) (s.faceJxw q)
    else x

/-- One pass of the loop over face quadrature points (`assembly.cc:983-1095`). -/
def rFacePoint (c : Cell α V M T I n N Q F) (f : Face α V M I n N F)
    (x : RScratch α V M I n N Q F × VCopy α N) (q : Fin F) : RScratch α V M I n N Q F × VCopy α N :=
  let s := rFaceFill c f q x.1
  (s, { x.2 with rhs := fun i => rFaceAdd c q s i (x.2.rhs i) })

/-- A grain boundary face (`assembly.cc:889-1096`). -/
def rFace (c : Cell α V M T I n N Q F) (x : RScratch α V M I n N Q F × VCopy α N)
    (f : Face α V M I n N F) : RScratch α V M I n N Q F × VCopy α N :=
  (List.finRange F).foldl (rFacePoint c f) (rFaceBegin c f x.1, x.2)

/-- One pass of the loop over the quadrature points of a loaded face (`assembly.cc:1125-1139`). -/
def rLoadPoint (c : Cell α V M T I n N Q F) (f : Outer α V n N F)
    (x : RScratch α V M I n N Q F × VCopy α N) (q : Fin F) : RScratch α V M I n N Q F × VCopy α N :=
  let s := { x.1 with faceVectorPhi := f.vec q }
  (s, { x.2 with
    rhs := fun i => c.addLoad (x.2.rhs i) (s.faceVectorPhi i) (s.neumann q) (s.faceJxw q) })

/-- A loaded face (`assembly.cc:1099-1140`). -/
def rLoad (c : Cell α V M T I n N Q F) (x : RScratch α V M I n N Q F × VCopy α N)
    (f : Outer α V n N F) : RScratch α V M I n N Q F × VCopy α N :=
  (List.finRange F).foldl (rLoadPoint c f) ({ x.1 with neumann := f.value, faceJxw := f.jxw }, x.2)

/-- `assemble_local_residual` (`assembly.cc:698-1142`). -/
def rWorker (hasSupply : Bool) (c : Cell α V M T I n N Q F) (x : RScratch α V M I n N Q F × VCopy α N) :
    RScratch α V M I n N Q F × VCopy α N :=
  let x := rBegin hasSupply c x
  let x := (List.finRange Q).foldl (rPoint c) x
  let x := if c.decohesion || c.microtractions then c.faces.foldl (rFace c) x else x
  c.loads.foldl (rLoad c) x

/-! ## Jacobian -/

/-- `AssemblyData::Jacobian::Scratch` (`assembly_data.cc:58-128`). -/
structure JScratch (α V M T I : Type) (n N Q F : ℕ) where
  tetrad : T
  schmid : Fin n → M
  jxw : Fin Q → α
  slip : Fin n → Fin Q → α
  old : Fin n → Fin Q → α
  slipGrad : Fin n → Fin Q → V
  vectorialJac : Fin Q → Fin n → M
  scalarJac : Fin Q → Fin n → Fin n → α
  symGradPhi : Fin N → M
  scalarPhi : Fin n → Fin N → α
  gradPhi : Fin n → Fin N → V
  faceJxw : Fin F → α
  normal : Fin F → V
  moduli : Fin F → I
  curDisp : Fin F → V
  nbDisp : Fin F → V
  damage : Fin F → α
  cohesiveJac : Fin F → M
  contactJac : Fin F → M
  faceVectorPhi : Fin N → V
  nbFaceVectorPhi : Fin N → V
  intraDer : Fin F → Fin n → Fin n → α
  interDer : Fin F → Fin n → Fin n → α
  faceScalarPhi : Fin n → Fin N → α
  nbFaceScalarPhi : Fin n → Fin N → α

/-- `AssemblyData::Jacobian::Copy` (`assembly_data.cc:46-55`). -/
structure JCopy (α : Type) (N : ℕ) where
  dofs : Fin N → ℕ
  nbDofs : Fin N → ℕ
  mat : Fin N → Fin N → α
  coupling : Fin N → Fin N → α
  nbDofsAll : List (Fin N → ℕ)
  couplings : List (Fin N → Fin N → α)
  atGrainBoundary : Bool

/-- Resets and function values of the cell (`assembly.cc:105-157`). -/
def jBegin (c : Cell α V M T I n N Q F) (x : JScratch α V M T I n N Q F × JCopy α N) :
    JScratch α V M T I n N Q F × JCopy α N :=
  ({ x.1 with
      tetrad := c.tetrad
      schmid := c.schmid
      jxw := c.jxw
      slip := c.slip
      old := c.old
      slipGrad := c.slipGrad },
    { x.2 with
      dofs := c.dofs
      mat := fun _ _ => c.zero
      atGrainBoundary := false
      nbDofsAll := []
      couplings := [] })

/-- Derivatives and test functions at a quadrature point (`assembly.cc:162-197`). -/
def jFill (c : Cell α V M T I n N Q F) (q : Fin Q) (s : JScratch α V M T I n N Q F) :
    JScratch α V M T I n N Q F :=
  { s with
    scalarJac := Function.update s.scalarJac q
      (c.scalarJac (fun a => s.slip a q) (fun a => s.old a q) (c.resistance q))
    symGradPhi := c.symGrad q
    vectorialJac := Function.update s.vectorialJac q fun a => c.vectorialJac a (s.slipGrad a q)
    scalarPhi := c.phi q
    gradPhi := c.grad q }

/-- `local_matrix(i,j) += …` of the cell integral (`assembly.cc:199-311`). -/
def jAdd (c : Cell α V M T I n N Q F) (q : Fin Q) (s : JScratch α V M T I n N Q F) (i j : Fin N)
    (x : α) : α :=
  match c.kind i, c.kind j with
  | none, none => c.addUU x (s.symGradPhi i) s.tetrad (s.symGradPhi j) (s.jxw q)
  | none, some b => c.addUS x (s.symGradPhi i) s.tetrad (s.schmid b) (s.scalarPhi b j) (s.jxw q)
  | some a, none => c.addSU x (s.scalarPhi a i) (s.schmid a) s.tetrad (s.symGradPhi j) (s.jxw q)
  | some a, some b =>
    let x := if a = b then
      c.addGrad x (s.gradPhi a i) (s.vectorialJac q a) (s.gradPhi b j) (s.jxw q) else x
    c.addSS x (s.scalarPhi a i) (s.schmid a) s.tetrad (s.schmid b) (s.scalarJac q a b) (s.scalarPhi b j)
      (s.jxw q)

/-- One pass of the loop over quadrature points (`assembly.cc:160-313`). -/
def jPoint (c : Cell α V M T I n N Q F) (x : JScratch α V M T I n N Q F × JCopy α N) (q : Fin Q) :
    JScratch α V M T I n N Q F × JCopy α N :=
  let s := jFill c q x.1
  (s, { x.2 with mat := fun i j => jAdd c q s i j (x.2.mat i j) })

/-- Resets and function values on a grain boundary face (`assembly.cc:328-406`). -/
def jFaceBegin (c : Cell α V M T I n N Q F) (f : Face α V M I n N F)
    (x : JScratch α V M T I n N Q F × JCopy α N) : JScratch α V M T I n N Q F × JCopy α N :=
  let s := { x.1 with faceJxw := f.jxw, normal := f.normal }
  let s := if c.microtractions then { s with moduli := fun q => f.moduli (s.normal q) } else s
  let s := if c.decohesion then { s with curDisp := f.disp, nbDisp := f.nbDisp } else s
  (s, { x.2 with coupling := fun _ _ => c.zero, nbDofs := f.nbDofs })

/-- Derivatives and test functions at a face quadrature point (`assembly.cc:413-482`). -/
def jFaceFill (c : Cell α V M T I n N Q F) (f : Face α V M I n N F) (q : Fin F)
    (s : JScratch α V M T I n N Q F) : JScratch α V M T I n N Q F :=
  let s := { s with damage := Function.update s.damage q c.zero }
  let s := if c.decohesion then
    let o := f.opening (s.nbDisp q) (s.curDisp q)
    { s with
      damage := Function.update s.damage q (f.damage q)
      cohesiveJac := Function.update s.cohesiveJac q (f.cohesiveJac q o (s.normal q))
      contactJac := Function.update s.contactJac q (f.contactJac o (s.normal q))
      faceVectorPhi := f.vec q
      nbFaceVectorPhi := f.nbVec q }
    else s
  if c.microtractions then
    { s with
      intraDer := Function.update s.intraDer q (f.intraDer (s.moduli q))
      interDer := Function.update s.interDer q (f.interDer (s.moduli q))
      faceScalarPhi := f.phi q
      nbFaceScalarPhi := f.nbPhi q }
  else s

/-- `local_matrix(i,j) += …` of the grain boundary integral (`assembly.cc:484-566`). -/
def jFaceAdd (c : Cell α V M T I n N Q F) (q : Fin F) (s : JScratch α V M T I n N Q F) (i j : Fin N)
    (x : α) : α :=
  match c.kind i, c.kind j with
  | none, none => if c.decohesion then
      c.addFaceUU x (s.faceVectorPhi i) (s.damage q) (s.cohesiveJac q) (s.contactJac q)
        (s.faceVectorPhi j) (s.faceJxw q)
    else x
  | some a, some b => if c.microtractions then
      c.addFaceSS x (s.faceScalarPhi a i) (s.damage q) (s.intraDer q a b) (s.faceScalarPhi b j)
        (s.faceJxw q)
    else x
  | _, _ => x

/-- `local_coupling_matrix(i,j) += …` (`assembly.cc:484-566`). -/
def jCoupleAdd (c : Cell α V M T I n N Q F) (q : Fin F) (s : JScratch α V M T I n N Q F) (i j : Fin N)
    (x : α) : α :=
  match c.kind i, c.kind j with
  | none, none => if c.decohesion then
      c.addCoupleUU x (s.faceVectorPhi i) (s.damage q) (s.cohesiveJac q) (s.contactJac q)
        (s.nbFaceVectorPhi j) (s.faceJxw q)
    else x
  | some a, some b => if c.microtractions then
      c.addCoupleSS x (s.faceScalarPhi a i) (s.damage q) (s.interDer q a b) (s.nbFaceScalarPhi b j)
        (s.faceJxw q)
    else x
  | _, _ => x

/-- One pass of the loop over face quadrature points (`assembly.cc:409-567`). -/
def jFacePoint (c : Cell α V M T I n N Q F) (f : Face α V M I n N F)
    (x : JScratch α V M T I n N Q F × JCopy α N) (q : Fin F) : JScratch α V M T I n N Q F × JCopy α N :=
  let s := jFaceFill c f q x.1
  (s, { x.2 with
    mat := fun i j => jFaceAdd c q s i j (x.2.mat i j)
    coupling := fun i j => jCoupleAdd c q s i j (x.2.coupling i j) })

/-- A grain boundary face (`assembly.cc:323-573`). -/
def jFace (c : Cell α V M T I n N Q F) (x : JScratch α V M T I n N Q F × JCopy α N)
    (f : Face α V M I n N F) : JScratch α V M T I n N Q F × JCopy α N :=
  let x := (List.finRange F).foldl (jFacePoint c f) (jFaceBegin c f x)
  (x.1, { x.2 with
    nbDofsAll := x.2.nbDofsAll ++ [x.2.nbDofs]
    couplings := x.2.couplings ++ [x.2.coupling] })

/-- `assemble_local_jacobian` (`assembly.cc:98-575`). -/
def jWorker (c : Cell α V M T I n N Q F) (x : JScratch α V M T I n N Q F × JCopy α N) :
    JScratch α V M T I n N Q F × JCopy α N :=
  let x := jBegin c x
  let x := (List.finRange Q).foldl (jPoint c) x
  if !c.faces.isEmpty && (c.decohesion || c.microtractions) then
    c.faces.foldl (jFace c) (x.1, { x.2 with atGrainBoundary := true })
  else x

/-! ## Trial microstress -/

/-- `AssemblyData::TrialMicrostress::RightHandSide::Scratch` (`assembly_data.cc:627-693`). -/
structure TScratch (α V M : Type) (n N Q F : ℕ) where
  jxw : Fin Q → α
  strain : Fin Q → M
  slip : Fin n → Fin Q → α
  slipGrad : Fin n → Fin Q → V
  elastic : Fin Q → M
  stress : Fin Q → M
  vectorial : Fin n → Fin Q → V
  resolved : Fin n → Fin Q → α
  phi : Fin n → Fin N → α
  gradPhi : Fin n → Fin N → V
  faceJxw : Fin F → α
  normal : Fin F → V
  faceSlipGrad : Fin n → Fin F → V
  faceVectorial : Fin n → Fin F → V
  facePhi : Fin n → Fin N → α

/-- Resets and function values of the cell (`assembly.cc:2355-2402`): strains of the trial solution, slips
of the old one. -/
def tBegin (c : Cell α V M T I n N Q F) (x : TScratch α V M n N Q F × VCopy α N) :
    TScratch α V M n N Q F × VCopy α N :=
  ({ x.1 with jxw := c.jxw, strain := c.strain, slip := c.old, slipGrad := c.oldGrad },
    { x.2 with dofs := c.dofs, rhs := fun _ => c.zero })

/-- Stresses and test functions at a quadrature point (`assembly.cc:2409-2455`). -/
def tFill (c : Cell α V M T I n N Q F) (q : Fin Q) (s : TScratch α V M n N Q F) :
    TScratch α V M n N Q F :=
  let s := { s with elastic := Function.update s.elastic q (c.elastic (s.strain q) fun a => s.slip a q) }
  let s := { s with stress := Function.update s.stress q (c.hooke (s.elastic q)) }
  { s with
    vectorial := setCol s.vectorial q fun a => c.vectorial a (s.slipGrad a q)
    resolved := setCol s.resolved q fun a => c.resolved a (s.stress q)
    phi := c.phi q
    gradPhi := c.grad q }

/-- One pass of the loop over quadrature points (`assembly.cc:2405-2482`). -/
def tPoint (c : Cell α V M T I n N Q F) (x : TScratch α V M n N Q F × VCopy α N) (q : Fin Q) :
    TScratch α V M n N Q F × VCopy α N :=
  let s := tFill c q x.1
  (s, { x.2 with rhs := fun i => match c.kind i with
    | none => x.2.rhs i
    | some a => c.addTrial (x.2.rhs i) (s.gradPhi a i) (s.vectorial a q) (s.phi a i) (s.resolved a q)
        (s.jxw q) })

/-- One pass of the loop over the quadrature points of a face at the boundary (`assembly.cc:2514-2566`). -/
def tFacePoint (c : Cell α V M T I n N Q F) (f : Outer α V n N F)
    (x : TScratch α V M n N Q F × VCopy α N) (q : Fin F) : TScratch α V M n N Q F × VCopy α N :=
  let s := { x.1 with
    faceVectorial := setCol x.1.faceVectorial q fun a => c.vectorial a (x.1.faceSlipGrad a q)
    facePhi := f.phi q }
  (s, { x.2 with rhs := fun i => match c.kind i with
    | none => x.2.rhs i
    | some a => c.addTrialFace (x.2.rhs i) (s.facePhi a i) (s.faceVectorial a q) (s.normal q)
        (s.faceJxw q) })

/-- A face at the boundary of the domain (`assembly.cc:2484-2567`). -/
def tFace (c : Cell α V M T I n N Q F) (x : TScratch α V M n N Q F × VCopy α N)
    (f : Outer α V n N F) : TScratch α V M n N Q F × VCopy α N :=
  (List.finRange F).foldl (tFacePoint c f)
    ({ x.1 with faceJxw := f.jxw, normal := f.normal, faceSlipGrad := f.slipGrad }, x.2)

/-- `assemble_local_trial_microstress_right_hand_side` (`assembly.cc:2349-2568`). -/
def tWorker (c : Cell α V M T I n N Q F) (x : TScratch α V M n N Q F × VCopy α N) :
    TScratch α V M n N Q F × VCopy α N :=
  c.outer.foldl (tFace c) ((List.finRange Q).foldl (tPoint c) (tBegin c x))

/-- `AssemblyData::TrialMicrostress::Matrix::Scratch` (`assembly_data.cc:555-605`). -/
structure MScratch (α : Type) (n N Q : ℕ) where
  jxw : Fin Q → α
  phi : Fin n → Fin N → α

/-- `local_lumped_matrix(i) += …` for all columns `j` at a quadrature point (`assembly.cc:2212-2254`). The
full matrix, which is filled beside it, is never used. -/
def mAdd (c : Cell α V M T I n N Q F) (q : Fin Q) (s : MScratch α n N Q) (i : Fin N) (x : α) : α :=
  match c.kind i with
  | none => x
  | some a => (List.finRange N).foldl (fun x j => match c.kind j with
      | none => x
      | some b => if a = b then c.addMass x (s.phi a i) (s.phi b j) (s.jxw q) else x) x

/-- One pass of the loop over quadrature points (`assembly.cc:2191-2255`). -/
def mPoint (c : Cell α V M T I n N Q F) (x : MScratch α n N Q × VCopy α N) (q : Fin Q) :
    MScratch α n N Q × VCopy α N :=
  let s := { x.1 with phi := c.phi q }
  (s, { x.2 with rhs := fun i => mAdd c q s i (x.2.rhs i) })

/-- `assemble_local_trial_microstress_lumped_matrix` (`assembly.cc:2166-2256`). -/
def mWorker (c : Cell α V M T I n N Q F) (x : MScratch α n N Q × VCopy α N) :
    MScratch α n N Q × VCopy α N :=
  (List.finRange Q).foldl (mPoint c)
    ({ x.1 with jxw := c.jxw }, { x.2 with dofs := c.dofs, rhs := fun _ => c.zero })

/-! ## Projection of the damage -/

/-- `AssemblyData::Postprocessing::ProjectionMatrix::Scratch` and `ProjectionRHS::Scratch`
(`assembly_data.cc:706-739, 765-800`). -/
structure PScratch (α : Type) (N F : ℕ) where
  jxw : Fin F → α
  damage : Fin F → α
  phi : Fin N → α

/-- A grain boundary face of the projection mesh: weights, damage, shape functions
(`assembly.cc:1785-1803, 1930-1960`). -/
structure PFace (α : Type) (N F : ℕ) where
  jxw : Fin F → α
  damage : Fin F → α
  phi : Fin F → Fin N → α

/-- A cell of the projection mesh. -/
structure PCell (α : Type) (N F : ℕ) where
  dofs : Fin N → ℕ
  enabled : Bool
  faces : List (PFace α N F)
  zero : α
  addMass : α → α → α → α → α
  addDamage : α → α → α → α → α

/-- One pass of the loop over face quadrature points of the projection matrix (`assembly.cc:1806-1827`). -/
def pMatPoint (c : PCell α N F) (f : PFace α N F) (x : PScratch α N F × VCopy α N) (q : Fin F) :
    PScratch α N F × VCopy α N :=
  let s := { x.1 with phi := f.phi q }
  (s, { x.2 with
    rhs := fun i => (List.finRange N).foldl (fun y j => c.addMass y (s.phi i) (s.phi j) (s.jxw q))
      (x.2.rhs i) })

/-- `assemble_local_projection_matrix` (`assembly.cc:1763-1830`). The indices of a cell away from the grain
boundary are those of the copy object's last cell. -/
def pMatWorker (c : PCell α N F) (x : PScratch α N F × VCopy α N) : PScratch α N F × VCopy α N :=
  let x := (x.1, { x.2 with rhs := fun _ => c.zero, atGrainBoundary := false })
  if !c.faces.isEmpty && c.enabled then
    c.faces.foldl (fun x f => (List.finRange F).foldl (pMatPoint c f) ({ x.1 with jxw := f.jxw }, x.2))
      (x.1, { x.2 with dofs := c.dofs, atGrainBoundary := true })
  else x

/-- One pass of the loop over face quadrature points of the projected damage (`assembly.cc:1948-1970`). -/
def pRhsPoint (c : PCell α N F) (f : PFace α N F) (x : PScratch α N F × VCopy α N) (q : Fin F) :
    PScratch α N F × VCopy α N :=
  let s := { x.1 with damage := Function.update x.1.damage q c.zero }
  let s := { s with damage := Function.update s.damage q (f.damage q), phi := f.phi q }
  (s, { x.2 with rhs := fun i => c.addDamage (x.2.rhs i) (s.phi i) (s.damage q) (s.jxw q) })

/-- `assemble_local_projection_rhs` (`assembly.cc:1905-1974`). -/
def pRhsWorker (c : PCell α N F) (x : PScratch α N F × VCopy α N) : PScratch α N F × VCopy α N :=
  let x := (x.1, { x.2 with rhs := fun _ => c.zero, atGrainBoundary := false })
  if !c.faces.isEmpty && c.enabled then
    c.faces.foldl (fun x f => (List.finRange F).foldl (pRhsPoint c f) ({ x.1 with jxw := f.jxw }, x.2))
      (x.1, { x.2 with dofs := c.dofs, atGrainBoundary := true })
  else x

/-! ## Copiers -/

/-- `copy_local_to_global_residual`, `copy_local_to_global_trial_microstress_*`
(`assembly.cc:1147-1162, 2260-2270, 2574-2584`): `distribute` is what deal.II's
`distribute_local_to_global` does to the global vector `G`. -/
def vCopier {G : Type} (distribute : G → (Fin N → ℕ) → (Fin N → α) → G) (g : G) (x : VCopy α N) : G :=
  distribute g x.dofs x.rhs

/-- `copy_local_to_global_projection_matrix`, `copy_local_to_global_projection_rhs`
(`assembly.cc:1836-1847, 1977-1987`). -/
def pCopier {G : Type} (distribute : G → (Fin N → ℕ) → (Fin N → α) → G) (g : G) (x : VCopy α N) : G :=
  if x.atGrainBoundary then distribute g x.dofs x.rhs else g

/-- `copy_local_to_global_jacobian` (`assembly.cc:580-617`); `none` is the exception of the assertions. -/
def jCopier {G : Type} (distribute : G → (Fin N → ℕ) → (Fin N → Fin N → α) → G)
    (couple : G → (Fin N → ℕ) → (Fin N → ℕ) → (Fin N → Fin N → α) → G)
    (g : Option G) (x : JCopy α N) : Option G :=
  g.bind fun g =>
    if x.atGrainBoundary && (decide (x.couplings.length ≠ x.nbDofsAll.length) || x.couplings.isEmpty) then
      none
    else
      let g := distribute g x.dofs x.mat
      some (if x.atGrainBoundary then
        (x.couplings.zip x.nbDofsAll).foldl (fun g b => couple g x.dofs b.2 b.1) g else g)

end

end Verif.Ws.Bits
