import Verif.Model.Field

/-!
# Setting up `FEField` objects

Histories of calls on any number of `FEField` objects: construction, copies, extractors, degrees of freedom,
constraints and vectors.  What deal.II computes from the finite elements handed to a `DoFHandler` (numbers of
degrees of freedom, hanging-node constraints) is given by a function of the collection.  One MPI process, so that locally owned
and locally relevant degrees of freedom are the same ranges; the values of the vectors, component mapping
and index sets of single components are in `Verif.Model.Field`.  Closing a constraint object is left out.
-/

namespace Verif.Fld

/-- What deal.II computes on the mesh for a collection of finite elements: degrees of freedom of the two blocks
(`count_dofs_per_fe_block`) and `make_hanging_node_constraints` (`source/fe_field.cc:271-276, 323-331`). -/
structure Grid (ℓ : Type*) where
  nDisp : List (List Elem) → ℕ
  nSlip : List (List Elem) → ℕ
  hanging : List (List Elem) → ℕ → Option ℓ

/-- `DoFHandler::n_dofs()`. -/
def Grid.n {ℓ : Type*} (g : Grid ℓ) (c : List (List Elem)) : ℕ := g.nDisp c + g.nSlip c

/-- `merge(other, right_object_wins)` (deal.II). -/
def overlay {ℓ : Type*} (l r : ℕ → Option ℓ) : ℕ → Option ℓ := fun i => (r i).or (l i)

/-- Members of `FEField` (`include/gCP/fe_field.h:340-510`); `none`: not initialised. -/
structure Obj (ℓ : Type*) where
  dim : ℕ
  decohesion : Bool
  single : Bool
  /-- the `DoFHandler` the shared pointer points to -/
  handler : ℕ
  nC : Option ℕ
  nS : Option ℕ
  dispExt : List ℕ
  slipExt : List (List ℕ)
  collection : List (List Elem)
  nDispDofs : Option ℕ
  nSlipDofs : Option ℕ
  /-- ranges of `locally_owned_dofs_per_block` and `locally_relevant_dofs_per_block` -/
  blocks : List (ℕ × ℕ)
  hanging : ℕ → Option ℓ
  affine : ℕ → Option ℓ
  newton : ℕ → Option ℓ
  /-- block structure of `solution`, `old_solution`, `old_old_solution` and `distributed_vector` -/
  vectors : Option (List (ℕ × ℕ))
  fExtractors : Bool
  fDofs : Bool
  fAffine : Bool
  fNewton : Bool
  fVectors : Bool

/-- `is_initialized` (`include/gCP/fe_field.h:743-749`). -/
def Obj.isInitialized {ℓ : Type*} (f : Obj ℓ) : Bool := f.fVectors && f.fAffine && f.fNewton

/-- Constructor (`source/fe_field.cc:18-37`); `h` is the new `DoFHandler`. -/
def Obj.construct {ℓ : Type*} (dim : ℕ) (decohesion single : Bool) (h : ℕ) : Obj ℓ where
  dim := dim
  decohesion := decohesion
  single := single
  handler := h
  nC := none
  nS := none
  dispExt := []
  slipExt := []
  collection := []
  nDispDofs := none
  nSlipDofs := none
  blocks := []
  hanging := fun _ => none
  affine := fun _ => none
  newton := fun _ => none
  vectors := none
  fExtractors := false
  fDofs := false
  fAffine := false
  fNewton := false
  fVectors := false

/-- Copy constructor (`source/fe_field.cc:42-119`); `d` is the collection the shared `DoFHandler` was last given. -/
def Obj.copy {ℓ : Type*} (g : Grid ℓ) (d : List (List Elem)) (f : Obj ℓ) : Obj ℓ :=
  let new : Obj ℓ := { Obj.construct f.dim f.decohesion f.single f.handler with
    fExtractors := f.fDofs, fDofs := f.fDofs }
  if f.fDofs then
    { new with
      nC := f.nC
      nS := f.nS
      dispExt := f.dispExt
      slipExt := f.slipExt
      collection := f.collection
      nDispDofs := f.nDispDofs
      nSlipDofs := f.nSlipDofs
      blocks := f.blocks
      hanging := g.hanging d
      affine := g.hanging d
      newton := g.hanging d }
  else new

/-- `setup_extractors` (`source/fe_field.cc:123-172`). -/
def Obj.setupExtractors {ℓ : Type*} (f : Obj ℓ) (nC nS : ℕ) : Obj ℓ :=
  let L : Layout := ⟨f.dim, nC, nS, f.decohesion⟩
  { f with
    nC := some nC
    nS := some nS
    dispExt := f.dispExt ++ (List.range nC).map L.dispExtractor
    slipExt := f.slipExt ++ (List.range nC).map fun i => (List.range nS).map (L.slipExtractor i)
    fExtractors := true }

/-- Outcome of a call. -/
inductive CallResult where
  | done
  | threw
  /-- undefined behaviour: no such object, or a field without crystals -/
  | undefined
  deriving DecidableEq

/-- `setup_dofs` (`source/fe_field.cc:184-453`). -/
def Obj.setupDofs {ℓ : Type*} (g : Grid ℓ) (f : Obj ℓ) : Obj ℓ × CallResult :=
  if f.fExtractors = false then (f, .threw)
  else
    match f.nC, f.nS with
    | some nC, some nS =>
      if nC = 0 then (f, .undefined)
      else
        let L : Layout := ⟨f.dim, nC, nS, f.decohesion⟩
        let coll := f.collection ++ (List.range nC).map L.elements
        let n := g.n coll
        let d0 := if 0 < nS ∧ f.single = false then g.nDisp coll else n
        ({ f with
            collection := coll
            nDispDofs := if 0 < nS then some (g.nDisp coll) else f.nDispDofs
            nSlipDofs := if 0 < nS then some (g.nSlip coll) else f.nSlipDofs
            blocks := f.blocks ++ ((0, d0) :: if f.single = false then [(d0, n)] else [])
            hanging := g.hanging coll
            affine := g.hanging coll
            newton := g.hanging coll
            fDofs := true }, .done)
    | _, _ => (f, .undefined)

/-- Calls on an object. -/
inductive Action (ℓ : Type*) where
  | setupExtractors (nC nS : ℕ)
  | setupDofs
  | setAffine (c : ℕ → Option ℓ)
  | setNewton (c : ℕ → Option ℓ)
  | setupVectors
  | serialize
  | resetConstraints

/-- `set_affine_constraints`, `set_newton_method_constraints`, `setup_vectors`,
`prepare_for_serialization_of_active_fe_indices` and `reset_all_affine_constraints` (`source/fe_field.cc:457-592`)
beside the two above. -/
def Obj.act {ℓ : Type*} (g : Grid ℓ) (f : Obj ℓ) : Action ℓ → Obj ℓ × CallResult
  | .setupExtractors nC nS => (f.setupExtractors nC nS, .done)
  | .setupDofs => f.setupDofs g
  | .setAffine c =>
    if f.fDofs then ({ f with affine := overlay f.affine c, fAffine := true }, .done) else (f, .threw)
  | .setNewton c =>
    if f.fDofs then ({ f with newton := overlay f.newton c, fNewton := true }, .done) else (f, .threw)
  | .setupVectors =>
    if f.fDofs then ({ f with vectors := some f.blocks, fVectors := true }, .done) else (f, .threw)
  | .serialize => (f, if f.fDofs then .done else .threw)
  | .resetConstraints => ({ f with affine := f.hanging, newton := f.hanging }, .done)

/-- All objects, and the collection each `DoFHandler` was last given by `distribute_dofs`. -/
structure World (ℓ : Type*) where
  objs : List (Obj ℓ)
  handlers : List (List (List Elem))

/-- A call. -/
inductive Call (ℓ : Type*) where
  | construct (dim : ℕ) (decohesion single : Bool)
  | copy (i : ℕ)
  | on (i : ℕ) (a : Action ℓ)

/-- One call; `setup_dofs` redistributes the shared `DoFHandler` (`source/fe_field.cc:241`). -/
def World.step {ℓ : Type*} (g : Grid ℓ) (w : World ℓ) : Call ℓ → World ℓ × CallResult
  | .construct dim d s =>
    (⟨w.objs ++ [Obj.construct dim d s w.handlers.length], w.handlers ++ [[]]⟩, .done)
  | .copy i =>
    match w.objs[i]? with
    | none => (w, .undefined)
    | some f => ({ w with objs := w.objs ++ [Obj.copy g (w.handlers.getD f.handler []) f] }, .done)
  | .on i a =>
    match w.objs[i]? with
    | none => (w, .undefined)
    | some f =>
      let r := f.act g a
      (⟨w.objs.set i r.1,
        match a, r.2 with
        | .setupDofs, .done => w.handlers.set f.handler r.1.collection
        | _, _ => w.handlers⟩, r.2)

/-- The world after a history of calls; a call that throws changes nothing and the caller goes on. -/
def World.run {ℓ : Type*} (g : Grid ℓ) (w : World ℓ) (h : List (Call ℓ)) : World ℓ :=
  h.foldl (fun w c => (w.step g c).1) w

/-- `n_dofs()` of an object (`include/gCP/fe_field.h:697-701`): that of the shared `DoFHandler`. -/
def World.nDofs {ℓ : Type*} (g : Grid ℓ) (w : World ℓ) (f : Obj ℓ) : ℕ := g.n (w.handlers.getD f.handler [])

end Verif.Fld
