import Verif.Model.Crystal
import Verif.Model.Files

/-!
# Initialising `CrystalsData`, the laws that need it, and the postprocessors

Histories of calls on one `CrystalsData` object, any number of `HookeLaw` and `VectorialMicrostressLaw` objects that
point to it, and any number of postprocessors.  Release build: `Assert` and `AssertIndexRange` do nothing, so an index behind
the end of a vector is undefined behaviour.  A call that throws keeps what it changed before it threw, and the caller goes on.
A vector all of whose components are NaN is `none`.  Left out: `ElasticStrain`, `ResolvedShearStressLaw` and
`ScalarMicrostressLaw`, whose only state is the pointer to the crystals.
-/

namespace Verif.Life
open Verif.Cry Verif.Files Matrix

/-- How a call ends. -/
inductive Status
  | done
  | threw
  | undefined
  deriving DecidableEq

/-- The parts of `CrystalsData<dim>` that depend on `dim`. -/
structure Dim (d : ℕ) where
  /-- `compute_rotation_matrices`, one crystal (`source/crystal_data.cc:271-356`) -/
  rot : Vec d → Mat d
  /-- `compute_3d_rotation_matrices`, one crystal (`source/crystal_data.cc:375-412`) -/
  rot3 : Vec d → Mat 3
  /-- `rotation_tensors_3d` afterwards, from all rotations, the old content and the new entries
  (`source/crystal_data.cc:367-413`) -/
  store3 : List (Mat d) → List (Mat 3) → List (Mat 3) → List (Mat 3)
  /-- the vector completing the basis, normalised in 3D (`source/crystal_data.cc:220-246`) -/
  third : Vec d → Vec d → Option (Vec d)

/-- `dim == 2`. -/
noncomputable def dim2 : Dim 2 where
  rot e := rotation2 (e 0)
  rot3 e := rotation2in3 (e 0)
  store3 _ old new := old ++ new
  third _ _ := some 0

/-- `dim == 3`. -/
noncomputable def dim3 : Dim 3 where
  rot := rotation3
  rot3 := rotation3
  store3 all _ _ := all
  third n s := Cry.normalize (cross n s)

/-- A slip system of a crystal as stored: direction, normal, third vector (`source/crystal_data.cc:431-440`). -/
structure Slip (d : ℕ) where
  direction : Option (Vec d)
  normal : Option (Vec d)
  third : Option (Vec d)

/-- Members of `CrystalsData` (`include/gCP/crystal_data.h:74-100`); `none`: not initialised.  The Schmid tensors are
functions of the stored vectors.  `reference_slip_orthogonals` is left out: every `init` that reaches the slip systems
computes all of them anew. -/
structure Crystals (d : ℕ) where
  nC : Option ℕ
  nS : Option ℕ
  euler : List (Vec d)
  directions : List (Option (Vec d))
  normals : List (Option (Vec d))
  rotations : List (Mat d)
  rotations3 : List (Mat 3)
  systems : List (List (Slip d))
  flag : Bool

/-- Constructor (`source/crystal_data.cc:15-21`). -/
def Crystals.new (d : ℕ) : Crystals d := ⟨none, none, [], [], [], [], [], [], false⟩

/-- Arguments of `init`: the material ids of all cells of the triangulation and the three files, `none` when missing. -/
structure Input where
  ids : List ℕ
  orientations : Option (List Char)
  directions : Option (List Char)
  normals : Option (List Char)

/-- What `read_and_store` appends line by line, and how it ends (`source/crystal_data.cc:76-141`). -/
def readInto {d : ℕ} (stod : List Char → Option ℝ) (euler : Bool) : List (List Char) → List (Vec d) × Status
  | [] => ([], .done)
  | l :: ls =>
    if blank l then ([], .done)
    else match readLine stod euler l with
      | .ok v => (v :: (readInto (d := d) stod euler ls).1, (readInto (d := d) stod euler ls).2)
      | .throws => ([], .threw)
      | .undefined => ([], .undefined)

/-- The file may be missing (`source/crystal_data.cc:145-157,172-197`). -/
def openInto {d : ℕ} (stod : List Char → Option ℝ) (euler : Bool) : Option (List Char) → List (Vec d) × Status
  | none => ([], .threw)
  | some f => readInto stod euler (pieces '\n' f)

/-- `orthogonality_check` (`source/crystal_data.cc:253-261`); false for NaN. -/
def Orthogonal {d : ℕ} : Option (Vec d) → Option (Vec d) → Prop
  | some a, some b => orthogonalityCheck a b
  | _, _ => False

open Classical in
/-- The loop over the slip systems (`source/crystal_data.cc:208-246`) on pairs of direction and normal: what the vectors
hold afterwards with the third vector, and whether it ran to its end. -/
noncomputable def systemsLoop {d : ℕ} (dm : Dim d) :
    List (Option (Vec d) × Option (Vec d)) → List (Slip d) × Bool
  | [] => ([], true)
  | p :: ps =>
    if Orthogonal p.2 p.1 then
      (⟨p.1.bind Cry.normalize, p.2.bind Cry.normalize, p.2.bind fun n => p.1.bind fun s => dm.third n s⟩ ::
          (systemsLoop dm ps).1, (systemsLoop dm ps).2)
    else ((p :: ps).map fun q => ⟨q.1, q.2, some 0⟩, false)

/-- `compute_slip_systems`, one slip system (`source/crystal_data.cc:431-440`). -/
noncomputable def Slip.rotate {d : ℕ} (r : Mat d) (s : Slip d) : Slip d :=
  ⟨s.direction.map (r *ᵥ ·), s.normal.map (r *ᵥ ·), s.third.map (r *ᵥ ·)⟩

/-- The first `n` entries, behind the end is undefined (loops `for (crystal_id = 0; crystal_id < n_crystals; …)`). -/
def firsts {α : Type*} (n : ℕ) (l : List α) : Option (List α) := if n ≤ l.length then some (l.take n) else none

/-- `init` (`source/crystal_data.cc:26-44,50-248,267-456`). -/
noncomputable def Crystals.init {d : ℕ} (dm : Dim d) (stod : List Char → Option ℝ) (c : Crystals d) (i : Input) :
    Crystals d × Status :=
  let n := nCrystals i.ids
  let o := openInto stod true i.orientations
  let c1 : Crystals d := { c with nC := some n, euler := c.euler ++ o.1 }
  if o.2 ≠ .done then (c1, o.2)
  else if c1.euler.length ≠ n then (c1, .threw)
  else
    let s := openInto stod false i.directions
    let c2 : Crystals d := { c1 with directions := c1.directions ++ s.1.map some }
    if s.2 ≠ .done then (c2, s.2)
    else
      let m := openInto stod false i.normals
      let c3 : Crystals d := { c2 with normals := c2.normals ++ m.1.map some }
      if m.2 ≠ .done then (c3, m.2)
      else if c3.normals.length ≠ c3.directions.length then (c3, .threw)
      else
        let l := systemsLoop dm (c3.directions.zip c3.normals)
        let c4 : Crystals d := { c3 with directions := l.1.map (·.direction), normals := l.1.map (·.normal) }
        if l.2 = false then (c4, .threw)
        else
          let rots := c4.rotations ++ (c4.euler.take n).map dm.rot
          ({ c4 with
              nS := some l.1.length
              rotations := rots
              rotations3 := dm.store3 rots c4.rotations3 ((c4.euler.take n).map dm.rot3)
              systems := c4.systems ++ (rots.take n).map fun r => l.1.map (·.rotate r)
              flag := true }, .done)

/-- The access functions (`include/gCP/crystal_data.h:121-300`). -/
inductive Ask
  | nCrystals
  | nSlips
  | rotation (c : ℕ)
  | rotation3 (c : ℕ)
  | direction (c s : ℕ)
  | directions (c : ℕ)
  | normal (c s : ℕ)
  | normals (c : ℕ)
  | third (c s : ℕ)
  | schmid (c s : ℕ)
  | symSchmid (c s : ℕ)
  | symSchmids (c : ℕ)

/-- Their results. -/
inductive Answer (d : ℕ)
  | number (n : ℕ)
  | tensor (m : Mat d)
  | tensor3 (m : Mat 3)
  | vector (v : Option (Vec d))
  | vectors (v : List (Option (Vec d)))
  | dyad (m : Option (Mat d))
  | dyads (m : List (Option (Mat d)))

/-- Access to an element of a vector. -/
def found {α β : Type*} (f : α → β) : Option α → Outcome β
  | some a => .ok (f a)
  | none => .undefined

/-- The Schmid tensor (`source/crystal_data.cc:442-444`). -/
def Slip.schmid {d : ℕ} (s : Slip d) : Option (Mat d) := s.direction.bind fun a => s.normal.map fun b => outer a b

/-- Its symmetric part (`source/crystal_data.cc:446-447`). -/
noncomputable def Slip.symSchmid {d : ℕ} (s : Slip d) : Option (Mat d) := s.schmid.map symmetrize

/-- Result of an access function (`include/gCP/crystal_data.h:121-300`). -/
noncomputable def Crystals.ask {d : ℕ} (k : Crystals d) (q : Ask) : Outcome (Answer d) :=
  if k.flag = false then .throws
  else match q with
    | .nCrystals => found .number k.nC
    | .nSlips => found .number k.nS
    | .rotation c => found .tensor k.rotations[c]?
    | .rotation3 c => found .tensor3 k.rotations3[c]?
    | .direction c s => found (fun x => .vector x.direction) (k.systems[c]?.bind fun l => l[s]?)
    | .directions c => found (fun l => .vectors (l.map (·.direction))) k.systems[c]?
    | .normal c s => found (fun x => .vector x.normal) (k.systems[c]?.bind fun l => l[s]?)
    | .normals c => found (fun l => .vectors (l.map (·.normal))) k.systems[c]?
    | .third c s => found (fun x => .vector x.third) (k.systems[c]?.bind fun l => l[s]?)
    | .schmid c s => found (fun x => .dyad x.schmid) (k.systems[c]?.bind fun l => l[s]?)
    | .symSchmid c s => found (fun x => .dyad x.symSchmid) (k.systems[c]?.bind fun l => l[s]?)
    | .symSchmids c => found (fun l => .dyads (l.map (·.symSchmid))) k.systems[c]?

/-! ## Hooke's law -/

/-- Members of `HookeLaw` (`include/gCP/constitutive_laws.h:86-116`). -/
structure Hooke (d : ℕ) where
  /-- made with the constructor that takes the crystals -/
  poly : Bool
  prm : Elastic
  ref : Store4 d
  ref3 : Store4 3
  tetrads : List (Store4 d)
  tetrads3 : List (Store4 3)
  flag : Bool

/-- The two constructors (`source/constitutive_laws.cc:94-124`); tensors start at zero. -/
noncomputable def Hooke.new (d : ℕ) (poly : Bool) (p : Elastic) : Hooke d :=
  ⟨poly, p, fun _ => 0, fun _ => 0, [], [], false⟩

/-- `reference_stiffness_tetrad_3d` is a copy in 3D and filled by its own loops in 2D
(`source/constitutive_laws.cc:146-164`): the same assignments in the same order, hence the loops in both cases. -/
noncomputable def Hooke.references {d : ℕ} (h : Hooke d) : Hooke d :=
  { h with ref := (tuples d).foldl h.prm.write h.ref, ref3 := (tuples 3).foldl h.prm.write h.ref3 }

/-- `init` (`source/constitutive_laws.cc:128-247`).  In 3D the second list copies the first, which is what the
loops of the 2D case compute from the same rotation. -/
noncomputable def Hooke.init {d : ℕ} (k : Crystals d) (h : Hooke d) : Hooke d × Status :=
  let h1 := h.references
  if h.poly = false then ({ h1 with flag := true }, .done)
  else if k.flag = false then (h1, .threw)
  else match k.nC with
    | none => (h1, .undefined)
    | some n => match firsts n k.rotations, firsts n k.rotations3 with
      | some r, some r3 => ({ h1 with
          tetrads := h1.tetrads ++ r.map fun q => rotatedStiffness q h1.ref
          tetrads3 := h1.tetrads3 ++ r3.map fun q => rotatedStiffness q h1.ref3
          flag := true }, .done)
      | _, _ => (h1, .undefined)

/-- The access functions of `HookeLaw` (`include/gCP/constitutive_laws.h:120-205`, `source/constitutive_laws.cc:249-300`);
`none` is the overload without a crystal. -/
inductive AskHooke (d : ℕ)
  | tetrad (c : Option ℕ)
  | tetrad3 (c : Option ℕ)
  | stress (c : Option ℕ) (e : Mat d)

/-- Their results. -/
inductive HookeAnswer (d : ℕ)
  | tetrad (t : Store4 d)
  | tetrad3 (t : Store4 3)
  | stress (m : Mat d)

/-- Result of an access function (`include/gCP/constitutive_laws.h:120-205`, `source/constitutive_laws.cc:249-300`). -/
noncomputable def Hooke.ask {d : ℕ} (h : Hooke d) : AskHooke d → Outcome (HookeAnswer d)
  | .tetrad none => if h.poly then .throws else if h.flag = false then .throws else .ok (.tetrad h.ref)
  | .tetrad (some c) =>
    if h.poly = false then .throws else if h.flag = false then .throws else found .tetrad h.tetrads[c]?
  | .tetrad3 none => if h.poly then .throws else if h.flag = false then .throws else .ok (.tetrad3 h.ref3)
  | .tetrad3 (some c) =>
    if h.poly = false then .throws else if h.flag = false then .throws else found .tetrad3 h.tetrads3[c]?
  | .stress none e => if h.poly then .throws else if h.flag = false then .throws else .ok (.stress (apply4 h.ref e))
  | .stress (some c) e =>
    if h.poly = false then .throws else if h.flag = false then .throws
    else found (fun t => .stress (apply4 t e)) h.tetrads[c]?

/-! ## The vectorial microstress law -/

/-- Members of `VectorialMicrostressLaw` (`include/gCP/constitutive_laws.h:343-362`). -/
structure Vectorial (d : ℕ) where
  lengthScale : ℝ
  initialResistance : ℝ
  index : ℝ
  factor : Option ℝ
  /-- `slip_direction_dyads` and `slip_binormal_dyads` -/
  dyads : List (List (Option (Mat d) × Option (Mat d)))
  flag : Bool

/-- Constructor (`source/constitutive_laws.cc:577-586`). -/
def Vectorial.new (d : ℕ) (lengthScale initialResistance index : ℝ) : Vectorial d :=
  ⟨lengthScale, initialResistance, index, none, [], false⟩

/-- `symmetrize(outer_product(v, v))` (`source/constitutive_laws.cc:624-630`). -/
noncomputable def square {d : ℕ} (v : Option (Vec d)) : Option (Mat d) := v.map fun a => symmetrize (outer a a)

/-- The rows `crystal_id = 0 … n-1`, each with slips `0 … m-1` (`source/constitutive_laws.cc:604-652`); `none`: an index
behind the end. -/
def block {α : Type*} (n m : ℕ) (l : List (List α)) : Option (List (List α)) :=
  (firsts n l).bind fun rows => rows.mapM (firsts m)

/-- `init` (`source/constitutive_laws.cc:590-664`). -/
noncomputable def Vectorial.init {d : ℕ} (k : Crystals d) (v : Vectorial d) (dimensionless : Bool) :
    Vectorial d × Status :=
  if k.flag = false then (v, .threw)
  else match k.nC, k.nS with
    | some n, some m => match block n m k.systems with
      | some rows => ({ v with
          factor := some (if dimensionless then 1 else v.initialResistance * v.lengthScale ^ v.index)
          dyads := v.dyads ++ rows.map fun r => r.map fun s => (square s.direction, square s.third)
          flag := true }, .done)
      | none => (v, .undefined)
    | _, _ => (v, .undefined)

/-- `pow(|a·g|, e)` for a stored vector (`source/constitutive_laws.cc:686-696`): `none` when NaN or infinite. -/
noncomputable def power {d : ℕ} (a : Option (Vec d)) (g : Vec d) (e : ℝ) : Option ℝ :=
  a.bind fun a => fpow |a ⬝ᵥ g| e

/-- The bracket of both access functions, from the vectors of the crystals and the dyads of the law
(`source/constitutive_laws.cc:681-698`). -/
noncomputable def Vectorial.bracket {d : ℕ} (v : Vectorial d) (s : Slip d) (y : Option (Mat d) × Option (Mat d))
    (g : Vec d) : Option (Mat d) :=
  (power (s.direction.map (- ·)) g (v.index - 2)).bind fun a => y.1.bind fun m =>
    (power s.third g (v.index - 2)).bind fun b => y.2.map fun n => a • m + b • n

/-- `get_vectorial_microstress` and `get_jacobian` (`source/constitutive_laws.cc:668-732`): the microstress and the
Jacobian; `none` inside: NaN or infinite. -/
noncomputable def Vectorial.ask {d : ℕ} (k : Crystals d) (v : Vectorial d) (c s : ℕ) (g : Vec d) :
    Outcome (Option (Vec d) × Option (Mat d)) :=
  if v.flag = false then .throws
  else if k.flag = false then .throws
  else match v.factor, (k.systems[c]?.bind fun l => l[s]?), (v.dyads[c]?.bind fun l => l[s]?) with
    | some f, some x, some y => .ok ((v.bracket x y g).map fun m => (f • m) *ᵥ g,
        (v.bracket x y g).map fun m => (f * (v.index - 1)) • m)
    | _, _, _ => .undefined

/-! ## Postprocessors -/

/-- The classes of postprocessors. -/
inductive PostKind
  | fields (light : Bool)
  | simpleShear
  | homogenization
  deriving DecidableEq

/-- A postprocessor, reduced to its initialisation flag; `none`: indeterminate. -/
structure PostObj where
  kind : PostKind
  flag : Option Bool

/-- Constructors: `Postprocessor` sets the flag for light output only (`source/postprocessing.cc:18-67`), the other two start
with `false` (`source/postprocessing.cc:698,923`). -/
def PostObj.new : PostKind → PostObj
  | .fields light => ⟨.fields light, if light then some true else none⟩
  | k => ⟨k, some false⟩

/-- The check at the beginning of `evaluate_vector_field`, `compute_data`, `compute_macroscopic_quantities` and of the two
access functions of `Homogenization` (`source/postprocessing.cc:259,731,1041`, `include/gCP/postprocessing.h:389,402`). -/
def PostObj.check (p : PostObj) : Status :=
  match p.flag with
  | none => .undefined
  | some true => .done
  | some false => .threw

/-! ## Histories -/

/-- All objects. -/
structure World (d : ℕ) where
  crystals : Crystals d
  hookes : List (Hooke d)
  vectorials : List (Vectorial d)
  posts : List PostObj

/-- Before any call. -/
def World.new (d : ℕ) : World d := ⟨Crystals.new d, [], [], []⟩

/-- A call. -/
inductive Call
  | initCrystals (i : Input)
  | newHooke (poly : Bool) (p : Elastic)
  | newVectorial (lengthScale initialResistance index : ℝ)
  | newPost (k : PostKind)
  | initHooke (j : ℕ)
  | initVectorial (j : ℕ) (dimensionless : Bool)
  | initPost (j : ℕ)

/-- One call (`source/crystal_data.cc:26-44`, `source/constitutive_laws.cc:94-247,577-664`,
`source/postprocessing.cc:230-236,715-724,1023-1034`). -/
noncomputable def World.step {d : ℕ} (dm : Dim d) (stod : List Char → Option ℝ) (w : World d) : Call → World d × Status
  | .initCrystals i =>
    ({ w with crystals := (w.crystals.init dm stod i).1 }, (w.crystals.init dm stod i).2)
  | .newHooke poly p => ({ w with hookes := w.hookes ++ [Hooke.new d poly p] }, .done)
  | .newVectorial a b e => ({ w with vectorials := w.vectorials ++ [Vectorial.new d a b e] }, .done)
  | .newPost k => ({ w with posts := w.posts ++ [PostObj.new k] }, .done)
  | .initHooke j =>
    match w.hookes[j]? with
    | none => (w, .undefined)
    | some h => ({ w with hookes := w.hookes.set j (h.init w.crystals).1 }, (h.init w.crystals).2)
  | .initVectorial j f =>
    match w.vectorials[j]? with
    | none => (w, .undefined)
    | some v => ({ w with vectorials := w.vectorials.set j (v.init w.crystals f).1 }, (v.init w.crystals f).2)
  | .initPost j =>
    match w.posts[j]? with
    | none => (w, .undefined)
    | some p => ({ w with posts := w.posts.set j { p with flag := some true } }, .done)

/-- A history of calls: the objects afterwards and how each call ended. -/
noncomputable def World.run {d : ℕ} (dm : Dim d) (stod : List Char → Option ℝ) (w : World d) :
    List Call → World d × List Status
  | [] => (w, [])
  | c :: cs => (((w.step dm stod c).1.run dm stod cs).1, (w.step dm stod c).2 :: ((w.step dm stod c).1.run dm stod cs).2)

end Verif.Life
