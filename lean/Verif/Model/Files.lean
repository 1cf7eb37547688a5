import Mathlib.Data.Real.Basic
import Mathlib.Data.Finset.Card
import Mathlib.Data.Fintype.Fin

/-!
# Reading the crystal data files

A file is the list of its characters.  `std::stod` is an arbitrary function: `none` is the exception
`std::invalid_argument` or `std::out_of_range`.  Release build: `AssertIndexRange` does nothing, so
a write behind the end of a tensor is undefined behaviour.
-/

namespace Verif.Files

/-- What a call does. -/
inductive Outcome (α : Type*)
  | ok (a : α)
  | throws
  | undefined

/-- Sequence of two operations. -/
def Outcome.bind {α β : Type*} (x : Outcome α) (f : α → Outcome β) : Outcome β :=
  match x with
  | .ok a => f a
  | .throws => .throws
  | .undefined => .undefined

/-- The strings a `while (std::getline(stream, string, sep))` loop sees: the pieces between
separators; an empty last piece is not delivered (`source/crystal_data.cc:85,110-112`). -/
def pieces (sep : Char) : List Char → List (List Char)
  | [] => []
  | c :: cs =>
    if c = sep then [] :: pieces sep cs
    else match pieces sep cs with
      | [] => [[c]]
      | p :: ps => (c :: p) :: ps

/-- The line without spaces is empty (`source/crystal_data.cc:87-99`). -/
def blank (line : List Char) : Bool := (line.filter (· ≠ ' ')).isEmpty

/-- The loop over the components of a line (`source/crystal_data.cc:108-117`): the right-hand side
`std::stod` is evaluated before the write to `vector[component]`. -/
def readComponents {dim : ℕ} (stod : List Char → Option ℝ) :
    ℕ → (Fin dim → ℝ) → List (List Char) → Outcome (ℕ × (Fin dim → ℝ))
  | component, vector, [] => .ok (component, vector)
  | component, vector, t :: ts =>
    match stod t with
    | none => .throws
    | some x =>
      if h : component < dim then
        readComponents stod (component + 1) (Function.update vector ⟨component, h⟩ x) ts
      else .undefined

/-- Number of columns demanded (`source/crystal_data.cc:119-136`). -/
def columns (dim : ℕ) (euler : Bool) : ℕ := if euler && dim == 2 then 1 else dim

/-- One line (`source/crystal_data.cc:101-138`). -/
def readLine {dim : ℕ} (stod : List Char → Option ℝ) (euler : Bool) (line : List Char) :
    Outcome (Fin dim → ℝ) :=
  (readComponents stod 0 (fun _ => 0) (pieces ',' line)).bind fun r =>
    if r.1 = columns dim euler then .ok r.2 else .throws

/-- The loop over the lines; it ends at the first blank one (`source/crystal_data.cc:85-140`). -/
def readLines {dim : ℕ} (stod : List Char → Option ℝ) (euler : Bool) :
    List (List Char) → Outcome (List (Fin dim → ℝ))
  | [] => .ok []
  | l :: ls =>
    if blank l then .ok []
    else (readLine stod euler l).bind fun v => (readLines stod euler ls).bind fun vs => .ok (v :: vs)

/-- `read_and_store` into an empty vector (`source/crystal_data.cc:76-141`). -/
def readFile {dim : ℕ} (stod : List Char → Option ℝ) (euler : Bool) (file : List Char) :
    Outcome (List (Fin dim → ℝ)) :=
  readLines stod euler (pieces '\n' file)

/-- A file that may be missing (`source/crystal_data.cc:145-157`). -/
def openFile {dim : ℕ} (stod : List Char → Option ℝ) (euler : Bool) :
    Option (List Char) → Outcome (List (Fin dim → ℝ))
  | none => .throws
  | some f => readFile stod euler f

/-- `count_n_crystals` (`source/crystal_data.cc:50-65`): the number of different material ids of all
cells of all processes. -/
def nCrystals (ids : List ℕ) : ℕ := ids.toFinset.card

/-- What `CrystalsData` keeps of the files. -/
structure Data (dim : ℕ) where
  orientations : List (Fin dim → ℝ)
  directions : List (Fin dim → ℝ)
  normals : List (Fin dim → ℝ)

/-- `count_n_crystals` and `read_and_store_data` of a new object
(`source/crystal_data.cc:26-34,50-204`). -/
def readData {dim : ℕ} (stod : List Char → Option ℝ) (ids : List ℕ)
    (orientations directions normals : Option (List Char)) : Outcome (Data dim) :=
  (openFile stod true orientations).bind fun o =>
    if o.length ≠ nCrystals ids then .throws
    else (openFile stod false directions).bind fun d =>
      (openFile stod false normals).bind fun n =>
        if n.length ≠ d.length then .throws else .ok ⟨o, d, n⟩

/-- The entry of a crystal: the solver passes `cell->material_id()` or the active element index,
which is the material id (`applications/simple_shear.cc:309-320`), to the access functions
(`include/gCP/crystal_data.h:140-309`), which index the vectors; behind the end is undefined. -/
def orientationOf {dim : ℕ} (d : Data dim) (id : ℕ) : Outcome (Fin dim → ℝ) :=
  match d.orientations[id]? with
  | some v => .ok v
  | none => .undefined

end Verif.Files
