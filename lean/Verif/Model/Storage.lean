import Mathlib.Order.Basic
import Mathlib.Order.Defs.LinearOrder
import Mathlib.Data.List.Range

/-!
# Model of `InterfaceDataStorage`

Cell ids are elements of a linear order (`dealii::CellId` with `operator<`).  A
`std::shared_ptr` is a natural number (its address); `make_shared` yields a fresh one.
-/

namespace Verif.Store
variable {C : Type*} [LinearOrder C]

/-- One face as seen from a cell: at the boundary, or with the neighbour's id and material
id. -/
inductive Face (C : Type*)
  | boundary
  | interior (neighbor : C) (material : ℕ)

/-- A cell of the iterator range. -/
structure Cell (C : Type*) where
  id : C
  material : ℕ
  owned : Bool
  faces : List (Face C)

/-- The map and the address of the next allocation
(`include/gCP/quadrature_point_history.h:532-540`). -/
structure Storage (C : Type*) where
  map : C × C → Option (List ℕ)
  next : ℕ

/-- Default-constructed storage. -/
def Storage.empty : Storage C := ⟨fun _ => none, 0⟩

/-- The key of two cells (`quadrature_point_history.h:579-582` and
`source/gradient_crystal_plasticity/quadrature_point_history.cc:386-391`). -/
def key (a b : C) : C × C := if a < b then (a, b) else (b, a)

/-- Body of the face loop (`quadrature_point_history.h:561-595`): `nq` fresh records if the
key is new. -/
def visitFace (nq : ℕ) (c : Cell C) (s : Storage C) : Face C → Storage C
  | .boundary => s
  | .interior n m =>
    if c.material ≠ m then
      match s.map (key c.id n) with
      | some _ => s
      | none =>
        { map := fun k => if k = key c.id n then
            some ((List.range nq).map (s.next + ·)) else s.map k
          next := s.next + nq }
    else s

/-- Body of the cell loop (`quadrature_point_history.h:558-560`). -/
def visitCell (nq : ℕ) (s : Storage C) (c : Cell C) : Storage C :=
  if c.owned then c.faces.foldl (visitFace nq c) s else s

/-- `initialize` (`quadrature_point_history.h:546-596`). -/
def initStorage (s : Storage C) (cells : List (Cell C)) (nq : ℕ) : Storage C :=
  cells.foldl (visitCell nq) s

/-- `get_data` (`quadrature_point_history.cc:378-399`): `none` when the key is missing (the
`Assert` fires in debug mode; in release mode `map[key]` silently inserts an empty vector,
which the callers then index). -/
def getData (s : Storage C) (a b : C) : Option (List ℕ) := s.map (key a b)

end Verif.Store
