import Verif.Model.Field

/-!
# Microhard grain boundaries

The simple shear application constrains the slips at grain boundaries by looking up the components of the
degrees of freedom of a face.  The numbering of degrees of freedom is that of deal.II's `FESystem`.
-/

namespace Verif.Fld

/-- Polynomial degrees of the elements (`source/run_time_parameters.cc:1708-1732`; defaults 2 and 1). -/
structure Degrees where
  disp : ℕ
  slip : ℕ

/-- Degrees of freedom of a scalar element in the interior of an object of dimension `k`: `FE_Q(p)` has
one per vertex, `p - 1` per line, `(p - 1)²` per quadrilateral and `(p - 1)³` per hexahedron,
`FE_Nothing` has none (deal.II). -/
def Degrees.perObject (p : Degrees) (k : ℕ) : Elem → ℕ
  | .disp => (p.disp - 1) ^ k
  | .slip => (p.slip - 1) ^ k
  | .nothing => 0

/-- Components of the degrees of freedom of one object of dimension `k` in the `FESystem` of crystal `i`:
element by element (deal.II, `FETools::Compositing::build_cell_tables` and `build_face_tables`). -/
def objectComps (L : Layout) (p : Degrees) (i k : ℕ) : List ℕ :=
  (L.elements i).zipIdx.flatMap fun e => List.replicate (p.perObject k e.1) e.2

/-- `n` objects of the same dimension one after the other. -/
def objects (n : ℕ) (l : List ℕ) : List ℕ := (List.range n).flatMap fun _ => l

/-- `system_to_component_index(·).first` of the degrees of freedom of a cell: vertices, lines,
quadrilaterals, interior (deal.II). -/
def cellComps (L : Layout) (p : Degrees) (i : ℕ) : List ℕ :=
  if L.dim = 2 then
    objects 4 (objectComps L p i 0) ++ objects 4 (objectComps L p i 1) ++ objectComps L p i 2
  else
    objects 8 (objectComps L p i 0) ++ objects 12 (objectComps L p i 1) ++
      objects 6 (objectComps L p i 2) ++ objectComps L p i 3

/-- Components of the degrees of freedom of a face, in the order of `face->get_dof_indices`: vertices,
lines and in three dimensions the interior of the face (deal.II). -/
def faceComps (L : Layout) (p : Degrees) (i : ℕ) : List ℕ :=
  if L.dim = 2 then objects 2 (objectComps L p i 0) ++ objectComps L p i 1
  else objects 4 (objectComps L p i 0) ++ objects 4 (objectComps L p i 1) ++ objectComps L p i 2

/-- Whether the `j`-th degree of freedom of a grain boundary face of crystal `i` gets a constraint line
(`applications/simple_shear.cc:478-494,581-593`): `get_global_component(crystal_id, j) >= dim`, which
looks up the `j`-th degree of freedom of the cell.  `none` is an access out of range. -/
def constrainedAtFace (L : Layout) (p : Degrees) (i j : ℕ) : Option Bool :=
  ((cellComps L p i)[j]?).bind fun c => (L.globalComponent c).map fun g => decide (L.dim ≤ g)

end Verif.Fld
