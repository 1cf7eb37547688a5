import Mathlib.Data.Real.Basic
import Mathlib.Algebra.BigOperators.Fin

/-!
# Projection and average of the damage at grain boundaries

Cells at grain boundaries contribute through the quadrature points of their grain-boundary faces.
Sums over cells of all processes are lists (WorkStream's order and `compress` only reorder exact
sums).  Local degrees of freedom are those of the continuous `FE_Q<dim>(2)` of `setup.cc:134`.
-/

namespace Verif.Dam
open Finset

/-- A quadrature point of a grain-boundary face: `JxW`, shape function values, damage of the
interface history. -/
structure FacePt (N : ℕ) where
  jxw : ℝ
  phi : Fin N → ℝ
  damage : ℝ

/-- A cell at a grain boundary: global indices of its degrees of freedom, and the quadrature points
of its grain-boundary faces. -/
structure Cell (N : ℕ) where
  dofs : Fin N → ℕ
  pts : List (FacePt N)

/-- `local_lumped_projection_matrix(i)`
(`source/gradient_crystal_plasticity/assembly.cc:1767-1823`). -/
def Cell.lumped {N : ℕ} (c : Cell N) (i : Fin N) : ℝ :=
  (c.pts.map fun q => ∑ j, q.phi i * q.phi j * q.jxw).sum

/-- `local_rhs(i)` (`source/gradient_crystal_plasticity/assembly.cc:1906-1976`). -/
def Cell.rhs {N : ℕ} (c : Cell N) (i : Fin N) : ℝ :=
  (c.pts.map fun q => q.phi i * q.damage * q.jxw).sum

/-- Homogeneous `AffineConstraints` after `close`: a constrained degree of freedom is a weighted
sum of unconstrained ones (`setup.cc:155-164`). -/
abbrev Constraints := ℕ → Option (List (ℕ × ℝ))

/-- Where a local contribution goes in `distribute_local_to_global`. -/
def resolve (c : Constraints) (k : ℕ) : List (ℕ × ℝ) := (c k).getD [(k, 1)]

/-- A global vector assembled from local ones with `distribute_local_to_global`
(`assembly.cc:1829-1838, 1978-1988`). -/
def assemble {N : ℕ} (c : Constraints) (f : Cell N → Fin N → ℝ) (cells : List (Cell N)) (k : ℕ) :
    ℝ :=
  (cells.map fun cell => ∑ i, ((resolve c (cell.dofs i)).map fun mw =>
    if mw.1 = k then mw.2 * f cell i else 0).sum).sum

/-- `get_damage_at_grain_boundaries` before the constraints are distributed
(`source/gradient_crystal_plasticity/gradient_crystal_plasticity_solver.cc:202-224`). -/
noncomputable def projected {N : ℕ} (c : Constraints) (cells : List (Cell N)) (k : ℕ) : ℝ :=
  if assemble c Cell.lumped cells k = 0 then 0
  else assemble c Cell.rhs cells k / assemble c Cell.lumped cells k

/-- `get_damage_at_grain_boundaries`
(`source/gradient_crystal_plasticity/gradient_crystal_plasticity_solver.cc:193-231`). -/
noncomputable def damageField {N : ℕ} (c : Constraints) (cells : List (Cell N)) (k : ℕ) : ℝ :=
  match c k with
  | none => projected c cells k
  | some l => (l.map fun mw => mw.2 * projected c cells mw.1).sum

/-- A process in `get_macroscopic_damage`: content of the uninitialised
`domain_integral_damage_variable` (`assembly.cc:2019`), and damage and `JxW` of its face quadrature
points. -/
structure Proc where
  garbage : ℝ
  pts : List (ℝ × ℝ)

/-- `get_macroscopic_damage` (`source/gradient_crystal_plasticity/assembly.cc:1992-2096`); `none` is
the quotient 0/0 or x/0. -/
noncomputable def macroDamage (procs : List Proc) : Option ℝ :=
  let volume := (procs.map fun p => (p.pts.map fun q => q.2).sum).sum
  if volume = 0 then none
  else some ((procs.map fun p => p.garbage + (p.pts.map fun q => q.1 * q.2).sum).sum / volume)

/-- The one-dimensional shape functions of `FE_Q(2)` on the unit interval: left vertex, right
vertex, midpoint (deal.II's numbering of a face). -/
noncomputable def quadratic (x : ℝ) : Fin 3 → ℝ :=
  ![(1 - x) * (1 - 2 * x), x * (2 * x - 1), 4 * x * (1 - x)]

end Verif.Dam
