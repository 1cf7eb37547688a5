import Verif.Model.Face

/-!
# What a grain boundary reports at the end of a time step
-/

namespace Verif.Itf
open Cry Hist Matrix

/-- The values `store_effective_opening_displacement` leaves for the accessors of
`InterfaceQuadraturePointHistory` (`include/gCP/quadrature_point_history.h:151-163`,
`source/gradient_crystal_plasticity/quadrature_point_history.cc:245-275`). `none`: NaN. -/
structure Reported where
  opening : ℝ
  normal : ℝ
  tangential : ℝ
  traction : Option ℝ

/-- `std::pow(1.0 - get_damage_variable(), damage_evolution_parameters.degradation_exponent)` or `1.0`
(`source/gradient_crystal_plasticity/assembly.cc:1693-1696`).  The member `degradation_exponent` of
`DamageEvolution` is neither initialised by its constructor (`source/run_time_parameters.cc:430-440`) nor
parsed (`486-528`): `memory` is what happens to be there.  Simplification: it is a real number. -/
noncomputable def memoryDegradation (memory damage : ℝ) (couple : Bool) : ℝ :=
  if couple then (1 - damage) ^ memory else 1

/-- What the visit of a cell at the end of the step leaves in the record of a face quadrature point
(`store_local_effective_opening_displacement`, `source/gradient_crystal_plasticity/assembly.cc:1598-1700`): `u`, `un`
are the displacements of the cell and its neighbour, `old`, `oldn` those at the beginning of the step.  The traction is
evaluated with the norm of the old opening vector in place of the old effective opening (`1671-1677`), and the
displacements are passed in exchanged order (`1689-1691`). -/
noncomputable def report {d e : ℕ} (p : Asm.FacePrm d e) (memory : ℝ) (h : Iface) (n u un old oldn : Vec d) : Reported :=
  ⟨storedOpening p.coh.ratio u un n, norm2 (normalProjector n *ᵥ (u - un)), norm2 (tangentialProjector n *ᵥ (u - un)),
    (p.coh.traction (un - u) n h.maxOpening (norm2 (oldn - old)) p.dt).map fun t =>
      memoryDegradation memory h.damage p.coupleMacro * norm2 t⟩

end Verif.Itf
