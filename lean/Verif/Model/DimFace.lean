import Verif.Model.Params
import Verif.Model.Face

/-!
# Grain boundary laws as the solver constructs them
-/

namespace Verif.Prm
open Matrix Verif.Cry Verif.Itf Verif.Asm

/-- Parameters of the grain boundary laws in the parameter file
(`source/run_time_parameters.cc:228-360,532-570`) and the choices of the boundary conditions at
grain boundaries. -/
structure BoundaryMaterial where
  /-- `cohesive_law_parameters` -/
  tc : ℝ
  δc : ℝ
  ratio : ℝ
  /-- `contact_law_parameters` -/
  penalty : ℝ
  /-- `degradation_function_parameters`, `damage_evolution_parameters` -/
  exponent : ℝ
  coupleMacro : Bool
  coupleMicro : Bool
  /-- `microtraction_law_parameters` -/
  modulus : ℝ
  /-- `allow_decohesion` -/
  decohesion : Bool
  /-- `boundary_conditions_at_grain_boundaries == Microtraction` -/
  microtraction : Bool

/-- What the constructor of the solver hands to the grain boundary terms
(`source/gradient_crystal_plasticity/gradient_crystal_plasticity_solver.cc:49-103`).  The contact law
gets the characteristic stress and displacement; the microtraction law and the cohesive law are
constructed without characteristic quantities, whose default is one
(`include/gCP/constitutive_laws.h:372,446-447`).  `debug`: the `Assert`s of the constructor are
compiled in; a failing one aborts (`none`). -/
noncomputable def DimForm.face {d e : ℕ} (debug : Bool) (f : DimForm) (m : Material)
    (b : BoundaryMaterial) (lat : Vec d → Vec d → Fin e → ℝ) (dt : ℝ) : Option (FacePrm d e) :=
  if debug && f.flag && (b.decohesion || b.microtraction) then none
  else if debug && m.rateIndependent && b.microtraction then none
  else some {
    dn0 := f.dn 0
    dn2 := f.dn 2
    dn3 := f.dn 3
    dt := dt
    coh := ⟨b.tc, b.δc, b.ratio, 1, 1⟩
    contact := ⟨b.penalty, f.q.stress, f.q.displacement⟩
    exponent := b.exponent
    coupleMacro := b.coupleMacro
    coupleMicro := b.coupleMicro
    micro := ⟨b.modulus, 1⟩
    lat := lat
    decohesion := b.decohesion
    microtraction := b.microtraction }

end Verif.Prm
