import Verif.Model.Crystal
import Verif.Model.History

/-!
# Grain-boundary laws: microtraction, cohesive law, contact, degradation

Quadrature points do not interact in these methods; the functions here are those at one
quadrature point.
-/

namespace Verif.Itf
open Matrix Finset Verif.Cry

/-! ## Microtraction -/

/-- The factor `m × n` of the 2D specialisation: one number
(`source/constitutive_laws.cc:799-821,1084-1099`). -/
def lateral2 (m n : Vec 2) : Fin 1 → ℝ := fun _ => m 0 * n 1 - m 1 * n 0

/-- The factor `m × n` of the 3D specialisation (`source/constitutive_laws.cc:918-936`). -/
def lateral3 (m n : Vec 3) : Fin 3 → ℝ := cross m n

/-- The slip systems of a crystal. -/
abbrev Crystal (d n : ℕ) := Fin n → System d

/-- `(s_α·s'_β) ((m_α × n)·(m'_β × n))`: one entry of the interaction moduli
(`source/constitutive_laws.cc:799-821` in 2D, where the lateral factors are numbers, and
`918-936` in 3D).  `lat` is `lateral2` or `lateral3`. -/
def modulus {d e : ℕ} (lat : Vec d → Vec d → Fin e → ℝ) (a b : System d) (nrm : Vec d) : ℝ :=
  (a.direction ⬝ᵥ b.direction) * (lat a.normal nrm ⬝ᵥ lat b.normal nrm)

/-- `get_grain_interaction_moduli(...).first`: within the current crystal. -/
def intra {d e n : ℕ} (lat : Vec d → Vec d → Fin e → ℝ) (cur : Crystal d n) (nrm : Vec d)
    (α β : Fin n) : ℝ := modulus lat (cur α) (cur β) nrm

/-- `get_grain_interaction_moduli(...).second`: current crystal and neighbour. -/
def inter {d e n : ℕ} (lat : Vec d → Vec d → Fin e → ℝ) (cur nb : Crystal d n) (nrm : Vec d)
    (α β : Fin n) : ℝ := modulus lat (cur α) (nb β) nrm

/-- The `AssertThrow`s on the moduli hold: `0 ≤ |C| ≤ bound`, `bound = 1 + 1e-14` in 2D
(`source/constitutive_laws.cc:823-841`) and `1` in 3D (`938-950`). -/
def moduliAccepted {n : ℕ} (bound : ℝ) (c : Fin n → Fin n → ℝ) : Prop :=
  ∀ α β, 0 ≤ |c α β| ∧ |c α β| ≤ bound

/-- Parameters of `MicrotractionLaw`: grain boundary modulus and characteristic vectorial
microstress (`source/constitutive_laws.cc:736-746`). -/
structure MicroPrm where
  modulus : ℝ
  char : ℝ

/-- `get_microtraction` (`source/constitutive_laws.cc:979-1004`). -/
noncomputable def microtraction {d e n : ℕ} (p : MicroPrm) (lat : Vec d → Vec d → Fin e → ℝ)
    (cur nb : Crystal d n) (nrm : Vec d) (γ γn : Fin n → ℝ) (α : Fin n) : ℝ :=
  (∑ β, (intra lat cur nrm α β * γ β - inter lat cur nb nrm α β * γn β)) *
    (-p.modulus / p.char)

/-- `get_intra_gateaux_derivative` (`source/constitutive_laws.cc:1008-1028`). -/
noncomputable def intraDerivative {d e n : ℕ} (p : MicroPrm) (lat : Vec d → Vec d → Fin e → ℝ)
    (cur : Crystal d n) (nrm : Vec d) (α β : Fin n) : ℝ :=
  intra lat cur nrm α β * (-p.modulus / p.char)

/-- `get_inter_gateaux_derivative` (`source/constitutive_laws.cc:1032-1052`). -/
noncomputable def interDerivative {d e n : ℕ} (p : MicroPrm) (lat : Vec d → Vec d → Fin e → ℝ)
    (cur nb : Crystal d n) (nrm : Vec d) (α β : Fin n) : ℝ :=
  inter lat cur nb nrm α β * (p.modulus / p.char)

/-- The Burgers tensor of the interface: `Σ γ_nb s_nb ⊗ (m_nb × n) − γ s ⊗ (m × n)`
(`source/constitutive_laws.cc:1079-1099` in 2D, `1139-1158` in 3D). -/
noncomputable def burgers {d e n : ℕ} (lat : Vec d → Vec d → Fin e → ℝ)
    (nb cur : Crystal d n) (nrm : Vec d) (γn γ : Fin n → ℝ) (i : Fin d) (j : Fin e) : ℝ :=
  ∑ α, (γn α * ((nb α).direction i * lat (nb α).normal nrm j) -
        γ α * ((cur α).direction i * lat (cur α).normal nrm j))

/-- `MicrotractionLaw::get_free_energy_density` (`source/constitutive_laws.cc:1056-1171`). -/
noncomputable def interfaceEnergy {d e n : ℕ} (p : MicroPrm) (lat : Vec d → Vec d → Fin e → ℝ)
    (nb cur : Crystal d n) (nrm : Vec d) (γn γ : Fin n → ℝ) : ℝ :=
  0.5 * p.modulus * ∑ i, ∑ j, burgers lat nb cur nrm γn γ i j * burgers lat nb cur nrm γn γ i j

/-! ## Cohesive law -/

/-- `macaulay_brackets` (`include/gCP/constitutive_laws.h:500-508`). -/
noncomputable def macaulay (x : ℝ) : ℝ := if 0 < x then x else 0

/-- `macaulay_brackets(x / |x|)`: for `x = 0` the argument is `0/0 = NaN`, the comparison is false
and the result is zero (`source/constitutive_laws.cc:1455-1459`). -/
noncomputable def macaulayUnit (x : ℝ) : ℝ := if x = 0 then 0 else macaulay (x / |x|)

/-- Parameters of `CohesiveLaw` (`source/constitutive_laws.cc:1175-1186`). -/
structure Coh where
  tc : ℝ
  δc : ℝ
  ratio : ℝ
  charStress : ℝ
  charDisp : ℝ

/-- The ranges of the parameter file (`source/run_time_parameters.cc:269-293`), with a positive
critical opening and positive characteristic quantities. -/
def Coh.sensible (c : Coh) : Prop :=
  0 ≤ c.tc ∧ 0 < c.δc ∧ 0 ≤ c.ratio ∧ 0 < c.charStress ∧ 0 < c.charDisp

/-- `symmetrize(outer_product(n, n))` (`source/constitutive_laws.cc:1381-1383`). -/
noncomputable def normalProjector {d : ℕ} (n : Vec d) : Mat d := symmetrize (outer n n)

/-- `unit_symmetric_tensor − normal_projector` (`source/constitutive_laws.cc:1385-1386`). -/
noncomputable def tangentialProjector {d : ℕ} (n : Vec d) : Mat d := 1 - normalProjector n

/-- `get_effective_opening_displacement` (`source/constitutive_laws.cc:1375-1407`). -/
noncomputable def effOpening {d : ℕ} (c : Coh) (δ n : Vec d) : ℝ :=
  let t := norm2 (tangentialProjector n *ᵥ δ)
  √(macaulay (n ⬝ᵥ δ) * macaulay (n ⬝ᵥ δ) + c.ratio * c.ratio * t * t)

/-- The un-normalised effective direction (`source/constitutive_laws.cc:1445-1450`). -/
noncomputable def rawDirection {d : ℕ} (c : Coh) (δ n : Vec d) : Vec d :=
  macaulay (n ⬝ᵥ δ) • n + (c.ratio * c.ratio) • (tangentialProjector n *ᵥ δ)

/-- The effective direction (`source/constitutive_laws.cc:1445-1453`). -/
noncomputable def direction {d : ℕ} (c : Coh) (δ n : Vec d) : Vec d :=
  if effOpening c δ n ≠ 0 then (effOpening c δ n)⁻¹ • rawDirection c δ n else rawDirection c δ n

/-- The effective identity tensor (`source/constitutive_laws.cc:1455-1463`). -/
noncomputable def effIdentity {d : ℕ} (c : Coh) (δ n : Vec d) : Mat d :=
  macaulayUnit (n ⬝ᵥ δ) • normalProjector n + (c.ratio * c.ratio) • tangentialProjector n

/-- `get_effective_cohesive_traction` (`include/gCP/constitutive_laws.h:512-523`). -/
noncomputable def Coh.scalar (c : Coh) (x : ℝ) : ℝ :=
  c.tc * x / c.δc * Real.exp (1 - x / c.δc)

/-- `CohesiveLaw::get_free_energy_density` (`source/constitutive_laws.cc:1350-1371`). -/
noncomputable def Coh.energy (c : Coh) (x : ℝ) : ℝ :=
  c.tc * c.δc * Real.exp 1 * (1 - (1 + x / c.δc) * Real.exp (-x / c.δc))

/-- The three branches of `get_cohesive_traction` and `get_jacobian`
(`source/constitutive_laws.cc:1229-1257,1303-1339`). -/
inductive Branch | loading | unloading | neither
  deriving DecidableEq

open Classical in
/-- Branch selection. -/
noncomputable def branch (eff mx old dt : ℝ) : Branch :=
  let rate := (eff - old) / dt
  if eff = mx ∧ 0 ≤ rate then .loading
  else if eff < mx ∨ (eff = mx ∧ rate < 0) then .unloading
  else .neither

/-- `get_cohesive_traction` (`source/constitutive_laws.cc:1190-1264`). `none`: the division by a
vanishing maximum opening, `0·0/0`, makes all components NaN. -/
noncomputable def Coh.traction {d : ℕ} (c : Coh) (δ n : Vec d) (mx old dt : ℝ) :
    Option (Vec d) :=
  let eff := effOpening c δ n
  match branch eff mx old dt with
  | .loading => some (c.charStress⁻¹ • (c.scalar (c.charDisp * eff) • direction c δ n))
  | .unloading =>
    if mx = 0 then none
    else some (c.charStress⁻¹ •
      ((c.scalar (c.charDisp * mx) * eff / mx) • direction c δ n))
  | .neither => some (c.charStress⁻¹ • direction c δ n)

/-- `CohesiveLaw::get_jacobian` (`source/constitutive_laws.cc:1268-1347`). -/
noncomputable def Coh.jacobian {d : ℕ} (c : Coh) (δ n : Vec d) (mx old dt : ℝ) :
    Option (Mat d) :=
  let eff := effOpening c δ n
  match branch eff mx old dt with
  | .loading => some (c.charStress⁻¹ •
      ((c.tc / c.δc * Real.exp (1 - c.charDisp * eff / c.δc)) •
        (effIdentity c δ n - (c.charDisp * eff / c.δc) •
          symmetrize (outer (direction c δ n) (direction c δ n)))))
  | .unloading =>
    if mx = 0 then none
    else some (c.charStress⁻¹ •
      ((c.scalar (c.charDisp * mx) / c.charDisp / mx) • effIdentity c δ n))
  | .neither => some 0

/-- `InterfaceQuadraturePointHistory::store_effective_opening_displacement`
(`source/gradient_crystal_plasticity/quadrature_point_history.cc:228-266`): the value it records.
The solver passes the displacements of neighbour and current cell in exchanged order
(`source/gradient_crystal_plasticity/assembly.cc:1689-1691`), so the opening has the opposite
sign. -/
noncomputable def storedOpening {d : ℕ} (ratio : ℝ) (uCurrent uNeighbour n : Vec d) : ℝ :=
  let δ := uCurrent - uNeighbour
  let a := norm2 (normalProjector n *ᵥ δ)
  let t := norm2 (tangentialProjector n *ᵥ δ)
  √(macaulay a * macaulay a + ratio * ratio * t * t)

/-! ## Contact -/

/-- Parameters of `ContactLaw` (`source/constitutive_laws.cc:1485-1494`). -/
structure Contact where
  penalty : ℝ
  charStress : ℝ
  charDisp : ℝ

/-- `ContactLaw::get_contact_traction` (`source/constitutive_laws.cc:1498-1524`). -/
noncomputable def Contact.traction {d : ℕ} (c : Contact) (δ n : Vec d) : Vec d :=
  -((c.penalty / c.charStress * c.charDisp * macaulay (-(δ ⬝ᵥ n))) • n)

/-- `ContactLaw::get_jacobian` (`source/constitutive_laws.cc:1528-1557`). -/
noncomputable def Contact.jacobian {d : ℕ} (c : Contact) (δ n : Vec d) : Mat d :=
  (c.penalty / c.charStress * macaulayUnit (-(δ ⬝ᵥ n))) • normalProjector n

/-! ## Degradation -/

/-- `get_degradation_function_value` (`include/gCP/constitutive_laws.h:549-562`), damage at most
one. -/
noncomputable def degradation (exponent damage : ℝ) (couple : Bool) : ℝ :=
  if couple then (1 - damage) ^ exponent else 1

/-- `get_degradation_function_derivative_value` (`include/gCP/constitutive_laws.h:566-580`); `none`
is the infinite power of zero. -/
noncomputable def degradationDerivative (exponent damage : ℝ) (couple : Bool) : Option ℝ :=
  if couple then (fpow (1 - damage) (exponent - 1)).map (-exponent * ·) else some 1

end Verif.Itf
