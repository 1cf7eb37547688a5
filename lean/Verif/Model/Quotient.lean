import Verif.Model.Assembly

/-!
# The difference quotient approximation of the Jacobian
-/

namespace Verif.Asm
open Matrix Finset Verif.Cry Verif.Hist Verif.Micro

/-- `pseudo_slip_resistance` for row slip `a` when the slip of system `b` is perturbed by `δ`
(`source/gradient_crystal_plasticity/assembly.cc:2953-2991`). -/
noncomputable def pseudoResistance {n : ℕ} (p : Hardening) (tmp slips old : Fin n → ℝ)
    (a b : Fin n) (δ : ℝ) : ℝ :=
  if p.perfect then tmp a
  else tmp a + ∑ s, p.modulus / p.characteristic *
    (p.parameter + (if a = s then 1 - p.parameter else 0)) *
      |slips s + (if b = s then 1 else 0) * δ - old s|

/-- `pseudo_sigmoid_function` (`assembly.cc:2993-3026`). -/
noncomputable def pseudoSigmoid {n : ℕ} (l : Law) (slips old : Fin n → ℝ) (dt : ℝ) (a b : Fin n)
    (δ : ℝ) : ℝ :=
  let rate := (slips a + (if l.rateIndependent then 0 else 1) * (if a = b then 1 else 0) * δ -
    old a) / dt
  if l.rateIndependent then sgn rate else sigmoid rate l.k l.f

/-- `compute_difference_quotients_jacobian_approximation`: contribution of a quadrature point to
`local_matrix(i,j)` for step length `h` (`assembly.cc:2735-3068`).  The history was stored and
updated at the trial solution before (`2594-2598`).  For `h = 0` the code divides by zero; the
theorems assume `h ≠ 0`. -/
noncomputable def CellPrm.dqTerm {d n N : ℕ} (c : CellPrm d n) (kind : Kind n N)
    (p : Point d n N) (u : Fin N → ℝ) (h : ℝ) (i j : Fin N) : Option ℝ :=
  let s := p.shape
  let plastic := plasticStrain ((List.finRange n).map fun a => (c.sys a, s.slip u a))
  let factor := c.dn3 / c.dn0
  match kind i, kind j with
  | none, none => some (factor *
      (sandwich (s.symGrad i) c.tetrad (s.strain u + h • s.symGrad j - c.dn0 • plastic) -
        ddot (s.symGrad i) (c.stressAt s u)) * s.jxw / h)
  | none, some b => some (factor *
      (sandwich (s.symGrad i) c.tetrad
          (s.strain u - c.dn0 • plastic - (h * s.phi b j) • (c.sys b).symSchmid) -
        ddot (s.symGrad i) (c.stressAt s u)) * s.jxw / h)
  | some a, none => some (
      ((-1 * s.phi a i * c.dn3 * sandwich (c.sys a).symSchmid c.tetrad
          (s.strain u + h • s.symGrad j - c.dn0 • plastic)) -
        (-1 * s.phi a i * c.dn3 * resolvedShear (c.sys a) (c.stressAt s u))) * s.jxw / h)
  | some a, some b =>
    (c.vec.jacobian (c.sys a) (s.slipGrad u a)).bind fun J =>
      (c.vec.microstress (c.sys a) (s.slipGrad u a)).map fun x =>
        ((c.dn2 * ((s.grad a i ᵥ* J) ⬝ᵥ
            (s.slipGrad u a + (h * (if a = b then 1 else 0)) • s.grad b j)) -
          s.phi a i * (c.dn3 * sandwich (c.sys a).symSchmid c.tetrad
              (s.strain u - c.dn0 • plastic - (h * s.phi b j) • (c.sys b).symSchmid) -
            pseudoResistance c.law.hard p.hist.tmp (s.slip u) p.old a b (h * s.phi b j) *
              pseudoSigmoid c.law (s.slip u) p.old c.dt a b (h * s.phi b j))) -
         (c.dn2 * (s.grad a i ⬝ᵥ x) -
          s.phi a i * (c.dn3 * resolvedShear (c.sys a) (c.stressAt s u) -
            c.law.evalMicrostress p.hist (s.slip u) p.old c.dt a))) * s.jxw / h

end Verif.Asm
