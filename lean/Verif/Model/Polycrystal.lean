import Verif.Model.Face

/-!
# The whole local right-hand side of a cell

Cell integral, grain boundary integral and boundary integral together.
-/

namespace Verif.Asm
open Matrix Finset Verif.Cry Verif.Hist Verif.Micro Verif.Itf

/-- A quadrature point of a grain boundary face as one of its two cells sees it: own and neighbour
crystal, outward normal, shape functions of both cells and the degrees of freedom of the neighbour
(`source/gradient_crystal_plasticity/assembly.cc:890-980`). -/
structure View (d e n N : ℕ) where
  prm : FacePrm d e
  own : Crystal d n
  other : Crystal d n
  nrm : Vec d
  jxw : ℝ
  hist : Iface
  cur : Side d n N
  nb : Side d n N
  nbDofs : Fin N → ℕ

/-- The same face as the other cell sees it, `dofs` being the degrees of freedom of the first one:
crystals, shape functions and normal change places (`assembly.cc:894-913`). -/
def View.flip {d e n N : ℕ} (f : View d e n N) (dofs : Fin N → ℕ) : View d e n N :=
  ⟨f.prm, f.other, f.own, -f.nrm, f.jxw, f.hist, f.nb, f.cur, dofs⟩

/-- A quadrature point of a loaded face at the boundary of the body (`assembly.cc:1101-1141`). -/
structure Loaded (d n N : ℕ) where
  side : Side d n N
  value : Vec d
  jxw : ℝ

/-- `local_rhs(i)` of a cell: quadrature points of the cell, of its grain boundary faces and of its
loaded faces, in the state `u` of all degrees of freedom (`assembly.cc:767-1141`). Every face is listed
by its quadrature points; `none`: NaN. -/
noncomputable def localRhs {d e n N Q F B : ℕ} (c : CellPrm d n) (kind : Kind n N)
    (pts : Fin Q → Point d n N) (dofs : Fin N → ℕ) (views : Fin F → View d e n N)
    (loads : Fin B → Loaded d n N) (u : ℕ → ℝ) (i : Fin N) : Option ℝ :=
  (c.rhs kind pts (u ∘ dofs) i).bind fun x =>
    (sumOpt fun f => (views f).prm.rhsTerm kind (views f).own (views f).other (views f).nrm
      (views f).jxw (views f).hist (views f).cur (views f).nb (u ∘ dofs) (u ∘ (views f).nbDofs) i).map
    fun y => x + y + ∑ b, neumannTerm (loads b).side (loads b).value (loads b).jxw i

end Verif.Asm
