import Verif.Model.Rounded

/-!
# Schmid tensors in double precision
-/

namespace Verif.Fp
open Cry

variable (fl : ℝ → ℝ)

/-- `dealii::outer_product(direction, normal)` (`source/crystal_data.cc:442-444`). -/
def schmid {d : ℕ} (s : System d) : Mat d := Matrix.of fun i j => fl (s.direction i * s.normal j)

/-- `dealii::symmetrize` of the Schmid tensor (`source/crystal_data.cc:446-447`): diagonal entries are
copied, the others are halved sums. -/
noncomputable def symSchmid {d : ℕ} (s : System d) : Mat d := Matrix.of fun i j =>
  if i = j then schmid fl s i i else fl (fl (schmid fl s i j + schmid fl s j i) / 2)

end Verif.Fp
