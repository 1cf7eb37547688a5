import Verif.Model.History

/-!
# Scratch data of the history update

The thread-local buffers of `update_local_quadrature_point_history`, with checked indices, and their
reuse from cell to cell.
-/

namespace Verif.Scr
open Verif.Hist

/-- What may go wrong: an access outside a buffer (undefined behaviour), or a failed assertion, which
exists in debug builds only. -/
inductive Fault
  | outOfBounds
  | assertion
  deriving DecidableEq

/-- `std::vector<std::vector<double>>` with `rows` vectors of `cols` entries each. No code changes
these sizes after construction. Values outside are meaningless. -/
structure Buf where
  rows : ℕ
  cols : ℕ
  val : ℕ → ℕ → ℝ

/-- `b[s][q] = v`. -/
def Buf.write (b : Buf) (s q : ℕ) (v : ℝ) : Except Fault Buf :=
  if s < b.rows ∧ q < b.cols then
    .ok { b with val := Function.update b.val s (Function.update (b.val s) q v) }
  else .error .outOfBounds

/-- Reading `b[s][q]`. -/
def Buf.read (b : Buf) (s q : ℕ) : Except Fault ℝ :=
  if s < b.rows ∧ q < b.cols then .ok (b.val s q) else .error .outOfBounds

/-- `FEValuesViews::Scalar::get_function_values(…, b[s])` with `nQ` values (deal.II contract): the
argument must have one entry per quadrature point, which is asserted in debug builds; in release
builds all entries are set to zero and the first `nQ` receive the values. -/
def Buf.fill (debug : Bool) (nQ : ℕ) (b : Buf) (s : ℕ) (v : ℕ → ℝ) : Except Fault Buf :=
  if ¬ s < b.rows then .error .outOfBounds
  else if debug ∧ b.cols ≠ nQ then .error .assertion
  else if b.cols < nQ then .error .outOfBounds
  else .ok { b with val := Function.update b.val s fun q => if q < nQ then v q else 0 }

/-- `QuadraturePointHistory::Scratch`: the buffers `slips_values`, `old_slips_values`,
`face_slip_values` and `neighbor_face_slip_values`
(`source/gradient_crystal_plasticity/assembly_data.cc:407-460`). -/
structure Scratch where
  nSlips : ℕ
  slips : Buf
  old : Buf
  face : Buf
  neighbor : Buf

/-- Both constructors (`assembly_data.cc:418-509`): all four buffers get one vector of `nQ` zeros per
slip system; the face buffers too, although a face has fewer quadrature points. -/
def Scratch.new (nSlips nQ : ℕ) : Scratch :=
  let b : Buf := ⟨nSlips, nQ, fun _ _ => 0⟩
  ⟨nSlips, b, b, b, b⟩

/-- `Scratch::reset` (`assembly_data.cc:512-524`). The upper limit of the loop over the quadrature
points is `slips_values.size()`. -/
def Scratch.reset (x : Scratch) : Except Fault Scratch :=
  let nQPoints := x.slips.rows
  (List.range x.nSlips).foldlM (fun x s => (List.range nQPoints).foldlM (fun x q => do
    let a ← x.slips.write s q 0
    let b ← x.old.write s q 0
    pure { x with slips := a, old := b }) x) x

/-- A cell: history at its quadrature points, slips of the trial and of the old solution there. -/
structure Cell (n nQ : ℕ) where
  hist : Fin nQ → Bulk n
  trial : ℕ → ℕ → ℝ
  old : ℕ → ℕ → ℝ

/-- Loop over the slip systems that reads the solutions (`assembly.cc:1379-1396`). -/
def readSlips (debug : Bool) (n nQ : ℕ) (trial old : ℕ → ℕ → ℝ) (x : Scratch) : Except Fault Scratch :=
  (List.range n).foldlM (fun x s => do
    let a ← x.slips.fill debug nQ s (trial s)
    let b ← x.old.fill debug nQ s (old s)
    pure { x with slips := a, old := b }) x

/-- Loop over the quadrature points with `QuadraturePointHistory::update_values`, which reads both
buffers (`assembly.cc:1398-1405`,
`source/gradient_crystal_plasticity/quadrature_point_history.cc:343-374`). With perfect plasticity the
code returns before it reads; the model asks for readable entries in that case too. -/
noncomputable def updatePoints {n nQ : ℕ} (x : Scratch) (hist : Fin nQ → Bulk n) :
    Except Fault (Fin nQ → Bulk n) :=
  if ∀ (q : Fin nQ) (s : Fin n), (s.1 < x.slips.rows ∧ q.1 < x.slips.cols) ∧
      s.1 < x.old.rows ∧ q.1 < x.old.cols then
    .ok fun q => (hist q).update (fun s => x.slips.val s q) fun s => x.old.val s q
  else .error .outOfBounds

/-- Bulk part of `update_local_quadrature_point_history`
(`source/gradient_crystal_plasticity/assembly.cc:1353-1407`): the new history of the cell and the
scratch data left for the next cell. -/
noncomputable def worker {n nQ : ℕ} (debug : Bool) (c : Cell n nQ) (x : Scratch) :
    Except Fault ((Fin nQ → Bulk n) × Scratch) := do
  let x ← x.reset
  let x ← readSlips debug n nQ c.trial c.old x
  let h ← updatePoints x c.hist
  pure (h, x)

/-- A thread processes its cells one after the other with one scratch object
(`assembly.cc:1331-1346`, `dealii::WorkStream`). -/
noncomputable def thread {n nQ : ℕ} (debug : Bool) :
    List (Cell n nQ) → Scratch → Except Fault (List (Fin nQ → Bulk n))
  | [], _ => pure []
  | c :: cs, x => do
    let (h, x) ← worker debug c x
    let hs ← thread debug cs x
    pure (h :: hs)

/-- Quadrature points of a cell and of a face: `QGauss(3)`
(`source/gradient_crystal_plasticity/gradient_crystal_plasticity_solver.cc:143-150`). -/
def nPoints (d : ℕ) : ℕ := 3 ^ d

/-- Slips of both sides at the points of an interface (`assembly.cc:1459-1472`). -/
def readFaceSlips (debug : Bool) (n nF : ℕ) (current neighbor : ℕ → ℕ → ℝ) (x : Scratch) :
    Except Fault Scratch :=
  (List.range n).foldlM (fun x s => do
    let a ← x.face.fill debug nF s (current s)
    let b ← x.neighbor.fill debug nF s (neighbor s)
    pure { x with face := a, neighbor := b }) x

end Verif.Scr
