import Verif.Model.Scratch
import Verif.Model.Crystal

/-!
# Reuse and bounds of the scratch data of the history update: C87
-/

namespace Verif.Scr
open Verif.Hist

/-! ## Specification -/

/-- What a cell's history becomes: every quadrature point is updated with the slips there. -/
noncomputable def SpecUpdated {n nQ : ℕ} (c : Cell n nQ) : Fin nQ → Bulk n := fun q =>
  (c.hist q).update (fun s => c.trial s q) fun s => c.old s q

/-- Scratch data as the constructors make them, with arbitrary contents left over from other cells. -/
structure SpecShape (n nQ : ℕ) (x : Scratch) : Prop where
  slips : x.nSlips = n
  rows : x.slips.rows = n ∧ x.old.rows = n ∧ x.face.rows = n ∧ x.neighbor.rows = n
  cols : x.slips.cols = nQ ∧ x.old.cols = nQ ∧ x.face.cols = nQ ∧ x.neighbor.cols = nQ

/-! ## Helpers -/

theorem shape_new (n nQ : ℕ) : SpecShape n nQ (Scratch.new n nQ) :=
  ⟨rfl, ⟨rfl, rfl, rfl, rfl⟩, rfl, rfl, rfl, rfl⟩

theorem foldlM_inv {α β : Type} (P : α → Prop) (f : α → β → Except Fault α) (l : List β)
    (hf : ∀ a, P a → ∀ b ∈ l, ∃ a', f a b = .ok a' ∧ P a') (a : α) (ha : P a) :
    ∃ a', l.foldlM f a = .ok a' ∧ P a' := by
  induction l generalizing a with
  | nil => exact ⟨a, rfl, ha⟩
  | cons b l ih =>
    obtain ⟨a', h1, h2⟩ := hf a ha b List.mem_cons_self
    obtain ⟨a'', h3, h4⟩ := ih (fun a ha c hc => hf a ha c (List.mem_cons_of_mem _ hc)) a' h2
    refine ⟨a'', ?_, h4⟩
    rw [List.foldlM_cons, h1]
    exact h3

theorem write_ok (b : Buf) {s q : ℕ} (v : ℝ) (h : s < b.rows ∧ q < b.cols) : b.write s q v =
    .ok { b with val := Function.update b.val s (Function.update (b.val s) q v) } := by
  unfold Buf.write
  rw [if_pos h]

theorem reset_step {n nQ : ℕ} {y : Scratch} (hy : SpecShape n nQ y) {s q : ℕ} (hs : s < n)
    (hq : q < nQ) : ∃ y', (do
      let a ← y.slips.write s q 0
      let b ← y.old.write s q 0
      pure { y with slips := a, old := b } : Except Fault Scratch) = .ok y' ∧ SpecShape n nQ y' := by
  rw [write_ok y.slips 0 (by rw [hy.rows.1, hy.cols.1]; exact ⟨hs, hq⟩),
    write_ok y.old 0 (by rw [hy.rows.2.1, hy.cols.2.1]; exact ⟨hs, hq⟩)]
  exact ⟨_, rfl, hy.slips, hy.rows, hy.cols⟩

theorem reset_ok {n nQ : ℕ} {x : Scratch} (hx : SpecShape n nQ x) (h : n ≤ nQ) :
    ∃ x', x.reset = .ok x' ∧ SpecShape n nQ x' := by
  unfold Scratch.reset
  simp only
  refine foldlM_inv (SpecShape n nQ) _ _ (fun x' hx' s hs => ?_) x hx
  refine foldlM_inv (SpecShape n nQ) _ _ (fun y hy q hq => ?_) x' hx'
  rw [List.mem_range, hx.slips] at hs
  rw [List.mem_range, hx.rows.1] at hq
  exact reset_step hy hs (by omega)

/-- Entries written so far by the loop over the slip systems. -/
theorem readSlips_ok {n nQ : ℕ} (debug : Bool) (trial old : ℕ → ℕ → ℝ) {x : Scratch}
    (hx : SpecShape n nQ x) : ∃ x', readSlips debug n nQ trial old x = .ok x' ∧ SpecShape n nQ x' ∧
      ∀ s < n, ∀ q < nQ, x'.slips.val s q = trial s q ∧ x'.old.val s q = old s q := by
  have key : ∀ m ≤ n, ∃ x', (List.range m).foldlM (fun x s => do
      let a ← x.slips.fill debug nQ s (trial s)
      let b ← x.old.fill debug nQ s (old s)
      pure { x with slips := a, old := b }) x = (.ok x' : Except Fault Scratch) ∧ SpecShape n nQ x' ∧
      ∀ s < m, ∀ q < nQ, x'.slips.val s q = trial s q ∧ x'.old.val s q = old s q := by
    intro m hm
    induction m with
    | zero => exact ⟨x, rfl, hx, by intro s hs; omega⟩
    | succ m ih =>
      obtain ⟨y, h1, hy, h2⟩ := ih (by omega)
      have e : ∀ (b : Buf) (v : ℕ → ℝ), b.rows = n → b.cols = nQ → b.fill debug nQ m v =
          .ok { b with val := Function.update b.val m fun q => if q < nQ then v q else 0 } := by
        intro b v hr hc
        unfold Buf.fill
        rw [if_neg (by omega), if_neg (by simp [hc]), if_neg (by omega)]
      refine ⟨{ y with
        slips := { y.slips with val := (Function.update y.slips.val m fun q =>
          if q < nQ then trial m q else 0) },
        old := { y.old with val := (Function.update y.old.val m fun q =>
          if q < nQ then old m q else 0) } }, ?_, ⟨hy.slips, hy.rows, hy.cols⟩, ?_⟩
      · rw [List.range_succ, List.foldlM_append, h1]
        show (y.slips.fill debug nQ m (trial m) >>= fun a => _) >>= _ = _
        rw [e _ _ hy.rows.1 hy.cols.1]
        show (y.old.fill debug nQ m (old m) >>= fun a => _) >>= _ = _
        rw [e _ _ hy.rows.2.1 hy.cols.2.1]
        rfl
      · intro s hs q hq
        show Function.update y.slips.val m _ s q = _ ∧ Function.update y.old.val m _ s q = _
        by_cases h : s = m
        · subst h
          rw [Function.update_self, Function.update_self, if_pos hq, if_pos hq]
          exact ⟨rfl, rfl⟩
        · rw [Function.update_of_ne h, Function.update_of_ne h]
          exact h2 s (by omega) q hq
  exact key n le_rfl

/-! ## C87 -/

/-- C87: with at most as many slip systems as quadrature points a cell's update stays inside the
buffers and its result does not depend on what is left in them. -/
theorem C87_cell {n nQ : ℕ} (debug : Bool) (c : Cell n nQ) (x : Scratch) (hx : SpecShape n nQ x)
    (h : n ≤ nQ) : ∃ x', worker debug c x = .ok (SpecUpdated c, x') ∧ SpecShape n nQ x' := by
  obtain ⟨y, h1, hy⟩ := reset_ok hx h
  obtain ⟨z, h2, hz, h3⟩ := readSlips_ok debug c.trial c.old hy
  refine ⟨z, ?_, hz⟩
  unfold worker
  rw [h1]
  show (readSlips debug n nQ c.trial c.old y >>= fun x => _) = _
  rw [h2]
  show (updatePoints z c.hist >>= fun h => _) = _
  unfold updatePoints
  rw [if_pos]
  · show Except.ok (_, z) = _
    congr 2
    funext q
    unfold SpecUpdated
    congr 1
    · funext s; exact (h3 s s.2 q q.2).1
    · funext s; exact (h3 s s.2 q q.2).2
  · intro q s
    rw [hz.rows.1, hz.cols.1, hz.rows.2.1, hz.cols.2.1]
    exact ⟨⟨s.2, q.2⟩, s.2, q.2⟩

/-- C87: so a thread may process any cells in any order with one scratch object. -/
theorem C87_thread {n nQ : ℕ} (debug : Bool) (cells : List (Cell n nQ)) (x : Scratch)
    (hx : SpecShape n nQ x) (h : n ≤ nQ) : thread debug cells x = .ok (cells.map SpecUpdated) := by
  induction cells generalizing x with
  | nil => rfl
  | cons c cs ih =>
    obtain ⟨x', h1, h2⟩ := C87_cell debug c x hx h
    unfold thread
    rw [h1]
    show (thread debug cs x' >>= fun hs => _) = _
    rw [ih x' h2]
    rfl

/-- C87: however the cells are dealt out to threads, whatever the scratch objects contain, every cell
ends with the same history. -/
theorem C87_schedule {n nQ : ℕ} (debug : Bool) (threads : List (List (Cell n nQ) × Scratch))
    (hx : ∀ t ∈ threads, SpecShape n nQ t.2) (h : n ≤ nQ) :
    threads.mapM (fun t => thread debug t.1 t.2) =
      .ok (threads.map fun t => t.1.map SpecUpdated) := by
  induction threads with
  | nil => rfl
  | cons t ts ih =>
    rw [List.mapM_cons, C87_thread debug t.1 t.2 (hx t List.mem_cons_self) h]
    show (List.mapM (m := Except Fault) (fun t => thread debug t.1 t.2) ts >>= fun l => _) = _
    rw [ih fun t' ht' => hx t' (List.mem_cons_of_mem _ ht')]
    rfl

theorem reset_fault {n nQ : ℕ} {x : Scratch} (hx : SpecShape n nQ x) (h : nQ < n) :
    x.reset = .error .outOfBounds := by
  unfold Scratch.reset
  simp only
  rw [hx.rows.1, hx.slips]
  obtain ⟨m, rfl⟩ : ∃ m, n = m + 1 := ⟨n - 1, by omega⟩
  have inner : (List.range (m + 1)).foldlM (fun (x : Scratch) q => do
      let a ← x.slips.write 0 q 0
      let b ← x.old.write 0 q 0
      pure { x with slips := a, old := b }) x = (.error .outOfBounds : Except Fault Scratch) := by
    have key : ∀ k ≤ nQ, ∃ x', (List.range k).foldlM (fun (x : Scratch) q => do
        let a ← x.slips.write 0 q 0
        let b ← x.old.write 0 q 0
        pure { x with slips := a, old := b }) x = (.ok x' : Except Fault Scratch) ∧
        SpecShape (m + 1) nQ x' := by
      intro k hk
      refine foldlM_inv (SpecShape (m + 1) nQ) _ _ (fun y hy q hq => ?_) x hx
      rw [List.mem_range] at hq
      exact reset_step hy (by omega) (by omega)
    obtain ⟨y, h1, hy⟩ := key nQ le_rfl
    have hsplit : List.range (m + 1) = List.range nQ ++ (nQ :: (List.range (m - nQ)).map (nQ + 1 + ·)) := by
      have e : m + 1 = nQ + (m - nQ + 1) := by omega
      rw [e, List.range_add]
      congr 1
      rw [List.range_succ_eq_map, List.map_cons, List.map_map]
      congr 1
      refine List.map_congr_left fun a _ => ?_
      show nQ + (a + 1) = nQ + 1 + a
      omega
    have hw : y.slips.write 0 nQ 0 = .error .outOfBounds := by
      unfold Buf.write
      rw [if_neg (by rw [hy.cols.1]; omega)]
    rw [hsplit, List.foldlM_append, h1]
    simp only [List.foldlM_cons]
    refine Eq.trans (b := (((y.slips.write 0 nQ 0 >>= fun a => _) : Except Fault Scratch) >>= _)) rfl ?_
    rw [hw]
    rfl
  rw [List.range_succ_eq_map, List.foldlM_cons]
  rw [← List.range_succ_eq_map, inner]
  rfl

/-- C87 fails with more slip systems than quadrature points: then every update, already of the first
cell, writes behind the end of a buffer. -/
theorem C87_violated {n nQ : ℕ} (debug : Bool) (c : Cell n nQ) (x : Scratch) (hx : SpecShape n nQ x)
    (h : nQ < n) : worker debug c x = .error .outOfBounds := by
  unfold worker
  rw [reset_fault hx h]
  rfl

/-- C87: the number of slip systems is what the crystal data files say; the update is safe exactly up
to 9 systems in two and 27 in three dimensions. -/
theorem C87_limit {n : ℕ} (d : ℕ) (debug : Bool) (c : Cell n (nPoints d)) :
    (∃ r, worker debug c (Scratch.new n (nPoints d)) = .ok r) ↔ n ≤ 3 ^ d := by
  constructor
  · rintro ⟨r, hr⟩
    by_contra hn
    rw [C87_violated debug c _ (shape_new n (nPoints d)) (by unfold nPoints; omega)] at hr
    exact absurd hr (by simp)
  · intro hn
    obtain ⟨x', h, -⟩ := C87_cell debug c _ (shape_new n (nPoints d)) hn
    exact ⟨_, h⟩

/-- C87: at interfaces, release build: the slips of both sides at every face quadrature point are in
the buffers, whatever was left in them. -/
theorem C87_face_release {n nQ nF : ℕ} (hF : nF ≤ nQ) (current neighbor : ℕ → ℕ → ℝ) (x : Scratch)
    (hx : SpecShape n nQ x) : ∃ x', readFaceSlips false n nF current neighbor x = .ok x' ∧
      SpecShape n nQ x' ∧ ∀ s < n, ∀ q < nF,
        x'.face.read s q = .ok (current s q) ∧ x'.neighbor.read s q = .ok (neighbor s q) := by
  have key : ∀ m ≤ n, ∃ x', (List.range m).foldlM (fun x s => do
      let a ← x.face.fill false nF s (current s)
      let b ← x.neighbor.fill false nF s (neighbor s)
      pure { x with face := a, neighbor := b }) x = (.ok x' : Except Fault Scratch) ∧ SpecShape n nQ x' ∧
      ∀ s < m, ∀ q < nF, x'.face.val s q = current s q ∧ x'.neighbor.val s q = neighbor s q := by
    intro m hm
    induction m with
    | zero => exact ⟨x, rfl, hx, by intro s hs; omega⟩
    | succ m ih =>
      obtain ⟨y, h1, hy, h2⟩ := ih (by omega)
      have e : ∀ (b : Buf) (v : ℕ → ℝ), b.rows = n → b.cols = nQ → b.fill false nF m v =
          .ok { b with val := Function.update b.val m fun q => if q < nF then v q else 0 } := by
        intro b v hr hc
        unfold Buf.fill
        rw [if_neg (by omega), if_neg (by simp), if_neg (by omega)]
      refine ⟨{ y with
        face := { y.face with val := (Function.update y.face.val m fun q =>
          if q < nF then current m q else 0) },
        neighbor := { y.neighbor with val := (Function.update y.neighbor.val m fun q =>
          if q < nF then neighbor m q else 0) } }, ?_, ⟨hy.slips, hy.rows, hy.cols⟩, ?_⟩
      · rw [List.range_succ, List.foldlM_append, h1]
        show (y.face.fill false nF m (current m) >>= fun a => _) >>= _ = _
        rw [e _ _ hy.rows.2.2.1 hy.cols.2.2.1]
        show (y.neighbor.fill false nF m (neighbor m) >>= fun a => _) >>= _ = _
        rw [e _ _ hy.rows.2.2.2 hy.cols.2.2.2]
        rfl
      · intro s hs q hq
        show Function.update y.face.val m _ s q = _ ∧ Function.update y.neighbor.val m _ s q = _
        by_cases h : s = m
        · subst h
          rw [Function.update_self, Function.update_self, if_pos hq, if_pos hq]
          exact ⟨rfl, rfl⟩
        · rw [Function.update_of_ne h, Function.update_of_ne h]
          exact h2 s (by omega) q hq
  obtain ⟨x', h1, h2, h3⟩ := key n le_rfl
  refine ⟨x', h1, h2, fun s hs q hq => ?_⟩
  unfold Buf.read
  rw [h2.rows.2.2.1, h2.rows.2.2.2, h2.cols.2.2.1, h2.cols.2.2.2, if_pos ⟨hs, by omega⟩,
    if_pos ⟨hs, by omega⟩, (h3 s hs q hq).1, (h3 s hs q hq).2]
  exact ⟨rfl, rfl⟩

/-- C87: in a debug build the same loop fails deal.II's size check as soon as there is a slip system:
the buffers have one entry per point of the cell, not of the face. -/
theorem C87_violated_debug {n d : ℕ} (hn : 0 < n) (current neighbor : ℕ → ℕ → ℝ) (x : Scratch)
    (hx : SpecShape n (nPoints (d + 1)) x) :
    readFaceSlips true n (nPoints d) current neighbor x = .error .assertion := by
  obtain ⟨m, rfl⟩ : ∃ m, n = m + 1 := ⟨n - 1, by omega⟩
  unfold readFaceSlips
  rw [List.range_succ_eq_map, List.foldlM_cons]
  show (x.face.fill true (nPoints d) 0 (current 0) >>= fun a => _) >>= _ = _
  have : x.face.cols ≠ nPoints d := by
    rw [hx.cols.2.2.1]
    unfold nPoints
    have : 0 < 3 ^ d := by positivity
    omega
  unfold Buf.fill
  rw [if_neg (by rw [hx.rows.2.2.1]; omega), if_pos ⟨rfl, this⟩]
  rfl

/-! ## Concrete cases -/

/-- Twelve systems in three dimensions, two cells, the second with other slips: fine. -/
example (h : Bulk 12) : thread (nQ := nPoints 3) true [⟨fun _ => h, fun s q => s + q, fun _ _ => 0⟩,
      ⟨fun _ => h, fun s q => s * q, fun _ _ => 1⟩] (Scratch.new 12 (nPoints 3)) =
    .ok [fun q => h.update (fun s => (s : ℝ) + q) fun _ => 0,
      fun q => h.update (fun s => (s : ℝ) * q) fun _ => 1] :=
  (C87_thread true [⟨fun _ => h, fun s q => s + q, fun _ _ => 0⟩,
      ⟨fun _ => h, fun s q => s * q, fun _ _ => 1⟩] _ (shape_new 12 (nPoints 3)) (by norm_num [nPoints])).trans
    rfl

/-- The 48 systems of a body-centred cubic crystal in three dimensions: undefined behaviour. -/
example (h : Bulk 48) : worker false (⟨fun _ => h, fun _ _ => 0, fun _ _ => 0⟩ : Cell 48 (nPoints 3))
    (Scratch.new 48 (nPoints 3)) = .error .outOfBounds :=
  C87_violated false _ _ (shape_new 48 (nPoints 3)) (by norm_num [nPoints])

end Verif.Scr
