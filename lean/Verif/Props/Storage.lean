import Verif.Model.Storage
import Mathlib.Data.List.Nodup
import Mathlib.Tactic.SplitIfs
import Mathlib.Tactic.Common

/-!
# Properties of the interface storage: C25
-/

namespace Verif.Store
variable {C : Type*} [LinearOrder C]

/-- The faces of owned cells that lie on a grain boundary (specification): the two cells
have different material ids. -/
def GrainBoundary (cells : List (Cell C)) (a b : C) : Prop :=
  ∃ c ∈ cells, c.owned = true ∧ ∃ n m, Face.interior n m ∈ c.faces ∧ c.material ≠ m ∧
    ((c.id = a ∧ n = b) ∨ (c.id = b ∧ n = a))

theorem key_comm (a b : C) : key a b = key b a := by
  unfold key
  rcases lt_trichotomy a b with h | h | h
  · rw [if_pos h, if_neg (not_lt_of_gt h)]
  · subst h; rfl
  · rw [if_neg (not_lt_of_gt h), if_pos h]

theorem key_inj {a b c d : C} (h : key a b = key c d) : (a = c ∧ b = d) ∨ (a = d ∧ b = c) := by
  unfold key at h
  split_ifs at h <;> simp only [Prod.mk.injEq] at h <;> tauto

/-- C25: both cells of a face get the same records. -/
theorem C25_symmetric (s : Storage C) (a b : C) : getData s a b = getData s b a := by
  unfold getData; rw [key_comm]

/-- Invariant: addresses in use are below `next`, every vector has `nq` distinct addresses
and vectors of different keys share none. -/
structure Inv (s : Storage C) : Prop where
  below : ∀ k l, s.map k = some l → ∀ x ∈ l, x < s.next
  nodup : ∀ k l, s.map k = some l → l.Nodup
  disjoint : ∀ k k' l l', s.map k = some l → s.map k' = some l' → k ≠ k' → ∀ x ∈ l, x ∉ l'

omit [LinearOrder C] in
theorem Inv.empty : Inv (Storage.empty : Storage C) := by
  constructor <;> simp [Storage.empty]

theorem mem_fresh {x m nq : ℕ} : x ∈ (List.range nq).map (m + ·) ↔ m ≤ x ∧ x < m + nq := by
  rw [List.mem_map]
  constructor
  · rintro ⟨y, hy, rfl⟩; have := List.mem_range.mp hy; omega
  · rintro ⟨h1, h2⟩; exact ⟨x - m, List.mem_range.mpr (by omega), by omega⟩

theorem Inv.visitFace {s : Storage C} (h : Inv s) (nq : ℕ) (c : Cell C) (f : Face C) :
    Inv (visitFace nq c s f) := by
  cases f with
  | boundary => exact h
  | interior n m =>
    unfold Store.visitFace
    simp only
    split_ifs with hm
    · cases hk : s.map (key c.id n) with
      | some l => exact h
      | none =>
        refine ⟨?_, ?_, ?_⟩
        · intro k l hl x hx
          simp only at hl ⊢
          split_ifs at hl with hkk
          · cases hl; exact (mem_fresh.mp hx).2
          · have := h.below k l hl x hx; omega
        · intro k l hl
          simp only at hl
          split_ifs at hl with hkk
          · cases hl
            exact List.Nodup.map (fun a b hab => by simpa using hab) List.nodup_range
          · exact h.nodup k l hl
        · intro k k' l l' hl hl' hne x hx hx'
          simp only at hl hl'
          split_ifs at hl with hkk <;> split_ifs at hl' with hkk'
          · exact hne (hkk.trans hkk'.symm)
          · cases hl
            have := (mem_fresh.mp hx).1
            have := h.below k' l' hl' x hx'
            omega
          · cases hl'
            have := (mem_fresh.mp hx').1
            have := h.below k l hl x hx
            omega
          · exact h.disjoint k k' l l' hl hl' hne x hx hx'
    · exact h

theorem Inv.visitCell {s : Storage C} (h : Inv s) (nq : ℕ) (c : Cell C) :
    Inv (visitCell nq s c) := by
  unfold Store.visitCell
  split_ifs
  · generalize c.faces = fs
    induction fs generalizing s with
    | nil => exact h
    | cons f fs ih => exact ih (h.visitFace nq c f)
  · exact h

theorem Inv.initStorage {s : Storage C} (h : Inv s) (cells : List (Cell C)) (nq : ℕ) :
    Inv (initStorage s cells nq) := by
  unfold Store.initStorage
  induction cells generalizing s with
  | nil => exact h
  | cons c cs ih => exact ih (h.visitCell nq c)

/-- Storages the program can have: any number of initialisations. -/
inductive Reachable : Storage C → Prop
  | empty : Reachable Storage.empty
  | init {s} (cells : List (Cell C)) (nq : ℕ) : Reachable s → Reachable (initStorage s cells nq)

theorem Reachable.inv {s : Storage C} (h : Reachable s) : Inv s := by
  induction h with
  | empty => exact Inv.empty
  | init cells nq _ ih => exact ih.initStorage cells nq

/-- C25: pairs of cells that differ as unordered pairs never share a record, and the records
of one face's quadrature points are different objects. -/
theorem C25_disjoint (s : Storage C) (hs : Reachable s) (a b c d : C) (l l' : List ℕ)
    (hne : ¬ ((a = c ∧ b = d) ∨ (a = d ∧ b = c))) (h : getData s a b = some l)
    (h' : getData s c d = some l') : (∀ x ∈ l, x ∉ l') ∧ l.Nodup :=
  ⟨hs.inv.disjoint _ _ _ _ h h' fun hk => hne (key_inj hk), hs.inv.nodup _ _ h⟩

theorem visitFace_mono (nq : ℕ) (c : Cell C) (s : Storage C) (f : Face C) (k : C × C)
    (l : List ℕ) (h : s.map k = some l) : (visitFace nq c s f).map k = some l := by
  cases f with
  | boundary => exact h
  | interior n m =>
    unfold visitFace
    simp only
    split_ifs
    · cases hk : s.map (key c.id n) with
      | some l' => exact h
      | none =>
        simp only
        rw [if_neg (by rintro rfl; rw [hk] at h; cases h)]
        exact h
    · exact h

theorem visitCell_mono (nq : ℕ) (c : Cell C) (s : Storage C) (k : C × C)
    (l : List ℕ) (h : s.map k = some l) : (visitCell nq s c).map k = some l := by
  unfold visitCell
  split_ifs
  · generalize c.faces = fs
    induction fs generalizing s with
    | nil => exact h
    | cons f fs ih => exact ih _ (visitFace_mono nq c s f k l h)
  · exact h

/-- C25: initialising again keeps the existing records of every face. -/
theorem C25_keeps_existing (s : Storage C) (cells : List (Cell C)) (nq : ℕ) (a b : C)
    (l : List ℕ) (h : getData s a b = some l) : getData (initStorage s cells nq) a b = some l := by
  unfold getData initStorage at *
  induction cells generalizing s with
  | nil => exact h
  | cons c cs ih => exact ih _ (visitCell_mono nq c s _ l h)

theorem visitFace_some (nq : ℕ) (c : Cell C) (s : Storage C) (f : Face C) (k : C × C) :
    ((visitFace nq c s f).map k).isSome ↔ (s.map k).isSome ∨
      ∃ n m, f = .interior n m ∧ c.material ≠ m ∧ k = key c.id n := by
  cases f with
  | boundary => simp [visitFace]
  | interior n m =>
    unfold visitFace
    simp only
    split_ifs with hm
    · cases hk : s.map (key c.id n) with
      | some l =>
        simp only
        constructor
        · exact Or.inl
        · rintro (h | ⟨n', m', h1, h2, rfl⟩)
          · exact h
          · cases h1; rw [hk]; rfl
      | none =>
        simp only
        by_cases hkk : k = key c.id n
        · rw [if_pos hkk]
          simp only [Option.isSome_some, true_iff]
          exact Or.inr ⟨n, m, rfl, hm, hkk⟩
        · rw [if_neg hkk]
          constructor
          · exact Or.inl
          · rintro (h | ⟨n', m', h1, h2, h3⟩)
            · exact h
            · cases h1; exact absurd h3 hkk
    · constructor
      · exact Or.inl
      · rintro (h | ⟨n', m', h1, h2, h3⟩)
        · exact h
        · cases h1; exact absurd h2 hm

theorem visitFaces_some (nq : ℕ) (c : Cell C) (fs : List (Face C)) (s : Storage C) (k : C × C) :
    ((fs.foldl (visitFace nq c) s).map k).isSome ↔ (s.map k).isSome ∨
      ∃ n m, Face.interior n m ∈ fs ∧ c.material ≠ m ∧ k = key c.id n := by
  induction fs generalizing s with
  | nil => simp
  | cons f fs ih =>
    rw [List.foldl_cons, ih, visitFace_some]
    constructor
    · rintro ((h | ⟨n, m, rfl, h⟩) | ⟨n, m, h1, h2⟩)
      · exact Or.inl h
      · exact Or.inr ⟨n, m, List.mem_cons_self, h⟩
      · exact Or.inr ⟨n, m, List.mem_cons_of_mem _ h1, h2⟩
    · rintro (h | ⟨n, m, h1, h2⟩)
      · exact Or.inl (Or.inl h)
      · rcases List.mem_cons.mp h1 with h | h
        · exact Or.inl (Or.inr ⟨n, m, h.symm, h2⟩)
        · exact Or.inr ⟨n, m, h, h2⟩

/-- C25: a pair of cells has records after initialisation exactly if it had before or the
two cells share a grain-boundary face of an owned cell. -/
theorem C25_created_exactly (s : Storage C) (cells : List (Cell C)) (nq : ℕ) (a b : C) :
    (getData (initStorage s cells nq) a b).isSome ↔
      (getData s a b).isSome ∨ GrainBoundary cells a b := by
  unfold getData initStorage
  induction cells generalizing s with
  | nil => simp [GrainBoundary]
  | cons c cs ih =>
    rw [List.foldl_cons, ih]
    have hc : ((visitCell nq s c).map (key a b)).isSome ↔ (s.map (key a b)).isSome ∨
        (c.owned = true ∧ ∃ n m, Face.interior n m ∈ c.faces ∧ c.material ≠ m ∧
          ((c.id = a ∧ n = b) ∨ (c.id = b ∧ n = a))) := by
      unfold visitCell
      split_ifs with ho
      · rw [visitFaces_some]
        simp only [ho, true_and]
        have hkey : ∀ n, key a b = key c.id n ↔ ((c.id = a ∧ n = b) ∨ (c.id = b ∧ n = a)) := by
          intro n
          constructor
          · intro h
            rcases key_inj h with ⟨rfl, rfl⟩ | ⟨rfl, rfl⟩
            · exact Or.inl ⟨rfl, rfl⟩
            · exact Or.inr ⟨rfl, rfl⟩
          · rintro (⟨rfl, rfl⟩ | ⟨rfl, rfl⟩)
            · rfl
            · exact key_comm _ _
        simp only [hkey]
      · simp [ho]
    rw [hc]
    unfold GrainBoundary
    simp only [List.mem_cons, exists_eq_or_imp, or_assoc]

/-- C25: a newly created entry has one record per face quadrature point. -/
theorem C25_one_record_per_point (cells : List (Cell C)) (nq : ℕ) (a b : C) (l : List ℕ)
    (h : getData (initStorage Storage.empty cells nq) a b = some l) : l.length = nq := by
  have key : ∀ s : Storage C, (∀ k l, s.map k = some l → l.length = nq) →
      ∀ k l, (initStorage s cells nq).map k = some l → l.length = nq := by
    clear h
    unfold initStorage
    induction cells with
    | nil => intro s hs; exact hs
    | cons c cs ih =>
      intro s hs
      apply ih
      · unfold visitCell
        split_ifs
        · generalize c.faces = fs
          induction fs generalizing s with
          | nil => exact hs
          | cons f fs ih2 =>
            apply ih2
            cases f with
            | boundary => exact hs
            | interior n m =>
              unfold visitFace
              simp only
              split_ifs
              · cases hk : s.map (Store.key c.id n) with
                | some l' => exact hs
                | none =>
                  intro k l hl
                  simp only at hl
                  split_ifs at hl
                  · cases hl; simp
                  · exact hs k l hl
              · exact hs
        · exact hs
  exact key Storage.empty (by simp [Storage.empty]) _ _ h

/-- Three cells in a row, materials 0, 1, 1; both cells of the grain boundary face are
owned: one record vector is created, seen from both sides, none for the other face. -/
example : getData (initStorage (Storage.empty : Storage ℕ)
      [⟨0, 0, true, [.boundary, .interior 1 1]⟩, ⟨1, 1, true, [.interior 0 0, .interior 2 1]⟩,
        ⟨2, 1, true, [.interior 1 1, .boundary]⟩] 2) 1 0 = some [0, 1] ∧
    getData (initStorage (Storage.empty : Storage ℕ)
      [⟨0, 0, true, [.boundary, .interior 1 1]⟩, ⟨1, 1, true, [.interior 0 0, .interior 2 1]⟩,
        ⟨2, 1, true, [.interior 1 1, .boundary]⟩] 2) 1 2 = none := by
  decide

end Verif.Store
