import Verif.Model.Setup

/-!
# Order and effect of the calls that set an `FEField` up: C99
-/

namespace Verif.Fld

variable {ℓ : Type*}

/-- Specification: the calls on object `i` in a history, in order. -/
def callsOn (i : ℕ) (h : List (Call ℓ)) : List (Action ℓ) :=
  h.filterMap fun c => match c with
    | .on j a => if j = i then some a else none
    | _ => none

/-- The object after a sequence of calls on it. -/
def Obj.after (g : Grid ℓ) (f : Obj ℓ) (as : List (Action ℓ)) : Obj ℓ :=
  as.foldl (fun f a => (f.act g a).1) f

theorem Obj.after_append (g : Grid ℓ) (f : Obj ℓ) (as bs : List (Action ℓ)) :
    f.after g (as ++ bs) = (f.after g as).after g bs := by
  simp [Obj.after]

theorem Obj.after_snoc (g : Grid ℓ) (f : Obj ℓ) (as : List (Action ℓ)) (a : Action ℓ) :
    f.after g (as ++ [a]) = ((f.after g as).act g a).1 := by
  simp [Obj.after]

theorem run_append (g : Grid ℓ) (w : World ℓ) (h k : List (Call ℓ)) : w.run g (h ++ k) = (w.run g h).run g k := by
  simp [World.run]

theorem step_obj (g : Grid ℓ) (w : World ℓ) (c : Call ℓ) (i : ℕ) (f : Obj ℓ) (hf : w.objs[i]? = some f) :
    (w.step g c).1.objs[i]? = some (f.after g (callsOn i [c])) := by
  have hi : i < w.objs.length := (List.getElem?_eq_some_iff.1 hf).1
  cases c with
  | construct d b s =>
    simp only [World.step, callsOn, List.filterMap_cons, List.filterMap_nil, Obj.after, List.foldl_nil]
    rw [List.getElem?_append_left hi, hf]
  | copy j =>
    simp only [World.step, callsOn, List.filterMap_cons, List.filterMap_nil, Obj.after, List.foldl_nil]
    cases hj : w.objs[j]? with
    | none => exact hf
    | some f' => simp only; rw [List.getElem?_append_left hi, hf]
  | on j a =>
    simp only [World.step]
    by_cases hij : j = i
    · subst hij
      rw [hf]
      simp only [callsOn, List.filterMap_cons, List.filterMap_nil, Obj.after, if_true, List.foldl_cons,
        List.foldl_nil]
      rw [List.getElem?_set_self hi]
    · have e : callsOn i [Call.on j a] = [] := by simp [callsOn, hij]
      rw [e]
      cases hj : w.objs[j]? with
      | none => exact hf
      | some f' =>
        simp only
        rw [List.getElem?_set_ne hij, hf]
        rfl

theorem callsOn_cons (i : ℕ) (c : Call ℓ) (h : List (Call ℓ)) : callsOn i (c :: h) = callsOn i [c] ++ callsOn i h := by
  unfold callsOn
  rw [← List.filterMap_append]
  rfl

theorem run_obj (g : Grid ℓ) (w : World ℓ) (h : List (Call ℓ)) (i : ℕ) (f : Obj ℓ) (hf : w.objs[i]? = some f) :
    (w.run g h).objs[i]? = some (f.after g (callsOn i h)) := by
  induction h generalizing w f with
  | nil => exact hf
  | cons c h ih =>
    rw [callsOn_cons, Obj.after_append]
    exact ih (w.step g c).1 _ (step_obj g w c i f hf)

/-- C99, objects do not interfere: what an object holds after a history depends only on the calls on it, in their
order; calls on other objects, on copies of it and new constructions leave it alone. -/
theorem C99_frame (g : Grid ℓ) (w : World ℓ) (h h' : List (Call ℓ)) (i : ℕ) (hi : i < w.objs.length)
    (hc : callsOn i h = callsOn i h') :
    (w.run g h).objs[i]? = (w.run g h').objs[i]? := by
  obtain ⟨f, hf⟩ : ∃ f, w.objs[i]? = some f := ⟨_, List.getElem?_eq_getElem hi⟩
  rw [run_obj g w h i f hf, run_obj g w h' i f hf, hc]

/-! ## Order of calls -/

/-- Specification: `setup_extractors` was called. -/
def ExtractorsDone (as : List (Action ℓ)) : Prop := ∃ nC nS, Action.setupExtractors nC nS ∈ as

/-- Specification: `setup_dofs` was called after `setup_extractors`. -/
def DofsDone (as : List (Action ℓ)) : Prop := ∃ x z, as = x ++ Action.setupDofs :: z ∧ ExtractorsDone x

/-- Specification: an object has at least one crystal. -/
def Crystals (as : List (Action ℓ)) : Prop := ∀ nC nS, Action.setupExtractors nC nS ∈ as → nC ≠ 0

theorem extractorsDone_snoc (as : List (Action ℓ)) (a : Action ℓ) :
    ExtractorsDone (as ++ [a]) ↔ ExtractorsDone as ∨ ∃ nC nS, a = .setupExtractors nC nS := by
  unfold ExtractorsDone
  constructor
  · rintro ⟨nC, nS, h⟩
    rcases List.mem_append.1 h with h | h
    · exact .inl ⟨nC, nS, h⟩
    · exact .inr ⟨nC, nS, (List.mem_singleton.1 h).symm⟩
  · rintro (⟨nC, nS, h⟩ | ⟨nC, nS, rfl⟩)
    · exact ⟨nC, nS, List.mem_append_left _ h⟩
    · exact ⟨nC, nS, by simp⟩

theorem dofsDone_snoc (as : List (Action ℓ)) (a : Action ℓ) :
    DofsDone (as ++ [a]) ↔ DofsDone as ∨ a = .setupDofs ∧ ExtractorsDone as := by
  constructor
  · rintro ⟨x, z, h, hx⟩
    rcases List.eq_nil_or_concat z with rfl | ⟨z', b, rfl⟩
    · have := List.append_inj' h rfl
      simp at this
      exact .inr ⟨this.2, this.1 ▸ hx⟩
    · rw [List.concat_eq_append, ← List.cons_append, ← List.append_assoc] at h
      have := List.append_inj' h rfl
      exact .inl ⟨x, z', this.1, hx⟩
  · rintro (⟨x, z, rfl, hx⟩ | ⟨rfl, h⟩)
    · exact ⟨x, z ++ [a], by simp, hx⟩
    · exact ⟨as, [], rfl, h⟩

theorem flags_fresh (g : Grid ℓ) (dim : ℕ) (d s : Bool) (k : ℕ) (as : List (Action ℓ)) (hc : Crystals as) :
    (((Obj.construct dim d s k : Obj ℓ).after g as).fExtractors = true ↔ ExtractorsDone as) ∧
    (((Obj.construct dim d s k : Obj ℓ).after g as).fDofs = true ↔ DofsDone as) ∧
    (ExtractorsDone as → ∃ nC nS, ((Obj.construct dim d s k : Obj ℓ).after g as).nC = some nC ∧
      ((Obj.construct dim d s k : Obj ℓ).after g as).nS = some nS ∧ nC ≠ 0) := by
  induction as using List.reverseRecOn with
  | nil => simp [Obj.after, Obj.construct, ExtractorsDone, DofsDone]
  | append_singleton as a ih =>
    obtain ⟨h1, h2, h3⟩ := ih (fun nC nS h => hc nC nS (List.mem_append_left _ h))
    rw [extractorsDone_snoc, dofsDone_snoc, Obj.after_snoc]
    generalize (Obj.construct dim d s k : Obj ℓ).after g as = f at h1 h2 h3
    cases a with
    | setupExtractors nC nS =>
      have := hc nC nS (by simp)
      refine ⟨by simp [Obj.act, Obj.setupExtractors], by simp [Obj.act, Obj.setupExtractors, h2], fun _ =>
        ⟨nC, nS, rfl, rfl, this⟩⟩
    | setupDofs =>
      by_cases he : f.fExtractors = true
      · obtain ⟨nC, nS, h4, h5, h6⟩ := h3 (h1.1 he)
        have hd : (f.setupDofs g).1.fExtractors = true ∧ (f.setupDofs g).1.fDofs = true ∧
            (f.setupDofs g).1.nC = some nC ∧ (f.setupDofs g).1.nS = some nS := by
          unfold Obj.setupDofs
          rw [if_neg (by simp [he]), h4, h5]
          simp only
          rw [if_neg h6]
          exact ⟨he, rfl, rfl, rfl⟩
        refine ⟨⟨fun _ => .inl (h1.1 he), fun _ => hd.1⟩, ⟨fun _ => .inr ⟨rfl, h1.1 he⟩, fun _ => hd.2.1⟩,
          fun _ => ⟨nC, nS, hd.2.2.1, hd.2.2.2, h6⟩⟩
      · have hd : (f.setupDofs g).1 = f := by
          unfold Obj.setupDofs
          rw [if_pos (by simpa using he)]
        simp only [Obj.act]
        rw [hd]
        refine ⟨by simp [h1], ?_, fun h => h3 (h.resolve_right (by simp))⟩
        rw [h2]
        exact ⟨.inl, fun h => h.resolve_right (fun h' => he (h1.2 h'.2))⟩
    | setAffine c => simp only [Obj.act]; split_ifs <;> simpa [h1, h2] using h3
    | setNewton c => simp only [Obj.act]; split_ifs <;> simpa [h1, h2] using h3
    | setupVectors => simp only [Obj.act]; split_ifs <;> simpa [h1, h2] using h3
    | serialize => simpa [Obj.act, h1, h2] using h3
    | resetConstraints => simpa [Obj.act, h1, h2] using h3

/-- C99, order: for an object made by the constructor and every later history of calls on it and on other objects,
`setup_dofs` throws if and only if `setup_extractors` was not called on it before, and the calls that need the
degrees of freedom throw if and only if `setup_dofs` was not called after `setup_extractors`; a call that
throws changes nothing. -/
theorem C99_order (g : Grid ℓ) (w : World ℓ) (dim : ℕ) (d s : Bool) (h : List (Call ℓ))
    (hc : Crystals (callsOn w.objs.length h)) :
    let i := w.objs.length
    let w' := (w.step g (.construct dim d s)).1.run g h
    ((w'.step g (.on i .setupDofs)).2 = .threw ↔ ¬ ExtractorsDone (callsOn i h)) ∧
    (∀ c, (w'.step g (.on i (.setAffine c))).2 = .threw ↔ ¬ DofsDone (callsOn i h)) ∧
    (∀ c, (w'.step g (.on i (.setNewton c))).2 = .threw ↔ ¬ DofsDone (callsOn i h)) ∧
    ((w'.step g (.on i .setupVectors)).2 = .threw ↔ ¬ DofsDone (callsOn i h)) ∧
    ((w'.step g (.on i .serialize)).2 = .threw ↔ ¬ DofsDone (callsOn i h)) ∧
    (∀ nC nS, (w'.step g (.on i (.setupExtractors nC nS))).2 = .done) ∧
    (∀ a, (w'.step g (.on i a)).2 ≠ .undefined) ∧
    ∀ a, (w'.step g (.on i a)).2 = .threw → (w'.step g (.on i a)).1 = w' := by
  intro i w'
  have hf : w'.objs[i]? = some ((Obj.construct dim d s w.handlers.length : Obj ℓ).after g (callsOn i h)) :=
    run_obj g _ h i _ (by simp [World.step, i])
  obtain ⟨h1, h2, h3⟩ := flags_fresh g dim d s w.handlers.length (callsOn i h) hc
  generalize (Obj.construct dim d s w.handlers.length : Obj ℓ).after g (callsOn i h) = f at hf h1 h2 h3
  have hs : ∀ a, (w'.step g (.on i a)).2 = (f.act g a).2 := fun a => by simp only [World.step]; rw [hf]
  have hdofs : (f.act g .setupDofs).2 = if f.fExtractors = true then .done else .threw := by
    by_cases he : f.fExtractors = true
    · obtain ⟨nC, nS, h4, h5, h6⟩ := h3 (h1.1 he)
      simp only [Obj.act, Obj.setupDofs]
      rw [if_neg (by simp [he]), h4, h5]
      simp only
      rw [if_neg h6, if_pos he]
    · simp only [Obj.act, Obj.setupDofs]
      rw [if_pos (by simpa using he), if_neg he]
  have hset : ∀ a, (f.act g a).2 = .threw → (f.act g a).1 = f := by
    intro a ha
    cases a with
    | setupExtractors => simp [Obj.act] at ha
    | setupDofs =>
      rw [hdofs] at ha
      by_cases he : f.fExtractors = true
      · rw [if_pos he] at ha; simp at ha
      · simp only [Obj.act, Obj.setupDofs]
        rw [if_pos (by simpa using he)]
    | setAffine c => simp only [Obj.act] at ha ⊢; split_ifs at ha ⊢; rfl
    | setNewton c => simp only [Obj.act] at ha ⊢; split_ifs at ha ⊢; rfl
    | setupVectors => simp only [Obj.act] at ha ⊢; split_ifs at ha ⊢; rfl
    | serialize => rfl
    | resetConstraints => simp [Obj.act] at ha
  refine ⟨?_, ?_, ?_, ?_, ?_, ?_, ?_, ?_⟩
  · rw [hs, hdofs, ← h1]
    split_ifs with h4 <;> simp [h4]
  · intro c
    rw [hs, ← h2]
    simp only [Obj.act]
    split_ifs with h4 <;> simp [h4]
  · intro c
    rw [hs, ← h2]
    simp only [Obj.act]
    split_ifs with h4 <;> simp [h4]
  · rw [hs, ← h2]
    simp only [Obj.act]
    split_ifs with h4 <;> simp [h4]
  · rw [hs, ← h2]
    simp only [Obj.act]
    split_ifs with h4 <;> simp [h4]
  · intro nC nS
    rw [hs]
    rfl
  · intro a
    rw [hs]
    cases a with
    | setupDofs => rw [hdofs]; split_ifs <;> simp
    | setupExtractors => simp [Obj.act]
    | setAffine c => simp only [Obj.act]; split_ifs <;> simp
    | setNewton c => simp only [Obj.act]; split_ifs <;> simp
    | setupVectors => simp only [Obj.act]; split_ifs <;> simp
    | serialize => simp only [Obj.act]; split_ifs <;> simp
    | resetConstraints => simp [Obj.act]
  · intro a ha
    rw [hs] at ha
    have hw : (w'.step g (.on i a)).1 = ⟨w'.objs.set i (f.act g a).1, w'.handlers⟩ := by
      simp only [World.step]
      rw [hf]
      simp only
      rw [ha]
      cases a <;> rfl
    rw [hw, hset a ha]
    have : w'.objs.set i f = w'.objs := by
      obtain ⟨hi, rfl⟩ := List.getElem?_eq_some_iff.1 hf
      exact List.set_getElem_self hi
    rw [this]


/-! ## State after the calls in order -/

/-- Specification: calls that configure a field whose degrees of freedom are set up. -/
def Config : Action ℓ → Prop
  | .setupExtractors _ _ => False
  | .setupDofs => False
  | _ => True

/-- Members that the configuration does not touch. -/
def Obj.fixed (f : Obj ℓ) :=
  (f.dim, f.decohesion, f.single, f.handler, f.nC, f.nS, f.dispExt, f.slipExt, f.collection, f.nDispDofs,
    f.nSlipDofs, f.blocks, f.hanging, f.fExtractors, f.fDofs)

theorem config_step (g : Grid ℓ) (f : Obj ℓ) (a : Action ℓ) (h : Config a) : (f.act g a).1.fixed = f.fixed := by
  cases a with
  | setupExtractors => exact absurd h id
  | setupDofs => exact absurd h id
  | setAffine c => simp only [Obj.act]; split_ifs <;> rfl
  | setNewton c => simp only [Obj.act]; split_ifs <;> rfl
  | setupVectors => simp only [Obj.act]; split_ifs <;> rfl
  | serialize => rfl
  | resetConstraints => rfl

theorem config_flags (g : Grid ℓ) (f : Obj ℓ) (cs : List (Action ℓ)) (hc : ∀ a ∈ cs, Config a) (hf : f.fDofs = true) :
    (f.after g cs).fixed = f.fixed ∧
    ((f.after g cs).fVectors = true ↔ f.fVectors = true ∨ Action.setupVectors ∈ cs) ∧
    ((f.after g cs).fAffine = true ↔ f.fAffine = true ∨ ∃ c, Action.setAffine c ∈ cs) ∧
    ((f.after g cs).fNewton = true ↔ f.fNewton = true ∨ ∃ c, Action.setNewton c ∈ cs) ∧
    (Action.setupVectors ∈ cs → (f.after g cs).vectors = some f.blocks) ∧
    (Action.setupVectors ∉ cs → (f.after g cs).vectors = f.vectors) := by
  induction cs using List.reverseRecOn with
  | nil => simp [Obj.after]
  | append_singleton cs a ih =>
    obtain ⟨h0, h1, h2, h3, h4, h5⟩ := ih (fun b hb => hc b (List.mem_append_left _ hb))
    have ha := hc a (by simp)
    rw [Obj.after_snoc]
    generalize f.after g cs = f' at h0 h1 h2 h3 h4 h5
    have hd : f'.fDofs = true := by
      have := congrArg (fun t => t.2.2.2.2.2.2.2.2.2.2.2.2.2.2) h0
      exact this.trans hf
    have hb : f'.blocks = f.blocks := congrArg (fun t => t.2.2.2.2.2.2.2.2.2.2.2.1) h0
    refine ⟨(config_step g f' a ha).trans h0, ?_⟩
    cases a with
    | setupExtractors => exact absurd ha id
    | setupDofs => exact absurd ha id
    | setAffine c =>
      simp only [Obj.act]
      rw [if_pos hd]
      simp [h1, h3]
      exact ⟨h4, h5⟩
    | setNewton c =>
      simp only [Obj.act]
      rw [if_pos hd]
      simp [h1, h2]
      exact ⟨h4, h5⟩
    | setupVectors =>
      simp only [Obj.act]
      rw [if_pos hd]
      simp [h2, h3, hb]
    | serialize => simp [Obj.act, h1, h2, h3]; exact ⟨h4, h5⟩
    | resetConstraints => simp [Obj.act, h1, h2, h3]; exact ⟨h4, h5⟩

/-- Specification: the calls say nothing about degree of freedom `d` (with a selector for the kind of constraints). -/
def SilentAffine (d : ℕ) (y : List (Action ℓ)) : Prop := ∀ c, Action.setAffine c ∈ y → c d = none

@[inherit_doc SilentAffine]
def SilentNewton (d : ℕ) (y : List (Action ℓ)) : Prop := ∀ c, Action.setNewton c ∈ y → c d = none

theorem silent (g : Grid ℓ) (f : Obj ℓ) (d : ℕ) (y : List (Action ℓ)) (hc : ∀ a ∈ y, Config a) :
    (f.after g y).hanging = f.hanging ∧
    (SilentAffine d y → (Action.resetConstraints ∉ y ∨ f.affine d = f.hanging d) →
      (f.after g y).affine d = f.affine d) ∧
    (SilentNewton d y → (Action.resetConstraints ∉ y ∨ f.newton d = f.hanging d) →
      (f.after g y).newton d = f.newton d) := by
  induction y using List.reverseRecOn with
  | nil => exact ⟨rfl, fun _ _ => rfl, fun _ _ => rfl⟩
  | append_singleton y a ih =>
    obtain ⟨h1, h2, h3⟩ := ih (fun b hb => hc b (List.mem_append_left _ hb))
    have ha := hc a (by simp)
    have sA : SilentAffine d (y ++ [a]) → SilentAffine d y := fun h c hc => h c (List.mem_append_left _ hc)
    have sN : SilentNewton d (y ++ [a]) → SilentNewton d y := fun h c hc => h c (List.mem_append_left _ hc)
    have rA : ∀ {P : Prop}, (Action.resetConstraints ∉ y ++ [a] ∨ P) → (Action.resetConstraints ∉ y ∨ P) :=
      fun h => h.imp (fun h h' => h (List.mem_append_left _ h')) id
    rw [Obj.after_snoc]
    generalize f.after g y = f' at h1 h2 h3
    cases a with
    | setupExtractors => exact absurd ha id
    | setupDofs => exact absurd ha id
    | setAffine c =>
      simp only [Obj.act]
      split_ifs
      · refine ⟨h1, fun hs hr => ?_, fun hs hr => h3 (sN hs) (rA hr)⟩
        have : c d = none := hs c (by simp)
        simp only [overlay, this, Option.none_or]
        exact h2 (sA hs) (rA hr)
      · exact ⟨h1, fun hs hr => h2 (sA hs) (rA hr), fun hs hr => h3 (sN hs) (rA hr)⟩
    | setNewton c =>
      simp only [Obj.act]
      split_ifs
      · refine ⟨h1, fun hs hr => h2 (sA hs) (rA hr), fun hs hr => ?_⟩
        have : c d = none := hs c (by simp)
        simp only [overlay, this, Option.none_or]
        exact h3 (sN hs) (rA hr)
      · exact ⟨h1, fun hs hr => h2 (sA hs) (rA hr), fun hs hr => h3 (sN hs) (rA hr)⟩
    | setupVectors =>
      simp only [Obj.act]
      split_ifs <;> exact ⟨h1, fun hs hr => h2 (sA hs) (rA hr), fun hs hr => h3 (sN hs) (rA hr)⟩
    | serialize => exact ⟨h1, fun hs hr => h2 (sA hs) (rA hr), fun hs hr => h3 (sN hs) (rA hr)⟩
    | resetConstraints =>
      refine ⟨h1, fun hs hr => ?_, fun hs hr => ?_⟩
      · have := hr.resolve_left (by simp)
        change f'.hanging d = _
        rw [h1, this]
      · have := hr.resolve_left (by simp)
        change f'.hanging d = _
        rw [h1, this]

/-- Specification: the ranges of the blocks of a field with `n` degrees of freedom, `nu` of them displacements. -/
def blockRanges (single : Bool) (nS nu n : ℕ) : List (ℕ × ℕ) :=
  if single then [(0, n)] else if nS = 0 then [(0, n), (n, n)] else [(0, nu), (nu, n)]

theorem standard (g : Grid ℓ) (dim : ℕ) (deco single : Bool) (k nC nS : ℕ) (hC : nC ≠ 0) :
    let L : Layout := ⟨dim, nC, nS, deco⟩
    let E := (List.range nC).map L.elements
    let o := (Obj.construct dim deco single k : Obj ℓ).after g [.setupExtractors nC nS, .setupDofs]
    o.fixed = (dim, deco, single, k, some nC, some nS, (List.range nC).map L.dispExtractor,
      (List.range nC).map (fun i => (List.range nS).map (L.slipExtractor i)), E,
      (if 0 < nS then some (g.nDisp E) else none), (if 0 < nS then some (g.nSlip E) else none),
      blockRanges single nS (g.nDisp E) (g.n E), g.hanging E, true, true) ∧
    o.affine = g.hanging E ∧ o.newton = g.hanging E ∧ o.vectors = none ∧
    o.fVectors = false ∧ o.fAffine = false ∧ o.fNewton = false := by
  intro L E o
  have ho : o = (((Obj.construct dim deco single k : Obj ℓ).setupExtractors nC nS).setupDofs g).1 := rfl
  rw [ho]
  unfold Obj.setupDofs
  simp only [Obj.setupExtractors, Obj.construct, List.nil_append, Bool.true_eq_false, if_false]
  rw [if_neg hC]
  simp only [Obj.fixed]
  refine ⟨?_, rfl, rfl, trivial, trivial, trivial, trivial⟩
  simp only [blockRanges]
  cases single
  · rcases Nat.eq_zero_or_pos nS with h | h
    · subst h; simp [E, L]
    · simp [h, h.ne', E, L]
  · simp [E, L]

/-- C99, state: an object on which `setup_extractors` and `setup_dofs` were called once, in this order, followed by
configuring calls in any order, interleaved with calls on any other objects, has one extractor per crystal, one element
per crystal, blocks that divide its degrees of freedom, vectors with these blocks once `setup_vectors` was called,
and is initialised if and only if vectors and both kinds of constraints were set. -/
theorem C99_state (g : Grid ℓ) (w : World ℓ) (dim : ℕ) (deco single : Bool) (nC nS : ℕ) (hC : nC ≠ 0)
    (h : List (Call ℓ)) (cs : List (Action ℓ)) (hcs : ∀ a ∈ cs, Config a)
    (hh : callsOn w.objs.length h = .setupExtractors nC nS :: .setupDofs :: cs) :
    let L : Layout := ⟨dim, nC, nS, deco⟩
    let E := (List.range nC).map L.elements
    ∃ o, ((w.step g (.construct dim deco single)).1.run g h).objs[w.objs.length]? = some o ∧
      o.nC = some nC ∧ o.nS = some nS ∧
      o.dispExt = (List.range nC).map L.dispExtractor ∧
      o.slipExt = (List.range nC).map (fun i => (List.range nS).map (L.slipExtractor i)) ∧
      o.collection = E ∧
      (0 < nS → o.nDispDofs = some (g.nDisp E) ∧ o.nSlipDofs = some (g.nSlip E)) ∧
      o.blocks = blockRanges single nS (g.nDisp E) (g.n E) ∧ o.hanging = g.hanging E ∧
      (Action.setupVectors ∈ cs → o.vectors = some (blockRanges single nS (g.nDisp E) (g.n E))) ∧
      (o.isInitialized = true ↔
        Action.setupVectors ∈ cs ∧ (∃ c, Action.setAffine c ∈ cs) ∧ ∃ c, Action.setNewton c ∈ cs) := by
  intro L E
  refine ⟨_, run_obj g _ h w.objs.length (Obj.construct dim deco single w.handlers.length) (by simp [World.step]), ?_⟩
  rw [hh]
  have e : (Obj.construct dim deco single w.handlers.length : Obj ℓ).after g
      (.setupExtractors nC nS :: .setupDofs :: cs) =
      ((Obj.construct dim deco single w.handlers.length : Obj ℓ).after g [.setupExtractors nC nS, .setupDofs]).after g
        cs := by rw [← Obj.after_append]; rfl
  rw [e]
  obtain ⟨h0, -, -, h1, h2, h3, h4⟩ := standard g dim deco single w.handlers.length nC nS hC
  generalize (Obj.construct dim deco single w.handlers.length : Obj ℓ).after g
    [.setupExtractors nC nS, .setupDofs] = f at h0 h1 h2 h3 h4
  have hd : f.fDofs = true := congrArg (fun t => t.2.2.2.2.2.2.2.2.2.2.2.2.2.2) h0
  have hb : f.blocks = _ := congrArg (fun t => t.2.2.2.2.2.2.2.2.2.2.2.1) h0
  obtain ⟨k0, k1, k2, k3, k4, -⟩ := config_flags g f cs hcs hd
  rw [h0] at k0
  generalize f.after g cs = o at k0 k1 k2 k3 k4
  refine ⟨congrArg (fun t => t.2.2.2.2.1) k0, congrArg (fun t => t.2.2.2.2.2.1) k0,
    congrArg (fun t => t.2.2.2.2.2.2.1) k0, congrArg (fun t => t.2.2.2.2.2.2.2.1) k0,
    congrArg (fun t => t.2.2.2.2.2.2.2.2.1) k0, fun hn => ⟨?_, ?_⟩,
    congrArg (fun t => t.2.2.2.2.2.2.2.2.2.2.2.1) k0, congrArg (fun t => t.2.2.2.2.2.2.2.2.2.2.2.2.1) k0,
    fun hv => ?_, ?_⟩
  · refine (congrArg (fun t => t.2.2.2.2.2.2.2.2.2.1) k0).trans ?_
    simp only
    rw [if_pos hn]
  · refine (congrArg (fun t => t.2.2.2.2.2.2.2.2.2.2.1) k0).trans ?_
    simp only
    rw [if_pos hn]
  · rw [k4 hv, hb]
  · unfold Obj.isInitialized
    rw [Bool.and_eq_true, Bool.and_eq_true, k1, k2, k3, h2, h3, h4]
    simp [and_assoc]

/-- C99, constraints in force: the last line given for a degree of freedom since the constraints were last reset, or
else its hanging-node constraint. -/
theorem C99_constraints (g : Grid ℓ) (w : World ℓ) (dim : ℕ) (deco single : Bool) (nC nS : ℕ) (hC : nC ≠ 0)
    (h : List (Call ℓ)) (cs : List (Action ℓ)) (hcs : ∀ a ∈ cs, Config a)
    (hh : callsOn w.objs.length h = .setupExtractors nC nS :: .setupDofs :: cs) (d : ℕ) :
    ∃ o, ((w.step g (.construct dim deco single)).1.run g h).objs[w.objs.length]? = some o ∧
      (∀ x c y l, cs = x ++ Action.setAffine c :: y → c d = some l → SilentAffine d y →
        Action.resetConstraints ∉ y → o.affine d = some l) ∧
      (∀ x c y l, cs = x ++ Action.setNewton c :: y → c d = some l → SilentNewton d y →
        Action.resetConstraints ∉ y → o.newton d = some l) ∧
      (∀ x y, (cs = y ∨ cs = x ++ Action.resetConstraints :: y) → SilentAffine d y → o.affine d = o.hanging d) ∧
      (∀ x y, (cs = y ∨ cs = x ++ Action.resetConstraints :: y) → SilentNewton d y → o.newton d = o.hanging d) := by
  refine ⟨_, run_obj g _ h w.objs.length (Obj.construct dim deco single w.handlers.length) (by simp [World.step]), ?_⟩
  rw [hh]
  have e : (Obj.construct dim deco single w.handlers.length : Obj ℓ).after g
      (.setupExtractors nC nS :: .setupDofs :: cs) =
      ((Obj.construct dim deco single w.handlers.length : Obj ℓ).after g [.setupExtractors nC nS, .setupDofs]).after g
        cs := by rw [← Obj.after_append]; rfl
  rw [e]
  obtain ⟨h0, ha, hn, -⟩ := standard g dim deco single w.handlers.length nC nS hC
  generalize (Obj.construct dim deco single w.handlers.length : Obj ℓ).after g
    [.setupExtractors nC nS, .setupDofs] = f at h0 ha hn
  have hd : f.fDofs = true := congrArg (fun t => t.2.2.2.2.2.2.2.2.2.2.2.2.2.2) h0
  have hb : f.hanging = g.hanging ((List.range nC).map (⟨dim, nC, nS, deco⟩ : Layout).elements) :=
    congrArg (fun t => t.2.2.2.2.2.2.2.2.2.2.2.2.1) h0
  rw [← hb] at ha hn
  have pre : ∀ x, (∀ a ∈ x, Config a) → (f.after g x).fDofs = true := by
    intro x hx
    have := (config_flags g f x hx hd).1
    exact (congrArg (fun t => t.2.2.2.2.2.2.2.2.2.2.2.2.2.2) this).trans hd
  refine ⟨?_, ?_, ?_, ?_⟩
  · rintro x c y l rfl hl hs hr
    have hx := pre x (fun a h => hcs a (by simp [h]))
    have e : f.after g (x ++ Action.setAffine c :: y) =
        ({ f.after g x with affine := overlay (f.after g x).affine c, fAffine := true } : Obj ℓ).after g y := by
      rw [Obj.after_append]
      change ((f.after g x).act g (.setAffine c)).1.after g y = _
      congr 1
      simp only [Obj.act]
      rw [if_pos hx]
    rw [e, (silent g _ d y (fun a h => hcs a (by simp [h]))).2.1 hs (.inl hr)]
    simp [overlay, hl]
  · rintro x c y l rfl hl hs hr
    have hx := pre x (fun a h => hcs a (by simp [h]))
    have e : f.after g (x ++ Action.setNewton c :: y) =
        ({ f.after g x with newton := overlay (f.after g x).newton c, fNewton := true } : Obj ℓ).after g y := by
      rw [Obj.after_append]
      change ((f.after g x).act g (.setNewton c)).1.after g y = _
      congr 1
      simp only [Obj.act]
      rw [if_pos hx]
    rw [e, (silent g _ d y (fun a h => hcs a (by simp [h]))).2.2 hs (.inl hr)]
    simp [overlay, hl]
  · rintro x y (rfl | rfl) hs
    · have k := silent g f d cs hcs
      rw [k.1, k.2.1 hs (.inr (congrFun ha d)), ha]
    · rw [Obj.after_append]
      change (((f.after g x).act g .resetConstraints).1.after g y).affine d =
        (((f.after g x).act g .resetConstraints).1.after g y).hanging d
      have k := silent g ((f.after g x).act g .resetConstraints).1 d y (fun a h => hcs a (by simp [h]))
      rw [k.1, k.2.1 hs (.inr rfl)]
      rfl
  · rintro x y (rfl | rfl) hs
    · have k := silent g f d cs hcs
      rw [k.1, k.2.2 hs (.inr (congrFun hn d)), hn]
    · rw [Obj.after_append]
      change (((f.after g x).act g .resetConstraints).1.after g y).newton d =
        (((f.after g x).act g .resetConstraints).1.after g y).hanging d
      have k := silent g ((f.after g x).act g .resetConstraints).1 d y (fun a h => hcs a (by simp [h]))
      rw [k.1, k.2.2 hs (.inr rfl)]
      rfl

/-! ## Copies -/

/-- C99, copies: a copy of an object whose degrees of freedom are set up has its layout and blocks, only the
hanging-node constraints of the shared numbering, no vectors, and is not initialised; it shares the numbering; the
original is unchanged.  After `setup_vectors` its vectors have the blocks of the original. -/
theorem C99_copy (g : Grid ℓ) (w : World ℓ) (j : ℕ) (f : Obj ℓ) (hf : w.objs[j]? = some f) (hd : f.fDofs = true) :
    let w' := (w.step g (.copy j)).1
    (w.step g (.copy j)).2 = .done ∧ w'.objs.length = w.objs.length + 1 ∧ w'.objs[j]? = some f ∧
    ∃ c, w'.objs[w.objs.length]? = some c ∧
      c.nC = f.nC ∧ c.nS = f.nS ∧ c.dispExt = f.dispExt ∧ c.slipExt = f.slipExt ∧ c.collection = f.collection ∧
      c.nDispDofs = f.nDispDofs ∧ c.nSlipDofs = f.nSlipDofs ∧ c.blocks = f.blocks ∧ c.handler = f.handler ∧
      c.affine = g.hanging (w.handlers.getD f.handler []) ∧ c.newton = g.hanging (w.handlers.getD f.handler []) ∧
      w'.nDofs g c = w.nDofs g f ∧ c.vectors = none ∧ c.isInitialized = false ∧
      (c.act g .setupVectors).2 = .done ∧ (c.act g .setupVectors).1.vectors = some f.blocks ∧
      (c.act g .setupVectors).1.isInitialized = false := by
  intro w'
  have hw : w.step g (.copy j) = ({ w with objs := w.objs ++ [Obj.copy g (w.handlers.getD f.handler []) f] }, .done) := by
    simp only [World.step]
    rw [hf]
  have hw' : w' = { w with objs := w.objs ++ [Obj.copy g (w.handlers.getD f.handler []) f] } := by
    simp only [w', hw]
  have hj := (List.getElem?_eq_some_iff.1 hf).1
  refine ⟨by rw [hw], by rw [hw']; simp, by rw [hw']; simp only; rw [List.getElem?_append_left hj, hf],
    Obj.copy g (w.handlers.getD f.handler []) f, by rw [hw']; simp, ?_⟩
  rw [hw']
  unfold Obj.copy
  simp only
  rw [if_pos hd]
  simp [World.nDofs, Obj.isInitialized, Obj.construct, Obj.act, hd]

/-- C99, copies of an object that is not set up have to be set up from the extractors on. -/
theorem C99_copy_unready (g : Grid ℓ) (w : World ℓ) (j : ℕ) (f : Obj ℓ) (hf : w.objs[j]? = some f)
    (hd : f.fDofs = false) :
    ∃ c, (w.step g (.copy j)).1.objs[w.objs.length]? = some c ∧ (c.act g .setupDofs).2 = .threw := by
  refine ⟨Obj.copy g (w.handlers.getD f.handler []) f, ?_, ?_⟩
  · simp only [World.step]
    rw [hf]
    simp
  · unfold Obj.copy
    simp [hd, Obj.act, Obj.setupDofs]

/-! ## Violations -/

/-- C99 is violated: a second `setup_dofs` (after refining the mesh, say) appends instead of replacing: two blocks become
four, which overlap, and there are two elements per crystal. -/
theorem C99_violated_repeat (g : Grid ℓ) (dim nC nS k : ℕ) (deco : Bool) (hC : nC ≠ 0) (hS : nS ≠ 0) :
    let o := (Obj.construct dim deco false k : Obj ℓ).after g [.setupExtractors nC nS, .setupDofs, .setupDofs, .setupVectors]
    ∃ b : List (ℕ × ℕ), o.vectors = some b ∧ b.length = 4 ∧ (∃ x, b[0]? = some (0, x)) ∧ (∃ x, b[2]? = some (0, x)) ∧
      o.collection.length = 2 * nC := by
  intro o
  have hp : 0 < nS := Nat.pos_of_ne_zero hS
  have ho : o.vectors = some o.blocks ∧ o.blocks.length = 4 ∧ (∃ x, o.blocks[0]? = some (0, x)) ∧
      (∃ x, o.blocks[2]? = some (0, x)) ∧ o.collection.length = 2 * nC := by
    simp [o, Obj.after, Obj.act, Obj.setupDofs, Obj.setupExtractors, Obj.construct, hC]
    omega
  exact ⟨o.blocks, ho⟩

/-- C99 is violated: a second `setup_extractors` (for another number of crystals or slip systems, say) keeps the extractors
of the first call in front, so those of the first crystals are still the ones of the first call. -/
theorem C99_violated_repeat_extractors (g : Grid ℓ) (dim nC nS mC mS k i : ℕ) (deco single : Bool) (hi : i < nC) :
    let o₁ := (Obj.construct dim deco single k : Obj ℓ).after g [.setupExtractors nC nS]
    let o := o₁.after g [.setupExtractors mC mS]
    o.nC = some mC ∧ o.nS = some mS ∧ o.dispExt.length = nC + mC ∧ o.slipExt.length = nC + mC ∧
      o.dispExt[i]? = o₁.dispExt[i]? ∧ o.slipExt[i]? = o₁.slipExt[i]? ∧
      o.slipExt[i]? = some ((List.range nS).map ((⟨dim, nC, nS, deco⟩ : Layout).slipExtractor i)) := by
  intro o₁ o
  simp [o, o₁, Obj.after, Obj.act, Obj.setupExtractors, Obj.construct, hi, List.getElem?_append_left]

/-- C99 is violated: the state is reported as initialised although boundary conditions and Newton constraints were
dropped, by setting up the degrees of freedom again or by `reset_all_affine_constraints`; after `setup_dofs` the
vectors also have the old blocks. -/
theorem C99_violated_stale (g : Grid ℓ) (f : Obj ℓ) (hi : f.isInitialized = true) :
    ((f.act g .resetConstraints).1.isInitialized = true ∧ (f.act g .resetConstraints).1.affine = f.hanging ∧
      (f.act g .resetConstraints).1.newton = f.hanging) ∧
    ((f.act g .setupDofs).2 = .done →
      (f.act g .setupDofs).1.isInitialized = true ∧
      (f.act g .setupDofs).1.affine = (f.act g .setupDofs).1.hanging ∧
      (f.act g .setupDofs).1.newton = (f.act g .setupDofs).1.hanging ∧
      (f.act g .setupDofs).1.vectors = f.vectors ∧
      f.blocks.length < (f.act g .setupDofs).1.blocks.length) := by
  refine ⟨⟨hi, rfl, rfl⟩, fun h => ?_⟩
  simp only [Obj.act, Obj.setupDofs] at h ⊢
  by_cases he : f.fExtractors = false
  · rw [if_pos he] at h
    simp at h
  · rw [if_neg he] at h ⊢
    cases hn : f.nC with
    | none => rw [hn] at h; simp at h
    | some nC =>
      cases hs : f.nS with
      | none => rw [hn, hs] at h; simp at h
      | some nS =>
        rw [hn, hs] at h
        simp only at h ⊢
        by_cases h0 : nC = 0
        · rw [if_pos h0] at h; simp at h
        · rw [if_neg h0]
          exact ⟨hi, rfl, rfl, rfl, by simp⟩

/-- C99 is violated: for a field without slip systems the numbers of degrees of freedom of the two kinds, which the
application prints, are never initialised. -/
theorem C99_violated_counts (g : Grid ℓ) (dim nC k : ℕ) (deco single : Bool) (hC : nC ≠ 0) :
    let o := (Obj.construct dim deco single k : Obj ℓ).after g [.setupExtractors nC 0, .setupDofs]
    o.fDofs = true ∧ o.nDispDofs = none ∧ o.nSlipDofs = none := by
  simp [Obj.after, Obj.act, Obj.setupDofs, Obj.setupExtractors, Obj.construct, hC]

/-- A mesh of `m` nodes without hanging nodes. -/
def exGrid (m : ℕ) : Grid ℕ where
  nDisp c := m * (c.headD []).count .disp
  nSlip c := m * (c.flatMap id).count .slip
  hanging _ _ := none

/-- The calls of the application: constructor, extractors, degrees of freedom, constraints, vectors; then the copy of
the solver with its vectors and the boundary values of a load step. -/
def exCalls : List (Call ℕ) :=
  [.construct 2 false false, .on 0 (.setupExtractors 1 3), .on 0 .setupDofs,
    .on 0 (.setAffine fun d => if d = 5 then some 1 else none), .on 0 (.setNewton fun d => if d = 5 then some 0 else none),
    .on 0 .setupVectors, .copy 0, .on 1 .setupVectors, .on 0 (.setAffine fun d => if d = 5 then some 2 else none)]

/-- C99 is violated: a copy that is set up for other slip systems renumbers the degrees of freedom of the original,
which goes on reporting that it is initialised. -/
theorem C99_violated_shared :
    ∃ (h : List (Call ℕ)) (o : Obj ℕ), callsOn 0 h = [] ∧
      let w := (World.run (exGrid 4) ⟨[], []⟩ exCalls)
      w.objs[0]? = some o ∧ (w.run (exGrid 4) h).objs[0]? = some o ∧ o.isInitialized = true ∧
      w.nDofs (exGrid 4) o = 20 ∧ (w.run (exGrid 4) h).nDofs (exGrid 4) o = 28 ∧ o.vectors = some [(0, 8), (8, 20)] := by
  refine ⟨[.on 1 (.setupExtractors 1 2), .on 1 .setupDofs], _, rfl, rfl, rfl, ?_, ?_, ?_, ?_⟩
  all_goals rfl

/-- Hypotheses of `C99_state` and `C99_constraints` for the calls of the application. -/
example : ∃ cs : List (Action ℕ), (∀ a ∈ cs, Config a) ∧
    callsOn (World.objs ⟨[], []⟩ : List (Obj ℕ)).length exCalls.tail = .setupExtractors 1 3 :: .setupDofs :: cs ∧
    Action.setupVectors ∈ cs ∧ (∃ c, Action.setAffine c ∈ cs) ∧ ∃ c, Action.setNewton c ∈ cs := by
  refine ⟨_, ?_, rfl, ?_, ⟨fun d => if d = 5 then some 1 else none, ?_⟩, ⟨fun d => if d = 5 then some 0 else none, ?_⟩⟩
  all_goals simp [Config]

/-- The last boundary value wins. -/
example : ((World.run (exGrid 4) ⟨[], []⟩ exCalls).objs.map fun o => (o.affine 5, o.newton 5, o.isInitialized)) =
    [(some 2, some 0, true), (none, none, false)] := rfl

/-- Hypotheses of `C99_order`: nothing was called yet, and everything throws but the extractors. -/
example : Crystals (callsOn 0 ([] : List (Call ℕ))) ∧ ¬ ExtractorsDone (callsOn 0 ([] : List (Call ℕ))) ∧
    DofsDone [Action.setupExtractors 1 3, (Action.setupDofs : Action ℕ)] := by
  refine ⟨by simp [Crystals, callsOn], by simp [ExtractorsDone, callsOn], ⟨[.setupExtractors 1 3], [], rfl, 1, 3, by simp⟩⟩

end Verif.Fld
