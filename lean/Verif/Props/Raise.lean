import Verif.Model.Raise
import Verif.Props.Drivers

/-!
# Steps that cannot be completed: C98
-/

namespace Verif.Drv

variable {S A : Type*}

/-! ## The total algorithms of `Verif.Model.Drivers` for operations that fail -/

/-- The operations on `Option S`: after a failure nothing is left and the norm is not a number. -/
def MonoParts.total (o : MonoParts S A) : MonoOps (Option S) (Option A) where
  pre s := s.bind o.pre
  recompute s := s.bind o.recompute
  post s := s.bind o.post
  newton s := (s.bind o.solve).bind o.move
  restart s := s.bind o.restart
  norm s := s.map o.norm
  active s := s.map o.active

@[inherit_doc MonoParts.total]
def StagParts.total (o : StagParts S) : StagOps (Option S) where
  macroIt i s := ((s.bind (o.macroHead i)).bind (o.macroSolve i)).bind o.macroMove
  startMicro s := s.bind o.startMicro
  microIt s := ((s.bind o.microHead).bind o.microSolve).bind o.microMove
  evaluate s := s.bind o.evaluate
  macroNorm s := s.map o.macroNorm
  microNorm s := s.map o.microNorm

/-- An algorithm with failing operations and the total one agree: same result, and if the former stops, the
latter throws, possibly later. -/
def Agree (x : Ending S) (y : Outcome (Option S)) : Prop :=
  match x with
  | .returned s k => y = .returned (some s) k
  | .stopped _ k => (∀ t j, y ≠ .returned t j) ∧ ∀ j, y = .threw j → k ≤ j
  | .outOfFuel => y = .outOfFuel

theorem below_some (x tol : ℝ) : below (some x) tol ↔ x < tol := Iff.rfl

/-! ## Nothing is left after a failure -/

theorem monoRD_none (o : MonoParts S A) (nMax : ℕ) (tol : ℝ) (fuel n : ℕ) :
    (∀ t j, monoRD o.total nMax tol fuel n none ≠ .returned t j) ∧
    ∀ j, monoRD o.total nMax tol fuel n none = .threw j → n ≤ j := by
  induction fuel generalizing n with
  | zero => exact ⟨fun _ _ h => by simp [monoRD] at h, fun _ h => by simp [monoRD] at h⟩
  | succ fuel ih =>
    have e : monoRD o.total nMax tol (fuel + 1) n none =
        if ¬ n + 1 ≤ nMax then .threw n else monoRD o.total nMax tol fuel (n + 1) none := by
      by_cases h1 : n + 1 ≤ nMax
      · rw [monoRD, if_neg (not_not.2 h1), if_neg (not_not.2 h1)]
        simp only
        exact if_neg (show ¬ below none tol from id)
      · rw [monoRD, if_pos h1, if_pos h1]
    rw [e]
    by_cases h1 : ¬ n + 1 ≤ nMax
    · rw [if_pos h1]
      exact ⟨fun _ _ h => (by cases h), fun j h => (Outcome.threw.inj h).le⟩
    rw [if_neg h1]
    · exact ⟨(ih _).1, fun j h => by have := (ih _).2 j h; omega⟩

theorem monoRI_none (o : MonoParts S A) (nMax : ℕ) (tol : ℝ) (fuel n : ℕ) (flag : Bool) (k : ℕ) :
    (∀ t j, monoRI o.total nMax tol fuel n flag k none ≠ .returned t j) ∧
    ∀ j, monoRI o.total nMax tol fuel n flag k none = .threw j → k ≤ j := by
  induction fuel generalizing n flag k with
  | zero => exact ⟨fun _ _ h => by simp [monoRI] at h, fun _ h => by simp [monoRI] at h⟩
  | succ fuel ih =>
    have e : monoRI o.total nMax tol (fuel + 1) n flag k none =
        if ¬ n + 1 ≤ nMax then .threw k else monoRI o.total nMax tol fuel (n + 1) false (k + 1) none := by
      by_cases h1 : n + 1 ≤ nMax
      · rw [monoRI, if_neg (not_not.2 h1), if_neg (not_not.2 h1)]
        cases flag
        · exact if_neg (show ¬ below none tol from id)
        · exact if_neg (show ¬ below none tol from id)
      · rw [monoRI, if_pos h1, if_pos h1]
    rw [e]
    by_cases h1 : ¬ n + 1 ≤ nMax
    · rw [if_pos h1]
      exact ⟨fun _ _ h => (by cases h), fun j h => (Outcome.threw.inj h).le⟩
    rw [if_neg h1]
    · exact ⟨(ih _ _ _).1, fun j h => by have := (ih _ _ _).2 j h; omega⟩

theorem microLoop_none (o : StagParts S) (nMax : ℕ) (tol : ℝ) (fuel n : ℕ) :
    (∀ t j, microLoop o.total nMax tol fuel n none ≠ .returned t j) ∧
    ∀ j, microLoop o.total nMax tol fuel n none = .threw j → n ≤ j := by
  induction fuel generalizing n with
  | zero => exact ⟨fun _ _ h => by simp [microLoop] at h, fun _ h => by simp [microLoop] at h⟩
  | succ fuel ih =>
    have e : microLoop o.total nMax tol (fuel + 1) n none =
        if ¬ n + 1 ≤ nMax then .threw n else microLoop o.total nMax tol fuel (n + 1) none := by
      by_cases h1 : n + 1 ≤ nMax
      · rw [microLoop, if_neg (not_not.2 h1), if_neg (not_not.2 h1)]
        simp only
        exact if_neg (show ¬ below none tol from id)
      · rw [microLoop, if_pos h1, if_pos h1]
    rw [e]
    by_cases h1 : ¬ n + 1 ≤ nMax
    · rw [if_pos h1]
      exact ⟨fun _ _ h => (by cases h), fun j h => (Outcome.threw.inj h).le⟩
    rw [if_neg h1]
    · exact ⟨(ih _).1, fun j h => by have := (ih _).2 j h; omega⟩

theorem bouncing_none (o : StagParts S) (p : StagParams) (fuel i c : ℕ) (m : Bool) (k : ℕ) :
    (∀ t j, bouncing o.total p fuel i c m k none ≠ .returned t j) ∧
    ∀ j, bouncing o.total p fuel i c m k none = .threw j → k ≤ j := by
  induction fuel generalizing i c m k with
  | zero => exact ⟨fun _ _ h => by simp [bouncing] at h, fun _ h => by simp [bouncing] at h⟩
  | succ fuel ih =>
    have e : bouncing o.total p (fuel + 1) i c m k none =
        if ¬ i + 1 ≤ p.nMacro then .threw k else bouncing o.total p fuel (i + 1) c false (k + 1) none := by
      rw [bouncing, if_neg (fun h => h.1)]
      rfl
    rw [e]
    by_cases h1 : ¬ i + 1 ≤ p.nMacro
    · rw [if_pos h1]
      exact ⟨fun _ _ h => (by cases h), fun j h => (Outcome.threw.inj h).le⟩
    rw [if_neg h1]
    · exact ⟨(ih _ _ _ _).1, fun j h => by have := (ih _ _ _ _).2 j h; omega⟩

theorem embracing_none (o : StagParts S) (p : StagParams) (fuel i : ℕ) (m : Bool) (k : ℕ) :
    (∀ t j, embracing o.total p fuel i m k none ≠ .returned t j) ∧
    ∀ j, embracing o.total p fuel i m k none = .threw j → k ≤ j := by
  cases fuel with
  | zero => exact ⟨fun _ _ h => by simp [embracing] at h, fun _ h => by simp [embracing] at h⟩
  | succ fuel =>
    have e1 : o.total.startMicro (o.total.macroIt (i + 1) (o.total.evaluate none)) = none := rfl
    rw [embracing, if_neg (fun h => h.1), e1]
    by_cases h1 : ¬ i + 1 ≤ p.nMacro
    · rw [if_pos h1]
      exact ⟨fun _ _ h => (by cases h), fun j h => (Outcome.threw.inj h).le⟩
    rw [if_neg h1]
    obtain ⟨h2, h3⟩ := microLoop_none o p.nMicro p.tolMicro (p.nMicro + 1) 0
    cases hm : microLoop o.total p.nMicro p.tolMicro (p.nMicro + 1) 0 none with
    | returned t j => exact absurd hm (h2 t j)
    | threw j => exact ⟨fun _ _ h => by simp at h, fun j h => by simp at h; omega⟩
    | outOfFuel => exact ⟨fun _ _ h => by simp at h, fun j h => by simp at h⟩

/-! ## The algorithms agree -/

theorem agree_none {y : Outcome (Option S)} {c : Stop} {k k' : ℕ} (hk : k ≤ k')
    (h : (∀ t j, y ≠ .returned t j) ∧ ∀ j, y = .threw j → k' ≤ j) : Agree (.stopped c k) y :=
  ⟨h.1, fun j hj => hk.trans (h.2 j hj)⟩

theorem agree_threw {c : Stop} {k j : ℕ} (hk : k ≤ j) : Agree (S := S) (.stopped c k) (.threw j) :=
  ⟨fun _ _ h => by simp at h, fun j h => by simp at h; omega⟩

open Classical in
theorem monoRD_step {o : MonoOps S A} {nMax : ℕ} {tol : ℝ} {fuel n : ℕ} {s s' : S} (h1 : n + 1 ≤ nMax)
    (h : o.newton (o.post (o.pre s)) = s') :
    monoRD o nMax tol (fuel + 1) n s =
      if below (o.norm s') tol then .returned s' (n + 1) else monoRD o nMax tol fuel (n + 1) s' := by
  subst h
  rw [monoRD, if_neg (not_not.2 h1)]

open Classical in
theorem monoRI_step {o : MonoOps S A} {nMax : ℕ} {tol : ℝ} {fuel n k : ℕ} {flag : Bool} {s s' : S}
    (h1 : n + 1 ≤ nMax)
    (h : o.newton (o.post (if flag then o.recompute (o.pre s) else o.pre s)) = s') :
    monoRI o nMax tol (fuel + 1) n flag k s =
      if below (o.norm s') tol then
        if o.active s' ≠ o.active (o.recompute s') then
          monoRI o nMax tol fuel 0 false (k + 1) (o.restart (o.recompute s'))
        else .returned (o.recompute s') (k + 1)
      else monoRI o nMax tol fuel (n + 1) false (k + 1) s' := by
  subst h
  rw [monoRI, if_neg (not_not.2 h1)]

open Classical in
theorem microLoop_step {o : StagOps S} {nMax : ℕ} {tol : ℝ} {fuel n : ℕ} {s s' : S} (h1 : n + 1 ≤ nMax)
    (h : o.microIt s = s') :
    microLoop o nMax tol (fuel + 1) n s =
      if below (o.microNorm s') tol then .returned s' (n + 1) else microLoop o nMax tol fuel (n + 1) s' := by
  subst h
  rw [microLoop, if_neg (not_not.2 h1)]

theorem agree_mono_dependent (o : MonoParts S A) (nMax : ℕ) (tol : ℝ) (fuel n : ℕ) (flag : Bool) (s : S) :
    Agree (monoX o false nMax tol fuel n flag n s) (monoRD o.total nMax tol fuel n (some s)) := by
  induction fuel generalizing n flag s with
  | zero => rfl
  | succ fuel ih =>
    rw [monoX]
    by_cases h1 : n + 1 ≤ nMax
    swap
    · rw [monoRD, if_pos h1, if_pos h1]
      exact agree_threw le_rfl
    rw [if_neg (not_not.2 h1)]
    simp only [Bool.false_eq_true, false_and, if_false]
    have e : o.total.newton (o.total.post (o.total.pre (some s))) =
        (((((o.pre s).bind some).bind o.post).bind o.solve).bind o.move) := by
      rw [Option.bind_fun_some]; rfl
    have fail : ∀ c k', k' ≤ n + 1 → o.total.newton (o.total.post (o.total.pre (some s))) = none →
        Agree (.stopped c k') (monoRD o.total nMax tol (fuel + 1) n (some s)) := by
      intro c k' hk hn
      rw [monoRD_step h1 hn, if_neg (show ¬ below (o.total.norm none) tol from id)]
      exact agree_none hk (monoRD_none o nMax tol fuel (n + 1))
    cases h3 : ((o.pre s).bind some).bind o.post with
    | none => exact fail _ _ (by omega) (by rw [e, h3]; rfl)
    | some s3 =>
      simp only
      cases h4 : o.solve s3 with
      | none => exact fail _ _ (by omega) (by rw [e, h3, Option.bind_some, h4]; rfl)
      | some s' =>
        simp only
        cases h5 : o.move s' with
        | none => exact fail _ _ le_rfl (by rw [e, h3, Option.bind_some, h4, Option.bind_some, h5])
        | some s4 =>
          simp only
          rw [monoRD_step h1 (by rw [e, h3, Option.bind_some, h4, Option.bind_some, h5])]
          by_cases hb : o.norm s4 < tol
          · rw [if_pos hb, if_pos (show below (o.total.norm (some s4)) tol from hb)]
            rfl
          · rw [if_neg hb, if_neg (show ¬ below (o.total.norm (some s4)) tol from hb)]
            exact ih _ _ _

theorem agree_mono_independent (o : MonoParts S A) (nMax : ℕ) (tol : ℝ) (fuel n : ℕ) (flag : Bool) (k : ℕ)
    (s : S) :
    Agree (monoX o true nMax tol fuel n flag k s) (monoRI o.total nMax tol fuel n flag k (some s)) := by
  induction fuel generalizing n flag k s with
  | zero => rfl
  | succ fuel ih =>
    rw [monoX]
    by_cases h1 : n + 1 ≤ nMax
    swap
    · rw [monoRI, if_pos h1, if_pos h1]
      exact agree_threw le_rfl
    rw [if_neg (not_not.2 h1)]
    simp only [true_and]
    have e : o.total.newton (o.total.post (if flag = true then o.total.recompute (o.total.pre (some s))
        else o.total.pre (some s))) =
        (((((o.pre s).bind fun s1 => if flag = true then o.recompute s1 else some s1).bind o.post).bind
          o.solve).bind o.move) := by
      cases flag
      · simp [MonoParts.total]
      · simp [MonoParts.total]
    have fail : ∀ c k', k' ≤ k + 1 → o.total.newton (o.total.post (if flag = true then
        o.total.recompute (o.total.pre (some s)) else o.total.pre (some s))) = none →
        Agree (.stopped c k') (monoRI o.total nMax tol (fuel + 1) n flag k (some s)) := by
      intro c k' hk hn
      rw [monoRI_step h1 hn, if_neg (show ¬ below (o.total.norm none) tol from id)]
      exact agree_none hk (monoRI_none o nMax tol fuel (n + 1) false (k + 1))
    cases h3 : ((o.pre s).bind fun s1 => if flag = true then o.recompute s1 else some s1).bind o.post with
    | none => exact fail _ _ (by omega) (by rw [e, h3]; rfl)
    | some s3 =>
      simp only
      cases h4 : o.solve s3 with
      | none => exact fail _ _ (by omega) (by rw [e, h3, Option.bind_some, h4]; rfl)
      | some s' =>
        simp only
        cases h5 : o.move s' with
        | none => exact fail _ _ le_rfl (by rw [e, h3, Option.bind_some, h4, Option.bind_some, h5])
        | some s4 =>
          simp only
          rw [monoRI_step h1 (by rw [e, h3, Option.bind_some, h4, Option.bind_some, h5])]
          by_cases hb : o.norm s4 < tol
          · rw [if_pos hb, if_pos (show below (o.total.norm (some s4)) tol from hb)]
            simp only [if_true]
            have er : o.total.recompute (some s4) = o.recompute s4 := rfl
            cases h6 : o.recompute s4 with
            | none =>
              simp only
              rw [if_pos (show o.total.active (some s4) ≠ o.total.active (o.total.recompute (some s4)) by
                rw [er, h6]; simp [MonoParts.total])]
              have er2 : o.total.restart (o.total.recompute (some s4)) = none := by rw [er, h6]; rfl
              rw [er2]
              exact agree_none le_rfl (monoRI_none o nMax tol fuel 0 false (k + 1))
            | some s5 =>
              simp only
              by_cases ha : o.active s4 = o.active s5
              · rw [if_neg (not_not.2 ha), if_neg (not_not.2 (show o.total.active (some s4) =
                  o.total.active (o.total.recompute (some s4)) by rw [er, h6]; exact congrArg some ha)), er, h6]
                rfl
              · rw [if_pos ha, if_pos (show o.total.active (some s4) ≠
                  o.total.active (o.total.recompute (some s4)) by
                    rw [er, h6]; exact fun h => ha (Option.some.inj h)), er, h6]
                have es : o.total.restart (some s5) = o.restart s5 := rfl
                rw [es]
                cases h7 : o.restart s5 with
                | none => exact agree_none le_rfl (monoRI_none o nMax tol fuel 0 false (k + 1))
                | some s6 => exact ih _ _ _ _
          · rw [if_neg hb, if_neg (show ¬ below (o.total.norm (some s4)) tol from hb)]
            exact ih _ _ _ _

theorem agree_micro (o : StagParts S) (nMax : ℕ) (tol : ℝ) (fuel n : ℕ) (s : S) :
    Agree (microX o nMax tol fuel n s) (microLoop o.total nMax tol fuel n (some s)) := by
  induction fuel generalizing n s with
  | zero => rfl
  | succ fuel ih =>
    rw [microX]
    by_cases h1 : n + 1 ≤ nMax
    swap
    · rw [microLoop, if_pos h1, if_pos h1]
      exact agree_threw le_rfl
    rw [if_neg (not_not.2 h1)]
    have e : o.total.microIt (some s) = ((o.microHead s).bind o.microSolve).bind o.microMove := rfl
    have fail : ∀ c k', k' ≤ n + 1 → o.total.microIt (some s) = none →
        Agree (.stopped c k') (microLoop o.total nMax tol (fuel + 1) n (some s)) := by
      intro c k' hk hn
      rw [microLoop_step h1 hn, if_neg (show ¬ below (o.total.microNorm none) tol from id)]
      exact agree_none hk (microLoop_none o nMax tol fuel (n + 1))
    cases h3 : o.microHead s with
    | none => exact fail _ _ (by omega) (by rw [e, h3]; rfl)
    | some s3 =>
      simp only
      cases h4 : o.microSolve s3 with
      | none => exact fail _ _ (by omega) (by rw [e, h3, Option.bind_some, h4]; rfl)
      | some s' =>
        simp only
        cases h5 : o.microMove s' with
        | none => exact fail _ _ le_rfl (by rw [e, h3, Option.bind_some, h4, Option.bind_some, h5])
        | some s4 =>
          simp only
          rw [microLoop_step h1 (by rw [e, h3, Option.bind_some, h4, Option.bind_some, h5])]
          by_cases hb : o.microNorm s4 < tol
          · rw [if_pos hb, if_pos (show below (o.total.microNorm (some s4)) tol from hb)]
            rfl
          · rw [if_neg hb, if_neg (show ¬ below (o.total.microNorm (some s4)) tol from hb)]
            exact ih _ _

theorem macroX_cases (o : StagParts S) (c : Stop) (i k : ℕ) (s : S) :
    (∃ s', macroX o c i k s = .inl s' ∧ o.total.macroIt i (some s) = some s') ∨
    ∃ e, macroX o c i k s = .inr e ∧ e.2 ≤ k + 1 ∧ o.total.macroIt i (some s) = none := by
  have e : o.total.macroIt i (some s) = ((o.macroHead i s).bind (o.macroSolve i)).bind o.macroMove := rfl
  rw [e]
  unfold macroX
  cases h3 : o.macroHead i s with
  | none => exact .inr ⟨_, rfl, by simp, rfl⟩
  | some s1 =>
    simp only [Option.bind_some]
    cases h4 : o.macroSolve i s1 with
    | none => exact .inr ⟨_, rfl, by simp, rfl⟩
    | some s2 =>
      simp only [Option.bind_some]
      cases h5 : o.macroMove s2 with
      | none => exact .inr ⟨_, rfl, le_rfl, rfl⟩
      | some s' => exact .inl ⟨_, rfl, rfl⟩

theorem agree_bouncing (o : StagParts S) (p : StagParams) (fuel i c : ℕ) (m : Bool) (k : ℕ) (s : S) :
    Agree (bouncingX o p fuel i c m k s) (bouncing o.total p fuel i c m k (some s)) := by
  induction fuel generalizing i c m k s with
  | zero => rfl
  | succ fuel ih =>
    rw [bouncingX, bouncing]
    by_cases hb : o.macroNorm s < p.tolMacro ∧ ¬ (c = 1 ∧ i = 0)
    · rw [if_pos hb, if_pos (show below (o.total.macroNorm (some s)) p.tolMacro ∧ ¬ (c = 1 ∧ i = 0) from hb)]
      cases m with
      | true => exact rfl
      | false =>
        simp only [Bool.false_eq_true, if_false]
        have e : o.total.startMicro (some s) = o.startMicro s := rfl
        rw [e]
        cases h1 : o.startMicro s with
        | none =>
          obtain ⟨h2, h3⟩ := microLoop_none o p.nMicro p.tolMicro (p.nMicro + 1) 0
          simp only
          cases hm : microLoop o.total p.nMicro p.tolMicro (p.nMicro + 1) 0 none with
          | returned t j => exact absurd hm (h2 t j)
          | threw j => exact agree_threw (by omega)
          | outOfFuel => exact ⟨fun _ _ h => by simp at h, fun j h => by simp at h⟩
        | some s1 =>
          simp only
          have ha := agree_micro o p.nMicro p.tolMicro (p.nMicro + 1) 0 s1
          cases hx : microX o p.nMicro p.tolMicro (p.nMicro + 1) 0 s1 with
          | returned t j =>
            rw [hx] at ha
            change _ = _ at ha
            rw [ha]
            simp only
            split_ifs with h2
            · exact ih _ _ _ _ _
            · exact agree_threw le_rfl
          | stopped e j =>
            rw [hx] at ha
            obtain ⟨h2, h3⟩ := ha
            simp only
            cases hm : microLoop o.total p.nMicro p.tolMicro (p.nMicro + 1) 0 (some s1) with
            | returned t j => exact absurd hm (h2 t j)
            | threw j' => exact agree_threw (by have := h3 j' hm; omega)
            | outOfFuel => exact ⟨fun _ _ h => by simp at h, fun j h => by simp at h⟩
          | outOfFuel =>
            rw [hx] at ha
            change _ = _ at ha
            rw [ha]
            rfl
    · rw [if_neg hb, if_neg (show ¬ (below (o.total.macroNorm (some s)) p.tolMacro ∧ ¬ (c = 1 ∧ i = 0)) from hb)]
      by_cases h1 : ¬ i + 1 ≤ p.nMacro
      · rw [if_pos h1, if_pos h1]
        exact agree_threw le_rfl
      · rw [if_neg h1, if_neg h1]
        rcases macroX_cases o .abort (i + 1) k s with ⟨s', h2, h3⟩ | ⟨e, h2, h3, h4⟩
        · rw [h2, h3]
          exact ih _ _ _ _ _
        · rw [h2, h4]
          exact agree_none h3 (bouncing_none o p fuel (i + 1) c false (k + 1))

theorem agree_embracing (o : StagParts S) (p : StagParams) (fuel i : ℕ) (m : Bool) (k : ℕ) (s : S) :
    Agree (embracingX o p fuel i m k s) (embracing o.total p fuel i m k (some s)) := by
  induction fuel generalizing i m k s with
  | zero => rfl
  | succ fuel ih =>
    have e0 : o.total.evaluate (some s) = o.evaluate s := rfl
    cases h0 : o.evaluate s with
    | none =>
      have e1 : embracing o.total p (fuel + 1) i m k (some s) = embracing o.total p (fuel + 1) i m k none := by
        rw [embracing, embracing, e0, h0]
        rfl
      rw [e1, embracingX, h0]
      exact agree_none le_rfl (embracing_none o p _ _ _ _)
    | some s1 =>
      rw [embracingX, embracing, e0, h0]
      simp only
      by_cases hb : o.macroNorm s1 < p.tolMacro ∧ m = true
      · rw [if_pos hb, if_pos (show below (o.total.macroNorm (some s1)) p.tolMacro ∧ m = true from hb)]
        rfl
      · rw [if_neg hb, if_neg (show ¬ (below (o.total.macroNorm (some s1)) p.tolMacro ∧ m = true) from hb)]
        by_cases h1 : ¬ i + 1 ≤ p.nMacro
        · rw [if_pos h1, if_pos h1]
          exact agree_threw le_rfl
        · rw [if_neg h1, if_neg h1]
          obtain ⟨hn2, hn3⟩ := microLoop_none o p.nMicro p.tolMicro (p.nMicro + 1) 0
          rcases macroX_cases o (if i + 1 = 1 then .abort else .exception) (i + 1) k s1 with
            ⟨s', h2, h3⟩ | ⟨e, h2, h3, h4⟩
          · rw [h2, h3]
            simp only
            have e : o.total.startMicro (some s') = o.startMicro s' := rfl
            rw [e]
            cases h4 : o.startMicro s' with
            | none =>
              simp only
              cases hm : microLoop o.total p.nMicro p.tolMicro (p.nMicro + 1) 0 none with
              | returned t j => exact absurd hm (hn2 t j)
              | threw j => exact agree_threw (by omega)
              | outOfFuel => exact ⟨fun _ _ h => by simp at h, fun j h => by simp at h⟩
            | some s2 =>
              simp only
              have ha := agree_micro o p.nMicro p.tolMicro (p.nMicro + 1) 0 s2
              cases hx : microX o p.nMicro p.tolMicro (p.nMicro + 1) 0 s2 with
              | returned t j =>
                rw [hx] at ha
                change _ = _ at ha
                rw [ha]
                exact ih _ _ _ _
              | stopped e j =>
                rw [hx] at ha
                obtain ⟨h2, h3⟩ := ha
                simp only
                cases hm : microLoop o.total p.nMicro p.tolMicro (p.nMicro + 1) 0 (some s2) with
                | returned t j => exact absurd hm (h2 t j)
                | threw j' => exact agree_threw (by have := h3 j' hm; omega)
                | outOfFuel => exact ⟨fun _ _ h => by simp at h, fun j h => by simp at h⟩
              | outOfFuel =>
                rw [hx] at ha
                change _ = _ at ha
                rw [ha]
                rfl
          · rw [h2, h4]
            have e : o.total.startMicro none = none := rfl
            simp only [e]
            cases hm : microLoop o.total p.nMicro p.tolMicro (p.nMicro + 1) 0 none with
            | returned t j => exact absurd hm (hn2 t j)
            | threw j => exact agree_threw (by omega)
            | outOfFuel => exact ⟨fun _ _ h => by simp at h, fun j h => by simp at h⟩

/-! ## C98 -/

/-- Specification: the `k`-th Newton iterate of a load step, if every operation up to it succeeds. -/
def newtonRun (o : MonoParts S A) : ℕ → S → Option S
  | 0, s => some s
  | k + 1, s => (newtonRun o k s).bind fun u => (((o.pre u).bind o.post).bind o.solve).bind o.move

/-- Specification: the `j` first iterates exist and none of them meets the tolerance. -/
def NotYet (o : MonoParts S A) (tol : ℝ) (j : ℕ) (s : S) : Prop :=
  ∀ i, 1 ≤ i → i ≤ j → ∃ u, newtonRun o i s = some u ∧ tol ≤ o.norm u

theorem monoX_dependent_spec (o : MonoParts S A) (nMax : ℕ) (tol : ℝ) (s u : S) (flag : Bool)
    (fuel n : ℕ) (hfuel : nMax + 1 ≤ n + fuel) (hn : n ≤ nMax) (hu : newtonRun o n s = some u)
    (hp : NotYet o tol n s) :
    (∃ k t, 1 ≤ k ∧ k ≤ nMax ∧ newtonRun o k s = some t ∧ o.norm t < tol ∧ NotYet o tol (k - 1) s ∧
      monoX o false nMax tol fuel n flag n u = .returned t k) ∨
    (NotYet o tol nMax s ∧ monoX o false nMax tol fuel n flag n u = .stopped .exception nMax) ∨
    (∃ k t, k < nMax ∧ newtonRun o k s = some t ∧ NotYet o tol k s ∧
      ((o.pre t).bind o.post = none ∧ monoX o false nMax tol fuel n flag n u = .stopped .exception k ∨
       (∃ v, (o.pre t).bind o.post = some v ∧ o.solve v = none ∧
        monoX o false nMax tol fuel n flag n u = .stopped .abort k) ∨
       ∃ v w, (o.pre t).bind o.post = some v ∧ o.solve v = some w ∧ o.move w = none ∧
        monoX o false nMax tol fuel n flag n u = .stopped .exception (k + 1))) := by
  induction fuel generalizing n u flag with
  | zero => omega
  | succ fuel ih =>
    rw [monoX]
    by_cases h1 : n + 1 ≤ nMax
    swap
    · rw [if_pos h1]
      have : n = nMax := by omega
      subst this
      exact .inr (.inl ⟨hp, rfl⟩)
    rw [if_neg (not_not.2 h1)]
    simp only [Bool.false_eq_true, false_and, if_false]
    have e : (o.pre u).bind some = o.pre u := by rw [Option.bind_fun_some]
    rw [e]
    cases h3 : (o.pre u).bind o.post with
    | none => exact .inr (.inr ⟨n, u, h1, hu, hp, .inl ⟨h3, rfl⟩⟩)
    | some v =>
      simp only
      cases h4 : o.solve v with
      | none => exact .inr (.inr ⟨n, u, h1, hu, hp, .inr (.inl ⟨v, h3, h4, rfl⟩)⟩)
      | some w =>
        simp only
        cases h5 : o.move w with
        | none => exact .inr (.inr ⟨n, u, h1, hu, hp, .inr (.inr ⟨v, w, h3, h4, h5, rfl⟩)⟩)
        | some t =>
          simp only
          have ht : newtonRun o (n + 1) s = some t := by
            rw [newtonRun, hu, Option.bind_some, h3, Option.bind_some, h4, Option.bind_some, h5]
          by_cases hb : o.norm t < tol
          · rw [if_pos hb]
            exact .inl ⟨n + 1, t, by omega, h1, ht, hb, hp, rfl⟩
          · rw [if_neg hb]
            refine ih _ _ _ (by omega) h1 ht ?_
            intro i hi1 hi2
            rcases Nat.lt_or_ge i (n + 1) with h | h
            · exact hp i hi1 (by omega)
            · have : i = n + 1 := by omega
              subst this
              exact ⟨t, ht, not_lt.1 hb⟩

/-- C98, rate-dependent monolithic algorithm: a load step ends in exactly the way the first event decides: an iterate
within the tolerance is returned; the iteration limit or an operation that fails ends it at once, with an
exception unless it is the linear solver. -/
theorem C98_monolithic (o : MonoParts S A) (nMax : ℕ) (tol : ℝ) (flag : Bool) (s : S) :
    (∃ k t, 1 ≤ k ∧ k ≤ nMax ∧ newtonRun o k s = some t ∧ o.norm t < tol ∧ NotYet o tol (k - 1) s ∧
      monoX o false nMax tol (nMax + 1) 0 flag 0 s = .returned t k) ∨
    (NotYet o tol nMax s ∧ monoX o false nMax tol (nMax + 1) 0 flag 0 s = .stopped .exception nMax) ∨
    (∃ k t, k < nMax ∧ newtonRun o k s = some t ∧ NotYet o tol k s ∧
      ((o.pre t).bind o.post = none ∧ monoX o false nMax tol (nMax + 1) 0 flag 0 s = .stopped .exception k ∨
       (∃ v, (o.pre t).bind o.post = some v ∧ o.solve v = none ∧
        monoX o false nMax tol (nMax + 1) 0 flag 0 s = .stopped .abort k) ∨
       ∃ v w, (o.pre t).bind o.post = some v ∧ o.solve v = some w ∧ o.move w = none ∧
        monoX o false nMax tol (nMax + 1) 0 flag 0 s = .stopped .exception (k + 1))) :=
  monoX_dependent_spec o nMax tol s s flag (nMax + 1) 0 (by omega) (by omega) rfl
    (fun i h1 h2 => by omega)

theorem agree_same {x : Ending S} {y : Outcome (Option S)} (h : Agree x y) :
    (∀ t k, x = .returned t k ↔ y = .returned (some t) k) ∧
    (∀ t k, y = .returned t k → ∃ t', t = some t') ∧
    (∀ j, y = .threw j → ∃ c k, k ≤ j ∧ x = .stopped c k) := by
  cases x with
  | returned t k =>
    change _ = _ at h
    rw [h]
    exact ⟨fun _ _ => by simp, fun t' k h => ⟨t, by simp at h; exact h.1.symm⟩, fun _ h => by simp at h⟩
  | stopped c k =>
    exact ⟨fun t j => ⟨fun h' => (by cases h'), fun h' => absurd h' (h.1 _ _)⟩,
      fun t k h' => absurd h' (h.1 _ _), fun j hj => ⟨c, k, h.2 j hj, rfl⟩⟩
  | outOfFuel =>
    change _ = _ at h
    rw [h]
    exact ⟨fun _ _ => by simp, fun _ _ h => by simp at h, fun _ h => by simp at h⟩

/-- C98: what the rate-dependent monolithic algorithm returns is what it returns if a failure is a residual
that is not a number (C07), and it stops where that one throws, never later. -/
theorem C98_monolithic_same (o : MonoParts S A) (nMax : ℕ) (tol : ℝ) (flag : Bool) (s : S) :
    (∀ t k, monoX o false nMax tol (nMax + 1) 0 flag 0 s = .returned t k ↔
      monoRD o.total nMax tol (nMax + 1) 0 (some s) = .returned (some t) k) ∧
    ∀ j, monoRD o.total nMax tol (nMax + 1) 0 (some s) = .threw j →
      ∃ c k, k ≤ j ∧ monoX o false nMax tol (nMax + 1) 0 flag 0 s = .stopped c k :=
  have h := agree_same (agree_mono_dependent o nMax tol (nMax + 1) 0 flag s)
  ⟨h.1, h.2.2⟩

theorem monoX_kind (o : MonoParts S A) (ri : Bool) (nMax : ℕ) (tol : ℝ) (fuel n : ℕ) (flag : Bool) (k : ℕ) (s : S)
    (c : Stop) (j : ℕ) (h : monoX o ri nMax tol fuel n flag k s = .stopped c j) :
    c = .exception ∨ ∃ v, o.solve v = none := by
  induction fuel generalizing n flag k s with
  | zero => simp [monoX] at h
  | succ fuel ih =>
    rw [monoX] at h
    by_cases h1 : ¬ n + 1 ≤ nMax
    · rw [if_pos h1] at h
      simp at h
      exact .inl h.1.symm
    rw [if_neg h1] at h
    cases h3 : (((o.pre s).bind fun s1 => if ri = true ∧ flag = true then o.recompute s1 else some s1).bind
        o.post) with
    | none => rw [h3] at h; simp at h; exact .inl h.1.symm
    | some v =>
      rw [h3] at h
      simp only at h
      cases h4 : o.solve v with
      | none => exact .inr ⟨v, h4⟩
      | some w =>
        rw [h4] at h
        simp only at h
        cases h5 : o.move w with
        | none => rw [h5] at h; simp at h; exact .inl h.1.symm
        | some t =>
          rw [h5] at h
          simp only at h
          by_cases hb : o.norm t < tol
          · rw [if_pos hb] at h
            cases ri with
            | false => simp at h
            | true =>
              simp only [if_true] at h
              cases h6 : o.recompute t with
              | none => rw [h6] at h; simp at h; exact .inl h.1.symm
              | some t' =>
                rw [h6] at h
                simp only at h
                by_cases ha : o.active t ≠ o.active t'
                · rw [if_pos ha] at h
                  cases h7 : o.restart t' with
                  | none => rw [h7] at h; simp at h; exact .inl h.1.symm
                  | some t2 => rw [h7] at h; exact ih _ _ _ _ h
                · rw [if_neg ha] at h; simp at h
          · rw [if_neg hb] at h
            exact ih _ _ _ _ h

/-- C98, rate-independent monolithic algorithm: whatever it returns is a state whose residual was within the
tolerance and whose active set is the one it was computed with; it ends with an exception unless a linear solve fails. -/
theorem C98_monolithic_independent (o : MonoParts S A) (nMax : ℕ) (tol : ℝ) (fuel : ℕ) (s : S) :
    (∀ t k, monoX o true nMax tol fuel 0 true 0 s = .returned t k ↔
      monoRI o.total nMax tol fuel 0 true 0 (some s) = .returned (some t) k) ∧
    (∀ t k, monoX o true nMax tol fuel 0 true 0 s = .returned t k →
      ∃ u, o.recompute u = some t ∧ o.norm u < tol ∧ o.active u = o.active t) ∧
    (∀ c k, monoX o true nMax tol fuel 0 true 0 s = .stopped c k →
      c = .exception ∨ ∃ v, o.solve v = none) := by
  have ha := agree_same (agree_mono_independent o nMax tol fuel 0 true 0 s)
  refine ⟨ha.1, fun t k h => ?_, fun c k h => monoX_kind o _ _ _ _ _ _ _ _ c k h⟩
  obtain ⟨u, h1, ⟨r, h2, h2'⟩, h3⟩ := C08_active_set_consistent_partial o.total nMax tol fuel 0 true 0 (some s)
    (some t) k ((ha.1 t k).1 h)
  cases u with
  | none => simp [MonoParts.total] at h2
  | some u =>
    refine ⟨u, h1.symm, ?_, Option.some.inj h3⟩
    rw [Option.some.inj h2]
    exact h2'

theorem microX_kind (o : StagParts S) (nMax : ℕ) (tol : ℝ) (fuel n : ℕ) (s : S)
    (c : Stop) (j : ℕ) (h : microX o nMax tol fuel n s = .stopped c j) :
    c = .exception ∨ ∃ v, o.microSolve v = none := by
  induction fuel generalizing n s with
  | zero => simp [microX] at h
  | succ fuel ih =>
    rw [microX] at h
    by_cases h1 : ¬ n + 1 ≤ nMax
    · rw [if_pos h1] at h
      simp at h
      exact .inl h.1.symm
    rw [if_neg h1] at h
    cases h3 : o.microHead s with
    | none => rw [h3] at h; simp at h; exact .inl h.1.symm
    | some v =>
      rw [h3] at h
      simp only at h
      cases h4 : o.microSolve v with
      | none => exact .inr ⟨v, h4⟩
      | some w =>
        rw [h4] at h
        simp only at h
        cases h5 : o.microMove w with
        | none => rw [h5] at h; simp at h; exact .inl h.1.symm
        | some t =>
          rw [h5] at h
          simp only at h
          by_cases hb : o.microNorm t < tol
          · rw [if_pos hb] at h; simp at h
          · rw [if_neg hb] at h
            exact ih _ _ h

theorem macroX_kind (o : StagParts S) (c : Stop) (i k : ℕ) (s : S) (e : Stop × ℕ)
    (h : macroX o c i k s = .inr e) : e.1 = .exception ∨ e.1 = c ∧ ∃ v, o.macroSolve i v = none := by
  unfold macroX at h
  cases h3 : o.macroHead i s with
  | none => rw [h3] at h; simp at h; exact .inl (by rw [← h])
  | some v =>
    rw [h3] at h
    simp only at h
    cases h4 : o.macroSolve i v with
    | none => rw [h4] at h; simp at h; exact .inr ⟨by rw [← h], v, h4⟩
    | some w =>
      rw [h4] at h
      simp only at h
      cases h5 : o.macroMove w with
      | none => rw [h5] at h; simp at h; exact .inl (by rw [← h])
      | some t => rw [h5] at h; simp at h

theorem bouncingX_kind (o : StagParts S) (p : StagParams) (fuel i c : ℕ) (m : Bool) (k : ℕ) (s : S)
    (d : Stop) (j : ℕ) (h : bouncingX o p fuel i c m k s = .stopped d j) :
    d = .exception ∨ (∃ v, o.microSolve v = none) ∨ ∃ i v, o.macroSolve i v = none := by
  induction fuel generalizing i c m k s with
  | zero => simp [bouncingX] at h
  | succ fuel ih =>
    rw [bouncingX] at h
    by_cases hb : o.macroNorm s < p.tolMacro ∧ ¬ (c = 1 ∧ i = 0)
    · rw [if_pos hb] at h
      cases m with
      | true => simp at h
      | false =>
        simp only [Bool.false_eq_true, if_false] at h
        cases h1 : o.startMicro s with
        | none => rw [h1] at h; simp at h; exact .inl h.1.symm
        | some s1 =>
          rw [h1] at h
          simp only at h
          cases hx : microX o p.nMicro p.tolMicro (p.nMicro + 1) 0 s1 with
          | returned t j =>
            rw [hx] at h
            simp only at h
            by_cases h2 : ¬ c + 1 ≤ p.nLoops
            · rw [if_pos h2] at h; simp at h; exact .inl h.1.symm
            · rw [if_neg h2] at h; exact ih _ _ _ _ _ h
          | stopped e j =>
            rw [hx] at h
            simp only [Ending.stopped.injEq] at h
            rw [← h.1]
            exact (microX_kind o _ _ _ _ _ _ _ hx).imp id .inl
          | outOfFuel => rw [hx] at h; simp at h
    · rw [if_neg hb] at h
      by_cases h1 : ¬ i + 1 ≤ p.nMacro
      · rw [if_pos h1] at h; simp at h; exact .inl h.1.symm
      · rw [if_neg h1] at h
        cases hx : macroX o .abort (i + 1) k s with
        | inl s' => rw [hx] at h; exact ih _ _ _ _ _ h
        | inr e =>
          rw [hx] at h
          simp only [Ending.stopped.injEq] at h
          rw [← h.1]
          exact (macroX_kind o _ _ _ _ _ hx).imp id fun h => .inr ⟨_, h.2⟩

theorem embracingX_kind (o : StagParts S) (p : StagParams) (fuel i : ℕ) (m : Bool) (k : ℕ) (s : S)
    (d : Stop) (j : ℕ) (h : embracingX o p fuel i m k s = .stopped d j) :
    d = .exception ∨ (∃ v, o.microSolve v = none) ∨ ∃ v, o.macroSolve 1 v = none := by
  induction fuel generalizing i m k s with
  | zero => simp [embracingX] at h
  | succ fuel ih =>
    rw [embracingX] at h
    cases h0 : o.evaluate s with
    | none => rw [h0] at h; simp at h; exact .inl h.1.symm
    | some s1 =>
      rw [h0] at h
      simp only at h
      by_cases hb : o.macroNorm s1 < p.tolMacro ∧ m = true
      · rw [if_pos hb] at h; simp at h
      · rw [if_neg hb] at h
        by_cases h1 : ¬ i + 1 ≤ p.nMacro
        · rw [if_pos h1] at h; simp at h; exact .inl h.1.symm
        · rw [if_neg h1] at h
          cases hx : macroX o (if i + 1 = 1 then .abort else .exception) (i + 1) k s1 with
          | inl s' =>
            rw [hx] at h
            simp only at h
            cases h2 : o.startMicro s' with
            | none => rw [h2] at h; simp at h; exact .inl h.1.symm
            | some s2 =>
              rw [h2] at h
              simp only at h
              cases hy : microX o p.nMicro p.tolMicro (p.nMicro + 1) 0 s2 with
              | returned t j => rw [hy] at h; exact ih _ _ _ _ h
              | stopped e j =>
                rw [hy] at h
                simp only [Ending.stopped.injEq] at h
                rw [← h.1]
                exact (microX_kind o _ _ _ _ _ _ _ hy).imp id .inl
              | outOfFuel => rw [hy] at h; simp at h
          | inr e =>
            rw [hx] at h
            simp only [Ending.stopped.injEq] at h
            rw [← h.1]
            rcases macroX_kind o _ _ _ _ _ hx with h2 | ⟨h2, h3⟩
            · exact .inl h2
            · by_cases hi : i + 1 = 1
              · rw [hi] at h3; exact .inr (.inr h3)
              · rw [if_neg hi] at h2; exact .inl h2

/-- C98, bouncing algorithm, for all parameters and operations: it returns a state with both residuals within their
tolerances, or it stops within the limits; it ends with an exception unless a linear solve fails. -/
theorem C98_bouncing (o : StagParts S) (p : StagParams) (s : S) :
    (∃ t k, bouncingX o p (max p.nLoops 1 * (p.nMacro + 1)) 0 1 false 0 s = .returned t k ∧
      o.macroNorm t < p.tolMacro ∧ o.microNorm t < p.tolMicro ∧ 2 ≤ k ∧
      k ≤ max p.nLoops 1 * (p.nMacro + p.nMicro)) ∨
    ∃ c k, bouncingX o p (max p.nLoops 1 * (p.nMacro + 1)) 0 1 false 0 s = .stopped c k ∧
      k ≤ max p.nLoops 1 * (p.nMacro + p.nMicro) ∧
      (c = .exception ∨ (∃ v, o.microSolve v = none) ∨ ∃ i v, o.macroSolve i v = none) := by
  have ha := agree_same (agree_bouncing o p (max p.nLoops 1 * (p.nMacro + 1)) 0 1 false 0 s)
  rcases C09_bouncing o.total p (some s) with ⟨s', k, h1, h2, h3⟩ | ⟨k, h1, h2⟩
  · obtain ⟨t, rfl⟩ := ha.2.1 _ _ h1
    refine .inl ⟨t, k, (ha.1 t k).2 h1, ?_, ?_, C09_no_stale_acceptance o.total p _ _ _ h1, h3⟩
    · obtain ⟨r, h4, h5⟩ := h2.1
      rw [Option.some.inj h4]; exact h5
    · obtain ⟨r, h4, h5⟩ := h2.2.1
      rw [Option.some.inj h4]; exact h5
  · obtain ⟨c, j, h3, h4⟩ := ha.2.2 _ h1
    exact .inr ⟨c, j, h4, h3.trans h2, bouncingX_kind o p _ _ _ _ _ _ _ _ h4⟩

/-- C98: the bouncing algorithm returns exactly what it returns if a failure is a residual that is not a number (C09). -/
theorem C98_bouncing_same (o : StagParts S) (p : StagParams) (s t : S) (k : ℕ) :
    bouncingX o p (max p.nLoops 1 * (p.nMacro + 1)) 0 1 false 0 s = .returned t k ↔
      bouncing o.total p (max p.nLoops 1 * (p.nMacro + 1)) 0 1 false 0 (some s) = .returned (some t) k :=
  (agree_same (agree_bouncing o p (max p.nLoops 1 * (p.nMacro + 1)) 0 1 false 0 s)).1 t k

/-- C98, embracing algorithm, for all parameters and operations: it returns a state with the macroscopic residual
within its tolerance, evaluated at a solution of the microscopic loop within its tolerance, or it stops within
the limits; it ends with an exception unless a microscopic or the first macroscopic linear solve fails. -/
theorem C98_embracing (o : StagParts S) (p : StagParams) (s : S) :
    (∃ t k, embracingX o p (p.nMacro + 1) 0 false 0 s = .returned t k ∧
      o.macroNorm t < p.tolMacro ∧ (∃ u, o.evaluate u = some t ∧ o.microNorm u < p.tolMicro) ∧
      k ≤ p.nMacro * (1 + p.nMicro)) ∨
    ∃ c k, embracingX o p (p.nMacro + 1) 0 false 0 s = .stopped c k ∧
      k ≤ p.nMacro * (1 + p.nMicro) ∧
      (c = .exception ∨ (∃ v, o.microSolve v = none) ∨ ∃ v, o.macroSolve 1 v = none) := by
  have ha := agree_same (agree_embracing o p (p.nMacro + 1) 0 false 0 s)
  rcases embracing_spec o.total p (p.nMacro + 1) 0 false 0 (some s) (by omega) (by simp) (by omega) with
    ⟨s', k, h1, h2, ⟨t', h3, h4⟩, h5⟩ | ⟨k, h1, h2⟩
  · obtain ⟨t, rfl⟩ := ha.2.1 _ _ h1
    refine .inl ⟨t, k, (ha.1 t k).2 h1, h2, ?_, by simpa using h5⟩
    cases hu : o.total.microIt t' with
    | none => rw [hu] at h4; exact absurd h4 id
    | some u =>
      rw [hu] at h3 h4
      exact ⟨u, h3.symm, h4⟩
  · obtain ⟨c, j, h3, h4⟩ := ha.2.2 _ h1
    exact .inr ⟨c, j, h4, h3.trans (by simpa using h2), embracingX_kind o p _ _ _ _ _ _ _ h4⟩

/-- C98: the embracing algorithm returns exactly what it returns if a failure is a residual that is not a number (C10). -/
theorem C98_embracing_same (o : StagParts S) (p : StagParams) (s t : S) (k : ℕ) :
    embracingX o p (p.nMacro + 1) 0 false 0 s = .returned t k ↔
      embracing o.total p (p.nMacro + 1) 0 false 0 (some s) = .returned (some t) k :=
  (agree_same (agree_embracing o p (p.nMacro + 1) 0 false 0 s)).1 t k

/-- C98 is violated: if the linear solver fails in the first Newton iteration, the program is aborted, whatever
the state, the limits and the tolerance; no exception reaches the application. -/
theorem C98_violated_abort_monolithic (o : MonoParts S A) (nMax : ℕ) (tol : ℝ) (s v : S) (hn : 1 ≤ nMax)
    (hv : (o.pre s).bind o.post = some v) (hs : o.solve v = none) :
    monoX o false nMax tol (nMax + 1) 0 false 0 s = .stopped .abort 0 := by
  rw [monoX, if_neg (by omega)]
  simp only [Bool.false_eq_true, false_and, if_false]
  rw [show (o.pre s).bind some = o.pre s by rw [Option.bind_fun_some], hv]
  simp only
  rw [hs]

/-- C98 is violated: the same for the bouncing algorithm. -/
theorem C98_violated_abort_bouncing (o : StagParts S) (p : StagParams) (s v : S) (hn : 1 ≤ p.nMacro)
    (hv : o.macroHead 1 s = some v) (hs : o.macroSolve 1 v = none) :
    bouncingX o p (max p.nLoops 1 * (p.nMacro + 1)) 0 1 false 0 s = .stopped .abort 0 := by
  obtain ⟨f, hf⟩ : ∃ f, max p.nLoops 1 * (p.nMacro + 1) = f + 1 :=
    ⟨_, (Nat.succ_pred (Nat.mul_ne_zero (by omega) (by omega))).symm⟩
  rw [hf, bouncingX, if_neg (by simp), if_neg (by omega)]
  have : macroX o .abort (0 + 1) 0 s = .inr (.abort, 0) := by
    unfold macroX
    rw [hv]
    simp only
    rw [hs]
  rw [this]

/-- C98 is violated: the same for the embracing algorithm, whose first macroscopic system goes through the
handlers while the later ones do not. -/
theorem C98_violated_abort_embracing (o : StagParts S) (p : StagParams) (s u v : S) (hn : 1 ≤ p.nMacro)
    (hu : o.evaluate s = some u) (hv : o.macroHead 1 u = some v) (hs : o.macroSolve 1 v = none) :
    embracingX o p (p.nMacro + 1) 0 false 0 s = .stopped .abort 0 := by
  rw [embracingX, hu]
  simp only
  rw [if_neg (by simp), if_neg (by omega)]
  have : macroX o .abort (0 + 1) 0 u = .inr (.abort, 0) := by
    unfold macroX
    rw [hv]
    simp only
    rw [hs]
  simp only [if_true]
  rw [this]

theorem microX_abort (o : StagParts S) (nMax : ℕ) (tol : ℝ) (fuel : ℕ) (s v : S) (hn : 1 ≤ nMax)
    (hv : o.microHead s = some v) (hs : o.microSolve v = none) :
    microX o nMax tol (fuel + 1) 0 s = .stopped .abort 0 := by
  rw [microX, if_neg (by omega), hv]
  simp only
  rw [hs]

theorem macroX_inl (o : StagParts S) (c : Stop) (i k : ℕ) (s v w t : S) (hv : o.macroHead i s = some v)
    (hw : o.macroSolve i v = some w) (ht : o.macroMove w = some t) : macroX o c i k s = .inl t := by
  unfold macroX
  rw [hv]
  simp only
  rw [hw]
  simp only
  rw [ht]

/-- C98 is violated: if the first microscopic linear solve of the bouncing algorithm fails, after a macroscopic
iteration that converged, the program is aborted too. -/
theorem C98_violated_abort_bouncing_micro (o : StagParts S) (p : StagParams) (s v w t u x : S)
    (hn : 1 ≤ p.nMacro) (hm : 1 ≤ p.nMicro)
    (hv : o.macroHead 1 s = some v) (hw : o.macroSolve 1 v = some w) (ht : o.macroMove w = some t)
    (hc : o.macroNorm t < p.tolMacro) (hu : o.startMicro t = some u) (hx : o.microHead u = some x)
    (hs : o.microSolve x = none) :
    bouncingX o p (max p.nLoops 1 * (p.nMacro + 1)) 0 1 false 0 s = .stopped .abort 1 := by
  obtain ⟨f, hf⟩ : ∃ f, max p.nLoops 1 * (p.nMacro + 1) = f + 2 := by
    have h1 : 1 * (p.nMacro + 1) ≤ max p.nLoops 1 * (p.nMacro + 1) := Nat.mul_le_mul_right _ (le_max_right _ _)
    exact ⟨max p.nLoops 1 * (p.nMacro + 1) - 2, by omega⟩
  rw [hf, bouncingX, if_neg (by simp), if_neg (by omega), macroX_inl o _ _ _ _ _ _ _ hv hw ht]
  simp only
  rw [bouncingX, if_pos ⟨hc, by omega⟩]
  simp only [Bool.false_eq_true, if_false]
  rw [hu]
  simp only
  rw [microX_abort o _ _ _ _ _ hm hx hs]

/-- C98 is violated: the same for the embracing algorithm. -/
theorem C98_violated_abort_embracing_micro (o : StagParts S) (p : StagParams) (s r v w t u x : S)
    (hn : 1 ≤ p.nMacro) (hm : 1 ≤ p.nMicro) (hr : o.evaluate s = some r)
    (hv : o.macroHead 1 r = some v) (hw : o.macroSolve 1 v = some w) (ht : o.macroMove w = some t)
    (hu : o.startMicro t = some u) (hx : o.microHead u = some x) (hs : o.microSolve x = none) :
    embracingX o p (p.nMacro + 1) 0 false 0 s = .stopped .abort 1 := by
  rw [embracingX, hr]
  simp only
  rw [if_neg (by simp), if_neg (by omega), macroX_inl o _ _ _ _ _ _ _ hv hw ht]
  simp only
  rw [hu]
  simp only
  rw [microX_abort o _ _ _ _ _ hm hx hs]

/-- A system halving its residual in each iteration, whose assembly fails from the state `1/4` on. -/
noncomputable def exParts (ok : ℝ → Prop) [DecidablePred ok] : MonoParts ℝ Unit where
  pre s := some s
  recompute s := some s
  post s := if ok s then some s else none
  solve s := some s
  move s := some (s / 2)
  restart s := some s
  norm s := s
  active _ := ()

open Classical in
/-- Converges within three iterations if nothing fails; ends with an exception in the third if the assembly fails. -/
example : monoX (exParts fun _ => True) false 5 (1 / 5) 6 0 false 0 1 = .returned (1 / 8) 3 ∧
    monoX (exParts fun s => 1 / 3 < s) false 5 (1 / 5) 6 0 false 0 1 = .stopped .exception 2 ∧
    monoX (exParts fun _ => True) false 2 (1 / 5) 3 0 false 0 1 = .stopped .exception 2 := by
  refine ⟨?_, ?_, ?_⟩
  · norm_num [monoX, exParts]
  · norm_num [monoX, exParts]
  · norm_num [monoX, exParts]

/-- Hypotheses of the violated ones: a solver that fails on the first system. -/
example : ∃ o : MonoParts ℝ Unit, (o.pre 1).bind o.post = some 1 ∧ o.solve 1 = none :=
  ⟨{ exParts (fun _ => True) with solve := fun _ => none }, by simp [exParts], rfl⟩

/-- Staggered operations halving both residuals; the first macroscopic solve fails if `ok` is false. -/
noncomputable def exStagParts (ok : Bool) : StagParts (ℝ × ℝ) where
  macroHead _ s := some s
  macroSolve _ s := if ok then some s else none
  macroMove s := some (s.1 / 2, s.2)
  startMicro s := some s
  microHead s := some s
  microSolve s := some s
  microMove s := some (s.1, s.2 / 2)
  evaluate s := some s
  macroNorm s := s.1
  microNorm s := s.2

open Classical in
example : bouncingX (exStagParts true) ⟨5, 5, 2, 1 / 3, 1 / 3⟩ 12 0 1 false 0 (1, 1) = .returned (1 / 4, 1 / 4) 4 ∧
    bouncingX (exStagParts false) ⟨5, 5, 2, 1 / 3, 1 / 3⟩ 12 0 1 false 0 (1, 1) = .stopped .abort 0 := by
  constructor
  · norm_num [bouncingX, microX, macroX, exStagParts]
  · norm_num [bouncingX, microX, macroX, exStagParts]

open Classical in
example : embracingX (exStagParts true) ⟨5, 5, 2, 1 / 3, 1 / 3⟩ 6 0 false 0 (1, 1) = .returned (1 / 4, 1 / 8) 5 ∧
    embracingX (exStagParts false) ⟨5, 5, 2, 1 / 3, 1 / 3⟩ 6 0 false 0 (1, 1) = .stopped .abort 0 := by
  constructor
  · norm_num [embracingX, microX, macroX, exStagParts]
  · norm_num [embracingX, microX, macroX, exStagParts]

open Classical in
/-- Hypotheses of the microscopic ones: the macroscopic iterations succeed, every microscopic solve fails. -/
example : bouncingX { exStagParts true with microSolve := fun _ => none } ⟨5, 5, 2, 1, 1 / 3⟩ 12 0 1 false 0 (1, 1) =
      .stopped .abort 1 ∧
    embracingX { exStagParts true with microSolve := fun _ => none } ⟨5, 5, 2, 1, 1 / 3⟩ 6 0 false 0 (1, 1) =
      .stopped .abort 1 := by
  constructor
  · exact C98_violated_abort_bouncing_micro _ ⟨5, 5, 2, 1, 1 / 3⟩ (1, 1) (1, 1) (1, 1) (1 / 2, 1) (1 / 2, 1) (1 / 2, 1)
      (by norm_num) (by norm_num) rfl rfl rfl (by norm_num [exStagParts]) rfl rfl rfl
  · exact C98_violated_abort_embracing_micro _ ⟨5, 5, 2, 1, 1 / 3⟩ (1, 1) (1, 1) (1, 1) (1, 1) (1 / 2, 1) (1 / 2, 1)
      (1 / 2, 1) (by norm_num) (by norm_num) rfl rfl rfl rfl rfl rfl rfl

end Verif.Drv
