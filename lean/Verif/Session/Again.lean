import Verif.Session.Props

/-
C13 and C78: exactly when a destroyed session comes back, and when an update is lost.
-/

namespace Verif.Session

open Verif

variable {Id D A : Type} [DecidableEq Id]

/-- **C13, exactly**: a destroyed session is in the table again under some later schedule, without being created again, if
and only if some lookup of its id was between its read and its write when it was destroyed. -/
theorem C13_again_iff (max : Nat) (timeout : Int) (s : CState Id D A) (id : Id) :
    (∃ h : List (Atom Id D A), (∀ a ∈ h, ∀ t d n, a ≠ .createInsert t id d n) ∧
      (crun max timeout (cstep max timeout s (.destroy id)) h).sessions.get id ≠ none) ↔
    ∃ t x, s.held.get t = some (id, x) := by
  constructor
  · rintro ⟨h, hop, hx⟩
    apply Classical.byContradiction
    intro hno
    exact hx (C13_destroyed_stays_gone_partial max timeout s id h (fun t x he => hno ⟨t, x, he⟩) hop)
  · rintro ⟨t, x, hx⟩
    refine ⟨[.getWrite t], by simp, ?_⟩
    have hh : (cstep max timeout s (.destroy id)).held.get t = some (id, x) := hx
    simp [crun, cstep, hx]

/-- **C13** fails for every number: any number of destructions of a session can be undone one after the other, each by a
lookup that had read the session before it. -/
theorem C13_any_number (n : Nat) : ∃ h : List (Atom Nat Unit Unit), (∀ a ∈ h, ∀ t d m, a ≠ .createInsert t 100 d m) ∧
    h.countP (fun a => match a with | .destroy 100 => true | _ => false) = n ∧
    ((crun 5 10 (crun 5 10 cinit [.createCheck 0, .createInsert 0 100 () 0]) h).sessions.get 100).isSome = true := by
  generalize hs0 : crun 5 10 (cinit : CState Nat Unit Unit) [.createCheck 0, .createInsert 0 100 () 0] = s0
  have h0 : ∃ x, s0.sessions.get 100 = some x := by
    rw [← hs0]; exact ⟨⟨100, 0, 0, 10, (), false, none⟩, by decide⟩
  clear hs0
  induction n generalizing s0 with
  | zero =>
    obtain ⟨x, hx⟩ := h0
    exact ⟨[], by simp, rfl, by simp [crun, hx]⟩
  | succ n ih =>
    obtain ⟨x, hx⟩ := h0
    have h1 : ∃ y, (crun 5 10 s0 [.getRead 1 100 1, .destroy 100, .getWrite 1]).sessions.get 100 = some y :=
      ⟨_, by simp [crun, cstep, hx]; rfl⟩
    obtain ⟨h, hop, hc, hg⟩ := ih _ h1
    refine ⟨[.getRead 1 100 1, .destroy 100, .getWrite 1] ++ h, ?_, ?_, ?_⟩
    · intro a ha
      simp only [List.mem_append, List.mem_cons, List.not_mem_nil, or_false] at ha
      rcases ha with (rfl | rfl | rfl) | ha
      · simp
      · simp
      · simp
      · exact hop a ha
    · simp [List.countP_append, List.countP_cons, hc]
    · have : crun 5 10 s0 ([.getRead 1 100 1, .destroy 100, .getWrite 1] ++ h) =
          crun 5 10 (crun 5 10 s0 [.getRead 1 100 1, .destroy 100, .getWrite 1]) h := by
        unfold crun; rw [List.foldl_append]
      rw [this]
      exact hg

/-- The session as read by a lookup that has not written yet carries an update, or the lookup is of another session.
(Specification: no counterpart in the code.) -/
def HeldCarry (s : CState Id D A) (id : Id) (z : Session Id D A) : Prop :=
  ∀ t y, s.held.get t = some (id, y) → SameButActivity y z

theorem carried_step (max : Nat) (timeout : Int) (s : CState Id D A) (id : Id) (z : Session Id D A) (a : Atom Id D A)
    (hop : (∀ t d n, a ≠ .createInsert t id d n) ∧ ∀ g n, a ≠ .update id g n)
    (hs : ∀ y, s.sessions.get id = some y → SameButActivity y z) (hh : HeldCarry s id z) :
    (∀ y, (cstep max timeout s a).sessions.get id = some y → SameButActivity y z) ∧
    HeldCarry (cstep max timeout s a) id z := by
  constructor
  · intro y hz
    cases a with
    | createCheck t => simp only [cstep] at hz; split at hz <;> exact hs y hz
    | createInsert t id' d n =>
      have hne : id ≠ id' := fun e => hop.1 t d n (by rw [e])
      simp only [cstep] at hz
      split at hz
      · simp only [AMap.get_insert_ne _ _ hne] at hz; exact hs y hz
      · exact hs y hz
    | getRead t id' n => simp only [cstep] at hz; split at hz <;> exact hs y hz
    | getWrite t =>
      simp only [cstep] at hz
      split at hz
      · exact hs y hz
      · rename_i id' w hw
        simp only [AMap.get_insert] at hz
        split at hz
        · rename_i e; subst e; cases hz; exact hh t _ hw
        · exact hs y hz
    | update id' g n =>
      have hne : id ≠ id' := fun e => hop.2 g n (by rw [e])
      simp only [cstep] at hz
      split at hz
      · exact hs y hz
      · simp only [AMap.get_insert_ne _ _ hne] at hz; exact hs y hz
    | destroy id' =>
      simp only [cstep, AMap.get_remove] at hz
      split at hz
      · cases hz
      · exact hs y hz
  · intro t' y hz
    cases a with
    | createCheck t => simp only [cstep] at hz; split at hz <;> exact hh t' y hz
    | createInsert t id' d n => simp only [cstep] at hz; split at hz <;> exact hh t' y hz
    | getRead t id' n =>
      simp only [cstep] at hz
      split at hz
      · exact hh t' y hz
      · rename_i w hw
        simp only [AMap.get_insert] at hz
        split at hz
        · simp only [Option.some.injEq, Prod.mk.injEq] at hz
          obtain ⟨e, rfl⟩ := hz
          subst e
          exact hs w hw
        · exact hh t' y hz
    | getWrite t =>
      simp only [cstep] at hz
      split at hz
      · exact hh t' y hz
      · simp only [AMap.get_remove] at hz
        split at hz
        · cases hz
        · exact hh t' y hz
    | update id' g n => simp only [cstep] at hz; split at hz <;> exact hh t' y hz
    | destroy id' => exact hh t' y hz

/-- **C78, exactly**: an update of a session is lost under some later schedule, without another update or creation of the
session, if and only if some lookup had read the session before the update, without what it changes, and not yet written
it. -/
theorem C78_lost_iff (max : Nat) (timeout : Int) (s : CState Id D A) (id : Id) (f : Session Id D A → Session Id D A)
    (now : Int) (x : Session Id D A) (hg : s.sessions.get id = some x) :
    (∃ h : List (Atom Id D A), (∀ a ∈ h, (∀ t d n, a ≠ .createInsert t id d n) ∧ ∀ g n, a ≠ .update id g n) ∧
      ∃ y, (crun max timeout (cstep max timeout s (.update id f now)) h).sessions.get id = some y ∧
        ¬ SameButActivity y (f x)) ↔
    ∃ t y, s.held.get t = some (id, y) ∧ ¬ SameButActivity y (f x) := by
  have hu : (cstep max timeout s (.update id f now)).held = s.held := by simp only [cstep, hg]
  constructor
  · rintro ⟨h, hop, y, hy, hn⟩
    apply Classical.byContradiction
    intro hno
    have key : ∀ (h : List (Atom Id D A)) (s : CState Id D A),
        (∀ a ∈ h, (∀ t d n, a ≠ .createInsert t id d n) ∧ ∀ g n, a ≠ .update id g n) →
        (∀ y, s.sessions.get id = some y → SameButActivity y (f x)) → HeldCarry s id (f x) →
        ∀ y, (crun max timeout s h).sessions.get id = some y → SameButActivity y (f x) := by
      intro h
      induction h with
      | nil => intro s _ hs _; exact hs
      | cons a h ih =>
        intro s hop hs hh
        have h1 := carried_step max timeout s id (f x) a (hop a (by simp)) hs hh
        exact ih _ (fun a ha => hop a (by simp [ha])) h1.1 h1.2
    refine hn (key h _ hop ?_ ?_ y hy)
    · intro z hz
      simp only [cstep, hg, AMap.get_insert_self] at hz
      cases hz
      rfl
    · intro t z hz
      rw [hu] at hz
      exact Classical.byContradiction fun hne => hno ⟨t, z, hz, hne⟩
  · rintro ⟨t, y, hy, hn⟩
    refine ⟨[.getWrite t], by simp, y, ?_, hn⟩
    show (cstep max timeout (cstep max timeout s (.update id f now)) (.getWrite t)).sessions.get id = some y
    rw [← hu] at hy
    generalize cstep max timeout s (.update id f now) = s' at hy
    simp [cstep, hy]

/-- A lookup between its read and its write when the session is destroyed, or updated. -/
example :
    let s := crun 5 10 (cinit : CState Nat Unit Unit) [.createCheck 1, .createInsert 1 100 () 0, .getRead 2 100 1]
    (∃ t x, s.held.get t = some (100, x)) ∧ s.sessions.get 100 = some ⟨100, 0, 0, 10, (), false, none⟩ :=
  ⟨⟨2, ⟨100, 0, 1, 10, (), false, none⟩, by decide⟩, by decide⟩

end Verif.Session
