import Verif.Session.Model
import Verif.Common.ListExtra

namespace Verif.Session

variable {Id D A : Type} [DecidableEq Id]

theorem run_snoc (max : Nat) (timeout : Int) (h : List (Op Id D A)) (op : Op Id D A) :
    run max timeout (h ++ [op]) = (step max timeout (run max timeout h) op).1 := by
  simp [run, List.foldl_append]

theorem expireOne_get (s : State Id D A) (id x : Id) :
    (expireOne s id).sessions.get x = if x = id then none else s.sessions.get x := by
  unfold expireOne
  split
  · exact AMap.get_remove _ _ _
  · rename_i h
    split
    · subst x; exact h
    · rfl

theorem foldl_expire_get (l : List Id) (s : State Id D A) (x : Id) :
    (l.foldl expireOne s).sessions.get x = if x ∈ l then none else s.sessions.get x := by
  induction l generalizing s with
  | nil => simp
  | cons a l ih =>
    rw [List.foldl_cons, ih, expireOne_get]
    by_cases h1 : x ∈ l <;> by_cases h2 : x = a <;> simp [h1, h2]

theorem mem_expiredIds {s : State Id D A} (hw : s.sessions.WF) {now : Int} {id : Id} :
    id ∈ expiredIds s now ↔ ∃ x, s.sessions.get id = some x ∧ x.expiresAt < now := by
  unfold expiredIds
  simp only [List.mem_map, List.mem_filter, decide_eq_true_eq]
  constructor
  · rintro ⟨⟨k, x⟩, ⟨hm, hx⟩, rfl⟩
    exact ⟨x, AMap.get_of_mem hw hm, hx⟩
  · rintro ⟨x, hg, hx⟩
    exact ⟨(id, x), ⟨AMap.mem_of_get hg, hx⟩, rfl⟩

theorem cleanup_get {s : State Id D A} (hw : s.sessions.WF) (now : Int) (id : Id) :
    (cleanupExpired s now).sessions.get id =
      (s.sessions.get id).filter (fun x => decide (now ≤ x.expiresAt)) := by
  unfold cleanupExpired
  rw [foldl_expire_get]
  split
  · rename_i h
    obtain ⟨x, hx, ht⟩ := (mem_expiredIds hw).mp h
    rw [hx]
    simp only [Option.filter, decide_eq_true_eq]
    rw [if_neg (by omega)]
  · rename_i h
    cases hg : s.sessions.get id with
    | none => rfl
    | some x =>
      have : ¬ x.expiresAt < now := fun ht => h ((mem_expiredIds hw).mpr ⟨x, hg, ht⟩)
      simp only [Option.filter, decide_eq_true_eq]
      rw [if_pos (by omega)]

theorem expireOne_wf (s : State Id D A) (id : Id) (hw : s.sessions.WF) :
    (expireOne s id).sessions.WF ∧ (expireOne s id).sessions.length ≤ s.sessions.length := by
  unfold expireOne
  split
  · exact ⟨AMap.wf_remove hw _, AMap.length_remove_le _ _⟩
  · exact ⟨hw, Nat.le_refl _⟩

theorem foldl_expire_wf (l : List Id) (s : State Id D A) (hw : s.sessions.WF) :
    (l.foldl expireOne s).sessions.WF ∧
      (l.foldl expireOne s).sessions.length ≤ s.sessions.length := by
  induction l generalizing s with
  | nil => exact ⟨hw, Nat.le_refl _⟩
  | cons a l ih =>
    rw [List.foldl_cons]
    obtain ⟨h1, h2⟩ := expireOne_wf s a hw
    obtain ⟨h3, h4⟩ := ih _ h1
    exact ⟨h3, by omega⟩

theorem getSession_eq (s : State Id D A) (id : Id) (now : Int) :
    getSession s id now = match s.sessions.get id with
      | none => (s, .none)
      | some x => ({ s with sessions := s.sessions.insert id { x with lastActivity := now } },
          .session { x with lastActivity := now }) := rfl

/-- `validate_session` with its calls unfolded. -/
theorem validate_eq (s : State Id D A) (id : Id) (n₁ n₂ : Int) :
    validateSession s id n₁ n₂ = match s.sessions.get id with
      | none => (s, .invalidId)
      | some x =>
        if x.expiresAt < n₂ then
          (⟨(s.sessions.insert id { x with lastActivity := n₁ }).remove id,
            s.trace ++ [.destroyed id]⟩, .expired)
        else ({ s with sessions := s.sessions.insert id { x with lastActivity := n₁ } },
          .session { x with lastActivity := n₁ }) := by
  unfold validateSession
  rw [getSession_eq]
  rcases hg : s.sessions.get id with _ | x
  · rfl
  · simp only
    split
    · simp [destroySession, AMap.get_insert_self]
    · rfl

theorem wf_step (max : Nat) (timeout : Int) (s : State Id D A) (op : Op Id D A)
    (hw : s.sessions.WF) : (step max timeout s op).1.sessions.WF := by
  cases op with
  | create id d now =>
    simp only [step, createSession]
    split
    · exact hw
    · exact AMap.wf_insert hw _ _
  | get id now =>
    simp only [step, getSession]
    split
    · exact hw
    · exact AMap.wf_insert hw _ _
  | validate id n₁ n₂ =>
    simp only [step, validate_eq]
    split
    · exact hw
    · split
      · exact AMap.wf_remove (AMap.wf_insert hw _ _) _
      · exact AMap.wf_insert hw _ _
  | update id f now =>
    simp only [step, updateSession]
    split
    · exact hw
    · exact AMap.wf_insert hw _ _
  | authenticate id a now =>
    simp only [step, authenticateSession, updateSession]
    split
    · exact hw
    · exact AMap.wf_insert hw _ _
  | destroy id =>
    simp only [step, destroySession]
    split
    · exact AMap.wf_remove hw _
    · exact hw
  | cleanup now => exact (foldl_expire_wf _ s hw).1

theorem wf_run (max : Nat) (timeout : Int) (h : List (Op Id D A)) :
    (run max timeout h).sessions.WF := by
  induction h using snocInduction with
  | nil => exact AMap.wf_nil
  | append_singleton h op ih => rw [run_snoc]; exact wf_step _ _ _ _ ih

end Verif.Session
