import Verif.StreamClient.Props

/-
C149: which steps of the streamable HTTP client queue messages, and which ones.
-/

namespace Verif.StreamClient

open Verif Verif.Sse

variable {M : Type}

/-- Specification: the messages of an answer to a POST: those of a JSON body, if the answer is a success. -/
def answerMessages (C : Codec M) (r : Resp) : List M :=
  if 200 ≤ r.status ∧ r.status < 300 ∧ Connect.hasText "application/json".toList r.contentType = true then
    match r.body with
    | none => []
    | some b => match C.batch b with
      | some ms => ms
      | none => (C.one b).toList
  else []

/-- **C149.** The messages of a JSON answer are queued at once, all of them and in order, behind those waiting;
other answers queue nothing. -/
theorem C149_answer (C : Codec M) (s : State M) (r : Resp) :
    (step C s (.answer (some r))).1.queue = s.queue ++ answerMessages C r := by
  show (onAnswer C s r).1.queue = _
  unfold onAnswer answerMessages
  rw [show "application/json".toList = kJson from rfl]
  by_cases hs : 200 ≤ r.status ∧ r.status < 300
  · have h1 : r.success = true := by simp [Resp.success, hs]
    simp only [h1, Bool.true_eq_false, if_false, hs, true_and]
    by_cases hj : Connect.hasText kJson r.contentType = true
    · simp only [hj, if_true]
      cases r.body with
      | none => simp [headers]
      | some b =>
        simp only
        cases C.batch b with
        | some ms => rfl
        | none => cases C.one b <;> simp [headers]
    · simp only [hj, Bool.false_eq_true, if_false, List.append_nil]
      split
      · rfl
      · split <;> rfl
  · have h1 : r.success = false := by simp [Resp.success]; omega
    have h2 : ¬ (200 ≤ r.status ∧ r.status < 300 ∧ Connect.hasText kJson r.contentType = true) := fun h => hs ⟨h.1, h.2.1⟩
    simp only [h1, if_true, if_neg h2, List.append_nil, headers]

/-- **C149.** Besides answers only the end of a stream that is open queues anything: everything else, and the
end of other streams, leaves the messages waiting alone. -/
theorem C149_only (C : Codec M) (s : State M) (op : Op M) (h1 : ∀ r, op ≠ .answer (some r))
    (h2 : ∀ k, op = .finish k → ∀ x ∈ s.streams, x.key ≠ k) : (step C s op).1.queue = s.queue := by
  cases op with
  | answer r => cases r with
    | none => rfl
    | some r => exact absurd rfl (h1 r)
  | finish k =>
    have : s.streams.find? (fun x => x.key == k) = none := by
      rw [List.find?_eq_none]
      intro x hx
      simpa using h2 k rfl x hx
    simp only [step, this]
  | broken k => exact C123_broken_lost C s k
  | «open» t a => cases a <;> rfl
  | streamAnswer r =>
    cases r with
    | none => rfl
    | some r =>
      simp only [step, onStreamAnswer]
      repeat' split
      all_goals rfl
  | post m a => cases a <;> rfl
  | chunk k t => rfl
  | close a =>
    simp only [step]
    split
    · rfl
    · cases a <;> rfl
  | setSession x => rfl
  | setVersion v => rfl

/-- **C149.** A stream that broke is over: what arrives for it and its end have no effect on the messages. -/
theorem C149_broken_over (C : Codec M) (s : State M) (k : Nat) (t : List Text) :
    let s1 := run C (step C s (.broken k)).1 (t.map (Op.chunk k))
    (step C s1 (.finish k)).1.queue = s.queue := by
  intro s1
  have hgone : ∀ x ∈ (step C s (.broken k)).1.streams, x.key ≠ k := by
    simp only [step]
    cases hf : s.streams.find? (fun x => x.key == k) with
    | none =>
      intro x hx
      simpa using List.find?_eq_none.mp hf x hx
    | some y =>
      simp only [onBody]
      have hfeed : feed {} ([] : Text) = some ({}, []) := by decide +kernel
      rw [hfeed]
      intro x hx
      simpa using (List.mem_filter.mp hx).2
  have key : ∀ (t : List Text) (s : State M), (∀ x ∈ s.streams, x.key ≠ k) →
      (∀ x ∈ (run C s (t.map (Op.chunk k))).streams, x.key ≠ k) ∧ (run C s (t.map (Op.chunk k))).queue = s.queue := by
    intro t
    induction t with
    | nil => intro s h; exact ⟨h, rfl⟩
    | cons c t ih =>
      intro s h
      simp only [List.map_cons, run]
      have hs : ∀ x ∈ (step C s (.chunk k c)).1.streams, x.key ≠ k := by
        intro x hx
        obtain ⟨y, hy, rfl⟩ := List.mem_map.mp hx
        split
        · exact h y hy
        · exact h y hy
      obtain ⟨a, b⟩ := ih _ hs
      exact ⟨a, b⟩
  obtain ⟨a, b⟩ := key t _ hgone
  rw [C149_only C s1 (.finish k) (fun r => by simp) (fun j e => by cases e; exact a), b]
  exact C123_broken_lost C s k

example : answerMessages (M := Text) ⟨fun t => some t, fun t => if t = ['b'] then some [['x'], ['y']] else none⟩
      ⟨200, none, none, kJson, some ['b']⟩ = [['x'], ['y']] ∧
    answerMessages (M := Text) ⟨fun t => some t, fun _ => none⟩ ⟨200, none, none, kStream, some ['b']⟩ = [] := by
  decide +kernel

end Verif.StreamClient
