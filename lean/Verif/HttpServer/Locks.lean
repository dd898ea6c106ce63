import Verif.Common.Locks

/-
Locks of the HTTP server: C203.

Models /repo/src/server/streamable_http_server.rs L52-123 and L354-832 at the level of lock acquisitions: the mutex
around the server, the parking_lot locks of the sessions and SSE streams, and those of the in-memory event store. A
guard that is a temporary lives to the end of its statement, and one in the head of an `if let` to the end of its body
and `else`. Not modelled: what handlers and callbacks of the user lock, and the locks that `Server::handle_request`
takes one at a time and returns before it is left.
-/

namespace Verif.HttpServer.Locks

open Verif Verif.Locks

/-- The locks: `ServerState` (/repo/src/server/streamable_http_server.rs L208-217) and `InMemoryEventStore` (L57-64). -/
inductive Lock where
  | server
  | sessions
  | streams
  | events
  | streamOf
  | order
  deriving Repr, DecidableEq

/-- A request in progress. (/repo/src/server/streamable_http_server.rs L354-832.) -/
abbrev Call := Verif.Locks.Task Lock

/-- Taking the mutex around the server, /repo/src/server/streamable_http_server.rs L612. -/
abbrev want : Instr Lock := .acq .server .write

/-- A guard that is released at once: `state.sessions.read().contains_key(..)` and the like. (For example
/repo/src/server/streamable_http_server.rs L379-385, L415.) -/
def touch (l : Lock) (m : Mode) : List (Instr Lock) := [.acq l m, .rel l]

/-- `InMemoryEventStore::store_event`, /repo/src/server/streamable_http_server.rs L68-84: the guard of `events` lives to
the end. -/
def storeEvent : List (Instr Lock) :=
  .acq .events .write :: touch .streamOf .write ++ touch .order .write ++ [.rel .events]

/-- `InMemoryEventStore::replay_events_after`, /repo/src/server/streamable_http_server.rs L86-118: all guards live to the
end and are released in reverse order. -/
def replay : List (Instr Lock) :=
  [.acq .order .read, .acq .events .read, .acq .streamOf .read, .rel .streamOf, .rel .events, .rel .order]

/-- `InMemoryEventStore::get_stream_for_event`, /repo/src/server/streamable_http_server.rs L120-122. -/
def getStream : List (Instr Lock) := touch .streamOf .read

/-- What a request is, as far as it decides which locks are taken: /repo/src/server/streamable_http_server.rs L354-832. -/
inductive Kind where
  /-- a POST of an `initialize` request; whether a session is made for it -/
  | init (stateful fresh store sse : Bool)
  /-- a POST of another request -/
  | request (stateful store sse : Bool)
  /-- a POST of a notification or response, or a request refused after so many looks at the sessions -/
  | message (looks : Nat)
  /-- a GET whose session is found or made; a stream is opened unless there is one, and the events after
  `Last-Event-ID` are replayed or not -/
  | stream (fresh opened replays : Bool)
  /-- storing the event of a message sent on a stream, in a task of its own (L757-764) -/
  | streamed
  /-- a DELETE -/
  | delete (known : Bool)
  deriving Repr, DecidableEq

/-- The lock operations of a request: `handle_post_request` L546-676 with `process_init_session` L354-395,
`validate_non_init_session` L398-431, `update_session_after_init` L448-460, `build_response` L463-499 and
`validate_protocol_version` L504-543; `handle_get_sse` L679-793; `handle_delete_session` L798-832
(/repo/src/server/streamable_http_server.rs). Options that are off leave out the locks they need. -/
def program : Kind → List (Instr Lock)
  | .init stateful fresh store sse =>
    (if stateful then (if fresh then touch .sessions .write else touch .sessions .read) else []) ++
      .acq .server .write :: (if stateful then touch .sessions .write else []) ++ (if store then storeEvent else []) ++
      (if sse then touch .streams .read else []) ++ [.rel .server]
  | .request stateful store sse =>
    (if stateful then touch .sessions .read ++ touch .sessions .read else []) ++
      .acq .server .write :: (if store then storeEvent else []) ++ (if sse then touch .streams .read else []) ++
      (if stateful then touch .sessions .read else []) ++ [.rel .server]
  | .message looks => (List.replicate looks (touch .sessions .read)).flatten
  | .stream fresh opened replays =>
    (if fresh then touch .sessions .write else touch .sessions .read) ++ touch .streams .read ++
      (if opened then touch .streams .write ++ (if replays then replay else []) else [])
  | .streamed => storeEvent
  | .delete known =>
    touch .sessions .read ++ (if known then touch .streams .write ++ touch .sessions .write else [])

/-! ### C203 -/

/-- The request reads the stored events. (Specification: no counterpart in the code.) -/
def Kind.replaying : Kind → Bool
  | .stream _ o r => o && r
  | _ => false

/-- The request stores an event. (Specification: no counterpart in the code.) -/
def Kind.storing : Kind → Bool
  | .init _ _ s _ => s
  | .request _ s _ => s
  | .streamed => true
  | _ => false

/-- An order in which requests that do not replay take locks. (Specification: no counterpart in the code.) -/
def up : Lock → Nat
  | .server => 0 | .sessions => 1 | .streams => 1 | .events => 1 | .streamOf => 2 | .order => 2

/-- An order in which requests that do not store take locks. (Specification: no counterpart in the code.) -/
def down : Lock → Nat
  | .server => 0 | .sessions => 1 | .streams => 1 | .order => 1 | .events => 2 | .streamOf => 3

theorem looks_ok (rank : Lock → Nat) (n : Nat) : ordered rank [] (program (.message n)) = true := by
  induction n with
  | zero => rfl
  | succ n ih => simpa [program, touch, List.replicate_succ, ordered] using ih

theorem up_ok (k : Kind) (h : k.replaying = false) : ordered up [] (program k) = true := by
  cases k with
  | init a b c d => cases a <;> cases b <;> cases c <;> cases d <;> decide
  | request a b c => cases a <;> cases b <;> cases c <;> decide
  | message n => exact looks_ok up n
  | stream a b c => cases a <;> cases b <;> cases c <;> first | decide | cases h
  | streamed => decide
  | delete a => cases a <;> decide

theorem down_ok (k : Kind) (h : k.storing = false) : ordered down [] (program k) = true := by
  cases k with
  | init a b c d => cases h; cases a <;> cases b <;> cases d <;> decide
  | request a b c => cases h; cases a <;> cases c <;> decide
  | message n => exact looks_ok down n
  | stream a b c => cases a <;> cases b <;> cases c <;> decide
  | streamed => cases h
  | delete a => cases a <;> decide

/-- C203: any number of requests at a time, of any kinds, complete whatever the schedule, if none of them replays events,
or none of them stores any: as long as one has not returned some can go on, and no schedule goes on for ever.

Partial: a replay and a store can block each other for ever (`C203_resume_deadlock`). -/
theorem C203_no_deadlock_partial (ks : List Kind)
    (h : (∀ k ∈ ks, k.replaying = false) ∨ (∀ k ∈ ks, k.storing = false)) (is : List Nat) (s : Sys Lock)
    (hr : run (start (ks.map program)) is = some s) :
    (¬ Done s → ∃ i, (step s i).isSome = true) ∧ is.length ≤ total (start (ks.map program)) := by
  rcases h with h | h
  · exact ordered_complete up _ (by
      intro p hp
      obtain ⟨k, hk, rfl⟩ := List.mem_map.mp hp
      exact up_ok k (h k hk)) is s hr
  · exact ordered_complete down _ (by
      intro p hp
      obtain ⟨k, hk, rfl⟩ := List.mem_map.mp hp
      exact down_ok k (h k hk)) is s hr

example : ∃ s, run (start ([.request true true true, .init true true true false].map program))
    [0, 0, 0, 0, 0, 0, 0, 0, 1, 1, 1, 1] = some s ∧ step s 1 = none ∧ (step s 0).isSome = true ∧ ¬ Done s :=
  ⟨_, rfl, by decide, by decide, fun h => nomatch h _ (List.mem_cons_self ..)⟩

/-- A request to a server without sessions. (Specification: no counterpart in the code.) -/
def Kind.stateless : Kind → Bool
  | .init s _ _ _ => !s
  | .request s _ _ => !s
  | _ => false

/-- C203: a request to a server that keeps no sessions never waits for the table of sessions; an `initialize` to one that
does keep them changes the table while it has the server for itself. -/
theorem C203_sessions (k : Kind) :
    (k.stateless = true → ∀ m, .acq .sessions m ∉ program k) ∧
      (∀ f s e, k = .init true f s e → ∃ p q r, program k = p ++ want :: q ++ .acq .sessions .write :: r ∧
        .rel .server ∉ p ++ q) := by
  constructor
  · intro h m
    cases k with
    | init a b c d => cases a <;> cases h <;> cases b <;> cases c <;> cases d <;> cases m <;> decide
    | request a b c => cases a <;> cases h <;> cases b <;> cases c <;> cases m <;> decide
    | _ => cases h
  · rintro f s e rfl
    refine ⟨if f then touch .sessions .write else touch .sessions .read, [],
      .rel .sessions :: (if s then storeEvent else []) ++ (if e then touch .streams .read else []) ++ [.rel .server],
      ?_, ?_⟩
    · cases f <;> cases s <;> cases e <;> rfl
    · cases f <;> decide

example : (Kind.request false true true).stateless = true ∧ storeEvent ⊆ program (.request false true true) := by decide

/-- The schedule of the deadlock. (Specification: no counterpart in the code.) -/
def blocking : List Nat := List.replicate 13 0 ++ List.replicate 12 1 ++ [0]

/-- C203 fails: a client that resumes its stream while the answer to a request is stored can block the server for
ever: the replay holds `event_order` and waits for `events`, the store holds `events` and waits for `event_order`. -/
theorem C203_resume_deadlock : ∃ is s,
    run (start ([.request true true false, .stream false true true].map program)) is = some s ∧ Deadlock s :=
  ⟨blocking, _, rfl, deadlock_of _ (by decide) (by decide)⟩

/-- The two that block each other. (Specification: no counterpart in the code.) -/
def stuck : List (Call) :=
  [{ held := [(.events, .write), (.server, .write)], ticket := some 10,
     prog := [.acq .order .write, .rel .order, .rel .events, .acq .sessions .read, .rel .sessions, .rel .server] },
   { held := [(.order, .read)], ticket := some 9,
     prog := [.acq .events .read, .acq .streamOf .read, .rel .streamOf, .rel .events, .rel .order] }]

theorem blocking_ends : ∃ c, run (start ([.request true true false, .stream false true true].map program)) blocking =
    some ⟨stuck, c⟩ := ⟨_, rfl⟩

/-- A schedule of some tasks is one of more tasks, if those have just begun. -/
theorem run_more (rest : List (Call)) (hf : ∀ t ∈ rest, t.held = [] ∧ t.ticket = none) (is : List Nat) :
    ∀ s s' : Sys Lock, run s is = some s' →
      run { s with tasks := s.tasks ++ rest } is = some { s' with tasks := s'.tasks ++ rest } := by
  have hp : ∀ l m k, rest.all (permits l m k) = true := by
    intro l m k
    rw [List.all_eq_true]
    intro t ht
    have := hf t ht
    unfold permits waitsFor
    rw [this.1, this.2]
    cases t.prog with
    | nil => rfl
    | cons a p => cases a <;> simp
  induction is with
  | nil => intro s s' h; simp only [run, Option.some.injEq] at h; subst h; rfl
  | cons i is ih =>
    intro s s' h
    simp only [run] at h
    cases hs : step s i with
    | none => rw [hs] at h; cases h
    | some s₁ =>
      rw [hs] at h
      have key : step { s with tasks := s.tasks ++ rest } i = some { s₁ with tasks := s₁.tasks ++ rest } := by
        unfold step at hs ⊢
        cases ht : s.tasks[i]? with
        | none => rw [ht] at hs; cases hs
        | some t =>
          have hi : i < s.tasks.length := by
            apply Classical.byContradiction
            intro hn
            rw [List.getElem?_eq_none (by omega)] at ht
            cases ht
          rw [ht] at hs
          simp only [List.getElem?_append_left hi, ht] at hs ⊢
          cases hpr : t.prog with
          | nil => rw [hpr] at hs; cases hs
          | cons a p =>
            rw [hpr] at hs
            cases a with
            | rel l =>
              simp only [Option.some.injEq] at hs ⊢
              subst hs
              simp [List.set_append_left, hi]
            | acq l m =>
              simp only at hs ⊢
              cases hk : t.ticket with
              | none =>
                rw [hk] at hs
                simp only [Option.some.injEq] at hs ⊢
                subst hs
                simp [List.set_append_left, hi]
              | some k =>
                rw [hk] at hs
                simp only [List.all_append, hp, Bool.and_true] at hs ⊢
                split at hs
                · next hc =>
                  rw [if_pos hc]
                  simp only [Option.some.injEq] at hs ⊢
                  subst hs
                  simp [List.set_append_left, hi]
                · cases hs
      simp only [run, key]
      exact ih s₁ s' h

/-- While the two block each other, whoever needs the server waits. -/
theorem stuck_step (s s' : Sys Lock) (i : Nat) (rest : List (Call)) (h : s.tasks = stuck ++ rest)
    (hs : step s i = some s') : ∃ rest', s'.tasks = stuck ++ rest' ∧ ∀ (j : Nat) (t : Call), rest[j]? = some t →
      want ∈ t.prog → ∃ t' : Call, rest'[j]? = some t' ∧ want ∈ t'.prog := by
  unfold step at hs
  rw [h] at hs
  match i, hs with
  | 0, hs => simp [stuck, permits, waitsFor, conflict] at hs
  | 1, hs => simp [stuck, permits, waitsFor, conflict] at hs
  | i + 2, hs =>
    have e : (stuck ++ rest)[i + 2]? = rest[i]? := rfl
    have e2 : ∀ t, (stuck ++ rest).set (i + 2) t = stuck ++ rest.set i t := fun _ => rfl
    rw [e] at hs
    simp only [e2] at hs
    cases ht : rest[i]? with
    | none => rw [ht] at hs; cases hs
    | some t =>
      rw [ht] at hs
      have fin : ∀ u : Call, (want ∈ t.prog → want ∈ u.prog) →
          ∀ (j : Nat) (v : Call), rest[j]? = some v → want ∈ v.prog →
            ∃ t' : Call, (rest.set i u)[j]? = some t' ∧ want ∈ t'.prog := by
        intro u hu j v hv hm
        by_cases hij : i = j
        · subst hij
          rw [ht] at hv; cases hv
          refine ⟨u, ?_, hu hm⟩
          rw [List.getElem?_set_self' , ht]; rfl
        · rw [List.getElem?_set_ne hij]; exact ⟨v, hv, hm⟩
      simp only at hs
      cases hp : t.prog with
      | nil => rw [hp] at hs; cases hs
      | cons a p =>
        rw [hp] at hs
        cases a with
        | rel l =>
          simp only [Option.some.injEq] at hs; subst hs
          exact ⟨_, rfl, fin _ (by simp [hp])⟩
        | acq l m =>
          simp only at hs
          cases hk : t.ticket with
          | none =>
            rw [hk] at hs
            simp only [Option.some.injEq] at hs; subst hs
            exact ⟨_, rfl, fin _ (by simp [hp])⟩
          | some k =>
            rw [hk] at hs
            simp only at hs
            split at hs
            · next hc =>
              simp only [Option.some.injEq] at hs; subst hs
              refine ⟨_, rfl, fin _ ?_⟩
              intro hm
              rw [hp] at hm
              rcases List.mem_cons.mp hm with hm | hm
              · cases hm
                rw [List.all_append, Bool.and_eq_true] at hc
                have := hc.1
                simp [stuck, permits, conflict] at this
              · exact hm
            · cases hs

/-- C203 fails: if that happens while `more` requests arrive, no request that needs the server is answered any more,
whatever the schedule from then on. -/
theorem C203_server_stuck (more : List Kind) : ∃ is s,
    run (start ((.request true true false :: .stream false true true :: more).map program)) is = some s ∧
    ∀ js s', run s js = some s' → ∀ (i : Nat) (k : Kind), more[i]? = some k → want ∈ program k →
      ∃ t, s'.tasks[i + 2]? = some t ∧ t.prog ≠ [] := by
  obtain ⟨c, hc⟩ := blocking_ends
  have h0 := run_more (more.map (fun k => { prog := program k })) (by simp) blocking _ _ hc
  refine ⟨blocking, _, (by rw [← h0]; simp [start]; rfl), ?_⟩
  have key : ∀ (js : List Nat) (s s' : Sys Lock) (rest : List (Call)), s.tasks = stuck ++ rest → run s js = some s' →
      ∃ rest', s'.tasks = stuck ++ rest' ∧ ∀ (j : Nat) (t : Call), rest[j]? = some t →
        want ∈ t.prog → ∃ t' : Call, rest'[j]? = some t' ∧ want ∈ t'.prog := by
    intro js
    induction js with
    | nil =>
      intro s s' rest h hr
      simp only [run, Option.some.injEq] at hr; subst hr
      exact ⟨rest, h, fun j t ht hm => ⟨t, ht, hm⟩⟩
    | cons j js ih =>
      intro s s' rest h hr
      simp only [run] at hr
      cases hs : step s j with
      | none => rw [hs] at hr; cases hr
      | some s₁ =>
        rw [hs] at hr
        obtain ⟨r1, h1, h2⟩ := stuck_step s s₁ j rest h hs
        obtain ⟨r2, h3, h4⟩ := ih s₁ s' r1 h1 hr
        refine ⟨r2, h3, ?_⟩
        intro j t ht hm
        obtain ⟨t', ht', hm'⟩ := h2 j t ht hm
        exact h4 j t' ht' hm'
  intro js s' hr i k hi hk
  obtain ⟨rest', h1, h2⟩ := key js _ s' _ rfl hr
  obtain ⟨t', ht', hm'⟩ := h2 i { prog := program k } (by simp [hi]) hk
  refine ⟨t', ?_, ?_⟩
  · rw [h1]; exact ht'
  · intro e; rw [e] at hm'; cases hm'

example : ∀ a b c d, want ∈ program (.init a b c d) := by
  intro a b c d
  simp [program]

end Verif.HttpServer.Locks
