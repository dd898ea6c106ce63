import Verif.Server.Loop

/-
A whole session of a running server: what it answers as a function of what it was sent (C227, C228), and `run` itself
(C229). Models /repo/src/server/mod.rs L383-397, L455-472 and L503-508 on top of the loop of `Server/Loop`.
-/

namespace Verif.Server

open Verif Verif.Wire

variable {W : Type}

/-- What the loop makes of a message of the transport: requests are handled, responses and notifications only logged.
/repo/src/server/mod.rs L455-474. -/
def received : TMsg → In
  | .request id r => .request id r
  | .response _ => .other
  | .notification _ => .other

/-- The answers to messages taken one after the other, and the state they leave: up to a message that cannot be read
or a handler that panics. (Specification: no counterpart in the code.) -/
def answers (srv : Srv W) : St W → List In → List RpcResponse × St W
  | st, [] => ([], st)
  | st, .other :: l => answers srv st l
  | st, .bad :: _ => ([], st)
  | st, .request id r :: l => match handleRequest srv st id r with
    | (none, st') => ([], st')
    | (some resp, st') => (resp :: (answers srv st' l).1, (answers srv st' l).2)

/-- The responses among what was written. (Specification: no counterpart in the code.) -/
def responses : List Out → List RpcResponse
  | [] => []
  | .response r :: l => r :: responses l
  | .note _ :: l => responses l

theorem responses_append (a b : List Out) : responses (a ++ b) = responses a ++ responses b := by
  induction a with
  | nil => rfl
  | cons x l ih => cases x <;> simp [responses, ih]

/-- What is still to be answered, and the state at the end. (Specification: no counterpart in the code.) -/
def ahead (srv : Srv W) (s : LState W) (more : List In) : List RpcResponse × St W :=
  match s.reader with
  | .idle => answers srv s.st (s.input ++ more)
  | .recv => answers srv s.st (s.input ++ more)
  | .handling id r => answers srv s.st (.request id r :: (s.input ++ more))
  | .send resp => (resp :: (answers srv s.st (s.input ++ more)).1, (answers srv s.st (s.input ++ more)).2)
  | .ended => ([], s.st)

/-- What was answered and what is still to be answered are the answers to all that arrived, whatever else will arrive.
(Specification: no counterpart in the code.) -/
def InTurn (srv : Srv W) (st : St W) (arr : List In) (s : LState W) : Prop :=
  (s.reader ≠ .ended → ∀ more, responses s.out ++ (ahead srv s more).1 = (answers srv st (arr ++ more)).1 ∧
    (ahead srv s more).2 = (answers srv st (arr ++ more)).2) ∧
  ∀ more, responses s.out <+: (answers srv st (arr ++ more)).1

theorem inTurn_step (srv : Srv W) (st : St W) (arr : List In) (s s' : LState W) (op : LOp) (h : InTurn srv st arr s)
    (hs : lstep srv s op = some s') : InTurn srv st (arr ++ arrivals [op]) s' := by
  obtain ⟨h1, h2⟩ := h
  -- from the first half follows the second
  have mk : ∀ s' : LState W, s'.reader ≠ .ended → (∀ more, responses s'.out ++ (ahead srv s' more).1 =
      (answers srv st (arr ++ more)).1 ∧ (ahead srv s' more).2 = (answers srv st (arr ++ more)).2) →
      InTurn srv st arr s' := fun s' _ h => ⟨fun _ => h, fun more => ⟨_, (h more).1⟩⟩
  cases op <;> simp only [lstep] at hs
  case arrive m =>
    cases hs
    refine ⟨fun he more => ?_, fun more => ?_⟩
    · have := h1 he (m :: more)
      simp only [arrivals, List.append_assoc, List.cons_append, List.nil_append]
      rw [← this.1, ← this.2]
      cases hr : s.reader with
      | _ => simp [ahead, hr]
    · have := h2 (m :: more)
      simpa [arrivals] using this
  case post => cases hs; simpa [arrivals] using ⟨h1, h2⟩
  case reader =>
    simp only [arrivals, List.append_nil]
    split at hs
    · next hr =>
      cases hs
      refine mk _ (by simp) (fun more => ?_)
      have := h1 (by rw [hr]; simp) more
      simpa [ahead, hr] using this
    · next hr =>
      have hne : s.reader ≠ .ended := by rw [hr]; simp
      split at hs
      · split at hs
        · cases hs
        · next i hi =>
          cases hs
          exact ⟨fun he => absurd rfl he, h2⟩
        · next i hi =>
          cases hs
          refine mk _ (by simp) (fun more => ?_)
          have := h1 hne more
          simpa [ahead, hr, hi, answers] using this
        · next id r i hi =>
          cases hs
          refine mk _ (by simp) (fun more => ?_)
          have := h1 hne more
          simpa [ahead, hr, hi] using this
      · cases hs
    · next id r hr =>
      have hne : s.reader ≠ .ended := by rw [hr]; simp
      split at hs
      · cases hs
        exact ⟨fun he => absurd rfl he, h2⟩
      · next resp st' hh =>
        cases hs
        refine mk _ (by simp) (fun more => ?_)
        have := h1 hne more
        simpa [ahead, hr, answers, hh] using this
    · next resp hr =>
      have hne : s.reader ≠ .ended := by rw [hr]; simp
      split at hs
      · cases hs
        refine mk _ (by simp) (fun more => ?_)
        have := h1 hne more
        simpa [ahead, hr, responses_append, responses] using this
      · cases hs
    · cases hs
  case readerFail =>
    simp only [arrivals, List.append_nil]
    split at hs
    · cases hs
      exact ⟨fun he => absurd rfl he, h2⟩
    · cases hs
  case notifier =>
    simp only [arrivals, List.append_nil]
    split at hs
    · split at hs
      · cases hs
      · cases hs; exact ⟨h1, h2⟩
    · split at hs
      · cases hs
        refine ⟨fun he more => ?_, fun more => ?_⟩
        · have := h1 he more
          simpa [responses_append, responses, ahead] using this
        · simpa [responses_append, responses] using h2 more
      · cases hs
  case notifierFail =>
    simp only [arrivals, List.append_nil]
    split at hs
    · cases hs; exact ⟨h1, h2⟩
    · cases hs

theorem inTurn_run (srv : Srv W) (st : St W) (l : List LOp) (s s' : LState W) (arr : List In)
    (h : InTurn srv st arr s) (hs : lrun srv s l = some s') : InTurn srv st (arr ++ arrivals l) s' := by
  induction l generalizing s arr with
  | nil => simp only [lrun, Option.some.injEq] at hs; subst hs; simpa [arrivals] using h
  | cons op l ih =>
    simp only [lrun] at hs
    cases h1 : lstep srv s op with
    | none => rw [h1] at hs; cases hs
    | some t =>
      rw [h1] at hs
      have := ih t (arr ++ arrivals [op]) (inTurn_step srv st arr s t op h h1) hs
      rw [List.append_assoc, ← arrivals_append] at this
      exact this

theorem inTurn_start (srv : Srv W) (st : St W) : InTurn srv st [] (LState.start st) :=
  ⟨fun _ more => by simp [LState.start, ahead, responses], fun more => by simp [LState.start, responses]⟩

/-- When no task can take a step and the loop goes on, the reader is waiting for input and there is none. -/
theorem quiet_reader (srv : Srv W) (st : St W) (l : List LOp) (s : LState W)
    (h : lrun srv (LState.start st) l = some s) (hq : Quiet srv s) (he : s.reader ≠ .ended) :
    s.reader = .recv ∧ s.input = [] := by
  have hok := qok_run srv _ s l (qok_start st) h
  obtain ⟨hr, hn⟩ := hq
  simp only [lstep] at hr hn
  have hnot : ∀ q, s.queue ≠ .notifier :: q := by
    intro q hq
    obtain ⟨n, hb⟩ := hok.notifier.mp (by rw [hq]; simp)
    rw [hb, hq] at hn
    simp at hn
  have hhead : Task.reader ∈ s.queue → ∃ q, s.queue = .reader :: q := by
    intro hm
    rcases queue_cases s hok hm with hq | hq | hq
    · exact ⟨_, hq⟩
    · exact ⟨_, hq⟩
    · exact absurd hq (hnot _)
  cases hrd : s.reader with
  | idle => rw [hrd] at hr; simp at hr
  | recv =>
    obtain ⟨q, hq⟩ := hhead (hok.reader.mpr (Or.inl hrd))
    rw [hrd, hq] at hr
    cases hi : s.input with
    | nil => exact ⟨rfl, rfl⟩
    | cons m i => rw [hi] at hr; cases m <;> simp at hr
  | handling id r =>
    rw [hrd] at hr
    simp only at hr
    split at hr <;> cases hr
  | send resp =>
    obtain ⟨q, hq⟩ := hhead (hok.reader.mpr (Or.inr ⟨resp, hrd⟩))
    rw [hrd, hq] at hr
    simp at hr
  | ended => exact absurd hrd he

/-! ### C228: what a client's notifications do -/

/-- **C228**. In every schedule the responses written are an initial part of the answers to the messages that arrived,
taken one after the other. -/
theorem C228_in_turn (srv : Srv W) (st : St W) (l : List LOp) (s : LState W)
    (h : lrun srv (LState.start st) l = some s) : responses s.out <+: (answers srv st (arrivals l)).1 := by
  have := (inTurn_run srv st l _ s [] (inTurn_start srv st) h).2 []
  simpa using this

/-- **C228**. When no task can take a step and the loop has not ended, they are all of them, and the state of the server
(with the program's own, the subscriptions and the cancellation tokens) is the one they leave. -/
theorem C228_at_rest (srv : Srv W) (st : St W) (l : List LOp) (s : LState W)
    (h : lrun srv (LState.start st) l = some s) (hq : Quiet srv s) (he : s.reader ≠ .ended) :
    responses s.out = (answers srv st (arrivals l)).1 ∧ s.st = (answers srv st (arrivals l)).2 := by
  obtain ⟨hr, hi⟩ := quiet_reader srv st l s h hq he
  have := (inTurn_run srv st l _ s [] (inTurn_start srv st) h).1 he []
  simpa [ahead, hr, hi, answers] using this

/-- The messages without responses and notifications. (Specification: no counterpart in the code.) -/
def onlyRequests (l : List TMsg) : List TMsg :=
  l.filter (fun | .request _ _ => true | _ => false)

/-- **C228, refuted**: notifications of the client do nothing, those that cancel a request among them. Whatever
notifications (and responses) a client sends between its requests, the answers and the state of the server are the
same as if it had sent none. -/
theorem C228_notifications_do_nothing (srv : Srv W) (st : St W) (ms : List TMsg) :
    answers srv st (ms.map received) = answers srv st ((onlyRequests ms).map received) := by
  induction ms generalizing st with
  | nil => rfl
  | cons m ms ih =>
    cases m with
    | request id r =>
      simp only [onlyRequests, List.filter_cons, if_true, List.map_cons, received, answers]
      cases h : handleRequest srv st id r with
      | mk o st' =>
        cases o with
        | none => rfl
        | some resp => simp only [ih st', onlyRequests]
    | response r => simpa [onlyRequests, received, answers] using ih st
    | notification n => simpa [onlyRequests, received, answers] using ih st

/-- **C228, refuted**, for two sessions: one in which the client sends what it likes besides its requests, one in which
it sends the requests alone. At rest both have the same answers and the same state. -/
theorem C228_same_session (srv : Srv W) (st : St W) (ms : List TMsg) (l l' : List LOp) (s s' : LState W)
    (h : lrun srv (LState.start st) l = some s) (h' : lrun srv (LState.start st) l' = some s')
    (ha : arrivals l = ms.map received) (ha' : arrivals l' = (onlyRequests ms).map received)
    (hq : Quiet srv s) (hq' : Quiet srv s') (he : s.reader ≠ .ended) (he' : s'.reader ≠ .ended) :
    responses s.out = responses s'.out ∧ s.st = s'.st := by
  obtain ⟨a1, a2⟩ := C228_at_rest srv st l s h hq he
  obtain ⟨b1, b2⟩ := C228_at_rest srv st l' s' h' hq' he'
  rw [a1, a2, b1, b2, ha, ha', C228_notifications_do_nothing]
  exact ⟨rfl, rfl⟩

/-- **C228**. While a handler runs the reading task reads nothing: a notification that arrives then, that of its own
cancellation among them, is still unread when the response is written. -/
theorem C228_unread (srv : Srv W) (s s' : LState W) (op : LOp) (hs : lstep srv s op = some s')
    (hr : (∃ id r, s.reader = .handling id r) ∨ ∃ resp, s.reader = .send resp) :
    ∃ new, s'.input = s.input ++ new := by
  cases op <;> simp only [lstep] at hs
  case arrive m => cases hs; exact ⟨_, rfl⟩
  case post => cases hs; exact ⟨[], by simp⟩
  case reader =>
    rcases hr with ⟨id, r, hr⟩ | ⟨resp, hr⟩
    · rw [hr] at hs
      simp only at hs
      split at hs <;> (cases hs; exact ⟨[], by simp⟩)
    · rw [hr] at hs
      simp only at hs
      split at hs
      · cases hs; exact ⟨[], by simp⟩
      · cases hs
  case readerFail => split at hs <;> cases hs; exact ⟨[], by simp⟩
  case notifier =>
    split at hs
    · split at hs
      · cases hs
      · cases hs; exact ⟨[], by simp⟩
    · split at hs
      · cases hs; exact ⟨[], by simp⟩
      · cases hs
  case notifierFail => split at hs <;> cases hs; exact ⟨[], by simp⟩

/-! ### C227: `logging/setLevel` -/

/-- The same message with another level. (Specification: no counterpart in the code.) -/
def withLevel (lv : LoggingLevel) : In → In
  | .request id (.client (.setLevel _)) => .request id (.client (.setLevel lv))
  | m => m

/-- **C227, refuted**: a level is accepted and forgotten. The answer is an empty result and the state stays, whatever
the level and whether or not the server announced logging. -/
theorem C227_forgotten (srv : Srv W) (st : St W) (id : Id) (lv : LoggingLevel) :
    handleRequest srv st id (.client (.setLevel lv)) =
      (some { jsonrpc := "2.0", id := id, payload := .result (.obj []) }, st) := rfl

/-- **C227, refuted**: a session does not depend on the levels asked for. -/
theorem C227_levels_do_nothing (srv : Srv W) (st : St W) (ms : List In) (lv : LoggingLevel) :
    answers srv st (ms.map (withLevel lv)) = answers srv st ms := by
  induction ms generalizing st with
  | nil => rfl
  | cons m ms ih =>
    cases m with
    | other => exact ih st
    | bad => rfl
    | request id r =>
      have hw : ∃ r', withLevel lv (.request id r) = .request id r' ∧
          handleRequest srv st id r' = handleRequest srv st id r := by
        cases r with
        | server r => exact ⟨_, rfl, rfl⟩
        | client r => cases r <;> exact ⟨_, rfl, rfl⟩
      obtain ⟨r', e1, e2⟩ := hw
      simp only [List.map_cons, e1, answers, e2]
      cases h : handleRequest srv st id r with
      | mk o st' =>
        cases o with
        | none => rfl
        | some resp => simp only [ih st']

/-- **C227, refuted**: log messages of the level asked for and above do not reach the client either. Whatever a program
does with its server, no notification it sends gets into the channel: before `run` there is none, and `run` takes the
server away. -/
theorem C227_no_log_messages (srv : Srv W) (w : W) (l : List Op) (st : St W) (b : Bool)
    (h : apiRun srv (St.init w) true l = some (st, b)) : st.sent = [] :=
  (inv_run srv l _ _ _ _ (inv_init w) h).sent

/-! ### C229: `run` -/

/-- A running server: its two tasks, and the task that called `run`, which has slept so many seconds and has returned or
not. /repo/src/server/mod.rs L383-397, L503-508. -/
structure Running (W : Type) where
  loop : LState W
  slept : Nat
  returned : Bool

/-- A step of one of the two tasks, or another second of `run_main_loop`. /repo/src/server/mod.rs L399-437, L503-508. -/
inductive ROp where
  | task (op : LOp)
  | second

/-- One step. `run_main_loop` sleeps a second and begins again; nothing tells it of the tasks.
/repo/src/server/mod.rs L391-396, L503-508. -/
def rstep (srv : Srv W) (s : Running W) : ROp → Option (Running W)
  | .task op => (lstep srv s.loop op).map (fun t => { s with loop := t })
  | .second => if s.returned then none else some { s with slept := s.slept + 1 }

/-- Any schedule. (/repo/src/server/mod.rs L383-437, L503-508.) -/
def rrun (srv : Srv W) : Running W → List ROp → Option (Running W)
  | s, [] => some s
  | s, op :: l => match rstep srv s op with
    | none => none
    | some s' => rrun srv s' l

/-- `run`, /repo/src/server/mod.rs L383-394. -/
def Running.start (st : St W) : Running W := { loop := LState.start st, slept := 0, returned := false }

/-- The steps of the two tasks among those of the server. (Specification: no counterpart in the code.) -/
def tasksOnly : List ROp → List LOp
  | [] => []
  | .task op :: l => op :: tasksOnly l
  | .second :: l => tasksOnly l

theorem rrun_parts (srv : Srv W) (l : List ROp) (s t : Running W) (h : rrun srv s l = some t) :
    lrun srv s.loop (tasksOnly l) = some t.loop ∧ t.returned = s.returned := by
  induction l generalizing s with
  | nil => simp only [rrun, Option.some.injEq] at h; subst h; exact ⟨rfl, rfl⟩
  | cons op l ih =>
    simp only [rrun] at h
    cases op with
    | task op =>
      simp only [rstep] at h
      cases h1 : lstep srv s.loop op with
      | none => rw [h1] at h; cases h
      | some u =>
        rw [h1] at h
        obtain ⟨a, b⟩ := ih _ h
        exact ⟨by simp only [tasksOnly, lrun, h1]; exact a, b⟩
    | second =>
      simp only [rstep] at h
      split at h
      · cases h
      · next u hu =>
        split at hu
        · cases hu
        · cases hu; exact ih { s with slept := s.slept + 1 } h

/-- **C229, refuted**: `run` does not return, in no schedule: not when the client has gone, not after a message that
cannot be read, not after a handler panicked. -/
theorem C229_never_returns (srv : Srv W) (st : St W) (l : List ROp) (s : Running W)
    (h : rrun srv (Running.start st) l = some s) : s.returned = false := (rrun_parts srv l _ s h).2

/-- **C229, refuted**: once the reading task has ended the server answers nothing any more, and still `run` sleeps on:
for every number of seconds there is the same server so much later. -/
theorem C229_sleeps_on (srv : Srv W) (st : St W) (l : List ROp) (s : Running W)
    (h : rrun srv (Running.start st) l = some s) (he : s.loop.reader = .ended) :
    (∀ l' t, rrun srv s l' = some t → responseIds t.loop.out = responseIds s.loop.out ∧ t.loop.reader = .ended ∧
      t.returned = false) ∧
    ∀ n, rrun srv s (List.replicate n .second) = some { s with slept := s.slept + n } := by
  have hr := C229_never_returns srv st l s h
  refine ⟨fun l' t ht => ?_, fun n => ?_⟩
  · obtain ⟨a, b⟩ := rrun_parts srv l' s t ht
    obtain ⟨c1, c2, _⟩ := C70_stopped srv s.loop t.loop (tasksOnly l') he a
    exact ⟨c2, c1, b.trans hr⟩
  · have key : ∀ n (s : Running W), s.returned = false →
        rrun srv s (List.replicate n .second) = some { s with slept := s.slept + n } := by
      intro n
      induction n with
      | zero => intro s _; rfl
      | succ n ih =>
        intro s hs
        simp only [List.replicate_succ, rrun, rstep, hs, Bool.false_eq_true, if_false]
        rw [ih _ rfl]
        simp [hs, Nat.add_assoc, Nat.add_comm 1 n]
    exact key n s hr

/-! ### Concrete cases -/

/-- A call, a cancellation of it, another request: the call is answered as ever.
(Specification: no counterpart in the code.) -/
def cancelledSession : List TMsg :=
  [.request (.str "1") callFail, .notification (.cancelled ⟨.str "1", some "enough"⟩),
   .request (.str "2") (.client .ping)]

/-- A schedule of it. (Specification: no counterpart in the code.) -/
def cancelledSchedule : List LOp :=
  [.arrive (received (cancelledSession[0])), .arrive (received (cancelledSession[1])),
   .arrive (received (cancelledSession[2])), .reader, .reader, .reader, .reader, .reader, .reader, .reader, .reader,
   .reader, .reader, .reader]

/-- A schedule of the two requests alone. (Specification: no counterpart in the code.) -/
def plainSchedule : List LOp :=
  [.reader, .arrive (received (cancelledSession[0])), .reader, .reader, .reader, .reader,
   .arrive (received (cancelledSession[2])), .reader, .reader, .reader, .reader]

example : ∃ s s', lrun exampleServer (LState.start (St.init 0)) cancelledSchedule = some s ∧
    lrun exampleServer (LState.start (St.init 0)) plainSchedule = some s' ∧ Quiet exampleServer s ∧
    Quiet exampleServer s' ∧ s.reader ≠ .ended ∧ s'.reader ≠ .ended ∧
    arrivals cancelledSchedule = cancelledSession.map received ∧
    arrivals plainSchedule = (onlyRequests cancelledSession).map received ∧ (responses s.out).length = 2 :=
  ⟨_, _, rfl, rfl, ⟨rfl, rfl⟩, ⟨rfl, rfl⟩, (fun h => by cases h), (fun h => by cases h), rfl, rfl, rfl⟩

example : (answers exampleServer (St.init 0) [.request (.str "1") (.client (.setLevel .error)), .other,
    .request (.str "2") (.client .ping)]).1.length = 2 := rfl

/-- The client has gone; ten seconds later `run` still sleeps. -/
example : ∃ s, rrun exampleServer (Running.start (St.init 0))
    ([.task .reader, .task (.arrive .bad), .task .reader] ++ List.replicate 10 .second) = some s ∧
      s.loop.reader = .ended ∧ s.slept = 10 ∧ s.returned = false := ⟨_, rfl, rfl, rfl, rfl⟩

end Verif.Server
