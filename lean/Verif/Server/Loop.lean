import Verif.Server.Props

/-
The message loop and the notification task of a running server (C63, C70).

Models /repo/src/server/mod.rs L383-486. Two tasks share the transport behind a write lock that is granted in the order
of requests (tokio's `RwLock`); `queue` holds the tasks that have asked for it, its head has it. The reader keeps the
lock while it waits for a message (L448-453). Every point at which a task may be suspended ends a step; a list of steps
is any schedule. The channel of notifications is taken as unbounded (the code suspends the sender at 100).
-/

namespace Verif.Server

open Verif Verif.Wire

/-- What `receive` yields: a request, a response or notification (only logged, L464-471), or an error. -/
inductive In where
  | request (id : Id) (r : Request)
  | other
  | bad

/-- What is written. /repo/src/server/mod.rs L439-445, L477-486. -/
inductive Out where
  | response (r : RpcResponse)
  | note (n : ServerNotification)

/-- The two tasks, /repo/src/server/mod.rs L399-437. -/
inductive Task where
  | reader
  | notifier
  deriving DecidableEq, Repr

/-- Where the reader is: between messages, at `receive` (L448-453), in a handler (L483), at `send` (L484-485),
or its task is over (L425-428, L431-434, or a panic). -/
inductive Reader where
  | idle
  | recv
  | handling (id : Id) (r : Request)
  | send (resp : RpcResponse)
  | ended

/-- Where the notification task is (L399-413, L439-445). -/
inductive Notifier where
  | idle
  | busy (n : ServerNotification)

/-- The tasks, the queue of the transport lock, the channel and what was written, /repo/src/server/mod.rs L383-437. -/
structure LState (W : Type) where
  st : St W
  input : List In
  reader : Reader
  notifier : Notifier
  queue : List Task
  chan : List ServerNotification
  out : List Out

/-- `run`, L383-396. -/
def LState.start {W : Type} (st : St W) : LState W :=
  { st := st, input := [], reader := .idle, notifier := .idle, queue := [], chan := [], out := [] }

/-- A message arrives at the transport; a notification is put into the channel; a task takes its next step; a
task's `send` fails. /repo/src/server/mod.rs L399-486. -/
inductive LOp where
  | arrive (m : In)
  | post (n : ServerNotification)
  | reader
  | notifier
  | readerFail
  | notifierFail

/-- One step; `none` if the task is suspended. /repo/src/server/mod.rs L399-486. -/
def lstep {W : Type} (srv : Srv W) (s : LState W) : LOp → Option (LState W)
  | .arrive m => some { s with input := s.input ++ [m] }
  | .post n => some { s with chan := s.chan ++ [n] }
  | .reader => match s.reader with
    | .idle => some { s with reader := .recv, queue := s.queue ++ [.reader] }
    | .recv => match s.queue with
      | .reader :: q => match s.input with
        | [] => none
        | .bad :: i => some { s with reader := .ended, queue := q, input := i }
        | .other :: i => some { s with reader := .idle, queue := q, input := i }
        | .request id r :: i => some { s with reader := .handling id r, queue := q, input := i }
      | _ => none
    | .handling id r => match handleRequest srv s.st id r with
      | (none, st') => some { s with reader := .ended, st := st' }
      | (some resp, st') => some { s with reader := .send resp, st := st', queue := s.queue ++ [.reader] }
    | .send resp => match s.queue with
      | .reader :: q => some { s with reader := .idle, queue := q, out := s.out ++ [.response resp] }
      | _ => none
    | .ended => none
  | .readerFail => match s.reader, s.queue with
    | .send _, .reader :: q => some { s with reader := .ended, queue := q }
    | _, _ => none
  | .notifier => match s.notifier with
    | .idle => match s.chan with
      | [] => none
      | n :: c => some { s with notifier := .busy n, chan := c, queue := s.queue ++ [.notifier] }
    | .busy n => match s.queue with
      | .notifier :: q => some { s with notifier := .idle, queue := q, out := s.out ++ [.note n] }
      | _ => none
  | .notifierFail => match s.notifier, s.queue with
    | .busy _, .notifier :: q => some { s with notifier := .idle, queue := q }
    | _, _ => none

/-- A history of steps of /repo/src/server/mod.rs L399-486. -/
def lrun {W : Type} (srv : Srv W) : LState W → List LOp → Option (LState W)
  | s, [] => some s
  | s, op :: l => match lstep srv s op with
    | none => none
    | some s' => lrun srv s' l

variable {W : Type}

/-! ### Specifications: what arrived, what was answered -/

/-- (Specification: no counterpart in the code.) -/
def requestIds : List In → List Id
  | [] => []
  | .request id _ :: l => id :: requestIds l
  | _ :: l => requestIds l

/-- (Specification: no counterpart in the code.) -/
def arrivals : List LOp → List In
  | [] => []
  | .arrive m :: l => m :: arrivals l
  | _ :: l => arrivals l

/-- (Specification: no counterpart in the code.) -/
def posted : List LOp → List ServerNotification
  | [] => []
  | .post n :: l => n :: posted l
  | _ :: l => posted l

/-- (Specification: no counterpart in the code.) -/
def responseIds : List Out → List Id
  | [] => []
  | .response r :: l => r.id :: responseIds l
  | .note _ :: l => responseIds l

/-- (Specification: no counterpart in the code.) -/
def notes : List Out → List ServerNotification
  | [] => []
  | .note n :: l => n :: notes l
  | .response _ :: l => notes l

/-- The request being worked on. (Specification: no counterpart in the code.) -/
def current : Reader → List Id
  | .handling id _ => [id]
  | .send resp => [resp.id]
  | _ => []

/-- (Specification: no counterpart in the code.) -/
def working : Notifier → List ServerNotification
  | .busy n => [n]
  | .idle => []

theorem requestIds_append (a b : List In) : requestIds (a ++ b) = requestIds a ++ requestIds b := by
  induction a with
  | nil => rfl
  | cons x l ih => cases x <;> simp [requestIds, ih]

theorem responseIds_append (a b : List Out) : responseIds (a ++ b) = responseIds a ++ responseIds b := by
  induction a with
  | nil => rfl
  | cons x l ih => cases x <;> simp [responseIds, ih]

theorem notes_append (a b : List Out) : notes (a ++ b) = notes a ++ notes b := by
  induction a with
  | nil => rfl
  | cons x l ih => cases x <;> simp [notes, ih]

theorem lrun_append (srv : Srv W) (s : LState W) (a b : List LOp) :
    lrun srv s (a ++ b) = (lrun srv s a).bind (fun s' => lrun srv s' b) := by
  induction a generalizing s with
  | nil => rfl
  | cons op l ih =>
    simp only [List.cons_append, lrun]
    cases lstep srv s op <;> simp [ih]

/-! ### The lock -/

/-- The queue holds exactly the tasks that asked for the transport. (Specification: no counterpart in the code.) -/
structure QOk (s : LState W) : Prop where
  nodup : s.queue.Nodup
  reader : Task.reader ∈ s.queue ↔ (s.reader = .recv ∨ ∃ r, s.reader = .send r)
  notifier : Task.notifier ∈ s.queue ↔ ∃ n, s.notifier = .busy n

theorem qok_start (st : St W) : QOk (LState.start st) := by
  constructor <;> simp [LState.start]

theorem qok_step (srv : Srv W) (s s' : LState W) (op : LOp) (h : QOk s) (hs : lstep srv s op = some s') : QOk s' := by
  obtain ⟨h1, h2, h3⟩ := h
  cases op <;> simp only [lstep] at hs
  case arrive => cases hs; exact ⟨h1, h2, h3⟩
  case post => cases hs; exact ⟨h1, h2, h3⟩
  case reader =>
    split at hs
    · next hr =>
      cases hs
      rw [hr] at h2
      have : Task.reader ∉ s.queue := by rw [h2]; simp
      refine ⟨List.nodup_append.mpr ⟨h1, by simp, by simp; exact fun a ha e => this (e ▸ ha)⟩, by simp, by simpa using h3⟩
    · next hr =>
      split at hs
      · next q hq =>
        rw [hq] at h1 h2 h3
        simp only [List.nodup_cons] at h1
        split at hs
        · cases hs
        all_goals
          cases hs
          refine ⟨h1.2, by simp [h1.1], ?_⟩
          simpa using h3
      · cases hs
    · next id r hr =>
      rw [hr] at h2
      have : Task.reader ∉ s.queue := by rw [h2]; simp
      split at hs
      · cases hs
        exact ⟨h1, by simp [this], h3⟩
      · cases hs
        refine ⟨List.nodup_append.mpr ⟨h1, by simp, by simp; exact fun a ha e => this (e ▸ ha)⟩, by simp, by simpa using h3⟩
    · next resp hr =>
      split at hs
      · next q hq =>
        rw [hq] at h1 h2 h3
        simp only [List.nodup_cons] at h1
        cases hs
        exact ⟨h1.2, by simp [h1.1], by simpa using h3⟩
      · cases hs
    · cases hs
  case readerFail =>
    split at hs
    · next r q hr hq =>
      rw [hq] at h1 h2 h3
      simp only [List.nodup_cons] at h1
      cases hs
      exact ⟨h1.2, by simp [h1.1], by simpa using h3⟩
    · cases hs
  case notifier =>
    split at hs
    · next hn =>
      rw [hn] at h3
      have : Task.notifier ∉ s.queue := by rw [h3]; simp
      split at hs
      · cases hs
      · cases hs
        refine ⟨List.nodup_append.mpr ⟨h1, by simp, by simp; exact fun a ha e => this (e ▸ ha)⟩, by simpa using h2, by simp⟩
    · next n hn =>
      split at hs
      · next q hq =>
        rw [hq] at h1 h2 h3
        simp only [List.nodup_cons] at h1
        cases hs
        exact ⟨h1.2, by simpa using h2, by simp [h1.1]⟩
      · cases hs
  case notifierFail =>
    split at hs
    · next r q hr hq =>
      rw [hq] at h1 h2 h3
      simp only [List.nodup_cons] at h1
      cases hs
      exact ⟨h1.2, by simpa using h2, by simp [h1.1]⟩
    · cases hs

theorem qok_run (srv : Srv W) (s s' : LState W) (l : List LOp) (h : QOk s) (hs : lrun srv s l = some s') : QOk s' := by
  induction l generalizing s with
  | nil => simp only [lrun, Option.some.injEq] at hs; subst hs; exact h
  | cons op l ih =>
    simp only [lrun] at hs
    cases h1 : lstep srv s op with
    | none => rw [h1] at hs; cases hs
    | some t => rw [h1] at hs; exact ih t (qok_step srv s t op h h1) hs

/-- The reader or the notifier has the transport. -/
theorem queue_cases (s : LState W) (h : QOk s) (hr : Task.reader ∈ s.queue) :
    s.queue = [.reader] ∨ s.queue = [.reader, .notifier] ∨ s.queue = [.notifier, .reader] := by
  have hn := h.nodup
  revert hr hn
  match s.queue with
  | [] => simp
  | [.reader] => simp
  | [.notifier] => simp
  | [.reader, .reader] => simp
  | [.reader, .notifier] => simp
  | [.notifier, .reader] => simp
  | [.notifier, .notifier] => simp
  | .reader :: .reader :: _ :: _ => simp
  | .notifier :: .notifier :: _ :: _ => simp
  | .reader :: .notifier :: .reader :: _ => simp
  | .reader :: .notifier :: .notifier :: _ => simp
  | .notifier :: .reader :: .reader :: _ => simp
  | .notifier :: .reader :: .notifier :: _ => simp

/-! ### C63: the loop -/

/-- Requests that arrived = answered ++ being worked on ++ lost with the end of the task ++ not yet read.
(Specification: no counterpart in the code.) -/
def Account (s : LState W) (arr : List In) : Prop :=
  ∃ lost, requestIds arr = responseIds s.out ++ current s.reader ++ lost ++ requestIds s.input ∧ lost.length ≤ 1 ∧
    (lost ≠ [] → match s.reader with | .ended => True | _ => False)

theorem account_step (srv : Srv W) (s s' : LState W) (op : LOp) (arr : List In) (h : Account s arr)
    (hs : lstep srv s op = some s') : Account s' (arr ++ arrivals [op]) := by
  obtain ⟨lost, h1, h2, h3⟩ := h
  cases op <;> simp only [lstep] at hs
  case arrive m => cases hs; exact ⟨lost, by simp [arrivals, requestIds_append, h1], h2, h3⟩
  case post => cases hs; exact ⟨lost, by simpa [arrivals] using h1, h2, h3⟩
  case reader =>
    simp only [arrivals, List.append_nil]
    split at hs
    · next hr =>
      rw [hr] at h1 h3
      cases hs; exact ⟨lost, h1, h2, h3⟩
    · next hr =>
      rw [hr] at h1 h3
      split at hs
      · have hl : lost = [] := Classical.byContradiction h3
        subst hl
        split at hs
        · cases hs
        · next i hi => cases hs; rw [hi] at h1; exact ⟨[], by simpa [current, requestIds] using h1, by simp, by simp⟩
        · next i hi => cases hs; rw [hi] at h1; exact ⟨[], by simpa [current, requestIds] using h1, by simp, by simp⟩
        · next id r i hi => cases hs; rw [hi] at h1; exact ⟨[], by simpa [current, requestIds] using h1, by simp, by simp⟩
      · cases hs
    · next id r hr =>
      rw [hr] at h1 h3
      have hl : lost = [] := Classical.byContradiction h3
      subst hl
      split at hs
      · cases hs; exact ⟨[id], by simpa [current] using h1, by simp, fun _ => trivial⟩
      · next resp st' hh =>
        cases hs
        have := (C63_id srv s.st id r resp (by rw [hh])).1
        exact ⟨[], by simpa [current, this] using h1, by simp, by simp⟩
    · next resp hr =>
      rw [hr] at h1 h3
      have hl : lost = [] := Classical.byContradiction h3
      subst hl
      split at hs
      · cases hs
        exact ⟨[], by simpa [current, responseIds_append, responseIds] using h1, by simp, by simp⟩
      · cases hs
    · cases hs
  case readerFail =>
    simp only [arrivals, List.append_nil]
    split at hs
    · next resp q hr hq =>
      rw [hr] at h1 h3
      have hl : lost = [] := Classical.byContradiction h3
      subst hl
      cases hs
      exact ⟨[resp.id], by simpa [current] using h1, by simp, fun _ => trivial⟩
    · cases hs
  case notifier =>
    simp only [arrivals, List.append_nil]
    split at hs
    · split at hs
      · cases hs
      · cases hs; exact ⟨lost, h1, h2, h3⟩
    · split at hs
      · cases hs; exact ⟨lost, by simpa [responseIds_append, responseIds] using h1, h2, h3⟩
      · cases hs
  case notifierFail =>
    simp only [arrivals, List.append_nil]
    split at hs
    · cases hs; exact ⟨lost, h1, h2, h3⟩
    · cases hs

theorem arrivals_append (a b : List LOp) : arrivals (a ++ b) = arrivals a ++ arrivals b := by
  induction a with
  | nil => rfl
  | cons x l ih => cases x <;> simp [arrivals, ih]

theorem account_run (srv : Srv W) (l : List LOp) (s s' : LState W) (arr : List In) (h : Account s arr)
    (hs : lrun srv s l = some s') : Account s' (arr ++ arrivals l) := by
  induction l generalizing s arr with
  | nil => simp only [lrun, Option.some.injEq] at hs; subst hs; simpa [arrivals] using h
  | cons op l ih =>
    simp only [lrun] at hs
    cases h1 : lstep srv s op with
    | none => rw [h1] at hs; cases hs
    | some t =>
      rw [h1] at hs
      have := ih t (arr ++ arrivals [op]) (account_step srv s t op arr h h1) hs
      rw [List.append_assoc, ← arrivals_append] at this
      exact this

/-- **C63**. In every schedule the ids of the responses written are an initial part of the ids of the requests that
arrived, in their order: each request is answered at most once, in order, and nothing else is answered. -/
theorem C63_loop_order (srv : Srv W) (st : St W) (l : List LOp) (s : LState W)
    (h : lrun srv (LState.start st) l = some s) : responseIds s.out <+: requestIds (arrivals l) := by
  obtain ⟨lost, h1, -, -⟩ := account_run srv l _ s [] ⟨[], by simp [LState.start, requestIds, responseIds, current]⟩ h
  simp only [List.nil_append] at h1
  exact ⟨current s.reader ++ lost ++ requestIds s.input, by rw [h1]; simp⟩

/-- No task can take a step. (Specification: no counterpart in the code.) -/
def Quiet (srv : Srv W) (s : LState W) : Prop :=
  lstep srv s .reader = none ∧ lstep srv s .notifier = none

/-- **C63**. When no task can take a step, and the loop has not ended, every request that arrived has been
answered. Missing from the property: the end of the loop (`C70_stopped`). -/
theorem C63_loop_complete_partial (srv : Srv W) (st : St W) (l : List LOp) (s : LState W)
    (h : lrun srv (LState.start st) l = some s) (hq : Quiet srv s) (he : s.reader ≠ .ended) :
    responseIds s.out = requestIds (arrivals l) := by
  have hok := qok_run srv _ s l (qok_start st) h
  obtain ⟨lost, h1, -, h3⟩ := account_run srv l _ s [] ⟨[], by simp [LState.start, requestIds, responseIds, current]⟩ h
  simp only [List.nil_append] at h1
  have hl : lost = [] := by
    apply Classical.byContradiction
    intro hn
    have := h3 hn
    split at this
    · next hr => exact he hr
    · exact this
  subst hl
  obtain ⟨hr, hn⟩ := hq
  simp only [lstep] at hr hn
  have hnot : ∀ q, s.queue ≠ .notifier :: q := by
    intro q hq
    obtain ⟨n, hb⟩ := hok.notifier.mp (by rw [hq]; simp)
    rw [hb, hq] at hn
    simp at hn
  have hhead : Task.reader ∈ s.queue → ∃ q, s.queue = .reader :: q := by
    intro hm
    rcases queue_cases s hok hm with hq | hq | hq
    · exact ⟨_, hq⟩
    · exact ⟨_, hq⟩
    · exact absurd hq (hnot _)
  cases hrd : s.reader with
  | idle => rw [hrd] at hr; simp at hr
  | recv =>
    obtain ⟨q, hq⟩ := hhead (hok.reader.mpr (Or.inl hrd))
    rw [hrd, hq] at hr
    cases hi : s.input with
    | nil => rw [hi, hrd] at h1; simpa [current, requestIds] using h1.symm
    | cons m i => rw [hi] at hr; cases m <;> simp at hr
  | handling id r =>
    rw [hrd] at hr
    simp only at hr
    split at hr <;> cases hr
  | send resp =>
    obtain ⟨q, hq⟩ := hhead (hok.reader.mpr (Or.inr ⟨resp, hrd⟩))
    rw [hrd, hq] at hr
    simp at hr
  | ended => exact absurd hrd he

/-- Steps a task can still take without input from outside. (Specification: no counterpart in the code.) -/
def rest (s : LState W) : Nat :=
  4 * s.input.length + 2 * s.chan.length +
    (match s.reader with | .idle => 1 | .recv => 0 | .handling _ _ => 3 | .send _ => 2 | .ended => 0) +
    (match s.notifier with | .idle => 0 | .busy _ => 1)

/-- **C63**. Between two arrivals the tasks take only finitely many steps, so a state in which no task can take
one is always reached. -/
theorem C63_loop_terminates (srv : Srv W) (s s' : LState W) (op : LOp) (hs : lstep srv s op = some s')
    (ha : ∀ m, op ≠ .arrive m) (hp : ∀ n, op ≠ .post n) : rest s' < rest s := by
  cases op <;> simp only [lstep] at hs
  case arrive m => exact absurd rfl (ha m)
  case post n => exact absurd rfl (hp n)
  case reader =>
    split at hs
    · next hr => cases hs; simp [rest, hr]
    · next hr =>
      split at hs
      · split at hs
        · cases hs
        · next i hi => cases hs; simp [rest, hr, hi]
        · next i hi => cases hs; simp [rest, hr, hi]; omega
        · next id r i hi => cases hs; simp [rest, hr, hi]; omega
      · cases hs
    · next id r hr =>
      split at hs
      · cases hs; simp [rest, hr]
      · cases hs; simp [rest, hr]
    · next resp hr =>
      split at hs
      · cases hs; simp [rest, hr]
      · cases hs
    · cases hs
  case readerFail =>
    split at hs
    · next hr hq => cases hs; simp [rest, hr]
    · cases hs
  case notifier =>
    split at hs
    · next hn =>
      split at hs
      · cases hs
      · next n c hc => cases hs; simp [rest, hn, hc]; omega
    · next n hn =>
      split at hs
      · cases hs; simp [rest, hn]
      · cases hs
  case notifierFail =>
    split at hs
    · next hn hq => cases hs; simp [rest, hn]
    · cases hs

/-! ### C70 -/

/-- The reader has the transport and nothing is there to receive. (Specification: no counterpart in the code.) -/
def Blocked (s : LState W) : Prop := s.reader = .recv ∧ (∃ q, s.queue = .reader :: q) ∧ s.input = []

theorem blocked_step (srv : Srv W) (s s' : LState W) (op : LOp) (h : Blocked s) (hok : QOk s)
    (ha : ∀ m, op ≠ .arrive m) (hs : lstep srv s op = some s') : Blocked s' ∧ s'.out = s.out := by
  obtain ⟨h1, ⟨q, h2⟩, h3⟩ := h
  cases op <;> simp only [lstep, h1, h2, h3] at hs
  case arrive m => exact absurd rfl (ha m)
  case post n => cases hs; exact ⟨⟨rfl, ⟨q, rfl⟩, rfl⟩, rfl⟩
  case reader => cases hs
  case readerFail => cases hs
  case notifier =>
    split at hs
    · split at hs
      · cases hs
      · cases hs; exact ⟨⟨rfl, ⟨q ++ [.notifier], by simp⟩, rfl⟩, rfl⟩
    · cases hs
  case notifierFail =>
    split at hs
    · next heq => simp at heq
    · cases hs

/-- **C70** fails: as long as no message arrives, nothing is written, whatever is queued and however the tasks are
scheduled: the reader holds the transport while it waits. -/
theorem C70_blocked (srv : Srv W) (s s' : LState W) (l : List LOp) (h : Blocked s) (hok : QOk s)
    (ha : arrivals l = []) (hs : lrun srv s l = some s') : s'.out = s.out ∧ Blocked s' := by
  induction l generalizing s with
  | nil => simp only [lrun, Option.some.injEq] at hs; subst hs; exact ⟨rfl, h⟩
  | cons op l ih =>
    simp only [lrun] at hs
    cases h1 : lstep srv s op with
    | none => rw [h1] at hs; cases hs
    | some t =>
      rw [h1] at hs
      have hna : ∀ m, op ≠ .arrive m := by rintro m rfl; simp [arrivals] at ha
      have hal : arrivals l = [] := by cases op <;> simp [arrivals] at ha <;> exact ha
      obtain ⟨hb, ho⟩ := blocked_step srv s t op h hok hna h1
      obtain ⟨h2, h3⟩ := ih t hb (qok_step srv s t op hok h1) hal hs
      exact ⟨h2.trans ho, h3⟩

/-- **C70** fails for a server whose reader ran first: a notification is then never written while the client is
silent. -/
theorem C70_never_written (srv : Srv W) (st : St W) (l : List LOp) (s : LState W) (ha : arrivals l = [])
    (hs : lrun srv (LState.start st) (.reader :: l) = some s) : s.out = [] := by
  simp only [lrun, lstep, LState.start] at hs
  have := C70_blocked srv _ s l ⟨rfl, ⟨[], rfl⟩, rfl⟩ (by constructor <;> simp) ha hs
  exact this.1

/-- The queue of a server that is waiting for input. -/
example : ∃ s, lrun exampleServer (LState.start (St.init 0))
    [.reader, .post .toolsChanged, .notifier, .post .promptsChanged] = some s ∧ Blocked s ∧
      s.queue = [.reader, .notifier] := ⟨_, rfl, ⟨rfl, ⟨_, rfl⟩, rfl⟩, rfl⟩

theorem posted_append (a b : List LOp) : posted (a ++ b) = posted a ++ posted b := by
  induction a with
  | nil => rfl
  | cons x l ih => cases x <;> simp [posted, ih]

/-- No send of the notification task fails. (Specification: no counterpart in the code.) -/
def noFail (l : List LOp) : Prop := ∀ op ∈ l, op ≠ .notifierFail

theorem notes_step (srv : Srv W) (s s' : LState W) (op : LOp) (hf : op ≠ .notifierFail)
    (hs : lstep srv s op = some s') :
    notes s'.out ++ working s'.notifier ++ s'.chan = notes s.out ++ working s.notifier ++ s.chan ++ posted [op] := by
  cases op <;> simp only [lstep] at hs
  case arrive m => cases hs; simp [posted]
  case post n => cases hs; simp [posted]
  case reader =>
    split at hs
    · cases hs; simp [posted]
    · split at hs
      · split at hs <;> cases hs <;> simp [posted]
      · cases hs
    · split at hs <;> cases hs <;> simp [posted]
    · split at hs
      · cases hs; simp [posted, notes_append, notes]
      · cases hs
    · cases hs
  case readerFail =>
    split at hs <;> cases hs
    simp [posted]
  case notifier =>
    split at hs
    · next hn =>
      split at hs
      · cases hs
      · next n c hc => cases hs; simp [posted, working, hn, hc]
    · next n hn =>
      split at hs
      · cases hs; simp [posted, working, hn, notes_append, notes]
      · cases hs
  case notifierFail => exact absurd rfl hf

theorem notes_run (srv : Srv W) (s s' : LState W) (l : List LOp) (hf : noFail l) (hs : lrun srv s l = some s') :
    notes s'.out ++ working s'.notifier ++ s'.chan = notes s.out ++ working s.notifier ++ s.chan ++ posted l := by
  induction l generalizing s with
  | nil => simp only [lrun, Option.some.injEq] at hs; subst hs; simp [posted]
  | cons op l ih =>
    simp only [lrun] at hs
    cases h1 : lstep srv s op with
    | none => rw [h1] at hs; cases hs
    | some t =>
      rw [h1] at hs
      rw [ih t (fun o ho => hf o (List.mem_cons_of_mem _ ho)) hs, notes_step srv s t op (hf op (List.mem_cons_self ..)) h1,
        List.append_assoc, ← posted_append]
      rfl

/-- **C70**. If no send fails, the notifications written are an initial part of those queued, in their order:
none is lost, repeated or overtaken. -/
theorem C70_order (srv : Srv W) (st : St W) (l : List LOp) (s : LState W) (hf : noFail l)
    (h : lrun srv (LState.start st) l = some s) : notes s.out <+: posted l := by
  have := notes_run srv _ s l hf h
  rw [show notes (LState.start st).out ++ working (LState.start st).notifier ++ (LState.start st).chan = [] from rfl,
    List.nil_append] at this
  exact ⟨working s.notifier ++ s.chan, by rw [← this]; simp⟩

/-- **C70**. When no task can take a step, all notifications are written, or the reader is waiting for input
with the transport in its hands. Missing from the property: that case, which is `C70_blocked`. -/
theorem C70_delivered_partial (srv : Srv W) (st : St W) (l : List LOp) (s : LState W) (hf : noFail l)
    (h : lrun srv (LState.start st) l = some s) (hq : Quiet srv s) : notes s.out = posted l ∨ Blocked s := by
  have hok := qok_run srv _ s l (qok_start st) h
  have hn := notes_run srv _ s l hf h
  rw [show notes (LState.start st).out ++ working (LState.start st).notifier ++ (LState.start st).chan = [] from rfl,
    List.nil_append] at hn
  obtain ⟨hr, hno⟩ := hq
  simp only [lstep] at hr hno
  cases hb : s.notifier with
  | idle =>
    rw [hb] at hno
    cases hc : s.chan with
    | nil => left; rw [hb, hc] at hn; simpa [working] using hn
    | cons n c => rw [hc] at hno; simp at hno
  | busy n =>
    have hm := hok.notifier.mpr ⟨n, hb⟩
    rw [hb] at hno
    have hne : ∀ q, s.queue ≠ .notifier :: q := by
      intro q hq; rw [hq] at hno; simp at hno
    have hrd : ∃ q, s.queue = .reader :: q := by
      cases hq : s.queue with
      | nil => rw [hq] at hm; simp at hm
      | cons t q =>
        cases t with
        | reader => exact ⟨q, rfl⟩
        | notifier => exact absurd hq (hne q)
    obtain ⟨q, hq⟩ := hrd
    right
    rcases hok.reader.mp (by rw [hq]; simp) with hr1 | ⟨resp, hr1⟩
    · rw [hr1, hq] at hr
      refine ⟨hr1, ⟨q, hq⟩, ?_⟩
      cases hi : s.input with
      | nil => rfl
      | cons m i => rw [hi] at hr; cases m <;> simp at hr
    · rw [hr1, hq] at hr; simp at hr

/-- **C70**. A notification that waits while the reader holds the transport is the next thing written once a
message arrives: it is not overtaken by the response. -/
theorem C70_next_written (srv : Srv W) (s s' : LState W) (l : List LOp) (n : ServerNotification)
    (hq : s.queue = [.reader, .notifier] ∨ s.queue = [.notifier] ∨ s.queue = [.notifier, .reader])
    (hr : s.queue = [.reader, .notifier] → s.reader = .recv) (hok : QOk s)
    (hn : s.notifier = .busy n) (hf : noFail l) (hs : lrun srv s l = some s') :
    s'.out = s.out ∨ ∃ t, s'.out = s.out ++ .note n :: t := by
  have mono : ∀ (l : List LOp) (a b : LState W), lrun srv a l = some b → ∃ t, b.out = a.out ++ t := by
    intro l
    induction l with
    | nil => intro a b hab; simp only [lrun, Option.some.injEq] at hab; subst hab; exact ⟨[], by simp⟩
    | cons op l ih =>
      intro a b hab
      simp only [lrun] at hab
      cases h1 : lstep srv a op with
      | none => rw [h1] at hab; cases hab
      | some t =>
        rw [h1] at hab
        obtain ⟨u, hu⟩ := ih t b hab
        have : ∃ v, t.out = a.out ++ v := by
          cases op <;> simp only [lstep] at h1 <;> (repeat' split at h1) <;>
            first
            | cases h1; done
            | (cases h1; exact ⟨_, rfl⟩)
            | (cases h1; exact ⟨[], (List.append_nil _).symm⟩)
        obtain ⟨v, hv⟩ := this
        exact ⟨v ++ u, by rw [hu, hv]; simp⟩
  induction l generalizing s with
  | nil => simp only [lrun, Option.some.injEq] at hs; subst hs; exact Or.inl rfl
  | cons op l ih =>
    simp only [lrun] at hs
    cases h1 : lstep srv s op with
    | none => rw [h1] at hs; cases hs
    | some t =>
      rw [h1] at hs
      have hfl : noFail l := fun o ho => hf o (List.mem_cons_of_mem _ ho)
      have hokt := qok_step srv s t op hok h1
      have hop := hf op (List.mem_cons_self ..)
      -- either the notification is written now, or the shape is kept and nothing is written
      have key : (t.out = s.out ++ [.note n]) ∨ (t.out = s.out ∧ t.notifier = .busy n ∧
          (t.queue = [.reader, .notifier] ∨ t.queue = [.notifier] ∨ t.queue = [.notifier, .reader]) ∧
          (t.queue = [.reader, .notifier] → t.reader = .recv)) := by
        cases op <;> simp only [lstep] at h1
        case arrive m => cases h1; exact Or.inr ⟨rfl, hn, hq, hr⟩
        case post m => cases h1; exact Or.inr ⟨rfl, hn, hq, hr⟩
        case reader =>
          right
          have hnr : Task.reader ∉ s.queue → s.queue = [.notifier] := by
            intro h
            rcases hq with h' | h' | h'
            · rw [h'] at h; simp at h
            · exact h'
            · rw [h'] at h; simp at h
          split at h1
          · next hrd =>
            have := hnr (by rw [hok.reader, hrd]; simp)
            cases h1
            exact ⟨rfl, hn, by simp [this], fun _ => rfl⟩
          · next hrd =>
            split at h1
            · next q hqq =>
              have hq' : q = [.notifier] := by
                rcases hq with h' | h' | h' <;> rw [h'] at hqq <;> simp at hqq
                exact hqq.symm
              subst hq'
              split at h1
              · cases h1
              all_goals (cases h1; exact ⟨rfl, hn, by simp, by simp⟩)
            · cases h1
          · next id r hrd =>
            have := hnr (by rw [hok.reader, hrd]; simp)
            split at h1
            · cases h1; exact ⟨rfl, hn, by simp [this], by simp [this]⟩
            · cases h1; exact ⟨rfl, hn, by simp [this], by simp [this]⟩
          · next resp hrd =>
            split at h1
            · next q hqq =>
              rcases hq with h' | h' | h'
              · have := hr h'; rw [hrd] at this; cases this
              · rw [h'] at hqq; simp at hqq
              · rw [h'] at hqq; simp at hqq
            · cases h1
          · cases h1
        case readerFail =>
          split at h1
          · next resp q hrd hqq =>
            rcases hq with h' | h' | h'
            · have := hr h'; rw [hrd] at this; cases this
            · rw [h'] at hqq; simp at hqq
            · rw [h'] at hqq; simp at hqq
          · cases h1
        case notifier =>
          rw [hn] at h1
          simp only at h1
          split at h1
          · cases h1; exact Or.inl rfl
          · cases h1
        case notifierFail => exact absurd rfl hop
      rcases key with hk | ⟨ho, hn', hq', hr'⟩
      · obtain ⟨u, hu⟩ := mono l t s' hs
        exact Or.inr ⟨u, by rw [hu, hk]; simp⟩
      · have := ih t hq' hr' hokt hn' hfl hs
        rw [ho] at this
        exact this

/-- **C70**. The end of the reading task is final: no request is read or answered any more, whatever arrives; only
notifications are still written. -/
theorem C70_stopped (srv : Srv W) (s s' : LState W) (l : List LOp) (h : s.reader = .ended)
    (hs : lrun srv s l = some s') :
    s'.reader = .ended ∧ responseIds s'.out = responseIds s.out ∧ s'.st = s.st := by
  induction l generalizing s with
  | nil => simp only [lrun, Option.some.injEq] at hs; subst hs; exact ⟨h, rfl, rfl⟩
  | cons op l ih =>
    simp only [lrun] at hs
    cases h1 : lstep srv s op with
    | none => rw [h1] at hs; cases hs
    | some t =>
      rw [h1] at hs
      have : t.reader = .ended ∧ responseIds t.out = responseIds s.out ∧ t.st = s.st := by
        cases op <;> simp only [lstep, h] at h1
        case arrive m => cases h1; exact ⟨rfl, rfl, rfl⟩
        case post m => cases h1; exact ⟨rfl, rfl, rfl⟩
        case reader => cases h1
        case readerFail => cases h1
        case notifier =>
          split at h1
          · split at h1
            · cases h1
            · cases h1; exact ⟨rfl, rfl, rfl⟩
          · split at h1
            · cases h1; exact ⟨rfl, by simp [responseIds_append, responseIds], rfl⟩
            · cases h1
        case notifierFail =>
          split at h1
          · cases h1; exact ⟨rfl, rfl, rfl⟩
          · cases h1
      obtain ⟨a, b, c⟩ := ih t this.1 hs
      exact ⟨a, b.trans this.2.1, c.trans this.2.2⟩

/-- **C70** fails for one malformed message: receiving it ends the reading task, so (with `C70_stopped`) no
later request is ever answered; `run` itself goes on for ever (L504-508). -/
theorem C70_malformed (srv : Srv W) (s : LState W) (q : List Task) (i : List In) (hr : s.reader = .recv)
    (hq : s.queue = .reader :: q) (hi : s.input = .bad :: i) :
    ∃ s', lstep srv s .reader = some s' ∧ s'.reader = .ended := by
  exact ⟨_, by simp only [lstep, hr, hq, hi]; rfl, rfl⟩

/-- A request after a malformed message gets no answer in any schedule. -/
theorem C70_malformed_run (srv : Srv W) (st : St W) (l : List LOp) (s : LState W)
    (h : lrun srv (LState.start st) ([.reader, .arrive .bad, .reader] ++ l) = some s) : responseIds s.out = [] := by
  rw [lrun_append] at h
  simp only [lrun, lstep, LState.start, List.nil_append, Option.bind_some] at h
  exact (C70_stopped srv _ s l rfl h).2.1

/-- A panic in a tool ends the reading task in the same way. -/
theorem C70_panic (srv : Srv W) (s : LState W) (id : Id) (r : Request) (hr : s.reader = .handling id r)
    (hp : (handleRequest srv s.st id r).1 = none) :
    ∃ s', lstep srv s .reader = some s' ∧ s'.reader = .ended := by
  cases hh : handleRequest srv s.st id r with
  | mk o st' =>
    rw [hh] at hp; simp at hp; subst hp
    exact ⟨_, by simp only [lstep, hr, hh]; rfl, rfl⟩

/-- A schedule with two requests, a notification between them, and the answers. -/
example : ∃ s, lrun exampleServer (LState.start (St.init 0))
    [.reader, .post .toolsChanged, .notifier, .arrive (.request (.str "1") callFail), .reader, .notifier, .reader,
     .reader, .reader, .arrive (.request (.str "2") (.client .ping)), .reader, .reader, .reader, .reader] = some s ∧
      responseIds s.out = [.str "1", .str "2"] ∧ notes s.out = [.toolsChanged] := ⟨_, rfl, rfl, rfl⟩

/-- The history above, a notification written meanwhile, as a name for the cases below.
(Specification: no counterpart in the code.) -/
def sampleLoop : List LOp :=
  [.reader, .post .toolsChanged, .notifier, .arrive (.request (.str "1") callFail), .reader, .notifier, .reader,
    .reader, .reader, .arrive (.request (.str "2") (.client .ping)), .reader, .reader, .reader, .reader]

theorem sampleLoop_noFail : noFail sampleLoop := by
  intro op h
  simp only [sampleLoop, List.mem_cons, List.not_mem_nil, or_false] at h
  rcases h with rfl | rfl | rfl | rfl | rfl | rfl | rfl | rfl | rfl | rfl | rfl | rfl | rfl | rfl <;> simp

example := C63_loop_order exampleServer (St.init 0) sampleLoop _ rfl
example := C70_order exampleServer (St.init 0) sampleLoop _ sampleLoop_noFail rfl
example := C63_loop_terminates exampleServer (LState.start (St.init 0)) _ .reader rfl (by simp) (by simp)
/-- A line that is no message ends the reading task; nothing is answered afterwards. -/
example : ∃ s, lrun exampleServer (LState.start (St.init 0)) [.reader, .arrive .bad, .reader] = some s ∧ s.reader = .ended :=
  ⟨_, rfl, rfl⟩
example := C70_stopped exampleServer _ _ [.arrive (.request (.str "2") (.client .ping))]
  (show ((lrun exampleServer (LState.start (St.init 0)) [.reader, .arrive .bad, .reader]).get rfl).reader = .ended from rfl) rfl
example := C70_malformed exampleServer ((lrun exampleServer (LState.start (St.init 0)) [.reader, .arrive .bad]).get rfl) _ _
  rfl rfl rfl

/-- Both requests answered, the notification written, both tasks suspended: the hypotheses of `C63_loop_complete_partial`
and `C70_delivered_partial`. -/
example : ∃ s, lrun exampleServer (LState.start (St.init 0)) sampleLoop = some s ∧ Quiet exampleServer s ∧
    responseIds s.out = requestIds (arrivals sampleLoop) ∧
    (notes s.out = posted sampleLoop ∨ Blocked s) := by
  obtain ⟨s, hs, hq, he⟩ : ∃ s, lrun exampleServer (LState.start (St.init 0)) sampleLoop = some s ∧
      Quiet exampleServer s ∧ s.reader = .recv := by
    refine ⟨_, rfl, ?_, ?_⟩
    · exact ⟨rfl, rfl⟩
    · rfl
  exact ⟨s, hs, hq, C63_loop_complete_partial _ _ _ s hs hq (by rw [he]; simp),
    C70_delivered_partial _ _ _ s sampleLoop_noFail hs hq⟩

end Verif.Server
