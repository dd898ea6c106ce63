/-
Model of `MessageBatcher`, `/repo/src/utils/batching.rs` L37-214.

`add` and the timer task both take the buffer under the lock, release the lock, and only then await
`tx.send(batch)`.  Between the two a batch is in flight, owned by one task.  Each critical section and
each completed channel operation is one step; every interleaving of steps is an execution.

A step that cannot happen (a task that is still awaiting cannot start another call, a send on a full
channel, a receive on an empty one) is `none`.
-/

namespace Verif.Batcher

variable {α : Type}

/-- Configuration: `max_batch_size` (/repo/src/utils/batching.rs L16) and the capacity of the channel,
which is the constant 100 in the code (L80). -/
structure Config where
  maxBatch : Nat
  cap : Nat := 100

/-- Tasks: the timer task spawned by `start_timer` (/repo/src/utils/batching.rs L163-177) and the tasks
calling `add`. -/
inductive Task where
  | timer
  | caller (id : Nat)
  deriving DecidableEq

/-- `pending` and the channel, /repo/src/utils/batching.rs L37-42; `inflight` are the batches taken out
of `pending` and not yet sent (L119-124, L170-172); `received` is what `receive_batch` returned. -/
structure State (α : Type) where
  pending : List α := []
  inflight : List (Task × List α) := []
  chan : List (List α) := []
  received : List (List α) := []
  deriving DecidableEq

/-- Steps.  `sent t`: the `send().await` of task `t` completes.  `dropped t`: the future of task `t` is
dropped while it awaits (a caller wraps `add` in a timeout or `select!`, or the runtime shuts down).
/repo/src/utils/batching.rs L113-214. -/
inductive Op (α : Type) where
  | add (id : Nat) (n : α)
  | tick
  | sent (t : Task)
  | recv
  | dropped (t : Task)
  deriving DecidableEq

/-- The task is awaiting its send. (The await on `send`, /repo/src/utils/batching.rs L118-123, L170-174.) -/
def busy (s : State α) (t : Task) : Bool := s.inflight.any (fun p => decide (p.1 = t))

/-- The batch in flight of task `t`. (The batch moved into the await on `send`, /repo/src/utils/batching.rs
L118-123, L170-174.) -/
def batchOf (s : State α) (t : Task) : Option (List α) :=
  (s.inflight.find? (fun p => decide (p.1 = t))).map Prod.snd

/-- Everything in flight except the batch of task `t`. (The other awaits on `send`,
/repo/src/utils/batching.rs L118-123, L170-174.) -/
def without (s : State α) (t : Task) : List (Task × List α) :=
  s.inflight.filter (fun p => !decide (p.1 = t))

/-- `MessageBatcher::add`, /repo/src/utils/batching.rs L113-130, up to the send. -/
def addStep (c : Config) (s : State α) (id : Nat) (n : α) : Option (State α) :=
  if busy s (.caller id) then none
  else
    let pending := s.pending ++ [n]
    if pending.length ≥ c.maxBatch then
      some { s with pending := [], inflight := s.inflight ++ [(.caller id, pending)] }
    else some { s with pending := pending }

/-- One round of the timer task, /repo/src/utils/batching.rs L166-172, up to the send. -/
def tickStep (s : State α) : Option (State α) :=
  if busy s .timer then none
  else if s.pending.isEmpty then some s
  else some { s with pending := [], inflight := s.inflight ++ [(.timer, s.pending)] }

/-- Completion of `tx.send(batch).await`, /repo/src/utils/batching.rs L121-124, L172. -/
def sentStep (c : Config) (s : State α) (t : Task) : Option (State α) :=
  match batchOf s t with
  | none => none
  | some b =>
    if s.chan.length < c.cap then
      some { s with inflight := without s t, chan := s.chan ++ [b] }
    else none

/-- `receive_batch`, /repo/src/utils/batching.rs L212-214. -/
def recvStep (s : State α) : Option (State α) :=
  match s.chan with
  | [] => none
  | b :: rest => some { s with chan := rest, received := s.received ++ [b] }

/-- Dropping the future of a task that awaits its send, /repo/src/utils/batching.rs L121-124: the batch
is dropped with it.  A send waits only while the channel is full. -/
def droppedStep (c : Config) (s : State α) (t : Task) : Option (State α) :=
  if busy s t ∧ c.cap ≤ s.chan.length then some { s with inflight := without s t } else none

/-- One step. /repo/src/utils/batching.rs L113-214. -/
def step (c : Config) (s : State α) : Op α → Option (State α)
  | .add id n => addStep c s id n
  | .tick => tickStep s
  | .sent t => sentStep c s t
  | .recv => recvStep s
  | .dropped t => droppedStep c s t

/-- An execution. (Any interleaving of the sections of /repo/src/utils/batching.rs L113-214.) -/
def run (c : Config) (s : State α) : List (Op α) → Option (State α)
  | [] => some s
  | op :: rest =>
    match step c s op with
    | none => none
    | some s' => run c s' rest

/-- Calls executed one after another: `add` and a timer round include their send. /repo/src/utils/batching.rs
L113-214. -/
inductive Call (α : Type) where
  | add (n : α)
  | tick
  | recv
  deriving DecidableEq

/-- Finish the send of a task if it has one. (/repo/src/utils/batching.rs L118-123, L170-174.) -/
def finish (c : Config) (s : State α) (t : Task) : Option (State α) :=
  if busy s t then sentStep c s t else some s

/-- One call run to completion; `none` when it would block. /repo/src/utils/batching.rs L113-214. -/
def callStep (c : Config) (s : State α) : Call α → Option (State α)
  | .add n => (addStep c s 0 n).bind (fun s' => finish c s' (.caller 0))
  | .tick => (tickStep s).bind (fun s' => finish c s' .timer)
  | .recv => recvStep s

/-- A sequential history. (Calls of /repo/src/utils/batching.rs L113-214.) -/
def runCalls (c : Config) (s : State α) : List (Call α) → Option (State α)
  | [] => some s
  | op :: rest => (callStep c s op).bind (fun s' => runCalls c s' rest)

end Verif.Batcher
