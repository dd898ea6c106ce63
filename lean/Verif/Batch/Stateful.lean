import Verif.Common.ListExtra

/-
Batches whose handlers share a state: C225 and C226.

Models `process_batch_parallel_stateful`, /repo/src/utils/parallel_batch.rs L258-278, which runs
`process_batch_parallel` (L120-198) with handlers that reach a shared state through tokio's `RwLock`.  A handler is any
program that uses the lock again and again: between two suspensions it holds the lock once (or not at all) and turns the
shared state and its own into new ones, until it answers.  A task is dropped where it is when its time is up (L152-176);
tokio's `timeout` asks the handler before the clock, so a handler that gets to its answer is not timed out any more.
The order of the steps of the tasks is arbitrary. Not modelled: handlers that keep the lock over a suspension.
-/

namespace Verif.Batch.Stateful

/-- `ParallelBatchConfig`, /repo/src/utils/parallel_batch.rs L49-68. -/
structure Config where
  maxConcurrency : Nat
  failFast : Bool
  timeout : Option Nat

/-- The handler: where it begins with the request of an index, and what it does from one suspension to the next.
/repo/src/utils/parallel_batch.rs L258-278. -/
structure Handler (S L A : Type) where
  start : Nat → L
  go : L → S → S × (L ⊕ A)

/-- One future of the batch: waiting for a permit, in the handler, answered, or timed out (`none`).
/repo/src/utils/parallel_batch.rs L133-186. -/
inductive Task (L A : Type) where
  | waiting
  | running (l : L)
  | done (a : Option A)

/-- The futures, the free permits and the shared state. /repo/src/utils/parallel_batch.rs L133-186, L258-278. -/
structure State (S L A : Type) where
  tasks : List (Task L A)
  permits : Nat
  shared : S

/-- Task `i` gets a permit and calls the handler; its handler goes on to the next suspension; its time is up.
/repo/src/utils/parallel_batch.rs L143-183. -/
inductive Op where
  | start (i : Nat)
  | go (i : Nat)
  | timeout (i : Nat)
  deriving DecidableEq, Repr

variable {S L A : Type}

/-- The futures of a batch of `n` requests. /repo/src/utils/parallel_batch.rs L129-140. -/
def init (cfg : Config) (n : Nat) (s : S) : State S L A :=
  { tasks := List.replicate n .waiting, permits := cfg.maxConcurrency, shared := s }

/-- One step of one future; `none` if it is not possible. /repo/src/utils/parallel_batch.rs L143-183, L258-278.
`fail_fast` is not read. -/
def step (cfg : Config) (h : Handler S L A) (s : State S L A) : Op → Option (State S L A)
  | .start i => match s.tasks[i]? with
    | some .waiting =>
      if 0 < s.permits then
        some { s with tasks := s.tasks.set i (.running (h.start i)), permits := s.permits - 1 }
      else none
    | _ => none
  | .go i => match s.tasks[i]? with
    | some (.running l) => match h.go l s.shared with
      | (x, .inl l') => some { s with tasks := s.tasks.set i (.running l'), shared := x }
      | (x, .inr a) => some { tasks := s.tasks.set i (.done (some a)), permits := s.permits + 1, shared := x }
    | _ => none
  | .timeout i => match s.tasks[i]? with
    | some (.running _) =>
      if cfg.timeout.isSome then some { s with tasks := s.tasks.set i (.done none), permits := s.permits + 1 } else none
    | _ => none

/-- Any interleaving. (The futures of /repo/src/utils/parallel_batch.rs L133-186.) -/
def run (cfg : Config) (h : Handler S L A) : State S L A → List Op → Option (State S L A)
  | s, [] => some s
  | s, op :: r => match step cfg h s op with
    | none => none
    | some s' => run cfg h s' r

/-- What `process_batch_parallel_stateful` returns once every future is done: the answers in the order of the requests,
`none` for those timed out. /repo/src/utils/parallel_batch.rs L186-197. -/
def collect (s : State S L A) : Option (List (Option A)) :=
  s.tasks.mapM (fun | .done a => some a | _ => none)

end Verif.Batch.Stateful
