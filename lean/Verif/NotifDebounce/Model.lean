import Verif.Common.AMap
import Verif.Common.Decimal

/-
Model of `NotificationDebouncer` and `NotificationBatcher`, `/repo/src/server/notification_debouncer.rs`.

`submit`, one round of the flush task and `flush` are each one critical section under the write lock and
one step.  `flush_pending` (L239-292) releases the lock before it sends; since the flush task is the only
one that runs it, this affects only the order between its output and that of a concurrent `flush`, and
the order of the output is not modelled (it also depends on the iteration order of a `HashMap`).  The
output channel is assumed to be open and drained.
-/

namespace Verif.NotifDebounce

/-- Strings. (Keys of /repo/src/server/notification_debouncer.rs L57-81, L221-236.) -/
abbrev Text := List Char

/-- `ProgressToken`, /repo/src/types/protocol.rs L518-523. -/
inductive Token where
  | str (s : Text)
  | num (i : Int)
  deriving DecidableEq

/-- `ServerNotification`, /repo/src/types/protocol.rs L715-739.  The parts that do not enter the key
(progress value and message, log record) are one number. -/
inductive Notif where
  | progress (t : Token) (body : Nat)
  | tools
  | prompts
  | resources
  | roots
  | updated (uri : Text)
  | log (body : Nat)
  deriving DecidableEq

/-- Part of a key, /repo/src/server/notification_debouncer.rs L224. -/
def kProgress : Text := "progress:".toList
/-- Part of a key, /repo/src/server/notification_debouncer.rs L227. -/
def kUpdated : Text := "resource_updated:".toList
/-- A key, /repo/src/server/notification_debouncer.rs L229. -/
def kResources : Text := "resource_list_changed".toList
/-- A key, /repo/src/server/notification_debouncer.rs L230. -/
def kTools : Text := "tool_list_changed".toList
/-- A key, /repo/src/server/notification_debouncer.rs L231. -/
def kPrompts : Text := "prompt_list_changed".toList
/-- A key, /repo/src/server/notification_debouncer.rs L233. -/
def kUnknown : Text := "unknown".toList

/-- The derived `Debug` of a progress token, /repo/src/server/notification_debouncer.rs L224. -/
def kStr : Text := "String(\"".toList
/-- The derived `Debug` of a progress token, /repo/src/server/notification_debouncer.rs L224. -/
def kStrEnd : Text := "\")".toList
/-- The derived `Debug` of a progress token, /repo/src/server/notification_debouncer.rs L224. -/
def kNum : Text := "Number(".toList
/-- The derived `Debug` of a progress token, /repo/src/server/notification_debouncer.rs L224. -/
def kNumEnd : Text := ")".toList

/-- `{:?}` of a `ProgressToken` (derived `Debug`, /repo/src/types/protocol.rs L516).  `esc` is the
escaping applied by `Debug` for `str`; it is a parameter. -/
def debugToken (esc : Text → Text) : Token → Text
  | .str s => kStr ++ (esc s ++ kStrEnd)
  | .num i => kNum ++ (Decimal.showInt i ++ kNumEnd)

/-- `notification_key`, /repo/src/server/notification_debouncer.rs L221-235. -/
def key (esc : Text → Text) : Notif → Text
  | .progress t _ => kProgress ++ debugToken esc t
  | .updated uri => kUpdated ++ uri
  | .resources => kResources
  | .tools => kTools
  | .prompts => kPrompts
  | .roots => kUnknown
  | .log _ => kUnknown

/-- `NotificationDebouncerConfig`, /repo/src/server/notification_debouncer.rs L18-33. -/
structure Config where
  defaultInterval : Nat
  typeIntervals : AMap Text Nat
  maxBatch : Nat
  merging : Bool
  maxWait : Nat

/-- A key of the default intervals, /repo/src/server/notification_debouncer.rs L40. -/
def nResources : Text := "resources/list_changed".toList
/-- A key of the default intervals, /repo/src/server/notification_debouncer.rs L43. -/
def nProgress : Text := "progress".toList
/-- A key of the default intervals, /repo/src/server/notification_debouncer.rs L44. -/
def nLog : Text := "log".toList

/-- `Default`, /repo/src/server/notification_debouncer.rs L35-54 (milliseconds). -/
def Config.default : Config where
  defaultInterval := 250
  typeIntervals := [(nResources, 500), (nProgress, 100), (nLog, 50)]
  maxBatch := 100
  merging := true
  maxWait := 5000

/-- `PendingNotification`, /repo/src/server/notification_debouncer.rs L65-81. -/
structure Pending where
  notif : Notif
  first : Nat
  last : Nat
  count : Nat
  mergeable : List Notif
  deriving DecidableEq

/-- The debouncer and everything sent so far. /repo/src/server/notification_debouncer.rs L57-81. -/
structure State where
  pending : AMap Text Pending := []
  out : List Notif := []
  deriving DecidableEq

/-- The entry after another submission for its key, /repo/src/server/notification_debouncer.rs
L144-156. -/
def update (c : Config) (p : Pending) (now : Nat) (n : Notif) : Pending :=
  let p := { p with last := now, count := p.count + 1 }
  if c.merging then
    if p.mergeable.length < c.maxBatch then { p with mergeable := p.mergeable ++ [n] } else p
  else { p with notif := n }

/-- `submit`, /repo/src/server/notification_debouncer.rs L137-172. -/
def submit (esc : Text → Text) (c : Config) (s : State) (now : Nat) (n : Notif) : State :=
  match AMap.get s.pending (key esc n) with
  | some p => { s with pending := AMap.insert s.pending (key esc n) (update c p now n) }
  | none => { s with pending := AMap.insert s.pending (key esc n) ⟨n, now, now, 1, []⟩ }

/-- The interval of a key, /repo/src/server/notification_debouncer.rs L252-256. -/
def interval (c : Config) (k : Text) : Nat := (AMap.get c.typeIntervals k).getD c.defaultInterval

/-- `should_flush`, /repo/src/server/notification_debouncer.rs L258-262 (`Instant::duration_since`
saturates at zero). -/
def due (c : Config) (now : Nat) (k : Text) (p : Pending) : Bool :=
  decide (now - p.last ≥ interval c k) || decide (now - p.first ≥ c.maxWait)

/-- Everything an entry sends, /repo/src/server/notification_debouncer.rs L280-291, L302-308. -/
def sends (p : Pending) : List Notif := p.notif :: p.mergeable

/-- `flush_pending`, /repo/src/server/notification_debouncer.rs L239-292. -/
def tick (c : Config) (s : State) (now : Nat) : State where
  pending := s.pending.filter (fun e => !due c now e.1 e.2)
  out := s.out ++ (s.pending.filter (fun e => due c now e.1 e.2)).flatMap (fun e => sends e.2)

/-- `flush` and `flush_all`, /repo/src/server/notification_debouncer.rs L175-178, L295-310. -/
def flush (s : State) : State :=
  { s with out := s.out ++ s.pending.flatMap (fun e => sends e.2) }

/-- Calls and timer rounds. /repo/src/server/notification_debouncer.rs L98-179. -/
inductive Op where
  | submit (now : Nat) (n : Notif)
  | tick (now : Nat)
  | flush
  deriving DecidableEq

/-- One step. /repo/src/server/notification_debouncer.rs L98-179, L239-310. -/
def step (esc : Text → Text) (c : Config) (s : State) : Op → State
  | .submit now n => submit esc c s now n
  | .tick now => tick c s now
  | .flush => flush s

/-- A history. (Calls of /repo/src/server/notification_debouncer.rs L98-179.) -/
def run (esc : Text → Text) (c : Config) (s : State) (h : List Op) : State := h.foldl (step esc c) s

/-- `stats`, /repo/src/server/notification_debouncer.rs L181-194: entries, the sum of their counts, the
age of the oldest. -/
def stats (s : State) (now : Nat) : Nat × Nat × Nat :=
  (s.pending.length, (s.pending.map (fun e => e.2.count)).sum,
    (s.pending.map (fun e => now - e.2.first)).foldl max 0)

/-! ### `NotificationBatcher` -/

/-- State of the batcher, /repo/src/server/notification_debouncer.rs L313-325: the batches by key; full
batches whose send is not finished (the lock is released before it, L353-356); the number of timeout
tasks running per key (L363-373); batches sent. -/
structure BState where
  batches : AMap Text (List Notif) := []
  inflight : List (List Notif) := []
  timeouts : List Text := []
  out : List (List Notif) := []
  deriving DecidableEq

/-- Steps: `add`, the completed send of the `i`-th full batch, a timeout for a key, `flush`.
/repo/src/server/notification_debouncer.rs L343-400. -/
inductive BOp where
  | add (n : Notif)
  | sent (i : Nat)
  | timeout (k : Text)
  | flush
  deriving DecidableEq

/-- One step of the batcher. /repo/src/server/notification_debouncer.rs L343-400. -/
def bstep (esc : Text → Text) (maxBatch : Nat) (s : BState) : BOp → BState
  -- /repo/src/server/notification_debouncer.rs L343-376
  | .add n =>
    let k := key esc n
    let batch := (AMap.get s.batches k).getD [] ++ [n]
    if batch.length ≥ maxBatch then
      { s with batches := AMap.insert s.batches k [], inflight := s.inflight ++ [batch] }
    else { s with batches := AMap.insert s.batches k batch, timeouts := s.timeouts ++ [k] }
  -- /repo/src/server/notification_debouncer.rs L356
  | .sent i =>
    match s.inflight[i]? with
    | none => s
    | some b => { s with inflight := s.inflight.eraseIdx i, out := s.out ++ [b] }
  -- /repo/src/server/notification_debouncer.rs L363-373
  | .timeout k =>
    if k ∈ s.timeouts then
      match AMap.get s.batches k with
      | none => { s with timeouts := s.timeouts.erase k }
      | some b =>
        { s with
          timeouts := s.timeouts.erase k
          batches := AMap.remove s.batches k
          out := if b.isEmpty then s.out else s.out ++ [b] }
    else s
  -- /repo/src/server/notification_debouncer.rs L379-389
  | .flush =>
    { s with batches := [], out := s.out ++ (s.batches.map Prod.snd).filter (fun b => !b.isEmpty) }

/-- A history of the batcher. (Calls of /repo/src/server/notification_debouncer.rs L343-400.) -/
def brun (esc : Text → Text) (maxBatch : Nat) (s : BState) (h : List BOp) : BState :=
  h.foldl (bstep esc maxBatch) s

end Verif.NotifDebounce
