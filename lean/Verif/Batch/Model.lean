import Verif.Common.Sub
import Verif.Ids.Model
import Verif.Reconnect.Delay

/-
Model of `/repo/src/utils/parallel_batch.rs`, `/repo/src/shared/batch.rs` and
`/repo/src/server/batch.rs`.

The futures driven by `join_all` are tasks; a schedule is a list of steps (a task acquires a permit and
calls the handler; the handler answers; the timeout of a task fires).  The order of the steps is
arbitrary.  What handlers answer is part of the schedule.
-/

namespace Verif.Batch

open Verif.Ids

/-- `JSONRPCRequest`, /repo/src/types/jsonrpc.rs (method and params are opaque). L115-126. -/
structure Req where
  id : RequestId
  method : List Char
  params : Nat
  deriving DecidableEq

/-- `ResponsePayload`, /repo/src/types/jsonrpc.rs (the result value is opaque). L216-223. -/
inductive Payload where
  | result (v : Nat)
  | error (code : Int) (message : List Char)
  deriving DecidableEq

/-- `JSONRPCResponse`, /repo/src/types/jsonrpc.rs. L203-214. -/
structure Resp where
  id : RequestId
  payload : Payload
  deriving DecidableEq

/-- The state of one future of the batch. /repo/src/utils/parallel_batch.rs L133-186. -/
inductive Task where
  | waiting
  | running
  | done (r : Resp)
  deriving DecidableEq

/-- `ParallelBatchConfig`, /repo/src/utils/parallel_batch.rs L49-58 (`fail_fast` is never read). -/
structure Config where
  maxConcurrency : Nat
  timeout : Bool

/-- A batch being processed: the futures with their index and request, and the semaphore.
/repo/src/utils/parallel_batch.rs L133-186. -/
structure State where
  tasks : List (Nat × Req × Task)
  permits : Nat

/-- Start of `process_batch_parallel`, /repo/src/utils/parallel_batch.rs L129-137. -/
def init (cfg : Config) (reqs : List Req) : State :=
  ⟨reqs.zipIdx.map (fun p => (p.2, p.1, .waiting)), cfg.maxConcurrency⟩

/-- Response for a timed-out request, /repo/src/utils/parallel_batch.rs L161-174: its id is the string
`null`, not the id of the request. -/
def timeoutResp : Resp := ⟨.str "null".toList, .error (-32603) "Request timeout".toList⟩

/-- Steps of the schedule. They stand for the suspension points of /repo/src/utils/parallel_batch.rs L133-186. -/
inductive Step where
  | start (i : Nat)
  | answer (i : Nat) (r : Resp)
  | timeout (i : Nat)
  deriving DecidableEq

/-- The state of task `i`. (A field of the state standing for the futures of
/repo/src/utils/parallel_batch.rs L133-186.) -/
def taskAt (s : State) (i : Nat) : Option Task := (s.tasks[i]?).map (·.2.2)

/-- Replace the state of task `i`. (The futures of /repo/src/utils/parallel_batch.rs L133-186.) -/
def setTask (s : State) (i : Nat) (t : Task) : List (Nat × Req × Task) :=
  s.tasks.modify i (fun x => (x.1, x.2.1, t))

/-- One step of one future, /repo/src/utils/parallel_batch.rs L143-183; `none` if the step is not
possible in this state. -/
def step (cfg : Config) (s : State) : Step → Option State
  | .start i =>
    if taskAt s i = some .waiting ∧ 0 < s.permits then some ⟨setTask s i .running, s.permits - 1⟩
    else none
  | .answer i r =>
    if taskAt s i = some .running then some ⟨setTask s i (.done r), s.permits + 1⟩ else none
  | .timeout i =>
    if taskAt s i = some .running ∧ cfg.timeout = true then
      some ⟨setTask s i (.done timeoutResp), s.permits + 1⟩
    else none

/-- Run a schedule; `none` if some step was not possible. (The executor running the futures of
/repo/src/utils/parallel_batch.rs L133-186.) -/
def runFrom (cfg : Config) (s : State) : List Step → Option State
  | [] => some s
  | x :: xs => match step cfg s x with
    | some s' => runFrom cfg s' xs
    | none => none

/-- Insert by index, keeping equal keys in order. (The stable sort of /repo/src/utils/parallel_batch.rs
L188-196.) -/
def insertByIndex (x : Nat × Resp) : List (Nat × Resp) → List (Nat × Resp)
  | [] => [x]
  | y :: ys => if x.1 ≤ y.1 then x :: y :: ys else y :: insertByIndex x ys

/-- `sort_by_key(|(index, _)| *index)`, /repo/src/utils/parallel_batch.rs L189 (stable sort). -/
def sortByIndex : List (Nat × Resp) → List (Nat × Resp)
  | [] => []
  | x :: xs => insertByIndex x (sortByIndex xs)

/-- What `join_all` returns when every future is done, /repo/src/utils/parallel_batch.rs L186. -/
def joined : List (Nat × Req × Task) → Option (List (Nat × Resp))
  | [] => some []
  | (i, _, .done r) :: ts => (joined ts).map ((i, r) :: ·)
  | _ :: _ => none

/-- End of `process_batch_parallel`, /repo/src/utils/parallel_batch.rs L186-197.  `none` while some
future is not done. -/
def collect (s : State) : Option (List Resp) :=
  (joined s.tasks).map (fun l => (sortByIndex l).map (·.2))

/-- `process_batch_parallel` under a schedule, /repo/src/utils/parallel_batch.rs L120-198. -/
def processParallel (cfg : Config) (reqs : List Req) (sched : List Step) : Option (List Resp) :=
  if reqs = [] then some []
  else (runFrom cfg (init cfg reqs) sched).bind collect

/-- `BatchRequest`, /repo/src/shared/batch.rs L14-19. -/
inductive BatchRequest where
  | single (r : Req)
  | batch (rs : List Req)

/-- `BatchResponse`, /repo/src/shared/batch.rs L24-29. -/
inductive BatchResponse where
  | single (r : Resp)
  | batch (rs : List Resp)
  deriving DecidableEq

/-- `into_requests`, /repo/src/shared/batch.rs L50-55. -/
def BatchRequest.requests : BatchRequest → List Req
  | .single r => [r]
  | .batch rs => rs

/-- `into_responses`, /repo/src/shared/batch.rs L95-100. -/
def BatchResponse.responses : BatchResponse → List Resp
  | .single r => [r]
  | .batch rs => rs

/-- `from_responses`, /repo/src/shared/batch.rs L80-86. -/
def fromResponses : List Resp → BatchResponse
  | [] => .batch []
  | [r] => .single r
  | rs => .batch rs

/-- `ParallelBatchConfig::default`, /repo/src/utils/parallel_batch.rs L60-68. -/
def defaultConfig : Config := ⟨10, true⟩

/-- `process_batch_request`, /repo/src/shared/batch.rs L107-136: a single request is passed to the
handler directly (`direct` is its answer), several are processed in parallel. -/
def processBatch (b : BatchRequest) (direct : Req → Resp) (sched : List Step) : Option BatchResponse :=
  match b.requests with
  | [] => some (.batch [])
  | [r] => some (fromResponses [direct r])
  | rs => (processParallel defaultConfig rs sched).map fromResponses

/-- The handler of `Server::handle_batch_request`, /repo/src/server/batch.rs L19-41.  `parse` is
`parse_request` (opaque request value or error text), `handle` is `Server::handle_request`. -/
def serverHandler (parse : Req → Except (List Char) Nat) (handle : RequestId → Nat → Resp)
    (r : Req) : Resp :=
  match parse r with
  | .ok x => handle r.id x
  | .error e => ⟨r.id, .error (-32700) ("Parse error: ".toList ++ e)⟩

/-! ### Metrics -/

/-- `BatchMetrics`, /repo/src/utils/parallel_batch.rs L362-380. -/
structure Metrics where
  total : Nat := 0
  success : Nat := 0
  errors : Nat := 0
  timeouts : Nat := 0
  avg : Reconnect.F := .fin 0
  maxTime : Nat := 0

/-- How a response is counted, /repo/src/utils/parallel_batch.rs L418-431. -/
def countOne (m : Metrics) (r : Resp) : Metrics :=
  match r.payload with
  | .result _ => { m with success := m.success + 1 }
  | .error _ msg =>
    if hasSub "timeout".toList msg then { m with timeouts := m.timeouts + 1 }
    else { m with errors := m.errors + 1 }

/-- `f64` addition of non-negative values. (/repo/src/utils/parallel_batch.rs L433-437.) -/
def fadd : Reconnect.F → Reconnect.F → Reconnect.F
  | .nan, _ => .nan
  | _, .nan => .nan
  | .inf, _ => .inf
  | _, .inf => .inf
  | .fin a, .fin b => Reconnect.F.ofRat (a + b)

/-- `f64` division by a number of requests: `0 / 0` is NaN, `x / 0` infinite.
(/repo/src/utils/parallel_batch.rs L437.) -/
def fdivNat : Reconnect.F → Nat → Reconnect.F
  | .nan, _ => .nan
  | .inf, _ => .inf
  | .fin a, 0 => if a = 0 then .nan else .inf
  | .fin a, n + 1 => .fin (a / ((n + 1 : Nat) : Rat))

/-- The update of `BatchProcessor::process`, /repo/src/utils/parallel_batch.rs L404-440, for a batch of
`n` requests with these responses that took `ms` milliseconds (one critical section under the write
lock). -/
def record (m : Metrics) (n : Nat) (rs : List Resp) (ms : Nat) : Metrics :=
  let m1 : Metrics := { m with total := m.total + n, maxTime := max m.maxTime ms }
  let m2 := rs.foldl countOne m1
  let totalTime := fadd (m2.avg.mul (.fin ((m2.total - n : Nat) : Rat))) (.fin (ms : Rat))
  { m2 with avg := fdivNat totalTime m2.total }

/-- Calls on a batch processor: a batch was processed, or the metrics were reset
(/repo/src/utils/parallel_batch.rs L457-459). -/
inductive MOp where
  | processed (n : Nat) (rs : List Resp) (ms : Nat)
  | reset

/-- Metrics after a call. /repo/src/utils/parallel_batch.rs L395-459. -/
def mstep (m : Metrics) : MOp → Metrics
  | .processed n rs ms => record m n rs ms
  | .reset => {}

/-! ### Rate limiting -/

/-- `rate_limited_processor`, /repo/src/utils/parallel_batch.rs L490-513: `n` permits, each held for
`1/n` second while its request waits.  Time is counted in units of `1/n` second.  A schedule assigns
to every request the time at which it acquires a permit; it is possible if at no time more than `n`
permits are held. -/
def rateOk (n : Nat) (acquired : List Nat) : Prop :=
  ∀ t, (acquired.filter (fun a => decide (a ≤ t ∧ t < a + 1))).length ≤ n

/-- Requests released in the window `[t, t + w)`: a request is released one unit after its permit was
acquired. (/repo/src/utils/parallel_batch.rs L490-512.) -/
def releasedIn (acquired : List Nat) (t w : Nat) : Nat :=
  (acquired.filter (fun a => decide (t ≤ a + 1 ∧ a + 1 < t + w))).length

end Verif.Batch
