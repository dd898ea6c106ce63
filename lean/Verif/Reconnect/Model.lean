/-
Model of `/repo/src/shared/reconnect.rs` (`ReconnectManager`).  Times are natural numbers (the
monotonic clock `Instant`).  Each method is one atomic step; the counters are unbounded (`u32` in the
code).  Callbacks are outputs.
-/

namespace Verif.Reconnect

/-- `ConnectionState`, /repo/src/shared/reconnect.rs L63-78. -/
inductive Conn where
  | disconnected | connecting | connected | waitingRetry | circuitOpen
  deriving DecidableEq, Repr

/-- `ReconnectConfig` without the delay parameters, /repo/src/shared/reconnect.rs L16-43. -/
structure Config where
  maxRetries : Option Nat
  resetOnSuccess : Bool
  successThreshold : Nat
  threshold : Option Nat
  cbTimeout : Nat

/-- `ReconnectManager`, /repo/src/shared/reconnect.rs L81-114. -/
structure State where
  st : Conn := .disconnected
  retry : Nat := 0
  failures : Nat := 0
  attempts : Nat := 0
  successes : Nat := 0
  lastSuccess : Option Nat := none
  openedAt : Option Nat := none
  enabled : Bool := true
  deriving DecidableEq, Repr

/-- Callbacks of `ReconnectCallbacks`, as observed by the user. /repo/src/shared/reconnect.rs L146-173. -/
inductive Callback where
  | connecting (attempt : Nat)
  | connected
  | failed
  | circuitOpen
  | circuitClose
  deriving DecidableEq, Repr

/-- `should_reconnect`, /repo/src/shared/reconnect.rs L209-247.  Returns the decision and the
callbacks it runs. -/
def shouldReconnect (cfg : Config) (s : State) (now : Nat) : State × Bool × List Callback :=
  if s.enabled = false then (s, false, [])
  else match s.st with
    | .connected | .connecting => (s, false, [])
    | .circuitOpen =>
      match s.openedAt with
      | some t =>
        if now - t ≥ cfg.cbTimeout then
          ({ s with openedAt := none, st := .disconnected }, true, [.circuitClose])
        else (s, false, [])
      | none => (s, false, [])
    | _ =>
      match cfg.maxRetries with
      | some m => (s, decide (s.retry < m), [])
      | none => (s, true, [])

/-- `on_connecting`, /repo/src/shared/reconnect.rs L281-292. -/
def onConnecting (s : State) : State × List Callback :=
  ({ s with st := .connecting, attempts := s.attempts + 1 }, [.connecting s.retry])

/-- `on_connected`, /repo/src/shared/reconnect.rs L295-311. -/
def onConnected (cfg : Config) (s : State) (now : Nat) : State × List Callback :=
  ({ s with
      st := .connected, lastSuccess := some now, successes := s.successes + 1, failures := 0
      retry := if cfg.resetOnSuccess then 0 else s.retry }, [.connected])

/-- Does the next failure reach the circuit breaker threshold?  /repo/src/shared/reconnect.rs L323-324. -/
def reaches (cfg : Config) (failures : Nat) : Bool :=
  match cfg.threshold with
  | some k => decide (failures ≥ k)
  | none => false

/-- `on_connection_failed`, /repo/src/shared/reconnect.rs L314-339. -/
def onFailed (cfg : Config) (s : State) (now : Nat) : State × List Callback :=
  if reaches cfg (s.failures + 1) then
    ({ s with st := .circuitOpen, retry := s.retry + 1, failures := s.failures + 1
              openedAt := some now }, [.circuitOpen, .failed])
  else
    ({ s with st := .waitingRetry, retry := s.retry + 1, failures := s.failures + 1 }, [.failed])

/-- Was the connection that ends at `now` long-lived?  /repo/src/shared/reconnect.rs L344-352. -/
def longLived (cfg : Config) (s : State) (now : Nat) : Bool :=
  match s.lastSuccess with
  | some t => decide (s.st = .connected) && decide (now - t ≥ cfg.successThreshold)
  | none => false

/-- `on_disconnected`, /repo/src/shared/reconnect.rs L342-358. -/
def onDisconnected (cfg : Config) (s : State) (now : Nat) : State :=
  { s with st := .disconnected, retry := if longLived cfg s now then 0 else s.retry }

/-- `reset`, /repo/src/shared/reconnect.rs L407-410. -/
def reset (s : State) : State := { s with retry := 0, failures := 0 }

/-- `set_enabled`, /repo/src/shared/reconnect.rs L199-201. -/
def setEnabled (s : State) (b : Bool) : State := { s with enabled := b }

/-- Method calls, with the time at which they happen. /repo/src/shared/reconnect.rs L199-359, L407-412. -/
inductive Op where
  | should (now : Nat)
  | connecting
  | connected (now : Nat)
  | failed (now : Nat)
  | disconnected (now : Nat)
  | reset
  | enable (b : Bool)
  deriving DecidableEq

/-- One method call; the answer of `should_reconnect` and the callbacks run. /repo/src/shared/reconnect.rs
L199-359, L407-412. -/
def step (cfg : Config) (s : State) : Op → State × Option Bool × List Callback
  | .should now => let r := shouldReconnect cfg s now; (r.1, some r.2.1, r.2.2)
  | .connecting => let r := onConnecting s; (r.1, none, r.2)
  | .connected now => let r := onConnected cfg s now; (r.1, none, r.2)
  | .failed now => let r := onFailed cfg s now; (r.1, none, r.2)
  | .disconnected now => (onDisconnected cfg s now, none, [])
  | .reset => (Reconnect.reset s, none, [])
  | .enable b => (setEnabled s b, none, [])

/-- State after a history of calls. (Calls of /repo/src/shared/reconnect.rs L199-412.) -/
def run (cfg : Config) (s : State) (ops : List Op) : State :=
  ops.foldl (fun s op => (step cfg s op).1) s

/-- How a call of `reconnect_with` ends. /repo/src/shared/reconnect.rs L361-394. -/
inductive Outcome where
  | ok | refused | lastError | running
  deriving DecidableEq, Repr

/-- One round of the loop: what `connect` returns and the times of the first check, of the result,
and of the second check. /repo/src/shared/reconnect.rs L361-394. -/
structure Round where
  ok : Bool
  t1 : Nat
  t2 : Nat
  t3 : Nat

/-- `reconnect_with`, /repo/src/shared/reconnect.rs L361-394.  The list gives what the environment does
in each round; `running` means that the list ended before the loop did. -/
def reconnectWith (cfg : Config) (s : State) : List Round → State × Outcome × List Callback
  | [] => (s, .running, [])
  | r :: rs =>
    let a := shouldReconnect cfg s r.t1
    if a.2.1 = false then (a.1, .refused, a.2.2)
    else
      let b := onConnecting a.1
      if r.ok then
        let c := onConnected cfg b.1 r.t2
        (c.1, .ok, a.2.2 ++ b.2 ++ c.2)
      else
        let c := onFailed cfg b.1 r.t2
        let d := shouldReconnect cfg c.1 r.t3
        if d.2.1 = false then (d.1, .lastError, a.2.2 ++ b.2 ++ c.2 ++ d.2.2)
        else
          let e := reconnectWith cfg d.1 rs
          (e.1, e.2.1, a.2.2 ++ b.2 ++ c.2 ++ d.2.2 ++ e.2.2)

end Verif.Reconnect
