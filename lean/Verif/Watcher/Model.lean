import Verif.Common.AMap
import Verif.Common.ASet

/-
The resource watcher.

Models /repo/src/server/resource_watcher.rs L57-165 and L187-388 with the feature `resource-watcher`, after one
`start()`. Two tasks run: the forwarder (`watch_filesystem`) and the processor (`process_events`). Each stretch without
a suspension point that other tasks could observe is one step; a list of steps is any interleaving of the operating
system, both tasks and callers. Paths, patterns and URIs are of any type; `glob`, `strip_prefix` and the rendering of a
path as URI are arbitrary functions. Times are natural numbers.
-/

namespace Verif.Watcher

open Verif

/-- What the processor needs to know of `FileEventKind` (L69-75): it only logs it. -/
inductive Kind where
  | created
  | modified
  | deleted
  | other
  deriving DecidableEq, Repr

/-- `FileEvent`, L57-66, without the kind, which is only logged (L150). -/
structure Ev (P : Type) where
  path : P
  ts : Nat
  deriving DecidableEq, Repr

/-- `WatchConfig` (L33-42) and the functions on paths. -/
structure Config (P G R U : Type) where
  debounce : Nat
  patterns : List G
  ignored : List G
  maxResources : Nat
  /-- `path.strip_prefix(base_dir)`, L367. -/
  strip : P → Option R
  /-- `glob_match::glob_match`, L375 and L382. -/
  glob : G → R → Bool
  /-- `format!("file://{}", path.display())`, L147. -/
  uri : P → U

/-- `matches_patterns`, L361-388. -/
def Config.accepts {P G R U : Type} (cfg : Config P G R U) (p : P) : Bool := match cfg.strip p with
  | none => false
  | some r => !(cfg.ignored.any (cfg.glob · r)) && cfg.patterns.any (cfg.glob · r)

/-- Capacity of the two channels, L191 and L290. -/
def capacity : Nat := 1000

/-- Where the processor is: before draining the event channel, between draining and looking at the clock, or
sending the notifications of one round. /repo/src/server/resource_watcher.rs L110-165. -/
inductive Proc (P : Type) where
  | idle
  | drained
  | sending (ps : List P)
  deriving DecidableEq, Repr

/-- The channel filled by the operating system's callback, the paths left of the event the forwarder works on,
the event it is handing over, the event channel, `pending_events`, the processor, the tracked resources, whether
`stop` was called and whether the forwarder has ended. /repo/src/server/resource_watcher.rs L57-95, L110-165,
L275-388. -/
structure State (P U : Type) where
  raw : List (Kind × List P)
  paths : List P
  held : Option (Ev P)
  queue : List (Ev P)
  pending : AMap P (Ev P)
  proc : Proc P
  resources : ASet U
  stopped : Bool
  ended : Bool

/-- After one `start()`, /repo/src/server/resource_watcher.rs L186-237. -/
def init {P U : Type} : State P U :=
  { raw := [], paths := [], held := none, queue := [], pending := [], proc := .idle, resources := [], stopped := false,
    ended := false }

/-- The suspension points of the two tasks, /repo/src/server/resource_watcher.rs L110-165, L275-388. -/
inductive Op (P U : Type) where
  | os (k : Kind) (ps : List P)
  | take
  | stamp (now : Nat)
  | push
  | finish
  | drain
  | tick (now : Nat)
  | emit
  | add (u : U)
  | remove (u : U)
  | stop

/-- What can be seen: an event reached the event channel, the channel was drained, a round of the processor with
its time and the paths found due, a notification. /repo/src/server/resource_watcher.rs L110-165, L275-388. -/
inductive Out (P U : Type) where
  | arrived (e : Ev P)
  | drained
  | round (now : Nat) (due : List P)
  | notified (u : U)
  deriving DecidableEq, Repr

variable {P G R U : Type} [DecidableEq P] [DecidableEq U]

/-- The event is due, L134. -/
def isDue (cfg : Config P G R U) (now : Nat) (e : P × Ev P) : Bool := decide (cfg.debounce ≤ now - e.2.ts)

/-- One step; `none` if it is not possible in this state. /repo/src/server/resource_watcher.rs L110-165,
L275-388. -/
def step (cfg : Config P G R U) (s : State P U) : Op P U → Option (State P U × List (Out P U))
  -- L294-298: `try_send` drops the event if the channel is full; so it does when the forwarder has ended.
  | .os k ps =>
    if s.ended = false ∧ s.raw.length < capacity then some ({ s with raw := s.raw ++ [(k, ps)] }, []) else some (s, [])
  -- L324-332: the next event; events of other kinds are skipped.
  | .take => match s.ended, s.held, s.paths, s.raw with
    | false, none, [], (.other, _) :: r => some ({ s with raw := r }, [])
    | false, none, [], (_, ps) :: r => some ({ s with raw := r, paths := ps }, [])
    | _, _, _, _ => none
  -- L334-344: the next path of the event.
  | .stamp now => match s.held, s.paths with
    | none, p :: ps =>
      if cfg.accepts p then some ({ s with paths := ps, held := some { path := p, ts := now } }, [])
      else some ({ s with paths := ps }, [])
    | _, _ => none
  -- L346: `event_tx.send(..).await` waits while the channel is full.
  | .push => match s.held with
    | some e => if s.queue.length < capacity then
        some ({ s with held := none, queue := s.queue ++ [e] }, [.arrived e]) else none
    | none => none
  -- L320-323: the forwarder sees the shutdown signal.
  | .finish => match s.stopped, s.ended, s.held, s.paths with
    | true, false, none, [] => some ({ s with ended := true, raw := [] }, [])
    | _, _, _, _ => none
  -- L119-125.
  | .drain => match s.proc with
    | .idle => some ({ s with queue := [], proc := .drained,
                              pending := s.queue.foldl (fun m e => AMap.insert m e.path e) s.pending }, [.drained])
    | _ => none
  -- L127-142; `duration_since` is zero for a later instant.
  | .tick now => match s.proc with
    | .drained =>
      some ({ s with pending := s.pending.filter (fun e => !isDue cfg now e),
                     proc := .sending ((s.pending.filter (isDue cfg now)).map Prod.fst) },
            [.round now ((s.pending.filter (isDue cfg now)).map Prod.fst)])
    | _ => none
  -- L145-163: the next path of the round, or the end of the round.
  | .emit => match s.proc with
    | .sending [] => some ({ s with proc := .idle }, [])
    | .sending (p :: ps) =>
      some ({ s with proc := .sending ps }, if cfg.uri p ∈ s.resources then [.notified (cfg.uri p)] else [])
    | _ => none
  -- `add_resource`, L249-259.
  | .add u =>
    if cfg.maxResources ≤ s.resources.length then some (s, [])
    else some ({ s with resources := ASet.insert s.resources u }, [])
  -- `remove_resource`, L262-266.
  | .remove u => some ({ s with resources := ASet.remove s.resources u }, [])
  -- `stop`, L240-246.
  | .stop => some ({ s with stopped := true }, [])

/-- The state and everything seen. (Any interleaving of the tasks of /repo/src/server/resource_watcher.rs
L110-165, L275-388.) -/
def run (cfg : Config P G R U) : State P U → List (Op P U) → Option (State P U × List (Out P U))
  | s, [] => some (s, [])
  | s, op :: r => match step cfg s op with
    | none => none
    | some (s', o) => match run cfg s' r with
      | none => none
      | some (s'', o') => some (s'', o ++ o')

end Verif.Watcher
