import Verif.Watcher.Props

/-
The resource watcher started, stopped and started again: C220.

Models /repo/src/server/resource_watcher.rs L110-165 and L186-246, L275-358 for any number of calls of `start` and
`stop`.  Each `start` makes a channel for file events, puts its receiver in the place of the one before (L191-192), and
starts two more tasks, a forwarder and a processor; the processors share the receiver, the pending events and the
tracked resources.  Steps are as in `Verif.Watcher.Model`, except that the processor takes the events one by one: it
keeps the lock of the receiver until the channel is empty (L119), but not that of the pending events.  The sender of
the shutdown signal is replaced by the next `start`, which the forwarder before sees as the signal (L194-195, L320).
Dropping the watcher is, for the tasks, the same as `stop`.
-/

namespace Verif.Watcher.Again

open Verif

/-- A forwarder: as the fields of the same names of `Verif.Watcher.State`.
/repo/src/server/resource_watcher.rs L275-358. -/
structure Fwd (P : Type) where
  raw : List (Kind × List P) := []
  paths : List P := []
  held : Option (Ev P) := none
  stopped : Bool := false
  ended : Bool := false

/-- Where a processor is: waiting for its timer, taking events from the channel under its lock, through with that, or
sending the notifications of one round. /repo/src/server/resource_watcher.rs L110-165. -/
inductive Proc (P : Type) where
  | idle
  | draining
  | drained
  | sending (ps : List P)
  deriving DecidableEq, Repr

/-- The forwarders and processors, in the order of the calls of `start`, the channel of the last `start`, the pending
events and the tracked resources. /repo/src/server/resource_watcher.rs L78-95, L186-237. -/
structure State (P U : Type) where
  fwds : List (Fwd P) := []
  procs : List (Proc P) := []
  queue : List (Ev P) := []
  pending : AMap P (Ev P) := []
  resources : ASet U := []

/-- Steps: calls, the operating system's reports to forwarder `i`, the steps of forwarder `i` and processor `j`.
/repo/src/server/resource_watcher.rs L110-165, L186-266, L275-358. -/
inductive Op (P U : Type) where
  | start
  | stop
  | os (i : Nat) (k : Kind) (ps : List P)
  | take (i : Nat)
  | stamp (i : Nat) (now : Nat)
  | push (i : Nat)
  | finish (i : Nat)
  | lock (j : Nat)
  | recv (j : Nat)
  | unlock (j : Nat)
  | tick (j : Nat) (now : Nat)
  | emit (j : Nat)
  | add (u : U)
  | remove (u : U)

/-- What can be seen: an event reached the channel, was taken from it, or was lost at a forwarder whose channel is
gone; a round of a processor; a notification. /repo/src/server/resource_watcher.rs L110-165, L346-348. -/
inductive Out (P U : Type) where
  | arrived (e : Ev P)
  | failed (e : Ev P)
  | seen (e : Ev P)
  | round (now : Nat) (due : List P)
  | notified (u : U)
  deriving DecidableEq, Repr

variable {P G R U : Type} [DecidableEq P] [DecidableEq U]

/-- A processor holds the lock of the receiver. /repo/src/server/resource_watcher.rs L119-124. -/
def locked (s : State P U) : Bool := s.procs.any (fun p => decide (p = .draining))

/-- One step; `none` if it is not possible in this state. /repo/src/server/resource_watcher.rs L110-165, L186-266,
L275-358. -/
def step (cfg : Config P G R U) (s : State P U) : Op P U → Option (State P U × List (Out P U))
  -- `start`, L186-237: waits for the lock of the receiver (L192); the receiver before is dropped with what is in it,
  -- and so is the sender of the shutdown signal before.
  | .start =>
    if locked s = true then none
    else some ({ s with
      fwds := s.fwds.map (fun f => { f with stopped := true }) ++ [{}], procs := s.procs ++ [.idle], queue := [] }, [])
  -- `stop`, L240-246: the forwarder of the last `start`.
  | .stop => some ({ s with fwds := s.fwds.map (fun f => { f with stopped := true }) }, [])
  -- L294-298.
  | .os i k ps => match s.fwds[i]? with
    | some f =>
      if f.ended = false ∧ f.raw.length < capacity then
        some ({ s with fwds := s.fwds.set i { f with raw := f.raw ++ [(k, ps)] } }, [])
      else some (s, [])
    | none => none
  -- L324-332.
  | .take i => match s.fwds[i]? with
    | some f => match f.ended, f.held, f.paths, f.raw with
      | false, none, [], (.other, _) :: r => some ({ s with fwds := s.fwds.set i { f with raw := r } }, [])
      | false, none, [], (_, ps) :: r => some ({ s with fwds := s.fwds.set i { f with raw := r, paths := ps } }, [])
      | _, _, _, _ => none
    | none => none
  -- L334-344.
  | .stamp i now => match s.fwds[i]? with
    | some f => match f.held, f.paths with
      | none, p :: ps =>
        if cfg.accepts p then
          some ({ s with fwds := s.fwds.set i { f with paths := ps, held := some { path := p, ts := now } } }, [])
        else some ({ s with fwds := s.fwds.set i { f with paths := ps } }, [])
      | _, _ => none
    | none => none
  -- L346-348: a forwarder whose receiver was dropped logs an error.
  | .push i => match s.fwds[i]? with
    | some f => match f.held with
      | some e =>
        if i + 1 = s.fwds.length then
          if s.queue.length < capacity then
            some ({ s with fwds := s.fwds.set i { f with held := none }, queue := s.queue ++ [e] }, [.arrived e])
          else none
        else some ({ s with fwds := s.fwds.set i { f with held := none } }, [.failed e])
      | none => none
    | none => none
  -- L320-323.
  | .finish i => match s.fwds[i]? with
    | some f => match f.stopped, f.ended, f.held, f.paths with
      | true, false, none, [] => some ({ s with fwds := s.fwds.set i { f with ended := true, raw := [] } }, [])
      | _, _, _, _ => none
    | none => none
  -- L119: one processor at a time.
  | .lock j => match s.procs[j]? with
    | some .idle => if locked s = true then none else some ({ s with procs := s.procs.set j .draining }, [])
    | _ => none
  -- L120-123.
  | .recv j => match s.procs[j]?, s.queue with
    | some .draining, e :: q => some ({ s with queue := q, pending := AMap.insert s.pending e.path e }, [.seen e])
    | _, _ => none
  -- L124.
  | .unlock j => match s.procs[j]?, s.queue with
    | some .draining, [] => some ({ s with procs := s.procs.set j .drained }, [])
    | _, _ => none
  -- L127-142.
  | .tick j now => match s.procs[j]? with
    | some .drained =>
      some ({ s with pending := s.pending.filter (fun e => !isDue cfg now e),
                     procs := s.procs.set j (.sending ((s.pending.filter (isDue cfg now)).map Prod.fst)) },
            [.round now ((s.pending.filter (isDue cfg now)).map Prod.fst)])
    | _ => none
  -- L145-163.
  | .emit j => match s.procs[j]? with
    | some (.sending []) => some ({ s with procs := s.procs.set j .idle }, [])
    | some (.sending (p :: ps)) =>
      some ({ s with procs := s.procs.set j (.sending ps) },
        if cfg.uri p ∈ s.resources then [.notified (cfg.uri p)] else [])
    | _ => none
  -- L249-259.
  | .add u =>
    if cfg.maxResources ≤ s.resources.length then some (s, [])
    else some ({ s with resources := ASet.insert s.resources u }, [])
  -- L262-266.
  | .remove u => some ({ s with resources := ASet.remove s.resources u }, [])

/-- Any interleaving; the state and everything seen. (/repo/src/server/resource_watcher.rs L110-165, L186-266,
L275-358.) -/
def run (cfg : Config P G R U) : State P U → List (Op P U) → Option (State P U × List (Out P U))
  | s, [] => some (s, [])
  | s, op :: r => match step cfg s op with
    | none => none
    | some (s', o) => match run cfg s' r with
      | none => none
      | some (s'', o') => some (s'', o ++ o')

end Verif.Watcher.Again
