import Verif.Common.AMap

/-
Model of `/repo/src/shared/protocol.rs`: the table of pending requests.
-/

namespace Verif.Protocol

variable {Id T R : Type} [DecidableEq Id] [DecidableEq T]

/-- `RequestContext`, /repo/src/shared/protocol.rs L92-97: the transport that issued the request
and the one-shot sender.  A sender is represented by the number of the `register_request` call
that created it, which also names the receiver handed to the caller. -/
structure Ctx (T : Type) where
  transport : T
  chan : Nat
  deriving DecidableEq

/-- `Protocol`, /repo/src/shared/protocol.rs L101-109.  `options` is omitted (never read by the
functions below).  `nextChan` numbers the channels created so far; `delivered` records, in order,
what was sent into which channel. -/
structure State (Id T R : Type) where
  own : T
  pending : AMap Id (Ctx T)
  nextChan : Nat
  delivered : List (Nat × R)

/-- The public mutating calls of `Protocol`. /repo/src/shared/protocol.rs L173-275. -/
inductive Op (Id T R : Type) where
  | register (id : Id)
  | complete (id : Id) (r : R)
  | completeFor (id : Id) (r : R) (t : T)
  | cancel (id : Id)

/-- What a call returns to its caller. /repo/src/shared/protocol.rs L173-275. -/
inductive Out where
  | receiver (chan : Nat)
  | ok
  | done (b : Bool)
  deriving DecidableEq

/-- `Protocol::with_transport_id`, /repo/src/shared/protocol.rs L154-160. -/
def init (t : T) : State Id T R := ⟨t, [], 0, []⟩

/-- `Protocol::register_request`, /repo/src/shared/protocol.rs L173-181. -/
def registerRequest (s : State Id T R) (id : Id) : State Id T R × Out :=
  ({ s with pending := s.pending.insert id ⟨s.own, s.nextChan⟩, nextChan := s.nextChan + 1 },
   .receiver s.nextChan)

/-- `Protocol::complete_request`, /repo/src/shared/protocol.rs L185-203.  The spawned task that
performs the one-shot send holds the only copy of the sender, so the send is recorded at the time
of the call (simplification: its scheduling delay is not represented). -/
def completeRequest (s : State Id T R) (id : Id) (r : R) : State Id T R × Out :=
  match s.pending.get id with
  | some ctx =>
    if ctx.transport = s.own then
      ({ s with pending := s.pending.remove id, delivered := s.delivered ++ [(ctx.chan, r)] }, .ok)
    else
      ({ s with pending := (s.pending.remove id).insert id ctx }, .ok)
  | none => (s, .ok)

/-- `Protocol::complete_request_for_transport`, /repo/src/shared/protocol.rs L248-269. -/
def completeRequestFor (s : State Id T R) (id : Id) (r : R) (t : T) : State Id T R × Out :=
  match s.pending.get id with
  | some ctx =>
    if ctx.transport = t then
      ({ s with pending := s.pending.remove id, delivered := s.delivered ++ [(ctx.chan, r)] },
       .done true)
    else (s, .done false)
  | none => (s, .done false)

/-- `Protocol::cancel_request`, /repo/src/shared/protocol.rs L272-274. -/
def cancelRequest (s : State Id T R) (id : Id) : State Id T R × Out :=
  ({ s with pending := s.pending.remove id }, .ok)

/-- One public call (`&mut self` methods, /repo/src/shared/protocol.rs L173-274). -/
def step (s : State Id T R) : Op Id T R → State Id T R × Out
  | .register id => registerRequest s id
  | .complete id r => completeRequest s id r
  | .completeFor id r t => completeRequestFor s id r t
  | .cancel id => cancelRequest s id

/-- A history of calls (no code counterpart: the caller's sequence of calls). (/repo/src/shared/protocol.rs
L173-275.) -/
def run (s : State Id T R) : List (Op Id T R) → State Id T R
  | [] => s
  | op :: ops => run (step s op).1 ops

/-- Everything the receiver of channel `c` has been sent. (The receiver returned by
/repo/src/shared/protocol.rs L173-182.) -/
def inbox (s : State Id T R) (c : Nat) : List R :=
  s.delivered.filterMap (fun p => if p.1 = c then some p.2 else none)

/-- Is a request with this id waiting for a response. (/repo/src/shared/protocol.rs L101-109.) -/
def isPending (s : State Id T R) (id : Id) : Bool := s.pending.contains id

end Verif.Protocol
