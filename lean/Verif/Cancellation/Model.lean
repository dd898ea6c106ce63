import Verif.Common.AMap

/-
Model of `CancellationManager`, `/repo/src/server/cancellation.rs` L10-93.
Request ids are the string keys used by the code, here any type `Id`.  A `CancellationToken` is
represented by the number of the `create_token` call that created it; clones share the number.
Each method takes the lock once; `cancel_request` releases it before cancelling the token it
removed, which nobody else can reach through the manager any more, so it is one step
(simplification: the notification callback is not interleaved with other calls).
-/

namespace Verif.Cancellation

variable {Id : Type} [DecidableEq Id]

/-- Reason texts; `default` is "Cancelled by server" (L54). -/
inductive Reason where
  | given (s : String)
  | default
  deriving DecidableEq

/-- `reason.unwrap_or_else(..)`, /repo/src/server/cancellation.rs L54. -/
def reasonOf : Option String → Reason
  | some r => .given r
  | none => .default

/-- `CancellationManager`, /repo/src/server/cancellation.rs L11-14, with the set of tokens that
have been cancelled and the notifications handed to the sender. -/
structure State (Id : Type) where
  tokens : AMap Id Nat
  next : Nat
  cancelled : List Nat
  hasSender : Bool
  notes : List (Id × Reason)

/-- `new`, /repo/src/server/cancellation.rs L18-23. -/
def init : State Id := ⟨[], 0, [], false, []⟩

/-- `set_notification_sender`, /repo/src/server/cancellation.rs L26-28. -/
def setSender (s : State Id) : State Id := { s with hasSender := true }

/-- `create_token`, /repo/src/server/cancellation.rs L31-36; returns the token. -/
def createToken (s : State Id) (id : Id) : State Id × Nat :=
  ({ s with tokens := s.tokens.insert id s.next, next := s.next + 1 }, s.next)

/-- `cancel_request`, /repo/src/server/cancellation.rs L39-62 (always returns `Ok`). -/
def cancelRequest (s : State Id) (id : Id) (reason : Option String) : State Id :=
  match s.tokens.get id with
  | some t =>
    { s with
      tokens := s.tokens.remove id
      cancelled := t :: s.cancelled
      notes := if s.hasSender then
          s.notes ++ [(id, reasonOf reason)]
        else s.notes }
  | none => { s with tokens := s.tokens.remove id }

/-- `remove_token`, /repo/src/server/cancellation.rs L65-68. -/
def removeToken (s : State Id) (id : Id) : State Id := { s with tokens := s.tokens.remove id }

/-- `is_cancelled`, /repo/src/server/cancellation.rs L71-76. -/
def isCancelled (s : State Id) (id : Id) : Bool :=
  match s.tokens.get id with
  | some t => decide (t ∈ s.cancelled)
  | none => false

/-- `get_token`, /repo/src/server/cancellation.rs L79-82. -/
def getToken (s : State Id) (id : Id) : Option Nat := s.tokens.get id

/-- `clear`, /repo/src/server/cancellation.rs L85-92. -/
def clear (s : State Id) : State Id :=
  { s with tokens := [], cancelled := s.tokens.map Prod.snd ++ s.cancelled }

/-- `CancellationToken::cancel` called by whoever holds a clone of the token (tokio_util; the token
handed out by `create_token` / `get_token` is shared). Used by /repo/src/server/cancellation.rs L39-62,
L149-156. -/
def cancelToken (s : State Id) (t : Nat) : State Id := { s with cancelled := t :: s.cancelled }

/-- `CancellationToken::is_cancelled`, as seen by a handler holding token `t`
(/repo/src/server/cancellation.rs L149-151). -/
def tokenCancelled (s : State Id) (t : Nat) : Bool := decide (t ∈ s.cancelled)

/-- Mutating calls. /repo/src/server/cancellation.rs L31-93. -/
inductive Op (Id : Type) where
  | setSender
  | create (id : Id)
  | cancel (id : Id) (reason : Option String)
  | remove (id : Id)
  | clear
  | cancelToken (t : Nat)
  deriving DecidableEq

/-- One call, /repo/src/server/cancellation.rs L26-92. -/
def step (s : State Id) : Op Id → State Id
  | .setSender => setSender s
  | .create id => (createToken s id).1
  | .cancel id r => cancelRequest s id r
  | .remove id => removeToken s id
  | .clear => clear s
  | .cancelToken t => cancelToken s t

/-- A history of calls. (Calls of /repo/src/server/cancellation.rs L31-93.) -/
def run (s : State Id) (h : List (Op Id)) : State Id := h.foldl step s

end Verif.Cancellation
