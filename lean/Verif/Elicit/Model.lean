import Verif.Common.AMap

/-
Elicitation of user input.

Models /repo/src/server/elicitation.rs L52-171. Every section under the `pending` lock is one step, and so is every
point at which a caller of `elicit_input` may be suspended; a list of steps is any interleaving of any number of
callers. A caller is known by its number. The one-shot channel of a caller is its `slot`: the sender is in `pending` or
gone. Ids and values are of any type.
-/

namespace Verif.Elicit

open Verif

/-- `ElicitInputResponse` (/repo/src/types/elicitation.rs L209-225): id, and what else it says. -/
structure Response (I V : Type) where
  id : I
  body : V
  deriving DecidableEq

/-- The one-shot channel as its receiver sees it: nothing yet, a value, or the sender dropped.
(/repo/src/server/elicitation.rs L60-104.) -/
inductive Slot (I V : Type) where
  | empty
  | full (r : Response I V)
  | closed
  deriving DecidableEq

/-- How `elicit_input` ended. /repo/src/server/elicitation.rs L53-104. -/
inductive Outcome (I V : Type) where
  | response (r : Response I V)
  | closed
  | timeout
  | sendError
  deriving DecidableEq

/-- Where a caller is: sending the request to the client (L69-77), waiting (L82), past its timeout but before it
took itself out of `pending` (L96-97), past a failed send but before it took itself out (L71-72), finished, or
dropped by its own caller. -/
inductive Phase (I V : Type) where
  | sending
  | waiting
  | timedOut
  | sendFailed
  | done (o : Outcome I V)
  | abandoned
  deriving DecidableEq

/-- A call of `elicit_input`: its id, how far it is, and its channel, /repo/src/server/elicitation.rs L53-104. -/
structure Call (I V : Type) where
  id : I
  slot : Slot I V
  phase : Phase I V

/-- The receiver of the channel still exists: a caller past its timeout has dropped it.
(/repo/src/server/elicitation.rs L80-104.) -/
def Call.listening {I V : Type} (c : Call I V) : Bool := match c.phase with
  | .sending => true
  | .waiting => true
  | _ => false

/-- `pending` and the callers, newest last. /repo/src/server/elicitation.rs L13-20, L53-104. -/
structure State (I V : Type) where
  pending : AMap I Nat
  calls : List (Call I V)

variable {I V : Type} [DecidableEq I]

/-- `ElicitationManager::new`, /repo/src/server/elicitation.rs L33-39. -/
def init : State I V := { pending := [], calls := [] }

/-- The sections under the lock, and the points of suspension, /repo/src/server/elicitation.rs L53-171. -/
inductive Op (I V : Type) where
  | start (id : I)
  | sent (n : Nat)
  | sendFail (n : Nat)
  | receive (n : Nat)
  | timeout (n : Nat)
  | cleanup (n : Nat)
  | abandon (n : Nat)
  | respond (r : Response I V)
  | cancel (r : Response I V)
  | cancelAll (body : V)

/-- Results of `handle_response` and `cancel`: `Ok(())`, or "Unknown elicitation ID".
/repo/src/server/elicitation.rs L107-150. -/
inductive Res where
  | ok
  | unknown
  deriving DecidableEq, Repr

/-- Change call `n`. (The futures of /repo/src/server/elicitation.rs L53-104.) -/
def modifyCall (cs : List (Call I V)) (n : Nat) (f : Call I V → Call I V) : List (Call I V) := cs.modify n f

/-- The sender for caller `n` is dropped without a value. (/repo/src/server/elicitation.rs L60-66, L128-166.) -/
def dropSender (cs : List (Call I V)) : Option Nat → List (Call I V)
  | none => cs
  | some n => modifyCall cs n (fun c => match c.slot with
    | .empty => { c with slot := .closed }
    | _ => c)

/-- `tx.send(response)` for caller `n`: a value for a dropped receiver is lost.
(/repo/src/server/elicitation.rs L107-125.) -/
def fill (cs : List (Call I V)) (n : Nat) (r : Response I V) : List (Call I V) :=
  modifyCall cs n (fun c => { c with slot := if c.listening then .full r else .closed })

/-- One step; `none` if it is not possible in this state. /repo/src/server/elicitation.rs L53-171. -/
def step (s : State I V) : Op I V → Option (State I V × Res)
  -- L59-66: store the sender under the id; a sender stored before under the same id is dropped.
  | .start id =>
    some ({ pending := AMap.insert s.pending id s.calls.length,
            calls := dropSender s.calls (AMap.get s.pending id) ++ [{ id := id, slot := .empty, phase := .sending }] }, .ok)
  -- L70: `request_tx.send(..).await` returns.
  | .sent n => match s.calls[n]? with
    | some c => match c.phase with
      | .sending => some ({ s with calls := modifyCall s.calls n (fun c => { c with phase := .waiting }) }, .ok)
      | _ => none
    | none => none
  | .sendFail n => match s.calls[n]? with
    | some c => match c.phase with
      | .sending => some ({ s with calls := modifyCall s.calls n (fun c => { c with phase := .sendFailed }) }, .ok)
      | _ => none
    | none => none
  -- L82-93: the channel has a value, or its sender is gone.
  | .receive n => match s.calls[n]? with
    | some c => match c.phase, c.slot with
      | .waiting, .full r =>
        some ({ s with calls := modifyCall s.calls n (fun c => { c with phase := .done (.response r) }) }, .ok)
      | .waiting, .closed =>
        some ({ s with calls := modifyCall s.calls n (fun c => { c with phase := .done .closed }) }, .ok)
      | _, _ => none
    | none => none
  -- L82, L95: the time is over and the channel is still empty (`timeout` looks at the channel first).
  | .timeout n => match s.calls[n]? with
    | some c => match c.phase, c.slot with
      | .waiting, .empty =>
        some ({ s with calls := modifyCall s.calls n (fun c => { c with phase := .timedOut }) }, .ok)
      | _, _ => none
    | none => none
  -- L72, L97: `self.pending.write().await.remove(&elicitation_id)`.
  | .cleanup n => match s.calls[n]? with
    | some c => match c.phase with
      | .timedOut =>
        some ({ pending := AMap.remove s.pending c.id,
                calls := modifyCall (dropSender s.calls (AMap.get s.pending c.id)) n
                  (fun c => { c with phase := .done .timeout }) }, .ok)
      | .sendFailed =>
        some ({ pending := AMap.remove s.pending c.id,
                calls := modifyCall (dropSender s.calls (AMap.get s.pending c.id)) n
                  (fun c => { c with phase := .done .sendError }) }, .ok)
      | _ => none
    | none => none
  -- The future of `elicit_input` is dropped at one of its suspension points.
  | .abandon n => match s.calls[n]? with
    | some c => match c.phase with
      | .done _ => none
      | .abandoned => none
      | _ => some ({ s with calls := modifyCall s.calls n (fun c => { c with phase := .abandoned }) }, .ok)
    | none => none
  -- `handle_response`, L107-125.
  | .respond r => match AMap.get s.pending r.id with
    | some n => some ({ pending := AMap.remove s.pending r.id, calls := fill s.calls n r }, .ok)
    | none => some (s, .unknown)
  -- `cancel`, L128-150; `r` is the response made up there.
  | .cancel r => match AMap.get s.pending r.id with
    | some n => some ({ pending := AMap.remove s.pending r.id, calls := fill s.calls n r }, .ok)
    | none => some (s, .unknown)
  -- `cancel_all`, L153-166.
  | .cancelAll body =>
    some ({ pending := [],
            calls := s.pending.foldl (fun cs e => fill cs e.2 { id := e.1, body := body }) s.calls }, .ok)

/-- Any interleaving of the sections of /repo/src/server/elicitation.rs L53-171. -/
def run : State I V → List (Op I V) → Option (State I V)
  | s, [] => some s
  | s, op :: r => match step s op with
    | none => none
    | some (s', _) => run s' r

end Verif.Elicit
