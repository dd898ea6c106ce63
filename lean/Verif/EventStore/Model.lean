import Verif.Common.AMap

/-
Model of `/repo/src/shared/event_store.rs`: `InMemoryEventStore` and `ResumptionManager`.
Timestamps are integers; event ids `Id` and messages `M` are arbitrary types.  Critical sections
(`events.write()`, `tokens.write()`, `sequence_counter.write()`) are the atomic steps.
-/

namespace Verif.EventStore

/-- `MessageDirection`, /repo/src/shared/event_store.rs L62-67. -/
inductive Direction where
  | inbound
  | outbound
  deriving DecidableEq

/-- `StoredEvent`, /repo/src/shared/event_store.rs L45-58. -/
structure Event (Id M : Type) where
  id : Id
  ts : Int
  msg : M
  dir : Direction
  session : Id
  seq : Nat
  deriving DecidableEq

/-- `ResumptionState`, /repo/src/shared/event_store.rs L88-97 (`pending_requests` is always empty
and omitted). -/
structure Resumption (Id : Type) where
  session : Id
  lastEventId : Id
  nextSeq : Nat
  deriving DecidableEq

variable {Id M : Type} [DecidableEq Id]

/-- First loop of `cleanup`, /repo/src/shared/event_store.rs L124-126. -/
def popOver (max : Nat) : List (Event Id M) → List (Event Id M)
  | [] => []
  | e :: es => if (e :: es).length > max then popOver max es else e :: es

/-- Loop removing old events from the front, /repo/src/shared/event_store.rs L130-136 and
L178-184. -/
def popOlder (cutoff : Int) : List (Event Id M) → List (Event Id M)
  | [] => []
  | e :: es => if e.ts < cutoff then popOlder cutoff es else e :: es

/-- `InMemoryEventStore::cleanup`, /repo/src/shared/event_store.rs L120-137, at time `now`. -/
def cleanup (max : Nat) (maxAge : Int) (now : Int) (evs : List (Event Id M)) :
    List (Event Id M) :=
  popOlder (now - maxAge) (popOver max evs)

/-- `store_event`, /repo/src/shared/event_store.rs L142-149, when no other call intervenes between
its two critical sections. -/
def storeEvent (max : Nat) (maxAge : Int) (now : Int) (e : Event Id M)
    (evs : List (Event Id M)) : List (Event Id M) :=
  cleanup max maxAge now (evs ++ [e])

/-- `iter().position(|e| e.id == event_id)`, /repo/src/shared/event_store.rs L159-161. -/
def position (id : Id) : List (Event Id M) → Option Nat
  | [] => none
  | e :: es => if e.id = id then some 0 else (position id es).map (· + 1)

/-- `get_events_since`, /repo/src/shared/event_store.rs L151-167.  `limit = None` becomes
`usize::MAX`, which no list reaches; modelled as no limit. -/
def getEventsSince (evs : List (Event Id M)) (id : Id) (limit : Option Nat) :
    List (Event Id M) :=
  let start := match position id evs with
    | some i => i + 1
    | none => 0
  match limit with
  | some n => (evs.drop start).take n
  | none => evs.drop start

/-- `get_latest_event_id`, /repo/src/shared/event_store.rs L169-172. -/
def getLatestEventId (evs : List (Event Id M)) : Option Id := evs.getLast?.map (·.id)

/-- `clear_events_before`, /repo/src/shared/event_store.rs L174-187; also returns the count. -/
def clearEventsBefore (t : Int) (evs : List (Event Id M)) : List (Event Id M) × Nat :=
  (popOlder t evs, evs.length - (popOlder t evs).length)

/-- Atomic steps on the event queue: the two halves of `store_event`, and `clear_events_before`.
/repo/src/shared/event_store.rs L120-187. -/
inductive QOp (Id M : Type) where
  | push (e : Event Id M)
  | cleanup (now : Int)
  | clearBefore (t : Int)

/-- One critical section on the queue, /repo/src/shared/event_store.rs L143-147, L174-187. -/
def qstep (max : Nat) (maxAge : Int) (evs : List (Event Id M)) : QOp Id M → List (Event Id M)
  | .push e => evs ++ [e]
  | .cleanup now => cleanup max maxAge now evs
  | .clearBefore t => (clearEventsBefore t evs).1

/-- Any interleaving of critical sections. (Of /repo/src/shared/event_store.rs L120-187.) -/
def qrun (max : Nat) (maxAge : Int) (ops : List (QOp Id M)) : List (Event Id M) :=
  ops.foldl (qstep max maxAge) []

/-! ### Resumption manager -/

/-- `ResumptionManager` together with the store it shares,
/repo/src/shared/event_store.rs L101-106 and L223-227.  `stored` is a ghost record of every event
ever pushed, in order. -/
structure RState (Id M : Type) where
  max : Nat
  maxAge : Int
  evs : List (Event Id M)
  tokens : AMap Id (Resumption Id)
  counter : Nat
  session : Id
  stored : List (Event Id M)

/-- `ResumptionManager::new` on a new store, /repo/src/shared/event_store.rs L110-117, L240-246. -/
def rinit (max : Nat) (maxAge : Int) (session : Id) : RState Id M :=
  ⟨max, maxAge, [], [], 0, session, []⟩

/-- Calls on the manager and, from other managers sharing the store, on the store.  Fresh ids and
the clock are inputs. /repo/src/shared/event_store.rs L141-325. -/
inductive ROp (Id M : Type) where
  /-- `record_outbound` / `record_inbound` with the generated id and the current time. -/
  | record (dir : Direction) (msg : M) (id : Id) (now : Int)
  /-- `create_token` with the generated token id. -/
  | createToken (tok : Id)
  /-- `resume_from_token`. -/
  | resume (tok : Id)
  /-- an event stored by another manager that shares the store. -/
  | foreign (e : Event Id M) (now : Int)

/-- Results of the calls. /repo/src/shared/event_store.rs L189-325. -/
inductive ROut (Id M : Type) where
  | ok
  | err
  | token (lastEventId : Id)
  | events (l : List (Event Id M))

/-- `record_outbound` L249-267 and `record_inbound` L270-288
(/repo/src/shared/event_store.rs), which differ only in the direction. -/
def record (s : RState Id M) (dir : Direction) (msg : M) (id : Id) (now : Int) : RState Id M :=
  let e : Event Id M := ⟨id, now, msg, dir, s.session, s.counter⟩
  { s with
    counter := s.counter + 1
    evs := storeEvent s.max s.maxAge now e s.evs
    stored := s.stored ++ [e] }

/-- `create_resumption_token`, /repo/src/shared/event_store.rs L189-214. -/
def createToken (s : RState Id M) (tok : Id) : RState Id M × ROut Id M :=
  match s.evs.getLast? with
  | none => (s, .err)
  | some e =>
    ({ s with tokens := s.tokens.insert tok ⟨e.session, e.id, e.seq + 1⟩ }, .token e.id)

/-- `resume_from_token`, /repo/src/shared/event_store.rs L296-310. -/
def resumeFromToken (s : RState Id M) (tok : Id) : RState Id M × ROut Id M :=
  match s.tokens.get tok with
  | none => (s, .err)
  | some st =>
    ({ s with counter := st.nextSeq }, .events (getEventsSince s.evs st.lastEventId none))

/-- `get_pending_events`, /repo/src/shared/event_store.rs L313-324. -/
def getPendingEvents (s : RState Id M) (since : Id) : List (Event Id M) :=
  (getEventsSince s.evs since none).filter (fun e => decide (e.dir = .outbound))

/-- One call. /repo/src/shared/event_store.rs L141-325. -/
def rstep (s : RState Id M) : ROp Id M → RState Id M × ROut Id M
  | .record d m id now => (record s d m id now, .ok)
  | .createToken tok => createToken s tok
  | .resume tok => resumeFromToken s tok
  | .foreign e now =>
    ({ s with evs := storeEvent s.max s.maxAge now e s.evs, stored := s.stored ++ [e] }, .ok)

/-- A history of calls. (Calls of /repo/src/shared/event_store.rs L141-325.) -/
def rrun (s : RState Id M) (h : List (ROp Id M)) : RState Id M :=
  h.foldl (fun s op => (rstep s op).1) s

end Verif.EventStore
