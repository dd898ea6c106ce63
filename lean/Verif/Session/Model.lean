import Verif.Common.AMap
import Verif.Common.Str

/-
Model of `/repo/src/shared/session.rs`.  `Id` are session ids, `D` the application data of a
session (`client_info` and `data`), `A` the authentication information.  Times are integers.
-/

namespace Verif.Session

/-- `Session`, /repo/src/shared/session.rs L43-67. -/
structure Session (Id D A : Type) where
  id : Id
  createdAt : Int
  lastActivity : Int
  expiresAt : Int
  data : D
  authenticated : Bool
  authInfo : Option A
  deriving DecidableEq

variable {Id D A : Type} [DecidableEq Id]

/-- Callback invocations (`SessionCallbacks`, /repo/src/shared/session.rs L109-118).  The key of the
table entry is recorded beside the kind of event. -/
inductive Event (Id : Type) where
  | created (id : Id)
  | destroyed (id : Id)
  | expired (id : Id)
  deriving DecidableEq

/-- The `sessions` table plus the trace of callbacks so far, newest last. /repo/src/shared/session.rs L83-107. -/
structure State (Id D A : Type) where
  sessions : AMap Id (Session Id D A)
  trace : List (Event Id)
  deriving DecidableEq

/-- `SessionManager::new`, /repo/src/shared/session.rs L132-138. -/
def init : State Id D A := ⟨[], []⟩

/-- Results. /repo/src/shared/session.rs L141-280. -/
inductive Out (Id D A : Type) where
  | session (s : Session Id D A)
  | none
  | ok
  | limitReached
  | invalidId
  | expired
  | notFound
  deriving DecidableEq

/-- The new session built by `create_session`, /repo/src/shared/session.rs L150-160. -/
def newSession (timeout : Int) (id : Id) (d : D) (now : Int) : Session Id D A :=
  ⟨id, now, now, now + timeout, d, false, Option.none⟩

/-- `create_session`, /repo/src/shared/session.rs L141-171; `id` is the generated UUID. -/
def createSession (max : Nat) (timeout : Int) (s : State Id D A) (id : Id) (d : D) (now : Int) :
    State Id D A × Out Id D A :=
  if s.sessions.length ≥ max then (s, .limitReached)
  else
    let n := newSession timeout id d now
    (⟨s.sessions.insert id n, s.trace ++ [.created id]⟩, .session n)

/-- `get_session`, /repo/src/shared/session.rs L174-188. -/
def getSession (s : State Id D A) (id : Id) (now : Int) : State Id D A × Out Id D A :=
  match s.sessions.get id with
  | Option.none => (s, .none)
  | some x =>
    let x' := { x with lastActivity := now }
    ({ s with sessions := s.sessions.insert id x' }, .session x')

/-- `destroy_session`, /repo/src/shared/session.rs L233-250. -/
def destroySession (s : State Id D A) (id : Id) : State Id D A × Out Id D A :=
  match s.sessions.get id with
  | some _ => (⟨s.sessions.remove id, s.trace ++ [.destroyed id]⟩, .ok)
  | Option.none => (s, .notFound)

/-- `validate_session`, /repo/src/shared/session.rs L191-206.  The clock is read once for
`last_activity` (`now₁`) and once for the comparison (`now₂`). -/
def validateSession (s : State Id D A) (id : Id) (now₁ now₂ : Int) : State Id D A × Out Id D A :=
  match getSession s id now₁ with
  | (s', .session x) =>
    if x.expiresAt < now₂ then
      match destroySession s' id with
      | (s'', .ok) => (s'', .expired)
      | (s'', o) => (s'', o)
    else (s', .session x)
  | (s', _) => (s', .invalidId)

/-- `update_session`, /repo/src/shared/session.rs L209-222; `f` is the caller's updater. -/
def updateSession (s : State Id D A) (id : Id) (f : Session Id D A → Session Id D A) (now : Int) :
    State Id D A × Out Id D A :=
  match s.sessions.get id with
  | Option.none => (s, .invalidId)
  | some x => ({ s with sessions := s.sessions.insert id { f x with lastActivity := now } }, .ok)

/-- `authenticate_session`, /repo/src/shared/session.rs L225-230. -/
def authenticateSession (s : State Id D A) (id : Id) (a : A) (now : Int) :
    State Id D A × Out Id D A :=
  updateSession s id (fun x => { x with authenticated := true, authInfo := some a }) now

/-- The ids collected by `cleanup_expired`, /repo/src/shared/session.rs L254-260. -/
def expiredIds (s : State Id D A) (now : Int) : List Id :=
  (s.sessions.filter (fun e => decide (e.2.expiresAt < now))).map (·.1)

/-- Body of the removal loop of `cleanup_expired`, /repo/src/shared/session.rs L262-271. -/
def expireOne (s : State Id D A) (id : Id) : State Id D A :=
  match s.sessions.get id with
  | some _ => ⟨s.sessions.remove id, s.trace ++ [.expired id]⟩
  | Option.none => s

/-- `cleanup_expired`, /repo/src/shared/session.rs L253-272. -/
def cleanupExpired (s : State Id D A) (now : Int) : State Id D A :=
  (expiredIds s now).foldl expireOne s

/-- Calls. /repo/src/shared/session.rs L141-280. -/
inductive Op (Id D A : Type) where
  | create (id : Id) (d : D) (now : Int)
  | get (id : Id) (now : Int)
  | validate (id : Id) (now₁ now₂ : Int)
  | update (id : Id) (f : Session Id D A → Session Id D A) (now : Int)
  | authenticate (id : Id) (a : A) (now : Int)
  | destroy (id : Id)
  | cleanup (now : Int)

/-- One call, run without interruption. /repo/src/shared/session.rs L141-280. -/
def step (max : Nat) (timeout : Int) (s : State Id D A) : Op Id D A → State Id D A × Out Id D A
  | .create id d now => createSession max timeout s id d now
  | .get id now => getSession s id now
  | .validate id n₁ n₂ => validateSession s id n₁ n₂
  | .update id f now => updateSession s id f now
  | .authenticate id a now => authenticateSession s id a now
  | .destroy id => destroySession s id
  | .cleanup now => (cleanupExpired s now, .ok)

/-- A history of calls, one after another. (Calls of /repo/src/shared/session.rs L141-280.) -/
def run (max : Nat) (timeout : Int) (h : List (Op Id D A)) : State Id D A :=
  h.foldl (fun s op => (step max timeout s op).1) init

/-! ### Interleaved calls

`DashMap` locks are held only inside one map operation, so `get_session` is a read followed by a
write, and `create_session` a length check followed by an insert. -/

/-- Atomic map operations; `t` names the task running the call. /repo/src/shared/session.rs L141-271. -/
inductive Atom (Id D A : Type) where
  /-- `self.sessions.len() >= max`, /repo/src/shared/session.rs L143. -/
  | createCheck (t : Nat)
  /-- `self.sessions.insert`, /repo/src/shared/session.rs L162. -/
  | createInsert (t : Nat) (id : Id) (d : D) (now : Int)
  /-- `self.sessions.get(..)` and the clone, /repo/src/shared/session.rs L175-179. -/
  | getRead (t : Nat) (id : Id) (now : Int)
  /-- `self.sessions.insert`, /repo/src/shared/session.rs L183-184. -/
  | getWrite (t : Nat)
  /-- `update_session` holds the entry lock throughout, /repo/src/shared/session.rs L213-221. -/
  | update (id : Id) (f : Session Id D A → Session Id D A) (now : Int)
  /-- `self.sessions.remove`, /repo/src/shared/session.rs L234. -/
  | destroy (id : Id)

/-- Shared table, clones held by tasks inside `get_session`, tasks past the length check.
/repo/src/shared/session.rs L141-189. -/
structure CState (Id D A : Type) where
  sessions : AMap Id (Session Id D A)
  held : AMap Nat (Id × Session Id D A)
  passed : List Nat
  deriving DecidableEq

/-- Nothing created, no call running. /repo/src/shared/session.rs L132-138. -/
def cinit : CState Id D A := ⟨[], [], []⟩

/-- One atomic map operation.  A step that its task is not at is skipped. /repo/src/shared/session.rs L141-271. -/
def cstep (max : Nat) (timeout : Int) (s : CState Id D A) : Atom Id D A → CState Id D A
  | .createCheck t =>
    if s.sessions.length ≥ max then s else { s with passed := t :: s.passed }
  | .createInsert t id d now =>
    if t ∈ s.passed then
      { s with sessions := s.sessions.insert id (newSession timeout id d now),
               passed := s.passed.erase t }
    else s
  | .getRead t id now =>
    match s.sessions.get id with
    | Option.none => s
    | some x => { s with held := s.held.insert t (id, { x with lastActivity := now }) }
  | .getWrite t =>
    match s.held.get t with
    | Option.none => s
    | some (id, x) => { s with sessions := s.sessions.insert id x, held := s.held.remove t }
  | .update id f now =>
    match s.sessions.get id with
    | Option.none => s
    | some x => { s with sessions := s.sessions.insert id { f x with lastActivity := now } }
  | .destroy id => { s with sessions := s.sessions.remove id }

/-- A schedule of atomic operations. (Of /repo/src/shared/session.rs L141-271.) -/
def crun (max : Nat) (timeout : Int) (s : CState Id D A) (h : List (Atom Id D A)) : CState Id D A :=
  h.foldl (cstep max timeout) s

/-! ### HTTP middleware -/

/-- The cookie name compared with at /repo/src/shared/session.rs L314. -/
def cookieName : List Char := "mcp-session-id".toList

open Str in
/-- One cookie of the header, /repo/src/shared/session.rs L312-315: the value when the trimmed
cookie is `mcp-session-id=value`. -/
def cookieValue (cookie : List Char) : Option (List Char) :=
  match splitOnce '=' (trim cookie) with
  | some (name, value) => if name = cookieName then some value else Option.none
  | Option.none => Option.none

/-- The loop over cookies, /repo/src/shared/session.rs L311-316. -/
def firstCookie : List (List Char) → Option (List Char)
  | [] => Option.none
  | c :: cs => match cookieValue c with
    | some v => some v
    | Option.none => firstCookie cs

/-- `extract_session_id`, /repo/src/shared/session.rs L308-324. -/
def extractSessionId (headers : AMap (List Char) (List Char)) : Option (List Char) :=
  let fromCookie := match (headers.get "cookie".toList).or (headers.get "Cookie".toList) with
    | some h => firstCookie (Str.splitChar ';' h)
    | Option.none => Option.none
  match fromCookie with
  | some v => some v
  | Option.none => (headers.get "X-Session-ID".toList).or (headers.get "x-session-id".toList)

/-- `SessionMiddleware::process`, /repo/src/shared/session.rs L346-362: the session handed to the
handler. -/
def middlewareSession (s : State (List Char) D A) (headers : AMap (List Char) (List Char))
    (now : Int) : State (List Char) D A × Option (Session (List Char) D A) :=
  match extractSessionId headers with
  | some id => match getSession s id now with
    | (s', .session x) => (s', some x)
    | (s', _) => (s', Option.none)
  | Option.none => (s, Option.none)

end Verif.Session
