import Verif.Common.AMap
import Verif.Common.Sub

/-
Model of the streamable HTTP server, `/repo/src/server/streamable_http_server.rs`.

Requests are handled concurrently.  A POST runs in two steps: the checks and session bookkeeping
(L546-608), and, once the lock on the MCP server has been obtained (L613), the processing of the request.
A GET runs in three steps: session lookup (L679-720), the check for an existing stream (L723-729), and the
insertion of the new stream with the replay (L732-752).  DELETE is one step; its two map removals (L818,
L821) are separate critical sections in the code, which matters only for a GET running between them.

The MCP server is abstract: the response to a request and the version it negotiates are parameters of the
processing step, so every server is covered.  The session id generator and the generator of event ids are
abstract too: the ids are parameters of the steps.
-/

namespace Verif.HttpServer

/-- Strings. (Header values and ids of /repo/src/server/streamable_http_server.rs L202-217.) -/
abbrev Text := List Char

/-- A header value: one for which `HeaderValue::to_str` succeeds (visible ASCII), or another one.
(/repo/src/server/streamable_http_server.rs L288-352.) -/
inductive Hdr where
  | text (t : Text)
  | bytes
  deriving DecidableEq

/-- `headers.get(name).and_then(|v| v.to_str().ok())`, /repo/src/server/streamable_http_server.rs
L565-568, L571-574, L687-690, L803-806. -/
def strOf : Option Hdr → Option Text
  | some (.text t) => some t
  | _ => none

/-- `value.to_str().unwrap_or("")`, /repo/src/server/streamable_http_server.rs L293, L312, L332. -/
def strOrEmpty : Hdr → Text
  | .text t => t
  | .bytes => []

/-- `APPLICATION_JSON`, /repo/src/shared/http_constants.rs L21. -/
def appJson : Text := "application/json".toList

/-- `TEXT_EVENT_STREAM`, /repo/src/shared/http_constants.rs L24. -/
def eventStream : Text := "text/event-stream".toList

/-- `DEFAULT_PROTOCOL_VERSION`, /repo/src/lib.rs L151. -/
def defaultVersion : Text := "2025-03-26".toList

/-- `SUPPORTED_PROTOCOL_VERSIONS`, /repo/src/lib.rs L178-183. -/
def supported : List Text :=
  ["2025-06-18".toList, "2025-03-26".toList, "2024-11-05".toList, "2024-10-07".toList]

/-- `validate_headers(headers, "POST")`, /repo/src/server/streamable_http_server.rs L290-326: `none` is
success, `some status` a rejection. -/
def validatePost (contentType accept : Option Hdr) : Option Nat :=
  match contentType with
  | none => some 415
  | some ct =>
    if !hasSub appJson (strOrEmpty ct) then some 415
    else
      match accept with
      | none => some 406
      | some a =>
        if !hasSub appJson (strOrEmpty a) && !hasSub eventStream (strOrEmpty a) then some 406 else none

/-- `validate_headers(headers, "GET")`, /repo/src/server/streamable_http_server.rs L327-346. -/
def validateGet (accept : Option Hdr) : Option Nat :=
  match accept with
  | none => some 406
  | some a => if !hasSub eventStream (strOrEmpty a) then some 406 else none

/-- Messages (responses), abstract. (/repo/src/server/streamable_http_server.rs L609-676.) -/
abbrev Msg := Nat

/-- The parsed body of a POST, /repo/src/server/streamable_http_server.rs L557-582. -/
inductive Body where
  | invalid
  | init (req : Nat)
  | request (req : Nat)
  | notification (n : Nat)
  | response (n : Nat)
  deriving DecidableEq

/-- A POST request: the headers that are looked at, and the body. /repo/src/server/streamable_http_server.rs
L288-352, L546-585. -/
structure Post where
  contentType : Option Hdr
  accept : Option Hdr
  sid : Option Hdr
  version : Option Hdr
  body : Body
  deriving DecidableEq

/-- `SessionInfo`, /repo/src/server/streamable_http_server.rs L203-206. -/
structure SessionInfo where
  initialized : Bool
  version : Option Text
  deriving DecidableEq

/-- Configuration, /repo/src/server/streamable_http_server.rs L160-171: whether there is a session id
generator, whether responses are JSON, whether there is an event store. -/
structure Config where
  stateful : Bool := true
  json : Bool := false
  store : Bool := true
  deriving DecidableEq

/-- An admitted POST request waiting for the MCP server: the session id of the client's header, the
session id for the response, whether it is an initialization, and the request.
/repo/src/server/streamable_http_server.rs L580-613. -/
structure Pending where
  clientSid : Option Text
  respSid : Option Text
  isInit : Bool
  req : Nat
  deriving DecidableEq

/-- A GET request in progress: its session, whether the check for an existing stream is done, and its
`Last-Event-ID`. /repo/src/server/streamable_http_server.rs L679-750. -/
structure PendingGet where
  sid : Text
  checked : Bool
  lastEvent : Option Text
  deriving DecidableEq

/-- An SSE stream: its session, whether its client still reads, the messages queued in its channel, and
those sent to the client with their event ids. /repo/src/server/streamable_http_server.rs L730-795. -/
structure Stream where
  sid : Text
  connected : Bool
  queue : List Msg
  delivered : List (Text × Msg)
  deriving DecidableEq

/-- `InMemoryEventStore`, /repo/src/server/streamable_http_server.rs L57-64. -/
structure Store where
  events : AMap Text (List (Text × Msg)) := []
  streamOf : AMap Text Text := []
  order : List Text := []
  deriving DecidableEq

/-- `store_event`, /repo/src/server/streamable_http_server.rs L68-84. -/
def storeEvent (st : Store) (stream ev : Text) (m : Msg) : Store where
  events := AMap.insert st.events stream ((AMap.get st.events stream).getD [] ++ [(ev, m)])
  streamOf := AMap.insert st.streamOf ev stream
  order := st.order ++ [ev]

/-- The lookup of one event of the replay loop, /repo/src/server/streamable_http_server.rs L103-114. -/
def lookupEvent (st : Store) (ev : Text) : Option (Text × Msg) :=
  match AMap.get st.streamOf ev with
  | none => none
  | some stream =>
    match AMap.get st.events stream with
    | none => none
    | some evs => evs.find? (fun e => decide (e.1 = ev))

/-- `start_pos`, /repo/src/server/streamable_http_server.rs L94-97. -/
def startPos (order : List Text) (last : Text) : Nat :=
  match order.findIdx? (fun id => decide (id = last)) with
  | some p => p + 1
  | none => 0

/-- `replay_events_after`, /repo/src/server/streamable_http_server.rs L86-118. -/
def replayAfter (st : Store) (last : Text) : List (Text × Msg) :=
  (st.order.drop (startPos st.order last)).filterMap (lookupEvent st)

/-- `ServerState`, /repo/src/server/streamable_http_server.rs L210-217, with the requests in progress and
a log of the requests passed to the MCP server (`server.handle_request`, L614). -/
structure State where
  sessions : AMap Text SessionInfo := []
  /-- `sse_streams`: the sender of session `sid` belongs to stream number `k`. -/
  senders : AMap Text Nat := []
  streams : List Stream := []
  store : Store := {}
  posts : List Pending := []
  gets : List PendingGet := []
  handled : List (Option Text × Nat) := []
  deriving DecidableEq

/-- Where the response to a request goes. /repo/src/server/streamable_http_server.rs L463-501, L609-676. -/
inductive Body2 where
  /-- in the HTTP response itself -/
  | here (m : Msg)
  /-- queued on an SSE stream -/
  | stream
  | none
  deriving DecidableEq

/-- Outcome of a step. /repo/src/server/streamable_http_server.rs L546-830. -/
inductive Out where
  /-- a response without MCP headers -/
  | status (code : Nat)
  /-- a response with the session and version headers -/
  | reply (code : Nat) (sid : Option Text) (version : Text) (body : Body2)
  /-- the request goes on -/
  | goesOn
  /-- an SSE stream is opened -/
  | opened (k : Nat)
  | nothing
  deriving DecidableEq

/-- `process_init_session`, /repo/src/server/streamable_http_server.rs L354-395. -/
def processInit (c : Config) (s : State) (sid version : Option Text) (newId : Text) :
    State × Except Nat (Option Text) :=
  if c.stateful then
    match sid with
    | some sid =>
      match AMap.get s.sessions sid with
      | some info => if info.initialized then (s, .error 400) else (s, .ok (some sid))
      | none => (s, .ok (some sid))
    | none =>
      ({ s with sessions := AMap.insert s.sessions newId ⟨false, version⟩ }, .ok (some newId))
  else (s, .ok none)

/-- `validate_non_init_session`, /repo/src/server/streamable_http_server.rs L398-431. -/
def validateNonInit (c : Config) (s : State) (sid : Option Text) : Except Nat (Option Text) :=
  if c.stateful then
    match sid with
    | none => .error 400
    | some sid => if AMap.contains s.sessions sid then .ok (some sid) else .error 404
  else .ok none

/-- `validate_protocol_version`, /repo/src/server/streamable_http_server.rs L504-543: `none` is success. -/
def validateVersion (c : Config) (s : State) (sid version : Option Text) : Option Nat :=
  match version with
  | none => none
  | some v =>
    if v ∉ supported then some 400
    else if c.stateful then
      match sid with
      | none => none
      | some sid =>
        match AMap.get s.sessions sid with
        | none => none
        | some info =>
          match info.version with
          | none => none
          | some negotiated => if v ≠ negotiated then some 400 else none
    else none

/-- The first step of `handle_post_request`, /repo/src/server/streamable_http_server.rs L546-612 and
L669-674. -/
def post (c : Config) (s : State) (p : Post) (newId : Text) : State × Out :=
  match validatePost p.contentType p.accept with
  | some code => (s, .status code)
  | none =>
    match p.body with
    | .invalid => (s, .status 400)
    | .init req =>
      match processInit c s (strOf p.sid) (strOf p.version) newId with
      | (s', .error code) => (s', .status code)
      | (s', .ok respSid) =>
        ({ s' with posts := s'.posts ++ [⟨strOf p.sid, respSid, true, req⟩] }, .goesOn)
    | .request req =>
      match validateNonInit c s (strOf p.sid) with
      | .error code => (s, .status code)
      | .ok respSid =>
        match validateVersion c s (strOf p.sid) (strOf p.version) with
        | some code => (s, .status code)
        | none => ({ s with posts := s.posts ++ [⟨strOf p.sid, respSid, false, req⟩] }, .goesOn)
    | .notification _ =>
      match validateNonInit c s (strOf p.sid) with
      | .error code => (s, .status code)
      | .ok _ =>
        match validateVersion c s (strOf p.sid) (strOf p.version) with
        | some code => (s, .status code)
        | none => (s, .status 202)
    | .response _ =>
      match validateNonInit c s (strOf p.sid) with
      | .error code => (s, .status code)
      | .ok _ =>
        match validateVersion c s (strOf p.sid) (strOf p.version) with
        | some code => (s, .status code)
        | none => (s, .status 202)

/-- `update_session_after_init`, /repo/src/server/streamable_http_server.rs L448-460. -/
def updateAfterInit (s : State) (sid : Option Text) (negotiated : Option Text) : State :=
  match sid with
  | none => s
  | some sid =>
    match AMap.get s.sessions sid with
    | none => s
    | some _ =>
      { s with sessions := AMap.insert s.sessions sid ⟨true, some (negotiated.getD defaultVersion)⟩ }

/-- `sender.send(msg)` on the sender of stream `k`: lost if the receiver is gone.
(/repo/src/server/streamable_http_server.rs L463-501.) -/
def sendTo (s : State) (k : Nat) (m : Msg) : State :=
  match s.streams[k]? with
  | some st => if st.connected then { s with streams := s.streams.set k { st with queue := st.queue ++ [m] } } else s
  | none => s

/-- `build_response`, /repo/src/server/streamable_http_server.rs L463-501: state, status, body. -/
def buildResponse (c : Config) (s : State) (clientSid : Option Text) (m : Msg) : State × Nat × Body2 :=
  if c.json then (s, 200, .here m)
  else
    match clientSid with
    | none => (s, 200, .here m)
    | some sid =>
      match AMap.get s.senders sid with
      | some k => (sendTo s k m, 202, .stream)
      | none => (s, 200, .here m)

/-- The version header of a response, /repo/src/server/streamable_http_server.rs L641-660. -/
def versionHeader (s : State) (p : Pending) (negotiated : Option Text) : Text :=
  if p.isInit then negotiated.getD defaultVersion
  else
    match p.respSid with
    | none => defaultVersion
    | some sid =>
      match AMap.get s.sessions sid with
      | none => defaultVersion
      | some info => info.version.getD defaultVersion

/-- The second step of `handle_post_request`, /repo/src/server/streamable_http_server.rs L612-667:
`resp` is the answer of the MCP server, `negotiated` the version in it, `ev` the fresh event id. -/
def process (c : Config) (s : State) (i : Nat) (resp : Msg) (negotiated : Option Text) (ev : Text) :
    State × Out :=
  match s.posts[i]? with
  | none => (s, .nothing)
  | some p =>
    let s := { s with posts := s.posts.eraseIdx i, handled := s.handled ++ [(p.clientSid, p.req)] }
    let s := if p.isInit then updateAfterInit s p.respSid negotiated else s
    let s := if c.store then
        match p.respSid with
        | some sid => { s with store := storeEvent s.store sid ev resp }
        | none => s
      else s
    let (s, code, body) := buildResponse c s p.clientSid resp
    (s, .reply code p.respSid (versionHeader s p negotiated) body)

/-- The first step of `handle_get_sse`, /repo/src/server/streamable_http_server.rs L679-720. -/
def getStart (c : Config) (s : State) (accept sid lastEvent : Option Hdr) (newId : Text) : State × Out :=
  match validateGet accept with
  | some code => (s, .status code)
  | none =>
    match strOf sid with
    | some sid =>
      if c.stateful && !AMap.contains s.sessions sid then (s, .status 404)
      else ({ s with gets := s.gets ++ [⟨sid, false, strOf lastEvent⟩] }, .goesOn)
    | none =>
      if c.stateful then
        ({ s with
            sessions := AMap.insert s.sessions newId ⟨true, none⟩
            gets := s.gets ++ [⟨newId, false, strOf lastEvent⟩] }, .goesOn)
      else (s, .status 405)

/-- The second step of `handle_get_sse`, /repo/src/server/streamable_http_server.rs L723-729. -/
def getCheck (s : State) (i : Nat) : State × Out :=
  match s.gets[i]? with
  | some ⟨sid, false, last⟩ =>
    if AMap.contains s.senders sid then ({ s with gets := s.gets.eraseIdx i }, .status 409)
    else ({ s with gets := s.gets.set i ⟨sid, true, last⟩ }, .goesOn)
  | _ => (s, .nothing)

/-- The third step of `handle_get_sse`, /repo/src/server/streamable_http_server.rs L732-795: insertion of
the sender and replay. -/
def getOpen (c : Config) (s : State) (i : Nat) : State × Out :=
  match s.gets[i]? with
  | some ⟨sid, true, last⟩ =>
    let replay := match last with
      | some last => if c.store then (replayAfter s.store last).map Prod.snd else []
      | none => []
    ({ s with
        gets := s.gets.eraseIdx i
        senders := AMap.insert s.senders sid s.streams.length
        streams := s.streams ++ [⟨sid, true, replay, []⟩] }, .opened s.streams.length)
  | _ => (s, .nothing)

/-- `handle_delete_session`, /repo/src/server/streamable_http_server.rs L798-833. -/
def delete (c : Config) (s : State) (sid : Option Hdr) : State × Out :=
  match strOf sid with
  | none => (s, .status 404)
  | some sid =>
    if !AMap.contains s.sessions sid && c.stateful then (s, .status 404)
    else ({ s with
        senders := AMap.remove s.senders sid
        sessions := AMap.remove s.sessions sid }, .status 200)

/-- The client of stream `k` goes away (the receiver is dropped).  No code of the server reacts to it.
(/repo/src/server/streamable_http_server.rs L730-795.) -/
def disconnect (s : State) (k : Nat) : State :=
  match s.streams[k]? with
  | some st => { s with streams := s.streams.set k { st with connected := false } }
  | none => s

/-- The next queued message of stream `k` is sent to the client under a fresh event id and stored again,
/repo/src/server/streamable_http_server.rs L757-777. -/
def deliver (c : Config) (s : State) (k : Nat) (ev : Text) : State :=
  match s.streams[k]? with
  | some ⟨sid, true, m :: queue, delivered⟩ =>
    { s with
      streams := s.streams.set k ⟨sid, true, queue, delivered ++ [(ev, m)]⟩
      store := if c.store then storeEvent s.store sid ev m else s.store }
  | _ => s

/-- Steps. /repo/src/server/streamable_http_server.rs L546-830. -/
inductive Op where
  | post (p : Post) (newId : Text)
  | process (i : Nat) (resp : Msg) (negotiated : Option Text) (ev : Text)
  | getStart (accept sid lastEvent : Option Hdr) (newId : Text)
  | getCheck (i : Nat)
  | getOpen (i : Nat)
  | delete (sid : Option Hdr)
  | disconnect (k : Nat)
  | deliver (k : Nat) (ev : Text)
  deriving DecidableEq

/-- One step. /repo/src/server/streamable_http_server.rs L546-830. -/
def step (c : Config) (s : State) : Op → State × Out
  | .post p newId => post c s p newId
  | .process i resp negotiated ev => process c s i resp negotiated ev
  | .getStart accept sid last newId => getStart c s accept sid last newId
  | .getCheck i => getCheck s i
  | .getOpen i => getOpen c s i
  | .delete sid => delete c s sid
  | .disconnect k => (disconnect s k, .nothing)
  | .deliver k ev => (deliver c s k ev, .nothing)

/-- The state after a history. (Requests handled by /repo/src/server/streamable_http_server.rs L546-830.) -/
def run (c : Config) (s : State) (h : List Op) : State := h.foldl (fun s op => (step c s op).1) s

end Verif.HttpServer
