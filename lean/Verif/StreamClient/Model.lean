import Verif.Sse.Model
import Verif.Connect.Model

/-
The client's streamable HTTP transport: src/shared/streamable_http.rs L125-477. A request is put on the wire and its
answer processed later, so sends of the cloned transport interleave; the tasks that read event streams are separate
steps. The header map of a response is reduced to the two headers read; a header that is not visible ASCII counts as
absent (`to_str` fails). `extra_headers` are fixed and left out.
-/

namespace Verif.StreamClient

open Verif Verif.Sse

/-- What the transport needs of serde: one message, a batch of messages. (/repo/src/shared/streamable_http.rs
L191-433.) -/
structure Codec (M : Type) where
  one : Text → Option M
  batch : Text → Option (List M)

/-- The methods of the requests, /repo/src/shared/streamable_http.rs L191-477. -/
inductive Method
  | get | post | delete
deriving DecidableEq, Repr

/-- A request as built by `build_request` (L263-298) and its caller. -/
structure Req (M : Type) where
  method : Method
  session : Option Text
  version : Option Text
  /-- `Last-Event-ID` (L204-206) -/
  lastEvent : Option Text
  body : Option M

/-- The parts of a response that are read. /repo/src/shared/streamable_http.rs L301-433. -/
structure Resp where
  status : Nat
  session : Option Text
  version : Option Text
  contentType : Text
  /-- the whole body; none if the connection breaks while it is read -/
  body : Option Text

/-- `StatusCode::is_success`. (/repo/src/shared/streamable_http.rs L346-361.) -/
def Resp.success (r : Resp) : Bool := decide (200 ≤ r.status ∧ r.status < 300)

/-- A task reading an event stream: its number and the text received so far.
/repo/src/shared/streamable_http.rs L235-257, L398-420. -/
structure Stream where
  key : Nat
  text : Text

/-- `StreamableHttpTransport` (L125-138): `queue` is the channel, `requests` what was put on the wire, `tokens` the
calls of `on_resumption_token`. -/
structure State (M : Type) where
  session : Option Text
  version : Option Text
  lastEvent : Option Text := none
  queue : List M := []
  requests : List (Req M) := []
  tokens : List Text := []
  streams : List Stream := []
  nextKey : Nat := 0
  /-- `abort_handle`: the task of the GET stream -/
  handle : Option Nat := none

/-- What a call returns, /repo/src/shared/streamable_http.rs L191-477. -/
inductive Result
  | ok
  /-- an access token could not be had: nothing was sent -/
  | auth
  /-- the request failed: no answer -/
  | network
  /-- a status other than success -/
  | status (n : Nat)
  /-- the body could not be read or is not a message -/
  | body
  | contentType
deriving DecidableEq, Repr

/-- `new` (L152-163). -/
def init {M : Type} (session : Option Text) : State M := { session := session, version := none }

/-- `build_request` (L263-298). -/
def request {M : Type} (s : State M) (method : Method) (lastEvent : Option Text) (body : Option M) : Req M :=
  ⟨method, s.session, s.version, lastEvent, body⟩

/-- `process_response_headers` (L301-315). -/
def headers {M : Type} (s : State M) (r : Resp) : State M :=
  { s with session := r.session.or s.session, version := r.version.or s.version }

/-- The event type read, /repo/src/shared/streamable_http.rs L251-255, L414-418. -/
def kMessage : Text := ['m', 'e', 's', 's', 'a', 'g', 'e']
/-- A content type, /repo/src/shared/http_constants.rs L21. -/
def kJson : Text := "application/json".toList
/-- A content type, /repo/src/shared/http_constants.rs L24. -/
def kStream : Text := "text/event-stream".toList

/-- L241-256 and L404-419: one event of a stream. -/
def onEvent {M : Type} (C : Codec M) (s : State M) (e : Event) : State M :=
  let s := match e.id with
    | some i => { s with lastEvent := some i, tokens := s.tokens ++ [i] }
    | none => s
  if e.event = some kMessage ∨ e.event = none then
    match C.one e.data with
    | some m => { s with queue := s.queue ++ [m] }
    | none => s
  else s

/-- The rest of the reading task once the body has ended (L236-256, L399-419): the whole body is parsed. A panic of the
parser ends the task. -/
def onBody {M : Type} (C : Codec M) (s : State M) (body : Text) : State M :=
  match feed {} body with
  | none => s
  | some (_, es) => es.foldl (onEvent C) s

/-- A new reading task. (/repo/src/shared/streamable_http.rs L235-257, L398-420.) -/
def spawn {M : Type} (s : State M) : State M :=
  { s with streams := s.streams ++ [⟨s.nextKey, []⟩], nextKey := s.nextKey + 1 }

/-- L193-196 and L453-456: the task of the GET stream is aborted. -/
def abort {M : Type} (s : State M) : State M :=
  { s with streams := s.streams.filter (fun t => some t.key ≠ s.handle), handle := none }

/-- The answer to a POST (L344-431), after its headers were processed. -/
def onAnswer {M : Type} (C : Codec M) (s : State M) (r : Resp) : State M × Result :=
  let s := headers s r
  if r.success = false then (s, .status r.status)
  else if Connect.hasText kJson r.contentType = true then
    match r.body with
    | none => (s, .body)
    | some b => match C.batch b with
      | some ms => ({ s with queue := s.queue ++ ms }, .ok)
      | none => match C.one b with
        | some m => ({ s with queue := s.queue ++ [m] }, .ok)
        | none => (s, .body)
  else if Connect.hasText kStream r.contentType = true then (spawn s, .ok)
  else if r.status = 202 then (s, .ok)
  else (s, .contentType)

/-- The answer to a GET (L211-260). -/
def onStreamAnswer {M : Type} (s : State M) (r : Resp) : State M × Result :=
  if r.status = 405 then (s, .ok)
  else if r.success = false then (s, .status r.status)
  else
    let s := headers s r
    ({ spawn s with handle := some s.nextKey }, .ok)

/-- Calls, answers and reading tasks, /repo/src/shared/streamable_http.rs L166-477. -/
inductive Op (M : Type)
  /-- `set_session_id` (L171-173) -/
  | setSession (s : Option Text)
  /-- `set_protocol_version` (L181-183) -/
  | setVersion (v : Option Text)
  /-- `send` up to the request (L318-342); `auth` says whether an access token was had -/
  | post (m : M) (auth : Bool)
  /-- its answer (none: the request failed) -/
  | answer (r : Option Resp)
  /-- `start_sse` up to the request (L191-208) -/
  | open (token : Option Text) (auth : Bool)
  /-- its answer -/
  | streamAnswer (r : Option Resp)
  /-- text arrives on a stream -/
  | chunk (key : Nat) (t : Text)
  /-- a stream ends -/
  | finish (key : Nat)
  /-- a stream breaks: `text().await.unwrap_or_default()` (L237, L400) -/
  | broken (key : Nat)
  /-- `close` (L451-477) -/
  | close (auth : Bool)

/-- One step. /repo/src/shared/streamable_http.rs L166-477. -/
def step {M : Type} (C : Codec M) (s : State M) : Op M → State M × Result
  | .setSession x => ({ s with session := x }, .ok)
  | .setVersion v => ({ s with version := v }, .ok)
  | .post m auth =>
    if auth = true then ({ s with requests := s.requests ++ [request s .post none (some m)] }, .ok) else (s, .auth)
  | .answer none => (s, .network)
  | .answer (some r) => onAnswer C s r
  | .open token auth =>
    let s := abort s
    if auth = true then ({ s with requests := s.requests ++ [request s .get token none] }, .ok) else (s, .auth)
  | .streamAnswer none => (s, .network)
  | .streamAnswer (some r) => onStreamAnswer s r
  | .chunk key t =>
    ({ s with streams := s.streams.map (fun x => if x.key = key then ⟨x.key, x.text ++ t⟩ else x) }, .ok)
  | .finish key =>
    match s.streams.find? (fun x => x.key == key) with
    | none => (s, .ok)
    | some x => (onBody C { s with streams := s.streams.filter (fun y => y.key ≠ key) } x.text, .ok)
  | .broken key =>
    match s.streams.find? (fun x => x.key == key) with
    | none => (s, .ok)
    | some _ => (onBody C { s with streams := s.streams.filter (fun y => y.key ≠ key) } [], .ok)
  | .close auth =>
    let s := abort s
    match s.session with
    | none => (s, .ok)
    | some _ =>
      if auth = true then
        ({ s with requests := s.requests ++ [request s .delete none none], session := none }, .ok)
      else (s, .auth)

/-- A history of steps of /repo/src/shared/streamable_http.rs L166-477. -/
def run {M : Type} (C : Codec M) (s : State M) : List (Op M) → State M
  | [] => s
  | op :: ops => run C (step C s op).1 ops

/-- `send_with_options` (L318-432) undisturbed: `r` is the answer of the server. -/
def send {M : Type} (C : Codec M) (s : State M) (m : M) (token : Option Text) (auth : Bool) (r : Option Resp) :
    State M × Result :=
  match token with
  | some t =>
    let (s, res) := step C s (.open (some t) auth)
    if res = .ok then step C s (.streamAnswer r) else (s, res)
  | none =>
    let (s, res) := step C s (.post m auth)
    if res = .ok then step C s (.answer r) else (s, res)

end Verif.StreamClient
