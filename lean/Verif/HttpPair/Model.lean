import Verif.HttpServer.Answers
import Verif.StreamClient.Props

/-
The client's streamable HTTP transport (/repo/src/shared/streamable_http.rs) talking to the streamable HTTP server
(/repo/src/server/streamable_http_server.rs): the models `Verif.StreamClient` and `Verif.HttpServer` joined by the
requests the one builds and the answers the other gives.  The client waits for the answer of one call before it makes
the next (`&mut self`); other clients, and the server itself, act at any time between its steps.  The network does not
fail, and access tokens are had.
-/

namespace Verif.HttpPair

open Verif

/-- Strings. (/repo/src/shared/streamable_http.rs L127-140.) -/
abbrev Text := List Char

/-- What serde does with the messages on both sides: the client's reading of bodies, the server's reading of the
client's messages (/repo/src/shared/streamable_http.rs L331-332, /repo/src/server/streamable_http_server.rs L556-582),
the text of an answer (streamable_http_server.rs L470, L488, L498), and the answer as a message of the client. -/
structure Link (M : Type) where
  codec : StreamClient.Codec M
  body : M → HttpServer.Body
  json : HttpServer.Msg → Text
  msg : HttpServer.Msg → M

/-- `ACCEPT_STREAMABLE`, /repo/src/shared/http_constants.rs L27. -/
def acceptBoth : Text := "application/json, text/event-stream".toList

/-- A header as the other side reads it with `to_str`: /repo/src/shared/streamable_http.rs L301-315,
/repo/src/server/streamable_http_server.rs L565-574. -/
def seen (t : Text) : Option Text := HttpServer.strOf (some (HttpServer.sentBack t))

/-- The POST the client makes, as the server sees it: /repo/src/shared/streamable_http.rs L263-298, L331-342. -/
def postOf {M : Type} (L : Link M) (cl : StreamClient.State M) (m : M) : HttpServer.Post where
  contentType := some (.text StreamClient.kJson)
  accept := some (.text acceptBoth)
  sid := cl.session.map HttpServer.sentBack
  version := cl.version.map HttpServer.sentBack
  body := L.body m

/-- An answer without MCP headers (an error, or `202 Accepted` to a notification), as the client sees it:
/repo/src/server/streamable_http_server.rs L433-445, L669-674.  Only the status of an error is looked at. -/
def plain (code : Nat) : StreamClient.Resp := ⟨code, none, none, [], some []⟩

/-- Whether the answer to a request is JSON and not a stream of one event,
/repo/src/server/streamable_http_server.rs L463-501. -/
def asJson (c : HttpServer.Config) (clientSid : Option Text) : Bool := c.json || clientSid.isNone

/-- The answer to a request (/repo/src/server/streamable_http_server.rs L463-501, L630-667), as the client sees it.
The body of an event stream comes later. -/
def respOf {M : Type} (L : Link M) (js : Bool) (code : Nat) (sid : Option Text) (version : Text) :
    HttpServer.Body2 → StreamClient.Resp
  | .here m => if js = true then ⟨code, sid.bind seen, seen version, StreamClient.kJson, some (L.json m)⟩
      else ⟨code, sid.bind seen, seen version, StreamClient.kStream, some []⟩
  | _ => ⟨code, sid.bind seen, seen version, [], some []⟩

/-- The event in which an answer is sent, /repo/src/server/streamable_http_server.rs L484-489, L771-776.  Crate `axum`
writes the fields in this order, as `Display for SseEvent` does (/repo/src/shared/sse_parser.rs L93-113). -/
def eventOf {M : Type} (L : Link M) (ev : Text) (m : HttpServer.Msg) : Sse.Event :=
  ⟨some ev, some StreamClient.kMessage, L.json m, none⟩

/-- What the client is doing: nothing, waiting for the answer to its POST (the number of the request at the server),
or for its stream. (/repo/src/shared/streamable_http.rs L191-261, L318-432.) -/
inductive Phase where
  | idle
  | posting (i : Nat)
  | opening (i : Nat)
  deriving DecidableEq

/-- Both sides, and what is between them. (/repo/src/shared/streamable_http.rs L127-140,
/repo/src/server/streamable_http_server.rs L210-217.) -/
structure Sys (M : Type) where
  srv : HttpServer.State := {}
  cl : StreamClient.State M
  phase : Phase := .idle
  /-- answers sent as a stream of one event: the client's reading task, the event id, the answer -/
  bodies : List (Nat × Text × HttpServer.Msg) := []
  /-- streams opened by GET: the number at the server, the client's reading task -/
  opened : List (Nat × Nat) := []
  /-- what the last finished call of the client returned -/
  last : StreamClient.Result := .ok

/-- Steps. (/repo/src/shared/streamable_http.rs L166-477, /repo/src/server/streamable_http_server.rs L546-833.) -/
inductive Op (M : Type) where
  /-- `send` up to the point where the request waits for the MCP server, or is refused -/
  | send (m : M) (newId : Text)
  /-- the MCP server answers -/
  | answered (resp : HttpServer.Msg) (negotiated : Option Text) (ev : Text)
  /-- the reading task of an answer of one event runs -/
  | arrive (j : Nat)
  /-- `start_sse` up to the check for another stream -/
  | open (token : Option Text) (newId : Text)
  /-- the check for another stream (L723-729) -/
  | check
  /-- the stream is there -/
  | opened
  /-- the reading task of a stream runs once the server has ended the stream -/
  | ends (j : Nat)
  /-- `close` -/
  | close
  /-- `set_session_id` -/
  | setSession (x : Option Text)
  /-- a request of another client, or the server's own work -/
  | other (op : HttpServer.Op)

/-- The number of the client's POST after a step of others: /repo/src/server/streamable_http_server.rs L612-667. -/
def shiftPost (i : Nat) : HttpServer.Op → Nat
  | .process j _ _ _ => if j < i then i - 1 else i
  | _ => i

/-- The number of the client's GET after a step of others, which may take a GET before it off the list.
(/repo/src/server/streamable_http_server.rs L723-752.) -/
def shiftGet (gone : Bool) (i : Nat) : HttpServer.Op → Nat
  | .getCheck j => if gone && decide (j < i) then i - 1 else i
  | .getOpen j => if gone && decide (j < i) then i - 1 else i
  | _ => i

/-- A step of others is not one of the client's own request. (/repo/src/server/streamable_http_server.rs L546-833.) -/
def notMine (ph : Phase) : HttpServer.Op → Bool
  | .process j _ _ _ => decide (ph ≠ .posting j)
  | .getCheck j => decide (ph ≠ .opening j)
  | .getOpen j => decide (ph ≠ .opening j)
  | _ => true

/-- The client's phase after a step of others. (/repo/src/server/streamable_http_server.rs L546-833.) -/
def shift (gone : Bool) (op : HttpServer.Op) : Phase → Phase
  | .idle => .idle
  | .posting i => .posting (shiftPost i op)
  | .opening i => .opening (shiftGet gone i op)

/-- The whole text of a stream is read by its task. (/repo/src/shared/streamable_http.rs L232-255, L392-418.) -/
def read {M : Type} (L : Link M) (cl : StreamClient.State M) (key : Nat) (text : Text) : StreamClient.State M :=
  (StreamClient.step L.codec (StreamClient.step L.codec cl (.chunk key text)).1 (.finish key)).1

/-- `send`, first part: /repo/src/shared/streamable_http.rs L318-342,
/repo/src/server/streamable_http_server.rs L546-612. -/
def send {M : Type} (c : HttpServer.Config) (L : Link M) (s : Sys M) (m : M) (newId : Text) : Option (Sys M) :=
  let p := HttpServer.post c s.srv (postOf L s.cl m) newId
  let cl := (StreamClient.step L.codec s.cl (.post m true)).1
  match p.2 with
  | .status code =>
    let a := StreamClient.step L.codec cl (.answer (some (plain code)))
    some { s with srv := p.1, cl := a.1, last := a.2 }
  | .goesOn => some { s with srv := p.1, cl := cl, phase := .posting s.srv.posts.length }
  | _ => none

/-- `send`, second part: /repo/src/server/streamable_http_server.rs L612-667,
/repo/src/shared/streamable_http.rs L343-430. -/
def answered {M : Type} (c : HttpServer.Config) (L : Link M) (s : Sys M) (i : Nat) (resp : HttpServer.Msg)
    (negotiated : Option Text) (ev : Text) : Option (Sys M) :=
  let p := HttpServer.process c s.srv i resp negotiated ev
  match s.srv.posts[i]?, p.2 with
  | some q, .reply code sid version body =>
    let js := asJson c q.clientSid
    let a := StreamClient.step L.codec s.cl (.answer (some (respOf L js code sid version body)))
    some { s with
      srv := p.1, cl := a.1, last := a.2, phase := .idle
      bodies := s.bodies ++ (match body with
        | .here m => if js = true then [] else [(s.cl.nextKey, ev, m)]
        | _ => []) }
  | _, _ => none

/-- `start_sse`, up to the check: /repo/src/shared/streamable_http.rs L191-210,
/repo/src/server/streamable_http_server.rs L679-720. -/
def openStream {M : Type} (c : HttpServer.Config) (L : Link M) (s : Sys M) (token : Option Text) (newId : Text) :
    Option (Sys M) :=
  let p := HttpServer.getStart c s.srv (some (.text StreamClient.kStream)) (s.cl.session.map HttpServer.sentBack)
    (token.map HttpServer.sentBack) newId
  let cl := (StreamClient.step L.codec s.cl (.open token true)).1
  match p.2 with
  | .status code =>
    let a := StreamClient.step L.codec cl (.streamAnswer (some (plain code)))
    some { s with srv := p.1, cl := a.1, last := a.2 }
  | .goesOn => some { s with srv := p.1, cl := cl, phase := .opening s.srv.gets.length }
  | _ => none

/-- `start_sse`, the check: /repo/src/server/streamable_http_server.rs L723-729. -/
def checkStream {M : Type} (L : Link M) (s : Sys M) (i : Nat) : Option (Sys M) :=
  let p := HttpServer.getCheck s.srv i
  match p.2 with
  | .status code =>
    let a := StreamClient.step L.codec s.cl (.streamAnswer (some (plain code)))
    some { s with srv := p.1, cl := a.1, last := a.2, phase := .idle }
  | .goesOn => some { s with srv := p.1 }
  | _ => none

/-- `start_sse`, the end: /repo/src/server/streamable_http_server.rs L732-795,
/repo/src/shared/streamable_http.rs L212-260. -/
def openedStream {M : Type} (c : HttpServer.Config) (L : Link M) (s : Sys M) (i : Nat) : Option (Sys M) :=
  let p := HttpServer.getOpen c s.srv i
  match s.srv.gets[i]?, p.2 with
  | some g, .opened k =>
    let a := StreamClient.step L.codec s.cl
      (.streamAnswer (some ⟨200, seen g.sid, none, StreamClient.kStream, some []⟩))
    some { s with
      srv := p.1, cl := a.1, last := a.2, phase := .idle, opened := s.opened ++ [(k, s.cl.nextKey)] }
  | _, _ => none

/-- The server ended stream `k`: its sender is gone and everything was sent.
/repo/src/server/streamable_http_server.rs L732-736, L818. -/
def ended (srv : HttpServer.State) (k : Nat) : Bool :=
  srv.senders.all (fun e => decide (e.2 ≠ k)) &&
    (match srv.streams[k]? with | some st => decide (st.queue = []) | none => false)

/-- The text sent on stream `k`. /repo/src/server/streamable_http_server.rs L757-776. -/
def textOf {M : Type} (L : Link M) (srv : HttpServer.State) (k : Nat) : Text :=
  match srv.streams[k]? with
  | some st => st.delivered.flatMap (fun e => Sse.display (eventOf L e.1 e.2))
  | none => []

/-- One step; none if it is not possible. (/repo/src/shared/streamable_http.rs L166-477,
/repo/src/server/streamable_http_server.rs L546-833.) -/
def step {M : Type} (c : HttpServer.Config) (L : Link M) (s : Sys M) : Op M → Option (Sys M)
  | .send m newId => if s.phase = .idle then send c L s m newId else none
  | .answered resp neg ev =>
    match s.phase with
    | .posting i => answered c L s i resp neg ev
    | _ => none
  | .arrive j =>
    match s.bodies[j]? with
    | some (key, ev, m) =>
      some { s with cl := read L s.cl key (Sse.display (eventOf L ev m)), bodies := s.bodies.eraseIdx j }
    | none => none
  | .open token newId => if s.phase = .idle then openStream c L s token newId else none
  | .check =>
    match s.phase with
    | .opening i => checkStream L s i
    | _ => none
  | .opened =>
    match s.phase with
    | .opening i => openedStream c L s i
    | _ => none
  | .ends j =>
    match s.opened[j]? with
    | some (k, key) =>
      if ended s.srv k = true then
        some { s with cl := read L s.cl key (textOf L s.srv k), opened := s.opened.eraseIdx j }
      else none
    | none => none
  | .close =>
    if s.phase = .idle then
      let a := StreamClient.step L.codec s.cl (.close true)
      some { s with
        cl := a.1, last := a.2
        srv := match s.cl.session with
          | none => s.srv
          | some x => (HttpServer.delete c s.srv (some (HttpServer.sentBack x))).1 }
    else none
  | .setSession x => some { s with cl := (StreamClient.step L.codec s.cl (.setSession x)).1 }
  | .other op =>
    if notMine s.phase op = true then
      let srv := (HttpServer.step c s.srv op).1
      some { s with srv := srv, phase := shift (decide (srv.gets.length < s.srv.gets.length)) op s.phase }
    else none

/-- A schedule; none if a step is not possible. (/repo/src/shared/streamable_http.rs L166-477,
/repo/src/server/streamable_http_server.rs L546-833.) -/
def run {M : Type} (c : HttpServer.Config) (L : Link M) (s : Sys M) : List (Op M) → Option (Sys M)
  | [] => some s
  | op :: ops =>
    match step c L s op with
    | none => none
    | some s => run c L s ops

end Verif.HttpPair
