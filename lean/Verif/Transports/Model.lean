import Verif.Common.AMap

/-
The other transports: the HTTP client (src/shared/http.rs), the WebSocket client (src/shared/websocket.rs) and the
WebSocket server (src/server/transport/websocket.rs). Texts are an abstract type `T` with the parser
`StdioTransport::parse_message` as a parameter; serializing a message may fail (`ser`).
-/

namespace Verif.Transports

open Verif

/-! ### HTTP client -/

namespace Http

/-- The configuration that matters (http.rs L24-36): the headers the program asked for. -/
structure Config where
  headers : List (String × String)

/-- A POST: its headers and its message. /repo/src/shared/http.rs L182-205. -/
structure Req (M : Type) where
  headers : List (String × String)
  body : M

/-- `HttpTransport` (L52-58): `queue` is the channel of capacity 100. -/
structure State (M : Type) where
  config : Config
  connected : Bool := false
  queue : List M := []
  requests : List (Req M) := []

/-- What comes back: nothing in time, an error, or a status and a body (none if it breaks).
/repo/src/shared/http.rs L205-234. -/
inductive Answer (T : Type)
  | timeout
  | failed
  | response (status : Nat) (body : Option T)

/-- What `send` returns, /repo/src/shared/http.rs L182-242. -/
inductive Result
  | ok | timeout | failed | status (n : Nat) | body | serialize
  /-- waits for room in the channel -/
  | waits
deriving DecidableEq, Repr

/-- L78. -/
def capacity : Nat := 100

/-- `send_request` (L182-234), and `send` (L239-242). The request is counted as written also when no answer comes:
it was handed to the HTTP client. The headers are those of L191-196. -/
def send {M T : Type} (parse : T → Option M) (ser : M → Bool) (s : State M) (m : M) (a : Answer T) : State M × Result :=
  if ser m = false then (s, .serialize)
  else
    let s := { s with requests := s.requests ++ [⟨[("Content-Type", "application/json")], m⟩] }
    match a with
    | .timeout => (s, .timeout)
    | .failed => (s, .failed)
    | .response status body =>
      if status ≠ 200 then (s, .status status)
      else match body with
        | none => (s, .failed)
        | some b => match parse b with
          | none => (s, .body)
          | some r => if s.queue.length < capacity then ({ s with queue := s.queue ++ [r] }, .ok) else (s, .waits)

/-- `receive` (L244-249); none: waits. -/
def receive {M : Type} (s : State M) : State M × Option M :=
  match s.queue with
  | [] => (s, none)
  | m :: q => ({ s with queue := q }, some m)

end Http

/-! ### WebSocket client -/

namespace Ws

/-- `ConnectionState` (/repo/src/shared/websocket.rs L58-64). -/
inductive Status
  | disconnected | connecting | connected | closing
deriving DecidableEq, Repr

/-- A frame from the server. /repo/src/shared/websocket.rs L150-200. -/
inductive Frame (T : Type)
  | text (t : T)
  | close
  /-- ping, pong, binary, raw frame: only logged -/
  | other
  /-- the stream fails -/
  | error

/-- A frame to the server: the only ones the program writes are the pings of L214-224. -/
inductive Sent (M : Type)
  | text (m : M)
  | ping

/-- `WebSocketTransport` (L43-56). `readers` are the connections whose reader task runs (L146-193), `wire` what was
written on each. The channel's capacity of 100 only delays a reader and is left out. -/
structure State (M : Type) where
  status : Status := .disconnected
  readers : List Nat := []
  opened : Nat := 0
  queue : List M := []
  wire : List (Nat × Sent M) := []

/-- Calls and events of the WebSocket client, /repo/src/shared/websocket.rs L96-283. -/
inductive Op (M T : Type)
  /-- `connect_once` until the handshake (L129-132) -/
  | connectStart
  /-- the handshake ends (L136-145) -/
  | connectDone (ok : Bool)
  /-- a frame arrives on a connection -/
  | frame (k : Nat) (f : Frame T)
  /-- the ping task of a connection (L214-224) -/
  | ping (k : Nat)
  | send (m : M)
  | receive
  /-- `close` (L264-278) -/
  | close

/-- What a call returns, /repo/src/shared/websocket.rs L235-283. -/
inductive Out (M : Type)
  | none_
  | ok
  | closed
  | serialize
  | message (m : M)
  | waits
deriving DecidableEq

/-- One step, /repo/src/shared/websocket.rs L96-283. -/
def step {M T : Type} (parse : T → Option M) (ser : M → Bool) (s : State M) : Op M T → State M × Out M
  | .connectStart => ({ s with status := .connecting }, .none_)
  | .connectDone false => (s, .none_)
  | .connectDone true =>
    ({ s with status := .connected, readers := s.readers ++ [s.opened], opened := s.opened + 1 }, .none_)
  | .frame k f =>
    if k ∈ s.readers then
      match f with
      | .text t => match parse t with
        | some m => ({ s with queue := s.queue ++ [m] }, .none_)
        | none => (s, .none_)
      | .other => (s, .none_)
      | .close => ({ s with readers := s.readers.filter (· ≠ k) }, .none_)
      | .error => ({ s with readers := s.readers.filter (· ≠ k) }, .none_)
    else (s, .none_)
  | .ping k => ({ s with wire := s.wire ++ [(k, .ping)] }, .none_)
  -- L235-255: serializes, looks at the state, and writes nothing
  | .send m =>
    if ser m = false then (s, .serialize)
    else if s.status = .connected then (s, .ok) else (s, .closed)
  | .receive => match s.queue with
    | [] => (s, .waits)
    | m :: q => ({ s with queue := q }, .message m)
  | .close => ({ s with status := .disconnected }, .none_)

/-- `is_connected` (L280-282). -/
def isConnected {M : Type} (s : State M) : Bool := s.status == .connected

/-- A history of steps of /repo/src/shared/websocket.rs L96-283. -/
def run {M T : Type} (parse : T → Option M) (ser : M → Bool) (s : State M) : List (Op M T) → State M
  | [] => s
  | op :: ops => run parse ser (step parse ser s op).1 ops

/-- The messages `receive` returned. /repo/src/shared/websocket.rs L257-262. -/
def received {M T : Type} (parse : T → Option M) (ser : M → Bool) (s : State M) : List (Op M T) → List M
  | [] => []
  | op :: ops => (match (step parse ser s op).2 with
      | .message m => [m]
      | _ => []) ++ received parse ser (step parse ser s op).1 ops

end Ws

/-! ### WebSocket server -/

namespace WsServer

/-- A connection (/repo/src/server/transport/websocket.rs L82-199): the channel to its writer and whether the writer task runs, the channel
from its reader and whether the reader task runs, the pongs waiting, the texts and the pongs written. -/
structure Conn (M : Type) where
  outgoing : List M := []
  writer : Bool := true
  incoming : List M := []
  reader : Bool := true
  pongs : List Nat := []
  wire : List M := []
  ponged : List Nat := []

/-- `WebSocketServerTransport` (L39-46): the connections accepted so far, numbered; `current` is the one whose
channel ends the transport holds. -/
structure State (M : Type) where
  conns : Nat → Conn M := fun _ => {}
  accepted : Nat := 0
  current : Option Nat := none

/-- A frame from the client, /repo/src/server/transport/websocket.rs L153-190. -/
inductive Frame (T : Type)
  | text (t : T)
  /-- with its payload -/
  | ping (d : Nat)
  | close
  | other
  | error

/-- Calls and events of the WebSocket server, /repo/src/server/transport/websocket.rs L82-245. -/
inductive Op (M T : Type)
  /-- `accept` (L81-185) succeeds -/
  | accept
  | send (m : M)
  /-- the writer takes the next message; `ok` says whether the socket accepts it -/
  | write (k : Nat) (ok : Bool)
  /-- the writer takes the next pong -/
  | pong (k : Nat) (ok : Bool)
  | frame (k : Nat) (f : Frame T)
  | receive
  | close

/-- What a call returns, /repo/src/server/transport/websocket.rs L203-245. -/
inductive Out (M : Type)
  | none_
  | ok
  | noConnection
  | failed
  | message (m : M)
  | closed
  | waits
deriving DecidableEq

/-- Replace connection `k`, /repo/src/server/transport/websocket.rs L82-200. -/
def State.set {M : Type} (s : State M) (k : Nat) (c : Conn M) : State M :=
  { s with conns := fun j => if j = k then c else s.conns j }

/-- One step. The channels' capacities (100, 100, 10) only delay the sides and are left out. The writer of a
connection that is not current ends when its channel is empty and the reader has ended; since it then writes nothing
more, its end is left out. /repo/src/server/transport/websocket.rs L82-245. -/
def step {M T : Type} (parse : T → Option M) (ser : M → Bool) (s : State M) : Op M T → State M × Out M
  | .accept => ({ s.set s.accepted {} with accepted := s.accepted + 1, current := some s.accepted }, .none_)
  -- L203-217
  | .send m => match s.current with
    | none => (s, .noConnection)
    | some k =>
      if (s.conns k).writer = true then
        (s.set k { s.conns k with outgoing := (s.conns k).outgoing ++ [m] }, .ok)
      else (s, .failed)
  -- L116-141
  | .write k ok =>
    let c := s.conns k
    if c.writer = true then
      match c.outgoing with
      | [] => (s, .none_)
      | m :: q =>
        if ser m = false then (s.set k { c with outgoing := q }, .none_)
        else if ok = true then (s.set k { c with outgoing := q, wire := c.wire ++ [m] }, .none_)
        else (s.set k { c with outgoing := [], writer := false }, .none_)
    else (s, .none_)
  -- L142-147
  | .pong k ok =>
    let c := s.conns k
    if c.writer = true then
      match c.pongs with
      | [] => (s, .none_)
      | d :: q =>
        if ok = true then (s.set k { c with pongs := q, ponged := c.ponged ++ [d] }, .none_)
        else (s.set k { c with outgoing := [], writer := false }, .none_)
    else (s, .none_)
  -- L153-190
  | .frame k f =>
    let c := s.conns k
    if k < s.accepted ∧ c.reader = true then
      match f with
      | .text t => match parse t with
        | some m =>
          if s.current = some k then (s.set k { c with incoming := c.incoming ++ [m] }, .none_)
          else (s.set k { c with reader := false }, .none_)
        | none => (s, .none_)
      | .ping d =>
        if c.writer = true then (s.set k { c with pongs := c.pongs ++ [d] }, .none_)
        else (s.set k { c with reader := false }, .none_)
      | .other => (s, .none_)
      | .close => (s.set k { c with reader := false }, .none_)
      | .error => (s.set k { c with reader := false }, .none_)
    else (s, .none_)
  -- L219-231
  | .receive => match s.current with
    | none => (s, .noConnection)
    | some k => match (s.conns k).incoming with
      | m :: q => (s.set k { s.conns k with incoming := q }, .message m)
      | [] => if (s.conns k).reader = true then (s, .waits) else (s, .closed)
  -- L233-240
  | .close => ({ s with current := none }, .none_)

/-- `is_connected` (L242-245). -/
def isConnected {M : Type} (s : State M) : Bool := s.current.isSome

/-- A history of steps of /repo/src/server/transport/websocket.rs L82-245. -/
def run {M T : Type} (parse : T → Option M) (ser : M → Bool) (s : State M) : List (Op M T) → State M
  | [] => s
  | op :: ops => run parse ser (step parse ser s op).1 ops

end WsServer

end Verif.Transports
