import Verif.Transports.Model

/-!
# The WebSocket client and the WebSocket server of the crate, connected

`/repo/src/shared/websocket.rs` (`WebSocketTransport`) and `/repo/src/server/transport/websocket.rs`
(`WebSocketServerTransport`). The two ends are the models of `Verif/Transports/Model.lean`; this file joins them: a
handshake opens a connection at both ends, the client reads the texts the server's writer wrote on that connection,
the server reads the frames the client wrote on it. Other clients may connect to the server too.
-/

namespace Verif.WsPair

open Verif.Transports

variable {M T : Type}

/-- One client, one server and what lies between them. A server that serves other clients as well has connections
whose `peer` is `none`. /repo/src/shared/websocket.rs L43-56, /repo/src/server/transport/websocket.rs L39-46. -/
structure State (M : Type) where
  client : Ws.State M := {}
  server : WsServer.State M := {}
  /-- which connection of the client a connection of the server is -/
  peer : Nat → Option Nat := fun _ => none
  /-- how many of the texts written on a connection of the server its client has read -/
  read : Nat → Nat := fun _ => 0
  /-- how many of the frames written on a connection of the server by its client the server has read -/
  taken : Nat → Nat := fun _ => 0

/-- What can happen: the calls of the two programs, the steps of the tasks behind them, and the network's.
/repo/src/shared/websocket.rs L96-283, /repo/src/server/transport/websocket.rs L81-245. -/
inductive Op (M T : Type)
  /-- the client's `connect` begins (L128-134) -/
  | dial
  /-- and fails -/
  | refused
  /-- the handshake between the two: `accept` returns and the client is connected (L136-145; server L81-105) -/
  | handshake
  /-- the server accepts another client -/
  | stranger
  /-- a frame of another client -/
  | strange (k : Nat) (f : WsServer.Frame T)
  | clientSend (m : M)
  | clientReceive
  | clientClose
  | serverSend (m : M)
  | serverReceive
  | serverClose
  /-- the client's ping task (L214-224) -/
  | ping (j : Nat)
  /-- the server's writer task takes a message (L116-141) or a pong (L142-147) -/
  | write (k : Nat) (ok : Bool)
  | pong (k : Nat) (ok : Bool)
  /-- the client's reader task reads the next text of a connection (L150-171), or a frame without text (L176-187) -/
  | down (k : Nat)
  | downOther (k : Nat)
  /-- the server's reader task reads the next frame of a connection (L153-190) -/
  | up (k : Nat)
  /-- the stream of a connection ends or fails, seen by the client or by the server -/
  | cutClient (k : Nat)
  | cutServer (k : Nat)

/-- The frames the client wrote on its connection `j`. /repo/src/shared/websocket.rs L201-224. -/
def written (c : Ws.State M) (j : Nat) : List (Ws.Sent M) := (c.wire.filter (·.1 == j)).map (·.2)

/-- The client's part of a step. /repo/src/shared/websocket.rs L96-283. -/
def clientOps (enc : M → T) (s : State M) : Op M T → List (Ws.Op M T)
  | .dial => [.connectStart]
  | .refused => [.connectDone false]
  | .handshake => [.connectDone true]
  | .clientSend m => [.send m]
  | .clientReceive => [.receive]
  | .clientClose => [.close]
  | .ping j => [.ping j]
  | .down k => match s.peer k, (s.server.conns k).wire[s.read k]? with
    | some j, some m => [.frame j (.text (enc m))]
    | _, _ => []
  | .downOther k => match s.peer k with
    | some j => [.frame j .other]
    | none => []
  | .cutClient k => match s.peer k with
    | some j => [.frame j .error]
    | none => []
  | _ => []

/-- The server's part of a step. The payload of the client's pings is empty, here 0.
/repo/src/server/transport/websocket.rs L81-245. -/
def serverOps (enc : M → T) (s : State M) : Op M T → List (WsServer.Op M T)
  | .handshake => [.accept]
  | .stranger => [.accept]
  | .strange k f => if s.peer k = none then [.frame k f] else []
  | .serverSend m => [.send m]
  | .serverReceive => [.receive]
  | .serverClose => [.close]
  | .write k ok => [.write k ok]
  | .pong k ok => [.pong k ok]
  | .up k => match s.peer k with
    | some j => match (written s.client j)[s.taken k]? with
      | some (.text m) => [.frame k (.text (enc m))]
      | some .ping => [.frame k (.ping 0)]
      | none => []
    | none => []
  | .cutServer k => match s.peer k with
    | some _ => [.frame k .error]
    | none => []
  | _ => []

/-- One step of the pair: each end does its part. `enc` is the text of a message (`serialize_message`), `parse`
what is made of a text (`parse_message`), `ser` whether a message can be serialized.
/repo/src/shared/websocket.rs L96-283, /repo/src/server/transport/websocket.rs L81-245. -/
def step (enc : M → T) (parse : T → Option M) (ser : M → Bool) (s : State M) (op : Op M T) : State M where
  client := Ws.run parse ser s.client (clientOps enc s op)
  server := WsServer.run parse ser s.server (serverOps enc s op)
  peer := match op with
    | .handshake => fun k => if k = s.server.accepted then some s.client.opened else s.peer k
    | _ => s.peer
  read := match op with
    | .down k => if (s.peer k).isSome ∧ s.read k < (s.server.conns k).wire.length then
        fun i => if i = k then s.read k + 1 else s.read i else s.read
    | _ => s.read
  taken := match op with
    | .up k => match s.peer k with
      | some j => if s.taken k < (written s.client j).length then
          fun i => if i = k then s.taken k + 1 else s.taken i else s.taken
      | none => s.taken
    | _ => s.taken

/-- A history of the pair. /repo/src/shared/websocket.rs L96-283,
/repo/src/server/transport/websocket.rs L81-245. -/
def run (enc : M → T) (parse : T → Option M) (ser : M → Bool) (s : State M) : List (Op M T) → State M
  | [] => s
  | op :: ops => run enc parse ser (step enc parse ser s op) ops

/-- What a call of the client's program returns. /repo/src/shared/websocket.rs L235-262. -/
def clientOut (parse : T → Option M) (ser : M → Bool) (s : State M) : Op M T → Ws.Out M
  | .clientSend m => (Ws.step parse ser s.client (.send m)).2
  | .clientReceive => (Ws.step parse ser s.client (.receive : Ws.Op M T)).2
  | _ => .none_

/-- What a call of the server's program returns. /repo/src/server/transport/websocket.rs L203-231. -/
def serverOut (parse : T → Option M) (ser : M → Bool) (s : State M) : Op M T → WsServer.Out M
  | .serverSend m => (WsServer.step parse ser s.server (.send m)).2
  | .serverReceive => (WsServer.step parse ser s.server (.receive : WsServer.Op M T)).2
  | _ => .none_

end Verif.WsPair
