import Verif.Wire.Http

/-
The WebSocket transport for WebAssembly (/repo/src/shared/wasm_websocket.rs).

The file names the error variants `Error::TransportError` and `Error::ParseError`, which `Error` (error/mod.rs L17-71)
does not have; they are read as "some error". `JsValue`s, closures and the browser's own buffering are not modelled.
-/

namespace Verif.Wasm

open Verif.Wire

/-- Assignment `value[k] = v` on a `serde_json::Value` (used at wasm_websocket.rs L211): inserts into an object.
The values it is used on are objects; others are left alone here. -/
def setIndex : Json → String → Json → Json
  | .obj f, k, v => .obj (AMap.insert f k v)
  | j, _, _ => j

/-- `serialize_transport_message` (wasm_websocket.rs L207-218). -/
def serialize : TMsg → Json
  | .request id r => setIndex r.enc "id" id.enc
  | .response r => r.enc
  | .notification n => n.enc

/-- `parse_transport_message` (wasm_websocket.rs L185-204); `none` is any error. -/
def parse (j : Json) : Option TMsg :=
  if (vget j "method").isSome && (vget j "id").isSome then
    ((vget j "id").bind Id.dec).bind (fun id => (Request.dec j).map (.request id))
  else if (vget j "result").isSome || (vget j "error").isSome then (RpcResponse.dec j).map .response
  else if (vget j "method").isSome then (Notification.dec j).map .notification
  else none

/-- `WebSocket.readyState`. /repo/src/shared/wasm_websocket.rs L118-123, L159-183. -/
inductive Ready where
  | connecting | open_ | closing | closed
  deriving Repr, DecidableEq

/-- The outcome of `wait_for_open`. /repo/src/shared/wasm_websocket.rs L159-183. -/
inductive Opened where
  | ok | timeout | failed
  deriving Repr, DecidableEq

/-- `wait_for_open` (wasm_websocket.rs L159-182): `state k` is the ready state at the k-th look, `attempts` the
counter; `left` is `MAX_ATTEMPTS - attempts`. Nothing runs between the end of the loop and the check behind it.
-/
def waitFrom (state : Nat → Ready) : Nat → Nat → Opened
  | attempts, 0 => match state attempts with
    | .connecting => .timeout
    | .open_ => .ok
    | _ => .failed
  | attempts, left + 1 => match state attempts with
    | .connecting => waitFrom state (attempts + 1) left
    | .open_ => .ok
    | _ => .failed

/-- `wait_for_open` from the beginning; `MAX_ATTEMPTS` is 100 (L161). -/
def waitForOpen (state : Nat → Ready) : Opened := waitFrom state 0 100

/-- The transport after `connect` (wasm_websocket.rs L32-39, L58-115). `sent` are the values handed to the browser.
The `tx` field keeps the channel of `rx` open as long as the transport lives. -/
structure State where
  ready : Ready := .open_
  queue : List TMsg := []
  sent : List Json := []

/-- What happens: the browser changes the ready state, a frame arrives (`text none`: text that is no JSON), the
program calls the transport. /repo/src/shared/wasm_websocket.rs L58-157. -/
inductive Event where
  | ready (r : Ready)
  | text (j : Option Json)
  | binary
  | send (m : TMsg)
  | receive
  | close

/-- What a call returns; `waits` is a pending `receive`. /repo/src/shared/wasm_websocket.rs L125-157. -/
inductive Out where
  | none_
  | sent
  | notConnected
  | received (m : TMsg)
  | waits
  | closed

/-- The handlers set up in `connect` (wasm_websocket.rs L70-102) and the calls `is_connected`, `send`,
`receive`, `close` (L118-156). Closing a closed socket leaves it closed. Failures of `send_with_str` on an open socket and of `close` are not modelled. -/
def step (s : State) : Event → State × Out
  | .ready r => ({ s with ready := r }, .none_)
  | .text j => match j.bind parse with
    | some m => ({ s with queue := s.queue ++ [m] }, .none_)
    | none => (s, .none_)
  | .binary => (s, .none_)
  | .send m => if s.ready = .open_ then ({ s with sent := s.sent ++ [serialize m] }, .sent) else (s, .notConnected)
  | .receive => match s.queue with
    | m :: q => ({ s with queue := q }, .received m)
    | [] => (s, .waits)
  | .close => ({ s with ready := if s.ready = .closed then .closed else .closing }, .closed)

/-- A history of events. (Of /repo/src/shared/wasm_websocket.rs L58-157.) -/
def run (s : State) : List Event → State × List Out
  | [] => (s, [])
  | e :: es => ((run (step s e).1 es).1, (step s e).2 :: (run (step s e).1 es).2)

end Verif.Wasm
