import Verif.Server.Model
import Verif.Recovery.Model

/-
The errors of the crate with all their kinds: how they are made, what they say, which code they are taken to have, how
they become JSON-RPC errors and come back, and which recovery strategy they meet.

Models /repo/src/error/mod.rs L16-306, L334-349, L390-400, L433-494, L520-565, L597-653, L687-923, /repo/src/types/jsonrpc.rs
L294-348 and /repo/src/error/recovery.rs L117-234, L473-478, L609-624. The texts of foreign errors (`serde_json`,
`anyhow`, WebSocket) are arbitrary strings; the features `websocket` and `http` are taken to be on.
-/

namespace Verif.Errors

open Verif Verif.Wire

/-- `TransportError`, /repo/src/error/mod.rs L256-295. -/
inductive TransportError where
  | io (text : String)
  | connectionClosed
  | invalidMessage (text : String)
  | serialization (text : String)
  | deserialization (text : String)
  | request (text : String)
  | send (text : String)
  | webSocket (text : String)
  | http (text : String)
  deriving DecidableEq, Repr

/-- `Error`, /repo/src/error/mod.rs L16-71. -/
inductive Error where
  | protocol (code : I32) (message : String) (data : Option Json)
  | transport (e : TransportError)
  | serialization (text : String)
  | validation (text : String)
  | authentication (text : String)
  | timeout (ms : Nat)
  | unsupportedCapability (text : String)
  | internal (text : String)
  | notFound (text : String)
  | invalidState (text : String)
  | cancelled
  | other (text : String)

/-- `Display for TransportError`, /repo/src/error/mod.rs L256-295. -/
def TransportError.text : TransportError → String
  | .io t => "IO error: " ++ t
  | .connectionClosed => "Connection closed"
  | .invalidMessage t => "Invalid message format: " ++ t
  | .serialization t => "Serialization error: " ++ t
  | .deserialization t => "Deserialization error: " ++ t
  | .request t => "Request error: " ++ t
  | .send t => "Send error: " ++ t
  | .webSocket t => "WebSocket error: " ++ t
  | .http t => "HTTP error: " ++ t

/-- `Display for Error`, /repo/src/error/mod.rs L16-71. -/
def Error.text : Error → String
  | .protocol c m _ => "Protocol error: " ++ toString c.1 ++ " - " ++ m
  | .transport e => "Transport error: " ++ e.text
  | .serialization t => "Serialization error: " ++ t
  | .validation t => "Validation error: " ++ t
  | .authentication t => "Authentication error: " ++ t
  | .timeout ms => "Request timed out after " ++ toString ms ++ "ms"
  | .unsupportedCapability t => "Capability not supported: " ++ t
  | .internal t => "Internal error: " ++ t
  | .notFound t => "Resource not found: " ++ t
  | .invalidState t => "Invalid state: " ++ t
  | .cancelled => "Operation cancelled"
  | .other t => t

/-- `ErrorCode::PARSE_ERROR`, /repo/src/error/mod.rs L79. -/
def parseError : I32 := ⟨-32700, by decide⟩

/-- `ErrorCode::INVALID_REQUEST`, /repo/src/error/mod.rs L81. -/
def invalidRequestCode : I32 := ⟨-32600, by decide⟩

/-- `ErrorCode::METHOD_NOT_FOUND`, /repo/src/error/mod.rs L83. -/
def methodNotFoundCode : I32 := ⟨-32601, by decide⟩

/-- `ErrorCode::INVALID_PARAMS`, /repo/src/error/mod.rs L85. -/
def invalidParamsCode : I32 := ⟨-32602, by decide⟩

/-- The ways to make an error by name, /repo/src/error/mod.rs L295-306 and L334-811. -/
inductive Maker where
  | protocol (code : I32) (message : String)
  | protocolMsg (message : String)
  | protocolWithData (code : I32) (message : String) (data : Json)
  | validation (message : String)
  | internal (message : String)
  | notFound (what : String)
  | parse (message : String)
  | invalidRequest (message : String)
  | methodNotFound (method : String)
  | invalidParams (message : String)
  | authentication (message : String)
  | capability (message : String)
  | resourceNotFound (uri : String)
  | cancelled (message : String)
  | fromIo (text : String)

/-- The errors they make, /repo/src/error/mod.rs L301-304, L334-349, L390-400, L433-435, L461-463, L492-494, L520-526,
L559-565, L597-603, L647-653, L687-689, L726-728, L769-771, L808-811. -/
def make : Maker → Error
  | .protocol c m => .protocol c m none
  | .protocolMsg m => .protocol Server.internalError m none
  | .protocolWithData c m d => .protocol c m (some d)
  | .validation m => .validation m
  | .internal m => .internal m
  | .notFound w => .notFound w
  | .parse m => .protocol parseError m none
  | .invalidRequest m => .protocol invalidRequestCode m none
  | .methodNotFound m => .protocol methodNotFoundCode ("Method not found: " ++ m) none
  | .invalidParams m => .protocol invalidParamsCode m none
  | .authentication m => .authentication m
  | .capability m => .unsupportedCapability m
  | .resourceNotFound u => .notFound ("Resource not found: " ++ u)
  | .cancelled m => .validation ("Operation cancelled: " ++ m)
  | .fromIo t => .transport (.io t)

/-- The error of `HttpTransport` when no answer came within its time, in milliseconds. /repo/src/shared/http.rs L198-200:
whole seconds only. -/
def httpTimeout (ms : Nat) : Error := .timeout (ms / 1000 * 1000)

/-- `error_code`, /repo/src/error/mod.rs L918-923. -/
def Error.errorCode : Error → Option I32
  | .protocol c _ _ => some c
  | _ => none

/-- `is_error_code`, /repo/src/error/mod.rs L881-883. -/
def Error.isErrorCode (e : Error) (code : I32) : Bool :=
  match e with
  | .protocol c _ _ => decide (c = code)
  | _ => false

/-- `From<Error> for JSONRPCError`, /repo/src/types/jsonrpc.rs L326-341. -/
def Error.toRpc : Error → RpcError
  | .protocol c m d => { code := c, message := m, data := d }
  | e => { code := Server.internalError, message := e.text, data := none }

/-- The error a server answers with when a handler fails, /repo/src/server/mod.rs L598-615. -/
def Error.answered (e : Error) : RpcError := { code := Server.internalError, message := e.text, data := none }

/-- `Error::from_jsonrpc_error`, /repo/src/error/mod.rs L846-852. -/
def fromRpc (e : RpcError) : Error := .protocol (Server.fromI32 e.code) e.message e.data

/-- The error as the model of the server has it: a protocol error, or a text. /repo/src/error/mod.rs L16-71. -/
def Error.forget : Error → Server.Err
  | .protocol c m d => .protocol c m d
  | e => .other e.text

/-- The strategies of a policy and its default, /repo/src/error/recovery.rs L117-127. -/
structure Policy where
  strategies : AMap Int Recovery.Strategy := []
  default : Recovery.Strategy := .failFast

/-- `RecoveryPolicy::default`, /repo/src/error/recovery.rs L128-157. -/
def Policy.standard : Policy where
  strategies := [(-32603, .exponential 3 (1 / 10) 5 2), (-32600, .fixed 2 (1 / 2))]
  default := .failFast

/-- `add_strategy`, /repo/src/error/recovery.rs L171-173. -/
def Policy.add (p : Policy) (code : Int) (s : Recovery.Strategy) : Policy :=
  { p with strategies := AMap.insert p.strategies code s }

/-- The strategy an error meets, /repo/src/error/recovery.rs L476-477 with `get_strategy` L176-180. -/
def Policy.meets (p : Policy) (e : Error) : Recovery.Strategy :=
  (AMap.get p.strategies ((e.errorCode.getD Server.internalError).1)).getD p.default

/-- Recovery handlers: `DefaultRecoveryHandler`, a `FallbackHandler` around a function without arguments (its result
at this call), and handlers of the program. /repo/src/error/recovery.rs L183-234. -/
inductive Handler where
  | default
  | fallback (result : Except Error Json)
  | custom (f : String → Except Error Json)

/-- `recover`, /repo/src/error/recovery.rs L183-234. -/
def Handler.recover (h : Handler) (msg : String) : Except Error Json :=
  match h with
  | .default => .error (.internal msg)
  | .fallback r => r
  | .custom f => f msg

/-- `register_handler`, /repo/src/error/recovery.rs L453-455. -/
def register (hs : AMap String Handler) (name : String) (h : Handler) : AMap String Handler := AMap.insert hs name h

/-- `fallback`, /repo/src/error/recovery.rs L609-624, called with the text of the error, L498-500. -/
def fallback (hs : AMap String Handler) (op : String) (e : Error) : Except Error Json :=
  match AMap.get hs op with
  | some h => h.recover e.text
  | none => .error (.internal e.text)

end Verif.Errors
