import Verif.Wire.Types

/-
Requests, notifications and responses on the wire.

Models the enums of /repo/src/types/protocol.rs L525-787, the envelope types of /repo/src/types/jsonrpc.rs, the
conversions of /repo/src/shared/protocol_helpers.rs, `StdioTransport::serialize_message` and `parse_message`
(/repo/src/shared/stdio.rs L113-264, also used by the WebSocket and HTTP transports) and the derived form of
`TransportMessage` (/repo/src/shared/transport.rs L64-78, used by the streamable HTTP client and server). The step
between `serde_json::Value` and bytes is serde_json's and is not modelled here.
-/

namespace Verif.Wire

/-- `ClientRequest` (types/protocol.rs L526-577). -/
inductive ClientRequest where
  | init (p : InitParams)
  | listTools (p : ListParams)
  | callTool (p : CallTool)
  | listPrompts (p : ListParams)
  | getPrompt (p : GetPrompt)
  | listResources (p : ListParams)
  | listTemplates (p : ListParams)
  | readResource (p : UriParams)
  | subscribe (p : UriParams)
  | unsubscribe (p : UriParams)
  | complete (p : Complete)
  | setLevel (l : LoggingLevel)
  | ping
  | createMessage (p : CreateMessage)
  | elicitResponse (p : ElicitResponse)

/-- `ServerRequest` (types/protocol.rs L580-592). -/
inductive ServerRequest where
  | createMessage (p : CreateMessage)
  | listRoots
  | elicit (p : ElicitRequest)

/-- `ClientNotification` (types/protocol.rs L683-698). -/
inductive ClientNotification where
  | initialized
  | rootsListChanged
  | cancelled (p : Cancelled)
  | progress (p : Progress)

/-- `ServerNotification` (types/protocol.rs L715-739). -/
inductive ServerNotification where
  | progress (p : Progress)
  | toolsChanged
  | promptsChanged
  | resourcesChanged
  | rootsListChanged
  | resourceUpdated (p : UriParams)
  | log (p : LogMessage)

/-- `Request` (types/protocol.rs L766-774). -/
inductive Request where
  | client (r : ClientRequest)
  | server (r : ServerRequest)

/-- `Notification` (types/protocol.rs L776-788). -/
inductive Notification where
  | client (n : ClientNotification)
  | server (n : ServerNotification)
  | progress (p : Progress)
  | cancelled (p : Cancelled)

/-! ### Adjacently tagged enums (`tag = "method", content = "params"`) -/

/-- A variant: without content, or with content of its own type.
/repo/src/types/protocol.rs L527, L581, L684, L716. -/
inductive Variant (α : Type) where
  | unit (a : α)
  | con (d : Json → Option α)

/-- The content of a variant: a unit variant takes no content or `null`, any other takes what its type takes
(an absent content is an error, as none of the types is an `Option`).
/repo/src/types/protocol.rs L527, L581, L684, L716. -/
def Variant.read {α : Type} : Variant α → Option Json → Option α
  | .unit a, none => some a
  | .unit a, some .null => some a
  | .unit _, some _ => none
  | .con _, none => none
  | .con d, some j => d j

/-- Derived `Deserialize` of an adjacently tagged enum: an object with `method` and possibly `params`, other
keys are ignored; or the array `[method, params]` (types/protocol.rs L526-527, L580-581, L683-684, L715-716). -/
def decAdj {α : Type} (tbl : String → Option (Variant α)) : Json → Option α
  | .obj f => do
    let m ← AMap.get f "method"
    let v ← decEnum tbl m
    v.read (AMap.get f "params")
  | .arr [m, c] => do
    let v ← decEnum tbl m
    v.read (some c)
  | _ => none

/-- Derived `Serialize` of an adjacently tagged enum. /repo/src/types/protocol.rs L527, L581, L684, L716. -/
def encAdj (m : String) (c : Option Json) : Json := .obj (ob [("method", some (.str m)), ("params", c)])

/-- The content of `ClientRequest::SetLoggingLevel` (types/protocol.rs L562-566). The content of a struct
variant is read from objects only: its visitor has no `visit_seq`. -/
def encLevel (l : LoggingLevel) : Json := .obj (ob [("level", some l.enc)])
/-- Its derived `Deserialize`, /repo/src/types/protocol.rs L562-566. -/
def decLevel : Json → Option LoggingLevel
  | .obj f => req LoggingLevel.dec (.obj f) "level" 0
  | _ => none

@[simp] theorem decLevel_enc (l : LoggingLevel) : decLevel (encLevel l) = some l := by simp [decLevel, encLevel]

/-- The tags of `ClientRequest` (`#[serde(rename = ..)]`, types/protocol.rs L529-576). -/
def ClientRequest.table : List (String × Variant ClientRequest) :=
  [("initialize", .con (fun j => (InitParams.dec j).map .init)),
   ("tools/list", .con (fun j => (ListParams.dec j).map .listTools)),
   ("tools/call", .con (fun j => (CallTool.dec j).map .callTool)),
   ("prompts/list", .con (fun j => (ListParams.dec j).map .listPrompts)),
   ("prompts/get", .con (fun j => (GetPrompt.dec j).map .getPrompt)),
   ("resources/list", .con (fun j => (ListParams.dec j).map .listResources)),
   ("resources/templates/list", .con (fun j => (ListParams.dec j).map .listTemplates)),
   ("resources/read", .con (fun j => (UriParams.dec j).map .readResource)),
   ("resources/subscribe", .con (fun j => (UriParams.dec j).map .subscribe)),
   ("resources/unsubscribe", .con (fun j => (UriParams.dec j).map .unsubscribe)),
   ("completion/complete", .con (fun j => (Complete.dec j).map .complete)),
   ("logging/setLevel", .con (fun j => (decLevel j).map .setLevel)),
   ("ping", .unit .ping),
   ("sampling/createMessage", .con (fun j => (CreateMessage.dec j).map .createMessage)),
   ("elicitation/response", .con (fun j => (ElicitResponse.dec j).map .elicitResponse))]

/-- The tags of `ServerRequest` (types/protocol.rs L583-591). -/
def ServerRequest.table : List (String × Variant ServerRequest) :=
  [("sampling/createMessage", .con (fun j => (CreateMessage.dec j).map .createMessage)),
   ("roots/list", .unit .listRoots),
   ("elicitation/elicitInput", .con (fun j => (ElicitRequest.dec j).map .elicit))]

/-- The tags of `ClientNotification` (types/protocol.rs L686-697). -/
def ClientNotification.table : List (String × Variant ClientNotification) :=
  [("notifications/initialized", .unit .initialized),
   ("notifications/roots/list_changed", .unit .rootsListChanged),
   ("notifications/cancelled", .con (fun j => (Cancelled.dec j).map .cancelled)),
   ("notifications/progress", .con (fun j => (Progress.dec j).map .progress))]

/-- The tags of `ServerNotification` (types/protocol.rs L718-738). -/
def ServerNotification.table : List (String × Variant ServerNotification) :=
  [("notifications/progress", .con (fun j => (Progress.dec j).map .progress)),
   ("notifications/tools/list_changed", .unit .toolsChanged),
   ("notifications/prompts/list_changed", .unit .promptsChanged),
   ("notifications/resources/list_changed", .unit .resourcesChanged),
   ("notifications/roots/list_changed", .unit .rootsListChanged),
   ("notifications/resources/updated", .con (fun j => (UriParams.dec j).map .resourceUpdated)),
   ("notifications/message", .con (fun j => (LogMessage.dec j).map .log))]

/-- Derived `Deserialize` (types/protocol.rs L526, L580, L683, L715). -/
def ClientRequest.dec : Json → Option ClientRequest := decAdj (AMap.get ClientRequest.table)
/-- Derived `Deserialize` of `ServerRequest`, /repo/src/types/protocol.rs L580-592. -/
def ServerRequest.dec : Json → Option ServerRequest := decAdj (AMap.get ServerRequest.table)
/-- Derived `Deserialize` of `ClientNotification`, /repo/src/types/protocol.rs L683-698. -/
def ClientNotification.dec : Json → Option ClientNotification := decAdj (AMap.get ClientNotification.table)
/-- Derived `Deserialize` of `ServerNotification`, /repo/src/types/protocol.rs L715-739. -/
def ServerNotification.dec : Json → Option ServerNotification := decAdj (AMap.get ServerNotification.table)

/-- Derived `Serialize` of `ClientRequest` (types/protocol.rs L526-577). -/
def ClientRequest.enc : ClientRequest → Json
  | .init p => encAdj "initialize" (some p.enc)
  | .listTools p => encAdj "tools/list" (some p.enc)
  | .callTool p => encAdj "tools/call" (some p.enc)
  | .listPrompts p => encAdj "prompts/list" (some p.enc)
  | .getPrompt p => encAdj "prompts/get" (some p.enc)
  | .listResources p => encAdj "resources/list" (some p.enc)
  | .listTemplates p => encAdj "resources/templates/list" (some p.enc)
  | .readResource p => encAdj "resources/read" (some p.enc)
  | .subscribe p => encAdj "resources/subscribe" (some p.enc)
  | .unsubscribe p => encAdj "resources/unsubscribe" (some p.enc)
  | .complete p => encAdj "completion/complete" (some p.enc)
  | .setLevel l => encAdj "logging/setLevel" (some (encLevel l))
  | .ping => encAdj "ping" none
  | .createMessage p => encAdj "sampling/createMessage" (some p.enc)
  | .elicitResponse p => encAdj "elicitation/response" (some p.enc)

/-- Derived `Serialize` of `ServerRequest` (types/protocol.rs L580-592). -/
def ServerRequest.enc : ServerRequest → Json
  | .createMessage p => encAdj "sampling/createMessage" (some p.enc)
  | .listRoots => encAdj "roots/list" none
  | .elicit p => encAdj "elicitation/elicitInput" (some p.enc)

/-- Derived `Serialize` of `ClientNotification` (types/protocol.rs L683-698). -/
def ClientNotification.enc : ClientNotification → Json
  | .initialized => encAdj "notifications/initialized" none
  | .rootsListChanged => encAdj "notifications/roots/list_changed" none
  | .cancelled p => encAdj "notifications/cancelled" (some p.enc)
  | .progress p => encAdj "notifications/progress" (some p.enc)

/-- Derived `Serialize` of `ServerNotification` (types/protocol.rs L715-739). -/
def ServerNotification.enc : ServerNotification → Json
  | .progress p => encAdj "notifications/progress" (some p.enc)
  | .toolsChanged => encAdj "notifications/tools/list_changed" none
  | .promptsChanged => encAdj "notifications/prompts/list_changed" none
  | .resourcesChanged => encAdj "notifications/resources/list_changed" none
  | .rootsListChanged => encAdj "notifications/roots/list_changed" none
  | .resourceUpdated p => encAdj "notifications/resources/updated" (some p.enc)
  | .log p => encAdj "notifications/message" (some p.enc)

/-- Derived, untagged: variants are tried in order (types/protocol.rs L766-774). -/
def Request.dec (j : Json) : Option Request :=
  ((ClientRequest.dec j).map .client).or ((ServerRequest.dec j).map .server)

/-- Derived `Serialize` of `Request`, /repo/src/types/protocol.rs L766-774. -/
def Request.enc : Request → Json
  | .client r => r.enc
  | .server r => r.enc

/-- Derived, untagged: variants are tried in order (types/protocol.rs L776-788). -/
def Notification.dec (j : Json) : Option Notification :=
  ((ClientNotification.dec j).map .client).or (((ServerNotification.dec j).map .server).or
    (((Progress.dec j).map .progress).or ((Cancelled.dec j).map .cancelled)))

/-- Derived `Serialize` of `Notification`, /repo/src/types/protocol.rs L776-788. -/
def Notification.enc : Notification → Json
  | .client n => n.enc
  | .server n => n.enc
  | .progress p => p.enc
  | .cancelled p => p.enc

/-! ### Envelopes (types/jsonrpc.rs) -/

/-- `JSONRPCRequest<Value>` (types/jsonrpc.rs L115-126). -/
structure RpcRequest where
  jsonrpc : String
  id : Id
  method : String
  params : Option Json

/-- Derived `Serialize` of `RpcRequest`, /repo/src/types/jsonrpc.rs L115-126. -/
def RpcRequest.enc (x : RpcRequest) : Json :=
  .obj (ob [("jsonrpc", some (.str x.jsonrpc)), ("id", some x.id.enc), ("method", some (.str x.method)),
    ("params", x.params)])
/-- Derived `Deserialize` of `RpcRequest`, /repo/src/types/jsonrpc.rs L115-126. -/
def RpcRequest.dec (j : Json) : Option RpcRequest := do
  let s ← src 4 j
  let a ← req decStr s "jsonrpc" 0
  let b ← req Id.dec s "id" 1
  let c ← req decStr s "method" 2
  let d ← opt decVal s "params" 3
  some ⟨a, b, c, d⟩

/-- `JSONRPCNotification<Value>` (types/jsonrpc.rs L272-281). -/
structure RpcNotification where
  jsonrpc : String
  method : String
  params : Option Json

/-- Derived `Serialize` of `RpcNotification`, /repo/src/types/jsonrpc.rs L272-281. -/
def RpcNotification.enc (x : RpcNotification) : Json :=
  .obj (ob [("jsonrpc", some (.str x.jsonrpc)), ("method", some (.str x.method)), ("params", x.params)])
/-- Derived `Deserialize` of `RpcNotification`, /repo/src/types/jsonrpc.rs L272-281. -/
def RpcNotification.dec (j : Json) : Option RpcNotification := do
  let s ← src 3 j
  let a ← req decStr s "jsonrpc" 0
  let c ← req decStr s "method" 1
  let d ← opt decVal s "params" 2
  some ⟨a, c, d⟩

/-- `JSONRPCError` (types/jsonrpc.rs L295-304). -/
structure RpcError where
  code : I32
  message : String
  data : Option Json := none

/-- Derived `Serialize` of `RpcError`, /repo/src/types/jsonrpc.rs L295-304. -/
def RpcError.enc (x : RpcError) : Json :=
  .obj (ob [("code", some (encInt x.code)), ("message", some (.str x.message)), ("data", x.data)])
/-- Derived `Deserialize` of `RpcError`, /repo/src/types/jsonrpc.rs L295-304. -/
def RpcError.dec (j : Json) : Option RpcError := do
  let s ← src 3 j
  let a ← req (decInt (-2 ^ 31) (2 ^ 31)) s "code" 0
  let b ← req decStr s "message" 1
  let c ← opt decVal s "data" 2
  some ⟨a, b, c⟩
/-- Values of `RpcError` that survive their JSON form, /repo/src/types/jsonrpc.rs L295-304. -/
def RpcError.Ok (x : RpcError) : Prop := x.data ≠ some .null
theorem RpcError.rt (x : RpcError) (h : x.Ok) : RpcError.dec x.enc = some x := by
  simp [enc, dec, optVal _ h]

/-- `ResponsePayload<Value, JSONRPCError>` (types/jsonrpc.rs L216-223). -/
inductive Payload where
  | result (v : Json)
  | error (e : RpcError)

/-- `JSONRPCResponse` (types/jsonrpc.rs L204-213). -/
structure RpcResponse where
  jsonrpc : String
  id : Id
  payload : Payload

/-- The entry of `Payload`, /repo/src/types/jsonrpc.rs L216-223. -/
def Payload.entry : Payload → String × Json
  | .result v => ("result", v)
  | .error e => ("error", e.enc)

/-- The flattened enum takes the first entry named like one of its variants; its value must fit.
Derived `Deserialize` of `Payload`, /repo/src/types/jsonrpc.rs L216-223. -/
def Payload.dec : List (String × Json) → Option Payload
  | [] => none
  | (k, j) :: f => if k = "result" then some (.result j) else if k = "error" then (RpcError.dec j).map .error
    else Payload.dec f

/-- Derived `Serialize` of `RpcResponse`, /repo/src/types/jsonrpc.rs L204-213. -/
def RpcResponse.enc (x : RpcResponse) : Json :=
  .obj [("jsonrpc", .str x.jsonrpc), ("id", x.id.enc), x.payload.entry]
/-- A struct with a flattened field is read from objects only.
Derived `Deserialize` of `RpcResponse`, /repo/src/types/jsonrpc.rs L204-213. -/
def RpcResponse.dec : Json → Option RpcResponse
  | .obj f => do
    let a ← req decStr (.obj f) "jsonrpc" 0
    let b ← req Id.dec (.obj f) "id" 1
    let p ← Payload.dec f
    some ⟨a, b, p⟩
  | _ => none
/-- The data of an error is not `Some(Value::Null)`. Values of `RpcResponse` that survive their JSON form,
/repo/src/types/jsonrpc.rs L204-213. -/
def RpcResponse.Ok (x : RpcResponse) : Prop := ∀ e, x.payload = .error e → e.Ok
theorem RpcResponse.rt (x : RpcResponse) (h : x.Ok) : RpcResponse.dec x.enc = some x := by
  obtain ⟨v, i, p⟩ := x
  cases p with
  | result r => simp [enc, dec, Payload.entry, Payload.dec, AMap.get_cons]
  | error e =>
    have := RpcError.rt e (h e rfl)
    simp [enc, dec, Payload.entry, Payload.dec, AMap.get_cons, this]

/-! ### shared/protocol_helpers.rs -/

/-- `client_request_to_jsonrpc` (protocol_helpers.rs L145-182). -/
def clientToRpc : ClientRequest → String × Option Json
  | .init p => ("initialize", some p.enc)
  | .ping => ("ping", none)
  | .setLevel l => ("logging/setLevel", some (.obj [("level", l.enc)]))
  | .listTools p => ("tools/list", some p.enc)
  | .callTool p => ("tools/call", some p.enc)
  | .listPrompts p => ("prompts/list", some p.enc)
  | .getPrompt p => ("prompts/get", some p.enc)
  | .listResources p => ("resources/list", some p.enc)
  | .listTemplates p => ("resources/templates/list", some p.enc)
  | .readResource p => ("resources/read", some p.enc)
  | .subscribe p => ("resources/subscribe", some p.enc)
  | .unsubscribe p => ("resources/unsubscribe", some p.enc)
  | .complete p => ("completion/complete", some p.enc)
  | .createMessage p => ("sampling/createMessage", some p.enc)
  | .elicitResponse p => ("elicitation/response", some p.enc)

/-- `server_request_to_jsonrpc` (protocol_helpers.rs L192-204). -/
def serverToRpc : ServerRequest → String × Option Json
  | .createMessage p => ("sampling/createMessage", some p.enc)
  | .listRoots => ("roots/list", none)
  | .elicit p => ("elicitation/input", some p.enc)

/-- `client_notification_to_jsonrpc` (protocol_helpers.rs L206-221). -/
def clientNotifToRpc : ClientNotification → String × Option Json
  | .initialized => ("notifications/initialized", none)
  | .rootsListChanged => ("notifications/roots/list_changed", none)
  | .cancelled p => ("notifications/cancelled", some p.enc)
  | .progress p => ("notifications/progress", some p.enc)

/-- `server_notification_to_jsonrpc` (protocol_helpers.rs L223-248). -/
def serverNotifToRpc : ServerNotification → String × Option Json
  | .progress p => ("notifications/progress", some p.enc)
  | .toolsChanged => ("notifications/tools/list_changed", none)
  | .promptsChanged => ("notifications/prompts/list_changed", none)
  | .resourcesChanged => ("notifications/resources/list_changed", none)
  | .rootsListChanged => ("notifications/roots/list_changed", none)
  | .resourceUpdated p => ("notifications/resources/updated", some p.enc)
  | .log p => ("notifications/message", some p.enc)

/-- `create_request` (protocol_helpers.rs L64-76); `JSONRPC_VERSION` is "2.0" (types/jsonrpc.rs). -/
def createRequest (id : Id) : Request → RpcRequest
  | .client r => ⟨"2.0", id, (clientToRpc r).1, (clientToRpc r).2⟩
  | .server r => ⟨"2.0", id, (serverToRpc r).1, (serverToRpc r).2⟩

/-- `create_notification` (protocol_helpers.rs L83-101). -/
def createNotification : Notification → RpcNotification
  | .client n => ⟨"2.0", (clientNotifToRpc n).1, (clientNotifToRpc n).2⟩
  | .server n => ⟨"2.0", (serverNotifToRpc n).1, (serverNotifToRpc n).2⟩
  | .progress p => ⟨"2.0", "notifications/progress", some p.enc⟩
  | .cancelled p => ⟨"2.0", "notifications/cancelled", some p.enc⟩

/-- The object `parse_client_request` and its siblings build (protocol_helpers.rs L106-109). -/
def tagJson (method : String) (params : Json) : Json := .obj [("method", .str method), ("params", params)]

/-- `parse_request` (protocol_helpers.rs L11-28); `none` is `method_not_found`. -/
def parseRequest (r : RpcRequest) : Option (Id × Request) :=
  let j := tagJson r.method (r.params.getD .null)
  match ClientRequest.dec j with
  | some c => some (r.id, .client c)
  | none =>
    match ServerRequest.dec j with
    | some s => some (r.id, .server s)
    | none => none

/-- `parse_notification` (protocol_helpers.rs L31-61). -/
def parseNotification (v : Json) : Option Notification := do
  let n ← RpcNotification.dec v
  let p := n.params.getD .null
  if n.method = "notifications/progress" then (Progress.dec p).map .progress
  else if n.method = "notifications/cancelled" then (Cancelled.dec p).map .cancelled
  else
    match ClientNotification.dec (tagJson n.method p) with
    | some c => some (.client c)
    | none => (ServerNotification.dec (tagJson n.method p)).map .server

/-! ### Transports -/

/-- `TransportMessage` (shared/transport.rs L64-78). -/
inductive TMsg where
  | request (id : Id) (r : Request)
  | response (r : RpcResponse)
  | notification (n : Notification)

/-- `StdioTransport::serialize_message` (shared/stdio.rs L115-139), up to the bytes. -/
def serializeMessage : TMsg → Json
  | .request id r => (createRequest id r).enc
  | .response r => r.enc
  | .notification n => (createNotification n).enc

/-- `Value::get` with a string index. (serde_json, called by /repo/src/shared/stdio.rs L218-230.) -/
def vget : Json → String → Option Json
  | .obj f, k => AMap.get f k
  | _, _ => none

/-- `StdioTransport::parse_message`, `parse_method_message`, `parse_response_message`
(shared/stdio.rs L218-264), from the parsed value. -/
def parseMessage (j : Json) : Option TMsg :=
  if (vget j "method").isSome then
    if (vget j "id").isSome then do
      let r ← RpcRequest.dec j
      let (id, q) ← parseRequest r
      some (.request id q)
    else (parseNotification j).map .notification
  else if (vget j "result").isSome || (vget j "error").isSome then (RpcResponse.dec j).map .response
  else none

/-- Derived `Serialize` of `TransportMessage` (shared/transport.rs L64-78), used by the streamable HTTP transport
(shared/streamable_http.rs L329, server/streamable_http_server.rs L490, L773). -/
def TMsg.enc : TMsg → Json
  | .request id r => .obj (ob [("id", some id.enc), ("request", some r.enc)])
  | .response r => r.enc
  | .notification n => n.enc

/-- The struct variant `TransportMessage::Request` (shared/transport.rs L67-73), read from objects only: the
visitor of a struct variant of an untagged enum has no `visit_seq`. -/
def decReqVariant : Json → Option TMsg
  | .obj f => do
    let a ← req Id.dec (.obj f) "id" 0
    let b ← req Request.dec (.obj f) "request" 1
    some (.request a b)
  | _ => none

/-- Derived `Deserialize` of `TransportMessage`: untagged, variants in order (shared/transport.rs L64-78; used in
shared/streamable_http.rs L252, L377-415 and server/streamable_http_server.rs L557). -/
def TMsg.dec (j : Json) : Option TMsg :=
  (decReqVariant j).or (((RpcResponse.dec j).map .response).or ((Notification.dec j).map .notification))

/-! ### RawMessage (types/jsonrpc.rs L349-397) -/

/-- `MessageType` (types/jsonrpc.rs L385-397). -/
inductive MessageType where
  | request | notification | response | errorResponse | invalid
  deriving Repr, DecidableEq

/-- `RawMessage` (types/jsonrpc.rs L351-370); raw values keep only their presence. -/
structure RawMessage where
  id : Option Id
  method : Option String
  result : Bool
  error : Bool
  deriving Repr, DecidableEq

/-- Derived `Deserialize` of `RawMessage` from an object (it is never read from arrays in practice).
Derived `Deserialize` of `RawMessage`, /repo/src/types/jsonrpc.rs L351-370. -/
def RawMessage.dec : Json → Option RawMessage
  | .obj f => do
    let _ ← req decStr (.obj f) "jsonrpc" 0
    let b ← opt Id.dec (.obj f) "id" 1
    let c ← opt decStr (.obj f) "method" 2
    let d ← opt decVal (.obj f) "result" 4
    let e ← opt RpcError.dec (.obj f) "error" 5
    some ⟨b, c, d.isSome, e.isSome⟩
  | _ => none

/-- `RawMessage::message_type` (types/jsonrpc.rs L373-381). -/
def RawMessage.messageType (m : RawMessage) : MessageType :=
  match m.id, m.method, m.result, m.error with
  | some _, some _, false, false => .request
  | none, some _, false, false => .notification
  | some _, none, true, false => .response
  | some _, none, false, true => .errorResponse
  | _, _, _, _ => .invalid

end Verif.Wire
