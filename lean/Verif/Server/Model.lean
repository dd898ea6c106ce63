import Verif.Wire.Results
import Verif.Cancellation.Model
import Verif.Subscriptions.Model
import Verif.Elicit.Model

/-
The server: errors and their codes, the builder, dispatch of requests, and the methods a program may call.

Models /repo/src/error/mod.rs L16-95, L185-245, L846-852, /repo/src/types/jsonrpc.rs L326-341 and
/repo/src/server/mod.rs L144-205, L510-790, L899-1014, L1060-1420. Requests and results are those of the wire model.
Handlers are arbitrary functions of their arguments and of the state of the program (`W`), which they may change; a
handler may also panic. `render` is `Value::to_string`. Not modelled: roots (their own area), logging.
-/

namespace Verif.Server

open Verif Verif.Wire

/-- `Error` (error/mod.rs L16-71): protocol errors, and the text of every other variant. -/
inductive Err where
  | protocol (code : I32) (message : String) (data : Option Json)
  | other (text : String)

/-- `Display for Error`, error/mod.rs L16-71. -/
def Err.text : Err → String
  | .protocol c m _ => "Protocol error: " ++ toString c.1 ++ " - " ++ m
  | .other t => t

/-- The code -32603, `ErrorCode::INTERNAL_ERROR`. /repo/src/error/mod.rs L87. -/
def internalError : I32 := ⟨-32603, by decide⟩

/-- `ErrorCode::from_i32`, error/mod.rs L191-240. -/
def fromI32 (c : I32) : I32 :=
  if c.1 ∈ [-32700, -32600, -32601, -32602, -32603] then c
  else if c.1 ∈ [-32001, -32002, -32003, -32004] then c
  else if -32099 ≤ c.1 ∧ c.1 ≤ -32000 then internalError
  else c

/-- `From<Error> for JSONRPCError`, types/jsonrpc.rs L326-341. -/
def toRpcError : Err → RpcError
  | .protocol c m d => { code := c, message := m, data := d }
  | .other t => { code := internalError, message := t, data := none }

/-- `Error::from_jsonrpc_error`, error/mod.rs L846-852. -/
def fromRpcError (e : RpcError) : Err := .protocol (fromI32 e.code) e.message e.data

/-- What a call of a handler does. /repo/src/server/mod.rs L33-80. -/
inductive Outcome (α : Type) where
  | ok (a : α)
  | err (e : Err)
  | panic

/-- The cancellation token a handler is given: one known to the manager, or one nobody else has.
/repo/src/server/mod.rs L643-650, L683-692. -/
inductive Token where
  | registered (n : Nat)
  | fresh
  deriving DecidableEq, Repr

/-- `RequestHandlerExtra`, server/cancellation.rs L96-151. -/
structure Extra where
  requestId : String
  token : Token
  deriving DecidableEq, Repr

/-- The handlers of a server and what it says about itself (server/mod.rs L109-116). -/
structure Srv (W : Type) where
  info : Impl
  capabilities : ServerCaps
  tools : AMap String (Json → Extra → W → Outcome Json × W)
  prompts : AMap String (List (String × String) → Extra → W → Outcome GetPromptResult × W)
  resources : Option ((Option String → Extra → W → Outcome (Page ResourceInfo) × W) ×
    (String → Extra → W → Outcome ReadResult × W))
  sampling : Option (CreateMessage → Extra → W → Outcome SampleResult × W)
  render : Json → String

/-- What changes (server/mod.rs L117-127): the program's own state, the client's capabilities, `initialized`, the
managers, whether there is a notification channel, and what was put into it. -/
structure St (W : Type) where
  world : W
  clientCaps : Option ClientCaps
  initialized : Bool
  cancel : Cancellation.State String
  subs : Subscriptions.State String String
  elicit : Option (Elicit.State String (Option Json × Bool × Option String))
  tx : Bool
  sent : List ServerNotification

/-- `build`, server/mod.rs L1395-1418. -/
def St.init {W : Type} (w : W) : St W :=
  { world := w, clientCaps := none, initialized := false, cancel := Cancellation.init, subs := Subscriptions.init,
    elicit := none, tx := false, sent := [] }

/-- `Display for RequestId`, types/jsonrpc.rs L37-44. -/
def idText : Id → String
  | .str s => s
  | .num n => toString n.1

/-- What a handler is told about the request, server/mod.rs L641-649 and at the other handlers. -/
def extraOf {W : Type} (st : St W) (id : Id) : Extra :=
  { requestId := idText id
    token := match Cancellation.getToken st.cancel (idText id) with
      | some n => .registered n
      | none => .fresh }

/-- `serde_json::json!({})`. (/repo/src/server/mod.rs L561-595.) -/
def emptyObj : Json := .obj []

/-- `Error::not_found`, /repo/src/error/mod.rs L492-494. -/
def notFound (what : String) : Err := .other ("Resource not found: " ++ what)

/-- The rest of a request whose handler was called. /repo/src/server/mod.rs L510-615. -/
def afterHandler {W α : Type} (st : St W) (r : Outcome α × W) (f : α → Json) : Outcome Json × St W :=
  match r with
  | (.ok a, w) => (.ok (f a), { st with world := w })
  | (.err e, w) => (.err e, { st with world := w })
  | (.panic, w) => (.panic, { st with world := w })

/-- `process_client_request` with the functions it calls, server/mod.rs L561-594 and L618-783; `Initialize` is not
passed to it. -/
def process {W : Type} (srv : Srv W) (st : St W) (id : Id) : ClientRequest → Outcome Json × St W
  | .init _ => (.panic, st)
  | .listTools _ =>
    (.ok (Page.enc "tools" ToolInfo.enc ⟨(AMap.keys srv.tools).map (fun n => ⟨n, none, emptyObj⟩), none⟩), st)
  | .callTool p => match AMap.get srv.tools p.name with
    | none => (.err (notFound ("Tool '" ++ p.name ++ "' not found")), st)
    | some h => afterHandler st (h p.arguments (extraOf st id) st.world)
        (fun v => CallToolResult.enc { content := [.text (srv.render v)], isError := false })
  | .listPrompts _ =>
    (.ok (Page.enc "prompts" PromptInfo.enc ⟨(AMap.keys srv.prompts).map (fun n => ⟨n, none, none⟩), none⟩), st)
  | .getPrompt p => match AMap.get srv.prompts p.name with
    | none => (.err (notFound ("Prompt '" ++ p.name ++ "' not found")), st)
    | some h => afterHandler st (h p.arguments (extraOf st id) st.world) GetPromptResult.enc
  | .listResources p => match srv.resources with
    | none => (.ok (Page.enc "resources" (ResourceInfo.enc "uri") ⟨[], none⟩), st)
    | some h => afterHandler st (h.1 p.cursor (extraOf st id) st.world) (Page.enc "resources" (ResourceInfo.enc "uri"))
  | .readResource p => match srv.resources with
    | none => (.err (notFound "No resource handler configured"), st)
    | some h => afterHandler st (h.2 p.uri (extraOf st id) st.world) ReadResult.enc
  | .listTemplates _ => (.ok (Page.enc "resourceTemplates" (ResourceInfo.enc "uriTemplate") ⟨[], none⟩), st)
  | .subscribe _ => (.ok emptyObj, st)
  | .unsubscribe _ => (.ok emptyObj, st)
  | .complete _ => (.ok emptyObj, st)
  | .setLevel _ => (.ok emptyObj, st)
  | .ping => (.ok emptyObj, st)
  | .createMessage p => match srv.sampling with
    | none => (.err (notFound "No sampling handler configured"), st)
    | some h => afterHandler st (h p (extraOf st id) st.world) SampleResult.enc
  | .elicitResponse p => match st.elicit with
    | none => (.ok emptyObj, st)
    | some m =>
      match Elicit.step m (.respond { id := p.elicitationId, body := (p.value, p.cancelled, p.error) }) with
      | some (m', .ok) => (.ok emptyObj, { st with elicit := some m' })
      | _ => (.err (.protocol ⟨-32600, by decide⟩ "Unknown elicitation ID" none), st)

/-- `create_response`, server/mod.rs L597-616; `none` for a panic. -/
def createResponse (id : Id) : Outcome Json → Option RpcResponse
  | .ok v => some { jsonrpc := "2.0", id := id, payload := .result v }
  | .err e => some { jsonrpc := "2.0", id := id, payload := .error { code := internalError, message := e.text, data := none } }
  | .panic => none

/-- The version the server answers with, server/mod.rs L523. -/
def answeredVersion : String := "2024-11-05"

/-- `handle_request`, server/mod.rs L510-549. -/
def handleRequest {W : Type} (srv : Srv W) (st : St W) (id : Id) : Request → Option RpcResponse × St W
  | .client (.init p) =>
    (some { jsonrpc := "2.0", id := id, payload := .result (InitResult.enc
        { protocolVersion := answeredVersion, capabilities := srv.capabilities, serverInfo := srv.info }) },
     { st with clientCaps := some p.capabilities, initialized := true })
  | .client r => (createResponse id (process srv st id r).1, (process srv st id r).2)
  | .server _ =>
    (some
      { jsonrpc := "2.0"
        id := id
        payload := .error ⟨⟨-32601, by decide⟩, "Server requests not supported by server", none⟩ }, st)

/-! ### Methods a program may call -/

/-- What happens to a server: a request, a method called by the program that owns it, or `run`, which takes it
away from the program (L383: `run(mut self, ..)`). -/
inductive Op where
  | handle (id : Id) (r : Request)
  | send (n : ServerNotification)
  | subscribe (uri client : String)
  | unsubscribe (uri client : String)
  | notify (uri : String)
  | cancel (id : String) (reason : Option String)
  | run

/-- The sender of the managers is set on the way if there is a channel, L905-912 and L1005-1012. -/
def withSender {W : Type} (st : St W) : Subscriptions.State String String :=
  if st.tx then Subscriptions.setSender st.subs else st.subs

/-- One step; the flag says whether the program still has the server. /repo/src/server/mod.rs L185-205,
L899-1014. -/
def apiStep {W : Type} (srv : Srv W) (st : St W) (owned : Bool) : Op → Option (St W × Bool)
  | .handle id r => some ((handleRequest srv st id r).2, owned)
  -- `send_notification`, L185-189.
  | .send n => if owned then some (if st.tx then { st with sent := st.sent ++ [n] } else st, owned) else none
  -- `subscribe_resource`, L899-915.
  | .subscribe u c =>
    if owned then
      some (if u = "" ∨ c = "" then st else { st with subs := Subscriptions.subscribe (withSender st) u c }, owned)
    else none
  -- `unsubscribe_resource`, L960-967.
  | .unsubscribe u c =>
    if owned then some (if u = "" ∨ c = "" then st else { st with subs := Subscriptions.unsubscribe st.subs u c }, owned)
    else none
  -- `notify_resource_updated`, L1003-1014.
  | .notify u =>
    if owned then some ({ st with subs := (Subscriptions.notifyResourceUpdated (withSender st) u).1 }, owned) else none
  -- `cancel_request`, L946-954.
  | .cancel i r =>
    if owned then some (if i = "" then st else { st with cancel := Cancellation.cancelRequest st.cancel i r }, owned)
    else none
  -- `run`, L383-396.
  | .run => if owned then some ({ st with tx := true }, false) else none

/-- A history of calls of /repo/src/server/mod.rs L185-205, L899-1014. -/
def apiRun {W : Type} (srv : Srv W) : St W → Bool → List Op → Option (St W × Bool)
  | st, b, [] => some (st, b)
  | st, b, op :: r => match apiStep srv st b op with
    | none => none
    | some (st', b') => apiRun srv st' b' r

/-! ### The builder -/

/-- The calls of a `ServerBuilder` that matter for capabilities, server/mod.rs L1159-1356. -/
inductive Build (W : Type) where
  | capabilities (c : ServerCaps)
  | tool (name : String) (h : Json → Extra → W → Outcome Json × W)
  | prompt (name : String) (h : List (String × String) → Extra → W → Outcome GetPromptResult × W)
  | resources (l : Option String → Extra → W → Outcome (Page ResourceInfo) × W) (r : String → Extra → W → Outcome ReadResult × W)
  | sampling (h : CreateMessage → Extra → W → Outcome SampleResult × W)

/-- One call of the builder, /repo/src/server/mod.rs L1101-1392. -/
def buildStep {W : Type} (s : Srv W) : Build W → Srv W
  | .capabilities c => { s with capabilities := c }
  | .tool n h => { s with tools := AMap.insert s.tools n h }
  | .prompt n h => { s with prompts := AMap.insert s.prompts n h }
  | .resources l r => { s with resources := some (l, r) }
  | .sampling h => { s with sampling := some h, capabilities := { s.capabilities with sampling := some {} } }

/-- `ServerBuilder::new` (L1066-1080), the calls, and `build` (L1395-1418). -/
def build {W : Type} (info : Impl) (render : Json → String) (l : List (Build W)) : Srv W :=
  l.foldl buildStep { info := info, capabilities := {}, tools := [], prompts := [], resources := none, sampling := none,
                      render := render }

end Verif.Server
