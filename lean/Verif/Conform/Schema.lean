import Verif.Wire.Json

/-
The published protocol schema, version 2025-06-18 (the crate's `LATEST_PROTOCOL_VERSION`, /repo/src/lib.rs L135).

Specification only: nothing here models code of /repo. README.md L33 and docs/protocol-compatibility.md promise that
the wire protocol is that of the TypeScript SDK ("Wire protocol is identical, JSON serialization matches exactly");
the repository holds no copy of the schema, so the definitions below are transcribed by hand from the interfaces of
the published schema, each named after its interface. Objects are open (unknown members are allowed) as in the
schema. Formats of strings (`uri`, `byte`) are not checked.
-/

namespace Verif.Conform

open Verif Verif.Wire

/-- A schema decides about values. (Specification: no counterpart in the code.) -/
abbrev Schema := Json → Bool

/-- `string`. (Specification: no counterpart in the code.) -/
def str : Schema
  | .str _ => true
  | _ => false

/-- `boolean`. (Specification: no counterpart in the code.) -/
def bool : Schema
  | .bool _ => true
  | _ => false

/-- `number`. (Specification: no counterpart in the code.) -/
def number : Schema
  | .num _ => true
  | _ => false

/-- `integer`. (Specification: no counterpart in the code.) -/
def integer : Schema
  | .num (.int _) => true
  | _ => false

/-- `number` with `minimum` 0 and `maximum` 1. (Specification: no counterpart in the code.) -/
def priority : Schema
  | .num (.int n) => decide (0 ≤ n ∧ n ≤ 1)
  | .num (.flt q) => decide (0 ≤ q ∧ q ≤ 1)
  | _ => false

/-- Any value (`unknown`). (Specification: no counterpart in the code.) -/
def unknown : Schema := fun _ => true

/-- One of the given strings. (Specification: no counterpart in the code.) -/
def oneOf (l : List String) : Schema
  | .str s => l.contains s
  | _ => false

/-- An array of such values. (Specification: no counterpart in the code.) -/
def array (p : Schema) : Schema
  | .arr l => l.all p
  | _ => false

/-- An object whose values are all such (`additionalProperties`). (Specification: no counterpart in the code.) -/
def record (p : Schema) : Schema
  | .obj f => f.all (fun e => p e.2)
  | _ => false

/-- Any object. (Specification: no counterpart in the code.) -/
def anyObject : Schema
  | .obj _ => true
  | _ => false

/-- A member that must be there. (Specification: no counterpart in the code.) -/
def must (k : String) (p : Schema) (f : List (String × Json)) : Bool := (AMap.get f k).any p

/-- A member that may be there. (Specification: no counterpart in the code.) -/
def may (k : String) (p : Schema) (f : List (String × Json)) : Bool := (AMap.get f k).all p

/-- An object with these members, and maybe others. (Specification: no counterpart in the code.) -/
def object (l : List (List (String × Json) → Bool)) : Schema
  | .obj f => l.all (fun m => m f)
  | _ => false

/-- One of several. (Specification: no counterpart in the code.) -/
def either (p q : Schema) : Schema := fun j => p j || q j

/-! ### Common types -/

/-- `RequestId`, `ProgressToken`. (Specification: no counterpart in the code.) -/
def requestId : Schema := either str integer

/-- `Implementation`. (Specification: no counterpart in the code.) -/
def implementation : Schema := object [must "name" str, may "title" str, must "version" str]

/-- `ClientCapabilities`. (Specification: no counterpart in the code.) -/
def clientCapabilities : Schema := object
  [may "experimental" (record anyObject), may "roots" (object [may "listChanged" bool]), may "sampling" anyObject,
    may "elicitation" anyObject]

/-- `ServerCapabilities`. (Specification: no counterpart in the code.) -/
def serverCapabilities : Schema := object
  [may "experimental" (record anyObject), may "logging" anyObject, may "completions" anyObject,
    may "prompts" (object [may "listChanged" bool]),
    may "resources" (object [may "subscribe" bool, may "listChanged" bool]),
    may "tools" (object [may "listChanged" bool])]

/-- `LoggingLevel`. (Specification: no counterpart in the code.) -/
def loggingLevel : Schema :=
  oneOf ["debug", "info", "notice", "warning", "error", "critical", "alert", "emergency"]

/-- `Role`. (Specification: no counterpart in the code.) -/
def role : Schema := oneOf ["user", "assistant"]

/-- `TextContent`. (Specification: no counterpart in the code.) -/
def textContent : Schema := object [must "type" (oneOf ["text"]), must "text" str]

/-- `ImageContent` and `AudioContent`. (Specification: no counterpart in the code.) -/
def mediaContent : Schema := object [must "type" (oneOf ["image", "audio"]), must "data" str, must "mimeType" str]

/-- `TextResourceContents` and `BlobResourceContents`. (Specification: no counterpart in the code.) -/
def resourceContents : Schema :=
  either (object [must "uri" str, may "mimeType" str, must "text" str])
    (object [must "uri" str, may "mimeType" str, must "blob" str])

/-- `Resource`. (Specification: no counterpart in the code.) -/
def resource : Schema := object
  [must "uri" str, must "name" str, may "title" str, may "description" str, may "mimeType" str, may "size" integer]

/-- `ResourceTemplate`. (Specification: no counterpart in the code.) -/
def resourceTemplate : Schema := object
  [must "uriTemplate" str, must "name" str, may "title" str, may "description" str, may "mimeType" str]

/-- `ResourceLink`. (Specification: no counterpart in the code.) -/
def resourceLink : Schema := fun j => object [must "type" (oneOf ["resource_link"])] j && resource j

/-- `EmbeddedResource`. (Specification: no counterpart in the code.) -/
def embeddedResource : Schema := object [must "type" (oneOf ["resource"]), must "resource" resourceContents]

/-- `ContentBlock`. (Specification: no counterpart in the code.) -/
def contentBlock : Schema :=
  either textContent (either mediaContent (either resourceLink embeddedResource))

/-- `PromptMessage`. (Specification: no counterpart in the code.) -/
def promptMessage : Schema := object [must "role" role, must "content" contentBlock]

/-- `SamplingMessage`. (Specification: no counterpart in the code.) -/
def samplingMessage : Schema := object [must "role" role, must "content" (either textContent mediaContent)]

/-- `ModelPreferences`. (Specification: no counterpart in the code.) -/
def modelPreferences : Schema := object
  [may "hints" (array (object [may "name" str])), may "costPriority" priority, may "speedPriority" priority,
    may "intelligencePriority" priority]

/-- `Tool`. (Specification: no counterpart in the code.) -/
def tool : Schema := object
  [must "name" str, may "title" str, may "description" str,
    must "inputSchema" (object [must "type" (oneOf ["object"]), may "properties" (record anyObject),
      may "required" (array str)])]

/-- `PromptArgument`. (Specification: no counterpart in the code.) -/
def promptArgument : Schema := object [must "name" str, may "title" str, may "description" str, may "required" bool]

/-- `Prompt`. (Specification: no counterpart in the code.) -/
def prompt : Schema := object
  [must "name" str, may "title" str, may "description" str, may "arguments" (array promptArgument)]

/-- `PromptReference` and `ResourceTemplateReference`. (Specification: no counterpart in the code.) -/
def reference : Schema :=
  either (object [must "type" (oneOf ["ref/prompt"]), must "name" str])
    (object [must "type" (oneOf ["ref/resource"]), must "uri" str])

/-- `Root`. (Specification: no counterpart in the code.) -/
def root : Schema := object [must "uri" str, may "name" str]

/-! ### Parameters by method -/

/-- The member `params` of a request: if it must be there, and what it holds.
(Specification: no counterpart in the code.) -/
inductive Params where
  | needed (l : List (List (String × Json) → Bool))
  | optional (l : List (List (String × Json) → Bool))

/-- The check of the member `params`; every object of parameters may have a member `_meta`.
(Specification: no counterpart in the code.) -/
def Params.check : Params → List (String × Json) → Bool
  | .needed l => must "params" (object (may "_meta" anyObject :: l))
  | .optional l => may "params" (object (may "_meta" anyObject :: l))

/-- `ClientRequest`: the requests a client may send. (Specification: no counterpart in the code.) -/
def clientRequests : List (String × Params) :=
  [("ping", .optional []),
   ("initialize", .needed [must "protocolVersion" str, must "capabilities" clientCapabilities,
      must "clientInfo" implementation]),
   ("completion/complete", .needed [must "ref" reference, must "argument" (object [must "name" str, must "value" str]),
      may "context" (object [may "arguments" (record str)])]),
   ("logging/setLevel", .needed [must "level" loggingLevel]),
   ("prompts/get", .needed [must "name" str, may "arguments" (record str)]),
   ("prompts/list", .optional [may "cursor" str]),
   ("resources/list", .optional [may "cursor" str]),
   ("resources/templates/list", .optional [may "cursor" str]),
   ("resources/read", .needed [must "uri" str]),
   ("resources/subscribe", .needed [must "uri" str]),
   ("resources/unsubscribe", .needed [must "uri" str]),
   ("tools/call", .needed [must "name" str, may "arguments" anyObject]),
   ("tools/list", .optional [may "cursor" str])]

/-- `ServerRequest`: the requests a server may send. (Specification: no counterpart in the code.) -/
def serverRequests : List (String × Params) :=
  [("ping", .optional []),
   ("sampling/createMessage", .needed [must "messages" (array samplingMessage), must "maxTokens" integer,
      may "modelPreferences" modelPreferences, may "systemPrompt" str,
      may "includeContext" (oneOf ["none", "thisServer", "allServers"]), may "temperature" number,
      may "stopSequences" (array str), may "metadata" anyObject]),
   ("roots/list", .optional []),
   ("elicitation/create", .needed [must "message" str,
      must "requestedSchema" (object [must "type" (oneOf ["object"]), must "properties" anyObject])])]

/-- `ProgressNotification` parameters. (Specification: no counterpart in the code.) -/
def progressParams : Params := .needed
  [must "progressToken" requestId, must "progress" number, may "total" number, may "message" str]

/-- `CancelledNotification` parameters. (Specification: no counterpart in the code.) -/
def cancelledParams : Params := .needed [must "requestId" requestId, may "reason" str]

/-- `ClientNotification`: the notifications a client may send. (Specification: no counterpart in the code.) -/
def clientNotifications : List (String × Params) :=
  [("notifications/cancelled", cancelledParams),
   ("notifications/progress", progressParams),
   ("notifications/initialized", .optional []),
   ("notifications/roots/list_changed", .optional [])]

/-- `ServerNotification`: the notifications a server may send. (Specification: no counterpart in the code.) -/
def serverNotifications : List (String × Params) :=
  [("notifications/cancelled", cancelledParams),
   ("notifications/progress", progressParams),
   ("notifications/message", .needed [must "level" loggingLevel, may "logger" str, must "data" unknown]),
   ("notifications/resources/updated", .needed [must "uri" str]),
   ("notifications/resources/list_changed", .optional []),
   ("notifications/tools/list_changed", .optional []),
   ("notifications/prompts/list_changed", .optional [])]

/-! ### Messages -/

/-- The method names a member of the table, and the parameters are its.
(Specification: no counterpart in the code.) -/
def called (table : List (String × Params)) (f : List (String × Json)) : Bool :=
  match AMap.get f "method" with
  | some (.str m) => (AMap.get table m).any (fun p => p.check f)
  | _ => false

/-- `JSONRPCRequest` of one of the given methods. (Specification: no counterpart in the code.) -/
def request (table : List (String × Params)) : Schema :=
  object [must "jsonrpc" (oneOf ["2.0"]), must "id" requestId, called table]

/-- `JSONRPCNotification` of one of the given methods: without an id. (Specification: no counterpart in the code.) -/
def notification (table : List (String × Params)) : Schema :=
  object [must "jsonrpc" (oneOf ["2.0"]), fun f => (AMap.get f "id").isNone, called table]

/-- `JSONRPCResponse`, with this kind of result. (Specification: no counterpart in the code.) -/
def response (result : Schema) : Schema :=
  object [must "jsonrpc" (oneOf ["2.0"]), must "id" requestId, must "result" result]

/-- `JSONRPCError`. (Specification: no counterpart in the code.) -/
def errorResponse : Schema :=
  object [must "jsonrpc" (oneOf ["2.0"]), must "id" requestId,
    must "error" (object [must "code" integer, must "message" str])]

/-! ### Results -/

/-- `InitializeResult`. (Specification: no counterpart in the code.) -/
def initializeResult : Schema := object
  [must "protocolVersion" str, must "capabilities" serverCapabilities, must "serverInfo" implementation,
    may "instructions" str]

/-- `ListToolsResult` and the other lists. (Specification: no counterpart in the code.) -/
def page (field : String) (p : Schema) : Schema := object [must field (array p), may "nextCursor" str]

/-- `CallToolResult`. (Specification: no counterpart in the code.) -/
def callToolResult : Schema := object
  [must "content" (array contentBlock), may "isError" bool, may "structuredContent" anyObject]

/-- `GetPromptResult`. (Specification: no counterpart in the code.) -/
def getPromptResult : Schema := object [may "description" str, must "messages" (array promptMessage)]

/-- `ReadResourceResult`. (Specification: no counterpart in the code.) -/
def readResourceResult : Schema := object [must "contents" (array resourceContents)]

/-- `CompleteResult`. (Specification: no counterpart in the code.) -/
def completeResult : Schema := object
  [must "completion" (object [must "values" (array str), may "total" integer, may "hasMore" bool])]

/-- `CreateMessageResult`. (Specification: no counterpart in the code.) -/
def createMessageResult : Schema := object
  [must "role" role, must "content" (either textContent mediaContent), must "model" str, may "stopReason" str]

/-- `ListRootsResult`. (Specification: no counterpart in the code.) -/
def listRootsResult : Schema := object [must "roots" (array root)]

end Verif.Conform
