import Verif.Wire.Lemmas

/-
The results of the protocol on the wire (C100, C102).

The server turns a result into the `result` member with `serde_json::to_value` (/repo/src/server/mod.rs L561-594),
the client reads it with `serde_json::from_value` (/repo/src/client/mod.rs).
-/

namespace Verif.Wire

/-- `InitializeResult` (types/protocol.rs L61-73); `ProtocolVersion` is a newtype of `String`. -/
structure InitResult where
  protocolVersion : String
  capabilities : ServerCaps
  serverInfo : Impl
  instructions : Option String := none

/-- Derived `Serialize` of `InitResult`, /repo/src/types/protocol.rs L61-73. -/
def InitResult.enc (x : InitResult) : Json :=
  .obj (ob [("protocolVersion", some (.str x.protocolVersion)), ("capabilities", some x.capabilities.enc),
    ("serverInfo", some x.serverInfo.enc), ("instructions", x.instructions.map .str)])
/-- Derived `Deserialize` of `InitResult`, /repo/src/types/protocol.rs L61-73. -/
def InitResult.dec (j : Json) : Option InitResult := do
  let s ← src 4 j
  let a ← req decStr s "protocolVersion" 0
  let b ← req ServerCaps.dec s "capabilities" 1
  let c ← req Impl.dec s "serverInfo" 2
  let d ← opt decStr s "instructions" 3
  some ⟨a, b, c, d⟩

/-- `ToolInfo` (types/protocol.rs L91-101). -/
structure ToolInfo where
  name : String
  description : Option String := none
  inputSchema : Json

/-- Derived `Serialize` of `ToolInfo`, /repo/src/types/protocol.rs L91-101. -/
def ToolInfo.enc (x : ToolInfo) : Json :=
  .obj (ob [("name", some (.str x.name)), ("description", x.description.map .str), ("inputSchema", some x.inputSchema)])
/-- Derived `Deserialize` of `ToolInfo`, /repo/src/types/protocol.rs L91-101. -/
def ToolInfo.dec (j : Json) : Option ToolInfo := do
  let s ← src 3 j
  let a ← req decStr s "name" 0
  let b ← opt decStr s "description" 1
  let c ← req decVal s "inputSchema" 2
  some ⟨a, b, c⟩
@[simp] theorem ToolInfo.rt (x : ToolInfo) : ToolInfo.dec x.enc = some x := by simp [enc, dec]

/-- A page of items: `ListToolsResult`, `ListPromptsResult`, `ListResourcesResult`, `ListResourceTemplatesResult`
(types/protocol.rs L104-112, L219-227, L315-323, L362-370), which differ in the name of the first field. -/
structure Page (α : Type) where
  items : List α
  nextCursor : Option String := none

/-- Derived `Serialize` of `Page`, /repo/src/types/protocol.rs L104-112, L219-227, L315-323, L362-370. -/
def Page.enc {α : Type} (field : String) (e : α → Json) (x : Page α) : Json :=
  .obj (ob [(field, some (encList e x.items)), ("nextCursor", x.nextCursor.map .str)])
/-- Derived `Deserialize` of `Page`, /repo/src/types/protocol.rs L104-112, L219-227, L315-323, L362-370. -/
def Page.dec {α : Type} (field : String) (d : Json → Option α) (j : Json) : Option (Page α) := do
  let s ← src 2 j
  let a ← req (decList d) s field 0
  let b ← opt decStr s "nextCursor" 1
  some ⟨a, b⟩
theorem Page.rt {α : Type} (field : String) (d : Json → Option α) (e : α → Json) (x : Page α)
    (hf : field ≠ "nextCursor") (h : ∀ a ∈ x.items, d (e a) = some a) : Page.dec field d (x.enc field e) = some x := by
  simp [enc, dec, hf, decList_enc d e x.items h]

/-- `CallToolResult` (types/protocol.rs L129-138). -/
structure CallToolResult where
  content : List Content
  isError : Bool := false
  deriving Repr, DecidableEq

/-- Derived `Serialize` of `CallToolResult`, /repo/src/types/protocol.rs L129-138. -/
def CallToolResult.enc (x : CallToolResult) : Json :=
  .obj (ob [("content", some (encList Content.enc x.content)), ("isError", some (.bool x.isError))])
/-- Derived `Deserialize` of `CallToolResult`, /repo/src/types/protocol.rs L129-138. -/
def CallToolResult.dec (j : Json) : Option CallToolResult := do
  let s ← src 2 j
  let a ← dflt (decList Content.dec) [] s "content" 0
  let b ← dflt decBool false s "isError" 1
  some ⟨a, b⟩
@[simp] theorem decContents (l : List Content) : decList Content.dec (encList Content.enc l) = some l :=
  decList_enc _ _ l (fun a _ => Content.rt a)

/-- `CompletionProvider` (types/completable.rs L90-103): externally tagged. -/
inductive Provider where
  | static | resource | tool | file
  | custom (name : String)
  deriving Repr, DecidableEq

/-- The variants without content, /repo/src/types/completable.rs L90-103. -/
def Provider.unitOf (s : String) : Option Provider :=
  if s = "static" then some .static else if s = "resource" then some .resource else if s = "tool" then some .tool
  else if s = "file" then some .file else none
/-- Derived `Serialize` of `Provider`, /repo/src/types/completable.rs L90-103. -/
def Provider.enc : Provider → Json
  | .static => .str "static"
  | .resource => .str "resource"
  | .tool => .str "tool"
  | .file => .str "file"
  | .custom n => .obj [("custom", .str n)]
/-- Derived `Deserialize` of `Provider`, /repo/src/types/completable.rs L90-103. -/
def Provider.dec : Json → Option Provider
  | .str s => Provider.unitOf s
  | .obj [(k, .null)] => Provider.unitOf k
  | .obj [(k, .str n)] => if k = "custom" then some (.custom n) else none
  | _ => none
@[simp] theorem Provider.rt (x : Provider) : Provider.dec x.enc = some x := by
  cases x <;> simp [enc, dec, unitOf]

/-- `CompletionConfig` (types/completable.rs L78-87). -/
structure CompletionConfig where
  provider : Provider
  config : List (String × Json) := []

/-- Derived `Serialize` of `CompletionConfig`, /repo/src/types/completable.rs L78-87. -/
def CompletionConfig.enc (x : CompletionConfig) : Json :=
  .obj (flatten (ob [("provider", some x.provider.enc)]) x.config)
/-- Derived `Deserialize` of `CompletionConfig`, /repo/src/types/completable.rs L78-87. -/
def CompletionConfig.dec : Json → Option CompletionConfig
  | .obj f => do
    let a ← req Provider.dec (.obj f) "provider" 0
    some ⟨a, rest ["provider"] f⟩
  | _ => none
/-- The configuration is a map without the key `provider`. Values of `CompletionConfig` that survive their JSON
form, /repo/src/types/completable.rs L78-87. -/
def CompletionConfig.Ok (x : CompletionConfig) : Prop :=
  (x.config.map (·.1)).Nodup ∧ "provider" ∉ x.config.map (·.1)
theorem CompletionConfig.rt (x : CompletionConfig) (h : x.Ok) : CompletionConfig.dec x.enc = some x := by
  have hkeys : ∀ k ∈ (ob [("provider", some x.provider.enc)]).map (·.1), k ∈ ["provider"] := by
    intro k hk
    simpa using ob_keys _ k hk
  have hd : ∀ k ∈ x.config.map (·.1), k ∉ ["provider"] := by
    intro k hk hc
    simp only [List.mem_singleton] at hc
    subst hc; exact h.2 hk
  have hf := flatten_eq (ob [("provider", some x.provider.enc)]) x.config h.1 (fun k hk hc => hd k hk (hkeys k hc))
  have hr := rest_eq ["provider"] _ x.config hkeys hd
  simp only [enc, dec, hf, hr, req_obj, get_append_left _ _ _ h.2]
  simp

/-- `PromptArgument` (types/protocol.rs L202-216). -/
structure PromptArg where
  name : String
  description : Option String := none
  required : Bool := false
  completion : Option CompletionConfig := none

/-- Derived `Serialize` of `PromptArg`, /repo/src/types/protocol.rs L202-216. -/
def PromptArg.enc (x : PromptArg) : Json :=
  .obj (ob [("name", some (.str x.name)), ("description", x.description.map .str), ("required", some (.bool x.required)),
    ("completion", x.completion.map CompletionConfig.enc)])
/-- Derived `Deserialize` of `PromptArg`, /repo/src/types/protocol.rs L202-216. -/
def PromptArg.dec (j : Json) : Option PromptArg := do
  let s ← src 4 j
  let a ← req decStr s "name" 0
  let b ← opt decStr s "description" 1
  let c ← dflt decBool false s "required" 2
  let d ← opt CompletionConfig.dec s "completion" 3
  some ⟨a, b, c, d⟩
/-- Values of `PromptArg` that survive their JSON form, /repo/src/types/protocol.rs L202-216. -/
def PromptArg.Ok (x : PromptArg) : Prop := ∀ c, x.completion = some c → c.Ok
theorem PromptArg.rt (x : PromptArg) (h : x.Ok) : PromptArg.dec x.enc = some x := by
  have hc : optOf CompletionConfig.dec (x.completion.map CompletionConfig.enc) = some x.completion :=
    optOf_map _ _ _ (fun a ha => ⟨CompletionConfig.rt a (h a ha), by simp [CompletionConfig.enc]⟩)
  simp [enc, dec, hc]

/-- `PromptInfo` (types/protocol.rs L188-199). -/
structure PromptInfo where
  name : String
  description : Option String := none
  arguments : Option (List PromptArg) := none

/-- Derived `Serialize` of `PromptInfo`, /repo/src/types/protocol.rs L188-199. -/
def PromptInfo.enc (x : PromptInfo) : Json :=
  .obj (ob [("name", some (.str x.name)), ("description", x.description.map .str),
    ("arguments", x.arguments.map (encList PromptArg.enc))])
/-- Derived `Deserialize` of `PromptInfo`, /repo/src/types/protocol.rs L188-199. -/
def PromptInfo.dec (j : Json) : Option PromptInfo := do
  let s ← src 3 j
  let a ← req decStr s "name" 0
  let b ← opt decStr s "description" 1
  let c ← opt (decList PromptArg.dec) s "arguments" 2
  some ⟨a, b, c⟩
/-- Values of `PromptInfo` that survive their JSON form, /repo/src/types/protocol.rs L188-199. -/
def PromptInfo.Ok (x : PromptInfo) : Prop := ∀ l, x.arguments = some l → ∀ a ∈ l, a.Ok
theorem PromptInfo.rt (x : PromptInfo) (h : x.Ok) : PromptInfo.dec x.enc = some x := by
  have hc : optOf (decList PromptArg.dec) (x.arguments.map (encList PromptArg.enc)) = some x.arguments :=
    optOf_map _ _ _ (fun l hl => ⟨decList_enc _ _ _ (fun a ha => PromptArg.rt a (h l hl a ha)), by simp [encList]⟩)
  simp [enc, dec, hc]

/-- `GetPromptResult` (types/protocol.rs L244-252). -/
structure GetPromptResult where
  description : Option String := none
  messages : List Message
  deriving Repr, DecidableEq

/-- Derived `Serialize` of `GetPromptResult`, /repo/src/types/protocol.rs L244-252. -/
def GetPromptResult.enc (x : GetPromptResult) : Json :=
  .obj (ob [("description", x.description.map .str), ("messages", some (encList Message.enc x.messages))])
/-- Derived `Deserialize` of `GetPromptResult`, /repo/src/types/protocol.rs L244-252. -/
def GetPromptResult.dec (j : Json) : Option GetPromptResult := do
  let s ← src 2 j
  let a ← opt decStr s "description" 0
  let b ← req (decList Message.dec) s "messages" 1
  some ⟨a, b⟩
@[simp] theorem decMessages (l : List Message) : decList Message.dec (encList Message.enc l) = some l :=
  decList_enc _ _ l (fun a _ => Message.rt a)

/-- `ResourceInfo` (field `uri`) and `ResourceTemplate` (field `uriTemplate`), types/protocol.rs L299-312,
L346-359. -/
structure ResourceInfo where
  uri : String
  name : String
  description : Option String := none
  mimeType : Option String := none
  deriving Repr, DecidableEq

/-- Derived `Serialize` of `ResourceInfo`, /repo/src/types/protocol.rs L299-312, L346-359. -/
def ResourceInfo.enc (field : String) (x : ResourceInfo) : Json :=
  .obj (ob [(field, some (.str x.uri)), ("name", some (.str x.name)), ("description", x.description.map .str),
    ("mimeType", x.mimeType.map .str)])
/-- Derived `Deserialize` of `ResourceInfo`, /repo/src/types/protocol.rs L299-312, L346-359. -/
def ResourceInfo.dec (field : String) (j : Json) : Option ResourceInfo := do
  let s ← src 4 j
  let a ← req decStr s field 0
  let b ← req decStr s "name" 1
  let c ← opt decStr s "description" 2
  let d ← opt decStr s "mimeType" 3
  some ⟨a, b, c, d⟩
theorem ResourceInfo.rt_uri (x : ResourceInfo) : ResourceInfo.dec "uri" (x.enc "uri") = some x := by simp [enc, dec]
theorem ResourceInfo.rt_template (x : ResourceInfo) :
    ResourceInfo.dec "uriTemplate" (x.enc "uriTemplate") = some x := by simp [enc, dec]

/-- `ReadResourceResult` (types/protocol.rs L465-470). -/
structure ReadResult where
  contents : List Content
  deriving Repr, DecidableEq

/-- Derived `Serialize` of `ReadResult`, /repo/src/types/protocol.rs L465-470. -/
def ReadResult.enc (x : ReadResult) : Json := .obj (ob [("contents", some (encList Content.enc x.contents))])
/-- Derived `Deserialize` of `ReadResult`, /repo/src/types/protocol.rs L465-470. -/
def ReadResult.dec (j : Json) : Option ReadResult := do
  let s ← src 1 j
  let a ← req (decList Content.dec) s "contents" 0
  some ⟨a⟩

/-- `CompletionResult` (types/protocol.rs L435-446). -/
structure Completion where
  values : List String
  total : Option U64 := none
  hasMore : Bool := false
  deriving DecidableEq

/-- Derived `Serialize` of `Completion`, /repo/src/types/protocol.rs L435-446. -/
def Completion.enc (x : Completion) : Json :=
  .obj (ob [("values", some (encList .str x.values)), ("total", x.total.map encInt), ("hasMore", some (.bool x.hasMore))])
/-- Derived `Deserialize` of `Completion`, /repo/src/types/protocol.rs L435-446. -/
def Completion.dec (j : Json) : Option Completion := do
  let s ← src 3 j
  let a ← req (decList decStr) s "values" 0
  let b ← opt (decInt 0 (2 ^ 64)) s "total" 1
  let c ← dflt decBool false s "hasMore" 2
  some ⟨a, b, c⟩
@[simp] theorem Completion.rt (x : Completion) : Completion.dec x.enc = some x := by simp [enc, dec]

/-- `CompleteResult` (types/protocol.rs L427-432). -/
structure CompleteResult where
  completion : Completion

/-- Derived `Serialize` of `CompleteResult`, /repo/src/types/protocol.rs L427-432. -/
def CompleteResult.enc (x : CompleteResult) : Json := .obj (ob [("completion", some x.completion.enc)])
/-- Derived `Deserialize` of `CompleteResult`, /repo/src/types/protocol.rs L427-432. -/
def CompleteResult.dec (j : Json) : Option CompleteResult := do
  let s ← src 1 j
  let a ← req Completion.dec s "completion" 0
  some ⟨a⟩

/-- `TokenUsage` (types/protocol.rs L643-652). -/
structure Usage where
  inputTokens : U32
  outputTokens : U32
  totalTokens : U32

/-- Derived `Serialize` of `Usage`, /repo/src/types/protocol.rs L643-652. -/
def Usage.enc (x : Usage) : Json :=
  .obj (ob [("inputTokens", some (encInt x.inputTokens)), ("outputTokens", some (encInt x.outputTokens)),
    ("totalTokens", some (encInt x.totalTokens))])
/-- Derived `Deserialize` of `Usage`, /repo/src/types/protocol.rs L643-652. -/
def Usage.dec (j : Json) : Option Usage := do
  let s ← src 3 j
  let a ← req (decInt 0 (2 ^ 32)) s "inputTokens" 0
  let b ← req (decInt 0 (2 ^ 32)) s "outputTokens" 1
  let c ← req (decInt 0 (2 ^ 32)) s "totalTokens" 2
  some ⟨a, b, c⟩
@[simp] theorem Usage.rt (x : Usage) : Usage.dec x.enc = some x := by simp [enc, dec]

/-- `CreateMessageResult` (types/protocol.rs L627-640). -/
structure SampleResult where
  content : Content
  model : String
  usage : Option Usage := none
  stopReason : Option String := none

/-- Derived `Serialize` of `SampleResult`, /repo/src/types/protocol.rs L627-640. -/
def SampleResult.enc (x : SampleResult) : Json :=
  .obj (ob [("content", some x.content.enc), ("model", some (.str x.model)), ("usage", x.usage.map Usage.enc),
    ("stopReason", x.stopReason.map .str)])
/-- Derived `Deserialize` of `SampleResult`, /repo/src/types/protocol.rs L627-640. -/
def SampleResult.dec (j : Json) : Option SampleResult := do
  let s ← src 4 j
  let a ← req Content.dec s "content" 0
  let b ← req decStr s "model" 1
  let c ← opt Usage.dec s "usage" 2
  let d ← opt decStr s "stopReason" 3
  some ⟨a, b, c, d⟩
@[simp] theorem optUsage (x : Option Usage) : optOf Usage.dec (x.map Usage.enc) = some x :=
  optObj _ _ x Usage.rt (by simp [Usage.enc])

/-! ### C100 -/

/-- The results a server can give, by request. /repo/src/types/protocol.rs L61-73, L104-138, L219-252, L315-370,
L427-470, L627-640. -/
inductive Res where
  | init (r : InitResult)
  | tools (r : Page ToolInfo)
  | call (r : CallToolResult)
  | prompts (r : Page PromptInfo)
  | prompt (r : GetPromptResult)
  | resources (r : Page ResourceInfo)
  | templates (r : Page ResourceInfo)
  | read (r : ReadResult)
  | complete (r : CompleteResult)
  | sample (r : SampleResult)

/-- /repo/src/types/protocol.rs L61-73, L104-138, L219-252, L315-370, L427-470, L627-640. -/
def Res.enc : Res → Json
  | .init r => r.enc
  | .tools r => r.enc "tools" ToolInfo.enc
  | .call r => r.enc
  | .prompts r => r.enc "prompts" PromptInfo.enc
  | .prompt r => r.enc
  | .resources r => r.enc "resources" (ResourceInfo.enc "uri")
  | .templates r => r.enc "resourceTemplates" (ResourceInfo.enc "uriTemplate")
  | .read r => r.enc
  | .complete r => r.enc
  | .sample r => r.enc

/-- The client knows which result it waits for and reads it as that type.
/repo/src/types/protocol.rs L61-73, L104-138, L219-252, L315-370, L427-470, L627-640. -/
def Res.decLike : Res → Json → Option Res
  | .init _, j => (InitResult.dec j).map .init
  | .tools _, j => (Page.dec "tools" ToolInfo.dec j).map .tools
  | .call _, j => (CallToolResult.dec j).map .call
  | .prompts _, j => (Page.dec "prompts" PromptInfo.dec j).map .prompts
  | .prompt _, j => (GetPromptResult.dec j).map .prompt
  | .resources _, j => (Page.dec "resources" (ResourceInfo.dec "uri") j).map .resources
  | .templates _, j => (Page.dec "resourceTemplates" (ResourceInfo.dec "uriTemplate") j).map .templates
  | .read _, j => (ReadResult.dec j).map .read
  | .complete _, j => (CompleteResult.dec j).map .complete
  | .sample _, j => (SampleResult.dec j).map .sample

/-- The completion settings of prompt arguments are maps without the key `provider`.
/repo/src/types/protocol.rs L61-73, L104-138, L219-252, L315-370, L427-470, L627-640. -/
def Res.Ok : Res → Prop
  | .prompts r => ∀ p ∈ r.items, p.Ok
  | _ => True

/-- **C100**. Every result the server sends is read by the client as the same result, if the completion settings of
prompts do not use the key `provider`. Missing from the property: prompts whose settings do
(`C100_provider_key_lost`). -/
theorem C100_results_partial (r : Res) (h : r.Ok) : r.decLike r.enc = some r := by
  cases r with
  | tools r => simp [Res.decLike, Res.enc, Page.rt "tools" ToolInfo.dec ToolInfo.enc r (by decide) (fun a _ => ToolInfo.rt a)]
  | prompts r =>
    simp [Res.decLike, Res.enc, Page.rt "prompts" PromptInfo.dec PromptInfo.enc r (by decide)
      (fun a ha => PromptInfo.rt a (h a ha))]
  | resources r =>
    simp [Res.decLike, Res.enc, Page.rt "resources" _ _ r (by decide) (fun a _ => ResourceInfo.rt_uri a)]
  | templates r =>
    simp [Res.decLike, Res.enc, Page.rt "resourceTemplates" _ _ r (by decide) (fun a _ => ResourceInfo.rt_template a)]
  | init r => simp [Res.decLike, Res.enc, InitResult.dec, InitResult.enc]
  | call r => simp [Res.decLike, Res.enc, CallToolResult.dec, CallToolResult.enc]
  | prompt r => simp [Res.decLike, Res.enc, GetPromptResult.dec, GetPromptResult.enc]
  | read r => simp [Res.decLike, Res.enc, ReadResult.dec, ReadResult.enc]
  | complete r => simp [Res.decLike, Res.enc, CompleteResult.dec, CompleteResult.enc]
  | sample r => simp [Res.decLike, Res.enc, SampleResult.dec, SampleResult.enc]

example : Res.Ok (.prompts ⟨[⟨"p", none, some [⟨"a", none, true, some ⟨.custom "x", [("k", .null)]⟩⟩]⟩], some "c"⟩) := by
  intro p hp l hl a ha c hc
  simp at hp; subst hp; simp at hl; subst hl; simp at ha; subst ha; simp at hc; subst hc
  simp [CompletionConfig.Ok]

/-- **C100** fails for settings with the key `provider`: the provider itself is overwritten and the key is lost. -/
theorem C100_provider_key_lost : CompletionConfig.dec (CompletionConfig.enc ⟨.static, [("provider", .str "file")]⟩) =
    some ⟨.file, []⟩ := rfl

/-- **C100**, tools: a list of tools always arrives with its cursor, whatever the schemas. -/
theorem C100_tools (l : List ToolInfo) (c : Option String) :
    Page.dec "tools" ToolInfo.dec (Page.enc "tools" ToolInfo.enc ⟨l, c⟩) = some ⟨l, c⟩ :=
  Page.rt "tools" ToolInfo.dec ToolInfo.enc ⟨l, c⟩ (by decide) (fun a _ => ToolInfo.rt a)

/-- **C100**, tool results: content and error flag arrive, and a result without either is an empty success. -/
theorem C100_call_result (r : CallToolResult) : CallToolResult.dec r.enc = some r ∧
    CallToolResult.dec (.obj []) = some ⟨[], false⟩ := by
  simp [CallToolResult.dec, CallToolResult.enc]

/-! ### C102: contents written by other implementations -/

/-- **C102** fails: content without a `type` is refused, so no resource written per the protocol schema can
be read. -/
theorem C102_untyped_refused (f : List (String × Json)) (h : AMap.get f "type" = none) : Content.dec (.obj f) = none := by
  simp [Content.dec, tagged, h]

/-- **C102** fails: whatever members the contents have, if the first are a text with `uri`, `mimeType` and `text` as the
protocol schema writes it, the result is refused. -/
theorem C102_schema_read_refused (uri text mime : String) (l : List Json) :
    ReadResult.dec (.obj [("contents", .arr (.obj [("uri", .str uri), ("mimeType", .str mime), ("text", .str text)] :: l))]) =
      none := by
  have : Content.dec (.obj [("uri", .str uri), ("mimeType", .str mime), ("text", .str text)]) = none :=
    C102_untyped_refused _ (by simp [AMap.get_cons, AMap.get])
  simp [ReadResult.dec, decList, decAll, this, AMap.get_cons]

/-- The names of content types the decoder knows. -/
theorem C102_known_types_partial (f : List (String × Json)) (c : Content) (h : Content.dec (.obj f) = some c) :
    AMap.get f "type" = some (.str "text") ∨ AMap.get f "type" = some (.str "image") ∨
      AMap.get f "type" = some (.str "resource") := by
  simp only [Content.dec, tagged, Option.bind_eq_bind, Option.bind_eq_some_iff] at h
  obtain ⟨⟨t, r⟩, ht, h⟩ := h
  have hg : AMap.get f "type" = some (.str t) := by
    split at ht
    · next hg => cases ht; exact hg
    · cases ht
  rw [hg]
  simp only at h
  split at h
  · next e => left; rw [e]
  · split at h
    · next e => right; left; rw [e]
    · split at h
      · next e => right; right; rw [e]
      · cases h

example : Content.dec (.obj [("text", .str "x"), ("type", .str "text")]) = some (.text "x") := rfl

/-- **C157.** The input types on the wire: exactly these fifteen words are read, each variant has its own, and what is
written is the word that is read. -/
theorem C157_input_types (s : String) (t : InputType) :
    ((InputType.dec (.str s)).isSome ↔ s ∈ ["text", "textarea", "boolean", "number", "select", "multiSelect", "filePath",
      "directoryPath", "password", "date", "time", "dateTime", "color", "url", "email"]) ∧
    (InputType.dec (.str s) = some t ↔ t.enc = .str s) ∧
    (t = .text → t.enc = .str "text") ∧ (t = .password → t.enc = .str "password") ∧ (t = .select → t.enc = .str "select") ∧
    (t = .multiSelect → t.enc = .str "multiSelect") ∧ (t = .date → t.enc = .str "date") ∧
    (t = .dateTime → t.enc = .str "dateTime") ∧ (t = .number → t.enc = .str "number") ∧
    (t = .boolean → t.enc = .str "boolean") ∧ (t = .filePath → t.enc = .str "filePath") := by
  refine ⟨?_, ?_, ?_⟩
  · show (InputType.all.find? (fun x => x.name == s)).isSome ↔ s ∈ InputType.all.map InputType.name
    rw [List.find?_isSome, List.mem_map]
    simp only [beq_iff_eq]
  · constructor
    · intro h
      simp only [InputType.dec, decEnum, InputType.ofName] at h
      have := List.find?_some h
      simp only [beq_iff_eq] at this
      rw [InputType.enc, this]
    · intro h
      rw [← h, InputType.rt]
  · refine ⟨?_, ?_, ?_, ?_, ?_, ?_, ?_, ?_, ?_⟩ <;> rintro rfl <;> rfl

example : InputType.dec (.str "multiSelect") = some .multiSelect ∧ InputType.dec (.str "multi_select") = none :=
  ⟨((C157_input_types "multiSelect" .multiSelect).2.1).2 rfl, by
    have := (C157_input_types "multi_select" .text).1
    cases h : InputType.dec (.str "multi_select") with
    | none => rfl
    | some _ => rw [h] at this; simp at this⟩

end Verif.Wire
