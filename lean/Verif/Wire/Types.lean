import Verif.Wire.Json

/-
The parameter and result types of the protocol and their JSON form.

Models the derived `Serialize` and `Deserialize` of /repo/src/types/{protocol,capabilities,elicitation,
completable,jsonrpc}.rs: for each type `enc` is `serde_json::to_value` and `dec` is `serde_json::from_value`; `rt`
is the round trip of the type. Field names are the `camelCase` forms serde derives. Every type carries the lines of
its declaration; `enc` and `dec` below it model the derives on those lines.
-/

namespace Verif.Wire

/-! ### Capabilities (types/capabilities.rs) -/

/-- `ToolCapabilities` and `PromptCapabilities` (types/capabilities.rs L89-104): one optional field. -/
structure ListCap where
  listChanged : Option Bool := none
  deriving Repr, DecidableEq

/-- Derived `Serialize` of `ListCap`, /repo/src/types/capabilities.rs L89-104. -/
def ListCap.enc (x : ListCap) : Json := .obj (ob [("listChanged", x.listChanged.map .bool)])
/-- Derived `Deserialize` of `ListCap`, /repo/src/types/capabilities.rs L89-104. -/
def ListCap.dec (j : Json) : Option ListCap := do
  let s ← src 1 j
  let a ← opt decBool s "listChanged" 0
  some ⟨a⟩
@[simp] theorem ListCap.rt (x : ListCap) : ListCap.dec x.enc = some x := by simp [enc, dec]

/-- `ResourceCapabilities` (types/capabilities.rs L107-117). -/
structure ResourceCap where
  subscribe : Option Bool := none
  listChanged : Option Bool := none
  deriving Repr, DecidableEq

/-- Derived `Serialize` of `ResourceCap`, /repo/src/types/capabilities.rs L107-117. -/
def ResourceCap.enc (x : ResourceCap) : Json :=
  .obj (ob [("subscribe", x.subscribe.map .bool), ("listChanged", x.listChanged.map .bool)])
/-- Derived `Deserialize` of `ResourceCap`, /repo/src/types/capabilities.rs L107-117. -/
def ResourceCap.dec (j : Json) : Option ResourceCap := do
  let s ← src 2 j
  let a ← opt decBool s "subscribe" 0
  let b ← opt decBool s "listChanged" 1
  some ⟨a, b⟩
@[simp] theorem ResourceCap.rt (x : ResourceCap) : ResourceCap.dec x.enc = some x := by simp [enc, dec]

/-- `LoggingCapabilities` (field `levels`) and `SamplingCapabilities` (field `models`), types/capabilities.rs
L120-135. -/
structure NamesCap where
  names : Option (List String) := none
  deriving Repr, DecidableEq

/-- Derived `Serialize` of `NamesCap`, /repo/src/types/capabilities.rs L120-135. -/
def NamesCap.enc (field : String) (x : NamesCap) : Json := .obj (ob [(field, x.names.map (encList .str))])
/-- Derived `Deserialize` of `NamesCap`, /repo/src/types/capabilities.rs L120-135. -/
def NamesCap.dec (field : String) (j : Json) : Option NamesCap := do
  let s ← src 1 j
  let a ← opt (decList decStr) s field 0
  some ⟨a⟩
@[simp] theorem NamesCap.rt (field : String) (x : NamesCap) : NamesCap.dec field (x.enc field) = some x := by
  simp [enc, dec]

/-- `RootsCapabilities` (types/capabilities.rs L138-144): `#[serde(default)] list_changed: bool`. -/
structure RootsCap where
  listChanged : Bool := false
  deriving Repr, DecidableEq

/-- Derived `Serialize` of `RootsCap`, /repo/src/types/capabilities.rs L138-144. -/
def RootsCap.enc (x : RootsCap) : Json := .obj (ob [("listChanged", some (.bool x.listChanged))])
/-- Derived `Deserialize` of `RootsCap`, /repo/src/types/capabilities.rs L138-144. -/
def RootsCap.dec (j : Json) : Option RootsCap := do
  let s ← src 1 j
  let a ← dflt decBool false s "listChanged" 0
  some ⟨a⟩
@[simp] theorem RootsCap.rt (x : RootsCap) : RootsCap.dec x.enc = some x := by simp [enc, dec]

/-- An optional field of a type that is encoded as an object. -/
theorem optObj {α : Type} (d : Json → Option α) (e : α → Json) (x : Option α) (h : ∀ a, d (e a) = some a)
    (hn : ∀ a, e a ≠ .null) : optOf d (x.map e) = some x :=
  optOf_map d e x (fun a _ => ⟨h a, hn a⟩)

@[simp] theorem optListCap (x : Option ListCap) : optOf ListCap.dec (x.map ListCap.enc) = some x :=
  optObj _ _ x ListCap.rt (by simp [ListCap.enc])
@[simp] theorem optResourceCap (x : Option ResourceCap) : optOf ResourceCap.dec (x.map ResourceCap.enc) = some x :=
  optObj _ _ x ResourceCap.rt (by simp [ResourceCap.enc])
@[simp] theorem optNamesCap (f : String) (x : Option NamesCap) :
    optOf (NamesCap.dec f) (x.map (NamesCap.enc f)) = some x :=
  optObj _ _ x (NamesCap.rt f) (by simp [NamesCap.enc])
@[simp] theorem optRootsCap (x : Option RootsCap) : optOf RootsCap.dec (x.map RootsCap.enc) = some x :=
  optObj _ _ x RootsCap.rt (by simp [RootsCap.enc])
@[simp] theorem optValues (x : Option (List (String × Json))) : optOf (decMap decVal) (x.map (encMap id)) = some x :=
  optObj _ _ x (fun a => decMap_enc _ _ a (fun _ _ => rfl)) (by simp [encMap])

/-- `ClientCapabilities` (types/capabilities.rs L23-53). -/
structure ClientCaps where
  tools : Option ListCap := none
  prompts : Option ListCap := none
  resources : Option ResourceCap := none
  logging : Option NamesCap := none
  sampling : Option NamesCap := none
  roots : Option RootsCap := none
  experimental : Option (List (String × Json)) := none

/-- Derived `Serialize` of `ClientCaps`, /repo/src/types/capabilities.rs L23-53. -/
def ClientCaps.enc (x : ClientCaps) : Json :=
  .obj (ob [("tools", x.tools.map ListCap.enc), ("prompts", x.prompts.map ListCap.enc),
    ("resources", x.resources.map ResourceCap.enc), ("logging", x.logging.map (NamesCap.enc "levels")),
    ("sampling", x.sampling.map (NamesCap.enc "models")), ("roots", x.roots.map RootsCap.enc),
    ("experimental", x.experimental.map (encMap id))])
/-- Derived `Deserialize` of `ClientCaps`, /repo/src/types/capabilities.rs L23-53. -/
def ClientCaps.dec (j : Json) : Option ClientCaps := do
  let s ← src 7 j
  let a ← opt ListCap.dec s "tools" 0
  let b ← opt ListCap.dec s "prompts" 1
  let c ← opt ResourceCap.dec s "resources" 2
  let d ← opt (NamesCap.dec "levels") s "logging" 3
  let e ← opt (NamesCap.dec "models") s "sampling" 4
  let f ← opt RootsCap.dec s "roots" 5
  let g ← opt (decMap decVal) s "experimental" 6
  some ⟨a, b, c, d, e, f, g⟩
@[simp] theorem ClientCaps.rt (x : ClientCaps) : ClientCaps.dec x.enc = some x := by simp [enc, dec]

/-- `CompletionCapabilities` (types/capabilities.rs L147-153): its only field is skipped. -/
def encUnitStruct (_ : Unit) : Json := .obj []
/-- Derived `Deserialize` of `CompletionCapabilities`, /repo/src/types/capabilities.rs L147-153. -/
def decUnitStruct (j : Json) : Option Unit := (src 0 j).map (fun _ => ())
@[simp] theorem optUnit (x : Option Unit) : optOf decUnitStruct (x.map encUnitStruct) = some x :=
  optObj _ _ x (fun _ => rfl) (by simp [encUnitStruct])

/-- `ServerCapabilities` (types/capabilities.rs L56-86). -/
structure ServerCaps where
  tools : Option ListCap := none
  prompts : Option ListCap := none
  resources : Option ResourceCap := none
  logging : Option NamesCap := none
  completions : Option Unit := none
  sampling : Option NamesCap := none
  experimental : Option (List (String × Json)) := none

/-- Derived `Serialize` of `ServerCaps`, /repo/src/types/capabilities.rs L56-86. -/
def ServerCaps.enc (x : ServerCaps) : Json :=
  .obj (ob [("tools", x.tools.map ListCap.enc), ("prompts", x.prompts.map ListCap.enc),
    ("resources", x.resources.map ResourceCap.enc), ("logging", x.logging.map (NamesCap.enc "levels")),
    ("completions", x.completions.map encUnitStruct), ("sampling", x.sampling.map (NamesCap.enc "models")),
    ("experimental", x.experimental.map (encMap id))])
/-- Derived `Deserialize` of `ServerCaps`, /repo/src/types/capabilities.rs L56-86. -/
def ServerCaps.dec (j : Json) : Option ServerCaps := do
  let s ← src 7 j
  let a ← opt ListCap.dec s "tools" 0
  let b ← opt ListCap.dec s "prompts" 1
  let c ← opt ResourceCap.dec s "resources" 2
  let d ← opt (NamesCap.dec "levels") s "logging" 3
  let e ← opt decUnitStruct s "completions" 4
  let f ← opt (NamesCap.dec "models") s "sampling" 5
  let g ← opt (decMap decVal) s "experimental" 6
  some ⟨a, b, c, d, e, f, g⟩
@[simp] theorem ServerCaps.rt (x : ServerCaps) : ServerCaps.dec x.enc = some x := by simp [enc, dec]

/-! ### Request parameters (types/protocol.rs) -/

/-- `Implementation` (types/protocol.rs L36-43). -/
structure Impl where
  name : String
  version : String
  deriving Repr, DecidableEq

/-- Derived `Serialize` of `Impl`, /repo/src/types/protocol.rs L36-43. -/
def Impl.enc (x : Impl) : Json := .obj (ob [("name", some (.str x.name)), ("version", some (.str x.version))])
/-- Derived `Deserialize` of `Impl`, /repo/src/types/protocol.rs L36-43. -/
def Impl.dec (j : Json) : Option Impl := do
  let s ← src 2 j
  let a ← req decStr s "name" 0
  let b ← req decStr s "version" 1
  some ⟨a, b⟩
@[simp] theorem Impl.rt (x : Impl) : Impl.dec x.enc = some x := by simp [enc, dec]

/-- `InitializeRequest` (types/protocol.rs L46-55). -/
structure InitParams where
  protocolVersion : String
  capabilities : ClientCaps
  clientInfo : Impl

/-- Derived `Serialize` of `InitParams`, /repo/src/types/protocol.rs L46-55. -/
def InitParams.enc (x : InitParams) : Json :=
  .obj (ob [("protocolVersion", some (.str x.protocolVersion)), ("capabilities", some x.capabilities.enc),
    ("clientInfo", some x.clientInfo.enc)])
/-- Derived `Deserialize` of `InitParams`, /repo/src/types/protocol.rs L46-55. -/
def InitParams.dec (j : Json) : Option InitParams := do
  let s ← src 3 j
  let a ← req decStr s "protocolVersion" 0
  let b ← req ClientCaps.dec s "capabilities" 1
  let c ← req Impl.dec s "clientInfo" 2
  some ⟨a, b, c⟩
@[simp] theorem InitParams.rt (x : InitParams) : InitParams.dec x.enc = some x := by simp [enc, dec]

/-- `ListToolsRequest`, `ListPromptsRequest`, `ListResourcesRequest`, `ListResourceTemplatesRequest`
(types/protocol.rs L79-85, L176-182, L287-293, L337-343). -/
structure ListParams where
  cursor : Option String := none
  deriving Repr, DecidableEq

/-- Derived `Serialize` of `ListParams`, /repo/src/types/protocol.rs L79-85, L176-182, L287-293, L337-343. -/
def ListParams.enc (x : ListParams) : Json := .obj (ob [("cursor", x.cursor.map .str)])
/-- Derived `Deserialize` of `ListParams`, /repo/src/types/protocol.rs L79-85, L176-182, L287-293, L337-343. -/
def ListParams.dec (j : Json) : Option ListParams := do
  let s ← src 1 j
  let a ← opt decStr s "cursor" 0
  some ⟨a⟩
@[simp] theorem ListParams.rt (x : ListParams) : ListParams.dec x.enc = some x := by simp [enc, dec]

/-- `CallToolRequest` (types/protocol.rs L115-123). -/
structure CallTool where
  name : String
  arguments : Json := .null

/-- Derived `Serialize` of `CallTool`, /repo/src/types/protocol.rs L115-123. -/
def CallTool.enc (x : CallTool) : Json := .obj (ob [("name", some (.str x.name)), ("arguments", some x.arguments)])
/-- Derived `Deserialize` of `CallTool`, /repo/src/types/protocol.rs L115-123. -/
def CallTool.dec (j : Json) : Option CallTool := do
  let s ← src 2 j
  let a ← req decStr s "name" 0
  let b ← dflt decVal .null s "arguments" 1
  some ⟨a, b⟩
@[simp] theorem CallTool.rt (x : CallTool) : CallTool.dec x.enc = some x := by simp [enc, dec]

/-- `GetPromptRequest` (types/protocol.rs L230-238). -/
structure GetPrompt where
  name : String
  arguments : List (String × String) := []
  deriving Repr, DecidableEq

/-- Derived `Serialize` of `GetPrompt`, /repo/src/types/protocol.rs L230-238. -/
def GetPrompt.enc (x : GetPrompt) : Json :=
  .obj (ob [("name", some (.str x.name)), ("arguments", some (encMap .str x.arguments))])
/-- Derived `Deserialize` of `GetPrompt`, /repo/src/types/protocol.rs L230-238. -/
def GetPrompt.dec (j : Json) : Option GetPrompt := do
  let s ← src 2 j
  let a ← req decStr s "name" 0
  let b ← dflt (decMap decStr) [] s "arguments" 1
  some ⟨a, b⟩
@[simp] theorem decMap_str (m : List (String × String)) : decMap decStr (encMap .str m) = some m :=
  decMap_enc _ _ m (fun _ _ => rfl)
@[simp] theorem GetPrompt.rt (x : GetPrompt) : GetPrompt.dec x.enc = some x := by simp [enc, dec]

/-- `ReadResourceRequest`, `SubscribeRequest`, `UnsubscribeRequest`, `ResourceUpdatedParams`
(types/protocol.rs L326-331, L373-378, L381-386, L742-747). -/
structure UriParams where
  uri : String
  deriving Repr, DecidableEq

/-- Derived `Serialize` of `UriParams`, /repo/src/types/protocol.rs L326-331, L373-378, L381-386, L742-747. -/
def UriParams.enc (x : UriParams) : Json := .obj (ob [("uri", some (.str x.uri))])
/-- Derived `Deserialize` of `UriParams`, /repo/src/types/protocol.rs L326-331, L373-378, L381-386, L742-747. -/
def UriParams.dec (j : Json) : Option UriParams := do
  let s ← src 1 j
  let a ← req decStr s "uri" 0
  some ⟨a⟩
@[simp] theorem UriParams.rt (x : UriParams) : UriParams.dec x.enc = some x := by simp [enc, dec]

/-- The tag of an internally tagged enum, and the source of the variant's fields: the object without the tag, or
the array after it. /repo/src/types/protocol.rs L145, L400. -/
def tagged (tag : String) : Json → Option (String × List (String × Json) × Option (List Json))
  | .obj f => match AMap.get f tag with
    | some (.str t) => some (t, AMap.remove f tag, none)
    | _ => none
  | .arr (.str t :: l) => some (t, [], some l)
  | _ => none

/-- The fields of a struct variant of `n` fields of an internally tagged enum.
/repo/src/types/protocol.rs L145, L400. -/
def variantSrc (n : Nat) : List (String × Json) × Option (List Json) → Option Src
  | (f, none) => some (.obj f)
  | (_, some l) => if l.length ≤ n then some (.arr l) else none

/-- `CompletionReference` (types/protocol.rs L399-414): `tag = "type"`. -/
inductive CompletionRef where
  | resource (uri : String)
  | prompt (name : String)
  deriving Repr, DecidableEq

/-- Derived `Serialize` of `CompletionRef`, /repo/src/types/protocol.rs L399-414. -/
def CompletionRef.enc : CompletionRef → Json
  | .resource uri => .obj (ob [("type", some (.str "ref/resource")), ("uri", some (.str uri))])
  | .prompt name => .obj (ob [("type", some (.str "ref/prompt")), ("name", some (.str name))])
/-- Derived `Deserialize` of `CompletionRef`, /repo/src/types/protocol.rs L399-414. -/
def CompletionRef.dec (j : Json) : Option CompletionRef := do
  let (t, r) ← tagged "type" j
  let s ← variantSrc 1 r
  if t = "ref/resource" then (req decStr s "uri" 0).map .resource
  else if t = "ref/prompt" then (req decStr s "name" 0).map .prompt
  else none

theorem get_remove_ob (l : List (String × Option Json)) {t k : String} (h : k ≠ t) :
    AMap.get (AMap.remove (ob l) t) k = AMap.get (ob l) k := AMap.get_remove_ne _ h

@[simp] theorem CompletionRef.rt (x : CompletionRef) : CompletionRef.dec x.enc = some x := by
  cases x <;> simp [enc, dec, tagged, variantSrc, get_remove_ob]

/-- `CompletionArgument` (types/protocol.rs L417-424). -/
structure CompletionArg where
  name : String
  value : String
  deriving Repr, DecidableEq

/-- Derived `Serialize` of `CompletionArg`, /repo/src/types/protocol.rs L417-424. -/
def CompletionArg.enc (x : CompletionArg) : Json := .obj (ob [("name", some (.str x.name)), ("value", some (.str x.value))])
/-- Derived `Deserialize` of `CompletionArg`, /repo/src/types/protocol.rs L417-424. -/
def CompletionArg.dec (j : Json) : Option CompletionArg := do
  let s ← src 2 j
  let a ← req decStr s "name" 0
  let b ← req decStr s "value" 1
  some ⟨a, b⟩
@[simp] theorem CompletionArg.rt (x : CompletionArg) : CompletionArg.dec x.enc = some x := by simp [enc, dec]

/-- `CompleteRequest` (types/protocol.rs L389-396). -/
structure Complete where
  ref : CompletionRef
  argument : CompletionArg
  deriving Repr, DecidableEq

/-- Derived `Serialize` of `Complete`, /repo/src/types/protocol.rs L389-396. -/
def Complete.enc (x : Complete) : Json := .obj (ob [("ref", some x.ref.enc), ("argument", some x.argument.enc)])
/-- Derived `Deserialize` of `Complete`, /repo/src/types/protocol.rs L389-396. -/
def Complete.dec (j : Json) : Option Complete := do
  let s ← src 2 j
  let a ← req CompletionRef.dec s "ref" 0
  let b ← req CompletionArg.dec s "argument" 1
  some ⟨a, b⟩
@[simp] theorem Complete.rt (x : Complete) : Complete.dec x.enc = some x := by simp [enc, dec]

/-- `LoggingLevel` (types/protocol.rs L449-462), lowercase names. -/
inductive LoggingLevel where
  | debug | info | warning | error | critical
  deriving Repr, DecidableEq

/-- The names of the variants of `LoggingLevel`, /repo/src/types/protocol.rs L449-462. -/
def LoggingLevel.name : LoggingLevel → String
  | .debug => "debug" | .info => "info" | .warning => "warning" | .error => "error" | .critical => "critical"
/-- The names of the variants of `LoggingLevel`, /repo/src/types/protocol.rs L449-462. -/
def LoggingLevel.ofName (s : String) : Option LoggingLevel :=
  if s = "debug" then some .debug else if s = "info" then some .info else if s = "warning" then some .warning
  else if s = "error" then some .error else if s = "critical" then some .critical else none
/-- Derived `Serialize` of `LoggingLevel`, /repo/src/types/protocol.rs L449-462. -/
def LoggingLevel.enc (x : LoggingLevel) : Json := .str x.name
/-- Derived `Deserialize` of `LoggingLevel`, /repo/src/types/protocol.rs L449-462. -/
def LoggingLevel.dec : Json → Option LoggingLevel := decEnum LoggingLevel.ofName
@[simp] theorem LoggingLevel.rt (x : LoggingLevel) : LoggingLevel.dec x.enc = some x := by
  cases x <;> simp [enc, dec, decEnum, name, ofName]

/-- `Role` (types/protocol.rs L265-274), lowercase names. -/
inductive Role where
  | user | assistant | system
  deriving Repr, DecidableEq

/-- The names of the variants of `Role`, /repo/src/types/protocol.rs L265-274. -/
def Role.name : Role → String
  | .user => "user" | .assistant => "assistant" | .system => "system"
/-- The names of the variants of `Role`, /repo/src/types/protocol.rs L265-274. -/
def Role.ofName (s : String) : Option Role :=
  if s = "user" then some .user else if s = "assistant" then some .assistant
  else if s = "system" then some .system else none
/-- Derived `Serialize` of `Role`, /repo/src/types/protocol.rs L265-274. -/
def Role.enc (x : Role) : Json := .str x.name
/-- Derived `Deserialize` of `Role`, /repo/src/types/protocol.rs L265-274. -/
def Role.dec : Json → Option Role := decEnum Role.ofName
@[simp] theorem Role.rt (x : Role) : Role.dec x.enc = some x := by
  cases x <;> simp [enc, dec, decEnum, name, ofName]

/-- `Content` (types/protocol.rs L144-173): `tag = "type"`. -/
inductive Content where
  | text (text : String)
  | image (data mimeType : String)
  | resource (uri : String) (text mimeType : Option String)
  deriving Repr, DecidableEq

/-- Derived `Serialize` of `Content`, /repo/src/types/protocol.rs L144-173. -/
def Content.enc : Content → Json
  | .text t => .obj (ob [("type", some (.str "text")), ("text", some (.str t))])
  | .image d m => .obj (ob [("type", some (.str "image")), ("data", some (.str d)), ("mimeType", some (.str m))])
  | .resource u t m => .obj (ob [("type", some (.str "resource")), ("uri", some (.str u)), ("text", t.map .str),
      ("mimeType", m.map .str)])
/-- Derived `Deserialize` of `Content`, /repo/src/types/protocol.rs L144-173. -/
def Content.dec (j : Json) : Option Content := do
  let (t, r) ← tagged "type" j
  if t = "text" then
    let s ← variantSrc 1 r
    (req decStr s "text" 0).map .text
  else if t = "image" then
    let s ← variantSrc 2 r
    let a ← req decStr s "data" 0
    let b ← req decStr s "mimeType" 1
    some (.image a b)
  else if t = "resource" then
    let s ← variantSrc 3 r
    let a ← req decStr s "uri" 0
    let b ← opt decStr s "text" 1
    let c ← opt decStr s "mimeType" 2
    some (.resource a b c)
  else none
@[simp] theorem Content.rt (x : Content) : Content.dec x.enc = some x := by
  cases x <;> simp [enc, dec, tagged, variantSrc, get_remove_ob]

/-- `SamplingMessage` and `PromptMessage` (types/protocol.rs L655-662, L255-262). -/
structure Message where
  role : Role
  content : Content
  deriving Repr, DecidableEq

/-- Derived `Serialize` of `Message`, /repo/src/types/protocol.rs L655-662, L255-262. -/
def Message.enc (x : Message) : Json := .obj (ob [("role", some x.role.enc), ("content", some x.content.enc)])
/-- Derived `Deserialize` of `Message`, /repo/src/types/protocol.rs L655-662, L255-262. -/
def Message.dec (j : Json) : Option Message := do
  let s ← src 2 j
  let a ← req Role.dec s "role" 0
  let b ← req Content.dec s "content" 1
  some ⟨a, b⟩
@[simp] theorem Message.rt (x : Message) : Message.dec x.enc = some x := by simp [enc, dec]

/-- `ModelHint` (types/protocol.rs L491-497). -/
structure ModelHint where
  name : Option String := none
  deriving Repr, DecidableEq

/-- Derived `Serialize` of `ModelHint`, /repo/src/types/protocol.rs L491-497. -/
def ModelHint.enc (x : ModelHint) : Json := .obj (ob [("name", x.name.map .str)])
/-- Derived `Deserialize` of `ModelHint`, /repo/src/types/protocol.rs L491-497. -/
def ModelHint.dec (j : Json) : Option ModelHint := do
  let s ← src 1 j
  let a ← opt decStr s "name" 0
  some ⟨a⟩
@[simp] theorem ModelHint.rt (x : ModelHint) : ModelHint.dec x.enc = some x := by simp [enc, dec]

/-- All of an optional float is finite. Models serde/serde_json for the derives of /repo/src/types/protocol.rs
L20-890. -/
def okF (x : Option F64) : Prop := ∀ f, x = some f → f.finite = true

/-- `ModelPreferences` (types/protocol.rs L473-488). -/
structure ModelPrefs where
  hints : Option (List ModelHint) := none
  cost : Option F64 := none
  speed : Option F64 := none
  intelligence : Option F64 := none
  deriving Repr, DecidableEq

/-- Derived `Serialize` of `ModelPrefs`, /repo/src/types/protocol.rs L473-488. -/
def ModelPrefs.enc (x : ModelPrefs) : Json :=
  .obj (ob [("hints", x.hints.map (encList ModelHint.enc)), ("costPriority", x.cost.map encF64),
    ("speedPriority", x.speed.map encF64), ("intelligencePriority", x.intelligence.map encF64)])
/-- Derived `Deserialize` of `ModelPrefs`, /repo/src/types/protocol.rs L473-488. -/
def ModelPrefs.dec (j : Json) : Option ModelPrefs := do
  let s ← src 4 j
  let a ← opt (decList ModelHint.dec) s "hints" 0
  let b ← opt decF64 s "costPriority" 1
  let c ← opt decF64 s "speedPriority" 2
  let d ← opt decF64 s "intelligencePriority" 3
  some ⟨a, b, c, d⟩
/-- Values of `ModelPrefs` that survive their JSON form, /repo/src/types/protocol.rs L473-488. -/
def ModelPrefs.Ok (x : ModelPrefs) : Prop := okF x.cost ∧ okF x.speed ∧ okF x.intelligence
@[simp] theorem optHints (x : Option (List ModelHint)) :
    optOf (decList ModelHint.dec) (x.map (encList ModelHint.enc)) = some x :=
  optObj _ _ x (fun l => decList_enc _ _ l (fun a _ => ModelHint.rt a)) (by simp [encList])
theorem ModelPrefs.rt (x : ModelPrefs) (h : x.Ok) : ModelPrefs.dec x.enc = some x := by
  simp [enc, dec, optF64 _ h.1, optF64 _ h.2.1, optF64 _ h.2.2]

/-- `IncludeContext` (types/protocol.rs L665-680), camelCase names. -/
inductive IncludeContext where
  | all | none | thisServerOnly
  deriving Repr, DecidableEq

/-- The names of the variants of `IncludeContext`, /repo/src/types/protocol.rs L665-680. -/
def IncludeContext.name : IncludeContext → String
  | .all => "all" | .none => "none" | .thisServerOnly => "thisServerOnly"
/-- The names of the variants of `IncludeContext`, /repo/src/types/protocol.rs L665-680. -/
def IncludeContext.ofName (s : String) : Option IncludeContext :=
  if s = "all" then some .all else if s = "none" then some .none
  else if s = "thisServerOnly" then some .thisServerOnly else Option.none
/-- Derived `Serialize` of `IncludeContext`, /repo/src/types/protocol.rs L665-680. -/
def IncludeContext.enc (x : IncludeContext) : Json := .str x.name
/-- Derived `Deserialize` of `IncludeContext`, /repo/src/types/protocol.rs L665-680. -/
def IncludeContext.dec : Json → Option IncludeContext := decEnum IncludeContext.ofName
@[simp] theorem IncludeContext.rt (x : IncludeContext) : IncludeContext.dec x.enc = some x := by
  cases x <;> simp [enc, dec, decEnum, name, ofName]

/-- `CreateMessageParams` (types/protocol.rs L595-621). -/
structure CreateMessage where
  messages : List Message
  prefs : Option ModelPrefs := none
  systemPrompt : Option String := none
  includeContext : IncludeContext := .none
  temperature : Option F64 := none
  maxTokens : Option U32 := none
  stopSequences : Option (List String) := none
  metadata : Option Json := none

/-- Derived `Serialize` of `CreateMessage`, /repo/src/types/protocol.rs L595-621. -/
def CreateMessage.enc (x : CreateMessage) : Json :=
  .obj (ob [("messages", some (encList Message.enc x.messages)), ("modelPreferences", x.prefs.map ModelPrefs.enc),
    ("systemPrompt", x.systemPrompt.map .str), ("includeContext", some x.includeContext.enc),
    ("temperature", x.temperature.map encF64), ("maxTokens", x.maxTokens.map encInt),
    ("stopSequences", x.stopSequences.map (encList .str)), ("metadata", x.metadata)])
/-- Derived `Deserialize` of `CreateMessage`, /repo/src/types/protocol.rs L595-621. -/
def CreateMessage.dec (j : Json) : Option CreateMessage := do
  let s ← src 8 j
  let a ← req (decList Message.dec) s "messages" 0
  let b ← opt ModelPrefs.dec s "modelPreferences" 1
  let c ← opt decStr s "systemPrompt" 2
  let d ← dflt IncludeContext.dec .none s "includeContext" 3
  let e ← opt decF64 s "temperature" 4
  let f ← opt (decInt 0 (2 ^ 32)) s "maxTokens" 5
  let g ← opt (decList decStr) s "stopSequences" 6
  let h ← opt decVal s "metadata" 7
  some ⟨a, b, c, d, e, f, g, h⟩
/-- Floats are finite and the metadata is not `Some(Value::Null)`.
Values of `CreateMessage` that survive their JSON form, /repo/src/types/protocol.rs L595-621. -/
def CreateMessage.Ok (x : CreateMessage) : Prop :=
  (∀ p, x.prefs = some p → p.Ok) ∧ okF x.temperature ∧ x.metadata ≠ some .null
theorem CreateMessage.rt (x : CreateMessage) (h : x.Ok) : CreateMessage.dec x.enc = some x := by
  have hp : optOf ModelPrefs.dec (x.prefs.map ModelPrefs.enc) = some x.prefs :=
    optOf_map _ _ _ (fun a ha => ⟨ModelPrefs.rt a (h.1 a ha), by simp [ModelPrefs.enc]⟩)
  have hm : decList Message.dec (encList Message.enc x.messages) = some x.messages :=
    decList_enc _ _ _ (fun a _ => Message.rt a)
  simp [enc, dec, hp, hm, optF64 _ h.2.1, optVal _ h.2.2]

/-- `ElicitInputResponse` (types/elicitation.rs L207-224). -/
structure ElicitResponse where
  elicitationId : String
  value : Option Json := none
  cancelled : Bool := false
  error : Option String := none

/-- Derived `Serialize` of `ElicitResponse`, /repo/src/types/elicitation.rs L207-224. -/
def ElicitResponse.enc (x : ElicitResponse) : Json :=
  .obj (ob [("elicitationId", some (.str x.elicitationId)), ("value", x.value), ("cancelled", some (.bool x.cancelled)),
    ("error", x.error.map .str)])
/-- Derived `Deserialize` of `ElicitResponse`, /repo/src/types/elicitation.rs L207-224. -/
def ElicitResponse.dec (j : Json) : Option ElicitResponse := do
  let s ← src 4 j
  let a ← req decStr s "elicitationId" 0
  let b ← opt decVal s "value" 1
  let c ← dflt decBool false s "cancelled" 2
  let d ← opt decStr s "error" 3
  some ⟨a, b, c, d⟩
/-- Values of `ElicitResponse` that survive their JSON form, /repo/src/types/elicitation.rs L207-224. -/
def ElicitResponse.Ok (x : ElicitResponse) : Prop := x.value ≠ some .null
theorem ElicitResponse.rt (x : ElicitResponse) (h : x.Ok) : ElicitResponse.dec x.enc = some x := by
  simp [enc, dec, optVal _ h]

/-- `InputType` (types/elicitation.rs L123-156), camelCase names. -/
inductive InputType where
  | text | textarea | boolean | number | select | multiSelect | filePath | directoryPath | password | date | time
  | dateTime | color | url | email
  deriving Repr, DecidableEq

/-- The names of the variants of `InputType`, /repo/src/types/elicitation.rs L123-156. -/
def InputType.name : InputType → String
  | .text => "text" | .textarea => "textarea" | .boolean => "boolean" | .number => "number" | .select => "select"
  | .multiSelect => "multiSelect" | .filePath => "filePath" | .directoryPath => "directoryPath"
  | .password => "password" | .date => "date" | .time => "time" | .dateTime => "dateTime" | .color => "color"
  | .url => "url" | .email => "email"
/-- The names of the variants of `InputType`, /repo/src/types/elicitation.rs L123-156. -/
def InputType.all : List InputType :=
  [.text, .textarea, .boolean, .number, .select, .multiSelect, .filePath, .directoryPath, .password, .date, .time,
    .dateTime, .color, .url, .email]
/-- The names of the variants of `InputType`, /repo/src/types/elicitation.rs L123-156. -/
def InputType.ofName (s : String) : Option InputType := InputType.all.find? (fun x => x.name == s)
/-- Derived `Serialize` of `InputType`, /repo/src/types/elicitation.rs L123-156. -/
def InputType.enc (x : InputType) : Json := .str x.name
/-- Derived `Deserialize` of `InputType`, /repo/src/types/elicitation.rs L123-156. -/
def InputType.dec : Json → Option InputType := decEnum InputType.ofName
@[simp] theorem InputType.rt (x : InputType) : InputType.dec x.enc = some x := by
  cases x <;> simp [enc, dec, decEnum, name, ofName, all]

/-- `SelectOption` (types/elicitation.rs L188-204). -/
structure SelectOption where
  value : Json
  label : String
  description : Option String := none
  disabled : Bool := false

/-- Derived `Serialize` of `SelectOption`, /repo/src/types/elicitation.rs L188-204. -/
def SelectOption.enc (x : SelectOption) : Json :=
  .obj (ob [("value", some x.value), ("label", some (.str x.label)), ("description", x.description.map .str),
    ("disabled", some (.bool x.disabled))])
/-- Derived `Deserialize` of `SelectOption`, /repo/src/types/elicitation.rs L188-204. -/
def SelectOption.dec (j : Json) : Option SelectOption := do
  let s ← src 4 j
  let a ← req decVal s "value" 0
  let b ← req decStr s "label" 1
  let c ← opt decStr s "description" 2
  let d ← dflt decBool false s "disabled" 3
  some ⟨a, b, c, d⟩
@[simp] theorem SelectOption.rt (x : SelectOption) : SelectOption.dec x.enc = some x := by simp [enc, dec]

/-- `InputValidation` (types/elicitation.rs L159-185). -/
structure InputValidation where
  required : Bool := false
  min : Option F64 := none
  max : Option F64 := none
  pattern : Option String := none
  options : Option (List SelectOption) := none
  message : Option String := none

/-- Derived `Serialize` of `InputValidation`, /repo/src/types/elicitation.rs L159-185. -/
def InputValidation.enc (x : InputValidation) : Json :=
  .obj (ob [("required", some (.bool x.required)), ("min", x.min.map encF64), ("max", x.max.map encF64),
    ("pattern", x.pattern.map .str), ("options", x.options.map (encList SelectOption.enc)),
    ("message", x.message.map .str)])
/-- Derived `Deserialize` of `InputValidation`, /repo/src/types/elicitation.rs L159-185. -/
def InputValidation.dec (j : Json) : Option InputValidation := do
  let s ← src 6 j
  let a ← dflt decBool false s "required" 0
  let b ← opt decF64 s "min" 1
  let c ← opt decF64 s "max" 2
  let d ← opt decStr s "pattern" 3
  let e ← opt (decList SelectOption.dec) s "options" 4
  let f ← opt decStr s "message" 5
  some ⟨a, b, c, d, e, f⟩
/-- Values of `InputValidation` that survive their JSON form, /repo/src/types/elicitation.rs L159-185. -/
def InputValidation.Ok (x : InputValidation) : Prop := okF x.min ∧ okF x.max
@[simp] theorem optOptions (x : Option (List SelectOption)) :
    optOf (decList SelectOption.dec) (x.map (encList SelectOption.enc)) = some x :=
  optObj _ _ x (fun l => decList_enc _ _ l (fun a _ => SelectOption.rt a)) (by simp [encList])
theorem InputValidation.rt (x : InputValidation) (h : x.Ok) : InputValidation.dec x.enc = some x := by
  simp [enc, dec, optF64 _ h.1, optF64 _ h.2]

/-! ### Flattened maps -/

/-- `serde_json::Map::insert` with `preserve_order`: a present key keeps its place.
/repo/src/types/elicitation.rs L118, /repo/src/types/completable.rs L85. -/
def insertEntry (f : List (String × Json)) (k : String) (v : Json) : List (String × Json) :=
  if (AMap.get f k).isSome then f.map (fun p => if p.1 = k then (k, v) else p) else f ++ [(k, v)]

/-- A `#[serde(flatten)]` map after the other fields: its entries are inserted one after the other.
/repo/src/types/elicitation.rs L118, /repo/src/types/completable.rs L85. -/
def flatten (f : List (String × Json)) (m : List (String × Json)) : List (String × Json) :=
  m.foldl (fun f p => insertEntry f p.1 p.2) f

/-- The entries that go to the flattened map: the keys that are no field of the struct.
/repo/src/types/elicitation.rs L118, /repo/src/types/completable.rs L85. -/
def rest (known : List String) (f : List (String × Json)) : List (String × Json) :=
  f.filter (fun p => !known.contains p.1)

theorem get_append_ne (f : List (String × Json)) (m : List (String × Json)) (k : String)
    (h : AMap.get f k = none) : AMap.get (f ++ m) k = AMap.get m k := by
  induction f with
  | nil => rfl
  | cons p f ih =>
    obtain ⟨a, v⟩ := p
    rw [AMap.get_cons] at h
    split at h
    · cases h
    · next hn => rw [List.cons_append, AMap.get_cons, if_neg hn]; exact ih h

theorem get_none_of_not_key (f : List (String × Json)) (k : String) (h : k ∉ f.map (·.1)) : AMap.get f k = none := by
  induction f with
  | nil => rfl
  | cons p f ih =>
    obtain ⟨a, v⟩ := p
    simp only [List.map_cons, List.mem_cons, not_or] at h
    rw [AMap.get_cons, if_neg (Ne.symm h.1)]; exact ih h.2

theorem key_of_get (f : List (String × Json)) (k : String) (h : AMap.get f k ≠ none) : k ∈ f.map (·.1) :=
  Decidable.byContradiction (fun hn => h (get_none_of_not_key f k hn))

theorem get_append_left (f m : List (String × Json)) (k : String) (h : k ∉ m.map (·.1)) :
    AMap.get (f ++ m) k = AMap.get f k := by
  induction f with
  | nil => exact get_none_of_not_key m k h
  | cons p f ih =>
    obtain ⟨a, v⟩ := p
    rw [List.cons_append, AMap.get_cons, AMap.get_cons, ih]

/-- If the flattened map shares no key with the fields, its entries are appended. -/
theorem flatten_eq (f m : List (String × Json)) (hn : (m.map (·.1)).Nodup) (hd : ∀ k ∈ m.map (·.1), k ∉ f.map (·.1)) :
    flatten f m = f ++ m := by
  induction m generalizing f with
  | nil => simp [flatten]
  | cons p m ih =>
    obtain ⟨k, v⟩ := p
    simp only [flatten, List.foldl_cons]
    have hk : AMap.get f k = none := get_none_of_not_key f k (hd k (by simp))
    have : insertEntry f k v = f ++ [(k, v)] := by simp [insertEntry, hk]
    rw [this]
    have := ih (f ++ [(k, v)]) (List.nodup_cons.mp hn).2 (by
      intro k' hk' hmem
      simp only [List.map_append, List.map_cons, List.map_nil, List.mem_append, List.mem_singleton] at hmem
      rcases hmem with h | rfl
      · exact hd k' (by simp at hk' ⊢; exact .inr hk') h
      · exact (List.nodup_cons.mp hn).1 hk')
    simp only [flatten] at this
    rw [this]; simp

theorem ob_keys (l : List (String × Option Json)) : ∀ k ∈ (ob l).map (·.1), k ∈ l.map (·.1) := by
  intro k hk
  simp only [ob, List.mem_map, List.mem_filterMap, Option.map_eq_some_iff, Prod.exists] at hk
  obtain ⟨a, b, ⟨k', o, hm, j, rfl, he⟩, rfl⟩ := hk
  cases he
  exact List.mem_map.mpr ⟨_, hm, rfl⟩

theorem rest_eq (known : List String) (f m : List (String × Json)) (hf : ∀ k ∈ f.map (·.1), k ∈ known)
    (hm : ∀ k ∈ m.map (·.1), k ∉ known) : rest known (f ++ m) = m := by
  unfold rest
  rw [List.filter_append, List.filter_eq_nil_iff.mpr, List.nil_append, List.filter_eq_self]
  · intro p hp
    have := hm p.1 (List.mem_map_of_mem hp)
    simpa using this
  · intro p hp
    have := hf p.1 (List.mem_map_of_mem hp)
    simpa using this

/-- `ElicitInputRequest` (types/elicitation.rs L93-120). -/
structure ElicitRequest where
  elicitationId : String
  inputType : InputType
  prompt : String
  description : Option String := none
  default : Option Json := none
  validation : Option InputValidation := none
  metadata : List (String × Json) := []

/-- The names of the fields, /repo/src/types/elicitation.rs L93-120. -/
def ElicitRequest.known : List String :=
  ["elicitationId", "inputType", "prompt", "description", "default", "validation"]
/-- The fields that are not flattened, /repo/src/types/elicitation.rs L93-120. -/
def ElicitRequest.fields (x : ElicitRequest) : List (String × Option Json) :=
  [("elicitationId", some (.str x.elicitationId)), ("inputType", some x.inputType.enc),
    ("prompt", some (.str x.prompt)), ("description", x.description.map .str), ("default", x.default),
    ("validation", x.validation.map InputValidation.enc)]
/-- Derived `Serialize` of `ElicitRequest`, /repo/src/types/elicitation.rs L93-120. -/
def ElicitRequest.enc (x : ElicitRequest) : Json := .obj (flatten (ob x.fields) x.metadata)
/-- A struct with a flattened map is read from objects only.
Derived `Deserialize` of `ElicitRequest`, /repo/src/types/elicitation.rs L93-120. -/
def ElicitRequest.dec : Json → Option ElicitRequest
  | .obj f => do
    let a ← req decStr (.obj f) "elicitationId" 0
    let b ← req InputType.dec (.obj f) "inputType" 1
    let c ← req decStr (.obj f) "prompt" 2
    let d ← opt decStr (.obj f) "description" 3
    let e ← opt decVal (.obj f) "default" 4
    let g ← opt InputValidation.dec (.obj f) "validation" 5
    some ⟨a, b, c, d, e, g, rest ElicitRequest.known f⟩
  | _ => none
/-- The metadata is a map with no key of the struct, the default is not `Some(Value::Null)`, floats are finite.
Values of `ElicitRequest` that survive their JSON form, /repo/src/types/elicitation.rs L93-120. -/
def ElicitRequest.Ok (x : ElicitRequest) : Prop :=
  x.default ≠ some .null ∧ (∀ v, x.validation = some v → v.Ok) ∧ (x.metadata.map (·.1)).Nodup ∧
    ∀ k ∈ x.metadata.map (·.1), k ∉ ElicitRequest.known
theorem ElicitRequest.rt (x : ElicitRequest) (h : x.Ok) : ElicitRequest.dec x.enc = some x := by
  obtain ⟨h1, h2, h3, h4⟩ := h
  have hkeys : ∀ k ∈ (ob x.fields).map (·.1), k ∈ ElicitRequest.known := by
    intro k hk
    have := ob_keys _ k hk
    simpa [fields, known] using this
  have hf : flatten (ob x.fields) x.metadata = ob x.fields ++ x.metadata :=
    flatten_eq _ _ h3 (fun k hk hc => h4 k hk (hkeys k hc))
  have hr : rest ElicitRequest.known (ob x.fields ++ x.metadata) = x.metadata := rest_eq _ _ _ hkeys h4
  have hget : ∀ k ∈ ElicitRequest.known, AMap.get (ob x.fields ++ x.metadata) k = AMap.get (ob x.fields) k :=
    fun k hk => get_append_left _ _ k (fun hc => h4 k hc hk)
  have hv : optOf InputValidation.dec (x.validation.map InputValidation.enc) = some x.validation :=
    optOf_map _ _ _ (fun a ha => ⟨InputValidation.rt a (h2 a ha), by simp [InputValidation.enc]⟩)
  simp only [enc, hf, dec, req_obj, opt_obj, hr]
  rw [hget "elicitationId" (by simp [known]), hget "inputType" (by simp [known]), hget "prompt" (by simp [known]),
    hget "description" (by simp [known]), hget "default" (by simp [known]), hget "validation" (by simp [known])]
  simp [fields, optVal _ h1, hv]

/-! ### Notification parameters (types/protocol.rs) -/

/-- `RequestId` (types/jsonrpc.rs L28-35) and `ProgressToken` (types/protocol.rs L516-523): untagged. -/
inductive Id where
  | str (s : String)
  | num (n : I64)
  deriving Repr, DecidableEq

/-- Derived `Serialize` of `Id`, /repo/src/types/jsonrpc.rs L28-35, L516-523. -/
def Id.enc : Id → Json
  | .str s => .str s
  | .num n => encInt n
/-- Derived `Deserialize` of `Id`, /repo/src/types/jsonrpc.rs L28-35, L516-523. -/
def Id.dec (j : Json) : Option Id :=
  match decStr j with
  | some s => some (.str s)
  | none => (decInt (-2 ^ 63) (2 ^ 63) j).map .num
@[simp] theorem Id.rt (x : Id) : Id.dec x.enc = some x := by
  cases x with
  | str s => rfl
  | num n =>
    have : decStr (encInt n) = none := rfl
    simp [enc, dec, this]

/-- `ProgressNotification` (types/protocol.rs L500-510). -/
structure Progress where
  token : Id
  progress : F64
  message : Option String := none
  deriving Repr, DecidableEq

/-- Derived `Serialize` of `Progress`, /repo/src/types/protocol.rs L500-510. -/
def Progress.enc (x : Progress) : Json :=
  .obj (ob [("progressToken", some x.token.enc), ("progress", some (encF64 x.progress)), ("message", x.message.map .str)])
/-- Derived `Deserialize` of `Progress`, /repo/src/types/protocol.rs L500-510. -/
def Progress.dec (j : Json) : Option Progress := do
  let s ← src 3 j
  let a ← req Id.dec s "progressToken" 0
  let b ← req decF64 s "progress" 1
  let c ← opt decStr s "message" 2
  some ⟨a, b, c⟩
/-- Values of `Progress` that survive their JSON form, /repo/src/types/protocol.rs L500-510. -/
def Progress.Ok (x : Progress) : Prop := x.progress.finite = true
theorem Progress.rt (x : Progress) (h : x.Ok) : Progress.dec x.enc = some x := by
  simp [enc, dec, decF64_enc _ h]

/-- `CancelledNotification` (types/protocol.rs L701-709). -/
structure Cancelled where
  requestId : Id
  reason : Option String := none
  deriving Repr, DecidableEq

/-- Derived `Serialize` of `Cancelled`, /repo/src/types/protocol.rs L701-709. -/
def Cancelled.enc (x : Cancelled) : Json := .obj (ob [("requestId", some x.requestId.enc), ("reason", x.reason.map .str)])
/-- Derived `Deserialize` of `Cancelled`, /repo/src/types/protocol.rs L701-709. -/
def Cancelled.dec (j : Json) : Option Cancelled := do
  let s ← src 2 j
  let a ← req Id.dec s "requestId" 0
  let b ← opt decStr s "reason" 1
  some ⟨a, b⟩
@[simp] theorem Cancelled.rt (x : Cancelled) : Cancelled.dec x.enc = some x := by simp [enc, dec]

/-- `LogLevel` (types/protocol.rs L790-801), camelCase names. -/
inductive LogLevel where
  | debug | info | warning | error
  deriving Repr, DecidableEq

/-- The names of the variants of `LogLevel`, /repo/src/types/protocol.rs L790-801. -/
def LogLevel.name : LogLevel → String
  | .debug => "debug" | .info => "info" | .warning => "warning" | .error => "error"
/-- The names of the variants of `LogLevel`, /repo/src/types/protocol.rs L790-801. -/
def LogLevel.ofName (s : String) : Option LogLevel :=
  if s = "debug" then some .debug else if s = "info" then some .info else if s = "warning" then some .warning
  else if s = "error" then some .error else none
/-- Derived `Serialize` of `LogLevel`, /repo/src/types/protocol.rs L790-801. -/
def LogLevel.enc (x : LogLevel) : Json := .str x.name
/-- Derived `Deserialize` of `LogLevel`, /repo/src/types/protocol.rs L790-801. -/
def LogLevel.dec : Json → Option LogLevel := decEnum LogLevel.ofName
@[simp] theorem LogLevel.rt (x : LogLevel) : LogLevel.dec x.enc = some x := by
  cases x <;> simp [enc, dec, decEnum, name, ofName]

/-- `LogMessageParams` (types/protocol.rs L750-763). -/
structure LogMessage where
  level : LogLevel
  logger : Option String := none
  message : String
  data : Option Json := none

/-- Derived `Serialize` of `LogMessage`, /repo/src/types/protocol.rs L750-763. -/
def LogMessage.enc (x : LogMessage) : Json :=
  .obj (ob [("level", some x.level.enc), ("logger", x.logger.map .str), ("message", some (.str x.message)), ("data", x.data)])
/-- Derived `Deserialize` of `LogMessage`, /repo/src/types/protocol.rs L750-763. -/
def LogMessage.dec (j : Json) : Option LogMessage := do
  let s ← src 4 j
  let a ← req LogLevel.dec s "level" 0
  let b ← opt decStr s "logger" 1
  let c ← req decStr s "message" 2
  let d ← opt decVal s "data" 3
  some ⟨a, b, c, d⟩
/-- Values of `LogMessage` that survive their JSON form, /repo/src/types/protocol.rs L750-763. -/
def LogMessage.Ok (x : LogMessage) : Prop := x.data ≠ some .null
theorem LogMessage.rt (x : LogMessage) (h : x.Ok) : LogMessage.dec x.enc = some x := by
  simp [enc, dec, optVal _ h]

end Verif.Wire
