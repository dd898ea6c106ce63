import Verif.Conform.Outbound
import Verif.Server.Model

/-
What the crate answers, against the published schema: results by type (C187) and the answers of the server (C188).
-/

namespace Verif.Conform

open Verif Verif.Wire

/-! ### C187: the types of results -/

/-- An input schema as the schema of tools has it. (Specification: no counterpart in the code.) -/
def InputSchemaOk (j : Json) : Prop := ∃ f, j = .obj f ∧ AMap.get f "type" = some (.str "object") ∧
  (∀ p, AMap.get f "properties" = some p → ∃ g, p = .obj g ∧ ∀ e ∈ g, ∃ h, e.2 = .obj h) ∧
  ∀ r, AMap.get f "required" = some r → ∃ l, r = .arr l ∧ ∀ e ∈ l, ∃ s, e = .str s

/-- Content the schema has in tool results and prompts. (Specification: no counterpart in the code.) -/
def ContentOk (c : Content) : Prop := ∀ u t y, c ≠ .resource u t y

/-- The results the schema allows, by type. (Specification: no counterpart in the code.) -/
def ResOk : Res → Prop
  | .init r => expOk r.capabilities.experimental
  | .tools r => ∀ t ∈ r.items, InputSchemaOk t.inputSchema
  | .call r => ∀ c ∈ r.content, ContentOk c
  | .prompt r => ∀ m ∈ r.messages, RoleOk m.role ∧ ContentOk m.content
  | .read r => ∀ c ∈ r.contents, ∃ u t y, c = .resource u (some t) y
  | .sample _ => False
  | _ => True

/-- The schema of each result. (Specification: no counterpart in the code.) -/
def resSchema : Res → Schema
  | .init _ => initializeResult
  | .tools _ => page "tools" tool
  | .call _ => callToolResult
  | .prompts _ => page "prompts" prompt
  | .prompt _ => getPromptResult
  | .resources _ => page "resources" resource
  | .templates _ => page "resourceTemplates" resourceTemplate
  | .read _ => readResourceResult
  | .complete _ => completeResult
  | .sample _ => createMessageResult

theorem contentBlock_enc (c : Content) : contentBlock c.enc = true ↔ ContentOk c := by
  cases c <;>
    simp [contentBlock, either, textContent, mediaContent, resourceLink, embeddedResource, Content.enc, object_obj, must,
      ContentOk]

theorem oneOf_object (j : Json) : oneOf ["object"] j = true ↔ j = .str "object" := by
  cases j <;> simp [oneOf]

theorem str_iff (j : Json) : str j = true ↔ ∃ s, j = .str s := by cases j <;> simp [str]

theorem any_iff {α : Type} (x : Option α) (p : α → Bool) : x.any p = true ↔ ∃ a, x = some a ∧ p a = true := by
  cases x <;> simp

theorem all_iff {α : Type} (x : Option α) (p : α → Bool) : x.all p = true ↔ ∀ a, x = some a → p a = true := by
  cases x <;> simp

theorem inputSchema_iff (j : Json) :
    object [must "type" (oneOf ["object"]), may "properties" (record anyObject), may "required" (array str)] j = true ↔
      InputSchemaOk j := by
  cases j with
  | obj f =>
    simp only [object_obj, List.all_cons, List.all_nil, Bool.and_true, Bool.and_eq_true, must, may, any_iff, all_iff,
      oneOf_object, InputSchemaOk, Json.obj.injEq]
    constructor
    · rintro ⟨⟨a, ha, rfl⟩, h2, h3⟩
      refine ⟨f, rfl, ha, fun p hp => ?_, fun r hr => ?_⟩
      · have := h2 p hp
        cases p <;> simp [record] at this
        rename_i g
        exact ⟨g, rfl, fun e he => (anyObject_iff _).mp (this e.1 e.2 he)⟩
      · have := h3 r hr
        cases r <;> simp [array] at this
        rename_i l
        exact ⟨l, rfl, fun e he => (str_iff _).mp (this e he)⟩
    · rintro ⟨g, rfl, h1, h2, h3⟩
      refine ⟨⟨_, h1, rfl⟩, fun p hp => ?_, fun r hr => ?_⟩
      · obtain ⟨g, rfl, hg⟩ := h2 p hp
        simp only [record, List.all_eq_true]
        exact fun e he => (anyObject_iff _).mpr (hg e he)
      · obtain ⟨l, rfl, hl⟩ := h3 r hr
        simp only [array, List.all_eq_true]
        exact fun e he => (str_iff _).mpr (hl e he)
  | _ => simp [object, InputSchemaOk]

theorem tool_enc (t : ToolInfo) : tool t.enc = true ↔ InputSchemaOk t.inputSchema := by
  rw [← inputSchema_iff]
  obtain ⟨n, d, i⟩ := t
  cases d <;> simp [tool, ToolInfo.enc, object_obj, must, may]

theorem page_enc {α : Type} (field : String) (hf : field ≠ "nextCursor") (p : Schema) (e : α → Json) (x : Page α) :
    page field p (x.enc field e) = true ↔ ∀ a ∈ x.items, p (e a) = true := by
  obtain ⟨l, c⟩ := x
  cases c <;> simp [page, Page.enc, object_obj, must, may, all_map, hf]

theorem promptArgument_enc (a : PromptArg) : promptArgument a.enc = true := by
  obtain ⟨n, d, r, c⟩ := a
  cases d <;> simp [promptArgument, PromptArg.enc, object_obj, must, may]

theorem prompt_enc (x : PromptInfo) : prompt x.enc = true := by
  obtain ⟨n, d, a⟩ := x
  cases d <;> cases a <;>
    simp [prompt, PromptInfo.enc, object_obj, must, may, all_map, promptArgument_enc]

theorem resource_enc (x : ResourceInfo) : resource (x.enc "uri") = true := by
  obtain ⟨u, n, d, m⟩ := x
  cases d <;> cases m <;> simp [resource, ResourceInfo.enc, object_obj, must, may]

theorem template_enc (x : ResourceInfo) : resourceTemplate (x.enc "uriTemplate") = true := by
  obtain ⟨u, n, d, m⟩ := x
  cases d <;> cases m <;> simp [resourceTemplate, ResourceInfo.enc, object_obj, must, may]

theorem promptMessage_enc (m : Message) : promptMessage m.enc = true ↔ RoleOk m.role ∧ ContentOk m.content := by
  rw [← role_enc, ← contentBlock_enc]
  simp [promptMessage, Message.enc, object_obj, must]

theorem resourceContents_enc (c : Content) : resourceContents c.enc = true ↔ ∃ u t y, c = .resource u (some t) y := by
  cases c with
  | resource u t y =>
    cases t <;> cases y <;> simp [resourceContents, either, Content.enc, object_obj, must, may]
  | _ => simp [resourceContents, either, Content.enc, object_obj, must]

/-- **C187** (exact form). A result is one of the schema exactly if: experimental capabilities are objects; every
tool's input schema is an object schema; tool results and prompts hold text and images only; prompts speak as user
or assistant; every resource that is read is given as `Content::Resource` with text. Lists of prompts, resources and
templates and completions always are. Missing from the property: the other values, and every sampling result, which
never has the `role` the schema demands. -/
theorem C187_results_partial (r : Res) : resSchema r r.enc = true ↔ ResOk r := by
  cases r with
  | init r =>
    rw [show ResOk (.init r) = expOk r.capabilities.experimental from rfl, ← serverCapabilities_enc]
    obtain ⟨v, c, i, n⟩ := r
    cases n <;> simp [resSchema, Res.enc, initializeResult, InitResult.enc, object_obj, must, may]
  | tools r => simp only [resSchema, Res.enc, page_enc "tools" (by decide), tool_enc, ResOk]
  | call r => simp [resSchema, Res.enc, callToolResult, CallToolResult.enc, object_obj, must, may, all_map, contentBlock_enc, ResOk]
  | prompts r => simp only [resSchema, Res.enc, page_enc "prompts" (by decide), prompt_enc, ResOk]; simp
  | prompt r =>
    obtain ⟨d, m⟩ := r
    cases d <;>
      simp [resSchema, Res.enc, getPromptResult, GetPromptResult.enc, object_obj, must, may, all_map, promptMessage_enc, ResOk]
  | resources r => simp only [resSchema, Res.enc, page_enc "resources" (by decide), resource_enc, ResOk]; simp
  | templates r => simp only [resSchema, Res.enc, page_enc "resourceTemplates" (by decide), template_enc, ResOk]; simp
  | read r => simp [resSchema, Res.enc, readResourceResult, ReadResult.enc, object_obj, must, all_map, resourceContents_enc, ResOk]
  | complete r =>
    obtain ⟨⟨v, t, m⟩⟩ := r
    cases t <;>
      simp [resSchema, Res.enc, completeResult, CompleteResult.enc, Completion.enc, object_obj, must, may, array_strs, ResOk]
  | sample r => simp [resSchema, Res.enc, createMessageResult, SampleResult.enc, object_obj, must, ResOk]

example : ResOk (.read ⟨[.resource "file:///a" (some "text") none]⟩) ∧ ¬ ResOk (.read ⟨[.text "text"]⟩) := by
  simp [ResOk]

example : ResOk (.tools ⟨[⟨"t", none, .obj [("type", .str "object")]⟩], none⟩) := by
  intro t ht
  simp only [List.mem_singleton] at ht
  subst ht
  exact ⟨_, rfl, rfl, by simp [AMap.get_cons], by simp [AMap.get_cons]⟩

/-! ### C188: the answers of the server -/

open Verif.Server

variable {W : Type}

/-- The schema of the result of each request of a client; `none` for those the schema does not have.
(Specification: no counterpart in the code.) -/
def answerSchema : ClientRequest → Option Schema
  | .init _ => some initializeResult
  | .listTools _ => some (page "tools" tool)
  | .callTool _ => some callToolResult
  | .listPrompts _ => some (page "prompts" prompt)
  | .getPrompt _ => some getPromptResult
  | .listResources _ => some (page "resources" resource)
  | .listTemplates _ => some (page "resourceTemplates" resourceTemplate)
  | .readResource _ => some readResourceResult
  | .complete _ => some completeResult
  | .subscribe _ => some anyObject
  | .unsubscribe _ => some anyObject
  | .setLevel _ => some anyObject
  | .ping => some anyObject
  | .createMessage _ => none
  | .elicitResponse _ => none

/-- The answer as sent is a response with the result of the request, or an error.
(Specification: no counterpart in the code.) -/
def Answers (s : Schema) (r : RpcResponse) : Prop :=
  response s (serializeMessage (.response r)) = true ∨ errorResponse (serializeMessage (.response r)) = true

theorem answers_result (s : Schema) (id : Id) (v : Json) :
    Answers s { jsonrpc := "2.0", id := id, payload := .result v } ↔ s v = true := by
  simp [Answers, serializeMessage, RpcResponse.enc, response, errorResponse, object_obj, must, AMap.get_cons, Payload.entry]

theorem answers_error (s : Schema) (id : Id) (e : RpcError) :
    Answers s { jsonrpc := "2.0", id := id, payload := .error e } := by
  right
  simp [serializeMessage, RpcResponse.enc, errorResponse, object_obj, must, AMap.get_cons, Payload.entry, RpcError.enc]

/-- What a handler must give for its answer to be of the schema. (Specification: no counterpart in the code.) -/
def AnswerOk (srv : Srv W) (st : St W) (id : Id) : ClientRequest → Prop
  | .init _ => expOk srv.capabilities.experimental
  | .listTools _ => srv.tools = []
  | .getPrompt p => ∀ h g w, AMap.get srv.prompts p.name = some h → h p.arguments (extraOf st id) st.world = (.ok g, w) →
      ∀ m ∈ g.messages, RoleOk m.role ∧ ContentOk m.content
  | .readResource p => ∀ h g w, srv.resources = some h → h.2 p.uri (extraOf st id) st.world = (.ok g, w) →
      ∀ c ∈ g.contents, ∃ u t y, c = .resource u (some t) y
  | .complete _ => False
  | _ => True

theorem after_iff {α : Type} (s : Schema) (st : St W) (x : Outcome α × W) (f : α → Json) (id : Id) (resp : RpcResponse)
    (h : createResponse id (afterHandler st x f).1 = some resp) :
    Answers s resp ↔ ∀ a w, x = (.ok a, w) → s (f a) = true := by
  obtain ⟨o, w⟩ := x
  cases o with
  | ok a =>
    simp only [afterHandler, createResponse, Option.some.injEq] at h
    subst h
    simp [answers_result]
  | err e =>
    simp only [afterHandler, createResponse, Option.some.injEq] at h
    subst h
    simp [answers_error]
  | panic => simp [afterHandler, createResponse] at h

/-- **C188** (exact form). The server's answer to a request of the schema is an error or the result the schema has
for it, exactly if: its experimental capabilities are objects, it has no tools (for `tools/list`, as it lists them
with the input schema `{}`), the prompt handler answers with messages of users and assistants with text and images,
the resource handler gives every content as a resource with text. `completion/complete` is never answered as the
schema has it. Everything else always is. Missing from the property: the exceptions. -/
theorem C188_answers_partial (srv : Srv W) (st : St W) (id : Id) (r : ClientRequest) (s : Schema)
    (hs : answerSchema r = some s) (resp : RpcResponse) (h : (handleRequest srv st id (.client r)).1 = some resp) :
    Answers s resp ↔ AnswerOk srv st id r := by
  cases r <;> simp only [answerSchema, Option.some.injEq, reduceCtorEq] at hs <;> subst hs <;>
    simp only [handleRequest, process, AnswerOk] at h ⊢
  case init p =>
    simp only [Option.some.injEq] at h
    subst h
    rw [answers_result]
    exact C187_results_partial (.init { protocolVersion := answeredVersion, capabilities := srv.capabilities, serverInfo := srv.info })
  case listTools p =>
    simp only [createResponse, Option.some.injEq] at h
    subst h
    rw [answers_result, page_enc "tools" (by decide)]
    simp only [tool_enc]
    constructor
    · intro hall
      cases ht : srv.tools with
      | nil => rfl
      | cons e l =>
        obtain ⟨f, hf, hty, _⟩ := hall ⟨e.1, none, emptyObj⟩ (by simp [ht, AMap.keys])
        simp only [emptyObj, Json.obj.injEq] at hf
        subst hf
        simp at hty
    · intro ht
      simp [ht, AMap.keys]
  case callTool p =>
    split at h
    · simp only [createResponse, Option.some.injEq] at h
      subst h
      simp [answers_error]
    · rw [after_iff _ _ _ _ _ _ h]
      simp only [iff_true]
      intro a w _
      exact (C187_results_partial (.call { content := [.text (srv.render a)], isError := false })).mpr (by simp [ResOk, ContentOk])
  case listPrompts p =>
    simp only [createResponse, Option.some.injEq] at h
    subst h
    rw [answers_result, page_enc "prompts" (by decide)]
    simp [prompt_enc]
  case getPrompt p =>
    split at h
    · next hg =>
      simp only [createResponse, Option.some.injEq] at h
      subst h
      simp [answers_error, hg]
    · next hd hg =>
      rw [after_iff _ _ _ _ _ _ h]
      constructor
      · intro hx h' g w he hr
        cases hg.symm.trans he
        exact (C187_results_partial (.prompt g)).mp (hx g w hr)
      · intro hx g w hr
        exact (C187_results_partial (.prompt g)).mpr (hx _ g w hg hr)
  case listResources p =>
    split at h
    · simp only [createResponse, Option.some.injEq] at h
      subst h
      rw [answers_result, page_enc "resources" (by decide)]
      simp
    · rw [after_iff _ _ _ _ _ _ h]
      simp only [iff_true]
      intro a w _
      rw [page_enc "resources" (by decide)]
      simp [resource_enc]
  case readResource p =>
    split at h
    · next hg =>
      simp only [createResponse, Option.some.injEq] at h
      subst h
      simp [answers_error, hg]
    · next hd hg =>
      rw [after_iff _ _ _ _ _ _ h]
      constructor
      · intro hx h' g w he hr
        cases hg.symm.trans he
        exact (C187_results_partial (.read g)).mp (hx g w hr)
      · intro hx g w hr
        exact (C187_results_partial (.read g)).mpr (hx _ g w hg hr)
  case listTemplates p =>
    simp only [createResponse, Option.some.injEq] at h
    subst h
    rw [answers_result, page_enc "resourceTemplates" (by decide)]
    simp
  case complete p =>
    simp only [createResponse, Option.some.injEq] at h
    subst h
    rw [answers_result]
    simp [emptyObj, completeResult, object_obj, must]
  all_goals
    simp only [createResponse, Option.some.injEq] at h
    subst h
    rw [answers_result]
    simp [emptyObj]

/-- A server with one tool, one prompt of a user and one resource, for the examples.
(Specification: no counterpart in the code.) -/
def sampleServer : Srv Nat :=
  { info := ⟨"s", "1"⟩, capabilities := {}, tools := [("t", fun a _ w => (.ok a, w))],
    prompts := [("p", fun _ _ w => (.ok ⟨none, [⟨.user, .text "hi"⟩]⟩, w))],
    resources := some (fun _ _ w => (.ok ⟨[], none⟩, w), fun u _ w => (.ok ⟨[.resource u (some "text") none]⟩, w)),
    sampling := none, render := fun _ => "x" }

example : AnswerOk sampleServer (St.init 0) (.str "1") (.getPrompt ⟨"p", []⟩) := by
  intro h g w hg hr m hm
  simp only [sampleServer, AMap.get_cons, if_true, Option.some.injEq] at hg
  subst hg
  simp only [Prod.mk.injEq, Outcome.ok.injEq] at hr
  obtain ⟨rfl, _⟩ := hr
  simp only [List.mem_singleton] at hm
  subst hm
  exact ⟨.inl rfl, by simp [ContentOk]⟩

example : AnswerOk sampleServer (St.init 0) (.str "1") (.readResource ⟨"u"⟩) := by
  intro h g w hg hr c hc
  simp only [sampleServer, Option.some.injEq] at hg
  subst hg
  simp only [Prod.mk.injEq, Outcome.ok.injEq] at hr
  obtain ⟨rfl, _⟩ := hr
  simp only [List.mem_singleton] at hc
  exact ⟨_, _, _, hc⟩

example : ∃ resp, (handleRequest sampleServer (St.init 0) (.str "1") (.client (.listTools {}))).1 = some resp ∧
    sampleServer.tools ≠ [] := ⟨_, rfl, by simp [sampleServer]⟩

/-- **C188** fails for every server with a tool: its list of tools is not of the schema, as the input schema of
each tool is `{}`. -/
theorem C188_tools (srv : Srv W) (st : St W) (id : Id) (p : ListParams) (hne : srv.tools ≠ []) (resp : RpcResponse)
    (h : (handleRequest srv st id (.client (.listTools p))).1 = some resp) : ¬ Answers (page "tools" tool) resp := by
  rw [C188_answers_partial srv st id (.listTools p) _ rfl resp h]
  exact hne

/-- **C188** fails for every completion request: it is answered `{}`. -/
theorem C188_complete (srv : Srv W) (st : St W) (id : Id) (p : Complete) (resp : RpcResponse)
    (h : (handleRequest srv st id (.client (.complete p))).1 = some resp) : ¬ Answers completeResult resp := by
  rw [C188_answers_partial srv st id (.complete p) _ rfl resp h]
  exact fun hf => hf

example (srv : Srv Nat) (p : Complete) (r : RpcResponse)
    (h : (handleRequest srv (St.init 0) (.str "1") (.client (.complete p))).1 = some r) : ¬ Answers completeResult r :=
  C188_complete srv (St.init 0) (.str "1") p r h

/-- A server with one tool. -/
example (render : Json → String) (h : Json → Extra → Nat → Outcome Json × Nat) :
    ¬ Answers (page "tools" tool) ((handleRequest (build ⟨"s", "1"⟩ render [.tool "t" h]) (St.init 0) (.str "1")
      (.client (.listTools { cursor := none }))).1.get rfl) :=
  C188_tools (build ⟨"s", "1"⟩ render [.tool "t" h]) (St.init 0) (.str "1") { cursor := none }
    (by simp [build, AMap.insert, buildStep]) _ rfl

end Verif.Conform
