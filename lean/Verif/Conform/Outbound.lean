import Verif.Conform.Schema
import Verif.Wire.Messages

/-
What the crate sends, against the published schema: requests and notifications (C183-C185).

`serializeMessage` models `StdioTransport::serialize_message` (/repo/src/shared/stdio.rs L115-139), used by the stdio,
WebSocket and HTTP transports; `TMsg.enc` is the form the streamable HTTP transport sends.
-/

namespace Verif.Conform

open Verif Verif.Wire

/-! ### Members of encoded objects -/

theorem all_map {α : Type} (p : Schema) (e : α → Json) (l : List α) : array p (encList e l) = l.all (fun a => p (e a)) := by
  simp [array, encList, List.all_map, Function.comp_def]

theorem record_map {α : Type} (p : Schema) (e : α → Json) (m : List (String × α)) :
    record p (encMap e m) = m.all (fun a => p (e a.2)) := by
  simp [record, encMap, List.all_map, Function.comp_def]

theorem object_obj (l : List (List (String × Json) → Bool)) (f : List (String × Json)) :
    object l (.obj f) = l.all (fun m => m f) := rfl

@[simp] theorem str_str (s : String) : str (.str s) = true := rfl
@[simp] theorem bool_bool (b : Bool) : bool (.bool b) = true := rfl
@[simp] theorem integer_enc {lo hi : Int} (n : IntIn lo hi) : integer (encInt n) = true := rfl
@[simp] theorem requestId_enc (i : Id) : requestId i.enc = true := by cases i <;> rfl
@[simp] theorem anyObject_obj (f : List (String × Json)) : anyObject (.obj f) = true := rfl
@[simp] theorem oneOf_str (l : List String) (s : String) : oneOf l (.str s) = l.contains s := rfl
@[simp] theorem unknown_eq (j : Json) : unknown j = true := rfl
@[simp] theorem encMap_obj {α : Type} (e : α → Json) (m : List (String × α)) : anyObject (encMap e m) = true := rfl
theorem array_strs (l : List String) : array str (encList .str l) = true := by simp [all_map]
theorem record_strs (m : List (String × String)) : record str (encMap .str m) = true := by simp [record_map]

theorem optionAll_true {α : Type} (x : Option α) : x.all (fun _ => true) = true := by cases x <;> rfl

/-- All values of the experimental capabilities are objects. (Specification: no counterpart in the code.) -/
def expOk (x : Option (List (String × Json))) : Prop := ∀ m, x = some m → ∀ e ∈ m, anyObject e.2 = true

theorem may_exp (x : Option (List (String × Json))) :
    ((x.map (encMap id)).all (record anyObject)) = true ↔ expOk x := by
  cases x with
  | none => simp [expOk]
  | some m => simp [expOk, record_map]

theorem clientCapabilities_enc (x : ClientCaps) : clientCapabilities x.enc = true ↔ expOk x.experimental := by
  rw [← may_exp]
  obtain ⟨a, b, c, d, e, r, g⟩ := x
  cases e <;> cases r <;>
    simp [clientCapabilities, ClientCaps.enc, object, may, RootsCap.enc, NamesCap.enc]

theorem serverCapabilities_enc (x : ServerCaps) : serverCapabilities x.enc = true ↔ expOk x.experimental := by
  rw [← may_exp]
  have h1 (c : ListCap) : object [may "listChanged" bool] c.enc = true := by
    obtain ⟨o⟩ := c; cases o <;> simp [object_obj, may, ListCap.enc]
  have h2 (c : ResourceCap) : object [may "subscribe" bool, may "listChanged" bool] c.enc = true := by
    obtain ⟨o, o'⟩ := c; cases o <;> cases o' <;> simp [object, may, ResourceCap.enc]
  obtain ⟨a, b, c, d, e, r, g⟩ := x
  cases a <;> cases b <;> cases c <;> cases d <;> cases e <;>
    simp [serverCapabilities, ServerCaps.enc, object_obj, may, NamesCap.enc, encUnitStruct, h1, h2]

@[simp] theorem implementation_enc (x : Impl) : implementation x.enc = true := by
  simp [implementation, Impl.enc, object, must, may]

@[simp] theorem level_enc (l : LoggingLevel) : loggingLevel l.enc = true := by cases l <;> decide

@[simp] theorem reference_enc (r : CompletionRef) : reference r.enc = true := by
  cases r <;> simp [reference, either, CompletionRef.enc, object, must]

/-! ### C183: requests of a client -/

/-- The requests of `ClientRequest` that the schema has as requests of a client, with parameters it allows.
(Specification: no counterpart in the code.) -/
def ClientOk : ClientRequest → Prop
  | .init p => expOk p.capabilities.experimental
  | .callTool p => ∃ f, p.arguments = .obj f
  | .createMessage _ => False
  | .elicitResponse _ => False
  | _ => True

theorem anyObject_iff (j : Json) : anyObject j = true ↔ ∃ f, j = .obj f := by cases j <;> simp [anyObject]

theorem request_enc (t : List (String × Params)) (id : Id) (m : String) (p : Option Json) :
    request t (RpcRequest.enc ⟨"2.0", id, m, p⟩) = (AMap.get t m).any (fun c => c.check
      (ob [("jsonrpc", some (.str "2.0")), ("id", some id.enc), ("method", some (.str m)), ("params", p)])) := by
  simp [request, object, RpcRequest.enc, must, called]

/-- **C183** (exact form). A request a client sends is one of the schema exactly if its experimental capabilities
are objects, the arguments of a tool call are an object, and it is neither a sampling request nor an answer to an
elicitation. Missing from the property: the four exceptions; `null` arguments are sent as `"arguments": null`. -/
theorem C183_client_requests_partial (id : Id) (r : ClientRequest) :
    request clientRequests (serializeMessage (.request id (.client r))) = true ↔ ClientOk r := by
  cases r <;> simp only [serializeMessage, createRequest, clientToRpc, request_enc, ClientOk]
  case init p =>
    rw [← clientCapabilities_enc]
    simp [clientRequests, AMap.get_cons, Params.check, must, may, object, InitParams.enc]
  case callTool p =>
    rw [← anyObject_iff]
    simp [clientRequests, AMap.get_cons, Params.check, must, may, object, CallTool.enc]
  case getPrompt p =>
    simp [clientRequests, AMap.get_cons, Params.check, must, may, object, GetPrompt.enc, record_strs]
  case complete p =>
    simp [clientRequests, AMap.get_cons, Params.check, must, may, object, Complete.enc, CompletionArg.enc]
  case setLevel l =>
    simp [clientRequests, AMap.get_cons, Params.check, must, may, object]
  case ping => simp [clientRequests, AMap.get_cons, Params.check, may]
  case createMessage p => simp [clientRequests, AMap.get_cons]
  case elicitResponse p => simp [clientRequests, AMap.get_cons]
  case readResource p => simp [clientRequests, AMap.get_cons, Params.check, must, may, object, UriParams.enc]
  case subscribe p => simp [clientRequests, AMap.get_cons, Params.check, must, may, object, UriParams.enc]
  case unsubscribe p => simp [clientRequests, AMap.get_cons, Params.check, must, may, object, UriParams.enc]
  all_goals
    rename_i p
    obtain ⟨c⟩ := p
    cases c <;> simp [clientRequests, AMap.get_cons, Params.check, may, object, ListParams.enc]

example : ClientOk (.callTool ⟨"t", .obj [("x", .null)]⟩) ∧ ¬ ClientOk (.callTool ⟨"t", .null⟩) := by
  simp [ClientOk]

/-! ### C184: requests of a server -/

/-- What the schema has as a prompt or sampling message's role. (Specification: no counterpart in the code.) -/
def RoleOk (r : Role) : Prop := r = .user ∨ r = .assistant

/-- The model preferences the schema allows: priorities in `[0, 1]`. (Specification: no counterpart in the code.) -/
def PriorityOk (x : Option F64) : Prop := ∀ f, x = some f → ∃ q, f = .fin q ∧ 0 ≤ q ∧ q ≤ 1

/-- The sampling requests the schema allows. (Specification: no counterpart in the code.) -/
def SamplingOk (p : CreateMessage) : Prop :=
  p.maxTokens ≠ none ∧ p.includeContext = .none ∧
  (∀ m ∈ p.messages, RoleOk m.role ∧ ∀ u t y, m.content ≠ .resource u t y) ∧
  (∀ q, p.prefs = some q → PriorityOk q.cost ∧ PriorityOk q.speed ∧ PriorityOk q.intelligence) ∧
  (∀ f, p.temperature = some f → ∃ q, f = .fin q) ∧ (∀ j, p.metadata = some j → ∃ f, j = .obj f)

theorem role_enc (r : Role) : role r.enc = true ↔ RoleOk r := by
  cases r <;> simp [role, Role.enc, Role.name, RoleOk]

theorem plain_enc (c : Content) : either textContent mediaContent c.enc = true ↔ ∀ u t y, c ≠ .resource u t y := by
  cases c <;> simp [either, textContent, mediaContent, Content.enc, object, must]

theorem samplingMessage_enc (m : Message) :
    samplingMessage m.enc = true ↔ RoleOk m.role ∧ ∀ u t y, m.content ≠ .resource u t y := by
  rw [← role_enc, ← plain_enc]
  simp [samplingMessage, Message.enc, object, must]

theorem priority_enc (x : Option F64) :
    ((x.map encF64).all (priority)) = true ↔ PriorityOk x := by
  cases x with
  | none => simp [PriorityOk]
  | some f => cases f <;> simp [PriorityOk, encF64, priority]

theorem hints_enc (x : Option (List ModelHint)) :
    ((x.map (encList ModelHint.enc)).all (array (object [may "name" str]))) = true := by
  cases x with
  | none => rfl
  | some l =>
    simp only [Option.map_some, Option.all_some, all_map, List.all_eq_true]
    rintro ⟨n⟩ _
    cases n <;> simp [object, may, ModelHint.enc]

theorem modelPreferences_enc (x : ModelPrefs) :
    modelPreferences x.enc = true ↔ PriorityOk x.cost ∧ PriorityOk x.speed ∧ PriorityOk x.intelligence := by
  rw [← priority_enc, ← priority_enc, ← priority_enc]
  have := hints_enc x.hints
  simp only [modelPreferences, ModelPrefs.enc, object, List.all_cons, List.all_nil, Bool.and_true, Bool.and_eq_true, may]
  simp only [get_ob_cons, ob_nil, AMap.get_nil, Option.or_none, if_true, String.reduceEq, if_false]
  simp [this]

theorem may_json (p : Schema) (x : Option Json) :
    (x.all (p)) = true ↔ ∀ j, x = some j → p j = true := by
  cases x <;> simp

/-- The requests of `ServerRequest` that the schema has as requests of a server.
(Specification: no counterpart in the code.) -/
def ServerOk : ServerRequest → Prop
  | .createMessage p => SamplingOk p
  | .listRoots => True
  | .elicit _ => False

theorem number_enc (x : Option F64) :
    ((x.map encF64).all (number)) = true ↔ ∀ f, x = some f → ∃ q, f = .fin q := by
  cases x with
  | none => simp
  | some f => cases f <;> simp [encF64, number]

theorem sampling_params (p : CreateMessage) :
    object [may "_meta" anyObject, must "messages" (array samplingMessage), must "maxTokens" integer,
      may "modelPreferences" modelPreferences, may "systemPrompt" str,
      may "includeContext" (oneOf ["none", "thisServer", "allServers"]), may "temperature" number,
      may "stopSequences" (array str), may "metadata" anyObject] p.enc = true ↔ SamplingOk p := by
  have h1 : ((p.prefs.map ModelPrefs.enc).all (modelPreferences)) = true ↔ ∀ q, p.prefs = some q → PriorityOk q.cost ∧ PriorityOk q.speed ∧ PriorityOk q.intelligence := by
    cases p.prefs with
    | none => simp
    | some q => simp [modelPreferences_enc]
  have h2 : ((p.systemPrompt.map Json.str).all (str)) = true := by cases p.systemPrompt <;> rfl
  have h3 : ((p.stopSequences.map (encList Json.str)).all (array str)) = true := by
    cases p.stopSequences with
    | none => rfl
    | some l => simp [array_strs]
  have h4 : (p.metadata.all (anyObject)) = true ↔ ∀ j, p.metadata = some j → ∃ f, j = .obj f := by
    rw [may_json]; simp [anyObject_iff]
  have h5 : ((p.maxTokens.map encInt).any (integer)) = true ↔ p.maxTokens ≠ none := by cases p.maxTokens <;> simp
  have h6 : (["none", "thisServer", "allServers"].contains p.includeContext.name) = true ↔ p.includeContext = .none := by
    cases p.includeContext <;> simp [IncludeContext.name]
  have h7 : array samplingMessage (encList Message.enc p.messages) = true ↔
      ∀ m ∈ p.messages, RoleOk m.role ∧ ∀ u t y, m.content ≠ .resource u t y := by
    simp only [all_map, List.all_eq_true, samplingMessage_enc]
  unfold SamplingOk
  rw [← h1, ← h4, ← h5, ← h6, ← h7, ← number_enc]
  simp only [CreateMessage.enc, object, List.all_cons, List.all_nil, Bool.and_true, Bool.and_eq_true, may, must]
  simp only [get_ob_cons, ob_nil, AMap.get_nil, Option.or_none, if_true, String.reduceEq, if_false, Option.some_or,
    IncludeContext.enc, oneOf_str, h2, h3]
  constructor
  · rintro ⟨-, a, b, c, -, d, e, -, f⟩; exact ⟨b, d, a, c, e, f⟩
  · rintro ⟨b, d, a, c, e, f⟩; exact ⟨rfl, a, b, c, trivial, d, e, trivial, f⟩

/-- **C184** (exact form). A request a server sends is one of the schema exactly if it is `roots/list`, or a
sampling request with a token limit, no context asked for, messages of users and assistants with text or images,
priorities in `[0, 1]`, a finite temperature and an object as metadata. Missing from the property: everything else,
in particular every elicitation and every request for context. -/
theorem C184_server_requests_partial (id : Id) (r : ServerRequest) :
    request serverRequests (serializeMessage (.request id (.server r))) = true ↔ ServerOk r := by
  cases r <;> simp only [serializeMessage, createRequest, serverToRpc, request_enc, ServerOk]
  case createMessage p =>
    rw [← sampling_params]
    simp [serverRequests, AMap.get_cons, Params.check, must]
  case listRoots => simp [serverRequests, AMap.get_cons, Params.check, may]
  case elicit p => simp [serverRequests, AMap.get_cons]

example : SamplingOk { messages := [⟨.user, .text "hi"⟩], maxTokens := some ⟨100, by decide⟩, temperature := some (.fin 1) } := by
  refine ⟨by simp, rfl, ?_, by simp, ?_, by simp⟩
  · intro m hm
    simp only [List.mem_singleton] at hm
    subst hm
    exact ⟨.inl rfl, by simp⟩
  · intro f hf
    exact ⟨1, by simpa using hf.symm⟩

/-- **C184** fails for the default sampling request: without a token limit it is not of the schema. -/
theorem C184_no_limit (id : Id) (p : CreateMessage) (h : p.maxTokens = none) :
    request serverRequests (serializeMessage (.request id (.server (.createMessage p)))) = false := by
  rw [Bool.eq_false_iff, Ne, C184_server_requests_partial]
  exact fun hs => hs.1 h

/-- **C184** fails for every request for context: the names sent, `all` and `thisServerOnly`, are not those of the
schema, `allServers` and `thisServer`. -/
theorem C184_context (id : Id) (p : CreateMessage) (h : p.includeContext ≠ .none) :
    request serverRequests (serializeMessage (.request id (.server (.createMessage p)))) = false := by
  rw [Bool.eq_false_iff, Ne, C184_server_requests_partial]
  exact fun hs => h hs.2.1

example : ∃ p : CreateMessage, p.maxTokens = none ∧ p.includeContext ≠ .none := ⟨{ messages := [], includeContext := .all }, rfl, by decide⟩

/-! ### C185: notifications -/

/-- The notifications of a client as the schema has them: progress is a number.
(Specification: no counterpart in the code.) -/
def ClientNotifOk : ClientNotification → Prop
  | .progress p => ∃ q, p.progress = .fin q
  | _ => True

/-- The notifications of a server as the schema has them: progress is a number, log messages have data, and
there is no notification that roots changed. (Specification: no counterpart in the code.) -/
def ServerNotifOk : ServerNotification → Prop
  | .progress p => ∃ q, p.progress = .fin q
  | .log p => p.data ≠ none
  | .rootsListChanged => False
  | _ => True

theorem notification_enc (t : List (String × Params)) (m : String) (p : Option Json) :
    notification t (RpcNotification.enc ⟨"2.0", m, p⟩) = (AMap.get t m).any (fun c => c.check
      (ob [("jsonrpc", some (.str "2.0")), ("method", some (.str m)), ("params", p)])) := by
  simp [notification, object, RpcNotification.enc, must, called]

theorem progress_check (p : Progress) (f : List (String × Json)) (h : AMap.get f "params" = some p.enc) :
    progressParams.check f = true ↔ ∃ q, p.progress = .fin q := by
  obtain ⟨t, g, m⟩ := p
  cases m <;> cases g <;>
    simp [progressParams, Params.check, must, h, object, may, Progress.enc, encF64, number]

theorem cancelled_check (p : Cancelled) (f : List (String × Json)) (h : AMap.get f "params" = some p.enc) :
    cancelledParams.check f = true := by
  obtain ⟨t, m⟩ := p
  cases m <;> simp [cancelledParams, Params.check, must, h, object, may, Cancelled.enc]

/-- **C185** (exact form), client. -/
theorem C185_client_notifications_partial (n : ClientNotification) :
    notification clientNotifications (serializeMessage (.notification (.client n))) = true ↔ ClientNotifOk n := by
  cases n <;> simp only [serializeMessage, createNotification, clientNotifToRpc, notification_enc, ClientNotifOk]
  case progress p =>
    rw [show AMap.get clientNotifications "notifications/progress" = some progressParams from rfl]
    exact progress_check p _ (by simp)
  case cancelled p =>
    rw [show AMap.get clientNotifications "notifications/cancelled" = some cancelledParams from rfl]
    simp only [iff_true]
    exact cancelled_check p _ (by simp)
  all_goals simp [clientNotifications, AMap.get_cons, Params.check, may]

@[simp] theorem logLevel_enc (l : LogLevel) : loggingLevel l.enc = true := by cases l <;> decide

/-- **C185** (exact form), server. Missing from the property: log messages without data (the text is sent as
`message`, which the schema does not have), and the notification that roots changed, which is a client's. -/
theorem C185_server_notifications_partial (n : ServerNotification) :
    notification serverNotifications (serializeMessage (.notification (.server n))) = true ↔ ServerNotifOk n := by
  cases n <;> simp only [serializeMessage, createNotification, serverNotifToRpc, notification_enc, ServerNotifOk]
  case progress p =>
    rw [show AMap.get serverNotifications "notifications/progress" = some progressParams from rfl]
    exact progress_check p _ (by simp)
  case log p =>
    obtain ⟨l, o, m, d⟩ := p
    cases o <;> cases d <;>
      simp [serverNotifications, AMap.get_cons, Params.check, must, may, object, LogMessage.enc]
  case resourceUpdated p =>
    simp [serverNotifications, AMap.get_cons, Params.check, must, may, object, UriParams.enc]
  all_goals simp [serverNotifications, AMap.get_cons, Params.check, may]

/-- **C185**, the variants of `Notification` itself: progress exactly if it is a number, cancellation always, for
both sides. -/
theorem C185_shared_notifications_partial (t : List (String × Params)) (ht : t = clientNotifications ∨ t = serverNotifications) :
    (∀ p : Progress, notification t (serializeMessage (.notification (.progress p))) = true ↔ ∃ q, p.progress = .fin q) ∧
    ∀ p : Cancelled, notification t (serializeMessage (.notification (.cancelled p))) = true := by
  have h1 : AMap.get t "notifications/progress" = some progressParams := by rcases ht with rfl | rfl <;> rfl
  have h2 : AMap.get t "notifications/cancelled" = some cancelledParams := by rcases ht with rfl | rfl <;> rfl
  refine ⟨fun p => ?_, fun p => ?_⟩
  · simp only [serializeMessage, createNotification, notification_enc, h1]
    exact progress_check p _ (by simp)
  · simp only [serializeMessage, createNotification, notification_enc, h2]
    exact cancelled_check p _ (by simp)

example : ServerNotifOk (.log ⟨.info, none, "x", some (.str "x")⟩) ∧ ¬ ServerNotifOk (.log ⟨.info, none, "x", none⟩) := by
  simp [ServerNotifOk]

/-! ### C186: streamable HTTP -/

/-- **C186** fails: a request sent through the streamable HTTP transport is never a message of the schema, as it
has no `jsonrpc` member. -/
theorem C186_http_requests (t : List (String × Params)) (id : Id) (r : Request) :
    request t (TMsg.enc (.request id r)) = false := by
  simp [request, object, TMsg.enc, must]

/-- **C186** fails for notifications, too. -/
theorem C186_http_notifications (t : List (String × Params)) (n : Notification) :
    notification t (TMsg.enc (.notification n)) = false := by
  have h : ∀ m c, notification t (encAdj m c) = false := by
    intro m c
    simp [notification, object, encAdj, must]
  cases n with
  | client n => cases n <;> exact h _ _
  | server n => cases n <;> exact h _ _
  | progress p => simp [notification, object, TMsg.enc, Notification.enc, Progress.enc, must]
  | cancelled p => simp [notification, object, TMsg.enc, Notification.enc, Cancelled.enc, must]

/-- **C186**, what holds: responses have the same form on both transports. -/
theorem C186_http_responses_partial (r : RpcResponse) : TMsg.enc (.response r) = serializeMessage (.response r) := rfl

end Verif.Conform
