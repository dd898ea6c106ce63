import Verif.Wire.Lemmas

/-
Properties of the wire format (C48, C49, C50, C96, C97, C98, C99, C101).
-/

namespace Verif.Wire

/-! ### Specification: which messages can come back

`Value` fields that are `Some(Value::Null)` and floats that are not finite have no JSON form of their own; metadata
named like a field overwrites the field. -/

/-- Parameters of client requests that have a JSON form of their own.
(Specification: no counterpart in the code.) -/
def ClientRequest.Representable : ClientRequest → Prop
  | .createMessage p => p.Ok
  | .elicitResponse p => p.Ok
  | _ => True

/-- (Specification: no counterpart in the code.) -/
def ServerRequest.Representable : ServerRequest → Prop
  | .createMessage p => p.Ok
  | .elicit p => p.Ok
  | .listRoots => True

/-- The metadata of an elicitation request is a map. (Specification: no counterpart in the code.) -/
def ServerRequest.WF : ServerRequest → Prop
  | .elicit p => (p.metadata.map (·.1)).Nodup
  | _ => True

/-- (Specification: no counterpart in the code.) -/
def Request.WF : Request → Prop
  | .server r => r.WF
  | .client _ => True

/-- The requests that survive `create_request` and `parse_request`: the client's, if representable, and the roots
request of the server. (Specification: no counterpart in the code.) -/
def Request.Survives : Request → Prop
  | .client r => r.Representable
  | .server .listRoots => True
  | .server _ => False

/-- The notifications that survive `create_notification` and `parse_notification`.
(Specification: no counterpart in the code.) -/
def Notification.Survives : Notification → Prop
  | .client .initialized => True
  | .client .rootsListChanged => True
  | .client _ => False
  | .server (.progress _) => False
  | .server .rootsListChanged => False
  | .server (.log p) => p.Ok
  | .server _ => True
  | .progress p => p.Ok
  | .cancelled _ => True

/-! ### C48 -/

theorem decClient_tag (m : String) (c : Json) : ClientRequest.dec (tagJson m c) =
    (AMap.get ClientRequest.table m).bind (fun v => v.read (some c)) := decAdj_tag _ m c
theorem decServer_tag (m : String) (c : Json) : ServerRequest.dec (tagJson m c) =
    (AMap.get ServerRequest.table m).bind (fun v => v.read (some c)) := decAdj_tag _ m c

theorem decClient_sampling (c : Json) : ClientRequest.dec (tagJson "sampling/createMessage" c) =
    (CreateMessage.dec c).map .createMessage := by
  rw [decClient_tag]
  simp [ClientRequest.table, AMap.get_cons, Variant.read]
theorem decServer_sampling (c : Json) : ServerRequest.dec (tagJson "sampling/createMessage" c) =
    (CreateMessage.dec c).map .createMessage := by
  rw [decServer_tag]
  simp [ServerRequest.table, AMap.get_cons, Variant.read]

/-- A client request is read back as a client request exactly if it is representable. -/
theorem parse_client (r : ClientRequest) :
    ClientRequest.dec (tagJson (clientToRpc r).1 ((clientToRpc r).2.getD .null)) = some r ↔ r.Representable := by
  rw [decClient_tag]
  cases r <;>
    simp [clientToRpc, ClientRequest.table, AMap.get_cons, Variant.read, ClientRequest.Representable,
      CreateMessage.rt_iff, ElicitResponse.rt_iff]
  exact (decLevel_enc _)

/-- **C48** (exact form). `parse_request (create_request id r)` gives back `id` and `r` exactly if `r` is a
representable client request or the server's request for the roots. Missing from the property: the server's
`CreateMessage` and `ElicitInput` never come back, and `Some(null)` values and non-finite floats do not. -/
theorem C48_request_round_trip_partial (id : Id) (r : Request) :
    parseRequest (createRequest id r) = some (id, r) ↔ r.Survives := by
  cases r with
  | client r =>
    rw [show Request.Survives (.client r) = r.Representable from rfl, ← parse_client r]
    simp only [parseRequest, createRequest]
    cases h : ClientRequest.dec (tagJson (clientToRpc r).1 ((clientToRpc r).2.getD .null)) with
    | some c => simp
    | none =>
      cases hs : ServerRequest.dec (tagJson (clientToRpc r).1 ((clientToRpc r).2.getD .null)) <;> simp
  | server r =>
    cases r with
    | listRoots =>
      simp [parseRequest, createRequest, serverToRpc, decClient_tag, decServer_tag, ClientRequest.table,
        ServerRequest.table, AMap.get_cons, Variant.read, Request.Survives]
    | createMessage p =>
      simp only [Request.Survives, iff_false, parseRequest, createRequest, serverToRpc, Option.getD_some,
        decClient_sampling, decServer_sampling]
      cases CreateMessage.dec p.enc <;> simp
    | elicit p =>
      simp [parseRequest, createRequest, serverToRpc, decClient_tag, decServer_tag, ClientRequest.table,
        ServerRequest.table, AMap.get_cons, Request.Survives]

example : Request.Survives (.client (.callTool ⟨"add", .obj [("a", .num (.int 1))]⟩)) := trivial
example : ¬ Request.Survives (.client (.createMessage { messages := [], temperature := some .nan })) := by
  simp [Request.Survives, ClientRequest.Representable, CreateMessage.Ok, okF, F64.finite]

/-- **C48**, all client requests but the two with free-form values. -/
theorem C48_client_request_round_trip (id : Id) (r : ClientRequest) (h : r.Representable) :
    parseRequest (createRequest id (.client r)) = some (id, .client r) :=
  (C48_request_round_trip_partial id (.client r)).mpr h

example : parseRequest (createRequest (.str "7") (.client (.listTools ⟨some "page2"⟩))) =
    some (.str "7", .client (.listTools ⟨some "page2"⟩)) := C48_client_request_round_trip _ _ trivial

/-- **C48** fails for the server's sampling request: it comes back as the client's. -/
theorem C48_server_create_message_becomes_client (id : Id) (p : CreateMessage) (h : p.Ok) :
    parseRequest (createRequest id (.server (.createMessage p))) = some (id, .client (.createMessage p)) := by
  simp [parseRequest, createRequest, serverToRpc, decClient_tag, ClientRequest.table, AMap.get_cons, Variant.read,
    CreateMessage.rt p h]

/-- **C48** fails for every elicitation request: it is written under a method name that no table contains. -/
theorem C48_elicit_never_parses (id : Id) (p : ElicitRequest) :
    parseRequest (createRequest id (.server (.elicit p))) = none := by
  simp [parseRequest, createRequest, serverToRpc, decClient_tag, decServer_tag, ClientRequest.table,
    ServerRequest.table, AMap.get_cons]

example : ∃ p : CreateMessage, p.Ok := ⟨{ messages := [⟨.user, .text "hi"⟩] }, by simp [CreateMessage.Ok, okF]⟩

/-- **C48**, the id alone: whatever a request is read back as, it has the same id. -/
theorem C48_id_kept (id : Id) (r : Request) (id' : Id) (r' : Request)
    (h : parseRequest (createRequest id r) = some (id', r')) : id' = id := by
  have hid : (createRequest id r).id = id := by cases r <;> rfl
  simp only [parseRequest, hid] at h
  split at h
  · simp_all
  · split at h <;> simp_all

/-! ### C49 -/

theorem parseNotification_create (n : Notification) :
    parseNotification (createNotification n).enc =
      (if (createNotification n).method = "notifications/progress" then
        (Progress.dec ((createNotification n).params.getD .null)).map Notification.progress
      else if (createNotification n).method = "notifications/cancelled" then
        (Cancelled.dec ((createNotification n).params.getD .null)).map Notification.cancelled
      else match ClientNotification.dec
          (tagJson (createNotification n).method ((createNotification n).params.getD .null)) with
        | some c => some (Notification.client c)
        | none => (ServerNotification.dec
            (tagJson (createNotification n).method ((createNotification n).params.getD .null))).map .server) := by
  simp only [parseNotification, RpcNotification.dec_enc _ (createNotification_params n), Option.bind_eq_bind,
    Option.bind_some]
  rfl

theorem decClientN_tag (m : String) (c : Json) : ClientNotification.dec (tagJson m c) =
    (AMap.get ClientNotification.table m).bind (fun v => v.read (some c)) := decAdj_tag _ m c
theorem decServerN_tag (m : String) (c : Json) : ServerNotification.dec (tagJson m c) =
    (AMap.get ServerNotification.table m).bind (fun v => v.read (some c)) := decAdj_tag _ m c

/-- **C49** (exact form). A notification comes back exactly if it survives per the table above. Missing from the
property: progress and cancellation wrapped as client or server notifications come back as their own kinds, the
server's roots notification as the client's; log data `Some(null)` and non-finite progress do not come back. -/
theorem C49_notification_round_trip_partial (n : Notification) :
    parseNotification (createNotification n).enc = some n ↔ n.Survives := by
  rw [parseNotification_create]
  cases n with
  | client n => cases n <;>
      simp [createNotification, clientNotifToRpc, Notification.Survives, decClientN_tag, ClientNotification.table,
        AMap.get_cons, Variant.read]
  | server n =>
    cases n <;>
      simp [createNotification, serverNotifToRpc, Notification.Survives, decClientN_tag, ClientNotification.table,
        decServerN_tag, ServerNotification.table, AMap.get_cons, Variant.read, LogMessage.rt_iff]
  | progress p => simp [createNotification, Notification.Survives, Progress.rt_iff]
  | cancelled p => simp [createNotification, Notification.Survives]

example : Notification.Survives (.server (.resourceUpdated ⟨"file:///a"⟩)) := trivial
example : Notification.Survives (.progress ⟨.num ⟨3, by decide⟩, .fin (1 / 2), none⟩) := by
  simp [Notification.Survives, Progress.Ok, F64.finite]

/-- **C49** fails for wrapped progress notifications: they come back as plain progress. -/
theorem C49_wrapped_progress (p : Progress) (h : p.Ok) :
    parseNotification (createNotification (.client (.progress p))).enc = some (.progress p) ∧
    parseNotification (createNotification (.server (.progress p))).enc = some (.progress p) := by
  rw [parseNotification_create, parseNotification_create]
  simp [createNotification, clientNotifToRpc, serverNotifToRpc, Progress.rt p h]

/-- **C49** fails for wrapped cancellations and for the server's roots notification. -/
theorem C49_wrapped_cancelled (p : Cancelled) :
    parseNotification (createNotification (.client (.cancelled p))).enc = some (.cancelled p) ∧
    parseNotification (createNotification (.server .rootsListChanged)).enc = some (.client .rootsListChanged) := by
  rw [parseNotification_create, parseNotification_create]
  simp [createNotification, clientNotifToRpc, serverNotifToRpc, decClientN_tag, ClientNotification.table, AMap.get_cons, Variant.read]

/-- **C49** fails for progress that is not finite: what is sent is refused by the receiver. -/
theorem C49_not_finite_refused (p : Progress) (h : p.progress.finite = false) :
    parseNotification (createNotification (.progress p)).enc = none := by
  rw [parseNotification_create]
  obtain ⟨t, f, m⟩ := p
  have : decF64 (encF64 f) = none := by cases f <;> simp_all [F64.finite, encF64, decF64]
  simp [createNotification, Progress.dec, Progress.enc, this]

example : (Progress.mk (.str "t") .nan none).progress.finite = false := rfl

/-! ### C50 -/

/-- The three kinds of message. (Specification: no counterpart in the code.) -/
inductive Kind where
  | request | notification | response
  deriving DecidableEq

/-- (Specification: no counterpart in the code.) -/
def TMsg.kind : TMsg → Kind
  | .request _ _ => .request
  | .response _ => .response
  | .notification _ => .notification

/-- Specification: the kind of a JSON value by its keys. (Specification: no counterpart in the code.) -/
def KindOf (j : Json) : Option Kind :=
  match j with
  | .obj f =>
    let has (k : String) : Bool := (f.map (·.1)).contains k
    if has "method" then (if has "id" then some .request else some .notification)
    else if has "result" || has "error" then some .response
    else none
  | _ => none

theorem get_isSome (f : List (String × Json)) (k : String) : (AMap.get f k).isSome = (f.map (·.1)).contains k := by
  induction f with
  | nil => rfl
  | cons p f ih =>
    obtain ⟨a, v⟩ := p
    rw [AMap.get_cons]
    by_cases h : a = k
    · simp [h]
    · rw [if_neg h, ih]
      have : (k == a) = false := by simpa using Ne.symm h
      simp [this]

/-- **C50**. Every accepted message has the kind its keys say, and a value without a kind is refused. -/
theorem C50_classified (j : Json) :
    (∀ m, parseMessage j = some m → KindOf j = some m.kind) ∧ (KindOf j = none → parseMessage j = none) := by
  cases j with
  | obj f =>
    simp only [parseMessage, KindOf, vget, get_isSome]
    refine ⟨fun m hm => ?_, fun h => ?_⟩
    · split at hm
      · next h1 =>
        simp only [h1, if_true]
        split at hm
        · next h2 =>
          simp only [h2, if_true]
          simp only [Option.bind_eq_bind, Option.bind_eq_some_iff] at hm
          obtain ⟨_, _, ⟨_, _⟩, _, he⟩ := hm
          cases he; rfl
        · next h2 =>
          simp only [h2]
          simp only [Option.map_eq_some_iff] at hm
          obtain ⟨n, _, rfl⟩ := hm; rfl
      · next h1 =>
        simp only [h1]
        split at hm
        · next h2 =>
          simp only [Option.map_eq_some_iff] at hm
          obtain ⟨n, _, rfl⟩ := hm
          rw [if_pos h2]; simp [TMsg.kind]
        · cases hm
    · split at h
      · split at h <;> cases h
      · next h1 =>
        split at h
        · cases h
        · next h2 => rw [if_neg h1, if_neg h2]
  | _ => simp [parseMessage, KindOf, vget]

example : KindOf (.obj [("jsonrpc", .str "2.0"), ("method", .str "ping"), ("id", .num (.int 1))]) = some .request := by
  decide +kernel

/-- **C50**, responses: with a version and an id of the right types a result makes a response, also if it is
`null`. -/
theorem C50_result_accepted (f : List (String × Json)) (v : String) (id : Id) (r : Json)
    (hv : AMap.get f "jsonrpc" = some (.str v)) (hi : AMap.get f "id" = some id.enc)
    (hm : AMap.get f "method" = none) (he : AMap.get f "error" = none) (hr : AMap.get f "result" = some r) :
    parseMessage (.obj f) = some (.response ⟨v, id, .result r⟩) := by
  have hp : Payload.dec f = some (.result r) := by
    clear hv hi hm
    induction f with
    | nil => cases hr
    | cons p f ih =>
      obtain ⟨a, x⟩ := p
      rw [AMap.get_cons] at he hr
      simp only [Payload.dec]
      by_cases h1 : a = "result"
      · rw [if_pos h1] at hr ⊢; cases hr; rfl
      · rw [if_neg h1] at hr ⊢
        by_cases h2 : a = "error"
        · rw [if_pos h2] at he; cases he
        · rw [if_neg h2] at he ⊢; exact ih he hr
  simp [parseMessage, vget, hm, hr, RpcResponse.dec, hv, hi, hp]

example : parseMessage (.obj [("jsonrpc", .str "2.0"), ("id", .num (.int 4)), ("result", .null)]) =
    some (.response ⟨"2.0", .num ⟨4, by decide⟩, .result .null⟩) :=
  C50_result_accepted _ "2.0" (.num ⟨4, by decide⟩) .null rfl rfl rfl rfl rfl

/-- Specification: the kind of a `MessageType`. (Specification: no counterpart in the code.) -/
def MessageType.kind : MessageType → Option Kind
  | .request => some .request
  | .notification => some .notification
  | .response => some .response
  | .errorResponse => some .response
  | .invalid => none

/-- A value is not `null`. (Specification: no counterpart in the code.) -/
def NotNull (f : List (String × Json)) (k : String) : Prop := AMap.get f k ≠ some .null

theorem opt_isSome {α : Type} (d : Json → Option α) (f : List (String × Json)) (k : String) (i : Nat) (x : Option α)
    (hn : NotNull f k) (h : opt d (.obj f) k i = some x) : x.isSome = (f.map (·.1)).contains k := by
  rw [← get_isSome]
  simp only [opt_obj] at h
  unfold NotNull at hn
  cases hg : AMap.get f k with
  | none => rw [hg] at h; cases h; rfl
  | some j =>
    rw [hg] at h hn
    have : decOpt d j = (d j).map some := by cases j <;> simp_all [decOpt]
    simp only [optOf, this, Option.map_eq_some_iff] at h
    obtain ⟨a, _, rfl⟩ := h
    rfl

/-- **C50** for `RawMessage::message_type`. It agrees with the keys if none of `id`, `method`, `result` and
`error` is `null`, not both a result and an error are present, a message with a method has neither, and a result
or error comes with an id. Missing: in those cases the two classifications of the SDK differ. -/
theorem C50_raw_agrees_partial (f : List (String × Json)) (m : RawMessage) (h : RawMessage.dec (.obj f) = some m)
    (h1 : NotNull f "id") (h2 : NotNull f "method") (h3 : NotNull f "result") (h4 : NotNull f "error")
    (hx : ¬ (m.result = true ∧ m.error = true)) (hm : m.method.isSome → m.result = false ∧ m.error = false)
    (hid : m.result = true ∨ m.error = true → m.id.isSome) : m.messageType.kind = KindOf (.obj f) := by
  simp only [RawMessage.dec, Option.bind_eq_bind, Option.bind_eq_some_iff] at h
  obtain ⟨_, _, i, hi, me, hme, r, hr, e, he, hm'⟩ := h
  have a1 := opt_isSome _ _ _ _ _ h1 hi
  have a2 := opt_isSome _ _ _ _ _ h2 hme
  have a3 := opt_isSome _ _ _ _ _ h3 hr
  have a4 := opt_isSome _ _ _ _ _ h4 he
  cases hm'
  simp only [KindOf, ← a1, ← a2, ← a3, ← a4]
  cases i <;> cases me <;> cases r <;> cases e <;> simp_all [RawMessage.messageType, MessageType.kind]

example : ∃ m, RawMessage.dec (.obj [("jsonrpc", .str "2.0"), ("id", .str "a"), ("result", .bool true)]) = some m ∧
    m.messageType = .response := ⟨_, rfl, rfl⟩

/-- **C50** for `RawMessage::message_type`: under the same conditions a message without a method is an error response
exactly if it has an `error`, and a response exactly if it has a `result`. -/
theorem C50_raw_response_partial (f : List (String × Json)) (m : RawMessage) (h : RawMessage.dec (.obj f) = some m)
    (h1 : NotNull f "id") (h2 : NotNull f "method") (h3 : NotNull f "result") (h4 : NotNull f "error")
    (hx : ¬ (m.result = true ∧ m.error = true)) (hm : m.method.isSome → m.result = false ∧ m.error = false)
    (hid : m.result = true ∨ m.error = true → m.id.isSome) :
    (m.messageType = .errorResponse ↔ (f.map (·.1)).contains "error" = true) ∧
      (m.messageType = .response ↔ (f.map (·.1)).contains "result" = true) := by
  simp only [RawMessage.dec, Option.bind_eq_bind, Option.bind_eq_some_iff] at h
  obtain ⟨_, _, i, hi, me, hme, r, hr, e, he, hm'⟩ := h
  have a3 := opt_isSome _ _ _ _ _ h3 hr
  have a4 := opt_isSome _ _ _ _ _ h4 he
  cases hm'
  rw [← a3, ← a4]
  cases i <;> cases me <;> cases r <;> cases e <;> simp_all [RawMessage.messageType]

example : ∃ m, RawMessage.dec (.obj [("jsonrpc", .str "2.0"), ("id", .str "a"),
    ("error", .obj [("code", .num (.int (-32600))), ("message", .str "no")])]) = some m ∧
    m.messageType = .errorResponse := ⟨_, rfl, rfl⟩

/-- The two classifications differ on a response whose result is `null`. -/
theorem C50_raw_differs : ∃ j m r, RawMessage.dec j = some m ∧ m.messageType = .invalid ∧
    parseMessage j = some (.response r) := by
  refine ⟨.obj [("jsonrpc", .str "2.0"), ("id", .num (.int 4)), ("result", .null)],
    ⟨some (.num ⟨4, by decide⟩), none, false, false⟩, ⟨"2.0", .num ⟨4, by decide⟩, .result .null⟩, rfl, rfl, ?_⟩
  exact C50_result_accepted _ "2.0" (.num ⟨4, by decide⟩) .null rfl rfl rfl rfl rfl

/-! ### C96: messages through stdio, WebSocket and HTTP -/

/-- The messages that survive. (Specification: no counterpart in the code.) -/
def TMsg.Survives : TMsg → Prop
  | .request _ r => r.Survives
  | .response r => r.Ok
  | .notification n => n.Survives

theorem vget_request (id : Id) (r : Request) :
    (vget (createRequest id r).enc "method").isSome = true ∧ (vget (createRequest id r).enc "id").isSome = true := by
  simp [vget, RpcRequest.enc]

theorem vget_notification (n : Notification) :
    (vget (createNotification n).enc "method").isSome = true ∧ vget (createNotification n).enc "id" = none := by
  cases h : (createNotification n).params <;> simp [vget, RpcNotification.enc, h]

theorem vget_response (r : RpcResponse) :
    vget r.enc "method" = none ∧
      ((vget r.enc "result").isSome || (vget r.enc "error").isSome) = true := by
  obtain ⟨v, i, p⟩ := r
  cases p <;> simp [vget, RpcResponse.enc, Payload.entry, AMap.get_cons]

theorem parse_serialize_request (id : Id) (r : Request) :
    parseMessage (serializeMessage (.request id r)) =
      (parseRequest (createRequest id r)).map (fun p => .request p.1 p.2) := by
  simp only [serializeMessage, parseMessage, vget_request, if_true,
    RpcRequest.dec_enc _ (createRequest_params id r), Option.bind_eq_bind, Option.bind_some]
  cases parseRequest (createRequest id r) <;> rfl

theorem parse_serialize_notification (n : Notification) :
    parseMessage (serializeMessage (.notification n)) =
      (parseNotification (createNotification n).enc).map .notification := by
  simp [serializeMessage, parseMessage, vget_notification]

theorem parse_serialize_response (r : RpcResponse) :
    parseMessage (serializeMessage (.response r)) = (RpcResponse.dec r.enc).map .response := by
  simp only [serializeMessage, parseMessage, vget_response]
  simp

/-- **C96** (exact form). A message comes back through `serialize_message` and `parse_message` exactly if it
survives; the exceptions are those of C48 and C49 and errors with data `Some(null)`. -/
theorem C96_message_round_trip_partial (m : TMsg) : parseMessage (serializeMessage m) = some m ↔ m.Survives := by
  cases m with
  | request id r =>
    rw [parse_serialize_request, show TMsg.Survives (.request id r) = r.Survives from rfl,
      ← C48_request_round_trip_partial id r]
    cases parseRequest (createRequest id r) with
    | none => simp
    | some p => obtain ⟨a, b⟩ := p; simp
  | response r =>
    rw [parse_serialize_response, show TMsg.Survives (.response r) = r.Ok from rfl, ← RpcResponse.rt_iff]
    cases RpcResponse.dec r.enc <;> simp
  | notification n =>
    rw [parse_serialize_notification, show TMsg.Survives (.notification n) = n.Survives from rfl,
      ← C49_notification_round_trip_partial]
    cases parseNotification (createNotification n).enc <;> simp

example : TMsg.Survives (.response ⟨"2.0", .str "a", .error ⟨⟨-32601, by decide⟩, "no", none⟩⟩) := by
  simp [TMsg.Survives, RpcResponse.Ok, RpcError.Ok]

/-- **C96**, the kind: whatever a message is read back as, it is of the same kind. -/
theorem C96_kind_kept (m m' : TMsg) (h : parseMessage (serializeMessage m) = some m') : m'.kind = m.kind := by
  cases m with
  | request id r =>
    rw [parse_serialize_request, Option.map_eq_some_iff] at h
    obtain ⟨_, _, rfl⟩ := h; rfl
  | response r =>
    rw [parse_serialize_response, Option.map_eq_some_iff] at h
    obtain ⟨_, _, rfl⟩ := h; rfl
  | notification n =>
    rw [parse_serialize_notification, Option.map_eq_some_iff] at h
    obtain ⟨_, _, rfl⟩ := h; rfl

example : ∃ m', parseMessage (serializeMessage (.request (.str "1") (.client .ping))) = some m' ∧ m'.kind = .request :=
  ⟨_, rfl, rfl⟩

/-- **C96**, responses: the id and the result of a response are always kept, whatever the result. -/
theorem C96_result_kept (v : String) (id : Id) (r : Json) :
    parseMessage (serializeMessage (.response ⟨v, id, .result r⟩)) = some (.response ⟨v, id, .result r⟩) :=
  (C96_message_round_trip_partial _).mpr (by intro e he; cases he)

end Verif.Wire
