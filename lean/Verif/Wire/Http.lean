import Verif.Wire.Props

/-
The derived wire format of the streamable HTTP transport and interoperation (C97, C98, C99, C101).
-/

namespace Verif.Wire

/-! ### C97: messages through streamable HTTP -/

/-- The messages that survive the derived form. (Specification: no counterpart in the code.) -/
def TMsg.HttpSurvives : TMsg → Prop
  | .request _ (.client r) => r.Representable
  | .request _ (.server (.createMessage _)) => False
  | .request _ (.server .listRoots) => True
  | .request _ (.server (.elicit p)) => p.Ok
  | .response r => r.Ok
  | .notification (.client (.progress p)) => p.Ok
  | .notification (.client _) => True
  | .notification (.server (.progress _)) => False
  | .notification (.server .rootsListChanged) => False
  | .notification (.server (.log p)) => p.Ok
  | .notification (.server _) => True
  | .notification (.progress p) => p.Ok
  | .notification (.cancelled _) => True

/-- Maps in the message have each key once. (Specification: no counterpart in the code.) -/
def TMsg.WF : TMsg → Prop
  | .request _ r => r.WF
  | _ => True

theorem client_dec_enc (r : ClientRequest) : ClientRequest.dec r.enc = some r ↔ r.Representable := by
  cases r <;>
    simp only [ClientRequest.enc, ClientRequest.dec, decAdj_enc, ClientRequest.Representable] <;>
    simp [ClientRequest.table, AMap.get_cons, Variant.read, CreateMessage.rt_iff, ElicitResponse.rt_iff]

theorem server_dec_enc (r : ServerRequest) (h : r.WF) : ServerRequest.dec r.enc = some r ↔ r.Representable := by
  cases r <;>
    simp only [ServerRequest.enc, ServerRequest.dec, decAdj_enc, ServerRequest.Representable] <;>
    simp [ServerRequest.table, AMap.get_cons, Variant.read, CreateMessage.rt_iff]
  exact ElicitRequest.rt_iff _ h

theorem request_dec_enc (r : Request) (h : r.WF) (id : Id) :
    Request.dec r.enc = some r ↔ TMsg.HttpSurvives (.request id r) := by
  cases r with
  | client r =>
    rw [show TMsg.HttpSurvives (.request id (.client r)) = r.Representable from rfl, ← client_dec_enc]
    simp only [Request.dec, Request.enc]
    cases ClientRequest.dec r.enc <;> simp
  | server r =>
    have hs := server_dec_enc r h
    cases r with
    | createMessage p =>
      simp only [Request.dec, Request.enc, TMsg.HttpSurvives, iff_false]
      have h1 : ClientRequest.dec (ServerRequest.enc (.createMessage p)) = (CreateMessage.dec p.enc).map .createMessage := by
        simp only [ServerRequest.enc, ClientRequest.dec, decAdj_enc]
        simp [ClientRequest.table, AMap.get_cons, Variant.read]
      have h2 : ServerRequest.dec (ServerRequest.enc (.createMessage p)) = (CreateMessage.dec p.enc).map .createMessage := by
        simp only [ServerRequest.enc, ServerRequest.dec, decAdj_enc]
        simp [ServerRequest.table, AMap.get_cons, Variant.read]
      rw [h1, h2]
      cases CreateMessage.dec p.enc <;> simp
    | listRoots =>
      have h1 : ClientRequest.dec (ServerRequest.enc .listRoots) = none := by
        simp only [ServerRequest.enc, ClientRequest.dec, decAdj_enc]
        simp [ClientRequest.table, AMap.get_cons]
      simp only [Request.dec, Request.enc, TMsg.HttpSurvives, h1]
      simp only [ServerRequest.Representable] at hs
      simp [hs]
    | elicit p =>
      have h1 : ClientRequest.dec (ServerRequest.enc (.elicit p)) = none := by
        simp only [ServerRequest.enc, ClientRequest.dec, decAdj_enc]
        simp [ClientRequest.table, AMap.get_cons]
      simp only [Request.dec, Request.enc, TMsg.HttpSurvives, h1]
      simp only [ServerRequest.Representable] at hs
      rw [← hs]
      cases ServerRequest.dec (ServerRequest.enc (.elicit p)) <;> simp

/-! Decoders on objects lacking their keys. -/

theorem decReq_none (f : List (String × Json)) (h : AMap.get f "request" = none) : decReqVariant (.obj f) = none := by
  have hr : (AMap.get f "request").bind Request.dec = none := by rw [h]; rfl
  simp [decReqVariant]
  intro _ _ a ha
  rw [hr] at ha; cases ha

theorem decResp_none (f : List (String × Json)) (h : AMap.get f "jsonrpc" = none) : RpcResponse.dec (.obj f) = none := by
  simp [RpcResponse.dec, h]

theorem decAdj_none {α : Type} (tbl : String → Option (Variant α)) (f : List (String × Json))
    (h : AMap.get f "method" = none) : decAdj tbl (.obj f) = none := by simp [decAdj, h]

theorem decProgress_none (f : List (String × Json)) (h : AMap.get f "progressToken" = none) :
    Progress.dec (.obj f) = none := by simp [Progress.dec, h]

theorem decCancelled_none (f : List (String × Json)) (h : AMap.get f "requestId" = none) :
    Cancelled.dec (.obj f) = none := by simp [Cancelled.dec, h]

theorem get_encAdj (m : String) (c : Option Json) (k : String) (h1 : k ≠ "method") (h2 : k ≠ "params") :
    ∃ f, encAdj m c = .obj f ∧ AMap.get f k = none := by
  refine ⟨_, rfl, ?_⟩
  simp [get_ob_cons, Ne.symm h1, Ne.symm h2]

theorem tm_dec_adj (m : String) (c : Option Json) :
    TMsg.dec (encAdj m c) = (((ClientNotification.dec (encAdj m c)).map Notification.client).or
      ((ServerNotification.dec (encAdj m c)).map .server)).map .notification := by
  have h1 : decReqVariant (encAdj m c) = none := decReq_none _ (by simp [get_ob_cons])
  have h2 : RpcResponse.dec (encAdj m c) = none := decResp_none _ (by simp [get_ob_cons])
  have h3 : Progress.dec (encAdj m c) = none := decProgress_none _ (by simp [get_ob_cons])
  have h4 : Cancelled.dec (encAdj m c) = none := decCancelled_none _ (by simp [get_ob_cons])
  simp [TMsg.dec, h1, h2, Notification.dec, h3, h4]

/-- **C97** (exact form). A message comes back through the derived form exactly if it survives. Missing from the
property: the server's sampling request, progress and roots notification come back as the client's; `Some(null)`
values, non-finite floats and metadata named like a field do not come back. -/
theorem C97_http_round_trip_partial (m : TMsg) (hw : m.WF) : TMsg.dec m.enc = some m ↔ m.HttpSurvives := by
  cases m with
  | request id r =>
    have h := request_dec_enc r hw id
    have hv : decReqVariant (TMsg.enc (.request id r)) = (Request.dec r.enc).map (.request id) := by
      simp only [decReqVariant, TMsg.enc, src_obj, req_obj]
      simp
      cases Request.dec r.enc <;> rfl
    have h2 : RpcResponse.dec (TMsg.enc (.request id r)) = none := decResp_none _ (by simp [get_ob_cons])
    rw [← h, TMsg.dec, hv, h2]
    cases Request.dec r.enc with
    | none => simp
    | some x => simp
  | response r =>
    have hv : decReqVariant (TMsg.enc (.response r)) = none :=
      decReq_none _ (by obtain ⟨v, i, p⟩ := r; cases p <;> simp [Payload.entry, AMap.get_cons])
    rw [show TMsg.HttpSurvives (.response r) = r.Ok from rfl, ← RpcResponse.rt_iff, TMsg.dec, hv]
    show ((none : Option TMsg).or (((RpcResponse.dec r.enc).map TMsg.response).or _)) = _ ↔ _
    cases RpcResponse.dec r.enc <;> simp
  | notification n =>
    cases n with
    | client n =>
      cases n <;>
        simp only [TMsg.enc, Notification.enc, ClientNotification.enc, tm_dec_adj, ClientNotification.dec,
          ServerNotification.dec, decAdj_enc, TMsg.HttpSurvives] <;>
        simp [ClientNotification.table, ServerNotification.table, AMap.get_cons, Variant.read]
      next p =>
        rw [← Progress.rt_iff]
    | server n =>
      cases n <;>
        simp only [TMsg.enc, Notification.enc, ServerNotification.enc, tm_dec_adj, ClientNotification.dec,
          ServerNotification.dec, decAdj_enc, TMsg.HttpSurvives] <;>
        simp [ClientNotification.table, ServerNotification.table, AMap.get_cons, Variant.read, LogMessage.rt_iff]
      next p => cases Progress.dec p.enc <;> simp
    | progress p =>
      have h1 : decReqVariant p.enc = none := decReq_none _ (by simp [get_ob_cons])
      have h2 : RpcResponse.dec p.enc = none := decResp_none _ (by simp [get_ob_cons])
      have h3 : ClientNotification.dec p.enc = none := decAdj_none _ _ (by simp [get_ob_cons])
      have h4 : ServerNotification.dec p.enc = none := decAdj_none _ _ (by simp [get_ob_cons])
      have h5 : Cancelled.dec p.enc = none := decCancelled_none _ (by simp [get_ob_cons])
      rw [show TMsg.HttpSurvives (.notification (.progress p)) = p.Ok from rfl, ← Progress.rt_iff]
      show TMsg.dec p.enc = _ ↔ _
      simp [TMsg.dec, Notification.dec, h1, h2, h3, h4, h5]
    | cancelled p =>
      have h1 : decReqVariant p.enc = none := decReq_none _ (by simp [get_ob_cons])
      have h2 : RpcResponse.dec p.enc = none := decResp_none _ (by simp [get_ob_cons])
      have h3 : ClientNotification.dec p.enc = none := decAdj_none _ _ (by simp [get_ob_cons])
      have h4 : ServerNotification.dec p.enc = none := decAdj_none _ _ (by simp [get_ob_cons])
      have h5 : Progress.dec p.enc = none := decProgress_none _ (by simp [get_ob_cons])
      show TMsg.dec p.enc = _ ↔ _
      simp [TMsg.dec, Notification.dec, h1, h2, h3, h4, h5, TMsg.HttpSurvives]

example : TMsg.WF (.request (.str "1") (.client .ping)) ∧ TMsg.HttpSurvives (.request (.str "1") (.client .ping)) :=
  ⟨trivial, trivial⟩

/-- **C97** fails for the server's roots notification, which arrives as the client's. -/
theorem C97_roots_notification : TMsg.dec (TMsg.enc (.notification (.server .rootsListChanged))) =
    some (.notification (.client .rootsListChanged)) := by
  simp only [TMsg.enc, Notification.enc, ServerNotification.enc, tm_dec_adj, ClientNotification.dec, decAdj_enc]
  simp [ClientNotification.table, AMap.get_cons, Variant.read]

/-! ### C98: standard JSON-RPC over streamable HTTP -/

theorem client_method_not_notification (r : ClientRequest) :
    AMap.get ClientNotification.table (clientToRpc r).1 = none ∧
      AMap.get ServerNotification.table (clientToRpc r).1 = none := by
  cases r <;> simp [clientToRpc, ClientNotification.table, ServerNotification.table, AMap.get_cons]

theorem server_method_not_notification (r : ServerRequest) :
    AMap.get ClientNotification.table (serverToRpc r).1 = none ∧
      AMap.get ServerNotification.table (serverToRpc r).1 = none := by
  cases r <;> simp [serverToRpc, ClientNotification.table, ServerNotification.table, AMap.get_cons]

theorem createRequest_method (id : Id) (r : Request) :
    AMap.get ClientNotification.table (createRequest id r).method = none ∧
      AMap.get ServerNotification.table (createRequest id r).method = none := by
  cases r with
  | client r => exact client_method_not_notification r
  | server r => exact server_method_not_notification r

theorem decAdj_unknown {α : Type} (tbl : String → Option (Variant α)) (f : List (String × Json)) (m : String)
    (h : AMap.get f "method" = some (.str m)) (hm : tbl m = none) : decAdj tbl (.obj f) = none := by
  simp [decAdj, h, decEnum, hm]

/-- **C98** fails for every request: what the stdio, WebSocket and HTTP transports of the same library send as a
JSON-RPC request is not a message for the streamable HTTP server. -/
theorem C98_standard_request_refused (id : Id) (r : Request) : TMsg.dec (serializeMessage (.request id r)) = none := by
  show TMsg.dec (createRequest id r).enc = none
  obtain ⟨h1, h2⟩ := createRequest_method id r
  have hm : ∀ m, AMap.get (ob [("jsonrpc", some (.str (createRequest id r).jsonrpc)), ("id", some (createRequest id r).id.enc),
      ("method", some (.str m)), ("params", (createRequest id r).params)]) "method" = some (.str m) := by
    intro m; simp [get_ob_cons]
  have e1 : decReqVariant (createRequest id r).enc = none := decReq_none _ (by simp [get_ob_cons])
  have e2 : RpcResponse.dec (createRequest id r).enc = none := by
    simp only [RpcResponse.dec, RpcRequest.enc]
    have : Payload.dec (ob [("jsonrpc", some (.str (createRequest id r).jsonrpc)), ("id", some (createRequest id r).id.enc),
      ("method", some (.str (createRequest id r).method)), ("params", (createRequest id r).params)]) = none := by
      cases (createRequest id r).params <;> simp [ob, Payload.dec]
    rw [this]
    cases req decStr (.obj _) "jsonrpc" 0 <;> simp
  have e3 : ClientNotification.dec (createRequest id r).enc = none := decAdj_unknown _ _ _ (hm _) h1
  have e4 : ServerNotification.dec (createRequest id r).enc = none := decAdj_unknown _ _ _ (hm _) h2
  have e5 : Progress.dec (createRequest id r).enc = none := decProgress_none _ (by simp [get_ob_cons])
  have e6 : Cancelled.dec (createRequest id r).enc = none := decCancelled_none _ (by simp [get_ob_cons])
  simp [TMsg.dec, Notification.dec, e1, e2, e3, e4, e5, e6]

/-- Nor is what the streamable HTTP client sends a message for the other transports. -/
theorem C98_http_request_refused (id : Id) (r : Request) : parseMessage (TMsg.enc (.request id r)) = none := by
  simp [parseMessage, TMsg.enc, vget, get_ob_cons]

/-- **C98**, responses: standard responses are understood by both. -/
theorem C98_responses_partial (r : RpcResponse) (h : r.Ok) :
    TMsg.dec (serializeMessage (.response r)) = some (.response r) ∧ parseMessage (TMsg.enc (.response r)) = some (.response r) :=
  ⟨(C97_http_round_trip_partial (.response r) trivial).mpr h, (C96_message_round_trip_partial (.response r)).mpr h⟩

/-- The parameters of a notification have a JSON form of their own. (Specification: no counterpart in the code.) -/
def Notification.Representable : Notification → Prop
  | .client (.progress p) => p.Ok
  | .server (.progress p) => p.Ok
  | .server (.log p) => p.Ok
  | .progress p => p.Ok
  | _ => True

/-- **C98**, notifications: a standard notification is understood by the streamable HTTP server as a
notification that says the same. Missing from the property: requests (`C98_standard_request_refused`). -/
theorem C98_notifications_partial (n : Notification) (h : n.Representable) :
    ∃ n', TMsg.dec (serializeMessage (.notification n)) = some (.notification n') ∧
      createNotification n' = createNotification n := by
  have key : ∀ (m : String) (c : Option Json),
      TMsg.dec (RpcNotification.enc ⟨"2.0", m, c⟩) = ((((AMap.get ClientNotification.table m).bind (fun v => v.read c)).map
        Notification.client).or (((AMap.get ServerNotification.table m).bind (fun v => v.read c)).map .server)).map
          TMsg.notification := by
    intro m c
    have g : ∀ k, k ≠ "jsonrpc" → k ≠ "method" → k ≠ "params" →
        AMap.get (ob [("jsonrpc", some (.str "2.0")), ("method", some (.str m)), ("params", c)]) k = none := by
      intro k a b d
      simp [get_ob_cons, Ne.symm a, Ne.symm b, Ne.symm d]
    have e1 : decReqVariant (RpcNotification.enc ⟨"2.0", m, c⟩) = none := decReq_none _ (g _ (by decide) (by decide) (by decide))
    have e2 : RpcResponse.dec (RpcNotification.enc ⟨"2.0", m, c⟩) = none := by
      simp only [RpcResponse.dec, RpcNotification.enc, req_obj, g "id" (by decide) (by decide) (by decide)]
      cases (AMap.get (ob [("jsonrpc", some (.str "2.0")), ("method", some (.str m)), ("params", c)]) "jsonrpc").bind decStr <;> simp
    have e5 : Progress.dec (RpcNotification.enc ⟨"2.0", m, c⟩) = none := decProgress_none _ (g _ (by decide) (by decide) (by decide))
    have e6 : Cancelled.dec (RpcNotification.enc ⟨"2.0", m, c⟩) = none := decCancelled_none _ (g _ (by decide) (by decide) (by decide))
    have e3 : ClientNotification.dec (RpcNotification.enc ⟨"2.0", m, c⟩) =
        (AMap.get ClientNotification.table m).bind (fun v => v.read c) := by
      cases c <;> simp [ClientNotification.dec, decAdj, RpcNotification.enc, get_ob_cons, decEnum]
    have e4 : ServerNotification.dec (RpcNotification.enc ⟨"2.0", m, c⟩) =
        (AMap.get ServerNotification.table m).bind (fun v => v.read c) := by
      cases c <;> simp [ServerNotification.dec, decAdj, RpcNotification.enc, get_ob_cons, decEnum]
    simp [TMsg.dec, Notification.dec, e1, e2, e3, e4, e5, e6]
  cases n with
  | client n =>
    refine ⟨.client n, ?_, rfl⟩
    cases n <;> simp only [serializeMessage, createNotification, clientNotifToRpc, key] <;>
      simp [ClientNotification.table, AMap.get_cons, Variant.read]
    next p => exact .inl (Progress.rt p h)
  | server n =>
    cases n with
    | progress p =>
      refine ⟨.client (.progress p), ?_, rfl⟩
      simp only [serializeMessage, createNotification, serverNotifToRpc, key]
      have := Progress.rt p h
      simp [ClientNotification.table, AMap.get_cons, Variant.read, this]
    | rootsListChanged =>
      refine ⟨.client .rootsListChanged, ?_, rfl⟩
      simp only [serializeMessage, createNotification, serverNotifToRpc, key]
      simp [ClientNotification.table, AMap.get_cons, Variant.read]
    | log p =>
      refine ⟨.server (.log p), ?_, rfl⟩
      simp only [serializeMessage, createNotification, serverNotifToRpc, key]
      have := LogMessage.rt p h
      simp [ClientNotification.table, ServerNotification.table, AMap.get_cons, Variant.read, this]
    | toolsChanged | promptsChanged | resourcesChanged | resourceUpdated p =>
      refine ⟨.server _, ?_, rfl⟩
      simp only [serializeMessage, createNotification, serverNotifToRpc, key]
      simp [ClientNotification.table, ServerNotification.table, AMap.get_cons, Variant.read]
  | progress p =>
    refine ⟨.client (.progress p), ?_, rfl⟩
    simp only [serializeMessage, createNotification, key]
    have := Progress.rt p h
    simp [ClientNotification.table, AMap.get_cons, Variant.read, this]
  | cancelled p =>
    refine ⟨.client (.cancelled p), ?_, rfl⟩
    simp only [serializeMessage, createNotification, key]
    simp [ClientNotification.table, AMap.get_cons, Variant.read]

example : Notification.Representable (.server (.log ⟨.info, none, "started", some (.bool true)⟩)) := by
  simp [Notification.Representable, LogMessage.Ok]

end Verif.Wire
