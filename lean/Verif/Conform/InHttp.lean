import Verif.Conform.InResults
import Verif.Wire.Http

/-
What the streamable HTTP transport understands of the published schema (C194).

`TMsg.dec` models the derived `Deserialize` of `TransportMessage` (/repo/src/shared/transport.rs L64-78), with which
/repo/src/server/streamable_http_server.rs L557 and /repo/src/shared/streamable_http.rs L252, L377-415 read messages.
-/

namespace Verif.Conform

open Verif Verif.Wire

/-- No member beside those of the schema is one the derived form looks at. (Specification: no counterpart in the
code.) -/
def Plain (f : List (String × Json)) (l : List String) : Prop := ∀ k ∈ l, AMap.get f k = none

theorem payload_none (f : List (String × Json)) (h1 : AMap.get f "result" = none) (h2 : AMap.get f "error" = none) :
    Payload.dec f = none := by
  rw [payload_result f h2, h1]; rfl

theorem response_none (f : List (String × Json)) (h1 : AMap.get f "result" = none) (h2 : AMap.get f "error" = none) :
    RpcResponse.dec (.obj f) = none := by
  simp only [RpcResponse.dec, payload_none f h1 h2, Option.bind_eq_bind]
  cases req decStr (.obj f) "jsonrpc" 0 <;> simp

/-- **C194** fails for every request: no request of the schema, of a client or a server, is a message for the
streamable HTTP transport. -/
theorem C194_requests (t : List (String × Params)) (ht : t = clientRequests ∨ t = serverRequests) (f : List (String × Json))
    (h : request t (.obj f) = true) (hp : Plain f ["request", "result", "error", "progressToken", "requestId"]) :
    TMsg.dec (.obj f) = none := by
  obtain ⟨-, -, m, pr, hm, hpr, -⟩ := valid_request _ f h
  simp only [Plain, List.mem_cons, List.not_mem_nil, or_false, forall_eq_or_imp, forall_eq] at hp
  obtain ⟨p1, p2, p3, p4, p5⟩ := hp
  have hmem : (m, pr) ∈ clientRequests ++ serverRequests := by
    have := AMap.mem_of_get hpr
    rcases ht with rfl | rfl
    · exact List.mem_append_left _ this
    · exact List.mem_append_right _ this
  have hn : AMap.get ClientNotification.table m = none ∧ AMap.get ServerNotification.table m = none := by
    simp only [clientRequests, serverRequests, List.cons_append, List.nil_append, List.mem_cons, List.not_mem_nil,
      or_false, Prod.mk.injEq] at hmem
    rcases hmem with ⟨rfl, -⟩ | ⟨rfl, -⟩ | ⟨rfl, -⟩ | ⟨rfl, -⟩ | ⟨rfl, -⟩ | ⟨rfl, -⟩ | ⟨rfl, -⟩ | ⟨rfl, -⟩ | ⟨rfl, -⟩ |
      ⟨rfl, -⟩ | ⟨rfl, -⟩ | ⟨rfl, -⟩ | ⟨rfl, -⟩ | ⟨rfl, -⟩ | ⟨rfl, -⟩ | ⟨rfl, -⟩ | ⟨rfl, -⟩ <;> exact ⟨rfl, rfl⟩
  have e3 : ClientNotification.dec (.obj f) = none := decAdj_unknown _ _ _ hm hn.1
  have e4 : ServerNotification.dec (.obj f) = none := decAdj_unknown _ _ _ hm hn.2
  simp [TMsg.dec, Notification.dec, decReq_none f p1, response_none f p2 p3, e3, e4, decProgress_none f p4,
    decCancelled_none f p5]

example : request clientRequests (.obj [("jsonrpc", .str "2.0"), ("id", .num (.int 0)), ("method", .str "ping")]) = true := by
  decide

/-- **C194** (exact form), notifications: understood as by the other transports. -/
theorem C194_notifications_partial (t : List (String × Params)) (ht : t = clientNotifications ∨ t = serverNotifications)
    (f : List (String × Json)) (h : notification t (.obj f) = true)
    (hp : Plain f ["request", "result", "error", "progressToken", "requestId"]) :
    (TMsg.dec (.obj f)).isSome ↔ NotifUnderstood f := by
  rw [← C191_notifications_partial t ht f h]
  obtain ⟨hv, hi, m, pr, hm, hpr, hc⟩ := valid_notification _ f h
  simp only [Plain, List.mem_cons, List.not_mem_nil, or_false, forall_eq_or_imp, forall_eq] at hp
  obtain ⟨p1, p2, p3, p4, p5⟩ := hp
  have hmem : (m, pr) ∈ clientNotifications ++ serverNotifications := by
    have := AMap.mem_of_get hpr
    rcases ht with rfl | rfl
    · exact List.mem_append_left _ this
    · exact List.mem_append_right _ this
  rw [parse_notif f "2.0" m hv hi hm, Option.isSome_map]
  have hd : (TMsg.dec (.obj f)).isSome ↔ (ClientNotification.dec (.obj f)).isSome ∨ (ServerNotification.dec (.obj f)).isSome := by
    simp only [TMsg.dec, Notification.dec, decReq_none f p1, response_none f p2 p3, decProgress_none f p4,
      decCancelled_none f p5, Option.map_none, Option.or_none, Option.none_or, Option.isSome_map]
    cases ClientNotification.dec (.obj f) <;> simp
  have hcl : ClientNotification.dec (.obj f) = (AMap.get ClientNotification.table m).bind (fun x => x.read (AMap.get f "params")) := by
    simp only [ClientNotification.dec, decAdj, hm, Option.bind_eq_bind, Option.bind_some, decEnum]
  have hsv : ServerNotification.dec (.obj f) = (AMap.get ServerNotification.table m).bind (fun x => x.read (AMap.get f "params")) := by
    simp only [ServerNotification.dec, decAdj, hm, Option.bind_eq_bind, Option.bind_some, decEnum]
  rw [hd, hcl, hsv]
  clear hd hcl hsv
  simp only [clientNotifications, serverNotifications, List.cons_append, List.nil_append, List.mem_cons, List.not_mem_nil,
    or_false, Prod.mk.injEq] at hmem
  have hneed : ∀ l, pr = .needed l → ∃ g, AMap.get f "params" = some (.obj g) := by
    rintro l rfl
    obtain ⟨g, hg, -⟩ := (needed_iff _ _).mp hc
    exact ⟨g, hg⟩
  have hbare : pr = .optional [] → AMap.get f "params" = none ∨ ∃ g, AMap.get f "params" = some (.obj g) := by
    rintro rfl
    rcases (optional_iff _ _).mp hc with hg | ⟨g, hg, -⟩
    · exact .inl hg
    · exact .inr ⟨g, hg⟩
  rcases hmem with ⟨rfl, hq⟩ | ⟨rfl, hq⟩ | ⟨rfl, hq⟩ | ⟨rfl, hq⟩ | ⟨rfl, hq⟩ | ⟨rfl, hq⟩ | ⟨rfl, hq⟩ | ⟨rfl, hq⟩ |
    ⟨rfl, hq⟩ | ⟨rfl, hq⟩ | ⟨rfl, hq⟩
  case inl | inr.inl | inr.inr.inr.inr.inl | inr.inr.inr.inr.inr.inl | inr.inr.inr.inr.inr.inr.inl |
      inr.inr.inr.inr.inr.inr.inr.inl =>
    obtain ⟨g, hg⟩ := hneed _ hq
    simp [hg, ClientNotification.table, ServerNotification.table, AMap.get_cons, AMap.get, Variant.read]
  all_goals
    rcases hbare hq with hg | ⟨g, hg⟩ <;>
      simp [hg, ClientNotification.table, ServerNotification.table, AMap.get_cons, AMap.get, Variant.read]

example : notification clientNotifications (.obj [("jsonrpc", .str "2.0"), ("method", .str "notifications/initialized")]) = true := by
  decide

/-- **C194**, responses: a response of the schema is understood by the streamable HTTP transport as by the others. -/
theorem C194_responses (s : Schema) (f : List (String × Json)) (h : response s (.obj f) = true)
    (hp : Plain f ["request", "method", "error", "progressToken", "requestId"]) :
    TMsg.dec (.obj f) = parseMessage (.obj f) := by
  simp only [Plain, List.mem_cons, List.not_mem_nil, or_false, forall_eq_or_imp, forall_eq] at hp
  obtain ⟨p1, p2, p3, p4, p5⟩ := hp
  simp only [response, object_obj, List.all_cons, List.all_nil, Bool.and_true, Bool.and_eq_true, must_iff] at h
  obtain ⟨-, -, r, hr, -⟩ := h
  have hpm : parseMessage (.obj f) = (RpcResponse.dec (.obj f)).map .response := by
    unfold parseMessage
    simp [vget, p2, hr]
  have hc : ClientNotification.dec (.obj f) = none := by simp [ClientNotification.dec, decAdj, p2]
  have hs : ServerNotification.dec (.obj f) = none := by simp [ServerNotification.dec, decAdj, p2]
  rw [hpm]
  simp only [TMsg.dec, Notification.dec, decReq_none f p1, decProgress_none f p4, decCancelled_none f p5, hc, hs,
    Option.map_none, Option.or_none, Option.none_or]

example : response unknown (.obj [("jsonrpc", .str "2.0"), ("id", .num (.int 7)), ("result", .obj [("tools", .arr [])])]) = true ∧
    TMsg.dec (.obj [("jsonrpc", .str "2.0"), ("id", .num (.int 7)), ("result", .obj [("tools", .arr [])])]) ≠ none := by
  refine ⟨by decide, ?_⟩
  rw [C194_responses unknown _ (by decide) (by simp [Plain, AMap.get_cons, AMap.get])]
  intro h
  have := (C192_responses_partial unknown [("jsonrpc", .str "2.0"), ("id", .num (.int 7)), ("result", .obj [("tools", .arr [])])]
    (by decide) rfl rfl).1
  rw [h] at this
  have hf : IdFits [("jsonrpc", .str "2.0"), ("id", .num (.int 7)), ("result", .obj [("tools", .arr [])])] := by
    intro n hn
    simp [AMap.get_cons] at hn
    omega
  exact absurd (this.mpr hf) (by simp)

end Verif.Conform
