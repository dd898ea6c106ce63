import Verif.Wire.Http

/-
Values that are no objects (C150): what the two ways of reading a message make of arrays and scalars.
-/

namespace Verif.Wire

/-- **C150** (stdio, WebSocket, HTTP client). Whatever `parse_message` accepts is an object: scalars and arrays, in
particular JSON-RPC batches, are refused. -/
theorem C150_parse_message (j : Json) (m : TMsg) (h : parseMessage j = some m) : ∃ f, j = .obj f := by
  cases j with
  | obj f => exact ⟨f, rfl⟩
  | _ => simp [parseMessage, vget] at h

example : ∃ m, parseMessage (.obj [("jsonrpc", .str "2.0"), ("id", .str "1"), ("method", .str "ping")]) = some m :=
  ⟨_, rfl⟩

/-- The first entry of an array that is read as a notification: a name or an identifier.
(Specification: no counterpart in the code.) -/
def TagLike : Json → Prop
  | .str _ => True
  | .num _ => True
  | .obj [(_, .null)] => True
  | _ => False

theorem tagLike_of_enum {α : Type} {t : String → Option α} {j : Json} {a : α} (h : decEnum t j = some a) : TagLike j := by
  revert h
  unfold decEnum
  split <;> simp [TagLike]

theorem tagLike_of_id {j : Json} {a : Id} (h : Id.dec j = some a) : TagLike j := by
  cases j <;> simp_all [Id.dec, decStr, decInt, TagLike]

theorem adj_arr {α : Type} (t : String → Option (Variant α)) (l : List Json) (a : α) (h : decAdj t (.arr l) = some a) :
    ∃ x y, l = [x, y] ∧ TagLike x := by
  match l, h with
  | [x, y], h =>
    simp only [decAdj, Option.bind_eq_bind, Option.bind_eq_some_iff] at h
    obtain ⟨v, hv, _⟩ := h
    exact ⟨x, y, rfl, tagLike_of_enum hv⟩
  | [], h => simp [decAdj] at h
  | [_], h => simp [decAdj] at h
  | _ :: _ :: _ :: _, h => simp [decAdj] at h

theorem progress_arr (l : List Json) (p : Progress) (h : Progress.dec (.arr l) = some p) :
    ∃ x y z, l = [x, y, z] ∧ TagLike x := by
  match l, h with
  | [x, y, z], h =>
    simp only [Progress.dec, Option.bind_eq_bind, Option.bind_eq_some_iff] at h
    obtain ⟨s, hs, i, hi, _⟩ := h
    cases hs
    exact ⟨x, y, z, rfl, tagLike_of_id hi⟩
  | [], h => simp [Progress.dec, src, req] at h
  | [_], h => simp [Progress.dec, src, req] at h
  | [_, _], h => simp [Progress.dec, src, req, opt] at h
  | _ :: _ :: _ :: _ :: _, h => simp [Progress.dec, src] at h

theorem cancelled_arr (l : List Json) (p : Cancelled) (h : Cancelled.dec (.arr l) = some p) :
    ∃ x y, l = [x, y] ∧ TagLike x := by
  match l, h with
  | [x, y], h =>
    simp only [Cancelled.dec, Option.bind_eq_bind, Option.bind_eq_some_iff] at h
    obtain ⟨s, hs, i, hi, _⟩ := h
    cases hs
    exact ⟨x, y, rfl, tagLike_of_id hi⟩
  | [], h => simp [Cancelled.dec, src, req] at h
  | [_], h => simp [Cancelled.dec, src, req, opt] at h
  | _ :: _ :: _ :: _, h => simp [Cancelled.dec, src] at h

theorem notification_arr (l : List Json) (n : Notification) (h : Notification.dec (.arr l) = some n) :
    ∃ x y, (l = [x, y] ∨ ∃ z, l = [x, y, z]) ∧ TagLike x := by
  simp only [Notification.dec, Option.or_eq_some_iff, Option.map_eq_some_iff] at h
  rcases h with ⟨a, h, _⟩ | ⟨_, ⟨a, h, _⟩ | ⟨_, ⟨a, h, _⟩ | ⟨_, a, h, _⟩⟩⟩
  · obtain ⟨x, y, rfl, hx⟩ := adj_arr _ _ _ h; exact ⟨x, y, .inl rfl, hx⟩
  · obtain ⟨x, y, rfl, hx⟩ := adj_arr _ _ _ h; exact ⟨x, y, .inl rfl, hx⟩
  · obtain ⟨x, y, z, rfl, hx⟩ := progress_arr _ _ h; exact ⟨x, y, .inr ⟨z, rfl⟩, hx⟩
  · obtain ⟨x, y, rfl, hx⟩ := cancelled_arr _ _ h; exact ⟨x, y, .inl rfl, hx⟩

theorem tmsg_arr (l : List Json) : TMsg.dec (.arr l) = (Notification.dec (.arr l)).map .notification := by
  simp [TMsg.dec, decReqVariant, RpcResponse.dec]

/-- **C150** (streamable HTTP, first part). Whatever the streamable HTTP transport accepts is an object or an
array; an array is never taken for a request or a response, only for a notification, and then it has two or
three entries starting with a name or an identifier. Missing from the property: arrays are not refused
altogether. -/
theorem C150_http_partial (j : Json) (m : TMsg) (h : TMsg.dec j = some m) :
    (∃ f, j = .obj f) ∨
      ∃ n l, m = .notification n ∧ j = .arr l ∧ ∃ x y, (l = [x, y] ∨ ∃ z, l = [x, y, z]) ∧ TagLike x := by
  cases j with
  | obj f => exact .inl ⟨f, rfl⟩
  | arr l =>
    rw [tmsg_arr, Option.map_eq_some_iff] at h
    obtain ⟨n, hn, rfl⟩ := h
    exact .inr ⟨n, l, rfl, rfl, notification_arr l n hn⟩
  | _ => simp [TMsg.dec, decReqVariant, RpcResponse.dec, Notification.dec, ClientNotification.dec,
      ServerNotification.dec, decAdj, Progress.dec, Cancelled.dec, src] at h

/-- An array of a name and a value is a notification: a message in array form. -/
example : TMsg.dec (.arr [.str "notifications/initialized", .null]) = some (.notification (.client .initialized)) := rfl

/-- **C150** (refuted for streamable HTTP). An array naming an unknown notification is taken for a cancellation
of the request of that name. -/
theorem C150_array_is_message : ∃ l p, TMsg.dec (.arr l) = some (.notification (.cancelled p)) ∧
    p.requestId = .str "notifications/unknown" :=
  ⟨[.str "notifications/unknown", .null], ⟨.str "notifications/unknown", none⟩, rfl, rfl⟩

/-- **C150**. A pair is read as a method and its parameters, and if that is no notification as the identifier
and the reason of a cancellation: in both cases as the object with these members is. -/
theorem C150_pairs (x y : Json) : TMsg.dec (.arr [x, y]) =
    ((Notification.dec (.obj [("method", x), ("params", y)])).map TMsg.notification).or
      ((Cancelled.dec (.obj [("requestId", x), ("reason", y)])).map (fun p => .notification (.cancelled p))) := by
  have h1 : Progress.dec (.arr [x, y]) = none := by
    cases h : Progress.dec (.arr [x, y]) with
    | none => rfl
    | some p => obtain ⟨a, b, c, he, _⟩ := progress_arr _ _ h; simp at he
  have h2 : Progress.dec (.obj [("method", x), ("params", y)]) = none := by
    simp [Progress.dec, AMap.get_cons]
  have h3 : Cancelled.dec (.obj [("method", x), ("params", y)]) = none := by
    simp [Cancelled.dec, AMap.get_cons]
  have h4 : Cancelled.dec (.arr [x, y]) = Cancelled.dec (.obj [("requestId", x), ("reason", y)]) := by
    simp [Cancelled.dec, src, req, opt, AMap.get_cons, optOf]
  have h5 (α : Type) (t : String → Option (Variant α)) : decAdj t (.obj [("method", x), ("params", y)]) =
      decAdj t (.arr [x, y]) := by
    simp [decAdj, AMap.get_cons]
  rw [tmsg_arr]
  simp only [Notification.dec, ClientNotification.dec, ServerNotification.dec, h1, h2, h3, h4, h5]
  cases decAdj (AMap.get ClientNotification.table) (.arr [x, y]) <;>
    cases decAdj (AMap.get ServerNotification.table) (.arr [x, y]) <;>
    cases Cancelled.dec (.obj [("requestId", x), ("reason", y)]) <;> rfl

/-- **C150**. A triple is read as the token, the value and the message of a progress notification. -/
theorem C150_triples (x y z : Json) : TMsg.dec (.arr [x, y, z]) =
    (Progress.dec (.obj [("progressToken", x), ("progress", y), ("message", z)])).map
      (fun p => .notification (.progress p)) := by
  have h1 : Cancelled.dec (.arr [x, y, z]) = none := by
    cases h : Cancelled.dec (.arr [x, y, z]) with
    | none => rfl
    | some p => obtain ⟨a, b, he, _⟩ := cancelled_arr _ _ h; simp at he
  have h2 (α : Type) (t : String → Option (Variant α)) : decAdj t (.arr [x, y, z]) = none := by simp [decAdj]
  have h4 : Progress.dec (.arr [x, y, z]) =
      Progress.dec (.obj [("progressToken", x), ("progress", y), ("message", z)]) := by
    simp [Progress.dec, src, req, opt, AMap.get_cons, optOf]
  rw [tmsg_arr]
  simp only [Notification.dec, ClientNotification.dec, ServerNotification.dec, h1, h2, h4]
  cases Progress.dec (.obj [("progressToken", x), ("progress", y), ("message", z)]) <;> rfl

example : ∃ p, TMsg.dec (.arr [.str "t", .num (.int 1), .str "half"]) = some (.notification (.progress p)) ∧
    p.token = .str "t" ∧ p.message = some "half" := ⟨_, rfl, rfl, rfl⟩

/-- **C150**. A batch posted to the streamable HTTP server is refused as a whole, none of its messages is taken:
it is an array whose entries are objects with a version and some other member. -/
theorem C150_batch_refused (l : List Json)
    (h : ∀ j ∈ l, ∃ f, j = .obj f ∧ ∃ k v, AMap.get f "jsonrpc" = some v ∧ k ≠ "jsonrpc" ∧ (AMap.get f k).isSome) :
    TMsg.dec (.arr l) = none ∧ parseMessage (.arr l) = none := by
  constructor
  · cases hd : TMsg.dec (.arr l) with
    | none => rfl
    | some m =>
      rcases C150_http_partial _ _ hd with ⟨f, hf⟩ | ⟨n, l', _, hl, x, y, hxy, ht⟩
      · simp at hf
      · cases hl
        have hx : x ∈ l := by rcases hxy with rfl | ⟨z, rfl⟩ <;> simp
        obtain ⟨f, rfl, k, v, hv, hk, hs⟩ := h x hx
        exfalso
        match f, ht with
        | [(a, .null)], _ =>
          simp only [AMap.get_cons] at hv hs
          split at hv
          · next he => subst he; simp [Ne.symm hk] at hs
          · simp at hv
  · cases hd : parseMessage (.arr l) with
    | none => rfl
    | some m => obtain ⟨f, hf⟩ := C150_parse_message _ _ hd; simp at hf

example : ∀ j ∈ [(createRequest (.str "1") (.client .ping)).enc, (createRequest (.str "2") (.client .ping)).enc],
    ∃ f, j = .obj f ∧ ∃ k v, AMap.get f "jsonrpc" = some v ∧ k ≠ "jsonrpc" ∧ (AMap.get f k).isSome := by
  intro j hj
  simp only [List.mem_cons, List.not_mem_nil, or_false] at hj
  rcases hj with rfl | rfl <;> exact ⟨_, rfl, "method", _, rfl, by decide, rfl⟩

end Verif.Wire
