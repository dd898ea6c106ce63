import Verif.Wire.Tolerance

/-
The protocol version of JSON-RPC messages: who looks at the member `jsonrpc` (C230).
-/

namespace Verif.Wire

/-- `JSONRPCRequest::validate` (types/jsonrpc.rs L140-149): whether it returns `Ok`; the text of its error is left
out. Nothing in the crate calls it. -/
def RpcRequest.validate (r : RpcRequest) : Bool := r.jsonrpc == "2.0"

/-- A message with the version it came with: only responses keep it (shared/transport.rs L64-78).
(Specification: no counterpart in the code.) -/
def TMsg.withVersion (v : String) : TMsg → TMsg
  | .response r => .response { r with jsonrpc := v }
  | m => m

theorem get_version (x : Json) (f : List (String × Json)) : AMap.get (("jsonrpc", x) :: f) "jsonrpc" = some x := by
  simp [AMap.get_cons]

theorem get_rest (x : Json) (f : List (String × Json)) (k : String) (h : k ≠ "jsonrpc") :
    AMap.get (("jsonrpc", x) :: f) k = AMap.get f k := by
  rw [AMap.get_cons, if_neg h.symm]

theorem payload_version (x : Json) (f : List (String × Json)) : Payload.dec (("jsonrpc", x) :: f) = Payload.dec f := by
  simp [Payload.dec]

/-- **C230** (what the parser asks for). Whatever `parse_message` accepts has a member `jsonrpc` that is a string;
a response keeps it. -/
theorem C230_version_needed (j : Json) (m : TMsg) (h : parseMessage j = some m) :
    ∃ f v, j = .obj f ∧ AMap.get f "jsonrpc" = some (.str v) ∧ m.withVersion v = m := by
  cases j with
  | obj f =>
    have hs : ∀ {x : Json} {v : String}, decStr x = some v → x = .str v := by
      intro x v hx; cases x <;> simp_all [decStr]
    refine ⟨f, ?_⟩
    simp only [parseMessage] at h
    split at h
    · split at h
      · simp only [Option.bind_eq_bind, Option.bind_eq_some_iff] at h
        obtain ⟨r, hr, q, -, hq⟩ := h
        simp only [RpcRequest.dec, src_obj, Option.bind_eq_bind, Option.bind_some, Option.bind_eq_some_iff, req_obj] at hr
        obtain ⟨v, ⟨x, hx, hv⟩, -⟩ := hr
        refine ⟨v, rfl, by rw [hx, hs hv], ?_⟩
        cases hq; rfl
      · rw [Option.map_eq_some_iff] at h
        obtain ⟨n, hn, rfl⟩ := h
        simp only [parseNotification, RpcNotification.dec, src_obj, Option.bind_eq_bind, Option.bind_some,
          Option.bind_eq_some_iff, req_obj] at hn
        obtain ⟨r, ⟨v, ⟨x, hx, hv⟩, -⟩, -⟩ := hn
        exact ⟨v, rfl, by rw [hx, hs hv], rfl⟩
    · split at h
      · rw [Option.map_eq_some_iff] at h
        obtain ⟨r, hr, rfl⟩ := h
        simp only [RpcResponse.dec, Option.bind_eq_bind, Option.bind_eq_some_iff, req_obj] at hr
        obtain ⟨v, ⟨x, hx, hv⟩, i, -, p, -, he⟩ := hr
        refine ⟨v, rfl, by rw [hx, hs hv], ?_⟩
        cases he; rfl
      · cases h
  | _ => simp [parseMessage, vget] at h

example : ∃ m, parseMessage (.obj [("jsonrpc", .str "2.0"), ("id", .str "1"), ("method", .str "ping")]) = some m :=
  ⟨_, rfl⟩

/-- **C230** fails: the version is not looked at. With any other string a message is accepted or refused as before,
and read as the same message. -/
theorem C230_any_version (v w : String) (f : List (String × Json)) :
    parseMessage (.obj (("jsonrpc", .str w) :: f)) =
      (parseMessage (.obj (("jsonrpc", .str v) :: f))).map (TMsg.withVersion w) := by
  have g : ∀ (x : Json) k, k ≠ "jsonrpc" → AMap.get (("jsonrpc", x) :: f) k = AMap.get f k := fun x k => get_rest x f k
  have g1 : ∀ x, AMap.get (("jsonrpc", x) :: f) "method" = AMap.get f "method" := fun x => g x _ (by decide)
  have g2 : ∀ x, AMap.get (("jsonrpc", x) :: f) "id" = AMap.get f "id" := fun x => g x _ (by decide)
  have g3 : ∀ x, AMap.get (("jsonrpc", x) :: f) "result" = AMap.get f "result" := fun x => g x _ (by decide)
  have g4 : ∀ x, AMap.get (("jsonrpc", x) :: f) "error" = AMap.get f "error" := fun x => g x _ (by decide)
  have g5 : ∀ x, AMap.get (("jsonrpc", x) :: f) "params" = AMap.get f "params" := fun x => g x _ (by decide)
  have e1 : ∀ u, RpcRequest.dec (.obj (("jsonrpc", .str u) :: f)) =
      (RpcRequest.dec (.obj (("jsonrpc", .str "") :: f))).map (fun r => { r with jsonrpc := u }) := by
    intro u
    simp only [RpcRequest.dec, src_obj, Option.bind_eq_bind, Option.bind_some, req_obj, opt_obj, get_version, g1, g2, g5,
      decStr]
    cases (AMap.get f "id").bind Id.dec <;> simp
    cases (AMap.get f "method").bind decStr <;> simp
    cases optOf decVal (AMap.get f "params") <;> rfl
  have e2 : ∀ u, RpcNotification.dec (.obj (("jsonrpc", .str u) :: f)) =
      (RpcNotification.dec (.obj (("jsonrpc", .str "") :: f))).map (fun r => { r with jsonrpc := u }) := by
    intro u
    simp only [RpcNotification.dec, src_obj, Option.bind_eq_bind, Option.bind_some, req_obj, opt_obj, get_version, g1, g5,
      decStr]
    cases (AMap.get f "method").bind decStr <;> simp
    cases optOf decVal (AMap.get f "params") <;> rfl
  have e3 : ∀ u, RpcResponse.dec (.obj (("jsonrpc", .str u) :: f)) =
      (RpcResponse.dec (.obj (("jsonrpc", .str "") :: f))).map (fun r => { r with jsonrpc := u }) := by
    intro u
    simp only [RpcResponse.dec, Option.bind_eq_bind, Option.bind_some, req_obj, get_version, g2, payload_version, decStr]
    cases (AMap.get f "id").bind Id.dec <;> simp
    cases Payload.dec f <;> simp
  have e4 : ∀ u, parseNotification (.obj (("jsonrpc", .str u) :: f)) =
      parseNotification (.obj (("jsonrpc", .str "") :: f)) := by
    intro u
    simp only [parseNotification, e2 u, Option.bind_eq_bind]
    cases RpcNotification.dec (.obj (("jsonrpc", .str "") :: f)) <;> rfl
  simp only [parseMessage, vget, g1, g2, g3, g4, e4 w, e4 v, e1 w, e1 v, e3 w, e3 v]
  split
  · split
    · cases RpcRequest.dec (.obj (("jsonrpc", .str "") :: f)) with
      | none => rfl
      | some r =>
        have : ∀ u, parseRequest { r with jsonrpc := u } = parseRequest r := fun _ => rfl
        simp only [Option.map_some, Option.bind_eq_bind, Option.bind_some, this]
        cases parseRequest r <;> rfl
    · cases parseNotification (.obj (("jsonrpc", .str "") :: f)) <;> rfl
  · split
    · cases RpcResponse.dec (.obj (("jsonrpc", .str "") :: f)) <;> rfl
    · rfl

/-- **C230** (exact form). A message of another version is refused exactly if it would be refused with version 2.0,
too. Missing from the property: that its version is a reason to refuse it. -/
theorem C230_refused_partial (v : String) (f : List (String × Json)) :
    parseMessage (.obj (("jsonrpc", .str v) :: f)) = none ↔ parseMessage (.obj (("jsonrpc", .str "2.0") :: f)) = none := by
  rw [C230_any_version "2.0" v f, Option.map_eq_none_iff]

/-- A ping of version "1.0" is a ping; one without a method or result is refused in any version. -/
example : parseMessage (.obj [("jsonrpc", .str "1.0"), ("id", .str "1"), ("method", .str "ping")]) =
    some (.request (.str "1") (.client .ping)) := by
  rw [C230_any_version "2.0"]; rfl
example (v : String) : parseMessage (.obj [("jsonrpc", .str v), ("id", .str "1")]) = none := by
  rw [C230_refused_partial]; rfl

/-- **C230** (`validate`). There is a check: it accepts exactly version 2.0. But a request it refuses is parsed, like
any other. -/
theorem C230_validate_unused (r : RpcRequest) :
    (r.validate = true ↔ r.jsonrpc = "2.0") ∧
      ∀ v, parseRequest { r with jsonrpc := v } = parseRequest r ∧
        (v ≠ "2.0" → RpcRequest.validate { r with jsonrpc := v } = false) := by
  refine ⟨by simp [RpcRequest.validate], fun v => ⟨rfl, fun h => by simpa [RpcRequest.validate] using h⟩⟩

example : RpcRequest.validate ⟨"1.0", .str "1", "ping", none⟩ = false ∧
    parseRequest ⟨"1.0", .str "1", "ping", none⟩ = some (.str "1", .client .ping) := ⟨by decide, rfl⟩

/-- **C230** (streamable HTTP). There the version is asked for in responses only: in a message without `result` and
`error` the member may hold anything or be missing. -/
theorem C230_http_ignored (x : Json) (f : List (String × Json)) (h : Payload.dec f = none) :
    TMsg.dec (.obj (("jsonrpc", x) :: f)) = TMsg.dec (.obj f) := by
  have g : ∀ k, k ≠ "jsonrpc" → AMap.get (("jsonrpc", x) :: f) k = AMap.get f k := fun k => get_rest x f k
  have g1 := g "id" (by decide)
  have g2 := g "request" (by decide)
  have g3 := g "method" (by decide)
  have g4 := g "params" (by decide)
  have e1 : decReqVariant (.obj (("jsonrpc", x) :: f)) = decReqVariant (.obj f) := by
    simp only [decReqVariant, req_obj, g1, g2]
  have e2 : ∀ f, Payload.dec f = none → RpcResponse.dec (.obj f) = none := by
    intro f hf; simp only [RpcResponse.dec, hf]; simp
  have e3 : Notification.dec (.obj (("jsonrpc", x) :: f)) = Notification.dec (.obj f) := by
    have a1 := g "progressToken" (by decide)
    have a2 := g "progress" (by decide)
    have a3 := g "message" (by decide)
    have a4 := g "requestId" (by decide)
    have a5 := g "reason" (by decide)
    simp only [Notification.dec, ClientNotification.dec, ServerNotification.dec, decAdj, Progress.dec, Cancelled.dec,
      src_obj, Option.bind_eq_bind, Option.bind_some, req_obj, opt_obj, vget, g3, g4, a1, a2, a3, a4, a5]
  simp only [TMsg.dec, e1, e2 _ h, e2 _ (show Payload.dec (("jsonrpc", x) :: f) = none by rw [payload_version]; exact h), e3]

/-- The cancellation of a request, with the version a number. -/
example : ∃ m, TMsg.dec (.obj [("jsonrpc", .num (.int 1)), ("requestId", .str "1")]) = some m := by
  rw [C230_http_ignored _ _ rfl]
  exact ⟨_, rfl⟩

end Verif.Wire
