import Verif.Wire.Lemmas

/-
The JSON form of batches: C207.

Models /repo/src/shared/batch.rs L12-29 (the untagged enums), L33-74 and L88-92.
-/

namespace Verif.Wire

/-- `BatchRequest`, /repo/src/shared/batch.rs L12-19. -/
inductive BatchRequest where
  | single (r : RpcRequest)
  | batch (rs : List RpcRequest)

/-- `BatchResponse`, /repo/src/shared/batch.rs L22-29. -/
inductive BatchResponse where
  | single (r : RpcResponse)
  | batch (rs : List RpcResponse)

/-- `BatchRequest::to_value`, /repo/src/shared/batch.rs L38-42. -/
def BatchRequest.enc : BatchRequest → Json
  | .single r => r.enc
  | .batch rs => encList RpcRequest.enc rs

/-- `BatchRequest::from_value`: the variants of the untagged enum are tried in order, /repo/src/shared/batch.rs L12-19,
L33-36. -/
def BatchRequest.dec (j : Json) : Option BatchRequest :=
  match RpcRequest.dec j with
  | some r => some (.single r)
  | none => (decList RpcRequest.dec j).map .batch

/-- `BatchResponse::to_value`, /repo/src/shared/batch.rs L88-92. -/
def BatchResponse.enc : BatchResponse → Json
  | .single r => r.enc
  | .batch rs => encList RpcResponse.enc rs

/-- Derived `Deserialize` of `BatchResponse`, /repo/src/shared/batch.rs L22-29. -/
def BatchResponse.dec (j : Json) : Option BatchResponse :=
  match RpcResponse.dec j with
  | some r => some (.single r)
  | none => (decList RpcResponse.dec j).map .batch

/-- `is_batch`, /repo/src/shared/batch.rs L45-47. -/
def BatchRequest.isBatch : BatchRequest → Bool
  | .single _ => false
  | .batch _ => true

/-- `len`, /repo/src/shared/batch.rs L58-63. -/
def BatchRequest.len : BatchRequest → Nat
  | .single _ => 1
  | .batch rs => rs.length

/-- `is_empty`, /repo/src/shared/batch.rs L66-71. -/
def BatchRequest.isEmpty : BatchRequest → Bool
  | .single _ => false
  | .batch rs => rs.isEmpty

/-! ### C207 -/

/-- The JSON value is an object. (Specification: no counterpart in the code.) -/
def IsObj (j : Json) : Prop := ∃ f, j = .obj f

theorem request_arr (l : List Json) (h : ∀ j ∈ l, IsObj j) : RpcRequest.dec (.arr l) = none := by
  simp only [RpcRequest.dec, src]
  split
  · cases l with
    | nil => rfl
    | cons j l =>
      obtain ⟨f, rfl⟩ := h j (by simp)
      rfl
  · rfl

theorem response_arr (l : List Json) : RpcResponse.dec (.arr l) = none := rfl

/-- C207: what the library writes as a request or a batch of requests, it reads as the same. -/
theorem C207_requests (b : BatchRequest) (h : match b with
      | .single r => r.params ≠ some .null
      | .batch rs => ∀ r ∈ rs, r.params ≠ some .null) : BatchRequest.dec b.enc = some b := by
  cases b with
  | single r => simp [BatchRequest.dec, BatchRequest.enc, RpcRequest.dec_enc r h]
  | batch rs =>
    have h1 : RpcRequest.dec (encList RpcRequest.enc rs) = none :=
      request_arr _ (by
        intro j hj
        obtain ⟨r, _, rfl⟩ := List.mem_map.mp hj
        exact ⟨_, rfl⟩)
    simp only [BatchRequest.dec, BatchRequest.enc, h1]
    rw [decList_enc _ _ _ (fun r hr => RpcRequest.dec_enc r (h r hr))]
    rfl

example := C207_requests (.batch [⟨"2.0", .str "a", "ping", none⟩, ⟨"2.0", .str "b", "tools/list", some (.obj [])⟩])
  (by simp)

/-- C207: the same for responses. -/
theorem C207_responses (b : BatchResponse) (h : match b with
      | .single r => r.Ok
      | .batch rs => ∀ r ∈ rs, r.Ok) : BatchResponse.dec b.enc = some b := by
  cases b with
  | single r => simp [BatchResponse.dec, BatchResponse.enc, RpcResponse.rt r h]
  | batch rs =>
    simp only [BatchResponse.dec, BatchResponse.enc, encList, response_arr]
    rw [show decList RpcResponse.dec (.arr (rs.map RpcResponse.enc)) = some rs from
      decList_enc _ _ _ (fun r hr => RpcResponse.rt r (h r hr))]
    rfl

example := C207_responses (.batch [⟨"2.0", .str "a", .result .null⟩, ⟨"2.0", .str "b", .error ⟨⟨-32601, by decide⟩, "m", none⟩⟩])
  (by simp [RpcResponse.Ok, RpcError.Ok])

theorem decAll_some {α : Type} (d : Json → Option α) : ∀ (l : List Json) (as : List α), decAll d l = some as ↔
    l.map d = as.map some := by
  intro l
  induction l with
  | nil =>
    intro as
    cases as <;> simp [decAll]
  | cons j l ih =>
    intro as
    cases as with
    | nil =>
      simp only [decAll, List.map_cons, List.map_nil]
      constructor
      · intro h
        cases hd : d j with
        | none => rw [hd] at h; cases h
        | some a =>
          rw [hd] at h
          simp only [Option.bind_some, Option.map_eq_some_iff] at h
          obtain ⟨_, _, h⟩ := h
          cases h
      · intro h; cases h
    | cons a as =>
      simp only [decAll, List.map_cons, List.cons.injEq]
      rw [← ih as]
      cases d j with
      | none => simp
      | some b =>
        simp only [Option.bind_some, Option.map_eq_some_iff, List.cons.injEq, Option.some.injEq]
        constructor
        · rintro ⟨x, hx, rfl, rfl⟩; exact ⟨rfl, hx⟩
        · rintro ⟨rfl, hx⟩; exact ⟨as, hx, rfl, rfl⟩

/-- C207, exactly: an array of objects is understood if and only if each member is a request with an id, and then as the
batch of these.

Partial: a batch with a notification or with one broken member is refused as a whole (`C207_notification_refused`,
`C207_broken_refused`). -/
theorem C207_understood_partial (l : List Json) (h : ∀ j ∈ l, IsObj j) (b : BatchRequest) :
    BatchRequest.dec (.arr l) = some b ↔ ∃ rs, b = .batch rs ∧ l.map RpcRequest.dec = rs.map some := by
  simp only [BatchRequest.dec, request_arr l h, decList, Option.map_eq_some_iff, decAll_some]
  constructor
  · rintro ⟨rs, h1, rfl⟩; exact ⟨rs, rfl, h1⟩
  · rintro ⟨rs, rfl, h1⟩; exact ⟨rs, h1, rfl⟩

/-- C207 fails: one member that is no request makes the whole batch unreadable, so none of the others is answered. -/
theorem C207_broken_refused (l : List Json) (h : ∀ j ∈ l, IsObj j) (j : Json) (hj : j ∈ l)
    (hb : RpcRequest.dec j = none) : BatchRequest.dec (.arr l) = none := by
  cases hd : BatchRequest.dec (.arr l) with
  | none => rfl
  | some b =>
    obtain ⟨rs, _, hm⟩ := (C207_understood_partial l h b).mp hd
    have : RpcRequest.dec j ∈ rs.map some := hm ▸ List.mem_map_of_mem hj
    rw [hb] at this
    obtain ⟨_, _, e⟩ := List.mem_map.mp this
    cases e

/-- C207 fails: a batch with a notification, which has no id, is refused. -/
theorem C207_notification_refused (l : List Json) (h : ∀ j ∈ l, IsObj j) (n : RpcNotification) (hn : n.enc ∈ l) :
    BatchRequest.dec (.arr l) = none := by
  refine C207_broken_refused l h _ hn ?_
  obtain ⟨v, m, p⟩ := n
  cases p <;> rfl

example := C207_notification_refused
  [RpcRequest.enc ⟨"2.0", .str "a", "ping", none⟩, RpcNotification.enc ⟨"2.0", "notifications/initialized", none⟩]
  (by intro j hj; simp only [List.mem_cons, List.not_mem_nil, or_false] at hj; rcases hj with rfl | rfl <;> exact ⟨_, rfl⟩)
  ⟨"2.0", "notifications/initialized", none⟩ (by simp)

/-- C207 fails: an array that is no batch of requests can be read as one request: that of its members in order. -/
theorem C207_array_single (v m : String) (i : Id) (p : Json) :
    ∃ r, BatchRequest.dec (.arr [.str v, i.enc, .str m, p]) = some (.single r) ∧ r.jsonrpc = v ∧ r.id = i ∧
      r.method = m := by
  have hp : ∃ d, decOpt decVal p = some d := by cases p <;> exact ⟨_, rfl⟩
  obtain ⟨d, hd⟩ := hp
  have : RpcRequest.dec (.arr [.str v, i.enc, .str m, p]) = some ⟨v, i, m, d⟩ := by
    simp [RpcRequest.dec, src, req, opt, hd, decStr]
  exact ⟨⟨v, i, m, d⟩, by simp [BatchRequest.dec, this], rfl, rfl, rfl⟩

/-- C207: `len`, `is_empty` and `is_batch` tell what was sent: an array of objects is a batch of as many requests, an
object is one request. -/
theorem C207_shape (j : Json) (b : BatchRequest) (h : BatchRequest.dec j = some b) :
    (∀ f, j = .obj f → b.isBatch = false ∧ b.len = 1 ∧ b.isEmpty = false) ∧
    (∀ l, j = .arr l → (∀ x ∈ l, IsObj x) → b.isBatch = true ∧ b.len = l.length ∧ b.isEmpty = l.isEmpty) := by
  constructor
  · rintro f rfl
    simp only [BatchRequest.dec] at h
    cases hr : RpcRequest.dec (.obj f) with
    | some r => rw [hr] at h; cases h; exact ⟨rfl, rfl, rfl⟩
    | none => rw [hr] at h; cases h
  · rintro l rfl ho
    obtain ⟨rs, rfl, hm⟩ := (C207_understood_partial l ho b).mp h
    have hl : rs.length = l.length := by
      have := congrArg List.length hm
      simpa using this.symm
    refine ⟨rfl, hl, ?_⟩
    cases rs <;> cases l <;> first | rfl | cases hl

end Verif.Wire
