import Verif.Wire.Props

/-
What the parser tolerates: omitted parameters, unknown members and the order of members (C99, C101).
-/

namespace Verif.Wire

/-! ### C99: omitted parameters -/

/-- Reading `null` with each of the tables: only unit variants take it. -/
theorem client_entries : ∀ p ∈ ClientRequest.table, ∀ r, p.2.read (some .null) = some r → p.1 = "ping" ∧ r = .ping := by
  intro p hp r h
  simp only [ClientRequest.table, List.mem_cons, List.not_mem_nil, or_false] at hp
  rcases hp with rfl | rfl | rfl | rfl | rfl | rfl | rfl | rfl | rfl | rfl | rfl | rfl | rfl | rfl | rfl <;>
    first
      | (exact ⟨rfl, (Option.some.inj h).symm⟩)
      | (exact absurd (show (none : Option _) = some r from h) (by simp))

theorem server_entries : ∀ p ∈ ServerRequest.table, ∀ r, p.2.read (some .null) = some r →
    p.1 = "roots/list" ∧ r = .listRoots := by
  intro p hp r h
  simp only [ServerRequest.table, List.mem_cons, List.not_mem_nil, or_false] at hp
  rcases hp with rfl | rfl | rfl <;>
    first
      | (exact ⟨rfl, (Option.some.inj h).symm⟩)
      | (exact absurd (show (none : Option _) = some r from h) (by simp))

theorem client_null (m : String) (r : ClientRequest) :
    (AMap.get ClientRequest.table m).bind (fun v => v.read (some .null)) = some r ↔ m = "ping" ∧ r = .ping := by
  constructor
  · intro h
    rw [Option.bind_eq_some_iff] at h
    obtain ⟨v, hv, hr⟩ := h
    exact client_entries _ (AMap.mem_of_get hv) r hr
  · rintro ⟨rfl, rfl⟩
    simp [ClientRequest.table, AMap.get_cons, Variant.read]

theorem server_null (m : String) (r : ServerRequest) :
    (AMap.get ServerRequest.table m).bind (fun v => v.read (some .null)) = some r ↔ m = "roots/list" ∧ r = .listRoots := by
  constructor
  · intro h
    rw [Option.bind_eq_some_iff] at h
    obtain ⟨v, hv, hr⟩ := h
    exact server_entries _ (AMap.mem_of_get hv) r hr
  · rintro ⟨rfl, rfl⟩
    simp [ServerRequest.table, AMap.get_cons, Variant.read]

/-- **C99** (exact form). A request without parameters is understood exactly if it is `ping` or `roots/list`.
Missing from the property: the list requests, whose only parameter is optional. -/
theorem C99_omitted_params_partial (v : String) (id : Id) (m : String) (q : Request) :
    parseRequest ⟨v, id, m, none⟩ = some (id, q) ↔
      (m = "ping" ∧ q = .client .ping) ∨ (m = "roots/list" ∧ q = .server .listRoots) := by
  simp only [parseRequest, Option.getD_none, decClient_tag, decServer_tag]
  have hc := client_null m
  have hs := server_null m
  cases h1 : (AMap.get ClientRequest.table m).bind (fun v => v.read (some .null)) with
  | some c =>
    obtain ⟨rfl, rfl⟩ := (hc c).mp h1
    simp [eq_comm]
  | none =>
    have hp : m ≠ "ping" := by
      intro hm
      have := (hc .ping).mpr ⟨hm, rfl⟩
      rw [h1] at this; cases this
    cases h2 : (AMap.get ServerRequest.table m).bind (fun v => v.read (some .null)) with
    | some s =>
      obtain ⟨rfl, rfl⟩ := (hs s).mp h2
      simp [eq_comm]
    | none =>
      have hr : m ≠ "roots/list" := by
        intro hm
        have := (hs .listRoots).mpr ⟨hm, rfl⟩
        rw [h2] at this; cases this
      simp [hp, hr]

example : parseRequest ⟨"2.0", .str "1", "ping", none⟩ = some (.str "1", .client .ping) :=
  (C99_omitted_params_partial _ _ _ _).mpr (.inl ⟨rfl, rfl⟩)

/-- **C99** fails for each list request: without parameters it is an unknown method, with `{}` it is understood. -/
theorem C99_list_needs_params (v : String) (id : Id) (m : String)
    (h : m = "tools/list" ∨ m = "prompts/list" ∨ m = "resources/list" ∨ m = "resources/templates/list") :
    parseRequest ⟨v, id, m, none⟩ = none ∧ (parseRequest ⟨v, id, m, some (.obj [])⟩).isSome := by
  constructor
  · cases hp : parseRequest ⟨v, id, m, none⟩ with
    | none => rfl
    | some p =>
      obtain ⟨i, q⟩ := p
      have hi : i = id := by
        simp only [parseRequest] at hp
        split at hp
        · cases hp; rfl
        · split at hp <;> cases hp; rfl
      subst hi
      rcases (C99_omitted_params_partial v i m q).mp hp with ⟨rfl, _⟩ | ⟨rfl, _⟩ <;> simp at h
  · rcases h with rfl | rfl | rfl | rfl <;>
      simp [parseRequest, decClient_tag, ClientRequest.table, AMap.get_cons, Variant.read, ListParams.dec]

/-- **C99**, the other way round: a ping with parameters, be they empty, is refused. -/
theorem C99_ping_refuses_params (v : String) (id : Id) (j : Json) (h : j ≠ .null) :
    parseRequest ⟨v, id, "ping", some j⟩ = none := by
  have h1 : Variant.read (.unit ClientRequest.ping) (some j) = none := by cases j <;> simp_all [Variant.read]
  simp [parseRequest, decClient_tag, decServer_tag, ClientRequest.table, ServerRequest.table, AMap.get_cons, h1]

example : parseRequest ⟨"2.0", .str "1", "ping", some (.obj [])⟩ = none := C99_ping_refuses_params _ _ _ (by simp)

/-! ### C101: unknown members and the order of members -/

/-- The members a message is made of. (Specification: no counterpart in the code.) -/
def members : List String := ["jsonrpc", "id", "method", "params", "result", "error"]

theorem parse_congr (f g : List (String × Json)) (h : ∀ k ∈ members, AMap.get f k = AMap.get g k)
    (hp : Payload.dec f = Payload.dec g) : parseMessage (.obj f) = parseMessage (.obj g) := by
  have a1 := h "jsonrpc" (by simp [members])
  have a2 := h "id" (by simp [members])
  have a3 := h "method" (by simp [members])
  have a4 := h "params" (by simp [members])
  have a5 := h "result" (by simp [members])
  have a6 := h "error" (by simp [members])
  have e1 : RpcRequest.dec (.obj f) = RpcRequest.dec (.obj g) := by
    simp only [RpcRequest.dec, src_obj, Option.bind_eq_bind, Option.bind_some, req_obj, opt_obj, a1, a2, a3, a4]
  have e2 : RpcNotification.dec (.obj f) = RpcNotification.dec (.obj g) := by
    simp only [RpcNotification.dec, src_obj, Option.bind_eq_bind, Option.bind_some, req_obj, opt_obj, a1, a3, a4]
  have e3 : RpcResponse.dec (.obj f) = RpcResponse.dec (.obj g) := by
    simp only [RpcResponse.dec, req_obj, a1, a2, hp]
  simp only [parseMessage, vget, a2, a3, a5, a6, e1, e3, parseNotification, e2]
  rfl

theorem payload_skip (f g : List (String × Json)) (h : ∀ p ∈ g, p.1 ∉ members) : Payload.dec (f ++ g) = Payload.dec f := by
  have hg : Payload.dec g = none := by
    induction g with
    | nil => rfl
    | cons p g ih =>
      obtain ⟨k, j⟩ := p
      have := h (k, j) (by simp)
      simp only [members, List.mem_cons, not_or] at this
      simp only [Payload.dec, this, if_false]
      exact ih (fun p hp => h p (by simp [hp]))
  induction f with
  | nil => simpa [Payload.dec] using hg
  | cons p f ih =>
    obtain ⟨k, j⟩ := p
    simp only [List.cons_append, Payload.dec, ih]

/-- **C101**. Members with other names do not change what a message is. -/
theorem C101_unknown_members_ignored (f g : List (String × Json)) (h : ∀ p ∈ g, p.1 ∉ members) :
    parseMessage (.obj (f ++ g)) = parseMessage (.obj f) := by
  refine parse_congr _ _ (fun k hk => ?_) (payload_skip f g h)
  refine get_append_left f g k (fun hc => ?_)
  rw [List.mem_map] at hc
  obtain ⟨p, hp, rfl⟩ := hc
  exact h p hp hk

example : ∀ p ∈ [("_meta", Json.obj [("trace", .str "1")])], p.1 ∉ members := by simp [members]

theorem get_perm (f g : List (String × Json)) (hn : (f.map (·.1)).Nodup) (hp : f.Perm g) (k : String) :
    AMap.get f k = AMap.get g k := by
  induction hp with
  | nil => rfl
  | cons p _ ih =>
    obtain ⟨a, v⟩ := p
    rw [AMap.get_cons, AMap.get_cons, ih (List.nodup_cons.mp hn).2]
  | swap p q l =>
    obtain ⟨a, v⟩ := p
    obtain ⟨b, w⟩ := q
    have : b ≠ a := by
      have := (List.nodup_cons.mp hn).1
      simp only [List.map_cons, List.mem_cons, not_or] at this
      exact this.1
    rw [AMap.get_cons, AMap.get_cons, AMap.get_cons, AMap.get_cons]
    by_cases h1 : a = k
    · rw [if_pos h1, if_neg (fun h => this (h.trans h1.symm)), if_pos h1]
    · simp only [if_neg h1]
  | trans h1 h2 ih1 ih2 =>
    rw [ih1 hn, ih2 (by exact (h1.map (·.1)).nodup_iff.mp hn)]

theorem payload_result (f : List (String × Json)) (h : AMap.get f "error" = none) :
    Payload.dec f = (AMap.get f "result").map .result := by
  induction f with
  | nil => rfl
  | cons p f ih =>
    obtain ⟨a, x⟩ := p
    rw [AMap.get_cons] at h
    rw [AMap.get_cons]
    simp only [Payload.dec]
    by_cases h1 : a = "result"
    · simp [h1]
    · rw [if_neg h1, if_neg h1]
      by_cases h2 : a = "error"
      · rw [if_pos h2] at h; cases h
      · rw [if_neg h2] at h ⊢; exact ih h

theorem payload_error (f : List (String × Json)) (h : AMap.get f "result" = none) :
    Payload.dec f = (AMap.get f "error").bind (fun j => (RpcError.dec j).map .error) := by
  induction f with
  | nil => rfl
  | cons p f ih =>
    obtain ⟨a, x⟩ := p
    rw [AMap.get_cons] at h
    rw [AMap.get_cons]
    simp only [Payload.dec]
    by_cases h1 : a = "result"
    · rw [if_pos h1] at h; cases h
    · rw [if_neg h1] at h
      rw [if_neg h1]
      by_cases h2 : a = "error"
      · simp [h2]
      · rw [if_neg h2, if_neg h2]; exact ih h

/-- **C101**. The order of the members does not matter, unless both a result and an error are present. Missing:
with both, the first one decides (`C101_order_matters`). -/
theorem C101_order_irrelevant_partial (f g : List (String × Json)) (hn : (f.map (·.1)).Nodup) (hp : f.Perm g)
    (h : AMap.get f "result" = none ∨ AMap.get f "error" = none) : parseMessage (.obj f) = parseMessage (.obj g) := by
  have hk := get_perm f g hn hp
  refine parse_congr _ _ (fun k _ => hk k) ?_
  rcases h with h | h
  · rw [payload_error f h, payload_error g (by rw [← hk]; exact h), hk]
  · rw [payload_result f h, payload_result g (by rw [← hk]; exact h), hk]

example : ([("jsonrpc", Json.str "2.0"), ("id", .str "1"), ("result", .null)].map (·.1)).Nodup := by decide

/-- With a result and an error the order decides whether the call succeeded. -/
theorem C101_order_matters :
    let e := Json.obj [("code", .num (.int 1)), ("message", .str "no")]
    let i := ("id", Json.str "1")
    let v := ("jsonrpc", Json.str "2.0")
    (∃ m, parseMessage (.obj [v, i, ("result", .null), ("error", e)]) = some (.response ⟨"2.0", .str "1", .result m⟩)) ∧
    (∃ m, parseMessage (.obj [v, i, ("error", e), ("result", .null)]) = some (.response ⟨"2.0", .str "1", .error m⟩)) :=
  ⟨⟨_, rfl⟩, ⟨_, rfl⟩⟩

/-- Members that say `null` count: a successful response that also says `"error": null` first is refused. -/
theorem C101_null_error_refused :
    parseMessage (.obj [("jsonrpc", .str "2.0"), ("id", .str "1"), ("error", .null), ("result", .bool true)]) = none := rfl

/-- A parse error answered without an id (`"id": null`, as JSON-RPC prescribes) is refused. -/
theorem C101_null_id_refused (f : List (String × Json)) (h : AMap.get f "id" = some .null) :
    parseMessage (.obj f) = none := by
  have hi : Id.dec .null = none := rfl
  have h1 : RpcRequest.dec (.obj f) = none := by
    simp only [RpcRequest.dec, src_obj, Option.bind_eq_bind, Option.bind_some, req_obj, h, hi]
    simp
  have h2 : RpcResponse.dec (.obj f) = none := by
    simp only [RpcResponse.dec, req_obj, h, Option.bind_some, hi]
    simp
  simp [parseMessage, vget, h, h1, h2]

example : AMap.get [("jsonrpc", Json.str "2.0"), ("id", .null), ("error", .obj [])] "id" = some .null := rfl

end Verif.Wire
