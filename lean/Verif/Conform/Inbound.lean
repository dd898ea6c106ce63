import Verif.Conform.Answers
import Verif.Wire.Tolerance

/-
What the crate understands of the published schema: requests and notifications (C189-C191).

`parseMessage` models `StdioTransport::parse_message` (/repo/src/shared/stdio.rs L218-264).
-/

namespace Verif.Conform

open Verif Verif.Wire

/-! ### Reading the envelope -/

/-- A numeric id fits into 64 bits. (Specification: no counterpart in the code.) -/
def IdFits (f : List (String × Json)) : Prop :=
  ∀ n, AMap.get f "id" = some (.num (.int n)) → -2 ^ 63 ≤ n ∧ n < 2 ^ 63

theorem id_dec_iff (j : Json) (h : requestId j = true) :
    (Id.dec j).isSome ↔ ∀ n, j = .num (.int n) → -2 ^ 63 ≤ n ∧ n < 2 ^ 63 := by
  cases j with
  | str s => simp [Id.dec]
  | num k =>
    cases k with
    | int n =>
      simp only [Id.dec, decStr, decInt, Json.num.injEq, Num.int.injEq, forall_eq']
      by_cases hn : -2 ^ 63 ≤ n ∧ n < 2 ^ 63
      · simp [hn]
      · simp [hn]
    | flt q => simp [requestId, either, str, integer] at h
  | _ => simp [requestId, either, str, integer] at h

/-- What a well-formed request is read as, by its method and parameters. -/
theorem parse_request (f : List (String × Json)) (v m : String) (id : Id) (i : Json)
    (hj : AMap.get f "jsonrpc" = some (.str v)) (hi : AMap.get f "id" = some i) (hd : Id.dec i = some id)
    (hm : AMap.get f "method" = some (.str m)) :
    parseMessage (.obj f) =
      match (AMap.get ClientRequest.table m).bind (fun x => x.read (some ((AMap.get f "params").getD .null))) with
      | some c => some (.request id (.client c))
      | none => ((AMap.get ServerRequest.table m).bind
          (fun x => x.read (some ((AMap.get f "params").getD .null)))).map (fun s => .request id (.server s)) := by
  have hr : RpcRequest.dec (.obj f) =
      some ⟨v, id, m, match AMap.get f "params" with | none => none | some .null => none | some j => some j⟩ := by
    simp only [RpcRequest.dec, src_obj, Option.bind_eq_bind, Option.bind_some, req_obj, opt_obj, hj, hi, hm, decStr_str, hd]
    cases AMap.get f "params" with
    | none => rfl
    | some j => cases j <;> rfl
  have hp : (match AMap.get f "params" with | none => none | some .null => none | some j => some j : Option Json).getD .null =
      (AMap.get f "params").getD .null := by
    cases AMap.get f "params" with
    | none => rfl
    | some j => cases j <;> rfl
  have h1 : (vget (.obj f) "method").isSome = true := by simp [vget, hm]
  have h2 : (vget (.obj f) "id").isSome = true := by simp [vget, hi]
  unfold parseMessage
  rw [if_pos h1, if_pos h2, hr]
  simp only [Option.bind_eq_bind, Option.bind_some, parseRequest, hp]
  simp only [ClientRequest.dec, ServerRequest.dec, decAdj_tag]
  cases (AMap.get ClientRequest.table m).bind (fun x => x.read (some ((AMap.get f "params").getD .null))) with
  | some c => rfl
  | none =>
    cases (AMap.get ServerRequest.table m).bind (fun x => x.read (some ((AMap.get f "params").getD .null))) <;> rfl

/-- A request whose id does not fit is refused. -/
theorem parse_bad_id (f : List (String × Json)) (m : String) (i : Json) (hi : AMap.get f "id" = some i)
    (hd : Id.dec i = none) (hm : AMap.get f "method" = some (.str m)) : parseMessage (.obj f) = none := by
  have h1 : (vget (.obj f) "method").isSome = true := by simp [vget, hm]
  have h2 : (vget (.obj f) "id").isSome = true := by simp [vget, hi]
  unfold parseMessage
  rw [if_pos h1, if_pos h2]
  have : RpcRequest.dec (.obj f) = none := by
    simp only [RpcRequest.dec, src_obj, Option.bind_eq_bind, Option.bind_some, req_obj, hi, hd]
    cases (AMap.get f "jsonrpc").bind decStr <;> rfl
  rw [this]; rfl

/-- The members a valid request has. -/
theorem valid_request (t : List (String × Params)) (f : List (String × Json)) (h : request t (.obj f) = true) :
    AMap.get f "jsonrpc" = some (.str "2.0") ∧ (∃ i, AMap.get f "id" = some i ∧ requestId i = true) ∧
      ∃ m p, AMap.get f "method" = some (.str m) ∧ AMap.get t m = some p ∧ p.check f = true := by
  simp only [request, object_obj, List.all_cons, List.all_nil, Bool.and_true, Bool.and_eq_true, must, any_iff] at h
  obtain ⟨⟨v, hv, hv'⟩, hi, hc⟩ := h
  refine ⟨?_, hi, ?_⟩
  · rw [hv]; cases v <;> simp [oneOf] at hv'; rw [hv']
  · unfold called at hc
    split at hc
    · next m hm =>
      rw [any_iff] at hc
      obtain ⟨p, hp, hck⟩ := hc
      exact ⟨m, p, hm, hp, hck⟩
    · cases hc

/-! ### Reading parameters -/

theorem str_get (f : List (String × Json)) (k : String) (h : must k str f = true) : ∃ s, AMap.get f k = some (.str s) := by
  rw [must, any_iff] at h
  obtain ⟨j, hj, hs⟩ := h
  obtain ⟨s, rfl⟩ := (str_iff j).mp hs
  exact ⟨s, hj⟩

theorem may_str_get (f : List (String × Json)) (k : String) (h : may k str f = true) :
    AMap.get f k = none ∨ ∃ s, AMap.get f k = some (.str s) := by
  rw [may, all_iff] at h
  cases hg : AMap.get f k with
  | none => exact .inl rfl
  | some j =>
    obtain ⟨s, rfl⟩ := (str_iff j).mp (h j hg)
    exact .inr ⟨s, rfl⟩

theorem opt_str (f : List (String × Json)) (k : String) (h : may k str f = true) :
    ∃ o, optOf decStr (AMap.get f k) = some o := by
  rcases may_str_get f k h with hg | ⟨s, hg⟩ <;> rw [hg]
  · exact ⟨_, rfl⟩
  · exact ⟨_, rfl⟩

theorem object_iff (l : List (List (String × Json) → Bool)) (j : Json) :
    object l j = true ↔ ∃ g, j = .obj g ∧ ∀ m ∈ l, m g = true := by
  cases j <;> simp [object]

theorem decAll_isSome {α : Type} (d : Json → Option α) (l : List Json) :
    (decAll d l).isSome ↔ ∀ j ∈ l, (d j).isSome := by
  induction l with
  | nil => simp [decAll]
  | cons j l ih =>
    simp only [decAll, List.mem_cons, forall_eq_or_imp]
    rw [← ih]
    cases d j <;> simp

theorem decEntries_isSome {α : Type} (d : Json → Option α) (l : List (String × Json)) :
    (decEntries d l).isSome ↔ ∀ e ∈ l, (d e.2).isSome := by
  induction l with
  | nil => simp [decEntries]
  | cons e l ih =>
    obtain ⟨k, j⟩ := e
    simp only [decEntries, List.mem_cons, forall_eq_or_imp]
    rw [← ih]
    cases d j <;> simp

theorem record_str_dec (j : Json) (h : record str j = true) : (decMap decStr j).isSome := by
  cases j <;> simp [record] at h
  rename_i g
  rw [decMap, decEntries_isSome]
  intro e he
  obtain ⟨s, hs⟩ := (str_iff _).mp (h e.1 e.2 he)
  rw [hs]; rfl

theorem reference_dec (j : Json) (h : reference j = true) : (CompletionRef.dec j).isSome := by
  simp only [reference, either, Bool.or_eq_true, object_iff, List.mem_cons, List.not_mem_nil, or_false, forall_eq_or_imp,
    forall_eq] at h
  have ho : ∀ (g : List (String × Json)) (t : String), must "type" (oneOf [t]) g = true → AMap.get g "type" = some (.str t) := by
    intro g t ht
    rw [must, any_iff] at ht
    obtain ⟨x, hx, hx'⟩ := ht
    rw [hx]; cases x <;> simp [oneOf] at hx'; rw [hx']
  rcases h with ⟨g, rfl, ht, hn⟩ | ⟨g, rfl, ht, hn⟩
  · obtain ⟨s, hs⟩ := str_get g "name" hn
    have hs' : AMap.get (AMap.remove g "type") "name" = some (.str s) := by rw [AMap.get_remove_ne _ (by decide), hs]
    simp [CompletionRef.dec, tagged, ho g _ ht, variantSrc, hs']
  · obtain ⟨s, hs⟩ := str_get g "uri" hn
    have hs' : AMap.get (AMap.remove g "type") "uri" = some (.str s) := by rw [AMap.get_remove_ne _ (by decide), hs]
    simp [CompletionRef.dec, tagged, ho g _ ht, variantSrc, hs']

theorem arg_dec (j : Json) (h : object [must "name" str, must "value" str] j = true) : (CompletionArg.dec j).isSome := by
  simp only [object_iff, List.mem_cons, List.not_mem_nil, or_false, forall_eq_or_imp, forall_eq] at h
  obtain ⟨g, rfl, h1, h2⟩ := h
  obtain ⟨s, hs⟩ := str_get g _ h1
  obtain ⟨s', hs'⟩ := str_get g _ h2
  simp [CompletionArg.dec, hs, hs']

/-- The levels of the schema the crate does not have. (Specification: no counterpart in the code.) -/
def unknownLevels : List String := ["notice", "alert", "emergency"]

theorem level_dec (j : Json) (h : loggingLevel j = true) :
    (LoggingLevel.dec j).isSome ↔ ∀ s ∈ unknownLevels, j ≠ .str s := by
  cases j <;> simp [loggingLevel, oneOf] at h
  rcases h with rfl | rfl | rfl | rfl | rfl | rfl | rfl | rfl <;>
    simp [LoggingLevel.dec, decEnum, LoggingLevel.ofName, unknownLevels]

/-! ### C189: requests of a client -/

/-- The lists, whose parameters the schema leaves optional. (Specification: no counterpart in the code.) -/
def listMethods : List String := ["tools/list", "prompts/list", "resources/list", "resources/templates/list"]

/-- What the crate understands of the valid requests other than `initialize`.
(Specification: no counterpart in the code.) -/
def Understood (f : List (String × Json)) : Prop :=
  IdFits f ∧ (∀ m ∈ listMethods, AMap.get f "method" = some (.str m) → (AMap.get f "params").isSome) ∧
  (AMap.get f "method" = some (.str "ping") → AMap.get f "params" = none) ∧
  (AMap.get f "method" = some (.str "logging/setLevel") →
    ∀ g, AMap.get f "params" = some (.obj g) → ∀ s ∈ unknownLevels, AMap.get g "level" ≠ some (.str s))

theorem needed_iff (l : List (List (String × Json) → Bool)) (f : List (String × Json)) :
    (Params.needed l).check f = true ↔ ∃ g, AMap.get f "params" = some (.obj g) ∧ may "_meta" anyObject g = true ∧
      ∀ m ∈ l, m g = true := by
  simp only [Params.check, must, any_iff, object_iff, List.mem_cons, forall_eq_or_imp]
  constructor
  · rintro ⟨j, hj, g, rfl, h⟩; exact ⟨g, hj, h⟩
  · rintro ⟨g, hj, h⟩; exact ⟨_, hj, g, rfl, h⟩

theorem optional_iff (l : List (List (String × Json) → Bool)) (f : List (String × Json)) :
    (Params.optional l).check f = true ↔ AMap.get f "params" = none ∨ ∃ g, AMap.get f "params" = some (.obj g) ∧
      may "_meta" anyObject g = true ∧ ∀ m ∈ l, m g = true := by
  simp only [Params.check, may, all_iff, object_iff, List.mem_cons, forall_eq_or_imp]
  cases AMap.get f "params" with
  | none => simp
  | some j =>
    simp only [Option.some.injEq, forall_eq', reduceCtorEq, false_or]

theorem client_entry (m : String) (p : Params) (h : AMap.get clientRequests m = some p) : (m, p) ∈ clientRequests :=
  AMap.mem_of_get h

/-- The message of a request that the client's table reads. -/
theorem parse_client (f : List (String × Json)) (m : String) (hv : AMap.get f "jsonrpc" = some (.str "2.0"))
    (i : Json) (hi : AMap.get f "id" = some i) (hr : requestId i = true) (hm : AMap.get f "method" = some (.str m))
    (hs : AMap.get ServerRequest.table m = none) :
    (parseMessage (.obj f)).isSome ↔ IdFits f ∧
      ((AMap.get ClientRequest.table m).bind (fun x => x.read (some ((AMap.get f "params").getD .null)))).isSome := by
  have hid := id_dec_iff i hr
  have hfit : IdFits f ↔ (Id.dec i).isSome := by rw [hid, IdFits, hi]; simp
  rw [hfit]
  cases hd : Id.dec i with
  | none => rw [parse_bad_id f m i hi hd hm]; simp
  | some id =>
    rw [parse_request f "2.0" m id i hv hi hd hm, hs]
    cases (AMap.get ClientRequest.table m).bind (fun x => x.read (some ((AMap.get f "params").getD .null))) <;> simp

/-- **C189** (exact form). A request of the schema from a client, other than `initialize`, is understood exactly if
its numeric id fits 64 bits, a list request comes with `params`, a ping without, and the level of `logging/setLevel`
is none of `notice`, `alert` and `emergency`. Missing from the property: those. -/
theorem C189_requests_partial (f : List (String × Json)) (h : request clientRequests (.obj f) = true)
    (hni : AMap.get f "method" ≠ some (.str "initialize")) :
    (parseMessage (.obj f)).isSome ↔ Understood f := by
  obtain ⟨hv, ⟨i, hi, hr⟩, m, p, hm, hp, hc⟩ := valid_request _ f h
  have hmem := client_entry m p hp
  have hs : AMap.get ServerRequest.table m = none := by
    simp only [clientRequests, List.mem_cons, List.not_mem_nil, or_false, Prod.mk.injEq] at hmem
    rcases hmem with ⟨rfl, -⟩ | ⟨rfl, -⟩ | ⟨rfl, -⟩ | ⟨rfl, -⟩ | ⟨rfl, -⟩ | ⟨rfl, -⟩ | ⟨rfl, -⟩ | ⟨rfl, -⟩ | ⟨rfl, -⟩ |
      ⟨rfl, -⟩ | ⟨rfl, -⟩ | ⟨rfl, -⟩ | ⟨rfl, -⟩ <;> rfl
  rw [parse_client f m hv i hi hr hm hs]
  unfold Understood
  simp only [hm, Option.some.injEq, Json.str.injEq] at hni ⊢
  refine and_congr Iff.rfl ?_
  simp only [clientRequests, List.mem_cons, List.not_mem_nil, or_false, Prod.mk.injEq] at hmem
  rcases hmem with ⟨rfl, rfl⟩ | ⟨rfl, rfl⟩ | ⟨rfl, rfl⟩ | ⟨rfl, rfl⟩ | ⟨rfl, rfl⟩ | ⟨rfl, rfl⟩ | ⟨rfl, rfl⟩ | ⟨rfl, rfl⟩ |
    ⟨rfl, rfl⟩ | ⟨rfl, rfl⟩ | ⟨rfl, rfl⟩ | ⟨rfl, rfl⟩ | ⟨rfl, rfl⟩
  case inl =>
    simp only [optional_iff] at hc
    rcases hc with hg | ⟨g, hg, -, -⟩ <;>
      simp [hg, ClientRequest.table, AMap.get_cons, Variant.read, listMethods]
  case inr.inl => exact absurd rfl hni
  case inr.inr.inl =>
    obtain ⟨g, hg, -, hl⟩ := (needed_iff _ _).mp hc
    simp only [List.mem_cons, List.not_mem_nil, or_false, forall_eq_or_imp, forall_eq] at hl
    obtain ⟨h1, h2, -⟩ := hl
    simp only [must, any_iff] at h1 h2
    obtain ⟨a, ha, ha'⟩ := h1
    obtain ⟨b, hb, hb'⟩ := h2
    obtain ⟨x, hx⟩ := Option.isSome_iff_exists.mp (reference_dec a ha')
    obtain ⟨y, hy⟩ := Option.isSome_iff_exists.mp (arg_dec b hb')
    simp [hg, ClientRequest.table, AMap.get_cons, Variant.read, listMethods, Complete.dec, ha, hb, hx, hy]
  case inr.inr.inr.inl =>
    obtain ⟨g, hg, -, hl⟩ := (needed_iff _ _).mp hc
    simp only [List.mem_cons, List.not_mem_nil, or_false, forall_eq, must, any_iff] at hl
    obtain ⟨j, hj, hj'⟩ := hl
    have hlv := level_dec j hj'
    have : (decLevel (.obj g)).isSome ↔ ∀ s ∈ unknownLevels, AMap.get g "level" ≠ some (.str s) := by
      simp only [decLevel, req_obj, hj, Option.bind_some, hlv, Ne, Option.some.injEq]
    simp [hg, ClientRequest.table, AMap.get_cons, Variant.read, listMethods, ← this]
  case inr.inr.inr.inr.inl =>
    obtain ⟨g, hg, -, hl⟩ := (needed_iff _ _).mp hc
    simp only [List.mem_cons, List.not_mem_nil, or_false, forall_eq_or_imp, forall_eq] at hl
    obtain ⟨s, hs⟩ := str_get g _ hl.1
    have hd : (dflt (decMap decStr) [] (.obj g) "arguments" 1).isSome := by
      rw [dflt_obj]
      have := hl.2
      rw [may, all_iff] at this
      cases ha : AMap.get g "arguments" with
      | none => rfl
      | some j => exact record_str_dec j (this j ha)
    obtain ⟨x, hx⟩ := Option.isSome_iff_exists.mp hd
    have : GetPrompt.dec (.obj g) = some ⟨s, x⟩ := by
      simp only [GetPrompt.dec, src_obj, Option.bind_eq_bind, Option.bind_some, req_obj, hs, decStr_str, hx]
    simp [hg, ClientRequest.table, AMap.get_cons, Variant.read, listMethods, this]
  case inr.inr.inr.inr.inr.inr.inr.inr.inr.inr.inr.inl =>
    obtain ⟨g, hg, -, hl⟩ := (needed_iff _ _).mp hc
    simp only [List.mem_cons, List.not_mem_nil, or_false, forall_eq_or_imp, forall_eq] at hl
    obtain ⟨s, hs⟩ := str_get g _ hl.1
    have : (CallTool.dec (.obj g)).isSome := by
      simp only [CallTool.dec, src_obj, Option.bind_eq_bind, Option.bind_some, req_obj, hs, decStr_str, dflt_obj]
      cases AMap.get g "arguments" <;> rfl
    obtain ⟨x, hx⟩ := Option.isSome_iff_exists.mp this
    simp [hg, ClientRequest.table, AMap.get_cons, Variant.read, listMethods, hx]
  case inr.inr.inr.inr.inr.inr.inr.inr.inl =>
    obtain ⟨g, hg, -, hl⟩ := (needed_iff _ _).mp hc
    simp only [List.mem_cons, List.not_mem_nil, or_false, forall_eq] at hl
    obtain ⟨s, hs⟩ := str_get g _ hl
    simp [hg, ClientRequest.table, AMap.get_cons, Variant.read, listMethods, UriParams.dec, hs]
  case inr.inr.inr.inr.inr.inr.inr.inr.inr.inl =>
    obtain ⟨g, hg, -, hl⟩ := (needed_iff _ _).mp hc
    simp only [List.mem_cons, List.not_mem_nil, or_false, forall_eq] at hl
    obtain ⟨s, hs⟩ := str_get g _ hl
    simp [hg, ClientRequest.table, AMap.get_cons, Variant.read, listMethods, UriParams.dec, hs]
  case inr.inr.inr.inr.inr.inr.inr.inr.inr.inr.inl =>
    obtain ⟨g, hg, -, hl⟩ := (needed_iff _ _).mp hc
    simp only [List.mem_cons, List.not_mem_nil, or_false, forall_eq] at hl
    obtain ⟨s, hs⟩ := str_get g _ hl
    simp [hg, ClientRequest.table, AMap.get_cons, Variant.read, listMethods, UriParams.dec, hs]
  all_goals
    rcases (optional_iff _ _).mp hc with hg | ⟨g, hg, -, hl⟩
    · simp [hg, ClientRequest.table, AMap.get_cons, Variant.read, listMethods, ListParams.dec, src]
    · simp only [List.mem_cons, List.not_mem_nil, or_false, forall_eq] at hl
      obtain ⟨o, ho⟩ := opt_str g _ hl
      simp [hg, ClientRequest.table, AMap.get_cons, Variant.read, listMethods, ListParams.dec, ho]

/-- A valid request of the schema with everything optional given. -/
example : request clientRequests (.obj [("jsonrpc", .str "2.0"), ("id", .num (.int 7)), ("method", .str "tools/call"),
    ("params", .obj [("_meta", .obj [("progressToken", .num (.int 1))]), ("name", .str "t"), ("arguments", .obj [])])]) = true := by
  decide

/-- **C189** fails for the list requests of the TypeScript SDK's client, which sends them without `params`. -/
theorem C189_bare_list (id : Id) (m : String) (h : m ∈ listMethods) :
    request clientRequests (.obj [("jsonrpc", .str "2.0"), ("id", id.enc), ("method", .str m)]) = true ∧
    parseMessage (.obj [("jsonrpc", .str "2.0"), ("id", id.enc), ("method", .str m)]) = none := by
  have hv : request clientRequests (.obj [("jsonrpc", .str "2.0"), ("id", id.enc), ("method", .str m)]) = true := by
    simp only [listMethods, List.mem_cons, List.not_mem_nil, or_false] at h
    rcases h with rfl | rfl | rfl | rfl <;>
      simp [request, object_obj, must, called, AMap.get_cons, clientRequests, Params.check, may]
  refine ⟨hv, ?_⟩
  have hiff := C189_requests_partial _ hv (by
    simp only [listMethods, List.mem_cons, List.not_mem_nil, or_false] at h
    rcases h with rfl | rfl | rfl | rfl <;> simp [AMap.get_cons])
  cases hp : parseMessage (.obj [("jsonrpc", .str "2.0"), ("id", id.enc), ("method", .str m)]) with
  | none => rfl
  | some x =>
    rw [hp] at hiff
    have := (hiff.mp rfl).2.1 m h (by simp [AMap.get_cons])
    simp [AMap.get_cons] at this

/-! ### `initialize` -/

/-- The capabilities use none of the members the crate adds to the schema. (Specification: no counterpart in the
code.) -/
def PlainCaps (c : List (String × Json)) : Prop :=
  (∀ k ∈ ["tools", "prompts", "resources", "logging"], AMap.get c k = none) ∧
  ∀ s, AMap.get c "sampling" = some (.obj s) → AMap.get s "models" = none

theorem roots_dec (j : Json) (h : object [may "listChanged" bool] j = true) : (RootsCap.dec j).isSome := by
  obtain ⟨g, rfl, hl⟩ := (object_iff _ _).mp h
  simp only [List.mem_cons, List.not_mem_nil, or_false, forall_eq, may, all_iff] at hl
  simp only [RootsCap.dec, src_obj, Option.bind_eq_bind, Option.bind_some, dflt_obj]
  cases hg : AMap.get g "listChanged" with
  | none => rfl
  | some j =>
    have := hl j hg
    cases j <;> simp [bool] at this
    rfl

theorem experimental_dec (x : Option Json) (h : x.all (record anyObject) = true) :
    (optOf (decMap decVal) x).isSome := by
  cases x with
  | none => rfl
  | some j =>
    simp only [Option.all_some] at h
    cases j <;> simp [record] at h
    rename_i g
    simp only [optOf, decOpt, decMap, Option.isSome_map]
    rw [decEntries_isSome]
    intro e _; rfl

theorem clientCaps_dec (j : Json) (c : List (String × Json)) (hj : j = .obj c) (h : clientCapabilities j = true)
    (hp : PlainCaps c) : (ClientCaps.dec j).isSome := by
  subst hj
  obtain ⟨g, hg, hl⟩ := (object_iff _ _).mp h
  cases hg
  simp only [List.mem_cons, List.not_mem_nil, or_false, forall_eq_or_imp, forall_eq, may] at hl
  obtain ⟨he, hr, hs, -⟩ := hl
  obtain ⟨hk, hsm⟩ := hp
  simp only [List.mem_cons, List.not_mem_nil, or_false, forall_eq_or_imp, forall_eq] at hk
  obtain ⟨h1, h2, h3, h4⟩ := hk
  obtain ⟨x, hx⟩ := Option.isSome_iff_exists.mp (experimental_dec _ he)
  have hroots : (optOf RootsCap.dec (AMap.get c "roots")).isSome := by
    cases hc : AMap.get c "roots" with
    | none => rfl
    | some j =>
      rw [hc] at hr
      have hd := roots_dec j hr
      obtain ⟨g, rfl, _⟩ := (object_iff _ _).mp hr
      simpa [optOf, decOpt] using hd
  obtain ⟨y, hy⟩ := Option.isSome_iff_exists.mp hroots
  have hsamp : (optOf (NamesCap.dec "models") (AMap.get c "sampling")).isSome := by
    cases hc : AMap.get c "sampling" with
    | none => rfl
    | some j =>
      rw [hc] at hs
      obtain ⟨g, rfl⟩ := (anyObject_iff j).mp hs
      simp [optOf, decOpt, NamesCap.dec, hsm g hc]
  obtain ⟨z, hz⟩ := Option.isSome_iff_exists.mp hsamp
  simp [ClientCaps.dec, h1, h2, h3, h4, hx, hy, hz]

theorem id_enc (i : Json) (id : Id) (hr : requestId i = true) (hd : Id.dec i = some id) : i = id.enc := by
  cases i with
  | str s => simp [Id.dec] at hd; rw [← hd]; rfl
  | num k =>
    cases k with
    | int n =>
      simp only [Id.dec, decStr, decInt, Option.map_eq_some_iff] at hd
      obtain ⟨a, ha, rfl⟩ := hd
      split at ha
      · cases ha; rfl
      · cases ha
    | flt q => simp [requestId, either, str, integer] at hr
  | _ => simp [requestId, either, str, integer] at hr

/-- **C189**, `initialize`: understood if its id fits and its capabilities use no member the crate adds to the
schema (the schema leaves unknown members free). Version, name and version of the client are as sent. -/
theorem C189_initialize_partial (f p c : List (String × Json)) (h : request clientRequests (.obj f) = true)
    (hm : AMap.get f "method" = some (.str "initialize")) (hid : IdFits f) (hp : AMap.get f "params" = some (.obj p))
    (hc : AMap.get p "capabilities" = some (.obj c)) (hpl : PlainCaps c) :
    ∃ id q n, parseMessage (.obj f) = some (.request id (.client (.init q))) ∧ AMap.get f "id" = some id.enc ∧
      AMap.get p "protocolVersion" = some (.str q.protocolVersion) ∧ AMap.get p "clientInfo" = some (.obj n) ∧
      AMap.get n "name" = some (.str q.clientInfo.name) ∧ AMap.get n "version" = some (.str q.clientInfo.version) := by
  obtain ⟨hv, ⟨i, hi, hr⟩, m, pr, hm', hpr, hck⟩ := valid_request _ f h
  cases hm.symm.trans hm'
  have hfit := (id_dec_iff i hr).mpr (by intro n hn; exact hid n (by rw [hi, hn]))
  obtain ⟨id, hd⟩ := Option.isSome_iff_exists.mp hfit
  have hide := id_enc i id hr hd
  have hpe : pr = .needed [must "protocolVersion" str, must "capabilities" clientCapabilities,
      must "clientInfo" implementation] := by
    rw [show AMap.get clientRequests "initialize" = some (.needed [must "protocolVersion" str,
      must "capabilities" clientCapabilities, must "clientInfo" implementation]) from rfl] at hpr
    exact (Option.some.inj hpr).symm
  subst hpe
  obtain ⟨g, hg, -, hl⟩ := (needed_iff _ _).mp hck
  cases hp.symm.trans hg
  simp only [List.mem_cons, List.not_mem_nil, or_false, forall_eq_or_imp, forall_eq] at hl
  obtain ⟨h1, h2, h3⟩ := hl
  obtain ⟨ver, hver⟩ := str_get p _ h1
  simp only [must, any_iff] at h2 h3
  obtain ⟨c', hc', h2⟩ := h2
  cases hc.symm.trans hc'
  obtain ⟨caps, hcaps⟩ := Option.isSome_iff_exists.mp (clientCaps_dec _ c rfl h2 hpl)
  obtain ⟨n', hn', h3⟩ := h3
  obtain ⟨n, rfl, hn⟩ := (object_iff _ _).mp h3
  simp only [List.mem_cons, List.not_mem_nil, or_false, forall_eq_or_imp, forall_eq] at hn
  obtain ⟨a, ha⟩ := str_get n _ hn.1
  obtain ⟨b, hb⟩ := str_get n _ hn.2.2
  refine ⟨id, ⟨ver, caps, ⟨a, b⟩⟩, n, ?_, by rw [hi, hide], hver, hn', ha, hb⟩
  rw [parse_request f "2.0" "initialize" id i hv hi hd hm, hp]
  have hi' : Impl.dec (.obj n) = some ⟨a, b⟩ := by simp [Impl.dec, ha, hb]
  simp [ClientRequest.table, AMap.get_cons, Variant.read, InitParams.dec, hver, hc, hcaps, hn', hi']

example : request clientRequests (.obj [("jsonrpc", .str "2.0"), ("id", .num (.int 0)), ("method", .str "initialize"),
    ("params", .obj [("protocolVersion", .str "2025-06-18"), ("clientInfo", .obj [("name", .str "ts"), ("version", .str "1")]),
      ("capabilities", .obj [("roots", .obj [("listChanged", .bool true)]), ("sampling", .obj [])])])]) = true := by
  decide

/-! ### What is understood is what was sent -/

/-- The members of the parameters that carry the meaning of each request. (Specification: no counterpart in the
code.) -/
def meaning : List (String × List String) :=
  [("tools/call", ["name", "arguments"]), ("prompts/get", ["name", "arguments"]), ("resources/read", ["uri"]),
   ("resources/subscribe", ["uri"]), ("resources/unsubscribe", ["uri"]), ("tools/list", ["cursor"]),
   ("prompts/list", ["cursor"]), ("resources/list", ["cursor"]), ("resources/templates/list", ["cursor"]),
   ("logging/setLevel", ["level"]), ("completion/complete", []), ("ping", []), ("initialize", ["protocolVersion"])]

theorem decEntries_str (g : List (String × Json)) (l : List (String × String)) (h : decEntries decStr g = some l) :
    l.map (fun p => (p.1, Json.str p.2)) = g := by
  induction g generalizing l with
  | nil => simp only [decEntries, Option.some.injEq] at h; subst h; rfl
  | cons e g ih =>
    obtain ⟨k, j⟩ := e
    simp only [decEntries, Option.bind_eq_some_iff, Option.map_eq_some_iff] at h
    obtain ⟨a, ha, l', hl', rfl⟩ := h
    cases j <;> simp [decStr] at ha
    subst ha
    simp [ih l' hl']

theorem level_name (s : String) (l : LoggingLevel) (h : LoggingLevel.ofName s = some l) : l.name = s := by
  unfold LoggingLevel.ofName at h
  split at h
  · next e => cases h; exact e.symm
  · split at h
    · next e => cases h; exact e.symm
    · split at h
      · next e => cases h; exact e.symm
      · split at h
        · next e => cases h; exact e.symm
        · split at h
          · next e => cases h; exact e.symm
          · cases h

/-- The members of the parameters that carry meaning are written down as they were read. (Specification: no
counterpart in the code.) -/
def Kept (m : String) (p : List (String × Json)) (r : ClientRequest) : Prop :=
  ∃ p', (clientToRpc r).1 = m ∧ (clientToRpc r).2 = some (.obj p') ∧
    ∀ l, AMap.get meaning m = some l → ∀ k ∈ l, (AMap.get p k).isSome → AMap.get p' k = AMap.get p k

theorem kept_one (m k : String) (p p' : List (String × Json)) (r : ClientRequest) (h1 : (clientToRpc r).1 = m)
    (h2 : (clientToRpc r).2 = some (.obj p')) (hl : AMap.get meaning m = some [k])
    (h : (AMap.get p k).isSome → AMap.get p' k = AMap.get p k) : Kept m p r := by
  refine ⟨p', h1, h2, ?_⟩
  intro l hl' k' hk
  cases hl.symm.trans hl'
  simp only [List.mem_singleton] at hk
  subst hk
  exact h

theorem kept_two (m k₁ k₂ : String) (p p' : List (String × Json)) (r : ClientRequest) (h1 : (clientToRpc r).1 = m)
    (h2 : (clientToRpc r).2 = some (.obj p')) (hl : AMap.get meaning m = some [k₁, k₂])
    (ha : (AMap.get p k₁).isSome → AMap.get p' k₁ = AMap.get p k₁)
    (hb : (AMap.get p k₂).isSome → AMap.get p' k₂ = AMap.get p k₂) : Kept m p r := by
  refine ⟨p', h1, h2, ?_⟩
  intro l hl' k' hk
  cases hl.symm.trans hl'
  simp only [List.mem_cons, List.not_mem_nil, or_false] at hk
  rcases hk with rfl | rfl
  · exact ha
  · exact hb

theorem kept_cursor (p : List (String × Json)) (q : ListParams) (hq : ListParams.dec (.obj p) = some q)
    (hs : may "cursor" str p = true) (hsome : (AMap.get p "cursor").isSome) :
    AMap.get (ob [("cursor", q.cursor.map Json.str)]) "cursor" = AMap.get p "cursor" := by
  rcases may_str_get p _ hs with hg | ⟨s, hg⟩
  · rw [hg] at hsome; cases hsome
  · simp [ListParams.dec, hg, optOf, decOpt] at hq
    subst hq
    simp [hg]

theorem kept_uri (p : List (String × Json)) (q : UriParams) (hq : UriParams.dec (.obj p) = some q) :
    AMap.get (ob [("uri", some (.str q.uri))]) "uri" = AMap.get p "uri" := by
  simp only [UriParams.dec, src_obj, Option.bind_eq_bind, Option.bind_some, req_obj, Option.bind_eq_some_iff] at hq
  obtain ⟨a, ⟨j, hj, hja⟩, hq⟩ := hq
  cases hq
  cases j <;> simp [decStr] at hja
  subst hja
  simp [hj]

theorem kept_init (p : List (String × Json)) (q : InitParams) (hq : InitParams.dec (.obj p) = some q) :
    Kept "initialize" p (.init q) := by
  simp only [InitParams.dec, src_obj, Option.bind_eq_bind, Option.bind_some, req_obj, Option.bind_eq_some_iff] at hq
  obtain ⟨a, ⟨j, hj, hja⟩, b, -, c, -, hq⟩ := hq
  cases hq
  cases j <;> simp [decStr] at hja
  subst hja
  exact kept_one _ "protocolVersion" _ _ _ rfl rfl rfl (by simp [hj])

theorem kept_level (p : List (String × Json)) (q : LoggingLevel) (hl : must "level" loggingLevel p = true)
    (hq : decLevel (.obj p) = some q) : Kept "logging/setLevel" p (.setLevel q) := by
  simp only [must, any_iff] at hl
  obtain ⟨j, hj, hlj⟩ := hl
  refine kept_one _ "level" _ _ _ rfl rfl rfl ?_
  intro _
  simp only [decLevel, req_obj, hj, Option.bind_some, LoggingLevel.dec, decEnum] at hq
  cases j <;> simp [loggingLevel, oneOf] at hlj
  rename_i s
  simp only [decEnum] at hq
  simp [LoggingLevel.enc, level_name s q hq, AMap.get_cons, hj]

theorem kept_getPrompt (p : List (String × Json)) (q : GetPrompt) (hq : GetPrompt.dec (.obj p) = some q) :
    Kept "prompts/get" p (.getPrompt q) := by
  simp only [GetPrompt.dec, src_obj, Option.bind_eq_bind, Option.bind_some, req_obj, dflt_obj,
    Option.bind_eq_some_iff] at hq
  obtain ⟨a, ⟨j, hj, hja⟩, b, hb, hq⟩ := hq
  cases hq
  cases j <;> simp [decStr] at hja
  subst hja
  refine kept_two _ "name" "arguments" _ _ _ rfl rfl rfl (by simp [hj]) ?_
  intro hs
  cases hg : AMap.get p "arguments" with
  | none => rw [hg] at hs; cases hs
  | some x =>
    rw [hg] at hb
    cases x <;> simp [decMap] at hb
    simp [encMap, decEntries_str _ _ hb]

theorem kept_callTool (p : List (String × Json)) (q : CallTool) (hq : CallTool.dec (.obj p) = some q) :
    Kept "tools/call" p (.callTool q) := by
  simp only [CallTool.dec, src_obj, Option.bind_eq_bind, Option.bind_some, req_obj, dflt_obj,
    Option.bind_eq_some_iff] at hq
  obtain ⟨a, ⟨j, hj, hja⟩, b, hb, hq⟩ := hq
  cases hq
  cases j <;> simp [decStr] at hja
  subst hja
  refine kept_two _ "name" "arguments" _ _ _ rfl rfl rfl (by simp [hj]) ?_
  intro hs
  cases hg : AMap.get p "arguments" with
  | none => rw [hg] at hs; cases hs
  | some x =>
    rw [hg] at hb
    simp [decVal] at hb
    simp [hb]

theorem kept (f p : List (String × Json)) (m : String) (pr : Params) (r : ClientRequest)
    (hp : AMap.get f "params" = some (.obj p)) (hpr : AMap.get clientRequests m = some pr) (hck : pr.check f = true)
    (hread : (AMap.get ClientRequest.table m).bind (fun x => x.read (some (.obj p))) = some r) : Kept m p r := by
  have hmem := client_entry m pr hpr
  clear hpr
  simp only [clientRequests, List.mem_cons, List.not_mem_nil, or_false, Prod.mk.injEq] at hmem
  have hneed : ∀ l, (Params.needed l).check f = true → ∀ m ∈ l, m p = true := by
    intro l h
    obtain ⟨g, hg, -, hl⟩ := (needed_iff _ _).mp h
    cases hp.symm.trans hg
    exact hl
  have hopt : ∀ l, (Params.optional l).check f = true → ∀ m ∈ l, m p = true := by
    intro l h
    rcases (optional_iff _ _).mp h with hg | ⟨g, hg, -, hl⟩
    · rw [hp] at hg; cases hg
    · cases hp.symm.trans hg
      exact hl
  rcases hmem with ⟨rfl, rfl⟩ | ⟨rfl, rfl⟩ | ⟨rfl, rfl⟩ | ⟨rfl, rfl⟩ | ⟨rfl, rfl⟩ | ⟨rfl, rfl⟩ | ⟨rfl, rfl⟩ | ⟨rfl, rfl⟩ |
    ⟨rfl, rfl⟩ | ⟨rfl, rfl⟩ | ⟨rfl, rfl⟩ | ⟨rfl, rfl⟩ | ⟨rfl, rfl⟩
  · cases show none = some r from hread
  · obtain ⟨q, hq, rfl⟩ := Option.map_eq_some_iff.mp (show (InitParams.dec (.obj p)).map .init = some r from hread)
    exact kept_init p q hq
  · obtain ⟨q, hq, rfl⟩ := Option.map_eq_some_iff.mp (show (Complete.dec (.obj p)).map .complete = some r from hread)
    refine ⟨_, rfl, rfl, ?_⟩
    intro l hl k hk
    cases (show AMap.get meaning "completion/complete" = some [] from rfl).symm.trans hl
    cases hk
  · obtain ⟨q, hq, rfl⟩ := Option.map_eq_some_iff.mp (show (decLevel (.obj p)).map .setLevel = some r from hread)
    exact kept_level p q (hneed _ hck _ (by simp)) hq
  · obtain ⟨q, hq, rfl⟩ := Option.map_eq_some_iff.mp (show (GetPrompt.dec (.obj p)).map .getPrompt = some r from hread)
    exact kept_getPrompt p q hq
  · obtain ⟨q, hq, rfl⟩ := Option.map_eq_some_iff.mp (show (ListParams.dec (.obj p)).map .listPrompts = some r from hread)
    exact kept_one _ "cursor" _ _ _ rfl rfl rfl (kept_cursor p q hq (hopt _ hck _ (by simp)))
  · obtain ⟨q, hq, rfl⟩ := Option.map_eq_some_iff.mp (show (ListParams.dec (.obj p)).map .listResources = some r from hread)
    exact kept_one _ "cursor" _ _ _ rfl rfl rfl (kept_cursor p q hq (hopt _ hck _ (by simp)))
  · obtain ⟨q, hq, rfl⟩ := Option.map_eq_some_iff.mp (show (ListParams.dec (.obj p)).map .listTemplates = some r from hread)
    exact kept_one _ "cursor" _ _ _ rfl rfl rfl (kept_cursor p q hq (hopt _ hck _ (by simp)))
  · obtain ⟨q, hq, rfl⟩ := Option.map_eq_some_iff.mp (show (UriParams.dec (.obj p)).map .readResource = some r from hread)
    exact kept_one _ "uri" _ _ _ rfl rfl rfl (fun _ => kept_uri p q hq)
  · obtain ⟨q, hq, rfl⟩ := Option.map_eq_some_iff.mp (show (UriParams.dec (.obj p)).map .subscribe = some r from hread)
    exact kept_one _ "uri" _ _ _ rfl rfl rfl (fun _ => kept_uri p q hq)
  · obtain ⟨q, hq, rfl⟩ := Option.map_eq_some_iff.mp (show (UriParams.dec (.obj p)).map .unsubscribe = some r from hread)
    exact kept_one _ "uri" _ _ _ rfl rfl rfl (fun _ => kept_uri p q hq)
  · obtain ⟨q, hq, rfl⟩ := Option.map_eq_some_iff.mp (show (CallTool.dec (.obj p)).map .callTool = some r from hread)
    exact kept_callTool p q hq
  · obtain ⟨q, hq, rfl⟩ := Option.map_eq_some_iff.mp (show (ListParams.dec (.obj p)).map .listTools = some r from hread)
    exact kept_one _ "cursor" _ _ _ rfl rfl rfl (kept_cursor p q hq (hopt _ hck _ (by simp)))

/-- **C189**, meaning. What the crate understands of a request of the schema, written down again, has the id and the
method of the message, and every member that carries its meaning with the value it had. -/
theorem C189_meaning (f p : List (String × Json)) (h : request clientRequests (.obj f) = true) (id : Id) (r : ClientRequest)
    (hr : parseMessage (.obj f) = some (.request id (.client r))) (hp : AMap.get f "params" = some (.obj p)) :
    ∃ g p' m, serializeMessage (.request id (.client r)) = .obj g ∧ AMap.get g "jsonrpc" = AMap.get f "jsonrpc" ∧
      AMap.get g "id" = AMap.get f "id" ∧ AMap.get f "method" = some (.str m) ∧ AMap.get g "method" = some (.str m) ∧
      AMap.get g "params" = some (.obj p') ∧
      ∀ l, AMap.get meaning m = some l → ∀ k ∈ l, (AMap.get p k).isSome → AMap.get p' k = AMap.get p k := by
  obtain ⟨hv, ⟨i, hi, hri⟩, m, pr, hm, hpr, hck⟩ := valid_request _ f h
  cases hd : Id.dec i with
  | none => rw [parse_bad_id f m i hi hd hm] at hr; cases hr
  | some id' =>
    have hie := id_enc i id' hri hd
    rw [parse_request f "2.0" m id' i hv hi hd hm, hp] at hr
    simp only [Option.getD_some] at hr
    have hr' : id' = id ∧ (AMap.get ClientRequest.table m).bind (fun x => x.read (some (.obj p))) = some r := by
      split at hr
      · next c hc =>
        simp only [Option.some.injEq, TMsg.request.injEq, Request.client.injEq] at hr
        exact ⟨hr.1, by rw [hc, hr.2]⟩
      · obtain ⟨x, -, hx⟩ := Option.map_eq_some_iff.mp hr
        cases hx
    obtain ⟨rfl, hread⟩ := hr'
    obtain ⟨p', h1, h2, h3⟩ := kept f p m pr r hp hpr hck hread
    refine ⟨_, p', m, rfl, ?_, ?_, hm, ?_, ?_, h3⟩
    · simp [createRequest, hv]
    · simp [createRequest, hi, hie]
    · simp [createRequest, h1]
    · simp [createRequest, h2]

example : ∃ r, parseMessage (.obj [("jsonrpc", .str "2.0"), ("id", .str "a"), ("method", .str "tools/call"),
    ("params", .obj [("name", .str "add"), ("arguments", .obj [("x", .num (.int 1))])])]) =
    some (.request (.str "a") (.client r)) := ⟨_, rfl⟩

end Verif.Conform
