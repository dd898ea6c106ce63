import Verif.Wire.Positions
import Verif.Wire.Auth

/-
Names from a fixed list (C254): in which forms methods, levels, roles and the like are accepted.
-/

namespace Verif.Wire

/-! ### Specification -/

/-- A name of the list as a string. (Specification: no counterpart in the code.) -/
def Plain (names : List String) (j : Json) : Prop := ∃ s ∈ names, j = .str s

/-- A name of the list as the only member of an object, with the value null.
(Specification: no counterpart in the code.) -/
def Boxed (names : List String) (j : Json) : Prop := ∃ s ∈ names, j = .obj [(s, .null)]

/-- The logging levels of the code. (Specification: no counterpart in the code.) -/
def levelNames : List String := ["debug", "info", "warning", "error", "critical"]

theorem decEnum_isSome {α : Type} (t : String → Option α) (names : List String)
    (ht : ∀ s, (t s).isSome ↔ s ∈ names) (j : Json) : (decEnum t j).isSome ↔ Plain names j ∨ Boxed names j := by
  unfold decEnum
  split
  · rename_i s
    simp [ht, Plain, Boxed]
  · rename_i s
    simp [ht, Plain, Boxed]
  · rename_i h1 h2
    simp only [Option.isSome_none, Bool.false_eq_true, false_iff]
    rintro (⟨s, -, rfl⟩ | ⟨s, -, rfl⟩)
    · exact h1 s rfl
    · exact h2 s rfl

theorem loggingLevel_names (s : String) : (LoggingLevel.ofName s).isSome ↔ s ∈ levelNames := by
  unfold LoggingLevel.ofName
  repeat' split
  all_goals simp_all [levelNames]

theorem request_setLevel (p : Json) : Request.dec (tagJson "logging/setLevel" p) =
    (decLevel p).map (fun l => .client (.setLevel l)) := by
  have hc : AMap.get ClientRequest.table "logging/setLevel" = some (.con (fun j => (decLevel j).map .setLevel)) := rfl
  have hs : AMap.get ServerRequest.table "logging/setLevel" = none := rfl
  rw [request_read, hc, hs]
  cases h : decLevel p <;> simp [Variant.read, h]

/-! ### C254 -/

/-- **C254** for the logging level (stdio, WebSocket, HTTP client): the request is accepted exactly if the level is a
known name as a string, or an object with that name and null. Missing from the property: the second form is to be
refused. -/
theorem C254_level_partial (id : Json) (hid : (Id.dec id).isSome) (j : Json) :
    (parseMessage (requestJson id "logging/setLevel" (.obj [("level", j)]))).isSome ↔
      Plain levelNames j ∨ Boxed levelNames j := by
  obtain ⟨i, hi⟩ := Option.isSome_iff_exists.mp hid
  rw [parse_requestJson _ _ _ (by simp), hi, request_setLevel, ← decEnum_isSome _ _ loggingLevel_names]
  simp [decLevel, AMap.get_cons, LoggingLevel.dec]

example : (Id.dec (.num (.int 3))).isSome ∧ Boxed levelNames (.obj [("error", .null)]) :=
  ⟨rfl, "error", by decide, rfl⟩

/-- **C254** fails: for every name the object is taken as the string is. -/
theorem C254_level_same (id : Json) (s : String) :
    parseMessage (requestJson id "logging/setLevel" (.obj [("level", .obj [(s, .null)])])) =
      parseMessage (requestJson id "logging/setLevel" (.obj [("level", .str s)])) := by
  rw [parse_requestJson _ _ _ (by simp), parse_requestJson _ _ _ (by simp), request_setLevel, request_setLevel]
  rfl

example : ∃ i, parseMessage (requestJson (.str "1") "logging/setLevel" (.obj [("level", .obj [("error", .null)])])) =
    some (.request i (.client (.setLevel .error))) := ⟨_, rfl⟩

/-- **C254** for the other lists of names: accepted is exactly the string and the object with null. Missing from the
property: the object is to be refused. -/
theorem C254_values_partial (j : Json) :
    ((Role.dec j).isSome ↔ Plain ["user", "assistant", "system"] j ∨ Boxed ["user", "assistant", "system"] j) ∧
    ((IncludeContext.dec j).isSome ↔
      Plain ["all", "none", "thisServerOnly"] j ∨ Boxed ["all", "none", "thisServerOnly"] j) ∧
    ((LogLevel.dec j).isSome ↔
      Plain ["debug", "info", "warning", "error"] j ∨ Boxed ["debug", "info", "warning", "error"] j) := by
  refine ⟨decEnum_isSome _ _ ?_ j, decEnum_isSome _ _ ?_ j, decEnum_isSome _ _ ?_ j⟩
  · intro s; unfold Role.ofName; repeat' split
    all_goals simp_all
  · intro s; unfold IncludeContext.ofName; repeat' split
    all_goals simp_all
  · intro s; unfold LogLevel.ofName; repeat' split
    all_goals simp_all

example : Plain ["user", "assistant", "system"] (.str "user") ∧
    ¬ Boxed ["user", "assistant", "system"] (.obj [("user", .bool true)]) :=
  ⟨⟨"user", by decide, rfl⟩, by rintro ⟨s, -, h⟩; cases h⟩

theorem tagged_isSome {α : Type} (unit : String → Option α) (names : List String) (c : String → α)
    (hu : ∀ s, (unit s).isSome ↔ s ∈ names) (d : Json → Option α) (h1 : ∀ s, d (.str s) = unit s)
    (h2 : ∀ s, d (.obj [(s, .null)]) = unit s)
    (h3 : ∀ k s, d (.obj [(k, .str s)]) = if k = "custom" then some (c s) else none)
    (h4 : ∀ j, (∀ s, j ≠ .str s) → (∀ s, j ≠ .obj [(s, .null)]) → (∀ k s, j ≠ .obj [(k, .str s)]) → d j = none) (j : Json) :
    (d j).isSome ↔ Plain names j ∨ Boxed names j ∨ ∃ s, j = .obj [("custom", .str s)] := by
  by_cases e1 : ∃ s, j = .str s
  · obtain ⟨s, rfl⟩ := e1
    simp [h1, hu, Plain, Boxed]
  · by_cases e2 : ∃ s, j = .obj [(s, .null)]
    · obtain ⟨s, rfl⟩ := e2
      simp [h2, hu, Plain, Boxed]
    · by_cases e3 : ∃ k s, j = .obj [(k, .str s)]
      · obtain ⟨k, s, rfl⟩ := e3
        by_cases hk : k = "custom" <;> simp [h3, hk, Plain, Boxed]
      · rw [h4 j (fun s h => e1 ⟨s, h⟩) (fun s h => e2 ⟨s, h⟩) (fun k s h => e3 ⟨k, s, h⟩)]
        simp only [Option.isSome_none, Bool.false_eq_true, false_iff]
        rintro (⟨s, -, rfl⟩ | ⟨s, -, rfl⟩ | ⟨s, rfl⟩)
        · exact e1 ⟨_, rfl⟩
        · exact e2 ⟨_, rfl⟩
        · exact e3 ⟨_, _, rfl⟩

/-- **C254** for the ways to authenticate and the sources of completions, whose lists are open at the entry `custom`: a
name as a string, a name with null, or `custom` with a string; and for the methods of PKCE. Missing from the property: the
object with null is to be refused. -/
theorem C254_open_partial (j : Json) :
    ((AuthScheme.dec j).isSome ↔ Plain ["none", "bearer", "oAuth2"] j ∨ Boxed ["none", "bearer", "oAuth2"] j ∨
      ∃ s, j = .obj [("custom", .str s)]) ∧
    ((Provider.dec j).isSome ↔ Plain ["static", "resource", "tool", "file"] j ∨
      Boxed ["static", "resource", "tool", "file"] j ∨ ∃ s, j = .obj [("custom", .str s)]) ∧
    ((PkceMethod.dec j).isSome ↔ Plain ["plain", "S256"] j ∨ Boxed ["plain", "S256"] j) := by
  refine ⟨?_, ?_, ?_⟩
  · refine tagged_isSome AuthScheme.unitOf _ .custom ?_ _ (fun _ => rfl) (fun _ => rfl) (fun _ _ => rfl) ?_ j
    · intro s; unfold AuthScheme.unitOf; repeat' split
      all_goals simp_all
    · intro j h1 h2 h3
      unfold AuthScheme.dec
      split
      · exact absurd rfl (h1 _)
      · exact absurd rfl (h2 _)
      · exact absurd rfl (h3 _ _)
      · rfl
  · refine tagged_isSome Provider.unitOf _ .custom ?_ _ (fun _ => rfl) (fun _ => rfl) (fun _ _ => rfl) ?_ j
    · intro s; unfold Provider.unitOf; repeat' split
      all_goals simp_all
    · intro j h1 h2 h3
      unfold Provider.dec
      split
      · exact absurd rfl (h1 _)
      · exact absurd rfl (h2 _)
      · exact absurd rfl (h3 _ _)
      · rfl
  · refine decEnum_isSome _ _ ?_ j
    intro s; repeat' split
    all_goals simp_all

example : AuthScheme.dec (.obj [("custom", .str "hmac")]) = some (.custom "hmac") ∧
    AuthScheme.dec (.obj [("bearer", .null)]) = some .bearer ∧ AuthScheme.dec (.str "custom") = none := ⟨rfl, rfl, rfl⟩

/-- **C254** for the reference of a completion: it is read from an object exactly if its `type` is one of the two names as
a string and the member of that type is a string, and from an array exactly if it holds such a name and a string. -/
theorem C254_reference (j : Json) : (CompletionRef.dec j).isSome ↔
    ∃ t k, (t, k) ∈ [("ref/resource", "uri"), ("ref/prompt", "name")] ∧
      ((∃ f s, j = .obj f ∧ AMap.get f "type" = some (.str t) ∧ AMap.get f k = some (.str s)) ∨
        ∃ s, j = .arr [.str t, .str s]) := by
  have hs (g : String → CompletionRef) (x : Option Json) :
      (x.bind (Option.map g ∘ decStr)).isSome ↔ ∃ s, x = some (.str s) := by
    cases x with
    | none => simp
    | some y => cases y <;> simp [decStr]
  simp only [List.mem_cons, Prod.mk.injEq, List.not_mem_nil, or_false]
  have hr : (∃ t k, (t = "ref/resource" ∧ k = "uri" ∨ t = "ref/prompt" ∧ k = "name") ∧
      ((∃ f s, j = .obj f ∧ AMap.get f "type" = some (.str t) ∧ AMap.get f k = some (.str s)) ∨
        ∃ s, j = .arr [.str t, .str s])) ↔
      ((∃ f s, j = .obj f ∧ AMap.get f "type" = some (.str "ref/resource") ∧ AMap.get f "uri" = some (.str s)) ∨
        ∃ s, j = .arr [.str "ref/resource", .str s]) ∨
      ((∃ f s, j = .obj f ∧ AMap.get f "type" = some (.str "ref/prompt") ∧ AMap.get f "name" = some (.str s)) ∨
        ∃ s, j = .arr [.str "ref/prompt", .str s]) := by
    constructor
    · rintro ⟨t, k, ⟨rfl, rfl⟩ | ⟨rfl, rfl⟩, h⟩
      · exact .inl h
      · exact .inr h
    · rintro (h | h)
      · exact ⟨_, _, .inl ⟨rfl, rfl⟩, h⟩
      · exact ⟨_, _, .inr ⟨rfl, rfl⟩, h⟩
  rw [hr]
  cases j with
  | obj f =>
    cases ht : AMap.get f "type" with
    | none => simp [CompletionRef.dec, tagged, ht]
    | some x =>
      cases x with
      | str t =>
        have h1 : AMap.get (AMap.remove f "type") "uri" = AMap.get f "uri" := AMap.get_remove_ne _ (by decide)
        have h2 : AMap.get (AMap.remove f "type") "name" = AMap.get f "name" := AMap.get_remove_ne _ (by decide)
        simp only [CompletionRef.dec, tagged, ht, variantSrc, Option.bind_eq_bind, Option.bind_some, req_obj, h1, h2]
        by_cases e1 : t = "ref/resource"
        · subst e1
          simp [hs, ht]
        · by_cases e2 : t = "ref/prompt"
          · subst e2
            simp [hs, ht]
          · simp [e1, e2, ht]
      | _ => simp [CompletionRef.dec, tagged, ht]
  | arr l =>
    match l with
    | [] => simp [CompletionRef.dec, tagged]
    | x :: l =>
      cases x with
      | str t =>
        match l with
        | [] =>
          by_cases e1 : t = "ref/resource" <;> by_cases e2 : t = "ref/prompt" <;>
            simp [CompletionRef.dec, tagged, variantSrc, req, e1, e2]
        | [y] =>
          by_cases e1 : t = "ref/resource"
          · cases y <;> simp [CompletionRef.dec, tagged, variantSrc, req, e1, decStr]
          · by_cases e2 : t = "ref/prompt"
            · cases y <;> simp [CompletionRef.dec, tagged, variantSrc, req, e2, decStr]
            · simp [CompletionRef.dec, tagged, variantSrc, e1, e2]
        | y :: z :: l => simp [CompletionRef.dec, tagged, variantSrc]
      | _ => simp [CompletionRef.dec, tagged]
  | _ => simp [CompletionRef.dec, tagged]

example : CompletionRef.dec (.obj [("type", .str "ref/prompt"), ("name", .str "p")]) = some (.prompt "p") ∧
    CompletionRef.dec (.obj [("type", .str "ref/tool"), ("name", .str "p")]) = none ∧
    CompletionRef.dec (.obj [("type", .obj [("ref/prompt", .null)]), ("name", .str "p")]) = none := ⟨rfl, rfl, rfl⟩

/-- **C254** for the method (stdio, WebSocket): a message whose method is no string is refused. -/
theorem C254_method (f : List (String × Json)) (j : Json) (hm : AMap.get f "method" = some j)
    (hj : ∀ s, j ≠ .str s) : parseMessage (.obj f) = none := by
  have hd : decStr j = none := by cases j <;> first | exact absurd rfl (hj _) | rfl
  have h1 : RpcRequest.dec (.obj f) = none := by
    simp only [RpcRequest.dec, src_obj, Option.bind_eq_bind, Option.bind_some, req_obj, hm, hd, Option.bind_none]
    cases (AMap.get f "jsonrpc").bind decStr <;> simp
  have h2 : parseNotification (.obj f) = none := by
    have : RpcNotification.dec (.obj f) = none := by
      simp only [RpcNotification.dec, src_obj, Option.bind_eq_bind, Option.bind_some, req_obj, hm, hd, Option.bind_none]
      cases (AMap.get f "jsonrpc").bind decStr <;> simp
    simp [parseNotification, this]
  simp [parseMessage, vget, hm, h1, h2]

example : ∀ s, Json.obj [("ping", .null)] ≠ .str s := by intro s h; cases h

/-- **C254** fails for the method over streamable HTTP: in a notification, whatever its other members, an object with
the name and null is taken as the name. -/
theorem C254_http_notification (f : List (String × Json)) (m : String) :
    TMsg.dec (.obj (("method", .obj [(m, .null)]) :: f)) = TMsg.dec (.obj (("method", .str m) :: f)) := by
  have hp (j : Json) : Payload.dec (("method", j) :: f) = Payload.dec f := by simp [Payload.dec]
  simp [TMsg.dec, decReqVariant, RpcResponse.dec, Notification.dec, ClientNotification.dec, ServerNotification.dec,
    Progress.dec, Cancelled.dec, decAdj, decEnum, AMap.get_cons, hp]

/-- **C254** fails for the method over streamable HTTP: likewise in a request. -/
theorem C254_http_request (id : Json) (f : List (String × Json)) (m : String) :
    TMsg.dec (.obj [("id", id), ("request", .obj (("method", .obj [(m, .null)]) :: f))]) =
      TMsg.dec (.obj [("id", id), ("request", .obj (("method", .str m) :: f))]) := by
  simp [TMsg.dec, decReqVariant, RpcResponse.dec, Notification.dec, ClientNotification.dec, ServerNotification.dec,
    Progress.dec, Cancelled.dec, Request.dec, ClientRequest.dec, ServerRequest.dec, decAdj, decEnum, AMap.get_cons]

example : ∃ i, TMsg.dec (.obj [("id", .str "1"), ("request", .obj [("method", .obj [("ping", .null)])])]) =
    some (.request i (.client .ping)) := ⟨_, rfl⟩

/-- **C254**: the two ways of reading differ: the notification is refused by stdio and taken over streamable HTTP. -/
theorem C254_transports_differ (p : Json) :
    let f := [("jsonrpc", Json.str "2.0"), ("method", Json.obj [("notifications/initialized", .null)])]
    parseMessage (.obj f) = none ∧ TMsg.dec (.obj f) = some (.notification (.client .initialized)) ∧
      parseMessage (.obj (f ++ [("params", p)])) = none := by
  refine ⟨C254_method _ _ rfl (by intro s h; cases h), rfl, C254_method _ _ rfl (by intro s h; cases h)⟩

end Verif.Wire
