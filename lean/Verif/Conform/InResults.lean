import Verif.Conform.FromServer

/-
What the crate understands of the published schema: responses and results (C192, C193).

`parseMessage` models `StdioTransport::parse_message` (/repo/src/shared/stdio.rs L218-264); the client reads results
with `serde_json::from_value` (/repo/src/client/mod.rs).
-/

namespace Verif.Conform

open Verif Verif.Wire

/-! ### C192: responses -/

/-- **C192** (exact form). A response of the schema without the members of other messages is understood exactly if
its numeric id fits 64 bits, and then with the id and the result it has. -/
theorem C192_responses_partial (s : Schema) (f : List (String × Json)) (h : response s (.obj f) = true)
    (hm : AMap.get f "method" = none) (he : AMap.get f "error" = none) :
    ((parseMessage (.obj f)).isSome ↔ IdFits f) ∧
    ∀ m, parseMessage (.obj f) = some m → ∃ id r, m = .response ⟨"2.0", id, .result r⟩ ∧
      AMap.get f "id" = some id.enc ∧ AMap.get f "result" = some r := by
  simp only [response, object_obj, List.all_cons, List.all_nil, Bool.and_true, Bool.and_eq_true, must_iff] at h
  obtain ⟨⟨v, hv, hv'⟩, ⟨i, hi, hri⟩, r, hr, -⟩ := h
  have hv2 : AMap.get f "jsonrpc" = some (.str "2.0") := by
    rw [hv]; cases v <;> simp [oneOf] at hv'; rw [hv']
  have hfit : IdFits f ↔ (Id.dec i).isSome := by rw [id_dec_iff i hri, IdFits, hi]; simp
  have hp : parseMessage (.obj f) = (RpcResponse.dec (.obj f)).map .response := by
    unfold parseMessage
    simp [vget, hm, hr]
  have hd : RpcResponse.dec (.obj f) = (Id.dec i).map (fun id => ⟨"2.0", id, .result r⟩) := by
    simp only [RpcResponse.dec, Option.bind_eq_bind, req_obj, hv2, hi, Option.bind_some, decStr_str, payload_result f he, hr]
    cases Id.dec i <;> simp
  rw [hp, hd, hfit]
  refine ⟨by simp, ?_⟩
  intro m hm
  simp only [Option.map_map, Option.map_eq_some_iff, Function.comp] at hm
  obtain ⟨id, hid, rfl⟩ := hm
  exact ⟨id, r, rfl, by rw [hi, id_enc i id hri hid], hr⟩

example : response unknown (.obj [("jsonrpc", .str "2.0"), ("id", .num (.int 7)), ("result", .obj [])]) = true := by decide

/-- **C192** (exact form), errors: understood exactly if the id fits 64 bits and the code 32, and then with the id,
code and message it has. -/
theorem C192_errors_partial (f e : List (String × Json)) (h : errorResponse (.obj f) = true)
    (hm : AMap.get f "method" = none) (hr : AMap.get f "result" = none) (he : AMap.get f "error" = some (.obj e)) :
    ((parseMessage (.obj f)).isSome ↔ IdFits f ∧
      ∀ n, AMap.get e "code" = some (.num (.int n)) → -2 ^ 31 ≤ n ∧ n < 2 ^ 31) ∧
    ∀ m, parseMessage (.obj f) = some m → ∃ id x, m = .response ⟨"2.0", id, .error x⟩ ∧ AMap.get f "id" = some id.enc ∧
      AMap.get e "code" = some (encInt x.code) ∧ AMap.get e "message" = some (.str x.message) := by
  simp only [errorResponse, object_obj, List.all_cons, List.all_nil, Bool.and_true, Bool.and_eq_true, must_iff] at h
  obtain ⟨⟨v, hv, hv'⟩, ⟨i, hi, hri⟩, e', he', hes⟩ := h
  cases he.symm.trans he'
  simp only [object_iff, List.mem_cons, List.not_mem_nil, or_false, forall_eq_or_imp, forall_eq] at hes
  obtain ⟨e'', hee, hc, hmsg⟩ := hes
  cases hee
  obtain ⟨t, ht⟩ := str_get e _ hmsg
  rw [must_iff] at hc
  obtain ⟨c, hc, hci⟩ := hc
  have hv2 : AMap.get f "jsonrpc" = some (.str "2.0") := by
    rw [hv]; cases v <;> simp [oneOf] at hv'; rw [hv']
  have hfit : IdFits f ↔ (Id.dec i).isSome := by rw [id_dec_iff i hri, IdFits, hi]; simp
  obtain ⟨d, hd⟩ := Option.isSome_iff_exists.mp (optOf_isSome decVal (AMap.get e "data") (fun j _ => rfl))
  have hp : parseMessage (.obj f) = (RpcResponse.dec (.obj f)).map .response := by
    unfold parseMessage
    simp [vget, hm, hr, he]
  have hx : RpcError.dec (.obj e) = (decInt (-2 ^ 31) (2 ^ 31) c).map (fun n => ⟨n, t, d⟩) := by
    simp only [RpcError.dec, src_obj, Option.bind_eq_bind, Option.bind_some, req_obj, opt_obj, hc, ht, hd, decStr_str]
    cases decInt (-2 ^ 31) (2 ^ 31) c <;> simp
  have hrd : RpcResponse.dec (.obj f) = (Id.dec i).bind (fun id =>
      (decInt (-2 ^ 31) (2 ^ 31) c).map (fun n => ⟨"2.0", id, .error ⟨n, t, d⟩⟩)) := by
    simp only [RpcResponse.dec, Option.bind_eq_bind, req_obj, hv2, hi, Option.bind_some, decStr_str, payload_error f hr, he, hx]
    cases Id.dec i with
    | none => rfl
    | some id => cases decInt (-2 ^ 31) (2 ^ 31) c <;> rfl
  cases c <;> simp [integer] at hci
  rename_i k
  cases k <;> simp at hci
  rename_i n
  rw [hp, hrd, hfit, hc]
  simp only [Option.some.injEq, Json.num.injEq, Num.int.injEq, forall_eq']
  have hcode : (decInt (-2 ^ 31) (2 ^ 31) (.num (.int n))).isSome ↔ -2 ^ 31 ≤ n ∧ n < 2 ^ 31 := by
    simp only [decInt]
    split
    · next h => exact ⟨fun _ => h, fun _ => rfl⟩
    · next h => exact ⟨fun e => (by cases e), fun e => absurd e h⟩
  refine ⟨?_, ?_⟩
  · rw [← hcode]
    cases Id.dec i <;> cases decInt (-2 ^ 31) (2 ^ 31) (.num (.int n)) <;> simp
  · intro m hm
    simp only [Option.map_eq_some_iff, Option.bind_eq_some_iff] at hm
    obtain ⟨_, ⟨id, hid, x, hxx, rfl⟩, rfl⟩ := hm
    refine ⟨id, ⟨x, t, d⟩, rfl, by rw [hi, id_enc i id hri hid], ?_, ht⟩
    simp only [decInt] at hxx
    split at hxx
    · cases hxx; rfl
    · cases hxx

example : errorResponse (.obj [("jsonrpc", .str "2.0"), ("id", .str "a"),
    ("error", .obj [("code", .num (.int (-32601))), ("message", .str "no")])]) = true := by decide

/-! ### C193: results -/

/-- A member that is absent, `null` or a string. (Specification: no counterpart in the code.) -/
def MaybeStr (f : List (String × Json)) (k : String) : Prop :=
  ∀ j, AMap.get f k = some j → j = .null ∨ ∃ s, j = .str s

/-- The content the crate reads: text, images, and resources given by members of the block itself.
(Specification: no counterpart in the code.) -/
def Readable (j : Json) : Prop :=
  HasType "text" j ∨ HasType "image" j ∨
    (HasType "resource" j ∧ ∀ f, j = .obj f →
      (∃ u, AMap.get f "uri" = some (.str u)) ∧ MaybeStr f "text" ∧ MaybeStr f "mimeType")

theorem maybe_str (f : List (String × Json)) (k : String) : (optOf decStr (AMap.get f k)).isSome ↔ MaybeStr f k := by
  unfold MaybeStr
  cases AMap.get f k with
  | none => simp
  | some j => cases j <;> simp [optOf, decOpt, decStr]

theorem hasType_iff (t t' : String) (g : List (String × Json)) (h : AMap.get g "type" = some (.str t)) :
    HasType t' (.obj g) ↔ t = t' := by
  unfold HasType
  constructor
  · rintro ⟨f, hf, ht⟩
    cases hf
    rw [h] at ht
    simpa using ht
  · rintro rfl
    exact ⟨g, rfl, h⟩

theorem block_dec (j : Json) (h : contentBlock j = true) : (Content.dec j).isSome ↔ Readable j := by
  have hr : ∀ (g : List (String × Json)) (k : String), k ≠ "type" →
      AMap.get (AMap.remove g "type") k = AMap.get g k := fun g k hk => AMap.get_remove_ne _ hk
  by_cases hm : either textContent mediaContent j = true
  · rw [media_dec j hm]
    simp only [either, Bool.or_eq_true, textContent, mediaContent, object_iff, List.mem_cons, List.not_mem_nil, or_false,
      forall_eq_or_imp, forall_eq] at hm
    rcases hm with ⟨g, rfl, ht, -⟩ | ⟨g, rfl, ht, -⟩
    · obtain ⟨t, htl, ht⟩ := type_get g _ ht
      simp only [List.mem_singleton] at htl
      subst htl
      simp [Readable, hasType_iff _ _ g ht]
    · obtain ⟨t, htl, ht⟩ := type_get g _ ht
      simp only [List.mem_cons, List.not_mem_nil, or_false] at htl
      rcases htl with rfl | rfl <;> simp [Readable, hasType_iff _ _ g ht]
  · simp only [either, Bool.or_eq_true, not_or, Bool.not_eq_true] at hm
    simp only [contentBlock, either, hm, Bool.false_or, Bool.or_eq_true] at h
    rcases h with h | h
    · simp only [resourceLink, Bool.and_eq_true, object_iff, List.mem_cons, List.not_mem_nil, or_false, forall_eq] at h
      obtain ⟨⟨g, rfl, ht⟩, -⟩ := h
      obtain ⟨t, htl, ht⟩ := type_get g _ ht
      simp only [List.mem_singleton] at htl
      subst htl
      simp [Readable, hasType_iff _ _ g ht, Content.dec, tagged, ht]
    · simp only [embeddedResource, object_iff, List.mem_cons, List.not_mem_nil, or_false, forall_eq_or_imp, forall_eq] at h
      obtain ⟨g, rfl, ht, -⟩ := h
      obtain ⟨t, htl, ht⟩ := type_get g _ ht
      simp only [List.mem_singleton] at htl
      subst htl
      have hu : ((AMap.get g "uri").bind decStr).isSome ↔ ∃ u, AMap.get g "uri" = some (.str u) := by
        cases AMap.get g "uri" with
        | none => simp
        | some j => cases j <;> simp [decStr]
      have hd : (Content.dec (.obj g)).isSome ↔ ((AMap.get g "uri").bind decStr).isSome ∧
          (optOf decStr (AMap.get g "text")).isSome ∧ (optOf decStr (AMap.get g "mimeType")).isSome := by
        simp only [Content.dec, tagged, ht, Option.bind_eq_bind, Option.bind_some, String.reduceEq, if_false, if_true,
          variantSrc, req_obj, opt_obj, hr g "uri" (by decide), hr g "text" (by decide), hr g "mimeType" (by decide)]
        cases (AMap.get g "uri").bind decStr <;> cases optOf decStr (AMap.get g "text") <;>
          cases optOf decStr (AMap.get g "mimeType") <;> simp
      rw [hd, hu, maybe_str, maybe_str]
      simp [Readable, hasType_iff _ _ g ht]

/-- The items of an array member. (Specification: no counterpart in the code.) -/
def items (j : Json) (k : String) : List Json :=
  match j with
  | .obj f => match AMap.get f k with
    | some (.arr l) => l
    | _ => []
  | _ => []

/-- A member of an object. (Specification: no counterpart in the code.) -/
def member (j : Json) (k : String) : Option Json :=
  match j with
  | .obj f => AMap.get f k
  | _ => none

theorem page_dec {α : Type} (field : String) (p : Schema) (d : Json → Option α) (R : Json → Prop)
    (hd : ∀ j, p j = true → ((d j).isSome ↔ R j)) (j : Json) (h : page field p j = true) :
    (Page.dec field d j).isSome ↔ ∀ x ∈ items j field, R x := by
  simp only [page, object_iff, List.mem_cons, List.not_mem_nil, or_false, forall_eq_or_imp, forall_eq, must_iff, may_iff] at h
  obtain ⟨g, rfl, ⟨a, ha, hla⟩, hc⟩ := h
  obtain ⟨l, rfl, hl⟩ := (array_iff _ _).mp hla
  obtain ⟨o, ho⟩ := Option.isSome_iff_exists.mp (optOf_isSome decStr (AMap.get g "nextCursor") (fun j hj => str_dec j (hc j hj)))
  have h1 : (decAll d l).isSome ↔ ∀ x ∈ l, R x := by
    rw [decAll_isSome]
    exact ⟨fun h x hx => (hd x (hl x hx)).mp (h x hx), fun h x hx => (hd x (hl x hx)).mpr (h x hx)⟩
  have h2 : (Page.dec field d (.obj g)).isSome ↔ (decAll d l).isSome := by
    simp only [Page.dec, src_obj, Option.bind_eq_bind, Option.bind_some, req_obj, opt_obj, ha, ho, decList]
    cases decAll d l <;> simp
  rw [h2, h1]
  simp [items, ha]

theorem tool_dec (j : Json) (h : tool j = true) : (ToolInfo.dec j).isSome := by
  simp only [tool, object_iff, List.mem_cons, List.not_mem_nil, or_false, forall_eq_or_imp, forall_eq, may_iff] at h
  obtain ⟨g, rfl, h1, -, h3, h4⟩ := h
  obtain ⟨s, hs⟩ := str_get g _ h1
  obtain ⟨o, ho⟩ := Option.isSome_iff_exists.mp (optOf_isSome decStr (AMap.get g "description") (fun j hj => str_dec j (h3 j hj)))
  obtain ⟨x, hx, -⟩ := (must_iff _ _ _).mp h4
  simp [ToolInfo.dec, hs, ho, hx]

theorem resource_dec (j : Json) (h : resource j = true) : (ResourceInfo.dec "uri" j).isSome := by
  simp only [resource, object_iff, List.mem_cons, List.not_mem_nil, or_false, forall_eq_or_imp, forall_eq, may_iff] at h
  obtain ⟨g, rfl, h1, h2, -, h4, h5, -⟩ := h
  obtain ⟨s, hs⟩ := str_get g _ h1
  obtain ⟨t, ht⟩ := str_get g _ h2
  obtain ⟨o, ho⟩ := Option.isSome_iff_exists.mp (optOf_isSome decStr (AMap.get g "description") (fun j hj => str_dec j (h4 j hj)))
  obtain ⟨q, hq⟩ := Option.isSome_iff_exists.mp (optOf_isSome decStr (AMap.get g "mimeType") (fun j hj => str_dec j (h5 j hj)))
  simp [ResourceInfo.dec, hs, ho, ht, hq]

theorem template_dec (j : Json) (h : resourceTemplate j = true) : (ResourceInfo.dec "uriTemplate" j).isSome := by
  simp only [resourceTemplate, object_iff, List.mem_cons, List.not_mem_nil, or_false, forall_eq_or_imp, forall_eq, may_iff] at h
  obtain ⟨g, rfl, h1, h2, -, h4, h5⟩ := h
  obtain ⟨s, hs⟩ := str_get g _ h1
  obtain ⟨t, ht⟩ := str_get g _ h2
  obtain ⟨o, ho⟩ := Option.isSome_iff_exists.mp (optOf_isSome decStr (AMap.get g "description") (fun j hj => str_dec j (h4 j hj)))
  obtain ⟨q, hq⟩ := Option.isSome_iff_exists.mp (optOf_isSome decStr (AMap.get g "mimeType") (fun j hj => str_dec j (h5 j hj)))
  simp [ResourceInfo.dec, hs, ho, ht, hq]

/-- **C193**, lists: every list of tools, resources and resource templates of the schema is read. -/
theorem C193_lists (j : Json) :
    (page "tools" tool j = true → (Page.dec "tools" ToolInfo.dec j).isSome) ∧
    (page "resources" resource j = true → (Page.dec "resources" (ResourceInfo.dec "uri") j).isSome) ∧
    (page "resourceTemplates" resourceTemplate j = true →
      (Page.dec "resourceTemplates" (ResourceInfo.dec "uriTemplate") j).isSome) := by
  refine ⟨fun h => ?_, fun h => ?_, fun h => ?_⟩
  · exact (page_dec _ _ _ (fun _ => True) (fun j hj => by simp [tool_dec j hj]) j h).mpr (fun _ _ => trivial)
  · exact (page_dec _ _ _ (fun _ => True) (fun j hj => by simp [resource_dec j hj]) j h).mpr (fun _ _ => trivial)
  · exact (page_dec _ _ _ (fun _ => True) (fun j hj => by simp [template_dec j hj]) j h).mpr (fun _ _ => trivial)

example : page "tools" tool (.obj [("tools", .arr [.obj [("name", .str "a"), ("inputSchema", .obj [("type", .str "object")]),
    ("annotations", .obj [])]])]) = true := by decide

theorem promptArg_dec (j : Json) (h : promptArgument j = true) (hc : member j "completion" = none) :
    (PromptArg.dec j).isSome := by
  simp only [promptArgument, object_iff, List.mem_cons, List.not_mem_nil, or_false, forall_eq_or_imp, forall_eq, may_iff] at h
  obtain ⟨g, rfl, h1, -, h3, h4⟩ := h
  obtain ⟨s, hs⟩ := str_get g _ h1
  obtain ⟨o, ho⟩ := Option.isSome_iff_exists.mp (optOf_isSome decStr (AMap.get g "description") (fun j hj => str_dec j (h3 j hj)))
  have hb : (dflt decBool false (.obj g) "required" 2).isSome := by
    rw [dflt_obj]
    cases hg : AMap.get g "required" with
    | none => rfl
    | some j =>
      have := h4 j hg
      cases j <;> simp [bool] at this
      rfl
  obtain ⟨b, hb⟩ := Option.isSome_iff_exists.mp hb
  have hc' : AMap.get g "completion" = none := hc
  simp only [PromptArg.dec, src_obj, Option.bind_eq_bind, Option.bind_some, req_obj, opt_obj, hs, ho, hb, hc', decStr_str,
    optOf_none, Option.isSome_some]

theorem prompt_dec (j : Json) (h : prompt j = true) (hc : ∀ a ∈ items j "arguments", member a "completion" = none) :
    (PromptInfo.dec j).isSome := by
  simp only [prompt, object_iff, List.mem_cons, List.not_mem_nil, or_false, forall_eq_or_imp, forall_eq, may_iff] at h
  obtain ⟨g, rfl, h1, -, h3, h4⟩ := h
  obtain ⟨s, hs⟩ := str_get g _ h1
  obtain ⟨o, ho⟩ := Option.isSome_iff_exists.mp (optOf_isSome decStr (AMap.get g "description") (fun j hj => str_dec j (h3 j hj)))
  have ha : (optOf (decList PromptArg.dec) (AMap.get g "arguments")).isSome := by
    refine optOf_isSome _ _ ?_
    intro j hj
    obtain ⟨l, rfl, hl⟩ := (array_iff _ _).mp (h4 j hj)
    rw [decList, decAll_isSome]
    intro x hx
    refine promptArg_dec x (hl x hx) (hc x ?_)
    simpa [items, hj] using hx
  obtain ⟨a, ha⟩ := Option.isSome_iff_exists.mp ha
  simp [PromptInfo.dec, hs, ho, ha]

/-- **C193**, prompts: a list of prompts is read if no argument has the member `completion`, which the crate adds to
the schema. Missing from the property: lists that use that name for something else. -/
theorem C193_prompts_partial (j : Json) (h : page "prompts" prompt j = true)
    (hc : ∀ p ∈ items j "prompts", ∀ a ∈ items p "arguments", member a "completion" = none) :
    (Page.dec "prompts" PromptInfo.dec j).isSome := by
  simp only [page, object_iff, List.mem_cons, List.not_mem_nil, or_false, forall_eq_or_imp, forall_eq, must_iff, may_iff] at h
  obtain ⟨g, rfl, ⟨a, ha, hla⟩, hcur⟩ := h
  obtain ⟨l, rfl, hl⟩ := (array_iff _ _).mp hla
  obtain ⟨o, ho⟩ := Option.isSome_iff_exists.mp (optOf_isSome decStr (AMap.get g "nextCursor") (fun j hj => str_dec j (hcur j hj)))
  have h1 : (decAll PromptInfo.dec l).isSome := by
    rw [decAll_isSome]
    intro x hx
    exact prompt_dec x (hl x hx) (hc x (by simpa [items, ha] using hx))
  obtain ⟨b, hb⟩ := Option.isSome_iff_exists.mp h1
  simp [Page.dec, ha, ho, decList, hb]

example : page "prompts" prompt (.obj [("prompts", .arr [.obj [("name", .str "p"),
    ("arguments", .arr [.obj [("name", .str "x"), ("required", .bool true)]])]])]) = true := by decide

/-- **C193** (exact form), tool results: read exactly if every block of content is text, an image, or a resource given
by members of the block. Missing from the property: audio, links to resources, and embedded resources as the schema
has them. -/
theorem C193_call_partial (j : Json) (h : callToolResult j = true) :
    (CallToolResult.dec j).isSome ↔ ∀ c ∈ items j "content", Readable c := by
  simp only [callToolResult, object_iff, List.mem_cons, List.not_mem_nil, or_false, forall_eq_or_imp, forall_eq, must_iff,
    may_iff] at h
  obtain ⟨g, rfl, ⟨a, ha, hla⟩, hb, -⟩ := h
  obtain ⟨l, rfl, hl⟩ := (array_iff _ _).mp hla
  have hb' : (dflt decBool false (.obj g) "isError" 1).isSome := by
    rw [dflt_obj]
    cases hg : AMap.get g "isError" with
    | none => rfl
    | some j =>
      have := hb j hg
      cases j <;> simp [bool] at this
      rfl
  obtain ⟨b, hb'⟩ := Option.isSome_iff_exists.mp hb'
  have h1 : (decAll Content.dec l).isSome ↔ ∀ x ∈ l, Readable x := by
    rw [decAll_isSome]
    exact ⟨fun h x hx => (block_dec x (hl x hx)).mp (h x hx), fun h x hx => (block_dec x (hl x hx)).mpr (h x hx)⟩
  have h0 : dflt (decList Content.dec) [] (.obj g) "content" 0 = decAll Content.dec l := by rw [dflt_obj, ha]; rfl
  have h2 : (CallToolResult.dec (.obj g)).isSome ↔ (decAll Content.dec l).isSome := by
    simp only [CallToolResult.dec, src_obj, Option.bind_eq_bind, Option.bind_some, h0, hb']
    cases decAll Content.dec l <;> simp
  rw [h2, h1]
  simp [items, ha]

/-- **C193** fails for audio and for embedded resources as the schema has them: the whole result is refused. -/
theorem C193_audio (d m : String) : callToolResult (.obj [("content", .arr [.obj [("type", .str "audio"), ("data", .str d),
      ("mimeType", .str m)]])]) = true ∧
    CallToolResult.dec (.obj [("content", .arr [.obj [("type", .str "audio"), ("data", .str d), ("mimeType", .str m)]])]) = none :=
  ⟨by simp [callToolResult, object_obj, must, may, AMap.get_cons, AMap.get, array, contentBlock, either, textContent,
      mediaContent, oneOf, str], rfl⟩

/-- **C193** fails for embedded resources as the schema has them. -/
theorem C193_embedded (u t : String) : callToolResult (.obj [("content", .arr [.obj [("type", .str "resource"),
      ("resource", .obj [("uri", .str u), ("text", .str t)])]])]) = true ∧
    CallToolResult.dec (.obj [("content", .arr [.obj [("type", .str "resource"),
      ("resource", .obj [("uri", .str u), ("text", .str t)])]])]) = none :=
  ⟨by simp [callToolResult, object_obj, must, may, AMap.get_cons, AMap.get, array, contentBlock, either, textContent,
      mediaContent, oneOf, str, resourceLink, embeddedResource, resourceContents], rfl⟩

/-- **C193** (exact form), prompts got: as for tool results. -/
theorem C193_getPrompt_partial (j : Json) (h : getPromptResult j = true) :
    (GetPromptResult.dec j).isSome ↔ ∀ m ∈ items j "messages", ∀ c, member m "content" = some c → Readable c := by
  simp only [getPromptResult, object_iff, List.mem_cons, List.not_mem_nil, or_false, forall_eq_or_imp, forall_eq, must_iff,
    may_iff] at h
  obtain ⟨g, rfl, hde, a, ha, hla⟩ := h
  obtain ⟨l, rfl, hl⟩ := (array_iff _ _).mp hla
  obtain ⟨o, ho⟩ := Option.isSome_iff_exists.mp (optOf_isSome decStr (AMap.get g "description") (fun j hj => str_dec j (hde j hj)))
  have hmem : ∀ x, promptMessage x = true → ((Message.dec x).isSome ↔ ∀ c, member x "content" = some c → Readable c) := by
    intro x hx
    rw [message_dec _ _ block_dec x hx]
    constructor
    · intro h c hc
      cases x <;> simp only [member, reduceCtorEq] at hc
      exact h _ c rfl hc
    · intro h f c hf hc
      subst hf
      exact h c hc
  have h1 : (decAll Message.dec l).isSome ↔ ∀ x ∈ l, ∀ c, member x "content" = some c → Readable c := by
    rw [decAll_isSome]
    exact ⟨fun h x hx => (hmem x (hl x hx)).mp (h x hx), fun h x hx => (hmem x (hl x hx)).mpr (h x hx)⟩
  have h2 : (GetPromptResult.dec (.obj g)).isSome ↔ (decAll Message.dec l).isSome := by
    simp only [GetPromptResult.dec, src_obj, Option.bind_eq_bind, Option.bind_some, req_obj, opt_obj, ha, ho, decList]
    cases decAll Message.dec l <;> simp
  rw [h2, h1]
  simp [items, ha]

example : getPromptResult (.obj [("messages", .arr [.obj [("role", .str "user"),
    ("content", .obj [("type", .str "text"), ("text", .str "hi")])]])]) = true := by decide

/-- **C193**, resources read (exact form, for contents without a member `type`, which the schema does not have): read
exactly if there are none. Missing from the property: every resource. -/
theorem C193_read_partial (j : Json) (h : readResourceResult j = true)
    (ht : ∀ c ∈ items j "contents", member c "type" = none) :
    (ReadResult.dec j).isSome ↔ items j "contents" = [] := by
  simp only [readResourceResult, object_iff, List.mem_cons, List.not_mem_nil, or_false, forall_eq, must_iff] at h
  obtain ⟨g, rfl, a, ha, hla⟩ := h
  obtain ⟨l, rfl, -⟩ := (array_iff _ _).mp hla
  have hi : items (.obj g) "contents" = l := by simp [items, ha]
  rw [hi] at ht ⊢
  have h2 : (ReadResult.dec (.obj g)).isSome ↔ (decAll Content.dec l).isSome := by
    simp only [ReadResult.dec, src_obj, Option.bind_eq_bind, Option.bind_some, req_obj, ha, decList]
    cases decAll Content.dec l <;> simp
  rw [h2, decAll_isSome]
  constructor
  · intro h
    cases l with
    | nil => rfl
    | cons x l =>
      exfalso
      have h1 := h x (by simp)
      have h3 := ht x (by simp)
      cases x with
      | obj f =>
        rw [C102_untyped_refused f h3] at h1
        cases h1
      | arr q =>
        obtain ⟨y, hy, hy'⟩ := (array_iff _ _).mp hla
        cases hy
        have := hy' (.arr q) (by simp)
        simp [resourceContents, either, object] at this
      | _ => simp [Content.dec, tagged] at h1
  · rintro rfl x hx
    cases hx

example : readResourceResult (.obj [("contents", .arr [.obj [("uri", .str "file:///a"), ("text", .str "hi")]])]) = true := by
  decide

/-- **C193** (exact form), completions: read exactly if the total, if given, fits 64 bits without sign. -/
theorem C193_complete_partial (j : Json) (h : completeResult j = true) :
    (CompleteResult.dec j).isSome ↔
      ∀ c n, member j "completion" = some c → member c "total" = some (.num (.int n)) → 0 ≤ n ∧ n < 2 ^ 64 := by
  simp only [completeResult, object_iff, List.mem_cons, List.not_mem_nil, or_false, forall_eq, must_iff] at h
  obtain ⟨g, rfl, c, hc, hcs⟩ := h
  obtain ⟨f, rfl, hf⟩ := hcs
  simp only [forall_eq_or_imp, forall_eq, must_iff, may_iff] at hf
  obtain ⟨⟨v, hv, hvs⟩, ht, hb⟩ := hf
  obtain ⟨l, hl⟩ := Option.isSome_iff_exists.mp (array_dec _ _ str_dec v hvs)
  have hb' : (dflt decBool false (.obj f) "hasMore" 2).isSome := by
    rw [dflt_obj]
    cases hg : AMap.get f "hasMore" with
    | none => rfl
    | some j =>
      have := hb j hg
      cases j <;> simp [bool] at this
      rfl
  obtain ⟨b, hb'⟩ := Option.isSome_iff_exists.mp hb'
  have htot : (optOf (decInt 0 (2 ^ 64)) (AMap.get f "total")).isSome ↔
      ∀ n, AMap.get f "total" = some (.num (.int n)) → 0 ≤ n ∧ n < 2 ^ 64 := by
    cases hg : AMap.get f "total" with
    | none => simp
    | some j =>
      have := ht j hg
      cases j <;> simp [integer] at this
      rename_i k
      cases k <;> simp at this
      rename_i n
      simp only [optOf, decOpt, decInt, Option.some.injEq, Json.num.injEq, Num.int.injEq, forall_eq']
      by_cases hn : 0 ≤ n ∧ n < 2 ^ 64
      · simp [hn]
      · simp [hn]
  have h2 : (CompleteResult.dec (.obj g)).isSome ↔ (optOf (decInt 0 (2 ^ 64)) (AMap.get f "total")).isSome := by
    simp only [CompleteResult.dec, Completion.dec, src_obj, Option.bind_eq_bind, Option.bind_some, req_obj, opt_obj, hc, hv,
      hl, hb']
    cases optOf (decInt 0 (2 ^ 64)) (AMap.get f "total") <;> simp
  rw [h2, htot]
  constructor
  · intro h c n hcm hn
    cases hc.symm.trans hcm
    exact h n hn
  · intro h n hn
    exact h _ n hc hn

example : completeResult (.obj [("completion", .obj [("values", .arr [.str "a"]), ("total", .num (.int 1))])]) = true := by
  decide

/-- **C193**, sampling results (exact form, for results without a member `usage`, which the schema does not have):
read exactly if the content is no audio. -/
theorem C193_sample_partial (j : Json) (h : createMessageResult j = true) (hu : member j "usage" = none) :
    (SampleResult.dec j).isSome ↔ ∀ c, member j "content" = some c → ¬ HasType "audio" c := by
  simp only [createMessageResult, object_iff, List.mem_cons, List.not_mem_nil, or_false, forall_eq_or_imp, forall_eq,
    must_iff, may_iff] at h
  obtain ⟨g, rfl, -, ⟨c, hc, hcs⟩, ⟨m, hm, hms⟩, hst⟩ := h
  obtain ⟨s, rfl⟩ := (str_iff m).mp hms
  obtain ⟨o, ho⟩ := Option.isSome_iff_exists.mp (optOf_isSome decStr (AMap.get g "stopReason") (fun j hj => str_dec j (hst j hj)))
  have hu' : AMap.get g "usage" = none := hu
  have h2 : (SampleResult.dec (.obj g)).isSome ↔ (Content.dec c).isSome := by
    simp only [SampleResult.dec, src_obj, Option.bind_eq_bind, Option.bind_some, req_obj, opt_obj, hc, hm, ho, hu',
      decStr_str, optOf_none]
    cases Content.dec c <;> simp
  rw [h2, media_dec c hcs]
  simp [member, hc]

example : createMessageResult (.obj [("role", .str "assistant"), ("content", .obj [("type", .str "text"), ("text", .str "hi")]),
    ("model", .str "m")]) = true := by decide

/-- The server's capabilities use none of the members the crate adds to the schema. (Specification: no counterpart in
the code.) -/
def PlainServerCaps (c : List (String × Json)) : Prop :=
  AMap.get c "sampling" = none ∧ ∀ s, AMap.get c "logging" = some (.obj s) → AMap.get s "levels" = none

theorem listCap_dec (j : Json) (h : object [may "listChanged" bool] j = true) : (ListCap.dec j).isSome := by
  simp only [object_iff, List.mem_cons, List.not_mem_nil, or_false, forall_eq, may_iff] at h
  obtain ⟨g, rfl, hg⟩ := h
  have : (optOf decBool (AMap.get g "listChanged")).isSome := optOf_isSome _ _ (fun j hj => by
    have := hg j hj
    cases j <;> simp [bool] at this
    rfl)
  obtain ⟨a, ha⟩ := Option.isSome_iff_exists.mp this
  simp [ListCap.dec, ha]

theorem resourceCap_dec (j : Json) (h : object [may "subscribe" bool, may "listChanged" bool] j = true) :
    (ResourceCap.dec j).isSome := by
  simp only [object_iff, List.mem_cons, List.not_mem_nil, or_false, forall_eq_or_imp, forall_eq, may_iff] at h
  obtain ⟨g, rfl, hs, hg⟩ := h
  have hb : ∀ k, (∀ j, AMap.get g k = some j → bool j = true) → (optOf decBool (AMap.get g k)).isSome :=
    fun k hk => optOf_isSome _ _ (fun j hj => by
      have := hk j hj
      cases j <;> simp [bool] at this
      rfl)
  obtain ⟨a, ha⟩ := Option.isSome_iff_exists.mp (hb _ hs)
  obtain ⟨b, hb⟩ := Option.isSome_iff_exists.mp (hb _ hg)
  simp [ResourceCap.dec, ha, hb]

theorem serverCaps_dec (c : List (String × Json)) (h : serverCapabilities (.obj c) = true) (hp : PlainServerCaps c) :
    (ServerCaps.dec (.obj c)).isSome := by
  simp only [serverCapabilities, object_obj, List.all_cons, List.all_nil, Bool.and_true, Bool.and_eq_true] at h
  obtain ⟨h1, h2, h3, h4, h5, h6⟩ := h
  rw [may_iff] at h2 h3 h4 h5 h6
  obtain ⟨g, hg⟩ := Option.isSome_iff_exists.mp (experimental_dec (AMap.get c "experimental") h1)
  obtain ⟨a, ha⟩ := Option.isSome_iff_exists.mp (optOf_isSome ListCap.dec (AMap.get c "tools") (fun j hj => listCap_dec j (h6 j hj)))
  obtain ⟨b, hb⟩ := Option.isSome_iff_exists.mp (optOf_isSome ListCap.dec (AMap.get c "prompts") (fun j hj => listCap_dec j (h4 j hj)))
  obtain ⟨d, hd⟩ := Option.isSome_iff_exists.mp (optOf_isSome ResourceCap.dec (AMap.get c "resources")
    (fun j hj => resourceCap_dec j (h5 j hj)))
  obtain ⟨e, he⟩ := Option.isSome_iff_exists.mp (optOf_isSome (NamesCap.dec "levels") (AMap.get c "logging") (fun j hj => by
    obtain ⟨s, rfl⟩ := (anyObject_iff j).mp (h2 j hj)
    simp [NamesCap.dec, hp.2 s hj]))
  obtain ⟨f, hf⟩ := Option.isSome_iff_exists.mp (optOf_isSome decUnitStruct (AMap.get c "completions") (fun j hj => by
    obtain ⟨s, rfl⟩ := (anyObject_iff j).mp (h3 j hj)
    rfl))
  simp [ServerCaps.dec, ha, hb, hd, he, hf, hg, hp.1]

/-- **C193**, the result of `initialize`: read if the capabilities use no member the crate adds to the schema.
Missing from the property: results that use those names for something else. -/
theorem C193_initialize_partial (j : Json) (h : initializeResult j = true)
    (hp : ∀ c, member j "capabilities" = some (.obj c) → PlainServerCaps c) :
    ∃ r i, InitResult.dec j = some r ∧ member j "protocolVersion" = some (.str r.protocolVersion) ∧
      member j "serverInfo" = some i ∧ member i "name" = some (.str r.serverInfo.name) ∧
      member i "version" = some (.str r.serverInfo.version) ∧
      (r.capabilities.tools.isSome ↔ ∃ c, member j "capabilities" = some c ∧ (member c "tools").isSome) ∧
      (r.capabilities.prompts.isSome ↔ ∃ c, member j "capabilities" = some c ∧ (member c "prompts").isSome) ∧
      (r.capabilities.resources.isSome ↔ ∃ c, member j "capabilities" = some c ∧ (member c "resources").isSome) ∧
      (r.capabilities.logging.isSome ↔ ∃ c, member j "capabilities" = some c ∧ (member c "logging").isSome) ∧
      (r.capabilities.completions.isSome ↔ ∃ c, member j "capabilities" = some c ∧ (member c "completions").isSome) := by
  simp only [initializeResult, object_iff, List.mem_cons, List.not_mem_nil, or_false, forall_eq_or_imp, forall_eq] at h
  obtain ⟨g, rfl, h1, h2, h3, h4⟩ := h
  obtain ⟨v, hv⟩ := str_get g _ h1
  rw [must_iff] at h2 h3
  rw [may_iff] at h4
  obtain ⟨cj, hc, hcs⟩ := h2
  obtain ⟨c, rfl, -⟩ := (object_iff _ _).mp hcs
  obtain ⟨ij, hi, his⟩ := h3
  obtain ⟨n, rfl, hn⟩ := (object_iff _ _).mp his
  simp only [List.mem_cons, List.not_mem_nil, or_false, forall_eq_or_imp, forall_eq] at hn
  obtain ⟨a, ha⟩ := str_get n _ hn.1
  obtain ⟨b, hb⟩ := str_get n _ hn.2.2
  obtain ⟨o, ho⟩ := Option.isSome_iff_exists.mp (optOf_isSome decStr (AMap.get g "instructions") (fun j hj => str_dec j (h4 j hj)))
  obtain ⟨caps, hcaps⟩ := Option.isSome_iff_exists.mp (serverCaps_dec c hcs (hp c hc))
  have hi' : Impl.dec (.obj n) = some ⟨a, b⟩ := by simp [Impl.dec, ha, hb]
  have hnn : ∀ (k : String), (∀ j, AMap.get c k = some j → anyObject j = true) → AMap.get c k ≠ some .null := by
    intro k hk hn
    have := hk _ hn
    simp [anyObject] at this
  have hopt : ∀ {α : Type} (d : Json → Option α) (k : String) (r : Option α), AMap.get c k ≠ some .null →
      optOf d (AMap.get c k) = some r → (r.isSome ↔ (AMap.get c k).isSome) := by
    intro α d k r hk hr
    cases hg : AMap.get c k with
    | none => rw [hg] at hr; simp only [optOf_none, Option.some.injEq] at hr; subst hr; simp
    | some j =>
      rw [hg] at hr hk
      cases j <;> simp [optOf, decOpt, Option.map_eq_some_iff] at hr hk <;> obtain ⟨x, -, rfl⟩ := hr <;> simp
  simp only [serverCapabilities, object_obj, List.all_cons, List.all_nil, Bool.and_true, Bool.and_eq_true] at hcs
  obtain ⟨-, k2, k3, k4, k5, k6⟩ := hcs
  rw [may_iff] at k2 k3 k4 k5 k6
  have hobj : ∀ l j, object l j = true → anyObject j = true := by
    intro l j hj
    obtain ⟨x, rfl, -⟩ := (object_iff _ _).mp hj
    rfl
  have n2 := hnn "logging" k2
  have n3 := hnn "completions" k3
  have n4 := hnn "prompts" (fun j hj => hobj _ j (k4 j hj))
  have n5 := hnn "resources" (fun j hj => hobj _ j (k5 j hj))
  have n6 := hnn "tools" (fun j hj => hobj _ j (k6 j hj))
  simp only [ServerCaps.dec, src_obj, Option.bind_eq_bind, Option.bind_some, opt_obj, Option.bind_eq_some_iff] at hcaps
  obtain ⟨t, ht, p, hpr, rs, hrs, lg, hlg, cm, hcm, sm, hsm, ex, hex, hcaps⟩ := hcaps
  have hcaps' : ServerCaps.dec (.obj c) = some caps := by
    simp [ServerCaps.dec, ht, hpr, hrs, hlg, hcm, hsm, hex, ← hcaps]
  cases hcaps
  refine ⟨⟨v, ⟨t, p, rs, lg, cm, sm, ex⟩, ⟨a, b⟩, o⟩, .obj n, ?_, hv, hi, ha, hb, ?_, ?_, ?_, ?_, ?_⟩
  · simp [InitResult.dec, hv, hc, hcaps', hi, hi', ho]
  · rw [hopt _ _ _ n6 ht]; simp [member, hc]
  · rw [hopt _ _ _ n4 hpr]; simp [member, hc]
  · rw [hopt _ _ _ n5 hrs]; simp [member, hc]
  · rw [hopt _ _ _ n2 hlg]; simp [member, hc]
  · rw [hopt _ _ _ n3 hcm]; simp [member, hc]

example : initializeResult (.obj [("protocolVersion", .str "2025-06-18"), ("serverInfo", .obj [("name", .str "s"), ("version", .str "1")]),
    ("capabilities", .obj [("tools", .obj [("listChanged", .bool true)]), ("logging", .obj [])])]) = true := by decide

end Verif.Conform
