import Verif.Subscriptions.Lemmas
import Verif.Server.Model
import Verif.Common.ListExtra

/-
Properties of the server: C63, C64, C106-C114.
-/

namespace Verif.Server

open Verif Verif.Wire

variable {W : Type}

/-! ### Specifications -/

/-- No handler of the server panics. (Specification: no counterpart in the code.) -/
structure NoPanic (srv : Srv W) : Prop where
  tools : ∀ n h, AMap.get srv.tools n = some h → ∀ a e w, (h a e w).1 ≠ .panic
  prompts : ∀ n h, AMap.get srv.prompts n = some h → ∀ a e w, (h a e w).1 ≠ .panic
  list : ∀ h, srv.resources = some h → ∀ c e w, (h.1 c e w).1 ≠ .panic
  read : ∀ h, srv.resources = some h → ∀ u e w, (h.2 u e w).1 ≠ .panic
  sampling : ∀ h, srv.sampling = some h → ∀ p e w, (h p e w).1 ≠ .panic

/-- The handler given in the last registration of a tool. (Specification: no counterpart in the code.) -/
def lastTool (l : List (Build W)) (n : String) : Option (Json → Extra → W → Outcome Json × W) :=
  l.reverse.findSome? (fun b => match b with
    | .tool m h => if m = n then some h else none
    | _ => none)

/-- The handler given in the last registration of a prompt. (Specification: no counterpart in the code.) -/
def lastPrompt (l : List (Build W)) (n : String) :
    Option (List (String × String) → Extra → W → Outcome GetPromptResult × W) :=
  l.reverse.findSome? (fun b => match b with
    | .prompt m h => if m = n then some h else none
    | _ => none)

/-- The argument of the last `capabilities` call, or the default. (Specification: no counterpart in the code.) -/
def lastCaps (l : List (Build W)) : ServerCaps :=
  (l.reverse.findSome? (fun b => match b with
    | .capabilities c => some c
    | _ => none)).getD {}

/-- The type a client reads the result of a request as (the result types of /repo/src/client/mod.rs); results of
the other requests are not looked at. -/
def reads : ClientRequest → Json → Bool
  | .init _, j => (InitResult.dec j).isSome
  | .listTools _, j => (Page.dec "tools" ToolInfo.dec j).isSome
  | .callTool _, j => (CallToolResult.dec j).isSome
  | .listPrompts _, j => (Page.dec "prompts" PromptInfo.dec j).isSome
  | .getPrompt _, j => (GetPromptResult.dec j).isSome
  | .listResources _, j => (Page.dec "resources" (ResourceInfo.dec "uri") j).isSome
  | .listTemplates _, j => (Page.dec "resourceTemplates" (ResourceInfo.dec "uriTemplate") j).isSome
  | .readResource _, j => (ReadResult.dec j).isSome
  | .complete _, j => (CompleteResult.dec j).isSome
  | .createMessage _, j => (SampleResult.dec j).isSome
  | _, _ => true

/-! ### C63 -/

theorem afterHandler_panic {α : Type} (st : St W) (r : Outcome α × W) (f : α → Json)
    (h : r.1 ≠ .panic) : (afterHandler st r f).1 ≠ .panic := by
  rcases r with ⟨o, w⟩; cases o <;> simp_all [afterHandler]

theorem createResponse_id (id : Id) (o : Outcome Json) (r : RpcResponse) (h : createResponse id o = some r) :
    r.id = id ∧ r.jsonrpc = "2.0" := by
  cases o <;> simp [createResponse] at h <;> subst h <;> simp

theorem createResponse_some (id : Id) (o : Outcome Json) (h : o ≠ .panic) : (createResponse id o).isSome := by
  cases o <;> simp_all [createResponse]

theorem handle_client (srv : Srv W) (st : St W) (id : Id) (r : ClientRequest) (hi : ∀ p, r ≠ .init p) :
    handleRequest srv st id (.client r) = (createResponse id (process srv st id r).1, (process srv st id r).2) := by
  cases r with
  | init p => exact absurd rfl (hi p)
  | _ => simp only [handleRequest]

/-- **C63**. Every response has the id of the request. -/
theorem C63_id (srv : Srv W) (st : St W) (id : Id) (r : Request) (resp : RpcResponse)
    (h : (handleRequest srv st id r).1 = some resp) : resp.id = id ∧ resp.jsonrpc = "2.0" := by
  cases r with
  | server r => simp [handleRequest] at h; subst h; simp
  | client r =>
    by_cases hi : ∃ p, r = .init p
    · obtain ⟨p, rfl⟩ := hi
      simp only [handleRequest, Option.some.injEq] at h; subst h; simp
    · rw [handle_client srv st id r (fun p hp => hi ⟨p, hp⟩)] at h
      exact createResponse_id _ _ _ h

theorem process_panic (srv : Srv W) (hp : NoPanic srv) (st : St W) (id : Id) (r : ClientRequest)
    (hi : ∀ p, r ≠ .init p) : (process srv st id r).1 ≠ .panic := by
  cases r with
  | init p => exact absurd rfl (hi p)
  | callTool p =>
    simp only [process]; split
    · simp
    · next h hg => exact afterHandler_panic _ _ _ (hp.tools _ _ hg _ _ _)
  | getPrompt p =>
    simp only [process]; split
    · simp
    · next h hg => exact afterHandler_panic _ _ _ (hp.prompts _ _ hg _ _ _)
  | listResources p =>
    simp only [process]; split
    · simp
    · next h hg => exact afterHandler_panic _ _ _ (hp.list _ hg _ _ _)
  | readResource p =>
    simp only [process]; split
    · simp
    · next h hg => exact afterHandler_panic _ _ _ (hp.read _ hg _ _ _)
  | createMessage p =>
    simp only [process]; split
    · simp
    · next h hg => exact afterHandler_panic _ _ _ (hp.sampling _ hg _ _ _)
  | elicitResponse p =>
    simp only [process]; split
    · simp
    · split <;> simp
  | _ => simp [process]

/-- **C63**. Every request is answered, whatever the state, if no handler panics. Missing from the property: a
handler that panics (`C63_panic`). -/
theorem C63_answered_partial (srv : Srv W) (hp : NoPanic srv) (st : St W) (id : Id) (r : Request) :
    ((handleRequest srv st id r).1).isSome := by
  cases r with
  | server r => simp [handleRequest]
  | client r =>
    by_cases hi : ∃ p, r = .init p
    · obtain ⟨p, rfl⟩ := hi
      simp [handleRequest]
    · have hi : ∀ p, r ≠ .init p := fun p hp => hi ⟨p, hp⟩
      rw [handle_client srv st id r hi]
      exact createResponse_some _ _ (process_panic srv hp st id _ hi)

/-- **C63** fails for a panicking tool: no response at all. -/
theorem C63_panic (srv : Srv W) (st : St W) (id : Id) (p : CallTool)
    (h : Json → Extra → W → Outcome Json × W) (hg : AMap.get srv.tools p.name = some h)
    (hp : (h p.arguments (extraOf st id) st.world).1 = .panic) :
    (handleRequest srv st id (.client (.callTool p))).1 = none := by
  simp only [handleRequest, process, hg]
  cases hr : h p.arguments (extraOf st id) st.world with
  | mk o w => rw [hr] at hp; simp at hp; subst hp; simp [afterHandler, createResponse]

/-- The request calls a handler of the program that panics, in the state given.
(Specification: no counterpart in the code.) -/
def Panics (srv : Srv W) (st : St W) (id : Id) : Request → Prop
  | .client (.callTool p) => ∃ f, AMap.get srv.tools p.name = some f ∧
      (f p.arguments (extraOf st id) st.world).1 = .panic
  | .client (.getPrompt p) => ∃ f, AMap.get srv.prompts p.name = some f ∧
      (f p.arguments (extraOf st id) st.world).1 = .panic
  | .client (.listResources p) => ∃ f, srv.resources = some f ∧ (f.1 p.cursor (extraOf st id) st.world).1 = .panic
  | .client (.readResource p) => ∃ f, srv.resources = some f ∧ (f.2 p.uri (extraOf st id) st.world).1 = .panic
  | .client (.createMessage p) => ∃ f, srv.sampling = some f ∧ (f p (extraOf st id) st.world).1 = .panic
  | _ => False

theorem unanswered_after {α : Type} (st : St W) (id : Id) (r : Outcome α × W) (f : α → Json) :
    createResponse id (afterHandler st r f).1 = none ↔ r.1 = .panic := by
  obtain ⟨o, w⟩ := r
  cases o <;> simp [afterHandler, createResponse]

/-- **C63**, exactly: a request gets no response precisely if the handler it calls panics. -/
theorem C63_unanswered_iff (srv : Srv W) (st : St W) (id : Id) (r : Request) :
    (handleRequest srv st id r).1 = none ↔ Panics srv st id r := by
  cases r with
  | server r => simp [handleRequest, Panics]
  | client r =>
    cases r with
    | init p => simp [handleRequest, Panics]
    | callTool p =>
      simp only [handleRequest, process, Panics]
      cases AMap.get srv.tools p.name with
      | none => simp [createResponse]
      | some f => simp [unanswered_after]
    | getPrompt p =>
      simp only [handleRequest, process, Panics]
      cases AMap.get srv.prompts p.name with
      | none => simp [createResponse]
      | some f => simp [unanswered_after]
    | listResources p =>
      simp only [handleRequest, process, Panics]
      cases srv.resources with
      | none => simp [createResponse]
      | some f => simp [unanswered_after]
    | readResource p =>
      simp only [handleRequest, process, Panics]
      cases srv.resources with
      | none => simp [createResponse]
      | some f => simp [unanswered_after]
    | createMessage p =>
      simp only [handleRequest, process, Panics]
      cases srv.sampling with
      | none => simp [createResponse]
      | some f => simp [unanswered_after]
    | elicitResponse p =>
      simp only [handleRequest, process, Panics, iff_false]
      cases st.elicit with
      | none => simp [createResponse]
      | some m => simp only; split <;> simp [createResponse]
    | _ => simp [handleRequest, process, Panics, createResponse]

/-- A server for the examples: a tool that fails with a protocol error, one that panics, a counter as world.
(Specification: no counterpart in the code.) -/
def exampleServer : Srv Nat :=
  build ⟨"s", "1"⟩ (fun _ => "json")
    [.tool "fail" (fun _ _ w => (.err (.protocol ⟨-32602, by decide⟩ "bad" (some .null)), w + 1)),
     .tool "echo" (fun v _ w => (.ok v, w + 1)),
     .tool "boom" (fun _ _ w => (.panic, w)),
     .prompt "hello" (fun _ _ w => (.ok { messages := [] }, w))]

/-- (Specification: no counterpart in the code.) -/
def callFail : Request := .client (.callTool { name := "fail", arguments := .null })

example : ((handleRequest exampleServer (St.init 0) (.str "7") callFail).1.map (·.id)) = some (.str "7") := by
  decide +kernel

example : ((handleRequest exampleServer (St.init 0) (.str "7")
    (.client (.callTool { name := "boom", arguments := .null }))).1.isNone) = true := by decide +kernel

example : Panics exampleServer (St.init 0) (.str "7") (.client (.callTool { name := "boom", arguments := .null })) :=
  (C63_unanswered_iff _ _ _ _).mp (Option.isNone_iff_eq_none.mp (by decide +kernel))

/-! ### C64 -/

/-- **C64**. Turning an error into its wire form keeps code, message and data. -/
theorem C64_to_wire (c : I32) (m : String) (d : Option Json) :
    toRpcError (.protocol c m d) = { code := c, message := m, data := d } := rfl

/-- **C64**. A received code is exposed unchanged exactly if it is outside the server range or one of the four
known codes in it; message and data always are. Missing from the property: the other codes of the range. -/
theorem C64_received_partial (e : RpcError) :
    fromRpcError e = .protocol e.code e.message e.data ↔
      ¬(-32099 ≤ e.code.1 ∧ e.code.1 ≤ -32000) ∨ (-32004 ≤ e.code.1 ∧ e.code.1 ≤ -32001) := by
  obtain ⟨⟨c, hc⟩, m, d⟩ := e
  simp only [fromRpcError, Err.protocol.injEq, and_true, fromI32, internalError, List.mem_cons, List.not_mem_nil, or_false]
  split
  · next h => simp; omega
  · split
    · next h => simp; omega
    · split
      · next h => simp only [Subtype.mk.injEq]; omega
      · next h => simp; omega

/-- **C64**. A code in the server range comes out as one of the four known codes or as -32603. -/
theorem C64_received_range (e : RpcError) (h : -32099 ≤ e.code.1 ∧ e.code.1 ≤ -32000) :
    ∃ c, fromRpcError e = .protocol c e.message e.data ∧
      (c.1 = -32603 ∨ (-32004 ≤ c.1 ∧ c.1 ≤ -32001 ∧ c = e.code)) := by
  refine ⟨fromI32 e.code, rfl, ?_⟩
  obtain ⟨⟨c, hc⟩, m, d⟩ := e
  simp only [fromI32, internalError, List.mem_cons, List.not_mem_nil, or_false] at *
  split
  · next h' => omega
  · split
    · next h' => right; dsimp only at h' ⊢; exact ⟨by omega, by omega, rfl⟩
    · simp

/-- The error of a response. (Specification: no counterpart in the code.) -/
def errorOf (r : Option RpcResponse) : Option RpcError := match r with
  | some { payload := .error e, .. } => some e
  | _ => none

/-- **C64** fails on the server's side: whatever the handler of a tool raised, the peer gets -32603, the text,
and no data. -/
theorem C64_tool_error (srv : Srv W) (st : St W) (id : Id) (p : CallTool)
    (h : Json → Extra → W → Outcome Json × W) (hg : AMap.get srv.tools p.name = some h) (e : Err) (w : W)
    (he : h p.arguments (extraOf st id) st.world = (.err e, w)) :
    errorOf (handleRequest srv st id (.client (.callTool p))).1 =
      some { code := internalError, message := e.text, data := none } := by
  simp [handleRequest, process, hg, he, afterHandler, createResponse, errorOf]

/-- **C64**. Every error answer of the server has the code -32603, but for requests only a server may send
(-32601): no other code ever reaches the peer. -/
theorem C64_only_internal (srv : Srv W) (st : St W) (id : Id) (r : Request) (e : RpcError)
    (h : errorOf (handleRequest srv st id r).1 = some e) :
    e.data = none ∧ ((∃ c, r = .client c ∧ e.code.1 = -32603) ∨ (∃ s, r = .server s ∧ e.code.1 = -32601)) := by
  cases r with
  | server r => simp [handleRequest, errorOf] at h; subst h; simp
  | client r =>
    have key : ∀ o, errorOf (createResponse id o) = some e → e.data = none ∧ e.code.1 = -32603 := by
      intro o ho
      cases o <;> simp [createResponse, errorOf] at ho
      subst ho; simp [internalError]
    by_cases hi : ∃ p, r = .init p
    · obtain ⟨p, rfl⟩ := hi
      simp [handleRequest, errorOf] at h
    · rw [handle_client srv st id r (fun p hp => hi ⟨p, hp⟩)] at h
      obtain ⟨a, b⟩ := key _ h
      exact ⟨a, Or.inl ⟨_, rfl, b⟩⟩

/-- **C64**. The texts of the server's own errors name what was not there. -/
theorem C64_texts (srv : Srv W) (st : St W) (id : Id) :
    (∀ p, AMap.get srv.tools p.name = none → (errorOf (handleRequest srv st id (.client (.callTool p))).1).map (·.message) =
      some ("Resource not found: Tool '" ++ p.name ++ "' not found")) ∧
    (∀ p, AMap.get srv.prompts p.name = none →
      (errorOf (handleRequest srv st id (.client (.getPrompt p))).1).map (·.message) =
        some ("Resource not found: Prompt '" ++ p.name ++ "' not found")) ∧
    (∀ p, srv.resources = none → (errorOf (handleRequest srv st id (.client (.readResource p))).1).map (·.message) =
      some "Resource not found: No resource handler configured") ∧
    (∀ p, srv.sampling = none → (errorOf (handleRequest srv st id (.client (.createMessage p))).1).map (·.message) =
      some "Resource not found: No sampling handler configured") ∧
    (∀ r, (errorOf (handleRequest srv st id (.server r)).1).map (·.message) =
      some "Server requests not supported by server") := by
  have key : ∀ r e, (∀ p, r ≠ .init p) → (process srv st id r).1 = .err e →
      (errorOf (handleRequest srv st id (.client r)).1).map (·.message) = some e.text := by
    intro r e hi he
    rw [handle_client srv st id r hi, he]
    rfl
  have pre : ∀ a b c : String, "Resource not found: " ++ (a ++ b ++ c) = "Resource not found: " ++ a ++ b ++ c := by
    intro a b c
    rw [← String.append_assoc, ← String.append_assoc]
  refine ⟨fun p h => ?_, fun p h => ?_, fun p h => ?_, fun p h => ?_, fun r => rfl⟩
  · rw [key _ (notFound ("Tool '" ++ p.name ++ "' not found")) (by intro q; simp) (by simp only [process, h])]
    show some ("Resource not found: " ++ ("Tool '" ++ p.name ++ "' not found")) = _
    rw [pre, show "Resource not found: " ++ "Tool '" = "Resource not found: Tool '" by decide]
  · rw [key _ (notFound ("Prompt '" ++ p.name ++ "' not found")) (by intro q; simp) (by simp only [process, h])]
    show some ("Resource not found: " ++ ("Prompt '" ++ p.name ++ "' not found")) = _
    rw [pre, show "Resource not found: " ++ "Prompt '" = "Resource not found: Prompt '" by decide]
  · rw [key _ (notFound "No resource handler configured") (by intro q; simp) (by simp only [process, h])]
    decide
  · rw [key _ (notFound "No sampling handler configured") (by intro q; simp) (by simp only [process, h])]
    decide

example : (errorOf (handleRequest exampleServer (St.init 0) (.str "7") (.client (.callTool ⟨"none", .null⟩))).1).map (·.message) =
    some "Resource not found: Tool 'none' not found" := by decide +kernel

/-- **C64** for a tool's protocol error: the peer sees the code raised exactly if it is -32603. -/
theorem C64_tool_code_partial (srv : Srv W) (st : St W) (id : Id) (p : CallTool)
    (h : Json → Extra → W → Outcome Json × W) (hg : AMap.get srv.tools p.name = some h) (c : I32) (m : String)
    (d : Option Json) (w : W) (he : h p.arguments (extraOf st id) st.world = (.err (.protocol c m d), w)) :
    ((errorOf (handleRequest srv st id (.client (.callTool p))).1).map (·.code) = some c) ↔ c.1 = -32603 := by
  rw [C64_tool_error srv st id p h hg _ w he]
  simp only [Option.map_some, Option.some.injEq]
  constructor
  · intro h; rw [← h]; rfl
  · intro h; exact Subtype.ext h.symm

example : (errorOf (handleRequest exampleServer (St.init 0) (.str "7") callFail).1).map (·.code.1) = some (-32603) := by
  decide +kernel

/-! ### C110: results are of the type the client reads -/

/-- **C110**. Every successful answer can be read as the result of the request, but for `completion/complete`.
Missing from the property: that request (`C110_complete`). -/
theorem C110_readable_partial (srv : Srv W) (st : St W) (id : Id) (r : ClientRequest) (v : Json) (resp : RpcResponse)
    (h : (handleRequest srv st id (.client r)).1 = some resp) (hv : resp.payload = .result v)
    (hc : ∀ p, r ≠ .complete p) : reads r v := by
  have key : ∀ o, createResponse id o = some resp → o = .ok v := by
    intro o ho
    cases o <;> simp [createResponse] at ho
    · subst ho; simpa using hv
    · subst ho; simp at hv
  have key' : (∀ p, r ≠ .init p) → (process srv st id r).1 = .ok v := by
    intro hi
    rw [handle_client srv st id r hi] at h
    exact key _ h
  have ah : ∀ {α : Type} (x : Outcome α × W) (f : α → Json), (afterHandler st x f).1 = .ok v → ∃ a, v = f a := by
    intro α x f hx
    rcases x with ⟨o, w⟩
    cases o <;> simp [afterHandler] at hx
    exact ⟨_, hx.symm⟩
  cases r with
  | init p =>
    simp only [handleRequest, Option.some.injEq] at h; subst h
    simp only [Payload.result.injEq] at hv; subst hv
    simp [reads, InitResult.dec, InitResult.enc]
  | listTools p =>
    have := key' (by simp)
    simp only [process, Outcome.ok.injEq] at this; subst this
    simp only [reads, Page.rt "tools" ToolInfo.dec ToolInfo.enc _ (by decide) (fun a _ => ToolInfo.rt a), Option.isSome_some]
  | callTool p =>
    have := key' (by simp)
    simp only [process] at this
    split at this
    · cases this
    · obtain ⟨a, rfl⟩ := ah _ _ this
      simp [reads, CallToolResult.dec, CallToolResult.enc]
  | listPrompts p =>
    have := key' (by simp)
    simp only [process, Outcome.ok.injEq] at this; subst this
    have hp := Page.rt "prompts" PromptInfo.dec PromptInfo.enc
      ⟨(AMap.keys srv.prompts).map (fun n => ⟨n, none, none⟩), none⟩ (by decide)
      (fun a ha => PromptInfo.rt a (by
        obtain ⟨n, _, rfl⟩ := List.mem_map.mp ha
        intro l hl; simp at hl))
    simp only [reads, hp, Option.isSome_some]
  | getPrompt p =>
    have := key' (by simp)
    simp only [process] at this
    split at this
    · cases this
    · obtain ⟨a, rfl⟩ := ah _ _ this
      simp [reads, GetPromptResult.dec, GetPromptResult.enc]
  | listResources p =>
    have := key' (by simp)
    simp only [process] at this
    split at this
    · simp only [Outcome.ok.injEq] at this; subst this
      simp only [reads, Page.rt "resources" _ _ _ (by decide) (fun a _ => ResourceInfo.rt_uri a), Option.isSome_some]
    · obtain ⟨a, rfl⟩ := ah _ _ this
      simp only [reads, Page.rt "resources" _ _ _ (by decide) (fun a _ => ResourceInfo.rt_uri a), Option.isSome_some]
  | listTemplates p =>
    have := key' (by simp)
    simp only [process, Outcome.ok.injEq] at this; subst this
    simp only [reads, Page.rt "resourceTemplates" _ _ _ (by decide) (fun a _ => ResourceInfo.rt_template a),
      Option.isSome_some]
  | readResource p =>
    have := key' (by simp)
    simp only [process] at this
    split at this
    · cases this
    · obtain ⟨a, rfl⟩ := ah _ _ this
      simp [reads, ReadResult.dec, ReadResult.enc]
  | createMessage p =>
    have := key' (by simp)
    simp only [process] at this
    split at this
    · cases this
    · obtain ⟨a, rfl⟩ := ah _ _ this
      simp [reads, SampleResult.dec, SampleResult.enc]
  | complete p => exact absurd rfl (hc p)
  | _ => simp [reads]

/-- **C110** fails for `completion/complete`: the answer is always a success, and never a completion. -/
theorem C110_complete (srv : Srv W) (st : St W) (id : Id) (p) :
    ∃ v, (handleRequest srv st id (.client (.complete p))).1 = some { jsonrpc := "2.0", id := id, payload := .result v } ∧
      reads (.complete p) v = false := by
  exact ⟨emptyObj, by simp [handleRequest, process, createResponse], by simp [reads, emptyObj, CompleteResult.dec]⟩

/-- **C110**. What the handler of a prompt returned is what the client reads. -/
theorem C110_prompt (srv : Srv W) (st : St W) (id : Id) (p : GetPrompt) (h) (hg : AMap.get srv.prompts p.name = some h)
    (g : GetPromptResult) (w : W) (he : h p.arguments (extraOf st id) st.world = (.ok g, w)) :
    ∃ v, (handleRequest srv st id (.client (.getPrompt p))).1 =
      some { jsonrpc := "2.0", id := id, payload := .result v } ∧ GetPromptResult.dec v = some g := by
  refine ⟨GetPromptResult.enc g, ?_, by simp [GetPromptResult.dec, GetPromptResult.enc]⟩
  simp [handleRequest, process, hg, he, afterHandler, createResponse]

/-- **C110**. What a tool returned arrives as one text, its JSON, in a result that is not an error. -/
theorem C110_tool (srv : Srv W) (st : St W) (id : Id) (p : CallTool) (h) (hg : AMap.get srv.tools p.name = some h)
    (x : Json) (w : W) (he : h p.arguments (extraOf st id) st.world = (.ok x, w)) :
    ∃ v, (handleRequest srv st id (.client (.callTool p))).1 =
      some { jsonrpc := "2.0", id := id, payload := .result v } ∧
      CallToolResult.dec v = some { content := [.text (srv.render x)], isError := false } := by
  refine ⟨_, by simp only [handleRequest, process, hg, he, afterHandler, createResponse]; rfl, ?_⟩
  simp [CallToolResult.dec, CallToolResult.enc]

/-- **C110**. What the handler of sampling returned is what the client reads. -/
theorem C110_sample (srv : Srv W) (st : St W) (id : Id) (p) (h) (hg : srv.sampling = some h)
    (g : SampleResult) (w : W) (he : h p (extraOf st id) st.world = (.ok g, w)) :
    ∃ v, (handleRequest srv st id (.client (.createMessage p))).1 =
      some { jsonrpc := "2.0", id := id, payload := .result v } ∧ reads (.createMessage p) v = true ∧
      SampleResult.dec v = some g ∧ reads (.createMessage p) emptyObj = false := by
  refine ⟨SampleResult.enc g, ?_, by simp [reads, SampleResult.dec, SampleResult.enc],
    by simp [SampleResult.dec, SampleResult.enc], by simp [reads, emptyObj, SampleResult.dec]⟩
  simp [handleRequest, process, hg, he, afterHandler, createResponse]

example : ∃ v, (handleRequest { exampleServer with sampling := some (fun _ _ n => (.ok ⟨.text "hi", "m", none, none⟩, n)) }
    (St.init 0) (.str "7") (.client (.createMessage p))).1 =
      some { jsonrpc := "2.0", id := .str "7", payload := .result v } ∧
    SampleResult.dec v = some ⟨.text "hi", "m", none, none⟩ :=
  have ⟨v, h, _, h', _⟩ := C110_sample _ (St.init 0) (.str "7") p _ rfl _ 0 rfl
  ⟨v, h, h'⟩

/-- **C110**. What the handler of resources returned is what the client reads. -/
theorem C110_read (srv : Srv W) (st : St W) (id : Id) (p) (h) (hg : srv.resources = some h)
    (g : ReadResult) (w : W) (he : h.2 p.uri (extraOf st id) st.world = (.ok g, w)) :
    ∃ v, (handleRequest srv st id (.client (.readResource p))).1 =
      some { jsonrpc := "2.0", id := id, payload := .result v } ∧ ReadResult.dec v = some g := by
  refine ⟨ReadResult.enc g, ?_, by simp [ReadResult.dec, ReadResult.enc]⟩
  simp [handleRequest, process, hg, he, afterHandler, createResponse]

example : ((handleRequest exampleServer (St.init 0) (.str "1")
    (.client (.callTool { name := "echo", arguments := .bool true }))).1.map (·.payload)).isSome = true := by
  decide +kernel

/-! ### C111: registered tools and prompts -/

theorem build_snoc (info : Impl) (render : Json → String) (l : List (Build W)) (b : Build W) :
    build info render (l ++ [b]) = buildStep (build info render l) b := by
  simp [build]

theorem build_tools (info : Impl) (render : Json → String) (l : List (Build W)) (n : String) :
    AMap.get (build info render l).tools n = lastTool l n ∧ AMap.WF (build info render l).tools := by
  induction l using snocInduction with
  | nil => exact ⟨rfl, AMap.wf_nil⟩
  | append_singleton l b ih =>
    rw [build_snoc]
    cases b with
    | tool m h =>
      refine ⟨?_, AMap.wf_insert ih.2 _ _⟩
      simp only [buildStep, lastTool, List.reverse_append, List.reverse_cons, List.reverse_nil, List.nil_append,
        List.singleton_append, List.findSome?_cons]
      by_cases hm : m = n
      · subst hm; simp [AMap.get_insert_self]
      · rw [AMap.get_insert_ne _ _ (Ne.symm hm)]
        simp only [if_neg hm]
        exact ih.1
    | _ => simpa [buildStep, lastTool] using ih

theorem build_prompts (info : Impl) (render : Json → String) (l : List (Build W)) (n : String) :
    AMap.get (build info render l).prompts n = lastPrompt l n ∧ AMap.WF (build info render l).prompts := by
  induction l using snocInduction with
  | nil => exact ⟨rfl, AMap.wf_nil⟩
  | append_singleton l b ih =>
    rw [build_snoc]
    cases b with
    | prompt m h =>
      refine ⟨?_, AMap.wf_insert ih.2 _ _⟩
      simp only [buildStep, lastPrompt, List.reverse_append, List.reverse_cons, List.reverse_nil, List.nil_append,
        List.singleton_append, List.findSome?_cons]
      by_cases hm : m = n
      · subst hm; simp [AMap.get_insert_self]
      · rw [AMap.get_insert_ne _ _ (Ne.symm hm)]
        simp only [if_neg hm]
        exact ih.1
    | _ => simpa [buildStep, lastPrompt] using ih

/-- The names in the answer to `tools/list`, as the client reads them. (Specification: no counterpart in the code.) -/
def listedTools (r : Option RpcResponse) : Option (List String) := match r with
  | some { payload := .result v, .. } => (Page.dec "tools" ToolInfo.dec v).map (fun p => p.items.map (·.name))
  | _ => none

/-- (Specification: no counterpart in the code.) -/
def listedPrompts (r : Option RpcResponse) : Option (List String) := match r with
  | some { payload := .result v, .. } => (Page.dec "prompts" PromptInfo.dec v).map (fun p => p.items.map (·.name))
  | _ => none

/-- **C111**. `tools/list` lists exactly the names registered with the builder, each once. -/
theorem C111_tools_listed (info : Impl) (render : Json → String) (l : List (Build W)) (st : St W) (id : Id) (p) :
    ∃ names, listedTools (handleRequest (build info render l) st id (.client (.listTools p))).1 = some names ∧
      names.Nodup ∧ ∀ n, n ∈ names ↔ ∃ h, Build.tool n h ∈ l := by
  refine ⟨AMap.keys (build info render l).tools, ?_, (build_tools info render l "").2, ?_⟩
  · simp only [handleRequest, process, createResponse, listedTools,
      Page.rt "tools" ToolInfo.dec ToolInfo.enc _ (by decide) (fun a _ => ToolInfo.rt a), Option.map_some, List.map_map]
    congr 1
    induction AMap.keys (build info render l).tools with
    | nil => rfl
    | cons a t ih => simp_all
  · intro n
    have h1 : n ∈ AMap.keys (build info render l).tools ↔ AMap.get (build info render l).tools n ≠ none := by
      rw [Ne, AMap.get_eq_none_iff]; simp [AMap.keys]
    rw [h1, (build_tools info render l n).1, lastTool]
    rw [Ne, List.findSome?_eq_none_iff]
    constructor
    · intro h
      apply Classical.byContradiction
      intro hn
      apply h
      intro b hb
      cases b with
      | tool m hh =>
        by_cases hm : m = n
        · subst hm; exact absurd ⟨hh, List.mem_reverse.mp hb⟩ hn
        · simp [hm]
      | _ => rfl
    · rintro ⟨h, hm⟩ hn
      have := hn _ (List.mem_reverse.mpr hm)
      simp at this

/-- **C111**. `prompts/list` lists exactly the names registered with the builder, each once. -/
theorem C111_prompts_listed (info : Impl) (render : Json → String) (l : List (Build W)) (st : St W) (id : Id) (p) :
    ∃ names, listedPrompts (handleRequest (build info render l) st id (.client (.listPrompts p))).1 = some names ∧
      names.Nodup ∧ ∀ n, n ∈ names ↔ ∃ h, Build.prompt n h ∈ l := by
  refine ⟨AMap.keys (build info render l).prompts, ?_, (build_prompts info render l "").2, ?_⟩
  · have hp := Page.rt "prompts" PromptInfo.dec PromptInfo.enc
      ⟨(AMap.keys (build info render l).prompts).map (fun n => ⟨n, none, none⟩), none⟩ (by decide)
      (fun a ha => PromptInfo.rt a (by
        obtain ⟨n, _, rfl⟩ := List.mem_map.mp ha
        intro l hl; simp at hl))
    simp only [handleRequest, process, createResponse, listedPrompts, hp, Option.map_some, List.map_map]
    congr 1
    induction AMap.keys (build info render l).prompts with
    | nil => rfl
    | cons a t ih => simp_all
  · intro n
    have h1 : n ∈ AMap.keys (build info render l).prompts ↔ AMap.get (build info render l).prompts n ≠ none := by
      rw [Ne, AMap.get_eq_none_iff]; simp [AMap.keys]
    rw [h1, (build_prompts info render l n).1, lastPrompt]
    rw [Ne, List.findSome?_eq_none_iff]
    constructor
    · intro h
      apply Classical.byContradiction
      intro hn
      apply h
      intro b hb
      cases b with
      | prompt m hh =>
        by_cases hm : m = n
        · subst hm; exact absurd ⟨hh, List.mem_reverse.mp hb⟩ hn
        · simp [hm]
      | _ => rfl
    · rintro ⟨h, hm⟩ hn
      have := hn _ (List.mem_reverse.mpr hm)
      simp at this

/-- **C111**. A call runs the handler of the last registration once, with the arguments of the request and
its id. -/
theorem C111_call (info : Impl) (render : Json → String) (l : List (Build W)) (st : St W) (id : Id) (p : CallTool)
    (h) (hl : lastTool l p.name = some h) :
    ∃ e : Extra, e.requestId = idText id ∧
      (handleRequest (build info render l) st id (.client (.callTool p))).2.world = (h p.arguments e st.world).2 := by
  refine ⟨extraOf st id, rfl, ?_⟩
  have := (build_tools info render l p.name).1
  rw [hl] at this
  simp only [handleRequest, process, this]
  rcases h p.arguments (extraOf st id) st.world with ⟨o, w⟩
  cases o <;> rfl

/-- **C111**. A call of a name never registered is refused, and nothing runs. -/
theorem C111_unknown (info : Impl) (render : Json → String) (l : List (Build W)) (st : St W) (id : Id) (p : CallTool)
    (hl : ∀ h, Build.tool p.name h ∉ l) :
    (∃ e, errorOf (handleRequest (build info render l) st id (.client (.callTool p))).1 = some e) ∧
      (handleRequest (build info render l) st id (.client (.callTool p))).2 = st := by
  have : lastTool l p.name = none := by
    rw [lastTool, List.findSome?_eq_none_iff]
    intro b hb
    cases b with
    | tool m hh =>
      by_cases hm : m = p.name
      · subst hm; exact absurd (List.mem_reverse.mp hb) (hl hh)
      · simp [hm]
    | _ => rfl
  rw [← (build_tools info render l p.name).1] at this
  simp [handleRequest, process, this, createResponse, errorOf]

example : listedTools (handleRequest exampleServer (St.init 0) (.str "1") (.client (.listTools { cursor := none }))).1 =
    some ["boom", "echo", "fail"] ∨
    listedTools (handleRequest exampleServer (St.init 0) (.str "1") (.client (.listTools { cursor := none }))).1 =
    some ["fail", "echo", "boom"] := by decide +kernel

/-- The last resource handler given to the builder. (Specification: no counterpart in the code.) -/
def lastResources (l : List (Build W)) := l.reverse.findSome? (fun b => match b with
  | .resources a r => some (a, r)
  | _ => none)

theorem build_resources (info : Impl) (render : Json → String) (l : List (Build W)) :
    (build info render l).resources = lastResources l := by
  induction l using snocInduction with
  | nil => rfl
  | append_singleton l b ih =>
    rw [build_snoc]
    cases b <;> simp_all [buildStep, lastResources]

/-- **C111**. A read runs the last resource handler given to the builder once, with the uri of the request;
without one it is refused, and nothing runs. -/
theorem C111_resources (info : Impl) (render : Json → String) (l : List (Build W)) (st : St W) (id : Id) (p) :
    (∀ a r, lastResources l = some (a, r) →
      (handleRequest (build info render l) st id (.client (.readResource p))).2.world =
        (r p.uri (extraOf st id) st.world).2) ∧
    ((∀ a r, Build.resources a r ∉ l) →
      (∃ e, errorOf (handleRequest (build info render l) st id (.client (.readResource p))).1 = some e) ∧
      (handleRequest (build info render l) st id (.client (.readResource p))).2 = st) := by
  constructor
  · intro a r hl
    rw [← build_resources info render] at hl
    simp only [handleRequest, process, hl]
    rcases r p.uri (extraOf st id) st.world with ⟨o, w⟩
    cases o <;> rfl
  · intro hno
    have : lastResources l = none := by
      rw [lastResources, List.findSome?_eq_none_iff]
      intro b hb
      cases b with
      | resources a r => exact absurd (List.mem_reverse.mp hb) (hno a r)
      | _ => rfl
    rw [← build_resources info render] at this
    simp [handleRequest, process, this, createResponse, errorOf]

/-- Two resource handlers: the second answers. -/
example (a b : Build Nat) (f g) (ha : a = .resources f g) (hb : b = .resources f g) :
    lastResources [a, .tool "t" (fun v _ w => (.ok v, w)), b] = some (f, g) := by
  subst ha hb; rfl

/-! ### C106: advertised capabilities -/

theorem build_caps (info : Impl) (render : Json → String) (l : List (Build W)) :
    (build info render l).capabilities.tools = (lastCaps l).tools ∧
    (build info render l).capabilities.prompts = (lastCaps l).prompts ∧
    (build info render l).capabilities.resources = (lastCaps l).resources ∧
    (build info render l).capabilities.logging = (lastCaps l).logging ∧
    (build info render l).capabilities.completions = (lastCaps l).completions := by
  induction l using snocInduction with
  | nil => exact ⟨rfl, rfl, rfl, rfl, rfl⟩
  | append_singleton l b ih =>
    rw [build_snoc]
    cases b <;> simp_all [buildStep, lastCaps]

/-- What `initialize` answers. (Specification: no counterpart in the code.) -/
def initAnswer (r : Option RpcResponse) : Option InitResult := match r with
  | some { payload := .result v, .. } => InitResult.dec v
  | _ => none

theorem initAnswer_eq (srv : Srv W) (st : St W) (id : Id) (p : InitParams) :
    initAnswer (handleRequest srv st id (.client (.init p))).1 =
      some { protocolVersion := "2024-11-05", capabilities := srv.capabilities, serverInfo := srv.info } := by
  simp [handleRequest, initAnswer, InitResult.dec, InitResult.enc, answeredVersion]

/-- **C106**. Exactly what the last `capabilities` call said is advertised for tools, prompts, resources,
logging and completions; registering handlers changes nothing. Missing from the property: that a registered
handler is advertised (`C106_tool_not_advertised`). -/
theorem C106_advertised_partial (info : Impl) (render : Json → String) (l : List (Build W)) (st : St W) (id : Id)
    (p : InitParams) :
    ∃ a, initAnswer (handleRequest (build info render l) st id (.client (.init p))).1 = some a ∧ a.serverInfo = info ∧
      a.capabilities.tools = (lastCaps l).tools ∧ a.capabilities.prompts = (lastCaps l).prompts ∧
      a.capabilities.resources = (lastCaps l).resources ∧ a.capabilities.logging = (lastCaps l).logging ∧
      a.capabilities.completions = (lastCaps l).completions := by
  have h := build_caps info render l
  refine ⟨_, initAnswer_eq _ _ _ _, ?_, h⟩
  show (build info render l).info = info
  induction l using snocInduction with
  | nil => rfl
  | append_singleton l b ih => rw [build_snoc]; cases b <;> exact ih (build_caps info render l)

/-- **C106** fails: a server with tools, prompts and resources that never called `capabilities` advertises none. -/
theorem C106_tool_not_advertised (info : Impl) (render : Json → String) (l : List (Build W)) (st : St W) (id : Id)
    (p : InitParams) (h : ∀ c, Build.capabilities c ∉ l) :
    ∃ a, initAnswer (handleRequest (build info render l) st id (.client (.init p))).1 = some a ∧
      a.capabilities.tools = none ∧ a.capabilities.prompts = none ∧ a.capabilities.resources = none := by
  obtain ⟨a, h1, -, h2, h3, h4, -⟩ := C106_advertised_partial info render l st id p
  have : lastCaps l = {} := by
    have : (l.reverse.findSome? (fun b => match b with
      | .capabilities c => some c
      | _ => none) : Option ServerCaps) = none := by
      rw [List.findSome?_eq_none_iff]
      intro b hb
      cases b with
      | capabilities c => exact absurd (List.mem_reverse.mp hb) (h c)
      | _ => rfl
    simp only [lastCaps]
    rw [this]; rfl
  rw [this] at h2 h3 h4
  exact ⟨a, h1, h2, h3, h4⟩

/-- **C106**. A sampling handler is advertised if no `capabilities` call follows its registration. -/
theorem C106_sampling (info : Impl) (render : Json → String) (l r : List (Build W)) (h) (st : St W) (id : Id)
    (p : InitParams) (hr : ∀ c, Build.capabilities c ∉ r) :
    ∃ a, initAnswer (handleRequest (build info render (l ++ .sampling h :: r)) st id (.client (.init p))).1 = some a ∧
      a.capabilities.sampling.isSome := by
  refine ⟨_, initAnswer_eq _ _ _ _, ?_⟩
  show (build info render (l ++ .sampling h :: r)).capabilities.sampling.isSome
  induction r using snocInduction with
  | nil => rw [build_snoc]; rfl
  | append_singleton r b ih =>
    rw [show l ++ Build.sampling h :: (r ++ [b]) = (l ++ Build.sampling h :: r) ++ [b] by simp, build_snoc]
    have := ih (fun c hc => hr c (by simp [hc]))
    cases b with
    | capabilities c => exact absurd (by simp) (hr c)
    | sampling h => rfl
    | _ => exact this

/-- **C106**. A `capabilities` call after it takes the advertisement back, though the handler stays. -/
theorem C106_sampling_overwritten (info : Impl) (render : Json → String) (l : List (Build W)) (h) :
    (build info render (l ++ [.sampling h, .capabilities {}])).capabilities.sampling = none ∧
      (build info render (l ++ [.sampling h, .capabilities {}])).sampling.isSome := by
  simp [build, buildStep]

/-! ### C109: the version -/

/-- **C109** fails: whatever version the client asks for, the server answers 2024-11-05. -/
theorem C109_fixed (srv : Srv W) (st : St W) (id : Id) (p : InitParams) :
    (initAnswer (handleRequest srv st id (.client (.init p))).1).map (·.protocolVersion) = some "2024-11-05" := by
  rw [initAnswer_eq]; rfl

/-- **C109**. So the answer is the version asked for exactly if that is 2024-11-05. Missing from the property:
the other supported versions. -/
theorem C109_requested_partial (srv : Srv W) (st : St W) (id : Id) (p : InitParams) :
    (initAnswer (handleRequest srv st id (.client (.init p))).1).map (·.protocolVersion) = some p.protocolVersion ↔
      p.protocolVersion = "2024-11-05" := by
  rw [C109_fixed]; simp [eq_comm]

/-! ### C112: before initialization -/

/-- **C112** fails: no answer and no effect on the program depends on whether the client initialized. -/
theorem C112_ignored (srv : Srv W) (st : St W) (b : Bool) (c : Option ClientCaps) (id : Id) (r : Request) :
    (handleRequest srv { st with initialized := b, clientCaps := c } id r).1 = (handleRequest srv st id r).1 ∧
    (handleRequest srv { st with initialized := b, clientCaps := c } id r).2.world =
      (handleRequest srv st id r).2.world := by
  cases r with
  | server r => simp [handleRequest]
  | client r =>
    have ah : ∀ {α : Type} (x : Outcome α × W) (f : α → Json),
        (afterHandler { st with initialized := b, clientCaps := c } x f).1 = (afterHandler st x f).1 ∧
        (afterHandler { st with initialized := b, clientCaps := c } x f).2.world = (afterHandler st x f).2.world := by
      intro α x f
      rcases x with ⟨o, w⟩
      cases o <;> simp [afterHandler]
    have hp : (process srv { st with initialized := b, clientCaps := c } id r).1 = (process srv st id r).1 ∧
        (process srv { st with initialized := b, clientCaps := c } id r).2.world = (process srv st id r).2.world := by
      cases r with
      | callTool p =>
        simp only [process]; split
        · exact ⟨rfl, rfl⟩
        · exact ah _ _
      | getPrompt p =>
        simp only [process]; split
        · exact ⟨rfl, rfl⟩
        · exact ah _ _
      | listResources p =>
        simp only [process]; split
        · exact ⟨rfl, rfl⟩
        · exact ah _ _
      | readResource p =>
        simp only [process]; split
        · exact ⟨rfl, rfl⟩
        · exact ah _ _
      | createMessage p =>
        simp only [process]; split
        · exact ⟨rfl, rfl⟩
        · exact ah _ _
      | elicitResponse p =>
        simp only [process]; split
        · exact ⟨rfl, rfl⟩
        · split <;> exact ⟨rfl, rfl⟩
      | _ => exact ⟨rfl, rfl⟩
    by_cases hi : ∃ p, r = .init p
    · obtain ⟨p, rfl⟩ := hi
      exact ⟨rfl, rfl⟩
    · have hi : ∀ p, r ≠ .init p := fun p hp => hi ⟨p, hp⟩
      rw [handle_client srv _ id r hi, handle_client srv st id r hi]
      exact ⟨congrArg (createResponse id) hp.1, hp.2⟩

/-- **C112**. What is true: `initialized` is set exactly by an `initialize` request, and stays. -/
theorem C112_flag_partial (srv : Srv W) (st : St W) (id : Id) (r : Request) :
    (handleRequest srv st id r).2.initialized = true ↔
      st.initialized = true ∨ ∃ p, r = .client (.init p) := by
  have ah : ∀ {α : Type} (x : Outcome α × W) (f : α → Json), (afterHandler st x f).2.initialized = st.initialized := by
    intro α x f
    rcases x with ⟨o, w⟩
    cases o <;> simp [afterHandler]
  cases r with
  | server r => simp [handleRequest]
  | client r =>
    cases r with
    | init p => simp [handleRequest]
    | callTool p => simp only [handleRequest, process]; split <;> simp [ah]
    | getPrompt p => simp only [handleRequest, process]; split <;> simp [ah]
    | listResources p => simp only [handleRequest, process]; split <;> simp [ah]
    | readResource p => simp only [handleRequest, process]; split <;> simp [ah]
    | createMessage p => simp only [handleRequest, process]; split <;> simp [ah]
    | elicitResponse p =>
      simp only [handleRequest, process]; split
      · simp
      · split <;> simp
    | _ => simp [handleRequest, process]

/-- A tool runs before any `initialize`. -/
example : (handleRequest exampleServer (St.init 0) (.str "7") callFail).2.world = 1 ∧
    (handleRequest exampleServer (St.init 0) (.str "7") callFail).2.initialized = false := by decide +kernel

/-! ### Histories: C107, C108, C113, C114 -/

/-- What every history keeps. (Specification: no counterpart in the code.) -/
structure Inv (st : St W) (owned : Bool) : Prop where
  tokens : st.cancel = Cancellation.init
  elicit : st.elicit = none
  tx : owned = true → st.tx = false ∧ st.subs.hasSender = false
  sent : st.sent = []
  subSent : st.subs.sent = []

theorem inv_init (w : W) : Inv (St.init w) true :=
  ⟨rfl, rfl, fun _ => ⟨rfl, rfl⟩, rfl, rfl⟩

theorem afterHandler_frame {α : Type} (st : St W) (x : Outcome α × W) (f : α → Json) :
    (afterHandler st x f).2 = { st with world := x.2 } := by
  rcases x with ⟨o, w⟩
  cases o <;> simp [afterHandler]

/-- A request changes at most the world of the program, what is known of the client, and the elicitation
manager. -/
theorem handle_frame (srv : Srv W) (st : St W) (id : Id) (r : Request) (he : st.elicit = none) :
    ∃ w c i, (handleRequest srv st id r).2 = { st with world := w, clientCaps := c, initialized := i } := by
  cases r with
  | server r => exact ⟨st.world, st.clientCaps, st.initialized, rfl⟩
  | client r =>
    cases r with
    | init p => exact ⟨st.world, some p.capabilities, true, rfl⟩
    | callTool p =>
      simp only [handleRequest, process]; split
      · exact ⟨st.world, st.clientCaps, st.initialized, rfl⟩
      · rw [afterHandler_frame]; exact ⟨_, st.clientCaps, st.initialized, rfl⟩
    | getPrompt p =>
      simp only [handleRequest, process]; split
      · exact ⟨st.world, st.clientCaps, st.initialized, rfl⟩
      · rw [afterHandler_frame]; exact ⟨_, st.clientCaps, st.initialized, rfl⟩
    | listResources p =>
      simp only [handleRequest, process]; split
      · exact ⟨st.world, st.clientCaps, st.initialized, rfl⟩
      · rw [afterHandler_frame]; exact ⟨_, st.clientCaps, st.initialized, rfl⟩
    | readResource p =>
      simp only [handleRequest, process]; split
      · exact ⟨st.world, st.clientCaps, st.initialized, rfl⟩
      · rw [afterHandler_frame]; exact ⟨_, st.clientCaps, st.initialized, rfl⟩
    | createMessage p =>
      simp only [handleRequest, process]; split
      · exact ⟨st.world, st.clientCaps, st.initialized, rfl⟩
      · rw [afterHandler_frame]; exact ⟨_, st.clientCaps, st.initialized, rfl⟩
    | elicitResponse p =>
      simp only [handleRequest, process, he]
      exact ⟨st.world, st.clientCaps, st.initialized, by rw [← he]⟩
    | _ => exact ⟨st.world, st.clientCaps, st.initialized, rfl⟩

theorem inv_step (srv : Srv W) (st st' : St W) (b b' : Bool) (op : Op) (h : Inv st b)
    (hs : apiStep srv st b op = some (st', b')) : Inv st' b' := by
  cases op with
  | handle id r =>
    simp only [apiStep, Option.some.injEq, Prod.mk.injEq] at hs
    obtain ⟨w, c, i, hf⟩ := handle_frame srv st id r h.elicit
    rw [hf] at hs
    obtain ⟨rfl, rfl⟩ := hs
    exact ⟨h.tokens, h.elicit, h.tx, h.sent, h.subSent⟩
  | send n =>
    simp only [apiStep] at hs
    split at hs
    · next ho =>
      simp only [(h.tx ho).1, Bool.false_eq_true, if_false, Option.some.injEq, Prod.mk.injEq] at hs
      obtain ⟨rfl, rfl⟩ := hs; exact h
    · cases hs
  | subscribe u c =>
    simp only [apiStep, withSender] at hs
    split at hs
    · next ho =>
      simp only [(h.tx ho).1, Bool.false_eq_true, if_false, Option.some.injEq, Prod.mk.injEq] at hs
      obtain ⟨rfl, rfl⟩ := hs
      split
      · exact h
      · exact ⟨h.tokens, h.elicit, fun ho => ⟨rfl, (h.tx ho).2⟩, h.sent, h.subSent⟩
    · cases hs
  | unsubscribe u c =>
    simp only [apiStep] at hs
    split at hs
    · next ho =>
      simp only [Option.some.injEq, Prod.mk.injEq] at hs
      obtain ⟨rfl, rfl⟩ := hs
      split
      · exact h
      · refine ⟨h.tokens, h.elicit, fun ho => ⟨(h.tx ho).1, ?_⟩, h.sent, ?_⟩
        · have := (h.tx ho).2
          simp only [Subscriptions.unsubscribe]; split
          · split <;> exact this
          · exact this
        · have := h.subSent
          simp only [Subscriptions.unsubscribe]; split
          · split <;> exact this
          · exact this
    · cases hs
  | notify u =>
    simp only [apiStep, withSender] at hs
    split at hs
    · next ho =>
      simp only [(h.tx ho).1, Bool.false_eq_true, if_false, Option.some.injEq, Prod.mk.injEq] at hs
      obtain ⟨rfl, rfl⟩ := hs
      have : (Subscriptions.notifyResourceUpdated st.subs u).1 = st.subs := by
        simp only [Subscriptions.notifyResourceUpdated, (h.tx ho).2, Bool.false_eq_true, if_false]
        split
        · split <;> rfl
        · rfl
      rw [this]
      exact ⟨h.tokens, h.elicit, fun ho => ⟨rfl, (h.tx ho).2⟩, h.sent, h.subSent⟩
    · cases hs
  | cancel i r =>
    simp only [apiStep] at hs
    split at hs
    · next ho =>
      simp only [Option.some.injEq, Prod.mk.injEq] at hs
      obtain ⟨rfl, rfl⟩ := hs
      split
      · exact h
      · refine ⟨?_, h.elicit, h.tx, h.sent, h.subSent⟩
        rw [h.tokens]; rfl
    · cases hs
  | run =>
    simp only [apiStep] at hs
    split at hs
    · simp only [Option.some.injEq, Prod.mk.injEq] at hs
      obtain ⟨rfl, rfl⟩ := hs
      exact ⟨h.tokens, h.elicit, fun ho => (by cases ho), h.sent, h.subSent⟩
    · cases hs

theorem inv_run (srv : Srv W) : ∀ (l : List Op) (st st' : St W) (b b' : Bool), Inv st b →
    apiRun srv st b l = some (st', b') → Inv st' b'
  | [], st, st', b, b', h, hr => by
    simp only [apiRun, Option.some.injEq, Prod.mk.injEq] at hr
    obtain ⟨rfl, rfl⟩ := hr; exact h
  | op :: l, st, st', b, b', h, hr => by
    simp only [apiRun] at hr
    cases hs : apiStep srv st b op with
    | none => rw [hs] at hr; cases hr
    | some q => rw [hs] at hr; exact inv_run srv l _ _ _ _ (inv_step srv _ _ _ _ _ h hs) hr

/-- **C107** fails: in no history does the server know a token for a request, so every handler gets a token of
its own that nobody can cancel, and cancelling a request changes nothing. -/
theorem C107_no_token (srv : Srv W) (w : W) (l : List Op) (st : St W) (b : Bool)
    (h : apiRun srv (St.init w) true l = some (st, b)) (id : Id) :
    (extraOf st id).token = .fresh ∧
      ∀ i r st' b', apiStep srv st b (.cancel i r) = some (st', b') → st' = st := by
  have hi := inv_run srv l _ _ _ _ (inv_init w) h
  refine ⟨by simp [extraOf, hi.tokens, Cancellation.getToken, Cancellation.init], ?_⟩
  intro i r st' b' hs
  simp only [apiStep] at hs
  split at hs
  · simp only [Option.some.injEq, Prod.mk.injEq] at hs
    obtain ⟨rfl, rfl⟩ := hs
    split
    · rfl
    · have : Cancellation.cancelRequest st.cancel i r = st.cancel := by rw [hi.tokens]; rfl
      rw [this]
  · cases hs

/-- **C107**. What is true: a handler is told the id of its request, whatever the history, so it can be found by a
program that keeps tokens of its own. -/
theorem C107_id_partial (st : St W) (id : Id) : (extraOf st id).requestId = idText id := rfl

example : (apiRun exampleServer (St.init 0) true
    [.subscribe "file:///a" "c", .cancel "7" none, .handle (.str "7") callFail, .run, .handle (.str "7") callFail]).isSome =
    true := by decide +kernel

/-- **C108** fails: a `resources/subscribe` request is answered with success and changes nothing at all, so no
later update has the client as a subscriber. -/
theorem C108_ignored (srv : Srv W) (st : St W) (id : Id) (p) :
    handleRequest srv st id (.client (.subscribe p)) =
      (some { jsonrpc := "2.0", id := id, payload := .result (.obj []) }, st) ∧
    handleRequest srv st id (.client (.unsubscribe p)) =
      (some { jsonrpc := "2.0", id := id, payload := .result (.obj []) }, st) := ⟨rfl, rfl⟩

/-- **C108**. No request of any kind changes the subscriptions. -/
theorem C108_requests_never_subscribe (srv : Srv W) (w : W) (l : List Op) (st : St W) (b : Bool)
    (h : apiRun srv (St.init w) true l = some (st, b)) (id : Id) (r : Request) :
    (handleRequest srv st id r).2.subs = st.subs := by
  obtain ⟨w, c, i, hf⟩ := handle_frame srv st id r (inv_run srv l _ _ _ _ (inv_init w) h).elicit
  rw [hf]

/-- **C108**. What is true: `subscribe_resource` called by the program does subscribe. -/
theorem C108_api_partial (srv : Srv W) (st : St W) (u c : String) (hu : u ≠ "") (hc : c ≠ "") :
    ∃ st', apiStep srv st true (.subscribe u c) = some (st', true) ∧ c ∈ Subscriptions.getSubscribers st'.subs u := by
  refine ⟨_, by simp only [apiStep, if_true]; rfl, ?_⟩
  simp only [hu, hc, or_self, if_false, Subscriptions.subscribe, Subscriptions.getSubscribers, AMap.get_insert_self,
    Option.getD_some]
  exact ASet.mem_insert.mpr (Or.inl rfl)

theorem apiRun_snoc (srv : Srv W) (op : Op) : ∀ (l : List Op) (st : St W) (b : Bool),
    apiRun srv st b (l ++ [op]) = (apiRun srv st b l).bind (fun q => apiStep srv q.1 q.2 op)
  | [], st, b => by
    simp only [List.nil_append, apiRun, Option.bind_some]
    cases apiStep srv st b op <;> rfl
  | o :: l, st, b => by
    simp only [List.cons_append, apiRun]
    cases apiStep srv st b o with
    | none => rfl
    | some q => exact apiRun_snoc srv op l q.1 q.2

/-- The subscriptions the program made and did not end (latest call first).
(Specification: no counterpart in the code.) -/
def subscribedIn (u c : String) : List Op → Prop
  | [] => False
  | .subscribe u' c' :: l => (u = u' ∧ c = c') ∨ subscribedIn u c l
  | .unsubscribe u' c' :: l => subscribedIn u c l ∧ ¬ (u = u' ∧ c = c')
  | _ :: l => subscribedIn u c l

/-- **C108**. Exactly what is subscribed after every history: what the program subscribed through the API, with
nonempty strings, and did not end. -/
theorem C108_exact (srv : Srv W) (w : W) (l : List Op) (st : St W) (b : Bool)
    (h : apiRun srv (St.init w) true l = some (st, b)) (u c : String) :
    c ∈ Subscriptions.getSubscribers st.subs u ↔ u ≠ "" ∧ c ≠ "" ∧ subscribedIn u c l.reverse := by
  have hmem : ∀ s : Subscriptions.State String String, c ∈ Subscriptions.getSubscribers s u ↔
      Subscriptions.Has s.subs u c := by
    intro s
    unfold Subscriptions.getSubscribers Subscriptions.Has
    cases s.subs.get u <;> simp
  rw [hmem]
  induction l using snocInduction generalizing st b with
  | nil =>
    simp only [apiRun, Option.some.injEq, Prod.mk.injEq] at h
    obtain ⟨rfl, rfl⟩ := h
    simp [St.init, Subscriptions.init, Subscriptions.Has, subscribedIn]
  | append_singleton l op ih =>
    rw [apiRun_snoc] at h
    cases hr : apiRun srv (St.init w) true l with
    | none => rw [hr] at h; cases h
    | some q =>
      obtain ⟨st₀, b₀⟩ := q
      rw [hr] at h
      simp only [Option.bind_some] at h
      have ih := ih st₀ b₀ hr
      rw [List.reverse_append]
      simp only [List.reverse_cons, List.reverse_nil, List.nil_append, List.singleton_append]
      have hi := inv_run srv l _ _ _ _ (inv_init w) hr
      cases op with
      | handle id r =>
        simp only [apiStep, Option.some.injEq, Prod.mk.injEq] at h
        obtain ⟨w', c', i, hf⟩ := handle_frame srv st₀ id r hi.elicit
        rw [hf] at h
        obtain ⟨rfl, rfl⟩ := h
        simpa only [subscribedIn] using ih
      | send n =>
        simp only [apiStep] at h
        split at h
        · simp only [Option.some.injEq, Prod.mk.injEq] at h
          obtain ⟨rfl, rfl⟩ := h
          split <;> simpa only [subscribedIn] using ih
        · cases h
      | subscribe u' c' =>
        simp only [apiStep] at h
        split at h
        · next ho =>
          simp only [Option.some.injEq, Prod.mk.injEq] at h
          obtain ⟨rfl, rfl⟩ := h
          simp only [subscribedIn]
          split
          · next he =>
            refine ih.trans ?_
            constructor
            · rintro ⟨h1, h2, h3⟩; exact ⟨h1, h2, .inr h3⟩
            · rintro ⟨h1, h2, h3⟩
              refine ⟨h1, h2, ?_⟩
              rcases h3 with ⟨e1, e2⟩ | h3
              · rcases he with he | he
                · exact absurd (e1.trans he) h1
                · exact absurd (e2.trans he) h2
              · exact h3
          · next he =>
            have hs : (withSender st₀).subs = st₀.subs.subs := by unfold withSender; split <;> rfl
            simp only [Subscriptions.has_subscribe, hs, ih]
            constructor
            · rintro (⟨rfl, rfl⟩ | ⟨h1, h2, h3⟩)
              · exact ⟨fun e => he (.inl e), fun e => he (.inr e), .inl ⟨rfl, rfl⟩⟩
              · exact ⟨h1, h2, .inr h3⟩
            · rintro ⟨h1, h2, h3 | h3⟩
              · exact .inl h3
              · exact .inr ⟨h1, h2, h3⟩
        · cases h
      | unsubscribe u' c' =>
        simp only [apiStep] at h
        split at h
        · next ho =>
          simp only [Option.some.injEq, Prod.mk.injEq] at h
          obtain ⟨rfl, rfl⟩ := h
          simp only [subscribedIn]
          split
          · next he =>
            refine ih.trans ?_
            constructor
            · rintro ⟨h1, h2, h3⟩
              refine ⟨h1, h2, h3, ?_⟩
              rintro ⟨e1, e2⟩
              rcases he with he | he
              · exact h1 (e1.trans he)
              · exact h2 (e2.trans he)
            · rintro ⟨h1, h2, h3, _⟩; exact ⟨h1, h2, h3⟩
          · simp only [Subscriptions.has_unsubscribe, ih, and_assoc]
        · cases h
      | notify u' =>
        simp only [apiStep] at h
        split at h
        · simp only [Option.some.injEq, Prod.mk.injEq] at h
          obtain ⟨rfl, rfl⟩ := h
          have hs : (Subscriptions.notifyResourceUpdated (withSender st₀) u').1.subs = st₀.subs.subs := by
            have h1 : (withSender st₀).subs = st₀.subs.subs := by unfold withSender; split <;> rfl
            rw [← h1]
            unfold Subscriptions.notifyResourceUpdated
            split
            · split
              · dsimp only; split <;> rfl
              · rfl
            · rfl
          simp only [subscribedIn, hs]; exact ih
        · cases h
      | cancel i r =>
        simp only [apiStep] at h
        split at h
        · simp only [Option.some.injEq, Prod.mk.injEq] at h
          obtain ⟨rfl, rfl⟩ := h
          split <;> simpa only [subscribedIn] using ih
        · cases h
      | run =>
        simp only [apiStep] at h
        split at h
        · simp only [Option.some.injEq, Prod.mk.injEq] at h
          obtain ⟨rfl, rfl⟩ := h
          simpa only [subscribedIn] using ih
        · cases h

example : ∃ st, apiRun exampleServer (St.init 0) true
      [.subscribe "file:///a" "c", .subscribe "file:///a" "d", .unsubscribe "file:///a" "c", .notify "file:///a", .run] =
        some (st, false) ∧ subscribedIn "file:///a" "d" [.run, .notify "file:///a", .unsubscribe "file:///a" "c",
          .subscribe "file:///a" "d", .subscribe "file:///a" "c"] := by
  exact ⟨_, rfl, by simp [subscribedIn]⟩

/-- Not a claim, since no history of the server gets there (`C107_no_token`): were a token registered for a request,
cancelling the request by a nonempty id would cancel it. -/
theorem cancel_if_registered (srv : Srv W) (st : St W) (i : String) (hi : i ≠ "") (r : Option String) (t : Nat)
    (ht : Cancellation.getToken st.cancel i = some t) :
    ∃ st', apiStep srv st true (.cancel i r) = some (st', true) ∧ t ∈ st'.cancel.cancelled ∧
      Cancellation.getToken st'.cancel i = none := by
  unfold Cancellation.getToken at ht
  refine ⟨_, by simp only [apiStep, if_true]; rfl, ?_⟩
  simp only [if_neg hi, Cancellation.cancelRequest, ht, Cancellation.getToken, AMap.get_remove_self]
  exact ⟨List.mem_cons_self, trivial⟩

/-- **C114**. After `run` the program has no server: in every history it can call nothing any more, and the channel
exists. -/
theorem C114_run_takes (srv : Srv W) (w : W) (l : List Op) (st : St W) (b : Bool)
    (h : apiRun srv (St.init w) true l = some (st, b)) :
    (b = false ↔ Op.run ∈ l) ∧ (b = false → st.tx = true) ∧
    (b = false → ∀ op, (∀ id r, op ≠ .handle id r) → apiStep srv st b op = none) ∧
    (b = true → ∀ op, (apiStep srv st b op).isSome = true) := by
  refine ⟨?_, ?_, ?_, ?_⟩
  rotate_left 2
  · rintro rfl op hop
    cases op with
    | handle id r => exact absurd rfl (hop id r)
    | _ => rfl
  · rintro rfl op
    cases op <;> rfl
  all_goals
    induction l using snocInduction generalizing st b with
    | nil =>
      simp only [apiRun, Option.some.injEq, Prod.mk.injEq] at h
      obtain ⟨rfl, rfl⟩ := h
      simp
    | append_singleton l op ih =>
      rw [apiRun_snoc] at h
      cases hr : apiRun srv (St.init w) true l with
      | none => rw [hr] at h; cases h
      | some q =>
        obtain ⟨st₀, b₀⟩ := q
        rw [hr] at h
        simp only [Option.bind_some] at h
        have ih := ih st₀ b₀ hr
        have hi := inv_run srv l _ _ _ _ (inv_init w) hr
        cases op with
        | handle id r =>
          simp only [apiStep, Option.some.injEq, Prod.mk.injEq] at h
          obtain ⟨w', c', i, hf⟩ := handle_frame srv st₀ id r hi.elicit
          rw [hf] at h
          obtain ⟨rfl, rfl⟩ := h
          simpa using ih
        | _ =>
          simp only [apiStep] at h
          split at h
          · next ho =>
            subst ho
            simp only [Option.some.injEq, Prod.mk.injEq] at h
            obtain ⟨rfl, rfl⟩ := h
            first
              | simp; done
              | simpa using ih
          · cases h

/-- **C112**. From the start: the server is marked initialized exactly when it has handled an `initialize`. -/
theorem C112_history (srv : Srv W) (w : W) (l : List Op) (st : St W) (b : Bool)
    (h : apiRun srv (St.init w) true l = some (st, b)) :
    st.initialized = true ↔ ∃ id p, Op.handle id (.client (.init p)) ∈ l := by
  induction l using snocInduction generalizing st b with
  | nil =>
    simp only [apiRun, Option.some.injEq, Prod.mk.injEq] at h
    obtain ⟨rfl, rfl⟩ := h
    simp [St.init]
  | append_singleton l op ih =>
    rw [apiRun_snoc] at h
    cases hr : apiRun srv (St.init w) true l with
    | none => rw [hr] at h; cases h
    | some q =>
      obtain ⟨st₀, b₀⟩ := q
      rw [hr] at h
      simp only [Option.bind_some] at h
      have ih := ih st₀ b₀ hr
      cases op with
      | handle id r =>
        simp only [apiStep, Option.some.injEq, Prod.mk.injEq] at h
        obtain ⟨rfl, rfl⟩ := h
        rw [C112_flag_partial, ih]
        simp only [List.mem_append, List.mem_singleton, Op.handle.injEq]
        constructor
        · rintro (⟨id', p, hm⟩ | ⟨p, hp⟩)
          · exact ⟨id', p, .inl hm⟩
          · exact ⟨id, p, .inr ⟨rfl, hp.symm⟩⟩
        · rintro ⟨id', p, hm | ⟨_, hp⟩⟩
          · exact .inl ⟨id', p, hm⟩
          · exact .inr ⟨p, hp.symm⟩
      | _ =>
        simp only [apiStep] at h
        split at h
        · simp only [Option.some.injEq, Prod.mk.injEq] at h
          obtain ⟨rfl, rfl⟩ := h
          simp only [List.mem_append, List.mem_singleton, reduceCtorEq, or_false]
          first
            | exact ih
            | (split <;> exact ih)
        · cases h

/-- **C113** fails: the server never has an elicitation manager; the user's answer is acknowledged and goes
nowhere. -/
theorem C113_dropped (srv : Srv W) (w : W) (l : List Op) (st : St W) (b : Bool)
    (h : apiRun srv (St.init w) true l = some (st, b)) (id : Id) (p) :
    handleRequest srv st id (.client (.elicitResponse p)) =
      (some { jsonrpc := "2.0", id := id, payload := .result (.obj []) }, st) := by
  have hi := (inv_run srv l _ _ _ _ (inv_init w) h).elicit
  simp [handleRequest, process, hi, createResponse, emptyObj]

/-- Not a claim, since no builder call can give the server a manager (`C113_dropped`): with one the answer would reach
it. -/
theorem response_if_manager (srv : Srv W) (st : St W) (m) (hm : st.elicit = some m) (id : Id) (p) :
    (AMap.contains m.pending p.elicitationId = true →
      ∃ m', Elicit.step m (.respond { id := p.elicitationId, body := (p.value, p.cancelled, p.error) }) = some (m', .ok) ∧
        (handleRequest srv st id (.client (.elicitResponse p))).2.elicit = some m') := by
  intro hc
  simp only [AMap.contains, Option.isSome_iff_exists] at hc
  obtain ⟨n, hn⟩ := hc
  refine ⟨_, by simp only [Elicit.step, hn]; rfl, ?_⟩
  simp only [handleRequest, process, hm, Elicit.step, hn]

/-- Not a claim either: with a manager an answer with an unknown id would be refused with this text, and change
nothing. -/
theorem unknown_if_manager (srv : Srv W) (st : St W) (m) (hm : st.elicit = some m) (id : Id) (p)
    (hc : AMap.get m.pending p.elicitationId = none) :
    (handleRequest srv st id (.client (.elicitResponse p))).2 = st ∧
    errorOf (handleRequest srv st id (.client (.elicitResponse p))).1 =
      some { code := ⟨-32603, by decide⟩, message := "Protocol error: -32600 - Unknown elicitation ID", data := none } := by
  simp only [handleRequest, process, hm, Elicit.step, hc, createResponse, errorOf]
  exact ⟨trivial, rfl⟩

/-- **C114** fails: in every history nothing a program sends through the server, and no resource update, is put
into a channel: before `run` there is none, and `run` takes the server away. -/
theorem C114_never_sent (srv : Srv W) (w : W) (l : List Op) (st : St W) (b : Bool)
    (h : apiRun srv (St.init w) true l = some (st, b)) : st.sent = [] ∧ st.subs.sent = [] :=
  ⟨(inv_run srv l _ _ _ _ (inv_init w) h).sent, (inv_run srv l _ _ _ _ (inv_init w) h).subSent⟩

/-- **C114**. The caller is not told: an update of a resource with subscribers returns their number. -/
theorem C114_claims_notified (srv : Srv W) (w : W) (u c : String) (hu : u ≠ "") (hc : c ≠ "") :
    ∃ st, apiRun srv (St.init w) true [.subscribe u c] = some (st, true) ∧
      (Subscriptions.notifyResourceUpdated (withSender st) u).2 = 1 ∧
      (Subscriptions.notifyResourceUpdated (withSender st) u).1.sent = [] := by
  refine ⟨_, by simp only [apiRun, apiStep, if_true]; rfl, ?_⟩
  simp [hu, hc, Subscriptions.subscribe, Subscriptions.notifyResourceUpdated, St.init, Subscriptions.init, withSender,
    ASet.insert, AMap.get, AMap.insert, AMap.remove]

example := C114_claims_notified exampleServer 0 "file:///a" "c" (by decide) (by decide)

/-- A history for `C114_run_takes`, `C112_history`, `C113_dropped` and `C114_never_sent`.
(Specification: no counterpart in the code.) -/
def sampleApi : List Op := [.subscribe "file:///a" "c", .notify "file:///a", .handle (.str "7") callFail, .run,
  .handle (.str "8") (.client .ping)]

example := C114_run_takes exampleServer 0 sampleApi _ _ rfl
example := C112_history exampleServer 0 sampleApi _ _ rfl
example := C113_dropped exampleServer 0 sampleApi _ _ rfl (.str "9")
example := C114_never_sent exampleServer 0 sampleApi _ _ rfl

/-- Not a claim, since no program ever has both the server and the channel (`C114_run_takes`): with a channel each
notification sent would be put into it, in order. -/
theorem send_if_channel (srv : Srv W) (st : St W) (ht : st.tx = true) (n : ServerNotification) :
    ∃ st', apiStep srv st true (.send n) = some (st', true) ∧ st'.sent = st.sent ++ [n] := by
  exact ⟨_, by simp only [apiStep, if_true, ht]; rfl, rfl⟩

end Verif.Server
