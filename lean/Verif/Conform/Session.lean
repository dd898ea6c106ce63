import Verif.Conform.InResults
import Verif.Conform.Answers
import Verif.Client.Props

/-
A client of the crate with any server that keeps to the published schema (C195): the answers are arbitrary JSON that is
valid for the request, parsed by the client's transport and read by the client.
-/

namespace Verif.Conform

open Verif Verif.Wire Verif.Server Verif.Client

/-- The capability the schema asks for, as the result of `initialize` announces it; requests that are not the
client's are not allowed. (Specification: no counterpart in the code.) -/
def Announces (j : Json) : ClientRequest → Prop
  | .init _ | .elicitResponse _ | .createMessage _ => False
  | .ping => True
  | .listTools _ | .callTool _ => ∃ c, member j "capabilities" = some c ∧ (member c "tools").isSome
  | .listPrompts _ | .getPrompt _ => ∃ c, member j "capabilities" = some c ∧ (member c "prompts").isSome
  | .listResources _ | .listTemplates _ | .readResource _ | .unsubscribe _ =>
    ∃ c, member j "capabilities" = some c ∧ (member c "resources").isSome
  | .subscribe _ => ∃ c r, member j "capabilities" = some c ∧ member c "resources" = some r ∧
      member r "subscribe" = some (.bool true)
  | .complete _ => ∃ c, member j "capabilities" = some c ∧ (member c "completions").isSome
  | .setLevel _ => ∃ c, member j "capabilities" = some c ∧ (member c "logging").isSome

/-- The results of a conforming server the client can use. (Specification: no counterpart in the code.) -/
def Usable : ClientRequest → Json → Prop
  | .callTool _, j => ∀ c ∈ items j "content", Readable c
  | .getPrompt _, j => ∀ m ∈ items j "messages", ∀ c, member m "content" = some c → Readable c
  | .readResource _, j => items j "contents" = []
  | .complete _, j => ∀ c n, member j "completion" = some c → member c "total" = some (.num (.int n)) → 0 ≤ n ∧ n < 2 ^ 64
  | _, _ => True

/-- The result has no member of a name that is not in the schema but in the crate. (Specification: no counterpart in
the code.) -/
def NoExtras : ClientRequest → Json → Prop
  | .listPrompts _, j => ∀ p ∈ items j "prompts", ∀ a ∈ items p "arguments", member a "completion" = none
  | .readResource _, j => ∀ c ∈ items j "contents", member c "type" = none
  | _, _ => True

/-- A response: neither a request nor an error. (Specification: no counterpart in the code.) -/
def OnlyResult (f : List (String × Json)) : Prop :=
  AMap.get f "method" = none ∧ AMap.get f "error" = none ∧ IdFits f

theorem reads_usable (r : ClientRequest) (s : Schema) (hs : answerSchema r = some s) (j : Json) (h : s j = true)
    (hx : NoExtras r j) (hr : ∀ p, r ≠ .init p) : reads r j = true ↔ Usable r j := by
  cases r <;> simp only [answerSchema, Option.some.injEq, reduceCtorEq] at hs <;> subst hs <;>
    simp only [reads, Usable, iff_true]
  case init p => exact absurd rfl (hr p)
  case listTools => exact (C193_lists j).1 h
  case callTool => exact C193_call_partial j h
  case listPrompts => exact C193_prompts_partial j h hx
  case getPrompt => exact C193_getPrompt_partial j h
  case listResources => exact (C193_lists j).2.1 h
  case listTemplates => exact (C193_lists j).2.2 h
  case readResource => exact C193_read_partial j h hx
  case complete => exact C193_complete_partial j h

/-- A valid response is received as such. -/
theorem received (s : Schema) (f : List (String × Json)) (h : response s (.obj f) = true) (hf : OnlyResult f) :
    ∃ id j, parseMessage (.obj f) = some (.response ⟨"2.0", id, .result j⟩) ∧ AMap.get f "id" = some id.enc ∧
      AMap.get f "result" = some j ∧ s j = true := by
  obtain ⟨hm, he, hid⟩ := hf
  have := C192_responses_partial s f h hm he
  obtain ⟨m, hm'⟩ := Option.isSome_iff_exists.mp (this.1.mpr hid)
  obtain ⟨id, r, rfl, h1, h2⟩ := this.2 m hm'
  refine ⟨id, r, hm', h1, h2, ?_⟩
  simp only [response, object_obj, List.all_cons, List.all_nil, Bool.and_true, Bool.and_eq_true, must, h2] at h
  exact h.2.2

/-- What the client knows of the capability `subscribe`. -/
theorem subscribe_read (j : Json) (h : initializeResult j = true) (r : InitResult) (hr : InitResult.dec j = some r) :
    (∃ x, r.capabilities.resources = some x ∧ x.subscribe = some true) ↔
      ∃ c x, member j "capabilities" = some c ∧ member c "resources" = some x ∧ member x "subscribe" = some (.bool true) := by
  simp only [initializeResult, object_iff, List.mem_cons, List.not_mem_nil, or_false, forall_eq_or_imp, forall_eq] at h
  obtain ⟨g, rfl, -, h2, -, -⟩ := h
  rw [must_iff] at h2
  obtain ⟨cj, hc, hcs⟩ := h2
  obtain ⟨c, rfl, hcl⟩ := (object_iff _ _).mp hcs
  simp only [List.mem_cons, List.not_mem_nil, or_false, forall_eq_or_imp, forall_eq] at hcl
  have k5 := (may_iff _ _ _).mp hcl.2.2.2.2.1
  simp only [InitResult.dec, src_obj, Option.bind_eq_bind, Option.bind_some, req_obj, opt_obj, hc, Option.bind_eq_some_iff,
    Option.some.injEq] at hr
  obtain ⟨v, -, caps, hcaps, i, -, o, -, rfl⟩ := hr
  simp only [ServerCaps.dec, src_obj, Option.bind_eq_bind, Option.bind_some, opt_obj, Option.bind_eq_some_iff,
    Option.some.injEq] at hcaps
  obtain ⟨t, -, p, -, rs, hrs, lg, -, cm, -, sm, -, ex, -, rfl⟩ := hcaps
  show (∃ x, rs = some x ∧ _) ↔ _
  simp only [member, hc, Option.some.injEq, exists_and_left, exists_eq_left']
  cases hg : AMap.get c "resources" with
  | none =>
    rw [hg] at hrs
    simp only [optOf_none, Option.some.injEq] at hrs
    subst hrs
    simp
  | some x =>
    rw [hg] at hrs
    obtain ⟨y, rfl, hy⟩ := (object_iff _ _).mp (k5 x hg)
    simp only [List.mem_cons, List.not_mem_nil, or_false, forall_eq_or_imp, forall_eq, may_iff] at hy
    simp only [optOf, decOpt, ResourceCap.dec, src_obj, Option.bind_eq_bind, Option.bind_some, opt_obj,
      Option.map_eq_some_iff, Option.bind_eq_some_iff, Option.some.injEq] at hrs
    obtain ⟨z, ⟨a, ha, b, -, rfl⟩, rfl⟩ := hrs
    simp only [Option.some.injEq, exists_eq_left']
    cases hsb : AMap.get y "subscribe" with
    | none =>
      rw [hsb] at ha
      simp only [optOf_none, Option.some.injEq] at ha
      subst ha
      simp
    | some w =>
      rw [hsb] at ha
      have := hy.1 w hsb
      cases w <;> simp [bool] at this
      simp only [optOf, decOpt, decBool, Option.map_some, Option.some.injEq] at ha
      subst ha
      simp

/-- What the client lets through after such an answer. -/
theorem gate_announces (j : Json) (h : initializeResult j = true)
    (hp : ∀ c, member j "capabilities" = some (.obj c) → PlainServerCaps c) :
    ∃ ir, InitResult.dec j = some ir ∧ member j "protocolVersion" = some (.str ir.protocolVersion) ∧
      ∀ r, (∃ g, gate r = some g ∧ g ir.capabilities = true) ↔ Announces j r := by
  obtain ⟨ir, i, h1, h2, -, -, -, t, p, rs, lg, cm⟩ := C193_initialize_partial j h hp
  refine ⟨ir, h1, h2, fun r => ?_⟩
  cases r <;> simp only [gate, Announces, Option.some.injEq, exists_eq_left', reduceCtorEq, false_and, exists_false,
    Bool.false_eq_true, t, p, rs, lg, cm]
  case subscribe =>
    rw [← subscribe_read j h ir h1]
    cases ir.capabilities.resources with
    | none => simp
    | some x => cases hx : x.subscribe <;> simp [hx]

/-- What the client writes to connect. (Specification: no counterpart in the code.) -/
def hello (info : Impl) (caps : ClientCaps) (id : Id) : List TMsg :=
  [.request id (.client (.init { protocolVersion := "2025-06-18", capabilities := caps, clientInfo := info })),
   .notification (.client .initialized)]

/-- **C195**. A client connects to every server whose answer to `initialize` is valid, if the answer names a version
the client supports and the capabilities use no member the crate adds to the schema. Missing from the property: those
capabilities, ids the crate cannot hold, and answers with a member `method` or `error`. -/
theorem C195_connect_partial (info : Impl) (caps : ClientCaps) (id : Id) (f : List (String × Json)) (j : Json) (v : String)
    (h : response initializeResult (.obj f) = true) (hf : OnlyResult f) (hj : AMap.get f "result" = some j)
    (hp : ∀ c, member j "capabilities" = some (.obj c) → PlainServerCaps c)
    (hv : member j "protocolVersion" = some (.str v)) :
    (v ∈ ["2025-06-18", "2025-03-26", "2024-11-05", "2024-10-07"] →
      (call (Cl.new info) ⟨id, true, parseMessage (.obj f), true⟩ (.connect caps)).1 = hello info caps id ∧
      (call (Cl.new info) ⟨id, true, parseMessage (.obj f), true⟩ (.connect caps)).2.1 = .value j ∧
      (call (Cl.new info) ⟨id, true, parseMessage (.obj f), true⟩ (.connect caps)).2.2.initialized = true) ∧
    (v ∉ ["2025-06-18", "2025-03-26", "2024-11-05", "2024-10-07"] →
      (call (Cl.new info) ⟨id, true, parseMessage (.obj f), true⟩ (.connect caps)).2.1 = .fail .version ∧
      (call (Cl.new info) ⟨id, true, parseMessage (.obj f), true⟩ (.connect caps)).2.2.initialized = false) := by
  obtain ⟨i, j', hm, -, hj', hs⟩ := received _ f h hf
  obtain rfl : j = j' := by rw [hj] at hj'; exact Option.some.inj hj'
  obtain ⟨ir, hd, hpv, -⟩ := gate_announces j hs hp
  obtain rfl : v = ir.protocolVersion := by rw [hv] at hpv; simpa using hpv
  have e : supported = ["2025-06-18", "2025-03-26", "2024-11-05", "2024-10-07"] := rfl
  constructor <;> intro hin <;> rw [← e] at hin <;>
    simp [call, Cl.new, sendRequest, hm, connected, hd, hin, hello, latest]

/-- **C195**. After connecting to a server that keeps to the schema, a call sends the request exactly if the server
announced the capability, and it returns the server's valid answer exactly if that is usable by the crate: contents
of a tool or prompt are readable, a resource has no contents, totals of completions fit. Missing from the property:
the other answers, which fail to parse; and answers with members that only the crate knows. -/
theorem C195_session_partial (info : Impl) (caps : ClientCaps) (id : Id) (f : List (String × Json)) (j : Json) (v : String)
    (h : response initializeResult (.obj f) = true) (hf : OnlyResult f) (hj : AMap.get f "result" = some j)
    (hp : ∀ c, member j "capabilities" = some (.obj c) → PlainServerCaps c)
    (hv : member j "protocolVersion" = some (.str v))
    (hin : v ∈ ["2025-06-18", "2025-03-26", "2024-11-05", "2024-10-07"])
    (c : Cl) (hc : (call (Cl.new info) ⟨id, true, parseMessage (.obj f), true⟩ (.connect caps)).2.2 = c)
    (r : ClientRequest) (s : Schema) (hs : answerSchema r = some s) (id' : Id) (f' : List (String × Json)) (j' : Json)
    (h' : response s (.obj f') = true) (hf' : OnlyResult f') (hj' : AMap.get f' "result" = some j') (hx : NoExtras r j')
    (b : Bool) (w : List TMsg) (out : Ret) (c' : Cl)
    (ho : call c ⟨id', true, parseMessage (.obj f'), b⟩ (.request r) = (w, out, c')) :
    c' = c ∧
    (¬ Announces j r → w = [] ∧ out = .fail .capability) ∧
    (Announces j r → w = [.request id' (.client r)] ∧
      (Acknowledged r → out = .unit) ∧
      (¬ Acknowledged r → Usable r j' → out = .value j') ∧
      (¬ Acknowledged r → ¬ Usable r j' → out = .fail .parse)) := by
  obtain ⟨i, k, hm, -, hk, hk'⟩ := received _ f h hf
  obtain rfl : j = k := by rw [hj] at hk; exact Option.some.inj hk
  obtain ⟨i', k', hm', -, hl, hl'⟩ := received _ f' h' hf'
  obtain rfl : j' = k' := by rw [hj'] at hl; exact Option.some.inj hl
  obtain ⟨ir, hd, hpv, hg⟩ := gate_announces j hk' hp
  obtain rfl : v = ir.protocolVersion := by rw [hv] at hpv; simpa using hpv
  have e : supported = ["2025-06-18", "2025-03-26", "2024-11-05", "2024-10-07"] := rfl
  rw [← e] at hin
  have hc1 : c.initialized = true ∧ c.serverCaps = some ir.capabilities := by
    rw [← hc]; simp [call, Cl.new, sendRequest, hm, connected, hd, hin]
  specialize hg r
  have hack : returnsUnit r = true ↔ Acknowledged r := by cases r <;> simp [returnsUnit, Acknowledged]
  cases hgr : gate r with
  | none =>
    simp only [call, hgr, Prod.mk.injEq] at ho
    obtain ⟨rfl, rfl, rfl⟩ := ho
    have : ¬ Announces j r := fun ha => by obtain ⟨g, hg1, -⟩ := hg.mpr ha; rw [hgr] at hg1; cases hg1
    exact ⟨rfl, fun _ => ⟨rfl, rfl⟩, fun ha => absurd ha this⟩
  | some g =>
    have hg' : g ir.capabilities = true ↔ Announces j r := by
      rw [← hg]; exact ⟨fun x => ⟨g, hgr, x⟩, fun ⟨g', a, b⟩ => by rw [hgr] at a; cases a; exact b⟩
    simp only [call, hgr, hc1.1, hc1.2, if_true] at ho
    have hri : ∀ p, r ≠ .init p := fun p hr => by subst hr; simp [gate] at hgr
    have hu := reads_usable r s hs j' hl' hx hri
    by_cases ha : Announces j r
    · rw [if_pos (hg'.mpr ha)] at ho
      simp only [sendRequest, if_true, hm', finish, Prod.mk.injEq] at ho
      obtain ⟨rfl, rfl, rfl⟩ := ho
      refine ⟨rfl, fun n => absurd ha n, fun _ => ⟨rfl, fun a => by rw [if_pos (hack.mpr a)], fun a u => ?_, fun a u => ?_⟩⟩
      · rw [if_neg (fun x => a (hack.mp x)), if_pos (hu.mpr u)]
      · rw [if_neg (fun x => a (hack.mp x)), if_neg (fun x => u (hu.mp x))]
    · rw [if_neg (fun x => ha (hg'.mp x))] at ho
      simp only [Prod.mk.injEq] at ho
      obtain ⟨rfl, rfl, rfl⟩ := ho
      exact ⟨rfl, fun _ => ⟨rfl, rfl⟩, fun a => absurd a ha⟩

/-- **C195**, a server's refusal. An error of the schema whose id and code fit reaches the caller of any allowed
request with its message and its code, except that codes from -32099 to -32000 other than -32001 to -32004 become
-32603. Missing from the property: those codes, and ids and codes that do not fit. -/
theorem C195_refused_partial (c : Cl) (hi : c.initialized = true) (sc : ServerCaps) (hsc : c.serverCaps = some sc)
    (r : ClientRequest) (ha : Allowed sc r) (hm : ∀ p, r ≠ .createMessage p) (id : Id) (f e : List (String × Json))
    (h : errorResponse (.obj f) = true) (h1 : AMap.get f "method" = none) (h2 : AMap.get f "result" = none)
    (h3 : AMap.get f "error" = some (.obj e)) (h4 : IdFits f) (n : Int) (hn : AMap.get e "code" = some (.num (.int n)))
    (hr : -2 ^ 31 ≤ n ∧ n < 2 ^ 31) (t : String) (ht : AMap.get e "message" = some (.str t)) (b : Bool) :
    ∃ k d, (call c ⟨id, true, parseMessage (.obj f), b⟩ (.request r)).2.1 = .fail (.rpc (.protocol k t d)) ∧
      (k.1 = n ↔ ¬ ((-32099 ≤ n ∧ n ≤ -32005) ∨ n = -32000)) ∧ (k.1 ≠ n → k.1 = -32603) := by
  have := C192_errors_partial f e h h1 h2 h3
  obtain ⟨m, hp⟩ := Option.isSome_iff_exists.mp (this.1.mpr ⟨h4, fun k hk => by rw [hn] at hk; cases hk; exact hr⟩)
  obtain ⟨i, x, rfl, -, hx, hxm⟩ := this.2 m hp
  obtain ⟨g, hg, hgs⟩ := allowed_gate r sc hm ha
  have e1 : x.message = t := by rw [ht] at hxm; simpa using hxm.symm
  have e2 : x.code.1 = n := by rw [hn] at hx; simpa [encInt] using hx.symm
  refine ⟨fromI32 x.code, x.data, ?_, ?_⟩
  · simp [call, hg, hi, hsc, hgs, sendRequest, hp, finish, fromRpcError, e1]
  · simp only [fromI32, e2, List.mem_cons, List.not_mem_nil, or_false]
    split
    · refine ⟨⟨fun _ => by omega, fun _ => e2⟩, fun hne => absurd e2 hne⟩
    · split
      · refine ⟨⟨fun _ => by omega, fun _ => e2⟩, fun hne => absurd e2 hne⟩
      · split
        · refine ⟨⟨fun hk => ?_, fun hk => by omega⟩, fun _ => rfl⟩
          simp only [internalError] at hk; omega
        · refine ⟨⟨fun _ => by omega, fun _ => e2⟩, fun hne => absurd e2 hne⟩

/-! ### An example -/

/-- The answer to `initialize` of a server with tools and resources. (Specification: no counterpart in the code.) -/
def helloAnswer : List (String × Json) :=
  [("jsonrpc", .str "2.0"), ("id", .num (.int 1)), ("result", .obj [("protocolVersion", .str "2025-03-26"),
    ("capabilities", .obj [("tools", .obj []), ("resources", .obj [("subscribe", .bool true)])]),
    ("serverInfo", .obj [("name", .str "s"), ("version", .str "1")])])]

/-- A result as a response. (Specification: no counterpart in the code.) -/
def answerOf (j : Json) : List (String × Json) := [("jsonrpc", .str "2.0"), ("id", .num (.int 2)), ("result", j)]

theorem onlyResult_answerOf (j : Json) : OnlyResult (answerOf j) := by
  refine ⟨by simp [answerOf, AMap.get_cons, AMap.get], by simp [answerOf, AMap.get_cons, AMap.get], ?_⟩
  simp [answerOf, IdFits, AMap.get_cons, AMap.get]

theorem onlyResult_hello : OnlyResult helloAnswer := by
  refine ⟨by simp [helloAnswer, AMap.get_cons, AMap.get], by simp [helloAnswer, AMap.get_cons, AMap.get], ?_⟩
  simp [helloAnswer, IdFits, AMap.get_cons, AMap.get]

theorem plain_hello (j : Json) (h : AMap.get helloAnswer "result" = some j) :
    ∀ c, member j "capabilities" = some (.obj c) → PlainServerCaps c := by
  simp only [helloAnswer, AMap.get_cons] at h
  simp at h
  subst h
  intro c hc
  simp [member, AMap.get_cons] at hc
  subst hc
  simp [PlainServerCaps, AMap.get_cons, AMap.get]

/-- Connecting to this server. -/
example (info : Impl) (caps : ClientCaps) := (C195_connect_partial info caps (.str "1") helloAnswer _ "2025-03-26" (by decide)
  onlyResult_hello rfl (plain_hello _ rfl) rfl).1 (by decide)

/-- A text resource of this server, as the schema has it, cannot be read: the property without the guard is false. -/
theorem C195_read_refuted (info : Impl) (caps : ClientCaps) :
    ∃ (c : Cl) (j : Json) (p : UriParams),
      (call (Cl.new info) ⟨.str "1", true, parseMessage (.obj helloAnswer), true⟩ (.connect caps)).2.2 = c ∧
      response readResourceResult (.obj (answerOf j)) = true ∧
      (call c ⟨.str "2", true, parseMessage (.obj (answerOf j)), true⟩ (.request (.readResource p))).2.1 = .fail .parse := by
  refine ⟨_, .obj [("contents", .arr [.obj [("uri", .str "file:///a"), ("text", .str "hi")]])], ⟨"file:///a"⟩, rfl, by decide, ?_⟩
  have := C195_session_partial info caps (.str "1") helloAnswer _ "2025-03-26" (by decide) onlyResult_hello rfl
    (plain_hello _ rfl) rfl (by decide) _ rfl (.readResource ⟨"file:///a"⟩) readResourceResult rfl (.str "2")
    (answerOf (.obj [("contents", .arr [.obj [("uri", .str "file:///a"), ("text", .str "hi")]])])) _ (by decide)
    (onlyResult_answerOf _) rfl
    (by intro c hc; simp [items, AMap.get_cons] at hc; subst hc; simp [member, AMap.get_cons, AMap.get]) true _ _ _ rfl
  refine (this.2.2 ⟨_, rfl, rfl⟩).2.2.2 (fun h => h) ?_
  simp [Usable, items, AMap.get_cons]

/-- A refusal of this server. -/
example (info : Impl) (sc : ServerCaps) (h : sc.tools ≠ none) := C195_refused_partial
  { Cl.new info with serverCaps := some sc, initialized := true } rfl sc rfl (.listTools { cursor := none }) h
  (fun _ h => nomatch h) (.str "2")
  [("jsonrpc", .str "2.0"), ("id", .num (.int 2)), ("error", .obj [("code", .num (.int (-32601))), ("message", .str "no")])] _
  (by decide) (by simp [AMap.get_cons, AMap.get]) (by simp [AMap.get_cons, AMap.get]) rfl (by simp [IdFits, AMap.get_cons])
  (-32601) rfl (by decide) "no" rfl true

end Verif.Conform
