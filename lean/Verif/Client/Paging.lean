import Verif.Client.Props

/-
Paging: what a caller gets who follows the cursors of `list_tools`, `list_prompts`, `list_resources` and
`list_resource_templates` to the end (C250).

Models /repo/src/client/mod.rs L374-394, L522-542, L663-684, L720-744 together with /repo/src/server/mod.rs L618-632,
L660-674, L696-722, L748-753.
-/

namespace Verif.Client

open Verif Verif.Wire Verif.Server

variable {W α S : Type}

/-- A `list_*` method called with a cursor, by a client whose server answers; the server afterwards. Request `k` of the
client has id `ids k`. /repo/src/client/mod.rs L374-394, L522-542, L663-684, L720-744. -/
def remote (srv : Srv W) (c : Cl) (ids : Nat → Id) (mk : Option String → ClientRequest) (d : Json → Option (Page α))
    (cursor : Option String) (s : Nat × St W) : Option (Page α) × (Nat × St W) :=
  (match (call c (answering srv s.2 (ids s.1) (mk cursor)) (.request (mk cursor))).2.1 with
    | .value v => d v
    | _ => none,
   (s.1 + 1, (handleRequest srv s.2 (ids s.1) (.client (mk cursor))).2))

/-- The handler called directly. (Specification: no counterpart in the code.) -/
def direct (h : Option String → Extra → W → Server.Outcome (Page α) × W) (ids : Nat → Id) (cursor : Option String)
    (s : Nat × St W) : Option (Page α) × (Nat × St W) :=
  (match (h cursor (extraOf s.2 (ids s.1)) s.2.world).1 with
    | .ok p => some p
    | _ => none,
   (s.1 + 1, { s.2 with world := (h cursor (extraOf s.2 (ids s.1)) s.2.world).2 }))

/-- A caller who follows the cursors to the end, giving up after `n` requests: the items of all pages in order.
(Specification: no counterpart in the code.) -/
def follow (ask : Option String → S → Option (Page α) × S) : Nat → Option String → S → Option (List α)
  | 0, _, _ => none
  | n + 1, cursor, s => match (ask cursor s).1 with
    | none => none
    | some p => match p.nextCursor with
      | none => some p.items
      | some k => (follow ask n (some k) (ask cursor s).2).map (p.items ++ ·)

/-- The client has connected to the server and knows what it advertises.
(Specification: no counterpart in the code.) -/
def Connected (srv : Srv W) (c : Cl) : Prop := c.initialized = true ∧ c.serverCaps = some srv.capabilities

/-- `list_resources` and its reader. (/repo/src/client/mod.rs L663-684.) -/
def remoteResources (srv : Srv W) (c : Cl) (ids : Nat → Id) :
    Option String → Nat × St W → Option (Page ResourceInfo) × (Nat × St W) :=
  remote srv c ids (fun k => .listResources ⟨k⟩) (Page.dec "resources" (ResourceInfo.dec "uri"))

/-- `list_resource_templates` and its reader. (/repo/src/client/mod.rs L720-744.) -/
def remoteTemplates (srv : Srv W) (c : Cl) (ids : Nat → Id) :
    Option String → Nat × St W → Option (Page ResourceInfo) × (Nat × St W) :=
  remote srv c ids (fun k => .listTemplates ⟨k⟩) (Page.dec "resourceTemplates" (ResourceInfo.dec "uriTemplate"))

/-- `list_tools` and its reader. (/repo/src/client/mod.rs L374-394.) -/
def remoteTools (srv : Srv W) (c : Cl) (ids : Nat → Id) :
    Option String → Nat × St W → Option (Page ToolInfo) × (Nat × St W) :=
  remote srv c ids (fun k => .listTools ⟨k⟩) (Page.dec "tools" ToolInfo.dec)

/-- `list_prompts` and its reader. (/repo/src/client/mod.rs L522-542.) -/
def remotePrompts (srv : Srv W) (c : Cl) (ids : Nat → Id) :
    Option String → Nat × St W → Option (Page PromptInfo) × (Nat × St W) :=
  remote srv c ids (fun k => .listPrompts ⟨k⟩) (Page.dec "prompts" PromptInfo.dec)

/-- **C250**. Asking for resources through client and server is asking the handler: the same cursor goes in, the same page
with the same cursor comes out, and the handler runs once per request. -/
theorem C250_resources_same (srv : Srv W) (c : Cl) (hc : Connected srv c) (ha : srv.capabilities.resources.isSome = true)
    (h) (r) (hr : srv.resources = some (h, r)) (ids : Nat → Id) (cursor : Option String) (s : Nat × St W) :
    remoteResources srv c ids cursor s = direct h ids cursor s := by
  obtain ⟨h1, h2⟩ := hc
  simp only [remoteResources, remote, direct, call, gate, h1, h2, ha, if_true, sendRequest, answering, handleRequest,
    process, hr]
  rcases h cursor (extraOf s.2 (ids s.1)) s.2.world with ⟨o, w⟩
  cases o with
  | ok p =>
    have hp := Page.rt "resources" _ _ p (by decide) (fun a _ => ResourceInfo.rt_uri a)
    simp [afterHandler, createResponse, finish, returnsUnit, reads, hp]
  | err e => simp [afterHandler, createResponse, finish]
  | panic => simp [afterHandler, createResponse, finish]

/-- **C250**. So a caller who follows the cursors gets what following them at the handler gives, whatever the handler does. -/
theorem C250_resources_follow (srv : Srv W) (c : Cl) (hc : Connected srv c)
    (ha : srv.capabilities.resources.isSome = true) (h) (r) (hr : srv.resources = some (h, r)) (ids : Nat → Id) (n : Nat)
    (cursor : Option String) (s : Nat × St W) :
    follow (remoteResources srv c ids) n cursor s = follow (direct h ids) n cursor s := by
  have : remoteResources srv c ids = direct h ids := by
    funext k s
    exact C250_resources_same srv c hc ha h r hr ids k s
  rw [this]

/-- A handler that hands out the given pages, naming page `i` by `name i`. (Specification: no counterpart in the code.) -/
def Serves (h : Option String → Extra → W → Server.Outcome (Page α) × W) (pages : List (List α)) (name : Nat → String) :
    Prop :=
  ∀ i l, pages[i]? = some l → ∀ e w,
    (h (if i = 0 then none else some (name i)) e w).1 =
      .ok ⟨l, if i + 1 < pages.length then some (name (i + 1)) else none⟩

theorem follow_serves (h : Option String → Extra → W → Server.Outcome (Page α) × W) (pages : List (List α))
    (name : Nat → String) (hs : Serves h pages name) (ids : Nat → Id) (n i : Nat) (hi : i < pages.length) (s : Nat × St W) :
    follow (direct h ids) n (if i = 0 then none else some (name i)) s =
      if pages.length - i ≤ n then some (pages.drop i).flatten else none := by
  induction n generalizing i s with
  | zero => simp [follow]; omega
  | succ n ih =>
    have hl : pages[i]? = some pages[i] := List.getElem?_eq_getElem hi
    have := hs i _ hl
    simp only [follow, direct, this]
    by_cases hlast : i + 1 < pages.length
    · rw [if_pos hlast]
      have hn := ih (i + 1) hlast
        (s.1 + 1, { s.2 with world := (h (if i = 0 then none else some (name i)) (extraOf s.2 (ids s.1)) s.2.world).2 })
      rw [if_neg (by omega)] at hn
      simp only [hn]
      have hd : (pages.drop i).flatten = pages[i] ++ (pages.drop (i + 1)).flatten := by
        rw [List.drop_eq_getElem_cons hi, List.flatten_cons]
      by_cases hle : pages.length - i ≤ n + 1
      · rw [if_pos hle, if_pos (by omega), hd]
        rfl
      · rw [if_neg hle, if_neg (by omega)]
        rfl
    · have hle : pages.length - i ≤ n + 1 := by omega
      rw [if_neg hlast, if_pos hle, List.drop_eq_getElem_cons hi, List.drop_eq_nil_of_le (by omega)]
      simp

/-- **C250**. If the handler cuts its resources into pages, a caller who follows the cursors gets the resources of all pages
in order, each once, with exactly as many requests as there are pages. -/
theorem C250_resources (srv : Srv W) (c : Cl) (hc : Connected srv c) (ha : srv.capabilities.resources.isSome = true)
    (h) (r) (hr : srv.resources = some (h, r)) (ids : Nat → Id) (pages : List (List ResourceInfo)) (name : Nat → String)
    (hp : pages ≠ []) (hs : Serves h pages name) (n : Nat) (s : Nat × St W) :
    follow (remoteResources srv c ids) n none s = if pages.length ≤ n then some pages.flatten else none := by
  rw [C250_resources_follow srv c hc ha h r hr]
  have := follow_serves h pages name hs ids n 0 (List.length_pos_iff.mpr hp) s
  simpa using this

theorem tools_page (info : Impl) (render : Json → String) (l : List (Build W)) (c : Cl)
    (hc : Connected (build info render l) c) (ha : (build info render l).capabilities.tools.isSome = true)
    (ids : Nat → Id) (cursor : Option String) (s : Nat × St W) :
    (remoteTools (build info render l) c ids cursor s).1 =
      some ⟨(AMap.keys (build info render l).tools).map (fun n => ⟨n, none, emptyObj⟩), none⟩ := by
  obtain ⟨h1, h2⟩ := hc
  have hp := Page.rt "tools" ToolInfo.dec ToolInfo.enc
    ⟨(AMap.keys (build info render l).tools).map (fun n => ⟨n, none, emptyObj⟩), none⟩ (by decide)
    (fun a _ => ToolInfo.rt a)
  simp only [remoteTools, remote, call, gate, h1, h2, ha, if_true, sendRequest, answering, handleRequest, process,
    createResponse, Option.map_some, finish, returnsUnit, reads, hp, Option.isSome_some, Bool.false_eq_true, if_false]

theorem prompts_page (info : Impl) (render : Json → String) (l : List (Build W)) (c : Cl)
    (hc : Connected (build info render l) c) (ha : (build info render l).capabilities.prompts.isSome = true)
    (ids : Nat → Id) (cursor : Option String) (s : Nat × St W) :
    (remotePrompts (build info render l) c ids cursor s).1 =
      some ⟨(AMap.keys (build info render l).prompts).map (fun n => ⟨n, none, none⟩), none⟩ := by
  obtain ⟨h1, h2⟩ := hc
  have hp := Page.rt "prompts" PromptInfo.dec PromptInfo.enc
    ⟨(AMap.keys (build info render l).prompts).map (fun n => ⟨n, none, none⟩), none⟩ (by decide)
    (fun a ha => PromptInfo.rt a (by
      obtain ⟨n, _, rfl⟩ := List.mem_map.mp ha
      intro l hl; simp at hl))
  simp only [remotePrompts, remote, call, gate, h1, h2, ha, if_true, sendRequest, answering, handleRequest, process,
    createResponse, Option.map_some, finish, returnsUnit, reads, hp, Option.isSome_some, Bool.false_eq_true, if_false]

/-- **C250**. All tools come with the first page, each once and with nothing but its name, and no cursor is given out. -/
theorem C250_tools (info : Impl) (render : Json → String) (l : List (Build W)) (c : Cl)
    (hc : Connected (build info render l) c) (ha : (build info render l).capabilities.tools.isSome = true)
    (ids : Nat → Id) (s : Nat × St W) :
    ∃ names : List String, names.Nodup ∧ (∀ n, n ∈ names ↔ ∃ h, Build.tool n h ∈ l) ∧
      (remoteTools (build info render l) c ids none s).1 = some ⟨names.map (fun n => ⟨n, none, emptyObj⟩), none⟩ ∧
      ∀ n, follow (remoteTools (build info render l) c ids) (n + 1) none s =
        some (names.map (fun n => ⟨n, none, emptyObj⟩)) := by
  obtain ⟨names, h1, h2, h3⟩ := C111_tools_listed info render l s.2 (ids s.1) ⟨none⟩
  have hk : names = AMap.keys (build info render l).tools := by
    simp only [handleRequest, process, createResponse, listedTools,
      Page.rt "tools" ToolInfo.dec ToolInfo.enc _ (by decide) (fun a _ => ToolInfo.rt a), Option.map_some, List.map_map,
      Option.some.injEq] at h1
    rw [← h1]
    induction AMap.keys (build info render l).tools with
    | nil => rfl
    | cons a t ih => simp_all
  subst hk
  refine ⟨_, h2, h3, tools_page info render l c hc ha ids none s, fun n => ?_⟩
  simp only [follow, tools_page info render l c hc ha ids none s]

/-- **C250**. All prompts come with the first page, each once and with nothing but its name, and no cursor is given out. -/
theorem C250_prompts (info : Impl) (render : Json → String) (l : List (Build W)) (c : Cl)
    (hc : Connected (build info render l) c) (ha : (build info render l).capabilities.prompts.isSome = true)
    (ids : Nat → Id) (s : Nat × St W) :
    ∃ names : List String, names.Nodup ∧ (∀ n, n ∈ names ↔ ∃ h, Build.prompt n h ∈ l) ∧
      (remotePrompts (build info render l) c ids none s).1 = some ⟨names.map (fun n => ⟨n, none, none⟩), none⟩ ∧
      ∀ n, follow (remotePrompts (build info render l) c ids) (n + 1) none s =
        some (names.map (fun n => ⟨n, none, none⟩)) := by
  obtain ⟨names, h1, h2, h3⟩ := C111_prompts_listed info render l s.2 (ids s.1) ⟨none⟩
  have hk : names = AMap.keys (build info render l).prompts := by
    have hp := Page.rt "prompts" PromptInfo.dec PromptInfo.enc
      ⟨(AMap.keys (build info render l).prompts).map (fun n => ⟨n, none, none⟩), none⟩ (by decide)
      (fun a ha => PromptInfo.rt a (by
        obtain ⟨n, _, rfl⟩ := List.mem_map.mp ha
        intro l hl; simp at hl))
    simp only [handleRequest, process, createResponse, listedPrompts, hp, Option.map_some, List.map_map,
      Option.some.injEq] at h1
    rw [← h1]
    induction AMap.keys (build info render l).prompts with
    | nil => rfl
    | cons a t ih => simp_all
  subst hk
  refine ⟨_, h2, h3, prompts_page info render l c hc ha ids none s, fun n => ?_⟩
  simp only [follow, prompts_page info render l c hc ha ids none s]

/-- **C250** fails for cursors the server never gave out: asked for the tools, prompts or resource templates after any
cursor at all, the server answers with the first page again, where the protocol asks for an error. -/
theorem C250_any_cursor (info : Impl) (render : Json → String) (l : List (Build W)) (c : Cl)
    (hc : Connected (build info render l) c) (ids : Nat → Id) (cursor : String) (s : Nat × St W) :
    ((build info render l).capabilities.tools.isSome = true →
      (remoteTools (build info render l) c ids (some cursor) s).1 =
        (remoteTools (build info render l) c ids none s).1) ∧
    ((build info render l).capabilities.prompts.isSome = true →
      (remotePrompts (build info render l) c ids (some cursor) s).1 =
        (remotePrompts (build info render l) c ids none s).1) ∧
    (handleRequest (build info render l) s.2 (ids s.1) (.client (.listTemplates ⟨some cursor⟩))).1 =
      (handleRequest (build info render l) s.2 (ids s.1) (.client (.listTemplates ⟨none⟩))).1 := by
  refine ⟨fun ha => ?_, fun ha => ?_, rfl⟩
  · rw [tools_page info render l c hc ha, tools_page info render l c hc ha]
  · rw [prompts_page info render l c hc ha, prompts_page info render l c hc ha]

/-- **C250** fails for resource templates: no server, however it was built, has any to list. -/
theorem C250_templates (srv : Srv W) (c : Cl) (hc : Connected srv c) (ha : srv.capabilities.resources.isSome = true)
    (ids : Nat → Id) (cursor : Option String) (s : Nat × St W) (n : Nat) :
    follow (remoteTemplates srv c ids) (n + 1) cursor s = some [] := by
  obtain ⟨h1, h2⟩ := hc
  have hp := Page.rt "resourceTemplates" (ResourceInfo.dec "uriTemplate") (ResourceInfo.enc "uriTemplate") ⟨[], none⟩
    (by decide) (by simp)
  simp only [follow, remoteTemplates, remote, call, gate, h1, h2, ha, if_true, sendRequest, answering, handleRequest,
    process, createResponse, Option.map_some, finish, returnsUnit, reads, hp, Option.isSome_some, Bool.false_eq_true,
    if_false]

/-- **C250** fails for a server that was not told to advertise resources: its handler is never asked. -/
theorem C250_not_advertised (srv : Srv W) (c : Cl) (hc : Connected srv c) (ha : srv.capabilities.resources = none)
    (ids : Nat → Id) (cursor : Option String) (s : Nat × St W) (n : Nat) :
    follow (remoteResources srv c ids) n cursor s = none ∧
      (call c (answering srv s.2 (ids s.1) (.listResources ⟨cursor⟩)) (.request (.listResources ⟨cursor⟩))).1 = [] := by
  obtain ⟨h1, h2⟩ := hc
  have hcall : call c (answering srv s.2 (ids s.1) (.listResources ⟨cursor⟩)) (.request (.listResources ⟨cursor⟩)) =
      ([], .fail .capability, c) := by
    simp [call, gate, h1, h2, ha]
  refine ⟨?_, by rw [hcall]⟩
  cases n with
  | zero => rfl
  | succ n => simp [follow, remoteResources, remote, hcall]

/-! ### A concrete case -/

/-- Three resources. (Specification: no counterpart in the code.) -/
def three : List (List ResourceInfo) :=
  [[⟨"file:///a", "a", none, none⟩, ⟨"file:///b", "b", none, none⟩], [⟨"file:///c", "c", none, none⟩]]

/-- A handler with two pages that counts its calls. (Specification: no counterpart in the code.) -/
def threeHandler : Option String → Extra → Nat → Server.Outcome (Page ResourceInfo) × Nat
  | none, _, w => (.ok ⟨three[0]!, some "1"⟩, w + 1)
  | some "1", _, w => (.ok ⟨three[1]!, none⟩, w + 1)
  | some _, _, w => (.err (.other "no such cursor"), w + 1)

/-- The handler serves its two pages. -/
example : Serves threeHandler three (fun i => toString i) := by
  intro i l hl e w
  match i, hl with
  | 0, hl => cases hl; rfl
  | 1, hl => cases hl; rfl
  | i + 2, hl => simp [three] at hl

/-- A server with that handler, and a connected client. -/
example : ∃ (srv : Srv Nat) (c : Cl), Connected srv c ∧ srv.capabilities.resources.isSome = true ∧
    ∃ r, srv.resources = some (threeHandler, r) :=
  ⟨build ⟨"s", "1"⟩ (fun _ => "") [.capabilities { resources := some {} }, .resources threeHandler (fun _ _ w => (.panic, w))],
    { Cl.new ⟨"c", "1"⟩ with initialized := true, serverCaps := some { resources := some {} } }, ⟨rfl, rfl⟩, rfl, _, rfl⟩

end Verif.Client
