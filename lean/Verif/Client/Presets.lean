import Verif.Client.Auth
import Verif.Client.Paging

/-
What the capabilities of a client and of a server are good for: the requests a client gets (C251), and the ready-made
capabilities (C252).

Models /repo/src/types/capabilities.rs L179-267, L303-374, L399-443, L485-492, L541-549, L584-656, and uses the model of the client.
-/

namespace Verif.Client

open Verif Verif.Wire Verif.Server

variable {W : Type}

/-! ### C251: requests of the server -/

/-- **C251** fails: whatever a program does with a client, and whatever the server sends, the client never writes a
response. So no request of a server is ever answered, a `ping` no more than a sampling request. -/
theorem C251_never_answers (c : Cl) (l : List ACall) : ∀ m ∈ (acalls c l).1, ∀ r, m ≠ .response r := by
  have key : ∀ (c : Cl) (e : Env) (k : Call), ∀ m ∈ (call c e k).1, ∀ r, m ≠ .response r := by
    intro c e k m hm r hr
    subst hr
    have hsend : ∀ (e : Env) (q : ClientRequest), .response r ∉ (sendRequest e q).1 := by
      intro e q
      unfold sendRequest
      split <;> simp
    have hconn : ∀ (c : Cl) (e : Env) (x : RpcResponse), .response r ∉ (connected c e x).1 := by
      intro c e x
      unfold connected
      repeat' split
      all_goals simp
    cases k with
    | connect caps =>
      simp only [call] at hm
      split at hm
      · simp at hm
      · split at hm
        · exact hsend _ _ hm
        · simp only [List.mem_append] at hm
          rcases hm with hm | hm
          · exact hsend _ _ hm
          · exact hconn _ _ _ hm
    | request r =>
      simp only [call] at hm
      repeat' split at hm
      all_goals
        first
        | (simp at hm; done)
        | (unfold sendRequest at hm; split at hm <;> simp at hm)
    | rootsChanged =>
      simp only [call] at hm
      repeat' split at hm
      all_goals simp at hm
    | cancel id =>
      simp only [call] at hm
      split at hm <;> simp at hm
    | progress p =>
      simp only [call] at hm
      split at hm <;> simp at hm
  have step : ∀ (l : List ACall) (s : List TMsg × Cl), (∀ m ∈ s.1, ∀ r, m ≠ .response r) →
      ∀ m ∈ (l.foldl acall s).1, ∀ r, m ≠ .response r := by
    intro l
    induction l with
    | nil => intro s h; exact h
    | cons a l ih =>
      intro s h
      rw [List.foldl_cons]
      apply ih
      intro m hm
      cases a with
      | call e k =>
        simp only [acall, List.mem_append] at hm
        rcases hm with hm | hm
        · exact h m hm
        · exact key _ _ _ m hm
      | authenticate a =>
        simp only [acall, List.mem_append] at hm
        rcases hm with hm | hm
        · exact h m hm
        · unfold authenticate at hm
          repeat' split at hm
          all_goals simp at hm
  exact step l ([], c) (by simp)

/-- **C251** fails: a request of the server that arrives while a call waits is taken for its answer. The call fails, and
nothing is written but the call's own request. -/
theorem C251_taken_for_answer (l : List (Env × Call)) (info : Impl) (e : Env) (q : ClientRequest) (ir : InitResult)
    (ha : accepted l = some ir) (hq : Allowed ir.capabilities q) (hm : ∀ p, q ≠ .createMessage p) (he : e.sendOk = true)
    (id : Id) (r : Request) (hr : e.recv = some (.request id r)) :
    (call (calls (Cl.new info) l) e (.request q)).2.1 = .fail .wrongMessage ∧
      (call (calls (Cl.new info) l) e (.request q)).1 = [.request e.id (.client q)] :=
  ⟨(C66_told l info e q ir ha hq hm he).2.2.2.2 _ hr (by intro x hx; cases hx),
    C66_sent_partial l info e q ir ha hq hm he⟩

/-- **C251**. The capabilities are nevertheless announced as given, sampling and roots among them. -/
theorem C251_announced (info : Impl) (e : Env) (he : e.sendOk = true) (caps : ClientCaps) :
    ∃ rest, (call (Cl.new info) e (.connect caps)).1 =
      .request e.id (.client (.init { protocolVersion := "2025-06-18", capabilities := caps, clientInfo := info })) :: rest := by
  simp only [call, Cl.new, sendRequest, he, if_true, latest, Bool.false_eq_true, if_false]
  split
  · exact ⟨_, rfl⟩
  · exact ⟨_, rfl⟩

/-- A ping of the server during a call. -/
example (info : Impl) : (call (calls (Cl.new info) [(initEnv true, .connect {})])
    { id := .str "1", sendOk := true, noteOk := true, recv := some (.request (.str "s") (.client .ping)) }
    (.request (.listTools { cursor := none }))).2.1 = .fail .wrongMessage :=
  (C251_taken_for_answer _ info _ _ toolsAnswer (accepted_toolsAnswer true {}) (by simp [Allowed, toolsAnswer])
    (by intro p h; cases h) rfl _ _ rfl).1

/-! ### C252: ready-made capabilities -/

/-- `ServerCapabilities::minimal`, /repo/src/types/capabilities.rs L399-401. -/
def serverMinimal : ServerCaps := {}
/-- `ServerCapabilities::tools_only`, /repo/src/types/capabilities.rs L436-443. -/
def toolsOnly : ServerCaps := { tools := some { listChanged := some true } }
/-- `ServerCapabilities::prompts_only`, /repo/src/types/capabilities.rs L485-492. -/
def promptsOnly : ServerCaps := { prompts := some { listChanged := some true } }
/-- `ServerCapabilities::resources_only`, /repo/src/types/capabilities.rs L541-549. -/
def resourcesOnly : ServerCaps := { resources := some { subscribe := some true, listChanged := some true } }
/-- `provides_tools`, /repo/src/types/capabilities.rs L584-586. -/
def providesTools (c : ServerCaps) : Bool := c.tools.isSome
/-- `provides_prompts`, /repo/src/types/capabilities.rs L614-616. -/
def providesPrompts (c : ServerCaps) : Bool := c.prompts.isSome
/-- `provides_resources`, /repo/src/types/capabilities.rs L653-655. -/
def providesResources (c : ServerCaps) : Bool := c.resources.isSome

/-- `ClientCapabilities::minimal`, /repo/src/types/capabilities.rs L179-181. -/
def clientMinimal : ClientCaps := {}
/-- `ClientCapabilities::full`, /repo/src/types/capabilities.rs L210-234. -/
def clientFull : ClientCaps :=
  { tools := some { listChanged := some true }
    prompts := some { listChanged := some true }
    resources := some { subscribe := some true, listChanged := some true }
    logging := some { names := some ["debug", "info", "warning", "error"] }
    sampling := some { names := none }
    roots := some { listChanged := true }
    experimental := none }
/-- `supports_tools`, /repo/src/types/capabilities.rs L267-269. -/
def supportsTools (c : ClientCaps) : Bool := c.tools.isSome
/-- `supports_prompts`, /repo/src/types/capabilities.rs L303-305. -/
def supportsPrompts (c : ClientCaps) : Bool := c.prompts.isSome
/-- `supports_resources`, /repo/src/types/capabilities.rs L334-336. -/
def supportsResources (c : ClientCaps) : Bool := c.resources.isSome
/-- `supports_sampling`, /repo/src/types/capabilities.rs L369-371. -/
def supportsSampling (c : ClientCaps) : Bool := c.sampling.isSome

/-- The method a request is for. (Specification: no counterpart in the code.) -/
def methodOf : ClientRequest → String
  | .init _ => "initialize"
  | .listTools _ => "tools/list"
  | .callTool _ => "tools/call"
  | .listPrompts _ => "prompts/list"
  | .getPrompt _ => "prompts/get"
  | .listResources _ => "resources/list"
  | .listTemplates _ => "resources/templates/list"
  | .readResource _ => "resources/read"
  | .subscribe _ => "resources/subscribe"
  | .unsubscribe _ => "resources/unsubscribe"
  | .complete _ => "completion/complete"
  | .setLevel _ => "logging/setLevel"
  | .ping => "ping"
  | .createMessage _ => "sampling/createMessage"
  | .elicitResponse _ => "elicitation/elicitInput"

/-- The connected client writes the request. (Specification: no counterpart in the code.) -/
def Written (c : Cl) (q : ClientRequest) : Prop :=
  ∀ e : Env, e.sendOk = true → (call c e (.request q)).1 = [.request e.id (.client q)]

/-- The connected client refuses the request itself. (Specification: no counterpart in the code.) -/
def Refused (c : Cl) (q : ClientRequest) : Prop :=
  ∀ e : Env, call c e (.request q) = ([], .fail .capability, c)

theorem written_iff (c : Cl) (sc : ServerCaps) (hi : c.initialized = true) (hs : c.serverCaps = some sc)
    (q : ClientRequest) : (Written c q ↔ ∃ g, gate q = some g ∧ g sc = true) ∧ (Written c q ∨ Refused c q) ∧
      ¬(Written c q ∧ Refused c q) := by
  have hrun : ∀ g, gate q = some g → g sc = true → Written c q := by
    intro g hg hb e he
    simp [call, hg, hi, hs, hb, sendRequest, he]
  have hno : (∀ g, gate q = some g → g sc = false) → Refused c q := by
    intro h e
    cases hg : gate q with
    | none => simp [call, hg]
    | some g => simp [call, hg, hi, hs, h g hg]
  have hx : ¬(Written c q ∧ Refused c q) := by
    rintro ⟨h1, h2⟩
    have h1 := h1 { id := .str "", sendOk := true, noteOk := true, recv := none } rfl
    rw [h2] at h1
    cases h1
  refine ⟨⟨fun h => ?_, fun ⟨g, hg, hb⟩ => hrun g hg hb⟩, ?_, hx⟩
  · apply Classical.byContradiction
    intro hn
    refine hx ⟨h, hno fun g hg => ?_⟩
    cases hb : g sc with
    | false => rfl
    | true => exact absurd ⟨g, hg, hb⟩ hn
  · by_cases h : ∃ g, gate q = some g ∧ g sc = true
    · obtain ⟨g, hg, hb⟩ := h
      exact .inl (hrun g hg hb)
    · refine .inr (hno fun g hg => ?_)
      cases hb : g sc with
      | false => rfl
      | true => exact absurd ⟨g, hg, hb⟩ h

/-- The methods a ready-made set of capabilities is for. (Specification: no counterpart in the code.) -/
def opens : List (ServerCaps × List String) :=
  [(serverMinimal, ["ping"]),
   (toolsOnly, ["ping", "tools/list", "tools/call"]),
   (promptsOnly, ["ping", "prompts/list", "prompts/get"]),
   (resourcesOnly, ["ping", "resources/list", "resources/templates/list", "resources/read", "resources/subscribe",
     "resources/unsubscribe"])]

/-- **C252**. With a server that announces one of the ready-made sets, a client sends exactly the requests of the methods
the set is for, and refuses the others itself. -/
theorem C252_methods (sc : ServerCaps) (ms : List String) (ho : (sc, ms) ∈ opens) (c : Cl) (hi : c.initialized = true)
    (hs : c.serverCaps = some sc) (q : ClientRequest) :
    (Written c q ↔ methodOf q ∈ ms) ∧ (Refused c q ↔ methodOf q ∉ ms) := by
  obtain ⟨h1, h2, h3⟩ := written_iff c sc hi hs q
  have hw : Written c q ↔ methodOf q ∈ ms := by
    rw [h1]
    simp only [opens, List.mem_cons, List.not_mem_nil, or_false, Prod.mk.injEq] at ho
    rcases ho with ⟨rfl, rfl⟩ | ⟨rfl, rfl⟩ | ⟨rfl, rfl⟩ | ⟨rfl, rfl⟩ <;> cases q <;>
      simp [gate, methodOf, serverMinimal, toolsOnly, promptsOnly, resourcesOnly]
  refine ⟨hw, ?_⟩
  rw [← hw]
  constructor
  · intro h4 h5; exact h3 ⟨h5, h4⟩
  · intro h4; exact h2.resolve_left h4

/-- **C252**. For any capabilities: `provides_tools`, `provides_prompts` and `provides_resources` tell which lists a client
asks for. -/
theorem C252_provides (sc : ServerCaps) (c : Cl) (hi : c.initialized = true) (hs : c.serverCaps = some sc)
    (p : ListParams) : (providesTools sc = true ↔ Written c (.listTools p)) ∧
      (providesPrompts sc = true ↔ Written c (.listPrompts p)) ∧
      (providesResources sc = true ↔ Written c (.listResources p)) := by
  refine ⟨?_, ?_, ?_⟩ <;> rw [(written_iff c sc hi hs _).1] <;>
    simp [gate, providesTools, providesPrompts, providesResources]

/-- **C252**. A server built with a ready-made set announces exactly that one, unless a sampling handler or another set is
given after it; and a client that connects knows it. -/
theorem C252_known (sc : ServerCaps) (info sinfo : Impl) (render : Json → String) (l l' : List (Build W)) (st : St W)
    (hl : ∀ b ∈ l', (∀ x, b ≠ .capabilities x) ∧ ∀ h, b ≠ .sampling h) (caps : ClientCaps) (id : Id) :
    ∃ c, (call (Cl.new info) (answering (Server.build sinfo render (l ++ .capabilities sc :: l')) st id (initRequest info caps))
      (.connect caps)).2.2 = c ∧ c.initialized = true ∧ c.serverCaps = some sc := by
  obtain ⟨v, c, hc, -, h2, h3, -⟩ := C116_connect (Server.build sinfo render (l ++ .capabilities sc :: l')) st info caps id
  refine ⟨c, by rw [hc], h2, ?_⟩
  rw [h3]
  have : ∀ (l' : List (Build W)), (∀ b ∈ l', (∀ x, b ≠ .capabilities x) ∧ ∀ h, b ≠ .sampling h) → ∀ s : Srv W,
      s.capabilities = sc → (l'.foldl Server.buildStep s).capabilities = sc := by
    intro l'
    induction l' with
    | nil => intro _ s hs; exact hs
    | cons b l' ih =>
      intro hb s hs
      rw [List.foldl_cons]
      apply ih (fun b' h' => hb b' (by simp [h']))
      have h0 := hb b (by simp)
      cases b with
      | capabilities x => exact absurd rfl (h0.1 x)
      | sampling h => exact absurd rfl (h0.2 h)
      | _ => exact hs
  have hb : (Server.build sinfo render (l ++ .capabilities sc :: l')).capabilities = sc := by
    unfold Server.build
    rw [List.foldl_append, List.foldl_cons]
    exact this l' hl _ rfl
  rw [hb]

/-- **C252**. The ready-made sets of a client say what their names say, also after the trip to the server. -/
theorem C252_client :
    (supportsTools clientMinimal = false ∧ supportsPrompts clientMinimal = false ∧
      supportsResources clientMinimal = false ∧ supportsSampling clientMinimal = false) ∧
    (supportsTools clientFull = true ∧ supportsPrompts clientFull = true ∧ supportsResources clientFull = true ∧
      supportsSampling clientFull = true) ∧
    ClientCaps.dec clientMinimal.enc = some clientMinimal ∧ ClientCaps.dec clientFull.enc = some clientFull := by
  refine ⟨by decide, by decide, ?_, ?_⟩ <;> simp

/-- **C252** fails for what the sets promise beyond the methods: a server of `resources_only` announces subscriptions, the
client sends `subscribe`, the server says that it went well, and subscribes nobody. -/
theorem C252_subscribe (sinfo : Impl) (render : Json → String) (l : List (Build W)) (st : St W) (id : Id) (p : UriParams) :
    ∃ resp, handleRequest (Server.build sinfo render l) st id (.client (.subscribe p)) = (some resp, st) ∧
      resp.payload = .result (.obj []) := ⟨_, rfl, rfl⟩

/-- A client of a server with tools only. -/
example : ∃ c : Cl, c.initialized = true ∧ c.serverCaps = some toolsOnly ∧ Written c (.listTools {}) ∧
    Refused c (.listPrompts {}) := by
  have h := C252_methods toolsOnly _ (by simp [opens]; exact .inr (.inl rfl))
    { Cl.new ⟨"c", "1"⟩ with initialized := true, serverCaps := some toolsOnly } rfl rfl
  exact ⟨_, rfl, rfl, (h (.listTools {})).1.mpr (by decide), (h (.listPrompts {})).2.mpr (by decide)⟩

end Verif.Client
