import Verif.Client.Model

/-
Properties of the client: C65, C66, C115, C116.
-/

namespace Verif.Client

open Verif Verif.Wire Verif.Server

/-! ### Specification of C66 -/

/-- The answer that initialized the client: the first `initialize` that was sent and answered by an initialize
result with a supported version. (Specification: no counterpart in the code.) -/
def accepted (l : List (Env × Call)) : Option InitResult :=
  l.findSome? (fun x => match x with
    | (⟨_, true, some (.response ⟨_, _, .result v⟩), _⟩, .connect _) =>
      (InitResult.dec v).filter (fun ir => decide (ir.protocolVersion ∈ ["2025-06-18", "2025-03-26", "2024-11-05", "2024-10-07"]))
    | _ => none)

/-- The capability a request needs, per protocol. (Specification: no counterpart in the code.) -/
def Allowed (c : ServerCaps) : ClientRequest → Prop
  | .init _ => False
  | .elicitResponse _ => False
  | .ping => True
  | .listTools _ => c.tools ≠ none
  | .callTool _ => c.tools ≠ none
  | .listPrompts _ => c.prompts ≠ none
  | .getPrompt _ => c.prompts ≠ none
  | .listResources _ => c.resources ≠ none
  | .listTemplates _ => c.resources ≠ none
  | .readResource _ => c.resources ≠ none
  | .subscribe _ => ∃ r, c.resources = some r ∧ r.subscribe = some true
  | .unsubscribe _ => c.resources ≠ none
  | .complete _ => c.completions ≠ none
  | .setLevel _ => c.logging ≠ none
  | .createMessage _ => c.sampling ≠ none

theorem gate_allowed (r : ClientRequest) (g : ServerCaps → Bool) (c : ServerCaps) (hg : gate r = some g) (h : g c = true) :
    Allowed c r := by
  cases r <;> simp only [gate, Option.some.injEq, reduceCtorEq] at hg <;> subst hg <;>
    simp only [Allowed, Option.isSome_iff_ne_none] at * <;> try assumption
  case subscribe p =>
    split at h
    · next r hr =>
      refine ⟨r, hr, ?_⟩
      cases hs : r.subscribe with
      | none => rw [hs] at h; simp at h
      | some b => rw [hs] at h; simp at h; rw [h]
    · cases h
  case createMessage => cases h

/-- One call: the client afterwards. -/
theorem call_client (c : Cl) (e : Env) (k : Call) :
    (c.initialized = true → (call c e k).2.2 = c) ∧
    (c.initialized = false → match accepted [(e, k)] with
      | some ir => (call c e k).2.2.initialized = true ∧ (call c e k).2.2.serverCaps = some ir.capabilities ∧
          (call c e k).2.2.serverInfo = some ir.serverInfo ∧ (call c e k).2.2.instructions = ir.instructions
      | none => (call c e k).2.2.initialized = false ∧ (call c e k).2.2.serverCaps = c.serverCaps ∧
          (call c e k).2.2.serverInfo = c.serverInfo ∧ (call c e k).2.2.instructions = c.instructions) := by
  cases k with
  | connect caps =>
    constructor
    · intro h; simp [call, h]
    · intro h
      simp only [call, h, Bool.false_eq_true, if_false, sendRequest]
      obtain ⟨id, so, rc, no⟩ := e
      cases so with
      | false => simp [accepted]
      | true =>
        cases rc with
        | none => simp [accepted]
        | some m =>
          cases m with
          | request id r => simp [accepted]
          | notification n => simp [accepted]
          | response r =>
            obtain ⟨jr, rid, pl⟩ := r
            cases pl with
            | error er => simp [accepted, connected, h]
            | result v =>
              cases hd : InitResult.dec v with
              | none => simp [accepted, connected, hd, h]
              | some ir =>
                by_cases hv : ir.protocolVersion ∈ supported
                · have hv' : ir.protocolVersion ∈ ["2025-06-18", "2025-03-26", "2024-11-05", "2024-10-07"] := hv
                  simp only [accepted, List.findSome?_cons, hd, Option.filter_some, hv', decide_true, if_true]
                  simp [connected, hd, hv]
                · have hv' : ir.protocolVersion ∉ ["2025-06-18", "2025-03-26", "2024-11-05", "2024-10-07"] := hv
                  simp only [accepted, List.findSome?_cons, hd, Option.filter_some, hv', decide_false, Bool.false_eq_true,
                    if_false]
                  simp [connected, hd, hv, h]
  | request r =>
    have : (call c e (.request r)).2.2 = c := by
      simp only [call]; repeat' split
      all_goals rfl
    rw [this]
    exact ⟨fun _ => rfl, fun h => by simp [accepted, h]⟩
  | rootsChanged =>
    have : (call c e .rootsChanged).2.2 = c := by
      simp only [call]; repeat' split
      all_goals rfl
    rw [this]
    exact ⟨fun _ => rfl, fun h => by simp [accepted, h]⟩
  | cancel id => exact ⟨fun _ => rfl, fun h => by simp [accepted, call, h]⟩
  | progress p => exact ⟨fun _ => rfl, fun h => by simp [accepted, call, h]⟩

theorem calls_init (l : List (Env × Call)) (c : Cl) (h : c.initialized = true) : calls c l = c := by
  induction l with
  | nil => rfl
  | cons x l ih => obtain ⟨e, k⟩ := x; simp only [calls]; rw [(call_client c e k).1 h]; exact ih

theorem accepted_cons (x : Env × Call) (l : List (Env × Call)) :
    accepted (x :: l) = (accepted [x]).or (accepted l) := by
  simp only [accepted, List.findSome?_cons, List.findSome?_nil]
  split <;> rfl

/-- **C66**. What the client knows of the server is what the accepted answer said, and it is initialized exactly if
there was one. -/
theorem C66_state (l : List (Env × Call)) (info : Impl) :
    (calls (Cl.new info) l).initialized = (accepted l).isSome ∧
    (calls (Cl.new info) l).serverCaps = (accepted l).map (·.capabilities) ∧
    (calls (Cl.new info) l).serverInfo = (accepted l).map (·.serverInfo) ∧
    (calls (Cl.new info) l).instructions = (accepted l).bind (·.instructions) := by
  have key : ∀ (l : List (Env × Call)) (c : Cl), c.initialized = false → c.serverCaps = none → c.serverInfo = none →
      c.instructions = none →
      (calls c l).initialized = (accepted l).isSome ∧ (calls c l).serverCaps = (accepted l).map (·.capabilities) ∧
      (calls c l).serverInfo = (accepted l).map (·.serverInfo) ∧
      (calls c l).instructions = (accepted l).bind (·.instructions) := by
    intro l
    induction l with
    | nil => intro c h1 h2 h3 h4; simp [calls, accepted, h1, h2, h3, h4]
    | cons x l ih =>
      intro c h1 h2 h3 h4
      obtain ⟨e, k⟩ := x
      have hc := (call_client c e k).2 h1
      rw [accepted_cons]
      simp only [calls]
      cases ha : accepted [(e, k)] with
      | none =>
        rw [ha] at hc
        simp only at hc
        exact ih _ hc.1 (hc.2.1.trans h2) (hc.2.2.1.trans h3) (hc.2.2.2.trans h4)
      | some ir =>
        rw [ha] at hc
        simp only at hc
        rw [calls_init l _ hc.1]
        simp [hc]
  exact key l _ rfl rfl rfl rfl

/-- The answer of a server that supports tools. (Specification: no counterpart in the code.) -/
def toolsAnswer : InitResult :=
  { protocolVersion := "2024-11-05", capabilities := { tools := some {} }, serverInfo := ⟨"s", "1"⟩ }

/-- (Specification: no counterpart in the code.) -/
def initEnv (noteOk : Bool) : Env :=
  { id := .str "1", sendOk := true, noteOk := noteOk
    recv := some (.response { jsonrpc := "2.0", id := .str "1", payload := .result (InitResult.enc toolsAnswer) }) }

theorem dec_toolsAnswer : InitResult.dec (InitResult.enc toolsAnswer) = some toolsAnswer := by
  simp [InitResult.dec, InitResult.enc]

theorem accepted_toolsAnswer (b : Bool) (caps : ClientCaps) : accepted [(initEnv b, .connect caps)] = some toolsAnswer := by
  have hv : toolsAnswer.protocolVersion ∈ ["2025-06-18", "2025-03-26", "2024-11-05", "2024-10-07"] := by decide
  simp only [accepted, initEnv, List.findSome?_cons, dec_toolsAnswer, Option.filter_some, hv, decide_true, if_true]

/-- **C66**. In every history a request other than `initialize` is sent only after an answer to `initialize` with a
supported version was received, and only if that answer advertised the capability the request needs. Missing from the
property: notifications (`C66_note_before`), and that `initialize` may have reported a failure
(`C66_failed_yet`). -/
theorem C66_gated_partial (l : List (Env × Call)) (info : Impl) (e : Env) (k : Call) (id : Id) (r : Request)
    (h : TMsg.request id r ∈ (call (calls (Cl.new info) l) e k).1) :
    (∃ caps, k = .connect caps ∧ accepted l = none) ∨
    (∃ ir q, accepted l = some ir ∧ r = .client q ∧ Allowed ir.capabilities q) := by
  obtain ⟨h1, h2, -⟩ := C66_state l info
  generalize calls (Cl.new info) l = c at *
  cases k with
  | connect caps =>
    left
    refine ⟨caps, rfl, ?_⟩
    cases hi : c.initialized with
    | true => simp [call, hi] at h
    | false => rw [hi] at h1; cases ha : accepted l <;> simp_all
  | request q =>
    right
    simp only [call] at h
    split at h
    · simp at h
    · next g hg =>
      split at h
      · next hi =>
        split at h
        · next sc hsc =>
          split at h
          · next hgs =>
            simp only [sendRequest] at h
            split at h
            · simp only [List.mem_singleton, TMsg.request.injEq] at h
              rw [hsc] at h2
              cases ha : accepted l with
              | none => rw [ha] at h2; simp at h2
              | some ir =>
                rw [ha] at h2; simp at h2
                exact ⟨ir, q, rfl, h.2, gate_allowed q g _ hg (h2 ▸ hgs)⟩
            · simp at h
          · simp at h
        · simp at h
      · simp at h
  | rootsChanged =>
    simp only [call] at h
    repeat' split at h
    all_goals (try (split at h)) <;> simp at h
  | cancel i =>
    simp only [call] at h
    split at h <;> simp at h
  | progress p =>
    simp only [call] at h
    split at h <;> simp at h

/-- The converse of `gate_allowed` for the requests that methods of the client send. -/
theorem allowed_gate (r : ClientRequest) (c : ServerCaps) (hm : ∀ p, r ≠ .createMessage p) (h : Allowed c r) :
    ∃ g, gate r = some g ∧ g c = true := by
  cases r <;> simp only [Allowed] at h <;> try (exact ⟨_, rfl, by simpa [Option.isSome_iff_ne_none] using h⟩)
  case subscribe =>
    obtain ⟨r, hr, hs⟩ := h
    exact ⟨_, rfl, by simp [hr, hs]⟩
  case createMessage p => exact absurd rfl (hm p)

/-- **C66**. The other direction: once an answer to `initialize` was accepted, every request whose capability it
advertised is sent, exactly once and with the id drawn for it. Missing from the property: `create_message`
(`C66_sampling_refused`). -/
theorem C66_sent_partial (l : List (Env × Call)) (info : Impl) (e : Env) (q : ClientRequest) (ir : InitResult)
    (ha : accepted l = some ir) (hq : Allowed ir.capabilities q) (hm : ∀ p, q ≠ .createMessage p)
    (he : e.sendOk = true) :
    (call (calls (Cl.new info) l) e (.request q)).1 = [.request e.id (.client q)] := by
  obtain ⟨h1, h2, -⟩ := C66_state l info
  obtain ⟨g, hg, hc⟩ := allowed_gate q _ hm hq
  simp [call, hg, h1, h2, ha, hc, sendRequest, he]

/-- After a successful `initialize` tools are listed; `C66_gated_partial` applies to the request written. -/
example (info : Impl) (e : Env) (he : e.sendOk = true) :
    (call (calls (Cl.new info) [(initEnv true, .connect {})]) e (.request (.listTools { cursor := none }))).1 =
      [.request e.id (.client (.listTools { cursor := none }))] :=
  C66_sent_partial _ info e _ toolsAnswer (accepted_toolsAnswer true {}) (by simp [Allowed, toolsAnswer])
    (by intro p h; cases h) he

/-- The requests whose result carries nothing. (Specification: no counterpart in the code.) -/
def Acknowledged : ClientRequest → Prop
  | .ping | .setLevel _ | .subscribe _ | .unsubscribe _ => True
  | _ => False

/-- **C66**. What the caller of an allowed request is told: the error of the answer (as of C64), nothing more
than success for the requests whose result carries nothing (whatever the result is), otherwise the result if it
reads as the result of that request; a failure if the message received is no response or none is received. -/
theorem C66_told (l : List (Env × Call)) (info : Impl) (e : Env) (q : ClientRequest) (ir : InitResult)
    (ha : accepted l = some ir) (hq : Allowed ir.capabilities q) (hm : ∀ p, q ≠ .createMessage p)
    (he : e.sendOk = true) :
    (∀ (j : String) (i : Id) (er : RpcError), e.recv = some (.response ⟨j, i, .error er⟩) →
      (call (calls (Cl.new info) l) e (.request q)).2.1 = .fail (.rpc (fromRpcError er))) ∧
    (∀ (j : String) (i : Id) (v : Json), e.recv = some (.response ⟨j, i, .result v⟩) → Acknowledged q →
      (call (calls (Cl.new info) l) e (.request q)).2.1 = .unit) ∧
    (∀ (j : String) (i : Id) (v : Json), e.recv = some (.response ⟨j, i, .result v⟩) → ¬ Acknowledged q →
      (call (calls (Cl.new info) l) e (.request q)).2.1 = if reads q v then .value v else .fail .parse) ∧
    (e.recv = none → (call (calls (Cl.new info) l) e (.request q)).2.1 = .fail .transport) ∧
    (∀ m, e.recv = some m → (∀ r, m ≠ .response r) →
      (call (calls (Cl.new info) l) e (.request q)).2.1 = .fail .wrongMessage) := by
  obtain ⟨h1, h2, -⟩ := C66_state l info
  obtain ⟨g, hg, hc⟩ := allowed_gate q _ hm hq
  have hcall : (call (calls (Cl.new info) l) e (.request q)).2.1 = finish q (sendRequest e q).2 := by
    simp [call, hg, h1, h2, ha, hc]
  rw [hcall]
  refine ⟨?_, ?_, ?_, ?_, ?_⟩
  · intro j i er hr; simp [sendRequest, he, hr, finish]
  · intro j i v hr hk
    have : returnsUnit q = true := by cases q <;> simp [Acknowledged] at hk <;> rfl
    simp [sendRequest, he, hr, finish, this]
  · intro j i v hr hk
    have : returnsUnit q = false := by cases q <;> simp [Acknowledged] at hk <;> rfl
    simp [sendRequest, he, hr, finish, this]
  · intro hr; simp [sendRequest, he, hr, finish]
  · intro m hr hm'
    cases m with
    | response r => exact absurd rfl (hm' r)
    | _ => simp [sendRequest, he, hr, finish]

example (info : Impl) (e : Env) (he : e.sendOk = true) (er : RpcError)
    (hr : e.recv = some (.response ⟨"2.0", e.id, .error er⟩)) :
    (call (calls (Cl.new info) [(initEnv true, .connect {})]) e (.request .ping)).2.1 = .fail (.rpc (fromRpcError er)) :=
  (C66_told _ info e .ping toolsAnswer (accepted_toolsAnswer true {}) trivial (by intro p h; cases h) he).1 _ _ _ hr

/-- **C66**. `initialize` succeeds only with a supported version, and then the client is initialized. -/
theorem C66_version (c : Cl) (e : Env) (caps : ClientCaps) (v : Json) (h : (call c e (.connect caps)).2.1 = .value v) :
    ∃ ir, InitResult.dec v = some ir ∧
      ir.protocolVersion ∈ ["2025-06-18", "2025-03-26", "2024-11-05", "2024-10-07"] ∧
      (call c e (.connect caps)).2.2.initialized = true := by
  simp only [call] at h ⊢
  split at h
  · simp at h
  · next hi =>
    rw [if_neg hi]
    split at h
    · simp at h
    · next resp hr =>
      simp only [hr]
      simp only [connected] at h ⊢
      split at h
      · simp at h
      · next v' hp =>
        split at h
        · simp at h
        · next ir hd =>
          split at h
          · next hv =>
            split at h
            · simp only [Ret.value.injEq] at h; subst h
              exact ⟨ir, hd, hv, by simp [hp, hd, hv]⟩
            · simp at h
          · simp at h

example (info : Impl) : (call (Cl.new info) (initEnv true) (.connect {})).2.1 = .value (InitResult.enc toolsAnswer) := by
  have hv : toolsAnswer.protocolVersion ∈ supported := by decide
  simp only [call, Cl.new, initEnv, sendRequest, connected, dec_toolsAnswer, hv, if_true, if_false, Bool.false_eq_true]

/-- **C66**. `initialize` succeeds at most once: after an accepted answer it is refused without sending
anything. -/
theorem C66_once (l : List (Env × Call)) (info : Impl) (e : Env) (caps : ClientCaps) (h : (accepted l).isSome = true) :
    call (calls (Cl.new info) l) e (.connect caps) =
      ([], .fail .alreadyInitialized, calls (Cl.new info) l) := by
  have h1 := (C66_state l info).1
  simp [call, h1, h]

example : (accepted [(initEnv true, .connect {}), (initEnv true, .request .ping)]).isSome = true := by
  rw [accepted_cons, accepted_toolsAnswer]; rfl

/-- **C66** fails for notifications: they are sent before initialization. -/
theorem C66_note_before (info : Impl) (e : Env) (he : e.sendOk = true) (id : Id) (p : Progress) :
    (call (Cl.new info) e (.cancel id)).1 ≠ [] ∧ (call (Cl.new info) e (.progress p)).1 ≠ [] := by
  simp [call, he]

/-- **C66** fails: if the notification that ends `initialize` cannot be sent, `initialize` reports a failure,
but the client is initialized: it sends requests, and `initialize` cannot be repeated. -/
theorem C66_failed_yet (info : Impl) (caps : ClientCaps) (e : Env) (he : e.sendOk = true) :
    ∃ c, call (Cl.new info) (initEnv false) (.connect caps) =
        ([.request (.str "1") (.client (.init { protocolVersion := latest, capabilities := caps, clientInfo := info }))],
         .fail .transport, c) ∧
      (call c e (.request (.listTools { cursor := none }))).1 = [.request e.id (.client (.listTools { cursor := none }))] ∧
      (call c e (.connect caps)).2.1 = .fail .alreadyInitialized := by
  have hv : toolsAnswer.protocolVersion ∈ supported := by decide
  refine ⟨_, by
    simp only [call, Cl.new, initEnv, sendRequest, connected, dec_toolsAnswer, hv, if_true, if_false, Bool.false_eq_true,
      List.append_nil]
    rfl, ?_, ?_⟩
  · simp [call, gate, toolsAnswer, sendRequest, he]
  · simp [call]

/-- **C66**. `create_message` never sends anything, also for a server that advertised sampling. -/
theorem C66_sampling_refused (c : Cl) (e : Env) (p : CreateMessage) : (call c e (.request (.createMessage p))).1 = [] := by
  simp only [call, gate]
  repeat' split
  all_goals first | rfl | simp_all

/-- **C66**. A client that never announced roots still reports their changes. -/
theorem C66_roots_unannounced (info : Impl) (e : Env) (he : e.sendOk = true) :
    (call (calls (Cl.new info) [(initEnv true, .connect {})]) e .rootsChanged).1 =
      [.notification (.client .rootsListChanged)] := by
  have hv : toolsAnswer.protocolVersion ∈ supported := by decide
  have : calls (Cl.new info) [(initEnv true, .connect {})] =
      { Cl.new info with caps := some {}, serverCaps := some toolsAnswer.capabilities
                         serverInfo := some toolsAnswer.serverInfo, instructions := none, initialized := true } := by
    simp only [calls, call, Cl.new, initEnv, sendRequest, connected, dec_toolsAnswer, hv, if_true, if_false,
      Bool.false_eq_true]
    rfl
  rw [this]
  simp [call, he]

example : (accepted [(initEnv true, .connect {})]).isSome = true := by
  simp only [accepted, initEnv, List.findSome?_cons, dec_toolsAnswer]
  decide

/-- The capabilities the last `initialize` that was not refused was given; `none` if there was none.
(Specification: no counterpart in the code.) -/
def announced (c : Cl) (l : List (Env × Call)) : Option ClientCaps :=
  l.foldr (fun x f (c : Option ClientCaps) (done : Bool) =>
    match x.2, done with
    | .connect caps, false => f (some caps) (accepted [x]).isSome
    | _, _ => f c done) (fun c _ => c) c.caps c.initialized

theorem announced_calls (l : List (Env × Call)) : ∀ c : Cl, (calls c l).caps = announced c l := by
  induction l with
  | nil => intro c; rfl
  | cons x l ih =>
    obtain ⟨e, k⟩ := x
    intro c
    simp only [calls]
    rw [ih]
    show announced _ l = announced c ((e, k) :: l)
    cases hi : c.initialized with
    | true =>
      rw [(call_client c e k).1 hi]
      simp only [announced, List.foldr_cons, hi]
    | false =>
      have h2 := (call_client c e k).2 hi
      have hin : (call c e k).2.2.initialized = (accepted [(e, k)]).isSome := by
        cases ha : accepted [(e, k)] with
        | none => rw [ha] at h2; exact h2.1
        | some ir => rw [ha] at h2; exact h2.1
      cases k with
      | connect caps =>
        have hc : (call c e (.connect caps)).2.2.caps = some caps := by
          simp only [call, hi, Bool.false_eq_true, if_false, connected]
          repeat' split
          all_goals rfl
        simp only [announced, List.foldr_cons, hi, hc, hin]
      | request r =>
        have : (call c e (.request r)).2.2 = c := by
          simp only [call]; repeat' split
          all_goals rfl
        rw [this]; simp only [announced, List.foldr_cons, hi]
      | rootsChanged =>
        have : (call c e .rootsChanged).2.2 = c := by
          simp only [call]; repeat' split
          all_goals rfl
        rw [this]; simp only [announced, List.foldr_cons, hi]
      | cancel id => simp only [announced, List.foldr_cons, hi, call]
      | progress p => simp only [announced, List.foldr_cons, hi, call]

/-- **C66**. Reporting a change of the roots, exactly: it is refused before initialization, refused if roots were
announced without change reports, and otherwise written; the caller is told whether that worked. -/
theorem C66_roots_exact (l : List (Env × Call)) (info : Impl) (e : Env) (c : Cl) (hc : calls (Cl.new info) l = c) :
    (accepted l = none → call c e .rootsChanged = ([], .fail .notInitialized, c)) ∧
    (accepted l ≠ none → ∀ caps r, announced (Cl.new info) l = some caps → caps.roots = some r → r.listChanged = false →
      call c e .rootsChanged = ([], .fail .capability, c)) ∧
    (accepted l ≠ none → (∀ caps r, announced (Cl.new info) l = some caps → caps.roots = some r → r.listChanged = true) →
      call c e .rootsChanged = match e.sendOk with
        | true => ([.notification (.client .rootsListChanged)], .unit, c)
        | false => ([], .fail .transport, c)) := by
  have h1 := (C66_state l info).1
  rw [← announced_calls]
  rw [hc] at h1 ⊢
  refine ⟨?_, ?_, ?_⟩
  · intro ha; rw [ha] at h1; simp at h1; simp [call, h1]
  · intro ha caps r h2 h3 h4
    have : c.initialized = true := by rw [h1]; exact Option.isSome_iff_ne_none.mpr ha
    simp [call, this, h2, h3, h4]
  · intro ha h2
    have : c.initialized = true := by rw [h1]; exact Option.isSome_iff_ne_none.mpr ha
    simp only [call, this, if_true]
    cases hb : c.caps.bind (·.roots) with
    | none => cases e.sendOk <;> rfl
    | some r =>
      obtain ⟨caps, k1, k2⟩ := Option.bind_eq_some_iff.mp hb
      simp only [h2 caps r k1 k2, if_true]
      cases e.sendOk <;> rfl

/-- Roots announced without change reports: the second case. -/
example (info : Impl) :
    announced (Cl.new info) [(initEnv true, .connect { roots := some ⟨false⟩ })] = some { roots := some ⟨false⟩ } ∧
    accepted [(initEnv true, .connect { roots := some ⟨false⟩ })] ≠ none :=
  ⟨rfl, by rw [accepted_toolsAnswer]; simp⟩

/-- **C66**. Cancelling a request and reporting progress, exactly: the one notification, and whether writing
worked. -/
theorem C66_notes_exact (c : Cl) (e : Env) (id : Id) (p : Progress) :
    (e.sendOk = true →
      call c e (.cancel id) =
        ([.notification (.cancelled { requestId := id, reason := some "User requested cancellation" })], .unit, c) ∧
      call c e (.progress p) = ([.notification (.progress p)], .unit, c)) ∧
    (e.sendOk = false →
      call c e (.cancel id) = ([], .fail .transport, c) ∧ call c e (.progress p) = ([], .fail .transport, c)) := by
  refine ⟨fun h => ?_, fun h => ?_⟩ <;> simp [call, h]

/-- A history meeting the hypotheses of `C66_sent_partial` and `C66_told`: a ping and a tool call after a
successful `initialize`. -/
example : accepted [(initEnv true, .connect {})] = some toolsAnswer ∧ Allowed toolsAnswer.capabilities .ping ∧
    Allowed toolsAnswer.capabilities (.listTools { cursor := none }) ∧ Acknowledged .ping ∧
    ¬ Acknowledged (.listTools { cursor := none }) := by
  refine ⟨?_, trivial, by simp [Allowed, toolsAnswer], trivial, id⟩
  exact accepted_toolsAnswer true {}

/-! ### C65 -/

variable {M : Type}

/-- (Specification: no counterpart in the code.) -/
def arrived : List (COp M) → List M
  | [] => []
  | .arrive m :: l => m :: arrived l
  | _ :: l => arrived l

/-- The callers in the order in which they received. (Specification: no counterpart in the code.) -/
def receivers : List (COp M) → List Nat
  | [] => []
  | .receive n :: l => n :: receivers l
  | _ :: l => receivers l

/-- (Specification: no counterpart in the code.) -/
def started : List (COp M) → List Id
  | [] => []
  | .start id :: l => id :: started l
  | _ :: l => started l

theorem arrived_append (a b : List (COp M)) : arrived (a ++ b) = arrived a ++ arrived b := by
  induction a with
  | nil => rfl
  | cons x l ih => cases x <;> simp [arrived, ih]

theorem receivers_append (a b : List (COp M)) : receivers (a ++ b) = receivers a ++ receivers b := by
  induction a with
  | nil => rfl
  | cons x l ih => cases x <;> simp [receivers, ih]

theorem started_append (a b : List (COp M)) : started (a ++ b) = started a ++ started b := by
  induction a with
  | nil => rfl
  | cons x l ih => cases x <;> simp [started, ih]

theorem crun_append (s : Conn M) (a b : List (COp M)) :
    crun s (a ++ b) = (crun s a).bind (fun s' => crun s' b) := by
  induction a generalizing s with
  | nil => rfl
  | cons op l ih =>
    simp only [List.cons_append, crun]
    cases cstep s op <;> simp [ih]

theorem setPhase_get (l : List (Caller M)) (n k : Nat) (p : Phase M) :
    (setPhase l n p)[k]? = if n = k then (l[k]?).map (fun c => { c with phase := p }) else l[k]? := by
  simp only [setPhase, List.getElem?_modify]
  split
  · rfl
  · simp

theorem setPhase_ids (l : List (Caller M)) (n : Nat) (p : Phase M) : (setPhase l n p).map (·.id) = l.map (·.id) := by
  apply List.ext_getElem?
  intro k
  simp only [List.getElem?_map, setPhase_get]
  split
  · cases l[k]? <;> rfl
  · rfl

/-- (Specification: no counterpart in the code.) -/
structure CInv (s : Conn M) (l : List (COp M)) : Prop where
  ids : s.callers.map (·.id) = started l
  len : (receivers l).length ≤ (arrived l).length
  inc : s.incoming = (arrived l).drop (receivers l).length
  got : ∀ (k n : Nat), (receivers l)[k]? = some n → ∃ id m, (arrived l)[k]? = some m ∧ s.callers[n]? = some ⟨id, .done m⟩
  src : ∀ (n : Nat) (id : Id) (m : M), s.callers[n]? = some ⟨id, .done m⟩ →
    ∃ k : Nat, (receivers l)[k]? = some n ∧ (arrived l)[k]? = some m

theorem cinv_new : CInv (Conn.new : Conn M) [] := by
  constructor <;> simp [Conn.new, started, receivers, arrived]

/-- A change of a phase to and from one that is not `done`. -/
theorem cinv_phase (s : Conn M) (l : List (COp M)) (op : COp M) (n : Nat) (p : Phase M) (id : Id) (p0 : Phase M)
    (h : CInv s l) (hn : s.callers[n]? = some ⟨id, p0⟩) (h0 : ∀ m, p0 ≠ .done m) (h1 : ∀ m, p ≠ .done m)
    (ha : arrived [op] = []) (hr : receivers [op] = []) (hs : started [op] = []) (w : List Id) (a : List Id) :
    CInv { s with callers := setPhase s.callers n p, written := w, active := a } (l ++ [op]) := by
  constructor
  · simp only [setPhase_ids, started_append, hs, List.append_nil]; exact h.ids
  · rw [receivers_append, arrived_append, hr, ha]; simpa using h.len
  · rw [receivers_append, arrived_append, hr, ha]; simpa using h.inc
  · intro k j hk
    rw [receivers_append, hr, List.append_nil] at hk
    obtain ⟨i, m, hm, hc⟩ := h.got k j hk
    rw [arrived_append, ha, List.append_nil]
    refine ⟨i, m, hm, ?_⟩
    simp only [setPhase_get]
    rw [if_neg]
    · exact hc
    · rintro rfl; rw [hn] at hc; simp at hc; exact h0 m hc.2
  · intro j i m hj
    simp only [setPhase_get] at hj
    rw [receivers_append, arrived_append, hr, ha, List.append_nil, List.append_nil]
    split at hj
    · next he => subst he; rw [hn] at hj; simp at hj; exact absurd hj.2 (h1 m)
    · exact h.src j i m hj

theorem cinv_step (s s' : Conn M) (l : List (COp M)) (op : COp M) (h : CInv s l) (hs : cstep s op = some s') :
    CInv s' (l ++ [op]) := by
  cases op <;> simp only [cstep] at hs
  case start id =>
    cases hs
    constructor
    · simp [started_append, started, h.ids]
    · rw [receivers_append, arrived_append]; simpa [receivers, arrived] using h.len
    · rw [receivers_append, arrived_append]; simpa [receivers, arrived] using h.inc
    · intro k n hk
      rw [receivers_append] at hk
      simp only [receivers, List.append_nil] at hk
      obtain ⟨i, m, hm, hc⟩ := h.got k n hk
      refine ⟨i, m, by rw [arrived_append]; simpa [arrived] using hm, ?_⟩
      rw [List.getElem?_append_left (List.getElem?_eq_some_iff.mp hc).1]; exact hc
    · intro n i m hn
      rw [receivers_append, arrived_append]
      simp only [receivers, arrived, List.append_nil]
      rw [List.getElem?_append] at hn
      split at hn
      · exact h.src n i m hn
      · cases hj : n - s.callers.length with
        | zero => rw [hj] at hn; simp at hn
        | succ j => rw [hj] at hn; simp at hn
  case send n =>
    split at hs
    · next id hn => cases hs; exact cinv_phase s l _ n _ id _ h hn (by simp) (by simp) rfl rfl rfl _ _
    · cases hs
  case sendFail n =>
    split at hs
    · next id hn => cases hs; exact cinv_phase s l _ n _ id _ h hn (by simp) (by simp) rfl rfl rfl _ _
    · cases hs
  case receiveFail n =>
    split at hs
    · next id hn => cases hs; exact cinv_phase s l _ n _ id _ h hn (by simp) (by simp) rfl rfl rfl _ _
    · cases hs
  case drop n =>
    split at hs
    · next id hn => cases hs; exact cinv_phase s l _ n _ id _ h hn (by simp) (by simp) rfl rfl rfl _ _
    · next id hn => cases hs; exact cinv_phase s l _ n _ id _ h hn (by simp) (by simp) rfl rfl rfl _ _
    · cases hs
  case arrive m =>
    cases hs
    constructor
    · simp [started_append, started, h.ids]
    · rw [receivers_append, arrived_append]; simp [receivers, arrived]; have := h.len; omega
    · rw [receivers_append, arrived_append]
      simp only [receivers, arrived, List.append_nil, h.inc]
      rw [List.drop_append_of_le_length h.len]
    · intro k n hk
      rw [receivers_append] at hk
      simp only [receivers, List.append_nil] at hk
      obtain ⟨i, m', hm, hc⟩ := h.got k n hk
      refine ⟨i, m', ?_, hc⟩
      rw [arrived_append, List.getElem?_append_left (List.getElem?_eq_some_iff.mp hm).1]; exact hm
    · intro n i m' hn
      obtain ⟨k, hk, hm⟩ := h.src n i m' hn
      refine ⟨k, by rw [receivers_append]; simpa [receivers] using hk, ?_⟩
      rw [arrived_append, List.getElem?_append_left (List.getElem?_eq_some_iff.mp hm).1]; exact hm
  case receive n =>
    split at hs
    · next id m i hn hi =>
      cases hs
      have hlt : (receivers l).length < (arrived l).length := by
        have := h.inc; rw [hi] at this
        have := congrArg List.length this
        simp at this; omega
      have hm : (arrived l)[(receivers l).length]? = some m := by
        have := h.inc; rw [hi] at this
        have := congrArg List.head? this
        simpa [List.head?_drop] using this.symm
      constructor
      · simp only [setPhase_ids, started_append, started, List.append_nil]; exact h.ids
      · rw [receivers_append, arrived_append]; simp [receivers, arrived]; omega
      · rw [receivers_append, arrived_append]
        simp only [receivers, arrived, List.append_nil, List.length_append, List.length_cons, List.length_nil]
        have := h.inc; rw [hi] at this
        rw [Nat.zero_add, ← List.drop_drop, ← this]; rfl
      · intro k j hk
        rw [receivers_append] at hk
        simp only [receivers] at hk
        rw [arrived_append]; simp only [arrived, List.append_nil]
        simp only [setPhase_get]
        rw [List.getElem?_append] at hk
        split at hk
        · obtain ⟨i', m', hm', hc⟩ := h.got k j hk
          refine ⟨i', m', hm', ?_⟩
          rw [if_neg]
          · exact hc
          · rintro rfl; rw [hn] at hc; simp at hc
        · next hge =>
          cases hj : k - (receivers l).length with
          | zero =>
            rw [hj] at hk; simp at hk; subst hk
            have : k = (receivers l).length := by omega
            subst this
            exact ⟨id, m, hm, by simp [hn]⟩
          | succ q => rw [hj] at hk; simp at hk
      · intro j i' m' hj
        simp only [setPhase_get] at hj
        rw [receivers_append, arrived_append]
        simp only [receivers, arrived, List.append_nil]
        split at hj
        · next he =>
          subst he; rw [hn] at hj; simp at hj
          obtain ⟨-, rfl⟩ := hj
          exact ⟨(receivers l).length, by simp, hm⟩
        · obtain ⟨k, hk, hk'⟩ := h.src j i' m' hj
          exact ⟨k, by rw [List.getElem?_append_left (List.getElem?_eq_some_iff.mp hk).1]; exact hk, hk'⟩
    · cases hs

theorem cinv_run (l : List (COp M)) (s : Conn M) (h : crun Conn.new l = some s) : CInv s l := by
  induction l using snocInduction generalizing s with
  | nil => simp only [crun, Option.some.injEq] at h; subst h; exact cinv_new
  | append_singleton l op ih =>
    rw [crun_append] at h
    cases h1 : crun Conn.new l with
    | none => rw [h1] at h; cases h
    | some t =>
      rw [h1] at h
      simp only [Option.bind_some, crun] at h
      cases h2 : cstep t op with
      | none => rw [h2] at h; cases h
      | some u => rw [h2] at h; simp at h; subst h; exact cinv_step t u l op (ih t h1) h2

/-- **C65**. Exactly which message a call gets, in every schedule: the one whose position among all that arrived
is the position of the call among those that received. Its id plays no part. -/
theorem C65_exact_partial (l : List (COp M)) (s : Conn M) (h : crun Conn.new l = some s) (n : Nat) (id : Id) (m : M) :
    s.callers[n]? = some ⟨id, .done m⟩ ↔
      (started l)[n]? = some id ∧ ∃ k : Nat, (receivers l)[k]? = some n ∧ (arrived l)[k]? = some m := by
  have hi := cinv_run l s h
  have hid : ∀ (c : Caller M), s.callers[n]? = some c → (started l)[n]? = some c.id := by
    intro c hc; rw [← hi.ids]; simp [hc]
  constructor
  · intro hc
    exact ⟨hid _ hc, hi.src n id m hc⟩
  · rintro ⟨h1, k, hk, hm⟩
    obtain ⟨i, m', hm', hc⟩ := hi.got k n hk
    rw [hm] at hm'; simp at hm'; subst hm'
    have := hid _ hc
    rw [h1] at this; simp at this; subst this
    exact hc

/-- Two calls at the same time; the second receives first. -/
example : ∃ s : Conn Nat, crun Conn.new [.start (.str "a"), .start (.str "b"), .send 0, .send 1, .arrive 7, .receive 1] = some s ∧
    s.callers[1]? = some ⟨.str "b", .done 7⟩ := ⟨_, rfl, rfl⟩

/-- **C65** fails for two calls at the same time: each gets the answer to the other, for all ids and answers. -/
theorem C65_swapped (a b : Id) (ma mb : M) :
    ∃ s, crun Conn.new [.start a, .start b, .send 0, .send 1, .arrive ma, .arrive mb, .receive 1, .receive 0] = some s ∧
      s.written = [a, b] ∧ s.callers = [⟨a, .done mb⟩, ⟨b, .done ma⟩] := ⟨_, rfl, rfl, rfl⟩

/-- Calls one after the other; during the `n`-th the messages of `r n` arrive.
(Specification: no counterpart in the code.) -/
def sequential (ids : List Id) (r : Nat → List M) : Nat → List (COp M)
  | n => match ids with
    | [] => []
    | id :: ids => [.start id, .send n] ++ (r n).map .arrive ++ [.receive n] ++ sequential ids r (n + 1)

theorem arrived_map (l : List M) : arrived (l.map COp.arrive) = l := by
  induction l with
  | nil => rfl
  | cons a l ih => simp [arrived, ih]

theorem receivers_map (l : List M) : receivers (l.map COp.arrive) = [] := by
  induction l with
  | nil => rfl
  | cons a l ih => simp [receivers, ih]

theorem started_map (l : List M) : started (l.map COp.arrive) = [] := by
  induction l with
  | nil => rfl
  | cons a l ih => simp [started, ih]

theorem seq_facts (r : Nat → List M) (ids : List Id) (n : Nat) :
    started (sequential ids r n) = ids ∧ receivers (sequential ids r n) = List.range' n ids.length ∧
      arrived (sequential ids r n) = (List.range' n ids.length).flatMap r := by
  induction ids generalizing n with
  | nil => simp [sequential, started, receivers, arrived]
  | cons id ids ih =>
    obtain ⟨h1, h2, h3⟩ := ih (n + 1)
    refine ⟨?_, ?_, ?_⟩
    · simp [sequential, started, started_append, started_map, h1]
    · simp [sequential, receivers, receivers_append, receivers_map, h2, List.range'_succ]
    · simp [sequential, arrived, arrived_append, arrived_map, h3, List.range'_succ]

/-- **C65**. Calls made one after the other get their own answers if during each exactly one message arrives, its
answer. Missing from the property: calls at the same time (`C65_swapped`), other messages (`C65_shift`), dropped calls
(`C65_stale`). -/
theorem C65_sequential_partial (ids : List Id) (r : Nat → M) (s : Conn M)
    (h : crun Conn.new (sequential ids (fun n => [r n]) 0) = some s) (n : Nat) (id : Id) (hn : ids[n]? = some id) :
    s.callers[n]? = some ⟨id, .done (r n)⟩ := by
  obtain ⟨h1, h2, h3⟩ := seq_facts (fun n => [r n]) ids 0
  have hlt := (List.getElem?_eq_some_iff.mp hn).1
  rw [C65_exact_partial _ s h]
  refine ⟨by rw [h1]; exact hn, n, ?_, ?_⟩
  · rw [h2]; simp [List.getElem?_range', hlt]
  · rw [h3]
    have : ∀ l : List Nat, l.flatMap (fun n => [r n]) = l.map r := by
      intro l; induction l with
      | nil => rfl
      | cons a l ih => simp [ih]
    rw [this]
    simp [List.getElem?_range', hlt]

/-- **C65** fails after one other message (a notification, say) arrived: from then on every call gets the answer
to the call before it, for ever. -/
theorem C65_shift (ids : List Id) (x : M) (r : Nat → M) (s : Conn M)
    (h : crun Conn.new (sequential ids (fun n => if n = 0 then [x, r 0] else [r n]) 0) = some s) (n : Nat) (id : Id)
    (hn : ids[n + 1]? = some id) : s.callers[n + 1]? = some ⟨id, .done (r n)⟩ := by
  obtain ⟨h1, h2, h3⟩ := seq_facts (fun n => if n = 0 then [x, r 0] else [r n]) ids 0
  have hlt := (List.getElem?_eq_some_iff.mp hn).1
  rw [C65_exact_partial _ s h]
  refine ⟨by rw [h1]; exact hn, n + 1, ?_, ?_⟩
  · rw [h2]; simp [List.getElem?_range', hlt]
  · rw [h3]
    cases ids with
    | nil => simp at hlt
    | cons i ids =>
      have : ∀ (k m : Nat), (List.range' (m + 1) k).flatMap (fun n => if n = 0 then [x, r 0] else [r n]) =
          (List.range' (m + 1) k).map r := by
        intro k
        induction k with
        | zero => intro m; rfl
        | succ k ih => intro m; simp [List.range'_succ, ih (m + 1)]
      simp only [List.length_cons, List.range'_succ, List.flatMap_cons, if_true, this _ 0]
      simp only [List.length_cons] at hlt
      cases n with
      | zero => simp
      | succ n =>
        simp only [List.cons_append, List.nil_append, List.getElem?_cons_succ, List.getElem?_map]
        rw [List.getElem?_range' (by omega)]
        simp [Nat.add_comm]

/-- **C65** fails after a call was dropped while it waited: the next call gets its answer. -/
theorem C65_stale (a b : Id) (ma mb : M) :
    ∃ s, crun Conn.new [.start a, .send 0, .drop 0, .arrive ma, .start b, .send 1, .arrive mb, .receive 1] = some s ∧
      s.callers[1]? = some ⟨b, .done ma⟩ := ⟨_, rfl, rfl⟩

example : ∃ s, crun (Conn.new : Conn Nat) (sequential [.str "a", .str "b"] (fun n => [n + 7]) 0) = some s ∧
    s.callers = [⟨.str "a", .done 7⟩, ⟨.str "b", .done 8⟩] := ⟨_, rfl, rfl⟩

example : ∃ s, crun (Conn.new : Conn Nat) (sequential [.str "a", .str "b"] (fun n => if n = 0 then [0, 7] else [8]) 0) =
    some s ∧ s.callers = [⟨.str "a", .done 0⟩, ⟨.str "b", .done 7⟩] := ⟨_, rfl, rfl⟩

/-! ### C115: requests in progress -/

/-- A call that got a message. (Specification: no counterpart in the code.) -/
def finishedOk : Phase M → Bool
  | .done _ => true
  | _ => false

/-- **C115**. `active_requests` holds, for distinct ids, exactly the calls that did not receive a message.
Missing from the property: calls that failed or were dropped stay for ever (`C115_leak`). -/
theorem C115_active_partial (l : List (COp M)) (s : Conn M) (h : crun Conn.new l = some s) (hd : (started l).Nodup)
    (id : Id) : id ∈ s.active ↔ ∃ (n : Nat) (c : Caller M), s.callers[n]? = some c ∧ c.id = id ∧ finishedOk c.phase = false := by
  induction l using snocInduction generalizing s with
  | nil => simp only [crun, Option.some.injEq] at h; subst h; simp [Conn.new]
  | append_singleton l op ih =>
    have hi := cinv_run _ s h
    rw [crun_append] at h
    cases h1 : crun Conn.new l with
    | none => rw [h1] at h; cases h
    | some t =>
      rw [h1] at h
      replace h : cstep t op = some s := by
        simp only [Option.bind_some, crun] at h
        cases h2 : cstep t op with
        | none => rw [h2] at h; cases h
        | some u => rw [h2] at h; exact h
      have hit := cinv_run l t h1
      have hdl : (started l).Nodup := by rw [started_append] at hd; exact (List.nodup_append.mp hd).1
      have iht := ih t h1 hdl
      -- a change of one phase that keeps "did not receive"
      have keep : ∀ (n : Nat) (p0 p : Phase M) (i0 : Id), t.callers[n]? = some ⟨i0, p0⟩ → finishedOk p0 = false →
          finishedOk p = false →
          ((∃ (k : Nat) (c : Caller M), (setPhase t.callers n p)[k]? = some c ∧ c.id = id ∧ finishedOk c.phase = false) ↔
            ∃ (k : Nat) (c : Caller M), t.callers[k]? = some c ∧ c.id = id ∧ finishedOk c.phase = false) := by
        intro n p0 p i0 hn h0 hp
        constructor
        · rintro ⟨k, c, hk, hc, hf⟩
          rw [setPhase_get] at hk
          split at hk
          · next he =>
            subst he; rw [hn] at hk; simp at hk; subst hk
            exact ⟨n, _, hn, hc, h0⟩
          · exact ⟨k, c, hk, hc, hf⟩
        · rintro ⟨k, c, hk, hc, hf⟩
          by_cases he : n = k
          · subst he; rw [hn] at hk; simp at hk; subst hk
            exact ⟨n, ⟨i0, p⟩, by rw [setPhase_get]; simp [hn], hc, hp⟩
          · exact ⟨k, c, by rw [setPhase_get, if_neg he]; exact hk, hc, hf⟩
      cases op with
      | start i =>
        simp only [cstep, Option.some.injEq] at h; subst h
        simp only [List.mem_append, List.mem_singleton, iht]
        constructor
        · rintro (⟨k, c, hk, hc, hf⟩ | rfl)
          · exact ⟨k, c, by rw [List.getElem?_append_left (List.getElem?_eq_some_iff.mp hk).1]; exact hk, hc, hf⟩
          · exact ⟨t.callers.length, ⟨id, .sending⟩, by simp, rfl, rfl⟩
        · rintro ⟨k, c, hk, hc, hf⟩
          rw [List.getElem?_append] at hk
          split at hk
          · exact Or.inl ⟨k, c, hk, hc, hf⟩
          · cases hj : k - t.callers.length with
            | zero => rw [hj] at hk; simp at hk; subst hk; exact Or.inr hc.symm
            | succ q => rw [hj] at hk; simp at hk
      | arrive m => simp only [cstep, Option.some.injEq] at h; subst h; exact iht
      | send n =>
        simp only [cstep] at h
        split at h
        · next i hn => simp at h; subst h; exact iht.trans (keep n _ _ i hn rfl rfl).symm
        · simp at h
      | sendFail n =>
        simp only [cstep] at h
        split at h
        · next i hn => simp at h; subst h; exact iht.trans (keep n _ _ i hn rfl rfl).symm
        · simp at h
      | receiveFail n =>
        simp only [cstep] at h
        split at h
        · next i hn => simp at h; subst h; exact iht.trans (keep n _ _ i hn rfl rfl).symm
        · simp at h
      | drop n =>
        simp only [cstep] at h
        split at h
        · next i hn => simp at h; subst h; exact iht.trans (keep n _ _ i hn rfl rfl).symm
        · next i hn => simp at h; subst h; exact iht.trans (keep n _ _ i hn rfl rfl).symm
        · simp at h
      | receive n =>
        simp only [cstep] at h
        split at h
        · next i m inc hn hinc =>
          simp at h; subst h
          simp only [List.mem_filter, iht, decide_not, Bool.not_eq_eq_eq_not, Bool.not_true, decide_eq_false_iff_not]
          constructor
          · rintro ⟨⟨k, c, hk, hc, hf⟩, hne⟩
            refine ⟨k, c, ?_, hc, hf⟩
            rw [setPhase_get, if_neg]
            · exact hk
            · rintro rfl; rw [hn] at hk; simp at hk; subst hk; exact hne hc.symm
          · rintro ⟨k, c, hk, hc, hf⟩
            rw [setPhase_get] at hk
            split at hk
            · next he => subst he; rw [hn] at hk; simp at hk; subst hk; simp [finishedOk] at hf
            · next he =>
              refine ⟨⟨k, c, hk, hc, hf⟩, ?_⟩
              rintro rfl
              have hids : (started l)[n]? = some id := by rw [← hit.ids]; simp [hn]
              have hidk : (started l)[k]? = some id := by rw [← hit.ids]; simp [hk, hc]
              have e1 := List.getElem?_eq_some_iff.mp hids
              have e2 := List.getElem?_eq_some_iff.mp hidk
              have hp := List.pairwise_iff_getElem.mp hdl
              rcases Nat.lt_trichotomy n k with hlt | heq | hgt
              · exact hp n k e1.1 e2.1 hlt (e1.2.trans e2.2.symm)
              · exact he heq
              · exact hp k n e2.1 e1.1 hgt (e2.2.trans e1.2.symm)
        · simp at h

/-- **C115** fails: a call whose sending failed stays in `active_requests`. -/
theorem C115_leak (a : Id) : ∃ s : Conn M, crun Conn.new [.start a, .sendFail 0] = some s ∧ s.active = [a] ∧
    s.callers = [⟨a, .failed⟩] := ⟨_, rfl, rfl, rfl⟩

/-! ### C116: a client and a server of this library -/

/-- The surroundings of a call if the server answers the request and nothing else happens.
(Specification: no counterpart in the code.) -/
def answering {W : Type} (srv : Srv W) (st : St W) (id : Id) (r : ClientRequest) : Env :=
  { id := id, sendOk := true, noteOk := true
    recv := (handleRequest srv st id (.client r)).1.map .response }

/-- The request `initialize` sends. (Specification: no counterpart in the code.) -/
def initRequest (info : Impl) (caps : ClientCaps) : ClientRequest :=
  .init { protocolVersion := "2025-06-18", capabilities := caps, clientInfo := info }

/-- **C116**. `initialize` succeeds with every server of this library, and the client then knows exactly what
the server was built with. -/
theorem C116_connect {W : Type} (srv : Srv W) (st : St W) (info : Impl) (caps : ClientCaps) (id : Id) :
    ∃ v c, call (Cl.new info) (answering srv st id (initRequest info caps)) (.connect caps) =
        ([.request id (.client (initRequest info caps)), .notification (.client .initialized)], .value v, c) ∧
      InitResult.dec v = some { protocolVersion := "2024-11-05", capabilities := srv.capabilities, serverInfo := srv.info } ∧
      c.initialized = true ∧ c.serverCaps = some srv.capabilities ∧ c.serverInfo = some srv.info := by
  have hd : InitResult.dec (InitResult.enc
      { protocolVersion := answeredVersion, capabilities := srv.capabilities, serverInfo := srv.info }) =
      some { protocolVersion := "2024-11-05", capabilities := srv.capabilities, serverInfo := srv.info } := by
    simp [InitResult.dec, InitResult.enc, answeredVersion]
  have hv : "2024-11-05" ∈ supported := by decide
  refine ⟨_, _, by
    simp only [call, Cl.new, answering, initRequest, sendRequest, handleRequest, Option.map_some, connected, hd, hv,
      if_true, if_false, Bool.false_eq_true]
    rfl, hd, rfl, rfl, rfl⟩

/-- **C116**. After that, calling a registered tool returns its result exactly if the server was told to advertise
tools; otherwise the call is refused and nothing is sent. Missing from the property: servers that registered tools
without calling `capabilities`. -/
theorem C116_call_tool_partial {W : Type} (info sinfo : Impl) (render : Json → String) (l : List (Build W)) (st st' : St W)
    (caps : ClientCaps) (id id' : Id) (p : CallTool) (h : Json → Extra → W → Server.Outcome Json × W)
    (hl : lastTool l p.name = some h) (x : Json) (w : W) (hx : h p.arguments (extraOf st' id') st'.world = (.ok x, w)) :
    ∃ c, (call (Cl.new info) (answering (build sinfo render l) st id (initRequest info caps)) (.connect caps)).2.2 = c ∧
      ((lastCaps l).tools ≠ none →
        ∃ v, (call c (answering (build sinfo render l) st' id' (.callTool p)) (.request (.callTool p))).2.1 = .value v ∧
          CallToolResult.dec v = some { content := [.text ((build sinfo render l).render x)], isError := false }) ∧
      ((lastCaps l).tools = none →
        call c (answering (build sinfo render l) st' id' (.callTool p)) (.request (.callTool p)) =
          ([], .fail .capability, c)) := by
  obtain ⟨v, c, hc, -, h2, h3, -⟩ := C116_connect (build sinfo render l) st info caps id
  refine ⟨c, by rw [hc], ?_, ?_⟩
  · intro ht
    have hb := (build_caps sinfo render l).1
    have hg : AMap.get (build sinfo render l).tools p.name = some h := by rw [(build_tools sinfo render l p.name).1, hl]
    obtain ⟨u, hu, hd⟩ := C110_tool (build sinfo render l) st' id' p h hg x w hx
    refine ⟨u, ?_, hd⟩
    have ht' : (build sinfo render l).capabilities.tools.isSome = true := by
      rw [hb, Option.isSome_iff_ne_none]; exact ht
    simp only [call, gate, h2, h3, ht', if_true, sendRequest, answering, hu, Option.map_some, finish, returnsUnit,
      Bool.false_eq_true, if_false, reads, hd, Option.isSome_some]
  · intro ht
    have hb := (build_caps sinfo render l).1
    have ht' : (build sinfo render l).capabilities.tools.isSome = false := by rw [hb, ht]; rfl
    simp [call, gate, h2, h3, ht']

/-- **C116**. An error a tool raised reaches the caller with code -32603, its text as message and no data,
whatever code and data were raised. -/
theorem C116_tool_error {W : Type} (srv : Srv W) (st : St W) (c : Cl) (hi : c.initialized = true)
    (hs : c.serverCaps = some srv.capabilities) (ht : srv.capabilities.tools.isSome = true) (id : Id) (p : CallTool)
    (h : Json → Extra → W → Server.Outcome Json × W) (hg : AMap.get srv.tools p.name = some h) (e : Err) (w : W)
    (he : h p.arguments (extraOf st id) st.world = (.err e, w)) :
    (call c (answering srv st id (.callTool p)) (.request (.callTool p))).2.1 =
      .fail (.rpc (.protocol internalError e.text none)) := by
  have hr : (handleRequest srv st id (.client (.callTool p))).1 =
      some ⟨"2.0", id, .error ⟨internalError, e.text, none⟩⟩ := by
    simp [handleRequest, process, hg, he, afterHandler, createResponse]
  simp only [call, gate, hi, hs, ht, if_true, sendRequest, answering, hr, Option.map_some, finish, fromRpcError]
  rfl

/-- **C116** fails for completion: a server that advertises completions answers, and the client cannot read it. -/
theorem C116_complete {W : Type} (srv : Srv W) (st : St W) (c : Cl) (hi : c.initialized = true)
    (hs : c.serverCaps = some srv.capabilities) (ht : srv.capabilities.completions.isSome = true) (id : Id) (p : Complete) :
    (call c (answering srv st id (.complete p)) (.request (.complete p))).2.1 = .fail .parse := by
  obtain ⟨v, hv, hr⟩ := C110_complete srv st id p
  simp [call, gate, hi, hs, ht, sendRequest, answering, hv, finish, returnsUnit, hr]

example : lastTool [Build.tool "echo" (fun v _ (w : Nat) => (Server.Outcome.ok v, w))] "echo" ≠ none := by
  simp [lastTool]

end Verif.Client
