import Verif.Conform.FromServer

/-
What is read from a server's requests and from notifications has the meaning of what was sent (C190, C191).
-/

namespace Verif.Conform

open Verif Verif.Wire

/-! ### Relations between JSON and the values read -/

/-- The number that was sent. (Specification: no counterpart in the code.) -/
def NumIs (j : Json) (x : F64) : Prop :=
  ∃ q : Rat, x = .fin q ∧ (j = .num (.flt q) ∨ ∃ n : Int, j = .num (.int n) ∧ q = n)

/-- Absent and `None`, or present and related. (Specification: no counterpart in the code.) -/
def OptIs {α : Type} (R : Json → α → Prop) : Option Json → Option α → Prop
  | none, none => True
  | some j, some a => R j a
  | _, _ => False

/-- Two lists, entry by entry. (Specification: no counterpart in the code.) -/
def Each {α : Type} (R : Json → α → Prop) : List Json → List α → Prop
  | [], [] => True
  | j :: l, a :: m => R j a ∧ Each R l m
  | _, _ => False

/-- A text or an image. (Specification: no counterpart in the code.) -/
def ContentIs (j : Json) : Content → Prop
  | .text t => ∃ f, j = .obj f ∧ AMap.get f "type" = some (.str "text") ∧ AMap.get f "text" = some (.str t)
  | .image d m => ∃ f, j = .obj f ∧ AMap.get f "type" = some (.str "image") ∧ AMap.get f "data" = some (.str d) ∧
      AMap.get f "mimeType" = some (.str m)
  | .resource _ _ _ => False

/-- A message. (Specification: no counterpart in the code.) -/
def MessageIs (j : Json) (m : Message) : Prop :=
  ∃ f c, j = .obj f ∧ AMap.get f "role" = some (.str m.role.name) ∧ AMap.get f "content" = some c ∧ ContentIs c m.content

/-- A hint. (Specification: no counterpart in the code.) -/
def HintIs (j : Json) (h : ModelHint) : Prop := ∃ f, j = .obj f ∧ AMap.get f "name" = h.name.map .str

/-- Preferences. (Specification: no counterpart in the code.) -/
def PrefsIs (j : Json) (p : ModelPrefs) : Prop :=
  ∃ f, j = .obj f ∧ OptIs (fun j l => ∃ a, j = .arr a ∧ Each HintIs a l) (AMap.get f "hints") p.hints ∧
    OptIs NumIs (AMap.get f "costPriority") p.cost ∧ OptIs NumIs (AMap.get f "speedPriority") p.speed ∧
    OptIs NumIs (AMap.get f "intelligencePriority") p.intelligence

/-- The parameters of a sampling request. (Specification: no counterpart in the code.) -/
def SamplingIs (p : List (String × Json)) (x : CreateMessage) : Prop :=
  (∃ l, AMap.get p "messages" = some (.arr l) ∧ Each MessageIs l x.messages) ∧
  OptIs PrefsIs (AMap.get p "modelPreferences") x.prefs ∧ AMap.get p "systemPrompt" = x.systemPrompt.map .str ∧
  x.includeContext = .none ∧ (∀ s, AMap.get p "includeContext" = some (.str s) → s = "none") ∧
  OptIs NumIs (AMap.get p "temperature") x.temperature ∧
  (∃ n, x.maxTokens = some n ∧ AMap.get p "maxTokens" = some (.num (.int n.1))) ∧
  AMap.get p "stopSequences" = x.stopSequences.map (fun l => .arr (l.map .str)) ∧ AMap.get p "metadata" = x.metadata

theorem decF64_means (j : Json) (x : F64) (h : decF64 j = some x) : NumIs j x := by
  unfold decF64 at h
  split at h
  · cases h; exact ⟨_, rfl, .inl rfl⟩
  · cases h; exact ⟨_, rfl, .inr ⟨_, rfl, rfl⟩⟩
  · cases h

theorem decStr_means (j : Json) (s : String) (h : decStr j = some s) : j = .str s := by
  cases j <;> simp_all [decStr]

theorem optOf_means {α : Type} (R : Json → α → Prop) (d : Json → Option α) (hd : ∀ j a, d j = some a → R j a)
    (x : Option Json) (o : Option α) (hx : x ≠ some .null) (h : optOf d x = some o) : OptIs R x o := by
  cases x with
  | none => cases h; trivial
  | some j =>
    have h' : (d j).map some = some o := by
      cases j <;> first | exact absurd rfl hx | exact h
    rw [Option.map_eq_some_iff] at h'
    obtain ⟨a, ha, rfl⟩ := h'
    exact hd j a ha

theorem optStr_means (x : Option Json) (o : Option String) (hx : x ≠ some .null) (h : optOf decStr x = some o) :
    x = o.map .str := by
  have := optOf_means _ decStr decStr_means x o hx h
  cases x <;> cases o <;> simp_all [OptIs]

theorem decAll_means {α : Type} (R : Json → α → Prop) (d : Json → Option α) (l : List Json) (m : List α)
    (hd : ∀ j ∈ l, ∀ a, d j = some a → R j a) (h : decAll d l = some m) : Each R l m := by
  induction l generalizing m with
  | nil => cases h; trivial
  | cons j l ih =>
    simp only [decAll, Option.bind_eq_some_iff, Option.map_eq_some_iff] at h
    obtain ⟨a, ha, m', hm', rfl⟩ := h
    exact ⟨hd j (by simp) a ha, ih m' (fun j hj => hd j (by simp [hj])) hm'⟩

theorem each_str (l : List Json) (m : List String) (h : Each (fun j s => j = .str s) l m) : l = m.map .str := by
  induction l generalizing m with
  | nil => cases m <;> simp_all [Each]
  | cons j l ih =>
    cases m with
    | nil => cases h
    | cons a m => rw [List.map_cons, h.1, ih m h.2]

theorem not_null_of {p : Schema} (hp : p .null = false) (f : List (String × Json)) (k : String) (h : may k p f = true) :
    AMap.get f k ≠ some .null := by
  intro hk
  have := (may_iff k p f).mp h _ hk
  rw [hp] at this
  cases this

theorem content_means (j : Json) (c : Content) (h : either textContent mediaContent j = true) (hc : Content.dec j = some c) :
    ContentIs j c := by
  simp only [either, Bool.or_eq_true, textContent, mediaContent, object_iff, List.mem_cons, List.not_mem_nil, or_false,
    forall_eq_or_imp, forall_eq] at h
  have hr : ∀ (g : List (String × Json)) (k : String), k ≠ "type" →
      AMap.get (AMap.remove g "type") k = AMap.get g k := fun g k hk => AMap.get_remove_ne _ hk
  rcases h with ⟨g, rfl, ht, hn⟩ | ⟨g, rfl, ht, h1, h2⟩
  · obtain ⟨t, htl, ht⟩ := type_get g _ ht
    simp only [List.mem_singleton] at htl
    subst htl
    obtain ⟨s, hs⟩ := str_get g _ hn
    simp [Content.dec, tagged, ht, variantSrc, hr, hs] at hc
    subst hc
    exact ⟨g, rfl, ht, hs⟩
  · obtain ⟨t, htl, ht⟩ := type_get g _ ht
    simp only [List.mem_cons, List.not_mem_nil, or_false] at htl
    obtain ⟨s, hs⟩ := str_get g _ h1
    obtain ⟨s', hs'⟩ := str_get g _ h2
    rcases htl with rfl | rfl
    · simp [Content.dec, tagged, ht, variantSrc, hr, hs, hs'] at hc
      subst hc
      exact ⟨g, rfl, ht, hs, hs'⟩
    · simp [Content.dec, tagged, ht, variantSrc] at hc

theorem message_means (j : Json) (m : Message) (h : samplingMessage j = true) (hm : Message.dec j = some m) :
    MessageIs j m := by
  simp only [samplingMessage, object_iff, List.mem_cons, List.not_mem_nil, or_false, forall_eq_or_imp, forall_eq,
    must_iff] at h
  obtain ⟨g, rfl, ⟨r, hr, hr'⟩, x, hx, hx'⟩ := h
  simp only [Message.dec, src_obj, Option.bind_eq_bind, Option.bind_some, req_obj, hr, hx, Option.bind_eq_some_iff] at hm
  obtain ⟨a, ha, c, hc, e⟩ := hm
  cases e
  refine ⟨g, x, rfl, ?_, hx, content_means x c hx' hc⟩
  rw [hr]
  cases r <;> simp [role, oneOf] at hr'
  rcases hr' with rfl | rfl <;> simp [Role.dec, decEnum, Role.ofName] at ha <;> subst ha <;> rfl

theorem prefs_means (j : Json) (p : ModelPrefs) (h : modelPreferences j = true) (hp : ModelPrefs.dec j = some p) :
    PrefsIs j p := by
  simp only [modelPreferences, object_iff, List.mem_cons, List.not_mem_nil, or_false, forall_eq_or_imp, forall_eq] at h
  obtain ⟨g, rfl, h1, h2, h3, h4⟩ := h
  simp only [ModelPrefs.dec, src_obj, Option.bind_eq_bind, Option.bind_some, opt_obj, Option.bind_eq_some_iff] at hp
  obtain ⟨a, ha, b, hb, c, hc, d, hd, e⟩ := hp
  cases e
  refine ⟨g, rfl, ?_, optOf_means _ _ decF64_means _ _ (not_null_of rfl g _ h2) hb,
    optOf_means _ _ decF64_means _ _ (not_null_of rfl g _ h3) hc,
    optOf_means _ _ decF64_means _ _ (not_null_of rfl g _ h4) hd⟩
  cases hg : AMap.get g "hints" with
  | none => rw [hg] at ha; cases ha; trivial
  | some x =>
    have hx := (may_iff _ _ _).mp h1 x hg
    obtain ⟨l, rfl, hl⟩ := (array_iff _ _).mp hx
    rw [hg] at ha
    simp only [optOf, decOpt, decList, Option.map_eq_some_iff] at ha
    obtain ⟨m, hm, rfl⟩ := ha
    refine ⟨l, rfl, decAll_means HintIs _ l m ?_ hm⟩
    intro j hj q hq
    have := hl j hj
    simp only [object_iff, List.mem_cons, List.not_mem_nil, or_false, forall_eq] at this
    obtain ⟨f, rfl, hf⟩ := this
    simp only [ModelHint.dec, src_obj, Option.bind_eq_bind, Option.bind_some, opt_obj, Option.bind_eq_some_iff] at hq
    obtain ⟨n, hn, e⟩ := hq
    cases e
    exact ⟨f, rfl, optStr_means _ _ (not_null_of rfl f _ hf) hn⟩

theorem sampling_means (p : List (String × Json)) (x : CreateMessage)
    (h : ∀ m ∈ [must "messages" (array samplingMessage), must "maxTokens" integer,
      may "modelPreferences" modelPreferences, may "systemPrompt" str,
      may "includeContext" (oneOf ["none", "thisServer", "allServers"]), may "temperature" number,
      may "stopSequences" (array str), may "metadata" anyObject], m p = true)
    (hx : CreateMessage.dec (.obj p) = some x) : SamplingIs p x := by
  have hread := (sampling_dec p h).mp (by rw [hx]; rfl)
  simp only [List.mem_cons, List.not_mem_nil, or_false, forall_eq_or_imp, forall_eq] at h
  obtain ⟨h1, h2, h3, h4, h5, h6, h7, h8⟩ := h
  rw [must_iff] at h1 h2
  obtain ⟨jm, hjm, hm⟩ := h1
  obtain ⟨l, rfl, hl⟩ := (array_iff _ _).mp hm
  obtain ⟨jt, hjt, ht⟩ := h2
  simp only [CreateMessage.dec, src_obj, Option.bind_eq_bind, Option.bind_some, req_obj, opt_obj, hjm,
    Option.bind_eq_some_iff] at hx
  obtain ⟨a, ha, b, hb, c, hc, d, hd, e, he, f, hf, s, hs, v, hv, q⟩ := hx
  cases q
  refine ⟨⟨l, hjm, ?_⟩, ?_, optStr_means _ _ (not_null_of rfl p _ h4) hc, ?_, hread.2.1,
    optOf_means _ _ decF64_means _ _ (not_null_of rfl p _ h6) he, ?_, ?_, ?_⟩
  · exact decAll_means _ _ l a (fun j hj m hm => message_means j m (hl j hj) hm) ha
  · cases hg : AMap.get p "modelPreferences" with
    | none => rw [hg] at hb; cases hb; trivial
    | some j =>
      rw [hg] at hb
      have hj := (may_iff _ _ _).mp h3 j hg
      have hn : j ≠ .null := by rintro rfl; cases hj
      have := optOf_means (fun j' p' => j' = j → PrefsIs j' p') ModelPrefs.dec
        (fun j' p' hp' e => prefs_means j' p' (e ▸ hj) hp') (some j) b (by simpa using hn) hb
      cases b with
      | none => exact this.elim
      | some b => exact this rfl
  · rw [dflt_obj] at hd
    cases hg : AMap.get p "includeContext" with
    | none => rw [hg] at hd; exact (Option.some.inj hd).symm
    | some j =>
      have hj := (may_iff _ _ _).mp h5 j hg
      cases j <;> simp [oneOf] at hj
      rename_i t
      have := hread.2.1 t hg
      subst this
      rw [hg] at hd
      simp [IncludeContext.dec, decEnum, IncludeContext.ofName] at hd
      exact hd.symm
  · rw [hjt] at hf
    cases jt <;> simp [integer] at ht
    rename_i k
    cases k <;> simp at ht
    rename_i n
    simp only [optOf, decOpt, decInt, Option.map_eq_some_iff] at hf
    obtain ⟨y, hy, rfl⟩ := hf
    split at hy
    · cases hy; exact ⟨_, rfl, hjt⟩
    · cases hy
  · cases hg : AMap.get p "stopSequences" with
    | none => rw [hg] at hs; cases hs; rfl
    | some j =>
      obtain ⟨l', rfl, -⟩ := (array_iff _ _).mp ((may_iff _ _ _).mp h7 j hg)
      rw [hg] at hs
      simp only [optOf, decOpt, decList, Option.map_eq_some_iff] at hs
      obtain ⟨m, hm, rfl⟩ := hs
      rw [each_str l' m (decAll_means _ _ l' m (fun j _ => decStr_means j) hm)]
      rfl
  · have := optOf_means (fun j v => j = v) decVal (fun j v h => Option.some.inj h) _ _ (not_null_of rfl p _ h8) hv
    cases hg : AMap.get p "metadata" <;> cases v <;> simp_all [OptIs]

/-- What was sent, for what a client reads of a request. (Specification: no counterpart in the code.) -/
def RequestIs (f : List (String × Json)) : Request → Prop
  | .client .ping => AMap.get f "method" = some (.str "ping")
  | .client (.createMessage x) => AMap.get f "method" = some (.str "sampling/createMessage") ∧
      ∃ p, AMap.get f "params" = some (.obj p) ∧ SamplingIs p x
  | .server .listRoots => AMap.get f "method" = some (.str "roots/list")
  | _ => False

/-- **C190**: what a client reads of a valid request of a server is what was sent: the id, the method, and of a sampling
request all messages, preferences, limits and texts; numbers have their value whether written as integers or not. -/
theorem C190_meaning (f : List (String × Json)) (h : request serverRequests (.obj f) = true) (t : TMsg)
    (ht : parseMessage (.obj f) = some t) :
    ∃ id r, t = .request id r ∧ AMap.get f "id" = some id.enc ∧ RequestIs f r := by
  obtain ⟨hv, ⟨i, hi, hr⟩, m, pr, hm, hp, hc⟩ := valid_request _ f h
  cases hd : Id.dec i with
  | none => rw [parse_bad_id f m i hi hd hm] at ht; cases ht
  | some id =>
    have hide := id_enc i id hr hd
    rw [parse_request f "2.0" m id i hv hi hd hm] at ht
    have hmem : (m, pr) ∈ serverRequests := AMap.mem_of_get hp
    simp only [serverRequests, List.mem_cons, List.not_mem_nil, or_false, Prod.mk.injEq] at hmem
    rcases hmem with ⟨rfl, rfl⟩ | ⟨rfl, rfl⟩ | ⟨rfl, rfl⟩ | ⟨rfl, rfl⟩
    · simp only [optional_iff] at hc
      rcases hc with hg | ⟨g, hg, -, -⟩
      · simp [hg, ClientRequest.table, AMap.get_cons, Variant.read] at ht
        subst ht
        exact ⟨id, _, rfl, by rw [hi, hide], hm⟩
      · simp [hg, ClientRequest.table, ServerRequest.table, AMap.get_cons, Variant.read] at ht
    · obtain ⟨g, hg, -, hl⟩ := (needed_iff _ _).mp hc
      have e1 : (AMap.get ClientRequest.table "sampling/createMessage").bind (fun x => x.read (some (.obj g))) =
        (CreateMessage.dec (.obj g)).map .createMessage := rfl
      have e2 : (AMap.get ServerRequest.table "sampling/createMessage").bind (fun x => x.read (some (.obj g))) =
        (CreateMessage.dec (.obj g)).map .createMessage := rfl
      simp only [hg, Option.getD_some, e1, e2] at ht
      cases hx : CreateMessage.dec (.obj g) with
      | none => rw [hx] at ht; simp at ht
      | some x =>
        rw [hx] at ht
        simp at ht
        subst ht
        exact ⟨id, _, rfl, by rw [hi, hide], hm, g, hg, sampling_means g x hl hx⟩
    · simp only [optional_iff] at hc
      rcases hc with hg | ⟨g, hg, -, -⟩
      · simp [hg, ClientRequest.table, ServerRequest.table, AMap.get_cons, AMap.get, Variant.read] at ht
        subst ht
        exact ⟨id, _, rfl, by rw [hi, hide], hm⟩
      · simp [hg, ClientRequest.table, ServerRequest.table, AMap.get_cons, AMap.get, Variant.read] at ht
    · simp [ClientRequest.table, ServerRequest.table, AMap.get_cons, AMap.get] at ht

/-- A sampling request with a temperature written as an integer. -/
example : ∃ t, parseMessage (.obj [("jsonrpc", .str "2.0"), ("id", .num (.int 1)), ("method", .str "sampling/createMessage"),
    ("params", .obj [("messages", .arr []), ("maxTokens", .num (.int 100)), ("temperature", .num (.int 1))])]) = some t :=
  ⟨_, rfl⟩

/-- What was sent, for what is read of a notification. (Specification: no counterpart in the code.) -/
def NotificationIs (f : List (String × Json)) : Notification → Prop
  | .progress x => AMap.get f "method" = some (.str "notifications/progress") ∧
      ∃ p j, AMap.get f "params" = some (.obj p) ∧ AMap.get p "progressToken" = some x.token.enc ∧
        AMap.get p "progress" = some j ∧ NumIs j x.progress ∧ AMap.get p "message" = x.message.map .str
  | .cancelled x => AMap.get f "method" = some (.str "notifications/cancelled") ∧
      ∃ p, AMap.get f "params" = some (.obj p) ∧ AMap.get p "requestId" = some x.requestId.enc ∧
        AMap.get p "reason" = x.reason.map .str
  | .client .initialized => AMap.get f "method" = some (.str "notifications/initialized")
  | .client .rootsListChanged => AMap.get f "method" = some (.str "notifications/roots/list_changed")
  | .server .toolsChanged => AMap.get f "method" = some (.str "notifications/tools/list_changed")
  | .server .promptsChanged => AMap.get f "method" = some (.str "notifications/prompts/list_changed")
  | .server .resourcesChanged => AMap.get f "method" = some (.str "notifications/resources/list_changed")
  | .server (.resourceUpdated x) => AMap.get f "method" = some (.str "notifications/resources/updated") ∧
      ∃ p, AMap.get f "params" = some (.obj p) ∧ AMap.get p "uri" = some (.str x.uri)
  | .server (.log x) => AMap.get f "method" = some (.str "notifications/message") ∧
      ∃ p, AMap.get f "params" = some (.obj p) ∧ AMap.get p "level" = some (.str x.level.name) ∧
        AMap.get p "logger" = x.logger.map .str ∧ AMap.get p "message" = some (.str x.message) ∧
        (AMap.get p "data" = x.data ∨ AMap.get p "data" = some .null ∧ x.data = none)
  | _ => False

theorem progress_means (p : List (String × Json)) (x : Progress)
    (h : ∀ m ∈ [must "progressToken" requestId, must "progress" number, may "total" number, may "message" str], m p = true)
    (hx : Progress.dec (.obj p) = some x) : ∃ j, AMap.get p "progressToken" = some x.token.enc ∧
      AMap.get p "progress" = some j ∧ NumIs j x.progress ∧ AMap.get p "message" = x.message.map .str := by
  simp only [List.mem_cons, List.not_mem_nil, or_false, forall_eq_or_imp, forall_eq] at h
  obtain ⟨h1, h2, -, h4⟩ := h
  rw [must_iff] at h1 h2
  obtain ⟨t, ht, ht'⟩ := h1
  obtain ⟨n, hn, -⟩ := h2
  simp only [Progress.dec, src_obj, Option.bind_eq_bind, Option.bind_some, req_obj, opt_obj, ht, hn,
    Option.bind_eq_some_iff] at hx
  obtain ⟨a, ha, b, hb, c, hc, e⟩ := hx
  cases e
  exact ⟨n, by rw [ht, id_enc t a ht' ha], hn, decF64_means _ _ hb, optStr_means _ _ (not_null_of rfl p _ h4) hc⟩

theorem cancelled_means (p : List (String × Json)) (x : Cancelled)
    (h : ∀ m ∈ [must "requestId" requestId, may "reason" str], m p = true) (hx : Cancelled.dec (.obj p) = some x) :
    AMap.get p "requestId" = some x.requestId.enc ∧ AMap.get p "reason" = x.reason.map .str := by
  simp only [List.mem_cons, List.not_mem_nil, or_false, forall_eq_or_imp, forall_eq] at h
  obtain ⟨h1, h4⟩ := h
  rw [must_iff] at h1
  obtain ⟨t, ht, ht'⟩ := h1
  simp only [Cancelled.dec, src_obj, Option.bind_eq_bind, Option.bind_some, req_obj, opt_obj, ht,
    Option.bind_eq_some_iff] at hx
  obtain ⟨a, ha, c, hc, e⟩ := hx
  cases e
  exact ⟨by rw [ht, id_enc t a ht' ha], optStr_means _ _ (not_null_of rfl p _ h4) hc⟩

theorem logLevel_name (s : String) (l : LogLevel) (h : LogLevel.ofName s = some l) : s = l.name := by
  unfold LogLevel.ofName at h
  repeat' split at h
  all_goals first
    | (cases h; assumption)
    | cases h

theorem log_means (p : List (String × Json)) (x : LogMessage)
    (h : ∀ m ∈ [must "level" loggingLevel, may "logger" str, must "data" unknown], m p = true)
    (hx : LogMessage.dec (.obj p) = some x) :
    AMap.get p "level" = some (.str x.level.name) ∧ AMap.get p "logger" = x.logger.map .str ∧
      AMap.get p "message" = some (.str x.message) ∧
      (AMap.get p "data" = x.data ∨ AMap.get p "data" = some .null ∧ x.data = none) := by
  simp only [List.mem_cons, List.not_mem_nil, or_false, forall_eq_or_imp, forall_eq] at h
  obtain ⟨h1, h2, -⟩ := h
  rw [must_iff] at h1
  obtain ⟨l, hl, hl'⟩ := h1
  simp only [LogMessage.dec, src_obj, Option.bind_eq_bind, Option.bind_some, req_obj, opt_obj, hl,
    Option.bind_eq_some_iff] at hx
  obtain ⟨a, ha, b, hb, c, ⟨j, hj, hc⟩, d, hd, e⟩ := hx
  cases e
  refine ⟨?_, optStr_means _ _ (not_null_of rfl p _ h2) hb, by rw [hj, decStr_means j c hc], ?_⟩
  · rw [hl]
    cases l <;> simp [loggingLevel, oneOf] at hl'
    simp only [LogLevel.dec, decEnum] at ha
    rw [logLevel_name _ _ ha]
  · cases hg : AMap.get p "data" with
    | none => rw [hg] at hd; cases hd; exact .inl rfl
    | some j =>
      rw [hg] at hd
      cases j <;> simp [optOf, decOpt, decVal] at hd <;> subst hd <;> simp

/-- **C191**: what is read of a valid notification is what was sent: the kind, the identifiers, the number (written as an
integer or not), the texts and the data. The one thing lost is the difference between data `null` and no data. -/
theorem C191_meaning (t : List (String × Params)) (ht : t = clientNotifications ∨ t = serverNotifications)
    (f : List (String × Json)) (h : notification t (.obj f) = true) (x : TMsg) (hx : parseMessage (.obj f) = some x) :
    ∃ n, x = .notification n ∧ NotificationIs f n := by
  obtain ⟨hv, hi, m, pr, hm, hp, hc⟩ := valid_notification _ f h
  have hmem : (m, pr) ∈ clientNotifications ++ serverNotifications := by
    have := AMap.mem_of_get hp
    rcases ht with rfl | rfl
    · exact List.mem_append_left _ this
    · exact List.mem_append_right _ this
  rw [parse_notif f "2.0" m hv hi hm, Option.map_eq_some_iff] at hx
  obtain ⟨n, hn, rfl⟩ := hx
  refine ⟨n, rfl, ?_⟩
  simp only [clientNotifications, serverNotifications, List.cons_append, List.nil_append, List.mem_cons, List.not_mem_nil,
    or_false, Prod.mk.injEq] at hmem
  have hcan : m = "notifications/cancelled" → pr = cancelledParams → NotificationIs f n := by
    rintro rfl rfl
    obtain ⟨g, hg, -, hl⟩ := (needed_iff _ _).mp hc
    rw [if_neg (by decide), if_pos rfl, hg, Option.getD_some, Option.map_eq_some_iff] at hn
    obtain ⟨y, hy, rfl⟩ := hn
    exact ⟨hm, g, hg, cancelled_means g y hl hy⟩
  have hpro : m = "notifications/progress" → pr = progressParams → NotificationIs f n := by
    rintro rfl rfl
    obtain ⟨g, hg, -, hl⟩ := (needed_iff _ _).mp hc
    rw [if_pos rfl, hg, Option.getD_some, Option.map_eq_some_iff] at hn
    obtain ⟨y, hy, rfl⟩ := hn
    obtain ⟨j, h1, h2, h3, h4⟩ := progress_means g y hl hy
    exact ⟨hm, g, j, hg, h1, h2, h3, h4⟩
  have hbare : pr = .optional [] → AMap.get f "params" = none ∨ ∃ g, AMap.get f "params" = some (.obj g) := by
    rintro rfl
    rcases (optional_iff _ _).mp hc with hg | ⟨g, hg, -⟩
    · exact .inl hg
    · exact .inr ⟨g, hg⟩
  rcases hmem with ⟨rfl, hq⟩ | ⟨rfl, hq⟩ | ⟨rfl, hq⟩ | ⟨rfl, hq⟩ | ⟨rfl, hq⟩ | ⟨rfl, hq⟩ | ⟨rfl, hq⟩ | ⟨rfl, hq⟩ |
    ⟨rfl, hq⟩ | ⟨rfl, hq⟩ | ⟨rfl, hq⟩
  case inl => exact hcan rfl hq
  case inr.inl => exact hpro rfl hq
  case inr.inr.inr.inr.inl => exact hcan rfl hq
  case inr.inr.inr.inr.inr.inl => exact hpro rfl hq
  case inr.inr.inr.inr.inr.inr.inl =>
    subst hq
    obtain ⟨g, hg, -, hl⟩ := (needed_iff _ _).mp hc
    have e1 : (AMap.get ClientNotification.table "notifications/message").bind (fun x => x.read (some (.obj g))) = none :=
      rfl
    have e2 : (AMap.get ServerNotification.table "notifications/message").bind (fun x => x.read (some (.obj g))) =
      (LogMessage.dec (.obj g)).map .log := rfl
    rw [if_neg (by decide), if_neg (by decide), hg] at hn
    simp only [Option.getD_some, e1, e2, Option.map_map, Option.map_eq_some_iff] at hn
    obtain ⟨y, hy, rfl⟩ := hn
    exact ⟨hm, g, hg, log_means g y hl hy⟩
  case inr.inr.inr.inr.inr.inr.inr.inl =>
    subst hq
    obtain ⟨g, hg, -, hl⟩ := (needed_iff _ _).mp hc
    simp only [List.mem_cons, List.not_mem_nil, or_false, forall_eq] at hl
    obtain ⟨s, hs⟩ := str_get g _ hl
    simp [hg, ClientNotification.table, ServerNotification.table, AMap.get_cons, AMap.get, Variant.read, UriParams.dec, hs] at hn
    subst hn
    exact ⟨hm, g, hg, hs⟩
  all_goals
    rcases hbare hq with hg | ⟨g, hg⟩ <;>
      simp [hg, ClientNotification.table, ServerNotification.table, AMap.get_cons, AMap.get, Variant.read] at hn <;>
      subst hn <;> exact hm

/-- A progress notification with an integer. -/
example : ∃ x, parseMessage (.obj [("jsonrpc", .str "2.0"), ("method", .str "notifications/progress"),
    ("params", .obj [("progressToken", .num (.int 3)), ("progress", .num (.int 1)), ("total", .num (.int 2))])]) = some x :=
  ⟨_, rfl⟩

end Verif.Conform
