import Verif.Conform.Inbound

/-
What the crate understands of the published schema: requests of a server and notifications (C190, C191).

`parseMessage` models `StdioTransport::parse_message` (/repo/src/shared/stdio.rs L218-264).
-/

namespace Verif.Conform

open Verif Verif.Wire

/-! ### Reading members -/

theorem optOf_isSome {α : Type} (d : Json → Option α) (x : Option Json) (h : ∀ j, x = some j → (d j).isSome) :
    (optOf d x).isSome := by
  cases x with
  | none => rfl
  | some j =>
    have := h j rfl
    cases j <;> simp_all [optOf, decOpt]

theorem optOf_isSome_iff {α : Type} (d : Json → Option α) (x : Option Json) (hn : x ≠ some .null) :
    (optOf d x).isSome ↔ ∀ j, x = some j → (d j).isSome := by
  cases x with
  | none => simp
  | some j =>
    cases j <;> simp_all [optOf, decOpt]

theorem may_iff (k : String) (p : Schema) (f : List (String × Json)) :
    may k p f = true ↔ ∀ j, AMap.get f k = some j → p j = true := by rw [may, all_iff]

theorem must_iff (k : String) (p : Schema) (f : List (String × Json)) :
    must k p f = true ↔ ∃ j, AMap.get f k = some j ∧ p j = true := by rw [must, any_iff]

theorem number_dec (j : Json) (h : number j = true) : (decF64 j).isSome := by
  cases j <;> simp [number] at h
  rename_i n
  cases n <;> rfl

theorem priority_dec (j : Json) (h : priority j = true) : (decF64 j).isSome := by
  cases j <;> simp [priority] at h
  rename_i n
  cases n <;> rfl

theorem str_dec (j : Json) (h : str j = true) : (decStr j).isSome := by
  obtain ⟨s, rfl⟩ := (str_iff j).mp h
  rfl

theorem array_iff (p : Schema) (j : Json) : array p j = true ↔ ∃ l, j = .arr l ∧ ∀ x ∈ l, p x = true := by
  cases j <;> simp [array]

theorem array_dec {α : Type} (p : Schema) (d : Json → Option α) (hd : ∀ j, p j = true → (d j).isSome) (j : Json)
    (h : array p j = true) : (decList d j).isSome := by
  obtain ⟨l, rfl, hl⟩ := (array_iff p j).mp h
  rw [decList, decAll_isSome]
  exact fun x hx => hd x (hl x hx)

theorem type_get (g : List (String × Json)) (l : List String) (h : must "type" (oneOf l) g = true) :
    ∃ t ∈ l, AMap.get g "type" = some (.str t) := by
  rw [must_iff] at h
  obtain ⟨x, hx, hx'⟩ := h
  cases x <;> simp [oneOf] at hx'
  exact ⟨_, hx', hx⟩

/-! ### C190: requests of a server -/

/-- The value has the type given. (Specification: no counterpart in the code.) -/
def HasType (t : String) (j : Json) : Prop := ∃ f, j = .obj f ∧ AMap.get f "type" = some (.str t)

theorem media_dec (j : Json) (h : either textContent mediaContent j = true) :
    (Content.dec j).isSome ↔ ¬ HasType "audio" j := by
  simp only [either, Bool.or_eq_true, textContent, mediaContent, object_iff, List.mem_cons, List.not_mem_nil, or_false,
    forall_eq_or_imp, forall_eq] at h
  have hr : ∀ (g : List (String × Json)) (k : String), k ≠ "type" →
      AMap.get (AMap.remove g "type") k = AMap.get g k := fun g k hk => AMap.get_remove_ne _ hk
  rcases h with ⟨g, rfl, ht, hn⟩ | ⟨g, rfl, ht, h1, h2⟩
  · obtain ⟨t, htl, ht⟩ := type_get g _ ht
    simp only [List.mem_singleton] at htl
    subst htl
    obtain ⟨s, hs⟩ := str_get g _ hn
    simp [Content.dec, tagged, ht, variantSrc, hr, hs, HasType]
  · obtain ⟨t, htl, ht⟩ := type_get g _ ht
    simp only [List.mem_cons, List.not_mem_nil, or_false] at htl
    obtain ⟨s, hs⟩ := str_get g _ h1
    obtain ⟨s', hs'⟩ := str_get g _ h2
    rcases htl with rfl | rfl <;> simp [Content.dec, tagged, ht, variantSrc, hr, hs, hs', HasType]

theorem role_dec (j : Json) (h : role j = true) : (Role.dec j).isSome := by
  cases j <;> simp [role, oneOf] at h
  rcases h with rfl | rfl <;> simp [Role.dec, decEnum, Role.ofName]

theorem prefs_dec (j : Json) (h : modelPreferences j = true) : (ModelPrefs.dec j).isSome := by
  simp only [modelPreferences, object_iff, List.mem_cons, List.not_mem_nil, or_false, forall_eq_or_imp, forall_eq,
    may_iff] at h
  obtain ⟨g, rfl, h1, h2, h3, h4⟩ := h
  have hint : ∀ j, object [may "name" str] j = true → (ModelHint.dec j).isSome := by
    intro j hj
    simp only [object_iff, List.mem_cons, List.not_mem_nil, or_false, forall_eq, may_iff] at hj
    obtain ⟨g, rfl, hg⟩ := hj
    obtain ⟨o, ho⟩ := Option.isSome_iff_exists.mp (optOf_isSome decStr (AMap.get g "name") (fun j hj => str_dec j (hg j hj)))
    simp [ModelHint.dec, ho]
  obtain ⟨a, ha⟩ := Option.isSome_iff_exists.mp (optOf_isSome (decList ModelHint.dec) (AMap.get g "hints")
    (fun j hj => array_dec _ _ hint j (h1 j hj)))
  obtain ⟨b, hb⟩ := Option.isSome_iff_exists.mp (optOf_isSome decF64 (AMap.get g "costPriority")
    (fun j hj => priority_dec j (h2 j hj)))
  obtain ⟨c, hc⟩ := Option.isSome_iff_exists.mp (optOf_isSome decF64 (AMap.get g "speedPriority")
    (fun j hj => priority_dec j (h3 j hj)))
  obtain ⟨d, hd⟩ := Option.isSome_iff_exists.mp (optOf_isSome decF64 (AMap.get g "intelligencePriority")
    (fun j hj => priority_dec j (h4 j hj)))
  simp [ModelPrefs.dec, ha, hb, hc, hd]

/-- The sampling parameters a client understands: no audio, no context asked for, a limit that fits 32 bits.
(Specification: no counterpart in the code.) -/
def SamplingRead (p : List (String × Json)) : Prop :=
  (∀ l, AMap.get p "messages" = some (.arr l) → ∀ m ∈ l, ∀ f c, m = .obj f → AMap.get f "content" = some c →
    ¬ HasType "audio" c) ∧
  (∀ s, AMap.get p "includeContext" = some (.str s) → s = "none") ∧
  ∀ n, AMap.get p "maxTokens" = some (.num (.int n)) → 0 ≤ n ∧ n < 2 ^ 32

theorem message_dec (c : Schema) (R : Json → Prop) (hc : ∀ j, c j = true → ((Content.dec j).isSome ↔ R j)) (j : Json)
    (h : object [must "role" role, must "content" c] j = true) :
    (Message.dec j).isSome ↔ ∀ f x, j = .obj f → AMap.get f "content" = some x → R x := by
  simp only [object_iff, List.mem_cons, List.not_mem_nil, or_false, forall_eq_or_imp, forall_eq, must_iff] at h
  obtain ⟨g, rfl, ⟨r, hr, hr'⟩, x, hx, hx'⟩ := h
  obtain ⟨a, ha⟩ := Option.isSome_iff_exists.mp (role_dec r hr')
  have hx'' := hc x hx'
  have : (Message.dec (.obj g)).isSome ↔ (Content.dec x).isSome := by
    simp only [Message.dec, src_obj, Option.bind_eq_bind, Option.bind_some, req_obj, hr, ha, hx]
    cases Content.dec x <;> simp
  rw [this, hx'']
  constructor
  · intro h f y hf hy
    cases hf
    cases hx.symm.trans hy
    exact h
  · intro h
    exact h g x rfl hx

theorem sampling_dec (p : List (String × Json)) (h : ∀ m ∈ [must "messages" (array samplingMessage), must "maxTokens" integer,
      may "modelPreferences" modelPreferences, may "systemPrompt" str,
      may "includeContext" (oneOf ["none", "thisServer", "allServers"]), may "temperature" number,
      may "stopSequences" (array str), may "metadata" anyObject], m p = true) :
    (CreateMessage.dec (.obj p)).isSome ↔ SamplingRead p := by
  simp only [List.mem_cons, List.not_mem_nil, or_false, forall_eq_or_imp, forall_eq, may_iff] at h
  obtain ⟨h1, h2, h3, h4, h5, h6, h7, -⟩ := h
  rw [must_iff] at h1 h2
  obtain ⟨jm, hjm, hm⟩ := h1
  obtain ⟨l, rfl, hl⟩ := (array_iff _ _).mp hm
  obtain ⟨jt, hjt, ht⟩ := h2
  obtain ⟨b, hb⟩ := Option.isSome_iff_exists.mp (optOf_isSome ModelPrefs.dec (AMap.get p "modelPreferences")
    (fun j hj => prefs_dec j (h3 j hj)))
  obtain ⟨c, hc⟩ := Option.isSome_iff_exists.mp (optOf_isSome decStr (AMap.get p "systemPrompt")
    (fun j hj => str_dec j (h4 j hj)))
  obtain ⟨e, he⟩ := Option.isSome_iff_exists.mp (optOf_isSome decF64 (AMap.get p "temperature")
    (fun j hj => number_dec j (h6 j hj)))
  obtain ⟨s, hs⟩ := Option.isSome_iff_exists.mp (optOf_isSome (decList decStr) (AMap.get p "stopSequences")
    (fun j hj => array_dec _ _ str_dec j (h7 j hj)))
  obtain ⟨v, hv⟩ := Option.isSome_iff_exists.mp (optOf_isSome decVal (AMap.get p "metadata") (fun j _ => rfl))
  have hmsg : (decAll Message.dec l).isSome ↔
      ∀ l, AMap.get p "messages" = some (.arr l) → ∀ m ∈ l, ∀ f c, m = .obj f → AMap.get f "content" = some c →
        ¬ HasType "audio" c := by
    rw [decAll_isSome]
    constructor
    · intro h l' hl' m hm
      cases hjm.symm.trans hl'
      exact (message_dec _ _ media_dec m (hl m hm)).mp (h m hm)
    · intro h m hm
      exact (message_dec _ _ media_dec m (hl m hm)).mpr (h l hjm m hm)
  have hctx : (dflt IncludeContext.dec .none (.obj p) "includeContext" 3).isSome ↔
      ∀ s, AMap.get p "includeContext" = some (.str s) → s = "none" := by
    rw [dflt_obj]
    cases hg : AMap.get p "includeContext" with
    | none => simp
    | some j =>
      have hj := h5 j hg
      cases j <;> simp [oneOf] at hj
      rcases hj with rfl | rfl | rfl <;> simp [IncludeContext.dec, decEnum, IncludeContext.ofName]
  have htok : (optOf (decInt 0 (2 ^ 32)) (AMap.get p "maxTokens")).isSome ↔
      ∀ n, AMap.get p "maxTokens" = some (.num (.int n)) → 0 ≤ n ∧ n < 2 ^ 32 := by
    rw [hjt]
    cases jt <;> simp [integer] at ht
    rename_i k
    cases k <;> simp at ht
    rename_i n
    simp only [optOf, decOpt, decInt, Option.some.injEq, Json.num.injEq, Num.int.injEq, forall_eq']
    by_cases hn : 0 ≤ n ∧ n < 2 ^ 32
    · simp [hn]
    · simp [hn]
  unfold SamplingRead
  rw [← hmsg, ← hctx, ← htok]
  simp only [CreateMessage.dec, src_obj, Option.bind_eq_bind, Option.bind_some, req_obj, opt_obj, hjm, hb, hc, he,
    hs, hv, decList]
  generalize dflt IncludeContext.dec .none (.obj p) "includeContext" 3 = x
  generalize optOf (decInt 0 (2 ^ 32)) (AMap.get p "maxTokens") = y
  cases decAll Message.dec l <;> cases x <;> cases y <;> simp

/-- What a client understands of a server's requests. (Specification: no counterpart in the code.) -/
def ServerUnderstood (f : List (String × Json)) : Prop :=
  IdFits f ∧ (AMap.get f "method" = some (.str "ping") → AMap.get f "params" = none) ∧
  (AMap.get f "method" = some (.str "roots/list") → AMap.get f "params" = none) ∧
  AMap.get f "method" ≠ some (.str "elicitation/create") ∧
  (AMap.get f "method" = some (.str "sampling/createMessage") →
    ∀ p, AMap.get f "params" = some (.obj p) → SamplingRead p)

/-- The message of a well-formed request, by what the two tables read. -/
theorem parse_either (f : List (String × Json)) (m : String) (hv : AMap.get f "jsonrpc" = some (.str "2.0"))
    (i : Json) (hi : AMap.get f "id" = some i) (hr : requestId i = true) (hm : AMap.get f "method" = some (.str m)) :
    (parseMessage (.obj f)).isSome ↔ IdFits f ∧
      (((AMap.get ClientRequest.table m).bind (fun x => x.read (some ((AMap.get f "params").getD .null)))).isSome ∨
      ((AMap.get ServerRequest.table m).bind (fun x => x.read (some ((AMap.get f "params").getD .null)))).isSome) := by
  have hid := id_dec_iff i hr
  have hfit : IdFits f ↔ (Id.dec i).isSome := by rw [hid, IdFits, hi]; simp
  rw [hfit]
  cases hd : Id.dec i with
  | none => rw [parse_bad_id f m i hi hd hm]; simp
  | some id =>
    rw [parse_request f "2.0" m id i hv hi hd hm]
    generalize (AMap.get ServerRequest.table m).bind (fun x => x.read (some ((AMap.get f "params").getD .null))) = b
    cases (AMap.get ClientRequest.table m).bind (fun x => x.read (some ((AMap.get f "params").getD .null))) <;> simp

/-- **C190** (exact form). A request of the schema from a server is understood exactly if its numeric id fits 64 bits,
`ping` and `roots/list` come without `params`, a sampling request has no audio, asks for no context and has a limit
that fits 32 bits, and it is no elicitation. Missing from the property: the rest, in particular every elicitation. -/
theorem C190_requests_partial (f : List (String × Json)) (h : request serverRequests (.obj f) = true) :
    (parseMessage (.obj f)).isSome ↔ ServerUnderstood f := by
  obtain ⟨hv, ⟨i, hi, hr⟩, m, pr, hm, hp, hc⟩ := valid_request _ f h
  have hmem : (m, pr) ∈ serverRequests := AMap.mem_of_get hp
  rw [parse_either f m hv i hi hr hm]
  unfold ServerUnderstood
  simp only [hm, Option.some.injEq, Json.str.injEq, Ne]
  refine and_congr Iff.rfl ?_
  simp only [serverRequests, List.mem_cons, List.not_mem_nil, or_false, Prod.mk.injEq] at hmem
  rcases hmem with ⟨rfl, rfl⟩ | ⟨rfl, rfl⟩ | ⟨rfl, rfl⟩ | ⟨rfl, rfl⟩
  · simp only [optional_iff] at hc
    rcases hc with hg | ⟨g, hg, -, -⟩ <;>
      simp [hg, ClientRequest.table, ServerRequest.table, AMap.get_cons, Variant.read]
  · obtain ⟨g, hg, -, hl⟩ := (needed_iff _ _).mp hc
    have hs := sampling_dec g hl
    clear hl hc h hp hm
    have e1 : (AMap.get ClientRequest.table "sampling/createMessage").bind (fun x => x.read (some (.obj g))) =
      (CreateMessage.dec (.obj g)).map .createMessage := rfl
    have e2 : (AMap.get ServerRequest.table "sampling/createMessage").bind (fun x => x.read (some (.obj g))) =
      (CreateMessage.dec (.obj g)).map .createMessage := rfl
    simp only [hg, Option.getD_some, e1, e2, Option.isSome_map, or_self, hs]
    constructor
    · intro h
      refine ⟨fun e => absurd e (by decide), fun e => absurd e (by decide), by decide, ?_⟩
      intro _ p hp
      cases hp
      exact h
    · intro h
      exact h.2.2.2 trivial g rfl
  · simp only [optional_iff] at hc
    rcases hc with hg | ⟨g, hg, -, -⟩ <;>
      simp [hg, ClientRequest.table, ServerRequest.table, AMap.get_cons, Variant.read]
  · simp [ClientRequest.table, ServerRequest.table, AMap.get_cons, AMap.get]

/-- **C190** fails for every elicitation: a client cannot be asked. -/
theorem C190_elicitation (f : List (String × Json)) (h : request serverRequests (.obj f) = true)
    (hm : AMap.get f "method" = some (.str "elicitation/create")) : parseMessage (.obj f) = none := by
  cases hp : parseMessage (.obj f) with
  | none => rfl
  | some m =>
    exfalso
    have hs := (C190_requests_partial f h).mp (by rw [hp]; rfl)
    exact hs.2.2.2.1 hm

example : request serverRequests (.obj [("jsonrpc", .str "2.0"), ("id", .num (.int 1)), ("method", .str "elicitation/create"),
    ("params", .obj [("message", .str "Name?"), ("requestedSchema", .obj [("type", .str "object"),
      ("properties", .obj [("name", .obj [("type", .str "string")])])])])]) = true := by decide

example : request serverRequests (.obj [("jsonrpc", .str "2.0"), ("id", .num (.int 1)), ("method", .str "sampling/createMessage"),
    ("params", .obj [("messages", .arr [.obj [("role", .str "user"), ("content", .obj [("type", .str "text"), ("text", .str "hi")])]]),
      ("maxTokens", .num (.int 100))])]) = true := by decide

/-! ### C191: notifications -/

/-- An identifier in the parameters fits into 64 bits. (Specification: no counterpart in the code.) -/
def ParamFits (f : List (String × Json)) (k : String) : Prop :=
  ∀ p n, AMap.get f "params" = some (.obj p) → AMap.get p k = some (.num (.int n)) → -2 ^ 63 ≤ n ∧ n < 2 ^ 63

/-- The notifications without content. (Specification: no counterpart in the code.) -/
def bareMethods : List String :=
  ["notifications/initialized", "notifications/roots/list_changed", "notifications/tools/list_changed",
   "notifications/prompts/list_changed", "notifications/resources/list_changed"]

/-- What is understood of a notification. (Specification: no counterpart in the code.) -/
def NotifUnderstood (f : List (String × Json)) : Prop :=
  (AMap.get f "method" = some (.str "notifications/cancelled") → ParamFits f "requestId") ∧
  (AMap.get f "method" = some (.str "notifications/progress") → ParamFits f "progressToken") ∧
  (∀ m ∈ bareMethods, AMap.get f "method" = some (.str m) → AMap.get f "params" = none) ∧
  (AMap.get f "method" = some (.str "notifications/message") → ∀ p, AMap.get f "params" = some (.obj p) →
    (∃ s, AMap.get p "message" = some (.str s)) ∧
    ∀ s ∈ ["notice", "critical", "alert", "emergency"], AMap.get p "level" ≠ some (.str s))

theorem valid_notification (t : List (String × Params)) (f : List (String × Json)) (h : notification t (.obj f) = true) :
    AMap.get f "jsonrpc" = some (.str "2.0") ∧ AMap.get f "id" = none ∧
      ∃ m p, AMap.get f "method" = some (.str m) ∧ AMap.get t m = some p ∧ p.check f = true := by
  simp only [notification, object_obj, List.all_cons, List.all_nil, Bool.and_true, Bool.and_eq_true, must, any_iff,
    Option.isNone_iff_eq_none] at h
  obtain ⟨⟨v, hv, hv'⟩, hi, hc⟩ := h
  refine ⟨?_, hi, ?_⟩
  · rw [hv]; cases v <;> simp [oneOf] at hv'; rw [hv']
  · unfold called at hc
    split at hc
    · next m hm =>
      rw [any_iff] at hc
      obtain ⟨p, hp, hck⟩ := hc
      exact ⟨m, p, hm, hp, hck⟩
    · cases hc

theorem parse_notif (f : List (String × Json)) (v m : String) (hj : AMap.get f "jsonrpc" = some (.str v))
    (hi : AMap.get f "id" = none) (hm : AMap.get f "method" = some (.str m)) :
    parseMessage (.obj f) = (if m = "notifications/progress" then
        (Progress.dec ((AMap.get f "params").getD .null)).map Notification.progress
      else if m = "notifications/cancelled" then
        (Cancelled.dec ((AMap.get f "params").getD .null)).map Notification.cancelled
      else match (AMap.get ClientNotification.table m).bind (fun x => x.read (some ((AMap.get f "params").getD .null))) with
        | some c => some (.client c)
        | none => ((AMap.get ServerNotification.table m).bind
          (fun x => x.read (some ((AMap.get f "params").getD .null)))).map Notification.server).map TMsg.notification := by
  have hr : RpcNotification.dec (.obj f) =
      some ⟨v, m, match AMap.get f "params" with | none => none | some .null => none | some j => some j⟩ := by
    simp only [RpcNotification.dec, src_obj, Option.bind_eq_bind, Option.bind_some, req_obj, opt_obj, hj, hm, decStr_str]
    cases AMap.get f "params" with
    | none => rfl
    | some j => cases j <;> rfl
  have hp : (match AMap.get f "params" with | none => none | some .null => none | some j => some j : Option Json).getD .null =
      (AMap.get f "params").getD .null := by
    cases AMap.get f "params" with
    | none => rfl
    | some j => cases j <;> rfl
  have h1 : (vget (.obj f) "method").isSome = true := by simp [vget, hm]
  have h2 : (vget (.obj f) "id").isSome = false := by simp [vget, hi]
  unfold parseMessage
  rw [if_pos h1, h2]
  simp only [Bool.false_eq_true, if_false]
  congr 1
  unfold parseNotification
  rw [hr]
  simp only [Option.bind_eq_bind, Option.bind_some, hp]
  split
  · rfl
  split
  · rfl
  simp only [ClientNotification.dec, ServerNotification.dec, decAdj_tag]
  cases (AMap.get ClientNotification.table m).bind (fun x => x.read (some ((AMap.get f "params").getD .null))) <;> rfl

theorem progress_dec (f p : List (String × Json)) (hp : AMap.get f "params" = some (.obj p))
    (h : ∀ m ∈ [must "progressToken" requestId, must "progress" number, may "total" number, may "message" str], m p = true) :
    (Progress.dec (.obj p)).isSome ↔ ParamFits f "progressToken" := by
  simp only [List.mem_cons, List.not_mem_nil, or_false, forall_eq_or_imp, forall_eq, may_iff, must_iff] at h
  obtain ⟨⟨t, ht, ht'⟩, ⟨n, hn, hn'⟩, -, h4⟩ := h
  obtain ⟨a, ha⟩ := Option.isSome_iff_exists.mp (number_dec n hn')
  obtain ⟨b, hb⟩ := Option.isSome_iff_exists.mp (optOf_isSome decStr (AMap.get p "message") (fun j hj => str_dec j (h4 j hj)))
  have hfit := id_dec_iff t ht'
  have hpf : ParamFits f "progressToken" ↔ (Id.dec t).isSome := by
    rw [hfit]
    constructor
    · intro h n hn; exact h p n hp (by rw [ht, hn])
    · intro h q n hq hn
      cases hp.symm.trans hq
      exact h n (Option.some.inj (ht.symm.trans hn))
  rw [hpf]
  simp only [Progress.dec, src_obj, Option.bind_eq_bind, Option.bind_some, req_obj, opt_obj, ht, hn, ha, hb]
  cases Id.dec t <;> simp

theorem cancelled_dec (f p : List (String × Json)) (hp : AMap.get f "params" = some (.obj p))
    (h : ∀ m ∈ [must "requestId" requestId, may "reason" str], m p = true) :
    (Cancelled.dec (.obj p)).isSome ↔ ParamFits f "requestId" := by
  simp only [List.mem_cons, List.not_mem_nil, or_false, forall_eq_or_imp, forall_eq, may_iff, must_iff] at h
  obtain ⟨⟨t, ht, ht'⟩, h4⟩ := h
  obtain ⟨b, hb⟩ := Option.isSome_iff_exists.mp (optOf_isSome decStr (AMap.get p "reason") (fun j hj => str_dec j (h4 j hj)))
  have hfit := id_dec_iff t ht'
  have hpf : ParamFits f "requestId" ↔ (Id.dec t).isSome := by
    rw [hfit]
    constructor
    · intro h n hn; exact h p n hp (by rw [ht, hn])
    · intro h q n hq hn
      cases hp.symm.trans hq
      exact h n (Option.some.inj (ht.symm.trans hn))
  rw [hpf]
  simp only [Cancelled.dec, src_obj, Option.bind_eq_bind, Option.bind_some, req_obj, opt_obj, ht, hb]
  cases Id.dec t <;> simp

theorem log_dec (p : List (String × Json))
    (h : ∀ m ∈ [must "level" loggingLevel, may "logger" str, must "data" unknown], m p = true) :
    (LogMessage.dec (.obj p)).isSome ↔ (∃ s, AMap.get p "message" = some (.str s)) ∧
      ∀ s ∈ ["notice", "critical", "alert", "emergency"], AMap.get p "level" ≠ some (.str s) := by
  simp only [List.mem_cons, List.not_mem_nil, or_false, forall_eq_or_imp, forall_eq, may_iff, must_iff] at h
  obtain ⟨⟨l, hl, hl'⟩, h2, -⟩ := h
  obtain ⟨b, hb⟩ := Option.isSome_iff_exists.mp (optOf_isSome decStr (AMap.get p "logger") (fun j hj => str_dec j (h2 j hj)))
  obtain ⟨v, hv⟩ := Option.isSome_iff_exists.mp (optOf_isSome decVal (AMap.get p "data") (fun j _ => rfl))
  have hlv : (LogLevel.dec l).isSome ↔ ∀ s ∈ ["notice", "critical", "alert", "emergency"], AMap.get p "level" ≠ some (.str s) := by
    rw [hl]
    cases l <;> simp [loggingLevel, oneOf] at hl'
    rcases hl' with rfl | rfl | rfl | rfl | rfl | rfl | rfl | rfl <;>
      simp [LogLevel.dec, decEnum, LogLevel.ofName]
  have hms : ((AMap.get p "message").bind decStr).isSome ↔ ∃ s, AMap.get p "message" = some (.str s) := by
    cases AMap.get p "message" with
    | none => simp
    | some j => cases j <;> simp [decStr]
  rw [← hlv, ← hms]
  simp only [LogMessage.dec, src_obj, Option.bind_eq_bind, Option.bind_some, req_obj, opt_obj, hl, hb, hv]
  cases LogLevel.dec l <;> cases (AMap.get p "message").bind decStr <;> simp

/-- **C191** (exact form). A notification of the schema, of a client or a server, is understood exactly if the
identifiers of cancellations and progress fit 64 bits, a notification without content comes without `params`, and a
log message has the level `debug`, `info`, `warning` or `error` and, beyond the schema, a string `message`.
Missing from the property: the rest, in particular log messages as the schema has them. -/
theorem C191_notifications_partial (t : List (String × Params)) (ht : t = clientNotifications ∨ t = serverNotifications)
    (f : List (String × Json)) (h : notification t (.obj f) = true) :
    (parseMessage (.obj f)).isSome ↔ NotifUnderstood f := by
  obtain ⟨hv, hi, m, pr, hm, hp, hc⟩ := valid_notification _ f h
  have hmem : (m, pr) ∈ clientNotifications ++ serverNotifications := by
    have := AMap.mem_of_get hp
    rcases ht with rfl | rfl
    · exact List.mem_append_left _ this
    · exact List.mem_append_right _ this
  rw [parse_notif f "2.0" m hv hi hm, Option.isSome_map]
  unfold NotifUnderstood
  simp only [hm, Option.some.injEq, Json.str.injEq, bareMethods, List.mem_cons, List.not_mem_nil, or_false]
  simp only [clientNotifications, serverNotifications, List.cons_append, List.nil_append, List.mem_cons, List.not_mem_nil,
    or_false, Prod.mk.injEq] at hmem
  have hcan : m = "notifications/cancelled" → pr = cancelledParams →
      ((Cancelled.dec ((AMap.get f "params").getD .null)).isSome ↔ ParamFits f "requestId") := by
    rintro rfl rfl
    obtain ⟨g, hg, -, hl⟩ := (needed_iff _ _).mp hc
    rw [hg]
    exact cancelled_dec f g hg hl
  have hpro : m = "notifications/progress" → pr = progressParams →
      ((Progress.dec ((AMap.get f "params").getD .null)).isSome ↔ ParamFits f "progressToken") := by
    rintro rfl rfl
    obtain ⟨g, hg, -, hl⟩ := (needed_iff _ _).mp hc
    rw [hg]
    exact progress_dec f g hg hl
  have hbare : pr = .optional [] → AMap.get f "params" = none ∨ ∃ g, AMap.get f "params" = some (.obj g) := by
    rintro rfl
    rcases (optional_iff _ _).mp hc with hg | ⟨g, hg, -⟩
    · exact .inl hg
    · exact .inr ⟨g, hg⟩
  rcases hmem with ⟨rfl, hq⟩ | ⟨rfl, hq⟩ | ⟨rfl, hq⟩ | ⟨rfl, hq⟩ | ⟨rfl, hq⟩ | ⟨rfl, hq⟩ | ⟨rfl, hq⟩ | ⟨rfl, hq⟩ |
    ⟨rfl, hq⟩ | ⟨rfl, hq⟩ | ⟨rfl, hq⟩
  case inl => simp [Option.isSome_map, hcan rfl hq]
  case inr.inl => simp [Option.isSome_map, hpro rfl hq]
  case inr.inr.inr.inr.inl => simp [Option.isSome_map, hcan rfl hq]
  case inr.inr.inr.inr.inr.inl => simp [Option.isSome_map, hpro rfl hq]
  case inr.inr.inr.inr.inr.inr.inl =>
    subst hq
    obtain ⟨g, hg, -, hl⟩ := (needed_iff _ _).mp hc
    have hd := log_dec g hl
    have e1 : (AMap.get ClientNotification.table "notifications/message").bind (fun x => x.read (some (.obj g))) = none :=
      rfl
    have e2 : (AMap.get ServerNotification.table "notifications/message").bind (fun x => x.read (some (.obj g))) =
      (LogMessage.dec (.obj g)).map .log := rfl
    rw [if_neg (by decide), if_neg (by decide), hg]
    simp only [Option.getD_some, e1, e2, Option.isSome_map]
    rw [hd]
    constructor
    · intro h
      refine ⟨fun e => absurd e (by decide), fun e => absurd e (by decide), ?_, ?_⟩
      · rintro m (rfl | rfl | rfl | rfl | rfl) e <;> exact absurd e (by decide)
      · intro _ p hp
        cases hp
        simpa only [List.mem_cons, List.not_mem_nil, or_false] using h
    · intro h
      simpa only [List.mem_cons, List.not_mem_nil, or_false] using h.2.2.2 trivial g rfl
  case inr.inr.inr.inr.inr.inr.inr.inl =>
    subst hq
    obtain ⟨g, hg, -, hl⟩ := (needed_iff _ _).mp hc
    simp only [List.mem_cons, List.not_mem_nil, or_false, forall_eq] at hl
    obtain ⟨s, hs⟩ := str_get g _ hl
    simp [hg, ClientNotification.table, ServerNotification.table, AMap.get_cons, AMap.get, Variant.read, UriParams.dec, hs]
  all_goals
    rcases hbare hq with hg | ⟨g, hg⟩ <;>
      simp [hg, ClientNotification.table, ServerNotification.table, AMap.get_cons, AMap.get, Variant.read]

example : notification serverNotifications (.obj [("jsonrpc", .str "2.0"), ("method", .str "notifications/progress"),
    ("params", .obj [("progressToken", .num (.int 3)), ("progress", .num (.int 1)), ("total", .num (.int 2))])]) = true := by
  decide

/-- **C191** fails for every log message that has only the members of the schema. -/
theorem C191_log (f p : List (String × Json)) (h : notification serverNotifications (.obj f) = true)
    (hm : AMap.get f "method" = some (.str "notifications/message")) (hp : AMap.get f "params" = some (.obj p))
    (hn : AMap.get p "message" = none) : parseMessage (.obj f) = none := by
  cases hq : parseMessage (.obj f) with
  | none => rfl
  | some m =>
    exfalso
    have hs := (C191_notifications_partial _ (.inr rfl) f h).mp (by rw [hq]; rfl)
    obtain ⟨s, hs⟩ := (hs.2.2.2 hm p hp).1
    rw [hn] at hs
    cases hs

example : notification serverNotifications (.obj [("jsonrpc", .str "2.0"), ("method", .str "notifications/message"),
    ("params", .obj [("level", .str "info"), ("data", .str "started")])]) = true := by decide

end Verif.Conform
