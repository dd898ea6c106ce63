import Verif.Conform.InResults

/-
`initialize` and its result, exactly (C189, C193): what the members the crate adds to the capabilities of the schema may
hold.
-/

namespace Verif.Conform

open Verif.Wire

/-! ### Specification -/

/-- True or false. (Specification: no counterpart in the code.) -/
def IsFlag (j : Json) : Prop := ∃ b, j = .bool b

/-- A list of strings. (Specification: no counterpart in the code.) -/
def IsNames (j : Json) : Prop := ∃ l, j = .arr l ∧ ∀ x ∈ l, ∃ s, x = .str s

/-- An object whose members of these names are null or as stated, or an array with one such value for each name.
(Specification: no counterpart in the code.) -/
def Holds (names : List String) (ok : Json → Prop) (v : Json) : Prop :=
  (∃ g, v = .obj g ∧ ∀ k ∈ names, ∀ x, AMap.get g k = some x → x = .null ∨ ok x) ∨
  ∃ l, v = .arr l ∧ l.length = names.length ∧ ∀ x ∈ l, x = .null ∨ ok x

/-- The member is absent, null, or as stated. (Specification: no counterpart in the code.) -/
def Lacks (c : List (String × Json)) (k : String) (ok : Json → Prop) : Prop :=
  ∀ v, AMap.get c k = some v → v = .null ∨ ok v

/-- The capabilities use the names that the crate knows beside those of the schema as the crate does.
(Specification: no counterpart in the code.) -/
def UsableCaps (c : List (String × Json)) : Prop :=
  Lacks c "tools" (Holds ["listChanged"] IsFlag) ∧ Lacks c "prompts" (Holds ["listChanged"] IsFlag) ∧
  Lacks c "resources" (Holds ["subscribe", "listChanged"] IsFlag) ∧ Lacks c "logging" (Holds ["levels"] IsNames) ∧
  Lacks c "sampling" (Holds ["models"] IsNames)

/-! ### Lemmas -/

theorem decOpt_iff {α : Type} (d : Json → Option α) (ok : Json → Prop) (hn : d .null = none)
    (h : ∀ j, (d j).isSome ↔ ok j) (j : Json) : (decOpt d j).isSome ↔ j = .null ∨ ok j := by
  cases j with
  | null => simp [decOpt]
  | _ => simp [decOpt, h]

theorem optOf_iff {α : Type} (d : Json → Option α) (ok : Json → Prop) (hn : d .null = none)
    (h : ∀ j, (d j).isSome ↔ ok j) (x : Option Json) : (optOf d x).isSome ↔ ∀ j, x = some j → j = .null ∨ ok j := by
  cases x with
  | none => simp [optOf]
  | some j => simp [optOf, decOpt_iff d ok hn h]

theorem decBool_iff (j : Json) : (decBool j).isSome ↔ IsFlag j := by cases j <;> simp [decBool, IsFlag]

theorem decAll_str (l : List Json) : (decAll decStr l).isSome ↔ ∀ x ∈ l, ∃ s, x = .str s := by
  induction l with
  | nil => simp [decAll]
  | cons a l ih => cases a <;> simp [decAll, decStr, ih]

theorem names_iff (j : Json) : (decList decStr j).isSome ↔ IsNames j := by
  cases j <;> simp [decList, IsNames, decAll_str]

theorem one_iff {α β : Type} (d : Json → Option α) (k : String) (ok : Json → Prop) (mk : Option α → β)
    (hn : d .null = none) (h : ∀ j, (d j).isSome ↔ ok j) (v : Json) :
    ((src 1 v).bind (fun s => (opt d s k 0).bind (fun a => some (mk a)))).isSome ↔ Holds [k] ok v := by
  cases v with
  | obj g =>
    have := optOf_iff d ok hn h (AMap.get g k)
    cases ho : optOf d (AMap.get g k) <;> rw [ho] at this <;> simpa [Holds, ho] using this
  | arr l =>
    match l with
    | [] => simp [src, opt, Holds]
    | [x] =>
      have := decOpt_iff d ok hn h x
      cases ho : decOpt d x <;> rw [ho] at this <;> simpa [src, opt, Holds, ho] using this
    | x :: y :: l => simp [src, Holds]
  | _ => simp [src, Holds]

theorem listCap_iff (v : Json) : (ListCap.dec v).isSome ↔ Holds ["listChanged"] IsFlag v :=
  one_iff decBool "listChanged" IsFlag (fun a => (⟨a⟩ : ListCap)) rfl decBool_iff v

theorem namesCap_iff (field : String) (v : Json) : (NamesCap.dec field v).isSome ↔ Holds [field] IsNames v :=
  one_iff (decList decStr) field IsNames (fun a => (⟨a⟩ : NamesCap)) rfl names_iff v

theorem resourceCap_iff (v : Json) : (ResourceCap.dec v).isSome ↔ Holds ["subscribe", "listChanged"] IsFlag v := by
  cases v with
  | obj g =>
    have h1 := optOf_iff decBool IsFlag rfl decBool_iff (AMap.get g "subscribe")
    have h2 := optOf_iff decBool IsFlag rfl decBool_iff (AMap.get g "listChanged")
    have hh : Holds ["subscribe", "listChanged"] IsFlag (.obj g) ↔
        (∀ j, AMap.get g "subscribe" = some j → j = .null ∨ IsFlag j) ∧
        (∀ j, AMap.get g "listChanged" = some j → j = .null ∨ IsFlag j) := by simp [Holds]
    rw [hh, ← h1, ← h2]
    cases ha : optOf decBool (AMap.get g "subscribe") <;> cases hb : optOf decBool (AMap.get g "listChanged") <;>
      simp [ResourceCap.dec, ha, hb]
  | arr l =>
    match l with
    | [] => simp [ResourceCap.dec, src, opt, Holds]
    | [x] => simp [ResourceCap.dec, src, opt, Holds]
    | [x, y] =>
      have h1 := decOpt_iff decBool IsFlag rfl decBool_iff x
      have h2 := decOpt_iff decBool IsFlag rfl decBool_iff y
      have hh : Holds ["subscribe", "listChanged"] IsFlag (.arr [x, y]) ↔
          (x = .null ∨ IsFlag x) ∧ (y = .null ∨ IsFlag y) := by simp [Holds]
      rw [hh, ← h1, ← h2]
      cases ha : decOpt decBool x <;> cases hb : decOpt decBool y <;> simp [ResourceCap.dec, src, opt, ha, hb]
    | x :: y :: z :: l => simp [ResourceCap.dec, src, Holds]
  | _ => simp [ResourceCap.dec, src, Holds]

theorem clientCaps_iff (c : List (String × Json)) (h : clientCapabilities (.obj c) = true) :
    (ClientCaps.dec (.obj c)).isSome ↔ UsableCaps c := by
  obtain ⟨g, hg, hl⟩ := (object_iff _ _).mp h
  cases hg
  simp only [List.mem_cons, List.not_mem_nil, or_false, forall_eq_or_imp, forall_eq, may] at hl
  obtain ⟨he, hr, -, -⟩ := hl
  obtain ⟨x, hx⟩ := Option.isSome_iff_exists.mp (experimental_dec _ he)
  have hroots : (optOf RootsCap.dec (AMap.get c "roots")).isSome := by
    cases hc : AMap.get c "roots" with
    | none => rfl
    | some j =>
      rw [hc] at hr
      have hd := roots_dec j hr
      obtain ⟨g, rfl, _⟩ := (object_iff _ _).mp hr
      simpa [optOf, decOpt] using hd
  obtain ⟨y, hy⟩ := Option.isSome_iff_exists.mp hroots
  have h1 := optOf_iff ListCap.dec _ rfl listCap_iff (AMap.get c "tools")
  have h2 := optOf_iff ListCap.dec _ rfl listCap_iff (AMap.get c "prompts")
  have h3 := optOf_iff ResourceCap.dec _ rfl resourceCap_iff (AMap.get c "resources")
  have h4 := optOf_iff (NamesCap.dec "levels") _ rfl (namesCap_iff _) (AMap.get c "logging")
  have h5 := optOf_iff (NamesCap.dec "models") _ rfl (namesCap_iff _) (AMap.get c "sampling")
  unfold UsableCaps Lacks
  rw [← h1, ← h2, ← h3, ← h4, ← h5]
  cases ha : optOf ListCap.dec (AMap.get c "tools") <;> cases hb : optOf ListCap.dec (AMap.get c "prompts") <;>
    cases hd : optOf ResourceCap.dec (AMap.get c "resources") <;>
    cases hf : optOf (NamesCap.dec "levels") (AMap.get c "logging") <;>
    cases hk : optOf (NamesCap.dec "models") (AMap.get c "sampling") <;>
    simp [ClientCaps.dec, ha, hb, hd, hf, hk, hx, hy]

/-! ### C189 -/

/-- **C189**, `initialize` (exact form). An `initialize` of the schema is understood exactly if its numeric id fits 64 bits
and its capabilities use the names `tools`, `prompts`, `resources`, `logging` and `models`, which the schema leaves free, as
the crate does. Missing from the property: the other uses. -/
theorem C189_initialize_iff (f p c : List (String × Json)) (h : request clientRequests (.obj f) = true)
    (hm : AMap.get f "method" = some (.str "initialize")) (hp : AMap.get f "params" = some (.obj p))
    (hc : AMap.get p "capabilities" = some (.obj c)) :
    (parseMessage (.obj f)).isSome ↔ IdFits f ∧ UsableCaps c := by
  obtain ⟨hv, ⟨i, hi, hr⟩, m, pr, hm', hpr, hck⟩ := valid_request _ f h
  cases hm.symm.trans hm'
  have hfit := id_dec_iff i hr
  have hpe : pr = .needed [must "protocolVersion" str, must "capabilities" clientCapabilities,
      must "clientInfo" implementation] := by
    rw [show AMap.get clientRequests "initialize" = some (.needed [must "protocolVersion" str,
      must "capabilities" clientCapabilities, must "clientInfo" implementation]) from rfl] at hpr
    exact (Option.some.inj hpr).symm
  subst hpe
  obtain ⟨g, hg, -, hl⟩ := (needed_iff _ _).mp hck
  cases hp.symm.trans hg
  simp only [List.mem_cons, List.not_mem_nil, or_false, forall_eq_or_imp, forall_eq] at hl
  obtain ⟨h1, h2, h3⟩ := hl
  obtain ⟨ver, hver⟩ := str_get p _ h1
  simp only [must, any_iff] at h2 h3
  obtain ⟨c', hc', h2⟩ := h2
  cases hc.symm.trans hc'
  have hcaps := clientCaps_iff c h2
  obtain ⟨n', hn', h3⟩ := h3
  obtain ⟨n, rfl, hn⟩ := (object_iff _ _).mp h3
  simp only [List.mem_cons, List.not_mem_nil, or_false, forall_eq_or_imp, forall_eq] at hn
  obtain ⟨a, ha⟩ := str_get n _ hn.1
  obtain ⟨b, hb⟩ := str_get n _ hn.2.2
  have hi' : Impl.dec (.obj n) = some ⟨a, b⟩ := by simp [Impl.dec, ha, hb]
  have hid : IdFits f ↔ (Id.dec i).isSome := by
    rw [hfit, IdFits, hi]
    simp
  rw [hid, ← hcaps]
  cases hd : Id.dec i with
  | none =>
    have : parseMessage (.obj f) = none := by
      have h0 : RpcRequest.dec (.obj f) = none := by
        simp only [RpcRequest.dec, src_obj, Option.bind_eq_bind, Option.bind_some, req_obj, hi, hd, Option.bind_none]
        cases (AMap.get f "jsonrpc").bind decStr <;> simp
      simp [parseMessage, vget, hi, hm, h0]
    rw [this]
    simp
  | some id =>
    rw [parse_request f "2.0" "initialize" id i hv hi hd hm, hp]
    cases hk : ClientCaps.dec (.obj c) <;>
      simp [ClientRequest.table, ServerRequest.table, AMap.get_cons, Variant.read, InitParams.dec, hver, hc, hk, hn', hi']

example : request clientRequests (.obj [("jsonrpc", .str "2.0"), ("id", .num (.int 0)), ("method", .str "initialize"),
    ("params", .obj [("protocolVersion", .str "2025-06-18"), ("clientInfo", .obj [("name", .str "ts"), ("version", .str "1")]),
      ("capabilities", .obj [("tools", .obj [("listChanged", .bool true)]), ("sampling", .obj [])])])]) = true := by
  decide

example : UsableCaps [("tools", .obj [("listChanged", .bool true)]), ("sampling", .obj [("models", .arr [.str "m"])])] := by
  refine ⟨?_, ?_, ?_, ?_, ?_⟩ <;> intro v hv <;> simp [AMap.get_cons] at hv <;> subst hv <;>
    simp [Holds, IsFlag, IsNames, AMap.get_cons]

/-- **C189** fails for a client that uses the member `models` of its announcement of sampling for a name. -/
theorem C189_models (id v n w m : String) :
    request clientRequests (.obj [("jsonrpc", .str "2.0"), ("id", .str id), ("method", .str "initialize"),
      ("params", .obj [("protocolVersion", .str v), ("clientInfo", .obj [("name", .str n), ("version", .str w)]),
        ("capabilities", .obj [("sampling", .obj [("models", .str m)])])])]) = true ∧
    parseMessage (.obj [("jsonrpc", .str "2.0"), ("id", .str id), ("method", .str "initialize"),
      ("params", .obj [("protocolVersion", .str v), ("clientInfo", .obj [("name", .str n), ("version", .str w)]),
        ("capabilities", .obj [("sampling", .obj [("models", .str m)])])])]) = none := by
  have h : request clientRequests (.obj [("jsonrpc", .str "2.0"), ("id", .str id), ("method", .str "initialize"),
      ("params", .obj [("protocolVersion", .str v), ("clientInfo", .obj [("name", .str n), ("version", .str w)]),
        ("capabilities", .obj [("sampling", .obj [("models", .str m)])])])]) = true := rfl
  refine ⟨h, ?_⟩
  rw [← Option.not_isSome_iff_eq_none, C189_initialize_iff _ _ _ h rfl rfl rfl]
  intro hh
  have := hh.2.2.2.2.2 _ rfl
  simp [Holds, IsNames, AMap.get_cons] at this

/-! ### C193 -/

/-- The server's capabilities use the names that the crate knows beside those of the schema as the crate does.
(Specification: no counterpart in the code.) -/
def UsableServerCaps (c : List (String × Json)) : Prop :=
  Lacks c "logging" (Holds ["levels"] IsNames) ∧ Lacks c "sampling" (Holds ["models"] IsNames)

theorem serverCaps_iff (c : List (String × Json)) (h : serverCapabilities (.obj c) = true) :
    (ServerCaps.dec (.obj c)).isSome ↔ UsableServerCaps c := by
  simp only [serverCapabilities, object_obj, List.all_cons, List.all_nil, Bool.and_true, Bool.and_eq_true] at h
  obtain ⟨h1, h2, h3, h4, h5, h6⟩ := h
  rw [may_iff] at h2 h3 h4 h5 h6
  obtain ⟨g, hg⟩ := Option.isSome_iff_exists.mp (experimental_dec (AMap.get c "experimental") h1)
  obtain ⟨a, ha⟩ := Option.isSome_iff_exists.mp
    (optOf_isSome ListCap.dec (AMap.get c "tools") (fun j hj => listCap_dec j (h6 j hj)))
  obtain ⟨b, hb⟩ := Option.isSome_iff_exists.mp
    (optOf_isSome ListCap.dec (AMap.get c "prompts") (fun j hj => listCap_dec j (h4 j hj)))
  obtain ⟨d, hd⟩ := Option.isSome_iff_exists.mp (optOf_isSome ResourceCap.dec (AMap.get c "resources")
    (fun j hj => resourceCap_dec j (h5 j hj)))
  obtain ⟨f, hf⟩ := Option.isSome_iff_exists.mp (optOf_isSome decUnitStruct (AMap.get c "completions") (fun j hj => by
    obtain ⟨s, rfl⟩ := (anyObject_iff j).mp (h3 j hj)
    rfl))
  have k1 := optOf_iff (NamesCap.dec "levels") _ rfl (namesCap_iff _) (AMap.get c "logging")
  have k2 := optOf_iff (NamesCap.dec "models") _ rfl (namesCap_iff _) (AMap.get c "sampling")
  unfold UsableServerCaps Lacks
  rw [← k1, ← k2]
  cases he : optOf (NamesCap.dec "levels") (AMap.get c "logging") <;>
    cases hk : optOf (NamesCap.dec "models") (AMap.get c "sampling") <;>
    simp [ServerCaps.dec, ha, hb, hd, he, hf, hg, hk]

/-- **C193**, the result of `initialize` (exact form): read exactly if `levels` in the member `logging`, and `models` in the
member `sampling`, are lists of strings or null or absent. Missing from the property: results that use those names, which
the schema leaves free, for something else. -/
theorem C193_initialize_iff (j : Json) (c : List (String × Json)) (h : initializeResult j = true)
    (hc : member j "capabilities" = some (.obj c)) : (InitResult.dec j).isSome ↔ UsableServerCaps c := by
  simp only [initializeResult, object_iff, List.mem_cons, List.not_mem_nil, or_false, forall_eq_or_imp, forall_eq] at h
  obtain ⟨g, rfl, h1, h2, h3, h4⟩ := h
  obtain ⟨v, hv⟩ := str_get g _ h1
  rw [must_iff] at h2 h3
  rw [may_iff] at h4
  obtain ⟨cj, hc', hcs⟩ := h2
  cases (show AMap.get g "capabilities" = some (.obj c) from hc).symm.trans hc'
  obtain ⟨ij, hi, his⟩ := h3
  obtain ⟨n, rfl, hn⟩ := (object_iff _ _).mp his
  simp only [List.mem_cons, List.not_mem_nil, or_false, forall_eq_or_imp, forall_eq] at hn
  obtain ⟨a, ha⟩ := str_get n _ hn.1
  obtain ⟨b, hb⟩ := str_get n _ hn.2.2
  obtain ⟨o, ho⟩ := Option.isSome_iff_exists.mp
    (optOf_isSome decStr (AMap.get g "instructions") (fun j hj => str_dec j (h4 j hj)))
  have hi' : Impl.dec (.obj n) = some ⟨a, b⟩ := by simp [Impl.dec, ha, hb]
  rw [← serverCaps_iff c hcs]
  cases hk : ServerCaps.dec (.obj c) <;> simp [InitResult.dec, hv, hc', hk, hi, hi', ho]

example : initializeResult (.obj [("protocolVersion", .str "2025-06-18"),
    ("serverInfo", .obj [("name", .str "s"), ("version", .str "1")]),
    ("capabilities", .obj [("logging", .obj [("levels", .arr [.str "info"])]), ("tools", .obj [])])]) = true := by decide

example : UsableServerCaps [("logging", .obj [("levels", .arr [.str "info"])]), ("tools", .obj [])] := by
  refine ⟨?_, ?_⟩ <;> intro v hv <;> simp [AMap.get_cons] at hv <;> subst hv <;>
    simp [Holds, IsNames, AMap.get_cons]

/-- One of the crate's names of a source of completions: a name alone, a name with null, or `custom` with a string.
(Specification: no counterpart in the code.) -/
def IsProvider (v : Json) : Prop :=
  (∃ k ∈ ["static", "resource", "tool", "file"], v = .str k ∨ v = .obj [(k, .null)]) ∨
  ∃ s, v = .obj [("custom", .str s)]

/-- How the values of an argument are completed, as the crate writes it: an object with a source as `provider`.
(Specification: no counterpart in the code.) -/
def Completes (v : Json) : Prop := ∃ g x, v = .obj g ∧ AMap.get g "provider" = some x ∧ IsProvider x

theorem unitOf_iff (s : String) : (Provider.unitOf s).isSome ↔ s ∈ ["static", "resource", "tool", "file"] := by
  unfold Provider.unitOf
  split
  · simp [*]
  · split
    · simp [*]
    · split
      · simp [*]
      · split <;> simp [*]

theorem provider_iff (v : Json) : (Provider.dec v).isSome ↔ IsProvider v := by
  unfold Provider.dec
  split
  · rw [unitOf_iff]
    simp [IsProvider]
  · rw [unitOf_iff]
    simp [IsProvider]
  · rename_i k n
    by_cases hk : k = "custom" <;> simp [IsProvider, hk]
  · rename_i h1 h2 h3
    simp only [Option.isSome_none, Bool.false_eq_true, false_iff]
    rintro (⟨k, -, rfl | rfl⟩ | ⟨n, rfl⟩)
    · exact h1 _ rfl
    · exact h2 _ rfl
    · exact h3 _ _ rfl

theorem completion_iff (v : Json) : (CompletionConfig.dec v).isSome ↔ Completes v := by
  cases v with
  | obj g =>
    cases hg : AMap.get g "provider" with
    | none => simp [CompletionConfig.dec, Completes, hg]
    | some x =>
      have := provider_iff x
      cases hx : Provider.dec x <;> rw [hx] at this <;> simpa [CompletionConfig.dec, Completes, hg, hx] using this
  | _ => simp [CompletionConfig.dec, Completes]

theorem promptArg_iff (j : Json) (h : promptArgument j = true) :
    (PromptArg.dec j).isSome ↔ ∀ v, member j "completion" = some v → v = .null ∨ Completes v := by
  simp only [promptArgument, object_iff, List.mem_cons, List.not_mem_nil, or_false, forall_eq_or_imp, forall_eq, may_iff] at h
  obtain ⟨g, rfl, h1, -, h3, h4⟩ := h
  obtain ⟨s, hs⟩ := str_get g _ h1
  obtain ⟨o, ho⟩ := Option.isSome_iff_exists.mp
    (optOf_isSome decStr (AMap.get g "description") (fun j hj => str_dec j (h3 j hj)))
  have hb : (dflt decBool false (.obj g) "required" 2).isSome := by
    rw [dflt_obj]
    cases hg : AMap.get g "required" with
    | none => rfl
    | some j =>
      have := h4 j hg
      cases j <;> simp [bool] at this
      rfl
  obtain ⟨b, hb⟩ := Option.isSome_iff_exists.mp hb
  have hm : member (.obj g) "completion" = AMap.get g "completion" := rfl
  rw [hm, ← optOf_iff CompletionConfig.dec Completes rfl completion_iff]
  simp only [PromptArg.dec, src_obj, Option.bind_eq_bind, Option.bind_some, req_obj, opt_obj, hs, ho, hb, decStr_str]
  cases optOf CompletionConfig.dec (AMap.get g "completion") <;> simp

theorem prompt_iff (j : Json) (h : prompt j = true) : (PromptInfo.dec j).isSome ↔
    ∀ a ∈ items j "arguments", ∀ v, member a "completion" = some v → v = .null ∨ Completes v := by
  simp only [prompt, object_iff, List.mem_cons, List.not_mem_nil, or_false, forall_eq_or_imp, forall_eq, may_iff] at h
  obtain ⟨g, rfl, h1, -, h3, h4⟩ := h
  obtain ⟨s, hs⟩ := str_get g _ h1
  obtain ⟨o, ho⟩ := Option.isSome_iff_exists.mp
    (optOf_isSome decStr (AMap.get g "description") (fun j hj => str_dec j (h3 j hj)))
  have ha : (optOf (decList PromptArg.dec) (AMap.get g "arguments")).isSome ↔
      ∀ a ∈ items (.obj g) "arguments", ∀ v, member a "completion" = some v → v = .null ∨ Completes v := by
    cases hg : AMap.get g "arguments" with
    | none => simp [items, hg]
    | some x =>
      obtain ⟨l, rfl, hl⟩ := (array_iff _ _).mp (h4 x hg)
      have h5 : (decAll PromptArg.dec l).isSome ↔
          ∀ a ∈ l, ∀ v, member a "completion" = some v → v = .null ∨ Completes v := by
        rw [decAll_isSome]
        exact ⟨fun h a ha => (promptArg_iff a (hl a ha)).mp (h a ha), fun h a ha => (promptArg_iff a (hl a ha)).mpr (h a ha)⟩
      have h6 : items (.obj g) "arguments" = l := by simp [items, hg]
      rw [h6, ← h5]
      cases hd : decAll PromptArg.dec l <;> simp [optOf, decOpt, decList, hd]
  rw [← ha]
  cases hd : optOf (decList PromptArg.dec) (AMap.get g "arguments") <;> simp [PromptInfo.dec, hs, ho, hd]

/-- **C193**, prompts (exact form): a list of prompts is read exactly if every member `completion` of an argument is null or
has the form the crate gives it. Missing from the property: lists that use that name, which the schema leaves free, for
something else. -/
theorem C193_prompts_iff (j : Json) (h : page "prompts" prompt j = true) :
    (Page.dec "prompts" PromptInfo.dec j).isSome ↔
      ∀ p ∈ items j "prompts", ∀ a ∈ items p "arguments", ∀ v, member a "completion" = some v → v = .null ∨ Completes v := by
  simp only [page, object_iff, List.mem_cons, List.not_mem_nil, or_false, forall_eq_or_imp, forall_eq, must_iff, may_iff] at h
  obtain ⟨g, rfl, ⟨a, ha, hla⟩, hcur⟩ := h
  obtain ⟨l, rfl, hl⟩ := (array_iff _ _).mp hla
  obtain ⟨o, ho⟩ := Option.isSome_iff_exists.mp
    (optOf_isSome decStr (AMap.get g "nextCursor") (fun j hj => str_dec j (hcur j hj)))
  have h6 : items (.obj g) "prompts" = l := by simp [items, ha]
  have h5 : (decAll PromptInfo.dec l).isSome ↔ ∀ p ∈ l, ∀ a ∈ items p "arguments",
      ∀ v, member a "completion" = some v → v = .null ∨ Completes v := by
    rw [decAll_isSome]
    exact ⟨fun h a ha => (prompt_iff a (hl a ha)).mp (h a ha), fun h a ha => (prompt_iff a (hl a ha)).mpr (h a ha)⟩
  rw [h6, ← h5]
  cases hd : decAll PromptInfo.dec l <;> simp [Page.dec, ha, ho, decList, hd]

example : page "prompts" prompt (.obj [("prompts", .arr [.obj [("name", .str "p"),
    ("arguments", .arr [.obj [("name", .str "x"), ("completion", .obj [("provider", .str "file")])]])]])]) = true := by
  decide

example : Completes (.obj [("provider", .str "file"), ("root", .str "/")]) :=
  ⟨_, .str "file", rfl, rfl, .inl ⟨"file", by simp, .inl rfl⟩⟩

/-- **C193** fails for a server whose prompts say of an argument that it has completions by `"completion": true`: the whole
list is refused. -/
theorem C193_completion (n a : String) :
    page "prompts" prompt (.obj [("prompts", .arr [.obj [("name", .str n),
      ("arguments", .arr [.obj [("name", .str a), ("completion", .bool true)]])]])]) = true ∧
    Page.dec "prompts" PromptInfo.dec (.obj [("prompts", .arr [.obj [("name", .str n),
      ("arguments", .arr [.obj [("name", .str a), ("completion", .bool true)]])]])]) = none := by
  have h : page "prompts" prompt (.obj [("prompts", .arr [.obj [("name", .str n),
      ("arguments", .arr [.obj [("name", .str a), ("completion", .bool true)]])]])]) = true := by
    simp [page, prompt, promptArgument, object_obj, must, may, AMap.get_cons, AMap.get, array, str]
  refine ⟨h, ?_⟩
  rw [← Option.not_isSome_iff_eq_none, C193_prompts_iff _ h]
  intro hh
  have := hh (.obj [("name", .str n), ("arguments", .arr [.obj [("name", .str a), ("completion", .bool true)]])])
      (by simp [items, AMap.get_cons]) (.obj [("name", .str a), ("completion", .bool true)]) (by simp [items, AMap.get_cons])
      (.bool true) rfl
  simp [Completes] at this

end Verif.Conform
