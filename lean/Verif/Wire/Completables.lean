import Verif.Wire.Results
import Verif.Common.ListExtra

/-
The JSON form of completable arguments and of suggestions: C215.

Models /repo/src/types/completable.rs L58-157 (types) and L396-464 (builder).
-/

namespace Verif.Wire

/-- `CompletableArgument`, /repo/src/types/completable.rs L58-75. -/
structure CompletableArg where
  name : String
  description : Option String := none
  required : Bool := false
  completion : Option CompletionConfig := none

/-- Derived `Serialize` of `CompletableArgument`, /repo/src/types/completable.rs L58-75. -/
def CompletableArg.enc (x : CompletableArg) : Json :=
  .obj (ob [("name", some (.str x.name)), ("description", x.description.map .str),
    ("required", some (.bool x.required)), ("completion", x.completion.map CompletionConfig.enc)])

/-- Derived `Deserialize` of `CompletableArgument`, /repo/src/types/completable.rs L58-75. -/
def CompletableArg.dec (j : Json) : Option CompletableArg := do
  let s ← src 4 j
  let a ← req decStr s "name" 0
  let b ← opt decStr s "description" 1
  let c ← dflt decBool false s "required" 2
  let d ← opt CompletionConfig.dec s "completion" 3
  some ⟨a, b, c, d⟩

/-- `CompletionRequest`, /repo/src/types/completable.rs L106-117. -/
structure SuggestRequest where
  argument : String
  partial_ : String
  context : List (String × String)
  deriving Repr, DecidableEq

/-- Derived `Serialize` of `CompletionRequest`, /repo/src/types/completable.rs L106-117. -/
def SuggestRequest.enc (x : SuggestRequest) : Json :=
  .obj (ob [("argument", some (.str x.argument)), ("partial", some (.str x.partial_)),
    ("context", some (encMap .str x.context))])

/-- Derived `Deserialize` of `CompletionRequest`, /repo/src/types/completable.rs L106-117. -/
def SuggestRequest.dec (j : Json) : Option SuggestRequest := do
  let s ← src 3 j
  let a ← req decStr s "argument" 0
  let b ← req decStr s "partial" 1
  let c ← req (decMap decStr) s "context" 2
  some ⟨a, b, c⟩

/-- `CompletionItem`, /repo/src/types/completable.rs L136-157. -/
structure Suggestion where
  value : String
  label : Option String := none
  description : Option String := none
  icon : Option String := none
  metadata : List (String × Json) := []

/-- The names of the fields, /repo/src/types/completable.rs L136-157. -/
def Suggestion.known : List String := ["value", "label", "description", "icon"]

/-- The fields that are not flattened, /repo/src/types/completable.rs L136-157. -/
def Suggestion.fields (x : Suggestion) : List (String × Option Json) :=
  [("value", some (.str x.value)), ("label", x.label.map .str), ("description", x.description.map .str),
    ("icon", x.icon.map .str)]

/-- Derived `Serialize` of `CompletionItem` (into a `Value`), /repo/src/types/completable.rs L136-157. -/
def Suggestion.enc (x : Suggestion) : Json := .obj (flatten (ob x.fields) x.metadata)

/-- Derived `Deserialize` of `CompletionItem`, from objects only because of the flattened map,
/repo/src/types/completable.rs L136-157. -/
def Suggestion.dec : Json → Option Suggestion
  | .obj f => do
    let a ← req decStr (.obj f) "value" 0
    let b ← opt decStr (.obj f) "label" 1
    let c ← opt decStr (.obj f) "description" 2
    let d ← opt decStr (.obj f) "icon" 3
    some ⟨a, b, c, d, rest Suggestion.known f⟩
  | _ => none

/-- `CompletionResponse`, /repo/src/types/completable.rs L120-133. -/
structure SuggestResponse where
  completions : List Suggestion
  hasMore : Bool := false
  continuationToken : Option String := none

/-- Derived `Serialize` of `CompletionResponse`, /repo/src/types/completable.rs L120-133. -/
def SuggestResponse.enc (x : SuggestResponse) : Json :=
  .obj (ob [("completions", some (encList Suggestion.enc x.completions)), ("hasMore", some (.bool x.hasMore)),
    ("continuationToken", x.continuationToken.map .str)])

/-- Derived `Deserialize` of `CompletionResponse`, /repo/src/types/completable.rs L120-133. -/
def SuggestResponse.dec (j : Json) : Option SuggestResponse := do
  let s ← src 3 j
  let a ← req (decList Suggestion.dec) s "completions" 0
  let b ← dflt decBool false s "hasMore" 1
  let c ← opt decStr s "continuationToken" 2
  some ⟨a, b, c⟩

/-- Calls of `CompletableBuilder`, /repo/src/types/completable.rs L416-448. -/
inductive CompletableCall where
  | description (d : String)
  | required
  | staticCompletions (values : List String)
  | fileCompletions
  deriving Repr, DecidableEq

/-- One call; the builder has the fields of the argument. /repo/src/types/completable.rs L416-448. -/
def CompletableArg.call (x : CompletableArg) : CompletableCall → CompletableArg
  | .description d => { x with description := some d }
  | .required => { x with required := true }
  | .staticCompletions v => { x with completion := some ⟨.static, [("values", encList .str v)]⟩ }
  | .fileCompletions => { x with completion := some ⟨.file, []⟩ }

/-- `completable(name)`, calls, `build`. /repo/src/types/completable.rs L406-414, L450-464. -/
def CompletableArg.built (name : String) (calls : List CompletableCall) : CompletableArg :=
  calls.foldl CompletableArg.call { name := name }

/-! ### C215 -/

theorem CompletionConfig.rt_iff (x : CompletionConfig) (hn : (x.config.map (·.1)).Nodup) :
    CompletionConfig.dec x.enc = some x ↔ ∀ k ∈ x.config.map (·.1), k ≠ "provider" := by
  have hk : ∀ k ∈ (ob [("provider", some x.provider.enc)]).map (·.1), k ∈ ["provider"] := by simp [ob]
  constructor
  · intro h k hm
    have hp : x.config = rest ["provider"] (flatten (ob [("provider", some x.provider.enc)]) x.config) := by
      simp only [CompletionConfig.enc, CompletionConfig.dec] at h
      generalize flatten (ob [("provider", some x.provider.enc)]) x.config = f at h
      cases h1 : req Provider.dec (.obj f) "provider" 0 with
      | none => rw [h1] at h; cases h
      | some a =>
        rw [h1] at h
        exact (congrArg CompletionConfig.config (Option.some.inj h)).symm
    rw [hp] at hm
    obtain ⟨p, hp, rfl⟩ := List.mem_map.mp hm
    have := (List.mem_filter.mp hp).2
    simpa using this
  · intro h
    have h4 : ∀ k ∈ x.config.map (·.1), k ∉ ["provider"] := fun k hk => by simpa using h k hk
    have hf : flatten (ob [("provider", some x.provider.enc)]) x.config =
        ob [("provider", some x.provider.enc)] ++ x.config :=
      flatten_eq _ _ hn (fun k hm hc => h4 k hm (hk k hc))
    have hr := rest_eq ["provider"] _ _ hk h4
    simp only [CompletionConfig.enc, hf, CompletionConfig.dec, req_obj, hr]
    rw [get_append_left _ _ "provider" (fun hc => h4 _ hc (by simp))]
    simp

/-- C215, exactly: a completable argument survives its JSON form if and only if no entry of the configuration of its
completion is called `provider`. (`hn`: the configuration is a map.) -/
theorem C215_argument_partial (x : CompletableArg)
    (hn : ∀ c, x.completion = some c → (c.config.map (·.1)).Nodup) :
    CompletableArg.dec x.enc = some x ↔
      ∀ c, x.completion = some c → ∀ k ∈ c.config.map (·.1), k ≠ "provider" := by
  have ho : optOf CompletionConfig.dec (x.completion.map CompletionConfig.enc) = some x.completion ↔
      ∀ c, x.completion = some c → ∀ k ∈ c.config.map (·.1), k ≠ "provider" := by
    rw [optObj_iff _ _ _ (by simp [CompletionConfig.enc])]
    constructor
    · intro h c hc
      exact (c.rt_iff (hn c hc)).mp (h c hc)
    · intro h c hc
      exact (c.rt_iff (hn c hc)).mpr (h c hc)
  rw [← ho]
  obtain ⟨a, b, c, d⟩ := x
  simp only [CompletableArg.enc, CompletableArg.dec]
  cases h : optOf CompletionConfig.dec (d.map CompletionConfig.enc) <;> simp [h]

example := (C215_argument_partial
  { name := "status", required := true
    completion := some ⟨.custom "mine", [("values", .arr [.str "a"]), ("limit", .null)]⟩ }
  (by intro c hc; cases hc; decide)).mpr (by intro c hc; cases hc; decide)

theorem Suggestion.keys (x : Suggestion) : ∀ k ∈ (ob x.fields).map (·.1), k ∈ Suggestion.known := by
  intro k hk
  have := ob_keys _ k hk
  simpa [fields, known] using this

/-- C215, exactly: a suggestion survives its JSON form if and only if none of its additional data is called like one of its
fields. (`hn`: the additional data are a map.) -/
theorem C215_item_partial (x : Suggestion) (hn : (x.metadata.map (·.1)).Nodup) :
    Suggestion.dec x.enc = some x ↔
      ∀ k ∈ x.metadata.map (·.1), k ≠ "value" ∧ k ≠ "label" ∧ k ≠ "description" ∧ k ≠ "icon" := by
  have hin : ∀ k : String, k ∉ Suggestion.known ↔
      (k ≠ "value" ∧ k ≠ "label" ∧ k ≠ "description" ∧ k ≠ "icon") := by
    intro k; simp [Suggestion.known]
  constructor
  · intro h k hk
    have hp : x.metadata = rest Suggestion.known (flatten (ob x.fields) x.metadata) := by
      simp only [Suggestion.enc, Suggestion.dec] at h
      generalize flatten (ob x.fields) x.metadata = f at h
      cases h1 : req decStr (.obj f) "value" 0 with
      | none => rw [h1] at h; cases h
      | some a =>
        cases h2 : opt decStr (.obj f) "label" 1 with
        | none => rw [h1, h2] at h; cases h
        | some b =>
          cases h3 : opt decStr (.obj f) "description" 2 with
          | none => rw [h1, h2, h3] at h; cases h
          | some c =>
            cases h4 : opt decStr (.obj f) "icon" 3 with
            | none => rw [h1, h2, h3, h4] at h; cases h
            | some d =>
              rw [h1, h2, h3, h4] at h
              exact (congrArg Suggestion.metadata (Option.some.inj h)).symm
    rw [hp] at hk
    obtain ⟨p, hp, rfl⟩ := List.mem_map.mp hk
    have := (List.mem_filter.mp hp).2
    exact (hin _).mp (by simpa using this)
  · intro h
    have h4 : ∀ k ∈ x.metadata.map (·.1), k ∉ Suggestion.known := fun k hk => (hin k).mpr (h k hk)
    have hf : flatten (ob x.fields) x.metadata = ob x.fields ++ x.metadata :=
      flatten_eq _ _ hn (fun k hk hc => h4 k hk (x.keys k hc))
    have hr : rest Suggestion.known (ob x.fields ++ x.metadata) = x.metadata := rest_eq _ _ _ x.keys h4
    have hget : ∀ k ∈ Suggestion.known, AMap.get (ob x.fields ++ x.metadata) k = AMap.get (ob x.fields) k :=
      fun k hk => get_append_left _ _ k (fun hc => h4 k hc hk)
    simp only [Suggestion.enc, hf, Suggestion.dec, req_obj, opt_obj, hr]
    rw [hget "value" (by simp [Suggestion.known]), hget "label" (by simp [Suggestion.known]),
      hget "description" (by simp [Suggestion.known]), hget "icon" (by simp [Suggestion.known])]
    simp [Suggestion.fields]

example := (C215_item_partial { value := "rust", label := some "Rust", metadata := [("rank", .null), ("x", .arr [])] }
  (by decide)).mpr (by decide)

theorem decAll_iff {α : Type} (d : Json → Option α) (e : α → Json) (l : List α) :
    decAll d (l.map e) = some l ↔ ∀ a ∈ l, d (e a) = some a := by
  induction l with
  | nil => simp [decAll]
  | cons a l ih =>
    simp only [List.map_cons, decAll, List.mem_cons, forall_eq_or_imp, ← ih]
    cases h : d (e a) with
    | none => simp
    | some b =>
      cases h2 : decAll d (l.map e) with
      | none => simp
      | some m => simp

/-- C215, exactly: suggestions survive their JSON form, in order and with the flag and the token for more, if and only if
each of them does. -/
theorem C215_response_partial (x : SuggestResponse)
    (hn : ∀ i ∈ x.completions, (i.metadata.map (·.1)).Nodup) :
    SuggestResponse.dec x.enc = some x ↔ ∀ i ∈ x.completions, ∀ k ∈ i.metadata.map (·.1),
      k ≠ "value" ∧ k ≠ "label" ∧ k ≠ "description" ∧ k ≠ "icon" := by
  have ho : decList Suggestion.dec (encList Suggestion.enc x.completions) = some x.completions ↔
      ∀ i ∈ x.completions, ∀ k ∈ i.metadata.map (·.1),
        k ≠ "value" ∧ k ≠ "label" ∧ k ≠ "description" ∧ k ≠ "icon" := by
    simp only [decList, encList, decAll_iff]
    constructor
    · intro h i hi
      exact (C215_item_partial i (hn i hi)).mp (h i hi)
    · intro h i hi
      exact (C215_item_partial i (hn i hi)).mpr (h i hi)
  rw [← ho]
  obtain ⟨a, b, c⟩ := x
  simp only [SuggestResponse.enc, SuggestResponse.dec]
  cases h : decList Suggestion.dec (encList Suggestion.enc a) <;> simp [h]

example := (C215_response_partial
  { completions := [{ value := "a" }, { value := "b", metadata := [("rank", .null)] }], hasMore := true
    continuationToken := some "t" }
  (by intro i hi; simp at hi; rcases hi with rfl | rfl <;> decide)).mpr
  (by intro i hi; simp at hi; rcases hi with rfl | rfl <;> decide)

/-- C215: a request for suggestions survives its JSON form, whatever it says. -/
theorem C215_request (x : SuggestRequest) : SuggestRequest.dec x.enc = some x := by
  simp [SuggestRequest.enc, SuggestRequest.dec]

/-- C215 fails: data called `value` replaces the value to be inserted. -/
theorem C215_metadata_wins (x : Suggestion) (v : String) (hp : x.metadata = [("value", .str v)]) :
    ∃ y, Suggestion.dec x.enc = some y ∧ y.value = v ∧ y.label = x.label ∧ y.metadata = [] := by
  obtain ⟨a, b, c, d, m⟩ := x
  simp only at hp
  subst hp
  refine ⟨⟨v, b, c, d, []⟩, ?_, rfl, rfl, rfl⟩
  cases b <;> cases c <;> cases d <;>
    simp [Suggestion.enc, Suggestion.dec, Suggestion.fields, flatten, insertEntry, ob, rest, Suggestion.known,
      AMap.get_cons, AMap.get, req, opt, optOf, decOpt, decStr]

example : ({ value := "shown", metadata := [("value", .str "inserted")] } : Suggestion).metadata =
    [("value", .str "inserted")] := rfl

/-- C215: what the builder makes survives its JSON form, after any calls. -/
theorem C215_built (name : String) (calls : List CompletableCall) :
    CompletableArg.dec (CompletableArg.built name calls).enc = some (CompletableArg.built name calls) := by
  have h : ∀ (calls : List CompletableCall) (x : CompletableArg),
      (∀ c, x.completion = some c → (c.config.map (·.1)).Nodup ∧ ∀ k ∈ c.config.map (·.1), k ≠ "provider") →
      ∀ c, (calls.foldl CompletableArg.call x).completion = some c →
        (c.config.map (·.1)).Nodup ∧ ∀ k ∈ c.config.map (·.1), k ≠ "provider" := by
    intro calls
    induction calls with
    | nil => exact fun x hx => hx
    | cons op calls ih =>
      intro x hx
      refine ih (x.call op) ?_
      cases op with
      | description d => exact hx
      | required => exact hx
      | staticCompletions v => intro c hc; cases hc; simp
      | fileCompletions => intro c hc; cases hc; simp
  have h1 := h calls { name := name } (by simp)
  exact (C215_argument_partial _ (fun c hc => (h1 c hc).1)).mpr (fun c hc => (h1 c hc).2)

/-- What the last call that sets something sets, of several. (Specification: no counterpart in the code.) -/
def lastSome {α β : Type} (f : α → Option β) (l : List α) : Option β := (l.filterMap f).getLast?

/-- C215: the built argument is what the builder was told: its name, the last description, required if it was ever
said, and the completion said last, with the values given then. -/
theorem C215_builder (name : String) (calls : List CompletableCall) :
    CompletableArg.built name calls =
      { name := name
        description := lastSome (fun c => match c with | .description d => some d | _ => none) calls
        required := decide (CompletableCall.required ∈ calls)
        completion := lastSome (fun c => match c with
          | .staticCompletions v => some ⟨.static, [("values", .arr (v.map .str))]⟩
          | .fileCompletions => some ⟨.file, []⟩
          | _ => none) calls } := by
  induction calls using snocInduction with
  | nil => rfl
  | append_singleton l op ih =>
    have e : CompletableArg.built name (l ++ [op]) = (CompletableArg.built name l).call op := by
      simp [CompletableArg.built, List.foldl_append]
    rw [e, ih]
    cases op <;> simp [CompletableArg.call, lastSome, encList]

example : (CompletableArg.built "status" [.staticCompletions ["a"], .required, .description "d",
    .staticCompletions ["x", "y"]]).completion = some ⟨.static, [("values", .arr [.str "x", .str "y"])]⟩ := rfl

/-- C215: an absent `required` or `hasMore` is false, and the other absent members are absent. -/
theorem C215_defaults (f : List (String × Json)) :
    (∀ x, CompletableArg.dec (.obj f) = some x → AMap.get f "required" = none → x.required = false) ∧
    (∀ n, AMap.get f "name" = some (.str n) → AMap.get f "description" = none → AMap.get f "required" = none →
      AMap.get f "completion" = none → CompletableArg.dec (.obj f) = some ⟨n, none, false, none⟩) ∧
    (∀ x, SuggestResponse.dec (.obj f) = some x → AMap.get f "hasMore" = none → x.hasMore = false) ∧
    (AMap.get f "completions" = some (.arr []) → AMap.get f "hasMore" = none → AMap.get f "continuationToken" = none →
      SuggestResponse.dec (.obj f) = some ⟨[], false, none⟩) := by
  refine ⟨?_, ?_, ?_, ?_⟩
  · intro x h hr
    simp only [CompletableArg.dec, src_obj, dflt, hr, Option.bind_eq_bind, Option.bind_some,
      Option.bind_eq_some_iff, Option.some.injEq] at h
    obtain ⟨a, _, b, _, d, _, rfl⟩ := h
    rfl
  · intro n h1 h2 h3 h4
    simp [CompletableArg.dec, dflt, opt, optOf, h1, h2, h3, h4, decStr]
  · intro x h hr
    simp only [SuggestResponse.dec, src_obj, dflt, hr, Option.bind_eq_bind, Option.bind_some,
      Option.bind_eq_some_iff, Option.some.injEq] at h
    obtain ⟨a, _, b, _, rfl⟩ := h
    rfl
  · intro h1 h2 h3
    simp [SuggestResponse.dec, dflt, opt, optOf, h1, h2, h3, decList, decAll]

example : CompletableArg.dec (.obj [("name", .str "n")]) = some ⟨"n", none, false, none⟩ :=
  (C215_defaults _).2.1 "n" rfl rfl rfl rfl

/-- C215: the three structs are also read from arrays, by position and with every position filled; an array is read as
the object with these members, and arrays of any other length are refused. -/
theorem C215_arrays (a b c d : Json) (l : List Json) :
    CompletableArg.dec (.arr [a, b, c, d]) =
      CompletableArg.dec (.obj [("name", a), ("description", b), ("required", c), ("completion", d)]) ∧
    (l.length ≠ 4 → CompletableArg.dec (.arr l) = none) ∧
    SuggestRequest.dec (.arr [a, b, c]) = SuggestRequest.dec (.obj [("argument", a), ("partial", b), ("context", c)]) ∧
    (l.length ≠ 3 → SuggestRequest.dec (.arr l) = none) ∧
    SuggestResponse.dec (.arr [a, b, c]) =
      SuggestResponse.dec (.obj [("completions", a), ("hasMore", b), ("continuationToken", c)]) ∧
    (l.length ≠ 3 → SuggestResponse.dec (.arr l) = none) := by
  have short : ∀ {α β : Type} (p : Option α), (p.bind (fun _ => (none : Option β))) = none := by
    intro α β p; cases p <;> rfl
  have gone : ∀ k, l.length ≤ k → l[k]? = none := fun k h => List.getElem?_eq_none h
  refine ⟨rfl, ?_, rfl, ?_, rfl, ?_⟩
  · intro h
    by_cases h4 : l.length ≤ 4
    · have := gone 3 (by omega)
      simp [CompletableArg.dec, src, h4, opt, this]
    · simp [CompletableArg.dec, src, h4]
  · intro h
    by_cases h4 : l.length ≤ 3
    · have := gone 2 (by omega)
      simp [SuggestRequest.dec, src, h4, req, this]
    · simp [SuggestRequest.dec, src, h4]
  · intro h
    by_cases h4 : l.length ≤ 3
    · have := gone 2 (by omega)
      simp [SuggestResponse.dec, src, h4, opt, this]
    · simp [SuggestResponse.dec, src, h4]

example : CompletableArg.dec (.arr [.str "n", .null, .bool true, .null]) = some ⟨"n", none, true, none⟩ ∧
    SuggestRequest.dec (.arr [.str "a", .str "b", .obj []]) = some ⟨"a", "b", []⟩ ∧
    SuggestRequest.dec (.arr [.str "a", .str "b"]) = none := by
  refine ⟨rfl, rfl, rfl⟩

end Verif.Wire
