import Verif.Wire.Http
import Verif.Common.ListExtra

/-
Objects that name a member more than once (C253).

The text of a message is an object whose members are given as a list, in the order of the text. The values of
the members are taken as read; members repeated inside them are not modelled.
-/

namespace Verif.Wire

/-! ### Reading into a `Value` -/

/-- Inserting into the map of a `Value` (`preserve_order`: an insertion-ordered map): the value of an equal name is
replaced in its place, a new name goes to the end. (serde_json with the features of /repo/Cargo.toml L19.) -/
def put : List (String × Json) → String → Json → List (String × Json)
  | [], k, v => [(k, v)]
  | (a, b) :: f, k, v => if a = k then (a, v) :: f else (a, b) :: put f k v

/-- Parsing the text of an object to a `Value` inserts the members one after the other.
(serde_json, called by /repo/src/shared/stdio.rs L219-220, shared/websocket.rs L155-160.) -/
def collect (f : List (String × Json)) : List (String × Json) := f.foldl (fun m p => put m p.1 p.2) []

/-- `StdioTransport::parse_message` on the text of an object, also what a WebSocket makes of it
(shared/stdio.rs L218-264, shared/websocket.rs L154-160). -/
def readValue (f : List (String × Json)) : Option TMsg := parseMessage (.obj (collect f))

/-! ### Reading into a struct -/

/-- The names are given at most once: a derived struct refuses a field that comes twice, and an adjacently tagged
enum its tag or its content. Other members may be repeated.
(serde, derives of /repo/src/shared/transport.rs L64-78, types/jsonrpc.rs L203-213, types/protocol.rs L500-510,
L683-684, L701-709, L715-716.) -/
def once (ks : List String) (f : List (String × Json)) : Bool :=
  ks.all (fun k => decide ((f.filter (fun p => p.1 == k)).length ≤ 1))

/-- Derived `Deserialize` of `Notification` from the buffered members (types/protocol.rs L776-788). -/
def Notification.decText (f : List (String × Json)) : Option Notification :=
  (if once ["method", "params"] f then (ClientNotification.dec (.obj f)).map .client else none).or
  ((if once ["method", "params"] f then (ServerNotification.dec (.obj f)).map .server else none).or
  ((if once ["progressToken", "progress", "message"] f then (Progress.dec (.obj f)).map .progress else none).or
  (if once ["requestId", "reason"] f then (Cancelled.dec (.obj f)).map .cancelled else none)))

/-- Derived `Deserialize` of `TransportMessage` from text: the members are buffered with their repetitions, then
the variants are tried in order; the flattened payload of a response takes the first member named like one of its
variants (shared/transport.rs L64-78, types/jsonrpc.rs L203-223; called by
server/streamable_http_server.rs L557, shared/streamable_http.rs L252, L385, L415). -/
def TMsg.decText (f : List (String × Json)) : Option TMsg :=
  (if once ["id", "request"] f then decReqVariant (.obj f) else none).or
  ((if once ["jsonrpc", "id"] f then (RpcResponse.dec (.obj f)).map .response else none).or
  ((Notification.decText f).map .notification))

/-! ### Specification -/

/-- The value the text gives last under a name. (Specification: no counterpart in the code.) -/
def lastOf (f : List (String × Json)) (k : String) : Option Json := AMap.get f.reverse k

/-- Each name once. (Specification: no counterpart in the code.) -/
def Distinct (f : List (String × Json)) : Prop := (f.map Prod.fst).Nodup

/-- The payload that a value given under `result` or `error` stands for.
(Specification: no counterpart in the code.) -/
def payloadOf (k : String) (v : Json) : Option Payload :=
  if k = "result" then some (.result v) else if k = "error" then (RpcError.dec v).map .error else none

/-! ### Lemmas -/

theorem get_put (f : List (String × Json)) (k : String) (v : Json) (k' : String) :
    AMap.get (put f k v) k' = if k = k' then some v else AMap.get f k' := by
  induction f with
  | nil => simp [put, AMap.get_cons]
  | cons e f ih =>
    obtain ⟨a, b⟩ := e
    simp only [put]
    split
    · next h => subst h; simp only [AMap.get_cons]; split <;> rfl
    · next h =>
      simp only [AMap.get_cons, ih]
      by_cases h1 : a = k'
      · have : ¬ k = k' := fun e => h (h1.trans e.symm)
        simp [h1, this]
      · simp [h1]

theorem keys_put (f : List (String × Json)) (k : String) (v : Json) :
    (put f k v).map Prod.fst = if k ∈ f.map Prod.fst then f.map Prod.fst else f.map Prod.fst ++ [k] := by
  induction f with
  | nil => simp [put]
  | cons e f ih =>
    obtain ⟨a, b⟩ := e
    simp only [put]
    by_cases h : a = k
    · subst h; simp
    · rw [if_neg h]
      simp only [List.map_cons, ih, List.mem_cons]
      by_cases h1 : k ∈ f.map Prod.fst
      · simp [h1]
      · simp [h1, Ne.symm h]

theorem put_new (f : List (String × Json)) (k : String) (v : Json) (h : k ∉ f.map Prod.fst) :
    put f k v = f ++ [(k, v)] := by
  induction f with
  | nil => rfl
  | cons e f ih =>
    obtain ⟨a, b⟩ := e
    simp only [List.map_cons, List.mem_cons, not_or] at h
    simp [put, Ne.symm h.1, ih h.2]

theorem collect_snoc (f : List (String × Json)) (k : String) (v : Json) :
    collect (f ++ [(k, v)]) = put (collect f) k v := by
  simp [collect, List.foldl_append]

theorem get_collect (f : List (String × Json)) (k : String) : AMap.get (collect f) k = lastOf f k := by
  induction f using snocInduction with
  | nil => rfl
  | append_singleton f e ih =>
    obtain ⟨a, v⟩ := e
    rw [collect_snoc, get_put, ih]
    simp [lastOf, AMap.get_cons]

theorem mem_keys_collect (f : List (String × Json)) (k : String) :
    k ∈ (collect f).map Prod.fst ↔ k ∈ f.map Prod.fst := by
  induction f using snocInduction with
  | nil => simp [collect]
  | append_singleton f e ih =>
    obtain ⟨a, v⟩ := e
    rw [collect_snoc, keys_put]
    split
    · next h =>
      rw [ih]
      simp only [List.map_append, List.map_cons, List.map_nil, List.mem_append, List.mem_singleton]
      constructor
      · exact Or.inl
      · rintro (h' | rfl)
        · exact h'
        · exact ih.mp h
    · simp [ih]

theorem distinct_collect (f : List (String × Json)) : Distinct (collect f) := by
  unfold Distinct
  induction f using snocInduction with
  | nil => simp [collect]
  | append_singleton f e ih =>
    obtain ⟨a, v⟩ := e
    rw [collect_snoc, keys_put]
    split
    · exact ih
    · next h =>
      rw [List.nodup_append]
      refine ⟨ih, by simp, ?_⟩
      intro x hx y hy
      simp only [List.mem_singleton] at hy
      subst hy
      intro e; subst e; exact h hx

theorem collect_distinct (f : List (String × Json)) (h : Distinct f) : collect f = f := by
  induction f using snocInduction with
  | nil => rfl
  | append_singleton f e ih =>
    obtain ⟨a, v⟩ := e
    simp only [Distinct, List.map_append, List.map_cons, List.map_nil, List.nodup_append] at h
    have hf : collect f = f := ih h.1
    rw [collect_snoc, hf, put_new]
    intro hm
    exact h.2.2 a hm a (by simp) rfl

theorem count_le_one (f : List (String × Json)) (h : Distinct f) (k : String) :
    (f.filter (fun p => p.1 == k)).length ≤ 1 := by
  induction f with
  | nil => simp
  | cons e f ih =>
    obtain ⟨a, v⟩ := e
    simp only [Distinct, List.map_cons, List.nodup_cons] at h
    have hi := ih h.2
    by_cases hk : a = k
    · subst hk
      have : f.filter (fun p => p.1 == a) = [] := by
        rw [List.filter_eq_nil_iff]
        intro p hp he
        simp only [beq_iff_eq] at he
        exact h.1 (he ▸ List.mem_map_of_mem hp)
      simp [List.filter_cons, this]
    · simp [List.filter_cons, hk]; exact hi

theorem once_distinct (ks : List String) (f : List (String × Json)) (h : Distinct f) : once ks f = true := by
  simp only [once, List.all_eq_true, decide_eq_true_eq]
  intro k _
  exact count_le_one f h k

theorem once_mem {ks : List String} {f : List (String × Json)} (h : once ks f = true) {k : String} (hk : k ∈ ks) :
    (f.filter (fun p => p.1 == k)).length ≤ 1 := by
  simp only [once, List.all_eq_true, decide_eq_true_eq] at h
  exact h k hk

theorem get_none_iff (f : List (String × Json)) (k : String) :
    AMap.get f k = none ↔ f.filter (fun p => p.1 == k) = [] := by
  induction f with
  | nil => simp
  | cons e f ih =>
    obtain ⟨a, v⟩ := e
    by_cases h : a = k <;> simp [AMap.get_cons, List.filter_cons, h, ih]

theorem get_append (f g : List (String × Json)) (k : String) :
    AMap.get (f ++ g) k = (AMap.get f k).or (AMap.get g k) := by
  induction f with
  | nil => simp
  | cons e f ih =>
    obtain ⟨a, v⟩ := e
    simp only [List.cons_append, AMap.get_cons, ih]
    split <;> simp

theorem lastOf_cons (a : String) (v : Json) (f : List (String × Json)) (k : String) :
    lastOf ((a, v) :: f) k = (lastOf f k).or (if a = k then some v else none) := by
  simp [lastOf, get_append, AMap.get_cons]

theorem lastOf_none_iff (f : List (String × Json)) (k : String) : lastOf f k = none ↔ AMap.get f k = none := by
  rw [lastOf, get_none_iff, get_none_iff, List.filter_reverse]
  simp

theorem lastOf_once (f : List (String × Json)) (k : String) (h : (f.filter (fun p => p.1 == k)).length ≤ 1) :
    lastOf f k = AMap.get f k := by
  induction f with
  | nil => rfl
  | cons e f ih =>
    obtain ⟨a, v⟩ := e
    rw [lastOf_cons, AMap.get_cons]
    by_cases hk : a = k
    · simp only [List.filter_cons, hk, beq_self_eq_true, if_true, List.length_cons] at h
      have h0 : f.filter (fun p => p.1 == k) = [] := List.length_eq_zero_iff.mp (by omega)
      have := (lastOf_none_iff f k).mpr ((get_none_iff f k).mpr h0)
      simp [hk, this]
    · simp only [List.filter_cons, hk, beq_iff_eq, if_false] at h
      simp [hk, ih h]

/-- Members named like a payload. (Specification: no counterpart in the code.) -/
def isPayload (p : String × Json) : Bool := p.1 == "result" || p.1 == "error"

theorem payload_find (f : List (String × Json)) :
    Payload.dec f = (f.find? isPayload).bind (fun p => payloadOf p.1 p.2) := by
  induction f with
  | nil => rfl
  | cons e f ih =>
    obtain ⟨a, v⟩ := e
    simp only [Payload.dec, List.find?_cons, isPayload]
    by_cases h1 : a = "result"
    · simp [h1, payloadOf]
    · by_cases h2 : a = "error"
      · simp [h2, payloadOf]
      · simp only [h1, h2, beq_iff_eq, if_false, Bool.or_self, beq_eq_false_iff_ne.mpr h1,
          beq_eq_false_iff_ne.mpr h2]
        exact ih

theorem find_put (f : List (String × Json)) (k : String) (v : Json) :
    (put f k v).find? isPayload = match f.find? isPayload with
      | none => if isPayload (k, v) then some (k, v) else none
      | some p => if p.1 = k then some (k, v) else some p := by
  induction f with
  | nil => simp only [put, List.find?_cons, List.find?_nil]; split <;> simp_all
  | cons e f ih =>
    obtain ⟨a, b⟩ := e
    have hp : ∀ x y : Json, isPayload (a, x) = isPayload (a, y) := fun _ _ => rfl
    simp only [put]
    by_cases h : a = k
    · subst h
      rw [if_pos rfl, List.find?_cons, List.find?_cons, hp v b]
      cases hb : isPayload (a, b) with
      | true => simp
      | false =>
        simp only [hp v b, hb]
        cases hf : f.find? isPayload with
        | none => simp
        | some p =>
          have := List.find?_some hf
          have hne : p.1 ≠ a := by
            intro e
            have : isPayload (a, b) = true := by rw [← this, ← e]; rfl
            rw [hb] at this; cases this
          simp [hne]
    · rw [if_neg h, List.find?_cons, List.find?_cons]
      cases hb : isPayload (a, b) with
      | true => simp [h]
      | false => simpa using ih

theorem find_collect (f : List (String × Json)) :
    (collect f).find? isPayload = (f.find? isPayload).bind (fun p => (lastOf f p.1).map (fun v => (p.1, v))) := by
  induction f using snocInduction with
  | nil => rfl
  | append_singleton f e ih =>
    obtain ⟨a, v⟩ := e
    have hl : ∀ k, lastOf (f ++ [(a, v)]) k = if a = k then some v else lastOf f k := by
      intro k; simp [lastOf, AMap.get_cons]
    rw [collect_snoc, find_put, ih, List.find?_append]
    cases hf : f.find? isPayload with
    | none =>
      simp only [Option.bind_none, Option.none_or, List.find?_cons, List.find?_nil]
      cases isPayload (a, v) <;> simp [hl]
    | some p =>
      have hm := List.mem_of_find?_eq_some hf
      have : lastOf f p.1 ≠ none := by
        rw [Ne, lastOf_none_iff, get_none_iff, List.filter_eq_nil_iff]
        intro h; exact h p hm (by simp)
      obtain ⟨w, hw⟩ := Option.ne_none_iff_exists'.mp this
      simp only [Option.bind_some, hw, Option.map_some, Option.some_or, hl]
      by_cases h : p.1 = a
      · simp [h]
      · have h' : ¬ a = p.1 := fun e => h e.symm
        simp [h, h', hw]

theorem get_of_find (f : List (String × Json)) (k : String) (v : Json) (h : f.find? isPayload = some (k, v)) :
    AMap.get f k = some v := by
  induction f with
  | nil => cases h
  | cons e f ih =>
    obtain ⟨a, b⟩ := e
    rw [List.find?_cons] at h
    cases hb : isPayload (a, b) with
    | true => rw [hb] at h; cases h; simp [AMap.get_cons]
    | false =>
      rw [hb] at h
      have hne : a ≠ k := by
        intro e; subst e
        have h1 : isPayload (a, v) = true := List.find?_some h
        have h2 : isPayload (a, v) = isPayload (a, b) := rfl
        rw [h2, hb] at h1; cases h1
      rw [AMap.get_cons, if_neg hne]
      exact ih h

/-! ### C253 -/

/-- **C253**, the message itself. If no member is repeated, both ways of reading are the ones of C06, C97 and C98.
-/
theorem C253_distinct (f : List (String × Json)) (h : Distinct f) :
    readValue f = parseMessage (.obj f) ∧ TMsg.decText f = TMsg.dec (.obj f) := by
  refine ⟨by rw [readValue, collect_distinct f h], ?_⟩
  simp [TMsg.decText, Notification.decText, once_distinct _ f h, TMsg.dec, Notification.dec]

example : Distinct [("jsonrpc", .str "2.0"), ("id", .num (.int 7)), ("result", .null)] := by
  unfold Distinct; decide +kernel

theorem keys_collect (f g : List (String × Json)) (h : f.map Prod.fst = g.map Prod.fst) :
    (collect f).map Prod.fst = (collect g).map Prod.fst := by
  induction f using snocInduction generalizing g with
  | nil => cases g with
    | nil => rfl
    | cons e g => simp at h
  | append_singleton f e ih =>
    obtain ⟨a, v⟩ := e
    rcases List.eq_nil_or_concat g with rfl | ⟨g, ⟨b, w⟩, rfl⟩
    · simp at h
    · simp only [List.concat_eq_append, List.map_append, List.map_cons, List.map_nil] at h
      have h1 := List.append_inj' h rfl
      have h2 : a = b := by simpa using h1.2
      subst h2
      rw [List.concat_eq_append, collect_snoc, collect_snoc, keys_put, keys_put, ih g h1.1]

theorem ext_distinct (f g : List (String × Json)) (hf : Distinct f) (hk : f.map Prod.fst = g.map Prod.fst)
    (hg : ∀ k, AMap.get f k = AMap.get g k) : f = g := by
  induction f generalizing g with
  | nil => cases g with
    | nil => rfl
    | cons e g => simp at hk
  | cons e f ih =>
    obtain ⟨a, v⟩ := e
    cases g with
    | nil => simp at hk
    | cons e' g =>
      obtain ⟨b, w⟩ := e'
      simp only [List.map_cons, List.cons.injEq] at hk
      obtain ⟨rfl, hk⟩ := hk
      simp only [Distinct, List.map_cons, List.nodup_cons] at hf
      have h0 := hg a
      simp only [AMap.get_cons, if_true, Option.some.injEq] at h0
      subst h0
      rw [ih g hf.2 hk]
      intro k
      have h1 := hg k
      by_cases hak : a = k
      · subst hak
        have n1 : AMap.get f a = none := by
          rw [get_none_iff, List.filter_eq_nil_iff]
          intro p hp he
          exact hf.1 (beq_iff_eq.mp he ▸ List.mem_map_of_mem hp)
        have n2 : AMap.get g a = none := by
          rw [get_none_iff, List.filter_eq_nil_iff]
          intro p hp he
          exact hf.1 (hk ▸ (beq_iff_eq.mp he ▸ List.mem_map_of_mem hp))
        rw [n1, n2]
      · simpa [AMap.get_cons, hak] using h1

/-- **C253**, stdio and WebSocket. A value given under a name that comes again later makes no difference: the
message is the one the last value makes. -/
theorem C253_overridden (pre rest : List (String × Json)) (k : String) (v w : Json) (h : k ∈ rest.map Prod.fst) :
    readValue (pre ++ (k, v) :: rest) = readValue (pre ++ (k, w) :: rest) := by
  have : collect (pre ++ (k, v) :: rest) = collect (pre ++ (k, w) :: rest) := by
    apply ext_distinct _ _ (distinct_collect _)
    · apply keys_collect; simp
    · intro k'
      rw [get_collect, get_collect]
      simp only [lastOf, List.reverse_append, List.reverse_cons, List.append_assoc, get_append, List.cons_append,
        List.nil_append, AMap.get_cons]
      by_cases hk : k = k'
      · subst hk
        cases hg : AMap.get rest.reverse k with
        | some x => simp
        | none =>
          exfalso
          rw [get_none_iff, List.filter_eq_nil_iff] at hg
          obtain ⟨p, hp, he⟩ := List.mem_map.mp h
          exact hg p (by simpa using hp) (by simp [he])
      · simp [hk]
  rw [readValue, readValue, this]

example (x : Json) : readValue [("jsonrpc", .str "2.0"), ("id", .num (.int 7)), ("method", x),
    ("method", .str "ping")] = some (.request (.num ⟨7, by decide⟩) (.client .ping)) := by
  rw [show [("jsonrpc", .str "2.0"), ("id", .num (.int 7)), ("method", x), ("method", Json.str "ping")] =
    [("jsonrpc", .str "2.0"), ("id", Json.num (.int 7))] ++ ("method", x) :: [("method", .str "ping")] from rfl,
    C253_overridden _ _ _ x (.str "ping") (by simp)]
  rfl

theorem decText_cases (f : List (String × Json)) (m : TMsg) (h : TMsg.decText f = some m) :
    (once ["id", "request"] f = true ∧ decReqVariant (.obj f) = some m) ∨
    (once ["jsonrpc", "id"] f = true ∧ ∃ r, RpcResponse.dec (.obj f) = some r ∧ m = .response r) ∨
    ∃ n, Notification.decText f = some n ∧ m = .notification n := by
  rw [TMsg.decText] at h
  rcases Option.or_eq_some_iff.mp h with h | ⟨_, h⟩
  · split at h
    · next o => exact Or.inl ⟨o, h⟩
    · cases h
  · rcases Option.or_eq_some_iff.mp h with h | ⟨_, h⟩
    · split at h
      · next o =>
        obtain ⟨r, hr, e⟩ := Option.map_eq_some_iff.mp h
        exact Or.inr (Or.inl ⟨o, r, hr, e.symm⟩)
      · cases h
    · obtain ⟨n, hn, e⟩ := Option.map_eq_some_iff.mp h
      exact Or.inr (Or.inr ⟨n, hn, e.symm⟩)

/-- **C253**, streamable HTTP. A message giving `id` twice is neither a request nor a response, one giving `request`
twice is no request, one giving `jsonrpc` twice is no response, and one giving `method` or `params` twice is no
notification of the client or the server. -/
theorem C253_http_refuses (f : List (String × Json)) (m : TMsg) (h : TMsg.decText f = some m) (k : String)
    (hk : 2 ≤ (f.filter (fun p => p.1 == k)).length) :
    (k = "id" → ∃ n, m = .notification n) ∧
    (k = "request" → ∀ i r, m ≠ .request i r) ∧
    (k = "jsonrpc" → ∀ r, m ≠ .response r) ∧
    (k = "method" ∨ k = "params" →
      (∀ n, m ≠ .notification (.client n)) ∧ ∀ n, m ≠ .notification (.server n)) := by
  have hno : ∀ ks : List String, k ∈ ks → once ks f = false := by
    intro ks hks
    cases ho : once ks f with
    | false => rfl
    | true => have := once_mem ho hks; omega
  rcases decText_cases f m h with ⟨o, hr⟩ | ⟨o, r, hr, rfl⟩ | ⟨n, hn, rfl⟩
  · obtain ⟨i, q, rfl⟩ : ∃ i q, m = .request i q := by
      simp only [decReqVariant, Option.bind_eq_bind, Option.bind_eq_some_iff, Option.some.injEq] at hr
      obtain ⟨i, _, q, _, e⟩ := hr
      exact ⟨i, q, e.symm⟩
    refine ⟨fun e => ?_, fun e => ?_, fun _ r => (by simp), fun _ => ⟨fun n => (by simp), fun n => (by simp)⟩⟩
    · rw [hno _ (by simp [e])] at o; cases o
    · rw [hno _ (by simp [e])] at o; cases o
  · refine ⟨fun e => ?_, fun _ i q => (by simp), fun e => ?_, fun _ => ⟨fun n => (by simp), fun n => (by simp)⟩⟩
    · rw [hno _ (by simp [e])] at o; cases o
    · rw [hno _ (by simp [e])] at o; cases o
  · refine ⟨fun _ => ⟨n, rfl⟩, fun _ i q => (by simp), fun _ r => (by simp), fun e => ?_⟩
    have ho : once ["method", "params"] f = false := hno _ (by rcases e with e | e <;> simp [e])
    simp only [Notification.decText, ho, Bool.false_eq_true, if_false, Option.none_or] at hn
    rcases Option.or_eq_some_iff.mp hn with h1 | ⟨_, h1⟩ <;> split at h1
    · obtain ⟨q, _, rfl⟩ := Option.map_eq_some_iff.mp h1
      exact ⟨fun _ => (by simp), fun _ => (by simp)⟩
    · cases h1
    · obtain ⟨q, _, rfl⟩ := Option.map_eq_some_iff.mp h1
      exact ⟨fun _ => (by simp), fun _ => (by simp)⟩
    · cases h1

/-- A message that gives its `id` twice, and is still read: as a notification. -/
example : ∃ f m, TMsg.decText f = some m ∧ 2 ≤ (f.filter (fun p => p.1 == "id")).length :=
  ⟨[("id", .null), ("id", .null), ("requestId", .num (.int 7))], .notification (.cancelled ⟨.num ⟨7, by decide⟩, none⟩),
    rfl, by decide⟩

/-- **C253**, exactly, for responses. A response read by streamable HTTP has the first `result` or `error` of the
message as its payload; over stdio or a WebSocket the same text, if it has no `method`, is the response with the last
value given under that name. Missing from the property: the two are the same only if these values say the same. -/
theorem C253_response_partial (f : List (String × Json)) (r : RpcResponse)
    (h : TMsg.decText f = some (.response r)) (hm : AMap.get f "method" = none) :
    ∃ k v w, (k = "result" ∨ k = "error") ∧ AMap.get f k = some v ∧ lastOf f k = some w ∧
      payloadOf k v = some r.payload ∧
      readValue f = (payloadOf k w).map (fun p => .response ⟨r.jsonrpc, r.id, p⟩) := by
  rcases decText_cases f _ h with ⟨_, hr⟩ | ⟨o, r', hr, e⟩ | ⟨n, _, e⟩
  · simp only [decReqVariant, Option.bind_eq_bind, Option.bind_eq_some_iff, Option.some.injEq] at hr
    obtain ⟨i, _, q, _, e⟩ := hr
    cases e
  · cases e
    have l1 := lastOf_once f "jsonrpc" (once_mem o (by simp))
    have l2 := lastOf_once f "id" (once_mem o (by simp))
    simp only [RpcResponse.dec, req_obj, Option.bind_eq_bind, Option.bind_eq_some_iff, Option.some.injEq] at hr
    obtain ⟨a, ha, b, hb, p, hp, rfl⟩ := hr
    rw [payload_find] at hp
    obtain ⟨⟨k, v⟩, hf, hpv⟩ := Option.bind_eq_some_iff.mp hp
    have hkp : k = "result" ∨ k = "error" := by
      have := List.find?_some hf
      simpa [isPayload] using this
    have hkv : AMap.get f k = some v := get_of_find f k v hf
    cases hl : lastOf f k with
    | none => rw [lastOf_none_iff, hkv] at hl; cases hl
    | some w =>
      refine ⟨k, v, w, hkp, hkv, hl, hpv, ?_⟩
      have hmv : vget (.obj (collect f)) "method" = none := by
        show AMap.get (collect f) "method" = none
        rw [get_collect, lastOf_none_iff, hm]
      have hre : ((vget (.obj (collect f)) "result").isSome || (vget (.obj (collect f)) "error").isSome) = true := by
        show ((AMap.get (collect f) "result").isSome || (AMap.get (collect f) "error").isSome) = true
        rw [get_collect, get_collect]
        rcases hkp with rfl | rfl <;> simp [hl]
      rw [readValue, parseMessage, hmv, hre]
      simp only [Option.isSome_none, Bool.false_eq_true, if_false, if_true, RpcResponse.dec, req_obj, get_collect, l1,
        l2, Option.bind_eq_bind]
      rw [payload_find, find_collect, hf]
      simp only [Option.bind_some, hl, Option.map_some]
      obtain ⟨a', ha', ha''⟩ := ha
      obtain ⟨b', hb', hb''⟩ := hb
      rw [ha', hb']
      simp only [Option.bind_some, ha'', hb'']
      cases payloadOf k w <;> rfl
  · cases e

/-- A response that gives its result twice meets the hypotheses, with different results. -/
example : ∃ f r, TMsg.decText f = some (.response r) ∧ AMap.get f "method" = none ∧
    lastOf f "result" = some (.str "b") ∧ r.payload = .result (.str "a") :=
  ⟨[("jsonrpc", .str "2.0"), ("id", .num (.int 7)), ("result", .str "a"), ("result", .str "b")],
    ⟨"2.0", .num ⟨7, by decide⟩, .result (.str "a")⟩, rfl, rfl, rfl, rfl⟩

/-- **C253**, refuted. Whatever two results a response gives, streamable HTTP takes the first, stdio and a
WebSocket the last. -/
theorem C253_results_differ (i : Id) (v w : Json) :
    let f := [("jsonrpc", .str "2.0"), ("id", i.enc), ("result", v), ("result", w)]
    TMsg.decText f = some (.response ⟨"2.0", i, .result v⟩) ∧
    readValue f = some (.response ⟨"2.0", i, .result w⟩) := by
  intro f
  have hreq : decReqVariant (.obj f) = none := decReq_none f (by simp [f, AMap.get_cons])
  have hid : Id.dec i.enc = some i := by simp
  have h1 : TMsg.decText f = some (.response ⟨"2.0", i, .result v⟩) := by
    have ho : once ["jsonrpc", "id"] f = true := by simp [once, f]
    have hd : RpcResponse.dec (.obj f) = some ⟨"2.0", i, .result v⟩ := by
      simp [RpcResponse.dec, f, AMap.get_cons, Payload.dec]
    rw [TMsg.decText, hreq, ho, hd]
    simp
  refine ⟨h1, ?_⟩
  have hc : collect f = [("jsonrpc", .str "2.0"), ("id", i.enc), ("result", w)] := by
    simp [collect, f, put]
  rw [readValue, hc]
  simp [parseMessage, vget, AMap.get_cons, RpcResponse.dec, Payload.dec]

/-- **C253**, refuted. A response giving both a result and an error is the one it names first, on both; giving the
error again at the end changes only what stdio and a WebSocket read. -/
theorem C253_first_name (i : Id) (v w : Json) (e : RpcError) (h : e.Ok) :
    let f := [("jsonrpc", .str "2.0"), ("id", i.enc), ("error", e.enc), ("result", v)]
    TMsg.decText f = some (.response ⟨"2.0", i, .error e⟩) ∧ readValue f = some (.response ⟨"2.0", i, .error e⟩) ∧
    TMsg.decText (f ++ [("error", w)]) = some (.response ⟨"2.0", i, .error e⟩) ∧
    readValue (f ++ [("error", w)]) = (RpcError.dec w).map (fun e' => .response ⟨"2.0", i, .error e'⟩) := by
  intro f
  have he := RpcError.rt e h
  have hreq : ∀ g, AMap.get (f ++ g) "request" = none → decReqVariant (.obj (f ++ g)) = none := fun g => decReq_none _
  have h1 : ∀ g, (g = [] ∨ g = [("error", w)]) → TMsg.decText (f ++ g) = some (.response ⟨"2.0", i, .error e⟩) := by
    intro g hg
    have hr : decReqVariant (.obj (f ++ g)) = none := by
      apply hreq; rcases hg with rfl | rfl <;> simp [f, AMap.get_cons]
    have ho : once ["jsonrpc", "id"] (f ++ g) = true := by rcases hg with rfl | rfl <;> simp [once, f]
    have hd : RpcResponse.dec (.obj (f ++ g)) = some ⟨"2.0", i, .error e⟩ := by
      rcases hg with rfl | rfl <;> simp [RpcResponse.dec, f, AMap.get_cons, Payload.dec, he]
    rw [TMsg.decText, hr, ho, hd]
    simp
  have hc : collect f = f := collect_distinct f (by simp [Distinct, f])
  have hc2 : collect (f ++ [("error", w)]) =
      [("jsonrpc", .str "2.0"), ("id", i.enc), ("error", w), ("result", v)] := by
    rw [collect_snoc, hc]; simp [f, put]
  refine ⟨by simpa using h1 [] (Or.inl rfl), ?_, h1 _ (Or.inr rfl), ?_⟩
  · rw [readValue, hc]
    simp [f, parseMessage, vget, AMap.get_cons, RpcResponse.dec, Payload.dec, he]
  · rw [readValue, hc2]
    simp [parseMessage, vget, AMap.get_cons, RpcResponse.dec, Payload.dec]
    cases RpcError.dec w <;> rfl

example : (⟨⟨-32603, by decide⟩, "internal", some (.str "x")⟩ : RpcError).Ok := by simp [RpcError.Ok]

/-- **C253**, refuted. A notification that gives its method twice is understood as the last by stdio and a WebSocket,
and refused by streamable HTTP. -/
theorem C253_method_twice (x : Json) :
    let f := [("jsonrpc", .str "2.0"), ("method", x), ("method", .str "notifications/initialized")]
    TMsg.decText f = none ∧ readValue f = some (.notification (.client .initialized)) := by
  intro f
  refine ⟨?_, ?_⟩
  · have h1 : decReqVariant (.obj f) = none := decReq_none f (by simp [f, AMap.get_cons])
    have h2 : RpcResponse.dec (.obj f) = none := by simp [RpcResponse.dec, f, AMap.get_cons]
    have h3 : once ["method", "params"] f = false := by simp [once, f]
    have h4 : Progress.dec (.obj f) = none := decProgress_none f (by simp [f, AMap.get_cons])
    have h5 : Cancelled.dec (.obj f) = none := decCancelled_none f (by simp [f, AMap.get_cons])
    simp [TMsg.decText, Notification.decText, h1, h2, h3, h4, h5]
  · have := C253_overridden [("jsonrpc", .str "2.0")] [("method", .str "notifications/initialized")] "method" x .null
      (by simp)
    simp only [List.cons_append, List.nil_append] at this
    rw [this]
    rfl

/-- The names a message may have at its top, on streamable HTTP. (Specification: no counterpart in the code.) -/
def topNames : List String := ["id", "request", "jsonrpc", "result", "error", "method", "params", "progressToken",
  "progress", "message", "requestId", "reason"]

theorem payload_skip_any (f g : List (String × Json)) (k : String) (v : Json) (h1 : k ≠ "result") (h2 : k ≠ "error") :
    Payload.dec (f ++ (k, v) :: g) = Payload.dec (f ++ g) := by
  induction f with
  | nil => simp [Payload.dec, h1, h2]
  | cons e f ih =>
    obtain ⟨a, b⟩ := e
    simp only [List.cons_append, Payload.dec, ih]

/-- **C253**, streamable HTTP. Any other member may be given anywhere, and any number of times, without a
difference. -/
theorem C253_http_others (f g : List (String × Json)) (k : String) (v : Json) (h : k ∉ topNames) :
    TMsg.decText (f ++ (k, v) :: g) = TMsg.decText (f ++ g) := by
  have hget : ∀ n, n ∈ topNames → AMap.get (f ++ (k, v) :: g) n = AMap.get (f ++ g) n := by
    intro n hn
    have : k ≠ n := fun e => h (e ▸ hn)
    simp [get_append, AMap.get_cons, this]
  have honce : ∀ ks : List String, (∀ n, n ∈ ks → n ∈ topNames) → once ks (f ++ (k, v) :: g) = once ks (f ++ g) := by
    intro ks hks
    induction ks with
    | nil => rfl
    | cons n ks ih =>
      have hn : k ≠ n := fun e => h (e ▸ hks n (by simp))
      have hi := ih (fun n' hn' => hks n' (by simp [hn']))
      simp only [once, List.all_cons] at hi ⊢
      rw [hi]
      simp [hn]
  have hp := payload_skip_any f g k v (fun e => h (by simp [topNames, e])) (fun e => h (by simp [topNames, e]))
  rw [TMsg.decText, TMsg.decText, Notification.decText, Notification.decText,
    honce ["id", "request"] (by simp [topNames]), honce ["jsonrpc", "id"] (by simp [topNames]),
    honce ["method", "params"] (by simp [topNames]), honce ["progressToken", "progress", "message"] (by simp [topNames]),
    honce ["requestId", "reason"] (by simp [topNames])]
  have e1 : decReqVariant (.obj (f ++ (k, v) :: g)) = decReqVariant (.obj (f ++ g)) := by
    simp only [decReqVariant, req_obj, hget "id" (by simp [topNames]), hget "request" (by simp [topNames])]
  have e2 : RpcResponse.dec (.obj (f ++ (k, v) :: g)) = RpcResponse.dec (.obj (f ++ g)) := by
    simp only [RpcResponse.dec, req_obj, hp, hget "id" (by simp [topNames]), hget "jsonrpc" (by simp [topNames])]
  have e3 : ClientNotification.dec (.obj (f ++ (k, v) :: g)) = ClientNotification.dec (.obj (f ++ g)) := by
    simp only [ClientNotification.dec, decAdj, hget "method" (by simp [topNames]), hget "params" (by simp [topNames])]
  have e4 : ServerNotification.dec (.obj (f ++ (k, v) :: g)) = ServerNotification.dec (.obj (f ++ g)) := by
    simp only [ServerNotification.dec, decAdj, hget "method" (by simp [topNames]), hget "params" (by simp [topNames])]
  have e5 : Progress.dec (.obj (f ++ (k, v) :: g)) = Progress.dec (.obj (f ++ g)) := by
    simp only [Progress.dec, src_obj, req_obj, opt_obj, Option.bind_eq_bind, Option.bind_some,
      hget "progressToken" (by simp [topNames]), hget "progress" (by simp [topNames]), hget "message" (by simp [topNames])]
  have e6 : Cancelled.dec (.obj (f ++ (k, v) :: g)) = Cancelled.dec (.obj (f ++ g)) := by
    simp only [Cancelled.dec, src_obj, req_obj, opt_obj, Option.bind_eq_bind, Option.bind_some,
      hget "requestId" (by simp [topNames]), hget "reason" (by simp [topNames])]
  rw [e1, e2, e3, e4, e5, e6]

example : "_meta" ∉ topNames := by decide

end Verif.Wire
