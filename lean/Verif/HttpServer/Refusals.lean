import Verif.HttpServer.Model

/-
C240: the reasons the streamable HTTP server gives for refusing a request.

Models /repo/src/server/streamable_http_server.rs L233-246 and the calls of `create_error_response`: status, code and
message. `Model` has the status alone.
-/

namespace Verif.HttpServer

/-- The calls of `create_error_response`, /repo/src/server/streamable_http_server.rs L295-345, L366, L407, L417, L512,
L528, L560, L696, L715, L724, L814, L831. -/
inductive Reason where
  | typeWrong
  | typeMissing
  | acceptWrong
  | acceptMissing
  | streamAcceptWrong
  | streamAcceptMissing
  | initialized
  | idRequired
  | unknown
  | unsupported (v : Text)
  | mismatch (expected got : Text)
  | invalid (why : Text)
  | stateless
  | exists
  | noId
  deriving DecidableEq

/-- The status given, /repo/src/server/streamable_http_server.rs L295-345, L366-831. -/
def Reason.status : Reason → Nat
  | .typeWrong => 415
  | .typeMissing => 415
  | .acceptWrong => 406
  | .acceptMissing => 406
  | .streamAcceptWrong => 406
  | .streamAcceptMissing => 406
  | .initialized => 400
  | .idRequired => 400
  | .unknown => 404
  | .unsupported _ => 400
  | .mismatch _ _ => 400
  | .invalid _ => 400
  | .stateless => 405
  | .exists => 409
  | .noId => 404

/-- The JSON-RPC code given, /repo/src/server/streamable_http_server.rs L295-345, L366-831. -/
def Reason.code : Reason → Int
  | .typeWrong => -32700
  | .typeMissing => -32700
  | .acceptWrong => -32700
  | .acceptMissing => -32700
  | .streamAcceptWrong => -32700
  | .streamAcceptMissing => -32700
  | .initialized => -32600
  | .idRequired => -32600
  | .unknown => -32600
  | .unsupported _ => -32600
  | .mismatch _ _ => -32600
  | .invalid _ => -32700
  | .stateless => -32601
  | .exists => -32600
  | .noId => -32600

/-- The message given, /repo/src/server/streamable_http_server.rs L295-345, L366-831. -/
def Reason.message : Reason → Text
  | .typeWrong => "Content-Type must be application/json".toList
  | .typeMissing => "Content-Type header is required".toList
  | .acceptWrong => "Accept header must include application/json or text/event-stream".toList
  | .acceptMissing => "Accept header is required".toList
  | .streamAcceptWrong => "Accept header must be text/event-stream for SSE".toList
  | .streamAcceptMissing => "Accept header is required for SSE".toList
  | .initialized => "Session already initialized".toList
  | .idRequired => "Session ID required for non-initialization requests".toList
  | .unknown => "Unknown session ID".toList
  | .unsupported v => "Unsupported protocol version: ".toList ++ v
  | .mismatch e g => "Protocol version mismatch: expected ".toList ++ e ++ ", got ".toList ++ g
  | .invalid e => "Invalid JSON: ".toList ++ e
  | .stateless => "SSE not supported in stateless mode".toList
  | .exists => "SSE stream already exists for this session".toList
  | .noId => "No session ID provided".toList

/-- `validate_headers(headers, "POST")` with its reasons, /repo/src/server/streamable_http_server.rs L290-326. -/
def whyHeaders (contentType accept : Option Hdr) : Option Reason :=
  match contentType with
  | none => some .typeMissing
  | some ct =>
    if !hasSub appJson (strOrEmpty ct) then some .typeWrong
    else
      match accept with
      | none => some .acceptMissing
      | some a =>
        if !hasSub appJson (strOrEmpty a) && !hasSub eventStream (strOrEmpty a) then some .acceptWrong else none

/-- `validate_headers(headers, "GET")` with its reasons, /repo/src/server/streamable_http_server.rs L327-346. -/
def whyStreamHeaders (accept : Option Hdr) : Option Reason :=
  match accept with
  | none => some .streamAcceptMissing
  | some a => if !hasSub eventStream (strOrEmpty a) then some .streamAcceptWrong else none

/-- The refusals of `process_init_session`, /repo/src/server/streamable_http_server.rs L354-371. -/
def whyInit (c : Config) (s : State) (sid : Option Text) : Option Reason :=
  if c.stateful then
    match sid with
    | some sid =>
      match AMap.get s.sessions sid with
      | some info => if info.initialized then some .initialized else none
      | none => none
    | none => none
  else none

/-- `validate_non_init_session` with its reasons, /repo/src/server/streamable_http_server.rs L398-431. -/
def whySession (c : Config) (s : State) (sid : Option Text) : Option Reason :=
  if c.stateful then
    match sid with
    | none => some .idRequired
    | some sid => if AMap.contains s.sessions sid then none else some .unknown
  else none

/-- `validate_protocol_version` with its reasons, /repo/src/server/streamable_http_server.rs L504-543. -/
def whyVersion (c : Config) (s : State) (sid version : Option Text) : Option Reason :=
  match version with
  | none => none
  | some v =>
    if v ∉ supported then some (.unsupported v)
    else if c.stateful then
      match sid with
      | none => none
      | some sid =>
        match AMap.get s.sessions sid with
        | none => none
        | some info =>
          match info.version with
          | none => none
          | some negotiated => if v ≠ negotiated then some (.mismatch negotiated v) else none
    else none

/-- The refusals of a POST, in the order of the checks; `err` is the text of the JSON error.
/repo/src/server/streamable_http_server.rs L546-607. -/
def whyPost (c : Config) (s : State) (p : Post) (err : Text) : Option Reason :=
  match whyHeaders p.contentType p.accept with
  | some r => some r
  | none =>
    match p.body with
    | .invalid => some (.invalid err)
    | .init _ => whyInit c s (strOf p.sid)
    | _ =>
      match whySession c s (strOf p.sid) with
      | some r => some r
      | none => whyVersion c s (strOf p.sid) (strOf p.version)

/-- The refusals of a GET before its check for a stream, /repo/src/server/streamable_http_server.rs L679-720. -/
def whyGet (c : Config) (s : State) (accept sid : Option Hdr) : Option Reason :=
  match whyStreamHeaders accept with
  | some r => some r
  | none =>
    match strOf sid with
    | some sid => if c.stateful && !AMap.contains s.sessions sid then some .unknown else none
    | none => if c.stateful then none else some .stateless

/-- The refusal of a GET by its check for a stream, /repo/src/server/streamable_http_server.rs L723-729. -/
def whyCheck (s : State) (i : Nat) : Option Reason :=
  match s.gets[i]? with
  | some ⟨sid, false, _⟩ => if AMap.contains s.senders sid then some .exists else none
  | _ => none

/-- The refusals of a DELETE, /repo/src/server/streamable_http_server.rs L798-833. -/
def whyDelete (c : Config) (s : State) (sid : Option Hdr) : Option Reason :=
  match strOf sid with
  | none => some .noId
  | some sid => if !AMap.contains s.sessions sid && c.stateful then some .unknown else none

/-! ### Specification -/

/-- The body is a request, notification or response other than `initialize`. (Specification: no counterpart in the
code.) -/
def Ordinary : Body → Prop
  | .invalid => False
  | .init _ => False
  | _ => True

/-- A header that can be read and does not contain any of these. (Specification: no counterpart in the code.) -/
def Lacks (h : Option Hdr) (l : List Text) : Prop :=
  ∃ x, h = some x ∧ ∀ t, x = .text t → ∀ k ∈ l, hasSub k t = false

/-- What must be so if a POST is refused for this reason. (Specification: no counterpart in the code.) -/
def Fact (c : Config) (s : State) (p : Post) : Reason → Prop
  | .typeMissing => p.contentType = none
  | .typeWrong => Lacks p.contentType [appJson]
  | .acceptMissing => p.accept = none
  | .acceptWrong => Lacks p.accept [appJson, eventStream]
  | .invalid _ => p.body = .invalid
  | .initialized => c.stateful = true ∧ (∃ r, p.body = .init r) ∧
      ∃ sid info, p.sid = some (.text sid) ∧ AMap.get s.sessions sid = some info ∧ info.initialized = true
  | .idRequired => c.stateful = true ∧ Ordinary p.body ∧ ∀ sid, p.sid ≠ some (.text sid)
  | .unknown => c.stateful = true ∧ Ordinary p.body ∧ ∃ sid, p.sid = some (.text sid) ∧ AMap.get s.sessions sid = none
  | .unsupported v => Ordinary p.body ∧ p.version = some (.text v) ∧ v ∉ supported
  | .mismatch e g => c.stateful = true ∧ Ordinary p.body ∧ p.version = some (.text g) ∧ g ≠ e ∧
      ∃ sid info, p.sid = some (.text sid) ∧ AMap.get s.sessions sid = some info ∧ info.version = some e
  | _ => False

theorem strOf_some (h : Option Hdr) (t : Text) : strOf h = some t ↔ h = some (.text t) := by
  cases h with
  | none => simp [strOf]
  | some x => cases x <;> simp [strOf]

theorem strOf_none (h : Option Hdr) : strOf h = none ↔ ∀ t, h ≠ some (.text t) := by
  cases h with
  | none => simp [strOf]
  | some x => cases x <;> simp [strOf]

/-! ### The reasons are those of the model's statuses -/

theorem whyHeaders_status (ct a : Option Hdr) : validatePost ct a = (whyHeaders ct a).map Reason.status := by
  unfold validatePost whyHeaders
  repeat' split
  all_goals first | rfl | simp_all

theorem whyStreamHeaders_status (a : Option Hdr) : validateGet a = (whyStreamHeaders a).map Reason.status := by
  unfold validateGet whyStreamHeaders
  cases a with
  | none => rfl
  | some a =>
    simp only
    split <;> rfl

theorem whyVersion_status (c : Config) (s : State) (sid v : Option Text) :
    validateVersion c s sid v = (whyVersion c s sid v).map Reason.status := by
  unfold validateVersion whyVersion
  repeat' split
  all_goals first | rfl | simp_all [Reason.status]

theorem whySession_some (c : Config) (s : State) (sid : Option Text) (r : Reason) (h : whySession c s sid = some r) :
    validateNonInit c s sid = .error r.status := by
  unfold whySession at h
  unfold validateNonInit
  repeat' split at h
  all_goals simp_all [Reason.status]
  all_goals (subst h; rfl)

theorem whySession_none (c : Config) (s : State) (sid : Option Text) (h : whySession c s sid = none) :
    ∃ x, validateNonInit c s sid = .ok x := by
  unfold whySession at h
  unfold validateNonInit
  repeat' split at h
  all_goals simp_all

theorem whyInit_some (c : Config) (s : State) (sid v : Option Text) (n : Text) (r : Reason)
    (h : whyInit c s sid = some r) : processInit c s sid v n = (s, .error r.status) := by
  unfold whyInit at h
  unfold processInit
  repeat' split at h
  all_goals simp_all [Reason.status]
  all_goals (subst h; rfl)

theorem whyInit_none (c : Config) (s : State) (sid v : Option Text) (n : Text)
    (h : whyInit c s sid = none) : ∃ s' x, processInit c s sid v n = (s', .ok x) := by
  unfold whyInit at h
  unfold processInit
  repeat' split at h
  all_goals simp_all

/-- C240: a POST for which there is a reason is answered with the status of the reason and changes nothing; one for
which there is none goes on, or is accepted with 202. -/
theorem C240_post (c : Config) (s : State) (p : Post) (e n : Text) :
    (∀ r, whyPost c s p e = some r → post c s p n = (s, .status r.status)) ∧
      (whyPost c s p e = none → (post c s p n).2 = .goesOn ∨ (post c s p n).2 = .status 202) := by
  unfold whyPost post
  rw [whyHeaders_status, whyVersion_status]
  cases hh : whyHeaders p.contentType p.accept with
  | some r => simp
  | none =>
    cases hb : p.body with
    | invalid =>
      refine ⟨fun r h => ?_, fun h => by simp at h⟩
      simp only [Option.some.injEq] at h
      subst h; rfl
    | init req =>
      refine ⟨fun r h => ?_, fun h => ?_⟩
      · simp only [Option.map_none] at h ⊢
        rw [whyInit_some c s _ _ n r h]
      · simp only [Option.map_none] at h ⊢
        obtain ⟨s', x, hx⟩ := whyInit_none c s _ (strOf p.version) n h
        rw [hx]
        exact Or.inl rfl
    | _ =>
      cases hs : whySession c s (strOf p.sid) with
      | some r =>
        simp only [Option.map_none]
        rw [whySession_some c s _ r hs]
        simp
      | none =>
        obtain ⟨x, hx⟩ := whySession_none c s _ hs
        simp only [Option.map_none]
        rw [hx]
        cases hv : whyVersion c s (strOf p.sid) (strOf p.version) <;> simp

example : whyPost {} {} ⟨some (.text appJson), some (.text appJson), none, none, .request 1⟩ [] = some .idRequired ∧
    whyPost {} {} ⟨some (.text appJson), some (.text appJson), none, none, .init 1⟩ [] = none :=
  ⟨by decide, by decide⟩

/-- C240: the same of a GET, before it is looked whether there is a stream. -/
theorem C240_get (c : Config) (s : State) (accept sid last : Option Hdr) (n : Text) :
    (∀ r, whyGet c s accept sid = some r → getStart c s accept sid last n = (s, .status r.status)) ∧
      (whyGet c s accept sid = none → (getStart c s accept sid last n).2 = .goesOn) := by
  unfold whyGet getStart
  rw [whyStreamHeaders_status]
  cases whyStreamHeaders accept with
  | some r => simp
  | none =>
    simp only [Option.map_none]
    cases strOf sid with
    | none => cases hc : c.stateful <;> simp [Reason.status]
    | some x => cases hc : c.stateful <;> cases hm : AMap.contains s.sessions x <;>
        simp [Reason.status, hm]

example : whyGet { stateful := false } {} (some (.text eventStream)) none = some .stateless := by decide

/-- C240: the same of the check for a stream. -/
theorem C240_check (s : State) (i : Nat) :
    (∀ r, whyCheck s i = some r → (getCheck s i).2 = .status r.status) ∧
      (whyCheck s i = none → ∀ k, (getCheck s i).2 ≠ .status k) := by
  unfold whyCheck getCheck
  cases s.gets[i]? with
  | none => simp
  | some g =>
    obtain ⟨sid, checked, last⟩ := g
    cases checked with
    | true => simp
    | false => cases hm : AMap.contains s.senders sid <;> simp [Reason.status, hm]

example : whyCheck { senders := [(['a'], 0)], gets := [⟨['a'], false, none⟩] } 0 = some .exists := by decide

/-- C240: the same of a DELETE. -/
theorem C240_delete (c : Config) (s : State) (sid : Option Hdr) :
    (∀ r, whyDelete c s sid = some r → delete c s sid = (s, .status r.status)) ∧
      (whyDelete c s sid = none → (delete c s sid).2 = .status 200) := by
  unfold whyDelete delete
  cases strOf sid with
  | none => simp [Reason.status]
  | some x => cases hc : c.stateful <;> cases hm : AMap.contains s.sessions x <;>
      simp [Reason.status, hm]

example : whyDelete {} {} (some (.text ['a'])) = some .unknown ∧ whyDelete {} {} none = some .noId :=
  ⟨by decide, by decide⟩

/-! ### The reason told is so -/

theorem lacks_text (t : Text) (l : List Text) : Lacks (some (.text t)) l ↔ ∀ k ∈ l, hasSub k t = false := by
  constructor
  · rintro ⟨x, hx, h⟩
    cases hx
    exact h t rfl
  · exact fun h => ⟨_, rfl, fun t' ht => by cases ht; exact h⟩

theorem lacks_bytes (l : List Text) : Lacks (some .bytes) l := ⟨_, rfl, fun t ht => by cases ht⟩

theorem lacks_none (l : List Text) : ¬ Lacks none l := by rintro ⟨x, hx, -⟩; cases hx

theorem whyHeaders_told (c : Config) (s : State) (p : Post) (r : Reason)
    (h : whyHeaders p.contentType p.accept = some r) : Fact c s p r := by
  unfold whyHeaders at h
  cases hct : p.contentType with
  | none =>
    rw [hct] at h
    cases h
    exact hct
  | some x =>
    rw [hct] at h
    simp only at h
    split at h
    · rename_i hx
      cases h
      show Lacks p.contentType _
      rw [hct]
      cases x with
      | bytes => exact lacks_bytes _
      | text t => rw [lacks_text]; simpa [strOrEmpty] using hx
    · cases ha : p.accept with
      | none =>
        rw [ha] at h
        cases h
        exact ha
      | some y =>
        rw [ha] at h
        simp only at h
        split at h
        · rename_i hy
          cases h
          show Lacks p.accept _
          rw [ha]
          cases y with
          | bytes => exact lacks_bytes _
          | text t => rw [lacks_text]; simpa [strOrEmpty] using hy
        · cases h

theorem whyHeaders_none (p : Post) (h : whyHeaders p.contentType p.accept = none) :
    p.contentType ≠ none ∧ ¬ Lacks p.contentType [appJson] ∧ p.accept ≠ none ∧
      ¬ Lacks p.accept [appJson, eventStream] := by
  unfold whyHeaders at h
  cases hct : p.contentType with
  | none => rw [hct] at h; cases h
  | some x =>
    rw [hct] at h
    simp only at h
    split at h
    · cases h
    · rename_i hx
      cases ha : p.accept with
      | none => rw [ha] at h; cases h
      | some y =>
        rw [ha] at h
        simp only at h
        split at h
        · cases h
        · rename_i hy
          refine ⟨by simp, ?_, by simp, ?_⟩
          · cases x with
            | bytes => exact absurd rfl hx
            | text t => rw [lacks_text]; simpa [strOrEmpty] using hx
          · cases y with
            | bytes => exact absurd rfl hy
            | text t => rw [lacks_text]; simpa [strOrEmpty] using hy

theorem contains_false {V : Type} (m : AMap Text V) (k : Text) : AMap.contains m k = false ↔ AMap.get m k = none := by
  unfold AMap.contains
  cases AMap.get m k <;> simp

theorem whyInit_told (c : Config) (s : State) (p : Post) (r : Reason) (q : Nat) (hb : p.body = .init q)
    (h : whyInit c s (strOf p.sid) = some r) : Fact c s p r := by
  unfold whyInit at h
  repeat' split at h
  all_goals cases h
  rename_i hc _ _ _ info hg hi hs
  exact ⟨hc, ⟨q, hb⟩, _, _, (strOf_some _ _).mp ‹_›, ‹_›, ‹_›⟩

theorem whyOrdinary_told (c : Config) (s : State) (p : Post) (r : Reason) (hb : Ordinary p.body)
    (h : (match whySession c s (strOf p.sid) with
      | some r => some r
      | none => whyVersion c s (strOf p.sid) (strOf p.version)) = some r) : Fact c s p r := by
  cases hs : whySession c s (strOf p.sid) with
  | some r' =>
    rw [hs] at h
    cases h
    unfold whySession at hs
    repeat' split at hs
    all_goals cases hs
    · exact ⟨‹_›, hb, (strOf_none _).mp ‹_›⟩
    · exact ⟨‹_›, hb, _, (strOf_some _ _).mp ‹_›, (contains_false _ _).mp (Bool.eq_false_iff.mpr ‹_›)⟩
  | none =>
    rw [hs] at h
    simp only at h
    unfold whyVersion at h
    repeat' split at h
    all_goals cases h
    · exact ⟨hb, (strOf_some _ _).mp ‹_›, ‹_›⟩
    · exact ⟨‹_›, hb, (strOf_some _ _).mp ‹_›, ‹_›, _, _, (strOf_some _ _).mp ‹_›, ‹_›, ‹_›⟩

/-- C240: the reason told to the sender of a POST is so. -/
theorem C240_told (c : Config) (s : State) (p : Post) (e : Text) (r : Reason) (h : whyPost c s p e = some r) :
    Fact c s p r := by
  unfold whyPost at h
  cases hh : whyHeaders p.contentType p.accept with
  | some r' =>
    rw [hh] at h
    cases h
    exact whyHeaders_told c s p _ hh
  | none =>
    rw [hh] at h
    cases hb : p.body with
    | invalid => rw [hb] at h; cases h; exact hb
    | init q => rw [hb] at h; exact whyInit_told c s p r q hb h
    | _ => rw [hb] at h; exact whyOrdinary_told c s p r (by rw [hb]; trivial) h

example : whyPost {} { sessions := [(['a'], ⟨true, some defaultVersion⟩)] }
    ⟨some (.text appJson), some (.text appJson), some (.text ['a']), some (.text "2024-11-05".toList), .request 1⟩ [] =
      some (.mismatch defaultVersion "2024-11-05".toList) := by decide

/-- C240: a POST is refused exactly if one of the facts a refusal tells is so. -/
theorem C240_iff (c : Config) (s : State) (p : Post) (e : Text) :
    (∃ r, whyPost c s p e = some r) ↔ ∃ r, Fact c s p r := by
  refine ⟨fun ⟨r, h⟩ => ⟨r, C240_told c s p e r h⟩, fun ⟨r, hf⟩ => ?_⟩
  cases h : whyPost c s p e with
  | some r' => exact ⟨r', rfl⟩
  | none =>
    exfalso
    unfold whyPost at h
    cases hh : whyHeaders p.contentType p.accept with
    | some r' => rw [hh] at h; cases h
    | none =>
      rw [hh] at h
      obtain ⟨h1, h2, h3, h4⟩ := whyHeaders_none p hh
      have ord : Ordinary p.body → whySession c s (strOf p.sid) = none ∧
          whyVersion c s (strOf p.sid) (strOf p.version) = none := by
        intro ho
        cases hb : p.body with
        | invalid => rw [hb] at ho; exact ho.elim
        | init q => rw [hb] at ho; exact ho.elim
        | _ =>
          rw [hb] at h
          cases hs : whySession c s (strOf p.sid) with
          | some r' => rw [hs] at h; cases h
          | none => rw [hs] at h; exact ⟨rfl, h⟩
      cases r with
      | typeMissing => exact h1 hf
      | typeWrong => exact h2 hf
      | acceptMissing => exact h3 hf
      | acceptWrong => exact h4 hf
      | invalid w => rw [show p.body = .invalid from hf] at h; cases h
      | initialized =>
        obtain ⟨hc, ⟨q, hq⟩, sid, info, hsid, hg, hi⟩ := hf
        rw [hq] at h
        simp [whyInit, hc, hsid, strOf, hg, hi] at h
      | idRequired =>
        obtain ⟨hc, ho, hn⟩ := hf
        have := (ord ho).1
        simp [whySession, hc, (strOf_none _).mpr hn] at this
      | unknown =>
        obtain ⟨hc, ho, sid, hsid, hg⟩ := hf
        have := (ord ho).1
        simp [whySession, hc, hsid, strOf, (contains_false _ _).mpr hg] at this
      | unsupported v =>
        obtain ⟨ho, hv, hn⟩ := hf
        have := (ord ho).2
        simp [whyVersion, hv, strOf, hn] at this
      | mismatch x g =>
        obtain ⟨hc, ho, hv, hne, sid, info, hsid, hg, hi⟩ := hf
        have := (ord ho).2
        by_cases hm : g ∈ supported
        · simp [whyVersion, hv, strOf, hm, hc, hsid, hg, hi] at this
          exact hne this
        · simp [whyVersion, hv, strOf, hm] at this
      | _ => exact hf.elim

example : Fact {} {} ⟨none, none, none, none, .init 1⟩ .typeMissing := rfl

/-- C240 (refuted): "Session ID required" is told although the request has the header, with a value that is not
visible ASCII; so is "No session ID provided" on DELETE. -/
theorem C240_sent_but_required : ∃ p : Post, p.sid ≠ none ∧
    whyPost {} {} p [] = some .idRequired ∧ whyDelete {} {} p.sid = some .noId :=
  ⟨⟨some (.text appJson), some (.text appJson), some .bytes, none, .request 1⟩, by decide, by decide, by decide⟩

/-- C240 (partial: for requests whose session header, if any, is visible ASCII): who is told that an id is required
sent none. -/
theorem C240_required_partial (c : Config) (s : State) (p : Post) (e : Text) (hp : p.sid ≠ some .bytes)
    (h : whyPost c s p e = some .idRequired) : p.sid = none := by
  obtain ⟨-, -, hn⟩ := C240_told c s p e _ h
  cases hs : p.sid with
  | none => rfl
  | some x => cases x with
    | text t => exact absurd hs (hn t)
    | bytes => exact absurd hs hp

example : whyPost {} {} ⟨some (.text appJson), some (.text appJson), none, none, .notification 1⟩ [] =
    some .idRequired := by decide

/-- Which of the messages it is. (Specification: no counterpart in the code.) -/
def Reason.kind : Reason → Nat
  | .typeWrong => 0
  | .typeMissing => 1
  | .acceptWrong => 2
  | .acceptMissing => 3
  | .streamAcceptWrong => 4
  | .streamAcceptMissing => 5
  | .initialized => 6
  | .idRequired => 7
  | .unknown => 8
  | .unsupported _ => 9
  | .mismatch _ _ => 10
  | .invalid _ => 11
  | .stateless => 12
  | .exists => 13
  | .noId => 14

/-- The characters at 4 and 13 of the messages, by kind. (Specification: no counterpart in the code.) -/
def keyOf : Nat → Char × Char
  | 0 => ('e', 'm')
  | 1 => ('e', 'h')
  | 6 => ('i', 'd')
  | 7 => ('i', 'q')
  | 8 => ('o', 'o')
  | 9 => ('p', 'r')
  | 10 => ('o', 'i')
  | 11 => ('l', ' ')
  | 12 => ('n', 'r')
  | 13 => ('s', 'r')
  | 14 => ('e', ' ')
  | _ => ('p', ' ')

theorem message_key (r : Reason) :
    r.message[4]? = some (keyOf r.kind).1 ∧ r.message[13]? = some (keyOf r.kind).2 := by
  cases r <;> exact ⟨rfl, rfl⟩

theorem kind_lt (r : Reason) : r.kind < 15 := by cases r <;> simp [Reason.kind]

theorem keyOf_inj : ∀ i j : Fin 15, keyOf i.1 = keyOf j.1 →
    i.1 = j.1 ∨ (2 ≤ i.1 ∧ i.1 ≤ 5 ∧ 2 ≤ j.1 ∧ j.1 ≤ 5) := by decide

/-- C240: the message says which of the reasons it was, and an unsupported version or the parser's complaint is read
back from it. -/
theorem C240_message (r r' : Reason) (h : r.message = r'.message) :
    r.kind = r'.kind ∧ (∀ v, r = .unsupported v → r' = .unsupported v) ∧ (∀ w, r = .invalid w → r' = .invalid w) := by
  have hk : r.kind = r'.kind := by
    have h1 := message_key r
    have h2 := message_key r'
    rw [h] at h1
    have e1 := Option.some.inj (h1.1.symm.trans h2.1)
    have e2 := Option.some.inj (h1.2.symm.trans h2.2)
    rcases keyOf_inj ⟨_, kind_lt r⟩ ⟨_, kind_lt r'⟩ (Prod.ext e1 e2) with e | ⟨a, b, c, d⟩
    · exact e
    · cases r <;> simp [Reason.kind] at a b <;> cases r' <;> simp [Reason.kind] at c d <;>
        first | rfl | exact absurd h (by decide)
  refine ⟨hk, fun v hv => ?_, fun w hw => ?_⟩
  · subst hv
    cases r' <;> simp [Reason.kind] at hk
    rw [List.append_cancel_left h]
  · subst hw
    cases r' <;> simp [Reason.kind] at hk
    rw [List.append_cancel_left h]

example : (Reason.unsupported "1".toList).message = "Unsupported protocol version: 1".toList := by decide

end Verif.HttpServer
