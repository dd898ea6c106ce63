import Verif.HttpServer.Streams

/-
C217: every request gets an HTTP answer, and a session id the server gave out can be used.  The answers to
POST and GET carry the session id and the protocol version as headers, made with `parse().unwrap()`
(L634-638, L662-664, L780-783): the handler panics, and the client gets no answer, when the text is not a
header value.  The next request carries the id back in a header, which is read with `to_str` (L565-568).
-/

namespace Verif.HttpServer

/-- The bytes `HeaderValue::from_str` accepts (crate `http`: at least 32 and not 127, or a tab), by character:
the UTF-8 bytes of a character outside ASCII are all at least 128.  Called by `parse()` in
/repo/src/server/streamable_http_server.rs L634-638, L662-664, L780-783. -/
def headerChar (ch : Char) : Bool := decide (32 ≤ ch.toNat ∧ ch.toNat ≠ 127) || decide (ch = '\t')

/-- `sid.parse::<HeaderValue>()` succeeds, /repo/src/server/streamable_http_server.rs L634-638, L662-664,
L780-783. -/
def headerOk (t : Text) : Bool := t.all headerChar

/-- The characters `HeaderValue::to_str` accepts (crate `http`: visible ASCII, blank and tab).
Called in /repo/src/server/streamable_http_server.rs L565-574, L687-690, L803-806. -/
def visibleChar (ch : Char) : Bool := decide (32 ≤ ch.toNat ∧ ch.toNat < 127) || decide (ch = '\t')

/-- Blank and tab, which HTTP drops around a header value. (Read by
/repo/src/server/streamable_http_server.rs L565-568.) -/
def blankChar (ch : Char) : Bool := decide (ch = ' ') || decide (ch = '\t')

/-- A header value without its surrounding blanks, as the HTTP library delivers it. (Read by
/repo/src/server/streamable_http_server.rs L565-568.) -/
def trimBlanks (t : Text) : Text := ((t.dropWhile blankChar).reverse.dropWhile blankChar).reverse

/-- The header of a request in which a client sends back text `t`, as the server sees it.
(Read by /repo/src/server/streamable_http_server.rs L565-568.) -/
def sentBack (t : Text) : Hdr :=
  if (trimBlanks t).all visibleChar then .text (trimBlanks t) else .bytes

/-- The headers of the answer of a step are made without a panic,
/repo/src/server/streamable_http_server.rs L634-664 (POST) and L780-783 (GET; the session of the
GET that opens its stream).  Other answers have no such header. -/
def answers (c : Config) (s : State) (op : Op) : Bool :=
  match op with
  | .process .. =>
    match (step c s op).2 with
    | .reply _ sid v _ => sid.all headerOk && headerOk v
    | _ => true
  | .getOpen i =>
    match s.gets[i]? with
    | some ⟨sid, true, _⟩ => headerOk sid
    | _ => true
  | _ => true

/-- Header values that are text are visible. (Specification: no counterpart in the code.) -/
def HdrOk (h : Option Hdr) : Prop := ∀ t, h = some (.text t) → t.all visibleChar = true

/-- The inputs of a step are such as the HTTP library, the generator of session ids and the MCP server give
them: readable headers are visible text, generated ids and negotiated versions are header values.
(Specification: no counterpart in the code.) -/
def InputOk : Op → Prop
  | .post p n => HdrOk p.sid ∧ HdrOk p.version ∧ headerOk n = true
  | .process _ _ neg _ => ∀ v, neg = some v → headerOk v = true
  | .getStart _ sid _ n => HdrOk sid ∧ headerOk n = true
  | _ => True

theorem visible_header (t : Text) (h : t.all visibleChar = true) : headerOk t = true := by
  simp only [headerOk, List.all_eq_true] at *
  intro ch hc
  have := h ch hc
  simp only [visibleChar, headerChar, Bool.or_eq_true, decide_eq_true_eq] at *
  rcases this with h | h
  · left; omega
  · right; exact h

theorem strOf_ok (h : Option Hdr) (ho : HdrOk h) (t : Text) (hs : strOf h = some t) : headerOk t = true := by
  cases h with
  | none => simp [strOf] at hs
  | some x =>
    cases x with
    | bytes => simp [strOf] at hs
    | text u => simp [strOf] at hs; subst hs; exact visible_header _ (ho _ rfl)

/-- Everything the server may put in a header is a header value.
(Specification: no counterpart in the code.) -/
def HeadersOk (s : State) : Prop :=
  (∀ q ∈ s.posts, ∀ t, q.respSid = some t → headerOk t = true) ∧
  (∀ g ∈ s.gets, headerOk g.sid = true) ∧
  (∀ x info v, AMap.get s.sessions x = some info → info.version = some v → headerOk v = true)

theorem default_ok : headerOk defaultVersion = true := by decide

theorem update_versions (s : State) (sid neg : Option Text) (hn : ∀ v, neg = some v → headerOk v = true)
    (h : ∀ x info v, AMap.get s.sessions x = some info → info.version = some v → headerOk v = true) :
    ∀ x info v, AMap.get (updateAfterInit s sid neg).sessions x = some info → info.version = some v →
      headerOk v = true := by
  unfold updateAfterInit
  split; · exact h
  split; · exact h
  intro x info v hx hv
  simp only [AMap.get_insert] at hx
  split at hx
  · injection hx with hx
    subst hx
    simp only [Option.some.injEq] at hv
    subst hv
    cases neg with
    | none => exact default_ok
    | some v => exact hn v rfl
  · exact h x info v hx hv

theorem process_sessions (c : Config) (s : State) (i : Nat) (r : Msg) (neg : Option Text) (ev : Text) (q : Pending)
    (hq : s.posts[i]? = some q) :
    (process c s i r neg ev).1.sessions = s.sessions ∨
      (process c s i r neg ev).1.sessions = (updateAfterInit s q.respSid neg).sessions := by
  rw [process_eq c s i r neg ev q hq]
  simp only [build_sessions]
  unfold beforeBuild
  have hup : ∀ t : State, t.sessions = s.sessions →
      (updateAfterInit t q.respSid neg).sessions = (updateAfterInit s q.respSid neg).sessions := by
    intro t ht
    unfold updateAfterInit
    split
    · exact ht
    · rw [ht]; split
      · exact ht
      · rfl
  cases q.isInit with
  | false => left; cases c.store <;> cases q.respSid <;> rfl
  | true =>
    right
    have := hup { s with posts := s.posts.eraseIdx i, handled := s.handled ++ [(q.clientSid, q.req)] } rfl
    cases c.store <;> cases hr : q.respSid <;> simp_all

theorem headers_step (c : Config) (s : State) (op : Op) (hi : InputOk op) (h : HeadersOk s) :
    HeadersOk (step c s op).1 := by
  obtain ⟨h1, h2, h3⟩ := h
  have same : ∀ t : State, t.posts = s.posts → t.gets = s.gets → t.sessions = s.sessions → HeadersOk t := by
    intro t a b d; exact ⟨by rw [a]; exact h1, by rw [b]; exact h2, by rw [d]; exact h3⟩
  cases op with
  | post p n =>
    obtain ⟨i1, i2, i3⟩ := hi
    simp only [step]
    cases hb : p.body with
    | init req =>
      unfold post
      cases hv : validatePost p.contentType p.accept with
      | some code => exact ⟨h1, h2, h3⟩
      | none =>
        simp only [hb]
        unfold processInit
        cases c.stateful with
        | false =>
          refine ⟨?_, h2, h3⟩
          intro q hq t ht
          rcases List.mem_append.mp hq with hq | hq
          · exact h1 q hq t ht
          · rw [List.mem_singleton.mp hq] at ht; cases ht
        | true =>
          cases hs : strOf p.sid with
          | none =>
            simp only [↓reduceIte]
            refine ⟨?_, h2, ?_⟩
            · intro q hq t ht
              rcases List.mem_append.mp hq with hq | hq
              · exact h1 q hq t ht
              · rw [List.mem_singleton.mp hq] at ht
                simp only [Option.some.injEq] at ht; subst ht; exact i3
            · intro x info v hx hv
              simp only [AMap.get_insert] at hx
              split at hx
              · injection hx with hx
                subst hx
                exact strOf_ok _ i2 v hv
              · exact h3 x info v hx hv
          | some sid =>
            have good : HeadersOk { s with posts := s.posts ++ [⟨some sid, some sid, true, req⟩] } := by
              refine ⟨?_, h2, h3⟩
              intro q hq t ht
              rcases List.mem_append.mp hq with hq | hq
              · exact h1 q hq t ht
              · rw [List.mem_singleton.mp hq] at ht
                simp only [Option.some.injEq] at ht; subst ht; exact strOf_ok _ i1 _ hs
            simp only [↓reduceIte]
            cases hg : AMap.get s.sessions sid with
            | none => exact good
            | some info =>
              simp only
              cases info.initialized with
              | true => exact ⟨h1, h2, h3⟩
              | false => exact good
    | request req =>
      rcases post_cases c s p n with ⟨code, hh⟩ | ⟨req, r, hh, _⟩ | ⟨req, s', r, hp, hb', hv, hh⟩
      · rw [hh]; exact ⟨h1, h2, h3⟩
      · have hr : ∀ t, r = some t → headerOk t = true := by
          intro t ht
          unfold post at hh
          rw [hb] at hh
          revert hh
          simp only
          cases validatePost p.contentType p.accept with
          | some code => intro hh; exact absurd (congrArg Prod.snd hh) (by simp)
          | none =>
            unfold validateNonInit
            cases c.stateful with
            | false =>
              simp only [Bool.false_eq_true, ↓reduceIte]
              cases validateVersion c s (strOf p.sid) (strOf p.version) with
              | some code => intro hh; exact absurd (congrArg Prod.snd hh) (by simp)
              | none =>
                intro hh
                simp only [Prod.mk.injEq, State.mk.injEq, List.append_cancel_left_eq, List.cons.injEq,
                  Pending.mk.injEq, true_and, and_true] at hh
                rw [← hh.1] at ht; cases ht
            | true =>
              simp only [↓reduceIte]
              cases hs : strOf p.sid with
              | none => intro hh; exact absurd (congrArg Prod.snd hh) (by simp)
              | some sid =>
                simp only
                cases AMap.contains s.sessions sid with
                | false => intro hh; exact absurd (congrArg Prod.snd hh) (by simp)
                | true =>
                  simp only [↓reduceIte]
                  cases validateVersion c s (some sid) (strOf p.version) with
                  | some code => intro hh; exact absurd (congrArg Prod.snd hh) (by simp)
                  | none =>
                    intro hh
                    simp only [Prod.mk.injEq, State.mk.injEq, List.append_cancel_left_eq, List.cons.injEq,
                      Pending.mk.injEq, true_and, and_true] at hh
                    rw [← hh.1] at ht
                    injection ht with ht
                    rw [← ht]; exact strOf_ok _ i1 _ hs
        rw [hh]
        refine ⟨?_, h2, h3⟩
        intro q hq t ht
        rcases List.mem_append.mp hq with hq | hq
        · exact h1 q hq t ht
        · rw [List.mem_singleton.mp hq] at ht; exact hr t ht
      · rw [hb] at hb'; cases hb'
    | invalid =>
      rcases post_cases c s p n with ⟨code, hh⟩ | ⟨req, r, hh, hb'⟩ | ⟨req, s', r, hp, hb', hv, hh⟩
      · rw [hh]; exact ⟨h1, h2, h3⟩
      · rw [hb] at hb'; cases hb'
      · rw [hb] at hb'; cases hb'
    | notification k =>
      rcases post_cases c s p n with ⟨code, hh⟩ | ⟨req, r, hh, hb'⟩ | ⟨req, s', r, hp, hb', hv, hh⟩
      · rw [hh]; exact ⟨h1, h2, h3⟩
      · rw [hb] at hb'; cases hb'
      · rw [hb] at hb'; cases hb'
    | response k =>
      rcases post_cases c s p n with ⟨code, hh⟩ | ⟨req, r, hh, hb'⟩ | ⟨req, s', r, hp, hb', hv, hh⟩
      · rw [hh]; exact ⟨h1, h2, h3⟩
      · rw [hb] at hb'; cases hb'
      · rw [hb] at hb'; cases hb'
  | process i r neg ev =>
    simp only [step]
    cases hq : s.posts[i]? with
    | none => unfold process; rw [hq]; exact ⟨h1, h2, h3⟩
    | some q =>
      refine ⟨?_, ?_, ?_⟩
      · rw [process_eq c s i r neg ev q hq]
        simp only [build_posts, before_posts]
        exact fun x hx => h1 x (List.mem_of_mem_eraseIdx hx)
      · rw [process_gets]; exact h2
      · rcases process_sessions c s i r neg ev q hq with e | e
        · rw [e]; exact h3
        · rw [e]; exact update_versions s _ neg hi h3
  | getStart a sid l n =>
    obtain ⟨i1, i2⟩ := hi
    simp only [step]
    rcases getStart_cases c s a sid l n with ⟨code, hh⟩ | ⟨t, hs, _, hh⟩ | ⟨hs, _, hv, hh⟩
    · rw [hh]; exact ⟨h1, h2, h3⟩
    · rw [hh]; refine ⟨h1, ?_, h3⟩
      intro g hg
      rcases List.mem_append.mp hg with hg | hg
      · exact h2 g hg
      · rw [List.mem_singleton.mp hg]; exact strOf_ok _ i1 _ hs
    · rw [hh]; refine ⟨h1, ?_, ?_⟩
      · intro g hg
        rcases List.mem_append.mp hg with hg | hg
        · exact h2 g hg
        · rw [List.mem_singleton.mp hg]; exact i2
      · intro x info v hx hv
        simp only [AMap.get_insert] at hx
        split at hx
        · injection hx with hx
          subst hx; cases hv
        · exact h3 x info v hx hv
  | getCheck i =>
    simp only [step]
    unfold getCheck; split
    · next sid last hg =>
      have hsid : headerOk sid = true := h2 _ (List.mem_of_getElem? hg)
      split
      · exact ⟨h1, fun g hg => h2 g (List.mem_of_mem_eraseIdx hg), h3⟩
      · refine ⟨h1, fun g hg => ?_, h3⟩
        rcases List.mem_or_eq_of_mem_set hg with hg | hg
        · exact h2 g hg
        · rw [hg]; exact hsid
    · exact ⟨h1, h2, h3⟩
  | getOpen i =>
    simp only [step]
    unfold getOpen; split
    · exact ⟨h1, fun g hg => h2 g (List.mem_of_mem_eraseIdx hg), h3⟩
    · exact ⟨h1, h2, h3⟩
  | delete sid =>
    simp only [step]; unfold delete; split; · exact ⟨h1, h2, h3⟩
    split
    · exact ⟨h1, h2, h3⟩
    · refine ⟨h1, h2, ?_⟩
      intro x info v hx hv
      simp only [AMap.get_remove] at hx
      split at hx
      · cases hx
      · exact h3 x info v hx hv
  | disconnect k => simp only [step]; unfold disconnect; split <;> exact ⟨h1, h2, h3⟩
  | deliver k ev => simp only [step]; unfold deliver; split <;> exact ⟨h1, h2, h3⟩

theorem headers_run (c : Config) (h : List Op) (hi : ∀ op ∈ h, InputOk op) : HeadersOk (run c {} h) := by
  induction h using Verif.snocInduction with
  | nil => exact ⟨by simp [run], by simp [run], by simp [run]⟩
  | append_singleton h op ih =>
    rw [run_snoc]
    exact headers_step c _ op (hi op (by simp)) (ih (fun o ho => hi o (by simp [ho])))

theorem version_ok (s : State) (q : Pending) (neg : Option Text) (hn : ∀ v, neg = some v → headerOk v = true)
    (h : ∀ x info v, AMap.get s.sessions x = some info → info.version = some v → headerOk v = true) :
    headerOk (versionHeader s q neg) = true := by
  unfold versionHeader
  split
  · cases neg with
    | none => exact default_ok
    | some v => exact hn v rfl
  · split
    · exact default_ok
    · split
      · exact default_ok
      · next info hg =>
        cases hv : info.version with
        | none => exact default_ok
        | some v => exact h _ info v hg hv

/-- C217, partial: whatever requests arrive in whatever order, if the generator only makes session ids that
are header values (and the MCP server negotiates versions that are), no handler panics over the headers of
its answer.  The condition on the generator is needed: `C217_bad_id`. -/
theorem C217_answered_partial (c : Config) (before : List Op) (op : Op) (after : List Op)
    (hi : ∀ o ∈ before ++ op :: after, InputOk o) : answers c (run c {} before) op = true := by
  have hb := headers_run c before (fun o ho => hi o (by simp [ho]))
  have ho := headers_step c _ op (hi op (by simp)) hb
  have hio := hi op (by simp)
  generalize run c {} before = s at *
  unfold answers
  cases op with
  | process i r neg ev =>
    simp only [step] at ho ⊢
    cases hq : s.posts[i]? with
    | none => unfold process; rw [hq]
    | some q =>
      rw [process_eq c s i r neg ev q hq] at ho ⊢
      simp only [Bool.and_eq_true]
      refine ⟨?_, version_ok _ _ _ hio ho.2.2⟩
      cases hr : q.respSid with
      | none => rfl
      | some t => exact hb.1 q (List.mem_of_getElem? hq) t hr
  | getOpen i =>
    simp only
    split
    · next sid l hg => exact hb.2.1 _ (List.mem_of_getElem? hg)
    · rfl
  | _ => rfl

example : ∀ o ∈ exHistory, InputOk o := by
  intro o ho
  simp only [exHistory, List.mem_cons, List.not_mem_nil, or_false] at ho
  rcases ho with rfl | rfl | rfl | rfl
  · exact ⟨(fun t h => by cases h), (fun t h => by cases h), by decide⟩
  · intro v hv; cases hv; decide
  · refine ⟨?_, ?_, by decide⟩
    · intro t h; injection h with h; injection h with h; subst h; decide
    · intro t h; cases h
  · intro v hv; cases hv

/-- C217: the initialization of a new session is answered exactly when the generated id is a header value;
in either case the session stays in the table, and the request was handled. -/
theorem C217_bad_id (c : Config) (hst : c.stateful = true) (s : State) (p : Post) (n : Text) (r : Nat)
    (hh : PostHeadersOk p.contentType p.accept) (hb : p.body = .init r) (hs : NoSid p.sid) (resp : Msg)
    (neg : Option Text) (hn : ∀ v, neg = some v → headerOk v = true) (ev : Text) :
    let t := (post c s p n).1
    (answers c t (.process s.posts.length resp neg ev) = true ↔ headerOk n = true) ∧
    AMap.contains (process c t s.posts.length resp neg ev).1.sessions n = true ∧
    (process c t s.posts.length resp neg ev).1.handled = s.handled ++ [(none, r)] := by
  have hsid : strOf p.sid = none := by rcases hs with h | h <;> rw [h] <;> rfl
  have ht : post c s p n = ({ s with
      sessions := AMap.insert s.sessions n ⟨false, strOf p.version⟩
      posts := s.posts ++ [⟨none, some n, true, r⟩] }, .goesOn) := by
    unfold post
    rw [(C37_post_passes_iff _ _).mpr hh, hb, hsid]
    simp [processInit, hst]
  simp only [ht]
  refine ⟨?_, ?_, ?_⟩
  · unfold answers
    simp only [step]
    rw [process_eq c _ _ resp neg ev ⟨none, some n, true, r⟩ (by simp)]
    simp only [Option.all_some, versionHeader, ↓reduceIte, Bool.and_eq_true]
    constructor
    · exact fun h => h.1
    · refine fun h => ⟨h, ?_⟩
      cases neg with
      | none => exact default_ok
      | some v => exact hn v rfl
  · rw [process_contains]
    simp [AMap.contains, AMap.get_insert]
  · rw [process_eq c _ _ resp neg ev ⟨none, some n, true, r⟩ (by simp)]
    simp only [build_handled, before_handled]

example : headerOk "a\nb".toList = false ∧ headerOk "é".toList = true := by decide

/-- C217: what a request carrying back the id of a session finds: an id with a character that is not visible
ASCII counts as missing (400), an id with blanks around it names another session. -/
theorem C217_sent_back (c : Config) (hst : c.stateful = true) (s : State) (p : Post) (n sid : Text) (r : Nat)
    (hh : PostHeadersOk p.contentType p.accept) (hb : p.body = .request r) (hv : p.version = none)
    (hp : p.sid = some (sentBack sid)) :
    (post c s p n).2 =
      if (trimBlanks sid).all visibleChar then
        (if AMap.contains s.sessions (trimBlanks sid) then .goesOn else .status 404)
      else .status 400 := by
  unfold post
  rw [(C37_post_passes_iff _ _).mpr hh, hb, hp, hv]
  simp only [validateNonInit, hst, ↓reduceIte, sentBack]
  cases (trimBlanks sid).all visibleChar with
  | false => simp [strOf]
  | true =>
    simp only [↓reduceIte, strOf]
    cases AMap.contains s.sessions (trimBlanks sid) with
    | false => rfl
    | true => rfl

/-- C217: a session can be used by the client it was given to exactly when its id is visible text without
surrounding blanks; said of a server with this one session. -/
theorem C217_usable_iff (c : Config) (hst : c.stateful = true) (s : State) (p : Post) (n sid : Text) (r : Nat)
    (hh : PostHeadersOk p.contentType p.accept) (hb : p.body = .request r) (hv : p.version = none)
    (hp : p.sid = some (sentBack sid)) (ho : ∀ x, AMap.contains s.sessions x = true ↔ x = sid) :
    (post c s p n).2 = .goesOn ↔ sid.all visibleChar = true ∧ trimBlanks sid = sid := by
  rw [C217_sent_back c hst s p n sid r hh hb hv hp]
  constructor
  · intro h
    by_cases hvis : (trimBlanks sid).all visibleChar = true
    · rw [if_pos hvis] at h
      by_cases hc : AMap.contains s.sessions (trimBlanks sid) = true
      · have := (ho _).mp hc
        rw [this] at hvis
        exact ⟨hvis, this⟩
      · rw [if_neg hc] at h; cases h
    · rw [if_neg hvis] at h; cases h
  · rintro ⟨h1, h2⟩
    rw [h2, if_pos h1, if_pos ((ho _).mpr rfl)]

example :
    let s := run {} {} [.post initPost "é".toList, .process 0 7 none []]
    (∀ x, AMap.contains s.sessions x = true ↔ x = "é".toList) ∧
      (post {} s ⟨jsonH, bothH, some (sentBack "é".toList), none, .request 2⟩ []).2 = .status 400 := by
  refine ⟨?_, by decide +kernel⟩
  intro x
  have : (run {} {} [.post initPost "é".toList, .process 0 7 none []]).sessions =
      [("é".toList, ⟨true, some defaultVersion⟩)] := by decide +kernel
  simp only [this, AMap.contains, AMap.get_cons]
  constructor
  · intro h
    split at h
    · next e => exact e.symm
    · simp [AMap.get] at h
  · intro h; subst h; simp

example :
    let s := run {} {} [.post initPost sidA, .process 0 7 none []]
    (post {} s ⟨jsonH, bothH, some (sentBack sidA), none, .request 2⟩ []).2 = .goesOn := by decide +kernel

/-- The digits and dashes of a printed UUID. (Specification: no counterpart in the code.) -/
def uuidChar (ch : Char) : Prop :=
  (48 ≤ ch.toNat ∧ ch.toNat ≤ 57) ∨ (97 ≤ ch.toNat ∧ ch.toNat ≤ 102) ∨ ch.toNat = 45

theorem dropWhile_none (l : Text) (h : ∀ ch ∈ l, blankChar ch = false) : l.dropWhile blankChar = l := by
  cases l with
  | nil => rfl
  | cons a l => rw [List.dropWhile_cons, h a (by simp)]; simp

/-- C217: the ids of the default generator (`Uuid::new_v4().to_string()`, L191) are header values and come
back unchanged. -/
theorem C217_uuid (t : Text) (h : ∀ ch ∈ t, uuidChar ch) : headerOk t = true ∧ sentBack t = .text t := by
  have hv : t.all visibleChar = true := by
    rw [List.all_eq_true]
    intro ch hc
    have := h ch hc
    simp only [uuidChar] at this
    simp only [visibleChar, Bool.or_eq_true, decide_eq_true_eq]
    left; omega
  have hb : ∀ ch ∈ t, blankChar ch = false := by
    intro ch hc
    have := h ch hc
    simp only [uuidChar] at this
    simp only [blankChar, Bool.or_eq_false_iff, decide_eq_false_iff_not]
    constructor <;> (rintro rfl; revert this; decide)
  have ht : trimBlanks t = t := by
    unfold trimBlanks
    rw [dropWhile_none t hb, dropWhile_none t.reverse (by intro ch hc; exact hb ch (by simpa using hc))]
    simp
  refine ⟨visible_header t hv, ?_⟩
  unfold sentBack
  rw [ht, if_pos hv]

example : ∀ ch ∈ "9f-0a".toList, uuidChar ch := by
  intro ch h
  simp at h
  rcases h with rfl | rfl | rfl | rfl | rfl <;> simp [uuidChar]

/-- C217: the versions the MCP server negotiates are header values. -/
theorem C217_versions : ∀ v ∈ supported, headerOk v = true := by decide

example : "2025-06-18".toList ∈ supported := by decide

/-- C217: the texts that are no header values, by their characters: a control character other than tab. -/
theorem C217_header_chars (t : Text) :
    headerOk t = false ↔ ∃ ch ∈ t, (ch.toNat < 32 ∧ ch ≠ '\t') ∨ ch.toNat = 127 := by
  simp only [headerOk, List.all_eq_false, headerChar, Bool.or_eq_true, decide_eq_true_eq, not_or]
  constructor
  · rintro ⟨ch, hm, h1, h2⟩
    refine ⟨ch, hm, ?_⟩
    by_cases h : ch.toNat < 32
    · exact .inl ⟨h, h2⟩
    · right; omega
  · rintro ⟨ch, hm, ⟨h1, h2⟩ | h⟩
    · exact ⟨ch, hm, by omega, h2⟩
    · refine ⟨ch, hm, by omega, ?_⟩
      rintro rfl
      exact absurd h (by decide)

example : headerOk "a\nb".toList = false ∧ headerOk "a\x7fb".toList = false ∧ headerOk "a\tb".toList = true := by decide

theorem dropWhile_head (l : Text) : l.dropWhile blankChar = l ↔ ∀ ch, l.head? = some ch → blankChar ch = false := by
  cases l with
  | nil => simp
  | cons a l =>
    simp only [List.head?_cons, Option.some.injEq, forall_eq', List.dropWhile_cons]
    cases hb : blankChar a with
    | false => simp
    | true =>
      simp only [↓reduceIte, Bool.true_eq_false, iff_false]
      intro h
      have h1 := (List.dropWhile_sublist (p := blankChar) (l := l)).length_le
      rw [h, List.length_cons] at h1
      omega

/-- C217: the ids that come back unchanged, by their characters: printing ASCII characters and tabs, neither beginning
nor ending with a blank or a tab. -/
theorem C217_usable_chars (t : Text) : (t.all visibleChar = true ∧ trimBlanks t = t) ↔
    (∀ ch ∈ t, ch = '\t' ∨ (' '.toNat ≤ ch.toNat ∧ ch.toNat ≤ '~'.toNat)) ∧
    (∀ ch, t.head? = some ch → ch ≠ ' ' ∧ ch ≠ '\t') ∧ (∀ ch, t.getLast? = some ch → ch ≠ ' ' ∧ ch ≠ '\t') := by
  have hb : ∀ ch, blankChar ch = false ↔ ch ≠ ' ' ∧ ch ≠ '\t' := by
    intro ch; simp [blankChar]
  have hv : t.all visibleChar = true ↔ ∀ ch ∈ t, ch = '\t' ∨ (' '.toNat ≤ ch.toNat ∧ ch.toNat ≤ '~'.toNat) := by
    rw [List.all_eq_true]
    apply forall_congr'
    intro ch
    apply imp_congr_right
    intro _
    have e1 : ' '.toNat = 32 := rfl
    have e2 : '~'.toNat = 126 := rfl
    simp only [visibleChar, Bool.or_eq_true, decide_eq_true_eq, e1, e2]
    constructor
    · rintro (h | h)
      · right; omega
      · exact .inl h
    · rintro (h | h)
      · exact .inr h
      · left; omega
  have ht : trimBlanks t = t ↔ t.dropWhile blankChar = t ∧ t.reverse.dropWhile blankChar = t.reverse := by
    unfold trimBlanks
    constructor
    · intro h
      have h1 := (List.dropWhile_sublist (p := blankChar) (l := t))
      have h2 := (List.dropWhile_sublist (p := blankChar) (l := (t.dropWhile blankChar).reverse)).length_le
      have h3 := congrArg List.length h
      simp only [List.length_reverse] at h2 h3
      have h4 : t.dropWhile blankChar = t := h1.eq_of_length (by have := h1.length_le; omega)
      refine ⟨h4, ?_⟩
      rw [h4] at h
      exact List.reverse_eq_iff.mp h
    · rintro ⟨h1, h2⟩
      rw [h1, h2, List.reverse_reverse]
  rw [hv, ht, dropWhile_head, dropWhile_head, List.head?_reverse]
  simp only [hb]

example : trimBlanks "a b".toList = "a b".toList ∧ trimBlanks " ab".toList ≠ " ab".toList := by decide

/-- C217: a GET that opens its stream is answered exactly when the id of its session is a header value; the stream is
registered in either case. -/
theorem C217_stream_answered (c : Config) (s : State) (i : Nat) (sid : Text) (last : Option Text)
    (h : s.gets[i]? = some ⟨sid, true, last⟩) :
    (answers c s (.getOpen i) = true ↔ headerOk sid = true) ∧
      AMap.get (getOpen c s i).1.senders sid = some s.streams.length := by
  refine ⟨?_, ?_⟩
  · unfold answers
    simp only [h]
  · unfold getOpen
    simp only [h]
    simp [AMap.get_insert]

example : (run {} {} [.getStart (some (.text "text/event-stream".toList)) none none "a\nb".toList, .getCheck 0]).gets[0]? =
    some ⟨"a\nb".toList, true, none⟩ := by decide +kernel

end Verif.HttpServer
