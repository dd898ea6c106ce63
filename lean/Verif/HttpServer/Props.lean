import Verif.HttpServer.Lemmas

/-
Properties of the streamable HTTP server: C32-C37 and C87-C89.
-/

namespace Verif.HttpServer

/-! ### Specifications -/

/-- The header value contains the given text. (Specification: no counterpart in the code.) -/
def Mentions (needle : Text) : Hdr → Prop
  | .text t => ∃ a b, t = a ++ needle ++ b
  | .bytes => False

/-- The content type and Accept headers of a POST are acceptable. (Specification: no counterpart in the code.) -/
def PostHeadersOk (contentType accept : Option Hdr) : Prop :=
  (∃ v, contentType = some v ∧ Mentions appJson v) ∧
    ∃ w, accept = some w ∧ (Mentions appJson w ∨ Mentions eventStream w)

/-- The Accept header of a GET is acceptable. (Specification: no counterpart in the code.) -/
def GetHeadersOk (accept : Option Hdr) : Prop := ∃ w, accept = some w ∧ Mentions eventStream w

/-- No readable session id header. (Specification: no counterpart in the code.) -/
def NoSid (h : Option Hdr) : Prop := h = none ∨ h = some .bytes

/-- The operation creates session `sid`: an initialization or a stream request without session id.
(Specification: no counterpart in the code.) -/
def Creates (c : Config) (op : Op) (sid : Text) : Prop :=
  c.stateful = true ∧
    ((∃ p req, op = .post p sid ∧ PostHeadersOk p.contentType p.accept ∧ p.body = .init req ∧ NoSid p.sid) ∨
      ∃ accept h last, op = .getStart accept h last sid ∧ GetHeadersOk accept ∧ NoSid h)

/-- The operation deletes session `sid`. (Specification: no counterpart in the code.) -/
def Deletes (op : Op) (sid : Text) : Prop := op = .delete (some (.text sid))

/-- After the history, session `sid` has been created and not deleted since.
(Specification: no counterpart in the code.) -/
def Live (c : Config) (h : List Op) (sid : Text) : Prop :=
  ∃ before op after, h = before ++ op :: after ∧ Creates c op sid ∧ ∀ d ∈ after, ¬ Deletes d sid

/-! ### C37 -/

theorem mentions_iff (needle : Text) (hne : needle ≠ []) (v : Hdr) :
    hasSub needle (strOrEmpty v) = true ↔ Mentions needle v := by
  cases v with
  | text t => exact hasSub_iff needle t
  | bytes =>
    simp only [strOrEmpty, Mentions, iff_false]
    simp [hasSub, hne]

theorem appJson_ne : appJson ≠ [] := by decide

theorem eventStream_ne : eventStream ≠ [] := by decide

/-- C37: a POST passes header validation iff its content type mentions `application/json` and its Accept
mentions `application/json` or `text/event-stream`. -/
theorem C37_post_passes_iff (ct a : Option Hdr) : validatePost ct a = none ↔ PostHeadersOk ct a := by
  unfold validatePost PostHeadersOk
  cases ct with
  | none => simp
  | some v =>
    simp only [Option.some.injEq, exists_eq_left', ← mentions_iff _ appJson_ne]
    by_cases hv : hasSub appJson (strOrEmpty v) = true
    · cases a with
      | none => simp [hv]
      | some w =>
        simp only [hv, Option.some.injEq, exists_eq_left', ← mentions_iff _ appJson_ne,
          ← mentions_iff _ eventStream_ne]
        cases hasSub appJson (strOrEmpty w) <;> cases hasSub eventStream (strOrEmpty w) <;> simp
    · simp [hv]

/-- C37: a POST without a JSON content type is answered 415. -/
theorem C37_post_content_type_415 (ct a : Option Hdr) (h : ¬ ∃ v, ct = some v ∧ Mentions appJson v) :
    validatePost ct a = some 415 := by
  unfold validatePost
  cases ct with
  | none => rfl
  | some v =>
    have hv : ¬ Mentions appJson v := fun hm => h ⟨v, rfl, hm⟩
    rw [← mentions_iff _ appJson_ne] at hv
    simp [hv]

/-- C37: a POST with a JSON content type but an unacceptable Accept is answered 406. -/
theorem C37_post_accept_406 (ct a : Option Hdr) (h : ∃ v, ct = some v ∧ Mentions appJson v)
    (h' : ¬ ∃ w, a = some w ∧ (Mentions appJson w ∨ Mentions eventStream w)) : validatePost ct a = some 406 := by
  obtain ⟨v, rfl, hv⟩ := h
  rw [← mentions_iff _ appJson_ne] at hv
  unfold validatePost
  cases a with
  | none => simp [hv]
  | some w =>
    have h1 : ¬ Mentions appJson w := fun hm => h' ⟨w, rfl, .inl hm⟩
    have h2 : ¬ Mentions eventStream w := fun hm => h' ⟨w, rfl, .inr hm⟩
    rw [← mentions_iff _ appJson_ne] at h1
    rw [← mentions_iff _ eventStream_ne] at h2
    simp [hv, h1, h2]

/-- C37: a GET passes header validation iff its Accept mentions `text/event-stream`; otherwise 406. -/
theorem C37_get_passes_iff (a : Option Hdr) :
    (validateGet a = none ↔ GetHeadersOk a) ∧ (¬ GetHeadersOk a → validateGet a = some 406) := by
  unfold validateGet GetHeadersOk
  cases a with
  | none => simp
  | some w =>
    simp only [Option.some.injEq, exists_eq_left', ← mentions_iff _ eventStream_ne]
    cases hasSub eventStream (strOrEmpty w) <;> simp

/-- (Specification: no counterpart in the code.) -/
def jsonH : Option Hdr := some (.text "application/json; charset=utf-8".toList)
/-- (Specification: no counterpart in the code.) -/
def bothH : Option Hdr := some (.text "application/json, text/event-stream".toList)
/-- (Specification: no counterpart in the code.) -/
def plainH : Option Hdr := some (.text "text/plain".toList)

example : validatePost jsonH bothH = none := by decide +kernel
example : validatePost plainH bothH = some 415 := by decide +kernel
example : validatePost jsonH plainH = some 406 := by decide +kernel
example : validateGet bothH = none ∧ validateGet jsonH = some 406 := by decide +kernel

theorem jsonH_ok : validatePost jsonH bothH = none := by decide +kernel
theorem bothH_ok : validateGet bothH = none := by decide +kernel

/-! ### C32 -/

theorem strOf_none_iff (h : Option Hdr) : strOf h = none ↔ NoSid h := by
  unfold strOf NoSid
  rcases h with _ | (t | _) <;> simp

theorem strOf_some_iff (h : Option Hdr) (t : Text) : strOf h = some t ↔ h = some (.text t) := by
  unfold strOf
  rcases h with _ | (t' | _) <;> simp

theorem post_contains (c : Config) (s : State) (p : Post) (n sid : Text) :
    AMap.contains (post c s p n).1.sessions sid = true ↔
      Creates c (.post p n) sid ∨ AMap.contains s.sessions sid = true := by
  have key : Creates c (.post p n) sid ↔ c.stateful = true ∧ n = sid ∧
      validatePost p.contentType p.accept = none ∧ (∃ req, p.body = .init req) ∧ strOf p.sid = none := by
    simp only [Creates, Op.post.injEq, reduceCtorEq, false_and, exists_false, or_false, C37_post_passes_iff,
      strOf_none_iff]
    constructor
    · rintro ⟨h1, p', req, ⟨rfl, rfl⟩, h2, h3, h4⟩; exact ⟨h1, rfl, h2, ⟨req, h3⟩, h4⟩
    · rintro ⟨h1, rfl, h2, ⟨req, h3⟩, h4⟩; exact ⟨h1, p, req, ⟨rfl, rfl⟩, h2, h3, h4⟩
  rw [key]
  rcases post_cases c s p n with ⟨code, h⟩ | ⟨req, r, h, hb⟩ | ⟨req, s', r, hp, hb, hv, h⟩
  · rw [h]
    constructor
    · exact .inr
    · rintro (⟨h1, rfl, h2, ⟨req, h3⟩, h4⟩ | h1)
      · unfold post at h
        rw [h2, h3] at h
        simp [processInit, h1, h4] at h
      · exact h1
  · rw [h]; simp [hb]
  · rw [h]
    unfold processInit at hp
    cases hst : c.stateful with
    | false => simp [hst] at hp; simp [← hp.1]
    | true =>
      cases hs : strOf p.sid with
      | none =>
        simp only [hst, hs, ↓reduceIte, Prod.mk.injEq] at hp
        simp only [← hp.1, hv, hb, AMap.contains, AMap.get_insert]
        by_cases hn : sid = n
        · subst hn; simp
        · simp [hn, Ne.symm hn]
      | some t =>
        simp only [hst, hs, ↓reduceIte] at hp
        have : s' = s := by
          split at hp
          · split at hp
            · cases hp
            · cases hp; rfl
          · cases hp; rfl
        subst this; simp

theorem delete_contains (c : Config) (s : State) (h : Option Hdr) (sid : Text) :
    AMap.contains (delete c s h).1.sessions sid = true ↔
      (AMap.contains s.sessions sid = true ∧ h ≠ some (.text sid)) := by
  unfold delete
  cases hs : strOf h with
  | none =>
    have : h ≠ some (.text sid) := by rintro rfl; simp [strOf] at hs
    simp [this]
  | some t =>
    rw [strOf_some_iff] at hs; subst hs
    simp only [Option.some.injEq, Hdr.text.injEq, ne_eq]
    split
    · next hc =>
      simp only [Bool.and_eq_true, Bool.not_eq_true', AMap.contains] at hc
      constructor
      · intro h; exact ⟨h, by rintro rfl; simp [AMap.contains, hc.1] at h⟩
      · exact fun h => h.1
    · simp only [AMap.contains, AMap.get_remove]
      by_cases ht : sid = t
      · subst ht; simp
      · simp [ht, Ne.symm ht]

theorem getStart_contains (c : Config) (s : State) (a h l : Option Hdr) (n sid : Text) :
    AMap.contains (getStart c s a h l n).1.sessions sid = true ↔
      Creates c (.getStart a h l n) sid ∨ AMap.contains s.sessions sid = true := by
  have key : Creates c (.getStart a h l n) sid ↔ c.stateful = true ∧ n = sid ∧
      validateGet a = none ∧ strOf h = none := by
    simp only [Creates, Op.getStart.injEq, reduceCtorEq, false_and, exists_false, false_or,
      (C37_get_passes_iff a).1, strOf_none_iff]
    constructor
    · rintro ⟨h1, a', b', c', ⟨rfl, rfl, rfl, rfl⟩, h2, h3⟩; exact ⟨h1, rfl, h2, h3⟩
    · rintro ⟨h1, rfl, h2, h3⟩; exact ⟨h1, a, h, l, ⟨rfl, rfl, rfl, rfl⟩, h2, h3⟩
  rw [key]
  rcases getStart_cases c s a h l n with ⟨code, hh⟩ | ⟨t, hs, _, hh⟩ | ⟨hs, hst, hv, hh⟩
  · rw [hh]
    constructor
    · exact .inr
    · rintro (⟨h1, rfl, h2, h3⟩ | h1)
      · unfold getStart at hh
        rw [h2, h3] at hh
        simp [h1] at hh
      · exact h1
  · rw [hh]; simp [hs]
  · rw [hh]
    simp only [hst, hv, hs, AMap.contains, AMap.get_insert]
    by_cases hn : sid = n
    · subst hn; simp
    · simp [hn, Ne.symm hn]

theorem step_contains (c : Config) (s : State) (op : Op) (sid : Text) :
    AMap.contains (step c s op).1.sessions sid = true ↔
      Creates c op sid ∨ (AMap.contains s.sessions sid = true ∧ ¬ Deletes op sid) := by
  cases op with
  | post p n => simp only [step, post_contains, Deletes, reduceCtorEq, not_false_eq_true, and_true]
  | process i r neg ev => simp [step, process_contains, Creates, Deletes]
  | getStart a h l n => simp only [step, getStart_contains, Deletes, reduceCtorEq, not_false_eq_true, and_true]
  | getCheck i => simp [step, (getCheck_frame s i).1, Creates, Deletes]
  | getOpen i => simp [step, (getOpen_frame c s i).1, Creates, Deletes]
  | delete h => simp [step, delete_contains, Creates, Deletes]
  | disconnect k => simp [step, (disconnect_frame s k).1, Creates, Deletes]
  | deliver k ev => simp [step, (deliver_frame c s k ev).1, Creates, Deletes]

theorem run_snoc (c : Config) (s : State) (h : List Op) (op : Op) :
    run c s (h ++ [op]) = (step c (run c s h) op).1 := by
  simp [run, List.foldl_append]

theorem live_snoc (c : Config) (h : List Op) (op : Op) (sid : Text) :
    Live c (h ++ [op]) sid ↔ Creates c op sid ∨ (Live c h sid ∧ ¬ Deletes op sid) := by
  constructor
  · rintro ⟨b, o, a, heq, hc, hd⟩
    cases a using Verif.snocInduction with
    | nil =>
      have := List.append_inj' heq rfl
      simp only [List.cons.injEq, and_true] at this
      exact .inl (this.2 ▸ hc)
    | append_singleton a' x _ =>
      have h2 : h ++ [op] = (b ++ o :: a') ++ [x] := by simpa using heq
      have := List.append_inj' h2 rfl
      simp only [List.cons.injEq, and_true] at this
      refine .inr ⟨⟨b, o, a', this.1, hc, fun d hd' => hd d (by simp [hd'])⟩, ?_⟩
      rw [this.2]; exact hd x (by simp)
  · rintro (hc | ⟨⟨b, o, a, rfl, hc, hd⟩, hn⟩)
    · exact ⟨h, op, [], rfl, hc, by simp⟩
    · refine ⟨b, o, a ++ [op], by simp, hc, ?_⟩
      intro d hd'
      simp only [List.mem_append, List.mem_singleton] at hd'
      rcases hd' with h1 | rfl
      · exact hd d h1
      · exact hn

/-- C32: after every history the session table contains exactly the sessions that were created and not
deleted since. -/
theorem C32_sessions_are_live (c : Config) (h : List Op) (sid : Text) :
    AMap.contains (run c {} h).sessions sid = true ↔ Live c h sid := by
  induction h using Verif.snocInduction with
  | nil => simp [run, Live, AMap.contains]
  | append_singleton h op ih => rw [run_snoc, step_contains, ih, live_snoc]

/-- C32: a non-initialize request with acceptable headers and no readable session id is answered 400 and
changes nothing. -/
theorem C32_missing_session_400 (c : Config) (s : State) (p : Post) (n : Text) (hst : c.stateful = true)
    (hh : PostHeadersOk p.contentType p.accept) (hb : ∀ r, p.body ≠ .init r) (hsid : NoSid p.sid) :
    post c s p n = (s, .status 400) := by
  unfold post
  rw [(C37_post_passes_iff ..).mpr hh]
  rw [← strOf_none_iff] at hsid
  cases hb' : p.body with
  | init r => exact absurd hb' (hb r)
  | invalid => rfl
  | request r => simp [validateNonInit, hst, hsid]
  | notification r => simp [validateNonInit, hst, hsid]
  | response r => simp [validateNonInit, hst, hsid]

/-- C32: a well-formed non-initialize request naming a session that does not exist (never created, or
deleted) is answered 404 and changes nothing, whatever happened before. -/
theorem C32_unknown_session_404 (c : Config) (h : List Op) (p : Post) (n sid : Text) (hst : c.stateful = true)
    (hh : PostHeadersOk p.contentType p.accept) (hb : ∀ r, p.body ≠ .init r) (hbad : p.body ≠ .invalid)
    (hsid : p.sid = some (.text sid)) (hl : ¬ Live c h sid) :
    post c (run c {} h) p n = (run c {} h, .status 404) := by
  unfold post
  rw [(C37_post_passes_iff ..).mpr hh]
  rw [← C32_sessions_are_live] at hl
  rw [← strOf_some_iff] at hsid
  cases hb' : p.body with
  | init r => exact absurd hb' (hb r)
  | invalid => exact absurd hb' hbad
  | request r => simp [validateNonInit, hst, hsid, hl]
  | notification r => simp [validateNonInit, hst, hsid, hl]
  | response r => simp [validateNonInit, hst, hsid, hl]

/-- A request that waits for the MCP server after the history was admitted at some point, and if it is not
an initialization its session existed then. (Specification: no counterpart in the code.) -/
def AdmittedLive (c : Config) (h : List Op) (clientSid : Option Text) (req : Nat) : Prop :=
  ∃ before p n after, h = before ++ .post p n :: after ∧ strOf p.sid = clientSid ∧
    (p.body = .init req ∨ (p.body = .request req ∧ ∃ sid, clientSid = some sid ∧ Live c before sid))

theorem admitted_mono (c : Config) (h : List Op) (op : Op) (cs : Option Text) (r : Nat)
    (ha : AdmittedLive c h cs r) : AdmittedLive c (h ++ [op]) cs r := by
  obtain ⟨b, p, n, a, rfl, h1, h2⟩ := ha
  exact ⟨b, p, n, a ++ [op], by simp, h1, h2⟩

theorem admitted_inv (c : Config) (hst : c.stateful = true) (h : List Op) :
    (∀ q ∈ (run c {} h).posts, AdmittedLive c h q.clientSid q.req) ∧
      ∀ e ∈ (run c {} h).handled, AdmittedLive c h e.1 e.2 := by
  induction h using Verif.snocInduction with
  | nil => simp [run]
  | append_singleton h op ih =>
    obtain ⟨ih1, ih2⟩ := ih
    rw [run_snoc]
    have keep : ∀ s' : State, s'.posts = (run c {} h).posts → s'.handled = (run c {} h).handled →
        (∀ q ∈ s'.posts, AdmittedLive c (h ++ [op]) q.clientSid q.req) ∧
          ∀ e ∈ s'.handled, AdmittedLive c (h ++ [op]) e.1 e.2 := by
      intro s' h1 h2
      rw [h1, h2]
      exact ⟨fun q hq => admitted_mono _ _ _ _ _ (ih1 q hq), fun e he => admitted_mono _ _ _ _ _ (ih2 e he)⟩
    cases op with
    | post p n =>
      simp only [step]
      rcases post_cases c (run c {} h) p n with ⟨code, hh⟩ | ⟨req, r, hh, hb⟩ | ⟨req, s', r, hp, hb, hv, hh⟩
      · rw [hh]; exact keep _ rfl rfl
      · rw [hh]
        refine ⟨?_, (keep _ rfl rfl).2⟩
        intro q hq
        simp only [List.mem_append, List.mem_singleton] at hq
        rcases hq with hq | rfl
        · exact admitted_mono _ _ _ _ _ (ih1 q hq)
        · refine ⟨h, p, n, [], rfl, rfl, .inr ⟨hb, ?_⟩⟩
          unfold post at hh
          rw [hb] at hh
          cases hs : strOf p.sid with
          | none =>
            cases hvv : validatePost p.contentType p.accept <;> simp [hvv, validateNonInit, hst, hs] at hh
          | some t =>
            refine ⟨t, rfl, ?_⟩
            rw [← C32_sessions_are_live]
            cases hct : AMap.contains (run c {} h).sessions t with
            | true => rfl
            | false =>
              cases hvv : validatePost p.contentType p.accept <;>
                simp [hvv, validateNonInit, hst, hs, hct] at hh
      · rw [hh]
        have e1 := processInit_posts c (run c {} h) (strOf p.sid) (strOf p.version) n
        have e2 := processInit_handled c (run c {} h) (strOf p.sid) (strOf p.version) n
        rw [hp] at e1 e2
        simp only at e1 e2
        refine ⟨?_, (keep s' e1 e2).2⟩
        intro q hq
        simp only [List.mem_append, List.mem_singleton, e1] at hq
        rcases hq with hq | rfl
        · exact admitted_mono _ _ _ _ _ (ih1 q hq)
        · exact ⟨h, p, n, [], rfl, rfl, .inl hb⟩
    | process i r neg ev =>
      simp only [step]
      cases hq : (run c {} h).posts[i]? with
      | none => unfold process; rw [hq]; exact keep _ rfl rfl
      | some q =>
        rw [process_eq c _ i r neg ev q hq]
        simp only [build_posts, build_handled, before_posts, before_handled]
        constructor
        · intro x hx
          exact admitted_mono _ _ _ _ _ (ih1 x (List.mem_of_mem_eraseIdx hx))
        · intro e he
          simp only [List.mem_append, List.mem_singleton] at he
          rcases he with he | rfl
          · exact admitted_mono _ _ _ _ _ (ih2 e he)
          · exact admitted_mono _ _ _ _ _ (ih1 q (List.mem_of_getElem? hq))
    | getStart a sid l n =>
      simp only [step]
      rcases getStart_cases c (run c {} h) a sid l n with ⟨code, hh⟩ | ⟨t, hs, _, hh⟩ | ⟨hs, _, hv, hh⟩ <;>
        (rw [hh]; exact keep _ rfl rfl)
    | getCheck i =>
      obtain ⟨_, _, h1, h2, _⟩ := getCheck_frame (run c {} h) i
      exact keep _ h1 h2
    | getOpen i => obtain ⟨_, h1, h2⟩ := getOpen_frame c (run c {} h) i; exact keep _ h1 h2
    | delete sid => obtain ⟨_, h1, h2⟩ := delete_frame c (run c {} h) sid; exact keep _ h1 h2
    | disconnect k => obtain ⟨_, _, _, h1, h2⟩ := disconnect_frame (run c {} h) k; exact keep _ h1 h2
    | deliver k ev => obtain ⟨_, _, _, h1, h2⟩ := deliver_frame c (run c {} h) k ev; exact keep _ h1 h2

/-- C32: whatever reaches the MCP server is an initialization, or a request whose session id named a live
session when it was received.

Partial: the session may have been deleted between that check and the moment the request obtains the lock
on the server (`C32_deleted_while_waiting`). -/
theorem C32_handled_was_live_partial (c : Config) (hst : c.stateful = true) (h : List Op) (e : Option Text × Nat)
    (he : e ∈ (run c {} h).handled) :
    ∃ before p n after, h = before ++ .post p n :: after ∧ strOf p.sid = e.1 ∧
      (p.body = .init e.2 ∨ (p.body = .request e.2 ∧ ∃ sid, e.1 = some sid ∧ Live c before sid)) :=
  (admitted_inv c hst h).2 e he

/-- (Specification: no counterpart in the code.) -/
def sidA : Text := "a".toList
/-- (Specification: no counterpart in the code.) -/
def sidB : Text := "b".toList
/-- (Specification: no counterpart in the code.) -/
def initPost : Post := ⟨jsonH, bothH, none, none, .init 1⟩
/-- (Specification: no counterpart in the code.) -/
def reqPost (sid : Text) (r : Nat) : Post := ⟨jsonH, bothH, some (.text sid), none, .request r⟩

/-- (Specification: no counterpart in the code.) -/
def exHistory : List Op :=
  [.post initPost sidA, .process 0 7 (some "2024-11-05".toList) "e1".toList, .post (reqPost sidA 2) [],
   .process 0 8 none "e2".toList]

example : (run {} {} exHistory).handled = [(none, 1), (some sidA, 2)] := by decide +kernel
example : (post {} (run {} {} (exHistory ++ [.delete (some (.text sidA))])) (reqPost sidA 3) []).2 = .status 404 := by
  decide +kernel

/-- Finding: a request can be processed for a session that was deleted while the request was waiting. -/
theorem C32_deleted_while_waiting :
    let h := [Op.post initPost sidA, .process 0 7 none [], .post (reqPost sidA 2) [],
      .delete (some (.text sidA)), .process 0 8 none []]
    (run {} {} h).handled = [(none, 1), (some sidA, 2)] ∧ (run {} {} h).sessions = [] := by
  decide +kernel

/-! ### C33 -/

theorem contains_keep (c : Config) (s : State) (sid : Text) (h : List Op) (hd : ∀ op ∈ h, ¬ Deletes op sid)
    (hc : AMap.contains s.sessions sid = true) : AMap.contains (run c s h).sessions sid = true := by
  induction h generalizing s with
  | nil => exact hc
  | cons op h ih =>
    rw [run_cons]
    refine ih _ (fun o ho => hd o (by simp [ho])) ?_
    rw [step_contains]
    exact .inr ⟨hc, hd op (by simp)⟩

theorem post_known_not_404 (c : Config) (s : State) (p : Post) (n sid : Text) (hsid : p.sid = some (.text sid))
    (hc : AMap.contains s.sessions sid = true) : (post c s p n).2 ≠ .status 404 := by
  rw [← strOf_some_iff] at hsid
  intro hcon
  unfold post at hcon
  have hvp : ∀ code, validatePost p.contentType p.accept = some code → code ≠ 404 := by
    intro code h; unfold validatePost at h
    repeat (first | (cases h; decide) | split at h | exact absurd h (by simp))
  have hvv : ∀ code, validateVersion c s (strOf p.sid) (strOf p.version) = some code → code ≠ 404 := by
    intro code h; unfold validateVersion at h
    repeat (first | (cases h; decide) | split at h | exact absurd h (by simp))
  have hni : ∀ code, validateNonInit c s (strOf p.sid) ≠ .error code := by
    intro code; unfold validateNonInit; rw [hsid]; split <;> simp [hc]
  have hpi : ∀ s' code, processInit c s (strOf p.sid) (strOf p.version) n = (s', .error code) → code ≠ 404 := by
    intro s' code h; unfold processInit at h
    repeat (first | (cases h; decide) | split at h | exact absurd h (by simp))
  cases hv : validatePost p.contentType p.accept with
  | some code =>
    simp only [hv, Out.status.injEq] at hcon
    exact hvp code hv hcon
  | none =>
    simp only [hv] at hcon
    cases hb : p.body with
    | invalid => simp [hb] at hcon
    | init r =>
      simp only [hb] at hcon
      split at hcon
      · next s' code heq => simp only [Out.status.injEq] at hcon; exact hpi s' code heq hcon
      · simp at hcon
    | request r =>
      simp only [hb] at hcon
      split at hcon
      · next code heq => exact hni code heq
      · split at hcon
        · next code heq => simp only [Out.status.injEq] at hcon; exact hvv code heq hcon
        · simp at hcon
    | notification r =>
      simp only [hb] at hcon
      split at hcon
      · next code heq => exact hni code heq
      · split at hcon
        · next code heq => simp only [Out.status.injEq] at hcon; exact hvv code heq hcon
        · simp at hcon
    | response r =>
      simp only [hb] at hcon
      split at hcon
      · next code heq => exact hni code heq
      · split at hcon
        · next code heq => simp only [Out.status.injEq] at hcon; exact hvv code heq hcon
        · simp at hcon

/-- C33: the session id of an accepted initialization that carried no session id of its own, or that of an
existing session, is never answered 404 until it is deleted.

Partial: for an initialization with a session id the server does not know, see
`C33_unknown_session_accepted_then_404`. -/
theorem C33_session_usable_partial (c : Config) (s : State) (p : Post) (n sid : Text) (s' : State) (q : Pending)
    (h : post c s p n = (s', .goesOn)) (hq : s'.posts = s.posts ++ [q]) (hi : q.isInit = true)
    (hr : q.respSid = some sid) (hsid : NoSid p.sid ∨ AMap.contains s.sessions sid = true)
    (later : List Op) (hd : ∀ op ∈ later, ¬ Deletes op sid) (p' : Post) (n' : Text)
    (hp' : p'.sid = some (.text sid)) :
    (post c (run c s' later) p' n').2 ≠ .status 404 := by
  refine post_known_not_404 c _ p' n' sid hp' (contains_keep c s' sid later hd ?_)
  rcases post_cases c s p n with ⟨code, hh⟩ | ⟨req, r, hh, hb⟩ | ⟨req, s2, r, hpi, hb, hv, hh⟩
  · rw [hh] at h; cases h
  · rw [hh] at h; cases h
    simp only [List.append_cancel_left_eq, List.cons.injEq, and_true] at hq
    subst hq; cases hi
  · rw [hh] at h; cases h
    have e1 := processInit_posts c s (strOf p.sid) (strOf p.version) n
    rw [hpi] at e1
    simp only at e1
    simp only [e1, List.append_cancel_left_eq, List.cons.injEq, and_true] at hq
    subst hq
    simp only at hr
    subst hr
    simp only
    unfold processInit at hpi
    cases hst : c.stateful with
    | false => simp [hst] at hpi
    | true =>
      rw [← strOf_none_iff] at hsid
      cases hs : strOf p.sid with
      | none =>
        simp only [hst, hs, ↓reduceIte, Prod.mk.injEq, Except.ok.injEq, Option.some.injEq] at hpi
        rw [← hpi.1, hpi.2]
        simp [AMap.contains, AMap.get_insert]
      | some t =>
        have hc : AMap.contains s.sessions sid = true := by simpa [hs] using hsid
        simp only [hst, hs, ↓reduceIte] at hpi
        have : s2 = s := by
          split at hpi
          · split at hpi
            · cases hpi
            · cases hpi; rfl
          · cases hpi; rfl
        subst this; exact hc

example :
    let s' := run {} {} [.post initPost sidA]
    post {} {} initPost sidA = (s', .goesOn) ∧ s'.posts = [⟨none, some sidA, true, 1⟩] ∧
      (post {} (run {} s' [.process 0 7 none [], .delete (some (.text sidB))]) (reqPost sidA 2) []).2 = .goesOn := by
  decide +kernel

/-- Finding: an initialization carrying a session id the server does not know is answered with that id and
no session is created: as long as the generator does not produce that id, every later request with it is
answered 404. -/
theorem C33_unknown_session_accepted_then_404 (c : Config) (hst : c.stateful = true) (s : State) (sid n : Text)
    (req : Nat) (ct a v : Option Hdr) (hh : PostHeadersOk ct a) (hu : AMap.contains s.sessions sid = false)
    (resp : Msg) (neg : Option Text) (ev : Text) (later : List Op) (hf : ∀ op ∈ later, ¬ Creates c op sid)
    (p' : Post) (n' : Text) (hh' : PostHeadersOk p'.contentType p'.accept) (r' : Nat)
    (hb : p'.body = .request r') (hp' : p'.sid = some (.text sid)) :
    let p : Post := ⟨ct, a, some (.text sid), v, .init req⟩
    let s1 := (post c s p n).1
    (post c s p n).2 = .goesOn ∧
      (∃ code ver body, (process c s1 s.posts.length resp neg ev).2 = .reply code (some sid) ver body) ∧
      (post c (run c (process c s1 s.posts.length resp neg ev).1 later) p' n').2 = .status 404 := by
  intro p s1
  have hget : AMap.get s.sessions sid = none := by simpa [AMap.contains] using hu
  have h1 : post c s p n = ({ s with posts := s.posts ++ [⟨some sid, some sid, true, req⟩] }, .goesOn) := by
    unfold post
    rw [(C37_post_passes_iff ..).mpr hh]
    simp [p, processInit, hst, strOf, hget]
  have hs1 : s1 = { s with posts := s.posts ++ [⟨some sid, some sid, true, req⟩] } := by
    show (post c s p n).1 = _; rw [h1]
  refine ⟨by rw [h1], ?_, ?_⟩
  · rw [process_eq c s1 _ resp neg ev ⟨some sid, some sid, true, req⟩ (by simp [hs1])]
    exact ⟨_, _, _, rfl⟩
  · have hc : AMap.contains (process c s1 s.posts.length resp neg ev).1.sessions sid = false := by
      rw [process_contains, hs1]; exact hu
    have hlater : ∀ (t : State), AMap.contains t.sessions sid = false → (∀ op ∈ later, ¬ Creates c op sid) →
        AMap.contains (run c t later).sessions sid = false := by
      clear hf
      induction later with
      | nil => intro t ht _; exact ht
      | cons op l ih =>
        intro t ht hf
        rw [run_cons]
        refine ih _ ?_ (fun o ho => hf o (by simp [ho]))
        have := step_contains c t op sid
        cases hx : AMap.contains (step c t op).1.sessions sid with
        | false => rfl
        | true =>
          rcases this.mp hx with h | ⟨h, _⟩
          · exact absurd h (hf op (by simp))
          · rw [ht] at h; cases h
    have hfin := hlater _ hc hf
    unfold post
    rw [(C37_post_passes_iff ..).mpr hh', hb]
    rw [← strOf_some_iff] at hp'
    simp [validateNonInit, hst, hp', hfin]

example : PostHeadersOk jsonH bothH ∧ AMap.contains ({} : State).sessions sidA = false :=
  ⟨(C37_post_passes_iff ..).mp jsonH_ok, rfl⟩

theorem live_keep (c : Config) (a later : List Op) (sid : Text) (hl : ∀ op ∈ later, ¬ Deletes op sid ∧ ¬ Creates c op sid) :
    Live c (a ++ later) sid ↔ Live c a sid := by
  induction later using Verif.snocInduction with
  | nil => simp
  | append_singleton l op ih =>
    obtain ⟨h1, h2⟩ := hl op (by simp)
    rw [← List.append_assoc, live_snoc, ih (fun o ho => hl o (by simp [ho]))]
    simp [h1, h2]

/-- C33, exactly: an initialization that is accepted is answered with a session id, its own or, if it has none, a new one.
As long as that session is neither deleted nor created anew, a later request that names it is answered 404 if and only if
the initialization named it although there was no such session. -/
theorem C33_iff (c : Config) (hst : c.stateful = true) (h later : List Op) (p p' : Post) (n n' sid : Text) (req r' : Nat)
    (hh : PostHeadersOk p.contentType p.accept) (hb : p.body = .init req)
    (hr : (NoSid p.sid ∧ n = sid) ∨ p.sid = some (.text sid))
    (hl : ∀ op ∈ later, ¬ Deletes op sid ∧ ¬ Creates c op sid)
    (hh' : PostHeadersOk p'.contentType p'.accept) (hb' : p'.body = .request r') (hp' : p'.sid = some (.text sid)) :
    (post c (run c {} (h ++ .post p n :: later)) p' n').2 = .status 404 ↔ ¬ NoSid p.sid ∧ ¬ Live c h sid := by
  have e : h ++ .post p n :: later = (h ++ [.post p n]) ++ later := by simp
  have h1 : (post c (run c {} (h ++ .post p n :: later)) p' n').2 = .status 404 ↔
      ¬ Live c (h ++ .post p n :: later) sid := by
    constructor
    · intro h4 hv
      exact post_known_not_404 c _ p' n' sid hp' ((C32_sessions_are_live ..).mpr hv) h4
    · intro hv
      rw [C32_unknown_session_404 c _ p' n' sid hst hh' (by rw [hb']; intro r e; cases e) (by rw [hb']; intro e; cases e)
        hp' hv]
  rw [h1, e, live_keep c _ later sid hl, live_snoc]
  have hd : ¬ Deletes (.post p n) sid := by simp [Deletes]
  have hc : Creates c (.post p n) sid ↔ NoSid p.sid := by
    constructor
    · rintro ⟨-, ⟨q, r, he, -, -, hs⟩ | ⟨_, _, _, he, -⟩⟩
      · cases he; exact hs
      · cases he
    · intro hs
      rcases hr with ⟨-, rfl⟩ | hr
      · exact ⟨hst, .inl ⟨p, req, rfl, hh, hb, hs⟩⟩
      · rw [hr] at hs; rcases hs with hs | hs <;> cases hs
  rw [hc]
  constructor
  · intro hn; exact ⟨fun x => hn (.inl x), fun x => hn (.inr ⟨x, hd⟩)⟩
  · rintro ⟨a, b⟩ (x | x)
    · exact a x
    · exact b x.1

example : (post {} (run {} {} [.post ⟨jsonH, bothH, some (.text sidA), none, .init 1⟩ sidB]) (reqPost sidA 2) []).2 =
      .status 404 ∧
    (post {} (run {} {} [.post initPost sidA, .post ⟨jsonH, bothH, some (.text sidA), none, .init 1⟩ sidB])
      (reqPost sidA 2) []).2 ≠ .status 404 := by decide +kernel

/-! ### C34 -/

/-- The version header is acceptable for the session. (Specification: no counterpart in the code.) -/
def VersionOk (c : Config) (s : State) (sid : Option Text) (version : Option Text) : Prop :=
  ∀ v, version = some v → v ∈ ["2025-06-18".toList, "2025-03-26".toList, "2024-11-05".toList, "2024-10-07".toList] ∧
    (c.stateful = true → ∀ t, sid = some t → ∀ info, AMap.get s.sessions t = some info →
      ∀ n, info.version = some n → v = n)

theorem validateVersion_iff (c : Config) (s : State) (sid version : Option Text) :
    validateVersion c s sid version = none ↔ VersionOk c s sid version := by
  unfold validateVersion VersionOk
  rw [show ["2025-06-18".toList, "2025-03-26".toList, "2024-11-05".toList, "2024-10-07".toList] = supported from rfl]
  cases version with
  | none => simp
  | some v =>
    simp only [Option.some.injEq, forall_eq']
    by_cases hv : v ∈ supported
    · simp only [hv, not_true_eq_false, ↓reduceIte, true_and]
      cases hst : c.stateful with
      | false => simp
      | true =>
        simp only [↓reduceIte, true_implies]
        cases sid with
        | none => simp
        | some t =>
          simp only [Option.some.injEq, forall_eq']
          cases hg : AMap.get s.sessions t with
          | none => simp
          | some info =>
            simp only [Option.some.injEq, forall_eq']
            cases hn : info.version with
            | none => simp
            | some m => simp
    · simp [hv]

theorem validateVersion_code (c : Config) (s : State) (sid version : Option Text) (code : Nat)
    (h : validateVersion c s sid version = some code) : code = 400 := by
  unfold validateVersion at h
  repeat (first | (cases h; rfl) | split at h | exact absurd h (by simp))

/-- C34: a request that passed the header and session checks is processed iff its version header, if there
is a readable one, is supported and equal to the version recorded for the session; otherwise it is answered
400 and nothing changes.

Partial: a version header with characters outside visible ASCII counts as absent
(`C34_unreadable_version_accepted`). -/
theorem C34_version_checked_partial (c : Config) (s : State) (p : Post) (n : Text) (r : Nat)
    (hh : PostHeadersOk p.contentType p.accept) (hb : p.body = .request r) (respSid : Option Text)
    (hs : validateNonInit c s (strOf p.sid) = .ok respSid) :
    ((post c s p n).2 = .goesOn ↔ VersionOk c s (strOf p.sid) (strOf p.version)) ∧
      (¬ VersionOk c s (strOf p.sid) (strOf p.version) → post c s p n = (s, .status 400)) := by
  unfold post
  rw [(C37_post_passes_iff ..).mpr hh, hb]
  simp only [hs]
  rw [← validateVersion_iff]
  cases hv : validateVersion c s (strOf p.sid) (strOf p.version) with
  | none => simp
  | some code => simp [validateVersion_code c s _ _ code hv]

/-- C34: after an initialization that negotiated `v`, requests of the session with another version header
are answered 400. -/
theorem C34_negotiated_version_enforced (c : Config) (hst : c.stateful = true) (s : State) (i : Nat) (q : Pending)
    (hq : s.posts[i]? = some q) (hi : q.isInit = true) (sid : Text) (hr : q.respSid = some sid)
    (hc : AMap.contains s.sessions sid = true) (resp : Msg) (neg : Option Text) (ev : Text) (p : Post) (n w : Text)
    (hh : PostHeadersOk p.contentType p.accept) (k : Nat)
    (hb : p.body = .request k ∨ p.body = .notification k ∨ p.body = .response k)
    (hsid : p.sid = some (.text sid)) (hver : p.version = some (.text w)) (hne : w ≠ neg.getD defaultVersion) :
    (post c (process c s i resp neg ev).1 p n).2 = .status 400 := by
  have hg : AMap.get (process c s i resp neg ev).1.sessions sid =
      some ⟨true, some (neg.getD defaultVersion)⟩ := by
    rw [process_eq c s i resp neg ev q hq]
    simp only [build_sessions]
    unfold beforeBuild
    obtain ⟨info, hinfo⟩ := Option.isSome_iff_exists.mp hc
    cases c.store <;> simp [hi, hr, updateAfterInit, hinfo, AMap.get_insert]
  have hct : AMap.contains (process c s i resp neg ev).1.sessions sid = true := by simp [AMap.contains, hg]
  rw [← strOf_some_iff] at hsid hver
  have hno : validateVersion c (process c s i resp neg ev).1 (strOf p.sid) (strOf p.version) = some 400 := by
    cases hv : validateVersion c (process c s i resp neg ev).1 (strOf p.sid) (strOf p.version) with
    | some code => rw [validateVersion_code _ _ _ _ code hv]
    | none =>
      rw [validateVersion_iff] at hv
      exact absurd ((hv w hver).2 hst sid hsid _ hg _ rfl) hne
  unfold post
  rw [(C37_post_passes_iff ..).mpr hh]
  rcases hb with hb | hb | hb <;> simp [hb, validateNonInit, hst, hsid, hct] <;>
    (rw [hsid] at hno; simp [hno])

/-- (Specification: no counterpart in the code.) -/
def verPost (v : Hdr) : Post := ⟨jsonH, bothH, some (.text sidA), some v, .request 5⟩

example :
    let s := run {} {} [.post initPost sidA, .process 0 7 (some "2024-11-05".toList) []]
    (post {} s (verPost (.text "2024-11-05".toList)) []).2 = .goesOn ∧
      (post {} s (verPost (.text "2025-06-18".toList)) []).2 = .status 400 ∧
      (post {} s (verPost (.text "1999-01-01".toList)) []).2 = .status 400 := by
  decide +kernel

/-- Finding: a version header the server cannot read is ignored, so the request is processed. -/
theorem C34_unreadable_version_accepted :
    let s := run {} {} [.post initPost sidA, .process 0 7 (some "2024-11-05".toList) []]
    (post {} s (verPost .bytes) []).2 = .goesOn := by
  decide +kernel

end Verif.HttpServer
