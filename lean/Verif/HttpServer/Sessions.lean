import Verif.HttpServer.Streams

/-
Properties of the streamable HTTP server concerning the life of sessions: C135-C138, and the connections of streams
(C88).
-/

namespace Verif.HttpServer

/-! ### What a step does to a session -/

/-- In state `s` the step answers an initialize request of session `sid`.
(Specification: no counterpart in the code.) -/
def AnswersInit (s : State) (op : Op) (sid : Text) : Prop :=
  ∃ i r neg ev q, op = .process i r neg ev ∧ s.posts[i]? = some q ∧ q.isInit = true ∧ q.respSid = some sid

/-- During the history that starts in `s` an initialize request of session `sid` is answered.
(Specification: no counterpart in the code.) -/
def InitAnswered (c : Config) (s : State) (h : List Op) (sid : Text) : Prop :=
  ∃ a op b, h = a ++ op :: b ∧ AnswersInit (run c s a) op sid

theorem initAnswered_cons (c : Config) (s : State) (op : Op) (h : List Op) (sid : Text) :
    InitAnswered c s (op :: h) sid ↔ AnswersInit s op sid ∨ InitAnswered c (step c s op).1 h sid := by
  constructor
  · rintro ⟨a, o, b, e, ha⟩
    cases a with
    | nil => cases e; exact .inl ha
    | cons x a => cases e; exact .inr ⟨a, o, b, rfl, ha⟩
  · rintro (h1 | ⟨a, o, b, rfl, ha⟩)
    · exact ⟨[], op, h, rfl, h1⟩
    · exact ⟨op :: a, o, b, rfl, ha⟩

theorem before_sessions (c : Config) (s : State) (i : Nat) (p : Pending) (resp : Msg) (neg : Option Text) (ev : Text) :
    (beforeBuild c s i p resp neg ev).sessions =
      if p.isInit then (updateAfterInit s p.respSid neg).sessions else s.sessions := by
  unfold beforeBuild updateAfterInit
  cases p.isInit <;> cases c.store <;> cases p.respSid <;> simp <;> split <;> rfl

theorem update_get (s : State) (r neg : Option Text) (sid : Text) :
    AMap.get (updateAfterInit s r neg).sessions sid =
      if r = some sid ∧ AMap.contains s.sessions sid = true then some ⟨true, some (neg.getD defaultVersion)⟩
      else AMap.get s.sessions sid := by
  unfold updateAfterInit
  cases r with
  | none => simp
  | some t =>
    simp only [Option.some.injEq]
    cases hg : AMap.get s.sessions t with
    | none =>
      simp only
      split
      · rename_i h; obtain ⟨rfl, h⟩ := h; simp [AMap.contains, hg] at h
      · rfl
    | some info =>
      simp only [AMap.get_insert]
      by_cases ht : sid = t
      · subst ht; simp [AMap.contains, hg]
      · have : t ≠ sid := fun h => ht h.symm
        simp [ht, this]

theorem process_get (c : Config) (s : State) (i : Nat) (r : Msg) (neg : Option Text) (ev sid : Text) (q : Pending)
    (hq : s.posts[i]? = some q) :
    AMap.get (process c s i r neg ev).1.sessions sid =
      if q.isInit = true ∧ q.respSid = some sid ∧ AMap.contains s.sessions sid = true then
        some ⟨true, some (neg.getD defaultVersion)⟩
      else AMap.get s.sessions sid := by
  rw [process_eq c s i r neg ev q hq]
  simp only [build_sessions, before_sessions]
  cases hi : q.isInit with
  | false => simp
  | true => simp only [↓reduceIte, update_get, true_and]

/-- Steps that neither create nor delete a session nor answer its initialization leave it alone. -/
theorem step_get (c : Config) (s : State) (op : Op) (sid : Text) (hc : ¬ Creates c op sid) (hd : ¬ Deletes op sid)
    (ha : ¬ AnswersInit s op sid) : AMap.get (step c s op).1.sessions sid = AMap.get s.sessions sid := by
  cases op with
  | post p n =>
    simp only [step]
    rcases post_cases c s p n with ⟨code, h⟩ | ⟨req, r, h, _⟩ | ⟨req, s', r, hp, hb, hv, h⟩
    · rw [h]
    · rw [h]
    · rw [h]
      unfold processInit at hp
      cases hst : c.stateful with
      | false => simp [hst] at hp; simp [← hp.1]
      | true =>
        cases hs : strOf p.sid with
        | none =>
          simp only [hst, hs, ↓reduceIte, Prod.mk.injEq] at hp
          have : sid ≠ n := by
            rintro rfl
            exact hc ⟨hst, .inl ⟨p, req, rfl, (C37_post_passes_iff ..).mp hv, hb, (strOf_none_iff _).mp hs⟩⟩
          simp only [← hp.1, AMap.get_insert, if_neg this]
        | some t =>
          simp only [hst, hs, ↓reduceIte] at hp
          have : s' = s := by
            split at hp
            · split at hp
              · cases hp
              · cases hp; rfl
            · cases hp; rfl
          subst this; rfl
  | process i r neg ev =>
    simp only [step]
    cases hq : s.posts[i]? with
    | none => unfold process; rw [hq]
    | some q =>
      rw [process_get c s i r neg ev sid q hq, if_neg]
      rintro ⟨h1, h2, _⟩
      exact ha ⟨i, r, neg, ev, q, rfl, hq, h1, h2⟩
  | getStart a h l n =>
    simp only [step]
    rcases getStart_cases c s a h l n with ⟨code, hh⟩ | ⟨t, hs, _, hh⟩ | ⟨hs, hst, hv, hh⟩
    · rw [hh]
    · rw [hh]
    · rw [hh]
      have : sid ≠ n := by
        rintro rfl
        exact hc ⟨hst, .inr ⟨a, h, l, rfl, (C37_get_passes_iff a).1.mp hv, (strOf_none_iff _).mp hs⟩⟩
      simp only [AMap.get_insert, if_neg this]
  | getCheck i => simp only [step, (getCheck_frame s i).1]
  | getOpen i => simp only [step, (getOpen_frame c s i).1]
  | delete h =>
    simp only [step, delete]
    cases hs : strOf h with
    | none => rfl
    | some t =>
      rw [strOf_some_iff] at hs
      subst hs
      have : sid ≠ t := by rintro rfl; exact hd rfl
      simp only
      split
      · rfl
      · simp only [AMap.get_remove, if_neg this]
  | disconnect k => simp only [step, (disconnect_frame s k).1]
  | deliver k ev => simp only [step, (deliver_frame c s k ev).1]

/-- The same for histories. -/
theorem run_get (c : Config) (s : State) (h : List Op) (sid : Text) (hc : ∀ op ∈ h, ¬ Creates c op sid)
    (hd : ∀ op ∈ h, ¬ Deletes op sid) (ha : ¬ InitAnswered c s h sid) :
    AMap.get (run c s h).sessions sid = AMap.get s.sessions sid := by
  induction h generalizing s with
  | nil => rfl
  | cons op h ih =>
    rw [initAnswered_cons, not_or] at ha
    rw [run_cons, ih _ (fun o ho => hc o (by simp [ho])) (fun o ho => hd o (by simp [ho])) ha.2,
      step_get c s op sid (hc op (by simp)) (hd op (by simp)) ha.1]

/-- Once initialized, a session stays initialized. -/
theorem initialized_keep (c : Config) (s : State) (h : List Op) (sid : Text) (hc : ∀ op ∈ h, ¬ Creates c op sid)
    (hd : ∀ op ∈ h, ¬ Deletes op sid) (hi : (AMap.get s.sessions sid).map (·.initialized) = some true) :
    (AMap.get (run c s h).sessions sid).map (·.initialized) = some true := by
  induction h generalizing s with
  | nil => exact hi
  | cons op h ih =>
    rw [run_cons]
    refine ih _ (fun o ho => hc o (by simp [ho])) (fun o ho => hd o (by simp [ho])) ?_
    by_cases ha : AnswersInit s op sid
    · obtain ⟨i, r, neg, ev, q, rfl, hq, h1, h2⟩ := ha
      have : AMap.contains s.sessions sid = true := by
        unfold AMap.contains
        cases hg : AMap.get s.sessions sid with
        | none => rw [hg] at hi; cases hi
        | some x => rfl
      simp only [step, process_get c s i r neg ev sid q hq, h1, h2, this, and_self, ↓reduceIte, Option.map_some]
    · rw [step_get c s op sid (hc op (by simp)) (hd op (by simp)) ha]
      exact hi

/-- What happens to an initialize request that names a session. -/
theorem post_init_known (c : Config) (hst : c.stateful = true) (s : State) (p : Post) (n sid : Text) (r : Nat)
    (hh : PostHeadersOk p.contentType p.accept) (hb : p.body = .init r) (hs : p.sid = some (.text sid))
    (b : Bool) (hi : (AMap.get s.sessions sid).map (·.initialized) = some b) :
    (b = true → post c s p n = (s, .status 400)) ∧ (b = false → (post c s p n).2 = .goesOn) := by
  rw [← strOf_some_iff] at hs
  unfold post
  rw [(C37_post_passes_iff ..).mpr hh, hb]
  simp only [processInit, hst, hs, ↓reduceIte]
  cases hg : AMap.get s.sessions sid with
  | none => rw [hg] at hi; cases hi
  | some info =>
    rw [hg] at hi
    simp only [Option.map_some, Option.some.injEq] at hi
    subst hi
    constructor
    · intro h; simp [h]
    · intro h; simp [h]

/-! ### C135 -/

/-- **C135**. A session created by an initialize request, as long as it is neither deleted nor created anew: a
further initialize request that names it is refused with 400, and changes nothing, if an initialization of the
session has been answered, and is accepted otherwise. -/
theorem C135_initialized_once (c : Config) (hst : c.stateful = true) (s : State) (p : Post) (sid : Text) (r : Nat)
    (hh : PostHeadersOk p.contentType p.accept) (hb : p.body = .init r) (hs : NoSid p.sid)
    (later : List Op) (hc : ∀ op ∈ later, ¬ Creates c op sid) (hd : ∀ op ∈ later, ¬ Deletes op sid)
    (p' : Post) (n' : Text) (r' : Nat) (hh' : PostHeadersOk p'.contentType p'.accept) (hb' : p'.body = .init r')
    (hs' : p'.sid = some (.text sid)) :
    let s1 := (post c s p sid).1
    (InitAnswered c s1 later sid → post c (run c s1 later) p' n' = (run c s1 later, .status 400)) ∧
      (¬ InitAnswered c s1 later sid → (post c (run c s1 later) p' n').2 = .goesOn) := by
  intro s1
  have h1 : AMap.get s1.sessions sid = some ⟨false, strOf p.version⟩ := by
    show AMap.get (post c s p sid).1.sessions sid = _
    rw [← strOf_none_iff] at hs
    unfold post
    rw [(C37_post_passes_iff ..).mpr hh, hb]
    simp [processInit, hst, hs]
  constructor
  · rintro ⟨a, op, b, rfl, ha⟩
    have hc1 : ∀ o ∈ a, ¬ Creates c o sid := fun o ho => hc o (by simp [ho])
    have hd1 : ∀ o ∈ a, ¬ Deletes o sid := fun o ho => hd o (by simp [ho])
    refine (post_init_known c hst _ p' n' sid r' hh' hb' hs' true ?_).1 rfl
    rw [run_append, run_cons]
    refine initialized_keep c _ b sid (fun o ho => hc o (by simp [ho])) (fun o ho => hd o (by simp [ho])) ?_
    obtain ⟨i, r, neg, ev, q, rfl, hq, e1, e2⟩ := ha
    have : AMap.contains (run c s1 a).sessions sid = true :=
      contains_keep c s1 sid a hd1 (by simp [AMap.contains, h1])
    simp only [step, process_get c _ i r neg ev sid q hq, e1, e2, this, and_self, ↓reduceIte, Option.map_some]
  · intro ha
    refine (post_init_known c hst _ p' n' sid r' hh' hb' hs' false ?_).2 rfl
    rw [run_get c s1 later sid hc hd ha, h1]
    rfl

/-- (Specification: no counterpart in the code.) -/
def initAgain (sid : Text) : Post := ⟨jsonH, bothH, some (.text sid), none, .init 9⟩

example : InitAnswered {} (post {} {} initPost sidA).1 [.process 0 7 none []] sidA :=
  ⟨[], _, [], rfl, 0, 7, none, [], ⟨none, some sidA, true, 1⟩, rfl, by decide +kernel, rfl, rfl⟩

example : (post {} (run {} {} [.post initPost sidA, .process 0 7 none []]) (initAgain sidA) []).2 = .status 400 ∧
    (post {} (run {} {} [.post initPost sidA]) (initAgain sidA) []).2 = .goesOn := by decide +kernel

/-- **C135** fails: a session created by opening a stream can never be initialized, although nobody has initialized
it. -/
theorem C135_stream_first (c : Config) (hst : c.stateful = true) (s : State) (a l : Option Hdr) (h : Option Hdr) (sid : Text)
    (hh : GetHeadersOk a) (hs : NoSid h)
    (later : List Op) (hc : ∀ op ∈ later, ¬ Creates c op sid) (hd : ∀ op ∈ later, ¬ Deletes op sid)
    (p' : Post) (n' : Text) (r' : Nat) (hh' : PostHeadersOk p'.contentType p'.accept) (hb' : p'.body = .init r')
    (hs' : p'.sid = some (.text sid)) :
    let s1 := (getStart c s a h l sid).1
    post c (run c s1 later) p' n' = (run c s1 later, .status 400) := by
  intro s1
  refine (post_init_known c hst _ p' n' sid r' hh' hb' hs' true ?_).1 rfl
  refine initialized_keep c _ later sid hc hd ?_
  show (AMap.get (getStart c s a h l sid).1.sessions sid).map _ = _
  rw [← strOf_none_iff] at hs
  unfold getStart
  rw [(C37_get_passes_iff a).1.mpr hh, hs]
  simp [hst]

example : (post {} (run {} {} [.getStart bothH none none sidA]) (initAgain sidA) []).2 = .status 400 := by decide +kernel

/-! ### C136 -/

/-- **C136**. The answer to an initialize request carries the version the MCP server negotiated; and while the
session is neither deleted nor created or initialized again, so does the answer to every request of the session.
Missing from the property: servers without sessions (`C136_stateless`), sessions deleted meanwhile. -/
theorem C136_version_partial (c : Config) (s : State) (i : Nat) (q : Pending) (sid : Text) (r : Msg) (neg : Option Text)
    (ev : Text) (hq : s.posts[i]? = some q) (h1 : q.isInit = true) (h2 : q.respSid = some sid)
    (hl : AMap.contains s.sessions sid = true) :
    (∃ code b, (process c s i r neg ev).2 = .reply code (some sid) (neg.getD defaultVersion) b) ∧
    ∀ later, (∀ op ∈ later, ¬ Creates c op sid) → (∀ op ∈ later, ¬ Deletes op sid) →
      ¬ InitAnswered c (process c s i r neg ev).1 later sid →
      ∀ j q' r' neg' ev', (run c (process c s i r neg ev).1 later).posts[j]? = some q' → q'.isInit = false →
        q'.respSid = some sid →
        ∃ code b, (process c (run c (process c s i r neg ev).1 later) j r' neg' ev').2 =
          .reply code (some sid) (neg.getD defaultVersion) b := by
  constructor
  · rw [process_eq c s i r neg ev q hq, h2]
    simp only [versionHeader, h1, ↓reduceIte]
    exact ⟨_, _, rfl⟩
  · intro later hc hd ha j q' r' neg' ev' hq' e1 e2
    rw [process_eq c _ j r' neg' ev' q' hq', e2]
    simp only [versionHeader, e1, Bool.false_eq_true, ↓reduceIte, e2, build_sessions, before_sessions]
    rw [run_get c _ later sid hc hd ha, process_get c s i r neg ev sid q hq]
    simp only [h1, h2, hl, and_self, ↓reduceIte, Option.getD_some]
    exact ⟨_, _, rfl⟩

example :
    let s := run {} {} [.post initPost sidA]
    s.posts[0]? = some ⟨none, some sidA, true, 1⟩ ∧ AMap.contains s.sessions sidA = true ∧
    (step {} (run {} s [.process 0 7 (some "2024-11-05".toList) [], .post (reqPost sidA 2) []]) (.process 0 8 none [])).2 =
      .reply 200 (some sidA) "2024-11-05".toList (.here 8) := by decide +kernel

/-- **C136** fails without sessions: whatever was negotiated, the answers to requests after the initialization
carry the default version. -/
theorem C136_stateless (c : Config) (s : State) (j : Nat) (q : Pending) (r : Msg) (neg : Option Text) (ev : Text)
    (hq : s.posts[j]? = some q) (h1 : q.isInit = false) (h2 : q.respSid = none) :
    ∃ code b, (process c s j r neg ev).2 = .reply code none "2025-03-26".toList b := by
  rw [process_eq c s j r neg ev q hq, h2]
  simp only [versionHeader, h1, Bool.false_eq_true, ↓reduceIte, h2]
  exact ⟨_, _, rfl⟩

/-- In a server without sessions that is so of every admitted request. -/
theorem C136_stateless_requests (c : Config) (hst : c.stateful = false) (s : State) (p : Post) (n : Text) (r : Nat)
    (hb : p.body = .request r) (hg : (post c s p n).2 = .goesOn) :
    (post c s p n).1.posts = s.posts ++ [⟨strOf p.sid, none, false, r⟩] := by
  rcases post_cases c s p n with ⟨code, h⟩ | ⟨req, r', h, hb'⟩ | ⟨req, s', r', hp, hb', hv, h⟩
  · rw [h] at hg; cases hg
  · rw [h]
    rw [hb] at hb'
    cases hb'
    unfold post at h
    rw [hb] at h
    split at h
    · simp at h
    · simp only [validateNonInit, hst, Bool.false_eq_true, ↓reduceIte] at h
      split at h
      · simp at h
      · have e := congrArg (fun x => x.1.posts) h
        simpa using e.symm
  · rw [hb] at hb'; cases hb'

example : (post { stateful := false } {} (reqPost sidA 2) []).2 = .goesOn := by decide +kernel

/-! ### C137 -/

/-- **C137**. With sessions: a DELETE is answered 200 exactly if it names a session that was created and not
deleted since, and then that session and no other is gone; otherwise it is answered 404 and changes nothing. -/
theorem C137_delete (c : Config) (hst : c.stateful = true) (h : List Op) (hdr : Option Hdr) :
    ((∃ sid, hdr = some (.text sid) ∧ Live c h sid) →
      (delete c (run c {} h) hdr).2 = .status 200) ∧
    ((¬ ∃ sid, hdr = some (.text sid) ∧ Live c h sid) →
      delete c (run c {} h) hdr = (run c {} h, .status 404)) ∧
    ∀ sid, Live c (h ++ [.delete hdr]) sid ↔ Live c h sid ∧ hdr ≠ some (.text sid) := by
  refine ⟨?_, ?_, ?_⟩
  · rintro ⟨sid, rfl, hl⟩
    rw [← C32_sessions_are_live] at hl
    simp [delete, strOf, hl]
  · intro hn
    unfold delete
    cases hs : strOf hdr with
    | none => rfl
    | some t =>
      rw [strOf_some_iff] at hs
      have : AMap.contains (run c {} h).sessions t = false := by
        cases hx : AMap.contains (run c {} h).sessions t with
        | false => rfl
        | true => exact absurd ⟨t, hs, (C32_sessions_are_live c h t).mp hx⟩ hn
      simp [this, hst]
  · intro sid
    rw [live_snoc]
    constructor
    · rintro (⟨_, ⟨p, req, h1, _⟩ | ⟨a, b, d, h1, _⟩⟩ | ⟨h1, h2⟩)
      · cases h1
      · cases h1
      · exact ⟨h1, fun e => h2 (by rw [e]; rfl)⟩
    · rintro ⟨h1, h2⟩
      exact .inr ⟨h1, fun e => h2 (by unfold Deletes at e; injection e)⟩

example : (delete {} (run {} {} [.post initPost sidA]) (some (.text sidA))).2 = .status 200 ∧
    (delete {} (run {} {} [.post initPost sidA]) (some (.text sidB))).2 = .status 404 ∧
    (delete {} (run {} {} [.post initPost sidA]) none).2 = .status 404 := by decide +kernel

/-- **C137**: after the DELETE no answer is queued on a stream of the session, until a stream is opened for it. -/
theorem C137_stream_ends (c : Config) (s : State) (sid : Text) (hl : AMap.contains s.sessions sid = true) (i : Nat) (q : Pending)
    (hq : s.posts[i]? = some q) (hs : q.clientSid = some sid) (r : Msg) (neg : Option Text) (ev : Text) :
    let s' := (delete c s (some (.text sid))).1
    (process c s' i r neg ev).1.streams = s.streams ∧
      ∃ code ver, (process c s' i r neg ev).2 = .reply code q.respSid ver (.here r) := by
  intro s'
  have e : s' = { s with senders := AMap.remove s.senders sid, sessions := AMap.remove s.sessions sid } := by
    show (delete c s (some (.text sid))).1 = _
    simp [delete, strOf, hl]
  have hq' : s'.posts[i]? = some q := by rw [e]; exact hq
  rw [process_eq c s' i r neg ev q hq']
  have hsend : AMap.get (beforeBuild c s' i q r neg ev).senders sid = none := by
    rw [before_senders, e]; simp only [AMap.get_remove, ↓reduceIte]
  unfold buildResponse
  cases hj : c.json with
  | true => simp only [↓reduceIte, before_streams, e]; exact ⟨trivial, _, _, rfl⟩
  | false =>
    simp only [Bool.false_eq_true, ↓reduceIte, hs, hsend, before_streams]
    exact ⟨by rw [e], _, _, rfl⟩

example :
    let s := run {} {} [.post initPost sidA, .process 0 7 none [], getA, .getCheck 0, .getOpen 0, .post (reqPost sidA 2) []]
    AMap.contains s.sessions sidA = true ∧ s.posts[0]? = some ⟨some sidA, some sidA, false, 2⟩ := by decide +kernel

/-- **C137** fails: a GET that has passed its checks when the session is deleted opens a stream for the deleted
session. -/
theorem C137_stream_after_delete :
    let s := run {} {} [.post initPost sidA, .process 0 7 none [], getA, .getCheck 0, .delete (some (.text sidA)), .getOpen 0]
    s.sessions = [] ∧ AMap.get s.senders sidA = some 0 ∧ s.streams.map (·.sid) = [sidA] := by
  decide +kernel

/-! ### C138 -/

/-- The calls of the two callbacks of the configuration (/repo/src/server/streamable_http_server.rs L167-170). -/
inductive Call where
  /-- `on_session_initialized` -/
  | opened (sid : Text)
  /-- `on_session_closed` -/
  | closed (sid : Text)
  deriving DecidableEq

/-- The call in `process_init_session`, /repo/src/server/streamable_http_server.rs L386-388. -/
def initCall (c : Config) (sid : Option Text) (newId : Text) : List Call :=
  if c.stateful then
    match sid with
    | some _ => []
    | none => [.opened newId]
  else []

/-- The calls of a step, /repo/src/server/streamable_http_server.rs L386-388, L709-711, L824-826. -/
def calls (c : Config) (s : State) : Op → List Call
  | .post p newId =>
    match validatePost p.contentType p.accept with
    | some _ => []
    | none =>
      match p.body with
      | .init _ => initCall c (strOf p.sid) newId
      | _ => []
  | .getStart accept sid _ newId =>
    match validateGet accept with
    | some _ => []
    | none =>
      match strOf sid with
      | some _ => []
      | none => if c.stateful then [.opened newId] else []
  | .delete sid =>
    match strOf sid with
    | none => []
    | some sid => if !AMap.contains s.sessions sid && c.stateful then [] else [.closed sid]
  | _ => []

/-- The calls during a history. (Specification: no counterpart in the code.) -/
def allCalls (c : Config) (s : State) : List Op → List Call
  | [] => []
  | op :: h => calls c s op ++ allCalls c (step c s op).1 h

theorem allCalls_snoc (c : Config) (s : State) (h : List Op) (op : Op) :
    allCalls c s (h ++ [op]) = allCalls c s h ++ calls c (run c s h) op := by
  induction h generalizing s with
  | nil => simp [allCalls, run]
  | cons o h ih => simp [allCalls, ih, run_cons, List.append_assoc]

theorem calls_cases (c : Config) (s : State) (op : Op) :
    (∃ sid, Creates c op sid ∧ calls c s op = [.opened sid]) ∨
    (∃ sid, Deletes op sid ∧ (c.stateful = true → AMap.contains s.sessions sid = true) ∧ calls c s op = [.closed sid]) ∨
    ((∀ sid, ¬ Creates c op sid) ∧
      (∀ sid, Deletes op sid → c.stateful = true ∧ AMap.contains s.sessions sid = false) ∧ calls c s op = []) := by
  have hnone : (∀ sid, ¬ Creates c op sid) → (∀ sid, ¬ Deletes op sid) → calls c s op = [] → 
      (∃ sid, Creates c op sid ∧ calls c s op = [.opened sid]) ∨
      (∃ sid, Deletes op sid ∧ (c.stateful = true → AMap.contains s.sessions sid = true) ∧ calls c s op = [.closed sid]) ∨
      ((∀ sid, ¬ Creates c op sid) ∧
        (∀ sid, Deletes op sid → c.stateful = true ∧ AMap.contains s.sessions sid = false) ∧ calls c s op = []) :=
    fun a b d => .inr (.inr ⟨a, fun sid h => absurd h (b sid), d⟩)
  cases op with
  | post p n =>
    by_cases hk : c.stateful = true ∧ validatePost p.contentType p.accept = none ∧ (∃ r, p.body = .init r) ∧ strOf p.sid = none
    · obtain ⟨h1, h2, ⟨r, h3⟩, h4⟩ := hk
      exact .inl ⟨n, ⟨h1, .inl ⟨p, r, rfl, (C37_post_passes_iff ..).mp h2, h3, (strOf_none_iff _).mp h4⟩⟩,
        by simp [calls, initCall, h1, h2, h3, h4]⟩
    · refine hnone ?_ (fun sid h => by cases h) ?_
      · rintro sid ⟨h1, ⟨p', r, e, h2, h3, h4⟩ | ⟨a, b, d, e, _⟩⟩
        · cases e
          exact hk ⟨h1, (C37_post_passes_iff ..).mpr h2, ⟨r, h3⟩, (strOf_none_iff _).mpr h4⟩
        · cases e
      · simp only [calls, initCall]
        split
        · rfl
        · rename_i hv
          split
          · rename_i r hb
            split
            · rename_i hst
              split
              · rfl
              · rename_i hs; exact absurd ⟨hst, hv, ⟨r, hb⟩, hs⟩ hk
            · rfl
          · rfl
  | getStart a h l n =>
    by_cases hk : c.stateful = true ∧ validateGet a = none ∧ strOf h = none
    · obtain ⟨h1, h2, h3⟩ := hk
      exact .inl ⟨n, ⟨h1, .inr ⟨a, h, l, rfl, (C37_get_passes_iff a).1.mp h2, (strOf_none_iff _).mp h3⟩⟩,
        by simp [calls, h1, h2, h3]⟩
    · refine hnone ?_ (fun sid h => by cases h) ?_
      · rintro sid ⟨h1, ⟨p', r, e, _⟩ | ⟨a', b, d, e, h2, h3⟩⟩
        · cases e
        · cases e
          exact hk ⟨h1, (C37_get_passes_iff a).1.mpr h2, (strOf_none_iff _).mpr h3⟩
      · simp only [calls]
        split
        · rfl
        · rename_i hv
          split
          · rfl
          · rename_i hs
            split
            · rename_i hst; exact absurd ⟨hst, hv, hs⟩ hk
            · rfl
  | delete h =>
    cases hs : strOf h with
    | none =>
      refine hnone ?_ ?_ (by simp [calls, hs])
      · rintro sid ⟨_, ⟨p', r, e, _⟩ | ⟨a', b, d, e, _⟩⟩ <;> cases e
      · rintro sid e; cases e; cases hs
    | some t =>
      rw [strOf_some_iff] at hs
      subst hs
      by_cases hx : !AMap.contains s.sessions t && c.stateful
      · refine .inr (.inr ⟨?_, ?_, by simp [calls, strOf, hx]⟩)
        · rintro sid ⟨_, ⟨p', r, e, _⟩ | ⟨a', b, d, e, _⟩⟩ <;> cases e
        · intro sid e
          cases e
          simp only [Bool.and_eq_true, Bool.not_eq_true'] at hx
          exact ⟨hx.2, hx.1⟩
      · refine .inr (.inl ⟨t, rfl, ?_, by simp only [calls, strOf, hx, Bool.false_eq_true, ↓reduceIte]⟩)
        intro hst
        simpa [hst] using hx
  | process i r neg ev => exact hnone (by rintro sid ⟨_, ⟨p', r, e, _⟩ | ⟨a', b, d, e, _⟩⟩ <;> cases e) (fun sid e => by cases e) rfl
  | getCheck i => exact hnone (by rintro sid ⟨_, ⟨p', r, e, _⟩ | ⟨a', b, d, e, _⟩⟩ <;> cases e) (fun sid e => by cases e) rfl
  | getOpen i => exact hnone (by rintro sid ⟨_, ⟨p', r, e, _⟩ | ⟨a', b, d, e, _⟩⟩ <;> cases e) (fun sid e => by cases e) rfl
  | disconnect i => exact hnone (by rintro sid ⟨_, ⟨p', r, e, _⟩ | ⟨a', b, d, e, _⟩⟩ <;> cases e) (fun sid e => by cases e) rfl
  | deliver i ev => exact hnone (by rintro sid ⟨_, ⟨p', r, e, _⟩ | ⟨a', b, d, e, _⟩⟩ <;> cases e) (fun sid e => by cases e) rfl

/-- The generator never produces the id of a session that exists. (Specification: no counterpart in the code.) -/
def FreshIds (c : Config) (h : List Op) : Prop :=
  ∀ a op b sid, h = a ++ op :: b → Creates c op sid → ¬ Live c a sid

/-- **C138**. With sessions, fresh ids and DELETEs that do not overlap: in every history the number of calls of
`on_session_initialized` for a session is the number of calls of `on_session_closed` for it, plus one exactly while the
session exists. So a session is announced once when it appears and once when it goes. Missing from the property: servers
without sessions (`C138_stateless`), overlapping DELETEs (`C138_closed_twice`). -/
theorem C138_balanced_partial (c : Config) (hst : c.stateful = true) (h : List Op) (hf : FreshIds c h) (sid : Text) :
    (Live c h sid → (allCalls c {} h).count (.opened sid) = (allCalls c {} h).count (.closed sid) + 1) ∧
    (¬ Live c h sid → (allCalls c {} h).count (.opened sid) = (allCalls c {} h).count (.closed sid)) := by
  induction h using Verif.snocInduction with
  | nil =>
    refine ⟨?_, fun _ => rfl⟩
    rintro ⟨a, o, b, e, _⟩
    cases a <;> cases e
  | append_singleton h op ih =>
    have ih := ih (fun a o b x e hc => hf a o (b ++ [op]) x (by rw [e]; simp) hc)
    rw [live_snoc, allCalls_snoc, List.count_append, List.count_append]
    rcases calls_cases c (run c {} h) op with ⟨x, hc, e⟩ | ⟨x, hd, hl, e⟩ | ⟨hc, hd, e⟩
    · rw [e]
      have hnl := hf h op [] x rfl hc
      have hnd : ¬ Deletes op sid := by
        intro hd
        unfold Deletes at hd; subst hd
        rcases hc with ⟨_, ⟨p', r, e, _⟩ | ⟨a', b, d, e, _⟩⟩ <;> cases e
      by_cases hx : x = sid
      · subst hx
        have := ih.2 hnl
        simp [hc, this]
      · have hcs : ¬ Creates c op sid := by
          rintro hc'
          rcases hc with ⟨_, ⟨p1, r1, e1, _⟩ | ⟨a1, b1, d1, e1, _⟩⟩ <;>
            rcases hc' with ⟨_, ⟨p2, r2, e2, _⟩ | ⟨a2, b2, d2, e2, _⟩⟩ <;> rw [e1] at e2 <;> cases e2 <;> exact hx rfl
        simp only [hcs, hnd, not_false_eq_true, and_true, false_or]
        have hne : Call.opened x ≠ Call.opened sid := fun e => hx (by cases e; rfl)
        simpa [List.count_cons, hne] using ih
    · rw [e]
      have hcs : ¬ Creates c op sid := by
        unfold Deletes at hd; subst hd
        rintro ⟨_, ⟨p', r, e, _⟩ | ⟨a', b, d, e, _⟩⟩ <;> cases e
      have hlive : Live c h x := (C32_sessions_are_live c h x).mp (hl hst)
      by_cases hx : x = sid
      · subst hx
        have := ih.1 hlive
        simp [hcs, hd, this]
      · have hnd : ¬ Deletes op sid := by
          intro hd'
          unfold Deletes at hd hd'
          rw [hd] at hd'
          exact hx (by cases hd'; rfl)
        simp only [hcs, hnd, not_false_eq_true, and_true, false_or]
        have hne : Call.closed x ≠ Call.closed sid := fun e => hx (by cases e; rfl)
        simpa [List.count_cons, hne] using ih
    · rw [e]
      simp only [hc sid, false_or, List.count_nil, Nat.add_zero]
      refine ⟨fun hh => ih.1 hh.1, fun hh => ?_⟩
      by_cases hl : Live c h sid
      · have hd' : Deletes op sid := by
          refine Classical.byContradiction fun hnd => hh ⟨hl, hnd⟩
        have := (hd sid hd').2
        rw [← C32_sessions_are_live, this] at hl
        cases hl
      · exact ih.2 hl

example : allCalls {} {} [.post initPost sidA, .getStart bothH none none sidB, .delete (some (.text sidA)),
    .delete (some (.text sidA))] = [.opened sidA, .opened sidB, .closed sidA] := by decide +kernel

example : FreshIds {} [.post initPost sidA, .delete (some (.text sidA))] := by
  rintro a op b sid e hc ⟨x, o, y, h, -⟩
  match a, e with
  | [], e => cases x <;> cases h
  | [_], e =>
    cases e
    rcases hc with ⟨_, ⟨p', r, e, _⟩ | ⟨a', b, d, e, _⟩⟩ <;> cases e
  | _ :: _ :: a, e => cases a <;> cases e

/-- **C138** fails without sessions: no session is ever announced, and a DELETE with any text is reported as the
end of a session of that name. -/
theorem C138_stateless (c : Config) (hst : c.stateful = false) (s : State) (h : List Op) (sid : Text) :
    (∀ x, .opened x ∉ allCalls c s h) ∧ calls c (run c s h) (.delete (some (.text sid))) = [.closed sid] := by
  constructor
  · intro x
    induction h generalizing s with
    | nil => simp [allCalls]
    | cons op h ih =>
      simp only [allCalls, List.mem_append, not_or]
      refine ⟨?_, ih _⟩
      rcases calls_cases c s op with ⟨x, hc, e⟩ | ⟨x, hd, hl, e⟩ | ⟨hc, hd, e⟩
      · exact absurd hc.1 (by simp [hst])
      · simp [e]
      · simp [e]
  · simp [calls, strOf, hst]

/-! DELETE in its two critical sections. -/

/-- The session table alone, with DELETEs between their check and their removal; `closed` are the calls of
`on_session_closed`. /repo/src/server/streamable_http_server.rs L288-352, L798-833. -/
structure Table where
  live : List Text := []
  waiting : List Text := []
  closed : List Text := []
  deriving DecidableEq

/-- The accesses of the table, /repo/src/server/streamable_http_server.rs L288-352, L798-833. -/
inductive TOp where
  | create (sid : Text)
  | check (sid : Text)
  | finish (i : Nat)
  deriving DecidableEq

/-- The check (/repo/src/server/streamable_http_server.rs L808-815), and the removal with the call (L817-826),
of a DELETE in stateful mode. -/
def tstep (t : Table) : TOp → Table
  | .create sid => { t with live := sid :: t.live }
  | .check sid => if sid ∈ t.live then { t with waiting := t.waiting ++ [sid] } else t
  | .finish i => match t.waiting[i]? with
    | none => t
    | some sid => { live := t.live.filter (· ≠ sid), waiting := t.waiting.eraseIdx i, closed := t.closed ++ [sid] }

/-- **C138**: the removal takes out the session of the DELETE and no other, and reports it. -/
theorem C138_removed (t : Table) (i : Nat) (sid : Text) (h : t.waiting[i]? = some sid) (x : Text) :
    (x ∈ (tstep t (.finish i)).live ↔ x ∈ t.live ∧ x ≠ sid) ∧ (tstep t (.finish i)).closed = t.closed ++ [sid] := by
  simp [tstep, h]

example : (tstep ⟨[['b'], ['a'], ['c']], [['a']], []⟩ (.finish 0)).live = [['b'], ['c']] := by decide

/-- **C138** fails with overlapping DELETEs: the end of one session is reported twice. -/
theorem C138_closed_twice (sid : Text) :
    ([TOp.create sid, .check sid, .check sid, .finish 0, .finish 0].foldl tstep {}).closed = [sid, sid] := by
  simp [tstep]

/-! ### C88: connections -/

theorem stream_step (c : Config) (s : State) (op : Op) (k : Nat) (st' : Stream)
    (h : (step c s op).1.streams[k]? = some st') :
    (∃ st, s.streams[k]? = some st ∧ (st'.connected = false ↔ st.connected = false ∨ op = .disconnect k)) ∨
      (s.streams[k]? = none ∧ st'.connected = true) := by
  have same : ∀ t : State, t.streams = s.streams → (∀ j, op ≠ .disconnect j) → t.streams[k]? = some st' →
      (∃ st, s.streams[k]? = some st ∧ (st'.connected = false ↔ st.connected = false ∨ op = .disconnect k)) ∨
        (s.streams[k]? = none ∧ st'.connected = true) := by
    intro t e hne ht
    rw [e] at ht
    exact .inl ⟨st', ht, by simp [hne k]⟩
  cases op with
  | post p n =>
    refine same _ ?_ (by simp) h
    simp only [step]
    rcases post_cases c s p n with ⟨code, h⟩ | ⟨req, r, h, _⟩ | ⟨req, s', r, hp, _, _, h⟩
    · rw [h]
    · rw [h]
    · rw [h]
      simp only
      unfold processInit at hp
      repeat (first | (cases hp <;> rfl) | split at hp)
  | process i r neg ev =>
    simp only [step] at h
    cases hq : s.posts[i]? with
    | none =>
      refine same _ ?_ (by simp) h
      unfold process; rw [hq]
    | some q =>
      rw [process_eq c s i r neg ev q hq] at h
      simp only at h
      unfold buildResponse at h
      split at h
      · exact same _ (before_streams ..) (by simp) h
      split at h
      · exact same _ (before_streams ..) (by simp) h
      split at h
      · rename_i k' hk'
        unfold sendTo at h
        split at h
        · rename_i st hst
          rw [before_streams] at hst
          split at h
          · simp only [before_streams] at h
            by_cases hkk : k' = k
            · subst hkk
              have hlt := (List.getElem?_eq_some_iff.mp hst).1
              rw [List.getElem?_set_self hlt] at h
              cases h
              exact .inl ⟨st, hst, by simp⟩
            · rw [List.getElem?_set_ne hkk] at h
              exact .inl ⟨st', h, by simp⟩
          · exact same _ (before_streams ..) (by simp) h
        · exact same _ (before_streams ..) (by simp) h
      · exact same _ (before_streams ..) (by simp) h
  | getStart a hd l n =>
    refine same _ ?_ (by simp) h
    simp only [step]
    rcases getStart_cases c s a hd l n with ⟨code, hh⟩ | ⟨t, hs, _, hh⟩ | ⟨hs, hst, hv, hh⟩ <;> rw [hh]
  | getCheck i => exact same _ (getCheck_frame s i).2.2.2.2 (by simp) h
  | getOpen i =>
    simp only [step, getOpen] at h
    split at h
    · simp only at h
      rw [List.getElem?_append] at h
      split at h
      · exact .inl ⟨st', h, by simp⟩
      · rename_i hlt
        refine .inr ⟨List.getElem?_eq_none (by omega), ?_⟩
        cases hn : k - s.streams.length with
        | zero => rw [hn] at h; cases h; rfl
        | succ m => rw [hn] at h; cases h
    · exact .inl ⟨st', h, by simp⟩
  | delete hd =>
    refine same _ ?_ (by simp) h
    simp only [step, delete]
    split
    · rfl
    · split <;> rfl
  | disconnect j =>
    simp only [step, disconnect] at h
    cases hj : s.streams[j]? with
    | none =>
      rw [hj] at h
      have hne : j ≠ k := by rintro rfl; rw [hj] at h; cases h
      exact .inl ⟨st', h, by simp [hne]⟩
    | some st =>
      rw [hj] at h
      simp only at h
      by_cases hkk : j = k
      · subst hkk
        rw [List.getElem?_set_self (List.getElem?_eq_some_iff.mp hj).1] at h
        cases h
        exact .inl ⟨st, hj, by simp⟩
      · rw [List.getElem?_set_ne hkk] at h
        exact .inl ⟨st', h, by simp [hkk]⟩
  | deliver j ev =>
    simp only [step, deliver] at h
    split at h
    · rename_i sid m queue delivered hj
      simp only at h
      by_cases hkk : j = k
      · subst hkk
        rw [List.getElem?_set_self (List.getElem?_eq_some_iff.mp hj).1] at h
        cases h
        exact .inl ⟨_, hj, by simp⟩
      · rw [List.getElem?_set_ne hkk] at h
        exact .inl ⟨st', h, by simp⟩
    · exact .inl ⟨st', h, by simp⟩

theorem build_length (c : Config) (s : State) (sid : Option Text) (m : Msg) :
    (buildResponse c s sid m).1.streams.length = s.streams.length := by
  unfold buildResponse; split; · rfl
  split; · rfl
  split
  · unfold sendTo; split
    · split <;> simp
    · rfl
  · rfl

theorem streams_grow (c : Config) (s : State) (op : Op) : s.streams.length ≤ (step c s op).1.streams.length := by
  cases hl : s.streams.length with
  | zero => omega
  | succ n =>
    obtain ⟨more, hm⟩ : ∃ st, s.streams[n]? = some st := ⟨_, List.getElem?_eq_getElem (by omega)⟩
    have key : ∀ t : State, t.streams.length = s.streams.length → n + 1 ≤ t.streams.length := by
      intro t ht; omega
    cases op with
    | getOpen i =>
      simp only [step, getOpen]
      split
      · simp; omega
      · exact Nat.le_of_eq hl.symm
    | post p n' =>
      refine key _ ?_
      simp only [step]
      rcases post_cases c s p n' with ⟨code, h⟩ | ⟨req, r, h, _⟩ | ⟨req, s', r, hp, _, _, h⟩
      · rw [h]
      · rw [h]
      · rw [h]
        simp only
        unfold processInit at hp
        repeat (first | (cases hp <;> rfl) | split at hp)
    | process i r neg ev =>
      refine key _ ?_
      simp only [step]
      cases hq : s.posts[i]? with
      | none => unfold process; rw [hq]
      | some q =>
        rw [process_eq c s i r neg ev q hq]
        simp only [build_length, before_streams]
    | getStart a hd l n' =>
      refine key _ ?_
      simp only [step]
      rcases getStart_cases c s a hd l n' with ⟨code, hh⟩ | ⟨t, hs, _, hh⟩ | ⟨hs, hst, hv, hh⟩ <;> rw [hh]
    | getCheck i => exact key _ (by simp only [step, (getCheck_frame s i).2.2.2.2])
    | delete hd =>
      refine key _ ?_
      simp only [step, delete]
      split
      · rfl
      · split <;> rfl
    | disconnect j => refine key _ ?_; simp only [step, disconnect]; split <;> simp
    | deliver j ev => refine key _ ?_; simp only [step, deliver]; split <;> simp

/-- **C88**: after every history, a stream's client counts as disconnected exactly if it went away after the
stream was opened. -/
theorem C88_connected (c : Config) (h : List Op) (k : Nat) (st : Stream) (hk : (run c {} h).streams[k]? = some st) :
    st.connected = false ↔ ∃ a b, h = a ++ .disconnect k :: b ∧ k < (run c {} a).streams.length := by
  induction h using Verif.snocInduction generalizing st with
  | nil => simp [run] at hk
  | append_singleton h op ih =>
    rw [run_snoc] at hk
    have hsplit : (∃ a b, h ++ [op] = a ++ .disconnect k :: b ∧ k < (run c {} a).streams.length) ↔
        (∃ a b, h = a ++ .disconnect k :: b ∧ k < (run c {} a).streams.length) ∨
          (op = .disconnect k ∧ k < (run c {} h).streams.length) := by
      constructor
      · rintro ⟨a, b, e, hl⟩
        cases b using Verif.snocInduction with
        | nil =>
          have := List.append_inj' e rfl
          simp only [List.cons.injEq, and_true] at this
          exact .inr ⟨this.2, this.1 ▸ hl⟩
        | append_singleton b x _ =>
          have h2 : h ++ [op] = (a ++ .disconnect k :: b) ++ [x] := by simpa using e
          exact .inl ⟨a, b, (List.append_inj' h2 rfl).1, hl⟩
      · rintro (⟨a, b, rfl, hl⟩ | ⟨rfl, hl⟩)
        · exact ⟨a, b ++ [op], by simp, hl⟩
        · exact ⟨h, [], rfl, hl⟩
    rw [hsplit]
    rcases stream_step c _ op k st hk with ⟨st0, h0, hiff⟩ | ⟨h0, ht⟩
    · rw [hiff, ih st0 h0]
      have := (List.getElem?_eq_some_iff.mp h0).1
      simp [this]
    · have hge : (run c {} h).streams.length ≤ k := List.getElem?_eq_none_iff.mp h0
      rw [ht]
      constructor
      · intro hh; cases hh
      · rintro (⟨a, b, rfl, hl⟩ | ⟨_, hl⟩)
        · exfalso
          have : ∀ (l : List Op) (s : State), s.streams.length ≤ (run c s l).streams.length := by
            intro l
            induction l with
            | nil => intro s; exact Nat.le_refl _
            | cons o l ih' => intro s; exact Nat.le_trans (streams_grow c s o) (ih' _)
          have := this (.disconnect k :: b) (run c {} a)
          rw [← run_append] at this
          omega
        · omega

example : ((run {} {} [.post initPost sidA, .process 0 7 none [], getA, .getCheck 0, .getOpen 0, .disconnect 0]).streams.map
    (·.connected)) = [false] := by decide +kernel

end Verif.HttpServer
