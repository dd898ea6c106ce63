import Verif.HttpServer.Streams

/-
C237: sessions of clients that go away before they are told the session id.
-/

namespace Verif.HttpServer

open Verif

/-- Steps of the server, with requests whose client goes away: axum then drops the future of the handler at the await it
is at.  A POST is dropped while it waits for the MCP server or for its answer (`dropPost`), or after the answer, while the
event is stored (`cutPost`); a GET during the replay, its only await (`cutGet`).
/repo/src/server/streamable_http_server.rs L612-631, L732-749. -/
inductive EOp where
  | op (o : Op)
  | dropPost (i : Nat)
  | cutPost (i : Nat) (negotiated : Option Text)
  | cutGet (i : Nat)

/-- The handler of a POST is dropped while it waits for the MCP server: what it has done stays done, there is no answer.
Whether the MCP server has handled the request is left out. /repo/src/server/streamable_http_server.rs L590-614. -/
def dropPost (s : State) (i : Nat) : State := { s with posts := s.posts.eraseIdx i }

/-- The handler of a POST is dropped after `update_session_after_init`, while it waits for an event store that has not
stored the event; without event store there is no such moment. /repo/src/server/streamable_http_server.rs L612-631. -/
def cutPost (c : Config) (s : State) (i : Nat) (negotiated : Option Text) : State :=
  match s.posts[i]? with
  | none => s
  | some p =>
    if c.store = false then s else
    let s := { s with posts := s.posts.eraseIdx i, handled := s.handled ++ [(p.clientSid, p.req)] }
    if p.isInit then updateAfterInit s p.respSid negotiated else s

/-- The handler of a GET is dropped during the replay: the sender stays, its receiver is gone; without event store or
`Last-Event-ID` there is no such moment. /repo/src/server/streamable_http_server.rs L730-749. -/
def cutGet (c : Config) (s : State) (i : Nat) : State :=
  match s.gets[i]? with
  | some ⟨sid, true, some _⟩ =>
    if c.store = false then s else
    { s with
      gets := s.gets.eraseIdx i
      senders := AMap.insert s.senders sid s.streams.length
      streams := s.streams ++ [⟨sid, false, [], []⟩] }
  | _ => s

/-- One step. /repo/src/server/streamable_http_server.rs L546-830. -/
def stepE (c : Config) (s : State) : EOp → State × Out
  | .op o => step c s o
  | .dropPost i => (dropPost s i, .nothing)
  | .cutPost i neg => (cutPost c s i neg, .nothing)
  | .cutGet i => (cutGet c s i, .nothing)

/-- The state after a history. /repo/src/server/streamable_http_server.rs L546-830. -/
def runE (c : Config) (s : State) (h : List EOp) : State := h.foldl (fun s e => (stepE c s e).1) s

/-! ### Specifications -/

/-- The outcome of a step tells a client the session id: in the headers of an answer or of an event stream.
(Specification: no counterpart in the code.) -/
def Tells (r : State × Out) (sid : Text) : Prop :=
  match r.2 with
  | .reply _ s _ _ => s = some sid
  | .opened k => (r.1.streams[k]?).map (·.sid) = some sid
  | _ => False

/-- Some client has been told the session id during the history. (Specification: no counterpart in the code.) -/
def Told (c : Config) (s : State) (h : List EOp) (sid : Text) : Prop :=
  ∃ a e b, h = a ++ e :: b ∧ Tells (stepE c (runE c s a) e) sid

/-- A request is in progress whose answer will tell the session id. (Specification: no counterpart in the code.) -/
def Waiting (s : State) (sid : Text) : Prop :=
  (∃ p ∈ s.posts, p.respSid = some sid) ∨ ∃ g ∈ s.gets, g.sid = sid

/-- The step drops a request whose answer would have told the session id. (Specification: no counterpart in the code.) -/
def Drops (s : State) (e : EOp) (sid : Text) : Prop :=
  match e with
  | .op _ => False
  | .dropPost i => ∃ p, s.posts[i]? = some p ∧ p.respSid = some sid
  | .cutPost i _ => ∃ p, s.posts[i]? = some p ∧ p.respSid = some sid
  | .cutGet i => ∃ g, s.gets[i]? = some g ∧ g.sid = sid

/-- A client that would have been told the session id has gone away during the history.
(Specification: no counterpart in the code.) -/
def Lost (c : Config) (s : State) (h : List EOp) (sid : Text) : Prop :=
  ∃ a e b, h = a ++ e :: b ∧ Drops (runE c s a) e sid

/-- The step deletes the session. (Specification: no counterpart in the code.) -/
def Ends (e : EOp) (sid : Text) : Prop := ∃ o, e = .op o ∧ Deletes o sid

/-- The step creates the session. (Specification: no counterpart in the code.) -/
def Makes (c : Config) (e : EOp) (sid : Text) : Prop := ∃ o, e = .op o ∧ Creates c o sid

/-- The request carries the session id, or its id is generated for it. (Specification: no counterpart in the code.) -/
def Names (e : EOp) (sid : Text) : Prop :=
  match e with
  | .op (.post p n) => p.sid = some (.text sid) ∨ n = sid
  | .op (.getStart _ h _ n) => h = some (.text sid) ∨ n = sid
  | .op (.delete h) => h = some (.text sid)
  | _ => False

/-! ### Lemmas -/

theorem runE_nil (c : Config) (s : State) : runE c s [] = s := rfl

theorem runE_cons (c : Config) (s : State) (e : EOp) (h : List EOp) : runE c s (e :: h) = runE c (stepE c s e).1 h := rfl

theorem runE_append (c : Config) (s : State) (a b : List EOp) : runE c s (a ++ b) = runE c (runE c s a) b := by
  simp [runE]

theorem snoc_split {α : Type} (h : List α) (x : α) (P : List α → α → Prop) :
    (∃ a e b, h ++ [x] = a ++ e :: b ∧ P a e) ↔ (∃ a e b, h = a ++ e :: b ∧ P a e) ∨ P h x := by
  constructor
  · rintro ⟨a, e, b, hh, hp⟩
    rcases List.eq_nil_or_concat b with rfl | ⟨b', y, rfl⟩
    · have := List.append_inj' hh rfl
      obtain ⟨rfl, h2⟩ := this
      simp only [List.cons.injEq, and_true] at h2; subst h2
      exact .inr hp
    · rw [List.concat_eq_append, ← List.cons_append, ← List.append_assoc] at hh
      exact .inl ⟨a, e, b', (List.append_inj' hh rfl).1, hp⟩
  · rintro (⟨a, e, b, rfl, hp⟩ | hp)
    · exact ⟨a, e, b ++ [x], by simp, hp⟩
    · exact ⟨h, x, [], rfl, hp⟩

theorem told_snoc (c : Config) (s : State) (h : List EOp) (e : EOp) (sid : Text) :
    Told c s (h ++ [e]) sid ↔ Told c s h sid ∨ Tells (stepE c (runE c s h) e) sid :=
  snoc_split h e (fun a e => Tells (stepE c (runE c s a) e) sid)

theorem lost_snoc (c : Config) (s : State) (h : List EOp) (e : EOp) (sid : Text) :
    Lost c s (h ++ [e]) sid ↔ Lost c s h sid ∨ Drops (runE c s h) e sid :=
  snoc_split h e (fun a e => Drops (runE c s a) e sid)

theorem cut_contains (c : Config) (s : State) (i : Nat) (neg : Option Text) (x : Text) :
    AMap.contains (cutPost c s i neg).sessions x = AMap.contains s.sessions x := by
  unfold cutPost
  split
  · rfl
  · split
    · rfl
    · simp only; split
      · rw [update_contains]
      · rfl

theorem cut_frame (c : Config) (s : State) (i : Nat) (neg : Option Text) :
    (cutPost c s i neg).senders = s.senders ∧ (cutPost c s i neg).gets = s.gets ∧
      ((cutPost c s i neg).posts = s.posts ∨ (cutPost c s i neg).posts = s.posts.eraseIdx i) := by
  unfold cutPost
  split
  · exact ⟨rfl, rfl, .inl rfl⟩
  · split
    · exact ⟨rfl, rfl, .inl rfl⟩
    · simp only; split
      · simp [update_senders, update_gets, update_posts]
      · simp

theorem cutGet_cases (c : Config) (s : State) (i : Nat) : cutGet c s i = s ∨
    ∃ sid l, s.gets[i]? = some ⟨sid, true, some l⟩ ∧ cutGet c s i = { s with
      gets := s.gets.eraseIdx i
      senders := AMap.insert s.senders sid s.streams.length
      streams := s.streams ++ [⟨sid, false, [], []⟩] } := by
  unfold cutGet
  split
  · next sid l h =>
    split
    · exact .inl rfl
    · exact .inr ⟨sid, l, h, rfl⟩
  · exact .inl rfl

theorem stepE_contains (c : Config) (s : State) (e : EOp) (sid : Text) :
    AMap.contains (stepE c s e).1.sessions sid = true ↔
      Makes c e sid ∨ (AMap.contains s.sessions sid = true ∧ ¬ Ends e sid) := by
  cases e with
  | op o => simp [stepE, step_contains, Makes, Ends]
  | dropPost i => simp [stepE, dropPost, Makes, Ends]
  | cutPost i neg => simp [stepE, cut_contains, Makes, Ends]
  | cutGet i =>
    rcases cutGet_cases c s i with h | ⟨x, l, -, h⟩ <;> simp [stepE, h, Makes, Ends]

theorem mem_eraseIdx_or {α : Type} (l : List α) (i : Nat) (x : α) (h : x ∈ l) : x ∈ l.eraseIdx i ∨ l[i]? = some x := by
  obtain ⟨j, hj⟩ := List.mem_iff_getElem?.mp h
  by_cases e : i = j
  · subst e; exact .inr hj
  · exact .inl (List.mem_eraseIdx_iff_getElem?.mpr ⟨j, fun h => e h.symm, hj⟩)

theorem process_posts_eq (c : Config) (s : State) (i : Nat) (resp : Msg) (neg : Option Text) (ev : Text) :
    (process c s i resp neg ev).1.posts = s.posts.eraseIdx i := by
  cases h : s.posts[i]? with
  | none => unfold process; rw [h, List.eraseIdx_of_length_le]; exact List.getElem?_eq_none_iff.mp h
  | some p => rw [process_eq c s i resp neg ev p h]; simp only [build_posts, before_posts]

/-! ### The invariant -/

/-- A request that is in progress stays in progress, is answered with its session id, is dropped, or is refused for a
stream that its session has. -/
theorem waiting_step (c : Config) (s : State) (e : EOp) (sid : Text) (h : Waiting s sid) :
    Waiting (stepE c s e).1 sid ∨ Tells (stepE c s e) sid ∨ Drops s e sid ∨ AMap.contains s.senders sid = true := by
  cases e with
  | dropPost i =>
    rcases h with ⟨p, hp, hs⟩ | ⟨g, hg, hs⟩
    · rcases mem_eraseIdx_or _ i p hp with h | h
      · exact .inl (.inl ⟨p, h, hs⟩)
      · exact .inr (.inr (.inl ⟨p, h, hs⟩))
    · exact .inl (.inr ⟨g, hg, hs⟩)
  | cutPost i neg =>
    obtain ⟨-, h2, h3⟩ := cut_frame c s i neg
    rcases h with ⟨p, hp, hs⟩ | ⟨g, hg, hs⟩
    · rcases h3 with h3 | h3
      · exact .inl (.inl ⟨p, by simpa only [stepE, h3] using hp, hs⟩)
      · rcases mem_eraseIdx_or _ i p hp with h | h
        · exact .inl (.inl ⟨p, by simpa only [stepE, h3] using h, hs⟩)
        · exact .inr (.inr (.inl ⟨p, h, hs⟩))
    · exact .inl (.inr ⟨g, by simpa only [stepE, h2] using hg, hs⟩)
  | cutGet i =>
    rcases cutGet_cases c s i with hc | ⟨x, l, hx, hc⟩
    · exact .inl (by simpa only [stepE, hc] using h)
    · rcases h with ⟨p, hp, hs⟩ | ⟨g, hg, hs⟩
      · exact .inl (.inl ⟨p, by simpa only [stepE, hc] using hp, hs⟩)
      · rcases mem_eraseIdx_or _ i g hg with h | h
        · exact .inl (.inr ⟨g, by simpa only [stepE, hc] using h, hs⟩)
        · exact .inr (.inr (.inl ⟨g, h, hs⟩))
  | op o =>
    cases o with
    | post p n =>
      refine .inl ?_
      have hg := post_gets c s p n
      rcases h with ⟨q, hq, hs⟩ | ⟨g, hgm, hs⟩
      · refine .inl ⟨q, ?_, hs⟩
        simp only [stepE, step]
        rcases post_cases c s p n with ⟨code, h⟩ | ⟨req, r, h, _⟩ | ⟨req, s', r, hp, _, _, h⟩
        · rw [h]; exact hq
        · rw [h]; simp [hq]
        · have := processInit_posts c s (strOf p.sid) (strOf p.version) n
          rw [hp] at this
          rw [h]; simp only at this; simp [this, hq]
      · exact .inr ⟨g, by simpa only [stepE, step, hg] using hgm, hs⟩
    | process i resp neg ev =>
      rcases h with ⟨q, hq, hs⟩ | ⟨g, hgm, hs⟩
      · rcases mem_eraseIdx_or _ i q hq with h | h
        · exact .inl (.inl ⟨q, by simpa only [stepE, step, process_posts_eq] using h, hs⟩)
        · refine .inr (.inl ?_)
          simp only [stepE, step, process_eq c s i resp neg ev q h, Tells]
          exact hs
      · exact .inl (.inr ⟨g, by simpa only [stepE, step, process_gets] using hgm, hs⟩)
    | getStart a t l n =>
      refine .inl ?_
      simp only [stepE, step]
      rcases getStart_cases c s a t l n with ⟨code, h'⟩ | ⟨t, -, -, h'⟩ | ⟨-, -, -, h'⟩
      · rw [h']; exact h
      all_goals
        rw [h']
        rcases h with h | ⟨g, hg, hs⟩
        · exact .inl h
        · exact .inr ⟨g, by simp [hg], hs⟩
    | getCheck i =>
      have hf := (getCheck_frame s i).2.2.1
      rcases h with ⟨q, hq, hs⟩ | ⟨g, hg, hs⟩
      · exact .inl (.inl ⟨q, by simpa only [stepE, step, hf] using hq, hs⟩)
      · simp only [stepE, step, getCheck]
        split
        · next x l hx =>
          split
          · next hc =>
            rcases mem_eraseIdx_or _ i g hg with h | h
            · exact .inl (.inr ⟨g, h, hs⟩)
            · rw [hx] at h; simp only [Option.some.injEq] at h; subst h
              simp only at hs; subst hs
              exact .inr (.inr (.inr hc))
          · refine .inl (.inr ?_)
            by_cases e : s.gets[i]? = some g
            · rw [hx] at e; simp only [Option.some.injEq] at e; subst e
              refine ⟨⟨x, true, l⟩, ?_, hs⟩
              obtain ⟨hl, -⟩ := List.getElem?_eq_some_iff.mp hx
              exact List.mem_set hl _
            · refine ⟨g, ?_, hs⟩
              obtain ⟨j, hj⟩ := List.mem_iff_getElem?.mp hg
              refine List.mem_iff_getElem?.mpr ⟨j, ?_⟩
              rw [List.getElem?_set_ne (by rintro rfl; exact e hj)]
              exact hj
        · exact .inl (.inr ⟨g, hg, hs⟩)
    | getOpen i =>
      have hf := (getOpen_frame c s i).2.1
      rcases h with ⟨q, hq, hs⟩ | ⟨g, hg, hs⟩
      · exact .inl (.inl ⟨q, by simpa only [stepE, step, hf] using hq, hs⟩)
      · simp only [stepE, step, getOpen]
        split
        · next x l hx =>
          rcases mem_eraseIdx_or _ i g hg with h | h
          · exact .inl (.inr ⟨g, h, hs⟩)
          · rw [hx] at h; simp only [Option.some.injEq] at h; subst h
            refine .inr (.inl ?_)
            simp only at hs
            simp [Tells, hs]
        · exact .inl (.inr ⟨g, hg, hs⟩)
    | delete t =>
      obtain ⟨h1, h2, -⟩ := delete_frame c s t
      refine .inl ?_
      simpa only [Waiting, stepE, step, h1, h2] using h
    | disconnect k =>
      obtain ⟨-, -, h1, h2, -⟩ := disconnect_frame s k
      refine .inl ?_
      simpa only [Waiting, stepE, step, h1, h2] using h
    | deliver k ev =>
      obtain ⟨-, -, h1, h2, -⟩ := deliver_frame c s k ev
      refine .inl ?_
      simpa only [Waiting, stepE, step, h1, h2] using h

/-- A stream is there only for a session whose id has been told, or lost. -/
theorem senders_step (c : Config) (s : State) (e : EOp) (sid : Text)
    (h : AMap.contains (stepE c s e).1.senders sid = true) :
    AMap.contains s.senders sid = true ∨ Tells (stepE c s e) sid ∨ Drops s e sid := by
  cases e with
  | dropPost i => exact .inl h
  | cutPost i neg => exact .inl (by simpa only [stepE, (cut_frame c s i neg).1] using h)
  | cutGet i =>
    rcases cutGet_cases c s i with hc | ⟨x, l, hx, hc⟩
    · exact .inl (by simpa only [stepE, hc] using h)
    · simp only [stepE, hc, AMap.contains, AMap.get_insert] at h
      split at h
      · next e => exact .inr (.inr ⟨_, hx, e.symm⟩)
      · exact .inl h
  | op o =>
    cases o with
    | post p n => exact .inl (by simpa only [stepE, step, post_senders] using h)
    | process i resp neg ev => exact .inl (by simpa only [stepE, step, process_senders] using h)
    | getStart a t l n =>
      refine .inl ?_
      simp only [stepE, step] at h
      rcases getStart_cases c s a t l n with ⟨code, h'⟩ | ⟨t, -, -, h'⟩ | ⟨-, -, -, h'⟩ <;> rw [h'] at h <;> exact h
    | getCheck i => exact .inl (by simpa only [stepE, step, (getCheck_frame s i).2.1] using h)
    | getOpen i =>
      simp only [stepE, step, getOpen] at h ⊢
      split at h
      · next x l hx =>
        simp only [AMap.contains, AMap.get_insert] at h
        split at h
        · next e => subst e; refine .inr (.inl ?_); simp [Tells]
        · exact .inl h
      · exact .inl h
    | delete t =>
      refine .inl ?_
      simp only [stepE, step, delete] at h
      split at h
      · exact h
      · split at h
        · exact h
        · simp only [AMap.contains, AMap.get_remove] at h
          split at h
          · cases h
          · exact h
    | disconnect k => exact .inl (by simpa only [stepE, step, (disconnect_frame s k).2.1] using h)
    | deliver k ev => exact .inl (by simpa only [stepE, step, (deliver_frame c s k ev).2.1] using h)

/-- The request that creates a session is in progress. -/
theorem makes_waiting (c : Config) (s : State) (e : EOp) (sid : Text) (h : Makes c e sid) :
    Waiting (stepE c s e).1 sid := by
  obtain ⟨o, rfl, hst, ⟨p, req, rfl, hh, hb, hn⟩ | ⟨a, t, l, rfl, hh, hn⟩⟩ := h
  · refine .inl ⟨⟨none, some sid, true, req⟩, ?_, rfl⟩
    have hs : strOf p.sid = none := (strOf_none_iff _).mpr hn
    simp only [stepE, step, post, (C37_post_passes_iff ..).mpr hh, hb, processInit, hst, hs, ↓reduceIte]
    simp
  · refine .inr ⟨⟨sid, false, strOf l⟩, ?_, rfl⟩
    have hs : strOf t = none := (strOf_none_iff _).mpr hn
    simp only [stepE, step, getStart, (C37_get_passes_iff _).1.mpr hh, hst, hs, ↓reduceIte]
    simp

theorem all_sessions (c : Config) (h : List EOp) (sid : Text) :
    (AMap.contains (runE c {} h).sessions sid = true → Told c {} h sid ∨ Waiting (runE c {} h) sid ∨ Lost c {} h sid) ∧
      (AMap.contains (runE c {} h).senders sid = true → Told c {} h sid ∨ Lost c {} h sid) := by
  induction h using Verif.snocInduction with
  | nil => simp [runE, AMap.contains]
  | append_singleton h e ih =>
    have hr : runE c {} (h ++ [e]) = (stepE c (runE c {} h) e).1 := by rw [runE_append]; rfl
    rw [hr, told_snoc, lost_snoc]
    constructor
    · rw [stepE_contains]
      rintro (h1 | ⟨h1, -⟩)
      · exact .inr (.inl (makes_waiting c _ e sid h1))
      · rcases ih.1 h1 with h2 | h2 | h2
        · exact .inl (.inl h2)
        · rcases waiting_step c _ e sid h2 with h3 | h3 | h3 | h3
          · exact .inr (.inl h3)
          · exact .inl (.inr h3)
          · exact .inr (.inr (.inr h3))
          · rcases ih.2 h3 with h4 | h4
            · exact .inl (.inl h4)
            · exact .inr (.inr (.inl h4))
        · exact .inr (.inr (.inl h2))
    · intro h1
      rcases senders_step c _ e sid h1 with h2 | h2 | h2
      · rcases ih.2 h2 with h4 | h4
        · exact .inl (.inl h4)
        · exact .inr (.inl h4)
      · exact .inl (.inr h2)
      · exact .inr (.inr h2)

/-! ### C237 -/

/-- **C237** (the part that holds). As long as no client goes away before it has its answer, every session of the table
belongs to somebody: its id has been told in an answer, or a request is in progress that will tell it. -/
theorem C237_told_partial (c : Config) (h : List EOp) (hd : ∀ e ∈ h, ∃ o, e = .op o) (sid : Text)
    (hs : AMap.contains (runE c {} h).sessions sid = true) : Told c {} h sid ∨ Waiting (runE c {} h) sid := by
  rcases (all_sessions c h sid).1 hs with h1 | h1 | ⟨a, e, b, rfl, h1⟩
  · exact .inl h1
  · exact .inr h1
  · obtain ⟨o, rfl⟩ := hd e (by simp)
    cases h1

/-- **C237** (whose sessions there are). With clients that go away, every session of the table belongs to somebody, or to
a client that went away before it was told the id. -/
theorem C237_whose (c : Config) (h : List EOp) (sid : Text) (hs : AMap.contains (runE c {} h).sessions sid = true) :
    Told c {} h sid ∨ Waiting (runE c {} h) sid ∨ Lost c {} h sid := (all_sessions c h sid).1 hs

/-- **C237** (only DELETE ends a session). Whatever requests come and whoever goes away: a session stays until a DELETE
names its id. -/
theorem C237_kept (c : Config) (s : State) (h : List EOp) (sid : Text) (hs : AMap.contains s.sessions sid = true)
    (hd : ∀ e ∈ h, ¬ Ends e sid) : AMap.contains (runE c s h).sessions sid = true := by
  induction h generalizing s with
  | nil => exact hs
  | cons e h ih =>
    rw [runE_cons]
    exact ih _ ((stepE_contains c s e sid).mpr (.inr ⟨hs, hd e (by simp)⟩)) (fun e he => hd e (by simp [he]))

/-- An id is told only by a request in progress. -/
theorem tells_waiting (c : Config) (s : State) (e : EOp) (sid : Text) (h : Tells (stepE c s e) sid) : Waiting s sid := by
  cases e with
  | op o =>
    cases o with
    | post p n =>
      simp only [stepE, step, Tells] at h
      rcases post_cases c s p n with ⟨code, h'⟩ | ⟨req, r, h', _⟩ | ⟨req, s', r, hp, _, _, h'⟩ <;> rw [h'] at h <;> exact h.elim
    | process i resp neg ev =>
      cases hq : s.posts[i]? with
      | none => simp only [stepE, step, process, hq, Tells] at h
      | some q =>
        simp only [stepE, step, process_eq c s i resp neg ev q hq, Tells] at h
        exact .inl ⟨q, List.mem_of_getElem? hq, h⟩
    | getStart a t l n =>
      simp only [stepE, step, Tells] at h
      rcases getStart_cases c s a t l n with ⟨code, h'⟩ | ⟨t, -, -, h'⟩ | ⟨-, -, -, h'⟩ <;> rw [h'] at h <;> exact h.elim
    | getCheck i =>
      simp only [stepE, step, getCheck, Tells] at h
      split at h <;> (try split at h) <;> (try exact h.elim) <;> simp_all <;> grind
    | getOpen i =>
      simp only [stepE, step, getOpen] at h
      split at h
      · next x l hx =>
        simp only [Tells, List.getElem?_concat_length, Option.map_some, Option.some.injEq] at h
        exact .inr ⟨_, List.mem_of_getElem? hx, h⟩
      · exact h.elim
    | delete t =>
      simp only [stepE, step, delete] at h
      split at h
      · exact h.elim
      · split at h <;> exact h.elim
    | disconnect k => exact h.elim
    | deliver k ev => exact h.elim
  | dropPost i => exact h.elim
  | cutPost i neg => exact h.elim
  | cutGet i => exact h.elim

/-- A request that tells an id comes with a request that carries it, or that it is generated for. -/
theorem waiting_names (c : Config) (s : State) (e : EOp) (sid : Text) (h : Waiting (stepE c s e).1 sid) :
    Waiting s sid ∨ Names e sid := by
  cases e with
  | op o =>
    cases o with
    | post p n =>
      rcases h with ⟨q, hq, hs⟩ | ⟨g, hg, hs⟩
      · simp only [stepE, step, post] at hq
        split at hq
        · exact .inl (.inl ⟨q, hq, hs⟩)
        · split at hq
          · exact .inl (.inl ⟨q, hq, hs⟩)
          · next req hb =>
            have hps := processInit_posts c s (strOf p.sid) (strOf p.version) n
            have hval : ∀ r, (processInit c s (strOf p.sid) (strOf p.version) n).2 = .ok r → r = some sid →
                strOf p.sid = some sid ∨ n = sid := by
              intro r hr h
              subst h
              unfold processInit at hr
              split at hr
              · split at hr
                · next t ht =>
                  split at hr
                  · split at hr
                    · cases hr
                    · simp only [Except.ok.injEq, Option.some.injEq] at hr; subst hr; exact .inl ht
                  · simp only [Except.ok.injEq, Option.some.injEq] at hr; subst hr; exact .inl ht
                · simp only [Except.ok.injEq, Option.some.injEq] at hr; exact .inr hr
              · cases hr
            split at hq
            · next s' code he => rw [he] at hps; exact .inl (.inl ⟨q, hps ▸ hq, hs⟩)
            · next s' r he =>
              rw [he] at hps hval
              simp only at hq hps
              rw [hps] at hq
              simp only [List.mem_append, List.mem_singleton] at hq
              rcases hq with hq | hq
              · exact .inl (.inl ⟨q, hq, hs⟩)
              · rw [hq] at hs
                rcases hval r rfl hs with h | h
                · exact .inr (.inl ((strOf_some_iff _ _).mp h))
                · exact .inr (.inr h)
          · next req hb =>
            split at hq
            · exact .inl (.inl ⟨q, hq, hs⟩)
            · next r he =>
              split at hq
              · exact .inl (.inl ⟨q, hq, hs⟩)
              · simp only [List.mem_append, List.mem_singleton] at hq
                rcases hq with hq | hq
                · exact .inl (.inl ⟨q, hq, hs⟩)
                · rw [hq] at hs
                  simp only at hs; subst hs
                  unfold validateNonInit at he
                  split at he
                  · split at he
                    · cases he
                    · next t ht =>
                      split at he
                      · simp only [Except.ok.injEq, Option.some.injEq] at he; subst he
                        exact .inr (.inl ((strOf_some_iff _ _).mp ht))
                      · cases he
                  · cases he
          all_goals
            split at hq
            · exact .inl (.inl ⟨q, hq, hs⟩)
            · split at hq <;> exact .inl (.inl ⟨q, hq, hs⟩)
      · exact .inl (.inr ⟨g, by simpa only [stepE, step, post_gets] using hg, hs⟩)
    | process i resp neg ev =>
      rcases h with ⟨q, hq, hs⟩ | ⟨g, hg, hs⟩
      · simp only [stepE, step, process_posts_eq] at hq
        exact .inl (.inl ⟨q, List.mem_of_mem_eraseIdx hq, hs⟩)
      · exact .inl (.inr ⟨g, by simpa only [stepE, step, process_gets] using hg, hs⟩)
    | getStart a t l n =>
      simp only [stepE, step] at h
      rcases getStart_cases c s a t l n with ⟨code, h'⟩ | ⟨t', ht, -, h'⟩ | ⟨-, -, -, h'⟩ <;> rw [h'] at h
      · exact .inl h
      · rcases h with h | ⟨g, hg, hs⟩
        · exact .inl (.inl h)
        · simp only [List.mem_append, List.mem_singleton] at hg
          rcases hg with hg | rfl
          · exact .inl (.inr ⟨g, hg, hs⟩)
          · simp only at hs; subst hs; exact .inr (.inl ((strOf_some_iff _ _).mp ht))
      · rcases h with h | ⟨g, hg, hs⟩
        · exact .inl (.inl h)
        · simp only [List.mem_append, List.mem_singleton] at hg
          rcases hg with hg | rfl
          · exact .inl (.inr ⟨g, hg, hs⟩)
          · exact .inr (.inr hs)
    | getCheck i =>
      refine .inl ?_
      rcases h with ⟨q, hq, hs⟩ | ⟨g, hg, hs⟩
      · exact .inl ⟨q, by simpa only [stepE, step, (getCheck_frame s i).2.2.1] using hq, hs⟩
      · simp only [stepE, step, getCheck] at hg
        split at hg
        · next x l hx =>
          split at hg
          · exact .inr ⟨g, List.mem_of_mem_eraseIdx hg, hs⟩
          · rcases List.mem_or_eq_of_mem_set hg with hg | rfl
            · exact .inr ⟨g, hg, hs⟩
            · exact .inr ⟨_, List.mem_of_getElem? hx, hs⟩
        · exact .inr ⟨g, hg, hs⟩
    | getOpen i =>
      refine .inl ?_
      rcases h with ⟨q, hq, hs⟩ | ⟨g, hg, hs⟩
      · exact .inl ⟨q, by simpa only [stepE, step, (getOpen_frame c s i).2.1] using hq, hs⟩
      · simp only [stepE, step, getOpen] at hg
        split at hg
        · exact .inr ⟨g, List.mem_of_mem_eraseIdx hg, hs⟩
        · exact .inr ⟨g, hg, hs⟩
    | delete t =>
      obtain ⟨h1, h2, -⟩ := delete_frame c s t
      refine .inl ?_
      simpa only [Waiting, stepE, step, h1, h2] using h
    | disconnect k =>
      obtain ⟨-, -, h1, h2, -⟩ := disconnect_frame s k
      refine .inl ?_
      simpa only [Waiting, stepE, step, h1, h2] using h
    | deliver k ev =>
      obtain ⟨-, -, h1, h2, -⟩ := deliver_frame c s k ev
      refine .inl ?_
      simpa only [Waiting, stepE, step, h1, h2] using h
  | dropPost i =>
    refine .inl ?_
    rcases h with ⟨q, hq, hs⟩ | h
    · exact .inl ⟨q, List.mem_of_mem_eraseIdx hq, hs⟩
    · exact .inr h
  | cutPost i neg =>
    refine .inl ?_
    obtain ⟨-, h2, h3⟩ := cut_frame c s i neg
    rcases h with ⟨q, hq, hs⟩ | ⟨g, hg, hs⟩
    · simp only [stepE] at hq
      rcases h3 with h3 | h3 <;> rw [h3] at hq
      · exact .inl ⟨q, hq, hs⟩
      · exact .inl ⟨q, List.mem_of_mem_eraseIdx hq, hs⟩
    · exact .inr ⟨g, by simpa only [stepE, h2] using hg, hs⟩
  | cutGet i =>
    refine .inl ?_
    simp only [stepE] at h
    rcases cutGet_cases c s i with hc | ⟨x, l, hx, hc⟩ <;> rw [hc] at h
    · exact h
    · rcases h with h | ⟨g, hg, hs⟩
      · exact .inl h
      · exact .inr ⟨g, List.mem_of_mem_eraseIdx hg, hs⟩

theorem never_told (c : Config) (s : State) (h : List EOp) (sid : Text) (hw : ¬ Waiting s sid)
    (hn : ∀ e ∈ h, ¬ Names e sid) : ¬ Told c s h sid ∧ ¬ Waiting (runE c s h) sid := by
  induction h using Verif.snocInduction with
  | nil => exact ⟨(fun ⟨a, e, b, h, _⟩ => by simp at h), hw⟩
  | append_singleton h e ih =>
    obtain ⟨h1, h2⟩ := ih (fun e he => hn e (by simp [he]))
    rw [told_snoc, runE_append]
    refine ⟨?_, ?_⟩
    · rintro (h3 | h3)
      · exact h1 h3
      · exact h2 (tells_waiting c _ e sid h3)
    · intro h3
      rcases waiting_names c _ e sid h3 with h4 | h4
      · exact h2 h4
      · exact hn e (by simp) h4

theorem init_post (c : Config) (hst : c.stateful = true) (s : State) (p : Post) (n : Text) (req : Nat)
    (hh : PostHeadersOk p.contentType p.accept) (hb : p.body = .init req) (hn : NoSid p.sid) :
    post c s p n = ({ s with
      sessions := AMap.insert s.sessions n ⟨false, strOf p.version⟩
      posts := s.posts ++ [⟨none, some n, true, req⟩] }, .goesOn) := by
  have hs : strOf p.sid = none := (strOf_none_iff _).mpr hn
  simp only [post, (C37_post_passes_iff ..).mpr hh, hb, processInit, hst, hs, ↓reduceIte]

theorem abandon_init (c : Config) (hst : c.stateful = true) (s : State) (p : Post) (n : Text) (req : Nat)
    (hh : PostHeadersOk p.contentType p.accept) (hb : p.body = .init req) (hn : NoSid p.sid) :
    runE c s [.op (.post p n), .dropPost s.posts.length] =
      { s with sessions := AMap.insert s.sessions n ⟨false, strOf p.version⟩ } := by
  simp only [runE, List.foldl, stepE, step, init_post c hst s p n req hh hb hn, dropPost]
  rw [List.eraseIdx_append_of_length_le (Nat.le_refl _)]
  simp

/-- **C237** (refuted: for ever and nobody's). Whatever the server has gone through: after an initialization whose client
goes away before the answer, the session is in the table, and whatever happens afterwards, as long as no request carries or
is given its id, it stays there and nobody is ever told its id. -/
theorem C237_abandoned (c : Config) (hst : c.stateful = true) (s : State) (p : Post) (n : Text) (req : Nat)
    (hh : PostHeadersOk p.contentType p.accept) (hb : p.body = .init req) (hn : NoSid p.sid) (hw : ¬ Waiting s n)
    (h : List EOp) (hl : ∀ e ∈ h, ¬ Names e n) :
    AMap.contains (runE c s (.op (.post p n) :: .dropPost s.posts.length :: h)).sessions n = true ∧
      ¬ Told c s (.op (.post p n) :: .dropPost s.posts.length :: h) n := by
  have e : (EOp.op (.post p n) :: .dropPost s.posts.length :: h) =
    [.op (.post p n), .dropPost s.posts.length] ++ h := rfl
  constructor
  · rw [e, runE_append, abandon_init c hst s p n req hh hb hn]
    refine C237_kept c _ h n (by simp [AMap.contains, AMap.get_insert]) ?_
    rintro x hx ⟨o, rfl, rfl⟩
    exact hl _ hx rfl
  · rintro ⟨a, x, b, hab, ht⟩
    match a, hab with
    | [], hab =>
      simp only [List.nil_append, List.cons.injEq] at hab
      rw [← hab.1] at ht
      exact hw (tells_waiting c _ _ n ht)
    | [y], hab =>
      simp only [List.cons_append, List.nil_append, List.cons.injEq] at hab
      rw [← hab.2.1] at ht
      exact ht.elim
    | y :: z :: a, hab =>
      simp only [List.cons_append, List.cons.injEq] at hab
      obtain ⟨rfl, rfl, rfl⟩ := hab
      have e : (EOp.op (.post p n) :: .dropPost s.posts.length :: a) =
        [.op (.post p n), .dropPost s.posts.length] ++ a := rfl
      rw [e, runE_append, abandon_init c hst s p n req hh hb hn] at ht
      exact (never_told c { s with sessions := AMap.insert s.sessions n ⟨false, strOf p.version⟩ } (a ++ x :: b) n hw hl).1
        ⟨a, x, b, rfl, ht⟩

/-- **C237** (no bound). Any number of clients that go away like this leave as many sessions, without anybody being told
of any of them. -/
theorem C237_unbounded (c : Config) (hst : c.stateful = true) (p : Post) (req : Nat)
    (hh : PostHeadersOk p.contentType p.accept) (hb : p.body = .init req) (hn : NoSid p.sid) (s : State) (ids : List Text)
    (hnd : ids.Nodup) (hf : ∀ n ∈ ids, AMap.contains s.sessions n = false) :
    (runE c s (ids.flatMap (fun n => [.op (.post p n), .dropPost s.posts.length]))).sessions.length =
      s.sessions.length + ids.length := by
  induction ids generalizing s with
  | nil => rfl
  | cons n ids ih =>
    rw [List.flatMap_cons, runE_append, abandon_init c hst s p n req hh hb hn]
    have := ih { s with sessions := AMap.insert s.sessions n ⟨false, strOf p.version⟩ } (List.nodup_cons.mp hnd).2 ?_
    · rw [this]
      have hl : (AMap.insert s.sessions n ⟨false, strOf p.version⟩).length = s.sessions.length + 1 :=
        AMap.length_insert_of_none (by simpa [AMap.contains] using hf n List.mem_cons_self)
      simp only [hl, List.length_cons]; omega
    · intro m hm
      have hne : m ≠ n := by rintro rfl; exact (List.nodup_cons.mp hnd).1 hm
      simp only [AMap.contains, AMap.get_insert, hne, ↓reduceIte]
      exact hf m (List.mem_cons_of_mem _ hm)

/-- **C237** (refuted, after the answer). The same if the client goes away while the answer is being stored: the MCP server
has handled the initialization, the session counts as initialized, and it stays, known to nobody. -/
theorem C237_answered (c : Config) (hst : c.stateful = true) (hes : c.store = true) (s : State) (p : Post) (n : Text) (req : Nat)
    (neg : Option Text) (hh : PostHeadersOk p.contentType p.accept) (hb : p.body = .init req) (hn : NoSid p.sid)
    (hw : ¬ Waiting s n) (h : List EOp) (hl : ∀ e ∈ h, ¬ Names e n) :
    let s' := runE c s [.op (.post p n), .cutPost s.posts.length neg]
    AMap.get s'.sessions n = some ⟨true, some (neg.getD defaultVersion)⟩ ∧ s'.handled = s.handled ++ [(none, req)] ∧
      s'.posts = s.posts ∧ AMap.contains (runE c s' h).sessions n = true ∧ ¬ Told c s' h n := by
  have e : runE c s [.op (.post p n), .cutPost s.posts.length neg] = { s with
      sessions := AMap.insert (AMap.insert s.sessions n ⟨false, strOf p.version⟩) n ⟨true, some (neg.getD defaultVersion)⟩
      handled := s.handled ++ [(none, req)] } := by
    simp only [runE, List.foldl, stepE, step, init_post c hst s p n req hh hb hn, cutPost]
    rw [List.getElem?_concat_length, List.eraseIdx_append_of_length_le (Nat.le_refl _)]
    simp [hes, updateAfterInit, AMap.get_insert]
  intro s'
  have e' : s' = _ := e
  rw [e']
  refine ⟨by simp [AMap.get_insert], rfl, rfl, ?_, (never_told c _ h n (by exact hw) hl).1⟩
  refine C237_kept c _ h n (by simp [AMap.contains, AMap.get_insert]) ?_
  rintro x hx ⟨o, rfl, rfl⟩
  exact hl _ hx rfl

/-- **C237** (refuted, streams). The same for the session made by a stream request whose client goes away during the replay:
it stays, with the sender of a stream that nobody reads, so that every later stream request for it is refused. -/
theorem C237_stream (c : Config) (hst : c.stateful = true) (hes : c.store = true) (s : State) (accept sid : Option Hdr)
    (last n : Text) (hh : GetHeadersOk accept) (hn : NoSid sid) (hs : AMap.contains s.senders n = false) (hw : ¬ Waiting s n)
    (h : List EOp) (hl : ∀ e ∈ h, ¬ Names e n) :
    let s' := runE c s [.op (.getStart accept sid (some (.text last)) n), .op (.getCheck s.gets.length), .cutGet s.gets.length]
    AMap.get s'.senders n = some s.streams.length ∧ s'.streams = s.streams ++ [⟨n, false, [], []⟩] ∧ s'.gets = s.gets ∧
      AMap.contains (runE c s' h).sessions n = true ∧ ¬ Told c s' h n := by
  have e : runE c s [.op (.getStart accept sid (some (.text last)) n), .op (.getCheck s.gets.length), .cutGet s.gets.length] =
      { s with
        sessions := AMap.insert s.sessions n ⟨true, none⟩
        senders := AMap.insert s.senders n s.streams.length
        streams := s.streams ++ [⟨n, false, [], []⟩] } := by
    have hsid : strOf sid = none := (strOf_none_iff _).mpr hn
    have hl' : strOf (some (.text last)) = some last := rfl
    simp only [runE, List.foldl, stepE, step, getStart, (C37_get_passes_iff _).1.mpr hh, hst, hsid, ↓reduceIte, getCheck,
      List.getElem?_concat_length, hs, Bool.false_eq_true, hl', cutGet]
    rw [List.set_append_right _ _ (Nat.le_refl _)]
    simp [hes, List.eraseIdx_append_of_length_le]
  intro s'
  have e' : s' = _ := e
  rw [e']
  refine ⟨by simp [AMap.get_insert], rfl, rfl, ?_, (never_told c _ h n (by exact hw) hl).1⟩
  refine C237_kept c _ h n (by simp [AMap.contains, AMap.get_insert]) ?_
  rintro x hx ⟨o, rfl, rfl⟩
  exact hl _ hx rfl

/-- **C237** (the moments there are). Without event store a handler waits for the MCP server only. -/
theorem C237_no_store (c : Config) (hes : c.store = false) (s : State) (i : Nat) (neg : Option Text) :
    (stepE c s (.cutPost i neg)).1 = s ∧ (stepE c s (.cutGet i)).1 = s := by
  simp only [stepE, cutPost, cutGet, hes, ↓reduceIte]
  constructor <;> split <;> rfl

/-- Headers and body of an initialization. -/
example : PostHeadersOk (some (.text appJson)) (some (.text appJson)) ∧ NoSid none := by
  rw [← C37_post_passes_iff, ← strOf_none_iff]; decide

/-- Its client goes away, another one comes: the first session stays, only the second id is told. -/
example :
    let p : Post := ⟨some (.text appJson), some (.text appJson), none, none, .init 1⟩
    let h : List EOp := [.op (.post p "a".toList), .dropPost 0, .op (.post p "b".toList), .op (.process 0 7 none "e".toList)]
    (runE {} {} h).sessions.map Prod.fst = ["b".toList, "a".toList] ∧ Told {} {} h "b".toList ∧ Lost {} {} h "a".toList ∧
      ¬ Told {} {} h "a".toList := by
  intro p h
  refine ⟨by decide +kernel, ?_, ?_, ?_⟩
  · exact ⟨[.op (.post p "a".toList), .dropPost 0, .op (.post p "b".toList)], .op (.process 0 7 none "e".toList), [], rfl, rfl⟩
  · exact ⟨[.op (.post p "a".toList)], .dropPost 0, _, rfl, ⟨none, some "a".toList, true, 1⟩, by decide +kernel, rfl⟩
  · refine (C237_abandoned {} rfl {} _ _ 1 ?_ rfl ?_ ?_ _ ?_).2
    · rw [← C37_post_passes_iff]; decide
    · rw [← strOf_none_iff]; rfl
    · rintro (⟨p, hp, -⟩ | ⟨p, hp, -⟩) <;> cases hp
    · intro e he
      simp only [List.mem_cons, List.not_mem_nil, or_false] at he
      rcases he with rfl | rfl
      · simp only [Names]; decide
      · exact id

/-- A stream request dropped during the replay: the session and its sender stay, the id is told to nobody. -/
example :
    let h : List EOp := [.op (.getStart (some (.text eventStream)) none (some (.text "9".toList)) "a".toList),
      .op (.getCheck 0), .cutGet 0]
    (runE {} {} h).sessions.map Prod.fst = ["a".toList] ∧ (runE {} {} h).senders = [("a".toList, 0)] ∧
      (runE {} {} h).gets = [] := by decide +kernel

/-- A request dropped after the session is marked initialized. -/
example :
    let p : Post := ⟨some (.text appJson), some (.text appJson), none, none, .init 1⟩
    (runE {} {} [.op (.post p "a".toList), .cutPost 0 none]).sessions = [("a".toList, ⟨true, some defaultVersion⟩)] := by
  decide +kernel

end Verif.HttpServer
