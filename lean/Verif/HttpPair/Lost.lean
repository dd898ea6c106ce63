import Verif.HttpPair.Props

/-
C219, where it fails: a session that is gone, and a stream that is open.
-/

namespace Verif.HttpPair

open Verif

variable {M : Type}

theorem read_session (L : Link M) (cl : StreamClient.State M) (key : Nat) (text : Text) :
    (read L cl key text).session = cl.session := by
  unfold read
  have h := StreamClient.run_headers L.codec [.chunk key text, .finish key] cl
  simpa [StreamClient.run, StreamClient.sessionAfter] using h.1

theorem answer_session (L : Link M) (cl : StreamClient.State M) (r : StreamClient.Resp) (x : Text)
    (hc : cl.session = some x) (hr : r.session = none ∨ r.session = some x) :
    (StreamClient.step L.codec cl (.answer (some r))).1.session = some x := by
  simp only [StreamClient.step, (StreamClient.onAnswer_headers L.codec cl r).1]
  rcases hr with hr | hr <;> rw [hr]
  · rw [Option.none_or]; exact hc
  · rfl

theorem stream_refused (L : Link M) (cl : StreamClient.State M) (code : Nat) (hc : 300 ≤ code) :
    (StreamClient.step L.codec cl (.streamAnswer (some (plain code)))).1 = cl := by
  have h : (plain code).success = false := by
    have : ¬ code < 300 := by omega
    simp [StreamClient.Resp.success, plain, this]
  simp only [StreamClient.step, StreamClient.onStreamAnswer]
  rw [h]
  split <;> rfl

theorem respOf_session (L : Link M) (js : Bool) (code : Nat) (sid : Option Text) (v : Text) (b : HttpServer.Body2) :
    (respOf L js code sid v b).session = sid.bind seen := by
  unfold respOf
  split
  · split <;> rfl
  · rfl

/-! ### A session that is gone -/

/-- The steps of a client whose session is gone: anything but `close` and `set_session_id`; no new session is given
the old id. (Specification: no counterpart in the code.) -/
def Stuck (c : HttpServer.Config) (x : Text) : Op M → Prop
  | .close => False
  | .setSession _ => False
  | .other op => ¬ HttpServer.Creates c op x
  | _ => True

/-- The client names a session the server does not have. (Specification: no counterpart in the code.) -/
structure Lost (x : Text) (s : Sys M) : Prop where
  session : s.cl.session = some x
  entry : AMap.get s.srv.sessions x = none
  mine : ∀ i, s.phase = .posting i → ∃ r, s.srv.posts[i]? = some ⟨some x, some x, true, r⟩
  notOpening : ∀ i, s.phase ≠ .opening i

theorem none_keep (c : HttpServer.Config) (s : HttpServer.State) (op : HttpServer.Op) (x : Text)
    (hc : ¬ HttpServer.Creates c op x) (h : AMap.get s.sessions x = none) :
    AMap.get (HttpServer.step c s op).1.sessions x = none := by
  by_cases hd : HttpServer.Deletes op x
  · unfold HttpServer.Deletes at hd
    subst hd
    simp only [HttpServer.step, HttpServer.delete, HttpServer.strOf]
    split
    · exact h
    · simp only [AMap.get_remove_self]
  · by_cases ha : HttpServer.AnswersInit s op x
    · obtain ⟨i, r, neg, ev, q, rfl, h1, h2, h3⟩ := ha
      simp only [HttpServer.step]
      rw [HttpServer.process_get c s i r neg ev x q h1, if_neg]
      · exact h
      · rintro ⟨_, _, hcon⟩
        simp [AMap.contains, h] at hcon
    · rw [HttpServer.step_get c s op x hc hd ha]; exact h

/-- What the server does with a message of a client whose session is gone. -/
theorem post_lost (c : HttpServer.Config) (hst : c.stateful = true) (L : Link M) (x : Text) (hx : Clean x) (s : Sys M)
    (hg : Lost x s) (m : M) (n : Text) :
    HttpServer.post c s.srv (postOf L s.cl m) n =
      match L.body m with
      | .init r => ({ s.srv with posts := s.srv.posts ++ [⟨some x, some x, true, r⟩] }, .goesOn)
      | .invalid => (s.srv, .status 400)
      | _ => (s.srv, .status 404) := by
  have h1 : HttpServer.strOf (postOf L s.cl m).sid = some x := by
    simp only [postOf, hg.session, Option.map_some, show HttpServer.sentBack x = .text x from hx, HttpServer.strOf]
  have hc : AMap.contains s.srv.sessions x = false := by simp [AMap.contains, hg.entry]
  have h3 : HttpServer.validateNonInit c s.srv (some x) = .error 404 := by
    simp [HttpServer.validateNonInit, hst, hc]
  have h5 : ∀ v, HttpServer.processInit c s.srv (some x) v n = (s.srv, .ok (some x)) := by
    intro v; simp [HttpServer.processInit, hst, hg.entry]
  have h6 : HttpServer.validatePost (postOf L s.cl m).contentType (postOf L s.cl m).accept = none := post_headers_pass
  have h7 : (postOf L s.cl m).body = L.body m := rfl
  unfold HttpServer.post
  rw [h6, h1, h7]
  cases L.body m <;> simp only [h3, h5]

theorem lost_step (c : HttpServer.Config) (hst : c.stateful = true) (L : Link M) (x : Text) (hx : Clean x)
    (s s' : Sys M) (op : Op M) (hg : Lost x s) (hp : Stuck c x op) (h : step c L s op = some s') : Lost x s' := by
  cases op with
  | send m n =>
    simp only [step] at h
    split at h
    · next hid =>
      unfold send at h
      rw [post_lost c hst L x hx s hg m n] at h
      have hcl : ∀ code, (StreamClient.step L.codec (StreamClient.step L.codec s.cl (.post m true)).1
          (.answer (some (plain code)))).1.session = some x := by
        intro code; rw [plain_answer]; exact hg.session
      cases hb : L.body m with
      | init r =>
        simp only [hb, Option.some.injEq] at h
        subst h
        refine ⟨hg.session, hg.entry, ?_, ?_⟩
        · intro i hi
          simp only [Phase.posting.injEq] at hi
          subst hi
          exact ⟨r, by simp⟩
        · intro i hi; cases hi
      | _ =>
        simp only [hb, Option.some.injEq] at h
        subst h
        exact ⟨hcl _, hg.entry, hg.mine, hg.notOpening⟩
    · cases h
  | answered a neg ev =>
    simp only [step] at h
    split at h
    · next i hi =>
      obtain ⟨r, hr⟩ := hg.mine i hi
      have hq := HttpServer.process_eq c s.srv i a neg ev _ hr
      simp only [answered, hr] at h
      rw [hq] at h
      simp only [Option.some.injEq] at h
      subst h
      refine ⟨?_, ?_, ?_, ?_⟩
      · exact answer_session L s.cl _ x hg.session (.inr (by rw [respOf_session]; exact seen_clean hx))
      · simp only [HttpServer.build_sessions, HttpServer.before_sessions]
        have : ∀ i : HttpServer.SessionInfo, AMap.get s.srv.sessions x ≠ some i := by rw [hg.entry]; simp
        simp only [if_true, HttpServer.updateAfterInit, hg.entry]
      · intro i' hi'; cases hi'
      · intro i' hi'; cases hi'
    · cases h
  | arrive j =>
    simp only [step] at h
    split at h
    · simp only [Option.some.injEq] at h
      subst h
      exact ⟨(read_session L _ _ _).trans hg.session, hg.entry, hg.mine, hg.notOpening⟩
    · cases h
  | «open» t n =>
    simp only [step] at h
    split at h
    · next hid =>
      have hget : HttpServer.getStart c s.srv (some (.text StreamClient.kStream))
          (s.cl.session.map HttpServer.sentBack) (t.map HttpServer.sentBack) n = (s.srv, .status 404) := by
        have hc : AMap.contains s.srv.sessions x = false := by simp [AMap.contains, hg.entry]
        unfold HttpServer.getStart
        rw [get_headers_pass, hg.session]
        simp only [Option.map_some, show HttpServer.sentBack x = .text x from hx, HttpServer.strOf]
        simp [hst, hc]
      unfold openStream at h
      rw [hget] at h
      simp only [Option.some.injEq] at h
      subst h
      refine ⟨?_, hg.entry, hg.mine, hg.notOpening⟩
      simp only [stream_refused L _ 404 (by omega)]
      exact hg.session
    · cases h
  | check =>
    simp only [step] at h
    split at h
    · next i hi => exact absurd hi (hg.notOpening i)
    · cases h
  | opened =>
    simp only [step] at h
    split at h
    · next i hi => exact absurd hi (hg.notOpening i)
    · cases h
  | ends j =>
    simp only [step] at h
    split at h
    · split at h
      · simp only [Option.some.injEq] at h
        subst h
        exact ⟨(read_session L _ _ _).trans hg.session, hg.entry, hg.mine, hg.notOpening⟩
      · cases h
    · cases h
  | close => exact hp.elim
  | setSession y => exact hp.elim
  | other op =>
    simp only [step] at h
    split at h
    · next hn =>
      simp only [Option.some.injEq] at h
      subst h
      refine ⟨hg.session, none_keep c s.srv op x hp hg.entry, ?_, ?_⟩
      · intro i hi
        simp only at hi ⊢
        cases hph : s.phase with
        | idle => rw [hph] at hi; cases hi
        | opening k => rw [hph] at hi; cases hi
        | posting k =>
          rw [hph] at hi hn
          simp only [shift, Phase.posting.injEq] at hi
          subst hi
          obtain ⟨r, hr⟩ := hg.mine k hph
          exact ⟨r, other_posts c s.srv op k _ hr hn⟩
      · intro i hi
        simp only at hi
        cases hph : s.phase with
        | idle => rw [hph] at hi; cases hi
        | opening k => exact hg.notOpening k hph
        | posting k => rw [hph] at hi; cases hi
    · cases h

theorem lost_run (c : HttpServer.Config) (hst : c.stateful = true) (L : Link M) (x : Text) (hx : Clean x)
    (ops : List (Op M)) (s s' : Sys M) (hg : Lost x s) (hp : ∀ op ∈ ops, Stuck c x op)
    (h : run c L s ops = some s') : Lost x s' := by
  induction ops generalizing s with
  | nil => cases h; exact hg
  | cons op ops ih =>
    simp only [run] at h
    split at h
    · cases h
    · next s1 h1 =>
      exact ih s1 (lost_step c hst L x hx s s1 op hg (hp op (by simp)) h1) (fun o ho => hp o (by simp [ho])) h

/-- The client accepts every answer the server gives. -/
theorem reply_ok (c : HttpServer.Config) (L : Link M) (hL : L.Ok) (cl : StreamClient.State M) (b : HttpServer.State)
    (clientSid respSid : Option Text) (v : Text) (a : HttpServer.Msg) :
    (StreamClient.step L.codec cl (.answer (some (respOf L (asJson c clientSid)
      (HttpServer.buildResponse c b clientSid a).2.1 respSid v (HttpServer.buildResponse c b clientSid a).2.2)))).2 =
      .ok := by
  have hhere : ∀ js : Bool, (StreamClient.step L.codec cl (.answer (some (respOf L js 200 respSid v (.here a))))).2 = .ok := by
    intro js
    cases js with
    | true =>
      simp only [StreamClient.step, StreamClient.onAnswer, respOf, if_true, kinds.1, hL.single, hL.one]
      rfl
    | false =>
      simp only [StreamClient.step, StreamClient.onAnswer, respOf, Bool.false_eq_true, if_false, kinds.2.1, kinds.2.2,
        if_true]
      rfl
  unfold HttpServer.buildResponse
  split
  · exact hhere _
  · cases clientSid with
    | none => exact hhere _
    | some t =>
      simp only
      split
      · have h1 : Connect.hasText StreamClient.kJson (respOf L (asJson c (some t)) 202 respSid v .stream).contentType =
            false := rfl
        have h2 : Connect.hasText StreamClient.kStream (respOf L (asJson c (some t)) 202 respSid v .stream).contentType =
            false := rfl
        simp only [StreamClient.step, StreamClient.onAnswer, h1, h2, Bool.false_eq_true, if_false]
        rfl
      · exact hhere _

/-- **C219** fails: a client that names a session the server does not have (its session was ended, or the server was
started again, or the program gave the transport an id of its own) never gets a session again, although it may
initialize as often as it likes: in every state it can reach, `initialize` succeeds and every request, notification
and response after it is refused with 404 without reaching the MCP server, and so is a stream; until the program clears
the id or closes the transport. -/
theorem C219_lost_session (c : HttpServer.Config) (hst : c.stateful = true) (L : Link M) (hL : L.Ok) (x : Text)
    (hx : Clean x) (s0 s : Sys M) (hi : s0.phase = .idle) (hs : s0.cl.session = some x)
    (he : AMap.get s0.srv.sessions x = none) (ops : List (Op M)) (hp : ∀ op ∈ ops, Stuck c x op)
    (h : run c L s0 ops = some s) :
    (s.phase = .idle → ∀ m n, ∃ s', step c L s (.send m n) = some s' ∧
      (∀ r, L.body m = .init r → s'.phase = .posting s.srv.posts.length ∧
        s'.srv.posts = s.srv.posts ++ [⟨some x, some x, true, r⟩]) ∧
      ((∃ r, L.body m = .request r ∨ L.body m = .notification r ∨ L.body m = .response r) →
        s'.phase = .idle ∧ s'.last = .status 404 ∧ s'.srv = s.srv)) ∧
    (s.phase = .idle → ∀ token n, ∃ s', step c L s (.open token n) = some s' ∧
      s'.phase = .idle ∧ s'.last = .status 404 ∧ s'.srv = s.srv ∧ s'.cl.handle = none) ∧
    (∀ i, s.phase = .posting i → ∀ a neg ev, ∃ s', step c L s (.answered a neg ev) = some s' ∧ s'.last = .ok ∧
      s'.cl.session = some x ∧ AMap.get s'.srv.sessions x = none) := by
  have hg : Lost x s := lost_run c hst L x hx ops s0 s
    ⟨hs, he, fun i h => (by rw [hi] at h; cases h), fun i h => (by rw [hi] at h; cases h)⟩ hp h
  refine ⟨?_, ?_, ?_⟩
  · intro hid m n
    have hpost := post_lost c hst L x hx s hg m n
    have h404 : ∀ cl : StreamClient.State M, (StreamClient.step L.codec cl (.answer (some (plain 404)))).2 = .status 404 :=
      fun _ => rfl
    cases hb : L.body m with
    | init r =>
      rw [hb] at hpost
      simp only at hpost
      refine ⟨_, by simp only [step, hid, if_true, send, hpost]; rfl, ?_, ?_⟩
      · intro r' h'; cases h'; exact ⟨rfl, rfl⟩
      · rintro ⟨k, h' | h' | h'⟩ <;> cases h'
    | invalid =>
      rw [hb] at hpost
      simp only at hpost
      refine ⟨_, by simp only [step, hid, if_true, send, hpost]; rfl, ?_, ?_⟩
      · intro r' h'; cases h'
      · rintro ⟨k, h' | h' | h'⟩ <;> cases h'
    | _ =>
      rw [hb] at hpost
      simp only at hpost
      refine ⟨_, by simp only [step, hid, if_true, send, hpost]; rfl, ?_, ?_⟩
      · intro r' h'; cases h'
      · intro _; exact ⟨rfl, rfl, rfl⟩
  · intro hid token n
    have hc : AMap.contains s.srv.sessions x = false := by simp [AMap.contains, hg.entry]
    have h1 : HttpServer.getStart c s.srv (some (.text StreamClient.kStream)) (s.cl.session.map HttpServer.sentBack)
        (token.map HttpServer.sentBack) n = (s.srv, .status 404) := by
      unfold HttpServer.getStart
      rw [get_headers_pass, hg.session]
      simp [show HttpServer.sentBack x = .text x from hx, HttpServer.strOf, hc, hst]
    refine ⟨_, by simp only [step, hid, if_true, openStream, h1]; rfl, ?_, ?_, ?_, ?_⟩ <;> rfl
  · intro i hi' a neg ev
    obtain ⟨r, hr⟩ := hg.mine i hi'
    have hq := HttpServer.process_eq c s.srv i a neg ev _ hr
    cases hstep : step c L s (.answered a neg ev) with
    | none =>
      simp only [step, hi', answered, hr] at hstep
      rw [hq] at hstep
      cases hstep
    | some s' =>
      have hg' := lost_step c hst L x hx s s' (.answered a neg ev) hg trivial hstep
      refine ⟨s', rfl, ?_, hg'.session, hg'.entry⟩
      simp only [step, hi', answered, hr] at hstep
      rw [hq] at hstep
      simp only [Option.some.injEq] at hstep
      subst hstep
      exact reply_ok c L hL s.cl _ (some x) (some x) _ a

/-! ### A stream that is open -/

/-- The steps of a client with a stream: anything but `close` and `set_session_id`; others do not know the session.
(Specification: no counterpart in the code.) -/
def Listening (x : Text) : Op M → Prop
  | .close => False
  | .setSession _ => False
  | .other op => Stranger x op
  | _ => True

/-- The client of session `x` reads stream `k`, and its received messages are `q`.
(Specification: no counterpart in the code.) -/
structure Silent (x : Text) (k : Nat) (q : List M) (s : Sys M) : Prop where
  session : s.cl.session = some x
  sender : AMap.get s.srv.senders x = some k
  opened : ∀ o ∈ s.opened, o.1 = k
  bodies : s.bodies = []
  queue : s.cl.queue = q
  unchecked : ∀ g ∈ s.srv.gets, g.sid = x → g.checked = false
  posting : ∀ i, s.phase = .posting i → ∃ p, s.srv.posts[i]? = some p ∧ p.clientSid = some x ∧
    (p.respSid = none ∨ p.respSid = some x)
  opening : ∀ i, s.phase = .opening i → ∃ g, s.srv.gets[i]? = some g ∧ g.sid = x

theorem getCheck_gets (s : HttpServer.State) (j : Nat) :
    (HttpServer.getCheck s j).1.gets = s.gets ∨
    (j < s.gets.length ∧ (HttpServer.getCheck s j).1.gets = s.gets.eraseIdx j) ∨
    ∃ g, (HttpServer.getCheck s j).1.gets = s.gets.set j g := by
  unfold HttpServer.getCheck
  split
  · next hk =>
    split
    · exact .inr (.inl ⟨(List.getElem?_eq_some_iff.mp hk).1, rfl⟩)
    · exact .inr (.inr ⟨_, rfl⟩)
  · exact .inl rfl

theorem getOpen_gets (c : HttpServer.Config) (s : HttpServer.State) (j : Nat) :
    (HttpServer.getOpen c s j).1.gets = s.gets ∨
    (j < s.gets.length ∧ (HttpServer.getOpen c s j).1.gets = s.gets.eraseIdx j) := by
  unfold HttpServer.getOpen
  split
  · next hk => exact .inr ⟨(List.getElem?_eq_some_iff.mp hk).1, rfl⟩
  · exact .inl rfl

/-- The stream requests after a step of others: the client's is still there, under its new number. -/
theorem other_gets (c : HttpServer.Config) (s : HttpServer.State) (op : HttpServer.Op) (i : Nat) (x : Text)
    (hi : ∃ g, s.gets[i]? = some g ∧ g.sid = x) (hm : notMine (.opening i) op = true) :
    ∃ g, (HttpServer.step c s op).1.gets[shiftGet
      (decide ((HttpServer.step c s op).1.gets.length < s.gets.length)) i op]? = some g ∧ g.sid = x := by
  obtain ⟨g, hi, hx⟩ := hi
  have hlt : i < s.gets.length := (List.getElem?_eq_some_iff.mp hi).1
  cases op with
  | post p n => simp only [HttpServer.step, shiftGet, HttpServer.post_gets]; exact ⟨g, hi, hx⟩
  | process j r neg ev => simp only [HttpServer.step, shiftGet, HttpServer.process_gets]; exact ⟨g, hi, hx⟩
  | getStart a h l n =>
    simp only [HttpServer.step, shiftGet]
    rcases HttpServer.getStart_cases c s a h l n with ⟨code, hh⟩ | ⟨t, _, _, hh⟩ | ⟨_, _, _, hh⟩ <;> rw [hh]
    · exact ⟨g, hi, hx⟩
    · refine ⟨g, ?_, hx⟩; simp only; rw [List.getElem?_append_left hlt]; exact hi
    · refine ⟨g, ?_, hx⟩; simp only; rw [List.getElem?_append_left hlt]; exact hi
  | getCheck j =>
    have hj : j ≠ i := by rintro rfl; simp [notMine] at hm
    simp only [shiftGet]
    rcases getCheck_gets s j with h | ⟨hjl, h⟩ | ⟨g', h⟩ <;>
      change (HttpServer.step c s (.getCheck j)).1.gets = _ at h <;> simp only [h]
    · simp only [Nat.lt_irrefl, decide_false, Bool.false_and, Bool.false_eq_true, if_false]
      exact ⟨g, hi, hx⟩
    · have : (s.gets.eraseIdx j).length < s.gets.length := by rw [List.length_eraseIdx_of_lt hjl]; omega
      simp only [this, decide_true, Bool.true_and, decide_eq_true_eq]
      exact ⟨g, by rw [erase_shift _ _ _ hj hlt]; exact hi, hx⟩
    · simp only [List.length_set, Nat.lt_irrefl, decide_false, Bool.false_and, Bool.false_eq_true, if_false]
      exact ⟨g, by rw [List.getElem?_set_ne hj]; exact hi, hx⟩
  | getOpen j =>
    have hj : j ≠ i := by rintro rfl; simp [notMine] at hm
    simp only [shiftGet]
    rcases getOpen_gets c s j with h | ⟨hjl, h⟩ <;>
      change (HttpServer.step c s (.getOpen j)).1.gets = _ at h <;> simp only [h]
    · simp only [Nat.lt_irrefl, decide_false, Bool.false_and, Bool.false_eq_true, if_false]
      exact ⟨g, hi, hx⟩
    · have : (s.gets.eraseIdx j).length < s.gets.length := by rw [List.length_eraseIdx_of_lt hjl]; omega
      simp only [this, decide_true, Bool.true_and, decide_eq_true_eq]
      exact ⟨g, by rw [erase_shift _ _ _ hj hlt]; exact hi, hx⟩
  | delete h => simp only [HttpServer.step, shiftGet, (HttpServer.delete_frame c s h).1]; exact ⟨g, hi, hx⟩
  | disconnect k => simp only [HttpServer.step, shiftGet, (HttpServer.disconnect_frame s k).2.2.1]; exact ⟨g, hi, hx⟩
  | deliver k ev => simp only [HttpServer.step, shiftGet, (HttpServer.deliver_frame c s k ev).2.2.1]; exact ⟨g, hi, hx⟩

/-- Stream requests for session `x` stay unchecked while it has a stream. -/
theorem unchecked_other (c : HttpServer.Config) (s : HttpServer.State) (op : HttpServer.Op) (x : Text) (k : Nat)
    (hs : AMap.get s.senders x = some k) (hu : ∀ g ∈ s.gets, g.sid = x → g.checked = false) :
    ∀ g ∈ (HttpServer.step c s op).1.gets, g.sid = x → g.checked = false := by
  intro g hg hx
  cases op with
  | post p n => simp only [HttpServer.step, HttpServer.post_gets] at hg; exact hu g hg hx
  | process k r neg ev => simp only [HttpServer.step, HttpServer.process_gets] at hg; exact hu g hg hx
  | getStart a h l n =>
    simp only [HttpServer.step] at hg
    rcases HttpServer.getStart_cases c s a h l n with ⟨code, hh⟩ | ⟨t, h1, _, hh⟩ | ⟨_, _, _, hh⟩
    · rw [hh] at hg; exact hu g hg hx
    · rw [hh] at hg
      simp only [List.mem_append, List.mem_singleton] at hg
      rcases hg with hg | rfl
      · exact hu g hg hx
      · rfl
    · rw [hh] at hg
      simp only [List.mem_append, List.mem_singleton] at hg
      rcases hg with hg | rfl
      · exact hu g hg hx
      · rfl
  | getCheck j =>
    simp only [HttpServer.step, HttpServer.getCheck] at hg
    split at hg
    · next sid last hk =>
      split at hg
      · exact hu g (List.mem_of_mem_eraseIdx hg) hx
      · next hc =>
        rcases List.mem_or_eq_of_mem_set hg with hg | rfl
        · exact hu g hg hx
        · simp only at hx
          subst hx
          simp [AMap.contains, hs] at hc
    · exact hu g hg hx
  | getOpen j =>
    simp only [HttpServer.step, HttpServer.getOpen] at hg
    split at hg
    · exact hu g (List.mem_of_mem_eraseIdx hg) hx
    · exact hu g hg hx
  | delete h => simp only [HttpServer.step, (HttpServer.delete_frame c s h).1] at hg; exact hu g hg hx
  | disconnect k => simp only [HttpServer.step, (HttpServer.disconnect_frame s k).2.2.1] at hg; exact hu g hg hx
  | deliver k ev => simp only [HttpServer.step, (HttpServer.deliver_frame c s k ev).2.2.1] at hg; exact hu g hg hx

theorem get_mem_any (m : AMap Text Nat) (x : Text) (k : Nat) (h : AMap.get m x = some k) : ∃ e ∈ m, e.2 = k := by
  induction m with
  | nil => cases h
  | cons e m ih =>
    obtain ⟨y, j⟩ := e
    rw [AMap.get_cons] at h
    split at h
    · simp only [Option.some.injEq] at h; exact ⟨(y, j), by simp, h⟩
    · obtain ⟨e, he, hk⟩ := ih h
      exact ⟨e, by simp [he], hk⟩

/-- A stream does not end while its session sends to it. -/
theorem not_ended (srv : HttpServer.State) (x : Text) (k : Nat) (h : AMap.get srv.senders x = some k) :
    ended srv k = false := by
  obtain ⟨e, he, hk⟩ := get_mem_any srv.senders x k h
  unfold ended
  have : srv.senders.all (fun e => decide (e.2 ≠ k)) = false := by
    rw [List.all_eq_false]
    exact ⟨e, he, by simp [hk]⟩
  rw [this, Bool.false_and]

/-- The client's POSTs name its session. -/
theorem post_silent (c : HttpServer.Config) (L : Link M) (x : Text) (hx : Clean x) (s : Sys M)
    (hs : s.cl.session = some x) (m : M) (n : Text) :
    (∃ code, HttpServer.post c s.srv (postOf L s.cl m) n = (s.srv, .status code)) ∨
    ∃ q, (HttpServer.post c s.srv (postOf L s.cl m) n).2 = .goesOn ∧
      (HttpServer.post c s.srv (postOf L s.cl m) n).1.posts = s.srv.posts ++ [q] ∧ q.clientSid = some x ∧
      (q.respSid = none ∨ q.respSid = some x) := by
  have h1 : HttpServer.strOf (postOf L s.cl m).sid = some x := by
    simp only [postOf, hs, Option.map_some, show HttpServer.sentBack x = .text x from hx, HttpServer.strOf]
  rcases HttpServer.post_cases c s.srv (postOf L s.cl m) n with ⟨code, h⟩ | ⟨req, r, h, hb⟩ | ⟨req, s', r, hp, hb, hv, h⟩
  · exact .inl ⟨code, h⟩
  · rcases post_shape c s.srv (postOf L s.cl m) n with ⟨code, h'⟩ | ⟨q, g1, g2, g3, g4⟩
    · exact .inl ⟨code, h'⟩
    · refine .inr ⟨q, g1, g2, g3.trans h1, ?_⟩
      have hn : HttpServer.validateNonInit c s.srv (some x) = .ok none ∨
          HttpServer.validateNonInit c s.srv (some x) = .ok (some x) ∨
          ∃ e, HttpServer.validateNonInit c s.srv (some x) = .error e := by
        unfold HttpServer.validateNonInit
        repeat' split
        all_goals simp_all
      have h6 : HttpServer.validatePost (postOf L s.cl m).contentType (postOf L s.cl m).accept = none := post_headers_pass
      have hq : q.respSid = r := by
        rw [h] at g2
        simp only [List.append_cancel_left_eq, List.cons.injEq, and_true] at g2
        rw [← g2]
      unfold HttpServer.post at h
      rw [h6, h1, hb] at h
      simp only at h
      rcases hn with hn | hn | ⟨e, hn⟩ <;> rw [hn] at h <;> simp only at h
      · split at h
        · exact absurd (congrArg Prod.snd h) (by simp)
        · simp only [Prod.mk.injEq, and_true] at h
          left
          rw [hq]
          simpa using (congrArg HttpServer.State.posts h).symm
      · split at h
        · exact absurd (congrArg Prod.snd h) (by simp)
        · simp only [Prod.mk.injEq, and_true] at h
          right
          rw [hq]
          simpa using (congrArg HttpServer.State.posts h).symm
      · exact absurd (congrArg Prod.snd h) (by simp)
  · refine .inr ⟨⟨some x, r, true, req⟩, by rw [h], ?_, rfl, ?_⟩
    · have hpp := HttpServer.processInit_posts c s.srv (HttpServer.strOf (postOf L s.cl m).sid)
        (HttpServer.strOf (postOf L s.cl m).version) n
      rw [hp] at hpp
      simp only at hpp
      rw [h]
      simp only [hpp, h1]
    · rw [h1] at hp
      unfold HttpServer.processInit at hp
      repeat' split at hp
      all_goals simp_all

theorem silent_step (c : HttpServer.Config) (hj : c.json = false) (L : Link M) (x : Text) (hx : Clean x) (k : Nat)
    (q : List M) (s s' : Sys M) (op : Op M) (hg : Silent x k q s) (hp : Listening x op)
    (h : step c L s op = some s') : Silent x k q s' := by
  cases op with
  | send m n =>
    simp only [step] at h
    split at h
    · next hid =>
      unfold send at h
      rcases post_silent c L x hx s hg.session m n with ⟨code, hc⟩ | ⟨p, h1, h2, h3, h4⟩
      · rw [hc] at h
        simp only [plain_answer, Option.some.injEq] at h
        subst h
        exact ⟨hg.session, hg.sender, hg.opened, hg.bodies, hg.queue, hg.unchecked, hg.posting, hg.opening⟩
      · simp only [h1, Option.some.injEq] at h
        subst h
        refine ⟨hg.session, ?_, hg.opened, hg.bodies, hg.queue, ?_, ?_, ?_⟩
        · simp only [HttpServer.post_senders]; exact hg.sender
        · simp only [HttpServer.post_gets]; exact hg.unchecked
        · intro i hi
          simp only [Phase.posting.injEq] at hi
          subst hi
          exact ⟨p, by simp [h2], h3, h4⟩
        · intro i hi; cases hi
    · cases h
  | answered a neg ev =>
    simp only [step] at h
    split at h
    · next i hi =>
      obtain ⟨p, hr, h3, h4⟩ := hg.posting i hi
      have hq := HttpServer.process_eq c s.srv i a neg ev _ hr
      have hb : HttpServer.buildResponse c (HttpServer.beforeBuild c s.srv i p a neg ev) p.clientSid a =
          (HttpServer.sendTo (HttpServer.beforeBuild c s.srv i p a neg ev) k a, 202, .stream) := by
        unfold HttpServer.buildResponse
        rw [hj, h3]
        simp [HttpServer.before_senders, hg.sender]
      simp only [answered, hr] at h
      rw [hq, hb] at h
      simp only [List.append_nil, Option.some.injEq] at h
      have hans : ∀ v, (StreamClient.step L.codec s.cl (.answer (some (respOf L (asJson c p.clientSid) 202 p.respSid v
          .stream)))).1 = StreamClient.headers s.cl (respOf L (asJson c p.clientSid) 202 p.respSid v .stream) :=
        fun v => answer_other L.codec s.cl _ rfl rfl
      subst h
      refine ⟨?_, ?_, hg.opened, hg.bodies, ?_, ?_, ?_, ?_⟩
      · apply answer_session L s.cl _ x hg.session
        rw [respOf_session]
        rcases h4 with h4 | h4 <;> rw [h4]
        · exact .inl rfl
        · exact .inr (seen_clean hx)
      · simp only [HttpServer.sendTo_senders, HttpServer.before_senders]; exact hg.sender
      · simp only [hans]; exact hg.queue
      · simp only [HttpServer.sendTo_gets, HttpServer.before_gets]; exact hg.unchecked
      · intro i' hi'; cases hi'
      · intro i' hi'; cases hi'
    · cases h
  | arrive j =>
    simp only [step, hg.bodies] at h
    split at h
    · next hb => simp at hb
    · cases h
  | «open» t n =>
    simp only [step] at h
    split at h
    · next hid =>
      unfold openStream at h
      have hsid : HttpServer.strOf (s.cl.session.map HttpServer.sentBack) = some x := by
        simp only [hg.session, Option.map_some, show HttpServer.sentBack x = .text x from hx, HttpServer.strOf]
      have hge : (HttpServer.getStart c s.srv (some (.text StreamClient.kStream))
            (s.cl.session.map HttpServer.sentBack) (t.map HttpServer.sentBack) n = (s.srv, .status 404)) ∨
          HttpServer.getStart c s.srv (some (.text StreamClient.kStream)) (s.cl.session.map HttpServer.sentBack)
            (t.map HttpServer.sentBack) n = ({ s.srv with
              gets := s.srv.gets ++ [⟨x, false, HttpServer.strOf (t.map HttpServer.sentBack)⟩] }, .goesOn) := by
        unfold HttpServer.getStart
        rw [get_headers_pass, hsid]
        simp only
        split
        · exact .inl rfl
        · exact .inr rfl
      rcases hge with hge | hge
      · rw [hge] at h
        simp only [stream_refused L _ 404 (by omega), Option.some.injEq] at h
        subst h
        exact ⟨hg.session, hg.sender, hg.opened, hg.bodies, hg.queue, hg.unchecked, hg.posting, hg.opening⟩
      · rw [hge] at h
        simp only [Option.some.injEq] at h
        subst h
        refine ⟨hg.session, hg.sender, hg.opened, hg.bodies, hg.queue, ?_, ?_, ?_⟩
        · intro g hgm hgx
          simp only [List.mem_append, List.mem_singleton] at hgm
          rcases hgm with hgm | rfl
          · exact hg.unchecked g hgm hgx
          · rfl
        · intro i hi; cases hi
        · intro i hi
          simp only [Phase.opening.injEq] at hi
          subst hi
          exact ⟨⟨x, false, HttpServer.strOf (t.map HttpServer.sentBack)⟩, by simp, rfl⟩
    · cases h
  | check =>
    simp only [step] at h
    split at h
    · next i hi =>
      obtain ⟨g, h1, h2⟩ := hg.opening i hi
      have h3 := hg.unchecked g (List.mem_of_getElem? h1) h2
      obtain ⟨sid, ch, last⟩ := g
      simp only at h2 h3
      subst h2 h3
      have hck : HttpServer.getCheck s.srv i = ({ s.srv with gets := s.srv.gets.eraseIdx i }, .status 409) := by
        unfold HttpServer.getCheck
        simp [h1, AMap.contains, hg.sender]
      unfold checkStream at h
      rw [hck] at h
      simp only [stream_refused L _ 409 (by omega), Option.some.injEq] at h
      subst h
      refine ⟨hg.session, hg.sender, hg.opened, hg.bodies, hg.queue, ?_, ?_, ?_⟩
      · intro g hgm hgx; exact hg.unchecked g (List.mem_of_mem_eraseIdx hgm) hgx
      · intro i hi; cases hi
      · intro i hi; cases hi
    · cases h
  | opened =>
    simp only [step] at h
    split at h
    · next i hi =>
      obtain ⟨g, h1, h2⟩ := hg.opening i hi
      have h3 := hg.unchecked g (List.mem_of_getElem? h1) h2
      obtain ⟨sid, ch, last⟩ := g
      simp only at h3
      subst h3
      unfold openedStream at h
      have hop : HttpServer.getOpen c s.srv i = (s.srv, .nothing) := by
        unfold HttpServer.getOpen
        simp [h1]
      rw [hop, h1] at h
      cases h
    · cases h
  | ends j =>
    simp only [step] at h
    split at h
    · next k' key ho =>
      have : k' = k := hg.opened _ (List.mem_of_getElem? ho)
      subst this
      rw [not_ended s.srv x k' hg.sender] at h
      cases h
    · cases h
  | close => exact hp.elim
  | setSession y => exact hp.elim
  | other op =>
    simp only [step] at h
    split at h
    · next hn =>
      simp only [Option.some.injEq] at h
      subst h
      refine ⟨hg.session, ?_, hg.opened, hg.bodies, hg.queue, unchecked_other c s.srv op x k hg.sender hg.unchecked, ?_, ?_⟩
      · simp only
        rw [other_senders c s.srv op x hp hg.unchecked]; exact hg.sender
      · intro i hi
        simp only at hi ⊢
        cases hph : s.phase with
        | idle => rw [hph] at hi; cases hi
        | opening k => rw [hph] at hi; cases hi
        | posting k =>
          rw [hph] at hi hn
          simp only [shift, Phase.posting.injEq] at hi
          subst hi
          obtain ⟨p, hr, h3⟩ := hg.posting k hph
          exact ⟨p, other_posts c s.srv op k _ hr hn, h3⟩
      · intro i hi
        simp only at hi ⊢
        cases hph : s.phase with
        | idle => rw [hph] at hi; cases hi
        | posting k => rw [hph] at hi; cases hi
        | opening k =>
          rw [hph] at hi hn
          simp only [shift, Phase.opening.injEq] at hi
          subst hi
          exact other_gets c s.srv op k x (hg.opening k hph) hn
    · cases h

/-- **C219** fails: without JSON answers, once the client has opened the stream of its session (`start_sse`), it
receives nothing any more: the answers to all requests go to the stream, and the client reads a stream only after its
end, which does not come. Whatever the client sends, however often it opens a stream again, and whatever others do. -/
theorem C219_stream_silent (c : HttpServer.Config) (hj : c.json = false) (L : Link M) (x : Text) (hx : Clean x)
    (k : Nat) (s s' : Sys M) (hg : Silent x k s.cl.queue s) (ops : List (Op M)) (hp : ∀ op ∈ ops, Listening x op)
    (h : run c L s ops = some s') : s'.cl.queue = s.cl.queue ∧ s'.bodies = [] := by
  have key : ∀ (ops : List (Op M)) (s1 : Sys M), Silent x k s.cl.queue s1 → (∀ op ∈ ops, Listening x op) →
      run c L s1 ops = some s' → Silent x k s.cl.queue s' := by
    intro ops
    induction ops with
    | nil => intro s1 h1 _ h; cases h; exact h1
    | cons op ops ih =>
      intro s1 h1 hp h
      simp only [run] at h
      split at h
      · cases h
      · next s2 h2 =>
        exact ih s2 (silent_step c hj L x hx k _ s1 s2 op h1 (hp op (by simp)) h2) (fun o ho => hp o (by simp [ho])) h
  have := key ops s hg hp h
  exact ⟨this.queue, this.bodies⟩

/-- **C219**. This is reached from every session at work: an idle client that has read all its answers opens a
stream. -/
theorem C219_stream_opens (c : HttpServer.Config) (L : Link M) (x v : Text) (hx : Clean x)
    (l : List HttpServer.Msg) (s : Sys M) (hg : Good c L x v l s) (hid : s.phase = .idle) (hb : s.bodies = [])
    (ho : s.opened = []) (n : Text) :
    ∃ s', run c L s [.open none n, .check, .opened] = some s' ∧ s'.last = .ok ∧
      Silent x s.srv.streams.length s.cl.queue s' ∧ s'.opened = [(s.srv.streams.length, s.cl.nextKey)] ∧
      s'.cl.handle = some s.cl.nextKey ∧
      s'.cl.streams.find? (fun t => t.key == s.cl.nextKey) = some ⟨s.cl.nextKey, []⟩ ∧ s'.phase = .idle ∧
      s'.cl.requests = s.cl.requests ++ [⟨.get, some x, some v, none, none⟩] ∧
      AMap.get s'.srv.sessions x = some ⟨true, some v⟩ := by
  have hc : AMap.contains s.srv.sessions x = true := by simp [AMap.contains, hg.entry]
  have h1 : HttpServer.getStart c s.srv (some (.text StreamClient.kStream)) (s.cl.session.map HttpServer.sentBack)
      none n =
      ({ s.srv with gets := s.srv.gets ++ [⟨x, false, none⟩] }, .goesOn) := by
    unfold HttpServer.getStart
    rw [get_headers_pass, hg.session]
    simp [show HttpServer.sentBack x = .text x from hx, HttpServer.strOf, hc]
  have hns : AMap.contains s.srv.senders x = false := by simp [AMap.contains, hg.sender]
  have hr : ∃ s', run c L s [.open none n, .check, .opened] = some s' := by
    simp [run, step, hid, openStream, h1, checkStream, HttpServer.getCheck, hns, openedStream, HttpServer.getOpen]
  obtain ⟨s', hs'⟩ := hr
  refine ⟨s', hs', ?_⟩
  simp [run, step, hid, openStream, h1, checkStream, HttpServer.getCheck, hns, openedStream, HttpServer.getOpen] at hs'
  subst hs'
  refine ⟨rfl, ⟨?_, ?_, ?_, hb, rfl, ?_, ?_, ?_⟩, by rw [ho]; rfl, rfl, ?_, rfl, ?_, hg.entry⟩
  · have := (StreamClient.onStreamAnswer_headers (StreamClient.step L.codec s.cl (.open none true)).1
      ⟨200, seen x, none, StreamClient.kStream, some []⟩).1
    rw [seen_clean hx] at this
    simp only [seen_clean hx]
    exact this
  · simp [AMap.get_insert]
  · simp [ho]
  · intro g hgm hgx
    have hgm' : g ∈ s.srv.gets := by simpa [List.eraseIdx_append_of_length_le] using hgm
    exact absurd hgx (hg.quiet.gets g hgm')
  · intro i hi; cases hi
  · intro i hi; cases hi
  · have hfil : s.cl.streams.filter (fun t => decide (some t.key ≠ s.cl.handle)) = s.cl.streams := by
      rw [List.filter_eq_self]
      intro t _
      simp [hg.handle]
    have hnone : s.cl.streams.find? (fun t => t.key == s.cl.nextKey) = none := by
      rw [List.find?_eq_none]
      intro t ht
      have := hg.fresh t ht
      simp; omega
    show ((s.cl.streams.filter (fun t => decide (some t.key ≠ s.cl.handle))) ++
      [(⟨s.cl.nextKey, []⟩ : StreamClient.Stream)]).find? _ = _
    rw [hfil, List.find?_append, hnone]
    simp
  · show s.cl.requests ++ [(⟨.get, s.cl.session, s.cl.version, none, none⟩ : StreamClient.Req M)] = _
    rw [hg.session, hg.version]

/-! ### Closing -/

theorem read_gone (L : Link M) (cl : StreamClient.State M) (key : Nat) (text : Text)
    (h : ∀ t ∈ cl.streams, t.key ≠ key) : read L cl key text = cl := by
  have h1 : (StreamClient.step L.codec cl (.chunk key text)).1 = cl := by
    have : cl.streams.map (fun x => if x.key = key then (⟨x.key, x.text ++ text⟩ : StreamClient.Stream) else x) =
        cl.streams := by
      conv => rhs; rw [← List.map_id cl.streams]
      apply List.map_congr_left
      intro t ht
      simp [h t ht]
    simp only [StreamClient.step, this]
  unfold read
  rw [h1]
  have h2 : cl.streams.find? (fun x => x.key == key) = none := by
    rw [List.find?_eq_none]
    intro t ht
    simpa using h t ht
  simp only [StreamClient.step, h2]

/-- The client waits: its streams end, and others act. (Specification: no counterpart in the code.) -/
def Waits : Op M → Prop
  | .ends _ => True
  | .arrive _ => True
  | .other _ => True
  | _ => False

/-- **C219** fails: `close` ends the stream, and what the server sent on it is lost: the client's task that reads the
stream is stopped before the session is ended. Nothing is received after `close`, whatever happens. -/
theorem C219_closed_lost (c : HttpServer.Config) (L : Link M) (s s' : Sys M) (hb : s.bodies = [])
    (ho : ∀ o ∈ s.opened, ∀ t ∈ s.cl.streams, t.key = o.2 → s.cl.handle = some o.2)
    (ops : List (Op M)) (hp : ∀ op ∈ ops, Waits op) (h : run c L s (.close :: ops) = some s') :
    s'.cl.queue = s.cl.queue ∧ (∀ k key, (k, key) ∈ s'.opened → ended s'.srv k = true →
      ∀ m, read L s'.cl key m = s'.cl) := by
  have key : ∀ (ops : List (Op M)) (s1 : Sys M), s1.bodies = [] → s1.cl.queue = s.cl.queue →
      (∀ o ∈ s1.opened, ∀ t ∈ s1.cl.streams, t.key ≠ o.2) → (∀ op ∈ ops, Waits op) → run c L s1 ops = some s' →
      s'.cl.queue = s.cl.queue ∧ ∀ o ∈ s'.opened, ∀ t ∈ s'.cl.streams, t.key ≠ o.2 := by
    intro ops
    induction ops with
    | nil => intro s1 _ h2 h3 _ h; cases h; exact ⟨h2, h3⟩
    | cons op ops ih =>
      intro s1 h1 h2 h3 hp h
      simp only [run] at h
      split at h
      · cases h
      · next s2 hs =>
        have hw := hp op (by simp)
        have hp' : ∀ o ∈ ops, Waits o := fun o ho => hp o (by simp [ho])
        cases op with
        | ends j =>
          simp only [step] at hs
          split at hs
          · next k key hk =>
            split at hs
            · simp only [Option.some.injEq] at hs
              rw [read_gone L s1.cl key _ (h3 _ (List.mem_of_getElem? hk))] at hs
              refine ih s2 (by rw [← hs]; exact h1) (by rw [← hs]; exact h2) ?_ hp' h
              rw [← hs]
              exact fun o ho => h3 o (List.mem_of_mem_eraseIdx ho)
            · cases hs
          · cases hs
        | arrive j =>
          simp only [step, h1] at hs
          split at hs
          · next hb => simp at hb
          · cases hs
        | other o =>
          simp only [step] at hs
          split at hs
          · simp only [Option.some.injEq] at hs
            exact ih s2 (by rw [← hs]; exact h1) (by rw [← hs]; exact h2) (by rw [← hs]; exact h3) hp' h
          · cases hs
        | _ => exact hw.elim
  simp only [run] at h
  split at h
  · cases h
  · next s1 hs =>
    simp only [step] at hs
    split at hs
    · simp only [Option.some.injEq] at hs
      have hq : (StreamClient.step L.codec s.cl (.close true)).1.queue = s.cl.queue := by
        simp only [StreamClient.step, StreamClient.abort]
        split <;> rfl
      have hst : (StreamClient.step L.codec s.cl (.close true)).1.streams =
          s.cl.streams.filter (fun t => some t.key ≠ s.cl.handle) := by
        simp only [StreamClient.step, StreamClient.abort]
        split <;> rfl
      have hfin := key ops s1 (by rw [← hs]; exact hb) (by rw [← hs]; exact hq) (by
        rw [← hs]
        intro o ho' t ht he
        simp only [hst, List.mem_filter, decide_eq_true_eq] at ht
        exact ht.2 (by rw [ho o ho' t ht.1 he, he])) hp h
      exact ⟨hfin.1, fun k key hk _ m => read_gone L s'.cl key m (hfin.2 _ hk)⟩
    · cases hs

end Verif.HttpPair
