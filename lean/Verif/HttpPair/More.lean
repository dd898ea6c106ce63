import Verif.HttpPair.Examples

/-
C219: what a stream brings when it ends, a second stream, closing, and starting again after a lost session.
-/

namespace Verif.HttpPair

open Verif

variable {M : Type}

/-! ### The end of a stream -/

theorem representable (L : Link M) (hL : L.Ok) (ev : Text) (m : HttpServer.Msg) (he : EvOk ev) :
    Sse.Representable (eventOf L ev m) := by
  have hl := hL.line m
  refine ⟨?_, ?_, ?_, hl.2.2, ?_, ?_⟩
  · intro i hi; cases hi; exact he
  · intro v hv; cases hv; decide
  · intro n hn; cases hn
  · cases hj : L.json m with
    | nil => exact absurd hj hl.1
    | cons a l =>
      refine ⟨a, by simp [eventOf, hj], ?_⟩
      rintro rfl
      exact hl.2.1 (by rw [hj]; simp)
  · intro h
    exact hl.2.1 (List.mem_of_getLast? h)

theorem withIds_messages (L : Link M) (hL : L.Ok) (es : List (Text × HttpServer.Msg)) (last : Option Text) :
    (Sse.withIds last (es.map (fun e => eventOf L e.1 e.2))).filterMap
      (fun e => if e.event = some StreamClient.kMessage ∨ e.event = none then L.codec.one e.data else none) =
      es.map (fun e => L.msg e.2) := by
  induction es generalizing last with
  | nil => rfl
  | cons e es ih =>
    simp only [List.map_cons, Sse.withIds]
    rw [List.filterMap_cons]
    simp only [eventOf, true_or, if_true, hL.one]
    rw [← ih]
    rfl

/-- The client reads the text of a whole stream. -/
theorem read_events (L : Link M) (hL : L.Ok) (cl : StreamClient.State M) (key : Nat)
    (es : List (Text × HttpServer.Msg)) (he : ∀ e ∈ es, EvOk e.1)
    (hk : cl.streams.find? (fun t => t.key == key) = some ⟨key, []⟩) :
    (read L cl key (es.flatMap (fun e => Sse.display (eventOf L e.1 e.2)))).queue =
      cl.queue ++ es.map (fun e => L.msg e.2) := by
  have hf := Sse.C06_stream_round_trip_partial (es.map (fun e => eventOf L e.1 e.2)) (by
    intro e hm
    obtain ⟨e', h1, rfl⟩ := List.mem_map.mp hm
    exact representable L hL _ _ (he e' h1))
  rw [List.flatMap_map] at hf
  generalize ht : es.flatMap (fun e => Sse.display (eventOf L e.1 e.2)) = text at hf
  have hmsg : StreamClient.messages L.codec text = es.map (fun e => L.msg e.2) := by
    unfold StreamClient.messages
    cases hd : Sse.feed {} text with
    | none => rw [show Sse.fresh = {} from rfl, hd] at hf; simp at hf
    | some r =>
      obtain ⟨p, es'⟩ := r
      rw [show Sse.fresh = {} from rfl, hd] at hf
      simp only [Option.map_some, Option.some.injEq] at hf
      subst hf
      exact withIds_messages L hL es none
  have hfind : (StreamClient.step L.codec cl (.chunk key text)).1.streams.find? (fun t => t.key == key) =
      some ⟨key, text⟩ := by
    simp only [StreamClient.step]
    have : ∀ l : List StreamClient.Stream, l.find? (fun t => t.key == key) = some ⟨key, []⟩ →
        (l.map (fun x => if x.key = key then (⟨x.key, x.text ++ text⟩ : StreamClient.Stream) else x)).find?
          (fun t => t.key == key) = some ⟨key, text⟩ := by
      intro l
      induction l with
      | nil => intro h; cases h
      | cons t l ih =>
        intro h
        rw [List.find?_cons] at h
        simp only [List.map_cons, List.find?_cons]
        by_cases hx : t.key = key
        · simp only [hx, beq_self_eq_true, Option.some.injEq] at h ⊢
          rw [h]
          simp
        · simp only [hx, if_false, beq_eq_false_iff_ne.mpr hx] at h ⊢
          exact ih h
    exact this _ hk
  unfold read
  rw [finish_eq L.codec _ key _ hfind, StreamClient.onBody_queue, hmsg]
  rfl

/-- **C219**, part that holds: when the server has ended the stream (another client ended the session, say), the client
that still reads it gets all the answers that went there, in order, each once. Missing: that a stream ever ends
(`C219_stream_silent`). -/
theorem C219_stream_ends_partial (c : HttpServer.Config) (L : Link M) (hL : L.Ok) (s : Sys M) (j k key : Nat)
    (hj : s.opened[j]? = some (k, key)) (hk : s.cl.streams.find? (fun t => t.key == key) = some ⟨key, []⟩)
    (st : HttpServer.Stream) (hst : s.srv.streams[k]? = some st) (hq : st.queue = [])
    (hs : ∀ e ∈ s.srv.senders, e.2 ≠ k) (he : ∀ e ∈ st.delivered, EvOk e.1) :
    ∃ s', step c L s (.ends j) = some s' ∧ s'.cl.queue = s.cl.queue ++ st.delivered.map (fun e => L.msg e.2) ∧
      s'.opened = s.opened.eraseIdx j ∧ s'.srv = s.srv ∧ s'.phase = s.phase := by
  have hend : ended s.srv k = true := by
    simp only [ended, hst, hq, decide_true, Bool.and_true, List.all_eq_true, decide_eq_true_eq]
    exact hs
  refine ⟨_, by simp only [step, hj, hend, if_true]; rfl, ?_, ?_⟩
  case refine_2 => exact ⟨rfl, rfl, rfl⟩
  show (read L s.cl key (textOf L s.srv k)).queue = _
  simp only [textOf, hst]
  exact read_events L hL s.cl key st.delivered he hk

/-! ### A second stream -/

/-- **C219** fails: a client that calls `start_sse` again stops reading its stream first (L194-197), and is then refused
(409), for the server still has the first: it is left without a stream, what was sent on it is lost, and as before all
the answers go there. -/
theorem C219_second_stream (c : HttpServer.Config) (L : Link M) (x : Text) (hx : Clean x) (k : Nat) (q : List M)
    (s : Sys M) (hg : Silent x k q s) (hid : s.phase = .idle) (hent : AMap.contains s.srv.sessions x = true)
    (hh : ∀ o ∈ s.opened, s.cl.handle = some o.2) (token : Option Text) (n : Text) :
    ∃ s', run c L s [.open token n, .check] = some s' ∧ s'.last = .status 409 ∧ Silent x k q s' ∧ s'.phase = .idle ∧
      s'.srv = s.srv ∧ s'.opened = s.opened ∧ ∀ o ∈ s'.opened, ∀ text, read L s'.cl o.2 text = s'.cl := by
  have h1 : HttpServer.getStart c s.srv (some (.text StreamClient.kStream)) (s.cl.session.map HttpServer.sentBack)
      (token.map HttpServer.sentBack) n =
      ({ s.srv with gets := s.srv.gets ++ [⟨x, false, HttpServer.strOf (token.map HttpServer.sentBack)⟩] }, .goesOn) := by
    unfold HttpServer.getStart
    rw [get_headers_pass, hg.session]
    simp [show HttpServer.sentBack x = .text x from hx, HttpServer.strOf, hent]
  have hsn : AMap.contains s.srv.senders x = true := by simp [AMap.contains, hg.sender]
  have h2 : HttpServer.getCheck { s.srv with gets :=
      s.srv.gets ++ [⟨x, false, HttpServer.strOf (token.map HttpServer.sentBack)⟩] } s.srv.gets.length =
      (s.srv, .status 409) := by
    simp [HttpServer.getCheck, hsn, List.eraseIdx_append_of_length_le]
  refine ⟨_, by simp only [run, step, hid, if_true, openStream, h1, checkStream, h2]; rfl, ?_⟩
  refine ⟨rfl, ?_, rfl, rfl, rfl, ?_⟩
  · rw [stream_refused L _ 409 (by omega)]
    exact ⟨hg.session, hg.sender, hg.opened, hg.bodies, hg.queue, hg.unchecked,
      (fun i h => by cases h), (fun i h => by cases h)⟩
  · intro o ho text
    rw [stream_refused L _ 409 (by omega)]
    apply read_gone
    intro t ht
    have ht : t ∈ s.cl.streams.filter (fun t => decide (some t.key ≠ s.cl.handle)) := ht
    have := of_decide_eq_true (List.mem_filter.mp ht).2
    intro hko
    exact this (by rw [hh o ho, hko])

/-! ### Closing, and beginning again -/

/-- **C219**. `close` ends the session on both sides. -/
theorem C219_close (c : HttpServer.Config) (L : Link M) (x : Text) (hx : Clean x) (s : Sys M)
    (hid : s.phase = .idle) (hs : s.cl.session = some x) :
    ∃ s', step c L s .close = some s' ∧ s'.last = .ok ∧ s'.phase = .idle ∧ s'.cl.session = none ∧
      AMap.get s'.srv.sessions x = none ∧ (AMap.contains s.srv.sessions x = true → AMap.get s'.srv.senders x = none) := by
  refine ⟨_, by simp only [step, hid, if_true]; rfl, ?_⟩
  have hr : StreamClient.step L.codec s.cl (.close true) =
      ({ StreamClient.abort s.cl with
          requests := s.cl.requests ++ [StreamClient.request (StreamClient.abort s.cl) .delete none none],
          session := none }, .ok) := by
    simp [StreamClient.step, StreamClient.abort, hs]
  simp only [hr, hs, HttpServer.delete, show HttpServer.sentBack x = .text x from hx, HttpServer.strOf]
  refine ⟨trivial, trivial, trivial, ?_, ?_⟩
  · split
    · next hn =>
      simp only [Bool.and_eq_true, Bool.not_eq_true', AMap.contains] at hn
      cases hh : AMap.get s.srv.sessions x with
      | none => rfl
      | some _ => rw [hh] at hn; simp at hn
    · exact AMap.get_remove_self _ _
  · intro hc
    rw [hc]
    simp [AMap.get_remove_self]

/-- **C219**, part that holds: a client whose session is gone gets a new one if the program clears the id first
(`set_session_id(None)`) or closes the transport, and then initializes. Missing: that `initialize` alone is enough
(`C219_lost_session`). -/
theorem C219_begin_again_partial (c : HttpServer.Config) (hst : c.stateful = true) (L : Link M) (x : Text) (s : Sys M)
    (hid : s.phase = .idle) (m : M) (r : Nat) (hm : L.body m = .init r) (n : Text) (first : Op M)
    (hf : first = .setSession none ∨ (first = .close ∧ s.cl.session = some x)) :
    ∃ s1 s', step c L s first = some s1 ∧ step c L s1 (.send m n) = some s' ∧
      s'.phase = .posting s1.srv.posts.length ∧ AMap.contains s'.srv.sessions n = true ∧
      s'.srv.posts = s1.srv.posts ++ [⟨none, some n, true, r⟩] := by
  have main : ∀ s1 : Sys M, s1.phase = .idle → s1.cl.session = none → ∃ s', step c L s1 (.send m n) = some s' ∧
      s'.phase = .posting s1.srv.posts.length ∧ AMap.contains s'.srv.sessions n = true ∧
      s'.srv.posts = s1.srv.posts ++ [⟨none, some n, true, r⟩] := by
    intro s1 h1 h2
    have hpost : ∃ v, HttpServer.post c s1.srv (postOf L s1.cl m) n =
        ({ s1.srv with
            sessions := AMap.insert s1.srv.sessions n ⟨false, v⟩
            posts := s1.srv.posts ++ [⟨none, some n, true, r⟩] }, .goesOn) := by
      refine ⟨HttpServer.strOf (postOf L s1.cl m).version, ?_⟩
      have e1 : HttpServer.strOf (postOf L s1.cl m).sid = none := by simp [postOf, h2, HttpServer.strOf]
      have e3 : HttpServer.validatePost (postOf L s1.cl m).contentType (postOf L s1.cl m).accept = none :=
        post_headers_pass
      have e4 : (postOf L s1.cl m).body = .init r := hm
      unfold HttpServer.post
      rw [e3, e4, e1]
      simp [HttpServer.processInit, hst]
    obtain ⟨v, hpost⟩ := hpost
    refine ⟨_, by simp only [step, h1, if_true, send, hpost]; rfl, ?_⟩
    refine ⟨rfl, ?_, rfl⟩
    simp [AMap.contains, AMap.get_insert]
  rcases hf with rfl | ⟨rfl, hs⟩
  · obtain ⟨s', g⟩ := main { s with cl := { s.cl with session := none } } hid rfl
    exact ⟨_, s', rfl, g⟩
  · have hc : ∃ s1, step c L s .close = some s1 ∧ s1.phase = .idle ∧ s1.cl.session = none := by
      refine ⟨_, by simp only [step, hid, if_true]; rfl, ?_⟩
      refine ⟨rfl, ?_⟩
      simp [StreamClient.step, StreamClient.abort, hs]
    obtain ⟨s1, a, b, d⟩ := hc
    obtain ⟨s', g⟩ := main s1 b d
    exact ⟨s1, s', a, g⟩

/-- **C219**. Nobody waits for the client: the steps of others are possible at any time, except that the server's work
on the client's own request is part of the client's steps. -/
theorem C219_others_go_on (c : HttpServer.Config) (L : Link M) (s : Sys M) (op : HttpServer.Op) :
    step c L s (.other op) = none ↔
      (∃ i, s.phase = .posting i ∧ ∃ a neg ev, op = .process i a neg ev) ∨
      (∃ i, s.phase = .opening i ∧ (op = .getCheck i ∨ op = .getOpen i)) := by
  have hs : ∀ i j : Nat, j = i ↔ i = j := fun i j => ⟨Eq.symm, Eq.symm⟩
  cases hp : s.phase <;> cases op <;> simp [step, notMine, hp] <;> apply hs

/-! ### Cases -/

/-- An answer goes to the stream, another client ends the session, and the first reads its stream. -/
example : (run {} toy { cl := StreamClient.init none } (silentRun ++ [.send ['q'] ['z'], .answered 2 none ['2'],
      .other (.deliver 0 ['2']), .other (.delete (some (.text ['x']))), .ends 0])).map (fun s => (s.cl.queue, s.opened)) =
    some ([toy.msg 1, toy.msg 2], []) := by decide +kernel

/-- The hypotheses of `C219_stream_ends_partial`. -/
example : (run {} toy { cl := StreamClient.init none } (silentRun ++ [.send ['q'] ['z'], .answered 2 none ['2'],
      .other (.deliver 0 ['2']), .other (.delete (some (.text ['x'])))])).any (fun s =>
        decide (s.opened = [(0, 0)]) && s.srv.senders.isEmpty &&
        (s.cl.streams.find? (fun t => t.key == 0)).any (fun t => t.text.isEmpty) &&
        s.srv.streams.all (fun t => decide (t.queue = [] ∧ t.delivered = [(['2'], 2)]))) = true := by decide +kernel

/-- `C219_second_stream`: refused, then the stream ends, and nothing is received. -/
example : (run {} toy { cl := StreamClient.init none } (silentRun ++ [.send ['q'] ['z'], .answered 2 none ['2'],
      .other (.deliver 0 ['2']), .open none ['z'], .check, .other (.delete (some (.text ['x']))), .ends 0])).map
        (fun s => (s.cl.queue, s.last, s.opened)) = some ([toy.msg 1], .status 409, []) := by decide +kernel

/-- `C219_close` and `C219_begin_again_partial`: a new session after closing. -/
example : (run {} toy { cl := StreamClient.init none } (silentRun ++ [.close, .send ['i'] ['y'], .answered 3 none ['3'],
      .send ['q'] ['z'], .answered 4 none ['4'], .arrive 0])).map (fun s => (s.cl.queue, s.cl.session, s.last)) =
    some ([toy.msg 1, toy.msg 3, toy.msg 4], some ['y'], .ok) := by decide +kernel

/-- `C219_others_go_on`: while the client waits for its answer, a new client initializes. -/
example : (run {} toy { cl := StreamClient.init none } [.send ['i'] ['x'],
    .other (.post (postOf toy (StreamClient.init none) ['i']) ['y'])]).any
      (fun s => decide (s.srv.posts.length = 2)) = true := by decide +kernel

end Verif.HttpPair
