import Verif.HttpServer.Props

/-
Properties of the streamable HTTP server concerning streams and the event store: C35, C36, C87-C89.
-/

namespace Verif.HttpServer

/-! ### C35 -/

/-- An event as it is handed to the store. (/repo/src/server/streamable_http_server.rs L463-501.) -/
structure Stored where
  stream : Text
  ev : Text
  msg : Msg
  deriving DecidableEq

/-- The store after storing the given events. (/repo/src/server/streamable_http_server.rs L68-84.) -/
def build (l : List Stored) : Store := l.foldl (fun st e => storeEvent st e.stream e.ev e.msg) {}

theorem build_snoc (l : List Stored) (e : Stored) :
    build (l ++ [e]) = storeEvent (build l) e.stream e.ev e.msg := by
  simp [build, List.foldl_append]

theorem build_order (l : List Stored) : (build l).order = l.map Stored.ev := by
  induction l using Verif.snocInduction with
  | nil => rfl
  | append_singleton l e ih => rw [build_snoc]; simp [storeEvent, ih]

theorem build_events (l : List Stored) (x : Text) :
    (AMap.get (build l).events x).getD [] =
      (l.filter (fun e => decide (e.stream = x))).map (fun e => (e.ev, e.msg)) := by
  induction l using Verif.snocInduction with
  | nil => rfl
  | append_singleton l e ih =>
    rw [build_snoc]
    simp only [storeEvent, AMap.get_insert, List.filter_append, List.map_append]
    by_cases h : x = e.stream
    · subst h; simp [ih]
    · simp [h, Ne.symm h, ih]

theorem build_streamOf (l : List Stored) (hn : (l.map Stored.ev).Nodup) (e : Stored) (he : e ∈ l) :
    AMap.get (build l).streamOf e.ev = some e.stream := by
  induction l using Verif.snocInduction with
  | nil => cases he
  | append_singleton l x ih =>
    rw [build_snoc]
    simp only [storeEvent, AMap.get_insert]
    simp only [List.map_append, List.map_cons, List.map_nil, List.nodup_append, List.mem_singleton] at hn
    simp only [List.mem_append, List.mem_singleton] at he
    rcases he with he | rfl
    · rw [if_neg (hn.2.2 e.ev (List.mem_map_of_mem he) x.ev rfl)]
      exact ih hn.1 he
    · simp

theorem find_ev (l : List Stored) (hn : (l.map Stored.ev).Nodup) (e : Stored) (he : e ∈ l) :
    ((l.filter (fun x => decide (x.stream = e.stream))).map (fun x => (x.ev, x.msg))).find?
      (fun p => decide (p.1 = e.ev)) = some (e.ev, e.msg) := by
  induction l with
  | nil => cases he
  | cons x l ih =>
    simp only [List.map_cons, List.nodup_cons] at hn
    rcases List.mem_cons.mp he with rfl | he'
    · simp
    · have hx : x.ev ≠ e.ev := fun h => hn.1 (h ▸ List.mem_map_of_mem he')
      by_cases hs : x.stream = e.stream
      · simp [hs, hx, List.find?_cons, ih hn.2 he']
      · simp [hs, ih hn.2 he']

theorem lookup_build (l : List Stored) (hn : (l.map Stored.ev).Nodup) (e : Stored) (he : e ∈ l) :
    lookupEvent (build l) e.ev = some (e.ev, e.msg) := by
  unfold lookupEvent
  rw [build_streamOf l hn e he]
  have h1 := build_events l e.stream
  have h2 := find_ev l hn e he
  rw [← h1] at h2
  cases hg : AMap.get (build l).events e.stream with
  | none => simp [hg] at h2
  | some evs => simpa [hg] using h2

theorem filterMap_lookup (l l' : List Stored) (hn : (l.map Stored.ev).Nodup) (hs : ∀ e ∈ l', e ∈ l) :
    (l'.map Stored.ev).filterMap (lookupEvent (build l)) = l'.map (fun e => (e.ev, e.msg)) := by
  induction l' with
  | nil => rfl
  | cons e l' ih =>
    simp only [List.map_cons, List.filterMap_cons]
    rw [lookup_build l hn e (hs e (by simp))]
    simp only
    rw [ih (fun x hx => hs x (by simp [hx]))]

theorem startPos_split (a b : List Text) (x : Text) (h : x ∉ a) : startPos (a ++ x :: b) x = a.length + 1 := by
  have : (a ++ x :: b).findIdx? (fun id => decide (id = x)) = some a.length := by
    induction a with
    | nil => simp [List.findIdx?_cons]
    | cons y a ih =>
      have hy : y ≠ x := fun e => h (e ▸ List.mem_cons_self)
      rw [List.cons_append, List.findIdx?_cons]
      simp [hy, ih (fun hm => h (List.mem_cons_of_mem _ hm))]
  unfold startPos
  rw [this]

theorem startPos_absent (a : List Text) (x : Text) (h : x ∉ a) : startPos a x = 0 := by
  have : a.findIdx? (fun id => decide (id = x)) = none := by
    simp only [List.findIdx?_eq_none_iff, decide_eq_false_iff_not]
    intro y hy e; exact h (e ▸ hy)
  unfold startPos
  rw [this]

/-- C35: with distinct event ids the replay after a stored event consists of exactly the events stored
after it, on all streams, each once and in order. -/
theorem C35_replay_exact (before after : List Stored) (e : Stored)
    (hn : ((before ++ e :: after).map Stored.ev).Nodup) :
    replayAfter (build (before ++ e :: after)) e.ev = after.map (fun x => (x.ev, x.msg)) := by
  unfold replayAfter
  rw [build_order]
  have hx : e.ev ∉ before.map Stored.ev := by
    intro hm
    simp only [List.map_append, List.map_cons, List.nodup_append] at hn
    exact hn.2.2 e.ev hm e.ev (by simp) rfl
  have hpos : startPos ((before ++ e :: after).map Stored.ev) e.ev = before.length + 1 := by
    rw [List.map_append, List.map_cons, startPos_split _ _ _ hx, List.length_map]
  rw [hpos]
  have hd : ((before ++ e :: after).map Stored.ev).drop (before.length + 1) = after.map Stored.ev := by
    rw [← List.map_drop]
    congr 1
    rw [List.drop_append]
    simp
  rw [hd]
  exact filterMap_lookup _ _ hn (fun x hx => by simp [hx])

/-- C35: an unknown `Last-Event-ID` replays every event in the store. -/
theorem C35_unknown_id_replays_everything (l : List Stored) (last : Text) (hn : (l.map Stored.ev).Nodup)
    (hl : last ∉ l.map Stored.ev) : replayAfter (build l) last = l.map (fun x => (x.ev, x.msg)) := by
  unfold replayAfter
  rw [build_order, startPos_absent _ _ hl, List.drop_zero]
  exact filterMap_lookup _ _ hn (fun _ h => h)

/-- C35: what the replay should send on stream `x`: the events of `x` stored after the last one.
(Specification: no counterpart in the code.) -/
def expectedReplay (after : List Stored) (x : Text) : List (Text × Msg) :=
  (after.filter (fun e => decide (e.stream = x))).map (fun e => (e.ev, e.msg))

/-- C35: if only events of the stream were stored since the last event the client saw, the replay is as
expected.

Partial: events of other streams are replayed too (`C35_other_streams_leak`). -/
theorem C35_single_stream_partial (before after : List Stored) (e : Stored)
    (hn : ((before ++ e :: after).map Stored.ev).Nodup) (hs : ∀ x ∈ after, x.stream = e.stream) :
    replayAfter (build (before ++ e :: after)) e.ev = expectedReplay after e.stream := by
  rw [C35_replay_exact before after e hn, expectedReplay, List.filter_eq_self.mpr]
  intro x hx; simp [hs x hx]

/-- Finding: every event stored later for another stream is replayed as well. -/
theorem C35_other_streams_leak (before after : List Stored) (e x : Stored)
    (hn : ((before ++ e :: after).map Stored.ev).Nodup) (hx : x ∈ after) (hne : x.stream ≠ e.stream) :
    (x.ev, x.msg) ∈ replayAfter (build (before ++ e :: after)) e.ev ∧
      (x.ev, x.msg) ∉ expectedReplay after e.stream := by
  constructor
  · rw [C35_replay_exact before after e hn]; exact List.mem_map.mpr ⟨x, hx, rfl⟩
  · intro hm
    simp only [expectedReplay, List.mem_map, List.mem_filter, decide_eq_true_eq, Prod.mk.injEq] at hm
    obtain ⟨y, ⟨hy, hys⟩, hye, _⟩ := hm
    have hna : (after.map Stored.ev).Nodup := by
      simp only [List.map_append, List.map_cons, List.nodup_append, List.nodup_cons] at hn
      exact hn.2.1.2
    have : y = x := by
      clear hn hne hys
      induction after with
      | nil => cases hx
      | cons z l ih =>
        simp only [List.map_cons, List.nodup_cons] at hna
        rcases List.mem_cons.mp hx with rfl | hx' <;> rcases List.mem_cons.mp hy with rfl | hy'
        · rfl
        · exact absurd (hye ▸ List.mem_map_of_mem hy') hna.1
        · exact absurd (hye ▸ List.mem_map_of_mem hx') hna.1
        · exact ih hx' hy' hna.2
    exact hne (this ▸ hys)

/-- (Specification: no counterpart in the code.) -/
def evA : Stored := ⟨sidA, "1".toList, 10⟩
/-- (Specification: no counterpart in the code.) -/
def evB : Stored := ⟨sidB, "2".toList, 20⟩
/-- (Specification: no counterpart in the code.) -/
def evC : Stored := ⟨sidA, "3".toList, 30⟩

example : replayAfter (build [evA, evC]) evA.ev = [(evC.ev, 30)] := by decide +kernel
example : (([evA] ++ evB :: [evC]).map Stored.ev).Nodup ∧ evC.stream ≠ evB.stream := by decide +kernel

/-- The event id a step would use. (Specification: no counterpart in the code.) -/
def evOf : Op → Option Text
  | .process _ _ _ ev => some ev
  | .deliver _ ev => some ev
  | _ => none

theorem build_store (c : Config) (s : State) (sid : Option Text) (m : Msg) :
    (buildResponse c s sid m).1.store = s.store := by
  unfold buildResponse; split; · rfl
  split; · rfl
  split
  · unfold sendTo; split <;> (try split) <;> rfl
  · rfl

/-- C35: after every history the event store holds the result of storing some events under ids used in the
history, in order; so with unique ids the two theorems above describe every replay of the server. -/
theorem C35_store_is_build (c : Config) (h : List Op) :
    ∃ l, (run c {} h).store = build l ∧ (l.map Stored.ev).Sublist (h.filterMap evOf) := by
  induction h using Verif.snocInduction with
  | nil => exact ⟨[], rfl, by simp⟩
  | append_singleton h op ih =>
    obtain ⟨l, hl, hs⟩ := ih
    rw [run_snoc]
    have keep : ∀ s' : State, s'.store = (run c {} h).store →
        ∃ l, s'.store = build l ∧ (l.map Stored.ev).Sublist ((h ++ [op]).filterMap evOf) := by
      intro s' hs'
      exact ⟨l, by rw [hs', hl], hs.trans (by rw [List.filterMap_append]; exact List.sublist_append_left _ _)⟩
    have add : ∀ (s' : State) (x ev : Text) (m : Msg), evOf op = some ev →
        s'.store = storeEvent (run c {} h).store x ev m →
        ∃ l, s'.store = build l ∧ (l.map Stored.ev).Sublist ((h ++ [op]).filterMap evOf) := by
      intro s' x ev m he hs'
      refine ⟨l ++ [⟨x, ev, m⟩], by rw [hs', hl, build_snoc], ?_⟩
      rw [List.filterMap_append]
      simpa [he] using hs.append (List.Sublist.refl [ev])
    cases op with
    | post p n =>
      simp only [step]
      rcases post_cases c (run c {} h) p n with ⟨code, hh⟩ | ⟨req, r, hh, hb⟩ | ⟨req, s', r, hp, hb, hv, hh⟩
      · rw [hh]; exact keep _ rfl
      · rw [hh]; exact keep _ rfl
      · rw [hh]
        have : s'.store = (run c {} h).store := by
          have e : s' = (processInit c (run c {} h) (strOf p.sid) (strOf p.version) n).1 := by rw [hp]
          rw [e]; unfold processInit; repeat (first | rfl | split)
        exact keep _ this
    | process i r neg ev =>
      simp only [step]
      cases hq : (run c {} h).posts[i]? with
      | none => unfold process; rw [hq]; exact keep _ rfl
      | some q =>
        rw [process_eq c _ i r neg ev q hq]
        have hup : ∀ (t : State), (updateAfterInit t q.respSid neg).store = t.store := by
          intro t; unfold updateAfterInit; split <;> (try split) <;> rfl
        cases hc : c.store with
        | false =>
          refine keep _ ?_
          rw [build_store]; unfold beforeBuild
          cases q.isInit <;> simp [hc, hup]
        | true =>
          cases hr : q.respSid with
          | none =>
            refine keep _ ?_
            rw [build_store]; unfold beforeBuild
            rw [hr] at hup
            cases q.isInit <;> simp [hc, hr, hup]
          | some x =>
            refine add _ x ev r rfl ?_
            rw [build_store]; unfold beforeBuild
            rw [hr] at hup
            cases q.isInit <;> simp [hc, hr, hup]
    | getStart a sid l n =>
      simp only [step]
      rcases getStart_cases c (run c {} h) a sid l n with ⟨code, hh⟩ | ⟨t, hs, _, hh⟩ | ⟨hs, _, hv, hh⟩ <;>
        (rw [hh]; exact keep _ rfl)
    | getCheck i =>
      refine keep _ ?_
      simp only [step]; unfold getCheck; split
      · split <;> rfl
      · rfl
    | getOpen i =>
      refine keep _ ?_
      simp only [step]; unfold getOpen; split <;> rfl
    | delete sid =>
      refine keep _ ?_
      simp only [step]; unfold delete; split; · rfl
      split <;> rfl
    | disconnect k =>
      refine keep _ ?_
      simp only [step]; unfold disconnect; split <;> rfl
    | deliver k ev =>
      simp only [step]
      unfold deliver
      split
      · next x m q d _ =>
        cases hc : c.store with
        | false => exact keep _ (by simp)
        | true => exact add _ x ev m rfl (by simp)
      · exact keep _ rfl

/-- (Specification: no counterpart in the code.) -/
def getA : Op := .getStart bothH (some (.text sidA)) none []
/-- (Specification: no counterpart in the code.) -/
def getNew (sid : Text) (last : Text) : Op := .getStart bothH none (some (.text last)) sid

/-- Finding: a new client of another session receives, after a `Last-Event-ID` of its choice, the responses
of the first session, one of them twice (it was stored when produced and again when it was sent). -/
theorem C35_leak_and_duplicate :
    let h := [Op.post initPost sidA, .process 0 7 none "e1".toList, getA, .getCheck 0, .getOpen 0,
      .post (reqPost sidA 2) [], .process 0 8 none "e2".toList, .deliver 0 "e3".toList,
      getNew sidB "x".toList, .getCheck 0, .getOpen 0]
    ((run {} {} h).streams[1]?).map (fun st => (st.sid, st.queue)) = some (sidB, [7, 8, 8]) := by
  decide +kernel

/-! ### C36 -/

/-- A history in which the check for an existing stream and the insertion of the new one are not
interrupted: `get i` performs both for the pending GET number `i`. (Specification: no counterpart in the code.) -/
inductive Macro where
  | op (o : Op) (h : (∀ i, o ≠ .getCheck i) ∧ ∀ i, o ≠ .getOpen i)
  | get (i : Nat)

/-- The steps of such a history. (Specification: no counterpart in the code.) -/
def expand : List Macro → List Op
  | [] => []
  | .op o _ :: l => o :: expand l
  | .get i :: l => .getCheck i :: .getOpen i :: expand l

theorem expand_append (a b : List Macro) : expand (a ++ b) = expand a ++ expand b := by
  induction a with
  | nil => rfl
  | cons m a ih => cases m <;> simp [expand, ih]

/-- No GET stands between its check and its insertion. (Specification: no counterpart in the code.) -/
def NoneChecked (s : State) : Prop := ∀ g ∈ s.gets, g.checked = false

theorem getCheck_senders_known (s : State) (i : Nat) (sid : Text) (l : Option Text)
    (hg : s.gets[i]? = some ⟨sid, false, l⟩) (hc : AMap.contains s.senders sid = true) :
    getCheck s i = ({ s with gets := s.gets.eraseIdx i }, .status 409) := by
  unfold getCheck; rw [hg]; simp [hc]

theorem other_gets (c : Config) (s : State) (o : Op) (h : (∀ i, o ≠ .getCheck i) ∧ ∀ i, o ≠ .getOpen i)
    (hn : NoneChecked s) : NoneChecked (step c s o).1 := by
  have keep : ∀ s' : State, s'.gets = s.gets → NoneChecked s' := by
    intro s' e g hg; rw [e] at hg; exact hn g hg
  cases o with
  | post p n => exact keep _ (post_gets ..)
  | process i r neg ev => exact keep _ (process_gets ..)
  | getStart a sid l n =>
    simp only [step]
    rcases getStart_cases c s a sid l n with ⟨code, hh⟩ | ⟨t, _, _, hh⟩ | ⟨_, _, _, hh⟩
    · rw [hh]; exact hn
    · rw [hh]; intro g hg
      simp only [List.mem_append, List.mem_singleton] at hg
      rcases hg with hg | rfl
      · exact hn g hg
      · rfl
    · rw [hh]; intro g hg
      simp only [List.mem_append, List.mem_singleton] at hg
      rcases hg with hg | rfl
      · exact hn g hg
      · rfl
  | getCheck i => exact absurd rfl (h.1 i)
  | getOpen i => exact absurd rfl (h.2 i)
  | delete sid => exact keep _ (delete_frame ..).1
  | disconnect k => exact keep _ (disconnect_frame ..).2.2.1
  | deliver k ev => exact keep _ (deliver_frame ..).2.2.1

/-- An uninterrupted GET: nothing, refused with 409, or the stream is opened. -/
theorem get_macro (c : Config) (s : State) (i : Nat) (hn : NoneChecked s) :
    (s.gets[i]? = none ∧ run c s [.getCheck i, .getOpen i] = s) ∨
      (∃ sid l, s.gets[i]? = some ⟨sid, false, l⟩ ∧ AMap.contains s.senders sid = true ∧
        run c s [.getCheck i, .getOpen i] = { s with gets := s.gets.eraseIdx i }) ∨
      (∃ sid l q, s.gets[i]? = some ⟨sid, false, l⟩ ∧ AMap.contains s.senders sid = false ∧
        run c s [.getCheck i, .getOpen i] = { s with
          gets := s.gets.eraseIdx i
          senders := AMap.insert s.senders sid s.streams.length
          streams := s.streams ++ [⟨sid, true, q, []⟩] }) := by
  cases hg : s.gets[i]? with
  | none =>
    refine .inl ⟨rfl, ?_⟩
    simp [run, step, getCheck, getOpen, hg]
  | some g =>
    obtain ⟨sid, ch, l⟩ := g
    have : ch = false := hn _ (List.mem_of_getElem? hg)
    subst this
    obtain ⟨hlt, hget⟩ := List.getElem?_eq_some_iff.mp hg
    cases hc : AMap.contains s.senders sid with
    | true =>
      refine .inr (.inl ⟨sid, l, rfl, hc, ?_⟩)
      have h1 := getCheck_senders_known s i sid l hg hc
      simp only [run, step, List.foldl_cons, List.foldl_nil, h1]
      unfold getOpen
      simp only
      split
      · next sid' l' hg' =>
        have := hn ⟨sid', true, l'⟩ (List.mem_of_mem_eraseIdx (List.mem_of_getElem? hg'))
        cases this
      · rfl
    | false =>
      refine .inr (.inr ⟨sid, l, (match l with
          | some last => if c.store then (replayAfter s.store last).map Prod.snd else []
          | none => []), rfl, hc, ?_⟩)
      · have h1 : getCheck s i = ({ s with gets := s.gets.set i ⟨sid, true, l⟩ }, .goesOn) := by
          unfold getCheck; rw [hg]; simp [hc]
        simp only [run, step, List.foldl_cons, List.foldl_nil, h1]
        unfold getOpen
        simp only [List.getElem?_set_self hlt, List.eraseIdx_set_eq]
        cases l <;> rfl

theorem run_expand_cons (c : Config) (s : State) (m : Macro) (l : List Macro) :
    run c s (expand (m :: l)) = run c (run c s (expand [m])) (expand l) := by
  rw [← run_append, ← expand_append]; rfl

theorem noneChecked_run (c : Config) (l : List Macro) (s : State) (hn : NoneChecked s) :
    NoneChecked (run c s (expand l)) := by
  induction l generalizing s with
  | nil => exact hn
  | cons m l ih =>
    rw [run_expand_cons]
    refine ih _ ?_
    cases m with
    | op o h => exact other_gets c s o h hn
    | get i =>
      show NoneChecked (run c s [.getCheck i, .getOpen i])
      rcases get_macro c s i hn with ⟨_, h⟩ | ⟨_, _, _, _, h⟩ | ⟨_, _, _, _, _, h⟩
      · rw [h]; exact hn
      · rw [h]; exact fun g hg => hn g (List.mem_of_mem_eraseIdx hg)
      · rw [h]; exact fun g hg => hn g (List.mem_of_mem_eraseIdx hg)

theorem other_senders (c : Config) (s : State) (o : Op) (h : (∀ i, o ≠ .getCheck i) ∧ ∀ i, o ≠ .getOpen i)
    (sid : Text) (hd : ¬ Deletes o sid) : AMap.get (step c s o).1.senders sid = AMap.get s.senders sid := by
  cases o with
  | post p n => simp only [step]; rw [post_senders]
  | process i r neg ev => simp only [step]; rw [process_senders]
  | getStart a h' l n =>
    simp only [step]
    rcases getStart_cases c s a h' l n with ⟨code, hh⟩ | ⟨t, _, _, hh⟩ | ⟨_, _, _, hh⟩ <;> rw [hh]
  | getCheck i => exact absurd rfl (h.1 i)
  | getOpen i => exact absurd rfl (h.2 i)
  | delete h' =>
    simp only [step]
    unfold delete
    cases hs : strOf h' with
    | none => rfl
    | some t =>
      rw [strOf_some_iff] at hs; subst hs
      simp only
      split
      · rfl
      · have : sid ≠ t := fun e => hd (by rw [e]; rfl)
        simp [AMap.get_remove, this]
  | disconnect k => simp only [step]; rw [(disconnect_frame s k).2.1]
  | deliver k ev => simp only [step]; rw [(deliver_frame c s k ev).2.1]

theorem sender_kept (c : Config) (l : List Macro) (s : State) (hn : NoneChecked s) (sid : Text) (k : Nat)
    (hk : AMap.get s.senders sid = some k) (hd : ∀ o ∈ expand l, ¬ Deletes o sid) :
    AMap.get (run c s (expand l)).senders sid = some k := by
  induction l generalizing s with
  | nil => exact hk
  | cons m l ih =>
    rw [run_expand_cons]
    have hn' := noneChecked_run c [m] s hn
    refine ih _ hn' ?_ (fun o ho => hd o (by cases m <;> simp [expand, ho]))
    cases m with
    | op o h =>
      show AMap.get (step c s o).1.senders sid = some k
      rw [other_senders c s o h sid (hd o (by simp [expand]))]; exact hk
    | get i =>
      show AMap.get (run c s [.getCheck i, .getOpen i]).senders sid = some k
      rcases get_macro c s i hn with ⟨_, h⟩ | ⟨_, _, _, _, h⟩ | ⟨sid', _, _, _, hc, h⟩
      · rw [h]; exact hk
      · rw [h]; exact hk
      · rw [h]
        have : sid ≠ sid' := by rintro rfl; simp [AMap.contains, hk] at hc
        simp [AMap.get_insert, this, hk]

/-- C36: when the check and the insertion of a GET are not interrupted, then from the moment the stream of a
session is opened until the session is deleted, every further GET for the session is answered 409, and the
responses to requests of the session are queued on that stream (SSE mode, as long as its client is
connected).

Partial: concurrent GETs can both pass the check (`C36_two_streams`). -/
theorem C36_single_stream_partial (c : Config) (before after : List Macro) (i : Nat) (sid : Text) (l : Option Text)
    (k : Nat) (hg : (run c {} (expand before)).gets[i]? = some ⟨sid, false, l⟩)
    (ho : (getOpen c (getCheck (run c {} (expand before)) i).1 i).2 = .opened k)
    (hd : ∀ o ∈ expand after, ¬ Deletes o sid) :
    let s := run c {} (expand (before ++ .get i :: after))
    (∀ (j : Nat) (l' : Option Text), s.gets[j]? = some ⟨sid, false, l'⟩ → (getCheck s j).2 = .status 409) ∧
      ∀ (j : Nat) (q : Pending) (st : Stream) (resp : Msg) (neg : Option Text) (ev : Text), c.json = false →
        s.posts[j]? = some q → q.clientSid = some sid → s.streams[k]? = some st → st.connected = true →
          (process c s j resp neg ev).1.streams[k]? = some { st with queue := st.queue ++ [resp] } := by
  intro s
  have hn0 := noneChecked_run c before {} (by intro g hg; cases hg)
  have hs : s = run c (run c (run c {} (expand before)) (expand [.get i])) (expand after) := by
    show run c {} (expand (before ++ .get i :: after)) = _
    rw [expand_append, run_append, run_expand_cons]
  have hn1 := noneChecked_run c [.get i] _ hn0
  have hk1 : AMap.get (run c (run c {} (expand before)) (expand [.get i])).senders sid = some k := by
    show AMap.get (run c (run c {} (expand before)) [.getCheck i, .getOpen i]).senders sid = some k
    rcases get_macro c _ i hn0 with ⟨h, _⟩ | ⟨sid', l', h1, hc, h⟩ | ⟨sid', l', q, h1, hc, h⟩
    · rw [h] at hg; cases hg
    · rw [hg] at h1; cases h1
      rw [getCheck_senders_known _ i sid l hg hc] at ho
      unfold getOpen at ho
      simp only at ho
      split at ho
      · next sid2 l2 hg2 =>
        have := hn0 ⟨sid2, true, l2⟩ (List.mem_of_mem_eraseIdx (List.mem_of_getElem? hg2))
        cases this
      · cases ho
    · rw [hg] at h1; cases h1
      obtain ⟨hlt, _⟩ := List.getElem?_eq_some_iff.mp hg
      have h1 : getCheck (run c {} (expand before)) i =
          ({ run c {} (expand before) with
              gets := (run c {} (expand before)).gets.set i ⟨sid, true, l⟩ }, .goesOn) := by
        unfold getCheck; rw [hg]; simp [hc]
      rw [h1] at ho
      unfold getOpen at ho
      simp only [List.getElem?_set_self hlt, Out.opened.injEq] at ho
      rw [h]
      simp [AMap.get_insert, ho]
  have hk : AMap.get s.senders sid = some k := by rw [hs]; exact sender_kept c after _ hn1 sid k hk1 hd
  constructor
  · intro j l' hj
    rw [getCheck_senders_known s j sid l' hj (by simp [AMap.contains, hk])]
  · intro j q st resp neg ev hjson hq hcs hst hcon
    rw [process_eq c s j resp neg ev q hq]
    simp only [buildResponse, hjson, hcs, before_senders, hk]
    simp only [Bool.false_eq_true, ↓reduceIte, sendTo, before_streams, hst, hcon]
    obtain ⟨hlt, _⟩ := List.getElem?_eq_some_iff.mp hst
    simp [List.getElem?_set_self hlt]

example :
    let b : List Macro := [.op (.post initPost sidA) (by simp), .op (.process 0 7 none []) (by simp),
      .op getA (by simp [getA])]
    (run {} {} (expand b)).gets[0]? = some ⟨sidA, false, none⟩ ∧
      (getOpen {} (getCheck (run {} {} (expand b)) 0).1 0).2 = .opened 0 := by
  decide +kernel

/-- Finding: two concurrent GETs of one session both pass the check; the second insertion replaces the
sender of the first, whose stream receives nothing any more. -/
theorem C36_two_streams :
    let h := [Op.post initPost sidA, .process 0 7 none [], getA, getA, .getCheck 0, .getCheck 1, .getOpen 0,
      .getOpen 0, .post (reqPost sidA 2) [], .process 0 8 none []]
    (run {} {} h).streams.map (fun st => (st.sid, st.connected, st.queue)) =
      [(sidA, true, []), (sidA, true, [8])] := by
  decide +kernel

/-! ### C87 -/

theorem opened_senders (c : Config) (s : State) (i k : Nat) (h : (getOpen c s i).2 = .opened k) :
    ∃ sid, AMap.get (getOpen c s i).1.senders sid = some k ∧
      ∃ st, (getOpen c s i).1.streams[k]? = some st ∧ st.sid = sid := by
  unfold getOpen at h ⊢
  split at h
  · next sid l hg =>
    simp only [Out.opened.injEq] at h
    refine ⟨sid, ?_, ?_⟩
    · simp [AMap.get_insert, h]
    · simp [← h]
  · cases h

/-- A GET with this session id cannot open a stream: it has a sender, or is not a session.
(Specification: no counterpart in the code.) -/
def Blocked (s : State) (sid : Text) : Prop :=
  AMap.contains s.senders sid = true ∨ AMap.contains s.sessions sid = false

theorem blocked_step (c : Config) (hst : c.stateful = true) (s : State) (sid : Text) (op : Op)
    (hf : ¬ Creates c op sid) (hb : Blocked s sid) : Blocked (step c s op).1 sid := by
  rcases hb with hb | hb
  · by_cases hd : Deletes op sid
    · right
      cases hx : AMap.contains (step c s op).1.sessions sid with
      | false => rfl
      | true =>
        rcases (step_contains c s op sid).mp hx with h | ⟨_, h⟩
        · exact absurd h hf
        · exact absurd hd h
    · left
      by_cases ho : (∀ i, op ≠ .getCheck i) ∧ ∀ i, op ≠ .getOpen i
      · unfold AMap.contains; rw [other_senders c s op ho sid hd]; exact hb
      · cases op with
        | getCheck i => simp only [step]; rw [(getCheck_frame s i).2.1]; exact hb
        | getOpen i =>
          simp only [step]; unfold getOpen
          split
          · next sid' l _ =>
            simp only [AMap.contains, AMap.get_insert]
            split
            · rfl
            · exact hb
          · exact hb
        | _ => exact absurd ⟨by simp, by simp⟩ ho
  · right
    cases hx : AMap.contains (step c s op).1.sessions sid with
    | false => rfl
    | true =>
      rcases (step_contains c s op sid).mp hx with h | ⟨h, _⟩
      · exact absurd h hf
      · rw [hb] at h; cases h

/-- Finding, for all histories: once a stream was opened for a session (and as long as the generator does
not repeat the id), a later GET for the session is answered 404 or 409, also after the client of the stream
has disconnected; no step of the server removes the sender of a dropped connection. -/
theorem C87_reopen_always_refused (c : Config) (hst : c.stateful = true) (s : State) (i k : Nat)
    (ho : (getOpen c s i).2 = .opened k) :
    ∃ sid, (∃ st, (getOpen c s i).1.streams[k]? = some st ∧ st.sid = sid) ∧
      ∀ (later : List Op), (∀ op ∈ later, ¬ Creates c op sid) → ∀ (accept last : Option Hdr) (n : Text),
        let s' := run c (getOpen c s i).1 later
        let r := getStart c s' accept (some (.text sid)) last n
        (∃ code, r.2 = .status code) ∨ (getCheck r.1 s'.gets.length).2 = .status 409 := by
  obtain ⟨sid, hk, hst'⟩ := opened_senders c s i k ho
  refine ⟨sid, hst', ?_⟩
  intro later hf accept last n s' r
  have hb : Blocked s' sid := by
    have h0 : Blocked (getOpen c s i).1 sid := .inl (by simp [AMap.contains, hk])
    have : ∀ (l : List Op) (t : State), Blocked t sid → (∀ op ∈ l, ¬ Creates c op sid) → Blocked (run c t l) sid := by
      intro l
      induction l with
      | nil => intro t h _; exact h
      | cons op l ih =>
        intro t h hf'
        rw [run_cons]
        exact ih _ (blocked_step c hst t sid op (hf' op (by simp)) h) (fun o ho => hf' o (by simp [ho]))
    exact this later _ h0 hf
  rcases getStart_cases c s' accept (some (.text sid)) last n with ⟨code, hh⟩ | ⟨t, hs, hcon, hh⟩ | ⟨hs, _, _, hh⟩
  · left; exact ⟨code, by show (getStart ..).2 = _; rw [hh]⟩
  · right
    show (getCheck (getStart ..).1 _).2 = _
    rw [hh]
    simp only [strOf, Option.some.injEq] at hs
    subst hs
    rcases hb with hb | hb
    · simp only
      rw [getCheck_senders_known { s' with gets := s'.gets ++ [⟨sid, false, strOf last⟩] } s'.gets.length sid
        (strOf last) (by simp) hb]
    · rw [hcon hst] at hb; cases hb
  · simp [strOf] at hs

/-- C87: the first stream of a session resumes after the `Last-Event-ID`: it starts with the stored messages
after that event.

Partial: a session that already had a stream cannot open another (`C87_reopen_always_refused`), so a dropped
connection cannot be resumed under its session. -/
theorem C87_first_stream_replays_partial (c : Config) (hstore : c.store = true) (s : State) (i : Nat) (sid last : Text)
    (hg : s.gets[i]? = some ⟨sid, false, some last⟩) (hn : AMap.contains s.senders sid = false) :
    (getCheck s i).2 = .goesOn ∧
      (getOpen c (getCheck s i).1 i).1.streams =
        s.streams ++ [⟨sid, true, (replayAfter s.store last).map Prod.snd, []⟩] := by
  obtain ⟨hlt, _⟩ := List.getElem?_eq_some_iff.mp hg
  have h1 : getCheck s i = ({ s with gets := s.gets.set i ⟨sid, true, some last⟩ }, .goesOn) := by
    unfold getCheck; rw [hg]; simp [hn]
  rw [h1]
  refine ⟨rfl, ?_⟩
  unfold getOpen
  simp [List.getElem?_set_self hlt, hstore]

example :
    let s := run {} {} [.post initPost sidA, .process 0 7 none "e1".toList, getA, .getCheck 0, .getOpen 0,
      .disconnect 0, .getStart bothH (some (.text sidA)) (some (.text "e1".toList)) []]
    (getCheck s 0).2 = .status 409 := by
  decide +kernel

example :
    let s := run {} {} [.post initPost sidA, .process 0 7 none "e1".toList,
      .getStart bothH (some (.text sidA)) (some (.text "e0".toList)) []]
    s.gets[0]? = some ⟨sidA, false, some "e0".toList⟩ ∧ AMap.contains s.senders sidA = false := by
  decide +kernel

/-! ### C88 -/

/-- Each sender belongs to a stream of its session. (Specification: no counterpart in the code.) -/
def SendersOk (s : State) : Prop :=
  ∀ sid k, AMap.get s.senders sid = some k → ∃ st, s.streams[k]? = some st ∧ st.sid = sid

/-- Messages of stream `k`, sent or queued. (Specification: no counterpart in the code.) -/
def content (s : State) (k : Nat) : List Msg :=
  match s.streams[k]? with
  | some st => st.delivered.map Prod.snd ++ st.queue
  | none => []

/-- C88: the response to a request is in the HTTP response itself, or appended to the stream of the client's
session if its client is connected.

Partial: if the client of the stream has disconnected, see `C88_response_lost`. -/
theorem C88_response_delivered_partial (c : Config) (s : State) (i : Nat) (q : Pending) (resp : Msg)
    (neg : Option Text) (ev : Text) (hq : s.posts[i]? = some q)
    (hcon : ∀ sid k st, q.clientSid = some sid → AMap.get s.senders sid = some k → s.streams[k]? = some st →
      st.connected = true) (hok : SendersOk s) :
    (∃ ver, (process c s i resp neg ev).2 = .reply 200 q.respSid ver (.here resp)) ∨
      (∃ ver sid k, (process c s i resp neg ev).2 = .reply 202 q.respSid ver .stream ∧ q.clientSid = some sid ∧
        AMap.get s.senders sid = some k ∧ content (process c s i resp neg ev).1 k = content s k ++ [resp]) := by
  rw [process_eq c s i resp neg ev q hq]
  unfold buildResponse
  cases hj : c.json with
  | true => exact .inl ⟨_, by simp; rfl⟩
  | false =>
    cases hcs : q.clientSid with
    | none => exact .inl ⟨_, by simp; rfl⟩
    | some sid =>
      simp only [before_senders, Bool.false_eq_true, ↓reduceIte]
      cases hk : AMap.get s.senders sid with
      | none => exact .inl ⟨_, rfl⟩
      | some k =>
        obtain ⟨st, hst, _⟩ := hok sid k hk
        have hc := hcon sid k st hcs hk hst
        obtain ⟨hlt, _⟩ := List.getElem?_eq_some_iff.mp hst
        refine .inr ⟨_, sid, k, rfl, rfl, hk, ?_⟩
        simp [content, sendTo, before_streams, hst, hc, List.getElem?_set_self hlt]

/-- C88: a stream never loses or reorders messages: every step only appends to what was sent and queued. -/
theorem C88_stream_fifo (c : Config) (s : State) (op : Op) (k : Nat) (hk : k < s.streams.length) :
    ∃ more, content (step c s op).1 k = content s k ++ more := by
  have same : ∀ s' : State, s'.streams = s.streams → ∃ more, content s' k = content s k ++ more := by
    intro s' h; exact ⟨[], by simp [content, h]⟩
  cases op with
  | post p n =>
    refine same _ ?_
    simp only [step]
    rcases post_cases c s p n with ⟨code, h⟩ | ⟨req, r, h, _⟩ | ⟨req, s', r, hp, _, _, h⟩
    · rw [h]
    · rw [h]
    · rw [h]
      have e : s' = (processInit c s (strOf p.sid) (strOf p.version) n).1 := by rw [hp]
      simp only
      rw [e]; unfold processInit; repeat (first | rfl | split)
  | process i r neg ev =>
    simp only [step]
    cases hq : s.posts[i]? with
    | none => unfold process; rw [hq]; exact same _ rfl
    | some q =>
      rw [process_eq c s i r neg ev q hq]
      simp only
      unfold buildResponse
      split
      · exact same _ (before_streams ..)
      · split
        · exact same _ (before_streams ..)
        · split
          · next k' _ =>
            unfold sendTo
            rw [before_streams]
            split
            · next st hst =>
              split
              · by_cases hkk : k' = k
                · subst hkk
                  exact ⟨[r], by simp [content, List.getElem?_set_self hk, hst]⟩
                · exact ⟨[], by simp [content, List.getElem?_set_ne hkk]⟩
              · exact same _ (before_streams ..)
            · exact same _ (before_streams ..)
          · exact same _ (before_streams ..)
  | getStart a sid l n =>
    simp only [step]
    rcases getStart_cases c s a sid l n with ⟨code, hh⟩ | ⟨t, _, _, hh⟩ | ⟨_, _, _, hh⟩ <;>
      (rw [hh]; exact same _ rfl)
  | getCheck i => exact same _ (getCheck_frame s i).2.2.2.2
  | getOpen i =>
    simp only [step]; unfold getOpen
    split
    · exact ⟨[], by simp [content, List.getElem?_append_left hk]⟩
    · exact same _ rfl
  | delete sid =>
    refine same _ ?_
    simp only [step]; unfold delete; split; · rfl
    split <;> rfl
  | disconnect k' =>
    simp only [step]; unfold disconnect
    split
    · next st hst =>
      by_cases hkk : k' = k
      · subst hkk; exact ⟨[], by simp [content, List.getElem?_set_self hk, hst]⟩
      · exact ⟨[], by simp [content, List.getElem?_set_ne hkk]⟩
    · exact same _ rfl
  | deliver k' ev =>
    simp only [step]; unfold deliver
    split
    · next sid m qq d hst =>
      by_cases hkk : k' = k
      · subst hkk; exact ⟨[], by simp [content, List.getElem?_set_self hk, hst]⟩
      · exact ⟨[], by simp [content, List.getElem?_set_ne hkk]⟩
    · exact same _ rfl

/-- The hypothesis of `C88_response_delivered_partial` on senders holds after every history. -/
theorem C88_senders_ok (c : Config) (h : List Op) : SendersOk (run c {} h) := by
  induction h using Verif.snocInduction with
  | nil => intro sid k hk; simp [run] at hk
  | append_singleton h op ih =>
    rw [run_snoc]
    -- senders shrink or stay, streams keep their session
    have keep : ∀ s' : State, (∀ sid k, AMap.get s'.senders sid = some k →
        AMap.get (run c {} h).senders sid = some k) →
        (∀ (k : Nat) (st : Stream), (run c {} h).streams[k]? = some st →
          ∃ st' : Stream, s'.streams[k]? = some st' ∧ st'.sid = st.sid) →
        SendersOk s' := by
      intro s' h1 h2 sid k hk
      obtain ⟨st, hst, hsid⟩ := ih sid k (h1 sid k hk)
      obtain ⟨st', hst', hs'⟩ := h2 k st hst
      exact ⟨st', hst', hs'.trans hsid⟩
    have setOk : ∀ (l : List Stream) (j : Nat) (x y : Stream), l[j]? = some x → y.sid = x.sid →
        ∀ (k : Nat) (st : Stream), l[k]? = some st → ∃ st' : Stream, (l.set j y)[k]? = some st' ∧ st'.sid = st.sid := by
      intro l j x y hx hy k st hst
      obtain ⟨hlt, _⟩ := List.getElem?_eq_some_iff.mp hx
      by_cases hjk : j = k
      · subst hjk; rw [hx] at hst; cases hst
        exact ⟨y, List.getElem?_set_self hlt, hy⟩
      · exact ⟨st, by rw [List.getElem?_set_ne hjk]; exact hst, rfl⟩
    have idOk : ∀ (k : Nat) (st : Stream), (run c {} h).streams[k]? = some st →
        ∃ st' : Stream, (run c {} h).streams[k]? = some st' ∧ st'.sid = st.sid := fun k st hst => ⟨st, hst, rfl⟩
    cases op with
    | post p n =>
      simp only [step]
      have hstr : (post c (run c {} h) p n).1.streams = (run c {} h).streams := by
        rcases post_cases c (run c {} h) p n with ⟨code, hh⟩ | ⟨req, r, hh, _⟩ | ⟨req, s', r, hp, _, _, hh⟩
        · rw [hh]
        · rw [hh]
        · rw [hh]
          have e : s' = (processInit c (run c {} h) (strOf p.sid) (strOf p.version) n).1 := by rw [hp]
          simp only
          rw [e]; unfold processInit; repeat (first | rfl | split)
      exact keep _ (fun sid k hk => by rw [post_senders] at hk; exact hk) (by rw [hstr]; exact idOk)
    | process i r neg ev =>
      refine keep _ (fun sid k hk => by simp only [step] at hk; rw [process_senders] at hk; exact hk) ?_
      simp only [step]
      cases hq : (run c {} h).posts[i]? with
      | none => unfold process; rw [hq]; exact idOk
      | some q =>
        rw [process_eq c _ i r neg ev q hq]
        simp only
        unfold buildResponse
        split
        · rw [before_streams]; exact idOk
        · split
          · rw [before_streams]; exact idOk
          · split
            · unfold sendTo
              rw [before_streams]
              split
              · next st hst =>
                split
                · exact setOk _ _ st _ hst rfl
                · rw [before_streams]; exact idOk
              · rw [before_streams]; exact idOk
            · rw [before_streams]; exact idOk
    | getStart a sid l n =>
      simp only [step]
      rcases getStart_cases c (run c {} h) a sid l n with ⟨code, hh⟩ | ⟨t, _, _, hh⟩ | ⟨_, _, _, hh⟩ <;>
        (rw [hh]; exact keep _ (fun _ _ hk => hk) idOk)
    | getCheck i =>
      obtain ⟨_, h1, _, _, h2⟩ := getCheck_frame (run c {} h) i
      exact keep _ (fun sid k hk => by simp only [step, h1] at hk; exact hk) (by simp only [step, h2]; exact idOk)
    | getOpen i =>
      simp only [step]; unfold getOpen
      split
      · next sid l hg =>
        intro sid' k hk
        simp only [AMap.get_insert] at hk
        split at hk
        · next e =>
          cases hk
          exact ⟨_, by simp; rfl, e.symm⟩
        · obtain ⟨st, hst, hsid⟩ := ih sid' k hk
          obtain ⟨hlt, _⟩ := List.getElem?_eq_some_iff.mp hst
          exact ⟨st, by simp only [List.getElem?_append_left hlt]; exact hst, hsid⟩
      · exact ih
    | delete sid =>
      simp only [step]; unfold delete
      split
      · exact ih
      · split
        · exact ih
        · refine keep _ ?_ idOk
          intro x k hk
          simp only [AMap.get_remove] at hk
          split at hk
          · cases hk
          · exact hk
    | disconnect j =>
      simp only [step]; unfold disconnect
      split
      · next st hst => exact keep _ (fun _ _ hk => hk) (setOk _ _ st _ hst rfl)
      · exact ih
    | deliver j ev =>
      simp only [step]; unfold deliver
      split
      · next sid m qq d hst => exact keep _ (fun _ _ hk => hk) (setOk _ _ _ _ hst rfl)
      · exact ih

example :
    let s := run {} {} [.post initPost sidA, .process 0 7 none "e1".toList, getA, .getCheck 0, .getOpen 0,
      .post (reqPost sidA 2) []]
    s.posts[0]? = some ⟨some sidA, some sidA, false, 2⟩ ∧ AMap.get s.senders sidA = some 0 ∧
      content (process {} s 0 8 none "e2".toList).1 0 = [8] := by
  decide +kernel

/-- Finding: in SSE mode, when the client of the session's stream has disconnected, the response to every
later request of the session is answered 202 and reaches no stream. -/
theorem C88_response_lost (c : Config) (s : State) (i : Nat) (q : Pending) (sid : Text) (k : Nat) (st : Stream)
    (resp : Msg) (neg : Option Text) (ev : Text) (hj : c.json = false) (hq : s.posts[i]? = some q)
    (hcs : q.clientSid = some sid) (hk : AMap.get s.senders sid = some k) (hst : s.streams[k]? = some st)
    (hcon : st.connected = false) :
    (∃ ver, (process c s i resp neg ev).2 = .reply 202 q.respSid ver .stream) ∧
      (process c s i resp neg ev).1.streams = s.streams := by
  rw [process_eq c s i resp neg ev q hq]
  constructor
  · simp only [buildResponse, hj, hcs, before_senders, hk, Bool.false_eq_true, ↓reduceIte]
    exact ⟨_, rfl⟩
  · simp [buildResponse, hj, hcs, before_senders, hk, sendTo, before_streams, hst, hcon]

example :
    let s := run {} {} [.post initPost sidA, .process 0 7 none "e1".toList, getA, .getCheck 0, .getOpen 0,
      .disconnect 0, .post (reqPost sidA 2) []]
    s.posts[0]? = some ⟨some sidA, some sidA, false, 2⟩ ∧ AMap.get s.senders sidA = some 0 ∧
      s.streams[0]? = some ⟨sidA, false, [], []⟩ := by
  decide +kernel

/-- **C88**, exactly: after every history, the response to a waiting request is in no HTTP response and in no
stream precisely if the server is not in JSON mode and the client of the stream of the request's session has
disconnected. -/
theorem C88_lost_iff (c : Config) (h : List Op) (i : Nat) (q : Pending) (resp : Msg) (neg : Option Text) (ev : Text)
    (hq : (run c {} h).posts[i]? = some q) :
    ((∀ code sid ver, (process c (run c {} h) i resp neg ev).2 ≠ .reply code sid ver (.here resp)) ∧
        ∀ k, content (process c (run c {} h) i resp neg ev).1 k = content (run c {} h) k) ↔
      c.json = false ∧ ∃ sid k st, q.clientSid = some sid ∧ AMap.get (run c {} h).senders sid = some k ∧
        (run c {} h).streams[k]? = some st ∧ st.connected = false := by
  have hok := C88_senders_ok c h
  generalize run c {} h = s at *
  constructor
  · intro ⟨hn, hs⟩
    cases hj : c.json with
    | true =>
      refine absurd ?_ (hn 200 q.respSid ((process c s i resp neg ev).2 |> fun
        | .reply _ _ v _ => v
        | _ => []))
      rw [process_eq c s i resp neg ev q hq]
      simp [buildResponse, hj]
    | false =>
      refine ⟨rfl, ?_⟩
      apply Classical.byContradiction
      intro hc
      have hcon : ∀ sid k st, q.clientSid = some sid → AMap.get s.senders sid = some k → s.streams[k]? = some st →
          st.connected = true := by
        intro sid k st h1 h2 h3
        cases hb : st.connected with
        | true => rfl
        | false => exact absurd ⟨sid, k, st, h1, h2, h3, hb⟩ hc
      rcases C88_response_delivered_partial c s i q resp neg ev hq hcon hok with ⟨v, hv⟩ | ⟨v, sid, k, _, _, _, hk⟩
      · exact hn _ _ _ hv
      · rw [hs k] at hk
        have := congrArg List.length hk
        simp at this
  · intro ⟨hj, sid, k, st, h1, h2, h3, h4⟩
    obtain ⟨⟨v, hv⟩, hs⟩ := C88_response_lost c s i q sid k st resp neg ev hj hq h1 h2 h3 h4
    refine ⟨?_, fun k => by simp [content, hs]⟩
    intro code sid ver he
    rw [hv] at he
    injection he with _ _ _ he
    cases he

example :
    (run {} {} [.post initPost sidA, .process 0 7 none "e1".toList, getA, .getCheck 0, .getOpen 0,
      .disconnect 0, .post (reqPost sidA 2) []]).posts[0]? = some ⟨some sidA, some sidA, false, 2⟩ := by
  decide +kernel

/-! ### C89 -/

/-- The requests admitted during a history: session header and request.
(Specification: no counterpart in the code.) -/
def admitted (c : Config) (s : State) : List Op → List (Option Text × Nat)
  | [] => []
  | op :: h =>
    (match op with
      | .post p n =>
        match (post c s p n).2, p.body with
        | .goesOn, .init r => [(strOf p.sid, r)]
        | .goesOn, .request r => [(strOf p.sid, r)]
        | _, _ => []
      | _ => []) ++ admitted c (step c s op).1 h

theorem count_eraseIdx {α β : Type} [BEq β] (f : α → β) (l : List α) (i : Nat) (a : α) (h : l[i]? = some a)
    (x : β) : ((l.eraseIdx i).map f).count x + [f a].count x = (l.map f).count x := by
  induction l generalizing i with
  | nil => simp at h
  | cons y l ih =>
    cases i with
    | zero => simp only [List.getElem?_cons_zero, Option.some.injEq] at h; subst h; simp only [List.eraseIdx_cons_zero, List.map_cons, List.count_cons, List.count_nil]; omega
    | succ i =>
      simp only [List.getElem?_cons_succ] at h
      have := ih i h
      simp only [List.eraseIdx_cons_succ, List.map_cons, List.count_cons, List.count_nil] at this ⊢
      omega

/-- C89: every admitted request is passed to the MCP server at most once, and is waiting until then: admitted
requests are exactly those handled plus those waiting.

Partial: holds for requests; accepted notifications and responses never reach the server
(`C89_notifications_discarded`). -/
theorem C89_requests_handled_once_partial (c : Config) (h : List Op) (s : State) (x : Option Text × Nat) :
    (run c s h).handled.count x + ((run c s h).posts.map (fun q => (q.clientSid, q.req))).count x =
      s.handled.count x + (s.posts.map (fun q => (q.clientSid, q.req))).count x + (admitted c s h).count x := by
  induction h generalizing s with
  | nil => simp [run, admitted]
  | cons op h ih =>
    rw [run_cons, ih]
    have keep : ∀ s' : State, s'.posts = s.posts → s'.handled = s.handled →
        s'.handled.count x + (s'.posts.map (fun q => (q.clientSid, q.req))).count x =
          s.handled.count x + (s.posts.map (fun q => (q.clientSid, q.req))).count x := by
      intro s' h1 h2; rw [h1, h2]
    have fin : ∀ l : List (Option Text × Nat), (match op with
      | .post p n =>
        match (post c s p n).2, p.body with
        | .goesOn, .init r => [(strOf p.sid, r)]
        | .goesOn, .request r => [(strOf p.sid, r)]
        | _, _ => []
      | _ => []) = l → ((step c s op).1.handled.count x +
          ((step c s op).1.posts.map (fun q => (q.clientSid, q.req))).count x =
          s.handled.count x + (s.posts.map (fun q => (q.clientSid, q.req))).count x + l.count x) →
        (step c s op).1.handled.count x + ((step c s op).1.posts.map (fun q => (q.clientSid, q.req))).count x +
          (admitted c (step c s op).1 h).count x =
        s.handled.count x + (s.posts.map (fun q => (q.clientSid, q.req))).count x +
          (admitted c s (op :: h)).count x := by
      intro l h1 h2
      simp only [admitted, h1, List.count_append]
      omega
    cases op with
    | post p n =>
      rcases post_cases c s p n with ⟨code, hh⟩ | ⟨req, r, hh, hb⟩ | ⟨req, s', r, hp, hb, hv, hh⟩
      · exact fin [] (by simp [hh]) (by simp [step, hh])
      · exact fin [(strOf p.sid, req)] (by simp [hh, hb])
          (by simp only [step, hh, List.map_append, List.count_append, List.map_cons, List.map_nil]; omega)
      · have e1 := processInit_posts c s (strOf p.sid) (strOf p.version) n
        have e2 := processInit_handled c s (strOf p.sid) (strOf p.version) n
        rw [hp] at e1 e2
        simp only at e1 e2
        exact fin [(strOf p.sid, req)] (by simp [hh, hb])
          (by simp only [step, hh, e1, e2, List.map_append, List.count_append, List.map_cons, List.map_nil]; omega)
    | process i r neg ev =>
      refine fin [] rfl ?_
      simp only [step]
      cases hq : s.posts[i]? with
      | none => unfold process; rw [hq]; simp
      | some q =>
        rw [process_eq c s i r neg ev q hq]
        simp only [build_posts, build_handled, before_posts, before_handled, List.count_append]
        have := count_eraseIdx (fun q : Pending => (q.clientSid, q.req)) s.posts i q hq x
        simp only [List.count_nil, Nat.add_zero]
        omega
    | getStart a sid l n =>
      refine fin [] rfl ?_
      simp only [step]
      rcases getStart_cases c s a sid l n with ⟨code, hh⟩ | ⟨t, _, _, hh⟩ | ⟨_, _, _, hh⟩ <;>
        (rw [hh]; simp)
    | getCheck i =>
      obtain ⟨_, _, h1, h2, _⟩ := getCheck_frame s i
      exact fin [] rfl (keep _ h1 h2)
    | getOpen i => obtain ⟨_, h1, h2⟩ := getOpen_frame c s i; exact fin [] rfl (keep _ h1 h2)
    | delete sid => obtain ⟨_, h1, h2⟩ := delete_frame c s sid; exact fin [] rfl (keep _ h1 h2)
    | disconnect k => obtain ⟨_, _, _, h1, h2⟩ := disconnect_frame s k; exact fin [] rfl (keep _ h1 h2)
    | deliver k ev => obtain ⟨_, _, _, h1, h2⟩ := deliver_frame c s k ev; exact fin [] rfl (keep _ h1 h2)

example : (admitted {} {} exHistory) = [(none, 1), (some sidA, 2)] := by decide +kernel

/-- Finding: a notification or response is never passed to the MCP server: whatever the state, posting it
changes nothing at all, although it may be answered 202. -/
theorem C89_notifications_discarded (c : Config) (s : State) (p : Post) (n : Text) (k : Nat)
    (hb : p.body = .notification k ∨ p.body = .response k) : (post c s p n).1 = s := by
  rcases post_cases c s p n with ⟨code, hh⟩ | ⟨req, r, hh, hb'⟩ | ⟨req, s', r, hp, hb', hv, hh⟩
  · rw [hh]
  · rw [hb'] at hb; rcases hb with hb | hb <;> cases hb
  · rw [hb'] at hb; rcases hb with hb | hb <;> cases hb

example := C89_notifications_discarded {} (run {} {} exHistory) ⟨jsonH, bothH, some (.text sidA), none, .notification 3⟩ [] 3
  (Or.inl rfl)

/-- Such a notification is indeed answered 202. -/
theorem C89_notification_accepted :
    (post {} (run {} {} exHistory) ⟨jsonH, bothH, some (.text sidA), none, .notification 3⟩ []).2 = .status 202 := by
  decide +kernel

end Verif.HttpServer
