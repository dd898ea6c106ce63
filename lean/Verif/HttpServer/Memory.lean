import Verif.HttpServer.Streams

/-
C216: how much the event store of the HTTP server keeps.  No step of the server removes an event, and a GET
with a `Last-Event-ID` has every replayed event stored once more under a new id (L744-777), so a client that
only opens streams doubles the store with every request.
-/

namespace Verif.HttpServer

/-- Every event of the order list can be found by the replay loop.
(Specification: no counterpart in the code.) -/
def Findable (st : Store) : Prop := ∀ ev ∈ st.order, (lookupEvent st ev).isSome = true

theorem findable_store (st : Store) (hf : Findable st) (x ev : Text) (m : Msg) :
    Findable (storeEvent st x ev m) := by
  intro e he
  simp only [storeEvent, List.mem_append, List.mem_singleton] at he
  simp only [lookupEvent, storeEvent, AMap.get_insert]
  by_cases h : e = ev
  · subst h; simp
  · rw [if_neg h]
    have he' : e ∈ st.order := by rcases he with he | he; exact he; exact absurd he h
    have := hf e he'
    simp only [lookupEvent] at this
    cases hs : AMap.get st.streamOf e with
    | none => rw [hs] at this; simp at this
    | some y =>
      rw [hs] at this; simp only at this ⊢
      cases hl : AMap.get st.events y with
      | none => rw [hl] at this; simp at this
      | some evs =>
        rw [hl] at this; simp only at this
        by_cases hxy : x = y
        · subst hxy
          rw [if_pos rfl]; simp only [hl, Option.getD_some]
          rw [List.find?_append]
          cases hfind : evs.find? (fun a => decide (a.1 = e)) with
          | none => rw [hfind] at this; simp at this
          | some z => simp
        · rw [if_neg (fun h' => hxy h'.symm)]; simpa [hl] using this

theorem replay_all (st : Store) (hf : Findable st) (last : Text) (h : last ∉ st.order) :
    (replayAfter st last).length = st.order.length := by
  unfold replayAfter
  rw [startPos_absent _ _ h, List.drop_zero]
  have : ∀ l : List Text, (∀ e ∈ l, (lookupEvent st e).isSome = true) →
      (l.filterMap (lookupEvent st)).length = l.length := by
    intro l; induction l with
    | nil => simp
    | cons a l ih =>
      intro hl
      obtain ⟨z, hz⟩ := Option.isSome_iff_exists.mp (hl a (by simp))
      rw [List.filterMap_cons, hz]
      simp [ih (fun e he => hl e (by simp [he]))]
  exact this _ hf

theorem findable_build (l : List Stored) : Findable (build l) := by
  induction l using Verif.snocInduction with
  | nil => intro e he; simp [build] at he
  | append_singleton l e ih => rw [build_snoc]; exact findable_store _ ih _ _ _

theorem findable_run (c : Config) (h : List Op) : Findable (run c {} h).store := by
  obtain ⟨l, hl, _⟩ := C35_store_is_build c h
  rw [hl]; exact findable_build l

theorem deliver_all (c : Config) (hc : c.store = true) (k : Nat) (evs : List Text) :
    ∀ (t : State) (sid : Text) (q : List Msg) (d : List (Text × Msg)),
      t.streams[k]? = some ⟨sid, true, q, d⟩ → evs.length = q.length →
      (run c t (evs.map (Op.deliver k))).store.order = t.store.order ++ evs ∧
      (run c t (evs.map (Op.deliver k))).senders = t.senders ∧
      (Findable t.store → Findable (run c t (evs.map (Op.deliver k))).store) := by
  induction evs with
  | nil => intro t sid q d _ _; simp [run]
  | cons e evs ih =>
    intro t sid q d hk hl
    cases q with
    | nil => simp at hl
    | cons m q =>
      rw [List.map_cons, run_cons]
      have hs : (step c t (.deliver k e)).1 = { t with
          streams := t.streams.set k ⟨sid, true, q, d ++ [(e, m)]⟩
          store := storeEvent t.store sid e m } := by
        simp only [step]; unfold deliver; rw [hk]; simp [hc]
      rw [hs]
      have hlt : k < t.streams.length := (List.getElem?_eq_some_iff.mp hk).1
      obtain ⟨h1, h2, h3⟩ := ih { t with
          streams := t.streams.set k ⟨sid, true, q, d ++ [(e, m)]⟩
          store := storeEvent t.store sid e m } sid q (d ++ [(e, m)])
          (by simp [List.getElem?_set, hlt]) (by simpa using hl)
      refine ⟨?_, h2, fun hf => h3 (findable_store _ hf _ _ _)⟩
      rw [h1]; simp [storeEvent]

/-- A GET without a session id (the server creates session `sid`), with the given `Last-Event-ID`, whose
client reads the `evs.length` events of the replay; they get the event ids `evs`.
(Specification: no counterpart in the code.) -/
def resume (s : State) (last sid : Text) (evs : List Text) : List Op :=
  [getNew sid last, .getCheck s.gets.length, .getOpen s.gets.length] ++ evs.map (Op.deliver s.streams.length)

theorem resume_stores (c : Config) (hst : c.stateful = true) (hc : c.store = true) (s : State) (last sid : Text)
    (evs : List Text) (hf : Findable s.store) (hl : last ∉ s.store.order) (hs : AMap.get s.senders sid = none)
    (hn : evs.length = s.store.order.length) :
    (run c s (resume s last sid evs)).store.order = s.store.order ++ evs ∧
    (run c s (resume s last sid evs)).senders = AMap.insert s.senders sid s.streams.length ∧
    Findable (run c s (resume s last sid evs)).store := by
  unfold resume
  rw [run_append]
  have h3 : run c s [getNew sid last, .getCheck s.gets.length, .getOpen s.gets.length] =
      { s with
        sessions := AMap.insert s.sessions sid ⟨true, none⟩
        senders := AMap.insert s.senders sid s.streams.length
        streams := s.streams ++ [⟨sid, true, (replayAfter s.store last).map Prod.snd, []⟩] } := by
    simp only [run, List.foldl, step, getNew]
    have e1 : getStart c s bothH none (some (.text last)) sid = ({ s with
            sessions := AMap.insert s.sessions sid ⟨true, none⟩
            gets := s.gets ++ [⟨sid, false, some last⟩] }, .goesOn) := by
      unfold getStart; rw [bothH_ok]; simp [strOf, hst]
    rw [e1]
    unfold getCheck
    simp only [List.getElem?_concat_length]
    have : AMap.contains s.senders sid = false := by simp [AMap.contains, hs]
    simp only [this, Bool.false_eq_true, ↓reduceIte]
    unfold getOpen
    simp [hc, List.eraseIdx_append_of_length_le]
  rw [h3]
  obtain ⟨h1, h2, h4⟩ := deliver_all c hc s.streams.length evs
      { s with
        sessions := AMap.insert s.sessions sid ⟨true, none⟩
        senders := AMap.insert s.senders sid s.streams.length
        streams := s.streams ++ [⟨sid, true, (replayAfter s.store last).map Prod.snd, []⟩] }
      sid ((replayAfter s.store last).map Prod.snd) []
      (by simp) (by rw [List.length_map, replay_all _ hf _ hl]; exact hn)
  exact ⟨h1, h2, h4 hf⟩

/-- `k` such GETs, one after the other: GET number `j` gets session id `sids j`, and the event stored at
position `i` the event id `evs i`. (Specification: no counterpart in the code.) -/
def resumes (c : Config) (s : State) (last : Text) (sids evs : Nat → Text) : Nat → List Op
  | 0 => []
  | k + 1 =>
    let t := run c s (resumes c s last sids evs k)
    resumes c s last sids evs k ++
      resume t last (sids k) ((List.range t.store.order.length).map (fun i => evs (t.store.order.length + i)))

/-- A GET request arrives. (Specification: no counterpart in the code.) -/
def isGet : Op → Bool
  | .getStart .. => true
  | _ => false

/-- The steps of a client that only opens and reads streams. (Specification: no counterpart in the code.) -/
def onlyReads : Op → Bool
  | .getStart .. | .getCheck _ | .getOpen _ | .deliver .. => true
  | _ => false

theorem resumes_facts (c : Config) (hst : c.stateful = true) (hc : c.store = true) (s : State) (last : Text)
    (sids evs : Nat → Text) (hf : Findable s.store) (hl : last ∉ s.store.order) (hev : ∀ i, evs i ≠ last)
    (hfresh : ∀ i, AMap.get s.senders (sids i) = none) (hinj : ∀ i j, sids i = sids j → i = j) (k : Nat) :
    let h := resumes c s last sids evs k
    let t := run c s h
    Findable t.store ∧ last ∉ t.store.order ∧ (∀ i, k ≤ i → AMap.get t.senders (sids i) = none) ∧
      t.store.order.length = s.store.order.length * 2 ^ k ∧ (h.filter isGet).length = k ∧
      h.all onlyReads = true := by
  induction k with
  | zero => exact ⟨hf, hl, fun i _ => hfresh i, by simp [resumes, run], rfl, rfl⟩
  | succ k ih =>
    obtain ⟨i1, i2, i3, i4, i5, i6⟩ := ih
    simp only [resumes]
    rw [run_append]
    generalize ht : run c s (resumes c s last sids evs k) = t at *
    obtain ⟨r1, r2, r3⟩ := resume_stores c hst hc t last (sids k)
      ((List.range t.store.order.length).map (fun i => evs (t.store.order.length + i))) i1 i2
      (i3 k (Nat.le_refl _)) (by simp)
    refine ⟨r3, ?_, ?_, ?_, ?_, ?_⟩
    · rw [r1, List.mem_append]
      rintro (h | h)
      · exact i2 h
      · obtain ⟨i, _, hi⟩ := List.mem_map.mp h; exact hev _ hi
    · intro i hi
      rw [r2, AMap.get_insert]
      have : sids i ≠ sids k := fun h => by have := hinj _ _ h; omega
      rw [if_neg this]; exact i3 i (by omega)
    · rw [r1, List.length_append, List.length_map, List.length_range, i4, Nat.pow_succ, ← Nat.mul_assoc]; omega
    · rw [List.filter_append, List.length_append, i5]
      congr 1
      have : ∀ l : List Text, (l.map (Op.deliver t.streams.length)).filter isGet = [] := by
        intro l; induction l with
        | nil => rfl
        | cons a l ih => simpa [isGet] using ih
      simp only [resume, getNew, List.filter_append, this, List.append_nil]
      rfl
    · rw [List.all_append, i6]
      have : ∀ l : List Text, (l.map (Op.deliver t.streams.length)).all onlyReads = true := by
        intro l; induction l with
        | nil => rfl
        | cons a l ih => simp [onlyReads]
      simp only [resume, getNew, List.all_append, this]
      rfl

/-- C216, refutation: whatever happened before, `k` GET requests without a session id, by a client that
sends nothing else and names an event the server never stored, leave 2^k times as many events in the store,
whatever fresh session ids and event ids the server generates. -/
theorem C216_doubles (c : Config) (hst : c.stateful = true) (hc : c.store = true) (before : List Op) (last : Text)
    (sids evs : Nat → Text) (hl : last ∉ (run c {} before).store.order) (hev : ∀ i, evs i ≠ last)
    (hfresh : ∀ i, AMap.get (run c {} before).senders (sids i) = none)
    (hinj : ∀ i j, sids i = sids j → i = j) (k : Nat) :
    let h := resumes c (run c {} before) last sids evs k
    (run c {} (before ++ h)).store.order.length = (run c {} before).store.order.length * 2 ^ k ∧
      (h.filter isGet).length = k ∧ h.all onlyReads = true := by
  obtain ⟨_, _, _, h4, h5, h6⟩ := resumes_facts c hst hc (run c {} before) last sids evs (findable_run c before)
    hl hev hfresh hinj k
  exact ⟨by rw [run_append]; exact h4, h5, h6⟩

example :
    let s := run {} {} [.post initPost sidA, .process 0 7 none "e".toList]
    let ids : Nat → Text := fun i => List.replicate (i + 2) 'z'
    "x".toList ∉ s.store.order ∧ (∀ i, ids i ≠ "x".toList) ∧ (∀ i, AMap.get s.senders (ids i) = none) ∧
      (∀ i j, ids i = ids j → i = j) ∧ s.store.order.length = 1 := by
  refine ⟨by decide +kernel, ?_, ?_, ?_, by decide +kernel⟩
  · intro i h; have := congrArg List.length h; simp at this
  · intro i
    have : (run {} {} [.post initPost sidA, .process 0 7 none "e".toList]).senders = [] := by decide +kernel
    rw [this]; rfl
  · intro i j h; have := congrArg List.length h; simpa using this

/-- C216: no step ever removes an event from the store: neither a DELETE of the session nor the client's
going away. -/
theorem C216_never_removed (c : Config) (s : State) (h : List Op) :
    s.store.order <+: (run c s h).store.order := by
  induction h generalizing s with
  | nil => exact List.prefix_refl _
  | cons op h ih =>
    rw [run_cons]
    refine List.IsPrefix.trans ?_ (ih _)
    have same : ∀ t : State, t.store = s.store → s.store.order <+: t.store.order := by
      intro t ht; rw [ht]; exact List.prefix_refl _
    cases op with
    | post p n =>
      simp only [step]
      rcases post_cases c s p n with ⟨code, hh⟩ | ⟨req, r, hh, hb⟩ | ⟨req, s', r, hp, hb, hv, hh⟩
      · rw [hh]; exact same _ rfl
      · rw [hh]; exact same _ rfl
      · rw [hh]
        have : s'.store = s.store := by
          have e : s' = (processInit c s (strOf p.sid) (strOf p.version) n).1 := by rw [hp]
          rw [e]; unfold processInit; repeat (first | rfl | split)
        exact same _ this
    | process i r neg ev =>
      simp only [step]
      cases hq : s.posts[i]? with
      | none => unfold process; rw [hq]; exact same _ rfl
      | some q =>
        rw [process_eq c _ i r neg ev q hq]
        have hup : ∀ (t : State), (updateAfterInit t q.respSid neg).store = t.store := by
          intro t; unfold updateAfterInit; split <;> (try split) <;> rfl
        rw [build_store]; unfold beforeBuild
        cases hc : c.store with
        | false => cases q.isInit <;> simp [hup]
        | true =>
          cases hr : q.respSid with
          | none => rw [hr] at hup; cases q.isInit <;> simp [hup]
          | some x => rw [hr] at hup; cases q.isInit <;> simp [hup, storeEvent]
    | getStart a sid l n =>
      simp only [step]
      rcases getStart_cases c s a sid l n with ⟨code, hh⟩ | ⟨t, hs, _, hh⟩ | ⟨hs, _, hv, hh⟩ <;>
        (rw [hh]; exact same _ rfl)
    | getCheck i =>
      refine same _ ?_
      simp only [step]; unfold getCheck; split
      · split <;> rfl
      · rfl
    | getOpen i =>
      refine same _ ?_
      simp only [step]; unfold getOpen; split <;> rfl
    | delete sid =>
      refine same _ ?_
      simp only [step]; unfold delete; split; · rfl
      split <;> rfl
    | disconnect k =>
      refine same _ ?_
      simp only [step]; unfold disconnect; split <;> rfl
    | deliver k ev =>
      simp only [step]
      unfold deliver
      split
      · next x m q d _ =>
        cases hc : c.store with
        | false => exact same _ (by simp)
        | true => simp [storeEvent]
      · exact same _ rfl

/-- The number of messages queued in the channels of all streams.
(Specification: no counterpart in the code.) -/
def queued (l : List Stream) : Nat := (l.map (fun st => st.queue.length)).sum

theorem queued_set (l : List Stream) (k : Nat) (st st' : Stream) (h : l[k]? = some st) :
    queued (l.set k st') + st.queue.length = queued l + st'.queue.length := by
  induction l generalizing k with
  | nil => simp at h
  | cons a l ih =>
    cases k with
    | zero => simp at h; subst h; simp [queued]; omega
    | succ k =>
      have := ih k (by simpa using h)
      simp only [queued, List.set_cons_succ, List.map_cons, List.sum_cons] at this ⊢
      omega

theorem queued_sendTo (s : State) (k : Nat) (m : Msg) :
    queued (sendTo s k m).streams ≤ queued s.streams + 1 ∧ (sendTo s k m).store = s.store := by
  unfold sendTo
  split
  · next st hk =>
    split
    · have := queued_set s.streams k st { st with queue := st.queue ++ [m] } hk
      simp only [List.length_append, List.length_singleton] at this
      exact ⟨by simp only; omega, rfl⟩
    · exact ⟨by omega, rfl⟩
  · exact ⟨by omega, rfl⟩

theorem queued_build (c : Config) (s : State) (sid : Option Text) (m : Msg) :
    queued (buildResponse c s sid m).1.streams ≤ queued s.streams + 1 := by
  unfold buildResponse; split; · simp
  split; · simp
  split
  · exact (queued_sendTo ..).1
  · simp

/-- The GET of a step asks for a replay. (Specification: no counterpart in the code.) -/
def asksReplay : Op → Bool
  | .getStart _ _ last _ => (strOf last).isSome
  | _ => false

/-- C216, partial: in a history in which no GET carries a (readable) `Last-Event-ID`, the store and the channels together never
hold more than two events for each request the MCP server handled.  (The guard is needed:
`C216_doubles`; the memory is never given back: `C216_never_removed`.) -/
theorem C216_bounded_partial (c : Config) (h : List Op) (hr : ∀ op ∈ h, asksReplay op = false) :
    (run c {} h).store.order.length + queued (run c {} h).streams ≤ 2 * (run c {} h).handled.length := by
  have key : (run c {} h).store.order.length + queued (run c {} h).streams ≤ 2 * (run c {} h).handled.length ∧
      ∀ g ∈ (run c {} h).gets, g.lastEvent = none := by
    induction h using Verif.snocInduction with
    | nil => exact ⟨by simp [run, queued], by simp [run]⟩
    | append_singleton h op ih =>
      obtain ⟨ih, ihg⟩ := ih (fun o ho => hr o (by simp [ho]))
      have hop := hr op (by simp)
      rw [run_snoc]
      generalize run c {} h = s at *
      cases op with
      | post p n =>
        simp only [step]
        rcases post_cases c s p n with ⟨code, hh⟩ | ⟨req, r, hh, hb⟩ | ⟨req, s', r, hp, hb, hv, hh⟩
        · rw [hh]; exact ⟨ih, ihg⟩
        · rw [hh]; exact ⟨ih, ihg⟩
        · rw [hh]
          have e : s' = (processInit c s (strOf p.sid) (strOf p.version) n).1 := by rw [hp]
          have : s'.store = s.store ∧ s'.streams = s.streams ∧ s'.handled = s.handled ∧ s'.gets = s.gets := by
            rw [e]; unfold processInit; repeat (first | exact ⟨rfl, rfl, rfl, rfl⟩ | split)
          obtain ⟨a, b, d, e⟩ := this
          simp only [a, b, d, e]; exact ⟨ih, ihg⟩
      | process i r neg ev =>
        refine ⟨?_, by simp only [step]; rw [process_gets]; exact ihg⟩
        simp only [step]
        cases hq : s.posts[i]? with
        | none => unfold process; rw [hq]; exact ih
        | some q =>
          rw [process_eq c _ i r neg ev q hq]
          simp only
          rw [build_store, build_handled, before_handled]
          have h1 := queued_build c (beforeBuild c s i q r neg ev) q.clientSid r
          rw [before_streams] at h1
          have h2 : (beforeBuild c s i q r neg ev).store.order.length ≤ s.store.order.length + 1 := by
            have hup : ∀ (t : State), (updateAfterInit t q.respSid neg).store = t.store := by
              intro t; unfold updateAfterInit; split <;> (try split) <;> rfl
            unfold beforeBuild
            cases hc : c.store with
            | false => cases q.isInit <;> simp [hup]
            | true =>
              cases hr : q.respSid with
              | none => rw [hr] at hup; cases q.isInit <;> simp [hup]
              | some x => rw [hr] at hup; cases q.isInit <;> simp [hup, storeEvent]
          simp only [List.length_append, List.length_singleton]
          omega
      | getStart a sid l n =>
        have hl : strOf l = none := by simpa [asksReplay] using hop
        simp only [step]
        rcases getStart_cases c s a sid l n with ⟨code, hh⟩ | ⟨t, hs, _, hh⟩ | ⟨hs, _, hv, hh⟩
        · rw [hh]; exact ⟨ih, ihg⟩
        · rw [hh]; refine ⟨ih, ?_⟩
          intro g hg
          rcases List.mem_append.mp hg with hg | hg
          · exact ihg g hg
          · rw [List.mem_singleton.mp hg]; exact hl
        · rw [hh]; refine ⟨ih, ?_⟩
          intro g hg
          rcases List.mem_append.mp hg with hg | hg
          · exact ihg g hg
          · rw [List.mem_singleton.mp hg]; exact hl
      | getCheck i =>
        simp only [step]
        unfold getCheck; split
        · next sid last hg =>
          have hlast : last = none := ihg _ (List.mem_of_getElem? hg)
          split
          · exact ⟨ih, fun g hg => ihg g (List.mem_of_mem_eraseIdx hg)⟩
          · refine ⟨ih, fun g hg => ?_⟩
            rcases List.mem_or_eq_of_mem_set hg with hg | hg
            · exact ihg g hg
            · rw [hg]; exact hlast
        · exact ⟨ih, ihg⟩
      | getOpen i =>
        simp only [step]
        unfold getOpen; split
        · next sid last hg =>
          have hlast : last = none := ihg _ (List.mem_of_getElem? hg)
          subst hlast
          refine ⟨?_, fun g hg => ihg g (List.mem_of_mem_eraseIdx hg)⟩
          simpa [queued] using ih
        · exact ⟨ih, ihg⟩
      | delete sid =>
        simp only [step]; unfold delete; split; · exact ⟨ih, ihg⟩
        split <;> exact ⟨ih, ihg⟩
      | disconnect k =>
        simp only [step]; unfold disconnect; split
        · next st hk =>
          have := queued_set s.streams k st { st with connected := false } hk
          refine ⟨?_, ihg⟩
          simp only at this ⊢; omega
        · exact ⟨ih, ihg⟩
      | deliver k ev =>
        simp only [step]
        unfold deliver
        split
        · next x m q d hk =>
          have := queued_set s.streams k _ ⟨x, true, q, d ++ [(ev, m)]⟩ hk
          refine ⟨?_, ihg⟩
          simp only [List.length_cons] at this ⊢
          cases c.store with
          | false => simp only [Bool.false_eq_true, ↓reduceIte]; omega
          | true => simp only [↓reduceIte, storeEvent, List.length_append, List.length_singleton]; omega
        · exact ⟨ih, ihg⟩
  exact key.1

/-- The bound is attained: one response on a stream is stored when it is produced and when it is sent. -/
example :
    let s := run {} {} [.post initPost sidA, .process 0 7 none "e1".toList, getA, .getCheck 0, .getOpen 0,
      .post (reqPost sidA 2) [], .process 0 8 none "e2".toList, .deliver 0 "e3".toList]
    s.store.order.length = 3 ∧ queued s.streams = 0 ∧ s.handled.length = 2 := by decide +kernel

end Verif.HttpServer
