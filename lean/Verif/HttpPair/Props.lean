import Verif.HttpPair.Lemmas

/-
C219: the client's streamable HTTP transport works with the streamable HTTP server.
-/

namespace Verif.HttpPair

open Verif

variable {M : Type}

/-- Serde understands the answers, which are single lines of JSON. (The round trips of the messages are C48-C50 and
C96-C102.) (Specification: no counterpart in the code.) -/
structure Link.Ok (L : Link M) : Prop where
  one : ∀ m, L.codec.one (L.json m) = some (L.msg m)
  single : ∀ m, L.codec.batch (L.json m) = none
  line : ∀ m, L.json m ≠ [] ∧ '\n' ∉ L.json m ∧ '\r' ∉ L.json m

/-- A text that survives the way through a header (`C217_usable_iff`). (Specification: no counterpart in the code.) -/
def Clean (t : Text) : Prop := HttpServer.sentBack t = .text t

/-- An event id as generated: no line ends. (Specification: no counterpart in the code.) -/
def EvOk (ev : Text) : Prop := '\n' ∉ ev ∧ '\r' ∉ ev ∧ '\x00' ∉ ev

theorem seen_clean {t : Text} (h : Clean t) : seen t = some t := by
  unfold seen; rw [h]; rfl

theorem clean_supported : ∀ v ∈ HttpServer.supported, Clean v := by
  intro v hv
  have : ∀ v ∈ HttpServer.supported, HttpServer.sentBack v = .text v := by decide
  exact this v hv

/-! ### The checks of headers -/

theorem post_headers_pass : HttpServer.validatePost (some (.text StreamClient.kJson)) (some (.text acceptBoth)) = none := by
  decide

theorem get_headers_pass : HttpServer.validateGet (some (.text StreamClient.kStream)) = none := by decide

/-- **C219**. No request of the client's transport is refused for its content type or what it accepts, in any state of
both sides. -/
theorem C219_headers_pass (c : HttpServer.Config) (L : Link M) (s : Sys M) (m : M) (token : Option Text) (n : Text) :
    (HttpServer.post c s.srv (postOf L s.cl m) n).2 ≠ .status 415 ∧
    (HttpServer.post c s.srv (postOf L s.cl m) n).2 ≠ .status 406 ∧
    (HttpServer.getStart c s.srv (some (.text StreamClient.kStream)) (s.cl.session.map HttpServer.sentBack)
      (token.map HttpServer.sentBack) n).2 ≠ .status 406 := by
  have hp : ∀ code, (HttpServer.post c s.srv (postOf L s.cl m) n).2 = .status code →
      code = 400 ∨ code = 404 ∨ code = 202 := by
    intro code
    unfold HttpServer.post
    have : HttpServer.validatePost (postOf L s.cl m).contentType (postOf L s.cl m).accept = none := post_headers_pass
    rw [this]
    simp only
    have hi : ∀ a b (s' : HttpServer.State) code, HttpServer.processInit c s.srv a b n = (s', .error code) → code = 400 := by
      intro a b s' code h
      unfold HttpServer.processInit at h
      repeat' split at h
      all_goals cases h
      rfl
    have hn : ∀ a code, HttpServer.validateNonInit c s.srv a = .error code → code = 400 ∨ code = 404 := by
      intro a code h
      unfold HttpServer.validateNonInit at h
      repeat' split at h
      all_goals cases h
      · exact .inl rfl
      · exact .inr rfl
    have hv : ∀ a b code, HttpServer.validateVersion c s.srv a b = some code → code = 400 := by
      intro a b code h
      unfold HttpServer.validateVersion at h
      repeat' split at h
      all_goals cases h
      all_goals rfl
    cases (postOf L s.cl m).body with
    | invalid => intro h; cases h; exact .inl rfl
    | init r =>
      simp only
      split
      · next heq => intro h; cases h; exact .inl (hi _ _ _ _ heq)
      · intro h; cases h
    | request r =>
      simp only
      split
      · next heq => intro h; cases h; rcases hn _ _ heq with h | h <;> simp [h]
      · split
        · next heq => intro h; cases h; exact .inl (hv _ _ _ heq)
        · intro h; cases h
    | notification r =>
      simp only
      split
      · next heq => intro h; cases h; rcases hn _ _ heq with h | h <;> simp [h]
      · split
        · next heq => intro h; cases h; exact .inl (hv _ _ _ heq)
        · intro h; cases h; simp
    | response r =>
      simp only
      split
      · next heq => intro h; cases h; rcases hn _ _ heq with h | h <;> simp [h]
      · split
        · next heq => intro h; cases h; exact .inl (hv _ _ _ heq)
        · intro h; cases h; simp
  refine ⟨?_, ?_, ?_⟩
  · intro h; rcases hp _ h with h | h | h <;> cases h
  · intro h; rcases hp _ h with h | h | h <;> cases h
  · unfold HttpServer.getStart
    rw [get_headers_pass]
    simp only
    repeat' split
    all_goals simp

/-! ### Steps of the client -/

theorem answer_other (C : StreamClient.Codec M) (cl : StreamClient.State M) (r : StreamClient.Resp)
    (h1 : Connect.hasText StreamClient.kJson r.contentType = false)
    (h2 : Connect.hasText StreamClient.kStream r.contentType = false) :
    (StreamClient.step C cl (.answer (some r))).1 = StreamClient.headers cl r := by
  simp only [StreamClient.step, StreamClient.onAnswer, h1, h2, Bool.false_eq_true, if_false]
  repeat' split
  all_goals rfl

theorem plain_answer (L : Link M) (cl : StreamClient.State M) (code : Nat) :
    (StreamClient.step L.codec cl (.answer (some (plain code)))).1 = cl := by
  rw [answer_other L.codec cl (plain code) rfl rfl]
  rfl

theorem finish_eq (C : StreamClient.Codec M) (s : StreamClient.State M) (key : Nat) (st : StreamClient.Stream)
    (h : s.streams.find? (fun x => x.key == key) = some st) :
    (StreamClient.step C s (.finish key)).1 =
      StreamClient.onBody C { s with streams := s.streams.filter (fun y => y.key ≠ key) } st.text := by
  simp only [StreamClient.step, h]

theorem plain_ok (L : Link M) (cl : StreamClient.State M) :
    (StreamClient.step L.codec cl (.answer (some (plain 202)))).2 = .ok := by
  have h1 : Connect.hasText StreamClient.kJson (plain 202).contentType = false := by decide
  have h2 : Connect.hasText StreamClient.kStream (plain 202).contentType = false := by decide
  simp only [StreamClient.step, StreamClient.onAnswer, h1, h2, Bool.false_eq_true, if_false]
  rfl

/-- The client reads an answer of one event. -/
theorem read_event (L : Link M) (hL : L.Ok) (cl : StreamClient.State M) (key : Nat) (ev : Text) (m : HttpServer.Msg)
    (hk : StreamClient.Has key [] cl) (he : EvOk ev) :
    (read L cl key (Sse.display (eventOf L ev m))).queue = cl.queue ++ [L.msg m] ∧
    (read L cl key (Sse.display (eventOf L ev m))).session = cl.session ∧
    (read L cl key (Sse.display (eventOf L ev m))).version = cl.version ∧
    (read L cl key (Sse.display (eventOf L ev m))).nextKey = cl.nextKey ∧
    (read L cl key (Sse.display (eventOf L ev m))).handle = cl.handle ∧
    (∀ st ∈ (read L cl key (Sse.display (eventOf L ev m))).streams, ∃ st' ∈ cl.streams, st'.key = st.key) ∧
    ∀ k, k ≠ key → StreamClient.Has k [] cl → StreamClient.Has k [] (read L cl key (Sse.display (eventOf L ev m))) := by
  have hl := hL.line m
  have hrep : Sse.Representable (eventOf L ev m) := by
    refine ⟨?_, ?_, ?_, hl.2.2, ?_, ?_⟩
    · intro i hi; cases hi; exact he
    · intro v hv; cases hv; decide
    · intro n hn; cases hn
    · cases hj : L.json m with
      | nil => exact absurd hj hl.1
      | cons a l =>
        refine ⟨a, by simp [eventOf, hj], ?_⟩
        rintro rfl
        exact hl.2.1 (by rw [hj]; simp)
    · intro h
      exact hl.2.1 (List.mem_of_getLast? h)
  have hf := Sse.C06_event_round_trip_partial (eventOf L ev m) hrep
  have hmsg : StreamClient.messages L.codec (Sse.display (eventOf L ev m)) = [L.msg m] := by
    unfold StreamClient.messages
    cases hd : Sse.feed {} (Sse.display (eventOf L ev m)) with
    | none => rw [show Sse.fresh = {} from rfl, hd] at hf; simp at hf
    | some r =>
      obtain ⟨p, es⟩ := r
      rw [show Sse.fresh = {} from rfl, hd] at hf
      simp only [Option.map_some, Option.some.injEq] at hf
      subst hf
      simp [eventOf, hL.one]
  generalize Sse.display (eventOf L ev m) = text at hmsg
  have h1 := StreamClient.has_step L.codec key [] cl (.chunk key text) hk trivial
  simp only [StreamClient.arrived, if_true, List.append_nil, List.nil_append] at h1
  unfold read
  have hfin : (StreamClient.step L.codec (StreamClient.step L.codec cl (.chunk key text)).1 (.finish key)).1 =
      StreamClient.onBody L.codec
        { (StreamClient.step L.codec cl (.chunk key text)).1 with
          streams := (StreamClient.step L.codec cl (.chunk key text)).1.streams.filter (fun y => y.key ≠ key) } text :=
    finish_eq L.codec _ key _ h1.find
  refine ⟨?_, ?_, ?_, ?_, ?_, ?_, ?_⟩
  · rw [hfin, StreamClient.onBody_queue, hmsg]; rfl
  · rw [hfin, (StreamClient.onBody_headers _ _ _).1]; rfl
  · rw [hfin, (StreamClient.onBody_headers _ _ _).2]; rfl
  · rw [hfin, (StreamClient.onBody_streams _ _ _).2.1]; rfl
  · rw [hfin, (StreamClient.onBody_streams _ _ _).2.2]; rfl
  · intro st hst
    rw [hfin, (StreamClient.onBody_streams _ _ _).1] at hst
    have hst := (List.mem_filter.mp hst).1
    simp only [StreamClient.step, List.mem_map] at hst
    obtain ⟨st', h2, h3⟩ := hst
    refine ⟨st', h2, ?_⟩
    rw [← h3]; split <;> rfl
  · intro k hkey hk'
    have h2 := StreamClient.has_step L.codec k [] cl (.chunk key text) hk' trivial
    have : ¬ key = k := fun h => hkey h.symm
    simp only [StreamClient.arrived, if_neg this, List.append_nil, List.nil_append] at h2
    have h3 := StreamClient.has_step L.codec k [] _ (.finish key) h2 (fun h => hkey h.symm)
    simpa [StreamClient.arrived] using h3

/-! ### A session at work -/

/-- The steps after the initialization: the client sends messages and reads answers; others do not know the session.
(Specification: no counterpart in the code.) -/
def Polite (x : Text) : Op M → Prop
  | .send _ _ => True
  | .answered _ _ ev => EvOk ev
  | .arrive _ => True
  | .other op => Stranger x op
  | _ => False

/-- The answers of the MCP server to the client, in order. (Specification: no counterpart in the code.) -/
def given : List (Op M) → List HttpServer.Msg
  | [] => []
  | .answered a _ _ :: ops => a :: given ops
  | _ :: ops => given ops

theorem given_append (a b : List (Op M)) : given (a ++ b) = given a ++ given b := by
  induction a with
  | nil => rfl
  | cons op a ih => cases op <;> simp [given, ih]

/-- Both sides agree on session `x` and version `v`, and the client has or will have the answers `l`.
(Specification: no counterpart in the code.) -/
structure Good (c : HttpServer.Config) (L : Link M) (x v : Text) (l : List HttpServer.Msg) (s : Sys M) : Prop where
  quiet : Quiet x s
  fresh : ∀ st ∈ s.cl.streams, st.key < s.cl.nextKey
  handle : s.cl.handle = none
  session : s.cl.session = some x
  version : s.cl.version = some v
  entry : AMap.get s.srv.sessions x = some ⟨true, some v⟩
  sender : AMap.get s.srv.senders x = none
  mine : ∀ i, s.phase = .posting i → ∃ r, s.srv.posts[i]? = some ⟨some x, some x, false, r⟩
  tasks : ∀ b ∈ s.bodies, StreamClient.Has b.1 [] s.cl ∧ EvOk b.2.1
  keys : (s.bodies.map (·.1)).Nodup
  recv : (s.cl.queue ++ s.bodies.map (fun b => L.msg b.2.2)).Perm (l.map L.msg)
  json : c.json = true → s.bodies = [] ∧ s.cl.queue = l.map L.msg

/-- What the server does with a message of the client in an established session. -/
theorem post_good (c : HttpServer.Config) (hst : c.stateful = true) (L : Link M) (x v : Text) (hx : Clean x)
    (hv : v ∈ HttpServer.supported) (l : List HttpServer.Msg) (s : Sys M) (hg : Good c L x v l s) (m : M) (n : Text) :
    HttpServer.post c s.srv (postOf L s.cl m) n =
      match L.body m with
      | .request r => ({ s.srv with posts := s.srv.posts ++ [⟨some x, some x, false, r⟩] }, .goesOn)
      | .notification _ => (s.srv, .status 202)
      | .response _ => (s.srv, .status 202)
      | _ => (s.srv, .status 400) := by
  have h1 : HttpServer.strOf (postOf L s.cl m).sid = some x := by
    simp only [postOf, hg.session, Option.map_some, show HttpServer.sentBack x = .text x from hx, HttpServer.strOf]
  have h2 : HttpServer.strOf (postOf L s.cl m).version = some v := by
    simp only [postOf, hg.version, Option.map_some, show HttpServer.sentBack v = .text v from clean_supported v hv,
      HttpServer.strOf]
  have hc : AMap.contains s.srv.sessions x = true := by simp [AMap.contains, hg.entry]
  have h3 : HttpServer.validateNonInit c s.srv (some x) = .ok (some x) := by
    simp [HttpServer.validateNonInit, hst, hc]
  have h4 : HttpServer.validateVersion c s.srv (some x) (some v) = none := by
    simp [HttpServer.validateVersion, hst, hv, hg.entry]
  have h5 : HttpServer.processInit c s.srv (some x) (some v) n = (s.srv, .error 400) := by
    simp [HttpServer.processInit, hst, hg.entry]
  have h6 : HttpServer.validatePost (postOf L s.cl m).contentType (postOf L s.cl m).accept = none := post_headers_pass
  have h7 : (postOf L s.cl m).body = L.body m := rfl
  unfold HttpServer.post
  rw [h6, h1, h2, h7]
  cases L.body m <;> simp only [h3, h4, h5]

/-- What the server answers to a request of the client in an established session. -/
theorem process_good (c : HttpServer.Config) (L : Link M) (x v : Text) (l : List HttpServer.Msg) (s : Sys M)
    (hg : Good c L x v l s) (i : Nat) (r : Nat) (hi : s.srv.posts[i]? = some ⟨some x, some x, false, r⟩)
    (a : HttpServer.Msg) (neg : Option Text) (ev : Text) :
    (HttpServer.process c s.srv i a neg ev).2 = .reply 200 (some x) v (.here a) ∧
    AMap.get (HttpServer.process c s.srv i a neg ev).1.sessions x = some ⟨true, some v⟩ ∧
    (HttpServer.process c s.srv i a neg ev).1.posts = s.srv.posts.eraseIdx i := by
  have hb : HttpServer.buildResponse c (HttpServer.beforeBuild c s.srv i ⟨some x, some x, false, r⟩ a neg ev) (some x) a =
      (HttpServer.beforeBuild c s.srv i ⟨some x, some x, false, r⟩ a neg ev, 200, .here a) := by
    unfold HttpServer.buildResponse
    split
    · rfl
    · simp only [HttpServer.before_senders, hg.sender]
  have hs : AMap.get (HttpServer.beforeBuild c s.srv i ⟨some x, some x, false, r⟩ a neg ev).sessions x =
      some ⟨true, some v⟩ := by
    rw [HttpServer.before_sessions]; simpa using hg.entry
  refine ⟨?_, ?_, process_posts c s.srv i a neg ev _ hi⟩
  · rw [HttpServer.process_eq c s.srv i a neg ev _ hi]
    simp only [hb]
    simp [HttpServer.versionHeader, hs]
  · rw [HttpServer.process_eq c s.srv i a neg ev _ hi]
    simp only [hb, hs]

theorem kinds : Connect.hasText StreamClient.kJson StreamClient.kJson = true ∧
    Connect.hasText StreamClient.kJson StreamClient.kStream = false ∧
    Connect.hasText StreamClient.kStream StreamClient.kStream = true := by decide

/-- The client's reaction to an answer in JSON. -/
theorem answer_json (L : Link M) (hL : L.Ok) (cl : StreamClient.State M) (x v : Text) (hx : Clean x) (hv : Clean v)
    (a : HttpServer.Msg) :
    StreamClient.step L.codec cl (.answer (some (respOf L true 200 (some x) v (.here a)))) =
      ({ cl with session := some x, version := some v, queue := cl.queue ++ [L.msg a] }, .ok) := by
  simp only [StreamClient.step, StreamClient.onAnswer, respOf, if_true, StreamClient.headers, Option.bind_some,
    seen_clean hx, seen_clean hv, Option.some_or, kinds.1, hL.single, hL.one]
  rfl

/-- The client's reaction to an answer as a stream of one event. -/
theorem answer_stream (L : Link M) (cl : StreamClient.State M) (x v : Text) (hx : Clean x) (hv : Clean v)
    (a : HttpServer.Msg) :
    StreamClient.step L.codec cl (.answer (some (respOf L false 200 (some x) v (.here a)))) =
      (StreamClient.spawn { cl with session := some x, version := some v }, .ok) := by
  simp only [StreamClient.step, StreamClient.onAnswer, respOf, Bool.false_eq_true, if_false, StreamClient.headers,
    Option.bind_some, seen_clean hx, seen_clean hv, Option.some_or, kinds.2.1, kinds.2.2, if_true]
  rfl

theorem good_step (c : HttpServer.Config) (hst : c.stateful = true) (L : Link M) (hL : L.Ok) (x v : Text)
    (hx : Clean x) (hv : v ∈ HttpServer.supported) (l : List HttpServer.Msg) (s s' : Sys M) (op : Op M)
    (hg : Good c L x v l s) (hp : Polite x op) (h : step c L s op = some s') : Good c L x v (l ++ given [op]) s' := by
  cases op with
  | send m n =>
    simp only [given, List.append_nil]
    simp only [step] at h
    split at h
    · next hid =>
      unfold send at h
      rw [post_good c hst L x v hx hv l s hg m n] at h
      have hcl : ∀ code, (StreamClient.step L.codec (StreamClient.step L.codec s.cl (.post m true)).1
          (.answer (some (plain code)))).1 = { s.cl with
            requests := s.cl.requests ++ [StreamClient.request s.cl .post none (some m)] } := by
        intro code; rw [plain_answer]; rfl
      cases hb : L.body m with
      | request r =>
        simp only [hb, Option.some.injEq] at h
        subst h
        refine ⟨⟨?_, hg.quiet.gets⟩, hg.fresh, hg.handle, hg.session, hg.version, hg.entry, hg.sender, ?_, ?_, hg.keys, hg.recv, hg.json⟩
        · intro j q hj hne
          simp only at hj hne
          by_cases hl : j < s.srv.posts.length
          · rw [List.getElem?_append_left hl] at hj
            exact hg.quiet.posts j q hj (by rw [hid]; simp)
          · exfalso
            have : j = s.srv.posts.length := by
              have := (List.getElem?_eq_some_iff.mp hj).1
              simp at this; omega
            exact hne (by rw [this])
        · intro i hi
          simp only [Phase.posting.injEq] at hi
          subst hi
          exact ⟨r, by simp⟩
        · intro b hb'
          have := hg.tasks b hb'
          exact ⟨⟨this.1.find, this.1.lt, this.1.handle⟩, this.2⟩
      | _ =>
        simp only [hb, Option.some.injEq] at h
        subst h
        refine ⟨⟨hg.quiet.posts, hg.quiet.gets⟩, ?_, ?_, ?_, ?_, hg.entry, hg.sender, hg.mine, ?_, hg.keys, ?_, ?_⟩
        · simp only [hcl]; exact hg.fresh
        · simp only [hcl]; exact hg.handle
        · simp only [hcl]; exact hg.session
        · simp only [hcl]; exact hg.version
        · intro b hb'
          have := hg.tasks b hb'
          simp only [hcl]
          exact ⟨⟨this.1.find, this.1.lt, this.1.handle⟩, this.2⟩
        · simp only [hcl]; exact hg.recv
        · simp only [hcl]; exact hg.json
    · cases h
  | answered a neg ev =>
    simp only [given]
    simp only [step] at h
    split at h
    · next i hi =>
      obtain ⟨r, hr⟩ := hg.mine i hi
      obtain ⟨h1, h2, h3⟩ := process_good c L x v l s hg i r hr a neg ev
      have hcv := clean_supported v hv
      have hquiet : ∀ (j : Nat) (q : HttpServer.Pending), (s.srv.posts.eraseIdx i)[j]? = some q → q.respSid ≠ some x := by
        intro j q hj
        rw [List.getElem?_eraseIdx] at hj
        split at hj
        · apply hg.quiet.posts j q hj
          rw [hi]; simp; omega
        · apply hg.quiet.posts (j + 1) q hj
          rw [hi]; simp; omega
      unfold answered at h
      simp only [hr, h1] at h
      cases hj : c.json with
      | true =>
        have hjs : asJson c (some x) = true := by simp [asJson, hj]
        simp only [hjs, answer_json L hL s.cl x v hx hcv a, if_true, List.append_nil, Option.some.injEq] at h
        subst h
        obtain ⟨hj1, hj2⟩ := hg.json hj
        refine ⟨⟨?_, ?_⟩, hg.fresh, hg.handle, rfl, rfl, h2, ?_, ?_, ?_, hg.keys, ?_, ?_⟩
        · intro j q hq _; simp only [h3] at hq; exact hquiet j q hq
        · simp only [HttpServer.process_gets]; exact hg.quiet.gets
        · simp only [HttpServer.process_senders]; exact hg.sender
        · intro i' hi'; cases hi'
        · intro b hb'; simp only [hj1] at hb'; cases hb'
        · simp only [hj1, hj2, List.map_nil, List.append_nil, List.map_append, List.map_cons]
          exact List.Perm.refl _
        · intro _
          simp only [hj1, hj2, List.map_append, List.map_cons, List.map_nil, and_self]
      | false =>
        have hjs : asJson c (some x) = false := by simp [asJson, hj]
        simp only [hjs, answer_stream L s.cl x v hx hcv a, Bool.false_eq_true, if_false, Option.some.injEq] at h
        subst h
        refine ⟨⟨?_, ?_⟩, ?_, hg.handle, rfl, rfl, h2, ?_, ?_, ?_, ?_, ?_, ?_⟩
        · intro j q hq _; simp only [h3] at hq; exact hquiet j q hq
        · simp only [HttpServer.process_gets]; exact hg.quiet.gets
        · intro st hst
          simp only [StreamClient.spawn, List.mem_append, List.mem_singleton] at hst ⊢
          rcases hst with hst | rfl
          · exact Nat.lt_succ_of_lt (hg.fresh st hst)
          · exact Nat.lt_succ_self _
        · simp only [HttpServer.process_senders]; exact hg.sender
        · intro i' hi'; cases hi'
        · intro b hb
          rw [List.mem_append, List.mem_singleton] at hb
          rcases hb with hb | rfl
          · have := hg.tasks b hb
            exact ⟨StreamClient.has_spawn _ _ _ ⟨this.1.find, this.1.lt, this.1.handle⟩, this.2⟩
          · refine ⟨⟨?_, Nat.lt_succ_self _, by simp [StreamClient.spawn, hg.handle]⟩, hp⟩
            simp only [StreamClient.spawn, List.find?_append]
            have : s.cl.streams.find? (fun st => st.key == s.cl.nextKey) = none := by
              rw [List.find?_eq_none]
              intro st hst
              have := hg.fresh st hst
              simp; omega
            simp [this]
        · rw [List.map_append, List.nodup_append]
          refine ⟨hg.keys, by simp, ?_⟩
          intro k hk k' hk'
          obtain ⟨b, hb, rfl⟩ := List.mem_map.mp hk
          simp only [List.map_cons, List.map_nil, List.mem_singleton] at hk'
          subst hk'
          exact Nat.ne_of_lt (hg.tasks b hb).1.lt
        · simp only [StreamClient.spawn, List.map_append, List.map_cons, List.map_nil, ← List.append_assoc]
          exact List.Perm.append_right _ hg.recv
        · intro h; rw [hj] at h; cases h
    · cases h
  | arrive j =>
    simp only [given, List.append_nil]
    simp only [step] at h
    split at h
    · next key ev m hb =>
      simp only [Option.some.injEq] at h
      subst h
      obtain ⟨l1, l2, hl, hlen⟩ : ∃ l1 l2, s.bodies = l1 ++ (key, ev, m) :: l2 ∧ l1.length = j := by
        obtain ⟨h1, h2⟩ := List.getElem?_eq_some_iff.mp hb
        refine ⟨s.bodies.take j, s.bodies.drop (j + 1), ?_, by simp; omega⟩
        rw [← h2]; simp
      have her : s.bodies.eraseIdx j = l1 ++ l2 := by
        rw [hl, ← hlen, List.eraseIdx_append_of_length_le (Nat.le_refl _)]; simp
      have hk := hg.keys
      rw [hl] at hk
      have hb1 := hg.tasks (key, ev, m) (by rw [hl]; simp)
      obtain ⟨r1, r2, r3, r4, r5, r6, r7⟩ := read_event L hL s.cl key ev m hb1.1 hb1.2
      have hrest : ∀ b ∈ l1 ++ l2, b ∈ s.bodies ∧ b.1 ≠ key := by
        intro b hb'
        refine ⟨by rw [hl]; simp at hb' ⊢; rcases hb' with h | h <;> simp [h], ?_⟩
        rintro rfl
        simp only [List.map_append, List.map_cons, List.nodup_append, List.nodup_cons] at hk
        rcases List.mem_append.mp hb' with h | h
        · exact hk.2.2 b.1 (List.mem_map_of_mem h) b.1 (by simp) rfl
        · exact hk.2.1.1 (List.mem_map_of_mem h)
      refine ⟨⟨hg.quiet.posts, hg.quiet.gets⟩, ?_, ?_, ?_, ?_, hg.entry, hg.sender, hg.mine, ?_, ?_, ?_, ?_⟩
      · intro st hst
        obtain ⟨st', h1, h2⟩ := r6 st hst
        simp only [r4, ← h2]
        exact hg.fresh st' h1
      · exact r5.trans hg.handle
      · exact r2.trans hg.session
      · exact r3.trans hg.version
      · intro b hb'
        simp only [her] at hb'
        have := hrest b hb'
        exact ⟨r7 b.1 this.2 (hg.tasks b this.1).1, (hg.tasks b this.1).2⟩
      · simp only [her]
        refine List.Sublist.nodup ?_ hg.keys
        rw [hl]
        simp only [List.map_append, List.map_cons]
        exact List.Sublist.append (List.Sublist.refl _) (List.sublist_cons_self _ _)
      · simp only [her, r1]
        refine List.Perm.trans ?_ hg.recv
        rw [hl]
        simp only [List.map_append, List.map_cons, List.append_assoc]
        apply List.Perm.append_left
        rw [List.singleton_append]
        exact List.perm_middle.symm
      · intro hj
        have := (hg.json hj).1
        rw [hl] at this
        simp at this
    · cases h
  | other op =>
    simp only [given, List.append_nil]
    have hm : ∀ i, s.phase = .posting i → i < s.srv.posts.length := by
      intro i hi
      obtain ⟨r, hr⟩ := hg.mine i hi
      exact (List.getElem?_eq_some_iff.mp hr).1
    obtain ⟨h1, h2, h3, h4, h5, h6, h7, h8, h9⟩ := quiet_other c L x s s' op hg.quiet hp hm h
    refine ⟨h1, by rw [h4]; exact hg.fresh, by rw [h4]; exact hg.handle, by rw [h4]; exact hg.session, by rw [h4]; exact hg.version, by rw [h2]; exact hg.entry,
      by rw [h3]; exact hg.sender, ?_, by rw [h4, h5]; exact hg.tasks, by rw [h5]; exact hg.keys,
      by rw [h4, h5]; exact hg.recv, by rw [h4, h5]; exact hg.json⟩
    intro i hi
    cases hph : s.phase with
    | idle => rw [h8 hph] at hi; cases hi
    | posting k =>
      obtain ⟨r, hr⟩ := hg.mine k hph
      obtain ⟨i', h10, h11⟩ := h9 k _ hph hr
      rw [hi] at h10
      cases h10
      exact ⟨r, h11⟩
    | opening k =>
      exfalso
      simp only [step] at h
      split at h
      · simp only [Option.some.injEq] at h
        subst h
        simp only [hph, shift] at hi
        cases hi
      · cases h
  | «open» t n => exact hp.elim
  | check => exact hp.elim
  | opened => exact hp.elim
  | ends j => exact hp.elim
  | close => exact hp.elim
  | setSession y => exact hp.elim

theorem run_append (c : HttpServer.Config) (L : Link M) (s : Sys M) (a b : List (Op M)) :
    run c L s (a ++ b) = (run c L s a).bind (fun s => run c L s b) := by
  induction a generalizing s with
  | nil => rfl
  | cons op a ih =>
    simp only [List.cons_append, run]
    cases step c L s op with
    | none => rfl
    | some s1 => exact ih s1

theorem good_run (c : HttpServer.Config) (hst : c.stateful = true) (L : Link M) (hL : L.Ok) (x v : Text)
    (hx : Clean x) (hv : v ∈ HttpServer.supported) (ops : List (Op M)) (l : List HttpServer.Msg) (s s' : Sys M)
    (hg : Good c L x v l s) (hp : ∀ op ∈ ops, Polite x op) (h : run c L s ops = some s') :
    Good c L x v (l ++ given ops) s' := by
  induction ops generalizing l s with
  | nil => cases h; simpa [given] using hg
  | cons op ops ih =>
    simp only [run] at h
    split at h
    · cases h
    · next s1 h1 =>
      have h2 := good_step c hst L hL x v hx hv l s s1 op hg (hp op (by simp)) h1
      have h3 := ih (l ++ given [op]) s1 h2 (fun o ho => hp o (by simp [ho])) h
      rw [List.append_assoc, ← given_append, List.singleton_append] at h3
      exact h3

/-- A new client, and a server that has nothing to do with session id `x` yet.
(Specification: no counterpart in the code.) -/
structure Start (x : Text) (s : Sys M) : Prop where
  cl : s.cl = StreamClient.init none
  idle : s.phase = .idle
  bodies : s.bodies = []
  posts : ∀ q ∈ s.srv.posts, q.respSid ≠ some x
  gets : ∀ g ∈ s.srv.gets, g.sid ≠ x
  sender : AMap.get s.srv.senders x = none

/-- The initialization waits for the MCP server. (Specification: no counterpart in the code.) -/
structure Waiting (x : Text) (r : Nat) (cl : StreamClient.State M) (s : Sys M) : Prop where
  quiet : Quiet x s
  cl : s.cl = cl
  bodies : s.bodies = []
  sender : AMap.get s.srv.senders x = none
  entry : AMap.contains s.srv.sessions x = true
  mine : ∃ i, s.phase = .posting i ∧ s.srv.posts[i]? = some ⟨none, some x, true, r⟩

theorem waiting_run (c : HttpServer.Config) (L : Link M) (x : Text) (r : Nat) (cl : StreamClient.State M)
    (os : List HttpServer.Op) (hos : ∀ o ∈ os, Stranger x o) (s s' : Sys M) (hw : Waiting x r cl s)
    (h : run c L s (os.map .other) = some s') : Waiting x r cl s' := by
  induction os generalizing s with
  | nil => cases h; exact hw
  | cons o os ih =>
    simp only [List.map_cons, run] at h
    split at h
    · cases h
    · next s1 h1 =>
      obtain ⟨i, hi, hq⟩ := hw.mine
      have hm : ∀ i, s.phase = .posting i → i < s.srv.posts.length := by
        intro j hj
        rw [hi] at hj
        cases hj
        exact (List.getElem?_eq_some_iff.mp hq).1
      obtain ⟨g1, g2, g3, g4, g5, g6, g7, g8, g9⟩ := quiet_other c L x s s1 o hw.quiet (hos o (by simp)) hm h1
      refine ih (fun o ho => hos o (by simp [ho])) s1 ⟨g1, g4.trans hw.cl, g5.trans hw.bodies, g3.trans hw.sender, ?_,
        g9 i _ hi hq⟩ h
      unfold AMap.contains
      rw [g2]
      exact hw.entry

/-- The whole beginning: the client sends `initialize`, others go on, the MCP server answers. -/
theorem start_good (c : HttpServer.Config) (hst : c.stateful = true) (L : Link M) (hL : L.Ok) (x : Text)
    (hx : Clean x) (s0 s : Sys M) (h0 : Start x s0) (m : M) (r : Nat) (hm : L.body m = .init r)
    (os : List HttpServer.Op) (hos : ∀ o ∈ os, Stranger x o) (a : HttpServer.Msg) (neg : Option Text) (ev : Text)
    (hv : neg.getD HttpServer.defaultVersion ∈ HttpServer.supported)
    (h : run c L s0 (.send m x :: os.map .other ++ [.answered a neg ev]) = some s) :
    Good c L x (neg.getD HttpServer.defaultVersion) [a] s ∧ s.last = .ok := by
  rw [List.cons_append, run] at h
  split at h
  · cases h
  · next s1 h1 =>
    have hw : Waiting x r { (StreamClient.init none : StreamClient.State M) with
        requests := [StreamClient.request (StreamClient.init none) .post none (some m)] } s1 := by
      simp only [step, h0.idle, if_true, send] at h1
      have hpost : HttpServer.post c s0.srv (postOf L s0.cl m) x =
          ({ s0.srv with
              sessions := AMap.insert s0.srv.sessions x ⟨false, none⟩
              posts := s0.srv.posts ++ [⟨none, some x, true, r⟩] }, .goesOn) := by
        have e1 : HttpServer.strOf (postOf L s0.cl m).sid = none := by simp [postOf, h0.cl, StreamClient.init, HttpServer.strOf]
        have e2 : HttpServer.strOf (postOf L s0.cl m).version = none := by
          simp [postOf, h0.cl, StreamClient.init, HttpServer.strOf]
        have e3 : HttpServer.validatePost (postOf L s0.cl m).contentType (postOf L s0.cl m).accept = none :=
          post_headers_pass
        have e4 : (postOf L s0.cl m).body = .init r := hm
        unfold HttpServer.post
        rw [e3, e4, e1, e2]
        simp [HttpServer.processInit, hst]
      rw [hpost] at h1
      simp only [Option.some.injEq] at h1
      subst h1
      refine ⟨⟨?_, h0.gets⟩, ?_, h0.bodies, h0.sender, ?_, ⟨_, rfl, by simp⟩⟩
      · intro j q hj hne
        simp only at hj hne
        by_cases hl : j < s0.srv.posts.length
        · rw [List.getElem?_append_left hl] at hj
          exact h0.posts q (List.mem_of_getElem? hj)
        · exfalso
          have : j = s0.srv.posts.length := by
            have := (List.getElem?_eq_some_iff.mp hj).1
            simp at this; omega
          exact hne (by rw [this])
      · simp only [h0.cl]; rfl
      · simp [AMap.contains, AMap.get_insert]
    rw [run_append] at h
    cases h2 : run c L s1 (os.map .other) with
    | none => rw [h2] at h; cases h
    | some s2 =>
      rw [h2] at h
      simp only [Option.bind_some, run] at h
      have hw2 := waiting_run c L x r _ os hos s1 s2 hw h2
      obtain ⟨i, hi, hq⟩ := hw2.mine
      have hcv := clean_supported _ hv
      generalize hvv : neg.getD HttpServer.defaultVersion = v at *
      have hproc : (HttpServer.process c s2.srv i a neg ev).2 = .reply 200 (some x) v (.here a) := by
        rw [HttpServer.process_eq c s2.srv i a neg ev _ hq]
        simp [HttpServer.buildResponse, HttpServer.versionHeader, hvv]
      have hent : AMap.get (HttpServer.process c s2.srv i a neg ev).1.sessions x = some ⟨true, some v⟩ := by
        rw [HttpServer.process_get c s2.srv i a neg ev x _ hq]
        simp [hw2.entry, hvv]
      have hposts := process_posts c s2.srv i a neg ev _ hq
      have hjs : asJson c none = true := by simp [asJson]
      split at h
      · cases h
      · next s3 h3 =>
        simp only [step, hi, answered, hq, hproc, hjs, if_true, List.append_nil] at h3
        rw [answer_json L hL s2.cl x v hx hcv a] at h3
        simp only [Option.some.injEq] at h3 h
        subst h3
        subst h
        refine ⟨⟨⟨?_, ?_⟩, ?_, ?_, rfl, rfl, hent, ?_, ?_, ?_, ?_, ?_, ?_⟩, rfl⟩
        · intro j q hj _
          simp only [hposts, List.getElem?_eraseIdx] at hj
          split at hj
          · apply hw2.quiet.posts j q hj
            rw [hi]; simp; omega
          · apply hw2.quiet.posts (j + 1) q hj
            rw [hi]; simp; omega
        · simp only [HttpServer.process_gets]; exact hw2.quiet.gets
        · simp only [hw2.cl]; intro st hst; cases hst
        · simp only [hw2.cl]; rfl
        · simp only [HttpServer.process_senders]; exact hw2.sender
        · intro i' hi'; cases hi'
        · simp only [hw2.bodies]; intro b hb; cases hb
        · simp [hw2.bodies]
        · simp [hw2.bodies, hw2.cl, StreamClient.init]
        · intro _; simp [hw2.bodies, hw2.cl, StreamClient.init]

/-- **C219**, part that holds. A new client initializes a session with id `x`, whatever others do meanwhile; then it
sends any messages, others going on, as long as nobody else uses its session and it opens no stream. Then at every
point: a request is passed on to the MCP server, a notification or a response is accepted, both within session `x`;
and every answer of the MCP server is received or being read by the client, once. Missing: streams
(`C219_stream_silent`), sessions that are gone (`C219_lost_session`). -/
theorem C219_served_partial (c : HttpServer.Config) (hst : c.stateful = true) (L : Link M) (hL : L.Ok) (x : Text)
    (hx : Clean x) (s0 s : Sys M) (h0 : Start x s0) (m : M) (r : Nat) (hm : L.body m = .init r)
    (os : List HttpServer.Op) (hos : ∀ o ∈ os, Stranger x o) (a : HttpServer.Msg) (neg : Option Text) (ev : Text)
    (hv : neg.getD HttpServer.defaultVersion ∈ HttpServer.supported) (rest : List (Op M))
    (hr : ∀ op ∈ rest, Polite x op)
    (h : run c L s0 (.send m x :: os.map .other ++ [.answered a neg ev] ++ rest) = some s) :
    s.cl.session = some x ∧ s.cl.version = some (neg.getD HttpServer.defaultVersion) ∧
    (s.cl.queue ++ s.bodies.map (fun b => L.msg b.2.2)).Perm ((a :: given rest).map L.msg) ∧
    (c.json = true → s.cl.queue = (a :: given rest).map L.msg) ∧
    (s.phase = .idle → ∀ m' n, ∃ s', step c L s (.send m' n) = some s' ∧
      (∀ r', L.body m' = .request r' →
        s'.phase = .posting s.srv.posts.length ∧ s'.srv.posts = s.srv.posts ++ [⟨some x, some x, false, r'⟩]) ∧
      ((∃ k, L.body m' = .notification k ∨ L.body m' = .response k) → s'.phase = .idle ∧ s'.last = .ok)) ∧
    (∀ i, s.phase = .posting i → ∀ a' neg' ev', ∃ s', step c L s (.answered a' neg' ev') = some s' ∧ s'.last = .ok) ∧
    (∀ j b, s.bodies[j]? = some b → ∃ s', step c L s (.arrive j) = some s' ∧ s'.bodies = s.bodies.eraseIdx j ∧
      s'.cl.queue = s.cl.queue ++ [L.msg b.2.2]) := by
  rw [run_append] at h
  cases h1 : run c L s0 (.send m x :: os.map .other ++ [.answered a neg ev]) with
  | none => rw [h1] at h; cases h
  | some s1 =>
    rw [h1] at h
    simp only [Option.bind_some] at h
    have hg1 := (start_good c hst L hL x hx s0 s1 h0 m r hm os hos a neg ev hv h1).1
    have hg := good_run c hst L hL x _ hx hv rest [a] s1 s hg1 hr h
    rw [List.singleton_append] at hg
    refine ⟨hg.session, hg.version, hg.recv, fun hj => (hg.json hj).2, ?_, ?_, ?_⟩
    · intro hid m' n
      have hp := post_good c hst L x _ hx hv _ s hg m' n
      cases hb : L.body m' with
      | request r' =>
        rw [hb] at hp
        simp only at hp
        refine ⟨_, by simp only [step, hid, if_true, send, hp]; rfl, ?_, ?_⟩
        · intro r'' h'; cases h'; exact ⟨rfl, rfl⟩
        · rintro ⟨k, h' | h'⟩ <;> cases h'
      | notification k =>
        rw [hb] at hp
        simp only at hp
        refine ⟨_, by simp only [step, hid, if_true, send, hp]; rfl, ?_, ?_⟩
        · intro r'' h'; cases h'
        · intro _; exact ⟨rfl, plain_ok L (StreamClient.step L.codec s.cl (.post m' true)).1⟩
      | response k =>
        rw [hb] at hp
        simp only at hp
        refine ⟨_, by simp only [step, hid, if_true, send, hp]; rfl, ?_, ?_⟩
        · intro r'' h'; cases h'
        · intro _; exact ⟨rfl, plain_ok L (StreamClient.step L.codec s.cl (.post m' true)).1⟩
      | invalid =>
        rw [hb] at hp
        simp only at hp
        refine ⟨_, by simp only [step, hid, if_true, send, hp]; rfl, ?_, ?_⟩
        · intro r'' h'; cases h'
        · rintro ⟨k, h' | h'⟩ <;> cases h'
      | init r' =>
        rw [hb] at hp
        simp only at hp
        refine ⟨_, by simp only [step, hid, if_true, send, hp]; rfl, ?_, ?_⟩
        · intro r'' h'; cases h'
        · rintro ⟨k, h' | h'⟩ <;> cases h'
    · intro i hi a' neg' ev'
      obtain ⟨r', hr'⟩ := hg.mine i hi
      have hp := (process_good c L x _ _ s hg i r' hr' a' neg' ev').1
      have hcv := clean_supported _ hv
      refine ⟨_, by simp only [step, hi, answered, hr', hp]; rfl, ?_⟩
      simp only
      cases hj : asJson c (some x) with
      | true => rw [answer_json L hL s.cl x _ hx hcv a']
      | false => rw [answer_stream L s.cl x _ hx hcv a']
    · intro j b hb
      obtain ⟨key, ev', m'⟩ := b
      have ht := hg.tasks _ (List.mem_of_getElem? hb)
      refine ⟨_, by simp only [step, hb]; rfl, rfl, ?_⟩
      exact (read_event L hL s.cl key ev' m' ht.1 ht.2).1

end Verif.HttpPair
