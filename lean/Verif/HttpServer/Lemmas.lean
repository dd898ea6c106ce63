import Verif.HttpServer.Model
import Verif.Common.ListExtra

/-
Auxiliary facts about the HTTP server model: what each step does to the maps.
-/

namespace Verif.HttpServer

theorem run_nil (c : Config) (s : State) : run c s [] = s := rfl

theorem run_append (c : Config) (s : State) (a b : List Op) : run c s (a ++ b) = run c (run c s a) b := by
  simp [run, List.foldl_append]

theorem run_cons (c : Config) (s : State) (op : Op) (h : List Op) :
    run c s (op :: h) = run c (step c s op).1 h := rfl

theorem sendTo_sessions (s : State) (k : Nat) (m : Msg) : (sendTo s k m).sessions = s.sessions := by
  unfold sendTo; split <;> (try split) <;> rfl

theorem sendTo_senders (s : State) (k : Nat) (m : Msg) : (sendTo s k m).senders = s.senders := by
  unfold sendTo; split <;> (try split) <;> rfl

theorem sendTo_gets (s : State) (k : Nat) (m : Msg) : (sendTo s k m).gets = s.gets := by
  unfold sendTo; split <;> (try split) <;> rfl

theorem sendTo_posts (s : State) (k : Nat) (m : Msg) : (sendTo s k m).posts = s.posts := by
  unfold sendTo; split <;> (try split) <;> rfl

theorem sendTo_handled (s : State) (k : Nat) (m : Msg) : (sendTo s k m).handled = s.handled := by
  unfold sendTo; split <;> (try split) <;> rfl

theorem build_sessions (c : Config) (s : State) (sid : Option Text) (m : Msg) :
    (buildResponse c s sid m).1.sessions = s.sessions := by
  unfold buildResponse; split; · rfl
  split; · rfl
  split; · exact sendTo_sessions ..
  · rfl

theorem build_senders (c : Config) (s : State) (sid : Option Text) (m : Msg) :
    (buildResponse c s sid m).1.senders = s.senders := by
  unfold buildResponse; split; · rfl
  split; · rfl
  split; · exact sendTo_senders ..
  · rfl

theorem build_gets (c : Config) (s : State) (sid : Option Text) (m : Msg) :
    (buildResponse c s sid m).1.gets = s.gets := by
  unfold buildResponse; split; · rfl
  split; · rfl
  split; · exact sendTo_gets ..
  · rfl

theorem build_posts (c : Config) (s : State) (sid : Option Text) (m : Msg) :
    (buildResponse c s sid m).1.posts = s.posts := by
  unfold buildResponse; split; · rfl
  split; · rfl
  split; · exact sendTo_posts ..
  · rfl

theorem build_handled (c : Config) (s : State) (sid : Option Text) (m : Msg) :
    (buildResponse c s sid m).1.handled = s.handled := by
  unfold buildResponse; split; · rfl
  split; · rfl
  split; · exact sendTo_handled ..
  · rfl

theorem update_contains (s : State) (sid neg : Option Text) (x : Text) :
    AMap.contains (updateAfterInit s sid neg).sessions x = AMap.contains s.sessions x := by
  unfold updateAfterInit
  split; · rfl
  split; · rfl
  · next sid' info hg =>
    simp only [AMap.contains, AMap.get_insert]
    split
    · next h => subst h; simp [hg]
    · rfl

theorem update_senders (s : State) (sid neg : Option Text) : (updateAfterInit s sid neg).senders = s.senders := by
  unfold updateAfterInit; split <;> (try split) <;> rfl

theorem update_gets (s : State) (sid neg : Option Text) : (updateAfterInit s sid neg).gets = s.gets := by
  unfold updateAfterInit; split <;> (try split) <;> rfl

theorem update_posts (s : State) (sid neg : Option Text) : (updateAfterInit s sid neg).posts = s.posts := by
  unfold updateAfterInit; split <;> (try split) <;> rfl

theorem update_handled (s : State) (sid neg : Option Text) : (updateAfterInit s sid neg).handled = s.handled := by
  unfold updateAfterInit; split <;> (try split) <;> rfl

theorem update_streams (s : State) (sid neg : Option Text) : (updateAfterInit s sid neg).streams = s.streams := by
  unfold updateAfterInit; split <;> (try split) <;> rfl

/-- The state in which `build_response` runs. (Specification: no counterpart in the code.) -/
def beforeBuild (c : Config) (s : State) (i : Nat) (p : Pending) (resp : Msg) (neg : Option Text) (ev : Text) :
    State :=
  let s := { s with posts := s.posts.eraseIdx i, handled := s.handled ++ [(p.clientSid, p.req)] }
  let s := if p.isInit then updateAfterInit s p.respSid neg else s
  if c.store then
    match p.respSid with
    | some sid => { s with store := storeEvent s.store sid ev resp }
    | none => s
  else s

theorem process_eq (c : Config) (s : State) (i : Nat) (resp : Msg) (neg : Option Text) (ev : Text) (p : Pending)
    (h : s.posts[i]? = some p) :
    process c s i resp neg ev =
      ((buildResponse c (beforeBuild c s i p resp neg ev) p.clientSid resp).1,
        .reply (buildResponse c (beforeBuild c s i p resp neg ev) p.clientSid resp).2.1 p.respSid
          (versionHeader (buildResponse c (beforeBuild c s i p resp neg ev) p.clientSid resp).1 p neg)
          (buildResponse c (beforeBuild c s i p resp neg ev) p.clientSid resp).2.2) := by
  unfold process
  rw [h]
  rfl

theorem before_contains (c : Config) (s : State) (i : Nat) (p : Pending) (resp : Msg) (neg : Option Text)
    (ev x : Text) :
    AMap.contains (beforeBuild c s i p resp neg ev).sessions x = AMap.contains s.sessions x := by
  unfold beforeBuild
  cases p.isInit <;> cases c.store <;> cases p.respSid <;> simp [update_contains]

theorem before_senders (c : Config) (s : State) (i : Nat) (p : Pending) (resp : Msg) (neg : Option Text)
    (ev : Text) : (beforeBuild c s i p resp neg ev).senders = s.senders := by
  unfold beforeBuild
  cases p.isInit <;> cases c.store <;> cases p.respSid <;> simp [update_senders]

theorem before_gets (c : Config) (s : State) (i : Nat) (p : Pending) (resp : Msg) (neg : Option Text)
    (ev : Text) : (beforeBuild c s i p resp neg ev).gets = s.gets := by
  unfold beforeBuild
  cases p.isInit <;> cases c.store <;> cases p.respSid <;> simp [update_gets]

theorem before_streams (c : Config) (s : State) (i : Nat) (p : Pending) (resp : Msg) (neg : Option Text)
    (ev : Text) : (beforeBuild c s i p resp neg ev).streams = s.streams := by
  unfold beforeBuild
  cases p.isInit <;> cases c.store <;> cases p.respSid <;> simp [update_streams]

theorem before_posts (c : Config) (s : State) (i : Nat) (p : Pending) (resp : Msg) (neg : Option Text)
    (ev : Text) : (beforeBuild c s i p resp neg ev).posts = s.posts.eraseIdx i := by
  unfold beforeBuild
  cases p.isInit <;> cases c.store <;> cases p.respSid <;> simp [update_posts]

theorem before_handled (c : Config) (s : State) (i : Nat) (p : Pending) (resp : Msg) (neg : Option Text)
    (ev : Text) : (beforeBuild c s i p resp neg ev).handled = s.handled ++ [(p.clientSid, p.req)] := by
  unfold beforeBuild
  cases p.isInit <;> cases c.store <;> cases p.respSid <;> simp [update_handled]

theorem process_contains (c : Config) (s : State) (i : Nat) (resp : Msg) (neg : Option Text) (ev x : Text) :
    AMap.contains (process c s i resp neg ev).1.sessions x = AMap.contains s.sessions x := by
  cases h : s.posts[i]? with
  | none => unfold process; rw [h]
  | some p => rw [process_eq c s i resp neg ev p h]; simp only [build_sessions, before_contains]

theorem process_senders (c : Config) (s : State) (i : Nat) (resp : Msg) (neg : Option Text) (ev : Text) :
    (process c s i resp neg ev).1.senders = s.senders := by
  cases h : s.posts[i]? with
  | none => unfold process; rw [h]
  | some p => rw [process_eq c s i resp neg ev p h]; simp only [build_senders, before_senders]

theorem process_gets (c : Config) (s : State) (i : Nat) (resp : Msg) (neg : Option Text) (ev : Text) :
    (process c s i resp neg ev).1.gets = s.gets := by
  cases h : s.posts[i]? with
  | none => unfold process; rw [h]
  | some p => rw [process_eq c s i resp neg ev p h]; simp only [build_gets, before_gets]

theorem processInit_senders (c : Config) (s : State) (sid v : Option Text) (n : Text) :
    (processInit c s sid v n).1.senders = s.senders := by
  unfold processInit; repeat (first | rfl | split)

theorem processInit_gets (c : Config) (s : State) (sid v : Option Text) (n : Text) :
    (processInit c s sid v n).1.gets = s.gets := by
  unfold processInit; repeat (first | rfl | split)

theorem processInit_posts (c : Config) (s : State) (sid v : Option Text) (n : Text) :
    (processInit c s sid v n).1.posts = s.posts := by
  unfold processInit; repeat (first | rfl | split)

theorem processInit_handled (c : Config) (s : State) (sid v : Option Text) (n : Text) :
    (processInit c s sid v n).1.handled = s.handled := by
  unfold processInit; repeat (first | rfl | split)

/-- A post changes nothing, or appends a pending request; an accepted initialization may add a session. -/
theorem post_cases (c : Config) (s : State) (p : Post) (n : Text) :
    (∃ code, post c s p n = (s, .status code)) ∨
      (∃ req respSid, post c s p n =
        ({ s with posts := s.posts ++ [⟨strOf p.sid, respSid, false, req⟩] }, .goesOn) ∧ p.body = .request req) ∨
      (∃ req s' respSid, processInit c s (strOf p.sid) (strOf p.version) n = (s', .ok respSid) ∧
        p.body = .init req ∧ validatePost p.contentType p.accept = none ∧
        post c s p n = ({ s' with posts := s'.posts ++ [⟨strOf p.sid, respSid, true, req⟩] }, .goesOn)) := by
  unfold post
  cases hv : validatePost p.contentType p.accept with
  | some code => exact .inl ⟨code, rfl⟩
  | none =>
    cases hb : p.body with
    | invalid => exact .inl ⟨400, rfl⟩
    | init req =>
      cases hp : processInit c s (strOf p.sid) (strOf p.version) n with
      | mk s' r =>
        cases r with
        | error code =>
          refine .inl ⟨code, ?_⟩
          have : s' = s := by
            unfold processInit at hp
            repeat (first | (cases hp <;> rfl) | split at hp)
          subst this; rfl
        | ok respSid => exact .inr (.inr ⟨req, s', respSid, rfl, rfl, rfl, rfl⟩)
    | request req =>
      cases hp : validateNonInit c s (strOf p.sid) with
      | error code => exact .inl ⟨code, rfl⟩
      | ok respSid =>
        cases hvv : validateVersion c s (strOf p.sid) (strOf p.version) with
        | some code => exact .inl ⟨code, rfl⟩
        | none => exact .inr (.inl ⟨req, respSid, rfl, rfl⟩)
    | notification k =>
      cases hp : validateNonInit c s (strOf p.sid) with
      | error code => exact .inl ⟨code, rfl⟩
      | ok respSid =>
        cases hvv : validateVersion c s (strOf p.sid) (strOf p.version) with
        | some code => exact .inl ⟨code, rfl⟩
        | none => exact .inl ⟨202, rfl⟩
    | response k =>
      cases hp : validateNonInit c s (strOf p.sid) with
      | error code => exact .inl ⟨code, rfl⟩
      | ok respSid =>
        cases hvv : validateVersion c s (strOf p.sid) (strOf p.version) with
        | some code => exact .inl ⟨code, rfl⟩
        | none => exact .inl ⟨202, rfl⟩

theorem post_senders (c : Config) (s : State) (p : Post) (n : Text) :
    (post c s p n).1.senders = s.senders := by
  rcases post_cases c s p n with ⟨code, h⟩ | ⟨req, r, h, _⟩ | ⟨req, s', r, hp, _, _, h⟩
  · rw [h]
  · rw [h]
  · rw [h]; have := processInit_senders c s (strOf p.sid) (strOf p.version) n; rw [hp] at this; exact this

theorem post_gets (c : Config) (s : State) (p : Post) (n : Text) :
    (post c s p n).1.gets = s.gets := by
  rcases post_cases c s p n with ⟨code, h⟩ | ⟨req, r, h, _⟩ | ⟨req, s', r, hp, _, _, h⟩
  · rw [h]
  · rw [h]
  · rw [h]; have := processInit_gets c s (strOf p.sid) (strOf p.version) n; rw [hp] at this; exact this

theorem post_handled (c : Config) (s : State) (p : Post) (n : Text) :
    (post c s p n).1.handled = s.handled := by
  rcases post_cases c s p n with ⟨code, h⟩ | ⟨req, r, h, _⟩ | ⟨req, s', r, hp, _, _, h⟩
  · rw [h]
  · rw [h]
  · rw [h]; have := processInit_handled c s (strOf p.sid) (strOf p.version) n; rw [hp] at this; exact this

theorem getStart_cases (c : Config) (s : State) (a sid l : Option Hdr) (n : Text) :
    (∃ code, getStart c s a sid l n = (s, .status code)) ∨
      (∃ t, strOf sid = some t ∧ (c.stateful = true → AMap.contains s.sessions t = true) ∧
        getStart c s a sid l n = ({ s with gets := s.gets ++ [⟨t, false, strOf l⟩] }, .goesOn)) ∨
      (strOf sid = none ∧ c.stateful = true ∧ validateGet a = none ∧
        getStart c s a sid l n = ({ s with
            sessions := AMap.insert s.sessions n ⟨true, none⟩
            gets := s.gets ++ [⟨n, false, strOf l⟩] }, .goesOn)) := by
  unfold getStart
  cases hv : validateGet a with
  | some code => exact .inl ⟨code, rfl⟩
  | none =>
    cases hs : strOf sid with
    | some t =>
      cases hc : (c.stateful && !AMap.contains s.sessions t) with
      | true => exact .inl ⟨404, by simp [hc]⟩
      | false =>
        refine .inr (.inl ⟨t, rfl, ?_, by simp [hc]⟩)
        intro hst; simpa [hst] using hc
    | none =>
      cases hst : c.stateful with
      | true => exact .inr (.inr ⟨rfl, rfl, rfl, by simp⟩)
      | false => exact .inl ⟨405, by simp⟩

theorem deliver_frame (c : Config) (s : State) (k : Nat) (ev : Text) :
    (deliver c s k ev).sessions = s.sessions ∧ (deliver c s k ev).senders = s.senders ∧
      (deliver c s k ev).gets = s.gets ∧ (deliver c s k ev).posts = s.posts ∧
      (deliver c s k ev).handled = s.handled := by
  unfold deliver; split <;> simp

theorem disconnect_frame (s : State) (k : Nat) :
    (disconnect s k).sessions = s.sessions ∧ (disconnect s k).senders = s.senders ∧
      (disconnect s k).gets = s.gets ∧ (disconnect s k).posts = s.posts ∧
      (disconnect s k).handled = s.handled := by
  unfold disconnect; split <;> simp

theorem getCheck_frame (s : State) (i : Nat) :
    (getCheck s i).1.sessions = s.sessions ∧ (getCheck s i).1.senders = s.senders ∧
      (getCheck s i).1.posts = s.posts ∧ (getCheck s i).1.handled = s.handled ∧
      (getCheck s i).1.streams = s.streams := by
  unfold getCheck; split
  · split <;> simp
  · simp

theorem getOpen_frame (c : Config) (s : State) (i : Nat) :
    (getOpen c s i).1.sessions = s.sessions ∧
      (getOpen c s i).1.posts = s.posts ∧ (getOpen c s i).1.handled = s.handled := by
  unfold getOpen; split <;> simp

theorem delete_frame (c : Config) (s : State) (sid : Option Hdr) :
    (delete c s sid).1.gets = s.gets ∧
      (delete c s sid).1.posts = s.posts ∧ (delete c s sid).1.handled = s.handled := by
  unfold delete; split; · simp
  split <;> simp

end Verif.HttpServer
