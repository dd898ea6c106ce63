import Verif.StreamClient.Model
import Verif.Sse.Props

/-
Properties of the client's streamable HTTP transport: C73, C122, C123, C124, C125.
-/

namespace Verif.StreamClient

open Verif Verif.Sse

variable {M : Type}

/-! ### C73: what a send puts on the wire -/

/-- The messages put on the wire, in order. (Specification: no counterpart in the code.) -/
def written (s : State M) : List M := s.requests.filterMap (·.body)

/-- The requests with a method. (Specification: no counterpart in the code.) -/
def sentBy (k : Method) (s : State M) : List (Req M) := s.requests.filter (fun r => decide (r.method = k))

theorem onEvent_requests (C : Codec M) (s : State M) (e : Event) : (onEvent C s e).requests = s.requests := by
  unfold onEvent
  cases e.id <;> simp only <;> split <;> (try split) <;> rfl

theorem onEvents_requests (C : Codec M) (es : List Event) (s : State M) : (es.foldl (onEvent C) s).requests = s.requests := by
  induction es generalizing s with
  | nil => rfl
  | cons e es ih => rw [List.foldl_cons, ih, onEvent_requests]

theorem onBody_requests (C : Codec M) (s : State M) (b : Text) : (onBody C s b).requests = s.requests := by
  unfold onBody
  cases feed {} b with
  | none => rfl
  | some r => exact onEvents_requests C _ s

theorem onAnswer_requests (C : Codec M) (s : State M) (r : Resp) : (onAnswer C s r).1.requests = s.requests := by
  unfold onAnswer
  simp only
  repeat' split
  all_goals rfl

theorem onStreamAnswer_requests (s : State M) (r : Resp) : (onStreamAnswer s r).1.requests = s.requests := by
  unfold onStreamAnswer
  repeat' split
  all_goals rfl

/-- **C73**. A plain send puts its message on the wire exactly once if an access token was had, and not at all
otherwise, whatever the server answers. -/
theorem C73_streamable_once (C : Codec M) (s : State M) (m : M) (r : Option Resp) :
    written (send C s m none true r).1 = written s ++ [m] ∧
    written (send C s m none false r).1 = written s ∧ (send C s m none false r).2 = .auth := by
  refine ⟨?_, rfl, rfl⟩
  simp only [send, step, if_true, written]
  cases r with
  | none => simp [request]
  | some r => simp [onAnswer_requests, request]

/-- **C73**. When a plain send returns `Ok`, exactly. -/
theorem C73_streamable_ok_iff (C : Codec M) (s : State M) (m : M) (auth : Bool) (r : Option Resp) :
    (send C s m none auth r).2 = .ok ↔ auth = true ∧ ∃ a, r = some a ∧ 200 ≤ a.status ∧ a.status < 300 ∧
      ((Connect.hasText "application/json".toList a.contentType = true ∧ ∃ b, a.body = some b ∧ (C.batch b ≠ none ∨ C.one b ≠ none)) ∨
       (Connect.hasText "application/json".toList a.contentType = false ∧
        (Connect.hasText "text/event-stream".toList a.contentType = true ∨ a.status = 202))) := by
  rw [show "application/json".toList = kJson from rfl, show "text/event-stream".toList = kStream from rfl]
  cases auth with
  | false => simp [send, step]
  | true =>
    cases r with
    | none => simp [send, step]
    | some a =>
      simp only [send, step, if_true, Option.some.injEq, exists_eq_left', true_and]
      unfold onAnswer
      by_cases hs : 200 ≤ a.status ∧ a.status < 300
      · have h1 : a.success = true := by simpa [Resp.success] using hs
        simp only [h1, Bool.true_eq_false, if_false, hs.1, hs.2, true_and]
        cases hj : Connect.hasText kJson a.contentType with
        | true =>
          simp only [if_true, true_and, Bool.true_eq_false, false_and, or_false]
          cases a.body with
          | none => simp
          | some b =>
            simp only [Option.some.injEq, exists_eq_left']
            cases C.batch b with
            | some ms => simp
            | none => cases C.one b <;> simp
        | false =>
          simp only [Bool.false_eq_true, if_false, false_and, false_or, true_and]
          cases hk : Connect.hasText kStream a.contentType with
          | true => simp
          | false =>
            simp only [Bool.false_eq_true, if_false, false_or]
            by_cases h2 : a.status = 202
            · simp [h2]
            · simp [h2]
      · have h1 : a.success = false := by simpa [Resp.success] using hs
        simp only [h1, if_true]
        constructor
        · intro h; cases h
        · rintro ⟨h2, h3, -⟩; exact absurd ⟨h2, h3⟩ hs

/-- **C73**. So `Ok` of a plain send means written exactly once. Missing from the property: a send with a
resumption token (`C73_resumption_lost`); and an error does not mean it was not written
(`C73_error_though_written`). -/
theorem C73_streamable_partial (C : Codec M) (s : State M) (m : M) (auth : Bool) (r : Option Resp)
    (h : (send C s m none auth r).2 = .ok) : written (send C s m none auth r).1 = written s ++ [m] := by
  obtain ⟨rfl, -⟩ := (C73_streamable_ok_iff C s m auth r).mp h
  exact (C73_streamable_once C s m r).1

/-- **C73** fails: a send with a resumption token never writes its message, and yet returns `Ok` whenever the
server opens the stream or does not support streams. -/
theorem C73_resumption_lost (C : Codec M) (s : State M) (m : M) (token : Text) (auth : Bool) (r : Option Resp) :
    written (send C s m (some token) auth r).1 = written s ∧
    ∀ a, auth = true → r = some a → (a.status = 405 ∨ a.success = true) → (send C s m (some token) auth r).2 = .ok := by
  constructor
  · cases auth with
    | false => rfl
    | true =>
      simp only [send, step, if_true, written]
      cases r with
      | none => simp [request, abort]
      | some a => simp [onStreamAnswer_requests, request, abort]
  · rintro a rfl rfl h
    simp only [send, step, if_true, onStreamAnswer]
    rcases h with h | h
    · simp [h]
    · by_cases h4 : a.status = 405
      · simp [h4]
      · simp [h4, h]

/-- **C73**. An error of the server comes after the message was written. -/
theorem C73_error_though_written (C : Codec M) (s : State M) (m : M) (a : Resp) (h : 300 ≤ a.status) :
    (send C s m none true (some a)).2 = .status a.status ∧
    written (send C s m none true (some a)).1 = written s ++ [m] := by
  refine ⟨?_, (C73_streamable_once C s m (some a)).1⟩
  have : a.success = false := by simp [Resp.success]; omega
  simp [send, step, onAnswer, this]

/-! ### C122: session and version headers -/

/-- The session id in force after a history: the last one the server assigned or the program set, none after a
close. (Specification: no counterpart in the code.) -/
def sessionAfter (s0 : Option Text) : List (Op M) → Option Text
  | [] => s0
  | .setSession x :: ops => sessionAfter x ops
  | .answer (some r) :: ops => sessionAfter (r.session.or s0) ops
  | .streamAnswer (some r) :: ops => sessionAfter (if r.success then r.session.or s0 else s0) ops
  | .close true :: ops => sessionAfter none ops
  | _ :: ops => sessionAfter s0 ops

/-- The protocol version in force after a history. (Specification: no counterpart in the code.) -/
def versionAfter (v0 : Option Text) : List (Op M) → Option Text
  | [] => v0
  | .setVersion x :: ops => versionAfter x ops
  | .answer (some r) :: ops => versionAfter (r.version.or v0) ops
  | .streamAnswer (some r) :: ops => versionAfter (if r.success then r.version.or v0 else v0) ops
  | _ :: ops => versionAfter v0 ops

theorem onEvent_headers (C : Codec M) (s : State M) (e : Event) :
    (onEvent C s e).session = s.session ∧ (onEvent C s e).version = s.version := by
  unfold onEvent
  cases e.id <;> simp only <;> split <;> (try split) <;> exact ⟨rfl, rfl⟩

theorem onBody_headers (C : Codec M) (s : State M) (b : Text) :
    (onBody C s b).session = s.session ∧ (onBody C s b).version = s.version := by
  unfold onBody
  cases feed {} b with
  | none => exact ⟨rfl, rfl⟩
  | some r =>
    simp only
    generalize r.2 = es
    induction es generalizing s with
    | nil => exact ⟨rfl, rfl⟩
    | cons e es ih =>
      rw [List.foldl_cons]
      have h1 := ih (onEvent C s e)
      have h2 := onEvent_headers C s e
      exact ⟨h1.1.trans h2.1, h1.2.trans h2.2⟩

theorem onAnswer_headers (C : Codec M) (s : State M) (r : Resp) :
    (onAnswer C s r).1.session = r.session.or s.session ∧ (onAnswer C s r).1.version = r.version.or s.version := by
  unfold onAnswer
  simp only
  repeat' split
  all_goals exact ⟨rfl, rfl⟩

theorem onStreamAnswer_headers (s : State M) (r : Resp) :
    (onStreamAnswer s r).1.session = (if r.success then r.session.or s.session else s.session) ∧
    (onStreamAnswer s r).1.version = (if r.success then r.version.or s.version else s.version) := by
  unfold onStreamAnswer
  split
  · next h =>
    have : r.success = false := by simp [Resp.success, h]
    simp [this]
  · split
    · next h => simp [h]
    · next h =>
      have : r.success = true := by simpa using h
      simp only [this, if_true]
      exact ⟨rfl, rfl⟩

theorem run_headers (C : Codec M) (ops : List (Op M)) (s : State M) :
    (run C s ops).session = sessionAfter s.session ops ∧ (run C s ops).version = versionAfter s.version ops := by
  induction ops generalizing s with
  | nil => exact ⟨rfl, rfl⟩
  | cons op ops ih =>
    simp only [run]
    rw [(ih _).1, (ih _).2]
    cases op with
    | setSession x => exact ⟨rfl, rfl⟩
    | setVersion x => exact ⟨rfl, rfl⟩
    | post m auth => cases auth <;> exact ⟨rfl, rfl⟩
    | answer r =>
      cases r with
      | none => exact ⟨rfl, rfl⟩
      | some r =>
        simp only [step, (onAnswer_headers C s r).1, (onAnswer_headers C s r).2]
        exact ⟨rfl, rfl⟩
    | «open» t auth => cases auth <;> exact ⟨rfl, rfl⟩
    | streamAnswer r =>
      cases r with
      | none => exact ⟨rfl, rfl⟩
      | some r =>
        simp only [step, (onStreamAnswer_headers s r).1, (onStreamAnswer_headers s r).2]
        exact ⟨rfl, rfl⟩
    | chunk k t => exact ⟨rfl, rfl⟩
    | finish k =>
      simp only [step]
      split
      · exact ⟨rfl, rfl⟩
      · simp only [(onBody_headers C _ _).1, (onBody_headers C _ _).2]; exact ⟨rfl, rfl⟩
    | broken k =>
      simp only [step]
      split
      · exact ⟨rfl, rfl⟩
      · simp only [(onBody_headers C _ _).1, (onBody_headers C _ _).2]; exact ⟨rfl, rfl⟩
    | close auth =>
      simp only [step, abort]
      cases auth with
      | false =>
        cases hs : s.session with
        | none => exact ⟨by simp [sessionAfter, hs], rfl⟩
        | some x => simp [sessionAfter, versionAfter, hs]
      | true =>
        cases hs : s.session with
        | none => exact ⟨by simp [sessionAfter, hs], rfl⟩
        | some x => simp [sessionAfter, versionAfter]

theorem run_append (C : Codec M) (s : State M) (a b : List (Op M)) : run C s (a ++ b) = run C (run C s a) b := by
  induction a generalizing s with
  | nil => rfl
  | cons op a ih => exact ih _

/-- **C122**. After every history, the next request carries the session id and the version in force. -/
theorem C122_headers (C : Codec M) (s0 : Option Text) (ops : List (Op M)) (m : M) (token : Option Text) :
    (run C (init s0) (ops ++ [.post m true])).requests.getLast? =
      some ⟨.post, sessionAfter s0 ops, versionAfter none ops, none, some m⟩ ∧
    (run C (init s0) (ops ++ [.open token true])).requests.getLast? =
      some ⟨.get, sessionAfter s0 ops, versionAfter none ops, token, none⟩ := by
  have h := run_headers C ops (init s0)
  have h1 : (init (M := M) s0).session = s0 := rfl
  have h2 : (init (M := M) s0).version = none := rfl
  rw [h1, h2] at h
  simp only [run_append, run, step, if_true, request, abort, h.1, h.2]
  simp

/-- The step leaves the session alone. (Specification: no counterpart in the code.) -/
def Keeps (x : Text) : Op M → Prop
  | .setSession y => y = some x
  | .answer (some r) => r.session = none ∨ r.session = some x
  | .streamAnswer (some r) => r.session = none ∨ r.session = some x
  | .close true => False
  | _ => True

theorem keeps_session (x : Text) (ops : List (Op M)) (h : ∀ op ∈ ops, Keeps x op) : sessionAfter (some x) ops = some x := by
  induction ops with
  | nil => rfl
  | cons op ops ih =>
    have hop := h op (by simp)
    have ih := ih (fun o ho => h o (by simp [ho]))
    cases op with
    | setSession y => simp only [Keeps] at hop; subst hop; exact ih
    | answer r =>
      cases r with
      | none => exact ih
      | some r =>
        simp only [Keeps] at hop
        simp only [sessionAfter]
        rcases hop with hop | hop <;> rw [hop] <;> exact ih
    | streamAnswer r =>
      cases r with
      | none => exact ih
      | some r =>
        simp only [Keeps] at hop
        simp only [sessionAfter]
        split
        · rcases hop with hop | hop <;> rw [hop] <;> exact ih
        · exact ih
    | close a =>
      cases a with
      | true => exact hop.elim
      | false => exact ih
    | _ => exact ih

/-- **C122**. Once the server has assigned a session, every later request names it, until the program or the server
changes it or the transport is closed. -/
theorem C122_echo (C : Codec M) (s0 : Option Text) (pre ops : List (Op M)) (r : Resp) (x : Text)
    (hr : r.session = some x) (h : ∀ op ∈ ops, Keeps x op) (m : M) :
    ((run C (init s0) (pre ++ .answer (some r) :: ops ++ [.post m true])).requests.getLast?).map (·.session) = some (some x) := by
  rw [(C122_headers C s0 (pre ++ .answer (some r) :: ops) m none).1]
  simp only [Option.map_some, Option.some.injEq]
  have key : ∀ (pre : List (Op M)) s0, sessionAfter s0 (pre ++ .answer (some r) :: ops) = some x := by
    intro pre
    induction pre with
    | nil => intro s0; simp only [List.nil_append, sessionAfter, hr]; exact keeps_session x ops h
    | cons op pre ih =>
      intro s0
      cases op with
      | answer a => cases a <;> exact ih _
      | streamAnswer a => cases a <;> exact ih _
      | close a => cases a <;> exact ih _
      | _ => exact ih _
  exact key pre s0

/-- The answer of a server that does not know the session. (Specification: no counterpart in the code.) -/
def gone : Resp := ⟨404, none, none, [], some []⟩

/-- **C122** fails to recover: however often the server answers that it does not know the session, every message is
sent with the same session again, and refused. -/
theorem C122_stale_forever (C : Codec M) (x : Text) (ms : List M) (m : M) :
    let s := run C (init (some x)) (ms.flatMap (fun n => [.post n true, .answer (some gone)]))
    (send C s m none true (some gone)).2 = .status 404 ∧
    ((send C s m none true (some gone)).1.requests.getLast?).map (·.session) = some (some x) := by
  intro s
  have hs : s.session = some x := by
    have := (run_headers C (ms.flatMap (fun n => [.post n true, .answer (some gone)])) (init (some x))).1
    rw [this]
    apply keeps_session
    intro op hop
    obtain ⟨n, -, hop⟩ := List.mem_flatMap.mp hop
    simp at hop
    rcases hop with rfl | rfl
    · trivial
    · exact Or.inl rfl
  refine ⟨rfl, ?_⟩
  simp [send, step, onAnswer_requests, request, hs]

/-! ### C123: what is received -/

/-- The messages of an event stream: the readable data of its events without type or of type "message".
(Specification: no counterpart in the code.) -/
def messages (C : Codec M) (text : Text) : List M :=
  match feed {} text with
  | none => []
  | some (_, es) => es.filterMap (fun e => if e.event = some kMessage ∨ e.event = none then C.one e.data else none)

theorem onEvent_queue (C : Codec M) (s : State M) (e : Event) : (onEvent C s e).queue =
    s.queue ++ (if e.event = some kMessage ∨ e.event = none then C.one e.data else none).toList := by
  unfold onEvent
  cases e.id <;> simp only <;> split <;> (try split) <;> simp_all

theorem onBody_queue (C : Codec M) (s : State M) (b : Text) : (onBody C s b).queue = s.queue ++ messages C b := by
  unfold onBody messages
  cases feed {} b with
  | none => simp
  | some r =>
    simp only
    generalize r.2 = es
    induction es generalizing s with
    | nil => simp
    | cons e es ih =>
      rw [List.foldl_cons, ih, onEvent_queue, List.filterMap_cons, List.append_assoc]
      congr 1
      cases (if e.event = some kMessage ∨ e.event = none then C.one e.data else none) <;> rfl

/-- The text that arrives on a stream in a history. (Specification: no counterpart in the code.) -/
def arrived (k : Nat) : List (Op M) → Text
  | [] => []
  | .chunk j t :: ops => (if j = k then t else []) ++ arrived k ops
  | _ :: ops => arrived k ops

/-- The stream `k` is open with this text received, and it is not the stream the next `open` or `close` aborts
(unless `mine`). (Specification: no counterpart in the code.) -/
structure Has (k : Nat) (t : Text) (s : State M) : Prop where
  find : s.streams.find? (fun x => x.key == k) = some ⟨k, t⟩
  lt : k < s.nextKey
  handle : s.handle ≠ some k

/-- The step does not end the stream `k`. (Specification: no counterpart in the code.) -/
def Spares (k : Nat) : Op M → Prop
  | .finish j => j ≠ k
  | .broken j => j ≠ k
  | _ => True

theorem onEvent_streams (C : Codec M) (s : State M) (e : Event) :
    (onEvent C s e).streams = s.streams ∧ (onEvent C s e).nextKey = s.nextKey ∧ (onEvent C s e).handle = s.handle := by
  unfold onEvent
  cases e.id <;> simp only <;> split <;> (try split) <;> exact ⟨rfl, rfl, rfl⟩

theorem onBody_streams (C : Codec M) (s : State M) (b : Text) :
    (onBody C s b).streams = s.streams ∧ (onBody C s b).nextKey = s.nextKey ∧ (onBody C s b).handle = s.handle := by
  unfold onBody
  cases feed {} b with
  | none => exact ⟨rfl, rfl, rfl⟩
  | some r =>
    simp only
    generalize r.2 = es
    induction es generalizing s with
    | nil => exact ⟨rfl, rfl, rfl⟩
    | cons e es ih =>
      rw [List.foldl_cons]
      have h1 := ih (onEvent C s e)
      have h2 := onEvent_streams C s e
      exact ⟨h1.1.trans h2.1, h1.2.1.trans h2.2.1, h1.2.2.trans h2.2.2⟩

theorem find_filter_ne (l : List Stream) (k : Nat) (t : Text) (p : Stream → Bool)
    (h : l.find? (fun x => x.key == k) = some ⟨k, t⟩) (hp : ∀ x : Stream, x.key = k → p x = true) :
    (l.filter p).find? (fun x => x.key == k) = some ⟨k, t⟩ := by
  induction l with
  | nil => cases h
  | cons a l ih =>
    rw [List.find?_cons] at h
    by_cases ha : a.key = k
    · have hb : (a.key == k) = true := by simpa using ha
      rw [hb] at h
      simp only at h
      rw [List.filter_cons, if_pos (hp a ha), List.find?_cons, hb]
      exact h
    · have hb : (a.key == k) = false := by simpa using ha
      rw [hb] at h
      simp only at h
      rw [List.filter_cons]
      split
      · rw [List.find?_cons, hb]; exact ih h
      · exact ih h

theorem has_abort (k : Nat) (t : Text) (s : State M) (h : Has k t s) : Has k t (abort s) := by
  refine ⟨?_, h.lt, by simp [abort]⟩
  apply find_filter_ne _ _ _ _ h.find
  intro x hx
  have := h.handle
  simp only [decide_eq_true_eq, hx]
  exact fun h' => this h'.symm

theorem has_spawn (k : Nat) (t : Text) (s : State M) (h : Has k t s) : Has k t (spawn s) := by
  refine ⟨?_, Nat.lt_succ_of_lt h.lt, h.handle⟩
  simp only [spawn, List.find?_append, h.find, Option.some_or]

theorem arrived_none (k : Nat) (op : Op M) (h : ∀ j u, op ≠ .chunk j u) : arrived k [op] = [] := by
  cases op with
  | chunk j u => exact absurd rfl (h j u)
  | _ => rfl

theorem has_step (C : Codec M) (k : Nat) (t : Text) (s : State M) (op : Op M) (h : Has k t s) (hop : Spares k op) :
    Has k (t ++ arrived k [op]) (step C s op).1 := by
  have hh : ∀ r, Has k t (headers s r) := fun r => ⟨h.find, h.lt, h.handle⟩
  cases op with
  | setSession x => rw [arrived_none k _ (by intro _ _ h'; cases h'), List.append_nil]; exact ⟨h.find, h.lt, h.handle⟩
  | setVersion x => rw [arrived_none k _ (by intro _ _ h'; cases h'), List.append_nil]; exact ⟨h.find, h.lt, h.handle⟩
  | post m auth =>
    rw [arrived_none k _ (by intro _ _ h'; cases h'), List.append_nil]
    cases auth <;> exact ⟨h.find, h.lt, h.handle⟩
  | answer r =>
    rw [arrived_none k _ (by intro _ _ h'; cases h'), List.append_nil]
    · cases r with
      | none => exact h
      | some r =>
        simp only [step]
        unfold onAnswer
        simp only
        repeat' split
        all_goals first
          | exact hh r
          | exact ⟨h.find, h.lt, h.handle⟩
          | exact has_spawn _ _ _ (hh r)
  | «open» tok auth =>
    rw [arrived_none k _ (by intro _ _ h'; cases h'), List.append_nil]
    · have ha := has_abort k t s h
      cases auth
      · exact ha
      · exact ⟨ha.find, ha.lt, ha.handle⟩
  | streamAnswer r =>
    rw [arrived_none k _ (by intro _ _ h'; cases h'), List.append_nil]
    · cases r with
      | none => exact h
      | some r =>
        simp only [step]
        unfold onStreamAnswer
        split
        · exact h
        · split
          · exact h
          · have := has_spawn k t (headers s r) (hh r)
            refine ⟨this.find, this.lt, ?_⟩
            have hl := h.lt
            simp only [headers, ne_eq, Option.some.injEq]
            omega
  | chunk j u =>
    simp only [arrived, List.append_nil, step]
    refine ⟨?_, h.lt, h.handle⟩
    have hf := h.find
    simp only
    generalize s.streams = l at hf
    induction l with
    | nil => cases hf
    | cons a l ih =>
      rw [List.find?_cons] at hf
      rw [List.map_cons, List.find?_cons]
      by_cases ha : a.key = k
      · have hb : (a.key == k) = true := by simpa using ha
        rw [hb] at hf
        simp only [Option.some.injEq] at hf
        subst hf
        by_cases hj : j = k
        · subst hj; simp
        · have : ¬ k = j := fun h' => hj h'.symm
          simp [hj, this]
      · have hb : (a.key == k) = false := by simpa using ha
        rw [hb] at hf
        simp only at hf
        have : ((if a.key = j then (⟨a.key, a.text ++ u⟩ : Stream) else a).key == k) = false := by
          split <;> simpa using ha
        rw [this]
        exact ih hf
  | finish j =>
    rw [arrived_none k _ (by intro _ _ h'; cases h'), List.append_nil]
    · simp only [step]
      split
      · exact h
      · have hb := onBody_streams C { s with streams := s.streams.filter (fun y => y.key ≠ j) }
        refine ⟨?_, ?_, ?_⟩
        · rw [(hb _).1]
          apply find_filter_ne _ _ _ _ h.find
          intro x hx
          simp only [Spares] at hop
          simp [hx]; exact fun h' => hop h'.symm
        · rw [(hb _).2.1]; exact h.lt
        · rw [(hb _).2.2]; exact h.handle
  | broken j =>
    rw [arrived_none k _ (by intro _ _ h'; cases h'), List.append_nil]
    · simp only [step]
      split
      · exact h
      · have hb := onBody_streams C { s with streams := s.streams.filter (fun y => y.key ≠ j) }
        refine ⟨?_, ?_, ?_⟩
        · rw [(hb _).1]
          apply find_filter_ne _ _ _ _ h.find
          intro x hx
          simp only [Spares] at hop
          simp [hx]; exact fun h' => hop h'.symm
        · rw [(hb _).2.1]; exact h.lt
        · rw [(hb _).2.2]; exact h.handle
  | close auth =>
    rw [arrived_none k _ (by intro _ _ h'; cases h'), List.append_nil]
    · have ha := has_abort k t s h
      simp only [step]
      split
      · exact ha
      · cases auth
        · exact ha
        · exact ⟨ha.find, ha.lt, ha.handle⟩

theorem arrived_cons (k : Nat) (op : Op M) (ops : List (Op M)) : arrived k (op :: ops) = arrived k [op] ++ arrived k ops := by
  cases op <;> simp [arrived]

theorem has_run (C : Codec M) (k : Nat) (ops : List (Op M)) (t : Text) (s : State M) (h : Has k t s)
    (hops : ∀ op ∈ ops, Spares k op) : Has k (t ++ arrived k ops) (run C s ops) := by
  induction ops generalizing s t with
  | nil => simpa [arrived, run] using h
  | cons op ops ih =>
    have := ih _ _ (has_step C k t s op h (hops op (by simp))) (fun o ho => hops o (by simp [ho]))
    rw [List.append_assoc, ← arrived_cons] at this
    exact this

/-- An answer that is an event stream. (Specification: no counterpart in the code.) -/
def StreamResp (r : Resp) : Prop :=
  r.success = true ∧ Connect.hasText "application/json".toList r.contentType = false ∧
    Connect.hasText "text/event-stream".toList r.contentType = true

/-- Keys in use are below the counter, for every history. (Specification: no counterpart in the code.) -/
structure Fresh (s : State M) : Prop where
  streams : ∀ x ∈ s.streams, x.key < s.nextKey
  handle : ∀ k, s.handle = some k → k < s.nextKey

theorem fresh_abort (s : State M) (h : Fresh s) : Fresh (abort s) :=
  ⟨fun x hx => h.streams x (List.mem_filter.mp hx).1, fun k hk => by cases hk⟩

theorem fresh_spawn (s : State M) (h : Fresh s) : Fresh (spawn s) := by
  refine ⟨?_, fun k hk => Nat.lt_succ_of_lt (h.handle k hk)⟩
  intro x hx
  simp only [spawn, List.mem_append, List.mem_singleton] at hx
  rcases hx with hx | rfl
  · exact Nat.lt_succ_of_lt (h.streams x hx)
  · exact Nat.lt_succ_self _

theorem fresh_step (C : Codec M) (s : State M) (op : Op M) (h : Fresh s) : Fresh (step C s op).1 := by
  have hh : ∀ r, Fresh (headers s r) := fun r => ⟨h.streams, h.handle⟩
  cases op with
  | setSession x => exact ⟨h.streams, h.handle⟩
  | setVersion x => exact ⟨h.streams, h.handle⟩
  | post m auth => cases auth <;> exact ⟨h.streams, h.handle⟩
  | answer r =>
    cases r with
    | none => exact h
    | some r =>
      simp only [step]
      unfold onAnswer
      simp only
      repeat' split
      all_goals first
        | exact hh r
        | exact ⟨h.streams, h.handle⟩
        | exact fresh_spawn _ (hh r)
  | «open» tok auth =>
    have ha := fresh_abort s h
    cases auth
    · exact ha
    · exact ⟨ha.streams, ha.handle⟩
  | streamAnswer r =>
    cases r with
    | none => exact h
    | some r =>
      simp only [step]
      unfold onStreamAnswer
      split
      · exact h
      · split
        · exact h
        · have := fresh_spawn (headers s r) (hh r)
          refine ⟨this.streams, ?_⟩
          intro k hk
          simp only [Option.some.injEq] at hk
          subst hk
          exact Nat.lt_succ_self _
  | chunk j u =>
    refine ⟨?_, h.handle⟩
    intro x hx
    simp only [step, List.mem_map] at hx
    obtain ⟨y, hy, rfl⟩ := hx
    have := h.streams y hy
    split <;> exact this
  | finish j =>
    simp only [step]
    split
    · exact h
    · have hb := onBody_streams C { s with streams := s.streams.filter (fun y => y.key ≠ j) }
      refine ⟨?_, ?_⟩
      · rw [(hb _).1, (hb _).2.1]; exact fun x hx => h.streams x (List.mem_filter.mp hx).1
      · rw [(hb _).2.2, (hb _).2.1]; exact h.handle
  | broken j =>
    simp only [step]
    split
    · exact h
    · have hb := onBody_streams C { s with streams := s.streams.filter (fun y => y.key ≠ j) }
      refine ⟨?_, ?_⟩
      · rw [(hb _).1, (hb _).2.1]; exact fun x hx => h.streams x (List.mem_filter.mp hx).1
      · rw [(hb _).2.2, (hb _).2.1]; exact h.handle
  | close auth =>
    have ha := fresh_abort s h
    simp only [step]
    split
    · exact ha
    · cases auth
      · exact ha
      · exact ⟨ha.streams, ha.handle⟩

theorem fresh_run (C : Codec M) (s0 : Option Text) (ops : List (Op M)) : Fresh (run C (init s0) ops) := by
  have key : ∀ (ops : List (Op M)) s, Fresh s → Fresh (run C s ops) := by
    intro ops
    induction ops with
    | nil => intro s h; exact h
    | cons op ops ih => intro s h; exact ih _ (fresh_step C s op h)
  exact key ops _ ⟨fun x hx => (by cases hx), fun k hk => by cases hk⟩

theorem has_opened (C : Codec M) (s : State M) (h : Fresh s) (r : Resp) (hr : StreamResp r) :
    Has s.nextKey [] (step C s (.answer (some r))).1 := by
  obtain ⟨h1, h2, h3⟩ := hr
  rw [show "application/json".toList = kJson from rfl] at h2
  rw [show "text/event-stream".toList = kStream from rfl] at h3
  have : (step C s (.answer (some r))).1 = spawn (headers s r) := by simp [step, onAnswer, h1, h2, h3]
  rw [this]
  refine ⟨?_, Nat.lt_succ_self _, ?_⟩
  · simp only [spawn, headers, List.find?_append]
    have : s.streams.find? (fun x => x.key == s.nextKey) = none := by
      rw [List.find?_eq_none]
      intro x hx
      have := h.streams x hx
      simp; omega
    rw [this]
    simp
  · intro h'
    exact absurd (h.handle _ h') (by simp [headers])

/-- **C123** (exact form). The event stream that answers a POST: its messages are delivered, all of them, in
order and once, when it ends; whatever else happens to the transport in between. Missing from the property: they
are not delivered before the end (`C123_not_before_end`), and lost if the stream breaks (`C123_broken_lost`). -/
theorem C123_stream_partial (C : Codec M) (s0 : Option Text) (pre ops : List (Op M)) (r : Resp) (hr : StreamResp r)
    (hops : ∀ op ∈ ops, Spares (run C (init s0) pre).nextKey op) :
    let k := (run C (init s0) pre).nextKey
    let s := run C (init s0) (pre ++ .answer (some r) :: ops)
    (step C s (.finish k)).1.queue = s.queue ++ messages C (arrived k ops) := by
  intro k s
  have hf := fresh_run C s0 pre
  have h0 := has_opened C _ hf r hr
  have h1 := has_run C _ ops _ _ h0 hops
  have hs : s = run C (step C (run C (init s0) pre) (.answer (some r))).1 ops := by
    simp only [s, run_append, run]
  rw [← hs, List.nil_append] at h1
  have hf' : s.streams.find? (fun x => x.key == k) = some ⟨k, arrived k ops⟩ := h1.find
  simp only [step, hf', onBody_queue]

/-- **C123**. The whole way: the events a server writes, cut into any pieces, are delivered as its messages, in
order. (`Representable`: the data neither begins nor ends with a line feed, and so on; see C06.) -/
theorem C123_round_trip_partial (C : Codec M) (s0 : Option Text) (pre ops : List (Op M)) (r : Resp) (hr : StreamResp r)
    (hops : ∀ op ∈ ops, Spares (run C (init s0) pre).nextKey op) (es : List Event) (hes : ∀ e ∈ es, Representable e)
    (ha : arrived (run C (init s0) pre).nextKey ops = es.flatMap display) :
    let k := (run C (init s0) pre).nextKey
    let s := run C (init s0) (pre ++ .answer (some r) :: ops)
    (step C s (.finish k)).1.queue = s.queue ++
      es.filterMap (fun e => if e.event = some kMessage ∨ e.event = none then C.one e.data else none) := by
  intro k s
  have h := C123_stream_partial C s0 pre ops r hr hops
  simp only at h
  rw [h, ha]
  have hd := C06_stream_round_trip_partial es hes
  rw [Option.map_eq_some_iff] at hd
  obtain ⟨⟨p, out⟩, h1, h2⟩ := hd
  simp only at h2
  have h1' : feed {} (es.flatMap display) = some (p, out) := h1
  simp only [messages, h1', h2]
  congr 1
  have key : ∀ (es : List Event) (l : Option Text),
      (withIds l es).filterMap (fun e => if e.event = some kMessage ∨ e.event = none then C.one e.data else none) =
      es.filterMap (fun e => if e.event = some kMessage ∨ e.event = none then C.one e.data else none) := by
    intro es
    induction es with
    | nil => intro l; rfl
    | cons e es ih => intro l; simp only [withIds, List.filterMap_cons, ih]
  exact key es none

/-- **C123** fails: as long as a stream is open nothing of it is delivered, however much has arrived. -/
theorem C123_not_before_end (C : Codec M) (s : State M) (k : Nat) (ts : List Text) :
    (run C s (ts.map (Op.chunk k))).queue = s.queue ∧ (run C s (ts.map (Op.chunk k))).lastEvent = s.lastEvent := by
  induction ts generalizing s with
  | nil => exact ⟨rfl, rfl⟩
  | cons t ts ih =>
    simp only [List.map_cons, run]
    exact ih _

theorem messages_nil (C : Codec M) : messages C [] = [] := by
  have : feed {} [] = some ({}, []) := by
    unfold feed
    rw [feedLoop]
    rfl
  simp [messages, this]

/-- **C123** fails: if a stream breaks, everything that had arrived on it is lost. -/
theorem C123_broken_lost (C : Codec M) (s : State M) (k : Nat) : (step C s (.broken k)).1.queue = s.queue := by
  simp only [step]
  split
  · rfl
  · rw [onBody_queue, messages_nil, List.append_nil]

/-- **C123** fails: opening the GET stream anew loses what had arrived on the old one. -/
theorem C123_reopened_lost (C : Codec M) (s : State M) (k : Nat) (hk : s.handle = some k) (token : Option Text)
    (auth : Bool) : (step C (step C s (.open token auth)).1 (.finish k)).1.queue = s.queue := by
  have hn : ((abort s).streams.find? (fun x => x.key == k)) = none := by
    rw [List.find?_eq_none]
    intro x hx
    have := (List.mem_filter.mp hx).2
    simp only [hk, ne_eq, Option.some.injEq, decide_eq_true_eq] at this
    simpa using this
  cases auth with
  | false => simp only [step, Bool.false_eq_true, if_false, hn]; rfl
  | true => simp only [step, if_true, hn]; rfl

/-! ### C124: the stream of the server's own messages -/

/-- **C124** fails: no send and no answer ever opens the GET stream; only `start_sse` (or a resumption token) does.
The code that would do so on "202 Accepted" is never reached, 202 being a success. -/
theorem C124_never_opened (C : Codec M) (s0 : Option Text) (ops : List (Op M))
    (h : ∀ op ∈ ops, ∀ t a, op ≠ .open t a) : sentBy .get (run C (init s0) ops) = [] := by
  have key : ∀ (ops : List (Op M)) s, (∀ op ∈ ops, ∀ t a, op ≠ .open t a) → sentBy .get s = [] →
      sentBy .get (run C s ops) = [] := by
    intro ops
    induction ops with
    | nil => intro s _ h; exact h
    | cons op ops ih =>
      intro s ho hs
      refine ih _ (fun o h => ho o (by simp [h])) ?_
      have hop := ho op (by simp)
      simp only [sentBy] at hs ⊢
      cases op with
      | setSession x => exact hs
      | setVersion x => exact hs
      | post m auth =>
        cases auth
        · exact hs
        · simp only [step, if_true, List.filter_append, hs]; rfl
      | answer r =>
        cases r with
        | none => exact hs
        | some r => simp only [step, onAnswer_requests]; exact hs
      | «open» tok auth => exact absurd rfl (hop tok auth)
      | streamAnswer r =>
        cases r with
        | none => exact hs
        | some r => simp only [step, onStreamAnswer_requests]; exact hs
      | chunk j u => exact hs
      | finish j => simp only [step]; split; · exact hs
                    · rw [onBody_requests]; exact hs
      | broken j => simp only [step]; split; · exact hs
                    · rw [onBody_requests]; exact hs
      | close auth =>
        simp only [step]
        split
        · exact hs
        · cases auth
          · exact hs
          · simp only [if_true, List.filter_append]
            have : (abort s).requests = s.requests := rfl
            rw [this, hs]; rfl
  exact key ops _ h rfl

/-! ### C125: the last event id -/

theorem onEvents_ids (C : Codec M) (es : List Event) (s : State M) :
    (es.foldl (onEvent C) s).tokens = s.tokens ++ es.filterMap Event.id ∧
      (es.foldl (onEvent C) s).lastEvent = ((es.filterMap Event.id).getLast?).or s.lastEvent := by
  induction es generalizing s with
  | nil => simp
  | cons e es ih =>
    obtain ⟨h1, h2⟩ := ih (onEvent C s e)
    rw [List.foldl_cons, h1, h2]
    have hev : (onEvent C s e).tokens = s.tokens ++ e.id.toList ∧ (onEvent C s e).lastEvent = e.id.or s.lastEvent := by
      unfold onEvent
      cases e.id <;> simp only <;> split <;> (try split) <;> simp
    rw [hev.1, hev.2, List.filterMap_cons]
    cases hi : e.id with
    | none => simp
    | some i =>
      refine ⟨by simp, ?_⟩
      simp only [List.getLast?_cons, Option.some_or]
      cases (es.filterMap Event.id).getLast? <;> rfl

/-- **C125**. When a stream ends, the callback is given the ids of its events, all of them, in order and whether or
not the events are messages, and the last of them is the last event id from then on. -/
theorem C125_stream_ids (C : Codec M) (s : State M) (k : Nat) (x : Stream) (p : Parser) (es : List Event)
    (hx : s.streams.find? (fun x => x.key == k) = some x) (hf : feed {} x.text = some (p, es)) :
    (step C s (.finish k)).1.tokens = s.tokens ++ es.filterMap Event.id ∧
      (step C s (.finish k)).1.lastEvent = ((es.filterMap Event.id).getLast?).or s.lastEvent := by
  simp only [step, hx, onBody, hf]
  exact onEvents_ids C es _

example : (feed {} "id: 1\ndata: x\n\nid: 2\nevent: ping\ndata: y\n\n".toList).map
    (fun r => r.2.filterMap Event.id) = some ["1".toList, "2".toList] := by decide +kernel

/-- **C125**. The last event id is the one last given to the callback, for every history. -/
theorem C125_last_event (C : Codec M) (s0 : Option Text) (ops : List (Op M)) :
    (run C (init s0) ops).lastEvent = (run C (init s0) ops).tokens.getLast? := by
  have hev : ∀ (s : State M) e, s.lastEvent = s.tokens.getLast? → (onEvent C s e).lastEvent = (onEvent C s e).tokens.getLast? := by
    intro s e h
    unfold onEvent
    cases e.id <;> simp only <;> split <;> (try split) <;> simp [h]
  have hbody : ∀ (s : State M) b, s.lastEvent = s.tokens.getLast? → (onBody C s b).lastEvent = (onBody C s b).tokens.getLast? := by
    intro s b h
    unfold onBody
    cases feed {} b with
    | none => exact h
    | some r =>
      simp only
      generalize r.2 = es
      induction es generalizing s with
      | nil => exact h
      | cons e es ih => exact ih _ (hev s e h)
  have key : ∀ (ops : List (Op M)) s, s.lastEvent = s.tokens.getLast? → (run C s ops).lastEvent = (run C s ops).tokens.getLast? := by
    intro ops
    induction ops with
    | nil => intro s h; exact h
    | cons op ops ih =>
      intro s h
      refine ih _ ?_
      cases op with
      | setSession x => exact h
      | setVersion x => exact h
      | post m auth => cases auth <;> exact h
      | answer r =>
        cases r with
        | none => exact h
        | some r =>
          simp only [step]
          unfold onAnswer
          simp only
          repeat' split
          all_goals exact h
      | «open» tok auth => cases auth <;> exact h
      | streamAnswer r =>
        cases r with
        | none => exact h
        | some r =>
          simp only [step]
          unfold onStreamAnswer
          repeat' split
          all_goals exact h
      | chunk j u => exact h
      | finish j =>
        simp only [step]
        split
        · exact h
        · exact hbody _ _ h
      | broken j =>
        simp only [step]
        split
        · exact h
        · exact hbody _ _ h
      | close auth =>
        simp only [step]
        split
        · exact h
        · cases auth <;> exact h
  exact key ops _ rfl

/-! ### Examples -/

/-- Messages are texts; a batch is never recognised. (Specification: no counterpart in the code.) -/
def plain : Codec Text := ⟨fun t => if t = [] then none else some t, fun _ => none⟩

/-- An event stream that assigns a session. (Specification: no counterpart in the code.) -/
def streamResp : Resp := ⟨200, some ['s'], none, kStream, some []⟩

example : StreamResp streamResp ∧ streamResp.session = some ['s'] := by
  refine ⟨⟨by decide, by decide +kernel, by decide +kernel⟩, rfl⟩

example : ∀ op ∈ ([.post ['q'] true, .answer (some gone), .chunk 0 ['x']] : List (Op Text)),
    Keeps ['s'] op ∧ Spares 0 op := by
  intro op h
  simp at h
  rcases h with rfl | rfl | rfl
  · exact ⟨trivial, trivial⟩
  · exact ⟨Or.inl rfl, trivial⟩
  · exact ⟨trivial, trivial⟩

/-- Two events, arriving in two pieces. (Specification: no counterpart in the code.) -/
def twoEvents : List Event := [⟨some ['1'], none, ['a'], none⟩, ⟨none, some kMessage, ['b'], none⟩]

example : ∀ e ∈ twoEvents, Representable e := by
  intro e he
  simp [twoEvents] at he
  rcases he with rfl | rfl <;> constructor <;> decide +kernel

example : (run plain (init none) [.post ['q'] true, .answer (some streamResp), .chunk 0 ("id: 1\ndata: a\n".toList),
    .chunk 0 ("\nevent: message\ndata: b\n\n".toList), .finish 0]).queue = [['a'], ['b']] := by
  decide +kernel

/-- A send that succeeds (`C73_streamable_partial`), one that resumes instead of sending (`C73_resumption_lost`), one that
is written and reported as an error (`C73_error_though_written`). -/
example : written (send plain (init none) ['q'] none true (some streamResp)).1 = [['q']] ∧
    written (send plain (init none) ['q'] (some ['7']) true (some streamResp)).1 = [] ∧
    (send plain (init none) ['q'] (some ['7']) true (some streamResp)).2 = .ok ∧
    (send plain (init none) ['q'] none true (some { streamResp with status := 500 })).2 = .status 500 :=
  ⟨C73_streamable_partial plain (init none) ['q'] true (some streamResp) (by decide +kernel),
    (C73_resumption_lost plain (init none) ['q'] ['7'] true (some streamResp)).1,
    (C73_resumption_lost plain (init none) ['q'] ['7'] true (some streamResp)).2 _ rfl rfl (Or.inr rfl),
    (C73_error_though_written plain (init none) ['q'] { streamResp with status := 500 } (by decide)).1⟩

/-- `C122_echo` with a request that fails in between. -/
example : ((run plain (init none) ([.post ['a'] true] ++ .answer (some streamResp) ::
      [.post ['b'] true, .answer none] ++ [.post ['c'] true])).requests.getLast?).map (·.session) = some (some ['s']) :=
  C122_echo plain none [.post ['a'] true] [.post ['b'] true, .answer none] streamResp ['s'] rfl
    (by intro op h; simp only [List.mem_cons, List.not_mem_nil, or_false] at h; rcases h with rfl | rfl <;> trivial) ['c']

/-- `C123_stream_partial` and `C123_round_trip_partial`, with chunks that cut an event. -/
theorem stream_case : StreamResp streamResp ∧
    (∀ op ∈ ([.chunk 0 ("id: 1\nda".toList), .post ['z'] true, .chunk 0 ("ta: a\n\nevent: message\ndata: b\n\n".toList)] :
      List (Op Text)), Spares (run plain (init none) [.post ['q'] true]).nextKey op) ∧
    arrived (run plain (init none) [.post ['q'] true]).nextKey ([.chunk 0 ("id: 1\nda".toList), .post ['z'] true,
      .chunk 0 ("ta: a\n\nevent: message\ndata: b\n\n".toList)] : List (Op Text)) = twoEvents.flatMap display := by
  refine ⟨⟨by decide, by decide +kernel, by decide +kernel⟩, ?_, by decide +kernel⟩
  intro op h
  simp only [List.mem_cons, List.not_mem_nil, or_false] at h
  rcases h with rfl | rfl | rfl <;> trivial

example := C123_stream_partial plain none _ _ _ stream_case.1 stream_case.2.1
example := C123_round_trip_partial plain none _ _ _ stream_case.1 stream_case.2.1 twoEvents
  (by intro e he
      simp only [twoEvents, List.mem_cons, List.not_mem_nil, or_false] at he
      rcases he with rfl | rfl <;> constructor <;> decide +kernel) stream_case.2.2

example : (step plain (step plain (run plain (init none) [.open none true, .streamAnswer (some streamResp),
      .chunk 0 "data: a\n\n".toList]) (.open none true)).1 (.finish 0)).1.queue = [] :=
  C123_reopened_lost plain _ 0 rfl none true

end Verif.StreamClient
