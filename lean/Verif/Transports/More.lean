import Verif.Transports.Props
import Verif.Common.ListExtra

/-
The transports over whole histories: answers of the HTTP client (C145), status and several connections of the
WebSocket client (C128, C129), pings and the end of a connection of the WebSocket server (C146, C131).
-/

namespace Verif.Transports

open Verif

variable {M T : Type}

/-! ### HTTP client -/

namespace Http

/-- The calls of a program. A send that waits for room can only be abandoned: the transport is borrowed.
/repo/src/shared/http.rs L182-264. -/
inductive Call (M T : Type)
  | send (m : M) (a : Answer T)
  | receive

/-- One call: the new state, the answer that was queued, the message that was received.
/repo/src/shared/http.rs L182-264. -/
def call (parse : T → Option M) (ser : M → Bool) (s : State M) : Call M T → State M
  | .send m a => (send parse ser s m a).1
  | .receive => (receive s).1

/-- A history of calls of /repo/src/shared/http.rs L182-264. -/
def calls (parse : T → Option M) (ser : M → Bool) (s : State M) : List (Call M T) → State M
  | [] => s
  | c :: l => calls parse ser (call parse ser s c) l

/-- The messages the calls of `receive` returned. (Specification: no counterpart in the code.) -/
def receivedBy (parse : T → Option M) (ser : M → Bool) (s : State M) : List (Call M T) → List M
  | [] => []
  | c :: l => (match c with
      | .receive => (receive s).2.toList
      | .send _ _ => []) ++ receivedBy parse ser (call parse ser s c) l

/-- The answer in a body. (Specification: no counterpart in the code.) -/
def answerIn (parse : T → Option M) : Answer T → List M
  | .response _ (some b) => (parse b).toList
  | _ => []

/-- The answers of the sends that returned `Ok`. (Specification: no counterpart in the code.) -/
def answered (parse : T → Option M) (ser : M → Bool) (s : State M) : List (Call M T) → List M
  | [] => []
  | c :: l => (match c with
      | .send m a => if (send parse ser s m a).2 = .ok then answerIn parse a else []
      | .receive => []) ++ answered parse ser (call parse ser s c) l

theorem send_queue (parse : T → Option M) (ser : M → Bool) (s : State M) (m : M) (a : Answer T) :
    (send parse ser s m a).1.queue =
      s.queue ++ (if (send parse ser s m a).2 = .ok then answerIn parse a else []) := by
  simp only [send]
  split
  · simp
  · cases a with
    | timeout => simp
    | failed => simp
    | response st b =>
      simp only
      split
      · simp
      · cases b with
        | none => simp
        | some b =>
          simp only
          by_cases hp : ∃ r, parse b = some r
          · obtain ⟨r, hp⟩ := hp
            simp only [hp, answerIn]
            split <;> simp
          · have hn : parse b = none := by
              cases h : parse b with
              | none => rfl
              | some r => exact absurd ⟨r, h⟩ hp
            simp [hn]

/-- **C145.** In every history the messages received, followed by those waiting, are the answers of the sends that
returned `Ok`: in order, each once, none invented. -/
theorem C145_answers (parse : T → Option M) (ser : M → Bool) (config : Config) (l : List (Call M T)) :
    receivedBy parse ser { config := config } l ++ (calls parse ser { config := config } l).queue =
      answered parse ser { config := config } l := by
  have key : ∀ (l : List (Call M T)) (s : State M),
      receivedBy parse ser s l ++ (calls parse ser s l).queue = s.queue ++ answered parse ser s l := by
    intro l
    induction l with
    | nil => intro s; simp [receivedBy, calls, answered]
    | cons c l ih =>
      intro s
      simp only [receivedBy, calls, answered]
      rw [List.append_assoc, ih]
      cases c with
      | send m a => simp only [call, List.nil_append]; rw [send_queue, List.append_assoc]
      | receive =>
        simp only [call, receive]
        cases hq : s.queue <;> simp [hq]
  simpa using key l { config := config }

/-- **C145.** At most 100 answers wait. -/
theorem C145_bound (parse : T → Option M) (ser : M → Bool) (config : Config) (l : List (Call M T)) :
    (calls parse ser { config := config } l).queue.length ≤ 100 := by
  have key : ∀ (l : List (Call M T)) (s : State M), s.queue.length ≤ 100 → (calls parse ser s l).queue.length ≤ 100 := by
    intro l
    induction l with
    | nil => intro s h; exact h
    | cons c l ih =>
      intro s h
      refine ih _ ?_
      cases c with
      | receive =>
        simp only [call, receive]
        split
        · exact h
        · next hq => rw [hq] at h; simp at h ⊢; omega
      | send m a =>
        simp only [call, send]
        repeat' split
        all_goals first
          | exact h
          | (next hc => simp only [capacity] at hc; simp only [List.length_append, List.length_singleton]; omega)
  exact key l _ (Nat.zero_le _)

example : receivedBy (M := Nat) (T := Nat) some (fun _ => true) { config := ⟨[]⟩ }
      [.send 1 (.response 200 (some 7)), .send 2 (.response 202 none), .receive, .send 3 (.response 200 (some 8))] = [7] ∧
    answered (M := Nat) (T := Nat) some (fun _ => true) { config := ⟨[]⟩ }
      [.send 1 (.response 200 (some 7)), .send 2 (.response 202 none), .receive, .send 3 (.response 200 (some 8))] =
        [7, 8] := by decide

end Http

/-! ### WebSocket client -/

namespace Ws

/-- Connected according to the calls (latest first): a handshake succeeded, and neither `close` nor a further
`connect` was called since. (Specification: no counterpart in the code.) -/
def upIn : List (Op M T) → Bool
  | [] => false
  | .connectStart :: _ => false
  | .connectDone true :: _ => true
  | .close :: _ => false
  | _ :: l => upIn l

/-- **C128** (exactly when). `is_connected` looks at the program's own calls only: it is true iff the last of
the calls that begin, complete or close a connection completed one. Nothing the server does changes it. -/
theorem C128_exact (parse : T → Option M) (ser : M → Bool) (ops : List (Op M T)) :
    isConnected (run parse ser {} ops) = upIn ops.reverse := by
  induction ops using snocInduction with
  | nil => rfl
  | append_singleton ops op ih =>
    rw [run_append, List.reverse_append]
    simp only [List.reverse_cons, List.reverse_nil, List.nil_append, List.singleton_append, run]
    generalize run parse ser {} ops = s at ih
    cases op with
    | connectStart => rfl
    | connectDone ok => cases ok <;> first | exact ih | rfl
    | close => rfl
    | ping k => exact ih
    | frame k f =>
      simp only [step, upIn]
      repeat' split
      all_goals exact ih
    | send m => rcases step_send parse ser s m with h | h | h <;> rw [h] <;> exact ih
    | receive =>
      simp only [step, upIn]
      split <;> exact ih

/-- The messages of the text frames that arrive on open connections; `n` connections have been made, those in
`ended` have ended. (Specification: no counterpart in the code.) -/
def arrived (parse : T → Option M) (n : Nat) (ended : List Nat) : List (Op M T) → List M
  | [] => []
  | .connectDone true :: ops => arrived parse (n + 1) ended ops
  | .frame k (.text t) :: ops => (if k < n ∧ k ∉ ended then (parse t).toList else []) ++ arrived parse n ended ops
  | .frame k .close :: ops => arrived parse n (if k < n then k :: ended else ended) ops
  | .frame k .error :: ops => arrived parse n (if k < n then k :: ended else ended) ops
  | _ :: ops => arrived parse n ended ops

/-- **C129** (any number of connections). The messages received, followed by those waiting, are those of the
text frames of all connections, each up to its end, in order of arrival, each once. -/
theorem C129_several (parse : T → Option M) (ser : M → Bool) (ops : List (Op M T)) :
    received parse ser {} ops ++ (run parse ser {} ops).queue = arrived parse 0 [] ops := by
  have key : ∀ (ops : List (Op M T)) (s : State M) (n : Nat) (ended : List Nat), s.opened = n →
      (∀ k, k ∈ s.readers ↔ k < n ∧ k ∉ ended) → (∀ k ∈ ended, k < n) →
      received parse ser s ops ++ (run parse ser s ops).queue = s.queue ++ arrived parse n ended ops := by
    intro ops
    induction ops with
    | nil => intro s n ended _ _ _; simp [received, run, arrived]
    | cons op ops ih =>
      intro s n ended hn hr he
      have fin : ∀ k : Nat, ∀ j, (j ∈ s.readers.filter (· ≠ k) ↔ j < n ∧ j ∉ if k < n then k :: ended else ended) := by
        intro k j
        simp only [List.mem_filter, hr, decide_eq_true_eq, ne_eq]
        by_cases hk : k < n
        · simp only [hk, if_true, List.mem_cons, not_or]
          constructor
          · rintro ⟨⟨a, b⟩, c⟩; exact ⟨a, c, b⟩
          · rintro ⟨a, b, c⟩; exact ⟨⟨a, c⟩, b⟩
        · simp only [hk, if_false]
          constructor
          · rintro ⟨h, _⟩; exact h
          · intro h; exact ⟨h, fun e => hk (e ▸ h.1)⟩
      have fin2 : ∀ k, ∀ j ∈ (if k < n then k :: ended else ended), j < n := by
        intro k j hj
        split at hj
        · next hk =>
          rcases List.mem_cons.mp hj with rfl | hj
          · exact hk
          · exact he j hj
        · exact he j hj
      simp only [received, run]
      cases op with
      | connectStart => exact ih _ n ended hn hr he
      | connectDone ok => cases ok with
        | false => exact ih _ n ended hn hr he
        | true =>
          simp only [step, arrived, List.nil_append]
          refine ih _ (n + 1) ended (by simp [hn]) ?_ (fun k hk => Nat.lt_succ_of_lt (he k hk))
          intro k
          simp only [List.mem_append, List.mem_singleton, hr, hn]
          constructor
          · rintro (⟨a, b⟩ | rfl)
            · exact ⟨by omega, b⟩
            · exact ⟨by omega, fun h => Nat.lt_irrefl _ (he _ h)⟩
          · rintro ⟨a, b⟩
            by_cases hk : k = n
            · exact .inr hk
            · exact .inl ⟨by omega, b⟩
      | close => exact ih _ n ended hn hr he
      | ping k => exact ih _ n ended hn hr he
      | frame k f =>
        by_cases hk : k ∈ s.readers
        · simp only [step, if_pos hk]
          cases f with
          | text t =>
            simp only [arrived, if_pos ((hr k).mp hk)]
            cases hp : parse t with
            | none => simp only [Option.toList_none, List.nil_append]; exact ih _ n ended hn hr he
            | some m =>
              have := ih { s with queue := s.queue ++ [m] } n ended hn hr he
              simp only [Option.toList_some, List.nil_append, List.append_assoc] at this ⊢
              exact this
          | other => exact ih _ n ended hn hr he
          | close => exact ih _ n _ hn (fin k) (fin2 k)
          | error => exact ih _ n _ hn (fin k) (fin2 k)
        · simp only [step, if_neg hk]
          have hsame : s.readers.filter (· ≠ k) = s.readers := by
            apply List.filter_eq_self.mpr
            intro j hj
            have : j ≠ k := fun e => hk (e ▸ hj)
            simpa using this
          have fin' := fin k
          rw [hsame] at fin'
          cases f with
          | text t =>
            simp only [arrived]
            rw [if_neg (fun h => hk ((hr k).mpr h))]
            exact ih _ n ended hn hr he
          | other => exact ih _ n ended hn hr he
          | close => exact ih _ n _ hn fin' (fin2 k)
          | error => exact ih _ n _ hn fin' (fin2 k)
      | send m =>
        rcases step_send parse ser s m with h | h | h <;> rw [h] <;> exact ih _ n ended hn hr he
      | receive =>
        simp only [step, arrived]
        cases hq : s.queue with
        | nil => simp only [List.nil_append]; rw [ih s n ended hn hr he, hq]; rfl
        | cons m q =>
          have := ih { s with queue := q } n ended hn hr he
          simp only [List.append_assoc] at this ⊢
          rw [this]; rfl
  have := key ops {} 0 [] rfl (by simp) (by simp)
  simpa using this

example : arrived (M := Nat) (T := Nat) some 0 []
    [.frame 0 (.text 9), .connectDone true, .frame 0 (.text 1), .connectDone true, .frame 1 (.text 2), .frame 0 .close,
      .frame 0 (.text 3), .frame 1 (.text 4), .connectDone false, .frame 2 (.text 5)] = [1, 2, 4] := by decide

end Ws

/-! ### WebSocket server -/

namespace WsServer

theorem run_append (parse : T → Option M) (ser : M → Bool) (s : State M) (a b : List (Op M T)) :
    run parse ser s (a ++ b) = run parse ser (run parse ser s a) b := by
  induction a generalizing s with
  | nil => rfl
  | cons op a ih => exact ih _

/-- The payloads of the pings that arrive on connection `k` while its tasks run.
(Specification: no counterpart in the code.) -/
def pinged (parse : T → Option M) (ser : M → Bool) (k : Nat) (s : State M) : List (Op M T) → List Nat
  | [] => []
  | op :: ops => (match op with
      | .frame j (.ping d) =>
        if j = k ∧ k < s.accepted ∧ (s.conns k).reader = true ∧ (s.conns k).writer = true then [d] else []
      | _ => []) ++ pinged parse ser k (step parse ser s op).1 ops

/-- What one step does to the pongs of a connection that exists. -/
theorem pong_step (parse : T → Option M) (ser : M → Bool) (k : Nat) (s : State M) (op : Op M T) (hk : k < s.accepted) :
    ((step parse ser s op).1.conns k).ponged ++ ((step parse ser s op).1.conns k).pongs =
      (s.conns k).ponged ++ (s.conns k).pongs ++ (match op with
      | .frame j (.ping d) =>
        if j = k ∧ k < s.accepted ∧ (s.conns k).reader = true ∧ (s.conns k).writer = true then [d] else []
      | _ => []) := by
  have same : ∀ (j : Nat) (c : Conn M), c.ponged = (s.conns j).ponged → c.pongs = (s.conns j).pongs →
      ((s.set j c).conns k).ponged ++ ((s.set j c).conns k).pongs = (s.conns k).ponged ++ (s.conns k).pongs := by
    intro j c h1 h2
    by_cases hj : k = j
    · subst hj; rw [set_same, h1, h2]
    · rw [set_other _ _ _ _ hj]
  cases op with
  | accept =>
    simp only [step, List.append_nil]
    rw [set_other _ _ _ _ (by omega)]
  | send m =>
    simp only [step, List.append_nil]
    cases hc : s.current with
    | none => rfl
    | some j => simp only; split <;> first | exact same _ _ rfl rfl | rfl
  | write j ok =>
    simp only [step, List.append_nil]
    repeat' split
    all_goals first
      | rfl
      | exact same _ _ rfl rfl
  | pong j ok =>
    simp only [step, List.append_nil]
    split
    · split
      · rfl
      · next d q hq =>
        split
        · by_cases hj : k = j
          · subst hj; rw [set_same]; simp [hq]
          · rw [set_other _ _ _ _ hj]
        · exact same _ _ rfl rfl
    · rfl
  | frame j f =>
    by_cases hj : j < s.accepted ∧ (s.conns j).reader = true
    · cases f with
      | text t =>
        simp only [step, if_pos hj, List.append_nil]
        repeat' split
        all_goals first
          | rfl
          | exact same _ _ rfl rfl
      | ping d =>
        simp only [step, if_pos hj]
        by_cases hw : (s.conns j).writer = true
        · rw [if_pos hw]
          by_cases hkj : k = j
          · subst hkj
            rw [set_same, if_pos ⟨rfl, hj.1, hj.2, hw⟩]
            simp
          · rw [set_other _ _ _ _ hkj, if_neg (fun h => hkj h.1.symm), List.append_nil]
        · rw [if_neg hw, if_neg (by rintro ⟨rfl, _, _, h⟩; exact hw h), List.append_nil]
          exact same _ _ rfl rfl
      | other => simp [step, hj]
      | close => simp only [step, if_pos hj, List.append_nil]; exact same _ _ rfl rfl
      | error => simp only [step, if_pos hj, List.append_nil]; exact same _ _ rfl rfl
    · have h0 : step parse ser s (.frame j f) = (s, .none_) := by simp only [step, if_neg hj]
      rw [h0]
      cases f with
      | ping d =>
        simp only
        rw [if_neg, List.append_nil]
        rintro ⟨rfl, h1, h2, _⟩; exact hj ⟨h1, h2⟩
      | _ => simp
  | receive =>
    simp only [step, List.append_nil]
    cases hc : s.current with
    | none => rfl
    | some j =>
      simp only
      repeat' split
      all_goals first
        | rfl
        | exact same _ _ rfl rfl
  | close => simp [step]

/-- **C146.** On every connection the pongs written, followed by those waiting, answer exactly the pings that
arrived while its tasks run: in order, each once, with their payloads. -/
theorem C146_pongs (parse : T → Option M) (ser : M → Bool) (pre ops : List (Op M T)) :
    let s0 := run parse ser {} (pre ++ [.accept])
    let k := (run parse ser ({} : State M) pre).accepted
    ((run parse ser s0 ops).conns k).ponged ++ ((run parse ser s0 ops).conns k).pongs = pinged parse ser k s0 ops := by
  have key : ∀ (ops : List (Op M T)) k s, k < s.accepted →
      ((run parse ser s ops).conns k).ponged ++ ((run parse ser s ops).conns k).pongs =
        (s.conns k).ponged ++ (s.conns k).pongs ++ pinged parse ser k s ops := by
    intro ops
    induction ops with
    | nil => intro k s _; simp [run, pinged]
    | cons op ops ih =>
      intro k s hk
      simp only [run, pinged]
      rw [ih k _ (Nat.lt_of_lt_of_le hk (accepted_mono parse ser s op)), pong_step parse ser k s op hk, List.append_assoc]
  intro s0 k
  have hs : s0 = (step parse ser (run parse ser {} pre) (.accept : Op M T)).1 := by simp only [s0, run_append]; rfl
  have h0 : s0.conns k = {} := by rw [hs]; simp only [step, k]; rw [set_same]
  have := key ops k s0 (by rw [hs]; exact Nat.lt_succ_self _)
  rw [h0] at this
  simpa using this

/-- **C146.** A pong waiting is written by the next turn of the writer for which the socket accepts it, whatever
else waits. -/
theorem C146_written (parse : T → Option M) (ser : M → Bool) (s : State M) (k : Nat) (d : Nat) (q : List Nat)
    (hw : (s.conns k).writer = true) (hp : (s.conns k).pongs = d :: q) :
    ((step parse ser s (.pong k true : Op M T)).1.conns k).ponged = (s.conns k).ponged ++ [d] := by
  simp [step, hw, hp, set_same]

example :
    let s := run (M := Nat) (T := Nat) some (fun _ => true) {} [.accept, .frame 0 (.ping 5), .frame 0 (.text 1),
      .pong 0 true, .frame 0 (.ping 6), .accept, .frame 1 (.ping 7)]
    (s.conns 0).ponged = [5] ∧ (s.conns 0).pongs = [6] := by decide

/-- A frame that ends the reader of a connection: a close frame, an error, a ping that cannot be answered any
more, a message that nobody can receive any more. (Specification: no counterpart in the code.) -/
def Ends (parse : T → Option M) (s : State M) (k : Nat) : Frame T → Prop
  | .close => True
  | .error => True
  | .ping _ => (s.conns k).writer = false
  | .text t => (∃ m, parse t = some m) ∧ s.current ≠ some k
  | .other => False

/-- **C131.** The end of a connection: after such a frame, whatever happens, nothing more arrives on the
connection, no further ping is answered, and while it is the current one `receive` never waits: it returns what
had arrived, then "closed". -/
theorem C131_ended (parse : T → Option M) (ser : M → Bool) (s : State M) (k : Nat) (hk : k < s.accepted) (f : Frame T)
    (hf : Ends parse s k f) (ops : List (Op M T)) :
    let s1 := (step parse ser s (.frame k f)).1
    let s2 := run parse ser s1 ops
    (s2.conns k).incoming <:+ (s.conns k).incoming ∧
    (s2.conns k).ponged ++ (s2.conns k).pongs = (s.conns k).ponged ++ (s.conns k).pongs ∧
    (s2.current = some k → (step parse ser s2 (.receive : Op M T)).2 =
      match (s2.conns k).incoming with
      | m :: _ => .message m
      | [] => .closed) := by
  intro s1 s2
  have h1 : (s1.conns k).reader = false ∧ (s1.conns k).incoming = (s.conns k).incoming ∧ s1.accepted = s.accepted ∧
      (s1.conns k).ponged ++ (s1.conns k).pongs = (s.conns k).ponged ++ (s.conns k).pongs := by
    cases hr : (s.conns k).reader with
    | false =>
      have : s1 = s := by simp [s1, step, hr]
      rw [this]; exact ⟨hr, rfl, rfl, rfl⟩
    | true =>
      have hs : ∀ c : Conn M, s1 = s.set k c → c.reader = false → c.incoming = (s.conns k).incoming →
          c.ponged = (s.conns k).ponged → c.pongs = (s.conns k).pongs →
          (s1.conns k).reader = false ∧ (s1.conns k).incoming = (s.conns k).incoming ∧ s1.accepted = s.accepted ∧
          (s1.conns k).ponged ++ (s1.conns k).pongs = (s.conns k).ponged ++ (s.conns k).pongs := by
        intro c e h1 h2 h3 h4
        rw [e, set_same]
        exact ⟨h1, h2, rfl, by rw [h3, h4]⟩
      cases f with
      | close => exact hs { s.conns k with reader := false } (by simp [s1, step, hr, hk]) rfl rfl rfl rfl
      | error => exact hs { s.conns k with reader := false } (by simp [s1, step, hr, hk]) rfl rfl rfl rfl
      | text t =>
        obtain ⟨⟨m, hm⟩, hc⟩ := hf
        exact hs { s.conns k with reader := false } (by simp [s1, step, hr, hk, hm, hc]) rfl rfl rfl rfl
      | ping d =>
        have hw : (s.conns k).writer = false := hf
        exact hs { s.conns k with reader := false } (by simp [s1, step, hr, hk, hw]) rfl rfl rfl rfl
      | other => cases hf
  have key : ∀ (ops : List (Op M T)) (s : State M), k < s.accepted → (s.conns k).reader = false →
      ((run parse ser s ops).conns k).reader = false ∧
      ((run parse ser s ops).conns k).incoming <:+ (s.conns k).incoming := by
    intro ops
    induction ops with
    | nil => intro s _ h; exact ⟨h, List.suffix_refl _⟩
    | cons op ops ih =>
      intro s hk hr
      have hstep : ((step parse ser s op).1.conns k).reader = false ∧
          ((step parse ser s op).1.conns k).incoming <:+ (s.conns k).incoming := by
        have same : ∀ (j : Nat) (c : Conn M), (k = j → c.reader = false) → (k = j → c.incoming <:+ (s.conns j).incoming) →
            ((s.set j c).conns k).reader = false ∧ ((s.set j c).conns k).incoming <:+ (s.conns k).incoming := by
          intro j c h1 h2
          by_cases hj : k = j
          · subst hj; rw [set_same]; exact ⟨h1 rfl, h2 rfl⟩
          · rw [set_other _ _ _ _ hj]; exact ⟨hr, List.suffix_refl _⟩
        have frame : ∀ (j : Nat) (c : Conn M), c.reader = (s.conns j).reader → c.incoming = (s.conns j).incoming →
            ((s.set j c).conns k).reader = false ∧ ((s.set j c).conns k).incoming <:+ (s.conns k).incoming := by
          intro j c h1 h2
          refine same j c (fun e => ?_) (fun e => ?_)
          · subst e; rw [h1]; exact hr
          · rw [h2]; exact List.suffix_refl _
        cases op with
        | accept =>
          simp only [step]
          rw [set_other _ _ _ _ (by omega)]; exact ⟨hr, List.suffix_refl _⟩
        | send m =>
          simp only [step]
          cases hc : s.current with
          | none => exact ⟨hr, List.suffix_refl _⟩
          | some j => simp only; split <;> first | exact frame _ _ rfl rfl | exact ⟨hr, List.suffix_refl _⟩
        | write j ok =>
          simp only [step]
          repeat' split
          all_goals first
            | exact ⟨hr, List.suffix_refl _⟩
            | exact frame _ _ rfl rfl
        | pong j ok =>
          simp only [step]
          repeat' split
          all_goals first
            | exact ⟨hr, List.suffix_refl _⟩
            | exact frame _ _ rfl rfl
        | frame j f =>
          by_cases hj : k = j
          · subst hj; simp only [step, hr, Bool.false_eq_true, and_false, if_false]
            exact ⟨trivial, List.suffix_refl _⟩
          · simp only [step]
            split
            · cases f <;> simp only <;> repeat' split
              all_goals first
                | exact ⟨hr, List.suffix_refl _⟩
                | exact same _ _ (fun e => absurd e hj) (fun e => absurd e hj)
            · exact ⟨hr, List.suffix_refl _⟩
        | receive =>
          simp only [step]
          cases hc : s.current with
          | none => exact ⟨hr, List.suffix_refl _⟩
          | some j =>
            simp only
            split
            · next m q hq =>
              exact same _ _ (fun e => by subst e; exact hr) (fun _ => by rw [hq]; exact List.suffix_cons _ _)
            · split <;> exact ⟨hr, List.suffix_refl _⟩
        | close => exact ⟨hr, List.suffix_refl _⟩
      obtain ⟨a, b⟩ := ih _ (Nat.lt_of_lt_of_le hk (accepted_mono parse ser s op)) hstep.1
      exact ⟨a, b.trans hstep.2⟩
  have pongs : ∀ (ops : List (Op M T)) (s : State M), k < s.accepted → (s.conns k).reader = false →
      ((run parse ser s ops).conns k).ponged ++ ((run parse ser s ops).conns k).pongs =
        (s.conns k).ponged ++ (s.conns k).pongs := by
    intro ops
    induction ops with
    | nil => intro s _ _; rfl
    | cons op ops ih =>
      intro s hk hr
      have hacc := Nat.lt_of_lt_of_le hk (accepted_mono parse ser s op)
      have hr' : ((step parse ser s op).1.conns k).reader = false := (key [op] s hk hr).1
      refine (ih _ hacc hr').trans ?_
      rw [pong_step parse ser k s op hk]
      cases op with
      | frame j f => cases f <;> simp [hr]
      | _ => simp
  obtain ⟨a, b⟩ := key ops s1 (by rw [h1.2.2.1]; exact hk) h1.1
  refine ⟨by rw [h1.2.1] at b; exact b, (pongs ops s1 (by rw [h1.2.2.1]; exact hk) h1.1).trans h1.2.2.2, ?_⟩
  intro hc
  show (step parse ser s2 .receive).2 = _
  have hr2 : (s2.conns k).reader = false := a
  simp only [step, hc]
  cases hi : (s2.conns k).incoming with
  | nil => simp [hr2]
  | cons m q => rfl

example : let s := run (M := Nat) (T := Nat) some (fun _ => true) {} [.accept, .frame 0 (.text 4), .frame 0 .close,
      .frame 0 (.text 5)]
    s.current = some 0 ∧ (s.conns 0).incoming = [4] ∧ (step (T := Nat) some (fun _ => true) s .receive).2 = .message 4 := by
  decide

end WsServer

end Verif.Transports
