import Verif.Transports.Model

/-
Properties of the HTTP client, the WebSocket client and the WebSocket server: C73, C126 to C131.
-/

namespace Verif.Transports

open Verif

variable {M T : Type}

/-! ### HTTP client -/

namespace Http

/-- The messages put on the wire. (Specification: no counterpart in the code.) -/
def written (s : State M) : List M := s.requests.map (·.body)

/-- **C73**. The HTTP client: a message that can be serialized is handed to the network exactly once, whatever is
answered; one that cannot is not. `Ok` exactly if the answer is a 200 with a readable message and there is room. -/
theorem C73_http (parse : T → Option M) (ser : M → Bool) (s : State M) (m : M) (a : Answer T) :
    written (send parse ser s m a).1 = written s ++ (if ser m = true then [m] else []) ∧
    ((send parse ser s m a).2 = .ok ↔ ser m = true ∧ s.queue.length < 100 ∧
      ∃ b r, a = .response 200 (some b) ∧ parse b = some r) ∧
    ((send parse ser s m a).2 = .ok → ∃ b r, a = .response 200 (some b) ∧ parse b = some r ∧
      (send parse ser s m a).1.queue = s.queue ++ [r]) := by
  unfold send
  cases hs : ser m with
  | false => simp
  | true =>
    simp only [Bool.true_eq_false, if_false, if_true, true_and]
    cases a with
    | timeout => simp [written]
    | failed => simp [written]
    | response st b =>
      simp only
      by_cases h2 : st = 200
      · subst h2
        simp only [ne_eq, not_true_eq_false, if_false]
        cases b with
        | none => simp [written]
        | some b =>
          simp only
          cases hp : parse b with
          | none => simp [written, hp]
          | some r =>
            simp only
            split
            · next hl =>
              simp only [capacity] at hl
              refine ⟨by simp [written], ?_, ?_⟩
              · simp only [true_iff]; exact ⟨hl, b, r, rfl, hp⟩
              · intro _; exact ⟨b, r, rfl, hp, rfl⟩
            · next hl =>
              simp only [capacity] at hl
              refine ⟨by simp [written], ?_, ?_⟩
              · constructor
                · intro h; cases h
                · rintro ⟨h, -⟩; exact absurd h hl
              · intro h; cases h
      · simp [h2, written]

/-- **C126** fails: a notification answered as the protocol requires, with "202 Accepted", is reported as failed
although it was delivered; and so is one answered with an empty 200, if the empty text is no message. -/
theorem C126_accepted_is_error (parse : T → Option M) (ser : M → Bool) (s : State M) (m : M) (hs : ser m = true)
    (b : Option T) (empty : T) (he : parse empty = none) :
    (send parse ser s m (.response 202 b)).2 = .status 202 ∧ written (send parse ser s m (.response 202 b)).1 = written s ++ [m] ∧
    (send parse ser s m (.response 200 (some empty))).2 = .body ∧
    written (send parse ser s m (.response 200 (some empty))).1 = written s ++ [m] := by
  simp [send, hs, he, written]

/-- **C126**. So a send succeeds exactly when the server answers it with a message. -/
theorem C126_needs_answer_partial (parse : T → Option M) (ser : M → Bool) (s : State M) (m : M) (a : Answer T)
    (hs : ser m = true) (hq : s.queue.length < 100) :
    (send parse ser s m a).2 = .ok ↔ ∃ b r, a = .response 200 (some b) ∧ parse b = some r := by
  rw [(C73_http parse ser s m a).2.1]
  simp [hs, hq]

/-- **C126**. Every way a send fails is told as what it is, and as nothing else. -/
theorem C126_told (parse : T → Option M) (ser : M → Bool) (s : State M) (m : M) (a : Answer T) :
    ((send parse ser s m a).2 = .serialize ↔ ser m = false) ∧
    ((send parse ser s m a).2 = .timeout ↔ ser m = true ∧ a = .timeout) ∧
    ((send parse ser s m a).2 = .failed ↔ ser m = true ∧ (a = .failed ∨ a = .response 200 none)) ∧
    (∀ n, (send parse ser s m a).2 = .status n ↔ ser m = true ∧ n ≠ 200 ∧ ∃ b, a = .response n b) ∧
    ((send parse ser s m a).2 = .body ↔ ser m = true ∧ ∃ b, a = .response 200 (some b) ∧ parse b = none) := by
  unfold send
  cases hs : ser m with
  | false => simp
  | true =>
    cases a with
    | timeout => simp
    | failed => simp
    | response n b =>
      by_cases hn : n = 200
      · subst hn
        cases b with
        | none =>
          refine ⟨by simp, by simp, by simp, fun k => ?_, by simp⟩
          constructor
          · intro h; simp at h
          · rintro ⟨-, h, b, hb⟩
            injection hb with h1
            exact absurd h1.symm h
        | some b =>
          have hk : ∀ k, ¬ (True ∧ k ≠ 200 ∧ ∃ c : Option T, Answer.response 200 (some b) = .response k c) := by
            rintro k ⟨-, h, c, hc⟩
            injection hc with h1
            exact h h1.symm
          cases hp : parse b with
          | none =>
            refine ⟨by simp [hp], by simp [hp], by simp [hp], fun k => ?_, by simp [hp]⟩
            simpa [hp] using hk k
          | some r =>
            by_cases hq : s.queue.length < capacity
            · refine ⟨by simp [hp, hq], by simp [hp, hq], by simp [hp, hq], fun k => ?_, by simp [hp, hq]⟩
              simpa [hp, hq] using hk k
            · refine ⟨by simp [hp, hq], by simp [hp, hq], by simp [hp, hq], fun k => ?_, by simp [hp, hq]⟩
              simpa [hp, hq] using hk k
      · simp [hn]

example : (send (M := Nat) (T := Nat) some (fun _ => true) ⟨⟨[]⟩, true, [], []⟩ 1 .timeout).2 = .timeout ∧
    (send (M := Nat) (T := Nat) some (fun _ => true) ⟨⟨[]⟩, true, [], []⟩ 1 (.response 503 none)).2 =
      .status 503 := ⟨rfl, rfl⟩

/-- **C126** fails: the configured headers are never sent. -/
theorem C126_headers_dropped (parse : T → Option M) (ser : M → Bool) (s : State M) (m : M) (a : Answer T)
    (hs : ser m = true) : ∃ r, (send parse ser s m a).1.requests = s.requests ++ [r] ∧
      r.headers = [("Content-Type", "application/json")] := by
  refine ⟨⟨_, m⟩, ?_, rfl⟩
  unfold send
  simp only [hs, Bool.true_eq_false, if_false]
  cases a with
  | timeout => rfl
  | failed => rfl
  | response st b =>
    simp only
    split
    · rfl
    · cases b with
      | none => rfl
      | some b => simp only; repeat' split
                  all_goals rfl

/-- **C127**. Answers are received in the order of the sends. A send whose answer finds 100 unread answers does not
return (`waits`) until one is received; with fewer it never waits. -/
theorem C127_waits_iff_partial (parse : T → Option M) (ser : M → Bool) (s : State M) (m : M) (a : Answer T) :
    (send parse ser s m a).2 = .waits ↔ ser m = true ∧ 100 ≤ s.queue.length ∧
      ∃ b r, a = .response 200 (some b) ∧ parse b = some r := by
  unfold send
  cases hs : ser m with
  | false => simp
  | true =>
    simp only [Bool.true_eq_false, if_false, true_and]
    cases a with
    | timeout => simp
    | failed => simp
    | response st b =>
      simp only
      by_cases h2 : st = 200
      · subst h2
        simp only [ne_eq, not_true_eq_false, if_false]
        cases b with
        | none => simp
        | some b =>
          simp only
          cases hp : parse b with
          | none => simp [hp]
          | some r =>
            simp only
            split
            · next hl =>
              simp only [capacity] at hl
              constructor
              · intro h; cases h
              · rintro ⟨h, -⟩; omega
            · next hl =>
              simp only [capacity] at hl
              simp only [true_iff]
              exact ⟨by omega, b, r, rfl, hp⟩
      · simp [h2]

/-- A program that sends `ms` one after the other without receiving, the server answering each with the next of
`rs`. (Specification: no counterpart in the code.) -/
def sends (parse : T → Option M) (ser : M → Bool) (s : State M) : List (M × T) → State M × List Result
  | [] => (s, [])
  | (m, b) :: l =>
    let r := send parse ser s m (.response 200 (some b))
    let q := sends parse ser r.1 l
    (q.1, r.2 :: q.2)

/-- **C127**. A program that only sends succeeds 100 times and then waits forever. -/
theorem C127_hundred (parse : T → Option M) (ser : M → Bool) (config : Config) (l : List (M × T))
    (hs : ∀ p ∈ l, ser p.1 = true ∧ parse p.2 ≠ none) :
    (sends parse ser { config := config } l).2 = (List.range l.length).map (fun i => if i < 100 then .ok else .waits) := by
  have key : ∀ (l : List (M × T)) (s : State M), (∀ p ∈ l, ser p.1 = true ∧ parse p.2 ≠ none) → s.queue.length ≤ 100 →
      (sends parse ser s l).2 = (List.range l.length).map (fun i => if i + s.queue.length < 100 then .ok else .waits) := by
    intro l
    induction l with
    | nil => intro s _ _; rfl
    | cons p l ih =>
      intro s h hq
      obtain ⟨m, b⟩ := p
      obtain ⟨h1, h2⟩ := h (m, b) (by simp)
      obtain ⟨r, hr⟩ := Option.ne_none_iff_exists'.mp h2
      simp only at hr h1
      simp only [sends, List.length_cons, List.range_succ_eq_map, List.map_cons, Nat.zero_add, List.map_map]
      by_cases hl : s.queue.length < 100
      · have hst : send parse ser s m (.response 200 (some b)) =
            ({ s with requests := s.requests ++ [⟨[("Content-Type", "application/json")], m⟩], queue := s.queue ++ [r] }, .ok) := by
          simp [send, h1, hr, capacity, hl]
        rw [hst, ih _ (fun p hp => h p (by simp [hp])) (by simp; omega), if_pos hl]
        simp only [List.cons.injEq, true_and]
        apply List.map_congr_left
        intro i _
        simp only [Function.comp, List.length_append, List.length_cons, List.length_nil]
        rw [show i + (s.queue.length + (0 + 1)) = i + 1 + s.queue.length by omega]
      · have hst : send parse ser s m (.response 200 (some b)) =
            ({ s with requests := s.requests ++ [⟨[("Content-Type", "application/json")], m⟩] }, .waits) := by
          simp [send, h1, hr, capacity, hl]
        rw [hst]
        have := ih { s with requests := s.requests ++ [⟨[("Content-Type", "application/json")], m⟩] }
          (fun p hp => h p (by simp [hp])) hq
        simp only at this ⊢
        rw [this, if_neg hl]
        simp only [List.cons.injEq, true_and]
        apply List.map_congr_left
        intro i _
        simp only [Function.comp]
        rw [if_neg (by omega), if_neg (by omega)]
  have := key l { config := config } hs (by simp)
  simpa using this

/-- A parser of one digit. (Specification: no counterpart in the code.) -/
def digit (c : Char) : Option Nat := if c.isDigit then some (c.toNat - 48) else none

example : (send digit (fun _ => true) { config := ⟨[]⟩ } 7 (.response 200 (some '3'))).2 = .ok ∧ digit ' ' = none ∧
    digit '3' ≠ none := by
  decide

end Http

/-! ### WebSocket client -/

namespace Ws

theorem run_append (parse : T → Option M) (ser : M → Bool) (s : State M) (a b : List (Op M T)) :
    run parse ser s (a ++ b) = run parse ser (run parse ser s a) b := by
  induction a generalizing s with
  | nil => rfl
  | cons op a ih => exact ih _

theorem step_wire (parse : T → Option M) (ser : M → Bool) (s : State M) (op : Op M T)
    (h : ∀ p ∈ s.wire, p.2 = .ping) : ∀ p ∈ (step parse ser s op).1.wire, p.2 = .ping := by
  cases op with
  | connectStart => exact h
  | connectDone ok => cases ok <;> exact h
  | frame k f =>
    simp only [step]
    split
    · cases f with
      | text t => simp only; split <;> exact h
      | _ => exact h
    · exact h
  | ping k =>
    intro p hp
    simp only [step, List.mem_append, List.mem_singleton] at hp
    rcases hp with hp | rfl
    · exact h p hp
    · rfl
  | send m => simp only [step]; repeat' split
              all_goals exact h
  | receive => simp only [step]; split <;> exact h
  | close => exact h

/-- **C73** fails: whatever happens, the WebSocket client never writes a message: all it ever writes are pings. -/
theorem C73_websocket_never (parse : T → Option M) (ser : M → Bool) (ops : List (Op M T)) :
    ∀ p ∈ (run parse ser {} ops).wire, p.2 = .ping := by
  have key : ∀ (ops : List (Op M T)) s, (∀ p ∈ s.wire, p.2 = .ping) → ∀ p ∈ (run parse ser s ops).wire, p.2 = .ping := by
    intro ops
    induction ops with
    | nil => intro s h; exact h
    | cons op ops ih => intro s h; exact ih _ (step_wire parse ser s op h)
  exact key ops {} (by simp)

/-- **C73**. `send` of the WebSocket client returns `Ok` exactly while the state is "connected". -/
theorem C73_websocket_ok_iff (parse : T → Option M) (ser : M → Bool) (s : State M) (m : M) :
    (step parse ser s (.send m : Op M T)).2 = .ok ↔ ser m = true ∧ isConnected s = true := by
  simp only [step, isConnected]
  cases ser m with
  | false => simp
  | true =>
    simp only [Bool.true_eq_false, if_false, true_and, beq_iff_eq]
    split <;> simp [*]

example : (step (M := Nat) (T := Nat) some (fun _ => true)
    (run some (fun _ => true) {} [.connectStart, .connectDone true]) (.send 5)).2 = .ok := by decide

/-- Not one of the program's own steps that change the state. (Specification: no counterpart in the code.) -/
def Quiet : Op M T → Prop
  | .connectStart => False
  | .connectDone _ => False
  | .close => False
  | _ => True

/-- **C128** fails: nothing the server or the network does ends "connected": after the connection is gone
`is_connected` is still true, and sends still return `Ok`. -/
theorem C128_stays_connected (parse : T → Option M) (ser : M → Bool) (s : State M) (h : isConnected s = true)
    (ops : List (Op M T)) (hops : ∀ op ∈ ops, Quiet op) (m : M) (hm : ser m = true) :
    isConnected (run parse ser s ops) = true ∧ (step parse ser (run parse ser s ops) (.send m)).2 = .ok := by
  have h1 : isConnected (run parse ser s ops) = true := by
    induction ops generalizing s with
    | nil => exact h
    | cons op ops ih =>
      refine ih _ ?_ (fun o ho => hops o (by simp [ho]))
      have hop := hops op (by simp)
      cases op with
      | connectStart => exact hop.elim
      | connectDone ok => exact hop.elim
      | close => exact hop.elim
      | frame k f =>
        simp only [step]
        split
        · cases f with
          | text t => simp only; split <;> exact h
          | _ => exact h
        · exact h
      | ping k => exact h
      | send m => simp only [step]; repeat' split
                  all_goals exact h
      | receive => simp only [step]; split <;> exact h
  exact ⟨h1, (C73_websocket_ok_iff parse ser _ m).mpr ⟨hm, h1⟩⟩

/-- **C128**. What does hold: `is_connected` is false before the first successful connection and after `close`. -/
theorem C128_connected_partial (parse : T → Option M) (ser : M → Bool) (ops : List (Op M T))
    (h : isConnected (run parse ser {} ops) = true) :
    ∃ pre post, ops = pre ++ .connectDone true :: post ∧ ∀ op ∈ post, op ≠ .close ∧ op ≠ .connectStart := by
  have key : ∀ (ops : List (Op M T)) s, isConnected (run parse ser s ops) = true →
      (isConnected s = true ∧ ∀ op ∈ ops, op ≠ .close ∧ op ≠ .connectStart) ∨
      ∃ pre post, ops = pre ++ .connectDone true :: post ∧ ∀ op ∈ post, op ≠ .close ∧ op ≠ .connectStart := by
    intro ops
    induction ops with
    | nil => intro s h; exact Or.inl ⟨h, by simp⟩
    | cons op ops ih =>
      intro s h
      rcases ih _ h with ⟨h1, h2⟩ | ⟨pre, post, rfl, h2⟩
      · cases op with
        | connectStart => cases h1
        | close => cases h1
        | connectDone ok =>
          cases ok with
          | true => exact Or.inr ⟨[], ops, rfl, h2⟩
          | false =>
            refine Or.inl ⟨h1, ?_⟩
            intro o ho
            rcases List.mem_cons.mp ho with rfl | ho
            · exact ⟨nofun, nofun⟩
            · exact h2 o ho
        | frame k f =>
          refine Or.inl ⟨?_, ?_⟩
          · simp only [step] at h1
            split at h1
            · cases f with
              | text t => simp only at h1; split at h1 <;> exact h1
              | _ => exact h1
            · exact h1
          · intro o ho
            rcases List.mem_cons.mp ho with rfl | ho
            · exact ⟨nofun, nofun⟩
            · exact h2 o ho
        | ping k =>
          refine Or.inl ⟨h1, ?_⟩
          intro o ho
          rcases List.mem_cons.mp ho with rfl | ho
          · exact ⟨nofun, nofun⟩
          · exact h2 o ho
        | send m =>
          refine Or.inl ⟨?_, ?_⟩
          · simp only [step] at h1; repeat' split at h1
            all_goals exact h1
          · intro o ho
            rcases List.mem_cons.mp ho with rfl | ho
            · exact ⟨nofun, nofun⟩
            · exact h2 o ho
        | receive =>
          refine Or.inl ⟨?_, ?_⟩
          · simp only [step] at h1; split at h1 <;> exact h1
          · intro o ho
            rcases List.mem_cons.mp ho with rfl | ho
            · exact ⟨nofun, nofun⟩
            · exact h2 o ho
      · exact Or.inr ⟨op :: pre, post, rfl, h2⟩
  rcases key ops {} h with ⟨h1, -⟩ | h1
  · cases h1
  · exact h1

/-- The messages of the text frames that arrive on connection `k` before it ends.
(Specification: no counterpart in the code.) -/
def framed (parse : T → Option M) (k : Nat) : List (Op M T) → List M
  | [] => []
  | .frame j f :: ops =>
    if j = k then match f with
      | .text t => (parse t).toList ++ framed parse k ops
      | .other => framed parse k ops
      | .close => []
      | .error => []
    else framed parse k ops
  | _ :: ops => framed parse k ops

/-- Not a step of another connection. (Specification: no counterpart in the code.) -/
def Only (k : Nat) : Op M T → Prop
  | .frame j _ => j = k
  | .connectDone ok => ok = false
  | _ => True

theorem step_send (parse : T → Option M) (ser : M → Bool) (s : State M) (m : M) :
    step parse ser s (.send m : Op M T) = (s, .serialize) ∨ step parse ser s (.send m : Op M T) = (s, .ok) ∨
    step parse ser s (.send m : Op M T) = (s, .closed) := by
  simp only [step]
  repeat' split
  all_goals simp

/-- **C129**. One connection: the messages received, and those waiting, are those of its text frames up to its
end, in order, each once; also after the program has called `close`. -/
theorem C129_receive (parse : T → Option M) (ser : M → Bool) (ops : List (Op M T)) (hops : ∀ op ∈ ops, Only 0 op) :
    let s := run parse ser {} ([.connectStart, .connectDone true] ++ ops)
    received parse ser {} ([.connectStart, .connectDone true] ++ ops) ++ s.queue = framed parse 0 ops := by
  intro s
  have dead : ∀ (ops : List (Op M T)) s, (∀ op ∈ ops, Only 0 op) → s.readers = [] →
      received parse ser s ops ++ (run parse ser s ops).queue = s.queue := by
    intro ops
    induction ops with
    | nil => intro s _ _; rfl
    | cons op ops ih =>
      intro s ho hr
      have hop := ho op (by simp)
      have ho' := fun o h => ho o (List.mem_cons_of_mem op h)
      simp only [received, run]
      cases op with
      | connectStart => exact ih _ ho' hr
      | connectDone ok => cases ok with
        | true => cases hop
        | false => exact ih _ ho' hr
      | close => exact ih _ ho' hr
      | ping k => exact ih _ ho' hr
      | frame k f => simp only [step, hr, List.not_mem_nil, if_false]; exact ih _ ho' hr
      | send m =>
        rcases step_send parse ser s m with h | h | h <;> rw [h] <;> exact ih _ ho' hr
      | receive =>
        simp only [step]
        cases hq : s.queue with
        | nil => simp only [List.nil_append]; rw [ih s ho' hr, hq]
        | cons m q =>
          have := ih { s with queue := q } ho' hr
          simp only [List.append_assoc] at this ⊢
          rw [this]; rfl
  have live : ∀ (ops : List (Op M T)) s, (∀ op ∈ ops, Only 0 op) → s.readers = [0] →
      received parse ser s ops ++ (run parse ser s ops).queue = s.queue ++ framed parse 0 ops := by
    intro ops
    induction ops with
    | nil => intro s _ _; simp [received, run, framed]
    | cons op ops ih =>
      intro s ho hr
      have hop := ho op (by simp)
      have ho' := fun o h => ho o (List.mem_cons_of_mem op h)
      simp only [received, run]
      cases op with
      | connectStart => exact ih _ ho' hr
      | connectDone ok => cases ok with
        | true => cases hop
        | false => exact ih _ ho' hr
      | close => exact ih _ ho' hr
      | ping k => exact ih _ ho' hr
      | frame k f =>
        have hk : k = 0 := hop
        subst hk
        simp only [step, hr, List.mem_singleton, if_true, framed]
        cases f with
        | text t =>
          simp only
          cases hp : parse t with
          | none => simp only [Option.toList_none, List.nil_append]; exact ih _ ho' hr
          | some m =>
            have := ih { s with readers := [0], queue := s.queue ++ [m] } ho' rfl
            simp only [Option.toList_some, List.nil_append, List.append_assoc] at this ⊢
            exact this
        | other => simp only [List.nil_append]; exact ih _ ho' hr
        | close =>
          simp only [List.nil_append, List.append_nil]
          exact dead ops _ ho' (by simp)
        | error =>
          simp only [List.nil_append, List.append_nil]
          exact dead ops _ ho' (by simp)
      | send m =>
        rcases step_send parse ser s m with h | h | h <;> rw [h] <;> exact ih _ ho' hr
      | receive =>
        simp only [step, framed]
        cases hq : s.queue with
        | nil => simp only [List.nil_append]; rw [ih s ho' hr, hq]; rfl
        | cons m q =>
          have := ih { s with queue := q } ho' hr
          simp only [List.append_assoc] at this ⊢
          rw [this]; rfl
  have := live ops (run parse ser {} [.connectStart, .connectDone true]) hops rfl
  have hq : (run parse ser ({} : State M) ([.connectStart, .connectDone true] : List (Op M T))).queue = [] := rfl
  rw [hq, List.nil_append] at this
  exact this

example : ∀ op ∈ ([.frame 0 (.text 1), .close, .frame 0 (.text 2), .receive, .frame 0 .close, .frame 0 (.text 3)] :
    List (Op Nat Nat)), Only 0 op := by
  intro op h; simp at h; rcases h with rfl | rfl | rfl | rfl | rfl | rfl <;> trivial

end Ws

/-! ### WebSocket server -/

namespace WsServer

/-- The messages whose send returned `Ok` while connection `k` was the current one.
(Specification: no counterpart in the code.) -/
def accepted_ (parse : T → Option M) (ser : M → Bool) (k : Nat) (s : State M) : List (Op M T) → List M
  | [] => []
  | op :: ops => (match op with
      | .send m => if s.current = some k ∧ (s.conns k).writer = true then [m] else []
      | _ => []) ++ accepted_ parse ser k (step parse ser s op).1 ops

/-- Connections not yet accepted are untouched, and the current one has been accepted.
(Specification: no counterpart in the code.) -/
structure Inv (s : State M) : Prop where
  new : ∀ k, s.accepted ≤ k → s.conns k = {}
  cur : ∀ k, s.current = some k → k < s.accepted

theorem set_same (s : State M) (k : Nat) (c : Conn M) : (s.set k c).conns k = c := by simp [State.set]

theorem set_other (s : State M) (k j : Nat) (c : Conn M) (h : j ≠ k) : (s.set k c).conns j = s.conns j := by
  simp [State.set, h]

theorem inv_set (s : State M) (k : Nat) (c : Conn M) (h : Inv s) (hk : k < s.accepted ∨ c = {}) : Inv (s.set k c) := by
  refine ⟨?_, h.cur⟩
  intro j hj
  by_cases hjk : j = k
  · subst hjk
    rw [set_same]
    rcases hk with hk | hk
    · have : s.accepted ≤ j := hj
      omega
    · exact hk
  · rw [set_other _ _ _ _ hjk]; exact h.new j hj

theorem inv_step (parse : T → Option M) (ser : M → Bool) (s : State M) (op : Op M T) (h : Inv s) :
    Inv (step parse ser s op).1 := by
  cases op with
  | accept =>
    refine ⟨?_, ?_⟩
    · intro j hj
      have hj' : s.accepted + 1 ≤ j := hj
      simp only [step]
      rw [set_other _ _ _ _ (by omega)]
      exact h.new j (by omega)
    · intro k hk
      simp only [step, Option.some.injEq] at hk ⊢
      omega
  | send m =>
    simp only [step]
    cases hc : s.current with
    | none => exact h
    | some k =>
      simp only
      split
      · exact inv_set _ _ _ h (Or.inl (h.cur k hc))
      · exact h
  | write k ok =>
    simp only [step]
    split
    · next hw =>
      by_cases hk : k < s.accepted
      · split
        · exact h
        · repeat' split
          all_goals exact inv_set _ _ _ h (Or.inl hk)
      · rw [h.new k (by omega)]; exact h
    · exact h
  | pong k ok =>
    simp only [step]
    split
    · next hw =>
      by_cases hk : k < s.accepted
      · split
        · exact h
        · split <;> exact inv_set _ _ _ h (Or.inl hk)
      · rw [h.new k (by omega)]; exact h
    · exact h
  | frame k f =>
    simp only [step]
    split
    · next hw =>
      cases f with
      | text t =>
        simp only
        split
        · split <;> exact inv_set _ _ _ h (Or.inl hw.1)
        · exact h
      | ping d => simp only; split <;> exact inv_set _ _ _ h (Or.inl hw.1)
      | other => exact h
      | close => exact inv_set _ _ _ h (Or.inl hw.1)
      | error => exact inv_set _ _ _ h (Or.inl hw.1)
    · exact h
  | receive =>
    simp only [step]
    cases hc : s.current with
    | none => exact h
    | some k =>
      simp only
      split
      · exact inv_set _ _ _ h (Or.inl (h.cur k hc))
      · split <;> exact h
  | close => exact ⟨h.new, fun k hk => by cases hk⟩

theorem inv_init : Inv ({} : State M) := ⟨fun _ _ => rfl, fun k hk => by cases hk⟩

/-- What is on the wire and what a running writer will still put there.
(Specification: no counterpart in the code.) -/
def output (ser : M → Bool) (c : Conn M) : List M := c.wire ++ if c.writer = true then c.outgoing.filter ser else []

theorem output_step (parse : T → Option M) (ser : M → Bool) (k : Nat) (s : State M) (h : Inv s) (op : Op M T) (l : List M)
    (hl : (output ser (s.conns k)) <+: l.filter ser) (he : (s.conns k).writer = true → output ser (s.conns k) = l.filter ser)
    (hnew : s.accepted ≤ k → l = []) :
    let l' := l ++ (match op with
      | .send m => if s.current = some k ∧ (s.conns k).writer = true then [m] else []
      | _ => [])
    (output ser ((step parse ser s op).1.conns k)) <+: l'.filter ser ∧
    (((step parse ser s op).1.conns k).writer = true → output ser ((step parse ser s op).1.conns k) = l'.filter ser) ∧
    ((step parse ser s op).1.accepted ≤ k → l' = []) := by
  intro l'
  cases op with
  | accept =>
    have hl' : l' = l := by simp [l']
    rw [hl']
    simp only [step]
    by_cases hk : k = s.accepted
    · subst hk
      have hn := hnew (Nat.le_refl _)
      subst hn
      rw [set_same]
      exact ⟨by simp [output], fun _ => by simp [output], fun h => absurd h (by omega)⟩
    · rw [set_other _ _ _ _ hk]
      exact ⟨hl, he, fun h => hnew (by omega)⟩
  | send m =>
    simp only [step]
    cases hc : s.current with
    | none =>
      have hl' : l' = l := by simp [l', hc]
      rw [hl']; exact ⟨hl, he, hnew⟩
    | some j =>
      simp only
      by_cases hj : j = k
      · subst hj
        by_cases hw : (s.conns j).writer = true
        · have hl' : l' = l ++ [m] := by simp [l', hc, hw]
          rw [hl', if_pos hw, set_same]
          have ho : output ser { s.conns j with outgoing := (s.conns j).outgoing ++ [m] } = (l ++ [m]).filter ser := by
            have := he hw
            simp only [output, hw, if_true] at this ⊢
            rw [List.filter_append, ← List.append_assoc, this, List.filter_append]
          exact ⟨ho ▸ List.prefix_refl _, fun _ => ho, fun h' => absurd (h.cur j hc) (Nat.not_lt.mpr h')⟩
        · have hl' : l' = l := by simp [l', hw]
          rw [hl', if_neg hw]; exact ⟨hl, he, hnew⟩
      · have hl' : l' = l := by simp [l', hc, hj]
        rw [hl']
        split
        · rw [set_other _ _ _ _ (fun h' => hj h'.symm)]; exact ⟨hl, he, hnew⟩
        · exact ⟨hl, he, hnew⟩
  | write j ok =>
    have hl' : l' = l := by simp [l']
    rw [hl']
    simp only [step]
    split
    · next hw =>
      split
      · exact ⟨hl, he, hnew⟩
      · next m q hq =>
        by_cases hj : k = j
        · subst hj
          have hfull := he hw
          simp only [output, hw, if_true, hq] at hfull
          split
          · next hs =>
            rw [set_same]
            have ho : output ser { s.conns k with outgoing := q } = l.filter ser := by
              simp only [output, hw, if_true]
              rw [← hfull, List.filter_cons, hs]; rfl
            exact ⟨ho ▸ List.prefix_refl _, fun _ => ho, hnew⟩
          · next hs =>
            have hs' : ser m = true := by simpa using hs
            split
            · rw [set_same]
              have ho : output ser { s.conns k with outgoing := q, wire := (s.conns k).wire ++ [m] } = l.filter ser := by
                simp only [output, hw, if_true]
                rw [← hfull, List.filter_cons, if_pos hs', List.append_assoc]; rfl
              exact ⟨ho ▸ List.prefix_refl _, fun _ => ho, hnew⟩
            · rw [set_same]
              refine ⟨?_, fun h => by simp at h, hnew⟩
              simp only [output]
              rw [← hfull]
              simp
        · repeat' split
          all_goals rw [set_other _ _ _ _ hj]; exact ⟨hl, he, hnew⟩
    · exact ⟨hl, he, hnew⟩
  | pong j ok =>
    have hl' : l' = l := by simp [l']
    rw [hl']
    simp only [step]
    split
    · next hw =>
      by_cases hj : k = j
      · subst hj
        split
        · exact ⟨hl, he, hnew⟩
        · split
          · rw [set_same]; exact ⟨hl, he, hnew⟩
          · rw [set_same]
            refine ⟨?_, fun h => by simp at h, hnew⟩
            have hfull := he hw
            simp only [output, hw, if_true] at hfull
            simp only [output]
            rw [← hfull]; simp
      · split
        · exact ⟨hl, he, hnew⟩
        · split
          all_goals rw [set_other _ _ _ _ hj]; exact ⟨hl, he, hnew⟩
    · exact ⟨hl, he, hnew⟩
  | frame j f =>
    have hl' : l' = l := by simp [l']
    rw [hl']
    have same : ∀ c : Conn M, output ser c = output ser (s.conns j) → c.writer = (s.conns j).writer →
        (output ser ((s.set j c).conns k)) <+: l.filter ser ∧
        (((s.set j c).conns k).writer = true → output ser ((s.set j c).conns k) = l.filter ser) ∧
        ((s.set j c).accepted ≤ k → l = []) := by
      intro c h1 h2
      by_cases hj : k = j
      · subst hj; rw [set_same, h1, h2]; exact ⟨hl, he, hnew⟩
      · rw [set_other _ _ _ _ hj]; exact ⟨hl, he, hnew⟩
    simp only [step]
    split
    · cases f with
      | text t =>
        simp only
        split
        · split <;> exact same _ rfl rfl
        · exact ⟨hl, he, hnew⟩
      | ping d => simp only; split <;> exact same _ rfl rfl
      | other => exact ⟨hl, he, hnew⟩
      | close => exact same _ rfl rfl
      | error => exact same _ rfl rfl
    · exact ⟨hl, he, hnew⟩
  | receive =>
    have hl' : l' = l := by simp [l']
    rw [hl']
    simp only [step]
    cases hc : s.current with
    | none => exact ⟨hl, he, hnew⟩
    | some j =>
      simp only
      split
      · by_cases hj : k = j
        · subst hj; rw [set_same]; exact ⟨hl, he, hnew⟩
        · rw [set_other _ _ _ _ hj]; exact ⟨hl, he, hnew⟩
      · split <;> exact ⟨hl, he, hnew⟩
  | close =>
    have hl' : l' = l := by simp [l']
    rw [hl']; exact ⟨hl, he, hnew⟩

theorem output_run (parse : T → Option M) (ser : M → Bool) (k : Nat) (ops : List (Op M T)) (s : State M) (h : Inv s) (l : List M)
    (hl : (output ser (s.conns k)) <+: l.filter ser) (he : (s.conns k).writer = true → output ser (s.conns k) = l.filter ser)
    (hnew : s.accepted ≤ k → l = []) :
    (output ser ((run parse ser s ops).conns k)) <+: (l ++ accepted_ parse ser k s ops).filter ser ∧
    (((run parse ser s ops).conns k).writer = true →
      output ser ((run parse ser s ops).conns k) = (l ++ accepted_ parse ser k s ops).filter ser) := by
  induction ops generalizing s l with
  | nil => simp only [run, accepted_, List.append_nil]; exact ⟨hl, he⟩
  | cons op ops ih =>
    obtain ⟨h1, h2, h3⟩ := output_step parse ser k s h op l hl he hnew
    have := ih _ (inv_step parse ser s op h) _ h1 h2 h3
    simp only [run, accepted_]
    rw [List.append_assoc] at this
    exact this

/-- **C130** (exact form). What is on the wire of a connection is the beginning of what was sent while it was the
current one: in order, nothing twice, nothing of another connection. As long as its writer lives, everything accepted is
on the wire or waiting to be. Missing from the property: `Ok` does not mean written (`C130_lost`). -/
theorem C130_order_partial (parse : T → Option M) (ser : M → Bool) (k : Nat) (ops : List (Op M T)) :
    let s := run parse ser {} ops
    (s.conns k).wire <+: (accepted_ parse ser k {} ops).filter ser ∧
    ((s.conns k).writer = true →
      (s.conns k).wire ++ (s.conns k).outgoing.filter ser = (accepted_ parse ser k {} ops).filter ser) := by
  intro s
  have := output_run parse ser k ops ({} : State M) inv_init [] (by simp [output]) (fun _ => by simp [output]) (fun _ => rfl)
  rw [List.nil_append] at this
  refine ⟨?_, ?_⟩
  · refine List.IsPrefix.trans ?_ this.1
    simp [output, s]
  · intro hw
    have h2 := this.2 hw
    simp only [output] at h2
    rw [if_pos hw] at h2
    exact h2

/-- **C130** fails: a message sent to a peer that is gone is accepted and lost. -/
theorem C130_lost (parse : T → Option M) (ser : M → Bool) (m : M) (hm : ser m = true) (ops : List (Op M T)) :
    let s : State M := run parse ser {} ([.accept] : List (Op M T))
    (step parse ser s (.send m : Op M T)).2 = .ok ∧
    ((run parse ser s (.send m :: .write 0 false :: ops)).conns 0).wire = [] := by
  intro s
  refine ⟨rfl, ?_⟩
  have key : ∀ (ops : List (Op M T)) (s : State M), (s.conns 0).writer = false → 0 < s.accepted →
      ((run parse ser s ops).conns 0).wire = (s.conns 0).wire := by
    intro ops
    induction ops with
    | nil => intro s _ _; rfl
    | cons op ops ih =>
      intro s hw ha
      have hstep : ((step parse ser s op).1.conns 0).writer = false ∧ 0 < (step parse ser s op).1.accepted ∧
          ((step parse ser s op).1.conns 0).wire = (s.conns 0).wire := by
        have same : ∀ (j : Nat) (c : Conn M), c.writer = (s.conns j).writer → c.wire = (s.conns j).wire →
            ((s.set j c).conns 0).writer = false ∧ 0 < (s.set j c).accepted ∧ ((s.set j c).conns 0).wire = (s.conns 0).wire := by
          intro j c h1 h2
          by_cases hj : (0 : Nat) = j
          · subst hj; rw [set_same, h1, h2]; exact ⟨hw, ha, rfl⟩
          · rw [set_other _ _ _ _ hj]; exact ⟨hw, ha, rfl⟩
        have other : ∀ (j : Nat) (c : Conn M), j ≠ 0 →
            ((s.set j c).conns 0).writer = false ∧ 0 < (s.set j c).accepted ∧ ((s.set j c).conns 0).wire = (s.conns 0).wire := by
          intro j c hj
          rw [set_other _ _ _ _ (fun h => hj h.symm)]; exact ⟨hw, ha, rfl⟩
        cases op with
        | accept =>
          simp only [step]
          rw [set_other _ _ _ _ (by omega)]
          exact ⟨hw, Nat.succ_pos _, rfl⟩
        | send m =>
          simp only [step]
          cases hc : s.current with
          | none => exact ⟨hw, ha, rfl⟩
          | some j =>
            simp only
            split
            · exact same _ _ rfl rfl
            · exact ⟨hw, ha, rfl⟩
        | write j ok =>
          simp only [step]
          split
          · next hj =>
            have : j ≠ 0 := by rintro rfl; rw [hw] at hj; cases hj
            repeat' split
            all_goals first
              | exact ⟨hw, ha, rfl⟩
              | exact other _ _ this
          · exact ⟨hw, ha, rfl⟩
        | pong j ok =>
          simp only [step]
          split
          · next hj =>
            have : j ≠ 0 := by rintro rfl; rw [hw] at hj; cases hj
            repeat' split
            all_goals first
              | exact ⟨hw, ha, rfl⟩
              | exact other _ _ this
          · exact ⟨hw, ha, rfl⟩
        | frame j f =>
          simp only [step]
          split
          · cases f with
            | text t =>
              simp only
              split
              · split <;> exact same _ _ rfl rfl
              · exact ⟨hw, ha, rfl⟩
            | ping d => simp only; split <;> exact same _ _ rfl rfl
            | other => exact ⟨hw, ha, rfl⟩
            | close => exact same _ _ rfl rfl
            | error => exact same _ _ rfl rfl
          · exact ⟨hw, ha, rfl⟩
        | receive =>
          simp only [step]
          cases hc : s.current with
          | none => exact ⟨hw, ha, rfl⟩
          | some j =>
            simp only
            split
            · exact same _ _ rfl rfl
            · split <;> exact ⟨hw, ha, rfl⟩
        | close => exact ⟨hw, ha, rfl⟩
      simp only [run]
      rw [ih _ hstep.1 hstep.2.1, hstep.2.2]
  have h0 : run parse ser s (.send m :: .write 0 false :: ops) =
      run parse ser (run parse ser s ([.send m, .write 0 false] : List (Op M T))) ops := rfl
  have h1 : ((run parse ser s ([.send m, .write 0 false] : List (Op M T))).conns 0).writer = false ∧
      0 < (run parse ser s ([.send m, .write 0 false] : List (Op M T))).accepted ∧
      ((run parse ser s ([.send m, .write 0 false] : List (Op M T))).conns 0).wire = [] := by
    simp [run, step, s, State.set, hm]
  rw [h0, key _ _ h1.1 h1.2.1, h1.2.2]

example : ([5] : List Nat).all (fun _ => true) = true ∧
    ((run (M := Nat) (T := Nat) some (fun _ => true) {} [.accept, .send 5, .send 6, .write 0 true]).conns 0).wire = [5] := by
  decide

/-! ### C131: receiving -/

/-- The message an operation returned. (Specification: no counterpart in the code.) -/
def msgOf : Out M → List M
  | .message m => [m]
  | _ => []

/-- The messages `receive` returned while connection `k` was the current one.
(Specification: no counterpart in the code.) -/
def got (parse : T → Option M) (ser : M → Bool) (k : Nat) (s : State M) : List (Op M T) → List M
  | [] => []
  | op :: ops => (if s.current = some k then msgOf (step parse ser s op).2 else []) ++
      got parse ser k (step parse ser s op).1 ops

/-- The message of a text frame that arrives on connection `k` while it is the current one and open.
(Specification: no counterpart in the code.) -/
def seenNow (parse : T → Option M) (k : Nat) (s : State M) : Op M T → List M
  | .frame j (.text t) => if j = k ∧ s.current = some k ∧ (s.conns k).reader = true then (parse t).toList else []
  | _ => []

/-- The messages of the text frames that arrive on connection `k` while it is the current one and open.
(Specification: no counterpart in the code.) -/
def seen (parse : T → Option M) (ser : M → Bool) (k : Nat) (s : State M) : List (Op M T) → List M
  | [] => []
  | op :: ops => seenNow parse k s op ++ seen parse ser k (step parse ser s op).1 ops

/-- Nothing is received and nothing comes in. (Specification: no counterpart in the code.) -/
def Idle (k : Nat) (s : State M) (r : State M × Out M) : Prop :=
  msgOf r.2 = [] ∧ (r.1.conns k).incoming = (s.conns k).incoming

theorem idle_same (k : Nat) (s : State M) (o : Out M) (h : msgOf o = []) : Idle k s (s, o) := ⟨h, rfl⟩

theorem idle_set (k j : Nat) (s : State M) (c : Conn M) (o : Out M) (h : msgOf o = [])
    (h1 : c.incoming = (s.conns j).incoming) : Idle k s (s.set j c, o) := by
  refine ⟨h, ?_⟩
  by_cases hj : k = j
  · subst hj; simp only [set_same, h1]
  · simp only [set_other _ _ _ _ hj]

theorem recv_step (parse : T → Option M) (ser : M → Bool) (k : Nat) (s : State M) (op : Op M T)
    (hk : k < s.accepted) :
    (if s.current = some k then msgOf (step parse ser s op).2 else []) ++ ((step parse ser s op).1.conns k).incoming =
    (s.conns k).incoming ++ seenNow parse k s op := by
  have idle : ∀ r, Idle k s r → seenNow parse k s op = [] →
      (if s.current = some k then msgOf r.2 else []) ++ (r.1.conns k).incoming = (s.conns k).incoming ++ seenNow parse k s op := by
    rintro r ⟨h1, h2⟩ h3
    simp [h1, h2, h3]
  cases op with
  | accept =>
    apply idle _ ⟨rfl, ?_⟩ rfl
    simp only [step]
    rw [set_other _ _ _ _ (by omega)]
  | send m =>
    apply idle _ _ rfl
    simp only [step]
    cases hc : s.current with
    | none => exact idle_same _ _ _ rfl
    | some j =>
      simp only
      split
      · exact idle_set _ _ _ _ _ rfl rfl
      · exact idle_same _ _ _ rfl
  | write j ok =>
    apply idle _ _ rfl
    simp only [step]
    repeat' split
    all_goals first
      | exact idle_same _ _ _ rfl
      | exact idle_set _ _ _ _ _ rfl rfl
  | pong j ok =>
    apply idle _ _ rfl
    simp only [step]
    repeat' split
    all_goals first
      | exact idle_same _ _ _ rfl
      | exact idle_set _ _ _ _ _ rfl rfl
  | frame j f =>
    by_cases hj : j < s.accepted ∧ (s.conns j).reader = true
    · cases f with
      | text t =>
        cases hp : parse t with
        | none =>
          apply idle
          · simp only [step, if_pos hj, hp]; exact idle_same _ _ _ rfl
          · simp [seenNow, hp]
        | some m =>
          by_cases hcj : s.current = some j
          · simp only [step, if_pos hj, hp, if_pos hcj]
            by_cases hkj : k = j
            · subst hkj; simp [set_same, hcj, msgOf, seenNow, hp, hj.2]
            · have : ¬ j = k := fun h => hkj h.symm
              simp [set_other _ _ _ _ hkj, hcj, seenNow, this]
          · apply idle
            · simp only [step, if_pos hj, hp, if_neg hcj]; exact idle_set _ _ _ _ _ rfl rfl
            · simp only [seenNow]
              rw [if_neg]
              rintro ⟨rfl, h, -⟩; exact hcj h
      | ping d =>
        apply idle _ _ rfl
        simp only [step, if_pos hj]
        split <;> exact idle_set _ _ _ _ _ rfl rfl
      | other => apply idle _ _ rfl; simp only [step, if_pos hj]; exact idle_same _ _ _ rfl
      | close => apply idle _ _ rfl; simp only [step, if_pos hj]; exact idle_set _ _ _ _ _ rfl rfl
      | error => apply idle _ _ rfl; simp only [step, if_pos hj]; exact idle_set _ _ _ _ _ rfl rfl
    · apply idle
      · simp only [step, if_neg hj]; exact idle_same _ _ _ rfl
      · cases f with
        | text t =>
          simp only [seenNow]
          rw [if_neg]
          rintro ⟨rfl, -, h⟩; exact hj ⟨hk, h⟩
        | _ => rfl
  | receive =>
    cases hc : s.current with
    | none => simp [step, hc, seenNow]
    | some j =>
      cases hi : (s.conns j).incoming with
      | nil =>
        have := idle (step parse ser s .receive) (by
          simp only [step, hc, hi]; split <;> exact idle_same _ _ _ rfl) rfl
        rw [hc] at this; exact this
      | cons m q =>
        simp only [step, hc, hi, Option.some.injEq]
        by_cases hj : k = j
        · subst hj; simp [set_same, hi, msgOf, seenNow]
        · have : ¬ j = k := fun h => hj h.symm
          simp [set_other _ _ _ _ hj, this, seenNow]
  | close => exact idle _ ⟨rfl, rfl⟩ rfl

theorem accepted_mono (parse : T → Option M) (ser : M → Bool) (s : State M) (op : Op M T) :
    s.accepted ≤ (step parse ser s op).1.accepted := by
  cases op with
  | accept => exact Nat.le_succ _
  | send m =>
    simp only [step]
    cases s.current with
    | none => exact Nat.le_refl _
    | some j => simp only; split <;> exact Nat.le_refl _
  | write j ok => simp only [step]; repeat' split
                  all_goals exact Nat.le_refl _
  | pong j ok => simp only [step]; repeat' split
                 all_goals exact Nat.le_refl _
  | frame j f =>
    simp only [step]
    split
    · cases f <;> simp only <;> repeat' split
      all_goals exact Nat.le_refl _
    · exact Nat.le_refl _
  | receive =>
    simp only [step]
    cases s.current with
    | none => exact Nat.le_refl _
    | some j => simp only; repeat' split
                all_goals exact Nat.le_refl _
  | close => exact Nat.le_refl _

/-- **C131** (exact form). The messages received from a connection, and those waiting, are those of the text frames
that arrived on it while it was the current one: in order, each once. Missing from the property: those still waiting
when the next connection is accepted are lost (`C131_replaced_lost`). -/
theorem C131_receive_partial (parse : T → Option M) (ser : M → Bool) (pre ops : List (Op M T)) :
    let s0 := run parse ser {} (pre ++ [.accept])
    let k := (run parse ser ({} : State M) pre).accepted
    got parse ser k s0 ops ++ ((run parse ser s0 ops).conns k).incoming = seen parse ser k s0 ops := by
  have key : ∀ (ops : List (Op M T)) k s, Inv s → k < s.accepted →
      got parse ser k s ops ++ ((run parse ser s ops).conns k).incoming = (s.conns k).incoming ++ seen parse ser k s ops := by
    intro ops
    induction ops with
    | nil => intro k s _ _; simp [got, run, seen]
    | cons op ops ih =>
      intro k s h hk
      have h1 := recv_step parse ser k s op hk
      have h2 := ih k _ (inv_step parse ser s op h) (Nat.lt_of_lt_of_le hk (accepted_mono parse ser s op))
      simp only [got, run, seen]
      rw [List.append_assoc, h2, ← List.append_assoc, h1, List.append_assoc]
  have inv_run : ∀ (ops : List (Op M T)) s, Inv s → Inv (run parse ser s ops) := by
    intro ops
    induction ops with
    | nil => intro s h; exact h
    | cons op ops ih => intro s h; exact ih _ (inv_step parse ser s op h)
  have happ : ∀ (a b : List (Op M T)) s, run parse ser s (a ++ b) = run parse ser (run parse ser s a) b := by
    intro a
    induction a with
    | nil => intro b s; rfl
    | cons op a ih => intro b s; exact ih b _
  intro s0 k
  have hs : s0 = (step parse ser (run parse ser {} pre) (.accept : Op M T)).1 := by simp only [s0, happ]; rfl
  have h0 : (s0.conns k).incoming = [] := by
    rw [hs]; simp only [step, k]; rw [set_same]
  have := key ops k s0 (inv_run _ _ inv_init) (by rw [hs]; exact Nat.lt_succ_self _)
  rw [h0, List.nil_append] at this
  exact this

/-- **C131** fails: a message that arrived before the next connection is accepted and was not yet received is
lost. -/
theorem C131_replaced_lost (parse : T → Option M) (ser : M → Bool) (t : T) (m : M) (hp : parse t = some m) :
    let s : State M := run parse ser {} ([.accept, .frame 0 (.text t), .accept] : List (Op M T))
    ((run parse ser ({} : State M) ([.accept, .frame 0 (.text t)] : List (Op M T))).conns 0).incoming = [m] ∧
    (step parse ser s (.receive : Op M T)).2 = .waits := by
  refine ⟨?_, ?_⟩
  · simp [run, step, State.set, hp]
  · simp [run, step, State.set, hp]

/-- **C131** fails: `is_connected` stays true after the peer has gone. -/
theorem C131_stays_connected (parse : T → Option M) (ser : M → Bool) (s : State M) (h : isConnected s = true)
    (ops : List (Op M T)) (hops : ∀ op ∈ ops, op ≠ .close) : isConnected (run parse ser s ops) = true := by
  induction ops generalizing s with
  | nil => exact h
  | cons op ops ih =>
    refine ih _ ?_ (fun o ho => hops o (by simp [ho]))
    have hset : ∀ k c, isConnected (s.set k c) = isConnected s := fun _ _ => rfl
    cases op with
    | accept => rfl
    | send m =>
      simp only [step]
      split
      · exact h
      · split
        · rw [hset]; exact h
        · exact h
    | write k ok =>
      simp only [step]
      repeat' split
      all_goals first
        | exact h
        | rw [hset]; exact h
    | pong k ok =>
      simp only [step]
      repeat' split
      all_goals first
        | exact h
        | rw [hset]; exact h
    | frame k f =>
      simp only [step]
      split
      · cases f <;> simp only <;> repeat' split
        all_goals first
          | exact h
          | rw [hset]; exact h
      · exact h
    | receive =>
      simp only [step]
      split
      · exact h
      · repeat' split
        all_goals first
          | exact h
          | rw [hset]; exact h
    | close => exact absurd rfl (hops .close (by simp))

example : isConnected (run (M := Nat) (T := Nat) some (fun _ => true) {} [.accept, .frame 0 .close]) = true := by decide

end WsServer

end Verif.Transports
