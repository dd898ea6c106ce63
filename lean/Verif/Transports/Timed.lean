import Verif.Common.ListExtra

/-
C235: how long a call over `HttpTransport` and `WebSocketTransport` waits, and what its configured timeout does.

Models the awaits of /repo/src/shared/http.rs L98-119 (`connect_sse`), L182-234 (`send_request`) and
/repo/src/shared/websocket.rs L257-262 (`receive`) with the time that passes between what they wait for. Time is counted in
milliseconds, the resolution of tokio's timer. Not modelled: the place in the queue that `send_request` waits for at its
end (L229; C127).
-/

namespace Verif.Transports.Timed

/-- The timeouts that can be configured, in milliseconds: `HttpConfig::timeout`, `WebSocketConfig::request_timeout`.
/repo/src/shared/http.rs L28-29, /repo/src/shared/websocket.rs L32-33. -/
structure Cfg where
  httpTimeout : Nat
  wsTimeout : Nat

/-- What is called. /repo/src/shared/http.rs L98, L239-242, /repo/src/shared/websocket.rs L257-262. -/
inductive Kind where
  | httpSend
  | httpEvents
  | wsReceive
  deriving DecidableEq

/-- What the call waits for, one after the other, with the limits in force: the head of the answer (http.rs L198-206) and its
body (L217-225) for a request, the head of the answer for an event stream (http.rs L115-119), a message (websocket.rs
L259). `request_timeout` is used nowhere. /repo/src/shared/http.rs L98-119, L182-234. -/
def stages (c : Cfg) : Kind → List (Option Nat)
  | .httpSend => [some c.httpTimeout, none]
  | .httpEvents => [none]
  | .wsReceive => [none]

/-- `timeout.as_secs() * 1000`: what the error says. /repo/src/shared/http.rs L200. -/
def reported (ms : Nat) : Nat := ms / 1000 * 1000

/-- A call: it has waited `spent` for the first of `todo`, it gave up and says so, or it ended otherwise.
/repo/src/shared/http.rs L182-234. -/
inductive St where
  | waiting (spent : Nat) (todo : List (Option Nat))
  | timedOut (says : Nat)
  | over
  deriving DecidableEq

/-- A millisecond passes, what the call waits for comes, or an error instead of it. /repo/src/shared/http.rs L198-225. -/
inductive Op where
  | tick
  | comes
  | fails
  deriving DecidableEq

/-- One step. /repo/src/shared/http.rs L182-234. -/
def step : St → Op → St
  | .waiting _ [], _ => .over
  | .waiting n (none :: l), .tick => .waiting (n + 1) (none :: l)
  | .waiting n (some t :: l), .tick => if t ≤ n + 1 then .timedOut (reported t) else .waiting (n + 1) (some t :: l)
  | .waiting _ [_], .comes => .over
  | .waiting _ (_ :: l), .comes => .waiting 0 l
  | .waiting _ _, .fails => .over
  | s, _ => s

/-- An execution. (Any times at which the awaits of /repo/src/shared/http.rs L182-234 end.) -/
def run (s : St) (l : List Op) : St := l.foldl step s

/-- A call begins. /repo/src/shared/http.rs L98, L239-242, /repo/src/shared/websocket.rs L257-262. -/
def start (c : Cfg) (k : Kind) : St := .waiting 0 (stages c k)

/-! ### Specifications -/

/-- The timeout that the user configured for the call. (Specification: no counterpart in the code.) -/
def configured (c : Cfg) : Kind → Nat
  | .httpSend => c.httpTimeout
  | .httpEvents => c.httpTimeout
  | .wsReceive => c.wsTimeout

/-- The call has returned. (Specification: no counterpart in the code.) -/
def Ended : St → Prop
  | .waiting _ _ => False
  | _ => True

/-- The time that passes before the first other event, and what follows it. (Specification: no counterpart in the
code.) -/
def quiet : List Op → Nat
  | .tick :: l => quiet l + 1
  | _ => 0

/-! ### Lemmas -/

theorem run_over (l : List Op) : run .over l = .over := by
  induction l with
  | nil => rfl
  | cons o l ih => cases o <;> exact ih

theorem run_timedOut (t : Nat) (l : List Op) : run (.timedOut t) l = .timedOut t := by
  induction l with
  | nil => rfl
  | cons o l ih => cases o <;> exact ih

theorem run_append (s : St) (a b : List Op) : run s (a ++ b) = run (run s a) b := by simp [run, List.foldl_append]

theorem unlimited (n k : Nat) (l : List (Option Nat)) :
    run (.waiting n (none :: l)) (List.replicate k .tick) = .waiting (n + k) (none :: l) := by
  induction k generalizing n with
  | zero => rfl
  | succ k ih =>
    rw [List.replicate_succ]
    show run (.waiting (n + 1) (none :: l)) (List.replicate k .tick) = _
    rw [ih]; congr 1; omega

theorem limited (t n k : Nat) (l : List (Option Nat)) (hn : n < t ∨ n = 0) :
    run (.waiting n (some t :: l)) (List.replicate k .tick) =
      if k = 0 ∨ n + k < t then .waiting (n + k) (some t :: l) else .timedOut (reported t) := by
  induction k generalizing n with
  | zero => simp [run]
  | succ k ih =>
    rw [List.replicate_succ]
    show run (step (.waiting n (some t :: l)) .tick) (List.replicate k .tick) = _
    simp only [step]
    split
    · rw [run_timedOut, if_neg (by omega)]
    · rw [ih (n + 1) (by omega)]
      by_cases h : n + (k + 1) < t
      · rw [if_pos (by omega), if_pos (.inr h)]; congr 1; omega
      · rw [if_neg (by omega), if_neg (by omega)]

/-! ### C235 -/

/-- **C235** (what holds). A request whose answer's head does not come waits for the configured time and no longer: after
`k` milliseconds it has returned exactly if `k` is that time or more (a time of 0 counts as 1). -/
theorem C235_head_partial (c : Cfg) (k : Nat) :
    Ended (run (start c .httpSend) (List.replicate k .tick)) ↔ 0 < k ∧ c.httpTimeout ≤ k := by
  simp only [start, stages]
  rw [limited _ 0 k _ (.inr rfl)]
  split
  · simp only [Ended, false_iff]; omega
  · simp only [Ended, true_iff]; omega

/-- The whole time of a request is at most the configured time and what passes after the head of the answer. -/
theorem C235_total_partial (c : Cfg) (l : List Op) (h : ¬ Ended (run (start c .httpSend) l)) :
    quiet l = 0 ∨ quiet l < c.httpTimeout := by
  have hl : ∃ l', l = List.replicate (quiet l) .tick ++ l' := by
    clear h
    induction l with
    | nil => exact ⟨[], rfl⟩
    | cons o l ih =>
      cases o with
      | tick =>
        obtain ⟨l', e⟩ := ih
        exact ⟨l', by simp only [quiet, List.replicate_succ, List.cons_append]; rw [← e]⟩
      | comes => exact ⟨.comes :: l, rfl⟩
      | fails => exact ⟨.fails :: l, rfl⟩
  obtain ⟨l', e⟩ := hl
  rw [e, run_append] at h
  simp only [start, stages] at h
  rw [limited _ 0 _ _ (.inr rfl)] at h
  split at h
  · omega
  · rw [run_timedOut] at h; exact absurd trivial h

/-- **C235** fails for the body of an answer: once the head has come in time, the request waits for the rest however long
it takes, whatever is configured. -/
theorem C235_body_waits (c : Cfg) (a k : Nat) (ha : a = 0 ∨ a < c.httpTimeout) :
    ¬ Ended (run (start c .httpSend) (List.replicate a .tick ++ .comes :: List.replicate k .tick)) := by
  rw [run_append]
  simp only [start, stages]
  rw [limited _ 0 a _ (.inr rfl), if_pos (by omega)]
  show ¬ Ended (run (.waiting 0 [none]) (List.replicate k .tick))
  rw [unlimited]
  exact fun h => h

/-- **C235** fails for the opening of an event stream and for a WebSocket: they wait without limit. -/
theorem C235_no_limit (c : Cfg) (k : Nat) :
    ¬ Ended (run (start c .httpEvents) (List.replicate k .tick)) ∧
      ¬ Ended (run (start c .wsReceive) (List.replicate k .tick)) := by
  simp only [start, stages, unlimited]
  exact ⟨fun h => h, fun h => h⟩

/-- **C235**, exactly: that a call which is left without an event ends within the configured time (or 1) holds for requests
over HTTP only. -/
theorem C235_in_time_iff (c : Cfg) (k : Kind) :
    Ended (run (start c k) (List.replicate (max (configured c k) 1) .tick)) ↔ k = .httpSend := by
  cases k with
  | httpSend =>
    simp only [configured, C235_head_partial, iff_true]
    exact ⟨Nat.lt_of_lt_of_le Nat.one_pos (Nat.le_max_right _ _), Nat.le_max_left _ _⟩
  | httpEvents => exact ⟨fun h => absurd h (C235_no_limit c _).1, fun h => by cases h⟩
  | wsReceive => exact ⟨fun h => absurd h (C235_no_limit c _).2, fun h => by cases h⟩

/-- The error of a call that gave up tells the configured time exactly if that is a whole number of seconds. -/
theorem C235_reported (c : Cfg) (l : List Op) (t : Nat) (h : run (start c .httpSend) l = .timedOut t) :
    t = c.httpTimeout ↔ c.httpTimeout % 1000 = 0 := by
  have key : ∀ (l : List Op) (s : St), (s = .over ∨ s = .timedOut (reported c.httpTimeout) ∨
      (∃ n, s = .waiting n [some c.httpTimeout, none]) ∨ ∃ n, s = .waiting n [none]) → run s l = .timedOut t →
      t = reported c.httpTimeout := by
    intro l
    induction l with
    | nil =>
      intro s hs h
      simp only [run, List.foldl_nil] at h
      subst h
      rcases hs with hs | hs | ⟨n, hs⟩ | ⟨n, hs⟩ <;> cases hs
      rfl
    | cons o l ih =>
      intro s hs h
      refine ih (step s o) ?_ h
      rcases hs with rfl | rfl | ⟨n, rfl⟩ | ⟨n, rfl⟩
      · cases o <;> exact .inl rfl
      · cases o <;> exact .inr (.inl rfl)
      · cases o with
        | tick =>
          simp only [step]
          split
          · exact .inr (.inl rfl)
          · exact .inr (.inr (.inl ⟨_, rfl⟩))
        | comes => exact .inr (.inr (.inr ⟨0, rfl⟩))
        | fails => exact .inl rfl
      · cases o with
        | tick => exact .inr (.inr (.inr ⟨_, rfl⟩))
        | comes => exact .inl rfl
        | fails => exact .inl rfl
  rw [key l _ (.inr (.inr (.inl ⟨0, rfl⟩))) h]
  unfold reported
  omega

/-- A timeout below a second is reported as 0. -/
example : run (start ⟨500, 0⟩ .httpSend) (List.replicate 500 .tick) = .timedOut 0 := by decide +kernel

/-- Answered in time. -/
example : run (start ⟨3, 0⟩ .httpSend) [.tick, .tick, .comes, .tick, .tick, .tick, .tick, .comes] = .over := by decide

/-- An error ends each. -/
example : ∀ k, run (start ⟨3, 3⟩ k) [.tick, .fails] = .over := by intro k; cases k <;> decide

end Verif.Transports.Timed
