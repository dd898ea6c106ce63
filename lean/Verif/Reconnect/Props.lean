import Verif.Reconnect.Model
import Verif.Reconnect.Delay
import Verif.Common.ListExtra

/-
Properties C17, C18, C19: the reconnection manager.
-/

namespace Verif.Reconnect

/-! ### C17: bounded attempts -/

/-- Number of connection attempts started, as seen through the callbacks.
(Specification: no counterpart in the code.) -/
def attemptsIn (cbs : List Callback) : Nat :=
  (cbs.filter (fun c => match c with | .connecting _ => true | _ => false)).length

/-- Number of times the circuit breaker let a probe through after its timeout.
(Specification: no counterpart in the code.) -/
def closingsIn (cbs : List Callback) : Nat :=
  (cbs.filter (fun c => decide (c = .circuitClose))).length

theorem attemptsIn_append (a b : List Callback) :
    attemptsIn (a ++ b) = attemptsIn a + attemptsIn b := by simp [attemptsIn]
theorem closingsIn_append (a b : List Callback) :
    closingsIn (a ++ b) = closingsIn a + closingsIn b := by simp [closingsIn]

/-- What the environment does while the connection is down: it runs `reconnect_with` with a failing
`connect` any number of times, asks `should_reconnect`, enables or disables, reports a lost
connection. (Specification: no counterpart in the code.) -/
inductive Down where
  | reconnect (rounds : List (Nat × Nat × Nat))
  | should (now : Nat)
  | disconnected (now : Nat)
  | enable (b : Bool)

/-- One such action, with the callbacks observed. (Specification: no counterpart in the code.) -/
def stepDown (cfg : Config) (s : State) : Down → State × List Callback
  | .reconnect rounds =>
    let r := reconnectWith cfg s (rounds.map (fun t => ⟨false, t.1, t.2.1, t.2.2⟩)); (r.1, r.2.2)
  | .should now => let r := shouldReconnect cfg s now; (r.1, r.2.2)
  | .disconnected now => (onDisconnected cfg s now, [])
  | .enable b => (setEnabled s b, [])

/-- All callbacks of a history of actions. (Specification: no counterpart in the code.) -/
def callbacksDown (cfg : Config) (s : State) : List Down → List Callback
  | [] => []
  | a :: as => (stepDown cfg s a).2 ++ callbacksDown cfg (stepDown cfg s a).1 as

/-- Attempts left. (Specification: no counterpart in the code.) -/
def budget (m : Nat) (s : State) : Nat := if s.st = .connected then m else m - s.retry

theorem should_budget (cfg : Config) (m : Nat) (hm : cfg.maxRetries = some m) (s : State) (now : Nat) :
    let r := shouldReconnect cfg s now
    attemptsIn r.2.2 = 0 ∧ budget m r.1 = budget m s ∧ r.1.retry = s.retry ∧
    (r.2.1 = true → r.1.st ≠ .connected ∧ (s.retry < m ∨ closingsIn r.2.2 = 1)) := by
  simp only
  unfold shouldReconnect
  by_cases he : s.enabled = false
  · rw [if_pos he]; simp [attemptsIn]
  · rw [if_neg he]
    cases hst : s.st with
    | connected => simp [attemptsIn]
    | connecting => simp [attemptsIn]
    | circuitOpen =>
      cases ho : s.openedAt with
      | none => simp [attemptsIn]
      | some t =>
        simp only
        split
        · simp [attemptsIn, closingsIn, budget, hst]
        · simp [attemptsIn]
    | disconnected => simp [attemptsIn, hm, hst]; exact Or.inl
    | waitingRetry => simp [attemptsIn, hm, hst]; exact Or.inl

theorem onFailed_eq (cfg : Config) (s : State) (now : Nat) :
    (onFailed cfg s now).1.retry = s.retry + 1 ∧ (onFailed cfg s now).1.st ≠ .connected ∧
    attemptsIn (onFailed cfg s now).2 = 0 ∧ closingsIn (onFailed cfg s now).2 = 0 := by
  unfold onFailed
  split <;> simp [attemptsIn, closingsIn]

theorem reconnect_budget (cfg : Config) (m : Nat) (hm : cfg.maxRetries = some m)
    (rounds : List (Nat × Nat × Nat)) (s : State) :
    let r := reconnectWith cfg s (rounds.map (fun t => ⟨false, t.1, t.2.1, t.2.2⟩))
    attemptsIn r.2.2 + budget m r.1 ≤ budget m s + closingsIn r.2.2 := by
  simp only
  induction rounds generalizing s with
  | nil => simp [reconnectWith, attemptsIn, closingsIn]
  | cons r rs ih =>
    rw [List.map_cons]
    unfold reconnectWith
    simp only [Bool.false_eq_true, if_false]
    obtain ⟨a1, a2, a3, a4⟩ := should_budget cfg m hm s r.1
    by_cases h1 : (shouldReconnect cfg s r.1).2.1 = false
    · rw [if_pos h1]; simp only; omega
    · rw [if_neg h1]
      have h1' : (shouldReconnect cfg s r.1).2.1 = true := by simpa using h1
      obtain ⟨a5, a6⟩ := a4 h1'
      generalize hA : shouldReconnect cfg s r.1 = A at a1 a2 a3 a5 a6
      have hst : (onConnecting A.1).1.retry = A.1.retry := rfl
      obtain ⟨c1, c2, c3, c4⟩ := onFailed_eq cfg (onConnecting A.1).1 r.2.1
      generalize hC : onFailed cfg (onConnecting A.1).1 r.2.1 = C at c1 c2 c3 c4
      obtain ⟨d1, d2, d3, _⟩ := should_budget cfg m hm C.1 r.2.2
      have hbA : budget m A.1 = m - A.1.retry := by simp [budget, a5]
      have hbC : budget m C.1 = m - C.1.retry := by simp [budget, c2]
      have hcon : attemptsIn (onConnecting A.1).2 = 1 ∧ closingsIn (onConnecting A.1).2 = 0 := by
        simp [onConnecting, attemptsIn, closingsIn]
      have key : ∀ (x : State) (cb : List Callback), budget m x ≤ budget m C.1 →
          1 + budget m x ≤ budget m s + closingsIn A.2.2 := by
        intro x _ hx
        rw [hbC, c1, hst, a3] at hx
        rw [a3] at hbA
        rcases a6 with h | h <;> omega
      by_cases h2 : (shouldReconnect cfg C.1 r.2.2).2.1 = false
      · rw [if_pos h2]
        simp only [attemptsIn_append, closingsIn_append, hcon, c3, c4, d1, a1]
        have := key (shouldReconnect cfg C.1 r.2.2).1 [] (by omega)
        omega
      · rw [if_neg h2]
        simp only [attemptsIn_append, closingsIn_append, hcon, c3, c4, d1, a1]
        have h3 := ih (shouldReconnect cfg C.1 r.2.2).1
        have := key (shouldReconnect cfg C.1 r.2.2).1 [] (by omega)
        omega

theorem down_budget (cfg : Config) (m : Nat) (hm : cfg.maxRetries = some m) (as : List Down)
    (s : State) :
    attemptsIn (callbacksDown cfg s as) ≤ budget m s + closingsIn (callbacksDown cfg s as) := by
  induction as generalizing s with
  | nil => simp [callbacksDown, attemptsIn]
  | cons a as ih =>
    unfold callbacksDown
    rw [attemptsIn_append, closingsIn_append]
    have h1 := ih (stepDown cfg s a).1
    have h2 : attemptsIn (stepDown cfg s a).2 + budget m (stepDown cfg s a).1 ≤
        budget m s + closingsIn (stepDown cfg s a).2 := by
      cases a with
      | reconnect rounds => exact reconnect_budget cfg m hm rounds s
      | should now =>
        obtain ⟨a1, a2, _⟩ := should_budget cfg m hm s now
        simp only [stepDown]
        omega
      | disconnected now =>
        simp only [stepDown, attemptsIn, closingsIn, List.filter_nil, List.length_nil, Nat.zero_add,
          Nat.add_zero]
        unfold onDisconnected budget
        simp only [reduceCtorEq, if_false]
        by_cases hs : s.st = .connected
        · rw [if_pos hs]; exact Nat.sub_le _ _
        · rw [if_neg hs]
          have : longLived cfg s now = false := by
            unfold longLived
            cases s.lastSuccess <;> simp [hs]
          rw [this]; simp
      | enable b =>
        show 0 + budget m s ≤ budget m s + 0
        omega
    omega

/-- **C17**, part that holds: from any state, in every history without a successful connection or a
counter reset, the number of connection attempts is at most `max_retries` plus the number of times
the circuit breaker reported its timeout. -/
theorem C17_attempts_bounded_partial (cfg : Config) (m : Nat) (hm : cfg.maxRetries = some m)
    (s : State) (as : List Down) :
    attemptsIn (callbacksDown cfg s as) ≤ m + closingsIn (callbacksDown cfg s as) := by
  have := down_budget cfg m hm as s
  have hb : budget m s ≤ m := by unfold budget; split <;> omega
  omega

/-- Without circuit breaker, states that can be reached are never in `circuitOpen`. -/
theorem run_not_open (cfg : Config) (h : cfg.threshold = none) (ops : List Op) :
    (run cfg {} ops).st ≠ .circuitOpen := by
  suffices hg : ∀ s : State, s.st ≠ .circuitOpen → (run cfg s ops).st ≠ .circuitOpen from
    hg {} (by decide)
  induction ops with
  | nil => intro s hs; exact hs
  | cons op ops ih =>
    intro s hs
    refine ih _ ?_
    cases op with
    | should now =>
      simp only [step, shouldReconnect]
      split
      · exact hs
      · split <;> (try exact hs)
        · rename_i h1; exact absurd h1 hs
        · split <;> exact hs
    | connecting => simp [step, onConnecting]
    | connected now => simp [step, onConnected]
    | failed now => simp [step, onFailed, reaches, h]
    | disconnected now => simp [step, onDisconnected]
    | reset => exact hs
    | enable b => exact hs

theorem callbacksDown_no_close (cfg : Config) (h : cfg.threshold = none) (as : List Down) (s : State)
    (hs : s.st ≠ .circuitOpen) : closingsIn (callbacksDown cfg s as) = 0 := by
  have should_ok : ∀ (s : State) (now : Nat), s.st ≠ .circuitOpen →
      (shouldReconnect cfg s now).1.st ≠ .circuitOpen ∧
        closingsIn (shouldReconnect cfg s now).2.2 = 0 := by
    intro s now hs
    simp only [shouldReconnect]
    split
    · exact ⟨hs, rfl⟩
    · split <;> (try exact ⟨hs, rfl⟩)
      · rename_i h1; exact absurd h1 hs
      · split <;> exact ⟨hs, rfl⟩
  have rec_ok : ∀ (rounds : List (Nat × Nat × Nat)) (s : State), s.st ≠ .circuitOpen →
      (reconnectWith cfg s (rounds.map (fun t => ⟨false, t.1, t.2.1, t.2.2⟩))).1.st ≠ .circuitOpen ∧
      closingsIn (reconnectWith cfg s (rounds.map (fun t => ⟨false, t.1, t.2.1, t.2.2⟩))).2.2 = 0 := by
    intro rounds
    induction rounds with
    | nil => intro s hs; exact ⟨hs, rfl⟩
    | cons r rs ih =>
      intro s hs
      rw [List.map_cons]
      unfold reconnectWith
      simp only [Bool.false_eq_true, if_false]
      obtain ⟨a1, a2⟩ := should_ok s r.1 hs
      split
      · exact ⟨a1, a2⟩
      · generalize shouldReconnect cfg s r.1 = A at a1 a2
        have hf : ∀ x : State, (onFailed cfg x r.2.1).1.st ≠ .circuitOpen ∧
            closingsIn (onFailed cfg x r.2.1).2 = 0 := by
          intro x; simp [onFailed, reaches, h, closingsIn]
        obtain ⟨f1, f2⟩ := hf (onConnecting A.1).1
        obtain ⟨d1, d2⟩ := should_ok _ r.2.2 f1
        have hc : closingsIn (onConnecting A.1).2 = 0 := rfl
        split
        · refine ⟨d1, ?_⟩
          simp only [closingsIn_append]; omega
        · obtain ⟨e1, e2⟩ := ih _ d1
          refine ⟨e1, ?_⟩
          simp only [closingsIn_append]; omega
  induction as generalizing s with
  | nil => rfl
  | cons a as ih =>
    unfold callbacksDown
    rw [closingsIn_append]
    have : (stepDown cfg s a).1.st ≠ .circuitOpen ∧ closingsIn (stepDown cfg s a).2 = 0 := by
      cases a with
      | reconnect rounds => exact rec_ok rounds s hs
      | should now => exact should_ok s now hs
      | disconnected now => exact ⟨by simp [stepDown, onDisconnected], rfl⟩
      | enable b => exact ⟨hs, rfl⟩
    rw [this.2, ih _ this.1]

/-- **C17** without circuit breaker: after any history of calls, once the connection is down at most
`max_retries` attempts are started until a success (or a reset), for every pattern of failures. -/
theorem C17_attempts_bounded_no_breaker (cfg : Config) (m : Nat) (hm : cfg.maxRetries = some m)
    (hb : cfg.threshold = none) (history : List Op) (as : List Down) :
    attemptsIn (callbacksDown cfg (run cfg {} history) as) ≤ m := by
  have h1 := C17_attempts_bounded_partial cfg m hm (run cfg {} history) as
  have h2 := callbacksDown_no_close cfg hb as _ (run_not_open cfg hb history)
  omega

/-- Configuration for the counterexample: one retry, breaker opening at the first failure.
(Specification: no counterpart in the code.) -/
def tightCfg : Config := ⟨some 1, true, 0, some 1, 10⟩

/-- `n` times: run `reconnect_with` with a failing `connect`, each time after the breaker's timeout.
(Specification: no counterpart in the code.) -/
def patient : Nat → Nat → List Down
  | _, 0 => []
  | t, n + 1 => .reconnect [(t, t, t)] :: patient (t + 10) n

theorem patient_attempts (n : Nat) : ∀ (t : Nat) (s : State), s.enabled = true →
    ((s.st = .circuitOpen ∧ s.openedAt = some (t - 10) ∧ 10 ≤ t) ∨ (s.st = .disconnected ∧ s.retry = 0)) →
    attemptsIn (callbacksDown tightCfg s (patient t n)) = n := by
  induction n with
  | zero => intro t s _ _; rfl
  | succ n ih =>
    intro t s he hs
    unfold patient callbacksDown
    rw [attemptsIn_append]
    have hshould : (shouldReconnect tightCfg s t).2.1 = true ∧
        (shouldReconnect tightCfg s t).1.enabled = true ∧
        attemptsIn (shouldReconnect tightCfg s t).2.2 = 0 := by
      unfold shouldReconnect
      rw [if_neg (by simp [he])]
      rcases hs with ⟨h1, h2, h3⟩ | ⟨h1, h2⟩
      · rw [h1, h2]
        simp only
        rw [if_pos (show t - (t - 10) ≥ tightCfg.cbTimeout by show 10 ≤ _; omega)]
        exact ⟨rfl, he, rfl⟩
      · rw [h1]
        simp [tightCfg, h2, he, attemptsIn]
    obtain ⟨s1, s2, s3⟩ := hshould
    simp only [stepDown, List.map_cons, List.map_nil]
    unfold reconnectWith
    simp only [s1, Bool.true_eq_false, Bool.false_eq_true, if_false]
    generalize shouldReconnect tightCfg s t = A at s1 s2 s3
    have hf : onFailed tightCfg (onConnecting A.1).1 t =
        ({ (onConnecting A.1).1 with st := .circuitOpen, retry := A.1.retry + 1, failures := A.1.failures + 1
                                     openedAt := some t }, [.circuitOpen, .failed]) := by
      unfold onFailed
      rw [if_pos (by simp [reaches, tightCfg, onConnecting])]
      rfl
    have hd : ∀ x : State, x.st = .circuitOpen → x.openedAt = some t →
        shouldReconnect tightCfg x t = (x, false, []) := by
      intro x h1 h2
      unfold shouldReconnect
      split
      · rfl
      · rw [h1, h2]
        simp only
        rw [if_neg (by simp [tightCfg])]
    rw [hf]
    simp only
    rw [hd _ rfl rfl]
    simp only [if_true, attemptsIn_append]
    have hc : attemptsIn (onConnecting A.1).2 = 1 := rfl
    rw [ih (t + 10) { (onConnecting A.1).1 with
      st := .circuitOpen, retry := A.1.retry + 1, failures := A.1.failures + 1, openedAt := some t }
      s2 (Or.inl ⟨rfl, by simp, by omega⟩), s3, hc]
    show 0 + 1 + 0 + 0 + n = n + 1
    omega

/-- **C17** is false with a circuit breaker: with `max_retries = 1`, for every `n` there is a history
in which `n` attempts fail and none succeeds (each time the breaker's timeout passes, an attempt is
allowed without looking at the retry limit). -/
theorem C17_unbounded_with_breaker (n : Nat) :
    ∃ as, attemptsIn (callbacksDown tightCfg {} as) = n :=
  ⟨patient 0 n, patient_attempts n 0 {} rfl (Or.inr ⟨rfl, rfl⟩)⟩

example : attemptsIn (callbacksDown ⟨some 3, true, 0, none, 0⟩ {}
    [.reconnect [(0, 1, 2), (3, 4, 5), (6, 7, 8), (9, 9, 9)], .reconnect [(10, 10, 10)]]) = 3 := by decide

/-- **C17**, results of `reconnect_with`: it reports success only when its last `connect` call
succeeded, and then the manager is connected; every other end leaves it not connected. -/
theorem C17_reconnect_result (cfg : Config) (rounds : List Round) (s : State) (hs : s.st ≠ .connected) :
    ((reconnectWith cfg s rounds).2.1 = .ok ↔ (reconnectWith cfg s rounds).1.st = .connected) ∧
    ((reconnectWith cfg s rounds).2.1 = .ok → ∃ r ∈ rounds, r.ok = true) := by
  have should_ok : ∀ (s : State) (now : Nat), s.st ≠ .connected →
      (shouldReconnect cfg s now).1.st ≠ .connected := by
    intro s now hs
    simp only [shouldReconnect]
    split
    · exact hs
    · split <;> (try exact hs)
      · split
        · split
          · simp
          · exact hs
        · exact hs
      · split <;> exact hs
  induction rounds generalizing s with
  | nil => exact ⟨⟨fun h => by simp [reconnectWith] at h, fun h => absurd h hs⟩,
      fun h => by simp [reconnectWith] at h⟩
  | cons r rs ih =>
    unfold reconnectWith
    simp only
    split
    · exact ⟨⟨(fun h => by cases h), fun h => absurd h (should_ok _ _ hs)⟩, (fun h => by cases h)⟩
    · split
      · rename_i hr
        exact ⟨⟨fun _ => rfl, fun _ => rfl⟩, fun _ => ⟨r, List.mem_cons_self, hr⟩⟩
      · have hf : (onFailed cfg (onConnecting (shouldReconnect cfg s r.t1).1).1 r.t2).1.st ≠ .connected :=
          (onFailed_eq _ _ _).2.1
        split
        · exact ⟨⟨(fun h => by cases h), fun h => absurd h (should_ok _ _ hf)⟩, (fun h => by cases h)⟩
        · obtain ⟨i1, i2⟩ := ih _ (should_ok _ r.t3 hf)
          refine ⟨i1, fun h => ?_⟩
          obtain ⟨x, hx, hx2⟩ := i2 h
          exact ⟨x, List.mem_cons_of_mem _ hx, hx2⟩

example : (reconnectWith ⟨some 3, true, 0, some 5, 10⟩ {} [⟨false, 0, 1, 2⟩, ⟨true, 3, 4, 5⟩]).2.1 = .ok := by
  decide

/-- What the callbacks say about attempts, without those of the breaker. (Specification: no counterpart in the code.) -/
def told (cbs : List Callback) : List Callback :=
  cbs.filter (fun c => !(decide (c = .circuitOpen) || decide (c = .circuitClose)))

theorem told_should (cfg : Config) (s : State) (now : Nat) :
    told (shouldReconnect cfg s now).2.2 = [] ∧ (shouldReconnect cfg s now).1.retry = s.retry ∧
      (shouldReconnect cfg s now).1.attempts = s.attempts := by
  unfold shouldReconnect
  split
  · simp [told]
  · split
    · simp [told]
    · simp [told]
    · split
      · split <;> simp [told]
      · simp [told]
    · split <;> simp [told]

theorem told_failed (cfg : Config) (s : State) (now : Nat) :
    told (onFailed cfg s now).2 = [.failed] ∧ (onFailed cfg s now).1.retry = s.retry + 1 ∧
      (onFailed cfg s now).1.attempts = s.attempts := by
  unfold onFailed
  split <;> simp [told]

/-- **C17** (what is told). Whatever the state and the outcomes, the callbacks of `reconnect_with` tell each attempt with
its number, one after another from the retry count on, and how it ended, right after it; the last is told as connected
exactly if the call returns `Ok`. The outcomes told are those of `connect`, and the attempts are those counted. -/
theorem C17_told (cfg : Config) (rounds : List Round) (s : State) :
    let r := reconnectWith cfg s rounds
    ∃ k, told r.2.2 = (List.range' s.retry k).flatMap (fun n => [.connecting n, .failed]) ++
        (if r.2.1 = .ok then [.connecting (s.retry + k), .connected] else []) ∧
      r.1.attempts = s.attempts + k + (if r.2.1 = .ok then 1 else 0) ∧
      k ≤ rounds.length ∧ (∀ x ∈ rounds.take k, x.ok = false) ∧
      (r.2.1 = .ok → ∃ x, rounds[k]? = some x ∧ x.ok = true) := by
  simp only
  induction rounds generalizing s with
  | nil => exact ⟨0, by simp [reconnectWith, told]⟩
  | cons x rs ih =>
    unfold reconnectWith
    simp only
    obtain ⟨a1, a2, a3⟩ := told_should cfg s x.t1
    generalize shouldReconnect cfg s x.t1 = A at *
    by_cases h1 : A.2.1 = false
    · rw [if_pos h1]; exact ⟨0, by simp [a1, a3]⟩
    · rw [if_neg h1]
      have app : ∀ a b, told (a ++ b) = told a ++ told b := fun a b => List.filter_append ..
      have hb : told (onConnecting A.1).2 = [.connecting s.retry] := by simp [onConnecting, told, a2]
      have hbr : (onConnecting A.1).1.retry = s.retry := a2
      have hba : (onConnecting A.1).1.attempts = s.attempts + 1 := by simp [onConnecting, a3]
      generalize onConnecting A.1 = B at *
      by_cases hx : x.ok = true
      · rw [if_pos hx]
        refine ⟨0, ?_, ?_, Nat.zero_le _, by simp, fun _ => ⟨x, by simp, hx⟩⟩
        · simp only [app, a1, hb]; simp [onConnected, told]
        · simp [onConnected, hba]
      · rw [if_neg hx]
        obtain ⟨c1, c2, c3⟩ := told_failed cfg B.1 x.t2
        generalize onFailed cfg B.1 x.t2 = C at *
        obtain ⟨d1, d2, d3⟩ := told_should cfg C.1 x.t3
        generalize shouldReconnect cfg C.1 x.t3 = D at *
        by_cases h2 : D.2.1 = false
        · rw [if_pos h2]
          refine ⟨1, ?_, ?_, by simp, by simpa using hx, by simp⟩
          · simp only [app, a1, hb, c1, d1]; simp
          · simp; omega
        · rw [if_neg h2]
          obtain ⟨k, e1, e2, e3, e4, e5⟩ := ih D.1
          have hr : D.1.retry = s.retry + 1 := by omega
          refine ⟨k + 1, ?_, ?_, by simpa using e3, ?_, ?_⟩
          · simp only [app, a1, hb, c1, d1, e1, hr, List.range'_succ, List.flatMap_cons]
            simp [Nat.add_assoc, Nat.add_comm 1 k]
          · simp only [e2]; omega
          · intro y hy
            rw [List.take_succ_cons, List.mem_cons] at hy
            rcases hy with rfl | hy
            · simpa using hx
            · exact e4 y hy
          · simpa using e5

example : told (reconnectWith ⟨some 3, true, 0, some 5, 10⟩ {} [⟨false, 0, 1, 2⟩, ⟨true, 3, 4, 5⟩]).2.2 =
    [.connecting 0, .failed, .connecting 1, .connected] := by decide

/-! ### C19: the circuit -/

/-- Failures since the last success or reset, from the history (latest call last).
(Specification: no counterpart in the code.) -/
def failuresSince (h : List Op) : Nat :=
  h.foldl (fun n op => match op with
    | .failed _ => n + 1
    | .connected _ => 0
    | .reset => 0
    | _ => n) 0

theorem run_snoc (cfg : Config) (s : State) (h : List Op) (op : Op) :
    run cfg s (h ++ [op]) = (step cfg (run cfg s h) op).1 := by simp [run]

theorem failures_eq (cfg : Config) (h : List Op) : (run cfg {} h).failures = failuresSince h := by
  induction h using snocInduction with
  | nil => rfl
  | append_singleton h op ih =>
    rw [run_snoc]
    unfold failuresSince at ih ⊢
    rw [List.foldl_append, List.foldl_cons, List.foldl_nil, ← ih]
    cases op with
    | should now =>
      simp only [step, shouldReconnect]
      repeat' split
      all_goals rfl
    | connecting => rfl
    | connected now => rfl
    | failed now => simp only [step, onFailed]; split <;> rfl
    | disconnected now => rfl
    | reset => rfl
    | enable b => rfl

/-- Calls that the driver makes while the circuit is open; the lost-connection report is not among
them (see `C19_disconnect_bypasses`). (Specification: no counterpart in the code.) -/
def Quiet (tOpen timeout : Nat) : Op → Prop
  | .should now => tOpen ≤ now ∧ now < tOpen + timeout
  | .reset => True
  | .enable _ => True
  | .connecting => False
  | .connected _ => False
  | .failed _ => False
  | .disconnected _ => False

/-- **C19**, part that holds: whenever a failure brings the number of failures since the last success
or reset to the threshold, then in every continuation (counter resets, enabling, disabling, earlier
queries) `should_reconnect` is false at every time before the timeout. -/
theorem C19_open_blocks_partial (cfg : Config) (k : Nat) (hk : cfg.threshold = some k)
    (h : List Op) (tOpen : Nat) (hf : k ≤ failuresSince (h ++ [.failed tOpen]))
    (cont : List Op) (hq : ∀ op ∈ cont, Quiet tOpen cfg.cbTimeout op)
    (now : Nat) (ho : tOpen ≤ now) (ht : now < tOpen + cfg.cbTimeout) :
    (step cfg (run cfg {} (h ++ [.failed tOpen] ++ cont)) (.should now)).2.1 = some false := by
  have hblock : ∀ (s : State) (t : Nat), s.st = .circuitOpen → s.openedAt = some tOpen →
      tOpen ≤ t ∧ t < tOpen + cfg.cbTimeout → shouldReconnect cfg s t = (s, false, []) := by
    intro s t h1 h2 h3
    unfold shouldReconnect
    split
    · rfl
    · rw [h1, h2]
      simp only
      rw [if_neg (by omega)]
  have inv : (run cfg {} (h ++ [.failed tOpen] ++ cont)).st = .circuitOpen ∧
      (run cfg {} (h ++ [.failed tOpen] ++ cont)).openedAt = some tOpen := by
    induction cont using snocInduction with
    | nil =>
      rw [List.append_nil, run_snoc]
      have he := failures_eq cfg (h ++ [.failed tOpen])
      rw [run_snoc] at he
      have hfail : (step cfg (run cfg {} h) (.failed tOpen)).1.failures = (run cfg {} h).failures + 1 := by
        simp only [step, onFailed]; split <;> rfl
      rw [hfail] at he
      simp only [step, onFailed]
      rw [if_pos (by simp only [reaches, hk, decide_eq_true_eq]; omega)]
      exact ⟨rfl, rfl⟩
    | append_singleton cont op ih =>
      obtain ⟨i1, i2⟩ := ih (fun o ho => hq o (List.mem_append_left _ ho))
      rw [← List.append_assoc, run_snoc]
      have hop := hq op (by simp)
      cases op with
      | should t =>
        simp only [step]
        rw [hblock _ t i1 i2 hop]
        exact ⟨i1, i2⟩
      | reset => exact ⟨i1, i2⟩
      | enable b => exact ⟨i1, i2⟩
      | connecting => exact hop.elim
      | connected _ => exact hop.elim
      | failed _ => exact hop.elim
      | disconnected _ => exact hop.elim
  simp only [step]
  rw [hblock _ now inv.1 inv.2 ⟨ho, ht⟩]

/-- **C19**: after the timeout the circuit lets an attempt through (if the manager is enabled). -/
theorem C19_closes_after_timeout (cfg : Config) (k : Nat) (hk : cfg.threshold = some k)
    (h : List Op) (tOpen now : Nat) (hf : k ≤ failuresSince (h ++ [.failed tOpen]))
    (he : (run cfg {} h).enabled = true) (ht : tOpen + cfg.cbTimeout ≤ now) :
    (step cfg (run cfg {} (h ++ [.failed tOpen])) (.should now)).2 = (some true, [.circuitClose]) := by
  rw [run_snoc]
  have hfe := failures_eq cfg (h ++ [.failed tOpen])
  rw [run_snoc] at hfe
  have hfail : (step cfg (run cfg {} h) (.failed tOpen)).1.failures = (run cfg {} h).failures + 1 := by
    simp only [step, onFailed]; split <;> rfl
  rw [hfail] at hfe
  have hr : reaches cfg ((run cfg {} h).failures + 1) = true := by
    simp only [reaches, hk, decide_eq_true_eq]; omega
  simp only [step, onFailed, if_pos hr, shouldReconnect, he, Bool.true_eq_false, if_false]
  rw [if_pos (by omega)]

/-- **C19** is false in general: a lost-connection report (for instance a `ReconnectGuard` being
dropped) while the circuit is open makes `should_reconnect` true at once. -/
theorem C19_disconnect_bypasses :
    let cfg : Config := ⟨none, true, 0, some 1, 1000⟩
    (step cfg (run cfg {} [.connecting, .failed 5]) (.should 6)).2.1 = some false ∧
    (step cfg (run cfg {} [.connecting, .failed 5, .disconnected 6]) (.should 6)).2.1 = some true := by
  decide

/-- **C19**: closing the circuit does not clear the failure count, so after the timeout a single
further failure opens it again (threshold 3). -/
theorem C19_reopens_after_one_failure :
    let cfg : Config := ⟨none, true, 0, some 3, 10⟩
    (run cfg {} [.failed 0, .failed 0, .failed 0, .should 10, .connecting, .failed 11]).st = .circuitOpen := by
  decide

example : (3 : Nat) ≤ failuresSince [.connected 0, .failed 1, .failed 2, .failed 3] ∧
    Quiet 3 10 (.should 12) ∧ Quiet 3 10 .reset := ⟨by decide, by simp [Quiet], trivial⟩

/-! ### C18: delays -/

theorem pow_mono {g : Rat} (hg : 1 ≤ g) {a b : Nat} (h : a ≤ b) : g ^ a ≤ g ^ b ∧ 1 ≤ g ^ a := by
  have one_le : ∀ n : Nat, 1 ≤ g ^ n := by
    intro n
    induction n with
    | zero => simp
    | succ n ih =>
      rw [Rat.pow_succ]
      have h0 : (0 : Rat) ≤ g ^ n := by grind
      have := Rat.mul_le_mul_of_nonneg_left hg h0
      grind
  refine ⟨?_, one_le a⟩
  induction h with
  | refl => exact Rat.le_refl
  | step h ih =>
    rename_i m
    rw [Rat.pow_succ]
    have h0 : (0 : Rat) ≤ g ^ m := by have := one_le m; grind
    have := Rat.mul_le_mul_of_nonneg_left hg h0
    grind

theorem exponent_mono {a b : Nat} (h : a ≤ b) : exponent a ≤ exponent b := by
  unfold exponent; split <;> split <;> omega

theorem secs_nonneg (n : Nat) : 0 ≤ secs n := by
  unfold secs
  rw [Rat.div_def]
  apply Rat.mul_nonneg
  · exact_mod_cast Nat.zero_le n
  · decide +kernel

theorem secs_mono {a b : Nat} (h : a ≤ b) : secs a ≤ secs b := by
  unfold secs
  rw [Rat.div_def, Rat.div_def]
  apply Rat.mul_le_mul_of_nonneg_right
  · exact_mod_cast h
  · decide +kernel

/-- Largest number of nanoseconds of a `Duration` plus one. (Specification: no counterpart in the code.) -/
def durationLimit : Nat := 2 ^ 64 * 1000000000

theorem secs_lt_overflow {n : Nat} (h : n < durationLimit) : secs n < overflow := by
  have h1 := secs_mono (Nat.le_of_lt h)
  have h2 : secs durationLimit < overflow := by decide +kernel
  grind

/-- What the delay should be: the exponential delay, capped. (Specification: no counterpart in the code.) -/
def cap (x m : Rat) : Rat := if x ≤ m then x else m

/-- The two possible shapes of the capped delay. -/
theorem capped_cases (initial maxDelay : Nat) (growth : Rat) (hi : initial < durationLimit)
    (hm : maxDelay < durationLimit) (hg : 1 ≤ growth) (n : Nat) :
    (cappedDelay initial maxDelay growth n =
      .fin (cap (secs initial * growth ^ exponent n) (secs maxDelay)))
    ∨ (initial = 0 ∧ overflow ≤ growth ^ exponent n ∧
        cappedDelay initial maxDelay growth n = .fin (secs maxDelay)) := by
  have hp := (pow_mono hg (Nat.le_refl (exponent n))).2
  have hi' := secs_lt_overflow hi
  have hm' := secs_lt_overflow hm
  unfold cappedDelay F.ofRat cap
  rw [if_pos hi', if_pos hm']
  by_cases h1 : growth ^ exponent n < overflow
  · left
    rw [if_pos h1]
    simp only [F.mul, F.ofRat]
    by_cases h2 : secs initial * growth ^ exponent n < overflow
    · rw [if_pos h2]; rfl
    · rw [if_neg h2]
      have : ¬ secs initial * growth ^ exponent n ≤ secs maxDelay := by grind
      rw [if_neg this]; rfl
  · rw [if_neg h1]
    simp only [F.mul]
    by_cases h2 : initial = 0
    · right
      have : secs initial = 0 := by rw [h2]; decide +kernel
      rw [if_pos this]
      exact ⟨h2, by grind, rfl⟩
    · left
      have h1ns : secs 1 ≤ secs initial := secs_mono (by omega)
      have hpos : (0 : Rat) < secs 1 := by decide +kernel
      rw [if_neg (by grind)]
      have hbig : secs 1 * overflow ≤ secs initial * growth ^ exponent n := by
        have e1 : secs 1 * overflow ≤ secs initial * overflow :=
          Rat.mul_le_mul_of_nonneg_right h1ns (by decide +kernel)
        have e2 : secs initial * overflow ≤ secs initial * growth ^ exponent n :=
          Rat.mul_le_mul_of_nonneg_left (by grind) (secs_nonneg _)
        grind
      have hlim : secs durationLimit < secs 1 * overflow := by decide +kernel
      have hml := secs_mono (Nat.le_of_lt hm)
      rw [if_neg (by grind)]; rfl

/-- The delay is always a finite number of seconds: it can be turned into a `Duration`. -/
theorem capped_fin (initial maxDelay : Nat) (growth : Rat) (hi : initial < durationLimit)
    (hm : maxDelay < durationLimit) (hg : 1 ≤ growth) (n : Nat) :
    ∃ q, cappedDelay initial maxDelay growth n = .fin q ∧ 0 ≤ q ∧ q ≤ secs maxDelay := by
  rcases capped_cases initial maxDelay growth hi hm hg n with h | ⟨_, _, h⟩
  · refine ⟨_, h, ?_, ?_⟩
    · unfold cap
      split
      · apply Rat.mul_nonneg (secs_nonneg _)
        have := (pow_mono hg (Nat.le_refl (exponent n))).2
        grind
      · exact secs_nonneg _
    · unfold cap
      split
      · assumption
      · exact Rat.le_refl
  · exact ⟨_, h, secs_nonneg _, Rat.le_refl⟩

/-- **C18**: for all durations, every growth factor of at least one and every attempt number, the
delay without jitter is a finite non-negative number not above `max_delay`. -/
theorem C18_never_exceeds_max (initial maxDelay : Nat) (growth : Rat) (hi : initial < durationLimit)
    (hm : maxDelay < durationLimit) (hg : 1 ≤ growth) (n : Nat) :
    ∃ q, cappedDelay initial maxDelay growth n = .fin q ∧ 0 ≤ q ∧ q ≤ secs maxDelay :=
  capped_fin initial maxDelay growth hi hm hg n

/-- **C18**: the delay does not decrease with the attempt number. -/
theorem C18_monotone (initial maxDelay : Nat) (growth : Rat) (hi : initial < durationLimit)
    (hm : maxDelay < durationLimit) (hg : 1 ≤ growth) (a b : Nat) (hab : a ≤ b) (qa qb : Rat)
    (ha : cappedDelay initial maxDelay growth a = .fin qa)
    (hb : cappedDelay initial maxDelay growth b = .fin qb) : qa ≤ qb := by
  have hpow := (pow_mono hg (exponent_mono hab)).1
  have hmul : secs initial * growth ^ exponent a ≤ secs initial * growth ^ exponent b :=
    Rat.mul_le_mul_of_nonneg_left hpow (secs_nonneg _)
  obtain ⟨qa', ha', _, hle⟩ := capped_fin initial maxDelay growth hi hm hg a
  rw [ha] at ha'
  cases ha'
  rcases capped_cases initial maxDelay growth hi hm hg b with h2 | ⟨_, _, h2⟩
  · rcases capped_cases initial maxDelay growth hi hm hg a with h1 | ⟨h10, h11, h1⟩
    · rw [ha] at h1; rw [hb] at h2
      cases h1; cases h2
      unfold cap
      split <;> split <;> grind
    · have : cappedDelay initial maxDelay growth b = .fin (secs maxDelay) := by
        have hov : ¬ growth ^ exponent b < overflow := by grind
        have hs0 : secs initial = 0 := by rw [h10]; decide +kernel
        have hs1 : (0 : Rat) < overflow := by decide +kernel
        unfold cappedDelay F.ofRat
        rw [if_neg hov, if_pos (by rw [hs0]; exact hs1), if_pos (secs_lt_overflow hm)]
        simp only [F.mul, hs0, if_true]
        rfl
      rw [hb] at this
      cases this
      exact hle
  · rw [hb] at h2
    cases h2
    exact hle

/-- **C18**, the formula, part that holds: for a non-zero initial delay, or while the power does not
overflow, the delay is exactly `initial * growth^n` capped at `max_delay` (for attempt numbers in the
range of `i32`). -/
theorem C18_formula_partial (initial maxDelay : Nat) (growth : Rat) (hi : initial < durationLimit)
    (hm : maxDelay < durationLimit) (hg : 1 ≤ growth) (n : Nat) (hn : n < 2 ^ 31)
    (h : initial ≠ 0 ∨ growth ^ n < overflow) :
    cappedDelay initial maxDelay growth n = .fin (cap (secs initial * growth ^ n) (secs maxDelay)) := by
  have he : exponent n = n := by unfold exponent; rw [if_pos hn]
  rcases capped_cases initial maxDelay growth hi hm hg n with h1 | ⟨h1, h2, _⟩
  · rw [he] at h1; exact h1
  · rw [he] at h2
    rcases h with h | h
    · exact absurd h1 h
    · grind

/-- **C18**, the formula is false for a zero initial delay: after 1024 failures with growth factor 2
the product is `0 * inf = NaN` and the delay jumps from zero to `max_delay`. -/
theorem C18_zero_delay_jumps :
    cappedDelay 0 30000000000 2 1023 = .fin 0 ∧ cappedDelay 0 30000000000 2 1024 = .fin 30 := by
  decide +kernel

/-- **C18**, jitter: for every random factor between 0 and 1 the final delay is within the jitter
factor of the capped delay (so it can exceed `max_delay` by that factor) and never negative. -/
theorem C18_jitter_bounds (c j r : Rat) (hc : 0 ≤ c) (hj : 0 ≤ j) (hj1 : j ≤ 1) (hr : 0 ≤ r)
    (hr1 : r ≤ 1) : c - c * j ≤ finalDelay c j r ∧ finalDelay c j r ≤ c + c * j ∧ 0 ≤ finalDelay c j r := by
  have hcj : 0 ≤ c * j := Rat.mul_nonneg hc hj
  have hcj1 : c * j ≤ c := by
    have := Rat.mul_le_mul_of_nonneg_left hj1 hc
    grind
  have h1 : r * (c * j) ≤ c * j := by
    have := Rat.mul_le_mul_of_nonneg_right hr1 hcj
    grind
  have h0 : 0 ≤ r * (c * j) := Rat.mul_nonneg hr hcj
  unfold finalDelay jitter
  generalize r * (c * j) = x at *
  generalize c * j = y at *
  split <;> grind

/-- **C18**, jitter exactly: the random factor moves the delay evenly from `c - c * j` (for 0) to `c + c * j` (for 1). -/
theorem C18_jitter_exact (c j r : Rat) (hc : 0 ≤ c) (hj : 0 ≤ j) (hj1 : j ≤ 1) (hr : 0 ≤ r) :
    finalDelay c j r = c + (2 * r - 1) * (c * j) := by
  have hcj : 0 ≤ c * j := Rat.mul_nonneg hc hj
  have hcj1 : c * j ≤ c := by
    have := Rat.mul_le_mul_of_nonneg_left hj1 hc
    grind
  have h0 : 0 ≤ r * (c * j) := Rat.mul_nonneg hr hcj
  have e : (2 * r - 1) * (c * j) = r * (c * j) * 2 - c * j := by grind
  rw [e]
  unfold finalDelay jitter
  generalize r * (c * j) = x at *
  generalize c * j = y at *
  split <;> grind

/-- Without jitter the final delay is the capped delay. -/
theorem C18_no_jitter (c r : Rat) (hc : 0 ≤ c) : finalDelay c 0 r = c := by
  unfold finalDelay jitter
  rw [Rat.mul_zero, Rat.mul_zero]
  split <;> grind

example : finalDelay 30 (1/10) (9/10) = 162/5 ∧ (30 : Rat) < 162/5 := by decide +kernel
example : cappedDelay 100000000 30000000000 2 3 = .fin (4/5) ∧
    cappedDelay 100000000 30000000000 2 5000 = .fin 30 ∧ 30000000000 < durationLimit := by
  decide +kernel

end Verif.Reconnect
