import Verif.Recovery.Model
import Verif.Common.ListExtra

/-
Properties of error recovery: C38-C40 and C90.
-/

namespace Verif.Recovery

/-! ### C38: the circuit breaker -/

/-- Failures since the last success. (Specification: no counterpart in the code.) -/
def failStreak (h : List Ev) : Nat :=
  h.foldl (fun n e => match e with | .failure _ => n + 1 | .success => 0 | .allow _ => n) 0

/-- Successes since the last failure. (Specification: no counterpart in the code.) -/
def successStreak (h : List Ev) : Nat :=
  h.foldl (fun n e => match e with | .success => n + 1 | .failure _ => 0 | .allow _ => n) 0

/-- Time of the last failure. (Specification: no counterpart in the code.) -/
def lastFailureTime (h : List Ev) : Option Nat :=
  h.foldl (fun t e => match e with | .failure now => some now | _ => t) none

theorem after_snoc (c : Config) (h : List Ev) (e : Ev) : after c (h ++ [e]) = call c (after c h) e := by
  simp [after, List.foldl_append]

theorem failStreak_snoc (h : List Ev) (e : Ev) :
    failStreak (h ++ [e]) = match e with | .failure _ => failStreak h + 1 | .success => 0 | .allow _ => failStreak h := by
  simp only [failStreak, List.foldl_append, List.foldl_cons, List.foldl_nil]

theorem successStreak_snoc (h : List Ev) (e : Ev) :
    successStreak (h ++ [e]) =
      match e with | .success => successStreak h + 1 | .failure _ => 0 | .allow _ => successStreak h := by
  simp only [successStreak, List.foldl_append, List.foldl_cons, List.foldl_nil]

theorem lastFailureTime_snoc (h : List Ev) (e : Ev) :
    lastFailureTime (h ++ [e]) = match e with | .failure now => some now | _ => lastFailureTime h := by
  simp only [lastFailureTime, List.foldl_append, List.foldl_cons, List.foldl_nil]

/-- What the counters mean in each state. -/
theorem counters (c : Config) (h : List Ev) :
    ((after c h).state = .closed → (after c h).failures = failStreak h) ∧
      ((after c h).state = .opened → (after c h).lastFailure = lastFailureTime h ∧ successStreak h = 0 ∧
        ∃ t, lastFailureTime h = some t) ∧
      ((after c h).state = .halfOpen → (after c h).successes = successStreak h) := by
  induction h using Verif.snocInduction with
  | nil => simp [after, failStreak]
  | append_singleton h e ih =>
    obtain ⟨i1, i2, i3⟩ := ih
    rw [after_snoc, failStreak_snoc, successStreak_snoc, lastFailureTime_snoc]
    cases e with
    | allow now =>
      simp only [call, allowAct]
      cases hs : (after c h).state with
      | closed => simpa [hs] using i1 hs
      | opened =>
        obtain ⟨j1, j2, t, j3⟩ := i2 hs
        simp only [j1, j3]
        by_cases ht : now - t ≥ c.timeout
        · simp [ht, j2]
        · simp [ht, hs, j1, j2, j3]
      | halfOpen => simpa [hs] using i3 hs
    | success =>
      simp only [call, successAct]
      cases hs : (after c h).state with
      | closed => simp [hs]
      | opened => simp
      | halfOpen =>
        by_cases ht : (after c h).successes + 1 ≥ c.successThreshold
        · simp [ht]
        · simp only [if_neg ht]; simp [hs, i3 hs]
    | failure now =>
      simp only [call, failureAct]
      cases hs : (after c h).state with
      | closed =>
        by_cases ht : (after c h).failures + 1 ≥ c.failureThreshold
        · simp [ht]
        · simp only [if_neg ht]; simp [hs, i1 hs]
      | opened => simp [hs]
      | halfOpen => simp

/-- C38: while closed, every request is allowed; successes and requests keep the circuit closed; a failure
opens it exactly when the number of failures since the last success reaches the threshold. -/
theorem C38_closed (c : Config) (h : List Ev) (hs : (after c h).state = .closed) :
    (∀ now, allowed c (after c h) now = true) ∧
      (∀ e, (∀ now, e ≠ .failure now) → (after c (h ++ [e])).state = .closed) ∧
      ∀ now, (after c (h ++ [.failure now])).state =
        if failStreak (h ++ [.failure now]) ≥ c.failureThreshold then .opened else .closed := by
  refine ⟨fun now => by simp [allowed, allowAct, hs], ?_, ?_⟩
  · intro e he
    rw [after_snoc]
    cases e with
    | allow now => simp [call, allowAct, hs]
    | success => simp [call, successAct, hs]
    | failure now => exact absurd rfl (he now)
  · intro now
    rw [after_snoc, failStreak_snoc]
    simp only [call, failureAct, hs, (counters c h).1 hs]
    split <;> simp [hs]

/-- C38: while open, a request is allowed exactly when the timeout has elapsed since the last failure; an
allowed request makes the circuit half-open, a refused one changes nothing, a failure keeps it open. -/
theorem C38_open (c : Config) (h : List Ev) (hs : (after c h).state = .opened) :
    ∃ t, lastFailureTime h = some t ∧
      (∀ now, allowed c (after c h) now = true ↔ now - t ≥ c.timeout) ∧
      (∀ now, allowed c (after c h) now = true → (after c (h ++ [.allow now])).state = .halfOpen) ∧
      (∀ now, allowed c (after c h) now = false → after c (h ++ [.allow now]) = after c h) ∧
      ∀ now, (after c (h ++ [.failure now])).state = .opened := by
  obtain ⟨j1, _, t, j3⟩ := (counters c h).2.1 hs
  refine ⟨t, j3, ?_, ?_, ?_, ?_⟩
  · intro now
    simp only [allowed, allowAct, hs, j1, j3]
    split <;> simp_all
  · intro now
    rw [after_snoc]
    simp only [allowed, call, allowAct, hs, j1, j3]
    split <;> simp
  · intro now
    rw [after_snoc]
    simp only [allowed, call, allowAct, hs, j1, j3]
    split <;> simp
  · intro now
    rw [after_snoc]
    simp [call, failureAct, hs]

/-- C38, exactly, what C38 does not ask for: a success reported while the circuit is open closes it at once, in every
history, however short a time ago it was opened; the next request is allowed and the failures count from zero. -/
theorem C38_open_success (c : Config) (h : List Ev) (hs : (after c h).state = .opened) :
    (after c (h ++ [.success])).state = .closed ∧ (after c (h ++ [.success])).failures = 0 ∧
      ∀ now, allowed c (after c (h ++ [.success])) now = true := by
  have e : after c (h ++ [.success]) = { after c h with state := .closed, failures := 0 } := by
    simp only [after, List.foldl_append, List.foldl_cons, List.foldl_nil]
    show call c (after c h) .success = _
    simp only [call, hs, successAct]
    rfl
  rw [e]
  exact ⟨rfl, rfl, fun _ => rfl⟩

example : (after ⟨1, 2, 100⟩ [.failure 3]).state = .opened := by decide

/-- C38: while half-open, requests are allowed, a failure opens the circuit, and a success closes it exactly
when the number of successes since the last failure reaches the threshold. -/
theorem C38_halfOpen (c : Config) (h : List Ev) (hs : (after c h).state = .halfOpen) :
    (∀ now, allowed c (after c h) now = true) ∧
      (∀ now, (after c (h ++ [.failure now])).state = .opened) ∧
      (∀ now, (after c (h ++ [.allow now])).state = .halfOpen) ∧
      (after c (h ++ [.success])).state =
        if successStreak (h ++ [.success]) ≥ c.successThreshold then .closed else .halfOpen := by
  refine ⟨fun now => by simp [allowed, allowAct, hs], ?_, ?_, ?_⟩
  · intro now; rw [after_snoc]; simp [call, failureAct, hs]
  · intro now; rw [after_snoc]; simp [call, allowAct, hs]
  · rw [after_snoc, successStreak_snoc]
    simp only [call, successAct, hs, (counters c h).2.2 hs]
    split <;> simp [hs]

/-- C38: after the circuit has opened, as long as only failures and requests are reported and the timeout
has not elapsed since the last failure, every request is refused.

Partial: calls must not overlap (`C38_closed_to_halfOpen`), and a late success of a request that was allowed
earlier closes the circuit at once (`C38_late_success`). -/
theorem C38_no_request_before_timeout_partial (c : Config) (h more : List Ev) (hs : (after c h).state = .opened)
    (t₀ : Nat) (h0 : lastFailureTime h = some t₀) (hm : ∀ e ∈ more, e ≠ .success)
    (ht : ∀ e ∈ more, ∀ now, (e = .allow now ∨ e = .failure now) → t₀ ≤ now ∧ now < t₀ + c.timeout) :
    (after c (h ++ more)).state = .opened ∧
      ∀ pre now post, more = pre ++ .allow now :: post → allowed c (after c (h ++ pre)) now = false := by
  have key : ∀ more : List Ev, (∀ e ∈ more, e ≠ .success) →
      (∀ e ∈ more, ∀ now, (e = .allow now ∨ e = .failure now) → t₀ ≤ now ∧ now < t₀ + c.timeout) →
      (after c (h ++ more)).state = .opened ∧ ∃ t, lastFailureTime (h ++ more) = some t ∧ t₀ ≤ t := by
    intro more
    induction more using Verif.snocInduction with
    | nil => intro _ _; simpa using ⟨hs, t₀, h0, Nat.le_refl _⟩
    | append_singleton m e ih =>
      intro hm ht
      obtain ⟨i1, t, i2, i3⟩ := ih (fun e he => hm e (by simp [he])) (fun e he => ht e (by simp [he]))
      obtain ⟨t', o1, o2, o3, o4, o5⟩ := C38_open c (h ++ m) i1
      rw [i2] at o1; cases o1
      rw [← List.append_assoc]
      cases e with
      | success => exact absurd rfl (hm .success (by simp))
      | failure now =>
        refine ⟨o5 now, now, by rw [lastFailureTime_snoc], ?_⟩
        exact (ht (.failure now) (by simp) now (.inr rfl)).1
      | allow now =>
        have hn := ht (.allow now) (by simp) now (.inl rfl)
        have : allowed c (after c (h ++ m)) now = false := by
          cases ha : allowed c (after c (h ++ m)) now with
          | false => rfl
          | true => have := (o2 now).mp ha; omega
        rw [o4 now this]
        exact ⟨i1, t, by rw [lastFailureTime_snoc]; exact i2, i3⟩
  refine ⟨(key more hm ht).1, ?_⟩
  intro pre now post he
  subst he
  obtain ⟨i1, t, i2, i3⟩ := key pre (fun e he => hm e (by simp [he])) (fun e he => ht e (by simp [he]))
  obtain ⟨t', o1, o2, _⟩ := C38_open c (h ++ pre) i1
  rw [i2] at o1; cases o1
  have hn := ht (.allow now) (by simp) now (.inl rfl)
  cases ha : allowed c (after c (h ++ pre)) now with
  | false => rfl
  | true => have := (o2 now).mp ha; omega

/-- (Specification: no counterpart in the code.) -/
def cfg : Config := ⟨2, 2, 10⟩

example : (after cfg [.failure 1, .success, .failure 2, .failure 3]).state = .opened ∧
    allowed cfg (after cfg [.failure 1, .success, .failure 2, .failure 3]) 12 = false ∧
    allowed cfg (after cfg [.failure 1, .success, .failure 2, .failure 3]) 13 = true := by decide
example : (after cfg [.failure 2, .failure 3, .allow 13]).state = .halfOpen ∧
    (after cfg [.failure 2, .failure 3, .allow 13, .success, .success]).state = .closed := by decide
example : (after cfg [.failure 2, .failure 3]).state = .opened ∧
    lastFailureTime [Ev.failure 2, .failure 3] = some 3 ∧
    (after cfg ([.failure 2, .failure 3] ++ [.allow 5, .failure 6, .allow 12])).state = .opened := by decide

/-- Finding: the success of a request that was allowed before the circuit opened closes it again at once. -/
theorem C38_late_success :
    (after cfg [.allow 1, .allow 1, .allow 1, .failure 2, .failure 3]).state = .opened ∧
      allowed cfg (after cfg [.allow 1, .allow 1, .allow 1, .failure 2, .failure 3, .success]) 4 = true := by
  decide

/-- Finding: with overlapping calls a delayed `allow_request` takes a closed circuit to half-open, where a
single failure opens it, although the threshold is 2. -/
theorem C38_closed_to_halfOpen :
    let ops := [Op.begin (.failure 2), .read 0, .act 0, .begin (.failure 3), .read 0, .act 0,
      .begin (.allow 13), .read 0, .begin (.allow 13), .read 1, .act 1,
      .begin .success, .read 1, .act 1, .begin .success, .read 1, .act 1]
    (run cfg {} ops).breaker.state = .closed ∧
      (run cfg {} (ops ++ [.act 0])).breaker.state = .halfOpen ∧
      (run cfg {} (ops ++ [.act 0, .begin (.failure 14), .read 0, .act 0])).breaker.state = .opened := by
  decide

/-- A call whose two steps are not interrupted behaves as in the sequential model. -/
theorem C38_uninterrupted (c : Config) (s : Sys) (e : Ev) :
    (run c s [.begin e, .read s.calls.length, .act s.calls.length]).breaker = call c s.breaker e ∧
      (run c s [.begin e, .read s.calls.length, .act s.calls.length]).calls = s.calls := by
  have h1 : step c (step c s (.begin e)) (.read s.calls.length) =
      { s with calls := s.calls ++ [(e, some s.breaker.state)] } := by
    simp [step]
  have h2 : (s.calls ++ [(e, some s.breaker.state)]).eraseIdx s.calls.length = s.calls := by
    rw [List.eraseIdx_append_of_length_le (Nat.le_refl _)]; simp
  simp only [run, List.foldl_cons, List.foldl_nil, h1]
  cases e <;> simp [step, call, h2]

/-- C38, answers: an uninterrupted `allow_request` answers as in the sequential model; the other calls
answer nothing. -/
theorem C38_uninterrupted_answers (c : Config) (s : Sys) (e : Ev) :
    (run c s [.begin e, .read s.calls.length, .act s.calls.length]).answers =
      s.answers ++ (match e with | .allow now => [allowed c s.breaker now] | _ => []) := by
  have h1 : step c (step c s (.begin e)) (.read s.calls.length) =
      { s with calls := s.calls ++ [(e, some s.breaker.state)] } := by
    simp [step]
  simp only [run, List.foldl_cons, List.foldl_nil, h1]
  cases e <;> simp [step, allowed]

/-- C38, for all interleavings: `allow_request` answers `true` exactly if it did not see the circuit open, or
the timeout has elapsed since the last failure recorded by the breaker. -/
theorem C38_refusal_justified (c : Config) (b : Breaker) (seen : CState) (now : Nat) :
    (allowAct c b seen now).2 = true ↔ seen ≠ .opened ∨ ∃ t, b.lastFailure = some t ∧ c.timeout ≤ now - t := by
  unfold allowAct
  cases seen with
  | closed => simp
  | halfOpen => simp
  | opened =>
    cases hl : b.lastFailure with
    | none => simp
    | some t =>
      simp only [ne_eq, not_true_eq_false, Option.some.injEq, exists_eq_left', false_or]
      split <;> simp_all

example : (allowAct cfg { state := .opened, lastFailure := some 3 } .opened 12).2 = false ∧
    (allowAct cfg { state := .opened, lastFailure := some 3 } .opened 13).2 = true := by decide

/-! ### C39: an open breaker does not protect the operation -/

/-- Finding: for every executor, breaker state and operation, `execute_with_recovery` calls the operation
at least once. -/
theorem C39_always_called (x : Executor) (bs : Breakers) (op : Nat) (out : Nat → Res) (t₁ t₂ : Nat) :
    1 ≤ (execute x bs op out t₁ t₂).2.calls := by
  have hf : ∀ (d : Rat) (k n : Nat) (sl : List Rat) (e : Err), n ≤ (fixedLoop out d k n sl e).calls := by
    intro d k
    induction k with
    | zero => intro n sl e; simp [fixedLoop]
    | succ k ih =>
      intro n sl e
      simp only [fixedLoop]
      split
      · simp
      · exact Nat.le_trans (Nat.le_succ n) (ih _ _ _)
  have he : ∀ (mx mu : Rat) (k n : Nat) (sl : List Rat) (cur : Rat) (e : Err),
      n ≤ (expLoop out mx mu k n sl cur e).calls := by
    intro mx mu k
    induction k with
    | zero => intro n sl cur e; simp [expLoop]
    | succ k ih =>
      intro n sl cur e
      simp only [expLoop]
      split
      · simp
      · split
        · simp
        · exact Nat.le_trans (Nat.le_succ n) (ih _ _ _ _)
  unfold execute
  split
  · split <;> simp
  · split
    · exact hf _ _ _ _ _
    · exact he _ _ _ _ _ _ _
    · split <;> simp
    · unfold circuitBreaker
      simp only
      split
      · simp
      · split <;> simp
    · simp

/-- C39: once the first call has failed with an error whose strategy is a circuit breaker, and the breaker is
open and not timed out, the operation is not called a second time, and the error reports the open circuit.

Partial: the operation has already been called once before the breaker is consulted
(`C39_always_called`). -/
theorem C39_no_second_call_partial (x : Executor) (bs : Breakers) (op : Nat) (out : Nat → Res) (t₁ t₂ : Nat)
    (e : Err) (c : Config) (cfg : Config) (b : Breaker) (t : Nat) (h0 : out 0 = .error e)
    (hs : getStrategy x.strategies x.default (codeOf e) = .breaker c) (hb : AMap.get bs op = some (cfg, b))
    (ho : b.state = .opened) (hl : b.lastFailure = some t) (ht : t₁ < t + cfg.timeout) (hle : t ≤ t₁) :
    (execute x bs op out t₁ t₂).2.calls = 1 ∧
      (execute x bs op out t₁ t₂).2.result = some (.error .circuitOpen) := by
  have hn : ¬ (t₁ - t ≥ cfg.timeout) := by omega
  simp [execute, h0, hs, circuitBreaker, hb, allowAct, ho, hl, hn]

example :
    (after cfg [.failure 2, .failure 3]).state = .opened ∧
      (execute { default := .breaker cfg } [(0, (cfg, after cfg [.failure 2, .failure 3]))] 0
        (fun _ => .error (.other 1)) 5 5).2.calls = 1 := by decide

/-- Finding: an operation that fails under a closed breaker is executed twice. -/
theorem C39_failing_operation_runs_twice :
    (execute { default := .breaker cfg } [] 0 (fun _ => .error (.other 1)) 5 5).2.calls = 2 := by decide

/-! ### C40: retries -/

/-- The operation fails before call `k`. (Specification: no counterpart in the code.) -/
def FailsBefore (out : Nat → Res) (k : Nat) : Prop := ∀ j, j < k → ∃ e, out j = .error e

theorem withRetryLoop_success (out : Nat → Res) (d : Rat) (v : Nat) :
    ∀ (k m n : Nat) (sl : List Rat) (last : Option Err), m < k → (∀ j, j < m → ∃ e, out (n + j) = .error e) →
      out (n + m) = .ok v →
      (withRetryLoop out d k n sl last).calls = n + m + 1 ∧
        (withRetryLoop out d k n sl last).result = some (.ok v) := by
  intro k
  induction k with
  | zero => intro m n sl last h; omega
  | succ k ih =>
    intro m n sl last hm hf hv
    cases m with
    | zero => simp only [Nat.add_zero] at hv; simp [withRetryLoop, hv]
    | succ m =>
      obtain ⟨e, he⟩ := hf 0 (by omega)
      simp only [Nat.add_zero] at he
      simp only [withRetryLoop, he]
      have := ih m (n + 1) (if n > 0 then sl ++ [d] else sl) (some e) (by omega)
        (fun j hj => by have := hf (j + 1) (by omega); rwa [show n + (j + 1) = n + 1 + j by omega] at this)
        (by rwa [show n + (m + 1) = n + 1 + m by omega] at hv)
      rw [show n + (m + 1) + 1 = n + 1 + m + 1 by omega]
      exact this

theorem withRetryLoop_failure (out : Nat → Res) (d : Rat) :
    ∀ (k n : Nat) (sl : List Rat) (last : Option Err), (∀ j, j < k → ∃ e, out (n + j) = .error e) →
      (withRetryLoop out d k n sl last).calls = n + k ∧
        (withRetryLoop out d k n sl last).result =
          some (if k = 0 then .error (last.getD .noAttempts) else out (n + k - 1)) := by
  intro k
  induction k with
  | zero => intro n sl last _; simp [withRetryLoop]
  | succ k ih =>
    intro n sl last hf
    obtain ⟨e, he⟩ := hf 0 (by omega)
    simp only [Nat.add_zero] at he
    simp only [withRetryLoop, he]
    obtain ⟨h1, h2⟩ := ih (n + 1) (if n > 0 then sl ++ [d] else sl) (some e)
      (fun j hj => by have := hf (j + 1) (by omega); rwa [show n + (j + 1) = n + 1 + j by omega] at this)
    refine ⟨by rw [h1]; omega, ?_⟩
    rw [h2]
    by_cases hk : k = 0
    · subst hk; simp [he]
    · rw [if_neg hk, if_neg (by omega), show n + 1 + k - 1 = n + (k + 1) - 1 by omega]

/-- C40: `with_retry` stops at the first success, which it returns. -/
theorem C40_with_retry_success (attempts : Nat) (delay : Rat) (out : Nat → Res) (k v : Nat) (hk : k < attempts)
    (hf : FailsBefore out k) (hv : out k = .ok v) :
    (withRetry attempts delay out).calls = k + 1 ∧ (withRetry attempts delay out).result = some (.ok v) := by
  have := withRetryLoop_success out delay v attempts k 0 [] none hk
    (fun j hj => by rw [Nat.zero_add]; exact hf j hj) (by rw [Nat.zero_add]; exact hv)
  simpa [withRetry] using this

/-- C40: if every attempt fails `with_retry` calls the operation exactly `attempts` times and returns the last
error. -/
theorem C40_with_retry_failure (attempts : Nat) (delay : Rat) (out : Nat → Res) (hf : FailsBefore out attempts) :
    (withRetry attempts delay out).calls = attempts ∧
      (withRetry attempts delay out).result =
        some (if attempts = 0 then .error .noAttempts else out (attempts - 1)) := by
  have := withRetryLoop_failure out delay attempts 0 [] none (fun j hj => by rw [Nat.zero_add]; exact hf j hj)
  simpa [withRetry] using this

/-- (Specification: no counterpart in the code.) -/
def flaky : Nat → Res := fun n => if n < 2 then .error (.other n) else .ok n

example : FailsBefore flaky 2 ∧ flaky 2 = .ok 2 :=
  ⟨fun j hj => ⟨.other j, by simp [flaky, hj]⟩, by simp [flaky]⟩
example : (withRetry 5 1 flaky).calls = 3 ∧ (withRetry 2 1 flaky).calls = 2 := by decide

theorem fixedLoop_success (out : Nat → Res) (d : Rat) (v : Nat) :
    ∀ (k m n : Nat) (sl : List Rat) (last : Err), m < k → (∀ j, j < m → ∃ e, out (n + j) = .error e) →
      out (n + m) = .ok v →
      (fixedLoop out d k n sl last).calls = n + m + 1 ∧ (fixedLoop out d k n sl last).result = some (.ok v) := by
  intro k
  induction k with
  | zero => intro m n sl last h; omega
  | succ k ih =>
    intro m n sl last hm hf hv
    cases m with
    | zero => simp only [Nat.add_zero] at hv; simp [fixedLoop, hv]
    | succ m =>
      obtain ⟨e, he⟩ := hf 0 (by omega)
      simp only [Nat.add_zero] at he
      simp only [fixedLoop, he]
      have := ih m (n + 1) (sl ++ [d]) e (by omega)
        (fun j hj => by have := hf (j + 1) (by omega); rwa [show n + (j + 1) = n + 1 + j by omega] at this)
        (by rwa [show n + (m + 1) = n + 1 + m by omega] at hv)
      rw [show n + (m + 1) + 1 = n + 1 + m + 1 by omega]
      exact this

theorem fixedLoop_failure (out : Nat → Res) (d : Rat) :
    ∀ (k n : Nat) (sl : List Rat) (last : Err), (∀ j, j < k → ∃ e, out (n + j) = .error e) →
      (fixedLoop out d k n sl last).calls = n + k ∧
        (fixedLoop out d k n sl last).result = some (if k = 0 then .error last else out (n + k - 1)) := by
  intro k
  induction k with
  | zero => intro n sl last _; simp [fixedLoop]
  | succ k ih =>
    intro n sl last hf
    obtain ⟨e, he⟩ := hf 0 (by omega)
    simp only [Nat.add_zero] at he
    simp only [fixedLoop, he]
    obtain ⟨h1, h2⟩ := ih (n + 1) (sl ++ [d]) e
      (fun j hj => by have := hf (j + 1) (by omega); rwa [show n + (j + 1) = n + 1 + j by omega] at this)
    refine ⟨by rw [h1]; omega, ?_⟩
    rw [h2]
    by_cases hk : k = 0
    · subst hk; simp [he]
    · rw [if_neg hk, if_neg (by omega), show n + 1 + k - 1 = n + (k + 1) - 1 by omega]

/-- C40: recovery with fixed retries stops at the first success among the first `1 + attempts` calls and
returns it; otherwise it makes exactly `1 + attempts` calls and returns the last error. -/
theorem C40_fixed (x : Executor) (bs : Breakers) (op : Nat) (out : Nat → Res) (t₁ t₂ : Nat) (e : Err)
    (attempts : Nat) (d : Rat) (h0 : out 0 = .error e)
    (hs : getStrategy x.strategies x.default (codeOf e) = .fixed attempts d) :
    (∀ k v, k ≤ attempts → FailsBefore out k → out k = .ok v →
      (execute x bs op out t₁ t₂).2.calls = k + 1 ∧ (execute x bs op out t₁ t₂).2.result = some (.ok v)) ∧
    (FailsBefore out (attempts + 1) →
      (execute x bs op out t₁ t₂).2.calls = attempts + 1 ∧
        (execute x bs op out t₁ t₂).2.result = some (out attempts)) := by
  have heq : (execute x bs op out t₁ t₂).2 = fixedLoop out d attempts 1 [] e := by simp [execute, h0, hs]
  rw [heq]
  constructor
  · intro k v hk hf hv
    cases k with
    | zero => rw [h0] at hv; cases hv
    | succ k =>
      have := fixedLoop_success out d v attempts k 1 [] e (by omega)
        (fun j hj => hf (1 + j) (by omega)) (by rwa [Nat.add_comm] at hv)
      rw [show k + 1 + 1 = 1 + k + 1 by omega]; exact this
  · intro hf
    obtain ⟨h1, h2⟩ := fixedLoop_failure out d attempts 1 [] e (fun j hj => hf (1 + j) (by omega))
    refine ⟨by rw [h1]; omega, ?_⟩
    rw [h2]
    by_cases ha : attempts = 0
    · subst ha; simp [h0]
    · rw [if_neg ha, show 1 + attempts - 1 = attempts by omega]

theorem next_nonneg {cur mult max : Rat} (hc : 0 ≤ cur) (hm : 0 ≤ mult) (hx : 0 ≤ max) :
    ¬ (min (cur * mult) max < 0) := by
  have h := Rat.mul_nonneg hc hm
  grind

theorem expLoop_success (out : Nat → Res) (mx mu : Rat) (hmx : 0 ≤ mx) (hmu : 0 ≤ mu) (v : Nat) :
    ∀ (k m n : Nat) (sl : List Rat) (cur : Rat) (last : Err), 0 ≤ cur → m < k →
      (∀ j, j < m → ∃ e, out (n + j) = .error e) → out (n + m) = .ok v →
      (expLoop out mx mu k n sl cur last).calls = n + m + 1 ∧
        (expLoop out mx mu k n sl cur last).result = some (.ok v) := by
  intro k
  induction k with
  | zero => intro m n sl cur last _ h; omega
  | succ k ih =>
    intro m n sl cur last hcur hm hf hv
    cases m with
    | zero => simp only [Nat.add_zero] at hv; simp [expLoop, hv]
    | succ m =>
      obtain ⟨e, he⟩ := hf 0 (by omega)
      simp only [Nat.add_zero] at he
      have hn := next_nonneg hcur hmu hmx
      simp only [expLoop, he, if_neg hn]
      have := ih m (n + 1) (sl ++ [cur]) (min (cur * mu) mx) e (by grind) (by omega)
        (fun j hj => by have := hf (j + 1) (by omega); rwa [show n + (j + 1) = n + 1 + j by omega] at this)
        (by rwa [show n + (m + 1) = n + 1 + m by omega] at hv)
      rw [show n + (m + 1) + 1 = n + 1 + m + 1 by omega]
      exact this

theorem expLoop_failure (out : Nat → Res) (mx mu : Rat) (hmx : 0 ≤ mx) (hmu : 0 ≤ mu) :
    ∀ (k n : Nat) (sl : List Rat) (cur : Rat) (last : Err), 0 ≤ cur →
      (∀ j, j < k → ∃ e, out (n + j) = .error e) →
      (expLoop out mx mu k n sl cur last).calls = n + k ∧
        (expLoop out mx mu k n sl cur last).result = some (if k = 0 then .error last else out (n + k - 1)) := by
  intro k
  induction k with
  | zero => intro n sl cur last _ _; simp [expLoop]
  | succ k ih =>
    intro n sl cur last hcur hf
    obtain ⟨e, he⟩ := hf 0 (by omega)
    simp only [Nat.add_zero] at he
    have hn := next_nonneg hcur hmu hmx
    simp only [expLoop, he, if_neg hn]
    obtain ⟨h1, h2⟩ := ih (n + 1) (sl ++ [cur]) (min (cur * mu) mx) e (by grind)
      (fun j hj => by have := hf (j + 1) (by omega); rwa [show n + (j + 1) = n + 1 + j by omega] at this)
    refine ⟨by rw [h1]; omega, ?_⟩
    rw [h2]
    by_cases hk : k = 0
    · subst hk; simp [he]
    · rw [if_neg hk, if_neg (by omega), show n + 1 + k - 1 = n + (k + 1) - 1 by omega]

/-- C40: the same for exponential retries, with a multiplier that is not negative. -/
theorem C40_exponential (x : Executor) (bs : Breakers) (op : Nat) (out : Nat → Res) (t₁ t₂ : Nat) (e : Err)
    (attempts : Nat) (ini mx mu : Rat) (h0 : out 0 = .error e) (hi : 0 ≤ ini) (hmx : 0 ≤ mx) (hmu : 0 ≤ mu)
    (hs : getStrategy x.strategies x.default (codeOf e) = .exponential attempts ini mx mu) :
    (∀ k v, k ≤ attempts → FailsBefore out k → out k = .ok v →
      (execute x bs op out t₁ t₂).2.calls = k + 1 ∧ (execute x bs op out t₁ t₂).2.result = some (.ok v)) ∧
    (FailsBefore out (attempts + 1) →
      (execute x bs op out t₁ t₂).2.calls = attempts + 1 ∧
        (execute x bs op out t₁ t₂).2.result = some (out attempts)) := by
  have heq : (execute x bs op out t₁ t₂).2 = expLoop out mx mu attempts 1 [] ini e := by simp [execute, h0, hs]
  rw [heq]
  constructor
  · intro k v hk hf hv
    cases k with
    | zero => rw [h0] at hv; cases hv
    | succ k =>
      have := expLoop_success out mx mu hmx hmu v attempts k 1 [] ini e hi (by omega)
        (fun j hj => hf (1 + j) (by omega)) (by rwa [Nat.add_comm] at hv)
      rw [show k + 1 + 1 = 1 + k + 1 by omega]; exact this
  · intro hf
    obtain ⟨h1, h2⟩ := expLoop_failure out mx mu hmx hmu attempts 1 [] ini e hi (fun j hj => hf (1 + j) (by omega))
    refine ⟨by rw [h1]; omega, ?_⟩
    rw [h2]
    by_cases ha : attempts = 0
    · subst ha; simp [h0]
    · rw [if_neg ha, show 1 + attempts - 1 = attempts by omega]

/-- Finding: a negative multiplier makes the first failing retry panic. -/
theorem C40_negative_multiplier_panics (x : Executor) (bs : Breakers) (op : Nat) (out : Nat → Res) (t₁ t₂ : Nat)
    (e e' : Err) (attempts : Nat) (ini mx mu : Rat) (h0 : out 0 = .error e) (h1 : out 1 = .error e') (hi : 0 < ini)
    (hmu : mu < 0)
    (hs : getStrategy x.strategies x.default (codeOf e) = .exponential (attempts + 1) ini mx mu) :
    (execute x bs op out t₁ t₂).2.result = none := by
  have hneg : ini * mu < 0 := by
    have := Rat.mul_pos hi (show (0 : Rat) < -mu by grind)
    grind
  have hlt : min (ini * mu) mx < 0 := by grind
  simp [execute, h0, hs, expLoop, h1, hlt]

example : (execute { strategies := [(-32603, .exponential 3 1 8 2)] } [] 0 flaky 0 0).2.calls = 3 ∧
    (execute { strategies := [(-32603, .exponential 3 1 8 2)] } [] 0 flaky 0 0).2.sleeps = [1, 2] := by
  decide +kernel
example : (execute { strategies := [(-32603, .fixed 1 1)] } [] 0 flaky 0 0).2.calls = 2 := by decide

/-! ### C90: delays of exponential retries -/

/-- The delay before retry number `i` (from 0) that the strategy promises.
(Specification: no counterpart in the code.) -/
def promised (ini mx mu : Rat) (i : Nat) : Rat := min (ini * mu ^ i) mx

theorem promised_succ {ini mx mu : Rat} (hi : 0 ≤ ini) (hmx : 0 ≤ mx) (hmu : 1 ≤ mu) (i : Nat) :
    min (promised ini mx mu i * mu) mx = promised ini mx mu (i + 1) := by
  unfold promised
  rw [Rat.pow_succ, ← Rat.mul_assoc]
  have h0 : (0 : Rat) ≤ mu := by grind
  have hmm : mx ≤ mx * mu := by
    have := Rat.mul_nonneg hmx (show (0 : Rat) ≤ mu - 1 by grind)
    grind
  by_cases h : ini * mu ^ i ≤ mx
  · have : min (ini * mu ^ i) mx = ini * mu ^ i := by grind
    rw [this]
  · have h1 : min (ini * mu ^ i) mx = mx := by grind
    have h2 : mx * mu ≤ ini * mu ^ i * mu := by
      have := Rat.mul_nonneg (show (0 : Rat) ≤ ini * mu ^ i - mx by grind) h0
      grind
    rw [h1]; grind

theorem expLoop_sleeps (out : Nat → Res) (ini mx mu : Rat) (hi : 0 ≤ ini) (hmx : 0 ≤ mx) (hmu : 1 ≤ mu) :
    ∀ (k n i : Nat) (sl : List Rat) (last : Err),
      ∃ m, (expLoop out mx mu k n sl (promised ini mx mu i) last).sleeps =
          sl ++ (List.range m).map (fun j => promised ini mx mu (i + j)) ∧ m ≤ k := by
  intro k
  induction k with
  | zero => intro n i sl last; exact ⟨0, by simp [expLoop], Nat.le_refl _⟩
  | succ k ih =>
    intro n i sl last
    simp only [expLoop]
    split
    · exact ⟨1, by simp, by omega⟩
    · next e he =>
      rw [promised_succ hi hmx hmu]
      split
      · exact ⟨1, by simp, by omega⟩
      · obtain ⟨m, h1, h2⟩ := ih (n + 1) (i + 1) (sl ++ [promised ini mx mu i]) e
        refine ⟨m + 1, ?_, by omega⟩
        rw [h1, List.range_succ_eq_map]
        simp only [List.map_cons, List.map_map, Nat.add_zero, List.append_assoc, List.cons_append, List.nil_append]
        congr 2
        apply List.map_congr_left
        intro j _
        simp only [Function.comp]
        congr 1
        omega

/-- C90: with an initial delay within the maximum and a multiplier of at least one, the delay before retry
`i` is `min(initial * multiplier^i, max)`, so it never exceeds the maximum.

Partial: an initial delay above the maximum is used as it is (`C90_first_delay_not_capped`); rounding of
floating point numbers is not modelled. -/
theorem C90_delays_partial (x : Executor) (bs : Breakers) (op : Nat) (out : Nat → Res) (t₁ t₂ : Nat) (e : Err)
    (attempts : Nat) (ini mx mu : Rat) (h0 : out 0 = .error e) (hi : 0 ≤ ini) (hle : ini ≤ mx) (hmu : 1 ≤ mu)
    (hs : getStrategy x.strategies x.default (codeOf e) = .exponential attempts ini mx mu) :
    ∃ m, m ≤ attempts ∧
      (execute x bs op out t₁ t₂).2.sleeps = (List.range m).map (fun i => min (ini * mu ^ i) mx) := by
  have hmx : (0 : Rat) ≤ mx := by grind
  have hp : promised ini mx mu 0 = ini := by
    unfold promised; rw [Rat.pow_zero, Rat.mul_one]; grind
  obtain ⟨m, h1, h2⟩ := expLoop_sleeps out ini mx mu hi hmx hmu attempts 1 0 [] e
  refine ⟨m, h2, ?_⟩
  have heq : (execute x bs op out t₁ t₂).2 = expLoop out mx mu attempts 1 [] ini e := by simp [execute, h0, hs]
  rw [heq]
  rw [hp] at h1
  simpa [promised] using h1

/-- C90: whatever the parameters, every delay but the first is within the maximum. -/
theorem C90_later_delays_capped (out : Nat → Res) (mx mu : Rat) :
    ∀ (k n : Nat) (sl : List Rat) (cur : Rat) (last : Err), (∀ d ∈ sl.tail, d ≤ mx) → (sl ≠ [] → cur ≤ mx) →
      ∀ d ∈ (expLoop out mx mu k n sl cur last).sleeps.tail, d ≤ mx := by
  intro k
  induction k with
  | zero => intro n sl cur last h _; simpa [expLoop] using h
  | succ k ih =>
    intro n sl cur last h hc
    have h' : ∀ d ∈ (sl ++ [cur]).tail, d ≤ mx := by
      cases sl with
      | nil => simp
      | cons a l =>
        intro d hd
        simp only [List.cons_append, List.tail_cons, List.mem_append, List.mem_singleton] at hd
        rcases hd with hd | rfl
        · exact h d hd
        · exact hc (by simp)
    simp only [expLoop]
    split
    · exact h'
    · split
      · exact h'
      · exact ih _ _ _ _ h' (fun _ => by grind)

example : (execute { strategies := [(-32603, .exponential 5 1 5 2)] } [] 0 (fun _ => .error (.other 0)) 0 0).2.sleeps =
    [1, 2, 4, 5, 5] := by decide +kernel

/-- Finding: the first delay is not capped by the maximum. -/
theorem C90_first_delay_not_capped :
    (execute { strategies := [(-32603, .exponential 2 10 5 2)] } [] 0 (fun _ => .error (.other 0)) 0 0).2.sleeps =
      [10, 5] := by decide +kernel

theorem expLoop_first (out : Nat → Res) (mx mu : Rat) : ∀ (k n : Nat) (sl : List Rat) (cur : Rat) (last : Err),
    ∃ more, (expLoop out mx mu k n sl cur last).sleeps = sl ++ more ∧ (0 < k → more.head? = some cur) := by
  intro k
  induction k with
  | zero => intro n sl cur last; exact ⟨[], by simp [expLoop], by omega⟩
  | succ k ih =>
    intro n sl cur last
    simp only [expLoop]
    split
    · exact ⟨[cur], rfl, fun _ => rfl⟩
    · next e he =>
      split
      · exact ⟨[cur], rfl, fun _ => rfl⟩
      · obtain ⟨more, h, -⟩ := ih (n + 1) (sl ++ [cur]) (min (cur * mu) mx) e
        exact ⟨cur :: more, by rw [h]; simp, fun _ => rfl⟩

/-- **C90, exactly.** Whatever the multiplier and the outcomes, no delay exceeds the maximum if and only if the initial
delay does not, or no retry is configured. -/
theorem C90_capped_iff (x : Executor) (bs : Breakers) (op : Nat) (out : Nat → Res) (t₁ t₂ : Nat) (e : Err)
    (attempts : Nat) (ini mx mu : Rat) (h0 : out 0 = .error e)
    (hs : getStrategy x.strategies x.default (codeOf e) = .exponential attempts ini mx mu) :
    (∀ d ∈ (execute x bs op out t₁ t₂).2.sleeps, d ≤ mx) ↔ ini ≤ mx ∨ attempts = 0 := by
  have heq : (execute x bs op out t₁ t₂).2 = expLoop out mx mu attempts 1 [] ini e := by simp [execute, h0, hs]
  rw [heq]
  obtain ⟨more, hm, hh⟩ := expLoop_first out mx mu attempts 1 [] ini e
  have hlater := C90_later_delays_capped out mx mu attempts 1 [] ini e (by simp) (by simp)
  rw [hm] at hlater ⊢
  simp only [List.nil_append] at hlater ⊢
  constructor
  · intro h
    cases attempts with
    | zero => exact .inr rfl
    | succ k => exact .inl (h ini (List.mem_of_mem_head? (hh (by omega))))
  · intro h d hd
    cases more with
    | nil => cases hd
    | cons a more =>
      rcases h with h | h
      · rcases List.mem_cons.mp hd with rfl | hd
        · cases attempts with
          | zero => simp [expLoop] at hm
          | succ k =>
            have := hh (by omega)
            simp only [List.head?_cons, Option.some.injEq] at this
            rw [this]; exact h
        · exact hlater d hd
      · subst h; simp [expLoop] at hm

/-- A multiplier below one does not help. -/
example : (execute { strategies := [(-32603, .exponential 3 10 5 (1/2))] } [] 0 (fun _ => .error (.other 0)) 0 0).2.sleeps =
    [10, 5, 5/2] := by decide +kernel

/-! ### One wait per retry -/

theorem fixedLoop_sleeps (out : Nat → Res) (d : Rat) : ∀ (k n : Nat) (sl : List Rat) (last : Err),
    ∃ m, (fixedLoop out d k n sl last).calls = n + m ∧
      (fixedLoop out d k n sl last).sleeps = sl ++ List.replicate m d := by
  intro k
  induction k with
  | zero => intro n sl last; exact ⟨0, rfl, by simp [fixedLoop]⟩
  | succ k ih =>
    intro n sl last
    simp only [fixedLoop]
    split
    · exact ⟨1, rfl, rfl⟩
    · next e he =>
      obtain ⟨m, h1, h2⟩ := ih (n + 1) (sl ++ [d]) e
      refine ⟨m + 1, by rw [h1]; omega, ?_⟩
      rw [h2, List.append_assoc, List.replicate_succ]; rfl

theorem expLoop_calls (out : Nat → Res) (mx mu : Rat) : ∀ (k n : Nat) (sl : List Rat) (cur : Rat) (last : Err),
    (expLoop out mx mu k n sl cur last).calls + sl.length =
      n + (expLoop out mx mu k n sl cur last).sleeps.length := by
  intro k
  induction k with
  | zero => intro n sl cur last; simp only [expLoop]
  | succ k ih =>
    intro n sl cur last
    simp only [expLoop]
    split
    · simp; omega
    · next e he =>
      split
      · simp; omega
      · have := ih (n + 1) (sl ++ [cur]) (min (cur * mu) mx) e
        rw [List.length_append, List.length_singleton] at this
        omega

/-- C40, C90: recovery waits exactly once before every call but the first; with fixed retries always for the
configured delay. -/
theorem C40_one_wait_per_retry (x : Executor) (bs : Breakers) (op : Nat) (out : Nat → Res) (t₁ t₂ : Nat) (e : Err)
    (h0 : out 0 = .error e) :
    (∀ attempts d, getStrategy x.strategies x.default (codeOf e) = .fixed attempts d →
      (execute x bs op out t₁ t₂).2.sleeps = List.replicate ((execute x bs op out t₁ t₂).2.calls - 1) d) ∧
    (∀ attempts ini mx mu, getStrategy x.strategies x.default (codeOf e) = .exponential attempts ini mx mu →
      (execute x bs op out t₁ t₂).2.sleeps.length = (execute x bs op out t₁ t₂).2.calls - 1) := by
  constructor
  · intro attempts d hs
    have heq : (execute x bs op out t₁ t₂).2 = fixedLoop out d attempts 1 [] e := by simp [execute, h0, hs]
    rw [heq]
    obtain ⟨m, h1, h2⟩ := fixedLoop_sleeps out d attempts 1 [] e
    rw [h1, h2, Nat.add_sub_cancel_left]; rfl
  · intro attempts ini mx mu hs
    have heq : (execute x bs op out t₁ t₂).2 = expLoop out mx mu attempts 1 [] ini e := by simp [execute, h0, hs]
    rw [heq]
    have := expLoop_calls out mx mu attempts 1 [] ini e
    simp only [List.length_nil, Nat.add_zero] at this
    omega

theorem withRetryLoop_sleeps (out : Nat → Res) (d : Rat) : ∀ (k n : Nat) (sl : List Rat) (last : Option Err),
    sl.length = n - 1 → (∀ x ∈ sl, x = d) →
    (withRetryLoop out d k n sl last).sleeps = List.replicate ((withRetryLoop out d k n sl last).calls - 1) d := by
  have hrep : ∀ (sl : List Rat) (n : Nat), sl.length = n → (∀ x ∈ sl, x = d) → sl = List.replicate n d :=
    fun sl n h1 h2 => List.eq_replicate_iff.mpr ⟨h1, h2⟩
  intro k
  induction k with
  | zero => intro n sl last h1 h2; exact hrep sl _ h1 h2
  | succ k ih =>
    intro n sl last h1 h2
    have h3 : (if n > 0 then sl ++ [d] else sl).length = n := by
      split
      · rw [List.length_append, List.length_singleton]; omega
      · omega
    have h4 : ∀ x ∈ (if n > 0 then sl ++ [d] else sl), x = d := by
      intro x hx
      split at hx
      · rcases List.mem_append.mp hx with hx | hx
        · exact h2 x hx
        · exact List.mem_singleton.mp hx
      · exact h2 x hx
    simp only [withRetryLoop]
    split
    · exact hrep _ _ (by simpa using h3) h4
    · exact ih (n + 1) _ _ (by simpa using h3) h4

/-- C40: `with_retry` waits the delay between consecutive calls, and not after the last. -/
theorem C40_with_retry_waits (attempts : Nat) (delay : Rat) (out : Nat → Res) :
    (withRetry attempts delay out).sleeps = List.replicate ((withRetry attempts delay out).calls - 1) delay :=
  withRetryLoop_sleeps out delay attempts 0 [] none rfl (by simp)

example : (withRetry 5 (1 / 2) flaky).sleeps = [1 / 2, 1 / 2] := by decide +kernel

/-! ### C39: exact calls and results under a breaker -/

/-- C39 (exactly what happens). A first success is returned after one call. After a first failure whose
strategy is a circuit breaker, the operation is called again exactly if the breaker allows it, and that
second result is returned; the breakers of other operations are not touched. -/
theorem C39_exact (x : Executor) (bs : Breakers) (op : Nat) (out : Nat → Res) (t₁ t₂ : Nat) :
    (∀ v, out 0 = .ok v → (execute x bs op out t₁ t₂).2.calls = 1 ∧
      (execute x bs op out t₁ t₂).2.result = some (.ok v)) ∧
    (∀ e c cfg b, out 0 = .error e → getStrategy x.strategies x.default (codeOf e) = .breaker c →
      (AMap.get bs op).getD (c, {}) = (cfg, b) → allowed cfg b t₁ = true →
      (execute x bs op out t₁ t₂).2.calls = 2 ∧ (execute x bs op out t₁ t₂).2.result = some (out 1)) ∧
    (∀ e c cfg b, out 0 = .error e → getStrategy x.strategies x.default (codeOf e) = .breaker c →
      (AMap.get bs op).getD (c, {}) = (cfg, b) → allowed cfg b t₁ = false →
      (execute x bs op out t₁ t₂).2.calls = 1 ∧
      (execute x bs op out t₁ t₂).2.result = some (.error .circuitOpen)) ∧
    (∀ op', op' ≠ op → AMap.get (execute x bs op out t₁ t₂).1 op' = AMap.get bs op') := by
  refine ⟨?_, ?_, ?_, ?_⟩
  · intro v hv
    simp only [execute, hv]
    split <;> exact ⟨rfl, rfl⟩
  · intro e c cfg b h0 hs hb ha
    simp only [allowed] at ha
    simp only [execute, h0, hs, circuitBreaker, hb, ha, Bool.not_true, Bool.false_eq_true, if_false]
    cases h1 : out 1 <;> exact ⟨rfl, rfl⟩
  · intro e c cfg b h0 hs hb ha
    simp only [allowed] at ha
    simp only [execute, h0, hs, circuitBreaker, hb, ha, Bool.not_false, if_true, and_self]
  · intro op' hne
    simp only [execute, circuitBreaker]
    repeat' split
    all_goals first
      | rfl
      | simp only [AMap.get_insert, if_neg hne]

/-- C39 (exactly what happens, the other strategies without retries). After a failure to be handed to a fallback, the
result is that of the handler registered for the operation, or an internal error if there is none; after one without
recovery, it is the failure. Neither calls the operation again, and neither is recorded. -/
theorem C39_fallback (x : Executor) (bs : Breakers) (op : Nat) (out : Nat → Res) (t₁ t₂ : Nat) (e : Err)
    (h0 : out 0 = .error e) :
    (getStrategy x.strategies x.default (codeOf e) = .fallback →
      (∀ f, AMap.get x.handlers op = some f → execute x bs op out t₁ t₂ = (bs, ⟨1, [], some (f e)⟩)) ∧
      (AMap.get x.handlers op = none → execute x bs op out t₁ t₂ = (bs, ⟨1, [], some (.error (.other 0))⟩))) ∧
    (getStrategy x.strategies x.default (codeOf e) = .failFast →
      execute x bs op out t₁ t₂ = (bs, ⟨1, [], some (.error e)⟩)) := by
  refine ⟨fun hs => ⟨fun f hf => ?_, fun hn => ?_⟩, fun hs => ?_⟩
  · simp only [execute, h0, hs, hf]
  · simp only [execute, h0, hs, hn]
  · simp only [execute, h0, hs]

example : (execute { default := .fallback, handlers := [(0, fun _ => .ok 7)] } [] 0 (fun _ => .error (.other 1)) 0 0).2
    = ⟨1, [], some (.ok 7)⟩ := rfl

/-- The breaker of the operation afterwards: as if its `allow_request` and its recording had been called. -/
theorem C39_recorded (x : Executor) (bs : Breakers) (op : Nat) (out : Nat → Res) (t₁ t₂ : Nat) (e : Err) (c cfg : Config)
    (b : Breaker) (h0 : out 0 = .error e) (hs : getStrategy x.strategies x.default (codeOf e) = .breaker c)
    (hb : (AMap.get bs op).getD (c, {}) = (cfg, b)) :
    AMap.get (execute x bs op out t₁ t₂).1 op = some (cfg,
      if allowed cfg b t₁ = true then
        call cfg (call cfg b (.allow t₁)) (match out 1 with | .ok _ => .success | .error _ => .failure t₂)
      else call cfg b (.allow t₁)) := by
  by_cases ha : (allowAct cfg b b.state t₁).2 = true
  · simp only [execute, h0, hs, circuitBreaker, hb, allowed, call, ha, Bool.not_true, Bool.false_eq_true, if_false,
      if_true]
    cases h1 : out 1 <;> simp only [AMap.get_insert_self]
  · have ha' : (allowAct cfg b b.state t₁).2 = false := by simpa using ha
    simp only [execute, h0, hs, circuitBreaker, hb, allowed, call, ha', Bool.not_false, if_true, AMap.get_insert_self,
      Bool.false_eq_true, if_false]

example : (execute { default := .breaker cfg } [] 0 (fun n => if n = 0 then .error (.other 1) else .ok n) 5 5).2.calls = 2 ∧
    (execute { default := .breaker cfg } [] 0 (fun n => if n = 0 then .error (.other 1) else .ok n) 5 5).2.result =
      some (.ok 1) := ⟨by decide, rfl⟩

/-! ### C143: the standard policy -/

/-- The calls and waits the standard policy allows for an error. (Specification: no counterpart in the code.) -/
def budget : Err → Nat × List Rat
  | .protocol c _ =>
    if c = -32603 then (4, [1 / 10, 1 / 5, 2 / 5])
    else if c = -32600 then (3, [1 / 2, 1 / 2])
    else (1, [])
  | _ => (4, [1 / 10, 1 / 5, 2 / 5])

/-- The errors with a code: protocol errors have their own, all others the one of an internal error.
(Specification: no counterpart in the code.) -/
def HasCode (code : Int) : Err → Prop
  | .protocol c _ => c = code
  | _ => code = -32603

theorem budget_code (e : Err) : budget e = if codeOf e = -32603 then (4, [1 / 10, 1 / 5, 2 / 5])
    else if codeOf e = -32600 then (3, [1 / 2, 1 / 2]) else (1, []) := by
  cases e <;> rfl

theorem hasCode_iff (code : Int) (e : Err) : HasCode code e ↔ codeOf e = code := by
  cases e <;> simp [HasCode, codeOf, eq_comm]

instance (code : Int) (e : Err) : Decidable (HasCode code e) := decidable_of_iff _ (hasCode_iff code e).symm

/-- **C143.** With the default policy: an operation that keeps failing is called four times for an internal
error or an error without a code, three times for an invalid request and once for everything else, and the
last error is returned; the waits in between are 100, 200, 400 ms and 500, 500 ms. -/
theorem C143_standard (bs : Breakers) (op : Nat) (out : Nat → Res) (t₁ t₂ : Nat) (e : Err) (h0 : out 0 = .error e)
    (hf : FailsBefore out (budget e).1) :
    (execute .standard bs op out t₁ t₂).2.calls = (budget e).1 ∧
    (execute .standard bs op out t₁ t₂).2.sleeps = (budget e).2 ∧
    (execute .standard bs op out t₁ t₂).2.result = some (out ((budget e).1 - 1)) := by
  rw [budget_code] at hf ⊢
  by_cases h1 : codeOf e = -32603
  · rw [if_pos h1] at hf ⊢
    have hs : getStrategy Executor.standard.strategies Executor.standard.default (codeOf e) =
        .exponential 3 (1 / 10) 5 2 := by rw [h1]; rfl
    obtain ⟨e1, hf1⟩ := hf 1 (by simp)
    obtain ⟨e2, hf2⟩ := hf 2 (by simp)
    obtain ⟨e3, hf3⟩ := hf 3 (by simp)
    have m1 : min ((1 / 10 : Rat) * 2) 5 = 1 / 5 := by decide +kernel
    have m2 : min ((1 / 5 : Rat) * 2) 5 = 2 / 5 := by decide +kernel
    have m3 : min ((2 / 5 : Rat) * 2) 5 = 4 / 5 := by decide +kernel
    have n1 : ¬ ((1 / 5 : Rat) < 0) := by decide +kernel
    have n2 : ¬ ((2 / 5 : Rat) < 0) := by decide +kernel
    have n3 : ¬ ((4 / 5 : Rat) < 0) := by decide +kernel
    simp only [execute, h0, hs, expLoop, hf1, hf2, hf3, m1, m2, m3, if_neg n1, if_neg n2, if_neg n3, Nat.reduceAdd,
      List.nil_append, List.cons_append, Nat.reduceSub, and_self]
  · rw [if_neg h1] at hf ⊢
    by_cases h2 : codeOf e = -32600
    · rw [if_pos h2] at hf ⊢
      have hs : getStrategy Executor.standard.strategies Executor.standard.default (codeOf e) =
          .fixed 2 (1 / 2) := by rw [h2]; rfl
      obtain ⟨e1, hf1⟩ := hf 1 (by simp)
      obtain ⟨e2, hf2⟩ := hf 2 (by simp)
      simp only [execute, h0, hs, fixedLoop, hf1, hf2, Nat.reduceAdd, List.nil_append, List.cons_append,
        Nat.reduceSub, and_self]
    · rw [if_neg h2] at hf ⊢
      have hs : getStrategy Executor.standard.strategies Executor.standard.default (codeOf e) = .failFast := by
        simp only [getStrategy, Executor.standard, AMap.get]
        rw [if_neg (Ne.symm h1), if_neg (Ne.symm h2)]; rfl
      simp only [execute, h0, hs, Nat.sub_self, and_self]

example : budget (.other 7) = (4, [1 / 10, 1 / 5, 2 / 5]) ∧ budget (.protocol (-32001) 0) = (1, []) ∧
    budget (.protocol (-32600) 0) = (3, [1 / 2, 1 / 2]) := by decide +kernel

/-- **C143 (custom).** A strategy added for a code is used for errors with that code and for no other. -/
theorem C143_added (x : Executor) (code : Int) (st : Strategy) (e : Err) :
    getStrategy (x.addStrategy code st).strategies (x.addStrategy code st).default (codeOf e) =
      if HasCode code e then st else getStrategy x.strategies x.default (codeOf e) := by
  simp only [hasCode_iff, getStrategy, Executor.addStrategy, AMap.get_insert]
  split <;> rfl

/-- **C143 (custom), what is executed.** An operation failing first with an error of that code is handled as by an
executor that knows only the strategy added; any other as before. -/
theorem C143_added_runs (x : Executor) (code : Int) (st : Strategy) (bs : Breakers) (op : Nat) (out : Nat → Res)
    (t₁ t₂ : Nat) (e : Err) (h : out 0 = .error e) :
    execute (x.addStrategy code st) bs op out t₁ t₂ =
      if HasCode code e then execute { x with strategies := [], default := st } bs op out t₁ t₂
      else execute x bs op out t₁ t₂ := by
  have ha := C143_added x code st e
  split
  · next hc =>
    rw [if_pos hc] at ha
    have hd : getStrategy ([] : AMap Int Strategy) st (codeOf e) = st := rfl
    simp only [execute, h, ha, hd]
    rfl
  · next hc =>
    rw [if_neg hc] at ha
    simp only [execute, h, ha]
    rfl

example : HasCode (-32001) (.protocol (-32001) 3) ∧ ¬ HasCode (-32001) (.other 3) := by decide

end Verif.Recovery
