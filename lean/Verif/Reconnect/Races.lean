import Verif.Reconnect.Stats

/-
Several tasks that call `reconnect_with` on the same manager: C200.

Models /repo/src/shared/reconnect.rs L361-394.  Each method of the manager is one atomic step; between two of them any
other task may run.
-/

namespace Verif.Reconnect.Races

open Verif.Reconnect

/-- Where a call of `reconnect_with` is, /repo/src/shared/reconnect.rs L366-393: at the check that begins the loop (at
first, or after sleeping), after a check that allowed an attempt, in `connect`, after a failed attempt, or returned. -/
inductive Phase where
  | top | allowed | attempting | failed | returned (o : Outcome)
  deriving DecidableEq, Repr

/-- The manager and the calls. /repo/src/shared/reconnect.rs L361-394. -/
structure World where
  mgr : State := {}
  calls : List Phase
  deriving DecidableEq

/-- What happens next: a call checks, begins its attempt, its `connect` ends, or it checks again after a failure.
/repo/src/shared/reconnect.rs L366-393. -/
inductive Event where
  | check (i now : Nat)
  | begin (i : Nat)
  | result (i : Nat) (ok : Bool) (now : Nat)
  | recheck (i now : Nat)
  deriving DecidableEq

/-- One event (one that does not fit where the call is changes nothing). /repo/src/shared/reconnect.rs L366-393. -/
def step (cfg : Config) (w : World) : Event → World
  | .check i now =>
    if w.calls[i]? = some .top then
      ⟨(shouldReconnect cfg w.mgr now).1,
        w.calls.set i (if (shouldReconnect cfg w.mgr now).2.1 then .allowed else .returned .refused)⟩
    else w
  | .begin i =>
    if w.calls[i]? = some .allowed then ⟨(onConnecting w.mgr).1, w.calls.set i .attempting⟩ else w
  | .result i ok now =>
    if w.calls[i]? = some .attempting then
      if ok then ⟨(onConnected cfg w.mgr now).1, w.calls.set i (.returned .ok)⟩
      else ⟨(onFailed cfg w.mgr now).1, w.calls.set i .failed⟩
    else w
  | .recheck i now =>
    if w.calls[i]? = some .failed then
      ⟨(shouldReconnect cfg w.mgr now).1,
        w.calls.set i (if (shouldReconnect cfg w.mgr now).2.1 then .top else .returned .lastError)⟩
    else w

/-- A schedule of `n` calls of `reconnect_with` on a new manager. /repo/src/shared/reconnect.rs L361-394. -/
def run (cfg : Config) (n : Nat) (es : List Event) : World :=
  es.foldl (step cfg) ⟨{}, List.replicate n .top⟩

/-! ### C200 -/

/-- The calls in `connect`. (Specification: no counterpart in the code.) -/
def attempts (w : World) : Nat := w.calls.countP (· = .attempting)

/-- Nothing happens between a check and the beginning of the attempt it allows. (Specification: no counterpart in the
code.) -/
def Prompt : List Event → Prop
  | [] => True
  | [.check _ _] => True
  | .check i _ :: e :: es => e = .begin i ∧ Prompt es
  | _ :: es => Prompt es

theorem countP_set {α : Type} (p : α → Bool) (l : List α) (i : Nat) (a x : α) (h : l[i]? = some a) :
    (l.set i x).countP p + (p a).toNat = l.countP p + (p x).toNat := by
  induction l generalizing i with
  | nil => simp at h
  | cons b l ih =>
    cases i with
    | zero =>
      simp only [List.getElem?_cons_zero, Option.some.injEq] at h
      subst h
      simp only [List.set_cons_zero, List.countP_cons]
      cases p b <;> cases p x <;> simp <;> omega
    | succ i =>
      simp only [List.getElem?_cons_succ] at h
      have := ih i h
      simp only [List.set_cons_succ, List.countP_cons]
      omega

theorem should_st (cfg : Config) (s : State) (now : Nat) :
    ((shouldReconnect cfg s now).2.1 = true → s.st ≠ .connecting ∧ s.st ≠ .connected) ∧
    ((shouldReconnect cfg s now).1.st = .connecting ↔ s.st = .connecting) ∧
    (shouldReconnect cfg s now).1.retry = s.retry ∧ (shouldReconnect cfg s now).1.failures = s.failures := by
  unfold shouldReconnect
  split
  · simp
  · split <;> simp_all
    · split
      · split <;> simp_all
      · simp_all
    · split <;> simp_all

/-- The invariant of prompt schedules: an attempt is in progress exactly if the manager says so, and then one.
(Specification: no counterpart in the code.) -/
def Inv (w : World) : Prop := attempts w = if w.mgr.st = .connecting then 1 else 0

theorem attempts_set (w : World) (i : Nat) (a x : Phase) (m : State) (h : w.calls[i]? = some a) :
    attempts ⟨m, w.calls.set i x⟩ + (decide (a = .attempting)).toNat =
      attempts w + (decide (x = .attempting)).toNat :=
  countP_set _ _ _ _ _ h

theorem Inv.same {w : World} (hw : Inv w) {i : Nat} {a x : Phase} {m : State} (h : w.calls[i]? = some a)
    (ha : a ≠ .attempting) (hx : x ≠ .attempting) (hm : m.st = .connecting ↔ w.mgr.st = .connecting) :
    Inv ⟨m, w.calls.set i x⟩ := by
  have := attempts_set w i a x m h
  simp only [ha, hx, decide_false, Bool.toNat_false, Nat.add_zero] at this
  unfold Inv at hw ⊢
  rw [this, hw]
  simp only [hm]

theorem inv_result (cfg : Config) (w : World) (hw : Inv w) (i : Nat) (ok : Bool) (now : Nat) :
    Inv (step cfg w (.result i ok now)) := by
  unfold step
  simp only
  split
  · rename_i h
    have hpos : w.calls.countP (· = .attempting) > 0 := by
      rw [gt_iff_lt, List.countP_pos_iff]
      exact ⟨_, List.mem_of_getElem? h, by simp⟩
    have h1 : w.mgr.st = .connecting := by
      unfold Inv attempts at hw
      split at hw
      · assumption
      · omega
    have h2 : attempts w = 1 := by rw [show attempts w = _ from hw, if_pos h1]
    split
    · have := attempts_set w i _ (.returned .ok) (onConnected cfg w.mgr now).1 h
      have hs : (onConnected cfg w.mgr now).1.st ≠ .connecting := by simp [onConnected]
      unfold Inv
      rw [if_neg hs]
      simp at this
      omega
    · have := attempts_set w i _ .failed (onFailed cfg w.mgr now).1 h
      have hs : (onFailed cfg w.mgr now).1.st ≠ .connecting := by unfold onFailed; split <;> simp
      unfold Inv
      rw [if_neg hs]
      simp at this
      omega
  · exact hw

theorem inv_recheck (cfg : Config) (w : World) (hw : Inv w) (i now : Nat) : Inv (step cfg w (.recheck i now)) := by
  unfold step
  simp only
  split
  · rename_i h
    refine hw.same h (by simp) ?_ (should_st cfg w.mgr now).2.1
    split <;> simp
  · exact hw

theorem inv_check (cfg : Config) (w : World) (hw : Inv w) (i now : Nat) :
    Inv (step cfg w (.check i now)) := by
  unfold step
  simp only
  split
  · rename_i h
    refine hw.same h (by simp) ?_ (should_st cfg w.mgr now).2.1
    split <;> simp
  · exact hw

/-- No call is between its check and its attempt. (Specification: no counterpart in the code.) -/
def Clear (w : World) : Prop := ∀ i : Nat, w.calls[i]? ≠ some Phase.allowed

theorem Clear.set {w : World} (hw : Clear w) {i : Nat} {x : Phase} {m : State} (hx : x ≠ .allowed) :
    Clear ⟨m, w.calls.set i x⟩ := by
  intro j hj
  rw [List.getElem?_set] at hj
  split at hj
  · split at hj
    · simp only [Option.some.injEq] at hj; exact hx hj
    · cases hj
  · exact hw j hj

theorem clear_step (cfg : Config) (w : World) (hw : Clear w) (e : Event) (he : ∀ i now, e ≠ .check i now) :
    Clear (step cfg w e) := by
  cases e with
  | check i now => exact absurd rfl (he i now)
  | begin i =>
    unfold step
    simp only
    split
    · exact hw.set (by simp)
    · exact hw
  | result i ok now =>
    unfold step
    simp only
    split
    · split <;> exact hw.set (by simp)
    · exact hw
  | recheck i now =>
    unfold step
    simp only
    split
    · refine hw.set ?_
      split <;> simp
    · exact hw

theorem inv_pair (cfg : Config) (w : World) (hw : Inv w) (hc : Clear w) (i now : Nat) :
    Inv (step cfg (step cfg w (.check i now)) (.begin i)) ∧ Clear (step cfg (step cfg w (.check i now)) (.begin i)) := by
  by_cases h : w.calls[i]? = some .top
  · obtain ⟨h1, h2, _⟩ := should_st cfg w.mgr now
    have hlt : i < w.calls.length := (List.getElem?_eq_some_iff.mp h).1
    cases hb : (shouldReconnect cfg w.mgr now).2.1 with
    | true =>
      have e1 : step cfg w (.check i now) = ⟨(shouldReconnect cfg w.mgr now).1, w.calls.set i .allowed⟩ := by
        simp [step, h, hb]
      have e2 : step cfg (step cfg w (.check i now)) (.begin i) =
          ⟨(onConnecting (shouldReconnect cfg w.mgr now).1).1, w.calls.set i .attempting⟩ := by
        rw [e1]; simp [step, hlt]
      rw [e2]
      refine ⟨?_, hc.set (by simp)⟩
      have h0 : attempts w = 0 := by rw [show attempts w = _ from hw, if_neg (h1 hb).1]
      have := attempts_set w i _ .attempting (onConnecting (shouldReconnect cfg w.mgr now).1).1 h
      unfold Inv
      rw [if_pos (by simp [onConnecting])]
      simp at this
      omega
    | false =>
      have e1 : step cfg w (.check i now) = ⟨(shouldReconnect cfg w.mgr now).1, w.calls.set i (.returned .refused)⟩ := by
        simp [step, h, hb]
      have e2 : step cfg (step cfg w (.check i now)) (.begin i) = step cfg w (.check i now) := by
        rw [e1]; simp [step, hlt]
      rw [e2, e1]
      exact ⟨hw.same h (by simp) (by simp) h2, hc.set (by simp)⟩
  · have e1 : step cfg w (.check i now) = w := by simp [step, h]
    have e2 : step cfg w (.begin i) = w := by simp [step, hc i]
    rw [e1, e2]
    exact ⟨hw, hc⟩

theorem inv_prompt (cfg : Config) (es : List Event) (hp : Prompt es) : ∀ w, Inv w → Clear w →
    Inv (es.foldl (step cfg) w) := by
  match es, hp with
  | [], _ => exact fun w h _ => h
  | [.check i now], _ => exact fun w h _ => inv_check cfg w h i now
  | .check i now :: e :: es, hp =>
    intro w h hc
    obtain ⟨rfl, hp⟩ := hp
    have := inv_pair cfg w h hc i now
    exact inv_prompt cfg es hp _ this.1 this.2
  | .begin i :: es, hp =>
    intro w h hc
    have e2 : step cfg w (.begin i) = w := by simp [step, hc i]
    rw [List.foldl_cons, e2]
    exact inv_prompt cfg es (by cases es <;> exact hp) _ h hc
  | .result i ok now :: es, hp =>
    intro w h hc
    exact inv_prompt cfg es (by cases es <;> exact hp) _ (inv_result cfg w h i ok now) (clear_step cfg w hc _ (by simp))
  | .recheck i now :: es, hp =>
    intro w h hc
    exact inv_prompt cfg es (by cases es <;> exact hp) _ (inv_recheck cfg w h i now) (clear_step cfg w hc _ (by simp))

/-- C200, if nothing happens between a check and the attempt it allows: of any number of calls of `reconnect_with` on
one manager at most one is connecting at any time, and the manager's state says whether one is.  The property asked
for, that this holds for every schedule, fails. -/
theorem C200_one_partial (cfg : Config) (n : Nat) (es : List Event) (hp : Prompt es) :
    attempts (run cfg n es) ≤ 1 ∧ (attempts (run cfg n es) = 1 ↔ (run cfg n es).mgr.st = .connecting) := by
  have hc : Clear ⟨{}, List.replicate n .top⟩ := by
    intro i h
    have := List.mem_of_getElem? h
    simp at this
  have hi : Inv ⟨{}, List.replicate n .top⟩ := by
    simp [Inv, attempts, List.countP_replicate]
  have h : attempts (run cfg n es) = _ := inv_prompt cfg es hp _ hi hc
  rw [h]
  change (if (run cfg n es).mgr.st = .connecting then 1 else 0) ≤ 1 ∧
    ((if (run cfg n es).mgr.st = .connecting then 1 else 0) = 1 ↔ _)
  split <;> simp_all

/-- C200 fails: two calls check before either begins, and both connect; if one succeeds and the other fails after it,
the manager believes that there is no connection, and allows another. -/
theorem C200_two_attempts (cfg : Config) (hm : ∀ m, cfg.maxRetries = some m → 2 ≤ m) (ht : cfg.threshold = none) :
    attempts (run cfg 2 [.check 0 0, .check 1 0, .begin 0, .begin 1]) = 2 ∧
    ∃ w, w = run cfg 2 [.check 0 0, .check 1 0, .begin 0, .begin 1, .result 0 true 1, .result 1 false 2] ∧
      w.calls[0]? = some (.returned .ok) ∧ w.mgr.st = .waitingRetry ∧
      ∀ now, (shouldReconnect cfg w.mgr now).2.1 = true := by
  obtain ⟨mr, rs, st, th, cb⟩ := cfg
  simp only at ht hm
  subst ht
  cases mr with
  | none => exact ⟨rfl, _, rfl, rfl, rfl, fun now => rfl⟩
  | some m =>
    have h2 := hm m rfl
    obtain ⟨m, rfl⟩ : ∃ k, m = k + 2 := ⟨m - 2, by omega⟩
    cases rs <;> refine ⟨?_, _, rfl, ?_, ?_, fun now => ?_⟩ <;>
      simp [run, step, attempts, shouldReconnect, onConnecting, onConnected, onFailed, reaches, List.replicate]

/-- C200 fails: a call is refused with "Reconnection disabled or limit reached" although reconnection is enabled and has
no limit: another call has just connected. -/
theorem C200_refused_connected : ∃ (cfg : Config) (es : List Event), Prompt es ∧ cfg.maxRetries = none ∧
    (run cfg 2 es).mgr.st = .connected ∧ (run cfg 2 es).mgr.enabled = true ∧
    (run cfg 2 es).calls = [.returned .ok, .returned .refused] :=
  ⟨⟨none, true, 0, none, 0⟩, [.check 0 0, .begin 0, .result 0 true 1, .check 1 2, .begin 1], by simp [Prompt], rfl,
    by decide, by decide, by decide⟩

/-- The calls whose attempt is allowed, in progress, or succeeded. (Specification: no counterpart in the code.) -/
def used (p : Phase) : Bool := p = .allowed || p = .attempting || p = .returned .ok

/-- Every attempt failed, or belongs to a call that is used; no more are allowed than the limit says, but for one for each
other call. (Specification: no counterpart in the code.) -/
def Bound (m n : Nat) (w : World) : Prop :=
  w.calls.length = n ∧
  w.mgr.attempts + w.calls.countP (· = .allowed) = w.mgr.retry + w.calls.countP used ∧
  (w.mgr.retry + w.calls.countP used + 1 ≤ m + n ∨ w.mgr.retry + w.calls.countP used = 0)

theorem should_attempts (cfg : Config) (s : State) (now : Nat) :
    (shouldReconnect cfg s now).1.attempts = s.attempts ∧ (shouldReconnect cfg s now).1.retry = s.retry := by
  unfold shouldReconnect
  split
  · simp
  · split
    · exact ⟨rfl, rfl⟩
    · exact ⟨rfl, rfl⟩
    · split
      · split <;> exact ⟨rfl, rfl⟩
      · exact ⟨rfl, rfl⟩
    · split <;> exact ⟨rfl, rfl⟩

theorem should_limit (cfg : Config) (m : Nat) (hm : cfg.maxRetries = some m) (s : State) (now : Nat)
    (hs : s.st ≠ .circuitOpen) (h : (shouldReconnect cfg s now).2.1 = true) : s.retry < m := by
  unfold shouldReconnect at h
  split at h
  · cases h
  · split at h
    · cases h
    · cases h
    · exact absurd ‹_› hs
    · rw [hm] at h
      simpa using h

theorem should_open (cfg : Config) (s : State) (now : Nat) (hs : s.st ≠ .circuitOpen) :
    (shouldReconnect cfg s now).1.st ≠ .circuitOpen := by
  unfold shouldReconnect
  split
  · exact hs
  · split
    · exact hs
    · exact hs
    · exact absurd ‹_› hs
    · split <;> exact hs

theorem bound_step (cfg : Config) (m n : Nat) (hm : cfg.maxRetries = some m) (hr : cfg.resetOnSuccess = false)
    (ht : cfg.threshold = none) (w : World) (hw : Bound m n w) (ho : w.mgr.st ≠ .circuitOpen) (e : Event) :
    Bound m n (step cfg w e) ∧ (step cfg w e).mgr.st ≠ .circuitOpen := by
  obtain ⟨hl, ha, hb⟩ := hw
  cases e with
  | check i now =>
    unfold step
    simp only
    split
    · rename_i h
      refine ⟨⟨by simpa using hl, ?_, ?_⟩, should_open cfg _ now ho⟩
      · obtain ⟨h1, h2⟩ := should_attempts cfg w.mgr now
        simp only [h1, h2]
        split
        · have c1 := countP_set (· = Phase.allowed) _ i _ Phase.allowed h
          have c2 := countP_set used _ i _ Phase.allowed h
          simp [used] at c1 c2
          rw [c1, c2]
          show _ = _ + (w.calls.countP used + 1)
          omega
        · have c1 := countP_set (· = Phase.allowed) _ i _ (.returned .refused) h
          have c2 := countP_set used _ i _ (.returned .refused) h
          simp [used] at c1 c2
          rw [c1, c2]
          exact ha
      · obtain ⟨h1, h2⟩ := should_attempts cfg w.mgr now
        simp only [h2]
        split
        · rename_i hp
          have hlim := should_limit cfg m hm _ _ ho hp
          have c2 := countP_set used _ i _ Phase.allowed h
          have hle : (w.calls.set i .allowed).countP used ≤ (w.calls.set i .allowed).length := List.countP_le_length
          simp only [List.length_set, hl] at hle
          omega
        · have c2 := countP_set used _ i _ (.returned .refused) h
          simp [used] at c2
          rw [c2]
          exact hb
    · exact ⟨⟨hl, ha, hb⟩, ho⟩
  | begin i =>
    unfold step
    simp only
    split
    · rename_i h
      have c1 := countP_set (· = Phase.allowed) _ i _ Phase.attempting h
      have c2 := countP_set used _ i _ Phase.attempting h
      simp [used] at c1 c2
      refine ⟨⟨by simpa using hl, ?_, ?_⟩, by simp [onConnecting]⟩
      · simp only [onConnecting]
        rw [c2]
        change _ = _ + w.calls.countP used
        omega
      · simp only [onConnecting]
        rw [c2]
        exact hb
    · exact ⟨⟨hl, ha, hb⟩, ho⟩
  | result i ok now =>
    unfold step
    simp only
    split
    · rename_i h
      split
      · have c1 := countP_set (· = Phase.allowed) _ i _ (.returned .ok) h
        have c2 := countP_set used _ i _ (.returned .ok) h
        simp [used] at c1 c2
        refine ⟨⟨by simpa using hl, ?_, ?_⟩, by simp [onConnected]⟩
        · simp only [onConnected, hr, Bool.false_eq_true, if_false]
          rw [c1, c2]
          exact ha
        · simp only [onConnected, hr, Bool.false_eq_true, if_false]
          rw [c2]
          exact hb
      · have c1 := countP_set (· = Phase.allowed) _ i _ .failed h
        have c2 := countP_set used _ i _ .failed h
        simp only [used] at c1 c2
        simp at c1 c2
        have c2' : (w.calls.set i .failed).countP used + 1 = w.calls.countP used := c2
        refine ⟨⟨by simpa using hl, ?_, ?_⟩, by simp [onFailed, reaches, ht]⟩
        · simp only [onFailed, reaches, ht, Bool.false_eq_true, if_false]
          rw [c1]
          omega
        · simp only [onFailed, reaches, ht, Bool.false_eq_true, if_false]
          omega
    · exact ⟨⟨hl, ha, hb⟩, ho⟩
  | recheck i now =>
    unfold step
    simp only
    split
    · rename_i h
      refine ⟨⟨by simpa using hl, ?_, ?_⟩, should_open cfg _ now ho⟩
      · obtain ⟨h1, h2⟩ := should_attempts cfg w.mgr now
        simp only [h1, h2]
        split
        · have c1 := countP_set (· = Phase.allowed) _ i _ Phase.top h
          have c2 := countP_set used _ i _ Phase.top h
          simp [used] at c1 c2
          rw [c1, c2]
          exact ha
        · have c1 := countP_set (· = Phase.allowed) _ i _ (.returned .lastError) h
          have c2 := countP_set used _ i _ (.returned .lastError) h
          simp [used] at c1 c2
          rw [c1, c2]
          exact ha
      · obtain ⟨h1, h2⟩ := should_attempts cfg w.mgr now
        simp only [h2]
        split
        · have c2 := countP_set used _ i _ Phase.top h
          simp [used] at c2
          rw [c2]
          exact hb
        · have c2 := countP_set used _ i _ (.returned .lastError) h
          simp [used] at c2
          rw [c2]
          exact hb
    · exact ⟨⟨hl, ha, hb⟩, ho⟩

/-- C200, for every schedule: `n` calls of `reconnect_with` on one manager make at most `max_retries + n - 1` attempts,
successful ones included, if there is no circuit breaker and successes do not reset the count.  The property asked for,
that they make at most `max_retries` attempts, fails if they overlap. -/
theorem C200_limit_partial (cfg : Config) (m n : Nat) (hm : cfg.maxRetries = some m) (hr : cfg.resetOnSuccess = false)
    (ht : cfg.threshold = none) (es : List Event) : (run cfg n es).mgr.attempts ≤ m + (n - 1) := by
  have key : ∀ (es : List Event) (w : World), Bound m n w → w.mgr.st ≠ .circuitOpen →
      Bound m n (es.foldl (step cfg) w) := by
    intro es
    induction es with
    | nil => exact fun w h _ => h
    | cons e es ih =>
      intro w h ho
      have := bound_step cfg m n hm hr ht w h ho e
      exact ih _ this.1 this.2
  have h0 : Bound m n ⟨{}, List.replicate n .top⟩ := by
    refine ⟨by simp, by simp [List.countP_replicate, used], Or.inr (by simp [List.countP_replicate, used])⟩
  obtain ⟨h1, h2, h3⟩ := key es _ h0 (by simp)
  unfold run
  omega

/-- C200 fails: with a limit of one attempt, two overlapping calls make two, and both fail. -/
theorem C200_limit_exceeded : ∃ (cfg : Config) (es : List Event), cfg.maxRetries = some 1 ∧ cfg.threshold = none ∧
    (run cfg 2 es).mgr.attempts = 2 ∧ (run cfg 2 es).calls = [.returned .lastError, .returned .lastError] :=
  ⟨⟨some 1, false, 0, none, 0⟩, [.check 0 0, .check 1 0, .begin 0, .begin 1, .result 0 false 1, .result 1 false 1,
    .recheck 0 2, .recheck 1 2], rfl, rfl, by decide, by decide⟩

/-- `C200_one_partial`: a prompt schedule in which one call connects and the other fails first. -/
example : Prompt [.check 0 0, .begin 0, .result 0 false 1, .recheck 0 1, .check 1 2, .begin 1, .result 1 true 3] ∧
    (run ⟨none, true, 0, none, 0⟩ 2
      [.check 0 0, .begin 0, .result 0 false 1, .recheck 0 1, .check 1 2, .begin 1, .result 1 true 3]).calls =
      [.top, .returned .ok] := ⟨by simp [Prompt], by decide⟩

/-- `C200_two_attempts`: the default configuration but for the breaker. -/
example : ∀ m, (⟨none, true, 60, none, 60⟩ : Config).maxRetries = some m → 2 ≤ m := by simp

/-- `C200_limit_partial`: two overlapping calls and a limit of three; four attempts are made. -/
example : (run ⟨some 3, false, 0, none, 0⟩ 2 [.check 0 0, .begin 0, .result 0 false 1, .recheck 0 1, .check 0 2, .begin 0,
    .result 0 false 3, .recheck 0 3, .check 0 4, .check 1 4, .begin 0, .begin 1]).mgr.attempts = 4 := by decide

end Verif.Reconnect.Races
