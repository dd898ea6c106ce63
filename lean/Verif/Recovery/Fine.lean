import Verif.Recovery.Model

/-
The circuit breaker with every read and write of its four locks as a separate step: C205.

Models /repo/src/error/recovery.rs L336-414. (`Verif.Recovery.Model` takes the writes of a call as one step.) A call that
keeps a guard (`success_count` L370-378, `failure_count` L393-401) excludes others from that field until it is done
with it. Times are those of the clock at the step that uses them; the clock is moved by steps of its own.
-/

namespace Verif.Recovery.Fine

/-- A call of a breaker. /repo/src/error/recovery.rs L336-414. -/
inductive Kind where
  | allow | success | failure
  deriving DecidableEq, Repr

/-- Where a call is. /repo/src/error/recovery.rs L336-414. -/
inductive Pc where
  /-- before reading `state`: L337, L363, L389 -/
  | start (k : Kind)
  /-- `allow_request` saw an open breaker, before reading `last_failure_time`: L343 -/
  | last
  /-- before `state := HalfOpen`: L346 -/
  | half
  /-- before `success_count := 0`: L347 -/
  | zero
  /-- `record_success`, before the last write `failure_count := 0`: L367, L377, L383; with `success_count` held if the
  breaker was half-open -/
  | clear (held : Bool)
  /-- before `success_count += 1`: L370-371 -/
  | count
  /-- before `state := Closed`: L375, L382 -/
  | close (held : Bool)
  /-- `record_failure`, before `failure_count += 1`: L393-394 -/
  | fail
  /-- before `state := Open`: L397 (with `failure_count` held), L403 -/
  | open (held : Bool)
  /-- before `last_failure_time := now`: L398 (with `failure_count` held), L404 -/
  | time (held : Bool)
  /-- before `failure_count := 1`: L405 -/
  | one
  /-- before `last_failure_time := now` of a breaker that was open: L410 -/
  | again
  deriving DecidableEq, Repr

/-- The breaker, the clock, the calls in progress, and what has returned: answers of `allow_request` and the number of
recorded failures. /repo/src/error/recovery.rs L242-248, L336-414. -/
structure Sys where
  breaker : Breaker := {}
  now : Nat := 0
  calls : List Pc := []
  answers : List Bool := []
  recorded : Nat := 0
  deriving DecidableEq

/-- What happens next: time passes, a call begins, or a call takes its next step. /repo/src/error/recovery.rs L336-414. -/
inductive Op where
  | tick (d : Nat)
  | begin (k : Kind)
  | go (i : Nat)
  deriving DecidableEq

/-- The call has `failure_count` locked, /repo/src/error/recovery.rs L393-401. -/
def Pc.holdsFailures : Pc → Bool
  | .open h => h
  | .time h => h
  | _ => false

/-- The call has `success_count` locked, /repo/src/error/recovery.rs L370-379. -/
def Pc.holdsSuccesses : Pc → Bool
  | .close h => h
  | .clear h => h
  | _ => false

/-- The next step takes `failure_count`, /repo/src/error/recovery.rs L367, L377, L383, L393, L405. -/
def Pc.wantsFailures : Pc → Bool
  | .clear _ => true
  | .fail => true
  | .one => true
  | _ => false

/-- The next step takes `success_count`, /repo/src/error/recovery.rs L347, L370. -/
def Pc.wantsSuccesses : Pc → Bool
  | .zero => true
  | .count => true
  | _ => false

/-- What a step of a call does: the breaker, and where the call is then or what it answers (`none` for the calls that
record). /repo/src/error/recovery.rs L336-414. -/
def act (c : Config) (b : Breaker) (now : Nat) : Pc → Breaker × (Pc ⊕ Option Bool)
  | .start .allow => match b.state with
    | .closed => (b, .inr (some true))
    | .opened => (b, .inl .last)
    | .halfOpen => (b, .inr (some true))
  | .start .success => match b.state with
    | .closed => (b, .inl (.clear false))
    | .halfOpen => (b, .inl .count)
    | .opened => (b, .inl (.close false))
  | .start .failure => match b.state with
    | .closed => (b, .inl .fail)
    | .halfOpen => (b, .inl (.open false))
    | .opened => (b, .inl .again)
  | .last => match b.lastFailure with
    | some t => if now - t ≥ c.timeout then (b, .inl .half) else (b, .inr (some false))
    | none => (b, .inr (some false))
  | .half => ({ b with state := .halfOpen }, .inl .zero)
  | .zero => ({ b with successes := 0 }, .inr (some true))
  | .clear _ => ({ b with failures := 0 }, .inr none)
  | .count =>
    ({ b with successes := b.successes + 1 },
      if b.successes + 1 ≥ c.successThreshold then .inl (.close true) else .inr none)
  | .close h => ({ b with state := .closed }, .inl (.clear h))
  | .fail =>
    ({ b with failures := b.failures + 1 },
      if b.failures + 1 ≥ c.failureThreshold then .inl (.open true) else .inr none)
  | .open h => ({ b with state := .opened }, .inl (.time h))
  | .time h => ({ b with lastFailure := some now }, if h then .inr none else .inl .one)
  | .one => ({ b with failures := 1 }, .inr none)
  | .again => ({ b with lastFailure := some now }, .inr none)

/-- The call records a failure, /repo/src/error/recovery.rs L388-413. -/
def Pc.failing : Pc → Bool
  | .start k => k == .failure
  | .fail => true
  | .open _ => true
  | .time _ => true
  | .one => true
  | .again => true
  | _ => false

/-- One step; a call that needs a lock that another holds does not move. /repo/src/error/recovery.rs L336-414. -/
def step (c : Config) (s : Sys) : Op → Sys
  | .tick d => { s with now := s.now + d }
  | .begin k => { s with calls := s.calls ++ [.start k] }
  | .go i => match s.calls[i]? with
    | none => s
    | some p =>
      let others := s.calls.eraseIdx i
      if (p.wantsFailures && others.any Pc.holdsFailures) || (p.wantsSuccesses && others.any Pc.holdsSuccesses) then s
      else
        let r := act c s.breaker s.now p
        match r.2 with
        | .inl p' => { s with breaker := r.1, calls := s.calls.set i p' }
        | .inr a => { s with breaker := r.1, calls := others, answers := s.answers ++ a.toList,
                             recorded := s.recorded + p.failing.toNat }

/-- All steps of a schedule. /repo/src/error/recovery.rs L336-414. -/
def run (c : Config) (s : Sys) (ops : List Op) : Sys := ops.foldl (step c) s

/-! ### C205 -/

/-- The call as an event of the coarse model, at the given time. (Specification: no counterpart in the code.) -/
def Kind.ev (now : Nat) : Kind → Ev
  | .allow => .allow now
  | .success => .success
  | .failure => .failure now

/-- C205: a call that is not interrupted does what the coarser model says: some number of its steps, at most five, lead to
the state in which it has returned. -/
theorem C205_uninterrupted (c : Config) (b : Breaker) (now : Nat) (an : List Bool) (n : Nat) (k : Kind) :
    ∃ m ≤ 5, run c ⟨b, now, [], an, n⟩ (.begin k :: List.replicate m (.go 0)) =
      ⟨call c b (k.ev now), now, [], an ++ (match k with
        | .allow => [allowed c b now]
        | _ => []), n + (match k with
        | .failure => 1
        | _ => 0)⟩ := by
  cases k with
  | allow =>
    cases hs : b.state with
    | closed => exact ⟨1, by omega, by simp [run, step, act, hs, call, allowed, allowAct, Kind.ev, Pc.wantsFailures,
        Pc.wantsSuccesses, Pc.failing]⟩
    | halfOpen => exact ⟨1, by omega, by simp [run, step, act, hs, call, allowed, allowAct, Kind.ev, Pc.wantsFailures,
        Pc.wantsSuccesses, Pc.failing]⟩
    | opened =>
      cases hl : b.lastFailure with
      | none => exact ⟨2, by omega, by simp [run, step, act, hs, hl, call, allowed, allowAct, Kind.ev, Pc.wantsFailures,
        Pc.wantsSuccesses, Pc.failing, List.replicate]⟩
      | some t =>
        by_cases ht : now - t ≥ c.timeout
        · exact ⟨4, by omega, by simp [run, step, act, hs, hl, ht, call, allowed, allowAct, Kind.ev, Pc.wantsFailures,
        Pc.wantsSuccesses, Pc.failing, List.replicate]⟩
        · exact ⟨2, by omega, by simp [run, step, act, hs, hl, ht, call, allowed, allowAct, Kind.ev, Pc.wantsFailures,
        Pc.wantsSuccesses, Pc.failing, List.replicate]⟩
  | success =>
    cases hs : b.state with
    | closed => exact ⟨2, by omega, by simp [run, step, act, hs, call, successAct, Kind.ev, Pc.wantsFailures,
        Pc.wantsSuccesses, Pc.failing, List.replicate]⟩
    | opened => exact ⟨3, by omega, by simp [run, step, act, hs, call, successAct, Kind.ev, Pc.wantsFailures,
        Pc.wantsSuccesses, Pc.failing, List.replicate]⟩
    | halfOpen =>
      by_cases ht : b.successes + 1 ≥ c.successThreshold
      · exact ⟨4, by omega, by simp [run, step, act, hs, ht, call, successAct, Kind.ev, Pc.wantsFailures,
        Pc.wantsSuccesses, Pc.failing, List.replicate]⟩
      · exact ⟨2, by omega, by simp [run, step, act, hs, ht, call, successAct, Kind.ev, Pc.wantsFailures,
        Pc.wantsSuccesses, Pc.failing, List.replicate]⟩
  | failure =>
    cases hs : b.state with
    | closed =>
      by_cases ht : b.failures + 1 ≥ c.failureThreshold
      · exact ⟨4, by omega, by simp [run, step, act, hs, ht, call, failureAct, Kind.ev, Pc.wantsFailures,
        Pc.wantsSuccesses, Pc.failing, List.replicate]⟩
      · exact ⟨2, by omega, by simp [run, step, act, hs, ht, call, failureAct, Kind.ev, Pc.wantsFailures,
        Pc.wantsSuccesses, Pc.failing, List.replicate]⟩
    | opened => exact ⟨2, by omega, by simp [run, step, act, hs, call, failureAct, Kind.ev, Pc.wantsFailures,
        Pc.wantsSuccesses, Pc.failing, List.replicate]⟩
    | halfOpen => exact ⟨4, by omega, by simp [run, step, act, hs, call, failureAct, Kind.ev, Pc.wantsFailures,
        Pc.wantsSuccesses, Pc.failing, List.replicate]⟩

-- A breaker opened by its third failure, one step after the other.
example : run ⟨3, 1, 10⟩ ⟨{ failures := 2 }, 7, [], [], 2⟩ [.begin .failure, .go 0, .go 0, .go 0, .go 0] =
    ⟨{ state := .opened, failures := 3, lastFailure := some 7 }, 7, [], [], 3⟩ := by decide

/-- A schedule: a first failure; after the timeout a request, which succeeds, so that the breaker is closed at time 100;
much later a failure and a request at the same time. (Specification: no counterpart in the code.) -/
def bypass : List Op :=
  [.begin .failure, .go 0, .go 0, .go 0, .go 0, .tick 100, .begin .allow, .go 0, .go 0, .go 0, .go 0,
    .begin .success, .go 0, .go 0, .go 0, .go 0,
    .tick 1000, .begin .failure, .begin .allow, .go 0, .go 0, .go 0, .go 1, .go 1, .go 1, .go 1, .go 0]

/-- C205 fails: a request is let through, and the breaker left half-open, at the very moment a failure opens it: `state`
is written before `last_failure_time`, so the request still sees the time of a failure long ago.  From then on every
request is let through, although the timeout has only begun. -/
theorem C205_open_bypassed :
    (run ⟨1, 1, 100⟩ {} bypass).calls = [] ∧ (run ⟨1, 1, 100⟩ {} bypass).recorded = 2 ∧
    (run ⟨1, 1, 100⟩ {} bypass).breaker.lastFailure = some 1100 ∧ (run ⟨1, 1, 100⟩ {} bypass).now = 1100 ∧
    (run ⟨1, 1, 100⟩ {} bypass).answers = [true, true] ∧
    allowed ⟨1, 1, 100⟩ (run ⟨1, 1, 100⟩ {} bypass).breaker 1100 = true := by decide

/-- The steps of a schedule begin no `record_success`. (Specification: no counterpart in the code.) -/
def NoSuccess (ops : List Op) : Prop := Op.begin .success ∉ ops

/-- Calls that do not reopen the breaker's gate: failures being recorded, and requests that have not been let through.
(Specification: no counterpart in the code.) -/
def Pc.harmless (p : Pc) : Prop := p.failing = true ∨ p = .start .allow ∨ p = .last

/-- (Specification: no counterpart in the code.) -/
structure Shut (t : Nat) (s : Sys) : Prop where
  state : s.breaker.state = .opened
  last : ∃ t', s.breaker.lastFailure = some t' ∧ t ≤ t'
  calls : ∀ p ∈ s.calls, p.harmless

theorem shut_step (c : Config) (t : Nat) (s : Sys) (op : Op) (h : Shut t s) (ht : (step c s op).now < t + c.timeout)
    (hn : t ≤ s.now) (hop : op ≠ .begin .success) :
    Shut t (step c s op) ∧ t ≤ (step c s op).now ∧ ∃ k, (step c s op).answers = s.answers ++ List.replicate k false := by
  cases op with
  | tick d =>
    refine ⟨⟨h.state, h.last, h.calls⟩, by simp only [step]; omega, 0, by simp [step]⟩
  | begin k =>
    refine ⟨⟨h.state, h.last, ?_⟩, hn, 0, by simp [step]⟩
    intro p hp
    simp only [step, List.mem_append, List.mem_singleton] at hp
    rcases hp with hp | rfl
    · exact h.calls p hp
    · cases k with
      | allow => exact .inr (.inl rfl)
      | success => exact absurd rfl hop
      | failure => exact .inl rfl
  | go i =>
    simp only [step] at ht ⊢
    cases hi : s.calls[i]? with
    | none => exact ⟨h, hn, 0, by simp⟩
    | some p =>
      have hp := h.calls p (List.mem_of_getElem? hi)
      have herase : ∀ q ∈ s.calls.eraseIdx i, q.harmless := fun q hq => h.calls q (List.mem_of_mem_eraseIdx hq)
      have hset : ∀ p' : Pc, p'.harmless → ∀ q ∈ s.calls.set i p', q.harmless := by
        intro p' hp' q hq
        rcases List.mem_or_eq_of_mem_set hq with hq | rfl
        · exact h.calls q hq
        · exact hp'
      rw [hi] at ht
      simp only at ht ⊢
      split
      · exact ⟨h, hn, 0, by simp⟩
      · next hb =>
        rw [if_neg hb] at ht
        obtain ⟨t', hl, hle⟩ := h.last
        cases p with
        | start k =>
          cases k with
          | allow =>
            simp only [act, h.state]
            exact ⟨⟨h.state, h.last, hset _ (.inr (.inr rfl))⟩, hn, 0, by simp⟩
          | success =>
            rcases hp with hp | hp | hp
            · cases hp
            · cases hp
            · cases hp
          | failure =>
            simp only [act, h.state]
            exact ⟨⟨h.state, h.last, hset _ (.inl rfl)⟩, hn, 0, by simp⟩
        | last =>
          have hlt : ¬ (s.now - t' ≥ c.timeout) := by
            by_cases hc : s.now - t' ≥ c.timeout
            · simp only [act, hl, hc, if_true] at ht
              omega
            · exact hc
          simp only [act, hl, hlt, if_false]
          exact ⟨⟨h.state, ⟨t', hl, hle⟩, herase⟩, hn, 1, by simp⟩
        | half => rcases hp with hp | hp | hp <;> cases hp
        | zero => rcases hp with hp | hp | hp <;> cases hp
        | clear x => rcases hp with hp | hp | hp <;> cases hp
        | count => rcases hp with hp | hp | hp <;> cases hp
        | close x => rcases hp with hp | hp | hp <;> cases hp
        | fail =>
          simp only [act]
          split
          · next p' he =>
            split at he
            · cases he
              exact ⟨⟨h.state, h.last, hset _ (.inl rfl)⟩, hn, 0, by simp⟩
            · cases he
          · next a he =>
            split at he
            · cases he
            · cases he
              exact ⟨⟨h.state, h.last, herase⟩, hn, 0, by simp⟩
        | «open» x =>
          simp only [act]
          exact ⟨⟨rfl, h.last, hset _ (.inl rfl)⟩, hn, 0, by simp⟩
        | time x =>
          cases x with
          | true =>
            simp only [act]
            exact ⟨⟨h.state, ⟨s.now, rfl, hn⟩, herase⟩, hn, 0, by simp⟩
          | false =>
            simp only [act]
            exact ⟨⟨h.state, ⟨s.now, rfl, hn⟩, hset _ (.inl rfl)⟩, hn, 0, by simp⟩
        | one =>
          simp only [act]
          exact ⟨⟨h.state, h.last, herase⟩, hn, 0, by simp⟩
        | again =>
          simp only [act]
          exact ⟨⟨h.state, ⟨s.now, rfl, hn⟩, herase⟩, hn, 0, by simp⟩

theorem now_mono (c : Config) (s : Sys) (op : Op) : s.now ≤ (step c s op).now := by
  cases op with
  | tick d => simp [step]
  | begin k => exact Nat.le_refl _
  | go i =>
    simp only [step]
    split
    · exact Nat.le_refl _
    · split
      · exact Nat.le_refl _
      · split <;> exact Nat.le_refl _

theorem now_run (c : Config) (ops : List Op) (s : Sys) : s.now ≤ (run c s ops).now := by
  induction ops generalizing s with
  | nil => exact Nat.le_refl _
  | cons op ops ih => exact Nat.le_trans (now_mono c s op) (ih _)

/-- C205: once the breaker is open and the time `t` of its failure is written, every request is refused until the timeout
has passed, under every schedule of requests and failures, also of failures still being recorded.

Partial: a success that is recorded meanwhile closes it (`C38_late_success`), and between the two writes that open it a
request may still get through (`C205_open_bypassed`). -/
theorem C205_stays_open_partial (c : Config) (s : Sys) (t : Nat) (ops : List Op) (ho : s.breaker.state = .opened)
    (hl : s.breaker.lastFailure = some t) (hn : t ≤ s.now) (hc : ∀ p ∈ s.calls, p.failing = true) (hops : NoSuccess ops)
    (ht : (run c s ops).now < t + c.timeout) :
    (run c s ops).breaker.state = .opened ∧ ∃ k, (run c s ops).answers = s.answers ++ List.replicate k false := by
  have key : ∀ (ops : List Op) (s : Sys), Shut t s → t ≤ s.now → NoSuccess ops → (run c s ops).now < t + c.timeout →
      (run c s ops).breaker.state = .opened ∧ ∃ k, (run c s ops).answers = s.answers ++ List.replicate k false := by
    intro ops
    induction ops with
    | nil => exact fun s h _ _ _ => ⟨h.state, 0, by simp [run]⟩
    | cons op ops ih =>
      intro s h hn hops ht
      have hle := now_run c ops (step c s op)
      have ht' : (run c (step c s op) ops).now < t + c.timeout := ht
      obtain ⟨h1, h2, k, h3⟩ := shut_step c t s op h (by omega) hn (fun e => hops (by simp [e]))
      obtain ⟨g1, k', g2⟩ := ih (step c s op) h1 h2 (fun hm => hops (List.mem_cons_of_mem _ hm)) ht'
      refine ⟨g1, k + k', ?_⟩
      have e : run c s (op :: ops) = run c (step c s op) ops := rfl
      rw [e, g2, h3, List.append_assoc, List.replicate_append_replicate]
  exact key ops s ⟨ho, ⟨t, hl, Nat.le_refl _⟩, fun p hp => .inl (hc p hp)⟩ hn hops ht

example : (run ⟨1, 1, 100⟩ ⟨{ state := .opened, failures := 1, lastFailure := some 5 }, 5, [.fail], [], 0⟩
    [.begin .allow, .tick 99, .go 0, .go 1, .go 1]).answers = [false] := by decide

/-! #### Failures open it -/

/-- Only failures are recorded. (Specification: no counterpart in the code.) -/
def OnlyFailures (ops : List Op) : Prop := ∀ op ∈ ops, ∀ k, op = .begin k → k = .failure

/-- (Specification: no counterpart in the code.) -/
structure Fails (c : Config) (s : Sys) : Prop where
  calls : ∀ p ∈ s.calls, p.failing = true
  half : s.breaker.state ≠ .halfOpen
  closed : s.breaker.state = .closed → s.recorded ≤ s.breaker.failures ∧ s.recorded < c.failureThreshold ∧
    ∀ p ∈ s.calls, p = .start .failure ∨ p = .fail ∨ p = .open true
  opened : ∀ p ∈ s.calls, p ≠ .open false ∧ p ≠ .time false ∧ p ≠ .one

theorem fails_step (c : Config) (s : Sys) (op : Op) (h : Fails c s) (hop : ∀ k, op = .begin k → k = .failure) :
    Fails c (step c s op) := by
  cases op with
  | tick d => exact ⟨h.calls, h.half, h.closed, h.opened⟩
  | begin k =>
    have := hop k rfl; subst this
    refine ⟨?_, h.half, ?_, ?_⟩
    · intro p hp
      simp only [step, List.mem_append, List.mem_singleton] at hp
      rcases hp with hp | rfl
      · exact h.calls p hp
      · rfl
    · intro hc
      obtain ⟨h1, h2, h3⟩ := h.closed hc
      refine ⟨h1, h2, ?_⟩
      intro p hp
      simp only [step, List.mem_append, List.mem_singleton] at hp
      rcases hp with hp | rfl
      · exact h3 p hp
      · exact .inl rfl
    · intro p hp
      simp only [step, List.mem_append, List.mem_singleton] at hp
      rcases hp with hp | rfl
      · exact h.opened p hp
      · exact ⟨nofun, nofun, nofun⟩
  | go i =>
    simp only [step]
    cases hi : s.calls[i]? with
    | none => exact h
    | some p =>
      simp only
      split
      · exact h
      · have hp := h.calls p (List.mem_of_getElem? hi)
        have hq := h.opened p (List.mem_of_getElem? hi)
        have herase : ∀ {P : Pc → Prop}, (∀ q ∈ s.calls, P q) → ∀ q ∈ s.calls.eraseIdx i, P q :=
          fun hP q hq => hP q (List.mem_of_mem_eraseIdx hq)
        have hset : ∀ {P : Pc → Prop} (p' : Pc), P p' → (∀ q ∈ s.calls, P q) → ∀ q ∈ s.calls.set i p', P q := by
          intro P p' hp' hP q hq
          rcases List.mem_or_eq_of_mem_set hq with hq | rfl
          · exact hP q hq
          · exact hp'
        cases p with
        | start k =>
          cases k with
          | allow => cases hp
          | success => cases hp
          | failure =>
            cases hs : s.breaker.state with
            | closed =>
              obtain ⟨h1, h2, h3⟩ := h.closed hs
              simp only [act, hs]
              exact ⟨hset _ rfl h.calls, by simp [hs], fun _ => ⟨h1, h2, hset _ (.inr (.inl rfl)) h3⟩,
                hset _ ⟨nofun, nofun, nofun⟩ h.opened⟩
            | halfOpen => exact absurd hs h.half
            | opened =>
              simp only [act, hs]
              exact ⟨hset _ rfl h.calls, by simp [hs], fun hc => by simp [hs] at hc,
                hset _ ⟨nofun, nofun, nofun⟩ h.opened⟩
        | last => cases hp
        | half => cases hp
        | zero => cases hp
        | clear x => cases hp
        | count => cases hp
        | close x => cases hp
        | fail =>
          by_cases ht : s.breaker.failures + 1 ≥ c.failureThreshold
          · simp only [act, ht, if_true]
            refine ⟨hset _ rfl h.calls, h.half, fun hc => ?_, hset _ ⟨nofun, nofun, nofun⟩ h.opened⟩
            obtain ⟨h1, h2, h3⟩ := h.closed hc
            exact ⟨Nat.le_succ_of_le h1, h2, hset _ (.inr (.inr rfl)) h3⟩
          · simp only [act, ht, if_false]
            refine ⟨herase h.calls, h.half, fun hc => ?_, herase h.opened⟩
            obtain ⟨h1, h2, h3⟩ := h.closed hc
            simp only [Pc.failing, Bool.toNat_true]
            exact ⟨by omega, by omega, herase h3⟩
        | «open» x =>
          cases x with
          | false => exact absurd rfl hq.1
          | true =>
            simp only [act]
            exact ⟨hset _ rfl h.calls, nofun, nofun, hset _ ⟨nofun, nofun, nofun⟩ h.opened⟩
        | time x =>
          cases x with
          | false => exact absurd rfl hq.2.1
          | true =>
            simp only [act, if_true]
            refine ⟨herase h.calls, h.half, fun hc => ?_, herase h.opened⟩
            have := (h.closed hc).2.2 _ (List.mem_of_getElem? hi)
            rcases this with e | e | e <;> cases e
        | one => exact absurd rfl hq.2.2
        | again =>
          simp only [act]
          refine ⟨herase h.calls, h.half, fun hc => ?_, herase h.opened⟩
          have := (h.closed hc).2.2 _ (List.mem_of_getElem? hi)
          rcases this with e | e | e <;> cases e

/-- C205: however the recording of failures overlaps, once as many as the threshold are recorded, without a success, the
breaker is open. -/
theorem C205_opens (c : Config) (hpos : 0 < c.failureThreshold) (ops : List Op) (hops : OnlyFailures ops)
    (hr : c.failureThreshold ≤ (run c {} ops).recorded) : (run c {} ops).breaker.state = .opened := by
  have key : ∀ (ops : List Op) (s : Sys), Fails c s → OnlyFailures ops → Fails c (run c s ops) := by
    intro ops
    induction ops with
    | nil => exact fun s h _ => h
    | cons op ops ih =>
      exact fun s h hops => ih _ (fails_step c s op h (hops op (List.mem_cons_self ..)))
        (fun o ho => hops o (List.mem_cons_of_mem _ ho))
  have h := key ops {} ⟨nofun, nofun, fun _ => ⟨Nat.le_refl _, hpos, nofun⟩, nofun⟩ hops
  cases hs : (run c {} ops).breaker.state with
  | opened => rfl
  | halfOpen => exact absurd hs h.half
  | closed =>
    have := (h.closed hs).2.1
    omega

-- Two failures recorded at the same time: both see the breaker closed, the second count waits for nobody.
example : (run ⟨2, 1, 10⟩ {} [.begin .failure, .begin .failure, .go 0, .go 1, .go 0, .go 0, .go 0, .go 0]).recorded = 2 ∧
    (run ⟨2, 1, 10⟩ {} [.begin .failure, .begin .failure, .go 0, .go 1, .go 0, .go 0, .go 0, .go 0]).breaker =
      { state := .opened, failures := 2, lastFailure := some 0 } := by decide

/-! The locks: a count that was reached is not changed by others before the call that reached it is done. -/

theorem count_erase (f : Pc → Bool) (l : List Pc) (i : Nat) (p : Pc) (h : l[i]? = some p) :
    l.countP f = (l.eraseIdx i).countP f + (f p).toNat := by
  induction l generalizing i with
  | nil => cases h
  | cons x l ih =>
    cases i with
    | zero => simp only [List.getElem?_cons_zero, Option.some.injEq] at h; subst h; cases hx : f x <;> simp [hx]
    | succ i =>
      simp only [List.getElem?_cons_succ] at h
      simp only [List.eraseIdx_cons_succ, List.countP_cons, ih i h]; omega

theorem count_set (f : Pc → Bool) (l : List Pc) (i : Nat) (p q : Pc) (h : l[i]? = some p) :
    (l.set i q).countP f = (l.eraseIdx i).countP f + (f q).toNat := by
  induction l generalizing i with
  | nil => cases h
  | cons x l ih =>
    cases i with
    | zero => cases hx : f q <;> simp [hx]
    | succ i =>
      simp only [List.getElem?_cons_succ] at h
      simp only [List.set_cons_succ, List.eraseIdx_cons_succ, List.countP_cons, ih i h]; omega

/-- What the locks ensure. (Specification: no counterpart in the code.) -/
structure Locked (c : Config) (s : Sys) : Prop where
  failures : 0 < s.calls.countP Pc.holdsFailures → c.failureThreshold ≤ s.breaker.failures
  successes : 0 < s.calls.countP Pc.holdsSuccesses → c.successThreshold ≤ s.breaker.successes
  oneF : s.calls.countP Pc.holdsFailures ≤ 1
  oneS : s.calls.countP Pc.holdsSuccesses ≤ 1

/-- A step of a call that does not take a count leaves it; one that does may lock it, having reached the threshold. -/
theorem act_locks (c : Config) (b : Breaker) (now : Nat) (p : Pc) :
    (p.wantsFailures = false → (act c b now p).1.failures = b.failures) ∧
    (p.wantsSuccesses = false → (act c b now p).1.successes = b.successes) ∧
    (∀ q, (act c b now p).2 = .inl q →
      (q.holdsFailures = true → p.holdsFailures = true ∧ p.wantsFailures = false ∨
        p = .fail ∧ c.failureThreshold ≤ (act c b now p).1.failures) ∧
      (q.holdsSuccesses = true → p.holdsSuccesses = true ∧ p.wantsSuccesses = false ∨
        p = .count ∧ c.successThreshold ≤ (act c b now p).1.successes)) := by
  cases p with
  | start k =>
    cases k <;> simp only [act, Pc.wantsFailures, Pc.wantsSuccesses] <;> cases b.state <;>
      exact ⟨fun _ => rfl, fun _ => rfl, fun q h => by cases h <;> exact ⟨nofun, nofun⟩⟩
  | last =>
    simp only [act]
    split
    · split
      · exact ⟨fun _ => rfl, fun _ => rfl, fun q h => by cases h; exact ⟨nofun, nofun⟩⟩
      · exact ⟨fun _ => rfl, fun _ => rfl, fun q h => by cases h⟩
    · exact ⟨fun _ => rfl, fun _ => rfl, fun q h => by cases h⟩
  | half => exact ⟨fun _ => rfl, fun _ => rfl, fun q h => by cases h; exact ⟨nofun, nofun⟩⟩
  | zero => exact ⟨fun _ => rfl, nofun, fun q h => by cases h⟩
  | clear h => exact ⟨nofun, fun _ => rfl, fun q h => by cases h⟩
  | count =>
    refine ⟨fun _ => rfl, nofun, fun q h => ?_⟩
    simp only [act] at h ⊢
    split at h
    · cases h; exact ⟨nofun, fun _ => .inr ⟨trivial, by assumption⟩⟩
    · cases h
  | close h => exact ⟨fun _ => rfl, fun _ => rfl, fun q e => by cases e; exact ⟨nofun, fun hh => .inl ⟨hh, rfl⟩⟩⟩
  | fail =>
    refine ⟨nofun, fun _ => rfl, fun q h => ?_⟩
    simp only [act] at h ⊢
    split at h
    · cases h; exact ⟨fun _ => .inr ⟨trivial, by assumption⟩, nofun⟩
    · cases h
  | «open» h => exact ⟨fun _ => rfl, fun _ => rfl, fun q e => by cases e; exact ⟨fun hh => .inl ⟨hh, rfl⟩, nofun⟩⟩
  | time h =>
    refine ⟨fun _ => rfl, fun _ => rfl, fun q e => ?_⟩
    cases h <;> cases e
    exact ⟨nofun, nofun⟩
  | one => exact ⟨nofun, fun _ => rfl, fun q h => by cases h⟩
  | again => exact ⟨fun _ => rfl, fun _ => rfl, fun q h => by cases h⟩

theorem any_count (f : Pc → Bool) (l : List Pc) (h : l.any f = false) : l.countP f = 0 := by
  rw [List.countP_eq_zero]
  intro a ha
  have := List.any_eq_false.mp h a ha
  exact this

theorem locked_step (c : Config) (s : Sys) (op : Op) (h : Locked c s) : Locked c (step c s op) := by
  cases op with
  | tick d => exact ⟨h.failures, h.successes, h.oneF, h.oneS⟩
  | begin k =>
    have e1 : (s.calls ++ [Pc.start k]).countP Pc.holdsFailures = s.calls.countP Pc.holdsFailures := by
      simp [Pc.holdsFailures]
    have e2 : (s.calls ++ [Pc.start k]).countP Pc.holdsSuccesses = s.calls.countP Pc.holdsSuccesses := by
      simp [Pc.holdsSuccesses]
    exact ⟨by simp only [step, e1]; exact h.failures, by simp only [step, e2]; exact h.successes,
      by simp only [step, e1]; exact h.oneF, by simp only [step, e2]; exact h.oneS⟩
  | go i =>
    simp only [step]
    cases hi : s.calls[i]? with
    | none => exact h
    | some p =>
      simp only
      split
      · exact h
      · rename_i hfree
        simp only [Bool.or_eq_true, Bool.and_eq_true, not_or, not_and, Bool.not_eq_true] at hfree
        obtain ⟨hf, hs⟩ := hfree
        obtain ⟨a1, a2, a3⟩ := act_locks c s.breaker s.now p
        have c1 := count_erase Pc.holdsFailures s.calls i p hi
        have c2 := count_erase Pc.holdsSuccesses s.calls i p hi
        have o1 := h.oneF
        have o2 := h.oneS
        -- what the others hold is unchanged
        have k1 : 0 < (s.calls.eraseIdx i).countP Pc.holdsFailures →
            c.failureThreshold ≤ (act c s.breaker s.now p).1.failures := by
          intro hpos
          cases hw : p.wantsFailures with
          | true => rw [any_count _ _ (hf hw)] at hpos; omega
          | false => rw [a1 hw]; exact h.failures (by omega)
        have k2 : 0 < (s.calls.eraseIdx i).countP Pc.holdsSuccesses →
            c.successThreshold ≤ (act c s.breaker s.now p).1.successes := by
          intro hpos
          cases hw : p.wantsSuccesses with
          | true => rw [any_count _ _ (hs hw)] at hpos; omega
          | false => rw [a2 hw]; exact h.successes (by omega)
        cases hr : (act c s.breaker s.now p).2 with
        | inr a =>
          exact ⟨k1, k2, by simp only; omega, by simp only; omega⟩
        | inl q =>
          obtain ⟨b1, b2⟩ := a3 q hr
          have d1 := count_set Pc.holdsFailures s.calls i p q hi
          have d2 := count_set Pc.holdsSuccesses s.calls i p q hi
          have m1 : q.holdsFailures = true → c.failureThreshold ≤ (act c s.breaker s.now p).1.failures ∧
              (s.calls.eraseIdx i).countP Pc.holdsFailures = 0 := by
            intro hq
            rcases b1 hq with ⟨x, y⟩ | ⟨rfl, y⟩
            · rw [x] at c1
              simp only [Bool.toNat_true] at c1
              exact ⟨by rw [a1 y]; exact h.failures (by omega), by omega⟩
            · exact ⟨y, any_count _ _ (hf rfl)⟩
          have m2 : q.holdsSuccesses = true → c.successThreshold ≤ (act c s.breaker s.now p).1.successes ∧
              (s.calls.eraseIdx i).countP Pc.holdsSuccesses = 0 := by
            intro hq
            rcases b2 hq with ⟨x, y⟩ | ⟨rfl, y⟩
            · rw [x] at c2
              simp only [Bool.toNat_true] at c2
              exact ⟨by rw [a2 y]; exact h.successes (by omega), by omega⟩
            · exact ⟨y, any_count _ _ (hs rfl)⟩
          refine ⟨?_, ?_, ?_, ?_⟩ <;> simp only
          · rw [d1]
            cases hq : q.holdsFailures with
            | true => exact fun _ => (m1 hq).1
            | false => simpa using k1
          · rw [d2]
            cases hq : q.holdsSuccesses with
            | true => exact fun _ => (m2 hq).1
            | false => simpa using k2
          · rw [d1]
            cases hq : q.holdsFailures with
            | true => rw [(m1 hq).2]; decide
            | false => simp; omega
          · rw [d2]
            cases hq : q.holdsSuccesses with
            | true => rw [(m2 hq).2]; decide
            | false => simp; omega

theorem locked_run (c : Config) (ops : List Op) : Locked c (run c {} ops) := by
  have key : ∀ (ops : List Op) (s : Sys), Locked c s → Locked c (run c s ops) := by
    intro ops
    induction ops with
    | nil => exact fun s h => h
    | cons op ops ih => exact fun s h => ih _ (locked_step c s op h)
  exact key ops _ ⟨nofun, nofun, by decide, by decide⟩

/-- C205: from the moment a call has counted enough failures until it has opened the breaker and written the time, the
count stays at the threshold or above, whatever other calls do; and no other call is at that point. The same for the
successes that close it. -/
theorem C205_counts_kept (c : Config) (ops : List Op) :
    (∀ p ∈ (run c {} ops).calls, p = .open true ∨ p = .time true →
      c.failureThreshold ≤ (run c {} ops).breaker.failures) ∧
    (∀ p ∈ (run c {} ops).calls, p = .close true ∨ p = .clear true →
      c.successThreshold ≤ (run c {} ops).breaker.successes) ∧
    (∀ (i j : Nat) (p q : Pc), (run c {} ops).calls[i]? = some p → (run c {} ops).calls[j]? = some q →
      (p = .open true ∨ p = .time true) → (q = .open true ∨ q = .time true) → i = j) ∧
    (∀ (i j : Nat) (p q : Pc), (run c {} ops).calls[i]? = some p → (run c {} ops).calls[j]? = some q →
      (p = .close true ∨ p = .clear true) → (q = .close true ∨ q = .clear true) → i = j) := by
  have h := locked_run c ops
  have uniq : ∀ (f : Pc → Bool) (l : List Pc), l.countP f ≤ 1 → ∀ (i j : Nat) (p q : Pc), l[i]? = some p →
      l[j]? = some q → f p = true → f q = true → i = j := by
    intro f l
    induction l with
    | nil => intro _ i j p q h; cases h
    | cons x l ih =>
      intro hc i j p q hi hj hp hq
      rw [List.countP_cons] at hc
      have none : f x = true → ∀ (k : Nat) (y : Pc), l[k]? = some y → f y = true → False := by
        intro hx k y hk hy
        rw [hx] at hc
        simp only [if_true] at hc
        have : 0 < l.countP f := List.countP_pos_iff.mpr ⟨y, List.mem_of_getElem? hk, hy⟩
        omega
      cases i with
      | zero =>
        simp only [List.getElem?_cons_zero, Option.some.injEq] at hi; subst hi
        cases j with
        | zero => rfl
        | succ j => exact (none hp j q hj hq).elim
      | succ i =>
        cases j with
        | zero =>
          simp only [List.getElem?_cons_zero, Option.some.injEq] at hj; subst hj
          exact (none hq i p hi hp).elim
        | succ j => exact congrArg _ (ih (by omega) i j p q hi hj hp hq)
  refine ⟨?_, ?_, ?_, ?_⟩
  · intro p hp e
    exact h.failures (List.countP_pos_iff.mpr ⟨p, hp, by rcases e with rfl | rfl <;> rfl⟩)
  · intro p hp e
    exact h.successes (List.countP_pos_iff.mpr ⟨p, hp, by rcases e with rfl | rfl <;> rfl⟩)
  · intro i j p q hi hj hp hq
    exact uniq _ _ h.oneF i j p q hi hj (by rcases hp with rfl | rfl <;> rfl) (by rcases hq with rfl | rfl <;> rfl)
  · intro i j p q hi hj hp hq
    exact uniq _ _ h.oneS i j p q hi hj (by rcases hp with rfl | rfl <;> rfl) (by rcases hq with rfl | rfl <;> rfl)

-- A success that saw the breaker closed cannot clear the failures between the count and the opening.
example : (run ⟨1, 1, 10⟩ {} [.begin .success, .begin .failure, .go 0, .go 1, .go 1, .go 0]).breaker.failures = 1 ∧
    (run ⟨1, 1, 10⟩ {} [.begin .success, .begin .failure, .go 0, .go 1, .go 1, .go 0]).calls = [.clear false, .open true] := by
  decide

/-- C205: a request to a closed breaker is let through at once, whatever the other calls are doing. -/
theorem C205_closed_allows (c : Config) (s : Sys) (i : Nat) (hc : s.breaker.state = .closed)
    (hi : s.calls[i]? = some (.start .allow)) :
    step c s (.go i) = { s with calls := s.calls.eraseIdx i, answers := s.answers ++ [true] } := by
  simp [step, hi, act, hc, Pc.wantsFailures, Pc.wantsSuccesses, Pc.failing]

example : (step ⟨1, 1, 10⟩ { calls := [.open true, .start .allow] } (.go 1)).answers = [true] := by decide

end Verif.Recovery.Fine
