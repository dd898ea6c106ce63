import Verif.Reconnect.Props

/-
Properties C141, C142 and the exact answer of `should_reconnect` (C19): what the reconnection manager
reports, as functions of the history of calls.
-/

namespace Verif.Reconnect

/-! ### Model -/

/-- `stats`, /repo/src/shared/reconnect.rs L397-404. -/
def stats (s : State) : Nat × Nat × Nat × Nat := (s.attempts, s.successes, s.retry, s.failures)

/-! ### Specification: functions of the history, latest call first -/

/-- The last setting of `set_enabled`. (Specification: no counterpart in the code.) -/
def enabledIn : List Op → Bool
  | [] => true
  | .enable b :: _ => b
  | _ :: h => enabledIn h

/-- Failures since the last success or reset. (Specification: no counterpart in the code.) -/
def failuresIn : List Op → Nat
  | [] => 0
  | .failed _ :: h => failuresIn h + 1
  | .connected _ :: _ => 0
  | .reset :: _ => 0
  | _ :: h => failuresIn h

/-- The time since which there is a connection. (Specification: no counterpart in the code.) -/
def upSince : List Op → Option Nat
  | [] => none
  | .connected t :: _ => some t
  | .connecting :: _ => none
  | .failed _ :: _ => none
  | .disconnected _ :: _ => none
  | _ :: h => upSince h

/-- Failures since the retries were last forgiven: by a reset, by a success (if so configured), by the end
of a connection that lasted. (Specification: no counterpart in the code.) -/
def retriesIn (cfg : Config) : List Op → Nat
  | [] => 0
  | .failed _ :: h => retriesIn cfg h + 1
  | .connected _ :: h => if cfg.resetOnSuccess = true then 0 else retriesIn cfg h
  | .reset :: _ => 0
  | .disconnected now :: h =>
    match upSince h with
    | some t => if cfg.successThreshold ≤ now - t then 0 else retriesIn cfg h
    | none => retriesIn cfg h
  | _ :: h => retriesIn cfg h

/-- What the manager believes: nothing is going on, a connection exists or is being made, or the circuit
is open since a time. (Specification: no counterpart in the code.) -/
inductive Phase where
  | idle
  | busy
  | opened (t : Nat)
  deriving DecidableEq

/-- The phase after a history. (Specification: no counterpart in the code.) -/
def phaseIn (cfg : Config) : List Op → Phase
  | [] => .idle
  | .connecting :: _ => .busy
  | .connected _ :: _ => .busy
  | .disconnected _ :: _ => .idle
  | .failed t :: h =>
    match cfg.threshold with
    | some k => if k ≤ failuresIn h + 1 then .opened t else .idle
    | none => .idle
  | .should now :: h =>
    match phaseIn cfg h with
    | .opened t => if enabledIn h = true ∧ cfg.cbTimeout ≤ now - t then .idle else .opened t
    | p => p
  | .reset :: h => phaseIn cfg h
  | .enable _ :: h => phaseIn cfg h

/-- When `should_reconnect` is true. (Specification: no counterpart in the code.) -/
def Allowed (cfg : Config) (h : List Op) (now : Nat) : Prop :=
  enabledIn h = true ∧
  match phaseIn cfg h with
  | .busy => False
  | .opened t => cfg.cbTimeout ≤ now - t
  | .idle => ∀ m, cfg.maxRetries = some m → retriesIn cfg h < m

/-- How the fields represent the phase. (Specification: no counterpart in the code.) -/
def Shows (s : State) : Phase → Prop
  | .idle => s.st = .disconnected ∨ s.st = .waitingRetry
  | .busy => s.st = .connecting ∨ s.st = .connected
  | .opened t => s.st = .circuitOpen ∧ s.openedAt = some t

/-- (Specification: no counterpart in the code.) -/
structure Rep (cfg : Config) (s : State) (h : List Op) : Prop where
  attempts : s.attempts = h.count .connecting
  successes : s.successes = (h.filter (fun op => match op with | .connected _ => true | _ => false)).length
  retry : s.retry = retriesIn cfg h
  failures : s.failures = failuresIn h
  enabled : s.enabled = enabledIn h
  up : ∀ t, upSince h = some t ↔ s.st = .connected ∧ s.lastSuccess = some t
  upSome : s.st = .connected → s.lastSuccess ≠ none
  phase : Shows s (phaseIn cfg h)

theorem should_cases (cfg : Config) (s : State) (now : Nat) :
    (shouldReconnect cfg s now).1 = s ∨
    ((shouldReconnect cfg s now).1 = { s with openedAt := none, st := .disconnected } ∧ s.enabled = true ∧
      s.st = .circuitOpen ∧ ∃ t, s.openedAt = some t ∧ cfg.cbTimeout ≤ now - t) := by
  unfold shouldReconnect
  by_cases he : s.enabled = false
  · rw [if_pos he]; exact .inl rfl
  · rw [if_neg he]
    have he' : s.enabled = true := by simpa using he
    cases hst : s.st <;> dsimp only
    · cases cfg.maxRetries <;> exact .inl rfl
    · exact .inl rfl
    · exact .inl rfl
    · cases cfg.maxRetries <;> exact .inl rfl
    · cases ho : s.openedAt with
      | none => exact .inl rfl
      | some t =>
        dsimp only
        by_cases ht : now - t ≥ cfg.cbTimeout
        · rw [if_pos ht]; exact .inr ⟨rfl, he', rfl, t, rfl, ht⟩
        · rw [if_neg ht]; exact .inl rfl

theorem should_answer (cfg : Config) (s : State) (h : List Op) (hr : Rep cfg s h) (now : Nat) :
    (shouldReconnect cfg s now).2.1 = true ↔ Allowed cfg h now := by
  have hp := hr.phase
  unfold shouldReconnect Allowed
  rw [← hr.enabled]
  by_cases he : s.enabled = false
  · rw [if_pos he]; simp [he]
  · rw [if_neg he]
    have he' : s.enabled = true := by simpa using he
    simp only [he', true_and]
    cases hph : phaseIn cfg h with
    | idle =>
      rw [hph] at hp
      rcases hp with hp | hp <;> rw [hp] <;> cases hm : cfg.maxRetries <;> simp [← hr.retry]
    | busy =>
      rw [hph] at hp
      rcases hp with hp | hp <;> rw [hp] <;> simp
    | opened t =>
      rw [hph] at hp
      obtain ⟨h1, h2⟩ := hp
      rw [h1, h2]
      simp only
      split <;> simp_all

theorem rep_step (cfg : Config) (s : State) (h : List Op) (hr : Rep cfg s h) (op : Op) :
    Rep cfg (step cfg s op).1 (op :: h) := by
  obtain ⟨h1, h2, h3, h4, h5, h6, h8, h7⟩ := hr
  cases op with
  | should now =>
    have hc : ([Op.should now] ++ h).count .connecting = h.count .connecting := by simp
    simp only [List.cons_append, List.nil_append] at hc
    simp only [step]
    rcases should_cases cfg s now with hs | ⟨hs, he, hst, t, ho, ht⟩
    · rw [hs]
      refine ⟨h1.trans hc.symm, h2, h3, h4, h5, h6, h8, ?_⟩
      simp only [phaseIn]
      cases hp : phaseIn cfg h with
      | idle => rw [hp] at h7; exact h7
      | busy => rw [hp] at h7; exact h7
      | opened t =>
        rw [hp] at h7
        simp only
        by_cases hg : enabledIn h = true ∧ cfg.cbTimeout ≤ now - t
        · exfalso
          have he : s.enabled = true := h5.trans hg.1
          have : (shouldReconnect cfg s now).1.st = .disconnected := by
            unfold shouldReconnect
            simp only [he, Bool.true_eq_false, if_false, h7.1, h7.2]
            rw [if_pos hg.2]
          rw [hs, h7.1] at this
          cases this
        · rw [if_neg hg]; exact h7
    · rw [hs]
      refine ⟨h1.trans hc.symm, h2, h3, h4, h5, ?_, (fun hh => nomatch hh), ?_⟩
      · intro t'
        simp only [upSince, reduceCtorEq, false_and, iff_false]
        intro hu
        have := (h6 t').mp hu
        rw [hst] at this; cases this.1
      · simp only [phaseIn]
        cases hp : phaseIn cfg h with
        | idle => rw [hp] at h7; rcases h7 with h7 | h7 <;> (rw [hst] at h7; cases h7)
        | busy => rw [hp] at h7; rcases h7 with h7 | h7 <;> (rw [hst] at h7; cases h7)
        | opened t' =>
          rw [hp] at h7
          have : t' = t := by rw [h7.2] at ho; exact Option.some.inj ho
          subst this
          simp only
          rw [if_pos ⟨h5 ▸ he, ht⟩]
          exact .inl rfl
  | connecting =>
    refine ⟨by simp [step, onConnecting, h1], by simpa [step, onConnecting] using h2, h3, h4, h5, ?_,
      (fun hh => nomatch hh), .inl rfl⟩
    intro t
    simp [step, onConnecting, upSince]
  | connected now =>
    refine ⟨by simpa [step, onConnected] using h1, by simpa [step, onConnected] using h2, ?_, rfl, h5, ?_,
      (fun _ hh => nomatch hh), .inr rfl⟩
    · simp only [step, onConnected, retriesIn]
      rw [h3]
    · intro t
      simp [step, onConnected, upSince]
  | failed now =>
    have hc : (Op.failed now :: h).count .connecting = h.count .connecting := by simp
    have hre : reaches cfg (s.failures + 1) = true ↔ ∃ k, cfg.threshold = some k ∧ k ≤ failuresIn h + 1 := by
      unfold reaches
      cases cfg.threshold <;> simp [h4]
    simp only [step, onFailed]
    by_cases hrc : reaches cfg (s.failures + 1) = true
    · rw [if_pos hrc]
      obtain ⟨k, hk, hle⟩ := hre.mp hrc
      refine ⟨h1.trans hc.symm, h2, by simp [retriesIn, h3], by simp [failuresIn, h4], h5, ?_,
        (fun hh => nomatch hh), ?_⟩
      · intro t; simp [upSince]
      · simp only [phaseIn, hk, if_pos hle]; exact ⟨rfl, rfl⟩
    · rw [if_neg hrc]
      refine ⟨h1.trans hc.symm, h2, by simp [retriesIn, h3], by simp [failuresIn, h4], h5, ?_,
        (fun hh => nomatch hh), ?_⟩
      · intro t; simp [upSince]
      · simp only [phaseIn]
        cases hk : cfg.threshold with
        | none => exact .inr rfl
        | some k =>
          have : ¬ k ≤ failuresIn h + 1 := fun hle => hrc (hre.mpr ⟨k, hk, hle⟩)
          simp only [if_neg this]; exact .inr rfl
  | disconnected now =>
    have hc : (Op.disconnected now :: h).count .connecting = h.count .connecting := by simp
    refine ⟨h1.trans hc.symm, h2, ?_, h4, h5, ?_, (fun hh => nomatch hh), .inl rfl⟩
    · simp only [step, onDisconnected, retriesIn]
      cases hu : upSince h with
      | some t =>
        obtain ⟨a, b⟩ := (h6 t).mp hu
        simp [longLived, a, b, h3]
      | none =>
        have : ¬ s.st = .connected := by
          intro hst
          cases hl : s.lastSuccess with
          | none => exact h8 hst hl
          | some t => rw [(h6 t).mpr ⟨hst, hl⟩] at hu; cases hu
        have hf : longLived cfg s now = false := by unfold longLived; split <;> simp [this]
        rw [hf]; exact h3
    · intro t; simp [step, onDisconnected, upSince]
  | reset =>
    have hc : (Op.reset :: h).count .connecting = h.count .connecting := by simp
    exact ⟨h1.trans hc.symm, h2, rfl, rfl, h5, h6, h8, h7⟩
  | enable b =>
    have hc : (Op.enable b :: h).count .connecting = h.count .connecting := by simp
    exact ⟨h1.trans hc.symm, h2, h3, h4, rfl, h6, h8, h7⟩

theorem rep_run (cfg : Config) (h : List Op) : Rep cfg (run cfg {} h) h.reverse := by
  induction h using snocInduction with
  | nil => exact ⟨rfl, rfl, rfl, rfl, rfl, by simp [upSince, run], (fun hh => nomatch hh), .inl rfl⟩
  | append_singleton h op ih =>
    rw [run_snoc, List.reverse_append]
    exact rep_step cfg _ _ ih op

/-! ### Theorems -/

/-- **C19 (exactly when).** In every history `should_reconnect` is true exactly when reconnection is enabled,
no connection exists or is being made, and either the circuit is not open and the retries are not used up,
or the circuit has been open for its timeout. -/
theorem C19_should_exact (cfg : Config) (h : List Op) (now : Nat) :
    (step cfg (run cfg {} h) (.should now)).2.1 = some true ↔ Allowed cfg h.reverse now := by
  rw [← should_answer cfg _ _ (rep_run cfg h) now]
  simp [step]

example : Allowed ⟨some 2, true, 0, some 3, 10⟩ [.failed 7, .connecting, .disconnected 5, .connected 1] 8 ∧
    ¬ Allowed ⟨some 2, true, 0, some 3, 10⟩ [.failed 9, .failed 7, .disconnected 5, .connected 1] 10 ∧
    ¬ Allowed ⟨none, true, 0, some 1, 10⟩ [.failed 9, .connecting] 12 ∧
    Allowed ⟨none, true, 0, some 1, 10⟩ [.failed 9, .connecting] 19 := by
  simp [Allowed, enabledIn, phaseIn, failuresIn, retriesIn, upSince]

/-- **C141 (statistics).** After every history: the attempts are the calls of `on_connecting`, the
successes those of `on_connected`, the consecutive failures those since the last success or reset, the
retry count the failures since they were last forgiven. -/
theorem C141_stats (cfg : Config) (h : List Op) :
    stats (run cfg {} h) = (h.count .connecting,
      (h.filter (fun op => match op with | .connected _ => true | _ => false)).length,
      retriesIn cfg h.reverse, failuresIn h.reverse) := by
  have hr := rep_run cfg h
  simp only [stats, hr.attempts, hr.successes, hr.retry, hr.failures, List.count_reverse, List.filter_reverse,
    List.length_reverse]

example : stats (run ⟨some 9, false, 5, none, 0⟩ {}
    [.connecting, .failed 0, .connecting, .connected 1, .disconnected 3, .connecting, .failed 4, .connected 10,
      .disconnected 15]) = (3, 2, 0, 0) ∧
    stats (run ⟨some 9, false, 5, none, 0⟩ {}
    [.connecting, .failed 0, .connecting, .connected 1, .disconnected 3, .connecting, .failed 4]) = (3, 1, 2, 1) := by
  decide

/-- **C141 refuted.** `reset`, documented to reset all counters, keeps the totals: after any history. -/
theorem C141_reset (cfg : Config) (h : List Op) :
    stats (run cfg {} (h ++ [.reset])) = ((stats (run cfg {} h)).1, (stats (run cfg {} h)).2.1, 0, 0) := by
  rw [run_snoc]
  rfl

/-! ### C142: guards -/

/-- What the owner of a connection does: makes a connection (with a guard for it) or drops a guard.
Dropping spawns a task that reports the loss, /repo/src/shared/reconnect.rs L447-455. -/
inductive Ev where
  | connect (id now : Nat)
  | drop (id : Nat)
  | report (id now : Nat)
  deriving DecidableEq

/-- The calls the manager sees. (Specification: no counterpart in the code.) -/
def Ev.op : Ev → Option Op
  | .connect _ now => some (.connected now)
  | .drop _ => none
  | .report _ now => some (.disconnected now)

/-- The newest connection made, if its guard has not been dropped. (Specification: no counterpart in the code.) -/
def live : List Ev → Option Nat
  | [] => none
  | .connect id _ :: _ => some id
  | .drop id :: h => if live h = some id then none else live h
  | .report _ _ :: h => live h

/-- No report arrives while a connection is live (latest event first). (Specification: no counterpart in the code.) -/
def Prompt : List Ev → Prop
  | [] => True
  | .report _ _ :: h => live h = none ∧ Prompt h
  | _ :: h => Prompt h

/-- **C142, part that holds.** If no report of a dropped guard arrives while a newer connection is live,
then the manager never offers a reconnection while a connection is live. -/
theorem C142_no_duplicate_partial (cfg : Config) (evs : List Ev) (hp : Prompt evs.reverse) (now id : Nat)
    (hl : live evs.reverse = some id) :
    (step cfg (run cfg {} (evs.filterMap Ev.op)) (.should now)).2.1 = some false := by
  have key : ∀ l : List Ev, Prompt l → ∀ id, live l = some id → phaseIn cfg (l.filterMap Ev.op) = .busy := by
    intro l
    induction l with
    | nil => intro _ id h; cases h
    | cons e l ih =>
      intro hp id h
      cases e with
      | connect i t => rfl
      | drop i =>
        simp only [live] at h
        split at h
        · cases h
        · exact ih hp id h
      | report i t => simp only [live] at h; rw [hp.1] at h; cases h
  have hna : ¬ Allowed cfg (evs.filterMap Ev.op).reverse now := by
    unfold Allowed
    rw [← List.filterMap_reverse, key _ hp id hl]
    simp
  rw [← C19_should_exact] at hna
  generalize hb : (step cfg (run cfg {} (evs.filterMap Ev.op)) (.should now)).2.1 = b at hna ⊢
  have : b = some (shouldReconnect cfg (run cfg {} (evs.filterMap Ev.op)) now).2.1 := by rw [← hb]; rfl
  rw [this] at hna ⊢
  simpa using hna

example : Prompt [.connect 2 9, .report 1 8, .drop 1, .connect 1 3] ∧
    live [.connect 2 9, .report 1 8, .drop 1, .connect 1 3] = some 2 := by
  simp [Prompt, live]

/-- **C142 refuted.** The guard of the first connection is dropped, the second connection is made, then the
spawned task runs: the manager offers a reconnection although the second connection is live, whatever the
configuration, and it never learns of it. -/
theorem C142_refuted (cfg : Config) (hm : ∀ m, cfg.maxRetries = some m → 0 < m) (now : Nat) :
    live ([.connect 1 0, .drop 1, .connect 2 5, .report 1 6] : List Ev).reverse = some 2 ∧
    (step cfg (run cfg {} (([.connect 1 0, .drop 1, .connect 2 5, .report 1 6] : List Ev).filterMap Ev.op))
      (.should now)).2.1 = some true := by
  refine ⟨rfl, (C19_should_exact cfg _ now).mpr ⟨rfl, ?_⟩⟩
  intro m h
  have : retriesIn cfg [.disconnected 6, .connected 5, .connected 0] = 0 := by
    simp [retriesIn, upSince]
  show retriesIn cfg [.disconnected 6, .connected 5, .connected 0] < m
  rw [this]
  exact hm m h

/-- A report arrived after the newest connection was made (latest event first). (Specification: no counterpart in the
code.) -/
def Stale : List Ev → Prop
  | [] => False
  | .connect _ _ :: _ => False
  | .drop _ :: h => Stale h
  | .report _ _ :: _ => True

/-- **C142, exactly.** While a connection is live, the manager offers a reconnection if and only if a report of a lost
connection arrived after the live one was made, and attempts are allowed at all. -/
theorem C142_offered_iff (cfg : Config) (evs : List Ev) (now id : Nat) (hl : live evs.reverse = some id) :
    (step cfg (run cfg {} (evs.filterMap Ev.op)) (.should now)).2.1 = some true ↔
      Stale evs.reverse ∧ ∀ m, cfg.maxRetries = some m → 0 < m := by
  rw [C19_should_exact, ← List.filterMap_reverse]
  generalize evs.reverse = l at hl
  have henabled : ∀ l : List Ev, enabledIn (l.filterMap Ev.op) = true := by
    intro l
    induction l with
    | nil => rfl
    | cons e l ih => cases e <;> exact ih
  have hretries : ∀ l : List Ev, retriesIn cfg (l.filterMap Ev.op) = 0 := by
    intro l
    induction l with
    | nil => rfl
    | cons e l ih =>
      cases e with
      | drop i => exact ih
      | connect i t => simp only [List.filterMap_cons, Ev.op, retriesIn]; split <;> first | rfl | exact ih
      | report i t =>
        simp only [List.filterMap_cons, Ev.op, retriesIn]
        split
        · split <;> first | rfl | exact ih
        · exact ih
  have hphase : ∀ l : List Ev, live l ≠ none →
      (phaseIn cfg (l.filterMap Ev.op) = .busy ∧ ¬ Stale l) ∨ (phaseIn cfg (l.filterMap Ev.op) = .idle ∧ Stale l) := by
    intro l
    induction l with
    | nil => intro h; exact absurd rfl h
    | cons e l ih =>
      intro h
      cases e with
      | connect i t => exact .inl ⟨rfl, fun h => h⟩
      | drop i =>
        simp only [live] at h
        split at h
        · exact absurd rfl h
        · exact ih h
      | report i t => exact .inr ⟨rfl, trivial⟩
  have hr := hretries l
  unfold Allowed
  rw [henabled]
  rcases hphase l (by rw [hl]; simp) with ⟨h1, h2⟩ | ⟨h1, h2⟩
  · rw [h1]; simp [h2]
  · rw [h1]; simp [h2, hr]

/-- The report is late, or in time. -/
example : Stale ([.connect 1 0, .drop 1, .connect 2 5, .report 1 6] : List Ev).reverse ∧
    ¬ Stale ([.connect 1 0, .drop 1, .report 1 4, .connect 2 5] : List Ev).reverse := ⟨trivial, fun h => h⟩

/-! ### C18: attempts beyond the range of `i32` -/

/-- **C18.** From attempt 2^31 on the delay is that of attempt 2^31 - 1. -/
theorem C18_beyond (initial maxDelay : Nat) (growth : Rat) (n : Nat) (hn : 2147483648 ≤ n) :
    cappedDelay initial maxDelay growth n = cappedDelay initial maxDelay growth 2147483647 := by
  have h1 : exponent n = 2147483647 := by unfold exponent; rw [if_neg (by omega)]
  have h2 : exponent 2147483647 = 2147483647 := by unfold exponent; rw [if_pos (by omega)]
  unfold cappedDelay
  rw [h1, h2]

/-- `C18_beyond`: three milliard attempts wait no longer than `i32::MAX` attempts do. -/
example : cappedDelay 100 30000 (3/2) 3000000000 = cappedDelay 100 30000 (3/2) 2147483647 :=
  C18_beyond 100 30000 (3/2) 3000000000 (by decide)

end Verif.Reconnect
