import Verif.Connect.Model

/-
Properties of connecting with retries: C72, C120, C121.
-/

namespace Verif.Connect

open Verif

variable {E M : Type}

/-! ### Specification -/

/-- The k-th delay: the configured one, doubled every time, capped from the second on.
(Specification: no counterpart in the code.) -/
def delayAt (d0 maxDelay : Nat) : Nat → Nat
  | 0 => d0
  | k + 1 => min (d0 * 2 ^ (k + 1)) maxDelay

theorem delayAt_step (d0 maxDelay k : Nat) : min (delayAt d0 maxDelay k * 2) maxDelay = delayAt d0 maxDelay (k + 1) := by
  cases k with
  | zero => simp [delayAt]
  | succ k =>
    simp only [delayAt]
    have : d0 * 2 ^ (k + 1 + 1) = d0 * 2 ^ (k + 1) * 2 := by rw [Nat.pow_succ, Nat.mul_assoc]
    rw [this]
    omega

/-- The delay can always be doubled: the result is a `Duration`, at most `u64::MAX` seconds and 999 999 999 ns.
(Specification: no counterpart in the code.) -/
def Doubles (d0 maxDelay : Nat) : Prop :=
  d0 * 2 ≤ 18446744073709551615999999999 ∧ maxDelay * 2 ≤ 18446744073709551615999999999

theorem durationMax_eq : durationMax = 18446744073709551615999999999 := by decide

theorem delayAt_le (d0 maxDelay k : Nat) (h : Doubles d0 maxDelay) : ¬ durationMax < delayAt d0 maxDelay k * 2 := by
  obtain ⟨h1, h2⟩ := h
  rw [durationMax_eq]
  cases k with
  | zero => simp only [delayAt]; omega
  | succ k => simp only [delayAt]; omega

/-- The number of attempts allowed: at least one. (Specification: no counterpart in the code.) -/
def allowed : Option Nat → Option Nat
  | none => none
  | some m => some (max 1 m)

theorem loop_fail (outcome : Nat → Option E) (maxAttempts : Option Nat) (d0 maxDelay : Nat) (hd : Doubles d0 maxDelay)
    (n : Nat) (hf : ∀ k, k < n → outcome k ≠ none) (hm : ∀ m, maxAttempts = some m → n < max 1 m) (fuel : Nat) :
    connectLoop outcome maxAttempts maxDelay (fuel + n) 0 d0 =
      (connectLoop outcome maxAttempts maxDelay fuel n (delayAt d0 maxDelay n)).map
        (fun r => (r.1, r.2.1, (List.range n).map (delayAt d0 maxDelay) ++ r.2.2)) := by
  induction n generalizing fuel with
  | zero => simp [delayAt]
  | succ n ih =>
    have := ih (fun k hk => hf k (by omega)) (fun m h => by have := hm m h; omega) (fuel + 1)
    rw [show fuel + (n + 1) = fuel + 1 + n by omega, this]
    have hn := hf n (by omega)
    cases ho : outcome n with
    | none => exact absurd ho hn
    | some e =>
      have hlim : reached maxAttempts (n + 1) = false := by
        cases hma : maxAttempts with
        | none => rfl
        | some m => have := hm m hma; simp only [reached, decide_eq_false_iff_not]; omega
      simp only [connectLoop, ho, hlim, Bool.false_eq_true, if_false, delayAt_le d0 maxDelay n hd, Option.map_map,
        delayAt_step]
      congr 1
      funext r
      simp [List.range_succ]

/-- **C72**. `connect` stops at the first success: if attempt `n` is the first that succeeds and it is allowed, it
returns `Ok` after exactly `n + 1` attempts, sleeping the doubling delays in between. -/
theorem C72_success (outcome : Nat → Option E) (maxAttempts : Option Nat) (d0 maxDelay : Nat)
    (hd : Doubles d0 maxDelay) (n : Nat) (hs : outcome n = none) (hf : ∀ k, k < n → outcome k ≠ none)
    (hm : ∀ m, allowed maxAttempts = some m → n < m) :
    ∃ fuel, connect outcome maxAttempts d0 maxDelay fuel =
      some (.ok, n + 1, (List.range n).map (delayAt d0 maxDelay)) := by
  refine ⟨1 + n, ?_⟩
  simp only [connect]
  rw [loop_fail outcome maxAttempts d0 maxDelay hd n hf (fun m h => hm _ (by simp [allowed, h])) 1]
  simp [connectLoop, hs]

/-- The third attempt succeeds, four are allowed. -/
example : connect (fun k => if k < 2 then some k else none) (some 4) 100 250 9 = some (.ok, 3, [100, 200]) ∧
    Doubles 100 250 := ⟨by decide +kernel, by unfold Doubles; decide +kernel⟩

/-- **C72**. If all allowed attempts fail, the error of the last one is returned, after exactly as many attempts as
configured (one, if zero are configured). -/
theorem C72_failure (outcome : Nat → Option E) (m d0 maxDelay : Nat) (hd : Doubles d0 maxDelay) (e : E)
    (hf : ∀ k, k < max 1 m → outcome k ≠ none) (he : outcome (max 1 m - 1) = some e) :
    ∃ fuel, connect outcome (some m) d0 maxDelay fuel =
      some (.err e, max 1 m, (List.range (max 1 m - 1)).map (delayAt d0 maxDelay)) := by
  refine ⟨1 + (max 1 m - 1), ?_⟩
  simp only [connect]
  rw [loop_fail outcome (some m) d0 maxDelay hd (max 1 m - 1) (fun k hk => hf k (by omega))
    (fun m' h => by cases h; omega) 1]
  have h1 : m ≤ max 1 m := by omega
  have h2 : max 1 m - 1 + 1 = max 1 m := by omega
  simp only [connectLoop, he, reached, h1, decide_true, if_true, Option.map_some, h2, List.append_nil]

example : ∃ fuel, connect (fun k => some k) (some 3) 100 250 fuel = some (.err 2, 3, [100, 200]) :=
  C72_failure (fun k => some k) 3 100 250 (by unfold Doubles; decide +kernel) 2 (by simp) rfl

/-- **C72**. Without a limit (the default) it never ends if no attempt succeeds. -/
theorem C72_unlimited (outcome : Nat → Option E) (d0 maxDelay : Nat) (hd : Doubles d0 maxDelay)
    (hf : ∀ k, outcome k ≠ none) (fuel : Nat) : connect outcome none d0 maxDelay fuel = none := by
  have := loop_fail outcome none d0 maxDelay hd fuel (fun k _ => hf k) (fun m h => by cases h) 0
  rw [Nat.zero_add] at this
  simp only [connect]
  rw [this]
  rfl

example : connect (fun k => some k) none 100 250 50 = none :=
  C72_unlimited _ 100 250 (by unfold Doubles; decide +kernel) (by simp) 50

/-- **C72**. The result does not depend on the fuel. -/
theorem C72_deterministic (outcome : Nat → Option E) (maxAttempts : Option Nat) (d0 maxDelay f1 f2 : Nat)
    (r1 r2 : Result E × Nat × List Nat) (h1 : connect outcome maxAttempts d0 maxDelay f1 = some r1)
    (h2 : connect outcome maxAttempts d0 maxDelay f2 = some r2) : r1 = r2 := by
  simp only [connect] at h1 h2
  have key : ∀ f1 f2 a d r1 r2, connectLoop outcome maxAttempts maxDelay f1 a d = some r1 →
      connectLoop outcome maxAttempts maxDelay f2 a d = some r2 → r1 = r2 := by
    intro f1
    induction f1 with
    | zero => intro f2 a d r1 r2 h; cases h
    | succ f1 ih =>
      intro f2 a d r1 r2 h1 h2
      cases f2 with
      | zero => cases h2
      | succ f2 =>
        simp only [connectLoop] at h1 h2
        cases ho : outcome a with
        | none => rw [ho] at h1 h2; exact (Option.some.inj h1).symm.trans (Option.some.inj h2)
        | some e =>
          simp only [ho] at h1 h2
          split at h1
          · next hc => rw [if_pos hc] at h2; exact (Option.some.inj h1).symm.trans (Option.some.inj h2)
          · next hc =>
            rw [if_neg hc] at h2
            split at h1
            · next hp => rw [if_pos hp] at h2; exact (Option.some.inj h1).symm.trans (Option.some.inj h2)
            · next hp =>
              rw [if_neg hp] at h2
              rw [Option.map_eq_some_iff] at h1 h2
              obtain ⟨s1, e1, rfl⟩ := h1
              obtain ⟨s2, e2, rfl⟩ := h2
              rw [ih _ _ _ _ _ e1 e2]
  exact key _ _ _ _ _ _ h1 h2

/-- **C72** fails: a limit of zero attempts still makes one, and it may succeed. -/
theorem C72_zero (outcome : Nat → Option E) (d0 maxDelay : Nat) :
    ∃ r, connect outcome (some 0) d0 maxDelay 1 = some r ∧ r.2.1 = 1 ∧ (outcome 0 = none → r.1 = .ok) := by
  simp only [connect, connectLoop]
  cases outcome 0 with
  | none => exact ⟨_, rfl, rfl, fun _ => rfl⟩
  | some e => exact ⟨_, rfl, rfl, fun h => by cases h⟩

/-- **C72**. A delay that cannot be doubled ends the task with a panic at the first failure. -/
theorem C72_panic (outcome : Nat → Option E) (d0 maxDelay : Nat) (hd : 18446744073709551615999999999 < d0 * 2)
    (h : outcome 0 ≠ none) :
    connect outcome none d0 maxDelay 1 = some (.panic, 1, [d0]) := by
  simp only [connect, connectLoop]
  cases ho : outcome 0 with
  | none => exact absurd ho h
  | some e => simp [durationMax_eq, hd, reached]

example : connect (fun k => some k) none (2 ^ 94) 5 1 = some (.panic, 1, [2 ^ 94]) :=
  C72_panic _ _ 5 (by decide) (by simp)

/-- **C72**, exactly: the task panics if and only if some allowed number of attempts fail, not the last allowed one, after
which the delay cannot be doubled. -/
theorem C72_panic_iff (outcome : Nat → Option E) (maxAttempts : Option Nat) (d0 maxDelay : Nat) :
    (∃ fuel r, connect outcome maxAttempts d0 maxDelay fuel = some r ∧ r.1 = .panic) ↔
      ∃ n, (∀ k, k ≤ n → outcome k ≠ none) ∧ (∀ m, maxAttempts = some m → n + 1 < m) ∧
        18446744073709551615999999999 < delayAt d0 maxDelay n * 2 := by
  have hre : ∀ n, reached maxAttempts n = false ↔ ∀ m, maxAttempts = some m → n < m := by
    intro n
    cases maxAttempts with
    | none => simp [reached]
    | some m => simp [reached]
  constructor
  · rintro ⟨fuel, r, h, hp⟩
    have key : ∀ fuel a r, connectLoop outcome maxAttempts maxDelay fuel a (delayAt d0 maxDelay a) = some r → r.1 = .panic →
        (∀ k, k < a → outcome k ≠ none) →
        ∃ n, (∀ k, k ≤ n → outcome k ≠ none) ∧ (∀ m, maxAttempts = some m → n + 1 < m) ∧
          18446744073709551615999999999 < delayAt d0 maxDelay n * 2 := by
      intro fuel
      induction fuel with
      | zero => intro a r h; cases h
      | succ fuel ih =>
        intro a r h hp hf
        cases ho : outcome a with
        | none => simp only [connectLoop, ho, Option.some.injEq] at h; subst h; cases hp
        | some e =>
          have hf' : ∀ k, k < a + 1 → outcome k ≠ none := by
            intro k hk
            by_cases e1 : k = a
            · subst e1; rw [ho]; simp
            · exact hf k (by omega)
          simp only [connectLoop, ho] at h
          split at h
          · cases h; cases hp
          · next hr =>
            split at h
            · next ho =>
              rw [durationMax_eq] at ho
              exact ⟨a, fun k hk => hf' k (by omega), (hre _).mp (by simpa using hr), ho⟩
            · rw [delayAt_step, Option.map_eq_some_iff] at h
              obtain ⟨r', h', rfl⟩ := h
              exact ih (a + 1) r' h' hp hf'
    exact key fuel 0 r h hp (by simp)
  · rintro ⟨n, hf, hm, ho⟩
    have key : ∀ d a, n = a + d → ∃ fuel r, connectLoop outcome maxAttempts maxDelay fuel a (delayAt d0 maxDelay a) = some r ∧
        r.1 = .panic := by
      intro d
      induction d with
      | zero =>
        intro a ha
        have : a = n := by omega
        subst this
        refine ⟨1, (.panic, a + 1, [delayAt d0 maxDelay a]), ?_, rfl⟩
        cases hoa : outcome a with
        | none => exact absurd hoa (hf a (Nat.le_refl _))
        | some e =>
          simp only [connectLoop, hoa, (hre (a + 1)).mpr hm, Bool.false_eq_true, if_false, durationMax_eq, ho, if_true]
      | succ d ih =>
        intro a ha
        cases hoa : outcome a with
        | none => exact absurd hoa (hf a (by omega))
        | some e =>
          have hr : reached maxAttempts (a + 1) = false := (hre _).mpr (fun m h => by have := hm m h; omega)
          by_cases hov : durationMax < delayAt d0 maxDelay a * 2
          · exact ⟨1, (.panic, a + 1, [delayAt d0 maxDelay a]), by
              simp only [connectLoop, hoa, hr, Bool.false_eq_true, if_false, hov, if_true], rfl⟩
          · obtain ⟨fuel, r, h, hp⟩ := ih (a + 1) (by omega)
            refine ⟨fuel + 1, (r.1, r.2.1, delayAt d0 maxDelay a :: r.2.2), ?_, hp⟩
            simp only [connectLoop, hoa, hr, Bool.false_eq_true, if_false, hov, delayAt_step, h, Option.map_some]
    exact key n 0 (by omega)

-- The third delay is too long, with no limit of attempts and none that succeeds.
example : ∃ fuel r, connect (fun k => some k) none (2 ^ 92) (2 ^ 94) fuel = some r ∧ r.1 = .panic :=
  (C72_panic_iff _ _ _ _).mpr ⟨2, by simp, by simp, by decide⟩

/-- **C120**. Every delay is at most the larger of the first and the maximum; from the second on at most the
maximum; and they do not fall. -/
theorem C120_delays_partial (d0 maxDelay k : Nat) :
    (1 ≤ k → delayAt d0 maxDelay k ≤ maxDelay) ∧ (d0 ≤ maxDelay → delayAt d0 maxDelay k ≤ maxDelay) ∧
    (d0 ≤ maxDelay → delayAt d0 maxDelay k ≤ delayAt d0 maxDelay (k + 1)) := by
  refine ⟨?_, ?_, ?_⟩
  · intro h
    cases k with
    | zero => omega
    | succ k => exact Nat.min_le_right _ _
  · intro h
    cases k with
    | zero => exact h
    | succ k => exact Nat.min_le_right _ _
  · intro h
    rw [← delayAt_step]
    have : delayAt d0 maxDelay k ≤ maxDelay := by
      cases k with
      | zero => exact h
      | succ k => exact Nat.min_le_right _ _
    omega

/-- **C120** fails: the first delay is not capped. -/
theorem C120_first_uncapped (e : E) (d0 maxDelay : Nat) (hd : Doubles d0 maxDelay) (h : maxDelay < d0) :
    ∃ fuel r, connect (fun k => if k = 0 then some e else none) none d0 maxDelay fuel = some r ∧
      ∃ d ∈ r.2.2, maxDelay < d := by
  obtain ⟨fuel, hf⟩ := C72_success (fun k => if k = 0 then some e else none) none d0 maxDelay hd 1 (by simp)
    (fun k hk => by have : k = 0 := by omega
                    simp [this]) (fun m h => by cases h)
  exact ⟨fuel, _, hf, d0, by simp [List.range_succ, delayAt], h⟩

/-- The default configuration: one second, at most a minute. -/
example : Doubles (10 ^ 9) (60 * 10 ^ 9) := by unfold Doubles; decide

/-- Two refused connections, then a success. (Specification: no counterpart in the code.) -/
def thirdTime (k : Nat) : Option Nat := if k < 2 then some k else none

example : connect thirdTime none 1 3 5 = some (.ok, 3, [1, 2]) ∧ connect thirdTime (some 2) 1 3 5 = some (.err 1, 2, [1]) := by
  decide

example : 18446744073709551615999999999 < 18446744073709551615999999999 * 2 := by decide

/-! ### Discovery -/

/-- **C72**. `discover` asks at most `max_retries` times. If attempt `n` is the first that does not end in an error
worth retrying, and it is allowed, its result is returned, after `n + 1` requests. -/
theorem C72_discover_first (outcome : Nat → Except FetchError M) (maxRetries n : Nat) (hn : n < maxRetries)
    (hr : ∀ k, k < n → ∃ e, outcome k = .error e ∧ shouldRetry e = true)
    (hstop : ∀ e, outcome n = .error e → shouldRetry e = false) :
    discover outcome maxRetries = (match outcome n with
      | .ok m => .metadata m
      | .error e => .error e, n + 1) := by
  have key : ∀ j left a, left + a = maxRetries → a + j = n →
      discoverLoop outcome maxRetries left a = (match outcome n with
        | .ok m => .metadata m
        | .error e => .error e, n + 1) := by
    intro j
    induction j with
    | zero =>
      intro left a hl ha
      have : a = n := by omega
      subst this
      obtain ⟨left, rfl⟩ : ∃ l, left = l + 1 := ⟨left - 1, by omega⟩
      simp only [discoverLoop]
      cases ho : outcome a with
      | ok m => rfl
      | error e => simp [hstop e ho]
    | succ j ih =>
      intro left a hl ha
      obtain ⟨left, rfl⟩ : ∃ l, left = l + 1 := ⟨left - 1, by omega⟩
      obtain ⟨e, ho, hre⟩ := hr a (by omega)
      simp only [discoverLoop, ho, hre, true_and]
      rw [if_pos (by omega)]
      exact ih left (a + 1) (by omega) (by omega)
  exact key n maxRetries 0 (by omega) (by omega)

/-- **C72**. If all attempts end in an error worth retrying, the last error is returned, after `max_retries`
requests. -/
theorem C72_discover_exhausted (outcome : Nat → Except FetchError M) (n : Nat) (e : FetchError)
    (hr : ∀ k, k ≤ n → ∃ e, outcome k = .error e ∧ shouldRetry e = true) (he : outcome n = .error e) :
    discover outcome (n + 1) = (.error e, n + 1) := by
  have key : ∀ j left a, left + a = n + 1 → a + j = n → discoverLoop outcome (n + 1) left a = (.error e, n + 1) := by
    intro j
    induction j with
    | zero =>
      intro left a hl ha
      have : a = n := by omega
      subst this
      obtain ⟨left, rfl⟩ : ∃ l, left = l + 1 := ⟨left - 1, by omega⟩
      simp only [discoverLoop, he]
      rw [if_neg (by omega)]
    | succ j ih =>
      intro left a hl ha
      obtain ⟨left, rfl⟩ : ∃ l, left = l + 1 := ⟨left - 1, by omega⟩
      obtain ⟨e', ho, hre⟩ := hr a (by omega)
      simp only [discoverLoop, ho, hre, true_and]
      rw [if_pos (by omega)]
      exact ih left (a + 1) (by omega) (by omega)
  exact key n (n + 1) 0 (by omega) (by omega)

/-- **C72**. The number of requests, for every environment. -/
theorem C72_discover_bounded (outcome : Nat → Except FetchError M) (maxRetries : Nat) :
    (discover outcome maxRetries).2 ≤ maxRetries ∧ ((discover outcome maxRetries).2 = 0 ↔ maxRetries = 0) := by
  have key : ∀ left a, (discoverLoop outcome maxRetries left a).2 ≤ left + a ∧
      a ≤ (discoverLoop outcome maxRetries left a).2 ∧
      (0 < left → a + 1 ≤ (discoverLoop outcome maxRetries left a).2) := by
    intro left
    induction left with
    | zero => intro a; simp [discoverLoop]
    | succ left ih =>
      intro a
      simp only [discoverLoop]
      cases outcome a with
      | ok m => simp; omega
      | error e =>
        simp only
        split
        · have := ih (a + 1); omega
        · simp; omega
  have := key maxRetries 0
  simp only [discover]
  omega

theorem hasText_append (needle a b c : List Char) (h : b = needle ++ c) : hasText needle (a ++ b) = true := by
  induction a with
  | nil =>
    subst h
    cases needle with
    | nil => cases c <;> simp [hasText, Str.stripPrefix]
    | cons x n =>
      have := Str.stripPrefix_append (x :: n) c
      rw [List.cons_append] at this
      simp [hasText, this]
  | cons x a ih => simp [hasText, ih]

theorem hasText_iff (needle s : List Char) : hasText needle s = true ↔ ∃ a c, s = a ++ needle ++ c := by
  constructor
  · intro h
    induction s with
    | nil => simp [hasText] at h; subst h; exact ⟨[], [], rfl⟩
    | cons x s ih =>
      simp only [hasText, Bool.or_eq_true] at h
      rcases h with h | h
      · obtain ⟨t, ht⟩ := Option.isSome_iff_exists.mp h
        exact ⟨[], t, by simpa using Str.stripPrefix_eq_some.mp ht⟩
      · obtain ⟨a, c, rfl⟩ := ih h
        exact ⟨x :: a, c, by simp⟩
  · rintro ⟨a, c, rfl⟩
    rw [List.append_assoc]
    exact hasText_append needle a _ c rfl

/-- **C121**. What is retried: errors whose text contains one of four words. -/
theorem C121_retry_iff (s : List Char) : shouldRetry (.text s) = true ↔
    ∃ w ∈ ["CORS".toList, "network".toList, "timeout".toList, "connection".toList], ∃ a c, s = a ++ w ++ c := by
  have e1 : "CORS".toList = ['C', 'O', 'R', 'S'] := by decide +kernel
  have e2 : "network".toList = ['n', 'e', 't', 'w', 'o', 'r', 'k'] := by decide +kernel
  have e3 : "timeout".toList = ['t', 'i', 'm', 'e', 'o', 'u', 't'] := by decide +kernel
  have e4 : "connection".toList = ['c', 'o', 'n', 'n', 'e', 'c', 't', 'i', 'o', 'n'] := by decide +kernel
  rw [e1, e2, e3, e4]
  simp only [shouldRetry, Bool.or_eq_true, hasText_iff, List.mem_cons, List.not_mem_nil, or_false, exists_eq_or_imp,
    exists_eq_left]
  constructor
  · rintro (((h | h) | h) | h)
    · exact Or.inl h
    · exact Or.inr (Or.inl h)
    · exact Or.inr (Or.inr (Or.inl h))
    · exact Or.inr (Or.inr (Or.inr h))
  · rintro (h | h | h | h)
    · exact Or.inl (Or.inl (Or.inl h))
    · exact Or.inl (Or.inl (Or.inr h))
    · exact Or.inl (Or.inr h)
    · exact Or.inr h

/-- **C121**. Timeouts are retried: a provider that never answers in time is asked as often as allowed, and the
caller gets the timeout. -/
theorem C121_timeouts (M : Type) (n : Nat) :
    discover (fun _ => (.error .timeout : Except FetchError M)) (n + 1) = (.error .timeout, n + 1) :=
  C72_discover_exhausted _ n .timeout (fun _ _ => ⟨_, rfl, rfl⟩) rfl

/-- "Protocol error: -32603 - Discovery endpoint returned status: " (Specification: no counterpart in the code.) -/
def statusText : List Char := "Protocol error: -32603 - Discovery endpoint returned status: ".toList

/-- The temporary failures of a server, a gateway timeout among them, are not retried; for every status
`C121_status_final_partial` of `Connect/Fetch`. -/
example :
    shouldRetry (.text (statusText ++ "503 Service Unavailable".toList)) = false ∧
    shouldRetry (.text (statusText ++ "504 Gateway Timeout".toList)) = false := by decide +kernel

/-- **C121** fails: an error that quotes the address is retried, whatever it is, if the address contains
"network". -/
theorem C121_address (a b c d : List Char) :
    shouldRetry (.text (a ++ (b ++ "network".toList ++ c) ++ d)) = true :=
  (C121_retry_iff _).mpr ⟨"network".toList, by simp, a ++ b, c ++ d, by simp⟩

theorem trimSlashes_append (s : List Char) (n : Nat) : trimSlashes (s ++ List.replicate n '/') = trimSlashes s := by
  simp only [trimSlashes, List.reverse_append, List.reverse_replicate]
  congr 1
  induction n with
  | zero => rfl
  | succ n ih => rw [List.replicate_succ, List.cons_append, List.dropWhile_cons]; simpa using ih

/-- **C121**. The address that is asked is the one OpenID Connect Discovery gives for the issuer; slashes at its end do
not change it. -/
theorem C121_url (issuer : List Char) (n : Nat) (h : issuer.getLast? ≠ some '/') :
    discoveryUrl (issuer ++ List.replicate n '/') = issuer ++ "/.well-known/openid-configuration".toList := by
  simp only [discoveryUrl, trimSlashes_append]
  congr 1
  simp only [trimSlashes]
  cases hr : issuer.reverse with
  | nil =>
    have : issuer = [] := by simpa using hr
    rw [this]; rfl
  | cons c r =>
    have hc : c ≠ '/' := by
      rintro rfl
      apply h
      have : issuer = ('/' :: r).reverse := by rw [← hr, List.reverse_reverse]
      rw [this]; simp
    rw [List.dropWhile_cons]
    simp only [hc, decide_false, Bool.false_eq_true, if_false]
    rw [← hr, List.reverse_reverse]

/-- **C121** fails: whatever the document says is accepted, also the name of another issuer. -/
theorem C121_foreign_issuer (m : M) (maxRetries : Nat) (h : 0 < maxRetries) :
    discover (fun _ => .ok m) maxRetries = (.metadata m, 1) := by
  have := C72_discover_first (fun _ => Except.ok m) maxRetries 0 h (fun k hk => by omega) (fun e he => by cases he)
  exact this

/-- A timeout, then a status, then a document. (Specification: no counterpart in the code.) -/
def outcomes (k : Nat) : Except FetchError Nat :=
  if k = 0 then .error .timeout else if k = 1 then .error (.text statusText) else .ok 7

example : discover outcomes 3 = (.error (.text statusText), 2) ∧ shouldRetry (.text statusText) = false := by
  decide +kernel

end Verif.Connect
