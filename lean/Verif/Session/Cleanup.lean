import Verif.Session.Props

/-
The task that removes expired sessions: C173.

Models /repo/src/shared/session.rs L292-304 (`session_cleanup_task`).
-/

namespace Verif.Session

variable {Id D A : Type} [DecidableEq Id]

/-- The period of the task's `tokio::time::interval` in nanoseconds for an interval of `d` nanoseconds
(/repo/src/shared/session.rs L293-297).  A negative `chrono::Duration` is replaced by 300 seconds; `none` is the
panic of `interval` for a period of zero. -/
def period (d : Int) : Option Nat :=
  if d < 0 then some 300000000000 else if d = 0 then none else some d.toNat

/-- When the task started at `t0` looks for the `k`-th time (/repo/src/shared/session.rs L299-302): the first tick
completes at once. -/
def tickAt (t0 : Int) (p k : Nat) : Int := t0 + (k * p : Nat)

/-- What the task does at its `k`-th tick (/repo/src/shared/session.rs L299-302). -/
def tick (t0 : Int) (p k : Nat) : Op Id D A := .cleanup (tickAt t0 p k)

/-! ### C173 -/

/-- There is a tick after any moment, less than a period later or exactly one period later. -/
theorem tick_after (t0 e : Int) (p : Nat) (hp : 0 < p) (he : t0 ≤ e) : ∃ k, e < tickAt t0 p k ∧ tickAt t0 p k ≤ e + p := by
  refine ⟨((e - t0).toNat / p) + 1, ?_, ?_⟩
  · unfold tickAt
    have h1 := Nat.lt_div_mul_add (a := (e - t0).toNat) hp
    rw [Nat.add_mul, Nat.one_mul]
    omega
  · unfold tickAt
    have h1 := Nat.div_mul_le_self (e - t0).toNat p
    rw [Nat.add_mul, Nat.one_mul]
    omega

/-- C173: for an interval that is not zero, whatever calls were made before, a session that expires at or after the
start of the task is gone at a tick at most one interval (300 seconds, for a negative one) after it expired, and
every session not yet expired is untouched by ticks. -/
theorem C173_removed_partial (max : Nat) (timeout : Int) (d t0 : Int) (hd : d ≠ 0) :
    ∃ p, period d = some p ∧ 0 < p ∧ (0 < d → (p : Int) = d) ∧ (d < 0 → p = 300000000000) ∧
      (∀ e, t0 ≤ e → ∃ k, e < tickAt t0 p k ∧ tickAt t0 p k ≤ e + p ∧
        ∀ (h : List (Op Id D A)) (id : Id) (x : Session Id D A), (run max timeout h).sessions.get id = some x →
          x.expiresAt ≤ e → (run max timeout (h ++ [tick t0 p k])).sessions.get id = none) ∧
      (∀ (h : List (Op Id D A)) (id : Id) (x : Session Id D A) (k : Nat), (run max timeout h).sessions.get id = some x →
        tickAt t0 p k ≤ x.expiresAt → (run max timeout (h ++ [tick t0 p k])).sessions.get id = some x) := by
  have main : ∀ p : Nat, 0 < p →
      (∀ e, t0 ≤ e → ∃ k, e < tickAt t0 p k ∧ tickAt t0 p k ≤ e + p ∧
        ∀ (h : List (Op Id D A)) (id : Id) (x : Session Id D A), (run max timeout h).sessions.get id = some x →
          x.expiresAt ≤ e → (run max timeout (h ++ [tick t0 p k])).sessions.get id = none) ∧
      (∀ (h : List (Op Id D A)) (id : Id) (x : Session Id D A) (k : Nat), (run max timeout h).sessions.get id = some x →
        tickAt t0 p k ≤ x.expiresAt → (run max timeout (h ++ [tick t0 p k])).sessions.get id = some x) := by
    intro p hp
    refine ⟨fun e he => ?_, fun h id x k hx hk => ?_⟩
    · obtain ⟨k, h1, h2⟩ := tick_after t0 e p hp he
      refine ⟨k, h1, h2, fun h id x hx hle => ?_⟩
      unfold tick
      rw [C12_cleanup_exact, hx]
      simp only [Option.filter_some]
      rw [if_neg]
      simp
      omega
    · unfold tick
      rw [C12_cleanup_exact, hx]
      simp only [Option.filter_some]
      rw [if_pos]
      simp
      omega
  by_cases hn : d < 0
  · refine ⟨300000000000, by simp [period, hn], by decide, fun h => by omega, fun _ => rfl, main _ (by decide)⟩
  · refine ⟨d.toNat, by simp [period, hn, hd], by omega, fun h => by omega, fun h => absurd h hn, main _ (by omega)⟩

/-- C173 fails: with an interval of zero the task panics before its first look, so that nothing is ever removed. -/
theorem C173_zero : period 0 = none := by decide

/-- C173, exactly: the task runs if and only if its interval is not zero. -/
theorem C173_runs (d : Int) : (period d).isSome = true ↔ d ≠ 0 := by
  unfold period
  split
  · simp; omega
  · split <;> simp_all

/-- `C173_removed_partial`: a task that looks every five, started at 2; a session made at 0 for 10 is gone at 12. -/
example : period 5 = some 5 ∧ tickAt 2 5 2 = 12 ∧
    ((run 5 10 ([.create 1 () 0] : List (Op Nat Unit Unit))).sessions.get 1).isSome = true ∧
    (run 5 10 ([.create 1 () 0] ++ [tick 2 5 2] : List (Op Nat Unit Unit))).sessions.get 1 = none := by decide

end Verif.Session
