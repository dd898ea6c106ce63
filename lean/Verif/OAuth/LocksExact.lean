import Verif.OAuth.Locks
import Verif.Common.LocksPairs

/-
Exactly which calls of the OAuth provider can block each other: C45.
-/

namespace Verif.OAuth.Locks

open Verif.Locks

/-- `refresh_token` with a refresh token whose access token is gone: both locks are read, then the error is returned
(/repo/src/server/auth/oauth2.rs L644-654). -/
def refreshStale : List (Instr Lock) := [.acq .refresh .read, .acq .tokens .read, .rel .tokens, .rel .refresh]

/-- The calls of the provider that take the three locks, by method and outcome.
/repo/src/server/auth/oauth2.rs L502-706. -/
inductive Method where
  | createCode
  | exchange
  | exchangeFail
  | issue
  | refresh
  | refreshUnknown
  | refreshStale
  | revokeAccess
  | revokeRefresh
  | revokeUnknown
  | validate
  deriving Repr, DecidableEq

/-- The lock operations of the call. /repo/src/server/auth/oauth2.rs L502-706. -/
def program : Method → List (Instr Lock)
  | .createCode => Locks.createCode
  | .exchange => Locks.exchange
  | .exchangeFail => Locks.exchangeFail
  | .issue => Locks.issue
  | .refresh => Locks.refresh
  | .refreshUnknown => Locks.refreshUnknown
  | .refreshStale => Locks.refreshStale
  | .revokeAccess => Locks.revokeAccess
  | .revokeRefresh => Locks.revokeRefresh
  | .revokeUnknown => Locks.revokeUnknown
  | .validate => Locks.validate

/-- The call makes a token. (Specification: no counterpart in the code.) -/
def Method.issues : Method → Bool
  | .exchange | .issue | .refresh => true
  | _ => false

/-- The call is given a refresh token that is known. (Specification: no counterpart in the code.) -/
def Method.knows : Method → Bool
  | .refresh | .refreshStale | .revokeRefresh => true
  | _ => false

/-- The steps of the call that makes a token before it begins to. (Specification: no counterpart in the code.) -/
def before : Method → Nat
  | .exchange => 2
  | .refresh => 12
  | _ => 0

/-- The steps of the other until it holds `refresh_tokens`. (Specification: no counterpart in the code.) -/
def untilRefresh : Method → Nat
  | .revokeRefresh => 5
  | _ => 2

theorem meet_blocks (a b : Method) (ha : a.issues = true) (hb : b.knows = true) :
    (run (start [program a, program b]) (List.replicate (before a) 0 ++ List.replicate (untilRefresh b) 1 ++
      [0, 0, 0, 1])).any crossed = true := by
  cases a <;> cases ha <;> cases b <;> cases hb <;> decide +kernel

/-- C45, exactly: calls in progress at the same time can come to block each other for ever if and only if one of them
makes a token and another one was given a known refresh token, to use or to revoke. -/
theorem C45_deadlock_iff (ms : List Method) :
    (∃ is s, run (start (ms.map program)) is = some s ∧ Deadlock s) ↔
      ∃ (i j : Nat) (a b : Method), i ≠ j ∧ ms[i]? = some a ∧ ms[j]? = some b ∧ a.issues = true ∧ b.knows = true := by
  constructor
  · rintro ⟨is, s, hr, hd⟩
    apply Classical.byContradiction
    intro hno
    have stuck : ¬ ∃ a, (step s a).isSome = true := by
      rintro ⟨a, ha⟩
      rw [hd.2 a] at ha
      cases ha
    by_cases hi : ∃ a ∈ ms, a.issues = true
    · by_cases hk : ∃ b ∈ ms, b.knows = true
      · obtain ⟨a, ham, ha⟩ := hi
        obtain ⟨b, hbm, hb⟩ := hk
        obtain ⟨i, hia⟩ := List.getElem?_of_mem ham
        obtain ⟨j, hjb⟩ := List.getElem?_of_mem hbm
        have hij : i = j := Classical.byContradiction (fun h => hno ⟨i, j, a, b, h, hia, hjb, ha, hb⟩)
        refine stuck (one_nested_complete _ i ?_ ?_ is s hr hd.1)
        · intro x p hp hx
          rw [List.getElem?_map, Option.map_eq_some_iff] at hp
          obtain ⟨m, hm, rfl⟩ := hp
          have h1 : m.issues ≠ true := fun h => hno ⟨x, j, m, b, by omega, hm, hjb, h, hb⟩
          have h2 : m.knows ≠ true := fun h => hno ⟨i, x, a, m, by omega, hia, hm, ha, h⟩
          cases m <;> first | exact absurd rfl h1 | exact absurd rfl h2 | decide
        · intro p hp
          rw [List.getElem?_map, Option.map_eq_some_iff] at hp
          obtain ⟨m, hm, rfl⟩ := hp
          cases m <;> decide
      · refine stuck ((C45_ordered_programs_complete (fun | .codes => 0 | .tokens => 1 | .refresh => 2) _ ?_ is s hr).1 hd.1)
        intro p hp
        obtain ⟨m, hm, rfl⟩ := List.mem_map.mp hp
        have h1 : m.knows ≠ true := fun h => hk ⟨m, hm, h⟩
        cases m <;> first | exact absurd rfl h1 | decide
    · refine stuck ((C45_ordered_programs_complete (fun | .codes => 0 | .tokens => 2 | .refresh => 1) _ ?_ is s hr).1 hd.1)
      intro p hp
      obtain ⟨m, hm, rfl⟩ := List.mem_map.mp hp
      have h1 : m.issues ≠ true := fun h => hi ⟨m, hm, h⟩
      cases m <;> first | exact absurd rfl h1 | decide
  · rintro ⟨i, j, a, b, hij, hi, hj, ha, hb⟩
    exact pair_deadlock _ i j hij (program a) (program b) (by simp [hi]) (by simp [hj]) _ (meet_blocks a b ha hb)

-- A code is exchanged while a refresh token is used whose access token was revoked, and others validate theirs.
example : ∃ is s, run (start ([.validate, .refreshStale, .validate, .exchange].map program)) is = some s ∧ Deadlock s :=
  (C45_deadlock_iff _).mpr ⟨3, 1, .exchange, .refreshStale, by decide, rfl, rfl, rfl, rfl⟩

-- One refresh, and whatever else neither makes a token nor knows a refresh token: never.
example : ¬ ∃ is s, run (start ([.validate, .refresh, .revokeUnknown, .createCode].map program)) is = some s ∧
    Deadlock s := by
  rw [C45_deadlock_iff]
  rintro ⟨i, j, a, b, hij, hi, hj, ha, hb⟩
  match i, j, hi, hj with
  | 0, _, hi, _ => cases hi; cases ha
  | 1, 0, _, hj => cases hj; cases hb
  | 1, 1, _, _ => exact hij rfl
  | 1, 2, _, hj => cases hj; cases hb
  | 1, 3, _, hj => cases hj; cases hb
  | 1, _ + 4, _, hj => cases hj
  | 2, _, hi, _ => cases hi; cases ha
  | 3, _, hi, _ => cases hi; cases ha
  | _ + 4, _, hi, _ => cases hi

/-- C45, turns: a call gets a lock only if nobody who asked for it before still waits for it, whatever the two want it for
(tokio's lock is fair): nobody is passed over for ever. -/
theorem C45_in_turn (s s' : Sys Lock) (i j : Nat) (t u t' : Verif.Locks.Task Lock) (l : Lock) (k k' : Nat)
    (hi : s.tasks[i]? = some t) (hj : s.tasks[j]? = some u) (ht : waitsFor t l = some k) (hu : waitsFor u l = some k')
    (hs : step s i = some s') (hi' : s'.tasks[i]? = some t') :
    (∃ m, t'.held = (l, m) :: t.held) ∧ k ≤ k' := by
  rw [step_eq s i t hi] at hs
  unfold waitsFor at ht
  split at ht
  · next l' m p hp =>
    split at ht
    · next e =>
      subst e
      rw [hp] at hs
      simp only [ht] at hs
      split at hs
      · next hall =>
        cases hs
        simp only [List.getElem?_set_self', hi] at hi'
        cases hi'
        refine ⟨⟨m, rfl⟩, ?_⟩
        have h1 := List.all_eq_true.mp hall u (List.mem_of_getElem? hj)
        simp only [permits, hu, Bool.and_eq_true, decide_eq_true_eq] at h1
        exact h1.2
      · cases hs
    · cases ht
  · cases ht

-- A reader that asked after a writer waits for it, although a reader holds the lock.
example : ∃ s, run (start [validate, revokeAccess, validate]) [0, 0, 1, 2] = some s ∧ (step s 2).isSome = false ∧
    (step s 1).isSome = false ∧ (step s 0).isSome = true := ⟨_, rfl, by decide, by decide, by decide⟩

end Verif.OAuth.Locks
