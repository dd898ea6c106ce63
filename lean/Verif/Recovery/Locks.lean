import Verif.Common.Locks

/-
Locks of the recovery executor: C204.

Models /repo/src/error/recovery.rs L336-414, L458-474 and L626-674 at the level of lock acquisitions: the lock of the
table of breakers, and the four locks of each breaker. Operations and fallback handlers of the user are run without any
lock held and are left out.
-/

namespace Verif.Recovery.Locks

open Verif.Locks

/-- The locks: `circuit_breakers` of the executor (/repo/src/error/recovery.rs L417-421) and the fields of each breaker
(L242-248). -/
inductive Lock where
  | breakers
  | state (b : Nat)
  | failures (b : Nat)
  | successes (b : Nat)
  | last (b : Nat)
  deriving Repr, DecidableEq

/-- A guard that is a temporary of one statement. (For example /repo/src/error/recovery.rs L337.) -/
def touch (l : Lock) (m : Mode) : List (Instr Lock) := [.acq l m, .rel l]

/-- The state a call of a breaker read, /repo/src/error/recovery.rs L337, L363, L389. -/
inductive Seen where
  | closed | opened | halfOpen
  deriving Repr, DecidableEq

/-- `allow_request`, /repo/src/error/recovery.rs L336-359; `over` says that a failure is known and long
enough ago. -/
def allow (b : Nat) (seen : Seen) (over : Bool) : List (Instr Lock) :=
  touch (.state b) .read ++ match seen with
    | .opened => touch (.last b) .read ++ (if over then touch (.state b) .write ++ touch (.successes b) .write else [])
    | _ => []

/-- `record_success`, /repo/src/error/recovery.rs L362-385; `enough` says that the threshold is reached. -/
def success (b : Nat) (seen : Seen) (enough : Bool) : List (Instr Lock) :=
  touch (.state b) .read ++ match seen with
    | .closed => touch (.failures b) .write
    | .halfOpen => .acq (.successes b) .write ::
      (if enough then touch (.state b) .write ++ touch (.failures b) .write else []) ++ [.rel (.successes b)]
    | .opened => touch (.state b) .write ++ touch (.failures b) .write

/-- `record_failure`, /repo/src/error/recovery.rs L388-413; `enough` says that the threshold is reached. -/
def failure (b : Nat) (seen : Seen) (enough : Bool) : List (Instr Lock) :=
  touch (.state b) .read ++ match seen with
    | .closed => .acq (.failures b) .write ::
      (if enough then touch (.state b) .write ++ touch (.last b) .write else []) ++ [.rel (.failures b)]
    | .halfOpen => touch (.state b) .write ++ touch (.last b) .write ++ touch (.failures b) .write
    | .opened => touch (.last b) .write

/-- The calls, as far as they decide which locks are taken: methods of a breaker, and `execute_with_recovery`.
/repo/src/error/recovery.rs L336-414, L458-674. -/
inductive Kind where
  | allow (b : Nat) (seen : Seen) (over : Bool)
  | success (b : Nat) (seen : Seen) (enough : Bool)
  | failure (b : Nat) (seen : Seen) (enough : Bool)
  /-- the operation succeeded at once and has no breaker, L467 -/
  | plain
  /-- the operation succeeded at once, L466-472: the guard of the table lives until the success is recorded -/
  | first (b : Nat) (seen : Seen) (enough : Bool)
  /-- `circuit_breaker`, L626-674: refused -/
  | refused (b : Nat) (seen : Seen) (over : Bool)
  /-- `circuit_breaker`, L626-674: the operation ran -/
  | ran (b : Nat) (seen : Seen) (over ok : Bool) (seen' : Seen) (enough : Bool)
  deriving Repr, DecidableEq

/-- The lock operations of a call. /repo/src/error/recovery.rs L336-414, L458-474, L626-674. -/
def program : Kind → List (Instr Lock)
  | .allow b seen over => Locks.allow b seen over
  | .success b seen enough => Locks.success b seen enough
  | .failure b seen enough => Locks.failure b seen enough
  | .plain => touch .breakers .read
  | .first b seen enough => .acq .breakers .read :: Locks.success b seen enough ++ [.rel .breakers]
  | .refused b seen over => touch .breakers .write ++ Locks.allow b seen over
  | .ran b seen over ok seen' enough => touch .breakers .write ++ Locks.allow b seen over ++
    (if ok then Locks.success b seen' enough else Locks.failure b seen' enough)

/-! ### C204 -/

/-- The order in which the locks are taken. (Specification: no counterpart in the code.) -/
def rank : Lock → Nat
  | .breakers => 0 | .successes _ => 1 | .failures _ => 2 | .state _ => 3 | .last _ => 3

theorem program_ok (k : Kind) : ordered rank [] (program k) = true := by
  cases k with
  | allow b s o => cases s <;> cases o <;> simp [program, allow, touch, ordered]
  | success b s e => cases s <;> cases e <;> simp [program, success, touch, ordered, rank]
  | failure b s e => cases s <;> cases e <;> simp [program, failure, touch, ordered, rank]
  | plain => decide
  | first b s e => cases s <;> cases e <;> simp [program, success, touch, ordered, rank]
  | refused b s o => cases s <;> cases o <;> simp [program, allow, touch, ordered]
  | ran b s o ok s' e =>
    cases s <;> cases o <;> cases ok <;> cases s' <;> cases e <;>
      simp [program, allow, success, failure, touch, ordered, rank]

/-- C204: any number of calls at a time, through the executor or on breakers directly, complete whatever the schedule:
as long as one has not returned some can go on, and no schedule goes on for ever. -/
theorem C204_no_deadlock (ks : List Kind) (is : List Nat) (s : Sys Lock)
    (hr : run (start (ks.map program)) is = some s) :
    (¬ Done s → ∃ i, (step s i).isSome = true) ∧ is.length ≤ total (start (ks.map program)) :=
  ordered_complete rank _ (by
    intro p hp
    obtain ⟨k, _, rfl⟩ := List.mem_map.mp hp
    exact program_ok k) is s hr

-- A success and a failure meet: the failure holds the count of failures and waits for nobody, the success waits.
example : ∃ s, run (start ([.first 0 .halfOpen true, .failure 0 .closed true, .refused 1 .opened false].map program))
    [0, 0, 0, 0, 0, 0, 0, 1, 1, 1, 1, 1, 1, 1, 1, 0, 0, 0, 0, 2] = some s ∧ step s 0 = none ∧ step s 2 = none ∧
    (step s 1).isSome = true :=
  ⟨_, rfl, by decide, by decide, by decide⟩

end Verif.Recovery.Locks
