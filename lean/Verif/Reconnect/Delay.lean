/-
Model of `calculate_delay`, /repo/src/shared/reconnect.rs L250-278.  `f64` values (all non-negative
here) are exact rationals below the overflow bound, `inf` above it, or `nan`; rounding of finite
results is not modelled.
-/

namespace Verif.Reconnect

/-- Non-negative `f64` values. (/repo/src/shared/reconnect.rs L250-278.) -/
inductive F where
  | fin (q : Rat)
  | inf
  | nan
  deriving DecidableEq

/-- Results from here on overflow to infinity. (/repo/src/shared/reconnect.rs L250-278.) -/
def overflow : Rat := 2 ^ 1024

/-- Result of a finite computation. (/repo/src/shared/reconnect.rs L250-278.) -/
def F.ofRat (q : Rat) : F := if q < overflow then .fin q else .inf

/-- `f64` multiplication of non-negative values: `0 * inf` is NaN. (/repo/src/shared/reconnect.rs L250-278.) -/
def F.mul : F → F → F
  | .nan, _ => .nan
  | _, .nan => .nan
  | .fin a, .fin b => F.ofRat (a * b)
  | .fin a, .inf => if a = 0 then .nan else .inf
  | .inf, .fin b => if b = 0 then .nan else .inf
  | .inf, .inf => .inf

/-- `f64::min`: a NaN argument is ignored. (/repo/src/shared/reconnect.rs L250-278.) -/
def F.min : F → F → F
  | .nan, y => y
  | x, .nan => x
  | .fin a, .fin b => .fin (if a ≤ b then a else b)
  | .fin a, .inf => .fin a
  | .inf, y => y

/-- Exponent passed to `powi`: `i32::try_from(retry_count).unwrap_or(i32::MAX)`, L258. -/
def exponent (retry : Nat) : Nat := if retry < 2 ^ 31 then retry else 2 ^ 31 - 1

/-- `Duration::as_secs_f64` of a duration in nanoseconds. (/repo/src/shared/reconnect.rs L250-278.) -/
def secs (nanos : Nat) : Rat := (nanos : Rat) / 1000000000

/-- `base_delay.min(max_delay)`, /repo/src/shared/reconnect.rs L254-261, in seconds; the two durations
are given in nanoseconds. -/
def cappedDelay (initial maxDelay : Nat) (growth : Rat) (retry : Nat) : F :=
  F.min (F.mul (F.ofRat (secs initial)) (F.ofRat (growth ^ exponent retry))) (F.ofRat (secs maxDelay))

/-- The jitter of L264-273 for a random factor between 0 and 1. -/
def jitter (capped jitterFactor rnd : Rat) : Rat :=
  rnd * (capped * jitterFactor) * 2 + -(capped * jitterFactor)

/-- The final delay, L274-276 (for a finite capped delay). -/
def finalDelay (capped jitterFactor rnd : Rat) : Rat :=
  if capped + jitter capped jitterFactor rnd ≤ 0 then 0 else capped + jitter capped jitterFactor rnd

end Verif.Reconnect
