import Verif.Common.AMap

/-
Model of `/repo/src/error/recovery.rs`: circuit breaker, retry strategies and the recovery executor.
Counters are natural numbers (`u32` in the code; they are compared with a threshold of the same type before
they can overflow, except the success counter of a breaker that stays half-open).  Times are natural numbers,
delays are rational numbers of seconds (`f64` in the code, rounding ignored).
-/

namespace Verif.Recovery

/-- `CircuitState`, /repo/src/error/recovery.rs L235-239. -/
inductive CState where
  | closed | opened | halfOpen
  deriving DecidableEq, Repr

/-- `CircuitBreakerConfig`, /repo/src/error/recovery.rs L277-286. -/
structure Config where
  failureThreshold : Nat
  successThreshold : Nat
  timeout : Nat
  deriving DecidableEq

/-- `CircuitBreaker`, /repo/src/error/recovery.rs L242-248, created by `new`, L305-313. -/
structure Breaker where
  state : CState := .closed
  failures : Nat := 0
  successes : Nat := 0
  lastFailure : Option Nat := none
  deriving DecidableEq

/-- `allow_request` after its first line, which read `seen` from `state`,
/repo/src/error/recovery.rs L339-358.  Writes after the read are one step. -/
def allowAct (c : Config) (b : Breaker) (seen : CState) (now : Nat) : Breaker × Bool :=
  match seen with
  | .closed => (b, true)
  | .opened =>
    match b.lastFailure with
    | some t => if now - t ≥ c.timeout then ({ b with state := .halfOpen, successes := 0 }, true) else (b, false)
    | none => (b, false)
  | .halfOpen => (b, true)

/-- `record_success` after its first line, /repo/src/error/recovery.rs L365-384. -/
def successAct (c : Config) (b : Breaker) (seen : CState) : Breaker :=
  match seen with
  | .closed => { b with failures := 0 }
  | .halfOpen =>
    if b.successes + 1 ≥ c.successThreshold then
      { b with successes := b.successes + 1, state := .closed, failures := 0 }
    else { b with successes := b.successes + 1 }
  | .opened => { b with state := .closed, failures := 0 }

/-- `record_failure` after its first line, /repo/src/error/recovery.rs L391-412. -/
def failureAct (c : Config) (b : Breaker) (seen : CState) (now : Nat) : Breaker :=
  match seen with
  | .closed =>
    if b.failures + 1 ≥ c.failureThreshold then
      { b with failures := b.failures + 1, state := .opened, lastFailure := some now }
    else { b with failures := b.failures + 1 }
  | .halfOpen => { b with state := .opened, lastFailure := some now, failures := 1 }
  | .opened => { b with lastFailure := some now }

/-- Calls of the breaker, with their times. /repo/src/error/recovery.rs L336-414. -/
inductive Ev where
  | allow (now : Nat)
  | success
  | failure (now : Nat)
  deriving DecidableEq

/-- A call that runs alone: `allow_request` L336-359, `record_success` L362-385, `record_failure`
L388-413 of /repo/src/error/recovery.rs. -/
def call (c : Config) (b : Breaker) : Ev → Breaker
  | .allow now => (allowAct c b b.state now).1
  | .success => successAct c b b.state
  | .failure now => failureAct c b b.state now

/-- The answer of `allow_request` running alone. (/repo/src/error/recovery.rs L336-360.) -/
def allowed (c : Config) (b : Breaker) (now : Nat) : Bool := (allowAct c b b.state now).2

/-- The breaker after a history of calls that do not overlap. (/repo/src/error/recovery.rs L336-414.) -/
def after (c : Config) (h : List Ev) : Breaker := h.foldl (call c) {}

/-- A breaker used by overlapping calls: each call in progress may have read the state already.
(/repo/src/error/recovery.rs L336-414.) -/
structure Sys where
  breaker : Breaker := {}
  calls : List (Ev × Option CState) := []
  /-- answers of the finished `allow_request` calls -/
  answers : List Bool := []
  deriving DecidableEq

/-- Steps of overlapping calls: begin a call, perform its first line, perform the rest.
(/repo/src/error/recovery.rs L336-414.) -/
inductive Op where
  | begin (e : Ev)
  | read (i : Nat)
  | act (i : Nat)
  deriving DecidableEq

/-- One step of overlapping calls. (/repo/src/error/recovery.rs L336-414.) -/
def step (c : Config) (s : Sys) : Op → Sys
  | .begin e => { s with calls := s.calls ++ [(e, none)] }
  | .read i =>
    match s.calls[i]? with
    | some (e, none) => { s with calls := s.calls.set i (e, some s.breaker.state) }
    | _ => s
  | .act i =>
    match s.calls[i]? with
    | some (e, some seen) =>
      let s := { s with calls := s.calls.eraseIdx i }
      match e with
      | .allow now =>
        let (b, ok) := allowAct c s.breaker seen now
        { s with breaker := b, answers := s.answers ++ [ok] }
      | .success => { s with breaker := successAct c s.breaker seen }
      | .failure now => { s with breaker := failureAct c s.breaker seen now }
    | _ => s

/-- All steps of a schedule. (/repo/src/error/recovery.rs L336-414.) -/
def run (c : Config) (s : Sys) (ops : List Op) : Sys := ops.foldl (step c) s

/-- Errors: protocol errors carry a code, /repo/src/error/mod.rs L16-71. -/
inductive Err where
  | protocol (code : Int) (n : Nat)
  | other (n : Nat)
  | noAttempts
  | circuitOpen
  deriving DecidableEq

/-- `error.error_code().unwrap_or(ErrorCode::INTERNAL_ERROR)`, /repo/src/error/mod.rs L918-923 and
/repo/src/error/recovery.rs L476.  The error of an open breaker carries `INTERNAL_ERROR`, L655-658. -/
def codeOf : Err → Int
  | .protocol code _ => code
  | _ => -32603

/-- Results of operations. (/repo/src/error/recovery.rs L458-520.) -/
abbrev Res := Except Err Nat

/-- `RecoveryStrategy`, /repo/src/error/recovery.rs L45-80. -/
inductive Strategy where
  | fixed (attempts : Nat) (delay : Rat)
  | exponential (attempts : Nat) (initial max multiplier : Rat)
  | fallback
  | breaker (c : Config)
  | failFast

/-- The outcome of running an operation: number of calls so far, sleeps between them, result (`none` if
the code panicked). /repo/src/error/recovery.rs L523-607. -/
structure Outcome where
  calls : Nat
  sleeps : List Rat
  result : Option Res

/-- The loop of `retry_fixed`, /repo/src/error/recovery.rs L534-557; `out n` is the result of the `n`-th
call of the operation. -/
def fixedLoop (out : Nat → Res) (delay : Rat) : (attempts : Nat) → (calls : Nat) → (sleeps : List Rat) →
    (last : Err) → Outcome
  | 0, n, sl, last => ⟨n, sl, some (.error last)⟩
  | k + 1, n, sl, _ =>
    match out n with
    | .ok v => ⟨n + 1, sl ++ [delay], some (.ok v)⟩
    | .error e => fixedLoop out delay k (n + 1) (sl ++ [delay]) e

/-- The loop of `retry_exponential`, /repo/src/error/recovery.rs L572-606; `Duration::from_secs_f64` panics
on a negative number. -/
def expLoop (out : Nat → Res) (max multiplier : Rat) : (attempts : Nat) → (calls : Nat) → (sleeps : List Rat) →
    (current : Rat) → (last : Err) → Outcome
  | 0, n, sl, _, last => ⟨n, sl, some (.error last)⟩
  | k + 1, n, sl, cur, _ =>
    match out n with
    | .ok v => ⟨n + 1, sl ++ [cur], some (.ok v)⟩
    | .error e =>
      let next := min (cur * multiplier) max
      if next < 0 then ⟨n + 1, sl ++ [cur], none⟩
      else expLoop out max multiplier k (n + 1) (sl ++ [cur]) next e

/-- The loop of `with_retry`, /repo/src/error/recovery.rs L707-722. -/
def withRetryLoop (out : Nat → Res) (delay : Rat) : (attempts : Nat) → (calls : Nat) → (sleeps : List Rat) →
    (last : Option Err) → Outcome
  | 0, n, sl, last => ⟨n, sl, some (.error (last.getD .noAttempts))⟩
  | k + 1, n, sl, _ =>
    let sl := if n > 0 then sl ++ [delay] else sl
    match out n with
    | .ok v => ⟨n + 1, sl, some (.ok v)⟩
    | .error e => withRetryLoop out delay k (n + 1) sl (some e)

/-- `with_retry`, /repo/src/error/recovery.rs L698-723. -/
def withRetry (attempts : Nat) (delay : Rat) (out : Nat → Res) : Outcome :=
  withRetryLoop out delay attempts 0 [] none

/-- `RecoveryPolicy::get_strategy`, /repo/src/error/recovery.rs L177-181. -/
def getStrategy (strategies : AMap Int Strategy) (default : Strategy) (code : Int) : Strategy :=
  (AMap.get strategies code).getD default

/-- `RecoveryExecutor`, /repo/src/error/recovery.rs L417-421; breakers carry the configuration they were
created with, handlers map the failed operation's error to a result. -/
structure Executor where
  strategies : AMap Int Strategy := []
  default : Strategy := .failFast
  handlers : AMap Nat (Err → Res) := []

/-- `RecoveryPolicy::default`, /repo/src/error/recovery.rs L128-157: `INTERNAL_ERROR` and
`INVALID_REQUEST` are retried. -/
def Executor.standard : Executor where
  strategies := [(-32603, .exponential 3 (1 / 10) 5 2), (-32600, .fixed 2 (1 / 2))]
  default := .failFast

/-- `RecoveryPolicy::add_strategy`, /repo/src/error/recovery.rs L171-173. -/
def Executor.addStrategy (x : Executor) (code : Int) (st : Strategy) : Executor :=
  { x with strategies := AMap.insert x.strategies code st }

/-- The circuit breakers of an executor by operation. /repo/src/error/recovery.rs L417-431. -/
abbrev Breakers := AMap Nat (Config × Breaker)

/-- `circuit_breaker`, /repo/src/error/recovery.rs L626-674, called after `calls` calls; `t₁` is the time of
the check, `t₂` that of the recording.  The executor runs alone. -/
def circuitBreaker (bs : Breakers) (op : Nat) (c : Config) (out : Nat → Res) (calls t₁ t₂ : Nat) :
    Breakers × Outcome :=
  let (cfg, b) := (AMap.get bs op).getD (c, {})
  let (b, ok) := allowAct cfg b b.state t₁
  if !ok then (AMap.insert bs op (cfg, b), ⟨calls, [], some (.error .circuitOpen)⟩)
  else
    match out calls with
    | .ok v => (AMap.insert bs op (cfg, successAct cfg b b.state), ⟨calls + 1, [], some (.ok v)⟩)
    | .error e => (AMap.insert bs op (cfg, failureAct cfg b b.state t₂), ⟨calls + 1, [], some (.error e)⟩)

/-- `execute_with_recovery`, /repo/src/error/recovery.rs L458-521, with `fallback` L609-624. -/
def execute (x : Executor) (bs : Breakers) (op : Nat) (out : Nat → Res) (t₁ t₂ : Nat) : Breakers × Outcome :=
  match out 0 with
  | .ok v =>
    match AMap.get bs op with
    | some (cfg, b) => (AMap.insert bs op (cfg, successAct cfg b b.state), ⟨1, [], some (.ok v)⟩)
    | none => (bs, ⟨1, [], some (.ok v)⟩)
  | .error e =>
    match getStrategy x.strategies x.default (codeOf e) with
    | .fixed attempts delay => (bs, fixedLoop out delay attempts 1 [] e)
    | .exponential attempts initial max mult => (bs, expLoop out max mult attempts 1 [] initial e)
    | .fallback =>
      match AMap.get x.handlers op with
      | some f => (bs, ⟨1, [], some (f e)⟩)
      | none => (bs, ⟨1, [], some (.error (.other 0))⟩)
    | .breaker c => circuitBreaker bs op c out 1 t₁ t₂
    | .failFast => (bs, ⟨1, [], some (.error e)⟩)

end Verif.Recovery
