import Verif.Common.Str

/-
Connecting with retries: src/shared/websocket.rs L96-126 and src/client/auth.rs L136-214. The outcome of the k-th
attempt is a function of k, chosen by the environment. Durations are numbers of nanoseconds.
-/

namespace Verif.Connect

open Verif

/-- The largest `Duration`: `u64::MAX` seconds and 999 999 999 nanoseconds. (Overflow of the delay in
/repo/src/shared/websocket.rs L100-126 and /repo/src/client/auth.rs L136-167.) -/
def durationMax : Nat := (2 ^ 64 - 1) * 10 ^ 9 + 999999999

/-- The end of `connect`. /repo/src/shared/websocket.rs L96-126. -/
inductive Result (E : Type)
  /-- `Ok(())` -/
  | ok
  /-- `Err(e)` -/
  | err (e : E)
  /-- `delay * 2` is not a `Duration`. -/
  | panic
deriving DecidableEq, Repr

/-- L109-111: the limit of attempts is reached. -/
def reached : Option Nat → Nat → Bool
  | some m, attempts => decide (m ≤ attempts)
  | none, _ => false

/-- `WebSocketTransport::connect_with_retry` (/repo/src/shared/websocket.rs L100-126). `outcome k` is the error of the k-th
`connect_once`, if any. Returns the result, the number of attempts and the delays slept; none if it has not ended
after `fuel` attempts. -/
def connectLoop {E : Type} (outcome : Nat → Option E) (maxAttempts : Option Nat) (maxDelay : Nat) :
    (fuel attempts delay : Nat) → Option (Result E × Nat × List Nat)
  | 0, _, _ => none
  | fuel + 1, attempts, delay =>
    match outcome attempts with
    | none => some (.ok, attempts + 1, [])
    | some e =>
      if reached maxAttempts (attempts + 1) = true then some (.err e, attempts + 1, [])
      else if durationMax < delay * 2 then some (.panic, attempts + 1, [delay])
      else (connectLoop outcome maxAttempts maxDelay fuel (attempts + 1) (min (delay * 2) maxDelay)).map
        (fun r => (r.1, r.2.1, delay :: r.2.2))

/-- `connect` (L96-98). -/
def connect {E : Type} (outcome : Nat → Option E) (maxAttempts : Option Nat) (delay maxDelay fuel : Nat) :
    Option (Result E × Nat × List Nat) := connectLoop outcome maxAttempts maxDelay fuel 0 delay

/-! ### OIDC discovery -/

/-- The errors `fetch_discovery` makes (/repo/src/client/auth.rs L170-197): a timeout (never made by it, but recognised), or a
text. -/
inductive FetchError
  | timeout
  | text (s : List Char)
deriving DecidableEq, Repr

/-- `str::contains`. (/repo/src/client/auth.rs L200-214.) -/
def hasText (needle : List Char) : List Char → Bool
  | [] => needle.isEmpty
  | c :: s => (Str.stripPrefix needle (c :: s)).isSome || hasText needle s

/-- `should_retry` (L200-214). -/
def shouldRetry : FetchError → Bool
  | .timeout => true
  | .text s => hasText ['C', 'O', 'R', 'S'] s || hasText ['n', 'e', 't', 'w', 'o', 'r', 'k'] s ||
      hasText ['t', 'i', 'm', 'e', 'o', 'u', 't'] s || hasText ['c', 'o', 'n', 'n', 'e', 'c', 't', 'i', 'o', 'n'] s

/-- The end of `discover`. /repo/src/client/auth.rs L136-167. -/
inductive Found (M : Type)
  | metadata (m : M)
  | error (e : FetchError)
  /-- "Failed to discover OIDC configuration": no attempt was made. -/
  | nothing
deriving DecidableEq, Repr

/-- The loop of `discover` (L142-158): the result and the number of requests. `left` bounds the remaining attempts:
the loop runs while `attempts < max_retries`. -/
def discoverLoop {M : Type} (outcome : Nat → Except FetchError M) (maxRetries : Nat) :
    (left attempts : Nat) → Found M × Nat
  | 0, attempts => (.nothing, attempts)
  | left + 1, attempts =>
    match outcome attempts with
    | .ok m => (.metadata m, attempts + 1)
    | .error e =>
      if shouldRetry e = true ∧ attempts + 1 < maxRetries then discoverLoop outcome maxRetries left (attempts + 1)
      else (.error e, attempts + 1)

/-- `discover` (L136-167). -/
def discover {M : Type} (outcome : Nat → Except FetchError M) (maxRetries : Nat) : Found M × Nat :=
  discoverLoop outcome maxRetries maxRetries 0

/-- `trim_end_matches('/')`. (/repo/src/client/auth.rs L137-140.) -/
def trimSlashes (s : List Char) : List Char := (s.reverse.dropWhile (· = '/')).reverse

/-- "/.well-known/openid-configuration" (/repo/src/client/auth.rs L137-140.) -/
def wellKnown : List Char := "/.well-known/openid-configuration".toList

/-- The address asked (L137-140). -/
def discoveryUrl (issuer : List Char) : List Char := trimSlashes issuer ++ wellKnown

end Verif.Connect
