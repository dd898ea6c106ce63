import Verif.Common.Locks

/-
Lock order of the OAuth provider: C45.

Models /repo/src/server/auth/oauth2.rs L502-706 at the level of lock acquisitions: the three `tokio` read-write
locks `codes`, `tokens` and `refresh_tokens`, taken and released by the methods of `InMemoryOAuthProvider`. A
lock is granted in arrival order (tokio's RwLock is fair): a request waits for conflicting holders and for
earlier waiting requests of the same lock. What a method does between lock operations cannot block and is left
out. The method bodies after an early return release their locks; early returns are separate programs.
-/

namespace Verif.OAuth.Locks

open Verif.Locks

/-- The locks: fields of `InMemoryOAuthProvider` (oauth2.rs L372-396). `clients` is only ever taken alone. -/
inductive Lock where
  | codes
  | tokens
  | refresh
  deriving Repr, DecidableEq

/-- `create_authorization_code` (oauth2.rs L502-529). -/
def createCode : List (Instr Lock) := [.acq .codes .write, .rel .codes]

/-- `create_access_token` (oauth2.rs L605-640): both guards live until the end. -/
def issue : List (Instr Lock) := [.acq .tokens .write, .acq .refresh .write, .rel .refresh, .rel .tokens]

/-- `exchange_code` (oauth2.rs L531-603): the guard of `codes` lives across `create_access_token`. -/
def exchange : List (Instr Lock) := .acq .codes .write :: issue ++ [.rel .codes]

/-- `exchange_code` returning an error after taking `codes`. /repo/src/server/auth/oauth2.rs L531-603. -/
def exchangeFail : List (Instr Lock) := [.acq .codes .write, .rel .codes]

/-- `refresh_token` (oauth2.rs L642-674). -/
def refresh : List (Instr Lock) :=
  [.acq .refresh .read, .acq .tokens .read, .rel .tokens, .rel .refresh,
    .acq .tokens .write, .rel .tokens, .acq .refresh .write, .rel .refresh] ++ issue

/-- `refresh_token` with an unknown refresh token (oauth2.rs L644-648). -/
def refreshUnknown : List (Instr Lock) := [.acq .refresh .read, .rel .refresh]

/-- `revoke_token` of an access token (oauth2.rs L678-681). -/
def revokeAccess : List (Instr Lock) := [.acq .tokens .write, .rel .tokens]

/-- `revoke_token` of a refresh token (oauth2.rs L678-692): `tokens` is taken under `refresh_tokens`. -/
def revokeRefresh : List (Instr Lock) :=
  [.acq .tokens .write, .rel .tokens, .acq .refresh .write, .acq .tokens .write, .rel .tokens, .rel .refresh]

/-- `revoke_token` of an unknown token. /repo/src/server/auth/oauth2.rs L676-692. -/
def revokeUnknown : List (Instr Lock) := [.acq .tokens .write, .rel .tokens, .acq .refresh .write, .rel .refresh]

/-- `validate_token` (oauth2.rs L694-706). -/
def validate : List (Instr Lock) := [.acq .tokens .read, .rel .tokens]

/-- C45, for any order of the locks: if every running method takes locks in that order, then in every
schedule some method can make progress until all have returned, and no schedule is longer than twice the
number of lock operations; so every schedule that is carried on as long as possible completes all methods. -/
theorem C45_ordered_programs_complete (rank : Lock → Nat) (ps : List (List (Instr Lock)))
    (h : ∀ p ∈ ps, ordered rank [] p = true) (is : List Nat) (s : Sys Lock) (hr : run (start ps) is = some s) :
    (¬ Done s → ∃ i, (step s i).isSome = true) ∧ is.length ≤ total (start ps) :=
  ordered_complete rank ps h is s hr

/-- The methods that take locks in the order `codes`, `tokens`, `refresh_tokens`.
(Specification: no counterpart in the code.) -/
def upward : List (List (Instr Lock)) :=
  [createCode, exchange, exchangeFail, issue, refreshUnknown, revokeAccess, revokeUnknown, validate]

/-- The methods that take locks in the order `codes`, `refresh_tokens`, `tokens`.
(Specification: no counterpart in the code.) -/
def downward : List (List (Instr Lock)) :=
  [createCode, exchangeFail, refreshUnknown, revokeAccess, revokeRefresh, revokeUnknown, validate]

/-- C45: any number of concurrent code, issue, validation and access-token-revocation calls cannot deadlock;
neither can any number of revocations (also of refresh tokens), validations and code creations.

Partial: combining the issue of a token with the refresh of a token or the revocation of a refresh token can
(`C45_issue_revoke_deadlock`, `C45_refresh_refresh_deadlock`). -/
theorem C45_no_deadlock_partial (ps : List (List (Instr Lock))) (h : (∀ p ∈ ps, p ∈ upward) ∨ (∀ p ∈ ps, p ∈ downward))
    (is : List Nat) (s : Sys Lock) (hr : run (start ps) is = some s) (hd : ¬ Done s) : ∃ i, (step s i).isSome = true := by
  have hup : ∀ p ∈ upward, ordered (fun | .codes => 0 | .tokens => 1 | .refresh => 2) [] p = true := by decide
  have hdn : ∀ p ∈ downward, ordered (fun | .codes => 0 | .tokens => 2 | .refresh => 1) [] p = true := by decide
  rcases h with h | h
  · exact (C45_ordered_programs_complete _ ps (fun p hp => hup p (h p hp)) is s hr).1 hd
  · exact (C45_ordered_programs_complete _ ps (fun p hp => hdn p (h p hp)) is s hr).1 hd

example : ∃ s, run (start [exchange, issue, validate]) [0, 0, 0, 1, 2] = some s ∧ (step s 1).isSome = false ∧
    (step s 2).isSome = false ∧ (step s 0).isSome = true :=
  ⟨_, rfl, by decide, by decide, by decide⟩

/-- Finding: issuing a token (`tokens`, then `refresh_tokens`) and revoking a refresh token
(`refresh_tokens`, then `tokens`) can block each other forever. -/
theorem C45_issue_revoke_deadlock : ∃ is s, run (start [issue, revokeRefresh]) is = some s ∧ Deadlock s :=
  ⟨[1, 1, 1, 1, 1, 0, 0, 0, 1], _, rfl, deadlock_of _ (by decide) (by decide)⟩

/-- Finding: two refreshes can block each other forever. -/
theorem C45_refresh_refresh_deadlock : ∃ is s, run (start [refresh, refresh]) is = some s ∧ Deadlock s :=
  ⟨[0, 0, 0, 0, 0, 0, 0, 0, 0, 0, 0, 0, 0, 0, 1, 1, 0, 1], _, rfl, deadlock_of _ (by decide) (by decide)⟩

end Verif.OAuth.Locks
