import Verif.Common.AMap

/-
Model of the in-memory OAuth provider, `/repo/src/server/auth/oauth2.rs` (`InMemoryOAuthProvider`).

A method is divided at the points where it gives up its locks.  `create_access_token` inserts into the two
token maps while holding the lock on the first of them, and every reader of both maps takes that lock, so the
two insertions are one step.  Generated codes and tokens and the clock are parameters of the steps.
Blocking on locks is modelled separately in `Verif.OAuth.Locks`.
-/

namespace Verif.OAuth

/-- Strings. (Ids, tokens and scopes of /repo/src/server/auth/oauth2.rs L47-150.) -/
abbrev Text := List Char

/-- Who and what a token is for: the arguments of `create_access_token`,
/repo/src/server/auth/oauth2.rs L605-610. -/
structure Grant where
  client : Text
  user : Text
  scopes : List Text
  deriving DecidableEq

/-- The arguments of `create_authorization_code`, /repo/src/server/auth/oauth2.rs L502-510. -/
structure Auth where
  grant : Grant
  redirect : Text
  challenge : Option Text
  method : Option Text
  deriving DecidableEq

/-- `GrantType`, /repo/src/server/auth/oauth2.rs L12-26. -/
inductive GrantType where
  | authorizationCode | refreshToken | clientCredentials | password
  deriving DecidableEq

/-- `TokenRequest`, the fields used by `exchange_code`, /repo/src/server/auth/oauth2.rs L250-291. -/
structure TokenRequest where
  grantType : GrantType
  code : Option Text
  redirect : Option Text
  client : Option Text
  secret : Option Text
  verifier : Option Text
  deriving DecidableEq

/-- The parts of a method that are still to be executed. (The locks of /repo/src/server/auth/oauth2.rs
L502-706.) -/
inductive Cont where
  /-- `create_access_token`, /repo/src/server/auth/oauth2.rs L605-640 -/
  | issue (g : Grant)
  /-- `refresh_token` from L664 on -/
  | dropToken (rt old : Text) (g : Grant)
  /-- `refresh_token` from L668 on -/
  | dropRefresh (rt : Text) (g : Grant)
  /-- `revoke_token` from L685 on -/
  | revoke2 (x : Text)
  deriving DecidableEq

/-- The maps of `InMemoryOAuthProvider`, /repo/src/server/auth/oauth2.rs L371-393, with the methods in
progress.  Codes and tokens carry their expiry times. -/
structure State where
  codes : AMap Text (Auth × Nat) := []
  tokens : AMap Text (Grant × Nat) := []
  refresh : AMap Text Text := []
  pending : List Cont := []
  deriving DecidableEq

/-- `token_expiration`, /repo/src/server/auth/oauth2.rs L407. -/
def tokenTtl : Nat := 3600

/-- `code_expiration`, /repo/src/server/auth/oauth2.rs L408. -/
def codeTtl : Nat := 600

/-- The method names of `verify_pkce`. /repo/src/server/auth/oauth2.rs L427-443. -/
def plain : Text := "plain".toList

/-- The method names of `verify_pkce`. /repo/src/server/auth/oauth2.rs L427-443. -/
def s256 : Text := "S256".toList

/-- `verify_pkce`, /repo/src/server/auth/oauth2.rs L427-442; `sha` stands for the base64url encoding of the
SHA-256 digest. -/
def verifyPkce (sha : Text → Text) (verifier challenge method : Text) : Bool :=
  if method = plain then decide (verifier = challenge)
  else if method = s256 then decide (sha verifier = challenge)
  else false

/-- The PKCE part of `exchange_code`, /repo/src/server/auth/oauth2.rs L580-597. -/
def checkPkce (sha : Text → Text) (a : Auth) (r : TokenRequest) : Bool :=
  match a.challenge with
  | none => true
  | some challenge =>
    match r.verifier with
    | none => false
    | some v => verifyPkce sha v challenge (a.method.getD plain)

/-- The checks of `exchange_code` on a stored code, /repo/src/server/auth/oauth2.rs L551-597. -/
def checkCode (sha : Text → Text) (a : Auth) (expires : Nat) (r : TokenRequest) (now : Nat) : Bool :=
  if expires < now then false
  else
    match r.client with
    | none => false
    | some client =>
      if a.grant.client ≠ client then false
      else
        match r.redirect with
        | none => false
        | some redirect => if a.redirect ≠ redirect then false else checkPkce sha a r

/-- `exchange_code` up to the call of `create_access_token`, /repo/src/server/auth/oauth2.rs L531-601: the
state and whether it succeeds. -/
def exchange (sha : Text → Text) (s : State) (r : TokenRequest) (now : Nat) : State × Bool :=
  if r.grantType ≠ .authorizationCode then (s, false)
  else
    match r.code with
    | none => (s, false)
    | some code =>
      match AMap.get s.codes code with
      | none => (s, false)
      | some (a, expires) =>
        let s := { s with codes := AMap.remove s.codes code }
        if checkCode sha a expires r now then ({ s with pending := .issue a.grant :: s.pending }, true)
        else (s, false)

/-- The lookup of `refresh_token`, /repo/src/server/auth/oauth2.rs L642-661. -/
def refreshRead (s : State) (rt : Text) : State × Bool :=
  match AMap.get s.refresh rt with
  | none => (s, false)
  | some old =>
    match AMap.get s.tokens old with
    | none => (s, false)
    | some (g, _) => ({ s with pending := .dropToken rt old g :: s.pending }, true)

/-- `validate_token`, /repo/src/server/auth/oauth2.rs L694-706. -/
def validate (s : State) (t : Text) (now : Nat) : Option Grant :=
  match AMap.get s.tokens t with
  | none => none
  | some (g, expires) => if expires < now then none else some g

/-- Steps. /repo/src/server/auth/oauth2.rs L447-706. -/
inductive Op where
  | createCode (code : Text) (a : Auth) (now : Nat)
  | exchange (r : TokenRequest) (now : Nat)
  /-- call of `create_access_token` by the user -/
  | create (g : Grant)
  | issue (g : Grant) (access rt : Text) (now : Nat)
  | refreshRead (rt : Text)
  | dropToken (rt old : Text) (g : Grant)
  | dropRefresh (rt : Text) (g : Grant)
  | revoke1 (x : Text)
  | revoke2 (x : Text)
  deriving DecidableEq

/-- One step; `none` if it is not possible. /repo/src/server/auth/oauth2.rs L447-706. -/
def step (sha : Text → Text) (s : State) : Op → Option State
  -- `create_authorization_code`, /repo/src/server/auth/oauth2.rs L502-529
  | .createCode code a now => some { s with codes := AMap.insert s.codes code (a, now + codeTtl) }
  | .exchange r now => some (exchange sha s r now).1
  | .create g => some { s with pending := .issue g :: s.pending }
  -- `create_access_token`, /repo/src/server/auth/oauth2.rs L611-630
  | .issue g access rt now =>
    if .issue g ∈ s.pending then
      some { s with
        pending := s.pending.erase (.issue g)
        tokens := AMap.insert s.tokens access (g, now + tokenTtl)
        refresh := AMap.insert s.refresh rt access }
    else none
  | .refreshRead rt => some (refreshRead s rt).1
  -- /repo/src/server/auth/oauth2.rs L664-666
  | .dropToken rt old g =>
    if .dropToken rt old g ∈ s.pending then
      some { s with
        pending := .dropRefresh rt g :: s.pending.erase (.dropToken rt old g)
        tokens := AMap.remove s.tokens old }
    else none
  -- /repo/src/server/auth/oauth2.rs L668-673
  | .dropRefresh rt g =>
    if .dropRefresh rt g ∈ s.pending then
      some { s with
        pending := .issue g :: s.pending.erase (.dropRefresh rt g)
        refresh := AMap.remove s.refresh rt }
    else none
  -- /repo/src/server/auth/oauth2.rs L676-682
  | .revoke1 x =>
    if AMap.contains s.tokens x then some { s with tokens := AMap.remove s.tokens x }
    else some { s with pending := .revoke2 x :: s.pending }
  -- /repo/src/server/auth/oauth2.rs L685-691
  | .revoke2 x =>
    if .revoke2 x ∈ s.pending then
      match AMap.get s.refresh x with
      | some access => some { s with
          pending := s.pending.erase (.revoke2 x)
          refresh := AMap.remove s.refresh x
          tokens := AMap.remove s.tokens access }
      | none => some { s with pending := s.pending.erase (.revoke2 x) }
    else none

/-- A schedule. (Any interleaving of the sections of /repo/src/server/auth/oauth2.rs L447-706.) -/
def run (sha : Text → Text) (s : State) : List Op → Option State
  | [] => some s
  | op :: h =>
    match step sha s op with
    | none => none
    | some s => run sha s h

end Verif.OAuth
