import Verif.OAuth.Model
import Verif.Common.ExceptEq

/-
Authentication middleware. Models /repo/src/server/auth/middleware.rs L26-356. A middleware is a tree: bearer
and client-credential leaves, each with its own provider, scope checks around a middleware, and composites.
The provider is represented by its answers at the time of the call.
-/

namespace Verif.AuthMw

/-- Strings of /repo/src/server/auth/middleware.rs L12-24 (user ids, tokens, scopes), as characters. -/
abbrev Text := List Char

/-- `AuthContext` (/repo/src/server/auth/middleware.rs L12-24); `metadata` is always empty and left out. -/
structure Ctx where
  client : Text
  user : Text
  scopes : List Text
  deriving Repr, DecidableEq

/-- `AuthScheme` (types/auth.rs L29-38). -/
inductive Scheme where
  | none
  | bearer
  | oauth2
  | custom (name : Text)
  deriving Repr, DecidableEq

/-- `AuthInfo` (types/auth.rs L9-24): the parts that are read. `clientId` and `secret` are the values of the
parameters `client_id` and `client_secret` that are strings. -/
structure Info where
  scheme : Scheme
  token : Option Text := .none
  clientId : Option Text := .none
  secret : Option Text := .none
  deriving Repr, DecidableEq

/-- The errors returned (message texts of /repo/src/server/auth/middleware.rs); `provider` is an error of `get_client`.
/repo/src/server/auth/middleware.rs L91-138, L167-214, L259-281, L326-352. -/
inductive Err where
  | required | badScheme | missingToken | badToken
  | missingClientId | missingSecret | badClient | badCredentials | provider
  | insufficientScopes
  | failed
  deriving Repr, DecidableEq

/-- `OAuthClient` (server/auth/oauth2.rs L48-75): the parts read by the middleware. -/
structure Client where
  id : Text
  secret : Option Text
  scopes : List Text
  deriving Repr, DecidableEq

/-- The middlewares: `BearerTokenMiddleware` (L56-62), `ClientCredentialsMiddleware` (L145-148),
`ScopeMiddleware` (L217-226), `CompositeMiddleware` (L288-294). `validate` is `provider.validate_token`,
`getClient` is `provider.get_client` (outer `none`: the provider failed). -/
inductive Mw where
  | bearer (validate : Text → Option OAuth.Grant) (required : Bool)
  | credentials (getClient : Text → Option (Option Client))
  | scope (inner : Mw) (scopes : List Text) (all : Bool)
  | composite (ms : List Mw) (requireAny : Bool)

/-- The anonymous context (L101-106, L344-349). -/
def anonymous : Ctx := ⟨"anonymous".toList, "anonymous".toList, []⟩

/-- `AuthContext::has_scope` (L28-30). -/
def hasScope (c : Ctx) (s : Text) : Bool := c.scopes.any (fun x => x == s)

/-- `AuthContext::has_all_scopes` (L33-35). -/
def hasAll (c : Ctx) (ss : List Text) : Bool := ss.all (hasScope c)

/-- `AuthContext::has_any_scope` (L38-40). -/
def hasAny (c : Ctx) (ss : List Text) : Bool := ss.any (hasScope c)

/-- `BearerTokenMiddleware::authenticate` (L91-137). -/
def bearerAuth (validate : Text → Option OAuth.Grant) (required : Bool) : Option Info → Except Err Ctx
  | .none => if required then .error .required else .ok anonymous
  | some i =>
    if i.scheme ≠ .bearer then .error .badScheme
    else match i.token with
      | .none => .error .missingToken
      | some t => match validate t with
        | .none => .error .badToken
        | some g => .ok ⟨g.client, g.user, g.scopes⟩

/-- `ClientCredentialsMiddleware::authenticate` (L167-213). -/
def credentialsAuth (getClient : Text → Option (Option Client)) : Option Info → Except Err Ctx
  | .none => .error .required
  | some i => match i.clientId with
    | .none => .error .missingClientId
    | some id => match i.secret with
      | .none => .error .missingSecret
      | some sec => match getClient id with
        | .none => .error .provider
        | some .none => .error .badClient
        | some (some c) =>
          if c.secret ≠ some sec then .error .badCredentials
          else .ok ⟨c.id, c.id, c.scopes⟩

mutual
/-- `AuthMiddleware::authenticate` of the tree: L91-137, L167-213, L259-280, L326-351. -/
def auth : Mw → Option Info → Except Err Ctx
  | .bearer v r, i => bearerAuth v r i
  | .credentials g, i => credentialsAuth g i
  | .scope inner scopes all, i =>
    match auth inner i with
    | .error e => .error e
    | .ok c => if (if all then hasAll c scopes else hasAny c scopes) then .ok c else .error .insufficientScopes
  | .composite ms requireAny, i =>
    match authEach ms i .none with
    | .ok c => .ok c
    | .error last => if requireAny then .error (last.getD .failed) else .ok anonymous

/-- The loop of `CompositeMiddleware::authenticate` (L330-335): `last` is `last_error`. -/
def authEach : List Mw → Option Info → Option Err → Except (Option Err) Ctx
  | [], _, last => .error last
  | m :: ms, i, _ =>
    match auth m i with
    | .ok c => .ok c
    | .error e => authEach ms i (some e)
end

mutual
/-- `is_required` of the tree: default L50-52, L139-141, L282-284, L353-355. -/
def isRequired : Mw → Bool
  | .bearer _ r => r
  | .credentials _ => true
  | .scope inner _ _ => isRequired inner
  | .composite ms requireAny => requireAny && anyRequired ms

/-- `self.middlewares.iter().any(|m| m.is_required())` (L354). -/
def anyRequired : List Mw → Bool
  | [] => false
  | m :: ms => isRequired m || anyRequired ms
end

end Verif.AuthMw
