import Verif.OAuth.Model
import Verif.Simd.Model
import Verif.Common.Str
import Verif.Common.Utf8
import Verif.Wire.Json

/-
The OAuth client that turns codes and refresh tokens into access tokens, `TokenExchangeClient`
(/repo/src/client/auth.rs L247-428).

reqwest, serde_urlencoded and the network are trusted: a request is what is handed to `send`, its reply is arbitrary.
The endpoint is passed on as it is. A body is its text (it is ASCII).
-/

namespace Verif.TokenClient

/-- Strings. /repo/src/client/auth.rs L324-332. -/
abbrev Text := List Char

/-! ### `application/x-www-form-urlencoded`, used by `form`, /repo/src/client/auth.rs L347, L399 -/

/-- The bytes `form_urlencoded::byte_serialize` leaves as they are. (`form`, /repo/src/client/auth.rs L347.) -/
def plainByte (b : Nat) : Bool :=
  b == 0x2A || b == 0x2D || b == 0x2E || b == 0x5F || (0x30 ≤ b && b ≤ 0x39) || (0x41 ≤ b && b ≤ 0x5A) ||
    (0x61 ≤ b && b ≤ 0x7A)

/-- A hexadecimal digit. (`form`, /repo/src/client/auth.rs L347.) -/
def hexChar (n : Nat) : Char := if n < 10 then Char.ofNat (0x30 + n) else Char.ofNat (0x37 + n)

/-- `form_urlencoded::byte_serialize` of one byte. (`form`, /repo/src/client/auth.rs L347.) -/
def encByte (b : Nat) : Text :=
  if plainByte b then [Char.ofNat b]
  else if b = 0x20 then ['+']
  else ['%', hexChar (b / 16), hexChar (b % 16)]

/-- A name or a value. (`form`, /repo/src/client/auth.rs L347.) -/
def encText (t : Text) : Text := (Utf8.encode t).flatMap encByte

/-- The whole body. (`form`, /repo/src/client/auth.rs L347.) -/
def form (ps : List (Text × Text)) : Text :=
  Str.join ['&'] (ps.map (fun p => encText p.1 ++ '=' :: encText p.2))

/-! ### Requests -/

/-- A request handed to `send`: `POST` to the endpoint with these headers and this body.
/repo/src/client/auth.rs L343-352. -/
structure Request where
  endpoint : Text
  headers : List (Text × Text)
  body : Text
  deriving DecidableEq

/-- `basic_auth(client_id, Some(secret))` of reqwest: the base64 alphabet is that of RFC 4648, as in
`Verif.Simd.base64`. /repo/src/client/auth.rs L350-352, L402-404. -/
def basic (client secret : Text) : Text :=
  "Basic ".toList ++ (Simd.base64 (Utf8.encode (client ++ ':' :: secret))).map Char.ofNat

/-- The headers of both requests. /repo/src/client/auth.rs L343-352, L395-404. -/
def headers (client : Text) (secret : Option Text) : List (Text × Text) :=
  [("accept".toList, "application/json".toList), ("content-type".toList, "application/x-www-form-urlencoded".toList)] ++
    match secret with
    | none => []
    | some s => [("authorization".toList, basic client s)]

/-- The request of `exchange_code`, /repo/src/client/auth.rs L324-352. -/
def exchangeRequest (endpoint code client : Text) (secret : Option Text) (redirect : Text) (verifier : Option Text) :
    Request :=
  let params := [("grant_type".toList, "authorization_code".toList), ("code".toList, code), ("client_id".toList, client),
    ("redirect_uri".toList, redirect)]
  let params := match verifier with
    | none => params
    | some v => params ++ [("code_verifier".toList, v)]
  ⟨endpoint, headers client secret, form params⟩

/-- The request of `refresh_token`, /repo/src/client/auth.rs L378-404. -/
def refreshRequest (endpoint refresh client : Text) (secret scope : Option Text) : Request :=
  let params := [("grant_type".toList, "refresh_token".toList), ("refresh_token".toList, refresh),
    ("client_id".toList, client)]
  let params := match scope with
    | none => params
    | some s => params ++ [("scope".toList, s)]
  ⟨endpoint, headers client secret, form params⟩

/-! ### Replies -/

open Verif.Wire

/-- `TokenResponse`, /repo/src/client/auth.rs L247-265. -/
structure TokenResponse where
  access : String
  type : String
  expires : Option U64
  refresh : Option String
  scope : Option String
  deriving DecidableEq

/-- A field of a struct read from the entries of an object: a second entry of the same name is an error.
(`Deserialize`, /repo/src/client/auth.rs L246.) -/
def entry (f : List (String × Json)) (k : String) : Option (Option Json) :=
  match f.filter (fun e => e.1 == k) with
  | [] => some none
  | [e] => some (some e.2)
  | _ => none

/-- A required field. (`Deserialize`, /repo/src/client/auth.rs L246.) -/
def required {α : Type} (d : Json → Option α) (f : List (String × Json)) (k : String) : Option α :=
  match entry f k with
  | some (some j) => d j
  | _ => none

/-- An optional field. (`Deserialize`, /repo/src/client/auth.rs L246.) -/
def optional {α : Type} (d : Json → Option α) (f : List (String × Json)) (k : String) : Option (Option α) :=
  (entry f k).bind (optOf d)

/-- The derived `Deserialize` of `TokenResponse` on a JSON text: the entries in order, duplicates included, or the five
fields as an array. /repo/src/client/auth.rs L246-265. -/
def readToken : Json → Option TokenResponse
  | .obj f => do
    let access ← required decStr f "access_token"
    let type ← required decStr f "token_type"
    let expires ← optional (decInt 0 (2 ^ 64)) f "expires_in"
    let refresh ← optional decStr f "refresh_token"
    let scope ← optional decStr f "scope"
    some ⟨access, type, expires, refresh, scope⟩
  | .arr [a, t, e, r, s] => do
    let access ← decStr a
    let type ← decStr t
    let expires ← decOpt (decInt 0 (2 ^ 64)) e
    let refresh ← decOpt decStr r
    let scope ← decOpt decStr s
    some ⟨access, type, expires, refresh, scope⟩
  | _ => none

/-- A reply: the status, the text of the body (`none` if reading it fails), and the JSON document it is, if any.
/repo/src/client/auth.rs L361-374. -/
structure Reply where
  status : Nat
  text : Option String
  json : Option Json

/-- The error codes used, /repo/src/client/auth.rs L354-374. -/
inductive Code where
  | internalError | invalidRequest | parseError
  deriving DecidableEq

/-- What is done with the outcome of `send` (the text of the error, or the reply). `what` and `how` begin the messages;
`bad` is the text of a JSON error. /repo/src/client/auth.rs L354-374, L406-426. -/
def finish (what how : String) (bad : String) : Except String Reply → Except (Code × String) TokenResponse
  | .error e => .error (.internalError, what ++ e)
  | .ok r =>
    if ¬(200 ≤ r.status ∧ r.status < 300) then .error (.invalidRequest, how ++ r.text.getD "")
    else match r.json.bind readToken with
      | some t => .ok t
      | none => .error (.parseError, "Failed to parse token response: " ++ bad)

/-- `exchange_code` after the request, /repo/src/client/auth.rs L354-374. -/
def exchangeFinish (bad : String) (r : Except String Reply) : Except (Code × String) TokenResponse :=
  finish "Failed to exchange authorization code: " "Token exchange failed: " bad r

/-- `refresh_token` after the request, /repo/src/client/auth.rs L406-426. -/
def refreshFinish (bad : String) (r : Except String Reply) : Except (Code × String) TokenResponse :=
  finish "Failed to refresh token: " "Token refresh failed: " bad r

/-! ### The server side of the same exchange -/

/-- `AccessToken`, /repo/src/server/auth/oauth2.rs L107-129. `extra` is a map. -/
structure AccessToken where
  access : String
  expires : Option U64
  refresh : Option String
  scope : Option String
  extra : AMap String Json

/-- The derived `Serialize` of `AccessToken`: `TokenType::Bearer` is "bearer" (L40-45); the entries of `extra` follow.
/repo/src/server/auth/oauth2.rs L106-129. -/
def AccessToken.enc (t : AccessToken) : Json :=
  .obj (ob [("access_token", some (.str t.access)), ("token_type", some (.str "bearer")),
    ("expires_in", t.expires.map encInt), ("refresh_token", t.refresh.map .str), ("scope", t.scope.map .str)] ++ t.extra)

/-- What `create_access_token` returns, /repo/src/server/auth/oauth2.rs L632-639. -/
def issued (access refresh : String) (expires : U64) (scopes : List String) : AccessToken :=
  ⟨access, some expires, some refresh, some (" ".intercalate scopes), []⟩

/-- A field of a form, for a derived `Deserialize`: a second one of the same name is an error.
(/repo/src/server/auth/oauth2.rs L249.) -/
def formField (ps : List (Text × Text)) (k : String) : Option (Option Text) :=
  match ps.filter (fun p => p.1 == k.toList) with
  | [] => some none
  | [p] => some (some p.2)
  | _ => none

/-- `GrantType`, /repo/src/server/auth/oauth2.rs L12-26. -/
def grantType (t : Text) : Option OAuth.GrantType :=
  if t = "authorization_code".toList then some .authorizationCode
  else if t = "refresh_token".toList then some .refreshToken
  else if t = "client_credentials".toList then some .clientCredentials
  else if t = "password".toList then some .password
  else none

/-- `TokenRequest`, /repo/src/server/auth/oauth2.rs L250-291: the part used by `exchange_code`, and the rest. -/
structure TokenForm where
  base : OAuth.TokenRequest
  refresh : Option Text
  username : Option Text
  password : Option Text
  scope : Option Text
  deriving DecidableEq

/-- The derived `Deserialize` of `TokenRequest` on the pairs of a form. /repo/src/server/auth/oauth2.rs L249-291. -/
def readForm (ps : List (Text × Text)) : Option TokenForm := do
  let g ← formField ps "grant_type"
  let g ← g.bind grantType
  let code ← formField ps "code"
  let redirect ← formField ps "redirect_uri"
  let client ← formField ps "client_id"
  let secret ← formField ps "client_secret"
  let refresh ← formField ps "refresh_token"
  let username ← formField ps "username"
  let password ← formField ps "password"
  let scope ← formField ps "scope"
  let verifier ← formField ps "code_verifier"
  some ⟨⟨g, code, redirect, client, secret, verifier⟩, refresh, username, password, scope⟩

end Verif.TokenClient
