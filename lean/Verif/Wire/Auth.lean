import Verif.Wire.Lemmas

/-
The JSON form of authentication information: C208.

Models /repo/src/types/auth.rs L6-38, L103-158, L187-342.
-/

namespace Verif.Wire

/-- `AuthScheme`, /repo/src/types/auth.rs L27-38. -/
inductive AuthScheme where
  | none
  | bearer
  | oauth2
  | custom (name : String)
  deriving Repr, DecidableEq

/-- The names `rename_all = "camelCase"` gives the variants without contents, /repo/src/types/auth.rs L27-38. -/
def AuthScheme.unitOf (s : String) : Option AuthScheme :=
  if s = "none" then some .none else if s = "bearer" then some .bearer else if s = "oAuth2" then some .oauth2
  else Option.none

/-- Derived `Serialize` of `AuthScheme`, /repo/src/types/auth.rs L27-38. -/
def AuthScheme.enc : AuthScheme → Json
  | .none => .str "none"
  | .bearer => .str "bearer"
  | .oauth2 => .str "oAuth2"
  | .custom n => .obj [("custom", .str n)]

/-- Derived `Deserialize` of `AuthScheme`, /repo/src/types/auth.rs L27-38. -/
def AuthScheme.dec : Json → Option AuthScheme
  | .str s => AuthScheme.unitOf s
  | .obj [(k, .null)] => AuthScheme.unitOf k
  | .obj [(k, .str n)] => if k = "custom" then some (.custom n) else Option.none
  | _ => Option.none

@[simp] theorem AuthScheme.rt (x : AuthScheme) : AuthScheme.dec x.enc = some x := by
  cases x <;> simp [enc, dec, unitOf]

/-- `PkceMethod`, /repo/src/types/auth.rs L142-158. -/
inductive PkceMethod where
  | plain
  | s256
  deriving Repr, DecidableEq

/-- Derived `Serialize` of `PkceMethod`, /repo/src/types/auth.rs L142-158. -/
def PkceMethod.enc : PkceMethod → Json
  | .plain => .str "plain"
  | .s256 => .str "S256"

/-- Derived `Deserialize` of `PkceMethod`, /repo/src/types/auth.rs L142-158. -/
def PkceMethod.dec : Json → Option PkceMethod :=
  decEnum (fun s => if s = "plain" then some .plain else if s = "S256" then some .s256 else none)

@[simp] theorem PkceMethod.rt (x : PkceMethod) : PkceMethod.dec x.enc = some x := by
  cases x <;> simp [enc, dec, decEnum]

/-- `OAuthInfo`, /repo/src/types/auth.rs L103-127. -/
structure OAuthInfo where
  authUrl : String
  tokenUrl : String
  clientId : String
  scopes : Option (List String) := none
  redirectUri : Option String := none
  pkceMethod : Option PkceMethod := none
  deriving Repr, DecidableEq

/-- Derived `Serialize` of `OAuthInfo`, /repo/src/types/auth.rs L103-127. -/
def OAuthInfo.enc (x : OAuthInfo) : Json :=
  .obj (ob [("authUrl", some (.str x.authUrl)), ("tokenUrl", some (.str x.tokenUrl)),
    ("clientId", some (.str x.clientId)), ("scopes", x.scopes.map (encList .str)),
    ("redirectUri", x.redirectUri.map .str), ("pkceMethod", x.pkceMethod.map PkceMethod.enc)])

/-- Derived `Deserialize` of `OAuthInfo`, /repo/src/types/auth.rs L103-127. -/
def OAuthInfo.dec (j : Json) : Option OAuthInfo := do
  let s ← src 6 j
  let a ← req decStr s "authUrl" 0
  let b ← req decStr s "tokenUrl" 1
  let c ← req decStr s "clientId" 2
  let d ← opt (decList decStr) s "scopes" 3
  let e ← opt decStr s "redirectUri" 4
  let f ← opt PkceMethod.dec s "pkceMethod" 5
  some ⟨a, b, c, d, e, f⟩

theorem OAuthInfo.rt (x : OAuthInfo) : OAuthInfo.dec x.enc = some x := by
  have hs : optOf (decList decStr) (x.scopes.map (encList .str)) = some x.scopes :=
    optOf_map _ _ _ (fun a _ => ⟨decList_enc _ _ _ (fun _ _ => rfl), by simp [encList]⟩)
  have hp : optOf PkceMethod.dec (x.pkceMethod.map PkceMethod.enc) = some x.pkceMethod :=
    optOf_map _ _ _ (fun a _ => ⟨PkceMethod.rt a, by cases a <;> simp [PkceMethod.enc]⟩)
  simp [enc, dec, hs, hp]

/-- `AuthInfo`, /repo/src/types/auth.rs L6-24. -/
structure AuthInfo where
  scheme : AuthScheme
  token : Option String := none
  oauth : Option OAuthInfo := none
  params : List (String × Json) := []

/-- The names of the fields, /repo/src/types/auth.rs L6-24. -/
def AuthInfo.known : List String := ["scheme", "token", "oauth"]

/-- The fields that are not flattened, /repo/src/types/auth.rs L6-24. -/
def AuthInfo.fields (x : AuthInfo) : List (String × Option Json) :=
  [("scheme", some x.scheme.enc), ("token", x.token.map .str), ("oauth", x.oauth.map OAuthInfo.enc)]

/-- Derived `Serialize` of `AuthInfo` (into a `Value`), /repo/src/types/auth.rs L6-24. -/
def AuthInfo.enc (x : AuthInfo) : Json := .obj (flatten (ob x.fields) x.params)

/-- Derived `Deserialize` of `AuthInfo`, from objects only because of the flattened map, /repo/src/types/auth.rs
L6-24. -/
def AuthInfo.dec : Json → Option AuthInfo
  | .obj f => do
    let a ← req AuthScheme.dec (.obj f) "scheme" 0
    let b ← opt decStr (.obj f) "token" 1
    let c ← opt OAuthInfo.dec (.obj f) "oauth" 2
    some ⟨a, b, c, rest AuthInfo.known f⟩
  | _ => none

/-- `AuthInfo::none`, /repo/src/types/auth.rs L187-194. -/
def AuthInfo.noAuth : AuthInfo := { scheme := .none }

/-- `AuthInfo::bearer`, /repo/src/types/auth.rs L217-224. -/
def AuthInfo.ofToken (t : String) : AuthInfo := { scheme := .bearer, token := some t }

/-- `AuthInfo::oauth2`, /repo/src/types/auth.rs L258-265. -/
def AuthInfo.ofOAuth (o : OAuthInfo) : AuthInfo := { scheme := .oauth2, oauth := some o }

/-- `is_required`, /repo/src/types/auth.rs L296-298. -/
def AuthInfo.isRequired (x : AuthInfo) : Bool :=
  match x.scheme with
  | .none => false
  | _ => true

/-- `authorization_header`, /repo/src/types/auth.rs L337-342. -/
def AuthInfo.header (x : AuthInfo) : Option String :=
  match x.scheme, x.token with
  | .bearer, some t => some ("Bearer " ++ t)
  | _, _ => none

/-! ### C208 -/

theorem AuthInfo.keys (x : AuthInfo) : ∀ k ∈ (ob x.fields).map (·.1), k ∈ AuthInfo.known := by
  intro k hk
  have := ob_keys _ k hk
  simpa [fields, known] using this

/-- C208, exactly: authentication information survives its JSON form if and only if none of its additional parameters is
called like one of its fields. (`hn`: the parameters are a map.)

Partial: with such a parameter it comes back as something else (`C208_param_wins`). -/
theorem C208_round_trip_partial (x : AuthInfo) (hn : (x.params.map (·.1)).Nodup) :
    AuthInfo.dec x.enc = some x ↔ ∀ k ∈ x.params.map (·.1), k ≠ "scheme" ∧ k ≠ "token" ∧ k ≠ "oauth" := by
  constructor
  · intro h k hk
    have hp : x.params = rest AuthInfo.known (flatten (ob x.fields) x.params) := by
      simp only [AuthInfo.enc, AuthInfo.dec] at h
      generalize hf : flatten (ob x.fields) x.params = f at h
      cases h1 : req AuthScheme.dec (.obj f) "scheme" 0 with
      | none => rw [h1] at h; cases h
      | some a =>
        cases h2 : opt decStr (.obj f) "token" 1 with
        | none => rw [h1, h2] at h; cases h
        | some b =>
          cases h3 : opt OAuthInfo.dec (.obj f) "oauth" 2 with
          | none => rw [h1, h2, h3] at h; cases h
          | some c =>
            rw [h1, h2, h3] at h
            have := congrArg AuthInfo.params (Option.some.inj h)
            exact this.symm
    rw [hp] at hk
    obtain ⟨p, hp, rfl⟩ := List.mem_map.mp hk
    have := (List.mem_filter.mp hp).2
    simpa [AuthInfo.known] using this
  · intro h
    have h4 : ∀ k ∈ x.params.map (·.1), k ∉ AuthInfo.known := by
      intro k hk hc
      have := h k hk
      simp only [AuthInfo.known, List.mem_cons, List.not_mem_nil, or_false] at hc
      rcases hc with rfl | rfl | rfl
      · exact this.1 rfl
      · exact this.2.1 rfl
      · exact this.2.2 rfl
    have hf : flatten (ob x.fields) x.params = ob x.fields ++ x.params :=
      flatten_eq _ _ hn (fun k hk hc => h4 k hk (x.keys k hc))
    have hr : rest AuthInfo.known (ob x.fields ++ x.params) = x.params := rest_eq _ _ _ x.keys h4
    have hget : ∀ k ∈ AuthInfo.known, AMap.get (ob x.fields ++ x.params) k = AMap.get (ob x.fields) k :=
      fun k hk => get_append_left _ _ k (fun hc => h4 k hc hk)
    have ho : optOf OAuthInfo.dec (x.oauth.map OAuthInfo.enc) = some x.oauth :=
      optOf_map _ _ _ (fun a _ => ⟨OAuthInfo.rt a, by simp [OAuthInfo.enc]⟩)
    simp only [AuthInfo.enc, hf, AuthInfo.dec, req_obj, opt_obj, hr]
    rw [hget "scheme" (by simp [AuthInfo.known]), hget "token" (by simp [AuthInfo.known]),
      hget "oauth" (by simp [AuthInfo.known])]
    simp [AuthInfo.fields, ho]

example := (C208_round_trip_partial
  { scheme := .oauth2, oauth := some { authUrl := "a", tokenUrl := "t", clientId := "c", scopes := some ["r", "w"],
                                       pkceMethod := some .s256 }
    params := [("realm", .str "x"), ("audience", .arr [])] } (by decide)).mpr (by decide)

/-- C208: what the constructors make survives its JSON form, with the same header and the same need for
authentication. -/
theorem C208_constructed (x : AuthInfo) (h : x = .noAuth ∨ (∃ t, x = .ofToken t) ∨ ∃ o, x = .ofOAuth o) :
    AuthInfo.dec x.enc = some x := by
  have hp : x.params = [] := by rcases h with rfl | ⟨_, rfl⟩ | ⟨_, rfl⟩ <;> rfl
  exact (C208_round_trip_partial x (by simp [hp])).mpr (by simp [hp])

example := C208_constructed (.ofToken "secret") (.inr (.inl ⟨_, rfl⟩))

/-- C208 fails: an additional parameter called `token` replaces the token when the information is written and read. -/
theorem C208_param_wins (x : AuthInfo) (t : String) (hp : x.params = [("token", .str t)]) :
    ∃ y, AuthInfo.dec x.enc = some y ∧ y.scheme = x.scheme ∧ y.token = some t ∧ y.oauth = x.oauth ∧ y.params = [] := by
  have ho : optOf OAuthInfo.dec (x.oauth.map OAuthInfo.enc) = some x.oauth :=
    optOf_map _ _ _ (fun a _ => ⟨OAuthInfo.rt a, by simp [OAuthInfo.enc]⟩)
  obtain ⟨s, tok, o, p⟩ := x
  simp only at hp ho
  subst hp
  refine ⟨⟨s, some t, o, []⟩, ?_, rfl, rfl, rfl, rfl⟩
  cases tok <;> cases o <;>
    simp_all [AuthInfo.enc, AuthInfo.dec, AuthInfo.fields, flatten, insertEntry, ob, rest, AuthInfo.known, AMap.get_cons,
      AMap.get, req, opt, optOf, decOpt, decStr]

/-- C208 fails: the scheme for OAuth 2.0 is called `oAuth2` in JSON; the name in any other spelling is refused. -/
theorem C208_oauth2_name (f : List (String × Json)) (n : String) (hs : AMap.get f "scheme" = some (.str n)) :
    (AuthInfo.dec (.obj f)).isSome = true → n = "none" ∨ n = "bearer" ∨ n = "oAuth2" := by
  intro h
  simp only [AuthInfo.dec, req_obj, hs, Option.bind_some, AuthScheme.dec] at h
  cases hu : AuthScheme.unitOf n with
  | none => simp [hu] at h
  | some a =>
    simp only [AuthScheme.unitOf] at hu
    split at hu
    · exact .inl ‹_›
    · split at hu
      · exact .inr (.inl ‹_›)
      · split at hu
        · exact .inr (.inr ‹_›)
        · cases hu

example : AuthInfo.dec (.obj [("scheme", .str "oauth2"), ("token", .str "t")]) = none := by
  cases h : AuthInfo.dec (.obj [("scheme", .str "oauth2"), ("token", .str "t")]) with
  | none => rfl
  | some x => exact absurd (C208_oauth2_name _ "oauth2" rfl (by rw [h]; rfl)) (by decide)

/-- C208, exactly: a header is offered for bearer tokens only, also where another scheme holds a token; and it consists of
the token after the word `Bearer`. -/
theorem C208_header (x : AuthInfo) (h : String) :
    x.header = some h ↔ x.scheme = .bearer ∧ ∃ t, x.token = some t ∧ h = "Bearer " ++ t := by
  obtain ⟨s, t, o, p⟩ := x
  cases s <;> cases t <;> simp [AuthInfo.header, eq_comm]

/-- C208: where a header is offered authentication is required, and no header is offered where it is not. -/
theorem C208_required (x : AuthInfo) : (x.isRequired = false ↔ x.scheme = .none) ∧
    (x.header.isSome = true → x.isRequired = true) := by
  obtain ⟨s, t, o, p⟩ := x
  cases s <;> cases t <;> simp [AuthInfo.header, AuthInfo.isRequired]

example : (AuthInfo.ofToken "abc").header = some "Bearer abc" := rfl

/-- C208: what the three constructors make. Authentication with a bearer token is required and its header is offered;
authentication by OAuth is required and no header is offered; without authentication nothing is required or offered. Each
survives its JSON form. -/
theorem C208_made (t : String) (o : OAuthInfo) :
    ((AuthInfo.ofToken t).isRequired = true ∧ (AuthInfo.ofToken t).header = some ("Bearer " ++ t)) ∧
    ((AuthInfo.ofOAuth o).isRequired = true ∧ (AuthInfo.ofOAuth o).header = none ∧ (AuthInfo.ofOAuth o).oauth = some o) ∧
    (AuthInfo.noAuth.isRequired = false ∧ AuthInfo.noAuth.header = none) ∧
    ∀ x ∈ [AuthInfo.ofToken t, AuthInfo.ofOAuth o, AuthInfo.noAuth], AuthInfo.dec x.enc = some x := by
  refine ⟨⟨rfl, rfl⟩, ⟨rfl, rfl, rfl⟩, ⟨rfl, rfl⟩, ?_⟩
  intro x hx
  simp only [List.mem_cons, List.not_mem_nil, or_false] at hx
  rcases hx with rfl | rfl | rfl <;>
    exact (C208_round_trip_partial _ (by simp [AuthInfo.ofToken, AuthInfo.ofOAuth, AuthInfo.noAuth])).mpr
      (by simp [AuthInfo.ofToken, AuthInfo.ofOAuth, AuthInfo.noAuth])

/-- C208: OAuth information given as an array is read by position, an absent value being `null`; arrays of any other length
are refused. -/
theorem C208_oauth_array (x : OAuthInfo) (l : List Json) :
    OAuthInfo.dec (.arr [.str x.authUrl, .str x.tokenUrl, .str x.clientId, (x.scopes.map (encList .str)).getD .null,
      (x.redirectUri.map .str).getD .null, (x.pkceMethod.map PkceMethod.enc).getD .null]) = some x ∧
    (l.length ≠ 6 → OAuthInfo.dec (.arr l) = none) := by
  constructor
  · have hs : decOpt (decList decStr) ((x.scopes.map (encList .str)).getD .null) = some x.scopes := by
      cases x.scopes with
      | none => rfl
      | some a =>
        have := decList_enc decStr Json.str a (fun _ _ => rfl)
        simp [decOpt, encList] at this ⊢
        simp [this]
    have hp : decOpt PkceMethod.dec ((x.pkceMethod.map PkceMethod.enc).getD .null) = some x.pkceMethod := by
      cases x.pkceMethod with
      | none => rfl
      | some a => cases a <;> rfl
    have hr : decOpt decStr ((x.redirectUri.map Json.str).getD .null) = some x.redirectUri := by
      cases x.redirectUri <;> rfl
    simp only [OAuthInfo.dec, src, List.length_cons, List.length_nil, req, opt]
    simp [hs, hp, hr, decStr]
  · intro hl
    by_cases h7 : l.length ≤ 6
    · have : l[5]? = none := by rw [List.getElem?_eq_none_iff]; omega
      simp only [OAuthInfo.dec, src, if_pos h7, opt]
      simp
      intros
      rw [this]; simp
    · simp [OAuthInfo.dec, src, h7]

end Verif.Wire
