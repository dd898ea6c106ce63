import Verif.OAuth.Clients
import Verif.OAuth.Props

/-
What the in-memory provider says about itself: C175.

Models `metadata` (/repo/src/server/auth/oauth2.rs L708-728).
-/

namespace Verif.OAuth

/-- `OidcDiscoveryMetadata` (/repo/src/server/auth/oauth2.rs L168-216); the endpoints that are optional are always
given by this provider. -/
structure Metadata where
  issuer : Text
  authorization : Text
  token : Text
  jwks : Text
  userinfo : Text
  registration : Text
  revocation : Text
  introspection : Text
  responseTypes : List Text
  grantTypes : List GrantType
  scopes : List Text
  authMethods : List Text
  challengeMethods : List Text
deriving DecidableEq

/-- `metadata` of the provider for a base url (/repo/src/server/auth/oauth2.rs L708-728). -/
def metadata (base : Text) : Metadata where
  issuer := base
  authorization := base ++ "/oauth2/authorize".toList
  token := base ++ "/oauth2/token".toList
  jwks := base ++ "/oauth2/jwks".toList
  userinfo := base ++ "/oauth2/userinfo".toList
  registration := base ++ "/oauth2/register".toList
  revocation := base ++ "/oauth2/revoke".toList
  introspection := base ++ "/oauth2/introspect".toList
  responseTypes := ["code".toList]
  grantTypes := [.authorizationCode, .refreshToken]
  scopes := supportedScopes
  authMethods := ["client_secret_basic".toList, "client_secret_post".toList]
  challengeMethods := [plain, s256]

/-! ### C175 -/

/-- C175: the seven endpoints of a provider are different addresses below its own. -/
theorem C175_endpoints (base : Text) :
    (metadata base).issuer = base ∧
    [(metadata base).authorization, (metadata base).token, (metadata base).jwks, (metadata base).userinfo,
      (metadata base).registration, (metadata base).revocation, (metadata base).introspection] =
      (["authorize", "token", "jwks", "userinfo", "register", "revoke", "introspect"].map
        (fun s => base ++ "/oauth2/".toList ++ s.toList)) ∧
    [(metadata base).authorization, (metadata base).token, (metadata base).jwks, (metadata base).userinfo,
      (metadata base).registration, (metadata base).revocation, (metadata base).introspection].Nodup := by
  refine ⟨rfl, ?_, ?_⟩
  · simp [metadata]
  · have key : ∀ l : List Text, l.Nodup → (l.map (base ++ ·)).Nodup := by
      intro l hl
      refine List.Pairwise.map _ ?_ hl
      intro a b hab h
      exact hab (List.append_cancel_left h)
    exact key ["/oauth2/authorize".toList, "/oauth2/token".toList, "/oauth2/jwks".toList, "/oauth2/userinfo".toList,
      "/oauth2/register".toList, "/oauth2/revoke".toList, "/oauth2/introspect".toList] (by decide)

/-- C175: the scopes advertised are exactly those an authorization request may name: of requests that are accepted
without scopes, those whose scopes are all advertised are accepted. -/
theorem C175_scopes (base : Text) (h : List (Client × Text)) (r : AuthRequest)
    (hr : validateAuthorization (registered h) { r with scopes := [] } = true) :
    validateAuthorization (registered h) r = true ↔ ∀ x ∈ r.scopes, x ∈ (metadata base).scopes := by
  unfold validateAuthorization at hr ⊢
  cases hc : AMap.get (registered h) r.client with
  | none => simp [hc] at hr
  | some c =>
    simp only [hc, List.all_nil, Bool.and_true] at hr
    simp only [hc, hr, Bool.true_and, List.all_eq_true, List.contains_iff_mem]
    rfl

/-- C175: the challenge methods advertised are exactly those with which some verifier passes. -/
theorem C175_challenges (base : Text) (sha : Text → Text) (m : Text) :
    m ∈ (metadata base).challengeMethods ↔ ∃ verifier challenge, verifyPkce sha verifier challenge m = true := by
  constructor
  · intro h
    simp only [metadata, List.mem_cons, List.not_mem_nil, or_false] at h
    rcases h with rfl | rfl
    · exact ⟨[], [], by simp [verifyPkce]⟩
    · exact ⟨[], sha [], by
        unfold verifyPkce
        rw [if_neg (by decide), if_pos rfl]
        simp⟩
  · rintro ⟨v, c, h⟩
    unfold verifyPkce at h
    simp only [metadata, List.mem_cons, List.not_mem_nil, or_false]
    split at h
    · exact Or.inl ‹_›
    · split at h
      · exact Or.inr ‹_›
      · cases h

/-- C175: a code is exchanged only by a grant type that is advertised. -/
theorem C175_grants (base : Text) (sha : Text → Text) (s : State) (r : TokenRequest) (now : Nat)
    (h : (exchange sha s r now).2 = true) : r.grantType ∈ (metadata base).grantTypes := by
  unfold exchange at h
  split at h
  · cases h
  · simp_all [metadata]

/-- C175, exactly: a response type is accepted from some request of a client if and only if the client was registered
with it and with a redirect address: the provider does not compare it with those it advertises. -/
theorem C175_response_types_partial (h : List (Client × Text)) (id rt : Text) :
    (∃ r : AuthRequest, r.client = id ∧ r.responseType = rt ∧ validateAuthorization (registered h) r = true) ↔
      ∃ c, AMap.get (registered h) id = some c ∧ rt ∈ c.responseTypes ∧ c.redirects ≠ [] := by
  constructor
  · rintro ⟨r, rfl, rfl, hv⟩
    unfold validateAuthorization at hv
    cases hc : AMap.get (registered h) r.client with
    | none => simp [hc] at hv
    | some c =>
      simp only [hc, Bool.and_eq_true, List.contains_iff_mem] at hv
      refine ⟨c, rfl, hv.1.2, fun he => ?_⟩
      rw [he] at hv
      exact absurd hv.1.1 (by simp)
  · rintro ⟨c, hc, hrt, hne⟩
    obtain ⟨u, us, hu⟩ := List.exists_cons_of_ne_nil hne
    refine ⟨⟨id, u, rt, []⟩, rfl, rfl, ?_⟩
    simp [validateAuthorization, hc, hu, hrt]

/-- C175 fails: the implicit flow is not advertised, but accepted for a client that asked for it. -/
theorem C175_implicit (base : Text) : ∃ (c : Client) (r : AuthRequest),
    r.responseType ∉ (metadata base).responseTypes ∧ validateAuthorization (registered [(c, [])]) r = true := by
  refine ⟨⟨"c".toList, ["u".toList], ["token".toList], []⟩, ⟨"c".toList, "u".toList, "token".toList, []⟩, ?_, ?_⟩
  · simp [metadata]
  · decide

/-- C175 fails: only methods with a secret are advertised, but a code is exchanged without one. -/
theorem C175_no_secret (base : Text) : (∀ m ∈ (metadata base).authMethods, "client_secret_".toList <+: m) ∧
    ∃ s, run id {} [codeK] = some s ∧ reqA.secret = none ∧ (exchange id s reqA 200).2 = true := by
  refine ⟨?_, _, rfl, rfl, ?_⟩
  · simp only [metadata]
    decide
  · decide

/-- `C175_scopes`: a request that is accepted without scopes. -/
example : validateAuthorization (registered [(clientA, [])]) { authReq with scopes := [] } = true ∧
    validateAuthorization (registered [(clientA, [])]) { authReq with scopes := ["admin".toList] } = false := by decide +kernel

/-- `C175_grants`: its hypothesis is met in `C175_no_secret`. -/
example : (run id {} [codeK]).map (fun s => (exchange id s reqA 200).2) = some true := by decide

/-- `C175_response_types_partial`: a client with the code flow. -/
example : ∃ c, AMap.get (registered [(clientA, [])]) clientA.id = some c ∧ "code".toList ∈ c.responseTypes ∧ c.redirects ≠ [] :=
  ⟨clientA, by decide +kernel, by decide, by decide⟩

/-- C175: the code flow is offered, and the two ways of RFC 6749 for a client to present its secret. -/
theorem C175_offered (base m : Text) :
    (m ∈ (metadata base).responseTypes ↔ m = "code".toList) ∧
    (m ∈ (metadata base).authMethods ↔ m = "client_secret_basic".toList ∨ m = "client_secret_post".toList) := by
  simp [metadata]

example : "client_secret_post".toList ∈ (metadata "https://a".toList).authMethods := by
  simp [metadata]

end Verif.OAuth
