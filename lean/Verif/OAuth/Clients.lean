import Verif.OAuth.Model
import Verif.Common.ListExtra

/-
Client registration and the check of authorization requests: C93.

Models /repo/src/server/auth/oauth2.rs L447-500 (`register_client`, `get_client`, `validate_authorization`).
-/

namespace Verif.OAuth

/-- `OAuthClient` (oauth2.rs L48-75): the parts the provider reads. An empty id is replaced by a generated
one. -/
structure Client where
  id : Text
  redirects : List Text
  responseTypes : List Text
  scopes : List Text
  deriving Repr, DecidableEq

/-- `AuthorizationRequest` (oauth2.rs L220-247): the parts that are checked; `scopes` is the result of
`request.scope.split_whitespace()` (L490). -/
structure AuthRequest where
  client : Text
  redirect : Text
  responseType : Text
  scopes : List Text
  deriving Repr, DecidableEq

/-- `supported_scopes` (oauth2.rs L409). -/
def supportedScopes : List Text := ["read".toList, "write".toList]

/-- `register_client` (oauth2.rs L447-461): `fresh` is the generated id. Secrets are not modelled; nothing
reads them. -/
def register (m : AMap Text Client) (c : Client) (fresh : Text) : AMap Text Client × Client :=
  let c' := if c.id.isEmpty then { c with id := fresh } else c
  (AMap.insert m c'.id c', c')

/-- `validate_authorization` (oauth2.rs L468-500): whether it returns `Ok`. -/
def validateAuthorization (m : AMap Text Client) (r : AuthRequest) : Bool :=
  match AMap.get m r.client with
  | none => false
  | some c => c.redirects.contains r.redirect && c.responseTypes.contains r.responseType &&
      r.scopes.all (fun x => supportedScopes.contains x)

/-- The client map after a history of registrations `(client, generated id)`.
(Specification: no counterpart in the code.) -/
def registered (h : List (Client × Text)) : AMap Text Client :=
  h.foldl (fun m x => (register m x.1 x.2).1) []

/-- The id under which a registration is stored. (Specification: no counterpart in the code.) -/
def effectiveId (x : Client × Text) : Text := if x.1.id.isEmpty then x.2 else x.1.id

theorem registered_snoc (h : List (Client × Text)) (x : Client × Text) :
    registered (h ++ [x]) = AMap.insert (registered h) (effectiveId x) { x.1 with id := effectiveId x } := by
  unfold registered
  rw [List.foldl_append]
  simp only [List.foldl_cons, List.foldl_nil, register, effectiveId]
  by_cases he : x.1.id.isEmpty <;> simp [he]

/-- The client map holds, for each id, the last registration with it. -/
theorem registered_get (h : List (Client × Text)) (id : Text) (c : Client) :
    AMap.get (registered h) id = some c ↔
      ∃ before x after, h = before ++ x :: after ∧ effectiveId x = id ∧ c = { x.1 with id := id } ∧
        ∀ y ∈ after, effectiveId y ≠ id := by
  induction h using Verif.snocInduction with
  | nil => simp [registered]
  | append_singleton h x ih =>
    rw [registered_snoc, AMap.get_insert]
    by_cases hx : id = effectiveId x
    · rw [if_pos hx, Option.some.injEq]
      constructor
      · rintro rfl
        exact ⟨h, x, [], rfl, hx.symm, by rw [hx], by simp⟩
      · rintro ⟨b, y, a, heq, hy, rfl, hn⟩
        cases a using Verif.snocInduction with
        | nil =>
          have := List.append_inj' heq rfl
          simp only [List.cons.injEq, and_true] at this
          rw [← this.2, hx]
        | append_singleton a' z _ =>
          have h2 : h ++ [x] = (b ++ y :: a') ++ [z] := by simpa using heq
          have := List.append_inj' h2 rfl
          simp only [List.cons.injEq, and_true] at this
          exact absurd (this.2 ▸ hx.symm) (hn z (by simp))
    · rw [if_neg hx, ih]
      constructor
      · rintro ⟨b, y, a, rfl, hy, hc, hn⟩
        refine ⟨b, y, a ++ [x], by simp, hy, hc, ?_⟩
        intro z hz
        simp only [List.mem_append, List.mem_singleton] at hz
        rcases hz with hz | rfl
        · exact hn z hz
        · exact fun e => hx e.symm
      · rintro ⟨b, y, a, heq, hy, hc, hn⟩
        cases a using Verif.snocInduction with
        | nil =>
          have := List.append_inj' heq rfl
          simp only [List.cons.injEq, and_true] at this
          exact absurd (this.2 ▸ hy).symm hx
        | append_singleton a' z _ =>
          have h2 : h ++ [x] = (b ++ y :: a') ++ [z] := by simpa using heq
          have := List.append_inj' h2 rfl
          exact ⟨b, y, a', this.1, hy, hc, fun w hw => hn w (by simp [hw])⟩

/-- C93: over every history of registrations, an authorization request is accepted iff the last registration
with its client id has its redirect uri and response type and every requested scope is `read` or `write`.

Partial: the scopes of the registration are not consulted (`C93_client_scopes_ignored`), and a registration
may replace that of another client (`C93_registration_overwritten`). -/
theorem C93_authorization_checked_partial (h : List (Client × Text)) (r : AuthRequest) :
    validateAuthorization (registered h) r = true ↔
      ∃ before x after, h = before ++ x :: after ∧ effectiveId x = r.client ∧
        (∀ y ∈ after, effectiveId y ≠ r.client) ∧ r.redirect ∈ x.1.redirects ∧
        r.responseType ∈ x.1.responseTypes ∧ ∀ sc ∈ r.scopes, sc = "read".toList ∨ sc = "write".toList := by
  have hs : r.scopes.all (fun x => supportedScopes.contains x) = true ↔
      ∀ sc ∈ r.scopes, sc = "read".toList ∨ sc = "write".toList := by
    simp [supportedScopes]
  unfold validateAuthorization
  cases hk : AMap.get (registered h) r.client with
  | none =>
    simp only [Bool.false_eq_true, false_iff, not_exists, not_and]
    intro b x a he hid hn
    have := (registered_get h r.client { x.1 with id := r.client }).mpr ⟨b, x, a, he, hid, rfl, hn⟩
    rw [hk] at this; cases this
  | some c =>
    simp only [Bool.and_eq_true, List.contains_iff_mem, hs]
    obtain ⟨b, x, a, he, hid, hc, hn⟩ := (registered_get h r.client c).mp hk
    constructor
    · rintro ⟨⟨h1, h2⟩, h3⟩
      rw [hc] at h1 h2
      exact ⟨b, x, a, he, hid, hn, h1, h2, h3⟩
    · rintro ⟨b', x', a', he', hid', hn', h1, h2, h3⟩
      have := (registered_get h r.client { x'.1 with id := r.client }).mpr ⟨b', x', a', he', hid', rfl, hn'⟩
      rw [hk] at this
      simp only [Option.some.injEq] at this
      subst this
      exact ⟨⟨h1, h2⟩, h3⟩

/-- (Specification: no counterpart in the code.) -/
def clientA : Client := ⟨"app".toList, ["https://a/cb".toList], ["code".toList], ["read".toList]⟩
/-- (Specification: no counterpart in the code.) -/
def clientEvil : Client := ⟨"app".toList, ["https://evil/cb".toList], ["code".toList], []⟩
/-- (Specification: no counterpart in the code.) -/
def authReq : AuthRequest := ⟨"app".toList, "https://a/cb".toList, "code".toList, ["write".toList]⟩

example : validateAuthorization (registered [(clientA, [])]) { authReq with scopes := ["read".toList] } = true ∧
    validateAuthorization (registered [(clientA, [])]) { authReq with redirect := "https://a/cb2".toList } = false ∧
    validateAuthorization (registered [(clientA, [])]) { authReq with scopes := ["admin".toList] } = false := by
  decide +kernel

/-- Finding: a client registered for `read` only may request `write`. -/
theorem C93_client_scopes_ignored :
    clientA.scopes = ["read".toList] ∧ authReq.scopes = ["write".toList] ∧
      validateAuthorization (registered [(clientA, [])]) authReq = true := by decide +kernel

/-- Finding: `register_client` with the id of an existing client silently replaces its redirect uris. -/
theorem C93_registration_overwritten :
    validateAuthorization (registered [(clientA, []), (clientEvil, [])])
      { authReq with redirect := "https://evil/cb".toList } = true ∧
    validateAuthorization (registered [(clientA, []), (clientEvil, [])]) authReq = false := by decide +kernel

end Verif.OAuth
