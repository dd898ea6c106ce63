import Verif.AuthMw.Model
import Verif.OAuth.Props

/-
Properties of the authentication middleware: C46, C47, C94, C95.
-/

namespace Verif.AuthMw

/-! ### C46: scopes -/

theorem hasScope_iff (c : Ctx) (s : Text) : hasScope c s = true ↔ s ∈ c.scopes := by
  simp [hasScope, List.any_eq_true]

theorem auth_scope (inner : Mw) (scopes : List Text) (all : Bool) (i : Option Info) (c : Ctx) :
    auth (.scope inner scopes all) i = .ok c ↔ auth inner i = .ok c ∧
      (if all then ∀ s ∈ scopes, s ∈ c.scopes else ∃ s ∈ scopes, s ∈ c.scopes) := by
  simp only [auth]
  cases auth inner i with
  | error e => simp
  | ok c' =>
    simp only
    cases all with
    | true =>
      simp only [if_true, hasAll]
      split
      · next h =>
        simp only [List.all_eq_true, hasScope_iff] at h
        constructor
        · intro e; cases e; exact ⟨rfl, h⟩
        · rintro ⟨e, _⟩; exact e
      · next h =>
        simp only [List.all_eq_true, hasScope_iff] at h
        constructor
        · intro e; cases e
        · rintro ⟨e, h'⟩; cases e; exact absurd h' h
    | false =>
      simp only [Bool.false_eq_true, if_false, hasAny]
      split
      · next h =>
        simp only [List.any_eq_true, hasScope_iff] at h
        constructor
        · intro e; cases e; exact ⟨rfl, h⟩
        · rintro ⟨e, _⟩; exact e
      · next h =>
        simp only [List.any_eq_true, hasScope_iff] at h
        constructor
        · intro e; cases e
        · rintro ⟨e, h'⟩; cases e; exact absurd h' h

/-- C46: the scope middleware around any middleware accepts iff that middleware accepts with a context having
all (`all`) or one (`any`) of the required scopes, and passes the context on unchanged. -/
theorem C46_scope_middleware (inner : Mw) (scopes : List Text) (i : Option Info) (c : Ctx) :
    (auth (.scope inner scopes true) i = .ok c ↔ auth inner i = .ok c ∧ ∀ s ∈ scopes, s ∈ c.scopes) ∧
      (auth (.scope inner scopes false) i = .ok c ↔ auth inner i = .ok c ∧ ∃ s ∈ scopes, s ∈ c.scopes) := by
  constructor
  · simpa using auth_scope inner scopes true i c
  · simpa using auth_scope inner scopes false i c

/-- C46: a required bearer middleware under a scope check accepts a request iff it carries a bearer token
that the provider accepts with the required scopes. -/
theorem C46_bearer_with_scopes (v : Text → Option OAuth.Grant) (scopes : List Text) (i : Option Info) (c : Ctx) :
    auth (.scope (.bearer v true) scopes true) i = .ok c ↔
      ∃ inf t g, i = some inf ∧ inf.scheme = .bearer ∧ inf.token = some t ∧ v t = some g ∧
        c = ⟨g.client, g.user, g.scopes⟩ ∧ ∀ s ∈ scopes, s ∈ g.scopes := by
  rw [(C46_scope_middleware ..).1]
  simp only [auth]
  cases i with
  | none => simp [bearerAuth]
  | some inf =>
    simp only [bearerAuth, Option.some.injEq, exists_and_left, exists_eq_left']
    by_cases hs : inf.scheme = .bearer
    · simp only [hs, ne_eq, not_true_eq_false, if_false, true_and]
      cases ht : inf.token with
      | none => simp
      | some t =>
        simp only [Option.some.injEq, exists_eq_left']
        cases hv : v t with
        | none => simp
        | some g =>
          simp only [Except.ok.injEq, Option.some.injEq, exists_eq_left']
          constructor
          · rintro ⟨rfl, h⟩; exact ⟨rfl, h⟩
          · rintro ⟨rfl, h⟩; exact ⟨rfl, h⟩
    · simp [hs]

/-- (Specification: no counterpart in the code.) -/
def vA : Text → Option OAuth.Grant := fun t => if t = "t".toList then some OAuth.grantA else none
/-- (Specification: no counterpart in the code.) -/
def withToken (t : Text) : Option Info := some { scheme := .bearer, token := some t }

example : auth (.scope (.bearer vA true) ["read".toList] true) (withToken "t".toList) =
      .ok ⟨"c".toList, "u".toList, ["read".toList]⟩ ∧
    auth (.scope (.bearer vA true) ["read".toList, "write".toList] true) (withToken "t".toList) =
      .error .insufficientScopes ∧
    auth (.scope (.bearer vA true) ["read".toList, "write".toList] false) (withToken "t".toList) =
      .ok ⟨"c".toList, "u".toList, ["read".toList]⟩ := by decide +kernel

/-! ### C47: composites -/

theorem authEach_ok (ms : List Mw) (i : Option Info) (last : Option Err) (c : Ctx) :
    authEach ms i last = .ok c ↔
      ∃ before m after, ms = before ++ m :: after ∧ auth m i = .ok c ∧ ∀ x ∈ before, ∃ e, auth x i = .error e := by
  induction ms generalizing last with
  | nil => simp [authEach]
  | cons m ms ih =>
    simp only [authEach]
    cases hm : auth m i with
    | ok c' =>
      simp only [Except.ok.injEq]
      constructor
      · rintro rfl; exact ⟨[], m, ms, rfl, hm, by simp⟩
      · rintro ⟨b, x, a, he, hx, hb⟩
        cases b with
        | nil =>
          simp only [List.nil_append, List.cons.injEq] at he
          rw [← he.1, hm] at hx; cases hx; rfl
        | cons y b =>
          simp only [List.cons_append, List.cons.injEq] at he
          obtain ⟨e, h⟩ := hb y (by simp)
          rw [← he.1, hm] at h; cases h
    | error e =>
      simp only
      rw [ih]
      constructor
      · rintro ⟨b, x, a, rfl, hx, hb⟩
        refine ⟨m :: b, x, a, rfl, hx, ?_⟩
        intro y hy
        rcases List.mem_cons.mp hy with rfl | hy
        · exact ⟨e, hm⟩
        · exact hb y hy
      · rintro ⟨b, x, a, he, hx, hb⟩
        cases b with
        | nil =>
          simp only [List.nil_append, List.cons.injEq] at he
          rw [← he.1, hm] at hx; cases hx
        | cons y b =>
          simp only [List.cons_append, List.cons.injEq] at he
          exact ⟨b, x, a, he.2, hx, fun z hz => hb z (by simp [hz])⟩

theorem authEach_error (ms : List Mw) (i : Option Info) (last : Option Err) (r : Option Err) :
    authEach ms i last = .error r ↔ (∀ m ∈ ms, ∃ e, auth m i = .error e) ∧
      r = (match ms.getLast? with
        | none => last
        | some m => match auth m i with
          | .error e => some e
          | .ok _ => none) := by
  induction ms generalizing last with
  | nil => simp [authEach, eq_comm]
  | cons m ms ih =>
    simp only [authEach]
    cases hm : auth m i with
    | ok c =>
      simp only [reduceCtorEq, false_iff, not_and]
      intro h
      obtain ⟨e, he⟩ := h m (by simp)
      rw [hm] at he; cases he
    | error e =>
      simp only
      rw [ih]
      have hlast : (match (m :: ms).getLast? with
          | none => last
          | some m => match auth m i with
            | .error e => some e
            | .ok _ => none) = (match ms.getLast? with
          | none => some e
          | some m => match auth m i with
            | .error e => some e
            | .ok _ => none) := by
        rw [List.getLast?_cons]
        cases hl : ms.getLast? with
        | none => simp [hm]
        | some x => simp
      rw [hlast]
      simp [hm]

/-- C47: a composite answers with the context of the first member that accepts; if none accepts, it refuses
with the error of the last member, or accepts the request as anonymous if `require_any` is off. -/
theorem C47_composite (ms : List Mw) (requireAny : Bool) (i : Option Info) :
    (∀ before m after c, ms = before ++ m :: after → (∀ x ∈ before, ∃ e, auth x i = .error e) →
        auth m i = .ok c → auth (.composite ms requireAny) i = .ok c) ∧
      (∀ before m e, ms = before ++ [m] → (∀ x ∈ before, ∃ e', auth x i = .error e') → auth m i = .error e →
        auth (.composite ms requireAny) i = if requireAny then .error e else
          .ok ⟨"anonymous".toList, "anonymous".toList, []⟩) ∧
      (ms = [] → auth (.composite ms requireAny) i = if requireAny then .error .failed else
        .ok ⟨"anonymous".toList, "anonymous".toList, []⟩) := by
  rw [show (⟨"anonymous".toList, "anonymous".toList, []⟩ : Ctx) = anonymous from rfl]
  refine ⟨?_, ?_, ?_⟩
  · intro b m a c he hb hm
    simp only [auth]
    rw [(authEach_ok ms i none c).mpr ⟨b, m, a, he, hm, hb⟩]
  · intro b m e he hb hm
    simp only [auth]
    rw [(authEach_error ms i none (some e)).mpr ⟨?_, ?_⟩]
    · simp
    · intro x hx
      rw [he] at hx
      simp only [List.mem_append, List.mem_singleton] at hx
      rcases hx with hx | rfl
      · exact hb x hx
      · exact ⟨e, hm⟩
    · rw [he]; simp [hm]
  · rintro rfl; simp [auth, authEach]

/-- C47: with `require_any`, a composite accepts iff one of its members does. -/
theorem C47_required_composite (ms : List Mw) (i : Option Info) :
    (∃ c, auth (.composite ms true) i = .ok c) ↔ ∃ m ∈ ms, ∃ c, auth m i = .ok c := by
  simp only [auth]
  cases h : authEach ms i none with
  | ok c =>
    obtain ⟨b, m, a, he, hm, _⟩ := (authEach_ok ms i none c).mp h
    simp only [Except.ok.injEq, exists_eq', true_iff]
    exact ⟨m, by rw [he]; simp, c, hm⟩
  | error r =>
    obtain ⟨hall, _⟩ := (authEach_error ms i none r).mp h
    simp only [if_true, reduceCtorEq, exists_false, false_iff, not_exists, not_and]
    intro m hm c hc
    obtain ⟨e, he⟩ := hall m hm
    rw [hc] at he; cases he

/-- (Specification: no counterpart in the code.) -/
def gA : Text → Option (Option Client) := fun id =>
  if id = "app".toList then some (some ⟨"app".toList, some "s3".toList, ["admin".toList]⟩) else some none

example : auth (.composite [.bearer vA true, .credentials gA] true)
      (some { scheme := .oauth2, clientId := some "app".toList, secret := some "s3".toList }) =
      .ok ⟨"app".toList, "app".toList, ["admin".toList]⟩ ∧
    auth (.composite [.bearer vA true, .credentials gA] true)
      (some { scheme := .oauth2, clientId := some "app".toList, secret := some "x".toList }) =
      .error .badCredentials := by decide +kernel

/-- Finding: with `require_any` off, a request with an invalid token is accepted as anonymous. -/
theorem C47_invalid_token_anonymous :
    auth (.composite [.bearer vA true] false) (withToken "forged".toList) = .ok anonymous := by decide +kernel

/-! ### C94: only valid credentials -/

/-- The request carries a credential that one of the leaves accepts, and the context is the one of that
credential. (Specification: no counterpart in the code.) -/
inductive Credential : Mw → Option Info → Ctx → Prop
  | bearer (v : Text → Option OAuth.Grant) (r : Bool) (inf : Info) (t : Text) (g : OAuth.Grant)
      (h1 : inf.scheme = .bearer) (h2 : inf.token = some t) (h3 : v t = some g) :
      Credential (.bearer v r) (some inf) ⟨g.client, g.user, g.scopes⟩
  | credentials (gc : Text → Option (Option Client)) (inf : Info) (id sec : Text) (c : Client)
      (h1 : inf.clientId = some id) (h2 : inf.secret = some sec) (h3 : gc id = some (some c))
      (h4 : c.secret = some sec) : Credential (.credentials gc) (some inf) ⟨c.id, c.id, c.scopes⟩
  | scope (inner : Mw) (ss : List Text) (all : Bool) (i : Option Info) (c : Ctx) (h : Credential inner i c) :
      Credential (.scope inner ss all) i c
  | composite (ms : List Mw) (ra : Bool) (m : Mw) (hm : m ∈ ms) (i : Option Info) (c : Ctx) (h : Credential m i c) :
      Credential (.composite ms ra) i c

mutual
/-- Every bearer leaf and every composite of the tree is required. (Specification: no counterpart in the code.) -/
def strict : Mw → Bool
  | .bearer _ r => r
  | .credentials _ => true
  | .scope inner _ _ => strict inner
  | .composite ms requireAny => requireAny && strictAll ms
/-- (Specification: no counterpart in the code.) -/
def strictAll : List Mw → Bool
  | [] => true
  | m :: ms => strict m && strictAll ms
end

theorem strictAll_iff (ms : List Mw) : strictAll ms = true ↔ ∀ m ∈ ms, strict m = true := by
  induction ms with
  | nil => simp [strictAll]
  | cons m ms ih => simp [strictAll, ih]

/-- Accepting needs a credential or an optional part of the tree. -/
theorem auth_sound : (m : Mw) → (i : Option Info) → (c : Ctx) → auth m i = .ok c →
    Credential m i c ∨ (c = anonymous ∧ strict m = false)
  | .bearer v r, i, c, h => by
    simp only [auth] at h
    cases i with
    | none =>
      simp only [bearerAuth] at h
      split at h
      · cases h
      · next hr => cases h; exact .inr ⟨rfl, by simp [strict, hr]⟩
    | some inf =>
      simp only [bearerAuth] at h
      split at h
      · cases h
      · next hs =>
        split at h
        · cases h
        · next t ht =>
          split at h
          · cases h
          · next g hv =>
            cases h
            exact .inl (.bearer v r inf t g (by simpa using hs) ht hv)
  | .credentials gc, i, c, h => by
    simp only [auth] at h
    cases i with
    | none => simp [credentialsAuth] at h
    | some inf =>
      simp only [credentialsAuth] at h
      split at h
      · cases h
      · next id hid =>
        split at h
        · cases h
        · next sec hsec =>
          split at h
          · cases h
          · cases h
          · next cl hcl =>
            split at h
            · cases h
            · next hse =>
              cases h
              exact .inl (.credentials gc inf id sec cl hid hsec hcl (by simpa using hse))
  | .scope inner ss all, i, c, h => by
    have h1 := ((auth_scope inner ss all i c).mp h).1
    rcases auth_sound inner i c h1 with hc | ⟨hc, hs⟩
    · exact .inl (.scope inner ss all i c hc)
    · exact .inr ⟨hc, by simpa [strict] using hs⟩
  | .composite ms ra, i, c, h => by
    simp only [auth] at h
    have hmem : ∀ m ∈ ms, auth m i = .ok c → Credential m i c ∨ (c = anonymous ∧ strict m = false) :=
      fun m hm => auth_sound m i c
    split at h
    · next c' hc' =>
      cases h
      obtain ⟨b, m, a, he, hm, _⟩ := (authEach_ok ms i none c).mp hc'
      have hin : m ∈ ms := by rw [he]; simp
      rcases hmem m hin hm with hcr | ⟨hc, hs⟩
      · exact .inl (.composite ms ra m hin i c hcr)
      · refine .inr ⟨hc, ?_⟩
        simp only [strict, Bool.and_eq_false_iff]
        refine .inr ?_
        cases hsa : strictAll ms with
        | false => rfl
        | true => rw [(strictAll_iff ms).mp hsa m hin] at hs; cases hs
    · next last hl =>
      split at h
      · cases h
      · next hra => cases h; exact .inr ⟨rfl, by simp [strict, hra]⟩
termination_by m => sizeOf m
decreasing_by
  · simp_wf
    omega
  · simp_wf
    have := List.sizeOf_lt_of_mem hm
    omega

/-- C94: whatever tree of middlewares is configured, a request is accepted with a non-anonymous identity only
if it carries a bearer token or client credentials that a leaf's provider accepts, and then with exactly the
identity and scopes of that credential. -/
theorem C94_identity_has_credential (m : Mw) (i : Option Info) (c : Ctx) (h : auth m i = .ok c) (hc : c ≠ anonymous) :
    Credential m i c := by
  rcases auth_sound m i c h with h | ⟨h, _⟩
  · exact h
  · exact absurd h hc

/-- C94: if every bearer middleware and every composite in the tree is required, every accepted request
carries a valid credential. -/
theorem C94_strict_tree (m : Mw) (hs : strict m = true) (i : Option Info) (c : Ctx) (h : auth m i = .ok c) :
    Credential m i c ∧ i ≠ none := by
  rcases auth_sound m i c h with h | ⟨_, h⟩
  · refine ⟨h, ?_⟩
    clear hs
    rename_i h0
    clear h0
    induction h with
    | bearer => simp
    | credentials => simp
    | scope _ _ _ _ _ _ ih => exact ih
    | composite _ _ _ _ _ _ _ ih => exact ih
  · rw [hs] at h; cases h

example : strict (.composite [.scope (.bearer vA true) ["read".toList] true, .credentials gA] true) = true ∧
    auth (.composite [.scope (.bearer vA true) ["read".toList] true, .credentials gA] true) (withToken "t".toList) =
      .ok ⟨"c".toList, "u".toList, ["read".toList]⟩ := by decide +kernel

/-- C94, end to end: over every history of the in-memory provider with distinct generated tokens, the required
bearer middleware accepts a request iff it carries, under the bearer scheme, an access token that was issued,
not invalidated since, and not older than an hour; the context is that of the grant. -/
theorem C94_bearer_over_provider (sha : Text → Text) (h : List OAuth.Op) (s : OAuth.State)
    (hr : OAuth.run sha {} h = some s) (hna : (h.filterMap OAuth.accessOf).Nodup)
    (hnr : (h.filterMap OAuth.refreshOf).Nodup) (now : Nat) (i : Option Info) (c : Ctx) :
    auth (.bearer (fun t => OAuth.validate s t now) true) i = .ok c ↔
      ∃ inf t rt g issued, i = some inf ∧ inf.scheme = .bearer ∧ inf.token = some t ∧ OAuth.Live h t rt g issued ∧
        now ≤ issued + OAuth.tokenTtl ∧ c = ⟨g.client, g.user, g.scopes⟩ := by
  constructor
  · intro ha
    have := (C94_strict_tree _ rfl i c ha).1
    cases this with
    | bearer _ _ inf t g h1 h2 h3 =>
      obtain ⟨rt, issued, hl, hle⟩ := (OAuth.C44_validate_iff sha h s hr hna hnr t now g).mp h3
      exact ⟨inf, t, rt, g, issued, rfl, h1, h2, hl, hle, rfl⟩
  · rintro ⟨inf, t, rt, g, issued, rfl, h1, h2, hl, hle, rfl⟩
    have := (OAuth.C44_validate_iff sha h s hr hna hnr t now g).mpr ⟨rt, issued, hl, hle⟩
    simp [auth, bearerAuth, h1, h2, this]

example : (OAuth.run id {} OAuth.hIssue).map
      (fun s => (auth (.bearer (fun t => OAuth.validate s t 100) true) (withToken "t".toList)).toOption) =
    some (some ⟨"c".toList, "u".toList, ["read".toList]⟩) := by decide +kernel

/-! ### C95: `is_required` -/

/-- C95: if every bearer middleware and every composite in the tree is required, requests without
authentication are refused; a bearer middleware alone refuses them iff it says it is required; client credentials are always
required and say so.

Partial: in general `is_required` says nothing about such requests (`C95_required_but_anonymous`,
`C95_optional_but_refused`). -/
theorem C95_required_refuses_partial (m : Mw) :
    (strict m = true → ∃ e, auth m none = .error e) ∧
      (∀ v r, (∃ e, auth (.bearer v r) none = .error e) ↔ isRequired (.bearer v r) = true) ∧
      (∀ g, (∃ e, auth (.credentials g) none = .error e) ∧ isRequired (.credentials g) = true) := by
  refine ⟨?_, ?_, fun g => ⟨⟨_, rfl⟩, rfl⟩⟩
  · intro hs
    cases h : auth m none with
    | error e => exact ⟨e, rfl⟩
    | ok c => exact absurd rfl (C94_strict_tree m hs none c h).2
  · intro v r
    cases r <;> simp [auth, bearerAuth, isRequired]

example : strict (.scope (.credentials gA) [] true) = true ∧
    auth (.scope (.credentials gA) [] true) none = .error .required := by decide +kernel

/-- Finding: a composite with a required member says authentication is required, but accepts requests without
any authentication if another member is optional. -/
theorem C95_required_but_anonymous :
    isRequired (.composite [.bearer vA true, .bearer vA false] true) = true ∧
      auth (.composite [.bearer vA true, .bearer vA false] true) none = .ok anonymous := by decide +kernel

/-- Finding: a scope check around an optional middleware says authentication is not required, but refuses
requests without it; so does an empty composite. -/
theorem C95_optional_but_refused :
    isRequired (.scope (.bearer vA false) ["read".toList] true) = false ∧
      auth (.scope (.bearer vA false) ["read".toList] true) none = .error .insufficientScopes ∧
      isRequired (.composite [] true) = false ∧ auth (.composite [] true) none = .error .failed := by
  decide +kernel

mutual
/-- The tree lets requests without authentication pass: an optional bearer leaf; a scope check of all of no scopes around
such a tree; a composite that is not required or has such a member. (Specification: no counterpart in the code.) -/
def lenient : Mw → Bool
  | .bearer _ r => !r
  | .credentials _ => false
  | .scope inner ss all => lenient inner && all && ss.isEmpty
  | .composite ms requireAny => !requireAny || anyLenient ms
/-- (Specification: no counterpart in the code.) -/
def anyLenient : List Mw → Bool
  | [] => false
  | m :: ms => lenient m || anyLenient ms
end

mutual
theorem auth_none (m : Mw) :
    (∃ e, auth m none = .error e ∧ lenient m = false) ∨ (auth m none = .ok anonymous ∧ lenient m = true) := by
  cases m with
  | bearer v r => cases r <;> simp [auth, bearerAuth, lenient]
  | credentials g => simp [auth, credentialsAuth, lenient]
  | scope inner ss all =>
    simp only [auth, lenient]
    rcases auth_none inner with ⟨e, h1, h2⟩ | ⟨h1, h2⟩
    · rw [h1, h2]; simp
    · rw [h1, h2]
      have hn : anonymous.scopes = [] := rfl
      generalize anonymous = a at hn
      cases ss with
      | nil => cases all <;> simp [hasAll, hasAny]
      | cons x ss => cases all <;> simp [hasAll, hasAny, hasScope, hn]
  | composite ms ra =>
    simp only [auth, lenient]
    rcases authEach_none ms none with ⟨e, h1, h2⟩ | ⟨h1, h2⟩
    · rw [h1, h2]; cases ra <;> simp
    · rw [h1, h2]; simp
theorem authEach_none (ms : List Mw) (last : Option Err) :
    (∃ e, authEach ms none last = .error e ∧ anyLenient ms = false) ∨
      (authEach ms none last = .ok anonymous ∧ anyLenient ms = true) := by
  cases ms with
  | nil => simp [authEach, anyLenient]
  | cons m ms =>
    simp only [authEach, anyLenient]
    rcases auth_none m with ⟨e, h1, h2⟩ | ⟨h1, h2⟩
    · rw [h1, h2]
      simpa using authEach_none ms (some e)
    · rw [h1, h2]; simp
end

/-- **C95, exactly.** Whatever the tree, a request without authentication is refused or treated as anonymous, and treated
as anonymous if and only if the tree has an optional way through. So `is_required` tells the truth about a tree exactly
if it says the opposite of that. -/
theorem C95_anonymous_iff (m : Mw) :
    (auth m none = .ok anonymous ↔ lenient m = true) ∧ ((∃ e, auth m none = .error e) ↔ lenient m = false) ∧
    ((isRequired m = true ↔ ∃ e, auth m none = .error e) ↔ isRequired m = !lenient m) := by
  rcases auth_none m with ⟨e, h1, h2⟩ | ⟨h1, h2⟩
  · rw [h1, h2]; simp
  · rw [h1, h2]; simp

/-- The two findings, and a required composite whose members are required. -/
example : lenient (.composite [.bearer vA true, .bearer vA false] true) = true ∧
    lenient (.scope (.bearer vA false) ["read".toList] true) = false ∧
    lenient (.composite [.bearer vA true, .credentials gA] true) = false := by decide

end Verif.AuthMw
