import Verif.TokenClient.Model
import Verif.OAuth.Props
import Verif.Simd.Codec
import Verif.HttpEvents.Lemmas

/-
C159 (what a token request says), C160 (what the reply is read as), C161 (how a token request ends).
-/

namespace Verif.TokenClient

/-! ### Specification: reading a form and an `Authorization` header -/

/-- The value of a hexadecimal digit. (Specification: no counterpart in the code.) -/
def hexVal (b : Nat) : Option Nat :=
  if 0x30 ≤ b ∧ b ≤ 0x39 then some (b - 0x30)
  else if 0x41 ≤ b ∧ b ≤ 0x46 then some (b - 0x37)
  else if 0x61 ≤ b ∧ b ≤ 0x66 then some (b - 0x57)
  else none

/-- Percent-decoding (URL standard, section 1.3). (Specification: no counterpart in the code.) -/
def percentDecode : List Nat → List Nat
  | a :: b :: c :: r =>
    if a = 0x25 then
      match hexVal b, hexVal c with
      | some x, some y => (16 * x + y) :: percentDecode r
      | _, _ => a :: percentDecode (b :: c :: r)
    else a :: percentDecode (b :: c :: r)
  | l => l

/-- A name or a value of a form (URL standard, section 5.1). (Specification: no counterpart in the code.) -/
def formText (t : Text) : Text :=
  HttpEvents.lossy (percentDecode (Utf8.encode (t.map (fun c => if c = '+' then ' ' else c))))

/-- The pairs of a form (URL standard, section 5.1). (Specification: no counterpart in the code.) -/
def parseForm (body : Text) : List (Text × Text) :=
  ((Str.splitChar '&' body).filter (· ≠ [])).map (fun s =>
    match Str.splitOnce '=' s with
    | some (n, v) => (formText n, formText v)
    | none => (formText s, []))

/-- The user and the password of an `Authorization` header (RFC 7617). (Specification: no counterpart in the code.) -/
def readBasic (h : Text) : Option (Text × Text) := do
  let code ← Str.stripPrefix "Basic ".toList h
  let bytes ← Simd.decode64 (code.map Char.toNat)
  let text ← Utf8.decode bytes
  Str.splitOnce ':' text

/-! ### Lemmas -/

theorem encodeNat_lt (n : Nat) (h : n < 0x110000) : ∀ b ∈ Utf8.encodeNat n, b < 256 := by
  intro b hb
  unfold Utf8.encodeNat at hb
  split at hb
  · simp at hb; omega
  split at hb
  · simp at hb; omega
  split at hb
  · simp at hb; omega
  · simp at hb; omega

theorem encode_lt (t : Text) : ∀ b ∈ Utf8.encode t, b < 256 := by
  intro b hb
  obtain ⟨c, _, hc⟩ := List.mem_flatMap.mp hb
  refine encodeNat_lt c.toNat ?_ b hc
  have := Utf8.isScalar_char c
  unfold Utf8.isScalar at this
  simp at this
  omega

/-- One byte, as the reader of a form sees it. (Specification: no counterpart in the code.) -/
def seen (b : Nat) : List Nat := Utf8.encode ((encByte b).map (fun c => if c = '+' then ' ' else c))

theorem seen_cases : ∀ b : Fin 256, (seen b = [b.val] ∧ b.val ≠ 0x25) ∨
    ∃ x y : Fin 256, seen b = [0x25, x.val, y.val] ∧ hexVal x = some (b.val / 16) ∧ hexVal y = some (b.val % 16) := by
  intro b
  have h : ∀ b : Fin 256, (seen b = [b.val] ∧ b.val ≠ 0x25) ∨
      (seen b = [0x25, (hexChar (b.val / 16)).toNat, (hexChar (b.val % 16)).toNat] ∧
        (hexChar (b.val / 16)).toNat < 256 ∧ (hexChar (b.val % 16)).toNat < 256 ∧
        hexVal (hexChar (b.val / 16)).toNat = some (b.val / 16) ∧
        hexVal (hexChar (b.val % 16)).toNat = some (b.val % 16)) := by
    decide +kernel
  rcases h b with h | ⟨h1, h2, h3, h4, h5⟩
  · exact .inl h
  · exact .inr ⟨⟨_, h2⟩, ⟨_, h3⟩, h1, h4, h5⟩

theorem percentDecode_cons (a : Nat) (h : a ≠ 0x25) (l : List Nat) : percentDecode (a :: l) = a :: percentDecode l := by
  match l with
  | [] => simp [percentDecode]
  | [b] => simp [percentDecode]
  | b :: c :: r => simp [percentDecode, h]

theorem percentDecode_seen (b : Nat) (hb : b < 256) (r : List Nat) :
    percentDecode (seen b ++ r) = b :: percentDecode r := by
  rcases seen_cases ⟨b, hb⟩ with ⟨h, hn⟩ | ⟨x, y, h, hx, hy⟩
  · rw [h]; exact percentDecode_cons b hn r
  · rw [h]
    have : 16 * (b / 16) + b % 16 = b := by omega
    simp only [List.cons_append, List.nil_append, percentDecode, if_true, hx, hy, this]

theorem percentDecode_all (l : List Nat) (h : ∀ b ∈ l, b < 256) : percentDecode (l.flatMap seen) = l := by
  induction l with
  | nil => rfl
  | cons b l ih =>
    rw [List.flatMap_cons, percentDecode_seen b (h b (by simp)), ih (fun c hc => h c (by simp [hc]))]

theorem formText_encText (t : Text) : formText (encText t) = t := by
  have : Utf8.encode ((encText t).map (fun c => if c = '+' then ' ' else c)) = (Utf8.encode t).flatMap seen := by
    unfold encText seen Utf8.encode
    rw [List.map_flatMap, List.flatMap_assoc]
  rw [formText, this, percentDecode_all _ (encode_lt t), HttpEvents.lossy_whole]

theorem encByte_safe : ∀ b : Fin 256, '&' ∉ encByte b ∧ '=' ∉ encByte b := by decide +kernel

theorem encText_safe (t : Text) : '&' ∉ encText t ∧ '=' ∉ encText t := by
  constructor
  · intro h
    obtain ⟨b, hb, hc⟩ := List.mem_flatMap.mp h
    exact (encByte_safe ⟨b, encode_lt t b hb⟩).1 hc
  · intro h
    obtain ⟨b, hb, hc⟩ := List.mem_flatMap.mp h
    exact (encByte_safe ⟨b, encode_lt t b hb⟩).2 hc

theorem splitChar_join (l : List Text) (hl : l ≠ []) (h : ∀ x ∈ l, '&' ∉ x) :
    Str.splitChar '&' (Str.join ['&'] l) = l := by
  induction l with
  | nil => exact absurd rfl hl
  | cons a l ih =>
    cases l with
    | nil => exact Str.splitChar_of_not_mem (h a (by simp))
    | cons b l =>
      have e : Str.join ['&'] (a :: b :: l) = a ++ '&' :: Str.join ['&'] (b :: l) := by simp [Str.join]
      rw [e, Str.splitChar_append (h a (by simp)), ih (by simp) (fun x hx => h x (by simp [hx]))]

/-- **C159.** A form says what was put into it: whatever the names and the values are. -/
theorem C159_form (ps : List (Text × Text)) : parseForm (form ps) = ps := by
  cases ps with
  | nil => rfl
  | cons p ps =>
    have hs : Str.splitChar '&' (form (p :: ps)) = (p :: ps).map (fun p => encText p.1 ++ '=' :: encText p.2) := by
      refine splitChar_join _ (by simp) ?_
      intro x hx
      obtain ⟨q, _, rfl⟩ := List.mem_map.mp hx
      simp only [List.mem_append, List.mem_cons, not_or]
      exact ⟨(encText_safe _).1, by decide, (encText_safe _).1⟩
    rw [parseForm, hs, List.filter_eq_self.mpr, List.map_map]
    · conv => rhs; rw [← List.map_id (p :: ps)]
      refine List.map_congr_left ?_
      intro q _
      simp only [Function.comp, Str.splitOnce_append (encText_safe _).2, formText_encText, id]
    · intro x hx
      obtain ⟨q, _, rfl⟩ := List.mem_map.mp hx
      simp

/-! ### C159: requests -/

/-- **C159.** What a token endpoint reads from the request of `exchange_code`: the grant, the code, the client, the
redirect URI and the verifier as they were given, and nothing else. -/
theorem C159_exchange (endpoint code client redirect : Text) (secret verifier : Option Text) :
    readForm (parseForm (exchangeRequest endpoint code client secret redirect verifier).body) =
      some { base := { grantType := .authorizationCode, code := some code, redirect := some redirect,
                       client := some client, secret := none, verifier := verifier },
             refresh := none, username := none, password := none, scope := none } := by
  cases verifier <;> simp only [exchangeRequest, C159_form] <;> rfl

/-- **C159.** The same for `refresh_token`. -/
theorem C159_refresh (endpoint refresh client : Text) (secret scope : Option Text) :
    readForm (parseForm (refreshRequest endpoint refresh client secret scope).body) =
      some { base := { grantType := .refreshToken, code := none, redirect := none, client := some client,
                       secret := none, verifier := none },
             refresh := some refresh, username := none, password := none, scope := scope } := by
  cases scope <;> simp only [refreshRequest, C159_form] <;> rfl

/-- **C159.** End to end with the provider of the library: an exchange of a stored code succeeds iff it is in time and
the client, the redirect URI and the verifier given to the client are those of the authorization; the client's secret
plays no part. -/
theorem C159_provider (sha : Text → Text) (s : OAuth.State) (now : Nat) (endpoint code client redirect : Text)
    (secret verifier : Option Text) (a : OAuth.Auth) (expires : Nat) (hk : AMap.get s.codes code = some (a, expires)) :
    (∃ f, readForm (parseForm (exchangeRequest endpoint code client secret redirect verifier).body) = some f ∧
        (OAuth.exchange sha s f.base now).2 = true) ↔
      now ≤ expires ∧ client = a.grant.client ∧ redirect = a.redirect ∧
        ∀ ch, a.challenge = some ch → ∃ v, verifier = some v ∧
          ((v = ch ∧ (a.method = none ∨ a.method = some "plain".toList)) ∨ (sha v = ch ∧ a.method = some "S256".toList)) := by
  rw [C159_exchange]
  simp only [Option.some.injEq, exists_eq_left', OAuth.exchange_iff, true_and]
  constructor
  · rintro ⟨_, a', e', rfl, hk', hm⟩
    rw [hk] at hk'; cases hk'
    obtain ⟨h1, h2, h3, h4⟩ := hm
    exact ⟨h1, Option.some.inj h2, Option.some.inj h3, h4⟩
  · rintro ⟨h1, rfl, rfl, h4⟩
    exact ⟨code, a, expires, rfl, hk, h1, rfl, rfl, h4⟩

/-- **C159.** The secret is in the `Authorization` header only: neither the endpoint, the body nor any other header
depends on it; without a secret there is no such header. -/
theorem C159_secret_only_in_header (endpoint code client redirect : Text) (secret verifier : Option Text) :
    let r := exchangeRequest endpoint code client secret redirect verifier
    let r' := exchangeRequest endpoint code client none redirect verifier
    r.endpoint = endpoint ∧ r.body = r'.body ∧
      r.headers = r'.headers ++ (secret.map (fun s => ("authorization".toList, basic client s))).toList ∧
      ∀ h ∈ r'.headers, h.1 ≠ "authorization".toList := by
  refine ⟨rfl, rfl, ?_, ?_⟩
  · cases secret <;> simp [exchangeRequest, headers]
  · show ∀ h ∈ headers client none, _
    simp only [headers]
    decide

/-- **C159.** The same for `refresh_token`. -/
theorem C159_refresh_secret (endpoint refresh client : Text) (secret scope : Option Text) :
    let r := refreshRequest endpoint refresh client secret scope
    let r' := refreshRequest endpoint refresh client none scope
    r.endpoint = endpoint ∧ r.body = r'.body ∧
      r.headers = r'.headers ++ (secret.map (fun s => ("authorization".toList, basic client s))).toList ∧
      ∀ h ∈ r'.headers, h.1 ≠ "authorization".toList := by
  refine ⟨rfl, rfl, ?_, ?_⟩
  · cases secret <;> simp [refreshRequest, headers]
  · show ∀ h ∈ headers client none, _
    simp only [headers]
    decide

theorem splitOnce_iff (a b : Text) : Str.splitOnce ':' (a ++ ':' :: b) = some (a, b) ↔ ':' ∉ a := by
  constructor
  · intro h hm
    induction a with
    | nil => cases hm
    | cons x a ih =>
      by_cases hx : x = ':'
      · subst hx; simp [Str.splitOnce] at h
      · have hm' : ':' ∈ a := by simpa [Ne.symm hx] using hm
        rw [List.cons_append, Str.splitOnce, if_neg hx] at h
        cases hs : Str.splitOnce ':' (a ++ ':' :: b) with
        | none => rw [hs] at h; cases h
        | some p =>
          rw [hs] at h
          simp only [Option.map_some, Option.some.injEq, Prod.mk.injEq, List.cons.injEq, true_and] at h
          exact ih (by rw [hs, ← h.1, ← h.2]) hm'
  · intro h; exact Str.splitOnce_append h b

theorem toNat_ofNat_lt (n : Nat) (h : n < 128) : (Char.ofNat n).toNat = n :=
  Utf8.ofNat_toNat (by unfold Utf8.isScalar; simp; omega)

theorem base64_ascii (l : List Nat) (h : ∀ b ∈ l, b < 256) : ∀ c ∈ Simd.base64 l, c < 128 := by
  intro c hc
  have := Simd.C58_alphabet l h c hc
  unfold Simd.Base64Char Simd.dec64 at this
  rcases this with h | h
  · split at h
    · omega
    split at h
    · omega
    split at h
    · omega
    split at h
    · omega
    split at h
    · omega
    · cases h
  · omega

theorem stripPrefix_append (p s : Text) : Str.stripPrefix p (p ++ s) = some s := by
  induction p with
  | nil => cases s <;> rfl
  | cons a p ih => simp [Str.stripPrefix, ih]

theorem readBasic_basic (client secret : Text) :
    readBasic (basic client secret) = Str.splitOnce ':' (client ++ ':' :: secret) := by
  have hl := encode_lt (client ++ ':' :: secret)
  have h2 : ((Simd.base64 (Utf8.encode (client ++ ':' :: secret))).map Char.ofNat).map Char.toNat =
      Simd.base64 (Utf8.encode (client ++ ':' :: secret)) := by
    rw [List.map_map]
    conv => rhs; rw [← List.map_id (Simd.base64 _)]
    exact List.map_congr_left (fun c hc => toNat_ofNat_lt c (base64_ascii _ hl c hc))
  simp only [readBasic, basic, stripPrefix_append, Option.bind_eq_bind, Option.bind_some, h2,
    Simd.C58_round_trip _ hl, Utf8.decode_encode]

/-- **C159.** A server reads the client and the secret from the header of a request exactly if the client has no colon.

Partial: with a colon in the client id they are cut at the wrong place (`C159_colon`). RFC 6749 wants both form-encoded
first, which is not done (`C159_not_encoded`). -/
theorem C159_basic_partial (client secret : Text) :
    readBasic (basic client secret) = some (client, secret) ↔ ':' ∉ client := by
  rw [readBasic_basic, splitOnce_iff]

/-- **C159, refuted for clients with a colon** (such as the URLs used as client ids): another client is read. -/
theorem C159_colon (client rest secret : Text) (h : ':' ∉ client) :
    readBasic (basic (client ++ ':' :: rest) secret) = some (client, rest ++ ':' :: secret) := by
  rw [readBasic_basic, List.append_assoc, List.cons_append, Str.splitOnce_append h]

theorem encodeChar_percent (c : Char) (h : c ≠ '%') : 0x25 ∉ Utf8.encodeChar c := by
  have hc : c.toNat ≠ 0x25 := fun e => h (by rw [← Char.ofNat_toNat c, e])
  unfold Utf8.encodeChar Utf8.encodeNat
  split
  · simp only [List.mem_singleton]; omega
  split
  · simp only [List.mem_cons, List.not_mem_nil, or_false]; omega
  split
  · simp only [List.mem_cons, List.not_mem_nil, or_false]; omega
  · simp only [List.mem_cons, List.not_mem_nil, or_false]; omega

theorem percentDecode_id (l : List Nat) (h : 0x25 ∉ l) : percentDecode l = l := by
  induction l with
  | nil => rfl
  | cons a l ih =>
    rw [percentDecode_cons a (fun e => h (by simp [e])), ih (fun e => h (by simp [e]))]

theorem formText_plain (t : Text) (h : '%' ∉ t) : formText t = t.map (fun c => if c = '+' then ' ' else c) := by
  rw [formText, percentDecode_id, HttpEvents.lossy_whole]
  intro hm
  obtain ⟨c, hc, hb⟩ := List.mem_flatMap.mp hm
  refine encodeChar_percent c ?_ hb
  obtain ⟨d, hd, rfl⟩ := List.mem_map.mp hc
  split
  · decide
  · intro e; exact h (e ▸ hd)

/-- **C159, refuted under RFC 6749 section 2.3.1.** A server that form-decodes the two parts of the header, as that
section wants, reads spaces for plus signs: the client and the secret come through iff neither has one. (Without
percent signs and, in the client, colons.) -/
theorem C159_form_decoded_partial (client secret : Text) (hc : ':' ∉ client) (h1 : '%' ∉ client) (h2 : '%' ∉ secret) :
    (readBasic (basic client secret)).map (fun p => (formText p.1, formText p.2)) = some (client, secret) ↔
      '+' ∉ client ∧ '+' ∉ secret := by
  rw [(C159_basic_partial client secret).mpr hc, Option.map_some, formText_plain _ h1, formText_plain _ h2]
  have key : ∀ t : Text, t.map (fun c => if c = '+' then ' ' else c) = t ↔ '+' ∉ t := by
    intro t
    induction t with
    | nil => simp
    | cons c t ih =>
      rw [List.map_cons, List.cons.injEq, ih, List.mem_cons, not_or]
      by_cases h : c = '+'
      · subst h; simp
      · simp [h, Ne.symm h]
  simp only [Option.some.injEq, Prod.mk.injEq, key]

/-- A secret with a plus sign; a client id that is a URL. -/
example : (readBasic (basic "app".toList "a+b".toList)).map (fun p => formText p.2) = some "a b".toList ∧
    readBasic (basic "https://app".toList "s".toList) = some ("https".toList, "//app:s".toList) ∧
    readBasic (basic "app".toList "a:b".toList) = some ("app".toList, "a:b".toList) := by
  refine ⟨?_, ?_, ?_⟩
  · rw [(C159_basic_partial _ _).mpr (by decide), Option.map_some, formText_plain _ (by decide)]; rfl
  · exact C159_colon "https".toList "//app".toList _ (by decide)
  · exact (C159_basic_partial _ _).mpr (by decide)

/-- The bytes on the wire. -/
example : (exchangeRequest "https://as/token".toList "k&1".toList "app".toList none "http://cb/?a=b c".toList none).body =
    "grant_type=authorization_code&code=k%261&client_id=app&redirect_uri=http%3A%2F%2Fcb%2F%3Fa%3Db+c".toList := by
  decide +kernel

/-- The stored code of the examples of C42, exchanged by its client with its verifier. -/
example : AMap.get ({ codes := [("k".toList, (OAuth.authA, 700))] } : OAuth.State).codes "k".toList =
      some (OAuth.authA, 700) ∧
    ∃ f, readForm (parseForm (exchangeRequest "https://as/token".toList "k".toList "c".toList (some "s".toList)
        "http://cb".toList (some "xyz".toList)).body) = some f ∧
      (OAuth.exchange id { codes := [("k".toList, (OAuth.authA, 700))] } f.base 200).2 = true := by
  refine ⟨by decide, ?_⟩
  rw [C159_provider id _ 200 _ _ _ _ _ _ OAuth.authA 700 (by decide)]
  refine ⟨by decide, rfl, rfl, ?_⟩
  rintro ch h
  cases h
  exact ⟨_, rfl, .inl ⟨rfl, .inl rfl⟩⟩

/-! ### C160 -/

open Verif.Wire

/-- Specification: the members of a token response that have a meaning (RFC 6749, section 5.1). -/
def members : List String := ["access_token", "token_type", "expires_in", "refresh_token", "scope"]

/-- Specification: what a client should know of a token. -/
def told (t : AccessToken) : TokenResponse := ⟨t.access, "bearer", t.expires, t.refresh, t.scope⟩

/-- Specification: an additional member that does not get in the way of the five. -/
def Harmless (t : AccessToken) (k : String) (v : Json) : Prop :=
  k ∉ members ∨ (v = .null ∧ ((k = "expires_in" ∧ t.expires = none) ∨ (k = "refresh_token" ∧ t.refresh = none) ∨
    (k = "scope" ∧ t.scope = none)))

theorem filter_key (m : AMap String Json) (hm : AMap.WF m) (k : String) :
    m.filter (fun e => e.1 == k) = ((AMap.get m k).map (fun v => (k, v))).toList := by
  induction m with
  | nil => rfl
  | cons e m ih =>
    obtain ⟨a, v⟩ := e
    have hm' : AMap.WF m := by
      unfold AMap.WF AMap.keys at *
      exact (List.nodup_cons.mp hm).2
    rw [List.filter_cons, AMap.get_cons, ih hm']
    by_cases h : a = k
    · subst h
      have hn : AMap.get m a = none := by
        rw [AMap.get_eq_none_iff]
        unfold AMap.WF AMap.keys at hm
        exact (List.nodup_cons.mp hm).1
      simp [hn]
    · simp [h]

/-- The entry of a name among the own members and the additional ones. -/
theorem entry_append (a b : AMap String Json) (ha : AMap.WF a) (hb : AMap.WF b) (k : String) :
    entry (a ++ b) k = match AMap.get a k, AMap.get b k with
      | none, y => some y
      | some x, none => some (some x)
      | some _, some _ => none := by
  unfold entry
  rw [List.filter_append, filter_key a ha, filter_key b hb]
  cases AMap.get a k <;> cases AMap.get b k <;> rfl

theorem required_iff {α : Type} (d : Json → Option α) (a b : AMap String Json) (ha : AMap.WF a) (hb : AMap.WF b)
    (k : String) (j : Json) (x : α) (hj : AMap.get a k = some j) (hd : d j = some x) :
    required d (a ++ b) k = (if AMap.get b k = none then some x else none) := by
  unfold required
  rw [entry_append a b ha hb, hj]
  cases AMap.get b k <;> simp [hd]

theorem optional_iff {α : Type} (d : Json → Option α) (e : α → Json) (a b : AMap String Json) (ha : AMap.WF a)
    (hb : AMap.WF b) (k : String) (o : Option α) (hj : AMap.get a k = o.map e)
    (he : ∀ x, d (e x) = some x ∧ e x ≠ .null) :
    optional d (a ++ b) k = some o ↔ ∀ v, AMap.get b k = some v → v = .null ∧ o = none := by
  unfold optional
  rw [entry_append a b ha hb, hj]
  cases o with
  | none =>
    cases hv : AMap.get b k with
    | none => simp
    | some v => cases v <;> simp [optOf, decOpt]
  | some x =>
    cases hv : AMap.get b k with
    | none =>
      have := optOf_map d e (some x) (fun y _ => he y)
      simpa using this
    | some v => simp

theorem own_wf (t : AccessToken) :
    AMap.WF (ob [("access_token", some (.str t.access)), ("token_type", some (.str "bearer")),
      ("expires_in", t.expires.map encInt), ("refresh_token", t.refresh.map .str), ("scope", t.scope.map .str)]) := by
  unfold AMap.WF AMap.keys
  cases t.expires <;> cases t.refresh <;> cases t.scope <;> simp [ob]

/-- **C160.** The client reads from a token response of the library's server the token, its kind, its lifetime, the
refresh token and the scope as they were sent, exactly if no additional member has the name of one of these (or it is
`null` in the place of one that was left out).

Partial: an additional member of one of the five names makes the response unreadable, or counts as that member
(`C160_taken`). -/
theorem C160_response_partial (t : AccessToken) (ht : AMap.WF t.extra) :
    readToken t.enc = some (told t) ↔ ∀ k v, AMap.get t.extra k = some v → Harmless t k v := by
  have hw := own_wf t
  have h1 := required_iff decStr _ t.extra hw ht "access_token" (.str t.access) t.access (by simp) rfl
  have h2 := required_iff decStr _ t.extra hw ht "token_type" (.str "bearer") "bearer" (by simp) rfl
  have h3 := optional_iff (decInt 0 (2 ^ 64)) encInt _ t.extra hw ht "expires_in" t.expires (by simp)
    (fun x => ⟨by simp [encInt, decInt]; exact ⟨x.2, rfl⟩, by simp [encInt]⟩)
  have h4 := optional_iff decStr .str _ t.extra hw ht "refresh_token" t.refresh (by simp) (fun x => ⟨rfl, by simp⟩)
  have h5 := optional_iff decStr .str _ t.extra hw ht "scope" t.scope (by simp) (fun x => ⟨rfl, by simp⟩)
  constructor
  · intro h k v hk
    simp only [AccessToken.enc, readToken, Option.bind_eq_bind, Option.bind_eq_some_iff, Option.some.injEq, told,
      TokenResponse.mk.injEq] at h
    obtain ⟨a, ha, b, hb, c, hc, d, hd, e, he, rfl, rfl, rfl, rfl, rfl⟩ := h
    rw [h1] at ha
    rw [h2] at hb
    rw [h3] at hc
    rw [h4] at hd
    rw [h5] at he
    unfold Harmless
    by_cases hm : k ∈ members
    · right
      simp only [members, List.mem_cons, List.not_mem_nil, or_false] at hm
      rcases hm with rfl | rfl | rfl | rfl | rfl
      · simp [hk] at ha
      · simp [hk] at hb
      · exact ⟨(hc v hk).1, .inl ⟨rfl, (hc v hk).2⟩⟩
      · exact ⟨(hd v hk).1, .inr (.inl ⟨rfl, (hd v hk).2⟩)⟩
      · exact ⟨(he v hk).1, .inr (.inr ⟨rfl, (he v hk).2⟩)⟩
    · exact .inl hm
  · intro h
    have g : ∀ k, k = "access_token" ∨ k = "token_type" → AMap.get t.extra k = none := by
      intro k hk
      cases hv : AMap.get t.extra k with
      | none => rfl
      | some v =>
        have := h k v hv
        unfold Harmless members at this
        rcases hk with rfl | rfl <;> simp at this
    have g3 := h3.mpr (fun v hv => by
      have := h _ v hv
      unfold Harmless members at this
      simpa using this)
    have g4 := h4.mpr (fun v hv => by
      have := h _ v hv
      unfold Harmless members at this
      simpa using this)
    have g5 := h5.mpr (fun v hv => by
      have := h _ v hv
      unfold Harmless members at this
      simpa using this)
    simp only [AccessToken.enc, readToken, h1, h2, g3, g4, g5, g _ (.inl rfl), g _ (.inr rfl), told, if_true,
      Option.bind_eq_bind, Option.bind_some]

/-- **C160.** In particular for what the library's provider issues: scopes are joined by spaces. -/
theorem C160_issued (access refresh : String) (expires : U64) (scopes : List String) :
    readToken (issued access refresh expires scopes).enc =
      some ⟨access, "bearer", some expires, some refresh, some (" ".intercalate scopes)⟩ := by
  have := (C160_response_partial (issued access refresh expires scopes) AMap.wf_nil).mpr
    (by intro k v h; cases h)
  exact this

/-- **C160, refuted for additional members of the five names**: a provider that puts a `scope` of its own into `extra`,
once in addition to the scope and once instead of it. -/
theorem C160_taken (a s x : String) :
    readToken (AccessToken.enc ⟨a, none, none, some s, [("scope", .str x)]⟩) = none ∧
    readToken (AccessToken.enc ⟨a, none, none, none, [("scope", .str x)]⟩) = some ⟨a, "bearer", none, none, some x⟩ := by
  constructor <;> rfl

/-- Additional members of other names are ignored. -/
example : readToken (AccessToken.enc ⟨"t", none, some "r", none, [("id_token", .str "x"), ("scope", .null)]⟩) =
    some ⟨"t", "bearer", none, some "r", none⟩ := by rfl

/-! ### C161 -/

/-- The JSON value of an optional field that is there. (Specification: no counterpart in the code.) -/
def orNull (o : Option Json) : Json := o.getD .null

theorem decStr_iff (j : Json) (s : String) : decStr j = some s ↔ j = .str s := by
  cases j <;> simp [decStr]

theorem decU64_iff (j : Json) (n : U64) : decInt 0 (2 ^ 64) j = some n ↔ j = encInt n := by
  cases j with
  | num x =>
    cases x with
    | int m =>
      simp only [decInt, encInt, Json.num.injEq, Num.int.injEq]
      constructor
      · intro h
        split at h
        · cases h; rfl
        · cases h
      · rintro rfl
        rw [dif_pos n.2]
    | _ => simp [decInt, encInt]
  | _ => simp [decInt, encInt]

theorem decOpt_iff {α : Type} (d : Json → Option α) (e : α → Json) (hd : ∀ j x, d j = some x ↔ j = e x)
    (hn : ∀ x, e x ≠ .null) (j : Json) (o : Option α) : decOpt d j = some o ↔ j = orNull (o.map e) := by
  cases o with
  | none => cases j <;> simp [decOpt, orNull]
  | some x =>
    show _ ↔ j = e x
    rw [← hd]
    cases j with
    | null =>
      simp only [decOpt, Option.some.injEq, reduceCtorEq, false_iff]
      intro h
      exact hn x ((hd _ _).mp h).symm
    | _ => simp [decOpt]

/-- The member of that name: there once with a value that is not `null`, or not there, or there once and `null`.
(Specification: no counterpart in the code.) -/
def Member (f : List (String × Json)) (k : String) (o : Option Json) : Prop :=
  f.filter (fun e => e.1 == k) = o.toList.map (fun v => (k, v)) ∨ (o = none ∧ f.filter (fun e => e.1 == k) = [(k, .null)])

theorem filter_named (f : List (String × Json)) (k : String) : ∀ e ∈ f.filter (fun e => e.1 == k), e.1 = k := by
  intro e he
  simpa using (List.mem_filter.mp he).2

theorem required_member (f : List (String × Json)) (k s : String) :
    required decStr f k = some s ↔ Member f k (some (.str s)) := by
  have hk := filter_named f k
  unfold required entry Member
  cases hf : f.filter (fun e => e.1 == k) with
  | nil => simp
  | cons a l =>
    obtain ⟨k', v⟩ := a
    have : k' = k := hk (k', v) (by rw [hf]; simp)
    subst this
    cases l with
    | nil => simp [decStr_iff]
    | cons b l => simp

theorem optional_member {α : Type} (d : Json → Option α) (e : α → Json) (hd : ∀ j x, d j = some x ↔ j = e x)
    (hn : ∀ x, e x ≠ .null) (f : List (String × Json)) (k : String) (o : Option α) :
    optional d f k = some o ↔ Member f k (o.map e) := by
  have hk := filter_named f k
  unfold optional entry Member
  cases hf : f.filter (fun e => e.1 == k) with
  | nil =>
    simp only [Option.bind_some, optOf, Option.some.injEq]
    cases o <;> simp
  | cons a l =>
    obtain ⟨k', v⟩ := a
    have : k' = k := hk (k', v) (by rw [hf]; simp)
    subst this
    cases l with
    | nil =>
      simp only [Option.bind_some, optOf]
      rw [decOpt_iff d e hd hn]
      cases o <;> simp [orNull]
    | cons b l => cases o <;> simp

/-- **C161, the readable responses exactly**: a JSON document is read as a token response if and only if it is an object
with each of the five members at most once, the first two as texts and the others of their types or `null` or left out;
or an array of the five in order. -/
theorem C161_readable (j : Json) (t : TokenResponse) : readToken j = some t ↔
    (∃ f, j = .obj f ∧ Member f "access_token" (some (.str t.access)) ∧ Member f "token_type" (some (.str t.type)) ∧
      Member f "expires_in" (t.expires.map encInt) ∧ Member f "refresh_token" (t.refresh.map .str) ∧
      Member f "scope" (t.scope.map .str)) ∨
    j = .arr [.str t.access, .str t.type, orNull (t.expires.map encInt), orNull (t.refresh.map .str),
      orNull (t.scope.map .str)] := by
  have ho := fun f k o => optional_member (decInt 0 (2 ^ 64)) encInt decU64_iff (by intro x; simp [encInt]) f k o
  have hs := fun f k o => optional_member decStr .str decStr_iff (by intro x; simp) f k o
  have ao := fun j o => decOpt_iff (decInt 0 (2 ^ 64)) encInt decU64_iff (by intro x; simp [encInt]) j o
  have as := fun j o => decOpt_iff decStr .str decStr_iff (by intro x; simp) j o
  obtain ⟨a, ty, e, r, s⟩ := t
  constructor
  · intro h
    unfold readToken at h
    split at h
    · next f =>
      left
      simp only [Option.bind_eq_bind, Option.bind_eq_some_iff, Option.some.injEq, TokenResponse.mk.injEq] at h
      obtain ⟨a', h1, t', h2, e', h3, r', h4, s', h5, rfl, rfl, rfl, rfl, rfl⟩ := h
      exact ⟨f, rfl, (required_member ..).mp h1, (required_member ..).mp h2, (ho ..).mp h3, (hs ..).mp h4, (hs ..).mp h5⟩
    · right
      simp only [Option.bind_eq_bind, Option.bind_eq_some_iff, Option.some.injEq, TokenResponse.mk.injEq] at h
      obtain ⟨a', h1, t', h2, e', h3, r', h4, s', h5, rfl, rfl, rfl, rfl, rfl⟩ := h
      rw [(decStr_iff ..).mp h1, (decStr_iff ..).mp h2, (ao ..).mp h3, (as ..).mp h4, (as ..).mp h5]
    · cases h
  · rintro (⟨f, rfl, h1, h2, h3, h4, h5⟩ | rfl)
    · simp only [readToken, (required_member ..).mpr h1, (required_member ..).mpr h2, (ho ..).mpr h3, (hs ..).mpr h4,
        (hs ..).mpr h5, Option.bind_eq_bind, Option.bind_some]
    · simp only [readToken, (ao _ e).mpr rfl, (as _ r).mpr rfl, (as _ s).mpr rfl, decStr, Option.bind_eq_bind,
        Option.bind_some]

/-- A response with an unknown member and one that is `null`, and an array. -/
example : readToken (.obj [("scope", .null), ("x", .bool true), ("token_type", .str "bearer"), ("access_token", .str "t")]) =
    some ⟨"t", "bearer", none, none, none⟩ ∧
    readToken (.arr [.str "t", .str "bearer", .null, .str "r", .str "s"]) = some ⟨"t", "bearer", none, some "r", some "s"⟩ :=
  ⟨(C161_readable _ _).mpr (.inl ⟨_, rfl, .inl (by rfl), .inl (by rfl), .inl (by rfl), .inl (by rfl), .inr ⟨rfl, by rfl⟩⟩),
    (C161_readable _ _).mpr (.inr rfl)⟩

/-- **C161.** A token is returned exactly if the request was answered with a status of the two hundreds and a readable
token response, and it is that of the response; for both kinds of requests. -/
theorem C161_ok (bad : String) (r : Except String Reply) (t : TokenResponse) :
    (exchangeFinish bad r = .ok t ↔ ∃ p j, r = .ok p ∧ 200 ≤ p.status ∧ p.status ≤ 299 ∧ p.json = some j ∧
      readToken j = some t) ∧ (refreshFinish bad r = .ok t ↔ exchangeFinish bad r = .ok t) := by
  unfold exchangeFinish refreshFinish
  cases r with
  | error e => simp [finish]
  | ok p =>
    simp only [finish]
    by_cases hs : 200 ≤ p.status ∧ p.status < 300
    · rw [if_neg (by simpa using hs), if_neg (by simpa using hs)]
      cases hj : p.json with
      | none => simp [hj]
      | some j =>
        simp only [Option.bind_some]
        cases hr : readToken j with
        | none => simp [hr, hj]
        | some t' =>
          simp only [Except.ok.injEq, and_true, iff_self]
          constructor
          · rintro rfl
            exact ⟨p, j, rfl, hs.1, by omega, hj, hr⟩
          · rintro ⟨p', j', rfl, _, _, hj', hr'⟩
            rw [hj] at hj'; cases hj'
            rw [hr] at hr'; cases hr'; rfl
    · rw [if_pos hs, if_pos hs]
      simp only [reduceCtorEq, false_iff, iff_self, and_true, not_exists]
      rintro p' j ⟨⟨⟩, h1, h2, _⟩
      exact hs ⟨h1, by omega⟩

theorem finish_error (what how bad : String) (r : Except String Reply) (c : Code) (m : String)
    (h : finish what how bad r = .error (c, m)) :
    (c = .internalError ↔ ∃ e, r = .error e ∧ m = what ++ e) ∧
    (c = .invalidRequest ↔ ∃ p, r = .ok p ∧ (p.status < 200 ∨ 299 < p.status) ∧ m = how ++ p.text.getD "") ∧
    (c = .parseError ↔ ∃ p, r = .ok p ∧ 200 ≤ p.status ∧ p.status ≤ 299 ∧ ∀ j, p.json = some j → readToken j = none) := by
  cases r with
  | error e =>
    simp only [finish, Except.error.injEq, Prod.mk.injEq] at h
    obtain ⟨rfl, rfl⟩ := h
    simp
  | ok p =>
    simp only [finish] at h
    by_cases hs : 200 ≤ p.status ∧ p.status < 300
    · rw [if_neg (by simpa using hs)] at h
      cases hb : p.json.bind readToken with
      | some t => rw [hb] at h; cases h
      | none =>
        rw [hb] at h
        simp only [Except.error.injEq, Prod.mk.injEq] at h
        obtain ⟨rfl, rfl⟩ := h
        refine ⟨by simp, ?_, ?_⟩
        · simp only [reduceCtorEq, false_iff, not_exists]
          rintro p' ⟨⟨rfl⟩, h, _⟩
          omega
        · simp only [true_iff]
          refine ⟨p, rfl, hs.1, by omega, ?_⟩
          intro j hj
          rw [hj] at hb
          exact hb
    · rw [if_pos hs] at h
      simp only [Except.error.injEq, Prod.mk.injEq] at h
      obtain ⟨rfl, rfl⟩ := h
      refine ⟨by simp, ?_, ?_⟩
      · simp only [true_iff]
        exact ⟨p, rfl, by omega, rfl⟩
      · simp only [reduceCtorEq, false_iff, not_exists]
        rintro p' ⟨⟨rfl⟩, h1, h2, _⟩
        omega

/-- **C161.** The error says what went wrong: the request was not answered (`INTERNAL_ERROR`, with the cause), it was
refused (`INVALID_REQUEST`, with the text of the answer), or the answer was not a token (`PARSE_ERROR`). -/
theorem C161_error (bad : String) (r : Except String Reply) (c : Code) (m : String)
    (h : exchangeFinish bad r = .error (c, m)) :
    (c = .internalError ↔ ∃ e, r = .error e ∧ m = "Failed to exchange authorization code: " ++ e) ∧
    (c = .invalidRequest ↔ ∃ p, r = .ok p ∧ (p.status < 200 ∨ 299 < p.status) ∧
      m = "Token exchange failed: " ++ p.text.getD "") ∧
    (c = .parseError ↔ ∃ p, r = .ok p ∧ 200 ≤ p.status ∧ p.status ≤ 299 ∧ ∀ j, p.json = some j → readToken j = none) :=
  finish_error _ _ _ _ _ _ h

/-- **C161.** The same for `refresh_token`: the request was not answered (`INTERNAL_ERROR`, with the cause), it was
refused (`INVALID_REQUEST`, with the text of the answer), or the answer was not a token (`PARSE_ERROR`). -/
theorem C161_refresh_error (bad : String) (r : Except String Reply) (c : Code) (m : String)
    (h : refreshFinish bad r = .error (c, m)) :
    (c = .internalError ↔ ∃ e, r = .error e ∧ m = "Failed to refresh token: " ++ e) ∧
    (c = .invalidRequest ↔ ∃ p, r = .ok p ∧ (p.status < 200 ∨ 299 < p.status) ∧
      m = "Token refresh failed: " ++ p.text.getD "") ∧
    (c = .parseError ↔ ∃ p, r = .ok p ∧ 200 ≤ p.status ∧ p.status ≤ 299 ∧ ∀ j, p.json = some j → readToken j = none) :=
  finish_error _ _ _ _ _ _ h

/-- One reply of each kind. -/
example :
    exchangeFinish "bad" (.ok ⟨200, some "..", some (issued "t" "r" ⟨3600, by decide⟩ ["read", "write"]).enc⟩) =
      .ok ⟨"t", "bearer", some ⟨3600, by decide⟩, some "r", some "read write"⟩ ∧
    exchangeFinish "bad" (.ok ⟨400, some "invalid_grant", none⟩) =
      .error (.invalidRequest, "Token exchange failed: invalid_grant") ∧
    refreshFinish "eof" (.ok ⟨204, some "", none⟩) = .error (.parseError, "Failed to parse token response: eof") := by
  refine ⟨?_, rfl, rfl⟩
  refine ((C161_ok _ _ _).1).mpr ⟨_, _, rfl, by decide, by decide, rfl, ?_⟩
  rw [C160_issued]
  rfl

/-! ### C159 and C161, in detail -/

theorem encByte_plain : ∀ b : Fin 128, encByte b.val = [Char.ofNat b.val] ↔
    ((Char.ofNat b.val).isAlphanum = true ∨ Char.ofNat b.val ∈ ['*', '-', '.', '_']) := by decide +kernel

/-- **C159.** Exactly the ASCII letters and digits and `*`, `-`, `.`, `_` stand for themselves in a form, as the
URL standard says; a space is `+`. -/
theorem C159_plain (c : Char) (hc : c.toNat < 128) :
    (encText [c] = [c] ↔ c.isAlphanum = true ∨ c ∈ ['*', '-', '.', '_']) ∧ encText [' '] = ['+'] := by
  refine ⟨?_, by decide⟩
  have h := encByte_plain ⟨c.toNat, hc⟩
  have hn : Char.ofNat c.toNat = c := Char.ofNat_toNat c
  simp only [hn] at h
  rw [← h]
  have : Utf8.encode [c] = [c.toNat] := by
    simp [Utf8.encode, Utf8.encodeChar, Utf8.encodeNat, hc]
  rw [encText, this]
  simp

example : encText "a-Z 0/é".toList = "a-Z+0%2F%C3%A9".toList := by decide +kernel

/-- **C159.** Both requests ask for JSON and declare their body as a form. -/
theorem C159_headers (endpoint code client redirect refresh : Text) (secret verifier scope : Option Text) :
    ∀ h ∈ [("accept".toList, "application/json".toList),
        ("content-type".toList, "application/x-www-form-urlencoded".toList)],
      h ∈ (exchangeRequest endpoint code client secret redirect verifier).headers ∧
      h ∈ (refreshRequest endpoint refresh client secret scope).headers := by
  intro h hh
  simp only [List.mem_cons, List.not_mem_nil, or_false] at hh
  rcases hh with rfl | rfl <;> simp [exchangeRequest, refreshRequest, headers]

/-- The names of the grant types of RFC 6749. (Specification: no counterpart in the code.) -/
def grantName : OAuth.GrantType → Text
  | .authorizationCode => "authorization_code".toList
  | .refreshToken => "refresh_token".toList
  | .clientCredentials => "client_credentials".toList
  | .password => "password".toList

/-- A field that may be missing. (Specification: no counterpart in the code.) -/
def piece (k : String) (v : Option Text) : List (Text × Text) := v.toList.map (fun x => (k.toList, x))

/-- A token request as the fields of RFC 6749 and RFC 7636. (Specification: no counterpart in the code.) -/
def fieldsOf (f : TokenForm) : List (Text × Text) :=
  piece "grant_type" (some (grantName f.base.grantType)) ++ piece "code" f.base.code ++
  piece "redirect_uri" f.base.redirect ++ piece "client_id" f.base.client ++ piece "client_secret" f.base.secret ++
  piece "refresh_token" f.refresh ++ piece "username" f.username ++ piece "password" f.password ++
  piece "scope" f.scope ++ piece "code_verifier" f.base.verifier

theorem filter_piece (k k' : String) (v : Option Text) :
    (piece k v).filter (fun p => p.1 == k'.toList) = if k = k' then piece k v else [] := by
  unfold piece
  cases v with
  | none => simp
  | some x =>
    by_cases h : k = k'
    · simp [h]
    · have : ¬ k.toList = k'.toList := fun e => h (String.toList_inj.mp e)
      simp [h, this]

theorem field_piece (ps : List (Text × Text)) (k : String) (v : Option Text)
    (h : ps.filter (fun p => p.1 == k.toList) = piece k v) : formField ps k = some v := by
  unfold formField
  rw [h]
  cases v <;> rfl

/-- **C159.** The provider understands every token request written with the field names of RFC 6749 and RFC 7636:
each of the four grant types, and each combination of the other fields. -/
theorem C159_read (f : TokenForm) : readForm (fieldsOf f) = some f := by
  obtain ⟨⟨g, code, redirect, client, secret, verifier⟩, refresh, username, password, scope⟩ := f
  have hg : grantType (grantName g) = some g := by cases g <;> decide
  unfold readForm
  rw [field_piece _ "grant_type" (some (grantName g)) (by
    simp only [fieldsOf, List.filter_append, filter_piece, String.reduceEq, if_true, if_false, List.append_nil,
      List.nil_append])]
  rw [field_piece _ "code" code (by
    simp only [fieldsOf, List.filter_append, filter_piece, String.reduceEq, if_true, if_false, List.append_nil,
      List.nil_append])]
  rw [field_piece _ "redirect_uri" redirect (by
    simp only [fieldsOf, List.filter_append, filter_piece, String.reduceEq, if_true, if_false, List.append_nil,
      List.nil_append])]
  rw [field_piece _ "client_id" client (by
    simp only [fieldsOf, List.filter_append, filter_piece, String.reduceEq, if_true, if_false, List.append_nil,
      List.nil_append])]
  rw [field_piece _ "client_secret" secret (by
    simp only [fieldsOf, List.filter_append, filter_piece, String.reduceEq, if_true, if_false, List.append_nil,
      List.nil_append])]
  rw [field_piece _ "refresh_token" refresh (by
    simp only [fieldsOf, List.filter_append, filter_piece, String.reduceEq, if_true, if_false, List.append_nil,
      List.nil_append])]
  rw [field_piece _ "username" username (by
    simp only [fieldsOf, List.filter_append, filter_piece, String.reduceEq, if_true, if_false, List.append_nil,
      List.nil_append])]
  rw [field_piece _ "password" password (by
    simp only [fieldsOf, List.filter_append, filter_piece, String.reduceEq, if_true, if_false, List.append_nil,
      List.nil_append])]
  rw [field_piece _ "scope" scope (by
    simp only [fieldsOf, List.filter_append, filter_piece, String.reduceEq, if_true, if_false, List.append_nil,
      List.nil_append])]
  rw [field_piece _ "code_verifier" verifier (by
    simp only [fieldsOf, List.filter_append, filter_piece, String.reduceEq, if_true, if_false, List.append_nil,
      List.nil_append])]
  simp only [Option.bind_eq_bind, Option.bind_some, hg]

example : fieldsOf ⟨⟨.password, none, none, some "app".toList, none, none⟩, none, some "u".toList, some "p".toList, none⟩ =
    [("grant_type".toList, "password".toList), ("client_id".toList, "app".toList), ("username".toList, "u".toList),
      ("password".toList, "p".toList)] := rfl

/-- **C161.** The error for an answer that is not a token gives the reason. -/
theorem C161_parse_error (bad : String) (r : Except String Reply) (m : String) :
    (exchangeFinish bad r = .error (.parseError, m) → m = "Failed to parse token response: " ++ bad) ∧
    (refreshFinish bad r = .error (.parseError, m) → m = "Failed to parse token response: " ++ bad) := by
  unfold exchangeFinish refreshFinish
  cases r with
  | error e => simp [finish]
  | ok p =>
    simp only [finish]
    constructor <;> intro h <;> split at h
    · simp at h
    · split at h
      · cases h
      · simp only [Except.error.injEq, Prod.mk.injEq, true_and] at h; exact h.symm
    · simp at h
    · split at h
      · cases h
      · simp only [Except.error.injEq, Prod.mk.injEq, true_and] at h; exact h.symm

example : exchangeFinish "eof" (.ok ⟨200, some "", none⟩) =
    .error (.parseError, "Failed to parse token response: eof") := rfl

end Verif.TokenClient
