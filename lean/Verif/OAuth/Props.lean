import Verif.OAuth.Model
import Verif.Common.ListExtra

/-
Properties of the OAuth provider: C41-C44, C91 and C92.
-/

namespace Verif.OAuth

theorem run_snoc (sha : Text → Text) (s : State) (h : List Op) (op : Op) (s' : State) :
    run sha s (h ++ [op]) = some s' ↔ ∃ s₁, run sha s h = some s₁ ∧ step sha s₁ op = some s' := by
  induction h generalizing s with
  | nil =>
    simp only [List.nil_append, run]
    cases hs : step sha s op <;> simp [hs]
  | cons o h ih =>
    simp only [List.cons_append, run]
    cases hs : step sha s o with
    | none => simp
    | some s₁ => simpa using ih s₁

theorem run_append (sha : Text → Text) (s : State) (a b : List Op) :
    run sha s (a ++ b) = (run sha s a).bind (fun s' => run sha s' b) := by
  induction a generalizing s with
  | nil => rfl
  | cons op a ih =>
    simp only [List.cons_append, run]
    cases step sha s op with
    | none => rfl
    | some s' => exact ih s'

/-! ### C42: the decision of `exchange_code` -/

/-- The PKCE verifier of the request matches the challenge of the authorization.
(Specification: no counterpart in the code.) -/
def PkceOk (sha : Text → Text) (a : Auth) (r : TokenRequest) : Prop :=
  ∀ ch, a.challenge = some ch → ∃ v, r.verifier = some v ∧
    ((v = ch ∧ (a.method = none ∨ a.method = some "plain".toList)) ∨ (sha v = ch ∧ a.method = some "S256".toList))

theorem checkPkce_iff (sha : Text → Text) (a : Auth) (r : TokenRequest) :
    checkPkce sha a r = true ↔ PkceOk sha a r := by
  have hne : plain ≠ s256 := by decide
  unfold checkPkce PkceOk
  rw [show "plain".toList = plain from rfl, show "S256".toList = s256 from rfl]
  cases a.challenge with
  | none => simp
  | some ch =>
    cases r.verifier with
    | none => simp
    | some v =>
      simp only [Option.some.injEq, forall_eq', exists_eq_left']
      unfold verifyPkce
      cases hm : a.method with
      | none => simp
      | some m =>
        simp only [Option.getD_some, Option.some.injEq, reduceCtorEq, false_or]
        by_cases h1 : m = plain
        · subst h1; simp [hne]
        · by_cases h2 : m = s256
          · subst h2; simp [h1]
          · simp [h1, h2]

/-- What an exchange must satisfy with respect to the authorization. (Specification: no counterpart in the code.) -/
def Matches (sha : Text → Text) (a : Auth) (expires : Nat) (r : TokenRequest) (now : Nat) : Prop :=
  now ≤ expires ∧ r.client = some a.grant.client ∧ r.redirect = some a.redirect ∧ PkceOk sha a r

theorem checkCode_iff (sha : Text → Text) (a : Auth) (expires : Nat) (r : TokenRequest) (now : Nat) :
    checkCode sha a expires r now = true ↔ Matches sha a expires r now := by
  unfold checkCode Matches
  rw [← checkPkce_iff]
  by_cases h1 : expires < now
  · simp [h1, Nat.not_le.mpr h1]
  · simp only [h1, ↓reduceIte, Nat.le_of_not_lt h1, true_and]
    cases hc : r.client with
    | none => simp
    | some c =>
      by_cases h2 : a.grant.client = c
      · subst h2
        cases hr : r.redirect with
        | none => simp
        | some u =>
          by_cases h3 : a.redirect = u
          · subst h3; simp
          · simp [h3, Ne.symm h3]
      · simp [h2, Ne.symm h2]

/-- An exchange succeeds exactly if the code is stored and the request matches its authorization; then a
token for the grant of the authorization is going to be issued. -/
theorem exchange_iff (sha : Text → Text) (s : State) (r : TokenRequest) (now : Nat) :
    (exchange sha s r now).2 = true ↔ r.grantType = .authorizationCode ∧ ∃ code a expires, r.code = some code ∧
      AMap.get s.codes code = some (a, expires) ∧ Matches sha a expires r now := by
  unfold exchange
  by_cases hg : r.grantType = .authorizationCode
  · simp only [hg, ne_eq, not_true_eq_false, ↓reduceIte, true_and]
    cases hc : r.code with
    | none => simp
    | some code =>
      simp only [Option.some.injEq, exists_and_left, exists_eq_left']
      cases hk : AMap.get s.codes code with
      | none => simp
      | some e =>
        obtain ⟨a, ex⟩ := e
        simp only [Option.some.injEq, Prod.mk.injEq]
        rw [show (∃ x x_1, (a = x ∧ ex = x_1) ∧ Matches sha x x_1 r now) ↔ Matches sha a ex r now from
          ⟨by rintro ⟨_, _, ⟨rfl, rfl⟩, h⟩; exact h, fun h => ⟨a, ex, ⟨rfl, rfl⟩, h⟩⟩]
        rw [← checkCode_iff]
        cases checkCode sha a ex r now <;> simp
  · simp [hg]

theorem codes_from_history (sha : Text → Text) (h : List Op) (s : State) (hr : run sha {} h = some s)
    (code : Text) (a : Auth) (ex : Nat) (hc : AMap.get s.codes code = some (a, ex)) :
    ∃ t, .createCode code a t ∈ h ∧ ex = t + codeTtl := by
  induction h using Verif.snocInduction generalizing s with
  | nil => simp only [run, Option.some.injEq] at hr; subst hr; simp at hc
  | append_singleton h op ih =>
    rw [run_snoc] at hr
    obtain ⟨s₁, h1, h2⟩ := hr
    have keep : ∀ e, AMap.get s₁.codes code = some e → e = (a, ex) →
        ∃ t, Op.createCode code a t ∈ h ++ [op] ∧ ex = t + codeTtl := by
      rintro e he rfl
      obtain ⟨t, ht, he'⟩ := ih s₁ h1 he
      exact ⟨t, by simp [ht], he'⟩
    cases op with
    | createCode c' a' t' =>
      simp only [step, Option.some.injEq] at h2; subst h2
      simp only [AMap.get_insert] at hc
      split at hc
      · next e => cases hc; subst e; exact ⟨t', by simp, rfl⟩
      · exact keep _ hc rfl
    | exchange r now =>
      simp only [step, Option.some.injEq] at h2; subst h2
      unfold exchange at hc
      split at hc
      · exact keep _ hc rfl
      · split at hc
        · exact keep _ hc rfl
        · split at hc
          · exact keep _ hc rfl
          · simp only at hc
            split at hc <;>
            · simp only [AMap.get_remove] at hc
              split at hc
              · cases hc
              · exact keep _ hc rfl
    | create g => simp only [step, Option.some.injEq] at h2; subst h2; exact keep _ hc rfl
    | issue g ac rt now =>
      simp only [step] at h2
      split at h2
      · cases h2; exact keep _ hc rfl
      · cases h2
    | refreshRead rt =>
      simp only [step, Option.some.injEq] at h2; subst h2
      unfold refreshRead at hc
      repeat (first | exact keep _ hc rfl | split at hc)
    | dropToken rt old g =>
      simp only [step] at h2
      split at h2
      · cases h2; exact keep _ hc rfl
      · cases h2
    | dropRefresh rt g =>
      simp only [step] at h2
      split at h2
      · cases h2; exact keep _ hc rfl
      · cases h2
    | revoke1 x =>
      simp only [step] at h2
      split at h2 <;> (cases h2; exact keep _ hc rfl)
    | revoke2 x =>
      simp only [step] at h2
      split at h2
      · split at h2 <;> (cases h2; exact keep _ hc rfl)
      · cases h2

/-- C42: in every history, an exchange succeeds only if its code was created for an authorization whose
client, redirect uri and PKCE challenge the request matches, at most 600 seconds ago; and it leads to a token
for exactly the client, user and scopes of that authorization. -/
theorem C42_exchange_authorized (sha : Text → Text) (h : List Op) (s : State) (hr : run sha {} h = some s)
    (r : TokenRequest) (now : Nat) (hs : (exchange sha s r now).2 = true) :
    ∃ code a t, r.grantType = .authorizationCode ∧ r.code = some code ∧ .createCode code a t ∈ h ∧
      now ≤ t + 600 ∧ r.client = some a.grant.client ∧ r.redirect = some a.redirect ∧ PkceOk sha a r ∧
      (exchange sha s r now).1.pending = .issue a.grant :: s.pending := by
  obtain ⟨hg, code, a, ex, hc, hk, hm⟩ := (exchange_iff sha s r now).mp hs
  obtain ⟨t, ht, rfl⟩ := codes_from_history sha h s hr code a ex hk
  refine ⟨code, a, t, hg, hc, ht, hm.1, hm.2.1, hm.2.2.1, hm.2.2.2, ?_⟩
  have := (checkCode_iff sha a _ r now).mpr hm
  simp [exchange, hg, hc, hk, this]

/-- C42: conversely an exchange of a stored code that matches its authorization succeeds. -/
theorem C42_exchange_complete (sha : Text → Text) (s : State) (r : TokenRequest) (now : Nat) (code : Text)
    (a : Auth) (ex : Nat) (hg : r.grantType = .authorizationCode) (hc : r.code = some code)
    (hk : AMap.get s.codes code = some (a, ex)) (hm : Matches sha a ex r now) :
    (exchange sha s r now).2 = true :=
  (exchange_iff sha s r now).mpr ⟨hg, code, a, ex, hc, hk, hm⟩

/-- (Specification: no counterpart in the code.) -/
def grantA : Grant := ⟨"c".toList, "u".toList, ["read".toList]⟩
/-- (Specification: no counterpart in the code.) -/
def authA : Auth := ⟨grantA, "http://cb".toList, some "xyz".toList, none⟩
/-- (Specification: no counterpart in the code.) -/
def reqA : TokenRequest :=
  ⟨.authorizationCode, some "k".toList, some "http://cb".toList, some "c".toList, none, some "xyz".toList⟩
/-- (Specification: no counterpart in the code.) -/
def codeK : Op := .createCode "k".toList authA 100

example : run id {} [codeK] = some { codes := [("k".toList, (authA, 700))] } ∧
    (exchange id { codes := [("k".toList, (authA, 700))] } reqA 700).2 = true ∧
    (exchange id { codes := [("k".toList, (authA, 700))] } reqA 701).2 = false := by decide +kernel

/-! ### C41: codes are used at most once -/

theorem exchange_removes (sha : Text → Text) (s : State) (r : TokenRequest) (now : Nat) (code : Text)
    (hg : r.grantType = .authorizationCode) (hc : r.code = some code) :
    AMap.get (exchange sha s r now).1.codes code = none := by
  unfold exchange
  simp only [hg, hc, ne_eq, not_true_eq_false, ↓reduceIte]
  cases hk : AMap.get s.codes code with
  | none => exact hk
  | some e => simp only; split <;> simp [AMap.get_remove_self]

theorem exchange_codes_none (sha : Text → Text) (s : State) (r : TokenRequest) (now : Nat) (code : Text)
    (h : AMap.get s.codes code = none) : AMap.get (exchange sha s r now).1.codes code = none := by
  unfold exchange
  split
  · exact h
  · split
    · exact h
    · split
      · exact h
      · simp only; split <;> (simp only [AMap.get_remove]; split <;> simp [h])

theorem code_stays_gone (sha : Text → Text) (h : List Op) (s s' : State) (hr : run sha s h = some s') (code : Text)
    (hf : ∀ a t, .createCode code a t ∉ h) (hn : AMap.get s.codes code = none) :
    AMap.get s'.codes code = none := by
  induction h generalizing s with
  | nil => simp only [run, Option.some.injEq] at hr; subst hr; exact hn
  | cons op h ih =>
    simp only [run] at hr
    cases hs : step sha s op with
    | none => rw [hs] at hr; cases hr
    | some s₁ =>
      rw [hs] at hr
      refine ih s₁ hr (fun a t hm => hf a t (by simp [hm])) ?_
      cases op with
      | createCode c' a' t' =>
        simp only [step, Option.some.injEq] at hs; subst hs
        have : code ≠ c' := fun e => hf a' t' (by simp [e])
        simp [AMap.get_insert, this, hn]
      | exchange r now =>
        simp only [step, Option.some.injEq] at hs; subst hs
        exact exchange_codes_none sha s r now code hn
      | create g => simp only [step, Option.some.injEq] at hs; subst hs; exact hn
      | issue g ac rt now =>
        simp only [step] at hs
        split at hs
        · cases hs; exact hn
        · cases hs
      | refreshRead rt =>
        simp only [step, Option.some.injEq] at hs; subst hs
        unfold refreshRead
        repeat (first | exact hn | split)
      | dropToken rt old g =>
        simp only [step] at hs
        split at hs
        · cases hs; exact hn
        · cases hs
      | dropRefresh rt g =>
        simp only [step] at hs
        split at hs
        · cases hs; exact hn
        · cases hs
      | revoke1 x =>
        simp only [step] at hs
        split at hs <;> (cases hs; exact hn)
      | revoke2 x =>
        simp only [step] at hs
        split at hs
        · split at hs <;> (cases hs; exact hn)
        · cases hs

/-- C41: once an exchange of a code has been attempted, with success or not, every later exchange of the code
fails, in every schedule in which the generator does not produce the code again. -/
theorem C41_code_single_use (sha : Text → Text) (s : State) (r₁ r₂ : TokenRequest) (code : Text)
    (t₁ t₂ : Nat) (hg : r₁.grantType = .authorizationCode) (hc₁ : r₁.code = some code) (hc₂ : r₂.code = some code)
    (between : List Op) (hf : ∀ a t, .createCode code a t ∉ between) (s' : State)
    (hr : run sha (exchange sha s r₁ t₁).1 between = some s') :
    (exchange sha s' r₂ t₂).2 = false := by
  have hn := code_stays_gone sha between _ s' hr code hf (exchange_removes sha s r₁ t₁ code hg hc₁)
  cases he : (exchange sha s' r₂ t₂).2 with
  | false => rfl
  | true =>
    obtain ⟨_, code', a, ex, hc, hk, _⟩ := (exchange_iff sha s' r₂ t₂).mp he
    rw [hc₂] at hc; cases hc
    rw [hn] at hk; cases hk

/-- The codes redeemed successfully during a schedule. (Specification: no counterpart in the code.) -/
def redeemed (sha : Text → Text) (s : State) : List Op → List Text
  | [] => []
  | op :: h =>
    (match op with
      | .exchange r now => if (exchange sha s r now).2 then r.code.toList else []
      | _ => []) ++
      match step sha s op with
      | none => []
      | some s' => redeemed sha s' h

theorem redeemed_gone (sha : Text → Text) (h : List Op) (s s' : State) (hr : run sha s h = some s') (code : Text)
    (hf : ∀ a t, .createCode code a t ∉ h) (hn : AMap.get s.codes code = none) :
    code ∉ redeemed sha s h := by
  induction h generalizing s with
  | nil => simp [redeemed]
  | cons op h ih =>
    simp only [run] at hr
    cases hs : step sha s op with
    | none => rw [hs] at hr; cases hr
    | some s₁ =>
      rw [hs] at hr
      have hf' : ∀ a t, Op.createCode code a t ∉ h := fun a t hm => hf a t (by simp [hm])
      have hn₁ : AMap.get s₁.codes code = none :=
        code_stays_gone sha [op] s s₁ (by simp [run, hs]) code
          (fun a t hm => hf a t (by rw [List.mem_singleton] at hm; simp [hm])) hn
      simp only [redeemed, hs, List.mem_append, not_or]
      refine ⟨?_, ih s₁ hr hf' hn₁⟩
      cases op with
      | exchange r now =>
        simp only
        split
        · next he =>
          obtain ⟨_, c, a, ex, hc, hk, _⟩ := (exchange_iff sha s r now).mp he
          rw [hc]
          simp only [Option.toList_some, List.mem_singleton]
          rintro rfl
          rw [hn] at hk; cases hk
        · simp
      | _ => simp

/-- C41: over every schedule in which each code is generated at most once, each code is redeemed at most
once. -/
theorem C41_redeemed_at_most_once (sha : Text → Text) (h : List Op) (s s' : State) (hr : run sha s h = some s')
    (code : Text)
    (hf : ∀ before a t after, h = before ++ .createCode code a t :: after →
      AMap.get s.codes code = none ∧ ∀ a' t', .createCode code a' t' ∉ before ∧ .createCode code a' t' ∉ after) :
    (redeemed sha s h).count code ≤ 1 := by
  induction h generalizing s with
  | nil => simp [redeemed]
  | cons op h ih =>
    simp only [run] at hr
    cases hs : step sha s op with
    | none => rw [hs] at hr; cases hr
    | some s₁ =>
      rw [hs] at hr
      simp only [redeemed, hs, List.count_append]
      by_cases hop : ∃ a t, op = .createCode code a t
      · -- the code is created here; later operations do not create it
        obtain ⟨a, t, rfl⟩ := hop
        have hfa := hf [] a t h rfl
        have hno : ∀ a' t', Op.createCode code a' t' ∉ h := fun a' t' => (hfa.2 a' t').2
        have := ih s₁ hr (fun b a' t' c he => absurd (by rw [he]; simp) (hno a' t'))
        simpa using this
      · by_cases hred : code ∈ (match op with
            | .exchange r now => if (exchange sha s r now).2 then r.code.toList else []
            | _ => [])
        · -- redeemed here: gone afterwards
          cases op with
          | exchange r now =>
            simp only at hred
            split at hred
            · next he =>
              obtain ⟨hg, c, a, ex, hc, hk, _⟩ := (exchange_iff sha s r now).mp he
              rw [hc] at hred
              simp only [Option.toList_some, List.mem_singleton] at hred
              subst hred
              have hs' := hs
              simp only [step, Option.some.injEq] at hs'
              subst hs'
              have hnone : ∀ a' t', Op.createCode code a' t' ∉ h := by
                intro a' t' hm
                obtain ⟨b, c', rfl⟩ := List.append_of_mem hm
                have := (hf (.exchange r now :: b) a' t' c' rfl).1
                rw [this] at hk; cases hk
              have := redeemed_gone sha h _ s' hr code hnone (exchange_removes sha s r now code hg hc)
              rw [List.count_eq_zero.mpr this]
              simp [he, hc]
            · cases hred
          | _ => cases hred
        · rw [List.count_eq_zero.mpr hred, Nat.zero_add]
          refine ih s₁ hr ?_
          intro b a t c he
          obtain ⟨h1, h2⟩ := hf (op :: b) a t c (by rw [he]; rfl)
          refine ⟨?_, fun a' t' => ⟨fun hm => (h2 a' t').1 (by simp [hm]), (h2 a' t').2⟩⟩
          exact code_stays_gone sha [op] s s₁ (by simp [run, hs]) code
            (fun a' t' hm => hop ⟨a', t', by rw [List.mem_singleton] at hm; exact hm.symm⟩) h1

example : redeemed id {} [codeK, .exchange reqA 200, .exchange reqA 201] = ["k".toList] := by decide +kernel
example : redeemed id {} [codeK, .exchange { reqA with client := none } 200, .exchange reqA 201] = [] := by
  decide +kernel

/-! ### C44: tokens -/

/-- The operation makes access token `t`, issued together with refresh token `rt`, invalid: revocation of
either, or replacement by a refresh. (Specification: no counterpart in the code.) -/
def Kills (t rt : Text) (op : Op) : Prop :=
  op = .revoke1 t ∨ op = .revoke2 rt ∨ ∃ rt' g, op = .dropToken rt' t g

/-- After the history, access token `t` with refresh token `rt` has been issued for `g` at time `now` and not
been made invalid since. (Specification: no counterpart in the code.) -/
def Live (h : List Op) (t rt : Text) (g : Grant) (now : Nat) : Prop :=
  ∃ before after, h = before ++ .issue g t rt now :: after ∧ ∀ op ∈ after, ¬ Kills t rt op

/-- The tokens were issued together. (Specification: no counterpart in the code.) -/
def Issued (h : List Op) (t rt : Text) : Prop := ∃ g now, .issue g t rt now ∈ h

/-- Access tokens of the issuing steps. (Specification: no counterpart in the code.) -/
def accessOf : Op → Option Text
  | .issue _ t _ _ => some t
  | _ => none

/-- Refresh tokens of the issuing steps. (Specification: no counterpart in the code.) -/
def refreshOf : Op → Option Text
  | .issue _ _ rt _ => some rt
  | _ => none

theorem live_snoc (h : List Op) (op : Op) (t rt : Text) (g : Grant) (now : Nat) :
    Live (h ++ [op]) t rt g now ↔ op = .issue g t rt now ∨ (Live h t rt g now ∧ ¬ Kills t rt op) := by
  constructor
  · rintro ⟨b, a, heq, hd⟩
    cases a using Verif.snocInduction with
    | nil =>
      have := List.append_inj' heq rfl
      simp only [List.cons.injEq, and_true] at this
      exact .inl this.2
    | append_singleton a' x _ =>
      have h2 : h ++ [op] = (b ++ .issue g t rt now :: a') ++ [x] := by simpa using heq
      have := List.append_inj' h2 rfl
      simp only [List.cons.injEq, and_true] at this
      refine .inr ⟨⟨b, a', this.1, fun d hd' => hd d (by simp [hd'])⟩, ?_⟩
      rw [this.2]; exact hd x (by simp)
  · rintro (rfl | ⟨⟨b, a, rfl, hd⟩, hn⟩)
    · exact ⟨h, [], rfl, by simp⟩
    · refine ⟨b, a ++ [op], by simp, ?_⟩
      intro d hd'
      simp only [List.mem_append, List.mem_singleton] at hd'
      rcases hd' with h1 | rfl
      · exact hd d h1
      · exact hn

theorem live_issued {h : List Op} {t rt : Text} {g : Grant} {now : Nat} (hl : Live h t rt g now) : Issued h t rt := by
  obtain ⟨b, a, rfl, _⟩ := hl
  exact ⟨g, now, by simp⟩

theorem issued_access {h : List Op} {t rt : Text} (hi : Issued h t rt) : t ∈ h.filterMap accessOf := by
  obtain ⟨g, now, hm⟩ := hi
  exact List.mem_filterMap.mpr ⟨_, hm, rfl⟩

theorem issued_refresh {h : List Op} {t rt : Text} (hi : Issued h t rt) : rt ∈ h.filterMap refreshOf := by
  obtain ⟨g, now, hm⟩ := hi
  exact List.mem_filterMap.mpr ⟨_, hm, rfl⟩

theorem issued_mono {h : List Op} {t rt : Text} (op : Op) (hi : Issued h t rt) : Issued (h ++ [op]) t rt := by
  obtain ⟨g, now, hm⟩ := hi
  exact ⟨g, now, by simp [hm]⟩

theorem nodup_filterMap_inj {α β : Type} (f : α → Option β) (l : List α) (hn : (l.filterMap f).Nodup) (x y : α) (b : β)
    (hx : x ∈ l) (hy : y ∈ l) (fx : f x = some b) (fy : f y = some b) : x = y := by
  induction l with
  | nil => cases hx
  | cons a l ih =>
    have hn' : (l.filterMap f).Nodup := by
      rw [List.filterMap_cons] at hn
      split at hn
      · exact hn
      · exact (List.nodup_cons.mp hn).2
    rcases List.mem_cons.mp hx with rfl | hx' <;> rcases List.mem_cons.mp hy with rfl | hy'
    · rfl
    · rw [List.filterMap_cons, fx] at hn
      exact absurd (List.mem_filterMap.mpr ⟨y, hy', fy⟩) (List.nodup_cons.mp hn).1
    · rw [List.filterMap_cons, fy] at hn
      exact absurd (List.mem_filterMap.mpr ⟨x, hx', fx⟩) (List.nodup_cons.mp hn).1
    · exact ih hn' hx' hy'

theorem issued_unique_access {h : List Op} (hn : (h.filterMap refreshOf).Nodup) {t t' rt : Text}
    (h1 : Issued h t rt) (h2 : Issued h t' rt) : t = t' := by
  obtain ⟨g, now, hm⟩ := h1
  obtain ⟨g', now', hm'⟩ := h2
  have := nodup_filterMap_inj refreshOf h hn _ _ rt hm hm' rfl rfl
  simp only [Op.issue.injEq] at this
  exact this.2.1

theorem issued_unique_refresh {h : List Op} (hn : (h.filterMap accessOf).Nodup) {t rt rt' : Text}
    (h1 : Issued h t rt) (h2 : Issued h t rt') : rt = rt' := by
  obtain ⟨g, now, hm⟩ := h1
  obtain ⟨g', now', hm'⟩ := h2
  have := nodup_filterMap_inj accessOf h hn _ _ t hm hm' rfl rfl
  simp only [Op.issue.injEq] at this
  exact this.2.2.1

/-- The maps and the methods in progress reflect the history. (Specification: no counterpart in the code.) -/
structure Inv (h : List Op) (s : State) : Prop where
  tokens : ∀ t g ex, AMap.get s.tokens t = some (g, ex) ↔ ∃ rt now, ex = now + tokenTtl ∧ Live h t rt g now
  refreshLive : ∀ t rt g now, Live h t rt g now → AMap.get s.refresh rt = some t
  refreshIssued : ∀ rt t, AMap.get s.refresh rt = some t → Issued h t rt
  dropTok : ∀ rt old g, .dropToken rt old g ∈ s.pending → Issued h old rt
  dropRef : ∀ rt g, .dropRefresh rt g ∈ s.pending →
    (∃ t, Issued h t rt) ∧ ∀ t g' now, ¬ Live h t rt g' now

theorem inv_same {h : List Op} {s s' : State} {op : Op} (hi : Inv h s) (h1 : s'.tokens = s.tokens)
    (h2 : s'.refresh = s.refresh)
    (hp1 : ∀ rt old g, Cont.dropToken rt old g ∈ s'.pending → Issued h old rt)
    (hp2 : ∀ rt g, Cont.dropRefresh rt g ∈ s'.pending →
      (∃ t, Issued h t rt) ∧ ∀ t g' now, ¬ Live h t rt g' now)
    (hni : ∀ g t rt now, op ≠ .issue g t rt now) (hk : ∀ t rt g now, Live h t rt g now → ¬ Kills t rt op) :
    Inv (h ++ [op]) s' where
  tokens t g ex := by
    rw [h1, hi.tokens]
    constructor
    · rintro ⟨rt, now, he, hl⟩; exact ⟨rt, now, he, (live_snoc ..).mpr (.inr ⟨hl, hk _ _ _ _ hl⟩)⟩
    · rintro ⟨rt, now, he, hl⟩
      rcases (live_snoc ..).mp hl with h' | ⟨h', _⟩
      · exact absurd h' (hni _ _ _ _)
      · exact ⟨rt, now, he, h'⟩
  refreshLive t rt g now hl := by
    rw [h2]
    rcases (live_snoc ..).mp hl with h' | ⟨h', _⟩
    · exact absurd h' (hni _ _ _ _)
    · exact hi.refreshLive t rt g now h'
  refreshIssued rt t hg := by rw [h2] at hg; exact issued_mono op (hi.refreshIssued rt t hg)
  dropTok rt old g hm := issued_mono op (hp1 rt old g hm)
  dropRef rt g hm := by
    obtain ⟨⟨t, ht⟩, hn⟩ := hp2 rt g hm
    refine ⟨⟨t, issued_mono op ht⟩, ?_⟩
    intro t' g' now hl
    rcases (live_snoc ..).mp hl with h' | ⟨h', _⟩
    · exact absurd h' (hni _ _ _ _)
    · exact hn t' g' now h'

theorem inv_run (sha : Text → Text) (h : List Op) (s : State) (hr : run sha {} h = some s)
    (hna : (h.filterMap accessOf).Nodup) (hnr : (h.filterMap refreshOf).Nodup) : Inv h s := by
  induction h using Verif.snocInduction generalizing s with
  | nil =>
    simp only [run, Option.some.injEq] at hr; subst hr
    have hno : ∀ t rt g now, ¬ Live [] t rt g now := by
      rintro t rt g now ⟨b, a, he, _⟩; simp at he
    exact ⟨by simp [hno], fun _ _ _ _ hl => absurd hl (hno _ _ _ _), by simp, by simp, by simp⟩
  | append_singleton h op ih =>
    rw [run_snoc] at hr
    obtain ⟨s₁, h1, h2⟩ := hr
    have hna' : (h.filterMap accessOf).Nodup := by
      rw [List.filterMap_append] at hna; exact (List.nodup_append.mp hna).1
    have hnr' : (h.filterMap refreshOf).Nodup := by
      rw [List.filterMap_append] at hnr; exact (List.nodup_append.mp hnr).1
    have hi := ih s₁ h1 hna' hnr'
    cases op with
    | createCode c a t =>
      simp only [step, Option.some.injEq] at h2; subst h2
      exact inv_same hi rfl rfl hi.dropTok hi.dropRef (by simp) (by simp [Kills])
    | exchange r now =>
      simp only [step, Option.some.injEq] at h2; subst h2
      have hp : (exchange sha s₁ r now).1.tokens = s₁.tokens ∧ (exchange sha s₁ r now).1.refresh = s₁.refresh ∧
          ((exchange sha s₁ r now).1.pending = s₁.pending ∨
            ∃ g, (exchange sha s₁ r now).1.pending = .issue g :: s₁.pending) := by
        unfold exchange
        split
        · simp
        · split
          · simp
          · split
            · simp
            · simp only; split <;> simp
      obtain ⟨e1, e2, e3⟩ := hp
      refine inv_same hi e1 e2 ?_ ?_ (by simp) (by simp [Kills])
      · rcases e3 with e | ⟨g, e⟩ <;> rw [e]
        · exact hi.dropTok
        · intro rt old g' hm; exact hi.dropTok rt old g' (by simpa using hm)
      · rcases e3 with e | ⟨g, e⟩ <;> rw [e]
        · exact hi.dropRef
        · intro rt g' hm; exact hi.dropRef rt g' (by simpa using hm)
    | create g =>
      simp only [step, Option.some.injEq] at h2; subst h2
      exact inv_same hi rfl rfl (fun rt old g' hm => hi.dropTok rt old g' (by simpa using hm))
        (fun rt g' hm => hi.dropRef rt g' (by simpa using hm)) (by simp) (by simp [Kills])
    | issue g t₀ rt₀ now₀ =>
      simp only [step] at h2
      split at h2
      · cases h2
        have hft : t₀ ∉ h.filterMap accessOf := by
          rw [List.filterMap_append] at hna
          intro hm
          exact (List.nodup_append.mp hna).2.2 t₀ hm t₀ (by simp [accessOf]) rfl
        have hfr : rt₀ ∉ h.filterMap refreshOf := by
          rw [List.filterMap_append] at hnr
          intro hm
          exact (List.nodup_append.mp hnr).2.2 rt₀ hm rt₀ (by simp [refreshOf]) rfl
        refine ⟨?_, ?_, ?_, ?_, ?_⟩
        · intro t g' ex
          simp only [AMap.get_insert]
          split
          · next e =>
            subst e
            simp only [Option.some.injEq, Prod.mk.injEq]
            constructor
            · rintro ⟨rfl, rfl⟩; exact ⟨rt₀, now₀, rfl, (live_snoc ..).mpr (.inl rfl)⟩
            · rintro ⟨rt, now, rfl, hl⟩
              rcases (live_snoc ..).mp hl with h' | ⟨h', _⟩
              · simp only [Op.issue.injEq] at h'; exact ⟨h'.1, by rw [h'.2.2.2]⟩
              · exact absurd (issued_access (live_issued h')) hft
          · next e =>
            rw [hi.tokens]
            constructor
            · rintro ⟨rt, now, he, hl⟩
              exact ⟨rt, now, he, (live_snoc ..).mpr (.inr ⟨hl, by simp [Kills]⟩)⟩
            · rintro ⟨rt, now, he, hl⟩
              rcases (live_snoc ..).mp hl with h' | ⟨h', _⟩
              · simp only [Op.issue.injEq] at h'; exact absurd h'.2.1.symm e
              · exact ⟨rt, now, he, h'⟩
        · intro t rt g' now hl
          simp only [AMap.get_insert]
          rcases (live_snoc ..).mp hl with h' | ⟨h', _⟩
          · simp only [Op.issue.injEq] at h'
            simp [h'.2.1, h'.2.2.1]
          · have : rt ≠ rt₀ := fun e => hfr (e ▸ issued_refresh (live_issued h'))
            simp [this, hi.refreshLive t rt g' now h']
        · intro rt t hg
          simp only [AMap.get_insert] at hg
          split at hg
          · next e => cases hg; subst e; exact ⟨g, now₀, by simp⟩
          · exact issued_mono _ (hi.refreshIssued rt t hg)
        · intro rt old g' hm
          exact issued_mono _ (hi.dropTok rt old g' (List.mem_of_mem_erase hm))
        · intro rt g' hm
          obtain ⟨⟨t, ht⟩, hn⟩ := hi.dropRef rt g' (List.mem_of_mem_erase hm)
          refine ⟨⟨t, issued_mono _ ht⟩, ?_⟩
          intro t' g'' now hl
          rcases (live_snoc ..).mp hl with h' | ⟨h', _⟩
          · simp only [Op.issue.injEq] at h'
            exact hfr (h'.2.2.1 ▸ issued_refresh ht)
          · exact hn t' g'' now h'
      · cases h2
    | refreshRead rt₀ =>
      simp only [step, Option.some.injEq] at h2; subst h2
      unfold refreshRead
      split
      · exact inv_same hi rfl rfl hi.dropTok hi.dropRef (by simp) (by simp [Kills])
      · next old hold =>
        split
        · exact inv_same hi rfl rfl hi.dropTok hi.dropRef (by simp) (by simp [Kills])
        · next g ex hg =>
          refine inv_same hi rfl rfl ?_ ?_ (by simp) (by simp [Kills])
          · intro rt old' g' hm
            simp only [List.mem_cons, Cont.dropToken.injEq] at hm
            rcases hm with ⟨rfl, rfl, rfl⟩ | hm
            · exact hi.refreshIssued _ _ hold
            · exact hi.dropTok rt old' g' hm
          · intro rt g' hm; exact hi.dropRef rt g' (by simpa using hm)
    | dropToken rt₀ old₀ g₀ =>
      simp only [step] at h2
      split at h2
      · next hmem =>
        cases h2
        have hkill : ∀ t rt, Kills t rt (.dropToken rt₀ old₀ g₀) ↔ t = old₀ := by
          intro t rt
          simp only [Kills, reduceCtorEq, false_or, Op.dropToken.injEq]
          constructor
          · rintro ⟨_, _, _, h, _⟩; exact h.symm
          · rintro rfl; exact ⟨rt₀, g₀, rfl, rfl, rfl⟩
        have hlive : ∀ t rt g now, Live (h ++ [.dropToken rt₀ old₀ g₀]) t rt g now ↔
            Live h t rt g now ∧ t ≠ old₀ := by
          intro t rt g now
          rw [live_snoc, hkill]; simp
        refine ⟨?_, ?_, ?_, ?_, ?_⟩
        · intro t g ex
          simp only [AMap.get_remove, hlive]
          split
          · next e => simp [e]
          · next e => rw [hi.tokens]; simp [e]
        · intro t rt g now hl
          exact hi.refreshLive t rt g now ((hlive ..).mp hl).1
        · intro rt t hg; exact issued_mono _ (hi.refreshIssued rt t hg)
        · intro rt old g hm
          simp only [List.mem_cons, reduceCtorEq, false_or] at hm
          exact issued_mono _ (hi.dropTok rt old g (List.mem_of_mem_erase hm))
        · intro rt g hm
          simp only [List.mem_cons, Cont.dropRefresh.injEq] at hm
          rcases hm with ⟨rfl, rfl⟩ | hm
          · have hiss := hi.dropTok _ _ _ hmem
            refine ⟨⟨old₀, issued_mono _ hiss⟩, ?_⟩
            intro t g' now hl
            obtain ⟨hl', hne⟩ := (hlive ..).mp hl
            exact hne (issued_unique_access hnr' (live_issued hl') hiss)
          · obtain ⟨⟨t, ht⟩, hn⟩ := hi.dropRef rt g (List.mem_of_mem_erase hm)
            exact ⟨⟨t, issued_mono _ ht⟩, fun t' g' now hl => hn t' g' now ((hlive ..).mp hl).1⟩
      · cases h2
    | dropRefresh rt₀ g₀ =>
      simp only [step] at h2
      split at h2
      · next hmem =>
        cases h2
        have hlive : ∀ t rt g now, Live (h ++ [.dropRefresh rt₀ g₀]) t rt g now ↔ Live h t rt g now := by
          intro t rt g now
          rw [live_snoc]; simp [Kills]
        refine ⟨?_, ?_, ?_, ?_, ?_⟩
        · intro t g ex; simp only [hlive]; exact hi.tokens t g ex
        · intro t rt g now hl
          rw [hlive] at hl
          have : rt ≠ rt₀ := by rintro rfl; exact (hi.dropRef _ _ hmem).2 t g now hl
          simp only [AMap.get_remove, if_neg this]
          exact hi.refreshLive t rt g now hl
        · intro rt t hg
          simp only [AMap.get_remove] at hg
          split at hg
          · cases hg
          · exact issued_mono _ (hi.refreshIssued rt t hg)
        · intro rt old g hm
          simp only [List.mem_cons, reduceCtorEq, false_or] at hm
          exact issued_mono _ (hi.dropTok rt old g (List.mem_of_mem_erase hm))
        · intro rt g hm
          simp only [List.mem_cons, reduceCtorEq, false_or] at hm
          obtain ⟨⟨t, ht⟩, hn⟩ := hi.dropRef rt g (List.mem_of_mem_erase hm)
          exact ⟨⟨t, issued_mono _ ht⟩, fun t' g' now hl => hn t' g' now ((hlive ..).mp hl)⟩
      · cases h2
    | revoke1 x =>
      simp only [step] at h2
      have hlive : ∀ t rt g now, Live (h ++ [.revoke1 x]) t rt g now ↔ Live h t rt g now ∧ t ≠ x := by
        intro t rt g now
        rw [live_snoc]; simp [Kills, eq_comm]
      split at h2
      · cases h2
        refine ⟨?_, ?_, ?_, ?_, ?_⟩
        · intro t g ex
          simp only [AMap.get_remove, hlive]
          split
          · next e => simp [e]
          · next e => rw [hi.tokens]; simp [e]
        · intro t rt g now hl; exact hi.refreshLive t rt g now ((hlive ..).mp hl).1
        · intro rt t hg; exact issued_mono _ (hi.refreshIssued rt t hg)
        · intro rt old g hm; exact issued_mono _ (hi.dropTok rt old g hm)
        · intro rt g hm
          obtain ⟨⟨t, ht⟩, hn⟩ := hi.dropRef rt g hm
          exact ⟨⟨t, issued_mono _ ht⟩, fun t' g' now hl => hn t' g' now ((hlive ..).mp hl).1⟩
      · next hc =>
        cases h2
        refine inv_same hi rfl rfl (fun rt old g' hm => hi.dropTok rt old g' (by simpa using hm))
          (fun rt g' hm => hi.dropRef rt g' (by simpa using hm)) (by simp) ?_
        intro t rt g now hl hk
        simp only [Kills, Op.revoke1.injEq, reduceCtorEq, exists_false, or_false] at hk
        subst hk
        have := (hi.tokens x g (now + tokenTtl)).mpr ⟨rt, now, rfl, hl⟩
        exact hc (by simp [AMap.contains, this])
    | revoke2 x =>
      simp only [step] at h2
      have hlive : ∀ t rt g now, Live (h ++ [.revoke2 x]) t rt g now ↔ Live h t rt g now ∧ rt ≠ x := by
        intro t rt g now
        rw [live_snoc]; simp [Kills, eq_comm]
      split at h2
      · split at h2
        · next access hx =>
          cases h2
          refine ⟨?_, ?_, ?_, ?_, ?_⟩
          · intro t g ex
            simp only [AMap.get_remove, hlive]
            split
            · next e =>
              subst e
              simp only [reduceCtorEq, false_iff, not_exists, not_and]
              intro rt now _ hl hne
              exact hne (issued_unique_refresh hna' (live_issued hl) (hi.refreshIssued _ _ hx))
            · next e =>
              rw [hi.tokens]
              constructor
              · rintro ⟨rt, now, he, hl⟩
                refine ⟨rt, now, he, hl, ?_⟩
                rintro rfl
                have := hi.refreshLive t rt g now hl
                rw [hx] at this; cases this; exact e rfl
              · rintro ⟨rt, now, he, hl, _⟩; exact ⟨rt, now, he, hl⟩
          · intro t rt g now hl
            obtain ⟨hl', hne⟩ := (hlive ..).mp hl
            simp only [AMap.get_remove, if_neg hne]
            exact hi.refreshLive t rt g now hl'
          · intro rt t hg
            simp only [AMap.get_remove] at hg
            split at hg
            · cases hg
            · exact issued_mono _ (hi.refreshIssued rt t hg)
          · intro rt old g hm; exact issued_mono _ (hi.dropTok rt old g (List.mem_of_mem_erase hm))
          · intro rt g hm
            obtain ⟨⟨t, ht⟩, hn⟩ := hi.dropRef rt g (List.mem_of_mem_erase hm)
            exact ⟨⟨t, issued_mono _ ht⟩, fun t' g' now hl => hn t' g' now ((hlive ..).mp hl).1⟩
        · next hx =>
          cases h2
          refine inv_same hi rfl rfl (fun rt old g' hm => hi.dropTok rt old g' (List.mem_of_mem_erase hm))
            (fun rt g' hm => hi.dropRef rt g' (List.mem_of_mem_erase hm)) (by simp) ?_
          intro t rt g now hl hk
          simp only [Kills, Op.revoke2.injEq, reduceCtorEq, exists_false, or_false, false_or] at hk
          subst hk
          have := hi.refreshLive t x g now hl
          rw [hx] at this; cases this
      · cases h2

/-- C44: in every schedule with distinct generated tokens, `validate_token` accepts a token for a grant iff
the token was issued for it, not made invalid since by revocation (of it or of its refresh token) or by a
refresh, and issued at most 3600 seconds ago. -/
theorem C44_validate_iff (sha : Text → Text) (h : List Op) (s : State) (hr : run sha {} h = some s)
    (hna : (h.filterMap accessOf).Nodup) (hnr : (h.filterMap refreshOf).Nodup) (t : Text) (now : Nat) (g : Grant) :
    validate s t now = some g ↔ ∃ rt issued, Live h t rt g issued ∧ now ≤ issued + 3600 := by
  have httl : tokenTtl = 3600 := rfl
  have hi := inv_run sha h s hr hna hnr
  unfold validate
  cases hk : AMap.get s.tokens t with
  | none =>
    simp only [reduceCtorEq, false_iff, not_exists, not_and]
    intro rt issued hl
    have := (hi.tokens t g _).mpr ⟨rt, issued, rfl, hl⟩
    rw [hk] at this; cases this
  | some e =>
    obtain ⟨g', ex⟩ := e
    simp only
    obtain ⟨rt', issued', he', hl'⟩ := (hi.tokens t g' ex).mp hk
    constructor
    · intro hv
      split at hv
      · cases hv
      · cases hv; exact ⟨rt', issued', hl', by omega⟩
    · rintro ⟨rt, issued, hl, hle⟩
      have := (hi.tokens t g _).mpr ⟨rt, issued, rfl, hl⟩
      rw [hk] at this
      simp only [Option.some.injEq, Prod.mk.injEq] at this
      obtain ⟨rfl, rfl⟩ := this
      rw [if_neg (by omega)]

/-- (Specification: no counterpart in the code.) -/
def hIssue : List Op := [.create grantA, .issue grantA "t".toList "r".toList 50]

example : (run id {} hIssue).map (fun s => (validate s "t".toList 3650, validate s "t".toList 3651)) =
    some (some grantA, none) := by decide +kernel
example : (run id {} (hIssue ++ [.revoke1 "r".toList, .revoke2 "r".toList])).map
    (fun s => validate s "t".toList 60) = some none := by decide +kernel

/-! ### C43: refresh tokens -/

theorem refresh_stays_gone (sha : Text → Text) (h : List Op) (s s' : State) (hr : run sha s h = some s') (rt : Text)
    (hf : ∀ g t now, .issue g t rt now ∉ h) (hn : AMap.get s.refresh rt = none) :
    AMap.get s'.refresh rt = none := by
  induction h generalizing s with
  | nil => simp only [run, Option.some.injEq] at hr; subst hr; exact hn
  | cons op h ih =>
    simp only [run] at hr
    cases hs : step sha s op with
    | none => rw [hs] at hr; cases hr
    | some s₁ =>
      rw [hs] at hr
      refine ih s₁ hr (fun g t now hm => hf g t now (by simp [hm])) ?_
      cases op with
      | createCode c' a' t' => simp only [step, Option.some.injEq] at hs; subst hs; exact hn
      | exchange r now =>
        simp only [step, Option.some.injEq] at hs; subst hs
        unfold exchange
        split
        · exact hn
        · split
          · exact hn
          · split
            · exact hn
            · simp only; split <;> exact hn
      | create g => simp only [step, Option.some.injEq] at hs; subst hs; exact hn
      | issue g ac rt' now =>
        simp only [step] at hs
        split at hs
        · cases hs
          have : rt ≠ rt' := by rintro rfl; exact hf g ac now (by simp)
          simp [AMap.get_insert, this, hn]
        · cases hs
      | refreshRead rt' =>
        simp only [step, Option.some.injEq] at hs; subst hs
        unfold refreshRead
        repeat (first | exact hn | split)
      | dropToken rt' old g =>
        simp only [step] at hs
        split at hs
        · cases hs; exact hn
        · cases hs
      | dropRefresh rt' g =>
        simp only [step] at hs
        split at hs
        · cases hs; simp only [AMap.get_remove]; split <;> simp [hn]
        · cases hs
      | revoke1 x =>
        simp only [step] at hs
        split at hs <;> (cases hs; exact hn)
      | revoke2 x =>
        simp only [step] at hs
        split at hs
        · split at hs
          · cases hs; simp only [AMap.get_remove]; split <;> simp [hn]
          · cases hs; exact hn
        · cases hs

/-- C43: once a refresh has passed the removal of the presented refresh token, no refresh that starts later
with this token succeeds, in any schedule (the generator does not repeat the token).

Partial: a second refresh that looked the token up before its removal succeeds too
(`C43_double_refresh`). -/
theorem C43_used_refresh_token_rejected_partial (sha : Text → Text) (s s₁ s' : State) (rt : Text) (g : Grant)
    (later : List Op) (h1 : step sha s (.dropRefresh rt g) = some s₁) (h2 : run sha s₁ later = some s')
    (hf : ∀ g t now, .issue g t rt now ∉ later) :
    (refreshRead s' rt).2 = false := by
  have hn : AMap.get s₁.refresh rt = none := by
    simp only [step] at h1
    split at h1
    · cases h1; exact AMap.get_remove_self ..
    · cases h1
  have := refresh_stays_gone sha later s₁ s' h2 rt hf hn
  simp [refreshRead, this]

/-- C43: a refresh that is not interrupted succeeds exactly for a known refresh token with a stored access
token; it removes both and issues a token for the same grant. -/
theorem C43_uninterrupted_refresh (sha : Text → Text) (s : State) (rt : Text) :
    ((refreshRead s rt).2 = true ↔ ∃ old g ex, AMap.get s.refresh rt = some old ∧ AMap.get s.tokens old = some (g, ex)) ∧
      ∀ old g ex, AMap.get s.refresh rt = some old → AMap.get s.tokens old = some (g, ex) →
        run sha s [.refreshRead rt, .dropToken rt old g, .dropRefresh rt g] =
          some { s with tokens := AMap.remove s.tokens old, refresh := AMap.remove s.refresh rt
                        pending := .issue g :: s.pending } := by
  constructor
  · unfold refreshRead
    cases hr : AMap.get s.refresh rt with
    | none => simp
    | some old =>
      cases ht : AMap.get s.tokens old with
      | none => simp [ht]
      | some e => obtain ⟨g, ex⟩ := e; simp [ht]
  · intro old g ex hr ht
    simp [run, step, refreshRead, hr, ht, List.erase_cons_head]

/-- Finding: two concurrent refreshes with the same refresh token both obtain a new token. -/
theorem C43_double_refresh :
    (run id {} (hIssue ++ [.refreshRead "r".toList, .refreshRead "r".toList,
      .dropToken "r".toList "t".toList grantA, .dropToken "r".toList "t".toList grantA,
      .dropRefresh "r".toList grantA, .dropRefresh "r".toList grantA,
      .issue grantA "t2".toList "r2".toList 60, .issue grantA "t3".toList "r3".toList 60])).map
      (fun s => (validate s "t2".toList 61, validate s "t3".toList 61)) = some (some grantA, some grantA) := by
  decide +kernel

/-- Finding: revoking the refresh token while a refresh with it is in progress does not prevent the new
token. -/
theorem C43_revocation_during_refresh :
    (run id {} (hIssue ++ [.refreshRead "r".toList, .revoke1 "r".toList, .revoke2 "r".toList,
      .dropToken "r".toList "t".toList grantA, .dropRefresh "r".toList grantA,
      .issue grantA "t2".toList "r2".toList 60])).map
      (fun s => validate s "t2".toList 61) = some (some grantA) := by
  decide +kernel

/-! ### C92: no privilege escalation -/

/-- The grant was given by the user: by `create_access_token`, or by an authorization code.
(Specification: no counterpart in the code.) -/
def Granted (h : List Op) (g : Grant) : Prop :=
  .create g ∈ h ∨ ∃ code a t, .createCode code a t ∈ h ∧ a.grant = g

/-- The grant a method in progress is going to issue. (Specification: no counterpart in the code.) -/
def contGrant : Cont → Option Grant
  | .issue g => some g
  | .dropToken _ _ g => some g
  | .dropRefresh _ g => some g
  | .revoke2 _ => none

theorem granted_mono {h : List Op} {g : Grant} (op : Op) (hg : Granted h g) : Granted (h ++ [op]) g := by
  rcases hg with h1 | ⟨c, a, t, h1, h2⟩
  · exact .inl (by simp [h1])
  · exact .inr ⟨c, a, t, by simp [h1], h2⟩

/-- C92: in every schedule, every valid token and every token about to be issued carries a client, user and
scopes given to `create_access_token` or to `create_authorization_code`; refreshing never changes them. -/
theorem C92_no_escalation (sha : Text → Text) (h : List Op) (s : State) (hr : run sha {} h = some s) :
    (∀ t now g, validate s t now = some g → Granted h g) ∧
      ∀ k ∈ s.pending, ∀ g, contGrant k = some g → Granted h g := by
  suffices hall : (∀ t g ex, AMap.get s.tokens t = some (g, ex) → Granted h g) ∧
      ∀ k ∈ s.pending, ∀ g, contGrant k = some g → Granted h g by
    refine ⟨?_, hall.2⟩
    intro t now g hv
    unfold validate at hv
    split at hv
    · cases hv
    · next g' ex hk =>
      split at hv
      · cases hv
      · cases hv; exact hall.1 t g ex hk
  induction h using Verif.snocInduction generalizing s with
  | nil => simp only [run, Option.some.injEq] at hr; subst hr; simp
  | append_singleton h op ih =>
    rw [run_snoc] at hr
    obtain ⟨s₁, h1, h2⟩ := hr
    obtain ⟨i1, i2⟩ := ih s₁ h1
    have j1 : ∀ t g ex, AMap.get s₁.tokens t = some (g, ex) → Granted (h ++ [op]) g :=
      fun t g ex hk => granted_mono op (i1 t g ex hk)
    have j2 : ∀ k ∈ s₁.pending, ∀ g, contGrant k = some g → Granted (h ++ [op]) g :=
      fun k hk g hg => granted_mono op (i2 k hk g hg)
    have rem : ∀ x t g ex, AMap.get (AMap.remove s₁.tokens x) t = some (g, ex) → Granted (h ++ [op]) g := by
      intro x t g ex hk
      rw [AMap.get_remove] at hk
      split at hk
      · cases hk
      · exact j1 t g ex hk
    have add : ∀ k₀ : Cont, (∀ g, contGrant k₀ = some g → Granted (h ++ [op]) g) →
        ∀ l : List Cont, (∀ k ∈ l, k ∈ s₁.pending) →
        ∀ k ∈ k₀ :: l, ∀ g, contGrant k = some g → Granted (h ++ [op]) g := by
      intro k₀ hk₀ l hl k hk g hg
      rcases List.mem_cons.mp hk with rfl | hk
      · exact hk₀ g hg
      · exact j2 k (hl k hk) g hg
    cases op with
    | createCode c a t => simp only [step, Option.some.injEq] at h2; subst h2; exact ⟨j1, j2⟩
    | exchange r now =>
      simp only [step, Option.some.injEq] at h2; subst h2
      cases he : (exchange sha s₁ r now).2 with
      | true =>
        obtain ⟨code, a, t, hg, hc, hm, _, _, _, _, hp⟩ := C42_exchange_authorized sha h s₁ h1 r now he
        rw [hp]
        have htok : (exchange sha s₁ r now).1.tokens = s₁.tokens := by
          unfold exchange
          split
          · rfl
          · split
            · rfl
            · split
              · rfl
              · simp only; split <;> rfl
        rw [htok]
        refine ⟨j1, add _ ?_ _ (fun k hk => hk)⟩
        intro g hg'
        simp only [contGrant, Option.some.injEq] at hg'
        exact .inr ⟨code, a, t, by simp [hm], hg'⟩
      | false =>
        have hsame : (exchange sha s₁ r now).1.tokens = s₁.tokens ∧
            (exchange sha s₁ r now).1.pending = s₁.pending := by
          unfold exchange at he ⊢
          split
          · simp
          · next hg =>
            rw [if_neg hg] at he
            split
            · simp
            · next code hc =>
              rw [hc] at he
              simp only at he
              split
              · simp
              · next a ex hk =>
                rw [hk] at he
                simp only at he ⊢
                split
                · next hck => rw [if_pos hck] at he; cases he
                · simp
        rw [hsame.1, hsame.2]; exact ⟨j1, j2⟩
    | create g =>
      simp only [step, Option.some.injEq] at h2; subst h2
      refine ⟨j1, add _ ?_ _ (fun k hk => hk)⟩
      intro g' hg'
      simp only [contGrant, Option.some.injEq] at hg'
      subst hg'
      exact .inl (by simp)
    | issue g t₀ rt₀ now₀ =>
      simp only [step] at h2
      split at h2
      · next hmem =>
        cases h2
        refine ⟨?_, fun k hk => j2 k (List.mem_of_mem_erase hk)⟩
        intro t g' ex hk
        simp only [AMap.get_insert] at hk
        split at hk
        · cases hk; exact j2 _ hmem g rfl
        · exact j1 t g' ex hk
      · cases h2
    | refreshRead rt =>
      simp only [step, Option.some.injEq] at h2; subst h2
      unfold refreshRead
      split
      · exact ⟨j1, j2⟩
      · split
        · exact ⟨j1, j2⟩
        · next g ex hk =>
          refine ⟨j1, add _ ?_ _ (fun k hk => hk)⟩
          intro g' hg'
          simp only [contGrant, Option.some.injEq] at hg'
          subst hg'
          exact j1 _ g ex hk
    | dropToken rt old g =>
      simp only [step] at h2
      split at h2
      · next hmem =>
        cases h2
        exact ⟨rem _, add (.dropRefresh rt g) (fun g' hg' => j2 _ hmem g' hg') _ (fun k hk => List.mem_of_mem_erase hk)⟩
      · cases h2
    | dropRefresh rt g =>
      simp only [step] at h2
      split at h2
      · next hmem =>
        cases h2
        exact ⟨j1, add (.issue g) (fun g' hg' => j2 _ hmem g' hg') _ (fun k hk => List.mem_of_mem_erase hk)⟩
      · cases h2
    | revoke1 x =>
      simp only [step] at h2
      split at h2
      · cases h2; exact ⟨rem _, j2⟩
      · cases h2; exact ⟨j1, add _ (by simp [contGrant]) _ (fun k hk => hk)⟩
    | revoke2 x =>
      simp only [step] at h2
      split at h2
      · split at h2
        · cases h2; exact ⟨rem _, fun k hk => j2 k (List.mem_of_mem_erase hk)⟩
        · cases h2; exact ⟨j1, fun k hk => j2 k (List.mem_of_mem_erase hk)⟩
      · cases h2

example : (run id {} (hIssue ++ [.refreshRead "r".toList, .dropToken "r".toList "t".toList grantA,
    .dropRefresh "r".toList grantA, .issue grantA "t2".toList "r2".toList 60])).map
      (fun s => (validate s "t".toList 61, validate s "t2".toList 61, (refreshRead s "r".toList).2)) =
    some (none, some grantA, false) := by decide +kernel

/-! ### C91: client authentication -/

/-- Finding: the client secret of a token request is never looked at; whoever knows the code, client id,
redirect uri (and PKCE verifier if there is a challenge) obtains the token. -/
theorem C91_secret_ignored (sha : Text → Text) (s : State) (r : TokenRequest) (secret : Option Text) (now : Nat) :
    exchange sha s { r with secret := secret } now = exchange sha s r now := rfl

/-- C91: the client id of the request must be that of the authorization.

Partial: the client is not authenticated (`C91_secret_ignored`), and need not even be registered. -/
theorem C91_client_id_checked_partial (sha : Text → Text) (s : State) (r : TokenRequest) (now : Nat) (code : Text)
    (a : Auth) (ex : Nat) (hc : r.code = some code) (hk : AMap.get s.codes code = some (a, ex))
    (hne : r.client ≠ some a.grant.client) : (exchange sha s r now).2 = false := by
  cases he : (exchange sha s r now).2 with
  | false => rfl
  | true =>
    obtain ⟨_, code', a', ex', hc', hk', hm⟩ := (exchange_iff sha s r now).mp he
    rw [hc] at hc'; cases hc'
    rw [hk] at hk'; cases hk'
    exact absurd hm.2.1 hne

example : AMap.get ({ codes := [("k".toList, (authA, 700))] } : State).codes "k".toList = some (authA, 700) ∧
    (exchange id { codes := [("k".toList, (authA, 700))] } { reqA with client := some "evil".toList } 200).2 = false := by
  decide +kernel

end Verif.OAuth
