import Verif.OAuth.Props

/-
C218: how long a refresh token can be used, and what the provider keeps of codes and tokens that can no
longer be used.  On the model of C41-C44, /repo/src/server/auth/oauth2.rs L502-706.
-/

namespace Verif.OAuth

/-- C218: in every schedule with distinct generated tokens, `refresh_token` accepts a refresh token iff the
access token issued with it has neither been revoked (itself or through the refresh token) nor taken by
another refresh; time plays no part. -/
theorem C218_refresh_iff (sha : Text → Text) (h : List Op) (s : State) (hr : run sha {} h = some s)
    (hna : (h.filterMap accessOf).Nodup) (hnr : (h.filterMap refreshOf).Nodup) (rt : Text) :
    (refreshRead s rt).2 = true ↔ ∃ t g issued, Live h t rt g issued := by
  have hi := inv_run sha h s hr hna hnr
  rw [(C43_uninterrupted_refresh sha s rt).1]
  constructor
  · rintro ⟨old, g, ex, h1, h2⟩
    obtain ⟨rt', now, _, hl⟩ := (hi.tokens old g ex).mp h2
    have : rt' = rt := issued_unique_refresh hna (live_issued hl) (hi.refreshIssued rt old h1)
    subst this
    exact ⟨old, g, now, hl⟩
  · rintro ⟨t, g, issued, hl⟩
    exact ⟨t, g, issued + tokenTtl, hi.refreshLive t rt g issued hl, (hi.tokens t g _).mpr ⟨rt, issued, rfl, hl⟩⟩

example : (run id {} hIssue).map (fun s => (refreshRead s "r".toList).2) = some true := by decide +kernel
example : (run id {} (hIssue ++ [.revoke1 "t".toList])).map (fun s => (refreshRead s "r".toList).2) = some false := by
  decide +kernel

/-- C218: once the access token is revoked, its refresh token is never accepted again. -/
theorem C218_revoked_together (sha : Text → Text) (before later : List Op) (g : Grant) (t rt : Text) (now : Nat)
    (between : List Op) (s : State)
    (hr : run sha {} (before ++ .issue g t rt now :: between ++ .revoke1 t :: later) = some s)
    (hna : ((before ++ .issue g t rt now :: between ++ .revoke1 t :: later).filterMap accessOf).Nodup)
    (hnr : ((before ++ .issue g t rt now :: between ++ .revoke1 t :: later).filterMap refreshOf).Nodup) :
    (refreshRead s rt).2 = false := by
  rw [← Bool.not_eq_true, C218_refresh_iff sha _ s hr hna hnr]
  rintro ⟨t', g', now', hl⟩
  have hiss : Issued (before ++ .issue g t rt now :: between ++ .revoke1 t :: later) t rt :=
    ⟨g, now, by simp⟩
  have ht : t' = t := issued_unique_access hnr (live_issued hl) hiss
  subst ht
  obtain ⟨b, a, he, hk⟩ := hl
  -- the two issuing steps are the same one
  have hsame : (Op.issue g t' rt now) = .issue g' t' rt now' :=
    nodup_filterMap_inj refreshOf _ hnr _ _ rt (by simp) (by rw [he]; simp) rfl rfl
  rw [← hsame] at he
  have hb : before = b := by
    have key : ∀ (b b' x y : List Op), b ++ Op.issue g t' rt now :: x = b' ++ Op.issue g t' rt now :: y →
        ((b ++ Op.issue g t' rt now :: x).filterMap refreshOf).Nodup → b = b' := by
      intro b
      induction b with
      | nil =>
        intro b' x y h hn
        cases b' with
        | nil => rfl
        | cons o b' =>
          simp only [List.nil_append, List.cons_append, List.cons.injEq] at h
          obtain ⟨rfl, rfl⟩ := h
          simp [refreshOf] at hn
      | cons o b ih =>
        intro b' x y h hn
        cases b' with
        | nil =>
          simp only [List.nil_append, List.cons_append, List.cons.injEq] at h
          obtain ⟨rfl, rfl⟩ := h
          simp [refreshOf] at hn
        | cons o' b' =>
          simp only [List.cons_append, List.cons.injEq] at h
          obtain ⟨rfl, h⟩ := h
          rw [ih b' x y h (by
            rw [List.cons_append, List.filterMap_cons] at hn
            split at hn
            · exact hn
            · exact (List.nodup_cons.mp hn).2)]
    have he' : before ++ Op.issue g t' rt now :: (between ++ .revoke1 t' :: later) = b ++ Op.issue g t' rt now :: a := by
      simpa using he
    exact key _ _ _ _ he' (by simpa using hnr)
  subst hb
  have ha : between ++ .revoke1 t' :: later = a := by simpa using he
  exact hk (.revoke1 t') (by rw [← ha]; simp) (.inl rfl)

example : ((hIssue ++ [Op.revoke1 "t".toList]).filterMap accessOf).Nodup := by decide

/-- C218: a token stays in the table however long ago it expired, until it is revoked or refreshed. -/
theorem C218_expired_kept (sha : Text → Text) (h : List Op) (s : State) (hr : run sha {} h = some s)
    (hna : (h.filterMap accessOf).Nodup) (hnr : (h.filterMap refreshOf).Nodup) (t : Text) :
    AMap.contains s.tokens t = true ↔ ∃ rt g issued, Live h t rt g issued := by
  have hi := inv_run sha h s hr hna hnr
  constructor
  · intro hc
    cases hg : AMap.get s.tokens t with
    | none => simp [AMap.contains, hg] at hc
    | some e =>
      obtain ⟨g, ex⟩ := e
      obtain ⟨rt, now, _, hl⟩ := (hi.tokens t g ex).mp hg
      exact ⟨rt, g, now, hl⟩
  · rintro ⟨rt, g, now, hl⟩
    have := (hi.tokens t g _).mpr ⟨rt, now, rfl, hl⟩
    simp [AMap.contains, this]

/-- C218, witness: a token that expired long ago and that nothing accepts any more is still there. -/
theorem C218_expired_witness :
    (run id {} hIssue).map (fun s => (validate s "t".toList 1000000, AMap.contains s.tokens "t".toList)) =
      some (none, true) := by decide +kernel

/-- C218: a refresh token stays in the table until a refresh or a revocation names it, also when its access
token is revoked, after which it cannot be used (`C218_revoked_together`). -/
theorem C218_refresh_kept (sha : Text → Text) (s s' : State) (later : List Op) (rt t : Text)
    (hg : AMap.get s.refresh rt = some t) (hr : run sha s later = some s')
    (h1 : ∀ g, .dropRefresh rt g ∉ later) (h2 : .revoke2 rt ∉ later) (h3 : rt ∉ later.filterMap refreshOf) :
    AMap.get s'.refresh rt = some t := by
  induction later generalizing s with
  | nil => simp only [run, Option.some.injEq] at hr; subst hr; exact hg
  | cons op h ih =>
    simp only [run] at hr
    cases hs : step sha s op with
    | none => rw [hs] at hr; cases hr
    | some s₁ =>
      rw [hs] at hr
      refine ih s₁ ?_ hr (fun g hm => h1 g (by simp [hm])) (fun hm => h2 (by simp [hm])) ?_
      · cases op with
        | createCode c' a' t' => simp only [step, Option.some.injEq] at hs; subst hs; exact hg
        | exchange r now =>
          simp only [step, Option.some.injEq] at hs; subst hs
          unfold exchange
          repeat (first | exact hg | split | simp only)
        | create g => simp only [step, Option.some.injEq] at hs; subst hs; exact hg
        | issue g ac rt' now =>
          simp only [step] at hs
          split at hs
          · cases hs
            have : rt ≠ rt' := by rintro rfl; exact h3 (by simp [refreshOf])
            simp [AMap.get_insert, this, hg]
          · cases hs
        | refreshRead rt' =>
          simp only [step, Option.some.injEq] at hs; subst hs
          unfold refreshRead
          repeat (first | exact hg | split)
        | dropToken rt' old g =>
          simp only [step] at hs
          split at hs
          · cases hs; exact hg
          · cases hs
        | dropRefresh rt' g =>
          simp only [step] at hs
          split at hs
          · cases hs
            have : rt ≠ rt' := by rintro rfl; exact h1 g (by simp)
            simp [AMap.get_remove, this, hg]
          · cases hs
        | revoke1 x =>
          simp only [step] at hs
          split at hs <;> (cases hs; exact hg)
        | revoke2 x =>
          have : rt ≠ x := by rintro rfl; exact h2 (by simp)
          simp only [step] at hs
          split at hs
          · split at hs
            · cases hs; simp [AMap.get_remove, this, hg]
            · cases hs; exact hg
          · cases hs
      · intro hm
        obtain ⟨o, ho, he⟩ := List.mem_filterMap.mp hm
        exact h3 (List.mem_filterMap.mpr ⟨o, by simp [ho], he⟩)

example : (run id {} (hIssue ++ [.revoke1 "t".toList])).map
    (fun s => (AMap.get s.refresh "r".toList, (refreshRead s "r".toList).2)) = some (some "t".toList, false) := by
  decide +kernel

/-- C218: an authorization code stays in the table, however long ago it expired, until a request names it. -/
theorem C218_code_kept (sha : Text → Text) (s s' : State) (later : List Op) (code : Text) (e : Auth × Nat)
    (hg : AMap.get s.codes code = some e) (hr : run sha s later = some s')
    (h1 : ∀ r now, .exchange r now ∈ later → r.code ≠ some code)
    (h2 : ∀ a now, .createCode code a now ∉ later) : AMap.get s'.codes code = some e := by
  induction later generalizing s with
  | nil => simp only [run, Option.some.injEq] at hr; subst hr; exact hg
  | cons op h ih =>
    simp only [run] at hr
    cases hs : step sha s op with
    | none => rw [hs] at hr; cases hr
    | some s₁ =>
      rw [hs] at hr
      refine ih s₁ ?_ hr (fun r now hm => h1 r now (by simp [hm])) (fun a now hm => h2 a now (by simp [hm]))
      cases op with
      | createCode c' a' t' =>
        simp only [step, Option.some.injEq] at hs; subst hs
        have : code ≠ c' := by rintro rfl; exact h2 a' t' (by simp)
        simp [AMap.get_insert, this, hg]
      | exchange r now =>
        simp only [step, Option.some.injEq] at hs; subst hs
        have hne := h1 r now (by simp)
        unfold exchange
        split
        · exact hg
        · split
          · exact hg
          · next c hc =>
            have : code ≠ c := by rintro rfl; exact hne hc
            split
            · exact hg
            · simp only; split <;> simp [AMap.get_remove, this, hg]
      | create g => simp only [step, Option.some.injEq] at hs; subst hs; exact hg
      | issue g ac rt' now =>
        simp only [step] at hs
        split at hs
        · cases hs; exact hg
        · cases hs
      | refreshRead rt' =>
        simp only [step, Option.some.injEq] at hs; subst hs
        unfold refreshRead
        repeat (first | exact hg | split)
      | dropToken rt' old g =>
        simp only [step] at hs
        split at hs
        · cases hs; exact hg
        · cases hs
      | dropRefresh rt' g =>
        simp only [step] at hs
        split at hs
        · cases hs; exact hg
        · cases hs
      | revoke1 x =>
        simp only [step] at hs
        split at hs <;> (cases hs; exact hg)
      | revoke2 x =>
        simp only [step] at hs
        split at hs
        · split at hs <;> (cases hs; exact hg)
        · cases hs

example : (run id {} [.createCode "c".toList ⟨grantA, [], none, none⟩ 5, .create grantA,
    .issue grantA "t".toList "r".toList 100000]).map (fun s => AMap.get s.codes "c".toList) =
      some (some (⟨grantA, [], none, none⟩, 605)) := by decide +kernel

end Verif.OAuth
