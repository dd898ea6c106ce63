import Verif.OAuth.Props

/-
C43: exactly when a refresh token can be used again, and how often.
-/

namespace Verif.OAuth

open Verif

/-- An operation that takes a refresh token or its access token away: the two removals of a refresh, and the two of a
revocation. (Specification: no counterpart in the code.) -/
def Ends (rt old : Text) : Op → Prop
  | .dropToken _ t _ => t = old
  | .dropRefresh r _ => r = rt
  | .revoke1 x => x = old
  | .revoke2 x => x = rt
  | _ => False

/-- The generator gives neither of the two values again. (Specification: no counterpart in the code.) -/
def Fresh (rt old : Text) (l : List Op) : Prop := ∀ g a r now, .issue g a r now ∈ l → a ≠ old ∧ r ≠ rt

/-- The refresh token and its access token are stored, and no other refresh token has this access token.
(Specification: no counterpart in the code.) -/
structure Held (s : State) (rt old : Text) : Prop where
  refresh : AMap.get s.refresh rt = some old
  token : ∃ g ex, AMap.get s.tokens old = some (g, ex)
  unique : ∀ x, AMap.get s.refresh x = some old → x = rt

/-- The refresh token cannot be used. (Specification: no counterpart in the code.) -/
def Gone (s : State) (rt old : Text) : Prop :=
  AMap.get s.refresh rt = none ∨ (AMap.get s.refresh rt = some old ∧ AMap.get s.tokens old = none)

theorem gone_read (s : State) (rt old : Text) (h : Gone s rt old) : (refreshRead s rt).2 = false := by
  unfold refreshRead
  rcases h with h | ⟨h1, h2⟩
  · rw [h]
  · rw [h1]; simp only; rw [h2]

theorem held_read (s : State) (rt old : Text) (h : Held s rt old) : (refreshRead s rt).2 = true := by
  obtain ⟨g, ex, ht⟩ := h.token
  unfold refreshRead
  rw [h.refresh]; simp only; rw [ht]

theorem exchange_maps (sha : Text → Text) (s : State) (r : TokenRequest) (now : Nat) :
    (exchange sha s r now).1.refresh = s.refresh ∧ (exchange sha s r now).1.tokens = s.tokens := by
  unfold exchange
  split
  · exact ⟨rfl, rfl⟩
  · split
    · exact ⟨rfl, rfl⟩
    · split
      · exact ⟨rfl, rfl⟩
      · simp only; split <;> exact ⟨rfl, rfl⟩

theorem refreshRead_maps (s : State) (rt : Text) :
    (refreshRead s rt).1.refresh = s.refresh ∧ (refreshRead s rt).1.tokens = s.tokens := by
  unfold refreshRead
  split
  · exact ⟨rfl, rfl⟩
  · split <;> exact ⟨rfl, rfl⟩

theorem again_step (sha : Text → Text) (s s' : State) (rt old : Text) (op : Op) (hs : step sha s op = some s')
    (hf : Fresh rt old [op]) :
    (Gone s rt old → Gone s' rt old) ∧
    (Held s rt old → (Ends rt old op → Gone s' rt old) ∧ (¬ Ends rt old op → Held s' rt old)) := by
  have same : s'.refresh = s.refresh → s'.tokens = s.tokens → ¬ Ends rt old op →
      (Gone s rt old → Gone s' rt old) ∧
      (Held s rt old → (Ends rt old op → Gone s' rt old) ∧ (¬ Ends rt old op → Held s' rt old)) := by
    intro h1 h2 he
    refine ⟨?_, ?_⟩
    · unfold Gone; rw [h1, h2]; exact id
    · intro h
      refine ⟨fun h => absurd h he, fun _ => ⟨by rw [h1]; exact h.refresh, by rw [h2]; exact h.token, ?_⟩⟩
      rw [h1]; exact h.unique
  cases op with
  | createCode c a t => simp only [step, Option.some.injEq] at hs; subst hs; exact same rfl rfl id
  | exchange r now =>
    simp only [step, Option.some.injEq] at hs; subst hs
    exact same (exchange_maps sha s r now).1 (exchange_maps sha s r now).2 id
  | create g => simp only [step, Option.some.injEq] at hs; subst hs; exact same rfl rfl id
  | refreshRead x =>
    simp only [step, Option.some.injEq] at hs; subst hs
    exact same (refreshRead_maps s x).1 (refreshRead_maps s x).2 id
  | issue g a r now =>
    obtain ⟨ha, hr⟩ := hf g a r now (by simp)
    have ha' : ¬ old = a := fun e => ha e.symm
    have hr' : ¬ rt = r := fun e => hr e.symm
    simp only [step] at hs
    split at hs
    · cases hs
      refine ⟨?_, ?_⟩
      · unfold Gone
        simp only [AMap.get_insert, if_neg ha', if_neg hr']
        exact id
      · intro h
        refine ⟨fun h => h.elim, fun _ => ⟨?_, ?_, ?_⟩⟩
        · simp only [AMap.get_insert, if_neg hr']; exact h.refresh
        · simp only [AMap.get_insert, if_neg ha']; exact h.token
        · intro x hx
          simp only [AMap.get_insert] at hx
          split at hx
          · cases hx; exact absurd rfl ha
          · exact h.unique x hx
    · cases hs
  | dropToken r t g =>
    simp only [step] at hs
    split at hs
    · cases hs
      refine ⟨?_, ?_⟩
      · rintro (h | ⟨h1, h2⟩)
        · exact .inl h
        · refine .inr ⟨h1, ?_⟩
          simp only [AMap.get_remove]; split
          · rfl
          · exact h2
      · intro h
        refine ⟨?_, ?_⟩
        · rintro he
          have he : t = old := he
          subst he
          exact .inr ⟨h.refresh, AMap.get_remove_self ..⟩
        · intro he
          have he' : ¬ old = t := fun e => he e.symm
          refine ⟨h.refresh, ?_, h.unique⟩
          simp only [AMap.get_remove, if_neg he']; exact h.token
    · cases hs
  | dropRefresh r g =>
    simp only [step] at hs
    split at hs
    · cases hs
      refine ⟨?_, ?_⟩
      · rintro (h | ⟨h1, h2⟩)
        · refine .inl ?_
          simp only [AMap.get_remove]; split
          · rfl
          · exact h
        · by_cases e : rt = r
          · subst e; exact .inl (AMap.get_remove_self ..)
          · refine .inr ⟨?_, h2⟩
            simp only [AMap.get_remove, if_neg e]; exact h1
      · intro h
        refine ⟨?_, ?_⟩
        · rintro he
          have he : r = rt := he
          subst he
          exact .inl (AMap.get_remove_self ..)
        · intro he
          have he' : ¬ rt = r := fun e => he e.symm
          refine ⟨?_, h.token, ?_⟩
          · simp only [AMap.get_remove, if_neg he']; exact h.refresh
          · intro x hx
            simp only [AMap.get_remove] at hx
            split at hx
            · cases hx
            · exact h.unique x hx
    · cases hs
  | revoke1 x =>
    simp only [step] at hs
    split at hs
    · next hc =>
      cases hs
      refine ⟨?_, ?_⟩
      · rintro (h | ⟨h1, h2⟩)
        · exact .inl h
        · refine .inr ⟨h1, ?_⟩
          simp only [AMap.get_remove]; split
          · rfl
          · exact h2
      · intro h
        refine ⟨?_, ?_⟩
        · rintro he
          have he : x = old := he
          subst he
          exact .inr ⟨h.refresh, AMap.get_remove_self ..⟩
        · intro he
          have he' : ¬ old = x := fun e => he e.symm
          refine ⟨h.refresh, ?_, h.unique⟩
          simp only [AMap.get_remove, if_neg he']; exact h.token
    · next hc =>
      cases hs
      refine ⟨id, fun h => ⟨?_, fun _ => ⟨h.refresh, h.token, h.unique⟩⟩⟩
      intro he
      have he : x = old := he
      subst he
      obtain ⟨g, ex, ht⟩ := h.token
      exact absurd (by simp [AMap.contains, ht]) hc
  | revoke2 x =>
    simp only [step] at hs
    split at hs
    · split at hs
      · next a ha =>
        cases hs
        refine ⟨?_, ?_⟩
        · rintro (h | ⟨h1, h2⟩)
          · refine .inl ?_
            simp only [AMap.get_remove]; split
            · rfl
            · exact h
          · by_cases e : rt = x
            · subst e; exact .inl (AMap.get_remove_self ..)
            · refine .inr ⟨by simp only [AMap.get_remove, if_neg e]; exact h1, ?_⟩
              simp only [AMap.get_remove]; split
              · rfl
              · exact h2
        · intro h
          refine ⟨?_, ?_⟩
          · rintro he
            have he : x = rt := he
            subst he
            exact .inl (AMap.get_remove_self ..)
          · intro he
            have he' : ¬ rt = x := fun e => he e.symm
            have hne : ¬ old = a := fun e => he (h.unique x (by rw [ha, e]))
            refine ⟨?_, ?_, ?_⟩
            · simp only [AMap.get_remove, if_neg he']; exact h.refresh
            · simp only [AMap.get_remove, if_neg hne]; exact h.token
            · intro y hy
              simp only [AMap.get_remove] at hy
              split at hy
              · cases hy
              · exact h.unique y hy
      · next hn =>
        cases hs
        refine ⟨id, fun h => ⟨?_, fun _ => ⟨h.refresh, h.token, h.unique⟩⟩⟩
        intro he
        have he : x = rt := he
        subst he
        rw [h.refresh] at hn; cases hn
    · cases hs

/-- **C43, exactly**: while a refresh token is stored, whatever other calls do in the meantime, a refresh that begins
with it succeeds if and only if none of them has executed a removal: of the access token or of the refresh token, by a
refresh or by a revocation. That another refresh with the same token has begun does not matter. -/
theorem C43_again_iff (sha : Text → Text) (s s' : State) (rt old : Text) (l : List Op) (h : Held s rt old)
    (hr : run sha s l = some s') (hf : Fresh rt old l) :
    (refreshRead s' rt).2 = true ↔ ∀ op ∈ l, ¬ Ends rt old op := by
  have gone : ∀ (l : List Op) (s : State), run sha s l = some s' → Fresh rt old l → Gone s rt old → Gone s' rt old := by
    intro l
    induction l with
    | nil => intro s hr _ hg; simp only [run, Option.some.injEq] at hr; subst hr; exact hg
    | cons op l ih =>
      intro s hr hf hg
      simp only [run] at hr
      cases hs : step sha s op with
      | none => rw [hs] at hr; cases hr
      | some s₁ =>
        rw [hs] at hr
        refine ih s₁ hr (fun g a r now hm => hf g a r now (by simp [hm])) ?_
        exact (again_step sha s s₁ rt old op hs (fun g a r now hm => hf g a r now (by simp at hm; simp [hm]))).1 hg
  induction l generalizing s with
  | nil =>
    simp only [run, Option.some.injEq] at hr; subst hr
    simp [held_read s rt old h]
  | cons op l ih =>
    simp only [run] at hr
    cases hs : step sha s op with
    | none => rw [hs] at hr; cases hr
    | some s₁ =>
      rw [hs] at hr
      have hf' : Fresh rt old l := fun g a r now hm => hf g a r now (by simp [hm])
      have h1 := (again_step sha s s₁ rt old op hs (fun g a r now hm => hf g a r now (by simp at hm; simp [hm]))).2 h
      by_cases he : Ends rt old op
      · rw [gone_read s' rt old (gone l s₁ hr hf' (h1.1 he))]
        simp only [Bool.false_eq_true, List.mem_cons, false_iff]
        exact fun hh => hh op (.inl rfl) he
      · refine (ih s₁ (h1.2 he) hr hf').trans ?_
        simp only [List.mem_cons, forall_eq_or_imp]
        exact ⟨fun hh => ⟨he, hh⟩, fun hh => hh.2⟩

/-- When the generator repeats nothing, every refresh token that a lookup finds is `Held`, so `C43_again_iff` is about
all of them. -/
theorem C43_held (sha : Text → Text) (h : List Op) (s : State) (hr : run sha {} h = some s)
    (hna : (h.filterMap accessOf).Nodup) (hnr : (h.filterMap refreshOf).Nodup) (rt : Text) :
    (refreshRead s rt).2 = true ↔ ∃ old, Held s rt old := by
  have hi := inv_run sha h s hr hna hnr
  refine ⟨?_, fun ⟨old, ho⟩ => held_read s rt old ho⟩
  intro hh
  unfold refreshRead at hh
  cases h1 : AMap.get s.refresh rt with
  | none => rw [h1] at hh; cases hh
  | some old =>
    rw [h1] at hh
    simp only at hh
    cases h2 : AMap.get s.tokens old with
    | none => rw [h2] at hh; cases hh
    | some e =>
      refine ⟨old, h1, ⟨e.1, e.2, h2⟩, ?_⟩
      intro x hx
      exact issued_unique_refresh hna (hi.refreshIssued x old hx) (hi.refreshIssued rt old h1)

/-- A refresh in progress does not keep a second one with the same token from being let in: the first has only been
let in itself. -/
example : ∃ s s', run id {} hIssue = some s ∧ Held s "r".toList "t".toList ∧
    run id s [.refreshRead "r".toList] = some s' ∧ Fresh "r".toList "t".toList [.refreshRead "r".toList] ∧
    (refreshRead s' "r".toList).2 = true := by
  refine ⟨_, _, rfl, ⟨by decide +kernel, ⟨grantA, 3650, by decide +kernel⟩, ?_⟩, rfl, ?_, by decide +kernel⟩
  · intro x hx
    by_cases e : x = "r".toList
    · exact e
    · simp only [AMap.get_insert, if_neg e] at hx; simp [AMap.get] at hx
  · intro g a r now hm; simp at hm

/-- **C43** fails for every number: one refresh token can be turned into as many access tokens, all valid at the same
time, as refreshes look it up before the first of them removes it. -/
theorem C43_any_number (sha : Text → Text) (s : State) (rt old : Text) (g : Grant) (ex now : Nat)
    (hr : AMap.get s.refresh rt = some old) (ht : AMap.get s.tokens old = some (g, ex)) (names : List (Text × Text))
    (hn : old ∉ names.map (·.1)) :
    ∃ s', run sha s (List.replicate names.length (.refreshRead rt) ++
        names.flatMap (fun n => [.dropToken rt old g, .dropRefresh rt g, .issue g n.1 n.2 now])) = some s' ∧
      ∀ t ∈ names.map (·.1), ∀ at_, at_ ≤ now + tokenTtl → validate s' t at_ = some g := by
  have reads : ∀ (n : Nat) (s : State), AMap.get s.refresh rt = some old → AMap.get s.tokens old = some (g, ex) →
      run sha s (List.replicate n (.refreshRead rt)) =
        some { s with pending := List.replicate n (.dropToken rt old g) ++ s.pending } := by
    intro n
    induction n with
    | zero => intro s _ _; rfl
    | succ n ih =>
      intro s hr ht
      have h1 : (refreshRead s rt).1 = { s with pending := .dropToken rt old g :: s.pending } := by
        unfold refreshRead; rw [hr]; simp only; rw [ht]
      simp only [List.replicate_succ, run, step, h1]
      rw [ih { s with pending := .dropToken rt old g :: s.pending } hr ht]
      have hc : List.replicate n (Cont.dropToken rt old g) ++ .dropToken rt old g :: s.pending =
          .dropToken rt old g :: (List.replicate n (Cont.dropToken rt old g) ++ s.pending) := by
        rw [List.append_cons, ← List.replicate_succ', List.replicate_succ]; rfl
      simp only [hc, List.cons_append]
  have rounds : ∀ (names : List (Text × Text)) (s : State) (p : List Cont), old ∉ names.map (·.1) →
      s.pending = List.replicate names.length (.dropToken rt old g) ++ p →
      ∃ s', run sha s (names.flatMap (fun n => [.dropToken rt old g, .dropRefresh rt g, .issue g n.1 n.2 now])) = some s' ∧
        (∀ t, t ≠ old → t ∉ names.map (·.1) → AMap.get s'.tokens t = AMap.get s.tokens t) ∧
        ∀ t ∈ names.map (·.1), AMap.get s'.tokens t = some (g, now + tokenTtl) := by
    intro names
    induction names with
    | nil => intro s p _ _; exact ⟨s, rfl, fun _ _ _ => rfl, by simp⟩
    | cons n names ih =>
      intro s p hn hp
      simp only [List.map_cons, List.mem_cons, not_or] at hn
      simp only [List.length_cons, List.replicate_succ, List.cons_append] at hp
      obtain ⟨s', h1, h2, h3⟩ := ih ⟨s.codes, AMap.insert (AMap.remove s.tokens old) n.1 (g, now + tokenTtl),
        AMap.insert (AMap.remove s.refresh rt) n.2 n.1,
        List.replicate names.length (.dropToken rt old g) ++ p⟩ p hn.2 rfl
      refine ⟨s', ?_, ?_, ?_⟩
      · simp only [List.flatMap_cons, List.cons_append, List.nil_append, run, step, hp, List.mem_cons, true_or, if_true,
          List.erase_cons_head]
        exact h1
      · intro t h4 h5
        simp only [List.map_cons, List.mem_cons, not_or] at h5
        rw [h2 t h4 h5.2]
        simp only [AMap.get_insert, if_neg h5.1, AMap.get_remove, if_neg h4]
      · intro t h4
        simp only [List.map_cons, List.mem_cons] at h4
        by_cases h5 : t ∈ names.map (·.1)
        · exact h3 t h5
        · rcases h4 with rfl | h4
          · rw [h2 n.1 (fun e => hn.1 e.symm) h5]
            simp only [AMap.get_insert, if_true]
          · exact absurd h4 h5
  obtain ⟨s', h1, -, h3⟩ := rounds names { s with pending := List.replicate names.length (.dropToken rt old g) ++ s.pending }
    s.pending hn rfl
  refine ⟨s', ?_, ?_⟩
  · rw [run_append, reads names.length s hr ht]; exact h1
  · intro t h4 at_ h5
    unfold validate
    rw [h3 t h4]
    simp only
    rw [if_neg (by omega)]

example : ∃ s, run id {} hIssue = some s ∧ AMap.get s.refresh "r".toList = some "t".toList ∧
    AMap.get s.tokens "t".toList = some (grantA, 3650) ∧
    "t".toList ∉ ([("t2".toList, "r2".toList), ("t3".toList, "r3".toList)] : List (Text × Text)).map (·.1) := by
  refine ⟨_, rfl, by decide +kernel, by decide +kernel, by decide⟩

end Verif.OAuth
