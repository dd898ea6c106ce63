import Verif.Subscriptions.Model

namespace Verif.Subscriptions

variable {U S : Type} [DecidableEq U] [DecidableEq S]

/-- `(u, s)` is recorded in the table. (Specification: no counterpart in the code.) -/
def Has (m : AMap U (ASet S)) (u : U) (s : S) : Prop := ∃ set, m.get u = some set ∧ s ∈ set

/-- Table invariant: a map, with duplicate-free nonempty sets. (Specification: no counterpart in the code.) -/
structure Inv (m : AMap U (ASet S)) : Prop where
  wf : m.WF
  nodup : ∀ u set, m.get u = some set → set.Nodup
  nonempty : ∀ u set, m.get u = some set → set ≠ []

theorem inv_nil : Inv ([] : AMap U (ASet S)) :=
  ⟨AMap.wf_nil, by simp, by simp⟩

theorem inv_subscribe {st : State U S} (h : Inv st.subs) (u : U) (s : S) :
    Inv (subscribe st u s).subs := by
  refine ⟨AMap.wf_insert h.wf _ _, ?_, ?_⟩
  · intro v set hs
    simp only [subscribe] at hs
    rw [AMap.get_insert] at hs
    split at hs
    · cases hs
      apply ASet.nodup_insert
      cases hg : st.subs.get u with
      | none => simp
      | some x => simpa using h.nodup u x hg
    · exact h.nodup v set hs
  · intro v set hs
    simp only [subscribe] at hs
    rw [AMap.get_insert] at hs
    split at hs
    · cases hs
      intro he
      have : s ∈ ASet.insert ((st.subs.get u).getD []) s := ASet.mem_insert.mpr (Or.inl rfl)
      rw [he] at this
      simp at this
    · exact h.nonempty v set hs

theorem has_subscribe (st : State U S) (u : U) (s : S) (v : U) (r : S) :
    Has (subscribe st u s).subs v r ↔ (v = u ∧ r = s) ∨ Has st.subs v r := by
  unfold Has
  simp only [subscribe]
  rw [AMap.get_insert]
  by_cases hv : v = u
  · subst hv
    simp only [if_true, Option.some.injEq, exists_eq_left', ASet.mem_insert, true_and]
    cases hg : st.subs.get v with
    | none => simp
    | some x => simp
  · simp [hv]

theorem inv_unsubscribe {st : State U S} (h : Inv st.subs) (u : U) (s : S) :
    Inv (unsubscribe st u s).subs := by
  simp only [unsubscribe]
  split
  · rename_i set hg
    split
    · refine ⟨AMap.wf_remove (AMap.wf_insert h.wf _ _) _, ?_, ?_⟩
      all_goals
        intro v x hx
        simp only at hx
        rw [AMap.get_remove] at hx
        split at hx
        · cases hx
        · rename_i hne
          rw [AMap.get_insert_ne _ _ hne] at hx
          first | exact h.nodup v x hx | exact h.nonempty v x hx
    · rename_i hne
      refine ⟨AMap.wf_insert h.wf _ _, ?_, ?_⟩
      · intro v x hx
        simp only at hx
        rw [AMap.get_insert] at hx
        split at hx
        · cases hx; exact ASet.nodup_remove (h.nodup u set hg) s
        · exact h.nodup v x hx
      · intro v x hx
        simp only at hx
        rw [AMap.get_insert] at hx
        split at hx
        · cases hx
          intro he
          rw [he] at hne
          simp at hne
        · exact h.nonempty v x hx
  · exact h

theorem has_unsubscribe (st : State U S) (u : U) (s : S) (v : U) (r : S) :
    Has (unsubscribe st u s).subs v r ↔ Has st.subs v r ∧ ¬ (v = u ∧ r = s) := by
  unfold Has
  simp only [unsubscribe]
  cases hg : st.subs.get u with
  | none =>
    simp only
    constructor
    · rintro ⟨set, h1, h2⟩
      refine ⟨⟨set, h1, h2⟩, ?_⟩
      rintro ⟨rfl, _⟩
      rw [hg] at h1; cases h1
    · exact fun h => h.1
  | some set =>
    simp only
    split
    · rename_i hempty
      simp only
      rw [AMap.get_remove]
      by_cases hv : v = u
      · subst hv
        simp only [if_true, hg, Option.some.injEq, exists_eq_left', true_and]
        constructor
        · rintro ⟨x, hx, _⟩; cases hx
        · rintro ⟨hr, hne⟩
          have : r ∈ ASet.remove set s := ASet.mem_remove.mpr ⟨hr, hne⟩
          rw [List.isEmpty_iff] at hempty
          rw [hempty] at this
          simp at this
      · simp [hv, AMap.get_insert_ne _ _ hv]
    · simp only
      rw [AMap.get_insert]
      by_cases hv : v = u
      · subst hv
        simp [hg, ASet.mem_remove]
      · simp [hv]

theorem get_map (m : AMap U (ASet S)) (f : ASet S → ASet S) (u : U) :
    AMap.get (m.map (fun e => (e.1, f e.2))) u = (AMap.get m u).map f := by
  induction m with
  | nil => rfl
  | cons e m ih =>
    simp only [List.map_cons, AMap.get_cons]
    split
    · rename_i hk
      obtain ⟨a, b⟩ := e
      simp only at hk
      simp [AMap.get_cons, hk]
    · rename_i hk
      obtain ⟨a, b⟩ := e
      simp only at hk
      rw [ih]
      simp [AMap.get_cons, hk]

theorem get_foldl_remove (l : List U) (m : AMap U (ASet S)) (u : U) :
    AMap.get (l.foldl (fun m u => m.remove u) m) u = if u ∈ l then none else AMap.get m u := by
  induction l generalizing m with
  | nil => simp
  | cons a l ih =>
    rw [List.foldl_cons, ih, AMap.get_remove]
    by_cases h1 : u ∈ l <;> by_cases h2 : u = a <;> simp [h1, h2]

theorem wf_foldl_remove (l : List U) (m : AMap U (ASet S)) (h : m.WF) :
    AMap.WF (l.foldl (fun m u => m.remove u) m) := by
  induction l generalizing m with
  | nil => exact h
  | cons a l ih => exact ih _ (AMap.wf_remove h a)

theorem wf_map (m : AMap U (ASet S)) (f : ASet S → ASet S) (h : m.WF) :
    AMap.WF (m.map (fun e => (e.1, f e.2))) := by
  unfold AMap.WF AMap.keys at *
  rw [List.map_map]
  exact h

theorem get_unsubscribeAll {st : State U S} (h : Inv st.subs) (s : S) (u : U) :
    (unsubscribeAll st s).subs.get u =
      (st.subs.get u).bind (fun set =>
        if (ASet.remove set s).isEmpty then none else some (ASet.remove set s)) := by
  simp only [unsubscribeAll]
  rw [get_foldl_remove, get_map st.subs (fun x => ASet.remove x s)]
  have hmem : u ∈ ((st.subs.map (fun e => (e.1, ASet.remove e.2 s))).filter
      (fun e => e.2.isEmpty)).map Prod.fst ↔
      ∃ set, st.subs.get u = some set ∧ (ASet.remove set s).isEmpty = true := by
    simp only [List.mem_map, List.mem_filter]
    constructor
    · rintro ⟨⟨a, x⟩, ⟨⟨⟨b, y⟩, hb, hxy⟩, hx⟩, rfl⟩
      simp only [Prod.mk.injEq] at hxy
      obtain ⟨rfl, rfl⟩ := hxy
      exact ⟨y, AMap.get_of_mem h.wf hb, hx⟩
    · rintro ⟨set, hg, he⟩
      exact ⟨(u, ASet.remove set s), ⟨⟨(u, set), AMap.mem_of_get hg, rfl⟩, he⟩, rfl⟩
  cases hg : st.subs.get u with
  | none => simp
  | some set =>
    by_cases he : (ASet.remove set s).isEmpty = true
    · rw [if_pos (hmem.mpr ⟨set, hg, he⟩)]
      simp [List.isEmpty_iff.mp he]
    · rw [if_neg]
      · simp only [Option.map_some, Option.bind_some, if_neg he]
      · rw [hmem]
        rintro ⟨x, hx, hxe⟩
        rw [hg] at hx; cases hx
        exact he hxe

theorem inv_unsubscribeAll {st : State U S} (h : Inv st.subs) (s : S) :
    Inv (unsubscribeAll st s).subs := by
  refine ⟨wf_foldl_remove _ _ (wf_map _ _ h.wf), ?_, ?_⟩
  all_goals
    intro u x hx
    rw [get_unsubscribeAll h] at hx
    cases hg : st.subs.get u with
    | none => rw [hg] at hx; cases hx
    | some set =>
      rw [hg] at hx
      simp only [Option.bind_some] at hx
      split at hx
      · cases hx
      · rename_i hne
        cases hx
        first
          | exact ASet.nodup_remove (h.nodup u set hg) s
          | (intro he; rw [he] at hne; simp at hne)

theorem has_unsubscribeAll {st : State U S} (h : Inv st.subs) (s : S) (v : U) (r : S) :
    Has (unsubscribeAll st s).subs v r ↔ Has st.subs v r ∧ r ≠ s := by
  unfold Has
  rw [get_unsubscribeAll h]
  cases hg : st.subs.get v with
  | none => simp
  | some set =>
    simp only [Option.bind_some, Option.some.injEq, exists_eq_left']
    by_cases he : (ASet.remove set s).isEmpty = true
    · simp only [he, if_true]
      constructor
      · rintro ⟨x, hx, _⟩; cases hx
      · rintro ⟨h1, h2⟩
        have : r ∈ ASet.remove set s := ASet.mem_remove.mpr ⟨h1, h2⟩
        rw [List.isEmpty_iff] at he
        rw [he] at this
        simp at this
    · simp [he, ASet.mem_remove]

theorem subs_notify (st : State U S) (u : U) : (notifyResourceUpdated st u).1.subs = st.subs := by
  simp only [notifyResourceUpdated]
  split
  · split
    · simp only; split <;> rfl
    · rfl
  · rfl

theorem inv_step {st : State U S} (h : Inv st.subs) (op : Op U S) : Inv (step st op).subs := by
  cases op with
  | setSender => exact h
  | subscribe u s => exact inv_subscribe h u s
  | unsubscribe u s => exact inv_unsubscribe h u s
  | unsubscribeAll s => exact inv_unsubscribeAll h s
  | notify u => simpa only [step, subs_notify] using h

theorem inv_run {st : State U S} (h : Inv st.subs) (hist : List (Op U S)) :
    Inv (run st hist).subs := by
  induction hist generalizing st with
  | nil => exact h
  | cons op hist ih => exact ih (inv_step h op)

theorem nodup_getSubscriptions {st : State U S} (h : Inv st.subs) (s : S) :
    (getSubscriptions st s).Nodup := by
  have hw := h.wf
  unfold AMap.WF AMap.keys at hw
  unfold getSubscriptions
  generalize st.subs = m at hw
  induction m with
  | nil => simp
  | cons e m ih =>
    simp only [List.map_cons, List.nodup_cons] at hw
    rw [List.filterMap_cons]
    split
    · exact ih hw.2
    · rename_i a ha
      rw [List.nodup_cons]
      refine ⟨?_, ih hw.2⟩
      intro hmem
      apply hw.1
      rw [List.mem_filterMap] at hmem
      obtain ⟨x, hx, hxa⟩ := hmem
      have h1 : a = e.1 := by
        split at ha
        · cases ha; rfl
        · cases ha
      have h2 : a = x.1 := by
        split at hxa
        · cases hxa; rfl
        · cases hxa
      rw [List.mem_map]
      exact ⟨x, hx, by rw [← h2, h1]⟩

theorem mem_getSubscriptions {st : State U S} (h : Inv st.subs) (s : S) (u : U) :
    u ∈ getSubscriptions st s ↔ Has st.subs u s := by
  unfold getSubscriptions Has
  rw [List.mem_filterMap]
  constructor
  · rintro ⟨⟨a, x⟩, hm, he⟩
    split at he
    · rename_i hs
      cases he
      exact ⟨x, AMap.get_of_mem h.wf hm, hs⟩
    · cases he
  · rintro ⟨set, hg, hs⟩
    exact ⟨(u, set), AMap.mem_of_get hg, by simp [hs]⟩

theorem mem_getSubscribers {st : State U S} (s : S) (u : U) :
    s ∈ getSubscribers st u ↔ Has st.subs u s := by
  unfold getSubscribers Has
  cases st.subs.get u <;> simp

/-- All pairs of the table, as a list. (Specification: no counterpart in the code.) -/
def pairs (m : AMap U (ASet S)) : List (U × S) := m.flatMap (fun e => e.2.map (fun s => (e.1, s)))

theorem length_pairs (m : AMap U (ASet S)) :
    (pairs m).length = (m.map (fun e => e.2.length)).sum := by
  induction m with
  | nil => rfl
  | cons e m ih =>
    simp only [pairs, List.flatMap_cons, List.length_append, List.length_map, List.map_cons,
      List.sum_cons] at ih ⊢
    omega

theorem mem_pairs {m : AMap U (ASet S)} (h : Inv m) (p : U × S) :
    p ∈ pairs m ↔ Has m p.1 p.2 := by
  unfold pairs Has
  rw [List.mem_flatMap]
  constructor
  · rintro ⟨⟨a, x⟩, hm, hp⟩
    rw [List.mem_map] at hp
    obtain ⟨s, hs, rfl⟩ := hp
    exact ⟨x, AMap.get_of_mem h.wf hm, hs⟩
  · rintro ⟨set, hg, hs⟩
    exact ⟨(p.1, set), AMap.mem_of_get hg, List.mem_map.mpr ⟨p.2, hs, rfl⟩⟩

theorem nodup_pairs {m : AMap U (ASet S)} (h : Inv m) : (pairs m).Nodup := by
  have hw := h.wf
  have hn : ∀ e ∈ m, e.2.Nodup := by
    rintro ⟨a, x⟩ he
    exact h.nodup a x (AMap.get_of_mem h.wf he)
  clear h
  unfold AMap.WF AMap.keys at hw
  induction m with
  | nil => simp [pairs]
  | cons e m ih =>
    simp only [List.map_cons, List.nodup_cons] at hw
    have ih' := ih hw.2 (fun x hx => hn x (List.mem_cons_of_mem _ hx))
    unfold pairs at ih' ⊢
    rw [List.flatMap_cons, List.nodup_append]
    refine ⟨?_, ih', ?_⟩
    · have := hn e List.mem_cons_self
      unfold List.Nodup at this ⊢
      rw [List.pairwise_map]
      exact this.imp (by intro a b hab heq; exact hab (by cases heq; rfl))
    · intro p hp q hq heq
      subst heq
      rw [List.mem_map] at hp
      obtain ⟨s, _, rfl⟩ := hp
      rw [List.mem_flatMap] at hq
      obtain ⟨x, hx, hq⟩ := hq
      rw [List.mem_map] at hq
      obtain ⟨_, _, heq⟩ := hq
      exact hw.1 (List.mem_map.mpr ⟨x, hx, by have := congrArg Prod.fst heq; exact this⟩)

theorem counts_inner (l : List S) (m : AMap S Nat) (hm : m.WF) :
    AMap.WF (l.foldl countSubscriber m) ∧
    ∀ s, s ∈ AMap.keys (l.foldl countSubscriber m) ↔ s ∈ AMap.keys m ∨ s ∈ l := by
  induction l generalizing m with
  | nil => exact ⟨hm, by simp⟩
  | cons a l ih =>
    have hw : AMap.WF (countSubscriber m a) := AMap.wf_insert hm _ _
    obtain ⟨h1, h2⟩ := ih _ hw
    refine ⟨h1, ?_⟩
    intro s
    rw [List.foldl_cons, h2]
    have : s ∈ AMap.keys (countSubscriber m a) ↔ s = a ∨ s ∈ AMap.keys m := by
      unfold countSubscriber AMap.insert
      simp only [AMap.keys, List.map_cons, List.mem_cons]
      have := AMap.mem_keys_remove (m := m) (k := a) (k' := s)
      simp only [AMap.keys] at this
      rw [this]
      by_cases hs : s = a <;> simp [hs]
    rw [this, List.mem_cons]
    constructor
    · rintro ((h | h) | h)
      · exact Or.inr (Or.inl h)
      · exact Or.inl h
      · exact Or.inr (Or.inr h)
    · rintro (h | h | h)
      · exact Or.inl (Or.inr h)
      · exact Or.inl (Or.inl h)
      · exact Or.inr h

theorem counts_outer (m : AMap U (ASet S)) (c : AMap S Nat) (hc : c.WF) :
    AMap.WF (m.foldl (fun m e => e.2.foldl countSubscriber m) c) ∧
    ∀ s, s ∈ AMap.keys (m.foldl (fun m e => e.2.foldl countSubscriber m) c) ↔
      s ∈ AMap.keys c ∨ ∃ e ∈ m, s ∈ e.2 := by
  induction m generalizing c with
  | nil => exact ⟨hc, by simp⟩
  | cons e m ih =>
    obtain ⟨h1, h2⟩ := counts_inner e.2 c hc
    obtain ⟨h3, h4⟩ := ih _ h1
    refine ⟨h3, ?_⟩
    intro s
    rw [List.foldl_cons, h4, h2]
    simp only [List.mem_cons, exists_eq_or_imp]
    constructor
    · rintro ((h | h) | h)
      · exact Or.inl h
      · exact Or.inr (Or.inl h)
      · exact Or.inr (Or.inr h)
    · rintro (h | h | h)
      · exact Or.inl (Or.inl h)
      · exact Or.inl (Or.inr h)
      · exact Or.inr h

end Verif.Subscriptions
