import Verif.Subscriptions.Lemmas

/-
Properties C20, C21: the subscription manager is a set of (resource, subscriber) pairs.
-/

namespace Verif.Subscriptions

variable {U S : Type} [DecidableEq U] [DecidableEq S]

/-! ### Specification: the set of pairs as a predicate on histories -/

/-- Start from the empty set of pairs; `subscribe u s` adds a pair, `unsubscribe u s` removes it,
`unsubscribeAll s` removes all pairs of `s`. (Specification: no counterpart in the code.) -/
def effect (op : Op U S) (P : U → S → Prop) : U → S → Prop := fun v r =>
  match op with
  | .subscribe u s => (v = u ∧ r = s) ∨ P v r
  | .unsubscribe u s => P v r ∧ ¬ (v = u ∧ r = s)
  | .unsubscribeAll s => P v r ∧ r ≠ s
  | .setSender => P v r
  | .notify _ => P v r

/-- Pair `(v, r)` is subscribed after history `h`. (Specification: no counterpart in the code.) -/
def Subscribed (h : List (Op U S)) : U → S → Prop :=
  h.foldl (fun P op => effect op P) (fun _ _ => False)

/-! ### C20 -/

theorem has_run (st : State U S) (hi : Inv st.subs) (P : U → S → Prop)
    (hP : ∀ v r, Has st.subs v r ↔ P v r) (h : List (Op U S)) (v : U) (r : S) :
    Has (run st h).subs v r ↔ (h.foldl (fun P op => effect op P) P) v r := by
  induction h generalizing st P with
  | nil => exact hP v r
  | cons op h ih =>
    refine ih (step st op) (inv_step hi op) (effect op P) ?_
    intro w q
    cases op with
    | setSender => exact hP w q
    | subscribe u s => simp only [step, has_subscribe, effect, hP]
    | unsubscribe u s => simp only [step, has_unsubscribe, effect, hP]
    | unsubscribeAll s => simp only [step, has_unsubscribeAll hi, effect, hP]
    | notify u => simp only [step, subs_notify, effect, hP]

theorem has_iff (h : List (Op U S)) (v : U) (r : S) :
    Has (run init h).subs v r ↔ Subscribed h v r :=
  has_run init inv_nil _ (by intro v r; simp [Has, init]) h v r

/-- **C20** (per subscriber): the list returned for a subscriber has no duplicates and contains
exactly the resources it is subscribed to. -/
theorem C20_get_subscriptions (h : List (Op U S)) (s : S) :
    (getSubscriptions (run init h) s).Nodup ∧
    ∀ u, u ∈ getSubscriptions (run init h) s ↔ Subscribed h u s := by
  have hi := inv_run (st := (init : State U S)) inv_nil h
  exact ⟨nodup_getSubscriptions hi s, fun u => by rw [mem_getSubscriptions hi, has_iff]⟩

/-- **C20** (per resource): the list returned for a resource has no duplicates and contains
exactly its subscribers. -/
theorem C20_get_subscribers (h : List (Op U S)) (u : U) :
    (getSubscribers (run init h) u).Nodup ∧
    ∀ s, s ∈ getSubscribers (run init h) u ↔ Subscribed h u s := by
  have hi := inv_run (st := (init : State U S)) inv_nil h
  refine ⟨?_, fun s => by rw [mem_getSubscribers, has_iff]⟩
  unfold getSubscribers
  cases hg : (run init h).subs.get u with
  | none => simp
  | some x => simpa using hi.nodup u x hg

/-- **C20**: `has_subscribers` is the nonemptiness of that set. -/
theorem C20_has_subscribers (h : List (Op U S)) (u : U) :
    hasSubscribers (run init h) u = true ↔ ∃ s, Subscribed h u s := by
  have hi := inv_run (st := (init : State U S)) inv_nil h
  simp only [← has_iff, hasSubscribers, Has]
  cases hg : (run init h).subs.get u with
  | none => simp
  | some x =>
    have := hi.nonempty u x hg
    cases x with
    | nil => exact absurd rfl this
    | cons a l => simp only [List.isEmpty_cons, Bool.not_false, Option.some.injEq, exists_eq_left',
        true_iff]; exact ⟨a, List.mem_cons_self⟩

/-- **C20** (statistics): the counters are the cardinalities of the set of pairs, of its
resources and of its subscribers, where a set is counted by any duplicate-free enumeration. -/
theorem C20_stats (h : List (Op U S)) (ps : List (U × S)) (us : List U) (ss : List S)
    (hps : ps.Nodup ∧ ∀ p, p ∈ ps ↔ Subscribed h p.1 p.2)
    (hus : us.Nodup ∧ ∀ u, u ∈ us ↔ ∃ s, Subscribed h u s)
    (hss : ss.Nodup ∧ ∀ s, s ∈ ss ↔ ∃ u, Subscribed h u s) :
    getStats (run init h) = ⟨us.length, ps.length, ss.length⟩ := by
  have hi := inv_run (st := (init : State U S)) inv_nil h
  simp only [getStats, Stats.mk.injEq]
  refine ⟨?_, ?_, ?_⟩
  · have : (run init h).subs.length = (AMap.keys (run init h).subs).length := by
      simp [AMap.keys]
    rw [this]
    apply nodup_length_eq hi.wf hus.1
    intro u
    rw [hus.2]
    simp only [← has_iff]
    constructor
    · intro hu
      cases hg : (run init h).subs.get u with
      | none => exact absurd hu (AMap.get_eq_none_iff.mp hg)
      | some x =>
        have := hi.nonempty u x hg
        cases x with
        | nil => exact absurd rfl this
        | cons a l => exact ⟨a, a :: l, hg, List.mem_cons_self⟩
    · rintro ⟨s, set, hg, _⟩
      by_cases hu : u ∈ AMap.keys (run init h).subs
      · exact hu
      · rw [AMap.get_eq_none_iff.mpr hu] at hg; cases hg
  · rw [← length_pairs]
    apply nodup_length_eq (nodup_pairs hi) hps.1
    intro p
    rw [mem_pairs hi, hps.2, has_iff]
  · obtain ⟨h1, h2⟩ := counts_outer (run init h).subs ([] : AMap S Nat) AMap.wf_nil
    have : ∀ m : AMap S Nat, m.length = (AMap.keys m).length := by intro m; simp [AMap.keys]
    rw [this]
    apply nodup_length_eq h1 hss.1
    intro s
    rw [h2, hss.2]
    simp only [← has_iff, Has]
    constructor
    · rintro (h | ⟨⟨a, x⟩, hm, hs⟩)
      · simp [AMap.keys] at h
      · exact ⟨a, x, AMap.get_of_mem hi.wf hm, hs⟩
    · rintro ⟨u, set, hg, hs⟩
      exact Or.inr ⟨(u, set), AMap.mem_of_get hg, hs⟩

theorem sum_le_mul (l : List Nat) (n : Nat) (h : ∀ x ∈ l, x ≤ n) : l.sum ≤ l.length * n := by
  induction l with
  | nil => simp
  | cons a l ih =>
    have h1 := h a (List.mem_cons_self ..)
    have h2 := ih (fun x hx => h x (List.mem_cons_of_mem _ hx))
    rw [List.sum_cons, List.length_cons, Nat.succ_mul]
    omega

theorem length_le_sum (l : List Nat) (h : ∀ x ∈ l, 1 ≤ x) : l.length ≤ l.sum := by
  induction l with
  | nil => simp
  | cons a l ih =>
    have h1 := h a (List.mem_cons_self ..)
    have h2 := ih (fun x hx => h x (List.mem_cons_of_mem _ hx))
    rw [List.sum_cons, List.length_cons]
    omega

theorem rat_average (a b c : Nat) (hb : 0 < b) (h1 : b ≤ a) (h2 : a ≤ b * c) :
    1 ≤ (a : Rat) / (b : Rat) ∧ (a : Rat) / (b : Rat) ≤ (c : Rat) := by
  have hp : (0 : Rat) < (b : Rat) := Rat.natCast_pos.mpr hb
  have he : (a : Rat) / (b : Rat) * (b : Rat) = (a : Rat) :=
    Rat.div_mul_cancel (fun e => by rw [e] at hp; exact absurd hp (by decide))
  constructor
  · apply Rat.le_of_mul_le_mul_right _ hp
    rw [he, Rat.one_mul]
    exact Rat.natCast_le_natCast.mpr h1
  · apply Rat.le_of_mul_le_mul_right _ hp
    rw [he, ← Rat.natCast_mul, Nat.mul_comm]
    exact Rat.natCast_le_natCast.mpr h2

/-- **C20** (statistics): the average is that of the numbers of subscribers of the resources that have any; it is zero if
no resource has one, and otherwise at least one and at most the number of subscribers. -/
theorem C20_average (h : List (Op U S)) :
    let x := getStats (run init h)
    x.perResource * (x.totalResources : Rat) = (x.totalSubscriptions : Rat) ∧
      ((∀ u s, ¬ Subscribed h u s) → x.perResource = 0) ∧
      ((∃ u s, Subscribed h u s) → 1 ≤ x.perResource ∧ x.perResource ≤ (x.uniqueSubscribers : Rat)) := by
  have hi := inv_run (st := (init : State U S)) inv_nil h
  intro x
  have hnone : x.totalResources = 0 → x.totalSubscriptions = 0 := by
    intro e
    have : (run init h).subs = [] := List.length_eq_zero_iff.mp e
    simp [x, getStats, this]
  refine ⟨?_, ?_, ?_⟩
  · unfold Stats.perResource
    split
    · rename_i hp
      have hp : (0 : Rat) < (x.totalResources : Rat) := Rat.natCast_pos.mpr hp
      exact Rat.div_mul_cancel (fun e => by rw [e] at hp; exact absurd hp (by decide))
    · rename_i hp
      have e : x.totalResources = 0 := by omega
      rw [hnone e, e]
      exact Rat.zero_mul _
  · intro hn
    unfold Stats.perResource
    rw [if_neg]
    intro hp
    obtain ⟨⟨u, set⟩, hm⟩ := List.exists_mem_of_length_pos hp
    have hg := AMap.get_of_mem hi.wf hm
    obtain ⟨s, hs⟩ := List.exists_mem_of_ne_nil set (hi.nonempty u set hg)
    exact hn u s ((has_iff h u s).mp ⟨set, hg, hs⟩)
  · rintro ⟨u, s, hs⟩
    obtain ⟨set, hg, _⟩ := (has_iff h u s).mpr hs
    have hp : 0 < x.totalResources := List.length_pos_of_mem (AMap.mem_of_get hg)
    have h1 : x.totalResources ≤ x.totalSubscriptions := by
      have := length_le_sum ((run init h).subs.map (fun e => e.2.length)) (by
        intro n hn
        obtain ⟨⟨u, set⟩, hm, rfl⟩ := List.mem_map.mp hn
        exact List.length_pos_iff.mpr (hi.nonempty u set (AMap.get_of_mem hi.wf hm)))
      rw [List.length_map] at this
      exact this
    have h2 : x.totalSubscriptions ≤ x.totalResources * x.uniqueSubscribers := by
      have := sum_le_mul ((run init h).subs.map (fun e => e.2.length)) x.uniqueSubscribers (by
        intro n hn
        obtain ⟨⟨u, set⟩, hm, rfl⟩ := List.mem_map.mp hn
        obtain ⟨h1, h2⟩ := counts_outer (run init h).subs ([] : AMap S Nat) AMap.wf_nil
        have hk : set.length ≤ (AMap.keys ((run init h).subs.foldl
            (fun m e => e.2.foldl countSubscriber m) ([] : AMap S Nat))).length :=
          (hi.nodup u set (AMap.get_of_mem hi.wf hm)).length_le_of_subset
            (fun s hs => (h2 s).mpr (Or.inr ⟨(u, set), hm, hs⟩))
        rw [show ∀ m : AMap S Nat, (AMap.keys m).length = m.length from fun m => by simp [AMap.keys]] at hk
        exact hk)
      rw [List.length_map] at this
      exact this
    unfold Stats.perResource
    rw [if_pos hp]
    exact rat_average _ _ _ hp h1 h2

example : (getStats (run init [Op.subscribe "a" 1, .subscribe "b" 1, .subscribe "a" 2])).perResource = 3 / 2 := by
  decide +kernel

/-- **C20** (isolation): an operation of one subscriber never changes what another subscriber is
subscribed to. -/
theorem C20_isolation (h : List (Op U S)) (op : Op U S) (s s' : S) (hne : s' ≠ s)
    (hop : op = .unsubscribeAll s ∨ (∃ u, op = .subscribe u s) ∨ (∃ u, op = .unsubscribe u s))
    (u : U) :
    u ∈ getSubscriptions (run init (h ++ [op])) s' ↔ u ∈ getSubscriptions (run init h) s' := by
  rw [(C20_get_subscriptions (h ++ [op]) s').2, (C20_get_subscriptions h s').2]
  unfold Subscribed
  rw [List.foldl_append]
  simp only [List.foldl_cons, List.foldl_nil]
  rcases hop with rfl | ⟨v, rfl⟩ | ⟨v, rfl⟩ <;> simp [effect, hne]

/-- **C20** (idempotence): subscribing a second time changes no answer. -/
theorem C20_subscribe_twice (h : List (Op U S)) (u v : U) (s r : S) :
    Subscribed (h ++ [.subscribe u s, .subscribe u s]) v r ↔
      Subscribed (h ++ [.subscribe u s]) v r := by
  unfold Subscribed
  simp only [List.foldl_append, List.foldl_cons, List.foldl_nil, effect]
  constructor
  · rintro (h | h)
    · exact Or.inl h
    · exact h
  · exact Or.inr

example : getSubscriptions (run init [Op.subscribe "a" 1, .subscribe "b" 1, .subscribe "a" 2,
    .subscribe "a" 1, .unsubscribe "a" 2, .unsubscribeAll 3]) 1 = ["a", "b"] := by decide
example : getStats (run init [Op.subscribe "a" 1, .subscribe "b" 1, .subscribe "a" 2,
    .subscribe "c" 3, .unsubscribeAll 3]) = ⟨2, 3, 2⟩ := by decide

/-! ### C21 -/

/-- **C21**.  Notifying about `u` after any history leaves all subscriptions as they are, returns
the number of distinct subscribers of `u`, and hands exactly one notification, for `u`, to the
sender if there is a subscriber and a sender is installed, and none otherwise. -/
theorem C21_notify (h : List (Op U S)) (u : U) (ss : List S)
    (hss : ss.Nodup ∧ ∀ s, s ∈ ss ↔ Subscribed h u s) :
    (notifyResourceUpdated (run init h) u).2 = ss.length ∧
    (∀ v r, Subscribed (h ++ [.notify u]) v r ↔ Subscribed h v r) ∧
    (notifyResourceUpdated (run init h) u).1.sent =
      (run init h).sent ++ (if Op.setSender ∈ h ∧ ss ≠ [] then [u] else []) := by
  have hs := C20_get_subscribers h u
  have hlen : (getSubscribers (run init h) u).length = ss.length :=
    nodup_length_eq hs.1 hss.1 (fun s => by rw [hs.2, hss.2])
  have hsend : ∀ (st : State U S) (h : List (Op U S)), (run st h).hasSender = true ↔
      st.hasSender = true ∨ Op.setSender ∈ h := by
    intro st h
    induction h generalizing st with
    | nil => simp [run]
    | cons op h ih =>
      show (run (step st op) h).hasSender = true ↔ _
      rw [ih]
      cases op with
      | setSender => simp [step, setSender]
      | subscribe u s => simp [step, subscribe]
      | unsubscribe u s =>
        have : (unsubscribe st u s).hasSender = st.hasSender := by
          simp only [unsubscribe]
          split
          · (try simp only); split <;> rfl
          · rfl
        simp [step, this]
      | unsubscribeAll s => simp [step, unsubscribeAll]
      | notify u =>
        have : (notifyResourceUpdated st u).1.hasSender = st.hasSender := by
          simp only [notifyResourceUpdated]
          split
          · split
            · (try simp only); split <;> rfl
            · rfl
          · rfl
        simp [step, this]
  have hsend' : (run init h).hasSender = true ↔ Op.setSender ∈ h := by
    rw [hsend init h]; simp [init]
  refine ⟨?_, ?_, ?_⟩
  · rw [← hlen]
    simp only [notifyResourceUpdated, getSubscribers]
    cases hg : (run init h).subs.get u with
    | none => rfl
    | some x => cases x <;> simp
  · intro v r
    unfold Subscribed
    simp only [List.foldl_append, List.foldl_cons, List.foldl_nil, effect]
  · simp only [notifyResourceUpdated]
    unfold getSubscribers at hlen
    cases hg : (run init h).subs.get u with
    | none =>
      rw [hg] at hlen
      have : ss = [] := List.eq_nil_of_length_eq_zero (by simpa using hlen.symm)
      simp [this]
    | some x =>
      rw [hg] at hlen
      simp only [Option.getD_some] at hlen
      by_cases hx : x.length > 0
      · have hne : ss ≠ [] := by
          intro he
          rw [he] at hlen
          simp at hlen
          subst hlen
          simp at hx
        simp only [hx, if_true, hne, ne_eq, not_false_eq_true, and_true]
        by_cases hS : Op.setSender ∈ h
        · rw [if_pos (hsend'.mpr hS), if_pos hS]
        · rw [if_neg (fun hh => hS (hsend'.mp hh)), if_neg hS, List.append_nil]
      · have : ss = [] := List.eq_nil_of_length_eq_zero (by omega)
        simp [hx, this]

example : (notifyResourceUpdated (run init [Op.setSender, .subscribe "a" 1, .subscribe "a" 2,
    .subscribe "b" 3]) "a").2 = 2 ∧
  (notifyResourceUpdated (run init [Op.setSender, .subscribe "a" 1, .subscribe "a" 2,
    .subscribe "b" 3]) "a").1.sent = ["a"] := by decide

/-- The enumeration asked for in `C20_stats` and `C21_notify` always exists. -/
theorem C21_enumeration_exists (h : List (Op U S)) (u : U) :
    ∃ ss : List S, ss.Nodup ∧ ∀ s, s ∈ ss ↔ Subscribed h u s :=
  ⟨_, C20_get_subscribers h u⟩

end Verif.Subscriptions
