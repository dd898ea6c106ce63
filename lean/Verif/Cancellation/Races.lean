import Verif.Cancellation.Props

/-
Property C245: a request that `cancel_request` has returned for is cancelled, when calls overlap.

Models /repo/src/server/cancellation.rs L31-92 once more, with `cancel_request` in its three parts: the token is taken out
of the table under the lock (L40-43), which is then released; the token is cancelled (L47); the notification is handed to
the sender (L50-58). A call that finds no token returns at once (L45, L61). The other calls are one critical section each.
`set_notification_sender` takes `&mut self` (L26), so no call is in progress then: whether there is a sender is settled
at the beginning.
-/

namespace Verif.Cancellation

variable {Id : Type} [DecidableEq Id]

/-- How far a call of `cancel_request` is: it holds a token that it has taken and not cancelled, it has cancelled it and
not told, it has returned. /repo/src/server/cancellation.rs L39-62. -/
inductive Phase (Id : Type) where
  | taken (t : Nat) (id : Id) (r : Option String)
  | cancelled (id : Id) (r : Option String)
  | returned
  deriving DecidableEq

/-- The manager and the calls of `cancel_request` begun so far. /repo/src/server/cancellation.rs L11-14, L39-62. -/
structure Shared (Id : Type) where
  base : State Id
  calls : List (Phase Id) := []

/-- What happens: a call with one section (L31-36, L65-92), a holder cancels its token, a call of `cancel_request` takes
the token out of the table (L40-43), cancels it (L47), tells (L50-58) and returns.
/repo/src/server/cancellation.rs L31-92. -/
inductive Section (Id : Type) where
  | create (id : Id)
  | remove (id : Id)
  | clear
  | cancelToken (t : Nat)
  | take (id : Id) (r : Option String)
  | cancel (k : Nat)
  | tell (k : Nat)
  deriving DecidableEq

/-- One step; `none` if it is not possible: the call is not that far, or there is no such token yet.
/repo/src/server/cancellation.rs L31-92. -/
def part (x : Shared Id) : Section Id → Option (Shared Id)
  | .create id => some { x with base := (createToken x.base id).1 }
  | .remove id => some { x with base := removeToken x.base id }
  | .clear => some { x with base := Cancellation.clear x.base }
  | .cancelToken t => if t < x.base.next then some { x with base := Cancellation.cancelToken x.base t } else none
  | .take id r =>
    match x.base.tokens.get id with
    | some t => some ⟨removeToken x.base id, x.calls ++ [.taken t id r]⟩
    | none => some ⟨removeToken x.base id, x.calls ++ [.returned]⟩
  | .cancel k =>
    match x.calls[k]? with
    | some (.taken t id r) => some ⟨Cancellation.cancelToken x.base t, x.calls.set k (.cancelled id r)⟩
    | _ => none
  | .tell k =>
    match x.calls[k]? with
    | some (.cancelled id r) =>
      some ⟨if x.base.hasSender then { x.base with notes := x.base.notes ++ [(id, reasonOf r)] } else x.base,
        x.calls.set k .returned⟩
    | _ => none

/-- An execution. (Any interleaving of the sections of /repo/src/server/cancellation.rs L31-92.) -/
def parts (x : Shared Id) : List (Section Id) → Option (Shared Id)
  | [] => some x
  | o :: l => (part x o).bind (fun y => parts y l)

/-- The manager at the beginning, with or without sender. /repo/src/server/cancellation.rs L18-28. -/
def start (sender : Bool) : Shared Id := ⟨⟨[], 0, [], sender, []⟩, []⟩

theorem parts_append (l m : List (Section Id)) (x : Shared Id) :
    parts x (l ++ m) = (parts x l).bind (fun y => parts y m) := by
  induction l generalizing x with
  | nil => rfl
  | cons o l ih =>
    simp only [List.cons_append, parts]
    cases part x o with
    | none => rfl
    | some r => exact ih r

/-! ### Calls one after another -/

/-- **C245** (calls that do not overlap). The three parts of `cancel_request` with nothing in between have the effect of
the call as one step, of which C22 speaks. -/
theorem C245_sequential (x : Shared Id) (id : Id) (r : Option String) :
    ∃ y, (match x.base.tokens.get id with
        | some _ => parts x [.take id r, .cancel x.calls.length, .tell x.calls.length]
        | none => parts x [.take id r]) = some y ∧
      y.base = cancelRequest x.base id r ∧ y.calls = x.calls ++ [.returned] := by
  cases h : x.base.tokens.get id with
  | none =>
    refine ⟨⟨removeToken x.base id, x.calls ++ [.returned]⟩, ?_, ?_, rfl⟩
    · simp [parts, part, h]
    · simp [cancelRequest, h, removeToken]
  | some t =>
    refine ⟨⟨cancelRequest x.base id r, x.calls ++ [.returned]⟩, ?_, rfl, rfl⟩
    simp only [parts, part, h, Option.bind_some, List.getElem?_concat_length, List.set_append_right, Nat.le_refl,
      Nat.sub_self, List.set_cons_zero]
    cases hs : x.base.hasSender <;> simp [cancelRequest, h, removeToken, Cancellation.cancelToken, hs]

example : parts (start true) [(.create 7 : Section Nat), .take 7 none, .cancel 0, .tell 0] =
    some ⟨⟨[], 1, [0], true, [(7, .default)]⟩, [.returned]⟩ := rfl

/-! ### Calls that overlap -/

/-- The tokens there are. (Specification: no counterpart in the code.) -/
structure Known (x : Shared Id) : Prop where
  inv : Inv x.base
  cancelled : ∀ t ∈ x.base.cancelled, t < x.base.next
  held : ∀ (k t : Nat) id r, x.calls[k]? = some (.taken t id r) → t < x.base.next

theorem known_part (x y : Shared Id) (o : Section Id) (hk : Known x) (h : part x o = some y) : Known y := by
  obtain ⟨hi, hc, hh⟩ := hk
  cases o with
  | create id =>
    cases h
    exact ⟨inv_step hi (.create id), fun t ht => Nat.lt_succ_of_lt (hc t ht),
      fun k t i r ht => Nat.lt_succ_of_lt (hh k t i r ht)⟩
  | remove id => cases h; exact ⟨inv_step hi (.remove id), hc, hh⟩
  | clear =>
    cases h
    refine ⟨inv_step hi .clear, ?_, hh⟩
    intro t ht
    simp only [Cancellation.clear, List.mem_append, List.mem_map] at ht
    rcases ht with ⟨⟨i, t'⟩, hm, rfl⟩ | ht
    · exact hi.lt i _ (AMap.get_of_mem hi.wf hm)
    · exact hc t ht
  | cancelToken t =>
    simp only [part] at h
    split at h
    · next hlt =>
      cases h
      refine ⟨inv_step hi (.cancelToken t), ?_, hh⟩
      intro u hu
      rcases List.mem_cons.mp hu with rfl | hu
      · exact hlt
      · exact hc u hu
    · cases h
  | take id r =>
    simp only [part] at h
    split at h
    · next t ht =>
      cases h
      refine ⟨inv_step hi (.remove id), hc, ?_⟩
      intro k u i r' hu
      simp only [List.getElem?_append] at hu
      split at hu
      · exact hh k u i r' hu
      · rw [List.getElem?_singleton] at hu
        split at hu
        · cases hu; exact hi.lt _ _ ht
        · cases hu
    · cases h
      refine ⟨inv_step hi (.remove id), hc, ?_⟩
      intro k u i r' hu
      simp only [List.getElem?_append] at hu
      split at hu
      · exact hh k u i r' hu
      · rw [List.getElem?_singleton] at hu
        split at hu <;> cases hu
  | cancel k =>
    simp only [part] at h
    split at h
    · next t id r hk =>
      cases h
      refine ⟨inv_step hi (.cancelToken t), ?_, ?_⟩
      · intro u hu
        rcases List.mem_cons.mp hu with rfl | hu
        · exact hh _ _ _ _ hk
        · exact hc u hu
      · intro j u i r' hu
        simp only [List.getElem?_set] at hu
        split at hu
        · split at hu <;> cases hu
        · exact hh j u i r' hu
    · cases h
  | tell k =>
    simp only [part] at h
    split at h
    · cases h
      have hb : ∀ b : Bool, ∀ n : List (Id × Reason), Inv (if b then { x.base with notes := n } else x.base) ∧
          (if b then { x.base with notes := n } else x.base).cancelled = x.base.cancelled ∧
          (if b then { x.base with notes := n } else x.base).next = x.base.next := by
        intro b n; cases b
        · exact ⟨hi, rfl, rfl⟩
        · exact ⟨⟨hi.wf, hi.lt, hi.inj⟩, rfl, rfl⟩
      obtain ⟨b1, b2, b3⟩ := hb x.base.hasSender (x.base.notes ++ [_])
      refine ⟨b1, ?_, ?_⟩
      · intro t ht; rw [b2] at ht; rw [b3]; exact hc t ht
      · intro j u i r' hu
        rw [b3]
        simp only [List.getElem?_set] at hu
        split at hu
        · split at hu <;> cases hu
        · exact hh j u i r' hu
    · cases h

theorem known_parts (l : List (Section Id)) (x y : Shared Id) (hk : Known x) (h : parts x l = some y) : Known y := by
  induction l generalizing x with
  | nil => simp only [parts, Option.some.injEq] at h; subst h; exact hk
  | cons o l ih =>
    simp only [parts, Option.bind_eq_some_iff] at h
    obtain ⟨z, h1, h2⟩ := h
    exact ih z (known_part x z o hk h1) h2

theorem known_start (sender : Bool) : Known (start sender : Shared Id) :=
  ⟨⟨AMap.wf_nil, by simp [start], by simp [start]⟩, by simp [start], by simp [start]⟩

/-- A section that ends the request otherwise, or replaces it. (Specification: no counterpart in the code.) -/
def Otherwise (id : Id) (t : Nat) (o : Section Id) : Prop :=
  o = .create id ∨ o = .remove id ∨ o = .clear ∨ o = .cancelToken t

/-- Nobody has asked for the token yet. (Specification: no counterpart in the code.) -/
def Running (x : Shared Id) (id : Id) (t : Nat) : Prop :=
  x.base.tokens.get id = some t ∧ t ∉ x.base.cancelled ∧ ∀ (k : Nat) i r, x.calls[k]? ≠ some (.taken t i r)

/-- A call has the token, or has cancelled it. (Specification: no counterpart in the code.) -/
def Taken (x : Shared Id) (id : Id) (t : Nat) : Prop :=
  t < x.base.next ∧ (∀ i, x.base.tokens.get i ≠ some t) ∧
    ((t ∉ x.base.cancelled ∧ ∃ (k : Nat) (r : Option String), x.calls[k]? = some (.taken t id r) ∧
        ∀ (j : Nat) i r', x.calls[j]? = some (.taken t i r') → j = k) ∨
      (t ∈ x.base.cancelled ∧ ∀ (k : Nat) i r, x.calls[k]? ≠ some (.taken t i r)))

theorem base_tell (x y : Shared Id) (k : Nat) (h : part x (.tell k) = some y) :
    y.base.tokens = x.base.tokens ∧ y.base.cancelled = x.base.cancelled ∧ y.base.next = x.base.next ∧
      ∀ (j t : Nat) i r, y.calls[j]? = some (.taken t i r) ↔ x.calls[j]? = some (.taken t i r) := by
  simp only [part] at h
  split at h
  · next id r hk =>
    cases h
    refine ⟨?_, ?_, ?_, ?_⟩
    · simp only; split <;> rfl
    · simp only; split <;> rfl
    · simp only; split <;> rfl
    · intro j t i r'
      simp only [List.getElem?_set]
      split
      · next e => subst e; rw [hk]; split <;> simp
      · rfl
  · cases h

theorem running_part (x y : Shared Id) (o : Section Id) (id : Id) (t : Nat) (hk : Known x) (hr : Running x id t)
    (ho : ¬ Otherwise id t o) (h : part x o = some y) :
    ((∃ r, o = .take id r) → Taken y id t) ∧ ((∀ r, o ≠ .take id r) → Running y id t) := by
  obtain ⟨r1, r2, r3⟩ := hr
  have hlt := hk.inv.lt _ _ r1
  cases o with
  | create j =>
    cases h
    have hne : id ≠ j := fun e => ho (.inl (by rw [e]))
    refine ⟨fun ⟨r, h⟩ => (by cases h), fun _ => ⟨?_, r2, r3⟩⟩
    simp only [createToken]; rw [AMap.get_insert, if_neg hne]; exact r1
  | remove j =>
    cases h
    have hne : id ≠ j := fun e => ho (.inr (.inl (by rw [e])))
    refine ⟨fun ⟨r, h⟩ => (by cases h), fun _ => ⟨?_, r2, r3⟩⟩
    simp only [removeToken]; rw [AMap.get_remove, if_neg hne]; exact r1
  | clear => exact absurd (.inr (.inr (.inl rfl))) ho
  | cancelToken u =>
    simp only [part] at h
    split at h
    · cases h
      have hne : t ≠ u := fun e => ho (.inr (.inr (.inr (by rw [e]))))
      refine ⟨fun ⟨r, h⟩ => (by cases h), fun _ => ⟨r1, ?_, r3⟩⟩
      intro hm
      rcases List.mem_cons.mp hm with e | hm
      · exact hne e
      · exact r2 hm
    · cases h
  | take j r =>
    simp only [part] at h
    by_cases e : j = id
    · subst e
      rw [r1] at h
      cases h
      refine ⟨fun _ => ⟨hlt, ?_, .inl ⟨r2, x.calls.length, r, by simp, ?_⟩⟩, fun hn => absurd rfl (hn r)⟩
      · intro i hi
        obtain ⟨hi, hne⟩ := get_remove_some hi
        exact hne (hk.inv.inj _ _ _ hi r1)
      · intro m i r' hm
        simp only [List.getElem?_append] at hm
        split at hm
        · exact absurd hm (r3 m i r')
        · rw [List.getElem?_singleton] at hm
          split at hm
          · omega
          · cases hm
    · refine ⟨fun ⟨r', h'⟩ => (by cases h'; exact absurd rfl e), fun _ => ?_⟩
      have hg : (removeToken x.base j).tokens.get id = some t := by
        simp only [removeToken]; rw [AMap.get_remove, if_neg (Ne.symm e)]; exact r1
      split at h
      · next u hu =>
        cases h
        refine ⟨hg, r2, ?_⟩
        intro m i r' hm
        simp only [List.getElem?_append] at hm
        split at hm
        · exact r3 m i r' hm
        · rw [List.getElem?_singleton] at hm
          split at hm
          · cases hm; exact e (hk.inv.inj _ _ _ hu r1)
          · cases hm
      · cases h
        refine ⟨hg, r2, ?_⟩
        intro m i r' hm
        simp only [List.getElem?_append] at hm
        split at hm
        · exact r3 m i r' hm
        · rw [List.getElem?_singleton] at hm
          split at hm <;> cases hm
  | cancel k =>
    simp only [part] at h
    split at h
    · next u i r hu =>
      cases h
      refine ⟨fun ⟨r, h⟩ => (by cases h), fun _ => ⟨r1, ?_, ?_⟩⟩
      · intro hm
        rcases List.mem_cons.mp hm with rfl | hm
        · exact r3 _ _ _ hu
        · exact r2 hm
      · intro m i r' hm
        simp only [List.getElem?_set] at hm
        split at hm
        · split at hm <;> cases hm
        · exact r3 m i r' hm
    · cases h
  | tell k =>
    obtain ⟨b1, b2, -, b4⟩ := base_tell x y k h
    refine ⟨fun ⟨r, h⟩ => (by cases h), fun _ => ⟨by rw [b1]; exact r1, by rw [b2]; exact r2, ?_⟩⟩
    intro m i r hm
    exact r3 m i r ((b4 m t i r).mp hm)

theorem taken_part (x y : Shared Id) (o : Section Id) (id : Id) (t : Nat) (hk : Known x) (hr : Taken x id t)
    (ho : ¬ Otherwise id t o) (h : part x o = some y) : Taken y id t := by
  obtain ⟨r0, r1, r2⟩ := hr
  cases o with
  | create j =>
    cases h
    refine ⟨Nat.lt_succ_of_lt r0, ?_, r2⟩
    intro i hi
    simp only [createToken] at hi
    rw [AMap.get_insert] at hi
    split at hi
    · cases hi; exact absurd r0 (Nat.lt_irrefl _)
    · exact r1 i hi
  | remove j => cases h; exact ⟨r0, fun i hi => r1 i (get_remove_some hi).1, r2⟩
  | clear => exact absurd (.inr (.inr (.inl rfl))) ho
  | cancelToken u =>
    simp only [part] at h
    split at h
    · cases h
      have hne : t ≠ u := fun e => ho (.inr (.inr (.inr (by rw [e]))))
      refine ⟨r0, r1, ?_⟩
      rcases r2 with ⟨hc, hx⟩ | ⟨hc, hx⟩
      · refine .inl ⟨?_, hx⟩
        intro hm
        rcases List.mem_cons.mp hm with e | hm
        · exact hne e
        · exact hc hm
      · exact .inr ⟨List.mem_cons_of_mem _ hc, hx⟩
    · cases h
  | take j r =>
    have hb : ∀ c : Phase Id, (∀ i r', c ≠ .taken t i r') →
        Taken ⟨removeToken x.base j, x.calls ++ [c]⟩ id t := by
      intro c hc
      have hold : ∀ (m : Nat) i r', (x.calls ++ [c])[m]? = some (.taken t i r') ↔ x.calls[m]? = some (.taken t i r') := by
        intro m i r'
        rw [List.getElem?_append]
        split
        · rfl
        · next hm =>
          rw [List.getElem?_singleton, List.getElem?_eq_none (Nat.le_of_not_lt hm)]
          split
          · simp only [Option.some.injEq, reduceCtorEq, iff_false]; exact hc i r'
          · simp
      refine ⟨r0, fun i hi => r1 i (get_remove_some hi).1, ?_⟩
      rcases r2 with ⟨h1, k, r', h2, h3⟩ | ⟨h1, h2⟩
      · exact .inl ⟨h1, k, r', (hold k id r').mpr h2, fun m i r'' hm => h3 m i r'' ((hold m i r'').mp hm)⟩
      · exact .inr ⟨h1, fun m i r'' hm => h2 m i r'' ((hold m i r'').mp hm)⟩
    simp only [part] at h
    split at h
    · next u hu =>
      cases h
      refine hb _ ?_
      intro i r' e
      cases e
      exact r1 _ hu
    · cases h; exact hb _ (by intro i r' e; cases e)
  | cancel k =>
    simp only [part] at h
    split at h
    · next u i r hu =>
      cases h
      refine ⟨r0, r1, ?_⟩
      rcases r2 with ⟨h1, k', r', h2, h3⟩ | ⟨h1, h2⟩
      · by_cases e : u = t
        · subst e
          refine .inr ⟨List.mem_cons_self, ?_⟩
          intro m i' r'' hm
          simp only [List.getElem?_set] at hm
          split at hm
          · split at hm <;> cases hm
          · next hne => exact hne ((h3 k i r hu).trans (h3 m i' r'' hm).symm)
        · have hne : k ≠ k' := by
            intro e'
            subst e'
            rw [hu] at h2
            cases h2
            exact e rfl
          refine .inl ⟨?_, k', r', by simp only; rw [List.getElem?_set_ne hne]; exact h2, ?_⟩
          · intro hm
            rcases List.mem_cons.mp hm with e' | hm
            · exact e e'.symm
            · exact h1 hm
          · intro m i' r'' hm
            simp only [List.getElem?_set] at hm
            split at hm
            · split at hm <;> cases hm
            · exact h3 m i' r'' hm
      · refine .inr ⟨List.mem_cons_of_mem _ h1, ?_⟩
        intro m i' r'' hm
        simp only [List.getElem?_set] at hm
        split at hm
        · split at hm <;> cases hm
        · exact h2 m i' r'' hm
    · cases h
  | tell k =>
    obtain ⟨b1, b2, b3, b4⟩ := base_tell x y k h
    refine ⟨by rw [b3]; exact r0, by rw [b1]; exact r1, ?_⟩
    rw [b2]
    rcases r2 with ⟨h1, k', r', h2, h3⟩ | ⟨h1, h2⟩
    · exact .inl ⟨h1, k', r', (b4 _ _ _ _).mpr h2, fun m i r hm => h3 m i r ((b4 _ _ _ _).mp hm)⟩
    · exact .inr ⟨h1, fun m i r hm => h2 m i r ((b4 _ _ _ _).mp hm)⟩

theorem taken_parts (l : List (Section Id)) (x y : Shared Id) (id : Id) (t : Nat) (hk : Known x) (hr : Taken x id t)
    (ho : ∀ o ∈ l, ¬ Otherwise id t o) (h : parts x l = some y) : Taken y id t := by
  induction l generalizing x with
  | nil => simp only [parts, Option.some.injEq] at h; subst h; exact hr
  | cons o l ih =>
    simp only [parts, Option.bind_eq_some_iff] at h
    obtain ⟨z, h1, h2⟩ := h
    exact ih z (known_part x z o hk h1) (taken_part x z o id t hk hr (ho o List.mem_cons_self) h1)
      (fun o' hm => ho o' (List.mem_cons_of_mem _ hm)) h2

theorem running_parts (l : List (Section Id)) (x y : Shared Id) (id : Id) (t : Nat) (hk : Known x) (hr : Running x id t)
    (ho : ∀ o ∈ l, ¬ Otherwise id t o) (h : parts x l = some y) :
    ((∃ r, .take id r ∈ l) → Taken y id t) ∧ ((∀ r, .take id r ∉ l) → Running y id t) := by
  induction l generalizing x with
  | nil => simp only [parts, Option.some.injEq] at h; subst h; exact ⟨fun ⟨r, hm⟩ => (by cases hm), fun _ => hr⟩
  | cons o l ih =>
    simp only [parts, Option.bind_eq_some_iff] at h
    obtain ⟨z, h1, h2⟩ := h
    have ho' : ∀ o ∈ l, ¬ Otherwise id t o := fun o' hm => ho o' (List.mem_cons_of_mem _ hm)
    have hz := known_part x z o hk h1
    obtain ⟨p1, p2⟩ := running_part x z o id t hk hr (ho o List.mem_cons_self) h1
    by_cases hq : ∃ r, o = .take id r
    · exact ⟨fun _ => taken_parts l z y id t hz (p1 hq) ho' h2,
        fun hn => (by obtain ⟨r, rfl⟩ := hq; exact absurd List.mem_cons_self (hn r))⟩
    · have hq' : ∀ r, o ≠ .take id r := fun r e => hq ⟨r, e⟩
      obtain ⟨q1, q2⟩ := ih z hz (p2 hq') ho' h2
      refine ⟨fun ⟨r, hm⟩ => q1 ⟨r, ?_⟩, fun hn => q2 (fun r hm => hn r (List.mem_cons_of_mem _ hm))⟩
      rcases List.mem_cons.mp hm with e | hm
      · exact absurd e.symm (hq' r)
      · exact hm

/-- **C245** (exactly). Whatever overlaps: once `cancel_request` has been called for a request, by whomever and however
often, and whether the calls have returned or not, the request's token is not cancelled precisely while a call holds it
between taking it from the table and cancelling it. (Without another `create_token` or `remove_token` for the id, a
`clear`, or a holder that cancels the token itself.) -/
theorem C245_cancelled_iff (sender : Bool) (a b : List (Section Id)) (id : Id) (x y : Shared Id)
    (hx : parts (start sender) a = some x) (hy : parts (start sender) (a ++ .create id :: b) = some y)
    (ho : ∀ o ∈ b, ¬ Otherwise id x.base.next o) (hc : ∃ r, .take id r ∈ b) :
    x.base.next ∉ y.base.cancelled ↔ ∃ (k : Nat) (r : Option String), y.calls[k]? = some (.taken x.base.next id r) := by
  have hk := known_parts a _ x (known_start sender) hx
  rw [parts_append, hx] at hy
  simp only [Option.bind_some, parts, part] at hy
  have hk' : Known (⟨(createToken x.base id).1, x.calls⟩ : Shared Id) := known_part x _ (.create id) hk rfl
  have hr : Running (⟨(createToken x.base id).1, x.calls⟩ : Shared Id) id x.base.next := by
    refine ⟨by simp [createToken], fun hm => absurd (hk.cancelled _ hm) (Nat.lt_irrefl _), ?_⟩
    intro k i r hm
    exact absurd (hk.held _ _ _ _ hm) (Nat.lt_irrefl _)
  obtain ⟨-, -, ht⟩ := (running_parts b _ y id _ hk' hr ho hy).1 hc
  rcases ht with ⟨h1, k, r, h2, -⟩ | ⟨h1, h2⟩
  · exact ⟨fun _ => ⟨k, r, h2⟩, fun _ => h1⟩
  · exact ⟨fun h => absurd h1 h, fun ⟨k, r, h⟩ => absurd h (h2 k id r)⟩

example : (parts (start true) [(.create 7 : Section Nat), .take 7 none, .take 7 none]).map
    (fun x => (x.calls, x.base.cancelled)) = some ([.taken 0 7 none, .returned], []) := rfl

/-- **C245** (refuted). Of two calls for one request the second returns before the request is cancelled; and whatever is
called afterwards, even `clear`, it is not cancelled as long as the first call does not go on and no holder cancels the
token. -/
theorem C245_returned_too_early (x : Shared Id) (hk : Known x) (id : Id) (t : Nat) (r r' : Option String)
    (hr : Running x id t) (h : List (Section Id)) (hh : .cancel x.calls.length ∉ h) (ht : .cancelToken t ∉ h)
    (y : Shared Id) (hy : parts x (.take id r :: .take id r' :: h) = some y) :
    y.calls[x.calls.length + 1]? = some .returned ∧ t ∉ y.base.cancelled := by
  obtain ⟨r1, r2, r3⟩ := hr
  have hlt := hk.inv.lt _ _ r1
  have hout : ∀ i, (x.base.tokens.remove id).get i ≠ some t := by
    intro i hi
    obtain ⟨hi, hne⟩ := get_remove_some hi
    exact hne (hk.inv.inj _ _ _ hi r1)
  simp only [parts, part, r1, Option.bind_some, removeToken, AMap.get_remove_self, AMap.remove_remove] at hy
  -- what stays as it is
  have keep : ∀ (h : List (Section Id)) (z y : Shared Id), .cancel x.calls.length ∉ h → .cancelToken t ∉ h →
      parts z h = some y → Inv z.base → t < z.base.next → t ∉ z.base.cancelled → (∀ i, z.base.tokens.get i ≠ some t) →
      x.calls.length + 1 < z.calls.length → z.calls[x.calls.length + 1]? = some .returned →
      (∀ (k : Nat) i r, z.calls[k]? = some (.taken t i r) → k = x.calls.length) →
      y.calls[x.calls.length + 1]? = some .returned ∧ t ∉ y.base.cancelled := by
    intro h
    induction h with
    | nil =>
      intro z y _ _ hp _ _ hc _ _ hret _
      simp only [parts, Option.some.injEq] at hp; subst hp
      exact ⟨hret, hc⟩
    | cons o h ih =>
      intro z y hh ht hp hi hlt hc hg hlen hret hown
      simp only [parts, Option.bind_eq_some_iff] at hp
      obtain ⟨w, h1, h2⟩ := hp
      have hh' : .cancel x.calls.length ∉ h := fun hm => hh (List.mem_cons_of_mem _ hm)
      have ht' : .cancelToken t ∉ h := fun hm => ht (List.mem_cons_of_mem _ hm)
      cases o with
      | create j =>
        cases h1
        refine ih _ y hh' ht' h2 (inv_step hi (.create j)) (Nat.lt_succ_of_lt hlt) hc ?_ hlen hret hown
        intro i hi'
        simp only [createToken] at hi'
        rw [AMap.get_insert] at hi'
        split at hi'
        · cases hi'; exact absurd hlt (Nat.lt_irrefl _)
        · exact hg i hi'
      | remove j =>
        cases h1
        exact ih _ y hh' ht' h2 (inv_step hi (.remove j)) hlt hc (fun i hi' => hg i (get_remove_some hi').1) hlen hret hown
      | clear =>
        cases h1
        refine ih _ y hh' ht' h2 (inv_step hi .clear) hlt ?_ (by simp [Cancellation.clear]) hlen hret hown
        intro hm
        simp only [Cancellation.clear, List.mem_append, List.mem_map] at hm
        rcases hm with ⟨⟨i, t'⟩, hm, rfl⟩ | hm
        · exact hg i (AMap.get_of_mem hi.wf hm)
        · exact hc hm
      | cancelToken u =>
        simp only [part] at h1
        split at h1
        · cases h1
          refine ih _ y hh' ht' h2 (inv_step hi (.cancelToken u)) hlt ?_ hg hlen hret hown
          intro hm
          rcases List.mem_cons.mp hm with rfl | hm
          · exact ht List.mem_cons_self
          · exact hc hm
        · cases h1
      | take j r =>
        have hb : ∀ c : Phase Id, (∀ i r', c ≠ .taken t i r') → w = ⟨removeToken z.base j, z.calls ++ [c]⟩ →
            y.calls[x.calls.length + 1]? = some .returned ∧ t ∉ y.base.cancelled := by
          intro c hcn hw
          subst hw
          refine ih _ y hh' ht' h2 (inv_step hi (.remove j)) hlt hc (fun i hi' => hg i (get_remove_some hi').1) ?_ ?_ ?_
          · simp only [List.length_append, List.length_singleton]; omega
          · simp only; rw [List.getElem?_append_left hlen]; exact hret
          · intro k i r' hk'
            simp only [List.getElem?_append] at hk'
            split at hk'
            · exact hown k i r' hk'
            · rw [List.getElem?_singleton] at hk'
              split at hk'
              · simp only [Option.some.injEq] at hk'; exact absurd hk' (hcn i r')
              · cases hk'
        simp only [part] at h1
        split at h1
        · next u hu =>
          cases h1
          refine hb _ ?_ rfl
          intro i r' e
          cases e
          exact hg _ hu
        · cases h1; exact hb _ (by intro i r' e; cases e) rfl
      | cancel k =>
        simp only [part] at h1
        split at h1
        · next u i r hu =>
          cases h1
          have hne : k ≠ x.calls.length := fun e => hh (by rw [← e]; exact List.mem_cons_self)
          refine ih _ y hh' ht' h2 (inv_step hi (.cancelToken u)) hlt ?_ hg (by simpa using hlen) ?_ ?_
          · intro hm
            rcases List.mem_cons.mp hm with rfl | hm
            · exact hne (hown k i r hu)
            · exact hc hm
          · simp only [List.getElem?_set]
            split
            · next e => subst e; rw [hret] at hu; cases hu
            · exact hret
          · intro m i' r'' hm
            simp only [List.getElem?_set] at hm
            split at hm
            · split at hm <;> cases hm
            · exact hown m i' r'' hm
        · cases h1
      | tell k =>
        have hcalls : w.calls = z.calls.set k .returned ∧ Inv w.base := by
          simp only [part] at h1
          split at h1
          · cases h1
            refine ⟨rfl, ?_⟩
            simp only
            split
            · exact ⟨hi.wf, hi.lt, hi.inj⟩
            · exact hi
          · cases h1
        obtain ⟨b1, b2, b3, b4⟩ := base_tell z w k h1
        refine ih w y hh' ht' h2 hcalls.2 (by rw [b3]; exact hlt) (by rw [b2]; exact hc) (by rw [b1]; exact hg)
          (by rw [hcalls.1]; simpa using hlen) ?_ (fun m i r hm => hown m i r ((b4 _ _ _ _).mp hm))
        rw [hcalls.1, List.getElem?_set]
        split
        · split
          · rfl
          · omega
        · exact hret
  refine keep h _ y hh ht hy (inv_step hk.inv (.remove id)) hlt r2 hout ?_ ?_ ?_
  · simp
  · simp
  · intro k i r'' hk'
    simp only [List.append_assoc, List.getElem?_append] at hk'
    split at hk'
    · exact absurd hk' (r3 k i r'')
    · match hj : k - x.calls.length, hk' with
      | 0, _ => omega
      | 1, hk' => simp at hk'
      | n + 2, hk' => simp at hk'

example : ∃ x : Shared Nat, parts (start true) [.create 7] = some x ∧ Known x ∧ Running x 7 0 ∧
    (parts x [.take 7 none, .take 7 none, .clear]).isSome := by
  refine ⟨⟨⟨[(7, 0)], 1, [], true, []⟩, []⟩, rfl, known_parts [.create 7] _ _ (known_start true) rfl, ?_, rfl⟩
  exact ⟨rfl, by simp, by simp⟩

/-- **C245** (the notification can come after the next request of that name). The id of a request that is being cancelled
is free as soon as its token has been taken: the notification can be sent when the id is that of a new request, which is
not cancelled. -/
theorem C245_next_of_that_name (x : Shared Id) (id : Id) (t : Nat) (r : Option String) (ht : x.base.tokens.get id = some t)
    (hs : x.base.hasSender = true) :
    ∃ y, parts x [.take id r, .create id, .cancel x.calls.length, .tell x.calls.length] = some y ∧
      y.base.notes = x.base.notes ++ [(id, reasonOf r)] ∧ y.base.tokens.get id = some x.base.next ∧
      y.base.cancelled = t :: x.base.cancelled := by
  refine ⟨⟨⟨(x.base.tokens.remove id).insert id x.base.next, x.base.next + 1, t :: x.base.cancelled, true,
    x.base.notes ++ [(id, reasonOf r)]⟩, x.calls ++ [.returned]⟩, ?_, rfl, by simp, rfl⟩
  simp only [parts, part, ht, Option.bind_some, List.getElem?_concat_length, List.set_append_right, Nat.le_refl,
    Nat.sub_self, List.set_cons_zero, removeToken, createToken, Cancellation.cancelToken, hs, if_true]

example : ∃ x : Shared Nat, parts (start true) [.create 7] = some x ∧ x.base.tokens.get 7 = some 0 ∧
    x.base.hasSender = true := ⟨_, rfl, rfl, rfl⟩

/-! ### How often a cancellation is told -/

/-- How many calls for `id` have found a token. (Specification: no counterpart in the code.) -/
def found (id : Id) (x : Shared Id) : List (Section Id) → Nat
  | [] => 0
  | o :: l =>
    (match o with
      | .take j _ => if j = id ∧ (x.base.tokens.get id).isSome then 1 else 0
      | _ => 0) +
    (match part x o with
      | some y => found id y l
      | none => 0)

/-- The call has found a token for `id` and not told yet. (Specification: no counterpart in the code.) -/
def untold (id : Id) : Phase Id → Bool
  | .taken _ j _ => decide (j = id)
  | .cancelled j _ => decide (j = id)
  | .returned => false

theorem countP_set {α : Type} (p : α → Bool) (l : List α) (k : Nat) (a b : α) (h : l[k]? = some a) :
    (l.set k b).countP p + (if p a then 1 else 0) = l.countP p + (if p b then 1 else 0) := by
  induction l generalizing k with
  | nil => simp at h
  | cons c l ih =>
    cases k with
    | zero =>
      simp only [List.getElem?_cons_zero, Option.some.injEq] at h
      subst h
      simp only [List.set_cons_zero, List.countP_cons]
      omega
    | succ k =>
      simp only [List.getElem?_cons_succ] at h
      have := ih k h
      simp only [List.set_cons_succ, List.countP_cons]
      omega

/-- **C245** (told once each). In every execution of a manager with a sender, the cancellations told for an id and those
still to be told are as many as the calls that found a token under it: of calls that overlap one tells, and none twice. -/
theorem C245_told_once (l : List (Section Id)) (id : Id) (y : Shared Id) (h : parts (start true) l = some y) :
    y.base.notes.countP (fun n => decide (n.1 = id)) + y.calls.countP (untold id) = found id (start true) l := by
  have gen : ∀ (l : List (Section Id)) (x y : Shared Id), x.base.hasSender = true → parts x l = some y →
      y.base.notes.countP (fun n => decide (n.1 = id)) + y.calls.countP (untold id) =
        x.base.notes.countP (fun n => decide (n.1 = id)) + x.calls.countP (untold id) + found id x l := by
    intro l
    induction l with
    | nil => intro x y _ h; simp only [parts, Option.some.injEq] at h; subst h; simp [found]
    | cons o l ih =>
      intro x y hs h
      simp only [parts, Option.bind_eq_some_iff] at h
      obtain ⟨z, h1, h2⟩ := h
      simp only [found, h1]
      cases o with
      | take j r =>
        simp only [part] at h1
        split at h1
        · next t ht =>
          cases h1
          rw [ih _ y (by exact hs) h2]
          simp only [removeToken, List.countP_append, List.countP_singleton, untold, decide_eq_true_eq]
          by_cases e : j = id
          · subst e; simp [ht]; omega
          · simp [e]
        · next ht =>
          cases h1
          rw [ih _ y (by exact hs) h2]
          simp only [removeToken, List.countP_append, List.countP_singleton, untold]
          by_cases e : j = id
          · subst e; simp [ht]
          · simp [e]
      | cancel k =>
        simp only [part] at h1
        split at h1
        · next t i r hk =>
          cases h1
          rw [ih _ y (by exact hs) h2]
          have := countP_set (untold id) x.calls k _ (.cancelled i r) hk
          simp only [untold] at this
          simp only [Cancellation.cancelToken]
          by_cases e : i = id <;> simp [e] at this ⊢ <;> omega
        · cases h1
      | tell k =>
        simp only [part] at h1
        split at h1
        · next i r hk =>
          cases h1
          simp only [if_pos hs] at h2 ⊢
          rw [ih _ y (by exact hs) h2]
          have := countP_set (untold id) x.calls k _ .returned hk
          simp only [untold, Bool.false_eq_true, if_false] at this
          simp only [List.countP_append, List.countP_singleton]
          by_cases e : i = id <;> simp [e] at this ⊢ <;> omega
        · cases h1
      | cancelToken t =>
        simp only [part] at h1
        split at h1
        · cases h1; rw [ih _ y (by exact hs) h2]; simp [Cancellation.cancelToken]
        · cases h1
      | _ => cases h1; rw [ih _ y (by exact hs) h2]; simp [createToken, removeToken, Cancellation.clear]
  simpa [start] using gen l (start true) y rfl h

example : (parts (start true) [(.create 7 : Section Nat), .take 7 none, .take 7 none, .cancel 0, .tell 0]).map
    (fun x => x.base.notes) = some [(7, .default)] ∧
    found 7 (start true) [(.create 7 : Section Nat), .take 7 none, .take 7 none, .cancel 0, .tell 0] = 1 := ⟨rfl, rfl⟩

end Verif.Cancellation
