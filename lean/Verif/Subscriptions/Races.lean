import Verif.Subscriptions.Props

/-
Property C244: what a resource update is announced by, when calls of the subscription manager overlap.

Models /repo/src/server/subscriptions.rs L63-187 once more, with `notify_resource_updated` in its two parts: the
subscribers are counted under the lock (L168-172), which is then released, and the notification is handed to the sender
afterwards (L173-181). The other calls are one critical section each. `set_notification_sender` takes `&mut self` (L50),
so no call is in progress then: whether there is a sender is settled at the beginning.
-/

namespace Verif.Subscriptions

variable {U S : Type} [DecidableEq U] [DecidableEq S]

/-- The manager and the calls of `notify_resource_updated` begun so far: the resource, how many subscribers were counted,
and whether the call has returned. /repo/src/server/subscriptions.rs L14-19, L167-187. -/
structure Shared (U S : Type) where
  base : State U S
  calls : List (U × Nat × Bool) := []

/-- What happens: one of the calls with one section (L63-116), the section of a notification (L168-172), the rest of the
`k`-th notification (L173-186). /repo/src/server/subscriptions.rs L63-187. -/
inductive Section (U S : Type) where
  | subscribe (u : U) (s : S)
  | unsubscribe (u : U) (s : S)
  | unsubscribeAll (s : S)
  | count (u : U)
  | tell (k : Nat)
  deriving DecidableEq

/-- One step, with the value returned by a notification; `none` if there is nothing to be done.
/repo/src/server/subscriptions.rs L63-187. -/
def part (x : Shared U S) : Section U S → Option (Shared U S × Option Nat)
  | .subscribe u s => some ({ x with base := subscribe x.base u s }, none)
  | .unsubscribe u s => some ({ x with base := unsubscribe x.base u s }, none)
  | .unsubscribeAll s => some ({ x with base := unsubscribeAll x.base s }, none)
  | .count u => some ({ x with calls := x.calls ++ [(u, ((x.base.subs.get u).getD []).length, false)] }, none)
  | .tell k =>
    match x.calls[k]? with
    | some (u, n, false) =>
      some (⟨if n > 0 then (if x.base.hasSender then { x.base with sent := x.base.sent ++ [u] } else x.base) else x.base,
        x.calls.set k (u, n, true)⟩, some n)
    | _ => none

/-- An execution. (Any interleaving of the sections of /repo/src/server/subscriptions.rs L63-187.) -/
def parts (x : Shared U S) : List (Section U S) → Option (Shared U S)
  | [] => some x
  | o :: l => (part x o).bind (fun r => parts r.1 l)

/-- The manager at the beginning, with or without sender. /repo/src/server/subscriptions.rs L40-55. -/
def start (sender : Bool) : Shared U S := ⟨⟨[], sender, []⟩, []⟩

/-! ### Specification -/

/-- The calls that change subscriptions, in order. (Specification: no counterpart in the code.) -/
def changes : List (Section U S) → List (Op U S)
  | [] => []
  | .subscribe u s :: l => .subscribe u s :: changes l
  | .unsubscribe u s :: l => .unsubscribe u s :: changes l
  | .unsubscribeAll s :: l => .unsubscribeAll s :: changes l
  | .count _ :: l => changes l
  | .tell _ :: l => changes l

/-- How many notifications have begun. (Specification: no counterpart in the code.) -/
def begun : List (Section U S) → Nat
  | [] => 0
  | .count _ :: l => begun l + 1
  | _ :: l => begun l

/-! ### The table and the calls -/

theorem parts_append (l m : List (Section U S)) (x : Shared U S) :
    parts x (l ++ m) = (parts x l).bind (fun y => parts y m) := by
  induction l generalizing x with
  | nil => rfl
  | cons o l ih =>
    simp only [List.cons_append, parts]
    cases part x o with
    | none => rfl
    | some r => exact ih r.1

theorem subs_congr (st st' : State U S) (h : st.subs = st'.subs) :
    (∀ u s, (subscribe st u s).subs = (subscribe st' u s).subs) ∧
    (∀ u s, (unsubscribe st u s).subs = (unsubscribe st' u s).subs) ∧
    (∀ s, (unsubscribeAll st s).subs = (unsubscribeAll st' s).subs) := by
  refine ⟨fun u s => by simp [subscribe, h], fun u s => ?_, fun s => by simp [unsubscribeAll, h]⟩
  simp only [unsubscribe, h]
  split
  · split <;> rfl
  · exact h

theorem unsubscribe_rest (st : State U S) (u : U) (s : S) :
    (unsubscribe st u s).hasSender = st.hasSender ∧ (unsubscribe st u s).sent = st.sent := by
  simp only [unsubscribe]
  split
  · split <;> exact ⟨rfl, rfl⟩
  · exact ⟨rfl, rfl⟩

theorem parts_gen (l : List (Section U S)) (x x' : Shared U S) (st : State U S) (h : parts x l = some x')
    (hs : x.base.subs = st.subs) :
    x'.base.subs = (run st (changes l)).subs ∧ x'.base.hasSender = x.base.hasSender ∧
      x'.calls.length = x.calls.length + begun l ∧
      ∀ (k : Nat) u n, x.calls[k]? = some (u, n, false) → x'.calls[k]? = some (u, n, false) ∨ x'.calls[k]? = some (u, n, true) := by
  induction l generalizing x st with
  | nil =>
    simp only [parts, Option.some.injEq] at h; subst h
    exact ⟨hs, rfl, rfl, fun k u n hk => .inl hk⟩
  | cons o l ih =>
    simp only [parts, Option.bind_eq_some_iff] at h
    obtain ⟨⟨y, v⟩, h1, h2⟩ := h
    obtain ⟨c1, c2, c3⟩ := subs_congr x.base st hs
    cases o with
    | subscribe u s => cases h1; exact ih ⟨subscribe x.base u s, x.calls⟩ (step st (.subscribe u s)) h2 (c1 u s)
    | unsubscribe u s =>
      cases h1
      obtain ⟨i1, i2, i3, i4⟩ := ih ⟨unsubscribe x.base u s, x.calls⟩ (step st (.unsubscribe u s)) h2 (c2 u s)
      exact ⟨i1, i2.trans (unsubscribe_rest _ u s).1, i3, i4⟩
    | unsubscribeAll s => cases h1; exact ih ⟨unsubscribeAll x.base s, x.calls⟩ (step st (.unsubscribeAll s)) h2 (c3 s)
    | count u =>
      cases h1
      obtain ⟨i1, i2, i3, i4⟩ := ih _ _ h2 hs
      refine ⟨i1, i2, by simp only [List.length_append, List.length_singleton] at i3; simp only [begun]; omega, ?_⟩
      intro k w n hk
      refine i4 k w n ?_
      simp only
      rw [List.getElem?_append_left (List.getElem?_eq_some_iff.mp hk).1]
      exact hk
    | tell k =>
      simp only [part] at h1
      split at h1
      · next u n hk =>
        cases h1
        have hsub : (if n > 0 then (if x.base.hasSender then { x.base with sent := x.base.sent ++ [u] } else x.base)
            else x.base).subs = x.base.subs := by
          split
          · split <;> rfl
          · rfl
        have hsen : (if n > 0 then (if x.base.hasSender then { x.base with sent := x.base.sent ++ [u] } else x.base)
            else x.base).hasSender = x.base.hasSender := by
          split
          · split <;> rfl
          · rfl
        obtain ⟨i1, i2, i3, i4⟩ := ih _ _ h2 (hsub.trans hs)
        refine ⟨i1, i2.trans hsen, by simpa [begun] using i3, ?_⟩
        intro j w m hj
        by_cases e : k = j
        · subst e
          rw [hk] at hj
          cases hj
          have hlt := (List.getElem?_eq_some_iff.mp hk).1
          -- a call that has returned stays so
          have stay : ∀ (l : List (Section U S)) (x x' : Shared U S), parts x l = some x' →
              x.calls[k]? = some (u, n, true) → x'.calls[k]? = some (u, n, true) := by
            intro l
            induction l with
            | nil => intro x x' h hk; simp only [parts, Option.some.injEq] at h; subst h; exact hk
            | cons o l ih' =>
              intro x x' h hk
              simp only [parts, Option.bind_eq_some_iff] at h
              obtain ⟨⟨y, v⟩, h1, h2⟩ := h
              refine ih' y x' h2 ?_
              cases o with
              | count u =>
                cases h1; simp only
                rw [List.getElem?_append_left (List.getElem?_eq_some_iff.mp hk).1]; exact hk
              | tell j =>
                simp only [part] at h1
                split at h1
                · next hj =>
                  cases h1
                  simp only
                  by_cases e : j = k
                  · subst e; rw [hk] at hj; cases hj
                  · rw [List.getElem?_set_ne e]; exact hk
                · cases h1
              | _ => cases h1; exact hk
          exact .inr (stay l _ x' h2 (by simp [List.getElem?_set_self hlt]))
        · exact i4 j w m (by simp only; rw [List.getElem?_set_ne e]; exact hj)
      · cases h1

/-! ### C244 -/

/-- **C244** (exactly). Whatever overlaps: a notification of a resource that began after `a` and goes on after `b` is
announced, once, if and only if there is a sender and the resource had a subscriber after `a`, whatever `b` has changed;
the number returned is that of the subscribers then. -/
theorem C244_announced (sender : Bool) (a b : List (Section U S)) (u : U) (x x' : Shared U S) (v : Option Nat) (ss : List S)
    (hss : ss.Nodup ∧ ∀ s, s ∈ ss ↔ Subscribed (changes a) u s)
    (h : parts (start sender) (a ++ .count u :: b) = some x) (ht : part x (.tell (begun a)) = some (x', v)) :
    v = some ss.length ∧ x'.base.sent = x.base.sent ++ (if sender = true ∧ ss ≠ [] then [u] else []) ∧
      x'.base.subs = x.base.subs := by
  rw [parts_append, Option.bind_eq_some_iff] at h
  obtain ⟨y, h1, h2⟩ := h
  obtain ⟨a1, a2, a3, -⟩ := parts_gen a (start sender) y init h1 rfl
  simp only [parts, part, Option.bind_some] at h2
  have hlen : ((y.base.subs.get u).getD []).length = ss.length := by
    have hs := C20_get_subscribers (changes a) u
    unfold getSubscribers at hs
    rw [a1]
    exact nodup_length_eq hs.1 hss.1 (fun s => by rw [hs.2, hss.2])
  have hk : begun a = y.calls.length := by simpa [start] using a3.symm
  obtain ⟨-, b2, -, b4⟩ := parts_gen b _ x y.base h2 rfl
  have := b4 (begun a) u ss.length (by simp only; rw [hk, hlen]; simp)
  have hsen : x.base.hasSender = sender := by rw [b2]; exact a2
  simp only [part] at ht
  rcases this with hc | hc
  · rw [hc] at ht
    simp only [Option.some.injEq, Prod.mk.injEq] at ht
    obtain ⟨rfl, rfl⟩ := ht
    refine ⟨rfl, ?_, ?_⟩
    · cases ss with
      | nil => simp
      | cons s ss => cases sender <;> simp [hsen]
    · simp only
      split
      · split <;> rfl
      · rfl
  · rw [hc] at ht; cases ht

example : parts (start true) [.subscribe "a" 1, .subscribe "a" 2, .count "a", .unsubscribe "a" 1] =
    some ⟨⟨[("a", [2])], true, []⟩, [("a", 2, false)]⟩ ∧
    part (⟨⟨[("a", [2])], true, []⟩, [("a", 2, false)]⟩ : Shared String Nat) (.tell 0) =
      some (⟨⟨[("a", [2])], true, ["a"]⟩, [("a", 2, true)]⟩, some 2) := ⟨rfl, rfl⟩

/-- **C244** (nothing else announces). No other section hands anything to the sender, and a notification that has
returned does nothing more. -/
theorem C244_silent (x x' : Shared U S) (o : Section U S) (v : Option Nat) (h : part x o = some (x', v)) :
    (v = none → x'.base.sent = x.base.sent) ∧ (∀ k, o = .tell k → part x' o = none) := by
  cases o with
  | tell k =>
    simp only [part] at h
    split at h
    · next u n hk =>
      cases h
      refine ⟨fun hv => (by cases hv), fun j hj => ?_⟩
      simp [part, List.getElem?_set_self (List.getElem?_eq_some_iff.mp hk).1]
    · cases h
  | unsubscribe u s => cases h; exact ⟨fun _ => (unsubscribe_rest _ u s).2, by intro k hk; cases hk⟩
  | _ => cases h; exact ⟨fun _ => rfl, by intro k hk; cases hk⟩

/-- **C244** (refuted). After its last subscriber has unsubscribed, and the call has returned, an update of the resource
is still announced, whoever else has done what before. -/
theorem C244_after_unsubscribe (a : List (Section U S)) (x : Shared U S) (u : U) (s : S) (h : parts (start true) a = some x)
    (hu : ∀ r, Subscribed (changes a) u r → r = s) :
    ∃ y, parts (start true) (a ++ [.subscribe u s, .count u, .unsubscribe u s, .tell (begun a)]) = some y ∧
      y.base.sent = x.base.sent ++ [u] ∧
      ¬ ∃ r, Subscribed (changes (a ++ [.subscribe u s, .count u, .unsubscribe u s, .tell (begun a)])) u r := by
  have hch : ∀ (l m : List (Section U S)), changes (l ++ m) = changes l ++ changes m := by
    intro l m
    induction l with
    | nil => rfl
    | cons o l ih => cases o <;> simp [changes, ih]
  obtain ⟨a1, a2, a3, -⟩ := parts_gen a (start true) x init h rfl
  have hk : begun a = x.calls.length := by simpa [start] using a3.symm
  have hpos : 0 < (ASet.insert ((x.base.subs.get u).getD []) s).length := by
    have : s ∈ ASet.insert ((x.base.subs.get u).getD []) s := by
      unfold ASet.insert; split <;> simp_all
    exact List.length_pos_of_mem this
  have hsen : (unsubscribe (subscribe x.base u s) u s).hasSender = true := by
    rw [(unsubscribe_rest _ u s).1]; simpa [subscribe, start] using a2
  have hsent : (unsubscribe (subscribe x.base u s) u s).sent = x.base.sent := by
    rw [(unsubscribe_rest _ u s).2]; rfl
  refine ⟨⟨{ unsubscribe (subscribe x.base u s) u s with sent := x.base.sent ++ [u] },
    x.calls ++ [(u, (ASet.insert ((x.base.subs.get u).getD []) s).length, true)]⟩, ?_, rfl, ?_⟩
  · rw [parts_append, h]
    have hg : (subscribe x.base u s).subs.get u = some (ASet.insert ((x.base.subs.get u).getD []) s) := by
      simp [subscribe]
    simp only [Option.bind_some, parts, part, hg, Option.getD_some, hk, List.getElem?_concat_length,
      List.set_append_right, Nat.le_refl, Nat.sub_self, List.set_cons_zero]
    rw [if_pos hpos, if_pos hsen, hsent]
  · rintro ⟨r, hr⟩
    rw [hch] at hr
    simp only [changes, Subscribed, List.foldl_append, List.foldl_cons, List.foldl_nil, effect] at hr
    obtain ⟨hr, hn⟩ := hr
    rcases hr with hr | hr
    · exact hn hr
    · exact hn ⟨trivial, hu r hr⟩

example : parts (start true) [.subscribe "b" 1] = some ⟨⟨[("b", [1])], true, []⟩, []⟩ ∧
    ∀ r, Subscribed (changes [(.subscribe "b" 1 : Section String Nat)]) "a" r → r = 1 :=
  ⟨rfl, by intro r h; simp [changes, Subscribed, effect] at h⟩

/-- Each call as its sections, a notification without anything in between; `k` notifications have begun.
(Specification: no counterpart in the code.) -/
def oneByOne (k : Nat) : List (Op U S) → List (Section U S)
  | [] => []
  | .subscribe u s :: l => .subscribe u s :: oneByOne k l
  | .unsubscribe u s :: l => .unsubscribe u s :: oneByOne k l
  | .unsubscribeAll s :: l => .unsubscribeAll s :: oneByOne k l
  | .notify u :: l => .count u :: .tell k :: oneByOne (k + 1) l
  | .setSender :: l => oneByOne k l

/-- **C244** (the part that holds). If nothing happens between the two parts of a notification, as under the lock that
`Server::notify_resource_updated` holds, the effect is that of calls made one after another, for which an update is
announced exactly if someone is subscribed at that moment (C21). -/
theorem C244_exclusive_partial (sender : Bool) (h : List (Op U S)) (hs : Op.setSender ∉ h) :
    ∃ x, parts (start sender) (oneByOne 0 h) = some x ∧ x.base = run ⟨[], sender, []⟩ h := by
  have gen : ∀ (h : List (Op U S)) (x : Shared U S), Op.setSender ∉ h →
      ∃ y, parts x (oneByOne x.calls.length h) = some y ∧ y.base = run x.base h := by
    intro h
    induction h with
    | nil => intro x _; exact ⟨x, rfl, rfl⟩
    | cons op h ih =>
      intro x hs
      have hs' : Op.setSender ∉ h := fun hm => hs (List.mem_cons_of_mem _ hm)
      cases op with
      | setSender => exact absurd List.mem_cons_self hs
      | subscribe u s => exact ih ⟨subscribe x.base u s, x.calls⟩ hs'
      | unsubscribe u s => exact ih ⟨unsubscribe x.base u s, x.calls⟩ hs'
      | unsubscribeAll s => exact ih ⟨unsubscribeAll x.base s, x.calls⟩ hs'
      | notify u =>
        have e : (if ((x.base.subs.get u).getD []).length > 0 then
            (if x.base.hasSender then { x.base with sent := x.base.sent ++ [u] } else x.base) else x.base) =
            (notifyResourceUpdated x.base u).1 := by
          simp only [notifyResourceUpdated]
          cases x.base.subs.get u with
          | none => simp
          | some set => simp only [Option.getD_some]; split <;> rfl
        obtain ⟨y, h1, h2⟩ := ih ⟨(notifyResourceUpdated x.base u).1,
          x.calls ++ [(u, ((x.base.subs.get u).getD []).length, true)]⟩ hs'
        refine ⟨y, ?_, h2⟩
        simp only [oneByOne, parts, part, Option.bind_some, List.getElem?_concat_length, List.set_append_right,
          Nat.le_refl, Nat.sub_self, List.set_cons_zero]
        rw [e]
        simpa using h1
  simpa [start] using gen h (start sender) hs

example : Op.setSender ∉ [(.subscribe "a" 1 : Op String Nat), .notify "a", .unsubscribeAll 1, .notify "a"] ∧
    (run ⟨[], true, []⟩ [(.subscribe "a" 1 : Op String Nat), .notify "a", .unsubscribeAll 1, .notify "a"]).sent = ["a"] := by
  decide

end Verif.Subscriptions
