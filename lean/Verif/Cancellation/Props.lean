import Verif.Cancellation.Lemmas

/-
Property C22: cancellation reaches exactly the token of the most recent registration.
-/

namespace Verif.Cancellation

variable {Id : Type} [DecidableEq Id]

/-! ### Specification -/

/-- Is the token `t`, created for `id`, cancelled by the calls that follow its creation?  It is if
`id` is cancelled, or everything is cleared, before `id` is removed or registered anew; or if a
holder of the token cancels it directly, at any time. (Specification: no counterpart in the code.) -/
def cancelledBy (id : Id) (t : Nat) : List (Op Id) → Bool
  | [] => false
  | .cancel j _ :: rest => if j = id then true else cancelledBy id t rest
  | .clear :: _ => true
  | .create j :: rest => if j = id then decide (.cancelToken t ∈ rest) else cancelledBy id t rest
  | .remove j :: rest => if j = id then decide (.cancelToken t ∈ rest) else cancelledBy id t rest
  | .cancelToken u :: rest => if u = t then true else cancelledBy id t rest
  | .setSender :: rest => cancelledBy id t rest

/-- Read newest call first: does `id` currently have a registered token?
(Specification: no counterpart in the code.) -/
def registered (id : Id) : List (Op Id) → Bool
  | [] => false
  | .create j :: older => if j = id then true else registered id older
  | .cancel j _ :: older => if j = id then false else registered id older
  | .remove j :: older => if j = id then false else registered id older
  | .clear :: _ => false
  | .cancelToken _ :: older => registered id older
  | .setSender :: older => registered id older

/-! ### C22 -/

/-- A token that is no longer (or not) in the table is cancelled later only by its holders. -/
theorem orphan_run {s : State Id} (hi : Inv s) {t : Nat} (hlt : t < s.next)
    (ho : ∀ id, s.tokens.get id ≠ some t) (h : List (Op Id)) :
    t ∈ (run s h).cancelled ↔ t ∈ s.cancelled ∨ .cancelToken t ∈ h := by
  induction h generalizing s with
  | nil => simp [run]
  | cons op h ih =>
    have hi' := inv_step hi op
    have hlt' : t < (step s op).next := Nat.lt_of_lt_of_le hlt (next_le_step s op)
    have ho' : ∀ id, (step s op).tokens.get id ≠ some t := by
      intro i he
      cases op with
      | create j =>
        simp only [step, createToken] at he
        rw [AMap.get_insert] at he
        split at he
        · cases he; omega
        · exact ho i he
      | cancel j r =>
        simp only [step, cancelRequest] at he
        split at he <;> exact ho i (get_remove_some he).1
      | remove j => exact ho i (get_remove_some he).1
      | clear => simp [step, clear] at he
      | cancelToken u => exact ho i he
      | setSender => exact ho i he
    rw [run_cons, ih hi' hlt' ho', List.mem_cons]
    have : t ∈ (step s op).cancelled ↔ t ∈ s.cancelled ∨ op = .cancelToken t := by
      cases op with
      | cancel j r =>
        simp only [step, cancelRequest]
        cases hg : s.tokens.get j with
        | none => simp
        | some u =>
          have : t ≠ u := by rintro rfl; exact ho j hg
          simp [this]
      | clear =>
        simp only [step, clear, List.mem_append, reduceCtorEq, or_false]
        constructor
        · rintro (h | h)
          · rw [List.mem_map] at h
            obtain ⟨⟨a, b⟩, hm, rfl⟩ := h
            exact absurd (AMap.get_of_mem hi.wf hm) (ho a)
          · exact h
        · exact Or.inr
      | cancelToken u => simp [step, cancelToken, or_comm, eq_comm]
      | setSender => simp [step, setSender]
      | create j => simp [step, createToken]
      | remove j => simp [step, removeToken]
    rw [this]
    constructor
    · rintro ((h | h) | h)
      · exact Or.inl h
      · exact Or.inr (Or.inl h.symm)
      · exact Or.inr (Or.inr h)
    · rintro (h | h | h)
      · exact Or.inl (Or.inl h)
      · exact Or.inl (Or.inr h.symm)
      · exact Or.inr h

theorem live_run {s : State Id} (hi : Inv s) {id : Id} {t : Nat}
    (hg : s.tokens.get id = some t) (hn : t ∉ s.cancelled) (h : List (Op Id)) :
    t ∈ (run s h).cancelled ↔ cancelledBy id t h = true := by
  induction h generalizing s with
  | nil => simp [run, cancelledBy, hn]
  | cons op h ih =>
    have hi' := inv_step hi op
    have hlt : t < (step s op).next := Nat.lt_of_lt_of_le (hi.lt id t hg) (next_le_step s op)
    rw [run_cons]
    cases op with
    | setSender => exact ih hi' hg hn
    | create j =>
      by_cases hj : j = id
      · subst hj
        simp only [cancelledBy, if_true, decide_eq_true_eq]
        rw [orphan_run hi' hlt]
        · simp [step, createToken, hn]
        · intro i he
          simp only [step, createToken] at he
          rw [AMap.get_insert] at he
          split at he
          · cases he; have := hi.lt j _ hg; omega
          · rename_i hne; exact hne (hi.inj i j t he hg)
      · simp only [cancelledBy, hj, if_false]
        refine ih hi' ?_ hn
        simp only [step, createToken]
        rw [AMap.get_insert_ne _ _ (Ne.symm hj)]; exact hg
    | cancel j r =>
      by_cases hj : j = id
      · subst hj
        simp only [cancelledBy, if_true, iff_true]
        apply cancelled_mono_run
        simp [step, cancelRequest, hg]
      · simp only [cancelledBy, hj, if_false]
        refine ih hi' ?_ ?_
        · simp only [step, cancelRequest]
          split <;> (simp only; rw [AMap.get_remove_ne _ (Ne.symm hj)]; exact hg)
        · simp only [step, cancelRequest]
          split
          · rename_i u hu
            simp only [List.mem_cons, not_or]
            refine ⟨?_, hn⟩
            rintro rfl
            exact hj (hi.inj j id _ hu hg)
          · exact hn
    | remove j =>
      by_cases hj : j = id
      · subst hj
        simp only [cancelledBy, if_true, decide_eq_true_eq]
        rw [orphan_run hi' hlt]
        · simp [step, removeToken, hn]
        · intro i he
          obtain ⟨h1, h2⟩ := get_remove_some he
          exact h2 (hi.inj i j t h1 hg)
      · simp only [cancelledBy, hj, if_false]
        refine ih hi' ?_ hn
        simp only [step, removeToken]
        rw [AMap.get_remove_ne _ (Ne.symm hj)]; exact hg
    | clear =>
      simp only [cancelledBy, iff_true]
      apply cancelled_mono_run
      simp only [step, clear, List.mem_append, List.mem_map]
      exact Or.inl ⟨(id, t), AMap.mem_of_get hg, rfl⟩
    | cancelToken u =>
      by_cases hu : u = t
      · subst hu
        simp only [cancelledBy, if_true, iff_true]
        apply cancelled_mono_run
        simp [step, cancelToken]
      · simp only [cancelledBy, hu, if_false]
        refine ih hi' hg ?_
        simp [step, cancelToken, hn, Ne.symm hu]

/-- No call of the history cancels token `t` before it is created. -/
theorem fresh_not_cancelled (h : List (Op Id)) (hc : ∀ t, .cancelToken t ∈ h → t < (run (init : State Id) h).next)
    (hw : ∀ a b t, h = a ++ .cancelToken t :: b → t < (run (init : State Id) a).next) :
    ∀ t ∈ (run (init : State Id) h).cancelled, t < (run (init : State Id) h).next := by
  clear hc
  suffices ∀ (pre : List (Op Id)) (post : List (Op Id)), h = pre ++ post →
      ∀ t ∈ (run (init : State Id) pre).cancelled, t < (run (init : State Id) pre).next from
    this h [] (by simp)
  intro pre
  induction hlen : pre.length generalizing pre with
  | zero =>
    intro post _ t ht
    have : pre = [] := List.eq_nil_of_length_eq_zero hlen
    subst this
    simp [run, init] at ht
  | succ n ih =>
    intro post hp t ht
    have hne : pre ≠ [] := by intro e; subst e; simp at hlen
    obtain ⟨p, op, rfl⟩ : ∃ p op, pre = p ++ [op] :=
      ⟨pre.dropLast, pre.getLast hne, (List.dropLast_concat_getLast hne).symm⟩
    have hih := ih p (by simp at hlen; exact hlen) (op :: post) (by simp [hp])
    rw [run_append] at ht ⊢
    have hi := inv_run (inv_init (Id := Id)) p
    have hstep : run (run (init : State Id) p) [op] = step (run init p) op := rfl
    rw [hstep] at ht ⊢
    have hle := next_le_step (run (init : State Id) p) op
    cases op with
    | setSender => exact Nat.lt_of_lt_of_le (hih t ht) hle
    | create j => exact Nat.lt_of_lt_of_le (hih t ht) hle
    | remove j => exact Nat.lt_of_lt_of_le (hih t ht) hle
    | cancel j r =>
      simp only [step, cancelRequest] at ht
      split at ht
      · rename_i u hu
        simp only [List.mem_cons] at ht
        rcases ht with rfl | ht
        · exact Nat.lt_of_lt_of_le (hi.lt j _ hu) hle
        · exact Nat.lt_of_lt_of_le (hih t ht) hle
      · exact Nat.lt_of_lt_of_le (hih t ht) hle
    | clear =>
      simp only [step, clear, List.mem_append, List.mem_map] at ht
      rcases ht with ⟨⟨a, b⟩, hm, rfl⟩ | ht
      · exact Nat.lt_of_lt_of_le (hi.lt a b (AMap.get_of_mem hi.wf hm)) hle
      · exact Nat.lt_of_lt_of_le (hih t ht) hle
    | cancelToken u =>
      simp only [step, cancelToken, List.mem_cons] at ht
      rcases ht with rfl | ht
      · exact Nat.lt_of_lt_of_le (hw p post _ (by simp [hp])) hle
      · exact Nat.lt_of_lt_of_le (hih t ht) hle

/-- Holders can only cancel tokens that have been created (there is no other way to obtain one).
(Specification: no counterpart in the code.) -/
def Causal (h : List (Op Id)) : Prop :=
  ∀ a b t, h = a ++ .cancelToken t :: b → t < (run (init : State Id) a).next

/-- **C22**.  Take any history, create a token for `id`, continue with any calls.  The handler
holding that token sees it cancelled iff the specification says so: `cancel_request(id)` or
`clear()` came while it was the registered token of `id`, or a holder cancelled it directly.
Cancelling other ids never touches it. -/
theorem C22_token_cancelled_iff (before after : List (Op Id)) (id : Id)
    (hcausal : Causal before) :
    let t := (createToken (run init before) id).2
    tokenCancelled (run init (before ++ .create id :: after)) t = cancelledBy id t after := by
  intro t
  have hi := inv_run (inv_init (Id := Id)) before
  have hfresh := fresh_not_cancelled before (fun t ht => by
      obtain ⟨a, b, hab⟩ := List.append_of_mem ht
      have h1 := hcausal a b t hab
      have : ∀ (l : List (Op Id)) (s : State Id), s.next ≤ (run s l).next := by
        intro l
        induction l with
        | nil => intro s; exact Nat.le_refl _
        | cons op l ih => intro s; exact Nat.le_trans (next_le_step s op) (ih _)
      rw [hab, run_append]
      exact Nat.lt_of_lt_of_le h1 (this _ _)) hcausal
  have hgoal := live_run (inv_step hi (.create id)) (id := id) (t := t)
    (by simp [step, createToken, t]) (by
      intro hm
      have := hfresh t hm
      simp [createToken, t] at this) after
  unfold tokenCancelled
  rw [run_append, run_cons]
  by_cases hc : cancelledBy id t after = true
  · rw [hc]; simpa using hgoal.mpr hc
  · rw [Bool.not_eq_true] at hc
    rw [hc]
    simp only [decide_eq_false_iff_not]
    intro hm
    rw [hgoal.mp hm] at hc
    cases hc

-- no token has been cancelled directly before: the handler of "a" sees `cancel_request("a")`, not `cancel_request("b")`
example : Causal ([.create "b"] : List (Op String)) ∧
    tokenCancelled (run init ([Op.create "b"] ++ .create "a" :: [.cancel "b" none])) 1 = false ∧
    tokenCancelled (run init ([Op.create "b"] ++ .create "a" :: [.cancel "b" none, .cancel "a" none])) 1 = true := by
  refine ⟨?_, by decide, by decide⟩
  intro a b t h
  match a, h with
  | [], h => simp at h
  | x :: l, h => simp at h

/-- **C22** (persistence): a token that is cancelled stays cancelled whatever happens next. -/
theorem C22_cancelled_forever (h h' : List (Op Id)) (t : Nat)
    (hc : tokenCancelled (run init h) t = true) :
    tokenCancelled (run init (h ++ h')) t = true := by
  unfold tokenCancelled at *
  rw [run_append]
  simp only [decide_eq_true_eq] at *
  exact cancelled_mono_run _ _ hc

example : tokenCancelled (run init [.create "a", .cancel "a" none]) 0 = true ∧
    tokenCancelled (run init ([.create "a", .cancel "a" none] ++ [.create "a", .remove "a", .clear])) 0 = true := by
  decide

theorem registered_iff (h : List (Op Id)) (id : Id) :
    (getToken (run init h) id).isSome = registered id h.reverse := by
  have gen : ∀ hr : List (Op Id),
      (getToken (run init hr.reverse) id).isSome = registered id hr := by
    intro hr
    induction hr with
    | nil => rfl
    | cons op older ih =>
      rw [List.reverse_cons, run_append]
      generalize run init older.reverse = s at ih
      unfold getToken at ih ⊢
      show ((step s op).tokens.get id).isSome = _
      cases op with
      | create j =>
        simp only [step, createToken, registered, AMap.get_insert]
        by_cases hj : j = id
        · subst hj; simp
        · simp [hj, Ne.symm hj, ih]
      | cancel j r =>
        have : (step s (.cancel j r)).tokens = s.tokens.remove j := by
          simp only [step, cancelRequest]; split <;> rfl
        rw [this]
        simp only [registered, AMap.get_remove]
        by_cases hj : j = id
        · subst hj; simp
        · simp [hj, Ne.symm hj, ih]
      | remove j =>
        simp only [step, removeToken, registered, AMap.get_remove]
        by_cases hj : j = id
        · subst hj; simp
        · simp [hj, Ne.symm hj, ih]
      | clear => simp [step, clear, registered]
      | cancelToken t => simp only [step, cancelToken, registered]; exact ih
      | setSender => simp only [step, setSender, registered]; exact ih
  have := gen h.reverse
  simpa using this

/-- **C22** (lookup): `get_token(id)` finds a token iff `id` is registered: its last deciding call
was `create_token`. -/
theorem C22_get_token_iff_registered (h : List (Op Id)) (id : Id) :
    (getToken (run init h) id).isSome = registered id h.reverse := registered_iff h id

example : (getToken (run init [.create "a", .create "b", .cancel "a" none]) "a").isSome = false ∧
    (getToken (run init [.create "a", .create "b", .cancel "a" none]) "b").isSome = true := by decide

/-- **C22** (lookup): directly after registration, and as long as `id` is neither cancelled,
removed, cleared nor registered anew, the lookup returns the very token that was created. -/
theorem C22_get_token_returns_created (before after : List (Op Id)) (id : Id)
    (hkeep : ∀ op ∈ after, op ≠ .create id ∧ (∀ r, op ≠ .cancel id r) ∧ op ≠ .remove id ∧
      op ≠ .clear) :
    getToken (run init (before ++ .create id :: after)) id =
      some (createToken (run init before) id).2 := by
  rw [run_append, run_cons]
  have : ∀ (s : State Id) (t : Nat), s.tokens.get id = some t →
      (run s after).tokens.get id = some t := by
    induction after with
    | nil => intro s t h; exact h
    | cons op l ih =>
      intro s t h
      obtain ⟨h1, h2, h3, h4⟩ := hkeep op List.mem_cons_self
      refine ih (fun o ho => hkeep o (List.mem_cons_of_mem _ ho)) _ _ ?_
      cases op with
      | create j =>
        have hj : id ≠ j := by rintro rfl; exact h1 rfl
        simp only [step, createToken]
        rw [AMap.get_insert_ne _ _ hj]; exact h
      | cancel j r =>
        have hj : id ≠ j := by rintro rfl; exact h2 r rfl
        simp only [step, cancelRequest]
        split <;> (simp only; rw [AMap.get_remove_ne _ hj]; exact h)
      | remove j =>
        have hj : id ≠ j := by rintro rfl; exact h3 rfl
        simp only [step, removeToken]
        rw [AMap.get_remove_ne _ hj]; exact h
      | clear => exact absurd rfl h4
      | cancelToken t => exact h
      | setSender => exact h
  exact this _ _ (by simp [step, createToken])

example : getToken (run init ([Op.create "b"] ++ .create "a" :: [.create "c", .cancel "b" none, .setSender])) "a" = some 1 :=
  C22_get_token_returns_created [.create "b"] [.create "c", .cancel "b" none, .setSender] "a" (by simp)

theorem hasSender_run (h : List (Op Id)) : (run init h).hasSender = decide (.setSender ∈ h) := by
  have key : ∀ (h : List (Op Id)) (s : State Id), (run s h).hasSender = (s.hasSender || decide (.setSender ∈ h)) := by
    intro h
    induction h with
    | nil => intro s; simp [run]
    | cons op h ih =>
      intro s
      show (run (step s op) h).hasSender = _
      rw [ih]
      cases op with
      | setSender => simp [step, setSender]
      | cancel id r =>
        have : (step s (.cancel id r)).hasSender = s.hasSender := by
          simp only [step, cancelRequest]; split <;> rfl
        rw [this]; simp
      | create id => simp [step, createToken]
      | remove id => simp [step, removeToken]
      | clear => simp [step, clear]
      | cancelToken t => simp [step, cancelToken]
  rw [key]; simp [init]

/-- **C22** (notification): `cancel_request(id, reason)` sends exactly one notification, naming
`id` with the given or the default reason, iff `id` is registered and a sender is installed. -/
theorem C22_cancel_notifies_once (h : List (Op Id)) (id : Id) (reason : Option String) :
    (run init (h ++ [.cancel id reason])).notes =
      (run init h).notes ++
        (if registered id h.reverse && decide (.setSender ∈ h) then
          [(id, (reason.map Reason.given).getD .default)] else []) := by
  rw [← registered_iff, ← hasSender_run, run_append]
  show (step (run init h) (.cancel id reason)).notes = _
  generalize run (init : State Id) h = s
  rcases hg : s.tokens.get id with _ | t
  · simp [step, cancelRequest, getToken, hg]
  · rcases hs : s.hasSender with _ | _ <;>
      cases reason <;> simp [step, cancelRequest, getToken, hg, hs, reasonOf]

example : (run init [.setSender, .create "a", .cancel "b" none]).notes = [] ∧
    (run init [.setSender, .create "a", .cancel "a" none]).notes = [("a", .default)] ∧
    (run init [.create "a", .cancel "a" none]).notes = [] := by decide

/-- **C22** (no other source of notifications). -/
theorem C22_only_cancel_notifies (s : State Id) (op : Op Id)
    (hop : ∀ id r, op ≠ .cancel id r) : (step s op).notes = s.notes := by
  cases op with
  | cancel id r => exact absurd rfl (hop id r)
  | _ => rfl

example : (step (run init [.setSender, .create "a", .cancel "a" none, .create "b"]) .clear).notes = [("a", .default)] :=
  C22_only_cancel_notifies _ .clear (by simp)

/-- **C22** (second cancel): cancelling again has no effect at all. -/
theorem C22_second_cancel_noop (h : List (Op Id)) (id : Id) (r r' : Option String) :
    run init (h ++ [.cancel id r, .cancel id r']) = run init (h ++ [.cancel id r]) := by
  rw [run_append, run_append]
  generalize run (init : State Id) h = s
  show step (step s (.cancel id r)) (.cancel id r') = step s (.cancel id r)
  have h1 : (step s (.cancel id r)).tokens = s.tokens.remove id := by
    simp only [step, cancelRequest]; split <;> rfl
  have h2 : (step s (.cancel id r)).tokens.get id = none := by
    rw [h1, AMap.get_remove_self]
  have h3 : (step s (.cancel id r)).tokens.remove id = (step s (.cancel id r)).tokens :=
    AMap.remove_of_get_none h2
  generalize step s (.cancel id r) = s' at h2 h3
  simp only [step, cancelRequest, h2, h3]

/-- Observed fact worth knowing: right after `cancel_request(id)`, `is_cancelled(id)` answers
`false`, since the token has left the table. -/
theorem C22_is_cancelled_false_after_cancel (h : List (Op Id)) (id : Id) (r : Option String) :
    isCancelled (run init (h ++ [.cancel id r])) id = false := by
  rw [run_append]
  show isCancelled (step (run init h) (.cancel id r)) id = false
  have h1 : (step (run init h) (.cancel id r)).tokens = (run init h).tokens.remove id := by
    simp only [step, cancelRequest]; split <;> rfl
  unfold isCancelled
  rw [h1, AMap.get_remove_self]

/-- **C22** (asking by id): while `id` keeps its token, `is_cancelled(id)` answers `true` exactly if a holder
cancelled that token directly. -/
theorem C22_is_cancelled_iff (before after : List (Op Id)) (id : Id) (hcausal : Causal before)
    (hkeep : ∀ op ∈ after, op ≠ .create id ∧ (∀ r, op ≠ .cancel id r) ∧ op ≠ .remove id ∧ op ≠ .clear) :
    isCancelled (run init (before ++ .create id :: after)) id =
      decide (.cancelToken (createToken (run init before) id).2 ∈ after) := by
  have h1 := C22_get_token_returns_created before after id hkeep
  have h2 := C22_token_cancelled_iff before after id hcausal
  have h3 : isCancelled (run init (before ++ .create id :: after)) id =
      tokenCancelled (run init (before ++ .create id :: after)) (createToken (run init before) id).2 := by
    simp only [getToken] at h1
    simp only [isCancelled, h1, tokenCancelled]
  rw [h3]
  refine h2.trans ?_
  clear h1 h2 h3
  generalize (createToken (run init before) id).2 = t
  induction after with
  | nil => simp [cancelledBy]
  | cons op l ih =>
    have hl := ih (fun o ho => hkeep o (List.mem_cons_of_mem _ ho))
    obtain ⟨k1, k2, k3, k4⟩ := hkeep op (List.mem_cons_self ..)
    cases op with
    | clear => exact absurd rfl k4
    | cancel j r =>
      have hj : j ≠ id := by rintro rfl; exact k2 r rfl
      simp [cancelledBy, hj, hl]
    | create j =>
      have hj : j ≠ id := by rintro rfl; exact k1 rfl
      simp [cancelledBy, hj, hl]
    | remove j =>
      have hj : j ≠ id := by rintro rfl; exact k3 rfl
      simp [cancelledBy, hj, hl]
    | setSender => simp [cancelledBy, hl]
    | cancelToken u =>
      by_cases hu : u = t
      · simp [cancelledBy, hu]
      · simp [cancelledBy, hu, hl, Ne.symm hu]

example : Causal ([Op.create "a", .cancelToken 0] : List (Op String)) := by
  intro a b t h
  match a, h with
  | [], h => simp at h
  | [x], h => simp only [List.cons_append, List.nil_append, List.cons.injEq] at h
              obtain ⟨rfl, h, _⟩ := h
              simp only [Op.cancelToken.injEq] at h
              subst h
              decide
  | x :: y :: l, h => simp at h

example : tokenCancelled (run init ([Op.create "b"] ++ .create "a" ::
    [.cancel "b" none, .setSender, .cancel "a" (some "why")])) 1 = true := by decide
example : (run init ([Op.create "b"] ++ .create "a" ::
    [.cancel "b" none, .setSender, .cancel "a" (some "why"), .cancel "a" none])).notes
    = [("a", .given "why")] := by decide

end Verif.Cancellation
