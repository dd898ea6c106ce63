import Verif.NotifDebounce.Props

/-
The life cycle of `NotificationDebouncer`: C214.

Models `start` and `stop`, /repo/src/server/notification_debouncer.rs L98-134, on top of the steps of
`Verif.NotifDebounce.Model`: every `start` spawns a task of its own; a task ends with a `flush_all` some time
after its shutdown channel got a message (`stop`) or lost its sender (another `start`, or the debouncer is
dropped).  Which branch of `select!` a task takes when both are ready is left open, so a task that was told to
end may still do rounds.  The timer of a task is left open too: a round may happen at any time.
-/

namespace Verif.NotifDebounce.Life

open Verif.NotifDebounce

/-- Where a flush task is. /repo/src/server/notification_debouncer.rs L107-124: in the loop with nothing to
receive; in the loop with a message in its shutdown channel or the sender gone; past the final flush. -/
inductive Phase where
  | running | told | ended
  deriving DecidableEq, Repr

/-- The debouncer with its tasks in the order they were spawned; `held`: `shutdown_tx` is `Some`, which is then
the sender of the last task. /repo/src/server/notification_debouncer.rs L57-63, L99-100. -/
structure LState where
  base : State := {}
  tasks : List Phase := []
  held : Bool := false
  deriving DecidableEq

/-- Calls (`stop` also stands for dropping the debouncer, after which there are no calls) and the steps of the
`i`-th task: a round, and leaving the loop. /repo/src/server/notification_debouncer.rs L98-178. -/
inductive LOp where
  | submit (now : Nat) (n : Notif)
  | flush
  | start
  | stop
  | round (i : Nat) (now : Nat)
  | finish (i : Nat)
  deriving DecidableEq

/-- The shutdown channel of the last task gets a message or loses its sender.
/repo/src/server/notification_debouncer.rs L100 (the old sender is dropped), L131-133. -/
def tell (s : LState) : List Phase :=
  if s.held then s.tasks.set (s.tasks.length - 1) .told else s.tasks

/-- One step; a step of a task that cannot take it changes nothing.
/repo/src/server/notification_debouncer.rs L98-134 (tasks), L137-178 (calls). -/
def lstep (esc : Text → Text) (c : Config) (s : LState) : LOp → LState
  | .submit now n => { s with base := submit esc c s.base now n }
  | .flush => { s with base := NotifDebounce.flush s.base }
  | .start => { s with tasks := tell s ++ [.running], held := true }
  | .stop => { s with tasks := tell s, held := false }
  | .round i now =>
    if s.tasks[i]? = some .running ∨ s.tasks[i]? = some .told then { s with base := tick c s.base now } else s
  | .finish i =>
    if s.tasks[i]? = some .told then
      { s with base := NotifDebounce.flush s.base, tasks := s.tasks.set i .ended }
    else s

/-- A history. (Calls and tasks of /repo/src/server/notification_debouncer.rs L98-178.) -/
def lrun (esc : Text → Text) (c : Config) (s : LState) (h : List LOp) : LState := h.foldl (lstep esc c) s

/-- Everything submitted, in order. (Specification: no counterpart in the code.) -/
def given : List LOp → List Notif
  | [] => []
  | .submit _ n :: h => n :: given h
  | _ :: h => given h

/-- The calls a history makes of the debouncer of C31. (Specification: no counterpart in the code.) -/
def inner (esc : Text → Text) (c : Config) : LState → List LOp → List Op
  | _, [] => []
  | s, op :: h =>
    (match op with
      | .submit now n => [Op.submit now n]
      | .flush => [Op.flush]
      | .start => []
      | .stop => []
      | .round i now => if s.tasks[i]? = some .running ∨ s.tasks[i]? = some .told then [Op.tick now] else []
      | .finish i => if s.tasks[i]? = some .told then [Op.flush] else []) ++
    inner esc c (lstep esc c s op) h

theorem given_append (a b : List LOp) : given (a ++ b) = given a ++ given b := by
  induction a with
  | nil => rfl
  | cons op a ih => cases op <;> simp [given, ih]

theorem lrun_append (esc : Text → Text) (c : Config) (s : LState) (a b : List LOp) :
    lrun esc c s (a ++ b) = lrun esc c (lrun esc c s a) b := by
  simp only [lrun, List.foldl_append]

theorem lrun_snoc (esc : Text → Text) (c : Config) (s : LState) (a : List LOp) (op : LOp) :
    lrun esc c s (a ++ [op]) = lstep esc c (lrun esc c s a) op := by
  simp only [lrun, List.foldl_append, List.foldl_cons, List.foldl_nil]

/-- The debouncer within: its history is `inner`. -/
theorem base_run (esc : Text → Text) (c : Config) (s : LState) (h : List LOp) :
    (lrun esc c s h).base = run esc c s.base (inner esc c s h) := by
  induction h generalizing s with
  | nil => rfl
  | cons op h ih =>
    have e : (lrun esc c s (op :: h)) = lrun esc c (lstep esc c s op) h := rfl
    rw [e, ih]
    cases op with
    | round i now =>
      simp only [inner, lstep]
      split <;> simp [run, step]
    | finish i =>
      simp only [inner, lstep]
      split <;> simp [run, step]
    | _ => simp [inner, lstep, run, step]

theorem submitted_inner (esc : Text → Text) (c : Config) (s : LState) (h : List LOp) :
    submitted (inner esc c s h) = given h := by
  induction h generalizing s with
  | nil => rfl
  | cons op h ih =>
    cases op with
    | round i now =>
      simp only [inner, given]
      split <;> simp [submitted, ih]
    | finish i =>
      simp only [inner, given]
      split <;> simp [submitted, ih]
    | _ => simp [inner, given, submitted, ih]

/-! ### One task -/

/-- No more tasks than calls of `start`. -/
theorem tasks_length (esc : Text → Text) (c : Config) (h : List LOp) :
    (lrun esc c {} h).tasks.length = h.count .start := by
  have ht : ∀ s : LState, (tell s).length = s.tasks.length := by
    intro s; unfold tell; split <;> simp
  induction h using snocInduction with
  | nil => rfl
  | append_singleton l op ih =>
    rw [lrun_snoc, List.count_append]
    cases op with
    | start => simp [lstep, ht, ih]
    | stop => simp [lstep, ht, ih]
    | submit now n => simp [lstep, ih]
    | flush => simp [lstep, ih]
    | round i now =>
      simp only [lstep]
      split <;> simp [ih]
    | finish i =>
      simp only [lstep]
      split <;> simp [ih]

/-- A task that has ended stays so, and with only such tasks and without `start` and `flush`, nothing is sent. -/
theorem ended_out (esc : Text → Text) (c : Config) (s : LState) (h : List LOp)
    (hall : ∀ t ∈ s.tasks, t = .ended) (hheld : s.held = false ∨ s.tasks = [])
    (hf : LOp.flush ∉ h) (hs : LOp.start ∉ h) : (lrun esc c s h).base.out = s.base.out := by
  induction h generalizing s with
  | nil => rfl
  | cons op h ih =>
    have e : (lrun esc c s (op :: h)) = lrun esc c (lstep esc c s op) h := rfl
    have hget : ∀ (i : Nat) (t : Phase), s.tasks[i]? = some t → t = .ended := fun i t hi => hall t (List.mem_of_getElem? hi)
    have htell : tell s = s.tasks := by
      unfold tell
      rcases hheld with h0 | h0
      · simp [h0]
      · simp [h0]
    have hno : lstep esc c s op = s ∨ ((lstep esc c s op).tasks = s.tasks ∧
        (lstep esc c s op).base.out = s.base.out ∧ ((lstep esc c s op).held = false ∨ s.tasks = [])) := by
      cases op with
      | submit now n =>
        refine .inr ⟨rfl, ?_, hheld⟩
        simp only [lstep, submit]
        split <;> rfl
      | flush => exact absurd (List.mem_cons_self ..) hf
      | start => exact absurd (List.mem_cons_self ..) hs
      | stop => exact .inr ⟨htell, rfl, .inl rfl⟩
      | round i now =>
        left
        simp only [lstep]
        rw [if_neg]
        rintro (h1 | h1) <;> cases hget _ _ h1
      | finish i =>
        left
        simp only [lstep]
        rw [if_neg]
        intro h1
        cases hget _ _ h1
    rw [e]
    have hf' : LOp.flush ∉ h := fun hm => hf (List.mem_cons_of_mem _ hm)
    have hs' : LOp.start ∉ h := fun hm => hs (List.mem_cons_of_mem _ hm)
    rcases hno with h0 | ⟨h1, h2, h3⟩
    · rw [h0]; exact ih s hall hheld hf' hs'
    · rw [ih _ (by rw [h1]; exact hall) (by rw [h1]; exact h3) hf' hs', h2]

/-- Only the last task can be running, and it is exactly when the sender is held.
(Specification: no counterpart in the code.) -/
def Inv (s : LState) : Prop :=
  (∀ i, s.tasks[i]? = some .running → s.held = true ∧ i + 1 = s.tasks.length) ∧
    (s.held = true → s.tasks.getLast? = some .running)

theorem inv_tell (s : LState) (h : Inv s) : ∀ i : Nat, (tell s)[i]? ≠ some Phase.running := by
  intro i hi
  unfold tell at hi
  split at hi
  · rename_i hh
    rw [List.getElem?_set] at hi
    split at hi
    · split at hi <;> cases hi
    · rename_i hne
      have := (h.1 i hi).2
      omega
  · rename_i hh
    exact hh (h.1 i hi).1

theorem inv_run (esc : Text → Text) (c : Config) (h : List LOp) : Inv (lrun esc c {} h) := by
  induction h using snocInduction with
  | nil => exact ⟨fun i hi => by simp [lrun] at hi, fun h => by simp [lrun] at h⟩
  | append_singleton l op ih =>
    rw [lrun_snoc]
    have ht := inv_tell _ ih
    generalize lrun esc c {} l = s at ih ht
    cases op with
    | submit now n => exact ih
    | flush => exact ih
    | start =>
      refine ⟨fun i hi => ⟨rfl, ?_⟩, fun _ => by simp [lstep]⟩
      simp only [lstep] at hi ⊢
      rw [List.getElem?_append] at hi
      split at hi
      · exact absurd hi (ht i)
      · have := (List.getElem?_eq_some_iff.mp hi).1
        simp at this ⊢
        omega
    | stop =>
      exact ⟨fun i hi => absurd hi (ht i), fun h => by simp [lstep] at h⟩
    | round i now =>
      simp only [lstep]
      split <;> exact ih
    | finish i =>
      simp only [lstep]
      split
      · rename_i h1
        refine ⟨fun j hj => ?_, fun hh => ?_⟩
        · simp only [List.getElem?_set] at hj
          split at hj
          · split at hj <;> cases hj
          · have := ih.1 j hj
            simpa using this
        · have hl := ih.2 hh
          simp only
          rw [List.getLast?_eq_getElem?] at hl ⊢
          rw [List.length_set, List.getElem?_set]
          split
          · rename_i he
            rw [← he, h1] at hl
            cases hl
          · exact hl
      · exact ih

/-- Before the only task ended, no `finish` did anything: `inner` is free of `flush`. -/
theorem inner_before (esc : Text → Text) (c : Config) (l : List LOp) (hf : LOp.flush ∉ l)
    (hs : l.count .start ≤ 1) (hne : ∀ t ∈ (lrun esc c {} l).tasks, t ≠ Phase.ended) :
    Op.flush ∉ inner esc c {} l := by
  have snoc : ∀ (s : LState) (a : List LOp) (op : LOp),
      inner esc c s (a ++ [op]) = inner esc c s a ++ inner esc c (lrun esc c s a) [op] := by
    intro s a op
    induction a generalizing s with
    | nil => rfl
    | cons b a ih =>
      have e : (lrun esc c s (b :: a)) = lrun esc c (lstep esc c s b) a := rfl
      rw [e, List.cons_append]
      simp only [inner]
      rw [ih, List.append_assoc]
      rfl
  induction l using snocInduction with
  | nil => simp [inner]
  | append_singleton l op ih =>
    rw [lrun_snoc] at hne
    rw [List.count_append] at hs
    have hlen := tasks_length esc c l
    have hinv := inv_run esc c l
    have hkeep : ∀ t ∈ (lrun esc c {} l).tasks, t ≠ Phase.ended := by
      intro t ht he
      subst he
      obtain ⟨i, hi⟩ := List.mem_iff_getElem?.mp ht
      have hi1 := (List.getElem?_eq_some_iff.mp hi).1
      have hl1 : (lrun esc c {} l).tasks.length = 1 := by omega
      have hi0 : i = 0 := by omega
      subst hi0
      generalize lrun esc c {} l = s at *
      have htasks : s.tasks = [.ended] := by
        obtain ⟨x, hx⟩ := List.length_eq_one_iff.mp hl1
        rw [hx] at hi
        simp at hi
        rw [hx, hi]
      have hheld : s.held = false := by
        cases hh : s.held with
        | false => rfl
        | true =>
          have := hinv.2 hh
          rw [htasks] at this
          cases this
      have htell : tell s = [.ended] := by unfold tell; simp [hheld, htasks]
      cases op with
      | submit now n => exact hne .ended (by simp [lstep, htasks]) rfl
      | flush => exact hne .ended (by simp [lstep, htasks]) rfl
      | start => exact hne .ended (by simp [lstep, htell]) rfl
      | stop => exact hne .ended (by simp [lstep, htell]) rfl
      | round i now =>
        refine hne .ended ?_ rfl
        simp only [lstep]
        split <;> simp [htasks]
      | finish i =>
        refine hne .ended ?_ rfl
        simp only [lstep]
        rw [if_neg]
        · simp [htasks]
        · rw [htasks]
          cases i <;> simp
    rw [snoc, List.mem_append]
    refine fun hor => hor.elim (ih (fun hm => hf (List.mem_append.mpr (.inl hm))) (by omega) hkeep) ?_
    cases op with
    | submit now n => simp [inner]
    | flush => exact fun _ => hf (List.mem_append.mpr (.inr (List.mem_singleton.mpr rfl)))
    | start => simp [inner]
    | stop => simp [inner]
    | round i now =>
      simp only [inner]
      split <;> simp
    | finish i =>
      simp only [inner]
      split
      · rename_i h1
        intro
        refine hne .ended ?_ rfl
        simp only [lstep, h1, if_true]
        exact List.mem_of_getElem? (i := i) (by
          rw [List.getElem?_set]
          simp [(List.getElem?_eq_some_iff.mp h1).1])
      · simp

/-- **C214 (what a stopped debouncer has sent).** One `start`, no `flush`: what the task has sent when it ends is
what it had sent before and everything that was waiting, and nothing is ever sent after that, whatever is
submitted.  Missing for the full statement: a second `start`, see `C214_restart` and `C214_second_start`. -/
theorem C214_stopped_partial (esc : Text → Text) (c : Config) (pre post : List LOp) (i : Nat)
    (hf : LOp.flush ∉ pre ++ post) (hs : (pre ++ post).count .start ≤ 1)
    (htold : (lrun esc c {} pre).tasks[i]? = some .told) :
    (lrun esc c {} (pre ++ .finish i :: post)).base.out =
      (lrun esc c {} pre).base.out ++ waiting (lrun esc c {} pre).base := by
  have hlen := tasks_length esc c pre
  have hinv := inv_run esc c pre
  have hi1 := (List.getElem?_eq_some_iff.mp htold).1
  rw [List.count_append] at hs
  have hl1 : (lrun esc c {} pre).tasks.length = 1 := by omega
  have hi0 : i = 0 := by omega
  subst hi0
  have htasks : (lrun esc c {} pre).tasks = [.told] := by
    obtain ⟨x, hx⟩ := List.length_eq_one_iff.mp hl1
    rw [hx] at htold
    simp at htold
    rw [hx, htold]
  have hheld : (lrun esc c {} pre).held = false := by
    cases hh : (lrun esc c {} pre).held with
    | false => rfl
    | true =>
      have := hinv.2 hh
      rw [htasks] at this
      cases this
  have e : lrun esc c {} (pre ++ .finish 0 :: post) =
      lrun esc c (lstep esc c (lrun esc c {} pre) (.finish 0)) post := by
    rw [lrun_append]; rfl
  have hst : lstep esc c (lrun esc c {} pre) (.finish 0) =
      { base := NotifDebounce.flush (lrun esc c {} pre).base, tasks := [.ended], held := false } := by
    simp [lstep, htasks, hheld]
  rw [e, hst, ended_out]
  · rfl
  · simp
  · exact .inl rfl
  · exact fun hm => hf (List.mem_append.mpr (.inr hm))
  · intro hm
    have := List.count_pos_iff.mpr hm
    omega


/-- The submissions and what came of them, without `flush`. -/
theorem count_inner (esc : Text → Text) (c : Config) (l : List Op) (hnf : Op.flush ∉ l) (n : Notif) :
    (run esc c {} l).out.count n + (waiting (run esc c {} l)).count n ≤ (submitted l).count n := by
  induction l using snocInduction with
  | nil => simp [run, submitted, waiting]
  | append_singleton l a ih =>
    have ih := ih (fun hm => hnf (List.mem_append.mpr (.inl hm)))
    rw [submitted_append l [a], List.count_append]
    have hr : run esc c {} (l ++ [a]) = step esc c (run esc c {} l) a := by
      rw [run, List.foldl_append]; rfl
    rw [hr]
    cases a with
    | submit now m =>
      have h1 := submit_count_le esc c _ (wf_run esc c l) now m n
      have h2 : (step esc c (run esc c {} l) (.submit now m)).out = (run esc c {} l).out := by
        simp only [step, submit]; split <;> rfl
      rw [h2]
      simp only [step, submitted] at h1 ⊢
      omega
    | tick now =>
      have h1 := tick_count c now (run esc c {} l).pending n
      simp only [step, tick, waiting, submitted, List.count_append, List.count_nil] at ih ⊢
      omega
    | flush => exact absurd (List.mem_append.mpr (.inr (List.mem_singleton.mpr rfl))) hnf

/-- If some task has ended, there was a step in which it did. -/
theorem ended_split (esc : Text → Text) (c : Config) (h : List LOp)
    (he : Phase.ended ∈ (lrun esc c {} h).tasks) :
    ∃ pre i post, h = pre ++ .finish i :: post ∧ (lrun esc c {} pre).tasks[i]? = some .told := by
  induction h using snocInduction with
  | nil => simp [lrun] at he
  | append_singleton l op ih =>
    have lift : Phase.ended ∈ (lrun esc c {} l).tasks →
        ∃ pre i post, l ++ [op] = pre ++ .finish i :: post ∧ (lrun esc c {} pre).tasks[i]? = some .told := by
      intro h1
      obtain ⟨pre, i, post, h2, h3⟩ := ih h1
      exact ⟨pre, i, post ++ [op], by rw [h2]; simp, h3⟩
    have htell : Phase.ended ∈ tell (lrun esc c {} l) → Phase.ended ∈ (lrun esc c {} l).tasks := by
      unfold tell
      split
      · intro h1
        rcases List.mem_or_eq_of_mem_set h1 with h2 | h2
        · exact h2
        · cases h2
      · exact id
    rw [lrun_snoc] at he
    cases op with
    | submit now n => exact lift he
    | flush => exact lift he
    | start =>
      simp only [lstep, List.mem_append, List.mem_singleton] at he
      rcases he with h1 | h1
      · exact lift (htell h1)
      · cases h1
    | stop => exact lift (htell he)
    | round i now =>
      simp only [lstep] at he
      split at he <;> exact lift he
    | finish i =>
      by_cases ht : (lrun esc c {} l).tasks[i]? = some .told
      · exact ⟨l, i, [], rfl, ht⟩
      · simp only [lstep, ht, if_false] at he
        exact lift he

/-- **C214 (no duplicates).** One `start`, no `flush`: whatever the timing, and whether or not the debouncer was
stopped, nothing is sent more often than it was submitted. -/
theorem C214_no_duplicates_partial (esc : Text → Text) (c : Config) (h : List LOp) (hf : LOp.flush ∉ h)
    (hs : h.count .start ≤ 1) (n : Notif) :
    (lrun esc c {} h).base.out.count n ≤ (given h).count n := by
  by_cases he : Phase.ended ∈ (lrun esc c {} h).tasks
  · obtain ⟨pre, i, post, rfl, ht⟩ := ended_split esc c h he
    rw [List.count_append, List.count_cons] at hs
    have hf' : LOp.flush ∉ pre ++ post := by
      intro hm
      rcases List.mem_append.mp hm with hm | hm
      · exact hf (List.mem_append.mpr (.inl hm))
      · exact hf (List.mem_append.mpr (.inr (List.mem_cons_of_mem _ hm)))
    have h1 := C214_stopped_partial esc c pre post i hf' (by rw [List.count_append]; omega) ht
    rw [h1, given_append, List.count_append, List.count_append]
    have hnp : Phase.ended ∉ (lrun esc c {} pre).tasks := by
      intro hm
      have hl := tasks_length esc c pre
      obtain ⟨j, hj⟩ := List.mem_iff_getElem?.mp hm
      have hj1 := (List.getElem?_eq_some_iff.mp hj).1
      have hi1 := (List.getElem?_eq_some_iff.mp ht).1
      have : i = j := by omega
      subst this
      rw [ht] at hj
      cases hj
    have hb := inner_before esc c pre (fun hm => hf' (List.mem_append.mpr (.inl hm))) (by omega)
      (fun t ht he => hnp (he ▸ ht))
    have h2 := count_inner esc c _ hb n
    rw [← base_run esc c {} pre, submitted_inner] at h2
    omega
  · have hb := inner_before esc c h hf hs (fun t ht h1 => he (h1 ▸ ht))
    have h2 := count_inner esc c _ hb n
    have h3 := base_run esc c {} h
    rw [← h3, submitted_inner] at h2
    omega

/-! ### Everything -/

theorem count_le (esc : Text → Text) (c : Config) (l : List Op) (k : Text) (p : Pending)
    (hg : AMap.get (run esc c {} l).pending k = some p) :
    p.count ≤ (submitted l).countP (fun n => decide (key esc n = k)) := by
  induction l using snocInduction generalizing k p with
  | nil => simp [run] at hg
  | append_singleton l a ih =>
    have hr : run esc c {} (l ++ [a]) = step esc c (run esc c {} l) a := by
      rw [run, List.foldl_append]; rfl
    rw [hr] at hg
    rw [submitted_append l [a], List.countP_append]
    cases a with
    | submit now n =>
      simp only [submitted, List.countP_cons, List.countP_nil, Nat.zero_add, decide_eq_true_eq]
      simp only [step, submit] at hg
      split at hg
      · rename_i q hq
        simp only [AMap.get_insert] at hg
        split at hg
        · rename_i hk
          have h1 := ih _ _ hq
          simp only [Option.some.injEq] at hg
          subst hg
          subst hk
          simp only [if_true, update]
          repeat' split
          all_goals simp only; omega
        · have := ih _ _ hg; omega
      · simp only [AMap.get_insert] at hg
        split at hg
        · rename_i hk
          simp only [Option.some.injEq] at hg
          subst hg
          simp [hk]
        · have := ih _ _ hg; omega
    | tick now =>
      have hmem := AMap.mem_of_get hg
      simp only [step, tick] at hmem
      have := ih _ _ (AMap.get_of_mem (wf_run esc c l) (List.mem_filter.mp hmem).1)
      omega
    | flush =>
      have := ih _ _ hg
      omega

/-- **C214 (stop delivers).** Merging, one `start`, no `flush`, and at most `max_batch_size + 1` submissions for
each key: once the task has ended, everything submitted before that was sent exactly as often as it was
submitted, and what was submitted after it never is. -/
theorem C214_exactly_once_partial (esc : Text → Text) (c : Config) (hm : c.merging = true) (pre post : List LOp)
    (i : Nat) (hf : LOp.flush ∉ pre ++ post) (hs : (pre ++ post).count .start ≤ 1)
    (htold : (lrun esc c {} pre).tasks[i]? = some .told)
    (hb : ∀ k, (given pre).countP (fun n => decide (key esc n = k)) ≤ c.maxBatch + 1) (n : Notif) :
    (lrun esc c {} (pre ++ .finish i :: post)).base.out.count n = (given pre).count n := by
  rw [C214_stopped_partial esc c pre post i hf hs htold, List.count_append]
  have hnp : Phase.ended ∉ (lrun esc c {} pre).tasks := by
    intro hm
    have hl := tasks_length esc c pre
    rw [List.count_append] at hs
    obtain ⟨j, hj⟩ := List.mem_iff_getElem?.mp hm
    have hj1 := (List.getElem?_eq_some_iff.mp hj).1
    have hi1 := (List.getElem?_eq_some_iff.mp htold).1
    have : i = j := by omega
    subst this
    rw [htold] at hj
    cases hj
  have hnf := inner_before esc c pre (fun hm => hf (List.mem_append.mpr (.inl hm)))
    (by rw [List.count_append] at hs; omega) (fun t ht he => hnp (he ▸ ht))
  have h2 := C31_exactly_once_merging_partial esc c hm (inner esc c {} pre) hnf (by
    intro a b hab k p hg
    have h3 := count_le esc c a k p hg
    have h4 := hb k
    rw [← submitted_inner esc c {} pre, hab, submitted_append, List.countP_append] at h4
    omega) n
  rw [submitted_inner] at h2
  rw [base_run]
  exact h2

/-- A debouncer that is stopped 10 ms after two submissions: both are sent by the final flush. -/
example : (lrun id Config.default {} [.start, .submit 0 (.log 1), .round 0 5, .submit 6 .tools, .stop]).tasks[0]? =
      some .told ∧
    (lrun id Config.default {} [.start, .submit 0 (.log 1), .round 0 5, .submit 6 .tools, .stop, .finish 0,
      .submit 20 .prompts, .round 0 900]).base.out = [.tools, .log 1] := by decide +kernel

/-- **C214 (delivery, without merging).** Whatever the configuration and the history before: right after a task
ended, the waiting entry of every key has been sent. -/
theorem C214_final_flush (esc : Text → Text) (c : Config) (s : LState) (i : Nat)
    (htold : s.tasks[i]? = some .told) (n : Notif) (h : n ∈ waiting s.base) :
    n ∈ (lstep esc c s (.finish i)).base.out := by
  simp only [lstep, htold, if_true, NotifDebounce.flush]
  exact List.mem_append.mpr (.inr h)

example : (({ base := { pending := [(kTools, ⟨.tools, 0, 0, 1, []⟩)] }, tasks := [.told] } : LState).tasks[0]? =
    some .told) ∧ Notif.tools ∈ waiting { pending := [(kTools, ⟨.tools, 0, 0, 1, []⟩)] } := by decide

/-- **C214 refuted (stop returns first).** When `stop` has returned, what was submitted need not have been sent. -/
theorem C214_stop_returns_first : ∃ h n, (lrun id Config.default {} (h ++ [.stop])).base.out.count n <
    (given h).count n := ⟨[.start, .submit 0 .tools], .tools, by decide⟩

/-- One more start and stop. (Specification: no counterpart in the code.) -/
def cycles : Nat → List LOp
  | 0 => []
  | k + 1 => cycles k ++ [.start, .stop, .finish k]

/-- **C214 refuted (stopping and starting again).** The final flush leaves everything in `pending`, so every
further `start` and `stop` sends it once more: `k` times after `k` rounds, though it was submitted once and
`flush` never called. -/
theorem C214_restart (esc : Text → Text) (c : Config) (n : Notif) (k : Nat) :
    (lrun esc c {} (.submit 0 n :: cycles k)).base.out = List.replicate k n ∧
      (given (.submit 0 n :: cycles k)) = [n] := by
  have hg : ∀ k, given (cycles k) = [] := by
    intro k
    induction k with
    | zero => rfl
    | succ k ih => simp [cycles, given_append, ih, given]
  refine ⟨?_, by simp [given, hg]⟩
  suffices hs : lrun esc c {} (.submit 0 n :: cycles k) =
      { base := { pending := [(key esc n, ⟨n, 0, 0, 1, []⟩)], out := List.replicate k n },
        tasks := List.replicate k .ended, held := false } by rw [hs]
  induction k with
  | zero => rfl
  | succ k ih =>
    have e : (LOp.submit 0 n :: cycles (k + 1)) = (.submit 0 n :: cycles k) ++ [.start, .stop, .finish k] := rfl
    rw [e, lrun_append, ih]
    simp only [lrun, List.foldl_cons, List.foldl_nil, lstep, tell, Bool.false_eq_true, if_false, if_true]
    have h1 : (List.replicate k Phase.ended ++ [Phase.running]).length - 1 = k := by simp
    rw [h1]
    have h2 : (List.replicate k Phase.ended ++ [Phase.running]).set k .told =
        List.replicate k .ended ++ [.told] := by
      rw [List.set_append_right _ _ (by simp)]; simp
    have h3 : (List.replicate k Phase.ended ++ [Phase.told]).set k .ended = List.replicate (k + 1) .ended := by
      rw [List.set_append_right _ _ (by simp)]
      simp [List.replicate_succ']
    have h4 : (List.replicate k Phase.ended ++ [Phase.told])[k]? = some .told := by simp
    rw [h2, h3, if_pos h4]
    simp [NotifDebounce.flush, sends, List.replicate_succ']

example : (lrun id Config.default {} (.submit 0 .tools :: cycles 3)).base.out = [.tools, .tools, .tools] := by
  decide

/-- **C214 refuted (a second `start`).** Without `stop` and `flush`, a second `start` ends the first task, whose final
flush leaves everything for the second: one submission is sent twice. -/
theorem C214_second_start : ∃ h n, LOp.flush ∉ h ∧ LOp.stop ∉ h ∧
    (lrun id Config.default {} h).base.out.count n = 2 ∧ (given h).count n = 1 :=
  ⟨[.start, .submit 0 .tools, .start, .finish 0, .round 1 300], .tools, by decide, by decide, by decide +kernel,
    by decide⟩

/-- **C214 (after the end).** When all tasks have ended, nothing is sent any more until `start` or `flush` is
called, whatever is submitted and however long it waits: `submit` still answers `Ok`. -/
theorem C214_silent (esc : Text → Text) (c : Config) (pre post : List LOp)
    (hall : ∀ t ∈ (lrun esc c {} pre).tasks, t = .ended) (hf : LOp.flush ∉ post) (hs : LOp.start ∉ post) :
    (lrun esc c {} (pre ++ post)).base.out = (lrun esc c {} pre).base.out := by
  rw [lrun_append]
  refine ended_out esc c _ post hall ?_ hf hs
  cases hh : (lrun esc c {} pre).held with
  | false => exact .inl rfl
  | true =>
    have h1 := (inv_run esc c pre).2 hh
    have h2 := hall _ (List.mem_of_getLast? h1)
    cases h2

/-- A debouncer that was never started, and one that was stopped. -/
example : (∀ t ∈ (lrun id Config.default {} []).tasks, t = .ended) ∧
    (∀ t ∈ (lrun id Config.default {} [.start, .submit 0 .tools, .stop, .finish 0]).tasks, t = .ended) := by decide

end Verif.NotifDebounce.Life
