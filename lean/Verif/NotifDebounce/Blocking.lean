import Verif.NotifDebounce.Props

/-
Notifications sent on a bounded channel while a lock is held: C206.

Models /repo/src/server/notification_debouncer.rs L294-309 (`flush_all`, one guard of `pending` for all notifications),
L366-371 and L379-388 (`NotificationBatcher`: one guard of `batches`), and /repo/src/server/resource_watcher.rs L147-164
(one guard of `resources` for each notification), together with the task that receives from the channel. That task may
call the component for what it received (`submit`, `add`, `add_resource`, `remove_resource`), for which it needs the same
lock, before it receives again. Modelled: one flush in progress, the channel as a number of messages, and the consumer.
The consumer's call is one step, as nothing in it waits once it has the lock.
-/

namespace Verif.NotifDebounce.Blocking

/-- The flush: how many notifications each of the coming critical sections sends (`todo`), how many the current one has
still to send; the messages in the channel; whether the consumer has to call before it receives again.
/repo/src/server/notification_debouncer.rs L294-309, /repo/src/server/resource_watcher.rs L147-164. -/
structure Sys where
  todo : List Nat
  sending : Option Nat := none
  queue : Nat := 0
  busy : Bool := false
  received : Nat := 0
  deriving DecidableEq, Repr

/-- Who takes the next step. /repo/src/server/notification_debouncer.rs L294-309. -/
inductive Who where
  | flusher | consumer
  deriving DecidableEq, Repr

/-- A step, none if there is nothing to do or it has to wait. `cap` is the capacity of the channel, `calls` says that the
consumer calls the component for each message. /repo/src/server/notification_debouncer.rs L294-309, L366-371, L379-388,
/repo/src/server/resource_watcher.rs L147-164; the guard is taken by `pending.write()`, `batches.write()` and
`resources.read()`, released at the end of its scope. -/
def step (cap : Nat) (calls : Bool) (s : Sys) : Who → Option Sys
  | .flusher => match s.sending with
    | none => match s.todo with
      | [] => none
      | n :: rest => some { s with todo := rest, sending := some n }
    | some 0 => some { s with sending := none }
    | some (n + 1) => if s.queue < cap then some { s with sending := some n, queue := s.queue + 1 } else none
  | .consumer =>
    if s.busy then
      match s.sending with
      | none => some { s with busy := false }
      | some _ => none
    else match s.queue with
      | 0 => none
      | q + 1 => some { s with queue := q, busy := calls, received := s.received + 1 }

/-- A schedule. /repo/src/server/notification_debouncer.rs L294-309. -/
def run (cap : Nat) (calls : Bool) : Sys → List Who → Option Sys
  | s, [] => some s
  | s, w :: ws => match step cap calls s w with
    | none => none
    | some s' => run cap calls s' ws

/-! ### C206 -/

/-- The flush has returned and everything is consumed. (Specification: no counterpart in the code.) -/
def Finished (s : Sys) : Prop := s.todo = [] ∧ s.sending = none ∧ s.queue = 0 ∧ s.busy = false

/-- Neither can ever go on. (Specification: no counterpart in the code.) -/
def Deadlock (cap : Nat) (calls : Bool) (s : Sys) : Prop := ¬ Finished s ∧ ∀ w, step cap calls s w = none

/-- Notifications not sent yet. (Specification: no counterpart in the code.) -/
def left (s : Sys) : Nat := s.todo.sum + s.sending.getD 0

/-- Steps left. (Specification: no counterpart in the code.) -/
def work (s : Sys) : Nat := 3 * left s + 2 * s.todo.length + s.sending.isSome.toNat + 2 * s.queue + s.busy.toNat

theorem work_step (cap : Nat) (calls : Bool) (s s' : Sys) (w : Who) (h : step cap calls s w = some s') :
    work s' < work s := by
  obtain ⟨todo, sending, queue, busy, received⟩ := s
  cases w with
  | flusher =>
    cases sending with
    | none =>
      cases todo with
      | nil => cases h
      | cons n rest => cases h; simp [work, left]; omega
    | some n =>
      cases n with
      | zero => cases h; simp [work, left]
      | succ n =>
        simp only [step] at h
        split at h
        · cases h; simp [work, left]; omega
        · cases h
  | consumer =>
    cases busy with
    | true =>
      cases sending with
      | none => cases h; simp [work, left]
      | some n => cases h
    | false =>
      cases queue with
      | zero => cases h
      | succ q => cases calls <;> cases h <;> simp [work, left] <;> omega

/-- What was sent is received or in the channel, the rest is left; and a busy consumer has received something. -/
theorem step_count (cap : Nat) (calls : Bool) (s s' : Sys) (w : Who) (h : step cap calls s w = some s') :
    s'.received + s'.queue + left s' = s.received + s.queue + left s ∧ ((s.busy = true → 0 < s.received) →
      (s'.busy = true → 0 < s'.received)) ∧ (s.queue ≤ cap → s'.queue ≤ cap) := by
  obtain ⟨todo, sending, queue, busy, received⟩ := s
  cases w with
  | flusher =>
    cases sending with
    | none =>
      cases todo with
      | nil => cases h
      | cons n rest => cases h; simp [left]; omega
    | some n =>
      cases n with
      | zero => cases h; simp [left]
      | succ n =>
        simp only [step] at h
        split at h
        · cases h; simp [left]; omega
        · cases h
  | consumer =>
    cases busy with
    | true =>
      cases sending with
      | none => cases h; simp [left]
      | some n => cases h
    | false =>
      cases queue with
      | zero => cases h
      | succ q => cases calls <;> cases h <;> simp [left] <;> omega

theorem run_count (cap : Nat) (calls : Bool) (ws : List Who) : ∀ s s', run cap calls s ws = some s' →
    s'.received + s'.queue + left s' = s.received + s.queue + left s ∧ ((s.busy = true → 0 < s.received) →
      (s'.busy = true → 0 < s'.received)) ∧ (s.queue ≤ cap → s'.queue ≤ cap) := by
  induction ws with
  | nil => intro s s' h; simp only [run, Option.some.injEq] at h; subst h; exact ⟨rfl, id, id⟩
  | cons w ws ih =>
    intro s s' h
    simp only [run] at h
    cases hs : step cap calls s w with
    | none => rw [hs] at h; cases h
    | some s₁ =>
      rw [hs] at h
      obtain ⟨a, b, c⟩ := step_count cap calls s s₁ w hs
      obtain ⟨a', b', c'⟩ := ih s₁ s' h
      exact ⟨by omega, fun x => b' (b x), fun x => c' (c x)⟩

theorem run_work (cap : Nat) (calls : Bool) (ws : List Who) : ∀ s s', run cap calls s ws = some s' →
    ws.length + work s' ≤ work s := by
  induction ws with
  | nil => intro s s' h; simp only [run, Option.some.injEq] at h; subst h; simp
  | cons w ws ih =>
    intro s s' h
    simp only [run] at h
    cases hs : step cap calls s w with
    | none => rw [hs] at h; cases h
    | some s₁ =>
      rw [hs] at h
      have := work_step cap calls s s₁ w hs
      have := ih s₁ s' h
      simp only [List.length_cons]; omega

/-- Where nothing can go on: the flush waits for room in the channel with the lock, the consumer for the lock. -/
theorem deadlock_shape (cap : Nat) (hcap : 0 < cap) (calls : Bool) (s : Sys) (h : Deadlock cap calls s) :
    s.busy = true ∧ (∃ n, s.sending = some (n + 1)) ∧ cap ≤ s.queue := by
  obtain ⟨hf, hd⟩ := h
  have h1 := hd .flusher
  have h2 := hd .consumer
  obtain ⟨todo, sending, queue, busy, received⟩ := s
  cases busy with
  | false =>
    cases queue with
    | succ q => cases h2
    | zero =>
      exfalso
      cases sending with
      | none =>
        cases todo with
        | nil => exact hf ⟨rfl, rfl, rfl, rfl⟩
        | cons n rest => cases h1
      | some n =>
        cases n with
        | zero => cases h1
        | succ n => simp [step, hcap] at h1
  | true =>
    cases sending with
    | none => cases h2
    | some n =>
      cases n with
      | zero => cases h1
      | succ n =>
        refine ⟨rfl, ⟨n, rfl⟩, ?_⟩
        simp only [step] at h1
        split at h1
        · cases h1
        · simp only at *; omega

/-- C206: if the consumer only receives, every schedule of a flush of any notifications completes: as long as not
everything is sent and received somebody can go on, and no schedule goes on for ever. -/
theorem C206_plain_consumer_partial (cap : Nat) (hcap : 0 < cap) (sections : List Nat) (ws : List Who) (s : Sys)
    (h : run cap false { todo := sections } ws = some s) :
    (¬ Finished s → ∃ w s', step cap false s w = some s') ∧ ws.length ≤ 3 * sections.sum + 2 * sections.length := by
  refine ⟨?_, ?_⟩
  · intro hf
    apply Classical.byContradiction
    intro hn
    have hd : Deadlock cap false s := ⟨hf, fun w => by
      cases hw : step cap false s w with
      | none => rfl
      | some s' => exact absurd ⟨w, s', hw⟩ hn⟩
    have hb := (deadlock_shape cap hcap false s hd).1
    have key : ∀ (ws : List Who) (s s' : Sys), s.busy = false → run cap false s ws = some s' → s'.busy = false := by
      intro ws
      induction ws with
      | nil => intro s s' hb h; simp only [run, Option.some.injEq] at h; subst h; exact hb
      | cons w ws ih =>
        intro s s' hb h
        simp only [run] at h
        cases hs : step cap false s w with
        | none => rw [hs] at h; cases h
        | some s₁ =>
          rw [hs] at h
          refine ih s₁ s' ?_ h
          obtain ⟨todo, sending, queue, busy, received⟩ := s
          cases w with
          | flusher =>
            cases sending with
            | none =>
              cases todo with
              | nil => cases hs
              | cons n rest => cases hs; exact hb
            | some n =>
              cases n with
              | zero => cases hs; exact hb
              | succ n =>
                simp only [step] at hs
                split at hs
                · cases hs; exact hb
                · cases hs
          | consumer =>
            simp only at hb
            subst hb
            cases queue with
            | zero => cases hs
            | succ q => cases hs; rfl
    rw [key ws _ s rfl h] at hb
    cases hb
  · have := run_work cap false ws _ s h
    have e : work { todo := sections } = 3 * sections.sum + 2 * sections.length := by simp [work, left]
    omega

theorem run_append (cap : Nat) (calls : Bool) (a b : List Who) (s s₁ s₂ : Sys) (h : run cap calls s a = some s₁)
    (h' : run cap calls s₁ b = some s₂) : run cap calls s (a ++ b) = some s₂ := by
  induction a generalizing s with
  | nil => simp only [run, Option.some.injEq] at h; subst h; exact h'
  | cons w a ih =>
    simp only [run, List.cons_append] at h ⊢
    cases hs : step cap calls s w with
    | none => rw [hs] at h; cases h
    | some s' => rw [hs] at h; exact ih s' h

/-- The flush gets to the point of sending its next notification. -/
theorem to_send (cap : Nat) (calls : Bool) : ∀ (todo : List Nat) (sending : Option Nat) (q : Nat) (b : Bool) (r : Nat),
    0 < left ⟨todo, sending, q, b, r⟩ → ∃ ws todo' n,
      run cap calls ⟨todo, sending, q, b, r⟩ ws = some ⟨todo', some (n + 1), q, b, r⟩ := by
  intro todo
  induction todo with
  | nil =>
    intro sending q b r h
    cases sending with
    | none => simp [left] at h
    | some n =>
      cases n with
      | zero => simp [left] at h
      | succ n => exact ⟨[], [], n, rfl⟩
  | cons g rest ih =>
    intro sending q b r h
    have start : 0 < left ⟨rest, some g, q, b, r⟩ → ∃ ws todo' n,
        run cap calls ⟨g :: rest, none, q, b, r⟩ ws = some ⟨todo', some (n + 1), q, b, r⟩ := by
      intro h
      obtain ⟨ws, t, n, hr⟩ := ih (some g) q b r h
      exact ⟨.flusher :: ws, t, n, hr⟩
    cases sending with
    | none =>
      exact start (by simp [left] at h ⊢; omega)
    | some n =>
      cases n with
      | succ n => exact ⟨[], _, n, rfl⟩
      | zero =>
        obtain ⟨ws, t, n, hr⟩ := start (by simp [left] at h ⊢; omega)
        exact ⟨.flusher :: ws, t, n, hr⟩

/-- The flush sends `m` notifications for which there is room. -/
theorem send_some (cap : Nat) (calls : Bool) (m : Nat) : ∀ (s : Sys), m ≤ left s → s.queue + m ≤ cap →
    ∃ ws s', run cap calls s ws = some s' ∧ s'.queue = s.queue + m ∧ s'.busy = s.busy ∧ s'.received = s.received := by
  induction m with
  | zero => exact fun s _ _ => ⟨[], s, rfl, rfl, rfl, rfl⟩
  | succ m ih =>
    intro s hl hq
    obtain ⟨todo, sending, q, b, r⟩ := s
    obtain ⟨ws, t, n, hr⟩ := to_send cap calls todo sending q b r (by omega)
    have hs : run cap calls ⟨t, some (n + 1), q, b, r⟩ [.flusher] = some ⟨t, some n, q + 1, b, r⟩ := by
      have : q < cap := by simp only at hq; omega
      simp [run, step, this]
    have h2 := run_append cap calls _ _ _ _ _ hr hs
    have hc := (run_count cap calls _ _ _ h2).1
    simp only at hc hq
    obtain ⟨ws', s', hr', e1, e2, e3⟩ := ih ⟨t, some n, q + 1, b, r⟩ (by omega) (by simp only; omega)
    exact ⟨_, s', run_append cap calls _ _ _ _ _ h2 hr', by rw [e1]; simp only; omega, e2, e3⟩

/-- C206, exactly: with a consumer that calls the component for what it receives, a flush can block itself and the
consumer for ever if and only if it sends more notifications than one more than the channel has room for.  The property
asked for, that it cannot, fails. -/
theorem C206_calling_consumer_partial (cap : Nat) (hcap : 0 < cap) (sections : List Nat) :
    (∃ ws s, run cap true { todo := sections } ws = some s ∧ Deadlock cap true s) ↔ cap + 2 ≤ sections.sum := by
  constructor
  · rintro ⟨ws, s, hr, hd⟩
    obtain ⟨hb, ⟨n, hs⟩, hq⟩ := deadlock_shape cap hcap true s hd
    obtain ⟨h1, h2, _⟩ := run_count cap true ws _ s hr
    have h3 := h2 nofun hb
    simp only [left, hs, Option.getD_some, Option.getD_none] at h1
    omega
  · intro h
    have hl : left { todo := sections } = sections.sum := by simp [left]
    obtain ⟨w1, s1, r1, q1, b1, e1⟩ := send_some cap true 1 { todo := sections } (by omega) (by show 0 + 1 ≤ cap; omega)
    have c1 := (run_count cap true _ _ _ r1).1
    simp only [hl] at c1 q1 b1 e1
    obtain ⟨t1, g1, q, b, r⟩ := s1
    simp only at q1 b1 e1 c1
    subst q1 b1 e1
    have r2 : run cap true ⟨t1, g1, 0 + 1, false, 0⟩ [.consumer] = some ⟨t1, g1, 0, true, 0 + 1⟩ := rfl
    have hl2 : left ⟨t1, g1, 0, true, 0 + 1⟩ = left ⟨t1, g1, 0 + 1, false, 0⟩ := rfl
    obtain ⟨w3, s3, r3, q3, b3, e3⟩ := send_some cap true cap ⟨t1, g1, 0, true, 0 + 1⟩ (by omega) (by simp)
    have c3 := (run_count cap true _ _ _ r3).1
    obtain ⟨t3, g3, q', b', r'⟩ := s3
    simp only at q3 b3 e3 c3
    subst b3 e3
    obtain ⟨w4, t4, n, r4⟩ := to_send cap true t3 g3 q' true (0 + 1) (by omega)
    refine ⟨_, _, run_append _ _ _ _ _ _ _ (run_append _ _ _ _ _ _ _ (run_append _ _ _ _ _ _ _ r1 r2) r3) r4, ?_, ?_⟩
    · intro hf; cases hf.2.1
    · intro w
      cases w with
      | flusher =>
        have : ¬ q' < cap := by omega
        simp [step, this]
      | consumer => rfl

example : ∃ s, run 1 true { todo := [3] } [.flusher, .flusher, .consumer, .flusher] = some s ∧ Deadlock 1 true s := by
  refine ⟨_, rfl, fun h => ?_, fun w => ?_⟩
  · cases h.2.1
  · cases w <;> rfl

-- One for each notification, as in the resource watcher.
example : ∃ s, run 1 true { todo := [1, 1, 1] }
    [.flusher, .flusher, .consumer, .flusher, .flusher, .flusher, .flusher, .flusher] = some s ∧ Deadlock 1 true s := by
  refine ⟨_, rfl, fun h => ?_, fun w => ?_⟩
  · cases h.2.1
  · cases w <;> rfl

/-- C206 fails for the debouncer: if more notifications wait than one more than the channel has room for, and the
consumer submits something for each it receives, `flush` never returns, whatever the schedule. -/
theorem C206_flush_never_returns (cap : Nat) (d : State) (h : cap + 2 ≤ (waiting d).length) (ws : List Who) (s : Sys)
    (hr : run cap true { todo := [(waiting d).length] } ws = some s) :
    ¬ (s.todo = [] ∧ s.sending = none) := by
  -- until it returns, what was received is at most one notification
  have key : ∀ (ws : List Who) (s s' : Sys), run cap true s ws = some s' →
      ((s.todo = [(waiting d).length] ∧ s.sending = none ∧ s.received = 0 ∧ s.queue = 0 ∧ s.busy = false) ∨
        (s.todo = [] ∧ s.sending.isSome = true ∧ (s.received = 0 ∧ s.busy = false ∨ s.received = 1 ∧ s.busy = true) ∧
          s.queue ≤ cap ∧ s.received + s.queue + s.sending.getD 0 = (waiting d).length)) →
      (s'.todo = [(waiting d).length] ∧ s'.sending = none ∧ s'.received = 0 ∧ s'.queue = 0 ∧ s'.busy = false) ∨
        (s'.todo = [] ∧ s'.sending.isSome = true ∧ (s'.received = 0 ∧ s'.busy = false ∨ s'.received = 1 ∧ s'.busy = true) ∧
          s'.queue ≤ cap ∧ s'.received + s'.queue + s'.sending.getD 0 = (waiting d).length) := by
    intro ws
    induction ws with
    | nil => intro s s' hr hi; simp only [run, Option.some.injEq] at hr; subst hr; exact hi
    | cons w ws ih =>
      intro s s' hr hi
      simp only [run] at hr
      cases hs : step cap true s w with
      | none => rw [hs] at hr; cases hr
      | some s₁ =>
        rw [hs] at hr
        refine ih s₁ s' hr ?_
        obtain ⟨todo, sending, queue, busy, received⟩ := s
        rcases hi with ⟨rfl, rfl, rfl, rfl, rfl⟩ | ⟨rfl, h2, h3, h4, h5⟩
        · cases w with
          | flusher => cases hs; exact .inr ⟨rfl, rfl, .inl ⟨rfl, rfl⟩, Nat.zero_le _, by simp⟩
          | consumer => cases hs
        · cases sending with
          | none => cases h2
          | some n =>
            simp only [Option.getD_some] at h3 h4 h5
            cases w with
            | flusher =>
              cases n with
              | zero =>
                exfalso
                rcases h3 with ⟨h3, _⟩ | ⟨h3, _⟩ <;> omega
              | succ n =>
                simp only [step] at hs
                split at hs
                · cases hs
                  exact .inr ⟨rfl, rfl, h3, by simp only; omega, by simp only [Option.getD_some]; omega⟩
                · cases hs
            | consumer =>
              cases busy with
              | true => cases hs
              | false =>
                cases queue with
                | zero => cases hs
                | succ q =>
                  cases hs
                  rcases h3 with ⟨h3, _⟩ | ⟨_, h3⟩
                  · subst h3
                    exact .inr ⟨rfl, rfl, .inr ⟨rfl, rfl⟩, by simp only; omega, by simp only [Option.getD_some]; omega⟩
                  · cases h3
  rintro ⟨ht, hn⟩
  rcases key ws _ s hr (.inl ⟨rfl, rfl, rfl, rfl, rfl⟩) with ⟨h1, _⟩ | ⟨_, h1, _⟩
  · rw [ht] at h1; cases h1
  · rw [hn] at h1; cases h1

-- Three kinds of notifications wait, the channel has room for one.
example : 1 + 2 ≤ (waiting (NotifDebounce.run (fun t => t) Config.default {}
    [.submit 0 .tools, .submit 0 .prompts, .submit 0 .resources])).length := by decide

end Verif.NotifDebounce.Blocking
