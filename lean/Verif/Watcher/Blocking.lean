import Verif.Watcher.Props

/-
The lock of the tracked resources and the channel of the notifications: C221.

Models /repo/src/server/resource_watcher.rs L144-163 (sending the notifications of a round) together with
`add_resource`, `remove_resource` and `get_resources` (L249-272), which use the same lock.  The processor takes the
read lock for every path that is due (L149) and keeps it while it waits for room in the channel of notifications
(L158), whose capacity the user chose.  tokio's `RwLock` is fair: requests are served in the order they were made, a
request for reading behind one for writing waits for it.  One processor (`start` called once); the paths of a round are
given by their URIs; `ResourceInfo` is left out, so a call of `get_resources` answers with the URIs.
-/

namespace Verif.Watcher.Blocking

open Verif

/-- A call of a user. /repo/src/server/resource_watcher.rs L249-272. -/
inductive Call (U : Type) where
  | add (u : U)
  | remove (u : U)
  | get
  deriving DecidableEq, Repr

/-- A request for the lock: the processor's (L149) or that of a call, with the number of the call.
/repo/src/server/resource_watcher.rs L149, L250, L263, L270. -/
inductive Req (U : Type) where
  | proc
  | call (n : Nat) (c : Call U)
  deriving DecidableEq, Repr

/-- The call writes. /repo/src/server/resource_watcher.rs L250, L263, L270. -/
def Call.writes {U : Type} : Call U → Bool
  | .add _ => true
  | .remove _ => true
  | .get => false

/-- The tracked resources, the notifications in the channel, the URIs of this round still to be looked at, whether the
processor holds the lock (it then has a notification for the first of them), the requests for the lock in their order,
and the calls that returned, with what `get_resources` answered. /repo/src/server/resource_watcher.rs L78-95,
L144-163. -/
structure State (U : Type) where
  resources : ASet U := []
  chan : List U := []
  todo : List U := []
  holds : Bool := false
  queue : List (Req U) := []
  done : List (Nat × Call U × Option (List U)) := []

/-- The next round has found these due; the processor asks for the lock; somebody makes a call; the lock is given to
the first who asked; the notification goes into the channel; the receiver takes one from it.
/repo/src/server/resource_watcher.rs L144-163, L249-272. -/
inductive Op (U : Type) where
  | round (us : List U)
  | want
  | call (n : Nat) (c : Call U)
  | grant
  | send
  | recv
  deriving DecidableEq, Repr

variable {U : Type} [DecidableEq U]

/-- What a call does with the lock: the resources after it, and its answer.
/repo/src/server/resource_watcher.rs L249-272. -/
def perform (max : Nat) (rs : ASet U) : Call U → ASet U × Option (List U)
  | .add u => if max ≤ rs.length then (rs, none) else (ASet.insert rs u, none)
  | .remove u => (ASet.remove rs u, none)
  | .get => (rs, some rs)

/-- One step; `none` if it is not possible in this state. /repo/src/server/resource_watcher.rs L144-163, L249-272. -/
def step (max cap : Nat) (s : State U) : Op U → Option (State U)
  -- L145: the loop over the paths of a round.
  | .round us => if s.todo = [] then some { s with todo := us } else none
  -- L149.
  | .want =>
    if s.todo ≠ [] ∧ s.holds = false ∧ .proc ∉ s.queue then some { s with queue := s.queue ++ [.proc] } else none
  -- L250, L263, L270.
  | .call n c => some { s with queue := s.queue ++ [.call n c] }
  -- The lock is given to the first; another reader may have it beside the processor.
  | .grant => match s.queue with
    | .proc :: q =>
      -- L150: nothing to send for an untracked URI; the lock is given back at once (L162).
      if s.todo.head?.any (fun u => decide (u ∈ s.resources)) then some { s with queue := q, holds := true }
      else some { s with queue := q, todo := s.todo.tail }
    | .call n c :: q =>
      if s.holds && c.writes then none
      else some { s with queue := q, resources := (perform max s.resources c).1,
                         done := s.done ++ [(n, c, (perform max s.resources c).2)] }
    | [] => none
  -- L158-162.
  | .send => match s.holds, s.todo with
    | true, u :: r =>
      if s.chan.length < cap then some { s with chan := s.chan ++ [u], todo := r, holds := false } else none
    | _, _ => none
  | .recv => match s.chan with
    | _ :: r => some { s with chan := r }
    | [] => none

/-- Any interleaving. (/repo/src/server/resource_watcher.rs L144-163, L249-272.) -/
def run (max cap : Nat) : State U → List (Op U) → Option (State U)
  | s, [] => some s
  | s, op :: r => match step max cap s op with
    | none => none
    | some s' => run max cap s' r

theorem run_append (max cap : Nat) (s : State U) (a b : List (Op U)) :
    run max cap s (a ++ b) = (run max cap s a).bind (fun x => run max cap x b) := by
  induction a generalizing s with
  | nil => rfl
  | cons op r ih =>
    simp only [List.cons_append, run]
    cases step max cap s op with
    | none => rfl
    | some x => exact ih x

theorem run_snoc {max cap : Nat} {s t : State U} {l : List (Op U)} {op : Op U}
    (h : run max cap s (l ++ [op]) = some t) : ∃ s1, run max cap s l = some s1 ∧ step max cap s1 op = some t := by
  rw [run_append] at h
  cases h1 : run max cap s l with
  | none => rw [h1] at h; cases h
  | some x =>
    rw [h1] at h
    simp only [Option.bind_some, run] at h
    cases h2 : step max cap x op with
    | none => rw [h2] at h; cases h
    | some y => rw [h2] at h; exact ⟨x, rfl, by rw [h2]; exact h⟩

/-! ### Calls take effect in the order they are made -/

/-- The calls of a schedule in their order. (Specification: no counterpart in the code.) -/
def calls (l : List (Op U)) : List (Nat × Call U) := l.filterMap (fun | .call n c => some (n, c) | _ => none)

/-- The calls waiting for the lock. (Specification: no counterpart in the code.) -/
def waiting (s : State U) : List (Nat × Call U) := s.queue.filterMap (fun | .call n c => some (n, c) | .proc => none)

/-- The calls one after the other, nothing between them: the resources and the answers. Tracked URIs are kept without
repetition, the limit stops additions. (Specification: no counterpart in the code.) -/
def oneByOne (max : Nat) : List (Nat × Call U) → ASet U → ASet U × List (Nat × Call U × Option (List U))
  | [], rs => (rs, [])
  | (n, .add u) :: l, rs =>
    let rs' := if rs.length < max then (if u ∈ rs then rs else u :: rs) else rs
    ((oneByOne max l rs').1, (n, .add u, none) :: (oneByOne max l rs').2)
  | (n, .remove u) :: l, rs =>
    let rs' := rs.filter (fun v => decide (v ≠ u))
    ((oneByOne max l rs').1, (n, .remove u, none) :: (oneByOne max l rs').2)
  | (n, .get) :: l, rs => ((oneByOne max l rs).1, (n, .get, some rs) :: (oneByOne max l rs).2)

theorem oneByOne_snoc (max : Nat) (l : List (Nat × Call U)) (rs : ASet U) (n : Nat) (c : Call U) :
    oneByOne max (l ++ [(n, c)]) rs =
      ((perform max (oneByOne max l rs).1 c).1,
       (oneByOne max l rs).2 ++ [(n, c, (perform max (oneByOne max l rs).1 c).2)]) := by
  induction l generalizing rs with
  | nil =>
    cases c with
    | add u =>
      have hp : perform max rs (.add u) = (if rs.length < max then (if u ∈ rs then rs else u :: rs) else rs, none) := by
        simp only [perform, ASet.insert]
        by_cases h : rs.length < max
        · rw [if_pos h, if_neg (show ¬ max ≤ rs.length by omega)]
        · rw [if_neg h, if_pos (show max ≤ rs.length by omega)]
      change (_, _) = ((perform max rs (.add u)).1, [(n, Call.add u, (perform max rs (.add u)).2)])
      rw [hp]
      rfl
    | remove u => simp [oneByOne, perform, ASet.remove]
    | get => simp [oneByOne, perform]
  | cons x l ih =>
    rcases x with ⟨m, d⟩
    cases d <;> simp [oneByOne, ih]

/-- The calls that returned. (Specification: no counterpart in the code.) -/
def returned (s : State U) : List (Nat × Call U) := s.done.map (fun x => (x.1, x.2.1))

/-- **C221**. The calls take effect one after the other in the order they are made: those that returned are the first
ones, with the answers they would get alone, and the others wait in the order of the calls. -/
theorem C221_in_order (max cap : Nat) (l : List (Op U)) (s : State U) (h : run max cap {} l = some s) :
    calls l = returned s ++ waiting s ∧ oneByOne max (returned s) [] = (s.resources, s.done) := by
  induction l using snocInduction generalizing s with
  | nil => cases h; exact ⟨rfl, rfl⟩
  | append_singleton l op ih =>
    obtain ⟨s1, h1, h2⟩ := run_snoc h
    obtain ⟨i1, i2⟩ := ih s1 h1
    have hcalls : calls (l ++ [op]) = calls l ++ calls [op] := by simp [calls]
    cases op with
    | round us =>
      simp only [step] at h2
      split at h2 <;> cases h2
      exact ⟨by rw [hcalls, i1]; simp [calls, returned, waiting], i2⟩
    | want =>
      simp only [step] at h2
      split at h2 <;> cases h2
      exact ⟨by rw [hcalls, i1]; simp [calls, returned, waiting], i2⟩
    | call n c =>
      cases h2
      exact ⟨by rw [hcalls, i1]; simp [calls, returned, waiting], i2⟩
    | grant =>
      simp only [step] at h2
      split at h2
      · next q hq =>
        split at h2 <;> cases h2
        all_goals exact ⟨by rw [hcalls, i1]; simp [calls, returned, waiting, hq], i2⟩
      · next n c q hq =>
        split at h2 <;> cases h2
        refine ⟨by rw [hcalls, i1]; simp [calls, returned, waiting, hq], ?_⟩
        have : returned { s1 with queue := q, resources := (perform max s1.resources c).1,
                                  done := s1.done ++ [(n, c, (perform max s1.resources c).2)] } =
            returned s1 ++ [(n, c)] := by
          simp [returned]
        rw [this, oneByOne_snoc, i2]
      · cases h2
    | send =>
      simp only [step] at h2
      split at h2
      · split at h2 <;> cases h2
        exact ⟨by rw [hcalls, i1]; simp [calls, returned, waiting], i2⟩
      · cases h2
    | recv =>
      simp only [step] at h2
      split at h2 <;> cases h2
      exact ⟨by rw [hcalls, i1]; simp [calls, returned, waiting], i2⟩

/-! ### What the lock is for -/

/-- The processor asks for the lock at most once, and not while it holds it.
(Specification: no counterpart in the code.) -/
structure Inv (cap : Nat) (s : State U) : Prop where
  room : s.chan.length ≤ cap
  tracked : s.holds = true → ∃ u r, s.todo = u :: r ∧ u ∈ s.resources
  once : s.queue.count .proc + (if s.holds = true then 1 else 0) ≤ 1

theorem inv_step (max cap : Nat) (s s' : State U) (op : Op U) (i : Inv cap s) (h : step max cap s op = some s') :
    Inv cap s' := by
  have hone := i.once
  cases op with
  | round us =>
    simp only [step] at h
    split at h
    · next ht =>
      cases h
      refine ⟨i.room, ?_, i.once⟩
      intro hh
      obtain ⟨u, r, g, _⟩ := i.tracked hh
      rw [ht] at g; cases g
    · cases h
  | want =>
    simp only [step] at h
    split at h
    · next hw =>
      cases h
      refine ⟨i.room, i.tracked, ?_⟩
      simp [List.count_append, List.count_eq_zero.mpr hw.2.2, hw.2.1]
    · cases h
  | call n c =>
    cases h
    refine ⟨i.room, i.tracked, ?_⟩
    simpa [List.count_append] using i.once
  | grant =>
    simp only [step] at h
    split at h
    · next q hq =>
      rw [hq] at hone
      simp only [List.count_cons_self] at hone
      split at h
      · next hm =>
        cases h
        refine ⟨i.room, ?_, by simp; omega⟩
        intro _
        rw [Option.any_eq_true] at hm
        obtain ⟨u, h1, h2⟩ := hm
        obtain ⟨r, hr⟩ := List.head?_eq_some_iff.mp h1
        exact ⟨u, r, hr, of_decide_eq_true h2⟩
      · cases h
        refine ⟨i.room, ?_, by simp only; omega⟩
        intro hh
        simp only at hh
        rw [if_pos hh] at hone
        omega
    · next n c q hq =>
      rw [hq] at hone
      split at h
      · cases h
      · next hb =>
        cases h
        refine ⟨i.room, ?_, by simpa [List.count_cons] using hone⟩
        intro hh
        simp only at hh
        obtain ⟨u, r, g1, g2⟩ := i.tracked hh
        refine ⟨u, r, g1, ?_⟩
        cases c with
        | add v => simp [hh, Call.writes] at hb
        | remove v => simp [hh, Call.writes] at hb
        | get => exact g2
    · cases h
  | send =>
    simp only [step] at h
    split at h
    · next u r hh ht =>
      split at h
      · next hc =>
        cases h
        refine ⟨by simp; omega, (fun h => by cases h), ?_⟩
        simp only [Bool.false_eq_true, if_false]; omega
      · cases h
    · cases h
  | recv =>
    simp only [step] at h
    split at h
    · next x r hr =>
      cases h
      have := i.room
      rw [hr] at this
      simp only [List.length_cons] at this
      exact ⟨by simp only; omega, i.tracked, i.once⟩
    · cases h

theorem inv_run (max cap : Nat) (l : List (Op U)) (s : State U) (h : run max cap {} l = some s) : Inv cap s := by
  induction l using snocInduction generalizing s with
  | nil => cases h; exact ⟨Nat.zero_le _, (fun h => by cases h), by simp⟩
  | append_singleton l op ih =>
    obtain ⟨s1, h1, h2⟩ := run_snoc h
    exact inv_step max cap s1 s op (ih s1 h1) h2

/-- **C221**. A notification is sent only for a URI that is tracked at that moment: a `remove_resource` that returned
is respected. -/
theorem C221_tracked (max cap : Nat) (l : List (Op U)) (s s' : State U) (h : run max cap {} l = some s)
    (hs : step max cap s .send = some s') :
    ∃ u, s'.chan = s.chan ++ [u] ∧ u ∈ s.resources ∧ u ∈ (oneByOne max (returned s) []).1 := by
  have i := inv_run max cap l s h
  simp only [step] at hs
  split at hs
  · next u r hh ht =>
    split at hs
    · cases hs
      obtain ⟨v, r', g1, g2⟩ := i.tracked hh
      rw [ht] at g1
      cases g1
      exact ⟨u, rfl, g2, by rw [(C221_in_order max cap l s h).2]; exact g2⟩
    · cases hs
  · cases hs

/-- **C221**. `get_resources` reads beside the processor: once every call made before it has returned and the processor
has no request ahead of it, it gets its answer at once, whether or not the processor is waiting for room in the
channel. -/
theorem C221_readers (max cap : Nat) (s : State U) (n : Nat) (q : List (Req U)) (h : s.queue = .call n .get :: q) :
    ∃ s', step max cap s .grant = some s' ∧ s'.done = s.done ++ [(n, .get, some s.resources)] ∧
      s'.resources = s.resources ∧ s'.holds = s.holds ∧ s'.queue = q := by
  refine ⟨_, by simp only [step, h, Call.writes, Bool.and_false]; rfl, ?_⟩
  exact ⟨rfl, rfl, rfl, rfl⟩

/-- The processor waits with the lock at a channel without room; `get_resources` is answered. -/
example : (run 5 0 ({} : State Nat) [.call 0 (.add 1), .grant, .round [1], .want, .grant, .call 1 .get, .grant]).any
    (fun s => s.holds && decide (s.done = [(0, .add 1, none), (1, .get, some [1])])) = true := by decide

/-! ### A full channel stops the calls -/

/-- The processor holds the lock, the channel is full, and a call that writes is the next to get the lock.
(Specification: no counterpart in the code.) -/
structure Stuck (cap : Nat) (s : State U) : Prop where
  holds : s.holds = true
  full : cap ≤ s.chan.length
  todo : s.todo ≠ []
  writer : ∃ n c q, s.queue = .call n c :: q ∧ c.writes = true

theorem stuck_step (max cap : Nat) (s s' : State U) (op : Op U) (h : Stuck cap s) (hop : op ≠ .recv)
    (hs : step max cap s op = some s') : Stuck cap s' ∧ s'.done = s.done ∧ s'.chan = s.chan := by
  obtain ⟨n, c, q, hq, hc⟩ := h.writer
  cases op with
  | round us =>
    simp only [step, if_neg h.todo] at hs
    cases hs
  | want => simp [step, h.holds] at hs
  | call m d =>
    cases hs
    exact ⟨⟨h.holds, h.full, h.todo, n, c, q ++ [.call m d], by simp [hq], hc⟩, rfl, rfl⟩
  | grant => simp [step, hq, h.holds, hc] at hs
  | send =>
    simp only [step] at hs
    split at hs
    · split at hs
      · next hlt => have := h.full; omega
      · cases hs
    · cases hs
  | recv => exact absurd rfl hop

theorem stuck_run (max cap : Nat) (k : List (Op U)) (s t : State U) (h : Stuck cap s) (hk : .recv ∉ k)
    (ht : run max cap s k = some t) : Stuck cap t ∧ t.done = s.done ∧ t.chan = s.chan := by
  induction k generalizing s with
  | nil => cases ht; exact ⟨h, rfl, rfl⟩
  | cons op k ih =>
    simp only [run] at ht
    split at ht
    · cases ht
    · next s1 hs =>
      obtain ⟨a, b, c⟩ := stuck_step max cap s s1 op h (fun e => hk (by simp [e])) hs
      obtain ⟨a', b', c'⟩ := ih s1 a (fun e => hk (by simp [e])) ht
      exact ⟨a', by rw [b', b], by rw [c', c]⟩

/-- **C221** fails: however large the channel, without anybody receiving it can come to this: for as long as nobody
takes a notification, no call returns, not even `get_resources`, and no notification is sent. -/
theorem C221_full_channel (max cap : Nat) (hm : 0 < max) (u : U) (n : Nat) (c : Call U) (hc : c.writes = true) :
    ∃ l s, .recv ∉ l ∧ run max cap {} l = some s ∧ (n, c) ∈ waiting s ∧
      ∀ k t, .recv ∉ k → run max cap s k = some t → t.done = s.done ∧ t.chan = s.chan ∧ (n, c) ∈ waiting t := by
  have fill : ∀ i, i ≤ cap → ∃ l, .recv ∉ l ∧ run max cap {} l =
      some ({ resources := [u], chan := List.replicate i u, done := [(0, .add u, none)] } : State U) := by
    intro i
    induction i with
    | zero =>
      intro _
      refine ⟨[.call 0 (.add u), .grant], by simp, ?_⟩
      have : ¬ max ≤ 0 := by omega
      simp [run, step, perform, this, ASet.insert]
    | succ i ih =>
      intro hi
      obtain ⟨l, h1, h2⟩ := ih (by omega)
      refine ⟨l ++ [.round [u], .want, .grant, .send], by simp [h1], ?_⟩
      rw [run_append, h2]
      have : i < cap := by omega
      simp [run, step, this, List.replicate_succ']
  obtain ⟨l, h1, h2⟩ := fill cap (Nat.le_refl _)
  refine ⟨l ++ [.round [u], .want, .grant, .call n c],
    { resources := [u], chan := List.replicate cap u, done := [(0, .add u, none)], todo := [u], holds := true,
      queue := [.call n c] }, by simp [h1], ?_, by simp [waiting], ?_⟩
  · rw [run_append, h2]
    simp [run, step]
  · intro k t hk ht
    obtain ⟨a, b, c'⟩ := stuck_run max cap k _ t ⟨rfl, by simp, by simp, n, c, [], rfl, hc⟩ hk ht
    refine ⟨b, c', ?_⟩
    have hall : run max cap {} ((l ++ [.round [u], .want, .grant, .call n c]) ++ k) = some t := by
      rw [run_append, run_append, h2]
      simpa [run, step] using ht
    have := (C221_in_order max cap _ t hall).1
    have hd : returned t = [(0, .add u)] := by simp [returned, b]
    rw [hd] at this
    have h3 : calls l = [(0, .add u)] := by
      have := (C221_in_order max cap l _ h2).1
      simpa [returned, waiting] using this
    have h4 : calls ((l ++ [.round [u], .want, .grant, .call n c]) ++ k) = [(0, .add u)] ++ ((n, c) :: calls k) := by
      have e : calls ((l ++ [.round [u], .want, .grant, .call n c]) ++ k) = calls l ++ (n, c) :: calls k := by
        simp [calls]
      rw [e, h3]
    rw [h4] at this
    have := List.append_cancel_left this
    rw [← this]
    simp

/-- **C221** fails: if the task that receives the notifications makes a call that writes at such a moment (for instance
`remove_resource` for a notification it got), it waits for ever: it receives nothing before its call returns, and the
call does not return before it receives something. -/
theorem C221_receiver_calls (max cap : Nat) (s t : State U) (h : Stuck cap s) (n : Nat)
    (hn : n ∉ s.done.map Prod.fst) (k : List (Op U)) (ht : run max cap s k = some t)
    (hk : ∀ pre post, k = pre ++ .recv :: post → ∃ t', run max cap s pre = some t' ∧ n ∈ t'.done.map Prod.fst) :
    .recv ∉ k ∧ n ∉ t.done.map Prod.fst := by
  have hno : .recv ∉ k := by
    intro hm
    obtain ⟨pre, post, rfl, hpre⟩ := List.eq_append_cons_of_mem hm
    obtain ⟨t', g1, g2⟩ := hk pre post rfl
    rw [(stuck_run max cap pre s t' h hpre g1).2.1] at g2
    exact hn g2
  exact ⟨hno, by rw [(stuck_run max cap k s t h hno ht).2.1]; exact hn⟩

/-! ### Otherwise a call waits for one notification at most -/

/-- The processor's requests before the `m`-th call. (Specification: no counterpart in the code.) -/
def ahead : List (Req U) → Nat → Nat
  | _, 0 => 0
  | [], _ + 1 => 0
  | .proc :: q, m + 1 => 1 + ahead q (m + 1)
  | .call _ _ :: q, m + 1 => ahead q m

theorem ahead_le (q : List (Req U)) (m : Nat) : ahead q m ≤ q.count .proc := by
  induction q generalizing m with
  | nil => cases m <;> simp [ahead]
  | cons r q ih =>
    cases m with
    | zero => simp [ahead]
    | succ m =>
      cases r with
      | proc => have := ih (m + 1); simp only [ahead, List.count_cons_self]; omega
      | call n c => have := ih m; simpa [ahead, List.count_cons] using this

theorem ahead_append (q r : List (Req U)) (m : Nat)
    (h : m ≤ (q.filterMap (fun | .call n c => some (n, c) | .proc => none)).length) :
    ahead (q ++ r) m = ahead q m := by
  induction q generalizing m with
  | nil =>
    have : m = 0 := by simpa using h
    subst this
    cases r <;> simp [ahead]
  | cons x q ih =>
    cases m with
    | zero => simp [ahead]
    | succ m =>
      cases x with
      | proc => simp only [List.cons_append, ahead]; rw [ih (m + 1) (by simpa using h)]
      | call n c => simp only [List.cons_append, ahead]; rw [ih m (by simpa using h)]

theorem sends (max cap : Nat) (k : List (Op U)) (s t : State U) (m : Nat) (hm : 0 < m) (hw : m ≤ (waiting s).length)
    (ht : run max cap s k = some t) (hd : t.done.length < s.done.length + m) :
    k.count .send ≤ ahead s.queue m + (if s.holds = true then 1 else 0) := by
  induction k generalizing s m with
  | nil => simp
  | cons op k ih =>
    simp only [run] at ht
    split at ht
    · cases ht
    · next s1 hs =>
      have mono : ∀ (k : List (Op U)) (s t : State U), run max cap s k = some t → s.done.length ≤ t.done.length := by
        intro k
        induction k with
        | nil => intro s t h; cases h; exact Nat.le_refl _
        | cons op k ih =>
          intro s t h
          simp only [run] at h
          split at h
          · cases h
          · next s1 hs =>
            refine Nat.le_trans ?_ (ih s1 t h)
            cases op <;> simp only [step] at hs <;> (repeat' split at hs) <;> cases hs <;> simp
      cases op with
      | round us =>
        simp only [step] at hs
        split at hs <;> cases hs
        have := ih _ m hm (by exact hw) ht hd
        simpa using this
      | want =>
        simp only [step] at hs
        split at hs <;> cases hs
        have := ih _ m hm (by simpa [waiting] using hw) ht hd
        simp only [ahead_append s.queue _ m hw] at this
        simpa using this
      | call n c =>
        cases hs
        have := ih _ m hm (by simp only [waiting, List.filterMap_append, List.length_append]; exact Nat.le_add_right_of_le hw) ht hd
        simp only [ahead_append s.queue _ m hw] at this
        simpa using this
      | grant =>
        simp only [step] at hs
        split at hs
        · next q hq =>
          obtain ⟨m', rfl⟩ : ∃ m', m = m' + 1 := ⟨m - 1, by omega⟩
          have ha : ahead s.queue (m' + 1) = 1 + ahead q (m' + 1) := by rw [hq]; rfl
          have hw' : m' + 1 ≤ (q.filterMap (fun | Req.call n c => some (n, c) | .proc => none)).length := by
            simpa [waiting, hq] using hw
          split at hs <;> cases hs
          · have := ih _ (m' + 1) hm (by exact hw') ht hd
            rw [ha]
            simp only [if_true] at this
            simp only [List.count_cons, beq_iff_eq, reduceCtorEq, if_false]
            omega
          · have := ih _ (m' + 1) hm (by exact hw') ht hd
            rw [ha]
            simp only [List.count_cons, beq_iff_eq, reduceCtorEq, if_false]
            simp only at this
            omega
        · next n c q hq =>
          obtain ⟨m', rfl⟩ : ∃ m', m = m' + 1 := ⟨m - 1, by omega⟩
          have ha : ahead s.queue (m' + 1) = ahead q m' := by rw [hq]; rfl
          have hw' : m' ≤ (q.filterMap (fun | Req.call n c => some (n, c) | .proc => none)).length := by
            simpa [waiting, hq] using hw
          split at hs <;> cases hs
          have hpos : 0 < m' := by
            have := mono k _ t ht
            simp at this
            omega
          have := ih _ m' hpos (by exact hw') ht (by simp; omega)
          rw [ha]
          simp only [List.count_cons, beq_iff_eq, reduceCtorEq, if_false]
          simpa using this
        · cases hs
      | send =>
        simp only [step] at hs
        split at hs
        · next u r hh _ =>
          split at hs <;> cases hs
          have := ih _ m hm (by exact hw) ht hd
          simp only [Bool.false_eq_true, if_false] at this
          rw [if_pos hh]
          simp only [List.count_cons_self]
          omega
        · cases hs
      | recv =>
        simp only [step] at hs
        split at hs <;> cases hs
        have := ih _ m hm (by exact hw) ht hd
        simpa using this

/-- **C221**, part that holds: in every state that can be reached, whoever waits for the lock, and whatever happens
until their call returns (rounds, calls, receiving), no more than one notification is sent before it returns. -/
theorem C221_one_notification_partial (max cap : Nat) (l k : List (Op U)) (s t : State U)
    (h : run max cap {} l = some s) (ht : run max cap s k = some t) (m : Nat) (hm : m < (waiting s).length)
    (hd : t.done.length ≤ s.done.length + m) : k.count .send ≤ 1 := by
  have i := inv_run max cap l s h
  have := sends max cap k s t (m + 1) (by omega) hm ht (by omega)
  have := ahead_le s.queue (m + 1)
  have := i.once
  omega

theorem drain (max cap : Nat) (hc : 0 < cap) (m : Nat) : ∀ (s : State U), s.queue.length = m → Inv cap s →
    ∃ k t, (∀ op ∈ k, op = .grant ∨ op = .send ∨ op = .recv) ∧
      k.count .recv ≤ s.queue.count .proc + (if s.holds = true then 1 else 0) ∧ run max cap s k = some t ∧
      t.queue = [] := by
  induction m with
  | zero =>
    intro s hs _
    exact ⟨[], s, by simp, by simp, rfl, List.length_eq_zero_iff.mp hs⟩
  | succ m ih =>
    intro s hs i
    have one : ∀ s' : State U, step max cap s .grant = some s' → s'.queue = s.queue.tail →
        s'.queue.count .proc + (if s'.holds = true then 1 else 0) ≤
          s.queue.count .proc + (if s.holds = true then 1 else 0) →
        ∃ k t, (∀ op ∈ k, op = .grant ∨ op = .send ∨ op = .recv) ∧
          k.count .recv ≤ s.queue.count .proc + (if s.holds = true then 1 else 0) ∧ run max cap s k = some t ∧
          t.queue = [] := by
      intro s' h1 h2 h3
      obtain ⟨k, t, g1, g2, g3, g4⟩ := ih s' (by rw [h2]; simp [hs]) (inv_step max cap s s' .grant i h1)
      refine ⟨.grant :: k, t, ?_, ?_, by simp only [run, h1]; exact g3, g4⟩
      · intro op hop
        rcases List.mem_cons.mp hop with rfl | hop
        · exact .inl rfl
        · exact g1 op hop
      · simp only [List.count_cons, beq_iff_eq, reduceCtorEq, if_false]
        omega
    cases hq : s.queue with
    | nil => rw [hq] at hs; cases hs
    | cons r q =>
      have hone := i.once
      rw [← hq]
      cases r with
      | proc =>
        rw [hq] at hone
        simp only [List.count_cons_self] at hone
        by_cases hm : s.todo.head?.any (fun u => decide (u ∈ s.resources)) = true
        · refine one { s with queue := q, holds := true } (by simp only [step, hq]; rw [if_pos hm]) (by rw [hq]; rfl) ?_
          rw [hq]
          simp only [List.count_cons_self, if_true]
          omega
        · refine one { s with queue := q, todo := s.todo.tail } (by simp only [step, hq]; rw [if_neg hm]) (by rw [hq]; rfl) ?_
          rw [hq]
          simp only [List.count_cons_self]
          omega
      | call n c =>
        by_cases hb : (s.holds && c.writes) = true
        · -- the processor sends first
          have hh : s.holds = true := by simp at hb; exact hb.1
          obtain ⟨u, r, ht, hu⟩ := i.tracked hh
          have after : ∀ ch : List U, ch.length < cap → ∃ k t, (∀ op ∈ k, op = .grant ∨ op = .send ∨ op = .recv) ∧
              k.count .recv ≤ s.queue.count .proc ∧ run max cap { s with chan := ch } (.send :: .grant :: k) = some t ∧
              t.queue = [] := by
            intro ch hch
            have hi : Inv cap { s with chan := ch } := ⟨Nat.le_of_lt hch, i.tracked, i.once⟩
            have hs1 : step max cap { s with chan := ch } .send =
                some { s with chan := ch ++ [u], todo := r, holds := false } := by
              simp only [step, hh, ht, hch, if_true]
            have hs2 : step max cap { s with chan := ch ++ [u], todo := r, holds := false } .grant =
                some { s with chan := ch ++ [u], todo := r, holds := false, queue := q,
                              resources := (perform max s.resources c).1,
                              done := s.done ++ [(n, c, (perform max s.resources c).2)] } := by
              simp [step, hq]
            obtain ⟨k, t, g1, g2, g3, g4⟩ := ih _ (by rw [hq] at hs; simpa using hs)
              (inv_step max cap _ _ .grant (inv_step max cap _ _ .send hi hs1) hs2)
            refine ⟨k, t, g1, ?_, ?_, g4⟩
            · rw [hq]
              simpa [List.count_cons] using g2
            · simp only [run, hs1, hs2]
              exact g3
          by_cases hf : s.chan.length < cap
          · obtain ⟨k, t, g1, g2, g3, g4⟩ := after s.chan hf
            refine ⟨.send :: .grant :: k, t, ?_, ?_, g3, g4⟩
            · intro op hop
              simp only [List.mem_cons] at hop
              rcases hop with rfl | rfl | hop
              · exact .inr (.inl rfl)
              · exact .inl rfl
              · exact g1 op hop
            · simp only [List.count_cons, beq_iff_eq, reduceCtorEq, if_false]
              omega
          · have hroom := i.room
            cases hch : s.chan with
            | nil => rw [hch] at hf; simp at hf; omega
            | cons x ch =>
              rw [hch] at hroom
              simp only [List.length_cons] at hroom
              obtain ⟨k, t, g1, g2, g3, g4⟩ := after ch (by omega)
              refine ⟨.recv :: .send :: .grant :: k, t, ?_, ?_, ?_, g4⟩
              · intro op hop
                simp only [List.mem_cons] at hop
                rcases hop with rfl | rfl | rfl | hop
                · exact .inr (.inr rfl)
                · exact .inr (.inl rfl)
                · exact .inl rfl
                · exact g1 op hop
              · simp only [List.count_cons, beq_iff_eq, reduceCtorEq, if_false, if_true, hh, beq_self_eq_true]
                omega
              · have hr : step max cap s .recv = some { s with chan := ch } := by simp only [step, hch]
                rw [run, hr]
                exact g3
        · refine one { s with queue := q, resources := (perform max s.resources c).1,
                              done := s.done ++ [(n, c, (perform max s.resources c).2)] }
            (by simp only [step, hq]; rw [if_neg hb]) (by rw [hq]; rfl) ?_
          rw [hq]
          simp [List.count_cons]

/-- **C221**, part that holds: in every state that can be reached, all the calls that wait return, after one notification
is received at most, without any further call or round. Missing: a receiver that is there
(`C221_full_channel`, `C221_receiver_calls`). -/
theorem C221_returns_partial (max cap : Nat) (hc : 0 < cap) (l : List (Op U)) (s : State U)
    (h : run max cap {} l = some s) :
    ∃ k t, (∀ op ∈ k, op = .grant ∨ op = .send ∨ op = .recv) ∧ k.count .recv ≤ 1 ∧ run max cap s k = some t ∧
      returned t = returned s ++ waiting s := by
  have i := inv_run max cap l s h
  obtain ⟨k, t, g1, g2, g3, g4⟩ := drain max cap hc _ s rfl i
  refine ⟨k, t, g1, Nat.le_trans g2 i.once, g3, ?_⟩
  have h1 := (C221_in_order max cap l s h).1
  have h2 := (C221_in_order max cap (l ++ k) t (by rw [run_append, h]; exact g3)).1
  have h3 : calls (l ++ k) = calls l := by
    have : calls k = [] := by
      rw [calls, List.filterMap_eq_nil_iff]
      intro op hop
      rcases g1 op hop with rfl | rfl | rfl <;> rfl
    simp only [calls, List.filterMap_append] at this ⊢
    rw [this, List.append_nil]
  have h4 : waiting t = [] := by simp [waiting, g4]
  rw [h3, h1, h4, List.append_nil] at h2
  exact h2.symm

/-! ### Concrete cases -/

/-- Two notifications for 7, room for one: `remove_resource` waits, and `get_resources` behind it.
(Specification: no counterpart in the code.) -/
def exampleRun : List (Op Nat) :=
  [.call 0 (.add 7), .grant, .call 1 .get, .grant, .round [7, 8, 7], .want, .grant, .send, .want, .grant, .want, .grant,
   .call 2 (.remove 7), .call 3 .get]

/-- The hypotheses of `C221_in_order`, `C221_one_notification_partial` and `C221_returns_partial` hold. -/
example : (run 5 1 {} exampleRun).any (fun s => decide (s.chan = [7] ∧ s.holds = true ∧
    s.done = [(0, .add 7, none), (1, .get, some [7])] ∧ waiting s = [(2, .remove 7), (3, .get)])) = true := by decide

/-- The state is stuck, as the hypothesis of `C221_receiver_calls` asks. -/
example : ∃ s, run 5 1 {} exampleRun = some s ∧ Stuck 1 s ∧ 2 ∉ s.done.map Prod.fst :=
  ⟨_, rfl, ⟨rfl, by decide, by decide, 2, .remove 7, [.call 3 .get], rfl, rfl⟩, by decide⟩

/-- One notification received and one sent: both calls return. The hypotheses of `C221_tracked` hold. -/
example : (run 5 1 {} (exampleRun ++ [.recv, .send, .grant, .grant])).any (fun s => decide (s.chan = [7] ∧
    s.done = [(0, .add 7, none), (1, .get, some [7]), (2, .remove 7, none), (3, .get, some [])])) = true := by decide

end Verif.Watcher.Blocking
