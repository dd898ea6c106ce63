import Verif.Batcher.Model
import Verif.Common.ListExtra

/-
How long a message waits in `MessageBatcher`, and when its timer task ends: C212.

Models /repo/src/utils/batching.rs L12-42, L79-87, L113-130, L158-178, L212-214 with time. A message is paired with the time
at which it was added. Time passes only when the timer task has nothing to do: it runs when it is due, and a send on a channel
that has room is completed. `start_timer` is called at most once.
-/

namespace Verif.Batcher

variable {α : Type}

/-- The batcher at a time. `next` is the next deadline of the timer task if it runs (L164), `gone` whether the batcher has been
dropped, and with it the receiver (L41). /repo/src/utils/batching.rs L37-42, L158-178. -/
structure Timed (α : Type) where
  base : State (Nat × α) := {}
  now : Nat := 0
  next : Option Nat := none
  gone : Bool := false

/-- What happens: the calls and the steps of `Op`, `start_timer`, time passes, the batcher is dropped.
/repo/src/utils/batching.rs L113-214. -/
inductive TOp (α : Type) where
  | add (id : Nat) (n : α)
  | start
  | tick
  | sent (t : Task)
  | recv
  | dropped (id : Nat)
  | pass (d : Nat)
  | release

/-- The timer task can go on before `d` more time has passed: its send completes (or fails, as there is no receiver any more),
or its deadline comes. /repo/src/utils/batching.rs L164-176. -/
def ready (c : Config) (s : Timed α) (d : Nat) : Bool :=
  match s.next with
  | none => false
  | some e => if busy s.base .timer then s.gone || decide (s.base.chan.length < c.cap) else decide (e < s.now + d)

/-- One step; `w` is `max_wait_time`. `tokio::time::interval` (L164) panics for a zero period, which ends the task; otherwise its
first deadline is at once, and each further one `w` after the last deadline, also if that was missed.
/repo/src/utils/batching.rs L113-130, L158-178, L212-214. -/
def tstep (c : Config) (w : Nat) (s : Timed α) : TOp α → Option (Timed α)
  | .add id n => if s.gone then none else (addStep c s.base id (s.now, n)).map (fun b => { s with base := b })
  | .start =>
    if s.gone || s.next.isSome then none
    else if w = 0 then some s
    else some { s with next := some s.now }
  | .tick => match s.next with
    | some e => if e ≤ s.now then (tickStep s.base).map (fun b => { s with base := b, next := some (e + w) }) else none
    | none => none
  | .sent t =>
    if s.gone then
      if busy s.base t then some { s with base := { s.base with inflight := without s.base t }, next := none } else none
    else (sentStep c s.base t).map (fun b => { s with base := b })
  | .recv => if s.gone then none else (recvStep s.base).map (fun b => { s with base := b })
  | .dropped id => (droppedStep c s.base (.caller id)).map (fun b => { s with base := b })
  | .pass d => if ready c s d then none else some { s with now := s.now + d }
  | .release =>
    if s.gone || s.base.inflight.any (fun p => p.1 != .timer) then none
    else some { s with gone := true, base := { s.base with chan := [] } }

/-- An execution. (Any interleaving of the sections of /repo/src/utils/batching.rs L113-214.) -/
def trun (c : Config) (w : Nat) (s : Timed α) : List (TOp α) → Option (Timed α)
  | [] => some s
  | op :: rest => match tstep c w s op with
    | none => none
    | some s' => trun c w s' rest

theorem trun_append (c : Config) (w : Nat) (s : Timed α) (a b : List (TOp α)) :
    trun c w s (a ++ b) = (trun c w s a).bind (fun s' => trun c w s' b) := by
  induction a generalizing s with
  | nil => rfl
  | cons op l ih =>
    simp only [List.cons_append, trun]
    cases tstep c w s op <;> simp [ih]

/-- A deadline is never further away than `w`; if it is not due, no message was added more than `w` before it.
(Specification: no counterpart in the code.) -/
def Fresh (w : Nat) (s : Timed α) : Prop :=
  ∀ e, s.next = some e → e ≤ s.now + w ∧ (e ≤ s.now ∨ ∀ p ∈ s.base.pending, e ≤ p.1 + w)

theorem fresh_of (w : Nat) (s t : Timed α) (hf : Fresh w s) (hn : t.next = s.next) (ht : t.now = s.now)
    (hp : ∀ p ∈ t.base.pending, p ∈ s.base.pending ∨ p.1 = s.now) : Fresh w t := by
  intro e he
  rw [hn] at he
  obtain ⟨h1, h2⟩ := hf e he
  refine ⟨by omega, ?_⟩
  rcases h2 with h2 | h2
  · exact .inl (by omega)
  · refine .inr (fun p hpm => ?_)
    rcases hp p hpm with h | h
    · exact h2 p h
    · omega

theorem fresh_step (c : Config) (w : Nat) (s t : Timed α) (op : TOp α) (hf : Fresh w s) (h : tstep c w s op = some t) :
    Fresh w t := by
  cases op with
  | add id n =>
    simp only [tstep] at h
    split at h
    · cases h
    · simp only [Option.map_eq_some_iff] at h
      obtain ⟨b, hb, rfl⟩ := h
      refine fresh_of w s _ hf rfl rfl (fun p hp => ?_)
      simp only [addStep] at hb
      split at hb
      · cases hb
      · split at hb <;> (simp only [Option.some.injEq] at hb; subst hb)
        · cases hp
        · simp only [List.mem_append, List.mem_singleton] at hp
          rcases hp with hp | rfl
          · exact .inl hp
          · exact .inr rfl
  | start =>
    simp only [tstep] at h
    split at h
    · cases h
    · split at h <;> (simp only [Option.some.injEq] at h; subst h)
      · exact hf
      · intro e he
        simp only [Option.some.injEq] at he
        subst he
        exact ⟨by simp only; omega, .inl (Nat.le_refl _)⟩
  | tick =>
    simp only [tstep] at h
    split at h
    · next e he =>
      split at h
      · next hle =>
        simp only [Option.map_eq_some_iff] at h
        obtain ⟨b, hb, rfl⟩ := h
        intro e' he'
        simp only [Option.some.injEq] at he'
        subst he'
        refine ⟨by simp only; omega, .inr (fun p hp => ?_)⟩
        simp only [tickStep] at hb
        split at hb
        · cases hb
        · split at hb <;> (simp only [Option.some.injEq] at hb; subst hb)
          · next hem => simp only [List.isEmpty_iff] at hem; rw [hem] at hp; cases hp
          · cases hp
      · cases h
    · cases h
  | sent t =>
    simp only [tstep] at h
    split at h
    · split at h
      · simp only [Option.some.injEq] at h; subst h
        intro e he; cases he
      · cases h
    · simp only [Option.map_eq_some_iff] at h
      obtain ⟨b, hb, rfl⟩ := h
      refine fresh_of w s _ hf rfl rfl (fun p hp => .inl ?_)
      simp only [sentStep] at hb
      split at hb
      · cases hb
      · split at hb
        · simp only [Option.some.injEq] at hb; subst hb; exact hp
        · cases hb
  | recv =>
    simp only [tstep] at h
    split at h
    · cases h
    · simp only [Option.map_eq_some_iff] at h
      obtain ⟨b, hb, rfl⟩ := h
      refine fresh_of w s _ hf rfl rfl (fun p hp => .inl ?_)
      simp only [recvStep] at hb
      split at hb
      · cases hb
      · simp only [Option.some.injEq] at hb; subst hb; exact hp
  | dropped id =>
    simp only [tstep, Option.map_eq_some_iff] at h
    obtain ⟨b, hb, rfl⟩ := h
    refine fresh_of w s _ hf rfl rfl (fun p hp => .inl ?_)
    simp only [droppedStep] at hb
    split at hb
    · simp only [Option.some.injEq] at hb; subst hb; exact hp
    · cases hb
  | pass d =>
    simp only [tstep] at h
    split at h
    · cases h
    · simp only [Option.some.injEq] at h; subst h
      intro e he
      obtain ⟨h1, h2⟩ := hf e he
      refine ⟨by simp only; omega, ?_⟩
      rcases h2 with h2 | h2
      · exact .inl (by simp only; omega)
      · exact .inr h2
  | release =>
    simp only [tstep] at h
    split at h
    · cases h
    · simp only [Option.some.injEq] at h; subst h
      exact fresh_of w s _ hf rfl rfl (fun p hp => .inl hp)

theorem fresh_run (c : Config) (w : Nat) (l : List (TOp α)) (s t : Timed α) (hf : Fresh w s) (h : trun c w s l = some t) :
    Fresh w t := by
  induction l generalizing s with
  | nil => simp only [trun, Option.some.injEq] at h; subst h; exact hf
  | cons op l ih =>
    simp only [trun] at h
    cases hs : tstep c w s op with
    | none => rw [hs] at h; cases h
    | some s' => rw [hs] at h; exact ih s' (fresh_step c w s s' op hf hs) h

/-- C212: in every execution, whenever time passes while the timer task runs and is not waiting for room in the channel, no
message in the buffer is older than `max_wait_time`, whenever the timer was started and however late it was before.

Partial: with `max_wait_time` zero there is no timer (`C212_zero`), and while the channel is full messages wait for any time
(`C212_blocked`). -/
theorem C212_age_partial (c : Config) (w : Nat) (l : List (TOp α)) (s t : Timed α) (d : Nat)
    (h : trun c w ({} : Timed α) l = some s) (hd : 0 < d) (ht : tstep c w s (.pass d) = some t)
    (hn : s.next.isSome = true) (hb : busy s.base .timer = false) :
    ∀ p ∈ t.base.pending, t.now ≤ p.1 + w := by
  obtain ⟨e, he⟩ := Option.isSome_iff_exists.mp hn
  obtain ⟨h1, h2⟩ := fresh_run c w l {} s (fun e he => by cases he) h e he
  simp only [tstep, ready, he, hb, Bool.false_eq_true, if_false, decide_eq_true_eq] at ht
  split at ht
  · cases ht
  · next hle =>
    simp only [Option.some.injEq] at ht; subst ht
    intro p hp
    have := h2.resolve_left (by omega) p hp
    simp only; omega

example : ∃ s t : Timed Nat, trun { maxBatch := 10 } 5 {} [.add 0 7, .pass 100, .start, .tick, .sent .timer, .pass 2, .add 0 8] =
    some s ∧ tstep { maxBatch := 10 } 5 s (.pass 3) = some t ∧ s.next.isSome = true ∧ busy s.base .timer = false ∧
    t.base.pending = [(102, 8)] ∧ t.now = 105 ∧ (tstep { maxBatch := 10 } 5 s (.pass 4)).isNone = true :=
  ⟨_, _, rfl, rfl, rfl, rfl, rfl, rfl, rfl⟩

/-- C212 fails: with `max_wait_time` zero the timer task never runs, whatever happens; messages wait until the batch is full,
for any time. -/
theorem C212_zero (c : Config) (l : List (TOp α)) (s : Timed α) (h : trun c 0 ({} : Timed α) l = some s) :
    s.next = none ∧ ∀ d, tstep c 0 s (.pass d) = some { s with now := s.now + d } := by
  have key : ∀ (l : List (TOp α)) (s t : Timed α), s.next = none → trun c 0 s l = some t → t.next = none := by
    intro l
    induction l with
    | nil => intro s t hn h; simp only [trun, Option.some.injEq] at h; subst h; exact hn
    | cons op l ih =>
      intro s t hn h
      simp only [trun] at h
      cases hs : tstep c 0 s op with
      | none => rw [hs] at h; cases h
      | some s' =>
        rw [hs] at h
        refine ih s' t ?_ h
        cases op with
        | tick => simp [tstep, hn] at hs
        | start =>
          simp only [tstep, if_true] at hs
          split at hs
          · cases hs
          · simp only [Option.some.injEq] at hs; subst hs; exact hn
        | sent t =>
          simp only [tstep] at hs
          split at hs
          · split at hs
            · simp only [Option.some.injEq] at hs; subst hs; rfl
            · cases hs
          · simp only [Option.map_eq_some_iff] at hs
            obtain ⟨b, hb, rfl⟩ := hs; exact hn
        | dropped id =>
          simp only [tstep, Option.map_eq_some_iff] at hs
          obtain ⟨b, hb, rfl⟩ := hs; exact hn
        | add id n =>
          simp only [tstep] at hs
          split at hs
          · cases hs
          · simp only [Option.map_eq_some_iff] at hs
            obtain ⟨b, hb, rfl⟩ := hs; exact hn
        | recv =>
          simp only [tstep] at hs
          split at hs
          · cases hs
          · simp only [Option.map_eq_some_iff] at hs
            obtain ⟨b, hb, rfl⟩ := hs; exact hn
        | pass d =>
          simp only [tstep] at hs
          split at hs
          · cases hs
          · simp only [Option.some.injEq] at hs; subst hs; exact hn
        | release =>
          simp only [tstep] at hs
          split at hs
          · cases hs
          · simp only [Option.some.injEq] at hs; subst hs; exact hn
  have hn := key l {} s rfl h
  exact ⟨hn, fun d => by simp [tstep, ready, hn]⟩

example : ∃ s : Timed Nat, trun { maxBatch := 10 } 0 {} [.start, .add 0 7, .pass 1000000] = some s ∧
    s.base.pending = [(0, 7)] ∧ s.now = 1000000 := ⟨_, rfl, rfl, rfl⟩

/-- C212 fails: while the timer task waits for room in the channel any time may pass, whatever is in the buffer. -/
theorem C212_blocked (c : Config) (w d : Nat) (s : Timed α) (hb : busy s.base .timer = true) (hg : s.gone = false)
    (hf : c.cap ≤ s.base.chan.length) : tstep c w s (.pass d) = some { s with now := s.now + d } := by
  have : ready c s d = false := by
    simp only [ready]
    split
    · rfl
    · simp [hb, hg]; omega
  simp [tstep, this]

example : (trun { maxBatch := 10 } 1 ({} : Timed Nat) ([.start] ++
      (List.replicate 101 [.add 0 7, .tick, .sent .timer, .pass 1]).flatten.dropLast.dropLast ++ [.add 0 9])).any (fun s =>
    busy s.base .timer && !s.gone && s.base.chan.length == 100 && s.base.pending == [(100, 9)]) = true := by
  decide +kernel

/-- The timer task of a dropped batcher with an empty buffer: nothing but time and its own rounds. -/
theorem gone_step (c : Config) (w : Nat) (s t : Timed α) (op : TOp α) (hg : s.gone = true) (hp : s.base.pending = [])
    (hi : s.base.inflight = []) (hn : s.next.isSome = true) (h : tstep c w s op = some t) :
    t.gone = true ∧ t.base.pending = [] ∧ t.base.inflight = [] ∧ t.next.isSome = true := by
  cases op with
  | add id n => simp [tstep, hg] at h
  | start => simp [tstep, hg] at h
  | recv => simp [tstep, hg] at h
  | release => simp [tstep, hg] at h
  | sent k => simp [tstep, hg, busy, hi] at h
  | dropped id => simp [tstep, droppedStep, busy, hi] at h
  | pass d =>
    simp only [tstep] at h
    split at h
    · cases h
    · simp only [Option.some.injEq] at h; subst h; exact ⟨hg, hp, hi, hn⟩
  | tick =>
    simp only [tstep] at h
    split at h
    · split at h
      · simp only [tickStep, busy, hi, hp, List.any_nil, Bool.false_eq_true, if_false, List.isEmpty_nil, if_true,
          Option.map_some, Option.some.injEq] at h
        subst h; exact ⟨hg, hp, hi, rfl⟩
      · cases h
    · cases h

/-- C212 fails: the timer task of a dropped batcher ends at some time exactly if at the drop something was in the buffer or on
its way; otherwise it wakes up every `max_wait_time` for ever. -/
theorem C212_ends_iff (c : Config) (w : Nat) (s t : Timed α) (hr : tstep c w s .release = some t) (hn : s.next.isSome = true) :
    (∃ l u, trun c w t l = some u ∧ u.next = none) ↔ (s.base.pending ≠ [] ∨ s.base.inflight ≠ []) := by
  simp only [tstep] at hr
  split at hr
  · cases hr
  · next hrel =>
    simp only [Option.some.injEq] at hr
    have hcall : ∀ p ∈ s.base.inflight, p.1 = .timer := by
      intro p hp
      simp only [Bool.or_eq_true, List.any_eq_true, not_or, not_exists, not_and, bne_iff_ne, ne_eq] at hrel
      have := hrel.2 p hp
      exact Classical.not_not.mp this
    obtain ⟨e, he⟩ := Option.isSome_iff_exists.mp hn
    by_cases hi : s.base.inflight = []
    · by_cases hp : s.base.pending = []
      · refine ⟨fun ⟨l, u, hl, hu⟩ => ?_, fun h => by simp [hp, hi] at h⟩
        have key : ∀ (l : List (TOp α)) (t : Timed α), t.gone = true → t.base.pending = [] → t.base.inflight = [] →
            t.next.isSome = true → trun c w t l = some u → u.next.isSome = true := by
          intro l
          induction l with
          | nil => intro t _ _ _ h4 h; simp only [trun, Option.some.injEq] at h; subst h; exact h4
          | cons op l ih =>
            intro t h1 h2 h3 h4 h
            simp only [trun] at h
            cases hs : tstep c w t op with
            | none => rw [hs] at h; cases h
            | some t' =>
              rw [hs] at h
              obtain ⟨g1, g2, g3, g4⟩ := gone_step c w t t' op h1 h2 h3 h4 hs
              exact ih t' g1 g2 g3 g4 h
        have := key l t (by rw [← hr]) (by rw [← hr]; exact hp) (by rw [← hr]; exact hi) (by rw [← hr]; exact hn) hl
        rw [hu] at this; cases this
      · refine ⟨fun _ => .inl hp, fun _ => ?_⟩
        have late : ∀ v : Timed α, v.gone = true → v.base.inflight = [] → v.base.pending ≠ [] → v.next = some e → e ≤ v.now →
            ∃ l u, trun c w v l = some u ∧ u.next = none := by
          intro v g1 g2 g3 g4 g5
          have g3' : v.base.pending.isEmpty = false := by
            cases hv : v.base.pending with
            | nil => exact absurd hv g3
            | cons _ _ => rfl
          refine ⟨[.tick, .sent .timer], { v with base := { v.base with pending := [], inflight := [] }, next := none }, ?_, rfl⟩
          simp [trun, tstep, g4, g5, tickStep, busy, g2, g3', g1, without]
        have hg : t.gone = true := by rw [← hr]
        have h1 : t.base.inflight = [] := by rw [← hr]; exact hi
        have h2 : t.base.pending ≠ [] := by rw [← hr]; exact hp
        have h3 : t.next = some e := by rw [← hr]; exact he
        by_cases hle : e ≤ t.now
        · exact late t hg h1 h2 h3 hle
        · obtain ⟨l, u, hl, hu⟩ := late { t with now := e } hg h1 h2 h3 (Nat.le_refl _)
          refine ⟨.pass (e - t.now) :: l, u, ?_, hu⟩
          have h4 : t.now + (e - t.now) = e := by omega
          have h5 : busy t.base .timer = false := by simp [busy, h1]
          simp only [trun, tstep, ready, h3, h5, Bool.false_eq_true, if_false, h4, Nat.lt_irrefl, decide_false]
          exact h3 ▸ hl
    · refine ⟨fun _ => .inr hi, fun _ => ?_⟩
      refine ⟨[.sent .timer], { t with base := { t.base with inflight := without t.base .timer }, next := none }, ?_, rfl⟩
      have hb : busy t.base .timer = true := by
        rw [← hr]
        obtain ⟨p, q, hpq⟩ := List.exists_cons_of_ne_nil hi
        simp [busy, hpq, hcall p (by rw [hpq]; exact List.mem_cons_self)]
      have hg : t.gone = true := by rw [← hr]
      simp [trun, tstep, hg, hb]

example : ∃ s t : Timed Nat, trun { maxBatch := 10 } 5 {} [.start, .tick, .add 0 7, .pass 5, .tick, .sent .timer, .recv] =
    some s ∧ tstep { maxBatch := 10 } 5 s .release = some t ∧ s.next.isSome = true ∧ s.base.pending = [] ∧
    s.base.inflight = [] := ⟨_, _, rfl, rfl, rfl, rfl, rfl⟩

/-! ### The same batcher, and how often its timer fires -/

/-- The steps of an execution without the clock, each message paired with the time at which it is added, beginning at `now`.
(Specification: no counterpart in the code.) -/
def untimed (now : Nat) : List (TOp α) → List (Op (Nat × α))
  | [] => []
  | .add id n :: l => .add id (now, n) :: untimed now l
  | .start :: l => untimed now l
  | .tick :: l => .tick :: untimed now l
  | .sent t :: l => .sent t :: untimed now l
  | .recv :: l => .recv :: untimed now l
  | .dropped id :: l => .dropped (.caller id) :: untimed now l
  | .pass d :: l => untimed (now + d) l
  | .release :: l => untimed now l

/-- C212: until it is dropped, the batcher with a clock does exactly what the batcher of C29 does with the same calls and
rounds, each message carrying the time of its `add`; so nothing is lost, duplicated or reordered by the timer. -/
theorem C212_same (c : Config) (w : Nat) (l : List (TOp α)) (t : Timed α) (h : trun c w ({} : Timed α) l = some t)
    (hr : ∀ op ∈ l, op ≠ .release) : run c {} (untimed 0 l) = some t.base := by
  have key : ∀ (l : List (TOp α)) (s : Timed α), s.gone = false → (∀ op ∈ l, op ≠ .release) → trun c w s l = some t →
      run c s.base (untimed s.now l) = some t.base := by
    intro l
    induction l with
    | nil => intro s _ _ h; simp only [trun, Option.some.injEq] at h; subst h; rfl
    | cons op l ih =>
      intro s hg hr h
      have hr' : ∀ op ∈ l, op ≠ .release := fun o ho => hr o (List.mem_cons_of_mem _ ho)
      simp only [trun] at h
      cases hs : tstep c w s op with
      | none => rw [hs] at h; cases h
      | some s' =>
        rw [hs] at h
        cases op with
        | add id n =>
          simp only [tstep, hg, Bool.false_eq_true, if_false, Option.map_eq_some_iff] at hs
          obtain ⟨b, hb, rfl⟩ := hs
          simp only [untimed, run, step, hb]
          have h9 := ih _ (by first | exact hg | rfl) hr' h
          exact h9
        | start =>
          simp only [tstep] at hs
          split at hs
          · cases hs
          · split at hs <;> (simp only [Option.some.injEq] at hs; subst hs; have h9 := ih _ (by first | exact hg | rfl) hr' h; exact h9)
        | tick =>
          simp only [tstep] at hs
          split at hs
          · split at hs
            · simp only [Option.map_eq_some_iff] at hs
              obtain ⟨b, hb, rfl⟩ := hs
              simp only [untimed, run, step, hb]
              have h9 := ih _ (by first | exact hg | rfl) hr' h
              exact h9
            · cases hs
          · cases hs
        | sent k =>
          simp only [tstep, hg, Bool.false_eq_true, if_false, Option.map_eq_some_iff] at hs
          obtain ⟨b, hb, rfl⟩ := hs
          simp only [untimed, run, step, hb]
          have h9 := ih _ (by first | exact hg | rfl) hr' h
          exact h9
        | recv =>
          simp only [tstep, hg, Bool.false_eq_true, if_false, Option.map_eq_some_iff] at hs
          obtain ⟨b, hb, rfl⟩ := hs
          simp only [untimed, run, step, hb]
          have h9 := ih _ (by first | exact hg | rfl) hr' h
          exact h9
        | dropped id =>
          simp only [tstep, Option.map_eq_some_iff] at hs
          obtain ⟨b, hb, rfl⟩ := hs
          simp only [untimed, run, step, hb]
          have h9 := ih _ (by first | exact hg | rfl) hr' h
          exact h9
        | pass d =>
          simp only [tstep] at hs
          split at hs
          · cases hs
          · simp only [Option.some.injEq] at hs; subst hs
            have h9 := ih _ (by first | exact hg | rfl) hr' h
            exact h9
        | release => exact absurd rfl (hr _ List.mem_cons_self)
  exact key l {} rfl hr h

example : ∃ s : Timed Nat, trun { maxBatch := 10 } 5 {} [.start, .tick, .pass 2, .add 0 7, .pass 3, .tick, .sent .timer, .recv] =
    some s ∧ s.base.received = [[(2, 7)]] := ⟨_, rfl, rfl⟩

/-- Rounds of the timer task. (Specification: no counterpart in the code.) -/
def rounds : List (TOp α) → Nat
  | [] => 0
  | .tick :: l => rounds l + 1
  | _ :: l => rounds l

theorem rounds_snoc (l : List (TOp α)) (op : TOp α) : rounds (l ++ [op]) = rounds l + rounds [op] := by
  induction l with
  | nil => simp [rounds]
  | cons o l ih => cases o <;> simp only [List.cons_append, rounds, ih] <;> omega

/-- C212: the timer started at some time has its deadlines exactly `max_wait_time` apart from then on: after `n` rounds the
next is due `n` times `max_wait_time` after the start, and no round comes before its deadline. -/
theorem C212_rounds (c : Config) (w : Nat) (hw : 0 < w) (s s' t : Timed α) (l : List (TOp α))
    (hs : tstep c w s .start = some s') (h : trun c w s' l = some t) :
    (∀ e, t.next = some e → e = s.now + w * rounds l) ∧ s.now + w * rounds l ≤ t.now + w ∧
      (t.next = none → t.gone = true) := by
  have hs' : s'.now = s.now ∧ s'.next = some s.now := by
    simp only [tstep] at hs
    split at hs
    · cases hs
    · rw [if_neg (by omega)] at hs
      simp only [Option.some.injEq] at hs; subst hs; exact ⟨rfl, rfl⟩
  induction l using snocInduction generalizing t with
  | nil =>
    simp only [trun, Option.some.injEq] at h; subst h
    refine ⟨fun e he => ?_, by simp only [rounds]; omega, fun hn => ?_⟩
    · rw [hs'.2] at he; simp only [Option.some.injEq] at he; simp [rounds, he]
    · rw [hs'.2] at hn; cases hn
  | append_singleton l op ih =>
    rw [trun_append] at h
    cases hu : trun c w s' l with
    | none => rw [hu] at h; cases h
    | some u =>
      rw [hu] at h
      have h2 : tstep c w u op = some t := by
        simp only [Option.bind_some, trun] at h
        cases hq : tstep c w u op with
        | none => rw [hq] at h; cases h
        | some v => rw [hq] at h; exact h
      obtain ⟨i1, i2, i3⟩ := ih u hu
      rw [rounds_snoc]
      have same : t.next = u.next → u.now ≤ t.now → (t.gone = u.gone ∨ t.gone = true) → rounds [op] = 0 →
          (∀ e, t.next = some e → e = s.now + w * (rounds l + rounds [op])) ∧
          s.now + w * (rounds l + rounds [op]) ≤ t.now + w ∧ (t.next = none → t.gone = true) := by
        intro a1 a2 a3 a4
        rw [a4, a1]
        refine ⟨by simpa using i1, by simp only [Nat.add_zero]; omega, fun hn => ?_⟩
        rcases a3 with a3 | a3
        · rw [a3]; exact i3 hn
        · exact a3
      cases op with
      | add id n =>
        simp only [tstep] at h2
        split at h2
        · cases h2
        · simp only [Option.map_eq_some_iff] at h2
          obtain ⟨b, hb, rfl⟩ := h2; exact same rfl (Nat.le_refl _) (.inl rfl) rfl
      | start =>
        simp only [tstep] at h2
        split at h2
        · cases h2
        · next hc =>
          simp only [Bool.or_eq_true, not_or, Bool.not_eq_true] at hc
          have hn : u.next = none := by
            cases hu2 : u.next with
            | none => rfl
            | some e => rw [hu2] at hc; cases hc.2
          have := i3 hn
          rw [hc.1] at this; cases this
      | tick =>
        simp only [tstep] at h2
        split at h2
        · next e he =>
          split at h2
          · next hle =>
            simp only [Option.map_eq_some_iff] at h2
            obtain ⟨b, hb, rfl⟩ := h2
            have he' := i1 e he
            have hm : w * (rounds l + rounds [TOp.tick (α := α)]) = w * rounds l + w := by
              simp [rounds, Nat.mul_add]
            rw [hm]
            refine ⟨fun e2 h3 => ?_, by simp only; omega, fun hn => by cases hn⟩
            simp only [Option.some.injEq] at h3
            omega
          · cases h2
        · cases h2
      | sent k =>
        simp only [tstep] at h2
        split at h2
        · next hg =>
          split at h2
          · simp only [Option.some.injEq] at h2; subst h2
            refine ⟨fun e he => (by cases he), by simp only [rounds, Nat.add_zero]; omega, fun _ => hg⟩
          · cases h2
        · simp only [Option.map_eq_some_iff] at h2
          obtain ⟨b, hb, rfl⟩ := h2; exact same rfl (Nat.le_refl _) (.inl rfl) rfl
      | recv =>
        simp only [tstep] at h2
        split at h2
        · cases h2
        · simp only [Option.map_eq_some_iff] at h2
          obtain ⟨b, hb, rfl⟩ := h2; exact same rfl (Nat.le_refl _) (.inl rfl) rfl
      | dropped id =>
        simp only [tstep, Option.map_eq_some_iff] at h2
        obtain ⟨b, hb, rfl⟩ := h2; exact same rfl (Nat.le_refl _) (.inl rfl) rfl
      | pass d =>
        simp only [tstep] at h2
        split at h2
        · cases h2
        · simp only [Option.some.injEq] at h2; subst h2
          exact same rfl (Nat.le_add_right _ _) (.inl rfl) rfl
      | release =>
        simp only [tstep] at h2
        split at h2
        · cases h2
        · simp only [Option.some.injEq] at h2; subst h2
          exact same rfl (Nat.le_refl _) (.inr rfl) rfl

example : ∃ s s' t : Timed Nat, trun { maxBatch := 10 } 5 {} [.pass 3] = some s ∧ tstep { maxBatch := 10 } 5 s .start = some s' ∧
    trun { maxBatch := 10 } 5 s' [.tick, .pass 5, .tick] = some t ∧ t.next = some 13 ∧ s.now = 3 :=
  ⟨_, _, _, rfl, rfl, rfl, rfl, rfl⟩

end Verif.Batcher
