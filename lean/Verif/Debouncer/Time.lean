import Verif.Debouncer.Lemmas
import Verif.Common.ListExtra

/-
When `MessageDebouncer` emits a notification: C213.

Models /repo/src/utils/batching.rs L216-242, L326-382, L452-463 with time, on top of the steps of `Model.lean`. Time passes only
when no call and no task can go on at once: no `add` and no `flush` is between two sections, no aborted task is still there, no
sleeping task is due, no task can send, none has its handle to remove.
-/

namespace Verif.Debouncer

variable {K N : Type} [DecidableEq K] [DecidableEq N]

/-- `DebouncingConfig`, /repo/src/utils/batching.rs L216-223. -/
structure Waits (K : Type) where
  wait : Nat
  methods : AMap K Nat := []

/-- The wait time of a key, /repo/src/utils/batching.rs L329-334. -/
def Waits.of (c : Waits K) (k : K) : Nat := (AMap.get c.methods k).getD c.wait

/-- The debouncer at a time; `due` is when the sleep of a task ends (L358), `last` when a key was last added (a record for the
statements only). /repo/src/utils/batching.rs L235-242, L357-358. -/
structure Timed (K N : Type) where
  base : State K N := {}
  now : Nat := 0
  due : Nat → Nat := fun _ => 0
  last : K → Nat := fun _ => 0

/-- A step of the debouncer, or time passes. /repo/src/utils/batching.rs L326-463. -/
inductive TOp (K N : Type) where
  | op (o : Op K N)
  | pass (d : Nat)

/-- Nothing can happen before `d` more time has passed. /repo/src/utils/batching.rs L326-463. -/
def still (s : Timed K N) (d : Nat) : Bool :=
  s.base.adders.isEmpty && s.base.flushing == 0 && s.base.tasks.all (fun x =>
    !(x.aborted && suspended s.base x) &&
    match x.phase with
    | .sleeping => decide (s.now + d ≤ s.due x.id)
    | .sending _ => decide (cap ≤ s.base.chan.length)
    | .cleaning => false)

/-- One step: a task sleeps for the wait time of its key from its start (L357-358). /repo/src/utils/batching.rs L326-463. -/
def tstep (c : Waits K) (s : Timed K N) : TOp K N → Option (Timed K N)
  | .op (.insert a k n) => (step s.base (.insert a k n)).map
    (fun b => { s with base := b, last := fun k' => if k' = k then s.now else s.last k' })
  | .op (.spawn a) => match adder s.base a with
    | some x => (step s.base (.spawn a)).map
      (fun b => { s with base := b, due := fun t => if t = s.base.next then s.now + c.of x.key else s.due t })
    | none => none
  | .op (.wake t k) => if s.due t ≤ s.now then (step s.base (.wake t k)).map (fun b => { s with base := b }) else none
  | .op o => (step s.base o).map (fun b => { s with base := b })
  | .pass d => if still s d then some { s with now := s.now + d } else none

/-- An execution. (Any interleaving of the sections of /repo/src/utils/batching.rs L326-463.) -/
def trun (c : Waits K) (s : Timed K N) : List (TOp K N) → Option (Timed K N)
  | [] => some s
  | o :: rest => match tstep c s o with
    | none => none
    | some s' => trun c s' rest

theorem trun_snoc (c : Waits K) (l : List (TOp K N)) (o : TOp K N) (s t : Timed K N) (h : trun c s (l ++ [o]) = some t) :
    ∃ u, trun c s l = some u ∧ tstep c u o = some t := by
  induction l generalizing s with
  | nil =>
    simp only [List.nil_append, trun] at h
    cases hs : tstep c s o with
    | none => rw [hs] at h; cases h
    | some s' => rw [hs] at h; exact ⟨s, rfl, h ▸ hs⟩
  | cons o' l ih =>
    simp only [List.cons_append, trun] at h ⊢
    cases hs : tstep c s o' with
    | none => rw [hs] at h; cases h
    | some s' => rw [hs] at h; exact ih s' h

/-- With the clock removed. -/
theorem tstep_op (c : Waits K) (s t : Timed K N) (o : Op K N) (h : tstep c s (.op o) = some t) :
    step s.base o = some t.base ∧ t.now = s.now := by
  cases o with
  | insert a k n =>
    simp only [tstep, Option.map_eq_some_iff] at h
    obtain ⟨b, hb, rfl⟩ := h; exact ⟨hb, rfl⟩
  | spawn a =>
    simp only [tstep] at h
    split at h
    · simp only [Option.map_eq_some_iff] at h
      obtain ⟨b, hb, rfl⟩ := h; exact ⟨hb, rfl⟩
    · cases h
  | wake k n =>
    simp only [tstep] at h
    split at h
    · simp only [Option.map_eq_some_iff] at h
      obtain ⟨b, hb, rfl⟩ := h; exact ⟨hb, rfl⟩
    · cases h
  | _ =>
    simp only [tstep, Option.map_eq_some_iff] at h
    obtain ⟨b, hb, rfl⟩ := h; exact ⟨hb, rfl⟩

theorem task_iff {s : State K N} (hI : Inv s) {t : Nat} {x : Task K N} (h : task s t = some x) :
    x ∈ s.tasks ∧ x.id = t ∧ ∀ y ∈ s.tasks, y.id = t → y = x := by
  obtain ⟨l1, l2, e1, e2, -, -⟩ := task_split hI.tnodup h
  refine ⟨by rw [e1]; simp, e2, fun y hy e => ?_⟩
  have hn := hI.tnodup
  rw [e1] at hn hy
  simp only [List.map_append, List.map_cons, List.nodup_append, List.nodup_cons] at hn
  simp only [List.mem_append, List.mem_cons] at hy
  rcases hy with hy | hy | hy
  · exact absurd (e.trans e2.symm) (hn.2.2 y.id (List.mem_map.mpr ⟨y, hy, rfl⟩) x.id (by simp))
  · exact hy
  · exact absurd (List.mem_map.mpr ⟨y, hy, e.trans e2.symm⟩) hn.2.1.1

theorem adder_iff {s : State K N} (hI : Inv s) {a : Nat} {x : Adder K} (h : adder s a = some x) :
    x ∈ s.adders ∧ x.id = a ∧ ∀ y ∈ s.adders, y.id = a → y = x := by
  obtain ⟨l1, l2, e1, e2, -, -⟩ := adder_split hI.anodup h
  refine ⟨by rw [e1]; simp, e2, fun y hy e => ?_⟩
  have hn := hI.anodup
  rw [e1] at hn hy
  simp only [List.map_append, List.map_cons, List.nodup_append, List.nodup_cons] at hn
  simp only [List.mem_append, List.mem_cons] at hy
  rcases hy with hy | hy | hy
  · exact absurd (e.trans e2.symm) (hn.2.2 y.id (List.mem_map.mpr ⟨y, hy, rfl⟩) x.id (by simp))
  · exact hy
  · exact absurd (List.mem_map.mpr ⟨y, hy, e.trans e2.symm⟩) hn.2.1.1

theorem mem_setAdder {s : State K N} {a : Nat} {p : AddPhase} {x : Adder K} :
    x ∈ setAdder s a p ↔ ∃ y ∈ s.adders, x = if y.id = a then { y with phase := p } else y := by
  unfold setAdder
  rw [List.mem_map]
  exact ⟨fun ⟨y, hy, e⟩ => ⟨y, hy, e.symm⟩, fun ⟨y, hy, e⟩ => ⟨y, hy, e.symm⟩⟩

theorem mem_setTask {s : State K N} {t : Nat} {p : Phase N} {x : Task K N} :
    x ∈ setTask s t p ↔ ∃ y ∈ s.tasks, x = if y.id = t then { y with phase := p } else y := by
  unfold setTask
  rw [List.mem_map]
  exact ⟨fun ⟨y, hy, e⟩ => ⟨y, hy, e.symm⟩, fun ⟨y, hy, e⟩ => ⟨y, hy, e.symm⟩⟩

theorem mem_endTask {s : State K N} {t : Nat} {x : Task K N} : x ∈ endTask s t ↔ x ∈ s.tasks ∧ x.id ≠ t := by
  simp [endTask]

theorem mem_abortAll_iff {l : List (Task K N)} {ids : List Nat} {x : Task K N} :
    x ∈ abortAll l ids ↔ ∃ y ∈ l, x = if y.id ∈ ids then { y with aborted := true } else y := by
  unfold abortAll
  rw [List.mem_map]
  exact ⟨fun ⟨y, hy, e⟩ => ⟨y, hy, e.symm⟩, fun ⟨y, hy, e⟩ => ⟨y, hy, e.symm⟩⟩

/-! ### Not late -/

/-- The clock facts that hold in every execution. (Specification: no counterpart in the code.) -/
structure Clock (c : Waits K) (s : Timed K N) : Prop where
  inv : Inv s.base
  past : ∀ k, s.last k ≤ s.now
  adding : ∀ a ∈ s.base.adders, s.last a.key = s.now
  due : ∀ x ∈ s.base.tasks, s.due x.id ≤ s.last x.key + c.of x.key
  pending : ∀ k n, AMap.get s.base.pending k = some n → s.now ≤ s.last k + c.of k

theorem clock_init (c : Waits K) : Clock c ({} : Timed K N) :=
  ⟨inv_init, by simp, by simp, by simp, by simp⟩

/-- What the steps other than `insert` and `spawn` keep. -/
theorem step_keeps (s t : State K N) (hI : Inv s) (o : Op K N) (h : step s o = some t) (h1 : ∀ a k n, o ≠ .insert a k n)
    (h2 : ∀ a, o ≠ .spawn a) :
    (∀ a ∈ t.adders, ∃ b ∈ s.adders, b.key = a.key) ∧ (∀ x ∈ t.tasks, ∃ y ∈ s.tasks, y.id = x.id ∧ y.key = x.key) ∧
    (∀ k n, AMap.get t.pending k = some n → AMap.get s.pending k = some n) := by
  have self : ∀ l : List (Adder K), ∀ a ∈ l, ∃ b ∈ l, b.key = a.key := fun l a ha => ⟨a, ha, rfl⟩
  have selft : ∀ l : List (Task K N), ∀ a ∈ l, ∃ b ∈ l, b.id = a.id ∧ b.key = a.key := fun l a ha => ⟨a, ha, rfl, rfl⟩
  have set : ∀ a p, ∀ x ∈ setAdder s a p, ∃ b ∈ s.adders, b.key = x.key := by
    intro a p x hx
    obtain ⟨y, hy, rfl⟩ := mem_setAdder.mp hx
    refine ⟨y, hy, ?_⟩; split <;> rfl
  have sett : ∀ a p, ∀ x ∈ setTask s a p, ∃ b ∈ s.tasks, b.id = x.id ∧ b.key = x.key := by
    intro a p x hx
    obtain ⟨y, hy, rfl⟩ := mem_setTask.mp hx
    refine ⟨y, hy, ?_⟩; split <;> exact ⟨rfl, rfl⟩
  have ab : ∀ ids, ∀ x ∈ abortAll s.tasks ids, ∃ b ∈ s.tasks, b.id = x.id ∧ b.key = x.key := by
    intro ids x hx
    obtain ⟨y, hy, e1, e2, -⟩ := mem_abortAll hx
    exact ⟨y, hy, e1, e2⟩
  have en : ∀ a, ∀ x ∈ endTask s a, ∃ b ∈ s.tasks, b.id = x.id ∧ b.key = x.key := by
    intro a x hx
    exact ⟨x, (mem_endTask.mp hx).1, rfl, rfl⟩
  cases o with
  | insert a k n => exact absurd rfl (h1 a k n)
  | spawn a => exact absurd rfl (h2 a)
  | cancel a =>
    simp only [step] at h
    split at h
    · split at h <;> (simp only [Option.some.injEq] at h; subst h)
      · exact ⟨set _ _, selft _, fun _ _ h => h⟩
      · exact ⟨set _ _, ab _, fun _ _ h => h⟩
    · cases h
  | store a =>
    simp only [step] at h
    split at h
    · simp only [Option.some.injEq] at h; subst h
      exact ⟨fun x hx => ⟨x, (List.mem_filter.mp hx).1, rfl⟩, selft _, fun _ _ h => h⟩
    · cases h
  | wake t k =>
    simp only [step] at h
    split at h
    · split at h
      · split at h <;> (simp only [Option.some.injEq] at h; subst h)
        · refine ⟨self _, sett _ _, fun k' n h => ?_⟩
          simp only [AMap.get_remove] at h
          split at h
          · cases h
          · exact h
        · exact ⟨self _, sett _ _, fun _ _ h => h⟩
      · cases h
    · cases h
  | sent t =>
    simp only [step] at h
    split at h
    · split at h
      · simp only [Option.some.injEq] at h; subst h
        exact ⟨self _, sett _ _, fun _ _ h => h⟩
      · cases h
    · cases h
  | clean t =>
    simp only [step] at h
    split at h
    · simp only [Option.some.injEq] at h; subst h
      exact ⟨self _, en _, fun _ _ h => h⟩
    · cases h
  | die t =>
    simp only [step] at h
    split at h
    · split at h
      · simp only [Option.some.injEq] at h; subst h
        exact ⟨self _, en _, fun _ _ h => h⟩
      · cases h
    · cases h
  | recv =>
    simp only [step] at h
    split at h
    · cases h
    · simp only [Option.some.injEq] at h; subst h
      exact ⟨self _, selft _, fun _ _ h => h⟩
  | flushTimers =>
    simp only [step, Option.some.injEq] at h; subst h
    exact ⟨self _, ab _, fun _ _ h => h⟩
  | flushPending =>
    simp only [step] at h
    split at h
    · cases h
    · simp only [Option.some.injEq] at h; subst h
      exact ⟨self _, selft _, fun _ _ h => by cases h⟩

theorem tstep_other (c : Waits K) (s t : Timed K N) (o : Op K N) (h : tstep c s (.op o) = some t)
    (h1 : ∀ a k n, o ≠ .insert a k n) (h2 : ∀ a, o ≠ .spawn a) : t = { s with base := t.base } := by
  cases o with
  | insert a k n => exact absurd rfl (h1 a k n)
  | spawn a => exact absurd rfl (h2 a)
  | wake k n =>
    simp only [tstep] at h
    split at h
    · simp only [Option.map_eq_some_iff] at h
      obtain ⟨b, hb, rfl⟩ := h; rfl
    · cases h
  | _ =>
    simp only [tstep, Option.map_eq_some_iff] at h
    obtain ⟨b, hb, rfl⟩ := h; rfl

theorem clock_step (c : Waits K) (s t : Timed K N) (o : TOp K N) (hc : Clock c s) (h : tstep c s o = some t) : Clock c t := by
  cases o with
  | pass d =>
    simp only [tstep] at h
    split at h
    · next hs =>
      simp only [Option.some.injEq] at h; subst h
      simp only [still, Bool.and_eq_true, List.isEmpty_iff, beq_iff_eq, List.all_eq_true] at hs
      obtain ⟨⟨ha, hf⟩, ht⟩ := hs
      refine ⟨hc.inv, fun k => Nat.le_trans (hc.past k) (Nat.le_add_right _ _), fun a hm => ?_, hc.due, fun k n hp => ?_⟩
      · simp only [ha] at hm; cases hm
      · rcases hc.inv.live k n hp with ⟨a, hm, -⟩ | ⟨x, hx, rfl, hsl, -⟩ | hpos
        · rw [ha] at hm; cases hm
        · have := (ht x hx).2
          rw [hsl] at this
          simp only [decide_eq_true_eq] at this
          have := hc.due x hx
          simp only; omega
        · omega
    · cases h
  | op o =>
    obtain ⟨hb, hnow⟩ := tstep_op c s t o h
    have hI := inv_step o hc.inv hb
    by_cases h1 : ∃ a k n, o = .insert a k n
    · obtain ⟨a, k, n, rfl⟩ := h1
      simp only [tstep, Option.map_eq_some_iff] at h
      obtain ⟨b, hb', rfl⟩ := h
      simp only [step] at hb'
      split at hb'
      · cases hb'
      simp only [Option.some.injEq] at hb'
      subst hb'
      refine ⟨hI, fun k' => ?_, fun x hx => ?_, fun x hx => ?_, fun k' n' hp => ?_⟩
      · simp only; split
        · exact Nat.le_refl _
        · exact hc.past k'
      · simp only [List.mem_append, List.mem_singleton] at hx ⊢
        split
        · rfl
        · next hne =>
          rcases hx with hx | rfl
          · exact hc.adding x hx
          · exact absurd rfl hne
      · have := hc.due x hx
        have hp := hc.past x.key
        simp only
        split
        · omega
        · exact this
      · simp only [AMap.get_insert] at hp ⊢
        split
        · exact Nat.le_add_right _ _
        · next hne => rw [if_neg hne] at hp; exact hc.pending k' n' hp
    · by_cases h2 : ∃ a, o = .spawn a
      · obtain ⟨a, rfl⟩ := h2
        simp only [tstep] at h
        split at h
        · next x hx =>
          simp only [Option.map_eq_some_iff] at h
          obtain ⟨b, hb', rfl⟩ := h
          obtain ⟨m1, m2, m3⟩ := adder_iff hc.inv hx
          simp only [step, hx] at hb'
          split at hb'
          · next i k hx' =>
            simp only [Option.some.injEq] at hx' hb'
            subst hx'; subst hb'
            refine ⟨hI, hc.past, fun y hy => ?_, fun y hy => ?_, hc.pending⟩
            · obtain ⟨z, hz, rfl⟩ := mem_setAdder.mp hy
              simp only
              split
              · exact hc.adding z hz
              · exact hc.adding z hz
            · simp only [List.mem_append, List.mem_singleton] at hy
              rcases hy with hy | rfl
              · have := hc.inv.tlt y hy
                simp only
                rw [if_neg (by omega)]
                exact hc.due y hy
              · simp only [if_true]
                have := hc.adding _ m1
                simp only at this
                omega
          · cases hb'
        · cases h
      · have h1' : ∀ a k n, o ≠ .insert a k n := fun a k n e => h1 ⟨a, k, n, e⟩
        have h2' : ∀ a, o ≠ .spawn a := fun a e => h2 ⟨a, e⟩
        obtain ⟨k1, k2, k3⟩ := step_keeps s.base t.base hc.inv o hb h1' h2'
        have e := tstep_other c s t o h h1' h2'
        generalize t.base = b at e hI k1 k2 k3
        subst e
        refine ⟨hI, hc.past, fun a ha => ?_, fun x hx => ?_, fun k n hp => hc.pending k n (k3 k n hp)⟩
        · obtain ⟨y, hy, e⟩ := k1 a ha
          have := hc.adding y hy
          rwa [e] at this
        · obtain ⟨y, hy, e1, e2⟩ := k2 x hx
          have := hc.due y hy
          rwa [e1, e2] at this

theorem clock_run (c : Waits K) (l : List (TOp K N)) (t : Timed K N) (h : trun c {} l = some t) : Clock c t := by
  induction l using snocInduction generalizing t with
  | nil => simp only [trun, Option.some.injEq] at h; subst h; exact clock_init c
  | append_singleton l o ih =>
    obtain ⟨u, h1, h2⟩ := trun_snoc c l o _ _ h
    exact clock_step c u t o (ih u h1) h2

/-- C213: in every execution, whatever interleaves, a notification never waits longer than the wait time of its key after the
last `add` for the key. -/
theorem C213_not_late (c : Waits K) (l : List (TOp K N)) (t : Timed K N) (h : trun c {} l = some t) (k : K) (n : N)
    (hp : AMap.get t.base.pending k = some n) : t.now ≤ t.last k + c.of k := (clock_run c l t h).pending k n hp

/-! ### Not early -/

/-- No `add` for the key is running, and its tasks all sleep and are not due: nothing else happens with the key at this
moment. (Specification: no counterpart in the code.) -/
def Calm (s : Timed K N) (k : K) : Prop :=
  (∀ a ∈ s.base.adders, a.key ≠ k) ∧ ∀ x ∈ s.base.tasks, x.key = k → x.phase = .sleeping ∧ s.now < s.due x.id

/-- Every `add` of the execution begins when nothing else happens with its key. (Specification: no counterpart in the
code.) -/
def CalmRun (c : Waits K) (s : Timed K N) : List (TOp K N) → Prop
  | [] => True
  | o :: rest => (∀ a k n, o = .op (.insert a k n) → Calm s k) ∧ ∀ s', tstep c s o = some s' → CalmRun c s' rest

/-- Which tasks can be there. (Specification: no counterpart in the code.) -/
structure Track (c : Waits K) (s : Timed K N) : Prop where
  one : ∀ a ∈ s.base.adders, ∀ b ∈ s.base.adders, a.key = b.key → a = b
  early : ∀ x ∈ s.base.tasks, x.phase = .sleeping → s.last x.key + c.of x.key ≤ s.due x.id ∨
    (s.now < s.due x.id ∧ (x.aborted = true ∨ ∃ a ∈ s.base.adders, a.key = x.key ∧ a.phase = .inserted))
  known : ∀ x ∈ s.base.tasks, x.phase = .sleeping → x.aborted = false →
    AMap.get s.base.timers x.key = some x.id ∨ ∃ a ∈ s.base.adders, a.key = x.key ∧ a.phase = .spawned x.id
  sole : ∀ y ∈ s.base.tasks, y.phase = .sleeping → y.aborted = false → ∀ x ∈ s.base.tasks, x.key = y.key → x.id ≠ y.id →
    x.aborted = true ∧ x.phase = .sleeping ∧ s.now < s.due x.id
  inserted : ∀ a ∈ s.base.adders, a.phase = .inserted → ∀ x ∈ s.base.tasks, x.key = a.key →
    x.phase = .sleeping ∧ s.now < s.due x.id ∧ (x.aborted = true ∨ AMap.get s.base.timers x.key = some x.id)
  cancelled : ∀ a ∈ s.base.adders, a.phase = .cancelled → ∀ x ∈ s.base.tasks, x.key = a.key →
    x.phase = .sleeping ∧ s.now < s.due x.id ∧ x.aborted = true
  spawned : ∀ a ∈ s.base.adders, ∀ t, a.phase = .spawned t → ∀ x ∈ s.base.tasks, x.key = a.key → x.id ≠ t → x.aborted = true

theorem track_init (c : Waits K) : Track c ({} : Timed K N) := by
  constructor <;> simp

/-- Steps that only remove tasks, and change nothing else that matters here. -/
theorem track_sub (c : Waits K) (s t : Timed K N) (hT : Track c s) (h1 : t.now = s.now) (h2 : t.due = s.due) (h3 : t.last = s.last)
    (h4 : t.base.adders = s.base.adders) (h5 : ∀ x ∈ t.base.tasks, x ∈ s.base.tasks)
    (h6 : ∀ k, (∃ x ∈ t.base.tasks, x.key = k ∧ (x.aborted = false ∧ x.phase = .sleeping ∨
        ∃ a ∈ s.base.adders, a.key = k ∧ a.phase = .inserted)) → AMap.get t.base.timers k = AMap.get s.base.timers k) :
    Track c t := by
  constructor
  · rw [h4]; exact hT.one
  · intro x hx; rw [h1, h2, h3, h4]; exact hT.early x (h5 x hx)
  · intro x hx hs ha
    rw [h4, h6 x.key ⟨x, hx, rfl, .inl ⟨ha, hs⟩⟩]; exact hT.known x (h5 x hx) hs ha
  · intro y hy hs ha x hx; rw [h1, h2]; exact hT.sole y (h5 y hy) hs ha x (h5 x hx)
  · intro a ha hp x hx hk
    rw [h4] at ha
    rw [h1, h2, h6 x.key ⟨x, hx, rfl, .inr ⟨a, ha, hk.symm, hp⟩⟩]; exact hT.inserted a ha hp x (h5 x hx) hk
  · intro a ha hp x hx; rw [h4] at ha; rw [h1, h2]; exact hT.cancelled a ha hp x (h5 x hx)
  · intro a ha t' hp x hx; rw [h4] at ha; exact hT.spawned a ha t' hp x (h5 x hx)

theorem track_insert (c : Waits K) (s t : Timed K N) (a : Nat) (k : K) (n : N) (hT : Track c s) (hcalm : Calm s k)
    (h : tstep c s (.op (.insert a k n)) = some t) : Track c t := by
  simp only [tstep, Option.map_eq_some_iff] at h
  obtain ⟨b, hb, rfl⟩ := h
  simp only [step] at hb
  split at hb
  · cases hb
  simp only [Option.some.injEq] at hb
  subst hb
  obtain ⟨q1, q2⟩ := hcalm
  constructor
  · intro x hx y hy e
    simp only [List.mem_append, List.mem_singleton] at hx hy
    rcases hx with hx | rfl <;> rcases hy with hy | rfl
    · exact hT.one x hx y hy e
    · exact absurd e (q1 x hx)
    · exact absurd e.symm (q1 y hy)
    · rfl
  · intro x hx hs
    simp only
    by_cases e : x.key = k
    · exact .inr ⟨(q2 x hx e).2, .inr ⟨⟨a, k, .inserted⟩, by simp, e.symm, rfl⟩⟩
    · rw [if_neg e]
      rcases hT.early x hx hs with h | ⟨h, h' | ⟨z, hz, h'⟩⟩
      · exact .inl h
      · exact .inr ⟨h, .inl h'⟩
      · exact .inr ⟨h, .inr ⟨z, List.mem_append_left _ hz, h'⟩⟩
  · intro x hx hs ha
    rcases hT.known x hx hs ha with h | ⟨z, hz, h⟩
    · exact .inl h
    · exact .inr ⟨z, List.mem_append_left _ hz, h⟩
  · exact hT.sole
  · intro y hy hp x hx hk
    simp only [List.mem_append, List.mem_singleton] at hy
    rcases hy with hy | rfl
    · exact hT.inserted y hy hp x hx hk
    · obtain ⟨r1, r2⟩ := q2 x hx hk
      refine ⟨r1, r2, ?_⟩
      cases ha : x.aborted with
      | true => exact .inl rfl
      | false =>
        rcases hT.known x hx r1 ha with h | ⟨z, hz, h, -⟩
        · exact .inr h
        · exact absurd (h.trans hk) (q1 z hz)
  · intro y hy hp x hx hk
    simp only [List.mem_append, List.mem_singleton] at hy
    rcases hy with hy | rfl
    · exact hT.cancelled y hy hp x hx hk
    · cases hp
  · intro y hy t hp x hx hk
    simp only [List.mem_append, List.mem_singleton] at hy
    rcases hy with hy | rfl
    · exact hT.spawned y hy t hp x hx hk
    · cases hp

theorem track_cancel (c : Waits K) (s t : Timed K N) (a : Nat) (hI : Inv s.base) (hT : Track c s)
    (h : tstep c s (.op (.cancel a)) = some t) : Track c t := by
  obtain ⟨hb, -⟩ := tstep_op c s t _ h
  have e := tstep_other c s t _ h (by simp) (by simp)
  generalize t.base = b at e hb
  subst e
  simp only [step] at hb
  split at hb
  next i k ha =>
    obtain ⟨m1, m2, m3⟩ := adder_iff hI ha
    simp only at m2
    subst m2
    -- both cases of the code at once
    have hcase : b.adders = setAdder s.base i .cancelled ∧
        (∀ x ∈ b.tasks, ∃ y ∈ s.base.tasks, y.id = x.id ∧ y.key = x.key ∧ y.phase = x.phase ∧
          (x.aborted = false → y.aborted = false ∧ AMap.get s.base.timers k ≠ some y.id) ∧
          (y.aborted = true → x.aborted = true)) ∧
        (∀ k', k' ≠ k → AMap.get b.timers k' = AMap.get s.base.timers k') := by
      split at hb <;> (simp only [Option.some.injEq] at hb; subst hb)
      · next hn =>
        refine ⟨rfl, fun x hx => ⟨x, hx, rfl, rfl, rfl, fun h => ⟨h, by simp [hn]⟩, fun h => h⟩, fun _ _ => rfl⟩
      · next t ht =>
        refine ⟨rfl, fun x hx => ?_, fun k' hk => by simp only; rw [AMap.get_remove, if_neg hk]⟩
        obtain ⟨y, hy, rfl⟩ := mem_abortAll_iff.mp hx
        refine ⟨y, hy, ?_⟩
        by_cases e : y.id ∈ [t]
        · rw [if_pos e]; exact ⟨rfl, rfl, rfl, fun h => by simp at h, fun _ => rfl⟩
        · rw [if_neg e]
          refine ⟨rfl, rfl, rfl, fun h => ⟨h, fun e' => e ?_⟩, fun h => h⟩
          rw [ht] at e'; simp only [Option.some.injEq] at e'; simp [e']
    obtain ⟨c1, c2, c3⟩ := hcase
    have hother : ∀ z ∈ s.base.adders, z.id ≠ i → z ∈ b.adders := by
      intro z hz hne
      rw [c1]; exact mem_setAdder.mpr ⟨z, hz, by rw [if_neg hne]⟩
    have hfrom : ∀ z ∈ b.adders, (z ∈ s.base.adders ∧ z.key ≠ k) ∨ z = ⟨i, k, .cancelled⟩ := by
      intro z hz
      rw [c1] at hz
      obtain ⟨y, hy, rfl⟩ := mem_setAdder.mp hz
      by_cases e : y.id = i
      · rw [if_pos e, m3 y hy e]; exact .inr rfl
      · rw [if_neg e]
        refine .inl ⟨hy, fun hk => e ?_⟩
        rw [hT.one y hy _ m1 hk]
    have hk : ∀ y ∈ s.base.tasks, y.key = k → y.phase = .sleeping ∧ s.now < s.due y.id ∧
        (y.aborted = true ∨ AMap.get s.base.timers y.key = some y.id) := hT.inserted _ m1 rfl
    have hab : ∀ x ∈ b.tasks, x.key = k → x.phase = .sleeping ∧ s.now < s.due x.id ∧ x.aborted = true := by
      intro x hx e
      obtain ⟨y, hy, e1, e2, e3, e4, e5⟩ := c2 x hx
      obtain ⟨r1, r2, r3⟩ := hk y hy (e2.trans e)
      refine ⟨e3 ▸ r1, e1 ▸ r2, ?_⟩
      rcases r3 with r3 | r3
      · exact e5 r3
      · cases hx : x.aborted with
        | true => rfl
        | false =>
          rw [e2, e] at r3
          exact absurd r3 (e4 hx).2
    have hnk : ∀ z ∈ s.base.adders, z.key ≠ k → z ∈ b.adders := fun z hz hne =>
      hother z hz (fun e => hne (by rw [m3 z hz e]))
    constructor
    · intro x hx y hy e
      simp only at hx hy
      rcases hfrom x hx with ⟨hx, hx'⟩ | rfl <;> rcases hfrom y hy with ⟨hy, hy'⟩ | rfl
      · exact hT.one x hx y hy e
      · exact absurd e hx'
      · exact absurd e.symm hy'
      · rfl
    · intro x hx hs
      simp only at hx ⊢
      by_cases e : x.key = k
      · obtain ⟨-, r2, r3⟩ := hab x hx e
        exact .inr ⟨r2, .inl r3⟩
      · obtain ⟨y, hy, e1, e2, e3, e4, e5⟩ := c2 x hx
        rcases hT.early y hy (e3.trans hs) with h | ⟨h, h' | ⟨z, hz, hz1, hz2⟩⟩
        · rw [e1, e2] at h; exact .inl h
        · rw [e1] at h; exact .inr ⟨h, .inl (e5 h')⟩
        · rw [e1] at h
          exact .inr ⟨h, .inr ⟨z, hnk z hz (by rw [hz1, e2]; exact e), by rw [hz1, e2], hz2⟩⟩
    · intro x hx hs ha'
      simp only at hx ⊢
      by_cases e : x.key = k
      · rw [(hab x hx e).2.2] at ha'; cases ha'
      · obtain ⟨y, hy, e1, e2, e3, e4, e5⟩ := c2 x hx
        rcases hT.known y hy (e3.trans hs) (e4 ha').1 with h | ⟨z, hz, hz1, hz2⟩
        · rw [e1, e2] at h; rw [c3 _ e]; exact .inl h
        · exact .inr ⟨z, hnk z hz (by rw [hz1, e2]; exact e), by rw [hz1, e2], by rw [hz2, e1]⟩
    · intro y hy hs ha' x hx hkk hne
      simp only at hx hy ⊢
      obtain ⟨y', hy', e1, e2, e3, e4, e5⟩ := c2 y hy
      obtain ⟨x', hx', d1, d2, d3, d4, d5⟩ := c2 x hx
      obtain ⟨r1, r2, r3⟩ := hT.sole y' hy' (e3.trans hs) (e4 ha').1 x' hx' (by rw [d2, e2]; exact hkk) (by rw [d1, e1]; exact hne)
      exact ⟨d5 r1, d3 ▸ r2, d1 ▸ r3⟩
    · intro z hz hp x hx hkk
      simp only at hx hz ⊢
      rcases hfrom z hz with ⟨hz', hne⟩ | rfl
      · obtain ⟨x', hx', d1, d2, d3, d4, d5⟩ := c2 x hx
        obtain ⟨r1, r2, r3⟩ := hT.inserted z hz' hp x' hx' (d2.trans hkk)
        refine ⟨d3 ▸ r1, d1 ▸ r2, ?_⟩
        rcases r3 with r3 | r3
        · exact .inl (d5 r3)
        · rw [d1, d2] at r3
          rw [c3 _ (by rw [hkk]; exact hne)]; exact .inr r3
      · cases hp
    · intro z hz hp x hx hkk
      simp only at hx hz ⊢
      rcases hfrom z hz with ⟨hz', hne⟩ | rfl
      · obtain ⟨x', hx', d1, d2, d3, d4, d5⟩ := c2 x hx
        obtain ⟨r1, r2, r3⟩ := hT.cancelled z hz' hp x' hx' (d2.trans hkk)
        exact ⟨d3 ▸ r1, d1 ▸ r2, d5 r3⟩
      · exact hab x hx hkk
    · intro z hz t hp x hx hkk hne
      simp only at hx hz ⊢
      rcases hfrom z hz with ⟨hz', hne'⟩ | rfl
      · obtain ⟨x', hx', d1, d2, d3, d4, d5⟩ := c2 x hx
        exact d5 (hT.spawned z hz' t hp x' hx' (d2.trans hkk) (by rw [d1]; exact hne))
      · cases hp
  · cases hb

theorem track_spawn (c : Waits K) (s t : Timed K N) (a : Nat) (hC : Clock c s) (hT : Track c s)
    (h : tstep c s (.op (.spawn a)) = some t) : Track c t := by
  simp only [tstep] at h
  split at h
  next w hw =>
    simp only [Option.map_eq_some_iff] at h
    obtain ⟨b, hb, rfl⟩ := h
    obtain ⟨m1, m2, m3⟩ := adder_iff hC.inv hw
    simp only [step, hw] at hb
    split at hb
    · next i k hw' =>
      simp only [Option.some.injEq] at hw' hb
      subst hw'; subst hb
      simp only at m2
      subst m2
      have hlast := hC.adding _ m1
      simp only at hlast
      have hk := hT.cancelled _ m1 rfl
      simp only at hk
      have hdue : ∀ x ∈ s.base.tasks, (if x.id = s.base.next then s.now + c.of k else s.due x.id) = s.due x.id := by
        intro x hx
        have := hC.inv.tlt x hx
        rw [if_neg (by omega)]
      have hfrom : ∀ z ∈ setAdder s.base i (.spawned s.base.next), (z ∈ s.base.adders ∧ z.key ≠ k) ∨
          z = ⟨i, k, .spawned s.base.next⟩ := by
        intro z hz
        obtain ⟨y, hy, rfl⟩ := mem_setAdder.mp hz
        by_cases e : y.id = i
        · rw [if_pos e, m3 y hy e]; exact .inr rfl
        · rw [if_neg e]
          refine .inl ⟨hy, fun hk => e ?_⟩
          rw [hT.one y hy _ m1 hk]
      have hnk : ∀ z ∈ s.base.adders, z.phase ≠ .cancelled → z ∈ setAdder s.base i (.spawned s.base.next) := by
        intro z hz hne
        refine mem_setAdder.mpr ⟨z, hz, ?_⟩
        rw [if_neg]
        intro e
        rw [m3 z hz e] at hne
        exact hne rfl
      have hnew : (⟨i, k, .spawned s.base.next⟩ : Adder K) ∈ setAdder s.base i (.spawned s.base.next) :=
        mem_setAdder.mpr ⟨_, m1, by simp⟩
      constructor
      · intro x hx y hy e
        rcases hfrom x hx with ⟨hx, hx'⟩ | rfl <;> rcases hfrom y hy with ⟨hy, hy'⟩ | rfl
        · exact hT.one x hx y hy e
        · exact absurd e hx'
        · exact absurd e.symm hy'
        · rfl
      · intro x hx hs
        simp only [List.mem_append, List.mem_singleton] at hx
        rcases hx with hx | rfl
        · simp only [hdue x hx]
          rcases hT.early x hx hs with h | ⟨h, h' | ⟨z, hz, hz1, hz2⟩⟩
          · exact .inl h
          · exact .inr ⟨h, .inl h'⟩
          · exact .inr ⟨h, .inr ⟨z, hnk z hz (by rw [hz2]; simp), hz1, hz2⟩⟩
        · simp only [if_true, hlast]; exact .inl (Nat.le_refl _)
      · intro x hx hs ha
        simp only [List.mem_append, List.mem_singleton] at hx
        rcases hx with hx | rfl
        · rcases hT.known x hx hs ha with h | ⟨z, hz, hz1, hz2⟩
          · exact .inl h
          · exact .inr ⟨z, hnk z hz (by rw [hz2]; simp), hz1, hz2⟩
        · exact .inr ⟨_, hnew, rfl, rfl⟩
      · intro y hy hs ha x hx hkk hne
        simp only [List.mem_append, List.mem_singleton] at hx hy
        rcases hy with hy | rfl
        · rcases hx with hx | rfl
          · simp only [hdue x hx]; exact hT.sole y hy hs ha x hx hkk hne
          · rw [(hk y hy hkk.symm).2.2] at ha; cases ha
        · rcases hx with hx | rfl
          · simp only [hdue x hx]
            obtain ⟨r1, r2, r3⟩ := hk x hx hkk
            exact ⟨r3, r1, r2⟩
          · exact absurd rfl hne
      · intro z hz hp x hx hkk
        simp only [List.mem_append, List.mem_singleton] at hx
        rcases hfrom z hz with ⟨hz', hne⟩ | rfl
        · rcases hx with hx | rfl
          · simp only [hdue x hx]; exact hT.inserted z hz' hp x hx hkk
          · exact absurd hkk.symm hne
        · cases hp
      · intro z hz hp x hx hkk
        simp only [List.mem_append, List.mem_singleton] at hx
        rcases hfrom z hz with ⟨hz', hne⟩ | rfl
        · rcases hx with hx | rfl
          · simp only [hdue x hx]; exact hT.cancelled z hz' hp x hx hkk
          · exact absurd hkk.symm hne
        · cases hp
      · intro z hz t hp x hx hkk hne
        simp only [List.mem_append, List.mem_singleton] at hx
        rcases hfrom z hz with ⟨hz', hne'⟩ | rfl
        · rcases hx with hx | rfl
          · exact hT.spawned z hz' t hp x hx hkk hne
          · exact absurd hkk.symm hne'
        · simp only [AddPhase.spawned.injEq] at hp
          subst hp
          rcases hx with hx | rfl
          · exact (hk x hx hkk).2.2
          · exact absurd rfl hne
    · cases hb
  · cases h

theorem track_store (c : Waits K) (s t : Timed K N) (a : Nat) (hI : Inv s.base) (hT : Track c s)
    (h : tstep c s (.op (.store a)) = some t) : Track c t := by
  obtain ⟨hb, -⟩ := tstep_op c s t _ h
  have e := tstep_other c s t _ h (by simp) (by simp)
  generalize t.base = b at e hb
  subst e
  simp only [step] at hb
  split at hb
  next i k u ha =>
    obtain ⟨m1, m2, m3⟩ := adder_iff hI ha
    simp only at m2
    subst m2
    simp only [Option.some.injEq] at hb
    subst hb
    have hfrom : ∀ z ∈ s.base.adders.filter (fun x => !decide (x.id = i)), z ∈ s.base.adders ∧ z.key ≠ k := by
      intro z hz
      simp only [List.mem_filter, Bool.not_eq_true', decide_eq_false_iff_not] at hz
      exact ⟨hz.1, fun hk => hz.2 (by rw [hT.one z hz.1 _ m1 hk])⟩
    have hto : ∀ z ∈ s.base.adders, z.phase ≠ .spawned u → z ∈ s.base.adders.filter (fun x => !decide (x.id = i)) := by
      intro z hz hne
      simp only [List.mem_filter, Bool.not_eq_true', decide_eq_false_iff_not]
      refine ⟨hz, fun e => hne (by rw [m3 z hz e])⟩
    have hsp := hT.spawned _ m1 u rfl
    simp only at hsp
    constructor
    · intro x hx y hy e
      exact hT.one x (hfrom x hx).1 y (hfrom y hy).1 e
    · intro x hx hs
      rcases hT.early x hx hs with h | ⟨h, h' | ⟨z, hz, hz1, hz2⟩⟩
      · exact .inl h
      · exact .inr ⟨h, .inl h'⟩
      · exact .inr ⟨h, .inr ⟨z, hto z hz (by rw [hz2]; simp), hz1, hz2⟩⟩
    · intro x hx hs hab
      simp only [AMap.get_insert]
      by_cases e : x.key = k
      · rw [if_pos e]
        by_cases e' : x.id = u
        · rw [e']; exact .inl rfl
        · rw [hsp x hx e e'] at hab; cases hab
      · rw [if_neg e]
        rcases hT.known x hx hs hab with h | ⟨z, hz, hz1, hz2⟩
        · exact .inl h
        · refine .inr ⟨z, ?_, hz1, hz2⟩
          simp only [List.mem_filter, Bool.not_eq_true', decide_eq_false_iff_not]
          exact ⟨hz, fun e' => e (by rw [← hz1, m3 z hz e'])⟩
    · exact hT.sole
    · intro z hz hp x hx hkk
      obtain ⟨hz', hne⟩ := hfrom z hz
      simp only [AMap.get_insert]
      rw [if_neg (by rw [hkk]; exact hne)]
      exact hT.inserted z hz' hp x hx hkk
    · intro z hz hp x hx hkk
      exact hT.cancelled z (hfrom z hz).1 hp x hx hkk
    · intro z hz t hp x hx hkk hne
      exact hT.spawned z (hfrom z hz).1 t hp x hx hkk hne
  · cases hb

/-- One task goes to another phase that is not sleeping; it was not sleeping or is due. -/
theorem track_phase (c : Waits K) (s t : Timed K N) (u : Nat) (x₀ : Task K N) (p : Phase N) (hI : Inv s.base) (hT : Track c s)
    (hx : task s.base u = some x₀) (hd : x₀.phase ≠ .sleeping ∨ s.due u ≤ s.now) (hp : p ≠ .sleeping)
    (h1 : t.now = s.now) (h2 : t.due = s.due) (h3 : t.last = s.last) (h4 : t.base.adders = s.base.adders)
    (h5 : t.base.tasks = setTask s.base u p) (h6 : t.base.timers = s.base.timers) : Track c t := by
  obtain ⟨m1, m2, m3⟩ := task_iff hI hx
  have hfrom : ∀ x ∈ t.base.tasks, (x ∈ s.base.tasks ∧ x.id ≠ u) ∨ x = { x₀ with phase := p } := by
    intro x hx
    rw [h5] at hx
    obtain ⟨y, hy, rfl⟩ := mem_setTask.mp hx
    by_cases e : y.id = u
    · rw [if_pos e, m3 y hy e]; exact .inr rfl
    · rw [if_neg e]; exact .inl ⟨hy, e⟩
  have hno : ¬ (x₀.phase = .sleeping ∧ s.now < s.due x₀.id) := by
    rintro ⟨e1, e2⟩
    rcases hd with hd | hd
    · exact hd e1
    · rw [m2] at e2; omega
  constructor
  · rw [h4]; exact hT.one
  · intro x hx hs
    rw [h1, h2, h3, h4]
    rcases hfrom x hx with ⟨hx, -⟩ | rfl
    · exact hT.early x hx hs
    · exact absurd hs hp
  · intro x hx hs ha
    rw [h4, h6]
    rcases hfrom x hx with ⟨hx, -⟩ | rfl
    · exact hT.known x hx hs ha
    · exact absurd hs hp
  · intro y hy hs ha x hx hk hne
    rw [h1, h2]
    rcases hfrom y hy with ⟨hy, hyu⟩ | rfl
    · rcases hfrom x hx with ⟨hx, -⟩ | rfl
      · exact hT.sole y hy hs ha x hx hk hne
      · obtain ⟨r1, r2, r3⟩ := hT.sole y hy hs ha x₀ m1 hk hne
        exact absurd ⟨r2, r3⟩ hno
    · exact absurd hs hp
  · intro z hz hph x hx hk
    rw [h4] at hz
    rw [h1, h2, h6]
    rcases hfrom x hx with ⟨hx, -⟩ | rfl
    · exact hT.inserted z hz hph x hx hk
    · obtain ⟨r1, r2, -⟩ := hT.inserted z hz hph x₀ m1 hk
      exact absurd ⟨r1, r2⟩ hno
  · intro z hz hph x hx hk
    rw [h4] at hz
    rw [h1, h2]
    rcases hfrom x hx with ⟨hx, -⟩ | rfl
    · exact hT.cancelled z hz hph x hx hk
    · obtain ⟨r1, r2, -⟩ := hT.cancelled z hz hph x₀ m1 hk
      exact absurd ⟨r1, r2⟩ hno
  · intro z hz t' hph x hx hk hne
    rw [h4] at hz
    rcases hfrom x hx with ⟨hx, -⟩ | rfl
    · exact hT.spawned z hz t' hph x hx hk hne
    · exact hT.spawned z hz t' hph x₀ m1 hk hne

theorem track_flush (c : Waits K) (s t : Timed K N) (hI : Inv s.base) (hT : Track c s)
    (h : tstep c s (.op .flushTimers) = some t) : Track c t := by
  simp only [tstep, step, Option.map_some, Option.some.injEq] at h
  subst h
  have hfrom : ∀ x ∈ abortAll s.base.tasks (s.base.timers.map Prod.snd), ∃ y ∈ s.base.tasks, y.id = x.id ∧ y.key = x.key ∧
      y.phase = x.phase ∧ (x.aborted = false → y.aborted = false ∧ AMap.get s.base.timers y.key ≠ some y.id) ∧
      (y.aborted = true ∨ AMap.get s.base.timers y.key = some y.id → x.aborted = true) := by
    intro x hx
    obtain ⟨y, hy, rfl⟩ := mem_abortAll_iff.mp hx
    have hin : AMap.get s.base.timers y.key = some y.id → y.id ∈ s.base.timers.map Prod.snd :=
      fun hg => List.mem_map.mpr ⟨_, AMap.mem_of_get hg, rfl⟩
    refine ⟨y, hy, ?_⟩
    by_cases e : y.id ∈ s.base.timers.map Prod.snd
    · rw [if_pos e]; exact ⟨rfl, rfl, rfl, fun h => by simp at h, fun _ => rfl⟩
    · rw [if_neg e]
      exact ⟨rfl, rfl, rfl, fun h => ⟨h, fun hg => e (hin hg)⟩, fun h => h.resolve_right (fun hg => e (hin hg))⟩
  constructor
  · exact hT.one
  · intro x hx hs
    obtain ⟨y, hy, e1, e2, e3, e4, e5⟩ := hfrom x hx
    simp only
    rcases hT.early y hy (e3.trans hs) with h | ⟨h, h' | ⟨z, hz, hz1, hz2⟩⟩
    · rw [e1, e2] at h; exact .inl h
    · rw [e1] at h; exact .inr ⟨h, .inl (e5 (.inl h'))⟩
    · rw [e1] at h; exact .inr ⟨h, .inr ⟨z, hz, by rw [hz1, e2], hz2⟩⟩
  · intro x hx hs ha
    obtain ⟨y, hy, e1, e2, e3, e4, e5⟩ := hfrom x hx
    rcases hT.known y hy (e3.trans hs) (e4 ha).1 with h | ⟨z, hz, hz1, hz2⟩
    · exact absurd h (e4 ha).2
    · exact .inr ⟨z, hz, by rw [hz1, e2], by rw [hz2, e1]⟩
  · intro y hy hs ha x hx hk hne
    obtain ⟨y', hy', e1, e2, e3, e4, e5⟩ := hfrom y hy
    obtain ⟨x', hx', d1, d2, d3, d4, d5⟩ := hfrom x hx
    obtain ⟨r1, r2, r3⟩ := hT.sole y' hy' (e3.trans hs) (e4 ha).1 x' hx' (by rw [d2, e2]; exact hk) (by rw [d1, e1]; exact hne)
    exact ⟨d5 (.inl r1), d3 ▸ r2, d1 ▸ r3⟩
  · intro z hz hp x hx hk
    obtain ⟨x', hx', d1, d2, d3, d4, d5⟩ := hfrom x hx
    obtain ⟨r1, r2, r3⟩ := hT.inserted z hz hp x' hx' (d2.trans hk)
    exact ⟨d3 ▸ r1, d1 ▸ r2, .inl (d5 r3)⟩
  · intro z hz hp x hx hk
    obtain ⟨x', hx', d1, d2, d3, d4, d5⟩ := hfrom x hx
    obtain ⟨r1, r2, r3⟩ := hT.cancelled z hz hp x' hx' (d2.trans hk)
    exact ⟨d3 ▸ r1, d1 ▸ r2, d5 (.inl r3)⟩
  · intro z hz t hp x hx hk hne
    obtain ⟨x', hx', d1, d2, d3, d4, d5⟩ := hfrom x hx
    exact d5 (.inl (hT.spawned z hz t hp x' hx' (d2.trans hk) (by rw [d1]; exact hne)))

theorem track_pass (c : Waits K) (s t : Timed K N) (d : Nat) (hT : Track c s) (h : tstep c s (.pass d) = some t) : Track c t := by
  simp only [tstep] at h
  split at h
  next hs =>
    simp only [Option.some.injEq] at h; subst h
    simp only [still, Bool.and_eq_true, List.isEmpty_iff, beq_iff_eq, List.all_eq_true] at hs
    obtain ⟨⟨ha, hf⟩, ht⟩ := hs
    have hab : ∀ x ∈ s.base.tasks, x.phase = .sleeping → x.aborted = false := by
      intro x hx hs
      have := (ht x hx).1
      simpa [suspended, hs] using this
    constructor
    · exact hT.one
    · intro x hx hs
      rcases hT.early x hx hs with h | ⟨h, h' | ⟨z, hz, -⟩⟩
      · exact .inl h
      · rw [hab x hx hs] at h'; cases h'
      · rw [ha] at hz; cases hz
    · exact hT.known
    · intro y hy hs hy' x hx hk hne
      obtain ⟨r1, r2, r3⟩ := hT.sole y hy hs hy' x hx hk hne
      rw [hab x hx r2] at r1; cases r1
    · intro z hz; simp only [ha] at hz; cases hz
    · intro z hz; simp only [ha] at hz; cases hz
    · intro z hz; simp only [ha] at hz; cases hz
  · cases h

theorem track_step (c : Waits K) (s t : Timed K N) (o : TOp K N) (hC : Clock c s) (hT : Track c s)
    (hcalm : ∀ a k n, o = .op (.insert a k n) → Calm s k) (h : tstep c s o = some t) : Track c t := by
  cases o with
  | pass d => exact track_pass c s t d hT h
  | op o =>
    cases o with
    | insert a k n => exact track_insert c s t a k n hT (hcalm a k n rfl) h
    | cancel a => exact track_cancel c s t a hC.inv hT h
    | spawn a => exact track_spawn c s t a hC hT h
    | store a => exact track_store c s t a hC.inv hT h
    | flushTimers => exact track_flush c s t hC.inv hT h
    | wake u k =>
      simp only [tstep] at h
      split at h
      next hd =>
        simp only [Option.map_eq_some_iff] at h
        obtain ⟨b, hb, rfl⟩ := h
        simp only [step] at hb
        split at hb
        next i k' ab hx =>
          split at hb
          · split at hb <;> (simp only [Option.some.injEq] at hb; subst hb)
            · exact track_phase c s _ u _ _ hC.inv hT hx (.inr hd) (by simp) rfl rfl rfl rfl rfl rfl
            · exact track_phase c s _ u _ _ hC.inv hT hx (.inr hd) (by simp) rfl rfl rfl rfl rfl rfl
          · cases hb
        · cases hb
      · cases h
    | sent u =>
      simp only [tstep, Option.map_eq_some_iff] at h
      obtain ⟨b, hb, rfl⟩ := h
      simp only [step] at hb
      split at hb
      next i k' n ab hx =>
        split at hb
        · simp only [Option.some.injEq] at hb; subst hb
          exact track_phase c s _ u _ _ hC.inv hT hx (.inl (by simp)) (by simp) rfl rfl rfl rfl rfl rfl
        · cases hb
      · cases hb
    | clean u =>
      simp only [tstep, Option.map_eq_some_iff] at h
      obtain ⟨b, hb, rfl⟩ := h
      simp only [step] at hb
      split at hb
      next i k ab hx =>
        obtain ⟨m1, m2, m3⟩ := task_iff hC.inv hx
        simp only [Option.some.injEq] at hb; subst hb
        refine track_sub c s _ hT rfl rfl rfl rfl (fun x hx => (mem_endTask.mp hx).1) (fun k' hk' => ?_)
        simp only [AMap.get_remove]
        rw [if_neg]
        rintro rfl
        obtain ⟨x, hx', e, ⟨e1, e2⟩ | ⟨z, hz, hz1, hz2⟩⟩ := hk'
        · obtain ⟨hx1, hx2⟩ := mem_endTask.mp hx'
          obtain ⟨-, r, -⟩ := hT.sole x hx1 e2 e1 _ m1 e.symm (by simp only at m2 ⊢; rw [m2]; exact Ne.symm hx2)
          cases r
        · obtain ⟨r, -⟩ := hT.inserted z hz hz2 _ m1 hz1.symm
          cases r
      · cases hb
    | die u =>
      simp only [tstep, Option.map_eq_some_iff] at h
      obtain ⟨b, hb, rfl⟩ := h
      simp only [step] at hb
      split at hb
      · split at hb
        · simp only [Option.some.injEq] at hb; subst hb
          exact track_sub c s _ hT rfl rfl rfl rfl (fun x hx => (mem_endTask.mp hx).1) (fun _ _ => rfl)
        · cases hb
      · cases hb
    | recv =>
      simp only [tstep, Option.map_eq_some_iff] at h
      obtain ⟨b, hb, rfl⟩ := h
      simp only [step] at hb
      split at hb
      · cases hb
      · simp only [Option.some.injEq] at hb; subst hb
        exact track_sub c s _ hT rfl rfl rfl rfl (fun x hx => hx) (fun _ _ => rfl)
    | flushPending =>
      simp only [tstep, Option.map_eq_some_iff] at h
      obtain ⟨b, hb, rfl⟩ := h
      simp only [step] at hb
      split at hb
      · cases hb
      · simp only [Option.some.injEq] at hb; subst hb
        exact track_sub c s _ hT rfl rfl rfl rfl (fun x hx => hx) (fun _ _ => rfl)

theorem track_run (c : Waits K) (l : List (TOp K N)) (s t : Timed K N) (hC : Clock c s) (hT : Track c s) (hl : CalmRun c s l)
    (h : trun c s l = some t) : Track c t := by
  induction l generalizing s with
  | nil => simp only [trun, Option.some.injEq] at h; subst h; exact hT
  | cons o l ih =>
    simp only [trun] at h
    cases hs : tstep c s o with
    | none => rw [hs] at h; cases h
    | some s' =>
      rw [hs] at h
      exact ih s' (clock_step c s s' o hC hs) (track_step c s s' o hC hT hl.1 hs) (hl.2 s' hs) h

/-- C213: if every `add` begins when nothing else happens with its key, then a notification is taken out to be sent exactly at
the wait time of its key after the last `add` for the key, neither earlier nor later, whatever else interleaves.

Partial: an `add` at the very moment at which a timer fires, or at the same time as another for the same key, may be emitted
too early (`C213_early_boundary`, `C213_early_overlap`). -/
theorem C213_on_time_partial (c : Waits K) (l : List (TOp K N)) (s t : Timed K N) (u : Nat) (k : K) (n : N)
    (hl : CalmRun c {} l) (h : trun c {} l = some s) (hw : tstep c s (.op (.wake u k)) = some t)
    (hp : AMap.get s.base.pending k = some n) :
    t.now = t.last k + c.of k ∧ AMap.get t.base.pending k = none ∧ n ∈ sendingOf t.base.tasks := by
  have hC := clock_run c l s h
  have hT := track_run c l {} s (clock_init c) (track_init c) hl h
  have late := hC.pending k n hp
  simp only [tstep] at hw
  split at hw
  next hd =>
    simp only [Option.map_eq_some_iff] at hw
    obtain ⟨b, hb, rfl⟩ := hw
    simp only [step] at hb
    split at hb
    next i k' ab hx =>
      obtain ⟨m1, m2, m3⟩ := task_iff hC.inv hx
      simp only at m2
      subst m2
      split at hb
      next hk =>
        subst hk
        rw [hp] at hb
        simp only [Option.some.injEq] at hb; subst hb
        refine ⟨?_, AMap.get_remove_self _ _, ?_⟩
        · have := hT.early _ m1 rfl
          simp only at this late ⊢
          omega
        · rw [mem_sendingOf]
          exact ⟨⟨i, k', .sending n, ab⟩, mem_setTask.mpr ⟨_, m1, by simp⟩, rfl⟩
      · cases hb
    · cases hb
  · cases hw

/-- `CalmRun` computed, for the examples. (Specification: no counterpart in the code.) -/
def calmCheck (c : Waits K) (s : Timed K N) : List (TOp K N) → Bool
  | [] => true
  | o :: rest =>
    (match o with
      | .op (.insert _ k _) => s.base.adders.all (fun a => decide (a.key ≠ k)) && s.base.tasks.all (fun x =>
          decide (x.key ≠ k) || (decide (x.phase = .sleeping) && decide (s.now < s.due x.id)))
      | _ => true) &&
    match tstep c s o with
    | some s' => calmCheck c s' rest
    | none => true

theorem calmRun_of_check (c : Waits K) (l : List (TOp K N)) (s : Timed K N) (h : calmCheck c s l = true) : CalmRun c s l := by
  induction l generalizing s with
  | nil => trivial
  | cons o l ih =>
    simp only [calmCheck, Bool.and_eq_true] at h
    refine ⟨?_, fun s' hs => ih s' (by have := h.2; rwa [hs] at this)⟩
    rintro a k n rfl
    have h1 := h.1
    simp only [Bool.and_eq_true, List.all_eq_true, decide_eq_true_eq, Bool.or_eq_true] at h1
    exact ⟨h1.1, fun x hx hk => (h1.2 x hx).resolve_left (fun hne => hne hk)⟩

/-- Key 7 waits 10, other keys 20: 7 is added at 0 and again at 5, 8 is added at 5. (Specification: no counterpart in the
code.) -/
def timely : List (TOp Nat Nat) :=
  [.op (.insert 0 7 1), .op (.cancel 0), .op (.spawn 0), .op (.store 0), .pass 5,
   .op (.insert 1 7 2), .op (.insert 2 8 3), .op (.cancel 1), .op (.die 0), .op (.cancel 2), .op (.spawn 2), .op (.spawn 1),
   .op (.store 1), .op (.store 2), .pass 10]

example : CalmRun ⟨20, [(7, 10)]⟩ {} timely := calmRun_of_check _ _ _ (by decide)

example : ∃ s t, trun ⟨20, [(7, 10)]⟩ {} timely = some s ∧ tstep ⟨20, [(7, 10)]⟩ s (.op (.wake 2 7)) = some t ∧
    AMap.get s.base.pending 7 = some 2 ∧ t.now = 15 ∧ t.last 7 = 5 ∧ tstep ⟨20, [(7, 10)]⟩ s (.pass 1) = none ∧
    tstep ⟨20, [(7, 10)]⟩ s (.op (.wake 1 8)) = none := ⟨_, _, rfl, rfl, rfl, rfl, rfl, rfl, rfl⟩

/-- C213 fails: an `add` at the moment at which the timer of the `add` before fires may be emitted at once; here the wait time
is 10, the second `add` is at 10, and its notification is taken at 10. -/
theorem C213_early_boundary : ∃ s t : Timed Nat Nat,
    trun ⟨10, []⟩ {} [.op (.insert 0 7 1), .op (.cancel 0), .op (.spawn 0), .op (.store 0), .pass 10, .op (.insert 1 7 2)] =
      some s ∧
    tstep ⟨10, []⟩ s (.op (.wake 0 7)) = some t ∧ AMap.get s.base.pending 7 = some 2 ∧ t.last 7 = 10 ∧ t.now = 10 ∧
    sendingOf t.base.tasks = [2] := ⟨_, _, rfl, rfl, rfl, rfl, rfl, rfl⟩

/-- C213 fails: of two `add` for a key at the same time one leaves a timer that no later `add` stops; here the wait time is 10,
both are at 0, a third is at 5 after both have returned, and its notification is taken at 10, not at 15. -/
theorem C213_early_overlap : ∃ s t : Timed Nat Nat,
    trun ⟨10, []⟩ {} [.op (.insert 0 7 1), .op (.insert 1 7 2), .op (.cancel 0), .op (.cancel 1), .op (.spawn 0), .op (.spawn 1),
      .op (.store 0), .op (.store 1), .pass 5, .op (.insert 2 7 3), .op (.cancel 2), .op (.die 1), .op (.spawn 2),
      .op (.store 2), .pass 5] = some s ∧
    tstep ⟨10, []⟩ s (.op (.wake 0 7)) = some t ∧ AMap.get s.base.pending 7 = some 3 ∧ t.last 7 = 5 ∧ t.now = 10 ∧
    sendingOf t.base.tasks = [3] := ⟨_, _, rfl, rfl, rfl, rfl, rfl, rfl⟩

/-- C213 fails: the time of the emission is that at which the notification is taken out, not that at which it can be received:
while the channel is full any time passes with the notification in hand, if no other task is due. -/
theorem C213_blocked (c : Waits K) (s : Timed K N) (d : Nat) (h1 : s.base.adders = []) (h2 : s.base.flushing = 0)
    (hf : cap ≤ s.base.chan.length)
    (ht : ∀ x ∈ s.base.tasks, x.aborted = false ∧
      ((∃ n, x.phase = .sending n) ∨ (x.phase = .sleeping ∧ s.now + d ≤ s.due x.id))) :
    tstep c s (.pass d) = some { s with now := s.now + d } := by
  have : still s d = true := by
    simp only [still, h1, h2, List.isEmpty_nil, beq_self_eq_true, Bool.true_and, List.all_eq_true]
    intro x hx
    obtain ⟨ha, hp⟩ := ht x hx
    rw [ha]
    rcases hp with ⟨n, hn⟩ | ⟨hn, hd⟩
    · rw [hn]; simpa using hf
    · rw [hn]; simpa using hd
  simp only [tstep, this, if_true]

/-- A full channel and a task with a notification in hand, another asleep. -/
example : ∃ s : Timed Nat Nat, s.base.adders = [] ∧ s.base.flushing = 0 ∧ cap ≤ s.base.chan.length ∧
    (∀ x ∈ s.base.tasks, x.aborted = false ∧
      ((∃ n, x.phase = .sending n) ∨ (x.phase = .sleeping ∧ s.now + 1000 ≤ s.due x.id))) ∧ s.base.tasks.length = 2 :=
  ⟨{ base := { chan := List.replicate cap 1, tasks := [⟨0, 7, .sending 2, false⟩, ⟨1, 8, .sleeping, false⟩] }
     due := fun _ => 5000 }, rfl, rfl, by simp, by simp, rfl⟩

end Verif.Debouncer
