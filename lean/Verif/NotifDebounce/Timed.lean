import Verif.NotifDebounce.Model
import Verif.Common.ListExtra

/-
How long notifications wait in `NotificationBatcher`: C231.

Models /repo/src/server/notification_debouncer.rs L313-390 with time. A notification is paired with the time at which
it was added. Time passes only when no timeout task is due; the output channel always has room.
-/

namespace Verif.NotifDebounce

/-- The batcher at a time: the batches by key, the timeout tasks with the time at which they wake up (L361-373), what
was sent when. /repo/src/server/notification_debouncer.rs L313-325, L361-373. -/
structure TBatcher where
  batches : AMap Text (List (Nat × Notif)) := []
  timers : List (Nat × Text) := []
  now : Nat := 0
  out : List (Nat × List (Nat × Notif)) := []
  deriving DecidableEq

/-- What happens: `add`, the `i`-th timeout task runs, `flush`, a unit of time passes.
/repo/src/server/notification_debouncer.rs L343-390. -/
inductive TBOp where
  | add (n : Notif)
  | fire (i : Nat)
  | flush
  | tick
  deriving DecidableEq

/-- One step; `T` is `batch_timeout`. A full batch is sent at once. /repo/src/server/notification_debouncer.rs L343-390. -/
def tbstep (esc : Text → Text) (maxBatch T : Nat) (s : TBatcher) : TBOp → Option TBatcher
  -- /repo/src/server/notification_debouncer.rs L343-376
  | .add n =>
    let k := key esc n
    let batch := (AMap.get s.batches k).getD [] ++ [(s.now, n)]
    if batch.length ≥ maxBatch then
      some { s with batches := AMap.insert s.batches k [], out := s.out ++ [(s.now, batch)] }
    else some { s with batches := AMap.insert s.batches k batch, timers := s.timers ++ [(s.now + T, k)] }
  -- /repo/src/server/notification_debouncer.rs L363-373
  | .fire i =>
    match s.timers[i]? with
    | none => none
    | some (d, k) =>
      if d ≤ s.now then
        match AMap.get s.batches k with
        | none => some { s with timers := s.timers.eraseIdx i }
        | some b => some { s with
            timers := s.timers.eraseIdx i
            batches := AMap.remove s.batches k
            out := if b.isEmpty then s.out else s.out ++ [(s.now, b)] }
      else none
  -- /repo/src/server/notification_debouncer.rs L379-389
  | .flush => some { s with
      batches := []
      out := s.out ++ ((s.batches.map Prod.snd).filter (fun b => !b.isEmpty)).map (fun b => (s.now, b)) }
  | .tick => if s.timers.all (fun p => decide (s.now < p.1)) then some { s with now := s.now + 1 } else none

/-- An execution. (Any interleaving of the sections of /repo/src/server/notification_debouncer.rs L343-390.) -/
def tbrun (esc : Text → Text) (maxBatch T : Nat) (s : TBatcher) : List TBOp → Option TBatcher
  | [] => some s
  | op :: l => (tbstep esc maxBatch T s op).bind (fun s' => tbrun esc maxBatch T s' l)

/-! ### C231 -/

/-- Every buffered notification has its timeout task, no task is late, nothing was sent late.
(Specification: no counterpart in the code.) -/
structure TBInv (T : Nat) (s : TBatcher) : Prop where
  wf : AMap.WF s.batches
  timer : ∀ k b, (k, b) ∈ s.batches → ∀ p ∈ b, (p.1 + T, k) ∈ s.timers
  prompt : ∀ p ∈ s.timers, s.now ≤ p.1
  sent : ∀ e ∈ s.out, ∀ p ∈ e.2, e.1 ≤ p.1 + T

theorem tbinv_step (esc : Text → Text) (maxBatch T : Nat) (s s' : TBatcher) (op : TBOp) (hI : TBInv T s)
    (h : tbstep esc maxBatch T s op = some s') : TBInv T s' := by
  obtain ⟨hw, ht, hp, ho⟩ := hI
  have hbuf : ∀ k b, (k, b) ∈ s.batches → ∀ p ∈ b, s.now ≤ p.1 + T := fun k b hb p hpb => hp _ (ht k b hb p hpb)
  cases op with
  | add n =>
    have hold : ∀ p ∈ (AMap.get s.batches (key esc n)).getD [], (p.1 + T, key esc n) ∈ s.timers := by
      intro p hpm
      cases hg : AMap.get s.batches (key esc n) with
      | none => rw [hg] at hpm; cases hpm
      | some b => rw [hg] at hpm; exact ht _ _ (AMap.mem_of_get hg) p hpm
    simp only [tbstep] at h
    split at h <;> (simp only [Option.some.injEq] at h; subst h)
    · refine ⟨AMap.wf_insert hw _ _, ?_, hp, ?_⟩
      · intro k b hm p hpb
        rcases List.mem_cons.mp hm with e | e
        · cases e; cases hpb
        · exact ht k b (List.mem_filter.mp e).1 p hpb
      · intro e he p hpe
        simp only [List.mem_append, List.mem_singleton] at he
        rcases he with he | rfl
        · exact ho e he p hpe
        · simp only [List.mem_append, List.mem_singleton] at hpe
          rcases hpe with hpe | rfl
          · exact hp _ (hold p hpe)
          · simp only; omega
    · refine ⟨AMap.wf_insert hw _ _, ?_, ?_, ho⟩
      · intro k b hm p hpb
        simp only [List.mem_append, List.mem_singleton]
        rcases List.mem_cons.mp hm with e | e
        · cases e
          simp only [List.mem_append, List.mem_singleton] at hpb
          rcases hpb with hpb | rfl
          · exact .inl (hold p hpb)
          · exact .inr rfl
        · exact .inl (ht k b (List.mem_filter.mp e).1 p hpb)
      · intro p hpm
        simp only [List.mem_append, List.mem_singleton] at hpm
        rcases hpm with hpm | rfl
        · exact hp p hpm
        · simp only; omega
  | fire i =>
    simp only [tbstep] at h
    split at h
    · cases h
    · next d k hi =>
      split at h
      · split at h
        · next hg =>
          simp only [Option.some.injEq] at h; subst h
          refine ⟨hw, ?_, fun p hpm => hp p (List.mem_of_mem_eraseIdx hpm), ho⟩
          intro k' b hm p hpb
          have hne : k' ≠ k := by
            rintro rfl
            have := AMap.get_of_mem hw hm
            rw [hg] at this; cases this
          have hmem := ht k' b hm p hpb
          rw [List.mem_eraseIdx_iff_getElem?]
          obtain ⟨j, hj⟩ := List.mem_iff_getElem?.mp hmem
          refine ⟨j, ?_, hj⟩
          rintro rfl
          rw [hi] at hj
          exact hne (congrArg Prod.snd (Option.some.inj hj)).symm
        · next b0 hg =>
          simp only [Option.some.injEq] at h; subst h
          refine ⟨AMap.wf_remove hw _, ?_, fun p hpm => hp p (List.mem_of_mem_eraseIdx hpm), ?_⟩
          · intro k' b hm p hpb
            obtain ⟨hm, hne⟩ := List.mem_filter.mp hm
            have hne : k' ≠ k := by simpa using hne
            have hmem := ht k' b hm p hpb
            rw [List.mem_eraseIdx_iff_getElem?]
            obtain ⟨j, hj⟩ := List.mem_iff_getElem?.mp hmem
            refine ⟨j, ?_, hj⟩
            rintro rfl
            rw [hi] at hj
            exact hne (congrArg Prod.snd (Option.some.inj hj)).symm
          · intro e he p hpe
            simp only at he
            split at he
            · exact ho e he p hpe
            · simp only [List.mem_append, List.mem_singleton] at he
              rcases he with he | rfl
              · exact ho e he p hpe
              · exact hbuf _ _ (AMap.mem_of_get hg) p hpe
      · cases h
  | flush =>
    simp only [tbstep, Option.some.injEq] at h; subst h
    refine ⟨AMap.wf_nil, (fun k b hm => by cases hm), hp, ?_⟩
    intro e he p hpe
    simp only [List.mem_append, List.mem_map, List.mem_filter] at he
    rcases he with he | ⟨b, ⟨⟨⟨k, b'⟩, hkb, rfl⟩, -⟩, rfl⟩
    · exact ho e he p hpe
    · exact hbuf k _ hkb p hpe
  | tick =>
    simp only [tbstep] at h
    split at h
    · next hall =>
      simp only [Option.some.injEq] at h; subst h
      refine ⟨hw, ht, fun p hpm => ?_, ho⟩
      have := List.all_eq_true.mp hall p hpm
      have := of_decide_eq_true this
      simp only; omega
    · cases h

theorem tbinv_run (esc : Text → Text) (maxBatch T : Nat) (l : List TBOp) (s s' : TBatcher) (hI : TBInv T s)
    (h : tbrun esc maxBatch T s l = some s') : TBInv T s' := by
  induction l generalizing s with
  | nil => simp only [tbrun, Option.some.injEq] at h; subst h; exact hI
  | cons op l ih =>
    simp only [tbrun, Option.bind_eq_some_iff] at h
    obtain ⟨s1, h1, h2⟩ := h
    exact ih s1 (tbinv_step esc maxBatch T s s1 op hI h1) h2

theorem tbinv_init (T : Nat) : TBInv T {} :=
  ⟨AMap.wf_nil, (fun k b hm => by cases hm), (fun p hp => by cases hp), (fun e he => by cases he)⟩

/-- **C231** (at most). In every execution no notification waits longer than `batch_timeout`: neither the buffered
ones nor those that were sent. -/
theorem C231_at_most (esc : Text → Text) (maxBatch T : Nat) (l : List TBOp) (s : TBatcher)
    (h : tbrun esc maxBatch T {} l = some s) :
    (∀ k b, AMap.get s.batches k = some b → ∀ p ∈ b, s.now ≤ p.1 + T) ∧
      ∀ e ∈ s.out, ∀ p ∈ e.2, e.1 ≤ p.1 + T := by
  have hI := tbinv_run esc maxBatch T l {} s (tbinv_init T) h
  exact ⟨fun k b hg p hp => hI.prompt _ (hI.timer k b (AMap.mem_of_get hg) p hp), hI.sent⟩

/-- Two notifications of one kind and a log record; the time of the first is over, and both are sent. -/
example : (tbrun id 5 3 {} [.add .tools, .tick, .add .tools, .tick, .add (.log 1), .tick, .fire 0]).map (·.out) =
    some [(3, [(0, .tools), (1, .tools)])] ∧
    tbrun id 5 3 {} [.add .tools, .tick, .add .tools, .tick, .add (.log 1), .tick, .tick] = none := by decide

/-- **C231** (full batches). In every execution a batch that is kept is not full. -/
theorem C231_never_full (esc : Text → Text) (maxBatch T : Nat) (hmax : 0 < maxBatch) (l : List TBOp) (s : TBatcher)
    (h : tbrun esc maxBatch T {} l = some s) (k : Text) (b : List (Nat × Notif)) (hb : AMap.get s.batches k = some b) :
    b.length < maxBatch := by
  have gen : ∀ (l : List TBOp) (t : TBatcher), (∀ k b, AMap.get t.batches k = some b → b.length < maxBatch) →
      tbrun esc maxBatch T t l = some s → ∀ k b, AMap.get s.batches k = some b → b.length < maxBatch := by
    intro l
    induction l with
    | nil => intro t ht hr; simp only [tbrun, Option.some.injEq] at hr; subst hr; exact ht
    | cons op l ih =>
      intro t ht hr
      simp only [tbrun, Option.bind_eq_some_iff] at hr
      obtain ⟨t1, h1, h2⟩ := hr
      refine ih t1 ?_ h2
      cases op with
      | add n =>
        simp only [tbstep] at h1
        split at h1 <;> (simp only [Option.some.injEq] at h1; subst h1) <;> intro k b hb <;>
          simp only [AMap.get_insert] at hb
        · by_cases hk : k = key esc n
          · rw [if_pos hk] at hb; cases hb; exact hmax
          · rw [if_neg hk] at hb; exact ht k b hb
        · next hlt =>
          by_cases hk : k = key esc n
          · rw [if_pos hk] at hb; cases hb; omega
          · rw [if_neg hk] at hb; exact ht k b hb
      | fire i =>
        simp only [tbstep] at h1
        split at h1
        · cases h1
        · next d k' _ =>
          split at h1
          · split at h1
            · cases h1; exact ht
            · cases h1
              intro k b hb
              simp only [AMap.get_remove] at hb
              split at hb
              · cases hb
              · exact ht k b hb
          · cases h1
      | flush => simp only [tbstep, Option.some.injEq] at h1; subst h1; intro k b hb; cases hb
      | tick =>
        simp only [tbstep] at h1
        split at h1
        · cases h1; exact ht
        · cases h1
  exact gen l {} (fun k b hb => by cases hb) h k b hb

/-- With batches of two, the second notification is sent with the first at once. -/
example : (tbrun id 2 3 {} [.add .tools, .tick, .add .tools]).map (fun s => (s.batches, s.out)) =
    some ([(key id .tools, [])], [(1, [(0, .tools), (1, .tools)])]) := rfl

/-- Notifications of a key added in a history. (Specification: no counterpart in the code.) -/
def addsOf (esc : Text → Text) (k : Text) : List TBOp → Nat
  | [] => 0
  | .add n :: l => (if key esc n = k then 1 else 0) + addsOf esc k l
  | _ :: l => addsOf esc k l

/-- The batch that a notification begins now is kept until `batch_timeout` later, unless it becomes full or is flushed.
(Specification: no counterpart in the code.) -/
def KeptItsTime (esc : Text → Text) (maxBatch T : Nat) (s : TBatcher) (n : Notif) : Prop :=
  ∀ l s', TBOp.flush ∉ l → addsOf esc (key esc n) l + 1 < maxBatch →
    tbrun esc maxBatch T s (.add n :: l) = some s' → s'.now < s.now + T →
    ∃ b, AMap.get s'.batches (key esc n) = some ((s.now, n) :: b)

theorem now_mono_step (esc : Text → Text) (maxBatch T : Nat) (s s' : TBatcher) (op : TBOp)
    (h : tbstep esc maxBatch T s op = some s') : s.now ≤ s'.now := by
  cases op with
  | add n => simp only [tbstep] at h; split at h <;> (simp only [Option.some.injEq] at h; subst h; exact Nat.le_refl _)
  | fire i =>
    simp only [tbstep] at h
    split at h
    · cases h
    · split at h
      · split at h <;> (simp only [Option.some.injEq] at h; subst h; exact Nat.le_refl _)
      · cases h
  | flush => simp only [tbstep, Option.some.injEq] at h; subst h; exact Nat.le_refl _
  | tick =>
    simp only [tbstep] at h
    split at h
    · simp only [Option.some.injEq] at h; subst h; simp only; omega
    · cases h

theorem now_mono (esc : Text → Text) (maxBatch T : Nat) (l : List TBOp) (s s' : TBatcher)
    (h : tbrun esc maxBatch T s l = some s') : s.now ≤ s'.now := by
  induction l generalizing s with
  | nil => simp only [tbrun, Option.some.injEq] at h; subst h; exact Nat.le_refl _
  | cons op l ih =>
    simp only [tbrun, Option.bind_eq_some_iff] at h
    obtain ⟨s1, h1, h2⟩ := h
    exact Nat.le_trans (now_mono_step esc maxBatch T s s1 op h1) (ih s1 h2)

theorem kept_run (esc : Text → Text) (maxBatch T t : Nat) (k : Text) (n : Notif) (l : List TBOp) (s s' : TBatcher)
    (b : List (Nat × Notif)) (hb : AMap.get s.batches k = some ((t, n) :: b))
    (ht : ∀ d, (d, k) ∈ s.timers → t + T ≤ d) (hn : t ≤ s.now) (hf : TBOp.flush ∉ l)
    (hl : b.length + 1 + addsOf esc k l < maxBatch) (h : tbrun esc maxBatch T s l = some s') (hs : s'.now < t + T) :
    ∃ b', AMap.get s'.batches k = some ((t, n) :: b') := by
  induction l generalizing s b with
  | nil => simp only [tbrun, Option.some.injEq] at h; subst h; exact ⟨b, hb⟩
  | cons op l ih =>
    simp only [tbrun, Option.bind_eq_some_iff] at h
    obtain ⟨s1, h1, h2⟩ := h
    have hm := now_mono_step esc maxBatch T s s1 op h1
    have hm2 := now_mono esc maxBatch T l s1 s' h2
    have hf' : TBOp.flush ∉ l := fun hc => hf (List.mem_cons_of_mem _ hc)
    cases op with
    | add m =>
      simp only [addsOf] at hl
      by_cases hk : key esc m = k
      · simp only [hk, if_true] at hl
        simp only [tbstep, hk, hb, Option.getD_some, List.length_append, List.length_cons, List.length_nil] at h1
        rw [if_neg (by omega)] at h1
        simp only [Option.some.injEq] at h1; subst h1
        refine ih _ (b ++ [(s.now, m)]) (by simp [AMap.get_insert]) ?_ (by exact hn) hf' (by simp; omega) h2
        intro d hd
        simp only [List.mem_append, List.mem_singleton] at hd
        rcases hd with hd | hd
        · exact ht d hd
        · have := congrArg Prod.fst hd; simp only at this; omega
      · simp only [hk, if_false] at hl
        simp only [tbstep] at h1
        have hk' : k ≠ key esc m := fun e => hk e.symm
        split at h1 <;> (simp only [Option.some.injEq] at h1; subst h1)
        · exact ih _ b (by simp only [AMap.get_insert, if_neg hk']; exact hb) (by exact ht) (by exact hn) hf' (by omega) h2
        · refine ih _ b (by simp only [AMap.get_insert, if_neg hk']; exact hb) ?_ (by exact hn) hf' (by omega) h2
          intro d hd
          simp only [List.mem_append, List.mem_singleton] at hd
          rcases hd with hd | hd
          · exact ht d hd
          · exact absurd (congrArg Prod.snd hd) hk'
    | fire i =>
      simp only [addsOf] at hl
      simp only [tbstep] at h1
      split at h1
      · cases h1
      · next d k' hi =>
        split at h1
        · next hd =>
          have hmem : (d, k') ∈ s.timers := List.mem_of_getElem? hi
          have hne : k ≠ k' := by
            rintro rfl
            have := ht d hmem
            omega
          split at h1 <;> (simp only [Option.some.injEq] at h1; subst h1)
          · exact ih _ b (by exact hb) (fun d hd => ht d (List.mem_of_mem_eraseIdx hd)) (by exact hn) hf' hl h2
          · exact ih _ b (by simp only [AMap.get_remove, if_neg hne]; exact hb)
              (fun d hd => ht d (List.mem_of_mem_eraseIdx hd)) (by exact hn) hf' hl h2
        · cases h1
    | flush => simp at hf
    | tick =>
      simp only [addsOf] at hl
      simp only [tbstep] at h1
      split at h1
      · simp only [Option.some.injEq] at h1; subst h1
        exact ih _ b (by exact hb) (by exact ht) (by simp only; omega) hf' hl h2
      · cases h1

/-- Only timeout tasks and the passing of time. (Specification: no counterpart in the code.) -/
def Idle (l : List TBOp) : Prop := ∀ op ∈ l, op = .tick ∨ ∃ i, op = .fire i

theorem tbrun_append (esc : Text → Text) (maxBatch T : Nat) (s : TBatcher) (a b : List TBOp) :
    tbrun esc maxBatch T s (a ++ b) = (tbrun esc maxBatch T s a).bind (fun s' => tbrun esc maxBatch T s' b) := by
  induction a generalizing s with
  | nil => rfl
  | cons op l ih =>
    simp only [List.cons_append, tbrun]
    cases tbstep esc maxBatch T s op <;> simp [ih]

theorem idle_adds (esc : Text → Text) (k : Text) (l : List TBOp) (h : Idle l) : addsOf esc k l = 0 ∧ TBOp.flush ∉ l := by
  induction l with
  | nil => exact ⟨rfl, by simp⟩
  | cons op l ih =>
    obtain ⟨h1, h2⟩ := ih (fun o ho => h o (List.mem_cons_of_mem _ ho))
    rcases h op (by simp) with rfl | ⟨i, rfl⟩
    · exact ⟨h1, by simpa using h2⟩
    · exact ⟨h1, by simpa using h2⟩

/-- While nothing is added, the tasks of a key all remain, or its batch is gone. -/
theorem idle_run (esc : Text → Text) (maxBatch T : Nat) (k : Text) (p : Nat × Text) (hpk : p.2 = k) (l : List TBOp)
    (hl : Idle l) (s s' : TBatcher) (hs : p ∈ s.timers ∨ AMap.get s.batches k = none)
    (h : tbrun esc maxBatch T s l = some s') : p ∈ s'.timers ∨ AMap.get s'.batches k = none := by
  induction l generalizing s with
  | nil => simp only [tbrun, Option.some.injEq] at h; subst h; exact hs
  | cons op l ih =>
    simp only [tbrun, Option.bind_eq_some_iff] at h
    obtain ⟨s1, h1, h2⟩ := h
    refine ih (fun o ho => hl o (List.mem_cons_of_mem _ ho)) s1 ?_ h2
    rcases hl op (by simp) with rfl | ⟨i, rfl⟩
    · simp only [tbstep] at h1
      split at h1
      · simp only [Option.some.injEq] at h1; subst h1; exact hs
      · cases h1
    · simp only [tbstep] at h1
      split at h1
      · cases h1
      · next d k' hi =>
        split at h1
        · by_cases hk : k' = k
          · subst hk
            split at h1 <;> (simp only [Option.some.injEq] at h1; subst h1)
            · next hg => exact .inr hg
            · exact .inr (by simp [AMap.get_remove])
          · have hkeep : p ∈ s.timers → p ∈ s.timers.eraseIdx i := by
              intro hm
              rw [List.mem_eraseIdx_iff_getElem?]
              obtain ⟨j, hj⟩ := List.mem_iff_getElem?.mp hm
              refine ⟨j, ?_, hj⟩
              rintro rfl
              rw [hi] at hj
              apply hk
              rw [← hpk, ← Option.some.inj hj]
            split at h1 <;> (simp only [Option.some.injEq] at h1; subst h1)
            · exact hs.imp hkeep id
            · exact hs.imp hkeep (fun hg => by simp [AMap.get_remove, hg])
        · cases h1

/-- The tasks that are due can run. -/
theorem fire_all (esc : Text → Text) (maxBatch T : Nat) (m : Nat) (s : TBatcher) (hm : s.timers.length ≤ m) :
    ∃ l s', Idle l ∧ tbrun esc maxBatch T s l = some s' ∧ s'.now = s.now ∧ ∀ p ∈ s'.timers, s.now < p.1 := by
  induction m generalizing s with
  | zero =>
    have : s.timers = [] := List.length_eq_zero_iff.mp (by omega)
    exact ⟨[], s, (fun o ho => by cases ho), rfl, rfl, (fun p hp => by rw [this] at hp; cases hp)⟩
  | succ m ih =>
    by_cases hd : ∃ p ∈ s.timers, p.1 ≤ s.now
    · obtain ⟨⟨d, k⟩, hp, hle⟩ := hd
      obtain ⟨i, hi⟩ := List.mem_iff_getElem?.mp hp
      have hlt : i < s.timers.length := by
        rw [List.getElem?_eq_some_iff] at hi; exact hi.1
      have hstep : ∃ s1, tbstep esc maxBatch T s (.fire i) = some s1 ∧ s1.now = s.now ∧
          s1.timers = s.timers.eraseIdx i := by
        simp only [tbstep, hi, if_pos hle]
        cases AMap.get s.batches k <;> exact ⟨_, rfl, rfl, rfl⟩
      obtain ⟨s1, hs1, hn1, ht1⟩ := hstep
      obtain ⟨l, s', h1, h2, h3, h4⟩ := ih s1 (by rw [ht1, List.length_eraseIdx, if_pos hlt]; omega)
      refine ⟨.fire i :: l, s', ?_, by simp [tbrun, hs1, h2], by rw [h3, hn1], by rw [← hn1]; exact h4⟩
      intro o ho
      rcases List.mem_cons.mp ho with rfl | ho
      · exact .inr ⟨i, rfl⟩
      · exact h1 o ho
    · refine ⟨[], s, (fun o ho => by cases ho), rfl, rfl, fun p hp => ?_⟩
      exact Nat.lt_of_not_le (fun hc => hd ⟨p, hp, hc⟩)

/-- Time can pass. -/
theorem advance (esc : Text → Text) (maxBatch T : Nat) (m : Nat) (s : TBatcher) :
    ∃ l s', Idle l ∧ tbrun esc maxBatch T s l = some s' ∧ s'.now = s.now + m := by
  induction m generalizing s with
  | zero => exact ⟨[], s, (fun o ho => by cases ho), rfl, rfl⟩
  | succ m ih =>
    obtain ⟨l, s1, h1, h2, h3, h4⟩ := fire_all esc maxBatch T _ s (Nat.le_refl _)
    have hall : s1.timers.all (fun p => decide (s1.now < p.1)) = true := by
      rw [List.all_eq_true]; intro p hp; simpa [h3] using h4 p hp
    have ht : tbstep esc maxBatch T s1 .tick = some { s1 with now := s1.now + 1 } := by
      simp only [tbstep]; exact if_pos hall
    obtain ⟨l', s', g1, g2, g3⟩ := ih { s1 with now := s1.now + 1 }
    refine ⟨l ++ .tick :: l', s', ?_, ?_, by rw [g3]; simp only [h3]; omega⟩
    · intro o ho
      simp only [List.mem_append, List.mem_cons] at ho
      rcases ho with ho | rfl | ho
      · exact h1 o ho
      · exact .inl rfl
      · exact g1 o ho
    · rw [tbrun_append, h2]
      simp [tbrun, ht, g2]

/-- **C231** (exact form). In every reachable state without a batch for the key of `n`: the batch that `n` begins is
kept for `batch_timeout` exactly if no timeout task of the key is running that ends before. Missing from the
property: the tasks of notifications that have been sent long ago, which are never stopped and send what they find
(`C231_early`). -/
theorem C231_kept_iff_partial (esc : Text → Text) (maxBatch T : Nat) (hmax : 2 ≤ maxBatch) (h : List TBOp) (s : TBatcher)
    (hr : tbrun esc maxBatch T {} h = some s) (n : Notif) (hb : (AMap.get s.batches (key esc n)).getD [] = []) :
    KeptItsTime esc maxBatch T s n ↔ ∀ d, (d, key esc n) ∈ s.timers → s.now + T ≤ d := by
  have hadd : tbstep esc maxBatch T s (.add n) = some { s with
      batches := AMap.insert s.batches (key esc n) [(s.now, n)], timers := s.timers ++ [(s.now + T, key esc n)] } := by
    simp only [tbstep, hb, List.nil_append, List.length_singleton]
    exact if_neg (by omega)
  constructor
  · intro hk d hd
    apply Classical.byContradiction
    intro hlt
    have hI := tbinv_run esc maxBatch T h {} s (tbinv_init T) hr
    have hge := hI.prompt _ hd
    simp only at hge
    obtain ⟨l, s2, h1, h2, h3⟩ := advance esc maxBatch T (d - s.now) { s with
      batches := AMap.insert s.batches (key esc n) [(s.now, n)], timers := s.timers ++ [(s.now + T, key esc n)] }
    simp only at h3
    have hnow : s2.now = d := by omega
    rcases idle_run esc maxBatch T (key esc n) (d, key esc n) rfl l h1 _ s2
      (.inl (List.mem_append_left _ hd)) h2 with hm | hg
    · obtain ⟨i, hi⟩ := List.mem_iff_getElem?.mp hm
      have hidle : Idle (l ++ [.fire i]) := by
        intro o ho
        simp only [List.mem_append, List.mem_singleton] at ho
        rcases ho with ho | rfl
        · exact h1 o ho
        · exact .inr ⟨i, rfl⟩
      have hstep : ∃ s3, tbstep esc maxBatch T s2 (.fire i) = some s3 ∧ s3.now = s2.now ∧
          AMap.get s3.batches (key esc n) = none := by
        simp only [tbstep, hi, hnow, Nat.le_refl, if_true]
        cases hg : AMap.get s2.batches (key esc n) with
        | none => exact ⟨_, rfl, rfl, hg⟩
        | some b => exact ⟨_, rfl, rfl, by simp [AMap.get_remove]⟩
      obtain ⟨s3, hs3, hn3, hg3⟩ := hstep
      obtain ⟨ha, hfl⟩ := idle_adds esc (key esc n) _ hidle
      obtain ⟨b, hb'⟩ := hk (l ++ [.fire i]) s3 hfl (by omega)
        (by simp [tbrun, hadd, tbrun_append, h2, hs3]) (by omega)
      rw [hg3] at hb'; cases hb'
    · obtain ⟨ha, hfl⟩ := idle_adds esc (key esc n) _ h1
      obtain ⟨b, hb'⟩ := hk l s2 hfl (by omega) (by simp [tbrun, hadd, h2]) (by omega)
      rw [hg] at hb'; cases hb'
  · intro ht l s' hf hl hrun hs
    simp only [tbrun, hadd, Option.bind_some] at hrun
    refine kept_run esc maxBatch T s.now (key esc n) n l _ s' [] (by simp [AMap.get_insert]) ?_ (by exact Nat.le_refl _) hf
      (by simp; omega) hrun hs
    intro d hd
    simp only [List.mem_append, List.mem_singleton] at hd
    rcases hd with hd | hd
    · exact ht d hd
    · have := congrArg Prod.fst hd; simp only at this; omega

/-- The first notification of a kind: its batch is kept its time. -/
example : KeptItsTime id 5 3 {} .tools :=
  (C231_kept_iff_partial id 5 3 (by decide) [] {} rfl .tools rfl).mpr (by intro d hd; cases hd)

/-- **C231** fails: the second of two notifications leaves its task behind when both are sent, and the task sends the
next batch after a moment. Here the timeout is 10, the batch began at 10 and is sent at 11. -/
theorem C231_early : ∃ s, tbrun id 5 10 {} ([.add .tools, .tick, .add .tools] ++ List.replicate 9 .tick ++ [.fire 0]) =
    some s ∧ s.batches = [] ∧ ¬ KeptItsTime id 5 10 s .tools ∧
    (tbrun id 5 10 s [.add .tools, .tick, .fire 0]).map (·.out) =
      some [(10, [(0, .tools), (1, .tools)]), (11, [(10, .tools)])] := by
  have hr : tbrun id 5 10 {} ([.add .tools, .tick, .add .tools] ++ List.replicate 9 .tick ++ [.fire 0]) =
      some ⟨[], [(11, kTools)], 10, [(10, [(0, .tools), (1, .tools)])]⟩ := by decide
  refine ⟨_, hr, rfl, ?_, by decide⟩
  rw [C231_kept_iff_partial id 5 10 (by decide) _ _ hr .tools rfl]
  intro h
  exact absurd (h 11 (by decide)) (by decide)

end Verif.NotifDebounce
