import Verif.Debouncer.Lemmas
import Verif.Common.ListExtra

/-
Property C30: the message debouncer emits the latest notification of every key, exactly once, and no
superseded one.
-/

namespace Verif.Debouncer

variable {K N : Type} [DecidableEq K] [DecidableEq N]

/-- Specification: the notifications added by an execution, in the order in which they became the
latest of their key. -/
def addedIn : List (Op K N) → List (K × N)
  | [] => []
  | .insert _ k n :: rest => (k, n) :: addedIn rest
  | _ :: rest => addedIn rest

/-- What the user has got or can get: returned by `receive`, in the channel, returned by `flush`.
(Specification: no counterpart in the code.) -/
def emitted (s : State K N) : List N := s.received ++ s.chan ++ s.flushed

/-- No call and no timer is running any more. (Specification: no counterpart in the code.) -/
def Quiescent (s : State K N) : Prop := s.adders = [] ∧ s.tasks = [] ∧ s.flushing = 0

/-- No timer task is killed while it waits to send. (Specification: no counterpart in the code.) -/
def NoKilledSend (ops : List (Op K N)) : Prop :=
  ∀ pre t post s x n, ops = pre ++ .die t :: post → run ({} : State K N) pre = some s →
    task s t = some x → x.phase ≠ .sending n

/-- The receiver keeps up: the channel is never full. (Specification: no counterpart in the code.) -/
def NeverFull (ops : List (Op K N)) : Prop :=
  ∀ pre post s, ops = pre ++ post → run ({} : State K N) pre = some s → s.chan.length < 100

/-! ### Counting -/

/-- Copies of a notification held anywhere. (Specification: no counterpart in the code.) -/
def held (n : N) (s : State K N) : Nat :=
  (emitted s).count n + (s.pending.map Prod.snd).count n + (sendingOf s.tasks).count n

theorem sendingOf_setTask {s : State K N} {t : Nat} {x : Task K N}
    (hn : (s.tasks.map Task.id).Nodup) (h : task s t = some x) (p : Phase N) (n : N) :
    (sendingOf (setTask s t p)).count n + (sendingOf [x]).count n =
      (sendingOf s.tasks).count n + (sendingOf [{ x with phase := p }]).count n := by
  obtain ⟨l1, l2, e1, _, e3, _⟩ := task_split hn h
  rw [e3, e1]
  have : ∀ y : Task K N, sendingOf (l1 ++ y :: l2) = sendingOf l1 ++ (sendingOf [y] ++ sendingOf l2) := by
    intro y
    rw [sendingOf_append, ← sendingOf_append [y] l2]; rfl
  rw [this, this]
  simp only [List.count_append]
  omega

theorem sendingOf_endTask {s : State K N} {t : Nat} {x : Task K N}
    (hn : (s.tasks.map Task.id).Nodup) (h : task s t = some x) (n : N) :
    (sendingOf (endTask s t)).count n + (sendingOf [x]).count n = (sendingOf s.tasks).count n := by
  obtain ⟨l1, l2, e1, _, _, e4⟩ := task_split hn h
  rw [e4, e1]
  have : sendingOf (l1 ++ x :: l2) = sendingOf l1 ++ (sendingOf [x] ++ sendingOf l2) := by
    rw [sendingOf_append, ← sendingOf_append [x] l2]; rfl
  rw [this, sendingOf_append]
  simp only [List.count_append]
  omega

theorem count_remove_le (m : AMap K N) (k : K) (n : N) :
    ((AMap.remove m k).map Prod.snd).count n ≤ (m.map Prod.snd).count n :=
  List.Sublist.count_le _ (List.Sublist.map _ List.filter_sublist)

theorem held_step {s s' : State K N} (op : Op K N) (hI : Inv s) (h : step s op = some s') (n : N) :
    held n s' ≤ held n s + ((addedIn [op]).map Prod.snd).count n := by
  cases op with
  | insert a k m =>
    simp only [step] at h
    split at h
    · cases h
    cases h
    simp only [held, emitted, addedIn, AMap.insert, List.map_cons, List.map_nil]
    have := count_remove_le s.pending k n
    rw [List.count_cons, List.count_cons]
    simp only [List.count_nil]
    omega
  | cancel a =>
    simp only [step] at h
    split at h
    · split at h
      · cases h; simp [held, emitted, addedIn]
      · cases h; simp [held, emitted, addedIn, sendingOf_abortAll]
    · cases h
  | spawn a =>
    simp only [step] at h
    split at h
    · cases h
      simp only [held, emitted, addedIn, sendingOf_append, sendingOf, List.append_nil, List.map_nil,
        List.count_nil]
      omega
    · cases h
  | store a =>
    simp only [step] at h
    split at h
    · cases h; simp [held, emitted, addedIn]
    · cases h
  | wake t k =>
    simp only [step] at h
    split at h
    · rename_i i k' ab ht
      split at h
      · rename_i hk
        subst hk
        split at h
        · rename_i m hg
          cases h
          have hc := sendingOf_setTask hI.tnodup ht (.sending m) n
          have hp := ((amap_perm hI.wf hg).map Prod.snd).count_eq n
          simp only [sendingOf, List.count_nil, List.map_cons] at hc hp
          rw [List.count_cons] at hc hp
          simp only [List.count_nil] at hc
          simp only [held, emitted, addedIn, List.map_nil, List.count_nil]
          omega
        · cases h
          have hc := sendingOf_setTask hI.tnodup ht .cleaning n
          simp only [sendingOf, List.count_nil] at hc
          simp only [held, emitted, addedIn, List.map_nil, List.count_nil]
          omega
      · cases h
    · cases h
  | sent t =>
    simp only [step] at h
    split at h
    · rename_i i k' m ab ht
      split at h
      · cases h
        have hc := sendingOf_setTask hI.tnodup ht .cleaning n
        simp only [sendingOf, List.count_nil] at hc
        simp only [held, emitted, addedIn, List.map_nil, List.count_nil, List.count_append]
        rw [List.count_cons] at hc ⊢
        simp only [List.count_nil] at hc ⊢
        omega
      · cases h
    · cases h
  | clean t =>
    simp only [step] at h
    split at h
    · rename_i i k' ab ht
      cases h
      have hc := sendingOf_endTask hI.tnodup ht n
      simp only [held, emitted, addedIn, List.map_nil, List.count_nil]
      omega
    · cases h
  | die t =>
    simp only [step] at h
    split at h
    · rename_i x ht
      split at h
      · cases h
        have hc := sendingOf_endTask hI.tnodup ht n
        simp only [held, emitted, addedIn, List.map_nil, List.count_nil]
        omega
      · cases h
    · cases h
  | recv =>
    simp only [step] at h
    split at h
    · cases h
    · rename_i m rest hc
      cases h
      simp [held, emitted, addedIn, hc]
  | flushTimers =>
    simp only [step, Option.some.injEq] at h
    subst h
    simp [held, emitted, addedIn, sendingOf_abortAll]
  | flushPending =>
    simp only [step] at h
    split at h
    · cases h
    · cases h
      simp only [held, emitted, addedIn, List.map_nil, List.count_nil, List.count_append]
      omega

theorem addedIn_append (l1 l2 : List (Op K N)) : addedIn (l1 ++ l2) = addedIn l1 ++ addedIn l2 := by
  induction l1 with
  | nil => rfl
  | cons op l ih => cases op <;> simp [addedIn, ih]

theorem addedIn_cons (op : Op K N) (l : List (Op K N)) :
    addedIn (op :: l) = addedIn [op] ++ addedIn l := addedIn_append [op] l

theorem run_held : ∀ (ops : List (Op K N)) (s s' : State K N), Inv s → run s ops = some s' → ∀ n,
    held n s' ≤ held n s + ((addedIn ops).map Prod.snd).count n
  | [], s, s', _, h, n => by
    simp only [run, Option.some.injEq] at h
    subst h; simp [addedIn]
  | op :: rest, s, s', hI, h, n => by
    simp only [run] at h
    cases hs : step s op with
    | none => rw [hs] at h; cases h
    | some s1 =>
      rw [hs] at h
      have h1 := held_step op hI hs n
      have h2 := run_held rest s1 s' (inv_step op hI hs) h n
      rw [addedIn_cons, List.map_append, List.count_append]
      omega

theorem run_append (s : State K N) (l1 l2 : List (Op K N)) :
    run s (l1 ++ l2) = (run s l1).bind (fun s' => run s' l2) := by
  induction l1 generalizing s with
  | nil => rfl
  | cons op l ih =>
    simp only [List.cons_append, run]
    cases step s op with
    | none => rfl
    | some s1 => exact ih s1

/-- **C30 (no duplicates).** Under every interleaving of `add`, timers, `receive` and `flush`, a
notification comes out at most as often as it was added. -/
theorem C30_no_duplicates (ops : List (Op K N)) (s : State K N) (h : run {} ops = some s) (n : N) :
    (s.received ++ s.chan ++ s.flushed).count n ≤ ((addedIn ops).map Prod.snd).count n := by
  have := run_held ops {} s inv_init h n
  simp only [held, emitted] at this
  have h0 : held n ({} : State K N) = 0 := by simp [held, emitted, sendingOf]
  simp only [held, emitted] at h0
  omega

/-- A history with two calls for one key, a flush and a receive. (Specification: no counterpart in the code.) -/
def sample : List (Op Nat Nat) :=
  [.insert 0 5 1, .cancel 0, .spawn 0, .store 0, .insert 0 5 2, .cancel 0, .spawn 0, .die 0, .store 0,
   .wake 1 5, .sent 1, .clean 1, .recv, .insert 0 6 3, .cancel 0, .flushTimers, .flushPending,
   .spawn 0, .store 0, .wake 2 6, .clean 2]

example : run {} sample = some { next := 3, received := [2], flushed := [3] } := by decide

/-! ### The latest notification -/

/-- The notification is pending, being sent, or out. (Specification: no counterpart in the code.) -/
def There (k : K) (n : N) (s : State K N) : Prop :=
  AMap.get s.pending k = some n ∨ n ∈ sendingOf s.tasks ∨ n ∈ emitted s

theorem mem_sendingOf_set {s : State K N} {t : Nat} {x : Task K N}
    (hn : (s.tasks.map Task.id).Nodup) (h : task s t = some x) (p : Phase N) {n : N}
    (hm : n ∈ sendingOf s.tasks) (hx : x.phase ≠ .sending n) : n ∈ sendingOf (setTask s t p) := by
  obtain ⟨l1, l2, e1, _, e3, _⟩ := task_split hn h
  rw [mem_sendingOf] at hm ⊢
  obtain ⟨y, hy, hy'⟩ := hm
  rw [e1] at hy
  rw [e3]
  simp only [List.mem_append, List.mem_cons] at hy
  rcases hy with hy | hy | hy
  · exact ⟨y, by simp [hy], hy'⟩
  · subst hy; exact absurd hy' hx
  · exact ⟨y, by simp [hy], hy'⟩

theorem mem_sendingOf_end {s : State K N} {t : Nat} {x : Task K N}
    (hn : (s.tasks.map Task.id).Nodup) (h : task s t = some x) {n : N}
    (hm : n ∈ sendingOf s.tasks) (hx : x.phase ≠ .sending n) : n ∈ sendingOf (endTask s t) := by
  obtain ⟨l1, l2, e1, _, _, e4⟩ := task_split hn h
  rw [mem_sendingOf] at hm ⊢
  obtain ⟨y, hy, hy'⟩ := hm
  rw [e1] at hy
  rw [e4]
  simp only [List.mem_append, List.mem_cons] at hy
  rcases hy with hy | hy | hy
  · exact ⟨y, by simp [hy], hy'⟩
  · subst hy; exact absurd hy' hx
  · exact ⟨y, by simp [hy], hy'⟩

theorem there_step {s s' : State K N} (op : Op K N) (hI : Inv s) (h : step s op = some s')
    (k : K) (n : N) (hins : ∀ a m, op ≠ .insert a k m)
    (hdie : ∀ t x, op = .die t → task s t = some x → x.phase ≠ .sending n)
    (ht : There k n s) : There k n s' := by
  cases op with
  | insert a k' m =>
    simp only [step] at h
    split at h
    · cases h
    cases h
    have hne : k ≠ k' := by intro e; subst e; exact hins a m rfl
    rcases ht with ht | ht | ht
    · refine .inl ?_
      show AMap.get (AMap.insert s.pending k' m) k = some n
      rw [AMap.get_insert_ne _ _ hne]; exact ht
    · exact .inr (.inl ht)
    · exact .inr (.inr ht)
  | cancel a =>
    simp only [step] at h
    split at h
    · split at h
      · cases h; exact ht
      · cases h
        rcases ht with ht | ht | ht
        · exact .inl ht
        · refine .inr (.inl ?_)
          show n ∈ sendingOf (abortAll s.tasks _)
          rw [sendingOf_abortAll]; exact ht
        · exact .inr (.inr ht)
    · cases h
  | spawn a =>
    simp only [step] at h
    split at h
    · cases h
      rcases ht with ht | ht | ht
      · exact .inl ht
      · refine .inr (.inl ?_)
        rw [sendingOf_append]; exact List.mem_append.mpr (.inl ht)
      · exact .inr (.inr ht)
    · cases h
  | store a =>
    simp only [step] at h
    split at h
    · cases h; exact ht
    · cases h
  | wake t k' =>
    simp only [step] at h
    split at h
    · rename_i i k2 ab htk
      split at h
      · rename_i hk
        subst hk
        split at h
        · rename_i m hg
          cases h
          rcases ht with ht | ht | ht
          · by_cases e : k = k2
            · subst e
              rw [hg] at ht
              simp only [Option.some.injEq] at ht
              subst ht
              refine .inr (.inl ?_)
              obtain ⟨l1, l2, _, _, e3, _⟩ := task_split hI.tnodup htk
              show m ∈ sendingOf (setTask s t (.sending m))
              rw [e3, mem_sendingOf]
              exact ⟨⟨i, k, .sending m, ab⟩, by simp, rfl⟩
            · refine .inl ?_
              show AMap.get (AMap.remove s.pending k2) k = some n
              rw [AMap.get_remove_ne _ e]; exact ht
          · exact .inr (.inl (mem_sendingOf_set hI.tnodup htk _ ht (by simp)))
          · exact .inr (.inr ht)
        · cases h
          rcases ht with ht | ht | ht
          · exact .inl ht
          · exact .inr (.inl (mem_sendingOf_set hI.tnodup htk _ ht (by simp)))
          · exact .inr (.inr ht)
      · cases h
    · cases h
  | sent t =>
    simp only [step] at h
    split at h
    · rename_i i k' m ab htk
      split at h
      · cases h
        rcases ht with ht | ht | ht
        · exact .inl ht
        · by_cases e : m = n
          · subst e; exact .inr (.inr (by simp [emitted]))
          · exact .inr (.inl (mem_sendingOf_set hI.tnodup htk _ ht (by simpa using e)))
        · refine .inr (.inr ?_)
          simp only [emitted, List.mem_append] at ht ⊢
          rcases ht with (ht | ht) | ht
          · exact .inl (.inl ht)
          · exact .inl (.inr (.inl ht))
          · exact .inr ht
      · cases h
    · cases h
  | clean t =>
    simp only [step] at h
    split at h
    · rename_i i k' ab htk
      cases h
      rcases ht with ht | ht | ht
      · exact .inl ht
      · exact .inr (.inl (mem_sendingOf_end hI.tnodup htk ht (by simp)))
      · exact .inr (.inr ht)
    · cases h
  | die t =>
    simp only [step] at h
    split at h
    · rename_i x htk
      split at h
      · cases h
        rcases ht with ht | ht | ht
        · exact .inl ht
        · exact .inr (.inl (mem_sendingOf_end hI.tnodup htk ht (hdie t x rfl htk)))
        · exact .inr (.inr ht)
      · cases h
    · cases h
  | recv =>
    simp only [step] at h
    split at h
    · cases h
    · rename_i m rest hc
      cases h
      rcases ht with ht | ht | ht
      · exact .inl ht
      · exact .inr (.inl ht)
      · refine .inr (.inr ?_)
        simp only [emitted, hc, List.mem_append, List.mem_cons, List.not_mem_nil, or_false] at ht ⊢
        rcases ht with (ht | ht | ht) | ht
        · exact .inl (.inl (.inl ht))
        · exact .inl (.inl (.inr ht))
        · exact .inl (.inr ht)
        · exact .inr ht
  | flushTimers =>
    simp only [step, Option.some.injEq] at h
    subst h
    rcases ht with ht | ht | ht
    · exact .inl ht
    · refine .inr (.inl ?_)
      show n ∈ sendingOf (abortAll s.tasks _)
      rw [sendingOf_abortAll]; exact ht
    · exact .inr (.inr ht)
  | flushPending =>
    simp only [step] at h
    split at h
    · cases h
    · cases h
      rcases ht with ht | ht | ht
      · refine .inr (.inr ?_)
        simp only [emitted, List.mem_append]
        exact .inr (.inr (List.mem_map.mpr ⟨_, AMap.mem_of_get ht, rfl⟩))
      · exact .inr (.inl ht)
      · refine .inr (.inr ?_)
        simp only [emitted, List.mem_append] at ht ⊢
        rcases ht with ht | ht
        · exact .inl ht
        · exact .inr (.inl ht)

theorem run_there (k : K) (n : N) : ∀ (ops : List (Op K N)) (s s' : State K N), Inv s →
    run s ops = some s' → (∀ a m, Op.insert a k m ∉ ops) →
    (∀ pre t post s1 x, ops = pre ++ .die t :: post → run s pre = some s1 → task s1 t = some x →
      x.phase ≠ .sending n) →
    There k n s → There k n s'
  | [], s, s', _, h, _, _, ht => by
    simp only [run, Option.some.injEq] at h
    exact h ▸ ht
  | op :: rest, s, s', hI, h, hins, hd, ht => by
    simp only [run] at h
    cases hs : step s op with
    | none => rw [hs] at h; cases h
    | some s1 =>
      rw [hs] at h
      have h1 := there_step op hI hs k n
        (fun a m e => hins a m (e ▸ List.mem_cons_self))
        (fun t x e hx => hd [] t rest s x (by rw [e]; rfl) rfl hx) ht
      refine run_there k n rest s1 s' (inv_step op hI hs) h
        (fun a m hm => hins a m (List.mem_cons_of_mem _ hm)) ?_ h1
      intro pre t post s2 x e hr hx
      refine hd (op :: pre) t post s2 x (by rw [e]; rfl) ?_ hx
      simp only [run]; rw [hs]; exact hr

theorem quiescent_pending {s : State K N} (hI : Inv s) (hq : Quiescent s) : s.pending = [] := by
  obtain ⟨h1, h2, h3⟩ := hq
  cases hp : s.pending with
  | nil => rfl
  | cons e m =>
    obtain ⟨k, n⟩ := e
    have hg : AMap.get s.pending k = some n := by rw [hp]; simp [AMap.get_cons]
    rcases hI.live k n hg with ⟨a, ha, _⟩ | ⟨x, hx, _⟩ | hf
    · rw [h1] at ha; cases ha
    · rw [h2] at hx; cases hx
    · omega

/-- **C30 (the latest one comes out).** Let `n` be the last notification added for `k`, and let all
notifications be distinct.  When all calls and timers have finished, `n` has been emitted (through the
channel or by `flush`) exactly once, provided no timer task is killed while it waits to send.  Missing
for the full statement: executions with killed senders, see `C30_refuted`. -/
theorem C30_latest_emitted_once_partial (ops : List (Op K N)) (s : State K N)
    (h : run {} ops = some s) (hq : Quiescent s) (hk : NoKilledSend ops)
    (hdist : ((addedIn ops).map Prod.snd).Nodup)
    (pre post : List (Op K N)) (a : Nat) (k : K) (n : N)
    (hops : ops = pre ++ .insert a k n :: post) (hlast : ∀ b m, Op.insert b k m ∉ post) :
    (s.received ++ s.chan ++ s.flushed).count n = 1 := by
  have hle := C30_no_duplicates ops s h n
  have h1 : ((addedIn ops).map Prod.snd).count n ≤ 1 := List.nodup_iff_count.mp hdist n
  suffices hm : n ∈ s.received ++ s.chan ++ s.flushed by
    have := List.count_pos_iff.mpr hm
    omega
  have hI := inv_run ops {} s inv_init h
  rw [hops, run_append] at h
  cases hp : run ({} : State K N) pre with
  | none => rw [hp] at h; cases h
  | some s0 =>
    rw [hp] at h
    simp only [Option.bind_some, run] at h
    have hI0 := inv_run pre {} s0 inv_init hp
    cases hs : step s0 (.insert a k n) with
    | none => rw [hs] at h; cases h
    | some s1 =>
      rw [hs] at h
      have ht : There k n s1 := by
        simp only [step] at hs
        split at hs
        · cases hs
        · cases hs; exact .inl (AMap.get_insert_self _ _ _)
      have := run_there k n post s1 s (inv_step _ hI0 hs) h hlast (by
        intro p t q s2 x e hr hx
        refine hk (pre ++ .insert a k n :: p) t q s2 x n (by rw [hops, e]; simp) ?_ hx
        rw [run_append, hp]
        simp only [Option.bind_some, run]
        rw [hs]; exact hr) ht
      have hpend := quiescent_pending hI hq
      rcases this with h2 | h2 | h2
      · rw [hpend] at h2; cases h2
      · rw [hq.2.1] at h2; cases h2
      · exact h2

/-- The hypothesis of the previous theorem holds when the receiver keeps up. -/
theorem noKilledSend_of_neverFull (ops : List (Op K N)) (s : State K N) (h : run {} ops = some s)
    (hf : NeverFull ops) : NoKilledSend ops := by
  intro pre t post s0 x n e hr hx hsend
  have hlt := hf pre (.die t :: post) s0 e hr
  rw [e, run_append, hr] at h
  simp only [Option.bind_some, run, step, hx] at h
  have : ¬ (x.aborted = true ∧ suspended s0 x = true) := by
    rintro ⟨_, hs⟩
    unfold suspended at hs
    rw [hsend] at hs
    have hs2 : cap ≤ s0.chan.length := of_decide_eq_true hs
    have : cap = 100 := rfl
    omega
  rw [if_neg this] at h
  cases h

/-- **C30.** If the receiver keeps up, so that the channel is never full, the latest notification of
every key comes out exactly once, under every interleaving. -/
theorem C30_latest_emitted_once_never_full (ops : List (Op K N)) (s : State K N)
    (h : run {} ops = some s) (hq : Quiescent s) (hf : NeverFull ops)
    (hdist : ((addedIn ops).map Prod.snd).Nodup)
    (pre post : List (Op K N)) (a : Nat) (k : K) (n : N)
    (hops : ops = pre ++ .insert a k n :: post) (hlast : ∀ b m, Op.insert b k m ∉ post) :
    (s.received ++ s.chan ++ s.flushed).count n = 1 :=
  C30_latest_emitted_once_partial ops s h hq (noKilledSend_of_neverFull ops s h hf) hdist pre post a k n
    hops hlast

/-- In the history `sample` the channel is never full. -/
example : NeverFull sample ∧ Quiescent ({ next := 3, received := [2], flushed := [3] } : State Nat Nat) := by
  refine ⟨?_, rfl, rfl, rfl⟩
  intro pre post s e hr
  have hl : pre.length ≤ 21 := by
    have := congrArg List.length e
    rw [List.length_append] at this
    have h21 : sample.length = 21 := rfl
    omega
  have hp : pre = sample.take pre.length := by rw [e]; simp
  rw [hp] at hr
  have key : ∀ i ≤ 21, ∀ s', run {} (sample.take i) = some s' → s'.chan.length < 100 := by
    intro i hi
    have : ∀ i ∈ List.range 22, ((run {} (sample.take i)).map (fun s => s.chan.length)).getD 0 < 100 := by
      decide +kernel
    intro s' hs'
    have := this i (List.mem_range.mpr (by omega))
    rw [hs'] at this
    exact this
  exact key _ hl s hr

/-! ### Superseded notifications -/

/-- No copy of `n` is held, except possibly as the pending notification of `k`.
(Specification: no counterpart in the code.) -/
def OnlyPending (k : K) (n : N) (s : State K N) : Prop :=
  n ∉ emitted s ∧ n ∉ sendingOf s.tasks ∧ ∀ k', k' ≠ k → AMap.get s.pending k' ≠ some n

theorem sendingOf_setTask_mem {s : State K N} {t : Nat} {x : Task K N}
    (hn : (s.tasks.map Task.id).Nodup) (h : task s t = some x) (p : Phase N) {n : N}
    (hm : n ∈ sendingOf (setTask s t p)) : n ∈ sendingOf s.tasks ∨ p = .sending n := by
  obtain ⟨l1, l2, e1, _, e3, _⟩ := task_split hn h
  rw [e3, mem_sendingOf] at hm
  rw [mem_sendingOf, e1]
  obtain ⟨y, hy, hy'⟩ := hm
  simp only [List.mem_append, List.mem_cons] at hy
  rcases hy with hy | hy | hy
  · exact .inl ⟨y, by simp [hy], hy'⟩
  · subst hy; exact .inr hy'
  · exact .inl ⟨y, by simp [hy], hy'⟩

theorem sendingOf_endTask_mem {s : State K N} {t : Nat} {n : N}
    (hm : n ∈ sendingOf (endTask s t)) : n ∈ sendingOf s.tasks := by
  rw [mem_sendingOf] at hm ⊢
  obtain ⟨y, hy, hy'⟩ := hm
  exact ⟨y, (List.mem_filter.mp hy).1, hy'⟩

theorem onlyPending_step {s s' : State K N} (op : Op K N) (hI : Inv s) (h : step s op = some s')
    (k : K) (n : N) (hins : ∀ a k', op ≠ .insert a k' n)
    (hwake : ∀ t, op ≠ .wake t k) (hfl : op ≠ .flushPending)
    (ho : OnlyPending k n s) : OnlyPending k n s' := by
  obtain ⟨h1, h2, h3⟩ := ho
  cases op with
  | insert a k' m =>
    simp only [step] at h
    split at h
    · cases h
    cases h
    refine ⟨h1, h2, ?_⟩
    intro k2 hne hg
    have hg2 : AMap.get (AMap.insert s.pending k' m) k2 = some n := hg
    rw [AMap.get_insert] at hg2
    split at hg2
    · simp only [Option.some.injEq] at hg2
      subst hg2; exact hins a k' rfl
    · exact h3 k2 hne hg2
  | cancel a =>
    simp only [step] at h
    split at h
    · split at h
      · cases h; exact ⟨h1, h2, h3⟩
      · cases h
        exact ⟨h1, by simpa [sendingOf_abortAll] using h2, h3⟩
    · cases h
  | spawn a =>
    simp only [step] at h
    split at h
    · cases h
      exact ⟨h1, by simpa [sendingOf_append, sendingOf] using h2, h3⟩
    · cases h
  | store a =>
    simp only [step] at h
    split at h
    · cases h; exact ⟨h1, h2, h3⟩
    · cases h
  | wake t k' =>
    have hne : k' ≠ k := by intro e; subst e; exact hwake t rfl
    simp only [step] at h
    split at h
    · rename_i i k2 ab htk
      split at h
      · rename_i hk
        subst hk
        split at h
        · rename_i m hg
          cases h
          refine ⟨h1, ?_, ?_⟩
          · intro hm
            rcases sendingOf_setTask_mem hI.tnodup htk _ hm with hm | hm
            · exact h2 hm
            · simp only [Phase.sending.injEq] at hm
              subst hm
              exact h3 _ hne hg
          · intro k3 hk3 hg3
            have hg4 : AMap.get (AMap.remove s.pending k2) k3 = some n := hg3
            rw [AMap.get_remove] at hg4
            split at hg4
            · cases hg4
            · exact h3 k3 hk3 hg4
        · cases h
          refine ⟨h1, ?_, h3⟩
          intro hm
          rcases sendingOf_setTask_mem hI.tnodup htk _ hm with hm | hm
          · exact h2 hm
          · cases hm
      · cases h
    · cases h
  | sent t =>
    simp only [step] at h
    split at h
    · rename_i i k' m ab htk
      split at h
      · cases h
        have hmn : m ≠ n := by
          intro e; subst e
          apply h2
          obtain ⟨l1, l2, e1, _, _, _⟩ := task_split hI.tnodup htk
          rw [mem_sendingOf, e1]
          exact ⟨⟨i, k', .sending m, ab⟩, by simp, rfl⟩
        refine ⟨?_, ?_, h3⟩
        · intro hm
          apply h1
          simp only [emitted, List.mem_append, List.mem_singleton] at hm ⊢
          rcases hm with (hm | hm | hm) | hm
          · exact .inl (.inl hm)
          · exact .inl (.inr hm)
          · exact absurd hm.symm hmn
          · exact .inr hm
        · intro hm
          rcases sendingOf_setTask_mem hI.tnodup htk _ hm with hm | hm
          · exact h2 hm
          · cases hm
      · cases h
    · cases h
  | clean t =>
    simp only [step] at h
    split at h
    · cases h
      exact ⟨h1, fun hm => h2 (sendingOf_endTask_mem hm), h3⟩
    · cases h
  | die t =>
    simp only [step] at h
    split at h
    · split at h
      · cases h
        exact ⟨h1, fun hm => h2 (sendingOf_endTask_mem hm), h3⟩
      · cases h
    · cases h
  | recv =>
    simp only [step] at h
    split at h
    · cases h
    · rename_i m rest hc
      cases h
      refine ⟨?_, h2, h3⟩
      intro hm
      apply h1
      simp only [emitted, hc, List.mem_append, List.mem_cons, List.not_mem_nil, or_false] at hm ⊢
      rcases hm with ((hm | hm) | hm) | hm
      · exact .inl (.inl hm)
      · exact .inl (.inr (.inl hm))
      · exact .inl (.inr (.inr hm))
      · exact .inr hm
  | flushTimers =>
    simp only [step, Option.some.injEq] at h
    subst h
    exact ⟨h1, by simpa [sendingOf_abortAll] using h2, h3⟩
  | flushPending => exact absurd rfl hfl

theorem run_onlyPending (k : K) (n : N) : ∀ (ops : List (Op K N)) (s s' : State K N), Inv s →
    run s ops = some s' → (∀ a k', Op.insert a k' n ∉ ops) → (∀ t, Op.wake t k ∉ ops) →
    Op.flushPending ∉ ops → OnlyPending k n s → OnlyPending k n s'
  | [], s, s', _, h, _, _, _, ho => by
    simp only [run, Option.some.injEq] at h
    exact h ▸ ho
  | op :: rest, s, s', hI, h, hins, hw, hf, ho => by
    simp only [run] at h
    cases hs : step s op with
    | none => rw [hs] at h; cases h
    | some s1 =>
      rw [hs] at h
      have h1 := onlyPending_step op hI hs k n
        (fun a k' e => hins a k' (e ▸ List.mem_cons_self))
        (fun t e => hw t (e ▸ List.mem_cons_self)) (fun e => hf (e ▸ List.mem_cons_self)) ho
      exact run_onlyPending k n rest s1 s' (inv_step op hI hs) h
        (fun a k' hm => hins a k' (List.mem_cons_of_mem _ hm))
        (fun t hm => hw t (List.mem_cons_of_mem _ hm))
        (fun hm => hf (List.mem_cons_of_mem _ hm)) h1

theorem mem_addedIn {ops : List (Op K N)} {a : Nat} {k : K} {n : N} (h : Op.insert a k n ∈ ops) :
    n ∈ (addedIn ops).map Prod.snd := by
  induction ops with
  | nil => cases h
  | cons op l ih =>
    rw [addedIn_cons, List.map_append, List.mem_append]
    rcases List.mem_cons.mp h with e | e
    · rw [← e]; exact .inl (by simp [addedIn])
    · exact .inr (ih e)

theorem held_zero_iff {n : N} {s : State K N} : held n s = 0 ↔
    n ∉ emitted s ∧ n ∉ s.pending.map Prod.snd ∧ n ∉ sendingOf s.tasks := by
  unfold held
  rw [← List.count_eq_zero, ← List.count_eq_zero, ← List.count_eq_zero]
  omega

/-- **C30 (superseded ones do not come out).** If `n₁` is added for `k` and then `n₂` for the same key,
and in between no timer of `k` fires and nothing is flushed, then `n₁` is never emitted, neither then
nor later. -/
theorem C30_superseded_never_emitted (ops pre mid post : List (Op K N)) (a b : Nat) (k : K) (n₁ n₂ : N)
    (hops : ops = pre ++ .insert a k n₁ :: (mid ++ .insert b k n₂ :: post))
    (hdist : ((addedIn ops).map Prod.snd).Nodup)
    (hw : ∀ t, Op.wake t k ∉ mid) (hf : Op.flushPending ∉ mid)
    (s : State K N) (h : run {} ops = some s) :
    n₁ ∉ s.received ++ s.chan ++ s.flushed := by
  -- n₁ occurs once among the added notifications
  have hparts : n₁ ∉ (addedIn pre).map Prod.snd ∧ n₁ ∉ (addedIn mid).map Prod.snd ∧ n₁ ≠ n₂ ∧
      n₁ ∉ (addedIn post).map Prod.snd := by
    rw [hops, addedIn_append, addedIn_cons, addedIn_append, addedIn_cons (.insert b k n₂)] at hdist
    simp only [addedIn, List.map_append, List.map_cons, List.map_nil, List.cons_append,
      List.nil_append, List.nodup_append, List.nodup_cons, List.mem_append, List.mem_cons,
      not_or] at hdist
    obtain ⟨_, ⟨⟨h1, h2, h3⟩, _⟩, h4⟩ := hdist
    exact ⟨fun hm => h4 n₁ hm n₁ (.inl rfl) rfl, h1, h2, h3⟩
  obtain ⟨hpre, hmid, hne, hpost⟩ := hparts
  rw [hops, run_append] at h
  cases hp : run ({} : State K N) pre with
  | none => rw [hp] at h; cases h
  | some s0 =>
    rw [hp] at h
    simp only [Option.bind_some, run] at h
    have hI0 := inv_run pre {} s0 inv_init hp
    have h0 : held n₁ s0 = 0 := by
      have := run_held pre {} s0 inv_init hp n₁
      rw [List.count_eq_zero.mpr hpre] at this
      have hz : held n₁ ({} : State K N) = 0 := by simp [held, emitted, sendingOf]
      omega
    rw [held_zero_iff] at h0
    cases hs : step s0 (.insert a k n₁) with
    | none => rw [hs] at h; cases h
    | some s1 =>
      rw [hs] at h
      have hI1 := inv_step _ hI0 hs
      have ho1 : OnlyPending k n₁ s1 := by
        simp only [step] at hs
        split at hs
        · cases hs
        · cases hs
          refine ⟨h0.1, h0.2.2, ?_⟩
          intro k' hk' hg
          have hg2 : AMap.get (AMap.insert s0.pending k n₁) k' = some n₁ := hg
          rw [AMap.get_insert_ne _ _ hk'] at hg2
          exact h0.2.1 (List.mem_map.mpr ⟨_, AMap.mem_of_get hg2, rfl⟩)
      change run s1 (mid ++ .insert b k n₂ :: post) = some s at h
      rw [run_append] at h
      cases hm : run s1 mid with
      | none => rw [hm] at h; cases h
      | some s2 =>
        rw [hm] at h
        simp only [Option.bind_some, run] at h
        have hI2 := inv_run mid s1 s2 hI1 hm
        have ho2 := run_onlyPending k n₁ mid s1 s2 hI1 hm
          (fun a' k' hx => hmid (mem_addedIn hx)) hw hf ho1
        cases hs3 : step s2 (.insert b k n₂) with
        | none => rw [hs3] at h; cases h
        | some s3 =>
          rw [hs3] at h
          have hI3 := inv_step _ hI2 hs3
          have hz3 : held n₁ s3 = 0 := by
            simp only [step] at hs3
            split at hs3
            · cases hs3
            · cases hs3
              rw [held_zero_iff]
              refine ⟨ho2.1, ?_, ho2.2.1⟩
              intro hx
              have hx2 : n₁ ∈ (AMap.insert s2.pending k n₂).map Prod.snd := hx
              obtain ⟨⟨k', v⟩, he, hv⟩ := List.mem_map.mp hx2
              simp only at hv
              subst hv
              have hg := AMap.get_of_mem (AMap.wf_insert hI2.wf k n₂) he
              rw [AMap.get_insert] at hg
              split at hg
              · simp only [Option.some.injEq] at hg
                exact hne hg.symm
              · rename_i hk'
                exact ho2.2.2 k' hk' hg
          have hfin := run_held post s3 s hI3 h n₁
          rw [List.count_eq_zero.mpr hpost, hz3] at hfin
          have : held n₁ s = 0 := by omega
          exact (held_zero_iff.mp this).1

example : sample = [] ++ .insert 0 5 1 :: ([.cancel 0, .spawn 0, .store 0] ++ .insert 0 5 2 ::
    [.cancel 0, .spawn 0, .die 0, .store 0, .wake 1 5, .sent 1, .clean 1, .recv, .insert 0 6 3,
     .cancel 0, .flushTimers, .flushPending, .spawn 0, .store 0, .wake 2 6, .clean 2]) ∧
    ((addedIn sample).map Prod.snd).Nodup := by decide

/-! ### Everything finishes -/

/-- Work left for a call. (Specification: no counterpart in the code.) -/
def adderWork : AddPhase → Nat
  | .inserted => 7
  | .cancelled => 6
  | .spawned _ => 1

/-- Work left for a task. (Specification: no counterpart in the code.) -/
def taskWork : Phase N → Nat
  | .sleeping => 4
  | .sending _ => 3
  | .cleaning => 1

/-- Work left. (Specification: no counterpart in the code.) -/
def work (s : State K N) : Nat :=
  (s.adders.map (fun a => adderWork a.phase)).sum + (s.tasks.map (fun t => taskWork t.phase)).sum +
    s.flushing + s.chan.length

theorem work_abortAll (l : List (Task K N)) (ids : List Nat) :
    (abortAll l ids).map (fun t => taskWork t.phase) = l.map (fun t => taskWork t.phase) := by
  unfold abortAll
  rw [List.map_map]
  apply List.map_congr_left
  intro x _
  simp only [Function.comp]
  split <;> rfl

/-- Steps that start nothing new and kill nothing. (Specification: no counterpart in the code.) -/
def Finishing : Op K N → Prop
  | .insert .. => False
  | .flushTimers => False
  | .die _ => False
  | _ => True

theorem adder_of_mem {s : State K N} (hn : (s.adders.map Adder.id).Nodup) {a : Adder K}
    (h : a ∈ s.adders) : adder s a.id = some a := by
  unfold adder
  cases hf : s.adders.find? (fun x => decide (x.id = a.id)) with
  | none =>
    rw [List.find?_eq_none] at hf
    exact absurd (decide_eq_true rfl) (hf a h)
  | some b =>
    obtain ⟨l1, l2, h1, h2, h3, h4⟩ := find_split Adder.id a.id b s.adders hn hf
    rw [h1] at h
    simp only [List.mem_append, List.mem_cons] at h
    rcases h with h | h | h
    · exact absurd rfl (h3 a h)
    · rw [h]
    · exact absurd rfl (h4 a h)

theorem task_of_mem {s : State K N} (hn : (s.tasks.map Task.id).Nodup) {a : Task K N}
    (h : a ∈ s.tasks) : task s a.id = some a := by
  unfold task
  cases hf : s.tasks.find? (fun x => decide (x.id = a.id)) with
  | none =>
    rw [List.find?_eq_none] at hf
    exact absurd (decide_eq_true rfl) (hf a h)
  | some b =>
    obtain ⟨l1, l2, h1, h2, h3, h4⟩ := find_split Task.id a.id b s.tasks hn hf
    rw [h1] at h
    simp only [List.mem_append, List.mem_cons] at h
    rcases h with h | h | h
    · exact absurd rfl (h3 a h)
    · rw [h]
    · exact absurd rfl (h4 a h)

/-- As long as something is running, some running call, task or the receiver can take a step that
brings the end nearer. -/
theorem progress {s : State K N} (hI : Inv s) (hq : ¬ Quiescent s) :
    ∃ op s', Finishing op ∧ step s op = some s' ∧ work s' < work s := by
  by_cases ha : s.adders = []
  · by_cases hc : s.chan = []
    · by_cases ht : s.tasks = []
      · have hf : s.flushing ≠ 0 := fun e => hq ⟨ha, ht, e⟩
        refine ⟨.flushPending, _, trivial, by simp only [step]; rw [if_neg hf], ?_⟩
        simp only [work]; omega
      · obtain ⟨x, hx⟩ := List.exists_mem_of_ne_nil _ ht
        have htk := task_of_mem hI.tnodup hx
        obtain ⟨l1, l2, e1, _, e3, e4⟩ := task_split hI.tnodup htk
        obtain ⟨i, k, p, ab⟩ := x
        cases p with
        | sleeping =>
          cases hg : AMap.get s.pending k with
          | some n =>
            refine ⟨.wake i k, _, trivial, by simp only [step, htk, hg, if_true]; rfl, ?_⟩
            have e3' := e3 (.sending n)
            simp only at e3'
            simp only [work]
            rw [e3', e1]
            simp [taskWork]
          | none =>
            refine ⟨.wake i k, _, trivial, by simp only [step, htk, hg, if_true]; rfl, ?_⟩
            have e3' := e3 .cleaning
            simp only at e3'
            simp only [work]
            rw [e3', e1]
            simp [taskWork]
        | sending n =>
          refine ⟨.sent i, _, trivial, by simp only [step, htk]; rw [if_pos (by rw [hc]; exact (by decide : 0 < cap))], ?_⟩
          have e3' := e3 .cleaning
          simp only at e3'
          simp only [work]
          rw [e3', e1]
          simp [taskWork]
          omega
        | cleaning =>
          refine ⟨.clean i, _, trivial, by simp only [step, htk]; rfl, ?_⟩
          simp only at e4
          simp only [work]
          rw [e4, e1]
          simp [taskWork]
    · obtain ⟨n, rest, hc'⟩ := List.exists_cons_of_ne_nil hc
      refine ⟨.recv, _, trivial, by simp only [step, hc']; rfl, ?_⟩
      simp [work, hc']
  · obtain ⟨x, hx⟩ := List.exists_mem_of_ne_nil _ ha
    have hadd := adder_of_mem hI.anodup hx
    obtain ⟨l1, l2, e1, _, e3, e4⟩ := adder_split hI.anodup hadd
    obtain ⟨i, k, p⟩ := x
    cases p with
    | inserted =>
      have e3' := e3 .cancelled
      simp only at e3'
      cases hg : AMap.get s.timers k with
      | none =>
        refine ⟨.cancel i, _, trivial, by simp only [step, hadd, hg]; rfl, ?_⟩
        simp only [work]
        rw [e3', e1]
        simp [adderWork]
      | some t =>
        refine ⟨.cancel i, _, trivial, by simp only [step, hadd, hg]; rfl, ?_⟩
        simp only [work]
        rw [e3', e1, work_abortAll]
        simp [adderWork]
    | cancelled =>
      have e3' := e3 (.spawned s.next)
      simp only at e3'
      refine ⟨.spawn i, _, trivial, by simp only [step, hadd]; rfl, ?_⟩
      simp only [work]
      rw [e3', e1]
      simp [adderWork, taskWork]
      omega
    | spawned t =>
      simp only at e4
      refine ⟨.store i, _, trivial, by simp only [step, hadd]; rfl, ?_⟩
      simp only [work]
      rw [e4, e1]
      simp [adderWork]

/-- **C30 (termination).** From every reachable state, letting the running calls, the timers and the
receiver go on leads to a state where nothing is running; no call and no timer can get stuck. -/
theorem C30_quiescence_reachable (ops : List (Op K N)) (s : State K N) (h : run {} ops = some s) :
    ∃ more s', (∀ op ∈ more, Finishing op) ∧ run s more = some s' ∧ Quiescent s' ∧
      s'.pending = [] := by
  have hI := inv_run ops {} s inv_init h
  clear h
  generalize hw : work s = w
  induction w using Nat.strongRecOn generalizing s with
  | _ w ih =>
    by_cases hq : Quiescent s
    · exact ⟨[], s, by simp, rfl, hq, quiescent_pending hI hq⟩
    · obtain ⟨op, s1, hfin, hs, hlt⟩ := progress hI hq
      obtain ⟨more, s', h1, h2, h3⟩ := ih (work s1) (by omega) s1 (inv_step op hI hs) rfl
      refine ⟨op :: more, s', ?_, ?_, h3⟩
      · intro o ho
        rcases List.mem_cons.mp ho with e | e
        · exact e ▸ hfin
        · exact h1 o e
      · simp only [run]; rw [hs]; exact h2

example : run {} ([.insert 0 5 1, .cancel 0] : List (Op Nat Nat)) =
    some { pending := [(5, 1)], adders := [⟨0, 5, .cancelled⟩] } := by decide

/-! ### Refutation -/

/-- 100 notifications for distinct keys, filling the channel. (Specification: no counterpart in the code.) -/
def fill : List (Op Nat Nat) :=
  (List.range 100).flatMap (fun i =>
    [.insert 0 i i, .cancel 0, .spawn 0, .store 0, .wake i i, .sent i, .clean i])

/-- The receiver is slow and the channel full; the timer of key 500 fires just after the second
notification has been stored and waits for room; `add` then aborts it and the notification with it.
(Specification: no counterpart in the code.) -/
def losing : List (Op Nat Nat) :=
  fill ++ [.insert 0 500 1001, .cancel 0, .spawn 0, .store 0, .insert 0 500 1002, .wake 100 500,
    .cancel 0, .die 100, .spawn 0, .store 0, .wake 101 500, .clean 101]

/-- **C30 refuted in general.** The last notification of a key can be lost: it is taken by the old
timer task, which the same call of `add` then aborts while it waits for room in the channel. -/
theorem C30_refuted : ¬ ∀ (ops : List (Op Nat Nat)) (s : State Nat Nat), run {} ops = some s →
    Quiescent s → ((addedIn ops).map Prod.snd).Nodup →
    ∀ pre post a k n, ops = pre ++ .insert a k n :: post → (∀ b m, Op.insert b k m ∉ post) →
      n ∈ s.received ++ s.chan ++ s.flushed := by
  intro h
  have := h losing { next := 102, chan := List.range 100 } (by decide +kernel) ⟨rfl, rfl, rfl⟩
    (by decide +kernel)
    (fill ++ [.insert 0 500 1001, .cancel 0, .spawn 0, .store 0])
    [.wake 100 500, .cancel 0, .die 100, .spawn 0, .store 0, .wake 101 500, .clean 101]
    0 500 1002 (by decide +kernel) (by simp)
  simp at this

end Verif.Debouncer
