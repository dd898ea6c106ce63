import Verif.Batch.Stateful

/-
C225: handlers that share a state. C226: `fail_fast`.
-/

namespace Verif.Batch.Stateful

open Verif

variable {S L A : Type}

theorem run_append (cfg : Config) (h : Handler S L A) (s : State S L A) (a b : List Op) :
    run cfg h s (a ++ b) = (run cfg h s a).bind (fun x => run cfg h x b) := by
  induction a generalizing s with
  | nil => rfl
  | cons op r ih =>
    simp only [List.cons_append, run]
    cases step cfg h s op with
    | none => rfl
    | some x => exact ih x

theorem run_snoc {cfg : Config} {h : Handler S L A} {s t : State S L A} {l : List Op} {op : Op}
    (hr : run cfg h s (l ++ [op]) = some t) : ∃ s1, run cfg h s l = some s1 ∧ step cfg h s1 op = some t := by
  rw [run_append] at hr
  cases h1 : run cfg h s l with
  | none => rw [h1] at hr; cases hr
  | some x =>
    rw [h1] at hr
    simp only [Option.bind_some, run] at hr
    cases h2 : step cfg h x op with
    | none => rw [h2] at hr; cases hr
    | some y => rw [h2] at hr; exact ⟨x, rfl, by rw [h2]; exact hr⟩

theorem countP_set (p : Task L A → Bool) (ts : List (Task L A)) (j : Nat) (x y : Task L A) (hj : ts[j]? = some x) :
    (ts.set j y).countP p + (if p x = true then 1 else 0) = ts.countP p + (if p y = true then 1 else 0) := by
  induction ts generalizing j with
  | nil => simp at hj
  | cons t ts ih =>
    cases j with
    | zero =>
      simp only [List.getElem?_cons_zero, Option.some.injEq] at hj
      subst hj
      simp only [List.set_cons_zero, List.countP_cons]
      omega
    | succ j =>
      have := ih j (by simpa using hj)
      simp only [List.set_cons_succ, List.countP_cons] at this ⊢
      omega

/-! ### What it means that requests are handled one after the other -/

/-- The handler, alone with the shared state, gets from `l` and `s` to the answer `a`, leaving `s'`.
(Specification: no counterpart in the code.) -/
inductive Alone (h : Handler S L A) : L → S → S → A → Prop
  | last {l s s' a} : h.go l s = (s', .inr a) → Alone h l s s' a
  | more {l s s1 l' s' a} : h.go l s = (s1, .inl l') → Alone h l' s1 s' a → Alone h l s s' a

/-- The requests of these indices are handled one after the other, each alone, with these answers.
(Specification: no counterpart in the code.) -/
inductive Serial (h : Handler S L A) (s0 : S) : List (Nat × A) → S → Prop
  | none : Serial h s0 [] s0
  | next {l s i s' a} : Serial h s0 l s → Alone h (h.start i) s s' a → Serial h s0 (l ++ [(i, a)]) s'

/-- The answers of the tasks are those of the list, and each of its requests is in it once.
(Specification: no counterpart in the code.) -/
def Matches (l : List (Nat × A)) (ts : List (Task L A)) : Prop :=
  (l.map Prod.fst).Nodup ∧ ∀ i a, (i, a) ∈ l ↔ ts[i]? = some (.done (some a))

theorem matches_init (n : Nat) : Matches ([] : List (Nat × A)) (List.replicate n (.waiting : Task L A)) := by
  refine ⟨by simp, fun i a => ?_⟩
  simp only [List.not_mem_nil, false_iff]
  intro hh
  have := List.mem_of_getElem? hh
  rw [List.mem_replicate] at this
  cases this.2

theorem matches_keep (l : List (Nat × A)) (ts : List (Task L A)) (hm : Matches l ts) (i : Nat) (x y : Task L A)
    (hx : ts[i]? = some x) (hx' : ∀ a, x ≠ .done (some a)) (hy : ∀ a, y ≠ .done (some a)) : Matches l (ts.set i y) := by
  refine ⟨hm.1, fun j a => ?_⟩
  rw [hm.2 j a, List.getElem?_set]
  by_cases hj : i = j
  · subst hj
    have hlt : i < ts.length := (List.getElem?_eq_some_iff.mp hx).1
    simp only [hx, if_true, hlt, Option.some.injEq]
    exact ⟨fun h => absurd h (hx' a), fun h => absurd h (hy a)⟩
  · rw [if_neg hj]

theorem matches_answer (l : List (Nat × A)) (ts : List (Task L A)) (hm : Matches l ts) (i : Nat) (x : Task L A) (a : A)
    (hx : ts[i]? = some x) (hx' : ∀ a, x ≠ .done (some a)) : Matches (l ++ [(i, a)]) (ts.set i (.done (some a))) := by
  have hlt : i < ts.length := (List.getElem?_eq_some_iff.mp hx).1
  refine ⟨?_, fun j b => ?_⟩
  · rw [List.map_append, List.nodup_append]
    refine ⟨hm.1, by simp, ?_⟩
    intro k hk k' hk' e
    simp only [List.map_cons, List.map_nil, List.mem_singleton] at hk'
    subst e hk'
    obtain ⟨⟨_, b⟩, hb, rfl⟩ := List.mem_map.mp hk
    have := (hm.2 _ b).mp hb
    simp only at this hx
    rw [hx] at this
    exact hx' b (by injection this)
  · rw [List.mem_append, hm.2 j b, List.getElem?_set]
    by_cases hj : i = j
    · subst hj
      simp only [hx, if_true, hlt, Option.some.injEq, List.mem_singleton, Prod.mk.injEq, true_and, Task.done.injEq]
      constructor
      · rintro (h | h)
        · exact absurd h (hx' b)
        · exact h.symm
      · exact fun h => .inr h.symm
    · simp only [if_neg hj, List.mem_singleton, Prod.mk.injEq]
      constructor
      · rintro (h | h)
        · exact h
        · exact absurd h.1.symm hj
      · exact .inl

/-! ### C225: handlers that take the lock once -/

/-- The handler gets to its answer without letting go of the shared state in between: it takes the lock once, and does
not suspend afterwards. (Specification: no counterpart in the code.) -/
def OneStep (h : Handler S L A) : Prop := ∀ l s, ∃ a, (h.go l s).2 = .inr a

/-- **C225**. With handlers that take the lock once, whatever the schedule, the limit and the time: the shared state and
the answers are those of the answered requests handled one after the other in some order, each once. A request that
timed out has had no effect. Missing from the property: handlers that let go of the state before they answer. -/
theorem C225_one_lock_partial (cfg : Config) (h : Handler S L A) (ho : OneStep h) (n : Nat) (s0 : S) (k : List Op)
    (s : State S L A) (hr : run cfg h (init cfg n s0) k = some s) :
    ∃ l, Serial h s0 l s.shared ∧ Matches l s.tasks := by
  induction k using snocInduction generalizing s with
  | nil => cases hr; exact ⟨[], .none, matches_init n⟩
  | append_singleton k op ih =>
    obtain ⟨s1, h1, h2⟩ := run_snoc hr
    -- a running task is where its handler began
    have hstart : ∀ (k : List Op) (s : State S L A), run cfg h (init cfg n s0) k = some s →
        ∀ i l, s.tasks[i]? = some (.running l) → l = h.start i := by
      intro k
      induction k using snocInduction with
      | nil =>
        intro s hr i l hi
        cases hr
        have := List.mem_of_getElem? hi
        simp only [init, List.mem_replicate] at this
        cases this.2
      | append_singleton k op ih' =>
        intro s hr i l hi
        obtain ⟨t, g1, g2⟩ := run_snoc hr
        have i' := ih' t g1 i l
        cases op with
        | start j =>
          simp only [step] at g2
          split at g2
          · split at g2
            · cases g2
              simp only [List.getElem?_set] at hi
              split at hi
              · next e => subst e; split at hi <;> cases hi; rfl
              · exact i' hi
            · cases g2
          · cases g2
        | go j =>
          simp only [step] at g2
          split at g2
          · next l1 _ =>
            obtain ⟨a, ha⟩ := ho l1 t.shared
            split at g2
            · next hg => rw [hg] at ha; cases ha
            · cases g2
              simp only [List.getElem?_set] at hi
              split at hi
              · split at hi <;> cases hi
              · exact i' hi
          · cases g2
        | timeout j =>
          simp only [step] at g2
          split at g2
          · split at g2
            · cases g2
              simp only [List.getElem?_set] at hi
              split at hi
              · split at hi <;> cases hi
              · exact i' hi
            · cases g2
          · cases g2
    obtain ⟨l, i1, i2⟩ := ih s1 h1
    cases op with
    | start i =>
      simp only [step] at h2
      split at h2
      · next hi =>
        split at h2
        · cases h2
          exact ⟨l, i1, matches_keep l _ i2 i .waiting _ hi (by simp) (by simp)⟩
        · cases h2
      · cases h2
    | go i =>
      simp only [step] at h2
      split at h2
      · next l1 hi =>
        obtain ⟨a, ha⟩ := ho l1 s1.shared
        split at h2
        · next hg => rw [hg] at ha; cases ha
        · next x b hg =>
          cases h2
          refine ⟨l ++ [(i, b)], ?_, matches_answer l _ i2 i (.running l1) b hi (by simp)⟩
          have := hstart k s1 h1 i l1 hi
          subst this
          exact .next i1 (.last hg)
      · cases h2
    | timeout i =>
      simp only [step] at h2
      split at h2
      · next l1 hi =>
        split at h2
        · cases h2
          exact ⟨l, i1, matches_keep l _ i2 i (.running l1) _ hi (by simp) (by simp)⟩
        · cases h2
      · cases h2

/-- The handler of the documentation (/repo/src/utils/parallel_batch.rs L215-244): it counts requests under the lock.
(Specification: no counterpart in the code.) -/
def counting : Handler Nat Unit Nat := { start := fun _ => (), go := fun _ c => (c + 1, .inr (c + 1)) }

/-- **C225**. The counter of the documentation: whatever the schedule, it has grown by the number of requests that were
answered, those timed out not counted. -/
theorem C225_counter (cfg : Config) (n c0 : Nat) (k : List Op) (s : State Nat Unit Nat)
    (hr : run cfg counting (init cfg n c0) k = some s) :
    s.shared = c0 + s.tasks.countP (fun | .done (some _) => true | _ => false) := by
  induction k using snocInduction generalizing s with
  | nil => cases hr; simp [init, List.countP_replicate]
  | append_singleton k op ih =>
    obtain ⟨s1, h1, h2⟩ := run_snoc hr
    have i := ih s1 h1
    cases op with
    | start j =>
      simp only [step] at h2
      split at h2
      · next hj =>
        split at h2
        · cases h2
          have := countP_set (fun | .done (some _) => true | _ => false) s1.tasks j .waiting
            (.running (counting.start j)) hj
          simp at this ⊢
          omega
        · cases h2
      · cases h2
    | go j =>
      simp only [step] at h2
      split at h2
      · next l hj =>
        simp only [counting] at h2
        cases h2
        have := countP_set (fun | .done (some _) => true | _ => false) s1.tasks j (.running l)
          (.done (some (s1.shared + 1))) hj
        simp at this ⊢
        omega
      · cases h2
    | timeout j =>
      simp only [step] at h2
      split at h2
      · next l hj =>
        split at h2
        · cases h2
          have := countP_set (fun | .done (some _) => true | _ => false) s1.tasks j (.running l) (.done none) hj
          simp at this ⊢
          omega
        · cases h2
      · cases h2

/-! ### C225: one request at a time -/

/-- The handler, alone with the shared state, gets from `l` and `s` to `l'` and `s'` without answering.
(Specification: no counterpart in the code.) -/
inductive OnWay (h : Handler S L A) : L → S → L → S → Prop
  | here {l s} : OnWay h l s l s
  | more {l s l1 s1 l2 s2} : OnWay h l s l1 s1 → h.go l1 s1 = (s2, .inl l2) → OnWay h l s l2 s2

theorem onWay_answers (h : Handler S L A) {l s l' s' s2 a} (hw : OnWay h l s l' s') (ha : Alone h l' s' s2 a) :
    Alone h l s s2 a := by
  induction hw with
  | here => exact ha
  | more _ hg ih => exact ih (.more hg ha)

/-- The task is in its handler. (Specification: no counterpart in the code.) -/
def Task.isRunning : Task L A → Bool
  | .running _ => true
  | _ => false

theorem permits_run (cfg : Config) (h : Handler S L A) (n : Nat) (s0 : S) (k : List Op) (s : State S L A)
    (hr : run cfg h (init cfg n s0) k = some s) :
    s.permits + s.tasks.countP Task.isRunning = cfg.maxConcurrency := by
  induction k using snocInduction generalizing s with
  | nil => cases hr; simp [init, List.countP_replicate, Task.isRunning]
  | append_singleton k op ih =>
    obtain ⟨s1, h1, h2⟩ := run_snoc hr
    have i := ih s1 h1
    cases op with
    | start j =>
      simp only [step] at h2
      split at h2
      · next hj =>
        split at h2
        · cases h2
          have := countP_set Task.isRunning s1.tasks j .waiting (.running (h.start j)) hj
          simp [Task.isRunning] at this ⊢
          omega
        · cases h2
      · cases h2
    | go j =>
      simp only [step] at h2
      split at h2
      · next l hj =>
        split at h2
        · next x l' _ =>
          cases h2
          have := countP_set Task.isRunning s1.tasks j (.running l) (.running l') hj
          simp [Task.isRunning] at this ⊢
          omega
        · next x a _ =>
          cases h2
          have := countP_set Task.isRunning s1.tasks j (.running l) (.done (some a)) hj
          simp [Task.isRunning] at this ⊢
          omega
      · cases h2
    | timeout j =>
      simp only [step] at h2
      split at h2
      · next l hj =>
        split at h2
        · cases h2
          have := countP_set Task.isRunning s1.tasks j (.running l) (.done none) hj
          simp [Task.isRunning] at this ⊢
          omega
        · cases h2
      · cases h2

/-- **C225**. At no time are more requests in their handlers than the limit says. -/
theorem C225_limit (cfg : Config) (h : Handler S L A) (n : Nat) (s0 : S) (k : List Op) (s : State S L A)
    (hr : run cfg h (init cfg n s0) k = some s) : s.tasks.countP Task.isRunning ≤ cfg.maxConcurrency := by
  have := permits_run cfg h n s0 k s hr
  omega

/-- **C225**. With a limit of one and no time-out, any handlers: the shared state and the answers are those of the
requests handled one after the other in some order, each alone. -/
theorem C225_one_at_a_time_partial (cfg : Config) (hc : cfg.maxConcurrency = 1) (ht : cfg.timeout = none)
    (h : Handler S L A) (n : Nat) (s0 : S) (k : List Op) (s : State S L A)
    (hr : run cfg h (init cfg n s0) k = some s) :
    ∃ l x, Serial h s0 l x ∧ Matches l s.tasks ∧
      ((∀ (i : Nat) (y : L), s.tasks[i]? ≠ some (.running y)) → s.shared = x) := by
  have main : ∃ l x, Serial h s0 l x ∧ Matches l s.tasks ∧
      ((∀ (i : Nat) (y : L), s.tasks[i]? ≠ some (.running y)) → s.shared = x) ∧
      (∀ (i : Nat) (y : L), s.tasks[i]? = some (.running y) → OnWay h (h.start i) x y s.shared) := by
    induction k using snocInduction generalizing s with
    | nil =>
      cases hr
      refine ⟨[], s0, .none, matches_init n, fun _ => rfl, ?_⟩
      intro i y hi
      have := List.mem_of_getElem? hi
      simp only [init, List.mem_replicate] at this
      cases this.2
    | append_singleton k op ih =>
      obtain ⟨s1, h1, h2⟩ := run_snoc hr
      obtain ⟨l, x, i1, i2, i3, i4⟩ := ih s1 h1
      have hp := permits_run cfg h n s0 k s1 h1
      have hp' := permits_run cfg h n s0 (k ++ [op]) s hr
      rw [hc] at hp hp'
      have none_running : s1.tasks.countP Task.isRunning = 0 → ∀ (i : Nat) (y : L), s1.tasks[i]? ≠ some (.running y) := by
        intro h0 i y hi
        have := List.countP_eq_zero.mp h0 _ (List.mem_of_getElem? hi)
        simp [Task.isRunning] at this
      cases op with
      | start i =>
        simp only [step] at h2
        split at h2
        · next hi =>
          split at h2
          · next hpos =>
            cases h2
            have hno := none_running (by omega)
            have hx : s1.shared = x := i3 hno
            refine ⟨l, x, i1, matches_keep l _ i2 i .waiting _ hi (by simp) (by simp), ?_, ?_⟩
            · intro _; exact hx
            · intro j y hj
              simp only [List.getElem?_set] at hj
              split at hj
              · next e =>
                subst e
                split at hj <;> cases hj
                simp only
                rw [hx]
                exact .here
              · exact absurd hj (hno j y)
          · cases h2
        · cases h2
      | go i =>
        simp only [step] at h2
        split at h2
        · next l1 hi =>
          have hw := i4 i l1 hi
          -- no other task is running
          have honly : ∀ (j : Nat) (y : L), j ≠ i → s1.tasks[j]? ≠ some (.running y) := by
            intro j y hji hj
            have e := countP_set Task.isRunning s1.tasks i (.running l1) .waiting hi
            have hj' : (s1.tasks.set i .waiting)[j]? = some (.running y) := by
              rw [List.getElem?_set, if_neg (Ne.symm hji)]; exact hj
            have : 0 < (s1.tasks.set i .waiting).countP Task.isRunning :=
              List.countP_pos_iff.mpr ⟨_, List.mem_of_getElem? hj', rfl⟩
            simp [Task.isRunning] at e
            omega
          split at h2
          · next z l2 hg =>
            cases h2
            refine ⟨l, x, i1, matches_keep l _ i2 i (.running l1) _ hi (by simp) (by simp), ?_, ?_⟩
            · intro hno
              refine absurd ?_ (hno i l2)
              simp [(List.getElem?_eq_some_iff.mp hi).1]
            · intro j y hj
              simp only [List.getElem?_set] at hj
              split at hj
              · next e =>
                subst e
                split at hj <;> cases hj
                exact .more hw hg
              · next e => exact absurd hj (honly j y (Ne.symm e))
          · next z a hg =>
            cases h2
            refine ⟨l ++ [(i, a)], z, .next i1 (onWay_answers h hw (.last hg)),
              matches_answer l _ i2 i (.running l1) a hi (by simp), fun _ => rfl, ?_⟩
            intro j y hj
            simp only [List.getElem?_set] at hj
            split at hj
            · split at hj <;> cases hj
            · next e => exact absurd hj (honly j y (Ne.symm e))
        · cases h2
      | timeout i =>
        simp only [step, ht] at h2
        split at h2
        · simp at h2
        · cases h2
  obtain ⟨l, x, m1, m2, m3, _⟩ := main
  exact ⟨l, x, m1, m2, m3⟩

/-! ### C225 fails otherwise -/

/-- A handler that reads the counter under the lock and writes it back, one larger, under the lock.
(Specification: no counterpart in the code.) -/
def readThenWrite : Handler Nat (Option Nat) Nat :=
  { start := fun _ => none
    go := fun l c => match l with | none => (c, .inl (some c)) | some r => (r + 1, .inr (r + 1)) }

/-- **C225, refuted**: two requests at a time, both answered, and the counter has grown by one; handled one after the
other in any order it would have grown by two. -/
theorem C225_lost_update :
    ((run ⟨2, false, none⟩ readThenWrite (init ⟨2, false, none⟩ 2 0)
      [.start 0, .start 1, .go 0, .go 1, .go 0, .go 1]).map (fun s => (s.shared, collect s))) = some (1, some [some 1, some 1]) ∧
    ∀ (l : List (Nat × Nat)) (x : Nat), Serial readThenWrite 0 l x → l.length = 2 → x = 2 := by
  refine ⟨rfl, ?_⟩
  have hal : ∀ l s s' a, Alone readThenWrite l s s' a → (l = none → s' = s + 1) ∧ (∀ r, l = some r → s' = r + 1) := by
    intro l s s' a ha
    induction ha with
    | last hg =>
      next l s s' a =>
      cases l with
      | none => simp [readThenWrite] at hg
      | some r => simp [readThenWrite] at hg; exact ⟨by simp, fun r' e => by simp at e; omega⟩
    | more hg _ ih =>
      next l s s1 l' s' a _ =>
      cases l with
      | none =>
        simp only [readThenWrite, Prod.mk.injEq, Sum.inl.injEq] at hg
        obtain ⟨rfl, rfl⟩ := hg
        exact ⟨fun _ => ih.2 s rfl, by simp⟩
      | some r => simp [readThenWrite] at hg
  have hlen : ∀ (l : List (Nat × Nat)) (x : Nat), Serial readThenWrite 0 l x → x = l.length := by
    intro l x hs
    induction hs with
    | none => rfl
    | next _ ha ih =>
      have := (hal _ _ _ _ ha).1 rfl
      simp; omega
  intro l x hs h2
  rw [hlen l x hs, h2]

/-- A handler that takes one from the first account and, under the lock again, adds it to the second.
(Specification: no counterpart in the code.) -/
def transfer : Handler (Nat × Nat) Bool Unit :=
  { start := fun _ => false
    go := fun l s => if l then ((s.1, s.2 + 1), .inr ()) else ((s.1 - 1, s.2), .inl true) }

/-- **C225, refuted**: a request answered with "Request timeout" has been carried out by half; one is gone from the first
account and has not come to the second. Whatever happens after that, the answer and the loss stay. -/
theorem C225_half_done (n : Nat) (cfg : Config) (hc : 0 < cfg.maxConcurrency) (ht : cfg.timeout.isSome = true) (a b : Nat)
    (ha : 0 < a) (hn : 0 < n) :
    ∃ s, run cfg transfer (init cfg n (a, b)) [.start 0, .go 0, .timeout 0] = some s ∧
      s.tasks[0]? = some (.done none) ∧ s.shared.1 + s.shared.2 + 1 = a + b := by
  obtain ⟨m, rfl⟩ : ∃ m, n = m + 1 := ⟨n - 1, by omega⟩
  refine ⟨_, by
    simp [run, step, init, List.replicate_succ, hc, transfer, ht]
    rfl, ?_⟩
  exact ⟨rfl, by simp; omega⟩

/-! ### C226: `fail_fast` -/

/-- The same batch with another `fail_fast`. (Specification: no counterpart in the code.) -/
def Config.withFailFast (cfg : Config) (b : Bool) : Config := { cfg with failFast := b }

/-- **C226, refuted**: `fail_fast` changes nothing: every batch, handler and schedule goes the same way with it as
without. -/
theorem C226_ignored (cfg : Config) (b : Bool) (h : Handler S L A) (n : Nat) (s0 : S) (k : List Op) :
    run (cfg.withFailFast b) h (init (cfg.withFailFast b) n s0) k = run cfg h (init cfg n s0) k := by
  have hi : (init (cfg.withFailFast b) n s0 : State S L A) = init cfg n s0 := rfl
  have hs : ∀ (s : State S L A) op, step (cfg.withFailFast b) h s op = step cfg h s op := by
    intro s op; cases op <;> rfl
  rw [hi]
  generalize (init cfg n s0 : State S L A) = s
  induction k generalizing s with
  | nil => rfl
  | cons op k ih =>
    simp only [run, hs]
    cases step cfg h s op with
    | none => rfl
    | some t => exact ih t

theorem started_run (cfg : Config) (h : Handler S L A) (n : Nat) (s0 : S) (k : List Op) (s : State S L A)
    (hr : run cfg h (init cfg n s0) k = some s) :
    s.tasks.length = n ∧ ∀ i t, s.tasks[i]? = some t → (∀ j, i = j → t ≠ .waiting → Op.start i ∈ k) := by
  induction k using snocInduction generalizing s with
  | nil =>
    cases hr
    refine ⟨by simp [init], fun i t hi j _ hw => ?_⟩
    have := List.mem_of_getElem? hi
    simp only [init, List.mem_replicate] at this
    exact absurd this.2 hw
  | append_singleton k op ih =>
    obtain ⟨s1, h1, h2⟩ := run_snoc hr
    obtain ⟨i1, i2⟩ := ih s1 h1
    cases op with
    | start j =>
      simp only [step] at h2
      split at h2
      · split at h2
        · cases h2
          refine ⟨by simpa using i1, fun i t hi _ _ hw => ?_⟩
          simp only [List.getElem?_set] at hi
          split at hi
          · next e => subst e; simp
          · exact List.mem_append_left _ (i2 i t hi i rfl hw)
        · cases h2
      · cases h2
    | go j =>
      simp only [step] at h2
      split at h2
      · next l hj =>
        have hst := i2 j _ hj j rfl (by simp)
        split at h2 <;> cases h2
        all_goals
          refine ⟨by simpa using i1, fun i t hi _ _ hw => ?_⟩
          simp only [List.getElem?_set] at hi
          split at hi
          · next e => subst e; exact List.mem_append_left _ hst
          · exact List.mem_append_left _ (i2 i t hi i rfl hw)
      · cases h2
    | timeout j =>
      simp only [step] at h2
      split at h2
      · next l hj =>
        have hst := i2 j _ hj j rfl (by simp)
        split at h2 <;> cases h2
        refine ⟨by simpa using i1, fun i t hi _ _ hw => ?_⟩
        simp only [List.getElem?_set] at hi
        split at hi
        · next e => subst e; exact List.mem_append_left _ hst
        · exact List.mem_append_left _ (i2 i t hi i rfl hw)
      · cases h2

/-- **C226, refuted**: a batch with `fail_fast` returns only when every one of its requests was given to the handler,
whatever the answers before were. -/
theorem C226_all_handled (cfg : Config) (h : Handler S L A) (n : Nat) (s0 : S) (k : List Op) (s : State S L A)
    (hr : run cfg h (init cfg n s0) k = some s) (as : List (Option A)) (hc : collect s = some as) :
    as.length = n ∧ ∀ i, i < n → Op.start i ∈ k := by
  obtain ⟨h1, h2⟩ := started_run cfg h n s0 k s hr
  have key : ∀ (ts : List (Task L A)) (as : List (Option A)),
      ts.mapM (fun | .done a => some a | _ => none) = some as → as.length = ts.length ∧ ∀ t ∈ ts, t ≠ .waiting := by
    intro ts
    induction ts with
    | nil => intro as he; simp at he; subst he; simp
    | cons t ts ih =>
      intro as he
      rw [List.mapM_cons] at he
      cases t with
      | done a =>
        cases hm : ts.mapM (fun | Task.done a => some a | _ => none) with
        | none => rw [hm] at he; simp at he
        | some bs =>
          rw [hm] at he
          simp at he
          subst he
          obtain ⟨j1, j2⟩ := ih bs hm
          refine ⟨by simp [j1], ?_⟩
          intro t ht
          rcases List.mem_cons.mp ht with rfl | ht
          · simp
          · exact j2 t ht
      | _ => simp at he
  obtain ⟨g1, g2⟩ := key s.tasks as hc
  refine ⟨by omega, fun i hi => ?_⟩
  have hlt : i < s.tasks.length := by omega
  exact h2 i _ (List.getElem?_eq_getElem hlt) i rfl (g2 _ (List.getElem_mem hlt))

/-! ### Concrete cases -/

/-- Three requests, two at a time; the second times out; the counter counts two.
(Specification: no counterpart in the code.) -/
def exampleOps : List Op := [.start 0, .start 1, .go 0, .timeout 1, .start 2, .go 2]

example : ((run ⟨2, true, some 30000⟩ counting (init ⟨2, true, some 30000⟩ 3 0) exampleOps).map
    (fun s => (s.shared, collect s))) = some (2, some [some 1, none, some 2]) := rfl

example : OneStep counting ∧ ¬ OneStep readThenWrite :=
  ⟨fun _ s => ⟨s + 1, rfl⟩, fun h => by obtain ⟨a, ha⟩ := h none 0; cases ha⟩

/-- The list of `C225_one_lock_partial` for it. -/
example : ∃ l, Serial counting 0 l 2 ∧ l = [(0, 1), (2, 2)] :=
  ⟨_, .next (.next .none (.last rfl)) (.last rfl), rfl⟩

/-- Read and write apart, but one request at a time: both count. -/
example : ((run ⟨1, false, none⟩ readThenWrite (init ⟨1, false, none⟩ 2 0)
    [.start 0, .go 0, .go 0, .start 1, .go 1, .go 1]).map (fun s => (s.shared, collect s))) = some (2, some [some 1, some 2]) := rfl

/-- A transfer that ran into its time-out. -/
example : ((run ⟨1, false, some 5⟩ transfer (init ⟨1, false, some 5⟩ 1 (10, 0)) [.start 0, .go 0, .timeout 0]).map
    (fun s => (s.shared, collect s))) = some ((9, 0), some [none]) := rfl

end Verif.Batch.Stateful
