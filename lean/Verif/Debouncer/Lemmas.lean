import Verif.Debouncer.Model

/-
Lemmas on `MessageDebouncer`.
-/

namespace Verif.Debouncer

variable {K N : Type} [DecidableEq K] [DecidableEq N]

theorem find_split {β : Type} (f : β → Nat) (t : Nat) (x : β) : ∀ (l : List β),
    (l.map f).Nodup → l.find? (fun y => decide (f y = t)) = some x →
    ∃ l1 l2, l = l1 ++ x :: l2 ∧ f x = t ∧ (∀ y ∈ l1, f y ≠ t) ∧ (∀ y ∈ l2, f y ≠ t)
  | [], _, h => by simp at h
  | y :: l, hn, h => by
    simp only [List.map_cons, List.nodup_cons] at hn
    rw [List.find?_cons] at h
    by_cases hy : f y = t
    · simp only [hy, decide_true, Option.some.injEq] at h
      subst h
      refine ⟨[], l, rfl, hy, by simp, ?_⟩
      intro z hz e
      exact hn.1 (List.mem_map.mpr ⟨z, hz, e.trans hy.symm⟩)
    · simp only [hy, decide_false] at h
      obtain ⟨l1, l2, h1, h2, h3, h4⟩ := find_split f t x l hn.2 h
      refine ⟨y :: l1, l2, by simp [h1], h2, ?_, h4⟩
      intro z hz
      rcases List.mem_cons.mp hz with e | e
      · subst e; exact hy
      · exact h3 z e

theorem map_if_of_ne {β : Type} (f : β → Nat) (t : Nat) (g : β → β) (l : List β)
    (h : ∀ y ∈ l, f y ≠ t) : l.map (fun y => if f y = t then g y else y) = l := by
  induction l with
  | nil => rfl
  | cons y l ih =>
    simp only [List.map_cons]
    rw [if_neg (h y List.mem_cons_self), ih (fun z hz => h z (List.mem_cons_of_mem _ hz))]

theorem filter_ne_of_ne {β : Type} (f : β → Nat) (t : Nat) (l : List β)
    (h : ∀ y ∈ l, f y ≠ t) : l.filter (fun y => !decide (f y = t)) = l := by
  rw [List.filter_eq_self]
  intro y hy
  simp [h y hy]

/-- A live task in the list of tasks, and the effect of the updates. -/
theorem task_split {s : State K N} {t : Nat} {x : Task K N} (hn : (s.tasks.map Task.id).Nodup)
    (h : task s t = some x) :
    ∃ l1 l2, s.tasks = l1 ++ x :: l2 ∧ x.id = t ∧
      (∀ p, setTask s t p = l1 ++ { x with phase := p } :: l2) ∧ endTask s t = l1 ++ l2 := by
  obtain ⟨l1, l2, h1, h2, h3, h4⟩ := find_split Task.id t x s.tasks hn h
  refine ⟨l1, l2, h1, h2, ?_, ?_⟩
  · intro p
    unfold setTask
    rw [h1, List.map_append, List.map_cons, map_if_of_ne Task.id t _ l1 h3,
      map_if_of_ne Task.id t _ l2 h4, if_pos h2]
  · unfold endTask
    rw [h1, List.filter_append, filter_ne_of_ne Task.id t l1 h3, List.filter_cons,
      filter_ne_of_ne Task.id t l2 h4]
    simp [h2]

/-- A running call in the list of calls, and the effect of the updates. -/
theorem adder_split {s : State K N} {a : Nat} {x : Adder K} (hn : (s.adders.map Adder.id).Nodup)
    (h : adder s a = some x) :
    ∃ l1 l2, s.adders = l1 ++ x :: l2 ∧ x.id = a ∧
      (∀ p, setAdder s a p = l1 ++ { x with phase := p } :: l2) ∧
      s.adders.filter (fun x => !decide (x.id = a)) = l1 ++ l2 := by
  obtain ⟨l1, l2, h1, h2, h3, h4⟩ := find_split Adder.id a x s.adders hn h
  refine ⟨l1, l2, h1, h2, ?_, ?_⟩
  · intro p
    unfold setAdder
    rw [h1, List.map_append, List.map_cons, map_if_of_ne Adder.id a _ l1 h3,
      map_if_of_ne Adder.id a _ l2 h4, if_pos h2]
  · rw [h1, List.filter_append, filter_ne_of_ne Adder.id a l1 h3, List.filter_cons,
      filter_ne_of_ne Adder.id a l2 h4]
    simp [h2]

/-- Notifications held by tasks between the take and the send. (Specification: no counterpart in the code.) -/
def sendingOf : List (Task K N) → List N
  | [] => []
  | x :: l =>
    match x.phase with
    | .sending n => n :: sendingOf l
    | _ => sendingOf l

theorem sendingOf_append (l1 l2 : List (Task K N)) :
    sendingOf (l1 ++ l2) = sendingOf l1 ++ sendingOf l2 := by
  induction l1 with
  | nil => rfl
  | cons x l ih =>
    simp only [List.cons_append, sendingOf]
    split <;> simp [ih]

theorem sendingOf_abortAll (l : List (Task K N)) (ids : List Nat) :
    sendingOf (abortAll l ids) = sendingOf l := by
  unfold abortAll
  induction l with
  | nil => rfl
  | cons x l ih =>
    simp only [List.map_cons, sendingOf]
    rw [ih]
    by_cases h : x.id ∈ ids <;> simp [h]

theorem mem_sendingOf {l : List (Task K N)} {n : N} :
    n ∈ sendingOf l ↔ ∃ x ∈ l, x.phase = .sending n := by
  induction l with
  | nil => simp [sendingOf]
  | cons x l ih =>
    simp only [sendingOf]
    cases hp : x.phase <;> simp [ih, hp, eq_comm]

theorem amap_perm {m : AMap K N} (hw : AMap.WF m) {k : K} {n : N} (h : AMap.get m k = some n) :
    List.Perm m ((k, n) :: AMap.remove m k) := by
  induction m with
  | nil => simp at h
  | cons e m ih =>
    obtain ⟨a, v⟩ := e
    have hw' : a ∉ AMap.keys m ∧ AMap.WF m := by
      unfold AMap.WF AMap.keys at *
      simpa using hw
    rw [AMap.get_cons] at h
    by_cases hk : a = k
    · subst hk
      simp only [if_true, Option.some.injEq] at h
      subst h
      have hr := AMap.remove_of_get_none (AMap.get_eq_none_iff.mpr hw'.1)
      have : AMap.remove ((a, v) :: m) a = AMap.remove m a := by
        unfold AMap.remove; rw [List.filter_cons]; simp
      rw [this, hr]
    · rw [if_neg hk] at h
      have : AMap.remove ((a, v) :: m) k = (a, v) :: AMap.remove m k := by
        unfold AMap.remove; rw [List.filter_cons]; simp [hk]
      rw [this]
      exact (List.Perm.cons _ (ih hw'.2 h)).trans (List.Perm.swap _ _ _)

/-! ### Invariant -/

/-- Facts that hold in every reachable state. (Specification: no counterpart in the code.) -/
structure Inv (s : State K N) : Prop where
  wf : AMap.WF s.pending
  tnodup : (s.tasks.map Task.id).Nodup
  tlt : ∀ x ∈ s.tasks, x.id < s.next
  anodup : (s.adders.map Adder.id).Nodup
  timers : ∀ k t, AMap.get s.timers k = some t → t < s.next ∧ ∀ x ∈ s.tasks, x.id = t → x.key = k
  spawned : ∀ a ∈ s.adders, ∀ t, a.phase = .spawned t →
    t < s.next ∧ ∀ x ∈ s.tasks, x.id = t → x.key = a.key
  live : ∀ k n, AMap.get s.pending k = some n →
    (∃ a ∈ s.adders, a.key = k ∧ (a.phase = .inserted ∨ a.phase = .cancelled)) ∨
    (∃ x ∈ s.tasks, x.key = k ∧ x.phase = .sleeping ∧ x.aborted = false) ∨ 0 < s.flushing

theorem inv_init : Inv ({} : State K N) :=
  ⟨AMap.wf_nil, by simp, by simp, by simp, by simp, by simp, by simp⟩

theorem mem_abortAll {l : List (Task K N)} {ids : List Nat} {x : Task K N} (h : x ∈ abortAll l ids) :
    ∃ y ∈ l, y.id = x.id ∧ y.key = x.key ∧ y.phase = x.phase := by
  obtain ⟨y, hy, rfl⟩ := List.mem_map.mp h
  refine ⟨y, hy, ?_⟩
  split <;> exact ⟨rfl, rfl, rfl⟩

theorem abortAll_ids (l : List (Task K N)) (ids : List Nat) :
    (abortAll l ids).map Task.id = l.map Task.id := by
  unfold abortAll
  rw [List.map_map]
  apply List.map_congr_left
  intro x _
  simp only [Function.comp]
  split <;> rfl

theorem mem_abortAll_of_not {l : List (Task K N)} {ids : List Nat} {x : Task K N} (h : x ∈ l)
    (hn : x.id ∉ ids) : x ∈ abortAll l ids :=
  List.mem_map.mpr ⟨x, h, by rw [if_neg hn]⟩

/-- Replacing one task by one with the same id and key. -/
theorem mem_replace {l1 l2 : List (Task K N)} {x x' y : Task K N}
    (h : y ∈ l1 ++ x' :: l2) (hi : x'.id = x.id) (hk : x'.key = x.key) :
    ∃ z ∈ l1 ++ x :: l2, z.id = y.id ∧ z.key = y.key := by
  simp only [List.mem_append, List.mem_cons] at h
  rcases h with h | h | h
  · exact ⟨y, by simp [h], rfl, rfl⟩
  · subst h; exact ⟨x, by simp, hi.symm, hk.symm⟩
  · exact ⟨y, by simp [h], rfl, rfl⟩

/-- Preservation when only tasks, `pending` (removals) and `timers` (removals) change. -/
theorem inv_tasks {s s' : State K N} (hI : Inv s)
    (hnext : s'.next = s.next) (hadd : s'.adders = s.adders)
    (hw : AMap.WF s'.pending) (htn : (s'.tasks.map Task.id).Nodup)
    (hsub : ∀ y ∈ s'.tasks, ∃ z ∈ s.tasks, z.id = y.id ∧ z.key = y.key)
    (htim : ∀ k t, AMap.get s'.timers k = some t → AMap.get s.timers k = some t)
    (hlive : ∀ k n, AMap.get s'.pending k = some n →
      (∃ a ∈ s'.adders, a.key = k ∧ (a.phase = .inserted ∨ a.phase = .cancelled)) ∨
      (∃ x ∈ s'.tasks, x.key = k ∧ x.phase = .sleeping ∧ x.aborted = false) ∨ 0 < s'.flushing) :
    Inv s' := by
  refine ⟨hw, htn, ?_, hadd ▸ hI.anodup, ?_, ?_, hlive⟩
  · intro x hx
    obtain ⟨z, hz, h1, _⟩ := hsub x hx
    have := hI.tlt z hz
    omega
  · intro k t ht
    obtain ⟨h1, h2⟩ := hI.timers k t (htim k t ht)
    refine ⟨by omega, ?_⟩
    intro x hx e
    obtain ⟨z, hz, h3, h4⟩ := hsub x hx
    rw [← h4]; exact h2 z hz (h3.trans e)
  · intro a ha t ht
    rw [hadd] at ha
    obtain ⟨h1, h2⟩ := hI.spawned a ha t ht
    refine ⟨by omega, ?_⟩
    intro x hx e
    obtain ⟨z, hz, h3, h4⟩ := hsub x hx
    rw [← h4]; exact h2 z hz (h3.trans e)

theorem inv_insert {s s' : State K N} {a : Nat} {k : K} {n : N} (hI : Inv s)
    (h : step s (.insert a k n) = some s') : Inv s' := by
  simp only [step] at h
  split at h
  · cases h
  rename_i ha
  cases h
  refine ⟨AMap.wf_insert hI.wf k n, hI.tnodup, hI.tlt, ?_, hI.timers, ?_, ?_⟩
  · simp only [List.map_append, List.map_cons, List.map_nil]
    refine List.nodup_append.mpr ⟨hI.anodup, by simp, ?_⟩
    intro x hx y hy e
    simp only [List.mem_singleton] at hy
    subst hy; subst e
    obtain ⟨z, hz, rfl⟩ := List.mem_map.mp hx
    unfold adder at ha
    rw [List.find?_eq_none] at ha
    exact ha z hz (by simp)
  · intro x hx t ht
    simp only [List.mem_append, List.mem_singleton] at hx
    rcases hx with hx | hx
    · exact hI.spawned x hx t ht
    · subst hx; cases ht
  · intro k' n' hk'
    by_cases e : k' = k
    · subst e
      exact .inl ⟨⟨a, k', .inserted⟩, by simp, rfl, .inl rfl⟩
    · rw [AMap.get_insert_ne _ _ e] at hk'
      rcases hI.live k' n' hk' with ⟨x, hx, h1⟩ | h1
      · exact .inl ⟨x, by simp [hx], h1⟩
      · exact .inr h1

theorem setAdder_ids {s : State K N} {a : Nat} (p : AddPhase) :
    (setAdder s a p).map Adder.id = s.adders.map Adder.id := by
  unfold setAdder
  rw [List.map_map]
  apply List.map_congr_left
  intro x _
  simp only [Function.comp]
  split <;> rfl

theorem inv_cancel {s s' : State K N} {a : Nat} (hI : Inv s)
    (h : step s (.cancel a) = some s') : Inv s' := by
  simp only [step] at h
  split at h
  · rename_i i k ha
    obtain ⟨l1, l2, e1, e2, e3, e4⟩ := adder_split hI.anodup ha
    have e2' : i = a := e2
    subst e2'
    have hset := e3 .cancelled
    have hsp : ∀ x ∈ setAdder s i .cancelled, ∀ t, x.phase = .spawned t → x ∈ s.adders := by
      intro x hx t ht
      rw [hset] at hx
      rw [e1]
      simp only [List.mem_append, List.mem_cons] at hx ⊢
      rcases hx with hx | hx | hx
      · exact .inl hx
      · subst hx; cases ht
      · exact .inr (.inr hx)
    have hkeep : ∀ k', (∃ x ∈ s.adders, x.key = k' ∧ (x.phase = .inserted ∨ x.phase = .cancelled)) →
        ∃ x ∈ setAdder s i .cancelled, x.key = k' ∧ (x.phase = .inserted ∨ x.phase = .cancelled) := by
      rintro k' ⟨x, hx, h1, h2⟩
      rw [hset]
      rw [e1] at hx
      simp only [List.mem_append, List.mem_cons] at hx
      rcases hx with hx | hx | hx
      · exact ⟨x, by simp [hx], h1, h2⟩
      · subst hx; exact ⟨⟨i, k, .cancelled⟩, by simp, h1, .inr rfl⟩
      · exact ⟨x, by simp [hx], h1, h2⟩
    split at h
    · cases h
      refine ⟨hI.wf, hI.tnodup, hI.tlt, by rw [setAdder_ids]; exact hI.anodup, hI.timers, ?_, ?_⟩
      · intro x hx t ht
        exact hI.spawned x (hsp x hx t ht) t ht
      · intro k' n' hk'
        rcases hI.live k' n' hk' with h1 | h1
        · exact .inl (hkeep k' h1)
        · exact .inr h1
    · rename_i t ht
      cases h
      refine ⟨hI.wf, by rw [abortAll_ids]; exact hI.tnodup, ?_,
        by rw [setAdder_ids]; exact hI.anodup, ?_, ?_, ?_⟩
      · intro x hx
        obtain ⟨y, hy, h1, _⟩ := mem_abortAll hx
        have := hI.tlt y hy
        rw [← h1]; exact this
      · intro k' t' hg
        have hg' : AMap.get s.timers k' = some t' := by
          have hg2 : AMap.get (AMap.remove s.timers k) k' = some t' := hg
          rw [AMap.get_remove] at hg2
          split at hg2
          · cases hg2
          · exact hg2
        obtain ⟨h1, h2⟩ := hI.timers k' t' hg'
        refine ⟨h1, ?_⟩
        intro x hx e
        obtain ⟨y, hy, h3, h4, _⟩ := mem_abortAll hx
        rw [← h4]; exact h2 y hy (h3.trans e)
      · intro x hx t' ht'
        obtain ⟨h1, h2⟩ := hI.spawned x (hsp x hx t' ht') t' ht'
        refine ⟨h1, ?_⟩
        intro z hz e
        obtain ⟨y, hy, h3, h4, _⟩ := mem_abortAll hz
        rw [← h4]; exact h2 y hy (h3.trans e)
      · intro k' n' hk'
        by_cases e : k' = k
        · subst e
          exact .inl ⟨⟨i, k', .cancelled⟩, by rw [hset]; simp, rfl, .inr rfl⟩
        · rcases hI.live k' n' hk' with h1 | ⟨x, hx, h1, h2, h3⟩ | h1
          · exact .inl (hkeep k' h1)
          · refine .inr (.inl ⟨x, mem_abortAll_of_not hx ?_, h1, h2, h3⟩)
            intro hm
            simp only [List.mem_singleton] at hm
            have := (hI.timers k t ht).2 x hx hm
            exact e (h1.symm.trans this)
          · exact .inr (.inr h1)
  · cases h

theorem inv_spawn {s s' : State K N} {a : Nat} (hI : Inv s)
    (h : step s (.spawn a) = some s') : Inv s' := by
  simp only [step] at h
  split at h
  · rename_i i k ha
    obtain ⟨l1, l2, e1, e2, e3, e4⟩ := adder_split hI.anodup ha
    have e2' : i = a := e2
    subst e2'
    have hset := e3 (.spawned s.next)
    cases h
    have hold : ∀ t, t < s.next → ∀ x ∈ s.tasks ++ [⟨s.next, k, .sleeping, false⟩], x.id = t →
        x ∈ s.tasks := by
      intro t ht x hx e
      simp only [List.mem_append, List.mem_singleton] at hx
      rcases hx with hx | hx
      · exact hx
      · subst hx; simp at e; omega
    refine ⟨hI.wf, ?_, ?_, by rw [setAdder_ids]; exact hI.anodup, ?_, ?_, ?_⟩
    · simp only [List.map_append, List.map_cons, List.map_nil]
      refine List.nodup_append.mpr ⟨hI.tnodup, by simp, ?_⟩
      intro x hx y hy e
      simp only [List.mem_singleton] at hy
      obtain ⟨z, hz, rfl⟩ := List.mem_map.mp hx
      have := hI.tlt z hz
      omega
    · intro x hx
      simp only [List.mem_append, List.mem_singleton] at hx
      rcases hx with hx | hx
      · have := hI.tlt x hx; show x.id < s.next + 1; omega
      · subst hx; simp
    · intro k' t ht
      obtain ⟨h1, h2⟩ := hI.timers k' t ht
      exact ⟨by show t < s.next + 1; omega, fun x hx e => h2 x (hold t h1 x hx e) e⟩
    · intro x hx t ht
      have hx2 : x ∈ setAdder s i (.spawned s.next) := hx
      rw [hset] at hx2
      simp only [List.mem_append, List.mem_cons] at hx2
      have hcase : x ∈ s.adders ∨ x = ⟨i, k, .spawned s.next⟩ := by
        rw [e1]
        simp only [List.mem_append, List.mem_cons]
        rcases hx2 with h | h | h
        · exact .inl (.inl h)
        · exact .inr h
        · exact .inl (.inr (.inr h))
      rcases hcase with hx3 | hx3
      · obtain ⟨h1, h2⟩ := hI.spawned x hx3 t ht
        exact ⟨by show t < s.next + 1; omega, fun y hy e => h2 y (hold t h1 y hy e) e⟩
      · subst hx3
        simp only [AddPhase.spawned.injEq] at ht
        subst ht
        refine ⟨by show s.next < s.next + 1; omega, ?_⟩
        intro y hy e
        simp only [List.mem_append, List.mem_singleton] at hy
        rcases hy with hy | hy
        · have := hI.tlt y hy; omega
        · subst hy; rfl
    · intro k' n' hk'
      by_cases e : k' = k
      · subst e
        exact .inr (.inl ⟨⟨s.next, k', .sleeping, false⟩, by simp, rfl, rfl, rfl⟩)
      · rcases hI.live k' n' hk' with ⟨x, hx, h1, h2⟩ | ⟨x, hx, h1⟩ | h1
        · refine .inl ⟨x, ?_, h1, h2⟩
          show x ∈ setAdder s i _
          rw [hset]
          rw [e1] at hx
          simp only [List.mem_append, List.mem_cons] at hx ⊢
          rcases hx with hx | hx | hx
          · exact .inl hx
          · subst hx; exact absurd h1.symm e
          · exact .inr (.inr hx)
        · exact .inr (.inl ⟨x, by simp [hx], h1⟩)
        · exact .inr (.inr h1)
  · cases h

theorem inv_store {s s' : State K N} {a : Nat} (hI : Inv s)
    (h : step s (.store a) = some s') : Inv s' := by
  simp only [step] at h
  split at h
  · rename_i i k t ha
    obtain ⟨l1, l2, e1, e2, e3, e4⟩ := adder_split hI.anodup ha
    have e2' : i = a := e2
    subst e2'
    cases h
    have hmem : (⟨i, k, .spawned t⟩ : Adder K) ∈ s.adders := by rw [e1]; simp
    refine ⟨hI.wf, hI.tnodup, hI.tlt,
      List.Nodup.sublist (List.Sublist.map _ List.filter_sublist) hI.anodup, ?_, ?_, ?_⟩
    · intro k' t' hg
      have hg2 : AMap.get (AMap.insert s.timers k t) k' = some t' := hg
      rw [AMap.get_insert] at hg2
      split at hg2
      · rename_i hk
        simp only [Option.some.injEq] at hg2
        subst hg2; subst hk
        exact hI.spawned _ hmem t rfl
      · exact hI.timers k' t' hg2
    · intro x hx t' ht'
      exact hI.spawned x (List.mem_filter.mp hx).1 t' ht'
    · intro k' n' hk'
      rcases hI.live k' n' hk' with ⟨x, hx, h1, h2⟩ | h1
      · refine .inl ⟨x, List.mem_filter.mpr ⟨hx, ?_⟩, h1, h2⟩
        simp only [Bool.not_eq_true', decide_eq_false_iff_not]
        intro e
        have : x = ⟨i, k, .spawned t⟩ := by
          have hn := hI.anodup
          rw [e1] at hn hx
          simp only [List.map_append, List.map_cons, List.nodup_append, List.nodup_cons] at hn
          simp only [List.mem_append, List.mem_cons] at hx
          rcases hx with hx | hx | hx
          · exact absurd e (hn.2.2 x.id (List.mem_map.mpr ⟨x, hx, rfl⟩) i (by simp))
          · exact hx
          · exact absurd (List.mem_map.mpr ⟨x, hx, e⟩) hn.2.1.1
        subst this
        rcases h2 with h2 | h2 <;> cases h2
      · exact .inr h1
  · cases h

theorem nodup_replace {l1 l2 : List (Task K N)} {x x' : Task K N} (hi : x'.id = x.id)
    (h : ((l1 ++ x :: l2).map Task.id).Nodup) : ((l1 ++ x' :: l2).map Task.id).Nodup := by
  simpa [hi] using h

theorem inv_wake {s s' : State K N} {t : Nat} {k : K} (hI : Inv s)
    (h : step s (.wake t k) = some s') : Inv s' := by
  simp only [step] at h
  split at h
  · rename_i i k' ab ht
    obtain ⟨l1, l2, e1, e2, e3, e4⟩ := task_split hI.tnodup ht
    have e2' : i = t := e2
    subst e2'
    split at h
    · rename_i hk
      subst hk
      have hlive' : ∀ k2, k2 ≠ k' → ∀ p,
          (∃ x ∈ s.tasks, x.key = k2 ∧ x.phase = .sleeping ∧ x.aborted = false) →
          ∃ x ∈ setTask s i p, x.key = k2 ∧ x.phase = .sleeping ∧ x.aborted = false := by
        rintro k2 hne p ⟨x, hx, h1⟩
        rw [e3 p]
        rw [e1] at hx
        simp only [List.mem_append, List.mem_cons] at hx
        rcases hx with hx | hx | hx
        · exact ⟨x, by simp [hx], h1⟩
        · subst hx; exact absurd h1.1.symm hne
        · exact ⟨x, by simp [hx], h1⟩
      split at h
      · rename_i n hg
        cases h
        refine inv_tasks hI rfl rfl (AMap.wf_remove hI.wf k') ?_ ?_ (fun _ _ h => h) ?_
        · show ((setTask s i (.sending n)).map Task.id).Nodup
          rw [e3]
          exact nodup_replace (x := ⟨i, k', .sleeping, ab⟩) rfl (e1 ▸ hI.tnodup)
        · intro y hy
          have hy2 : y ∈ setTask s i (.sending n) := hy
          rw [e3] at hy2
          rw [e1]
          exact mem_replace hy2 rfl rfl
        · intro k2 n2 hg2
          have hg3 : AMap.get (AMap.remove s.pending k') k2 = some n2 := hg2
          rw [AMap.get_remove] at hg3
          split at hg3
          · cases hg3
          · rename_i hne
            rcases hI.live k2 n2 hg3 with h1 | h1 | h1
            · exact .inl h1
            · exact .inr (.inl (hlive' k2 hne _ h1))
            · exact .inr (.inr h1)
      · rename_i hg
        cases h
        refine inv_tasks hI rfl rfl hI.wf ?_ ?_ (fun _ _ h => h) ?_
        · show ((setTask s i .cleaning).map Task.id).Nodup
          rw [e3]
          exact nodup_replace (x := ⟨i, k', .sleeping, ab⟩) rfl (e1 ▸ hI.tnodup)
        · intro y hy
          have hy2 : y ∈ setTask s i .cleaning := hy
          rw [e3] at hy2
          rw [e1]
          exact mem_replace hy2 rfl rfl
        · intro k2 n2 hg2
          have hg3 : AMap.get s.pending k2 = some n2 := hg2
          have hne : k2 ≠ k' := by intro e; subst e; rw [hg] at hg3; cases hg3
          rcases hI.live k2 n2 hg3 with h1 | h1 | h1
          · exact .inl h1
          · exact .inr (.inl (hlive' k2 hne _ h1))
          · exact .inr (.inr h1)
    · cases h
  · cases h

theorem inv_sent {s s' : State K N} {t : Nat} (hI : Inv s)
    (h : step s (.sent t) = some s') : Inv s' := by
  simp only [step] at h
  split at h
  · rename_i i k' n ab ht
    obtain ⟨l1, l2, e1, e2, e3, e4⟩ := task_split hI.tnodup ht
    have e2' : i = t := e2
    subst e2'
    split at h
    · cases h
      refine inv_tasks hI rfl rfl hI.wf ?_ ?_ (fun _ _ h => h) ?_
      · show ((setTask s i .cleaning).map Task.id).Nodup
        rw [e3]
        exact nodup_replace (x := ⟨i, k', .sending n, ab⟩) rfl (e1 ▸ hI.tnodup)
      · intro y hy
        have hy2 : y ∈ setTask s i .cleaning := hy
        rw [e3] at hy2
        rw [e1]
        exact mem_replace hy2 rfl rfl
      · intro k2 n2 hg2
        rcases hI.live k2 n2 hg2 with h1 | ⟨x, hx, h1⟩ | h1
        · exact .inl h1
        · refine .inr (.inl ⟨x, ?_, h1⟩)
          show x ∈ setTask s i .cleaning
          rw [e3]
          rw [e1] at hx
          simp only [List.mem_append, List.mem_cons] at hx ⊢
          rcases hx with hx | hx | hx
          · exact .inl hx
          · subst hx; exact absurd h1.2.1 (by simp)
          · exact .inr (.inr hx)
        · exact .inr (.inr h1)
    · cases h
  · cases h

/-- A task that ends: it was not a sleeping, not aborted one. -/
theorem inv_end {s s' : State K N} {t : Nat} {x : Task K N} (hI : Inv s) (ht : task s t = some x)
    (hx : ¬ (x.phase = .sleeping ∧ x.aborted = false))
    (hnext : s'.next = s.next) (hadd : s'.adders = s.adders) (hp : s'.pending = s.pending)
    (hf : s'.flushing = s.flushing) (hts : s'.tasks = endTask s t)
    (htim : ∀ k t, AMap.get s'.timers k = some t → AMap.get s.timers k = some t) : Inv s' := by
  obtain ⟨l1, l2, e1, e2, e3, e4⟩ := task_split hI.tnodup ht
  refine inv_tasks hI hnext hadd (hp ▸ hI.wf) ?_ ?_ htim ?_
  · rw [hts]
    exact List.Nodup.sublist (List.Sublist.map _ List.filter_sublist) hI.tnodup
  · intro y hy
    rw [hts] at hy
    exact ⟨y, (List.mem_filter.mp hy).1, rfl, rfl⟩
  · intro k n hg
    rw [hp] at hg
    rw [hadd, hf, hts, e4]
    rcases hI.live k n hg with h1 | ⟨y, hy, h1⟩ | h1
    · exact .inl h1
    · refine .inr (.inl ⟨y, ?_, h1⟩)
      rw [e1] at hy
      simp only [List.mem_append, List.mem_cons] at hy ⊢
      rcases hy with hy | hy | hy
      · exact .inl hy
      · subst hy; exact absurd h1.2 hx
      · exact .inr hy
    · exact .inr (.inr h1)

theorem inv_step {s s' : State K N} (op : Op K N) (hI : Inv s) (h : step s op = some s') : Inv s' := by
  cases op with
  | insert a k n => exact inv_insert hI h
  | cancel a => exact inv_cancel hI h
  | spawn a => exact inv_spawn hI h
  | store a => exact inv_store hI h
  | wake t k => exact inv_wake hI h
  | sent t => exact inv_sent hI h
  | clean t =>
    simp only [step] at h
    split at h
    · rename_i i k' ab ht
      cases h
      refine inv_end hI ht (by simp) rfl rfl rfl rfl rfl ?_
      intro k t' hg
      have hg2 : AMap.get (AMap.remove s.timers k') k = some t' := hg
      rw [AMap.get_remove] at hg2
      split at hg2
      · cases hg2
      · exact hg2
    · cases h
  | die t =>
    simp only [step] at h
    split at h
    · rename_i x ht
      split at h
      · rename_i hc
        cases h
        exact inv_end hI ht (by simp [hc.1]) rfl rfl rfl rfl rfl (fun _ _ h => h)
      · cases h
    · cases h
  | recv =>
    simp only [step] at h
    split at h
    · cases h
    · cases h
      exact ⟨hI.wf, hI.tnodup, hI.tlt, hI.anodup, hI.timers, hI.spawned, hI.live⟩
  | flushTimers =>
    simp only [step, Option.some.injEq] at h
    subst h
    refine inv_tasks hI rfl rfl hI.wf (by rw [abortAll_ids]; exact hI.tnodup) ?_ ?_ ?_
    · intro y hy
      obtain ⟨z, hz, h1, h2, _⟩ := mem_abortAll hy
      exact ⟨z, hz, h1, h2⟩
    · intro k t hg; cases hg
    · intro k n hg
      exact .inr (.inr (Nat.succ_pos _))
  | flushPending =>
    simp only [step] at h
    split at h
    · cases h
    · cases h
      refine inv_tasks hI rfl rfl AMap.wf_nil hI.tnodup (fun y hy => ⟨y, hy, rfl, rfl⟩)
        (fun _ _ h => h) ?_
      intro k n hg; cases hg

/-- The invariant holds after every execution. -/
theorem inv_run : ∀ (ops : List (Op K N)) (s s' : State K N), Inv s → run s ops = some s' → Inv s'
  | [], s, s', hI, h => by
    simp only [run, Option.some.injEq] at h
    exact h ▸ hI
  | op :: rest, s, s', hI, h => by
    simp only [run] at h
    cases hs : step s op with
    | none => rw [hs] at h; cases h
    | some s1 => rw [hs] at h; exact inv_run rest s1 s' (inv_step op hI hs) h

end Verif.Debouncer
