import Verif.Debouncer.Props

/-
The fate of every notification given to the debouncer: C30, exactly.
-/

namespace Verif.Debouncer

variable {K N : Type} [DecidableEq K] [DecidableEq N]

/-- A timer task was killed while it waited to send the notification. (Specification: no counterpart in the code.) -/
def Killed (ops : List (Op K N)) (n : N) : Prop :=
  ∃ p t q s x, ops = p ++ .die t :: q ∧ run ({} : State K N) p = some s ∧ task s t = some x ∧ x.phase = .sending n

/-- The notification was still pending when another one was added for its key. (Specification: no counterpart in the
code.) -/
def Replaced (ops : List (Op K N)) (k : K) (n : N) : Prop :=
  ∃ p b m q s, ops = p ++ .insert b k m :: q ∧ run ({} : State K N) p = some s ∧ AMap.get s.pending k = some n

theorem there_insert {s s' : State K N} (b : Nat) (k : K) (m n : N) (h : step s (.insert b k m) = some s')
    (hp : AMap.get s.pending k ≠ some n) (ht : There k n s) : There k n s' := by
  simp only [step] at h
  split at h
  · cases h
  · cases h
    rcases ht with ht | ht | ht
    · exact absurd ht hp
    · exact .inr (.inl ht)
    · exact .inr (.inr ht)

theorem run_there' (k : K) (n : N) (ops : List (Op K N)) (s s' : State K N) (hI : Inv s) (h : run s ops = some s')
    (hins : ∀ p b m q s1, ops = p ++ .insert b k m :: q → run s p = some s1 → AMap.get s1.pending k ≠ some n)
    (hd : ∀ p t q s1 x, ops = p ++ .die t :: q → run s p = some s1 → task s1 t = some x → x.phase ≠ .sending n)
    (ht : There k n s) : There k n s' := by
  induction ops generalizing s with
  | nil => simp only [run, Option.some.injEq] at h; exact h ▸ ht
  | cons op rest ih =>
    simp only [run] at h
    cases hs : step s op with
    | none => rw [hs] at h; cases h
    | some s1 =>
      rw [hs] at h
      have h1 : There k n s1 := by
        by_cases hk : ∃ b m, op = .insert b k m
        · obtain ⟨b, m, rfl⟩ := hk
          exact there_insert b k m n hs (hins [] b m rest s rfl rfl) ht
        · exact there_step op hI hs k n (fun a m e => hk ⟨a, m, e⟩)
            (fun t x e hx => hd [] t rest s x (by rw [e]; rfl) rfl hx) ht
      refine ih s1 (inv_step op hI hs) h ?_ ?_ h1
      · intro p b m q s2 e hr
        refine hins (op :: p) b m q s2 (by rw [e]; rfl) ?_
        simp only [run]; rw [hs]; exact hr
      · intro p t q s2 x e hr hx
        refine hd (op :: p) t q s2 x (by rw [e]; rfl) ?_ hx
        simp only [run]; rw [hs]; exact hr

theorem held_die {s s' : State K N} (t : Nat) (x : Task K N) (n : N) (hI : Inv s) (h : step s (.die t) = some s')
    (hx : task s t = some x) (hp : x.phase = .sending n) : held n s' + 1 = held n s := by
  simp only [step, hx] at h
  split at h
  · cases h
    have h1 := sendingOf_endTask hI.tnodup hx n
    have h2 : (sendingOf [x]).count n = 1 := by
      obtain ⟨i, k, ph, ab⟩ := x
      simp only at hp
      subst hp
      simp [sendingOf]
    simp only [held, emitted] at *
    omega
  · cases h

theorem held_insert {s s' : State K N} (b : Nat) (k : K) (m n : N) (hI : Inv s) (h : step s (.insert b k m) = some s')
    (hp : AMap.get s.pending k = some n) : held n s' + 1 = held n s + if m = n then 1 else 0 := by
  simp only [step] at h
  split at h
  · cases h
  · cases h
    have h1 := ((amap_perm hI.wf hp).map Prod.snd).count_eq n
    have h2 : ((AMap.insert s.pending k m).map Prod.snd).count n =
        ((AMap.remove s.pending k).map Prod.snd).count n + if m = n then 1 else 0 := by
      by_cases e : m = n <;> simp [AMap.insert, List.count_cons, e]
    simp only [List.map_cons, List.count_cons_self] at h1
    simp only [held, emitted, h2]
    omega

/-- **C30** (exactly). Let all notifications be distinct. When all calls and timers have finished, a notification has
come out, and then once, if and only if it was not replaced while it was pending and no task that was sending it was
killed. -/
theorem C30_fate_iff (ops : List (Op K N)) (s : State K N) (h : run {} ops = some s) (hq : Quiescent s)
    (hdist : ((addedIn ops).map Prod.snd).Nodup) (a : Nat) (k : K) (n : N) (hn : .insert a k n ∈ ops) :
    (s.received ++ s.chan ++ s.flushed).count n = 1 ↔ ¬ Replaced ops k n ∧ ¬ Killed ops n := by
  have h1 : ((addedIn ops).map Prod.snd).count n ≤ 1 := List.nodup_iff_count.mp hdist n
  have hz : held n ({} : State K N) = 0 := by simp [held, emitted, sendingOf]
  -- a copy that disappears is the only one
  have gone : ∀ p op q s1 s2, ops = p ++ op :: q → run ({} : State K N) p = some s1 → step s1 op = some s2 →
      held n s2 + 1 = held n s1 + ((addedIn [op]).map Prod.snd).count n → (emitted s).count n = 0 := by
    intro p op q s1 s2 e hp hs hh
    have hI1 := inv_run p {} s1 inv_init hp
    have e1 := run_held p {} s1 inv_init hp n
    rw [e, run_append, hp] at h
    simp only [Option.bind_some, run, hs] at h
    have e2 := run_held q s2 s (inv_step op hI1 hs) h n
    rw [e, addedIn_append, addedIn_cons] at h1
    simp only [List.map_append, List.count_append] at h1
    simp only [held] at *
    omega
  constructor
  · intro hc
    refine ⟨?_, ?_⟩
    · rintro ⟨p, b, m, q, s1, e, hp, hg⟩
      have hI1 := inv_run p {} s1 inv_init hp
      have h' := h
      rw [e, run_append, hp] at h'
      simp only [Option.bind_some, run] at h'
      cases hs : step s1 (.insert b k m) with
      | none => rw [hs] at h'; cases h'
      | some s2 =>
        have := gone p _ q s1 s2 e hp hs (by
          rw [held_insert b k m n hI1 hs hg]
          by_cases em : m = n <;> simp [addedIn, List.count_cons, em])
        simp only [emitted] at this
        omega
    · rintro ⟨p, t, q, s1, x, e, hp, hx, hph⟩
      have hI1 := inv_run p {} s1 inv_init hp
      have h' := h
      rw [e, run_append, hp] at h'
      simp only [Option.bind_some, run] at h'
      cases hs : step s1 (.die t) with
      | none => rw [hs] at h'; cases h'
      | some s2 =>
        have := gone p _ q s1 s2 e hp hs (by rw [held_die t x n hI1 hs hx hph]; simp [addedIn])
        simp only [emitted] at this
        omega
  · rintro ⟨hr, hk⟩
    have hle := C30_no_duplicates ops s h n
    suffices hm : n ∈ s.received ++ s.chan ++ s.flushed by
      have := List.count_pos_iff.mpr hm
      omega
    have hI := inv_run ops {} s inv_init h
    obtain ⟨pre, post, hops⟩ := List.append_of_mem hn
    have h' := h
    rw [hops, run_append] at h'
    cases hp : run ({} : State K N) pre with
    | none => rw [hp] at h'; cases h'
    | some s0 =>
      rw [hp] at h'
      simp only [Option.bind_some, run] at h'
      have hI0 := inv_run pre {} s0 inv_init hp
      cases hs : step s0 (.insert a k n) with
      | none => rw [hs] at h'; cases h'
      | some s1 =>
        rw [hs] at h'
        have ht : There k n s1 := by
          simp only [step] at hs
          split at hs
          · cases hs
          · cases hs; exact .inl (AMap.get_insert_self _ _ _)
        have cat : ∀ p s2, run s1 p = some s2 → run ({} : State K N) (pre ++ .insert a k n :: p) = some s2 := by
          intro p s2 hr2
          rw [run_append, hp]
          simp only [Option.bind_some, run, hs]
          exact hr2
        have := run_there' k n post s1 s (inv_step _ hI0 hs) h'
          (fun p b m q s2 e hr2 hg => hr ⟨pre ++ .insert a k n :: p, b, m, q, s2, by rw [hops, e]; simp, cat p s2 hr2, hg⟩)
          (fun p t q s2 x e hr2 hx hph =>
            hk ⟨pre ++ .insert a k n :: p, t, q, s2, x, by rw [hops, e]; simp, cat p s2 hr2, hx, hph⟩) ht
        have hpend := quiescent_pending hI hq
        rcases this with h2 | h2 | h2
        · rw [hpend] at h2; cases h2
        · rw [hq.2.1] at h2; cases h2
        · exact h2

-- In `sample` the first notification is replaced, the second and third come out.
example : Replaced sample 5 1 ∧ ¬ Replaced sample 5 2 := by
  refine ⟨⟨[.insert 0 5 1, .cancel 0, .spawn 0, .store 0], 0, 2, sample.drop 5, _, by decide, rfl, by decide⟩, ?_⟩
  exact (((C30_fate_iff sample { next := 3, received := [2], flushed := [3] } (by decide) ⟨rfl, rfl, rfl⟩ (by decide)
    0 5 2 (by decide)).mp (by decide)).1)

-- In `losing` the last one is killed.
example : Killed losing 1002 := by
  refine ⟨fill ++ [.insert 0 500 1001, .cancel 0, .spawn 0, .store 0, .insert 0 500 1002, .wake 100 500, .cancel 0], 100,
    [.spawn 0, .store 0, .wake 101 500, .clean 101],
    { pending := [], timers := [], tasks := [⟨100, 500, .sending 1002, true⟩], adders := [⟨0, 500, .cancelled⟩],
      next := 101, chan := List.range 100 }, ⟨100, 500, .sending 1002, true⟩, by decide +kernel, by decide +kernel, by decide +kernel, rfl⟩

end Verif.Debouncer
