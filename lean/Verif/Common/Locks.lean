/-
Locks taken by concurrent tasks: who can go on, and when everybody does.

The programs are lists of lock operations, given for each component by the files that import this one. A lock is
granted in arrival order (tokio's and parking_lot's locks are fair): a request waits for conflicting holders and for
earlier waiting requests of the same lock. A mutex is a lock that is only written. What a method does between lock
operations cannot block and is left out.
-/

namespace Verif.Locks

variable {L : Type} [DecidableEq L]

/-- `RwLock::read` or `RwLock::write`. (As used by /repo/src/server/auth/oauth2.rs L447-706.) -/
inductive Mode where
  | read
  | write
  deriving Repr, DecidableEq

/-- One lock operation of a method. (As used by /repo/src/server/auth/oauth2.rs L447-706.) -/
inductive Instr (L : Type) where
  | acq (l : L) (m : Mode)
  | rel (l : L)
  deriving Repr, DecidableEq

/-- A method in progress: the locks it holds, what remains, and its arrival time if it waits for a lock.
(As used by /repo/src/server/auth/oauth2.rs L447-706.) -/
structure Task (L : Type) where
  held : List (L × Mode) := []
  prog : List (Instr L)
  ticket : Option Nat := none
  deriving Repr, DecidableEq

/-- The methods in progress. (As used by /repo/src/server/auth/oauth2.rs L447-706.) -/
structure Sys (L : Type) where
  tasks : List (Task L)
  clock : Nat := 0
  deriving Repr, DecidableEq

/-- Two modes that exclude each other. (As used by /repo/src/server/auth/oauth2.rs L447-706.) -/
def conflict (m m' : Mode) : Bool := m == .write || m' == .write

/-- The arrival time of the task in the queue of the lock.
(As used by /repo/src/server/auth/oauth2.rs L447-706.) -/
def waitsFor (u : Task L) (l : L) : Option Nat :=
  match u.prog with
  | .acq l' _ :: _ => if l' = l then u.ticket else none
  | _ => none

/-- The task does not prevent a request for `l` in mode `m` with arrival time `k`.
(As used by /repo/src/server/auth/oauth2.rs L447-706.) -/
def permits (l : L) (m : Mode) (k : Nat) (u : Task L) : Bool :=
  u.held.all (fun h => h.1 != l || !conflict m h.2) &&
    match waitsFor u l with
    | some k' => decide (k ≤ k')
    | none => true

/-- A step of task number `i`; none if it is finished or blocked.
(As used by /repo/src/server/auth/oauth2.rs L447-706.) -/
def step (s : Sys L) (i : Nat) : Option (Sys L) :=
  match s.tasks[i]? with
  | none => none
  | some t =>
    match t.prog with
    | [] => none
    | .rel l :: p => some { s with tasks := s.tasks.set i { t with held := t.held.filter (fun h => h.1 != l), prog := p } }
    | .acq l m :: p =>
      match t.ticket with
      | none => some { tasks := s.tasks.set i { t with ticket := some s.clock }, clock := s.clock + 1 }
      | some k =>
        if s.tasks.all (permits l m k) then
          some { s with tasks := s.tasks.set i { held := (l, m) :: t.held, prog := p, ticket := none } }
        else none

/-- The state after the schedule, which names the task of each step.
(As used by /repo/src/server/auth/oauth2.rs L447-706.) -/
def run (s : Sys L) : List Nat → Option (Sys L)
  | [] => some s
  | i :: is => match step s i with
    | none => none
    | some s' => run s' is

/-- The methods have just been called. (As used by /repo/src/server/auth/oauth2.rs L447-706.) -/
def start (ps : List (List (Instr L))) : Sys L := { tasks := ps.map (fun p => { prog := p }) }

/-- Every method has returned. (Library: no counterpart in /repo.) -/
def Done (s : Sys L) : Prop := ∀ t ∈ s.tasks, t.prog = []

/-! ### Lock ordering -/

/-- Each lock is taken only while locks of lower rank are held, and all are released in the end.
(Library: no counterpart in /repo.) -/
def ordered (rank : L → Nat) : List L → List (Instr L) → Bool
  | held, [] => held.isEmpty
  | held, .acq l _ :: p => held.all (fun h => decide (rank h < rank l)) && ordered rank (l :: held) p
  | held, .rel l :: p => ordered rank (held.filter (fun h => h != l)) p

/-- (Library: no counterpart in /repo.) -/
def TaskOk (rank : L → Nat) (t : Task L) : Prop := ordered rank (t.held.map (·.1)) t.prog = true

theorem mem_set_imp {α : Type} {l : List α} {i : Nat} {a x : α} (h : x ∈ l.set i a) : x = a ∨ x ∈ l := by
  rcases List.mem_or_eq_of_mem_set h with h | h
  · exact .inr h
  · exact .inl h

theorem map_filter_fst (held : List (L × Mode)) (l : L) :
    (held.filter (fun h => h.1 != l)).map (·.1) = (held.map (·.1)).filter (fun h => h != l) := by
  induction held with
  | nil => rfl
  | cons a held ih =>
    simp only [List.filter_cons, List.map_cons]
    split <;> simp_all

theorem ok_step (rank : L → Nat) (s s' : Sys L) (i : Nat) (h : ∀ t ∈ s.tasks, TaskOk rank t)
    (hs : step s i = some s') : ∀ t ∈ s'.tasks, TaskOk rank t := by
  unfold step at hs
  split at hs
  · cases hs
  · next t ht =>
    have hmem := List.mem_of_getElem? ht
    have hok := h t hmem
    unfold TaskOk at hok
    split at hs
    · cases hs
    · next l p hp =>
      cases hs
      intro u hu
      rcases mem_set_imp hu with rfl | hu
      · rw [hp] at hok
        simp only [TaskOk, map_filter_fst]
        simpa [ordered] using hok
      · exact h u hu
    · next l m p hp =>
      split at hs
      · cases hs
        intro u hu
        rcases mem_set_imp hu with rfl | hu
        · exact hok
        · exact h u hu
      · split at hs
        · cases hs
          intro u hu
          rcases mem_set_imp hu with rfl | hu
          · rw [hp] at hok
            simp only [ordered, Bool.and_eq_true] at hok
            exact hok.2
          · exact h u hu
        · cases hs

theorem ok_run (rank : L → Nat) (is : List Nat) (s s' : Sys L) (h : ∀ t ∈ s.tasks, TaskOk rank t)
    (hs : run s is = some s') : ∀ t ∈ s'.tasks, TaskOk rank t := by
  induction is generalizing s with
  | nil => simp only [run, Option.some.injEq] at hs; subst hs; exact h
  | cons i is ih =>
    simp only [run] at hs
    split at hs
    · cases hs
    · next s₁ h1 => exact ih s₁ (ok_step rank s s₁ i h h1) hs

theorem exists_min {α : Type} (f : α → Nat) (l : List α) (hne : l ≠ []) : ∃ x ∈ l, ∀ y ∈ l, f x ≤ f y := by
  induction l with
  | nil => exact absurd rfl hne
  | cons a l ih =>
    cases hl : l with
    | nil => exact ⟨a, by simp, by simp⟩
    | cons b l' =>
      obtain ⟨x, hx, hm⟩ := ih (by simp [hl])
      rw [← hl]
      by_cases hle : f a ≤ f x
      · refine ⟨a, by simp, ?_⟩
        intro y hy
        rcases List.mem_cons.mp hy with rfl | hy
        · exact Nat.le_refl _
        · exact Nat.le_trans hle (hm y hy)
      · refine ⟨x, by simp [hx], ?_⟩
        intro y hy
        rcases List.mem_cons.mp hy with rfl | hy
        · omega
        · exact hm y hy

theorem exists_max {α : Type} (f : α → Nat) (l : List α) (hne : l ≠ []) : ∃ x ∈ l, ∀ y ∈ l, f y ≤ f x := by
  induction l with
  | nil => exact absurd rfl hne
  | cons a l ih =>
    cases hl : l with
    | nil => exact ⟨a, by simp, by simp⟩
    | cons b l' =>
      obtain ⟨x, hx, hm⟩ := ih (by simp [hl])
      rw [← hl]
      by_cases hle : f x ≤ f a
      · refine ⟨a, by simp, ?_⟩
        intro y hy
        rcases List.mem_cons.mp hy with rfl | hy
        · exact Nat.le_refl _
        · exact Nat.le_trans (hm y hy) hle
      · refine ⟨x, by simp [hx], ?_⟩
        intro y hy
        rcases List.mem_cons.mp hy with rfl | hy
        · omega
        · exact hm y hy

/-- The task holds nothing when it has returned, and what it takes next has a higher rank than what it holds.
(Library: no counterpart in /repo.) -/
def Next (rank : L → Nat) (t : Task L) : Prop :=
  (t.prog = [] → t.held = []) ∧ ∀ l m p, t.prog = .acq l m :: p → ∀ h ∈ t.held, rank h.1 < rank l

theorem next_of_ok (rank : L → Nat) (t : Task L) (hok : TaskOk rank t) : Next rank t := by
  unfold TaskOk at hok
  refine ⟨?_, ?_⟩
  · intro e
    rw [e] at hok
    simpa only [ordered, List.isEmpty_iff, List.map_eq_nil_iff] using hok
  · intro l m p hp h hmem
    rw [hp] at hok
    simp only [ordered, Bool.and_eq_true, List.all_eq_true, List.mem_map, decide_eq_true_eq] at hok
    exact hok.1 h.1 ⟨h, hmem, rfl⟩

/-- If what each task takes next has a higher rank than what it holds, an unfinished system has an enabled step. -/
theorem progress_next (rank : L → Nat) (s : Sys L) (h : ∀ t ∈ s.tasks, Next rank t) (hd : ¬ Done s) :
    ∃ i, (step s i).isSome = true := by
  by_cases hall : ∀ t ∈ s.tasks, t.prog ≠ [] → ∃ l m p k, t.prog = .acq l m :: p ∧ t.ticket = some k
  · -- all unfinished tasks wait
    let rk : Task L → Nat := fun t => match t.prog with
      | .acq l _ :: _ => rank l
      | _ => 0
    let unf := s.tasks.filter (fun t => !t.prog.isEmpty)
    have hne : unf ≠ [] := by
      intro he
      apply hd
      intro t ht
      cases hp : t.prog with
      | nil => rfl
      | cons a p =>
        have : t ∈ unf := List.mem_filter.mpr ⟨ht, by simp [hp]⟩
        rw [he] at this; cases this
    obtain ⟨t, ht, hmax⟩ := exists_max rk unf hne
    have htm := List.mem_filter.mp ht
    obtain ⟨l, m, p, k, hp, hk⟩ := hall t htm.1 (by intro e; simp [e] at htm)
    -- among those waiting for `l`, the first
    let wl := s.tasks.filter (fun u => (waitsFor u l).isSome)
    have hwt : waitsFor t l = some k := by simp [waitsFor, hp, hk]
    obtain ⟨u, hu, hmin⟩ := exists_min (fun u => (waitsFor u l).getD 0) wl
      (List.ne_nil_of_mem (List.mem_filter.mpr ⟨htm.1, by simp [hwt]⟩ : t ∈ wl))
    obtain ⟨hus, huw⟩ := List.mem_filter.mp hu
    obtain ⟨ku, hku⟩ := Option.isSome_iff_exists.mp huw
    have hup : ∃ mu pu, u.prog = .acq l mu :: pu ∧ u.ticket = some ku := by
      unfold waitsFor at hku
      split at hku
      · next l' m' p' he =>
        split at hku
        · next e => subst e; exact ⟨m', p', he, hku⟩
        · cases hku
      · cases hku
    obtain ⟨mu, pu, hpu, htu⟩ := hup
    obtain ⟨i, hi⟩ := List.getElem?_of_mem hus
    refine ⟨i, ?_⟩
    have hfree : s.tasks.all (permits l mu ku) = true := by
      rw [List.all_eq_true]
      intro v hv
      unfold permits
      rw [Bool.and_eq_true]
      constructor
      · rw [List.all_eq_true]
        intro hh hmem
        -- a holder of `l` is unfinished and waits for a lock of higher rank
        have hne : hh.1 ≠ l := by
          intro hl
          have hokv := h v hv
          have hvp : v.prog ≠ [] := by
            intro e
            rw [hokv.1 e] at hmem; cases hmem
          obtain ⟨l', m', p', k', hp', _⟩ := hall v hv hvp
          have hlt : rank l < rank l' := by
            have := hokv.2 l' m' p' hp' hh hmem
            rwa [hl] at this
          have hvu : v ∈ unf := List.mem_filter.mpr ⟨hv, by simp [hp']⟩
          have := hmax v hvu
          have e1 : rk t = rank l := by
            show (match t.prog with
              | .acq l _ :: _ => rank l
              | _ => 0) = rank l
            rw [hp]
          have e2 : rk v = rank l' := by
            show (match v.prog with
              | .acq l _ :: _ => rank l
              | _ => 0) = rank l'
            rw [hp']
          simp only [e1, e2] at this
          omega
        simp [hne]
      · cases hwv : waitsFor v l with
        | none => rfl
        | some kv =>
          have := hmin v (List.mem_filter.mpr ⟨hv, by simp [hwv]⟩)
          simpa [hku, hwv] using this
    unfold step
    simp [hi, hpu, htu, hfree]
  · -- some task does not wait: it can step
    have : ∃ t ∈ s.tasks, t.prog ≠ [] ∧ ∀ l m p, t.prog = .acq l m :: p → t.ticket = none := by
      apply Classical.byContradiction
      intro hc
      apply hall
      intro t ht hp
      apply Classical.byContradiction
      intro hcc
      apply hc
      refine ⟨t, ht, hp, ?_⟩
      intro l m p he
      cases hk : t.ticket with
      | none => rfl
      | some k => exact absurd ⟨l, m, p, k, he, hk⟩ hcc
    obtain ⟨t, ht, hp, hk⟩ := this
    obtain ⟨i, hi⟩ := List.getElem?_of_mem ht
    refine ⟨i, ?_⟩
    unfold step
    rw [hi]
    simp only
    cases hpp : t.prog with
    | nil => exact absurd hpp hp
    | cons a p =>
      cases a with
      | rel l => simp
      | acq l m => simp [hk l m p hpp]

/-- If the tasks take locks in the order of some rank, an unfinished system has an enabled step. -/
theorem progress (rank : L → Nat) (s : Sys L) (h : ∀ t ∈ s.tasks, TaskOk rank t) (hd : ¬ Done s) :
    ∃ i, (step s i).isSome = true :=
  progress_next rank s (fun t ht => next_of_ok rank t (h t ht)) hd

/-! ### Termination -/

/-- Steps left: two for each acquisition not yet requested. (Library: no counterpart in /repo.) -/
def work (t : Task L) : Nat := 2 * t.prog.length - (if t.ticket.isSome && !t.prog.isEmpty then 1 else 0)

/-- (Library: no counterpart in /repo.) -/
def total (s : Sys L) : Nat := (s.tasks.map work).sum

theorem sum_set_lt (l : List (Task L)) (i : Nat) (t t' : Task L) (hi : l[i]? = some t) (h : work t' < work t) :
    ((l.set i t').map work).sum < (l.map work).sum := by
  induction l generalizing i with
  | nil => simp at hi
  | cons a l ih =>
    cases i with
    | zero =>
      simp only [List.getElem?_cons_zero, Option.some.injEq] at hi; subst hi
      simp only [List.set_cons_zero, List.map_cons, List.sum_cons]; omega
    | succ i =>
      simp only [List.getElem?_cons_succ] at hi
      simp only [List.set_cons_succ, List.map_cons, List.sum_cons]
      have := ih i hi; omega

theorem step_decreases (s s' : Sys L) (i : Nat) (hs : step s i = some s') : total s' < total s := by
  unfold step at hs
  split at hs
  · cases hs
  · next t ht =>
    split at hs
    · cases hs
    · next l p hp =>
      cases hs
      refine sum_set_lt _ i t _ ht ?_
      simp only [work, hp, List.length_cons]
      split <;> split <;> omega
    · next l m p hp =>
      split at hs
      · next hk =>
        cases hs
        refine sum_set_lt _ i t _ ht ?_
        simp only [work, hp, hk, List.length_cons, Option.isSome_some, Option.isSome_none, List.isEmpty_cons, Bool.not_false,
          Bool.and_true, Bool.false_eq_true, if_true, if_false]
        omega
      · next k hk =>
        split at hs
        · cases hs
          refine sum_set_lt _ i t _ ht ?_
          simp only [work, hp, hk, List.length_cons, Option.isSome_some, Option.isSome_none, List.isEmpty_cons, Bool.not_false,
            Bool.and_true, Bool.false_and, Bool.false_eq_true, if_true, if_false]
          omega
        · cases hs

theorem run_bounded (is : List Nat) (s s' : Sys L) (hs : run s is = some s') : is.length + total s' ≤ total s := by
  induction is generalizing s with
  | nil => simp only [run, Option.some.injEq] at hs; subst hs; simp
  | cons i is ih =>
    simp only [run] at hs
    split at hs
    · cases hs
    · next s₁ h1 =>
      have := step_decreases s s₁ i h1
      have := ih s₁ hs
      simp only [List.length_cons]; omega

/-- For any order of the locks: if every running method takes locks in that order, then in every
schedule some method can make progress until all have returned, and no schedule is longer than twice the
number of lock operations; so every schedule that is carried on as long as possible completes all methods. -/
theorem ordered_complete (rank : L → Nat) (ps : List (List (Instr L)))
    (h : ∀ p ∈ ps, ordered rank [] p = true) (is : List Nat) (s : Sys L) (hr : run (start ps) is = some s) :
    (¬ Done s → ∃ i, (step s i).isSome = true) ∧ is.length ≤ total (start ps) := by
  have hok : ∀ t ∈ (start ps).tasks, TaskOk rank t := by
    intro t ht
    simp only [start, List.mem_map] at ht
    obtain ⟨p, hp, rfl⟩ := ht
    exact h p hp
  refine ⟨progress rank s (ok_run rank is _ s hok hr), ?_⟩
  have := run_bounded is _ s hr
  omega

/-- No task of the system can ever step again, although some method has not returned.
(Library: no counterpart in /repo.) -/
def Deadlock (s : Sys L) : Prop := ¬ Done s ∧ ∀ i, step s i = none

theorem deadlock_of (s : Sys L) (h1 : s.tasks.any (fun t => !t.prog.isEmpty) = true)
    (h2 : ∀ i < s.tasks.length, step s i = none) : Deadlock s := by
  refine ⟨?_, ?_⟩
  · intro hd
    rw [List.any_eq_true] at h1
    obtain ⟨t, ht, hp⟩ := h1
    rw [hd t ht] at hp
    simp at hp
  · intro i
    by_cases hi : i < s.tasks.length
    · exact h2 i hi
    · unfold step
      rw [List.getElem?_eq_none (by omega)]

end Verif.Locks
