import Verif.Common.Locks

/-
Two tasks that wait for each other, and one task that nests locks among tasks that do not.
-/

namespace Verif.Locks

variable {L : Type} [DecidableEq L]

/-- Two tasks wait, each for a lock that the other holds. (Library: no counterpart in /repo.) -/
def eachOther (t u : Task L) : Bool :=
  match t.prog, u.prog with
  | .acq l m :: _, .acq l' m' :: _ => t.ticket.isSome && u.ticket.isSome &&
    u.held.any (fun h => h.1 == l && conflict m h.2) && t.held.any (fun h => h.1 == l' && conflict m' h.2)
  | _, _ => false

theorem not_permitted (s : Sys L) (j : Nat) (u : Task L) (hu : s.tasks[j]? = some u) (l : L) (m : Mode) (k : Nat)
    (hh : u.held.any (fun h => h.1 == l && conflict m h.2) = true) : s.tasks.all (permits l m k) = false := by
  cases hb : s.tasks.all (permits l m k) with
  | false => rfl
  | true =>
    rw [List.all_eq_true] at hb
    have h1 := hb u (List.mem_of_getElem? hu)
    simp only [permits, Bool.and_eq_true, List.all_eq_true] at h1
    rw [List.any_eq_true] at hh
    obtain ⟨x, hx, hx2⟩ := hh
    have h2 := h1.1 x hx
    rw [Bool.and_eq_true] at hx2
    simp only [beq_iff_eq] at hx2
    rw [hx2.2] at h2
    simp [hx2.1] at h2

/-- A step of one task leaves the others as they are. -/
theorem step_other (s s' : Sys L) (a i : Nat) (h : step s a = some s') (hne : a ≠ i) :
    s'.tasks[i]? = s.tasks[i]? := by
  unfold step at h
  split at h
  · cases h
  · split at h
    · cases h
    · cases h; simp only [List.getElem?_set_ne hne]
    · split at h
      · cases h; simp only [List.getElem?_set_ne hne]
      · split at h
        · cases h; simp only [List.getElem?_set_ne hne]
        · cases h

theorem eachOther_blocked (s : Sys L) (i j : Nat) (t u : Task L) (ht : s.tasks[i]? = some t) (hu : s.tasks[j]? = some u)
    (hb : eachOther t u = true) : step s i = none ∧ step s j = none := by
  unfold eachOther at hb
  split at hb
  · next l m p l' m' p' hp hp' =>
    simp only [Bool.and_eq_true] at hb
    obtain ⟨⟨⟨h1, h2⟩, h3⟩, h4⟩ := hb
    obtain ⟨k, hk⟩ := Option.isSome_iff_exists.mp h1
    obtain ⟨k', hk'⟩ := Option.isSome_iff_exists.mp h2
    refine ⟨?_, ?_⟩
    · unfold step
      simp only [ht, hp, hk, not_permitted s j u hu l m k h3, Bool.false_eq_true, if_false]
    · unfold step
      simp only [hu, hp', hk', not_permitted s i t ht l' m' k' h4, Bool.false_eq_true, if_false]
  · cases hb

/-- From there on, every schedule that is carried on as long as possible ends in a deadlock. -/
theorem eachOther_deadlock (n : Nat) : ∀ (s : Sys L) (i j : Nat) (t u : Task L), total s ≤ n → s.tasks[i]? = some t →
    s.tasks[j]? = some u → eachOther t u = true → ∃ is s', run s is = some s' ∧ Deadlock s' := by
  induction n with
  | zero =>
    intro s i j t u hn ht hu hb
    refine ⟨[], s, rfl, ?_, ?_⟩
    · intro hd
      have := hd t (List.mem_of_getElem? ht)
      unfold eachOther at hb
      rw [this] at hb
      cases hb
    · intro a
      cases hs : step s a with
      | none => rfl
      | some s' => have := step_decreases s s' a hs; omega
  | succ n ih =>
    intro s i j t u hn ht hu hb
    by_cases hex : ∃ a s', step s a = some s'
    · obtain ⟨a, s', hs⟩ := hex
      obtain ⟨b1, b2⟩ := eachOther_blocked s i j t u ht hu hb
      have hai : a ≠ i := by rintro rfl; rw [b1] at hs; cases hs
      have haj : a ≠ j := by rintro rfl; rw [b2] at hs; cases hs
      have hdec := step_decreases s s' a hs
      obtain ⟨is, s'', hr, hd⟩ := ih s' i j t u (by omega) (by rw [step_other s s' a i hs hai]; exact ht)
        (by rw [step_other s s' a j hs haj]; exact hu) hb
      exact ⟨a :: is, s'', by simp only [run, hs]; exact hr, hd⟩
    · refine ⟨[], s, rfl, ?_, ?_⟩
      · intro hd
        have := hd t (List.mem_of_getElem? ht)
        unfold eachOther at hb
        rw [this] at hb
        cases hb
      · intro a
        cases hs : step s a with
        | none => rfl
        | some s' => exact absurd ⟨a, s', hs⟩ hex

/-! #### Two tasks among others -/

/-- The first system is the two tasks number `i` and `j` of the second, in which the others have not begun.
(Library: no counterpart in /repo.) -/
structure Among (i j : Nat) (s S : Sys L) : Prop where
  two : ∃ t u, s.tasks = [t, u] ∧ S.tasks[i]? = some t ∧ S.tasks[j]? = some u
  idle : ∀ (a : Nat) (x : Task L), a ≠ i → a ≠ j → S.tasks[a]? = some x → x.held = [] ∧ x.ticket = none
  clock : s.clock = S.clock

theorem permits_idle (x : Task L) (h : x.held = [] ∧ x.ticket = none) (l : L) (m : Mode) (k : Nat) :
    permits l m k x = true := by
  unfold permits waitsFor
  rw [h.1, h.2]
  cases x.prog with
  | nil => rfl
  | cons a p => cases a <;> simp

theorem among_all (i j : Nat) (s S : Sys L) (h : Among i j s S) (l : L) (m : Mode) (k : Nat) :
    S.tasks.all (permits l m k) = s.tasks.all (permits l m k) := by
  obtain ⟨t, u, e, hi, hj⟩ := h.two
  rw [e, Bool.eq_iff_iff, List.all_eq_true]
  simp only [List.all_cons, List.all_nil, Bool.and_true, Bool.and_eq_true]
  constructor
  · intro ha
    exact ⟨ha t (List.mem_of_getElem? hi), ha u (List.mem_of_getElem? hj)⟩
  · rintro ⟨h1, h2⟩ x hx
    obtain ⟨a, hax⟩ := List.getElem?_of_mem hx
    by_cases hai : a = i
    · subst hai; rw [hi] at hax; cases hax; exact h1
    · by_cases haj : a = j
      · subst haj; rw [hj] at hax; cases hax; exact h2
      · exact permits_idle x (h.idle a x hai haj hax) l m k

/-- One step of a task, given what it needs to know of the system. -/
theorem step_eq (s : Sys L) (i : Nat) (t : Task L) (h : s.tasks[i]? = some t) :
    step s i = match t.prog with
      | [] => none
      | .rel l :: p => some ⟨s.tasks.set i { t with held := t.held.filter (fun h => h.1 != l), prog := p }, s.clock⟩
      | .acq l m :: p => match t.ticket with
        | none => some ⟨s.tasks.set i { t with ticket := some s.clock }, s.clock + 1⟩
        | some k => if s.tasks.all (permits l m k) then
            some ⟨s.tasks.set i { held := (l, m) :: t.held, prog := p, ticket := none }, s.clock⟩ else none := by
  unfold step
  simp only [h]
  cases t.prog with
  | nil => rfl
  | cons a p => cases a <;> cases t.ticket <;> rfl

theorem among_set_left (i j : Nat) (hij : i ≠ j) (t u t' : Task L) (s S : Sys L) (h : Among i j s S)
    (e : s.tasks = [t, u]) (c : Nat) : Among i j ⟨s.tasks.set 0 t', c⟩ ⟨S.tasks.set i t', c⟩ := by
  obtain ⟨t0, u0, e0, hi, hj⟩ := h.two
  rw [e] at e0; cases e0
  refine ⟨⟨t', u, by rw [e]; rfl, ?_, ?_⟩, ?_, rfl⟩
  · simp only [List.getElem?_set_self', hi]; rfl
  · simp only [List.getElem?_set_ne hij, hj]
  · intro a x h1 h2 hx
    rw [List.getElem?_set_ne (Ne.symm h1)] at hx
    exact h.idle a x h1 h2 hx

theorem among_set_right (i j : Nat) (hij : i ≠ j) (t u u' : Task L) (s S : Sys L) (h : Among i j s S)
    (e : s.tasks = [t, u]) (c : Nat) : Among i j ⟨s.tasks.set 1 u', c⟩ ⟨S.tasks.set j u', c⟩ := by
  obtain ⟨t0, u0, e0, hi, hj⟩ := h.two
  rw [e] at e0; cases e0
  refine ⟨⟨t, u', by rw [e]; rfl, ?_, ?_⟩, ?_, rfl⟩
  · simp only [List.getElem?_set_ne (Ne.symm hij), hi]
  · simp only [List.getElem?_set_self', hj]; rfl
  · intro a x h1 h2 hx
    rw [List.getElem?_set_ne (Ne.symm h2)] at hx
    exact h.idle a x h1 h2 hx

theorem among_step (i j : Nat) (hij : i ≠ j) (s S s' : Sys L) (h : Among i j s S) (a : Nat)
    (hs : step s a = some s') : ∃ S', step S (if a = 0 then i else j) = some S' ∧ Among i j s' S' := by
  obtain ⟨t, u, e, hi, hj⟩ := h.two
  have hall := among_all i j s S h
  match a, hs with
  | 0, hs =>
    rw [step_eq s 0 t (by rw [e]; rfl)] at hs
    rw [if_pos rfl, step_eq S i t hi]
    split at hs
    · cases hs
    · cases hs
      exact ⟨_, rfl, h.clock ▸ among_set_left i j hij t u _ s S h e _⟩
    · split at hs
      · cases hs
        exact ⟨_, rfl, h.clock ▸ among_set_left i j hij t u _ s S h e _⟩
      · split at hs
        · next hc =>
          cases hs
          rw [if_pos (by rw [hall]; exact hc)]
          exact ⟨_, rfl, h.clock ▸ among_set_left i j hij t u _ s S h e _⟩
        · cases hs
  | 1, hs =>
    rw [step_eq s 1 u (by rw [e]; rfl)] at hs
    rw [if_neg (by decide), step_eq S j u hj]
    split at hs
    · cases hs
    · cases hs
      exact ⟨_, rfl, h.clock ▸ among_set_right i j hij t u _ s S h e _⟩
    · split at hs
      · cases hs
        exact ⟨_, rfl, h.clock ▸ among_set_right i j hij t u _ s S h e _⟩
      · split at hs
        · next hc =>
          cases hs
          rw [if_pos (by rw [hall]; exact hc)]
          exact ⟨_, rfl, h.clock ▸ among_set_right i j hij t u _ s S h e _⟩
        · cases hs
  | a + 2, hs =>
    unfold step at hs
    rw [e] at hs
    simp at hs

theorem among_run (i j : Nat) (hij : i ≠ j) (is : List Nat) (s S s' : Sys L) (h : Among i j s S)
    (hr : run s is = some s') : ∃ js S', run S js = some S' ∧ Among i j s' S' := by
  induction is generalizing s S with
  | nil => cases hr; exact ⟨[], S, rfl, h⟩
  | cons a is ih =>
    simp only [run] at hr
    split at hr
    · cases hr
    · next s1 h1 =>
      obtain ⟨S1, g1, h2⟩ := among_step i j hij s S s1 h a h1
      obtain ⟨js, S', g2, h3⟩ := ih s1 S1 h2 hr
      exact ⟨(if a = 0 then i else j) :: js, S', by simp only [run, g1]; exact g2, h3⟩

/-- There are two tasks, and they wait for each other. (Library: no counterpart in /repo.) -/
def crossed (s : Sys L) : Bool :=
  match s.tasks with
  | [t, u] => eachOther t u
  | _ => false

/-- If two of the tasks can come to wait for each other, all of them together can block for ever. -/
theorem pair_deadlock (ps : List (List (Instr L))) (i j : Nat) (hij : i ≠ j) (p q : List (Instr L)) (hi : ps[i]? = some p)
    (hj : ps[j]? = some q) (is : List Nat)
    (hb : (run (start [p, q]) is).any crossed = true) : ∃ is s, run (start ps) is = some s ∧ Deadlock s := by
  cases hrun : run (start [p, q]) is with
  | none => rw [hrun] at hb; cases hb
  | some s =>
    rw [hrun] at hb
    have ham : Among i j (start [p, q]) (start ps) := by
      refine ⟨⟨_, _, rfl, ?_, ?_⟩, ?_, rfl⟩
      · simp [start, hi]
      · simp [start, hj]
      · intro a x _ _ hx
        simp only [start, List.getElem?_map, Option.map_eq_some_iff] at hx
        obtain ⟨y, _, rfl⟩ := hx
        exact ⟨rfl, rfl⟩
    obtain ⟨js, S, hR, hA⟩ := among_run i j hij _ _ _ s ham hrun
    obtain ⟨t, u, e, h1, h2⟩ := hA.two
    simp only [Option.any_some, crossed, e] at hb
    obtain ⟨is, S', hR', hD⟩ := eachOther_deadlock (total S) S i j t u (Nat.le_refl _) h1 h2 hb
    refine ⟨js ++ is, S', ?_, hD⟩
    have app : ∀ (l : List Nat) (x : Sys L), run x l = some S → run x (l ++ is) = some S' := by
      intro l
      induction l with
      | nil => intro x hx; cases hx; exact hR'
      | cons b l ih =>
        intro x hx
        simp only [List.cons_append, run] at hx ⊢
        cases hb : step x b with
        | none => rw [hb] at hx; cases hx
        | some y => rw [hb] at hx; exact ih y hx
    exact app js _ hR

/-! #### One task that nests locks anyhow, among tasks that hold one lock at a time -/

/-- No lock is taken that is already held, and all are released in the end. (Library: no counterpart in /repo.) -/
def careful : List L → List (Instr L) → Bool
  | held, [] => held.isEmpty
  | held, .acq l _ :: p => held.all (fun h => h != l) && careful (l :: held) p
  | held, .rel l :: p => careful (held.filter (fun h => h != l)) p

/-- Each lock is taken while no other is held. (Library: no counterpart in /repo.) -/
def flat (p : List (Instr L)) : Bool := ordered (fun _ => 0) [] p

/-- (Library: no counterpart in /repo.) -/
def OneOk (i : Nat) (s : Sys L) : Prop := ∀ j t, s.tasks[j]? = some t →
  if j = i then careful (t.held.map (·.1)) t.prog = true else ordered (fun _ => 0) (t.held.map (·.1)) t.prog = true

theorem oneOk_step (i : Nat) (s s' : Sys L) (a : Nat) (h : OneOk i s) (hs : step s a = some s') : OneOk i s' := by
  intro j u hu
  by_cases haj : a = j
  · subst haj
    cases ht : s.tasks[a]? with
    | none => unfold step at hs; rw [ht] at hs; cases hs
    | some t =>
      have h0 := h a t ht
      rw [step_eq s a t ht] at hs
      split at hs
      · cases hs
      · next l p hp =>
        cases hs
        simp only [List.getElem?_set_self', ht] at hu
        cases hu
        rw [hp] at h0
        show if a = i then careful ((t.held.filter (fun h => h.1 != l)).map (·.1)) p = true
          else ordered (fun _ => 0) ((t.held.filter (fun h => h.1 != l)).map (·.1)) p = true
        rw [map_filter_fst]
        exact h0
      · next l m p hp =>
        split at hs
        · cases hs
          simp only [List.getElem?_set_self', ht] at hu
          cases hu
          exact h0
        · split at hs
          · cases hs
            simp only [List.getElem?_set_self', ht] at hu
            cases hu
            rw [hp] at h0
            split at h0
            · next e =>
              simp only [careful, Bool.and_eq_true] at h0
              rw [if_pos e]
              exact h0.2
            · next e =>
              simp only [ordered, Bool.and_eq_true] at h0
              rw [if_neg e]
              exact h0.2
          · cases hs
  · rw [step_other s s' a j hs haj] at hu
    exact h j u hu

theorem oneOk_run (i : Nat) (is : List Nat) (s s' : Sys L) (h : OneOk i s) (hs : run s is = some s') : OneOk i s' := by
  induction is generalizing s with
  | nil => cases hs; exact h
  | cons a is ih =>
    simp only [run] at hs
    split at hs
    · cases hs
    · next s1 h1 => exact ih s1 (oneOk_step i s s1 a h h1) hs

/-- Any number of tasks that hold one lock at a time, and one that nests locks in whatever order, never block. -/
theorem one_nested_complete (ps : List (List (Instr L))) (i : Nat)
    (hf : ∀ j p, ps[j]? = some p → j ≠ i → flat p = true) (hc : ∀ p, ps[i]? = some p → careful [] p = true)
    (is : List Nat) (s : Sys L) (hr : run (start ps) is = some s) (hd : ¬ Done s) : ∃ a, (step s a).isSome = true := by
  have h0 : OneOk i (start ps) := by
    intro j t ht
    simp only [start, List.getElem?_map, Option.map_eq_some_iff] at ht
    obtain ⟨p, hp, rfl⟩ := ht
    split
    · next e => subst e; exact hc p hp
    · next e => exact hf j p hp e
  have hk := oneOk_run i is _ s h0 hr
  -- what the one task waits for ranks above everything else
  let top : L → Nat := fun l => match s.tasks[i]? with
    | some t => match t.prog with
      | .acq l' _ :: _ => if l = l' then 1 else 0
      | _ => 0
    | none => 0
  refine progress_next top s ?_ hd
  intro t ht
  obtain ⟨j, hj⟩ := List.getElem?_of_mem ht
  have h1 := hk j t hj
  split at h1
  · next e =>
    subst e
    refine ⟨?_, ?_⟩
    · intro e
      rw [e] at h1
      simpa only [careful, List.isEmpty_iff, List.map_eq_nil_iff] using h1
    · intro l m p hp h hm
      rw [hp] at h1
      simp only [careful, Bool.and_eq_true, List.all_eq_true, List.mem_map, bne_iff_ne] at h1
      have hne := h1.1 h.1 ⟨h, hm, rfl⟩
      have e1 : ∀ x, top x = if x = l then 1 else 0 := by
        intro x
        show (match s.tasks[j]? with
          | some t => match t.prog with
            | .acq l' _ :: _ => if x = l' then 1 else 0
            | _ => 0
          | none => 0) = _
        simp only [hj, hp]
      rw [e1, e1, if_neg hne, if_pos rfl]
      exact Nat.one_pos
  · have h2 := next_of_ok (fun _ => 0) t h1
    refine ⟨h2.1, ?_⟩
    intro l m p hp h hm
    exact absurd (h2.2 l m p hp h hm) (Nat.lt_irrefl _)

end Verif.Locks
