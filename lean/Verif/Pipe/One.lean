import Verif.Pipe.Props

/-
C236: one call at a time over pipes.
-/

namespace Verif.Pipe

open Verif

/-! ### Specifications -/

/-- The call the server is busy with. (Specification: no counterpart in the code.) -/
def Srv.call : Srv → List Nat
  | .reading => []
  | .handling n => [n]
  | .writing n _ => [n]

/-- The calls whose request or response is complete and on its way. (Specification: no counterpart in the code.) -/
def marks (s : St) : List Nat := s.up.filterMap id ++ s.srv.call ++ s.down.filterMap id

/-- What is on its way belongs to the call in progress, and each call that is done has read its own response.
(Specification: no counterpart in the code.) -/
structure Own (s : St) : Prop where
  marks : ∀ m ∈ marks s, s.queue = [m]
  done : ∀ (n m : Nat), s.calls[n]? = some (.done m) → m = n

/-! ### Invariant -/

theorem filterMap_length (l : List (Option Nat)) : (l.filterMap id).length = l.countP Option.isSome := by
  induction l with
  | nil => rfl
  | cons a l ih => cases a <;> simp [ih]

theorem marks_length (s : St) : (marks s).length = owed s := by
  simp only [marks, owed, List.length_append, filterMap_length]
  cases s.srv <;> simp [Srv.call, Srv.busy]

theorem no_recv (s : St) (hI : Inv s) (hq : s.queue = []) : s.calls.countP isRecv = 0 := by
  rw [List.countP_eq_zero]
  intro p hp
  obtain ⟨n, hn⟩ := List.mem_iff_getElem?.mp hp
  cases p with
  | receiving =>
    have := (hI.q n).mpr (.inr hn)
    rw [hq] at this; cases this
  | _ => simp [isRecv]

theorem no_marks (s : St) (hI : Inv s) (hF : Few 1 s) (hq : s.queue = []) : marks s = [] := by
  apply List.eq_nil_of_length_eq_zero
  rw [marks_length]
  have := hF.owed
  rw [no_recv s hI hq] at this
  omega

theorem done_set (l : List Ph) (n : Nat) (p : Ph) (hp : ∀ m, p = .done m → m = n)
    (h : ∀ (n m : Nat), l[n]? = some (.done m) → m = n) (i m : Nat) (hi : (l.set n p)[i]? = some (.done m)) : m = i := by
  rw [List.getElem?_set] at hi
  split at hi
  · next e =>
    subst e
    split at hi
    · exact hp m (by simpa using hi)
    · cases hi
  · exact h i m hi

theorem own_step (c : Cfg) (s s' : St) (o : Op) (hI : Inv s) (hF : Few 1 s) (hO : Own s)
    (ho : o = .start → s.queue.length < 1) (hnd : ∀ n, o ≠ .drop n) (h : step c s o = some s') : Own s' := by
  have hI' := inv_step c s s' o hI h
  have hF' := few_step c 1 s s' o hF ho hnd h
  cases o with
  | drop n => exact absurd rfl (hnd n)
  | start =>
    have hq : s.queue = [] := List.eq_nil_of_length_eq_zero (by have := ho rfl; omega)
    have hm := no_marks s hI hF hq
    simp only [step, Option.some.injEq] at h; subst h
    refine ⟨?_, ?_⟩
    · intro m hm'
      have : marks (start c s) = marks s := rfl
      rw [this, hm] at hm'; cases hm'
    · intro n m hn
      simp only [start] at hn
      rw [List.getElem?_append] at hn
      split at hn
      · exact hO.done n m hn
      · cases hk : n - s.calls.length <;> simp [hk] at hn
  | server =>
    obtain ⟨h1, h2, -, -⟩ := owed_server c s s' h
    refine ⟨?_, by rw [h1]; exact hO.done⟩
    rw [h2]
    have hsub : ∀ m ∈ marks s', m ∈ marks s := by
      simp only [step, server] at h
      split at h
      · next hs =>
        split at h
        · cases h
        · next u hu => cases h; intro m hm; simp only [marks, hu, hs, Srv.call] at hm ⊢; simpa using hm
        · next n u hu => cases h; intro m hm; simp only [marks, hu, hs, Srv.call] at hm ⊢; simp at hm ⊢; grind
      · next n hs => cases h; intro m hm; simp only [marks, hs, Srv.call] at hm ⊢; exact hm
      · next n rest hs =>
        split at h
        · split at h
          · cases h; intro m hm; simp only [marks, hs, Srv.call] at hm ⊢; simp at hm ⊢; grind
          · cases h; intro m hm; simp only [marks, hs, Srv.call] at hm ⊢; simp at hm ⊢; grind
        · cases h
    exact fun m hm => hO.marks m (hsub m hm)
  | client =>
    have hlen := hF.len
    simp only [step, client] at h
    split at h
    · cases h
    · next n q hq =>
      have hq0 : q = [] := by
        rw [hq, List.length_cons] at hlen
        exact List.eq_nil_of_length_eq_zero (by omega)
      subst hq0
      have hmk := hO.marks
      split at h
      · next rest hc =>
        split at h
        · split at h
          · cases h
            refine ⟨?_, fun i m => done_set _ n _ (by simp) hO.done i m⟩
            intro m hm
            simp only [marks, List.filterMap_append, List.mem_append] at hm
            rcases hm with ((hm | hm) | hm) | hm
            · have := hmk m (by simp only [marks, List.mem_append]; exact .inl (.inl hm))
              rw [hq] at this; simpa using this
            · simp at hm; subst hm; rfl
            · have := hmk m (by simp only [marks, List.mem_append]; exact .inl (.inr hm))
              rw [hq] at this; simpa using this
            · have := hmk m (by simp only [marks, List.mem_append]; exact .inr hm)
              rw [hq] at this; simpa using this
          · next k =>
            cases h
            refine ⟨?_, fun i m => done_set _ n _ (by simp) hO.done i m⟩
            intro m hm
            have : m ∈ marks s := by
              simp only [marks, List.filterMap_append] at hm ⊢
              simpa using hm
            exact hmk m this
        · cases h
      · next hc =>
        split at h
        · cases h
        · next d hd =>
          cases h
          refine ⟨?_, hO.done⟩
          intro m hm
          exact hmk m (by simp only [marks, hd] at hm ⊢; simpa using hm)
        · next m' d hd =>
          cases h
          have e := hmk m' (by simp only [marks, hd]; simp)
          rw [hq] at e
          refine ⟨?_, fun i m => done_set _ n _ (fun m hm => by cases hm; simp at e; exact e.symm) hO.done i m⟩
          intro m hm
          rw [no_marks _ hI' hF' rfl] at hm; cases hm
      · cases h

theorem own_run (c : Cfg) (l : List Op) (s s' : St) (hI : Inv s) (hF : Few 1 s) (hO : Own s) (hl : AtMost 1 c s l)
    (h : run c s l = some s') : Own s' := by
  induction l generalizing s with
  | nil => simp only [run, Option.some.injEq] at h; subst h; exact hO
  | cons o l ih =>
    simp only [run, Option.bind_eq_some_iff] at h
    obtain ⟨s1, h1, h2⟩ := h
    exact ih s1 (inv_step c s s1 o hI h1) (few_step c 1 s s1 o hF hl.1 hl.2.1 h1)
      (own_step c s s1 o hI hF hO hl.1 hl.2.1 h1) (hl.2.2 s1 h1) h2

theorem own_init : Own {} := ⟨(fun m hm => by cases hm), (fun n m h => by cases h)⟩

theorem going_atMost (c : Cfg) (k : Nat) (l : List Op) (s : St) (hl : Going l) : AtMost k c s l := by
  induction l generalizing s with
  | nil => trivial
  | cons o l ih =>
    have ho := hl o List.mem_cons_self
    refine ⟨?_, ?_, fun s' _ => ih s' (fun o ho => hl o (List.mem_cons_of_mem _ ho))⟩
    · rintro rfl; rcases ho with h | h <;> cases h
    · rintro n rfl; rcases ho with h | h <;> cases h

theorem atMost_append (c : Cfg) (k : Nat) (l l' : List Op) (s s' : St) (h : run c s l = some s') (hl : AtMost k c s l)
    (hl' : AtMost k c s' l') : AtMost k c s (l ++ l') := by
  induction l generalizing s with
  | nil => simp only [run, Option.some.injEq] at h; subst h; exact hl'
  | cons o l ih =>
    simp only [run, Option.bind_eq_some_iff] at h
    obtain ⟨s1, h1, h2⟩ := h
    refine ⟨hl.1, hl.2.1, fun s2 hs2 => ?_⟩
    rw [h1] at hs2; cases hs2
    exact ih s1 h2 (hl.2.2 s1 h1)

/-! ### C236 -/

/-- **C236** (own response). Whatever the sizes of messages and pipes and however the two sides take turns: if calls are
made one at a time and none is given up, each call that has returned has returned the response to itself. -/
theorem C236_own (c : Cfg) (l : List Op) (s : St) (h : run c {} l = some s) (hl : AtMost 1 c {} l) (n m : Nat)
    (hn : s.calls[n]? = some (.done m)) : m = n :=
  (own_run c l {} s inv_init (few_init 1) own_init hl h).done n m hn

theorem no_drops (c : Cfg) (k : Nat) (l : List Op) (s s' : St) (hs : ∀ n : Nat, s.calls[n]? ≠ some .dropped)
    (hl : AtMost k c s l) (h : run c s l = some s') (n : Nat) : s'.calls[n]? ≠ some .dropped := by
  induction l generalizing s with
  | nil => simp only [run, Option.some.injEq] at h; subst h; exact hs n
  | cons o l ih =>
    simp only [run, Option.bind_eq_some_iff] at h
    obtain ⟨s1, h1, h2⟩ := h
    refine ih s1 ?_ (hl.2.2 s1 h1) h2
    have set_ne : ∀ (i : Nat) (p : Ph), p ≠ .dropped → ∀ m : Nat, (s.calls.set i p)[m]? ≠ some .dropped := by
      intro i p hp m hm
      rw [List.getElem?_set] at hm
      split at hm
      · split at hm
        · exact hp (by simpa using hm)
        · cases hm
      · exact hs m hm
    cases o with
    | drop n => exact absurd rfl (hl.2.1 n)
    | server => rw [(owed_server c s s1 h1).1]; exact hs
    | start =>
      simp only [step, Option.some.injEq] at h1; subst h1
      intro m hm
      simp only [start] at hm
      rw [List.getElem?_append] at hm
      split at hm
      · exact hs m hm
      · cases hk : m - s.calls.length <;> simp [hk] at hm
    | client =>
      simp only [step, client] at h1
      split at h1
      · cases h1
      · split at h1
        · split at h1
          · split at h1 <;> cases h1 <;> exact set_ne _ _ (by simp)
          · cases h1
        · split at h1
          · cases h1
          · cases h1; exact hs
          · cases h1; exact set_ne _ _ (by simp)
        · cases h1

/-- **C236** (every call ends). Under the same conditions, when both sides can do nothing any more, every call has returned
the response to itself; and until then they have done every piece of work exactly once: each byte is written and read, each
handler run. -/
theorem C236_ends (c : Cfg) (hu : 0 < c.capUp) (hd : 0 < c.capDown) (l l' : List Op) (s s' : St)
    (h : run c {} l = some s) (hl : AtMost 1 c {} l) (hg : Going l') (h' : run c s l' = some s') (hs : Stuck c s') :
    (∀ n, n < s'.calls.length → s'.calls[n]? = some (.done n)) ∧ s'.calls.length = s.calls.length ∧
      l'.length + work c s' = work c s := by
  have hl2 := atMost_append c 1 l l' {} s h hl (going_atMost c 1 l' s hg)
  have h2 : run c {} (l ++ l') = some s' := by rw [run_append, h]; exact h'
  have hq := C233_one_partial c hu hd (l ++ l') s' h2 hl2 hs
  have hI := inv_run c _ {} s' inv_init h2
  refine ⟨?_, ?_, C233_bounded c l' s s' hg h'⟩
  · intro n hn
    obtain ⟨p, hp⟩ : ∃ p, s'.calls[n]? = some p := ⟨_, List.getElem?_eq_getElem hn⟩
    have hno : ¬ Open s'.calls[n]? := by
      rw [← hI.q n, hq]; exact List.not_mem_nil
    rw [hp] at hno
    cases p with
    | sending k => exact absurd ((open_iff _).mpr (.inl ⟨k, rfl⟩)) hno
    | receiving => exact absurd ((open_iff _).mpr (.inr rfl)) hno
    | done m => rw [hp, C236_own c _ s' h2 hl2 n m hp]
    | dropped => exact absurd hp (no_drops c 1 _ {} s' (fun n h => by cases h) hl2 h2 n)
  · clear hs hq hI h2 hl2
    induction l' generalizing s l with
    | nil => simp only [run, Option.some.injEq] at h'; subst h'; rfl
    | cons o l' ih =>
      simp only [run, Option.bind_eq_some_iff] at h'
      obtain ⟨s1, h1, h2⟩ := h'
      have hlen : s1.calls.length = s.calls.length := by
        rcases hg o List.mem_cons_self with rfl | rfl
        · simp only [step, client] at h1
          split at h1
          · cases h1
          · split at h1
            · split at h1
              · split at h1 <;> cases h1 <;> simp
              · cases h1
            · split at h1
              · cases h1
              · cases h1; rfl
              · cases h1; simp
            · cases h1
        · rw [(owed_server c s s1 h1).1]
      have hg' : Going l' := fun o ho => hg o (List.mem_cons_of_mem _ ho)
      have hr : run c {} (l ++ [o]) = some s1 := by rw [run_append, h]; simp [run, h1]
      have ha : AtMost 1 c {} (l ++ [o]) := atMost_append c 1 l [o] {} s h hl
        (going_atMost c 1 [o] s (fun x hx => hg x (by simp only [List.mem_singleton] at hx; rw [hx]; exact List.mem_cons_self)))
      rw [ih (l ++ [o]) s1 hr ha hg' h2, hlen]

/-- **C236** (it comes to that). From any state on, the two sides can take turns up to a point where neither can do
anything, and whatever turns they take, there are no more of them than there is work left. -/
theorem C236_stops (c : Cfg) (s : St) :
    (∃ l s', Going l ∧ run c s l = some s' ∧ Stuck c s') ∧
      ∀ l s', Going l → run c s l = some s' → l.length ≤ work c s := by
  refine ⟨?_, fun l s' hl h => by have := C233_bounded c l s s' hl h; omega⟩
  generalize hw : work c s = w
  induction w generalizing s with
  | zero =>
    refine ⟨[], s, (fun o ho => by cases ho), rfl, ?_, ?_⟩
    · cases hc : client c s with
      | none => rfl
      | some s1 => have := work_step c s s1 .client (.inl rfl) hc; omega
    · cases hc : server c s with
      | none => rfl
      | some s1 => have := work_step c s s1 .server (.inr rfl) hc; omega
  | succ w ih =>
    cases hc : client c s with
    | some s1 =>
      have := work_step c s s1 .client (.inl rfl) hc
      obtain ⟨l, s', h1, h2, h3⟩ := ih s1 (by omega)
      refine ⟨.client :: l, s', ?_, ?_, h3⟩
      · intro o ho
        rcases List.mem_cons.mp ho with rfl | ho
        · exact .inl rfl
        · exact h1 o ho
      · simp only [run, step, hc, Option.bind_some, h2]
    | none =>
      cases hc' : server c s with
      | none => exact ⟨[], s, (fun o ho => by cases ho), rfl, hc, hc'⟩
      | some s1 =>
        have := work_step c s s1 .server (.inr rfl) hc'
        obtain ⟨l, s', h1, h2, h3⟩ := ih s1 (by omega)
        refine ⟨.server :: l, s', ?_, ?_, h3⟩
        · intro o ho
          rcases List.mem_cons.mp ho with rfl | ho
          · exact .inr rfl
          · exact h1 o ho
        · simp only [run, step, hc', Option.bind_some, h2]

/-- Two calls, one after the other, with pipes of one byte and messages of two. -/
example : (run ⟨1, 1, fun _ => 1, fun _ => 1⟩ {} [.start, .client, .server, .client, .server, .server, .server, .client,
    .server, .client, .start, .client, .server, .client, .server, .server, .server, .client, .server, .client]).map
      (fun s => (s.calls, s.queue)) = some ([.done 0, .done 1], []) := rfl

/-- Its guard. -/
example : AtMost 1 ⟨1, 1, fun _ => 1, fun _ => 1⟩ {} [.start] := ⟨fun _ => by decide, (fun n => by simp), fun _ _ => trivial⟩

end Verif.Pipe
