import Verif.Pipe.Model

/-
C233: a client and a server over pipes do not stop each other.
-/

namespace Verif.Pipe

open Verif

/-! ### Specifications -/

/-- Neither side can go on. (Specification: no counterpart in the code.) -/
def Stuck (c : Cfg) (s : St) : Prop := client c s = none ∧ server c s = none

/-- The call that has the lock is writing into a full pipe, and the server, too. (Specification: no counterpart in the
code.) -/
def Deadlock (c : Cfg) (s : St) : Prop :=
  ∃ n k m j, s.queue.head? = some n ∧ s.calls[n]? = some (.sending k) ∧ c.capUp ≤ s.up.length ∧
    s.srv = .writing m j ∧ c.capDown ≤ s.down.length

/-- Nobody gives up, and a call is made only when fewer than `k` are in progress. (Specification: no counterpart in the
code.) -/
def AtMost (k : Nat) (c : Cfg) (s : St) : List Op → Prop
  | [] => True
  | o :: l => (o = .start → s.queue.length < k) ∧ (∀ n, o ≠ .drop n) ∧ ∀ s', step c s o = some s' → AtMost k c s' l

/-- Only the two sides go on. (Specification: no counterpart in the code.) -/
def Going (l : List Op) : Prop := ∀ o ∈ l, o = .client ∨ o = .server

/-- (Specification: no counterpart in the code.) -/
def isRecv : Ph → Bool
  | .receiving => true
  | _ => false

/-- (Specification: no counterpart in the code.) -/
def Srv.busy : Srv → Nat
  | .reading => 0
  | _ => 1

/-- The requests whose response has not been read. (Specification: no counterpart in the code.) -/
def owed (s : St) : Nat := s.up.countP Option.isSome + s.srv.busy + s.down.countP Option.isSome

/-! ### Invariant -/

theorem countP_set {α : Type} (p : α → Bool) (l : List α) (n : Nat) (a b : α) (h : l[n]? = some a) :
    (l.set n b).countP p + (if p a then 1 else 0) = l.countP p + (if p b then 1 else 0) := by
  induction l generalizing n with
  | nil => simp at h
  | cons x l ih =>
    cases n with
    | zero =>
      simp only [List.getElem?_cons_zero, Option.some.injEq] at h; subst h
      simp only [List.set_cons_zero, List.countP_cons]; omega
    | succ n =>
      simp only [List.getElem?_cons_succ] at h
      have := ih n h
      simp only [List.set_cons_succ, List.countP_cons]; omega

/-- The phase of a call in progress. (Specification: no counterpart in the code.) -/
def Open (p : Option Ph) : Prop := (∃ k, p = some (.sending k)) ∨ p = some .receiving

/-- Those in the queue are the calls in progress, and none waits in vain. (Specification: no counterpart in the code.) -/
structure Inv (s : St) : Prop where
  q : ∀ n : Nat, n ∈ s.queue ↔ Open s.calls[n]?
  nd : s.queue.Nodup
  owed : s.calls.countP isRecv ≤ owed s

theorem inv_init : Inv {} :=
  ⟨fun n => by simp [Open], List.nodup_nil, Nat.le_refl _⟩

theorem open_set (l : List Ph) (n m : Nat) (p q : Ph) (h : l[n]? = some q) :
    Open (l.set n p)[m]? ↔ if n = m then Open (some p) else Open l[m]? := by
  rw [List.getElem?_set]
  by_cases hm : n = m
  · subst hm
    rw [if_pos rfl, if_pos (List.getElem?_eq_some_iff.mp h).1, if_pos rfl]
  · rw [if_neg hm, if_neg hm]

theorem open_iff (p : Ph) : Open (some p) ↔ (∃ k, p = .sending k) ∨ p = .receiving := by
  simp [Open]

theorem open_done (m : Nat) : ¬ Open (some (.done m)) := by simp [Open]
theorem open_dropped : ¬ Open (some .dropped) := by simp [Open]

theorem inv_client (c : Cfg) (s s' : St) (hI : Inv s) (h : client c s = some s') : Inv s' := by
  simp only [client] at h
  split at h
  · cases h
  · next n q hq =>
    have hnd := hI.nd
    rw [hq, List.nodup_cons] at hnd
    have hmem := hI.q
    rw [hq] at hmem
    split at h
    · next rest hc =>
      have hcount := hI.owed
      split at h
      · split at h
        · cases h
          have hs := countP_set isRecv s.calls n _ .receiving hc
          simp only [isRecv] at hs
          refine ⟨?_, ?_, ?_⟩
          · intro m
            simp only [open_set _ n m _ _ hc]
            rw [List.mem_append, List.mem_singleton]
            by_cases hm : n = m
            · subst hm; simp [Open]
            · rw [if_neg hm, ← hmem m, List.mem_cons]
              constructor
              · rintro (h | h)
                · exact .inr h
                · exact absurd h.symm hm
              · rintro (h | h)
                · exact absurd h.symm hm
                · exact .inl h
          · simp only
            rw [List.nodup_append]
            refine ⟨hnd.2, by simp, ?_⟩
            intro a ha b hb
            simp only [List.mem_singleton] at hb
            subst hb
            intro hab; subst hab; exact hnd.1 ha
          · simp only [owed, List.countP_append, List.countP_singleton, Option.isSome_some, if_true] at *
            simp only [Bool.false_eq_true, if_false, if_true] at hs
            omega
        · next k =>
          cases h
          have hs := countP_set isRecv s.calls n _ (.sending k) hc
          simp only [isRecv] at hs
          refine ⟨?_, hI.nd, ?_⟩
          · intro m
            simp only [open_set _ n m _ _ hc]
            by_cases hm : n = m
            · subst hm; simp [Open, hq]
            · rw [if_neg hm]; exact hI.q m
          · simp only [owed, List.countP_append, List.countP_singleton, Option.isSome_none] at *
            simp only [Bool.false_eq_true, if_false] at *
            omega
      · cases h
    · next hc =>
      have hcount := hI.owed
      split at h
      · cases h
      · next d hd =>
        cases h
        refine ⟨hI.q, hI.nd, ?_⟩
        simp only [owed, hd, List.countP_cons, Option.isSome_none] at *
        simp only [Bool.false_eq_true, if_false] at hcount
        omega
      · next m' d hd =>
        cases h
        have hs := countP_set isRecv s.calls n _ (.done m') hc
        simp only [isRecv] at hs
        refine ⟨?_, hnd.2, ?_⟩
        · intro m
          simp only [open_set _ n m _ _ hc]
          by_cases hm : n = m
          · subst hm; rw [if_pos rfl]; exact ⟨fun h => absurd h hnd.1, fun h => absurd h (open_done _)⟩
          · rw [if_neg hm, ← hmem m, List.mem_cons]
            constructor
            · exact .inr
            · rintro (h | h)
              · exact absurd h.symm hm
              · exact h
        · simp only [owed, hd, List.countP_cons, Option.isSome_some, if_true] at *
          simp only [Bool.false_eq_true, if_false] at hs
          omega
    · cases h

theorem owed_server (c : Cfg) (s s' : St) (h : server c s = some s') :
    s'.calls = s.calls ∧ s'.queue = s.queue ∧ s'.mid = s.mid ∧ owed s' = owed s := by
  simp only [server] at h
  split at h
  · next hs =>
    split at h
    · cases h
    · next u hu => cases h; simp [owed, hu, hs]
    · next n u hu => cases h; simp [owed, hu, hs, Srv.busy]
  · next n hs => cases h; simp [owed, hs, Srv.busy]
  · next n rest hs =>
    split at h
    · split at h
      · cases h; simp [owed, hs, Srv.busy]; omega
      · cases h; simp [owed, hs, Srv.busy]
    · cases h

theorem inv_server (c : Cfg) (s s' : St) (hI : Inv s) (h : server c s = some s') : Inv s' := by
  obtain ⟨h1, h2, -, h3⟩ := owed_server c s s' h
  exact ⟨by rw [h1, h2]; exact hI.q, by rw [h2]; exact hI.nd, by rw [h1, h3]; exact hI.owed⟩

theorem inv_start (c : Cfg) (s : St) (hI : Inv s) : Inv (start c s) := by
  have hlt : ∀ m ∈ s.queue, m < s.calls.length := by
    intro m hm
    rcases (hI.q m).mp hm with ⟨k, h⟩ | h <;> exact (List.getElem?_eq_some_iff.mp h).1
  refine ⟨?_, ?_, ?_⟩
  · intro m
    simp only [start, List.mem_append, List.mem_singleton]
    rw [List.getElem?_append]
    by_cases hm : m < s.calls.length
    · rw [if_pos hm, ← hI.q m]
      exact ⟨fun h => h.elim id (fun h => by omega), .inl⟩
    · rw [if_neg hm]
      constructor
      · rintro (h | h)
        · exact absurd (hlt m h) hm
        · subst h; simp [Open]
      · intro h
        by_cases he : m = s.calls.length
        · exact .inr he
        · have : m - s.calls.length = (m - s.calls.length - 1) + 1 := by omega
          rw [this] at h
          simp [Open] at h
  · simp only [start]
    rw [List.nodup_append]
    refine ⟨hI.nd, by simp, ?_⟩
    intro a ha b hb
    simp only [List.mem_singleton] at hb
    have := hlt a ha
    omega
  · have := hI.owed
    simp only [start, owed, List.countP_append, List.countP_singleton, isRecv] at *
    simpa using this

theorem inv_filter (s : St) (n : Nat) (p : Ph) (hI : Inv s) (hp : s.calls[n]? = some p) :
    Inv { s with calls := s.calls.set n .dropped, queue := s.queue.filter (· != n) } := by
  have hs := countP_set isRecv s.calls n _ .dropped hp
  refine ⟨?_, hI.nd.filter _, ?_⟩
  · intro m
    simp only [open_set _ n m _ _ hp, List.mem_filter]
    by_cases hm : n = m
    · subst hm; rw [if_pos rfl]; simp [Open]
    · rw [if_neg hm, ← hI.q m]
      simp only [bne_iff_ne, ne_eq]
      exact ⟨fun h => h.1, fun h => ⟨h, fun e => hm e.symm⟩⟩
  · have := hI.owed
    simp only [owed, isRecv, Bool.false_eq_true, if_false] at *
    omega

theorem inv_step (c : Cfg) (s s' : St) (o : Op) (hI : Inv s) (h : step c s o = some s') : Inv s' := by
  cases o with
  | start => simp only [step, Option.some.injEq] at h; subst h; exact inv_start c s hI
  | client => exact inv_client c s s' hI h
  | server => exact inv_server c s s' hI h
  | drop n =>
    simp only [step, drop] at h
    split at h
    · next rest hc =>
      split at h
      · cases h; exact inv_filter s n _ hI hc
      · cases h
    · next hc =>
      split at h
      · cases h
      · cases h; exact inv_filter s n _ hI hc
    · cases h

theorem inv_run (c : Cfg) (l : List Op) (s s' : St) (hI : Inv s) (h : run c s l = some s') : Inv s' := by
  induction l generalizing s with
  | nil => simp only [run, Option.some.injEq] at h; subst h; exact hI
  | cons o l ih =>
    simp only [run, Option.bind_eq_some_iff] at h
    obtain ⟨s1, h1, h2⟩ := h
    exact ih s1 (inv_step c s s1 o hI h1) h2

theorem owed_nil (s : St) (h1 : s.up = []) (h2 : s.down = []) (h3 : s.srv = .reading) : owed s = 0 := by
  simp [owed, h1, h2, h3, Srv.busy]

/-! ### C233 -/

/-- **C233** (the only way to stop). Whatever calls are made and given up: while calls are in progress, both sides are
stopped exactly if each is writing into a full pipe. -/
theorem C233_stuck_iff (c : Cfg) (hu : 0 < c.capUp) (hd : 0 < c.capDown) (l : List Op) (s : St) (h : run c {} l = some s)
    (hq : s.queue ≠ []) : Stuck c s ↔ Deadlock c s := by
  have hI := inv_run c l {} s inv_init h
  constructor
  · rintro ⟨h1, h2⟩
    obtain ⟨n, q, hnq⟩ : ∃ n q, s.queue = n :: q := by
      cases hh : s.queue with
      | nil => exact absurd hh hq
      | cons n q => exact ⟨n, q, rfl⟩
    have hsrv : (s.srv = .reading ∧ s.up = []) ∨ ∃ m j, s.srv = .writing m j ∧ c.capDown ≤ s.down.length := by
      simp only [server] at h2
      split at h2
      · next hs =>
        split at h2
        · next hup => exact .inl ⟨hs, hup⟩
        · cases h2
        · cases h2
      · cases h2
      · next m j hs =>
        split at h2
        · split at h2 <;> cases h2
        · exact .inr ⟨m, j, hs, by omega⟩
    have hopen := (hI.q n).mp (by rw [hnq]; exact List.mem_cons_self)
    rcases hopen with ⟨k, hk⟩ | hk
    · simp only [client, hnq, hk] at h1
      split at h1
      · split at h1 <;> cases h1
      · rcases hsrv with ⟨_, hup⟩ | ⟨m, j, hs, hdn⟩
        · simp only [hup, List.length_nil] at *; omega
        · exact ⟨n, k, m, j, by rw [hnq]; rfl, hk, by omega, hs, hdn⟩
    · simp only [client, hnq, hk] at h1
      split at h1
      · next hdn =>
        rcases hsrv with ⟨hs, hup⟩ | ⟨m, j, hs, hfull⟩
        · have h0 := hI.owed
          rw [owed_nil s hup hdn hs] at h0
          have : 0 < s.calls.countP isRecv :=
            List.countP_pos_iff.mpr ⟨.receiving, List.mem_of_getElem? hk, rfl⟩
          omega
        · rw [hdn] at hfull; simp at hfull; omega
      · cases h1
      · cases h1
  · rintro ⟨n, k, m, j, h1, h2, h3, h4, h5⟩
    constructor
    · cases hq' : s.queue with
      | nil => rw [hq'] at h1; cases h1
      | cons a q =>
        rw [hq'] at h1; cases h1
        simp only [client, hq', h2]
        exact if_neg (by omega)
    · simp only [server, h4]
      exact if_neg (by omega)

/-- What is left to do: every byte is written and read once, every handler runs once. (Specification: no counterpart in
the code.) -/
def callWork (c : Cfg) (n : Nat) : Ph → Nat
  | .sending rest => 2 * (rest + 1) + 1 + 2 * (c.resp n + 1)
  | _ => 0

/-- (Specification: no counterpart in the code.) -/
def byteWork (c : Cfg) : Option Nat → Nat
  | none => 1
  | some n => 2 + 2 * (c.resp n + 1)

/-- (Specification: no counterpart in the code.) -/
def srvWork (c : Cfg) : Srv → Nat
  | .reading => 0
  | .handling n => 1 + 2 * (c.resp n + 1)
  | .writing _ rest => 2 * (rest + 1)

/-- (Specification: no counterpart in the code.) -/
def callsWork (c : Cfg) : Nat → List Ph → Nat
  | _, [] => 0
  | i, p :: l => callWork c i p + callsWork c (i + 1) l

/-- (Specification: no counterpart in the code.) -/
def work (c : Cfg) (s : St) : Nat :=
  callsWork c 0 s.calls + (s.up.map (byteWork c)).sum + srvWork c s.srv + s.down.length

theorem callsWork_set (c : Cfg) (l : List Ph) (i n : Nat) (a b : Ph) (h : l[n]? = some a) :
    callsWork c i (l.set n b) + callWork c (i + n) a = callsWork c i l + callWork c (i + n) b := by
  induction l generalizing n i with
  | nil => simp at h
  | cons x l ih =>
    cases n with
    | zero =>
      simp only [List.getElem?_cons_zero, Option.some.injEq] at h; subst h
      simp only [List.set_cons_zero, callsWork, Nat.add_zero]; omega
    | succ n =>
      simp only [List.getElem?_cons_succ] at h
      have := ih (i + 1) n h
      simp only [List.set_cons_succ, callsWork]
      rw [show i + (n + 1) = i + 1 + n from by omega]
      omega

theorem work_step (c : Cfg) (s s' : St) (o : Op) (ho : o = .client ∨ o = .server) (h : step c s o = some s') :
    work c s' + 1 = work c s := by
  rcases ho with rfl | rfl
  · simp only [step, client] at h
    split at h
    · cases h
    · next n q hq =>
      split at h
      · next rest hc =>
        split at h
        · split at h
          · cases h
            have := callsWork_set c s.calls 0 n _ .receiving hc
            simp only [callWork, Nat.zero_add] at this
            simp only [work, List.map_append, List.sum_append, List.map_cons, List.map_nil, List.sum_cons, List.sum_nil,
              byteWork]
            omega
          · next k =>
            cases h
            have := callsWork_set c s.calls 0 n _ (.sending k) hc
            simp only [callWork, Nat.zero_add] at this
            simp only [work, List.map_append, List.sum_append, List.map_cons, List.map_nil, List.sum_cons, List.sum_nil,
              byteWork]
            omega
        · cases h
      · next hc =>
        split at h
        · cases h
        · next d hd => cases h; simp only [work, hd, List.length_cons]; omega
        · next m d hd =>
          cases h
          have := callsWork_set c s.calls 0 n _ (.done m) hc
          simp only [callWork, Nat.zero_add, Nat.add_zero] at this
          simp only [work, hd, List.length_cons]; omega
      · cases h
  · simp only [step, server] at h
    split at h
    · next hs =>
      split at h
      · cases h
      · next u hu =>
        cases h
        simp only [work, hu, hs, srvWork, List.map_cons, List.sum_cons, byteWork]; omega
      · next n u hu =>
        cases h
        simp only [work, hu, hs, srvWork, List.map_cons, List.sum_cons, byteWork]; omega
    · next n hs => cases h; simp only [work, hs, srvWork]; omega
    · next n rest hs =>
      split at h
      · split at h
        · cases h; simp only [work, hs, srvWork, List.length_append, List.length_singleton]; omega
        · cases h; simp only [work, hs, srvWork, List.length_append, List.length_singleton]; omega
      · cases h

/-- **C233** (no endless work). If no further call is made, both sides together take exactly `work` steps or stop before:
every byte is written and read once, every handler runs once. -/
theorem C233_bounded (c : Cfg) (l : List Op) (s s' : St) (hl : Going l) (h : run c s l = some s') :
    l.length + work c s' = work c s := by
  induction l generalizing s with
  | nil => simp only [run, Option.some.injEq] at h; subst h; simp
  | cons o l ih =>
    simp only [run, Option.bind_eq_some_iff] at h
    obtain ⟨s1, h1, h2⟩ := h
    have := work_step c s s1 o (hl o List.mem_cons_self) h1
    have := ih s1 (fun o ho => hl o (List.mem_cons_of_mem _ ho)) h2
    simp only [List.length_cons]
    omega

/-! #### A few calls at a time -/

/-- Bytes of the response the server has not written. (Specification: no counterpart in the code.) -/
def Srv.left : Srv → Nat
  | .writing _ rest => rest + 1
  | _ => 0

/-- (Specification: no counterpart in the code.) -/
def Srv.writes : Srv → Nat
  | .writing _ _ => 1
  | _ => 0

/-- Nobody gave up, and few calls are in progress. (Specification: no counterpart in the code.) -/
structure Few (k : Nat) (s : St) : Prop where
  owed : owed s ≤ s.calls.countP isRecv
  len : s.queue.length ≤ k

/-- Each response in the pipe is of at most `R` bytes. (Specification: no counterpart in the code.) -/
def Short (R : Nat) (s : St) : Prop :=
  ∀ d, d <:+ s.down → d.length + s.srv.left ≤ R * (d.countP Option.isSome + s.srv.writes)

theorem suffix_append_one {α : Type} (d l : List α) (a : α) (h : d <:+ l ++ [a]) : d = [] ∨ ∃ d', d' <:+ l ∧ d = d' ++ [a] := by
  obtain ⟨t, ht⟩ := h
  rcases List.eq_nil_or_concat d with hd | ⟨d', b, hd⟩
  · exact .inl hd
  · right
    simp only [List.concat_eq_append] at hd
    subst hd
    rw [← List.append_assoc] at ht
    have h1 := List.append_inj_left' ht rfl
    have h2 := List.append_inj_right' ht rfl
    cases h2
    exact ⟨d', ⟨t, h1⟩, rfl⟩

theorem few_step (c : Cfg) (k : Nat) (s s' : St) (o : Op) (hF : Few k s)
    (ho : o = .start → s.queue.length < k) (hnd : ∀ n, o ≠ .drop n) (h : step c s o = some s') : Few k s' := by
  cases o with
  | drop n => exact absurd rfl (hnd n)
  | server =>
    obtain ⟨h1, h2, -, h3⟩ := owed_server c s s' h
    exact ⟨by rw [h1, h3]; exact hF.owed, by rw [h2]; exact hF.len⟩
  | start =>
    simp only [step, Option.some.injEq] at h; subst h
    refine ⟨?_, ?_⟩
    · have := hF.owed
      simp only [start, owed, List.countP_append, List.countP_singleton, isRecv] at *
      simpa using this
    · have := ho rfl
      simp only [start, List.length_append, List.length_singleton]; omega
  | client =>
    simp only [step, client] at h
    have hcount := hF.owed
    have hlen := hF.len
    split at h
    · cases h
    · next n q hq =>
      rw [hq, List.length_cons] at hlen
      split at h
      · next rest hc =>
        split at h
        · split at h
          · cases h
            have hs := countP_set isRecv s.calls n _ .receiving hc
            simp only [isRecv] at hs
            refine ⟨?_, by simp only [List.length_append, List.length_singleton]; omega⟩
            simp only [owed, List.countP_append, List.countP_singleton, Option.isSome_some, if_true] at *
            simp only [Bool.false_eq_true, if_false, if_true] at hs
            omega
          · next k' =>
            cases h
            have hs := countP_set isRecv s.calls n _ (.sending k') hc
            simp only [isRecv] at hs
            refine ⟨?_, by simp only [hq, List.length_cons]; omega⟩
            simp only [owed, List.countP_append, List.countP_singleton, Option.isSome_none] at *
            simp only [Bool.false_eq_true, if_false] at *
            omega
        · cases h
      · next hc =>
        split at h
        · cases h
        · next d hd =>
          cases h
          refine ⟨?_, by simp only [hq, List.length_cons]; omega⟩
          simp only [owed, hd, List.countP_cons, Option.isSome_none] at *
          simp only [Bool.false_eq_true, if_false] at hcount
          omega
        · next m' d hd =>
          cases h
          have hs := countP_set isRecv s.calls n _ (.done m') hc
          simp only [isRecv] at hs
          refine ⟨?_, by simp only; omega⟩
          simp only [owed, hd, List.countP_cons, Option.isSome_some, if_true] at *
          simp only [Bool.false_eq_true, if_false, if_true] at hs
          omega
      · cases h

theorem few_run (c : Cfg) (k : Nat) (l : List Op) (s s' : St) (hF : Few k s) (hl : AtMost k c s l)
    (h : run c s l = some s') : Few k s' := by
  induction l generalizing s with
  | nil => simp only [run, Option.some.injEq] at h; subst h; exact hF
  | cons o l ih =>
    simp only [run, Option.bind_eq_some_iff] at h
    obtain ⟨s1, h1, h2⟩ := h
    exact ih s1 (few_step c k s s1 o hF hl.1 hl.2.1 h1) (hl.2.2 s1 h1) h2

theorem few_init (k : Nat) : Few k {} := ⟨Nat.le_refl _, Nat.zero_le _⟩

theorem short_step (c : Cfg) (R : Nat) (hR : ∀ n, c.resp n + 1 ≤ R) (s s' : St) (o : Op) (hb : Short R s)
    (h : step c s o = some s') : Short R s' := by
  cases o with
  | drop n =>
    simp only [step, drop] at h
    split at h
    · split at h
      · cases h; exact hb
      · cases h
    · split at h
      · cases h
      · cases h; exact hb
    · cases h
  | start => simp only [step, Option.some.injEq] at h; subst h; exact hb
  | client =>
    simp only [step, client] at h
    split at h
    · cases h
    · split at h
      · split at h
        · split at h <;> cases h <;> exact hb
        · cases h
      · split at h
        · cases h
        · next d hd => cases h; exact fun d' hd' => hb d' (by rw [hd]; exact List.suffix_cons_iff.mpr (.inr hd'))
        · next m d hd => cases h; exact fun d' hd' => hb d' (by rw [hd]; exact List.suffix_cons_iff.mpr (.inr hd'))
      · cases h
  | server =>
    simp only [step, server] at h
    simp only [Short] at hb
    split at h
    · next hs =>
      split at h
      · cases h
      · cases h; exact hb
      · cases h; simpa [Short, hs, Srv.left, Srv.writes] using hb
    · next n hs =>
      cases h
      simp only [hs, Srv.left, Srv.writes] at hb
      intro d hd
      have h1 := hb d hd
      have h2 := hR n
      simp only [Srv.left, Srv.writes, Nat.mul_add, Nat.mul_one, Nat.mul_zero, Nat.add_zero] at h1 ⊢
      omega
    · next n rest hs =>
      split at h
      · split at h
        · cases h
          simp only [hs, Srv.left, Srv.writes] at hb
          intro d hd
          rcases suffix_append_one d _ _ hd with rfl | ⟨d', hd', rfl⟩
          · simp [Srv.left, Srv.writes]
          · have := hb d' hd'
            simp only [Srv.left, Srv.writes, List.length_append, List.length_singleton, List.countP_append,
              List.countP_singleton, Option.isSome_some, if_true] at this ⊢
            simpa using this
        · next j =>
          cases h
          simp only [hs, Srv.left, Srv.writes] at hb
          intro d hd
          rcases suffix_append_one d _ _ hd with rfl | ⟨d', hd', rfl⟩
          · have := hb [] (List.nil_suffix)
            simp only [Srv.left, Srv.writes, List.length_nil, List.countP_nil, Nat.zero_add, Nat.mul_one] at this ⊢
            omega
          · have := hb d' hd'
            simp only [Srv.left, Srv.writes, List.length_append, List.length_singleton, List.countP_append,
              List.countP_singleton, Option.isSome_none] at this ⊢
            simp only [Bool.false_eq_true, if_false, Nat.add_zero] at this ⊢
            omega
      · cases h

theorem short_run (c : Cfg) (R : Nat) (hR : ∀ n, c.resp n + 1 ≤ R) (l : List Op) (s s' : St) (hb : Short R s)
    (h : run c s l = some s') : Short R s' := by
  induction l generalizing s with
  | nil => simp only [run, Option.some.injEq] at h; subst h; exact hb
  | cons o l ih =>
    simp only [run, Option.bind_eq_some_iff] at h
    obtain ⟨s1, h1, h2⟩ := h
    exact ih s1 (short_step c R hR s s1 o hb h1) h2

theorem short_init (R : Nat) : Short R {} := fun d hd => by simp [List.suffix_nil.mp hd, Srv.left]

/-- The calls that want a response wait behind the one that sends. -/
theorem recv_lt (s : St) (hI : Inv s) (n k : Nat) (hn : s.queue.head? = some n) (hk : s.calls[n]? = some (.sending k)) :
    s.calls.countP isRecv < s.queue.length := by
  have key : ∀ (l : List Ph) (i : Nat) (q : List Nat), q.Nodup → (∀ m, l[m]? = some .receiving → m + i ∈ q) →
      l.countP isRecv ≤ (q.filter (fun x => decide (i ≤ x))).length := by
    intro l
    induction l with
    | nil => intro i q _ _; simp
    | cons p l ih =>
      intro i q hq hm
      have h1 := ih (i + 1) q hq (fun m hmm => by
        have := hm (m + 1) (by simpa using hmm)
        rw [show m + (i + 1) = m + 1 + i from by omega]; exact this)
      have h2 : (q.filter (fun x => decide (i + 1 ≤ x))).length ≤ (q.filter (fun x => decide (i ≤ x))).length := by
        rw [← List.countP_eq_length_filter, ← List.countP_eq_length_filter]
        exact List.countP_mono_left (fun x _ hx => by simp only [decide_eq_true_eq] at *; omega)
      rw [List.countP_cons]
      by_cases hp : isRecv p = true
      · rw [if_pos hp]
        have hpr : p = .receiving := by cases p <;> simp_all [isRecv]
        have hin : i ∈ q := by simpa using hm 0 (by rw [hpr]; rfl)
        have h3 : (q.filter (fun x => decide (i + 1 ≤ x))).length < (q.filter (fun x => decide (i ≤ x))).length := by
          clear h1 h2 ih hm hp hpr
          induction q with
          | nil => cases hin
          | cons a q ihq =>
            rw [List.nodup_cons] at hq
            have hmono : (q.filter (fun x => decide (i + 1 ≤ x))).length ≤ (q.filter (fun x => decide (i ≤ x))).length := by
              rw [← List.countP_eq_length_filter, ← List.countP_eq_length_filter]
              exact List.countP_mono_left (fun x _ hx => by simp only [decide_eq_true_eq] at *; omega)
            rcases List.mem_cons.mp hin with rfl | hin
            · rw [List.filter_cons_of_neg (by simp), List.filter_cons_of_pos (by simp)]
              simp only [List.length_cons]; omega
            · have := ihq hq.2 hin
              simp only [List.filter_cons, decide_eq_true_eq]
              split <;> split <;> (try simp only [List.length_cons]) <;> omega
        omega
      · rw [if_neg hp]; omega
  cases hq : s.queue with
  | nil => rw [hq] at hn; cases hn
  | cons a q =>
    rw [hq] at hn
    cases hn
    have hnd := hI.nd
    rw [hq, List.nodup_cons] at hnd
    have hle := key s.calls 0 q hnd.2 (by
      intro m hm
      have h1 := (hI.q m).mpr (.inr hm)
      rw [hq] at h1
      rcases List.mem_cons.mp h1 with h1 | h1
      · subst h1; rw [hk] at hm; cases hm
      · exact h1)
    have : (q.filter (fun x => decide (0 ≤ x))).length ≤ q.length := List.length_filter_le _ _
    simp only [List.length_cons]
    omega

/-- **C233** (one call at a time). If a call is made only when no other is in progress and nobody gives up, the two sides
never stop each other, whatever the sizes of the messages and the pipes. Missing from the property: several calls at
once, and calls given up (`C233_two_calls`, `C233_given_up`). -/
theorem C233_one_partial (c : Cfg) (hu : 0 < c.capUp) (hd : 0 < c.capDown) (l : List Op) (s : St)
    (h : run c {} l = some s) (hl : AtMost 1 c {} l) (hs : Stuck c s) : s.queue = [] := by
  cases hq : s.queue with
  | nil => rfl
  | cons a q =>
    exfalso
    obtain ⟨n, k, m, j, h1, h2, h3, h4, h5⟩ :=
      (C233_stuck_iff c hu hd l s h (by rw [hq]; exact List.cons_ne_nil _ _)).mp hs
    have hlt := recv_lt s (inv_run c l {} s inv_init h) n k h1 h2
    obtain ⟨g1, g2⟩ := few_run c 1 l {} s (few_init 1) hl h
    have : 1 ≤ owed s := by simp only [owed, h4, Srv.busy]; omega
    omega

/-- **C233** (a few calls at a time). With at most `k` calls in progress, nobody giving up and responses of at most `R`
bytes, the two sides never stop each other if the pipe from the server has room for `k - 1` responses. -/
theorem C233_few_partial (c : Cfg) (hu : 0 < c.capUp) (hd : 0 < c.capDown) (R k : Nat) (hR : ∀ n, c.resp n + 1 ≤ R)
    (hk : R * (k - 1) ≤ c.capDown) (l : List Op) (s : St) (h : run c {} l = some s) (hl : AtMost k c {} l)
    (hs : Stuck c s) : s.queue = [] := by
  cases hq : s.queue with
  | nil => rfl
  | cons a q =>
    exfalso
    obtain ⟨n, i, m, j, h1, h2, h3, h4, h5⟩ :=
      (C233_stuck_iff c hu hd l s h (by rw [hq]; exact List.cons_ne_nil _ _)).mp hs
    have hlt := recv_lt s (inv_run c l {} s inv_init h) n i h1 h2
    obtain ⟨g1, g2⟩ := few_run c k l {} s (few_init k) hl h
    have g3 := short_run c R hR l {} s (short_init R) h s.down (List.suffix_refl _)
    simp only [owed, h4, Srv.busy, Srv.left, Srv.writes] at g1 g3
    have : R * (s.down.countP Option.isSome + 1) ≤ R * (k - 1) := Nat.mul_le_mul_left R (by omega)
    omega

/-! #### Deadlocks -/

theorem run_append (c : Cfg) (s : St) (a b : List Op) : run c s (a ++ b) = (run c s a).bind (fun s' => run c s' b) := by
  induction a generalizing s with
  | nil => rfl
  | cons o l ih =>
    simp only [List.cons_append, run]
    cases step c s o <;> simp [ih]

theorem deadlock_stuck (c : Cfg) (s : St) (h : Deadlock c s) : Stuck c s := by
  obtain ⟨n, k, m, j, h1, h2, h3, h4, h5⟩ := h
  constructor
  · cases hq' : s.queue with
    | nil => rw [hq'] at h1; cases h1
    | cons a q =>
      rw [hq'] at h1; cases h1
      simp only [client, hq', h2]
      exact if_neg (by omega)
  · simp only [server, h4]
    exact if_neg (by omega)

/-- **C233** (for ever). Two sides that stopped, the client inside of a request, stay so, whatever calls are made or given
up. -/
theorem C233_for_ever (c : Cfg) (l : List Op) (s s' : St) (n k m j : Nat) (h1 : s.queue.head? = some n)
    (h2 : s.calls[n]? = some (.sending k)) (hk : k ≠ c.req n) (h3 : c.capUp ≤ s.up.length) (h4 : s.srv = .writing m j)
    (h5 : c.capDown ≤ s.down.length) (h : run c s l = some s') :
    s'.queue.head? = some n ∧ s'.calls[n]? = some (.sending k) ∧ s'.up = s.up ∧ s'.down = s.down ∧ s'.srv = s.srv := by
  induction l generalizing s with
  | nil => simp only [run, Option.some.injEq] at h; subst h; exact ⟨h1, h2, rfl, rfl, rfl⟩
  | cons o l ih =>
    simp only [run, Option.bind_eq_some_iff] at h
    obtain ⟨s1, hs1, h⟩ := h
    have hst := deadlock_stuck c s ⟨n, k, m, j, h1, h2, h3, h4, h5⟩
    obtain ⟨q, hq⟩ : ∃ q, s.queue = n :: q := by
      cases hh : s.queue with
      | nil => rw [hh] at h1; cases h1
      | cons a q => rw [hh] at h1; cases h1; exact ⟨q, rfl⟩
    have key : s1.queue.head? = some n ∧ s1.calls[n]? = some (.sending k) ∧ s1.up = s.up ∧ s1.down = s.down ∧
        s1.srv = s.srv := by
      have hdrop : ∀ i p, s.calls[i]? = some p → i ≠ n → (List.filter (· != i) s.queue).head? = some n ∧
          (s.calls.set i Ph.dropped)[n]? = some (.sending k) := by
        intro i p _ hne
        constructor
        · rw [hq, List.filter_cons_of_pos (by simpa using fun e => hne e.symm)]; rfl
        · rw [List.getElem?_set, if_neg hne]; exact h2
      cases o with
      | client => simp only [step] at hs1; rw [hst.1] at hs1; cases hs1
      | server => simp only [step] at hs1; rw [hst.2] at hs1; cases hs1
      | start =>
        simp only [step, Option.some.injEq] at hs1; subst hs1
        refine ⟨by simp [start, hq], ?_, rfl, rfl, rfl⟩
        simp only [start]
        rw [List.getElem?_append_left (List.getElem?_eq_some_iff.mp h2).1]; exact h2
      | drop i =>
        simp only [step, drop] at hs1
        split at hs1
        · next r hc =>
          split at hs1
          · next hr =>
            have hne : i ≠ n := by
              intro e; subst e; rw [h2] at hc; cases hc; exact hk hr
            cases hs1
            exact ⟨(hdrop i _ hc hne).1, (hdrop i _ hc hne).2, rfl, rfl, rfl⟩
          · cases hs1
        · next hc =>
          split at hs1
          · cases hs1
          · have hne : i ≠ n := by
              intro e; subst e; rw [h2] at hc; cases hc
            cases hs1
            exact ⟨(hdrop i _ hc hne).1, (hdrop i _ hc hne).2, rfl, rfl, rfl⟩
        · cases hs1
    obtain ⟨k1, k2, k3, k4, k5⟩ := key
    have := ih s1 k1 k2 (by rw [k3]; exact h3) (by rw [k5]; exact h4) (by rw [k4]; exact h5) h
    rw [k3, k4, k5] at this
    exact this

theorem send_read (c : Cfg) (hu : 0 < c.capUp) (k n : Nat) (q : List Nat) (s : St) (hq : s.queue = n :: q)
    (hc : s.calls[n]? = some (.sending k)) (hup : s.up = []) (hs : s.srv = .reading) :
    ∃ l, Going l ∧ run c s l = some { s with calls := s.calls.set n .receiving, queue := q ++ [n], srv := .handling n } := by
  induction k generalizing s with
  | zero =>
    refine ⟨[.client, .server], (fun o ho => by simpa using ho), ?_⟩
    simp [run, step, client, server, hq, hc, hup, hs, hu]
  | succ k ih =>
    have hlt := (List.getElem?_eq_some_iff.mp hc).1
    obtain ⟨l, hl, hr⟩ := ih { s with calls := s.calls.set n (.sending k), up := [] } hq
      (by simp only [List.getElem?_set, if_true]; exact if_pos hlt) rfl hs
    refine ⟨.client :: .server :: l, ?_, ?_⟩
    · intro o ho
      rcases List.mem_cons.mp ho with rfl | ho
      · exact .inl rfl
      · rcases List.mem_cons.mp ho with rfl | ho
        · exact .inr rfl
        · exact hl o ho
    · simp only [List.set_set] at hr
      simp only [run, step, client, hq, hc, hup, List.length_nil, hu, if_true, Option.bind_some, server, hs,
        List.nil_append]
      rw [← hup] at hr ⊢
      simpa [hup, hs, hq] using hr

theorem write_down (c : Cfg) (i m j : Nat) (s : St) (hs : s.srv = .writing m (j + i))
    (hroom : s.down.length + i ≤ c.capDown) :
    run c s (List.replicate i .server) = some { s with down := s.down ++ List.replicate i none, srv := .writing m j } := by
  induction i generalizing s with
  | zero =>
    cases s
    simp only [Nat.add_zero] at hs
    simp [run, hs]
  | succ i ih =>
    have h1 : step c s .server = some { s with down := s.down ++ [none], srv := .writing m (j + i) } := by
      simp only [step, server, hs]
      rw [if_pos (by omega)]
      rfl
    simp only [List.replicate_succ, run, h1, Option.bind_some]
    rw [ih _ rfl (by simp only [List.length_append, List.length_singleton]; omega)]
    simp

theorem write_up (c : Cfg) (i n k : Nat) (q : List Nat) (s : St) (hq : s.queue = n :: q)
    (hc : s.calls[n]? = some (.sending (k + i))) (hroom : s.up.length + i ≤ c.capUp) :
    run c s (List.replicate i .client) =
      some { s with calls := s.calls.set n (.sending k), up := s.up ++ List.replicate i none } := by
  have hlt := (List.getElem?_eq_some_iff.mp hc).1
  induction i generalizing s with
  | zero =>
    have : s.calls.set n (.sending k) = s.calls := by
      apply List.ext_getElem?
      intro m
      rw [List.getElem?_set]
      by_cases hm : n = m
      · subst hm; rw [if_pos rfl, if_pos hlt]; exact hc.symm
      · rw [if_neg hm]
    simp [run, this]
  | succ i ih =>
    have h1 : step c s .client = some { s with calls := s.calls.set n (.sending (k + i)), up := s.up ++ [none] } := by
      simp only [step, client, hq, hc]
      rw [if_pos (by omega)]
      rfl
    simp only [List.replicate_succ, run, h1, Option.bind_some]
    rw [ih { s with calls := s.calls.set n (.sending (k + i)), up := s.up ++ [none] } hq
      (by simp only [List.getElem?_set, if_true]; exact if_pos hlt)
      (by simp only [List.length_append, List.length_singleton]; omega) (by simpa using hlt)]
    simp

/-- Two sides that stopped: the server has filled its pipe with part of the first response, the client its own with part
of the second request. (Specification: no counterpart in the code.) -/
def stopped (c : Cfg) (first : Ph) (q : List Nat) : St :=
  { calls := [first, .sending (c.req 1 - c.capUp)], queue := 1 :: q, up := List.replicate c.capUp none
    down := List.replicate c.capDown none, srv := .writing 0 (c.resp 0 - c.capDown) }

theorem stopped_deadlock (c : Cfg) (first : Ph) (q : List Nat) : Deadlock c (stopped c first q) :=
  ⟨1, _, 0, _, rfl, rfl, by simp [stopped], rfl, by simp [stopped]⟩

theorem fill_both (c : Cfg) (first : Ph) (q : List Nat) (h0 : c.capDown < c.resp 0 + 1) (h1 : c.capUp < c.req 1 + 1) :
    run c { calls := [first, .sending (c.req 1)], queue := 1 :: q, srv := .handling 0 }
      (.server :: (List.replicate c.capDown .server ++ List.replicate c.capUp .client)) = some (stopped c first q) := by
  have hB := write_down c c.capDown 0 (c.resp 0 - c.capDown)
    { calls := [first, .sending (c.req 1)], queue := 1 :: q, srv := .writing 0 (c.resp 0) }
    (by simp only; congr 1; omega) (by simp)
  have hC := write_up c c.capUp 1 (c.req 1 - c.capUp) q
    { calls := [first, .sending (c.req 1)], queue := 1 :: q, down := List.replicate c.capDown none
      srv := .writing 0 (c.resp 0 - c.capDown) } rfl
    (by simp only [List.getElem?_cons_succ, List.getElem?_cons_zero]; congr 2; omega) (by simp)
  simp only [List.nil_append] at hB hC
  have hA : step c { calls := [first, .sending (c.req 1)], queue := 1 :: q, srv := .handling 0 } .server =
      some { calls := [first, .sending (c.req 1)], queue := 1 :: q, srv := .writing 0 (c.resp 0) } := rfl
  rw [run, hA, Option.bind_some, run_append, hB, Option.bind_some, hC]
  rfl

theorem going_no_drop (l : List Op) (hl : Going l) (n : Nat) : .drop n ∉ l := by
  intro hn; rcases hl _ hn with h | h <;> cases h

theorem going_no_start (l : List Op) (hl : Going l) : .start ∉ l := by
  intro hn; rcases hl _ hn with h | h <;> cases h

theorem going_fill (c : Cfg) : Going (.server :: (List.replicate c.capDown .server ++ List.replicate c.capUp .client)) := by
  intro o ho
  simp only [List.mem_append, List.mem_cons, List.mem_replicate] at ho
  rcases ho with h | ⟨-, h⟩ | ⟨-, h⟩
  · exact .inr h
  · exact .inr h
  · exact .inl h

/-- **C233** fails for two calls at once, with pipes of any capacity: if the response to the first and the request of the
second do not fit, the server waits for the client to read and the client, which holds the lock of the transport, for
the server. -/
theorem C233_two_calls (c : Cfg) (hu : 0 < c.capUp) (h0 : c.capDown < c.resp 0 + 1) (h1 : c.capUp < c.req 1 + 1) :
    ∃ l, Going l ∧ run c {} (.start :: .start :: l) = some (stopped c .receiving [0]) ∧
      Deadlock c (stopped c .receiving [0]) := by
  obtain ⟨l, hl, hr⟩ := send_read c hu (c.req 0) 0 [1]
    { calls := [.sending (c.req 0), .sending (c.req 1)], queue := [0, 1] } rfl rfl rfl rfl
  refine ⟨l ++ (.server :: (List.replicate c.capDown .server ++ List.replicate c.capUp .client)), ?_, ?_,
    stopped_deadlock c _ _⟩
  rotate_left
  · have e : run c {} (.start :: .start :: (l ++
        (.server :: (List.replicate c.capDown .server ++ List.replicate c.capUp .client)))) =
        run c { calls := [.sending (c.req 0), .sending (c.req 1)], queue := [0, 1] } (l ++
        (.server :: (List.replicate c.capDown .server ++ List.replicate c.capUp .client))) := rfl
    rw [e, run_append, hr, Option.bind_some]
    exact fill_both c .receiving [0] h0 h1
  · intro o ho
    rcases List.mem_append.mp ho with h | h
    · exact hl o h
    · exact going_fill c o h

/-- **C233** fails for calls made one after the other if one was given up while it waited for its response: nobody reads
the response, so that the next request may find its reader stopped. -/
theorem C233_given_up (c : Cfg) (hu : 0 < c.capUp) (h0 : c.capDown < c.resp 0 + 1) (h1 : c.capUp < c.req 1 + 1) :
    ∃ l l', Going l ∧ Going l' ∧ run c {} (.start :: (l ++ .drop 0 :: .start :: l')) = some (stopped c .dropped []) ∧
      Deadlock c (stopped c .dropped []) := by
  obtain ⟨l, hl, hr⟩ := send_read c hu (c.req 0) 0 [] { calls := [.sending (c.req 0)], queue := [0] } rfl rfl rfl rfl
  refine ⟨l, .server :: (List.replicate c.capDown .server ++ List.replicate c.capUp .client), hl, going_fill c, ?_,
    stopped_deadlock c _ _⟩
  have e : ∀ x, run c {} (.start :: x) = run c { calls := [.sending (c.req 0)], queue := [0] } x := fun _ => rfl
  rw [e, run_append, hr, Option.bind_some]
  exact fill_both c .dropped [] h0 h1

/-- With pipes of one byte, and messages of two, two calls: both stop. -/
example : ∃ l, run ⟨1, 1, fun _ => 1, fun _ => 1⟩ {} l = some (stopped ⟨1, 1, fun _ => 1, fun _ => 1⟩ .receiving [0]) :=
  let ⟨l, h⟩ := C233_two_calls ⟨1, 1, fun _ => 1, fun _ => 1⟩ (by decide) (by decide) (by decide)
  ⟨_, h.2.1⟩

/-- One call with the same pipes and messages ends. -/
example : run ⟨1, 1, fun _ => 1, fun _ => 1⟩ {} [.start, .client, .server, .client, .server, .server, .server, .client,
    .server, .client] = some { calls := [.done 0] } := rfl

/-- Its guard: nobody gives up and one call is made at a time. -/
example : AtMost 1 ⟨1, 1, fun _ => 1, fun _ => 1⟩ {} [.start, .client, .server] := by
  refine ⟨fun _ => by decide, (fun n => by simp), fun s' _ => ⟨(fun h => by cases h), (fun n => by simp), fun s' _ =>
    ⟨(fun h => by cases h), (fun n => by simp), fun s' _ => trivial⟩⟩⟩

/-- Two calls, a pipe with room for one response: the hypotheses of `C233_few_partial`. -/
example : ∀ n, (fun _ : Nat => 1) n + 1 ≤ 2 ∧ 2 * (2 - 1) ≤ 2 := fun _ => ⟨Nat.le_refl _, Nat.le_refl _⟩

/-! ### Where a caller may give up -/

/-- The bytes that the client reads in an execution. (Specification: no counterpart in the code.) -/
def taken (c : Cfg) (s : St) : List Op → List (Option Nat)
  | [] => []
  | o :: l => match step c s o with
    | none => []
    | some s' => (if s'.down.length < s.down.length then s.down.take 1 else []) ++ taken c s' l

/-- The client is inside of a response: it has read a byte that is not the last one of its message. (Specification: no
counterpart in the code.) -/
def Inside (b : Bool) : List (Option Nat) → Bool
  | [] => b
  | x :: l => Inside x.isNone l

theorem inside_append (b : Bool) (l l' : List (Option Nat)) : Inside b (l ++ l') = Inside (Inside b l) l' := by
  induction l generalizing b with
  | nil => rfl
  | cons x l ih => simp only [List.cons_append, Inside, ih]

theorem mid_step (c : Cfg) (s s' : St) (o : Op) (h : step c s o = some s') :
    s'.mid = Inside s.mid (if s'.down.length < s.down.length then s.down.take 1 else []) := by
  cases o with
  | start => simp only [step, start, Option.some.injEq] at h; subst h; simp [Inside]
  | server =>
    obtain ⟨-, -, h3, -⟩ := owed_server c s s' h
    have hl : ¬ s'.down.length < s.down.length := by
      simp only [step, server] at h
      split at h
      · split at h <;> first | (cases h; done) | (cases h; simp)
      · cases h; simp
      · split at h
        · split at h <;> cases h <;> simp
        · cases h
    rw [if_neg hl, h3]; rfl
  | client =>
    simp only [step, client] at h
    split at h
    · cases h
    · split at h
      · split at h
        · split at h <;> cases h <;> simp [Inside]
        · cases h
      · split at h
        · cases h
        · next d hd => cases h; simp [hd, Inside]
        · next m d hd => cases h; simp [hd, Inside]
      · cases h
  | drop n =>
    simp only [step, drop] at h
    split at h
    · split at h
      · cases h; simp [Inside]
      · cases h
    · split at h
      · cases h
      · cases h; simp [Inside]
    · cases h

theorem mid_run (c : Cfg) (l : List Op) (s s' : St) (h : run c s l = some s') : s'.mid = Inside s.mid (taken c s l) := by
  induction l generalizing s with
  | nil => simp only [run, Option.some.injEq] at h; subst h; rfl
  | cons o l ih =>
    simp only [run, Option.bind_eq_some_iff] at h
    obtain ⟨s1, h1, h2⟩ := h
    simp only [taken, h1, inside_append]
    rw [← mid_step c s s1 o h1]
    exact ih s1 h2

/-- **C233** (who may give up). In any execution, a call that waits for a response can be given up exactly if it is not
the one that is inside of a response; one that has written nothing can always, one inside of its request never. (Beyond
these the model says nothing: see C234.) -/
theorem C233_may_give_up (c : Cfg) (l : List Op) (s : St) (n : Nat) (h : run c {} l = some s) :
    (drop c s n).isSome = true ↔ s.calls[n]? = some (.sending (c.req n)) ∨
      s.calls[n]? = some .receiving ∧ ¬ (Inside false (taken c {} l) = true ∧ s.queue.head? = some n) := by
  have hm := mid_run c l {} s h
  simp only [drop, ← hm]
  split
  · next rest hc =>
    by_cases hr : rest = c.req n
    · subst hr; simp [hc]
    · simp [hr, hc]
  · next hc =>
    by_cases hb : (s.mid && s.queue.head? == some n) = true
    · rw [if_pos hb]
      simp only [Bool.and_eq_true, beq_iff_eq] at hb
      simp [hb.1, hb.2, hc]
    · rw [if_neg hb]
      simp only [Bool.and_eq_true, beq_iff_eq] at hb
      simp only [Option.isSome_some, true_iff]
      exact .inr ⟨hc, hb⟩
  · next h1 h2 =>
    simp only [Option.isSome_none, Bool.false_eq_true, false_iff]
    rintro (h' | ⟨h', -⟩)
    · exact h1 _ h'
    · exact h2 h'

/-- A call that has read the first of the two bytes of its response cannot be given up; one that waits behind it can. -/
example : (run ⟨9, 9, fun _ => 1, fun _ => 1⟩ {} ([.start, .start] ++ List.replicate 4 .client ++
      List.replicate 7 .server ++ [.client])).map
    (fun s => (s.mid, s.queue, (drop ⟨9, 9, fun _ => 1, fun _ => 1⟩ s 0).isSome, (drop ⟨9, 9, fun _ => 1, fun _ => 1⟩ s 1).isSome)) =
    some (true, [0, 1], false, true) := rfl

end Verif.Pipe
