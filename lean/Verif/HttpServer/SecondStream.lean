import Verif.HttpServer.Streams

/-
C36: exactly when a session can get a second stream, and how many it can get.
-/

namespace Verif.HttpServer

open Verif

/-- The streams opened for a session. (Specification: no counterpart in the code.) -/
def opened (s : State) (sid : Text) : Nat := s.streams.countP (fun st => decide (st.sid = sid))

/-- The GETs of a session that have passed the check and not yet opened their stream.
(Specification: no counterpart in the code.) -/
def passed (s : State) (sid : Text) : Nat := s.gets.countP (fun g => decide (g.sid = sid) && g.checked)

theorem sids_set (l : List Stream) (k : Nat) (st st' : Stream) (h : l[k]? = some st) (he : st'.sid = st.sid) (sid : Text) :
    (l.set k st').countP (fun st => decide (st.sid = sid)) = l.countP (fun st => decide (st.sid = sid)) := by
  induction l generalizing k with
  | nil => rfl
  | cons a l ih =>
    cases k with
    | zero =>
      simp only [List.getElem?_cons_zero, Option.some.injEq] at h
      subst h
      simp only [List.set_cons_zero, List.countP_cons, he]
    | succ k =>
      simp only [List.getElem?_cons_succ] at h
      simp only [List.set_cons_succ, List.countP_cons, ih k h]

theorem opened_sendTo (s : State) (k : Nat) (m : Msg) (sid : Text) : opened (sendTo s k m) sid = opened s sid := by
  unfold opened sendTo
  split
  · next st hs =>
    split
    · exact sids_set s.streams k st { st with queue := st.queue ++ [m] } hs rfl sid
    · rfl
  · rfl

theorem opened_process (c : Config) (s : State) (i : Nat) (r : Msg) (neg : Option Text) (ev : Text) (sid : Text) :
    opened (process c s i r neg ev).1 sid = opened s sid := by
  cases hp : s.posts[i]? with
  | none => unfold process; rw [hp]
  | some p =>
    rw [process_eq c s i r neg ev p hp]
    simp only [buildResponse]
    repeat' split
    all_goals first
      | (rw [opened_sendTo]; unfold opened; rw [before_streams])
      | (unfold opened; rw [before_streams])

theorem post_streams (c : Config) (s : State) (p : Post) (n : Text) : (post c s p n).1.streams = s.streams := by
  have hi : (processInit c s (strOf p.sid) (strOf p.version) n).1.streams = s.streams := by
    unfold processInit; repeat (first | rfl | split)
  rcases post_cases c s p n with ⟨code, h⟩ | ⟨req, r, h, _⟩ | ⟨req, s', r, hp, _, _, h⟩
  · rw [h]
  · rw [h]
  · rw [h]; rw [hp] at hi; exact hi

theorem countP_eraseIdx {α : Type} (p : α → Bool) (l : List α) (i : Nat) (a : α) (h : l[i]? = some a) :
    (l.eraseIdx i).countP p + (if p a = true then 1 else 0) = l.countP p := by
  induction l generalizing i with
  | nil => cases h
  | cons b l ih =>
    cases i with
    | zero =>
      simp only [List.getElem?_cons_zero, Option.some.injEq] at h
      subst h
      simp only [List.eraseIdx_cons_zero, List.countP_cons]
    | succ i =>
      simp only [List.getElem?_cons_succ] at h
      simp only [List.eraseIdx_cons_succ, List.countP_cons]
      have := ih i h
      omega

theorem countP_set {α : Type} (p : α → Bool) (l : List α) (i : Nat) (a b : α) (h : l[i]? = some a)
    (he : p b = p a) : (l.set i b).countP p = l.countP p := by
  induction l generalizing i with
  | nil => rfl
  | cons x l ih =>
    cases i with
    | zero =>
      simp only [List.getElem?_cons_zero, Option.some.injEq] at h
      subst h
      simp only [List.set_cons_zero, List.countP_cons, he]
    | succ i =>
      simp only [List.getElem?_cons_succ] at h
      simp only [List.set_cons_succ, List.countP_cons, ih i h]

theorem conserved_step (c : Config) (s : State) (o : Op) (sid : Text) (hk : AMap.contains s.senders sid = true)
    (hd : ¬ Deletes o sid) :
    AMap.contains (step c s o).1.senders sid = true ∧
    opened (step c s o).1 sid + passed (step c s o).1 sid = opened s sid + passed s sid := by
  have same : ∀ s' : State, s'.senders = s.senders → s'.streams = s.streams → s'.gets = s.gets →
      AMap.contains s'.senders sid = true ∧ opened s' sid + passed s' sid = opened s sid + passed s sid := by
    intro s' h1 h2 h3
    unfold opened passed
    rw [h1, h2, h3]
    exact ⟨hk, rfl⟩
  cases o with
  | post p n => exact same _ (post_senders ..) (post_streams ..) (post_gets ..)
  | process i r neg ev =>
    refine ⟨?_, ?_⟩
    · show AMap.contains (process c s i r neg ev).1.senders sid = true
      rw [process_senders]; exact hk
    · show opened (process c s i r neg ev).1 sid + passed (process c s i r neg ev).1 sid = _
      rw [opened_process]; unfold passed; rw [process_gets]
  | getStart a h' l n =>
    simp only [step]
    rcases getStart_cases c s a h' l n with ⟨code, hh⟩ | ⟨t, _, _, hh⟩ | ⟨_, _, _, hh⟩ <;> rw [hh]
    · exact ⟨hk, rfl⟩
    · refine ⟨hk, ?_⟩
      simp [opened, passed]
    · refine ⟨hk, ?_⟩
      simp [opened, passed]
  | getCheck i =>
    simp only [step]
    unfold getCheck
    split
    · next t l hg =>
      split
      · refine ⟨hk, ?_⟩
        have := countP_eraseIdx (fun g : PendingGet => decide (g.sid = sid) && g.checked) s.gets i _ hg
        simp only [Bool.and_false, Bool.false_eq_true, if_false, Nat.add_zero] at this
        unfold passed
        simp only [this, opened]
      · next hc =>
        have hne : t ≠ sid := by rintro rfl; exact hc hk
        refine ⟨hk, ?_⟩
        have := countP_set (fun g : PendingGet => decide (g.sid = sid) && g.checked) s.gets i _ ⟨t, true, l⟩ hg
          (by simp [hne])
        unfold passed
        simp only [this, opened]
    · exact ⟨hk, rfl⟩
  | getOpen i =>
    simp only [step]
    unfold getOpen
    split
    · next t l hg =>
      refine ⟨?_, ?_⟩
      · simp only [AMap.contains, AMap.get_insert]
        split
        · rfl
        · simpa only [AMap.contains] using hk
      · have := countP_eraseIdx (fun g : PendingGet => decide (g.sid = sid) && g.checked) s.gets i _ hg
        simp only [Bool.and_true, decide_eq_true_eq] at this
        simp only [opened, passed, List.countP_append, List.countP_singleton, decide_eq_true_eq]
        split at this <;> simp_all <;> omega
    · exact ⟨hk, rfl⟩
  | delete h' =>
    simp only [step]
    unfold delete
    cases hs : strOf h' with
    | none => exact ⟨hk, rfl⟩
    | some t =>
      rw [strOf_some_iff] at hs; subst hs
      simp only
      split
      · exact ⟨hk, rfl⟩
      · have : ¬ sid = t := fun e => hd (by rw [e]; rfl)
        refine ⟨?_, rfl⟩
        simp only [AMap.contains, AMap.get_remove, if_neg this]
        exact hk
  | disconnect k =>
    refine ⟨by simp only [step]; rw [(disconnect_frame s k).2.1]; exact hk, ?_⟩
    simp only [step]
    unfold disconnect
    split
    · next st hst =>
      simp only [opened, passed]
      rw [sids_set s.streams k st { st with connected := false } hst rfl]
    · rfl
  | deliver k ev =>
    refine ⟨by simp only [step]; rw [(deliver_frame c s k ev).2.1]; exact hk, ?_⟩
    simp only [step]
    unfold deliver
    split
    · next sid' m q d hst =>
      simp only [opened, passed]
      rw [sids_set s.streams k _ ⟨sid', true, q, d ++ [(ev, m)]⟩ hst rfl]
    · rfl

/-- **C36** (what the check leaves open, exactly). While a session has a sender and is not deleted, the streams opened
for it and its GETs between check and insertion together stay the same number: every GET that had passed the check is
one more stream to come, and no other GET is. -/
theorem C36_conserved (c : Config) (s : State) (l : List Op) (sid : Text) (hk : AMap.contains s.senders sid = true)
    (hd : ∀ o ∈ l, ¬ Deletes o sid) :
    opened (run c s l) sid + passed (run c s l) sid = opened s sid + passed s sid := by
  induction l generalizing s with
  | nil => rfl
  | cons o l ih =>
    have h1 := conserved_step c s o sid hk (hd o (by simp))
    show opened (run c (step c s o).1 l) sid + passed (run c (step c s o).1 l) sid = _
    rw [ih _ h1.1 (fun o' ho => hd o' (by simp [ho])), h1.2]

/-- **C36, exactly**: a session that has a stream gets another one, without being deleted, if and only if at that
moment one more of its GETs is between check and insertion. -/
theorem C36_second_iff (c : Config) (s : State) (sid : Text) (hk : AMap.contains s.senders sid = true) :
    (∃ l, (∀ o ∈ l, ¬ Deletes o sid) ∧ opened s sid < opened (run c s l) sid) ↔ 0 < passed s sid := by
  constructor
  · rintro ⟨l, hd, hlt⟩
    have := C36_conserved c s l sid hk hd
    omega
  · intro hp
    obtain ⟨g, hg, hgp⟩ := List.countP_pos_iff.mp hp
    obtain ⟨i, hi⟩ := List.getElem?_of_mem hg
    obtain ⟨t, ch, l⟩ := g
    simp only [Bool.and_eq_true, decide_eq_true_eq] at hgp
    obtain ⟨rfl, rfl⟩ := hgp
    refine ⟨[.getOpen i], by intro o ho; simp only [List.mem_singleton] at ho; subst ho; exact nofun, ?_⟩
    show opened s t < opened (getOpen c s i).1 t
    unfold getOpen
    rw [hi]
    simp [opened]

/-- **C36** fails for every number: one session can have any number of streams at once. -/
theorem C36_any_number (n : Nat) : ∃ l : List Op, (∀ o ∈ l, ¬ Deletes o sidA) ∧
    let s := run {} {} l
    opened s sidA = n ∧ ∀ st ∈ s.streams, st.connected = true := by
  have start : run {} {} [.post initPost sidA] = { ({} : State) with
      sessions := (run {} {} [.post initPost sidA]).sessions, posts := (run {} {} [.post initPost sidA]).posts } := by
    decide +kernel
  have hin : AMap.contains (run {} {} [.post initPost sidA]).sessions sidA = true := by decide +kernel
  generalize hs0 : run {} {} [.post initPost sidA] = s0 at start hin
  have checks : ∀ k, ∃ l : List Op, (∀ o ∈ l, ¬ Deletes o sidA) ∧
      run {} s0 l = { s0 with gets := List.replicate k ⟨sidA, true, none⟩ } := by
    intro k
    induction k with
    | zero => exact ⟨[], by simp, by rw [start]; rfl⟩
    | succ k ih =>
      obtain ⟨l, hd, hl⟩ := ih
      refine ⟨l ++ [getA, .getCheck k], ?_, ?_⟩
      · intro o ho
        simp only [List.mem_append, List.mem_cons, List.not_mem_nil, or_false] at ho
        rcases ho with ho | rfl | rfl
        · exact hd o ho
        · simp [getA, Deletes]
        · simp [Deletes]
      · rw [run_append, hl]
        have h1 : getStart {} { s0 with gets := List.replicate k ⟨sidA, true, none⟩ } bothH (some (.text sidA)) none [] =
            ({ s0 with gets := List.replicate k ⟨sidA, true, none⟩ ++ [⟨sidA, false, none⟩] }, .goesOn) := by
          have hv : validateGet bothH = none := by decide +kernel
          have hst : strOf (some (Hdr.text sidA)) = some sidA := by decide +kernel
          unfold getStart
          rw [hv, hst]
          simp only [hin, Bool.not_true, Bool.and_false, Bool.false_eq_true, if_false]
          rfl
        have h2 : s0.senders = [] := by rw [start]
        show (getCheck (getStart {} { s0 with gets := List.replicate k ⟨sidA, true, none⟩ } bothH
          (some (.text sidA)) none []).1 k).1 = _
        rw [h1]
        unfold getCheck
        simp only [List.getElem?_append_right (Nat.le_of_eq (List.length_replicate ..)), List.length_replicate, Nat.sub_self,
          List.getElem?_cons_zero, h2, AMap.contains, AMap.get, Option.isSome, Bool.false_eq_true, if_false]
        congr 1
        rw [List.set_append_right _ _ (Nat.le_of_eq (List.length_replicate ..)), List.length_replicate, Nat.sub_self,
          List.set_cons_zero, List.replicate_succ']
  have opens : ∀ k (s : State), s.gets = List.replicate k ⟨sidA, true, none⟩ → (∀ st ∈ s.streams, st.connected = true) →
      opened (run {} s (List.replicate k (.getOpen 0))) sidA = opened s sidA + k ∧
      ∀ st ∈ (run {} s (List.replicate k (.getOpen 0))).streams, st.connected = true := by
    intro k
    induction k with
    | zero => intro s _ hc; exact ⟨rfl, hc⟩
    | succ k ih =>
      intro s hg hc
      have h1 : (getOpen {} s 0).1 = { s with
          gets := List.replicate k ⟨sidA, true, none⟩
          senders := AMap.insert s.senders sidA s.streams.length
          streams := s.streams ++ [⟨sidA, true, [], []⟩] } := by
        unfold getOpen
        rw [hg]
        rfl
      obtain ⟨h2, h3⟩ := ih (getOpen {} s 0).1 (by rw [h1]) (by
        rw [h1]
        intro st hst
        simp only [List.mem_append, List.mem_singleton] at hst
        rcases hst with hst | rfl
        · exact hc st hst
        · rfl)
      refine ⟨?_, h3⟩
      show opened (run {} (getOpen {} s 0).1 (List.replicate k (.getOpen 0))) sidA = _
      rw [h2, h1]
      simp only [opened, List.countP_append, List.countP_singleton, decide_true, if_true]
      omega
  obtain ⟨l, hd, hl⟩ := checks n
  have hstr : s0.streams = [] := by rw [start]
  have := opens n (run {} s0 l) (by rw [hl]) (by rw [hl]; simp [hstr])
  refine ⟨[.post initPost sidA] ++ l ++ List.replicate n (.getOpen 0), ?_, ?_⟩
  · intro o ho
    simp only [List.mem_append, List.mem_singleton] at ho
    rcases ho with (rfl | ho) | ho
    · simp [Deletes]
    · exact hd o ho
    · rw [List.eq_of_mem_replicate ho]; simp [Deletes]
  · simp only
    rw [run_append, run_append, hs0]
    refine ⟨?_, this.2⟩
    rw [this.1, hl]
    simp [opened, hstr]

/-- Two GETs have passed the check, one has opened its stream: the other will open a second one. -/
example :
    let s := run {} {} [.post initPost sidA, getA, getA, .getCheck 0, .getCheck 1, .getOpen 0]
    AMap.contains s.senders sidA = true ∧ opened s sidA = 1 ∧ passed s sidA = 1 ∧
    ∀ o ∈ ([.getOpen 0] : List Op), ¬ Deletes o sidA := by
  refine ⟨by decide +kernel, by decide +kernel, by decide +kernel, ?_⟩
  intro o ho; simp only [List.mem_singleton] at ho; subst ho; exact nofun

end Verif.HttpServer
