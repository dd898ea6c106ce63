import Verif.HttpServer.SecondStream
import Verif.HttpServer.Sessions

/-
C32 and C137: exactly what is still done for a session after it has been deleted.
-/

namespace Verif.HttpServer

open Verif

/-- The requests of a session that are admitted and wait for the server. (Specification: no counterpart in the code.) -/
def waiting (s : State) (sid : Text) : Nat := s.posts.countP (fun q => decide (q.clientSid = some sid))

/-- The requests of a session that the server has handled. (Specification: no counterpart in the code.) -/
def done (s : State) (sid : Text) : Nat := s.handled.countP (fun e => decide (e.1 = some sid))

/-- The operation neither creates the session nor is an initialization that names it.
(Specification: no counterpart in the code.) -/
def Quiet (c : Config) (op : Op) (sid : Text) : Prop :=
  ¬ Creates c op sid ∧ ∀ p n r, op = .post p n → p.sid = some (.text sid) → p.body ≠ .init r

theorem deleted_absent (c : Config) (s : State) (sid : Text) :
    ¬ AMap.contains (delete c s (some (.text sid))).1.sessions sid = true := by
  have := step_contains c s (.delete (some (.text sid))) sid
  simp only [step] at this
  rw [this]
  rintro (h | h)
  · exact absurd h (by simp [Creates])
  · exact h.2 rfl

theorem absent_step (c : Config) (s : State) (op : Op) (sid : Text) (ha : ¬ AMap.contains s.sessions sid = true)
    (hq : Quiet c op sid) : ¬ AMap.contains (step c s op).1.sessions sid = true := by
  rw [step_contains]
  rintro (h | h)
  · exact hq.1 h
  · exact ha h.1

theorem processInit_posts' (c : Config) (s : State) (sid v : Option Text) (n : Text) :
    (processInit c s sid v n).1.posts = s.posts := by
  unfold processInit; repeat (first | rfl | split)

theorem request_of_live (c : Config) (hst : c.stateful = true) (s : State) (p : Post) (n sid : Text) (req : Nat)
    (hb : p.body = .request req) (hs : strOf p.sid = some sid) (ha : ¬ AMap.contains s.sessions sid = true) :
    (post c s p n).1 = s := by
  unfold post
  split
  · rfl
  · rw [hb]
    simp only [validateNonInit, hst, if_true, hs, if_neg ha]

theorem left_step (c : Config) (hst : c.stateful = true) (s : State) (op : Op) (sid : Text)
    (ha : ¬ AMap.contains s.sessions sid = true) (hq : Quiet c op sid) :
    done (step c s op).1 sid + waiting (step c s op).1 sid = done s sid + waiting s sid := by
  have same : ∀ s' : State, s'.posts = s.posts → s'.handled = s.handled →
      done s' sid + waiting s' sid = done s sid + waiting s sid := by
    intro s' h1 h2; unfold done waiting; rw [h1, h2]
  cases op with
  | post p n =>
    simp only [step]
    by_cases hs : strOf p.sid = some sid
    · rcases post_cases c s p n with ⟨code, h⟩ | ⟨req, r, _, hb⟩ | ⟨req, s', r, _, hb, _, _⟩
      · rw [h]
      · rw [request_of_live c hst s p n sid req hb hs ha]
      · exact absurd hb (hq.2 p n req rfl ((strOf_some_iff ..).mp hs))
    · rcases post_cases c s p n with ⟨code, h⟩ | ⟨req, r, h, hb⟩ | ⟨req, s', r, hp, hb, _, h⟩
      · rw [h]
      · rw [h]; simp [done, waiting, hs]
      · rw [h]
        have h1 := processInit_posts' c s (strOf p.sid) (strOf p.version) n
        have h2 := processInit_handled c s (strOf p.sid) (strOf p.version) n
        rw [hp] at h1 h2
        simp only at h1 h2
        simp [done, waiting, hs, h1, h2]
  | process i r neg ev =>
    simp only [step]
    cases hp : s.posts[i]? with
    | none => unfold process; rw [hp]
    | some q =>
      rw [process_eq c s i r neg ev q hp]
      simp only [done, waiting, build_posts, build_handled, before_posts, before_handled, List.countP_append,
        List.countP_singleton, decide_eq_true_eq]
      have := countP_eraseIdx (fun q : Pending => decide (q.clientSid = some sid)) s.posts i q hp
      simp only [decide_eq_true_eq] at this
      omega
  | getStart a h l n =>
    simp only [step]
    rcases getStart_cases c s a h l n with ⟨code, hh⟩ | ⟨t, _, _, hh⟩ | ⟨_, _, _, hh⟩ <;> rw [hh] <;> rfl
  | getCheck i => exact same _ (getCheck_frame s i).2.2.1 (getCheck_frame s i).2.2.2.1
  | getOpen i => exact same _ (getOpen_frame c s i).2.1 (getOpen_frame c s i).2.2
  | delete h => exact same _ (delete_frame c s h).2.1 (delete_frame c s h).2.2
  | disconnect k => exact same _ (disconnect_frame s k).2.2.2.1 (disconnect_frame s k).2.2.2.2
  | deliver k ev => exact same _ (deliver_frame c s k ev).2.2.2.1 (deliver_frame c s k ev).2.2.2.2

/-- **C32** (what is left over, exactly). While a session does not exist and nobody creates or initializes it, the requests
handled for it and those that wait together stay the same number: what had been admitted before may still be handled, and
nothing else is. -/
theorem C32_left_over (c : Config) (hst : c.stateful = true) (s : State) (l : List Op) (sid : Text)
    (ha : ¬ AMap.contains s.sessions sid = true) (hq : ∀ op ∈ l, Quiet c op sid) :
    done (run c s l) sid + waiting (run c s l) sid = done s sid + waiting s sid := by
  induction l generalizing s with
  | nil => rfl
  | cons op l ih =>
    show done (run c (step c s op).1 l) sid + waiting (run c (step c s op).1 l) sid = _
    rw [ih _ (absent_step c s op sid ha (hq op (by simp))) (fun o ho => hq o (by simp [ho])),
      left_step c hst s op sid ha (hq op (by simp))]

/-- **C32, exactly**: a request is handled for a session after its deletion if and only if a request of the session was
waiting for the server when it was deleted. -/
theorem C32_deleted_iff (c : Config) (hst : c.stateful = true) (s : State) (sid : Text) :
    (∃ l, (∀ op ∈ l, Quiet c op sid) ∧
      done s sid < done (run c (delete c s (some (.text sid))).1 l) sid) ↔ ∃ q ∈ s.posts, q.clientSid = some sid := by
  have hf := delete_frame c s (some (.text sid))
  have hd : done (delete c s (some (.text sid))).1 sid = done s sid := by unfold done; rw [hf.2.2]
  have hw : waiting (delete c s (some (.text sid))).1 sid = waiting s sid := by unfold waiting; rw [hf.2.1]
  constructor
  · rintro ⟨l, hq, hlt⟩
    have := C32_left_over c hst _ l sid (deleted_absent c s sid) hq
    rw [hd, hw] at this
    have hpos : 0 < waiting s sid := by omega
    obtain ⟨q, hq, hc⟩ := List.countP_pos_iff.mp hpos
    exact ⟨q, hq, by simpa using hc⟩
  · rintro ⟨q, hq, hc⟩
    obtain ⟨i, hi⟩ := List.getElem?_of_mem hq
    rw [← hf.2.1] at hi
    refine ⟨[.process i 0 none []], ?_, ?_⟩
    · intro op ho
      simp only [List.mem_singleton] at ho
      subst ho
      exact ⟨by simp [Creates], by simp⟩
    · rw [← hd]
      show done (delete c s (some (.text sid))).1 sid < done (process c (delete c s (some (.text sid))).1 i 0 none []).1 sid
      rw [process_eq _ _ _ _ _ _ q hi]
      simp [done, build_handled, before_handled, hc]

/-! ### Streams -/

/-- The GETs of a session in progress. (Specification: no counterpart in the code.) -/
def asking (s : State) (sid : Text) : Prop := ∃ g ∈ s.gets, g.sid = sid

theorem stream_left_step (c : Config) (hst : c.stateful = true) (s : State) (op : Op) (sid : Text)
    (ha : ¬ AMap.contains s.sessions sid = true) (hq : Quiet c op sid) (hg : ¬ asking s sid) :
    ¬ asking (step c s op).1 sid ∧ opened (step c s op).1 sid = opened s sid := by
  have same : ∀ s' : State, s'.streams = s.streams → s'.gets = s.gets →
      ¬ asking s' sid ∧ opened s' sid = opened s sid := by
    intro s' h1 h2; unfold opened asking; rw [h1, h2]; exact ⟨hg, rfl⟩
  cases op with
  | post p n => exact same _ (post_streams ..) (post_gets ..)
  | process i r neg ev =>
    refine ⟨?_, opened_process ..⟩
    show ¬ asking (process c s i r neg ev).1 sid
    unfold asking; rw [process_gets]; exact hg
  | getStart a h l n =>
    simp only [step]
    rcases getStart_cases c s a h l n with ⟨code, hh⟩ | ⟨t, ht, hl, hh⟩ | ⟨hn, _, hv, hh⟩ <;> rw [hh]
    · exact ⟨hg, rfl⟩
    · refine ⟨?_, rfl⟩
      rintro ⟨g, hm, he⟩
      simp only [List.mem_append, List.mem_singleton] at hm
      rcases hm with hm | rfl
      · exact hg ⟨g, hm, he⟩
      · simp only at he
        subst he
        exact ha (hl hst)
    · refine ⟨?_, rfl⟩
      rintro ⟨g, hm, he⟩
      simp only [List.mem_append, List.mem_singleton] at hm
      rcases hm with hm | rfl
      · exact hg ⟨g, hm, he⟩
      · simp only at he
        subst he
        exact hq.1 ⟨hst, .inr ⟨a, h, l, rfl, (C37_get_passes_iff a).1.mp hv, (strOf_none_iff ..).mp hn⟩⟩
  | getCheck i =>
    simp only [step]
    refine ⟨?_, by unfold opened; rw [(getCheck_frame s i).2.2.2.2]⟩
    unfold getCheck
    split
    · next t l hgi =>
      have hm := List.mem_of_getElem? hgi
      split
      · rintro ⟨g, hm', he⟩
        exact hg ⟨g, List.mem_of_mem_eraseIdx hm', he⟩
      · rintro ⟨g, hm', he⟩
        rcases List.mem_or_eq_of_mem_set hm' with hm' | rfl
        · exact hg ⟨g, hm', he⟩
        · exact hg ⟨_, hm, he⟩
    · exact hg
  | getOpen i =>
    simp only [step]
    unfold getOpen
    split
    · next t l hgi =>
      have hne : t ≠ sid := fun e => hg ⟨_, List.mem_of_getElem? hgi, e⟩
      refine ⟨?_, ?_⟩
      · rintro ⟨g, hm', he⟩
        exact hg ⟨g, List.mem_of_mem_eraseIdx hm', he⟩
      · simp [opened, hne]
    · exact ⟨hg, rfl⟩
  | delete h =>
    simp only [step]
    unfold delete
    split
    · exact ⟨hg, rfl⟩
    · split
      · exact ⟨hg, rfl⟩
      · exact ⟨hg, rfl⟩
  | disconnect k =>
    simp only [step]
    unfold disconnect
    split
    · next st hst' =>
      refine ⟨hg, ?_⟩
      simp only [opened]
      rw [sids_set s.streams k st { st with connected := false } hst' rfl]
    · exact ⟨hg, rfl⟩
  | deliver k ev =>
    simp only [step]
    unfold deliver
    split
    · next sid' m q d hst' =>
      refine ⟨hg, ?_⟩
      simp only [opened]
      rw [sids_set s.streams k _ ⟨sid', true, q, d ++ [(ev, m)]⟩ hst' rfl]
    · exact ⟨hg, rfl⟩

/-- **C137, exactly**: a stream is opened for a session after its deletion, without the session being created again, if and
only if a GET of the session was in progress when it was deleted. -/
theorem C137_stream_iff (c : Config) (hst : c.stateful = true) (s : State) (sid : Text)
    (hl : AMap.contains s.sessions sid = true) :
    (∃ l, (∀ op ∈ l, Quiet c op sid) ∧
      opened s sid < opened (run c (delete c s (some (.text sid))).1 l) sid) ↔ ∃ g ∈ s.gets, g.sid = sid := by
  have e : (delete c s (some (.text sid))).1 =
      { s with senders := AMap.remove s.senders sid, sessions := AMap.remove s.sessions sid } := by
    simp [delete, strOf, hl]
  constructor
  · rintro ⟨l, hq, hlt⟩
    apply Classical.byContradiction
    intro hno
    have key : ∀ (l : List Op) (s : State), (∀ op ∈ l, Quiet c op sid) → ¬ AMap.contains s.sessions sid = true →
        ¬ asking s sid → opened (run c s l) sid = opened s sid := by
      intro l
      induction l with
      | nil => intros; rfl
      | cons op l ih =>
        intro s hq ha hg
        have h1 := stream_left_step c hst s op sid ha (hq op (by simp)) hg
        show opened (run c (step c s op).1 l) sid = _
        rw [ih _ (fun o ho => hq o (by simp [ho])) (absent_step c s op sid ha (hq op (by simp))) h1.1, h1.2]
    have := key l _ hq (deleted_absent c s sid) (by unfold asking; rw [(delete_frame c s _).1]; exact hno)
    have h2 : opened (delete c s (some (.text sid))).1 sid = opened s sid := by rw [e]; rfl
    omega
  · rintro ⟨g, hg, hs⟩
    obtain ⟨i, hi⟩ := List.getElem?_of_mem hg
    obtain ⟨t, ch, last⟩ := g
    simp only at hs
    subst hs
    have hopen : ∀ s' : State, s'.gets[i]? = some ⟨t, true, last⟩ → opened (getOpen c s' i).1 t = opened s' t + 1 := by
      intro s' h
      unfold getOpen
      rw [h]
      simp [opened]
    cases ch with
    | true =>
      refine ⟨[.getOpen i], ?_, ?_⟩
      · intro op ho
        simp only [List.mem_singleton] at ho
        subst ho
        exact ⟨by simp [Creates], by simp⟩
      · show opened s t < opened (getOpen c (delete c s (some (.text t))).1 i).1 t
        rw [hopen _ (by rw [e]; exact hi), e]
        simp [opened]
    | false =>
      refine ⟨[.getCheck i, .getOpen i], ?_, ?_⟩
      · intro op ho
        simp only [List.mem_cons, List.not_mem_nil, or_false] at ho
        rcases ho with rfl | rfl <;> exact ⟨by simp [Creates], by simp⟩
      · show opened s t < opened (getOpen c (getCheck (delete c s (some (.text t))).1 i).1 i).1 t
        have hc : (getCheck (delete c s (some (.text t))).1 i).1 =
            { s with
              senders := AMap.remove s.senders t
              sessions := AMap.remove s.sessions t
              gets := s.gets.set i ⟨t, true, last⟩ } := by
          rw [e]
          unfold getCheck
          simp only [hi]
          rw [if_neg (by simp [AMap.contains, AMap.get_remove])]
        rw [hc, hopen _ (by
          have := (List.getElem?_eq_some_iff.mp hi).1
          simp [this])]
        exact Nat.lt_succ_self _

/-- A request and a GET of the session are in progress when it is deleted. -/
example :
    let s := run {} {} [.post initPost sidA, .process 0 7 none [], getA, .post (reqPost sidA 2) []]
    AMap.contains s.sessions sidA = true ∧ (∃ q ∈ s.posts, q.clientSid = some sidA) ∧ (∃ g ∈ s.gets, g.sid = sidA) ∧
    Quiet {} (.post (reqPost sidA 3) []) sidA ∧ Quiet {} (.post initPost sidB) sidA := by
  refine ⟨by decide +kernel, ⟨⟨some sidA, some sidA, false, 2⟩, by decide +kernel, rfl⟩,
    ⟨⟨sidA, false, none⟩, by decide +kernel, rfl⟩, ⟨?_, ?_⟩, ⟨?_, ?_⟩⟩
  · rintro ⟨-, ⟨p, r, he, -, hb, -⟩ | ⟨a, b, d, he, -⟩⟩
    · cases he
    · cases he
  · rintro p n r he - hb
    cases he; cases hb
  · rintro ⟨-, ⟨p, r, he, -⟩ | ⟨a, b, d, he, -⟩⟩
    · cases he
    · cases he
  · rintro p n r he hs -
    cases he; cases hs

end Verif.HttpServer
