import Verif.EventStore.Lemmas

/-
Properties C14, C15, C16, C74, C75: event store and resumption manager.

Vocabulary used by the statements:
* `pushed ops`  every event handed to `store_event` in a history of critical sections, in order;
* `newest n l`  the last `n` elements of `l` (all of them when there are fewer).
-/

namespace Verif.EventStore

variable {Id M : Type} [DecidableEq Id]

/-- Specification: the events stored by a history, oldest first. -/
def pushed : List (QOp Id M) → List (Event Id M)
  | [] => []
  | .push e :: ops => e :: pushed ops
  | _ :: ops => pushed ops

/-- Specification: the last `n` elements. -/
def newest {α : Type} (n : Nat) (l : List α) : List α := l.drop (l.length - n)

/-- Specification: a reply truncated to an optional limit. -/
def limited {α : Type} : Option Nat → List α → List α
  | none, l => l
  | some n, l => l.take n

theorem pushed_append (a b : List (QOp Id M)) : pushed (a ++ b) = pushed a ++ pushed b := by
  induction a with
  | nil => rfl
  | cons op ops ih => cases op <;> simp [pushed, ih]

theorem qrun_snoc (max : Nat) (age : Int) (ops : List (QOp Id M)) (op : QOp Id M) :
    qrun max age (ops ++ [op]) = qstep max age (qrun max age ops) op := by
  simp [qrun, List.foldl_append]

theorem getEventsSince_limited (evs : List (Event Id M)) (id : Id) (lim : Option Nat) :
    getEventsSince evs id lim = limited lim (getEventsSince evs id none) := by
  cases lim <;> rfl

/-! ### C15 -/

/-- **C15** (oldest first).  For every interleaving of the critical sections of any number of
`store_event` and `clear_events_before` calls, the retained events are a suffix of the events
stored: nothing is reordered or duplicated, and no event is gone while an older one is kept. -/
theorem C15_retained_is_suffix (max : Nat) (age : Int) (ops : List (QOp Id M)) :
    qrun max age ops <:+ pushed ops := by
  induction ops using snocInduction with
  | nil => exact List.suffix_refl _
  | append_singleton ops op ih =>
    rw [qrun_snoc, pushed_append]
    cases op with
    | push e => exact suffix_append_right ih [e]
    | cleanup now =>
      have h := (cleanup_suffix max age now (qrun max age ops)).trans ih
      simpa [qstep, pushed] using h
    | clearBefore t =>
      have h := (popOlder_suffix t (qrun max age ops)).trans ih
      simpa [qstep, pushed, clearEventsBefore] using h

/-- **C15** (bound).  After the last critical section of any `store_event`, whatever ran before and
in between, at most `max_events` events are retained. -/
theorem C15_bounded (max : Nat) (age now : Int) (ops : List (QOp Id M)) :
    (qrun max age (ops ++ [.cleanup now])).length ≤ max := by
  rw [qrun_snoc]
  exact cleanup_length _ _ _ _

/-- **C15** (bound at every instant).  A store call that has pushed but not yet cleaned up can be
seen by other tasks; the excess is at most the number of events pushed since the last cleanup. -/
theorem C15_bounded_always (max : Nat) (age now : Int) (ops tail : List (QOp Id M)) :
    (qrun max age (ops ++ [.cleanup now] ++ tail)).length ≤ max + (pushed tail).length := by
  induction tail using snocInduction with
  | nil => simpa [pushed] using C15_bounded max age now ops
  | append_singleton tail op ih =>
    rw [← List.append_assoc, qrun_snoc, pushed_append]
    cases op with
    | push e => simp [qstep, pushed] at ih ⊢; omega
    | cleanup now' =>
      have := (cleanup_suffix max age now' (qrun max age (ops ++ [.cleanup now] ++ tail))).length_le
      simp [qstep, pushed] at ih this ⊢; omega
    | clearBefore t =>
      have := (popOlder_suffix t (qrun max age (ops ++ [.cleanup now] ++ tail))).length_le
      simp [qstep, pushed, clearEventsBefore] at ih this ⊢; omega

/-- Sequential store calls, each with the time at which it cleans up. (Specification: no counterpart in the code.) -/
def stores : List (Event Id M × Int) → List (QOp Id M)
  | [] => []
  | (e, now) :: r => .push e :: .cleanup now :: stores r

theorem stores_append (a b : List (Event Id M × Int)) : stores (a ++ b) = stores a ++ stores b := by
  induction a with
  | nil => rfl
  | cons x xs ih => obtain ⟨e, n⟩ := x; simp [stores, ih]

theorem pushed_stores (a : List (Event Id M × Int)) : pushed (stores a) = a.map (·.1) := by
  induction a with
  | nil => rfl
  | cons x xs ih => obtain ⟨e, n⟩ := x; simp [stores, pushed, ih]

/-- **C15** (only for cause).  For sequential stores with a clock that does not run backwards, an
event is missing from the store only if it is older than `max_age` at the time of the last store or
at least `max_events` newer events were stored. -/
theorem C15_evicted_for_cause (max : Nat) (age : Int) (a : List (Event Id M × Int))
    (hclock : (a.map (·.2)).Pairwise (· ≤ ·)) (e₀ : Event Id M) (now : Int) (r : List (Event Id M × Int))
    (ha : a = r ++ [(e₀, now)]) :
    ∀ pre e post, a.map (·.1) = pre ++ e :: post → post.length < max → now - age ≤ e.ts →
      qrun max age (stores a) = newest (qrun max age (stores a)).length (a.map (·.1)) ∧
      post.length < (qrun max age (stores a)).length := by
  have key : ∀ a : List (Event Id M × Int), (a.map (·.2)).Pairwise (· ≤ ·) →
      ∀ c : Int, (∀ n ∈ a.map (·.2), n - age ≤ c) →
      ∀ pre e post, a.map (·.1) = pre ++ e :: post → post.length < max → c ≤ e.ts →
      post.length < (qrun max age (stores a)).length := by
    intro a
    induction a using snocInduction with
    | nil => intro _ _ _ pre e post h; simp at h
    | append_singleton r x ih =>
      obtain ⟨e₁, now₁⟩ := x
      intro hp c hc pre e post hs hlt hts
      rw [List.map_append, List.pairwise_append] at hp
      have hc' : ∀ n ∈ r.map (·.2), n - age ≤ c := fun n hn => hc n (by
        rw [List.map_append]; exact List.mem_append_left _ hn)
      have hnow : now₁ - age ≤ c := hc now₁ (by simp)
      rw [stores_append]
      have hrun : qrun max age (stores r ++ stores [(e₁, now₁)]) =
          cleanup max age now₁ (qrun max age (stores r) ++ [e₁]) := by
        simp [qrun, List.foldl_append, stores, qstep]
      rw [hrun]
      have hsuf : qrun max age (stores r) ++ [e₁] <:+ (r ++ [(e₁, now₁)]).map (·.1) := by
        have := C15_retained_is_suffix max age (stores r)
        rw [pushed_stores] at this
        simpa using suffix_append_right this [e₁]
      -- the event is in the queue before the cleanup, at distance `post.length` from the end
      have hin : post.length < (qrun max age (stores r) ++ [e₁]).length := by
        rcases List.eq_nil_or_concat post with rfl | ⟨p', y, rfl⟩
        · simp
        · have hs' : r.map (·.1) = pre ++ e :: p' := by
            have : r.map (·.1) ++ [e₁] = (pre ++ e :: p') ++ [y] := by simpa using hs
            exact (List.append_inj' this rfl).1
          have := ih hp.1 c hc' pre e p' hs' (by simp at hlt; omega) hts
          simpa using this
      generalize hq : qrun max age (stores r) ++ [e₁] = q at hsuf hin
      have hq1 : popOver max q = q.drop (q.length - max) := popOver_eq max q
      have hin1 : post.length < (popOver max q).length := by
        rw [hq1, List.length_drop]; omega
      have hsuf1 : popOver max q <:+ (r ++ [(e₁, now₁)]).map (·.1) := by
        rw [hq1]; exact (List.drop_suffix _ _).trans hsuf
      obtain ⟨gone, h1, h2⟩ := popOlder_removed (now₁ - age) (popOver max q)
      unfold cleanup
      apply Decidable.byContradiction
      intro hcon
      -- then `e` is in the removed part, but it is not old enough
      have hmem : e ∈ gone := by
        obtain ⟨w, hw⟩ := hsuf1
        rw [h1, hs] at hw
        have hlen := congrArg List.length hw
        have hlp : (popOlder (now₁ - age) (popOver max q)).length ≤ post.length := by omega
        have hgl : post.length < gone.length + (popOlder (now₁ - age) (popOver max q)).length := by
          have := congrArg List.length h1
          rw [List.length_append] at this
          omega
        have e1 : (w ++ (gone ++ popOlder (now₁ - age) (popOver max q)))[pre.length]? = some e := by
          rw [hw]; simp
        simp only [List.length_append, List.length_cons] at hlen
        rw [List.getElem?_append_right (by omega), List.getElem?_append_left (by omega)] at e1
        exact List.mem_of_getElem? e1
      have := h2 e hmem
      omega
  intro pre e post hs hlt hts
  refine ⟨?_, ?_⟩
  · have h := C15_retained_is_suffix max age (stores a)
    rw [pushed_stores] at h
    exact suffix_eq_drop h
  · refine key a hclock (now - age) ?_ pre e post hs hlt hts
    intro n hn
    subst ha
    rw [List.map_append, List.mem_append] at hn
    rw [List.map_append, List.pairwise_append] at hclock
    rcases hn with hn | hn
    · have := hclock.2.2 n hn now (by simp)
      omega
    · simp at hn; omega

/-- **C15** (old events go).  When stored timestamps do not decrease, no event older than `max_age`
survives a cleanup. -/
theorem C15_no_expired_kept (max : Nat) (age now : Int) (ops : List (QOp Id M))
    (hts : ((pushed ops).map (·.ts)).Pairwise (· ≤ ·)) :
    ∀ e ∈ qrun max age (ops ++ [.cleanup now]), now - age ≤ e.ts := by
  have hsub : ((qrun max age (ops ++ [.cleanup now])).map (·.ts)).Pairwise (· ≤ ·) := by
    have h := C15_retained_is_suffix max age (ops ++ [.cleanup now])
    rw [pushed_append] at h
    simp only [pushed, List.append_nil] at h
    exact List.Pairwise.sublist (h.sublist.map _) hts
  rw [qrun_snoc] at *
  simp only [qstep, cleanup] at *
  generalize hg : popOlder (now - age) (popOver max (qrun max age ops)) = l at hsub
  intro e he
  cases l with
  | nil => simp at he
  | cons x xs =>
    have hx := popOlder_head _ _ _ _ hg
    rcases List.mem_cons.mp he with rfl | he
    · omega
    · have := List.rel_of_pairwise_cons hsub (List.mem_map.mpr ⟨e, he, rfl⟩)
      simp only at this
      omega

/-- **C15**: `clear_events_before` removes exactly the maximal prefix of events older than `t` and
returns how many that were. -/
theorem C15_clear_before (t : Int) (evs : List (Event Id M)) :
    ∃ gone, evs = gone ++ (clearEventsBefore t evs).1 ∧ (∀ e ∈ gone, e.ts < t) ∧
      (clearEventsBefore t evs).2 = gone.length ∧
      ∀ e, (clearEventsBefore t evs).1.head? = some e → t ≤ e.ts := by
  obtain ⟨gone, h1, h2⟩ := popOlder_removed t evs
  refine ⟨gone, h1, h2, ?_, ?_⟩
  · have := congrArg List.length h1
    simp only [clearEventsBefore, List.length_append] at this ⊢
    omega
  · intro e he
    simp only [clearEventsBefore] at he
    cases hl : popOlder t evs with
    | nil => rw [hl] at he; simp at he
    | cons x xs =>
      rw [hl] at he
      simp at he
      subst he
      have := popOlder_head _ _ _ _ hl
      omega

/-- Events for the examples. (Specification: no counterpart in the code.) -/
def ev (n : Nat) (t : Int) : Event Nat Nat := ⟨n, t, n, .outbound, 0, n⟩

-- three stores into a store of capacity two: the two newest remain
example : qrun 2 100 (stores [(ev 1 0, 0), (ev 2 1, 1), (ev 3 2, 2)]) = [ev 2 1, ev 3 2] := by decide
-- hypotheses of C15_evicted_for_cause and C15_no_expired_kept on a non-trivial history
example : ([(ev 1 0, 0), (ev 2 1, 1), (ev 3 2, 2)].map (fun p : Event Nat Nat × Int => p.2)).Pairwise (· ≤ ·) ∧
    [ev 1 0, ev 2 1, ev 3 2] = [ev 1 0] ++ ev 2 1 :: [ev 3 2] ∧ (2 : Int) - 100 ≤ (ev 2 1).ts ∧
    [ev 3 2].length < 2 := by decide
example : ((pushed (stores [(ev 1 0, 0), (ev 2 50, 120)])).map (·.ts)).Pairwise (· ≤ ·) ∧
    qrun 5 100 (stores [(ev 1 0, 0), (ev 2 50, 120)]) = [ev 2 50] := by decide
example : clearEventsBefore 2 [ev 1 0, ev 2 1, ev 3 2] = ([ev 3 2], 2) := by decide

/-! ### C14 -/

/-- **C14**.  For every interleaving of stores and clears in which the stored events have distinct
ids, asking for the events after a stored event `e` — retained or already evicted — returns exactly
the retained events that were stored after `e`, in order, truncated to the limit. -/
theorem C14_replay_exact (max : Nat) (age : Int) (ops : List (QOp Id M))
    (hn : ((pushed ops).map (·.id)).Nodup) (pre post : List (Event Id M)) (e : Event Id M)
    (hs : pushed ops = pre ++ e :: post) (lim : Option Nat) :
    getEventsSince (qrun max age ops) e.id lim =
      limited lim (newest (qrun max age ops).length post) := by
  rw [getEventsSince_limited, since_suffix (C15_retained_is_suffix max age ops) hs hn]
  rfl

/-- **C14** (membership form): an event is replayed after `e` exactly when it is retained and was
stored after `e`. -/
theorem C14_replay_mem (max : Nat) (age : Int) (ops : List (QOp Id M))
    (hn : ((pushed ops).map (·.id)).Nodup) (pre post : List (Event Id M)) (e x : Event Id M)
    (hs : pushed ops = pre ++ e :: post) :
    x ∈ getEventsSince (qrun max age ops) e.id none ↔ x ∈ qrun max age ops ∧ x ∈ post := by
  have hsuf := C15_retained_is_suffix max age ops
  rw [C14_replay_exact max age ops hn pre post e hs none]
  simp only [limited, newest]
  have hev := suffix_eq_drop hsuf
  have hle := hsuf.length_le
  have hL : (pushed ops).length = pre.length + 1 + post.length := by rw [hs]; simp; omega
  by_cases hc : post.length < (qrun max age ops).length
  · have h0 : post.length - (qrun max age ops).length = 0 := by omega
    rw [h0, List.drop_zero]
    constructor
    · intro hx
      refine ⟨?_, hx⟩
      rw [hev, hs, List.drop_append_of_le_length (by simp; omega)]
      exact List.mem_append_right _ (List.mem_cons_of_mem _ hx)
    · exact fun h => h.2
  · have h1 : qrun max age ops = post.drop (post.length - (qrun max age ops).length) := by
      have hk : (pushed ops).length - (qrun max age ops).length =
          (pre ++ [e]).length + (post.length - (qrun max age ops).length) := by
        simp; omega
      have hps : pushed ops = (pre ++ [e]) ++ post := by simp [hs]
      conv => lhs; rw [hev, hk, hps]
      rw [List.drop_append]
      simp
    rw [← h1]
    constructor
    · intro hx
      exact ⟨hx, List.mem_of_mem_drop (h1 ▸ hx)⟩
    · exact fun h => h.1

/-- **C14** (unknown resumption point): an id that was never stored replays everything retained. -/
theorem C14_unknown_id (max : Nat) (age : Int) (ops : List (QOp Id M)) (id : Id)
    (h : ∀ e ∈ pushed ops, e.id ≠ id) (lim : Option Nat) :
    getEventsSince (qrun max age ops) id lim = limited lim (qrun max age ops) := by
  have hp : position id (qrun max age ops) = none :=
    position_none (fun e he => h e ((C15_retained_is_suffix max age ops).subset he))
  rw [getEventsSince_limited]
  simp [getEventsSince, hp]

/-- **C14**: the latest event id is the id of the last event stored, provided anything is retained. -/
theorem C14_latest (max : Nat) (age : Int) (ops : List (QOp Id M)) (hne : qrun max age ops ≠ []) :
    getLatestEventId (qrun max age ops) = (pushed ops).getLast?.map (·.id) := by
  unfold getLatestEventId
  obtain ⟨w, hw⟩ := C15_retained_is_suffix max age ops
  rw [← hw, List.getLast?_append]
  cases h : (qrun max age ops).getLast? with
  | none => exact absurd (List.getLast?_eq_none_iff.mp h) hne
  | some x => simp

-- capacity two, three stores; asking after the retained event 2 and after the evicted event 1
example : (pushed (stores [(ev 1 0, 0), (ev 2 1, 1), (ev 3 2, 2)])).map (·.id) = [1, 2, 3] ∧
    getEventsSince (qrun 2 100 (stores [(ev 1 0, 0), (ev 2 1, 1), (ev 3 2, 2)])) 2 none = [ev 3 2] ∧
    getEventsSince (qrun 2 100 (stores [(ev 1 0, 0), (ev 2 1, 1), (ev 3 2, 2)])) 1 (some 1)
      = [ev 2 1] ∧
    getEventsSince (qrun 2 100 (stores [(ev 1 0, 0), (ev 2 1, 1), (ev 3 2, 2)])) 7 none
      = [ev 2 1, ev 3 2] := by decide

/-! ### C16 -/

/-- A history records only (no token is resumed). (Specification: no counterpart in the code.) -/
def NoResume (h : List (ROp Id M)) : Prop := ∀ op ∈ h, ∀ t, op ≠ ROp.resume t

/-- No other manager writes to the store. (Specification: no counterpart in the code.) -/
def NoForeign (h : List (ROp Id M)) : Prop := ∀ op ∈ h, ∀ e n, op ≠ ROp.foreign e n

theorem rrun_snoc (s : RState Id M) (h : List (ROp Id M)) (op : ROp Id M) :
    rrun s (h ++ [op]) = (rstep (rrun s h) op).1 := by simp [rrun, List.foldl_append]

theorem rrun_append (s : RState Id M) (a b : List (ROp Id M)) :
    rrun s (a ++ b) = rrun (rrun s a) b := by simp [rrun, List.foldl_append]

/-- Generalised counter lemma: from a state where all sequence numbers are increasing and below the
counter, recording keeps this. -/
theorem seq_inv (s : RState Id M) (h : List (ROp Id M)) (hr : NoResume h) (hf : NoForeign h)
    (hp : (s.stored.map (·.seq)).Pairwise (· < ·)) (hb : ∀ n ∈ s.stored.map (·.seq), n < s.counter) :
    ((rrun s h).stored.map (·.seq)).Pairwise (· < ·) ∧
      ∀ n ∈ (rrun s h).stored.map (·.seq), n < (rrun s h).counter := by
  induction h generalizing s with
  | nil => exact ⟨hp, hb⟩
  | cons op ops ih =>
    have hr' : NoResume ops := fun o ho => hr o (List.mem_cons_of_mem _ ho)
    have hf' : NoForeign ops := fun o ho => hf o (List.mem_cons_of_mem _ ho)
    have : rrun s (op :: ops) = rrun (rstep s op).1 ops := rfl
    rw [this]
    refine ih _ hr' hf' ?_ ?_
    · cases op with
      | record d m id now =>
        simp only [rstep, record, List.map_append, List.map_cons, List.map_nil]
        rw [List.pairwise_append]
        exact ⟨hp, by simp, fun a ha b hb' => by simp at hb'; subst hb'; exact hb a ha⟩
      | createToken tok =>
        simp only [rstep, createToken]
        split <;> exact hp
      | resume tok => exact absurd rfl (hr _ List.mem_cons_self tok)
      | foreign e now => exact absurd rfl (hf _ List.mem_cons_self e now)
    · cases op with
      | record d m id now =>
        intro n hn
        simp only [rstep, record, List.map_append, List.map_cons, List.map_nil, List.mem_append,
          List.mem_singleton] at hn ⊢
        rcases hn with hn | hn
        · have := hb n hn; omega
        · omega
      | createToken tok =>
        simp only [rstep, createToken]
        split <;> exact hb
      | resume tok => exact absurd rfl (hr _ List.mem_cons_self tok)
      | foreign e now => exact absurd rfl (hf _ List.mem_cons_self e now)

/-- **C16** is false as stated: record, create a token, record again, resume: the next message gets
a sequence number that was already used. -/
theorem C16_duplicate_after_resume :
    ((rrun (rinit 10 100 0 : RState Nat Nat)
      [.record .outbound 7 1 0, .createToken 50, .record .outbound 8 2 0, .resume 50,
       .record .outbound 9 3 0]).stored.map (·.seq)) = [0, 1, 1] := by decide

/-- **C16**, part that holds: without resumption the recorded messages receive strictly increasing
sequence numbers (token creation may happen anywhere). -/
theorem C16_increasing_without_resume_partial (max : Nat) (age : Int) (sid : Id)
    (h : List (ROp Id M)) (hr : NoResume h) (hf : NoForeign h) :
    ((rrun (rinit max age sid) h).stored.map (·.seq)).Pairwise (· < ·) :=
  (seq_inv _ h hr hf (by simp [rinit]) (by simp [rinit])).1

theorem retained_suffix (max : Nat) (age : Int) (sid : Id) (h : List (ROp Id M)) :
    (rrun (rinit max age sid) h).evs <:+ (rrun (rinit max age sid) h).stored := by
  induction h using snocInduction with
  | nil => exact List.suffix_refl _
  | append_singleton h op ih =>
    rw [rrun_snoc]
    cases op with
    | record d m id now =>
      exact (cleanup_suffix _ _ _ _).trans (suffix_append_right ih _)
    | createToken tok => simp only [rstep, createToken]; split <;> exact ih
    | resume tok => simp only [rstep, resumeFromToken]; split <;> exact ih
    | foreign e now => exact (cleanup_suffix _ _ _ _).trans (suffix_append_right ih _)

/-- **C16**, part that holds with resumption: if nothing was recorded between the creation of a
token and its resumption, sequence numbers stay strictly increasing across it — also when the
resumption is done by a manager with an arbitrary counter (a restarted process) on the same
store. -/
theorem C16_increasing_across_fresh_resume_partial (max : Nat) (age : Int) (sid tok : Id)
    (h h' : List (ROp Id M)) (c : Nat) (hr : NoResume h) (hf : NoForeign h) (hr' : NoResume h')
    (hf' : NoForeign h') (hne : (rrun (rinit max age sid) h).evs ≠ []) :
    let s₁ := rrun (rinit max age sid) (h ++ [.createToken tok])
    ((rrun { s₁ with counter := c } (.resume tok :: h')).stored.map (·.seq)).Pairwise (· < ·) := by
  have hinv := seq_inv (rinit max age sid) h hr hf (by simp [rinit]) (by simp [rinit])
  have hsuf := retained_suffix max age sid h
  simp only [rrun_snoc]
  generalize rrun (rinit max age sid) h = s at hinv hsuf hne
  obtain ⟨e, hl⟩ : ∃ e, s.evs.getLast? = some e := by
    cases hl : s.evs.getLast? with
    | none => exact absurd (List.getLast?_eq_none_iff.mp hl) hne
    | some e => exact ⟨e, rfl⟩
  have hstep : (rstep s (.createToken tok)).1 =
      { s with tokens := s.tokens.insert tok ⟨e.session, e.id, e.seq + 1⟩ } := by
    simp [rstep, createToken, hl]
  rw [hstep]
  have hgo : ∀ s' : RState Id M, rrun s' (.resume tok :: h') = rrun (rstep s' (.resume tok)).1 h' :=
    fun _ => rfl
  rw [hgo]
  refine (seq_inv _ h' hr' hf' ?_ ?_).1
  · simp only [rstep, resumeFromToken, AMap.get_insert_self]
    exact hinv.1
  · simp only [rstep, resumeFromToken, AMap.get_insert_self]
    intro n hn
    -- every recorded number is at most that of the last event
    have hlast : s.stored.getLast? = some e := by
      obtain ⟨w, hw⟩ := hsuf
      rw [← hw, List.getLast?_append, hl]; rfl
    obtain ⟨w, hw⟩ : ∃ w, s.stored = w ++ [e] := by
      rw [List.getLast?_eq_some_iff] at hlast
      exact hlast
    rw [hw] at hn hinv
    simp only [List.map_append, List.map_cons, List.map_nil, List.mem_append,
      List.mem_singleton] at hn
    rcases hn with hn | hn
    · have h1 := hinv.1
      rw [List.map_append, List.pairwise_append] at h1
      have := h1.2.2 n hn e.seq (by simp)
      omega
    · omega

-- the hypotheses are met by an ordinary reconnect
example : NoResume ([.record .outbound 7 1 0, .record .inbound 8 2 0] : List (ROp Nat Nat)) ∧
    NoForeign ([.record .outbound 7 1 0, .record .inbound 8 2 0] : List (ROp Nat Nat)) ∧
    (rrun (rinit 10 100 0 : RState Nat Nat)
      [.record .outbound 7 1 0, .record .inbound 8 2 0]).evs ≠ [] := by
  refine ⟨?_, ?_, by decide⟩ <;> intro op hop <;> simp at hop <;> rcases hop with rfl | rfl <;> simp

/-! ### C74: what a resumption replays -/

/-- **C74**.  Resuming from a token that has not been replaced returns exactly the retained events
stored after the token was created, in order — none of the earlier ones, and none of the later ones
is missing unless it was evicted. -/
theorem C74_resume_replays_since_token (max : Nat) (age : Int) (sid tok : Id)
    (h h' : List (ROp Id M)) (hne : (rrun (rinit max age sid) h).evs ≠ [])
    (htok : ∀ op ∈ h', op ≠ ROp.createToken tok)
    (hn : ((rrun (rinit max age sid) (h ++ .createToken tok :: h')).stored.map (·.id)).Nodup) :
    let s₀ := rrun (rinit max age sid) h
    let s := rrun (rinit max age sid) (h ++ .createToken tok :: h')
    (rstep s (.resume tok)).2 =
      .events (newest s.evs.length (s.stored.drop s₀.stored.length)) := by
  intro s₀ s
  have hsuf₀ := retained_suffix max age sid h
  have hsuf := retained_suffix max age sid (h ++ .createToken tok :: h')
  obtain ⟨e, hl⟩ : ∃ e, s₀.evs.getLast? = some e := by
    cases hl : s₀.evs.getLast? with
    | none => exact absurd (List.getLast?_eq_none_iff.mp hl) hne
    | some e => exact ⟨e, rfl⟩
  have hlast : ∃ w, s₀.stored = w ++ [e] := by
    obtain ⟨w, hw⟩ := hsuf₀
    have : s₀.stored.getLast? = some e := by rw [← hw, List.getLast?_append, hl]; rfl
    exact List.getLast?_eq_some_iff.mp this
  obtain ⟨w, hw⟩ := hlast
  -- the token survives and the stored list only grows
  have key : ∀ (l : List (ROp Id M)) (t : RState Id M), (∀ op ∈ l, op ≠ ROp.createToken tok) →
      (rrun t l).tokens.get tok = t.tokens.get tok ∧ ∃ more, (rrun t l).stored = t.stored ++ more := by
    intro l
    induction l with
    | nil => intro t _; exact ⟨rfl, [], by simp [rrun]⟩
    | cons op ops ih =>
      intro t hop
      have hstep : (rstep t op).1.tokens.get tok = t.tokens.get tok ∧
          ∃ more, (rstep t op).1.stored = t.stored ++ more := by
        cases op with
        | record d m id now => exact ⟨rfl, _, rfl⟩
        | createToken t' =>
          have hne' : t' ≠ tok := fun heq => hop _ List.mem_cons_self (by rw [heq])
          simp only [rstep, createToken]
          split
          · exact ⟨rfl, [], by simp⟩
          · exact ⟨AMap.get_insert_ne _ _ (Ne.symm hne'), [], by simp⟩
        | resume t' =>
          simp only [rstep, resumeFromToken]
          split <;> exact ⟨rfl, [], by simp⟩
        | foreign e now => exact ⟨rfl, _, rfl⟩
      obtain ⟨h1, m1, h2⟩ := hstep
      obtain ⟨h3, m2, h4⟩ := ih (rstep t op).1 (fun o ho => hop o (List.mem_cons_of_mem _ ho))
      exact ⟨h3.trans h1, m1 ++ m2, by
        show (rrun (rstep t op).1 ops).stored = _
        rw [h4, h2, List.append_assoc]⟩
  have hs : s = rrun (rstep s₀ (.createToken tok)).1 h' := by
    show rrun _ (h ++ _ :: h') = _
    rw [rrun_append]; rfl
  have hstep : (rstep s₀ (.createToken tok)).1 =
      { s₀ with tokens := s₀.tokens.insert tok ⟨e.session, e.id, e.seq + 1⟩ } := by
    simp [rstep, createToken, hl]
  obtain ⟨k1, more, k2⟩ := key h' (rstep s₀ (.createToken tok)).1 htok
  rw [← hs] at k1 k2
  rw [hstep] at k1 k2
  simp only [AMap.get_insert_self] at k1
  have hst : s.stored = w ++ e :: more := by
    rw [k2]; show s₀.stored ++ more = _; rw [hw]; simp
  simp only [rstep, resumeFromToken, k1]
  rw [since_suffix hsuf hst hn]
  have : s.stored.drop s₀.stored.length = more := by
    rw [k2]; show (s₀.stored ++ more).drop _ = _; simp
  rw [this]
  rfl

/-- **C74**: a token that was never created is refused and changes nothing. -/
theorem C74_unknown_token (s : RState Id M) (tok : Id) (h : s.tokens.get tok = none) :
    rstep s (.resume tok) = (s, .err) := by
  simp [rstep, resumeFromToken, h]

-- two events after the token, capacity two
example : (match (rstep (rrun (rinit 2 100 0 : RState Nat Nat)
      ([.record .outbound 7 1 0] ++ .createToken 50 ::
        [.record .outbound 8 2 0, .record .inbound 9 3 0])) (.resume 50)).2 with
    | .events l => l.map (·.id)
    | _ => []) = [2, 3] := by decide

/-! ### C75: isolation between sessions sharing a store -/

/-- **C75** is false: an event recorded by another session's manager on the same store is replayed
to this session. -/
theorem C75_foreign_event_replayed :
    (match (rstep (rrun (rinit 10 100 0 : RState Nat Nat)
      [.record .outbound 7 1 0, .createToken 50, .foreign ⟨9, 0, 99, .outbound, 1, 0⟩ 0])
      (.resume 50)).2 with
    | .events l => l.map (·.session)
    | _ => []) = [1] := by decide

/-- **C75**, part that holds: when every event in the store belongs to the session, everything
replayed belongs to it; in general, nothing is replayed that was not stored. -/
theorem C75_replay_own_partial (max : Nat) (age : Int) (sid : Id) (h : List (ROp Id M)) (tok : Id)
    (hf : NoForeign h) (l : List (Event Id M))
    (hl : (rstep (rrun (rinit max age sid) h) (.resume tok)).2 = .events l) :
    ∀ e ∈ l, e.session = sid ∧ e ∈ (rrun (rinit max age sid) h).stored := by
  have hown : ∀ (h : List (ROp Id M)) (s : RState Id M), NoForeign h →
      (∀ e ∈ s.stored, e.session = s.session) →
      (rrun s h).session = s.session ∧ ∀ e ∈ (rrun s h).stored, e.session = s.session := by
    intro h
    induction h with
    | nil => intro s _ hs; exact ⟨rfl, hs⟩
    | cons op ops ih =>
      intro s hf hs
      have hf' : NoForeign ops := fun o ho => hf o (List.mem_cons_of_mem _ ho)
      have hstep : (rstep s op).1.session = s.session ∧
          ∀ e ∈ (rstep s op).1.stored, e.session = s.session := by
        cases op with
        | record d m id now =>
          refine ⟨rfl, ?_⟩
          intro e he
          simp only [rstep, record, List.mem_append, List.mem_singleton] at he
          rcases he with he | rfl
          · exact hs e he
          · rfl
        | createToken t => simp only [rstep, createToken]; split <;> exact ⟨rfl, hs⟩
        | resume t => simp only [rstep, resumeFromToken]; split <;> exact ⟨rfl, hs⟩
        | foreign e n => exact absurd rfl (hf _ List.mem_cons_self e n)
      have := ih (rstep s op).1 hf' (fun e he => (hstep.2 e he).trans hstep.1.symm)
      rw [hstep.1] at this
      exact this
  have hsuf := retained_suffix max age sid h
  have ho := hown h (rinit max age sid) hf (by simp [rinit])
  intro e he
  simp only [rstep, resumeFromToken] at hl
  split at hl
  · cases hl
  · simp only [ROut.events.injEq] at hl
    subst hl
    have hin : e ∈ (rrun (rinit max age sid) h).stored := by
      apply hsuf.subset
      unfold getEventsSince at he
      exact List.mem_of_mem_drop he
    exact ⟨ho.2 e hin, hin⟩

example : (match (rstep (rrun (rinit 10 100 5 : RState Nat Nat)
      [.record .outbound 7 1 0, .createToken 50, .record .outbound 8 2 0]) (.resume 50)).2 with
    | .events l => l.map (·.session)
    | _ => []) = [5] := by decide

/-- **C74** (pending events): the messages to resend are exactly the outbound ones among the events
replayed after the given id, in the same order. -/
theorem C74_pending_are_outbound (s : RState Id M) (id : Id) :
    (getPendingEvents s id).Sublist (getEventsSince s.evs id none) ∧
    ∀ e, e ∈ getPendingEvents s id ↔
      e ∈ getEventsSince s.evs id none ∧ e.dir = .outbound := by
  refine ⟨List.filter_sublist, ?_⟩
  intro e
  simp [getPendingEvents, List.mem_filter]

end Verif.EventStore
