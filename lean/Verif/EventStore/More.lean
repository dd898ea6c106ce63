import Verif.EventStore.Props

/-
The life of resumption tokens (C198) and messages recorded by several tasks at once (C199).

Models /repo/src/shared/event_store.rs L189-219, L249-310.
-/

namespace Verif.EventStore

open Verif

variable {Id M : Type} [DecidableEq Id]

/-! ### C198: tokens and time -/

/-- 24 hours in nanoseconds, /repo/src/shared/event_store.rs L211. -/
def tokenLife : Int := 24 * 60 * 60 * 1000000000

/-- `ResumptionToken`, /repo/src/shared/event_store.rs L70-84 (`metadata` is always empty and omitted). -/
structure Token (Id : Type) where
  token : Id
  session : Id
  lastEventId : Id
  createdAt : Int
  expiresAt : Int

/-- `create_resumption_token` with the token given to the caller, /repo/src/shared/event_store.rs L189-214; the clock is
read twice (L210, L211). -/
def issueToken (s : RState Id M) (tok : Id) (now₁ now₂ : Int) : RState Id M × Option (Token Id) :=
  match s.evs.getLast? with
  | none => (s, none)
  | some e => ((createToken s tok).1, some ⟨tok, e.session, e.id, now₁, now₂ + tokenLife⟩)

theorem tokens_step (s : RState Id M) (op : ROp Id M) (tok : Id) :
    ((rstep s op).1.tokens.get tok).isSome = true ↔
      (s.tokens.get tok).isSome = true ∨ (op = .createToken tok ∧ s.evs ≠ []) := by
  cases op with
  | record d m id now => simp [rstep, record]
  | foreign e now => simp [rstep]
  | resume t =>
    simp only [rstep, resumeFromToken]
    split <;> simp
  | createToken t =>
    simp only [rstep, createToken]
    split
    · next h => simp [List.getLast?_eq_none_iff.mp h]
    · next e h =>
      have hne : s.evs ≠ [] := by rintro h0; rw [h0] at h; cases h
      rw [AMap.get_insert]
      by_cases ht : tok = t
      · simp [ht, hne]
      · simp [ht, Ne.symm ht]

/-- **C198** (exact form of what is checked). A token is accepted exactly if the store issued it, at any time before:
some earlier call created it while events were retained. Missing from the property: the time at which the token expires
plays no part. -/
theorem C198_accepted_partial (max : Nat) (age : Int) (sid tok : Id) (h : List (ROp Id M)) :
    (∃ l, (rstep (rrun (rinit max age sid) h) (.resume tok)).2 = .events l) ↔
      ∃ pre post, h = pre ++ .createToken tok :: post ∧ (rrun (rinit max age sid) pre).evs ≠ [] := by
  have acc : ∀ s : RState Id M, (∃ l, (rstep s (.resume tok)).2 = .events l) ↔ (s.tokens.get tok).isSome = true := by
    intro s
    simp only [rstep, resumeFromToken]
    cases s.tokens.get tok <;> simp
  rw [acc]
  induction h using snocInduction with
  | nil => simp [rrun, rinit]
  | append_singleton h op ih =>
    have e : rrun (rinit max age sid) (h ++ [op]) = (rstep (rrun (rinit max age sid) h) op).1 := by
      simp [rrun, List.foldl_append]
    rw [e, tokens_step]
    refine (or_congr ih Iff.rfl).trans ?_
    constructor
    · rintro (⟨pre, post, rfl, hp⟩ | ⟨rfl, hp⟩)
      · exact ⟨pre, post ++ [op], by simp, hp⟩
      · exact ⟨h, [], rfl, hp⟩
    · rintro ⟨pre, post, hh, hp⟩
      rcases List.eq_nil_or_concat post with rfl | ⟨post', x, rfl⟩
      · have := List.append_inj' hh rfl
        obtain ⟨rfl, h2⟩ := this
        simp only [List.cons.injEq, and_true] at h2
        exact .inr ⟨h2, hp⟩
      · have h3 : h ++ [op] = (pre ++ .createToken tok :: post') ++ [x] := by rw [hh]; simp
        obtain ⟨rfl, -⟩ := List.append_inj' h3 rfl
        exact .inl ⟨pre, post', rfl, hp⟩

/-- **C198** fails for every token: whatever happens after it was issued — also messages recorded long after the time
at which it expires — it is accepted. -/
theorem C198_never_expires (max : Nat) (age : Int) (sid tok : Id) (h : List (ROp Id M)) (now₁ now₂ : Int)
    (hne : (rrun (rinit max age sid) h).evs ≠ []) :
    ∃ t, (issueToken (rrun (rinit max age sid) h) tok now₁ now₂).2 = some t ∧ t.token = tok ∧ t.createdAt = now₁ ∧
      t.expiresAt = now₂ + 86400000000000 ∧
      (issueToken (rrun (rinit max age sid) h) tok now₁ now₂).1 = rrun (rinit max age sid) (h ++ [.createToken tok]) ∧
      ∀ later, ∃ l, (rstep (rrun (rinit max age sid) (h ++ .createToken tok :: later)) (.resume tok)).2 = .events l := by
  cases hl : (rrun (rinit max age sid) h).evs.getLast? with
  | none => exact absurd (List.getLast?_eq_none_iff.mp hl) hne
  | some e =>
    refine ⟨⟨tok, e.session, e.id, now₁, now₂ + tokenLife⟩, by simp [issueToken, hl], rfl, rfl, rfl, ?_, fun later => ?_⟩
    · have e' : rrun (rinit max age sid) (h ++ [ROp.createToken tok]) =
          (rstep (rrun (rinit max age sid) h) (.createToken tok)).1 := by simp [rrun, List.foldl_append]
      rw [e']
      simp [issueToken, hl, rstep]
    · exact (C198_accepted_partial max age sid tok _).mpr ⟨h, later, rfl, hne⟩

/-- **C198**, when a token is issued: exactly while some event is kept; otherwise the caller gets an error and nothing
changes. The token names the latest event kept. -/
theorem C198_issued (max : Nat) (age : Int) (sid tok : Id) (h : List (ROp Id M)) :
    ((rstep (rrun (rinit max age sid) h) (.createToken tok)).2 = .err ↔ (rrun (rinit max age sid) h).evs = []) ∧
    ((rrun (rinit max age sid) h).evs = [] →
      (rstep (rrun (rinit max age sid) h) (.createToken tok)).1 = rrun (rinit max age sid) h) ∧
    ∀ l e, (rrun (rinit max age sid) h).evs = l ++ [e] →
      (rstep (rrun (rinit max age sid) h) (.createToken tok)).2 = .token e.id := by
  refine ⟨⟨fun hh => ?_, fun hh => ?_⟩, fun hh => ?_, fun l e hh => ?_⟩
  · cases hl : (rrun (rinit max age sid) h).evs.getLast? with
    | none => exact List.getLast?_eq_none_iff.mp hl
    | some e => simp [rstep, createToken, hl] at hh
  · simp [rstep, createToken, hh]
  · simp [rstep, createToken, hh]
  · simp [rstep, createToken, hh]

example : (rrun (rinit 10 1000 0 : RState Nat Nat) [.record .outbound 7 1 0]).evs ≠ [] := by decide

/-- A token made at time 0 expires at 24 hours and is accepted after a message recorded at 25 hours. -/
example : (match (rstep (rrun (rinit 10 (10 ^ 18) 0 : RState Nat Nat)
      ([.record .outbound 7 1 0] ++ .createToken 50 :: [.record .outbound 8 2 (25 * 3600 * 10 ^ 9)])) (.resume 50)).2 with
    | .events l => l.map (·.id)
    | _ => []) = [2] := by decide

/-! ### C199: recording from several tasks -/

/-- The manager and its store with recordings under way: `drawn` are the events whose sequence number is drawn but
which are not stored yet (/repo/src/shared/event_store.rs L249-267). -/
structure CState (Id M : Type) where
  base : RState Id M
  drawn : AMap Nat (Event Id M)

/-- The critical sections of `record_outbound` and `record_inbound` (/repo/src/shared/event_store.rs L250-255, L266),
and the other calls. -/
inductive COp (Id M : Type) where
  | draw (t : Nat) (dir : Direction) (msg : M) (id : Id) (now : Int)
  | push (t : Nat) (now : Int)
  | createToken (tok : Id)
  | resume (tok : Id)

/-- One critical section; a step that its task is not at is skipped (/repo/src/shared/event_store.rs L249-310). The two
critical sections of `store_event` are one step. -/
def cstep (s : CState Id M) : COp Id M → CState Id M
  | .draw t dir msg id now =>
    match s.drawn.get t with
    | some _ => s
    | none =>
      { base := { s.base with counter := s.base.counter + 1 },
        drawn := s.drawn.insert t ⟨id, now, msg, dir, s.base.session, s.base.counter⟩ }
  | .push t now =>
    match s.drawn.get t with
    | none => s
    | some e =>
      { base := { s.base with evs := storeEvent s.base.max s.base.maxAge now e s.base.evs, stored := s.base.stored ++ [e] },
        drawn := s.drawn.remove t }
  | .createToken tok => { s with base := (createToken s.base tok).1 }
  | .resume tok => { s with base := (resumeFromToken s.base tok).1 }

/-- Any schedule (/repo/src/shared/event_store.rs L249-310). -/
def crun (s : CState Id M) (h : List (COp Id M)) : CState Id M := h.foldl cstep s

/-- A new manager on a new store, /repo/src/shared/event_store.rs L110-117, L240-246. -/
def cinit (max : Nat) (age : Int) (sid : Id) : CState Id M := ⟨rinit max age sid, []⟩

theorem crun_snoc (s : CState Id M) (h : List (COp Id M)) (op : COp Id M) : crun s (h ++ [op]) = cstep (crun s h) op := by
  simp [crun, List.foldl_append]

/-- Nobody resumes. (Specification: no counterpart in the code.) -/
def NoCResume (h : List (COp Id M)) : Prop := ∀ tok, COp.resume tok ∉ h

/-- Numbers drawn are below the counter and all different. (Specification: no counterpart in the code.) -/
structure CInv (s : CState Id M) : Prop where
  stored : ∀ e ∈ s.base.stored, e.seq < s.base.counter
  drawn : ∀ t e, s.drawn.get t = some e → e.seq < s.base.counter
  nodup : (s.base.stored.map (·.seq)).Nodup
  apart : ∀ t e, s.drawn.get t = some e → ∀ x ∈ s.base.stored, x.seq ≠ e.seq
  inj : ∀ t u d e, s.drawn.get t = some d → s.drawn.get u = some e → d.seq = e.seq → t = u

theorem createToken_same (s : RState Id M) (tok : Id) :
    (createToken s tok).1.stored = s.stored ∧ (createToken s tok).1.counter = s.counter := by
  unfold createToken; split <;> exact ⟨rfl, rfl⟩

theorem cinv_step {s : CState Id M} (h : CInv s) (op : COp Id M) (hop : ∀ tok, op ≠ .resume tok) : CInv (cstep s op) := by
  cases op with
  | draw t dir msg id now =>
    simp only [cstep]
    cases ht : s.drawn.get t with
    | some e => exact h
    | none =>
      refine ⟨fun e he => Nat.lt_succ_of_lt (h.stored e he), ?_, h.nodup, ?_, ?_⟩
      · intro u e hu
        rw [AMap.get_insert] at hu
        split at hu
        · cases hu; exact Nat.lt_succ_self _
        · exact Nat.lt_succ_of_lt (h.drawn u e hu)
      · intro u e hu x hx
        rw [AMap.get_insert] at hu
        split at hu
        · cases hu; exact Nat.ne_of_lt (h.stored x hx)
        · exact h.apart u e hu x hx
      · intro u v d e hu hv he
        rw [AMap.get_insert] at hu hv
        split at hu <;> split at hv
        · simp_all
        · cases hu; have := h.drawn v e hv; simp only at he; omega
        · cases hv; have := h.drawn u d hu; simp only at he; omega
        · exact h.inj u v d e hu hv he
  | push t now =>
    simp only [cstep]
    cases ht : s.drawn.get t with
    | none => exact h
    | some e =>
      refine ⟨?_, ?_, ?_, ?_, ?_⟩
      · intro x hx
        simp only [List.mem_append, List.mem_singleton] at hx
        rcases hx with hx | rfl
        · exact h.stored x hx
        · exact h.drawn t x ht
      · intro u d hu
        rw [AMap.get_remove] at hu
        split at hu
        · cases hu
        · exact h.drawn u d hu
      · simp only [List.map_append, List.map_cons, List.map_nil, List.nodup_append, List.mem_map, List.mem_singleton]
        refine ⟨h.nodup, by simp, ?_⟩
        rintro a ⟨x, hx, rfl⟩ b rfl
        exact h.apart t e ht x hx
      · intro u d hu x hx
        rw [AMap.get_remove] at hu
        split at hu
        · cases hu
        · next hne =>
          simp only [List.mem_append, List.mem_singleton] at hx
          rcases hx with hx | rfl
          · exact h.apart u d hu x hx
          · intro he; exact hne (h.inj u t d x hu ht he.symm)
      · intro u v d e hu hv he
        rw [AMap.get_remove] at hu hv
        split at hu
        · cases hu
        · split at hv
          · cases hv
          · exact h.inj u v d e hu hv he
  | createToken tok =>
    obtain ⟨h1, h2⟩ := createToken_same s.base tok
    simp only [cstep]
    refine ⟨?_, ?_, ?_, ?_, h.inj⟩ <;> simp only [h1, h2]
    · exact h.stored
    · exact h.drawn
    · exact h.nodup
    · exact h.apart
  | resume tok => exact absurd rfl (hop tok)

/-- **C199**. Under every schedule of any number of recording tasks without resumption, every message stored has a
sequence number of its own. Missing from the property: the order, and resumptions. -/
theorem C199_unique_partial (max : Nat) (age : Int) (sid : Id) (h : List (COp Id M)) (hr : NoCResume h) :
    ((crun (cinit max age sid) h).base.stored.map (·.seq)).Nodup := by
  have key : CInv (crun (cinit max age sid) h) := by
    induction h using snocInduction with
    | nil => constructor <;> simp [crun, cinit, rinit]
    | append_singleton h op ih =>
      rw [crun_snoc]
      refine cinv_step (ih fun tok hm => hr tok (List.mem_append_left _ hm)) op ?_
      rintro tok rfl; exact hr tok (by simp)
  exact key.nodup

/-- At most one recording is under way at any time. (Specification: no counterpart in the code.) -/
def OneAtATime (max : Nat) (age : Int) (sid : Id) (h : List (COp Id M)) : Prop :=
  ∀ pre, pre <+: h → (crun (cinit max age sid) pre).drawn.length ≤ 1

theorem cinv_order {s : CState Id M} (hs : (s.base.stored.map (·.seq)).Pairwise (· < ·))
    (hc : ∀ e ∈ s.base.stored, e.seq < s.base.counter)
    (hd : ∀ t e, s.drawn.get t = some e → e.seq < s.base.counter ∧ ∀ x ∈ s.base.stored, x.seq < e.seq)
    (op : COp Id M) (hop : ∀ tok, op ≠ .resume tok) (h1 : s.drawn.length ≤ 1) :
    (((cstep s op).base.stored.map (·.seq)).Pairwise (· < ·) ∧
    (∀ e ∈ (cstep s op).base.stored, e.seq < (cstep s op).base.counter) ∧
    (∀ t e, (cstep s op).drawn.get t = some e → e.seq < (cstep s op).base.counter ∧
      ∀ x ∈ (cstep s op).base.stored, x.seq < e.seq)) := by
  cases op with
  | draw t dir msg id now =>
    simp only [cstep]
    cases ht : s.drawn.get t with
    | some e => exact ⟨hs, hc, hd⟩
    | none =>
      refine ⟨hs, fun e he => Nat.lt_succ_of_lt (hc e he), ?_⟩
      intro u e hu
      rw [AMap.get_insert] at hu
      split at hu
      · cases hu; exact ⟨Nat.lt_succ_self _, hc⟩
      · exact ⟨Nat.lt_succ_of_lt (hd u e hu).1, (hd u e hu).2⟩
  | push t now =>
    simp only [cstep]
    cases ht : s.drawn.get t with
    | none => exact ⟨hs, hc, hd⟩
    | some e =>
      refine ⟨?_, ?_, ?_⟩
      · simp only [List.map_append, List.map_cons, List.map_nil, List.pairwise_append, List.mem_map, List.mem_singleton]
        refine ⟨hs, List.pairwise_singleton _ _, ?_⟩
        rintro a ⟨x, hx, rfl⟩ b rfl
        exact (hd t e ht).2 x hx
      · intro x hx
        simp only [List.mem_append, List.mem_singleton] at hx
        rcases hx with hx | rfl
        · exact hc x hx
        · exact (hd t x ht).1
      · intro u d hu
        match hl : s.drawn, h1 with
        | [], _ => rw [hl] at ht; cases ht
        | [(v, y)], _ =>
          rw [hl, AMap.get_cons] at ht
          split at ht
          · next hv => subst hv; rw [hl] at hu; simp [AMap.remove] at hu
          · cases ht
  | createToken tok =>
    obtain ⟨h1, h2⟩ := createToken_same s.base tok
    simp only [cstep, h1, h2]
    exact ⟨hs, hc, hd⟩
  | resume tok => exact absurd rfl (hop tok)

/-- **C199**, order. If at most one recording is under way at any time, the stored messages carry increasing sequence
numbers. Missing from the property: overlapping recordings, and resumptions (for which see C16). -/
theorem C199_order_partial (max : Nat) (age : Int) (sid : Id) (h : List (COp Id M)) (hr : NoCResume h)
    (ho : OneAtATime max age sid h) : ((crun (cinit max age sid) h).base.stored.map (·.seq)).Pairwise (· < ·) := by
  have key : ((crun (cinit max age sid) h).base.stored.map (·.seq)).Pairwise (· < ·) ∧
      (∀ e ∈ (crun (cinit max age sid) h).base.stored, e.seq < (crun (cinit max age sid) h).base.counter) ∧
      (∀ t e, (crun (cinit max age sid) h).drawn.get t = some e → e.seq < (crun (cinit max age sid) h).base.counter ∧
        ∀ x ∈ (crun (cinit max age sid) h).base.stored, x.seq < e.seq) := by
    induction h using snocInduction with
    | nil => refine ⟨?_, ?_, ?_⟩ <;> simp [crun, cinit, rinit]
    | append_singleton h op ih =>
      rw [crun_snoc]
      obtain ⟨a, b, c⟩ := ih (fun tok hm => hr tok (List.mem_append_left _ hm))
        (fun pre hp => ho pre (hp.trans (List.prefix_append _ _)))
      refine cinv_order a b c op ?_ (ho h (List.prefix_append _ _))
      rintro tok rfl; exact hr tok (by simp)
  exact key.1

/-- **C199** fails for the order: two tasks draw their numbers and store in the other order. -/
theorem C199_out_of_order :
    ((crun (cinit 10 100 0 : CState Nat Nat) [.draw 1 .outbound 7 1 0, .draw 2 .outbound 8 2 0, .push 2 0, .push 1 0]
      ).base.stored.map (·.seq)) = [1, 0] := by decide

/-- **C199** fails for resumption: nothing is recorded between the token and its use, yet the next message gets a number
already given, as the token counts from the event stored last. -/
theorem C199_duplicate_after_token :
    ((crun (cinit 10 100 0 : CState Nat Nat) [.draw 1 .outbound 7 1 0, .draw 2 .outbound 8 2 0, .push 2 0, .push 1 0,
      .createToken 50, .resume 50, .draw 3 .outbound 9 3 0, .push 3 0]).base.stored.map (·.seq)) = [1, 0, 1] := by decide

example : OneAtATime 10 100 0 ([.draw 1 .outbound 7 1 0, .push 1 0, .draw 2 .inbound 8 2 0, .push 2 0] : List (COp Nat Nat)) := by
  intro pre hp
  have hl : pre.length < 5 := Nat.lt_succ_of_le hp.length_le
  rw [List.prefix_iff_eq_take.mp hp]
  revert hl
  generalize pre.length = n
  intro hl
  match n, hl with
  | 0, _ | 1, _ | 2, _ | 3, _ | 4, _ => decide

end Verif.EventStore
