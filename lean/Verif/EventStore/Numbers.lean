import Verif.EventStore.Props

/-
Exactly when recorded messages get increasing sequence numbers (C16), and exactly which events of other sessions a
resumption replays (C75).

About /repo/src/shared/event_store.rs L120-149, L189-214 and L249-310.
-/

namespace Verif.EventStore

variable {Id M : Type} [DecidableEq Id]

/-! ### C16 -/

/-- The messages recorded. (Specification: no counterpart in the code.) -/
def records : List (ROp Id M) → Nat
  | [] => 0
  | .record _ _ _ _ :: h => records h + 1
  | _ :: h => records h

/-- How many messages were recorded when the token was made the last time, if it was (latest call first; a token is only
made if there is a message). (Specification: no counterpart in the code.) -/
def madeAt (tok : Id) : List (ROp Id M) → Option Nat
  | [] => none
  | .createToken t :: h => if t = tok ∧ 0 < records h then some (records h) else madeAt tok h
  | _ :: h => madeAt tok h

/-- How many messages there were when the token was made that was resumed last, since the last message was recorded
(latest call first). (Specification: no counterpart in the code.) -/
def resumedAt : List (ROp Id M) → Option Nat
  | [] => none
  | .record _ _ _ _ :: _ => none
  | .resume tok :: h => (madeAt tok h).or (resumedAt h)
  | _ :: h => resumedAt h

/-- Whenever a message is recorded after a resumption, nothing had been recorded since the token was made (latest call
first). (Specification: no counterpart in the code.) -/
def FreshResumes : List (ROp Id M) → Prop
  | [] => True
  | .record _ _ _ _ :: h => (∀ k, resumedAt h = some k → k = records h) ∧ FreshResumes h
  | _ :: h => FreshResumes h

theorem popOver_last (max : Nat) (hm : 0 < max) (l : List (Event Id M)) : (popOver max l).getLast? = l.getLast? := by
  induction l with
  | nil => rfl
  | cons e l ih =>
    unfold popOver
    split
    · next h =>
      rw [ih]
      cases l with
      | nil => simp only [List.length_cons, List.length_nil] at h; omega
      | cons x l => rw [List.getLast?_cons_cons]
    · rfl

theorem popOlder_last (c : Int) (l : List (Event Id M)) (e : Event Id M) (hl : l.getLast? = some e) (he : c ≤ e.ts) :
    (popOlder c l).getLast? = some e := by
  induction l with
  | nil => cases hl
  | cons x l ih =>
    unfold popOlder
    split
    · next h =>
      cases l with
      | nil => simp at hl; subst hl; omega
      | cons y l => rw [List.getLast?_cons_cons] at hl; exact ih hl
    · exact hl

theorem below_iff (l : List Nat) (hp : l.Pairwise (· < ·)) (k : Nat) (hk : 0 < k) (a : Nat) (ha : l[k - 1]? = some a) :
    (∀ x ∈ l, x < a + 1) ↔ k = l.length := by
  obtain ⟨hlt, rfl⟩ := List.getElem?_eq_some_iff.mp ha
  rw [List.pairwise_iff_getElem] at hp
  constructor
  · intro h
    by_cases hkl : k = l.length
    · exact hkl
    · have h1 := h (l[k]'(by omega)) (List.getElem_mem _)
      have h2 := hp (k - 1) k (by omega) (by omega) (by omega)
      omega
  · intro h x hx
    obtain ⟨i, hi, rfl⟩ := List.mem_iff_getElem.mp hx
    by_cases hik : i = k - 1
    · subst hik; omega
    · have := hp i (k - 1) hi hlt (by omega)
      omega

/-- What holds after every history. (Specification: no counterpart in the code.) -/
structure Counted (max : Nat) (age : Int) (s : RState Id M) (r : List (ROp Id M)) : Prop where
  conf : s.max = max ∧ s.maxAge = age
  len : s.stored.length = records r
  last : s.evs.getLast? = s.stored.getLast?
  tokens : ∀ tok, match madeAt tok r with
    | none => s.tokens.get tok = none
    | some k => 0 < k ∧ ∃ st e, s.tokens.get tok = some st ∧ s.stored[k - 1]? = some e ∧ st.nextSeq = e.seq + 1
  counter : match resumedAt r with
    | none => s.counter = match s.stored.getLast? with
      | none => 0
      | some e => e.seq + 1
    | some k => 0 < k ∧ ∃ e, s.stored[k - 1]? = some e ∧ s.counter = e.seq + 1
  order : (s.stored.map (·.seq)).Pairwise (· < ·) ↔ FreshResumes r

theorem counted_step (max : Nat) (age : Int) (hm : 0 < max) (ha : 0 ≤ age) (s : RState Id M) (r : List (ROp Id M))
    (hc : Counted max age s r) (op : ROp Id M) (hf : ∀ e n, op ≠ .foreign e n) :
    Counted max age (rstep s op).1 (op :: r) := by
  obtain ⟨⟨rfl, rfl⟩, hlen, hlast, htok, hcnt, hord⟩ := hc
  cases op with
  | foreign e n => exact absurd rfl (hf e n)
  | record d m id now =>
    have hlater : ∀ (k : Nat) (e : Event Id M), s.stored[k - 1]? = some e → (record s d m id now).stored[k - 1]? = some e := by
      intro k e h
      have := (List.getElem?_eq_some_iff.mp h).1
      simp only [record]
      rw [List.getElem?_append_left this]; exact h
    refine ⟨⟨rfl, rfl⟩, ?_, ?_, fun tok => ?_, ?_, ?_⟩
    · simp only [rstep, record, records, List.length_append, List.length_cons, List.length_nil, hlen]
    · simp only [rstep, record, storeEvent, cleanup, List.getLast?_append, List.getLast?_singleton, Option.or_some]
      exact popOlder_last _ _ _ (by rw [popOver_last _ hm]; simp) (by simp only; omega)
    · have := htok tok
      simp only [madeAt, rstep]
      split at this
      · exact this
      · next k h =>
        obtain ⟨h0, st, e, h1, h2, h3⟩ := this
        exact ⟨h0, st, e, h1, hlater k e h2, h3⟩
    · simp only [resumedAt, rstep, record, List.getLast?_append, List.getLast?_singleton, Option.or_some]
      simp
    · simp only [rstep, record, FreshResumes, List.map_append, List.map_cons, List.map_nil]
      rw [List.pairwise_append]
      have hcount : (s.stored.map (·.seq)).Pairwise (· < ·) →
          ((∀ x ∈ s.stored.map (·.seq), x < s.counter) ↔ ∀ k, resumedAt r = some k → k = records r) := by
        intro hp
        rw [← hlen]
        have hgood : ∀ (k : Nat) (e : Event Id M), 0 < k → s.stored[k - 1]? = some e → s.counter = e.seq + 1 →
            ((∀ x ∈ s.stored.map (·.seq), x < s.counter) ↔ k = s.stored.length) := by
          intro k e h0 h1 h2
          rw [h2, below_iff _ hp k h0 e.seq (by rw [List.getElem?_map, h1]; rfl), List.length_map]
        split at hcnt
        · next h =>
          rw [h]
          simp only [reduceCtorEq, false_imp_iff, implies_true, iff_true]
          cases hl : s.stored.getLast? with
          | none => simp [List.getLast?_eq_none_iff.mp hl]
          | some e =>
            rw [hl] at hcnt
            have hne : s.stored ≠ [] := by intro h; simp [h] at hl
            have hpos : 0 < s.stored.length := List.length_pos_iff.mpr hne
            exact (hgood s.stored.length e hpos (by rw [← List.getLast?_eq_getElem?]; exact hl) hcnt).mpr rfl
        · next k h =>
          obtain ⟨h0, e, h1, h2⟩ := hcnt
          rw [h, hgood k e h0 h1 h2]
          simp
      constructor
      · rintro ⟨hp, -, hb⟩
        exact ⟨(hcount hp).mp (fun x hx => hb x hx _ (by simp)), hord.mp hp⟩
      · rintro ⟨hb, hg⟩
        have hp := hord.mpr hg
        refine ⟨hp, by simp, fun x hx y hy => ?_⟩
        simp only [List.mem_singleton] at hy
        subst hy
        exact (hcount hp).mpr hb x hx
  | createToken t =>
    simp only [rstep, createToken]
    cases hl : s.evs.getLast? with
    | none =>
      have h0 : records r = 0 := by
        rw [hlast] at hl
        rw [← hlen, List.getLast?_eq_none_iff.mp hl]; rfl
      refine ⟨⟨rfl, rfl⟩, hlen, hlast, fun tok => ?_, hcnt, hord⟩
      simp only [madeAt, h0, Nat.lt_irrefl, and_false, if_false]
      exact htok tok
    | some e =>
      have hst : s.stored.getLast? = some e := hlast ▸ hl
      have hpos : 0 < records r := by
        rw [← hlen]
        exact List.length_pos_iff.mpr (by intro h; simp [h] at hst)
      refine ⟨⟨rfl, rfl⟩, hlen, hlast, fun tok => ?_, hcnt, hord⟩
      simp only [madeAt, hpos, and_true, AMap.get_insert]
      by_cases ht : t = tok
      · subst ht
        simp only [if_true]
        refine ⟨hpos, _, e, rfl, ?_, rfl⟩
        rw [← hlen, ← List.getLast?_eq_getElem?]; exact hst
      · rw [if_neg ht]
        simp only [if_neg (Ne.symm ht)]
        exact htok tok
  | resume t =>
    simp only [rstep, resumeFromToken]
    have ht := htok t
    cases hg : madeAt t r with
    | none =>
      rw [hg] at ht
      simp only at ht
      rw [ht]
      refine ⟨⟨rfl, rfl⟩, hlen, hlast, htok, ?_, hord⟩
      simp only [resumedAt, hg, Option.none_or]
      exact hcnt
    | some k =>
      rw [hg] at ht
      obtain ⟨h0, st, e, h1, h2, h3⟩ := ht
      rw [h1]
      refine ⟨⟨rfl, rfl⟩, hlen, hlast, htok, ?_, hord⟩
      simp only [resumedAt, hg, Option.some_or]
      exact ⟨h0, e, h2, h3⟩

theorem counted_run (max : Nat) (age : Int) (hm : 0 < max) (ha : 0 ≤ age) (sid : Id) (h : List (ROp Id M))
    (hf : NoForeign h) : Counted max age (rrun (rinit max age sid) h) h.reverse := by
  induction h using snocInduction with
  | nil => exact ⟨⟨rfl, rfl⟩, rfl, rfl, fun _ => rfl, rfl, by simp [rinit, rrun, FreshResumes]⟩
  | append_singleton h op ih =>
    rw [rrun_snoc, List.reverse_append]
    exact counted_step max age hm ha _ _ (ih fun o ho => hf o (by simp [ho])) op (hf op (by simp))

/-- **C16, exactly.** On a store of its own that can hold a message, a manager gives strictly increasing sequence numbers
if and only if, whenever a message is recorded after a resumption, nothing had been recorded between the making of the
token and its use. -/
theorem C16_increasing_iff (max : Nat) (age : Int) (hm : 0 < max) (ha : 0 ≤ age) (sid : Id) (h : List (ROp Id M))
    (hf : NoForeign h) :
    ((rrun (rinit max age sid) h).stored.map (·.seq)).Pairwise (· < ·) ↔ FreshResumes h.reverse :=
  (counted_run max age hm ha sid h hf).order

/-- A stale token is harmless if another one is resumed before the next message, and not otherwise. -/
example :
    FreshResumes ([.record .outbound 7 1 0, .createToken 50, .record .outbound 8 2 0, .createToken 51, .resume 50,
      .resume 51, .record .outbound 9 3 0] : List (ROp Nat Nat)).reverse ∧
    ¬ FreshResumes ([.record .outbound 7 1 0, .createToken 50, .record .outbound 8 2 0, .createToken 51, .resume 51,
      .resume 50, .record .outbound 9 3 0] : List (ROp Nat Nat)).reverse := by
  simp [FreshResumes, resumedAt, madeAt, records]

/-! ### C75 -/

/-- **C75, exactly.** A resumption is sent an event of another session if and only if one was stored after the token was
made and is still kept. -/
theorem C75_foreign_iff (max : Nat) (age : Int) (sid tok : Id) (h h' : List (ROp Id M))
    (hne : (rrun (rinit max age sid) h).evs ≠ []) (htok : ∀ op ∈ h', op ≠ ROp.createToken tok)
    (hn : ((rrun (rinit max age sid) (h ++ .createToken tok :: h')).stored.map (·.id)).Nodup) :
    (∃ l, (rstep (rrun (rinit max age sid) (h ++ .createToken tok :: h')) (.resume tok)).2 = .events l ∧
      ∃ e ∈ l, e.session ≠ sid) ↔
    ∃ e ∈ (rrun (rinit max age sid) (h ++ .createToken tok :: h')).evs, e.session ≠ sid ∧
      e ∈ (rrun (rinit max age sid) (h ++ .createToken tok :: h')).stored.drop
        (rrun (rinit max age sid) h).stored.length := by
  have hC := C74_resume_replays_since_token max age sid tok h h' hne htok hn
  have hsuf := retained_suffix max age sid (h ++ .createToken tok :: h')
  generalize rrun (rinit max age sid) (h ++ .createToken tok :: h') = s at *
  simp only at hC
  generalize (rrun (rinit max age sid) h).stored.length = n at *
  rw [hC]
  have hm : ∀ e, e ∈ newest s.evs.length (s.stored.drop n) ↔ e ∈ s.evs ∧ e ∈ s.stored.drop n := by
    obtain ⟨w, hw⟩ := hsuf
    intro e
    have hlen : s.stored.length = w.length + s.evs.length := by rw [← hw]; simp
    have hevs : s.evs = s.stored.drop w.length := by rw [← hw]; simp
    unfold newest
    rw [List.drop_drop, List.length_drop]
    by_cases hle : n ≤ w.length
    · have : n + (s.stored.length - n - s.evs.length) = w.length := by omega
      rw [this, ← hevs]
      refine ⟨fun he => ⟨he, ?_⟩, fun he => he.1⟩
      rw [hevs] at he
      exact List.mem_of_mem_drop (i := w.length - n) (by rw [List.drop_drop]; rwa [show n + (w.length - n) = w.length by omega])
    · have : n + (s.stored.length - n - s.evs.length) = n := by omega
      rw [this]
      refine ⟨fun he => ⟨?_, he⟩, fun he => he.2⟩
      rw [hevs]
      exact List.mem_of_mem_drop (i := n - w.length) (by rw [List.drop_drop]; rwa [show w.length + (n - w.length) = n by omega])
  constructor
  · rintro ⟨l, e1, e, he, hs⟩
    injection e1 with e1
    subst e1
    exact ⟨e, ((hm e).mp he).1, hs, ((hm e).mp he).2⟩
  · rintro ⟨e, h1, hs, h2⟩
    exact ⟨_, rfl, e, (hm e).mpr ⟨h1, h2⟩, hs⟩

/-- Two events of another session, one before the token and one after: only the second is replayed. -/
example : (match (rstep (rrun (rinit 10 100 0 : RState Nat Nat)
      ([.foreign ⟨8, 0, 98, .outbound, 1, 0⟩ 0, .record .outbound 7 1 0] ++ .createToken 50 ::
        [.foreign ⟨9, 0, 99, .outbound, 1, 1⟩ 0])) (.resume 50)).2 with
    | .events l => l.map (·.msg)
    | _ => []) = [99] := by decide

end Verif.EventStore
