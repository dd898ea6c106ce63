import Verif.HttpServer.Memory

/-
C216: how much the event store of the HTTP server can keep, for every history: twice the number of requests handled,
doubled by every GET with a `Last-Event-ID`.
-/

namespace Verif.HttpServer

open Verif

/-- A GET under way asks for a replay. (Specification: no counterpart in the code.) -/
def resuming (g : PendingGet) : Bool := g.lastEvent.isSome

theorem resuming_erase (l : List PendingGet) (i : Nat) (g : PendingGet) (h : l[i]? = some g) :
    (l.eraseIdx i).countP resuming + (if resuming g then 1 else 0) = l.countP resuming := by
  induction l generalizing i with
  | nil => simp at h
  | cons a l ih =>
    cases i with
    | zero => simp at h; subst h; simp [List.countP_cons]
    | succ i =>
      have := ih i (by simpa using h)
      simp only [List.eraseIdx_cons_succ, List.countP_cons]
      omega

theorem resuming_set (l : List PendingGet) (i : Nat) (g g' : PendingGet) (h : l[i]? = some g) (e : resuming g' = resuming g) :
    (l.set i g').countP resuming = l.countP resuming := by
  induction l generalizing i with
  | nil => simp at h
  | cons a l ih =>
    cases i with
    | zero => simp at h; subst h; simp [List.countP_cons, e]
    | succ i => simp [List.countP_cons, ih i (by simpa using h)]

/-- **C216**, for every history: the store and the channels together hold at most two events for each request the MCP
server handled, doubled by each GET that carries a (readable) `Last-Event-ID`. (`C216_doubles`: it is doubled.) -/
theorem C216_bound (c : Config) (h : List Op) :
    (run c {} h).store.order.length + queued (run c {} h).streams ≤
      2 * (run c {} h).handled.length * 2 ^ h.countP asksReplay := by
  have key : ∃ o, o + (run c {} h).gets.countP resuming ≤ h.countP asksReplay ∧
      (run c {} h).store.order.length + queued (run c {} h).streams ≤ 2 * (run c {} h).handled.length * 2 ^ o := by
    induction h using Verif.snocInduction with
    | nil => exact ⟨0, by simp [run], by simp [run, queued]⟩
    | append_singleton h op ih =>
      obtain ⟨o, hg, ih⟩ := ih
      rw [run_snoc, List.countP_append]
      generalize run c {} h = s at *
      generalize h.countP asksReplay = k at *
      have hop : [op].countP asksReplay = if asksReplay op then 1 else 0 := by simp [List.countP_cons]
      rw [hop]
      have hle : k ≤ k + if asksReplay op then 1 else 0 := by omega
      cases op with
      | post p n =>
        simp only [step]
        rcases post_cases c s p n with ⟨code, hh⟩ | ⟨req, r, hh, hb⟩ | ⟨req, s', r, hp, hb, hv, hh⟩
        · rw [hh]; exact ⟨o, by (try simp only); omega, ih⟩
        · rw [hh]; exact ⟨o, by (try simp only); omega, ih⟩
        · rw [hh]
          have e : s' = (processInit c s (strOf p.sid) (strOf p.version) n).1 := by rw [hp]
          have : s'.store = s.store ∧ s'.streams = s.streams ∧ s'.handled = s.handled ∧ s'.gets = s.gets := by
            rw [e]; unfold processInit; repeat (first | exact ⟨rfl, rfl, rfl, rfl⟩ | split)
          obtain ⟨a, b, d, e⟩ := this
          simp only [a, b, d, e]; exact ⟨o, by (try simp only); omega, ih⟩
      | process i r neg ev =>
        refine ⟨o, by simp only [step]; rw [process_gets]; omega, ?_⟩
        simp only [step]
        cases hq : s.posts[i]? with
        | none => unfold process; rw [hq]; exact ih
        | some q =>
          rw [process_eq c _ i r neg ev q hq]
          simp only
          rw [build_store, build_handled, before_handled]
          have h1 := queued_build c (beforeBuild c s i q r neg ev) q.clientSid r
          rw [before_streams] at h1
          have h2 : (beforeBuild c s i q r neg ev).store.order.length ≤ s.store.order.length + 1 := by
            have hup : ∀ (t : State), (updateAfterInit t q.respSid neg).store = t.store := by
              intro t; unfold updateAfterInit; split <;> (try split) <;> rfl
            unfold beforeBuild
            cases hc : c.store with
            | false => cases q.isInit <;> simp [hup]
            | true =>
              cases hr : q.respSid with
              | none => rw [hr] at hup; cases q.isInit <;> simp [hup]
              | some x => rw [hr] at hup; cases q.isInit <;> simp [hup, storeEvent]
          simp only [List.length_append, List.length_singleton]
          have h3 : 0 < 2 ^ o := Nat.two_pow_pos o
          rw [Nat.mul_add, Nat.add_mul]
          omega
      | getStart a sid l n =>
        have hx : ∀ t, resuming ⟨t, false, strOf l⟩ = asksReplay (.getStart a sid l n) := fun _ => rfl
        simp only [step]
        rcases getStart_cases c s a sid l n with ⟨code, hh⟩ | ⟨t, hs, _, hh⟩ | ⟨hs, _, hv, hh⟩
        · rw [hh]; exact ⟨o, by (try simp only); omega, ih⟩
        · rw [hh]; refine ⟨o, ?_, ih⟩
          simp only [List.countP_append, List.countP_cons, List.countP_nil, hx]
          omega
        · rw [hh]; refine ⟨o, ?_, ih⟩
          simp only [List.countP_append, List.countP_cons, List.countP_nil, hx]
          omega
      | getCheck i =>
        simp only [step, asksReplay]
        unfold getCheck; split
        · next sid last hgi =>
          split
          · have := resuming_erase _ _ _ hgi
            exact ⟨o, by (try simp only); omega, ih⟩
          · refine ⟨o, ?_, ih⟩
            simp only
            rw [resuming_set _ _ _ ⟨sid, true, last⟩ hgi rfl]
            omega
        · exact ⟨o, by (try simp only); omega, ih⟩
      | getOpen i =>
        simp only [step, asksReplay]
        unfold getOpen; split
        · next sid last hgi =>
          have he := resuming_erase _ _ _ hgi
          cases last with
          | none =>
            refine ⟨o, ?_, ?_⟩
            · simp only; omega
            · simpa [queued] using ih
          | some last =>
            refine ⟨o + 1, ?_, ?_⟩
            · simp only [resuming, Option.isSome_some, if_true] at he hg ⊢; omega
            · have hr : ((replayAfter s.store last).map Prod.snd).length ≤ s.store.order.length := by
                rw [List.length_map]
                unfold replayAfter
                refine Nat.le_trans (List.length_filterMap_le _ _) ?_
                rw [List.length_drop]; omega
              have hq : (if c.store then (replayAfter s.store last).map Prod.snd else []).length ≤ s.store.order.length := by
                split
                · exact hr
                · simp
              simp only [queued, List.map_append, List.map_cons, List.map_nil, List.sum_append, List.sum_cons,
                List.sum_nil] at ih ⊢
              rw [Nat.pow_succ, ← Nat.mul_assoc]
              omega
        · exact ⟨o, by (try simp only); omega, ih⟩
      | delete sid =>
        simp only [step, asksReplay]; unfold delete; split; · exact ⟨o, by (try simp only); omega, ih⟩
        split <;> exact ⟨o, by (try simp only); omega, ih⟩
      | disconnect k =>
        simp only [step, asksReplay]; unfold disconnect; split
        · next st hk =>
          have := queued_set s.streams k st { st with connected := false } hk
          refine ⟨o, by simp only; omega, ?_⟩
          simp only at this ⊢; omega
        · exact ⟨o, by (try simp only); omega, ih⟩
      | deliver k ev =>
        simp only [step, asksReplay]
        unfold deliver
        split
        · next x m q d hk =>
          have := queued_set s.streams k _ ⟨x, true, q, d ++ [(ev, m)]⟩ hk
          refine ⟨o, by simp only; omega, ?_⟩
          simp only [List.length_cons] at this ⊢
          cases c.store with
          | false => simp only [Bool.false_eq_true, ↓reduceIte]; omega
          | true => simp only [↓reduceIte, storeEvent, List.length_append, List.length_singleton]; omega
        · exact ⟨o, by (try simp only); omega, ih⟩
  obtain ⟨o, h1, h2⟩ := key
  refine Nat.le_trans h2 (Nat.mul_le_mul_left _ (Nat.pow_le_pow_right (by omega) (by omega)))

/-- Two requests handled and one GET with an event id that was never stored: six copies, of at most eight. -/
example :
    let h : List Op := [.post initPost sidA, .process 0 7 none "e1".toList, getA, .getCheck 0, .getOpen 0,
      .post (reqPost sidA 2) [], .process 0 8 none "e2".toList, .deliver 0 "e3".toList,
      getNew "t".toList "no".toList, .getCheck 0, .getOpen 0]
    let s := run {} {} h
    h.countP asksReplay = 1 ∧ s.store.order.length + queued s.streams = 6 ∧ s.handled.length = 2 := by decide +kernel

end Verif.HttpServer
