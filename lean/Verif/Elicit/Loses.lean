import Verif.Elicit.Props

/-
Exactly what takes the channel of a waiting caller away: C54.
-/

namespace Verif.Elicit

open Verif

variable {I V : Type} [DecidableEq I]

theorem dropSender_slot (cs : List (Call I V)) (o : Option Nat) (n : Nat) (c : Call I V) (h : cs[n]? = some c)
    (he : c.slot = .empty) :
    (dropSender cs o)[n]? = some (if o = some n then { c with slot := .closed } else c) := by
  cases o with
  | none => simpa [dropSender] using h
  | some m =>
    simp only [dropSender, get_modify]
    by_cases e : m = n
    · subst e; simp [h, he]
    · rw [if_neg e, if_neg (by simpa using e)]; exact h

theorem phase_slot (cs : List (Call I V)) (m n : Nat) (p : Phase I V) (c : Call I V) (h : cs[n]? = some c) :
    ∃ c', (modifyCall cs m (fun c => { c with phase := p }))[n]? = some c' ∧ c'.slot = c.slot := by
  simp only [get_modify]
  split
  · rw [h]; exact ⟨_, rfl, rfl⟩
  · exact ⟨c, h, rfl⟩

/-- **C54**, exactly: a caller that waits loses its channel by a step if and only if the step begins an elicitation with
the same id, or is the clean-up of an earlier one with the same id, timed out or not sent. -/
theorem C54_loses_iff (l : List (Op I V)) (s s' : State I V) (hr : run init l = some s) (op : Op I V) (res : Res)
    (hs : step s op = some (s', res)) (n : Nat) (c : Call I V) (hc : s.calls[n]? = some c) (hl : c.listening = true)
    (he : c.slot = .empty) :
    (∃ c', s'.calls[n]? = some c' ∧ c'.slot = .closed) ↔
      op = .start c.id ∨ ∃ (m : Nat) (c0 : Call I V), op = .cleanup m ∧ m ≠ n ∧ s.calls[m]? = some c0 ∧ c0.id = c.id := by
  have hinv := inv_run inv_init hr
  have hmine := hinv.complete n c hc he
  have same : ∀ (m : Nat) (p : Phase I V), s'.calls = modifyCall s.calls m (fun c => { c with phase := p }) →
      ¬ ∃ c', s'.calls[n]? = some c' ∧ c'.slot = .closed := by
    rintro m p e ⟨c', h1, h2⟩
    obtain ⟨c'', h3, h4⟩ := phase_slot s.calls m n p c hc
    rw [e, h3] at h1
    cases h1
    rw [h4, he] at h2
    cases h2
  have filled : ∀ (m : Nat) (r : Response I V), s'.calls = fill s.calls m r →
      ¬ ∃ c', s'.calls[n]? = some c' ∧ c'.slot = .closed := by
    rintro m r e ⟨c', h1, h2⟩
    rw [e] at h1
    simp only [fill, get_modify] at h1
    split at h1
    · rw [hc] at h1
      cases h1
      simp [hl] at h2
    · rw [hc] at h1
      cases h1
      rw [he] at h2; cases h2
  have kept : s' = s → ¬ ∃ c', s'.calls[n]? = some c' ∧ c'.slot = .closed := by
    rintro rfl ⟨c', h1, h2⟩
    rw [hc] at h1; cases h1
    rw [he] at h2; cases h2
  cases op with
  | start id =>
    cases hs
    have hd := dropSender_slot s.calls (AMap.get s.pending id) n c hc he
    have hn : n < (dropSender s.calls (AMap.get s.pending id)).length := by
      rcases Nat.lt_or_ge n (dropSender s.calls (AMap.get s.pending id)).length with h | h
      · exact h
      · rw [List.getElem?_eq_none h] at hd; cases hd
    simp only [List.getElem?_append_left hn, hd, Option.some.injEq, Op.start.injEq, exists_eq_left']
    constructor
    · intro h
      split at h
      · next e =>
        obtain ⟨c0, h1, h2, _⟩ := hinv.sound _ _ e
        rw [hc] at h1; cases h1
        exact .inl h2.symm
      · rw [he] at h; cases h
    · rintro (rfl | ⟨m, c0, h, _⟩)
      · rw [if_pos hmine]
      · cases h
  | cleanup m =>
    have hcl : ∀ (p : Phase I V) (c0 : Call I V), s.calls[m]? = some c0 → c0.listening = false →
        s' = ⟨AMap.remove s.pending c0.id, modifyCall (dropSender s.calls (AMap.get s.pending c0.id)) m
          (fun c => { c with phase := p })⟩ →
        ((∃ c', s'.calls[n]? = some c' ∧ c'.slot = .closed) ↔ m ≠ n ∧ c0.id = c.id) := by
      rintro p c0 h0 hnl rfl
      have hmn : m ≠ n := by
        rintro rfl
        rw [h0] at hc; cases hc
        rw [hnl] at hl; cases hl
      simp only [get_modify, if_neg hmn, dropSender_slot s.calls _ n c hc he, Option.some.injEq, exists_eq_left']
      constructor
      · intro h
        refine ⟨hmn, ?_⟩
        split at h
        · next e =>
          obtain ⟨c1, h1, h2, _⟩ := hinv.sound _ _ e
          rw [hc] at h1; cases h1
          exact h2.symm
        · rw [he] at h; cases h
      · rintro ⟨_, e⟩
        rw [e, if_pos hmine]
    simp only [step] at hs
    split at hs
    · next c0 h0 =>
      have hgoal : ((∃ c', s'.calls[n]? = some c' ∧ c'.slot = .closed) ↔ m ≠ n ∧ c0.id = c.id) := by
        split at hs
        · next hp => cases hs; exact hcl _ c0 h0 (by simp [Call.listening, hp]) rfl
        · next hp => cases hs; exact hcl _ c0 h0 (by simp [Call.listening, hp]) rfl
        · cases hs
      rw [hgoal]
      constructor
      · rintro ⟨h1, h2⟩
        exact .inr ⟨m, c0, rfl, h1, h0, h2⟩
      · rintro (h | ⟨m', c1, h1, h2, h3, h4⟩)
        · cases h
        · cases h1
          rw [h0] at h3; cases h3
          exact ⟨h2, h4⟩
    · cases hs
  | cancelAll body =>
    cases hs
    have h1 := (drain_get body s.pending s hinv rfl n c hc).1 he
    simp only [h1, hl, if_true]
    simp
  | _ =>
    refine ⟨fun h => ?_, fun h => by rcases h with h | ⟨_, _, h, _⟩ <;> cases h⟩
    exfalso
    simp only [step] at hs
    repeat' split at hs
    all_goals first
      | cases hs
        first
        | exact same _ _ rfl h
        | exact filled _ _ rfl h
        | exact kept rfl h
      | cases hs

example : (∃ c', ((step (⟨[(7, 0)], [⟨7, .empty, .waiting⟩]⟩ : State Nat Unit) (.start 7)).bind
    (fun x => x.1.calls[0]?)) = some c' ∧ c'.slot = .closed) := ⟨_, rfl, rfl⟩

end Verif.Elicit
