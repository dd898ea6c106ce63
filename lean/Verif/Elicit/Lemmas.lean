import Verif.Elicit.Model
import Verif.Common.ListExtra

namespace Verif.Elicit

open Verif

variable {I V : Type} [DecidableEq I]

theorem get_modify (cs : List (Call I V)) (n m : Nat) (f : Call I V → Call I V) :
    (modifyCall cs n f)[m]? = if n = m then cs[m]?.map f else cs[m]? := by
  simp only [modifyCall, List.getElem?_modify]
  split
  · rfl
  · simp

theorem length_modify (cs : List (Call I V)) (n : Nat) (f : Call I V → Call I V) : (modifyCall cs n f).length = cs.length := by
  simp [modifyCall]

/-- The sender of a caller is in `pending` exactly as long as its channel is empty.
(Specification: no counterpart in the code.) -/
structure Inv (s : State I V) : Prop where
  wf : AMap.WF s.pending
  sound : ∀ i n, AMap.get s.pending i = some n → ∃ c, s.calls[n]? = some c ∧ c.id = i ∧ c.slot = .empty
  complete : ∀ (n : Nat) (c : Call I V), s.calls[n]? = some c → c.slot = .empty → AMap.get s.pending c.id = some n
  done : ∀ (n : Nat) (c : Call I V) (o : Outcome I V), s.calls[n]? = some c → c.phase = .done o → c.slot ≠ .empty

theorem inv_init : Inv (init : State I V) where
  wf := AMap.wf_nil
  sound := by intro i n h; simp [init] at h
  complete := by intro n c h; simp [init] at h
  done := by intro n c o h; simp [init] at h

/-- Changing only the phase of a caller. -/
theorem inv_phase {s : State I V} (h : Inv s) (n : Nat) (p : Phase I V)
    (hp : ∀ c o, s.calls[n]? = some c → p = .done o → c.slot ≠ .empty) :
    Inv { s with calls := modifyCall s.calls n (fun c => { c with phase := p }) } where
  wf := h.wf
  sound := by
    intro i m hg
    obtain ⟨c, h1, h2, h3⟩ := h.sound i m hg
    simp only [get_modify]
    split
    · rw [h1]; exact ⟨_, rfl, h2, h3⟩
    · exact ⟨c, h1, h2, h3⟩
  complete := by
    intro m c hc hs
    simp only [get_modify] at hc
    split at hc
    · cases hm : s.calls[m]? with
      | none => rw [hm] at hc; cases hc
      | some c' => rw [hm] at hc; cases hc; exact h.complete m c' hm hs
    · exact h.complete m c hc hs
  done := by
    intro m c o hc ho
    simp only [get_modify] at hc
    split at hc
    · rename_i he
      subst he
      cases hm : s.calls[n]? with
      | none => rw [hm] at hc; cases hc
      | some c' => rw [hm] at hc; cases hc; exact hp c' o hm ho
    · exact h.done m c o hc ho

/-- Taking a sender out of `pending` and giving its caller a channel that is not empty. -/
theorem inv_take {s : State I V} (h : Inv s) (i : I) (n : Nat) (hg : AMap.get s.pending i = some n)
    (f : Call I V → Call I V) (hid : ∀ c, (f c).id = c.id) (hf : ∀ c, c.slot = .empty → (f c).slot ≠ .empty)
    (hph : ∀ c, (f c).phase = c.phase) :
    Inv { pending := AMap.remove s.pending i, calls := modifyCall s.calls n f } := by
  obtain ⟨c0, k1, k2, k3⟩ := h.sound i n hg
  refine ⟨AMap.wf_remove h.wf _, ?_, ?_, ?_⟩
  · intro j m hj
    rw [AMap.get_remove] at hj
    split at hj
    · cases hj
    · rename_i hne
      obtain ⟨c, h1, h2, h3⟩ := h.sound j m hj
      have : n ≠ m := by
        rintro rfl
        rw [k1] at h1
        cases h1
        exact hne (h2.symm.trans k2)
      simp only [get_modify, if_neg this]
      exact ⟨c, h1, h2, h3⟩
  · intro m c hc hs
    simp only [get_modify] at hc
    split at hc
    · rename_i he
      subst he
      rw [k1] at hc
      cases hc
      exact absurd hs (hf c0 k3)
    · rename_i hne
      have hp := h.complete m c hc hs
      rw [AMap.get_remove, if_neg]
      · exact hp
      · intro he
        rw [he, hg] at hp
        cases hp
        exact hne rfl
  · intro m c o hc ho
    simp only [get_modify] at hc
    split at hc
    · rename_i he
      subst he
      rw [k1] at hc
      cases hc
      exact hf c0 k3
    · exact h.done m c o hc ho

theorem fill_spec (cs : List (Call I V)) (n : Nat) (r : Response I V) :
    fill cs n r = modifyCall cs n (fun c => { c with slot := if c.listening then .full r else .closed }) := rfl

theorem inv_fill {s : State I V} (h : Inv s) (i : I) (n : Nat) (hg : AMap.get s.pending i = some n) (r : Response I V) :
    Inv { pending := AMap.remove s.pending i, calls := fill s.calls n r } :=
  inv_take h i n hg _ (fun _ => rfl) (by intro c _; simp only; split <;> simp) (fun _ => rfl)

/-- Taking a sender out and dropping it. -/
theorem inv_drop {s : State I V} (h : Inv s) (i : I) :
    Inv { pending := AMap.remove s.pending i, calls := dropSender s.calls (AMap.get s.pending i) } := by
  cases hg : AMap.get s.pending i with
  | none =>
    rw [AMap.remove_of_get_none hg]
    exact h
  | some n =>
    refine inv_take h i n hg (fun c => match c.slot with
      | .empty => { c with slot := .closed }
      | _ => c) ?_ ?_ ?_
    · intro c; split <;> rfl
    · intro c hc; simp [hc]
    · intro c; split <;> rfl

/-- After dropping the sender for `i` no caller with that id has an empty channel. -/
theorem dropped {s : State I V} (h : Inv s) (i : I) (n : Nat) (c : Call I V)
    (hc : (dropSender s.calls (AMap.get s.pending i))[n]? = some c) (hi : c.id = i) : c.slot ≠ .empty := by
  intro hs
  have := (inv_drop h i).complete n c hc hs
  rw [hi] at this
  simp [AMap.get_remove] at this

theorem dropSender_length (cs : List (Call I V)) (o : Option Nat) : (dropSender cs o).length = cs.length := by
  cases o with
  | none => rfl
  | some n => exact length_modify cs n _

/-- All senders of a list of entries are used. -/
theorem inv_drain (body : V) (l : AMap I Nat) (s : State I V) (h : Inv s) (hl : s.pending = l) :
    Inv { pending := [], calls := l.foldl (fun cs e => fill cs e.2 { id := e.1, body := body }) s.calls } := by
  induction l generalizing s with
  | nil => simp only [List.foldl_nil]; rw [← hl]; exact h
  | cons e l ih =>
    rcases e with ⟨i, n⟩
    have hg : AMap.get s.pending i = some n := by rw [hl, AMap.get_cons, if_pos rfl]
    have hrem : AMap.remove s.pending i = l := by
      have hw := h.wf
      rw [hl] at hw
      have hni : i ∉ AMap.keys l := (List.nodup_cons.mp hw).1
      rw [hl]
      have : AMap.get l i = none := AMap.get_eq_none_iff.mpr hni
      have h2 := AMap.remove_of_get_none this
      simp only [AMap.remove, List.filter_cons] at h2 ⊢
      simp [h2]
    have := inv_fill h i n hg { id := i, body := body }
    rw [hrem] at this
    exact ih _ this rfl

theorem inv_step {s s' : State I V} {op : Op I V} {res : Res} (h : Inv s) (hs : step s op = some (s', res)) : Inv s' := by
  cases op with
  | start id =>
    cases hs
    have hd := inv_drop h id
    refine ⟨AMap.wf_insert h.wf _ _, ?_, ?_, ?_⟩
    · intro i n hg
      rw [AMap.get_insert] at hg
      split at hg
      · rename_i he
        cases hg
        subst he
        rw [List.getElem?_append_right (by rw [dropSender_length]; omega), dropSender_length]
        simp
      · rename_i hne
        obtain ⟨c, h1, h2, h3⟩ := hd.sound i n (by simpa [AMap.get_remove, hne] using hg)
        refine ⟨c, ?_, h2, h3⟩
        simp only at h1
        have hn : n < (dropSender s.calls (AMap.get s.pending id)).length := by
          rcases Nat.lt_or_ge n (dropSender s.calls (AMap.get s.pending id)).length with h | h
          · exact h
          · rw [List.getElem?_eq_none h] at h1; cases h1
        rw [List.getElem?_append_left hn]; exact h1
    · intro n c hc hsl
      simp only at hc
      rw [AMap.get_insert]
      rcases Nat.lt_or_ge n s.calls.length with hn | hn
      · rw [List.getElem?_append_left (by rw [dropSender_length]; exact hn)] at hc
        have hne : c.id ≠ id := fun he => dropped h id n c hc he hsl
        rw [if_neg hne]
        have := hd.complete n c hc hsl
        simpa [AMap.get_remove, hne] using this
      · rw [List.getElem?_append_right (by rw [dropSender_length]; exact hn), dropSender_length] at hc
        have : n = s.calls.length := by
          rcases Nat.eq_zero_or_pos (n - s.calls.length) with h0 | h0
          · omega
          · rw [List.getElem?_eq_none (by simp; omega)] at hc; cases hc
        subst this
        simp at hc
        subst hc
        simp
    · intro n c o hc ho
      simp only at hc
      rcases Nat.lt_or_ge n s.calls.length with hn | hn
      · rw [List.getElem?_append_left (by rw [dropSender_length]; exact hn)] at hc
        exact hd.done n c o hc ho
      · rw [List.getElem?_append_right (by rw [dropSender_length]; exact hn), dropSender_length] at hc
        have : n = s.calls.length := by
          rcases Nat.eq_zero_or_pos (n - s.calls.length) with h0 | h0
          · omega
          · rw [List.getElem?_eq_none (by simp; omega)] at hc; cases hc
        subst this
        simp at hc
        subst hc
        cases ho
  | sent n =>
    simp only [step] at hs
    split at hs
    · split at hs
      · cases hs; exact inv_phase h n _ (by intro c o _ he; cases he)
      · cases hs
    · cases hs
  | sendFail n =>
    simp only [step] at hs
    split at hs
    · split at hs
      · cases hs; exact inv_phase h n _ (by intro c o _ he; cases he)
      · cases hs
    · cases hs
  | receive n =>
    simp only [step] at hs
    split at hs
    · rename_i c hc
      split at hs
      · rename_i hr
        cases hs
        exact inv_phase h n _ (by intro c' o h' _; rw [hc] at h'; cases h'; rw [hr]; simp)
      · rename_i hr
        cases hs
        exact inv_phase h n _ (by intro c' o h' _; rw [hc] at h'; cases h'; rw [hr]; simp)
      · cases hs
    · cases hs
  | timeout n =>
    simp only [step] at hs
    split at hs
    · split at hs
      · cases hs; exact inv_phase h n _ (by intro c o _ he; cases he)
      · cases hs
    · cases hs
  | cleanup n =>
    simp only [step] at hs
    split at hs
    · rename_i c hc
      have key : ∀ p : Phase I V, Inv (I := I) (V := V)
          { pending := AMap.remove s.pending c.id
            calls := modifyCall (dropSender s.calls (AMap.get s.pending c.id)) n (fun c => { c with phase := p }) } := by
        intro p
        refine inv_phase (inv_drop h c.id) n p ?_
        intro c' o h' _
        refine dropped h c.id n c' h' ?_
        cases hg : AMap.get s.pending c.id with
        | none => rw [hg] at h'; simp only [dropSender] at h'; rw [hc] at h'; cases h'; rfl
        | some m =>
          rw [hg] at h'
          simp only [dropSender, get_modify, hc] at h'
          split at h'
          · simp only [Option.map_some, Option.some.injEq] at h'
            subst h'
            split <;> rfl
          · cases h'; rfl
      split at hs
      · cases hs; exact key _
      · cases hs; exact key _
      · cases hs
    · cases hs
  | abandon n =>
    simp only [step] at hs
    split at hs
    · split at hs
      · cases hs
      · cases hs
      · cases hs; exact inv_phase h n _ (by intro c o _ he; cases he)
    · cases hs
  | respond r =>
    simp only [step] at hs
    split at hs
    · rename_i n hg; cases hs; exact inv_fill h _ n hg r
    · cases hs; exact h
  | cancel r =>
    simp only [step] at hs
    split at hs
    · rename_i n hg; cases hs; exact inv_fill h _ n hg r
    · cases hs; exact h
  | cancelAll body =>
    cases hs
    exact inv_drain body s.pending s h rfl

theorem inv_run {s s' : State I V} {l : List (Op I V)} (h : Inv s) (hr : run s l = some s') : Inv s' := by
  induction l generalizing s with
  | nil => cases hr; exact h
  | cons op r ih =>
    simp only [run] at hr
    split at hr
    · cases hr
    · rename_i s1 res hs; exact ih (inv_step h hs) hr

theorem run_append (s : State I V) (a b : List (Op I V)) : run s (a ++ b) = (run s a).bind (fun s' => run s' b) := by
  induction a generalizing s with
  | nil => rfl
  | cons op r ih =>
    simp only [List.cons_append, run]
    split
    · rfl
    · exact ih _

end Verif.Elicit
