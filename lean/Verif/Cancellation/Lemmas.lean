import Verif.Cancellation.Model

namespace Verif.Cancellation

variable {Id : Type} [DecidableEq Id]

theorem run_append (s : State Id) (a b : List (Op Id)) : run s (a ++ b) = run (run s a) b := by
  simp [run]

theorem run_cons (s : State Id) (op : Op Id) (b : List (Op Id)) :
    run s (op :: b) = run (step s op) b := rfl

/-- Tokens in the table are old and belong to one id each. (Specification: no counterpart in the code.) -/
structure Inv (s : State Id) : Prop where
  wf : s.tokens.WF
  lt : ∀ id t, s.tokens.get id = some t → t < s.next
  inj : ∀ i j t, s.tokens.get i = some t → s.tokens.get j = some t → i = j

theorem inv_init : Inv (init : State Id) := ⟨AMap.wf_nil, by simp [init], by simp [init]⟩

theorem get_remove_some {m : AMap Id Nat} {k i : Id} {t : Nat}
    (h : (m.remove k).get i = some t) : m.get i = some t ∧ i ≠ k := by
  rw [AMap.get_remove] at h
  split at h
  · cases h
  · exact ⟨h, by assumption⟩

theorem inv_step {s : State Id} (h : Inv s) (op : Op Id) : Inv (step s op) := by
  cases op with
  | setSender => exact ⟨h.wf, h.lt, h.inj⟩
  | create id =>
    simp only [step, createToken]
    refine ⟨AMap.wf_insert h.wf _ _, ?_, ?_⟩
    · intro i t ht
      simp only at ht ⊢
      rw [AMap.get_insert] at ht
      split at ht
      · cases ht; omega
      · have := h.lt i t ht; omega
    · intro i j t hi hj
      simp only at hi hj
      rw [AMap.get_insert] at hi hj
      split at hi <;> split at hj
      · simp_all
      · cases hi; have := h.lt j _ hj; omega
      · cases hj; have := h.lt i _ hi; omega
      · exact h.inj i j t hi hj
  | cancel id r =>
    have h' : Inv { s with tokens := s.tokens.remove id } :=
      ⟨AMap.wf_remove h.wf _, fun i t hi => h.lt i t (get_remove_some hi).1,
       fun i j t hi hj => h.inj i j t (get_remove_some hi).1 (get_remove_some hj).1⟩
    simp only [step, cancelRequest]
    split
    · exact ⟨h'.wf, h'.lt, h'.inj⟩
    · exact h'
  | remove id =>
    exact ⟨AMap.wf_remove h.wf _, fun i t hi => h.lt i t (get_remove_some hi).1,
       fun i j t hi hj => h.inj i j t (get_remove_some hi).1 (get_remove_some hj).1⟩
  | clear => exact ⟨AMap.wf_nil, by simp [step, clear], by simp [step, clear]⟩
  | cancelToken t => exact ⟨h.wf, h.lt, h.inj⟩

theorem inv_run {s : State Id} (h : Inv s) (ops : List (Op Id)) : Inv (run s ops) := by
  induction ops generalizing s with
  | nil => exact h
  | cons op ops ih => exact ih (inv_step h op)

theorem next_le_step (s : State Id) (op : Op Id) : s.next ≤ (step s op).next := by
  cases op with
  | create id => simp [step, createToken]
  | cancel id r =>
    simp only [step, cancelRequest]
    split <;> exact Nat.le_refl _
  | _ => exact Nat.le_refl _

/-- Cancelled tokens stay cancelled. -/
theorem cancelled_mono (s : State Id) (op : Op Id) {t : Nat} (h : t ∈ s.cancelled) :
    t ∈ (step s op).cancelled := by
  cases op with
  | cancel id r =>
    simp only [step, cancelRequest]
    split
    · exact List.mem_cons_of_mem _ h
    · exact h
  | clear => simp only [step, clear]; exact List.mem_append_right _ h
  | cancelToken x => exact List.mem_cons_of_mem _ h
  | setSender => exact h
  | create id => exact h
  | remove id => exact h

theorem cancelled_mono_run (s : State Id) (h : List (Op Id)) {t : Nat} (ht : t ∈ s.cancelled) :
    t ∈ (run s h).cancelled := by
  induction h generalizing s with
  | nil => exact ht
  | cons op h ih => exact ih _ (cancelled_mono s op ht)

end Verif.Cancellation
