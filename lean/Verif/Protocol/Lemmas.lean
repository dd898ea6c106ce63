import Verif.Protocol.Model

namespace Verif.Protocol

variable {Id T R : Type} [DecidableEq Id] [DecidableEq T]

theorem run_append (s : State Id T R) (a b : List (Op Id T R)) :
    run s (a ++ b) = run (run s a) b := by
  induction a generalizing s with
  | nil => rfl
  | cons op a ih => simp [run, ih]

/-- Invariant: contexts carry the instance's own transport, pending channels are old, distinct ids
hold distinct channels, and nothing has been delivered to a pending or future channel.
(Specification: no counterpart in the code.) -/
structure Inv (s : State Id T R) : Prop where
  own : ∀ id c, s.pending.get id = some c → c.transport = s.own
  lt : ∀ id c, s.pending.get id = some c → c.chan < s.nextChan
  inj : ∀ i j c d, s.pending.get i = some c → s.pending.get j = some d → c.chan = d.chan → i = j
  fresh : ∀ p ∈ s.delivered, p.1 < s.nextChan
  undel : ∀ id c, s.pending.get id = some c → ∀ p ∈ s.delivered, p.1 ≠ c.chan

theorem inv_init (t : T) : Inv (init t : State Id T R) := by
  constructor <;> simp [init]

theorem step_own (s : State Id T R) (op : Op Id T R) : (step s op).1.own = s.own := by
  cases op with
  | register id => rfl
  | complete id r => simp only [step, completeRequest]; (repeat' split) <;> rfl
  | completeFor id r t => simp only [step, completeRequestFor]; (repeat' split) <;> rfl
  | cancel id => rfl

theorem run_own (s : State Id T R) (h : List (Op Id T R)) : (run s h).own = s.own := by
  induction h generalizing s with
  | nil => rfl
  | cons op h ih => simp [run, ih, step_own]

theorem inv_remove {s : State Id T R} (h : Inv s) (id : Id) :
    Inv { s with pending := s.pending.remove id } := by
  have key : ∀ j c, (s.pending.remove id).get j = some c → s.pending.get j = some c := by
    intro j c hc
    rw [AMap.get_remove] at hc
    split at hc
    · cases hc
    · exact hc
  constructor
  · intro j c hc; exact h.own j c (key j c hc)
  · intro j c hc; exact h.lt j c (key j c hc)
  · intro i j c d hc hd; exact h.inj i j c d (key i c hc) (key j d hd)
  · exact h.fresh
  · intro j c hc; exact h.undel j c (key j c hc)

theorem inv_deliver {s : State Id T R} (h : Inv s) (id : Id) (ctx : Ctx T) (r : R)
    (hg : s.pending.get id = some ctx) :
    Inv { s with pending := s.pending.remove id,
                 delivered := s.delivered ++ [(ctx.chan, r)] } := by
  have h' := inv_remove h id
  constructor
  · exact h'.own
  · exact h'.lt
  · exact h'.inj
  · intro p hp
    simp only [List.mem_append, List.mem_singleton] at hp
    rcases hp with hp | hp
    · exact h.fresh p hp
    · subst hp; exact h.lt id ctx hg
  · intro j c hc p hp
    simp only [List.mem_append, List.mem_singleton] at hp
    rcases hp with hp | hp
    · exact h'.undel j c hc p hp
    · subst hp
      intro he
      simp only at hc he
      rw [AMap.get_remove] at hc
      split at hc
      · cases hc
      · rename_i hne
        exact hne (h.inj j id c ctx hc hg he.symm)

theorem inv_step {s : State Id T R} (h : Inv s) (op : Op Id T R) : Inv (step s op).1 := by
  cases op with
  | register id =>
    simp only [step, registerRequest]
    constructor
    · intro j c hc
      simp only at hc
      rw [AMap.get_insert] at hc
      split at hc
      · cases hc; rfl
      · exact h.own j c hc
    · intro j c hc
      simp only at hc ⊢
      rw [AMap.get_insert] at hc
      split at hc
      · cases hc; simp
      · have := h.lt j c hc; omega
    · intro i j c d hc hd he
      simp only at hc hd
      rw [AMap.get_insert] at hc hd
      split at hc <;> split at hd
      · simp_all
      · cases hc
        have := h.lt j d hd
        simp at he; omega
      · cases hd
        have := h.lt i c hc
        simp at he; omega
      · exact h.inj i j c d hc hd he
    · intro p hp
      have := h.fresh p hp
      simp only; omega
    · intro j c hc p hp
      simp only at hc hp
      rw [AMap.get_insert] at hc
      split at hc
      · cases hc
        have := h.fresh p hp
        simp only; omega
      · exact h.undel j c hc p hp
  | complete id r =>
    simp only [step, completeRequest]
    split
    · rename_i ctx hg
      rw [if_pos (h.own id ctx hg)]
      exact inv_deliver h id ctx r hg
    · exact h
  | completeFor id r t =>
    simp only [step, completeRequestFor]
    split
    · rename_i ctx hg
      split
      · exact inv_deliver h id ctx r hg
      · exact h
    · exact h
  | cancel id => exact inv_remove h id

theorem inv_run {s : State Id T R} (h : Inv s) (ops : List (Op Id T R)) : Inv (run s ops) := by
  induction ops generalizing s with
  | nil => exact h
  | cons op ops ih => exact ih (inv_step h op)

theorem inbox_append (s : State Id T R) (p : AMap Id (Ctx T)) (n : Nat) (c d : Nat) (r : R) :
    inbox { s with pending := p, nextChan := n, delivered := s.delivered ++ [(d, r)] } c
      = inbox s c ++ (if d = c then [r] else []) := by
  by_cases h : d = c <;> simp [inbox, List.filterMap_append, h]

theorem inbox_eq_nil {s : State Id T R} {c : Nat} (h : ∀ p ∈ s.delivered, p.1 ≠ c) :
    inbox s c = [] := by
  unfold inbox
  rw [List.filterMap_eq_nil_iff]
  intro p hp
  simp [h p hp]

/-- A channel that is not (or no longer) pending never receives anything more. -/
theorem inbox_dead {s : State Id T R} (h : Inv s) (c : Nat) (hc : c < s.nextChan)
    (hd : ∀ id x, s.pending.get id = some x → x.chan ≠ c) (ops : List (Op Id T R)) :
    inbox (run s ops) c = inbox s c := by
  induction ops generalizing s with
  | nil => rfl
  | cons op ops ih =>
    have hi := inv_step h op
    cases op with
    | register id =>
      simp only [run]
      rw [ih hi]
      · simp [step, registerRequest, inbox]
      · simp only [step, registerRequest]; omega
      · intro j x hx
        simp only [step, registerRequest] at hx
        rw [AMap.get_insert] at hx
        split at hx
        · cases hx; simp only; omega
        · exact hd j x hx
    | complete id r =>
      simp only [run]
      cases hg : s.pending.get id with
      | none =>
        have hst : (step s (.complete id r)).1 = s := by simp [step, completeRequest, hg]
        rw [hst]; exact ih h hc hd
      | some ctx =>
        have hst : (step s (.complete id r)).1 =
            { s with pending := s.pending.remove id,
                     delivered := s.delivered ++ [(ctx.chan, r)] } := by
          simp [step, completeRequest, hg, h.own id ctx hg]
        rw [hst] at hi ⊢
        rw [ih hi]
        · have := inbox_append s (s.pending.remove id) s.nextChan c ctx.chan r
          simp only [hd id ctx hg, if_false, List.append_nil] at this
          exact this
        · exact hc
        · intro j x hx
          simp only at hx
          rw [AMap.get_remove] at hx
          split at hx
          · cases hx
          · exact hd j x hx
    | completeFor id r t =>
      simp only [run]
      cases hg : s.pending.get id with
      | none =>
        have hst : (step s (.completeFor id r t)).1 = s := by simp [step, completeRequestFor, hg]
        rw [hst]; exact ih h hc hd
      | some ctx =>
        by_cases hct : ctx.transport = t
        · have hst : (step s (.completeFor id r t)).1 =
              { s with pending := s.pending.remove id,
                       delivered := s.delivered ++ [(ctx.chan, r)] } := by
            simp [step, completeRequestFor, hg, hct]
          rw [hst] at hi ⊢
          rw [ih hi]
          · have := inbox_append s (s.pending.remove id) s.nextChan c ctx.chan r
            simp only [hd id ctx hg, if_false, List.append_nil] at this
            exact this
          · exact hc
          · intro j x hx
            simp only at hx
            rw [AMap.get_remove] at hx
            split at hx
            · cases hx
            · exact hd j x hx
        · have hst : (step s (.completeFor id r t)).1 = s := by
            simp [step, completeRequestFor, hg, hct]
          rw [hst]; exact ih h hc hd
    | cancel id =>
      simp only [run]
      rw [ih hi]
      · rfl
      · exact hc
      · intro j x hx
        simp only [step, cancelRequest] at hx
        rw [AMap.get_remove] at hx
        split at hx
        · cases hx
        · exact hd j x hx

end Verif.Protocol
