import Verif.Protocol.Props

/-
Property C196: what the caller who awaits a receiver of `register_request` sees.
-/

namespace Verif.Protocol

variable {Id T R : Type} [DecidableEq Id] [DecidableEq T]

/-- The sender of channel `c` exists: the table holds it. A sender that is neither in the table nor was used is
dropped, and then awaiting the receiver fails instead of waiting. (`RequestContext`, /repo/src/shared/protocol.rs
L92-97; tokio's `oneshot`.) -/
def Held (s : State Id T R) (c : Nat) : Prop := ∃ id x, s.pending.get id = some x ∧ x.chan = c

/-! ### Specification -/

/-- What a caller who registered a request sees. (Specification: no counterpart in the code.) -/
inductive Seen (R : Type) where
  | waiting
  | got (r : R)
  | closed
  deriving DecidableEq

/-- A call that settles the request `id` registered on transport `own`. (Specification: no counterpart in the code.) -/
def Op.settles (own : T) (id : Id) : Op Id T R → Bool
  | .register j => decide (j = id)
  | .complete j _ => decide (j = id)
  | .completeFor j _ t => decide (j = id) && decide (t = own)
  | .cancel j => decide (j = id)

/-- The first call that settles the request decides: a response is got; by a cancellation or a new registration of the
same id the receiver is closed. (Specification: no counterpart in the code.) -/
def seen (own : T) (id : Id) (after : List (Op Id T R)) : Seen R :=
  match after.find? (Op.settles own id) with
  | none => .waiting
  | some (.complete _ r) => .got r
  | some (.completeFor _ r _) => .got r
  | some _ => .closed

/-- What the state says about the receiver of channel `c`. (Specification: no counterpart in the code.) -/
def Sees (s : State Id T R) (c : Nat) : Seen R → Prop
  | .waiting => Held s c ∧ inbox s c = []
  | .got r => ¬ Held s c ∧ inbox s c = [r]
  | .closed => ¬ Held s c ∧ inbox s c = []

/-! ### Proof -/

theorem held_step {s : State Id T R} (h : Inv s) (c : Nat) (hc : c < s.nextChan) (op : Op Id T R)
    (hh : Held (step s op).1 c) : Held s c := by
  obtain ⟨id, x, hx, rfl⟩ := hh
  cases op with
  | register j =>
    simp only [step, registerRequest, AMap.get_insert] at hx
    split at hx
    · cases hx; simp at hc
    · exact ⟨id, x, hx, rfl⟩
  | complete j r =>
    simp only [step, completeRequest] at hx
    split at hx
    · next ctx hg =>
      rw [if_pos (h.own j ctx hg)] at hx
      simp only [AMap.get_remove] at hx
      split at hx
      · cases hx
      · exact ⟨id, x, hx, rfl⟩
    · exact ⟨id, x, hx, rfl⟩
  | completeFor j r t =>
    simp only [step, completeRequestFor] at hx
    split at hx
    · split at hx
      · simp only [AMap.get_remove] at hx
        split at hx
        · cases hx
        · exact ⟨id, x, hx, rfl⟩
      · exact ⟨id, x, hx, rfl⟩
    · exact ⟨id, x, hx, rfl⟩
  | cancel j =>
    simp only [step, cancelRequest, AMap.get_remove] at hx
    split at hx
    · cases hx
    · exact ⟨id, x, hx, rfl⟩

theorem step_chan (s : State Id T R) (op : Op Id T R) : s.nextChan ≤ (step s op).1.nextChan := by
  cases op <;> simp only [step, registerRequest, completeRequest, completeRequestFor, cancelRequest] <;>
    (repeat' split) <;> simp

theorem held_run {s : State Id T R} (h : Inv s) (c : Nat) (hc : c < s.nextChan) (ops : List (Op Id T R))
    (hh : Held (run s ops) c) : Held s c := by
  induction ops generalizing s with
  | nil => exact hh
  | cons op ops ih => exact held_step h c hc op (ih (inv_step h op) (Nat.lt_of_lt_of_le hc (step_chan s op)) hh)

/-- A call that does not settle the request leaves its entry; one that does removes it. -/
theorem settles_step {s : State Id T R} (h : Inv s) {id : Id} {x : Ctx T} (hg : s.pending.get id = some x) (op : Op Id T R) :
    (op.settles s.own id = false → (step s op).1.pending.get id = some x) ∧
    (op.settles s.own id = true → ¬ Held (step s op).1 x.chan) := by
  have gone : ∀ (m : State Id T R), m.pending = s.pending.remove id → ¬ Held m x.chan := by
    intro m hm ⟨k, y, hy, he⟩
    rw [hm, AMap.get_remove] at hy
    split at hy
    · cases hy
    · next hne => exact hne (h.inj k id y x hy hg he)
  cases op with
  | register j =>
    simp only [Op.settles, decide_eq_false_iff_not, decide_eq_true_eq, step, registerRequest]
    constructor
    · intro hj; rw [AMap.get_insert_ne _ _ (Ne.symm hj)]; exact hg
    · rintro rfl ⟨k, y, hy, he⟩
      simp only [AMap.get_insert] at hy
      split at hy
      · cases hy
        have := h.lt j x hg
        simp only at he; omega
      · next hne => exact hne (h.inj k j y x hy hg he)
  | complete j r =>
    simp only [Op.settles, decide_eq_false_iff_not, decide_eq_true_eq, step, completeRequest]
    constructor
    · intro hj
      split
      · next ctx hc => rw [if_pos (h.own j ctx hc)]; simp only; rw [AMap.get_remove_ne _ (Ne.symm hj)]; exact hg
      · exact hg
    · rintro rfl
      simp only [hg, h.own j x hg, if_true]
      exact gone _ rfl
  | completeFor j r t =>
    simp only [Op.settles, Bool.and_eq_false_iff, Bool.and_eq_true, decide_eq_false_iff_not, decide_eq_true_eq, step,
      completeRequestFor]
    constructor
    · intro hj
      split
      · next ctx hc =>
        split
        · next ht =>
          have : id ≠ j := by
            rintro rfl
            have := h.own id ctx hc
            rcases hj with hj | hj
            · exact hj rfl
            · exact hj (ht.symm.trans this)
          simp only
          rw [AMap.get_remove_ne _ this]; exact hg
        · exact hg
      · exact hg
    · rintro ⟨rfl, rfl⟩
      simp only [hg, h.own j x hg, if_true]
      exact gone _ rfl
  | cancel j =>
    simp only [Op.settles, decide_eq_false_iff_not, decide_eq_true_eq, step, cancelRequest]
    constructor
    · intro hj; rw [AMap.get_remove_ne _ (Ne.symm hj)]; exact hg
    · rintro rfl; exact gone _ rfl

theorem held_iff {s : State Id T R} (h : Inv s) {id : Id} {x : Ctx T} (hg : s.pending.get id = some x)
    (ops : List (Op Id T R)) : Held (run s ops) x.chan ↔ ops.find? (Op.settles s.own id) = none := by
  induction ops generalizing s with
  | nil => simp only [run, List.find?_nil, iff_true]; exact ⟨id, x, hg, rfl⟩
  | cons op ops ih =>
    have hs := settles_step h hg op
    rw [List.find?_cons]
    cases ho : op.settles s.own id with
    | true =>
      simp only [reduceCtorEq, iff_false]
      exact fun hh => hs.2 ho (held_run (inv_step h op) _ (Nat.lt_of_lt_of_le (h.lt id x hg) (step_chan s op)) ops hh)
    | false =>
      simp only [run]
      rw [ih (inv_step h op) (hs.1 ho), step_own]

theorem answer_find (own : T) (id : Id) (after : List (Op Id T R)) :
    answer own id after = match after.find? (Op.settles own id) with
      | some (.complete _ r) => some r
      | some (.completeFor _ r _) => some r
      | _ => none := by
  induction after with
  | nil => rfl
  | cons op l ih =>
    rw [List.find?_cons]
    cases op <;> simp only [answer, Op.settles]
    case register j => by_cases hj : j = id <;> simp [hj, ih]
    case complete j r => by_cases hj : j = id <;> simp [hj, ih]
    case cancel j => by_cases hj : j = id <;> simp [hj, ih]
    case completeFor j r t => by_cases hj : j = id <;> by_cases ht : t = own <;> simp [hj, ht, ih]

/-- **C196**. Whoever awaits a registered request gets the first response for it on its transport, is told that none
will come if the request is cancelled or its id registered anew before, and waits otherwise; nobody waits for a request
that is no longer in the table. -/
theorem C196_await (own : T) (before after : List (Op Id T R)) (id : Id) (c : Nat)
    (hc : (step (run (init own) before) (.register id)).2 = .receiver c) :
    Sees (run (init own) (before ++ .register id :: after)) c (seen own id after) := by
  obtain ⟨d, hd, hin⟩ := C01_registration_gets_first_response_only own before after id
  rw [hd] at hc; cases hc
  rw [answer_find] at hin
  have hi := inv_step (inv_run (inv_init (Id := Id) (R := R) own) before) (.register id)
  have ho : (step (run (init own) before) (.register id)).1.own = own := by rw [step_own, run_own]; rfl
  have hh := held_iff hi (id := id) (x := ⟨(run (init own) before).own, (run (init own) before).nextChan⟩)
    (by simp [step, registerRequest]) after
  rw [ho] at hh
  have hcd : c = (run (init own : State Id T R) before).nextChan := by
    simpa [step, registerRequest] using hd.symm
  rw [run_append] at hin ⊢
  simp only [run] at hin ⊢
  rw [← hcd] at hh
  unfold seen
  cases hf : after.find? (Op.settles own id) with
  | none => rw [hf] at hin hh; exact ⟨hh.mpr rfl, hin⟩
  | some op =>
    rw [hf] at hin hh
    have hn : ¬ Held _ c := fun x => nomatch hh.mp x
    cases op <;> exact ⟨hn, hin⟩

example : seen "t" (1 : Nat) [Op.complete 2 "x", .completeFor 1 "y" "u", .register 1, .complete 1 "z"] = .closed := by decide

/-- Somebody registers 1, then 1 again; the first waiter is told at once, the second gets the response. -/
example : Sees (run (init "t") ([] ++ Op.register (1 : Nat) :: [.register 1, .complete 1 "z"])) 0 .closed ∧
    Sees (run (init "t") ([Op.register (1 : Nat)] ++ .register 1 :: [.complete 1 "z"])) 1 (.got "z") :=
  ⟨C196_await "t" [] [.register 1, .complete 1 "z"] 1 0 rfl, C196_await "t" [.register 1] [.complete 1 "z"] 1 1 rfl⟩

end Verif.Protocol
