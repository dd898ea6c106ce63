import Verif.HttpServer.Locks
import Verif.Common.LocksPairs

/-
Exactly which requests can block each other: C203.
-/

namespace Verif.HttpServer.Locks

open Verif Verif.Locks

/-! #### The two -/

/-- Steps until the lock is held. (Specification: no counterpart in the code.) -/
def until_ (l : Lock) : List (Instr Lock) → Nat
  | [] => 0
  | .acq l' _ :: p => if l' = l then 2 else 2 + until_ l p
  | .rel _ :: p => 1 + until_ l p

/-- One that stores goes on until it holds the events, one that replays until it holds the order; then each asks for the
other's lock. (Specification: no counterpart in the code.) -/
def meet (k k' : Kind) : List Nat :=
  List.replicate (until_ .events (program k) + 3) 0 ++ List.replicate (until_ .order (program k') + 1) 1 ++ [0]

theorem meet_blocks (k k' : Kind) (hs : k.storing = true) (hp : k'.replaying = true) :
    (run (start [program k, program k']) (meet k k')).any crossed = true := by
  cases k' with
  | stream f o r =>
    cases o <;> cases r <;> try cases hp
    cases k with
    | init a b c d => cases hs; cases a <;> cases b <;> cases d <;> cases f <;> decide +kernel
    | request a b c => cases hs; cases a <;> cases c <;> cases f <;> decide +kernel
    | streamed => cases f <;> decide +kernel
    | _ => cases hs
  | _ => cases hp

/-- C203, exactly: requests in progress at the same time can come to block each other for ever if and only if one of them
replays events and another one stores one. -/
theorem C203_deadlock_iff (ks : List Kind) :
    (∃ is s, run (start (ks.map program)) is = some s ∧ Deadlock s) ↔
      (∃ k ∈ ks, k.replaying = true) ∧ ∃ k ∈ ks, k.storing = true := by
  constructor
  · rintro ⟨is, s, hr, hd⟩
    have hno : ¬ ((∀ k ∈ ks, k.replaying = false) ∨ (∀ k ∈ ks, k.storing = false)) := by
      intro h
      obtain ⟨i, hi⟩ := (C203_no_deadlock_partial ks h is s hr).1 hd.1
      rw [hd.2 i] at hi
      cases hi
    refine ⟨?_, ?_⟩
    · apply Classical.byContradiction
      intro hc
      exact hno (.inl (fun k hk => by
        cases he : k.replaying with
        | false => rfl
        | true => exact absurd ⟨k, hk, he⟩ hc))
    · apply Classical.byContradiction
      intro hc
      exact hno (.inr (fun k hk => by
        cases he : k.storing with
        | false => rfl
        | true => exact absurd ⟨k, hk, he⟩ hc))
  · rintro ⟨⟨k', hm', hp⟩, k, hm, hs⟩
    obtain ⟨i, hi⟩ := List.getElem?_of_mem hm
    obtain ⟨j, hj⟩ := List.getElem?_of_mem hm'
    have hij : i ≠ j := by
      rintro rfl
      rw [hi] at hj; cases hj
      cases k' <;> first | cases hp | cases hs
    exact pair_deadlock _ i j hij (program k) (program k') (by simp [hi]) (by simp [hj]) _ (meet_blocks k k' hs hp)

-- A client resumes its stream while another is initialized and a notification arrives.
example : ∃ is s, run (start ([.message 1, .stream true true true, .init true true true false].map program)) is = some s ∧
    Deadlock s := (C203_deadlock_iff _).mpr ⟨⟨.stream true true true, by simp, rfl⟩, .init true true true false, by simp, rfl⟩

end Verif.HttpServer.Locks
