/-
Finite sets as duplicate-free lists, standing for `std::collections::HashSet` (trusted base).
-/

namespace Verif

/-- A `HashSet<K>` as a list; `List.Nodup` is the invariant. (Library: no counterpart in /repo.) -/
abbrev ASet (K : Type) := List K

namespace ASet

variable {K : Type} [DecidableEq K]

/-- `HashSet::insert` (the new set). (Library: no counterpart in /repo.) -/
def insert (s : ASet K) (k : K) : ASet K := if k ∈ s then s else k :: s

/-- `HashSet::remove` (the new set). (Library: no counterpart in /repo.) -/
def remove (s : ASet K) (k : K) : ASet K := s.filter (fun x => !decide (x = k))

theorem mem_insert {s : ASet K} {k x : K} : x ∈ insert s k ↔ x = k ∨ x ∈ s := by
  unfold insert
  split
  · constructor
    · exact Or.inr
    · rintro (rfl | h) <;> assumption
  · simp

theorem mem_remove {s : ASet K} {k x : K} : x ∈ remove s k ↔ x ∈ s ∧ x ≠ k := by
  simp [remove]

theorem nodup_insert {s : ASet K} (h : s.Nodup) (k : K) : (insert s k).Nodup := by
  unfold insert
  split
  · exact h
  · exact List.nodup_cons.mpr ⟨by assumption, h⟩

theorem nodup_remove {s : ASet K} (h : s.Nodup) (k : K) : (remove s k).Nodup :=
  List.Pairwise.filter _ h

end ASet

/-- Two duplicate-free lists with the same elements have the same length. -/
theorem nodup_length_eq {α : Type} [DecidableEq α] {a b : List α} (ha : a.Nodup) (hb : b.Nodup)
    (h : ∀ x, x ∈ a ↔ x ∈ b) : a.length = b.length := by
  have hp : a.Perm b := (List.perm_ext_iff_of_nodup ha hb).mpr h
  exact hp.length_eq

end Verif
