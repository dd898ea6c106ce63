/-
List facts missing from core, shared by the areas.
-/

namespace Verif

/-- Induction on lists from the right end. -/
theorem snocInduction {α : Type} {motive : List α → Prop} (l : List α) (nil : motive [])
    (append_singleton : ∀ l a, motive l → motive (l ++ [a])) : motive l := by
  have h : ∀ r : List α, motive r.reverse := by
    intro r
    induction r with
    | nil => exact nil
    | cons a r ih =>
      rw [List.reverse_cons]
      exact append_singleton _ _ ih
  have := h l.reverse
  rwa [List.reverse_reverse] at this

end Verif
