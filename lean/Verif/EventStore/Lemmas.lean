import Verif.EventStore.Model
import Verif.Common.ListExtra

namespace Verif.EventStore

variable {Id M : Type} [DecidableEq Id]

theorem popOver_eq (max : Nat) (l : List (Event Id M)) : popOver max l = l.drop (l.length - max) := by
  induction l with
  | nil => simp [popOver]
  | cons e es ih =>
    unfold popOver
    split
    · rename_i h
      rw [ih]
      have : (e :: es).length - max = (es.length - max) + 1 := by
        simp only [List.length_cons] at h ⊢; omega
      rw [this, List.drop_succ_cons]
    · rename_i h
      have : (e :: es).length - max = 0 := by omega
      rw [this]; rfl

theorem popOlder_suffix (c : Int) (l : List (Event Id M)) : popOlder c l <:+ l := by
  induction l with
  | nil => simp [popOlder]
  | cons e es ih =>
    unfold popOlder
    split
    · exact ih.trans (List.suffix_cons e es)
    · exact List.suffix_refl _

theorem popOlder_removed (c : Int) (l : List (Event Id M)) :
    ∃ pre, l = pre ++ popOlder c l ∧ ∀ e ∈ pre, e.ts < c := by
  induction l with
  | nil => exact ⟨[], by simp [popOlder], by simp⟩
  | cons e es ih =>
    unfold popOlder
    split
    · rename_i h
      obtain ⟨pre, h1, h2⟩ := ih
      refine ⟨e :: pre, ?_, ?_⟩
      · rw [List.cons_append, ← h1]
      · intro x hx
        rcases List.mem_cons.mp hx with rfl | hx
        · exact h
        · exact h2 x hx
    · exact ⟨[], by simp, by simp⟩

theorem popOlder_head (c : Int) (l : List (Event Id M)) (e : Event Id M) (es : List (Event Id M))
    (h : popOlder c l = e :: es) : ¬ e.ts < c := by
  induction l with
  | nil => simp [popOlder] at h
  | cons x xs ih =>
    unfold popOlder at h
    split at h
    · exact ih h
    · cases h; assumption

theorem cleanup_suffix (max : Nat) (age now : Int) (l : List (Event Id M)) :
    cleanup max age now l <:+ l := by
  unfold cleanup
  refine (popOlder_suffix _ _).trans ?_
  rw [popOver_eq]
  exact List.drop_suffix _ _

theorem cleanup_length (max : Nat) (age now : Int) (l : List (Event Id M)) :
    (cleanup max age now l).length ≤ max := by
  unfold cleanup
  refine Nat.le_trans (popOlder_suffix _ _).length_le ?_
  rw [popOver_eq, List.length_drop]
  omega

theorem suffix_append_right {α : Type} {a b : List α} (h : a <:+ b) (c : List α) :
    a ++ c <:+ b ++ c := by
  obtain ⟨t, rfl⟩ := h
  exact ⟨t, by simp⟩

theorem suffix_eq_drop {α : Type} {a b : List α} (h : a <:+ b) : a = b.drop (b.length - a.length) := by
  obtain ⟨t, rfl⟩ := h
  simp

theorem position_none {id : Id} {l : List (Event Id M)} (h : ∀ e ∈ l, e.id ≠ id) :
    position id l = none := by
  induction l with
  | nil => rfl
  | cons e es ih =>
    unfold position
    rw [if_neg (h e List.mem_cons_self), ih (fun x hx => h x (List.mem_cons_of_mem _ hx))]
    rfl

theorem position_append {id : Id} {pre post : List (Event Id M)} {e : Event Id M}
    (h : ∀ x ∈ pre, x.id ≠ id) (he : e.id = id) :
    position id (pre ++ e :: post) = some pre.length := by
  induction pre with
  | nil => simp [position, he]
  | cons x xs ih =>
    rw [List.cons_append]
    unfold position
    rw [if_neg (h x List.mem_cons_self), ih (fun y hy => h y (List.mem_cons_of_mem _ hy))]
    simp

/-- The core replay lemma: the queue is a suffix of everything stored, ids are distinct. -/
theorem since_suffix {evs stored pre post : List (Event Id M)} {e : Event Id M}
    (hs : evs <:+ stored) (hst : stored = pre ++ e :: post)
    (hn : (stored.map (·.id)).Nodup) :
    getEventsSince evs e.id none = post.drop (post.length - evs.length) := by
  have hnd : ∀ x ∈ pre ++ post, x.id ≠ e.id := by
    rw [hst, List.map_append, List.map_cons, List.nodup_append, List.nodup_cons] at hn
    obtain ⟨_, ⟨h2, _⟩, h3⟩ := hn
    intro x hx
    rcases List.mem_append.mp hx with hx | hx
    · exact h3 _ (List.mem_map.mpr ⟨x, hx, rfl⟩) _ List.mem_cons_self
    · intro he
      exact h2 (List.mem_map.mpr ⟨x, hx, he⟩)
  have hev := suffix_eq_drop hs
  have hlen := hs.length_le
  have hsl : stored.length = pre.length + 1 + post.length := by
    rw [hst]; simp; omega
  unfold getEventsSince
  by_cases hc : post.length < evs.length
  · -- e is retained
    have h1 : evs = pre.drop (stored.length - evs.length) ++ e :: post := by
      have hle : stored.length - evs.length ≤ pre.length := by omega
      conv => lhs; rw [hev, hst]
      rw [List.drop_append_of_le_length (by simpa [hst] using hle)]
      congr 2
      simp [hst]
    have hp : position e.id evs = some (pre.drop (stored.length - evs.length)).length := by
      conv => lhs; rw [h1]
      apply position_append
      · intro x hx
        exact hnd x (List.mem_append_left _ (List.mem_of_mem_drop hx))
      · rfl
    rw [hp]
    simp only
    generalize hq : pre.drop (stored.length - evs.length) = q at h1
    rw [h1]
    have h0 : post.length - (q ++ e :: post).length = 0 := by simp; omega
    rw [h0]
    have : q ++ e :: post = (q ++ [e]) ++ post := by simp
    rw [this, List.drop_append_of_le_length (by simp)]
    simp
  · have h1 : evs = post.drop (post.length - evs.length) := by
      have hk : stored.length - evs.length = pre.length + 1 + (post.length - evs.length) := by omega
      conv => lhs; rw [hev, hk, hst]
      have : pre ++ e :: post = (pre ++ [e]) ++ post := by simp
      rw [this, List.drop_append]
      have h2 : (pre ++ [e]).length = pre.length + 1 := by simp
      rw [h2, List.drop_eq_nil_of_le (by simp)]
      simp only [List.nil_append]
      congr 1
      omega
    have hp : position e.id evs = none := by
      apply position_none
      intro x hx
      rw [h1] at hx
      exact hnd x (List.mem_append_right _ (List.mem_of_mem_drop hx))
    rw [hp]
    simp only [List.drop_zero]
    exact h1

end Verif.EventStore
