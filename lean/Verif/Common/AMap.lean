/-
Finite maps.  The Rust code uses `std::collections::HashMap`; the only facts about it that are
trusted are the ones proved here for association lists: lookup after insert / remove, and one
entry per key.  Iteration order of a `HashMap` is unspecified, so no property theorem may depend
on the order of the entries (theorems about iteration speak of membership, counts or
permutations).
-/

namespace Verif

/-- Association list standing for a `HashMap<K, V>` (std library; trusted base).
(Library: no counterpart in /repo.) -/
abbrev AMap (K V : Type) := List (K × V)

namespace AMap

variable {K V : Type} [DecidableEq K]

/-- `HashMap::get`. (Library: no counterpart in /repo.) -/
def get (m : AMap K V) (k : K) : Option V :=
  match m with
  | [] => none
  | (k', v) :: rest => if k' = k then some v else get rest k

/-- `HashMap::remove` (the new map). (Library: no counterpart in /repo.) -/
def remove (m : AMap K V) (k : K) : AMap K V :=
  m.filter (fun e => !decide (e.1 = k))

/-- `HashMap::insert` (the new map): replaces the entry of an equal key. (Library: no counterpart in /repo.) -/
def insert (m : AMap K V) (k : K) (v : V) : AMap K V :=
  (k, v) :: remove m k

/-- `HashMap::contains_key`. (Library: no counterpart in /repo.) -/
def contains (m : AMap K V) (k : K) : Bool := (get m k).isSome

/-- The keys. (Library: no counterpart in /repo.) -/
def keys (m : AMap K V) : List K := m.map Prod.fst

/-- Each key occurs once: what being a `HashMap` means for an association list. (Library: no counterpart in /repo.) -/
def WF (m : AMap K V) : Prop := (keys m).Nodup

@[simp] theorem get_nil (k : K) : get ([] : AMap K V) k = none := rfl

theorem get_cons (a : K) (v : V) (m : AMap K V) (k : K) :
    get ((a, v) :: m) k = if a = k then some v else get m k := rfl

theorem get_remove_self (m : AMap K V) (k : K) : get (remove m k) k = none := by
  induction m with
  | nil => rfl
  | cons e m ih =>
    obtain ⟨a, v⟩ := e
    unfold remove at ih ⊢
    by_cases h : a = k
    · simp [List.filter_cons, h, ih]
    · simp [List.filter_cons, h, get_cons, ih]

theorem get_remove_ne (m : AMap K V) {k k' : K} (h : k' ≠ k) :
    get (remove m k) k' = get m k' := by
  induction m with
  | nil => rfl
  | cons e m ih =>
    obtain ⟨a, v⟩ := e
    unfold remove at ih ⊢
    by_cases ha : a = k
    · subst ha
      simp [List.filter_cons, get_cons, ih, Ne.symm h]
    · simp [List.filter_cons, ha, get_cons, ih]

theorem get_remove (m : AMap K V) (k k' : K) :
    get (remove m k) k' = if k' = k then none else get m k' := by
  by_cases h : k' = k
  · subst h; simp [get_remove_self]
  · simp [h, get_remove_ne m h]

@[simp] theorem get_insert_self (m : AMap K V) (k : K) (v : V) :
    get (insert m k v) k = some v := by
  simp [insert, get_cons]

theorem get_insert_ne (m : AMap K V) {k k' : K} (v : V) (h : k' ≠ k) :
    get (insert m k v) k' = get m k' := by
  simp [insert, get_cons, Ne.symm h, get_remove_ne m h]

theorem get_insert (m : AMap K V) (k k' : K) (v : V) :
    get (insert m k v) k' = if k' = k then some v else get m k' := by
  by_cases h : k' = k
  · subst h; simp
  · simp [h, get_insert_ne m v h]

theorem mem_remove {m : AMap K V} {k : K} {e : K × V} :
    e ∈ remove m k ↔ e ∈ m ∧ e.1 ≠ k := by
  simp [remove, List.mem_filter]

theorem mem_keys_remove {m : AMap K V} {k k' : K} :
    k' ∈ keys (remove m k) ↔ k' ∈ keys m ∧ k' ≠ k := by
  simp only [keys, List.mem_map, mem_remove]
  constructor
  · rintro ⟨e, ⟨he, hk⟩, rfl⟩; exact ⟨⟨e, he, rfl⟩, hk⟩
  · rintro ⟨⟨e, he, rfl⟩, hk⟩; exact ⟨e, ⟨he, hk⟩, rfl⟩

theorem wf_nil : WF ([] : AMap K V) := List.nodup_nil

theorem wf_remove {m : AMap K V} (h : WF m) (k : K) : WF (remove m k) := by
  unfold WF keys at *
  unfold remove
  induction m with
  | nil => simp
  | cons e m ih =>
    simp only [List.map_cons, List.nodup_cons] at h
    rw [List.filter_cons]
    split
    · simp only [List.map_cons, List.nodup_cons]
      refine ⟨?_, ih h.2⟩
      intro hm
      apply h.1
      simp only [List.mem_map, List.mem_filter] at hm ⊢
      obtain ⟨a, ha, hb⟩ := hm
      exact ⟨a, ha.1, hb⟩
    · exact ih h.2

theorem wf_insert {m : AMap K V} (h : WF m) (k : K) (v : V) : WF (insert m k v) := by
  have h' := wf_remove h k
  unfold WF at *
  unfold insert
  show (k :: keys (remove m k)).Nodup
  rw [List.nodup_cons]
  exact ⟨by simp [mem_keys_remove], h'⟩

theorem get_eq_none_iff {m : AMap K V} {k : K} : get m k = none ↔ k ∉ keys m := by
  induction m with
  | nil => simp [keys]
  | cons e m ih =>
    obtain ⟨a, v⟩ := e
    simp only [get_cons, keys, List.map_cons, List.mem_cons, not_or]
    by_cases h : a = k
    · simp [h]
    · simp only [h, if_false]
      rw [ih]
      simp only [keys]
      constructor
      · intro hh; exact ⟨fun e => h e.symm, hh⟩
      · exact fun hh => hh.2

theorem mem_of_get {m : AMap K V} {k : K} {v : V} (h : get m k = some v) : (k, v) ∈ m := by
  induction m with
  | nil => simp at h
  | cons e m ih =>
    obtain ⟨a, w⟩ := e
    rw [get_cons] at h
    split at h
    · rename_i hk
      subst hk
      simp only [Option.some.injEq] at h
      subst h
      exact List.mem_cons_self
    · exact List.mem_cons_of_mem _ (ih h)

theorem get_of_mem {m : AMap K V} (hw : WF m) {k : K} {v : V} (h : (k, v) ∈ m) :
    get m k = some v := by
  induction m with
  | nil => simp at h
  | cons e m ih =>
    obtain ⟨a, w⟩ := e
    unfold WF keys at hw ih
    simp only [List.map_cons, List.nodup_cons] at hw
    rw [get_cons]
    rcases List.mem_cons.mp h with h | h
    · cases h; simp
    · split
      · rename_i hk
        subst hk
        exact absurd (List.mem_map.mpr ⟨_, h, rfl⟩) hw.1
      · exact ih hw.2 h

theorem mem_iff_get {m : AMap K V} (hw : WF m) {k : K} {v : V} :
    (k, v) ∈ m ↔ get m k = some v :=
  ⟨get_of_mem hw, mem_of_get⟩

theorem length_remove_le (m : AMap K V) (k : K) : (remove m k).length ≤ m.length :=
  List.length_filter_le _ _

theorem remove_of_get_none {m : AMap K V} {k : K} (h : get m k = none) : remove m k = m := by
  rw [get_eq_none_iff] at h
  unfold remove
  rw [List.filter_eq_self]
  intro e he
  simp only [Bool.not_eq_true', decide_eq_false_iff_not]
  intro hk
  exact h (List.mem_map.mpr ⟨e, he, hk⟩)

theorem length_remove_of_get {m : AMap K V} (hw : WF m) {k : K} {v : V}
    (h : get m k = some v) : (remove m k).length + 1 = m.length := by
  induction m with
  | nil => simp at h
  | cons e m ih =>
    obtain ⟨a, w⟩ := e
    have hw' : WF m := by
      unfold WF keys at *
      simp only [List.map_cons, List.nodup_cons] at hw
      exact hw.2
    rw [get_cons] at h
    unfold remove
    rw [List.filter_cons]
    by_cases hk : a = k
    · subst hk
      simp only [decide_true, Bool.not_true, Bool.false_eq_true, if_false, List.length_cons]
      have : get m a = none := by
        rw [get_eq_none_iff]
        unfold WF keys at hw
        simp only [List.map_cons, List.nodup_cons] at hw
        exact hw.1
      have := remove_of_get_none this
      unfold remove at this
      rw [this]
    · simp only [hk, if_false] at h
      have := ih hw' h
      simp only [hk, decide_false, Bool.not_false, if_true, List.length_cons]
      unfold remove at this
      omega

theorem length_insert_of_none {m : AMap K V} {k : K} {v : V}
    (h : get m k = none) : (insert m k v).length = m.length + 1 := by
  simp [insert, remove_of_get_none h]

theorem length_insert_of_some {m : AMap K V} (hw : WF m) {k : K} {v w : V}
    (h : get m k = some w) : (insert m k v).length = m.length := by
  simp only [insert, List.length_cons]
  exact length_remove_of_get hw h

theorem remove_remove (m : AMap K V) (k : K) : remove (remove m k) k = remove m k :=
  remove_of_get_none (get_remove_self m k)

theorem contains_iff {m : AMap K V} {k : K} : contains m k = true ↔ k ∈ keys m := by
  unfold contains
  rw [Option.isSome_iff_ne_none, ne_eq, get_eq_none_iff, Decidable.not_not]

end AMap
end Verif
