/-
Strings as `List Char`, with the handful of Rust `str` methods used by the modelled code.
-/

namespace Verif.Str

/-- `char::is_whitespace`: the Unicode `White_Space` property. (Library: no counterpart in /repo.) -/
def isWs (c : Char) : Bool :=
  let n := c.toNat
  (9 ≤ n && n ≤ 13) || n == 0x20 || n == 0x85 || n == 0xA0 || n == 0x1680 ||
  (0x2000 ≤ n && n ≤ 0x200A) || n == 0x2028 || n == 0x2029 || n == 0x202F || n == 0x205F ||
  n == 0x3000

/-- `str::trim_start`. (Library: no counterpart in /repo.) -/
def trimStart (s : List Char) : List Char := s.dropWhile isWs

/-- `str::trim_end`. (Library: no counterpart in /repo.) -/
def trimEnd (s : List Char) : List Char := (s.reverse.dropWhile isWs).reverse

/-- `str::trim`. (Library: no counterpart in /repo.) -/
def trim (s : List Char) : List Char := trimEnd (trimStart s)

/-- `str::split(c)`. (Library: no counterpart in /repo.) -/
def splitChar (c : Char) : List Char → List (List Char)
  | [] => [[]]
  | x :: xs =>
    if x = c then [] :: splitChar c xs
    else match splitChar c xs with
      | [] => [[x]]
      | p :: ps => (x :: p) :: ps

/-- `str::split_once(c)`; also the two parts of `splitn(2, c)` when there are two.
(Library: no counterpart in /repo.) -/
def splitOnce (c : Char) : List Char → Option (List Char × List Char)
  | [] => none
  | x :: xs => if x = c then some ([], xs) else (splitOnce c xs).map (fun p => (x :: p.1, p.2))

/-- `str::strip_prefix`. (Library: no counterpart in /repo.) -/
def stripPrefix (p s : List Char) : Option (List Char) :=
  match p, s with
  | [], s => some s
  | _ :: _, [] => none
  | a :: p, b :: s => if a = b then stripPrefix p s else none

/-- `[..].join(sep)` on strings. (Library: no counterpart in /repo.) -/
def join (sep : List Char) : List (List Char) → List Char
  | [] => []
  | [a] => a
  | a :: b :: r => a ++ sep ++ join sep (b :: r)

theorem splitChar_ne_nil (c : Char) (s : List Char) : splitChar c s ≠ [] := by
  cases s with
  | nil => simp [splitChar]
  | cons x xs =>
    unfold splitChar
    split
    · simp
    · split <;> simp

theorem splitChar_of_not_mem {c : Char} {s : List Char} (h : c ∉ s) : splitChar c s = [s] := by
  induction s with
  | nil => rfl
  | cons x xs ih =>
    have hx : x ≠ c := fun e => h (by simp [e])
    have hxs : c ∉ xs := fun e => h (by simp [e])
    simp [splitChar, hx, ih hxs]

theorem splitChar_append {c : Char} {a : List Char} (h : c ∉ a) (b : List Char) :
    splitChar c (a ++ c :: b) = a :: splitChar c b := by
  induction a with
  | nil => simp [splitChar]
  | cons x xs ih =>
    have hx : x ≠ c := fun e => h (by simp [e])
    have hxs : c ∉ xs := fun e => h (by simp [e])
    simp [splitChar, hx, ih hxs]

theorem splitOnce_append {c : Char} {a : List Char} (h : c ∉ a) (b : List Char) :
    splitOnce c (a ++ c :: b) = some (a, b) := by
  induction a with
  | nil => simp [splitOnce]
  | cons x xs ih =>
    have hx : x ≠ c := fun e => h (by simp [e])
    have hxs : c ∉ xs := fun e => h (by simp [e])
    simp [splitOnce, hx, ih hxs]

theorem splitOnce_none {c : Char} {a : List Char} (h : c ∉ a) : splitOnce c a = none := by
  induction a with
  | nil => rfl
  | cons x xs ih =>
    have hx : x ≠ c := fun e => h (by simp [e])
    have hxs : c ∉ xs := fun e => h (by simp [e])
    simp [splitOnce, hx, ih hxs]

/-- `splitOnce` splits at the first occurrence. -/
theorem splitOnce_some {c : Char} {s a b : List Char} (h : splitOnce c s = some (a, b)) :
    s = a ++ c :: b ∧ c ∉ a := by
  induction s generalizing a b with
  | nil => simp [splitOnce] at h
  | cons x xs ih =>
    unfold splitOnce at h
    split at h
    · rename_i hx
      simp at h
      obtain ⟨rfl, rfl⟩ := h
      simp [hx]
    · rename_i hx
      cases hr : splitOnce c xs with
      | none => simp [hr] at h
      | some p =>
        obtain ⟨a', b'⟩ := p
        rw [hr] at h
        simp at h
        obtain ⟨rfl, rfl⟩ := h
        obtain ⟨h1, h2⟩ := ih hr
        refine ⟨by simp [h1], ?_⟩
        simp only [List.mem_cons, not_or]
        exact ⟨fun e => hx e.symm, h2⟩

theorem splitOnce_eq_none {c : Char} {s : List Char} : splitOnce c s = none ↔ c ∉ s := by
  constructor
  · intro h hm
    induction s with
    | nil => simp at hm
    | cons x xs ih =>
      unfold splitOnce at h
      split at h
      · simp at h
      · rename_i hx
        simp at h
        refine ih h ?_
        rcases List.mem_cons.mp hm with e | e
        · exact absurd e.symm hx
        · exact e
  · exact splitOnce_none

theorem stripPrefix_append (p s : List Char) : stripPrefix p (p ++ s) = some s := by
  induction p with
  | nil => simp [stripPrefix]
  | cons a p ih => simp [stripPrefix, ih]

theorem stripPrefix_eq_some {p s t : List Char} : stripPrefix p s = some t ↔ s = p ++ t := by
  constructor
  · intro h
    induction p generalizing s with
    | nil => simp [stripPrefix] at h; simp [h]
    | cons a p ih =>
      cases s with
      | nil => simp [stripPrefix] at h
      | cons b s =>
        unfold stripPrefix at h
        split at h
        · rename_i hab
          rw [ih h, hab]; rfl
        · simp at h
  · rintro rfl; exact stripPrefix_append p t

theorem trimStart_of_head {x : Char} {s : List Char} (h : isWs x = false) :
    trimStart (x :: s) = x :: s := by
  simp [trimStart, h]

theorem trimEnd_of_last {x : Char} {s : List Char} (h : isWs x = false) :
    trimEnd (s ++ [x]) = s ++ [x] := by
  simp [trimEnd, h]

/-- Trimming leaves a string alone when neither end is white space. -/
theorem trim_of_ends {s : List Char} (h1 : ∀ x, s.head? = some x → isWs x = false)
    (h2 : ∀ x, s.getLast? = some x → isWs x = false) : trim s = s := by
  cases s with
  | nil => rfl
  | cons a r =>
    have ha : trimStart (a :: r) = a :: r := trimStart_of_head (h1 a rfl)
    unfold trim
    rw [ha]
    have hne : (a :: r) ≠ [] := by simp
    have hl := h2 ((a :: r).getLast hne) (List.getLast?_eq_some_getLast hne)
    rw [← List.dropLast_concat_getLast hne]
    exact trimEnd_of_last hl

theorem dropWhile_nil_iff {p : Char → Bool} {s : List Char} :
    s.dropWhile p = [] ↔ ∀ x ∈ s, p x = true := by
  induction s with
  | nil => simp
  | cons a s ih =>
    rw [List.dropWhile_cons]
    split
    · rename_i h; simp [ih, h]
    · rename_i h; simp [h]

theorem dropWhile_all_append {p : Char → Bool} (w s : List Char) (h : ∀ x ∈ w, p x = true) :
    (w ++ s).dropWhile p = s.dropWhile p := by
  induction w with
  | nil => rfl
  | cons a w ih =>
    rw [List.cons_append, List.dropWhile_cons, h a List.mem_cons_self]
    simp only [if_true]
    exact ih (fun x hx => h x (List.mem_cons_of_mem _ hx))

/-- White space around a string is removed by trimming. -/
theorem trim_pad (w s w' : List Char) (h : ∀ x ∈ w, isWs x = true) (h' : ∀ x ∈ w', isWs x = true) :
    trim (w ++ s ++ w') = trim s := by
  have hend : ∀ t : List Char, trimEnd (t ++ w') = trimEnd t := by
    intro t
    unfold trimEnd
    rw [List.reverse_append, dropWhile_all_append]
    intro x hx
    exact h' x (List.mem_reverse.mp hx)
  unfold trim
  rw [List.append_assoc]
  have h1 : trimStart (w ++ (s ++ w')) = trimStart (s ++ w') := dropWhile_all_append w _ h
  rw [h1]
  by_cases hs : ∀ x ∈ s, isWs x = true
  · have a1 : trimStart (s ++ w') = [] := by
      unfold trimStart
      rw [dropWhile_nil_iff]
      intro x hx
      rcases List.mem_append.mp hx with hx | hx
      · exact hs x hx
      · exact h' x hx
    have a2 : trimStart s = [] := by
      unfold trimStart; rw [dropWhile_nil_iff]; exact hs
    rw [a1, a2]
  · have : trimStart (s ++ w') = trimStart s ++ w' := by
      unfold trimStart
      clear h1
      induction s with
      | nil => exact absurd (by simp) hs
      | cons a r ih =>
        rw [List.cons_append, List.dropWhile_cons, List.dropWhile_cons]
        split
        · rename_i ha
          refine ih ?_
          intro hr
          refine hs ?_
          intro x hx
          rcases List.mem_cons.mp hx with rfl | hx
          · exact ha
          · exact hr x hx
        · rfl
    rw [this, hend]

theorem splitChar_join {c : Char} (a : List Char) (r : List (List Char))
    (h : ∀ x ∈ a :: r, c ∉ x) : splitChar c (join [c] (a :: r)) = a :: r := by
  induction r generalizing a with
  | nil => simpa [join] using splitChar_of_not_mem (h a (by simp))
  | cons b r ih =>
    have := ih b (fun x hx => h x (List.mem_cons_of_mem _ hx))
    simp only [join, List.append_assoc, List.cons_append, List.nil_append]
    rw [splitChar_append (h a (by simp)), this]

end Verif.Str
