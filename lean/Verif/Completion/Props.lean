import Verif.Completion.Model
import Verif.Common.ListExtra

/-
Properties of completion: C71, C119.
-/

namespace Verif.Completion

open Verif

/-! ### C71: static completion -/

/-- What the user typed begins the value or the label. (Specification: no counterpart in the code.) -/
def Matches (typed : List Char) (i : Item) : Prop :=
  (∃ s, i.value = typed ++ s) ∨ ∃ l s, i.label = some l ∧ l = typed ++ s

theorem strip_isSome (p s : List Char) : (Str.stripPrefix p s).isSome = true ↔ ∃ t, s = p ++ t := by
  rw [Option.isSome_iff_exists]
  constructor
  · rintro ⟨t, h⟩; exact ⟨t, Str.stripPrefix_eq_some.mp h⟩
  · rintro ⟨t, h⟩; exact ⟨t, Str.stripPrefix_eq_some.mpr h⟩

theorem matches_iff (typed : List Char) (i : Item) :
    ((Str.stripPrefix typed i.value).isSome || match i.label with
      | some l => (Str.stripPrefix typed l).isSome
      | none => false) = true ↔ Matches typed i := by
  rw [Bool.or_eq_true, strip_isSome]
  unfold Matches
  cases i.label with
  | none => simp
  | some l => simp only [strip_isSome, Option.some.injEq]; constructor <;> rintro (h | h)
              · exact Or.inl h
              · obtain ⟨t, h⟩ := h; exact Or.inr ⟨l, t, rfl, h⟩
              · exact Or.inl h
              · obtain ⟨l', t, rfl, h⟩ := h; exact Or.inr ⟨t, h⟩

/-- **C71**. Static completion returns, in the configured order, every option whose value or label begins with what
was typed as often as it is configured, and nothing else. -/
theorem C71_static (items : List Item) (typed : List Char) :
    (completeStatic items typed).Sublist items ∧
    (∀ i, Matches typed i → (completeStatic items typed).count i = items.count i) ∧
    (∀ i, i ∈ completeStatic items typed → Matches typed i) := by
  refine ⟨List.filter_sublist, ?_, ?_⟩
  · intro i hi
    exact List.count_filter ((matches_iff typed i).mpr hi)
  · intro i hi
    exact (matches_iff typed i).mp (List.mem_filter.mp hi).2

/-- **C71**. Nothing typed: everything is offered. Typing on only narrows the offers. -/
theorem C71_narrowing (items : List Item) (typed more : List Char) :
    completeStatic items [] = items ∧
    completeStatic (completeStatic items typed) (typed ++ more) = completeStatic items (typed ++ more) := by
  refine ⟨?_, ?_⟩
  · simp [completeStatic, Str.stripPrefix]
  · simp only [completeStatic, List.filter_filter]
    apply List.filter_congr
    intro i _
    rw [Bool.eq_iff_iff, Bool.and_eq_true]
    constructor
    · exact fun h => h.1
    · intro h
      refine ⟨h, (matches_iff typed i).mpr ?_⟩
      rcases (matches_iff (typed ++ more) i).mp h with ⟨s, h⟩ | ⟨l, s, hl, h⟩
      · exact Or.inl ⟨more ++ s, by rw [h, List.append_assoc]⟩
      · exact Or.inr ⟨l, more ++ s, hl, by rw [h, List.append_assoc]⟩

/-- **C71**. A provider made from strings offers exactly the strings that begin with what was typed. -/
theorem C71_strings (values : List (List Char)) (typed v : List Char) :
    (∃ i ∈ completeStatic (fromStrings values) typed, i.value = v) ↔ v ∈ values ∧ ∃ s, v = typed ++ s := by
  constructor
  · rintro ⟨i, hi, rfl⟩
    obtain ⟨h1, h2⟩ := List.mem_filter.mp hi
    obtain ⟨w, hw, rfl⟩ := List.mem_map.mp h1
    refine ⟨hw, ?_⟩
    rcases (matches_iff typed _).mp h2 with h | ⟨l, s, h, -⟩
    · exact h
    · cases h
  · rintro ⟨hv, hs⟩
    exact ⟨⟨v, none, 0⟩, List.mem_filter.mpr ⟨List.mem_map.mpr ⟨v, hv, rfl⟩, (matches_iff typed _).mpr (Or.inl hs)⟩, rfl⟩

/-- red, green, and an option shown as "rose". (Specification: no counterpart in the code.) -/
def colours : List Item := fromStrings ["red".toList, "green".toList] ++ [⟨"#f9c".toList, some "rose".toList, 7⟩]

example : completeStatic colours ['r'] = [⟨"red".toList, none, 0⟩, ⟨"#f9c".toList, some "rose".toList, 7⟩] ∧
    Matches ['r'] ⟨"#f9c".toList, some "rose".toList, 7⟩ := by
  refine ⟨by decide +kernel, Or.inr ⟨_, "ose".toList, rfl, by decide +kernel⟩⟩

/-! ### Paths -/

theorem takeWhile_append_stop (q p : List Char) (c : Char) (h : c ∉ p) :
    (p ++ c :: q).takeWhile (fun x => decide (x ≠ c)) = p ∧ (p ++ c :: q).dropWhile (fun x => decide (x ≠ c)) = c :: q := by
  induction p with
  | nil => simp [List.takeWhile_cons, List.dropWhile_cons]
  | cons a p ih =>
    have ha : a ≠ c := by rintro rfl; exact h (by simp)
    obtain ⟨h1, h2⟩ := ih (fun hc => h (by simp [hc]))
    simp only [List.cons_append, List.takeWhile_cons, List.dropWhile_cons, ha, ne_eq, not_false_eq_true, decide_true, if_true]
    exact ⟨by rw [h1], h2⟩

theorem takeWhile_all_not (p : List Char) (c : Char) (h : c ∉ p) :
    p.takeWhile (fun x => decide (x ≠ c)) = p ∧ p.dropWhile (fun x => decide (x ≠ c)) = [] := by
  induction p with
  | nil => simp
  | cons a p ih =>
    have ha : a ≠ c := by rintro rfl; exact h (by simp)
    obtain ⟨h1, h2⟩ := ih (fun hc => h (by simp [hc]))
    simp only [List.takeWhile_cons, List.dropWhile_cons, ha, ne_eq, not_false_eq_true, decide_true, if_true]
    exact ⟨by rw [h1], h2⟩

theorem last_append (x p : List Char) (c : Char) (h : c ∉ p) :
    afterLast c (x ++ c :: p) = p ∧ beforeLast c (x ++ c :: p) = x := by
  have h' : c ∉ p.reverse := by simpa using h
  have hr : (x ++ c :: p).reverse = p.reverse ++ c :: x.reverse := by simp
  simp only [afterLast, beforeLast, hr, (takeWhile_append_stop x.reverse p.reverse c h').1,
    (takeWhile_append_stop x.reverse p.reverse c h').2]
  simp

theorem last_none (p : List Char) (c : Char) (h : c ∉ p) : afterLast c p = p ∧ beforeLast c p = [] := by
  have h' : c ∉ p.reverse := by simpa using h
  simp only [afterLast, beforeLast, (takeWhile_all_not p.reverse c h').1, (takeWhile_all_not p.reverse c h').2]
  simp

theorem last_split (b : List Char) (c : Char) : c ∉ b ∨ ∃ x p, b = x ++ c :: p ∧ c ∉ p := by
  induction b with
  | nil => left; simp
  | cons a b ih =>
    rcases ih with h | ⟨x, p, rfl, hp⟩
    · by_cases ha : a = c
      · subst ha; exact Or.inr ⟨[], b, rfl, h⟩
      · left; intro hc; rcases List.mem_cons.mp hc with h' | h'
        · exact ha h'.symm
        · exact h h'
    · exact Or.inr ⟨a :: x, p, rfl, hp⟩

/-- A name such as `stem.ext`: what `Path::extension` finds. -/
theorem extension_iff (n x : List Char) :
    extension n = some x ↔ n ≠ ['.', '.'] ∧ ∃ stem, n = stem ++ '.' :: x ∧ '.' ∉ x ∧ stem ≠ [] := by
  simp only [extension]
  split
  · next h => simp [h]
  · next h =>
    rcases last_split n '.' with hn | ⟨s, p, rfl, hp⟩
    · simp only [hn, not_false_eq_true, true_or, if_true]
      constructor
      · intro h; cases h
      · rintro ⟨-, stem, rfl, -, -⟩; simp at hn
    · have := last_append s p '.' hp
      rw [this.1, this.2]
      have hm : ¬ ('.' ∉ s ++ '.' :: p) := by simp
      simp only [hm, false_or]
      constructor
      · intro h'
        split at h'
        · cases h'
        · next hs =>
          simp only [Option.some.injEq] at h'
          subst h'
          exact ⟨h, s, rfl, hp, hs⟩
      · rintro ⟨-, stem, he, hx, hs⟩
        have h2 := last_append stem x '.' hx
        rw [← he] at h2
        have e1 : p = x := this.1.symm.trans h2.1
        have e2 : s = stem := this.2.symm.trans h2.2
        subst e1; subst e2
        rw [if_neg hs]

/-- A directory text that `std::path` leaves as it is: its last part is a name.
(Specification: no counterpart in the code.) -/
def Clean (d : List Char) : Prop :=
  d = [] ∨ d = ['.'] ∨ (lastSeg d ≠ [] ∧ lastSeg d ≠ ['.'])

/-- Something that can be the beginning of a file name. (Specification: no counterpart in the code.) -/
def Proper (p : List Char) : Prop := '/' ∉ p ∧ p ≠ [] ∧ p ≠ ['.'] ∧ p ≠ ['.', '.']

theorem lead_append (d p : List Char) (h : d ≠ []) : lead (d ++ '/' :: p) = lead d := by
  cases d with
  | nil => exact absurd rfl h
  | cons a d =>
    by_cases ha : a = '/'
    · subst ha; rfl
    · by_cases hb : a = '.'
      · subst hb
        cases d with
        | nil => rfl
        | cons b d =>
          by_cases hc : b = '/'
          · subst hc; rfl
          · simp [lead, hc]
      · simp [lead, ha, hb]

theorem lead_length (d : List Char) : (lead d).length ≤ d.length := by
  unfold lead
  split <;> simp

theorem lead_body (d : List Char) : lead d ++ body d = d := by
  unfold body lead
  split <;> rfl

theorem body_append (d p : List Char) (h : d ≠ []) : body (d ++ '/' :: p) = body d ++ '/' :: p := by
  simp only [body, lead_append d p h]
  rw [List.drop_append_of_le_length (lead_length d)]

theorem lastSeg_cons (c : Char) (x : List Char) :
    lastSeg (c :: x) = if '/' ∈ x then lastSeg x else if c = '/' then x else c :: x := by
  rcases last_split x '/' with hx | ⟨y, p, rfl, hp⟩
  · simp only [hx, if_false]
    split
    · next hc => subst hc; exact (last_append [] x '/' hx).1
    · next hc =>
      refine (last_none (c :: x) '/' ?_).1
      intro h; rcases List.mem_cons.mp h with h | h
      · exact hc h.symm
      · exact hx h
  · have : '/' ∈ y ++ '/' :: p := by simp
    rw [if_pos this]
    have h1 := (last_append (c :: y) p '/' hp).1
    have h2 := (last_append y p '/' hp).1
    simp only [lastSeg]
    rw [List.cons_append] at h1
    rw [h1, h2]

theorem lastSeg_body (d : List Char) (h : body d ≠ []) : lastSeg (body d) = lastSeg d := by
  unfold body lead at h ⊢
  split
  · next r =>
    simp only [List.length_cons, List.length_nil, List.drop_succ_cons, List.drop_zero, lastSeg_cons '/' r, if_true]
    split
    · rfl
    · next hr => exact (last_none r '/' hr).1
  · simp at h
  · next r =>
    simp only [List.length_cons, List.length_nil, List.drop_succ_cons, List.drop_zero]
    rw [lastSeg_cons '.' ('/' :: r), if_pos (by simp)]
  · rfl

theorem trimBack_of (b : List Char) (h : b = [] ∨ (lastSeg b ≠ [] ∧ lastSeg b ≠ ['.'])) : trimBack b = b := by
  rw [trimBack]
  split
  · next hb => exact hb.symm
  · next hb =>
    rcases h with h | ⟨h1, h2⟩
    · exact absurd h hb
    · simp [h1, h2]

theorem trimBack_clean (d : List Char) (h : Clean d) : trimBack (body d) = body d := by
  rcases h with rfl | rfl | ⟨h1, h2⟩
  · exact trimBack_of _ (Or.inl rfl)
  · exact trimBack_of _ (Or.inl rfl)
  · by_cases hb : body d = []
    · exact trimBack_of _ (Or.inl hb)
    · exact trimBack_of _ (Or.inr (by rw [lastSeg_body d hb]; exact ⟨h1, h2⟩))

/-- The last component of a path with a proper last part. -/
theorem path_split (d p : List Char) (h1 : '/' ∉ p) (h2 : p ≠ []) (h3 : p ≠ ['.']) :
    let t := d ++ '/' :: p
    trimBack (body t) ≠ [] ∧ lastSeg (trimBack (body t)) = p ∧
      lead t ++ trimBack (beforeSeg (trimBack (body t))) = if d = [] then ['/'] else lead d ++ trimBack (body d) := by
  intro t
  by_cases hd : d = []
  · subst hd
    have hb : body t = p := rfl
    have hl : lead t = ['/'] := rfl
    have hn := last_none p '/' h1
    have ht : trimBack (body t) = p := by
      rw [hb]
      refine trimBack_of p (Or.inr ?_)
      simp only [lastSeg, hn.1]; exact ⟨h2, h3⟩
    rw [ht, hl]
    refine ⟨h2, hn.1, ?_⟩
    simp only [beforeSeg, hn.2, if_true]
    rw [trimBack_of [] (Or.inl rfl)]; rfl
  · have hb : body t = body d ++ '/' :: p := body_append d p hd
    have hl := last_append (body d) p '/' h1
    have ht : trimBack (body t) = body d ++ '/' :: p := by
      rw [hb]
      refine trimBack_of _ (Or.inr ?_)
      simp only [lastSeg, hl.1]; exact ⟨h2, h3⟩
    rw [ht]
    refine ⟨by simp, hl.1, ?_⟩
    simp only [beforeSeg, hl.2, hd, if_false]
    rw [lead_append d p hd]

theorem getLast_append_ne (d p : List Char) (h1 : '/' ∉ p) (h2 : p ≠ []) : (d ++ '/' :: p).getLast? ≠ some '/' := by
  intro h
  have : (d ++ '/' :: p).getLast? = p.getLast? := by
    cases p with
    | nil => exact absurd rfl h2
    | cons a p => rw [List.getLast?_append, List.getLast?_cons_cons]; simp [List.getLast?_cons]
  rw [this] at h
  exact h1 (List.mem_of_getLast? h)

theorem split_proper (d p : List Char) (hd : Clean d) (hp : Proper p) :
    splitTyped (d ++ '/' :: p) = (if d = [] then ['/'] else d, p) := by
  obtain ⟨h1, h2, h3, h4⟩ := hp
  obtain ⟨k1, k2, k3⟩ := path_split d p h1 h2 h3
  simp only [splitTyped, getLast_append_ne d p h1 h2, if_false, parent, fileName, k1, k2, h4, Option.getD_some, k3]
  rw [trimBack_clean d hd, lead_body]

/-! ### C119: file completion -/

/-- The entry may be offered when `pre` was typed: its name begins with `pre`, and a file has one of the
extensions. (Specification: no counterpart in the code.) -/
def Wanted (p : FileProvider) (pre n : List Char) (isDir : Bool) : Prop :=
  (∃ s, n = pre ++ s) ∧
  (isDir = true ∨ p.extensions = none ∨ ∃ exts x stem, p.extensions = some exts ∧ x ∈ exts ∧
    n ≠ ['.', '.'] ∧ n = stem ++ '.' :: x ∧ '.' ∉ x ∧ stem ≠ [])

theorem offered_iff (p : FileProvider) (pre : List Char) (e : Entry) :
    offered p pre e = true ↔ ∃ n, e.name = some n ∧ Wanted p pre n e.isDir := by
  unfold offered Wanted
  cases e.name with
  | none => simp
  | some n =>
    simp only [Bool.and_eq_true, strip_isSome, Bool.or_eq_true, Option.some.injEq, exists_eq_left']
    refine and_congr_right fun _ => or_congr_right ?_
    cases p.extensions with
    | none => simp
    | some exts =>
      simp only [Option.some.injEq, exists_and_left, reduceCtorEq, false_or, exists_eq_left']
      cases hx : extension n with
      | none =>
        simp only [Bool.false_eq_true, false_iff]
        rintro ⟨x, -, h1, stem, h2, h3, h4⟩
        rw [(extension_iff n x).mpr ⟨h1, stem, h2, h3, h4⟩] at hx
        cases hx
      | some x =>
        obtain ⟨h1, stem, h2, h3, h4⟩ := (extension_iff n x).mp hx
        simp only [List.contains_iff_mem]
        constructor
        · intro hm; exact ⟨x, hm, h1, stem, h2, h3, h4⟩
        · rintro ⟨y, hm, k1, t, k2, k3, k4⟩
          have := (extension_iff n y).mpr ⟨k1, t, k2, k3, k4⟩
          rw [hx] at this; cases this; exact hm

theorem bytesLe_trans (a b c : List Nat) (h1 : bytesLe a b = true) (h2 : bytesLe b c = true) : bytesLe a c = true := by
  induction a generalizing b c with
  | nil => simp [bytesLe]
  | cons x a ih =>
    cases b with
    | nil => simp [bytesLe] at h1
    | cons y b =>
      cases c with
      | nil => simp [bytesLe] at h2
      | cons z c =>
        simp only [bytesLe] at h1 h2 ⊢
        split at h1
        · split at h2
          · rw [if_pos (by omega)]
          · split at h2
            · cases h2
            · rw [if_pos (by omega)]
        · split at h1
          · cases h1
          · split at h2
            · rw [if_pos (by omega)]
            · split at h2
              · cases h2
              · rw [if_neg (by omega), if_neg (by omega)]; exact ih _ _ h1 h2

theorem bytesLe_total (a b : List Nat) : (bytesLe a b || bytesLe b a) = true := by
  induction a generalizing b with
  | nil => simp [bytesLe]
  | cons x a ih =>
    cases b with
    | nil => simp [bytesLe]
    | cons y b =>
      simp only [bytesLe]
      split
      · simp
      · split
        · simp
        · simpa using ih b

/-- **C119**. The offers are in the order of their text, whatever the order of the file system. -/
theorem C119_sorted (readDir : List Char → Option (List Entry)) (p : FileProvider) (typed : List Char) :
    (completeFile readDir p typed).Pairwise
      (fun a b => bytesLe (Utf8.encode a.value) (Utf8.encode b.value) = true) := by
  simp only [completeFile]
  exact List.pairwise_mergeSort (le := fun a b : Item => bytesLe (Utf8.encode a.value) (Utf8.encode b.value))
    (fun a b c h1 h2 => bytesLe_trans _ _ _ h1 h2) (fun a b => bytesLe_total _ _) _

theorem mem_complete (readDir : List Char → Option (List Entry)) (p : FileProvider) (typed dir pre : List Char)
    (hs : splitTyped typed = (dir, pre)) (i : Item) :
    i ∈ completeFile readDir p typed ↔
      ∃ es e, readDir (searchDir p dir) = some es ∧ e ∈ es ∧ offered p pre e = true ∧ i = itemOf typed dir e := by
  simp only [completeFile, hs, List.mem_mergeSort, List.mem_map, List.mem_filter]
  cases hr : readDir (searchDir p dir) with
  | none => simp
  | some es =>
    simp only [Option.getD_some, Option.some.injEq, exists_and_left, exists_eq_left']
    constructor
    · rintro ⟨e, ⟨h1, h2⟩, h3⟩; exact ⟨e, h1, h2, h3.symm⟩
    · rintro ⟨e, h1, h2, h3⟩; exact ⟨e, ⟨h1, h2⟩, h3.symm⟩

/-- The file system never names an entry with a slash. (Specification: no counterpart in the code.) -/
def Names (readDir : List Char → Option (List Entry)) : Prop :=
  ∀ d es, readDir d = some es → ∀ e ∈ es, ∀ n, e.name = some n → '/' ∉ n

theorem not_absolute {n : List Char} (h : '/' ∉ n) : isAbsolute n = false := by
  cases n with
  | nil => rfl
  | cons a n =>
    have : a ≠ '/' := by rintro rfl; exact h (by simp)
    simp [isAbsolute, this]

theorem clean_last (d : List Char) (h : Clean d) (hd : d ≠ []) : d.getLast? ≠ some '/' := by
  rcases h with rfl | rfl | ⟨h1, -⟩
  · exact absurd rfl hd
  · decide
  · intro h
    obtain ⟨x, rfl⟩ : ∃ x, d = x ++ ['/'] := List.getLast?_eq_some_iff.mp h
    exact h1 (last_append x [] '/' (by simp)).1

/-- The directory meant by `d`: itself if it begins with a slash, otherwise `d` under the base directory.
(Specification: no counterpart in the code.) -/
def place (base : Option (List Char)) (d : List Char) : List Char :=
  match d, base with
  | '/' :: t, _ => '/' :: t
  | d, none => d
  | d, some b => if b = [] ∨ b.getLast? = some '/' then b ++ d else b ++ '/' :: d

theorem searchDir_eq (p : FileProvider) (d : List Char) : searchDir p d = place p.base d := by
  have key : ∀ c t, c ≠ '/' → isAbsolute (c :: t) = false := by intro c t h; simp [isAbsolute, h]
  cases d with
  | nil => cases h : p.base <;> simp [searchDir, place, isAbsolute, joinPath, h]
  | cons c t =>
    by_cases hc : c = '/'
    · subst hc; rfl
    · cases h : p.base <;> simp [searchDir, place, joinPath, h, key c t hc, hc]

/-- **C119**. Every offer is labelled with the name of an entry of one directory that was read, and described as a
directory (1) exactly if it is one, otherwise as a file (2). -/
theorem C119_labels (readDir : List Char → Option (List Entry)) (p : FileProvider) (typed : List Char) :
    ∃ d, ∀ i ∈ completeFile readDir p typed, ∃ es e n, readDir d = some es ∧ e ∈ es ∧ e.name = some n ∧
      i.label = some n ∧ i.rest = (match e.isDir with | true => 1 | false => 2) := by
  refine ⟨searchDir p (splitTyped typed).1, fun i hi => ?_⟩
  obtain ⟨es, e, h1, h2, h3, rfl⟩ := (mem_complete readDir p typed _ _ rfl i).mp hi
  obtain ⟨n, h4, -⟩ := (offered_iff p _ e).mp h3
  refine ⟨es, e, n, h1, h2, h4, by simp [itemOf, h4], ?_⟩
  cases hd : e.isDir <;> simp [itemOf, hd]

/-- **C119**. Before anything is typed, the entries of the directory "." are offered, by their names alone. -/
theorem C119_nothing_typed (readDir : List Char → Option (List Entry)) (p : FileProvider) (v : List Char) :
    (∃ i ∈ completeFile readDir p [], i.value = v) ↔
      ∃ es e, readDir (place p.base ['.']) = some es ∧ e ∈ es ∧ e.name = some v ∧ Wanted p [] v e.isDir := by
  have hb : trimBack (body []) = [] := by rw [trimBack]; simp [body, lead]
  have hs : splitTyped [] = (['.'], []) := by simp [splitTyped, parent, fileName, hb, lead]
  rw [← searchDir_eq]
  constructor
  · rintro ⟨i, hi, rfl⟩
    obtain ⟨es, e, h1, h2, h3, rfl⟩ := (mem_complete readDir p _ _ _ hs i).mp hi
    obtain ⟨n, h4, h5⟩ := (offered_iff p [] e).mp h3
    exact ⟨es, e, h1, h2, by simp [itemOf, h4], by simpa [itemOf, h4] using h5⟩
  · rintro ⟨es, e, h1, h2, h4, h5⟩
    exact ⟨_, (mem_complete readDir p _ _ _ hs _).mpr ⟨es, e, h1, h2, (offered_iff p [] e).mpr ⟨v, h4, h5⟩, rfl⟩,
      by simp [itemOf, h4]⟩

/-- **C119** fails for ".": the directory "" is read instead of ".", so without a base directory nothing is
offered. -/
theorem C119_single_dot (readDir : List Char → Option (List Entry)) (hr : readDir [] = none)
    (exts : Option (List (List Char))) : completeFile readDir ⟨none, exts⟩ ['.'] = [] := by
  have hb : trimBack (body ['.']) = [] := by rw [trimBack]; simp [body, lead]
  have hs : splitTyped ['.'] = ([], []) := by simp [splitTyped, parent, fileName, hb, lead]
  have hd : searchDir ⟨none, exts⟩ [] = [] := rfl
  simp [completeFile, hs, hd, hr]

/-- **C119**. After `d/p` was typed (`d` ending in a name, `p` beginning one): exactly the wanted entries of
`d`, each as `d/name`; so every offer extends what was typed. Missing from the property: other texts
(`C119_dot`, `C119_dotdot`, `C119_bare`). -/
theorem C119_exact_partial (readDir : List Char → Option (List Entry)) (hn : Names readDir) (p : FileProvider)
    (d pre : List Char) (hd : Clean d) (hp : Proper pre) (v : List Char) :
    (∃ i ∈ completeFile readDir p (d ++ '/' :: pre), i.value = v) ↔
      ∃ es e n, readDir (place p.base (if d = [] then ['/'] else d)) = some es ∧ e ∈ es ∧ e.name = some n ∧
        Wanted p pre n e.isDir ∧ v = d ++ '/' :: n := by
  rw [← searchDir_eq]
  have hs := split_proper d pre hd hp
  have key : ∀ n, '/' ∉ n → joinPath (if d = [] then ['/'] else d) n = d ++ '/' :: n := by
    intro n hn
    simp only [joinPath, not_absolute hn, Bool.false_eq_true, if_false]
    split
    · next h => subst h; simp
    · next h => rw [if_neg]; simp [h, clean_last d hd h]
  have hval : ∀ e : Entry, ∀ n, e.name = some n → '/' ∉ n →
      (itemOf (d ++ '/' :: pre) (if d = [] then ['/'] else d) e).value = d ++ '/' :: n := by
    intro e n he hn
    have : d ++ '/' :: pre ≠ [] := by simp
    simp only [itemOf, this, if_false, he, Option.getD_some]
    exact key n hn
  constructor
  · rintro ⟨i, hi, rfl⟩
    obtain ⟨es, e, h1, h2, h3, rfl⟩ := (mem_complete readDir p _ _ _ hs i).mp hi
    obtain ⟨n, h4, h5⟩ := (offered_iff p pre e).mp h3
    exact ⟨es, e, n, h1, h2, h4, h5, hval e n h4 (hn _ _ h1 _ h2 _ h4)⟩
  · rintro ⟨es, e, n, h1, h2, h4, h5, rfl⟩
    exact ⟨_, (mem_complete readDir p _ _ _ hs _).mpr ⟨es, e, h1, h2, (offered_iff p pre e).mpr ⟨n, h4, h5⟩, rfl⟩,
      hval e n h4 (hn _ _ h1 _ h2 _ h4)⟩

/-- **C119**. After a directory and a slash were typed: all its wanted entries, appended to what was typed. -/
theorem C119_directory (readDir : List Char → Option (List Entry)) (hn : Names readDir) (p : FileProvider)
    (d : List Char) (v : List Char) :
    (∃ i ∈ completeFile readDir p (d ++ ['/']), i.value = v) ↔
      ∃ es e n, readDir (place p.base (d ++ ['/'])) = some es ∧ e ∈ es ∧ e.name = some n ∧
        Wanted p [] n e.isDir ∧ v = d ++ '/' :: n := by
  rw [← searchDir_eq]
  have hs : splitTyped (d ++ ['/']) = (d ++ ['/'], []) := by simp [splitTyped]
  have hval : ∀ e : Entry, ∀ n, e.name = some n → '/' ∉ n → (itemOf (d ++ ['/']) (d ++ ['/']) e).value = d ++ '/' :: n := by
    intro e n he hn
    simp [itemOf, he, joinPath, not_absolute hn]
  constructor
  · rintro ⟨i, hi, rfl⟩
    obtain ⟨es, e, h1, h2, h3, rfl⟩ := (mem_complete readDir p _ _ _ hs i).mp hi
    obtain ⟨n, h4, h5⟩ := (offered_iff p [] e).mp h3
    exact ⟨es, e, n, h1, h2, h4, h5, hval e n h4 (hn _ _ h1 _ h2 _ h4)⟩
  · rintro ⟨es, e, n, h1, h2, h4, h5, rfl⟩
    exact ⟨_, (mem_complete readDir p _ _ _ hs _).mpr ⟨es, e, h1, h2, (offered_iff p [] e).mpr ⟨n, h4, h5⟩, rfl⟩,
      hval e n h4 (hn _ _ h1 _ h2 _ h4)⟩

/-- **C119** fails: hidden files cannot be completed. After `d/.` the offers are those for `d` itself. -/
theorem C119_dot (readDir : List Char → Option (List Entry)) (p : FileProvider) (d : List Char) (hd : d ≠ [])
    (hl : d.getLast? ≠ some '/') : completeFile readDir p (d ++ ['/', '.']) = completeFile readDir p d := by
  have hb : body (d ++ ['/', '.']) = body d ++ ['/', '.'] := body_append d ['.'] hd
  have hle : lead (d ++ ['/', '.']) = lead d := lead_append d ['.'] hd
  have ht : trimBack (body (d ++ ['/', '.'])) = trimBack (body d) := by
    rw [hb, trimBack]
    have := last_append (body d) ['.'] '/' (by decide)
    simp only [lastSeg, beforeSeg, this.1, this.2]
    simp
  have hs : splitTyped (d ++ ['/', '.']) = splitTyped d := by
    have h1 : (d ++ ['/', '.']).getLast? ≠ some '/' := getLast_append_ne d ['.'] (by decide) (by simp)
    simp only [splitTyped, h1, hl, if_false, parent, fileName, ht, hle]
  simp only [completeFile, hs]
  have : ∀ dir, itemOf (d ++ ['/', '.']) dir = itemOf d dir := by
    intro dir; funext e
    simp [itemOf, hd]
  simp only [this]

/-- **C119** fails: after `d/..` the entries of `d` are offered, not those of the directory above. -/
theorem C119_dotdot (d : List Char) (hd : Clean d) (h0 : d ≠ []) : splitTyped (d ++ ['/', '.', '.']) = (d, []) := by
  obtain ⟨k1, k2, k3⟩ := path_split d ['.', '.'] (by decide) (by simp) (by decide)
  simp only [splitTyped, getLast_append_ne d ['.', '.'] (by decide) (by simp), if_false, parent, fileName, k1, k2,
    if_true, Option.getD_some, Option.getD_none, k3, h0]
  rw [trimBack_clean d hd, lead_body]

/-- **C119** fails: without a base directory the beginning of a name in the current directory completes to nothing,
because the directory "" cannot be read. -/
theorem C119_bare (readDir : List Char → Option (List Entry)) (hr : readDir [] = none) (exts : Option (List (List Char)))
    (pre : List Char) (hp : Proper pre) : completeFile readDir ⟨none, exts⟩ pre = [] := by
  obtain ⟨h1, h2, h3, h4⟩ := hp
  have hl : lead pre = [] := by
    unfold lead
    split
    · simp at h1
    · exact absurd rfl h3
    · simp at h1
    · rfl
  have hb : body pre = pre := by simp [body, hl]
  have hn := last_none pre '/' h1
  have ht : trimBack pre = pre := trimBack_of _ (Or.inr (by simp only [lastSeg, hn.1]; exact ⟨h2, h3⟩))
  have hg : pre.getLast? ≠ some '/' := fun h => h1 (List.mem_of_getLast? h)
  have hs : splitTyped pre = ([], pre) := by
    simp only [splitTyped, hg, if_false, parent, fileName, hb, ht, h2, hl, List.nil_append, beforeSeg, hn.2, lastSeg,
      hn.1, h4, Option.getD_some]
    rw [trimBack_of [] (Or.inl rfl)]
  simp only [completeFile, hs]
  have : searchDir ⟨none, exts⟩ [] = [] := rfl
  rw [this, hr]
  simp

/-- Below "/" nothing is known, and the directory "" cannot be read. -/
example : completeFile (fun d => if d = ['/'] then some [] else none) ⟨none, none⟩ ['.'] = [] ∧
    completeFile (fun d => if d = ['/'] then some [] else none) ⟨none, none⟩ ['m', 'a'] = [] :=
  ⟨C119_single_dot _ rfl none, C119_bare _ rfl none _ ⟨by decide, by decide, by decide, by decide⟩⟩

example (readDir : List Char → Option (List Entry)) (p : FileProvider) :
    completeFile readDir p ['s', 'r', 'c', '/', '.'] = completeFile readDir p ['s', 'r', 'c'] ∧
      splitTyped ['/', 'w', '/', '.', '.'] = (['/', 'w'], []) :=
  ⟨C119_dot readDir p ['s', 'r', 'c'] (by decide) (by decide), C119_dotdot ['/', 'w'] (Or.inr (Or.inr (by decide))) (by decide)⟩

/-- **C119**. The base directory does not confine: an absolute text is completed as if there were no base. -/
theorem C119_escapes (readDir : List Char → Option (List Entry)) (b : List Char) (exts : Option (List (List Char)))
    (t : List Char) : completeFile readDir ⟨some b, exts⟩ ('/' :: t ++ ['/']) = completeFile readDir ⟨none, exts⟩ ('/' :: t ++ ['/']) := by
  have hs : splitTyped ('/' :: t ++ ['/']) = ('/' :: t ++ ['/'], []) := by
    simp only [splitTyped]
    rw [if_pos]
    rw [List.getLast?_append]; rfl
  have ho : ∀ pre, offered ⟨some b, exts⟩ pre = offered ⟨none, exts⟩ pre := fun pre => rfl
  have hd : searchDir ⟨some b, exts⟩ ('/' :: t ++ ['/']) = searchDir ⟨none, exts⟩ ('/' :: t ++ ['/']) := rfl
  simp only [completeFile, hs, hd, ho]

/-- A directory "/w" with the files "a.rs", ".b" and the directory "ab". -/
def disk (d : List Char) : Option (List Entry) :=
  if d = ['/', 'w'] ∨ d = ['/', 'w', '/'] then
    some [⟨some ['a', 'b'], true⟩, ⟨some ['.', 'b'], false⟩, ⟨some ['a', '.', 'r', 's'], false⟩, ⟨none, false⟩]
  else none

example : Names disk ∧ Clean ['/', 'w'] ∧ Proper ['a'] ∧ disk [] = none ∧
    ∃ i ∈ completeFile disk ⟨none, some [['r', 's']]⟩ (['/', 'w'] ++ '/' :: ['a']),
      i.value = ['/', 'w'] ++ '/' :: ['a', '.', 'r', 's'] := by
  have hn : Names disk := by
    intro d es h e he n hn
    unfold disk at h
    split at h
    · cases h
      simp at he
      rcases he with rfl | rfl | rfl | rfl <;> simp at hn <;> subst hn <;> decide
    · cases h
  have hc : Clean ['/', 'w'] := Or.inr (Or.inr (by decide))
  have hp : Proper ['a'] := ⟨by decide, by decide, by decide, by decide⟩
  refine ⟨hn, hc, hp, by decide, (C119_exact_partial disk hn _ _ _ hc hp _).mpr ?_⟩
  refine ⟨_, ⟨some ['a', '.', 'r', 's'], false⟩, _, rfl, by decide, rfl, ⟨⟨['.', 'r', 's'], rfl⟩, Or.inr (Or.inr ?_)⟩, rfl⟩
  exact ⟨_, ['r', 's'], ['a'], rfl, by decide, by decide, rfl, by decide, by decide⟩

/-- The directory "." with one file, for `C119_labels` and `C119_nothing_typed`.
(Specification: no counterpart in the code.) -/
def here (d : List Char) : Option (List Entry) := if d = ['.'] then some [⟨some ['a'], false⟩] else none

example : here [] = none ∧ ∃ i ∈ completeFile here ⟨none, none⟩ [], i.value = ['a'] :=
  ⟨rfl, (C119_nothing_typed here _ _).mpr ⟨_, ⟨some ['a'], false⟩, rfl, by simp, rfl, ⟨['a'], rfl⟩, Or.inr (Or.inl rfl)⟩⟩

example : place (some ['/', 'w']) ['d'] = ['/', 'w', '/', 'd'] ∧ place (some ['/', 'w']) ['/', 'd'] = ['/', 'd'] := by decide

end Verif.Completion
