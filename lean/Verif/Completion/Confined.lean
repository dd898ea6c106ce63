import Verif.Completion.Props

/-
Which typed texts make file completion look outside its base directory.

The place a path names is found from its text alone: links in the file system are not followed.
-/

namespace Verif.Completion

open Verif

/-- A path cut at its slashes. (Specification: no counterpart in the code.) -/
def segs : List Char → List (List Char)
  | [] => [[]]
  | c :: r => if c = '/' then [] :: segs r else match segs r with
    | [] => [[c]]
    | a :: as => (c :: a) :: as

/-- The steps a path consists of: empty parts and "." say nothing. (Specification: no counterpart in the code.) -/
def steps (s : List Char) : List (List Char) := (segs s).filter (fun x => decide (x ≠ [] ∧ x ≠ ['.']))

/-- Go along the steps: ".." goes up (at the root nowhere), a name down. (Specification: no counterpart in the code.) -/
def walk (at_ : List (List Char)) : List (List Char) → List (List Char)
  | [] => at_
  | c :: cs => walk (if c = ['.', '.'] then at_.dropLast else at_ ++ [c]) cs

/-- The directory `d` is the absolute directory `base` or lies below it. (Specification: no counterpart in the code.) -/
def Inside (base d : List Char) : Prop := walk [] (steps base) <+: walk [] (steps d)

/-- What is offered does not depend on anything outside the base directory: of two file systems that agree there, the
same is offered. (Specification: no counterpart in the code.) -/
def Confined (base : List Char) (exts : Option (List (List Char))) (typed : List Char) : Prop :=
  ∀ readDir readDir' : List Char → Option (List Entry), (∀ d, Inside base d → readDir d = readDir' d) →
    completeFile readDir ⟨some base, exts⟩ typed = completeFile readDir' ⟨some base, exts⟩ typed

/-- The steps to the directory that is meant: all that was typed up to a slash at the end, otherwise all but the last.
(Specification: no counterpart in the code.) -/
def dirSteps (typed : List Char) : List (List Char) :=
  if typed.getLast? = some '/' then steps typed else (steps typed).dropLast

/-- On the way never more steps up than down were taken. (Specification: no counterpart in the code.) -/
def StaysBelow (cs : List (List Char)) : Prop :=
  ∀ pre, pre <+: cs → pre.count ['.', '.'] ≤ pre.countP (fun c => decide (c ≠ ['.', '.']))

/-! ### Cutting paths -/

theorem segs_ne (s : List Char) : segs s ≠ [] := by
  cases s with
  | nil => simp [segs]
  | cons c r =>
    simp only [segs]
    split
    · simp
    · split <;> simp

theorem segs_append (a b : List Char) : segs (a ++ '/' :: b) = segs a ++ segs b := by
  induction a with
  | nil => simp [segs]
  | cons c a ih =>
    simp only [List.cons_append, segs, ih]
    split
    · rfl
    · cases h : segs a with
      | nil => exact absurd h (segs_ne a)
      | cons x xs => rfl

theorem segs_one (a : List Char) (h : '/' ∉ a) : segs a = [a] := by
  induction a with
  | nil => rfl
  | cons c a ih =>
    simp only [List.mem_cons, not_or] at h
    simp [segs, ih h.2, Ne.symm h.1]

theorem steps_append (a b : List Char) : steps (a ++ '/' :: b) = steps a ++ steps b := by
  simp only [steps, segs_append, List.filter_append]

theorem steps_nil : steps [] = [] := by simp [steps, segs]

theorem steps_slash (b : List Char) : steps ('/' :: b) = steps b := by
  have := steps_append [] b
  simpa [steps_nil] using this

theorem steps_dot (b : List Char) : steps ('.' :: '/' :: b) = steps b := by
  have := steps_append ['.'] b
  simpa [steps, segs] using this

theorem steps_ends (a : List Char) : steps (a ++ ['/']) = steps a := by
  have := steps_append a []
  simpa [steps_nil] using this

theorem steps_one (a : List Char) (h : '/' ∉ a) (h1 : a ≠ []) (h2 : a ≠ ['.']) : steps a = [a] := by
  simp [steps, segs_one a h, h1, h2]

theorem steps_void (a : List Char) (h : '/' ∉ a) (h1 : a = [] ∨ a = ['.']) : steps a = [] := by
  rcases h1 with rfl | rfl <;> simp [steps, segs]

/-! ### The functions of `std::path` in steps -/

theorem seg_cases (b : List Char) : ('/' ∉ b ∧ lastSeg b = b ∧ beforeSeg b = []) ∨
    (b = beforeSeg b ++ '/' :: lastSeg b ∧ '/' ∉ lastSeg b) := by
  rcases last_split b '/' with h | ⟨x, p, rfl, hp⟩
  · exact .inl ⟨h, last_none b '/' h⟩
  · have := last_append x p '/' hp
    right
    simp only [lastSeg, beforeSeg, this]
    exact ⟨trivial, hp⟩

theorem beforeSeg_prefix (b : List Char) : beforeSeg b <+: b := by
  rcases seg_cases b with ⟨_, _, h⟩ | ⟨h, _⟩
  · rw [h]; exact List.nil_prefix
  · exact ⟨_, h.symm⟩

theorem trimBack_prefix (b : List Char) : trimBack b <+: b := by
  induction hn : b.length using Nat.strongRecOn generalizing b with
  | _ n ih =>
    unfold trimBack
    split
    · exact List.nil_prefix
    · next h =>
      split
      · exact (ih _ (by rw [← hn]; exact beforeSeg_length b h) (beforeSeg b) rfl).trans (beforeSeg_prefix b)
      · exact List.prefix_refl b

theorem trimBack_steps (b : List Char) : steps (trimBack b) = steps b := by
  induction hn : b.length using Nat.strongRecOn generalizing b with
  | _ n ih =>
    unfold trimBack
    split
    · next h => rw [h]
    · next h =>
      split
      · next hl =>
        rw [ih _ (by rw [← hn]; exact beforeSeg_length b h) (beforeSeg b) rfl]
        rcases seg_cases b with ⟨h1, h2, h3⟩ | ⟨h1, h2⟩
        · rw [h3, steps_nil, steps_void b h1 (by rw [h2] at hl; exact hl)]
        · conv => rhs; rw [h1]
          rw [steps_append, steps_void _ h2 hl, List.append_nil]
      · rfl

theorem trimBack_last (b : List Char) : trimBack b = [] ∨
    (lastSeg (trimBack b) ≠ [] ∧ lastSeg (trimBack b) ≠ ['.']) := by
  induction hn : b.length using Nat.strongRecOn generalizing b with
  | _ n ih =>
    unfold trimBack
    split
    · exact .inl rfl
    · next h =>
      split
      · exact ih _ (by rw [← hn]; exact beforeSeg_length b h) (beforeSeg b) rfl
      · next hl => rw [not_or] at hl; exact .inr hl

theorem steps_beforeSeg (b : List Char) (h : lastSeg b ≠ [] ∧ lastSeg b ≠ ['.']) :
    steps (beforeSeg b) = (steps b).dropLast := by
  rcases seg_cases b with ⟨h1, h2, h3⟩ | ⟨h1, h2⟩
  · rw [h2] at h
    rw [h3, steps_nil, steps_one b h1 h.1 h.2]; rfl
  · conv => rhs; rw [h1]
    rw [steps_append, steps_one _ h2 h.1 h.2, List.dropLast_concat]

theorem steps_lead (s x : List Char) (h : x <+: body s) : steps (lead s ++ x) = steps x := by
  unfold lead
  split
  · exact steps_slash x
  · have : x = [] := by simpa [body, lead] using h
    rw [this]; rfl
  · next r =>
    have hb : body ('.' :: '/' :: r) = '/' :: r := rfl
    rw [hb] at h
    cases x with
    | nil => rfl
    | cons c x =>
      obtain ⟨t, ht⟩ := h
      have : c = '/' := by simpa using congrArg List.head? ht
      subst this
      show steps ('.' :: '/' :: x) = _
      rw [steps_dot, steps_slash]
  · rfl

theorem steps_body (s : List Char) : steps (body s) = steps s := by
  have := steps_lead s (body s) (List.prefix_refl _)
  rw [lead_body] at this
  exact this.symm

theorem parent_steps (s : List Char) : steps ((parent s).getD ['.']) = (steps s).dropLast := by
  have hb := steps_body s
  have ht := trimBack_steps (body s)
  simp only [parent]
  split
  · next h =>
    rw [h, steps_nil] at ht
    rw [← hb, ← ht]
    split <;> rfl
  · next h =>
    have hl := (trimBack_last (body s)).resolve_left h
    rw [Option.getD_some, steps_lead, trimBack_steps, steps_beforeSeg _ hl, ht, hb]
    exact (trimBack_prefix _).trans ((beforeSeg_prefix _).trans (trimBack_prefix _))

theorem split_steps (typed : List Char) : steps (splitTyped typed).1 = dirSteps typed := by
  simp only [splitTyped, dirSteps]
  split
  · rfl
  · exact parent_steps typed

theorem lead_head (s : List Char) : lead s = ['/'] ↔ isAbsolute s = true := by
  unfold lead isAbsolute
  split
  · simp
  · simp
  · simp
  · next h _ _ =>
    constructor
    · intro h'; cases h'
    · intro h'
      cases s with
      | nil => cases h'
      | cons c r =>
        have : c = '/' := by simpa using h'
        subst this
        exact absurd rfl (h r)

theorem trimBack_nil (b : List Char) : trimBack b = [] ↔ steps b = [] := by
  constructor
  · intro h
    rw [← trimBack_steps, h, steps_nil]
  · intro h
    rcases trimBack_last b with h' | h'
    · exact h'
    · exfalso
      rw [← trimBack_steps] at h
      rcases seg_cases (trimBack b) with ⟨h1, h2, _⟩ | ⟨h1, h2⟩
      · rw [h2] at h'
        rw [steps_one _ h1 h'.1 h'.2] at h
        cases h
      · rw [h1, steps_append, steps_one _ h2 h'.1 h'.2] at h
        simp at h

theorem split_absolute (typed : List Char) : isAbsolute (splitTyped typed).1 = true ↔
    isAbsolute typed = true ∧ (steps typed ≠ [] ∨ typed.getLast? = some '/') := by
  simp only [splitTyped]
  split
  · next h => simp [h]
  · next h =>
    simp only [h, or_false, parent]
    split
    · next hb =>
      rw [trimBack_nil, steps_body] at hb
      simp only [hb, ne_eq, not_true_eq_false, and_false, iff_false]
      split <;> simp [isAbsolute]
    · next hb =>
      have hs : steps typed ≠ [] := by rwa [Ne, ← steps_body, ← trimBack_nil]
      simp only [Option.getD_some, hs, ne_eq, not_false_eq_true, and_true]
      rw [← lead_head typed]
      unfold lead
      split
      · simp [isAbsolute]
      · simp [isAbsolute]
      · simp [isAbsolute]
      · next h1 h2 h3 =>
        have hl : lead typed = [] := by
          unfold lead
          split
          · next r => exact absurd rfl (h1 r)
          · exact absurd rfl h2
          · next r => exact absurd rfl (h3 r)
          · rfl
        have hbody : body typed = typed := by simp [body, hl]
        rw [hbody, List.nil_append]
        constructor
        · intro ha
          have hp := (trimBack_prefix (beforeSeg (trimBack typed))).trans
            ((beforeSeg_prefix _).trans (trimBack_prefix typed))
          have : lead typed = ['/'] := by
            rw [lead_head]
            obtain ⟨t, ht⟩ := hp
            rw [← ht]
            cases hx : trimBack (beforeSeg (trimBack typed)) with
            | nil => rw [hx] at ha; cases ha
            | cons c r => rw [hx] at ha; simpa [isAbsolute] using ha
          rw [hl] at this; cases this
        · intro h'; cases h'

/-! ### Walking -/

theorem walk_append (st a b : List (List Char)) : walk st (a ++ b) = walk (walk st a) b := by
  induction a generalizing st with
  | nil => rfl
  | cons c a ih => simp only [List.cons_append, walk, ih]

theorem walk_stays (st0 t cs : List (List Char))
    (h : ∀ pre, pre <+: cs → pre.count ['.', '.'] ≤ t.length + pre.countP (fun c => decide (c ≠ ['.', '.']))) :
    st0 <+: walk (st0 ++ t) cs := by
  induction cs generalizing t with
  | nil => exact List.prefix_append _ _
  | cons c cs ih =>
    simp only [walk]
    split
    · next e =>
      subst e
      have h1 := h [['.', '.']] ⟨cs, rfl⟩
      have ht : t ≠ [] := by
        rintro rfl
        revert h1; decide
      rw [List.dropLast_append_of_ne_nil ht]
      refine ih t.dropLast (fun pre hp => ?_)
      have := h (['.', '.'] :: pre) (by simpa using hp)
      have hl : t.dropLast.length + 1 = t.length := by
        rw [List.length_dropLast]
        have : 0 < t.length := List.length_pos_iff.mpr ht
        omega
      simp only [List.count_cons_self, List.countP_cons] at this
      simp only [ne_eq, not_true_eq_false, decide_false, Bool.false_eq_true, if_false, Nat.add_zero] at this
      simp only [ne_eq]
      omega
    · next e =>
      rw [List.append_assoc]
      refine ih (t ++ [c]) (fun pre hp => ?_)
      have := h (c :: pre) (by simpa using hp)
      rw [List.count_cons_of_ne e, List.countP_cons] at this
      simp only [ne_eq, e, not_false_eq_true, decide_true, if_true] at this
      simp only [List.length_append, List.length_singleton, ne_eq]
      omega

theorem walk_absent (x : List Char) (st cs : List (List Char)) (h1 : x ∉ st) (h2 : x ∉ cs) : x ∉ walk st cs := by
  induction cs generalizing st with
  | nil => exact h1
  | cons c cs ih =>
    simp only [List.mem_cons, not_or] at h2
    refine ih _ ?_ h2.2
    split
    · exact fun hm => h1 (List.dropLast_subset _ hm)
    · simp only [List.mem_append, List.mem_singleton, not_or]
      exact ⟨h1, h2.1⟩

theorem walk_leaves (x : List Char) (t cs : List (List Char)) (h1 : x ∉ t) (h2 : x ∉ cs) (pre : List (List Char))
    (hp : pre <+: cs) (hv : t.length + pre.countP (fun c => decide (c ≠ ['.', '.'])) < pre.count ['.', '.']) :
    x ∉ walk (x :: t) cs := by
  induction cs generalizing t pre with
  | nil =>
    have : pre = [] := by simpa using hp
    subst this
    simp at hv
  | cons c cs ih =>
    simp only [List.mem_cons, not_or] at h2
    cases pre with
    | nil => simp at hv
    | cons c' pre =>
      obtain ⟨rfl, hp'⟩ := List.cons_prefix_cons.mp hp
      simp only [walk]
      split
      · next e =>
        subst e
        rw [List.count_cons_self, List.countP_cons] at hv
        simp only [ne_eq, not_true_eq_false, decide_false, Bool.false_eq_true, if_false, Nat.add_zero] at hv
        cases t with
        | nil => exact walk_absent x _ cs (by simp) h2.2
        | cons a t =>
          rw [List.dropLast_cons_of_ne_nil (by simp)]
          refine ih _ (fun hm => h1 (List.dropLast_subset _ hm)) h2.2 pre hp' ?_
          simp only [List.length_dropLast, List.length_cons] at hv ⊢
          simp only [ne_eq]
          omega
      · next e =>
        rw [List.count_cons_of_ne e, List.countP_cons] at hv
        simp only [ne_eq, e, not_false_eq_true, decide_true, if_true] at hv
        refine ih (t ++ [c']) (by simp only [List.mem_append, List.mem_singleton, not_or]; exact ⟨h1, h2.1⟩) h2.2 pre hp' ?_
        simp only [List.length_append, List.length_singleton, ne_eq]
        omega

/-! ### The directory that is read -/

theorem join_steps (b d : List Char) (hd : isAbsolute d = false) : steps (joinPath b d) = steps b ++ steps d := by
  simp only [joinPath, hd, Bool.false_eq_true, if_false]
  split
  · next h =>
    rcases h with rfl | h
    · simp [steps_nil]
    · obtain ⟨b', rfl⟩ : ∃ b', b = b' ++ ['/'] := by
        rw [List.getLast?_eq_some_iff] at h
        exact h
      rw [List.append_assoc, List.singleton_append, steps_append, steps_ends]
  · exact steps_append b d

/-- What is offered depends on one directory only, and does depend on it. -/
theorem confined_iff (base : List Char) (exts : Option (List (List Char))) (typed : List Char) :
    Confined base exts typed ↔ Inside base (searchDir ⟨some base, exts⟩ (splitTyped typed).1) := by
  constructor
  · intro h
    apply Classical.byContradiction
    intro hn
    let D := searchDir ⟨some base, exts⟩ (splitTyped typed).1
    have := h (fun d => if d = D then some [⟨some (splitTyped typed).2, true⟩] else none) (fun _ => none)
      (fun d hd => if_neg (fun e : d = D => hn (show Inside base D from e ▸ hd)))
    have hl := congrArg List.length this
    have ho : offered ⟨some base, exts⟩ (splitTyped typed).2 ⟨some (splitTyped typed).2, true⟩ = true := by
      rw [offered_iff]
      exact ⟨_, rfl, ⟨[], by simp⟩, .inl rfl⟩
    simp [completeFile, D, ho] at hl
  · intro h r r' hr
    simp only [completeFile]
    rw [hr _ h]

theorem fresh_name (cs : List (List Char)) : ∃ x : List Char, x ∉ cs ∧ '/' ∉ x ∧ x ≠ [] ∧ x ≠ ['.'] ∧ x ≠ ['.', '.'] := by
  refine ⟨List.replicate (cs.flatten.length + 1) 'a', ?_, ?_, ?_, ?_, ?_⟩
  · intro h
    have : (List.replicate (cs.flatten.length + 1) 'a').length ≤ cs.flatten.length :=
      (List.sublist_flatten_of_mem h).length_le
    rw [List.length_replicate] at this
    omega
  · intro h
    have := List.eq_of_mem_replicate h
    revert this; decide
  · simp [List.replicate_succ]
  · intro h
    have := congrArg List.head? h
    simp [List.replicate_succ] at this
  · intro h
    have := congrArg List.head? h
    simp [List.replicate_succ] at this

/-- **C248**, the part that holds: for every base directory, completing a relative text that on its way to the directory
never goes up more often than down offers nothing from outside the base directory. -/
theorem C248_confined_partial (base : List Char) (exts : Option (List (List Char))) (typed : List Char)
    (hr : isAbsolute typed = false) (hs : StaysBelow (dirSteps typed)) : Confined base exts typed := by
  rw [confined_iff]
  have ha : isAbsolute (splitTyped typed).1 = false := by
    rw [← Bool.not_eq_true, split_absolute]
    simp [hr]
  simp only [Inside, searchDir, ha, Bool.false_eq_true, if_false, join_steps _ _ ha, split_steps, walk_append]
  have := walk_stays (walk [] (steps base)) [] (dirSteps typed) (fun pre hp => by simpa using hs pre hp)
  rwa [List.append_nil] at this

/-- **C248**, exactly: completing a text offers nothing from outside the base directory, whatever the base directory, if
and only if the text is relative, or names the root without a slash at its end ("/."), and on its way to the directory
never goes up more often than down. -/
theorem C248_iff (exts : Option (List (List Char))) (typed : List Char) :
    (∀ base, isAbsolute base = true → Confined base exts typed) ↔
      (isAbsolute typed = true → steps typed = [] ∧ typed.getLast? ≠ some '/') ∧ StaysBelow (dirSteps typed) := by
  constructor
  · intro h
    obtain ⟨x, hx1, hx2, hx3, hx4, hx5⟩ := fresh_name (dirSteps typed)
    have hb : steps ('/' :: x) = [x] := by rw [steps_slash, steps_one x hx2 hx3 hx4]
    have hc := (confined_iff _ _ _).mp (h ('/' :: x) (by simp [isAbsolute]))
    have hw : walk [] [x] = [x] := by simp [walk, hx5]
    simp only [Inside, hb, hw] at hc
    have hm : x ∈ walk [] (steps (searchDir ⟨some ('/' :: x), exts⟩ (splitTyped typed).1)) := hc.subset (by simp)
    by_cases ha : isAbsolute (splitTyped typed).1 = true
    · exfalso
      simp only [searchDir, ha, if_true, split_steps] at hm
      exact walk_absent x [] _ (by simp) hx1 hm
    · constructor
      · intro habs
        rw [split_absolute, not_and] at ha
        have := ha habs
        rw [not_or, Classical.not_not] at this
        exact this
      · rw [Bool.not_eq_true] at ha
        simp only [searchDir, ha, Bool.false_eq_true, if_false, join_steps _ _ ha, hb, walk_append, hw, split_steps] at hm
        intro pre hp
        apply Classical.byContradiction
        intro hv
        exact walk_leaves x [] _ (by simp) hx1 pre hp (by simpa using hv) hm
  · rintro ⟨h1, h2⟩ base hbase
    rw [confined_iff]
    have ha : isAbsolute (splitTyped typed).1 = false := by
      rw [← Bool.not_eq_true, split_absolute]
      rintro ⟨h3, h4⟩
      obtain ⟨h5, h6⟩ := h1 h3
      rcases h4 with h4 | h4
      · exact h4 h5
      · exact h6 h4
    simp only [Inside, searchDir, ha, Bool.false_eq_true, if_false, join_steps _ _ ha, split_steps, walk_append]
    have := walk_stays (walk [] (steps base)) [] (dirSteps typed) (fun pre hp => by simpa using h2 pre hp)
    rwa [List.append_nil] at this

/-- **C248** fails: below every base directory but the root, "../" offers what is in the directory above it. -/
theorem C248_parent (base : List Char) (exts : Option (List (List Char))) (hb : walk [] (steps base) ≠ []) :
    ¬ Confined base exts ['.', '.', '/'] ∧
      walk [] (steps (searchDir ⟨some base, exts⟩ (splitTyped ['.', '.', '/']).1)) = (walk [] (steps base)).dropLast := by
  have hs : splitTyped ['.', '.', '/'] = (['.', '.', '/'], []) := rfl
  have hd : walk [] (steps (searchDir ⟨some base, exts⟩ (splitTyped ['.', '.', '/']).1)) = (walk [] (steps base)).dropLast := by
    rw [hs]
    simp only [searchDir, show isAbsolute ['.', '.', '/'] = false from rfl, Bool.false_eq_true, if_false,
      join_steps base ['.', '.', '/'] rfl, walk_append]
    rfl
  refine ⟨?_, hd⟩
  rw [confined_iff, Inside, hd]
  intro hp
  have := hp.length_le
  rw [List.length_dropLast] at this
  have h0 : 0 < (walk [] (steps base)).length := List.length_pos_iff.mpr hb
  omega

/-- **C248** fails: an absolute text that ends with a slash reads the directory it names, so that it is confined only if
that directory happens to lie in the base directory. -/
theorem C248_absolute (base : List Char) (exts : Option (List (List Char))) (t : List Char) :
    Confined base exts ('/' :: t ++ ['/']) ↔ Inside base ('/' :: t) := by
  have hs : splitTyped ('/' :: t ++ ['/']) = ('/' :: t ++ ['/'], []) := by
    simp only [splitTyped]
    rw [if_pos]
    rw [List.getLast?_append]; rfl
  rw [confined_iff, hs]
  show Inside base ('/' :: t ++ ['/']) ↔ _
  rw [Inside, Inside, steps_ends]

/-- "src/../lib/m" stays below, "../x/" does not. -/
example : StaysBelow (dirSteps "src/../lib/m".toList) ∧ ¬ StaysBelow (dirSteps "../x/".toList) := by
  have h1 : dirSteps "src/../lib/m".toList = ["src".toList, ['.', '.'], "lib".toList] := by decide +kernel
  have h2 : dirSteps "../x/".toList = [['.', '.'], ['x']] := by decide +kernel
  rw [h1, h2]
  constructor
  · intro pre hp
    rw [List.prefix_iff_eq_take] at hp
    rw [hp]
    match pre.length with
    | 0 => decide +kernel
    | 1 => decide +kernel
    | 2 => decide +kernel
    | n + 3 => rw [List.take_of_length_le (by simp)]; decide +kernel
  · intro h
    have := h [['.', '.']] ⟨[['x']], rfl⟩
    revert this
    decide +kernel

example : walk [] (steps "/srv/data".toList) ≠ [] := by decide +kernel

end Verif.Completion
