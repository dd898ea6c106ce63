import Verif.UriTemplate.Props

/-
C69: exactly which URIs match a template.
-/

namespace Verif.UriTemplate

open Verif Verif.Str

/-- Specification: the characters that the value of a variable never contains, by operator. -/
def forbidden : Operator → List Char
  | .simple => ['/']
  | .reserved => ['/']
  | .fragment => ['\n']
  | .label => ['.']
  | .pathSegment => ['/']
  | .pathParameter => [';', '&']
  | .query => ['&']
  | .queryContinuation => ['&']

/-- The values fit the groups of a pattern. (Specification: no counterpart in the code.) -/
def Fits : List Item → List (List Char) → Prop
  | [], g => g = []
  | .fixed _ :: r, g => Fits r g
  | .group k :: r, a :: g => a ≠ [] ∧ (∀ c ∈ a, k c = true) ∧ Fits r g
  | .group _ :: _, [] => False

theorem tryDown_finds {α : Type} (f : Nat → Option α) (n k : Nat) (h0 : 0 < k) (hk : k ≤ n) (h : (f k).isSome) :
    (tryDown f n).isSome := by
  induction n with
  | zero => omega
  | succ n ih =>
    simp only [tryDown]
    cases hf : f (n + 1) with
    | some a => rfl
    | none =>
      have : k ≠ n + 1 := by rintro rfl; rw [hf] at h; cases h
      exact ih (by omega)

theorem mem_takeWhile {k : Char → Bool} {l : List Char} {c : Char} (h : c ∈ l.takeWhile k) : k c = true := by
  induction l with
  | nil => simp at h
  | cons x l ih =>
    rw [List.takeWhile_cons] at h
    split at h
    · rcases List.mem_cons.mp h with rfl | h
      · assumption
      · exact ih h
    · simp at h

theorem takeWhile_all (k : Char → Bool) (a b : List Char) (h : ∀ c ∈ a, k c = true) :
    a.length ≤ ((a ++ b).takeWhile k).length := by
  induction a with
  | nil => simp
  | cons c a ih =>
    rw [List.cons_append, List.takeWhile_cons, if_pos (h c (by simp))]
    simp only [List.length_cons]
    have := ih (fun x hx => h x (by simp [hx]))
    omega

theorem captures_complete (r : List Item) (g : List (List Char)) (h : Fits r g) : (captures r (fillItems r g)).isSome := by
  induction r generalizing g with
  | nil => simp only [Fits] at h; subst h; rfl
  | cons i r ih =>
    cases i with
    | fixed t =>
      simp only [fillItems, captures]
      rw [stripPrefix_append]
      exact ih g h
    | group k =>
      cases g with
      | nil => exact absurd h id
      | cons a g =>
        obtain ⟨h1, h2, h3⟩ := h
        simp only [fillItems, captures]
        refine tryDown_finds _ _ a.length ?_ (takeWhile_all k a _ h2) ?_
        · cases a with
          | nil => exact absurd rfl h1
          | cons c a => simp
        · rw [List.drop_left', List.take_left']
          have := ih g h3
          cases hc : captures r (fillItems r g) with
          | none => rw [hc] at this; cases this
          | some x => rfl
          · rfl
          · rfl

theorem captures_fits (r : List Item) (s : List Char) (g : List (List Char)) (h : captures r s = some g) :
    Fits r g ∧ s = fillItems r g := by
  induction r generalizing s g with
  | nil =>
    simp only [captures] at h
    split at h
    · next he => simp at h; subst h; exact ⟨rfl, List.isEmpty_iff.mp he⟩
    · cases h
  | cons i r ih =>
    cases i with
    | fixed t =>
      simp only [captures] at h
      cases hp : stripPrefix t s with
      | none => rw [hp] at h; simp at h
      | some s' =>
        rw [hp] at h
        obtain ⟨h1, h2⟩ := ih s' g h
        exact ⟨h1, by rw [stripPrefix_eq_some.mp hp, fillItems, ← h2]⟩
    | group k =>
      simp only [captures] at h
      obtain ⟨n, hn1, hn2, hn⟩ := tryDown_some _ _ _ h
      cases hc : captures r (s.drop n) with
      | none => rw [hc] at hn; simp at hn
      | some g' =>
        rw [hc] at hn
        simp at hn; subst hn
        obtain ⟨h1, h2⟩ := ih _ _ hc
        refine ⟨⟨?_, ?_, h1⟩, by rw [fillItems, ← h2, List.take_append_drop]⟩
        · intro he
          have hl := takeWhile_le k s
          have := congrArg List.length he
          simp only [List.length_take, List.length_nil] at this
          omega
        · intro c hc
          have hsub : s.take n <+: s.takeWhile k := by
            have h1 : s.take n <+: s := List.take_prefix _ _
            have h2 : s.takeWhile k <+: s := List.takeWhile_prefix _
            exact List.prefix_of_prefix_length_le h1 h2 (by
              rw [List.length_take]; omega)
          exact mem_takeWhile (hsub.subset hc)

/-- Every variable has a value that is not empty and free of the characters its operator forbids.
(Specification: no counterpart in the code.) -/
def Allowed (t : List Expression) (m : AMap (List Char) (List Char)) : Prop :=
  ∀ op s, .multiple op [s] ∈ t → ∃ v, AMap.get m s.name = some v ∧ v ≠ [] ∧ ∀ c ∈ v, c ∉ forbidden op

theorem singleItems_class (op : Operator) (name : List Char) :
    ∃ pre k, singleItems op name = pre ++ [.group k] ∧ (∀ i ∈ pre, ∃ t, i = .fixed t) ∧
      (∀ c, k c = true ↔ c ∉ forbidden op) ∧
      ∀ r a g, fillItems (singleItems op name ++ r) (a :: g) =
        opPrefix op ++ (if named op then name ++ ['='] else []) ++ a ++ fillItems r g := by
  cases op
  case simple => exact ⟨[], _, rfl, by simp, by simp [forbidden], by simp [fillItems, opPrefix, named, singleItems]⟩
  case reserved => exact ⟨[], _, rfl, by simp, by simp [forbidden], by simp [fillItems, opPrefix, named, singleItems]⟩
  case fragment => exact ⟨[_], _, rfl, by simp, by simp [forbidden], by simp [fillItems, opPrefix, named, singleItems]⟩
  case label => exact ⟨[_], _, rfl, by simp, by simp [forbidden], by simp [fillItems, opPrefix, named, singleItems]⟩
  case pathSegment => exact ⟨[_], _, rfl, by simp, by simp [forbidden], by simp [fillItems, opPrefix, named, singleItems]⟩
  case pathParameter => exact ⟨[_], _, rfl, by simp, by simp [forbidden], by simp [fillItems, opPrefix, named, singleItems]⟩
  case query => exact ⟨[_], _, rfl, by simp, by simp [forbidden], by simp [fillItems, opPrefix, named, singleItems]⟩
  case queryContinuation => exact ⟨[_], _, rfl, by simp, by simp [forbidden], by simp [fillItems, opPrefix, named, singleItems]⟩

theorem fits_fixed (pre : List Item) (h : ∀ i ∈ pre, ∃ t, i = .fixed t) (r : List Item) (g : List (List Char)) :
    Fits (pre ++ r) g ↔ Fits r g := by
  induction pre with
  | nil => rfl
  | cons i pre ih =>
    obtain ⟨t, rfl⟩ := h i (by simp)
    exact ih (fun j hj => h j (by simp [hj]))

theorem fits_iff (t : List Expression) (h : OneEach t) (hd : (variables t).Nodup) (g : List (List Char))
    (m0 : AMap (List Char) (List Char)) (hg : Fits (pattern t) g) :
    Allowed t (bind g t m0) ∧ fillItems (pattern t) g = t.flatMap (fill (bind g t m0)) := by
  induction t generalizing g m0 with
  | nil => exact ⟨by intro op s h; simp at h, rfl⟩
  | cons e t ih =>
    cases e with
    | literal y =>
      have hv : variables (.literal y :: t) = variables t := by simp [variables]
      rw [hv] at hd
      have hp : pattern (.literal y :: t) = .fixed y :: pattern t := rfl
      rw [hp] at hg ⊢
      obtain ⟨i1, i2⟩ := ih h hd g m0 hg
      simp only [fillItems, bind, varName, List.flatMap_cons, fill]
      refine ⟨?_, by rw [i2]⟩
      intro op s hs
      exact i1 op s (by simpa using hs)
    | multiple op specs =>
      match specs, h with
      | [s], h =>
        have hv : variables (.multiple op [s] :: t) = s.name :: variables t := by simp [variables]
        rw [hv] at hd
        have hd' := List.nodup_cons.mp hd
        have hp : pattern (.multiple op [s] :: t) = singleItems op s.name ++ pattern t := rfl
        obtain ⟨pre, k, hk, hpre, hclass, hfill⟩ := singleItems_class op s.name
        have hg' := hg
        rw [hp, hk, List.append_assoc, fits_fixed pre hpre] at hg'
        cases g with
        | nil => exact absurd hg' id
        | cons a g =>
          obtain ⟨g1, g2, g3⟩ := hg'
          obtain ⟨i1, i2⟩ := ih h hd'.2 g (AMap.insert m0 s.name a) g3
          have hget : AMap.get (bind g t (AMap.insert m0 s.name a)) s.name = some a := by
            rw [bind_other t h g _ _ hd'.1, AMap.get_insert_self]
          constructor
          · intro op' s' hs
            simp only [bind, varName]
            rcases List.mem_cons.mp hs with hs | hs
            · simp only [Expression.multiple.injEq, List.cons.injEq, and_true] at hs
              obtain ⟨rfl, rfl⟩ := hs
              exact ⟨a, hget, g1, fun c hc => (hclass c).mp (g2 c hc)⟩
            · exact i1 op' s' hs
          · rw [hp, hfill, i2]
            simp [bind, varName, fill, hget]

theorem allowed_fits (t : List Expression) (h : OneEach t) (m : AMap (List Char) (List Char)) (ha : Allowed t m) :
    ∃ g, Fits (pattern t) g ∧ fillItems (pattern t) g = t.flatMap (fill m) := by
  induction t with
  | nil => exact ⟨[], rfl, rfl⟩
  | cons e t ih =>
    have ha' : Allowed t m := fun op s hs => ha op s (List.mem_cons_of_mem _ hs)
    cases e with
    | literal y =>
      obtain ⟨g, g1, g2⟩ := ih h ha'
      exact ⟨g, g1, by
        show y ++ fillItems (pattern t) g = _
        rw [g2]; rfl⟩
    | multiple op specs =>
      match specs, h with
      | [s], h =>
        obtain ⟨g, g1, g2⟩ := ih h ha'
        obtain ⟨v, v1, v2, v3⟩ := ha op s (List.mem_cons_self)
        have hp : pattern (.multiple op [s] :: t) = singleItems op s.name ++ pattern t := rfl
        obtain ⟨pre, k, hk, hpre, hclass, hfill⟩ := singleItems_class op s.name
        refine ⟨v :: g, ?_, ?_⟩
        · rw [hp, hk, List.append_assoc, fits_fixed pre hpre]
          exact ⟨v2, fun c hc => (hclass c).mpr (v3 c hc), g1⟩
        · rw [hp, hfill, g2]
          simp [fill, v1]

/-- **C69** (which URIs match). A URI matches a template with one variable per expression and distinct variables
iff it is the template with non-empty values put in that avoid the characters forbidden for their operator. -/
theorem C69_matches_iff (t : List Expression) (h : OneEach t) (hd : (variables t).Nodup) (u : List Char) :
    (∃ m, matchUri t u = some m) ↔ ∃ m, Allowed t m ∧ u = t.flatMap (fill m) := by
  constructor
  · rintro ⟨m, hm⟩
    simp only [matchUri, Option.map_eq_some_iff] at hm
    obtain ⟨g, hg, rfl⟩ := hm
    obtain ⟨h1, h2⟩ := captures_fits _ _ _ hg
    obtain ⟨i1, i2⟩ := fits_iff t h hd g [] h1
    exact ⟨_, i1, h2.trans i2⟩
  · rintro ⟨m, ha, rfl⟩
    obtain ⟨g, g1, g2⟩ := allowed_fits t h m ha
    have := captures_complete _ _ g1
    rw [g2] at this
    obtain ⟨x, hx⟩ := Option.isSome_iff_exists.mp this
    exact ⟨bind x t [], by simp [matchUri, hx]⟩

/-- **C69** (the values of a match). They are not empty, avoid the characters forbidden for their operator, and
give the URI back. -/
theorem C69_values (t : List Expression) (h : OneEach t) (hd : (variables t).Nodup) (u : List Char)
    (m : AMap (List Char) (List Char)) (hm : matchUri t u = some m) : Allowed t m ∧ u = t.flatMap (fill m) := by
  simp only [matchUri, Option.map_eq_some_iff] at hm
  obtain ⟨g, hg, rfl⟩ := hm
  obtain ⟨h1, h2⟩ := captures_fits _ _ _ hg
  obtain ⟨i1, i2⟩ := fits_iff t h hd g [] h1
  exact ⟨i1, h2.trans i2⟩

example : Allowed [.literal ['a'], .multiple .pathParameter [⟨xName, none⟩]] [(xName, ['1', '/'])] ∧
    (matchUri [.literal ['a'], .multiple .pathParameter [⟨xName, none⟩]] ['a', ';', 'x', '=', '1', '/']).isSome = true ∧
    matchUri [.literal ['a'], .multiple .pathParameter [⟨xName, none⟩]] ['a', ';', 'x', '=', '1', '&'] = none := by
  refine ⟨?_, by decide +kernel, by decide +kernel⟩
  intro op s hs
  simp at hs
  obtain ⟨rfl, rfl⟩ := hs
  exact ⟨['1', '/'], by decide, by decide, by decide⟩

end Verif.UriTemplate
