import Verif.Macros.Model

/-
Properties of the procedural macros: C177 to C182.
-/

namespace Verif.Macros

open Verif Verif.Str
open Verif.Wire (Json)

/-! ### C177: names -/

/-- The upper case of a letter `a` to `z`. (Specification: no counterpart in the code.) -/
def upper (c : Char) : Char := Char.ofNat (c.toNat - 32)

/-- Letters `a` to `z`. (Specification: no counterpart in the code.) -/
def Lower (c : Char) : Prop := 'a' ≤ c ∧ c ≤ 'z'

instance (c : Char) : Decidable (Lower c) := by unfold Lower; infer_instance

/-- Letters `a` to `z` and digits. (Specification: no counterpart in the code.) -/
def LowerOrDigit (c : Char) : Prop := Lower c ∨ ('0' ≤ c ∧ c ≤ '9')

instance (c : Char) : Decidable (LowerOrDigit c) := by unfold LowerOrDigit; infer_instance

/-- Tables that are right on these characters, as those of Rust are. (Specification: no counterpart in the code.) -/
structure Ascii (k : Case) : Prop where
  up : ∀ c, Lower c → k.up c = [upper c]
  isUpper : ∀ c, Lower c → k.isUpper (upper c) = true
  low : ∀ c, Lower c → k.low (upper c) = c
  others : ∀ c, LowerOrDigit c → k.isUpper c = false

/-- Words of plain names: a letter, then letters and digits. (Specification: no counterpart in the code.) -/
def Word (w : Text) : Prop := ∃ c cs, w = c :: cs ∧ Lower c ∧ ∀ x ∈ cs, LowerOrDigit x

/-- Plain names: words with single underscores between them. (Specification: no counterpart in the code.) -/
def Plain (s : Text) : Prop := ∃ w ws, s = join ['_'] (w :: ws) ∧ ∀ x ∈ w :: ws, Word x

theorem lower_ne (c : Char) (h : LowerOrDigit c) : c ≠ '_' := by
  rintro rfl
  rcases h with ⟨h1, _⟩ | ⟨_, h2⟩
  · exact absurd h1 (by decide)
  · exact absurd h2 (by decide)

theorem word_no (w : Text) (h : Word w) : '_' ∉ w := by
  obtain ⟨c, cs, rfl, hc, hcs⟩ := h
  intro hm
  rcases List.mem_cons.mp hm with e | hm
  · exact lower_ne c (Or.inl hc) e.symm
  · exact lower_ne _ (hcs _ hm) rfl

theorem pascal_words (k : Case) (w : Text) (ws : List Text) (h : ∀ x ∈ w :: ws, Word x) :
    toPascal k (join ['_'] (w :: ws)) = (w :: ws).flatMap (capital k) := by
  unfold toPascal
  rw [splitChar_join _ _ (fun x hx => word_no x (h x hx))]

/-- The words of a name again: an underscore before each capital, which is made small.
(Specification: no counterpart in the code.) -/
def apart (k : Case) (s : Text) : Text := s.flatMap (fun c => if k.isUpper c then ['_', k.low c] else [c])

theorem apart_word (k : Case) (hk : Ascii k) (w : Text) (h : Word w) : apart k (capital k w) = '_' :: w := by
  obtain ⟨c, cs, rfl, hc, hcs⟩ := h
  have hrest : cs.flatMap (fun c => if k.isUpper c then ['_', k.low c] else [c]) = cs := by
    clear hc
    induction cs with
    | nil => rfl
    | cons x xs ih =>
      rw [List.flatMap_cons, ih (fun y hy => hcs y (List.mem_cons_of_mem _ hy)), hk.others x (hcs x List.mem_cons_self)]
      rfl
  simp only [capital, hk.up c hc, apart, List.cons_append, List.nil_append, List.flatMap_cons, hk.isUpper c hc, if_true,
    hk.low c hc, hrest]

theorem apart_words (k : Case) (hk : Ascii k) (w : Text) (ws : List Text) (h : ∀ x ∈ w :: ws, Word x) :
    apart k ((w :: ws).flatMap (capital k)) = '_' :: join ['_'] (w :: ws) := by
  induction ws generalizing w with
  | nil => simpa [join] using apart_word k hk w (h w List.mem_cons_self)
  | cons v ws ih =>
    have h1 := ih v (fun x hx => h x (List.mem_cons_of_mem _ hx))
    have h2 := apart_word k hk w (h w List.mem_cons_self)
    rw [List.flatMap_cons]
    unfold apart at h1 h2 ⊢
    rw [List.flatMap_append, h1, h2]
    simp [join]

/-- C177, what holds: functions with different plain names get handlers of different types.  The property asked
for, that all functions with different names do, fails for other names. -/
theorem C177_distinct_partial (k : Case) (hk : Ascii k) (s t : Text) (hs : Plain s) (ht : Plain t)
    (h : wrapper k s = wrapper k t) : s = t := by
  obtain ⟨w, ws, rfl, hw⟩ := hs
  obtain ⟨v, vs, rfl, hv⟩ := ht
  have h1 := List.append_cancel_right h
  rw [pascal_words k w ws hw, pascal_words k v vs hv] at h1
  have h2 := congrArg (apart k) h1
  rw [apart_words k hk w ws hw, apart_words k hk v vs hv] at h2
  exact (List.cons.inj h2).2

/-- C177 fails: names that differ in underscores before another underscore, a capital or a digit give handlers of
the same type, so that a program with both does not compile. -/
theorem C177_same (k : Case) (hk : Ascii k) :
    wrapper k "a_b".toList = wrapper k "a__b".toList ∧ wrapper k "a_b".toList = wrapper k "_a_b".toList ∧
    (k.up '1' = ['1'] → wrapper k "a_1".toList = wrapper k "a1".toList) ∧
    (wrapper k "a_b".toList = wrapper k "aB".toList) := by
  have ha := hk.up 'a' (by decide)
  have hb := hk.up 'b' (by decide)
  have hua : upper 'a' = 'A' := by decide
  have hub : upper 'b' = 'B' := by decide
  have e1 : splitChar '_' "a_b".toList = [['a'], ['b']] := by decide
  have e2 : splitChar '_' "a__b".toList = [['a'], [], ['b']] := by decide
  have e3 : splitChar '_' "_a_b".toList = [[], ['a'], ['b']] := by decide
  have e4 : splitChar '_' "a_1".toList = [['a'], ['1']] := by decide
  have e5 : splitChar '_' "a1".toList = [['a', '1']] := by decide
  have e6 : splitChar '_' "aB".toList = [['a', 'B']] := by decide
  refine ⟨?_, ?_, fun h1 => ?_, ?_⟩
  · unfold wrapper toPascal
    rw [e1, e2]
    simp [capital]
  · unfold wrapper toPascal
    rw [e1, e3]
    simp [capital]
  · unfold wrapper toPascal
    rw [e4, e5]
    simp [capital, ha, h1]
  · unfold wrapper toPascal
    rw [e1, e6]
    simp [capital, ha, hb, hub]

theorem snake_word (k : Case) (hk : Ascii k) (w : Text) (h : Word w) (first prev : Bool) (rest : Text) :
    snakeLoop k first prev (capital k w ++ rest) =
      (if !first && !prev then ['_'] else []) ++ w ++ snakeLoop k false (decide (w.length = 1)) rest := by
  obtain ⟨c, cs, rfl, hc, hcs⟩ := h
  have hrest : ∀ (cs : Text) (b : Bool), (∀ x ∈ cs, LowerOrDigit x) →
      snakeLoop k false b (cs ++ rest) = cs ++ snakeLoop k false (if cs = [] then b else false) rest := by
    intro cs
    induction cs with
    | nil => intro b _; rfl
    | cons x xs ih =>
      intro b hx
      rw [List.cons_append, snakeLoop, hk.others x (hx x List.mem_cons_self)]
      simp only [Bool.false_eq_true, if_false]
      rw [ih false (fun y hy => hx y (List.mem_cons_of_mem _ hy))]
      simp
  simp only [capital, hk.up c hc, List.cons_append, List.nil_append]
  rw [snakeLoop, hk.isUpper c hc, hk.low c hc]
  simp only [if_true]
  rw [hrest cs true hcs]
  cases cs <;> simp

/-- What `to_snake_case` makes of the words after the first. (Specification: no counterpart in the code.) -/
def glued : Text → List Text → Text
  | _, [] => []
  | before, w :: ws => (if before.length = 1 then [] else ['_']) ++ w ++ glued w ws

theorem snake_words (k : Case) (hk : Ascii k) (before : Text) (ws : List Text) (h : ∀ x ∈ ws, Word x) :
    snakeLoop k false (decide (before.length = 1)) (ws.flatMap (capital k)) = glued before ws := by
  induction ws generalizing before with
  | nil => rfl
  | cons w ws ih =>
    rw [List.flatMap_cons, snake_word k hk w (h w List.mem_cons_self), ih w (fun x hx => h x (List.mem_cons_of_mem _ hx))]
    simp only [glued]
    by_cases hb : before.length = 1 <;> simp [hb]

theorem glued_join (w : Text) (ws : List Text) :
    (w ++ glued w ws).length ≤ (join ['_'] (w :: ws)).length ∧
      (w ++ glued w ws = join ['_'] (w :: ws) ↔ ∀ x ∈ (w :: ws).dropLast, x.length ≠ 1) := by
  induction ws generalizing w with
  | nil => simp [glued, join]
  | cons v ws ih =>
    obtain ⟨h1, h2⟩ := ih v
    simp only [glued, join]
    by_cases hw : w.length = 1
    · simp only [hw, if_true, List.nil_append]
      refine ⟨by simp at h1 ⊢; omega, ?_⟩
      constructor
      · intro h
        have := congrArg List.length h
        simp at this h1
        omega
      · intro h
        exact absurd hw (h w (by simp))
    · simp only [hw, if_false]
      refine ⟨by simp at h1 ⊢; omega, ?_⟩
      rw [List.dropLast_cons₂]
      simp only [List.mem_cons, forall_eq_or_imp]
      rw [← h2]
      simp [hw]

/-- C177, exactly: of the plain names, those are found again from their type whose words, except the last, have more
than one letter. -/
theorem C177_back (k : Case) (hk : Ascii k) (w : Text) (ws : List Text) (h : ∀ x ∈ w :: ws, Word x) :
    toSnake k (toPascal k (join ['_'] (w :: ws))) = join ['_'] (w :: ws) ↔ ∀ x ∈ (w :: ws).dropLast, x.length ≠ 1 := by
  rw [pascal_words k w ws h, List.flatMap_cons]
  unfold toSnake
  rw [snake_word k hk w (h w List.mem_cons_self), snake_words k hk w ws (fun x hx => h x (List.mem_cons_of_mem _ hx))]
  simpa using (glued_join w ws).2

/-- Tables for the examples. (Specification: no counterpart in the code.) -/
def ascii : Case where
  up c := if 'a' ≤ c ∧ c ≤ 'z' then [upper c] else [c]
  isUpper c := decide ('A' ≤ c ∧ c ≤ 'Z')
  low c := if 'A' ≤ c ∧ c ≤ 'Z' then Char.ofNat (c.toNat + 32) else c

/-- `C177_distinct_partial`, `C177_back`: the names of the documentation. -/
example : wrapper ascii "add_numbers".toList = "AddNumbersToolHandler".toList ∧
    toSnake ascii "AddNumbers".toList = "add_numbers".toList ∧
    toSnake ascii (toPascal ascii "a_b".toList) = "ab".toList := by decide

theorem le_toNat (a b : Char) : a ≤ b ↔ a.toNat ≤ b.toNat := by
  rw [Char.le_def, UInt32.le_iff_toNat_le]; rfl

theorem upper_toNat (c : Char) (h : Lower c) : (upper c).toNat = c.toNat - 32 := by
  have h1 := (le_toNat _ _).mp h.1
  have h2 := (le_toNat _ _).mp h.2
  have e1 : 'a'.toNat = 97 := rfl
  have e2 : 'z'.toNat = 122 := rfl
  have hv : (c.toNat - 32).isValidChar := Or.inl (by omega)
  unfold upper Char.ofNat
  rw [dif_pos hv]
  rfl

/-- The hypothesis `Ascii` of the theorems is met. -/
theorem ascii_ok : Ascii ascii := by
  have e1 : 'a'.toNat = 97 := rfl
  have e2 : 'z'.toNat = 122 := rfl
  have e3 : 'A'.toNat = 65 := rfl
  have e4 : 'Z'.toNat = 90 := rfl
  have e5 : '0'.toNat = 48 := rfl
  have e6 : '9'.toNat = 57 := rfl
  have cap : ∀ c, Lower c → 'A' ≤ upper c ∧ upper c ≤ 'Z' := by
    intro c h
    have h1 := (le_toNat _ _).mp h.1
    have h2 := (le_toNat _ _).mp h.2
    constructor <;> rw [le_toNat, upper_toNat c h] <;> omega
  constructor
  · intro c h; exact if_pos h
  · intro c h; exact decide_eq_true (cap c h)
  · intro c h
    have h1 := (le_toNat _ _).mp h.1
    simp only [ascii]
    rw [if_pos (cap c h), upper_toNat c h, show c.toNat - 32 + 32 = c.toNat by omega]
    exact Char.ofNat_toNat c
  · rintro c h
    simp only [ascii]
    refine decide_eq_false ?_
    rintro ⟨h1, h2⟩
    rw [le_toNat] at h1 h2
    rcases h with ⟨h3, h4⟩ | ⟨h3, h4⟩ <;> rw [le_toNat] at h3 h4 <;> omega

example : Plain "add_numbers".toList :=
  ⟨"add".toList, ["numbers".toList], rfl, by
    intro x hx
    rcases List.mem_cons.mp hx with rfl | hx
    · exact ⟨'a', ['d', 'd'], rfl, by decide, by simp [LowerOrDigit, Lower]⟩
    · rw [List.mem_singleton.mp hx]
      exact ⟨'n', "umbers".toList, rfl, by decide, by simp [LowerOrDigit, Lower]⟩⟩

/-! ### C178: parameters -/

section Params

variable {V : Type}

/-- What a parameter should be: the value given under its name; without one, or with `null`, an optional parameter
is `None`. (Specification: no counterpart in the code.) -/
def Given (args : Json) (p : Param V) (v : Option V) : Prop :=
  if p.optional = true then
    ((member args p.name = none ∨ member args p.name = some .null) ∧ v = none) ∨
      ∃ j, member args p.name = some j ∧ j ≠ .null ∧ v = p.read j
  else ∃ j x, member args p.name = some j ∧ p.read j = some x ∧ v = some x

theorem bind_given (args : Json) (p : Param V) (v : Option V) : bindParam args p = some v ↔ Given args p v := by
  unfold bindParam Given
  cases hm : member args p.name with
  | none => cases p.optional <;> simp [eq_comm]
  | some j =>
    cases ho : p.optional with
    | false =>
      simp only [Bool.false_eq_true, if_false, Option.map_eq_some_iff, Option.some.injEq]
      constructor
      · rintro ⟨x, hx, rfl⟩; exact ⟨j, x, rfl, hx, rfl⟩
      · rintro ⟨j', x, rfl, hx, rfl⟩; exact ⟨x, hx, rfl⟩
    | true => cases j <;> simp [eq_comm]

/-- C178, what holds: if no parameter but the last is called `args`, the function is called exactly if every
required parameter is given and can be read, and then with the values given.  The property asked for has no such
condition, and has the call refused as well if an optional parameter is given but cannot be read. -/
theorem C178_called_partial (args : Json) (ps : List (Param V)) (h : ∀ p ∈ ps.dropLast, p.name ≠ "args".toList)
    (vs : List (Option V)) :
    bindAll args ps = .ok vs ↔ vs.length = ps.length ∧ ∀ i (hi : i < ps.length) (hv : i < vs.length), Given args ps[i] vs[i] := by
  induction ps generalizing vs with
  | nil => cases vs <;> simp [bindAll]
  | cons p ps ih =>
    rw [bindAll]
    have hps : ∀ (x : Json), bindAll (if p.name = "args".toList then x else args) ps = bindAll args ps := by
      intro x
      cases ps with
      | nil => rfl
      | cons q qs => rw [if_neg (h p (by simp [List.dropLast_cons₂]))]
    have ih' := ih (by
      intro q hq
      cases ps with
      | nil => cases hq
      | cons r rs => exact h q (by rw [List.dropLast_cons₂]; exact List.mem_cons_of_mem _ hq))
    cases hb : bindParam args p with
    | none =>
      simp only [reduceCtorEq, false_iff]
      rintro ⟨hl, hg⟩
      cases vs with
      | nil => simp at hl
      | cons v vs =>
        have := (bind_given args p v).mpr (hg 0 (by simp) (by simp))
        rw [hb] at this; cases this
    | some v =>
      simp only [hps]
      cases hr : bindAll args ps with
      | error e =>
        simp only [reduceCtorEq, false_iff]
        rintro ⟨hl, hg⟩
        cases vs with
        | nil => simp at hl
        | cons u us =>
          have := (ih' us).mpr ⟨by simpa using hl, fun i h1 h2 => by
            have := hg (i + 1) (by simpa using h1) (by simpa using h2)
            simpa using this⟩
          rw [hr] at this; cases this
      | ok ws =>
        have hw := (ih' ws).mp hr
        simp only [Except.ok.injEq]
        constructor
        · rintro rfl
          refine ⟨by simp [hw.1], fun i h1 h2 => ?_⟩
          cases i with
          | zero => exact (bind_given args p v).mp hb
          | succ i => exact hw.2 i (by simpa using h1) (by simpa using h2)
        · rintro ⟨hl, hg⟩
          cases vs with
          | nil => simp at hl
          | cons u us =>
            have h0 := (bind_given args p u).mpr (hg 0 (by simp) (by simp))
            rw [hb] at h0; cases h0
            have := (ih' us).mpr ⟨by simpa using hl, fun i h1 h2 => by
              have := hg (i + 1) (by simpa using h1) (by simpa using h2)
              simpa using this⟩
            rw [hr] at this; cases this
            rfl

/-- C178: a refused call names the first required parameter that is not given or cannot be read. -/
theorem C178_refused (args : Json) (ps : List (Param V)) (h : ∀ p ∈ ps.dropLast, p.name ≠ "args".toList) (n : Text) :
    bindAll args ps = .error n ↔ ∃ pre p post, ps = pre ++ p :: post ∧ p.name = n ∧ p.optional = false ∧
      (∀ j, member args p.name = some j → p.read j = none) ∧ ∀ q ∈ pre, ∃ v, Given args q v := by
  have bad : ∀ p : Param V, bindParam args p = none ↔ p.optional = false ∧ ∀ j, member args p.name = some j → p.read j = none := by
    intro p
    unfold bindParam
    cases hm : member args p.name with
    | none => cases p.optional <;> simp
    | some j =>
      cases ho : p.optional with
      | false => simp
      | true => cases j <;> simp
  induction ps with
  | nil => simp [bindAll]
  | cons p ps ih =>
    rw [bindAll]
    have hps : ∀ (x : Json), bindAll (if p.name = "args".toList then x else args) ps = bindAll args ps := by
      intro x
      cases ps with
      | nil => rfl
      | cons q qs => rw [if_neg (h p (by simp [List.dropLast_cons₂]))]
    have ih' := ih (by
      intro q hq
      cases ps with
      | nil => cases hq
      | cons r rs => exact h q (by rw [List.dropLast_cons₂]; exact List.mem_cons_of_mem _ hq))
    cases hb : bindParam args p with
    | none =>
      simp only [Except.error.injEq]
      constructor
      · rintro rfl
        exact ⟨[], p, ps, rfl, rfl, ((bad p).mp hb).1, ((bad p).mp hb).2, by simp⟩
      · rintro ⟨pre, q, post, he, hn, ho, hr, hg⟩
        cases pre with
        | nil => cases he; exact hn
        | cons r pre =>
          cases he
          obtain ⟨v, hv⟩ := hg p List.mem_cons_self
          rw [(bind_given args p v).mpr hv] at hb
          cases hb
    | some v =>
      simp only [hps]
      have lift : (∃ pre q post, ps = pre ++ q :: post ∧ q.name = n ∧ q.optional = false ∧
          (∀ j, member args q.name = some j → q.read j = none) ∧ ∀ r ∈ pre, ∃ v, Given args r v) ↔
          ∃ pre q post, p :: ps = pre ++ q :: post ∧ q.name = n ∧ q.optional = false ∧
          (∀ j, member args q.name = some j → q.read j = none) ∧ ∀ r ∈ pre, ∃ v, Given args r v := by
        constructor
        · rintro ⟨pre, q, post, rfl, h1, h2, h3, h4⟩
          refine ⟨p :: pre, q, post, rfl, h1, h2, h3, fun r hr => ?_⟩
          rcases List.mem_cons.mp hr with rfl | hr
          · exact ⟨v, (bind_given args r v).mp hb⟩
          · exact h4 r hr
        · rintro ⟨pre, q, post, he, h1, h2, h3, h4⟩
          cases pre with
          | nil =>
            cases he
            rw [(bad p).mpr ⟨h2, h3⟩] at hb; cases hb
          | cons r pre =>
            cases he
            exact ⟨pre, q, post, rfl, h1, h2, h3, fun r hr => h4 r (List.mem_cons_of_mem _ hr)⟩
      refine Iff.trans ?_ (ih'.trans lift)
      cases bindAll args ps <;> simp

/-- A parameter of type `u64` and one of type `Option<u64>`, for the examples.
(Specification: no counterpart in the code.) -/
def number (name : Text) (optional : Bool) : Param Nat where
  name := name
  optional := optional
  read j := match j with
    | .num (.int (.ofNat n)) => some n
    | _ => none
  again n := .num (.int n)

/-- A parameter of type `serde_json::Value`. (Specification: no counterpart in the code.) -/
def value (name : Text) : Param Json := ⟨name, false, some, id⟩

/-- C178 fails: an optional parameter given as a string is ignored, and the function called without it. -/
theorem C178_ignored : bindAll (.obj [("limit", .str "10")]) [number "limit".toList true] = .ok [none] := rfl

/-- C178 fails: after a parameter called `args` the others are looked for in it: of the arguments
`{"args": {"b": 1}, "b": 2}` the parameter `b` gets the 1. -/
theorem C178_hidden : bindAll (.obj [("args", .obj [("b", .bool true)]), ("b", .bool false)])
    [value "args".toList, value "b".toList] = .ok [some (.obj [("b", .bool true)]), some (.bool true)] := rfl

/-- C178 fails: a parameter `r#type` is looked for under that name, not under `type`. -/
theorem C178_raw : bindAll (.obj [("type", .bool true)]) [value "r#type".toList] = .error "r#type".toList := rfl

/-- `C178_called_partial`, `C178_refused`: both parameters given; the required one missing. -/
example : bindAll (.obj [("a", .num (.int 1))]) [number "a".toList false, number "b".toList true] = .ok [some 1, none] ∧
    bindAll (.obj [("b", .num (.int 1))]) [number "a".toList false, number "b".toList true] = .error "a".toList :=
  ⟨rfl, rfl⟩

/-! ### C179: schemas -/

theorem bind_empty (args : Json) (ha : args = .obj [] ∨ args = .null) (ps : List (Param V)) :
    (∃ vs, bindAll args ps = .ok vs) ↔ ∀ p ∈ ps, p.optional = true := by
  have hm : ∀ n, member args n = none := by rcases ha with rfl | rfl <;> intro n <;> rfl
  induction ps generalizing args with
  | nil => simp [bindAll]
  | cons p ps ih =>
    rw [bindAll]
    have hb : bindParam args p = if p.optional then some none else none := by unfold bindParam; rw [hm]
    rw [hb]
    cases ho : p.optional with
    | false => simp [ho]
    | true =>
      simp only [if_true, List.mem_cons, forall_eq_or_imp, ho, true_and]
      have hsrc : (if p.name = "args".toList then Json.null else args) = .obj [] ∨
          (if p.name = "args".toList then Json.null else args) = .null := by
        split
        · exact Or.inr rfl
        · exact ha
      refine Iff.trans ?_ (ih _ hsrc (by rcases hsrc with h | h <;> rw [h] <;> intro n <;> rfl))
      cases bindAll (if p.name = "args".toList then Json.null else args) ps <;> simp

/-- C179, exactly: the schema is the same for every function and names no parameter; the empty object, which meets
it, is accepted if and only if the function has no required parameters.  The property asked for, that arguments that
meet the schema are accepted, fails for every other function. -/
theorem C179_schema_partial (ps : List (Param V)) :
    schema ps = .obj [("type", .str "object"), ("properties", .obj []), ("required", .arr [])] ∧
    ((∃ vs, bindAll (.obj []) ps = .ok vs) ↔ ∀ p ∈ ps, p.optional = true) :=
  ⟨rfl, bind_empty _ (Or.inl rfl) ps⟩

/-- C179 fails: for a function with a required parameter. -/
theorem C179_refused : schema [number "a".toList false] = schema ([] : List (Param Nat)) ∧
    bindAll (.obj []) [number "a".toList false] = .error "a".toList := ⟨rfl, rfl⟩

example : ∃ vs, bindAll (.obj []) [number "a".toList true] = .ok vs := ⟨_, rfl⟩

/-! ### C180: results -/

/-- C180, exactly: an error of the function is answered as an error with its text if and only if its return type is
written with the name `Result`; a value that can be written as JSON is answered so.  The property asked for, that
every error is answered as one, fails for functions whose return type has another name. -/
theorem C180_errors_partial (named : Bool) :
    ((∀ v t, convert named (.err v t) = .toolError t) ↔ named = true) ∧
    (∀ j, convert true (.ok (some j)) = .ok j) ∧ (∀ j, convert false (.plain (some j)) = .ok j) ∧
    (∀ r t, convert named r = .toolError t → ∃ v, r = .err v t) := by
  refine ⟨⟨fun h => ?_, ?_⟩, fun _ => rfl, fun _ => rfl, ?_⟩
  · cases named with
    | true => rfl
    | false => have := h none []; simp [convert, valueOf] at this
  · rintro rfl v t; rfl
  · intro r t h
    cases named with
    | true =>
      simp only [convert, if_true] at h
      cases r with
      | plain v => cases v <;> simp at h
      | ok v => cases v <;> simp at h
      | err v t' => simp only [Answer.toolError.injEq] at h; exact ⟨v, by rw [h]⟩
    | false =>
      simp only [convert, Bool.false_eq_true, if_false] at h
      cases hv : valueOf r <;> simp [hv] at h

/-- C180 fails: with a return type like `type Outcome = Result<u64, String>` an error is answered as the success
`{"Err": ..}`. -/
theorem C180_alias (f : List (Option V) → Ret) (j : Json) (t : Text) (h : f [] = .err (some j) t) :
    handle [] false f (.obj []) = .ok (.obj [("Err", j)]) := by
  simp [handle, bindAll, h, convert, valueOf]

/-- C180: the function is called at most once, exactly if its parameters are bound, and its outcome is the answer. -/
theorem C180_handle (ps : List (Param V)) (named : Bool) (f : List (Option V) → Ret) (args : Json) :
    (∀ n, bindAll args ps = .error n → handle ps named f args = .invalidParams n) ∧
    (∀ vs, bindAll args ps = .ok vs → handle ps named f args = convert named (f vs)) := by
  constructor <;> intro x h <;> simp [handle, h]

example : handle [number "a".toList false] true (fun _ => .err none "no".toList) (.obj [("a", .num (.int 1))]) =
    .toolError "no".toList := rfl

end Params

/-! ### C181: the attribute -/

theorem after_quote (p a b : Text) (hp : '"' ∉ p) (ha : '"' ∉ a) :
    after (p ++ ['"']) (a ++ '"' :: b) = if p <:+ a then some b else after (p ++ ['"']) b := by
  have strip : ∀ a : Text, '"' ∉ a → ∀ r, stripPrefix (p ++ ['"']) (a ++ '"' :: b) = some r ↔ p = a ∧ r = b := by
    intro a ha r
    rw [stripPrefix_eq_some]
    constructor
    · intro h
      have h1 := splitOnce_append ha b
      rw [h, List.append_assoc, List.cons_append, List.nil_append, splitOnce_append hp r] at h1
      simp only [Option.some.injEq, Prod.mk.injEq] at h1
      exact h1
    · rintro ⟨rfl, rfl⟩; simp
  induction a with
  | nil =>
    have hs := strip [] ha
    rw [List.nil_append] at hs ⊢
    rw [after]
    cases h : stripPrefix (p ++ ['"']) ('"' :: b) with
    | some r =>
      obtain ⟨rfl, rfl⟩ := (hs r).mp h
      simp
    | none =>
      have hne : p ≠ [] := fun e => by
        have := (hs b).mpr ⟨e, rfl⟩
        rw [h] at this; cases this
      rw [if_neg (by simpa using hne)]
  | cons x a ih =>
    have hs := strip (x :: a) ha
    rw [List.cons_append] at hs ⊢
    rw [after]
    cases h : stripPrefix (p ++ ['"']) (x :: (a ++ '"' :: b)) with
    | some r =>
      obtain ⟨rfl, rfl⟩ := (hs r).mp h
      simp
    | none =>
      have hne : p ≠ x :: a := fun e => by
        have := (hs b).mpr ⟨e, rfl⟩
        rw [h] at this; cases this
      dsimp only
      rw [ih (fun e => ha (List.mem_cons_of_mem _ e))]
      have : p <:+ x :: a ↔ p <:+ a := by
        rw [List.suffix_cons_iff]
        simp [hne]
      simp only [this]

theorem after_none (p s : Text) (hs : '"' ∉ s) : after (p ++ ['"']) s = none := by
  induction s with
  | nil => cases p <;> rfl
  | cons x s ih =>
    rw [after]
    have : stripPrefix (p ++ ['"']) (x :: s) = none := by
      cases h : stripPrefix (p ++ ['"']) (x :: s) with
      | none => rfl
      | some r =>
        rw [stripPrefix_eq_some] at h
        exact absurd (by rw [h]; simp) hs
    rw [this]
    exact ih (fun e => hs (List.mem_cons_of_mem _ e))

theorem until_quote (a b : Text) (h : '"' ∉ a) : untilQuote (a ++ '"' :: b) = some a := by
  simp [untilQuote, splitOnce_append h b]

/-- The two keys, as they appear before a value. (Specification: no counterpart in the code.) -/
def descKey : Text := "description = ".toList
/-- (Specification: no counterpart in the code.) -/
def nameKey : Text := "name = ".toList

theorem key_desc (s : Text) : keyValue "description".toList s = (after (descKey ++ ['"']) s).bind untilQuote := by
  unfold keyValue
  rw [show "description".toList ++ " = \"".toList = descKey ++ ['"'] by decide]

theorem key_name (s : Text) : keyValue "name".toList s = (after (nameKey ++ ['"']) s).bind untilQuote := by
  unfold keyValue
  rw [show "name".toList ++ " = \"".toList = nameKey ++ ['"'] by decide]

theorem desc_key (s : Text) : "description = \"".toList ++ s = descKey ++ '"' :: s := by
  rw [show "description = \"".toList = descKey ++ ['"'] by decide, List.append_assoc]; rfl

theorem name_key (s : Text) : "name = \"".toList ++ s = nameKey ++ '"' :: s := by
  rw [show "name = \"".toList = nameKey ++ ['"'] by decide, List.append_assoc]; rfl

theorem no_desc : '"' ∉ descKey := by decide
theorem no_name : '"' ∉ nameKey := by decide

theorem no_append {a b : Text} (ha : '"' ∉ a) (hb : '"' ∉ b) : '"' ∉ a ++ b := by
  intro h; rcases List.mem_append.mp h with h | h <;> contradiction

theorem suffix_append_false (p q a : Text) (hl : q.length ≤ p.length) (h : p.drop (p.length - q.length) ≠ q) : ¬ p <:+ a ++ q := by
  rintro ⟨t, ht⟩
  apply h
  have e : p = p.take (p.length - q.length) ++ p.drop (p.length - q.length) := (List.take_append_drop _ _).symm
  rw [e, ← List.append_assoc] at ht
  exact (List.append_inj' ht (by rw [List.length_drop]; omega)).2

theorem suffix_append_longer (p q a : Text) (hl : p.length ≤ q.length) (h : q.drop (q.length - p.length) ≠ p) : ¬ p <:+ a ++ q := by
  rintro ⟨t, ht⟩
  apply h
  have e : q = q.take (q.length - p.length) ++ q.drop (q.length - p.length) := (List.take_append_drop _ _).symm
  rw [e, ← List.append_assoc] at ht
  exact (List.append_inj' ht (by rw [List.length_drop]; omega)).2.symm

theorem desc_not_name (a : Text) : ¬ descKey <:+ a ++ nameKey := suffix_append_false _ _ _ (by decide) (by decide)
theorem name_not_desc (a : Text) : ¬ nameKey <:+ a ++ descKey := suffix_append_longer _ _ _ (by decide) (by decide)

/-- What stands between the quotes of a string in the program: plain characters, and escapes (their text after the
backslash, and what they stand for). (Specification: no counterpart in the code.) -/
inductive Lex where
  | plain (c : Char)
  | esc (text : Text) (stands : Text)

/-- Rust's rules, as far as needed: a quote or backslash is never plain; an escape has a text, stands for at most one
character, and has a quote in its text only if it stands for a quote. (Specification: no counterpart in the code.) -/
def Lex.Ok : Lex → Prop
  | .plain c => c ≠ '"' ∧ c ≠ '\\'
  | .esc t v => t ≠ [] ∧ v.length ≤ 1 ∧ ('"' ∈ t → v = ['"'])

/-- The text in the program. (Specification: no counterpart in the code.) -/
def Lex.source : Lex → Text
  | .plain c => [c]
  | .esc t _ => '\\' :: t

/-- What the string is. (Specification: no counterpart in the code.) -/
def Lex.means : Lex → Text
  | .plain c => [c]
  | .esc _ v => v

theorem quote_kept (l : List Lex) (h : ∀ x ∈ l, x.Ok) (hq : '"' ∈ l.flatMap Lex.source) : '"' ∈ l.flatMap Lex.means := by
  rw [List.mem_flatMap] at hq ⊢
  obtain ⟨x, hx, hm⟩ := hq
  refine ⟨x, hx, ?_⟩
  have hok := h x hx
  cases x with
  | plain c => simpa [Lex.source, Lex.means] using hm
  | esc t v =>
    simp only [Lex.source, List.mem_cons] at hm
    have : '"' ∈ t := by
      rcases hm with e | hm
      · exact absurd e (by decide)
      · exact hm
    simp [Lex.means, hok.2.2 this]

theorem means_shorter (l : List Lex) (h : ∀ x ∈ l, x.Ok) :
    (l.flatMap Lex.means).length ≤ (l.flatMap Lex.source).length ∧
    ((∃ t v, Lex.esc t v ∈ l) → (l.flatMap Lex.means).length < (l.flatMap Lex.source).length) := by
  induction l with
  | nil => simp
  | cons x l ih =>
    obtain ⟨h1, h2⟩ := ih (fun y hy => h y (List.mem_cons_of_mem _ hy))
    have hok := h x List.mem_cons_self
    simp only [List.flatMap_cons, List.length_append]
    cases x with
    | plain c =>
      simp only [Lex.means, Lex.source, List.length_singleton]
      refine ⟨by omega, ?_⟩
      rintro ⟨t, v, hm⟩
      simp only [List.mem_cons, reduceCtorEq, false_or] at hm
      have := h2 ⟨t, v, hm⟩
      omega
    | esc t v =>
      have : 0 < t.length := List.length_pos_iff.mpr hok.1
      simp only [Lex.means, Lex.source, List.length_cons]
      have := hok.2.1
      exact ⟨by omega, fun _ => by omega⟩

/-- C181, exactly: the description found is the one written, if and only if it is written without escapes.  The
property asked for, that the tool has the description given, fails otherwise. -/
theorem C181_description_partial (pre post : Text) (hpre : '"' ∉ pre) (l : List Lex) (hl : ∀ x ∈ l, x.Ok) :
    (parseAttr (pre ++ "description = \"".toList ++ l.flatMap Lex.source ++ '"' :: post)).map (·.2) = some (l.flatMap Lex.means) ↔
      ∀ x ∈ l, ∃ c, x = .plain c := by
  have hd : ∀ rest, keyValue "description".toList (pre ++ "description = \"".toList ++ rest) = untilQuote rest := by
    intro rest
    rw [key_desc, List.append_assoc, desc_key, ← List.append_assoc,
      after_quote _ _ _ no_desc (no_append hpre no_desc), if_pos (List.suffix_append _ _), Option.bind_some]
  unfold parseAttr
  rw [Option.map_map, List.append_assoc, hd]
  show (untilQuote (l.flatMap Lex.source ++ '"' :: post)).map _ = _ ↔ _
  by_cases hq : '"' ∈ l.flatMap Lex.source
  · constructor
    · intro h
      cases hu : untilQuote (l.flatMap Lex.source ++ '"' :: post) with
      | none => rw [hu] at h; cases h
      | some u =>
        rw [hu] at h
        simp only [Option.map_some, Function.comp, Option.some.injEq] at h
        unfold untilQuote at hu
        rw [Option.map_eq_some_iff] at hu
        obtain ⟨⟨u', r⟩, h1, rfl⟩ := hu
        have := (splitOnce_some h1).2
        dsimp only at h
        rw [h] at this
        exact absurd (quote_kept l hl hq) this
    · intro h
      exfalso
      rw [List.mem_flatMap] at hq
      obtain ⟨x, hx, hm⟩ := hq
      obtain ⟨c, rfl⟩ := h x hx
      have := hl _ hx
      simp only [Lex.source, List.mem_singleton] at hm
      exact this.1 hm.symm
  · rw [until_quote _ _ hq]
    simp only [Option.map_some, Function.comp, Option.some.injEq]
    constructor
    · intro h x hx
      cases x with
      | plain c => exact ⟨c, rfl⟩
      | esc t v =>
        have := (means_shorter l hl).2 ⟨t, v, hx⟩
        rw [h] at this
        omega
    · intro h
      clear hq hd
      induction l with
      | nil => rfl
      | cons x l ih =>
        obtain ⟨c, rfl⟩ := h x List.mem_cons_self
        rw [List.flatMap_cons, List.flatMap_cons, ih (fun y hy => hl y (List.mem_cons_of_mem _ hy))
          (fun y hy => h y (List.mem_cons_of_mem _ hy))]
        rfl

/-- C181, exactly: with the name written first, both without escapes, the name is right, and the description unless
the name ends in `description = `. -/
theorem C181_name_first (pre n mid d post : Text) (hpre : '"' ∉ pre) (hn : '"' ∉ n) (hmid : '"' ∉ mid) (hd : '"' ∉ d) :
    parseAttr (pre ++ "name = \"".toList ++ n ++ "\"".toList ++ mid ++ "description = \"".toList ++ d ++ '"' :: post) =
      some (some n, if "description = ".toList <:+ n then mid ++ "description = ".toList else d) := by
  have e : pre ++ "name = \"".toList ++ n ++ "\"".toList ++ mid ++ "description = \"".toList ++ d ++ '"' :: post =
      (pre ++ nameKey) ++ '"' :: (n ++ '"' :: ((mid ++ descKey) ++ '"' :: (d ++ '"' :: post))) := by
    simp only [List.append_assoc, desc_key, name_key]
    rfl
  rw [e, show "description = ".toList = descKey from rfl]
  unfold parseAttr
  rw [key_name, key_desc, after_quote nameKey _ _ no_name (no_append hpre no_name), if_pos (List.suffix_append _ _),
    Option.bind_some, until_quote _ _ hn, after_quote descKey _ _ no_desc (no_append hpre no_name),
    if_neg (desc_not_name _), after_quote descKey _ _ no_desc hn]
  split
  · rw [Option.bind_some, until_quote _ _ (no_append hmid no_desc), Option.map_some]
  · rw [after_quote descKey _ _ no_desc (no_append hmid no_desc), if_pos (List.suffix_append _ _), Option.bind_some,
      until_quote _ _ hd, Option.map_some]

/-- C181, exactly: with the description written first, both without escapes, the description is right, and the name
unless the description ends in `name = `. -/
theorem C181_name_last (pre d mid n post : Text) (hpre : '"' ∉ pre) (hd : '"' ∉ d) (hmid : '"' ∉ mid) (hn : '"' ∉ n) :
    parseAttr (pre ++ "description = \"".toList ++ d ++ "\"".toList ++ mid ++ "name = \"".toList ++ n ++ '"' :: post) =
      some (some (if "name = ".toList <:+ d then mid ++ "name = ".toList else n), d) := by
  have e : pre ++ "description = \"".toList ++ d ++ "\"".toList ++ mid ++ "name = \"".toList ++ n ++ '"' :: post =
      (pre ++ descKey) ++ '"' :: (d ++ '"' :: ((mid ++ nameKey) ++ '"' :: (n ++ '"' :: post))) := by
    simp only [List.append_assoc, desc_key, name_key]
    rfl
  rw [e, show "name = ".toList = nameKey from rfl]
  unfold parseAttr
  rw [key_name, key_desc, after_quote descKey _ _ no_desc (no_append hpre no_desc), if_pos (List.suffix_append _ _),
    Option.bind_some, until_quote _ _ hd, Option.map_some, after_quote nameKey _ _ no_name (no_append hpre no_desc),
    if_neg (name_not_desc _), after_quote nameKey _ _ no_name hd]
  split
  · rw [Option.bind_some, until_quote _ _ (no_append hmid no_name)]
  · rw [after_quote nameKey _ _ no_name (no_append hmid no_name), if_pos (List.suffix_append _ _), Option.bind_some,
      until_quote _ _ hn]

/-- C181: with a description only, the tool has the name of its method. -/
theorem C181_no_name (pre d post : Text) (hpre : '"' ∉ pre) (hd : '"' ∉ d) (hpost : '"' ∉ post) :
    parseAttr (pre ++ "description = \"".toList ++ d ++ '"' :: post) = some (none, d) := by
  rw [List.append_assoc, List.append_assoc, desc_key, ← List.append_assoc]
  unfold parseAttr
  rw [key_name, key_desc, after_quote descKey _ _ no_desc (no_append hpre no_desc), if_pos (List.suffix_append _ _),
    Option.bind_some, until_quote _ _ hd, Option.map_some, after_quote nameKey _ _ no_name (no_append hpre no_desc),
    if_neg (name_not_desc _), after_quote nameKey _ _ no_name hd, after_none _ _ hpost]
  split
  · simp [untilQuote, splitOnce_none hpost]
  · rfl

/-- C181 fails: a tool described as `Sets name = ` and named `x` gets the name ` , name = `; a description with a
quote is cut. -/
theorem C181_wrong : parseAttr "# [tool (description = \"Sets name = \" , name = \"x\")]".toList =
      some (some " , name = ".toList, "Sets name = ".toList) ∧
    parseAttr "# [tool (description = \"Say \\\"hi\\\"\")]".toList = some (none, "Say \\".toList) := by
  decide +kernel

/-- `C181_name_first`, `C181_name_last`, `C181_description_partial`: an ordinary attribute. -/
example : parseAttr "# [tool (name = \"add\" , description = \"Adds\")]".toList = some (some "add".toList, "Adds".toList) ∧
    ¬ "name = ".toList <:+ "Adds".toList ∧ (∀ x ∈ [Lex.plain 'A', .esc ['n'] ['\n']], x.Ok) := by
  refine ⟨by decide +kernel, by decide, ?_⟩
  intro x hx
  simp only [List.mem_cons, List.not_mem_nil, or_false] at hx
  rcases hx with rfl | rfl <;> simp [Lex.Ok]

/-! ### C182: the router -/

/-- What a method's outcome is answered with. (Specification: no counterpart in the code.) -/
def answer : Ret → Answer
  | .ok (some j) => .ok j
  | .err _ t => .toolError t
  | _ => .internal

theorem route_cons (m : Method) (ms : List Method) (name : Text) (args : Json) :
    route (m :: ms) name args = if m.toolName = name then some (answer (m.run args)) else route ms name args := by
  rw [route]
  split
  · cases m.run args with
    | plain v => rfl
    | ok v => cases v <;> rfl
    | err v t => rfl
  · rfl

/-- C182: a call is refused exactly if no tool with this name is listed; otherwise the first method with it is
called with all arguments. -/
theorem C182_routed (ms : List Method) (name : Text) (args : Json) :
    (route ms name args = none ↔ ∀ t ∈ tools ms, t.name ≠ name) ∧
    (∀ pre m post, ms = pre ++ m :: post → m.toolName = name → (∀ x ∈ pre, x.toolName ≠ name) →
      route ms name args = some (answer (m.run args))) := by
  constructor
  · induction ms with
    | nil => simp [route, tools]
    | cons m ms ih =>
      rw [route_cons]
      by_cases h : m.toolName = name
      · simp [h, tools]
      · rw [if_neg h, ih]
        simp [tools, h]
  · rintro pre m post rfl hm hpre
    induction pre with
    | nil => rw [List.nil_append, route_cons, if_pos hm]
    | cons x pre ih =>
      rw [List.cons_append, route_cons, if_neg (hpre x List.mem_cons_self)]
      exact ih (fun y hy => hpre y (List.mem_cons_of_mem _ hy))

/-- C182, what holds: if the names are distinct every method is called by its name.  The property asked for, that
every tool listed can be called, fails otherwise. -/
theorem C182_each_partial (ms : List Method) (h : (ms.map (·.toolName)).Nodup) (m : Method) (hm : m ∈ ms) (args : Json) :
    route ms m.toolName args = some (answer (m.run args)) := by
  obtain ⟨pre, post, rfl⟩ := List.append_of_mem hm
  refine (C182_routed _ _ _).2 pre m post rfl rfl (fun x hx e => ?_)
  rw [List.map_append, List.nodup_append] at h
  exact h.2.2 _ (List.mem_map_of_mem hx) _ (by simp) e

/-- C182 fails: a method whose tool has the name of an earlier one is listed, but never called, whatever it does. -/
theorem C182_hidden (pre post : List Method) (m : Method) (run' : Json → Ret) (h : ∃ x ∈ pre, x.toolName = m.toolName) :
    (⟨m.toolName, m.description, schema ([] : List (Param Json))⟩ : Listed) ∈ tools (pre ++ m :: post) ∧
    ∀ name args, route (pre ++ m :: post) name args = route (pre ++ { m with run := run' } :: post) name args := by
  refine ⟨by simp [tools, schema], fun name args => ?_⟩
  obtain ⟨x, hx, he⟩ := h
  by_cases hn : m.toolName = name
  · induction pre with
    | nil => cases hx
    | cons y pre ih =>
      rw [List.cons_append, List.cons_append, route_cons, route_cons]
      by_cases hy : y.toolName = name
      · rw [if_pos hy, if_pos hy]
      · rw [if_neg hy, if_neg hy]
        refine ih ?_
        rcases List.mem_cons.mp hx with rfl | hx
        · exact absurd (he.trans hn) hy
        · exact hx
  · have : ∀ pre : List Method, route (pre ++ m :: post) name args = route (pre ++ { m with run := run' } :: post) name args := by
      intro pre
      induction pre with
      | nil => rw [List.nil_append, List.nil_append, route_cons, route_cons, if_neg hn, if_neg hn]
      | cons y pre ih => rw [List.cons_append, List.cons_append, route_cons, route_cons, ih]
    exact this pre

/-- C182: the visibilities understood. -/
theorem C182_visibility (v : Option Text) (s : Text) : visibility v = some s ↔
    (v = none ∧ s = "pub".toList) ∨
      (v = some s ∧ (s = "pub".toList ∨ s = "pub(crate)".toList ∨ s = "pub(super)".toList ∨ s = [])) := by
  cases v with
  | none => simp [visibility, eq_comm]
  | some t =>
    simp only [visibility, reduceCtorEq, false_and, false_or, Option.some.injEq]
    constructor
    · intro h
      split at h
      · next e => cases h; exact ⟨e, Or.inl rfl⟩
      · split at h
        · next e => cases h; exact ⟨e, Or.inr (Or.inl rfl)⟩
        · split at h
          · next e => cases h; exact ⟨e, Or.inr (Or.inr (Or.inl rfl))⟩
          · split at h
            · next e => cases h; exact ⟨List.isEmpty_iff.mp e, Or.inr (Or.inr (Or.inr rfl))⟩
            · cases h
    · rintro ⟨rfl, rfl | rfl | rfl | rfl⟩ <;> decide

/-- `C182_each_partial`: a router with two tools. -/
example : (([⟨"a".toList, [], fun _ => .ok (some .null)⟩, ⟨"b".toList, [], fun j => .ok (some j)⟩] : List Method).map
    (·.toolName)).Nodup := by decide

/-- `C182_hidden`: two methods of the same tool name. -/
example : ∃ x ∈ [(⟨"a".toList, [], fun _ => .ok (some .null)⟩ : Method)],
    x.toolName = (⟨"a".toList, [], fun j => .ok (some j)⟩ : Method).toolName := ⟨_, List.mem_cons_self, rfl⟩

/-! ### C177 and C180, in detail -/

/-- C177: the name of the generated type ends with `ToolHandler`, before which stands the name of the function with
its underscores taken out and each word capitalised. -/
theorem C177_wrapper (k : Case) (s : Text) :
    ∃ p, wrapper k s = p ++ "ToolHandler".toList ∧ p = ((splitChar '_' s).map (capital k)).flatten :=
  ⟨_, rfl, by simp [toPascal, List.flatMap]⟩

/-- C180: with a return type of another name a success is answered as the object `{"Ok": ..}`. -/
theorem C180_alias_ok {V : Type} (f : List (Option V) → Ret) (j : Json) (h : f [] = .ok (some j)) :
    handle [] false f (.obj []) = .ok (.obj [("Ok", j)]) := by
  simp [handle, bindAll, h, convert, valueOf]

example : handle (V := Nat) [] false (fun _ => .ok (some (.str "x"))) (.obj []) = .ok (.obj [("Ok", .str "x")]) := rfl

end Verif.Macros
