import Verif.UriTemplate.Model

/-
Properties of URI templates: C68, C69.
-/

namespace Verif.UriTemplate

open Verif Verif.Str

/-! ### Specification -/

/-- The value given last for a variable. (Specification: no counterpart in the code.) -/
def lookupLast (vars : List (List Char × List Char)) (x : List Char) : Option (List Char) :=
  (vars.reverse.find? (fun p => p.1 = x)).map (·.2)

/-- RFC 6570, 1.5: unreserved characters. (Specification: no counterpart in the code.) -/
def Unres (c : Char) : Prop :=
  ('a' ≤ c ∧ c ≤ 'z') ∨ ('A' ≤ c ∧ c ≤ 'Z') ∨ ('0' ≤ c ∧ c ≤ '9') ∨ c = '-' ∨ c = '.' ∨ c = '_' ∨ c = '~'

instance (c : Char) : Decidable (Unres c) := by unfold Unres; infer_instance

/-- RFC 6570, 1.5: reserved characters. (Specification: no counterpart in the code.) -/
def Res (c : Char) : Prop := c ∈ [':', '/', '?', '#', '[', ']', '@', '!', '$', '&', '\'', '(', ')', '*', '+', ',', ';', '=']

instance (c : Char) : Decidable (Res c) := by unfold Res; infer_instance

/-- Percent encoding of a byte. (Specification: no counterpart in the code.) -/
def pctByte (b : Nat) : List Char :=
  let hex := ['0', '1', '2', '3', '4', '5', '6', '7', '8', '9', 'A', 'B', 'C', 'D', 'E', 'F']
  ['%', hex.getD (b / 16) '0', hex.getD (b % 16) '0']

/-- Percent encoding of a value: of the bytes that are not unreserved characters.
(Specification: no counterpart in the code.) -/
def specEncode (v : List Char) : List Char :=
  (Utf8.encode v).flatMap (fun b => if b < 128 ∧ Unres (Char.ofNat b) then [Char.ofNat b] else pctByte b)

/-- A hexadecimal digit. (Specification: no counterpart in the code.) -/
def hexVal (c : Char) : Option Nat :=
  if '0' ≤ c ∧ c ≤ '9' then some (c.toNat - 48)
  else if 'A' ≤ c ∧ c ≤ 'F' then some (c.toNat - 55)
  else if 'a' ≤ c ∧ c ≤ 'f' then some (c.toNat - 87)
  else none

/-- Reserved expansion: unreserved and reserved characters and `%XX` are kept.
(Specification: no counterpart in the code.) -/
def rfcReserved : List Char → List Char
  | [] => []
  | [c] => if Unres c ∨ Res c then [c] else specEncode [c]
  | [c, d] => (if Unres c ∨ Res c then [c] else specEncode [c]) ++ rfcReserved [d]
  | c :: a :: b :: r =>
    if c = '%' ∧ (hexVal a).isSome ∧ (hexVal b).isSome then '%' :: a :: b :: rfcReserved r
    else (if Unres c ∨ Res c then [c] else specEncode [c]) ++ rfcReserved (a :: b :: r)

/-- The table of RFC 6570, appendix A: first, separator, whether named, text if empty, whether reserved is
allowed. (Specification: no counterpart in the code.) -/
def rfcRow : Operator → List Char × List Char × Bool × List Char × Bool
  | .simple => ([], [','], false, [], false)
  | .reserved => ([], [','], false, [], true)
  | .fragment => (['#'], [','], false, [], true)
  | .label => (['.'], ['.'], false, [], false)
  | .pathSegment => (['/'], ['/'], false, [], false)
  | .pathParameter => ([';'], [';'], true, [], false)
  | .query => (['?'], ['&'], true, ['='], false)
  | .queryContinuation => (['&'], ['&'], true, ['='], false)

/-- RFC 6570, 3.2.1: one variable with a string value. (Specification: no counterpart in the code.) -/
def rfcVar (op : Operator) (s : VarSpec) (v : List Char) : List Char :=
  let row := rfcRow op
  let v := match s.modifier with
    | some (.prefix_ n) => v.take n
    | _ => v
  if row.2.2.1 = true then
    if v = [] then s.name ++ row.2.2.2.1
    else s.name ++ '=' :: (if row.2.2.2.2 then rfcReserved v else specEncode v)
  else if row.2.2.2.2 then rfcReserved v else specEncode v

/-- RFC 6570, 3: a template. (Specification: no counterpart in the code.) -/
def rfcExpand (val : List Char → Option (List Char)) : List Expression → List Char
  | [] => []
  | .literal t :: r => rfcReserved t ++ rfcExpand val r
  | .multiple op specs :: r =>
    (match specs.filterMap (fun s => (val s.name).map (rfcVar op s)) with
      | [] => []
      | a :: l => (rfcRow op).1 ++ join (rfcRow op).2.1 (a :: l)) ++ rfcExpand val r

/-! ### Encoding -/

theorem char_le (a c : Char) : a ≤ c ↔ a.toNat ≤ c.toNat := by
  show a.val ≤ c.val ↔ _
  exact UInt32.le_iff_toNat_le

theorem unreserved_iff (c : Char) : unreserved c = true ↔ Unres c := by
  simp only [unreserved, Unres, char_le, Bool.or_eq_true, Bool.and_eq_true, decide_eq_true_eq]
  have h1 : 'a'.toNat = 97 := by decide
  have h2 : 'z'.toNat = 122 := by decide
  have h3 : 'A'.toNat = 65 := by decide
  have h4 : 'Z'.toNat = 90 := by decide
  have h5 : '0'.toNat = 48 := by decide
  have h6 : '9'.toNat = 57 := by decide
  rw [h1, h2, h3, h4, h5, h6]
  constructor
  · rintro ((((((h | h) | h) | h) | h) | h) | h) <;> simp [h]
  · rintro (h | h | h | h | h | h | h) <;> simp [h]

theorem unres_lt (c : Char) (h : Unres c) : c.toNat < 128 := by
  rw [← unreserved_iff] at h
  simp only [unreserved, Bool.or_eq_true, Bool.and_eq_true, decide_eq_true_eq] at h
  rcases h with (((((h | h) | h) | h) | h) | h) | h
  · omega
  · omega
  · omega
  all_goals (subst h; decide)

theorem pctByte_eq : ∀ b, b < 256 → escapeByte b = pctByte b := by decide +kernel

theorem utf8_bytes (c : Char) : ∀ b ∈ Utf8.encodeChar c, b < 256 := by
  have hc : c.toNat < 0x110000 := by
    have := c.valid
    rcases this with h | h
    · have : c.toNat < 0xD800 := h; omega
    · exact h.2
  intro b hb
  simp only [Utf8.encodeChar, Utf8.encodeNat] at hb
  repeat' split at hb
  all_goals simp at hb; omega

theorem utf8_high (c : Char) (h : 128 ≤ c.toNat) : ∀ b ∈ Utf8.encodeChar c, 128 ≤ b := by
  intro b hb
  simp only [Utf8.encodeChar, Utf8.encodeNat] at hb
  repeat' split at hb
  all_goals simp at hb; omega

theorem ofNat_toNat (c : Char) : Char.ofNat c.toNat = c := by
  exact Char.ofNat_toNat c

theorem specEncode_cons (c : Char) (v : List Char) : specEncode (c :: v) = specEncode [c] ++ specEncode v := by
  simp [specEncode, Utf8.encode]

theorem specEncode_append (a b : List Char) : specEncode (a ++ b) = specEncode a ++ specEncode b := by
  simp [specEncode, Utf8.encode]

theorem specEncode_one (c : Char) : specEncode [c] = encodeChar c := by
  simp only [specEncode, Utf8.encode, List.flatMap_cons, List.flatMap_nil, List.append_nil, encodeChar]
  by_cases hc : c.toNat < 128
  · rw [Utf8.encodeChar_ascii hc]
    simp only [List.flatMap_cons, List.flatMap_nil, List.append_nil, ofNat_toNat]
    by_cases hu : Unres c
    · simp [hc, hu, (unreserved_iff c).mpr hu]
    · have : unreserved c = false := by
        cases h : unreserved c with
        | false => rfl
        | true => exact absurd ((unreserved_iff c).mp h) hu
      simp [hu, this, pctByte_eq c.toNat (by omega)]
  · have : unreserved c = false := by
      cases h : unreserved c with
      | false => rfl
      | true => exact absurd (unres_lt c ((unreserved_iff c).mp h)) hc
    rw [this]
    simp only [Bool.false_eq_true, if_false]
    have hb := utf8_bytes c
    have hh := utf8_high c (by omega)
    generalize Utf8.encodeChar c = l at hb hh ⊢
    induction l with
    | nil => rfl
    | cons b l ih =>
      simp only [List.flatMap_cons]
      rw [ih (fun x hx => hb x (by simp [hx])) (fun x hx => hh x (by simp [hx]))]
      have := hh b (by simp)
      rw [if_neg (by omega), pctByte_eq b (hb b (by simp))]

theorem specEncode_eq (v : List Char) : v.flatMap encodeChar = specEncode v := by
  induction v with
  | nil => rfl
  | cons c v ih => rw [specEncode_cons, specEncode_one, ← ih]; rfl

/-- The characters of an encoded value. -/
theorem pctByte_chars : ∀ b, b < 256 → ∀ c ∈ pctByte b, Unres c ∨ c = '%' := by decide +kernel

theorem specEncode_chars (v : List Char) (c : Char) (h : c ∈ specEncode v) : Unres c ∨ c = '%' := by
  simp only [specEncode, List.mem_flatMap] at h
  obtain ⟨b, hb, hc⟩ := h
  simp only [Utf8.encode, List.mem_flatMap] at hb
  obtain ⟨x, -, hb⟩ := hb
  split at hc
  · next h => simp at hc; subst hc; exact Or.inl h.2
  · exact pctByte_chars b (utf8_bytes x b hb) c hc

/-- Percent decoding to bytes. (Specification: no counterpart in the code.) -/
def pctDecode : List Char → Option (List Nat)
  | [] => some []
  | [c] => if c = '%' then none else some [c.toNat]
  | [c, d] => if c = '%' ∨ d = '%' then none else some [c.toNat, d.toNat]
  | c :: a :: b :: r =>
    if c = '%' then
      match hexVal a, hexVal b, pctDecode r with
      | some x, some y, some l => some ((16 * x + y) :: l)
      | _, _, _ => none
    else (pctDecode (a :: b :: r)).map (c.toNat :: ·)

theorem pctDecode_char (c : Char) (h : c ≠ '%') (r : List Char) :
    pctDecode (c :: r) = (pctDecode r).map (c.toNat :: ·) := by
  match r with
  | [] => simp [pctDecode, h]
  | [d] => by_cases hd : d = '%' <;> simp [pctDecode, h, hd]
  | a :: b :: r => simp [pctDecode, h]

theorem hex_table : ∀ b, b < 256 → ∃ x y, pctByte b = ['%', x, y] ∧ ∃ p q, hexVal x = some p ∧ hexVal y = some q ∧
    16 * p + q = b := by
  have : ∀ b, b < 256 → hexVal ((pctByte b).getD 1 'x') = some (b / 16) ∧ hexVal ((pctByte b).getD 2 'x') = some (b % 16) := by
    decide +kernel
  intro b hb
  obtain ⟨h1, h2⟩ := this b hb
  exact ⟨_, _, rfl, b / 16, b % 16, h1, h2, by omega⟩

theorem unres_pct (c : Char) (h : Unres c) : c ≠ '%' := by
  rintro rfl; revert h; decide

theorem pctDecode_bytes (l : List Nat) (h : ∀ b ∈ l, b < 256) :
    pctDecode (l.flatMap (fun b => if b < 128 ∧ Unres (Char.ofNat b) then [Char.ofNat b] else pctByte b)) = some l := by
  induction l with
  | nil => rfl
  | cons b l ih =>
    have ih := ih (fun x hx => h x (by simp [hx]))
    simp only [List.flatMap_cons]
    split
    · next hu =>
      simp only [List.cons_append, List.nil_append]
      rw [pctDecode_char _ (unres_pct _ hu.2), ih]
      have : (Char.ofNat b).toNat = b := Utf8.ofNat_toNat (by simp [Utf8.isScalar]; omega)
      simp [this]
    · obtain ⟨x, y, he, p, q, hp, hq, hb⟩ := hex_table b (h b (by simp))
      rw [he]
      simp only [List.cons_append, List.nil_append, pctDecode, hp, hq, ih, if_true, hb]

/-! ### Expansion -/

theorem filterMap_congr' {α β : Type} {f g : α → Option β} (l : List α) (h : ∀ a ∈ l, f a = g a) :
    l.filterMap f = l.filterMap g := by
  induction l with
  | nil => rfl
  | cons a l ih => simp only [List.filterMap_cons, h a (by simp), ih (fun x hx => h x (by simp [hx]))]

theorem toMap_get (vars : List (List Char × List Char)) (x : List Char) :
    AMap.get (toMap vars) x = lookupLast vars x := by
  have key : ∀ (l : List (List Char × List Char)) (m : AMap (List Char) (List Char)),
      AMap.get (l.foldl (fun m p => AMap.insert m p.1 p.2) m) x = (lookupLast l x).or (AMap.get m x) := by
    intro l
    induction l with
    | nil => intro m; simp [lookupLast]
    | cons p l ih =>
      intro m
      simp only [List.foldl_cons]
      rw [ih]
      simp only [lookupLast, List.reverse_cons, List.find?_append]
      by_cases hp : p.1 = x
      · cases h : l.reverse.find? (fun p => p.1 = x) with
        | none => subst hp; simp [AMap.get_insert_self]
        | some q => simp
      · cases h : l.reverse.find? (fun p => p.1 = x) with
        | none => rw [AMap.get_insert_ne _ _ (fun e => hp e.symm)]; simp [hp]
        | some q => simp
  have := key vars []
  simpa [toMap] using this

/-- The values for which this library and RFC 6570 agree. (Specification: no counterpart in the code.) -/
def Agrees (op : Operator) (v : List Char) : Prop :=
  match op with
  | .reserved => rfcReserved v = v
  | .fragment => rfcReserved v = specEncode v
  | .pathParameter => v ≠ []
  | _ => True

/-- The value a specification takes from a variable. -/
def taken (s : VarSpec) (v : List Char) : List Char :=
  match s.modifier with
  | some (.prefix_ n) => v.take n
  | _ => v

theorem part_rfc (op : Operator) (s : VarSpec) (v : List Char) (h : Agrees op (taken s v)) (vars : AMap (List Char) (List Char))
    (hv : AMap.get vars s.name = some v) : part op vars s = some (rfcVar op s v) := by
  have hm : modified s.modifier v = taken s v := by
    obtain ⟨n, m⟩ := s
    cases m with
    | none => rfl
    | some m => cases m <;> rfl
  have hr : rfcVar op s v = (if (rfcRow op).2.2.1 = true then
      if taken s v = [] then s.name ++ (rfcRow op).2.2.2.1
      else s.name ++ '=' :: (if (rfcRow op).2.2.2.2 then rfcReserved (taken s v) else specEncode (taken s v))
    else if (rfcRow op).2.2.2.2 then rfcReserved (taken s v) else specEncode (taken s v)) := rfl
  rw [hr]
  simp only [part, hv, hm, encodeValue, specEncode_eq]
  generalize taken s v = w at h
  cases op <;> simp_all [Agrees, named, rfcRow]
  all_goals (intro _; rfl)

/-- **C68**. Expansion is that of RFC 6570, with the last binding of each variable. Missing from the property:
literals with characters that RFC 6570 encodes, `{+x}` with such values (`C68_reserved_raw`), `{#x}` with
reserved characters (`C68_fragment_encoded`), `{;x}` with an empty value (`C68_parameter_empty`). -/
theorem C68_rfc_partial (t : List Expression) (vars : List (List Char × List Char))
    (hl : ∀ x, Expression.literal x ∈ t → rfcReserved x = x)
    (hv : ∀ op specs, Expression.multiple op specs ∈ t → ∀ s ∈ specs, ∀ v, lookupLast vars s.name = some v →
      Agrees op (taken s v)) :
    expand t vars = rfcExpand (lookupLast vars) t := by
  unfold expand
  induction t with
  | nil => rfl
  | cons e t ih =>
    have ih := ih (fun x hx => hl x (by simp [hx])) (fun op specs hx => hv op specs (by simp [hx]))
    rw [List.flatMap_cons, ih]
    cases e with
    | literal x => simp only [expandExpression, rfcExpand]; rw [hl x (by simp)]
    | multiple op specs =>
      simp only [expandExpression, rfcExpand, expandMultiple]
      have : specs.filterMap (part op (toMap vars)) =
          specs.filterMap (fun s => (lookupLast vars s.name).map (rfcVar op s)) := by
        apply filterMap_congr'
        intro s hs
        cases hg : lookupLast vars s.name with
        | none => simp [part, toMap_get, hg]
        | some v =>
          rw [part_rfc op s v (hv op specs (by simp) s hs v hg) _ (by rw [toMap_get, hg])]; rfl
      rw [this]
      cases specs.filterMap (fun s => (lookupLast vars s.name).map (rfcVar op s)) with
      | nil => simp
      | cons a l =>
        simp only [List.isEmpty_cons, Bool.false_eq_true, if_false]
        cases op <;> rfl

/-- (Specification: no counterpart in the code.) -/
def xName : List Char := ['x']

/-- **C68** fails for `{+x}`: a space is copied into the URI. -/
theorem C68_reserved_raw : expand [.multiple .reserved [⟨xName, none⟩]] [(xName, ['a', ' '])] = ['a', ' '] ∧
    rfcExpand (lookupLast [(xName, ['a', ' '])]) [.multiple .reserved [⟨xName, none⟩]] = ['a', '%', '2', '0'] := by
  decide +kernel

/-- **C68** fails for `{#x}`: a slash is encoded. -/
theorem C68_fragment_encoded : expand [.multiple .fragment [⟨xName, none⟩]] [(xName, ['/'])] = ['#', '%', '2', 'F'] ∧
    rfcExpand (lookupLast [(xName, ['/'])]) [.multiple .fragment [⟨xName, none⟩]] = ['#', '/'] := by
  decide +kernel

/-- **C68** fails for `{;x}` with an empty value. -/
theorem C68_parameter_empty : expand [.multiple .pathParameter [⟨xName, none⟩]] [(xName, [])] = [';', 'x', '='] ∧
    rfcExpand (lookupLast [(xName, [])]) [.multiple .pathParameter [⟨xName, none⟩]] = [';', 'x'] := by
  decide +kernel

/-- **C68**. What a variable expands to consists of unreserved characters and `%`, for every value and every
operator without a name except `{+x}`, so it cannot change the structure of the URI; and decoding it yields the
value. -/
theorem C68_safe (x v : List Char) (vars : List (List Char × List Char)) (h : lookupLast vars x = some v) :
    (∀ c ∈ expand [.multiple .simple [⟨x, none⟩]] vars, Unres c ∨ c = '%') ∧
    (pctDecode (expand [.multiple .simple [⟨x, none⟩]] vars)).bind Utf8.decode = some v := by
  have : expand [.multiple .simple [⟨x, none⟩]] vars = specEncode v := by
    simp [expand, expandExpression, expandMultiple, part, toMap_get, h, modified, named, encodeValue, specEncode_eq,
      opPrefix, join]
  rw [this]
  refine ⟨specEncode_chars v, ?_⟩
  have hb : ∀ b ∈ Utf8.encode v, b < 256 := by
    intro b hb
    simp only [Utf8.encode, List.mem_flatMap] at hb
    obtain ⟨c, -, hb⟩ := hb
    exact utf8_bytes c b hb
  rw [specEncode, pctDecode_bytes _ hb]
  simp [Utf8.decode_encode]

/-- **C68**. Different values give different URIs, for every operator except `{+x}`. -/
theorem C68_injective (op : Operator) (hop : op ≠ .reserved) (x v w : List Char)
    (h : expand [.multiple op [⟨x, none⟩]] [(x, v)] = expand [.multiple op [⟨x, none⟩]] [(x, w)]) : v = w := by
  have hg : ∀ u : List Char, lookupLast [(x, u)] x = some u := by intro u; simp [lookupLast]
  have he : ∀ u : List Char, expand [.multiple op [⟨x, none⟩]] [(x, u)] =
      opPrefix op ++ ((if named op then x ++ ['='] else []) ++ specEncode u) := by
    intro u
    have : (op == Operator.reserved) = false := by cases op <;> simp_all
    simp only [expand, List.flatMap_cons, List.flatMap_nil, List.append_nil, expandExpression, expandMultiple, part,
      toMap_get, hg, modified, encodeValue, specEncode_eq, List.filterMap_cons, List.filterMap_nil, this,
      Bool.false_eq_true, if_false, List.isEmpty_cons, join]
    split <;> simp
  rw [he, he] at h
  have h2 := List.append_cancel_left (List.append_cancel_left h)
  have h3 := (C68_safe x v [(x, v)] (hg v)).2
  have h4 := (C68_safe x w [(x, w)] (hg w)).2
  have hs : ∀ u : List Char, expand [.multiple .simple [⟨x, none⟩]] [(x, u)] = specEncode u := by
    intro u
    simp [expand, expandExpression, expandMultiple, part, toMap_get, hg, modified, named, encodeValue, specEncode_eq,
      opPrefix, join]
  rw [hs] at h3 h4
  rw [h2, h4] at h3
  exact (Option.some.inj h3).symm

/-- **C68**. Expansion depends on the variables of the template only. -/
theorem C68_variables (t : List Expression) (v1 v2 : List (List Char × List Char))
    (h : ∀ x ∈ variables t, lookupLast v1 x = lookupLast v2 x) : expand t v1 = expand t v2 := by
  unfold expand
  induction t with
  | nil => rfl
  | cons e t ih =>
    have ih := ih (fun x hx => h x (by
      simp only [variables, List.flatMap_cons, List.mem_append] at hx ⊢; exact Or.inr hx))
    rw [List.flatMap_cons, List.flatMap_cons, ih]
    congr 1
    cases e with
    | literal x => rfl
    | multiple op specs =>
      simp only [expandExpression, expandMultiple]
      have : specs.filterMap (part op (toMap v1)) = specs.filterMap (part op (toMap v2)) := by
        apply filterMap_congr'
        intro s hs
        have := h s.name (by
          simp only [variables, List.flatMap_cons, List.mem_append, List.mem_map]; exact Or.inl ⟨s, hs, rfl⟩)
        simp only [part, toMap_get, this]
      rw [this]

example : lookupLast [(xName, ['a']), (xName, ['b', '/'])] xName = some ['b', '/'] ∧
    expand [.literal ['/'], .multiple .simple [⟨xName, none⟩]] [(xName, ['a']), (xName, ['b', '/'])] =
      ['/', 'b', '%', '2', 'F'] := by decide +kernel

example : Agrees .reserved ['/', 'a'] ∧ Agrees .fragment ['a'] ∧ ¬ Agrees .fragment ['/'] := by
  refine ⟨?_, ?_, ?_⟩ <;> simp only [Agrees] <;> decide +kernel

/-! ### Parsing -/

/-- How a specification is written. -/
def showSpec (s : VarSpec) : List Char :=
  match s.modifier with
  | none => s.name
  | some .explode => s.name ++ ['*']
  | some (.prefix_ n) => s.name ++ ':' :: Decimal.showNat n

/-- (Specification: no counterpart in the code.) -/
def showOp : Operator → List Char
  | .simple => []
  | .reserved => ['+']
  | .fragment => ['#']
  | .label => ['.']
  | .pathSegment => ['/']
  | .pathParameter => [';']
  | .query => ['?']
  | .queryContinuation => ['&']

/-- How an expression is written. (Specification: no counterpart in the code.) -/
def showExpr : Expression → List Char
  | .literal t => t
  | .multiple op specs => '{' :: (showOp op ++ join [','] (specs.map showSpec)) ++ ['}']

/-- A variable name: letters, digits and underscores, not beginning with a digit.
(Specification: no counterpart in the code.) -/
def Name (x : List Char) : Prop :=
  ∃ c cs, x = c :: cs ∧ (('a' ≤ c ∧ c ≤ 'z') ∨ ('A' ≤ c ∧ c ≤ 'Z') ∨ c = '_') ∧
    ∀ d ∈ cs, ('a' ≤ d ∧ d ≤ 'z') ∨ ('A' ≤ d ∧ d ≤ 'Z') ∨ d = '_' ∨ ('0' ≤ d ∧ d ≤ '9')

/-- (Specification: no counterpart in the code.) -/
def ValidSpec (s : VarSpec) : Prop := Name s.name ∧ ∀ n, s.modifier = some (.prefix_ n) → 1 ≤ n ∧ n ≤ 10000

/-- Templates in the form `parse` produces: no two literals in a row, none empty, no opening brace in a literal.
(Specification: no counterpart in the code.) -/
def Canon : List Expression → Prop
  | [] => True
  | .literal x :: r => x ≠ [] ∧ '{' ∉ x ∧ (∀ y r', r ≠ .literal y :: r') ∧ Canon r
  | .multiple _ specs :: r => specs ≠ [] ∧ (∀ s ∈ specs, ValidSpec s) ∧ Canon r

theorem nameStart_iff (c : Char) : nameStart c = true ↔ (('a' ≤ c ∧ c ≤ 'z') ∨ ('A' ≤ c ∧ c ≤ 'Z') ∨ c = '_') := by
  have h1 : 'a'.toNat = 97 := by decide
  have h2 : 'z'.toNat = 122 := by decide
  have h3 : 'A'.toNat = 65 := by decide
  have h4 : 'Z'.toNat = 90 := by decide
  have h7 : c = '_' ↔ c.toNat = 95 := by
    constructor
    · rintro rfl; decide
    · intro h; rw [← ofNat_toNat c, h]
  simp only [nameStart, char_le, Bool.or_eq_true, Bool.and_eq_true, decide_eq_true_eq, beq_iff_eq, h1, h2, h3, h4, h7]
  constructor
  · rintro ((h | h) | h) <;> simp [h]
  · rintro (h | h | h) <;> simp [h]

theorem validName_iff (x : List Char) : validName x = true ↔ Name x := by
  cases x with
  | nil => simp [validName, Name]
  | cons c cs =>
    have h5 : '0'.toNat = 48 := by decide
    have h6 : '9'.toNat = 57 := by decide
    simp only [validName, Bool.and_eq_true, List.all_eq_true, Name, nameChar, Bool.or_eq_true, nameStart_iff,
      decide_eq_true_eq]
    constructor
    · rintro ⟨h1, h2⟩
      refine ⟨c, cs, rfl, h1, ?_⟩
      intro d hd
      simp only [char_le '0', char_le _ '9', h5, h6]
      rcases h2 d hd with (h | h | h) | h <;> simp [h]
    · rintro ⟨c', cs', he, h1, h2⟩
      cases he
      refine ⟨h1, ?_⟩
      intro d hd
      have := h2 d hd
      simp only [char_le '0', char_le _ '9', h5, h6] at this
      rcases this with h | h | h | h <;> simp [h]

theorem name_char (x : List Char) (h : Name x) (c : Char) (hc : c ∈ x) :
    (97 ≤ c.toNat ∧ c.toNat ≤ 122) ∨ (65 ≤ c.toNat ∧ c.toNat ≤ 90) ∨ c.toNat = 95 ∨ (48 ≤ c.toNat ∧ c.toNat ≤ 57) := by
  rw [← validName_iff] at h
  cases x with
  | nil => cases hc
  | cons a l =>
    simp only [validName, Bool.and_eq_true, List.all_eq_true] at h
    have : nameChar c = true := by
      rcases List.mem_cons.mp hc with rfl | hc
      · simp [nameChar, h.1]
      · exact h.2 c hc
    simp only [nameChar, nameStart, Bool.or_eq_true, Bool.and_eq_true, decide_eq_true_eq, beq_iff_eq] at this
    omega

theorem ws_of (c : Char) (h1 : 33 ≤ c.toNat) (h2 : c.toNat < 128) : isWs c = false := by
  simp [isWs]; omega

/-- The characters of a written specification. -/
theorem showSpec_char (s : VarSpec) (h : ValidSpec s) (c : Char) (hc : c ∈ showSpec s) :
    33 ≤ c.toNat ∧ c.toNat < 123 ∧ c ≠ ',' := by
  have hn : ∀ c ∈ s.name, 33 ≤ c.toNat ∧ c.toNat < 123 ∧ c ≠ ',' := by
    intro c hc
    have := name_char s.name h.1 c hc
    refine ⟨by omega, by omega, ?_⟩
    rintro rfl
    have : ','.toNat = 44 := by decide
    omega
  simp only [showSpec] at hc
  split at hc
  · exact hn c hc
  · simp only [List.mem_append, List.mem_singleton] at hc
    rcases hc with hc | rfl
    · exact hn c hc
    · decide
  · simp only [List.mem_append, List.mem_cons] at hc
    rcases hc with hc | rfl | hc
    · exact hn c hc
    · decide
    · have := Decimal.showNat_all_digits _ c hc
      refine ⟨by omega, by omega, ?_⟩
      rintro rfl
      have : ','.toNat = 44 := by decide
      omega

theorem name_ne (x : List Char) (h : Name x) : x ≠ [] := by
  obtain ⟨c, cs, rfl, -⟩ := h; simp

theorem parseVarSpec_show (s : VarSpec) (h : ValidSpec s) : parseVarSpec (showSpec s) = some s := by
  have hne := name_ne _ h.1
  have hv := (validName_iff _).mpr h.1
  obtain ⟨x, m⟩ := s
  dsimp only at hne hv
  have hstar : ∀ c ∈ x, c ≠ '*' := by
    intro c hc he
    have := name_char x h.1 c hc
    subst he
    have : '*'.toNat = 42 := by decide
    omega
  have hcolon : ':' ∉ x := by
    intro hc
    have := name_char x h.1 _ hc
    have : ':'.toNat = 58 := by decide
    omega
  cases m with
  | none =>
    have hl : x.getLast? ≠ some '*' := by
      intro he
      exact hstar _ (List.mem_of_getLast? he) rfl
    simp only [parseVarSpec, showSpec, List.isEmpty_iff, hne, if_false, hl, splitOnce_none hcolon, hv, if_true]
  | some m =>
    cases m with
    | explode =>
      simp [parseVarSpec, showSpec, hv]
    | prefix_ n =>
      have hn := h.2 n rfl
      have hl : (x ++ ':' :: Decimal.showNat n).getLast? ≠ some '*' := by
        intro he
        have hd := Decimal.showNat_all_digits n
        have hm : '*' ∈ Decimal.showNat n := by
          have hsn := Decimal.showNat_ne_nil n
          rw [List.getLast?_append, List.getLast?_cons] at he
          simp only [Option.some_or, Option.some.injEq] at he
          rw [List.getLast?_eq_some_getLast hsn] at he
          simp only [Option.getD_some] at he
          rw [← he]; exact List.getLast_mem hsn
        have := hd _ hm
        have : '*'.toNat = 42 := by decide
        omega
      have hem : (x ++ ':' :: Decimal.showNat n).isEmpty = false := by simp
      simp only [parseVarSpec, showSpec, hem, Bool.false_eq_true, if_false, hl, splitOnce_append hcolon, hv, if_true]
      rw [Decimal.parseUnsigned_showNat (by omega)]
      simp only
      rw [if_neg (by omega)]

theorem allSome_map {α β : Type} (f : α → Option β) (g : β → α) (l : List β) (h : ∀ b ∈ l, f (g b) = some b) :
    allSome f (l.map g) = some l := by
  induction l with
  | nil => rfl
  | cons b l ih =>
    simp only [List.map_cons, allSome, h b (by simp), ih (fun x hx => h x (by simp [hx]))]

theorem join_mem (sep : List Char) (l : List (List Char)) (c : Char) (h : c ∈ join sep l) :
    c ∈ sep ∨ ∃ x ∈ l, c ∈ x := by
  induction l with
  | nil => simp [join] at h
  | cons a l ih =>
    cases l with
    | nil => simp [join] at h; exact Or.inr ⟨a, by simp, h⟩
    | cons b l =>
      simp only [join, List.mem_append] at h
      rcases h with (h | h) | h
      · exact Or.inr ⟨a, by simp, h⟩
      · exact Or.inl h
      · rcases ih h with h | ⟨x, hx, hc⟩
        · exact Or.inl h
        · exact Or.inr ⟨x, by simp [hx], hc⟩

theorem showSpec_ne (s : VarSpec) (h : ValidSpec s) : showSpec s ≠ [] := by
  have := name_ne _ h.1
  simp only [showSpec]
  split <;> simp_all

theorem showSpec_head (s : VarSpec) (h : ValidSpec s) : ∃ c cs, showSpec s = c :: cs ∧ nameStart c = true := by
  obtain ⟨c, cs, he, hc, -⟩ := h.1
  rw [← nameStart_iff] at hc
  simp only [showSpec]
  split
  · exact ⟨c, cs, he, hc⟩
  · exact ⟨c, _, by rw [he]; rfl, hc⟩
  · exact ⟨c, _, by rw [he]; rfl, hc⟩

theorem splitOperator_show (op : Operator) (c : Char) (cs : List Char) (hc : nameStart c = true) :
    splitOperator (showOp op ++ c :: cs) = (op, c :: cs) := by
  cases op <;> simp only [showOp, List.nil_append, List.cons_append, splitOperator] <;> try rfl
  have hn : ∀ d : Char, nameStart d = false → c ≠ d := by
    rintro d hd rfl; rw [hd] at hc; cases hc
  simp [hn '+' (by decide), hn '#' (by decide), hn '.' (by decide), hn '/' (by decide), hn ';' (by decide),
    hn '?' (by decide), hn '&' (by decide)]

theorem join_head (a : List Char) (l : List (List Char)) (c : Char) (cs : List Char) (h : a = c :: cs) :
    ∃ r, join [','] (a :: l) = c :: r := by
  subst h
  cases l with
  | nil => exact ⟨cs, rfl⟩
  | cons b l => exact ⟨_, rfl⟩

theorem parseExpression_show (op : Operator) (specs : List VarSpec) (hne : specs ≠ []) (h : ∀ s ∈ specs, ValidSpec s) :
    parseExpression (showOp op ++ join [','] (specs.map showSpec)) = some (.multiple op specs) := by
  cases specs with
  | nil => exact absurd rfl hne
  | cons s l =>
    obtain ⟨c, cs, he, hc⟩ := showSpec_head s (h s (by simp))
    obtain ⟨r, hr⟩ := join_head (showSpec s) (l.map showSpec) c cs he
    have hsp : splitChar ',' (join [','] ((s :: l).map showSpec)) = (s :: l).map showSpec := by
      rw [List.map_cons]
      apply splitChar_join
      intro x hx hc
      rw [← List.map_cons] at hx
      obtain ⟨s', hs', rfl⟩ := List.mem_map.mp hx
      exact (showSpec_char s' (h s' hs') _ hc).2.2 rfl
    have hsp' := hsp
    rw [List.map_cons, hr] at hsp'
    have hem : (showOp op ++ c :: r).isEmpty = false := by simp
    simp only [parseExpression, List.map_cons, hr, hem, Bool.false_eq_true, if_false, splitOperator_show op c r hc, hsp']
    rw [← List.map_cons, allSome_map]
    · rfl
    · intro s' hs'
      have htrim : trim (showSpec s') = showSpec s' := by
        apply trim_of_ends
        · intro x hx
          have := showSpec_char s' (h s' hs') x (List.mem_of_head? hx)
          exact ws_of x this.1 (by omega)
        · intro x hx
          have := showSpec_char s' (h s' hs') x (List.mem_of_getLast? hx)
          exact ws_of x this.1 (by omega)
      rw [htrim, parseVarSpec_show s' (h s' hs')]

theorem pieces_plain (x : List Char) (h : '{' ∉ x) (lit r : List Char) :
    pieces lit none (x ++ r) = pieces (lit ++ x) none r := by
  induction x generalizing lit with
  | nil => simp
  | cons a x ih =>
    have ha : a ≠ '{' := fun e => h (by simp [e])
    simp only [List.cons_append, pieces, ha, if_false]
    rw [ih (fun e => h (by simp [e]))]
    simp

theorem pieces_inside (x : List Char) (h : '}' ∉ x) (lit c r : List Char) :
    pieces lit (some c) (x ++ r) = pieces lit (some (c ++ x)) r := by
  induction x generalizing c with
  | nil => simp
  | cons a x ih =>
    have ha : a ≠ '}' := fun e => h (by simp [e])
    simp only [List.cons_append, pieces, ha, if_false]
    rw [ih (fun e => h (by simp [e]))]
    simp

theorem pieces_expr (x : List Char) (h : '}' ∉ x) (hne : x ≠ []) (lit r : List Char) :
    pieces lit none ('{' :: x ++ '}' :: r) = flush lit (.expr x :: pieces [] none r) := by
  rw [List.cons_append]
  simp only [pieces, if_true]
  rw [pieces_inside x h]
  simp [pieces, hne]

/-- The text of a written expression. (Specification: no counterpart in the code.) -/
def inner (op : Operator) (specs : List VarSpec) : List Char := showOp op ++ join [','] (specs.map showSpec)

theorem inner_close (op : Operator) (specs : List VarSpec) (h : ∀ s ∈ specs, ValidSpec s) : '}' ∉ inner op specs := by
  intro hc
  simp only [inner, List.mem_append] at hc
  rcases hc with hc | hc
  · cases op <;> revert hc <;> decide
  · rcases join_mem _ _ _ hc with hc | ⟨x, hx, hc⟩
    · revert hc; decide
    · obtain ⟨s, hs, rfl⟩ := List.mem_map.mp hx
      have := (showSpec_char s (h s hs) _ hc).2.1
      have : '}'.toNat = 125 := by decide
      omega

theorem inner_ne (op : Operator) (specs : List VarSpec) (hne : specs ≠ []) (h : ∀ s ∈ specs, ValidSpec s) :
    inner op specs ≠ [] := by
  cases specs with
  | nil => exact absurd rfl hne
  | cons s l =>
    obtain ⟨c, cs, he, -⟩ := showSpec_head s (h s (by simp))
    obtain ⟨r, hr⟩ := join_head (showSpec s) (l.map showSpec) c cs he
    simp [inner, hr]

/-- (Specification: no counterpart in the code.) -/
def toPiece : Expression → Piece
  | .literal t => .lit t
  | .multiple op specs => .expr (inner op specs)

theorem pieces_show (t : List Expression) (h : Canon t) : pieces [] none (t.flatMap showExpr) = t.map toPiece := by
  have key : ∀ (t : List Expression) (lit : List Char), Canon t → ((∀ y r', t ≠ .literal y :: r') ∨ lit = []) →
      pieces lit none (t.flatMap showExpr) = flush lit (t.map toPiece) := by
    intro t
    induction t with
    | nil => intro lit _ _; rfl
    | cons e t ih =>
      intro lit h hl
      cases e with
      | literal x =>
        obtain ⟨h1, h2, h3, h4⟩ := h
        have : lit = [] := by
          rcases hl with hl | hl
          · exact absurd rfl (hl x t)
          · exact hl
        subst this
        simp only [List.flatMap_cons, showExpr, pieces_plain x h2, List.nil_append]
        rw [ih x h4 (Or.inl h3)]
        simp [flush, h1, toPiece]
      | multiple op specs =>
        obtain ⟨h1, h2, h3⟩ := h
        have hs : showExpr (.multiple op specs) ++ t.flatMap showExpr =
            '{' :: inner op specs ++ '}' :: t.flatMap showExpr := by
          simp [showExpr, inner]
        rw [List.flatMap_cons, hs, pieces_expr _ (inner_close op specs h2) (inner_ne op specs h1 h2),
          ih [] h3 (Or.inr rfl)]
        simp [flush, toPiece]
  have := key t [] h (Or.inr rfl)
  simpa [flush] using this

theorem canon_mem (t : List Expression) (h : Canon t) (e : Expression) (he : e ∈ t) : parsePiece (toPiece e) = some e := by
  induction t with
  | nil => cases he
  | cons a t ih =>
    have ht : Canon t := by
      cases a with
      | literal x => exact h.2.2.2
      | multiple op specs => exact h.2.2
    rcases List.mem_cons.mp he with rfl | he
    · cases e with
      | literal x => rfl
      | multiple op specs => exact parseExpression_show op specs h.1 h.2.1
    · exact ih ht he

/-- **C68**. Parsing is right: every template, written down, is parsed as that template. -/
theorem C68_parse_roundtrip (t : List Expression) (h : Canon t) : parse (t.flatMap showExpr) = some t := by
  rw [parse, pieces_show t h]
  exact allSome_map parsePiece toPiece t (canon_mem t h)

/-- The text of a piece. (Specification: no counterpart in the code.) -/
def pieceText : Piece → List Char
  | .lit t => t
  | .expr c => '{' :: c ++ ['}']

/-- **C68**. No text is lost: every string is cut into literal text and expressions that make it up. -/
theorem C68_text_kept (s : List Char) : (pieces [] none s).flatMap pieceText = s := by
  have hf : ∀ (l : List Char) (r : List Piece), (flush l r).flatMap pieceText = l ++ r.flatMap pieceText := by
    intro l r
    simp only [flush]
    split
    · next h => rw [List.isEmpty_iff.mp h]; rfl
    · rfl
  have key : ∀ (s lit : List Char) (ins : Option (List Char)), (pieces lit ins s).flatMap pieceText =
      lit ++ (match ins with | none => [] | some c => '{' :: c) ++ s := by
    intro s
    induction s with
    | nil => intro lit ins; cases ins <;> simp [pieces, hf]
    | cons a s ih =>
      intro lit ins
      cases ins with
      | none =>
        simp only [pieces]
        split
        · next h => rw [ih]; simp [h]
        · rw [ih]; simp
      | some c =>
        simp only [pieces]
        split
        · next h =>
          split
          · next hc => rw [ih, h, List.isEmpty_iff.mp hc]; simp
          · rw [hf, List.flatMap_cons, ih]; simp [pieceText, h]
        · rw [ih]; simp
  simpa using key s [] none

theorem allSome_mem {α β : Type} (f : α → Option β) (l : List α) (bs : List β) (h : allSome f l = some bs) (b : β)
    (hb : b ∈ bs) : ∃ a ∈ l, f a = some b := by
  induction l generalizing bs with
  | nil => simp [allSome] at h; subst h; cases hb
  | cons a l ih =>
    simp only [allSome] at h
    cases hf : f a with
    | none => rw [hf] at h; simp at h
    | some c =>
      rw [hf] at h
      cases hl : allSome f l with
      | none => rw [hl] at h; simp at h
      | some cs =>
        rw [hl] at h; simp at h; subst h
        rcases List.mem_cons.mp hb with rfl | hb
        · exact ⟨a, by simp, hf⟩
        · obtain ⟨x, hx, hx'⟩ := ih cs hl hb
          exact ⟨x, by simp [hx], hx'⟩

/-- **C68**. Templates that are accepted name variables properly, and lengths of prefixes are 1 to 10000. -/
theorem C68_accepted_valid (s : List Char) (t : List Expression) (h : parse s = some t) (op : Operator)
    (specs : List VarSpec) (he : Expression.multiple op specs ∈ t) (v : VarSpec) (hv : v ∈ specs) : ValidSpec v := by
  obtain ⟨p, -, hp⟩ := allSome_mem parsePiece _ t h _ he
  cases p with
  | lit x => simp [parsePiece] at hp
  | expr c =>
    simp only [parsePiece, parseExpression] at hp
    split at hp
    · cases hp
    · cases ha : allSome (fun v => parseVarSpec (trim v)) (splitChar ',' (splitOperator c).2) with
      | none => rw [ha] at hp; simp at hp
      | some l =>
        rw [ha] at hp
        simp at hp
        obtain ⟨-, rfl⟩ := hp
        obtain ⟨x, -, hx⟩ := allSome_mem _ _ _ ha v hv
        simp only [parseVarSpec] at hx
        split at hx
        · cases hx
        · split at hx
          · split at hx
            · next hn => simp at hx; subst hx; exact ⟨(validName_iff _).mp hn, by simp⟩
            · cases hx
          · split at hx
            · next name len _ =>
              split at hx
              · next hn =>
                split at hx
                · next n _ =>
                  split at hx
                  · cases hx
                  · next hr =>
                    simp at hx; subst hx
                    refine ⟨(validName_iff _).mp hn, ?_⟩
                    intro m hm; simp at hm; omega
                · cases hx
              · cases hx
            · split at hx
              · next hn => simp at hx; subst hx; exact ⟨(validName_iff _).mp hn, by simp⟩
              · cases hx

/-- **C68**. A brace that is never closed is not reported as an error: the whole text is a literal. -/
theorem C68_unclosed (s : List Char) (hne : s ≠ []) (h : '}' ∉ s) : parse s = some [.literal s] := by
  have key : ∀ (s lit : List Char) (ins : Option (List Char)), '}' ∉ s → pieces lit ins s =
      flush (lit ++ (match ins with | none => [] | some c => '{' :: c) ++ s) [] := by
    intro s
    induction s with
    | nil => intro lit ins _; cases ins <;> simp [pieces]
    | cons a s ih =>
      intro lit ins h
      have ha : a ≠ '}' := fun e => h (by simp [e])
      have hs : '}' ∉ s := fun e => h (by simp [e])
      cases ins with
      | none =>
        simp only [pieces]
        split
        · next he => rw [ih _ _ hs, he]; simp
        · rw [ih _ _ hs]; simp
      | some c => simp only [pieces, ha, if_false]; rw [ih _ _ hs]; simp
  rw [parse, key s [] none h]
  simp [flush, hne, allSome, parsePiece]

example : Canon [.literal ['/'], .multiple .query [⟨['q'], none⟩, ⟨['n'], some (.prefix_ 3)⟩]] := by
  refine ⟨by decide, by decide, by simp, by decide, ?_, trivial⟩
  intro s hs
  simp only [List.mem_cons, List.not_mem_nil, or_false] at hs
  rcases hs with rfl | rfl
  · exact ⟨⟨'q', [], rfl, by decide, by simp⟩, by simp⟩
  · exact ⟨⟨'n', [], rfl, by decide, by simp⟩, by simp⟩

/-! ### Matching -/

/-- What may follow a variable: the end, or text beginning with a character that no encoded value contains.
(Specification: no counterpart in the code.) -/
def Follows : List Expression → Prop
  | [] => True
  | .literal (d :: _) :: _ => ¬ Unres d ∧ d ≠ '%'
  | .literal [] :: _ => False
  | .multiple op _ :: _ => op ∈ [.fragment, .pathSegment, .pathParameter, .query, .queryContinuation]

/-- Templates of one-variable expressions without prefix modifier and reserved expansion, separated as above.
(Specification: no counterpart in the code.) -/
def Separated : List Expression → Prop
  | [] => True
  | .literal _ :: t => Separated t
  | .multiple op [s] :: t => op ≠ .reserved ∧ (∀ n, s.modifier ≠ some (.prefix_ n)) ∧ Follows t ∧ Separated t
  | .multiple _ _ :: _ => False

/-- Every variable has a value that is not empty; after a dot there is no dot in it.
(Specification: no counterpart in the code.) -/
def Given (val : List Char → Option (List Char)) (t : List Expression) : Prop :=
  ∀ op s, Expression.multiple op [s] ∈ t → ∃ v, val s.name = some v ∧ v ≠ [] ∧ (op = .label → '.' ∉ v)

/-- The encoded values in order. (Specification: no counterpart in the code.) -/
def encs (val : List Char → Option (List Char)) : List Expression → List (List Char)
  | [] => []
  | .multiple _ [s] :: t => specEncode ((val s.name).getD []) :: encs val t
  | _ :: t => encs val t

/-- How often a character is in the fixed text. (Specification: no counterpart in the code.) -/
def fixedCount (d : Char) : List Item → Nat
  | [] => 0
  | .fixed t :: r => t.count d + fixedCount d r
  | .group _ :: r => fixedCount d r

theorem tryDown_some {α : Type} (f : Nat → Option α) (N : Nat) (a : α) (h : tryDown f N = some a) :
    ∃ n, 1 ≤ n ∧ n ≤ N ∧ f n = some a := by
  induction N with
  | zero => simp [tryDown] at h
  | succ N ih =>
    simp only [tryDown] at h
    cases hf : f (N + 1) with
    | some b => rw [hf] at h; simp at h; subst h; exact ⟨N + 1, by omega, by omega, hf⟩
    | none =>
      rw [hf] at h
      obtain ⟨n, h1, h2, h3⟩ := ih h
      exact ⟨n, h1, by omega, h3⟩

theorem tryDown_first {α : Type} (f : Nat → Option α) (N n : Nat) (a : α) (h1 : 1 ≤ n) (h2 : n ≤ N) (h3 : f n = some a)
    (h4 : ∀ m, n < m → m ≤ N → f m = none) : tryDown f N = some a := by
  induction N with
  | zero => omega
  | succ N ih =>
    simp only [tryDown]
    by_cases h : n = N + 1
    · subst h; rw [h3]
    · rw [h4 (N + 1) (by omega) (by omega)]
      exact ih (by omega) (fun m hm hm' => h4 m hm (by omega))

theorem captures_count (d : Char) (r : List Item) (s : List Char) (g : List (List Char)) (h : captures r s = some g) :
    fixedCount d r ≤ s.count d := by
  induction r generalizing s g with
  | nil => simp [fixedCount]
  | cons i r ih =>
    cases i with
    | fixed t =>
      simp only [captures] at h
      cases hp : stripPrefix t s with
      | none => rw [hp] at h; simp at h
      | some s' =>
        rw [hp] at h
        rw [stripPrefix_eq_some.mp hp, List.count_append]
        have := ih s' g h
        simp only [fixedCount]; omega
    | group k =>
      simp only [captures] at h
      obtain ⟨n, -, -, hn⟩ := tryDown_some _ _ _ h
      cases hc : captures r (s.drop n) with
      | none => rw [hc] at hn; simp at hn
      | some g' =>
        have := ih _ _ hc
        simp only [fixedCount]
        exact Nat.le_trans this (List.Sublist.count_le d (List.drop_sublist n s))

theorem takeWhile_append_ge (k : Char → Bool) (v tail : List Char) (h : ∀ c ∈ v, k c = true) :
    v.length ≤ ((v ++ tail).takeWhile k).length := by
  induction v with
  | nil => simp
  | cons a v ih =>
    simp only [List.cons_append, List.takeWhile_cons, h a (by simp), if_true, List.length_cons]
    have := ih (fun c hc => h c (by simp [hc]))
    omega

theorem takeWhile_le (k : Char → Bool) (s : List Char) : (s.takeWhile k).length ≤ s.length :=
  (List.takeWhile_sublist k).length_le

/-- A group takes exactly the value if what follows is recognized. -/
theorem captures_group (k : Char → Bool) (r : List Item) (v tail : List Char) (g : List (List Char))
    (hv : v ≠ []) (hk : ∀ c ∈ v, k c = true) (hr : captures r tail = some g)
    (hd : tail = [] ∨ ∃ d tail', tail = d :: tail' ∧ tail.count d = fixedCount d r) :
    captures (.group k :: r) (v ++ tail) = some (v :: g) := by
  simp only [captures]
  apply tryDown_first _ _ v.length
  · cases v with
    | nil => exact absurd rfl hv
    | cons a v => simp
  · exact takeWhile_append_ge k v tail hk
  · simp [hr]
  · intro m hm hm'
    rcases hd with rfl | ⟨d, tail', rfl, hc⟩
    · have := takeWhile_le k (v ++ [])
      simp at this hm'
      omega
    · cases hcap : captures r ((v ++ d :: tail').drop m) with
      | none => rfl
      | some g' =>
        exfalso
        have h1 := captures_count d r _ g' hcap
        rw [List.drop_append] at h1
        have h2 : v.drop m = [] := List.drop_eq_nil_of_le (by omega)
        rw [h2, List.nil_append] at h1
        obtain ⟨q, hq⟩ : ∃ q, m - v.length = q + 1 := ⟨m - v.length - 1, by omega⟩
        rw [hq, List.drop_succ_cons] at h1
        have h3 := List.Sublist.count_le d (List.drop_sublist q tail')
        rw [← hc, List.count_cons_self] at h1
        omega

theorem expand_single (op : Operator) (s : VarSpec) (vars : List (List Char × List Char)) (v : List Char)
    (h1 : op ≠ .reserved) (h2 : ∀ n, s.modifier ≠ some (.prefix_ n)) (hv : lookupLast vars s.name = some v) :
    expandExpression (toMap vars) (.multiple op [s]) =
      opPrefix op ++ ((if named op then s.name ++ ['='] else []) ++ specEncode v) := by
  have : (op == Operator.reserved) = false := by cases op <;> simp_all
  have hm : modified s.modifier v = v := by
    cases hmod : s.modifier with
    | none => rfl
    | some m =>
      cases m with
      | explode => rfl
      | prefix_ n => exact absurd hmod (h2 n)
  simp only [expandExpression, expandMultiple, part, toMap_get, hv, hm, encodeValue, specEncode_eq, List.filterMap_cons,
    List.filterMap_nil, this, Bool.false_eq_true, if_false, List.isEmpty_cons, join]
  split <;> simp

theorem singleItems_eq (op : Operator) (name : List Char) :
    ∃ k, (singleItems op name = if op = .simple ∨ op = .reserved then [.group k]
        else [.fixed (opPrefix op ++ (if named op then name ++ ['='] else [])), .group k]) ∧
      (∀ c, (Unres c ∨ c = '%') → (op = .label → c ≠ '.') → k c = true) := by
  have hu : ∀ d : Char, ¬ Unres d → d ≠ '%' → ∀ c, (Unres c ∨ c = '%') → c ≠ d := by
    rintro d h1 h2 c (h | h) rfl
    · exact h1 h
    · exact h2 h
  have h1 := hu '/' (by decide) (by decide)
  have h2 := hu '\n' (by decide) (by decide)
  have h3 := hu ';' (by decide) (by decide)
  have h4 := hu '&' (by decide) (by decide)
  cases op <;> refine ⟨_, rfl, ?_⟩ <;> intro c hc hl <;> simp_all

theorem fixedCount_append (d : Char) (a b : List Item) : fixedCount d (a ++ b) = fixedCount d a + fixedCount d b := by
  induction a with
  | nil => simp [fixedCount]
  | cons i a ih => cases i <;> simp [fixedCount, ih] <;> omega

theorem count_encode (d : Char) (h : ¬ (Unres d ∨ d = '%')) (v : List Char) : (specEncode v).count d = 0 := by
  rw [List.count_eq_zero]
  intro hm
  exact h (specEncode_chars v d hm)

theorem given_cons {val : List Char → Option (List Char)} {e : Expression} {t : List Expression} (h : Given val (e :: t)) :
    Given val t := fun op s hs => h op s (by simp [hs])

theorem count_expand (d : Char) (hd : ¬ (Unres d ∨ d = '%')) (t : List Expression) (vars : List (List Char × List Char))
    (h : Separated t) (hg : Given (lookupLast vars) t) :
    (t.flatMap (expandExpression (toMap vars))).count d = fixedCount d (pattern t) := by
  induction t with
  | nil => rfl
  | cons e t ih =>
    cases e with
    | literal x =>
      have ih := ih h (given_cons hg)
      simp only [List.flatMap_cons, List.count_append, ih, expandExpression, pattern, exprItems, fixedCount,
        List.cons_append, List.nil_append]
    | multiple op specs =>
      match specs, h with
      | [s], h =>
        have ih := ih h.2.2.2 (given_cons hg)
        obtain ⟨v, hv, -⟩ := hg op s (by simp)
        rw [List.flatMap_cons, List.count_append, ih, expand_single op s vars v h.1 h.2.1 hv]
        simp only [pattern, List.flatMap_cons, fixedCount_append, exprItems]
        obtain ⟨k, hk, -⟩ := singleItems_eq op s.name
        rw [hk]
        simp only [List.count_append, count_encode d hd]
        cases op <;> simp [fixedCount, opPrefix, named, List.count_append, h.1]
        all_goals (simp only [List.count_cons, List.count_append, List.count_nil]; omega)

theorem captures_expand (t : List Expression) (vars : List (List Char × List Char)) (h : Separated t)
    (hg : Given (lookupLast vars) t) :
    captures (pattern t) (t.flatMap (expandExpression (toMap vars))) = some (encs (lookupLast vars) t) := by
  induction t with
  | nil => rfl
  | cons e t ih =>
    cases e with
    | literal x =>
      simp only [List.flatMap_cons, pattern, exprItems, List.cons_append, List.nil_append, captures, expandExpression,
        stripPrefix_append]
      exact ih h (given_cons hg)
    | multiple op specs =>
      match specs, h with
      | [s], h =>
        have ih := ih h.2.2.2 (given_cons hg)
        obtain ⟨v, hv, hne, hdot⟩ := hg op s (by simp)
        have hcap : ∀ k : Char → Bool, (∀ c, (Unres c ∨ c = '%') → (op = .label → c ≠ '.') → k c = true) →
            captures (.group k :: pattern t) (specEncode v ++ t.flatMap (expandExpression (toMap vars))) =
              some (specEncode v :: encs (lookupLast vars) t) := by
          intro k hk
          apply captures_group
          · cases v with
            | nil => exact absurd rfl hne
            | cons a v =>
              rw [specEncode_cons, specEncode_one]
              simp only [encodeChar]
              split
              · simp
              · have := Utf8.encodeNat_ne_nil a.toNat
                cases hb : Utf8.encodeChar a with
                | nil => exact absurd hb this
                | cons b l => simp [escapeByte]
          · intro c hc
            apply hk c (specEncode_chars v c hc)
            intro ho he
            subst he
            -- a dot in the encoding comes from a dot in the value
            rw [← specEncode_eq, List.mem_flatMap] at hc
            obtain ⟨a, ha, hc⟩ := hc
            have hdt := hdot ho
            simp only [encodeChar] at hc
            split at hc
            · simp at hc; exact hdt (hc ▸ ha)
            · simp only [List.mem_flatMap] at hc
              obtain ⟨b, hb, hc⟩ := hc
              have hb' := utf8_bytes a b hb
              have : ∀ b, b < 256 → '.' ∉ escapeByte b := by decide +kernel
              exact this b hb' hc
          · exact ih
          · have hf := h.2.2.1
            cases t with
            | nil => left; rfl
            | cons e' t' =>
              right
              have hct : ∀ d, ¬ (Unres d ∨ d = '%') → _ := fun d hd =>
                count_expand d hd (e' :: t') vars h.2.2.2 (given_cons hg)
              cases e' with
              | literal x =>
                cases x with
                | nil => exact hf.elim
                | cons d x =>
                  refine ⟨d, _, by rw [List.flatMap_cons]; simp only [expandExpression, List.cons_append]; rfl, ?_⟩
                  apply hct
                  rintro (h | h)
                  · exact hf.1 h
                  · exact hf.2 h
              | multiple op' specs' =>
                match specs', h.2.2.2 with
                | [s'], h' =>
                  obtain ⟨v', hv', -⟩ := hg op' s' (by simp)
                  have hx := expand_single op' s' vars v' h'.1 h'.2.1 hv'
                  have hp : ∃ d, opPrefix op' = [d] ∧ ¬ (Unres d ∨ d = '%') := by
                    simp only [Follows, List.mem_cons, List.not_mem_nil, or_false] at hf
                    rcases hf with rfl | rfl | rfl | rfl | rfl <;> exact ⟨_, rfl, by decide⟩
                  obtain ⟨d, hp, hd⟩ := hp
                  refine ⟨d, _, by
                    rw [List.flatMap_cons, hx, hp]; simp only [List.cons_append, List.nil_append]; rfl, hct d hd⟩
        obtain ⟨k, hk, hkc⟩ := singleItems_eq op s.name
        have hc := hcap k hkc
        rw [List.flatMap_cons, expand_single op s vars v h.1 h.2.1 hv]
        have hp : pattern (.multiple op [s] :: t) = singleItems op s.name ++ pattern t := rfl
        rw [hp, hk]
        have he : encs (lookupLast vars) (.multiple op [s] :: t) = specEncode v :: encs (lookupLast vars) t := by
          simp [encs, hv]
        rw [he]
        by_cases ho : op = .simple
        · subst ho
          simp only [true_or, if_true, opPrefix, named, List.nil_append, List.cons_append, Bool.false_eq_true, if_false]
          exact hc
        · rw [if_neg (by simp [ho, h.1])]
          simp only [List.cons_append, List.nil_append, captures]
          rw [← List.append_assoc (opPrefix op), List.append_assoc, stripPrefix_append]
          exact hc

theorem bind_get (val : List Char → Option (List Char)) (t : List Expression) (h : Separated t)
    (m : AMap (List Char) (List Char)) (x : List Char) :
    AMap.get (bind (encs val t) t m) x =
      if x ∈ variables t then some (specEncode ((val x).getD [])) else AMap.get m x := by
  induction t generalizing m with
  | nil => simp [bind, variables]
  | cons e t ih =>
    cases e with
    | literal y =>
      simp only [bind, varName, encs]
      rw [ih h]
      simp [variables]
    | multiple op specs =>
      match specs, h with
      | [s], h =>
        simp only [encs, bind, varName]
        rw [ih h.2.2.2]
        have hv : variables (.multiple op [s] :: t) = s.name :: variables t := by simp [variables]
        rw [hv]
        by_cases hx : x ∈ variables t
        · simp [hx]
        · by_cases he : x = s.name
          · subst he; simp [hx, AMap.get_insert_self]
          · rw [AMap.get_insert_ne _ _ he]; simp [hx, he]

/-- **C69**. Matching inverts expansion up to the encoding: for templates whose variables are separated by text
that no encoded value contains, and values that are not empty, `match_uri` binds every variable to the encoding
of its value. Missing from the property: decoding (`C69_undecoded`), several variables in an expression
(`C69_multi`), adjacent expressions (`C69_adjacent`), empty values (`C69_empty`), dots in labels
(`C69_label_dot`), reserved expansion. -/
theorem C69_match_partial (t : List Expression) (vars : List (List Char × List Char)) (h : Separated t)
    (hg : Given (lookupLast vars) t) :
    ∃ m, matchUri t (expand t vars) = some m ∧
      ∀ x, AMap.get m x = if x ∈ variables t then (lookupLast vars x).map specEncode else none := by
  refine ⟨_, by rw [matchUri, expand, captures_expand t vars h hg]; rfl, ?_⟩
  intro x
  rw [bind_get _ t h]
  split
  · next hx =>
    have : ∃ v, lookupLast vars x = some v := by
      simp only [variables, List.mem_flatMap] at hx
      obtain ⟨e, he, hx⟩ := hx
      cases e with
      | literal y => simp at hx
      | multiple op specs =>
        have hsep : ∀ t : List Expression, Separated t → .multiple op specs ∈ t → ∃ s, specs = [s] := by
          intro t
          induction t with
          | nil => intro _ h; cases h
          | cons e t ih =>
            intro h hm
            cases e with
            | literal y => simp at hm; exact ih h hm
            | multiple op' sp' =>
              match sp', h with
              | [s], h =>
                rcases List.mem_cons.mp hm with he | hm
                · simp at he; exact ⟨s, he.2⟩
                · exact ih h.2.2.2 hm
        obtain ⟨s, rfl⟩ := hsep t h he
        simp at hx; subst hx
        obtain ⟨v, hv, -⟩ := hg op s he
        exact ⟨v, hv⟩
    obtain ⟨v, hv⟩ := this
    simp [hv]
  · rfl

theorem specEncode_fixed (v : List Char) : specEncode v = v ↔ ∀ c ∈ v, Unres c := by
  constructor
  · intro h c hc
    rw [← h] at hc
    rcases specEncode_chars v c hc with h' | rfl
    · exact h'
    · -- a value equal to its encoding contains no percent sign
      exfalso
      rw [h] at hc
      have hlen : ∀ w : List Char, w.length ≤ (specEncode w).length ∧ ('%' ∈ w → w.length < (specEncode w).length) := by
        intro w
        induction w with
        | nil => simp
        | cons a w ih =>
          rw [specEncode_cons, specEncode_one, List.length_append, List.length_cons]
          have h1 : 1 ≤ (encodeChar a).length := by
            simp only [encodeChar]
            split
            · simp
            · have := Utf8.encodeNat_ne_nil a.toNat
              cases hb : Utf8.encodeChar a with
              | nil => exact absurd hb this
              | cons b l => simp [escapeByte]
          refine ⟨by omega, ?_⟩
          intro hm
          rcases List.mem_cons.mp hm with rfl | hm
          · have : (encodeChar '%').length = 3 := by decide +kernel
            omega
          · have := ih.2 hm; omega
      have := (hlen v).2 hc
      rw [h] at this
      omega
  · intro h
    induction v with
    | nil => rfl
    | cons c v ih =>
      rw [specEncode_cons, specEncode_one, ih (fun d hd => h d (by simp [hd]))]
      simp [encodeChar, (unreserved_iff c).mpr (h c (by simp))]

/-- **C69**. Exactly when the value itself comes back: if it consists of unreserved characters. -/
theorem C69_exact_partial (t : List Expression) (vars : List (List Char × List Char)) (h : Separated t)
    (hg : Given (lookupLast vars) t) (x v : List Char) (hx : x ∈ variables t) (hv : lookupLast vars x = some v) :
    (∃ m, matchUri t (expand t vars) = some m ∧ AMap.get m x = some v) ↔ ∀ c ∈ v, Unres c := by
  obtain ⟨m, hm, hmx⟩ := C69_match_partial t vars h hg
  rw [← specEncode_fixed]
  constructor
  · rintro ⟨m', hm', hget⟩
    rw [hm] at hm'; simp at hm'; subst hm'
    rw [hmx, if_pos hx, hv] at hget
    simpa using hget
  · intro he
    refine ⟨m, hm, ?_⟩
    rw [hmx, if_pos hx, hv]
    simp [he]

/-- **C69** fails for values that are encoded: they come back encoded. -/
theorem C69_undecoded (x v : List Char) (hv : ∃ c ∈ v, ¬ Unres c) :
    ∃ m, matchUri [.multiple .simple [⟨x, none⟩]] (expand [.multiple .simple [⟨x, none⟩]] [(x, v)]) = some m ∧
      AMap.get m x = some (specEncode v) ∧ specEncode v ≠ v := by
  have hl : lookupLast [(x, v)] x = some v := by simp [lookupLast]
  obtain ⟨c, hc, hu⟩ := hv
  have hne : v ≠ [] := by rintro rfl; cases hc
  obtain ⟨m, hm, hmx⟩ := C69_match_partial [.multiple .simple [⟨x, none⟩]] [(x, v)]
    ⟨by decide, by simp, trivial, trivial⟩ (by
      intro op s hs
      simp at hs
      obtain ⟨rfl, rfl⟩ := hs
      exact ⟨v, hl, hne, by simp⟩)
  refine ⟨m, hm, ?_, ?_⟩
  · rw [hmx]; simp [variables, hl]
  · intro he
    exact hu ((specEncode_fixed v).mp he c hc)

/-- (Specification: no counterpart in the code.) -/
def yName : List Char := ['y']
/-- (Specification: no counterpart in the code.) -/
def zName : List Char := ['z']

/-- **C69** fails for an expression of several variables: none is bound, and the next variable gets their text. -/
theorem C69_multi :
    let t : List Expression := [.multiple .simple [⟨xName, none⟩, ⟨yName, none⟩], .literal ['/'], .multiple .simple [⟨zName, none⟩]]
    let u := expand t [(xName, ['1']), (yName, ['2']), (zName, ['3'])]
    u = ['1', ',', '2', '/', '3'] ∧ (matchUri t u).map (fun m => (AMap.get m xName, AMap.get m yName, AMap.get m zName)) =
      some (none, none, some ['1', ',', '2']) := by
  decide +kernel

/-- **C69** fails for adjacent expressions: the first takes all but one character. -/
theorem C69_adjacent :
    let t : List Expression := [.multiple .simple [⟨xName, none⟩], .multiple .simple [⟨yName, none⟩]]
    let u := expand t [(xName, ['1']), (yName, ['2', '3'])]
    (matchUri t u).map (fun m => (AMap.get m xName, AMap.get m yName)) = some (some ['1', '2'], some ['3']) := by
  decide +kernel

/-- **C69** fails for text between variables that values may contain. -/
theorem C69_ambiguous :
    let t : List Expression := [.multiple .simple [⟨xName, none⟩], .literal ['-'], .multiple .simple [⟨yName, none⟩]]
    let u := expand t [(xName, ['1']), (yName, ['2', '-', '3'])]
    (matchUri t u).map (fun m => (AMap.get m xName, AMap.get m yName)) = some (some ['1', '-', '2'], some ['3']) := by
  decide +kernel

/-- **C69** fails for empty values: nothing matches. -/
theorem C69_empty (x : List Char) :
    matchUri [.multiple .simple [⟨x, none⟩]] (expand [.multiple .simple [⟨x, none⟩]] [(x, [])]) = none := by
  have hl : lookupLast [(x, ([] : List Char))] x = some [] := by simp [lookupLast]
  simp [expand, expandExpression, expandMultiple, part, toMap_get, hl, modified, named, encodeValue, opPrefix, join, matchUri,
    pattern, exprItems, singleItems, captures, tryDown]

/-- **C69** fails for a dot in a label: nothing matches. -/
theorem C69_label_dot :
    matchUri [.multiple .label [⟨xName, none⟩]] (expand [.multiple .label [⟨xName, none⟩]] [(xName, ['1', '.', '5'])]) =
      none := by decide +kernel

/-- The URI that a template of one-variable expressions gives with values put in as they are.
(Specification: no counterpart in the code.) -/
def fill (m : AMap (List Char) (List Char)) : Expression → List Char
  | .literal t => t
  | .multiple op specs => opPrefix op ++ specs.flatMap (fun s =>
      (if named op then s.name ++ ['='] else []) ++ (AMap.get m s.name).getD [])

/-- (Specification: no counterpart in the code.) -/
def fillItems : List Item → List (List Char) → List Char
  | [], _ => []
  | .fixed t :: r, g => t ++ fillItems r g
  | .group _ :: r, g :: gs => g ++ fillItems r gs
  | .group _ :: _, [] => []

/-- (Specification: no counterpart in the code.) -/
def groupCount : List Item → Nat
  | [] => 0
  | .fixed _ :: r => groupCount r
  | .group _ :: r => groupCount r + 1

theorem captures_sound (r : List Item) (s : List Char) (g : List (List Char)) (h : captures r s = some g) :
    s = fillItems r g ∧ g.length = groupCount r ∧ ∀ x ∈ g, x ≠ [] := by
  induction r generalizing s g with
  | nil =>
    simp only [captures] at h
    split at h
    · next he => simp at h; subst h; exact ⟨List.isEmpty_iff.mp he, rfl, by simp⟩
    · cases h
  | cons i r ih =>
    cases i with
    | fixed t =>
      simp only [captures] at h
      cases hp : stripPrefix t s with
      | none => rw [hp] at h; simp at h
      | some s' =>
        rw [hp] at h
        obtain ⟨h1, h2, h3⟩ := ih s' g h
        exact ⟨by rw [stripPrefix_eq_some.mp hp, fillItems, ← h1], h2, h3⟩
    | group k =>
      simp only [captures] at h
      obtain ⟨n, hn1, hn2, hn⟩ := tryDown_some _ _ _ h
      cases hc : captures r (s.drop n) with
      | none => rw [hc] at hn; simp at hn
      | some g' =>
        rw [hc] at hn
        simp at hn; subst hn
        obtain ⟨h1, h2, h3⟩ := ih _ _ hc
        refine ⟨by rw [fillItems, ← h1, List.take_append_drop], by simp [groupCount, h2], ?_⟩
        intro x hx
        rcases List.mem_cons.mp hx with rfl | hx
        · intro he
          have hl := takeWhile_le k s
          have := congrArg List.length he
          simp only [List.length_take, List.length_nil] at this
          omega
        · exact h3 x hx

/-- Each expression has one variable. (Specification: no counterpart in the code.) -/
def OneEach : List Expression → Prop
  | [] => True
  | .literal _ :: t => OneEach t
  | .multiple _ [_] :: t => OneEach t
  | .multiple _ _ :: _ => False

theorem bind_other (t : List Expression) (h : OneEach t) (g : List (List Char)) (m : AMap (List Char) (List Char))
    (x : List Char) (hx : x ∉ variables t) : AMap.get (bind g t m) x = AMap.get m x := by
  induction t generalizing g m with
  | nil => rfl
  | cons e t ih =>
    cases e with
    | literal y =>
      simp only [bind, varName]
      exact ih h g m (by simpa [variables] using hx)
    | multiple op specs =>
      match specs, h with
      | [s], h =>
        have hv : variables (.multiple op [s] :: t) = s.name :: variables t := by simp [variables]
        rw [hv] at hx
        simp only [List.mem_cons, not_or] at hx
        cases g with
        | nil => simp only [bind, varName]; exact ih h [] m hx.2
        | cons a g =>
          simp only [bind, varName]
          rw [ih h g _ hx.2, AMap.get_insert_ne _ _ hx.1]

/-- **C69**. Matching is sound: if a URI matches, it is the template with the bound values put in, and no value is
empty; for one variable per expression and distinct variables. -/
theorem C69_sound (t : List Expression) (h : OneEach t) (hd : (variables t).Nodup) (u : List Char)
    (m : AMap (List Char) (List Char)) (hm : matchUri t u = some m) :
    u = t.flatMap (fill m) ∧ ∀ x ∈ variables t, ∃ v, AMap.get m x = some v ∧ v ≠ [] := by
  simp only [matchUri, Option.map_eq_some_iff] at hm
  obtain ⟨g, hg, hm⟩ := hm
  obtain ⟨h1, h2, h3⟩ := captures_sound _ _ _ hg
  subst h1
  clear hg
  have key : ∀ (t : List Expression) (g : List (List Char)) (m0 : AMap (List Char) (List Char)), OneEach t →
      (variables t).Nodup → g.length = groupCount (pattern t) → (∀ x ∈ g, x ≠ []) →
      fillItems (pattern t) g = t.flatMap (fill (bind g t m0)) ∧
      ∀ x ∈ variables t, ∃ v, AMap.get (bind g t m0) x = some v ∧ v ≠ [] := by
    intro t
    induction t with
    | nil => intro g m0 _ _ _ _; exact ⟨rfl, by simp [variables]⟩
    | cons e t ih =>
      intro g m0 h hd hl hne
      cases e with
      | literal y =>
        have hv : variables (.literal y :: t) = variables t := by simp [variables]
        rw [hv] at hd ⊢
        have hp : pattern (.literal y :: t) = .fixed y :: pattern t := rfl
        rw [hp] at hl ⊢
        obtain ⟨i1, i2⟩ := ih g m0 h hd hl hne
        simp only [fillItems, bind, varName, List.flatMap_cons, fill]
        exact ⟨by rw [i1], i2⟩
      | multiple op specs =>
        match specs, h with
        | [s], h =>
          have hv : variables (.multiple op [s] :: t) = s.name :: variables t := by simp [variables]
          rw [hv] at hd ⊢
          have hd' := List.nodup_cons.mp hd
          have hp : pattern (.multiple op [s] :: t) = singleItems op s.name ++ pattern t := rfl
          obtain ⟨k, hk, -⟩ := singleItems_eq op s.name
          rw [hp, hk] at hl ⊢
          cases g with
          | nil =>
            exfalso
            split at hl <;> simp [groupCount] at hl
          | cons a g =>
            have hl' : g.length = groupCount (pattern t) := by
              split at hl <;> simp [groupCount] at hl <;> exact hl
            obtain ⟨i1, i2⟩ := ih g (AMap.insert m0 s.name a) h hd'.2 hl' (fun x hx => hne x (by simp [hx]))
            have hget : AMap.get (bind g t (AMap.insert m0 s.name a)) s.name = some a := by
              rw [bind_other t h g _ _ hd'.1, AMap.get_insert_self]
            refine ⟨?_, ?_⟩
            · simp only [bind, varName, List.flatMap_cons, fill, hget, Option.getD_some, List.flatMap_nil, List.append_nil]
              rw [← i1]
              split
              · next ho =>
                rcases ho with rfl | rfl <;> simp [fillItems, opPrefix, named]
              · simp [fillItems]
            · intro x hx
              simp only [bind, varName]
              rcases List.mem_cons.mp hx with rfl | hx
              · exact ⟨a, hget, hne a (by simp)⟩
              · exact i2 x hx
  rw [← hm]
  exact key t g [] h hd h2 h3

/-- (Specification: no counterpart in the code.) -/
def usersTemplate : List Expression :=
  [.literal ['/'], .multiple .simple [⟨xName, none⟩], .literal ['/'], .multiple .simple [⟨yName, none⟩],
   .multiple .query [⟨zName, none⟩]]

example : Separated usersTemplate ∧ Given (lookupLast [(xName, ['1']), (yName, ['a', '/']), (zName, ['?'])]) usersTemplate := by
  refine ⟨⟨by decide, by simp, by simp [Follows]; decide, by decide, by simp, by simp [Follows], by decide, by simp, trivial,
    trivial⟩, ?_⟩
  intro op s hs
  simp [usersTemplate] at hs
  rcases hs with ⟨rfl, rfl⟩ | ⟨rfl, rfl⟩ | ⟨rfl, rfl⟩
  · exact ⟨['1'], by decide, by decide, by simp⟩
  · exact ⟨['a', '/'], by decide, by decide, by simp⟩
  · exact ⟨['?'], by decide, by decide, by simp⟩

example : OneEach usersTemplate ∧ (variables usersTemplate).Nodup := ⟨by simp [usersTemplate, OneEach], by decide⟩

end Verif.UriTemplate
