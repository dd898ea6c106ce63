/-
Decimal printing and parsing of integers, as done by Rust's `Display` for integers and
`str::parse::<usize/u64/i64>()` (std library; trusted base says that std does what is written
here).
-/

namespace Verif.Decimal

/-- The character of a digit below ten. (Library: no counterpart in /repo.) -/
def digitChar (d : Nat) : Char := Char.ofNat (48 + d)

/-- Value of a decimal digit character. (Library: no counterpart in /repo.) -/
def digitVal (c : Char) : Option Nat :=
  if 48 ≤ c.toNat ∧ c.toNat ≤ 57 then some (c.toNat - 48) else none

/-- Rust `Display` for unsigned integers: most significant digit first, no leading zeros.
(Library: no counterpart in /repo.) -/
def showNat (n : Nat) : List Char :=
  if n < 10 then [digitChar n] else showNat (n / 10) ++ [digitChar (n % 10)]
termination_by n

/-- Rust `Display` for signed integers. (Library: no counterpart in /repo.) -/
def showInt : Int → List Char
  | .ofNat n => showNat n
  | .negSucc n => '-' :: showNat (n + 1)

/-- Accumulate decimal digits; `none` on any other character. (Library: no counterpart in /repo.) -/
def digits (acc : Nat) : List Char → Option Nat
  | [] => some acc
  | c :: cs => match digitVal c with
    | some d => digits (acc * 10 + d) cs
    | none => none

/-- Nonempty digit string. (Library: no counterpart in /repo.) -/
def parseDigits : List Char → Option Nat
  | [] => none
  | c :: cs => digits 0 (c :: cs)

/-- An optional leading `+`. (Library: no counterpart in /repo.) -/
def stripPlus : List Char → List Char
  | [] => []
  | c :: rest => if c = '+' then rest else c :: rest

/-- `str::parse::<uN>()` for an unsigned type with `limit` values (2^64 for `usize`, `u64`):
an optional `+`, then at least one digit, and the value must be representable. (Library: no counterpart in /repo.) -/
def parseUnsigned (limit : Nat) (cs : List Char) : Option Nat :=
  match parseDigits (stripPlus cs) with
  | some n => if n < limit then some n else none
  | none => none

/-- `str::parse::<i64>()`: optional sign, digits, in range. (Library: no counterpart in /repo.) -/
def parseI64 (cs : List Char) : Option Int :=
  match cs with
  | '-' :: rest =>
    match parseDigits rest with
    | some n => if n ≤ 2 ^ 63 then some (-(n : Int)) else none
    | none => none
  | '+' :: rest =>
    match parseDigits rest with
    | some n => if n < 2 ^ 63 then some n else none
    | none => none
  | _ =>
    match parseDigits cs with
    | some n => if n < 2 ^ 63 then some n else none
    | none => none

theorem toNat_digitChar {d : Nat} (h : d < 10) : (digitChar d).toNat = 48 + d := by
  unfold digitChar
  have : (48 + d).isValidChar := by left; omega
  simp [Char.ofNat, this, Char.toNat, Char.ofNatAux]
  omega

theorem digitVal_digitChar {d : Nat} (h : d < 10) : digitVal (digitChar d) = some d := by
  unfold digitVal
  rw [toNat_digitChar h]
  simp; omega

theorem digits_append (a : Nat) (xs ys : List Char) :
    digits a (xs ++ ys) = (digits a xs).bind (fun b => digits b ys) := by
  induction xs generalizing a with
  | nil => rfl
  | cons x xs ih =>
    simp only [List.cons_append, digits]
    cases digitVal x with
    | none => rfl
    | some d => exact ih _

theorem showNat_ne_nil (n : Nat) : showNat n ≠ [] := by
  rw [showNat]
  split <;> simp

theorem digits_showNat (n : Nat) : digits 0 (showNat n) = some n := by
  induction n using Nat.strongRecOn with
  | _ n ih =>
    rw [showNat]
    split
    · rename_i h
      simp [digits, digitVal_digitChar h]
    · rename_i h
      rw [digits_append, ih (n / 10) (by omega)]
      simp only [Option.bind_some, digits, digitVal_digitChar (Nat.mod_lt n (by omega : 10 > 0))]
      congr 1
      omega

theorem parseDigits_showNat (n : Nat) : parseDigits (showNat n) = some n := by
  have h1 := showNat_ne_nil n
  have h2 := digits_showNat n
  cases hs : showNat n with
  | nil => exact absurd hs h1
  | cons c cs => rw [hs] at h2; exact h2

theorem showNat_all_digits (n : Nat) : ∀ c ∈ showNat n, 48 ≤ c.toNat ∧ c.toNat ≤ 57 := by
  induction n using Nat.strongRecOn with
  | _ n ih =>
    rw [showNat]
    split
    · rename_i h
      intro c hc
      rw [List.mem_singleton] at hc
      subst hc
      rw [toNat_digitChar h]; omega
    · rename_i h
      intro c hc
      rw [List.mem_append, List.mem_singleton] at hc
      rcases hc with hc | hc
      · exact ih (n / 10) (by omega) c hc
      · subst hc
        rw [toNat_digitChar (Nat.mod_lt n (by omega))]
        have := Nat.mod_lt n (by omega : 10 > 0)
        omega

theorem showNat_head_digit (n : Nat) (c : Char) (cs : List Char) (h : showNat n = c :: cs) :
    48 ≤ c.toNat ∧ c.toNat ≤ 57 :=
  showNat_all_digits n c (by rw [h]; exact List.mem_cons_self)

theorem parseUnsigned_showNat {limit n : Nat} (h : n < limit) :
    parseUnsigned limit (showNat n) = some n := by
  unfold parseUnsigned
  have hb : stripPlus (showNat n) = showNat n := by
    cases he : showNat n with
    | nil => rfl
    | cons c rest =>
      have := showNat_head_digit n _ _ he
      have hc : c ≠ '+' := by rintro rfl; simp at this
      simp [stripPlus, hc]
  rw [hb]
  simp only [parseDigits_showNat, h, if_true]

theorem showNat_injective {a b : Nat} (h : showNat a = showNat b) : a = b := by
  have h1 := digits_showNat a
  rw [h, digits_showNat b] at h1
  cases h1
  rfl

theorem showInt_injective {a b : Int} (h : showInt a = showInt b) : a = b := by
  cases a with
  | ofNat m =>
    cases b with
    | ofNat n =>
      rw [showNat_injective (show showNat m = showNat n from h)]
    | negSucc n =>
      have h' : showNat m = '-' :: showNat (n + 1) := h
      have := showNat_head_digit m _ _ h'
      simp at this
  | negSucc m =>
    cases b with
    | ofNat n =>
      have h' : showNat n = '-' :: showNat (m + 1) := h.symm
      have := showNat_head_digit n _ _ h'
      simp at this
    | negSucc n =>
      have h' : '-' :: showNat (m + 1) = '-' :: showNat (n + 1) := h
      simp only [List.cons.injEq, true_and] at h'
      have := showNat_injective h'
      congr 1
      omega

theorem parseI64_showInt (i : Int) (h1 : -(2 ^ 63) ≤ i) (h2 : i < 2 ^ 63) :
    parseI64 (showInt i) = some i := by
  cases i with
  | ofNat n =>
    have hn : n < 2 ^ 63 := by
      have : (n : Int) < 2 ^ 63 := h2
      omega
    show parseI64 (showNat n) = _
    unfold parseI64
    split
    · rename_i rest he
      have := showNat_head_digit n _ _ he
      simp at this
    · rename_i rest he
      have := showNat_head_digit n _ _ he
      simp at this
    · rw [parseDigits_showNat]
      simp only [hn, if_true]
      rfl
  | negSucc n =>
    have hn : n + 1 ≤ 2 ^ 63 := by
      have : -(2 ^ 63) ≤ Int.negSucc n := h1
      omega
    show parseI64 ('-' :: showNat (n + 1)) = _
    simp only [parseI64, parseDigits_showNat, hn, if_true]
    rfl

end Verif.Decimal
