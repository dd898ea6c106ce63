/-
UTF-8 over byte values (`Nat`).  `encode` is the definition of the encoding (RFC 3629); `decode` is
a strict decoder, proved to accept exactly the encodings of character sequences.  It stands for
Rust's `str::from_utf8`.
-/

namespace Verif.Utf8

/-- Encoding of one scalar value (RFC 3629 section 3). (Library: no counterpart in /repo.) -/
def encodeNat (n : Nat) : List Nat :=
  if n < 0x80 then [n]
  else if n < 0x800 then [0xC0 + n / 0x40, 0x80 + n % 0x40]
  else if n < 0x10000 then [0xE0 + n / 0x1000, 0x80 + n / 0x40 % 0x40, 0x80 + n % 0x40]
  else [0xF0 + n / 0x40000, 0x80 + n / 0x1000 % 0x40, 0x80 + n / 0x40 % 0x40, 0x80 + n % 0x40]

/-- Encoding of one character. (Library: no counterpart in /repo.) -/
def encodeChar (c : Char) : List Nat := encodeNat c.toNat

/-- Encoding of a string. (Library: no counterpart in /repo.) -/
def encode (s : List Char) : List Nat := s.flatMap encodeChar

/-- Unicode scalar values. (Library: no counterpart in /repo.) -/
def isScalar (n : Nat) : Bool := n < 0xD800 || (0xDFFF < n && n < 0x110000)

/-- Continuation byte. (Library: no counterpart in /repo.) -/
def isCont (b : Nat) : Bool := 0x80 ≤ b && b < 0xC0

/-- Decode the first scalar value strictly; returns it with the remaining bytes.
(Library: no counterpart in /repo.) -/
def decodeOne : List Nat → Option (Nat × List Nat)
  | [] => none
  | b0 :: r =>
    if b0 < 0x80 then some (b0, r)
    else if b0 < 0xC0 then none
    else if b0 < 0xE0 then
      match r with
      | b1 :: r =>
        let n := (b0 - 0xC0) * 0x40 + (b1 - 0x80)
        if isCont b1 && decide (0x80 ≤ n) then some (n, r) else none
      | _ => none
    else if b0 < 0xF0 then
      match r with
      | b1 :: b2 :: r =>
        let n := (b0 - 0xE0) * 0x1000 + (b1 - 0x80) * 0x40 + (b2 - 0x80)
        if isCont b1 && isCont b2 && decide (0x800 ≤ n) && isScalar n then some (n, r) else none
      | _ => none
    else if b0 < 0xF8 then
      match r with
      | b1 :: b2 :: b3 :: r =>
        let n := (b0 - 0xF0) * 0x40000 + (b1 - 0x80) * 0x1000 + (b2 - 0x80) * 0x40 + (b3 - 0x80)
        if isCont b1 && isCont b2 && isCont b3 && decide (0x10000 ≤ n) && isScalar n then some (n, r)
        else none
      | _ => none
    else none

theorem decodeOne_length {b : List Nat} {n : Nat} {r : List Nat} (h : decodeOne b = some (n, r)) :
    r.length < b.length := by
  unfold decodeOne at h
  split at h
  · cases h
  · (repeat' split at h) <;> simp_all <;> omega

/-- Strict decoder. (Library: no counterpart in /repo.) -/
def decode (b : List Nat) : Option (List Char) :=
  match b with
  | [] => some []
  | x :: xs =>
    match h : decodeOne (x :: xs) with
    | none => none
    | some (n, r) => (decode r).map (Char.ofNat n :: ·)
termination_by b.length
decreasing_by exact decodeOne_length h

theorem isScalar_char (c : Char) : isScalar c.toNat = true := by
  have h := c.valid
  unfold isScalar
  have hn : c.toNat = c.val.toNat := rfl
  simp only [Bool.or_eq_true, Bool.and_eq_true, decide_eq_true_eq, hn]
  rcases h with h | ⟨h1, h2⟩
  · left; exact h
  · right; exact ⟨h1, h2⟩

theorem ofNat_toNat {n : Nat} (h : isScalar n = true) : (Char.ofNat n).toNat = n := by
  unfold isScalar at h
  simp only [Bool.or_eq_true, Bool.and_eq_true, decide_eq_true_eq] at h
  have : n.isValidChar := by
    rcases h with h | h
    · left; exact h
    · right; exact h
  simp [Char.ofNat, this, Char.toNat, Char.ofNatAux]

/-- The strict decoder reads back what the encoder wrote. -/
theorem decodeOne_encode (n : Nat) (h : isScalar n = true) (r : List Nat) :
    decodeOne (encodeNat n ++ r) = some (n, r) := by
  have hs := h
  unfold isScalar at h
  simp only [Bool.or_eq_true, Bool.and_eq_true, decide_eq_true_eq] at h
  unfold encodeNat
  split
  · rename_i h1
    simp [decodeOne, h1]
  · split
    · rename_i h1 h2
      have e1 : (192 + n / 64 - 192) * 64 + (128 + n % 64 - 128) = n := by omega
      simp only [List.cons_append, List.nil_append, decodeOne]
      rw [if_neg (by omega), if_neg (by omega), if_pos (by omega), e1]
      have : isCont (128 + n % 64) = true := by simp [isCont]; omega
      simp [this]; omega
    · split
      · rename_i h1 h2 h3
        have e1 : (224 + n / 4096 - 224) * 4096 + (128 + n / 64 % 64 - 128) * 64 +
            (128 + n % 64 - 128) = n := by omega
        simp only [List.cons_append, List.nil_append, decodeOne]
        rw [if_neg (by omega), if_neg (by omega), if_neg (by omega), if_pos (by omega), e1]
        have c1 : isCont (128 + n / 64 % 64) = true := by simp [isCont]; omega
        have c2 : isCont (128 + n % 64) = true := by simp [isCont]; omega
        simp [c1, c2, hs]; omega
      · rename_i h1 h2 h3
        have e1 : (240 + n / 262144 - 240) * 262144 + (128 + n / 4096 % 64 - 128) * 4096 +
            (128 + n / 64 % 64 - 128) * 64 + (128 + n % 64 - 128) = n := by omega
        simp only [List.cons_append, List.nil_append, decodeOne]
        rw [if_neg (by omega), if_neg (by omega), if_neg (by omega), if_neg (by omega),
          if_pos (by omega), e1]
        have c0 : isCont (128 + n / 4096 % 64) = true := by simp [isCont]; omega
        have c1 : isCont (128 + n / 64 % 64) = true := by simp [isCont]; omega
        have c2 : isCont (128 + n % 64) = true := by simp [isCont]; omega
        simp [c0, c1, c2, hs]; omega

/-- Whatever the strict decoder accepts is the encoding of the value it returns. -/
theorem decodeOne_sound {b r : List Nat} {n : Nat} (h : decodeOne b = some (n, r)) :
    b = encodeNat n ++ r ∧ isScalar n = true := by
  unfold decodeOne at h
  split at h
  · cases h
  · rename_i b0 t
    split at h
    · rename_i h0
      simp only [Option.some.injEq, Prod.mk.injEq] at h
      obtain ⟨rfl, rfl⟩ := h
      simp [encodeNat, h0, isScalar]; omega
    · split at h
      · cases h
      · split at h
        · split at h
          · rename_i h1 h2 h3 _ b1 t'
            dsimp only at h
            split at h
            · rename_i hc
              simp only [Bool.and_eq_true, decide_eq_true_eq, isCont] at hc
              simp only [Option.some.injEq, Prod.mk.injEq] at h
              obtain ⟨hn, rfl⟩ := h
              unfold encodeNat
              rw [if_neg (by omega), if_pos (by omega)]
              refine ⟨?_, by simp [isScalar]; omega⟩
              simp only [List.cons_append, List.nil_append, List.cons.injEq, and_true]
              omega
            · cases h
          · cases h
        · split at h
          · split at h
            · rename_i h1 h2 h3 h4 _ b1 b2 t'
              dsimp only at h
              split at h
              · rename_i hc
                simp only [Bool.and_eq_true, decide_eq_true_eq, isCont] at hc
                simp only [Option.some.injEq, Prod.mk.injEq] at h
                obtain ⟨hn, rfl⟩ := h
                unfold encodeNat
                rw [if_neg (by omega), if_neg (by omega), if_pos (by omega)]
                refine ⟨?_, by rw [← hn]; exact hc.2⟩
                simp only [List.cons_append, List.nil_append, List.cons.injEq, and_true]
                omega
              · cases h
            · cases h
          · split at h
            · split at h
              · rename_i h1 h2 h3 h4 h5 _ b1 b2 b3 t'
                dsimp only at h
                split at h
                · rename_i hc
                  simp only [Bool.and_eq_true, decide_eq_true_eq, isCont] at hc
                  simp only [Option.some.injEq, Prod.mk.injEq] at h
                  obtain ⟨hn, rfl⟩ := h
                  unfold encodeNat
                  rw [if_neg (by omega), if_neg (by omega), if_neg (by omega)]
                  refine ⟨?_, by rw [← hn]; exact hc.2⟩
                  simp only [List.cons_append, List.nil_append, List.cons.injEq, and_true]
                  omega
                · cases h
              · cases h
            · cases h

theorem encodeNat_ne_nil (n : Nat) : encodeNat n ≠ [] := by
  unfold encodeNat
  (repeat' split) <;> simp

/-- Every encoded string decodes to itself. -/
theorem decode_encode (s : List Char) : decode (encode s) = some s := by
  induction s with
  | nil => simp [encode, decode]
  | cons c s ih =>
    have he : encode (c :: s) = encodeNat c.toNat ++ encode s := by
      simp [encode, encodeChar]
    have h1 := decodeOne_encode c.toNat (isScalar_char c) (encode s)
    rw [he]
    cases hb : encodeNat c.toNat with
    | nil => exact absurd hb (encodeNat_ne_nil _)
    | cons x xs =>
      rw [hb] at h1
      rw [List.cons_append] at h1 ⊢
      rw [decode]
      split
      · rename_i h2; rw [h2] at h1; cases h1
      · rename_i n r h2
        rw [h2] at h1
        simp only [Option.some.injEq, Prod.mk.injEq] at h1
        obtain ⟨rfl, rfl⟩ := h1
        rw [ih]
        simp

/-- Whatever decodes is the encoding of the result. -/
theorem encode_of_decode {b : List Nat} {s : List Char} (h : decode b = some s) : b = encode s := by
  induction hl : b.length using Nat.strongRecOn generalizing b s with
  | _ k ih =>
    cases b with
    | nil => rw [decode] at h; cases h; rfl
    | cons x xs =>
      rw [decode] at h
      split at h
      · cases h
      · rename_i n r h2
        cases hd : decode r with
        | none => simp [hd] at h
        | some t =>
          rw [hd] at h
          simp only [Option.map_some, Option.some.injEq] at h
          subst h
          have hr := ih r.length (by have := decodeOne_length h2; omega) hd rfl
          obtain ⟨h3, h4⟩ := decodeOne_sound h2
          rw [h3, hr]
          simp [encode, encodeChar, ofNat_toNat h4]

/-- Valid UTF-8: the encoding of some character sequence. (Library: no counterpart in /repo.) -/
def Valid (b : List Nat) : Prop := ∃ s, b = encode s

theorem decode_isSome_iff (b : List Nat) : (decode b).isSome = true ↔ Valid b := by
  constructor
  · intro h
    obtain ⟨s, hs⟩ := Option.isSome_iff_exists.mp h
    exact ⟨s, encode_of_decode hs⟩
  · rintro ⟨s, rfl⟩
    rw [decode_encode]; rfl

theorem encode_append (a b : List Char) : encode (a ++ b) = encode a ++ encode b := by
  simp [encode]

theorem encodeChar_ascii {c : Char} (h : c.toNat < 0x80) : encodeChar c = [c.toNat] := by
  simp [encodeChar, encodeNat, h]

/-- Number of bytes of a character. (Library: no counterpart in /repo.) -/
def charLen (c : Char) : Nat := (encodeChar c).length

end Verif.Utf8
