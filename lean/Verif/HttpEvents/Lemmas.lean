import Verif.HttpEvents.Model
import Verif.Sse.Props

/-
What `from_utf8_lossy` does with whole characters and with the two parts of a character that was cut.
-/

namespace Verif.HttpEvents

open Verif Verif.Sse

theorem lossy_some {b r : List Nat} {n : Nat} (h : Utf8.decodeOne b = some (n, r)) : lossy b = Char.ofNat n :: lossy r := by
  cases b with
  | nil => cases h
  | cons x xs =>
    rw [lossy]
    split
    · next n' r' h' => rw [h] at h'; cases h'; rfl
    · next h' => rw [h] at h'; cases h'

theorem lossy_none {b : List Nat} (hb : b ≠ []) (h : Utf8.decodeOne b = none) :
    lossy b = bad :: lossy (b.drop (badLen b)) := by
  cases b with
  | nil => exact absurd rfl hb
  | cons x xs =>
    rw [lossy]
    split
    · next n' r' h' => rw [h] at h'; cases h'
    · rfl

theorem lossy_char (c : Char) (r : List Nat) : lossy (Utf8.encodeChar c ++ r) = c :: lossy r := by
  have h := Utf8.decodeOne_encode c.toNat (Utf8.isScalar_char c) r
  rw [show Utf8.encodeChar c = Utf8.encodeNat c.toNat from rfl, lossy_some h, Char.ofNat_toNat]

/-- Whole characters are read as they were written. -/
theorem lossy_encode (s : Text) (r : List Nat) : lossy (Utf8.encode s ++ r) = s ++ lossy r := by
  induction s with
  | nil => simp [Utf8.encode]
  | cons c s ih =>
    have : Utf8.encode (c :: s) ++ r = Utf8.encodeChar c ++ (Utf8.encode s ++ r) := by simp [Utf8.encode]
    rw [this, lossy_char, ih]; rfl

theorem lossy_nil : lossy [] = [] := by rw [lossy]

theorem lossy_whole (s : Text) : lossy (Utf8.encode s) = s := by
  have := lossy_encode s []
  simpa [lossy_nil] using this

/-- Every continuation byte on its own is read as one replacement character. -/
theorem lossy_conts (l r : List Nat) (h : ∀ b ∈ l, Utf8.isCont b = true) :
    lossy (l ++ r) = List.replicate l.length bad ++ lossy r := by
  induction l with
  | nil => rfl
  | cons b l ih =>
    have hb := h b (List.mem_cons_self ..)
    simp only [Utf8.isCont, Bool.and_eq_true, decide_eq_true_eq] at hb
    have hd : Utf8.decodeOne (b :: (l ++ r)) = none := by
      simp only [Utf8.decodeOne]
      rw [if_neg (by omega), if_pos (by omega)]
    have hl : badLen (b :: (l ++ r)) = 1 := by
      unfold badLen
      split
      · next he =>
        simp only [List.cons.injEq] at he
        obtain ⟨rfl, -⟩ := he
        rw [if_neg (by omega), if_neg (by omega)]
      · rfl
    rw [List.cons_append, lossy_none (by simp) hd, hl]
    simp only [List.drop_succ_cons, List.drop_zero, List.length_cons, List.replicate_succ, List.cons_append]
    rw [ih (fun x hx => h x (List.mem_cons_of_mem _ hx))]

/-- The bytes of a character after the first are continuation bytes. -/
theorem conts_tail (c : Char) (k : Nat) (hk : 0 < k) : ∀ b ∈ (Utf8.encodeChar c).drop k, Utf8.isCont b = true := by
  intro b hb
  have hb : b ∈ (Utf8.encodeChar c).drop 1 := by
    have : (Utf8.encodeChar c).drop k = ((Utf8.encodeChar c).drop 1).drop (k - 1) := by
      rw [List.drop_drop]; congr 1; omega
    rw [this] at hb
    exact List.mem_of_mem_drop hb
  simp only [Utf8.encodeChar, Utf8.encodeNat] at hb
  split at hb
  · simp at hb
  · split at hb
    · simp at hb; subst hb; simp [Utf8.isCont]; omega
    · split at hb
      · simp at hb
        rcases hb with rfl | rfl <;> simp [Utf8.isCont] <;> omega
      · simp at hb
        rcases hb with rfl | rfl | rfl <;> simp [Utf8.isCont] <;> omega

/-- A character cut after `k` of its bytes: the first part is read as one replacement character. -/
theorem lossy_cut (c : Char) (k : Nat) (hk : 0 < k) (hl : k < (Utf8.encodeChar c).length) :
    lossy ((Utf8.encodeChar c).take k) = [bad] := by
  have hs := Utf8.isScalar_char c
  simp only [Utf8.isScalar, Bool.or_eq_true, Bool.and_eq_true, decide_eq_true_eq] at hs
  have one : ∀ b, 0xC0 ≤ b → lossy [b] = [bad] := by
    intro b hb
    have hd : Utf8.decodeOne [b] = none := by
      simp only [Utf8.decodeOne]
      rw [if_neg (by omega), if_neg (by omega)]
      repeat' split
      all_goals rfl
    rw [lossy_none (by simp) hd]
    simp [badLen, lossy_nil]
  have ok : ∀ b0 b1 : Nat, Utf8.isCont b1 = true → (b0 = 0xE0 → 0xA0 ≤ b1) → (b0 = 0xED → b1 < 0xA0) →
      (b0 = 0xF0 → 0x90 ≤ b1) → (b0 = 0xF4 → b1 < 0x90) → okSecond b0 b1 = true := by
    intro b0 b1 h h1 h2 h3 h4
    have h' := h
    simp only [Utf8.isCont, Bool.and_eq_true, decide_eq_true_eq] at h'
    unfold okSecond
    repeat' split
    all_goals first | exact h | (simp only [decide_eq_true_eq]; omega)
  simp only [Utf8.encodeChar, Utf8.encodeNat] at hl ⊢
  generalize c.toNat = n at *
  split at hl
  · simp at hl; omega
  · split at hl
    · next h1 h2 =>
      rw [if_neg h1, if_pos h2]
      have : k = 1 := by simp at hl; omega
      subst this
      exact one _ (by omega)
    · split at hl
      · next h1 h2 h3 =>
        rw [if_neg h1, if_neg h2, if_pos h3]
        have : k = 1 ∨ k = 2 := by simp at hl; omega
        rcases this with rfl | rfl
        · exact one _ (by omega)
        · have hd : Utf8.decodeOne [0xE0 + n / 0x1000, 0x80 + n / 0x40 % 0x40] = none := by
            simp only [Utf8.decodeOne]
            rw [if_neg (by omega), if_neg (by omega), if_neg (by omega), if_pos (by omega)]
          have hb : badLen [0xE0 + n / 0x1000, 0x80 + n / 0x40 % 0x40] = 2 := by
            simp only [badLen]
            rw [if_pos (by omega), if_pos]
            refine ok _ _ (by simp [Utf8.isCont]; omega) ?_ ?_ ?_ ?_ <;> omega
          show lossy [0xE0 + n / 0x1000, 0x80 + n / 0x40 % 0x40] = [bad]
          rw [lossy_none (by simp) hd, hb]
          simp [lossy_nil]
      · next h1 h2 h3 =>
        rw [if_neg h1, if_neg h2, if_neg h3]
        have : k = 1 ∨ k = 2 ∨ k = 3 := by simp at hl; omega
        have hok : okSecond (0xF0 + n / 0x40000) (0x80 + n / 0x1000 % 0x40) = true :=
          ok _ _ (by simp [Utf8.isCont]; omega) (by omega) (by omega) (by omega) (by omega)
        rcases this with rfl | rfl | rfl
        · exact one _ (by omega)
        · have hd : Utf8.decodeOne [0xF0 + n / 0x40000, 0x80 + n / 0x1000 % 0x40] = none := by
            simp only [Utf8.decodeOne]
            rw [if_neg (by omega), if_neg (by omega), if_neg (by omega), if_neg (by omega), if_pos (by omega)]
          have hb : badLen [0xF0 + n / 0x40000, 0x80 + n / 0x1000 % 0x40] = 2 := by
            simp only [badLen]
            rw [if_neg (by omega), if_pos (by omega), if_pos hok]
          show lossy [0xF0 + n / 0x40000, 0x80 + n / 0x1000 % 0x40] = [bad]
          rw [lossy_none (by simp) hd, hb]
          simp [lossy_nil]
        · have hd : Utf8.decodeOne [0xF0 + n / 0x40000, 0x80 + n / 0x1000 % 0x40, 0x80 + n / 0x40 % 0x40] = none := by
            simp only [Utf8.decodeOne]
            rw [if_neg (by omega), if_neg (by omega), if_neg (by omega), if_neg (by omega), if_pos (by omega)]
          have hb : badLen [0xF0 + n / 0x40000, 0x80 + n / 0x1000 % 0x40, 0x80 + n / 0x40 % 0x40] = 3 := by
            simp only [badLen]
            rw [if_neg (by omega), if_pos (by omega), if_pos hok, if_pos (by simp [Utf8.isCont]; omega)]
          show lossy [0xF0 + n / 0x40000, 0x80 + n / 0x1000 % 0x40, 0x80 + n / 0x40 % 0x40] = [bad]
          rw [lossy_none (by simp) hd, hb]
          simp [lossy_nil]

/-- The text read when the character `c` is cut after `k` bytes: one replacement character for each byte of the
second part and one for the first part. -/
theorem lossy_prefix_cut (a : Text) (c : Char) (k : Nat) (hk : 0 < k) (hl : k < (Utf8.encodeChar c).length) :
    lossy (Utf8.encode a ++ (Utf8.encodeChar c).take k) = a ++ [bad] := by
  rw [lossy_encode, lossy_cut c k hk hl]

theorem lossy_suffix_cut (b : Text) (c : Char) (k : Nat) (hk : 0 < k) :
    lossy ((Utf8.encodeChar c).drop k ++ Utf8.encode b) =
      List.replicate ((Utf8.encodeChar c).length - k) bad ++ b := by
  rw [lossy_conts _ _ (conts_tail c k hk), lossy_whole, List.length_drop]

end Verif.HttpEvents
