import Verif.Simd.Model

/-
Base64 (C58), masking (C59), run-length encoding (C60), lengths and checksums (C62), copies (C103).
-/

namespace Verif.Simd

/-! ### C58 -/

/-- The value of a base64 character (RFC 4648, table 1). (Specification: no counterpart in the code.) -/
def dec64 (c : Nat) : Option Nat :=
  if 0x41 ≤ c ∧ c ≤ 0x5A then some (c - 0x41)
  else if 0x61 ≤ c ∧ c ≤ 0x7A then some (c - 0x61 + 26)
  else if 0x30 ≤ c ∧ c ≤ 0x39 then some (c - 0x30 + 52)
  else if c = 0x2B then some 62
  else if c = 0x2F then some 63
  else none

/-- Decoding of groups of four characters, with padding in the last. (Specification: no counterpart in the code.) -/
def decode64 : List Nat → Option (List Nat)
  | [] => some []
  | c0 :: c1 :: c2 :: c3 :: r =>
    match dec64 c0, dec64 c1 with
    | some v0, some v1 =>
      let b1 := v0 * 4 + v1 / 16
      if c2 = 0x3D ∧ c3 = 0x3D ∧ r = [] then some [b1]
      else match dec64 c2 with
        | none => none
        | some v2 =>
          let b2 := v1 % 16 * 16 + v2 / 4
          if c3 = 0x3D ∧ r = [] then some [b1, b2]
          else match dec64 c3 with
            | none => none
            | some v3 => (decode64 r).map ([b1, b2, v2 % 4 * 64 + v3] ++ ·)
    | _, _ => none
  | _ => none

theorem dec_enc : ∀ i, i < 64 → dec64 (enc64 i) = some i := by decide

theorem enc_ne_pad : ∀ i, i < 64 → enc64 i ≠ 0x3D := by decide

theorem bits1 (b : Nat) : b >>> 2 = b / 4 := by rw [Nat.shiftRight_eq_div_pow]

theorem bits2 (a b : Nat) (hb : b < 256) : ((a &&& 0x03) <<< 4) ||| (b >>> 4) = a % 4 * 16 + b / 16 := by
  rw [← Nat.shiftLeft_add_eq_or_of_lt (by rw [Nat.shiftRight_eq_div_pow]; omega), Nat.shiftRight_eq_div_pow,
    Nat.shiftLeft_eq, show (0x03 : Nat) = 2 ^ 2 - 1 by rfl, Nat.and_two_pow_sub_one_eq_mod]

theorem bits2' (a : Nat) : (a &&& 0x03) <<< 4 = a % 4 * 16 := by
  rw [Nat.shiftLeft_eq, show (0x03 : Nat) = 2 ^ 2 - 1 by rfl, Nat.and_two_pow_sub_one_eq_mod]

theorem bits3 (a b : Nat) (hb : b < 256) : ((a &&& 0x0F) <<< 2) ||| (b >>> 6) = a % 16 * 4 + b / 64 := by
  rw [← Nat.shiftLeft_add_eq_or_of_lt (by rw [Nat.shiftRight_eq_div_pow]; omega), Nat.shiftRight_eq_div_pow,
    Nat.shiftLeft_eq, show (0x0F : Nat) = 2 ^ 4 - 1 by rfl, Nat.and_two_pow_sub_one_eq_mod]

theorem bits3' (a : Nat) : (a &&& 0x0F) <<< 2 = a % 16 * 4 := by
  rw [Nat.shiftLeft_eq, show (0x0F : Nat) = 2 ^ 4 - 1 by rfl, Nat.and_two_pow_sub_one_eq_mod]

theorem bits4 (b : Nat) : b &&& 0x3F = b % 64 := by
  rw [show (0x3F : Nat) = 2 ^ 6 - 1 by rfl, Nat.and_two_pow_sub_one_eq_mod]

/-- **C58**, round trip: decoding the encoded bytes gives the bytes back. -/
theorem C58_round_trip (l : List Nat) (h : ∀ b ∈ l, b < 256) : decode64 (base64 l) = some l := by
  induction l using base64.induct with
  | case1 b1 b2 b3 r ih =>
    have h1 := h b1 (by simp)
    have h2 := h b2 (by simp)
    have h3 := h b3 (by simp)
    rw [base64, bits1, bits2 _ _ h2, bits3 _ _ h3, bits4]
    simp only [List.cons_append, List.nil_append, decode64]
    rw [dec_enc _ (by omega), dec_enc _ (by omega), dec_enc _ (by omega), dec_enc _ (by omega),
      ih (fun b hb => h b (by simp [hb]))]
    have n1 := enc_ne_pad (b2 % 16 * 4 + b3 / 64) (by omega)
    have n2 := enc_ne_pad (b3 % 64) (by omega)
    simp only [n1, n2, false_and, if_false, Option.map_some, List.cons_append, List.nil_append, Option.some.injEq,
      List.cons.injEq, and_true]
    omega
  | case2 b1 b2 =>
    have h1 := h b1 (by simp)
    have h2 := h b2 (by simp)
    rw [base64, bits1, bits2 _ _ h2, bits3']
    simp only [decode64]
    rw [dec_enc _ (by omega), dec_enc _ (by omega), dec_enc _ (by omega)]
    have n1 := enc_ne_pad (b2 % 16 * 4) (by omega)
    simp only [n1, false_and, if_false, true_and, if_true, Option.some.injEq, List.cons.injEq, and_true]
    omega
  | case3 b1 =>
    have h1 := h b1 (by simp)
    rw [base64, bits1, bits2']
    simp only [decode64]
    rw [dec_enc _ (by omega), dec_enc _ (by omega)]
    simp only [true_and, if_true, Option.some.injEq, List.cons.injEq, and_true]
    omega
  | case4 => rfl

/-- **C58**, length. -/
theorem C58_length (l : List Nat) : (base64 l).length = 4 * ((l.length + 2) / 3) := by
  induction l using base64.induct with
  | case1 b1 b2 b3 r ih => simp only [base64, List.length_append, List.length_cons, List.length_nil, ih]; omega
  | case2 b1 b2 => simp [base64]
  | case3 b1 => simp [base64]
  | case4 => rfl

/-- A character of the alphabet, or padding. (Specification: no counterpart in the code.) -/
def Base64Char (c : Nat) : Prop := (dec64 c).isSome = true ∨ c = 0x3D

/-- **C58**, alphabet. -/
theorem C58_alphabet (l : List Nat) (h : ∀ b ∈ l, b < 256) : ∀ c ∈ base64 l, Base64Char c := by
  have key : ∀ i, i < 64 → Base64Char (enc64 i) := fun i hi => .inl (by rw [dec_enc i hi]; rfl)
  have pad : Base64Char 0x3D := .inr rfl
  induction l using base64.induct with
  | case1 b1 b2 b3 r ih =>
    have h1 := h b1 (by simp)
    have h2 := h b2 (by simp)
    have h3 := h b3 (by simp)
    rw [base64, bits1, bits2 _ _ h2, bits3 _ _ h3, bits4]
    intro c hc
    simp only [List.cons_append, List.nil_append, List.mem_cons] at hc
    rcases hc with rfl | rfl | rfl | rfl | hc
    · exact key _ (by omega)
    · exact key _ (by omega)
    · exact key _ (by omega)
    · exact key _ (by omega)
    · exact ih (fun b hb => h b (by simp [hb])) c hc
  | case2 b1 b2 =>
    have h1 := h b1 (by simp)
    have h2 := h b2 (by simp)
    rw [base64, bits1, bits2 _ _ h2, bits3']
    intro c hc
    simp only [List.mem_cons, List.not_mem_nil, or_false] at hc
    rcases hc with rfl | rfl | rfl | rfl
    · exact key _ (by omega)
    · exact key _ (by omega)
    · exact key _ (by omega)
    · exact pad
  | case3 b1 =>
    have h1 := h b1 (by simp)
    rw [base64, bits1, bits2']
    intro c hc
    simp only [List.mem_cons, List.not_mem_nil, or_false] at hc
    rcases hc with rfl | rfl | rfl | rfl
    · exact key _ (by omega)
    · exact key _ (by omega)
    · exact pad
    · exact pad
  | case4 => intro c hc; simp [base64] at hc

/-- "Man" is "TWFu", "Ma" is "TWE=". -/
example : base64 [0x4D, 0x61, 0x6E] = [0x54, 0x57, 0x46, 0x75] ∧ base64 [0x4D, 0x61] = [0x54, 0x57, 0x45, 0x3D] := by
  decide

/-! ### C59 -/

theorem xorTail_get (m : Mask) (i j : Nat) (l : List Nat) :
    (xorTail m i l)[j]? = l[j]?.map (· ^^^ m.toList.getD ((i + j) % 4) 0) := by
  induction l generalizing i j with
  | nil => simp [xorTail]
  | cons b l ih =>
    cases j with
    | zero => simp [xorTail]
    | succ j =>
      simp only [xorTail, List.getElem?_cons_succ, ih]
      rw [show i + 1 + j = i + (j + 1) by omega]

theorem pattern_get (m : Mask) (j : Nat) (h : j < 32) : m.pattern[j]? = some (m.toList.getD (j % 4) 0) := by
  have : j = 0 ∨ j = 1 ∨ j = 2 ∨ j = 3 ∨ j = 4 ∨ j = 5 ∨ j = 6 ∨ j = 7 ∨ j = 8 ∨ j = 9 ∨ j = 10 ∨ j = 11 ∨ j = 12 ∨
      j = 13 ∨ j = 14 ∨ j = 15 ∨ j = 16 ∨ j = 17 ∨ j = 18 ∨ j = 19 ∨ j = 20 ∨ j = 21 ∨ j = 22 ∨ j = 23 ∨ j = 24 ∨
      j = 25 ∨ j = 26 ∨ j = 27 ∨ j = 28 ∨ j = 29 ∨ j = 30 ∨ j = 31 := by omega
  rcases this with h | h | h | h | h | h | h | h | h | h | h | h | h | h | h | h | h | h | h | h | h | h | h | h | h |
    h | h | h | h | h | h | h <;> subst h <;> rfl

theorem xorTail_append (m : Mask) (i : Nat) (a b : List Nat) :
    xorTail m i (a ++ b) = xorTail m i a ++ xorTail m (i + a.length) b := by
  induction a generalizing i with
  | nil => simp [xorTail]
  | cons x a ih =>
    simp only [List.cons_append, xorTail, ih, List.length_cons]
    rw [show i + 1 + a.length = i + (a.length + 1) by omega]

theorem zip_pattern (m : Mask) (i : Nat) (hi : i % 4 = 0) (w : List Nat) (hw : w.length = 32) :
    List.zipWith (· ^^^ ·) w m.pattern = xorTail m i w := by
  apply List.ext_getElem?
  intro j
  rw [xorTail_get, List.getElem?_zipWith]
  by_cases hj : j < 32
  · rw [pattern_get m j hj, List.getElem?_eq_getElem (by omega)]
    simp only [Option.map_some]
    rw [show (i + j) % 4 = j % 4 by omega]
  · rw [List.getElem?_eq_none (by omega)]; rfl

theorem xorChunks_eq (m : Mask) (n i : Nat) (hi : i % 4 = 0) (l : List Nat) (hn : 32 * n ≤ l.length) :
    xorChunks m n i l = xorTail m i l := by
  induction n generalizing i l with
  | zero => rfl
  | succ n ih =>
    have hw : (l.take 32).length = 32 := by rw [List.length_take]; omega
    simp only [xorChunks]
    rw [ih (i + 32) (by omega) (l.drop 32) (by rw [List.length_drop]; omega), zip_pattern m i hi _ hw]
    have := xorTail_append m i (l.take 32) (l.drop 32)
    rw [List.take_append_drop, hw] at this
    exact this.symm

/-- **C59**: byte `i` is combined with byte `i mod 4` of the mask, for every length. -/
theorem C59_bytewise (data : List Nat) (m : Mask) (i : Nat) :
    (xorMask data m)[i]? = data[i]?.map (· ^^^ [m.m0, m.m1, m.m2, m.m3].getD (i % 4) 0) := by
  rw [xorMask, xorChunks_eq m _ 0 rfl data (by omega), xorTail_get, Nat.zero_add]; rfl

/-- **C59**: applying the mask twice restores the data. -/
theorem C59_involution (data : List Nat) (m : Mask) : xorMask (xorMask data m) m = data := by
  apply List.ext_getElem?
  intro i
  rw [C59_bytewise, C59_bytewise]
  cases data[i]? with
  | none => rfl
  | some b => simp only [Option.map_some]; rw [Nat.xor_assoc, Nat.xor_self, Nat.xor_zero]

/-- **C59**: masking keeps the length. -/
theorem C59_length (data : List Nat) (m : Mask) : (xorMask data m).length = data.length := by
  have key : ∀ i : Nat, (xorMask data m)[i]? = none ↔ data[i]? = none := by intro i; rw [C59_bytewise]; simp
  have h1 := (key data.length).mpr (by simp)
  have h2 := (key (xorMask data m).length).mp (by simp)
  simp at h1 h2
  omega

example : xorMask [0x48, 0x65, 0x6C, 0x6C, 0x6F] ⟨1, 2, 3, 4⟩ = [0x49, 0x67, 0x6F, 0x68, 0x6E] := by decide

/-! ### C60 -/

/-- Expanding pairs of a count and a byte. (Specification: no counterpart in the code.) -/
def expand : List Nat → Option (List Nat)
  | [] => some []
  | [_] => none
  | n :: c :: r => (expand r).map (List.replicate n c ++ ·)

/-- All counts of the pairs. (Specification: no counterpart in the code.) -/
def counts : List Nat → List Nat
  | n :: _ :: r => n :: counts r
  | _ => []

theorem runMore_spec (c : Nat) (count : Nat) (l : List Nat) (hc : count ≤ 255) :
    count ≤ runMore c count l ∧ runMore c count l ≤ 255 ∧
      l.take (runMore c count l - count) = List.replicate (runMore c count l - count) c := by
  induction l generalizing count with
  | nil => simp [runMore, hc]
  | cons b l ih =>
    simp only [runMore]
    split
    · rename_i h
      simp only [Bool.and_eq_true, decide_eq_true_eq, beq_iff_eq] at h
      obtain ⟨h1, h2, h3⟩ := ih (count + 1) (by omega)
      refine ⟨by omega, h2, ?_⟩
      rw [show runMore c (count + 1) l - count = (runMore c (count + 1) l - (count + 1)) + 1 by omega,
        List.take_succ_cons, h3, h.2, List.replicate_succ]
    · simp [hc]

theorem trailing_take (c : Nat) (w : List Nat) :
    w.take (trailingOnes (w.map (· == c))) = List.replicate (trailingOnes (w.map (· == c))) c := by
  induction w with
  | nil => rfl
  | cons b w ih =>
    by_cases hb : b = c
    · subst hb
      simp only [trailingOnes, List.map_cons, beq_self_eq_true, List.takeWhile_cons, id, if_true, List.length_cons,
        List.take_succ_cons, List.replicate_succ, List.cons.injEq, true_and]
      exact ih
    · have : (b == c) = false := by simpa using hb
      simp [trailingOnes, this]

theorem runLen_spec (c : Nat) (l : List Nat) : 1 ≤ runLen c (c :: l) ∧ runLen c (c :: l) ≤ 255 ∧
    (c :: l).take (runLen c (c :: l)) = List.replicate (runLen c (c :: l)) c := by
  have start : ∃ count, 1 ≤ count ∧ count ≤ 255 ∧ (c :: l).take count = List.replicate count c ∧
      runLen c (c :: l) = runMore c count ((c :: l).drop count) := by
    simp only [runLen]
    split
    · refine ⟨_, ?_, Nat.min_le_right _ _, ?_, rfl⟩
      · have : 1 ≤ trailingOnes (List.map (fun x => x == c) ((c :: l).take 32)) := by
          simp [trailingOnes]
        omega
      · have hle : trailingOnes (List.map (fun x => x == c) ((c :: l).take 32)) ≤ 32 := by
          unfold trailingOnes
          refine Nat.le_trans (List.takeWhile_sublist _).length_le ?_
          rw [List.length_map, List.length_take]; omega
        rw [Nat.min_eq_left (by omega)]
        have := trailing_take c ((c :: l).take 32)
        rw [List.take_take, Nat.min_eq_left hle] at this
        exact this
    · exact ⟨1, by omega, by omega, by simp, rfl⟩
  obtain ⟨count, h1, h2, h3, h4⟩ := start
  rw [h4]
  obtain ⟨g1, g2, g3⟩ := runMore_spec c count ((c :: l).drop count) h2
  refine ⟨by omega, g2, ?_⟩
  generalize runMore c count ((c :: l).drop count) = r at *
  rw [show r = count + (r - count) by omega, List.take_add, h3, g3]
  simp

theorem rleFuel_spec (fuel : Nat) (l : List Nat) (hf : l.length ≤ fuel) :
    expand (rleFuel fuel l) = some l ∧ ∀ n ∈ counts (rleFuel fuel l), 1 ≤ n ∧ n ≤ 255 := by
  induction fuel generalizing l with
  | zero =>
    have : l = [] := List.eq_nil_of_length_eq_zero (by omega)
    subst this
    simp [rleFuel, expand, counts]
  | succ fuel ih =>
    cases l with
    | nil => simp [rleFuel, expand, counts]
    | cons c l =>
      obtain ⟨h1, h2, h3⟩ := runLen_spec c l
      simp only [rleFuel]
      rw [Nat.mod_eq_of_lt (by omega)]
      obtain ⟨i1, i2⟩ := ih ((c :: l).drop (runLen c (c :: l))) (by
        rw [List.length_drop]; simp only [List.length_cons] at *; omega)
      simp only [List.cons_append, List.nil_append, expand, counts, i1, Option.map_some, List.mem_cons]
      refine ⟨?_, ?_⟩
      · rw [← h3, List.take_append_drop]
      · rintro n (rfl | hn)
        · exact ⟨h1, h2⟩
        · exact i2 n hn

/-- **C60**: expanding the encoding gives the bytes back, for every length of runs. -/
theorem C60_lossless (l : List Nat) : expand (rle l) = some l := (rleFuel_spec l.length l (Nat.le_refl _)).1

/-- **C60**: every count is between 1 and 255 (it fits the byte it is written to). -/
theorem C60_counts (l : List Nat) : ∀ n ∈ counts (rle l), 1 ≤ n ∧ n ≤ 255 :=
  (rleFuel_spec l.length l (Nat.le_refl _)).2

example : rle (List.replicate 300 7 ++ [8]) = [255, 7, 45, 7, 1, 8] := by decide +kernel

theorem runMore_stops (c : Nat) (count : Nat) (l : List Nat) (hc : count ≤ 255) :
    runMore c count l = 255 ∨ (l.drop (runMore c count l - count)).head? ≠ some c := by
  induction l generalizing count with
  | nil => right; simp
  | cons b l ih =>
    simp only [runMore]
    split
    · rename_i h
      simp only [Bool.and_eq_true, decide_eq_true_eq, beq_iff_eq] at h
      have h1 := (runMore_spec c (count + 1) l (by omega)).1
      rcases ih (count + 1) (by omega) with h2 | h2
      · exact .inl h2
      · right
        rw [show runMore c (count + 1) l - count = (runMore c (count + 1) l - (count + 1)) + 1 by omega,
          List.drop_succ_cons]
        exact h2
    · rename_i h
      simp only [Bool.and_eq_true, decide_eq_true_eq, beq_iff_eq] at h
      by_cases h5 : count = 255
      · exact .inl h5
      · right
        simp only [Nat.sub_self, List.drop_zero, List.head?_cons, ne_eq, Option.some.injEq]
        intro hb
        exact h ⟨by omega, hb⟩

theorem runLen_stops (c : Nat) (l : List Nat) :
    runLen c (c :: l) = 255 ∨ ((c :: l).drop (runLen c (c :: l))).head? ≠ some c := by
  have start : ∃ count, count ≤ 255 ∧ runLen c (c :: l) = runMore c count ((c :: l).drop count) := by
    simp only [runLen]
    split
    · exact ⟨_, Nat.min_le_right _ _, rfl⟩
    · exact ⟨1, by omega, rfl⟩
  obtain ⟨count, h2, h4⟩ := start
  rw [h4]
  have h1 := (runMore_spec c count ((c :: l).drop count) h2).1
  rcases runMore_stops c count ((c :: l).drop count) h2 with h | h
  · exact .inl h
  · right
    rw [List.drop_drop] at h
    rwa [show count + (runMore c count ((c :: l).drop count) - count) = runMore c count ((c :: l).drop count) by omega]
      at h

/-- Without its first bytes, a text needs no longer encoding. -/
theorem expand_drop (k : Nat) (e l : List Nat) (he : expand e = some l) (hc : ∀ n ∈ counts e, 1 ≤ n ∧ n ≤ 255) :
    ∃ e', expand e' = some (l.drop k) ∧ (∀ n ∈ counts e', 1 ≤ n ∧ n ≤ 255) ∧ e'.length ≤ e.length := by
  induction e using expand.induct generalizing k l with
  | case1 => cases he; exact ⟨[], by simp [expand], by simp [counts], Nat.le_refl _⟩
  | case2 => cases he
  | case3 n c r ih =>
    simp only [expand, Option.map_eq_some_iff] at he
    obtain ⟨l', hl, rfl⟩ := he
    simp only [counts, List.mem_cons, forall_eq_or_imp] at hc
    by_cases hk : k < n
    · refine ⟨(n - k) :: c :: r, ?_, ?_, by simp⟩
      · simp only [expand, hl, Option.map_some, Option.some.injEq]
        rw [List.drop_append_of_le_length (by simp; omega)]
        simp
      · simp only [counts, List.mem_cons, forall_eq_or_imp]
        exact ⟨by omega, hc.2⟩
    · obtain ⟨e', h1, h2, h3⟩ := ih (k - n) l' hl hc.2
      refine ⟨e', ?_, h2, by simp only [List.length_cons]; omega⟩
      rw [h1, List.drop_append, List.length_replicate]
      simp only [List.drop_replicate]
      rw [show n - k = 0 by omega]
      simp

theorem replicate_le_run (c n : Nat) (l l' : List Nat) (h : c :: l = List.replicate n c ++ l') (h1 : n ≤ 255) :
    n ≤ runLen c (c :: l) := by
  rcases runLen_stops c l with h2 | h2
  · omega
  · by_cases hn : n ≤ runLen c (c :: l)
    · exact hn
    · exfalso
      apply h2
      generalize runLen c (c :: l) = r at *
      rw [h]
      rw [List.drop_append_of_le_length (by simp; omega), List.drop_replicate]
      obtain ⟨m, hm⟩ : ∃ m, n - r = m + 1 := ⟨n - r - 1, by omega⟩
      rw [hm, List.replicate_succ]
      rfl

theorem rleFuel_shortest (fuel : Nat) (l e : List Nat) (hf : l.length ≤ fuel) (he : expand e = some l)
    (hc : ∀ n ∈ counts e, 1 ≤ n ∧ n ≤ 255) : (rleFuel fuel l).length ≤ e.length := by
  induction fuel generalizing l e with
  | zero => simp [rleFuel]
  | succ fuel ih =>
    cases l with
    | nil => simp [rleFuel]
    | cons c l =>
      match e, he, hc with
      | n :: d :: r, he, hc =>
        simp only [expand, Option.map_eq_some_iff] at he
        obtain ⟨l', hl, he⟩ := he
        simp only [counts, List.mem_cons, forall_eq_or_imp] at hc
        have hd : d = c := by
          obtain ⟨m, hm⟩ : ∃ m, n = m + 1 := ⟨n - 1, by omega⟩
          rw [hm, List.replicate_succ] at he
          simpa using congrArg List.head? he
        subst hd
        have hr := replicate_le_run d n l l' he.symm hc.1.2
        have hlen := (runLen_spec d l).1
        simp only [rleFuel]
        generalize hrl : runLen d (d :: l) = k at *
        have hdrop : (d :: l).drop k = l'.drop (k - n) := by
          rw [← he, List.drop_append, List.length_replicate, List.drop_replicate, show n - k = 0 by omega]
          simp
        obtain ⟨e', g1, g2, g3⟩ := expand_drop (k - n) r l' hl hc.2
        have := ih ((d :: l).drop k) e' (by rw [List.length_drop]; simp only [List.length_cons] at *; omega)
          (hdrop ▸ g1) g2
        simp only [List.length_append, List.length_cons, List.length_nil]
        omega

/-- **C60**: no encoding of the same bytes as counts between 1 and 255 is shorter. -/
theorem C60_shortest (l e : List Nat) (he : expand e = some l) (hc : ∀ n ∈ counts e, 1 ≤ n ∧ n ≤ 255) :
    (rle l).length ≤ e.length := rleFuel_shortest l.length l e (Nat.le_refl _) he hc

/-- Another encoding of the same bytes, which splits a run. -/
example : expand [200, 7, 100, 7, 1, 8] = some (List.replicate 300 7 ++ [8]) ∧
    (∀ n ∈ counts [200, 7, 100, 7, 1, 8], 1 ≤ n ∧ n ≤ 255) := by decide +kernel

/-! ### C62 -/

theorem validateChunks8_get (max n : Nat) (l : List Nat) (hn : 8 * n ≤ l.length) (i : Nat) :
    (validateChunks8 max n l)[i]? =
      l[i]?.map (fun x => if i < 8 * n then decide (toI32 max > toI32 x) else decide (x ≤ max)) := by
  induction n generalizing l i with
  | zero => simp [validateChunks8]
  | succ n ih =>
    have hw : (l.take 8).length = 8 := by rw [List.length_take]; omega
    simp only [validateChunks8]
    by_cases hi : i < 8
    · rw [List.getElem?_append_left (by rw [List.length_map]; omega), List.getElem?_map,
        List.getElem?_take_of_lt hi]
      simp [show i < 8 * (n + 1) by omega]
    · rw [List.getElem?_append_right (by rw [List.length_map]; omega), List.length_map, hw,
        ih (l.drop 8) (by rw [List.length_drop]; omega), List.getElem?_drop, show 8 + (i - 8) = i by omega]
      congr 1
      funext x
      simp [show (i - 8 < 8 * n) ↔ (i < 8 * (n + 1)) by omega]

theorem batchValidate_get (lengths : List Nat) (max i : Nat) : (batchValidate lengths max)[i]? =
    lengths[i]?.map (fun x => if i < 8 * (lengths.length / 8) then decide (toI32 max > toI32 x) else decide (x ≤ max)) :=
  validateChunks8_get max _ lengths (by omega) i

/-- **C62** (exact form, for `u32` values): an element after the whole groups of eight is compared as the property
says. In a group, a length below `2^31` is accepted iff it is less than the bound and the bound is below `2^31`; a
length from `2^31` on is accepted iff it is less than the bound or the bound is below `2^31`. -/
theorem C62_exact_partial (lengths : List Nat) (max i : Nat) (hm : max < 2 ^ 32) (hl : ∀ x ∈ lengths, x < 2 ^ 32) :
    (batchValidate lengths max)[i]? = lengths[i]?.map (fun x =>
      if i < 8 * (lengths.length / 8) then
        if x < 2 ^ 31 then decide (x < max ∧ max < 2 ^ 31) else decide (x < max ∨ max < 2 ^ 31)
      else decide (x ≤ max)) := by
  rw [batchValidate_get]
  cases hx : lengths[i]? with
  | none => rfl
  | some x =>
    have h1 := hl x (List.mem_of_getElem? hx)
    simp only [Option.map_some, Option.some.injEq]
    split
    · simp only [toI32]
      split <;> split <;> simp only [decide_eq_decide] <;> omega
    · rfl

example : (∀ x ∈ [1, 3000000000, 5, 6, 7, 8, 9, 10, 10], x < 2 ^ 32) ∧
    batchValidate [1, 3000000000, 5, 6, 7, 8, 9, 10, 10] 10 =
      [true, true, true, true, true, true, true, false, true] := by decide

/-- **C62** on the inputs where the comparisons agree: nothing equals the bound and everything is below `2^31`.
Missing from the property: the other inputs, see `C62_position` and `C62_large`. -/
theorem C62_agree_partial (lengths : List Nat) (max : Nat) (hm : max < 2 ^ 31)
    (h : ∀ x ∈ lengths, x < 2 ^ 31 ∧ x ≠ max) : batchValidate lengths max = lengths.map (fun x => decide (x ≤ max)) := by
  apply List.ext_getElem?
  intro i
  rw [batchValidate_get, List.getElem?_map]
  cases hx : lengths[i]? with
  | none => rfl
  | some x =>
    obtain ⟨h1, h2⟩ := h x (List.mem_of_getElem? hx)
    simp only [Option.map_some, Option.some.injEq]
    split
    · simp only [toI32, hm, h1, if_true, decide_eq_decide]; omega
    · rfl

example : ∀ x ∈ [1, 2, 3, 4, 5, 6, 7, 8, 20], x < 2 ^ 31 ∧ x ≠ 10 := by decide

/-- **C62** fails: a length equal to the bound is refused in the first eight and accepted after them. -/
theorem C62_position (max : Nat) : batchValidate (List.replicate 9 max) max = List.replicate 8 false ++ [true] := by
  apply List.ext_getElem?
  intro i
  rw [batchValidate_get]
  by_cases h8 : i < 8
  · rw [List.getElem?_append_left (by simpa using h8)]
    simp only [List.getElem?_replicate, h8, show i < 9 by omega, if_true, List.length_replicate, Option.map_some]
    simp [h8]
  · by_cases h9 : i = 8
    · subst h9; simp
    · rw [List.getElem?_eq_none (by simp; omega), List.getElem?_eq_none (by simp; omega)]; rfl

/-- **C62** fails: with a bound of `2^31` or more a group of eight small lengths is refused. -/
theorem C62_large (max : Nat) (h1 : 2 ^ 31 ≤ max) (h2 : max < 2 ^ 32) :
    batchValidate (List.replicate 8 0) max = List.replicate 8 false := by
  apply List.ext_getElem?
  intro i
  rw [batchValidate_get]
  by_cases h8 : i < 8
  · have : ¬ (toI32 max > toI32 0) := by
      simp only [toI32, show ¬ (max < 2 ^ 31) by omega, if_false]; simp; omega
    simp only [List.getElem?_replicate, List.length_replicate]
    simp [h8]
    simp only [toI32] at this ⊢
    simpa using this
  · simp [List.getElem?_replicate, h8]

example : 2 ^ 31 ≤ 3000000000 ∧ 3000000000 < 2 ^ 32 := by decide

theorem foldl_mod (l : List Nat) (s : Nat) : (l.foldl (fun s b => (s + b) % 2 ^ 32) (s % 2 ^ 32)) = (s + l.sum) % 2 ^ 32 := by
  induction l generalizing s with
  | nil => simp
  | cons b l ih =>
    simp only [List.foldl_cons, List.sum_cons]
    have : (s % 2 ^ 32 + b) % 2 ^ 32 = (s + b) % 2 ^ 32 := by omega
    rw [this, ih (s + b), Nat.add_assoc]

theorem sad_eq (w : List Nat) (hw : w.length = 32) (s : Nat) : sadSum (s % 2 ^ 32) w = (s + w.sum) % 2 ^ 32 := by
  have h1 : w.sum = (w.take 8).sum + (((w.drop 8).take 8).sum + (((w.drop 16).take 8).sum + ((w.drop 24).take 8).sum)) := by
    have e1 := congrArg List.sum (List.take_append_drop 8 w)
    have e2 := congrArg List.sum (List.take_append_drop 8 (w.drop 8))
    have e3 := congrArg List.sum (List.take_append_drop 8 (w.drop 16))
    have e4 : (w.drop 24).take 8 = w.drop 24 := List.take_of_length_le (by rw [List.length_drop]; omega)
    simp only [List.sum_append, List.drop_drop, Nat.reduceAdd] at e1 e2 e3
    rw [e4]
    omega
  rw [h1, sadSum]
  generalize (w.take 8).sum = a
  generalize ((w.drop 8).take 8).sum = b
  generalize ((w.drop 16).take 8).sum = c
  generalize ((w.drop 24).take 8).sum = d
  omega

theorem checksumChunks_eq (n : Nat) (l : List Nat) (hn : 32 * n ≤ l.length) (s : Nat) :
    checksumChunks n (s % 2 ^ 32) l = (s + l.sum) % 2 ^ 32 := by
  induction n generalizing l s with
  | zero => exact foldl_mod l s
  | succ n ih =>
    simp only [checksumChunks]
    rw [sad_eq _ (by rw [List.length_take]; omega) s, ih (l.drop 32) (by rw [List.length_drop]; omega), Nat.add_assoc]
    have := congrArg List.sum (List.take_append_drop 32 l)
    rw [List.sum_append] at this
    rw [this]

/-- **C62**, checksums: the checksum of every buffer is the sum of its bytes modulo `2^32`, whatever its length. -/
theorem C62_checksum (bufs : List (List Nat)) : batchChecksum bufs = bufs.map (fun b => b.sum % 2 ^ 32) := by
  simp only [batchChecksum]
  congr 1
  funext b
  have := checksumChunks_eq (b.length / 32) b (by omega) 0
  simp at this
  exact this

example : batchChecksum [[1, 2, 3], List.replicate 40 255] = [6, 10200] := by decide +kernel

/-! ### C103 -/

theorem copyChunks_eq (n : Nat) (src dst : List Nat) (hn : 32 * n ≤ src.length) :
    copyChunks n src dst = src ++ dst.drop src.length := by
  induction n generalizing src dst with
  | zero => rfl
  | succ n ih =>
    simp only [copyChunks]
    rw [ih (src.drop 32) (dst.drop 32) (by rw [List.length_drop]; omega), List.drop_drop, List.length_drop,
      ← List.append_assoc, List.take_append_drop, show 32 + (src.length - 32) = src.length by omega]

/-- **C103**: a copy replaces exactly the first bytes of the target by the source, and panics exactly if the
target is shorter. -/
theorem C103_copy (src dst : List Nat) :
    copySimd src dst = if src.length ≤ dst.length then some (src ++ dst.drop src.length) else none := by
  simp only [copySimd]
  rw [copyChunks_eq _ _ _ (by omega)]

example : copySimd [1, 2] [9, 9, 9] = some [1, 2, 9] := by decide

end Verif.Simd
