import Verif.Simd.Scan
import Verif.Common.Utf8

/-
The UTF-8 check (C57).
-/

namespace Verif.Simd

/-- A continuation byte. (Specification: no counterpart in the code.) -/
def Cont (b : Nat) : Prop := 0x80 ≤ b ∧ b < 0xC0

/-- Bytes that have the outer shape of UTF-8: a lead byte and as many continuation bytes as it announces. Overlong
forms, surrogates and values above U+10FFFF have this shape too. (Specification: no counterpart in the code.) -/
inductive Units : List Nat → Prop
  | nil : Units []
  | one {b r} : b < 0x80 → Units r → Units (b :: r)
  | two {b c r} : 0xC0 ≤ b → b < 0xE0 → Cont c → Units r → Units (b :: c :: r)
  | three {b c d r} : 0xE0 ≤ b → b < 0xF0 → Cont c → Cont d → Units r → Units (b :: c :: d :: r)
  | four {b c d e r} : 0xF0 ≤ b → b < 0xF8 → Cont c → Cont d → Cont e → Units r → Units (b :: c :: d :: e :: r)

theorem isCont_iff {b : Nat} (h : b < 256) : isCont b = true ↔ Cont b := by
  have : ∀ b, b < 256 → (isCont b = true ↔ (0x80 ≤ b ∧ b < 0xC0)) := by decide +kernel
  exact this b h

theorem isCont_of {b : Nat} (h : Cont b) : isCont b = true := (isCont_iff (by have := h.2; omega)).mpr h

theorem seqLen_two {b : Nat} (h : b < 0xE0) : seqLen b - 1 = 1 := by simp [seqLen, h]

theorem seqLen_three {b : Nat} (h1 : 0xE0 ≤ b) (h2 : b < 0xF0) : seqLen b - 1 = 2 := by
  simp [seqLen, h2, show ¬ (b < 0xE0) by omega]

theorem seqLen_four {b : Nat} (h : 0xF0 ≤ b) : seqLen b - 1 = 3 := by
  simp [seqLen, show ¬ (b < 0xE0) by omega, show ¬ (b < 0xF0) by omega]

theorem scan_units {l : List Nat} (h : Units l) (n : Nat) : scanUtf8 n 0 l = true := by
  induction h generalizing n with
  | nil => cases n <;> rfl
  | one hb _ ih =>
    cases n with
    | zero => rfl
    | succ n => simp only [scanUtf8, hb, if_true]; exact ih n
  | two h1 h2 hc _ ih =>
    cases n with
    | zero => rfl
    | succ n =>
      rw [scanUtf8, if_neg (by omega), if_pos (by
        rw [validMulti, if_neg (by omega), if_pos h2]; exact isCont_of hc)]
      rw [seqLen_two h2]
      cases n with
      | zero => rfl
      | succ n => exact ih n
  | three h1 h2 hc hd _ ih =>
    cases n with
    | zero => rfl
    | succ n =>
      rw [scanUtf8, if_neg (by omega), if_pos (by
        rw [validMulti, if_neg (by omega), if_neg (by omega), if_pos h2]
        simp [isCont_of hc, isCont_of hd])]
      rw [seqLen_three h1 h2]
      cases n with
      | zero => rfl
      | succ n => cases n with
        | zero => rfl
        | succ n => exact ih n
  | four h1 h2 hc hd he _ ih =>
    cases n with
    | zero => rfl
    | succ n =>
      rw [scanUtf8, if_neg (by omega), if_pos (by
        rw [validMulti, if_neg (by omega), if_neg (by omega), if_neg (by omega), if_pos h2]
        simp [isCont_of hc, isCont_of hd, isCont_of he])]
      rw [seqLen_four h1]
      cases n with
      | zero => rfl
      | succ n => cases n with
        | zero => rfl
        | succ n => cases n with
          | zero => rfl
          | succ n => exact ih n

theorem units_of_scan (k : Nat) (l : List Nat) (hk : l.length ≤ k) (hb : ∀ b ∈ l, b < 256)
    (h : scanUtf8 l.length 0 l = true) : Units l := by
  induction k generalizing l with
  | zero =>
    have : l = [] := List.eq_nil_of_length_eq_zero (by omega)
    subst this; exact .nil
  | succ k ih =>
    cases l with
    | nil => exact .nil
    | cons b r =>
      rw [List.length_cons, scanUtf8] at h
      simp only [List.length_cons] at hk
      split at h
      · rename_i h1
        exact .one h1 (ih r (by omega) (fun x hx => hb x (by simp [hx])) h)
      · split at h
        · rename_i h0 hv
          unfold validMulti at hv
          simp only at hv
          split at hv
          · cases hv
          · split at hv
            · rename_i g1 g2
              split at hv
              · rename_i c r'
                simp only [show seqLen b - 1 = 1 by simp [seqLen, g2], List.length_cons, scanUtf8] at h
                simp only [List.length_cons] at hk
                exact .two (by omega) g2 ((isCont_iff (hb c (by simp))).mp hv)
                  (ih r' (by omega) (fun x hx => hb x (by simp [hx])) h)
              · cases hv
            · split at hv
              · rename_i g1 g2 g3
                split at hv
                · rename_i c d r'
                  simp only [Bool.and_eq_true] at hv
                  simp only [show seqLen b - 1 = 2 by simp [seqLen, g2, g3], List.length_cons, scanUtf8] at h
                  simp only [List.length_cons] at hk
                  exact .three (by omega) g3 ((isCont_iff (hb c (by simp))).mp hv.1)
                    ((isCont_iff (hb d (by simp))).mp hv.2)
                    (ih r' (by omega) (fun x hx => hb x (by simp [hx])) h)
                · cases hv
              · split at hv
                · rename_i g1 g2 g3 g4
                  split at hv
                  · rename_i c d e r'
                    simp only [Bool.and_eq_true] at hv
                    simp only [show seqLen b - 1 = 3 by simp [seqLen, g2, g3], List.length_cons, scanUtf8] at h
                    simp only [List.length_cons] at hk
                    exact .four (by omega) g4 ((isCont_iff (hb c (by simp))).mp hv.1.1)
                      ((isCont_iff (hb d (by simp))).mp hv.1.2) ((isCont_iff (hb e (by simp))).mp hv.2)
                      (ih r' (by omega) (fun x hx => hb x (by simp [hx])) h)
                  · cases hv
                · cases hv
        · cases h

/-! ### Whole vectors -/

theorem natOf_all (bits : List Bool) : natOf bits + 1 = 2 ^ bits.length ↔ ∀ b ∈ bits, b = true := by
  induction bits with
  | nil => simp [natOf]
  | cons b l ih =>
    have hlt := natOf_lt l
    simp only [natOf, List.length_cons, Nat.pow_succ, List.mem_cons, forall_eq_or_imp, ← ih]
    cases b <;> simp <;> omega

/-- The vector of the first 32 bytes is full and has no ASCII byte. (Specification: no counterpart in the code.) -/
def AllHigh (l : List Nat) : Prop := 32 ≤ l.length ∧ ∀ b ∈ l.take 32, 0x80 ≤ b

theorem processChunk_iff (l : List Nat) (h : 32 ≤ l.length) :
    processChunk l = true ↔ AllHigh l ∨ scanUtf8 32 0 l = true := by
  have hlen : ((l.take 32).map (fun b => decide (0x80 ≤ b))).length = 32 := by
    rw [List.length_map, List.length_take]; omega
  have hall := natOf_all ((l.take 32).map (fun b => decide (0x80 ≤ b)))
  rw [hlen] at hall
  have hm : movemask ((l.take 32).map (fun b => decide (0x80 ≤ b))) = -1 ↔ AllHigh l := by
    constructor
    · intro hmm
      simp only [movemask] at hmm
      split at hmm
      · have := hall.mp (by omega)
        exact ⟨h, fun b hb => by simpa using this _ (List.mem_map_of_mem hb)⟩
      · omega
    · rintro ⟨_, ha⟩
      have hbits : ∀ b ∈ (l.take 32).map (fun b => decide (0x80 ≤ b)), b = true := by
        intro b hb
        obtain ⟨x, hx, rfl⟩ := List.mem_map.mp hb
        simpa using ha x hx
      have hn := hall.mpr hbits
      have h31 : ((l.take 32).map (fun b => decide (0x80 ≤ b)))[31]? = some true := by
        rw [List.getElem?_eq_getElem (by omega)]
        exact congrArg some (hbits _ (List.getElem_mem _))
      simp only [movemask, h31, if_true]
      omega
  simp only [processChunk]
  split
  · rename_i hh; simp [hm.mp hh]
  · rename_i hh; simp [mt hm.mpr hh]

theorem validateChunks_iff (n : Nat) (l : List Nat) (hn : 32 * n ≤ l.length) :
    validateChunks n l = true ↔ (∀ k, k < n → processChunk (l.drop (32 * k)) = true) ∧
      scanUtf8 (l.length - 32 * n) 0 (l.drop (32 * n)) = true := by
  induction n generalizing l with
  | zero => simp [validateChunks]
  | succ n ih =>
    simp only [validateChunks]
    have ih' := ih (l.drop 32) (by rw [List.length_drop]; omega)
    simp only [List.drop_drop, List.length_drop] at ih'
    rw [show l.length - 32 - 32 * n = l.length - 32 * (n + 1) by omega,
      show 32 + 32 * n = 32 * (n + 1) by omega] at ih'
    constructor
    · intro h
      split at h
      · rename_i h0
        obtain ⟨h1, h2⟩ := ih'.mp h
        refine ⟨fun k hk => ?_, h2⟩
        cases k with
        | zero => simpa using h0
        | succ k =>
          have := h1 k (by omega)
          rwa [show 32 + 32 * k = 32 * (k + 1) by omega] at this
      · cases h
    · rintro ⟨h1, h2⟩
      have h0 := h1 0 (by omega)
      simp at h0
      rw [if_pos h0]
      refine ih'.mpr ⟨fun k hk => ?_, h2⟩
      rw [show 32 + 32 * k = 32 * (k + 1) by omega]
      exact h1 (k + 1) (by omega)

/-! ### C57 -/

/-- Well-formed UTF-8 has the shape. -/
theorem units_of_valid {l : List Nat} (h : Utf8.Valid l) : Units l := by
  obtain ⟨s, rfl⟩ := h
  induction s with
  | nil => exact .nil
  | cons c s ih =>
    have hs := Utf8.isScalar_char c
    simp only [Utf8.isScalar, Bool.or_eq_true, Bool.and_eq_true, decide_eq_true_eq] at hs
    rw [show Utf8.encode (c :: s) = Utf8.encodeNat c.toNat ++ Utf8.encode s by simp [Utf8.encode, Utf8.encodeChar]]
    simp only [Utf8.encodeNat]
    split
    · rename_i h1; exact .one h1 ih
    · split
      · exact .two (by omega) (by omega) ⟨by omega, by omega⟩ ih
      · split
        · exact .three (by omega) (by omega) ⟨by omega, by omega⟩ ⟨by omega, by omega⟩ ih
        · exact .four (by omega) (by omega) ⟨by omega, by omega⟩ ⟨by omega, by omega⟩ ⟨by omega, by omega⟩ ih

/-- **C57**, inputs shorter than a vector: accepted exactly if they have the shape. Missing from the property: the
shape is weaker than well-formedness (`C57_overlong`). -/
theorem C57_short_partial (l : List Nat) (h : l.length < 32) (hb : ∀ b ∈ l, b < 256) :
    validateUtf8 l = true ↔ Units l := by
  have h0 : l.length / 32 = 0 := by omega
  simp only [validateUtf8, h0, validateChunks]
  exact ⟨units_of_scan _ l (Nat.le_refl _) hb, fun hu => scan_units hu _⟩

example : Units [0x61, 0xC3, 0xA9] := .one (by decide) (.two (by decide) (by decide) ⟨by decide, by decide⟩ .nil)

theorem units_drop {l : List Nat} (h : Units l) (i : Nat) (hi : ¬ Cont (l.getD i 0)) : Units (l.drop i) := by
  have hcont : ∀ {c : Nat} {r : List Nat}, Cont c → ¬ ¬ Cont ((c :: r).getD 0 0) := by
    intro c r hc h; exact h (by simpa using hc)
  induction h generalizing i with
  | nil => simp; exact .nil
  | one hb hr ih =>
    cases i with
    | zero => exact .one hb hr
    | succ i => exact ih i (by simpa using hi)
  | two h1 h2 hc hr ih =>
    match i with
    | 0 => exact .two h1 h2 hc hr
    | 1 => exact absurd hc (by simpa using hi)
    | i + 2 => exact ih i (by simpa using hi)
  | three h1 h2 hc hd hr ih =>
    match i with
    | 0 => exact .three h1 h2 hc hd hr
    | 1 => exact absurd hc (by simpa using hi)
    | 2 => exact absurd hd (by simpa using hi)
    | i + 3 => exact ih i (by simpa using hi)
  | four h1 h2 hc hd he hr ih =>
    match i with
    | 0 => exact .four h1 h2 hc hd he hr
    | 1 => exact absurd hc (by simpa using hi)
    | 2 => exact absurd hd (by simpa using hi)
    | 3 => exact absurd he (by simpa using hi)
    | i + 4 => exact ih i (by simpa using hi)

theorem scan_cont (l : List Nat) (n : Nat) (hn : n ≠ 0) (hl : l ≠ []) (hc : Cont (l.getD 0 0)) :
    scanUtf8 n 0 l = false := by
  cases l with
  | nil => exact absurd rfl hl
  | cons b r =>
    cases n with
    | zero => exact absurd rfl hn
    | succ n =>
      simp only [List.getD_cons_zero] at hc
      have h1 := hc.1
      have h2 := hc.2
      rw [scanUtf8, if_neg (by omega), if_neg (by simp [validMulti, h2])]

/-- **C57** (exact form on well-formed input). Text is accepted exactly if every vector that begins inside a
character is full and has no ASCII byte. Missing from the property: well-formed text with a character across a
vector boundary is refused otherwise. -/
theorem C57_wellformed_partial (l : List Nat) (hv : Utf8.Valid l) :
    validateUtf8 l = true ↔
      ∀ k, 32 * k < l.length → Cont (l.getD (32 * k) 0) → AllHigh (l.drop (32 * k)) := by
  have hu := units_of_valid hv
  simp only [validateUtf8]
  rw [validateChunks_iff _ _ (by omega)]
  constructor
  · rintro ⟨h1, h2⟩ k hk hc
    have hc' : Cont ((l.drop (32 * k)).getD 0 0) := by rw [getD_drop]; simpa using hc
    have hne : l.drop (32 * k) ≠ [] := by
      intro he
      have := congrArg List.length he
      simp at this; omega
    by_cases hkn : k < l.length / 32
    · have := (processChunk_iff _ (by rw [List.length_drop]; omega)).mp (h1 k hkn)
      rcases this with h | h
      · exact h
      · rw [scan_cont _ _ (by omega) hne hc'] at h; cases h
    · have : k = l.length / 32 := by omega
      subst this
      rw [scan_cont _ _ (by omega) hne hc'] at h2; cases h2
  · intro h
    refine ⟨fun k hk => ?_, ?_⟩
    · rw [processChunk_iff _ (by rw [List.length_drop]; omega)]
      by_cases hc : Cont (l.getD (32 * k) 0)
      · exact .inl (h k (by omega) hc)
      · exact .inr (scan_units (units_drop hu _ hc) _)
    · by_cases hlen : 32 * (l.length / 32) < l.length
      · by_cases hc : Cont (l.getD (32 * (l.length / 32)) 0)
        · have := (h _ hlen hc).1
          rw [List.length_drop] at this; omega
        · exact scan_units (units_drop hu _ hc) _
      · rw [show l.length - 32 * (l.length / 32) = 0 by omega]; rfl

theorem valid_encode (s : List Char) : Utf8.Valid (Utf8.encode s) := ⟨s, rfl⟩

example : Utf8.Valid (Utf8.encode ['a', 'é', '€']) := valid_encode _

/-- **C57**: text of ASCII characters is always accepted. -/
theorem C57_ascii (l : List Nat) (h : ∀ b ∈ l, b < 0x80) : validateUtf8 l = true := by
  have hu : ∀ l : List Nat, (∀ b ∈ l, b < 0x80) → Units l := by
    intro l
    induction l with
    | nil => intro _; exact .nil
    | cons b l ih => intro h; exact .one (h b (by simp)) (ih (fun x hx => h x (by simp [hx])))
  simp only [validateUtf8]
  rw [validateChunks_iff _ _ (by omega)]
  have hd : ∀ i, Units (l.drop i) := fun i => hu _ (fun b hb => h b (List.mem_of_mem_drop hb))
  exact ⟨fun k hk => (processChunk_iff _ (by rw [List.length_drop]; omega)).mpr (.inr (scan_units (hd _) _)),
    scan_units (hd _) _⟩

/-- **C57** fails: a character across the boundary of the first vector is refused. 31 letters, then "é". -/
theorem C57_straddle : Utf8.Valid (Utf8.encode (List.replicate 31 'a' ++ ['é'])) ∧
    validateUtf8 (Utf8.encode (List.replicate 31 'a' ++ ['é'])) = false :=
  ⟨valid_encode _, by decide +kernel⟩

/-- **C57** fails: any number of whole vectors without an ASCII byte is accepted, whatever the bytes. -/
theorem C57_all_high (l : List Nat) (h32 : l.length % 32 = 0) (h : ∀ b ∈ l, 0x80 ≤ b) : validateUtf8 l = true := by
  simp only [validateUtf8]
  rw [validateChunks_iff _ _ (by omega)]
  refine ⟨fun k hk => ?_, ?_⟩
  · rw [processChunk_iff _ (by rw [List.length_drop]; omega)]
    exact .inl ⟨by rw [List.length_drop]; omega,
      fun b hb => h b (List.mem_of_mem_drop (List.mem_of_mem_take hb))⟩
  · rw [show l.length - 32 * (l.length / 32) = 0 by omega]; rfl

example : (List.replicate 64 0xFF).length % 32 = 0 ∧ ∀ b ∈ List.replicate 64 0xFF, 0x80 ≤ b := by
  refine ⟨by decide, fun b hb => ?_⟩
  rw [(List.mem_replicate.mp hb).2]; decide

theorem not_valid_of_decode {l : List Nat} (h : Utf8.decode l = none) : ¬ Utf8.Valid l := by
  rintro ⟨s, rfl⟩
  rw [Utf8.decode_encode] at h; cases h

/-- 32 bytes of 0xFF are accepted and are not UTF-8. -/
theorem C57_high_not_utf8 : validateUtf8 (List.replicate 32 0xFF) = true ∧ ¬ Utf8.Valid (List.replicate 32 0xFF) :=
  ⟨by decide +kernel, not_valid_of_decode (by simp [List.replicate, Utf8.decode, Utf8.decodeOne])⟩

/-- **C57** fails: overlong forms and surrogates are accepted; neither is UTF-8. The documentation of the function
gives an overlong form as its example of a refused input. -/
theorem C57_overlong : (validateUtf8 [0xC0, 0x80] = true ∧ ¬ Utf8.Valid [0xC0, 0x80]) ∧
    (validateUtf8 [0xED, 0xA0, 0x80] = true ∧ ¬ Utf8.Valid [0xED, 0xA0, 0x80]) :=
  ⟨⟨by decide, not_valid_of_decode (by simp [Utf8.decode, Utf8.decodeOne, Utf8.isCont])⟩,
    ⟨by decide, not_valid_of_decode (by simp [Utf8.decode, Utf8.decodeOne, Utf8.isCont, Utf8.isScalar])⟩⟩

end Verif.Simd
