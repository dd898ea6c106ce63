import Verif.Simd.Model

/-
The scans (C56) and the substring search (C61).
-/

namespace Verif.Simd

/-! ### Masks and the bit loop -/

theorem natOf_lt (l : List Bool) : natOf l < 2 ^ l.length := by
  induction l with
  | nil => simp [natOf]
  | cons b l ih =>
    simp only [natOf, List.length_cons, Nat.pow_succ]
    cases b <;> simp <;> omega

theorem natOf_snoc (l : List Bool) (b : Bool) : natOf (l ++ [b]) = natOf l + 2 ^ l.length * b.toNat := by
  induction l with
  | nil => simp [natOf]
  | cons a l ih =>
    simp only [List.cons_append, natOf, ih, List.length_cons, Nat.pow_succ]
    rw [Nat.mul_add, ← Nat.mul_assoc, Nat.mul_comm 2 (2 ^ l.length)]; omega

theorem movemask_neg (l : List Bool) (hl : l.length = 32) (h : l[31]? = some true) : movemask l < 0 := by
  have := natOf_lt l
  rw [hl] at this
  simp only [movemask, h, if_true]
  omega

theorem movemask_nat (l : List Bool) (h : l[31]? ≠ some true) : movemask l = natOf l := by
  simp [movemask, h]

theorem scanTail_zero (p : Nat → Bool) (l : List Nat) (h : natOf (l.map p) = 0) (pos : Nat) : scanTail p pos l = [] := by
  induction l generalizing pos with
  | nil => rfl
  | cons b l ih =>
    simp only [List.map_cons, natOf] at h
    cases hb : p b with
    | true => rw [hb] at h; simp at h
    | false =>
      rw [hb] at h
      simp only [scanTail, hb]
      exact ih (by simp at h; omega) (pos + 1)

/-- On a mask that is not negative the loop collects the positions. -/
theorem bitLoop_nat (p : Nat → Bool) (l : List Nat) (fuel pos : Nat) (acc : List Nat) (hf : l.length ≤ fuel) :
    bitLoop fuel (natOf (l.map p)) pos acc = some (acc ++ scanTail p pos l) := by
  induction l generalizing fuel pos acc with
  | nil => unfold bitLoop; simp [natOf, scanTail]
  | cons b l ih =>
    unfold bitLoop
    by_cases h0 : natOf ((b :: l).map p) = 0
    · rw [if_pos (by omega), scanTail_zero p (b :: l) h0, List.append_nil]
    · rw [if_neg (by omega)]
      cases fuel with
      | zero => simp at hf
      | succ fuel =>
        simp only
        have hd : ((natOf ((b :: l).map p) : Nat) : Int) / 2 = natOf (l.map p) := by
          simp only [List.map_cons, natOf]
          cases p b <;> simp <;> omega
        have hm : (((natOf ((b :: l).map p) : Nat) : Int) % 2 = 1) ↔ p b = true := by
          simp only [List.map_cons, natOf]
          cases p b <;> simp <;> omega
        rw [hd, ih fuel (pos + 1) _ (by simpa using hf)]
        simp only [hm, scanTail]
        cases p b <;> simp

/-- On a negative mask the loop never ends. -/
theorem bitLoop_neg (fuel : Nat) (m : Int) (pos : Nat) (acc : List Nat) (h : m < 0) : bitLoop fuel m pos acc = none := by
  induction fuel generalizing m pos acc with
  | zero => unfold bitLoop; simp [show m ≠ 0 by omega]
  | succ fuel ih =>
    unfold bitLoop
    simp only [show m ≠ 0 by omega, if_false]
    exact ih _ _ _ (by omega)

theorem scanTail_append (p : Nat → Bool) (a b : List Nat) (pos : Nat) :
    scanTail p pos (a ++ b) = scanTail p pos a ++ scanTail p (pos + a.length) b := by
  induction a generalizing pos with
  | nil => simp [scanTail]
  | cons x a ih =>
    simp only [List.cons_append, scanTail, ih, List.length_cons]
    have : pos + 1 + a.length = pos + (a.length + 1) := by omega
    rw [this]
    split <;> simp

theorem positions_cons (p : Nat → Bool) (b : Nat) (l : List Nat) :
    positions p (b :: l) = (if p b then [0] else []) ++ (positions p l).map (· + 1) := by
  simp only [positions, List.length_cons, List.range_succ_eq_map, List.filter_cons, List.getD_cons_zero,
    List.filter_map, Function.comp_def, List.getD_cons_succ]
  split <;> simp

theorem scanTail_eq (p : Nat → Bool) (l : List Nat) (pos : Nat) :
    scanTail p pos l = (positions p l).map (· + pos) := by
  induction l generalizing pos with
  | nil => rfl
  | cons b l ih =>
    rw [positions_cons]
    simp only [scanTail, ih, List.map_append, List.map_map, Function.comp_def]
    have : (fun x => x + (pos + 1)) = (fun x => x + 1 + pos) := by funext x; omega
    rw [this]
    split <;> simp

theorem take_map_get (p : Nat → Bool) (l : List Nat) (h : 32 ≤ l.length) :
    ((l.take 32).map p)[31]? = some (p (l.getD 31 0)) := by
  rw [List.getElem?_map, List.getElem?_take_of_lt (by omega), List.getElem?_eq_getElem (by omega)]
  simp [List.getD_eq_getElem?_getD, List.getElem?_eq_getElem (show 31 < l.length by omega)]

theorem getD_drop (l : List Nat) (i j : Nat) : (l.drop i).getD j 0 = l.getD (i + j) 0 := by
  simp [List.getD_eq_getElem?_getD, List.getElem?_drop]

theorem scanChunks_good (p : Nat → Bool) (fuel n off : Nat) (l acc : List Nat) (hn : 32 * n ≤ l.length)
    (hp : ∀ k, k < n → p (l.getD (32 * k + 31) 0) = false) (hf : 32 ≤ fuel) :
    scanChunks fuel p n off l acc = some (acc ++ scanTail p off l) := by
  induction n generalizing off l acc with
  | zero => rfl
  | succ n ih =>
    have h0 := hp 0 (by omega)
    have hlane := take_map_get p l (by omega)
    rw [h0] at hlane
    simp only [scanChunks]
    rw [movemask_nat _ (by rw [hlane]; simp),
      bitLoop_nat p (l.take 32) fuel off acc (by rw [List.length_take]; omega)]
    simp only
    rw [ih (off + 32) (l.drop 32) _ (by rw [List.length_drop]; omega) (by
      intro k hk
      rw [getD_drop]
      have := hp (k + 1) (by omega)
      rw [show 32 + (32 * k + 31) = 32 * (k + 1) + 31 by omega]; exact this)]
    rw [List.append_assoc]
    have := scanTail_append p (l.take 32) (l.drop 32) off
    rw [List.take_append_drop, List.length_take, Nat.min_eq_left (by omega)] at this
    rw [this]

theorem scanChunks_bad (p : Nat → Bool) (fuel n off : Nat) (l acc : List Nat) (hn : 32 * n ≤ l.length)
    (k : Nat) (hk : k < n) (hp : p (l.getD (32 * k + 31) 0) = true) : scanChunks fuel p n off l acc = none := by
  induction n generalizing off l acc k with
  | zero => omega
  | succ n ih =>
    have hlane := take_map_get p l (by omega)
    simp only [scanChunks]
    cases k with
    | zero =>
      simp only [Nat.mul_zero, Nat.zero_add] at hp
      rw [hp] at hlane
      rw [bitLoop_neg _ _ _ _ (movemask_neg _ (by rw [List.length_map, List.length_take]; omega) hlane)]
    | succ k =>
      split
      · rfl
      · next acc' _ =>
        refine ih (off + 32) (l.drop 32) acc' (by rw [List.length_drop]; omega) k (by omega) ?_
        rw [getD_drop, show 32 + (32 * k + 31) = 32 * (k + 1) + 31 by omega]; exact hp

/-- A scan returns exactly if no byte of the kind sits in the last lane of a vector, and then it returns all
positions. -/
theorem scan_exact (p : Nat → Bool) (l r : List Nat) :
    (∃ fuel, scanChunks fuel p (l.length / 32) 0 l [] = some r) ↔
      (∀ i, i < l.length → i % 32 = 31 → p (l.getD i 0) = false) ∧ r = positions p l := by
  have hn : 32 * (l.length / 32) ≤ l.length := by omega
  constructor
  · rintro ⟨fuel, h⟩
    have hall : ∀ i, i < l.length → i % 32 = 31 → p (l.getD i 0) = false := by
      intro i hi h31
      cases hp : p (l.getD i 0) with
      | false => rfl
      | true =>
        have := scanChunks_bad p fuel (l.length / 32) 0 l [] hn (i / 32) (by omega) (by
          rw [show 32 * (i / 32) + 31 = i by omega]; exact hp)
        rw [this] at h; cases h
    refine ⟨hall, ?_⟩
    have hg := scanChunks_good p (max fuel 32) (l.length / 32) 0 l [] hn
      (fun k hk => hall _ (by omega) (by omega)) (by omega)
    -- the result does not depend on the bound
    have mono : ∀ (f m : Nat) (x : Int) (pos : Nat) (acc r : List Nat), f ≤ m → bitLoop f x pos acc = some r →
        bitLoop m x pos acc = some r := by
      intro f
      induction f with
      | zero =>
        intro m x pos acc r _ h
        unfold bitLoop at h ⊢
        split at h
        · rename_i hx; simp [hx] at h ⊢; exact h
        · cases h
      | succ f ih =>
        intro m x pos acc r hm h
        unfold bitLoop at h ⊢
        split at h
        · rename_i hx; simp [hx] at h ⊢; exact h
        · rename_i hx
          cases m with
          | zero => omega
          | succ m => simp only [hx, if_false]; exact ih m _ _ _ _ (by omega) h
    have mono2 : ∀ (n off : Nat) (l acc r : List Nat), scanChunks fuel p n off l acc = some r →
        scanChunks (max fuel 32) p n off l acc = some r := by
      intro n
      induction n with
      | zero => intro off l acc r h; exact h
      | succ n ih =>
        intro off l acc r h
        simp only [scanChunks] at h ⊢
        split at h
        · cases h
        · next acc' he => rw [mono _ _ _ _ _ _ (by omega) he]; exact ih _ _ _ _ h
    rw [mono2 _ _ _ _ _ h] at hg
    have := Option.some.inj hg
    rw [this, List.nil_append, scanTail_eq]
    simp
  · rintro ⟨hall, rfl⟩
    refine ⟨32, ?_⟩
    rw [scanChunks_good p 32 (l.length / 32) 0 l [] hn (fun k hk => hall _ (by omega) (by omega)) (by omega),
      scanTail_eq]
    simp

/-! ### C56 -/

/-- The white space of JSON: space, tab, line feed and carriage return.
(Specification: no counterpart in the code.) -/
def Blank (b : Nat) : Bool := decide (b ∈ [' ', '\t', '\n', '\r'].map Char.toNat)

/-- The characters that begin or end an escape in a JSON string: backslash and quote.
(Specification: no counterpart in the code.) -/
def Escape (b : Nat) : Bool := decide (b ∈ ['\\', '"'].map Char.toNat)

theorem isWs_eq : isWs = Blank := by
  funext b
  simp only [isWs, Blank, List.map_cons, List.map_nil, List.mem_cons, List.not_mem_nil, or_false, Bool.decide_or,
    ← Bool.beq_eq_decide_eq, Bool.or_assoc]
  rfl

theorem isEsc_eq : isEsc = Escape := by
  funext b
  simp only [isEsc, Escape, List.map_cons, List.map_nil, List.mem_cons, List.not_mem_nil, or_false, Bool.decide_or,
    ← Bool.beq_eq_decide_eq]
  rfl

/-- The scans in terms of the model's own predicates, for use in other proofs. -/
theorem whitespace_exact (l r : List Nat) : (∃ fuel, findWhitespace fuel l = some r) ↔
    (∀ i, i < l.length → i % 32 = 31 → isWs (l.getD i 0) = false) ∧ r = positions isWs l := scan_exact isWs l r

theorem escapes_exact (l r : List Nat) : (∃ fuel, findEscapes fuel l = some r) ↔
    (∀ i, i < l.length → i % 32 = 31 → isEsc (l.getD i 0) = false) ∧ r = positions isEsc l := scan_exact isEsc l r

theorem short_exact (l : List Nat) (h : l.length < 32) :
    findWhitespace 0 l = some (positions isWs l) ∧ findEscapes 0 l = some (positions isEsc l) := by
  have : l.length / 32 = 0 := by omega
  simp [findWhitespace, findEscapes, this, scanChunks, scanTail_eq]

/-- **C56** (exact form), whitespace. The scan returns exactly if no byte at a position 31, 63, 95, .. is
whitespace, and then it returns what the byte-by-byte scan returns. Missing from the property: for all other
inputs it never returns. -/
theorem C56_whitespace_partial (l r : List Nat) : (∃ fuel, findWhitespace fuel l = some r) ↔
    (∀ i, i < l.length → i % 32 = 31 → Blank (l.getD i 0) = false) ∧ r = positions Blank l := isWs_eq ▸ whitespace_exact l r

/-- **C56** (exact form), escapes. -/
theorem C56_escapes_partial (l r : List Nat) : (∃ fuel, findEscapes fuel l = some r) ↔
    (∀ i, i < l.length → i % 32 = 31 → Escape (l.getD i 0) = false) ∧ r = positions Escape l := isEsc_eq ▸ escapes_exact l r

/-- **C56**, inputs shorter than a vector: always all positions. -/
theorem C56_short (l : List Nat) (h : l.length < 32) :
    findWhitespace 0 l = some (positions Blank l) ∧ findEscapes 0 l = some (positions Escape l) := by
  rw [← isWs_eq, ← isEsc_eq]
  exact short_exact l h

example : positions Blank [0x61, 0x20, 0x62, 0x0A] = [1, 3] := by decide
example : ∀ i, i < (List.replicate 40 0x61).length → i % 32 = 31 → Blank ((List.replicate 40 0x61).getD i 0) = false := by
  decide

/-- **C56** fails: with a space as byte 31 the scan runs forever, whatever the other bytes. -/
theorem C56_never_returns (l : List Nat) (h : 32 ≤ l.length) (hs : l.getD 31 0 = 0x20) (fuel : Nat) :
    findWhitespace fuel l = none := by
  cases hr : findWhitespace fuel l with
  | none => rfl
  | some r =>
    have := ((C56_whitespace_partial l r).mp ⟨fuel, hr⟩).1 31 (by omega) rfl
    rw [hs] at this; cases this

example : 32 ≤ (List.replicate 31 0x61 ++ [0x20]).length ∧ (List.replicate 31 0x61 ++ [0x20]).getD 31 0 = 0x20 := by
  decide

/-! ### C61 -/

/-- The needle occurs at index `i`. (Specification: no counterpart in the code.) -/
def Occurs (h n : List Nat) (i : Nat) : Prop := ∃ a b, h = a ++ n ++ b ∧ a.length = i

theorem matchAt_iff (h n : List Nat) (i : Nat) : matchAt h n i = true ↔ Occurs h n i := by
  simp only [matchAt, Bool.and_eq_true, decide_eq_true_eq, beq_iff_eq]
  constructor
  · rintro ⟨hl, he⟩
    refine ⟨h.take i, h.drop (i + n.length), ?_, by rw [List.length_take]; omega⟩
    have h1 := List.take_append_drop i h
    have h2 := List.take_append_drop n.length (h.drop i)
    rw [he, List.drop_drop] at h2
    rw [List.append_assoc, h2, h1]
  · rintro ⟨a, b, rfl, rfl⟩
    simp

/-- The first index in `[pos, pos + k)` with the property. (Specification: no counterpart in the code.) -/
def findP (P : Nat → Bool) : Nat → Nat → Option Nat
  | 0, _ => none
  | k + 1, pos => if P pos then some pos else findP P k (pos + 1)

theorem findP_none (P : Nat → Bool) (k pos : Nat) : findP P k pos = none ↔ ∀ j, pos ≤ j → j < pos + k → P j = false := by
  induction k generalizing pos with
  | zero => simp [findP]; intros; omega
  | succ k ih =>
    simp only [findP]
    cases hp : P pos with
    | true =>
      simp
      exact ⟨pos, by omega, by omega, hp⟩
    | false =>
      simp only [Bool.false_eq_true, if_false]
      rw [ih]
      constructor
      · intro h j h1 h2
        by_cases hj : j = pos
        · rw [hj]; exact hp
        · exact h j (by omega) (by omega)
      · intro h j h1 h2; exact h j (by omega) (by omega)

theorem findP_some (P : Nat → Bool) (k pos i : Nat) (h1 : pos ≤ i) (h2 : i < pos + k) (hi : P i = true)
    (hl : ∀ j, j < i → P j = false) : findP P k pos = some i := by
  induction k generalizing pos with
  | zero => omega
  | succ k ih =>
    simp only [findP]
    by_cases he : pos = i
    · subst he; simp [hi]
    · rw [hl pos (by omega)]
      simp only [Bool.false_eq_true, if_false]
      exact ih (pos + 1) (by omega) (by omega)

/-- The first set bit whose position matches. (Specification: no counterpart in the code.) -/
def firstBit (P : Nat → Bool) : List Bool → Nat → Option Nat
  | [], _ => none
  | b :: l, pos => if b && P pos then some pos else firstBit P l (pos + 1)

theorem matchAt_head {h n : List Nat} {c : Nat} {t : List Nat} (hn : n = c :: t) {i : Nat} (hm : matchAt h n i = true) :
    h.getD i 0 = c := by
  obtain ⟨a, b, rfl, rfl⟩ := (matchAt_iff h n i).mp hm
  simp [hn, List.getD_eq_getElem?_getD]

/-- In a window of the haystack the bits do not hide a match. -/
theorem firstBit_window (h n : List Nat) (c : Nat) (t : List Nat) (hn : n = c :: t) (k pos : Nat)
    (hk : pos + k ≤ h.length) :
    firstBit (matchAt h n) (((h.drop pos).take k).map (· == c)) pos = findP (matchAt h n) k pos := by
  induction k generalizing pos with
  | zero => rfl
  | succ k ih =>
    have hlt : pos < h.length := by omega
    rw [List.drop_eq_getElem_cons hlt, List.take_succ_cons, List.map_cons]
    simp only [firstBit, findP]
    rw [ih (pos + 1) (by omega)]
    cases hm : matchAt h n pos with
    | false => simp
    | true =>
      have := matchAt_head hn hm
      rw [List.getD_eq_getElem?_getD, List.getElem?_eq_getElem hlt] at this
      simp at this
      simp [this]

theorem firstBit_zero (P : Nat → Bool) (bits : List Bool) (h : natOf bits = 0) (pos : Nat) :
    firstBit P bits pos = none := by
  induction bits generalizing pos with
  | nil => rfl
  | cons b l ih =>
    simp only [natOf] at h
    cases b with
    | true => simp at h
    | false => simp only [firstBit, Bool.false_and]; exact ih (by simp at h; omega) _

theorem patLoop_nat (h n : List Nat) (bits : List Bool) (fuel pos : Nat) (hf : bits.length ≤ fuel) :
    patLoop h n fuel (natOf bits) pos = some (firstBit (matchAt h n) bits pos) := by
  induction bits generalizing fuel pos with
  | nil => unfold patLoop; simp [natOf, firstBit]
  | cons b l ih =>
    unfold patLoop
    by_cases h0 : natOf (b :: l) = 0
    · simp [h0, firstBit_zero _ _ h0]
    · rw [if_neg (by omega)]
      have hd : ((natOf (b :: l) : Nat) : Int) / 2 = natOf l := by
        simp only [natOf]; cases b <;> simp <;> omega
      have hm : decide (((natOf (b :: l) : Nat) : Int) % 2 = 1) = b := by
        simp only [natOf]; cases b <;> simp <;> omega
      cases fuel with
      | zero => simp at hf
      | succ fuel =>
        rw [hm]
        simp only [firstBit]
        split
        · rfl
        · simp only [hd]; exact ih fuel (pos + 1) (by simpa using hf)

/-- After a mask with its sign bit set the loop goes on through all later positions. -/
theorem patLoop_ones (h n : List Nat) (i : Nat) (hi : matchAt h n i = true) (hl : ∀ j, j < i → matchAt h n j = false)
    (fuel pos : Nat) (hp : pos ≤ i) (hf : i - pos ≤ fuel) : patLoop h n fuel (-1) pos = some (some i) := by
  induction fuel generalizing pos with
  | zero =>
    have : pos = i := by omega
    subst this
    unfold patLoop; simp [hi]
  | succ fuel ih =>
    unfold patLoop
    by_cases he : pos = i
    · subst he; simp [hi]
    · simp only [hl pos (by omega)]
      simp only [show ((-1 : Int) = 0) = False by simp, if_false, Bool.and_false, Bool.false_eq_true]
      exact ih (pos + 1) (by omega) (by omega)

theorem patLoop_neg (h n : List Nat) (hl : ∀ j, matchAt h n j = false) (fuel : Nat) (m : Int) (pos : Nat) (hm : m < 0) :
    patLoop h n fuel m pos = none := by
  induction fuel generalizing m pos with
  | zero => unfold patLoop; simp [hl, show m ≠ 0 by omega]
  | succ fuel ih =>
    unfold patLoop
    simp only [hl, Bool.and_false, Bool.false_eq_true, if_false, show m ≠ 0 by omega]
    exact ih _ _ (by omega)

/-- A mask with its sign bit set: the bits, then all later positions. -/
theorem patLoop_signed (h n : List Nat) (i : Nat) (hi : matchAt h n i = true) (hl : ∀ j, j < i → matchAt h n j = false)
    (bits : List Bool) (fuel pos : Nat) (hp : pos ≤ i) (hf : i - pos + bits.length ≤ fuel)
    (hb : ∀ j, j < bits.length → pos + j = i → bits[j]? = some true) :
    patLoop h n fuel ((natOf bits : Int) - 2 ^ bits.length) pos = some (some i) := by
  induction bits generalizing fuel pos with
  | nil => simp only [natOf, List.length_nil]; exact patLoop_ones h n i hi hl fuel pos hp (by simp at hf; omega)
  | cons b l ih =>
    have hlt := natOf_lt (b :: l)
    have hlt' : ((natOf (b :: l) : Nat) : Int) < 2 ^ (b :: l).length := by exact_mod_cast hlt
    unfold patLoop
    rw [if_neg (by omega)]
    have hpow : (2 : Int) ^ (b :: l).length = 2 * 2 ^ l.length := by
      rw [List.length_cons, Int.pow_succ]; omega
    have hd : (((natOf (b :: l) : Nat) : Int) - 2 ^ (b :: l).length) / 2 = (natOf l : Int) - 2 ^ l.length := by
      rw [hpow]; simp only [natOf]; cases b <;> simp <;> omega
    have hm : decide ((((natOf (b :: l) : Nat) : Int) - 2 ^ (b :: l).length) % 2 = 1) = b := by
      rw [hpow]; simp only [natOf]; cases b <;> simp <;> omega
    rw [hm]
    by_cases he : pos = i
    · have := hb 0 (by simp) (by omega)
      simp at this
      subst he
      simp [this, hi]
    · simp only [hl pos (by omega), Bool.and_false, Bool.false_eq_true, if_false]
      cases fuel with
      | zero => simp at hf
      | succ fuel =>
        simp only [hd]
        refine ih fuel (pos + 1) (by omega) (by simp at hf; omega) (fun j hj hji => ?_)
        have := hb (j + 1) (by simp; omega) (by omega)
        simpa using this

theorem patLoop_mono (h n : List Nat) (f m : Nat) (x : Int) (pos : Nat) (r : Option Nat) (hm : f ≤ m)
    (hr : patLoop h n f x pos = some r) : patLoop h n m x pos = some r := by
  induction f generalizing m x pos with
  | zero =>
    unfold patLoop at hr ⊢
    split at hr
    · rename_i hx; simp [hx] at hr ⊢; exact hr
    · rename_i hx
      split at hr
      · rename_i h2; simp only [hx, if_false, h2]; exact hr
      · cases hr
  | succ f ih =>
    unfold patLoop at hr ⊢
    split at hr
    · rename_i hx; simp [hx] at hr ⊢; exact hr
    · rename_i hx
      split at hr
      · rename_i h2; simp only [hx, if_false, h2]; exact hr
      · rename_i h2
        cases m with
        | zero => omega
        | succ m => simp only [hx, if_false, h2]; exact ih m _ _ (by omega) hr

theorem patChunks_mono (h n : List Nat) (c f m : Nat) (k off : Nat) (r : Option Nat) (hm : f ≤ m)
    (hr : patChunks f h n c k off = some r) : patChunks m h n c k off = some r := by
  induction k generalizing off with
  | zero => exact hr
  | succ k ih =>
    simp only [patChunks] at hr ⊢
    split at hr
    · cases hr
    · next p he => rw [patLoop_mono h n f m _ _ _ hm he]; exact hr
    · next he => rw [patLoop_mono h n f m _ _ _ hm he]; exact ih _ hr

theorem findFrom_eq (h n : List Nat) (k i : Nat) (hk : i + k + n.length ≤ h.length + 1) (hn : k = 0 ∨ n.length ≤ h.length) :
    findFrom h n k i = findP (matchAt h n) k i := by
  induction k generalizing i with
  | zero => rfl
  | succ k ih =>
    simp only [findFrom, findP]
    rw [ih (i + 1) (by omega) (by omega)]
    have : matchAt h n i = ((h.drop i).take n.length == n) := by
      simp only [matchAt, show i + n.length ≤ h.length by omega, decide_true, Bool.true_and]
    rw [this]

theorem window_lane (h : List Nat) (c off : Nat) (hk : off + 32 ≤ h.length) :
    (((h.drop off).take 32).map (· == c))[31]? = some (h.getD (off + 31) 0 == c) := by
  have := take_map_get (· == c) (h.drop off) (by rw [List.length_drop]; omega)
  rw [getD_drop] at this; exact this

theorem window_length (h : List Nat) (c off : Nat) (hk : off + 32 ≤ h.length) :
    (((h.drop off).take 32).map (· == c)).length = 32 := by
  rw [List.length_map, List.length_take, List.length_drop]; omega

theorem matchAt_bound {h n : List Nat} {i : Nat} (hm : matchAt h n i = true) : i + n.length ≤ h.length := by
  simp only [matchAt, Bool.and_eq_true, decide_eq_true_eq] at hm
  exact hm.1

/-- If the needle occurs, the search returns its first occurrence. -/
theorem patChunks_found (h n : List Nat) (c : Nat) (t : List Nat) (hn : n = c :: t) (i : Nat) (hi : matchAt h n i = true)
    (hl : ∀ j, j < i → matchAt h n j = false) (k off : Nat) (ho : off ≤ i)
    (hk : off + 32 * k ≤ h.length - n.length + 1) (fuel : Nat) (hf : h.length + 32 ≤ fuel) :
    patChunks fuel h n c k off = some (some i) := by
  have hb := matchAt_bound hi
  have hpos : 0 < n.length := by rw [hn]; simp
  induction k generalizing off with
  | zero =>
    simp only [patChunks]
    rw [findFrom_eq h n _ off (by omega) (by omega)]
    exact congrArg some (findP_some _ _ _ i ho (by omega) hi hl)
  | succ k ih =>
    simp only [patChunks]
    have hlane := window_lane h c off (by omega)
    have hlen := window_length h c off (by omega)
    by_cases hs : h.getD (off + 31) 0 == c
    · rw [hs] at hlane
      have : movemask (((h.drop off).take 32).map (· == c)) =
          (natOf (((h.drop off).take 32).map (· == c)) : Int) - 2 ^ (((h.drop off).take 32).map (· == c)).length := by
        rw [hlen]; simp only [movemask, hlane, if_true]
      rw [this, patLoop_signed h n i hi hl _ fuel off ho (by rw [hlen]; omega) (by
        intro j hj hji
        rw [hlen] at hj
        have hh := matchAt_head hn hi
        have hjj : i < h.length := by omega
        rw [List.getElem?_map, List.getElem?_take_of_lt hj, List.getElem?_drop, hji, List.getElem?_eq_getElem hjj]
        rw [List.getD_eq_getElem?_getD, List.getElem?_eq_getElem hjj] at hh
        simpa using hh)]
    · have hs' : (h.getD (off + 31) 0 == c) = false := by simpa using hs
      rw [hs'] at hlane
      rw [movemask_nat _ (by rw [hlane]; simp), patLoop_nat _ _ _ _ _ (by rw [hlen]; omega),
        firstBit_window h n c t hn 32 off (by omega)]
      by_cases hin : i < off + 32
      · rw [findP_some _ _ _ i ho hin hi hl]
      · rw [(findP_none _ _ _).mpr (fun j _ hj => hl j (by omega))]
        exact ih (off + 32) (by omega) (by omega)

/-- If the needle does not occur, the search returns exactly if the first byte of the needle is in no last lane. -/
theorem patChunks_absent (h n : List Nat) (c : Nat) (t : List Nat) (hn : n = c :: t) (hle : n.length ≤ h.length)
    (hl : ∀ j, matchAt h n j = false) (k off : Nat) (hk : off + 32 * k ≤ h.length - n.length + 1) :
    (∃ fuel, patChunks fuel h n c k off = some none) ↔ ∀ j, j < k → h.getD (off + 32 * j + 31) 0 ≠ c := by
  have hpos : 0 < n.length := by rw [hn]; simp
  induction k generalizing off with
  | zero =>
    simp only [patChunks]
    rw [findFrom_eq h n _ off (by omega) (by omega), (findP_none _ _ _).mpr (fun j _ _ => hl j)]
    simp
  | succ k ih =>
    have hlane := window_lane h c off (by omega)
    have hlen := window_length h c off (by omega)
    have ih' := ih (off + 32) (by omega)
    by_cases hs : h.getD (off + 31) 0 = c
    · have hneg := movemask_neg _ hlen (by rw [hlane, hs]; simp)
      constructor
      · rintro ⟨fuel, hr⟩
        simp only [patChunks] at hr
        rw [patLoop_neg h n hl _ _ _ hneg] at hr
        cases hr
      · intro hall; exact absurd hs (hall 0 (by omega))
    · have hb : (h.getD (off + 31) 0 == c) = false := by simpa using hs
      rw [hb] at hlane
      have hloop : ∀ fuel, 32 ≤ fuel →
          patLoop h n fuel (movemask (((h.drop off).take 32).map (· == c))) off = some none := by
        intro fuel hf
        rw [movemask_nat _ (by rw [hlane]; simp), patLoop_nat _ _ _ _ _ (by rw [hlen]; omega),
          firstBit_window h n c t hn 32 off (by omega), (findP_none _ _ _).mpr (fun j _ _ => hl j)]
      constructor
      · rintro ⟨fuel, hr⟩
        have hr2 := patChunks_mono h n c fuel (fuel + 32) (k + 1) off none (by omega) hr
        simp only [patChunks] at hr2
        rw [hloop (fuel + 32) (by omega)] at hr2
        intro j hj
        cases j with
        | zero => simpa using hs
        | succ j =>
          have := ih'.mp ⟨fuel + 32, hr2⟩ j (by omega)
          rw [show off + 32 * (j + 1) + 31 = off + 32 + 32 * j + 31 by omega]; exact this
      · intro hall
        obtain ⟨fuel, hr⟩ := ih'.mpr (fun j hj => by
          have := hall (j + 1) (by omega)
          rw [show off + 32 * (j + 1) + 31 = off + 32 + 32 * j + 31 by omega] at this; exact this)
        refine ⟨fuel + 32, ?_⟩
        simp only [patChunks]
        rw [hloop (fuel + 32) (by omega)]
        exact patChunks_mono h n c fuel (fuel + 32) k _ none (by omega) hr

/-- The first occurrence. (Specification: no counterpart in the code.) -/
def First (h n : List Nat) (i : Nat) : Prop := Occurs h n i ∧ ∀ j, j < i → ¬ Occurs h n j

theorem findPattern_mono (h n : List Nat) (f m : Nat) (r : Option Nat) (hm : f ≤ m) (hr : findPattern f h n = some r) :
    findPattern m h n = some r := by
  unfold findPattern at hr ⊢
  cases n with
  | nil => exact hr
  | cons c t =>
    simp only at hr ⊢
    split at hr
    · rename_i hg; simp only [hg, if_true]; exact hr
    · rename_i hg; simp only [hg, if_false]; exact patChunks_mono _ _ _ _ _ _ _ _ hm hr

/-- **C61**. If the needle occurs the search returns its first occurrence. -/
theorem C61_found (h n : List Nat) (hn : n ≠ []) (i : Nat) (hi : First h n i) :
    findPattern (h.length + 32) h n = some (some i) := by
  cases n with
  | nil => exact absurd rfl hn
  | cons c t =>
    have h1 := (matchAt_iff _ _ _).mpr hi.1
    have hb := matchAt_bound h1
    simp only [findPattern]
    rw [if_neg (by omega)]
    refine patChunks_found h (c :: t) c t rfl i h1 (fun j hj => ?_) _ 0 (by omega) (by omega) _ (by omega)
    have := hi.2 j hj
    rw [← matchAt_iff] at this
    simpa using this

example : First [1, 2, 3, 2, 3] [2, 3] 1 := by
  refine ⟨⟨[1], [2, 3], rfl, rfl⟩, fun j hj => ?_⟩
  rw [← matchAt_iff]
  have : j = 0 := by omega
  subst this; decide

theorem first_exists (h n : List Nat) (i : Nat) (hi : Occurs h n i) : ∃ j, First h n j := by
  induction i using Nat.strongRecOn with
  | ind i ih =>
    by_cases hex : ∃ j, j < i ∧ Occurs h n j
    · obtain ⟨j, hj, ho⟩ := hex
      exact ih j hj ho
    · exact ⟨i, hi, fun j hj ho => hex ⟨j, hj, ho⟩⟩

/-- **C61**. Whatever the search returns is right: an index is the first occurrence, `None` means there is none. -/
theorem C61_sound (h n : List Nat) (hn : n ≠ []) (fuel : Nat) (r : Option Nat) (hr : findPattern fuel h n = some r) :
    (∀ i, r = some i → First h n i) ∧ (r = none → ∀ i, ¬ Occurs h n i) := by
  have key : ∀ i, First h n i → r = some i := by
    intro i hi
    have h1 := C61_found h n hn i hi
    have h2 := findPattern_mono h n _ (max fuel (h.length + 32)) _ (Nat.le_max_right _ _) h1
    have h3 := findPattern_mono h n _ (max fuel (h.length + 32)) _ (Nat.le_max_left _ _) hr
    rw [h2] at h3
    exact (Option.some.inj h3).symm
  refine ⟨fun i hi => ?_, fun hnone i ho => ?_⟩
  · by_cases hex : ∃ j, Occurs h n j
    · obtain ⟨j, hj⟩ := hex
      obtain ⟨m, hm⟩ := first_exists h n j hj
      have := key m hm
      rw [hi] at this
      cases this
      exact hm
    · exfalso
      subst hi
      have hl : ∀ j, matchAt h n j = false := by
        intro j
        cases hm : matchAt h n j with
        | false => rfl
        | true => exact absurd ⟨j, (matchAt_iff _ _ _).mp hm⟩ hex
      cases n with
      | nil => exact hn rfl
      | cons c t =>
        simp only [findPattern] at hr
        split at hr
        · cases hr
        · rename_i hle
          have aux : ∀ k off, off + 32 * k ≤ h.length - (c :: t).length + 1 →
              patChunks fuel h (c :: t) c k off ≠ some (some i) := by
            intro k
            induction k with
            | zero =>
              intro off ho
              simp only [patChunks]
              rw [findFrom_eq h _ _ off (by simp only [List.length_cons] at *; omega) (by omega),
                (findP_none _ _ _).mpr (fun j _ _ => hl j)]
              simp
            | succ k ih =>
              intro off ho
              simp only [patChunks]
              have hpl : ∀ (f : Nat) (m : Int) (pos : Nat), patLoop h (c :: t) f m pos ≠ some (some i) := by
                intro f
                induction f with
                | zero => intro m pos; unfold patLoop; simp [hl]
                | succ f ih2 =>
                  intro m pos; unfold patLoop
                  simp only [hl, Bool.and_false, Bool.false_eq_true, if_false]
                  split
                  · simp
                  · exact ih2 _ _
              have hpl2 : ∀ (f : Nat) (m : Int) (pos p : Nat), patLoop h (c :: t) f m pos ≠ some (some p) := by
                intro f
                induction f with
                | zero => intro m pos p; unfold patLoop; simp [hl]
                | succ f ih2 =>
                  intro m pos p; unfold patLoop
                  simp only [hl, Bool.and_false, Bool.false_eq_true, if_false]
                  split
                  · simp
                  · exact ih2 _ _ _
              split
              · simp
              · next p he => exact absurd he (hpl2 _ _ _ p)
              · exact ih (off + 32) (by omega)
          exact aux _ 0 (by omega) hr
  · obtain ⟨m, hm⟩ := first_exists h n i ho
    have := key m hm
    rw [hnone] at this; cases this

/-- **C61** (exact form). For a needle that does not occur the search returns exactly if the first byte of the
needle is at no position 31, 63, 95, .. of the whole vectors searched. Missing from the property: otherwise it
never returns. -/
theorem C61_absent_partial (h : List Nat) (c : Nat) (t : List Nat) (hle : (c :: t).length ≤ h.length)
    (hl : ∀ i, ¬ Occurs h (c :: t) i) :
    (∃ fuel, findPattern fuel h (c :: t) = some none) ↔
      ∀ j, j < (h.length - (c :: t).length + 1) / 32 → h.getD (32 * j + 31) 0 ≠ c := by
  have hl' : ∀ j, matchAt h (c :: t) j = false := by
    intro j
    have := hl j
    rw [← matchAt_iff] at this
    simpa using this
  have := patChunks_absent h (c :: t) c t rfl hle hl' ((h.length - (c :: t).length + 1) / 32) 0 (by omega)
  simp only [Nat.zero_add] at this
  rw [← this]
  simp only [findPattern, if_neg (show ¬ ((c :: t).length > h.length) by omega)]

example : ∀ i, ¬ Occurs (List.replicate 40 1) [2, 3] i := by
  rintro i ⟨a, b, h, _⟩
  have : 2 ∈ List.replicate 40 1 := by rw [h]; simp
  simp at this

/-- A search that never ends: 33 bytes with the first byte of the needle at position 31, and no match. -/
theorem C61_never_returns (fuel : Nat) : findPattern fuel (List.replicate 31 1 ++ [2, 1, 1]) [2, 3] = none := by
  cases hr : findPattern fuel (List.replicate 31 1 ++ [2, 1, 1]) [2, 3] with
  | none => rfl
  | some r =>
    exfalso
    have habs : ∀ i, ¬ Occurs (List.replicate 31 1 ++ [2, 1, 1]) [2, 3] i := by
      rintro i ⟨a, b, h, _⟩
      have : 3 ∈ List.replicate 31 1 ++ [2, 1, 1] := by rw [h]; simp
      simp at this
    have hs := C61_sound _ _ (by simp) fuel r hr
    cases r with
    | some i => exact habs i (hs.1 i rfl).1
    | none =>
      have := (C61_absent_partial _ 2 [3] (by decide) habs).mp ⟨fuel, hr⟩ 0 (by decide)
      exact this (by decide)

end Verif.Simd
