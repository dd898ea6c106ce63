import Verif.Stdio.More

/-
C234: what a send that its caller gives up leaves on standard output, and what the other side makes of it.

`write_message` (/repo/src/shared/stdio.rs L142-163) writes the header, the payload and flushes; the future may be dropped
at each of these awaits, and what was written stays. Here the cut may be anywhere in the frame (tokio's `Stdout` takes
the header as a whole and the payload in large pieces).
-/

namespace Verif.Stdio

variable {Msg : Type}

/-- A send given up after `k` bytes have been written. /repo/src/shared/stdio.rs L73-80, L142-163; the caller is a client's
request or notification whose future is dropped, /repo/src/client/mod.rs L1315-1354. -/
def sendCut (s : State) (body : List Nat) (k : Nat) : State :=
  if s.closed then s else { s with out := s.out ++ (frame body).take k }

/-- The messages that a server on the other side gets to handle: its loop ends with the first receive that fails.
/repo/src/server/mod.rs L421-437. (Handlers that return; at most `n` receives.) -/
def serve (parse : List Nat → Option Msg) : Nat → State → List Msg
  | 0, _ => []
  | n + 1, s => match receive parse s with
    | (s', .ok m) => m :: serve parse n s'
    | _ => []

/-! ### Specifications -/

/-- The part of the grammar of JSON that is needed: outside of a string there is no capital C, inside of one no control
character, and the text does not end inside of one. (Specification: no counterpart in the code.) -/
def scan : Bool → Bool → List Nat → Bool
  | false, _, [] => true
  | true, _, [] => false
  | false, _, b :: l => if b = 34 then scan true false l else if b = 67 then false else scan false false l
  | true, true, b :: l => if b < 32 then false else scan true false l
  | true, false, b :: l =>
    if b = 34 then scan false false l else if b = 92 then scan true true l else if b < 32 then false else scan true false l

/-- What is not JSON is refused. (Specification: no counterpart in the code; a fact about `serde_json::from_slice`,
/repo/src/shared/stdio.rs L219-220.) -/
def Json (parse : List Nat → Option Msg) : Prop := ∀ b, scan false false b = false → parse b = none

/-- The receive failed. (Specification: no counterpart in the code.) -/
def Failed (r : Recv Msg) : Prop := r = .missingLength ∨ r = .io ∨ r = .closed ∨ r = .invalid

/-! ### Lemmas -/

theorem scan_append (x t : List Nat) (i e : Bool) (h : scan i e (x ++ t) = true) : ∃ i' e', scan i' e' t = true := by
  induction x generalizing i e with
  | nil => exact ⟨i, e, h⟩
  | cons b x ih =>
    cases i <;> cases e <;> simp only [List.cons_append, scan] at h <;> (repeat' split at h) <;>
      first | cases h | exact ih _ _ h

theorem scan_clean (l w : List Nat) (hl : ∀ x ∈ l, x ≠ 34 ∧ x ≠ 92 ∧ 32 ≤ x) (e : Bool)
    (h : ∀ e, scan true e w = false) : scan true e (l ++ w) = false := by
  induction l generalizing e with
  | nil => exact h e
  | cons b l ih =>
    obtain ⟨h1, h2, h3⟩ := hl b List.mem_cons_self
    have ih := fun e => ih (fun x hx => hl x (List.mem_cons_of_mem _ hx)) e
    cases e
    · simp only [List.cons_append, scan, if_neg h1, if_neg h2, if_neg (Nat.not_lt.mpr h3), ih]
    · simp only [List.cons_append, scan, if_neg (Nat.not_lt.mpr h3), ih]

/-- The header of a message, without the line ends. (Specification: no counterpart in the code.) -/
def head (n : Nat) : List Nat := Utf8.encode (header ++ Decimal.showNat n)

theorem no_nl_head (n : Nat) : 10 ∉ head n ++ [13] := no_nl_header n

theorem head_map (n : Nat) : head n = (header ++ Decimal.showNat n).map Char.toNat := encode_ascii (headerLine_ascii n)

theorem head_clean (n : Nat) : ∀ x ∈ head n, x ≠ 34 ∧ x ≠ 92 ∧ 32 ≤ x := by
  intro x hx
  rw [head_map, List.mem_map] at hx
  obtain ⟨c, hc, rfl⟩ := hx
  rcases List.mem_append.mp hc with hc | hc
  · have : ∀ c ∈ header, c.toNat ≠ 34 ∧ c.toNat ≠ 92 ∧ 32 ≤ c.toNat := by decide
    exact this c hc
  · have := Decimal.showNat_all_digits _ _ hc
    omega

theorem head_cons (n : Nat) : ∃ t, head n = 67 :: t := by
  rw [head_map]
  exact ⟨_, rfl⟩

theorem frame_head (b : List Nat) : frame b = head b.length ++ 13 :: 10 :: 13 :: 10 :: b := by simp [frame, head]

theorem frame_length (b : List Nat) : (frame b).length = (head b.length).length + 4 + b.length := by
  simp [frame_head]; omega

/-- The beginning of a frame is no continuation of a JSON text. -/
theorem scan_frame (b rest : List Nat) (m : Nat) (hm : 0 < m) (i e : Bool) :
    scan i e ((frame b ++ rest).take m) = false := by
  obtain ⟨t, ht⟩ := head_cons b.length
  cases i with
  | false =>
    obtain ⟨m, rfl⟩ : ∃ k, m = k + 1 := ⟨m - 1, by omega⟩
    rw [frame_head, ht]
    simp [scan]
  | true =>
    rw [frame_head, List.append_assoc, List.take_append]
    have hc : ∀ x ∈ (head b.length).take m, x ≠ 34 ∧ x ≠ 92 ∧ 32 ≤ x := fun x hx => head_clean _ x (List.mem_of_mem_take hx)
    apply scan_clean _ _ hc
    intro e
    cases hk : m - (head b.length).length with
    | zero => cases e <;> rfl
    | succ k => cases e <;> simp [scan]

theorem failed_of {r : Recv Msg} (h : r = .missingLength ∨ r = .io ∨ r = .closed) : Failed r := by
  rcases h with h | h | h
  · exact .inl h
  · exact .inr (.inl h)
  · exact .inr (.inr (.inl h))

theorem astray_many (parse : List Nat → Option Msg) (n : Nat) (s : State) (hs : Astray s) :
    ∀ r ∈ (receiveMany parse n s).2, Failed r := by
  induction n generalizing s with
  | zero => intro r hr; cases hr
  | succ n ih =>
    intro r hr
    obtain ⟨h1, h2⟩ := astray_receive parse s hs
    simp only [receiveMany] at hr
    rcases List.mem_cons.mp hr with rfl | hr
    · exact failed_of h2
    · exact ih _ h1 r hr

/-- A stream read from the inside of a frame on. -/
theorem inside_many (parse : List Nat → Option Msg) (b : List Nat) (later : List (List Nat)) (hb : Compact b)
    (hl : ∀ b ∈ later, Compact b) (k : Nat) (h0 : 0 < k) (hk : k < (frame b).length) (out : List Nat) (n : Nat) :
    ∀ r ∈ (receiveMany parse n ⟨(frame b ++ later.flatMap frame).drop k, out, false⟩).2, Failed r := by
  by_cases hw : waits ((frame b ++ later.flatMap frame).take k) none = true
  · have := C148_never_again parse b later hb hl k h0 hk out n
    rw [C148_lost k ⟨frame b ++ later.flatMap frame, out, false⟩ rfl hw] at this
    exact fun r hr => failed_of (this r hr)
  · exfalso
    have := C148_never_again (some : List Nat → Option (List Nat)) b later hb hl k h0 hk out 1
    have e : abandon k ⟨frame b ++ later.flatMap frame, out, false⟩ = ⟨frame b ++ later.flatMap frame, out, false⟩ := by
      simp only [abandon, hw]; simp
    rw [e] at this
    simp only [receiveMany, receive_frame some b (later.flatMap frame) out hb.2.2, expected] at this
    have := this _ List.mem_cons_self
    rcases this with h | h | h <;> cases h

/-- A number of bytes of a stream of frames ends with a frame, inside of one, or is more than there is. -/
theorem split_frames (later : List (List Nat)) (m : Nat) (hm : 0 < m) :
    (∃ i, 0 < i ∧ i ≤ later.length ∧ m = ((later.take i).flatMap frame).length ∧
        (later.flatMap frame).drop m = (later.drop i).flatMap frame) ∨
      (∃ (b : List Nat) (l : List (List Nat)) (k : Nat), b ∈ later ∧ (∀ x ∈ l, x ∈ later) ∧ 0 < k ∧ k < (frame b).length ∧
        (later.flatMap frame).drop m = (frame b ++ l.flatMap frame).drop k) ∨
      (later.flatMap frame).length < m := by
  induction later generalizing m with
  | nil => right; right; simpa using hm
  | cons b later ih =>
    by_cases h1 : m < (frame b).length
    · exact .inr (.inl ⟨b, later, m, List.mem_cons_self, fun x hx => List.mem_cons_of_mem _ hx, hm, h1, by simp⟩)
    · by_cases h2 : m = (frame b).length
      · left
        refine ⟨1, by omega, by simp, by simp [h2], ?_⟩
        simp [h2]
      · obtain ⟨m', rfl⟩ : ∃ k, m = (frame b).length + k := ⟨m - (frame b).length, by omega⟩
        have hd : ((b :: later).flatMap frame).drop ((frame b).length + m') = (later.flatMap frame).drop m' := by
          rw [List.flatMap_cons, List.drop_append, List.drop_of_length_le (by omega), Nat.add_sub_cancel_left]; rfl
        rcases ih m' (by omega) with ⟨i, hi, hi', e, e'⟩ | ⟨b', l, k, hb', hl, hk, hk', e⟩ | h
        · left
          exact ⟨i + 1, by omega, by simp; omega, by simp [e], by rw [hd, e']; rfl⟩
        · right; left
          exact ⟨b', l, k, List.mem_cons_of_mem _ hb', fun x hx => List.mem_cons_of_mem _ (hl x hx), hk, hk', by rw [hd, e]⟩
        · right; right
          rw [List.flatMap_cons, List.length_append]; omega

/-! ### Cuts in the header -/

theorem two_no_length (l : List Char) (h : 2 ≤ l.count 'C') : parseContentLength l = none := by
  cases hp : parseContentLength l with
  | none => rfl
  | some n =>
    exfalso
    obtain ⟨v, ds, hl, ht, _, hd, _⟩ := (C09_parse_iff l n).mp hp
    have hc : List.count 'C' "Content-Length: ".toList = 1 := by decide
    rw [hl, List.count_append, hc] at h
    have hv : 'C' ∈ v := List.count_pos_iff.mp (by omega)
    have hv := mem_trim_of hv (by decide)
    have key : 'C' ∉ ds := fun hm => absurd (hd _ hm) (by simp only [IsDigit]; decide)
    rcases ht with e | e
    · rw [e] at hv; exact key hv
    · rw [e] at hv
      rcases List.mem_cons.mp hv with h | h
      · exact absurd h (by decide)
      · exact key h

/-- **C234** fails for a cut in the header line: the next message is lost with it, whatever it is, and its payload is left
for the header of the one behind. -/
theorem C234_cut_header (parse : List Nat → Option Msg) (b1 b2 rest out : List Nat) (k : Nat) (h0 : 0 < k)
    (hk : k + b1.length + 3 ≤ (frame b1).length) :
    receive parse ⟨(frame b1).take k ++ (frame b2 ++ rest), out, false⟩ = (⟨b2 ++ rest, out, false⟩, .missingLength) := by
  rw [frame_length] at hk
  let L1 := header ++ Decimal.showNat b1.length ++ ['\r']
  let L2 := header ++ Decimal.showNat b2.length ++ ['\r']
  have asc : ∀ n, ∀ c ∈ header ++ Decimal.showNat n ++ ['\r'], c.toNat < 128 := by
    intro n c hc
    rcases List.mem_append.mp hc with hc | hc
    · exact headerLine_ascii _ c hc
    · rw [List.mem_singleton.mp hc]; decide
  have henc : ∀ n, Utf8.encode (header ++ Decimal.showNat n ++ ['\r']) = head n ++ [13] := by
    intro n
    have : Utf8.encode ['\r'] = [13] := by decide
    rw [Utf8.encode_append, this]; rfl
  have hr13 : Utf8.encode (['\r'] ++ ['\n']) = [13, 10] := by decide
  have hr10 : Utf8.encode ['\n'] = [10] := by decide
  have htake : (frame b1).take k = Utf8.encode (L1.take k) := by
    have e1 : frame b1 = Utf8.encode L1 ++ 10 :: 13 :: 10 :: b1 := by rw [henc]; simp [frame_head]
    have e2 : (Utf8.encode L1).length = (head b1.length).length + 1 := by rw [henc]; simp
    rw [e1, List.take_append_of_le_length (by omega), encode_ascii (asc _),
      encode_ascii (fun c h => asc _ c (List.mem_of_mem_take h)), List.map_take]
  have nonl : ∀ n, '\n' ∉ header ++ Decimal.showNat n ++ ['\r'] := by
    intro n hc
    rcases List.mem_append.mp hc with hc | hc
    · rcases List.mem_append.mp hc with hc | hc
      · exact absurd hc (by decide)
      · have := Decimal.showNat_all_digits _ _ hc
        have : '\n'.toNat = 10 := by decide
        omega
    · exact absurd hc (by decide)
  have hin : (frame b1).take k ++ (frame b2 ++ rest) =
      Utf8.encode (L1.take k ++ L2 ++ ['\n']) ++ (Utf8.encode (['\r'] ++ ['\n']) ++ (b2 ++ rest)) := by
    rw [htake, Utf8.encode_append, Utf8.encode_append, henc, hr10, hr13, frame_head]
    simp
  have hcount : 2 ≤ (L1.take k ++ L2).count 'C' := by
    have c1 : 1 ≤ (L1.take k).count 'C' := by
      obtain ⟨k, rfl⟩ : ∃ j, k = j + 1 := ⟨k - 1, by omega⟩
      have : L1 = 'C' :: L1.tail := rfl
      rw [this, List.take_succ_cons, List.count_cons_self]; omega
    have c2 : 1 ≤ L2.count 'C' := by
      have : L2 = 'C' :: L2.tail := rfl
      rw [this, List.count_cons_self]; omega
    rw [List.count_append]; omega
  have hmem : 'C' ∈ L1.take k ++ L2 := List.count_pos_iff.mp (by omega)
  have htrim : ∀ (l : List Char), List.count 'C' l ≤ List.count 'C' (Str.trim l) := by
    have d : ∀ l : List Char, List.count 'C' (l.dropWhile Str.isWs) = List.count 'C' l := by
      intro l
      induction l with
      | nil => rfl
      | cons x l ih =>
        rw [List.dropWhile_cons]
        split
        · next hx =>
          rw [ih, List.count_cons_of_ne]
          intro e
          subst e
          exact absurd hx (by decide)
        · rfl
    intro l
    simp only [Str.trim, Str.trimEnd, Str.trimStart, List.count_reverse, d]
    exact Nat.le_refl _
  have hskip := readHeaders_skip [L1.take k ++ L2] (by
    intro l hl
    rw [List.mem_singleton.mp hl]
    refine ⟨?_, ?_, ?_⟩
    · intro hc
      rcases List.mem_append.mp hc with hc | hc
      · exact nonl _ (List.mem_of_mem_take hc)
      · exact nonl _ hc
    · intro e
      have := mem_trim_of (List.mem_append_left ['\n'] hmem) (by decide)
      rw [e] at this; cases this
    · refine two_no_length _ (Nat.le_trans ?_ (htrim _))
      rw [List.count_append]; omega) (Utf8.encode (['\r'] ++ ['\n']) ++ (b2 ++ rest)) none
  simp only [List.flatMap_cons, List.flatMap_nil, List.append_nil] at hskip
  have hr : readHeaders ((frame b1).take k ++ (frame b2 ++ rest)) none = (.missingLength, b2 ++ rest) := by
    rw [hin, hskip, readHeaders_blank _ (by decide) (by decide)]
  simp [receive, hr]

/-- **C234**, a part that holds: a cut behind the header line, before the blank line is complete, harms nothing: the next
header replaces the first. -/
theorem C234_cut_blank_partial (parse : List Nat → Option Msg) (b1 b2 rest out : List Nat) (k : Nat)
    (h1 : b1.length ≤ maxAlloc) (h2 : b2.length ≤ maxAlloc)
    (hk : k + b1.length + 2 = (frame b1).length ∨ k + b1.length + 1 = (frame b1).length) :
    receive parse ⟨(frame b1).take k ++ (frame b2 ++ rest), out, false⟩ = (⟨rest, out, false⟩, expected parse b2) := by
  rw [frame_length] at hk
  have hu1 : b1.length < usizeLimit := by unfold maxAlloc at h1; unfold usizeLimit; omega
  have hr : Utf8.encode (['\r'] ++ ['\n']) = [13, 10] := by decide
  have key : ∀ t, readHeaders (head b1.length ++ 13 :: 10 :: t) none = readHeaders t (some b1.length) := by
    intro t
    have e0 : head b1.length ++ 13 :: 10 :: t = (head b1.length ++ [13]) ++ 10 :: t := by simp
    rw [e0, readHeaders.eq_def, dif_neg (by simp), readLine_line (no_nl_head _)]
    have hd1 : Utf8.decode (head b1.length ++ [13] ++ [10]) =
        some (header ++ Decimal.showNat b1.length ++ (['\r'] ++ ['\n'])) := by
      apply decode_ascii
      rw [Utf8.encode_append _ (['\r'] ++ ['\n']), hr]; simp [head]
    simp only [hd1]
    rw [trim_headerLine _ _ (by decide), if_neg (fun e => absurd (List.append_eq_nil_iff.mp e).1 (by decide)),
      parse_headerLine hu1]
  have hu2 : b2.length < usizeLimit := by unfold maxAlloc at h2; unfold usizeLimit; omega
  have fin : readHeaders ((frame b1).take k ++ (frame b2 ++ rest)) none = (.ok b2.length, b2 ++ rest) := by
    rcases hk with hk | hk
    · have e1 : (frame b1).take k = head b1.length ++ 13 :: 10 :: [] := by
        rw [frame_head, List.take_append, List.take_of_length_le (by omega)]
        have : k - (head b1.length).length = 2 := by omega
        rw [this]; rfl
      rw [e1, List.append_assoc, List.cons_append, List.cons_append, List.nil_append, key,
        readHeaders_frame b2 rest hu2]
    · have e1 : (frame b1).take k = head b1.length ++ 13 :: 10 :: [13] := by
        rw [frame_head, List.take_append, List.take_of_length_le (by omega)]
        have : k - (head b1.length).length = 3 := by omega
        rw [this]; rfl
      rw [e1, List.append_assoc, List.cons_append, List.cons_append, key]
      have e2 : [13] ++ (frame b2 ++ rest) = (13 :: (head b2.length ++ [13])) ++ 10 :: ([13] ++ 10 :: (b2 ++ rest)) := by
        simp [frame_head]
      have hn : 10 ∉ 13 :: (head b2.length ++ [13]) := by
        intro hm
        rcases List.mem_cons.mp hm with h | h
        · cases h
        · exact no_nl_header _ h
      rw [e2, readHeaders.eq_def, dif_neg (by simp), readLine_line hn]
      have hd1 : Utf8.decode (13 :: (head b2.length ++ [13]) ++ [10]) =
          some (['\r'] ++ (header ++ Decimal.showNat b2.length) ++ (['\r'] ++ ['\n'])) := by
        apply decode_ascii
        have : Utf8.encode ['\r'] = [13] := by decide
        rw [Utf8.encode_append _ (['\r'] ++ ['\n']), Utf8.encode_append ['\r'], hr, this]; simp [head]
      simp only [hd1]
      have ht : Str.trim (['\r'] ++ (header ++ Decimal.showNat b2.length) ++ (['\r'] ++ ['\n'])) =
          header ++ Decimal.showNat b2.length := by
        rw [Str.trim_pad _ _ _ (by decide) (by decide)]
        have := trim_headerLine b2.length [] (by simp)
        rwa [List.append_nil] at this
      rw [ht, if_neg (fun e => absurd (List.append_eq_nil_iff.mp e).1 (by decide)), parse_headerLine hu2,
        readHeaders.eq_def, dif_neg (by simp), readLine_line (by decide)]
      have hd2 : Utf8.decode ([13] ++ [10]) = some ['\r', '\n'] := by decide +kernel
      simp only [hd2]
      rw [if_pos (by decide)]
  simp only [receive, fin, Bool.false_eq_true, if_false, readBody]
  rw [if_neg (by omega), if_neg (by simp)]
  simp only [List.take_left', List.drop_left', expected]
  rfl

/-! ### Cuts in the payload -/

/-- **C234** fails for a cut in the payload: what is missing is taken from the messages behind. -/
theorem C234_cut_body (parse : List Nat → Option Msg) (hp : Json parse) (b1 b2 : List Nat) (rest out : List Nat) (k : Nat)
    (h1 : b1.length ≤ maxAlloc) (hk : (frame b1).length ≤ k + b1.length) (hk' : k < (frame b1).length) :
    receive parse ⟨(frame b1).take k ++ (frame b2 ++ rest), out, false⟩ =
      (⟨(frame b2 ++ rest).drop ((frame b1).length - k), out, false⟩,
        if (frame b1).length - k ≤ (frame b2 ++ rest).length then .invalid else .io) := by
  have hu1 : b1.length < usizeLimit := by unfold maxAlloc at h1; unfold usizeLimit; omega
  rw [frame_length] at hk hk' ⊢
  obtain ⟨j, rfl⟩ : ∃ j, k = (head b1.length).length + 4 + j := ⟨k - ((head b1.length).length + 4), by omega⟩
  have e1 : (frame b1).take ((head b1.length).length + 4 + j) = head b1.length ++ 13 :: 10 :: 13 :: 10 :: b1.take j := by
    rw [frame_head, List.take_append, List.take_of_length_le (by omega)]
    have : (head b1.length).length + 4 + j - (head b1.length).length = j + 4 := by omega
    rw [this]; rfl
  have hr : Utf8.encode (['\r'] ++ ['\n']) = [13, 10] := by decide
  have hh : ∀ t, readHeaders (head b1.length ++ 13 :: 10 :: 13 :: 10 :: t) none = (.ok b1.length, t) := by
    intro t
    have e0 : head b1.length ++ 13 :: 10 :: 13 :: 10 :: t = (head b1.length ++ [13]) ++ 10 :: ([13] ++ 10 :: t) := by simp
    rw [e0, readHeaders.eq_def, dif_neg (by simp), readLine_line (no_nl_head _)]
    have hd1 : Utf8.decode (head b1.length ++ [13] ++ [10]) =
        some (header ++ Decimal.showNat b1.length ++ (['\r'] ++ ['\n'])) := by
      apply decode_ascii
      rw [Utf8.encode_append _ (['\r'] ++ ['\n']), hr]; simp [head]
    simp only [hd1]
    rw [trim_headerLine _ _ (by decide), if_neg (fun e => absurd (List.append_eq_nil_iff.mp e).1 (by decide)),
      parse_headerLine hu1, readHeaders.eq_def, dif_neg (by simp), readLine_line (by decide)]
    have hd2 : Utf8.decode ([13] ++ [10]) = some ['\r', '\n'] := by decide +kernel
    simp only [hd2]
    rw [if_pos (by decide)]
  have ha : (head b1.length).length + 4 + b1.length - ((head b1.length).length + 4 + j) = b1.length - j := by omega
  have htl : (b1.take j).length = j := by simp; omega
  rw [e1, ha]
  simp only [List.append_assoc, List.cons_append, receive, hh, Bool.false_eq_true, if_false, readBody]
  rw [if_neg (by omega)]
  have hno : parse (b1.take j ++ (frame b2 ++ rest).take (b1.length - j)) = none := by
    apply hp
    cases hq : scan false false (b1.take j ++ (frame b2 ++ rest).take (b1.length - j)) with
    | false => rfl
    | true =>
      obtain ⟨i, e, h⟩ := scan_append _ _ _ _ hq
      rw [scan_frame b2 rest _ (by omega)] at h
      cases h
  generalize b1.take j = x at *
  generalize frame b2 ++ rest = X at *
  by_cases hs : b1.length - j ≤ X.length
  · rw [if_neg (by rw [List.length_append, htl]; omega), if_pos hs]
    simp only [List.take_append, List.drop_append, htl]
    rw [List.take_of_length_le (by omega), List.drop_of_length_le (l := x) (by omega), List.nil_append, hno]
  · rw [if_pos (by rw [List.length_append, htl]; omega), if_neg hs]
    simp only
    rw [List.drop_of_length_le (l := X) (by omega)]

/-! ### All that follows -/

/-- The cut does no harm: nothing was written, or all of the header line and not yet the blank line. (Specification: no
counterpart in the code.) -/
def Harmless (b : List Nat) (k : Nat) : Prop :=
  k = 0 ∨ k + b.length + 2 = (frame b).length ∨ k + b.length + 1 = (frame b).length

/-- What the sender has written. (Specification: no counterpart in the code.) -/
def written (parse : List Nat → Option Msg) (earlier : List (List Nat)) (b : List Nat) (k : Nat) (later : List (List Nat)) :
    List Nat :=
  (run parse (sendCut (run parse (init []) (earlier.map .send)) b k) (later.map .send)).out

theorem written_eq (parse : List Nat → Option Msg) (earlier : List (List Nat)) (b : List Nat) (k : Nat)
    (later : List (List Nat)) :
    written parse earlier b k later = earlier.flatMap frame ++ ((frame b).take k ++ later.flatMap frame) := by
  unfold written
  rw [run_sends parse earlier (init []) rfl]
  simp only [sendCut, init, Bool.false_eq_true, if_false]
  rw [run_sends parse later _ rfl]
  simp

theorem receiveMany_append (parse : List Nat → Option Msg) (a n : Nat) (s : State) :
    (receiveMany parse (a + n) s).2 = (receiveMany parse a s).2 ++ (receiveMany parse n (receiveMany parse a s).1).2 := by
  induction a generalizing s with
  | zero => simp [receiveMany]
  | succ a ih =>
    have : a + 1 + n = (a + n) + 1 := by omega
    rw [this]
    simp only [receiveMany, ih, List.cons_append]

theorem receiveMany_frames (parse : List Nat → Option Msg) (bodies : List (List Nat))
    (h : ∀ b ∈ bodies, b.length ≤ maxAlloc) (rest out : List Nat) :
    receiveMany parse bodies.length ⟨bodies.flatMap frame ++ rest, out, false⟩ =
      (⟨rest, out, false⟩, bodies.map (expected parse)) := by
  induction bodies with
  | nil => rfl
  | cons b bs ih =>
    have ih := ih (fun x hx => h x (List.mem_cons_of_mem _ hx))
    simp only [List.length_cons, receiveMany, List.flatMap_cons, List.append_assoc,
      receive_frame parse b (bs.flatMap frame ++ rest) out (h b List.mem_cons_self), ih, List.map_cons]

/-- **C234** (the part that holds). After a harmless cut all other messages are received, in order; so they are, and the
message itself, if it was written to the end. -/
theorem C234_harmless_partial (parse : List Nat → Option Msg) (earlier later : List (List Nat)) (b : List Nat) (k : Nat)
    (he : ∀ b ∈ earlier, b.length ≤ maxAlloc) (hl : ∀ b ∈ later, b.length ≤ maxAlloc) (hb : b.length ≤ maxAlloc)
    (hne : later ≠ []) (hk : Harmless b k) :
    receiveMany parse (earlier.length + later.length) (init (written parse earlier b k later)) =
      (init [], (earlier ++ later).map (expected parse)) := by
  rw [written_eq]
  have hA : ∀ l : List Nat, ∀ out, receiveMany parse (earlier.length + later.length)
      ⟨earlier.flatMap frame ++ l, out, false⟩ =
        ((receiveMany parse later.length ⟨l, out, false⟩).1,
          earlier.map (expected parse) ++ (receiveMany parse later.length ⟨l, out, false⟩).2) := by
    intro l out
    clear hne
    induction earlier with
    | nil => simp
    | cons a as ih =>
      have ih := ih (fun x hx => he x (List.mem_cons_of_mem _ hx))
      have : (a :: as).length + later.length = (as.length + later.length) + 1 := by simp; omega
      rw [this]
      simp only [receiveMany, List.flatMap_cons, List.append_assoc, receive_frame parse a _ out (he a List.mem_cons_self),
        ih, List.map_cons, List.cons_append]
  have hB := receiveMany_frames parse later hl [] []
  rw [List.append_nil] at hB
  simp only [init]
  rw [hA, List.map_append]
  rcases hk with rfl | hk
  · simp only [List.take_zero, List.nil_append, hB]
  · cases later with
    | nil => exact absurd rfl hne
    | cons b2 bs =>
      have h2 := hl b2 List.mem_cons_self
      have := C234_cut_blank_partial parse b b2 (bs.flatMap frame) [] k hb h2 hk
      simp only [List.length_cons, receiveMany, List.flatMap_cons, this]
      have := receiveMany_frames parse bs (fun x hx => hl x (List.mem_cons_of_mem _ hx)) [] []
      rw [List.append_nil] at this
      simp only [this, List.map_cons]

/-- The cut is in the payload, and what is missing is as long as the frames of the first `i` messages behind together.
(Specification: no counterpart in the code.) -/
def Aligned (b : List Nat) (k : Nat) (later : List (List Nat)) (i : Nat) : Prop :=
  0 < i ∧ i ≤ later.length ∧ (frame b).length ≤ k + b.length ∧
    (frame b).length = k + ((later.take i).flatMap frame).length

theorem drop_frames (later : List (List Nat)) (i : Nat) :
    (later.flatMap frame).drop ((later.take i).flatMap frame).length = (later.drop i).flatMap frame ∧
      ((later.take i).flatMap frame).length ≤ (later.flatMap frame).length := by
  have h : later.flatMap frame = (later.take i).flatMap frame ++ (later.drop i).flatMap frame := by
    rw [← List.flatMap_append, List.take_append_drop]
  constructor
  · rw [h, List.drop_left']
    rfl
  · rw [h, List.length_append]; omega

/-- What follows a cut that is not harmless. -/
theorem cut_then (parse : List Nat → Option Msg) (hp : Json parse) (b b2 : List Nat) (bs : List (List Nat)) (k : Nat)
    (hb : b.length ≤ maxAlloc) (h2 : Compact b2) (hl : ∀ b ∈ bs, Compact b) (hk : k < (frame b).length) (hh : ¬ Harmless b k)
    (hi : ¬ ∃ i, Aligned b k (b2 :: bs) i) (n : Nat) :
    ∀ x ∈ (receiveMany parse (n + 1) ⟨(frame b).take k ++ (b2 :: bs).flatMap frame, [], false⟩).2, Failed x := by
  have hk0 : 0 < k := by
    rcases Nat.eq_zero_or_pos k with h | h
    · exact absurd (.inl h) hh
    · exact h
  have hall : ∀ x ∈ b2 :: bs, Compact x := by
    intro x hx
    rcases List.mem_cons.mp hx with rfl | hx
    · exact h2
    · exact hl x hx
  by_cases hc : k + b.length + 3 ≤ (frame b).length
  · have := C234_cut_header parse b b2 (bs.flatMap frame) [] k hk0 hc
    simp only [receiveMany, List.flatMap_cons, this]
    intro x hx
    rcases List.mem_cons.mp hx with rfl | hx
    · exact .inl rfl
    · exact astray_many parse n _ (.body b2 bs [] h2.body.1 h2.body.2 hl) x hx
  · have hc' : (frame b).length ≤ k + b.length := by
      simp only [Harmless, not_or] at hh
      have := frame_length b
      omega
    have hr := C234_cut_body parse hp b b2 (bs.flatMap frame) [] k hb hc' hk
    rcases split_frames (b2 :: bs) ((frame b).length - k) (by omega) with
        ⟨i, hi0, hi', e, e'⟩ | ⟨b', l, k', hb', hl', hk1, hk2, e⟩ | h
    · exact absurd ⟨i, hi0, hi', hc', by omega⟩ hi
    · rw [List.flatMap_cons] at e
      simp only [receiveMany, List.flatMap_cons, hr, e]
      intro x hx
      rcases List.mem_cons.mp hx with rfl | hx
      · split
        · exact .inr (.inr (.inr rfl))
        · exact .inr (.inl rfl)
      · exact inside_many parse b' l (hall b' hb') (fun y hy => hall y (hl' y hy)) k' hk1 hk2 [] n x hx
    · rw [List.flatMap_cons] at h
      rw [if_neg (by omega), List.drop_of_length_le (by omega)] at hr
      simp only [receiveMany, List.flatMap_cons, hr]
      intro x hx
      rcases List.mem_cons.mp hx with rfl | hx
      · exact .inr (.inl rfl)
      · exact astray_many parse n _ (.done []) x hx

theorem after_earlier (parse : List Nat → Option Msg) (earlier : List (List Nat)) (he : ∀ b ∈ earlier, Compact b)
    (l : List Nat) (n : Nat) : (receiveMany parse (earlier.length + n) (init (earlier.flatMap frame ++ l))).2 =
      earlier.map (expected parse) ++ (receiveMany parse n (init l)).2 := by
  simp only [init]
  rw [receiveMany_append, receiveMany_frames parse earlier (fun x hx => (he x hx).2.2)]

/-- **C234** is false. A send given up when some but not all bytes of its frame are written, other than at a harmless
place and not aligned: however often the other side receives, the messages sent earlier are all it gets. -/
theorem C234_never_again (parse : List Nat → Option Msg) (hp : Json parse) (earlier later : List (List Nat)) (b : List Nat)
    (k : Nat) (he : ∀ b ∈ earlier, Compact b) (hl : ∀ b ∈ later, Compact b) (hb : Compact b) (hne : later ≠ [])
    (hk : k < (frame b).length) (hh : ¬ Harmless b k) (hi : ¬ ∃ i, Aligned b k later i) (n : Nat) :
    ∃ rs, (receiveMany parse (earlier.length + n) (init (written parse earlier b k later))).2 =
        earlier.map (expected parse) ++ rs ∧ ∀ r ∈ rs, Failed r := by
  rw [written_eq, after_earlier parse earlier he]
  refine ⟨_, rfl, ?_⟩
  cases n with
  | zero => intro r hr; cases hr
  | succ n =>
    cases later with
    | nil => exact absurd rfl hne
    | cons b2 bs =>
      exact cut_then parse hp b b2 bs k hb.2.2 (hl b2 List.mem_cons_self) (fun x hx => hl x (List.mem_cons_of_mem _ hx))
        hk hh hi n

/-- If it is aligned, the first messages sent later are lost, with one error for all of them, and the rest is received. -/
theorem C234_aligned (parse : List Nat → Option Msg) (hp : Json parse) (earlier later : List (List Nat)) (b : List Nat)
    (k i : Nat) (he : ∀ b ∈ earlier, Compact b) (hl : ∀ b ∈ later, Compact b) (hb : Compact b)
    (hk : k < (frame b).length) (hi : Aligned b k later i) :
    (receiveMany parse (earlier.length + (1 + (later.length - i))) (init (written parse earlier b k later))).2 =
      earlier.map (expected parse) ++ .invalid :: (later.drop i).map (expected parse) := by
  rw [written_eq, after_earlier parse earlier he]
  obtain ⟨h0, hi', hc, e⟩ := hi
  obtain ⟨hd, hle⟩ := drop_frames later i
  congr 1
  cases later with
  | nil => simp at hi'; omega
  | cons b2 bs =>
    have hr := C234_cut_body parse hp b b2 (bs.flatMap frame) [] k hb.2.2 hc hk
    rw [List.flatMap_cons] at hd hle
    have e' : (frame b).length - k = (((b2 :: bs).take i).flatMap frame).length := by omega
    rw [e', if_pos hle, hd] at hr
    have hlen : (b2 :: bs).length - i = ((b2 :: bs).drop i).length := by simp
    rw [Nat.add_comm, hlen]
    have hF := receiveMany_frames parse ((b2 :: bs).drop i) (fun x hx => (hl x (List.mem_of_mem_drop hx)).2.2) [] []
    rw [List.append_nil] at hF
    simp only [receiveMany, init, List.flatMap_cons, hr, hF]

/-! ### The server -/

theorem serve_ok (parse : List Nat → Option Msg) (bodies : List (List Nat)) (h : ∀ b ∈ bodies, Compact b)
    (ha : ∀ b ∈ bodies, (parse b).isSome = true) (n : Nat) (rest out : List Nat) :
    serve parse (bodies.length + n) ⟨bodies.flatMap frame ++ rest, out, false⟩ =
      bodies.filterMap parse ++ serve parse n ⟨rest, out, false⟩ := by
  induction bodies with
  | nil => simp
  | cons b bs ih =>
    have ih := ih (fun x hx => h x (List.mem_cons_of_mem _ hx)) (fun x hx => ha x (List.mem_cons_of_mem _ hx))
    have : (b :: bs).length + n = (bs.length + n) + 1 := by simp; omega
    obtain ⟨m, hm⟩ := Option.isSome_iff_exists.mp (ha b List.mem_cons_self)
    rw [this]
    simp only [serve, List.flatMap_cons, List.append_assoc, receive_frame parse b _ out (h b List.mem_cons_self).2.2,
      expected, hm, ih, List.filterMap_cons, List.cons_append]

theorem serve_nil (parse : List Nat → Option Msg) (n : Nat) (out : List Nat) : serve parse n ⟨[], out, false⟩ = [] := by
  cases n with
  | zero => rfl
  | succ n =>
    have : readHeaders [] none = (.closed, []) := by rw [readHeaders.eq_def]; rfl
    simp [serve, receive, this]

/-- **C234**, exactly, for a server on the other side: a request or notification given up after `k` of its bytes leaves the
server answering what is sent later exactly if the cut is harmless. Otherwise its loop ends at the next message. -/
theorem C234_server_iff (parse : List Nat → Option Msg) (hp : Json parse) (earlier later : List (List Nat)) (b : List Nat)
    (k : Nat) (he : ∀ b ∈ earlier, Compact b) (hl : ∀ b ∈ later, Compact b) (hb : Compact b) (hne : later ≠ [])
    (ha : ∀ b ∈ earlier ++ later, (parse b).isSome = true) (hk : k < (frame b).length) (n : Nat) (hn : later.length ≤ n) :
    (Harmless b k → serve parse (earlier.length + n) (init (written parse earlier b k later)) =
      (earlier ++ later).filterMap parse) ∧
    (¬ Harmless b k → serve parse (earlier.length + n) (init (written parse earlier b k later)) =
      earlier.filterMap parse) := by
  have hae : ∀ b ∈ earlier, (parse b).isSome = true := fun x hx => ha x (List.mem_append_left _ hx)
  have hal : ∀ b ∈ later, (parse b).isSome = true := fun x hx => ha x (List.mem_append_right _ hx)
  rw [written_eq]
  simp only [init]
  rw [serve_ok parse earlier he hae, List.filterMap_append]
  cases later with
  | nil => exact absurd rfl hne
  | cons b2 bs =>
    have h2 := hl b2 List.mem_cons_self
    have hbs : ∀ x ∈ bs, Compact x := fun x hx => hl x (List.mem_cons_of_mem _ hx)
    obtain ⟨n, rfl⟩ : ∃ j, n = bs.length + j + 1 := ⟨n - bs.length - 1, by simp at hn; omega⟩
    obtain ⟨m2, hm2⟩ := Option.isSome_iff_exists.mp (hal b2 List.mem_cons_self)
    constructor
    · intro hh
      congr 1
      have hr : receive parse ⟨(frame b).take k ++ (frame b2 ++ bs.flatMap frame), [], false⟩ =
          (⟨bs.flatMap frame, [], false⟩, expected parse b2) := by
        rcases hh with rfl | hh
        · simp only [List.take_zero, List.nil_append, receive_frame parse b2 _ [] h2.2.2]
        · exact C234_cut_blank_partial parse b b2 (bs.flatMap frame) [] k hb.2.2 h2.2.2 hh
      have hs := serve_ok parse bs hbs (fun x hx => hal x (List.mem_cons_of_mem _ hx)) n [] []
      rw [List.append_nil, serve_nil, List.append_nil] at hs
      simp only [serve, List.flatMap_cons, hr, expected, hm2, hs, List.filterMap_cons]
    · intro hh
      have hk0 : 0 < k := by
        rcases Nat.eq_zero_or_pos k with h | h
        · exact absurd (.inl h) hh
        · exact h
      have : serve parse (bs.length + n + 1) ⟨(frame b).take k ++ (b2 :: bs).flatMap frame, [], false⟩ = [] := by
        by_cases hc : k + b.length + 3 ≤ (frame b).length
        · simp only [serve, List.flatMap_cons, C234_cut_header parse b b2 (bs.flatMap frame) [] k hk0 hc]
        · have hc' : (frame b).length ≤ k + b.length := by
            simp only [Harmless, not_or] at hh
            omega
          have hr := C234_cut_body parse hp b b2 (bs.flatMap frame) [] k hb.2.2 hc' hk
          by_cases hle : (frame b).length - k ≤ (frame b2 ++ bs.flatMap frame).length
          · rw [if_pos hle] at hr
            simp only [serve, List.flatMap_cons, hr]
          · rw [if_neg hle] at hr
            simp only [serve, List.flatMap_cons, hr]
      rw [this, List.append_nil]

/-! ### Cases -/

/-- A parser that accepts `{}` and `{1}` only. (Specification: no counterpart in the code; for the examples.) -/
def two : List Nat → Option Nat := fun b => if b = [123, 125] then some 0 else if b = [123, 49, 125] then some 1 else none

theorem two_json : Json two := by
  intro b h
  unfold two
  split
  · next e => subst e; exact absurd h (by decide)
  · split
    · next e => subst e; exact absurd h (by decide)
    · rfl

/-- The header of `{1}` is written and the caller gives up: a server that has handled `{}` handles nothing any more. -/
example : serve two 9 (init (written two [[123, 125]] [123, 49, 125] 21 [[123, 125], [123, 49, 125]])) = [0] := by
  decide +kernel

/-- Given up one byte earlier, it handles all. -/
example : serve two 9 (init (written two [[123, 125]] [123, 49, 125] 20 [[123, 125], [123, 49, 125]])) = [0, 0, 1] := by
  decide +kernel

example : (frame [123, 49, 125]).length = 24 ∧ Harmless [123, 49, 125] 20 ∧ ¬ Harmless [123, 49, 125] 21 := by
  unfold Harmless; decide +kernel

example : Compact [123, 49, 125] ∧ Compact [123, 125] := by unfold Compact; decide +kernel

/-- A payload of 30 bytes cut after seven: the missing 23 are those of the next message. -/
example : Aligned (List.replicate 29 32 ++ [125]) 29 [[123, 125]] 1 := by unfold Aligned; decide +kernel

end Verif.Stdio
