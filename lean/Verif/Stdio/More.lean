import Verif.Stdio.Props

/-
C147 and C148: what the stdio receiver does after an error, and after a receive that its caller abandons.
-/

namespace Verif.Stdio

variable {Msg : Type}

/-! ### C147: reading goes on behind what was refused -/

/-- Header lines that announce no length are skipped, whatever was announced before and whatever follows. -/
theorem readHeaders_skip (lines : List (List Char)) (hl : ∀ l ∈ lines, OtherHeader l) (t : List Nat) (n : Option Nat) :
    readHeaders (lines.flatMap (fun l => Utf8.encode (l ++ ['\n'])) ++ t) n = readHeaders t n := by
  induction lines with
  | nil => rfl
  | cons l ls ih =>
    obtain ⟨h1, h2, h3⟩ := hl l List.mem_cons_self
    have hnl : Utf8.encode ['\n'] = [10] := by decide
    rw [readHeaders.eq_def]
    rw [List.flatMap_cons, Utf8.encode_append, hnl]
    have hre : Utf8.encode l ++ [10] ++ ls.flatMap (fun l => Utf8.encode (l ++ ['\n'])) ++ t =
        Utf8.encode l ++ 10 :: (ls.flatMap (fun l => Utf8.encode (l ++ ['\n'])) ++ t) := by simp
    rw [hre, readLine_line (nl_not_in_encode h1), dif_neg (by simp)]
    have hd : Utf8.decode (Utf8.encode l ++ [10]) = some (l ++ ['\n']) := by
      apply decode_ascii
      rw [Utf8.encode_append, hnl]
    simp only [hd]
    rw [if_neg h2, h3]
    exact ih (fun x hx => hl x (List.mem_cons_of_mem _ hx))

/-- A piece of input, as a correct or faulty peer may write it. (Specification: no counterpart in the code.) -/
inductive Block where
  /-- other headers, then a message -/
  | message (lines : List (List Char)) (body : List Nat)
  /-- headers without a length, ended by a blank line -/
  | headless (lines : List (List Char)) (blank : List Char)
  /-- headers with a line that is not UTF-8 -/
  | garbled (lines : List (List Char)) (line : List Nat)

/-- Its bytes. (Specification: no counterpart in the code.) -/
def Block.bytes : Block → List Nat
  | .message ls b => ls.flatMap (fun l => Utf8.encode (l ++ ['\n'])) ++ frame b
  | .headless ls w => ls.flatMap (fun l => Utf8.encode (l ++ ['\n'])) ++ Utf8.encode (w ++ ['\n'])
  | .garbled ls g => ls.flatMap (fun l => Utf8.encode (l ++ ['\n'])) ++ (g ++ [10])

/-- Its parts are what they are called. (Specification: no counterpart in the code.) -/
def Block.Ok : Block → Prop
  | .message ls b => (∀ l ∈ ls, OtherHeader l) ∧ b.length ≤ maxAlloc
  | .headless ls w => (∀ l ∈ ls, OtherHeader l) ∧ '\n' ∉ w ∧ ∀ c ∈ w, Str.isWs c = true
  | .garbled ls g => (∀ l ∈ ls, OtherHeader l) ∧ 10 ∉ g ∧ Utf8.decode (g ++ [10]) = none

/-- What a receive should answer. (Specification: no counterpart in the code.) -/
def Block.result (parse : List Nat → Option Msg) : Block → Recv Msg
  | .message _ b => expected parse b
  | .headless _ _ => .missingLength
  | .garbled _ _ => .io

theorem trim_blank (w : List Char) (h : ∀ c ∈ w, Str.isWs c = true) : Str.trim w = [] := by
  have hd : ∀ w : List Char, (∀ c ∈ w, Str.isWs c = true) → w.dropWhile Str.isWs = [] := by
    intro w
    induction w with
    | nil => intro _; rfl
    | cons c w ih =>
      intro h
      rw [List.dropWhile_cons, if_pos (h c List.mem_cons_self)]
      exact ih (fun x hx => h x (List.mem_cons_of_mem _ hx))
  simp [Str.trim, Str.trimStart, Str.trimEnd, hd w h]

theorem readHeaders_blank (w : List Char) (h2 : '\n' ∉ w) (h3 : Str.trim (w ++ ['\n']) = []) (rest : List Nat) :
    readHeaders (Utf8.encode (w ++ ['\n']) ++ rest) none = (.missingLength, rest) := by
  have hnl : Utf8.encode ['\n'] = [10] := by decide
  rw [readHeaders.eq_def, Utf8.encode_append, hnl]
  have hre : Utf8.encode w ++ [10] ++ rest = Utf8.encode w ++ 10 :: rest := by simp
  rw [hre, readLine_line (nl_not_in_encode h2), dif_neg (by simp)]
  have hd : Utf8.decode (Utf8.encode w ++ [10]) = some (w ++ ['\n']) := by
    apply decode_ascii
    rw [Utf8.encode_append, hnl]
  simp only [hd]
  rw [if_pos h3]

theorem receive_block (parse : List Nat → Option Msg) (b : Block) (h : b.Ok) (rest out : List Nat) :
    receive parse ⟨b.bytes ++ rest, out, false⟩ = (⟨rest, out, false⟩, b.result parse) := by
  cases b with
  | message ls body =>
    have := C08_other_headers_ignored parse ls h.1 body rest out h.2
    simpa only [Block.bytes, List.append_assoc, Block.result] using this
  | headless ls w =>
    obtain ⟨h1, h2, h3⟩ := h
    have hr := readHeaders_blank w h2 (trim_blank _ (by
      intro c hc
      rcases List.mem_append.mp hc with hc | hc
      · exact h3 c hc
      · rw [List.mem_singleton.mp hc]; decide)) rest
    unfold receive
    simp only [Bool.false_eq_true, if_false, Block.bytes, List.append_assoc, readHeaders_skip ls h1, hr, Block.result]
  | garbled ls g =>
    obtain ⟨h1, h2, h3⟩ := h
    have hr : readHeaders (g ++ [10] ++ rest) none = (.io, rest) := by
      rw [readHeaders.eq_def]
      have hre : g ++ [10] ++ rest = g ++ 10 :: rest := by simp
      rw [hre, readLine_line h2, dif_neg (by simp)]
      simp only [h3]
    unfold receive
    rw [List.append_assoc] at hr
    simp only [Bool.false_eq_true, if_false, Block.bytes, List.append_assoc, readHeaders_skip ls h1, hr, Block.result]

/-- **C147.** A stream of messages, of header blocks without a length and of blocks with a line that is not
UTF-8, in any order: one receive answers each of them with its message or its error, and reading goes on right
behind it, so that no error costs any other message. -/
theorem C147_recovers (parse : List Nat → Option Msg) (blocks : List Block) (h : ∀ b ∈ blocks, b.Ok) (rest : List Nat) :
    receiveMany parse blocks.length (init (blocks.flatMap Block.bytes ++ rest)) =
      (init rest, blocks.map (Block.result parse)) := by
  simp only [init]
  induction blocks with
  | nil => rfl
  | cons b bs ih =>
    have h1 := receive_block parse b (h b List.mem_cons_self) (bs.flatMap Block.bytes ++ rest) []
    have h2 := ih (fun x hx => h x (List.mem_cons_of_mem _ hx))
    simp only [List.length_cons, receiveMany, List.flatMap_cons, List.append_assoc] at h1 h2 ⊢
    rw [h1]
    simp only [h2, List.map_cons]

example : ∀ b ∈ [Block.headless ["X: 1\r".toList] ['\r'], .garbled [] [255, 254], .message ["Y: é\r".toList] [1, 10]], b.Ok := by
  intro b hb
  simp only [List.mem_cons, List.not_mem_nil, or_false] at hb
  rcases hb with rfl | rfl | rfl
  · refine ⟨?_, by decide, by decide⟩
    intro l hl
    rw [List.mem_singleton.mp hl]
    exact ⟨by decide, by decide, by decide⟩
  · exact ⟨by simp, by decide, by decide +kernel⟩
  · refine ⟨?_, by decide⟩
    intro l hl
    rw [List.mem_singleton.mp hl]
    exact ⟨by decide, by decide, by decide⟩

/-! ### C148: a receive that is abandoned -/

/-- Does a receive still wait when only these bytes have arrived? /repo/src/shared/stdio.rs L166-215: it waits
for the end of a line, or for the bytes of the body. -/
def waits (arrived : List Nat) (len : Option Nat) : Bool :=
  if h : 10 ∉ arrived then true
  else
    match Utf8.decode (readLine arrived).1 with
    | none => false
    | some line =>
      if Str.trim line = [] then
        (match len with
          | some n => decide (n ≤ maxAlloc ∧ (readLine arrived).2.length < n)
          | none => false)
      else
        waits (readLine arrived).2
          (match parseContentLength (Str.trim line) with
            | some n => some n
            | none => len)
termination_by arrived.length
decreasing_by exact readLine_length (fun e => h (by rw [e]; simp))

/-- A receive that is called when the first `k` bytes of the input have arrived and whose future is dropped
while it waits (a timeout around a client call): `read_line` and `read_exact` have moved everything that arrived
into the buffers of the future (L168, L208), which are dropped with it. A receive that does not wait cannot be
abandoned. -/
def abandon (k : Nat) (s : State) : State :=
  if s.closed = false ∧ waits (s.input.take k) none = true then { s with input := s.input.drop k } else s

/-- **C148**, the part that holds: abandoning a receive is harmless when nothing of the next message has
arrived. -/
theorem C148_idle_partial (parse : List Nat → Option Msg) (s : State) : receive parse (abandon 0 s) = receive parse s := by
  simp only [abandon, List.drop_zero, ite_self]

/-- What is lost is exactly what had arrived. -/
theorem C148_lost (k : Nat) (s : State) (hc : s.closed = false) (hw : waits (s.input.take k) none = true) :
    abandon k s = { s with input := s.input.drop k } := by
  simp [abandon, hc, hw]

theorem waits_line {a : List Nat} (h : 10 ∉ a) (len : Option Nat) : waits a len = true := by
  rw [waits.eq_def, dif_pos h]

theorem noC_tail (n : Nat) (k : Nat) (hk : 0 < k) : 'C' ∉ (header ++ Decimal.showNat n).drop k := by
  intro hm
  have : (header ++ Decimal.showNat n).drop k = ((header ++ Decimal.showNat n).drop 1).drop (k - 1) := by
    rw [List.drop_drop]; congr 1; omega
  rw [this] at hm
  have hm := List.mem_of_mem_drop hm
  have hh : (header ++ Decimal.showNat n).drop 1 = header.drop 1 ++ Decimal.showNat n := by
    rw [List.drop_append_of_le_length (by decide)]
  rw [hh] at hm
  rcases List.mem_append.mp hm with h | h
  · exact absurd h (by decide)
  · have := Decimal.showNat_all_digits n 'C' h
    have : 'C'.toNat = 67 := by decide
    omega

theorem mem_trim {c : Char} {l : List Char} (h : c ∈ Str.trim l) : c ∈ l := by
  simp only [Str.trim, Str.trimEnd, Str.trimStart, List.mem_reverse] at h
  have h := (List.dropWhile_sublist _).subset h
  rw [List.mem_reverse] at h
  exact (List.dropWhile_sublist _).subset h

theorem noC_no_length {l : List Char} (h : 'C' ∉ l) : parseContentLength l = none := by
  unfold parseContentLength
  cases hs : Str.stripPrefix header l with
  | none => rfl
  | some t =>
    have := Str.stripPrefix_eq_some.mp hs
    exact absurd (by rw [this]; exact List.mem_append_left _ (by decide)) h

/-- The receive after one that was abandoned in a header, and where it leaves the input. -/
theorem cut_header (parse : List Nat → Option Msg) (body rest out : List Nat) (h : body.length ≤ maxAlloc) (k : Nat)
    (h0 : 0 < k) (hk : k + body.length < (frame body).length) :
    receive parse (abandon k ⟨frame body ++ rest, out, false⟩) = (⟨body ++ rest, out, false⟩, .missingLength) ∨
      receive parse (abandon k ⟨frame body ++ rest, out, false⟩) =
        (⟨13 :: 10 :: (body ++ rest), out, false⟩, .missingLength) := by
  have hu : body.length < usizeLimit := by unfold maxAlloc at h; unfold usizeLimit; omega
  let L := header ++ Decimal.showNat body.length
  have hL : L = header ++ Decimal.showNat body.length := rfl
  have ascii : ∀ c ∈ L ++ ['\r'], c.toNat < 128 := by
    intro c hc
    rcases List.mem_append.mp hc with hc | hc
    · exact headerLine_ascii _ c hc
    · rw [List.mem_singleton.mp hc]; decide
  have hlen : (Utf8.encode (L ++ ['\r'])).length = L.length + 1 := by
    rw [encode_ascii ascii]; simp
  have hf : frame body ++ rest = Utf8.encode (L ++ ['\r']) ++ (10 :: 13 :: 10 :: (body ++ rest)) := by
    rw [Utf8.encode_append]
    have : Utf8.encode ['\r'] = [13] := by decide
    simp [frame, hL, this]
  have hfl : (frame body).length = L.length + 4 + body.length := by
    have := congrArg List.length hf
    simp only [List.length_append, List.length_cons, hlen] at this
    omega
  have nonl : '\n' ∉ L ++ ['\r'] := by
    intro hc
    rcases List.mem_append.mp hc with hc | hc
    · rcases List.mem_append.mp hc with hc | hc
      · exact absurd hc (by decide)
      · have := Decimal.showNat_all_digits _ _ hc
        have : '\n'.toNat = 10 := by decide
        omega
    · exact absurd hc (by decide)
  have fin : ∀ i t : List Nat, readHeaders i none = (.missingLength, t) →
      receive parse ⟨i, out, false⟩ = (⟨t, out, false⟩, .missingLength) := by
    intro i t hr
    simp [receive, hr]
  have hr10 : Utf8.encode ['\n'] = [10] := by decide
  have hr13 : Utf8.encode (['\r'] ++ ['\n']) = [13, 10] := by decide
  by_cases hc : k ≤ L.length + 1
  · have hw : waits ((frame body ++ rest).take k) none = true := by
      apply waits_line
      rw [hf, List.take_append_of_le_length (by rw [hlen]; exact hc)]
      intro hm
      exact nl_not_in_encode nonl (List.mem_of_mem_take hm)
    rw [C148_lost k _ rfl hw]
    have hd : (frame body ++ rest).drop k =
        Utf8.encode ((L ++ ['\r']).drop k ++ ['\n']) ++ (Utf8.encode (['\r'] ++ ['\n']) ++ (body ++ rest)) := by
      rw [hf, List.drop_append_of_le_length (by rw [hlen]; exact hc), Utf8.encode_append ((L ++ ['\r']).drop k), hr10, hr13,
        encode_ascii ascii, encode_ascii (fun c h => ascii c (List.mem_of_mem_drop h)), List.map_drop]
      simp
    simp only [hd]
    have nonl' : '\n' ∉ (L ++ ['\r']).drop k := fun h => nonl (List.mem_of_mem_drop h)
    by_cases hb : Str.trim ((L ++ ['\r']).drop k ++ ['\n']) = []
    · refine .inr (fin _ _ ?_)
      rw [readHeaders_blank _ nonl' hb, hr13]; rfl
    · have hno : 'C' ∉ (L ++ ['\r']).drop k ++ ['\n'] := by
        intro hm
        rcases List.mem_append.mp hm with hm | hm
        · rw [List.drop_append] at hm
          rcases List.mem_append.mp hm with hm | hm
          · exact noC_tail _ k h0 hm
          · exact absurd (List.mem_of_mem_drop hm) (by decide)
        · exact absurd hm (by decide)
      have hskip := readHeaders_skip [(L ++ ['\r']).drop k] (by
        intro l hl
        rw [List.mem_singleton.mp hl]
        exact ⟨nonl', hb, noC_no_length (fun h => hno (mem_trim h))⟩)
        (Utf8.encode (['\r'] ++ ['\n']) ++ (body ++ rest)) none
      simp only [List.flatMap_cons, List.flatMap_nil, List.append_nil] at hskip
      refine .inl (fin _ _ ?_)
      rw [hskip, readHeaders_blank _ (by decide) (by decide)]
  · have hk3 : k = L.length + 2 ∨ k = L.length + 3 := by omega
    have htake : ∀ t : List Nat, 10 ∉ t → waits (Utf8.encode (L ++ ['\r']) ++ 10 :: t) none = true := by
      intro t ht
      rw [waits.eq_def, dif_neg (by simp), readLine_line (nl_not_in_encode nonl)]
      have hd1 : Utf8.decode (Utf8.encode (L ++ ['\r']) ++ [10]) = some (L ++ ['\r'] ++ ['\n']) := by
        apply decode_ascii
        rw [Utf8.encode_append (L ++ ['\r']) ['\n'], hr10]
      simp only [hd1]
      have ht1 : Str.trim (L ++ ['\r'] ++ ['\n']) = L := by
        rw [List.append_assoc]; exact trim_headerLine _ _ (by decide)
      rw [ht1, if_neg (by
        intro e
        exact absurd (List.append_eq_nil_iff.mp e).1 (by decide))]
      exact waits_line ht _
    rcases hk3 with hk3 | hk3
    · have e1 : (frame body ++ rest).take k = Utf8.encode (L ++ ['\r']) ++ 10 :: [] := by
        rw [hf, List.take_append, List.take_of_length_le (by omega), hlen, hk3]
        have : L.length + 2 - (L.length + 1) = 1 := by omega
        rw [this]; rfl
      have e2 : (frame body ++ rest).drop k = Utf8.encode (['\r'] ++ ['\n']) ++ (body ++ rest) := by
        rw [hf, List.drop_append, List.drop_of_length_le (by omega), hlen, hk3, hr13]
        have : L.length + 2 - (L.length + 1) = 1 := by omega
        rw [this]; rfl
      rw [C148_lost k _ rfl (by rw [e1]; exact htake _ (by decide))]
      refine .inl (fin _ _ ?_)
      simp only [e2]
      rw [readHeaders_blank _ (by decide) (by decide)]
    · have e1 : (frame body ++ rest).take k = Utf8.encode (L ++ ['\r']) ++ 10 :: [13] := by
        rw [hf, List.take_append, List.take_of_length_le (by omega), hlen, hk3]
        have : L.length + 3 - (L.length + 1) = 2 := by omega
        rw [this]; rfl
      have e2 : (frame body ++ rest).drop k = Utf8.encode ([] ++ ['\n']) ++ (body ++ rest) := by
        rw [hf, List.drop_append, List.drop_of_length_le (by omega), hlen, hk3]
        have : L.length + 3 - (L.length + 1) = 2 := by omega
        rw [this]; simp [hr10]
      rw [C148_lost k _ rfl (by rw [e1]; exact htake _ (by decide))]
      refine .inl (fin _ _ ?_)
      simp only [e2]
      rw [readHeaders_blank _ (by decide) (by decide)]

/-- **C148** is false: if a receive is abandoned when some, but not all, of the header of a message has arrived,
that message is lost, whatever it is: the next receive reports a missing length. -/
theorem C148_cut_header (parse : List Nat → Option Msg) (body rest out : List Nat) (h : body.length ≤ maxAlloc) (k : Nat)
    (h0 : 0 < k) (hk : k + body.length < (frame body).length) :
    (receive parse (abandon k ⟨frame body ++ rest, out, false⟩)).2 = .missingLength := by
  rcases cut_header parse body rest out h k h0 hk with e | e <;> rw [e]

example : (receive (Msg := List Nat) some (abandon 18 (init (frame [7] ++ frame [1, 2])))).2 = .missingLength :=
  C148_cut_header some [7] (frame [1, 2]) [] (by decide) 18 (by decide) (by decide +kernel)

/-- **C148** is false inside a body as well: here the rest of the abandoned message is taken for a header and
the next message is returned in its place. -/
theorem C148_cut_body :
    let s := abandon 22 (init (frame [97, 98, 99, 13, 10] ++ frame [1, 2]))
    (receive (Msg := List Nat) some s).2 = .ok [1, 2] := by decide +kernel

/-- A payload as `serde_json::to_vec` writes an object: no line feed, the last byte is a closing brace.
(Specification: no counterpart in the code.) -/
def Compact (b : List Nat) : Prop := 10 ∉ b ∧ b.getLast? = some 125 ∧ b.length ≤ maxAlloc

theorem brace_mem {b : List Nat} {l : List Char} (h : Utf8.decode b = some l) (hb : 125 ∈ b) : '}' ∈ l := by
  rw [Utf8.encode_of_decode h, Utf8.encode, List.mem_flatMap] at hb
  obtain ⟨c, hc, hm⟩ := hb
  have : c.toNat = 125 := by
    unfold Utf8.encodeChar Utf8.encodeNat at hm
    (repeat' split at hm) <;> simp at hm <;> omega
  have : c = '}' := Char.toNat_inj.mp this
  rw [← this]; exact hc

theorem mem_dropWhile {c : Char} {l : List Char} (h : c ∈ l) (hc : Str.isWs c = false) : c ∈ l.dropWhile Str.isWs := by
  induction l with
  | nil => cases h
  | cons x l ih =>
    rw [List.dropWhile_cons]
    split
    · rcases List.mem_cons.mp h with rfl | h
      · simp_all
      · exact ih h
    · exact h

theorem mem_trim_of {c : Char} {l : List Char} (h : c ∈ l) (hc : Str.isWs c = false) : c ∈ Str.trim l := by
  simp only [Str.trim, Str.trimEnd, Str.trimStart, List.mem_reverse]
  exact mem_dropWhile (by rw [List.mem_reverse]; exact mem_dropWhile h hc) hc

theorem brace_no_length {l : List Char} (h : '}' ∈ l) : parseContentLength l = none := by
  cases hp : parseContentLength l with
  | none => rfl
  | some n =>
    exfalso
    obtain ⟨v, ds, hl, ht, _, hd, _⟩ := (C09_parse_iff l n).mp hp
    rw [hl] at h
    rcases List.mem_append.mp h with h | h
    · exact absurd h (by decide)
    · have h := mem_trim_of h (by decide)
      have key : '}' ∉ ds := fun hm => absurd (hd _ hm) (by simp only [IsDigit]; decide)
      rcases ht with e | e
      · rw [e] at h; exact key h
      · rw [e] at h
        rcases List.mem_cons.mp h with h | h
        · exact absurd h (by decide)
        · exact key h

/-- A line with a closing brace, followed by an empty one. -/
theorem brace_line {x : List Nat} (hx : 10 ∉ x) (hb : 125 ∈ x) (rest : List Nat) :
    readHeaders (x ++ 10 :: 13 :: 10 :: rest) none = (.io, 13 :: 10 :: rest) ∨
      readHeaders (x ++ 10 :: 13 :: 10 :: rest) none = (.missingLength, rest) := by
  rw [readHeaders.eq_def, dif_neg (by simp), readLine_line hx]
  cases hd : Utf8.decode (x ++ [10]) with
  | none => exact .inl rfl
  | some l =>
    have hm := mem_trim_of (brace_mem hd (List.mem_append_left _ hb)) (by decide)
    simp only
    rw [if_neg (fun e => by rw [e] at hm; cases hm), brace_no_length hm]
    have hr13 : 13 :: 10 :: rest = Utf8.encode (['\r'] ++ ['\n']) ++ rest := by
      have : Utf8.encode (['\r'] ++ ['\n']) = [13, 10] := by decide
      rw [this]; rfl
    exact .inr (by rw [hr13]; exact readHeaders_blank _ (by decide) (by decide) _)

/-- A line with a closing brace at the end of the input. -/
theorem brace_end {x : List Nat} (hx : 10 ∉ x) (hb : 125 ∈ x) :
    readHeaders x none = (.io, []) ∨ readHeaders x none = (.closed, []) := by
  have hl : readLine x = (x, []) := by
    clear hb
    induction x with
    | nil => rfl
    | cons a x ih =>
      have ha : a ≠ 10 := fun e => hx (by simp [e])
      simp [readLine, ha, ih (fun h => hx (List.mem_cons_of_mem _ h))]
  rw [readHeaders.eq_def, dif_neg (fun e => by rw [e] at hb; cases hb), hl]
  cases hd : Utf8.decode x with
  | none => exact .inl rfl
  | some l =>
    have hm := mem_trim_of (brace_mem hd hb) (by decide)
    simp only
    rw [if_neg (fun e => by rw [e] at hm; cases hm), readHeaders.eq_def]
    exact .inr rfl

/-- Where the stream is read out of step: in the middle of a payload or before the blank line that ends a header.
(Specification: no counterpart in the code.) -/
inductive Astray : State → Prop
  | closed (s : State) (h : s.closed = true) : Astray s
  | done (out : List Nat) : Astray ⟨[], out, false⟩
  | body (l : List Nat) (bs : List (List Nat)) (out : List Nat) (h : 10 ∉ l) (h' : 125 ∈ l) (hb : ∀ b ∈ bs, Compact b) :
      Astray ⟨l ++ bs.flatMap frame, out, false⟩
  | blank (b : List Nat) (bs : List (List Nat)) (out : List Nat) (h : Compact b) (hb : ∀ b ∈ bs, Compact b) :
      Astray ⟨13 :: 10 :: (b ++ bs.flatMap frame), out, false⟩

theorem Compact.body {b : List Nat} (h : Compact b) : 10 ∉ b ∧ 125 ∈ b := ⟨h.1, List.mem_of_getLast? h.2.1⟩

/-- Reading goes on out of step, with errors only. -/
theorem astray_receive (parse : List Nat → Option Msg) (s : State) (h : Astray s) :
    Astray (receive parse s).1 ∧
      ((receive parse s).2 = .missingLength ∨ (receive parse s).2 = .io ∨ (receive parse s).2 = .closed) := by
  cases h with
  | closed s h => simp only [receive, h, if_true]; exact ⟨.closed s h, by simp⟩
  | done out =>
    have : readHeaders [] none = (.closed, []) := by rw [readHeaders.eq_def]; rfl
    simp only [receive, this, Bool.false_eq_true, if_false]
    exact ⟨.closed _ rfl, by simp⟩
  | blank b bs out h hb =>
    have hr13 : Utf8.encode (['\r'] ++ ['\n']) = [13, 10] := by decide
    have := readHeaders_blank ['\r'] (by decide) (by decide) (b ++ bs.flatMap frame)
    rw [hr13] at this
    simp only [List.cons_append, List.nil_append] at this
    simp only [receive, this, Bool.false_eq_true, if_false]
    exact ⟨.body b bs out h.body.1 h.body.2 hb, by simp⟩
  | body l bs out h h' hb =>
    cases bs with
    | nil =>
      simp only [List.flatMap_nil, List.append_nil]
      rcases brace_end h h' with e | e <;> simp only [receive, e, Bool.false_eq_true, if_false]
      · exact ⟨.done out, by simp⟩
      · exact ⟨.closed _ rfl, by simp⟩
    | cons b bs =>
      have hx : 10 ∉ l ++ (Utf8.encode (header ++ Decimal.showNat b.length) ++ [13]) := by
        intro hm
        rcases List.mem_append.mp hm with hm | hm
        · exact h hm
        · exact no_nl_header _ hm
      have e0 : l ++ (b :: bs).flatMap frame =
          (l ++ (Utf8.encode (header ++ Decimal.showNat b.length) ++ [13])) ++ 10 :: 13 :: 10 :: (b ++ bs.flatMap frame) := by
        simp [frame]
      have hbb := hb b List.mem_cons_self
      have hbs : ∀ b ∈ bs, Compact b := fun x hx => hb x (List.mem_cons_of_mem _ hx)
      rw [e0]
      rcases brace_line hx (List.mem_append_left _ h') (b ++ bs.flatMap frame) with e | e <;>
        simp only [receive, e, Bool.false_eq_true, if_false]
      · exact ⟨.blank b bs out hbb hbs, by simp⟩
      · exact ⟨.body b bs out hbb.body.1 hbb.body.2 hbs, by simp⟩

theorem waits_body (body t : List Nat) (h : body.length ≤ maxAlloc) (ht : t.length < body.length) :
    waits (Utf8.encode (header ++ Decimal.showNat body.length) ++ [13, 10, 13, 10] ++ t) none = true := by
  have hu : body.length < usizeLimit := by unfold maxAlloc at h; unfold usizeLimit; omega
  have e0 : Utf8.encode (header ++ Decimal.showNat body.length) ++ [13, 10, 13, 10] ++ t =
      (Utf8.encode (header ++ Decimal.showNat body.length) ++ [13]) ++ 10 :: ([13] ++ 10 :: t) := by simp
  have hr : Utf8.encode (['\r'] ++ ['\n']) = [13, 10] := by decide
  rw [e0, waits.eq_def, dif_neg (by simp), readLine_line (no_nl_header _)]
  have hd1 : Utf8.decode (Utf8.encode (header ++ Decimal.showNat body.length) ++ [13] ++ [10]) =
      some (header ++ Decimal.showNat body.length ++ (['\r'] ++ ['\n'])) := by
    apply decode_ascii
    rw [Utf8.encode_append _ (['\r'] ++ ['\n']), hr]; simp
  simp only [hd1]
  rw [trim_headerLine _ _ (by decide), if_neg (fun e => absurd (List.append_eq_nil_iff.mp e).1 (by decide)),
    parse_headerLine hu, waits.eq_def, dif_neg (by simp), readLine_line (by decide)]
  have hd2 : Utf8.decode ([13] ++ [10]) = some ['\r', '\n'] := by decide +kernel
  simp only [hd2]
  rw [if_pos (by decide)]
  simp [h, ht]

/-- **C148** is false, for good: payloads as the library writes them, a receive abandoned when the first byte of one of
them has arrived but not the last. No later receive ever returns a message: all that follow are lost too. -/
theorem C148_never_again (parse : List Nat → Option Msg) (body : List Nat) (later : List (List Nat)) (hb : Compact body)
    (hl : ∀ b ∈ later, Compact b) (k : Nat) (h0 : 0 < k) (hk : k < (frame body).length) (out : List Nat) (n : Nat) :
    ∀ r ∈ (receiveMany parse n (abandon k ⟨frame body ++ later.flatMap frame, out, false⟩)).2,
      r = .missingLength ∨ r = .io ∨ r = .closed := by
  have key : ∀ (n : Nat) (s : State), Astray s → ∀ r ∈ (receiveMany parse n s).2,
      r = .missingLength ∨ r = .io ∨ r = .closed := by
    intro n
    induction n with
    | zero => intro s _ r hr; cases hr
    | succ n ih =>
      intro s hs r hr
      obtain ⟨h1, h2⟩ := astray_receive parse s hs
      simp only [receiveMany] at hr
      rcases List.mem_cons.mp hr with rfl | hr
      · exact h2
      · exact ih _ h1 r hr
  by_cases hc : k + body.length < (frame body).length
  · cases n with
    | zero => intro r hr; cases hr
    | succ n =>
      intro r hr
      simp only [receiveMany] at hr
      rcases cut_header parse body (later.flatMap frame) out hb.2.2 k h0 hc with e | e <;> rw [e] at hr <;>
        rcases List.mem_cons.mp hr with rfl | hr
      · exact .inl rfl
      · exact key n _ (.body body later out hb.body.1 hb.body.2 hl) r hr
      · exact .inl rfl
      · exact key n _ (.blank body later out hb hl) r hr
  · have hf : (frame body).length =
        (Utf8.encode (header ++ Decimal.showNat body.length) ++ [13, 10, 13, 10]).length + body.length := by
      simp only [frame, List.length_append]
    obtain ⟨j, hj⟩ : ∃ j, k = (Utf8.encode (header ++ Decimal.showNat body.length) ++ [13, 10, 13, 10]).length + j :=
      ⟨k - (Utf8.encode (header ++ Decimal.showNat body.length) ++ [13, 10, 13, 10]).length, by omega⟩
    have hjb : j < body.length := by omega
    have e0 : frame body ++ later.flatMap frame =
        (Utf8.encode (header ++ Decimal.showNat body.length) ++ [13, 10, 13, 10]) ++ (body ++ later.flatMap frame) := by
      simp only [frame, List.append_assoc]
    have et : (frame body ++ later.flatMap frame).take k =
        Utf8.encode (header ++ Decimal.showNat body.length) ++ [13, 10, 13, 10] ++ body.take j := by
      rw [e0, hj, List.take_append, List.take_of_length_le (by omega), Nat.add_sub_cancel_left,
        List.take_append_of_le_length (by omega)]
    have ed : (frame body ++ later.flatMap frame).drop k = body.drop j ++ later.flatMap frame := by
      rw [e0, hj, List.drop_append, List.drop_of_length_le (by omega), List.nil_append, Nat.add_sub_cancel_left,
        List.drop_append_of_le_length (by omega)]
    rw [C148_lost k _ rfl (by
      show waits ((frame body ++ later.flatMap frame).take k) none = true
      rw [et]; exact waits_body body _ hb.2.2 (by simp; omega))]
    simp only [ed]
    refine key n _ (.body (body.drop j) later out (fun h => hb.1 (List.mem_of_mem_drop h)) ?_ hl)
    have : (body.drop j).getLast? = some 125 := by rw [List.getLast?_drop, if_neg (by omega), hb.2.1]
    exact List.mem_of_getLast? this

example : (receiveMany (Msg := List Nat) some 4 (abandon 22 (init (frame [123, 49, 125] ++
      [[123, 125], [123, 50, 125]].flatMap frame)))).2 =
    [.missingLength, .missingLength, .closed, .closed] := by decide +kernel

end Verif.Stdio
