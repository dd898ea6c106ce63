import Verif.Sse.Panics

/-
C04: exactly which streams are parsed independently of their chunks.
-/

namespace Verif.Sse

open Verif

/-- A line with a character of several bytes that has a carriage return, counted in characters, where its last byte is,
counted in bytes (so in what follows the line). (Specification: no counterpart in the code.) -/
def Stray (line post : Text) : Prop :=
  (∃ c ∈ line, 128 ≤ c.toNat) ∧ (line ++ '\n' :: post)[byteLen line - 1]? = some '\r'

/-- A text one of whose lines has a stray carriage return. (Specification: no counterpart in the code.) -/
def HasStray (s : Text) : Prop :=
  ∃ before line post, s = before ++ line ++ '\n' :: post ∧ (before = [] ∨ before.getLast? = some '\n') ∧ '\n' ∉ line ∧
    Stray line post

/-- The line read if nothing follows it: the carriage return at the end is removed from lines that are pure ASCII.
(Specification: no counterpart in the code.) -/
def plainLine (l : Text) : Text := if ∀ c ∈ l, c.toNat < 128 then stripCr l else l

/-- The lines the loop of `feed` takes off a buffer and hands to `process_line`, and what stays in the buffer; `none` is
a panic (/repo/src/shared/sse_parser.rs L173-185, without what `process_line` does). -/
def takeLines (s : Text) : Option (List Text × Text) :=
  match h : Str.splitOnce '\n' s with
  | none => some ([], s)
  | some (pre, post) =>
    match extractLine s pre with
    | none => none
    | some line => (takeLines post).map (fun q => (line :: q.1, q.2))
termination_by s.length
decreasing_by exact splitOnce_length h

/-- The lines handed to `process_line` when a sequence of chunks is fed (/repo/src/shared/sse_parser.rs L169-188). -/
def takeAll (buffer : Text) : List Text → Option (List Text × Text)
  | [] => some ([], buffer)
  | c :: cs => match takeLines (buffer ++ c) with
    | none => none
    | some (ls, rest) => (takeAll rest cs).map (fun q => (ls ++ q.1, q.2))

theorem takeLines_eq (s : Text) : takeLines s = match Str.splitOnce '\n' s with
    | none => some ([], s)
    | some (pre, post) =>
      match extractLine s pre with
      | none => none
      | some line => (takeLines post).map (fun q => (line :: q.1, q.2)) := by
  rw [takeLines]
  split
  · rename_i h; simp only [h]
  · rename_i pre post h; simp only [h]

/-- What a parser makes of lines, the rest of the buffer kept. (Specification: no counterpart in the code.) -/
def interpret (p : Parser) (q : List Text × Text) : Parser × List Event :=
  ({ (processLines p q.1).1 with buffer := q.2 }, (processLines p q.1).2)

theorem feedLoop_lines (p : Parser) : feedLoop p = (takeLines p.buffer).map (interpret p) := by
  induction hl : p.buffer.length using Nat.strongRecOn generalizing p with
  | _ n ih =>
    rw [feedLoop_eq, takeLines_eq]
    rcases hs : Str.splitOnce '\n' p.buffer with _ | ⟨pre, post⟩
    · rfl
    · simp only
      cases extractLine p.buffer pre with
      | none => rfl
      | some line =>
        simp only
        rw [processLine_buffer]
        simp only
        rw [ih post.length (by rw [← hl]; exact splitOnce_length hs) _ rfl]
        cases takeLines post with
        | none => rfl
        | some q => simp only [Option.map_some, interpret, processLines, processLines_buffer]

theorem feed_lines (p : Parser) (d : Text) : feed p d = (takeLines (p.buffer ++ d)).map (interpret p) := by
  unfold feed
  rw [feedLoop_lines]
  cases takeLines (p.buffer ++ d) with
  | none => rfl
  | some q => simp only [Option.map_some, interpret, processLines_buffer]

theorem interpret_append (p : Parser) (ls : List Text) (rest : Text) (q : List Text × Text) :
    interpret p (ls ++ q.1, q.2) =
      ((interpret (interpret p (ls, rest)).1 q).1, (interpret p (ls, rest)).2 ++ (interpret (interpret p (ls, rest)).1 q).2) := by
  simp only [interpret, processLines_append, processLines_buffer]

/-- **C04** (what the events depend on). The events returned for any sequence of chunks, and the final state, are those of
the lines taken off the buffer, in order: chunks matter only for which lines these are. -/
theorem C04_lines (chunks : List Text) (p : Parser) : feedAll p chunks = (takeAll p.buffer chunks).map (interpret p) := by
  induction chunks generalizing p with
  | nil => rfl
  | cons c cs ih =>
    rw [feedAll, takeAll, feed_lines]
    cases takeLines (p.buffer ++ c) with
    | none => rfl
    | some q =>
      obtain ⟨ls, rest⟩ := q
      simp only [Option.map_some]
      have hb : (interpret p (ls, rest)).1.buffer = rest := rfl
      have := ih (interpret p (ls, rest)).1
      rw [hb] at this
      rw [show interpret p (ls, rest) = ((interpret p (ls, rest)).1, (interpret p (ls, rest)).2) from rfl]
      simp only
      rw [this]
      cases takeAll rest cs with
      | none => rfl
      | some q => simp only [Option.map_some, interpret_append p ls rest q]

/-! ### One line -/

theorem length_le_byteLen (s : Text) : s.length ≤ byteLen s := by
  induction s with
  | nil => exact Nat.zero_le _
  | cons c s ih => rw [byteLen_cons, List.length_cons]; have := charLen_pos c; omega

theorem length_lt_byteLen (s : Text) (h : ∃ c ∈ s, 128 ≤ c.toNat) : s.length < byteLen s := by
  induction s with
  | nil => obtain ⟨c, hc, -⟩ := h; cases hc
  | cons c s ih =>
    rw [byteLen_cons, List.length_cons]
    obtain ⟨d, hd, hge⟩ := h
    rcases List.mem_cons.mp hd with rfl | hd
    · have := (charLen_two d).mpr hge
      have := length_le_byteLen s
      omega
    · have := ih ⟨d, hd, hge⟩
      have := charLen_pos c
      omega

theorem extract_plain (pre post : Text) (h : ¬ Stray pre post) :
    extractLine (pre ++ '\n' :: post) pre = some (plainLine pre) := by
  by_cases ha : ∀ c ∈ pre, c.toNat < 128
  · have h1 : extractLine (pre ++ '\n' :: []) pre = some (stripCr pre) := by
      refine extractLine_safe (.inl ?_)
      intro c hc
      simp only [List.mem_append, List.mem_singleton] at hc
      rcases hc with hc | rfl
      · exact ha c hc
      · decide
    rw [plainLine, if_pos ha, ← h1]
    unfold extractLine
    simp only
    rcases List.eq_nil_or_concat pre with rfl | ⟨q, c, rfl⟩
    · rfl
    · have hl := byteLen_ascii ha
      have hq : ∀ x ∈ q, x.toNat < 128 := fun x hx => ha x (by simp [hx])
      simp only [List.concat_eq_append] at hl ⊢
      rw [hl]
      have e : (q ++ [c]).length - 1 = byteLen q := by rw [byteLen_ascii hq]; simp
      rw [e, List.append_assoc, List.append_assoc, sliceTo_byteLen, sliceTo_byteLen, byteLen_ascii hq]
      simp
  · have hx : ∃ c ∈ pre, 128 ≤ c.toNat := by
      apply Classical.byContradiction
      intro hno
      exact ha fun c hc => Nat.lt_of_not_le fun hle => hno ⟨c, hc, hle⟩
    rw [plainLine, if_neg ha]
    unfold extractLine
    simp only
    rw [if_neg]
    rintro ⟨-, hcr⟩
    exact h ⟨hx, hcr⟩

theorem extract_stray (pre post : Text) (h : Stray pre post) :
    extractLine (pre ++ '\n' :: post) pre ≠ some (plainLine pre) := by
  obtain ⟨⟨c, hc, hge⟩, hcr⟩ := h
  have hna : ¬ ∀ c ∈ pre, c.toNat < 128 := fun ha => by have := ha c hc; omega
  rw [plainLine, if_neg hna]
  have hlt := length_lt_byteLen pre ⟨c, hc, hge⟩
  unfold extractLine
  simp only
  rw [if_pos ⟨by omega, hcr⟩]
  intro hs
  have key : ∀ (s : Text) (k : Nat) (t : Text), sliceTo s k = some t → byteLen t = k := by
    intro s
    induction s with
    | nil =>
      intro k t ht
      cases k with
      | zero => rw [sliceTo] at ht; cases ht; rfl
      | succ k => rw [sliceTo] at ht; cases ht
    | cons c s ih =>
      intro k t ht
      cases k with
      | zero => rw [sliceTo] at ht; cases ht; rfl
      | succ k =>
        rw [sliceTo] at ht
        split at ht
        · obtain ⟨t', ht', rfl⟩ := Option.map_eq_some_iff.mp ht
          have := ih _ _ ht'
          rw [byteLen_cons, this]
          omega
        · cases ht
  have := key _ _ _ hs
  omega

/-! ### Whole texts -/

theorem hasStray_mono (a b : Text) (h : HasStray a) : HasStray (a ++ b) := by
  obtain ⟨before, line, post, rfl, hb, hn, hx, hcr⟩ := h
  refine ⟨before, line, post ++ b, by simp, hb, hn, hx, ?_⟩
  have hlt := (List.getElem?_eq_some_iff.mp hcr).1
  have : line ++ '\n' :: (post ++ b) = (line ++ '\n' :: post) ++ b := by simp
  rw [this, List.getElem?_append_left hlt, hcr]

theorem hasStray_after (a b : Text) (ha : a = [] ∨ a.getLast? = some '\n') (h : HasStray b) : HasStray (a ++ b) := by
  obtain ⟨before, line, post, rfl, hb, hn, hs⟩ := h
  refine ⟨a ++ before, line, post, by simp, ?_, hn, hs⟩
  rcases hb with rfl | hb
  · simpa using ha
  · right; simp [List.getLast?_append, hb]

theorem not_hasStray (pre post : Text) (hn : '\n' ∉ pre) (h : ¬ HasStray (pre ++ '\n' :: post)) :
    ¬ Stray pre post ∧ ¬ HasStray post := by
  refine ⟨fun hs => h ⟨[], pre, post, rfl, .inl rfl, hn, hs⟩, fun hs => h ?_⟩
  have := hasStray_after (pre ++ ['\n']) post (.inr (by simp)) hs
  simpa using this

theorem takeLines_plain (s : Text) (h : ¬ HasStray s) : takeLines s = some ((cut s).1.map plainLine, (cut s).2) := by
  induction hl : s.length using Nat.strongRecOn generalizing s with
  | _ n ih =>
    rw [takeLines_eq, cut_eq]
    rcases hs : Str.splitOnce '\n' s with _ | ⟨pre, post⟩
    · rfl
    · obtain ⟨h1, h2⟩ := Str.splitOnce_some hs
      simp only
      subst h1
      obtain ⟨h3, h4⟩ := not_hasStray pre post h2 h
      rw [extract_plain pre post h3]
      simp only
      rw [ih post.length (by rw [← hl]; exact splitOnce_length hs) post h4 rfl]
      rfl

theorem cut_rest_line (s : Text) : '\n' ∉ (cut s).2 ∧
    ∃ w, s = w ++ (cut s).2 ∧ (w = [] ∨ w.getLast? = some '\n') := by
  induction hl : s.length using Nat.strongRecOn generalizing s with
  | _ n ih =>
    rw [cut_eq]
    rcases hs : Str.splitOnce '\n' s with _ | ⟨pre, post⟩
    · exact ⟨Str.splitOnce_eq_none.mp hs, [], rfl, .inl rfl⟩
    · obtain ⟨h1, _⟩ := Str.splitOnce_some hs
      obtain ⟨h2, w, h3, h4⟩ := ih post.length (by rw [← hl]; exact splitOnce_length hs) post rfl
      refine ⟨h2, pre ++ '\n' :: w, ?_, .inr ?_⟩
      · simp only
        rw [List.append_assoc, List.cons_append, ← h3, h1]
      · rcases h4 with rfl | h4
        · simp
        · simp [List.getLast?_append, List.getLast?_cons, h4]

theorem takeAll_plain (chunks : List Text) (b : Text) (h : ¬ HasStray (b ++ chunks.flatten)) (hb : '\n' ∉ b) :
    takeAll b chunks = some ((cut (b ++ chunks.flatten)).1.map plainLine, (cut (b ++ chunks.flatten)).2) := by
  induction chunks generalizing b with
  | nil =>
    rw [List.flatten_nil, List.append_nil, cut_eq, Str.splitOnce_eq_none.mpr hb]
    rfl
  | cons c cs ih =>
    rw [List.flatten_cons, ← List.append_assoc] at h ⊢
    have h1 : ¬ HasStray (b ++ c) := fun hs => h (hasStray_mono _ _ hs)
    obtain ⟨h2, w, h3, h4⟩ := cut_rest_line (b ++ c)
    have h5 : ¬ HasStray ((cut (b ++ c)).2 ++ cs.flatten) := by
      intro hs
      apply h
      have := hasStray_after w _ h4 hs
      rw [← List.append_assoc, ← h3] at this
      exact this
    rw [takeAll, takeLines_plain _ h1]
    simp only
    rw [ih _ h5 h2, cut_append (b ++ c) cs.flatten]
    simp only [Option.map_some, List.map_append]

/-- Fed character by character, no carriage return behind the line feed is there yet when a line is read. -/
theorem takeAll_characters (s b : Text) (hb : '\n' ∉ b) :
    takeAll b (s.map (fun c => [c])) = some ((cut (b ++ s)).1.map plainLine, (cut (b ++ s)).2) := by
  induction s generalizing b with
  | nil =>
    rw [List.append_nil, cut_eq, Str.splitOnce_eq_none.mpr hb]
    rfl
  | cons c s ih =>
    rw [List.map_cons, takeAll]
    have hcut : b ++ c :: s = (b ++ [c]) ++ s := by simp
    rw [hcut, cut_append (b ++ [c]) s]
    by_cases hc : c = '\n'
    · subst hc
      have h1 : ¬ Stray b [] := by
        rintro ⟨hx, hcr⟩
        have hlt := length_lt_byteLen b hx
        rw [List.getElem?_append_right (by omega)] at hcr
        cases hk : byteLen b - 1 - b.length with
        | zero => rw [hk] at hcr; simp at hcr
        | succ k => rw [hk] at hcr; simp at hcr
      have h2 : takeLines (b ++ ['\n']) = some ([plainLine b], []) := by
        rw [takeLines_eq, Str.splitOnce_append hb []]
        simp only
        rw [extract_plain b [] h1, takeLines_eq, Str.splitOnce_eq_none.mpr (by simp)]
        rfl
      have h3 : cut (b ++ ['\n']) = ([b], []) := by
        rw [cut_eq, Str.splitOnce_append hb []]
        simp only
        rw [cut_eq, Str.splitOnce_eq_none.mpr (by simp)]
      rw [h2, h3]
      simp only
      rw [ih [] (by simp)]
      simp
    · have hb' : '\n' ∉ b ++ [c] := by
        simp only [List.mem_append, List.mem_singleton, not_or]
        exact ⟨hb, fun e => hc e.symm⟩
      have h2 : takeLines (b ++ [c]) = some ([], b ++ [c]) := by
        rw [takeLines_eq, Str.splitOnce_eq_none.mpr hb']
      have h3 : cut (b ++ [c]) = ([], b ++ [c]) := by
        rw [cut_eq, Str.splitOnce_eq_none.mpr hb']
      rw [h2, h3]
      simp only
      rw [ih _ hb']
      rfl

theorem takeLines_stray (s : Text) (h : HasStray s) : takeLines s ≠ some ((cut s).1.map plainLine, (cut s).2) := by
  intro ht
  apply Classical.byContradiction
  intro _
  obtain ⟨before, line, post, rfl, hb, hn, hst⟩ := h
  -- the lines in front of the stray one are taken off first
  have key : ∀ (n : Nat) (before : Text), before.length = n → (before = [] ∨ before.getLast? = some '\n') →
      takeLines (before ++ line ++ '\n' :: post) ≠
        some ((cut (before ++ line ++ '\n' :: post)).1.map plainLine, (cut (before ++ line ++ '\n' :: post)).2) := by
    intro n
    induction n using Nat.strongRecOn with
    | _ n ih =>
      intro before hlen hb ht
      rcases hb with rfl | hb
      · rw [List.nil_append, takeLines_eq, cut_eq, Str.splitOnce_append hn post] at ht
        simp only at ht
        cases he : extractLine (line ++ '\n' :: post) line with
        | none => rw [he] at ht; cases ht
        | some l =>
          rw [he] at ht
          simp only [Option.map_eq_some_iff] at ht
          obtain ⟨q, -, hq⟩ := ht
          simp only [List.map_cons, Prod.mk.injEq, List.cons.injEq] at hq
          exact extract_stray line post hst (by rw [he, hq.1.1])
      · have hmem : '\n' ∈ before := List.mem_of_getLast? hb
        rcases hs : Str.splitOnce '\n' before with _ | ⟨pre, rest⟩
        · exact Str.splitOnce_eq_none.mp hs hmem
        · obtain ⟨h1, h2⟩ := Str.splitOnce_some hs
          subst h1
          have e : pre ++ '\n' :: rest ++ line ++ '\n' :: post = pre ++ '\n' :: (rest ++ line ++ '\n' :: post) := by simp
          rw [e, takeLines_eq, cut_eq, Str.splitOnce_append h2] at ht
          simp only at ht
          cases he : extractLine (pre ++ '\n' :: (rest ++ line ++ '\n' :: post)) pre with
          | none => rw [he] at ht; cases ht
          | some l =>
            rw [he] at ht
            simp only [Option.map_eq_some_iff] at ht
            obtain ⟨q, hq1, hq⟩ := ht
            simp only [List.map_cons, Prod.mk.injEq, List.cons.injEq] at hq
            refine ih rest.length (by rw [← hlen]; simp; omega) rest rfl ?_ ?_
            · rcases List.eq_nil_or_concat rest with rfl | ⟨r, c, rfl⟩
              · exact .inl rfl
              · right
                simpa [List.getLast?_append, List.getLast?_cons] using hb
            · rw [hq1, ← hq.1.2, ← hq.2]
  exact key _ before rfl hb ht

/-- **C04, exactly**: the lines read from a stream are the same for every way of cutting it into chunks if and only if no
line of it has a stray carriage return behind it. -/
theorem C04_chunks_iff (s : Text) :
    (∀ chunks, chunks ≠ [] → chunks.flatten = s → takeAll [] chunks = takeAll [] [s]) ↔ ¬ HasStray s := by
  constructor
  · intro hall hs
    have h1 : takeAll [] [s] = takeLines s := by
      rw [takeAll, List.nil_append]
      cases takeLines s with
      | none => rfl
      | some q => simp [takeAll]
    have hne : s ≠ [] := by
      rintro rfl
      obtain ⟨b, l, p, he, -⟩ := hs
      simp at he
    have hfl : (s.map (fun c => [c])).flatten = s := by
      clear hall hs h1 hne
      induction s with
      | nil => rfl
      | cons c s ih => simp [ih]
    have := hall (s.map (fun c => [c])) (by simp [hne]) hfl
    rw [h1, takeAll_characters s [] (by simp), List.nil_append] at this
    exact takeLines_stray s hs this.symm
  · rintro h chunks - rfl
    rw [takeAll_plain chunks [] (by simpa using h) (by simp), takeAll_plain [chunks.flatten] [] (by simpa using h) (by simp)]
    simp

/-- **C04** (streams with characters of several bytes and carriage returns). Every stream without a stray carriage return
gives the same events and the same final state however it is cut, whatever was read before. -/
theorem C04_no_stray_partial (p : Parser) (chunks : List Text) (hb : '\n' ∉ p.buffer)
    (h : ¬ HasStray (p.buffer ++ chunks.flatten)) : feedAll p chunks = feedAll p [chunks.flatten] := by
  rw [C04_lines, C04_lines, takeAll_plain chunks p.buffer h hb, takeAll_plain [chunks.flatten] p.buffer (by simpa using h) hb]
  simp

/-- **C04** (the finest cut). Fed one character at a time every stream is read, without a panic, line by line; the
carriage return before the line feed is removed from a line exactly if the line is pure ASCII. -/
theorem C04_by_characters (p : Parser) (s : Text) (hb : '\n' ∉ p.buffer) :
    feedAll p (s.map (fun c => [c])) =
      some (interpret p ((cut (p.buffer ++ s)).1.map plainLine, (cut (p.buffer ++ s)).2)) := by
  rw [C04_lines, takeAll_characters s p.buffer hb]
  rfl

/-! ### C07 with characters of several bytes -/

/-- **C07** (however the stream is cut). For every sequence of lines without a stray carriage return, cut anywhere, a fresh
parser emits at each blank line the event of the fields of the block before it, as in `C07_fields_exact`; but a line that
is not pure ASCII keeps the carriage return at its end. -/
theorem C07_chunks_exact (lines chunks : List Text) (h : ∀ l ∈ lines, '\n' ∉ l) (hf : chunks.flatten = textOf lines)
    (hs : ¬ HasStray (textOf lines)) :
    (feedAll fresh chunks).map (·.2) =
      some (eventsOf (fun b => !decide (dataOfCode b = [])) dataOfCode none [] (lines.map plainLine)) := by
  have hs' : ¬ HasStray ([] ++ chunks.flatten) := by rw [hf]; exact hs
  rw [C04_lines, show fresh.buffer = [] from rfl, takeAll_plain chunks [] hs' (by simp), List.nil_append, hf,
    cut_textOf lines h]
  simp only [Option.map_some, interpret]
  rw [processLines_events (lines.map plainLine) fresh [] none rfl rfl]

/-- **C07** (the finest cut). Fed one character at a time that holds of every sequence of lines. -/
theorem C07_by_characters (lines : List Text) (h : ∀ l ∈ lines, '\n' ∉ l) :
    (feedAll fresh ((textOf lines).map (fun c => [c]))).map (·.2) =
      some (eventsOf (fun b => !decide (dataOfCode b = [])) dataOfCode none [] (lines.map plainLine)) := by
  rw [C04_by_characters fresh _ (by simp [fresh]), show fresh.buffer = [] from rfl, List.nil_append, cut_textOf lines h]
  simp only [Option.map_some, interpret]
  rw [processLines_events (lines.map plainLine) fresh [] none rfl rfl]

/-- The accented name keeps its carriage return, the other loses it. -/
example : eventsOf (fun b => !decide (dataOfCode b = [])) dataOfCode none []
    (["event: é\r".toList, "data: a\r".toList, []].map plainLine) =
    [⟨none, some "é\r".toList, "a".toList, none⟩] := by decide +kernel

/-- Streams of the earlier theorem are among these. -/
theorem safe_not_stray (s : Text) (h : Safe s) : ¬ HasStray s := by
  rintro ⟨b, l, post, rfl, -, -, ⟨c, hc, hge⟩, hcr⟩
  rcases h with h | h
  · have := h c (by simp [hc]); omega
  · have := List.mem_of_getElem? hcr
    apply h
    rw [List.append_assoc]
    exact List.mem_append_right _ this

/-- A stream with characters of several bytes and carriage returns that is read the same however it is cut. -/
example : ¬ HasStray "data: é\r\n\r\n".toList ∧ ¬ Safe "data: é\r\n\r\n".toList := by
  refine ⟨?_, ?_⟩
  · exact fun h => takeLines_stray _ h (by decide +kernel)
  · rintro (h | h)
    · exact absurd (h 'é' (by decide)) (by decide)
    · exact h (by decide)

/-- It is read line by line, cut anywhere. -/
example : feedAll fresh ["data: é\r".toList, "\n\r".toList, "\n".toList] = feedAll fresh ["data: é\r\n\r\n".toList] :=
  C04_no_stray_partial fresh ["data: é\r".toList, "\n\r".toList, "\n".toList] (by simp [fresh])
    (fun h => takeLines_stray _ h (by decide +kernel))

/-- The stream of `C04_character_lost` has one. -/
example : HasStray "data: ééa\n\r\n".toList :=
  ⟨[], "data: ééa".toList, "\r\n".toList, by decide, .inl rfl, by decide, ⟨'é', by decide, by decide⟩, by decide⟩

/-- It meets the hypotheses of `C07_chunks_exact`, cut into three. -/
example : (feedAll fresh ["data: é\r".toList, "\n\r".toList, "\n".toList]).map (·.2) =
    some (eventsOf (fun b => !decide (dataOfCode b = [])) dataOfCode none []
      (["data: é\r".toList, "\r".toList].map plainLine)) :=
  C07_chunks_exact ["data: é\r".toList, "\r".toList] _ (by decide) (by decide +kernel)
    (fun h => takeLines_stray _ h (by decide +kernel))

end Verif.Sse
