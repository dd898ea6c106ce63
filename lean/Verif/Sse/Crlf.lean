import Verif.Sse.Chunks
import Verif.Sse.Stream

/-
C243: event streams whose lines end with carriage return and line feed.
-/

namespace Verif.Sse

open Verif

/-- Lines, each ended with a carriage return and a line feed. (Specification: no counterpart in the code.) -/
def crlfOf (lines : List Text) : Text := lines.flatMap (fun l => l ++ ['\r', '\n'])

theorem crlf_textOf (lines : List Text) : crlfOf lines = textOf (lines.map (· ++ ['\r'])) := by
  unfold crlfOf textOf
  rw [List.flatMap_map]
  congr 1
  funext l
  simp

theorem cut_crlf (lines : List Text) (h : ∀ l ∈ lines, '\n' ∉ l) :
    cut (crlfOf lines) = (lines.map (· ++ ['\r']), []) := by
  rw [crlf_textOf]
  refine cut_textOf _ ?_
  intro l hl
  obtain ⟨l', hl', rfl⟩ := List.mem_map.mp hl
  have := h l' hl'
  simp [this]

theorem plainLine_cr (l : Text) : plainLine (l ++ ['\r']) = if ∀ c ∈ l, c.toNat < 128 then l else l ++ ['\r'] := by
  have : (∀ c ∈ l ++ ['\r'], c.toNat < 128) ↔ ∀ c ∈ l, c.toNat < 128 := by
    simp only [List.mem_append, List.mem_singleton]
    constructor
    · exact fun h c hc => h c (.inl hc)
    · rintro h c (hc | rfl)
      · exact h c hc
      · decide
  unfold plainLine
  by_cases ha : ∀ c ∈ l, c.toNat < 128
  · rw [if_pos (this.mpr ha), if_pos ha]
    simp [stripCr]
  · rw [if_neg (fun h => ha (this.mp h)), if_neg ha]

theorem plainLine_no_cr (l : Text) (h : '\r' ∉ l) : plainLine l = l := by
  unfold plainLine
  split
  · unfold stripCr
    rw [if_neg (fun hl => h (List.mem_of_getLast? hl))]
  · rfl

theorem textOf_no_cr (lines : List Text) (h : ∀ l ∈ lines, '\r' ∉ l) : '\r' ∉ textOf lines := by
  intro hm
  obtain ⟨l, hl, hc⟩ := List.mem_flatMap.mp hm
  simp only [List.mem_append, List.mem_singleton] at hc
  rcases hc with hc | hc
  · exact h l hl hc
  · exact absurd hc (by decide)

theorem crlf_ascii (lines : List Text) (h : ∀ l ∈ lines, ∀ c ∈ l, c.toNat < 128) : Safe (crlfOf lines) := by
  left
  intro c hc
  obtain ⟨l, hl, hc⟩ := List.mem_flatMap.mp hc
  simp only [List.mem_append, List.mem_cons, List.not_mem_nil, or_false] at hc
  rcases hc with hc | rfl | rfl
  · exact h l hl c hc
  · decide
  · decide

/-- The lines read from a stream with line feeds are its lines, however it is cut. -/
theorem takeAll_lf (lines chunks : List Text) (h : ∀ l ∈ lines, '\n' ∉ l ∧ '\r' ∉ l) (hf : chunks.flatten = textOf lines) :
    takeAll [] chunks = some (lines, []) := by
  have hs : ¬ HasStray ([] ++ chunks.flatten) := by
    rw [List.nil_append, hf]
    exact safe_not_stray _ (.inr (textOf_no_cr lines fun l hl => (h l hl).2))
  rw [takeAll_plain chunks [] hs (by simp), List.nil_append, hf, cut_textOf lines fun l hl => (h l hl).1]
  have : lines.map plainLine = lines := by
    rw [List.map_congr_left (fun l hl => plainLine_no_cr l (h l hl).2)]
    simp
  rw [this]

/-- **C243** (text of ASCII characters). A stream whose lines end with carriage return and line feed gives the same events
and the same final state as with line feeds, whatever came before and however both are cut. -/
theorem C243_ascii_partial (p : Parser) (hp : p.buffer = []) (lines cs ds : List Text)
    (h : ∀ l ∈ lines, '\n' ∉ l ∧ '\r' ∉ l) (ha : ∀ l ∈ lines, ∀ c ∈ l, c.toNat < 128)
    (hc : cs.flatten = crlfOf lines) (hd : ds.flatten = textOf lines) : feedAll p cs = feedAll p ds := by
  rw [C04_lines, C04_lines, hp, takeAll_lf lines ds h hd]
  rw [takeAll_plain cs [] (by rw [List.nil_append, hc]; exact safe_not_stray _ (crlf_ascii lines ha)) (by simp)]
  rw [List.nil_append, hc, cut_crlf lines fun l hl => (h l hl).1]
  have : (lines.map (· ++ ['\r'])).map plainLine = lines := by
    rw [List.map_map]
    rw [List.map_congr_left (g := id)]
    · simp
    · intro l hl
      simp only [Function.comp, plainLine_cr, if_pos (ha l hl), id]
  rw [this]

/-- **C243** (other text, as it arrives). Fed one character at a time, each line that is not pure ASCII keeps the carriage
return at its end, as if it were part of the line. -/
theorem C243_kept (p : Parser) (hp : p.buffer = []) (lines : List Text) (h : ∀ l ∈ lines, '\n' ∉ l) :
    feedAll p ((crlfOf lines).map (fun c => [c])) =
      some (interpret p (lines.map (fun l => if ∀ c ∈ l, c.toNat < 128 then l else l ++ ['\r']), [])) := by
  rw [C04_by_characters p _ (by rw [hp]; simp), hp, List.nil_append, cut_crlf lines h, List.map_map]
  congr 4
  funext l
  exact plainLine_cr l

/-- **C243, exactly, for the lines read**: fed one character at a time the lines are those of the stream with line feeds if
and only if all of them are pure ASCII. -/
theorem C243_lines_iff (lines : List Text) (h : ∀ l ∈ lines, '\n' ∉ l ∧ '\r' ∉ l) :
    takeAll [] ((crlfOf lines).map (fun c => [c])) = takeAll [] [textOf lines] ↔
      ∀ l ∈ lines, ∀ c ∈ l, c.toNat < 128 := by
  rw [takeAll_lf lines [textOf lines] h (by simp), takeAll_characters _ [] (by simp), List.nil_append,
    cut_crlf lines fun l hl => (h l hl).1, List.map_map]
  constructor
  · intro he l hl
    simp only [Option.some.injEq, Prod.mk.injEq, and_true] at he
    have hid : lines.map (plainLine ∘ (· ++ ['\r'])) = lines.map id := by simpa using he
    have := List.map_inj_left.mp hid l hl
    simp only [Function.comp, plainLine_cr, id] at this
    split at this
    · next ha => exact ha
    · have := congrArg List.length this
      simp at this
  · intro ha
    congr 2
    rw [List.map_congr_left (g := id)]
    · simp
    · intro l hl
      simp only [Function.comp, plainLine_cr, if_pos (ha l hl), id]

theorem fieldValue_data (w : Text) : fieldValue ("data: ".toList ++ w) = (kData, w) := by
  unfold fieldValue
  have : Str.splitOnce ':' ("data: ".toList ++ w) = some ("data".toList, ' ' :: w) :=
    Str.splitOnce_append (a := "data".toList) (by decide) (' ' :: w)
  rw [this]
  rfl

theorem data_event (w : Text) (hw : w ≠ []) :
    (processLines fresh ["data: ".toList ++ w, []]).2 = [newEvent w] := by
  have h1 : processLine fresh ("data: ".toList ++ w) = ({ fresh with cur := { fresh.cur with data := w } }, none) := by
    unfold processLine
    rw [if_neg (by simp), if_neg (by simp)]
    simp only [fieldValue_data]
    rw [if_neg (by decide), if_pos trivial, if_pos (show fresh.cur.data = [] from rfl)]
  simp only [processLines, h1]
  have h2 : processLine { fresh with cur := { fresh.cur with data := w } } [] =
      ({ fresh with cur := {} }, some (newEvent w)) := by
    unfold processLine
    rw [if_pos rfl]
    unfold dispatch
    rw [if_neg hw]
    rfl
  rw [h2]
  rfl

theorem extract_data_crlf (v post : Text) (hp : post = ['\r', '\n']) :
    extractLine ("data: ".toList ++ v ++ ['\r'] ++ '\n' :: post) ("data: ".toList ++ v ++ ['\r']) =
      some ("data: ".toList ++ (if byteLen v = v.length ∨ byteLen v = v.length + 2 then v else v ++ ['\r'])) := by
  subst hp
  have hb : byteLen ("data: ".toList ++ v ++ ['\r']) = 7 + byteLen v := by
    rw [byteLen_append, byteLen_append]
    have h1 : byteLen "data: ".toList = 6 := by decide
    have h2 : byteLen ['\r'] = 1 := by decide
    omega
  have hle := length_le_byteLen v
  have hslice : sliceTo ("data: ".toList ++ v ++ ['\r'] ++ '\n' :: ['\r', '\n']) (7 + byteLen v - 1) =
      some ("data: ".toList ++ v) := by
    have : 7 + byteLen v - 1 = byteLen ("data: ".toList ++ v) := by
      rw [byteLen_append]
      have h1 : byteLen "data: ".toList = 6 := by decide
      omega
    rw [this, List.append_assoc, sliceTo_byteLen]
  have hidx : ("data: ".toList ++ v ++ ['\r'] ++ '\n' :: ['\r', '\n'])[7 + byteLen v - 1]? =
      (['\r', '\n', '\r', '\n'] : Text)[byteLen v - v.length]? := by
    have e : "data: ".toList ++ v ++ ['\r'] ++ '\n' :: ['\r', '\n'] = ("data: ".toList ++ v) ++ ['\r', '\n', '\r', '\n'] := by
      simp
    have hl : ("data: ".toList ++ v).length = 6 + v.length := by simp; omega
    rw [e, List.getElem?_append_right (by omega), hl]
    congr 1
    omega
  unfold extractLine
  simp only
  rw [hb, hslice, hidx]
  obtain ⟨x, hx⟩ : ∃ x, byteLen v = v.length + x := ⟨byteLen v - v.length, by omega⟩
  rw [hx]
  simp only [Nat.add_sub_cancel_left]
  generalize "data: ".toList = d
  have hpos : 7 + (v.length + x) > 0 := by omega
  match x with
  | 0 => rw [if_pos ⟨hpos, rfl⟩, if_pos (.inl rfl)]
  | 1 => rw [if_neg (fun h => absurd h.2 (by decide)), if_neg (by omega), List.append_assoc]
  | 2 => rw [if_pos ⟨hpos, rfl⟩, if_pos (.inr rfl)]
  | 3 => rw [if_neg (fun h => absurd h.2 (by decide)), if_neg (by omega), List.append_assoc]
  | n + 4 => rw [if_neg (fun h => absurd h.2 nofun), if_neg (by omega), List.append_assoc]

/-- **C243, exactly, for one event fed at once**: the data sent with carriage returns and line feeds arrives as it was sent
if and only if it has no bytes beyond one per character, or exactly two; otherwise a carriage return is appended to it. -/
theorem C243_at_once (v : Text) (hn : '\n' ∉ v) (hv : v ≠ []) :
    (feed fresh (crlfOf ["data: ".toList ++ v, []])).map (·.2) =
      some [newEvent (if byteLen v = v.length ∨ byteLen v = v.length + 2 then v else v ++ ['\r'])] := by
  rw [feed_lines]
  have e : fresh.buffer ++ crlfOf ["data: ".toList ++ v, []] =
      ("data: ".toList ++ v ++ ['\r']) ++ '\n' :: ['\r', '\n'] := by
    simp [crlfOf, fresh]
  have hnl : '\n' ∉ "data: ".toList ++ v ++ ['\r'] := by simp [hn]
  rw [e, takeLines_eq, Str.splitOnce_append hnl]
  simp only
  rw [extract_data_crlf v _ rfl]
  have h2 : takeLines ['\r', '\n'] = some ([[]], []) := by decide +kernel
  simp only [h2, Option.map_some, interpret]
  rw [data_event]
  split
  · exact hv
  · simp

/-- **C243** is false: a word with one accent, sent with carriage returns, arrives with one of them. -/
theorem C243_cr_in_data :
    (feed fresh (crlfOf ["data: é".toList, []])).map (·.2) = some [newEvent "é\r".toList] ∧
    (feed fresh (textOf ["data: é".toList, []])).map (·.2) = some [newEvent "é".toList] := by
  decide +kernel

/-- A stream of two events with line ends of both kinds. -/
example : feedAll fresh [crlfOf ["id: 1".toList, "data: a".toList, [], "data: b".toList, []]] =
    feedAll fresh [textOf ["id: 1".toList, "data: a".toList, [], "data: b".toList, []]] :=
  C243_ascii_partial fresh rfl ["id: 1".toList, "data: a".toList, [], "data: b".toList, []] _ _
    (by decide) (by decide) (by simp) (by simp)

/-- Two accents cancel the mistake, one and three do not. -/
example : (feed fresh (crlfOf ["data: éé".toList, []])).map (·.2) = some [newEvent "éé".toList] ∧
    (feed fresh (crlfOf ["data: ééé".toList, []])).map (·.2) = some [newEvent "ééé\r".toList] :=
  ⟨C243_at_once "éé".toList (by decide) (by decide), C243_at_once "ééé".toList (by decide) (by decide)⟩

/-- The id is not spared. -/
example : (feedAll fresh ((crlfOf ["id: é".toList, "data: a".toList, []]).map (fun c => [c]))).map (fun r => r.1.lastId) =
    some (some "é\r".toList) := by
  rw [C243_kept fresh rfl _ (by decide)]
  decide +kernel

/-- Lines that are not all ASCII. -/
example : ¬ ∀ l ∈ ["data: é".toList, []], ∀ c ∈ l, c.toNat < 128 := by decide

end Verif.Sse
