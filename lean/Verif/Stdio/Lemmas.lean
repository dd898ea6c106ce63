import Verif.Stdio.Model
import Verif.Common.ListExtra

namespace Verif.Stdio

theorem encode_ascii {s : List Char} (h : ∀ c ∈ s, c.toNat < 128) : Utf8.encode s = s.map Char.toNat := by
  induction s with
  | nil => rfl
  | cons c s ih =>
    have h1 := Utf8.encodeChar_ascii (h c List.mem_cons_self)
    have h2 := ih (fun x hx => h x (List.mem_cons_of_mem _ hx))
    simp only [Utf8.encode, List.flatMap_cons, List.map_cons] at h2 ⊢
    rw [h1, h2]; rfl

theorem readLine_line {a b : List Nat} (h : 10 ∉ a) : readLine (a ++ 10 :: b) = (a ++ [10], b) := by
  induction a with
  | nil => simp [readLine]
  | cons x a ih =>
    have hx : x ≠ 10 := fun e => h (by simp [e])
    have ha : 10 ∉ a := fun e => h (by simp [e])
    simp [readLine, hx, ih ha]

theorem header_ascii : ∀ c ∈ header, c.toNat < 128 := by decide

theorem headerLine_ascii (n : Nat) : ∀ c ∈ header ++ Decimal.showNat n, c.toNat < 128 := by
  intro c hc
  rcases List.mem_append.mp hc with hc | hc
  · exact header_ascii c hc
  · have := Decimal.showNat_all_digits n c hc; omega

theorem digit_not_ws {c : Char} (h : 48 ≤ c.toNat ∧ c.toNat ≤ 57) : Str.isWs c = false := by
  have h1 : ∀ n : Nat, 48 ≤ n ∧ n ≤ 57 →
      ((9 ≤ n && n ≤ 13) || n == 0x20 || n == 0x85 || n == 0xA0 || n == 0x1680 ||
      (0x2000 ≤ n && n ≤ 0x200A) || n == 0x2028 || n == 0x2029 || n == 0x202F || n == 0x205F ||
      n == 0x3000) = false := by
    intro n hn
    simp only [Bool.or_eq_false_iff, Bool.and_eq_false_iff, beq_eq_false_iff_ne,
      decide_eq_false_iff_not]
    omega
  exact h1 _ h

theorem trim_showNat (n : Nat) : Str.trim (Decimal.showNat n) = Decimal.showNat n := by
  apply Str.trim_of_ends
  · intro x hx
    exact digit_not_ws (Decimal.showNat_all_digits n x (List.mem_of_head? hx))
  · intro x hx
    exact digit_not_ws (Decimal.showNat_all_digits n x (List.mem_of_getLast? hx))

theorem trim_headerLine (n : Nat) (w : List Char) (hw : ∀ x ∈ w, Str.isWs x = true) :
    Str.trim (header ++ Decimal.showNat n ++ w) = header ++ Decimal.showNat n := by
  have h := Str.trim_pad [] (header ++ Decimal.showNat n) w (by simp) hw
  rw [List.nil_append] at h
  rw [h]
  apply Str.trim_of_ends
  · intro x hx
    have : (header ++ Decimal.showNat n).head? = some 'C' := rfl
    rw [this] at hx
    cases hx; decide
  · intro x hx
    rw [List.getLast?_append] at hx
    have hne := Decimal.showNat_ne_nil n
    cases hl : (Decimal.showNat n).getLast? with
    | none => exact absurd (List.getLast?_eq_none_iff.mp hl) hne
    | some y =>
      rw [hl] at hx
      cases hx
      exact digit_not_ws (Decimal.showNat_all_digits n _ (List.mem_of_getLast? hl))

theorem parse_headerLine {n : Nat} (h : n < usizeLimit) :
    parseContentLength (header ++ Decimal.showNat n) = some n := by
  unfold parseContentLength
  rw [Str.stripPrefix_append]
  simp only [Option.bind_some]
  rw [trim_showNat, Decimal.parseUnsigned_showNat h]

theorem frame_eq (body : List Nat) : frame body =
    (Utf8.encode (header ++ Decimal.showNat body.length) ++ [13]) ++ 10 :: ([13] ++ 10 :: body) := by
  simp [frame]

theorem no_nl_header (n : Nat) : 10 ∉ Utf8.encode (header ++ Decimal.showNat n) ++ [13] := by
  rw [encode_ascii (headerLine_ascii n)]
  simp only [List.mem_append, List.mem_map, List.mem_singleton, not_or]
  refine ⟨?_, by omega⟩
  rintro ⟨c, hc, he⟩
  rcases hc with hc | hc
  · have : ∀ c ∈ header, c.toNat ≠ 10 := by decide
    exact this c hc he
  · have := Decimal.showNat_all_digits n c hc; omega

theorem decode_ascii {b : List Nat} {s : List Char} (h : b = Utf8.encode s) :
    Utf8.decode b = some s := by rw [h]; exact Utf8.decode_encode s

/-- Reading the headers of a frame. -/
theorem readHeaders_frame (body rest : List Nat) (h : body.length < usizeLimit) (l : Option Nat) :
    readHeaders (frame body ++ rest) l = (.ok body.length, body ++ rest) := by
  have hf : frame body ++ rest =
      (Utf8.encode (header ++ Decimal.showNat body.length) ++ [13]) ++ 10 ::
        ([13] ++ 10 :: (body ++ rest)) := by simp [frame_eq]
  rw [hf, readHeaders.eq_def]
  have hl1 := readLine_line (b := [13] ++ 10 :: (body ++ rest)) (no_nl_header body.length)
  rw [dif_neg (by simp), hl1]
  have hd1 : Utf8.decode (Utf8.encode (header ++ Decimal.showNat body.length) ++ [13] ++ [10]) =
      some (header ++ Decimal.showNat body.length ++ ['\r', '\n']) := by
    apply decode_ascii
    rw [Utf8.encode_append (header ++ Decimal.showNat body.length) ['\r', '\n'], List.append_assoc]
    rfl
  simp only [hd1]
  rw [trim_headerLine _ _ (by decide)]
  have hne : header ++ Decimal.showNat body.length ≠ [] := by
    intro e
    exact absurd (List.append_eq_nil_iff.mp e).1 (by decide)
  rw [if_neg hne, parse_headerLine h]
  simp only
  rw [readHeaders.eq_def]
  have hl2 := readLine_line (a := [13]) (b := body ++ rest) (by decide)
  rw [dif_neg (by simp), hl2]
  have hd2 : Utf8.decode ([13] ++ [10]) = some ['\r', '\n'] := decode_ascii (by decide)
  simp only [hd2]
  rw [if_pos (by decide)]

end Verif.Stdio
