import Verif.Stdio.Props

/-
C241: what a failed receive over stdio says, for every input.
-/

namespace Verif.Stdio

variable {Msg : Type}

/-! ### Specification -/

/-- White space only. (Specification: no counterpart in the code.) -/
def Blank (l : List Char) : Prop := ∀ c ∈ l, Str.isWs c = true

/-- A header line that gives the length `n`. (Specification: no counterpart in the code.) -/
def Announces (l : List Char) (n : Nat) : Prop :=
  ∃ v ds, Str.trim l = "Content-Length: ".toList ++ v ∧ (Str.trim v = ds ∨ Str.trim v = '+' :: ds) ∧
    ds ≠ [] ∧ (∀ c ∈ ds, IsDigit c) ∧ value ds = n ∧ n < 2 ^ 64

/-- The length given by header lines: the last one counts. (Specification: no counterpart in the code.) -/
def Given (ls : List (List Char)) : Option Nat → Prop
  | none => ∀ l ∈ ls, ∀ n, ¬ Announces l n
  | some n => ∃ a l b, ls = a ++ l :: b ∧ Announces l n ∧ ∀ x ∈ b, ∀ k, ¬ Announces x k

/-- What follows the header lines that are neither blank nor garbled. (Specification: no counterpart in the code.) -/
inductive Stop where
  /-- nothing -/
  | eof
  /-- a line without its line feed, then nothing -/
  | half (l : List Char)
  /-- a line that is not UTF-8 -/
  | garbled (g rest : List Nat)
  /-- the same without its line feed -/
  | garbledEnd (g : List Nat)
  /-- a blank line -/
  | blank (w : List Char) (rest : List Nat)
  /-- the same without its line feed -/
  | blankEnd (w : List Char)

/-- Its bytes. (Specification: no counterpart in the code.) -/
def Stop.bytes : Stop → List Nat
  | .eof => []
  | .half l => Utf8.encode l
  | .garbled g rest => g ++ 10 :: rest
  | .garbledEnd g => g
  | .blank w rest => Utf8.encode w ++ 10 :: rest
  | .blankEnd w => Utf8.encode w

/-- Its parts are what they are called. (Specification: no counterpart in the code.) -/
def Stop.Ok : Stop → Prop
  | .eof => True
  | .half l => '\n' ∉ l ∧ ¬ Blank l
  | .garbled g _ => 10 ∉ g ∧ Utf8.decode (g ++ [10]) = none
  | .garbledEnd g => 10 ∉ g ∧ Utf8.decode g = none
  | .blank w _ => '\n' ∉ w ∧ Blank w
  | .blankEnd w => '\n' ∉ w ∧ Blank w ∧ w ≠ []

/-- Header lines that are neither blank nor garbled. (Specification: no counterpart in the code.) -/
def headBytes (ls : List (List Char)) : List Nat := ls.flatMap (fun l => Utf8.encode l ++ [10])

/-- The outcome of a body of length `n` expected in `rest`. (Specification: no counterpart in the code.) -/
def bodyCause (parse : List Nat → Option Msg) (n : Nat) (rest : List Nat) : Recv Msg :=
  if 2 ^ 63 ≤ n then .panic
  else if rest.length < n then .io
  else match parse (rest.take n) with
    | some m => .ok m
    | none => .invalid

/-- What a receive should say. (Specification: no counterpart in the code.) -/
def cause (parse : List Nat → Option Msg) (n : Option Nat) : Stop → Recv Msg
  | .eof => .closed
  | .half _ => .closed
  | .garbled _ _ => .io
  | .garbledEnd _ => .io
  | .blank _ rest => match n with
    | none => .missingLength
    | some n => bodyCause parse n rest
  | .blankEnd _ => match n with
    | none => .missingLength
    | some n => bodyCause parse n []

/-- The same kind of result, with an optional message. (Specification: no counterpart in the code.) -/
def Recv.lift : Recv Msg → Recv (Option Msg)
  | .ok m => .ok (some m)
  | .closed => .closed
  | .io => .io
  | .missingLength => .missingLength
  | .invalid => .invalid
  | .panic => .panic

/-! ### Lemmas -/

theorem trim_nil_iff (l : List Char) : Str.trim l = [] ↔ Blank l := by
  constructor
  · intro h c hc
    unfold Str.trim Str.trimEnd at h
    have h1 : ∀ x ∈ Str.trimStart l, Str.isWs x = true := by
      have := List.reverse_eq_nil_iff.mp h
      intro x hx
      exact Str.dropWhile_nil_iff.mp this x (List.mem_reverse.mpr hx)
    have h2 : Str.trimStart l = [] := by
      cases ht : Str.trimStart l with
      | nil => rfl
      | cons x r =>
        have hx := h1 x (by rw [ht]; exact List.mem_cons_self)
        have := List.head?_dropWhile_not Str.isWs l
        unfold Str.trimStart at ht
        rw [ht] at this
        simp only [List.head?_cons] at this
        rw [hx] at this
        cases this
    exact Str.dropWhile_nil_iff.mp h2 c hc
  · intro h
    have := Str.trim_pad l [] [] h (fun x hx => by cases hx)
    simpa [Str.trim, Str.trimStart, Str.trimEnd] using this

theorem trim_nl (l : List Char) : Str.trim (l ++ ['\n']) = Str.trim l := by
  have := Str.trim_pad [] l ['\n'] (fun x hx => by cases hx) (fun x hx => by rw [List.mem_singleton.mp hx]; decide)
  simpa using this

theorem announces_iff (l : List Char) (n : Nat) : parseContentLength (Str.trim l) = some n ↔ Announces l n :=
  C09_parse_iff _ _

theorem announces_none (l : List Char) : parseContentLength (Str.trim l) = none ↔ ∀ n, ¬ Announces l n := by
  constructor
  · intro h n ha
    rw [(announces_iff l n).mpr ha] at h
    cases h
  · intro h
    cases hp : parseContentLength (Str.trim l) with
    | none => rfl
    | some n => exact absurd ((announces_iff l n).mp hp) (h n)

theorem readLine_no_nl {a : List Nat} (h : 10 ∉ a) : readLine a = (a, []) := by
  induction a with
  | nil => rfl
  | cons x a ih =>
    have hx : x ≠ 10 := fun e => h (by simp [e])
    have ha : 10 ∉ a := fun e => h (by simp [e])
    simp [readLine, hx, ih ha]

theorem encode_nl (l : List Char) : Utf8.encode l ++ [10] = Utf8.encode (l ++ ['\n']) := by
  rw [Utf8.encode_append]; rfl

/-- The length after some more header lines. (Specification: no counterpart in the code.) -/
def lengthAfter (n : Option Nat) (ls : List (List Char)) : Option Nat :=
  ls.foldl (fun n l => (parseContentLength (Str.trim l)).or n) n

theorem readHeaders_lines (ls : List (List Char)) (hl : ∀ l ∈ ls, '\n' ∉ l ∧ ¬ Blank l) (t : List Nat)
    (n : Option Nat) : readHeaders (headBytes ls ++ t) n = readHeaders t (lengthAfter n ls) := by
  induction ls generalizing n with
  | nil => rfl
  | cons l ls ih =>
    obtain ⟨h1, h2⟩ := hl l List.mem_cons_self
    have he : headBytes (l :: ls) ++ t = Utf8.encode l ++ 10 :: (headBytes ls ++ t) := by simp [headBytes]
    rw [readHeaders.eq_def, he, readLine_line (nl_not_in_encode h1), dif_neg (by simp)]
    have hd : Utf8.decode (Utf8.encode l ++ [10]) = some (l ++ ['\n']) := by
      rw [encode_nl]; exact Utf8.decode_encode _
    simp only [hd, trim_nl]
    rw [if_neg (fun h => h2 ((trim_nil_iff l).mp h))]
    have := ih (fun x hx => hl x (List.mem_cons_of_mem _ hx)) ((parseContentLength (Str.trim l)).or n)
    rw [show lengthAfter n (l :: ls) = lengthAfter ((parseContentLength (Str.trim l)).or n) ls from rfl, ← this]
    congr 1
    cases parseContentLength (Str.trim l) <;> rfl

theorem lengthAfter_given (ls : List (List Char)) : Given ls (lengthAfter none ls) := by
  induction ls using snocInduction with
  | nil => intro l hl; cases hl
  | append_singleton ls l ih =>
    have he : lengthAfter none (ls ++ [l]) = (parseContentLength (Str.trim l)).or (lengthAfter none ls) := by
      simp [lengthAfter]
    rw [he]
    cases hp : parseContentLength (Str.trim l) with
    | some n => exact ⟨ls, l, [], rfl, (announces_iff l n).mp hp, fun x hx => by cases hx⟩
    | none =>
      have hn := (announces_none l).mp hp
      rw [Option.none_or]
      cases hg : lengthAfter none ls with
      | none =>
        rw [hg] at ih
        intro x hx
        rcases List.mem_append.mp hx with hx | hx
        · exact ih x hx
        · rw [List.mem_singleton.mp hx]; exact hn
      | some n =>
        rw [hg] at ih
        obtain ⟨a, y, b, rfl, h1, h2⟩ := ih
        refine ⟨a, y, b ++ [l], by simp, h1, fun x hx => ?_⟩
        rcases List.mem_append.mp hx with hx | hx
        · exact h2 x hx
        · rw [List.mem_singleton.mp hx]; exact hn

theorem given_unique (ls : List (List Char)) (n : Option Nat) (h : Given ls n) : n = lengthAfter none ls := by
  have fold : ∀ (b : List (List Char)) (m : Option Nat), (∀ x ∈ b, ∀ k, ¬ Announces x k) → lengthAfter m b = m := by
    intro b
    induction b with
    | nil => intro m _; rfl
    | cons x b ih =>
      intro m hb
      show lengthAfter ((parseContentLength (Str.trim x)).or m) b = m
      rw [(announces_none x).mpr (hb x List.mem_cons_self), Option.none_or]
      exact ih m (fun y hy => hb y (List.mem_cons_of_mem _ hy))
  cases n with
  | none => exact (fold ls none h).symm
  | some n =>
    obtain ⟨a, l, b, rfl, h1, h2⟩ := h
    have : lengthAfter none (a ++ l :: b) =
        lengthAfter ((parseContentLength (Str.trim l)).or (lengthAfter none a)) b := by
      simp [lengthAfter]
    rw [this, (announces_iff l n).mpr h1, Option.some_or, fold b _ h2]

theorem first_nl {input : List Nat} (hm : 10 ∈ input) : ∃ g rest, input = g ++ 10 :: rest ∧ 10 ∉ g := by
  induction input with
  | nil => cases hm
  | cons x t iht =>
    by_cases hx : x = 10
    · exact ⟨[], t, by rw [hx]; rfl, by simp⟩
    · obtain ⟨g, rest, h1, h2⟩ := iht (by
        rcases List.mem_cons.mp hm with h | h
        · exact absurd h.symm hx
        · exact h)
      refine ⟨x :: g, rest, by rw [h1]; rfl, fun h => ?_⟩
      rcases List.mem_cons.mp h with h | h
      · exact hx h.symm
      · exact h2 h

theorem ends_nl {g : List Nat} {s : List Char} (h : g ++ [10] = Utf8.encode s) : ∃ l, s = l ++ ['\n'] := by
  rcases List.eq_nil_or_concat s with rfl | ⟨l, c, rfl⟩
  · simp [Utf8.encode] at h
  · rw [List.concat_eq_append, Utf8.encode_append] at h
    have hl : (Utf8.encode [c]).getLast? = some 10 := by
      have := congrArg List.getLast? h
      rw [List.getLast?_append, List.getLast?_append] at this
      simp only [List.getLast?_singleton, Option.some_or] at this
      cases hc : (Utf8.encode [c]).getLast? with
      | none =>
        rw [List.getLast?_eq_none_iff] at hc
        simp [Utf8.encode, Utf8.encodeChar, Utf8.encodeNat_ne_nil] at hc
      | some x => rw [hc] at this; exact this.symm
    have hc : c.toNat = 10 := by
      simp only [Utf8.encode, List.flatMap_cons, List.flatMap_nil, List.append_nil] at hl
      unfold Utf8.encodeChar Utf8.encodeNat at hl
      (repeat' split at hl) <;> simp at hl <;> omega
    exact ⟨l, by rw [List.concat_eq_append, show c = '\n' from Char.toNat_inj.mp hc]⟩

/-! ### C241 -/

/-- C241: every input is header lines followed by one of the six things. -/
theorem C241_split (input : List Nat) :
    ∃ ls e, (∀ l ∈ ls, '\n' ∉ l ∧ ¬ Blank l) ∧ e.Ok ∧ input = headBytes ls ++ Stop.bytes e := by
  induction hk : input.length using Nat.strongRecOn generalizing input with
  | ind k ih =>
    by_cases h0 : input = []
    · exact ⟨[], .eof, (fun l hl => by cases hl), trivial, h0⟩
    by_cases hm : 10 ∈ input
    · obtain ⟨g, rest, rfl, hg⟩ := first_nl hm
      cases hd : Utf8.decode (g ++ [10]) with
      | none => exact ⟨[], .garbled g rest, (fun l hl => by cases hl), ⟨hg, hd⟩, rfl⟩
      | some s =>
        have he := Utf8.encode_of_decode hd
        obtain ⟨l, hl⟩ := ends_nl he
        subst hl
        rw [← encode_nl] at he
        have hgl : g = Utf8.encode l := List.append_cancel_right he
        have hnl : '\n' ∉ l := by
          intro h
          apply hg
          rw [hgl]
          exact List.mem_flatMap.mpr ⟨'\n', h, by decide⟩
        by_cases hb : Blank l
        · exact ⟨[], .blank l rest, (fun l hl => by cases hl), ⟨hnl, hb⟩, by rw [hgl]; rfl⟩
        · obtain ⟨ls, e, h1, h2, h3⟩ := ih rest.length (by subst hk; simp; omega) rest rfl
          refine ⟨l :: ls, e, ?_, h2, ?_⟩
          · intro x hx
            rcases List.mem_cons.mp hx with rfl | hx
            · exact ⟨hnl, hb⟩
            · exact h1 x hx
          · rw [hgl, h3]
            simp [headBytes]
    · cases hd : Utf8.decode input with
      | none => exact ⟨[], .garbledEnd input, (fun l hl => by cases hl), ⟨hm, hd⟩, rfl⟩
      | some l =>
        have he := Utf8.encode_of_decode hd
        have hnl : '\n' ∉ l := by
          intro h
          apply hm
          rw [he]
          exact List.mem_flatMap.mpr ⟨'\n', h, by decide⟩
        by_cases hb : Blank l
        · refine ⟨[], .blankEnd l, (fun l hl => by cases hl), ⟨hnl, hb, ?_⟩, by rw [he]; rfl⟩
          rintro rfl
          exact h0 he
        · exact ⟨[], .half l, (fun l hl => by cases hl), ⟨hnl, hb⟩, by rw [he]; rfl⟩

example : Stop.bytes (.blank ['\r'] [1, 2]) = [13, 10, 1, 2] ∧ (Stop.blank ['\r'] [1, 2]).Ok :=
  ⟨by decide, by decide, by intro c hc; rw [List.mem_singleton.mp hc]; decide⟩

theorem readHeaders_stop (e : Stop) (he : e.Ok) (n : Option Nat) :
    readHeaders e.bytes n = match e with
      | .eof => (.closed, [])
      | .half _ => (.closed, [])
      | .garbled _ rest => (.io, rest)
      | .garbledEnd _ => (.io, [])
      | .blank _ rest => (match n with | some n => .ok n | none => .missingLength, rest)
      | .blankEnd _ => (match n with | some n => .ok n | none => .missingLength, []) := by
  cases e with
  | eof => rw [readHeaders.eq_def]; rfl
  | half l =>
    obtain ⟨h1, h2⟩ := he
    have hne : Utf8.encode l ≠ [] := by
      intro h
      have := Utf8.decode_encode l
      rw [h] at this
      have : l = [] := Option.some.inj (this.symm.trans (Utf8.decode_encode []))
      subst this
      exact h2 (fun c hc => by cases hc)
    simp only [Stop.bytes]
    rw [readHeaders.eq_def, dif_neg hne, readLine_no_nl (nl_not_in_encode h1)]
    simp only [Utf8.decode_encode]
    rw [if_neg (fun h => h2 ((trim_nil_iff l).mp h)), readHeaders.eq_def]
    rfl
  | garbled g rest =>
    obtain ⟨h1, h2⟩ := he
    simp only [Stop.bytes]
    rw [readHeaders.eq_def, dif_neg (by simp), readLine_line h1]
    simp only [h2]
  | garbledEnd g =>
    obtain ⟨h1, h2⟩ := he
    have hne : g ≠ [] := by
      rintro rfl
      have := Utf8.decode_encode []
      rw [show Utf8.encode [] = [] from rfl, h2] at this
      cases this
    simp only [Stop.bytes]
    rw [readHeaders.eq_def, dif_neg hne, readLine_no_nl h1]
    simp only [h2]
  | blank w rest =>
    obtain ⟨h1, h2⟩ := he
    simp only [Stop.bytes]
    rw [readHeaders.eq_def, dif_neg (by simp), readLine_line (nl_not_in_encode h1), encode_nl]
    simp only [Utf8.decode_encode, trim_nl]
    rw [if_pos ((trim_nil_iff w).mpr h2)]
    cases n <;> rfl
  | blankEnd w =>
    obtain ⟨h1, h2, h3⟩ := he
    have hne : Utf8.encode w ≠ [] := by
      intro h
      have := Utf8.decode_encode w
      rw [h] at this
      exact h3 (Option.some.inj (this.symm.trans (Utf8.decode_encode [])))
    simp only [Stop.bytes]
    rw [readHeaders.eq_def, dif_neg hne, readLine_no_nl (nl_not_in_encode h1)]
    simp only [Utf8.decode_encode]
    rw [if_pos ((trim_nil_iff w).mpr h2)]
    cases n <;> rfl

/-- What is left unread. (Specification: no counterpart in the code.) -/
def left (n : Option Nat) : Stop → List Nat
  | .garbled _ rest => rest
  | .blank _ rest => match n with
    | none => rest
    | some n => if 2 ^ 63 ≤ n then rest else rest.drop n
  | _ => []

/-- The transport is closed by the end of the input among the headers. (Specification: no counterpart in the code.) -/
def ends : Stop → Bool
  | .eof => true
  | .half _ => true
  | _ => false

/-- C241: what a receive says, and what it leaves, for every input (`C241_split`). -/
theorem C241_cause (parse : List Nat → Option Msg) (ls : List (List Char)) (hl : ∀ l ∈ ls, '\n' ∉ l ∧ ¬ Blank l)
    (e : Stop) (he : e.Ok) (n : Option Nat) (hn : Given ls n) (out : List Nat) :
    receive parse ⟨headBytes ls ++ e.bytes, out, false⟩ = (⟨left n e, out, ends e⟩, cause parse n e) ∧
      step parse ⟨headBytes ls ++ e.bytes, out, false⟩ .receive =
        (⟨left n e, out, ends e⟩, (cause parse n e).lift) := by
  have h1 : receive parse ⟨headBytes ls ++ e.bytes, out, false⟩ = (⟨left n e, out, ends e⟩, cause parse n e) := by
    have hbody : ∀ k rest, readBody k rest =
        if 2 ^ 63 ≤ k then (.panic, rest) else if rest.length < k then (.io, []) else
          (.ok (rest.take k), rest.drop k) := by
      intro k rest
      unfold readBody
      have : k > maxAlloc ↔ 2 ^ 63 ≤ k := by unfold maxAlloc; omega
      by_cases hk : 2 ^ 63 ≤ k
      · rw [if_pos (this.mpr hk), if_pos hk]
      · rw [if_neg (fun h => hk (this.mp h)), if_neg hk]
    unfold receive
    simp only [Bool.false_eq_true, if_false]
    rw [readHeaders_lines ls hl, ← given_unique ls n hn, readHeaders_stop e he]
    have key : ∀ k rest, (match readBody k rest with
        | (.ok body, rest') => (⟨rest', out, false⟩, match parse body with | some m => Recv.ok m | none => .invalid)
        | (.io, rest') => (⟨rest', out, false⟩, .io)
        | (.panic, rest') => (⟨rest', out, false⟩, .panic)
        | (.closed, rest') => (⟨rest', out, false⟩, .closed)
        | (.missingLength, rest') => (⟨rest', out, false⟩, .missingLength)
        | (.invalid, rest') => (⟨rest', out, false⟩, .invalid)) =
        ((⟨if 2 ^ 63 ≤ k then rest else rest.drop k, out, false⟩, bodyCause parse k rest) : State × Recv Msg) := by
      intro k rest
      rw [hbody, bodyCause]
      by_cases hk : 2 ^ 63 ≤ k
      · rw [if_pos hk, if_pos hk, if_pos hk]
      · rw [if_neg hk, if_neg hk, if_neg hk]
        by_cases hr : rest.length < k
        · rw [if_pos hr, if_pos hr, List.drop_eq_nil_of_le (by omega)]
        · rw [if_neg hr, if_neg hr]
    cases e with
    | eof => rfl
    | half l => rfl
    | garbled g rest => rfl
    | garbledEnd g => rfl
    | blank w rest =>
      cases n with
      | none => rfl
      | some n => exact key n rest
    | blankEnd w =>
      cases n with
      | none => rfl
      | some n =>
        have := key n []
        simp only [List.drop_nil, ite_self] at this
        exact this
  refine ⟨h1, ?_⟩
  unfold step
  simp only
  rw [h1]
  cases cause parse n e <;> rfl

/-- An HTTP header line, then a length, then a blank line. -/
example : Given ["Content-Type: x".toList, "Content-Length: 2".toList] (some 2) ∧
    cause (Msg := List Nat) some (some 2) (.blank ['\r'] [7, 8, 9]) = .ok [7, 8] :=
  ⟨⟨["Content-Type: x".toList], _, [], rfl, (announces_iff _ _).mp (by decide), fun x hx => by cases hx⟩, by decide⟩

/-- C241: "Missing Content-Length header" is said exactly if the header lines before the blank one give no length. -/
theorem C241_missing_iff (parse : List Nat → Option Msg) (input out : List Nat) :
    (receive parse ⟨input, out, false⟩).2 = .missingLength ↔
      ∃ ls w, (∀ l ∈ ls, '\n' ∉ l ∧ ¬ Blank l) ∧ '\n' ∉ w ∧ Blank w ∧ (∀ l ∈ ls, ∀ n, ¬ Announces l n) ∧
        ((∃ rest, input = headBytes ls ++ (Utf8.encode w ++ 10 :: rest)) ∨
          (w ≠ [] ∧ input = headBytes ls ++ Utf8.encode w)) := by
  constructor
  · intro h
    obtain ⟨ls, e, h1, h2, rfl⟩ := C241_split input
    have hg := lengthAfter_given ls
    have hc := (C241_cause parse ls h1 e h2 _ hg out).1
    rw [hc] at h
    simp only at h
    have nb : ∀ k rest, bodyCause parse k rest ≠ .missingLength := by
      intro k rest hb
      unfold bodyCause at hb
      repeat' split at hb
      all_goals cases hb
    cases e with
    | eof => cases h
    | half l => cases h
    | garbled g rest => cases h
    | garbledEnd g => cases h
    | blank w rest =>
      cases hn : lengthAfter none ls with
      | some n => rw [hn] at h; exact absurd h (nb _ _)
      | none => rw [hn] at hg; exact ⟨ls, w, h1, h2.1, h2.2, hg, Or.inl ⟨rest, rfl⟩⟩
    | blankEnd w =>
      cases hn : lengthAfter none ls with
      | some n => rw [hn] at h; exact absurd h (nb _ _)
      | none => rw [hn] at hg; exact ⟨ls, w, h1, h2.1, h2.2.1, hg, Or.inr ⟨h2.2.2, rfl⟩⟩
  · rintro ⟨ls, w, h1, h2, h3, h4, ⟨rest, rfl⟩ | ⟨h5, rfl⟩⟩
    · have := (C241_cause parse ls h1 (.blank w rest) ⟨h2, h3⟩ none h4 out).1
      exact congrArg Prod.snd this
    · have := (C241_cause parse ls h1 (.blankEnd w) ⟨h2, h3, h5⟩ none h4 out).1
      exact congrArg Prod.snd this

example : (receive (Msg := List Nat) some (init [65, 10, 10])).2 = .missingLength := by decide +kernel

/-- The name of a header line, without regard to case. (Specification: no counterpart in the code.) -/
def lineName (l : List Char) : List Char := (l.takeWhile (· ≠ ':')).map Char.toLower

/-- C241 (refuted): "Missing Content-Length header" is said of messages that have one: with the name in lower case,
without a space behind the colon, or with a value that is no number. -/
theorem C241_missing_but_there : ∀ l ∈ ["content-length: 2".toList, "Content-Length:2".toList,
    "Content-Length: two".toList, "Content-Length: -2".toList],
    lineName l = "content-length".toList ∧
    (receive (Msg := List Nat) some (init (Utf8.encode l ++ [13, 10, 13, 10] ++ [123, 125]))).2 = .missingLength := by
  decide +kernel

/-- C241 (partial: if every line so named is written as the sender of this crate writes it): the header is said to be
missing only if it is. -/
theorem C241_missing_partial (parse : List Nat → Option Msg) (ls : List (List Char))
    (hl : ∀ l ∈ ls, '\n' ∉ l ∧ ¬ Blank l) (e : Stop) (he : e.Ok) (out : List Nat)
    (hok : ∀ l ∈ ls, lineName l = "content-length".toList → ∃ n, Announces l n)
    (h : (receive parse ⟨headBytes ls ++ e.bytes, out, false⟩).2 = .missingLength) :
    ∀ l ∈ ls, lineName l ≠ "content-length".toList := by
  intro l hm hname
  obtain ⟨n, hn⟩ := hok l hm hname
  have hg := lengthAfter_given ls
  rw [(C241_cause parse ls hl e he _ hg out).1] at h
  have nb : ∀ k rest, bodyCause parse k rest ≠ .missingLength := by
    intro k rest hb
    unfold bodyCause at hb
    repeat' split at hb
    all_goals cases hb
  cases hk : lengthAfter none ls with
  | none => rw [hk] at hg; exact hg l hm n hn
  | some k =>
    rw [hk] at h
    cases e with
    | blank w rest => exact nb _ _ h
    | blankEnd w => exact nb _ _ h
    | _ => cases h

example : lineName "Content-Length: 7".toList = "content-length".toList ∧ Announces "Content-Length: 7".toList 7 :=
  ⟨by decide, (announces_iff _ _).mp (by decide)⟩

/-- C241 (refuted): the end of the input is told in two ways: among the headers as a closed connection, within a body
as an input error that leaves the transport open. -/
theorem C241_two_ends (parse : List Nat → Option Msg) (n : Nat) (h2 : n < 2 ^ 63) (rest : List Nat)
    (hr : rest.length < n) (out : List Nat) :
    receive parse ⟨Utf8.encode (header ++ Decimal.showNat n) ++ [13, 10, 13, 10] ++ rest, out, false⟩ =
        (⟨[], out, false⟩, .io) ∧
      receive parse ⟨Utf8.encode (header ++ Decimal.showNat n) ++ [13, 10], out, false⟩ =
        (⟨[], out, true⟩, .closed) := by
  have hws : ∀ x ∈ ['\r'], Str.isWs x = true := by intro x hx; rw [List.mem_singleton.mp hx]; decide
  have hp : parseContentLength (Str.trim (header ++ Decimal.showNat n ++ ['\r'])) = some n := by
    rw [trim_headerLine n _ hws]
    exact parse_headerLine (by unfold usizeLimit; omega)
  have ha : Announces (header ++ Decimal.showNat n ++ ['\r']) n := (announces_iff _ _).mp hp
  have hg : Given [header ++ Decimal.showNat n ++ ['\r']] (some n) :=
    ⟨[], _, [], rfl, ha, fun x hx => by cases hx⟩
  have hl : ∀ l ∈ [header ++ Decimal.showNat n ++ ['\r']], '\n' ∉ l ∧ ¬ Blank l := by
    intro l hm
    rw [List.mem_singleton.mp hm]
    constructor
    · intro hc
      have : 10 ∈ Utf8.encode (header ++ Decimal.showNat n ++ ['\r']) :=
        List.mem_flatMap.mpr ⟨'\n', hc, by decide⟩
      rw [Utf8.encode_append] at this
      exact no_nl_header n this
    · intro hb
      have := hb 'C' (List.mem_append_left _ (List.mem_append_left _ (by decide)))
      exact absurd this (by decide)
  have e1 : headBytes [header ++ Decimal.showNat n ++ ['\r']] =
      Utf8.encode (header ++ Decimal.showNat n) ++ [13, 10] := by
    simp [headBytes, Utf8.encode_append]
    rfl
  constructor
  · have := (C241_cause parse _ hl (.blank ['\r'] rest) ⟨by decide, hws⟩ _ hg out).1
    rw [e1] at this
    have e2 : Utf8.encode (header ++ Decimal.showNat n) ++ [13, 10] ++ (Stop.blank ['\r'] rest).bytes =
        Utf8.encode (header ++ Decimal.showNat n) ++ [13, 10, 13, 10] ++ rest := by
      simp [Stop.bytes]
      rfl
    rw [e2] at this
    rw [this]
    have hn : ¬ 2 ^ 63 ≤ n := by omega
    simp only [left, ends, cause, bodyCause, if_neg hn, if_pos hr, List.drop_eq_nil_of_le (Nat.le_of_lt hr)]
  · have := (C241_cause parse _ hl .eof trivial _ hg out).1
    rw [e1] at this
    simpa [Stop.bytes, left, ends, cause] using this

example : (receive (Msg := List Nat) some (init (Utf8.encode "Content-Length: 2".toList ++ [13, 10, 13, 10, 1]))).2 =
    .io := by decide +kernel

end Verif.Stdio
