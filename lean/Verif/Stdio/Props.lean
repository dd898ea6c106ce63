import Verif.Stdio.Lemmas

/-
Properties C08, C09, C10, C79: the stdio transport.
-/

namespace Verif.Stdio

variable {Msg : Type}

/-! ### C08 -/

/-- `k` successive receives: final state and results in order. (Specification: no counterpart in the code.) -/
def receiveMany (parse : List Nat → Option Msg) : Nat → State → State × List (Recv Msg)
  | 0, s => (s, [])
  | k + 1, s =>
    let r := receive parse s
    let rs := receiveMany parse k r.1
    (rs.1, r.2 :: rs.2)

/-- Specification: the result a payload should lead to. -/
def expected (parse : List Nat → Option Msg) (body : List Nat) : Recv Msg :=
  match parse body with
  | some m => .ok m
  | none => .invalid

theorem run_sends (parse : List Nat → Option Msg) (bodies : List (List Nat)) (s : State)
    (h : s.closed = false) :
    run parse s (bodies.map .send) =
      { s with out := s.out ++ bodies.flatMap frame } := by
  induction bodies generalizing s with
  | nil => simp [run]
  | cons b bs ih =>
    have hs : (step parse s (.send b)).1 = { s with out := s.out ++ frame b } := by
      simp [step, send, h]
    have : run parse s ((b :: bs).map .send) = run parse (step parse s (.send b)).1 (bs.map .send) := rfl
    rw [this, hs, ih { s with out := s.out ++ frame b } h]
    simp

theorem receive_frame (parse : List Nat → Option Msg) (body rest out : List Nat)
    (h : body.length ≤ maxAlloc) :
    receive parse ⟨frame body ++ rest, out, false⟩ = (⟨rest, out, false⟩, expected parse body) := by
  have hu : body.length < usizeLimit := by unfold maxAlloc at h; unfold usizeLimit; omega
  unfold receive
  simp only [Bool.false_eq_true, if_false, readHeaders_frame body rest hu none]
  unfold readBody
  rw [if_neg (by omega), if_neg (by simp)]
  simp only [List.take_left', List.drop_left', expected]
  cases parse body <;> rfl

/-- **C08**.  For all payloads (arbitrary bytes, at most `isize::MAX` of them each): a receiver that
reads what a sender wrote gets exactly the payloads in order, and whatever follows on the stream is
left untouched for later reads. -/
theorem C08_framing (parse : List Nat → Option Msg) (bodies : List (List Nat))
    (h : ∀ b ∈ bodies, b.length ≤ maxAlloc) (senderInput rest : List Nat) :
    receiveMany parse bodies.length
        (init ((run parse (init senderInput) (bodies.map .send)).out ++ rest)) =
      (init rest, bodies.map (expected parse)) := by
  rw [run_sends parse bodies (init senderInput) rfl]
  simp only [init, List.nil_append]
  induction bodies with
  | nil => rfl
  | cons b bs ih =>
    have h1 := receive_frame parse b (bs.flatMap frame ++ rest) [] (h b List.mem_cons_self)
    have h2 := ih (fun x hx => h x (List.mem_cons_of_mem _ hx))
    simp only [List.length_cons, receiveMany, List.flatMap_cons, List.append_assoc] at h1 h2 ⊢
    rw [h1]
    simp only [h2, List.map_cons]

/-- **C08**: after the last payload the receiver sees the end of the stream. -/
theorem C08_then_end (parse : List Nat → Option Msg) (bodies : List (List Nat))
    (h : ∀ b ∈ bodies, b.length ≤ maxAlloc) (senderInput : List Nat) :
    (receive parse (receiveMany parse bodies.length
        (init (run parse (init senderInput) (bodies.map .send)).out)).1).2 = .closed := by
  have := C08_framing parse bodies h senderInput []
  rw [List.append_nil] at this
  rw [this]
  simp [receive, init, readHeaders.eq_def]

/-- A header line other than the length: some text without line feed whose trimmed form is not blank
and is no valid length header. (Specification: no counterpart in the code.) -/
def OtherHeader (l : List Char) : Prop :=
  '\n' ∉ l ∧ Str.trim (l ++ ['\n']) ≠ [] ∧ parseContentLength (Str.trim (l ++ ['\n'])) = none

theorem nl_not_in_encode {l : List Char} (h : '\n' ∉ l) : 10 ∉ Utf8.encode l := by
  intro hm
  simp only [Utf8.encode, List.mem_flatMap] at hm
  obtain ⟨c, hc, hb⟩ := hm
  have hcn : c.toNat ≠ 10 := by
    intro e
    apply h
    have : c = '\n' := Char.toNat_inj.mp e
    rw [← this]; exact hc
  unfold Utf8.encodeChar Utf8.encodeNat at hb
  (repeat' split at hb) <;> simp at hb <;> omega

/-- **C08**: further header lines (any UTF-8 text) before the length line change nothing. -/
theorem C08_other_headers_ignored (parse : List Nat → Option Msg) (lines : List (List Char))
    (hl : ∀ l ∈ lines, OtherHeader l) (body rest out : List Nat) (h : body.length ≤ maxAlloc) :
    receive parse ⟨lines.flatMap (fun l => Utf8.encode (l ++ ['\n'])) ++ (frame body ++ rest), out, false⟩ =
      (⟨rest, out, false⟩, expected parse body) := by
  have key : ∀ (lines : List (List Char)), (∀ l ∈ lines, OtherHeader l) →
      readHeaders (lines.flatMap (fun l => Utf8.encode (l ++ ['\n'])) ++ (frame body ++ rest)) none =
        readHeaders (frame body ++ rest) none := by
    intro lines
    induction lines with
    | nil => intro _; rfl
    | cons l ls ih =>
      intro hl
      obtain ⟨h1, h2, h3⟩ := hl l List.mem_cons_self
      have hnl : Utf8.encode ['\n'] = [10] := by decide
      rw [readHeaders.eq_def]
      rw [List.flatMap_cons, Utf8.encode_append, hnl]
      have hre : Utf8.encode l ++ [10] ++ ls.flatMap (fun l => Utf8.encode (l ++ ['\n'])) ++
          (frame body ++ rest) = Utf8.encode l ++ 10 ::
            (ls.flatMap (fun l => Utf8.encode (l ++ ['\n'])) ++ (frame body ++ rest)) := by simp
      rw [hre, readLine_line (nl_not_in_encode h1), dif_neg (by simp)]
      have hd : Utf8.decode (Utf8.encode l ++ [10]) = some (l ++ ['\n']) := by
        apply decode_ascii
        rw [Utf8.encode_append, hnl]
      simp only [hd]
      rw [if_neg h2, h3]
      exact ih (fun x hx => hl x (List.mem_cons_of_mem _ hx))
  have hu : body.length < usizeLimit := by unfold maxAlloc at h; unfold usizeLimit; omega
  unfold receive
  simp only [Bool.false_eq_true, if_false, key lines hl, readHeaders_frame body rest hu none]
  unfold readBody
  rw [if_neg (by omega), if_neg (by simp)]
  simp only [List.take_left', List.drop_left', expected]
  cases parse body <;> rfl

-- payloads that are empty, contain newlines and look like headers
example : receiveMany (fun b => some b) 3 (init ((run (fun b => some b) (init [])
      ([[], [10, 13, 10], Utf8.encode "Content-Length: 7\r\n\r\n".toList].map .send)).out)) =
    (init [], [.ok [], .ok [10, 13, 10], .ok (Utf8.encode "Content-Length: 7\r\n\r\n".toList)]) := by
  have := C08_framing (fun b => some b)
    [[], [10, 13, 10], Utf8.encode "Content-Length: 7\r\n\r\n".toList]
    (by decide) [] []
  rw [List.append_nil] at this
  exact this
example : OtherHeader "Content-Type: application/json; x=é\r".toList := by
  refine ⟨by decide, by decide, by decide⟩

/-! ### C09 -/

/-- Specification: value of a string of decimal digits. -/
def value (ds : List Char) : Nat := ds.foldl (fun a c => a * 10 + (c.toNat - 48)) 0

/-- Specification: a decimal digit. -/
def IsDigit (c : Char) : Prop := '0' ≤ c ∧ c ≤ '9'

theorem isDigit_iff (c : Char) : IsDigit c ↔ 48 ≤ c.toNat ∧ c.toNat ≤ 57 := Iff.rfl

theorem digits_spec (cs : List Char) (a n : Nat) :
    Decimal.digits a cs = some n ↔
      (∀ c ∈ cs, IsDigit c) ∧ cs.foldl (fun a c => a * 10 + (c.toNat - 48)) a = n := by
  induction cs generalizing a with
  | nil => simp [Decimal.digits]
  | cons c cs ih =>
    unfold Decimal.digits Decimal.digitVal
    by_cases hc : 48 ≤ c.toNat ∧ c.toNat ≤ 57
    · rw [if_pos hc]
      simp only [ih, List.mem_cons, forall_eq_or_imp, List.foldl_cons, isDigit_iff c, hc, and_self,
        true_and]
    · rw [if_neg hc]
      simp only [List.mem_cons, forall_eq_or_imp, isDigit_iff c, hc, false_and]
      simp

/-- **C09** (inverse): the header printed for a length is read back as this length, also with
white space around the number. -/
theorem C09_parse_print (n : Nat) (h : n < 2 ^ 64) (w w' : List Char)
    (hw : ∀ x ∈ w, Str.isWs x = true) (hw' : ∀ x ∈ w', Str.isWs x = true) :
    parseContentLength (header ++ w ++ Decimal.showNat n ++ w') = some n := by
  unfold parseContentLength
  rw [List.append_assoc, List.append_assoc, Str.stripPrefix_append]
  simp only [Option.bind_some]
  rw [← List.append_assoc, Str.trim_pad w _ w' hw hw', trim_showNat]
  exact Decimal.parseUnsigned_showNat h

theorem parseUnsigned_iff (limit : Nat) (v : List Char) (n : Nat) :
    Decimal.parseUnsigned limit v = some n ↔
      ∃ ds, (v = ds ∨ v = '+' :: ds) ∧ ds ≠ [] ∧ (∀ c ∈ ds, IsDigit c) ∧ value ds = n ∧ n < limit := by
  have hpd : ∀ ds, Decimal.parseDigits ds = some n ↔
      ds ≠ [] ∧ (∀ c ∈ ds, IsDigit c) ∧ value ds = n := by
    intro ds
    cases ds with
    | nil => simp [Decimal.parseDigits]
    | cons c cs => simp [Decimal.parseDigits, digits_spec, value]
  have hplus : ¬ IsDigit '+' := by unfold IsDigit; decide
  unfold Decimal.parseUnsigned
  constructor
  · intro h
    cases hp : Decimal.parseDigits (Decimal.stripPlus v) with
    | none => rw [hp] at h; simp at h
    | some m =>
      rw [hp] at h
      simp only at h
      split at h
      · rename_i hlt
        cases h
        obtain ⟨h1, h2, h3⟩ := (hpd _).mp hp
        refine ⟨Decimal.stripPlus v, ?_, h1, h2, h3, hlt⟩
        cases v with
        | nil => left; rfl
        | cons c cs =>
          by_cases hc : c = '+'
          · right; simp [Decimal.stripPlus, hc]
          · left; simp [Decimal.stripPlus, hc]
      · cases h
  · rintro ⟨ds, hv, h1, h2, h3, h4⟩
    have : Decimal.stripPlus v = ds := by
      rcases hv with rfl | rfl
      · cases v with
        | nil => rfl
        | cons c cs =>
          have hc : c ≠ '+' := by rintro rfl; exact hplus (h2 '+' List.mem_cons_self)
          simp [Decimal.stripPlus, hc]
      · rfl
    rw [this, (hpd ds).mpr ⟨h1, h2, h3⟩]
    simp [h4]

/-- **C09** (exactness): a line yields the length `n` exactly when it is the header name followed by
a number — decimal digits, an optional `+`, white space around — with value `n` below `2^64`. -/
theorem C09_parse_iff (line : List Char) (n : Nat) :
    parseContentLength line = some n ↔
      ∃ v ds, line = "Content-Length: ".toList ++ v ∧ (Str.trim v = ds ∨ Str.trim v = '+' :: ds) ∧
        ds ≠ [] ∧ (∀ c ∈ ds, IsDigit c) ∧ value ds = n ∧ n < 2 ^ 64 := by
  unfold parseContentLength
  constructor
  · intro h
    cases hs : Str.stripPrefix header line with
    | none => rw [hs] at h; simp at h
    | some v =>
      rw [hs] at h
      simp only [Option.bind_some] at h
      obtain ⟨ds, h1, h2⟩ := (parseUnsigned_iff _ _ _).mp h
      exact ⟨v, ds, Str.stripPrefix_eq_some.mp hs, h1, h2⟩
  · rintro ⟨v, ds, rfl, h1, h2⟩
    have : Str.stripPrefix header ("Content-Length: ".toList ++ v) = some v :=
      Str.stripPrefix_append header v
    rw [this]
    simp only [Option.bind_some]
    exact (parseUnsigned_iff _ _ _).mpr ⟨ds, h1, h2⟩

example : parseContentLength "Content-Length: 42".toList = some 42 ∧
    parseContentLength "Content-Length: -42".toList = none ∧
    parseContentLength "content-length: 42".toList = none ∧
    parseContentLength "Content-Length: 18446744073709551616".toList = none := by decide

/-! ### C10 -/

theorem closed_step (parse : List Nat → Option Msg) (s : State) (op : Op) (h : s.closed = true) :
    (step parse s op).1 = s := by
  cases op with
  | send b => simp [step, send, h]
  | receive => simp [step, receive, h]
  | close =>
    simp only [step, close]
    cases s
    simp at h
    simp [h]

/-- **C10**.  Once closed, a transport stays closed through every history of calls; nothing is read
or written any more. -/
theorem C10_closed_stays (parse : List Nat → Option Msg) (s : State) (h : s.closed = true)
    (ops : List Op) : run parse s ops = s := by
  induction ops with
  | nil => rfl
  | cons op ops ih =>
    have : run parse s (op :: ops) = run parse (step parse s op).1 ops := rfl
    rw [this, closed_step parse s op h, ih]

/-- **C10**: on a closed transport every send and receive reports `ConnectionClosed`. -/
theorem C10_closed_refuses (parse : List Nat → Option Msg) (s : State) (h : s.closed = true)
    (body : List Nat) :
    (step parse s (.send body)).2 = .closed ∧ (step parse s .receive).2 = .closed := by
  simp [step, send, receive, h]

/-- **C10**: `close` closes. -/
theorem C10_close_closes (parse : List Nat → Option Msg) (s : State) :
    (step parse s .close).1.closed = true := rfl

/-- **C10**: a receive that reports `ConnectionClosed` leaves the transport closed: end of input seen
while waiting for a message closes for good. -/
theorem C10_eof_closes_partial (parse : List Nat → Option Msg) (s : State)
    (h : (step parse s .receive).2 = .closed) : (step parse s .receive).1.closed = true := by
  simp only [step] at h ⊢
  unfold receive at h ⊢
  by_cases hc : s.closed
  · simp [hc]
  · simp only [hc, Bool.false_eq_true, if_false] at h ⊢
    rcases hr : readHeaders s.input none with ⟨r, rest⟩
    rw [hr] at h
    cases r with
    | ok n =>
      simp only at h ⊢
      unfold readBody at h ⊢
      by_cases h1 : n > maxAlloc
      · simp [h1] at h
      · by_cases h2 : rest.length < n
        · simp [h1, h2] at h
        · simp only [h1, h2, if_false] at h
          cases hp : parse (rest.take n) <;> simp [hp] at h
    | closed => rfl
    | io => simp at h
    | missingLength => simp at h
    | invalid => simp at h
    | panic => simp at h

/-- What is missing for **C10**: when the input ends inside a message body, the receive reports an
I/O error and the transport still counts as connected and accepts sends. -/
theorem C10_truncated_body_stays_open :
    let s := (step (Msg := List Nat) some (init ((frame [1, 2, 3]).take 23)) .receive)
    s.2 = .io ∧ s.1.closed = false ∧ s.1.input = [] ∧
      (step (Msg := List Nat) some s.1 (.send [9])).2 = .ok none := by decide +kernel

/-- **C10**: the next receive after such a truncation does close. -/
theorem C10_closes_on_next_receive (parse : List Nat → Option Msg) (s : State) (h : s.input = []) :
    (step parse s .receive).2 = .closed ∧ (step parse s .receive).1.closed = true := by
  by_cases hc : s.closed
  · simp [step, receive, hc]
  · simp [step, receive, hc, h, readHeaders.eq_def]

example : (step (Msg := List Nat) some (init []) .receive).2 = .closed := by decide +kernel

/-! ### C79 -/

/-- **C79** is false: a single header line makes the receiver panic (the buffer allocation exceeds
`isize::MAX`). -/
theorem C79_huge_length_panics :
    (receive (Msg := List Nat) some
      (init (Utf8.encode "Content-Length: 9223372036854775808\r\n\r\n".toList))).2 = .panic := by
  decide +kernel

/-- **C79**, part that holds: on every input, the receiver panics only if the announced length
exceeds `isize::MAX`; otherwise it returns a message or an error. -/
theorem C79_panics_only_on_huge_length_partial (parse : List Nat → Option Msg) (s : State)
    (h : (receive parse s).2 = .panic) :
    ∃ n rest, readHeaders s.input none = (.ok n, rest) ∧ 2 ^ 63 - 1 < n := by
  have hnp : ∀ (k : Nat) (i : List Nat) (l : Option Nat), i.length ≤ k → (readHeaders i l).1 ≠ .panic := by
    intro k
    induction k with
    | zero =>
      intro i l hi
      have : i = [] := List.eq_nil_of_length_eq_zero (by omega)
      simp [this, readHeaders.eq_def]
    | succ k ih =>
      intro i l hi
      rw [readHeaders.eq_def]
      by_cases hn : i = []
      · simp [hn]
      · rw [dif_neg hn]
        split
        · simp
        · split
          · cases l <;> simp
          · exact ih _ _ (by have := readLine_length hn; omega)
  unfold receive at h
  by_cases hc : s.closed
  · simp [hc] at h
  · simp only [hc, Bool.false_eq_true, if_false] at h
    rcases hr : readHeaders s.input none with ⟨r, rest⟩
    rw [hr] at h
    cases r with
    | ok n =>
      refine ⟨n, rest, rfl, ?_⟩
      simp only at h
      unfold readBody at h
      by_cases h1 : n > maxAlloc
      · exact h1
      · by_cases h2 : rest.length < n
        · simp [h1, h2] at h
        · simp only [h1, h2, if_false] at h
          cases hp : parse (rest.take n) <;> simp [hp] at h
    | panic => exact absurd (by rw [hr]) (hnp _ s.input none (Nat.le_refl _))
    | closed => simp at h
    | io => simp at h
    | missingLength => simp at h
    | invalid => simp at h

/-- **C79**, exactly when: an open receiver panics iff the headers announce more than `isize::MAX` bytes; the
headers are consumed, so a program that survives the panic reads on right after them. -/
theorem C79_panic_iff (parse : List Nat → Option Msg) (s : State) :
    (receive parse s).2 = .panic ↔
      s.closed = false ∧ ∃ n, 2 ^ 63 - 1 < n ∧ (readHeaders s.input none).1 = .ok n := by
  constructor
  · intro h
    obtain ⟨n, rest, h1, h2⟩ := C79_panics_only_on_huge_length_partial parse s h
    refine ⟨?_, n, h2, by rw [h1]⟩
    cases hc : s.closed with
    | false => rfl
    | true => simp [receive, hc] at h
  · rintro ⟨hc, n, hn, hr⟩
    rcases hh : readHeaders s.input none with ⟨r, rest⟩
    rw [hh] at hr
    simp only at hr
    subst hr
    have : n > maxAlloc := hn
    simp [receive, hc, hh, readBody, this]

theorem C79_after_panic (parse : List Nat → Option Msg) (s : State) (h : (receive parse s).2 = .panic) :
    (receive parse s).1 = { s with input := (readHeaders s.input none).2 } := by
  obtain ⟨hc, n, hn, hr⟩ := (C79_panic_iff parse s).mp h
  rcases hh : readHeaders s.input none with ⟨r, rest⟩
  rw [hh] at hr
  simp only at hr
  subst hr
  have : n > maxAlloc := hn
  simp [receive, hc, hh, readBody, this]

example : (receive (Msg := List Nat) some
      (receive (Msg := List Nat) some
        (init (Utf8.encode "Content-Length: 9223372036854775808\r\n\r\nContent-Length: 1\r\n\r\nx".toList))).1).2 =
    .ok [120] := by decide +kernel

end Verif.Stdio
