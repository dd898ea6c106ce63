import Verif.Common.Str
import Verif.Common.Utf8
import Verif.Common.Decimal

/-
Model of `/repo/src/shared/stdio.rs`.  Bytes are natural numbers (theorems hold for all of them, so
in particular below 256).  Standard input is the list of bytes still to arrive followed by end of
file; standard output is the list of bytes written.  Parsing of a message body (`parse_message`,
L218-264, serde_json) is a parameter.
-/

namespace Verif.Stdio

/-- A Rust string as characters. (Header lines of /repo/src/shared/stdio.rs L59-62, L166-204.) -/
abbrev Str := List Char

/-- `CONTENT_LENGTH_HEADER`, /repo/src/shared/stdio.rs L13. -/
def header : Str := "Content-Length: ".toList

/-- Number of values of `usize` on a 64-bit target. (/repo/src/shared/stdio.rs L59-62.) -/
def usizeLimit : Nat := 2 ^ 64

/-- Allocations above `isize::MAX` bytes panic ("capacity overflow"). (/repo/src/shared/stdio.rs L206-215.) -/
def maxAlloc : Nat := 2 ^ 63 - 1

/-- `parse_content_length`, /repo/src/shared/stdio.rs L59-62. -/
def parseContentLength (line : Str) : Option Nat :=
  (Str.stripPrefix header line).bind (fun v => Decimal.parseUnsigned usizeLimit (Str.trim v))

/-- The bytes of one `read_line` (up to and including the newline byte, or up to end of file) and
the rest (tokio `AsyncBufReadExt::read_line`, used at /repo/src/shared/stdio.rs L174-177). -/
def readLine : List Nat → List Nat × List Nat
  | [] => ([], [])
  | b :: r => if b = 10 then ([b], r) else ((b :: (readLine r).1), (readLine r).2)

theorem readLine_append (b : List Nat) : (readLine b).1 ++ (readLine b).2 = b := by
  induction b with
  | nil => rfl
  | cons x r ih =>
    unfold readLine
    split
    · simp
    · simp [ih]

theorem readLine_length {b : List Nat} (h : b ≠ []) : (readLine b).2.length < b.length := by
  cases b with
  | nil => exact absurd rfl h
  | cons x r =>
    unfold readLine
    split
    · simp
    · have := congrArg List.length (readLine_append r)
      rw [List.length_append] at this
      simp only [List.length_cons]
      omega

/-- Results of reading headers or of a whole receive. /repo/src/shared/stdio.rs L82-90, L166-215. -/
inductive Recv (α : Type) where
  | ok (a : α)
  | closed
  | io
  | missingLength
  | invalid
  | panic
  deriving DecidableEq

/-- `read_headers`, /repo/src/shared/stdio.rs L166-203: result and remaining input.  A line that is
not UTF-8 is an I/O error of `read_line`. -/
def readHeaders (input : List Nat) (len : Option Nat) : Recv Nat × List Nat :=
  if h : input = [] then (.closed, [])
  else
    match Utf8.decode (readLine input).1 with
    | none => (.io, (readLine input).2)
    | some line =>
      if Str.trim line = [] then
        (match len with
          | some n => (.ok n, (readLine input).2)
          | none => (.missingLength, (readLine input).2))
      else
        readHeaders (readLine input).2
          (match parseContentLength (Str.trim line) with
            | some n => some n
            | none => len)
termination_by input.length
decreasing_by exact readLine_length h

/-- Transport: input not yet read, output written, closed flag. /repo/src/shared/stdio.rs L31-35. -/
structure State where
  input : List Nat
  out : List Nat
  closed : Bool
  deriving DecidableEq

/-- `StdioTransport::new`, /repo/src/shared/stdio.rs L48-54. -/
def init (input : List Nat) : State := ⟨input, [], false⟩

/-- `write_message`, /repo/src/shared/stdio.rs L142-163. -/
def frame (body : List Nat) : List Nat :=
  Utf8.encode (header ++ Decimal.showNat body.length) ++ [13, 10, 13, 10] ++ body

/-- `read_message_body`, /repo/src/shared/stdio.rs L206-215: allocation, then `read_exact`, which
consumes what is there and fails when the input ends early. -/
def readBody (n : Nat) (input : List Nat) : Recv (List Nat) × List Nat :=
  if n > maxAlloc then (.panic, input)
  else if input.length < n then (.io, [])
  else (.ok (input.take n), input.drop n)

variable {Msg : Type}

/-- `receive`, /repo/src/shared/stdio.rs L82-90.  `read_headers` sets the closed flag when it sees
end of file (L179-184). -/
def receive (parse : List Nat → Option Msg) (s : State) : State × Recv Msg :=
  if s.closed then (s, .closed)
  else
    match readHeaders s.input none with
    | (.ok n, rest) =>
      match readBody n rest with
      | (.ok body, rest') =>
        ({ s with input := rest' }, match parse body with
          | some m => .ok m
          | none => .invalid)
      | (.io, rest') => ({ s with input := rest' }, .io)
      | (.panic, rest') => ({ s with input := rest' }, .panic)
      | (.closed, rest') => ({ s with input := rest' }, .closed)
      | (.missingLength, rest') => ({ s with input := rest' }, .missingLength)
      | (.invalid, rest') => ({ s with input := rest' }, .invalid)
    | (.closed, rest) => ({ s with input := rest, closed := true }, .closed)
    | (.io, rest) => ({ s with input := rest }, .io)
    | (.missingLength, rest) => ({ s with input := rest }, .missingLength)
    | (.invalid, rest) => ({ s with input := rest }, .invalid)
    | (.panic, rest) => ({ s with input := rest }, .panic)

/-- `send` of an already serialised message, /repo/src/shared/stdio.rs L73-80.  Writing to standard
output is assumed to succeed. -/
def send (s : State) (body : List Nat) : State × Recv Unit :=
  if s.closed then (s, .closed) else ({ s with out := s.out ++ frame body }, .ok ())

/-- `close`, /repo/src/shared/stdio.rs L92-102. -/
def close (s : State) : State := { s with closed := true }

/-- Calls. /repo/src/shared/stdio.rs L73-102. -/
inductive Op where
  | send (body : List Nat)
  | receive
  | close

/-- One call; only the kind of result is kept. /repo/src/shared/stdio.rs L73-102. -/
def step (parse : List Nat → Option Msg) (s : State) : Op → State × Recv (Option Msg)
  | .send b => match send s b with
    | (s', .closed) => (s', .closed)
    | (s', _) => (s', .ok none)
  | .receive => match receive parse s with
    | (s', .ok m) => (s', .ok (some m))
    | (s', .closed) => (s', .closed)
    | (s', .io) => (s', .io)
    | (s', .missingLength) => (s', .missingLength)
    | (s', .invalid) => (s', .invalid)
    | (s', .panic) => (s', .panic)
  | .close => (close s, .ok none)

/-- A history of calls. (Calls of /repo/src/shared/stdio.rs L73-102.) -/
def run (parse : List Nat → Option Msg) (s : State) (h : List Op) : State :=
  h.foldl (fun s op => (step parse s op).1) s

end Verif.Stdio
