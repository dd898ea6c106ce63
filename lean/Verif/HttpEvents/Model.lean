import Verif.Sse.Model
import Verif.Common.Utf8

/-
The event stream of the HTTP client transport: `connect_sse` and the tasks it spawns, with the queue they share with the
answers to posts. Models /repo/src/shared/http.rs L98-180 and L236-264. Bytes are numbers; an event's data is read as a
message by a parameter, `StdioTransport::parse_message`.

Not modelled: how a stream is opened (a stream that could not be opened or was not answered with 200 changes nothing),
the failure of `message_tx.send` (L153-156; the receiving half lives as long as the transport).
-/

namespace Verif.HttpEvents

open Verif Verif.Sse

/-! ### `String::from_utf8_lossy` -/

/-- U+FFFD, the replacement character. (`String::from_utf8_lossy`, /repo/src/shared/http.rs L143-145.) -/
def bad : Char := Char.ofNat 0xFFFD

/-- The second bytes that can follow a first byte (Unicode, table 3-7; `core::str::lossy`, the match on
`(first, safe_get(i))`). Called by /repo/src/shared/http.rs L143-145. -/
def okSecond (b0 b1 : Nat) : Bool :=
  if b0 = 0xE0 then decide (0xA0 ≤ b1 ∧ b1 < 0xC0)
  else if b0 = 0xED then decide (0x80 ≤ b1 ∧ b1 < 0xA0)
  else if b0 = 0xF0 then decide (0x90 ≤ b1 ∧ b1 < 0xC0)
  else if b0 = 0xF4 then decide (0x80 ≤ b1 ∧ b1 < 0x90)
  else Utf8.isCont b1

/-- How many bytes one replacement character stands for: the longest beginning of a well-formed sequence, at
least one byte (`core::str::lossy`, `Utf8Chunks::next`). Called by /repo/src/shared/http.rs L143-145. -/
def badLen : List Nat → Nat
  | b0 :: b1 :: r =>
    if 0xE0 ≤ b0 ∧ b0 < 0xF0 then (if okSecond b0 b1 then 2 else 1)
    else if 0xF0 ≤ b0 ∧ b0 < 0xF5 then
      if okSecond b0 b1 then
        match r with
        | b2 :: _ => if Utf8.isCont b2 then 3 else 2
        | [] => 2
      else 1
    else 1
  | _ => 1

theorem badLen_pos (b : List Nat) : 1 ≤ badLen b := by
  unfold badLen
  repeat' split
  all_goals omega

/-- `String::from_utf8_lossy` (used at L143). -/
def lossy (b : List Nat) : Text :=
  match b with
  | [] => []
  | x :: xs =>
    match h : Utf8.decodeOne (x :: xs) with
    | some (n, r) => Char.ofNat n :: lossy r
    | none => bad :: lossy ((x :: xs).drop (badLen (x :: xs)))
termination_by b.length
decreasing_by
  · exact Utf8.decodeOne_length h
  · have := badLen_pos (x :: xs)
    simp only [List.length_drop, List.length_cons]
    omega

/-! ### The transport -/

/-- Where the task of a stream is: not yet started, reading frames (L140), finished (L171), or ended by a panic. -/
inductive Phase where
  | spawned
  | reading
  | ended
  | dead
  deriving DecidableEq

/-- The task of a stream (L134-173): its parser and the messages of the current frame not yet in the queue. -/
structure Reader (M : Type) where
  phase : Phase
  parser : Parser
  pending : List M

/-- The transport: the streams opened, the `connected` flag, the queue, and what `receive` returned. Messages in
the queue carry the stream they came from; `none` is the answer to a post. /repo/src/shared/http.rs L52-58,
L98-180. -/
structure State (M : Type) where
  readers : List (Reader M) := []
  connected : Bool := false
  queue : List (Option Nat × M) := []
  taken : List (Option Nat × M) := []

/-- Capacity of the queue, /repo/src/shared/http.rs L78. -/
def cap : Nat := 100

/-- What can happen: /repo/src/shared/http.rs L98-180, L236-264. -/
inductive Op (M : Type) where
  /-- `connect_sse` without an endpoint (L174-177) -/
  | plain
  /-- `connect_sse`, answered with 200 (L98-134) -/
  | openStream
  /-- the task starts (L135) -/
  | start (n : Nat)
  /-- a frame of the body (L141-145) -/
  | frame (n : Nat) (bytes : List Nat)
  /-- a message of the frame enters the queue (L152) -/
  | push (n : Nat)
  /-- the body ends or fails (L165-172) -/
  | finish (n : Nat)
  /-- the answer to a post enters the queue (L231) -/
  | answer (m : M)
  /-- `receive` (L246-251) -/
  | receive
  /-- `close` (L253-257) -/
  | close

/-- Replace task `n`. (The tasks spawned by /repo/src/shared/http.rs L134-174.) -/
def setReader {M : Type} (s : State M) (n : Nat) (r : Reader M) : List (Reader M) := s.readers.set n r

/-- One step; `none` if it cannot happen now. /repo/src/shared/http.rs L98-180, L236-264. -/
def step {M : Type} (parse : Text → Option M) (s : State M) : Op M → Option (State M)
  | .plain => some { s with connected := true }
  | .openStream => some { s with readers := s.readers ++ [⟨.spawned, {}, []⟩] }
  | .start n => match s.readers[n]? with
    | some ⟨.spawned, p, l⟩ => some { s with connected := true, readers := setReader s n ⟨.reading, p, l⟩ }
    | _ => none
  | .frame n bytes => match s.readers[n]? with
    | some ⟨.reading, p, []⟩ => match feed p (lossy bytes) with
      | none => some { s with readers := setReader s n ⟨.dead, p, []⟩ }
      | some (p', es) =>
        some { s with readers := setReader s n ⟨.reading, p', es.filterMap (fun e => parse e.data)⟩ }
    | _ => none
  | .push n => match s.readers[n]? with
    | some ⟨.reading, p, m :: l⟩ =>
      if s.queue.length < cap then
        some { s with queue := s.queue ++ [(some n, m)], readers := setReader s n ⟨.reading, p, l⟩ }
      else none
    | _ => none
  | .finish n => match s.readers[n]? with
    | some ⟨.reading, p, []⟩ => some { s with connected := false, readers := setReader s n ⟨.ended, p, []⟩ }
    | _ => none
  | .answer m => if s.queue.length < cap then some { s with queue := s.queue ++ [(none, m)] } else none
  | .receive => match s.queue with
    | x :: q => some { s with queue := q, taken := s.taken ++ [x] }
    | [] => none
  | .close => some { s with connected := false }

/-- A history of steps. (/repo/src/shared/http.rs L98-180, L236-264.) -/
def run {M : Type} (parse : Text → Option M) : State M → List (Op M) → Option (State M)
  | s, [] => some s
  | s, op :: l => match step parse s op with
    | none => none
    | some s' => run parse s' l

end Verif.HttpEvents
