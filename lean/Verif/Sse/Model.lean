import Verif.Common.Str
import Verif.Common.Utf8
import Verif.Common.Decimal

/-
Model of `/repo/src/shared/sse_parser.rs`.  Rust strings are lists of characters; byte offsets are
computed with the UTF-8 length of each character, so the mix of byte and character indices in
`feed` is modelled as it is written.  A slice outside a character boundary panics.
-/

namespace Verif.Sse

/-- A Rust string as characters. (Of /repo/src/shared/sse_parser.rs L11-20.) -/
abbrev Text := List Char

/-- `SseEvent`, /repo/src/shared/sse_parser.rs L11-22. -/
structure Event where
  id : Option Text
  event : Option Text
  data : Text
  retry : Option Nat
  deriving DecidableEq

/-- `EventBuilder`, /repo/src/shared/sse_parser.rs L289-294, and `new`, L297-304. -/
structure Builder where
  id : Option Text := none
  event : Option Text := none
  data : Text := []
  retry : Option Nat := none
  deriving DecidableEq

/-- `SseParser`, /repo/src/shared/sse_parser.rs L117-121. -/
structure Parser where
  buffer : Text := []
  cur : Builder := {}
  lastId : Option Text := none
  deriving DecidableEq

/-- Length in bytes of a string. (/repo/src/shared/sse_parser.rs L169-189.) -/
def byteLen (s : Text) : Nat := (Utf8.encode s).length

/-- `&s[..k]` with a byte offset: the prefix of exactly `k` bytes, or a panic (`none`).
(/repo/src/shared/sse_parser.rs L169-189.) -/
def sliceTo : Text → Nat → Option Text
  | _, 0 => some []
  | [], _ + 1 => none
  | c :: s, k + 1 =>
    if Utf8.charLen c ≤ k + 1 then (sliceTo s (k + 1 - Utf8.charLen c)).map (c :: ·) else none

/-- Field and value of a line, /repo/src/shared/sse_parser.rs L203-212. -/
def fieldValue (line : Text) : Text × Text :=
  match Str.splitOnce ':' line with
  | some (f, v) => (f, match v with
    | [] => []
    | c :: r => if c = ' ' then r else c :: r)
  | none => (line, [])

/-- `dispatch_event`, /repo/src/shared/sse_parser.rs L247-267. -/
def dispatch (p : Parser) : Parser × Option Event :=
  if p.cur.data = [] then ({ p with cur := {} }, none)
  else ({ p with cur := {} }, some ⟨p.cur.id.or p.lastId, p.cur.event, p.cur.data, p.cur.retry⟩)

/-- Field names matched at /repo/src/shared/sse_parser.rs L215-241. -/
def kEvent : Text := "event".toList
/-- A field name, /repo/src/shared/sse_parser.rs L191-245. -/
@[inherit_doc kEvent] def kData : Text := "data".toList
/-- A field name, /repo/src/shared/sse_parser.rs L191-245. -/
@[inherit_doc kEvent] def kId : Text := "id".toList
/-- A field name, /repo/src/shared/sse_parser.rs L191-245. -/
@[inherit_doc kEvent] def kRetry : Text := "retry".toList

/-- `process_line`, /repo/src/shared/sse_parser.rs L191-244. -/
def processLine (p : Parser) (line : Text) : Parser × Option Event :=
  if line = [] then dispatch p
  else if line.head? = some ':' then (p, none)
  else
    let f := (fieldValue line).1
    let v := (fieldValue line).2
    if f = kEvent then ({ p with cur := { p.cur with event := some v } }, none)
    else if f = kData then
      if p.cur.data = [] then ({ p with cur := { p.cur with data := v } }, none)
      else ({ p with cur := { p.cur with data := p.cur.data ++ '\n' :: v } }, none)
    else if f = kId then
      if '\x00' ∈ v then (p, none)
      else ({ p with cur := { p.cur with id := some v }, lastId := some v }, none)
    else if f = kRetry then
      match Decimal.parseUnsigned (2 ^ 64) v with
      | some n => ({ p with cur := { p.cur with retry := some n } }, none)
      | none => (p, none)
    else (p, none)

theorem splitOnce_length {c : Char} {s a b : Text} (h : Str.splitOnce c s = some (a, b)) :
    b.length < s.length := by
  obtain ⟨h1, _⟩ := Str.splitOnce_some h
  rw [h1]; simp; omega

/-- The line extracted by one round of the loop of `feed`, /repo/src/shared/sse_parser.rs L173-178:
`line_end` is a byte offset, but is used as a character index by `chars().nth`. -/
def extractLine (buffer pre : Text) : Option Text :=
  let lineEnd := byteLen pre
  if lineEnd > 0 ∧ buffer[lineEnd - 1]? = some '\r' then sliceTo buffer (lineEnd - 1)
  else some pre

/-- The loop of `feed`, /repo/src/shared/sse_parser.rs L173-185.  `none` is a panic. -/
def feedLoop (p : Parser) : Option (Parser × List Event) :=
  match h : Str.splitOnce '\n' p.buffer with
  | none => some (p, [])
  | some (pre, post) =>
    match extractLine p.buffer pre with
    | none => none
    | some line =>
      let r := processLine { p with buffer := post } line
      (feedLoop { r.1 with buffer := post }).map (fun q => (q.1, r.2.toList ++ q.2))
termination_by p.buffer.length
decreasing_by exact splitOnce_length h

/-- `feed`, /repo/src/shared/sse_parser.rs L169-188. -/
def feed (p : Parser) (data : Text) : Option (Parser × List Event) :=
  feedLoop { p with buffer := p.buffer ++ data }

/-- `feed` for a sequence of chunks. (Calls of /repo/src/shared/sse_parser.rs L169-189.) -/
def feedAll (p : Parser) : List Text → Option (Parser × List Event)
  | [] => some (p, [])
  | c :: cs => match feed p c with
    | none => none
    | some (p', es) => (feedAll p' cs).map (fun q => (q.1, es ++ q.2))

/-- `str::lines`: split at line feeds, a final line feed adds no line, one `\r` before the line feed
(but not at the very end without line feed) is removed. (/repo/src/shared/sse_parser.rs L93-113.) -/
def strLines (s : Text) : List Text :=
  match h : Str.splitOnce '\n' s with
  | none => if s = [] then [] else [s]
  | some (pre, post) =>
    (if pre.getLast? = some '\r' then pre.dropLast else pre) :: strLines post
termination_by s.length
decreasing_by exact splitOnce_length h

/-- `Display for SseEvent`, /repo/src/shared/sse_parser.rs L93-113. -/
def display (e : Event) : Text :=
  (match e.id with | some i => "id: ".toList ++ i ++ ['\n'] | none => []) ++
  (match e.event with | some v => "event: ".toList ++ v ++ ['\n'] | none => []) ++
  (match e.retry with | some n => "retry: ".toList ++ Decimal.showNat n ++ ['\n'] | none => []) ++
  (strLines e.data).flatMap (fun l => "data: ".toList ++ l ++ ['\n']) ++ ['\n']

/-- `reset`, /repo/src/shared/sse_parser.rs L275-278. -/
def reset (p : Parser) : Parser := { p with buffer := [], cur := {} }

end Verif.Sse
