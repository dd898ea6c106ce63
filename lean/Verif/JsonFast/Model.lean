import Verif.Simd.Scan
import Verif.Simd.Validate
import Verif.Common.Utf8

/-
Model of `src/utils/json_simd.rs` on processors with AVX2. Bytes are numbers.

`serde_json::from_slice` is modelled as a function of the tokens of the text: `lex` cuts the bytes into tokens and an
arbitrary function `Q` makes the result of them. Where an error is reported and `RawValue` are not modelled.
-/

namespace Verif.JsonFast

open Verif Verif.Simd

/-- The tokens of JSON: one of `{}[]:,`, the text between quotes, or a run of other bytes (a number or a
word). (Part of the model of serde_json, called by /repo/src/utils/json_simd.rs L24-69.) -/
inductive Tok
  | punct (b : Nat)
  | str (raw : List Nat)
  | atom (bytes : List Nat)
  deriving DecidableEq, Repr

/-- `{}[]:,`. (Part of the model of serde_json, called by /repo/src/utils/json_simd.rs L24-69.) -/
def isPunct (b : Nat) : Bool :=
  b == 0x7B || b == 0x7D || b == 0x5B || b == 0x5D || b == 0x3A || b == 0x2C

/-- Where the tokenizer is: outside of strings with the bytes of an unfinished atom, or inside one. (Part of
the model of serde_json, called by /repo/src/utils/json_simd.rs L24-69.) -/
inductive LexState
  | out (cur : List Nat)
  | str (raw : List Nat) (esc : Bool)

/-- Ends an atom. (Part of the model of serde_json, called by /repo/src/utils/json_simd.rs L24-69.) -/
def emit (cur : List Nat) (ts : List Tok) : List Tok := if cur.isEmpty then ts else .atom cur :: ts

/-- The tokens of a text; `none` if a string is not closed. (RFC 8259, sections 2 and 7.) (Part of the model
of serde_json, called by /repo/src/utils/json_simd.rs L24-69.) -/
def lex : LexState → List Nat → Option (List Tok)
  | .out cur, [] => some (emit cur [])
  | .str _ _, [] => none
  | .out cur, b :: l =>
    if isWs b then (lex (.out []) l).map (emit cur)
    else if b = 0x22 then (lex (.str [] false) l).map (emit cur)
    else if isPunct b then (lex (.out []) l).map (fun ts => emit cur (.punct b :: ts))
    else lex (.out (cur ++ [b])) l
  | .str raw true, b :: l => lex (.str (raw ++ [b]) false) l
  | .str raw false, b :: l =>
    if b = 0x5C then lex (.str (raw ++ [b]) true) l
    else if b = 0x22 then (lex (.out []) l).map (.str raw :: ·)
    else lex (.str (raw ++ [b]) false) l

/-- `serde_json::from_slice`. (Part of the model of serde_json, called by /repo/src/utils/json_simd.rs L24-69.) -/
def fromSlice {V : Type} (Q : List Tok → Option V) (input : List Nat) : Option V := (lex (.out []) input).bind Q

/-- The loop that strips whitespace; `ws.binary_search` is membership because the positions are in order.
src/utils/json_simd.rs:30-59. -/
def clean (ws : List Nat) : (i : Nat) → (inString escapeNext : Bool) → List Nat → List Nat
  | _, _, _, [] => []
  | i, inString, escapeNext, b :: l =>
    if escapeNext then b :: clean ws (i + 1) inString false l
    else if b = 0x5C ∧ inString = true then b :: clean ws (i + 1) inString true l
    else if b = 0x22 then b :: clean ws (i + 1) (!inString) false l
    else if inString = false ∧ i ∈ ws then clean ws (i + 1) inString false l
    else b :: clean ws (i + 1) inString false l

/-- `parse_json_fast`. The outer `none`: it has not returned after `fuel` rounds of an inner loop; the inner
`none`: an error. src/utils/json_simd.rs:11-69. -/
def parseFast {V : Type} (Q : List Tok → Option V) (fuel : Nat) (input : List Nat) : Option (Option V) :=
  if validateUtf8 input = false then some none
  else match findWhitespace fuel input with
    | none => none
    | some ws =>
      if ws.length < input.length / 10 then some (fromSlice Q input)
      else some (fromSlice Q (clean ws 0 false false input))

/-- `serialize_json_fast` on the output of `serde_json::to_vec`. src/utils/json_simd.rs:79-96. -/
def serializeFast (json : Option (List Nat)) : Option (List Nat) :=
  match json with
  | none => none
  | some j => if validateUtf8 j = false then none else some j

/-- A new line and the indentation. (/repo/src/utils/json_simd.rs L113-183.) -/
def newLine (indent : Nat) : List Char := '\n' :: List.replicate indent ' '

/-- What the printer adds for a byte outside of strings, and the indentation afterwards.
src/utils/json_simd.rs:144-170. -/
def prettyByte (indent : Nat) (b : Nat) : List Char × Nat :=
  if b = 0x7B ∨ b = 0x5B then (Char.ofNat b :: newLine (indent + 2), indent + 2)
  else if b = 0x7D ∨ b = 0x5D then (newLine (indent - 2) ++ [Char.ofNat b], indent - 2)
  else if b = 0x2C then (',' :: newLine indent, indent)
  else if b = 0x3A then ([':', ' '], indent)
  else if isWs b then ([], indent)
  else ([Char.ofNat b], indent)

/-- The loop of the printer; `byte as char` is the character with that number. src/utils/json_simd.rs:127-174. -/
def prettyLoop (escapes : List Nat) : (i indent : Nat) → (inString escapeNext : Bool) → List Nat → List Char
  | _, _, _, _, [] => []
  | i, indent, inString, escapeNext, b :: l =>
    if escapeNext then Char.ofNat b :: prettyLoop escapes (i + 1) indent inString false l
    else
      let hit := decide (i ∈ escapes)
      let escapeNext' := hit && b == 0x5C && inString
      let inString' := if hit && !(b == 0x5C && inString) && b == 0x22 then !inString else inString
      if inString' = false then
        (prettyByte indent b).1 ++ prettyLoop escapes (i + 1) (prettyByte indent b).2 inString' escapeNext' l
      else Char.ofNat b :: prettyLoop escapes (i + 1) indent inString' escapeNext' l

/-- `pretty_print_fast` on the output of `serde_json::to_vec`; `none`: it has not returned after `fuel` rounds.
src/utils/json_simd.rs:113-183. -/
def prettyFast (fuel : Nat) (compact : List Nat) : Option (List Char) :=
  match findEscapes fuel compact with
  | none => none
  | some escapes => some (prettyLoop escapes 0 0 false false compact)

end Verif.JsonFast
