import Verif.Common.AMap
import Verif.Common.Str
import Verif.Common.Decimal
import Verif.Common.Utf8

/-
Model of `src/shared/uri_template.rs`: parsing, expansion and matching of URI templates. Strings are lists of
characters. Trusted: the `regex` crate finds the leftmost match and prefers longer repetitions (`captures`,
`captures_iter`, `escape`), and `urlencoding::encode` is percent encoding of the UTF-8 bytes.
-/

namespace Verif.UriTemplate

open Verif Verif.Str

/-- `Operator`. src/shared/uri_template.rs:79-88. -/
inductive Operator
  | simple | reserved | fragment | label | pathSegment | pathParameter | query | queryContinuation
  deriving DecidableEq, Repr

/-- `Modifier`. src/shared/uri_template.rs:99-104. -/
inductive Modifier
  | prefix_ (n : Nat)
  | explode
  deriving DecidableEq, Repr

/-- `VarSpec`. src/shared/uri_template.rs:92-95. -/
structure VarSpec where
  name : List Char
  modifier : Option Modifier
  deriving DecidableEq, Repr

/-- `Expression`, reduced to the two variants that `parse_template` creates; the other eight "shouldn't be created
anymore" (line 293). src/shared/uri_template.rs:54-74. -/
inductive Expression
  | literal (text : List Char)
  | multiple (op : Operator) (specs : List VarSpec)
  deriving DecidableEq, Repr

/-- What `captures_iter` and the code around it cut a template into. /repo/src/shared/uri_template.rs L129-156. -/
inductive Piece
  | lit (text : List Char)
  | expr (content : List Char)
  deriving DecidableEq, Repr

/-- Adds literal text if there is any. src/shared/uri_template.rs:137-141,151-153. -/
def flush (lit : List Char) (rest : List Piece) : List Piece :=
  if lit.isEmpty then rest else .lit lit :: rest

/-- The pieces of a template: the matches of `\{([^}]+)\}` from left to right and the text between them.
`inside` is the text since the brace that might open a match. A brace closed at once is no match; one never
closed neither. src/shared/uri_template.rs:14,129-156. -/
def pieces (lit : List Char) (inside : Option (List Char)) : List Char → List Piece
  | [] => match inside with
    | none => flush lit []
    | some c => flush (lit ++ '{' :: c) []
  | x :: xs => match inside with
    | none => if x = '{' then pieces lit (some []) xs else pieces (lit ++ [x]) none xs
    | some c =>
      if x = '}' then
        if c.isEmpty then pieces (lit ++ ['{', '}']) none xs
        else flush lit (.expr c :: pieces [] none xs)
      else pieces lit (some (c ++ [x])) xs

/-- First character of a variable name, `[a-zA-Z_]`. src/shared/uri_template.rs:17-18. -/
def nameStart (c : Char) : Bool :=
  (97 ≤ c.toNat && c.toNat ≤ 122) || (65 ≤ c.toNat && c.toNat ≤ 90) || c.toNat == 95

/-- Further characters, `[a-zA-Z0-9_]`. src/shared/uri_template.rs:17-18. -/
def nameChar (c : Char) : Bool := nameStart c || (48 ≤ c.toNat && c.toNat ≤ 57)

/-- `validate_var_name`. src/shared/uri_template.rs:239-247. -/
def validName : List Char → Bool
  | [] => false
  | c :: cs => nameStart c && cs.all nameChar

/-- `parse_var_spec`; `none` is an error. src/shared/uri_template.rs:192-236. -/
def parseVarSpec (spec : List Char) : Option VarSpec :=
  if spec.isEmpty then none
  else if spec.getLast? = some '*' then
    if validName spec.dropLast then some ⟨spec.dropLast, some .explode⟩ else none
  else match splitOnce ':' spec with
    | some (name, len) =>
      if validName name then
        match Decimal.parseUnsigned (2 ^ 64) len with
        | some n => if n = 0 ∨ 10000 < n then none else some ⟨name, some (.prefix_ n)⟩
        | none => none
      else none
    | none => if validName spec then some ⟨spec, none⟩ else none

/-- The operator and the rest of an expression. src/shared/uri_template.rs:164-174. -/
def splitOperator : List Char → Operator × List Char
  | [] => (.simple, [])
  | c :: cs =>
    if c = '+' then (.reserved, cs)
    else if c = '#' then (.fragment, cs)
    else if c = '.' then (.label, cs)
    else if c = '/' then (.pathSegment, cs)
    else if c = ';' then (.pathParameter, cs)
    else if c = '?' then (.query, cs)
    else if c = '&' then (.queryContinuation, cs)
    else (.simple, c :: cs)

/-- All or nothing: `collect::<Result<Vec<_>>>()`. /repo/src/shared/uri_template.rs L176-186. -/
def allSome {α β : Type} (f : α → Option β) : List α → Option (List β)
  | [] => some []
  | a :: l => match f a with
    | none => none
    | some b => match allSome f l with
      | none => none
      | some bs => some (b :: bs)

/-- `parse_expression`. The list of specifications is never empty because `split` yields at least one part.
src/shared/uri_template.rs:159-189. -/
def parseExpression (e : List Char) : Option Expression :=
  if e.isEmpty then none
  else
    let p := splitOperator e
    (allSome (fun v => parseVarSpec (trim v)) (splitChar ',' p.2)).map (.multiple p.1)

/-- One piece. src/shared/uri_template.rs:135-147. -/
def parsePiece : Piece → Option Expression
  | .lit t => some (.literal t)
  | .expr c => parseExpression c

/-- `UriTemplate::new` and `parse_template`; `none` is an error. src/shared/uri_template.rs:118-156. -/
def parse (template : List Char) : Option (List Expression) := allSome parsePiece (pieces [] none template)

/-- Characters `urlencoding::encode` keeps: letters, digits and `-._~`. /repo/src/shared/uri_template.rs
L393-401. -/
def unreserved (c : Char) : Bool :=
  (97 ≤ c.toNat && c.toNat ≤ 122) || (65 ≤ c.toNat && c.toNat ≤ 90) || (48 ≤ c.toNat && c.toNat ≤ 57) ||
    c = '-' || c = '.' || c = '_' || c = '~'

/-- A hexadecimal digit in upper case. (/repo/src/shared/uri_template.rs L393-401.) -/
def hexDigit (n : Nat) : Char := if n < 10 then Char.ofNat (48 + n) else Char.ofNat (55 + n)

/-- `%XX`. (/repo/src/shared/uri_template.rs L393-401.) -/
def escapeByte (b : Nat) : List Char := ['%', hexDigit (b / 16), hexDigit (b % 16)]

/-- `urlencoding::encode` on one character. /repo/src/shared/uri_template.rs L393-401. -/
def encodeChar (c : Char) : List Char :=
  if unreserved c then [c] else (Utf8.encodeChar c).flatMap escapeByte

/-- `encode_value`. src/shared/uri_template.rs:393-401. -/
def encodeValue (v : List Char) (allowReserved : Bool) : List Char :=
  if allowReserved then v else v.flatMap encodeChar

/-- The value after the modifier. src/shared/uri_template.rs:335-346. -/
def modified (m : Option Modifier) (v : List Char) : List Char :=
  match m with
  | some (.prefix_ n) => v.take n
  | _ => v

/-- Whether the name is written before the value. src/shared/uri_template.rs:348-365. -/
def named : Operator → Bool
  | .pathParameter => true
  | .query => true
  | .queryContinuation => true
  | _ => false

/-- The part of one variable. src/shared/uri_template.rs:333-365. -/
def part (op : Operator) (vars : AMap (List Char) (List Char)) (s : VarSpec) : Option (List Char) :=
  match AMap.get vars s.name with
  | none => none
  | some v =>
    let e := encodeValue (modified s.modifier v) (op == .reserved)
    some (if named op then s.name ++ '=' :: e else e)

/-- The separator. src/shared/uri_template.rs:370-377. -/
def separator : Operator → List Char
  | .simple => [',']
  | .reserved => [',']
  | .label => ['.']
  | .pathSegment => ['/']
  | .pathParameter => [';']
  | .query => ['&']
  | .queryContinuation => ['&']
  | .fragment => [',']

/-- The prefix. src/shared/uri_template.rs:379-387. -/
def opPrefix : Operator → List Char
  | .fragment => ['#']
  | .label => ['.']
  | .pathSegment => ['/']
  | .pathParameter => [';']
  | .query => ['?']
  | .queryContinuation => ['&']
  | .simple => []
  | .reserved => []

/-- `expand_multiple`. src/shared/uri_template.rs:329-390. -/
def expandMultiple (op : Operator) (specs : List VarSpec) (vars : AMap (List Char) (List Char)) : List Char :=
  let parts := specs.filterMap (part op vars)
  if parts.isEmpty then [] else opPrefix op ++ join (separator op) parts

/-- `expand_expression`. src/shared/uri_template.rs:288-326. -/
def expandExpression (vars : AMap (List Char) (List Char)) : Expression → List Char
  | .literal t => t
  | .multiple op specs => expandMultiple op specs vars

/-- The map `collect`ed from pairs: a later pair replaces an earlier one. src/shared/uri_template.rs:268-271. -/
def toMap (vars : List (List Char × List Char)) : AMap (List Char) (List Char) :=
  vars.foldl (fun m p => AMap.insert m p.1 p.2) []

/-- `expand` and `expand_with_map`. src/shared/uri_template.rs:263-285. -/
def expand (t : List Expression) (vars : List (List Char × List Char)) : List Char :=
  t.flatMap (expandExpression (toMap vars))

/-- The parts of the regular expression made for a template: fixed text, and a group `(K+)` for a set `K` of
characters. /repo/src/shared/uri_template.rs L414-500. -/
inductive Item
  | fixed (text : List Char)
  | group (cls : Char → Bool)

/-- The set of characters and the fixed text before it, for one variable. `regex::escape` makes the name stand for
itself. src/shared/uri_template.rs:469-494. -/
def singleItems (op : Operator) (name : List Char) : List Item :=
  match op with
  | .simple => [.group (fun c => c != '/')]
  | .reserved => [.group (fun c => c != '/')]
  | .fragment => [.fixed ['#'], .group (fun c => c != '\n')]
  | .label => [.fixed ['.'], .group (fun c => c != '.')]
  | .pathSegment => [.fixed ['/'], .group (fun c => c != '/')]
  | .pathParameter => [.fixed (';' :: name ++ ['=']), .group (fun c => c != ';' && c != '&')]
  | .query => [.fixed ('?' :: name ++ ['=']), .group (fun c => c != '&')]
  | .queryContinuation => [.fixed ('&' :: name ++ ['=']), .group (fun c => c != '&')]

/-- The items of an expression; for several variables one group `(.+)`. src/shared/uri_template.rs:437-505. -/
def exprItems : Expression → List Item
  | .literal t => [.fixed t]
  | .multiple op [s] => singleItems op s.name
  | .multiple _ _ => [.group (fun c => c != '\n')]

/-- `to_regex_pattern`. src/shared/uri_template.rs:437-505. -/
def pattern (t : List Expression) : List Item := t.flatMap exprItems

/-- Tries `f` with `n`, `n - 1`, ..., `1`. (The preference of the `regex` crate,
/repo/src/shared/uri_template.rs L414-435.) -/
def tryDown {α : Type} (f : Nat → Option α) : Nat → Option α
  | 0 => none
  | n + 1 => match f (n + 1) with
    | some a => some a
    | none => tryDown f n

/-- `Regex::captures` for such a pattern between `^` and `$`: the groups of the match that is preferred, the one
with the longest first group, then the longest second group and so on. /repo/src/shared/uri_template.rs
L414-435. -/
def captures : List Item → List Char → Option (List (List Char))
  | [], s => if s.isEmpty then some [] else none
  | .fixed t :: r, s => match stripPrefix t s with
    | some s' => captures r s'
    | none => none
  | .group k :: r, s =>
    tryDown (fun n => (captures r (s.drop n)).map (fun g => s.take n :: g)) (s.takeWhile k).length

/-- `get_var_name`. src/shared/uri_template.rs:508-521. -/
def varName : Expression → Option (List Char)
  | .multiple _ [s] => some s.name
  | _ => none

/-- The loop of `match_uri`: the `n`-th expression with a name gets the `n`-th group.
src/shared/uri_template.rs:421-431. -/
def bind (groups : List (List Char)) : List Expression → AMap (List Char) (List Char) → AMap (List Char) (List Char)
  | [], m => m
  | e :: t, m => match varName e with
    | none => bind groups t m
    | some x => match groups with
      | [] => bind [] t m
      | g :: gs => bind gs t (AMap.insert m x g)

/-- `match_uri`. Compiling the pattern fails only by its size, which is not modelled.
src/shared/uri_template.rs:414-434. -/
def matchUri (t : List Expression) (uri : List Char) : Option (AMap (List Char) (List Char)) :=
  (captures (pattern t) uri).map (fun g => bind g t [])

/-- `variables`. src/shared/uri_template.rs:524-549. -/
def variables (t : List Expression) : List (List Char) :=
  t.flatMap (fun e => match e with
    | .literal _ => []
    | .multiple _ specs => specs.map (·.name))

end Verif.UriTemplate
