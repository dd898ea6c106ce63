import Verif.Common.Str
import Verif.Wire.Json

/-
Model of the procedural macros, /repo/pmcp-macros/src/{tool,tool_router,utils}.rs: the functions on names and
attribute texts, and the meaning of the code that the macros generate.  The code generated names items that the
crate `pmcp` does not have (`pmcp::types::Tool`, `Error::ToolError`, `Error::InvalidParams`, `Error::InternalError`,
`Error::MethodNotFound`); what is modelled is what it says.  Tokenising and parsing of Rust (`syn`, `darling`) are
not modelled.
-/

namespace Verif.Macros

open Verif Verif.Str
open Verif.Wire (Json)

/-- (Specification: no counterpart in the code.) -/
abbrev Text := List Char

/-- The tables of Rust's `char` used (/repo/pmcp-macros/src/utils.rs L59-90): upper case of a character, possibly
several, and for `to_snake_case` whether a character is upper case and the first character of its lower case. -/
structure Case where
  up : Char → List Char
  isUpper : Char → Bool
  low : Char → Char

/-- One word of a name (/repo/pmcp-macros/src/tool.rs L251-261, /repo/pmcp-macros/src/utils.rs L59-69). -/
def capital (k : Case) : Text → Text
  | [] => []
  | c :: cs => k.up c ++ cs

/-- `to_pascal_case` (/repo/pmcp-macros/src/tool.rs L251-261, /repo/pmcp-macros/src/utils.rs L59-69). -/
def toPascal (k : Case) (s : Text) : Text := (splitChar '_' s).flatMap (capital k)

/-- The loop of `to_snake_case` (/repo/pmcp-macros/src/utils.rs L73-88): whether the character is the first, and
whether the one before was upper case. -/
def snakeLoop (k : Case) : Bool → Bool → Text → Text
  | _, _, [] => []
  | first, prev, c :: cs =>
    if k.isUpper c then (if !first && !prev then ['_'] else []) ++ k.low c :: snakeLoop k false true cs
    else c :: snakeLoop k false false cs

/-- `to_snake_case` (/repo/pmcp-macros/src/utils.rs L72-90). -/
def toSnake (k : Case) (s : Text) : Text := snakeLoop k true false s

/-- The name of the type generated for a function (/repo/pmcp-macros/src/tool.rs L67-71). -/
def wrapper (k : Case) (fn : Text) : Text := toPascal k fn ++ "ToolHandler".toList

/-! ### Parameters -/

/-- `ParamInfo` (/repo/pmcp-macros/src/tool.rs L137-141), with `serde_json::from_value` for its type (for an
optional parameter the type inside of `Option`), and what `.get` finds in its value if it hides the arguments: the
generated code binds each parameter by its own name, so that one named `args`, of type `serde_json::Value`, hides
the arguments from those after it. -/
structure Param (V : Type) where
  name : Text
  optional : Bool
  read : Json → Option V
  again : V → Json

/-- `args.get(name)` (/repo/pmcp-macros/src/tool.rs L187-193): a member of an object. -/
def member (j : Json) (name : Text) : Option Json :=
  match j with
  | .obj f => (f.find? (fun p => p.1 == String.ofList name)).map (·.2)
  | _ => none

/-- What a parameter is bound to (/repo/pmcp-macros/src/tool.rs L185-199): the outer `none` is the error "Missing
required parameter".  `unwrap_or_default` makes an optional parameter `None` if its value cannot be read; `null` is
read as `None`. -/
def bindParam {V : Type} (args : Json) (p : Param V) : Option (Option V) :=
  match member args p.name with
  | none => if p.optional then some none else none
  | some v =>
    if p.optional then
      match v with
      | .null => some none
      | _ => some (p.read v)
    else (p.read v).map some

/-- The bindings generated (/repo/pmcp-macros/src/tool.rs L177-205), in order; the error is the name of the
parameter.  After a parameter called `args` the others are looked for in its value. -/
def bindAll {V : Type} (args : Json) : List (Param V) → Except Text (List (Option V))
  | [] => .ok []
  | p :: ps =>
    match bindParam args p with
    | none => .error p.name
    | some v =>
      match bindAll (if p.name = "args".toList then (match v with | some x => p.again x | none => .null) else args) ps with
      | .error e => .error e
      | .ok vs => .ok (v :: vs)

/-- `input_schema` (/repo/pmcp-macros/src/tool.rs L120-129, /repo/pmcp-macros/src/tool_router.rs L175-185): the same
for every function. -/
def schema {V : Type} (_ : List (Param V)) : Json :=
  .obj [("type", .str "object"), ("properties", .obj []), ("required", .arr [])]

/-! ### Results -/

/-- What a function returns (/repo/pmcp-macros/src/tool.rs L169-174): a plain value, or a `Result`.  `ok`, `err` and
the plain value are given as the outcome of `serde_json::to_value` on them (`none`: it fails) and, for an error, its
text. -/
inductive Ret where
  | plain (v : Option Json)
  | ok (v : Option Json)
  | err (v : Option Json) (text : Text)

/-- What the handler returns (/repo/pmcp-macros/src/tool.rs L94-107). -/
inductive Answer where
  | ok (v : Json)
  | toolError (text : Text)
  | internal
  | invalidParams (name : Text)

/-- `serde_json::to_value` of what was returned (/repo/pmcp-macros/src/tool.rs L222-226): a `Result` is an object
with the member `Ok` or `Err`. -/
def valueOf : Ret → Option Json
  | .plain v => v
  | .ok v => v.map (fun j => .obj [("Ok", j)])
  | .err v _ => v.map (fun j => .obj [("Err", j)])

/-- `generate_result_conversion` (/repo/pmcp-macros/src/tool.rs L208-228).  `named`: the last segment of the return
type as written is `Result` (`is_result_type`, L241-248); then the value is a `Result`, or the code does not
compile. -/
def convert (named : Bool) (r : Ret) : Answer :=
  if named then
    match r with
    | .ok v | .plain v => match v with
      | some j => .ok j
      | none => .internal
    | .err _ t => .toolError t
  else
    match valueOf r with
    | some j => .ok j
    | none => .internal

/-- The generated `handle` (/repo/pmcp-macros/src/tool.rs L93-108). -/
def handle {V : Type} (ps : List (Param V)) (named : Bool) (f : List (Option V) → Ret) (args : Json) : Answer :=
  match bindAll args ps with
  | .error n => .invalidParams n
  | .ok vs => convert named (f vs)

/-! ### Attributes -/

/-- `s.find(pat)` and the text after it (/repo/pmcp-macros/src/tool_router.rs L143-145, L153-155): after the first
match. -/
def after (pat : Text) : Text → Option Text
  | [] => stripPrefix pat []
  | c :: cs => match stripPrefix pat (c :: cs) with
    | some r => some r
    | none => after pat cs

/-- `&s[..s.find('"')?]` (/repo/pmcp-macros/src/tool_router.rs L145-147, L155-157). -/
def untilQuote (s : Text) : Option Text := (splitOnce '"' s).map (·.1)

/-- The value of a key in the text of an attribute (/repo/pmcp-macros/src/tool_router.rs L140-159).  The conditions
`contains` there follow from the match. -/
def keyValue (key : Text) (s : Text) : Option Text := (after (key ++ " = \"".toList) s).bind untilQuote

/-- `parse_tool_attribute` (/repo/pmcp-macros/src/tool_router.rs L133-166): name, if found, and description; `none`
is the error "Tool must have a description". -/
def parseAttr (s : Text) : Option (Option Text × Text) :=
  (keyValue "description".toList s).map (fun d => (keyValue "name".toList s, d))

/-! ### The router -/

/-- `ToolMethod` (/repo/pmcp-macros/src/tool_router.rs L30-35), with the method as a function of the arguments. -/
structure Method where
  toolName : Text
  description : Text
  run : Json → Ret

/-- A tool as listed (/repo/pmcp-macros/src/tool_router.rs L169-196). -/
structure Listed where
  name : Text
  description : Text
  schema : Json

/-- The generated `tools` (/repo/pmcp-macros/src/tool_router.rs L169-196). -/
def tools (ms : List Method) : List Listed :=
  ms.map (fun m => ⟨m.toolName, m.description, .obj [("type", .str "object"), ("properties", .obj []), ("required", .arr [])]⟩)

/-- The generated `handle_tool` (/repo/pmcp-macros/src/tool_router.rs L199-236): the arms of a `match` in order;
`none` is the error "Unknown tool". -/
def route (ms : List Method) (name : Text) (args : Json) : Option Answer :=
  match ms with
  | [] => none
  | m :: ms =>
    if m.toolName = name then
      match m.run args with
      | .ok (some j) => some (.ok j)
      | .ok none => some .internal  -- the error of `to_value`
      | .err _ t => some (.toolError t)
      | .plain _ => some .internal  -- does not compile
    else route ms name args

/-- `parse_visibility` (/repo/pmcp-macros/src/tool_router.rs L250-262); `none` is an error. -/
def visibility : Option Text → Option Text
  | none => some "pub".toList
  | some s =>
    if s = "pub".toList then some "pub".toList
    else if s = "pub(crate)".toList then some "pub(crate)".toList
    else if s = "pub(super)".toList then some "pub(super)".toList
    else if s.isEmpty then some []
    else none

end Verif.Macros
