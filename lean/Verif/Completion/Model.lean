import Verif.Common.Str
import Verif.Common.Utf8

/-
Completion providers: src/types/completable.rs. Strings are lists of characters. `description`, `icon` and
`metadata` of an item are carried through unchanged by both providers and are one opaque field here.
-/

namespace Verif.Completion

open Verif

/-- `CompletionItem` (completable.rs L135-154). -/
structure Item where
  value : List Char
  label : Option (List Char)
  rest : Nat
deriving DecidableEq, Repr

/-- `StaticCompletionProvider::from_strings` (L227-240). -/
def fromStrings (values : List (List Char)) : List Item := values.map (fun v => ⟨v, none, 0⟩)

/-- `StaticCompletionProvider::complete` (L245-268): the list of completions; `has_more` is always false. -/
def completeStatic (items : List Item) (partial_ : List Char) : List Item :=
  items.filter (fun i => (Str.stripPrefix partial_ i.value).isSome || match i.label with
    | some l => (Str.stripPrefix partial_ l).isSome
    | none => false)

/-! ### Paths: the functions of `std::path` the file provider uses, on Unix -/

/-- `Components::include_cur_dir`, `has_root`: the part of a path before its body: "/" of an absolute path, "." of
"." and "./..". (Standard library on Unix, called by /repo/src/types/completable.rs L304-388.) -/
def lead (s : List Char) : List Char :=
  match s with
  | '/' :: _ => ['/']
  | ['.'] => ['.']
  | '.' :: '/' :: _ => ['.']
  | _ => []

/-- The path after `lead`. (Standard library on Unix, called by /repo/src/types/completable.rs L304-388.) -/
def body (s : List Char) : List Char := s.drop (lead s).length

/-- The text after the last `c` .. (Standard library on Unix, called by /repo/src/types/completable.rs
L304-388.) -/
def afterLast (c : Char) (b : List Char) : List Char := (b.reverse.takeWhile (· ≠ c)).reverse

/-- .. and the text before it (empty if there is none). (Standard library on Unix, called by
/repo/src/types/completable.rs L304-388.) -/
def beforeLast (c : Char) (b : List Char) : List Char := ((b.reverse.dropWhile (· ≠ c)).drop 1).reverse

/-- `Components::parse_next_component_back`: the text after the last separator. (Standard library on Unix,
called by /repo/src/types/completable.rs L304-388.) -/
def lastSeg (b : List Char) : List Char := afterLast '/' b

/-- .. and what remains of the body without it and its separator. (Standard library on Unix, called by
/repo/src/types/completable.rs L304-388.) -/
def beforeSeg (b : List Char) : List Char := beforeLast '/' b

theorem beforeSeg_length (b : List Char) (h : b ≠ []) : (beforeSeg b).length < b.length := by
  simp only [beforeSeg, beforeLast, List.length_reverse, List.length_drop]
  have h1 : (b.reverse.dropWhile (· ≠ '/')).length ≤ b.reverse.length := (List.dropWhile_suffix _).length_le
  have : b.length ≠ 0 := by simpa using h
  rw [List.length_reverse] at h1
  omega

/-- `Components::trim_right`: empty and "." components at the end are dropped. (Standard library on Unix,
called by /repo/src/types/completable.rs L304-388.) -/
def trimBack (b : List Char) : List Char :=
  if h : b = [] then []
  else if lastSeg b = [] ∨ lastSeg b = ['.'] then trimBack (beforeSeg b) else b
termination_by b.length
decreasing_by exact beforeSeg_length b h

/-- `Path::file_name`. (Standard library on Unix, called by /repo/src/types/completable.rs L304-388.) -/
def fileName (s : List Char) : Option (List Char) :=
  let b := trimBack (body s)
  if b = [] then none else if lastSeg b = ['.', '.'] then none else some (lastSeg b)

/-- `Path::parent`. (Standard library on Unix, called by /repo/src/types/completable.rs L304-388.) -/
def parent (s : List Char) : Option (List Char) :=
  let b := trimBack (body s)
  if b = [] then (if lead s = ['.'] then some [] else none)
  else some (lead s ++ trimBack (beforeSeg b))

/-- `Path::is_absolute`. (Standard library on Unix, called by /repo/src/types/completable.rs L304-388.) -/
def isAbsolute (s : List Char) : Bool := s.head? == some '/'

/-- `Path::join`. (Standard library on Unix, called by /repo/src/types/completable.rs L304-388.) -/
def joinPath (a b : List Char) : List Char :=
  if isAbsolute b then b
  else if a = [] ∨ a.getLast? = some '/' then a ++ b
  else a ++ '/' :: b

/-- `Path::extension` of a file name. (Standard library on Unix, called by /repo/src/types/completable.rs
L304-388.) -/
def extension (name : List Char) : Option (List Char) :=
  if name = ['.', '.'] then none
  else
    if '.' ∉ name ∨ beforeLast '.' name = [] then none else some (afterLast '.' name)

/-! ### The file provider -/

/-- An entry of a directory; `name` is none if it is not UTF-8. (/repo/src/types/completable.rs L333-376.) -/
structure Entry where
  name : Option (List Char)
  isDir : Bool
deriving DecidableEq, Repr

/-- `FileCompletionProvider` (L274-279). -/
structure FileProvider where
  base : Option (List Char)
  extensions : Option (List (List Char))
deriving DecidableEq, Repr

/-- L308-320: the directory and the beginning of the name that were typed. -/
def splitTyped (typed : List Char) : List Char × List Char :=
  if typed.getLast? = some '/' then (typed, [])
  else ((parent typed).getD ['.'], (fileName typed).getD [])

/-- L322-328: the directory that is read. -/
def searchDir (p : FileProvider) (dir : List Char) : List Char :=
  if isAbsolute dir then dir
  else match p.base with
    | some b => joinPath b dir
    | none => dir

/-- L335-352: the entry is offered. -/
def offered (p : FileProvider) (pre : List Char) (e : Entry) : Bool :=
  match e.name with
  | none => false
  | some n =>
    (Str.stripPrefix pre n).isSome &&
      (e.isDir || match p.extensions with
        | none => true
        | some exts => match extension n with
          | some x => exts.contains x
          | none => false)

/-- L354-373: the item of an entry. -/
def itemOf (typed dir : List Char) (e : Entry) : Item :=
  let n := e.name.getD []
  ⟨if typed = [] then n else joinPath dir n, some n, if e.isDir then 1 else 2⟩

/-- `str::cmp`: the bytes in order. (/repo/src/types/completable.rs L379-380.) -/
def bytesLe : List Nat → List Nat → Bool
  | [], _ => true
  | _ :: _, [] => false
  | a :: s, b :: t => if a < b then true else if b < a then false else bytesLe s t

/-- `FileCompletionProvider::complete` (L303-387); `readDir` is the file system, in any order. -/
def completeFile (readDir : List Char → Option (List Entry)) (p : FileProvider) (typed : List Char) : List Item :=
  let (dir, pre) := splitTyped typed
  let entries := (readDir (searchDir p dir)).getD []
  ((entries.filter (offered p pre)).map (itemOf typed dir)).mergeSort
    (fun a b => bytesLe (Utf8.encode a.value) (Utf8.encode b.value))

end Verif.Completion
