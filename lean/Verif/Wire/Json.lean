import Verif.Common.AMap

/-
JSON values and the conventions of serde's derived implementations.

`serde_json::Value` with the feature `preserve_order` (/repo/Cargo.toml L19): an object is a list of entries.
serde and serde_json are trusted; the functions here state how their derived `Serialize` and `Deserialize`
behave on `Value` for the attributes used in /repo/src/types (rename_all, default, skip_serializing_if, flatten,
tag, content, untagged).
-/

namespace Verif.Wire

/-- `serde_json::Number`: an integer, or a float (always finite). Floats are represented by their value.
Models serde/serde_json for the derives of /repo/src/types/protocol.rs L20-890. -/
inductive Num where
  | int (n : Int)
  | flt (q : Rat)
  deriving Repr, DecidableEq

/-- `serde_json::Value`. Models serde/serde_json for the derives of /repo/src/types/protocol.rs L20-890. -/
inductive Json where
  | null
  | bool (b : Bool)
  | num (n : Num)
  | str (s : String)
  | arr (l : List Json)
  | obj (f : List (String × Json))
  deriving Repr, Inhabited

/-- `f64`. Rounding is not modelled. Models serde/serde_json for the derives of /repo/src/types/protocol.rs
L20-890. -/
inductive F64 where
  | fin (q : Rat)
  | nan
  | inf (negative : Bool)
  deriving Repr, DecidableEq

/-- Models serde/serde_json for the derives of /repo/src/types/protocol.rs L20-890. -/
def F64.finite : F64 → Bool
  | .fin _ => true
  | _ => false

/-! ### Encoding structs -/

/-- The object of a derived struct: fields whose value is skipped (`skip_serializing_if`) are absent.
Models serde/serde_json for the derives of /repo/src/types/protocol.rs L20-890. -/
def ob (l : List (String × Option Json)) : List (String × Json) :=
  l.filterMap (fun p => p.2.map (fun j => (p.1, j)))

@[simp] theorem ob_nil : ob [] = [] := rfl

@[simp] theorem get_ob_cons (a : String) (o : Option Json) (l : List (String × Option Json)) (k : String) :
    AMap.get (ob ((a, o) :: l)) k = if a = k then o.or (AMap.get (ob l) k) else AMap.get (ob l) k := by
  cases o with
  | none => simp [ob]
  | some j =>
    show AMap.get ((a, j) :: ob l) k = _
    rw [AMap.get_cons]
    split <;> simp

/-! ### Decoding structs -/

/-- What a derived struct is read from: an object, or an array of the fields in order.
Models serde/serde_json for the derives of /repo/src/types/protocol.rs L20-890. -/
inductive Src where
  | obj (f : List (String × Json))
  | arr (l : List Json)

/-- `deserialize_struct` on a `Value`, for a struct of `n` fields.
Models serde/serde_json for the derives of /repo/src/types/protocol.rs L20-890. -/
def src (n : Nat) : Json → Option Src
  | .obj f => some (.obj f)
  | .arr l => if l.length ≤ n then some (.arr l) else none
  | _ => none

@[simp] theorem src_obj (n : Nat) (f : List (String × Json)) : src n (.obj f) = some (.obj f) := rfl

/-- A required field: name `k`, position `i`. Models serde/serde_json for the derives of
/repo/src/types/protocol.rs L20-890. -/
def req {α : Type} (d : Json → Option α) (s : Src) (k : String) (i : Nat) : Option α :=
  match s with
  | .obj f => (AMap.get f k).bind d
  | .arr l => l[i]?.bind d

/-- `Option<T>` from a present value. Models serde/serde_json for the derives of /repo/src/types/protocol.rs
L20-890. -/
def decOpt {α : Type} (d : Json → Option α) : Json → Option (Option α)
  | .null => some none
  | j => (d j).map some

/-- A field of type `Option<T>` (absent in an object means `None`).
Models serde/serde_json for the derives of /repo/src/types/protocol.rs L20-890. -/
def optOf {α : Type} (d : Json → Option α) : Option Json → Option (Option α)
  | none => some none
  | some j => decOpt d j

/-- A field of type `Option<T>`: name `k`, position `i`. Models serde/serde_json for the derives of
/repo/src/types/protocol.rs L20-890. -/
def opt {α : Type} (d : Json → Option α) (s : Src) (k : String) (i : Nat) : Option (Option α) :=
  match s with
  | .obj f => optOf d (AMap.get f k)
  | .arr l => l[i]?.bind (decOpt d)

/-- A field with `#[serde(default)]`. Models serde/serde_json for the derives of /repo/src/types/protocol.rs
L20-890. -/
def dflt {α : Type} (d : Json → Option α) (x : α) (s : Src) (k : String) (i : Nat) : Option α :=
  match s with
  | .obj f => match AMap.get f k with
    | none => some x
    | some j => d j
  | .arr l => match l[i]? with
    | none => some x
    | some j => d j

@[simp] theorem req_obj {α : Type} (d : Json → Option α) (f : List (String × Json)) (k : String) (i : Nat) :
    req d (.obj f) k i = (AMap.get f k).bind d := rfl

@[simp] theorem opt_obj {α : Type} (d : Json → Option α) (f : List (String × Json)) (k : String) (i : Nat) :
    opt d (.obj f) k i = optOf d (AMap.get f k) := rfl

@[simp] theorem dflt_obj {α : Type} (d : Json → Option α) (x : α) (f : List (String × Json)) (k : String) (i : Nat) :
    dflt d x (.obj f) k i = (match AMap.get f k with
      | none => some x
      | some j => d j) := rfl

@[simp] theorem optOf_none {α : Type} (d : Json → Option α) : optOf d none = some none := rfl

/-- A skipped-if-none field comes back, if its value is not encoded as `null`. -/
theorem optOf_map {α : Type} (d : Json → Option α) (e : α → Json) (x : Option α)
    (h : ∀ a, x = some a → d (e a) = some a ∧ e a ≠ .null) : optOf d (x.map e) = some x := by
  cases x with
  | none => rfl
  | some a =>
    obtain ⟨h1, h2⟩ := h a rfl
    simp only [Option.map_some, optOf]
    cases he : e a <;> simp_all [decOpt]

/-! ### Primitive types -/

/-- `String`. Models serde/serde_json for the derives of /repo/src/types/protocol.rs L20-890. -/
def decStr : Json → Option String
  | .str s => some s
  | _ => none

/-- `bool`. Models serde/serde_json for the derives of /repo/src/types/protocol.rs L20-890. -/
def decBool : Json → Option Bool
  | .bool b => some b
  | _ => none

/-- `Value`. Models serde/serde_json for the derives of /repo/src/types/protocol.rs L20-890. -/
def decVal (j : Json) : Option Json := some j

/-- `f64`: non-finite floats are encoded as `null`. Models serde/serde_json for the derives of
/repo/src/types/protocol.rs L20-890. -/
def encF64 : F64 → Json
  | .fin q => .num (.flt q)
  | _ => .null

/-- `f64`: any number. Models serde/serde_json for the derives of /repo/src/types/protocol.rs L20-890. -/
def decF64 : Json → Option F64
  | .num (.flt q) => some (.fin q)
  | .num (.int n) => some (.fin n)
  | _ => none

/-- An integer type with values in `[lo, hi)`. Models serde/serde_json for the derives of
/repo/src/types/protocol.rs L20-890. -/
abbrev IntIn (lo hi : Int) := { n : Int // lo ≤ n ∧ n < hi }

/-- Models serde/serde_json for the derives of /repo/src/types/protocol.rs L20-890. -/
abbrev U32 := IntIn 0 (2 ^ 32)
/-- `usize` of a 64-bit machine. Models serde/serde_json for the derives of /repo/src/types/protocol.rs L20-890. -/
abbrev U64 := IntIn 0 (2 ^ 64)
/-- Models serde/serde_json for the derives of /repo/src/types/protocol.rs L20-890. -/
abbrev I32 := IntIn (-2 ^ 31) (2 ^ 31)
/-- Models serde/serde_json for the derives of /repo/src/types/protocol.rs L20-890. -/
abbrev I64 := IntIn (-2 ^ 63) (2 ^ 63)

/-- Integer types: integers in range; floats are refused. Models serde/serde_json for the derives of
/repo/src/types/protocol.rs L20-890. -/
def decInt (lo hi : Int) : Json → Option (IntIn lo hi)
  | .num (.int n) => if h : lo ≤ n ∧ n < hi then some ⟨n, h⟩ else none
  | _ => none

/-- Models serde/serde_json for the derives of /repo/src/types/protocol.rs L20-890. -/
def encInt {lo hi : Int} (n : IntIn lo hi) : Json := .num (.int n.1)

/-- Elements one after the other. Models serde/serde_json for the derives of /repo/src/types/protocol.rs
L20-890. -/
def decAll {α : Type} (d : Json → Option α) : List Json → Option (List α)
  | [] => some []
  | j :: l => (d j).bind (fun a => (decAll d l).map (a :: ·))

/-- `Vec<T>`. Models serde/serde_json for the derives of /repo/src/types/protocol.rs L20-890. -/
def decList {α : Type} (d : Json → Option α) : Json → Option (List α)
  | .arr l => decAll d l
  | _ => none

/-- Models serde/serde_json for the derives of /repo/src/types/protocol.rs L20-890. -/
def encList {α : Type} (e : α → Json) (l : List α) : Json := .arr (l.map e)

/-- Values of the entries one after the other. Models serde/serde_json for the derives of
/repo/src/types/protocol.rs L20-890. -/
def decEntries {α : Type} (d : Json → Option α) : List (String × Json) → Option (List (String × α))
  | [] => some []
  | (k, j) :: l => (d j).bind (fun a => (decEntries d l).map ((k, a) :: ·))

/-- `HashMap<String, T>`. Models serde/serde_json for the derives of /repo/src/types/protocol.rs L20-890. -/
def decMap {α : Type} (d : Json → Option α) : Json → Option (List (String × α))
  | .obj f => decEntries d f
  | _ => none

/-- Models serde/serde_json for the derives of /repo/src/types/protocol.rs L20-890. -/
def encMap {α : Type} (e : α → Json) (m : List (String × α)) : Json := .obj (m.map (fun p => (p.1, e p.2)))

/-- An enum of unit variants: the name, or an object with the name as its key and `null` as value.
Models serde/serde_json for the derives of /repo/src/types/protocol.rs L20-890. -/
def decEnum {α : Type} (table : String → Option α) : Json → Option α
  | .str s => table s
  | .obj [(s, .null)] => table s
  | _ => none

@[simp] theorem decStr_str (s : String) : decStr (.str s) = some s := rfl
@[simp] theorem decBool_bool (b : Bool) : decBool (.bool b) = some b := rfl
@[simp] theorem decVal_eq (j : Json) : decVal j = some j := rfl

@[simp] theorem decInt_enc {lo hi : Int} (n : IntIn lo hi) : decInt lo hi (encInt n) = some n := by
  simp [decInt, encInt, n.2]

@[simp] theorem optInt {lo hi : Int} (x : Option (IntIn lo hi)) : optOf (decInt lo hi) (x.map encInt) = some x := by
  cases x with
  | none => rfl
  | some n => simp [optOf, decOpt, encInt, decInt, n.2]

theorem decF64_enc (x : F64) (h : x.finite = true) : decF64 (encF64 x) = some x := by
  cases x <;> simp_all [F64.finite, encF64, decF64]

theorem decAll_map {α : Type} (d : Json → Option α) (e : α → Json) (l : List α) (h : ∀ a ∈ l, d (e a) = some a) :
    decAll d (l.map e) = some l := by
  induction l with
  | nil => rfl
  | cons a l ih =>
    simp only [List.map_cons, decAll, h a (by simp), Option.bind_some]
    rw [ih (fun b hb => h b (by simp [hb]))]
    rfl

theorem decList_enc {α : Type} (d : Json → Option α) (e : α → Json) (l : List α) (h : ∀ a ∈ l, d (e a) = some a) :
    decList d (encList e l) = some l := decAll_map d e l h

theorem decMap_enc {α : Type} (d : Json → Option α) (e : α → Json) (m : List (String × α))
    (h : ∀ p ∈ m, d (e p.2) = some p.2) : decMap d (encMap e m) = some m := by
  unfold decMap encMap
  induction m with
  | nil => rfl
  | cons a l ih =>
    obtain ⟨k, v⟩ := a
    simp only [List.map_cons, decEntries, h (k, v) (by simp), Option.bind_some]
    have := ih (fun b hb => h b (by simp [hb]))
    simp only at this
    rw [this]; rfl

@[simp] theorem optStr (x : Option String) : optOf decStr (x.map Json.str) = some x :=
  optOf_map _ _ x (fun _ _ => ⟨rfl, by simp⟩)

@[simp] theorem optBool (x : Option Bool) : optOf decBool (x.map Json.bool) = some x :=
  optOf_map _ _ x (fun _ _ => ⟨rfl, by simp⟩)

theorem optVal (x : Option Json) (h : x ≠ some .null) : optOf decVal x = some x := by
  have := optOf_map decVal id x (fun a ha => ⟨rfl, by rintro rfl; exact h ha⟩)
  simpa using this

theorem optF64 (x : Option F64) (h : ∀ f, x = some f → f.finite = true) : optOf decF64 (x.map encF64) = some x := by
  refine optOf_map _ _ x (fun a ha => ⟨decF64_enc a (h a ha), ?_⟩)
  have := h a ha
  cases a <;> simp_all [F64.finite, encF64]

@[simp] theorem decList_str (l : List String) : decList decStr (encList Json.str l) = some l :=
  decList_enc _ _ l (fun _ _ => rfl)

@[simp] theorem optStrs (x : Option (List String)) : optOf (decList decStr) (x.map (encList Json.str)) = some x :=
  optOf_map _ _ x (fun a _ => ⟨decList_str a, by simp [encList]⟩)

end Verif.Wire
