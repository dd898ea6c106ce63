import Verif.Watcher.Model

/-
The builder of the resource watcher: C171.
-/

namespace Verif.Watcher

/-- `WatchConfig` (/repo/src/server/resource_watcher.rs L33-42). -/
structure WatchConfig where
  debounce : Nat
  patterns : List (List Char)
  ignored : List (List Char)
  maxResources : Nat
deriving DecidableEq

/-- `WatchConfig::default` (/repo/src/server/resource_watcher.rs L44-58), in milliseconds. -/
def defaultConfig : WatchConfig where
  debounce := 500
  patterns := ["**/*".toList]
  ignored := ["**/.git/**".toList, "**/node_modules/**".toList, "**/.DS_Store".toList, "**/target/**".toList]
  maxResources := 10000

/-- `ResourceWatcherBuilder` (/repo/src/server/resource_watcher.rs L393-397). -/
structure Builder (D : Type) where
  baseDir : Option D
  config : WatchConfig
deriving DecidableEq

/-- `ResourceWatcherBuilder::new` (/repo/src/server/resource_watcher.rs L400-405). -/
def newBuilder {D : Type} : Builder D := ⟨none, defaultConfig⟩

/-- The calls of the builder (/repo/src/server/resource_watcher.rs L407-435). -/
inductive Setting (D : Type) where
  | baseDir (d : D)
  | debounce (ms : Nat)
  | pattern (p : List Char)
  | ignore (p : List Char)
  | maxResources (n : Nat)

/-- One call (/repo/src/server/resource_watcher.rs L407-435). -/
def set {D : Type} (b : Builder D) : Setting D → Builder D
  | .baseDir d => { b with baseDir := some d }
  | .debounce n => { b with config := { b.config with debounce := n } }
  | .pattern p => { b with config := { b.config with patterns := b.config.patterns ++ [p] } }
  | .ignore p => { b with config := { b.config with ignored := b.config.ignored ++ [p] } }
  | .maxResources n => { b with config := { b.config with maxResources := n } }

/-- `build` (/repo/src/server/resource_watcher.rs L437-450); `none` is the error "Base directory not specified". -/
def build {D : Type} (b : Builder D) : Option (D × WatchConfig) := b.baseDir.map (fun d => (d, b.config))

/-- The watcher made by a chain of calls (/repo/src/server/resource_watcher.rs L400-450). -/
def built {D : Type} (l : List (Setting D)) : Option (D × WatchConfig) := build (l.foldl set newBuilder)

/-- The configuration the watcher runs with (/repo/src/server/resource_watcher.rs L199-200, L361-388): the settings,
with `glob_match` and the functions on paths. -/
def running {P R U : Type} (w : WatchConfig) (strip : P → Option R) (glob : List Char → R → Bool) (uri : P → U) :
    Config P (List Char) R U :=
  ⟨w.debounce, w.patterns, w.ignored, w.maxResources, strip, glob, uri⟩

/-! ### C171 -/

variable {D : Type}

/-- The base directories, patterns and so on given by a chain of calls, in order.
(Specification: no counterpart in the code.) -/
def bases (l : List (Setting D)) : List D := l.filterMap (fun | .baseDir d => some d | _ => none)
/-- (Specification: no counterpart in the code.) -/
def debounces (l : List (Setting D)) : List Nat := l.filterMap (fun | .debounce n => some n | _ => none)
/-- (Specification: no counterpart in the code.) -/
def patternsOf (l : List (Setting D)) : List (List Char) := l.filterMap (fun | .pattern p => some p | _ => none)
/-- (Specification: no counterpart in the code.) -/
def ignoresOf (l : List (Setting D)) : List (List Char) := l.filterMap (fun | .ignore p => some p | _ => none)
/-- (Specification: no counterpart in the code.) -/
def limits (l : List (Setting D)) : List Nat := l.filterMap (fun | .maxResources n => some n | _ => none)

theorem fold_set (l : List (Setting D)) (b : Builder D) : l.foldl set b =
    ⟨(bases l).getLast?.or b.baseDir,
      ⟨(debounces l).getLast?.getD b.config.debounce, b.config.patterns ++ patternsOf l, b.config.ignored ++ ignoresOf l,
        (limits l).getLast?.getD b.config.maxResources⟩⟩ := by
  induction l generalizing b with
  | nil => simp [bases, debounces, patternsOf, ignoresOf, limits]
  | cons x l ih =>
    rw [List.foldl_cons, ih]
    cases x with
    | baseDir d =>
      simp only [set, bases, debounces, patternsOf, ignoresOf, limits, List.filterMap_cons, List.getLast?_cons]
      cases (l.filterMap (fun | Setting.baseDir d => some d | _ => none)).getLast? <;> rfl
    | debounce n =>
      simp only [set, bases, debounces, patternsOf, ignoresOf, limits, List.filterMap_cons, List.getLast?_cons]
      cases (l.filterMap (fun | Setting.debounce d => some d | _ => none)).getLast? <;> rfl
    | pattern p => simp [set, bases, debounces, patternsOf, ignoresOf, limits]
    | ignore p => simp [set, bases, debounces, patternsOf, ignoresOf, limits]
    | maxResources n =>
      simp only [set, bases, debounces, patternsOf, ignoresOf, limits, List.filterMap_cons, List.getLast?_cons]
      cases (l.filterMap (fun | Setting.maxResources d => some d | _ => none)).getLast? <;> rfl

/-- C171: whatever the calls and their order, the watcher has the last base directory, debounce and limit given, or
the default ones, and all patterns given; building fails exactly when no base directory was given. -/
theorem C171_built (l : List (Setting D)) :
    built l = (bases l).getLast?.map (fun d => (d,
      ⟨(debounces l).getLast?.getD 500, "**/*".toList :: patternsOf l,
        ["**/.git/**".toList, "**/node_modules/**".toList, "**/.DS_Store".toList, "**/target/**".toList] ++ ignoresOf l,
        (limits l).getLast?.getD 10000⟩)) := by
  unfold built build
  rw [fold_set]
  simp [newBuilder, defaultConfig]

/-- C171, exactly: since the pattern `**/*` of the default is never dropped, a watcher made by the builder reports
every path below its directory that is not ignored; the patterns given make no difference.  (`hall`: that pattern
matches every relative path.)  The property asked for, that only paths that match a given pattern are reported,
fails. -/
theorem C171_reported_partial {P R U : Type} (l : List (Setting D)) (d : D) (w : WatchConfig) (h : built l = some (d, w))
    (strip : P → Option R) (glob : List Char → R → Bool) (hall : ∀ r, glob "**/*".toList r = true) (uri : P → U) (p : P) :
    (running w strip glob uri).accepts p = true ↔ ∃ r, strip p = some r ∧
      glob "**/.git/**".toList r = false ∧ glob "**/node_modules/**".toList r = false ∧
      glob "**/.DS_Store".toList r = false ∧ glob "**/target/**".toList r = false ∧
      ∀ g ∈ ignoresOf l, glob g r = false := by
  rw [C171_built] at h
  cases hb : (bases l).getLast? with
  | none => rw [hb] at h; cases h
  | some d' =>
    rw [hb] at h
    simp only [Option.map_some, Option.some.injEq, Prod.mk.injEq] at h
    obtain ⟨rfl, rfl⟩ := h
    simp only [Config.accepts, running]
    cases hs : strip p with
    | none => simp
    | some r =>
      simp only [List.any_cons, hall, Bool.true_or, Bool.and_true]
      simp [and_assoc]

/-- C171 fails: asked for source files only, the watcher reports a log file. -/
theorem C171_pattern_ignored : ∃ (w : WatchConfig) (glob : List Char → List Char → Bool),
    built [.baseDir "/srv".toList, .pattern "**/*.rs".toList] = some ("/srv".toList, w) ∧
    glob "**/*.rs".toList "build.log".toList = false ∧
    (running w some glob id).accepts "build.log".toList = true := by
  refine ⟨_, fun g _ => decide (g = "**/*".toList), rfl, ?_, ?_⟩ <;> decide

/-- `C171_built`: a chain of calls with a debounce given twice. -/
example : built [.baseDir 1, .debounce 200, .ignore "x".toList, .debounce 300, .pattern "a".toList] =
    some (1, ⟨300, ["**/*".toList, "a".toList],
      ["**/.git/**".toList, "**/node_modules/**".toList, "**/.DS_Store".toList, "**/target/**".toList, "x".toList], 10000⟩) := by
  decide

/-- `C171_built`: without a base directory. -/
example : built ([.debounce 200] : List (Setting Nat)) = none := by decide

/-- `C171_reported_partial`: its hypotheses hold of the watcher of `C171_pattern_ignored`, with a matcher that knows
`**/*` and literal patterns only. -/
example : (∃ w, built [.baseDir "/srv".toList, .pattern "**/*.rs".toList] = some ("/srv".toList, w)) ∧
    ∀ r : List Char, (fun g r => decide (g = "**/*".toList) || decide (g = r)) "**/*".toList r = true :=
  ⟨⟨_, rfl⟩, fun _ => rfl⟩

end Verif.Watcher
