import Verif.Common.Str

/-
Model of `RootsManager`, `/repo/src/server/roots.rs`.  Each critical section under the write lock is
one step.  The function returned by `register_root` is a handle, numbered by registration; it spawns a
task, whose critical section is the step `unregister`.
-/

namespace Verif.Roots

/-- Strings. (`uri` and `name` of /repo/src/server/roots.rs L15-22.) -/
abbrev Text := List Char

/-- `Root`, /repo/src/server/roots.rs L18-26. -/
structure Root where
  uri : Text
  name : Option Text
  deriving DecidableEq

/-- The manager: the list of roots, and for every handle returned so far the uri captured by it and
whether it has been called (`FnOnce`). /repo/src/server/roots.rs L36-41, L93-143. -/
structure State where
  roots : List Root := []
  handles : List (Text × Bool) := []
  deriving DecidableEq

/-- The scheme required at /repo/src/server/roots.rs L100. -/
def scheme : Text := "file://".toList

/-- Calls: register a root, or run the task spawned by the `k`-th handle. /repo/src/server/roots.rs L93-143. -/
inductive Op where
  | register (uri : Text) (name : Option Text)
  | unregister (k : Nat)
  deriving DecidableEq

/-- `iter().position(|r| r.uri == uri)` followed by `remove(pos)`, /repo/src/server/roots.rs L131-132:
the first root with that uri is removed. -/
def removeFirst (uri : Text) : List Root → List Root
  | [] => []
  | r :: rs => if r.uri = uri then rs else r :: removeFirst uri rs

/-- What a call returns or sends. /repo/src/server/roots.rs L93-183. -/
inductive Out where
  | handle (k : Nat)
  | invalid
  | removed
  | nothing
  deriving DecidableEq

/-- One step, /repo/src/server/roots.rs L93-143.  `removed` means that a list-changed notification is
sent (as after a successful registration). -/
def step (s : State) : Op → State × Out
  | .register uri name =>
    if uri.take scheme.length = scheme then
      (⟨s.roots ++ [⟨uri, name⟩], s.handles ++ [(uri, false)]⟩, .handle s.handles.length)
    else (s, .invalid)
  | .unregister k =>
    match s.handles[k]? with
    | some (uri, false) =>
      (⟨removeFirst uri s.roots, s.handles.set k (uri, true)⟩,
        if (s.roots.any (fun r => decide (r.uri = uri))) then .removed else .nothing)
    | _ => (s, .nothing)

/-- State after a history. (Calls of /repo/src/server/roots.rs L93-143.) -/
def run (h : List Op) : State := h.foldl (fun s op => (step s op).1) {}

/-- `get_roots`, /repo/src/server/roots.rs L146-148. -/
def getRoots (s : State) : List Root := s.roots

/-- `has_roots`, /repo/src/server/roots.rs L171-173. -/
def hasRoots (s : State) : Bool := !s.roots.isEmpty

end Verif.Roots
