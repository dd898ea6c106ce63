import Verif.Common.AMap

/-
Registration at runtime.

Models /repo/src/server/dynamic.rs L28-330 and the lookup of a tool by the server, /repo/src/server/mod.rs L635-657.
Every section under one lock is one step; announcing a change to the listeners is a separate step (`announce`), so any
interleaving of callers is a list of steps. `reload_configuration` (dynamic.rs L288-313) is the steps `clearTools`,
`clearPrompts`, then the additions of the configuration. Handlers are opaque values; names are of any type.
-/

namespace Verif.Dynamic

open Verif

/-- The members of `ServerCapabilities` the manager touches; `rest` stands for all others.
/repo/src/server/dynamic.rs L98-255. -/
structure Caps (X : Type) where
  tools : Option (Option Bool)
  prompts : Option (Option Bool)
  resources : Option (Option Bool × Option Bool)
  sampling : Option Unit
  rest : X
  deriving DecidableEq

/-- The closures passed to `update_capabilities`. /repo/src/server/dynamic.rs L98-255, L316-330. -/
inductive Upd where
  | tools
  | prompts
  | resources (on : Bool)
  | sampling (on : Bool)
  | same
  deriving DecidableEq, Repr

variable {N H P R S L X : Type} [DecidableEq N]

/-- What the closures do (dynamic.rs L114-119, L137-139, L162-167, L185-187, L200-206, L218-221, L233-236,
L248-251). -/
def Upd.apply (c : Caps X) : Upd → Caps X
  | .tools => { c with tools := some (some true) }
  | .prompts => { c with prompts := some (some true) }
  | .resources true => { c with resources := some (some true, some true) }
  | .resources false => { c with resources := none }
  | .sampling true => { c with sampling := some () }
  | .sampling false => { c with sampling := none }
  | .same => c

/-- The server the manager was made for: its handlers and capabilities never change (`Arc<Server>`).
/repo/src/server/dynamic.rs L42-61. -/
structure Server (N H P X : Type) where
  tools : AMap N H
  prompts : AMap N P
  caps : Caps X

/-- `DynamicServerManager` (dynamic.rs L41-61); `jobs` are the announcements not yet made, `log` the calls of
listeners. -/
structure State (N H P R S L X : Type) where
  tools : AMap N H
  prompts : AMap N P
  resources : Option R
  sampling : Option S
  listeners : List L
  jobs : List Upd
  log : List (L × Caps X)

/-- `DynamicServerManager::new`, /repo/src/server/dynamic.rs L84-95. -/
def init : State N H P R S L X :=
  { tools := [], prompts := [], resources := none, sampling := none, listeners := [], jobs := [], log := [] }

/-- The sections under one lock of the methods, /repo/src/server/dynamic.rs L98-330. -/
inductive Op (N H P R S L : Type) where
  | addTool (n : N) (h : H)
  | removeTool (n : N)
  | addPrompt (n : N) (p : P)
  | removePrompt (n : N)
  | setResources (r : R)
  | removeResources
  | setSampling (s : S)
  | removeSampling
  | addListener (l : L)
  | clearTools
  | clearPrompts
  | announce (i : Nat)

/-- The result of the call: `Ok(())` or the "not found" error. /repo/src/server/dynamic.rs L125-143, L173-191. -/
inductive Res where
  | ok
  | notFound
  deriving DecidableEq, Repr

/-- `update_capabilities` (dynamic.rs L316-330): the capabilities of the server, changed by the closure, are
shown to every listener. -/
def announceTo (srv : Server N H P X) (u : Upd) (ls : List L) : List (L × Caps X) := ls.map (fun l => (l, u.apply srv.caps))

/-- One step. /repo/src/server/dynamic.rs L98-330. -/
def step (srv : Server N H P X) (s : State N H P R S L X) : Op N H P R S L → State N H P R S L X × Res
  | .addTool n h => ({ s with tools := AMap.insert s.tools n h, jobs := s.jobs ++ [.tools] }, .ok)
  | .removeTool n =>
    if AMap.contains s.tools n then ({ s with tools := AMap.remove s.tools n, jobs := s.jobs ++ [.same] }, .ok)
    else (s, .notFound)
  | .addPrompt n p => ({ s with prompts := AMap.insert s.prompts n p, jobs := s.jobs ++ [.prompts] }, .ok)
  | .removePrompt n =>
    if AMap.contains s.prompts n then ({ s with prompts := AMap.remove s.prompts n, jobs := s.jobs ++ [.same] }, .ok)
    else (s, .notFound)
  | .setResources r => ({ s with resources := some r, jobs := s.jobs ++ [.resources true] }, .ok)
  | .removeResources => ({ s with resources := none, jobs := s.jobs ++ [.resources false] }, .ok)
  | .setSampling x => ({ s with sampling := some x, jobs := s.jobs ++ [.sampling true] }, .ok)
  | .removeSampling => ({ s with sampling := none, jobs := s.jobs ++ [.sampling false] }, .ok)
  | .addListener l => ({ s with listeners := s.listeners ++ [l] }, .ok)
  | .clearTools => ({ s with tools := [] }, .ok)
  | .clearPrompts => ({ s with prompts := [] }, .ok)
  | .announce i => match s.jobs[i]? with
    | none => (s, .ok)
    | some u => ({ s with jobs := s.jobs.eraseIdx i, log := s.log ++ announceTo srv u s.listeners }, .ok)

/-- A history of steps of any callers of /repo/src/server/dynamic.rs L98-330. -/
def run (srv : Server N H P X) : State N H P R S L X → List (Op N H P R S L) → State N H P R S L X
  | s, [] => s
  | s, op :: r => run srv (step srv s op).1 r

/-- `has_tool` (dynamic.rs L278-280). -/
def hasTool (srv : Server N H P X) (s : State N H P R S L X) (n : N) : Bool :=
  AMap.contains s.tools n || AMap.contains srv.tools n

/-- `has_prompt` (dynamic.rs L283-285). -/
def hasPrompt (srv : Server N H P X) (s : State N H P R S L X) (n : N) : Bool :=
  AMap.contains s.prompts n || AMap.contains srv.prompts n

/-- The tool the server calls for a request of a client: `self.tools.get(&req.name)` (server/mod.rs L640-643). -/
def serverTool (srv : Server N H P X) (n : N) : Option H := AMap.get srv.tools n

end Verif.Dynamic
