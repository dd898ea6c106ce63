import Verif.Context.Model

/-
Task-local request contexts and structured logging.

Models /repo/src/shared/context.rs L12-15, L195-207 (the task-local `REQUEST_CONTEXT`) with the futures that
run under it, and /repo/src/shared/logging.rs.  Strings are lists of characters, JSON values are opaque.
-/

namespace Verif.Logging

open Verif Verif.Context

/-! ### Tasks -/

/-- The code of a task, as far as contexts matter: it writes a log entry, waits, spawns another task, or awaits
`context.run(body)` (/repo/src/shared/context.rs L201-207, logging.rs L386-410).  `scope` holds the value of the
`TaskLocalFuture` while it is not being polled; `done` is the end of the code. -/
inductive Fut (C E : Type) where
  | done
  | emit (e : E) (k : Fut C E)
  | pause (k : Fut C E)
  | spawn (body k : Fut C E)
  | scope (slot : Option C) (body k : Fut C E)

/-- `context.run(body).await; k` (/repo/src/shared/context.rs L201-207). -/
def under {C E : Type} (c : C) (body k : Fut C E) : Fut C E := .scope (some c) body k

/-- What one poll did: the task-local of the thread afterwards, the rest of the future (`none` is `Ready`), the
entries written with the context each found, and the futures spawned.  (/repo/src/shared/context.rs L195-207.) -/
structure Polled (C E : Type) where
  tls : Option C
  rest : Option (Fut C E)
  out : List (E × Option C)
  spawned : List (Fut C E)

/-- One poll of a future on a thread whose task-local holds `t` (/repo/src/shared/context.rs L195-207).
`LocalKey::scope` swaps its value with the thread's before polling the body and swaps back afterwards;
`current` reads the thread's value. -/
def poll {C E : Type} : Option C → Fut C E → Polled C E
  | t, .done => ⟨t, none, [], []⟩
  | t, .emit e k => let r := poll t k; { r with out := (e, t) :: r.out }
  | t, .pause k => ⟨t, some k, [], []⟩
  | t, .spawn b k => let r := poll t k; { r with spawned := b :: r.spawned }
  | t, .scope s b k =>
    let r := poll s b
    match r.rest with
    | some b' => ⟨t, some (.scope r.tls b' k), r.out, r.spawned⟩
    | none => let q := poll t k; ⟨q.tls, q.rest, r.out ++ q.out, r.spawned ++ q.spawned⟩

/-- A task of the executor (tokio's, under /repo/src/shared/runtime.rs L73-86). -/
inductive Task (C E : Type) where
  | running (f : Fut C E)
  | finished
  | aborted

/-- The executor: the task-local of every worker thread, the tasks, and what was logged by which task
(/repo/src/shared/context.rs L12-15). -/
structure Exec (C E : Type) where
  threads : Nat → Option C
  tasks : List (Task C E)
  log : List (Nat × E × Option C)

/-- A move of the executor: a worker polls a task, or a task is aborted
(/repo/src/shared/runtime.rs L73-86). -/
inductive Move where
  | poll (worker task : Nat)
  | abort (task : Nat)

/-- The executor with the given tasks, before anything ran (/repo/src/shared/context.rs L12-15: the task-local has
no value outside `scope`). -/
def start {C E : Type} (fs : List (Fut C E)) : Exec C E := ⟨fun _ => none, fs.map .running, []⟩

/-- One move (/repo/src/shared/context.rs L195-207, runtime.rs L73-86).  `tokio::spawn` adds the future as a task
of its own. -/
def move {C E : Type} (x : Exec C E) : Move → Exec C E
  | .poll w i =>
    match x.tasks[i]? with
    | some (.running f) =>
      let r := poll (x.threads w) f
      let after := match r.rest with
        | some f' => Task.running f'
        | none => Task.finished
      { threads := fun v => if v = w then r.tls else x.threads v
        tasks := x.tasks.set i after ++ r.spawned.map Task.running
        log := x.log ++ r.out.map (fun p => (i, p)) }
    | _ => x
  | .abort i =>
    match x.tasks[i]? with
    | some (.running _) => { x with tasks := x.tasks.set i .aborted }
    | _ => x

/-- A schedule. (/repo/src/shared/context.rs L195-207.) -/
def moves {C E : Type} (x : Exec C E) (ms : List Move) : Exec C E := ms.foldl move x

/-! ### Log entries -/

/-- `ErrorDetails` (/repo/src/shared/logging.rs L369-382). -/
structure ErrorDetails where
  errorType : Str
  message : Str
  stackTrace : Option (List Str)
  code : Option Str
deriving DecidableEq

/-- `LogEntry` (/repo/src/shared/logging.rs L335-366) without the timestamp. -/
structure Entry (J : Type) where
  level : Str
  message : Str
  requestId : Option Ids.RequestId
  traceId : Option Str
  spanId : Option Str
  userId : Option Str
  sessionId : Option Str
  fields : AMap Str J
  error : Option ErrorDetails

variable {Info Meta J : Type}

/-- `LogEntry::new` (/repo/src/shared/logging.rs L386-410); `cur` is `RequestContext::current()`. -/
def newEntry (cur : Option (Ctx Info Meta)) (level message : Str) : Entry J :=
  match cur with
  | some c => ⟨level, message, some c.requestId, some c.traceId, some c.spanId, c.userId, c.sessionId, [], none⟩
  | none => ⟨level, message, none, none, none, none, none, [], none⟩

/-- `with_field` (/repo/src/shared/logging.rs L413-416). -/
def withField (e : Entry J) (k : Str) (v : J) : Entry J := { e with fields := AMap.insert e.fields k v }

/-- `with_error` (/repo/src/shared/logging.rs L419-422). -/
def withError (e : Entry J) (d : ErrorDetails) : Entry J := { e with error := some d }

/-- The entry built by `log_correlated!` (/repo/src/shared/logging.rs L441-455). -/
def correlated (cur : Option (Ctx Info Meta)) (level message : Str) (fs : List (Str × J)) : Entry J :=
  fs.foldl (fun e p => withField e p.1 p.2) (newEntry cur level message)

/-- `tracing::Level`, and `LogLevel` (/repo/src/shared/logging.rs L89-100). -/
inductive Sev where
  | trace | debug | info | warn | error
deriving DecidableEq

/-- The level at which `log` issues the entry (/repo/src/shared/logging.rs L426-437).  `to_lowercase` is the ASCII
one: no other character becomes a letter of these five names. -/
def logSev (level : Str) : Sev :=
  let l := level.map Char.toLower
  if l = "trace".toList then .trace
  else if l = "debug".toList then .debug
  else if l = "info".toList then .info
  else if l = "warn".toList then .warn
  else if l = "error".toList then .error
  else .info

/-! ### The subscriber -/

/-- `LogFormat` (/repo/src/shared/logging.rs L121-128). -/
inductive Format where
  | json | pretty | compact
deriving DecidableEq

/-- `LogConfig` (/repo/src/shared/logging.rs L47-65). -/
structure Config (J : Type) where
  level : Sev
  timestamps : Bool
  sourceLocation : Bool
  correlationIds : Bool
  customFields : AMap Str J
  format : Format

/-- The shapes in which `tracing_subscriber::fmt` prints an event (/repo/src/shared/logging.rs L174-183). -/
inductive Style where
  | full | pretty | compact | json
deriving DecidableEq

/-- The subscriber that `init_logging` installs: the filter, the settings of the format layer, and whether new
spans get the context as an extension (/repo/src/shared/logging.rs L166-188, L227-241).  The layer prints the time
unless `without_time` is called. -/
structure Subscriber (J : Type) where
  filter : Sev
  target : Bool
  style : Style
  ansiOff : Bool
  time : Bool
  extra : AMap Str J
  keepsContext : Bool

/-- How `init_logging` ends (/repo/src/shared/logging.rs L165-192): it installs a subscriber, returns an error, or
panics. -/
inductive Init (J : Type) where
  | installed (s : Subscriber J)
  | failed
  | panicked

/-- The subscriber built from a configuration (/repo/src/shared/logging.rs L166-188). -/
def subscriber (c : Config J) : Subscriber J where
  filter := c.level
  target := c.sourceLocation
  style := match c.format with
    | .json => .full
    | .pretty => .pretty
    | .compact => .compact
  ansiOff := match c.format with
    | .json => true
    | _ => false
  time := true
  extra := []
  keepsContext := c.correlationIds

/-- `init_logging` (/repo/src/shared/logging.rs L165-192); `before` says whether the process has a global
subscriber already: `SubscriberInitExt::init` panics then. -/
def initLogging (before : Bool) (c : Config J) : Init J :=
  if before then .panicked else .installed (subscriber c)

/-- The severity as a number, larger is more severe (the order of `tracing::Level` used by the filter of
/repo/src/shared/logging.rs L166-172). -/
def rank : Sev → Nat
  | .trace => 0
  | .debug => 1
  | .info => 2
  | .warn => 3
  | .error => 4

/-- `EnvFilter::new("level")`: what is at least that severe passes (/repo/src/shared/logging.rs L166-172). -/
def passes (s : Subscriber J) (sev : Sev) : Bool := rank s.filter ≤ rank sev

/-- The fields of the span of a `CorrelatedLogger` (/repo/src/shared/logging.rs L261-283); `none` is
`field::Empty`. -/
structure SpanFields where
  name : Str
  requestId : Option Str
  traceId : Option Str
  spanId : Option Str
  userId : Option Str
  sessionId : Option Str
deriving DecidableEq

/-- `CorrelatedLogger::from_context` (/repo/src/shared/logging.rs L298-318). -/
def fromContext (op : Str) (c : Ctx Info Meta) : SpanFields :=
  let span : SpanFields := ⟨op, some (showId c.requestId), some c.traceId, some c.spanId, none, none⟩
  let span := match c.userId with
    | some u => { span with userId := some u }
    | none => span
  match c.sessionId with
    | some s => { span with sessionId := some s }
    | none => span

/-- `CorrelatedLogger::new` (/repo/src/shared/logging.rs L259-295); `cur` is `RequestContext::current()`. -/
def newLogger (op : Str) (cur : Option (Ctx Info Meta)) : SpanFields :=
  let span : SpanFields := match cur with
    | some c => ⟨op, some (showId c.requestId), some c.traceId, some c.spanId, none, none⟩
    | none => ⟨op, none, none, none, none, none⟩
  match cur with
  | some c =>
    let span := match c.userId with
      | some u => { span with userId := some u }
      | none => span
    match c.sessionId with
      | some s => { span with sessionId := some s }
      | none => span
  | none => span

/-- A line printed by the format layer (/repo/src/shared/logging.rs L174-183): the severity, the text, the target
if asked for, and the spans around the event. -/
structure Line where
  sev : Sev
  text : Str
  target : Option Str
  spans : List SpanFields
  style : Style
deriving DecidableEq

/-- What is printed for an event inside the spans of some `CorrelatedLogger`s (/repo/src/shared/logging.rs L166-183,
L259-272, L321-331).  The spans are of level INFO; a span the filter rejects is never created, so that entering it
does nothing. -/
def print (s : Subscriber J) (spans : List SpanFields) (target : Str) (sev : Sev) (text : Str) : Option Line :=
  if passes s sev then
    some ⟨sev, text, if s.target then some target else none, if passes s .info then spans else [], s.style⟩
  else none

end Verif.Logging
