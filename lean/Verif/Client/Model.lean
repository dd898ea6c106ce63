import Verif.Server.Props

/-
The client: what its methods send and return, and how concurrent calls share the transport.

Models /repo/src/client/mod.rs L244-1348. Requests, results and messages are those of the wire model. Not modelled:
`authenticate` (L1153-1182, in `Client/Auth.lean`), `get_*` accessors, logging, the unused `protocol` and `notification_tx`.
-/

namespace Verif.Client

open Verif Verif.Wire Verif.Server

/-- `SUPPORTED_PROTOCOL_VERSIONS` and `LATEST_PROTOCOL_VERSION`, /repo/src/lib.rs L135, L178-183. -/
def latest : String := "2025-06-18"
/-- `SUPPORTED_PROTOCOL_VERSIONS`, /repo/src/lib.rs L178-183. -/
def supported : List String := [latest, "2025-03-26", "2024-11-05", "2024-10-07"]

/-- Why a method fails. /repo/src/client/mod.rs L244-1380. -/
inductive Fail where
  | alreadyInitialized
  | notInitialized
  | capability
  | transport
  | wrongMessage
  | parse
  | version
  | rpc (e : Err)

/-- What a method returns. /repo/src/client/mod.rs L244-1266. -/
inductive Ret where
  | value (v : Json)
  | unit
  | fail (f : Fail)

/-- The client (L61-72): its own capabilities as given to `initialize`, what it knows of the server, and whether
it is initialized. -/
structure Cl where
  info : Impl
  caps : Option ClientCaps
  serverCaps : Option ServerCaps
  serverInfo : Option Impl
  instructions : Option String
  initialized : Bool

/-- `Client::new` and `with_info`, /repo/src/client/mod.rs L127-172. -/
def Cl.new (info : Impl) : Cl :=
  { info := info, caps := none, serverCaps := none, serverInfo := none, instructions := none, initialized := false }

/-- What the surroundings do during a call: the id drawn for the request, whether sending works (the request or
the only notification; then the notification of `initialize`), and what is received, if anything. (The transport
and the clock used by /repo/src/client/mod.rs L1315-1380.) -/
structure Env where
  id : Id
  sendOk : Bool
  recv : Option TMsg
  noteOk : Bool

/-- The methods that send something. /repo/src/client/mod.rs L244-1266. -/
inductive Call where
  | connect (caps : ClientCaps)
  | request (r : ClientRequest)
  | rootsChanged
  | cancel (id : Id)
  | progress (p : Progress)

/-- `assert_capability` (L1279-1312) for the method that sends the request, and the check of L847-858; `none` if no
method of the client sends the request. -/
def gate : ClientRequest → Option (ServerCaps → Bool)
  | .init _ => none
  | .elicitResponse _ => none
  | .ping => some (fun _ => true)
  | .listTools _ => some (·.tools.isSome)
  | .callTool _ => some (·.tools.isSome)
  | .listPrompts _ => some (·.prompts.isSome)
  | .getPrompt _ => some (·.prompts.isSome)
  | .listResources _ => some (·.resources.isSome)
  | .listTemplates _ => some (·.resources.isSome)
  | .readResource _ => some (·.resources.isSome)
  | .subscribe _ => some (fun c => match c.resources with
    | some r => r.subscribe.getD false
    | none => false)
  | .unsubscribe _ => some (·.resources.isSome)
  | .complete _ => some (·.completions.isSome)
  | .setLevel _ => some (·.logging.isSome)
  | .createMessage _ => some (fun _ => false)

/-- Methods that return nothing on success (L314, L329, L842, L906). -/
def returnsUnit : ClientRequest → Bool
  | .ping => true
  | .setLevel _ => true
  | .subscribe _ => true
  | .unsubscribe _ => true
  | _ => false

/-- `send_request` (L1315-1348): what was written, and the response or the failure. -/
def sendRequest (env : Env) (r : ClientRequest) : List TMsg × Except Fail RpcResponse :=
  if env.sendOk then
    ([.request env.id (.client r)], match env.recv with
      | none => .error .transport
      | some (.response resp) => .ok resp
      | some _ => .error .wrongMessage)
  else ([], .error .transport)

/-- The end of a method that sends a request (for example L384-394). -/
def finish (r : ClientRequest) : Except Fail RpcResponse → Ret
  | .error f => .fail f
  | .ok resp => match resp.payload with
    | .error e => .fail (.rpc (fromRpcError e))
    | .result v => if returnsUnit r then .unit else if reads r v then .value v else .fail .parse

/-- `initialize` after the answer, L262-296. -/
def connected (c : Cl) (env : Env) (resp : RpcResponse) : List TMsg × Ret × Cl :=
  match resp.payload with
  | .error e => ([], .fail (.rpc (fromRpcError e)), c)
  | .result v => match InitResult.dec v with
    | none => ([], .fail .parse, c)
    | some ir =>
      if ir.protocolVersion ∈ supported then
        (if env.noteOk then [.notification (.client .initialized)] else [],
         if env.noteOk then .value v else .fail .transport,
         { c with serverCaps := some ir.capabilities, serverInfo := some ir.serverInfo
                  instructions := ir.instructions, initialized := true })
      else ([], .fail .version, c)

/-- One method call: messages written, what it returns, and the client afterwards. /repo/src/client/mod.rs
L244-1266. -/
def call (c : Cl) (env : Env) : Call → List TMsg × Ret × Cl
  -- `initialize`, L244-296.
  | .connect caps =>
    if c.initialized then ([], .fail .alreadyInitialized, c)
    else
      let r := sendRequest env (.init { protocolVersion := latest, capabilities := caps, clientInfo := c.info })
      match r.2 with
      | .error f => (r.1, .fail f, { c with caps := some caps })
      | .ok resp =>
        let k := connected { c with caps := some caps } env resp
        (r.1 ++ k.1, k.2.1, k.2.2)
  -- The methods of L314-1060.
  | .request r =>
    match gate r with
    | none => ([], .fail .capability, c)
    | some g =>
      if c.initialized then
        match c.serverCaps with
        | some sc =>
          if g sc then ((sendRequest env r).1, finish r (sendRequest env r).2, c) else ([], .fail .capability, c)
        | none => ([], .fail .capability, c)
      else ([], .fail .notInitialized, c)
  -- `send_roots_list_changed`, L1101-1115.
  | .rootsChanged =>
    if c.initialized then
      match c.caps.bind (·.roots) with
      | some r =>
        if r.listChanged then
          (if env.sendOk then [.notification (.client .rootsListChanged)] else [],
           if env.sendOk then .unit else .fail .transport, c)
        else ([], .fail .capability, c)
      | none =>
        (if env.sendOk then [.notification (.client .rootsListChanged)] else [],
         if env.sendOk then .unit else .fail .transport, c)
    else ([], .fail .notInitialized, c)
  -- `cancel_request`, L1212-1227.
  | .cancel id =>
    (if env.sendOk then
      [.notification (.cancelled { requestId := id, reason := some "User requested cancellation" })] else [],
     if env.sendOk then .unit else .fail .transport, c)
  -- `send_progress`, L1264-1267.
  | .progress p =>
    (if env.sendOk then [.notification (.progress p)] else [], if env.sendOk then .unit else .fail .transport, c)

/-- A history of calls, one after the other. (Calls of /repo/src/client/mod.rs L244-1266.) -/
def calls : Cl → List (Env × Call) → Cl
  | c, [] => c
  | c, (e, k) :: l => calls (call c e k).2.2 l

/-! ### Concurrent calls of `send_request` on clones of a client -/

/-- Where a call is: about to send (L1324-1334), about to receive (L1338), finished with the message it took,
failed while sending, or dropped by its caller. -/
inductive Phase (M : Type) where
  | sending
  | receiving
  | done (m : M)
  | failed
  | dropped

/-- A call of `send_request` in progress: its id and how far it is, /repo/src/client/mod.rs L1315-1348. -/
structure Caller (M : Type) where
  id : Id
  phase : Phase M

/-- The callers, the messages at the transport that nobody took, the ids written, and `active_requests`.
/repo/src/client/mod.rs L85-98, L1315-1348. -/
structure Conn (M : Type) where
  callers : List (Caller M)
  incoming : List M
  written : List Id
  active : List Id

/-- Nothing sent yet, /repo/src/client/mod.rs L127-172. -/
def Conn.new {M : Type} : Conn M := { callers := [], incoming := [], written := [], active := [] }

/-- The suspension points of `send_request` and `cancel_request`, /repo/src/client/mod.rs L1212-1227,
L1315-1348. -/
inductive COp (M : Type) where
  | start (id : Id)
  | send (n : Nat)
  | sendFail (n : Nat)
  | receive (n : Nat)
  | receiveFail (n : Nat)
  | drop (n : Nat)
  | arrive (m : M)

/-- Change how far call `n` is. (/repo/src/client/mod.rs L1315-1348.) -/
def setPhase {M : Type} (l : List (Caller M)) (n : Nat) (p : Phase M) : List (Caller M) :=
  l.modify n (fun c => { c with phase := p })

/-- One step of a caller or of the transport; `none` if it is not possible. Taking the transport's lock, the
operation and releasing the lock are one step (L1334, L1338); ids are unique (UUIDs), so `active` is a list of
distinct ids. -/
def cstep {M : Type} (s : Conn M) : COp M → Option (Conn M)
  | .start id => some { s with callers := s.callers ++ [⟨id, .sending⟩], active := s.active ++ [id] }
  | .send n => match s.callers[n]? with
    | some ⟨id, .sending⟩ => some { s with callers := setPhase s.callers n .receiving, written := s.written ++ [id] }
    | _ => none
  | .sendFail n => match s.callers[n]? with
    | some ⟨_, .sending⟩ => some { s with callers := setPhase s.callers n .failed }
    | _ => none
  | .receive n => match s.callers[n]?, s.incoming with
    | some ⟨id, .receiving⟩, m :: i =>
      some { s with callers := setPhase s.callers n (.done m), incoming := i, active := s.active.filter (· ≠ id) }
    | _, _ => none
  | .receiveFail n => match s.callers[n]? with
    | some ⟨_, .receiving⟩ => some { s with callers := setPhase s.callers n .failed }
    | _ => none
  | .drop n => match s.callers[n]? with
    | some ⟨_, .sending⟩ => some { s with callers := setPhase s.callers n .dropped }
    | some ⟨_, .receiving⟩ => some { s with callers := setPhase s.callers n .dropped }
    | _ => none
  | .arrive m => some { s with incoming := s.incoming ++ [m] }

/-- Any interleaving of calls of `send_request`, /repo/src/client/mod.rs L1315-1348. -/
def crun {M : Type} : Conn M → List (COp M) → Option (Conn M)
  | s, [] => some s
  | s, op :: l => match cstep s op with
    | none => none
    | some s' => crun s' l

end Verif.Client
