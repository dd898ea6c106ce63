import Verif.Errors.Model
import Verif.Server.Props
import Verif.Recovery.Props

/-
C222: which recovery strategy an error meets. C223: what is left of an error's kind, code and text.
-/

namespace Verif.Errors

open Verif Verif.Wire

/-! ### The smaller models agree with this one -/

/-- The text of an error is the one the model of the server gives it. -/
theorem forget_text (e : Error) : e.forget.text = e.text := by cases e <;> rfl

/-- So is its JSON-RPC form. -/
theorem forget_toRpc (e : Error) : Server.toRpcError e.forget = e.toRpc := by cases e <;> rfl

/-- And a received error. -/
theorem forget_fromRpc (e : RpcError) : (fromRpc e).forget = Server.fromRpcError e := rfl

/-- The error as the model of recovery has it, with a number standing for its text. /repo/src/error/mod.rs L16-71. -/
def Error.abstract (e : Error) (n : Nat) : Recovery.Err :=
  match e with
  | .protocol c _ _ => .protocol c.1 n
  | _ => .other n

/-- **C222**. The strategy an error meets here is the one the executor of the model of recovery picks for it. -/
theorem C222_same_strategy (p : Policy) (e : Error) (n : Nat) :
    p.meets e = Recovery.getStrategy p.strategies p.default (Recovery.codeOf (e.abstract n)) := by
  cases e <;> rfl

/-! ### C222: which strategy an error meets -/

/-- The code the documentation of `ErrorCode` (/repo/src/error/mod.rs L78-96) gives to what went wrong: protocol errors
have their own; a time-out is a request time-out, a missing capability an unsupported one, a failed authentication a
required one. (Specification: no counterpart in the code.) -/
def meaning : Error → Int
  | .protocol c _ _ => c.1
  | .timeout _ => -32001
  | .unsupportedCapability _ => -32002
  | .authentication _ => -32003
  | _ => -32603

/-- Errors whose kind has a code of its own although they carry none.
(Specification: no counterpart in the code.) -/
def Unheard : Error → Prop
  | .timeout _ | .unsupportedCapability _ | .authentication _ => True
  | _ => False

/-- **C222**. An error meets the strategy of its meaning unless it is a time-out, a missing capability or a failed
authentication; those meet the strategy of internal errors. Missing from the property: those three kinds. -/
theorem C222_meets_partial (p : Policy) (e : Error) :
    (¬ Unheard e → p.meets e = (AMap.get p.strategies (meaning e)).getD p.default) ∧
    (Unheard e → p.meets e = (AMap.get p.strategies (-32603)).getD p.default) := by
  cases e <;> simp [Unheard, Policy.meets, Error.errorCode, meaning, Server.internalError]

/-- **C222**. So a strategy added for the code an error means is the one it meets, for every error and strategy,
exactly if the error is not of those three kinds — or the added strategy is the one of internal errors anyway. -/
theorem C222_added_partial (p : Policy) (e : Error) (s : Recovery.Strategy) :
    (p.add (meaning e) s).meets e = s ↔ ¬ Unheard e ∨ (AMap.get p.strategies (-32603)).getD p.default = s := by
  cases e <;> simp [Unheard, Policy.meets, Policy.add, Error.errorCode, meaning, Server.internalError, AMap.get_insert]

/-- A strategy for request time-outs, as in the documentation of `RecoveryPolicy`
(/repo/src/error/recovery.rs L103-112): five retries. (Specification: no counterpart in the code.) -/
def retryTimeouts : Recovery.Strategy := .exponential 5 (1 / 10) 10 2

/-- **C222, refuted**: the time-out of the HTTP transport does not meet the strategy added for time-outs, whatever the
time was; nor does adding it change what a time-out meets in any policy. -/
theorem C222_timeouts_not_heard (p : Policy) (ms : Nat) (s : Recovery.Strategy) :
    (p.add (-32001) s).meets (httpTimeout ms) = p.meets (httpTimeout ms) ∧
    (Policy.standard.add (-32001) retryTimeouts).meets (httpTimeout ms) ≠ retryTimeouts := by
  refine ⟨?_, ?_⟩
  · simp [Policy.meets, Policy.add, httpTimeout, Error.errorCode, Server.internalError, AMap.get_insert]
  · simp [Policy.meets, Policy.add, Policy.standard, httpTimeout, Error.errorCode, Server.internalError, AMap.get_insert,
      AMap.get, retryTimeouts]

/-- **C222**. Of the errors received from a peer: the strategy of the code on the wire is met — for every policy — exactly
if the code is outside -32099 … -32000 or one of the four known codes in it; otherwise that of internal errors is. -/
theorem C222_received_partial (r : RpcError) :
    (∀ p : Policy, p.meets (fromRpc r) = (AMap.get p.strategies r.code.1).getD p.default) ↔
      ¬(-32099 ≤ r.code.1 ∧ r.code.1 ≤ -32000) ∨ (-32004 ≤ r.code.1 ∧ r.code.1 ≤ -32001) := by
  rw [← Server.C64_received_partial r]
  constructor
  · intro h
    have := h ⟨[(r.code.1, .fallback)], .failFast⟩
    simp only [Policy.meets, fromRpc, Error.errorCode, Option.getD_some, AMap.get, if_true] at this
    by_cases hc : r.code.1 = (Server.fromI32 r.code).1
    · simp only [Server.fromRpcError, Server.Err.protocol.injEq, and_true]
      exact Subtype.ext hc.symm
    · simp [hc] at this
  · intro h p
    simp only [Server.fromRpcError, Server.Err.protocol.injEq, and_true] at h
    simp [Policy.meets, fromRpc, Error.errorCode, h]

/-- **C222**. An error raised by a tool of a server of this crate always meets, at the caller, the strategy of internal
errors, whatever its kind and code were. -/
theorem C222_from_tools {W : Type} (p : Policy) (srv : Server.Srv W) (st : Server.St W) (id : Id) (c : CallTool)
    (h : Json → Server.Extra → W → Server.Outcome Json × W) (hg : AMap.get srv.tools c.name = some h) (e : Error) (w : W)
    (he : h c.arguments (Server.extraOf st id) st.world = (.err e.forget, w)) :
    ∃ r, Server.errorOf (Server.handleRequest srv st id (.client (.callTool c))).1 = some r ∧ r = e.answered ∧
      p.meets (fromRpc r) = (AMap.get p.strategies (-32603)).getD p.default := by
  refine ⟨e.answered, ?_, rfl, ?_⟩
  · rw [Server.C64_tool_error srv st id c h hg _ w he, forget_text]; rfl
  · have h0 : Server.fromI32 Server.internalError = Server.internalError := by decide
    simp only [Policy.meets, fromRpc, Error.answered, Error.errorCode, h0]; rfl

/-- **C222**. With the default policy every error that is no protocol error is retried three times, with waits of 100,
200 and 400 ms: validation and authentication failures, missing capabilities and what `Error::cancelled` makes are
treated as passing faults. The executor is the one of `Verif.Recovery`, given the same strategies. -/
theorem C222_default_retries (e : Error) (hc : e.errorCode = none) (bs : Recovery.Breakers) (op : Nat)
    (out : Nat → Recovery.Res) (t₁ t₂ n : Nat) (h0 : out 0 = .error (e.abstract n)) (hf : Recovery.FailsBefore out 4) :
    Policy.standard.meets e = .exponential 3 (1 / 10) 5 2 ∧
    (Recovery.execute .standard bs op out t₁ t₂).2.calls = 4 ∧
    (Recovery.execute .standard bs op out t₁ t₂).2.sleeps = [1 / 10, 1 / 5, 2 / 5] := by
  have hcode : Recovery.codeOf (e.abstract n) = -32603 := by
    cases e <;> first | rfl | simp [Error.errorCode] at hc
  have hb : Recovery.budget (e.abstract n) = (4, [1 / 10, 1 / 5, 2 / 5]) := by
    simp [Recovery.budget_code, hcode]
  have h := Recovery.C143_standard bs op out t₁ t₂ (e.abstract n) h0 (by rw [hb]; exact hf)
  rw [hb] at h
  exact ⟨by cases e <;> first | rfl | simp [Error.errorCode] at hc, h.1, h.2.1⟩

/-! ### C223: what is left of an error -/

/-- The kinds of errors. (Specification: no counterpart in the code.) -/
inductive Kind where
  | protocol (code : Int)
  | transport | serialization | validation | authentication | timeout | capability | internal | notFound | state
  | cancelled | other
  deriving DecidableEq, Repr

/-- The kind of an error. (Specification: no counterpart in the code.) -/
def Error.kind : Error → Kind
  | .protocol c _ _ => .protocol c.1
  | .transport _ => .transport
  | .serialization _ => .serialization
  | .validation _ => .validation
  | .authentication _ => .authentication
  | .timeout _ => .timeout
  | .unsupportedCapability _ => .capability
  | .internal _ => .internal
  | .notFound _ => .notFound
  | .invalidState _ => .state
  | .cancelled => .cancelled
  | .other _ => .other

/-- The kind the name of a way to make an error promises. (Specification: no counterpart in the code.) -/
def Maker.promises : Maker → Kind
  | .protocol c _ | .protocolWithData c _ _ => .protocol c.1
  | .protocolMsg _ => .protocol (-32603)
  | .validation _ => .validation
  | .internal _ => .internal
  | .notFound _ | .resourceNotFound _ => .notFound
  | .parse _ => .protocol (-32700)
  | .invalidRequest _ => .protocol (-32600)
  | .methodNotFound _ => .protocol (-32601)
  | .invalidParams _ => .protocol (-32602)
  | .authentication _ => .authentication
  | .capability _ => .capability
  | .cancelled _ => .cancelled
  | .fromIo _ => .transport

/-- **C223**. Every maker makes an error of the kind its name promises, but for `Error::cancelled`, which makes a
validation error: no maker makes a cancelled one. Missing from the property: that one. -/
theorem C223_kinds_partial (m : Maker) :
    ((make m).kind = m.promises ↔ ∀ t, m ≠ .cancelled t) ∧ (make m).kind ≠ .cancelled ∧
    (∀ t, m = .cancelled t → (make m).kind = .validation) := by
  cases m <;> simp [make, Error.kind, Maker.promises, parseError, invalidRequestCode, methodNotFoundCode,
    invalidParamsCode, Server.internalError]

/-- **C223**. What is asked about the code of an error is answered from its kind: an error has the code asked about
exactly if it is a protocol error with it, which is also when `error_code` gives it. -/
theorem C223_codes (e : Error) (c : I32) :
    (e.isErrorCode c = true ↔ e.kind = .protocol c.1) ∧ (e.errorCode = some c ↔ e.kind = .protocol c.1) := by
  cases e with
  | protocol d m x =>
    have : d = c ↔ d.1 = c.1 := ⟨fun h => by rw [h], Subtype.ext⟩
    simp [Error.isErrorCode, Error.errorCode, Error.kind, this]
  | _ => simp [Error.isErrorCode, Error.errorCode, Error.kind]

/-- **C223**. The text of an error of a missing resource names the fault twice. -/
theorem C223_doubled (uri : String) :
    (make (.resourceNotFound uri)).text = "Resource not found: Resource not found: " ++ uri := by
  have h : "Resource not found: " ++ "Resource not found: " = "Resource not found: Resource not found: " := by
    decide +kernel
  rw [← h, String.append_assoc]
  rfl

/-- **C223**. The time-out of the HTTP transport reports its time cut to whole seconds: exactly times of whole seconds
are reported as they are, and times below a second as 0 ms. -/
theorem C223_timeout_text (ms : Nat) :
    (httpTimeout ms = .timeout ms ↔ 1000 ∣ ms) ∧ (ms < 1000 → (httpTimeout ms).text = "Request timed out after 0ms") := by
  refine ⟨?_, fun h => ?_⟩
  · simp only [httpTimeout, Error.timeout.injEq]
    exact ⟨fun h => ⟨ms / 1000, by omega⟩, fun ⟨k, hk⟩ => by omega⟩
  · have : ms / 1000 = 0 := by omega
    simp only [httpTimeout, this]; rfl

/-- **C223**. An error sent with `From<Error> for JSONRPCError` and read back: a protocol error outside the server range
(or with a code known in it) comes back whole, any other error as a protocol error with the code -32603 and its text;
message and data of protocol errors always stay. -/
theorem C223_round_trip_partial (e : Error) :
    (fromRpc e.toRpc = e ↔ ∃ c m d, e = .protocol c m d ∧
      (¬(-32099 ≤ c.1 ∧ c.1 ≤ -32000) ∨ (-32004 ≤ c.1 ∧ c.1 ≤ -32001))) ∧
    (e.errorCode = none → fromRpc e.toRpc = .protocol Server.internalError e.text none) := by
  have h0 : Server.fromI32 Server.internalError = Server.internalError := by decide
  constructor
  · cases e with
    | protocol c m d =>
      have := Server.C64_received_partial ⟨c, m, d⟩
      simp only [Server.fromRpcError, Server.Err.protocol.injEq, and_true] at this
      simp only [Error.toRpc, fromRpc, Error.protocol.injEq, and_true, this]
      exact ⟨fun h => ⟨c, m, d, ⟨rfl, rfl, rfl⟩, h⟩, fun ⟨_, _, _, ⟨hc, _, _⟩, h⟩ => hc ▸ h⟩
    | _ => simp [fromRpc, Error.toRpc]
  · intro hc
    cases e <;> first | (simp [Error.errorCode] at hc; done) | simp [fromRpc, Error.toRpc, h0]

/-- An error a handler raises at one end of a chain of servers, each of which calls the next with a client and passes
the client's error on: what the caller at the other end gets. /repo/src/server/mod.rs L598-615,
/repo/src/client/mod.rs L290-294. -/
def passed (e : Error) : Nat → Error
  | 0 => e
  | n + 1 => fromRpc (passed e n).answered

/-- The head each hop puts before a text. (Specification: no counterpart in the code.) -/
def hopHead : String := "Protocol error: -32603 - "

/-- `n` heads before a text. (Specification: no counterpart in the code.) -/
def heads (t : String) : Nat → String
  | 0 => t
  | n + 1 => hopHead ++ heads t n

/-- **C223**. After a hop the kind, code and data of a handler's error are gone: the caller has a protocol error with
the code -32603, without data, whose message is the text of the error with one head per hop after the first. -/
theorem C223_hops (e : Error) (n : Nat) : passed e (n + 1) = .protocol Server.internalError (heads e.text n) none := by
  have h0 : Server.fromI32 Server.internalError = Server.internalError := by decide
  have hs : toString Server.internalError.1 = "-32603" := by decide +kernel
  induction n with
  | zero => simp [passed, Error.answered, fromRpc, h0, heads]
  | succ n ih =>
    rw [passed, ih]
    have h1 : "Protocol error: " ++ "-32603" ++ " - " = hopHead := by decide +kernel
    have ht : ∀ c m d, Error.text (.protocol c m d) = "Protocol error: " ++ toString c.1 ++ " - " ++ m :=
      fun _ _ _ => rfl
    rw [Error.answered, fromRpc, ht, hs, h1]
    simp only [h0, heads]

/-- **C223**. A recovery handler is told the text of the error only; with none registered for the operation, as with the
default handler, the caller gets an internal error with that text in place of the error. -/
theorem C223_fallback (hs : AMap String Handler) (op : String) (e : Error) :
    (AMap.get hs op = none ∨ AMap.get hs op = some .default → fallback hs op e = .error (.internal e.text)) ∧
    (∀ r, AMap.get hs op = some (.fallback r) → fallback hs op e = r) ∧
    (∀ e', e'.text = e.text → fallback hs op e' = fallback hs op e) ∧
    (∀ h op', fallback (register hs op h) op' e = if op' = op then h.recover e.text else fallback hs op' e) := by
  refine ⟨fun h => ?_, fun r h => by simp [fallback, h, Handler.recover], fun e' h => by simp [fallback, h],
    fun h op' => ?_⟩
  · rcases h with h | h <;> simp [fallback, h, Handler.recover]
  · simp only [fallback, register, AMap.get_insert]
    by_cases h : op' = op <;> simp [h]

/-- **C223**. The error itself is never handed back by a fallback without a handler, whatever it is: even an internal
error comes back with a longer text. -/
theorem C223_fallback_never_same (hs : AMap String Handler) (op : String) (e : Error) (h : AMap.get hs op = none) :
    fallback hs op e ≠ .error e := by
  simp only [fallback, h]
  intro h
  injection h with h
  cases e with
  | internal t =>
    rw [Error.internal.injEq] at h
    change "Internal error: " ++ t = t at h
    have := congrArg String.length h
    have h16 : "Internal error: ".length = 16 := by decide +kernel
    rw [String.length_append, h16] at this
    omega
  | _ => cases h

/-! ### Concrete cases -/

example : Unheard (.authentication "no token") ∧ ¬ Unheard (.invalidState "closed") ∧
    meaning (.authentication "no token") = -32003 ∧ meaning (.invalidState "closed") = -32603 :=
  ⟨trivial, id, rfl, rfl⟩

/-- A failed authentication is retried by the default policy, whatever was added for the code -32003. -/
example : (Policy.standard.add (-32003) .failFast).meets (make (.authentication "no token")) =
    .exponential 3 (1 / 10) 5 2 := rfl

/-- The custom code -32010 of the documentation of `ErrorCode::other` is in the range: its strategy is not met. -/
example : (Policy.standard.add (-32010) .fallback).meets (fromRpc ⟨⟨-32010, by decide⟩, "slow down", none⟩) =
    .exponential 3 (1 / 10) 5 2 ∧
    (Policy.standard.add (-40000) .fallback).meets (fromRpc ⟨⟨-40000, by decide⟩, "slow down", none⟩) = .fallback :=
  ⟨rfl, rfl⟩

/-- A server whose one tool refuses its arguments with the code -32602. (Specification: no counterpart in the code.) -/
def refusing : Server.Srv Unit :=
  { info := ⟨"s", "1"⟩, capabilities := {}, prompts := [], resources := none, sampling := none, render := fun _ => "",
    tools := [("add", fun _ _ w => (.err (make (.invalidParams "a is missing")).forget, w))] }

example (p : Policy) : ∃ r, Server.errorOf (Server.handleRequest refusing (Server.St.init ()) (.num ⟨1, by decide⟩)
      (.client (.callTool ⟨"add", .null⟩))).1 = some r ∧ r = (make (.invalidParams "a is missing")).answered ∧
    p.meets (fromRpc r) = (AMap.get p.strategies (-32603)).getD p.default :=
  C222_from_tools p refusing (Server.St.init ()) (.num ⟨1, by decide⟩) ⟨"add", .null⟩ _ rfl _ () rfl

/-- Cancelled work is done four times. -/
example : (Recovery.execute .standard [] 0 (fun _ => .error ((make (.cancelled "by the user")).abstract 0)) 0 0).2.calls =
    4 :=
  (C222_default_retries (make (.cancelled "by the user")) rfl [] 0 _ 0 0 0 rfl (fun _ _ => ⟨_, rfl⟩)).2.1

example : (make (.cancelled "by the user")).kind = .validation ∧ Error.cancelled.kind = .cancelled := ⟨rfl, rfl⟩

/-- Two hops. -/
example : passed (make (.invalidParams "a is missing")) 2 = .protocol Server.internalError
    (hopHead ++ (make (.invalidParams "a is missing")).text) none := C223_hops _ 1

example : httpTimeout 1500 = .timeout 1000 ∧ httpTimeout 500 = .timeout 0 ∧ httpTimeout 30000 = .timeout 30000 :=
  ⟨rfl, rfl, rfl⟩

example : fallback (register [] "fetch" (.fallback (.ok (.obj [])))) "fetch" .cancelled = .ok (.obj []) ∧
    fallback (register [] "fetch" (.fallback (.ok (.obj [])))) "store" .cancelled =
      .error (.internal "Operation cancelled") := ⟨rfl, rfl⟩

end Verif.Errors
