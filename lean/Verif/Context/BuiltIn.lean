import Verif.Context.Middleware
import Verif.Wire.Messages

/-
The middlewares the library brings: `LoggingMiddleware`, `AuthMiddleware`, `RetryMiddleware` (C158).

Models /repo/src/shared/middleware.rs L235-403. The world of a hook is the list of `tracing` events emitted so far
(level and text; which of them are shown is the business of the subscriber) and everything else (`W`), which custom
middlewares may use. The derived `Debug` of requests, responses and ids is a parameter.
-/

namespace Verif.Context
open Verif.Wire

variable {W E : Type}

/-- `tracing::Level`. /repo/src/shared/middleware.rs L236. -/
inductive Level where
  | trace | debug | info | warn | error
  deriving DecidableEq, Repr

/-- An event: its level and its text. (The macros of /repo/src/shared/middleware.rs L254-276.) -/
abbrev Line := Level × String

/-- The derived `Debug` texts used, /repo/src/shared/middleware.rs L257, L268-269. -/
structure Texts where
  request : RpcRequest → String
  response : RpcResponse → String
  id : Id → String

/-- A middleware: one of the library (/repo/src/shared/middleware.rs L236-238, L306-309, L366-372), or one of the
program, which does not write to the log modelled here. -/
inductive Mw (W E : Type) where
  | logging (level : Level)
  | auth (token : String)
  | retry (maxRetries initialDelay maxDelay : Nat)
  | custom (onRequest : Hook W RpcRequest E) (onResponse : Hook W RpcResponse E)

/-- A hook that emits one event and returns `Ok(())`. /repo/src/shared/middleware.rs L254-276. -/
def emits {M : Type} (line : M → Line) : Hook (List Line × W) M E :=
  fun w m => ((w.1 ++ [line m], w.2), m, .ok ())

/-- A hook of the program. (The trait of /repo/src/shared/middleware.rs L64-74.) -/
def lifted {M : Type} (f : Hook W M E) : Hook (List Line × W) M E :=
  fun w m => ((w.1, (f w.2 m).1), (f w.2 m).2.1, (f w.2 m).2.2)

/-- `on_request`, /repo/src/shared/middleware.rs L255-264, L320-325, L393-402. -/
def onRequest (t : Texts) : Mw W E → Hook (List Line × W) RpcRequest E
  | .logging .trace => emits (fun r => (.trace, "Sending request: " ++ t.request r))
  | .logging .debug => emits (fun r => (.debug, "Sending request: " ++ r.method))
  | .logging .info => emits (fun r => (.info, "Sending request: " ++ r.method))
  | .logging .warn => emits (fun r => (.warn, "Sending request: " ++ r.method))
  | .logging .error => emits (fun r => (.error, "Sending request: " ++ r.method))
  | .auth _ => emits (fun r => (.debug, "Adding authentication to request: " ++ r.method))
  | .retry n _ _ => emits (fun r => (.debug, "Request " ++ r.method ++ " configured with max " ++ toString n ++ " retries"))
  | .custom f _ => lifted f

/-- `on_response`, /repo/src/shared/middleware.rs L266-275; the others keep the default of the trait (L70-73). -/
def onResponse (t : Texts) : Mw W E → Hook (List Line × W) RpcResponse E
  | .logging .trace => emits (fun r => (.trace, "Received response: " ++ t.response r))
  | .logging .debug => emits (fun r => (.debug, "Received response for: " ++ t.id r.id))
  | .logging .info => emits (fun _ => (.info, "Received response"))
  | .logging .warn => emits (fun _ => (.warn, "Received response"))
  | .logging .error => emits (fun _ => (.error, "Received response"))
  | .auth _ => fun w m => (w, m, .ok ())
  | .retry _ _ _ => fun w m => (w, m, .ok ())
  | .custom _ g => lifted g

/-! ### C158 -/

/-- Specification: the middlewares of the program in a chain. -/
def ownRequests (l : List (Mw W E)) : List (Hook W RpcRequest E) :=
  l.filterMap (fun | .custom f _ => some f | _ => none)

/-- .. and for responses. (Specification: no counterpart in the code.) -/
def ownResponses (l : List (Mw W E)) : List (Hook W RpcResponse E) :=
  l.filterMap (fun | .custom _ g => some g | _ => none)

theorem process_emits {M : Type} (line : M → Line) (l : List (Hook (List Line × W) M E)) (w : List Line × W) (m : M) :
    process (emits line :: l) w m = process l (w.1 ++ [line m], w.2) m := rfl

theorem process_lifted_ok {M : Type} (f : Hook W M E) (l : List (Hook (List Line × W) M E)) (w : List Line × W)
    (m m' : M) (w' : W) (h : f w.2 m = (w', m', .ok ())) :
    process (lifted f :: l) w m = process l (w.1, w') m' := by
  simp only [process, lifted, h]

theorem process_lifted_error {M : Type} (f : Hook W M E) (l : List (Hook (List Line × W) M E)) (w : List Line × W)
    (m m' : M) (w' : W) (e : E) (h : f w.2 m = (w', m', .error e)) :
    process (lifted f :: l) w m = ((w.1, w'), m', .error e) := by
  simp only [process, lifted, h]

/-- **C158.** The library's middlewares are transparent for requests: wherever they stand in a chain, the message,
the outcome and what the other middlewares do are those of the chain without them. In particular
`AuthMiddleware` adds no authentication to any request and `RetryMiddleware` repeats none. -/
theorem C158_requests (t : Texts) (l : List (Mw W E)) (log : List Line) (w : W) (r : RpcRequest) :
    let out := process (l.map (onRequest t)) (log, w) r
    (out.1.2, out.2) = process (ownRequests l) w r := by
  induction l generalizing log w r with
  | nil => rfl
  | cons x l ih =>
    cases x with
    | logging lv => cases lv <;> exact ih _ w r
    | auth _ => exact ih _ w r
    | retry _ _ _ => exact ih _ w r
    | custom f g =>
      rcases hf : f w r with ⟨w', r', o⟩
      have hp : ownRequests (Mw.custom f g :: l) = f :: ownRequests l := rfl
      cases o with
      | ok u =>
        cases u
        have := ih log w' r'
        simp only [List.map_cons, onRequest, hp, process, lifted, hf]
        exact this
      | error e => simp only [List.map_cons, onRequest, hp, process, lifted, hf]

/-- **C158.** The same for responses. -/
theorem C158_responses (t : Texts) (l : List (Mw W E)) (log : List Line) (w : W) (r : RpcResponse) :
    let out := process (l.map (onResponse t)) (log, w) r
    (out.1.2, out.2) = process (ownResponses l) w r := by
  induction l generalizing log w r with
  | nil => rfl
  | cons x l ih =>
    cases x with
    | logging lv => cases lv <;> exact ih _ w r
    | auth _ => exact ih _ w r
    | retry _ _ _ => exact ih _ w r
    | custom f g =>
      rcases hf : g w r with ⟨w', r', o⟩
      have hp : ownResponses (Mw.custom f g :: l) = g :: ownResponses l := rfl
      cases o with
      | ok u =>
        cases u
        have := ih log w' r'
        simp only [List.map_cons, onResponse, hp, process, lifted, hf]
        exact this
      | error e => simp only [List.map_cons, onResponse, hp, process, lifted, hf]

/-- **C158, refuted as documented.** An `AuthMiddleware` leaves every request without the token: what goes on is the
request as it came in, for every token. -/
theorem C158_no_token (t : Texts) (token : String) (log : List Line) (w : W) (r : RpcRequest) :
    (process [onRequest t (Mw.auth token : Mw W E)] (log, w) r).2 = (r, .ok ()) :=
  rfl

/-- What a reader of the log can know of a configuration: tokens and delays are left out.
(Specification: no counterpart in the code.) -/
def hideSecrets : Mw W E → Mw W E
  | .auth _ => .auth ""
  | .retry n _ _ => .retry n 0 0
  | m => m

/-- **C158.** Nothing, and in particular no line of the log, depends on the token of an `AuthMiddleware` or on the
delays of a `RetryMiddleware`. -/
theorem C158_secret (t : Texts) (l : List (Mw W E)) :
    l.map (onRequest t) = (l.map hideSecrets).map (onRequest t) ∧
    l.map (onResponse t) = (l.map hideSecrets).map (onResponse t) := by
  simp only [List.map_map, List.map_inj_left, Function.comp]
  constructor <;> intro x _ <;> cases x <;> rfl

/-- **C158.** Two chains that differ in tokens and delays only behave and log alike. -/
theorem C158_same (t : Texts) (l l' : List (Mw W E)) (h : l.map hideSecrets = l'.map hideSecrets) (w : List Line × W)
    (r : RpcRequest) (s : RpcResponse) :
    process (l.map (onRequest t)) w r = process (l'.map (onRequest t)) w r ∧
    process (l.map (onResponse t)) w s = process (l'.map (onResponse t)) w s := by
  rw [(C158_secret t l).1, (C158_secret t l').1, (C158_secret t l).2, (C158_secret t l').2, h]
  exact ⟨rfl, rfl⟩

/-- Specification: a middleware that only says what it sends. -/
def Quiet : Mw W E → Prop
  | .logging .trace => False
  | .custom _ _ => False
  | _ => True

/-- **C158.** Below `TRACE` the log of a request shows its method only: requests with the same method leave the same
log. -/
theorem C158_private (t : Texts) (l : List (Mw W E)) (hl : ∀ x ∈ l, Quiet x) (log : List Line) (w : W)
    (r r' : RpcRequest) (h : r.method = r'.method) :
    (process (l.map (onRequest t)) (log, w) r).1 = (process (l.map (onRequest t)) (log, w) r').1 := by
  induction l generalizing log with
  | nil => rfl
  | cons x l ih =>
    have ih' := fun log => ih (fun y hy => hl y (List.mem_cons_of_mem _ hy)) log
    have hx := hl x List.mem_cons_self
    cases x with
    | logging lv => cases lv <;> first | exact absurd hx id | (simp only [List.map_cons, onRequest, process_emits, h]; exact ih' _)
    | auth _ => simp only [List.map_cons, onRequest, process_emits, h]; exact ih' _
    | retry _ _ _ => simp only [List.map_cons, onRequest, process_emits, h]; exact ih' _
    | custom _ _ => exact absurd hx id

/-- **C158.** Every middleware of the library leaves exactly one line per request, in the order of the chain, on the
level it was made for (`DEBUG` for the other two). -/
theorem C158_lines (t : Texts) (l : List (Mw W E)) (hl : ownRequests l = []) (log : List Line) (w : W) (r : RpcRequest) :
    ((process (l.map (onRequest t)) (log, w) r).1.1).map Prod.fst =
      log.map Prod.fst ++ l.map (fun | .logging lv => lv | _ => .debug) := by
  induction l generalizing log with
  | nil => simp [process]
  | cons x l ih =>
    cases x with
    | logging lv =>
      have hl' : ownRequests l = [] := by simpa [ownRequests] using hl
      cases lv <;> simp only [List.map_cons, onRequest, process_emits, ih hl'] <;> simp
    | auth _ =>
      have hl' : ownRequests l = [] := by simpa [ownRequests] using hl
      simp only [List.map_cons, onRequest, process_emits, ih hl']; simp
    | retry _ _ _ =>
      have hl' : ownRequests l = [] := by simpa [ownRequests] using hl
      simp only [List.map_cons, onRequest, process_emits, ih hl']; simp
    | custom _ _ => simp [ownRequests] at hl

/-- Specification: the line of a response: the whole of it, its id, or nothing of it. -/
def responseLine (t : Texts) (r : RpcResponse) : Level → Line
  | .trace => (.trace, "Received response: " ++ t.response r)
  | .debug => (.debug, "Received response for: " ++ t.id r.id)
  | lv => (lv, "Received response")

/-- **C158.** A response leaves one line for every logging middleware, in the order of the chain, on its level; those
of the other middlewares of the library leave none. -/
theorem C158_response_lines (t : Texts) (l : List (Mw W E)) (hl : ∀ f g, Mw.custom f g ∉ l) (log : List Line) (w : W)
    (r : RpcResponse) :
    (process (l.map (onResponse t)) (log, w) r).1.1 =
      log ++ l.filterMap (fun | .logging lv => some (responseLine t r lv) | _ => none) := by
  induction l generalizing log with
  | nil => simp [process]
  | cons x l ih =>
    have hl' : ∀ f g, Mw.custom f g ∉ l := fun f g h => hl f g (List.mem_cons_of_mem _ h)
    cases x with
    | logging lv =>
      cases lv <;> simp only [List.map_cons, onResponse, process_emits, ih hl'] <;> simp [responseLine]
    | auth _ => simpa [onResponse, process] using ih hl' log
    | retry _ _ _ => simpa [onResponse, process] using ih hl' log
    | custom f g => exact absurd List.mem_cons_self (hl f g)

example : ∀ f g, Mw.custom f g ∉ ([.logging .info, .auth "x", .logging .error] : List (Mw Unit String)) := by
  intro f g h
  simp at h

/-- The chain of the documentation, with a middleware of the program that refuses one method. -/
example :
    let t : Texts := ⟨fun r => r.method, fun _ => "", fun _ => ""⟩
    let refuse : Mw Unit String := .custom (fun _ r => ((), r, if r.method = "b" then .error "no" else .ok ()))
      (fun _ r => ((), r, .ok ()))
    let chain := [.logging .info, .auth "secret", refuse, .retry 3 1000 30000]
    let out := fun m => (process (chain.map (onRequest t)) ([], ()) ⟨"2.0", .str "1", m, none⟩).1.1
    out "a" = [(.info, "Sending request: a"), (.debug, "Adding authentication to request: a"),
      (.debug, "Request a configured with max 3 retries")] ∧
    out "b" = [(.info, "Sending request: b"), (.debug, "Adding authentication to request: b")] := by
  constructor <;> rfl

/-- Two configurations that differ in secrets only; a chain without `TRACE`. -/
example : ([.auth "x", .retry 3 1 2] : List (Mw Unit String)).map hideSecrets =
      ([.auth "y", .retry 3 7 8] : List (Mw Unit String)).map hideSecrets ∧
    (∀ x ∈ ([.logging .info, .auth "x", .retry 3 1 2] : List (Mw Unit String)), Quiet x) ∧
    ownRequests ([.logging .info, .auth "x", .retry 3 1 2] : List (Mw Unit String)) = [] := by
  refine ⟨rfl, ?_, rfl⟩
  intro x hx
  simp only [List.mem_cons, List.not_mem_nil, or_false] at hx
  rcases hx with rfl | rfl | rfl <;> trivial

end Verif.Context
