import Verif.Common.AMap
import Verif.Common.Decimal
import Verif.Common.Str
import Verif.Common.Utf8
import Verif.Ids.Model

/-
Request contexts and the middleware chain.

Models /repo/src/shared/context.rs L55-312 and /repo/src/shared/middleware.rs L63-204. Strings are lists of
characters; slices and lengths count bytes, as in Rust.
-/

namespace Verif.Context

open Verif

/-- Strings of /repo/src/shared/context.rs L54-86, as characters. -/
abbrev Str := List Char

/-- `RequestContext` (context.rs L55-86). The timestamp is left out; client info and metadata are opaque values. -/
structure Ctx (Info Meta : Type) where
  requestId : Ids.RequestId
  traceId : Str
  parentSpan : Option Str
  spanId : Str
  userId : Option Str
  sessionId : Option Str
  clientInfo : Option Info
  metadata : AMap Str Meta
  baggage : AMap Str Str

variable {Info Meta : Type}

/-- `child` (context.rs L150-163); `span` is the fresh UUID. -/
def child (c : Ctx Info Meta) (span : Str) : Ctx Info Meta :=
  { c with parentSpan := some c.spanId, spanId := span }

/-- `s.replace('-', "")` (context.rs L214-215). -/
def undash (s : Str) : Str := s.filter (· != '-')

/-- `s.split_at(n)` in bytes; `none` is the panic (out of range, or not a character boundary).
(/repo/src/shared/context.rs L214-215, L247-273.) -/
def splitBytes : Nat → Str → Option (Str × Str)
  | 0, s => some ([], s)
  | _ + 1, [] => none
  | n + 1, c :: s =>
    if Utf8.charLen c ≤ n + 1 then (splitBytes (n + 1 - Utf8.charLen c) s).map (fun p => (c :: p.1, p.2)) else none

/-- `s.len()`. (/repo/src/shared/context.rs L248, L262.) -/
def byteLen (s : Str) : Nat := (Utf8.encode s).length

/-- `impl Display for RequestId` (types/jsonrpc.rs L37-44). -/
def showId : Ids.RequestId → Str
  | .str s => s
  | .num n => Decimal.showInt n

/-- The name of the header, /repo/src/shared/context.rs L216-219. -/
def kTrace : Str := "traceparent".toList
/-- The name of the header, /repo/src/shared/context.rs L222. -/
def kReq : Str := "x-request-id".toList
/-- The name of the header, /repo/src/shared/context.rs L224-226. -/
def kUser : Str := "x-user-id".toList
/-- The name of the header, /repo/src/shared/context.rs L228-230. -/
def kSess : Str := "x-session-id".toList
/-- The prefix of the headers, /repo/src/shared/context.rs L233-235. -/
def kBag : Str := "baggage-".toList

/-- `headers.insert(key, v)` if there is a value (context.rs L225-231). -/
def insertOpt (h : AMap Str Str) (k : Str) : Option Str → AMap Str Str
  | none => h
  | some v => AMap.insert h k v

/-- `to_headers` (context.rs L209-238); `none` is the panic of `[..16]`. -/
def toHeaders (c : Ctx Info Meta) : Option (AMap Str Str) :=
  match splitBytes 16 (undash c.spanId) with
  | none => none
  | some (span, _) =>
    let h : AMap Str Str := AMap.insert [] kTrace ("00-".toList ++ undash c.traceId ++ "-".toList ++ span ++ "-01".toList)
    let h := AMap.insert h kReq (showId c.requestId)
    let h := insertOpt (insertOpt h kUser c.userId) kSess c.sessionId
    some (c.baggage.foldl (fun h e => AMap.insert h (kBag ++ e.1) e.2) h)

/-- `format!("{}-{}-{}-{}-{}", &s[0..8], &s[8..12], &s[12..16], &s[16..20], &s[20..32])` (context.rs L250-257);
`none` is a panic of a slice. -/
def uuidForm (s : Str) : Option Str :=
  match splitBytes 8 s with
  | none => none
  | some (a, s) => match splitBytes 4 s with
    | none => none
    | some (b, s) => match splitBytes 4 s with
      | none => none
      | some (c, s) => match splitBytes 4 s with
        | none => none
        | some (d, e) => some (a ++ ['-'] ++ b ++ ['-'] ++ c ++ ['-'] ++ d ++ ['-'] ++ e)

/-- The restored trace id (context.rs L248-260). -/
def restoreTrace (hex : Str) : Option Str := if byteLen hex = 32 then uuidForm hex else some hex

/-- The restored span id (context.rs L262-274). -/
def restoreSpan (hex : Str) : Option Str :=
  if byteLen hex = 16 then
    match splitBytes 8 hex with
    | none => none
    | some (a, s) => match splitBytes 4 s with
      | none => none
      | some (b, c) => some (a ++ ['-'] ++ b ++ ['-'] ++ c ++ "-0000-000000000000".toList)
  else some hex

/-- The values drawn by `from_headers`: the span id, and the number used if the request id is not a number.
/repo/src/shared/context.rs L275-286. -/
structure Fresh where
  span : Str
  id : Int

/-- `x-request-id` (context.rs L276-283). -/
def restoreId (fresh : Fresh) (h : AMap Str Str) : Ids.RequestId :=
  match AMap.get h kReq with
  | none => .num fresh.id
  | some s => match Decimal.parseI64 s with
    | none => .num fresh.id
    | some n => .num n

/-- The baggage (context.rs L299-306). -/
def restoreBaggage (h : AMap Str Str) : AMap Str Str :=
  h.foldl (fun b e => match Str.stripPrefix kBag e.1 with
    | none => b
    | some k => AMap.insert b k e.2) []

/-- `from_headers` (context.rs L241-312); the outer `none` is a panic of a slice. -/
def fromHeaders (fresh : Fresh) (h : AMap Str Str) : Option (Option (Ctx Info Meta)) :=
  match AMap.get h kTrace with
  | none => some none
  | some tp =>
    match Str.splitChar '-' tp with
    | _ :: trace :: span :: _ :: _ =>
      match restoreTrace trace, restoreSpan span with
      | some t, some p =>
        some (some {
          requestId := restoreId fresh h, traceId := t, parentSpan := some p, spanId := fresh.span,
          userId := AMap.get h kUser, sessionId := AMap.get h kSess, clientInfo := none, metadata := [],
          baggage := restoreBaggage h })
      | _, _ => none
    | _ => some none

/-! ### Middleware -/

/-- A hook of a middleware: it sees and may change the message (`&mut`) and everything else it has access to
(`W`), and succeeds or fails (/repo/src/shared/middleware.rs L64-74). -/
abbrev Hook (W M E : Type) := W → M → W × M × Except E Unit

/-- `process_request`, `process_response` (/repo/src/shared/middleware.rs L174-187): `for middleware in .. {
hook(message).await?; }`. -/
def process {W M E : Type} : List (Hook W M E) → W → M → W × M × Except E Unit
  | [], w, m => (w, m, .ok ())
  | f :: r, w, m =>
    match f w m with
    | (w, m, .ok ()) => process r w m
    | (w, m, .error e) => (w, m, .error e)

/-- A hook that sees the message only (/repo/src/shared/middleware.rs L77-86). -/
abbrev View (W M E : Type) := W → M → W × Except E Unit

/-- `process_send`, `process_receive` (/repo/src/shared/middleware.rs L190-203). -/
def observe {W M E : Type} : List (View W M E) → W → M → W × Except E Unit
  | [], w, _ => (w, .ok ())
  | f :: r, w, m =>
    match f w m with
    | (w, .ok ()) => observe r w m
    | (w, .error e) => (w, .error e)

end Verif.Context
