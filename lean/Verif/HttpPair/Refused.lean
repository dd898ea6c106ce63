import Verif.HttpServer.Refusals
import Verif.StreamClient.Model
import Verif.Conform.Schema
import Verif.Wire.Messages

/-
C240, at the other end: what the crate's own client makes of a refusal, and what the body of a refusal is.
-/

namespace Verif.HttpPair

open Verif Verif.HttpServer

/-- The body of a refusal, /repo/src/server/streamable_http_server.rs L234-243. -/
def refusalBody (r : Reason) : Wire.Json :=
  .obj [("jsonrpc", .str "2.0"),
    ("error", .obj [("code", .num (.int r.code)), ("message", .str (String.ofList r.message))]), ("id", .null)]

/-- A refusal as an HTTP response; `text` writes JSON. /repo/src/server/streamable_http_server.rs L234-245. -/
def refusal (text : Wire.Json → Text) (r : Reason) : StreamClient.Resp :=
  ⟨r.status, none, none, StreamClient.kJson, some (text (refusalBody r))⟩

theorem refusal_success (text : Wire.Json → Text) (r : Reason) : (refusal text r).success = false := by
  cases r <;> rfl

/-- C240 (refuted): the client's `send` gives the status of a refusal and nothing of its body; the state of the
client is as before. -/
theorem C240_client {M : Type} (C : StreamClient.Codec M) (s : StreamClient.State M) (text : Wire.Json → Text)
    (r : Reason) : StreamClient.onAnswer C s (refusal text r) = (s, .status r.status) := by
  unfold StreamClient.onAnswer
  rw [refusal_success]
  simp [StreamClient.headers, refusal]

/-- C240 (partial: exactly for refusals with different statuses): the client tells two refusals apart. -/
theorem C240_apart_partial {M : Type} (C : StreamClient.Codec M) (s : StreamClient.State M) (text : Wire.Json → Text)
    (r r' : Reason) :
    StreamClient.onAnswer C s (refusal text r) ≠ StreamClient.onAnswer C s (refusal text r') ↔
      r.status ≠ r'.status := by
  rw [C240_client, C240_client]
  simp

/-- C240 (refuted): an id that was not sent, a session already there, a version that is not supported, one that is
not the session's and a body that is no JSON are one and the same to the client. -/
theorem C240_same {M : Type} (C : StreamClient.Codec M) (s : StreamClient.State M) (text : Wire.Json → Text)
    (v e g w : Text) : ∀ r ∈ [Reason.initialized, .unsupported v, .mismatch e g, .invalid w],
      StreamClient.onAnswer C s (refusal text r) = StreamClient.onAnswer C s (refusal text .idRequired) := by
  intro r hr
  rw [C240_client, C240_client]
  simp only [List.mem_cons, List.not_mem_nil, or_false] at hr
  rcases hr with rfl | rfl | rfl | rfl <;> rfl

/-- C240: the refusal of a stream is told as its status, but for one: that of a server without sessions is success. -/
theorem C240_stream {M : Type} (s : StreamClient.State M) (text : Wire.Json → Text) (r : Reason) :
    StreamClient.onStreamAnswer s (refusal text r) =
      (s, if r = .stateless then .ok else .status r.status) := by
  unfold StreamClient.onStreamAnswer
  rw [refusal_success]
  cases r <;> simp [refusal, Reason.status]

/-- C240 (refuted): the body of a refusal is no message, for the crate or the published schema: its id is `null`. -/
theorem C240_no_message (r : Reason) :
    Wire.TMsg.dec (refusalBody r) = none ∧ Wire.parseMessage (refusalBody r) = none ∧
      Conform.errorResponse (refusalBody r) = false := by
  refine ⟨?_, rfl, rfl⟩
  have h : Wire.Notification.dec (refusalBody r) = none := rfl
  simp only [Wire.TMsg.dec, h]
  rfl

example : (refusalBody .unknown, Reason.unknown.status) =
    (.obj [("jsonrpc", .str "2.0"),
      ("error", .obj [("code", .num (.int (-32600))), ("message", .str "Unknown session ID")]), ("id", .null)], 404) :=
  rfl

end Verif.HttpPair
