import Verif.Errors.Props

/-
C222 and C223, continued: the strategies of the default policy, and what the texts of errors tell.
-/

namespace Verif.Errors

open Verif

/-- **C222**. The default policy, for every error: errors with the code of internal errors and all errors without a code
are retried three times from 100 ms on, doubling, up to 5 s; errors of invalid requests twice, every 500 ms; all
others fail at once. -/
theorem C222_standard (e : Error) :
    (Policy.standard.meets e = .exponential 3 (1 / 10) 5 2 ↔ e.errorCode = none ∨ e.kind = .protocol (-32603)) ∧
    (Policy.standard.meets e = .fixed 2 (1 / 2) ↔ e.kind = .protocol (-32600)) ∧
    (Policy.standard.meets e = .failFast ↔
      ∃ c, e.kind = .protocol c ∧ c ≠ -32603 ∧ c ≠ -32600) := by
  have key : ∀ c : Int, (AMap.get Policy.standard.strategies c).getD Policy.standard.default =
      if c = -32603 then .exponential 3 (1 / 10) 5 2 else if c = -32600 then .fixed 2 (1 / 2) else .failFast := by
    intro c
    by_cases h1 : c = -32603
    · subst h1; rfl
    · by_cases h2 : c = -32600
      · subst h2; rfl
      · simp [Policy.standard, AMap.get, h1, h2, Ne.symm h1, Ne.symm h2]
  have hm : Policy.standard.meets e =
      if (e.errorCode.getD Server.internalError).1 = -32603 then .exponential 3 (1 / 10) 5 2
      else if (e.errorCode.getD Server.internalError).1 = -32600 then .fixed 2 (1 / 2) else .failFast := key _
  rw [hm]
  cases e with
  | protocol c m d =>
    simp only [Error.errorCode, Error.kind, Option.getD_some, Kind.protocol.injEq, reduceCtorEq, false_or]
    by_cases h1 : c.1 = -32603
    · simp [h1]
    · by_cases h2 : c.1 = -32600
      · simp [h2]
      · simp [h1, h2]
  | _ => simp [Error.errorCode, Error.kind, Server.internalError]

/-- The words the text of an error of a kind begins with. (Specification: no counterpart in the code.) -/
def Kind.words : Kind → String
  | .protocol _ => "Protocol error: "
  | .transport => "Transport error: "
  | .serialization => "Serialization error: "
  | .validation => "Validation error: "
  | .authentication => "Authentication error: "
  | .timeout => "Request timed out after "
  | .capability => "Capability not supported: "
  | .internal => "Internal error: "
  | .notFound => "Resource not found: "
  | .state => "Invalid state: "
  | .cancelled => "Operation cancelled"
  | .other => ""

/-- The kind without the code. (Specification: no counterpart in the code.) -/
def Kind.sort : Kind → Kind
  | .protocol _ => .protocol 0
  | k => k

/-- All kinds that have words of their own, without codes. (Specification: no counterpart in the code.) -/
def sorts : List Kind :=
  [.protocol 0, .transport, .serialization, .validation, .authentication, .timeout, .capability, .internal, .notFound,
    .state, .cancelled]

theorem sort_mem (k : Kind) (h : k ≠ .other) : k.sort ∈ sorts := by
  cases k <;> simp [Kind.sort, sorts] at h ⊢

theorem words_sort (k : Kind) : k.sort.words = k.words := by cases k <;> rfl

theorem words_apart : ∀ a ∈ sorts, ∀ b ∈ sorts, a.words.toList <+: b.words.toList → a = b := by
  decide +kernel

/-- What an error was made with, as text. (Specification: no counterpart in the code.) -/
def Error.detail : Error → String
  | .protocol c m _ => toString c.1 ++ (" - " ++ m)
  | .transport t => t.text
  | .timeout ms => toString ms ++ "ms"
  | .cancelled => ""
  | .serialization t | .validation t | .authentication t | .unsupportedCapability t | .internal t | .notFound t
  | .invalidState t | .other t => t

/-- **C223**. The text of an error is the words of its kind and what it was made with. -/
theorem C223_words (e : Error) : e.text = e.kind.words ++ e.detail := by
  cases e with
  | protocol c m d =>
    have h : Error.text (.protocol c m d) = "Protocol error: " ++ toString c.1 ++ " - " ++ m := rfl
    rw [h, String.append_assoc, String.append_assoc]
    rfl
  | timeout ms =>
    have h : Error.text (.timeout ms) = "Request timed out after " ++ toString ms ++ "ms" := rfl
    rw [h, String.append_assoc]
    rfl
  | cancelled => exact String.append_empty.symm
  | other t => exact String.empty_append.symm
  | _ => rfl

/-- **C223**. The text of an error tells its kind: two errors with one text are of one kind, up to the code of protocol
errors, unless one of them is foreign to the crate (`Other`), whose text is anything. -/
theorem C223_text_tells_partial (e f : Error) (he : e.kind ≠ .other) (hf : f.kind ≠ .other) (h : e.text = f.text) :
    e.kind.sort = f.kind.sort := by
  have hr := C223_words e
  have hr' := C223_words f
  generalize e.detail = r at hr
  generalize f.detail = r' at hr'
  rw [hr, hr'] at h
  have hl : e.kind.words.toList ++ r.toList = f.kind.words.toList ++ r'.toList := by
    rw [← String.toList_append, ← String.toList_append, h]
  rw [← words_sort e.kind, ← words_sort f.kind] at hl
  have hp : e.kind.sort.words.toList <+: f.kind.sort.words.toList ++ r'.toList := ⟨_, hl⟩
  have hq : f.kind.sort.words.toList <+: f.kind.sort.words.toList ++ r'.toList := ⟨_, rfl⟩
  rcases List.prefix_or_prefix_of_prefix hp hq with h1 | h1
  · exact words_apart _ (sort_mem _ he) _ (sort_mem _ hf) h1
  · exact (words_apart _ (sort_mem _ hf) _ (sort_mem _ he) h1).symm

/-- **C223, refuted** for foreign errors: one has the text of any other. -/
theorem C223_other_says_anything (e : Error) : (Error.other e.text).text = e.text := rfl

/-- The words of a transport error. (Specification: no counterpart in the code.) -/
def TransportError.words : TransportError → String
  | .io _ => "IO error: "
  | .connectionClosed => "Connection closed"
  | .invalidMessage _ => "Invalid message format: "
  | .serialization _ => "Serialization error: "
  | .deserialization _ => "Deserialization error: "
  | .request _ => "Request error: "
  | .send _ => "Send error: "
  | .webSocket _ => "WebSocket error: "
  | .http _ => "HTTP error: "

/-- Which of the transport errors it is. (Specification: no counterpart in the code.) -/
def TransportError.number : TransportError → Nat
  | .io _ => 0
  | .connectionClosed => 1
  | .invalidMessage _ => 2
  | .serialization _ => 3
  | .deserialization _ => 4
  | .request _ => 5
  | .send _ => 6
  | .webSocket _ => 7
  | .http _ => 8

/-- The text it was made with. (Specification: no counterpart in the code.) -/
def TransportError.detail : TransportError → String
  | .connectionClosed => ""
  | .io t | .invalidMessage t | .serialization t | .deserialization t | .request t | .send t | .webSocket t | .http t => t

theorem transport_words (t : TransportError) : t.text = t.words ++ t.detail := by
  cases t <;> first | rfl | exact String.append_empty.symm

theorem transport_apart (t u : TransportError) (h : t.words.toList <+: u.words.toList) : t.number = u.number := by
  cases t <;> cases u <;>
    first
    | rfl
    | (exfalso; revert h; simp only [TransportError.words]; decide +kernel)

/-- **C223**. A transport error says "Transport error: ", which one it is, and the text it was made with; from the text
it can be told which one. -/
theorem C223_transport_tells (t u : TransportError) :
    (Error.transport t).text = "Transport error: " ++ t.words ++ t.detail ∧
    ((Error.transport t).text = (Error.transport u).text → t.number = u.number) := by
  refine ⟨by rw [String.append_assoc, ← transport_words]; rfl, fun h => ?_⟩
  have h1 : t.text = u.text := by
    have h' : "Transport error: " ++ t.text = "Transport error: " ++ u.text := h
    have := congrArg String.toList h'
    rw [String.toList_append, String.toList_append] at this
    exact String.toList_injective (List.append_cancel_left this)
  rw [transport_words, transport_words u] at h1
  have hl : t.words.toList ++ t.detail.toList = u.words.toList ++ u.detail.toList := by
    rw [← String.toList_append, ← String.toList_append, h1]
  rcases List.prefix_or_prefix_of_prefix ⟨_, hl⟩ ⟨u.detail.toList, rfl⟩ with h2 | h2
  · exact transport_apart t u h2
  · exact (transport_apart u t h2).symm

/-- **C223**. The texts of the two makers that add words: an unknown method is named, and work that was cancelled is said
to have failed to validate. -/
theorem C223_made_texts (m : String) :
    (make (.methodNotFound m)).text = "Protocol error: -32601 - Method not found: " ++ m ∧
    (make (.cancelled m)).text = "Validation error: Operation cancelled: " ++ m := by
  constructor
  · have h : "Protocol error: " ++ toString (-32601 : Int) ++ " - " ++ "Method not found: " =
      "Protocol error: -32601 - Method not found: " := by decide +kernel
    rw [← h, String.append_assoc]
    rfl
  · have h : "Validation error: " ++ "Operation cancelled: " = "Validation error: Operation cancelled: " := by
      decide +kernel
    rw [← h, String.append_assoc]
    rfl

/-! ### Concrete cases -/

example : Policy.standard.meets (make (.invalidRequest "no method")) = .fixed 2 (1 / 2) :=
  (C222_standard _).2.1.mpr rfl

example : Policy.standard.meets (make (.methodNotFound "x")) = .failFast :=
  (C222_standard _).2.2.mpr ⟨-32601, rfl, by decide, by decide⟩

example : (make (.validation "a")).text ≠ (make (.internal "a")).text :=
  fun h => absurd (C223_text_tells_partial _ _ (by decide) (by decide) h) (by decide)

example : (Error.transport (.send "x")).text ≠ (Error.transport (.http "x")).text :=
  fun h => absurd ((C223_transport_tells _ _).2 h) (by decide)

end Verif.Errors
