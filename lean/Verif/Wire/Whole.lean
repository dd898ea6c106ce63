import Verif.Wire.Positions

/-
Whole numbers written with a fraction or an exponent (C255): `1.0` and `1e0` beside `1`. `serde_json` reads them as
floats (`Num.flt`).
-/

namespace Verif.Wire

/-! ### Specification -/

/-- The whole number as an integer. (Specification: no counterpart in the code.) -/
def whole (n : Int) : Json := .num (.int n)

/-- The same number with a fraction, as `1.0`. (Specification: no counterpart in the code.) -/
def pointed (n : Int) : Json := .num (.flt n)

/-! ### Lemmas -/

theorem id_flt (q : Rat) : Id.dec (.num (.flt q)) = none := by simp [Id.dec, decStr, decInt]

/-! ### C255 -/

/-- **C255** fails for identifiers (stdio, WebSocket, HTTP client): whatever the message and the number, it is refused
if its id is written with a fraction. -/
theorem C255_id (f : List (String × Json)) (q : Rat) (h : AMap.get f "id" = some (.num (.flt q))) :
    parseMessage (.obj f) = none := by
  have h1 : RpcRequest.dec (.obj f) = none := by
    simp only [RpcRequest.dec, src_obj, Option.bind_eq_bind, Option.bind_some, req_obj, h, id_flt, Option.bind_none]
    cases (AMap.get f "jsonrpc").bind decStr <;> simp
  have h2 : RpcResponse.dec (.obj f) = none := by
    simp only [RpcResponse.dec, Option.bind_eq_bind, req_obj, h, Option.bind_some, id_flt, Option.bind_none]
    cases (AMap.get f "jsonrpc").bind decStr <;> simp
  simp [parseMessage, vget, h, h1, h2]

example : (parseMessage (requestJson (whole 1) "ping" .null)).isSome ∧
    parseMessage (requestJson (pointed 1) "ping" .null) = none := ⟨rfl, C255_id _ _ rfl⟩

/-- **C255** (identifiers, exact). An id that is a number is understood exactly if it is written as an integer of 64
bits. Missing from the property: the same number written otherwise. -/
theorem C255_id_partial (n : Num) :
    (parseMessage (requestJson (.num n) "ping" .null)).isSome ↔ ∃ k, n = .int k ∧ -2 ^ 63 ≤ k ∧ k < 2 ^ 63 := by
  cases n with
  | flt q =>
    have h : parseMessage (requestJson (.num (.flt q)) "ping" .null) = none := C255_id _ q rfl
    rw [h]
    simp
  | int k =>
    by_cases hk : -2 ^ 63 ≤ k ∧ k < 2 ^ 63
    · have hi : Id.dec (.num (.int k)) = some (.num ⟨k, hk⟩) := by
        show (decInt (-2 ^ 63) (2 ^ 63) (.num (.int k))).map Id.num = _
        simp only [decInt]
        rw [dif_pos hk]
        rfl
      have : (parseMessage (requestJson (.num (.int k)) "ping" .null)).isSome = true := by
        simp [parseMessage, vget, requestJson, AMap.get_cons, RpcRequest.dec, decStr, hi, optOf, decOpt, parseRequest]
        rfl
      rw [this]
      exact ⟨fun _ => ⟨k, rfl, hk⟩, fun _ => rfl⟩
    · have hi : Id.dec (.num (.int k)) = none := by
        show (decInt (-2 ^ 63) (2 ^ 63) (.num (.int k))).map Id.num = _
        simp only [decInt]
        rw [dif_neg hk]
        rfl
      have : parseMessage (requestJson (.num (.int k)) "ping" .null) = none := by
        simp [parseMessage, vget, requestJson, AMap.get_cons, RpcRequest.dec, decStr, hi]
      rw [this]
      constructor
      · intro h; cases h
      · rintro ⟨k', h, hk'⟩
        cases h
        exact absurd hk' hk

/-- **C255** fails for identifiers over streamable HTTP: an object with such an id is read as a notification or not at
all. -/
theorem C255_http (f : List (String × Json)) (q : Rat) (h : AMap.get f "id" = some (.num (.flt q))) :
    TMsg.dec (.obj f) = (Notification.dec (.obj f)).map .notification := by
  have h2 : RpcResponse.dec (.obj f) = none := by
    simp only [RpcResponse.dec, Option.bind_eq_bind, req_obj, h, Option.bind_some, id_flt, Option.bind_none]
    cases (AMap.get f "jsonrpc").bind decStr <;> simp
  have h1 : decReqVariant (.obj f) = none := by simp [decReqVariant, h, id_flt]
  simp [TMsg.dec, h1, h2]

example : TMsg.dec (.obj [("id", pointed 1), ("request", .obj [("method", .str "ping")])]) = none ∧
    (TMsg.dec (.obj [("id", whole 1), ("request", .obj [("method", .str "ping")])])).isSome := ⟨rfl, rfl⟩

/-- **C255** fails for the other whole numbers: the request to cancel, the token of progress, the limit of tokens, the
number of completions and the code of an error, whatever the other members and the number. -/
theorem C255_members (f : List (String × Json)) (q : Rat) :
    Cancelled.dec (.obj (("requestId", .num (.flt q)) :: f)) = none ∧
    Progress.dec (.obj (("progressToken", .num (.flt q)) :: f)) = none ∧
    CreateMessage.dec (.obj (("maxTokens", .num (.flt q)) :: f)) = none ∧
    Completion.dec (.obj (("total", .num (.flt q)) :: f)) = none ∧
    RpcError.dec (.obj (("code", .num (.flt q)) :: f)) = none := by
  refine ⟨?_, ?_, ?_, ?_, ?_⟩
  · simp [Cancelled.dec, AMap.get_cons, id_flt]
  · simp [Progress.dec, AMap.get_cons, id_flt]
  · simp [CreateMessage.dec, AMap.get_cons, optOf, decOpt, decInt]
  · simp [Completion.dec, AMap.get_cons, optOf, decOpt, decInt]
  · simp [RpcError.dec, AMap.get_cons, decInt]

/-- **C255** holds for the numbers that need not be whole: the progress made, the temperature and the priorities of a
model are read alike. -/
theorem C255_floats (f : List (String × Json)) (n : Int) :
    Progress.dec (.obj (("progress", pointed n) :: f)) = Progress.dec (.obj (("progress", whole n) :: f)) ∧
    CreateMessage.dec (.obj (("temperature", pointed n) :: f)) =
      CreateMessage.dec (.obj (("temperature", whole n) :: f)) ∧
    (∀ k ∈ ["costPriority", "speedPriority", "intelligencePriority"],
      ModelPrefs.dec (.obj ((k, pointed n) :: f)) = ModelPrefs.dec (.obj ((k, whole n) :: f))) := by
  refine ⟨?_, ?_, ?_⟩
  · simp [Progress.dec, AMap.get_cons, pointed, whole, decF64]
  · simp [CreateMessage.dec, AMap.get_cons, pointed, whole, decF64, optOf, decOpt]
  · intro k hk
    simp only [List.mem_cons, List.not_mem_nil, or_false] at hk
    rcases hk with rfl | rfl | rfl <;>
      simp [ModelPrefs.dec, AMap.get_cons, pointed, whole, decF64, optOf, decOpt]

example : ∃ p, Progress.dec (.obj [("progress", whole 3), ("progressToken", .str "t")]) = some p ∧
    p.progress = .fin 3 :=
  ⟨_, rfl, rfl⟩

end Verif.Wire
