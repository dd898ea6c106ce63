import Verif.Stdio.More

/-
Exactly when a receive may be abandoned without loss: C148.
-/

namespace Verif.Stdio

variable {Msg : Type}

/-- **C148**, exactly: of payloads as the library writes them, a receive is abandoned before the first of them is
complete. Some later receive returns a message if and only if not one byte of it had arrived. -/
theorem C148_iff (parse : List Nat → Option Msg) (body : List Nat) (later : List (List Nat)) (hb : Compact body)
    (hl : ∀ b ∈ later, Compact b) (k : Nat) (hk : k < (frame body).length) (out : List Nat) (m : Msg)
    (hm : parse body = some m) :
    (∃ n m', .ok m' ∈ (receiveMany parse n (abandon k ⟨frame body ++ later.flatMap frame, out, false⟩)).2) ↔ k = 0 := by
  constructor
  · rintro ⟨n, m', h⟩
    rcases Nat.eq_zero_or_pos k with h0 | h0
    · exact h0
    · rcases C148_never_again parse body later hb hl k h0 hk out n _ h with e | e | e <;> cases e
  · rintro rfl
    refine ⟨1, m, ?_⟩
    simp only [receiveMany, C148_idle_partial, receive_frame parse body _ out hb.2.2, expected, hm]
    exact List.mem_cons_self

example : Compact [123, 125] := ⟨by decide, rfl, by decide +kernel⟩

end Verif.Stdio
