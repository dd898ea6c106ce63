import Verif.Ids.Model

/-
Property C23: the string key under which a request is cancelled.
The full claim "different request ids have different keys" is false in the code; the theorems say
exactly when two ids share a key.
-/

namespace Verif.Ids

/-- **C23** is false for the code as it is: a numeric id and the string that prints like it share
the key. -/
theorem C23_key_collision_witness :
    ∃ a b : RequestId, a ≠ b ∧ a.display = b.display :=
  ⟨.num 42, .str ['4', '2'], by decide, by
    show Decimal.showNat 42 = ['4', '2']
    rw [Decimal.showNat, Decimal.showNat]
    decide⟩

/-- **C23** (what holds; missing: separation of numeric ids from strings that look like them).
Two ids share a key iff they are equal or one is a number and the other is the string of its
decimal digits. -/
theorem C23_keys_distinct_partial (a b : RequestId) :
    a.display = b.display ↔
      a = b ∨ (∃ n, a = .num n ∧ b = .str (Decimal.showInt n)) ∨
        (∃ n, b = .num n ∧ a = .str (Decimal.showInt n)) := by
  cases a with
  | str s =>
    cases b with
    | str t => simp [RequestId.display]
    | num n => simp [RequestId.display]
  | num m =>
    cases b with
    | str t => simp [RequestId.display, eq_comm]
    | num n =>
      simp only [RequestId.display, RequestId.num.injEq, reduceCtorEq, and_false, exists_false,
        or_false]
      exact ⟨Decimal.showInt_injective, fun h => by rw [h]⟩

/-- Converting `u64` ids: two different numbers become the same id iff both exceed the `i64`
range limit. -/
theorem C23_fromU64_collisions (a b : Nat) :
    fromU64 a = fromU64 b ↔ a = b ∨ (2 ^ 63 - 1 ≤ a ∧ 2 ^ 63 - 1 ≤ b) := by
  unfold fromU64 i64Max
  have h63 : (2 : Nat) ^ 63 = 9223372036854775808 := by decide
  have h63' : (2 : Int) ^ 63 = 9223372036854775808 := by decide
  rw [h63, h63']
  split <;> split <;> simp only [RequestId.num.injEq] <;> constructor <;> intro h <;> first | omega | trivial

example : fromU64 (2 ^ 63) = fromU64 (2 ^ 63 + 5) := by decide
example : fromU64 7 ≠ fromU64 8 := by decide

end Verif.Ids
