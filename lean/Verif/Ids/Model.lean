import Verif.Common.Decimal

/-
Model of `RequestId`, `/repo/src/types/jsonrpc.rs` L28-70.  Strings are lists of characters.
-/

namespace Verif.Ids

/-- `RequestId`, /repo/src/types/jsonrpc.rs L30-35.  `num` holds an `i64`; theorems that depend on
the range say so. -/
inductive RequestId where
  | str (s : List Char)
  | num (n : Int)
  deriving DecidableEq

/-- `impl Display for RequestId`, /repo/src/types/jsonrpc.rs L37-44 (`to_string()` uses it). -/
def RequestId.display : RequestId → List Char
  | .str s => s
  | .num n => Decimal.showInt n

/-- `i64::MAX`. (/repo/src/types/jsonrpc.rs L64-70.) -/
def i64Max : Int := 2 ^ 63 - 1

/-- `From<u64> for RequestId`, /repo/src/types/jsonrpc.rs L64-70. -/
def fromU64 (n : Nat) : RequestId :=
  if (n : Int) ≤ i64Max then .num n else .num i64Max

end Verif.Ids
