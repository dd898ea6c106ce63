/-
Decidable equality of `Except`, for evaluating concrete cases.
-/

namespace Verif

deriving instance DecidableEq for Except

end Verif
