import Verif.Cost
import Mathlib.Data.Real.Basic

/-!
# Exact real costs
-/

namespace Verif

/-- Real costs with infinity. -/
noncomputable instance realCost : CostArith (WithTop ℝ) where
  add_mono _ _ _ h := add_le_add h le_rfl
  top_add _ := rfl
  zero_lt_top := WithTop.coe_lt_top 0

end Verif
