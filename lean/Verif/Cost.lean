import Mathlib.Order.BoundedOrder.Basic
import Mathlib.Algebra.Order.Monoid.WithTop
import Mathlib.Algebra.Order.Ring.Rat
import Mathlib.Algebra.Order.Group.Nat
import Mathlib.Data.Nat.Cast.Order.Basic

/-!
# Cost arithmetic

The graph searches only compare costs and add an edge cost to an accumulated cost.  What they need
from the numbers is collected here.  IEEE arithmetic restricted to non-NaN values greater than
`-inf` has these laws: rounding is monotone, `inf + c = inf`.  Addition is *not* assumed to be
associative or commutative.
-/

namespace Verif

/-- Numbers with an infinity `⊤` and an addition that is monotone in the accumulated argument. -/
class CostArith (C : Type) extends LinearOrder C, OrderTop C, Zero C, Add C where
  add_mono : ∀ a b c : C, a ≤ b → a + c ≤ b + c
  top_add : ∀ c : C, ⊤ + c = ⊤
  zero_lt_top : (0 : C) < ⊤

export CostArith (add_mono top_add zero_lt_top)

/-- Exact natural-number costs with infinity. -/
instance : CostArith (WithTop ℕ) where
  add_mono _ _ _ h := add_le_add h le_rfl
  top_add _ := rfl
  zero_lt_top := WithTop.coe_lt_top 0

/-- Exact rational costs with infinity. -/
instance : CostArith (WithTop ℚ) where
  add_mono _ _ _ h := add_le_add h le_rfl
  top_add _ := rfl
  zero_lt_top := WithTop.coe_lt_top 0

/-- A monotone rounding of the extended rationals that keeps infinity (for instance rounding to the
nearest float, with overflow to infinity). -/
structure Rounding where
  round : WithTop ℚ → WithTop ℚ
  mono : ∀ a b, a ≤ b → round a ≤ round b
  top : round ⊤ = ⊤

/-- Extended rationals whose sums are rounded by `r`. -/
def Rounded (_ : Rounding) : Type := WithTop ℚ

/-- Rounded arithmetic is a `CostArith`, although its addition need not be associative. -/
instance (r : Rounding) : CostArith (Rounded r) where
  __ := (inferInstance : LinearOrder (WithTop ℚ))
  __ := (inferInstance : OrderTop (WithTop ℚ))
  zero := (0 : WithTop ℚ)
  add a b := r.round ((show WithTop ℚ from a) + (show WithTop ℚ from b))
  add_mono a b c h := r.mono _ _ (add_le_add (α := WithTop ℚ) h le_rfl)
  top_add c := by
    show r.round ((⊤ : WithTop ℚ) + _) = ⊤
    rw [WithTop.top_add]; exact r.top
  zero_lt_top := WithTop.coe_lt_top (0 : ℚ)

end Verif
