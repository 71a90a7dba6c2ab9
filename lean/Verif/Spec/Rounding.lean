import Mathlib.Data.Rat.Floor
import Mathlib.Algebra.Order.Ring.Abs

/-! Specification of `np.round` with decimals. -/

namespace Verif.Rounding

/-- `y` is the multiple of `1 / d` nearest to `x`, the even one of two. -/
def Rounded (d : ℚ) (x y : ℚ) : Prop := ∃ n : Int, y = n / d ∧ |x * d - n| ≤ 1 / 2 ∧ (|x * d - n| = 1 / 2 → n % 2 = 0)

end Verif.Rounding
