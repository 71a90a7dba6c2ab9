import Verif.Model.TimeEvol
/-!
# Vocabulary of the time evolution
-/
namespace Verif.TimeEvol

/-- A time in the slice number `q` of those that last `seconds` from `start`. -/
def InSlice (start seconds : ℚ) (q : Nat) (t : ℚ) : Prop := start + q * seconds ≤ t ∧ t < start + (q + 1) * seconds

instance (start seconds : ℚ) (q : Nat) (t : ℚ) : Decidable (InSlice start seconds q t) := by unfold InSlice; infer_instance

/-- The rows of a slice, in their order. -/
def slice (start seconds : ℚ) (q : Nat) (rows : List Row) : List Row := rows.filter fun r => decide (InSlice start seconds q r.time)

/-- `x` is in the square of half side `size` around `x0`, or in the circle. -/
def InRegion (x0 y0 : ℚ) (shape : Shape) (size : ℚ) (r : Row) : Prop :=
  ∃ x y, r.x = some x ∧ r.y = some y ∧
    match shape with
    | .square => (-size ≤ x - x0 ∧ x - x0 < size) ∧ -size ≤ y - y0 ∧ y - y0 < size
    | .circle => (x - x0) ^ 2 + (y - y0) ^ 2 ≤ size ^ 2

end Verif.TimeEvol
