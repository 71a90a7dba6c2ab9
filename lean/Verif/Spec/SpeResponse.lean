import Mathlib.Algebra.BigOperators.Group.Finset.Basic
import Mathlib.Data.Int.Interval
import Mathlib.Data.Nat.Factorial.Basic
import Mathlib.Algebra.Order.Ring.Rat
/-!
# Vocabulary for the response to single photons
-/
namespace Verif.Spe.Spec

/-- The area of the gaussian of `k` photons: the scale times the Poisson probability, `p0` being that of no photons. -/
def area (scale p0 mean : ℚ) (k : Nat) : ℚ := scale * (p0 * mean ^ k / (k.factorial : ℚ))

/-- The contribution of `k` photons at a position: none for a negative energy. -/
def contribution (G : ℚ → ℚ → ℚ → ℚ) (pedestal sigma gain gainSigma : ℚ) (k : Nat) (x : ℚ) : ℚ :=
  if k ≠ 0 ∧ x < 0 then 0 else G (pedestal + k * gain) (sigma ^ 2 + k * gainSigma ^ 2) x

/-- The bins not above zero, and above zero. -/
def below (bins : List ℚ) : Nat := bins.countP fun b => decide (b ≤ 0)
def above (bins : List ℚ) : Nat := bins.countP fun b => decide (0 < b)

/-- A spectrum as a function of the distance in bins to the last bin not above zero; zero outside the spectrum. -/
def centred (zero : Int) (ys : List ℚ) (x : Int) : ℚ := if 0 ≤ x + zero then ys.getD (x + zero).toNat 0 else 0

/-- Repeated convolutions of `d` with `g`, keeping each time only the bins from `1 - M` to `M`. -/
def folds (M : Int) (d g : Int → ℚ) : Nat → Int → ℚ
  | 0, x => d x
  | i + 1, x => if 1 - M ≤ x ∧ x ≤ M then ∑ y ∈ Finset.Icc (1 - M) M, folds M d g i y * g (x - y) else 0

end Verif.Spe.Spec
