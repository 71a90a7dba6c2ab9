import Verif.Model.Fee
import Mathlib.Algebra.BigOperators.Group.Finset.Basic
/-!
# Specification of the electronics of the PMTs
-/
namespace Verif.Fee.Spec

/-- The n-th value of a list, zero after its end. -/
def at' (xs : List ℚ) (n : Nat) : ℚ := xs.getD n 0

/-- `y` is the response of the filter with coefficients `b`, `a` to `x`: `Σ aᵢ y[n - i] = Σ bᵢ x[n - i]` for each sample, everything being zero before the start. -/
structure Response (f : Filter) (x y : List ℚ) : Prop where
  length : y.length = x.length
  samples : ∀ n < x.length, ∑ i ∈ Finset.range (n + 1), at' f.a i * at' y (n - i) = ∑ i ∈ Finset.range (n + 1), at' f.b i * at' x (n - i)

/-- The filter can be used: the first coefficient of `a` is not zero. -/
def Usable (f : Filter) : Prop := at' f.a 0 ≠ 0

instance (f : Filter) : Decidable (Usable f) := by unfold Usable; infer_instance

end Verif.Fee.Spec
