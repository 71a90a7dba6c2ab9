import Verif.Model.Sampling
/-!
# Vocabulary for the noise distributions (C44)
-/
namespace Verif.Sampling

/-- The probability of the first `k` bins. -/
def massBefore (w : List ℚ) (k : Nat) : ℚ := (w.take k).sum

/-- `i` is the bin of the percentile `p`: the first one such that the probability up to it, itself included, is at least `p`. -/
def IsQuantile (w : List ℚ) (p : ℚ) (i : Nat) : Prop :=
  i < w.length ∧ p ≤ massBefore w (i + 1) ∧ ∀ j < i, massBefore w (j + 1) < p

/-- Non-negative weights. -/
def NonNeg (w : List ℚ) : Prop := ∀ x ∈ w, 0 ≤ x

/-- Bins `x0, x0 + w, x0 + 2 w, ...`. -/
def arith (x0 w : ℚ) (n : Nat) : List ℚ := (List.range n).map fun k : Nat => x0 + k * w

/-- A number with at most five decimals. -/
def FiveDecimals (x : ℚ) : Prop := ∃ k : Int, x = k / 100000

/-- The probability of the pairs of bins for which `c` holds, when the two bins are independent. -/
def pairMass (a b : List ℚ) (c : Nat → Nat → Bool) : ℚ :=
  ((List.range a.length).map fun i : Nat => ((List.range b.length).map fun j : Nat => if c i j then a.getD i 0 * b.getD j 0 else 0).sum).sum

end Verif.Sampling
