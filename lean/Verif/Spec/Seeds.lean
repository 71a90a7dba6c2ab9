import Mathlib.Data.Rat.Lemmas
/-!
# What is asked of the seeds and bounds of a fit
-/
namespace Verif.Spec.Seeds

/-- There is a lower and an upper bound for each seed (no number: infinity) and each seed is between its bounds: `curve_fit` refuses anything else. -/
def Feasible (seed low : List ℚ) (upp : List (Option ℚ)) : Prop :=
  low.length = seed.length ∧ upp.length = seed.length ∧
    ∀ (i : Nat) (s l : ℚ), seed[i]? = some s → low[i]? = some l → l ≤ s ∧ ∀ u, upp[i]? = some (some u) → s ≤ u

/-- The sum of the values whose positions satisfy a condition. -/
def sumWhere (p : ℚ → Prop) [DecidablePred p] (xs ys : List ℚ) : ℚ := ((xs.zip ys).map fun xy => if p xy.1 then xy.2 else 0).sum

end Verif.Spec.Seeds
