import Verif.Model.LifetimeFit
import Mathlib.Analysis.SpecialFunctions.Log.Deriv
/-!
# Vocabulary for the fits of the lifetime
-/
namespace Verif.LifetimeFit

/-- The smallest of some values. -/
def Smallest {K : Type} [LinearOrder K] (l : List K) (m : K) : Prop := m ∈ l ∧ ∀ v ∈ l, m ≤ v

/-- The largest of some values. -/
def Largest {K : Type} [LinearOrder K] (l : List K) (m : K) : Prop := m ∈ l ∧ ∀ v ∈ l, v ≤ m

/-- The energies decrease with the drift time with lifetime `τ` from `e0`. -/
def Decay (e0 τ : ℝ) (evts : List (Evt ℝ)) : Prop := ∀ e ∈ evts, e.energy = e0 * Real.exp (-e.dt / τ)

/-- The value of a gaussian of some area, mean and standard deviation at its mean. -/
def peakOf (root : ℚ) (p : ℚ × ℚ × ℚ) : ℚ := p.1 / (root * p.2.2)

/-- The number of values in each bin `[e_b, e_(b+1))`, closed for the last bin. -/
def IsHistogram (edges data : List ℚ) (y : List Nat) : Prop :=
  y.length = edges.length - 1 ∧ ∀ (b : Nat) (hb : b < y.length) (lo hi : ℚ), edges[b]? = some lo → edges[b + 1]? = some hi →
    y[b] = data.countP fun d => decide (lo ≤ d ∧ (d < hi ∨ (d = hi ∧ b + 2 = edges.length)))

/-- The middle of each bin. -/
def IsCentres (edges : List ℚ) (x : List ℚ) : Prop :=
  x.length = edges.length - 1 ∧ ∀ (b : Nat) (lo hi : ℚ), edges[b]? = some lo → edges[b + 1]? = some hi → x[b]? = some ((lo + hi) / 2)

end Verif.LifetimeFit
