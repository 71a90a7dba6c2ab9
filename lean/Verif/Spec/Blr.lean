import Verif.Model.Blr
import Mathlib.Analysis.Real.Sqrt
import Mathlib.Algebra.BigOperators.Group.Finset.Basic
/-!
# Specification of the baseline restoration

Signals are functions of the sample number.
-/
namespace Verif.Blr.Spec

/-- The previous sample, zero at the start. -/
def before (f : Nat → ℚ) : Nat → ℚ
  | 0 => 0
  | n + 1 => f n

/-- During `N` samples `y` is the response to `x` of a high-pass filter of first order (an AC coupling) with constant `k` (the bilinear transform of `s / (s + k)`, starting from rest). -/
def HighPass (k : ℚ) (N : Nat) (x y : Nat → ℚ) : Prop := ∀ n < N, (1 + k) * y n - (1 - k) * before y n = x n - before x n

/-- The samples of a list. -/
def samples (xs : List ℚ) (n : Nat) : ℚ := xs.getD n 0

/-- The mean square of the first 400 samples. -/
def meanSquare (x : Nat → ℚ) : ℚ := (∑ i ∈ Finset.range 400, x i ^ 2) / 400

/-- The accumulator is discharged at a sample `s` if it is below the threshold in units of the noise, and the accumulator `a` is not above its own. -/
def Discharges (c thr ms s a : ℚ) : Prop := (s : ℝ) < thr * √(ms : ℝ) ∧ a < thr / c

/-- `a` is the history of the accumulator for the signal `y`: it adds the samples, except that it decays (and is emptied below 1) when it is discharged. -/
structure Accumulator (c thr ms : ℚ) (y a : Nat → ℚ) : Prop where
  empty : a 0 = 0
  add : ∀ n, ¬ Discharges c thr ms (y (n + 1)) (a n) → a (n + 1) = a n + y (n + 1)
  decay : ∀ n, Discharges c thr ms (y (n + 1)) (a n) → 1 < a n → a (n + 1) = a n * (1 - c)
  reset : ∀ n, Discharges c thr ms (y (n + 1)) (a n) → a n ≤ 1 → a (n + 1) = 0

/-- A PMT is active. -/
def Active (p : LoadDb.PmtRow) : Prop := p.active ≠ 0

instance (p : LoadDb.PmtRow) : Decidable (Active p) := by unfold Active; infer_instance

end Verif.Blr.Spec
