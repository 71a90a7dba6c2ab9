import Verif.Model.Calib
import Verif.Spec.Peaks
/-!
# Specification of integration windows and calibration (properties C43 and C54)
-/
namespace Verif.Calib

/-- A list of windows `[start, stop)` written as a list of limits: start, stop, start, stop, ... -/
def limitsOf (windows : List (Int × Int)) : List Int := windows.flatMap fun w => [w.1, w.2]

/-- The window is inside a buffer of `n` samples. -/
def Inside (n : Nat) (w : Int × Int) : Prop := 0 ≤ w.1 ∧ w.2 ≤ n
instance (n : Nat) (w : Int × Int) : Decidable (Inside n w) := by unfold Inside; infer_instance

/-- The two windows have no sample in common. -/
def Disjoint (v w : Int × Int) : Prop := ∀ i : Int, ¬ ((v.1 ≤ i ∧ i < v.2) ∧ w.1 ≤ i ∧ i < w.2)

/-- The light window number `k`. -/
def lightWindow (w : Windows) (k : Nat) : Int × Int := (w.first + k * w.period, w.first + k * w.period + w.width)

/-- The dark window number `k`: same width, ending `gap` samples before the light window. -/
def darkWindow (w : Windows) (k : Nat) : Int × Int := (w.first + k * w.period - w.gap - w.width, w.first + k * w.period - w.gap)

end Verif.Calib
