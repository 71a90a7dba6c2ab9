import Verif.Model.FixedPars
/-!
# Vocabulary of the functions with fixed parameters
-/
namespace Verif.FixedPars

/-- The parameters of a function: all its arguments but the first one. -/
def params {X R : Type} (fn : Fn X R) : List String := fn.names.tail

/-- The parameters that are not given a value. -/
def freeNames {X R : Type} (fn : Fn X R) (kwargs : List (String × Option ℚ)) : List String := (params fn).filter fun n => decide (n ∉ kwargs.map Prod.fst)

/-- The points in the range of the fit. -/
def InFit (r : Option (ℚ × ℚ)) (d : Datum) : Prop := ∀ lo hi, r = some (lo, hi) → lo ≤ d.x ∧ d.x < hi

instance (r : Option (ℚ × ℚ)) (d : Datum) : Decidable (InFit r d) :=
  match r with
  | none => isTrue (by intro _ _ h; cases h)
  | some (lo, hi) => if h : lo ≤ d.x ∧ d.x < hi then isTrue (by intro _ _ e; cases e; exact h) else isFalse fun g => h (g lo hi rfl)

end Verif.FixedPars
