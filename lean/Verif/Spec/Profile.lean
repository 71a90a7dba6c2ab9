import Verif.Model.Profile
import Verif.Spec.KrMap
/-!
# Vocabulary of the profiles
-/
namespace Verif.Profile

/-- A value in a range, closed on the left; any value if there is no range. -/
def InRange (r : Option (ℚ × ℚ)) (v : ℚ) : Prop := ∀ lo hi, r = some (lo, hi) → lo ≤ v ∧ v < hi

instance (r : Option (ℚ × ℚ)) (v : ℚ) : Decidable (InRange r v) :=
  match r with
  | none => isTrue (by intro _ _ h; cases h)
  | some (lo, hi) => if h : lo ≤ v ∧ v < hi then isTrue (by intro _ _ e; cases e; exact h) else isFalse fun g => h (g lo hi rfl)

/-- The values y of the points whose x is in the bin number `k` of the range. -/
def values (data : List (ℚ × ℚ)) (nbins : Nat) (r : ℚ × ℚ) (yr : Option (ℚ × ℚ)) (k : Nat) : List ℚ :=
  (data.filter fun p => decide (KrMap.InPart r nbins k p.1 ∧ InRange yr p.2)).map Prod.snd

/-- The values z of the points in the bin `i`, `j`. -/
def values3 (data : List Triple) (nx ny : Nat) (rx ry : ℚ × ℚ) (zr : Option (ℚ × ℚ)) (i j : Nat) : List ℚ :=
  (data.filter fun p => decide (KrMap.InPart rx nx i p.x ∧ KrMap.InPart ry ny j p.y ∧ InRange zr p.z)).map Triple.z

/-- The average, and the square of the deviation: unknown with less than two values; that of the average if `std` is false. -/
def average (vs : List ℚ) : ℚ := vs.sum / vs.length

def deviation2 (std : Bool) (vs : List ℚ) : Option ℚ :=
  if vs.length < 2 then none
  else some ((vs.map fun v => (v - average vs) ^ 2).sum / (vs.length - 1) / if std then 1 else vs.length)

end Verif.Profile
