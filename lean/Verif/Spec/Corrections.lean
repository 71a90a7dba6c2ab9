import Verif.Model.Corrections
import Verif.Spec.KrMap
/-!
# Vocabulary of the corrections with maps
-/
namespace Verif.Corrections

/-- The table has `ny` rows of `nx` values. -/
def IsShape (info : Info) (values : Table) : Prop := values.length = info.ny ∧ ∀ row ∈ values, row.length = info.nx

/-- A map with at least one bin. -/
def Proper (info : Info) : Prop := info.xmin < info.xmax ∧ info.ymin < info.ymax ∧ 0 < info.nx ∧ 0 < info.ny

/-- The value of the bin `i` in x and `j` in y. -/
def bin (values : Table) (i j : Nat) : Option ℚ := ((values.getD j []).getD i none)

/-- The position is in the bin `i` in x and `j` in y. -/
def InBin (info : Info) (i j : Nat) (x y : ℚ) : Prop :=
  i < info.nx ∧ j < info.ny ∧ KrMap.InPart (info.xmin, info.xmax) info.nx i x ∧ KrMap.InPart (info.ymin, info.ymax) info.ny j y

/-- The values of the bins whose centre meets a condition. -/
def chosen (info : Info) (values : Table) (P : ℚ → ℚ → Bool) : List (Option ℚ) :=
  (List.range info.ny).flatMap fun j =>
    ((List.range info.nx).filter fun i => P (KrMap.centre (info.xmin, info.xmax) info.nx i) (KrMap.centre (info.ymin, info.ymax) info.ny j)).map fun i => bin values i j

/-- Every value multiplied by a constant. -/
def scaled (c : ℚ) (values : Table) : Table := values.map fun row => row.map fun v => v.map (c * ·)

/-- A function that goes through the points given, linear between them and constant outside. -/
structure IsInterp (xp fp : List ℚ) (f : ℚ → ℚ) : Prop where
  before : ∀ a fa x, xp[0]? = some a → fp[0]? = some fa → x ≤ a → f x = fa
  between : ∀ (k : Nat) a b fa fb x, xp[k]? = some a → xp[k + 1]? = some b → fp[k]? = some fa → fp[k + 1]? = some fb → a ≤ x → x ≤ b → f x = fa + (fb - fa) * ((x - a) / (b - a))
  after : ∀ a fa x, xp[xp.length - 1]? = some a → fp[fp.length - 1]? = some fa → a ≤ x → f x = fa

end Verif.Corrections
