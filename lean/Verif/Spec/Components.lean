import Verif.Model.Components
/-!
# Vocabulary for the properties of the city decorator
-/
namespace Verif.Components

/-- First event meant by the first of two values. -/
inductive LowMeans : ErElem → Nat → Prop where
  | int (n : Nat) : LowMeans (.int n) n
  | none : LowMeans .none 0

/-- End of the events meant by the last value (`none`: up to the end of the input). -/
inductive HighMeans : ErElem → Option Nat → Prop where
  | int (n : Nat) : HighMeans (.int n) (some n)
  | none : HighMeans .none none

/-- The events `[lo, hi)` (`hi = none`: up to the end) that the documentation of the option promises
(configure.py:45 `<stop> | <start> <stop> | all | <start> last`), for the accepted specifications; as the type
`EventRangeType` (configure.py:49) announces, `None` may stand for a missing bound. -/
inductive Means : ErSpec → Nat → Option Nat → Prop where
  | default : Means .unset 0 (some 1)
  | stop {e hi} : HighMeans e hi → Means (.single e) 0 hi
  | stop1 {e hi} : HighMeans e hi → Means (.seq [e]) 0 hi
  | all : Means (.single .all) 0 none
  | all1 : Means (.seq [.all]) 0 none
  | startStop {a b lo hi} : LowMeans a lo → HighMeans b hi → Means (.seq [a, b]) lo hi
  | startLast {a lo} : LowMeans a lo → Means (.seq [a, .last]) lo none

/-- The items `[lo, hi)` of a list. -/
def window {α : Type} (lo : Nat) (hi : Option Nat) (xs : List α) : List α :=
  match hi with
  | none => xs.drop lo
  | some b => (xs.take b).drop lo

/-- `ys` keeps one copy of each element of `xs`, in order of first appearance: `ys` has no repetition, the same
elements as `xs`, and `x` comes before `y` in `ys` exactly when the first `x` comes before the first `y` in `xs`. -/
structure FirstAppearances (xs ys : List String) : Prop where
  nodup : ys.Nodup
  same : ∀ x, x ∈ ys ↔ x ∈ xs
  order : ys.Pairwise fun x y => xs.idxOf x < xs.idxOf y

/-- `d` (at some depth) holds a leaf printed as `s` under the keys `path`. -/
inductive HasLeaf : Cfgs → List Key → String → Prop where
  | here {k s rest} : HasLeaf (.cons k (.leaf s) rest) [k] s
  | inside {k d rest p s} : HasLeaf d p s → HasLeaf (.cons k (.dict d) rest) (k :: p) s
  | later {k v rest p s} : HasLeaf rest p s → HasLeaf (.cons k v rest) p s

/-- Keys of a dictionary. -/
def Cfgs.keys : Cfgs → List Key
  | .nil => []
  | .cons k _ rest => k :: rest.keys

mutual
/-- Keys are non-empty, without dots and (as in every Python dictionary) distinct, at every level. -/
def Cfg.Clean : Cfg → Prop
  | .leaf _ => True
  | .dict d => d.Clean
def Cfgs.Clean : Cfgs → Prop
  | .nil => True
  | .cons k v rest => k ≠ [] ∧ '.' ∉ k ∧ k ∉ rest.keys ∧ v.Clean ∧ rest.Clean
end

/-- The dotted path. -/
def dotted : List Key → Key
  | [] => []
  | [k] => k
  | k :: ks => k ++ '.' :: dotted ks

end Verif.Components
