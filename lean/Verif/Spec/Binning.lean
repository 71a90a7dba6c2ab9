import Verif.Model.Binning
/-!
# Specification of C108: sampling widths in the configuration of a simulation
-/
namespace Verif.Binning

/-- The row of the table where a parameter appears for the first time. -/
def FirstRow (config : List (Text × Text)) (r : Text × Text) : Prop := ∃ a b, config = a ++ r :: b ∧ r.1 ∉ a.map Prod.fst

/-- Only spaces. -/
def Spaces (s : Text) : Prop := ∀ c ∈ s, c = ' '

/-- A word: characters that are not spaces, at least one. -/
def Word (s : Text) : Prop := s ≠ [] ∧ ' ' ∉ s

/-- The text starts with two words, a number and a unit, whose product is `w`. -/
def IsWidth (float unit : Text → Option ℚ) (v : Text) (w : ℚ) : Prop :=
  ∃ s0 x s1 u rest a b, v = s0 ++ x ++ s1 ++ u ++ rest ∧ Spaces s0 ∧ Word x ∧ Spaces s1 ∧ s1 ≠ [] ∧ Word u ∧ (rest = [] ∨ ∃ t, rest = ' ' :: t) ∧
    float x = some a ∧ unit u = some b ∧ w = a * b

/-- A name of a type of sensor that is not damaged by `strip`, and is not a geometry. -/
structure CleanName (n : Text) : Prop where
  ne : n ≠ []
  head : n.head ne ∉ "_binning".toList
  last : n.getLast ne ∉ "_binning".toList
  geom : ¬ "Geom".toList <:+: n

/-- All the parameters with the word binning are those of the types of sensors. -/
def CleanConfig (config : List (Text × Text)) : Prop :=
  ∀ r ∈ config, "binning".toList <:+: r.1 → ∃ n, CleanName n ∧ r.1 = n ++ "_binning".toList

/-- The first row of the table of widths whose name satisfies `q`. -/
def FirstNamed (q : Text → Prop) (bins : List (Text × ℚ)) (b : Text × ℚ) : Prop := ∃ l r, bins = l ++ b :: r ∧ q b.1 ∧ ∀ x ∈ l, ¬ q x.1

/-- `a` and, somewhere after it, `b`. -/
def Follows (a b s : Text) : Prop := ∃ p q r, s = p ++ a ++ q ++ b ++ r

end Verif.Binning
