import Verif.Model.Clusters
import Mathlib.Logic.Relation
/-!
# What a clustering of hits is

Positions are those of the hits in the table of an event.
-/
namespace Verif.Clusters.Spec

/-- Two hits at a distance not larger than 1.8, in units of the scales. -/
def Close {α : Type} (scaleXY scaleZ : ℚ) (a b : Hit α) : Prop :=
  ((a.x - b.x) / scaleXY) ^ 2 + ((a.y - b.y) / scaleXY) ^ 2 + ((a.z - b.z) / scaleZ) ^ 2 ≤ (9 / 5) ^ 2

/-- The same for positions in the table. -/
def Near {α : Type} (scaleXY scaleZ : ℚ) (hits : List (Hit α)) (i j : Nat) : Prop :=
  ∃ a b, hits[i]? = some a ∧ hits[j]? = some b ∧ Close scaleXY scaleZ a b

/-- A dense hit: at least `m` hits near it, itself included. -/
def Dense {α : Type} (m : Int) (scaleXY scaleZ : ℚ) (hits : List (Hit α)) (i : Nat) : Prop :=
  ∃ js : List Nat, js.Nodup ∧ m ≤ js.length ∧ js ≠ [] ∧ ∀ j ∈ js, Near scaleXY scaleZ hits i j

/-- A chain of dense hits, each near the next one. -/
def Linked {α : Type} (m : Int) (scaleXY scaleZ : ℚ) (hits : List (Hit α)) (i j : Nat) : Prop :=
  Relation.ReflTransGen (fun a b => Dense m scaleXY scaleZ hits a ∧ Dense m scaleXY scaleZ hits b ∧ Near scaleXY scaleZ hits a b) i j

/-- The labels of the hits of an event. -/
structure IsClustering {α : Type} (m : Int) (scaleXY scaleZ : ℚ) (hits : List (Hit α)) (lab : Nat → Int) : Prop where
  /-- Noise: the hits that are not near any dense hit. -/
  noise : ∀ i < hits.length, lab i = -1 ↔ ¬ ∃ j, Dense m scaleXY scaleZ hits j ∧ Near scaleXY scaleZ hits i j
  /-- Dense hits are in the same cluster when there is a chain between them. -/
  dense : ∀ i j, Dense m scaleXY scaleZ hits i → Dense m scaleXY scaleZ hits j → (lab i = lab j ↔ Linked m scaleXY scaleZ hits i j)
  /-- Any other hit of a cluster is near a dense hit of the cluster. -/
  border : ∀ i < hits.length, lab i ≠ -1 → ∃ j, Dense m scaleXY scaleZ hits j ∧ Near scaleXY scaleZ hits i j ∧ lab j = lab i
  /-- It is in the first of the clusters it could be in. -/
  least : ∀ i j, Dense m scaleXY scaleZ hits j → Near scaleXY scaleZ hits i j → lab i ≤ lab j
  /-- The labels are -1, 0, 1, ... -/
  low : ∀ i < hits.length, -1 ≤ lab i
  /-- No number is left out, and clusters are numbered by their first dense hit. -/
  order : ∀ i < hits.length, 0 < lab i → ∃ j, Dense m scaleXY scaleZ hits j ∧ lab j = lab i - 1 ∧
    ∀ k, Dense m scaleXY scaleZ hits k → lab k = lab i → j < k

end Verif.Clusters.Spec
