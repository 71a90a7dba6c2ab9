import Verif.Model.KrApply
/-!
# Vocabulary of the application of krypton maps
-/
namespace Verif.KrApply

/-- Square of the distance. -/
def dist2 (p q : ℚ × ℚ × ℚ) : ℚ := (p.1 - q.1) ^ 2 + (p.2.1 - q.2.1) ^ 2 + (p.2.2 - q.2.2) ^ 2

/-- The contract of the search of the nearest neighbour: the index of a point at the least distance. -/
def Nearest (pick : List (ℚ × ℚ × ℚ) → ℚ × ℚ × ℚ → Nat) : Prop :=
  ∀ pts q, pts ≠ [] → ∃ p, pts[pick pts q]? = some p ∧ ∀ p' ∈ pts, dist2 p q ≤ dist2 p' q

/-- `b` is a bin of the map that is not NaN and no other one is nearer to the point. -/
def IsNearestBin (krmap : List Bin) (h : Hit) (b : Bin) (mu : ℚ) : Prop :=
  b ∈ krmap ∧ b.mu = some mu ∧ ∀ b' ∈ krmap, b'.mu ≠ none → dist2 (b.dt, b.x, b.y) (h.dt, h.x, h.y) ≤ dist2 (b'.dt, b'.x, b'.y) (h.dt, h.x, h.y)

/-- A search that meets the contract: the first one at the least distance. -/
def firstNearest (pts : List (ℚ × ℚ × ℚ)) (q : ℚ × ℚ × ℚ) : Nat := match argmin (pts.map fun p => dist2 p q) with
  | .ok n => n
  | .error _ => 0

/-- The bins a method of normalization refers to, and the statistics it uses. -/
def reference (krmap : List Bin) (m : Method) (r : Region) : List ℚ :=
  (krmap.filter fun b => decide
    ((m ∈ [.meanAnode, .medianAnode, .meanRegionAnode, .medianRegionAnode] → b.k = 0) ∧
     (m ∈ [.meanRegionChamber, .medianRegionChamber, .meanRegionAnode, .medianRegionAnode] → (r.xlow ≤ b.x ∧ b.x < r.xhigh) ∧ r.ylow ≤ b.y ∧ b.y < r.yhigh))).filterMap Bin.mu

end Verif.KrApply
