import Verif.Model.DeconvInput
/-!
# What the input of the deconvolution is
-/
namespace Verif.DeconvInput.Spec
open Verif.Voxels (npMin npMax)

/-- Arguments that go together: the same number of dimensions, some hits, all with coordinates and charge, positive widths. -/
structure Fit (widths : List ℚ) (grids : List (List ℚ)) (data : List (List ℚ)) (weight : List ℚ) : Prop where
  dims : widths.length = data.length
  grid : grids.length = data.length
  hits : ∀ c ∈ data, c.length = weight.length
  some : weight ≠ []
  pos : ∀ w ∈ widths, 0 < w

/-- The position of a hit. -/
def hit (data : List (List ℚ)) (i : Nat) : List ℚ := data.map fun c => c.getD i 0

/-- The points of the axis of the sensors: one width below the lowest hit, then in steps of a width, less than a width (plus 2⁻²³) above the highest. -/
def axis (coord : List ℚ) (w : ℚ) : List ℚ :=
  (List.range ⌈(npMax coord + w + 1 / 2 ^ 23 - (npMin coord - w)) / w⌉.toNat).map fun j : Nat => npMin coord - w + j * w

/-- A position in the box centred at a point. -/
def inBox (widths p x : List ℚ) : Bool :=
  ((widths.zip p).zip x).all fun q => decide (q.1.2 - q.1.1 / 2 ≤ q.2 ∧ q.2 < q.1.2 + q.1.1 / 2)

/-- The charge of the hits selected by a condition on their position. -/
def charge (data : List (List ℚ)) (weight : List ℚ) (sel : List ℚ → Bool) : ℚ :=
  (((List.range weight.length).filter fun i => sel (hit data i)).map fun i => weight.getD i 0).sum

/-- The points of the detector in the region of the hits: up to 3/2 widths from the extremes. -/
def region (grid coord : List ℚ) (w : ℚ) : List ℚ :=
  grid.filter fun g => decide (npMin coord - 3 / 2 * w ≤ g ∧ g < npMax coord + 3 / 2 * w + 1 / 2 ^ 23)

/-- The regions of all the dimensions. -/
def regions (grids data : List (List ℚ)) (widths : List ℚ) : List (List ℚ) :=
  (data.zip (widths.zip grids)).map fun p => region p.2.2 p.1 p.2.1

/-- Lower limit of the `k`-th cell around increasing points: the point itself for the first one, half way from the previous one for the others. -/
def low (g : List ℚ) (k : Nat) : ℚ := if k = 0 then g.getD 0 0 else (g.getD (k - 1) 0 + g.getD k 0) / 2

/-- Upper limit. -/
def high (g : List ℚ) (k : Nat) : ℚ := if k + 1 = g.length then g.getD k 0 else (g.getD k 0 + g.getD (k + 1) 0) / 2

/-- A position in a cell; the last cell includes its upper limit. -/
def inCell (gs : List (List ℚ)) (c : List Nat) (x : List ℚ) : Bool :=
  ((gs.zip c).zip x).all fun q => decide (low q.1.1 q.1.2 ≤ q.2 ∧ (q.2 < high q.1.1 q.1.2 ∨ q.2 = high q.1.1 q.1.2 ∧ q.1.2 + 1 = q.1.1.length))

/-- The middle of a cell. -/
def middle (gs : List (List ℚ)) (c : List Nat) : List ℚ := (gs.zip c).map fun q => (low q.1 q.2 + high q.1 q.2) / 2

end Verif.DeconvInput.Spec
