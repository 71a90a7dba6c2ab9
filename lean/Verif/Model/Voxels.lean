import Verif.Numpy
import Mathlib.Data.Rat.Floor
/-!
# Model of the voxelisation of hits (`invisible_cities/reco/paolina_functions.py`)

A dataframe of hits is a list of rows with a position and an energy (the column selected by `energy_type`); `tag`
stands for the other columns.
-/
namespace Verif.Voxels

/-- The three coordinates. -/
inductive Axis where
  | x | y | z
deriving DecidableEq, Repr

/-- A hit: position, energy and an arbitrary tag for the other columns. -/
structure PHit where
  x : ℚ
  y : ℚ
  z : ℚ
  e : ℚ
  tag : Nat := 0
deriving DecidableEq, Repr

def PHit.at (h : PHit) : Axis → ℚ
  | .x => h.x
  | .y => h.y
  | .z => h.z

/-- A voxel (event_model.py:94-109): centre, energy, size along each axis and hits. -/
structure Voxel where
  x : ℚ
  y : ℚ
  z : ℚ
  e : ℚ
  sx : ℚ
  sy : ℚ
  sz : ℚ
  hits : List PHit
deriving DecidableEq, Repr

def Voxel.at (v : Voxel) : Axis → ℚ
  | .x => v.x
  | .y => v.y
  | .z => v.z

def Voxel.size (v : Voxel) : Axis → ℚ
  | .x => v.sx
  | .y => v.sy
  | .z => v.sz

/-- `min` of a non-empty array (paolina_functions.py:35). -/
def npMin : List ℚ → ℚ
  | [] => 0
  | [x] => x
  | x :: y :: xs => min x (npMin (y :: xs))

/-- `max` of a non-empty array (paolina_functions.py:35). -/
def npMax : List ℚ → ℚ
  | [] => 0
  | [x] => x
  | x :: y :: xs => max x (npMax (y :: xs))

/-- `np.linspace(a, b, n + 1)`: the edges used by `np.histogramdd` for `n` bins. -/
def linspace (a b : ℚ) (n : Nat) : List ℚ := (List.range (n + 1)).map fun i : Nat => a + i * ((b - a) / n)

/-- `np.searchsorted(edges, x, side='right')`, and `np.digitize(x, edges, right=False)`, for increasing edges. -/
def searchRight (edges : List ℚ) (x : ℚ) : Nat := edges.countP fun e => decide (e ≤ x)

/-- The bin of `np.histogramdd`: `searchsorted(side='right')`, the last edge belonging to the last bin, and outliers
removed. -/
def histBin (edges : List ℚ) (x : ℚ) : Option Nat :=
  let k := searchRight edges x
  let k := if edges.getLast? = some x then k - 1 else k
  if 1 ≤ k ∧ k < edges.length then some (k - 1) else none

/-- `np.clip(np.digitize(coords, bins, right=False) - 1, 0, n-1)` (paolina_functions.py:94-96). -/
def digitizeClip (edges : List ℚ) (n : Nat) (x : ℚ) : Nat := min (searchRight edges x - 1) (n - 1)

/-- `eps = 3e-12` (paolina_functions.py:70). -/
def eps : ℚ := 3 / 10 ^ 12

/-- Number of voxels along an axis (paolina_functions.py:59-60). -/
def numberOfVoxels (size dim : ℚ) : Nat := (max 1 ⌈size / dim⌉).toNat

/-- Edges along an axis, from the coordinates of the hits (paolina_functions.py:55-78): returns the edges and the
number of voxels. -/
def axisEdges (coords : List ℚ) (dim : ℚ) (strict : Bool) : List ℚ × Nat :=
  let lo := npMin coords
  let hi := npMax coords
  let centre := (hi + lo) / 2
  let size := hi - lo
  let n := numberOfVoxels size dim
  let half := if strict then n * dim / 2 else size / 2
  (linspace (centre - half - eps) (centre + half + eps) n, n)

/-- `centres` (paolina_functions.py:80-81). -/
def centres (a : List ℚ) : List ℚ := List.zipWith (fun u v => (u + v) / 2) a.tail a
/-- `sizes` (paolina_functions.py:82-83). -/
def sizes (a : List ℚ) : List ℚ := List.zipWith (fun u v => u - v) a.tail a

/-- The list of cells in the order of `np.nonzero` (row major, paolina_functions.py:100). -/
def cells (nx ny nz : Nat) : List (Nat × Nat × Nat) :=
  (List.range nx).flatMap fun i => (List.range ny).flatMap fun j => (List.range nz).map fun k => (i, j, k)

/-- `voxelize_hits` (paolina_functions.py:45-107).  Simplification: `energy_type` is fixed by the energy stored in the
hits, which is not NaN. -/
def voxelizeHits (hits : List PHit) (dx dy dz : ℚ) (strict : Bool) : Except PyErr (List Voxel) :=
  if hits.isEmpty then .error (.other "NoHits")
  else
    let (ex, nx) := axisEdges (hits.map PHit.x) dx strict
    let (ey, ny) := axisEdges (hits.map PHit.y) dy strict
    let (ez, nz) := axisEdges (hits.map PHit.z) dz strict
    -- np.histogramdd(xyz, bins, range, weights)
    let energy := fun (c : Nat × Nat × Nat) =>
      ((hits.filter fun h => histBin ex h.x == some c.1 && histBin ey h.y == some c.2.1 && histBin ez h.z == some c.2.2).map PHit.e).sum
    let inCell := fun (c : Nat × Nat × Nat) (h : PHit) =>
      digitizeClip ex nx h.x == c.1 && digitizeClip ey ny h.y == c.2.1 && digitizeClip ez nz h.z == c.2.2
    .ok <| (cells nx ny nz |>.filter fun c => energy c != 0).map fun c =>
      { x := (centres ex).getD c.1 0, y := (centres ey).getD c.2.1 0, z := (centres ez).getD c.2.2 0
        e := energy c
        sx := (sizes ex).getD 0 0, sy := (sizes ey).getD 0 0, sz := (sizes ez).getD 0 0
        hits := hits.filter (inCell c) }

end Verif.Voxels
