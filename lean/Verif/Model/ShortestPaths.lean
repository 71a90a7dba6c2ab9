import Verif.Base
import Verif.Model.Tracks
import Mathlib.Algebra.Order.Monoid.Defs
import Mathlib.Data.List.Sort
/-!
# Model of the distances along a track (`reco/paolina_functions.py`), with the algorithm of Dijkstra of networkx

The lengths are in any ordered commutative monoid `K` (the norms of the code are not rational); the arithmetic is exact.  A graph is given by its nodes, the relation `adj` (`u in G[v]`) and the attribute `distance` of the edges.
-/
namespace Verif.ShortestPaths
open Verif (PyErr)

section dijkstra
variable {α K : Type} [DecidableEq α] [AddCommMonoid K] [LinearOrder K]

/-- The variables of `_dijkstra_multisource` of networkx (the library function behind `nx.all_pairs_dijkstra_path_length`, paolina_functions.py:145).  `seen` has the last value first; the entries of `fringe` stay when they are
popped, as those of nodes that are in `dist` are skipped. -/
structure State (α K : Type) where
  dist : List (α × K)
  seen : List (α × K)
  fringe : List (K × Nat × α)
  count : Nat

/-- Order of the heap: length and counter (networkx, `_dijkstra_multisource`; called from paolina_functions.py:145). -/
def less (a b : K × Nat × α) : Bool := decide (a.1 < b.1 ∨ (a.1 = b.1 ∧ a.2.1 < b.2.1))

/-- `heappop` (networkx; called from paolina_functions.py:145). -/
def minEntry : List (K × Nat × α) → Option (K × Nat × α)
  | [] => none
  | e :: es => match minEntry es with
    | none => some e
    | some m => some (if less m e then m else e)

/-- `seen[u] = vu_dist; push(fringe, (vu_dist, next(c), u))` (networkx; called from paolina_functions.py:145). -/
def push (st : State α K) (u : α) (x : K) : State α K := ⟨st.dist, (u, x) :: st.seen, (x, st.count, u) :: st.fringe, st.count + 1⟩

/-- The loop over the neighbours of `v` (networkx; called from paolina_functions.py:145): a shorter path to a node already done is `ValueError`. -/
def relax (w : α → α → K) (dv : K) (v : α) : State α K → List α → Except PyErr (State α K)
  | st, [] => .ok st
  | st, u :: us => match st.dist.lookup u with
    | some du => if dv + w v u < du then .error .valueError else relax w dv v st us
    | none => match st.seen.lookup u with
      | none => relax w dv v (push st u (dv + w v u)) us
      | some s => if dv + w v u < s then relax w dv v (push st u (dv + w v u)) us else relax w dv v st us

/-- `G[v]`, in the order of the nodes (nothing depends on it). -/
def neigh (nodes : List α) (adj : α → α → Bool) (v : α) : List α := nodes.filter (adj v)

/-- The main loop (networkx; called from paolina_functions.py:145).  Each round ends with one more node in `dist`, so that as many rounds as nodes are enough. -/
def loop (nodes : List α) (adj : α → α → Bool) (w : α → α → K) : Nat → State α K → Except PyErr (List (α × K))
  | 0, st => .ok st.dist
  | n + 1, st => match minEntry (st.fringe.filter fun e => (st.dist.lookup e.2.2).isNone) with
    | none => .ok st.dist
    | some (d, _, v) => match relax w d v ⟨st.dist ++ [(v, d)], st.seen, st.fringe, st.count⟩ (neigh nodes adj v) with
      | .error e => .error e
      | .ok st' => loop nodes adj w n st'

/-- `single_source_dijkstra_path_length` (networkx; called from paolina_functions.py:145). -/
def dijkstra (nodes : List α) (adj : α → α → Bool) (w : α → α → K) (s : α) : Except PyErr (List (α × K)) :=
  loop nodes adj w nodes.length ⟨[], [(s, 0)], [(0, 0, s)], 1⟩

/-- `nx.all_pairs_dijkstra_path_length` (paolina_functions.py:145). -/
def allPairs (nodes : List α) (adj : α → α → Bool) (w : α → α → K) : Except PyErr (List (α × List (α × K))) :=
  nodes.mapM fun v => (dijkstra nodes adj w v).map fun r => (v, r)

/-- Order of positions: that of lists (`voxel_pos`, paolina_functions.py:142-143). -/
def posLe (a b : K × K × K) : Prop := a.1 < b.1 ∨ (a.1 = b.1 ∧ (a.2.1 < b.2.1 ∨ (a.2.1 = b.2.1 ∧ a.2.2 ≤ b.2.2)))

instance (a b : K × K × K) : Decidable (posLe a b) := by unfold posLe; infer_instance

/-- `sorted(items, key=voxel_pos)` (paolina_functions.py:148-149). -/
def sortByPos {β : Type} (pos : α → K × K × K) (items : List (α × β)) : List (α × β) := items.insertionSort fun a b => posLe (pos a.1) (pos b.1)

/-- `shortest_paths` (paolina_functions.py:140-150). -/
def shortestPaths (pos : α → K × K × K) (nodes : List α) (adj : α → α → Bool) (w : α → α → K) : Except PyErr (List (α × List (α × K))) :=
  match allPairs nodes adj w with
  | .error e => .error e
  | .ok t => .ok ((sortByPos pos t).map fun p => (p.1, sortByPos pos p.2))

/-- The loop of `find_extrema_and_length` (paolina_functions.py:161-165). -/
def extremaLoop : List ((α × List (α × K)) × (α × List (α × K))) → Option (α × α) → K → Except PyErr (Option (α × α) × K)
  | [], best, d => .ok (best, d)
  | ((v1, row), (v2, _)) :: rest, best, m => match row.lookup v2 with
    | none => .error .keyError
    | some d => if m < d then extremaLoop rest (some (v1, v2)) d else extremaLoop rest best m

/-- `find_extrema_and_length` (paolina_functions.py:154-166); `none` stands for `(None, None)`. -/
def findExtremaAndLength (table : List (α × List (α × K))) : Except PyErr (Option (α × α) × K) :=
  match table with
  | [] => .error (.other "NoVoxels")
  | [(v, _)] => .ok (some (v, v), 0)
  | t => extremaLoop (Tracks.combinations2 t) none 0

/-- `find_extrema` (paolina_functions.py:169-175). -/
def findExtrema (pos : α → K × K × K) (nodes : List α) (adj : α → α → Bool) (w : α → α → K) : Except PyErr (Option (α × α)) :=
  match shortestPaths pos nodes adj w with
  | .error e => .error e
  | .ok t => match findExtremaAndLength t with
    | .error e => .error e
    | .ok r => .ok r.1

/-- `length` (paolina_functions.py:178-182). -/
def length (pos : α → K × K × K) (nodes : List α) (adj : α → α → Bool) (w : α → α → K) : Except PyErr K :=
  match shortestPaths pos nodes adj w with
  | .error e => .error e
  | .ok t => match findExtremaAndLength t with
    | .error e => .error e
    | .ok r => .ok r.2

/-- `voxels_within_radius` (paolina_functions.py:189-191). -/
def voxelsWithin (row : List (α × K)) (radius : K) : List α := (row.filter fun p => decide (p.2 < radius)).map Prod.fst

end dijkstra

/-! ### Tracks of an event -/

open Verif.Tracks (Node Point BlobInfo Contiguity)
open Verif.Voxels (PHit)

/-- `Blob` (evm/event_model.py:204-214): its energy is that of its hits. -/
structure Blob where
  seed : Point
  hits : List PHit
  radius : ℚ
  e : ℚ
deriving DecidableEq

/-- `Track` (evm/event_model.py:184-188, 232-236): the energy is that of the voxels. -/
structure Track where
  voxels : List Node
  e : ℚ
  blobA : Blob
  blobB : Blob
deriving DecidableEq

/-- `Blob(seed, hits, radius, energy_type)` (evm/event_model.py:206-214). -/
def mkBlob (b : BlobInfo) (radius : ℚ) : Blob := ⟨b.centre, b.hits, radius, (b.hits.map PHit.e).sum⟩

/-- The position of a voxel (evm/event_model.py, `Voxel.pos`; `voxel_pos`, paolina_functions.py:142-143). -/
def nodePos (v : Node) : ℚ × ℚ × ℚ := (v.vox.x, v.vox.y, v.vox.z)

/-- `shortest_paths(track)` (paolina_functions.py:140-150) for a track given by its nodes: its links are those between its nodes (`make_track_graphs`, paolina_functions.py:114-132).  An error, that is
not possible for a track, is shown as a table without rows. -/
def trackPaths (w : Node → Node → ℚ) (t : List Node) : Tracks.Table Node :=
  match shortestPaths nodePos t (Tracks.trackGraph t .corner).adj w with
  | .error _ => []
  | .ok table => table

/-- The body of the loop of `make_tracks` (paolina_functions.py:322-329).  `w` is the attribute `distance` of the links (paolina_functions.py:126) and `diag` the diagonal of a voxel (not rational in general; any values here). -/
def mkTrack (adj : Node → Node → Bool) (w : Node → Node → ℚ) (diag : Node → ℚ) (radius : ℚ) (t : List Node) : Except PyErr Track :=
  match shortestPaths nodePos t adj w with
  | .error e => .error e
  | .ok table => match Tracks.blobs t table radius none diag with
    | .error e => .error e
    | .ok (a, b) => .ok ⟨t, (t.map fun v => v.vox.e).sum, mkBlob a radius, mkBlob b radius⟩

/-- `make_tracks` (paolina_functions.py:312-330): the tracks of the collection.  The energy of the hits is that of the voxels (`energy_type`). -/
def makeTracks (w : Node → Node → ℚ) (diag : Node → ℚ) (voxels : List Node) (c : Contiguity) (radius : ℚ) : Except PyErr (List Track) :=
  (Tracks.makeTrackGraphs voxels c).mapM (mkTrack (Tracks.trackGraph voxels c).adj w diag radius)

end Verif.ShortestPaths
