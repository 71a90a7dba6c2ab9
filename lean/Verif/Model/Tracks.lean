import Verif.Model.Voxels
/-!
# Model of the tracks of `invisible_cities/reco/paolina_functions.py`

Python voxels are compared by identity (no `__eq__` in event_model.py:49-109); a voxel object is modelled by a node, with an
identifier that plays the role of the identity of the object.

Distances between points (`np.linalg.norm`) are irrational in general.  Where a distance is only compared with a bound, its square is
compared with the square of the bound; where it is used otherwise, the distance is an arbitrary function given as a parameter.
-/
namespace Verif.Tracks
open Verif.Voxels

/-- A voxel object. -/
structure Node where
  id : Nat
  vox : Voxel
deriving DecidableEq, Repr

/-- `Contiguity` (types/symbols.py:15-18). -/
inductive Contiguity where
  | face | edge | corner
deriving DecidableEq, Repr

def Contiguity.value : Contiguity → ℚ
  | .face => 6 / 5
  | .edge => 3 / 2
  | .corner => 9 / 5

/-- `neighbours` (paolina_functions.py:110-111): the norm is compared through squares, the values of `Contiguity` being positive. -/
def neighbours (va vb : Voxel) (c : Contiguity := .corner) : Bool :=
  decide (((va.x - vb.x) / va.sx) ^ 2 + ((va.y - vb.y) / va.sy) ^ 2 + ((va.z - vb.z) / va.sz) ^ 2 < c.value ^ 2)

/-- `itertools.combinations(xs, 2)` (used in paolina_functions.py:124, 162). -/
def combinations2 {α : Type} : List α → List (α × α)
  | [] => []
  | x :: xs => xs.map (fun y => (x, y)) ++ combinations2 xs

/-- A networkx graph: nodes in order of insertion, edges as pairs. -/
structure Graph (α : Type) where
  nodes : List α
  edges : List (α × α)

/-- `w in G[v]` -/
def Graph.adj {α : Type} [DecidableEq α] (g : Graph α) (v w : α) : Bool :=
  decide ((v, w) ∈ g.edges ∨ (w, v) ∈ g.edges)

/-- The next level of a breadth-first search: the nodes not seen before with a neighbour in the current level. -/
def nextLevel {α : Type} [DecidableEq α] (g : Graph α) (seen level : List α) : List α :=
  g.nodes.filter fun w => decide (w ∉ seen) && level.any fun v => g.adj v w

/-- `_plain_bfs` of networkx (the library function behind `nx.connected_components`, paolina_functions.py:131-132). -/
def bfs {α : Type} [DecidableEq α] (g : Graph α) (seen level : List α) : List α :=
  if h : nextLevel g seen level = [] then seen
  else bfs g (seen ++ nextLevel g seen level) (nextLevel g seen level)
termination_by (g.nodes.filter fun w => decide (w ∉ seen)).length
decreasing_by
  obtain ⟨w, hw⟩ := List.exists_mem_of_ne_nil _ h
  have hw' := List.mem_filter.1 hw
  simp only [Bool.and_eq_true, decide_eq_true_eq] at hw'
  rw [show (g.nodes.filter fun w => decide (w ∉ seen ++ nextLevel g seen level)) =
      (g.nodes.filter fun w => decide (w ∉ seen)).filter fun w => decide (w ∉ nextLevel g seen level) by
    rw [List.filter_filter]; apply List.filter_congr; intro x _; simp [Bool.and_comm]]
  apply List.length_filter_lt_length_iff_exists.2
  exact ⟨w, List.mem_filter.2 ⟨hw'.1, by simpa using hw'.2.1⟩, by simpa using hw⟩

/-- `nx.connected_components`: loop over the nodes with the set of seen nodes. -/
def components {α : Type} [DecidableEq α] (g : Graph α) : List α → List α → List (List α)
  | [], _ => []
  | v :: vs, seen =>
    if v ∈ seen then components g vs seen
    else
      let c := bfs g [v] [v]
      c :: components g vs (seen ++ c)

/-- The graph of `make_track_graphs` (paolina_functions.py:122-126). -/
def trackGraph (voxels : List Node) (c : Contiguity) : Graph Node :=
  ⟨voxels, (combinations2 voxels).filter fun p => neighbours p.1.vox p.2.vox c⟩

/-- `make_track_graphs` (paolina_functions.py:114-132), each track given by its nodes.  Simplification: networkx iterates a subgraph in
an unspecified order (that of a set of objects or that of the graph), so nothing can depend on the order inside a track. -/
def makeTrackGraphs (voxels : List Node) (c : Contiguity := .corner) : List (List Node) :=
  let g := trackGraph voxels c
  components g g.nodes []

/-- A dictionary of distances: for each key a dictionary from keys to distances (paolina_functions.py:140-150). -/
abbrev Table (α : Type) := List (α × List (α × ℚ))

/-- The loop of `find_extrema_and_length` (paolina_functions.py:161-165): `max_distance` starts at 0 and the extremes at `None`. -/
def extremaLoop {α : Type} [DecidableEq α] : List ((α × List (α × ℚ)) × (α × List (α × ℚ))) → Option (α × α) → ℚ →
    Except PyErr (Option (α × α) × ℚ)
  | [], best, d => .ok (best, d)
  | ((v1, row), (v2, _)) :: rest, best, m =>
    match row.lookup v2 with
    | none => .error .keyError
    | some d => if m < d then extremaLoop rest (some (v1, v2)) d else extremaLoop rest best m

/-- `find_extrema_and_length` (paolina_functions.py:154-166); `none` stands for `(None, None)`. -/
def findExtremaAndLength {α : Type} [DecidableEq α] (table : Table α) : Except PyErr (Option (α × α) × ℚ) :=
  match table with
  | [] => .error (.other "NoVoxels")
  | [(v, _)] => .ok (some (v, v), 0)
  | t => extremaLoop (combinations2 t) none 0

/-- `energy_of_voxels_within_radius` (paolina_functions.py:185-186). -/
def energyWithin (row : List (Node × ℚ)) (radius : ℚ) : ℚ :=
  ((row.filter fun p => decide (p.2 < radius)).map fun p => p.1.vox.e).sum

/-- A point of space. -/
structure Point where
  x : ℚ
  y : ℚ
  z : ℚ
deriving DecidableEq, Repr

/-- `np.average` of the positions of hits with their energies as weights (paolina_functions.py:199, 361-363; one value per axis); `ZeroDivisionError` when the weights
add up to zero. -/
def averagePosition (hits : List PHit) : Except PyErr Point :=
  let w := (hits.map PHit.e).sum
  if w = 0 then .error .zeroDivision
  else .ok ⟨(hits.map fun h => h.x * h.e).sum / w, (hits.map fun h => h.y * h.e).sum / w, (hits.map fun h => h.z * h.e).sum / w⟩

/-- `blob_centre` (paolina_functions.py:194-204). -/
def blobCentre (v : Node) : Point :=
  match averagePosition v.vox.hits with
  | .ok p => p
  | .error _ => ⟨v.vox.x, v.vox.y, v.vox.z⟩

/-- The hits within a radius (paolina_functions.py:224-225); the norm is compared through squares (a radius that is not
positive selects nothing). -/
def hitsWithin (hits : List PHit) (p : Point) (radius : ℚ) : List PHit :=
  hits.filter fun h => decide (0 < radius ∧ (h.x - p.x) ^ 2 + (h.y - p.y) ^ 2 + (h.z - p.z) ^ 2 < radius ^ 2)

/-- `dist_from_extreme[v]` for each voxel (paolina_functions.py:212, 222, 239): `KeyError` if some is missing. -/
def distancesTo (row : List (Node × ℚ)) (vs : List Node) : Except PyErr (List (Node × ℚ)) :=
  vs.mapM fun v => match row.lookup v with
    | none => .error .keyError
    | some d => .ok (v, d)

/-- `hits_in_blob` (paolina_functions.py:207-227).  `diag` stands for `np.linalg.norm(extreme.size)`. -/
def hitsInBlob (track : List Node) (table : Table Node) (radius : ℚ) (extreme : Node) (diag : Node → ℚ) : Except PyErr (List PHit) :=
  match table.lookup extreme with
  | none => .error .keyError
  | some row =>
    match distancesTo row track with
    | .error e => .error e
    | .ok ds => .ok (ds.flatMap fun p => if p.2 < radius + diag extreme then hitsWithin p.1.vox.hits (blobCentre extreme) radius else [])

/-- `max(nodes, key=...)` (paolina_functions.py:244): the first node with the largest key. -/
def maxBy (key : Node → ℚ) : Node → List Node → Node
  | best, [] => best
  | best, n :: ns => if key best < key n then maxBy key n ns else maxBy key best ns

/-- `find_highest_encapsulating_node` (paolina_functions.py:230-245). -/
def highestNode (track : List Node) (extreme : Node) (table : Table Node) (bigRadius smallRadius : ℚ) : Except PyErr Node :=
  match table.lookup extreme with
  | none => .error .keyError
  | some row =>
    match distancesTo row track with
    | .error e => .error e
    | .ok ds =>
      match (ds.filter fun p => decide (p.2 ≤ bigRadius)).map Prod.fst with
      | [] => .error .valueError
      | n :: ns => .ok (maxBy (fun v => energyWithin ((table.lookup v).getD []) smallRadius) n ns)

/-- A blob: energy, hits and centre. -/
structure BlobInfo where
  e : ℚ
  hits : List PHit
  centre : Point
deriving DecidableEq, Repr

/-- `blob_energies_hits_and_centres` (paolina_functions.py:248-284): the two blobs, in the order in which they are returned.  `table` is the
result of `shortest_paths`. -/
def blobs (track : List Node) (table : Table Node) (smallRadius : ℚ) (bigRadius : Option ℚ) (diag : Node → ℚ) :
    Except PyErr (BlobInfo × BlobInfo) :=
  match findExtremaAndLength table with
  | .error e => .error e
  | .ok (none, _) => .error .attributeError
  | .ok (some (a, b), _) =>
    match (match bigRadius with
      | none => Except.ok (a, b)
      | some r =>
        match highestNode track a table r smallRadius, highestNode track b table r smallRadius with
        | .ok a, .ok b => .ok (a, b)
        | .error e, _ => .error e
        | _, .error e => .error e) with
    | .error e => .error e
    | .ok (a, b) =>
      match hitsInBlob track table smallRadius a diag, hitsInBlob track table smallRadius b diag with
      | .error e, _ => .error e
      | _, .error e => .error e
      | .ok ha, .ok hb =>
        let someHits := ha.length != 0 || hb.length != 0
        let ea := if someHits then (ha.map PHit.e).sum else energyWithin ((table.lookup a).getD []) smallRadius
        let eb := if someHits then (hb.map PHit.e).sum else energyWithin ((table.lookup b).getD []) smallRadius
        if ea < eb then .ok (⟨eb, hb, blobCentre b⟩, ⟨ea, ha, blobCentre a⟩)
        else .ok (⟨ea, ha, blobCentre a⟩, ⟨eb, hb, blobCentre b⟩)

end Verif.Tracks
