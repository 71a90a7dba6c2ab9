import Verif.Model.DropVoxels
import Verif.Model.Sampling
import Mathlib.Data.List.Sort
/-!
# Model of the topological reconstruction of an event (`invisible_cities/cities/components.py:1446-1638`)

The hits of an event are a list of rows: position, the energy `Ep` (`none` for NaN, which marks a hit outside the correction map) and a tag that stands for the
other columns.  All the hits of a call have the same event number, which is given apart.
-/
namespace Verif.Paolina
open Verif.Voxels Verif.Tracks

/-- A row of the dataframe of hits. -/
structure EHit where
  x : ℚ
  y : ℚ
  z : ℚ
  ep : Option ℚ
  tag : Nat := 0
deriving DecidableEq, Repr

/-- A row of the dataframe of hits that is returned: with the column `track_id`. -/
structure OutHit where
  hit : EHit
  track : Int
deriving DecidableEq, Repr

/-- Parameters of `track_blob_info_creator_extractor` (components.py:1527-1534).  `paths` stands for `shortest_paths`, `dist` for the distance between
points, `diag` for the diagonal of a voxel and `rad` for `np.sqrt(x**2 + y**2)`: arbitrary functions. -/
structure Params where
  dx : ℚ
  dy : ℚ
  dz : ℚ
  strict : Bool
  threshold : ℚ
  minVoxels : Nat
  blobRadius : ℚ
  scanRadius : Option ℚ
  maxHits : Nat
  paths : List Node → Table Node
  dist : Point → Point → ℚ
  diag : Node → ℚ
  rad : ℚ → ℚ → ℚ

/-- The arguments of `drop_end_point_voxels` (components.py:1580): the contiguity is the default one (paolina_functions.py:335). -/
def Params.drop (p : Params) : DropParams := ⟨p.threshold, p.minVoxels, .corner, p.paths, p.dist⟩

/-- `round_hits_positions_in_place(hits, 5)` (components.py:1569, paolina_functions.py:37-43). -/
def roundHit (h : EHit) : EHit := { h with x := Sampling.round5 h.x, y := Sampling.round5 h.y, z := Sampling.round5 h.z }

/-- A hit inside the map, as a hit of the voxelisation. -/
def toPHit (h : EHit) : PHit := ⟨h.x, h.y, h.z, h.ep.getD 0, h.tag⟩

/-- A hit of a voxel, as a row. -/
def fromPHit (h : PHit) : EHit := ⟨h.x, h.y, h.z, some h.e, h.tag⟩

/-- A hit of a dropped voxel: the energy is NaN (`set_nan_energies`, paolina_functions.py:389-391). -/
def fromDropped (h : PHit) : EHit := ⟨h.x, h.y, h.z, none, h.tag⟩

/-- `get_track_energy` (paolina_functions.py:420-421), through `Ehits` (event_model.py:105-106). -/
def trackEnergy (t : List Node) : ℚ := (t.map fun v => (v.vox.hits.map PHit.e).sum).sum

/-- `sorted(tracks, key=get_track_energy, reverse=True)` (components.py:1583), which keeps the order of equal elements. -/
def sortTracks (ts : List (List Node)) : List (List Node) := ts.insertionSort fun a b => trackEnergy b ≤ trackEnergy a

/-- A row of the dataframe of tracks (components.py:1612-1619). -/
structure TrackRow where
  event : Int
  id : Int
  energy : ℚ
  length : ℚ
  nVoxels : Nat
  nHits : Nat
  nTracks : Nat
  min : Point
  rMin : ℚ
  max : Point
  rMax : ℚ
  ave : Point
  rAve : ℚ
  extreme1 : Point
  extreme2 : Point
  blob1 : Point
  blob2 : Point
  eBlob1 : ℚ
  eBlob2 : ℚ
  overlap : ℚ
  voxSize : Point
deriving DecidableEq, Repr

/-- The energy of `hits_blob1.merge(hits_blob2, how="inner")` (components.py:1610-1611): pairs of equal rows. -/
def overlapEnergy (a b : List PHit) : ℚ := (a.map fun h => (b.map fun g => if h = g then h.e else 0).sum).sum

/-- All the hits of a track (components.py:1597). -/
def hitsOf (t : List Node) : List PHit := t.flatMap fun v => v.vox.hits

/-- `np.average(hits_from_track.R, weights=...)` (components.py:1602), called after `np.average` of the positions, with the same weights. -/
def averageRadius (rad : ℚ → ℚ → ℚ) (hs : List PHit) : ℚ := (hs.map fun h => rad h.x h.y * h.e).sum / (hs.map PHit.e).sum

/-- The row of a track, once its average position, extremes and blobs are known (components.py:1591-1621). -/
def makeRow (p : Params) (event : Int) (n : Nat) (size : Point) (id : Nat) (t : List Node) (ave : Point) (a b : Node) (len : ℚ) (b1 b2 : BlobInfo) : TrackRow :=
  { event := event, id := id, energy := trackEnergy t, length := len
    nVoxels := t.length, nHits := (t.map fun v => v.vox.hits.length).sum, nTracks := n
    min := ⟨npMin ((hitsOf t).map PHit.x), npMin ((hitsOf t).map PHit.y), npMin ((hitsOf t).map PHit.z)⟩
    rMin := npMin ((hitsOf t).map fun h => p.rad h.x h.y)
    max := ⟨npMax ((hitsOf t).map PHit.x), npMax ((hitsOf t).map PHit.y), npMax ((hitsOf t).map PHit.z)⟩
    rMax := npMax ((hitsOf t).map fun h => p.rad h.x h.y)
    ave := ave, rAve := averageRadius p.rad (hitsOf t)
    extreme1 := a.pos, extreme2 := b.pos
    blob1 := b1.centre, blob2 := b2.centre
    eBlob1 := b1.e, eBlob2 := b2.e
    overlap := overlapEnergy b1.hits b2.hits
    voxSize := size }

/-- The loop body (components.py:1591-1621). -/
def trackRow (p : Params) (event : Int) (n : Nat) (size : Point) (id : Nat) (t : List Node) : Except PyErr TrackRow :=
  match averagePosition (hitsOf t) with
  | .error e => .error e
  | .ok ave =>
    match findExtremaAndLength (p.paths t) with
    | .error e => .error e
    | .ok (none, _) => .error .attributeError
    | .ok (some (a, b), len) =>
      match blobs t (p.paths t) p.blobRadius p.scanRadius p.diag with
      | .error e => .error e
      | .ok (b1, b2) => .ok (makeRow p event n size id t ave a b len b1 b2)

/-- The rows of all the tracks (components.py:1591-1621). -/
def trackRows (p : Params) (event : Int) (size : Point) (tracks : List (List Node)) : Except PyErr (List TrackRow) :=
  tracks.zipIdx.mapM fun q => trackRow p event tracks.length size q.2 q.1

/-- The hits of the tracks with their `track_id` (components.py:1623-1625). -/
def trackHits (tracks : List (List Node)) : List OutHit :=
  tracks.zipIdx.flatMap fun q => (hitsOf q.1).map fun h => ⟨fromPHit h, q.2⟩

/-- How a call ends. -/
inductive Outcome where
  | returns (tracks : List TrackRow) (hits : List OutHit) (outOfMap : Bool)
  | raises (e : PyErr)
  | neverEnds
deriving DecidableEq, Repr

/-- A hit without track (components.py:1563). -/
def noTrack (h : EHit) : OutHit := ⟨h, -1⟩

/-- The end of the function, after dropping voxels (components.py:1582-1632). -/
def finish (p : Params) (event : Int) (size : Point) (hitsOut : List EHit) (kept dropped : List Node) : Outcome :=
  match trackRows p event size (sortTracks (makeTrackGraphs kept .corner)) with
  | .error e => .raises e
  | .ok rows => .returns rows
      (hitsOut.map noTrack ++ (hitsOf dropped).map (fun h => noTrack (fromDropped h)) ++ trackHits (sortTracks (makeTrackGraphs kept .corner)))
      (!hitsOut.isEmpty)

/-- The size of the first voxel (components.py:1585-1587). -/
def sizeOf (vs : List Voxel) : Point := match vs with
  | [] => ⟨0, 0, 0⟩
  | v :: _ => ⟨v.sx, v.sy, v.sz⟩

/-- The voxels as objects: the identity is the position in the list. -/
def nodesOf (vs : List Voxel) : List Node := vs.zipIdx.map fun q => ⟨q.2, q.1⟩

/-- The hits inside the map and those outside of it (components.py:1572-1574). -/
def inMap (hits : List EHit) : List EHit := hits.filter fun h => h.ep.isSome
def outMap (hits : List EHit) : List EHit := hits.filter fun h => h.ep.isNone

/-- `create_extract_track_blob_info` from line 1572 on (components.py:1572-1632), on hits with rounded positions. -/
def process (p : Params) (event : Int) (hits : List EHit) : Outcome :=
  if (inMap hits).isEmpty || !(inMap hits).any (fun h => decide (0 < h.ep.getD 0)) then
    .returns [] ((inMap hits).map noTrack) (!(outMap hits).isEmpty)
  else
    match voxelizeHits ((inMap hits).map toPHit) p.dx p.dy p.dz p.strict with
    | .error e => .raises e
    | .ok vs =>
      match dropEndPointVoxels p.drop (nodesOf vs) with
      | .raises e => .raises e
      | .neverEnds => .neverEnds
      | .done kept dropped => finish p event (sizeOf vs) (outMap hits) kept dropped

/-- `create_extract_track_blob_info` (components.py:1561-1632).  Without hits `hits.event.iloc[0]` is an `IndexError` (line 1571). -/
def extract (p : Params) (event : Int) (hits : List EHit) : Outcome :=
  if p.maxHits < hits.length then .returns [] (hits.map noTrack) true
  else if hits.isEmpty then .raises .indexError
  else process p event (hits.map roundHit)

/-- A row of the dataframe of events (components.py:1485-1489); an average may be NaN. -/
structure Summary where
  event : Int
  energy : ℚ
  charge : ℚ
  nTracks : Nat
  nHits : Nat
  ave : Option Point
  rAve : Option ℚ
  min : Point
  rMin : ℚ
  max : Point
  rMax : ℚ
  outOfMap : Bool
deriving DecidableEq, Repr

/-- A hit as seen by `make_event_summary`: position and `Ec`, which may be NaN. -/
structure SHit where
  x : ℚ
  y : ℚ
  z : ℚ
  ec : Option ℚ
deriving DecidableEq, Repr

/-- `hits.Ec.sum()`: pandas skips NaN (components.py:1478). -/
def sumEc (hits : List SHit) : ℚ := (hits.map fun h => h.ec.getD 0).sum

/-- `np.average(f, weights=hits.Ec)` (components.py:1482-1483): NaN if some weight is NaN, `ZeroDivisionError` if they add up to zero. -/
def averageEc (f : SHit → ℚ) (hits : List SHit) : Except PyErr (Option ℚ) :=
  if hits.any fun h => h.ec.isNone then .ok none
  else if sumEc hits = 0 then .error .zeroDivision
  else .ok (some ((hits.map fun h => f h * h.ec.getD 0).sum / sumEc hits))

/-- `make_event_summary` (components.py:1446-1494): no row for an event without hits. -/
def eventSummary (rad : ℚ → ℚ → ℚ) (event : Int) (nTracks : Nat) (hits : List SHit) (outOfMap : Bool) : Except PyErr (List Summary) :=
  if hits.isEmpty then .ok []
  else
    match averageEc SHit.x hits, averageEc SHit.y hits, averageEc SHit.z hits, averageEc (fun h => rad h.x h.y) hits with
    | .ok ax, .ok ay, .ok az, .ok ar =>
      .ok [{ event := event, energy := sumEc hits, charge := -1, nTracks := nTracks, nHits := hits.length
             ave := (ax.bind fun x => ay.bind fun y => az.map fun z => (⟨x, y, z⟩ : Point)), rAve := ar
             min := ⟨npMin (hits.map SHit.x), npMin (hits.map SHit.y), npMin (hits.map SHit.z)⟩
             rMin := npMin (hits.map fun h => rad h.x h.y)
             max := ⟨npMax (hits.map SHit.x), npMax (hits.map SHit.y), npMax (hits.map SHit.z)⟩
             rMax := npMax (hits.map fun h => rad h.x h.y)
             outOfMap := outOfMap }]
    | _, _, _, _ => .error .zeroDivision

/-- `sort_values("Z X Y".split())` (components.py:1637-1638).  Simplification: pandas does not promise an order between rows with equal position. -/
def hitLe (a b : EHit) : Prop := a.z < b.z ∨ (a.z = b.z ∧ (a.x < b.x ∨ (a.x = b.x ∧ a.y ≤ b.y)))
instance : DecidableRel hitLe := fun _ _ => by unfold hitLe; infer_instance
def sortHits (hits : List OutHit) : List OutHit := hits.insertionSort fun a b => hitLe a.hit b.hit

end Verif.Paolina
