import Verif.Model.Frame
import Verif.Model.Blr
import Mathlib.Algebra.Order.Floor.Ring
import Mathlib.Data.Rat.Floor
/-!
# Model of `io/hits_io.py`, `io/voxels_io.py` and the classes of hits, voxels and tracks of `evm/event_model.py`

Simplifications: the obligatory columns of a table of hits are present and hold numbers; only a time can be NaN.  A file is the list of rows of its
table.  A row of a table under construction is the record of its columns: PyTables sets it to the defaults after each `append`.
-/
namespace Verif.HitsIO
open Verif.PMapsIO (unique)

/-- `NN` (types/ic_types.py:8). -/
def NN : ℚ := -999999

/-- Which of the optional columns a table of hits has (hits_io.py:35, 41, 44-48). -/
structure Cols where
  time : Bool
  Q : Bool
  Xpeak : Bool
  Ypeak : Bool
  Ec : Bool
  track : Bool
  Ep : Bool
deriving DecidableEq, Repr

/-- A row of a table of hits; a time `none` is NaN.  The value of an absent column is not looked at. -/
structure Row where
  event : Int
  time : Option ℚ
  npeak : Nat
  X : ℚ
  Y : ℚ
  Z : ℚ
  Q : ℚ
  E : ℚ
  Xpeak : ℚ
  Ypeak : ℚ
  Ec : ℚ
  track : Int
  Ep : ℚ
deriving DecidableEq, Repr

/-- `Hit` (event_model.py:157-177), with the attributes of its bases `Cluster` (:112-125) and `BHit` (:53-57) that can vary. -/
structure Hit where
  npeak : Nat
  X : ℚ
  Y : ℚ
  Z : ℚ
  Q : ℚ
  Qc : ℚ
  E : ℚ
  Xpeak : ℚ
  Ypeak : ℚ
  Ec : ℚ
  track : Int
  Ep : ℚ
deriving DecidableEq, Repr

/-- `HitCollection` (event_model.py:286-290). -/
structure HitColl where
  event : Int
  time : ℚ
  hits : List Hit
deriving DecidableEq, Repr

/-- The energy of a `Cluster` or `Hit`: the charge if the energy given is `NN` (event_model.py:115-118). -/
def energyOf (Q E : ℚ) : ℚ := if E = NN then Q else E

/-- `getattr(row, name, default)` (hits_io.py:41, 44-48). -/
def attr {α : Type} (present : Bool) (value default : α) : α := if present then value else default

/-- `Q = getattr(row, 'Q', row.E)` (hits_io.py:41). -/
def chargeOf (c : Cols) (r : Row) : ℚ := attr c.Q r.Q r.E

/-- The construction of a hit from a row (hits_io.py:44-64). -/
def mkHit (c : Cols) (r : Row) : Hit :=
  { npeak := r.npeak, X := r.X, Y := r.Y, Z := r.Z
    Q := chargeOf c r
    Qc := 0
    E := energyOf (chargeOf c r) r.E
    Xpeak := attr c.Xpeak r.Xpeak (-1000)
    Ypeak := attr c.Ypeak r.Ypeak (-1000)
    Ec := attr c.Ec r.Ec (-1)
    track := attr c.track r.track (-1)
    Ep := attr c.Ep r.Ep (-1) }

/-- The time of a row in the grouping: -1 without column (hits_io.py:35). -/
def timeOf (c : Cols) (r : Row) : Option ℚ := attr c.time r.time (some (-1))

/-- The key of a row in `dst.groupby(['event', times])` (hits_io.py:36), for the rows without NaN. -/
def keyOf (c : Cols) (r : Row) : List ℚ := [(r.event : ℚ), (timeOf c r).getD 0]

/-- The hits of a group (hits_io.py:38-66): those with charge `NN` are left out on request. -/
def groupHits (c : Cols) (skipNN : Bool) (rows : List Row) : List Hit :=
  (rows.filter fun r => !(skipNN && decide (chargeOf c r = NN))).map (mkHit c)

/-- One iteration of the loop over the groups (hits_io.py:36-68). -/
def addGroup (c : Cols) (skipNN : Bool) (d : List (Int × HitColl)) (g : List ℚ × List Row) : List (Int × HitColl) :=
  let event := ⌊g.1.getD 0 0⌋
  let hits := groupHits c skipNN g.2
  if hits.length ≠ 0 then Blr.setKey d event ⟨event, g.1.getD 1 0, hits⟩ else d

/-- `hits_from_df` (hits_io.py:17-70).  `groupby` leaves out the rows with a NaN in the key. -/
def hitsFromDf (c : Cols) (skipNN : Bool) (rows : List Row) : List (Int × HitColl) :=
  (Frame.groupBy (keyOf c) (rows.filter fun r => (timeOf c r).isSome)).foldl (addGroup c skipNN) []

/-- `load_hits` (hits_io.py:73-98), given what `load_dst` returns: `none` if there is no such table. -/
def loadHits (c : Cols) (skipNN : Bool) (dst : Option (List Row)) : List (Int × HitColl) :=
  match dst with
  | none => []
  | some rows => if rows.length ≠ 0 then hitsFromDf c skipNN rows else []

/-- `load_hits_skipping_NN` (hits_io.py:100-118). -/
def loadHitsSkippingNN (c : Cols) (dst : Option (List Row)) : List (Int × HitColl) := loadHits c true dst

/-- The row of `HitsTable` (nh5.py:157-170) that `HitCollection.store` appends for a hit (event_model.py:292-308): `Qc`
(not kept here) and `track_id` are not written and stay with the default of the column. -/
def storeHit (hc : HitColl) (h : Hit) : Row :=
  { event := hc.event, time := some hc.time, npeak := min h.npeak 65535
    X := h.X, Y := h.Y, Z := h.Z, Q := h.Q, E := h.E, Xpeak := h.Xpeak, Ypeak := h.Ypeak, Ec := h.Ec
    track := 0, Ep := 0 }

/-- `HitCollection.store` (event_model.py:292-308): the table afterwards. -/
def storeHits (table : List Row) (hc : HitColl) : List Row := table ++ hc.hits.map (storeHit hc)

/-- The columns of `HitsTable` (nh5.py:157-170). -/
def tableCols : Cols := ⟨true, true, true, true, true, true, false⟩

/-- `Voxel` without its hits (event_model.py:94-100). -/
structure Voxel where
  X : ℚ
  Y : ℚ
  Z : ℚ
  E : ℚ
  size : ℚ × ℚ × ℚ
deriving DecidableEq, Repr

/-- `VoxelCollection` (event_model.py:184-188): its energy is computed when it is made. -/
structure VoxelColl where
  voxels : List Voxel
  E : ℚ
deriving DecidableEq, Repr

/-- `VoxelCollection.__init__` (event_model.py:186-188). -/
def mkVoxels (vs : List Voxel) : VoxelColl := ⟨vs, (vs.map (·.E)).sum⟩

/-- `write_voxels` (voxels_io.py:20-29): the table afterwards. -/
def writeVoxels (table : List (Int × Voxel)) (event : Int) (vs : List Voxel) : List (Int × Voxel) := table ++ vs.map fun v => (event, v)

/-- The loop of `load_voxels` (voxels_io.py:46-51): `setdefault` and append. -/
def loadVoxels : List (Int × Voxel) → List (Int × VoxelColl) → List (Int × VoxelColl)
  | [], d => d
  | (e, v) :: rest, d =>
    let c := (d.lookup e).getD (mkVoxels [])
    loadVoxels rest (Blr.setKey d e { c with voxels := c.voxels ++ [v] })

/-- A row of the table of tracks (event_model.py:264-273). -/
structure TrackRow where
  event : Int
  time : ℚ
  track : Nat
  voxel : Nat
  X : ℚ
  Y : ℚ
  Z : ℚ
  E : ℚ
deriving DecidableEq, Repr

/-- The defaults of a row. -/
def TrackRow.empty : TrackRow := ⟨0, 0, 0, 0, 0, 0, 0, 0⟩

/-- The loop over the voxels of a track (event_model.py:268-275): the rows appended and the row left. -/
def storeVoxels : TrackRow → Nat → List Voxel → List TrackRow × TrackRow
  | row, _, [] => ([], row)
  | row, j, v :: vs =>
    let rest := storeVoxels TrackRow.empty (j + 1) vs
    ({ row with voxel := j, X := v.X, Y := v.Y, Z := v.Z, E := v.E } :: rest.1, rest.2)

/-- `TrackCollection.store` (event_model.py:261-275): event, time and track number are set before the loop over the voxels. -/
def storeTracks (event : Int) (time : ℚ) : TrackRow → Nat → List (List Voxel) → List TrackRow
  | _, _, [] => []
  | row, i, t :: ts =>
    let r := storeVoxels { row with event := event, time := time, track := i } 0 t
    r.1 ++ storeTracks event time r.2 (i + 1) ts

end Verif.HitsIO
