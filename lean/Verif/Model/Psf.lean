import Verif.Model.Frame
import Verif.Model.Voxels
import Verif.Model.Core
/-!
# Model of the point spread functions (`reco/psf_functions.py`, `cities/eutropia.py`)
-/
namespace Verif.Psf
open Verif.Frame
open Verif.Voxels (histBin linspace)

/-- `in_range(x, lo, hi)` of one value with the default closed left and open right limits (core_functions.py:55-80). -/
def within (x lo hi : ℚ) : Bool := decide (lo ≤ x) && decide (x < hi)

/-! ### Processing of the hits -/

/-- A hit of the table RECO/Events: the columns that are used. -/
structure Hit where
  event : Int
  time : ℚ
  npeak : Int
  x : ℚ
  y : ℚ
  z : ℚ
  q : ℚ
  xpeak : ℚ
  ypeak : ℚ
deriving DecidableEq, Repr

/-- A row of `combined` (psf_functions.py:87): the sensors added have no `Xpeak` and `Ypeak`. -/
structure Row where
  x : ℚ
  y : ℚ
  z : ℚ
  q : ℚ
  xpeak : Option ℚ
  ypeak : Option ℚ
deriving DecidableEq, Repr

/-- A hit as a row. -/
def Hit.row (h : Hit) : Row := ⟨h.x, h.y, h.z, h.q, some h.xpeak, some h.ypeak⟩

/-- `groupby("X Y Z".split())` (psf_functions.py:88). -/
def Row.key (r : Row) : List ℚ := [r.x, r.y, r.z]

/-- `sensors = database[sel_x & sel_y]` (psf_functions.py:82-84), with the position of the peak of the first hit. -/
def sensorsNear (dx dy : ℚ) (db : List (ℚ × ℚ)) (h : Hit) : List (ℚ × ℚ) :=
  db.filter fun s => within s.1 (h.xpeak - dx) (h.xpeak + dx) && within s.2 (h.ypeak - dy) (h.ypeak + dy)

/-- `groupby("X Y Z".split(), as_index=False).agg("first")` (psf_functions.py:88). -/
def firstRows (rows : List Row) : List Row :=
  (groupBy Row.key rows).filterMap fun g => match g.2 with
    | [] => none
    | r :: rs => some ⟨r.x, r.y, r.z, r.q, firstValid ((r :: rs).map Row.xpeak), firstValid ((r :: rs).map Row.ypeak)⟩

/-- `combined.ffill().bfill()` (psf_functions.py:89): only the columns that may be NaN. -/
def fillPeaks (rows : List Row) : List Row :=
  (rows.zip ((bfill (ffill none (rows.map Row.xpeak))).zip (bfill (ffill none (rows.map Row.ypeak))))).map fun p =>
    { p.1 with xpeak := p.2.1, ypeak := p.2.2 }

/-- The table before the normalization (psf_functions.py:79-89); `halfx`, `halfy` are `np.diff(ranges[...])[0]/2`. -/
def combined (halfx halfy : ℚ) (db : List (ℚ × ℚ)) (hits : List Hit) : List Row :=
  match hits with
  | [] => []
  | h :: hs => fillPeaks (firstRows ((h :: hs).map Hit.row ++
      (sensorsNear halfx halfy db h).map fun s => ⟨s.1, s.2, Voxels.npMin ((h :: hs).map Hit.z), 0, none, none⟩))

/-- A row of the output (psf_functions.py:91-92, 116-127), with the charge divided by the total.  The charge of an event without charge is
divided by zero: NaN, `none`. -/
structure Norm where
  x : ℚ
  y : ℚ
  z : ℚ
  q : ℚ
  normQ : Option ℚ
  xpeak : Option ℚ
  ypeak : Option ℚ
deriving DecidableEq, Repr

/-- `add_empty_sensors_and_normalize_q` (psf_functions.py:62-93). -/
def addEmpty (halfx halfy : ℚ) (db : List (ℚ × ℚ)) (hits : List Hit) : List Norm :=
  (combined halfx halfy db hits).map fun r => ⟨r.x, r.y, r.z, r.q,
    if ((combined halfx halfy db hits).map Row.q).sum = 0 then none else some (r.q / ((combined halfx halfy db hits).map Row.q).sum), r.xpeak, r.ypeak⟩

/-- `groupby('event time npeak'.split())` (psf_functions.py:117). -/
def Hit.key (h : Hit) : List ℚ := [h.event, h.time, h.npeak]

/-- `hdst_psf_processing` (psf_functions.py:96-128), for two dimensions; `RelX = X - Xpeak` and `RelY = Y - Ypeak` are computed where they are used. -/
def process (halfx halfy : ℚ) (db : List (ℚ × ℚ)) (hits : List Hit) : List Norm :=
  (groupBy Hit.key hits).flatMap fun g => addEmpty halfx halfy db g.2

/-! ### Splitting -/

/-- `zip(bins, bins[1:])`. -/
def intervals (bins : List ℚ) : List (ℚ × ℚ) := bins.zip bins.tail

/-- `z_splitter` (eutropia.py:139-149). -/
def splitZ (zbins : List ℚ) (hits : List Hit) : List (ℚ × List Hit) :=
  (intervals zbins).filterMap fun b =>
    if (hits.filter fun h => within h.z b.1 b.2).isEmpty then none else some ((b.1 + b.2) / 2, hits.filter fun h => within h.z b.1 b.2)

/-- `np.round(x, 2)` (eutropia.py:161, 165): to the nearest hundredth, halves to the even one. -/
def round2 (x : ℚ) : ℚ :=
  (if x * 100 - ⌊x * 100⌋ < 1 / 2 then (⌊x * 100⌋ : ℚ)
   else if 1 / 2 < x * 100 - ⌊x * 100⌋ then (⌊x * 100⌋ : ℚ) + 1
   else if ⌊x * 100⌋ % 2 = 0 then (⌊x * 100⌋ : ℚ) else (⌊x * 100⌋ : ℚ) + 1) / 100

/-- The mask of a sector (eutropia.py:162, 166-168). -/
def inSector (b c : ℚ × ℚ) (r : Norm) : Bool := r.xpeak.any (fun x => within x b.1 b.2) && r.ypeak.any fun y => within y c.1 c.2

/-- `xy_splitter` (eutropia.py:157-172). -/
def splitXY (xsectors ysectors : List ℚ) (rows : List Norm) : List (ℚ × ℚ × List Norm) :=
  (intervals xsectors).flatMap fun b => (intervals ysectors).filterMap fun c =>
    if (rows.filter (inSector b c)).isEmpty then none else some (round2 ((b.1 + b.2) / 2), round2 ((c.1 + c.2) / 2), rows.filter (inSector b c))

/-! ### Point spread functions -/

/-- A row of the table of the PSFs. -/
structure Cell where
  xr : ℚ
  yr : ℚ
  zr : ℚ
  x : ℚ
  y : ℚ
  z : ℚ
  factor : ℚ
  nevt : Nat
deriving DecidableEq, Repr

/-- `columns` (eutropia.py:207). -/
def Cell.key (p : Cell) : List ℚ := [p.xr, p.yr, p.zr, p.x, p.y, p.z]

/-- A point given to `create_psf`: `RelX`, `RelY` and `NormQ` (eutropia.py:177-180), `none` if it is NaN. -/
abbrev Point := ℚ × ℚ × Option ℚ

/-- The points of a bin of `np.histogramdd` (psf_functions.py:32-33). -/
def inBin (ex ey : List ℚ) (pts : List Point) (i j : Nat) : List Point :=
  pts.filter fun p => histBin ex p.1 == some i && histBin ey p.2.1 == some j

/-- `np.nan_to_num(sumC / entries)` in one bin (psf_functions.py:33-35): 0 without points or with a NaN charge. -/
def binFactor (pts : List Point) : ℚ :=
  if pts.length = 0 ∨ pts.any (fun p => p.2.2.isNone) then 0 else (pts.map fun p => p.2.2.getD 0).sum / pts.length

/-- `create_psf` for two dimensions (psf_functions.py:29-39) and `df_builder` (eutropia.py:185-200): the rows in row major order.  `np.asarray` of the centres raises
`ValueError` if the numbers of bins are different. -/
def buildPsf (ex ey : List ℚ) (x y z : ℚ) (pts : List Point) : Except PyErr (List Cell) :=
  if (Core.shiftToBinCenters ex).length ≠ (Core.shiftToBinCenters ey).length then .error .valueError
  else .ok ((Core.shiftToBinCenters ex).zipIdx.flatMap fun a => (Core.shiftToBinCenters ey).zipIdx.map fun b =>
    ⟨a.1, b.1, 0, x, y, z, binFactor (inBin ex ey pts a.2 b.2), (inBin ex ey pts a.2 b.2).length⟩)

/-- The charge of a row: `factor * nevt` (eutropia.py:208-209). -/
def Cell.charge (p : Cell) : ℚ := p.factor * p.nevt

/-- One group of the sum and its average (eutropia.py:214-216); NaN becomes 0. -/
def sumGroup (k : List ℚ) (rows : List Cell) : Option Cell :=
  match k with
  | [xr, yr, zr, x, y, z] => some ⟨xr, yr, zr, x, y, z,
      if (rows.map Cell.nevt).sum = 0 then 0 else (rows.map Cell.charge).sum / ((rows.map Cell.nevt).sum : Nat), (rows.map Cell.nevt).sum⟩
  | _ => none

/-- `combine_psfs` (eutropia.py:203-217). -/
def combine (acc : Option (List Cell)) (new : List Cell) : Option (List Cell) :=
  match acc with
  | none => some new
  | some a => some ((groupBy Cell.key (a ++ new)).filterMap fun g => sumGroup g.1 g.2)

/-- `reduce(combine_psfs, None)` (eutropia.py:109). -/
def accumulate (psfs : List (List Cell)) : Option (List Cell) := psfs.foldl combine none

/-- The point of a processed row (eutropia.py:177-180, psf_functions.py:122-123); the rows of a sector have the position of the peak. -/
def Norm.point (r : Norm) : Option Point :=
  match r.xpeak, r.ypeak with
  | some xp, some yp => some (r.x - xp, r.y - yp, r.normQ)
  | _, _ => none

/-- The settings of eutropia (eutropia.py:60-77). -/
structure Config where
  xrange : ℚ × ℚ
  yrange : ℚ × ℚ
  zbins : List ℚ
  xsectors : List ℚ
  ysectors : List ℚ
  binSize : ℚ

/-- `nbin` and `bin_edges` (eutropia.py:76-77): `astype(int)` truncates. -/
def Config.edges (size : ℚ) (r : ℚ × ℚ) : List ℚ := linspace r.1 r.2 ⌊(r.2 - r.1) / size⌋.toNat

/-- The PSFs of the table of a file, in the order in which they reach `accumulate_psf` (eutropia.py:116-128). -/
def filePsfs (c : Config) (db : List (ℚ × ℚ)) (hits : List Hit) : Except PyErr (List (List Cell)) :=
  ((splitZ c.zbins hits).flatMap fun s =>
    (splitXY c.xsectors c.ysectors (process ((c.xrange.2 - c.xrange.1) / 2) ((c.yrange.2 - c.yrange.1) / 2) db s.2)).map fun t => (s.1, t)).mapM fun u =>
      buildPsf (Config.edges c.binSize c.xrange) (Config.edges c.binSize c.yrange) u.2.1 u.2.2.1 u.1 (u.2.2.2.filterMap Norm.point)

/-- The result of eutropia (eutropia.py:116-129), before it is written; the files are the tables RECO/Events (`dst_from_files`, components.py:661-679). -/
def eutropia (c : Config) (db : List (ℚ × ℚ)) (files : List (List Hit)) : Except PyErr (Option (List Cell)) :=
  match files.mapM (filePsfs c db) with
  | .error e => .error e
  | .ok psfs => .ok (accumulate psfs.flatten)

end Verif.Psf
