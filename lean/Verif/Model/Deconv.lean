import Verif.Model.Tracks
import Verif.Model.PMapsIO
import Verif.Model.Sampling
import Verif.Model.Sources
/-!
# Model of the cuts of `invisible_cities/reco/deconv_functions.py` and of `invisible_cities/cities/beersheba.py`

Values of a table are rationals; `none` is a value which is not finite (NaN; in the output, also an infinity).  pandas skips NaN when it
adds a column.  Irrational distances are compared through their squares.
-/
namespace Verif.Deconv
open Verif.PMapsIO (unique)
open Verif.Tracks (Graph components combinations2)

/-- A row of a table of hits: the index label, the columns `event`, `time`, `npeak`, the position, the charge and the columns to be redistributed
(`E` and `Ec` in beersheba.py:501-503). -/
structure Row where
  label : Int
  event : Int
  time : ℚ
  npeak : Int
  x : ℚ
  y : ℚ
  z : ℚ
  q : ℚ
  vals : List (Option ℚ)
deriving DecidableEq

/-- `df.loc[:, variable].sum()`, for the variable at position `j`. -/
def colSum (df : List Row) (j : Nat) : ℚ := (df.map fun r => (r.vals.getD j none).getD 0).sum

/-- `np.divide(total, kept)` (deconv_functions.py:138, 180, 232): not finite for a zero denominator. -/
def factor (df kept : List Row) (j : Nat) : Option ℚ := if colSum kept j = 0 then none else some (colSum df j / colSum kept j)

/-- A product of values that may be not finite. -/
def mulOpt : Option ℚ → Option ℚ → Option ℚ
  | some a, some b => some (a * b)
  | _, _ => none

/-- The columns of a row after the redistribution (deconv_functions.py:137-139, 179-181, 231-233). -/
def rescale (df kept : List Row) (r : Row) : Row := { r with vals := r.vals.mapIdx fun j v => mulOpt v (factor df kept j) }

/-- The redistribution (deconv_functions.py:136-139, 178-181, 230-233). -/
def redistribute (df kept : List Row) : List Row := kept.map (rescale df kept)

/-- `cut_and_redistribute_df` (deconv_functions.py:114-143), the condition being a predicate. -/
def cutAndRedistribute (p : Row → Bool) (df : List Row) : List Row :=
  if (df.filter p).length = 0 then df.filter p else redistribute df (df.filter p)

/-- The square of the distance in the plane (deconv_functions.py:169). -/
def dist2 (a b : Row) : ℚ := (a.x - b.x) ^ 2 + (a.y - b.y) ^ 2

/-- `d[d > 0].min()` (deconv_functions.py:174), on squares. -/
def closest2 (df : List Row) (r : Row) : Except PyErr ℚ :=
  match ((df.map (dist2 r)).filter fun d => decide (0 < d)) with
  | [] => .error .valueError
  | d :: ds => .ok (ds.foldl min d)

/-- `drop_isolated_sensors` (deconv_functions.py:146-185), `distance` being `[dx, dy]`. -/
def dropIsolatedSensors (dx dy : ℚ) (df : List Row) : Except PyErr (List Row) :=
  if df.all (fun a => df.all fun b => !decide (0 < dist2 a b)) then .ok []
  else match df.mapM (closest2 df) with
    | .error e => .error e
    | .ok closest => .ok (redistribute df (((df.zip closest).filter fun rc => decide (rc.2 ≤ dx ^ 2 + dy ^ 2)).map Prod.fst))

/-- The square of the distance in units of `distance` (deconv_functions.py:210). -/
def normDist2 (d : ℚ × ℚ × ℚ) (a b : Row) : ℚ :=
  ((a.x - b.x) / d.1) ^ 2 + ((a.y - b.y) / d.2.1) ^ 2 + ((a.z - b.z) / d.2.2) ^ 2

/-- `cKDTree(xyz).query_pairs(r = np.sqrt(3))` (deconv_functions.py:213), each pair of positions replaced by the labels of its rows (deconv_functions.py:218). -/
def closePairs (d : ℚ × ℚ × ℚ) (df : List Row) : List (Int × Int) :=
  ((combinations2 df).filter fun p => decide (normDist2 d p.1 p.2 ≤ 3)).map fun p => (p.1.label, p.2.label)

/-- The graph of `drop_isolated_clusters` (deconv_functions.py:216-218): the positions `0, ..., len(df) - 1` are nodes; the edges, which add their ends to
the nodes when they are new, are between *labels*. -/
def clusterGraph (d : ℚ × ℚ × ℚ) (df : List Row) : Graph Int :=
  ⟨unique ((List.range df.length).map Int.ofNat ++ (closePairs d df).flatMap fun p => [p.1, p.2]), closePairs d df⟩

/-- `nx.connected_components` and the cut on the number of hits (deconv_functions.py:221-224). -/
def bigClusters (d : ℚ × ℚ × ℚ) (nhits : Int) (df : List Row) : List (List Int) :=
  (components (clusterGraph d df) (clusterGraph d df).nodes []).filter fun c => decide (nhits < (c.length : Int))

/-- `df.loc[labels, :]` (deconv_functions.py:227): all the rows with each of the labels, `KeyError` when there is none. -/
def locLabel (df : List Row) (l : Int) : Except PyErr (List Row) :=
  match df.filter fun r => decide (r.label = l) with
  | [] => .error .keyError
  | r :: rs => .ok (r :: rs)

def loc (df : List Row) (labels : List Int) : Except PyErr (List Row) :=
  match labels.mapM (locLabel df) with
  | .error e => .error e
  | .ok l => .ok l.flatten

/-- `drop_isolated_clusters` (deconv_functions.py:188-237).  `reduce` without initial value of no sets is a `TypeError`.  `iter` is the order in which
Python iterates over the set of labels. -/
def dropIsolatedClusters (iter : List Int → List Int) (d : ℚ × ℚ × ℚ) (nhits : Int) (df : List Row) : Except PyErr (List Row) :=
  if (bigClusters d nhits df).length = 0 then .error .typeError
  else match loc df (iter (bigClusters d nhits df).flatten) with
    | .error e => .error e
    | .ok kept => .ok (redistribute df kept)

/-! ### Events -/

/-- The key of `groupby("event time npeak".split())` (beersheba.py:311, 351). -/
abbrev Key := Int × ℚ × Int

def Row.key (r : Row) : Key := (r.event, r.time, r.npeak)

/-- Lexicographic order of the keys. -/
def keyLe (a b : Key) : Bool := decide (a.1 < b.1 ∨ (a.1 = b.1 ∧ (a.2.1 < b.2.1 ∨ (a.2.1 = b.2.1 ∧ a.2.2 ≤ b.2.2))))

/-- Insertion in a list of keys. -/
def insertKey (k : Key) : List Key → List Key
  | [] => [k]
  | j :: js => if keyLe k j then k :: j :: js else j :: insertKey k js

/-- The keys of the groups, in increasing order. -/
def groupKeys (df : List Row) : List Key := (unique (df.map Row.key)).foldr insertKey []

/-- `reset_index()` (beersheba.py:313-314, 353-354): the labels are the positions. -/
def resetIndex (df : List Row) : List Row := df.mapIdx fun i r => { r with label := i }

/-- `df.groupby(...).apply(f)` and the new index (beersheba.py:309-315, 349-355). -/
def applyGroups (f : List Row → Except PyErr (List Row)) (df : List Row) : Except PyErr (List Row) :=
  match (groupKeys df).mapM fun k => f (df.filter fun r => r.key == k) with
  | .error e => .error e
  | .ok groups => .ok (resetIndex groups.flatten)

/-- `cut_over_Q` (beersheba.py:292-317). -/
def cutOverQ (qcut : ℚ) (df : List Row) : Except PyErr (List Row) :=
  if df.length = 0 then .ok df else applyGroups (fun g => .ok (cutAndRedistribute (fun r => decide (qcut < r.q)) g)) df

/-- `drop_isolated` (beersheba.py:320-357): two distances, or three and a number of hits. -/
def dropIsolated (iter : List Int → List Int) (distance : List ℚ) (nhits : Option Int) (df : List Row) : Except PyErr (List Row) :=
  match distance, nhits with
  | [dx, dy], _ => if df.length = 0 then .ok df else applyGroups (dropIsolatedSensors dx dy) df
  | [dx, dy, dz], some n => if df.length = 0 then .ok df else applyGroups (dropIsolatedClusters iter (dx, dy, dz) n) df
  | [_, _, _], none => .error .typeError
  | _, _ => .error .valueError

/-! ### Images -/

/-- A two-dimensional image; the pixels outside the shape are not used. -/
structure Img where
  h : Nat
  w : Nat
  px : Nat → Nat → ℚ

/-- The positions of the pixels, in order. -/
def Img.positions (im : Img) : List (Nat × Nat) := (List.range im.h).flatMap fun i => (List.range im.w).map fun j => (i, j)

/-- The values, in order. -/
def Img.values (im : Img) : List ℚ := im.positions.map fun p => im.px p.1 p.2

/-- `max()` of a non-empty array. -/
def maxOf : List ℚ → ℚ
  | [] => 0
  | x :: xs => xs.foldl max x

/-- `CutType` (types/symbols.py:21-23). -/
inductive CutType where
  | abs
  | rel
deriving DecidableEq

/-- A value passes the cut of the satellites (deconv_functions.py:94-99): with a zero maximum a relative value is not finite and not above any cut. -/
def passes (im : Img) (cut : ℚ) : CutType → Nat × Nat → Bool
  | .abs, p => decide (cut ≤ im.px p.1 p.2)
  | .rel, p => decide (maxOf im.values ≠ 0) && decide (cut ≤ im.px p.1 p.2 / maxOf im.values)

/-- Neighbours of `generate_binary_structure(2, 2)` (deconv_functions.py:52): the eight pixels around. -/
def pixelNeighbours (a b : Nat × Nat) : Bool :=
  decide (a ≠ b) && decide (a.1 ≤ b.1 + 1) && decide (b.1 ≤ a.1 + 1) && decide (a.2 ≤ b.2 + 1) && decide (b.2 ≤ a.2 + 1)

/-- The graph of the pixels that pass the cut. -/
def pixelGraph (im : Img) (cut : ℚ) (t : CutType) : Graph (Nat × Nat) :=
  ⟨im.positions.filter (passes im cut t), (combinations2 (im.positions.filter (passes im cut t))).filter fun p => pixelNeighbours p.1 p.2⟩

/-- `ndi.label` (deconv_functions.py:53), each region given by its pixels. -/
def regions (im : Img) (cut : ℚ) (t : CutType) : List (List (Nat × Nat)) := components (pixelGraph im cut t) (pixelGraph im cut t).nodes []

/-- `generate_satellite_mask` (deconv_functions.py:58-111): `len(component_sizes)` is the number of regions plus one. -/
def satelliteMask (im : Img) (maxSize : Int) (cut : ℚ) (t : CutType) (p : Nat × Nat) : Bool :=
  if (regions im cut t).length + 1 ≤ 2 then false
  else (regions im cut t).any fun c => decide (p ∈ c) && decide ((c.length : Int) < maxSize)

/-- `convolve(im, k, 'same')` (deconv_functions.py:476, 479) at one pixel: the part of the full convolution centred with respect to its full shape. -/
def convPixel (im k : Img) (i j : Nat) : ℚ :=
  (im.positions.map fun p =>
    if p.1 ≤ i + (k.h - 1) / 2 ∧ i + (k.h - 1) / 2 - p.1 < k.h ∧ p.2 ≤ j + (k.w - 1) / 2 ∧ j + (k.w - 1) / 2 - p.2 < k.w then
      im.px p.1 p.2 * k.px (i + (k.h - 1) / 2 - p.1) (j + (k.w - 1) / 2 - p.2)
    else 0).sum

def convImg (im k : Img) : Img := ⟨im.h, im.w, convPixel im k⟩

/-- `psf[(s,) * psf.ndim]` (deconv_functions.py:471). -/
def mirror (k : Img) : Img := ⟨k.h, k.w, fun i j => k.px (k.h - 1 - i) (k.w - 1 - j)⟩

/-- `np.finfo(float).eps` (deconv_functions.py:472). -/
def eps : ℚ := 1 / 2 ^ 52

/-- `image / x` after `np.place(x, x==0, eps)` (deconv_functions.py:477-478). -/
def relativeBlur (image x : Img) : Img := ⟨image.h, image.w, fun i j => image.px i j / (if x.px i j = 0 then eps else x.px i j)⟩

/-- One update of the image (deconv_functions.py:476-479). -/
def lucy (image psf im : Img) : Img :=
  ⟨im.h, im.w, fun i j => im.px i j * convPixel (relativeBlur image (convImg im psf)) (mirror psf) i j⟩

/-- The parameters of the satellite killer (deconv_functions.py:343-346). -/
structure Satellites where
  start : Option Int
  maxSize : Int
  cut : ℚ
  type : CutType

/-- `im_deconv[sat_mask] = 0` (deconv_functions.py:483-484). -/
def kill (s : Satellites) (im : Img) : Img := ⟨im.h, im.w, fun i j => if satelliteMask im s.maxSize s.cut s.type (i, j) then 0 else im.px i j⟩

/-- One iteration, the number `n` (deconv_functions.py:476-484). -/
def iteration (image psf : Img) (s : Satellites) (n : Nat) (im : Img) : Img :=
  match s.start with
  | none => lucy image psf im
  | some k => if k ≤ (n : Int) then kill s (lucy image psf im) else lucy image psf im

/-- `im / im.max()` (deconv_functions.py:473, 491): NaN for a zero image.  Only for images without negative pixels. -/
def normalised (im : Img) (p : Nat × Nat) : Option ℚ := if maxOf im.values = 0 then none else some (im.px p.1 p.2 / maxOf im.values)

/-- One term of `rel_diff` (deconv_functions.py:487): `none` is infinite, NaN (that `nansum` skips) is zero. -/
def relTerm (a ref : Option ℚ) : Option ℚ :=
  match a, ref with
  | some a, some r => if r = 0 then (if a = r then some 0 else none) else some ((a - r) ^ 2 / r)
  | _, _ => some 0

/-- `rel_diff < iter_thr` (deconv_functions.py:487-488). -/
def converged (im ref : Img) (thr : ℚ) : Bool :=
  (im.positions.all fun p => (relTerm (normalised im p) (normalised ref p)).isSome) &&
    decide ((im.positions.map fun p => (relTerm (normalised im p) (normalised ref p)).getD 0).sum < thr)

/-- The loop of `richardson_lucy` (deconv_functions.py:475-491): iteration number `n`, `fuel` iterations left. -/
def lucyLoop (image psf : Img) (s : Satellites) (thr : ℚ) : Nat → Nat → Img → Img → Img
  | 0, _, im, _ => im
  | fuel + 1, n, im, ref =>
    if converged (iteration image psf s n im) ref thr then iteration image psf s n im
    else lucyLoop image psf s thr fuel (n + 1) (iteration image psf s n im) (iteration image psf s n im)

/-- `0.5 * np.ones(image.shape)` (deconv_functions.py:469). -/
def initial (image : Img) : Img := ⟨image.h, image.w, fun _ _ => 1 / 2⟩

/-- `richardson_lucy` (deconv_functions.py:407-493), in two dimensions. -/
def richardsonLucy (image psf : Img) (s : Satellites) (iterations : Nat) (thr : ℚ) : Img :=
  lucyLoop image psf s thr iterations 0 (initial image) image

/-- `find_nearest` (deconv_functions.py:324-341). -/
def findNearest (array : List ℚ) (v : ℚ) : Except PyErr ℚ :=
  match argmin (array.map fun a => |a - v|) with
  | .error e => .error e
  | .ok i => .ok (array.getD i 0)

/-! ### The energy of the deconvolved hits -/

/-- A pixel of the deconvolved image: its value and its position. -/
structure Pixel where
  e : ℚ
  x : ℚ
  y : ℚ
deriving DecidableEq

/-- A deconvolved hit. -/
structure DHit where
  event : Int
  npeak : Int
  x : ℚ
  y : ℚ
  z : ℚ
  e : Option ℚ
deriving DecidableEq

/-- The selection of `create_deconvolution_df` (beersheba.py:262-265): a relative value with zero maximum is not finite. -/
def selected (pixels : List Pixel) (cut : ℚ) : CutType → Pixel → Bool
  | .abs, p => decide (cut < p.e)
  | .rel, p => decide (maxOf (pixels.map Pixel.e) ≠ 0) && decide (cut < p.e / maxOf (pixels.map Pixel.e))

/-- `create_deconvolution_df` (beersheba.py:240-275), two dimensions: `event`, `npeak` and `Z` of the first hit. -/
def createDf (hits : List Row) (z : ℚ) (pixels : List Pixel) (cut : ℚ) (t : CutType) : List DHit :=
  (pixels.filter (selected pixels cut t)).map fun p => ⟨(hits.map Row.event).headD 0, (hits.map Row.npeak).headD 0, p.x, p.y, z, some p.e⟩

/-- The sum of a column of deconvolved hits, NaN skipped. -/
def total (hs : List DHit) : ℚ := (hs.map fun h => h.e.getD 0).sum

/-- `distribute_energy` (beersheba.py:278-289), for the column at position `j`. -/
def distributeEnergy (hs : List DHit) (hits : List Row) (j : Nat) : List DHit :=
  hs.map fun h => { h with e := mulOpt (if total hs = 0 then none else h.e.map (· / total hs)) (some (colSum hits j)) }

/-- Distinct values in increasing order: the keys of `groupby("Z")` (beersheba.py:227). -/
def insertQ (x : ℚ) : List ℚ → List ℚ
  | [] => [x]
  | y :: ys => if x ≤ y then x :: y :: ys else y :: insertQ x ys

def sortedUnique (xs : List ℚ) : List ℚ := (unique xs).foldr insertQ []

/-- The deconvolved hits of one peak, before they share its energy (beersheba.py:226-228).  `deco` is the deconvolution of one slice (deconv_functions.py:389-402 and,
in separate mode, a second one): its pixels. -/
def peakHits (deco : List Row → List Pixel) (cut : ℚ) (t : CutType) (npeak : Int) (hits : List Row) : List DHit :=
  (sortedUnique (hits.map Row.z)).flatMap fun z =>
    (createDf (hits.filter fun r => r.z == z) z (deco (hits.filter fun r => r.z == z)) cut t).map fun h => { h with npeak := npeak }

/-- `np.round(x, 6)` (beersheba.py:233). -/
def round6 (x : ℚ) : ℚ := Sampling.roundEven (x * 1000000) / 1000000

/-- `apply_deconvolution` (beersheba.py:210-235), before the final rounding. -/
def deconvolvedExact (deco : List Row → List Pixel) (cut : ℚ) (t : CutType) (j : Nat) (df : List Row) : List DHit :=
  (Sources.groupKeys (df.map Row.npeak)).flatMap fun k =>
    distributeEnergy (peakHits deco cut t k (df.filter fun r => r.npeak == k)) (df.filter fun r => r.npeak == k) j

/-- `apply_deconvolution` (beersheba.py:210-235).  `pd.concat` of no tables (an event without hits) is a `ValueError`. -/
def applyDeconvolution (deco : List Row → List Pixel) (cut : ℚ) (t : CutType) (j : Nat) (df : List Row) : Except PyErr (List DHit) :=
  if df.length = 0 then .error .valueError
  else .ok ((deconvolvedExact deco cut t j df).map fun h => { h with e := h.e.map round6 })

end Verif.Deconv
