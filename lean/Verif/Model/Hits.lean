import Verif.Numpy
/-!
# Model of `invisible_cities/reco/hits_functions.py` and of the hit builders of `cities/components.py`

A dataframe of hits is a list of rows.  Simplification: the index labels of the dataframe are assumed to be distinct
(in IC they come from `pd.concat(..., ignore_index=True)`, components.py:1280), so rows stand for labels.
-/
namespace Verif.Hits

/-- `NN` (ic_types.py:8). -/
def NN : ℚ := -999999

/-- `EPSILON = np.finfo(np.float64).eps` (hits_functions.py:11). -/
def EPSILON : ℚ := 1 / 2 ^ 52

/-- A float that may be NaN (`none`).  Infinite values are also represented by `none`. -/
abbrev Fl := Option ℚ

def Fl.add : Fl → Fl → Fl
  | some a, some b => some (a + b)
  | _, _ => none
def Fl.mul : Fl → Fl → Fl
  | some a, some b => some (a * b)
  | _, _ => none
/-- Division by a number; division by zero is NaN or infinite. -/
def Fl.div : Fl → ℚ → Fl
  | some a, b => if b = 0 then none else some (a / b)
  | none, _ => none

/-- Sum of a pandas column: NaNs are skipped (also `np.nansum`; `np.sum` of a Series is `Series.sum`). -/
def nansum (xs : List Fl) : ℚ := (xs.map fun x => x.getD 0).sum

/-- A row of the dataframe of hits: the columns used by the functions below; `info` stands for `event`, `time`,
`Xpeak` and `Ypeak`, `extra` for any further column (`none`: missing). -/
structure Hit where
  info : Nat
  npeak : Nat
  x : ℚ
  y : ℚ
  z : ℚ
  q : ℚ
  e : Fl
  ec : Fl
  extra : Option Nat
deriving DecidableEq, Repr

/-- `e_from_q` (hits_functions.py:14-31). -/
def eFromQ (qs : List ℚ) (e : ℚ) : List ℚ := qs.map fun q => q * e / (qs.sum + EPSILON)

/-- `sipms_above_threshold` (hits_functions.py:34-70): rows `(x, y, q, e)`.  Simplification: positions and charges
are given as a single list (arrays of the same length). -/
def sipmsAboveThreshold (sipms : List (ℚ × ℚ × ℚ)) (thr energy : ℚ) : List (ℚ × ℚ × ℚ × ℚ) :=
  let sel := sipms.filter fun s => decide (thr ≤ s.2.2)
  if sel.isEmpty then [(NN, NN, NN, energy)]
  else List.zipWith (fun s e => (s.1, s.2.1, s.2.2, e)) sel (eFromQ (sel.map fun s => s.2.2) energy)

/-- One (rebinned) slice of an S2: its `z`, its energy (sum over PMTs) and its SiPMs with position and charge. -/
structure Slice where
  z : ℚ
  e : ℚ
  sipms : List (ℚ × ℚ × ℚ)

/-- The loops of `sipms_as_hits` over peaks and slices (components.py:1246-1278), for peaks already rebinned; `passed`
is the flag of the selector.  `enumerate` runs over all peaks, so peak numbers are positions in the PMap. -/
def sipmsAsHits (info : Nat) (qThr : ℚ) (peaks : List (Bool × List Slice)) : List Hit :=
  peaks.zipIdx.flatMap fun ((passed, slices), peakNo) =>
    if !passed then [] else
    slices.flatMap fun s => (sipmsAboveThreshold s.sipms qThr s.e).map fun r =>
      { info := info, npeak := peakNo, x := r.1, y := r.2.1, z := s.z, q := r.2.2.1, e := some r.2.2.2, ec := none, extra := none }

/-! ### Merging of NN hits -/

/-- `np.isclose(a, b)` with the default tolerances. -/
def isclose (a b : ℚ) : Bool := decide (|a - b| ≤ 1 / 10 ^ 8 + 1 / 10 ^ 5 * |b|)

/-- `candidates` (hits_functions.py:117). -/
def candidates (samePeak : Bool) (hits : List Hit) (nn : Hit) : List Hit :=
  if samePeak then hits.filter fun h => h.npeak == nn.npeak else hits

/-- `dz.min()`. -/
def minDz (hits : List Hit) (nn : Hit) : Option ℚ := (hits.map fun h => |h.z - nn.z|).min?

/-- Whether hit `h` belongs to `closest` (hits_functions.py:121-122). -/
def inClosest (samePeak : Bool) (hits : List Hit) (nn h : Hit) : Bool :=
  (!samePeak || h.npeak == nn.npeak) && (minDz (candidates samePeak hits nn) nn).any fun m => isclose |h.z - nn.z| m

/-- `corr_e`/`corr_ec` for hit `h` (hits_functions.py:127-129); `col` selects the column. -/
def correction (col : Hit → Fl) (samePeak : Bool) (hits : List Hit) (nn h : Hit) : Fl :=
  Fl.div (Fl.mul (col nn) (col h)) (nansum ((hits.filter (inClosest samePeak hits nn)).map col))

/-- One iteration of the loop over NN hits (hits_functions.py:116-131) on the accumulated corrections of a column. -/
def addCorrections (col : Hit → Fl) (samePeak : Bool) (hits : List Hit) (corrs : List Fl) (nn : Hit) : List Fl :=
  if (candidates samePeak hits nn).isEmpty then corrs
  else List.zipWith (fun h c => if inClosest samePeak hits nn h then Fl.add c (correction col samePeak hits nn h) else c) hits corrs

/-- `merge_NN_hits` (hits_functions.py:73-135); `hasEc` tells if the dataframe has the column `Ec`. -/
def mergeNN (samePeak hasEc : Bool) (hits : List Hit) : List Hit :=
  if !(hits.any fun h => h.q == NN) then hits else
  let nns := hits.filter fun h => h.q == NN
  let real := hits.filter fun h => !(h.q == NN)
  let zeros : List Fl := real.map fun _ => some 0
  let corrE := nns.foldl (addCorrections Hit.e samePeak real) zeros
  let real' := List.zipWith (fun h c => { h with e := Fl.add h.e c }) real corrE
  if hasEc then
    let corrEc := nns.foldl (addCorrections Hit.ec samePeak real) zeros
    List.zipWith (fun h c => { h with ec := Fl.add h.ec c }) real' corrEc
  else real'

/-! ### Threshold -/

/-- `apply_threshold` (hits_functions.py:159-208) with `empty_hit` (:138-156), on the hits of one slice (non-empty;
`hits.iloc[0]` raises otherwise).  The column `Z` is the group key, put back by `threshold_hits`. -/
def applyThreshold (th : ℚ) (hits : List Hit) : Except PyErr (List Hit) :=
  let rawE := nansum (hits.map Hit.e)
  let corE := nansum (hits.map Hit.ec)
  let kept := hits.filter fun h => decide (th ≤ h.q)
  if kept.isEmpty then
    match hits with
    | [] => .error .indexError
    | first :: _ => .ok [{ info := first.info, npeak := first.npeak, x := NN, y := NN, z := first.z, q := NN,
                           e := some rawE, ec := some corE, extra := none }]
  else
    let qsum := (kept.map Hit.q).sum + EPSILON
    .ok (kept.map fun h => { h with e := some (h.q / qsum * (rawE + EPSILON)), ec := some (h.q / qsum * (corE + EPSILON)) })

/-- Sorted insertion without repetition: keys of `groupby`. -/
def insertKey (z : ℚ) : List ℚ → List ℚ
  | [] => [z]
  | k :: ks => if z < k then z :: k :: ks else if z = k then k :: ks else k :: insertKey z ks

/-- Keys of `hits.groupby("Z")`, sorted. -/
def groupKeys (hits : List Hit) : List ℚ := hits.foldr (fun h ks => insertKey h.z ks) []

/-- `threshold_hits` (hits_functions.py:211-244). -/
def thresholdHits (th : ℚ) (hits : List Hit) : Except PyErr (List Hit) :=
  if th ≤ 0 then .ok hits
  else match (groupKeys hits).mapM fun z => applyThreshold th (hits.filter fun h => decide (h.z = z)) with
    | .error e => .error e
    | .ok slices => .ok slices.flatten

/-- `hits_thresholder` (components.py:1713-1736). -/
def hitsThresholder (th : ℚ) (samePeak : Bool) (hits : List Hit) : Except PyErr (List Hit) :=
  match thresholdHits th hits with
  | .error e => .error e
  | .ok hs => .ok (mergeNN samePeak true hs)

end Verif.Hits
