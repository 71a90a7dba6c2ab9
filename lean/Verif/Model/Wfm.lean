import Verif.Model.Peaks
/-!
# Model of `invisible_cities/reco/wfm_functions.py`

Not modelled: `cwf_from_rwf` and `compare_cwf_blr` (107-137), which use the deconvolution of the electronics.
-/
namespace Verif.Wfm

/-- `wfs * adc_to_pes.reshape(wfs.shape[0], 1)` (wfm_functions.py:33): the reshape fails unless there is one constant per sensor. -/
def scaleRows (op : ℚ → ℚ → ℚ) (wfs : Mat) (k : List ℚ) : Except PyErr Mat :=
  if k.length ≠ wfs.rows.length then .error .valueError
  else .ok ⟨List.zipWith (fun r c => r.map (op · c)) wfs.rows k, wfs.ncols⟩

/-- `to_adc` (wfm_functions.py:17-33). -/
def toAdc (wfs : Mat) (k : List ℚ) : Except PyErr Mat := scaleRows (· * ·) wfs k
/-- `to_pes` (wfm_functions.py:36-52).  Simplification: a division by zero gives 0 (in numpy: infinity or NaN). -/
def toPes (wfs : Mat) (k : List ℚ) : Except PyErr Mat := scaleRows (· / ·) wfs k

/-- `below_thr[a:b] = False` (wfm_functions.py:78). -/
def clearRange (mask : List Bool) (a b : Nat) : List Bool := mask.mapIdx fun i m => m && !(decide (a ≤ i) && decide (i < b))

/-- `suppress_wf` (wfm_functions.py:55-80).  `np.clip(indices - padding, 0, None)` is the truncated subtraction. -/
def suppressWf (wf : List ℚ) (thr : ℚ) (padding : Int) : List ℚ :=
  let below := wf.map fun x => decide (x ≤ thr)
  let below := if 0 < padding then
      (whereIdx (fun b : Bool => !b) below).foldl (fun m i => clearRange m (i - padding.toNat) (min (i + padding.toNat) (below.length - 1))) below
    else below
  List.zipWith (fun x (b : Bool) => if b then 0 else x) wf below

/-- `noise_suppression` with one threshold and one padding per sensor (wfm_functions.py:103-104): `map` stops at the shortest. -/
def noiseSuppression (wfs : List (List ℚ)) (thrs : List ℚ) (paddings : List Int) : List (List ℚ) :=
  List.zipWith (fun w tp => suppressWf w tp.1 tp.2) wfs (thrs.zip paddings)

/-- `noise_suppression` with one threshold and one padding for all (wfm_functions.py:99-102). -/
def noiseSuppression1 (wfs : List (List ℚ)) (thr : ℚ) (padding : Int) : List (List ℚ) :=
  noiseSuppression wfs (List.replicate wfs.length thr) (List.replicate wfs.length padding)

/-- `zero_wfs_below_threshold` with one threshold per sensor (wfm_functions.py:156-159); the reshape fails otherwise. -/
def zeroBelow (wfs : Mat) (thrs : List ℚ) : Except PyErr Mat :=
  if thrs.length ≠ wfs.rows.length then .error .valueError
  else .ok ⟨List.zipWith (fun r t => r.map fun x => if t < x then x else 0) wfs.rows thrs, wfs.ncols⟩

/-- `zero_wfs_below_threshold` with a number (wfm_functions.py:154-155). -/
def zeroBelow1 (wfs : Mat) (thr : ℚ) : Except PyErr Mat := zeroBelow wfs (List.replicate wfs.rows.length thr)

/-- `charge_threshold_method` (wfm_functions.py:182-202) with one zeroing threshold per sensor. -/
def chargeThreshold (wfs : Mat) (zeroing : List ℚ) (integration : ℚ) : Except PyErr (List Nat × Mat) :=
  match zeroBelow wfs zeroing with
  | .error e => .error e
  | .ok z => Peaks.selectWfsAboveTimeIntegratedThr z integration

/-- The insertion used by `sortAsc`. -/
def insertAsc (x : ℚ) : List ℚ → List ℚ
  | [] => [x]
  | y :: ys => if x ≤ y then x :: y :: ys else y :: insertAsc x ys
/-- Values in ascending order (inside `np.median`, wfm_functions.py:178). -/
def sortAsc : List ℚ → List ℚ
  | [] => []
  | x :: xs => insertAsc x (sortAsc xs)

/-- `np.median` (wfm_functions.py:178): the middle value or the average of the two middle values.  NaN for no values: the model gives 0, and no sensor is then
selected anyway. -/
def median (xs : List ℚ) : ℚ :=
  let s := sortAsc xs
  if s.length % 2 = 1 then s.getD (s.length / 2) 0 else (s.getD (s.length / 2 - 1) 0 + s.getD (s.length / 2) 0) / 2

/-- `median_std_method` (wfm_functions.py:162-179): mask of the selected sensors.  `std` stands for `np.std`, an arbitrary function here. -/
def medianStd (std : List ℚ → ℚ) (wfs : Mat) (nsigma : ℚ) : List Bool :=
  wfs.sumTimes.map fun c => decide (median wfs.sumTimes + nsigma * std wfs.sumTimes ≤ c)

/-- `order[-n:]` for an array (wfm_functions.py:220) and an integer `n`. -/
def lastN {α : Type} (xs : List α) (n : Int) : List α :=
  if n ≤ 0 then xs.drop (-n).toNat else xs.drop (xs.length - n.toNat)

/-- `top_n_method` (wfm_functions.py:205-224).  `order` stands for `np.argsort(charges)`, whose order among equal charges is unspecified. -/
def topN (order : List Nat) (nSensors : Nat) (n : Int) : List Bool :=
  (List.range nSensors).map fun i => decide (i ∈ lastN order n)

/-- Position of a sensor. -/
abbrev Pos := ℚ × ℚ

/-- Square of the distance between two positions. -/
def dist2 (a b : Pos) : ℚ := (a.1 - b.1) ^ 2 + (a.2 - b.2) ^ 2

/-- `distances < proximity_threshold` (wfm_functions.py:253, 255): the square root is compared through squares. -/
def closer (r : ℚ) (a b : Pos) : Bool := decide (0 < r) && decide (dist2 a b < r ^ 2)
/-- `distances <= padding_radius` (wfm_functions.py:289-290). -/
def within (r : ℚ) (a b : Pos) : Bool := decide (0 ≤ r) && decide (dist2 a b ≤ r ^ 2)

/-- Number of selected sensors close to a point (wfm_functions.py:255). -/
def nNeighbours (mask : List Bool) (pos : List Pos) (r : ℚ) (p : Pos) : Nat :=
  (mask.zip pos).countP fun s => closer r p s.2 && s.1

/-- The body of the loop of `kill_isolated_sipms` (wfm_functions.py:250-258). -/
def killOne (mask : List Bool) (pos : List Pos) (r : ℚ) (out : List Bool) (i : Nat) : List Bool :=
  match pos[i]? with
  | none => out
  | some p => if nNeighbours mask pos r p ≤ 1 then out.set i false else out

/-- `kill_isolated_sipms` (wfm_functions.py:227-260).  Simplification: arrays of different lengths are a `ValueError` (in numpy they fail to broadcast when some sensor is
selected). -/
def killIsolated (mask : List Bool) (pos : List Pos) (r : ℚ) : Except PyErr (List Bool) :=
  if mask.length ≠ pos.length then .error .valueError
  else .ok ((whereIdx (fun b => b) mask).foldl (killOne mask pos r) mask)

/-- The body of the loop of `apply_circular_padding` (wfm_functions.py:287-290). -/
def padOne (pos : List Pos) (r : ℚ) (out : List Bool) (i : Nat) : List Bool :=
  match pos[i]? with
  | none => out
  | some p => List.zipWith (fun o q => o || within r p q) out pos

/-- `apply_circular_padding` (wfm_functions.py:263-292), same simplification. -/
def circularPadding (mask : List Bool) (pos : List Pos) (r : ℚ) : Except PyErr (List Bool) :=
  if mask.length ≠ pos.length then .error .valueError
  else .ok ((whereIdx (fun b => b) mask).foldl (padOne pos r) (mask.map fun _ => false))

/-- `spatial_selection_method` (wfm_functions.py:295-349) for a first selection given by its mask. -/
def spatialSelection (wfs : Mat) (first : List Bool) (pos : List Pos) (proximity padding : ℚ) : Except PyErr (List Nat × Mat) :=
  match killIsolated first pos proximity with
  | .error e => .error e
  | .ok kept =>
    match circularPadding kept pos padding with
    | .error e => .error e
    | .ok signal =>
      let ids := whereIdx (fun b => b) signal
      match npTake wfs.rows ids with
      | .error e => .error e
      | .ok rows => .ok (ids, ⟨rows, wfs.ncols⟩)

/-- The members of `SiPMSelectionMethod` (types/symbols.py:163-164). -/
def selectionMethods : List String := ["median_std_method"]

/-- The choice of the method (wfm_functions.py:325-330): the second comparison looks up a member that does not exist. -/
def chooseMethod (std : List ℚ → ℚ) (wfs : Mat) (method : String) (nsigma : ℚ) : Except PyErr (List Bool) :=
  if method = "median_std_method" then .ok (medianStd std wfs nsigma)
  else if "top_n_method" ∈ selectionMethods then .error .valueError
  else .error .attributeError

end Verif.Wfm
