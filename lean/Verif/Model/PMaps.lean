import Verif.Model.Core
import Verif.Numpy
/-!
# Model of `invisible_cities/evm/pmaps.py`

Square roots are avoided: the model gives the weighted variance instead of the rms.
-/
namespace Verif.PMaps

/-- `_SensorResponses` (pmaps.py:132-175), PMTs and SiPMs alike. -/
structure Responses where
  ids : List Nat
  wfs : Mat
deriving DecidableEq

/-- `_SensorResponses.__init__`, `_check_valid_input` (pmaps.py:133-141, 170-175). -/
def Responses.mk? (ids : List Nat) (wfs : Mat) : Except PyErr Responses :=
  if ids.length ≠ wfs.rows.length then .error .valueError else .ok ⟨ids, wfs⟩

/-- `build_empty_instance` (pmaps.py:152-154): `np.atleast_2d([])` has shape (1, 0). -/
def Responses.empty : Responses := ⟨[], ⟨[[]], 0⟩⟩

/-- `sum_over_sensors`, `sum_over_times` (pmaps.py:138-139). -/
def Responses.sumOverSensors (r : Responses) : List ℚ := r.wfs.sumSensors
def Responses.sumOverTimes (r : Responses) : List ℚ := r.wfs.sumTimes

/-- `where_above_threshold` (pmaps.py:149-150). -/
def Responses.whereAbove (r : Responses) (thr : ℚ) : List Nat := whereIdx (fun x => decide (thr < x)) r.sumOverSensors

/-- `_Peak` (pmaps.py:27-42), without the derived quantities (functions below).  The class (S1 or S2)
is not recorded in the structure. -/
structure Peak where
  times : List ℚ
  widths : List ℚ
  pmts : Responses
  sipms : Responses
deriving DecidableEq

/-- `_check_valid_input` (pmaps.py:87-101), including the wrong attribute name `__name` (mangled to
`_Peak__name`... does not exist) in the message for empty peaks: building the message raises
`AttributeError`.  Python's chained comparison `a != b != 0` is `a != b and b != 0`. -/
def checkValidInput (times : List ℚ) (pmts sipms : Responses) : Except PyErr Unit :=
  if times.length = 0 then .error .attributeError
  else if times.length ≠ pmts.wfs.ncols ∨ (times.length ≠ sipms.wfs.ncols ∧ sipms.wfs.ncols ≠ 0) then
    .error .valueError
  else .ok ()

/-- `_Peak.__init__` (pmaps.py:28-42).  After the check nothing else can fail. -/
def Peak.mk? (times widths : List ℚ) (pmts sipms : Responses) : Except PyErr Peak :=
  match checkValidInput times pmts sipms with
  | .error e => .error e
  | .ok () => .ok ⟨times, widths, pmts, sipms⟩

/-- `height` (pmaps.py:38): `np.max` of the summed waveform. -/
def Peak.height (p : Peak) : Except PyErr ℚ :=
  match argmax p.pmts.sumOverSensors with
  | .error e => .error e
  | .ok i => .ok (p.pmts.sumOverSensors.getD i 0)

/-- `time_at_max_energy` (pmaps.py:36-37). -/
def Peak.timeAtMaxEnergy (p : Peak) : Except PyErr ℚ :=
  match argmax p.pmts.sumOverSensors with
  | .error e => .error e
  | .ok i => match p.times[i]? with
    | some t => .ok t
    | none => .error .indexError

/-- `energy_above_threshold` (pmaps.py:44-47). -/
def Peak.energyAbove (p : Peak) (thr : ℚ) : ℚ :=
  ((p.pmts.whereAbove thr).map fun i => p.pmts.sumOverSensors.getD i 0).sum

/-- `charge_above_threshold` (pmaps.py:49-52). -/
def Peak.chargeAbove (p : Peak) (thr : ℚ) : ℚ :=
  ((p.sipms.whereAbove thr).map fun i => p.sipms.sumOverSensors.getD i 0).sum

/-- `width_above_threshold` (pmaps.py:54-60). -/
def Peak.widthAbove (p : Peak) (thr : ℚ) : ℚ :=
  match (p.pmts.whereAbove thr).head?, (p.pmts.whereAbove thr).getLast? with
  | some imin, some imax => (pySlice imin (imax + 1) p.widths).sum
  | _, _ => 0

/-- square of `rms_above_threshold` (pmaps.py:62-69). -/
def Peak.varAbove (p : Peak) (thr : ℚ) : Except PyErr ℚ :=
  let is := p.pmts.whereAbove thr
  let ts := is.map fun i => p.times.getD i 0
  let ws := is.map fun i => p.pmts.sumOverSensors.getD i 0
  if is.length < 2 ∨ ws.sum = 0 then .ok 0
  else match Core.weightedMeanAndVar ts ws with
    | .error e => .error e
    | .ok (_, v) => .ok v

/-- `total_energy`, `total_charge`, `width` (pmaps.py:39-41). -/
def Peak.totalEnergy (p : Peak) : ℚ := p.energyAbove 0
def Peak.totalCharge (p : Peak) : ℚ := p.chargeAbove 0
def Peak.width (p : Peak) : ℚ := p.widthAbove 0

end Verif.PMaps
