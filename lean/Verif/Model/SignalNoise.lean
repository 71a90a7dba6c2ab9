import Verif.Model.Sampling
import Verif.Model.HitBuilder
/-!
# Model of the charge of the SiPMs as signal to noise (`core/random_sampling.py`, `evm/pmaps.py`)

The other value of `sipm_charge_type` in dorothea and sophronia (`SiPMCharge.signal_to_noise`): `Model/HitBuilder` has the raw charges.  `sqrt` is the square root of NumPy, any function
from the rationals to the rationals: the theorems say what they need of it.
-/
namespace Verif.SignalNoise
open Verif.PMaps (Peak Responses)
open Verif.Sampling (Sampler DarkModel darkExpectation roundEven)

/-- A floating point number: `inf true` is +inf. -/
inductive Val where
  | num (v : ℚ)
  | inf (positive : Bool)
  | nan
deriving DecidableEq, Repr

/-- `charge / np.sqrt(charge + dark)` for one sensor (random_sampling.py:221); `none` is an infinite dark level (`inverse_cdf`, random_sampling.py:42-47).  The signs of zeros are not modelled. -/
def ratio (sqrt : ℚ → ℚ) (q : ℚ) : Option ℚ → Val
  | none => .num 0
  | some d =>
    if q + d < 0 then .nan
    else if q + d = 0 then (if q = 0 then .nan else .inf (decide (0 < q)))
    else .num (q / sqrt (q + d))

/-- `signal_to_noise` (random_sampling.py:192-221).  Simplification: arrays of different lengths, that NumPy would reject or broadcast, are cut to the shortest (a peak has one charge per SiPM). -/
def signalToNoise (sqrt : ℚ → ℚ) (s : Sampler) (m : DarkModel) (ids : List Nat) (charges : List ℚ) (width : Int) : Except PyErr (List Val) :=
  if width < 1 then .error .valueError
  else match darkExpectation s (width - 1).toNat m with
    | .error e => .error e
    | .ok dark => match npTake dark ids with
      | .error e => .error e
      | .ok levels => .ok (List.zipWith (ratio sqrt) charges levels)

/-- `int(np.ceil(np.round(width) / units.mus))` (pmaps.py:119, 122): times are in ns and `units.mus` is 1000 (system_of_units.py:127-142). -/
def sampleWidth (w : ℚ) : Int := ⌈(roundEven w : ℚ) / 1000⌉

/-- `sipm_charge_array` with `single_point = True` (pmaps.py:117-120); the model of the dark counts is the default, `DarkModel.threshold` (random_sampling.py:194). -/
def snPoint (sqrt : ℚ → ℚ) (s : Sampler) (p : Peak) : Except PyErr (List Val) :=
  signalToNoise sqrt s .threshold p.sipms.ids p.sipms.sumOverTimes (sampleWidth p.width)

/-- `sipm_charge_array` with `single_point = False` (pmaps.py:122-129): one array per slice; `map` ends with the shortest of its arguments. -/
def snSlices (sqrt : ℚ → ℚ) (s : Sampler) (p : Peak) : Except PyErr (List (List Val)) :=
  (((List.range p.sipms.wfs.ncols).map fun j => p.sipms.wfs.rows.map fun r => r.getD j 0).zip p.widths).mapM fun x =>
    signalToNoise sqrt s .threshold p.sipms.ids x.1 (sampleWidth x.2)

/-- The number given to the reconstruction.  Simplification: a value that is not a finite number is 0 (the theorems about hits are about finite ones). -/
def Val.number : Val → ℚ
  | .num v => v
  | _ => 0

/-- The charges of `sipms_as_hits` with `SiPMCharge.signal_to_noise` (components.py:1237, 1252-1261). -/
def pointCharges (sqrt : ℚ → ℚ) (s : Sampler) (p : Peak) : Except PyErr (List ℚ) :=
  match snPoint sqrt s p with
  | .error e => .error e
  | .ok vs => .ok (vs.map Val.number)

def sliceCharges (sqrt : ℚ → ℚ) (s : Sampler) (p : Peak) : Except PyErr (List (List ℚ)) :=
  match snSlices sqrt s p with
  | .error e => .error e
  | .ok vs => .ok (vs.map fun l => l.map Val.number)

/-- `sipms_as_hits` with `SiPMCharge.signal_to_noise` (components.py:1178-1237). -/
def builder (sqrt : ℚ → ℚ) (s : Sampler) (driftV : ℚ) (rebin : Peaks.RebinMethod) (qThr : ℚ) (xys : List (ℚ × ℚ)) (reco : List (ℚ × ℚ) → List ℚ → Except PyErr (List (ℚ × ℚ))) : HitBuilder.Builder :=
  ⟨driftV, rebin, qThr, xys, pointCharges sqrt s, sliceCharges sqrt s, reco⟩

end Verif.SignalNoise
