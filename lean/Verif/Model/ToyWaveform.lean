import Verif.Base
import Verif.Model.Fee
/-!
# Model of the toy waveforms (`sierpe/waveform_generator.py`)

The random numbers are parameters: `draw k i` is the `i`-th number of the `k`-th call of `np.random.randn` for a waveform.  A value is `none` when it is NaN.  The response of the electronics
(`simulate_pmt_response`, see `Verif.Model.Fee`) is a parameter: the corrected and the raw waveform, in counts.  Times are natural numbers, in ns.
-/
namespace Verif.ToyWaveform
open Verif (PyErr)

/-- `WfmPar` (waveform_generator.py:20-27): `square` is `w_type == 'square'`. -/
structure Par where
  square : Bool
  tTot : Nat
  tPre : Nat
  rise : Nat
  flat : Nat
  noise : ℚ
  q : ℚ
deriving DecidableEq

/-- `line` (waveform_generator.py:43-49): the line through two points; NaN if they have the same `x`. -/
def line (x x1 y1 x2 y2 : ℚ) : Option ℚ :=
  if x2 - x1 = 0 then none else some ((y1 * x2 - y2 * x1) / (x2 - x1) + (y2 - y1) / (x2 - x1) * x)

/-- `wf_noise` (waveform_generator.py:40-41). -/
def wfNoise (w : Par) (draw : Nat → ℚ) (n : Nat) : List (Option ℚ) := (List.range n).map fun i : Nat => some (w.noise * draw i)

/-- `line(t[f:l+1], p1, p2) + wf_noise(l+1-f)` (waveform_generator.py:66, 79), with the points `(f, y1)` and `(l, y2)`. -/
def slope (w : Par) (draw : Nat → ℚ) (f l : Nat) (y1 y2 : ℚ) : List (Option ℚ) :=
  (List.range (l + 1 - f)).map fun i : Nat => (line ((f + i : Nat) : ℚ) f y1 l y2).map fun v => v + w.noise * draw i

/-- `wp.q_s2 + wf_noise(l-f)` (waveform_generator.py:71). -/
def flatTop (w : Par) (draw : Nat → ℚ) (n : Nat) : List (Option ℚ) := (List.range n).map fun i : Nat => some (w.q + w.noise * draw i)

/-- `arr[f:f+n] = vals`, for `n` values inside the array. -/
def setRange (arr : List (Option ℚ)) (f : Nat) (vals : List (Option ℚ)) : List (Option ℚ) := arr.take f ++ vals ++ arr.drop (f + vals.length)

/-- `np.zeros(n)`. -/
def zeros (n : Nat) : List (Option ℚ) := List.replicate n (some 0)

/-- Sum of two values, NaN if one of them is. -/
def addOpt : Option ℚ → Option ℚ → Option ℚ
  | some a, some b => some (a + b)
  | _, _ => none

/-- The signal (waveform_generator.py:61-79). -/
def signal (w : Par) (draw : Nat → Nat → ℚ) : List (Option ℚ) :=
  setRange (setRange (setRange (zeros w.tTot) w.tPre (slope w (draw 1) w.tPre (w.tPre + w.rise) 0 w.q))
    (w.tPre + w.rise) (flatTop w (draw 2) w.flat))
    (w.tPre + w.rise + w.flat) (slope w (draw 3) (w.tPre + w.rise + w.flat) (w.tPre + w.rise + w.flat + w.rise) w.q 0)

/-- `square_waveform` (waveform_generator.py:35-86). -/
def squareWaveform (w : Par) (draw : Nat → Nat → ℚ) : Except PyErr (List (Option ℚ)) :=
  if 2 * w.rise + w.flat + w.tPre < w.tTot then
    .ok (List.zipWith addOpt
      (List.zipWith addOpt (setRange (zeros w.tTot) 0 (wfNoise w (draw 0) w.tPre)) (signal w draw))
      (setRange (zeros w.tTot) (w.tPre + w.rise + w.flat + w.rise) (wfNoise w (draw 4) (w.tTot - w.tPre - (2 * w.rise + w.flat)))))
  else .error .assertion

/-- One tooth (waveform_generator.py:97-99): rise, flat and fall. -/
def tooth (w : Par) : List ℚ := Fee.linspace 0 w.q w.rise ++ Fee.linspace w.q w.q w.flat ++ Fee.linspace w.q 0 w.rise

/-- `sawteeth_waveform` (waveform_generator.py:89-108): three teeth; `np.zeros` of a negative length is `ValueError`. -/
def sawteethWaveform (w : Par) : Except PyErr (List (Option ℚ)) :=
  if (w.tTot : Int) - w.tPre - 3 * (w.rise + 2 * w.flat) < 0 then .error .valueError
  else .ok ((List.replicate w.tPre 0 ++ tooth w ++ tooth w ++ tooth w ++ List.replicate (w.tTot - w.tPre - 3 * (w.rise + 2 * w.flat)) 0).map some)

/-- The waveform of a sensor (waveform_generator.py:143-146). -/
def waveform (w : Par) (draw : Nat → Nat → ℚ) : Except PyErr (List (Option ℚ)) := if w.square then squareWaveform w draw else sawteethWaveform w

/-- `pmtwf.fee + ped` into a row of `n` samples (waveform_generator.py:147-148): an array with one sample is repeated, other lengths are `ValueError`. -/
def toRow (n : Nat) (pedestal : Int) (wf : List Int) : Except PyErr (List Int) :=
  if wf.length = n then .ok (wf.map fun v => v + pedestal)
  else if wf.length = 1 then .ok (List.replicate n (wf.getD 0 0 + pedestal))
  else .error .valueError

/-- The parameters with a random start (waveform_generator.py:134-141); `np.random.randint(0)` is `ValueError`.  `u` is the random number, taken modulo the range. -/
def randomStart (random : Bool) (u : Nat) (w : Par) : Except PyErr Par :=
  if random then (if w.tTot / 3 = 0 then .error .valueError else .ok ⟨w.square, w.tTot, u % (w.tTot / 3), w.rise, w.flat, w.noise, w.q⟩) else .ok w

/-- The rows of a sensor (waveform_generator.py:133-148), with the parameters for the next one. -/
def sensorRows (resp : List (Option ℚ) → List Int × List Int) (n : Nat) (pedestal : Int) (random : Bool) (u : Nat) (draw : Nat → Nat → ℚ) (w : Par) :
    Except PyErr (Par × List Int × List Int) :=
  match randomStart random u w with
  | .error e => .error e
  | .ok w' => match waveform w' draw with
    | .error e => .error e
    | .ok wf => match toRow n pedestal (resp wf).2, toRow n pedestal (resp wf).1 with
      | .ok fee, .ok blr => .ok (w', blr, fee)
      | _, _ => .error .valueError

/-- The loop over the sensors (waveform_generator.py:132-148). -/
def sensorLoop (resp : List (Option ℚ) → List Int × List Int) (n : Nat) (pedestal : Int) (random : Bool) : List (Nat × (Nat → Nat → ℚ)) → Par → Except PyErr (List (List Int × List Int))
  | [], _ => .ok []
  | (u, draw) :: rest, w => match sensorRows resp n pedestal random u draw w with
    | .error e => .error e
    | .ok r => match sensorLoop resp n pedestal random rest r.1 with
      | .error e => .error e
      | .ok rows => .ok (r.2 :: rows)

/-- `waveform_generator` (waveform_generator.py:121-150): the corrected and the raw waveform of each sensor, with a sample every 25 ns. -/
def generate (resp : List (Option ℚ) → List Int × List Int) (pedestal : Int) (random : Bool) (draws : List (Nat × (Nat → Nat → ℚ))) (w : Par) : Except PyErr (List (List Int × List Int)) :=
  sensorLoop resp (w.tTot / 25) pedestal random draws w

/-- The accumulator of `deconv_simple` (waveform_generator.py:163-165), from a value on. -/
def accumulate : ℚ → List ℚ → List ℚ
  | _, [] => []
  | a, x :: xs => (a + x) :: accumulate (a + x) xs

/-- `deconv_simple` (waveform_generator.py:153-169): `IndexError` for an empty waveform. -/
def deconvSimple (wfm : List ℚ) (coef : ℚ) : Except PyErr (List ℚ) :=
  match wfm.map fun v => v - wfm.sum / wfm.length with
  | [] => .error .indexError
  | x :: xs => .ok (List.zipWith (fun s a => s + coef * a) (x :: xs) ((coef * x) :: accumulate (coef * x) xs))

end Verif.ToyWaveform
