import Verif.Model.LoadDb
import Verif.Model.Calib
import Verif.Model.Detsim
/-!
# Model of the baseline restoration of the PMTs (`sierpe/blr.pyx`, `deconv_pmt`, `cwf_from_rwf`, `emulate_trigger`)

Samples are rational.  The tangent in the design of the cleaning filter is a parameter `tan` (the function `x ↦ tan (π x / 2)`), about which
nothing is assumed except, in some theorems, that its value is positive.  The comparison with the square root of the noise is exact.
-/
namespace Verif.Blr

/-- `scipy.signal.lfilter(b, a, x)` for a filter of first order with `a = [1, a1]` and zero initial state: `xp`, `yp` are the previous input and output. -/
def lfilterFrom (b0 b1 a1 : ℚ) : ℚ → ℚ → List ℚ → List ℚ
  | _, _, [] => []
  | xp, yp, x :: xs => (b0 * x + b1 * xp - a1 * yp) :: lfilterFrom b0 b1 a1 x (b0 * x + b1 * xp - a1 * yp) xs

/-- `SGN.butter(1, w, 'high')` and `SGN.lfilter` (blr.pyx:46-47): the bilinear transform gives `b = [1, -1] / (1 + w)`, `a = [1, (w - 1) / (1 + w)]`, `w` being the tangent of the prewarping. -/
def clean (w : ℚ) (xs : List ℚ) : List ℚ := lfilterFrom (1 / (1 + w)) (-1 / (1 + w)) ((w - 1) / (1 + w)) 0 0 xs

/-- `noise` (blr.pyx:31-36). -/
def noise (xs : List ℚ) : ℚ := ((xs.take 400).map fun x => x * x).sum / 400

/-- `s < thr * sqrt(n)` (blr.pyx:37-40, 60), without the root. -/
def ltRoot (s thr n : ℚ) : Bool :=
  if 0 ≤ thr then decide (s < 0) || decide (s * s < thr * thr * n) else decide (s < 0) && decide (thr * thr * n < s * s)

/-- The accumulator and the counter `j` after a sample (blr.pyx:58-71). -/
def charge (c thr n : ℚ) (len : Int) (st : ℚ × Int) (s : ℚ) : ℚ × Int :=
  if ltRoot s thr n && decide (st.1 < thr / c) then
    (if 1 < st.1 then (st.1 * (1 - c), if st.2 < len - 1 then st.2 + 1 else len - 1) else (0, 0))
  else (st.1 + s, st.2)

/-- The loop (blr.pyx:52-71) from a state of the accumulator. -/
def recover (c thr n : ℚ) (len : Int) : ℚ × Int → List ℚ → List ℚ
  | _, [] => []
  | st, s :: ss => (s + s * (c / 2) + c * st.1) :: recover c thr n len (charge c thr n len st s) ss

/-- Line 51 and the loop. -/
def recoverAll (c thr n : ℚ) (len : Int) : List ℚ → List ℚ
  | [] => []
  | s :: ss => s :: recover c thr n len (0, 0) ss

/-- `deconvolve_signal` (blr.pyx:5-73).  The bounds of memory views and divisions are checked (no directive in setup.py disables it); `butter` wants a frequency between 0 and 1. -/
def deconvolve (tan : ℚ → ℚ) (coeffClean c thr : ℚ) (dischargeLength : Int) (xs : List ℚ) : Except PyErr (List ℚ) :=
  if c = 0 then .error .zeroDivision
  else if xs.length < 400 then .error .indexError
  else if coeffClean ≤ 0 ∨ 1 ≤ coeffClean then .error .valueError
  else .ok (recoverAll c thr (noise xs) dischargeLength (clean (tan coeffClean) xs))

/-- `pedestal_function(rwfs[:, :n_baseline]) - rwfs` for a PMT (components.py:440, wfm_functions.py:113; `csf.means` is calib_sensors_functions.py:44-55). -/
def subtractPedestal (n : Nat) (rwf : List ℚ) : List ℚ := rwf.map fun x => Calib.zmean (rwf.take n) - x

/-- One call of the map of `deconv_pmt` (components.py:441).  A NULL coefficient is a NaN, with which the code gives NaNs; here it is an error. -/
def deconvolveRow (tan : ℚ → ℚ) (n : Nat) (thr : ℚ) (x : List ℚ × Option ℚ × Option ℚ) : Except PyErr (List ℚ) :=
  match x.2.1, x.2.2 with
  | some cc, some cb => deconvolve tan cc cb thr 5000 (subtractPedestal n x.1)
  | _, _ => .error (.other "nan")

/-- The rows of the table whose coefficients are used (components.py:433-436): the active ones if the argument `mask` is true. -/
def selected (mask : Bool) (pmts : List LoadDb.PmtRow) : List LoadDb.PmtRow := if mask then pmts.filter fun p => decide (p.active ≠ 0) else pmts

/-- `deconv_pmt` (components.py:431-444), the threshold being the default one. -/
def deconvPmt (tan : ℚ → ℚ) (pmts : List LoadDb.PmtRow) (n : Nat) (mask : Bool) (rwfs : List (List ℚ)) : Except PyErr (List (List ℚ)) :=
  if rwfs.length ≠ (selected mask pmts).length then .error .assertion
  else (rwfs.zip ((selected mask pmts).map fun p => (p.coeffC, p.coeffBlr))).mapM (deconvolveRow tan n 5)

/-- An event of `cwf_from_rwf` (wfm_functions.py:112-118): `map` stops at the shortest of its arguments. -/
def cwfEvent (tan : ℚ → ℚ) (rwfs : List (List (List ℚ))) (coeffs : List (ℚ × ℚ)) (n : Nat) (thr : ℚ) (event : Nat) : Except PyErr (List (List ℚ)) :=
  match rwfs[event]? with
  | none => .error .indexError
  | some evt => (evt.zip coeffs).mapM fun x => deconvolve tan x.2.1 x.2.2 thr 5000 (subtractPedestal n x.1)

/-- `cwf_from_rwf` (wfm_functions.py:107-119); the events are not negative. -/
def cwfFromRwf (tan : ℚ → ℚ) (rwfs : List (List (List ℚ))) (events : List Nat) (coeffs : List (ℚ × ℚ)) (n : Nat) (thr : ℚ) : Except PyErr (List (List (List ℚ))) :=
  events.mapM (cwfEvent tan rwfs coeffs n thr)

/-- The channels of the active PMTs, `compress(datapmt.ChannelID, datapmt.Active.values)` (diomira.py:226). -/
def activeChannels (pmts : List LoadDb.PmtRow) : List Int := (pmts.filter fun p => decide (p.active ≠ 0)).map (·.channel)

/-- `sf.convert_channel_id_to_IC_id(datapmt, channels)` (sensor_functions.py:12-13). -/
def icIds (pmts : List LoadDb.PmtRow) (channels : List Int) : Except PyErr (List Int) :=
  if (pmts.map (·.channel)).Nodup then .ok (channels.map fun c => if c ∈ pmts.map (·.channel) then (((pmts.map (·.channel)).idxOf c : Nat) : Int) else -1)
  else .error (.other "InvalidIndexError")

/-- `peak_data[ID] = s2`. -/
def setKey {β : Type} (d : List (Int × β)) (k : Int) (v : β) : List (Int × β) :=
  if k ∈ d.map Prod.fst then d.map fun p => if p.1 = k then (k, v) else p else d ++ [(k, v)]

/-- The loop over the trigger channels (diomira.py:240-243), `peaks` being lines 241-242. -/
def triggerLoop {β : Type} (peaks : List ℚ → Except PyErr β) : List (Int × List ℚ) → List (Int × β) → Except PyErr (List (Int × β))
  | [], d => .ok d
  | x :: xs, d => match peaks x.2 with
    | .error e => .error e
    | .ok v => triggerLoop peaks xs (setKey d x.1 v)

/-- `emulate_trigger` for the type "S2" (diomira.py:213-246), applied to an event.  The ids of the channels are given to `deconv_pmt` as its argument `mask`, of which only the truth value is used. -/
def emulateTrigger {β : Type} (tan : ℚ → ℚ) (peaks : List ℚ → Except PyErr β) (pmts : List LoadDb.PmtRow) (channels : List Int) (n : Nat) (rwfs : List (List ℚ)) : Except PyErr (List (Int × β)) :=
  match icIds pmts channels with
  | .error e => .error e
  | .ok ids =>
    if ∃ c ∈ channels, c ∉ activeChannels pmts then .error .valueError
    else match deconvPmt tan pmts n (!ids.isEmpty) rwfs with
      | .error e => .error e
      | .ok cwfs => triggerLoop peaks (ids.zip cwfs) []

end Verif.Blr
