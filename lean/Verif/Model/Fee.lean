import Verif.Model.Blr
/-!
# Model of the electronics of the PMTs (`sierpe/fee.py`) and of `simulate_pmt_response`

Values are rational and times are in nanoseconds.  The Butterworth filters of first order are exact functions of the tangent of the prewarping, as in `Model/Blr`; the one of fourth order is a parameter, and so are the decimation of scipy and the values
drawn at random.
-/
namespace Verif.Fee

/-- `np.linspace(start, stop, num)` (fee.py:71-72). -/
def linspace (start stop : ℚ) (num : Nat) : List ℚ :=
  if num = 1 then [start] else (List.range num).map fun i : Nat => start + i * ((stop - start) / ((num : ℚ) - 1))

/-- `SPE.spe` (fee.py:55-74): `charge` is `pmt_gain * units.eplus`; `int` truncates (the times are not negative). -/
def spe (charge slope flat : ℚ) : List ℚ :=
  linspace 0 (charge / (slope + flat)) ⌊slope⌋.toNat ++ List.replicate ⌊flat⌋.toNat (charge / (slope + flat)) ++ linspace (charge / (slope + flat)) 0 ⌊slope⌋.toNat

/-- The sum of two signals of different lengths, the shorter one followed by zeros. -/
def addLong : List ℚ → List ℚ → List ℚ
  | [], ys => ys
  | xs, [] => xs
  | x :: xs, y :: ys => (x + y) :: addLong xs ys

/-- `signal.convolve(xs, ys)` and `np.convolve(xs, ys, mode='full')`; empty if one of them is (`np.convolve` fails then, but it is only used for coefficients of filters). -/
def convolve : List ℚ → List ℚ → List ℚ
  | [], _ => []
  | _, [] => []
  | [x], ys => ys.map fun y => x * y
  | x :: xs, ys => addLong (ys.map fun y => x * y) (0 :: convolve xs ys)

/-- `spe_pulse` (fee.py:89-106), `n` and `nmax` being the numbers of steps. -/
def spePulse (spe : List ℚ) (n nmax : Nat) : Except PyErr (List ℚ) :=
  if nmax ≤ n then .error .indexError else .ok (convolve ((List.replicate nmax (0 : ℚ)).set n 1) spe)

/-- `DELTA[nmin:nmax+1] = 1`. -/
def train (nmin nmax len : Nat) : List ℚ := (List.range len).map fun i : Nat => if nmin ≤ i ∧ i ≤ nmax then 1 else 0

/-- `spe_pulse_train` (fee.py:109-129). -/
def spePulseTrain (spe : List ℚ) (nmin nmax len : Nat) : List ℚ := convolve (train nmin nmax len) spe

/-- `cnt[:-len(spe.spe) + 1]`: for a pulse of one sample (or none) the end is 0 (or 1). -/
def dropTail (cnt : List ℚ) (k : Nat) : List ℚ := if k = 0 then cnt.take 1 else if k = 1 then [] else cnt.take (cnt.length - (k - 1))

/-- `spe_pulse_from_vector` (fee.py:132-139). -/
def spePulseFromVector (spe cnt : List ℚ) (norm : ℚ) : List ℚ := convolve (dropTail cnt spe.length) (spe.map fun x => x * norm)

/-- A digital filter: `b`, `a`. -/
structure Filter where
  b : List ℚ
  a : List ℚ
deriving DecidableEq

/-- The sum of the products. -/
def dot (xs ys : List ℚ) : ℚ := (List.zipWith (· * ·) xs ys).sum

/-- The recursion of `lfilter`: the previous inputs and outputs come first, the last one at the head. -/
def lfilterGo (b a : List ℚ) (a0 : ℚ) : List ℚ → List ℚ → List ℚ → List ℚ
  | _, _, [] => []
  | xr, yr, x :: xs => ((dot b (x :: xr) - dot a yr) / a0) :: lfilterGo b a a0 (x :: xr) (((dot b (x :: xr) - dot a yr) / a0) :: yr) xs

/-- `signal.lfilter(b, a, x)`: the difference equation; the first coefficient of `a` cannot be zero. -/
def lfilter (f : Filter) (xs : List ℚ) : Except PyErr (List ℚ) :=
  match f.a with
  | [] => .error .valueError
  | a0 :: a => if a0 = 0 then .error .valueError else .ok (lfilterGo f.b a a0 [] [] xs)

/-- `signal.butter(1, coef, 'high')`, `w` being the tangent (fee.py:307, 339). -/
def butterHigh (w : ℚ) : Filter := ⟨[1 / (1 + w), -1 / (1 + w)], [1, (w - 1) / (1 + w)]⟩

/-- `signal.butter(1, coef, 'low')` (fee.py:277, 308, 314). -/
def butterLow (w : ℚ) : Filter := ⟨[w / (1 + w), w / (1 + w)], [1, (w - 1) / (1 + w)]⟩

/-- The electronics of a PMT: the tangents of the coupling and of the first low-pass filter, the low-pass filter of order 4, `ZC`, `A1`, `A2`, `GAIN` and the tangent of the cleaning filter. -/
structure Electronics where
  w : ℚ
  w1 : ℚ
  lpf2 : Filter
  zc : ℚ
  a1 : ℚ
  a2 : ℚ
  gain : ℚ
  wc : ℚ

/-- `filter_sfee_lpf` (fee.py:271-284). -/
def filterLpf (e : Electronics) : Filter := ⟨(convolve (butterLow e.w1).b e.lpf2.b).map fun x => e.gain * x, convolve (butterLow e.w1).a e.lpf2.a⟩

/-- `filter_fee` (fee.py:287-329). -/
def filterFee (e : Electronics) : Filter :=
  ⟨(convolve (convolve (List.zipWith (fun l h => l * e.zc + h * e.a1) (butterLow e.w).b (butterHigh e.w).b) (butterLow e.w1).b) e.lpf2.b).map fun x => e.a2 * x,
    convolve (convolve (butterHigh e.w).a (butterLow e.w1).a) e.lpf2.a⟩

/-- `signal_v_fee` (fee.py:344-368); `noise` are the values drawn, zeros if the rms is zero. -/
def signalFee (e : Electronics) (noise xs : List ℚ) : Except PyErr (List ℚ) := lfilter (filterFee e) (List.zipWith (· + ·) xs noise)

/-- `signal_v_lpf` (fee.py:371-377). -/
def signalLpf (e : Electronics) (xs : List ℚ) : Except PyErr (List ℚ) := lfilter (filterLpf e) xs

/-- `signal_clean` (fee.py:380-392, `filter_cleaner`: 332-341). -/
def signalClean (e : Electronics) (xs : List ℚ) : Except PyErr (List ℚ) := lfilter (butterHigh e.wc) xs

/-- What is drawn at random for a PMT: the fluctuations of the charge and the noises of the electronics and the DAQ. -/
structure Draws where
  charge : List ℚ
  fee : List ℚ
  daq : List ℚ

/-- A PMT of the loop of `simulate_pmt_response` (sensor_functions.py:56-76): `low` is the low frequency noise (it must have the length of the waveform: ValueError) and `toAdc` is `v_to_adc()`. -/
def simulatePmt (spe : List ℚ) (decimate : List ℚ → List ℚ) (toAdc offset : ℚ) (e : Electronics) (cc rms : ℚ) (d : Draws) (low rd : List ℚ) : Except PyErr (List ℚ × List ℚ) :=
  match signalFee e d.fee (decimate (spePulseFromVector spe (Detsim.chargeFluctuation rd d.charge rms) cc)) with
  | .error err => .error err
  | .ok fee => if low.length ≠ fee.length then .error .valueError
    else match signalLpf e (decimate (spePulseFromVector spe (Detsim.chargeFluctuation rd d.charge rms) cc)) with
      | .error err => .error err
      | .ok lpf => .ok (List.zipWith (fun s n : ℚ => offset - s + n) (List.zipWith (fun s n : ℚ => s * toAdc + n) fee d.daq) low, lpf.map fun s => s * toAdc)

/-- `simulate_pmt_response` (sensor_functions.py:34-77): one by one the electronics, `cc` and `pe_rms` of each PMT, what is drawn for it, its low frequency noise and its photoelectrons. -/
def simulatePmts (spe : List ℚ) (decimate : List ℚ → List ℚ) (toAdc offset : ℚ) (low : Nat → Except PyErr (List ℚ)) (pmts : List (Electronics × ℚ × ℚ × Draws × List ℚ)) : Except PyErr (List (List ℚ × List ℚ)) :=
  pmts.zipIdx.mapM fun p => match low p.2 with
    | .error err => .error err
    | .ok l => simulatePmt spe decimate toAdc offset p.1.1 p.1.2.1 p.1.2.2.1 p.1.2.2.2.1 l p.1.2.2.2.2

/-! ### Low frequency noise (`sierpe/low_frequency_noise.py`) -/

/-- `PMTFEMapping`. -/
structure BoxRow where
  runs : LoadDb.Runs
  sensor : Int
  box : Nat
deriving DecidableEq

/-- `PMTFELowFrequencyNoise`: a frequency and the magnitude in each box. -/
structure FreqRow where
  runs : LoadDb.Runs
  freq : ℚ
  mags : List ℚ
deriving DecidableEq

/-- The first result of `PMTLowFrequencyNoise` (load_db.py:126-129). -/
def boxes (run : Int) (rows : List BoxRow) : List BoxRow := (rows.filter fun r => LoadDb.openRun run.natAbs r.runs).insertionSort fun a b => a.sensor ≤ b.sensor

/-- The second result (load_db.py:139-142); the order of the rows is not asked for, the model keeps that of the table. -/
def freqs (run : Int) (rows : List FreqRow) : List FreqRow := rows.filter fun r => LoadDb.openRun run.natAbs r.runs

/-- `frequency_low`, `frequency_high` (low_frequency_noise.py:48-49): the limits of the frequencies that are drawn. -/
def limits (fs : List ℚ) : Except PyErr (List (ℚ × ℚ)) :=
  match fs with
  | f :: g :: _ => .ok (fs.map fun x => (x - (g - f) / 2, x + (g - f) / 2))
  | _ => .error .indexError

/-- `frequency_contribution` (low_frequency_noise.py:14-25). -/
def contribution (cos : ℚ → ℚ) (times : List ℚ) (r m p : ℚ) : List ℚ := times.map fun t => 2 * m * cos (r * t + p)

/-- `map(freq_contrib, rot_frequencies, magnitudes, phases)`. -/
def contributions (cos : ℚ → ℚ) (times : List ℚ) : List ℚ → List ℚ → List ℚ → List (List ℚ)
  | r :: rs, m :: ms, p :: ps => contribution cos times r m p :: contributions cos times rs ms ps
  | _, _, _ => []

/-- `noise` (low_frequency_noise.py:66-90), given the rotational frequencies, magnitudes (a row per frequency) and phases drawn; `np.tile`, the transposition, and the sum over the middle axis. -/
def boxNoise (cos : ℚ → ℚ) (times : List ℚ) (nbox : Nat) (rots : List ℚ) (mags : List (List ℚ)) (phases : List ℚ) : List (List ℚ) :=
  (List.range nbox).map fun b => (List.range times.length).map fun t =>
    ((List.range rots.length).map fun f =>
      ((contributions cos times ((List.replicate nbox rots).flatten) ((List.range nbox).flatMap fun b => mags.map fun row => row.getD b 0) phases).getD (b * rots.length + f) []).getD t 0).sum

/-- `get_low_frequency_noise` (low_frequency_noise.py:92-96). -/
def lowNoise (mapping : List BoxRow) (sensors : List Int) (noise : List (List ℚ)) (pmt : Nat) : Except PyErr (List ℚ) :=
  match sensors[pmt]? with
  | none => .error .indexError
  | some s => match mapping.find? fun r => decide (r.sensor = s) with
    | none => .error .indexError
    | some r => match noise[r.box]? with
      | none => .error .indexError
      | some n => .ok n

end Verif.Fee
