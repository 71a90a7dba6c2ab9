import Verif.Model.Core
import Verif.Numpy
import Mathlib.Data.Rat.Floor
/-!
# Model of `invisible_cities/core/random_sampling.py`

`np.inf` is `none`.  The values drawn by the generator of random numbers are arguments: positions of bins for
`np.random.choice` and deviations for `np.random.uniform`.  Matrices are lists of rows, one per sensor.  `apply_along_axis` on no sensors
(a `ValueError`) is not modelled.  `fftconvolve` is the exact convolution.  The caches of `lru_cache` are not modelled.
-/
namespace Verif.Sampling

/-- `normalize_distribution` (random_sampling.py:15-17). -/
def normalize (w : List ℚ) : List ℚ := if w.sum ≠ 0 then w.map (· / w.sum) else w

/-- `np.cumsum`, from the partial sum `acc`. -/
def cumsumFrom (acc : ℚ) : List ℚ → List ℚ
  | [] => []
  | x :: xs => (acc + x) :: cumsumFrom (acc + x) xs

/-- `np.cumsum` (random_sampling.py:99). -/
def cumsum (xs : List ℚ) : List ℚ := cumsumFrom 0 xs

/-- `inverse_cdf_index` (random_sampling.py:37-39): `argwhere(...)[0, 0]` is an `IndexError` when there is none. -/
def inverseCdfIndex (y : List ℚ) (p : ℚ) : Except PyErr Nat :=
  match (whereIdx (fun v => decide (p ≤ v)) y).head? with
  | none => .error .indexError
  | some i => .ok i

/-- `inverse_cdf` (random_sampling.py:42-47). -/
def inverseCdf (x y : List ℚ) (p : ℚ) : Except PyErr (Option ℚ) :=
  if y.all (fun v => decide (v = 0)) then .ok none
  else match inverseCdfIndex y p with
    | .error e => .error e
    | .ok i => match x[i]? with
      | none => .error .indexError
      | some v => .ok (some v)

/-- `general_thresholds` (random_sampling.py:75-101). -/
def generalThresholds (xbins : List ℚ) (probs : List (List ℚ)) (cut : ℚ) : Except PyErr (List (Option ℚ)) :=
  probs.mapM fun row => inverseCdf xbins (cumsum row) cut

/-- `np.round` to the nearest integer, ties to even. -/
def roundEven (x : ℚ) : Int :=
  if x - ⌊x⌋ < 1 / 2 then ⌊x⌋ else if 1 / 2 < x - ⌊x⌋ then ⌊x⌋ + 1 else if ⌊x⌋ % 2 = 0 then ⌊x⌋ else ⌊x⌋ + 1

/-- `np.round(x, 5)` (random_sampling.py:59-65). -/
def round5 (x : ℚ) : ℚ := roundEven (x * 100000) / 100000

/-- `int(abs(end - edge) // width)` (random_sampling.py:61-62). -/
def padCount (target edge width : ℚ) : Nat := ⌊|target - edge| / width⌋.toNat

/-- The two sides of `np.pad(..., 'linear_ramp')`: `linspace(end, edge, num=pad, endpoint=False)`, reversed on the right. -/
def leftRamp (last edge : ℚ) (pad : Nat) : List ℚ := (List.range pad).map fun k : Nat => last + k * ((edge - last) / pad)
def rightRamp (last edge : ℚ) (pad : Nat) : List ℚ := (leftRamp last edge pad).reverse

/-- The padding on each side (random_sampling.py:60-62); `np.diff(bins)[0]` is an `IndexError` for fewer than two bins. -/
def padding (bins : List ℚ) : Except PyErr (ℚ × Nat × Nat) :=
  match bins[0]?, bins[1]?, bins.getLast? with
  | some a, some b, some z => .ok (round5 (b - a), padCount (-100) a (round5 (b - a)), padCount 100 z (round5 (b - a)))
  | _, _, _ => .error .indexError

/-- The padded bins (random_sampling.py:64-67). -/
def padBins (bins : List ℚ) (width : ℚ) (p q : Nat) : List ℚ :=
  leftRamp (round5 (bins.headD 0 - p * width)) (bins.headD 0) p ++ bins ++
    rightRamp (round5 (bins.getLastD 0 + q * width)) (bins.getLastD 0) q

/-- A padded row (random_sampling.py:69-70). -/
def padRow (p q : Nat) (row : List ℚ) : List ℚ := List.replicate p 0 ++ row ++ List.replicate q 0

/-- `pad_pdfs` (random_sampling.py:50-72). -/
def padPdfs (bins : List ℚ) (spectra : List (List ℚ)) : Except PyErr (List ℚ × List (List ℚ)) :=
  match padding bins with
  | .error e => .error e
  | .ok (w, p, q) => .ok (padBins bins w p q, spectra.map (padRow p q))

/-- The noise sampler (random_sampling.py:104-156). -/
structure Sampler where
  probs : List (List ℚ)
  xbins : List ℚ
  baselines : List ℚ
  active : List ℚ
  adcToPes : List ℚ

/-- `mask` (random_sampling.py:158-160): each row times the `Active` column. -/
def maskRows (active : List ℚ) (rows : List (List ℚ)) : List (List ℚ) := List.zipWith (fun a row => row.map (· * a)) active rows

/-- `NoiseSampler.__init__` (random_sampling.py:136-147). -/
def Sampler.new (probs : List (List ℚ)) (xbins baselines active adcToPes : List ℚ) : Sampler :=
  ⟨(maskRows active probs).map normalize, xbins, baselines, active, adcToPes⟩

/-- `sample_discrete_distribution` (random_sampling.py:20-27), given the positions drawn. -/
def sampleDiscrete (centres weights : List ℚ) (draws : List Nat) : List ℚ :=
  if weights.all (fun v => decide (v = 0)) then draws.map fun _ => 0 else draws.map fun i : Nat => centres.getD i 0

/-- `sample += self._smearer()` when the sampler smears (random_sampling.py:165-166): the deviations drawn, none when it does not smear. -/
def smeared (xs : List ℚ) : Option (List ℚ) → List ℚ
  | none => xs
  | some d => List.zipWith (· + ·) xs d

/-- The samples of one sensor (random_sampling.py:164-168). -/
def sampleRow (s : Sampler) (k : Nat) (draws : List Nat) (dev : Option (List ℚ)) : List ℚ :=
  (smeared (sampleDiscrete s.xbins (s.probs.getD k []) draws) dev).map fun v =>
    (s.adcToPes.getD k 0 * v + s.baselines.getD k 0) * s.active.getD k 0

/-- `sample` (random_sampling.py:162-168). -/
def sample (s : Sampler) (draws : List (List Nat)) (dev : Option (List (List ℚ))) : List (List ℚ) :=
  (List.range s.active.length).map fun k : Nat => sampleRow s k (draws.getD k []) (dev.map fun d => d.getD k [])

/-- `compute_thresholds` (random_sampling.py:170-189), with a positive constant. -/
def computeThresholds (s : Sampler) (cut pesToAdc : ℚ) : Except PyErr (List (Option ℚ)) :=
  match generalThresholds s.xbins s.probs cut with
  | .error e => .error e
  | .ok l => .ok (l.map (Option.map (· * pesToAdc)))

/-- The value at `k` of the full convolution. -/
def convAt (a b : List ℚ) (k : Nat) : ℚ := ((List.range a.length).map fun i : Nat => if i ≤ k then a.getD i 0 * b.getD (k - i) 0 else 0).sum

/-- `fftconvolve(a, b, "same")` (random_sampling.py:276-279): the centred part of the full convolution with the length of `a`. -/
def convSame (a b : List ℚ) : List ℚ := (List.range a.length).map fun k : Nat => convAt a b (k + (b.length - 1) / 2)

/-- `multi_sample_distributions(width + 1)` (random_sampling.py:255-281), from the padded rows. -/
def multiRows (padded : List (List ℚ)) : Nat → List (List ℚ)
  | 0 => padded
  | n + 1 => List.zipWith convSame padded (multiRows padded n)

/-- `DarkModel` (types/symbols.py:26-28). -/
inductive DarkModel where
  | mean
  | threshold
deriving DecidableEq

/-- `dark_pes[active == 0] = 0` (random_sampling.py:242). -/
def zeroMasked (active : List ℚ) (dark : List (Option ℚ)) : List (Option ℚ) := List.zipWith (fun a d => if a = 0 then some 0 else d) active dark

/-- The mean of one active sensor (random_sampling.py:245-251). -/
def meanOf (xbins : List ℚ) (x : ℚ × List ℚ) : Except PyErr (Option ℚ) :=
  if x.1 = 0 then .ok (some 0)
  else match Core.average xbins x.2 with
    | .error e => .error e
    | .ok m => .ok (some m)

/-- `dark_expectation(width + 1, model)` (random_sampling.py:224-252). -/
def darkExpectation (s : Sampler) (width : Nat) (m : DarkModel) : Except PyErr (List (Option ℚ)) :=
  match padPdfs s.xbins s.probs with
  | .error e => .error e
  | .ok (bins, rows) => match m with
    | .threshold => match generalThresholds bins ((maskRows s.active (multiRows rows width)).map normalize) (99 / 100) with
      | .error e => .error e
      | .ok l => .ok (zeroMasked s.active l)
    | .mean => (s.active.zip (multiRows rows width)).mapM (meanOf bins)

end Verif.Sampling
