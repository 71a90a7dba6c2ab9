import Verif.Base
import Verif.Model.Core
import Verif.Model.Voxels
import Verif.Model.Wfm
import Mathlib.Algebra.Order.Field.Basic
import Mathlib.Data.List.Sort
/-!
# Model of the fits of the lifetime and of the drift velocity (`reco/krmap_functions.py`, `core/fit_functions.py`, `icaros/krmap_functions.py`,
`icaros/lifetime_vdrift_functions.py`)

The numbers are those of any ordered field, with the functions `exp`, `log` and the square root as parameters: the theorems are for the real functions.  The values are finite; a result that is
infinite or NaN is `none`.  The minimisation (`scipy.optimize.curve_fit`) is a parameter.
-/
namespace Verif.LifetimeFit
open Verif (PyErr)

/-- `KrFitFunction` (types/symbols.py). -/
inductive FitType
  | linear | expo | logLin
deriving DecidableEq, Repr

/-- The columns `DT` and `S2e` of an event. -/
structure Evt (K : Type) where
  dt : K
  energy : K
deriving DecidableEq, Repr

section
variable {K : Type} [Field K] [LinearOrder K]

/-- `x.min()`: `ValueError` without values. -/
def minOf : List K → Except PyErr K
  | [] => .error .valueError
  | x :: xs => .ok (xs.foldl min x)

/-- `x.max()`. -/
def maxOf : List K → Except PyErr K
  | [] => .error .valueError
  | x :: xs => .ok (xs.foldl max x)

/-- `lin_seed` (reco/krmap_functions.py:25-35) from the extremes: intercept and slope. -/
def linSeedOf (x0 x1 y0 y1 : K) (y : List K) : K × K :=
  if x1 = x0 then (y.sum / y.length, 0) else (y0 - (y1 - y0) / (x1 - x0) * x0, (y1 - y0) / (x1 - x0))

/-- `lin_seed` (reco/krmap_functions.py:9-35). -/
def linSeed (x y : List K) : Except PyErr (K × K) :=
  match minOf x, maxOf x, minOf y, maxOf y with
  | .ok x0, .ok x1, .ok y0, .ok y1 => .ok (linSeedOf x0 x1 y0 y1 y)
  | _, _, _, _ => .error .valueError

/-- The order of the pairs in `sorted` (reco/krmap_functions.py:54). -/
def pairLe (a b : K × K) : Prop := a.1 < b.1 ∨ (a.1 = b.1 ∧ a.2 ≤ b.2)

instance (a b : K × K) : Decidable (pairLe a b) := by unfold pairLe; infer_instance

/-- `sorted(zip(x, y))` (reco/krmap_functions.py:54). -/
def sortedPairs (x y : List K) : List (K × K) := (x.zip y).insertionSort pairLe

/-- `expo_seed` (reco/krmap_functions.py:38-62): the value and the lifetime, infinite (`none`) when the first and the last value are the same.  The unpacking of `zip` is `ValueError` without values. -/
def expoSeed (log : K → K) (x y : List K) : Except PyErr (K × Option K) :=
  match (sortedPairs x y).head?, (sortedPairs x y).getLast? with
  | some a, some b => if a.2 ≤ 0 ∨ b.2 ≤ 0 then .error .valueError
      else .ok (a.2, if log (b.2 / a.2) = 0 then none else some (-b.1 / log (b.2 / a.2)))
  | _, _ => .error .valueError

/-- `select_fit_variables` (reco/krmap_functions.py:65-85). -/
def fitVariables (log : K → K) (t : FitType) (evts : List (Evt K)) : List K × List K :=
  match t with
  | .linear => (evts.map Evt.dt, evts.map Evt.energy)
  | .expo => (evts.map Evt.dt, evts.map Evt.energy)
  | .logLin => (evts.map Evt.dt, evts.map fun e => -log e.energy)

/-- `polynom` (fit_functions.py:122-123): Horner's rule of `polyval`, for some coefficients. -/
def polynom (x : K) (coeffs : List K) : K := coeffs.foldr (fun c acc => c + acc * x) 0

/-- `expo` (fit_functions.py:126-127). -/
def expo (exp : K → K) (x const mean : K) : K := const * exp (x / mean)

/-- `sigmoid` (fit_functions.py:134-160). -/
def sigmoid (exp : K → K) (x scale inflection slope offset : K) : K := scale / (1 + exp (-slope * (x - inflection))) + offset

/-- The function of `get_function_and_seed_lt` (reco/krmap_functions.py:105-110), with its two parameters. -/
def fitFunction (exp : K → K) (t : FitType) (x p q : K) : K :=
  match t with
  | .linear => polynom x [p, q]
  | .logLin => polynom x [p, q]
  | .expo => expo exp x p (-q)

/-- The seed of `get_function_and_seed_lt` (reco/krmap_functions.py:108-110). -/
def seedFunction (log : K → K) (t : FitType) (x y : List K) : Except PyErr (K × Option K) :=
  match t with
  | .expo => expoSeed log x y
  | _ => match linSeed x y with
    | .error e => .error e
    | .ok s => .ok (s.1, some s.2)

/-- The output of `transform_parameters` (reco/krmap_functions.py:113-150): energy and lifetime, their errors and their covariance. -/
structure Lifetime (K : Type) where
  e0 : K
  ue0 : K
  lt : Option K
  ult : Option K
  cov : Option K

/-- `transform_parameters` (reco/krmap_functions.py:134-150): the lifetime of a slope 0 is infinite. -/
def transform (exp : K → K) (a b ua ub cov : K) : Lifetime K :=
  ⟨exp (-a), |exp (-a) * ua|,
   if b = 0 then none else some (1 / b),
   if b = 0 then none else some |(1 / b) ^ 2 * ub|,
   if b = 0 then none else some (exp (-a) * (1 / b) ^ 2 * cov)⟩

end

/-! ### Gaussian fits and drift velocity -/

/-- `np.histogram` (icaros/krmap_functions.py:475, lifetime_vdrift_functions.py:74): the counts, for edges that do not decrease. -/
def counts (edges : List ℚ) (data : List ℚ) : List Nat :=
  (List.range (edges.length - 1)).map fun b => data.countP fun d => decide (Voxels.histBin edges d = some b)

/-- `poisson_sigma` (stat_functions.py:17-24), with the square root as a parameter. -/
def poissonSigma (sqrt : Nat → ℚ) (y : List Nat) : List ℚ := y.map fun k => if k = 0 then 3 else sqrt k

/-- The largest of the counts (`y.max()`). -/
def maxCount : List Nat → Except PyErr Nat
  | [] => .error .valueError
  | x :: xs => .ok (xs.foldl max x)

/-- The smallest of the counts (`np.min(y)`). -/
def minCount : List Nat → Except PyErr Nat
  | [] => .error .valueError
  | x :: xs => .ok (xs.foldl min x)

/-- `gauss_seed` (icaros/krmap_functions.py:29-52): area, mean and standard deviation.  `root` is the square root of 2π. -/
def gaussSeed (root : ℚ) (x : List ℚ) (y : List Nat) (rel : ℚ) : Except PyErr (ℚ × ℚ × ℚ) :=
  match maxCount y with
  | .error e => .error e
  | .ok m => .ok (m * root * (rel * Wfm.median x), Wfm.median x, rel * Wfm.median x)

/-- The argument `bins` of `quick_gauss_fit`. -/
inductive Bins
  | number (n : Nat)
  | edges (e : List ℚ)

/-- The edges of `np.histogram`: with a number, from the smallest to the largest value (0 to 1 without values, half a unit around the only value). -/
def edgesOf (data : List ℚ) : Bins → Except PyErr (List ℚ)
  | .edges e => if (e.zip e.tail).any (fun p => decide (p.2 < p.1)) then .error .valueError else .ok e
  | .number 0 => .error .valueError
  | .number (n + 1) => match data with
    | [] => .ok (Voxels.linspace 0 1 (n + 1))
    | d :: ds => if ds.foldl min d = ds.foldl max d then .ok (Voxels.linspace (d - 1 / 2) (d + 1 / 2) (n + 1))
        else .ok (Voxels.linspace (ds.foldl min d) (ds.foldl max d) (n + 1))

/-- The minimisation: from the centres, the counts, the seed and the errors of the counts (if any), the parameters and their errors. -/
abbrev Fit (P : Type) := List ℚ → List Nat → P → Option (List ℚ) → Except PyErr (P × P)

/-- The error of a minimisation that does not converge. -/
def runtimeError : PyErr := .other "RuntimeError"

/-- `quick_gauss_fit` (icaros/krmap_functions.py:456-489) from the histogram: `RuntimeError` if some parameter is that of the seed. -/
def quickGaussOf (root : ℚ) (sqrt : Nat → ℚ) (fit : Fit (ℚ × ℚ × ℚ)) (edges : List ℚ) (data : List ℚ) (sigma : Bool) : Except PyErr ((ℚ × ℚ × ℚ) × (ℚ × ℚ × ℚ)) :=
  match gaussSeed root (Core.shiftToBinCenters edges) (counts edges data) (2 / 100) with
  | .error e => .error e
  | .ok seed => match fit (Core.shiftToBinCenters edges) (counts edges data) seed (if sigma then some (poissonSigma sqrt (counts edges data)) else none) with
    | .error e => .error e
    | .ok f => if f.1.1 ≠ seed.1 ∧ f.1.2.1 ≠ seed.2.1 ∧ f.1.2.2 ≠ seed.2.2 then .ok f else .error runtimeError

/-- `quick_gauss_fit` (icaros/krmap_functions.py:456-489). -/
def quickGauss (root : ℚ) (sqrt : Nat → ℚ) (fit : Fit (ℚ × ℚ × ℚ)) (data : List ℚ) (bins : Bins) (sigma : Bool) : Except PyErr ((ℚ × ℚ × ℚ) × (ℚ × ℚ × ℚ)) :=
  match edgesOf data bins with
  | .error e => .error e
  | .ok edges => quickGaussOf root sqrt fit edges data sigma

/-- The seed of the drift velocity (lifetime_vdrift_functions.py:77): scale, inflection, slope and offset. -/
def driftSeed (edges : List ℚ) (y : List Nat) : Option (ℚ × ℚ × ℚ × ℚ) → Except PyErr (ℚ × ℚ × ℚ × ℚ)
  | some s => .ok s
  | none => match maxCount y, minCount y with
    | .ok a, .ok b => .ok (a, edges.sum / edges.length, 1 / 2, b)
    | _, _ => .error .valueError

/-- `compute_drift_v` (lifetime_vdrift_functions.py:83-84): velocity and error from the inflection and its error; infinite for 0. -/
def velocity (p u : ℚ) : Option ℚ × Option ℚ :=
  if p = 0 then (none, none) else (some ((118737 / 100 + 10 / 2) / p), some ((118737 / 100 + 10 / 2) / p / p * u))

/-- `compute_drift_v` (lifetime_vdrift_functions.py:53-88): NaN when the minimisation does not converge. -/
def driftV (sqrt : Nat → ℚ) (fit : Fit (ℚ × ℚ × ℚ × ℚ)) (data edges : List ℚ) (seed : Option (ℚ × ℚ × ℚ × ℚ)) : Except PyErr (Option ℚ × Option ℚ) :=
  match edgesOf data (.edges edges) with
  | .error e => .error e
  | .ok es => match driftSeed es (counts es data) seed with
    | .error e => .error e
    | .ok s => match fit (Core.shiftToBinCenters es) (counts es data) s (some (poissonSigma sqrt (counts es data))) with
      | .error e => if e = runtimeError then .ok (none, none) else .error e
      | .ok f => .ok (velocity f.1.2.1 f.2.2.1)

end Verif.LifetimeFit
