import Verif.Model.Fee
import Mathlib.Data.Nat.Factorial.Basic
/-!
# Model of `calib/spe_response.py` and of `poisson_factor` (`core/stat_functions.py`)

Simplifications: `p0` stands for `exp(-mean)`; the gaussian of unit area is an arbitrary function of mean, variance and position (the code gives an infinity
when the deviation is not positive: not modelled); the dark spectrum has a sum different from zero; shapes that do not agree are an error (NumPy
broadcasts arrays of one element).  Loops that may not end have fuel: `none` is that it is not over yet.
-/
namespace Verif.Spe
open Verif

/-- `get_padding` (spe_response.py:10-16). -/
def getPadding (bins : List ℚ) : Nat × Nat :=
  let diff : Int := ((bins.filter fun b => decide (b ≤ 0)).length : Int) - ((bins.filter fun b => decide (b > 0)).length : Int)
  ((min diff 0).natAbs, (max diff 0).natAbs)

/-- `poisson_factor` (stat_functions.py:9-14). -/
def poissonFactor (p0 : ℚ) (k : Nat) (mean : ℚ) : ℚ := mean ^ k * p0 / (k.factorial : ℚ)

/-- The loop of `number_of_gaussians` (spe_response.py:25-29). -/
def gaussLoop (minIntegral : ℚ) (integral : Nat → ℚ) : Nat → Nat → List ℚ → Option (Nat × List ℚ)
  | 0, _, _ => none
  | fuel + 1, k, acc => if integral k ≤ minIntegral then some (k, acc) else gaussLoop minIntegral integral fuel (k + 1) (acc ++ [integral k])

/-- `number_of_gaussians` (spe_response.py:19-29). -/
def numberOfGaussians (fuel : Nat) (minIntegral scale p0 mean : ℚ) : Option (Nat × List ℚ) :=
  gaussLoop minIntegral (fun k => scale * poissonFactor p0 k mean) fuel 0 []

/-- `suppress_negative_energy_contribution` (spe_response.py:32-37). -/
def suppressNegative (xs ys : List ℚ) : List ℚ := List.zipWith (fun x y => if x ≥ 0 then y else 0) xs ys

/-- Which gaussians are added. -/
inductive Mode where
  | number (n : Int)
  | area (min : ℚ)
deriving DecidableEq, Repr

/-- The check of the arguments of `poisson_scaled_gaussians` (spe_response.py:90-94). -/
def mode (nGaussians : Option Int) (minIntegral : Option ℚ) : Except PyErr Mode :=
  match nGaussians, minIntegral with
  | none, none => .error .valueError
  | some _, some _ => .error .valueError
  | some n, none => .ok (.number n)
  | none, some m => .ok (.area m)

/-- The parameters of the spectrum (spe_response.py:97-100). -/
structure Pars where
  scale : ℚ
  p0 : ℚ
  mean : ℚ
  pedestalMean : ℚ
  pedestalSigma : ℚ
  gain : ℚ
  gainSigma : ℚ

/-- `ngaussians` and `integrals` (spe_response.py:125-130). -/
def integrals (fuel : Nat) (m : Mode) (p : Pars) : Option (Int × List ℚ) :=
  match m with
  | .number n => some (n, (List.range n.toNat).map fun k : Nat => p.scale * poissonFactor p.p0 k p.mean)
  | .area min => (numberOfGaussians fuel min p.scale p.p0 p.mean).map fun r => ((r.1 : Int), r.2)

/-- `spectrum_component` (spe_response.py:132-138), `G` being the gaussian. -/
def component (G : ℚ → ℚ → ℚ → ℚ) (xs : List ℚ) (p : Pars) (areas : List ℚ) (i : Nat) : List ℚ :=
  let g := xs.map (G (p.pedestalMean + i * p.gain) (p.pedestalSigma ^ 2 + i * p.gainSigma ^ 2))
  let g := if i ≠ 0 then suppressNegative xs g else g
  g.map fun y => areas.getD i 0 * y

/-- The addition of an array to the number 0 (`none`) or to an array. -/
def addArray : Option (List ℚ) → List ℚ → Option (List ℚ)
  | none, c => some c
  | some a, c => some (List.zipWith (· + ·) a c)

/-- `sum` of arrays (spe_response.py:140); of none of them it is the number 0, `none` here. -/
def sumArrays (cs : List (List ℚ)) : Option (List ℚ) := cs.foldl addArray none

/-- `sum_of_gaussians` (spe_response.py:97-140): the spectrum and the number of gaussians. -/
def sumOfGaussians (G : ℚ → ℚ → ℚ → ℚ) (fuel first : Nat) (m : Mode) (xs : List ℚ) (p : Pars) : Option (Option (List ℚ) × Int) :=
  (integrals fuel m p).map fun r => (sumArrays ((List.range' first (r.1.toNat - first)).map (component G xs p r.2)), r.1)

/-- `pedestal + signal`, with a signal that may be the number 0 (spe_response.py:204, 278). -/
def addPedestal (pedestal : List ℚ) (signal : Option (List ℚ)) : Except PyErr (List ℚ) :=
  match signal with
  | none => .ok pedestal
  | some s => if s.length = pedestal.length then .ok (List.zipWith (· + ·) pedestal s) else .error .valueError

/-- `scaled_dark_pedestal` (spe_response.py:145-205). -/
def scaledDarkPedestal (G : ℚ → ℚ → ℚ → ℚ) (fuel : Nat) (dark : List ℚ) (minIntegral : ℚ) (xs : List ℚ) (p : Pars) : Option (Except PyErr (List ℚ × Int)) :=
  (sumOfGaussians G fuel 1 (.area minIntegral) xs p).map fun r =>
    match addPedestal (dark.map fun d => p.p0 * d) r.1 with
    | .error e => .error e
    | .ok out => .ok (out, r.2)

/-- `np.convolve(a, v, "same")`: the centre of the full convolution, with the length of the longest. -/
def sameConv (a v : List ℚ) : Except PyErr (List ℚ) :=
  if a.length = 0 ∨ v.length = 0 then .error .valueError
  else .ok (((Fee.convolve a v).drop ((min a.length v.length - 1) / 2)).take (max a.length v.length))

/-- `np.pad(..., pad, "constant", constant_values=0)`. -/
def padZeros (pad : Nat × Nat) (xs : List ℚ) : List ℚ := List.replicate pad.1 0 ++ xs ++ List.replicate pad.2 0

/-- The loop of `dark_convolution` (spe_response.py:274-276), over the numbers left: `convolved` and `signal` change. -/
def convLoop (pe areas : List ℚ) (start stop : Nat) : List Nat → List ℚ → List ℚ → Except PyErr (List ℚ)
  | [], _, signal => .ok signal
  | i :: is, convolved, signal => match sameConv convolved pe with
    | .error e => .error e
    | .ok conv =>
      let piece := (conv.take stop).drop start
      if piece.length = signal.length then convLoop pe areas start stop is conv (List.zipWith (fun s c => s + areas.getD i 0 * c) signal piece)
      else .error .valueError

/-- `dark_convolution` (spe_response.py:208-279). -/
def darkConvolution (G : ℚ → ℚ → ℚ → ℚ) (fuel : Nat) (bins dark : List ℚ) (minIntegral : ℚ) (xs : List ℚ) (scale p0 mean gain gainSigma : ℚ) :
    Option (Except PyErr (List ℚ × Nat)) :=
  let pad := getPadding bins
  let darkNorm := padZeros pad (dark.map fun d => d / dark.sum)
  let pe := padZeros pad (suppressNegative xs (xs.map (G gain (gainSigma ^ 2))))
  (numberOfGaussians fuel minIntegral scale p0 mean).map fun r =>
    match convLoop pe r.2 pad.1 (darkNorm.length - pad.2) (List.range' 1 (r.1 - 1)) darkNorm (dark.map fun _ => 0) with
    | .error e => .error e
    | .ok signal => .ok (List.zipWith (· + ·) (dark.map fun d => p0 * d) signal, r.1)

end Verif.Spe
