import Verif.Model.Wfm
import Verif.Model.Sampling
/-!
# The choice of the SiPM selection of irene and hypathia (`cities/components.py`)
-/
namespace Verif.SipmSelect

/-- `SiPMThreshold` (types/symbols.py:149-151), or any other value of the parameter. -/
inductive ThrType where
  | common
  | individual
  | other
deriving DecidableEq

/-- A threshold: a number, or an array with a value per SiPM (`none` stands for infinity). -/
inductive Thr where
  | one (t : ℚ)
  | each (ts : List (Option ℚ))
deriving DecidableEq

/-- `get_actual_sipm_thr` (components.py:313-327).  `noise` stands for the `NoiseSampler` of the detector and run. -/
def actualThr (ty : ThrType) (thr : ℚ) (noise : Sampling.Sampler) : Except PyErr Thr :=
  match ty with
  | .common => .ok (.one thr)
  | .individual =>
    match Sampling.computeThresholds noise thr 1 with
    | .error e => .error e
    | .ok ts => .ok (.each ts)
  | .other => .error .valueError

/-- The thresholds of the rows (wfm_functions.py:154-157): `np.full` for a number, `np.reshape` for an array. -/
def thrRows (n : Nat) : Thr → Except PyErr (List (Option ℚ))
  | .one t => .ok (List.replicate n (some t))
  | .each ts => if ts.length ≠ n then .error .valueError else .ok ts

/-- `np.where(wfs > thr, wfs, 0)` for a sample (wfm_functions.py:159). -/
def keepOver (t : Option ℚ) (x : ℚ) : ℚ :=
  match t with
  | none => 0
  | some t => if t < x then x else 0

/-- The function returned by `threshold_sipm_selection` (components.py:849-850; wfm_functions.py:182-202). -/
def thresholdSel (t : Thr) (integration : ℚ) (m : Mat) : Except PyErr (List Nat × Mat) :=
  match thrRows m.rows.length t with
  | .error e => .error e
  | .ok ts => Peaks.selectWfsAboveTimeIntegratedThr ⟨List.zipWith (fun r t => r.map (keepOver t)) m.rows ts, m.ncols⟩ integration

/-- `threshold_sipm_selection` (components.py:832-852): without a detector the type of threshold is not looked at. -/
def thresholdSelection (ty : ThrType) (thr integration : ℚ) (noise : Option Sampling.Sampler) : Except PyErr (Mat → Except PyErr (List Nat × Mat)) :=
  match noise with
  | none => .ok (thresholdSel (.one thr) integration)
  | some s =>
    match actualThr ty thr s with
    | .error e => .error e
    | .ok t => .ok (thresholdSel t integration)

/-- `pyrrha_sipm_selection` (components.py:855-874; wfm_functions.py:321-349); `pos` are the positions of the SiPMs of the table (all of them) and `std` stands for `np.std`.
If the numbers of waveforms and of positions are different the loop of `kill_isolated_sipms` fails for the first SiPM selected.  Simplification: with just one waveform numpy
could broadcast it. -/
def pyrrhaSel (std : List ℚ → ℚ) (method : String) (nsigma proximity padding : ℚ) (pos : List Wfm.Pos) (m : Mat) : Except PyErr (List Nat × Mat) :=
  match Wfm.chooseMethod std m method nsigma with
  | .error e => .error e
  | .ok first =>
    if first.length = pos.length then Wfm.spatialSelection m first pos proximity padding
    else if first.any (fun b => b) then .error .valueError
    else .ok ([], ⟨[], m.ncols⟩)

/-- `no_cut_sipm_selection` (components.py:877-884). -/
def noCutSel (m : Mat) : Except PyErr (List Nat × Mat) := .ok (List.range m.rows.length, m)

/-- The algorithms, with their parameters: `CutAlgo` (types/symbols.py:158-161), or any other value. -/
inductive Algo where
  | threshold (ty : ThrType) (thr thrS2 : ℚ) (noise : Option Sampling.Sampler)
  | pyrrha (method : String) (nsigma proximity padding : ℚ) (pos : List Wfm.Pos)
  | noCut
  | other

/-- `select_cutting_algorithm` (components.py:821-829). -/
def selectAlgorithm (std : List ℚ → ℚ) : Algo → Except PyErr (Mat → Except PyErr (List Nat × Mat))
  | .threshold ty thr thrS2 noise => thresholdSelection ty thr thrS2 noise
  | .pyrrha method nsigma proximity padding pos => .ok (pyrrhaSel std method nsigma proximity padding pos)
  | .noCut => .ok noCutSel
  | .other => .error .valueError

end Verif.SipmSelect
