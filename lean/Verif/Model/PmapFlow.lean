import Verif.Model.Dataflow
/-!
# Model of `compute_and_write_pmaps` (components.py:1300-1346) and of the pipeline of irene (cities/irene.py:148-165)

The user functions (deconvolution, calibration, peak search) are parameters; the components are those of the dataflow model.
The sinks that write are assumed not to raise.  Strings and dictionaries are replaced by a record with the fields that the components read or write.
-/
namespace Verif.PmapFlow
open Verif.Dataflow

/-- The fields of the event dictionary used by the pipeline (components.py:1307-1336): `event_number`, the waveforms (from which the
indices are computed), and the three fields written by `compute_and_write_pmaps`. -/
structure Item (W P : Type) where
  event : Int
  wfs : W
  indicesPass : Option Nat := none
  pmap : Option P := none
  pmapsPass : Option Bool := none
deriving DecidableEq

/-- The functions of the pipeline: number of S1 and S2 indices of the waveforms, optional calibration of the SiPMs, construction of the
PMap, and its numbers of S1s and S2s. -/
structure Fns (W P : Type) where
  s1Size : W → Nat
  s2Size : W → Nat
  sipmCal : Option (W → Except Exc W)
  build : W → Except Exc P
  nS1 : P → Nat
  nS2 : P → Nat

/-- `check_nonempty_indices` (components.py:481-482): Python's `and` of two sizes. -/
def checkNonemptyIndices (s1 s2 : Nat) : Nat := if s1 ≠ 0 then s2 else s1

/-- `check_empty_pmap` (components.py:485-486). -/
def checkEmptyPmap {W P : Type} (f : Fns W P) (p : P) : Bool := decide (f.nS1 p ≠ 0) || decide (f.nS2 p ≠ 0)

/-- `indices_pass` (components.py:1306-1308). -/
def indicesPass {W P : Type} (f : Fns W P) (x : Item W P) : Except Exc (Item W P) :=
  .ok { x with indicesPass := some (checkNonemptyIndices (f.s1Size x.wfs) (f.s2Size x.wfs)) }

/-- `sipm_rwf_to_cal` (irene.py:119-120): `item="sipm"`. -/
def calibrate {W P : Type} (g : W → Except Exc W) (x : Item W P) : Except Exc (Item W P) :=
  match g x.wfs with
  | .error e => .error e
  | .ok w => .ok { x with wfs := w }

/-- `compute_pmap` (components.py:1312-1317). -/
def computePmap {W P : Type} (f : Fns W P) (x : Item W P) : Except Exc (Item W P) :=
  match f.build x.wfs with
  | .error e => .error e
  | .ok p => .ok { x with pmap := some p }

/-- `pmaps_pass` (components.py:1320); without a PMap it is a `KeyError`. -/
def pmapsPass {W P : Type} (f : Fns W P) (x : Item W P) : Except Exc (Item W P) :=
  match x.pmap with
  | none => .error (.err 1)
  | some p => .ok { x with pmapsPass := some (checkEmptyPmap f p) }

/-- `bool` of the field `indices_pass` (components.py:1309). -/
def readIndices {W P : Type} (x : Item W P) : Except Exc Bool :=
  match x.indicesPass with
  | none => .error (.err 1)
  | some n => .ok (decide (n ≠ 0))

/-- `bool` of the field `pmaps_pass` (components.py:1321). -/
def readPmaps {W P : Type} (x : Item W P) : Except Exc Bool :=
  match x.pmapsPass with
  | none => .error (.err 1)
  | some b => .ok b

/-- Identities of the components: 1 the map of the indices, 2 and 3 the branch and sink of `Filters/s12_indices`, 4 the counter of
events over threshold, 5 the SiPM calibration, 6 and 7 the maps of the PMap, 8 and 9 the branch and sink of `Filters/empty_pmap`, 10 the counter of full PMaps,
11 and 12 the branch and sink of the PMaps.  `fn_list` and `pipe(*filter(None, fn_list))` (components.py:1333-1344). -/
def computePmaps {W P : Type} (f : Fns W P) : List (Net (Item W P) → Net (Item W P)) :=
  [.mapIn 1 (indicesPass f), .branch 2 (.sink 3 fun _ => none), .countFilter 4 readIndices] ++
  (match f.sipmCal with
    | none => []
    | some g => [.mapIn 5 (calibrate g)]) ++
  [.mapIn 6 (computePmap f), .mapIn 7 (pmapsPass f), .branch 8 (.sink 9 fun _ => none), .countFilter 10 readPmaps,
   .branch 11 (.sink 12 fun _ => none)]

/-- The end of the pipe of irene (irene.py:157-160): 20 and 21 `event_count_out`, 22 and 23 the list of event numbers, 24 the fork of 25 the
event writer and 26 the trigger writer.  The list of event numbers is represented by the items its collector receives. -/
def ireneEnd {W P : Type} : Net (Item W P) :=
  spyCount 20 21 (.branch 22 (.sink 23 fun _ => none) (.fork 24 (.ofList [.sink 25 fun _ => none, .sink 26 fun _ => none])))

/-- The pipe of irene (irene.py:148-160): 30 the slice, 31 and 32 `event_count_in`, 33 the maps from raw waveforms to the waveforms of
`computePmaps` (`mask_sensors`, `rwf_to_cwf`, `cwf_to_ccwf`, `zero_suppress`, here a single function that writes in place). -/
def irene {W P : Type} (start : Nat) (stop : Option Nat) (gap : Nat) (prepare : Item W P → Except Exc (Item W P)) (f : Fns W P) : Net (Item W P) :=
  pipe ([.slice 30 start stop gap true, spyCount 31 32, .mapIn 33 prepare] ++ computePmaps f) ireneEnd

end Verif.PmapFlow
