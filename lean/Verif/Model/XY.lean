import Verif.Model.Core
/-!
# Model of `invisible_cities/reco/xy_algorithms.py`

Positions and charges are given as one list of SiPMs (arrays of the same length in the code).  Euclidean distances
are compared through their squares, which is the same for the non-negative radii that the assertions impose.
-/
namespace Verif.XY
open Verif.Core

/-- A SiPM with its position and charge. -/
structure Sipm where
  x : ℚ
  y : ℚ
  q : ℚ
deriving DecidableEq, Repr

/-- `Cluster(Q, xy, xy_var, nsipm)` (evm/event_model.py). -/
structure Cluster where
  q : ℚ
  x : ℚ
  y : ℚ
  vx : ℚ
  vy : ℚ
  nsipm : Nat
deriving DecidableEq, Repr

/-- `threshold_check` (xy_algorithms.py:21-53). -/
def thresholdCheck (sipms : List Sipm) (thr : ℚ) : Except PyErr (List Sipm) :=
  if sipms.length = 0 then .error (.other "SipmEmptyList")
  else if (sipms.map Sipm.q).sum = 0 then .error (.other "SipmZeroCharge")
  else
    let above := sipms.filter fun s => decide (thr ≤ s.q)
    if above.length = 0 then .error (.other "SipmEmptyListAboveQthr")
    else if (above.map Sipm.q).sum = 0 then .error (.other "SipmZeroChargeAboveQthr")
    else .ok above

/-- `barycenter` (xy_algorithms.py:56-85); the weighted mean and variance are computed column by column (`axis=0`). -/
def barycenter (sipms : List Sipm) (qthr : ℚ := 0) : Except PyErr (List Cluster) :=
  match thresholdCheck sipms qthr with
  | .error e => .error e
  | .ok above =>
    let qs := above.map Sipm.q
    match weightedMeanAndVar (above.map Sipm.x) qs, weightedMeanAndVar (above.map Sipm.y) qs with
    | .error e, _ => .error e
    | _, .error e => .error e
    | .ok (mx, vx), .ok (my, vy) => .ok [⟨qs.sum, mx, my, vx, vy, above.length⟩]

/-- `get_nearby_sipm_inds` (xy_algorithms.py:96-104) as a predicate on positions. -/
def nearby (cx cy d : ℚ) (x y : ℚ) : Bool := decide ((x - cx) ^ 2 + (y - cy) ^ 2 ≤ d ^ 2)

/-- A SiPM of the data base: position and whether it is active. -/
structure DbSipm where
  x : ℚ
  y : ℚ
  active : Bool

/-- `count_masked` (xy_algorithms.py:106-118). -/
def countMasked (cx cy d : ℚ) (all : List DbSipm) : Nat :=
  (all.filter fun s => nearby cx cy d s.x s.y && !s.active).length

/-- Parameters of `corona`. -/
structure CoronaParams where
  all : List DbSipm
  qthr : ℚ
  qlm : ℚ
  lmRadius : ℚ
  newLmRadius : ℚ
  msipm : Int
  considerMasked : Bool

/-- How a call to `corona` ends: it returns, raises, or never ends. -/
inductive Outcome where
  | returns (clusters : List Cluster)
  | raises (e : PyErr)
  | neverEnds
deriving DecidableEq

/-- What one iteration of the loop of `corona` does: leave the loop, raise, or go on with new clusters and the
remaining SiPMs. -/
inductive Step where
  | leave
  | raises (e : PyErr)
  | next (clusters : List Cluster) (rest : List Sipm)

/-- One iteration of the `while` loop of `corona` (xy_algorithms.py:228-256), including the loop condition. -/
def coronaStep (p : CoronaParams) (sipms : List Sipm) : Step :=
  match argmax (sipms.map Sipm.q) with
  | .error _ => .leave
  | .ok i =>
    match sipms[i]? with
    | none => .leave
    | some hottest =>
      if hottest.q < p.qlm then .leave
      else
        match barycenter (sipms.filter fun s => nearby hottest.x hottest.y p.lmRadius s.x s.y) with
        | .error e => .raises e
        | .ok [] => .raises .indexError
        | .ok (lm :: _) =>
          let near := sipms.filter fun s => nearby lm.x lm.y p.newLmRadius s.x s.y
          let far := sipms.filter fun s => !nearby lm.x lm.y p.newLmRadius s.x s.y
          let masked : Int := if p.considerMasked then countMasked lm.x lm.y p.newLmRadius p.all else 0
          if p.msipm - masked ≤ near.length then
            match barycenter near with
            | .error e => .raises e
            | .ok cs => .next cs far
          else .next [] far

/-- The `while` loop of `corona` and the final check (xy_algorithms.py:228-260).  An iteration that discards nothing is
repeated for ever (theorem `neverEnds_fixed` states this about the iteration). -/
def coronaLoop (p : CoronaParams) (sipms : List Sipm) (found : List Cluster) : Outcome :=
  match coronaStep p sipms with
  | .leave => if found.length = 0 then .raises (.other "ClusterEmptyList") else .returns found
  | .raises e => .raises e
  | .next cs rest => if rest.length < sipms.length then coronaLoop p rest (found ++ cs) else .neverEnds
termination_by sipms.length

/-- `corona` (xy_algorithms.py:121-260). -/
def corona (p : CoronaParams) (sipms : List Sipm) : Outcome :=
  if ¬ (0 ≤ p.lmRadius) then .raises .assertion
  else if ¬ (0 ≤ p.newLmRadius) then .raises .assertion
  else match thresholdCheck sipms p.qthr with
    | .error e => .raises e
    | .ok above => coronaLoop p above []

end Verif.XY
