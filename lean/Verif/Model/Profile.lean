import Verif.Model.Core
import Verif.Model.Voxels
import Verif.Model.Frame
/-!
# Model of the profiles (`core/fit_functions.py`)

The deviations are given by their squares (there are no square roots of rationals); NaN is `none`.
-/
namespace Verif.Profile
open Verif.Voxels (npMin npMax linspace searchRight)
open Verif.Core (shiftToBinCenters)
open Verif.Frame (groupBy)

/-- `in_range` for one value (core/core_functions.py:78-80). -/
def within (r : ℚ × ℚ) (v : ℚ) : Bool := decide (r.1 ≤ v) && decide (v < r.2)

/-- The optional selection (fit_functions.py:263-266, 361-365): no range, no selection. -/
def withinOpt (r : Option (ℚ × ℚ)) (v : ℚ) : Bool := match r with
  | none => true
  | some r => within r v

/-- The range, by default the extremes of the data (fit_functions.py:257, 352-353); `np.min` of no data raises `ValueError`. -/
def rangeOf (r : Option (ℚ × ℚ)) (data : List ℚ) : Except PyErr (ℚ × ℚ) :=
  match r with
  | some r => .ok r
  | none => if data = [] then .error .valueError else .ok (npMin data, npMax data)

/-- `gb.mean()`. -/
def mean (vs : List ℚ) : ℚ := vs.sum / vs.length

/-- The square of `gb.std()`: NaN with one value. -/
def var (vs : List ℚ) : Option ℚ := if vs.length ≤ 1 then none else some ((vs.map fun v => (v - mean vs) ^ 2).sum / (vs.length - 1))

/-- The square of the deviation (fit_functions.py:275, 381). -/
def dev2 (std : Bool) (vs : List ℚ) : Option ℚ := (var vs).map fun v => if std then v else v / vs.length

/-- One point of a profile: the centre of the bin, the average and the square of the deviation. -/
structure Point where
  x : ℚ
  mean : Option ℚ
  dev2 : Option ℚ
deriving DecidableEq, Repr

/-- The pairs selected (fit_functions.py:259-266). -/
def select (xr : ℚ × ℚ) (yr : Option (ℚ × ℚ)) (data : List (ℚ × ℚ)) : List (ℚ × ℚ) :=
  (data.filter fun p => within xr p.1).filter fun p => withinOpt yr p.2

/-- The groups of `groupby("bin")` (fit_functions.py:268-272): the number of the bin, from 1, and its values. -/
def groups (xr : ℚ × ℚ) (nbins : Nat) (data : List (ℚ × ℚ)) : List (Int × List ℚ) :=
  (groupBy (fun p : ℚ × ℚ => [(searchRight (linspace xr.1 xr.2 nbins) p.1 : Int)]) data).map fun g => (g.1.headD 0, g.2.map Prod.snd)

/-- `profileX` (fit_functions.py:229-286), for a positive number of bins; `data` are the pairs (x, y). -/
def profileX (data : List (ℚ × ℚ)) (nbins : Nat) (xr yr : Option (ℚ × ℚ)) (std dropNan : Bool) : Except PyErr (List Point) :=
  match rangeOf xr (data.map Prod.fst) with
  | .error e => .error e
  | .ok r =>
    if dropNan then
      match (groups r nbins (select r yr data)).mapM fun g => (shiftToBinCenters (linspace r.1 r.2 nbins))[(g.1 - 1).toNat]?.map fun c => (⟨c, some (mean g.2), dev2 std g.2⟩ : Point) with
      | none => .error .indexError
      | some ps => .ok ps
    else .ok (((shiftToBinCenters (linspace r.1 r.2 nbins)).zipIdx).map fun ck =>
      match (groups r nbins (select r yr data)).find? fun g => decide (g.1 = (ck.2 : Int) + 1) with
      | none => ⟨ck.1, none, none⟩
      | some g => ⟨ck.1, some (mean g.2), dev2 std g.2⟩)

/-- `profileY` (fit_functions.py:289-317): the arguments exchanged. -/
def profileY (data : List (ℚ × ℚ)) (nbins : Nat) (yr xr : Option (ℚ × ℚ)) (std dropNan : Bool) : Except PyErr (List Point) :=
  profileX (data.map Prod.swap) nbins yr xr std dropNan

/-- Values x, y and z. -/
structure Triple where
  x : ℚ
  y : ℚ
  z : ℚ
deriving DecidableEq, Repr

/-- The result of `profileXY`: centres, averages and squares of the deviations. -/
structure Grid where
  xs : List ℚ
  ys : List ℚ
  mean : List (List ℚ)
  dev2 : List (List ℚ)
deriving DecidableEq, Repr

/-- The triples selected (fit_functions.py:355-365). -/
def select3 (xr yr : ℚ × ℚ) (zr : Option (ℚ × ℚ)) (data : List Triple) : List Triple :=
  (data.filter fun p => within xr p.x && within yr p.y).filter fun p => withinOpt zr p.z

/-- The groups of `groupby(["binx", "biny"])` (fit_functions.py:367-374). -/
def groups3 (xr yr : ℚ × ℚ) (nx ny : Nat) (data : List Triple) : List (List Int × List ℚ) :=
  (groupBy (fun p : Triple => [(searchRight (linspace xr.1 xr.2 nx) p.x : Int), (searchRight (linspace yr.1 yr.2 ny) p.y : Int)]) data).map fun g => (g.1, g.2.map Triple.z)

/-- The matrix with the value of each group in its position, 0 elsewhere (fit_functions.py:376-387; each position is assigned at most once). -/
def fill (nx ny : Nat) (gs : List (List Int × List ℚ)) (f : List ℚ → ℚ) : List (List ℚ) :=
  (List.range nx).map fun i : Nat => (List.range ny).map fun j : Nat =>
    match gs.find? fun g => decide (g.1 = [(i : Int) + 1, (j : Int) + 1]) with
    | none => 0
    | some g => f g.2

/-- `profileXY` (fit_functions.py:320-389), for positive numbers of bins.  The indices of no groups cannot be unpacked: `ValueError`.  The argument `drop_nan` is not used. -/
def profileXY (data : List Triple) (nx ny : Nat) (xr yr zr : Option (ℚ × ℚ)) (std : Bool) : Except PyErr Grid :=
  match rangeOf xr (data.map Triple.x), rangeOf yr (data.map Triple.y) with
  | .error e, _ => .error e
  | _, .error e => .error e
  | .ok rx, .ok ry =>
    if groups3 rx ry nx ny (select3 rx ry zr data) = [] then .error .valueError
    else .ok ⟨shiftToBinCenters (linspace rx.1 rx.2 nx), shiftToBinCenters (linspace ry.1 ry.2 ny),
      fill nx ny (groups3 rx ry nx ny (select3 rx ry zr data)) mean, fill nx ny (groups3 rx ry nx ny (select3 rx ry zr data)) fun vs => (dev2 std vs).getD 0⟩

end Verif.Profile
