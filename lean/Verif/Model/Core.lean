import Verif.Base
/-!
# Model of `invisible_cities/core/core_functions.py`, `core_functions_c.pyx` and `types/ic_types.py`
-/
namespace Verif.Core

/-! ### Ranges -/

/-- `in_range` (core_functions.py:55-80), element by element; `none` as a bound is minus/plus
infinity (the defaults). -/
def inRange (data : List ℚ) (minval maxval : Option ℚ := none) (leftClosed : Bool := true)
    (rightClosed : Bool := false) : List Bool :=
  data.map fun x =>
    let lower := minval.all fun lo => if leftClosed then decide (lo ≤ x) else decide (lo < x)
    let upper := maxval.all fun hi => if rightClosed then decide (x ≤ hi) else decide (x < hi)
    lower && upper

/-- `minmax` (ic_types.py:59-104). -/
structure MinMax where
  min : ℚ
  max : ℚ
deriving DecidableEq

/-- `minmax.__init__` (ic_types.py:61-64): `assert min <= max`. -/
def MinMax.mk? (min max : ℚ) : Except PyErr MinMax :=
  if min ≤ max then .ok ⟨min, max⟩ else .error .assertion

/-- `bracket`, `center` (ic_types.py:67, 73). -/
def MinMax.bracket (m : MinMax) : ℚ := m.max - m.min
def MinMax.center (m : MinMax) : ℚ := (m.max + m.min) / 2

/-- `contains` (ic_types.py:75-76). -/
def MinMax.contains (m : MinMax) (x : ℚ) : Bool := decide (m.min ≤ x) && decide (x ≤ m.max)

/-- `__mul__` (ic_types.py:78-79). -/
def MinMax.mul (m : MinMax) (factor : ℚ) : Except PyErr MinMax := MinMax.mk? (m.min * factor) (m.max * factor)

/-- `__truediv__` (ic_types.py:81-83). -/
def MinMax.truediv (m : MinMax) (factor : ℚ) : Except PyErr MinMax :=
  if factor ≠ 0 then m.mul (1 / factor) else .error .assertion

/-- `__add__`, `__sub__` (ic_types.py:85-89). -/
def MinMax.add (m : MinMax) (scalar : ℚ) : Except PyErr MinMax := MinMax.mk? (m.min + scalar) (m.max + scalar)
def MinMax.sub (m : MinMax) (scalar : ℚ) : Except PyErr MinMax := MinMax.mk? (m.min - scalar) (m.max - scalar)

/-! ### Weighted averages -/

/-- `numpy.average(data, weights=weights)` on 1-D arrays: `TypeError` when shapes differ,
`ZeroDivisionError` when the weights sum to zero. -/
def average (data weights : List ℚ) : Except PyErr ℚ :=
  if data.length ≠ weights.length then .error .typeError
  else if weights.sum = 0 then .error .zeroDivision
  else .ok ((List.zipWith (· * ·) data weights).sum / weights.sum)

/-- `weighted_mean_and_var` (core_functions.py:83-129), `axis = None`.  In the unbiased branches a
zero denominator (infinite/NaN in numpy) is not modelled faithfully (division by 0 is 0 here). -/
def weightedMeanAndVar (data weights : List ℚ) (unbiased : Bool := false) (frequentist : Bool := true) :
    Except PyErr (ℚ × ℚ) :=
  match average data weights with
  | .error e => .error e
  | .ok ave =>
    match average (data.map fun x => (x - ave) ^ 2) weights with
    | .error e => .error e
    | .ok var =>
      let wsum := weights.sum
      if unbiased then
        if frequentist then .ok (ave, var * (wsum / (wsum - 1)))
        else
          let wsum2 := (weights.map (· ^ 2)).sum
          .ok (ave, var * (1 / (1 - wsum2 / wsum ^ 2)))
      else .ok (ave, var)

/-! ### Rebinning -/

/-- `_rebin_array` (core_functions.py:270-285) and its Cython counterpart `rebin_array`
(core_functions_c.pyx:8-30, where the method is sum or mean).  `int(len(arr) / int(stride))` is the
integer quotient.  Simplification: `stride` is a natural number. -/
def rebinArray {β : Type} (arr : List ℚ) (stride : Nat) (met : List ℚ → β) (remainder : Bool) : Except PyErr (List β) :=
  if stride = 0 then .error .zeroDivision else
  let lenb := arr.length / stride
  let rebinned := (List.range lenb).map fun i => met ((arr.drop (i * stride)).take stride)
  if remainder ∧ arr.length % stride ≠ 0 then .ok (rebinned ++ [met (arr.drop (lenb * stride))])
  else .ok rebinned

/-! ### Bin edges and centres -/

/-- `shift_to_bin_centers` (core_functions.py:302-306): `x[:-1] + np.diff(x) * 0.5`. -/
def shiftToBinCenters (x : List ℚ) : List ℚ :=
  List.zipWith (fun a d => a + d * (1 / 2)) x.dropLast (List.zipWith (fun b a => b - a) x.tail x)

/-- `np.any(bincenters[:-1] >= bincenters[1:])` (core_functions.py:322). -/
def unsorted (c : List ℚ) : Bool := (List.zipWith (fun a b => decide (b ≤ a)) c.dropLast c.tail).any id

/-- `binedges_from_bincenters` (core_functions.py:309-339). -/
def binedgesFromBincenters (c : List ℚ) (range : Option (ℚ × ℚ)) : Except PyErr (List ℚ) :=
  if unsorted c then .error .valueError
  else match c.head?, c.getLast? with
    | some first, some last =>
      match range with
      | none => .ok (first :: (List.zipWith (fun b a => (b + a) / 2) c.tail c.dropLast) ++ [last])
      | some (lo, hi) =>
        if ¬ (lo < hi) then .error .valueError
        else if first < lo ∨ hi < last then .error .valueError
        else .ok (lo :: (List.zipWith (fun b a => (b + a) / 2) c.tail c.dropLast) ++ [hi])
    | _, _ =>
      -- empty array: `bincenters[0]` fails, after the check of the range if there is one
      match range with
      | some (lo, hi) => if ¬ (lo < hi) then .error .valueError else .error .indexError
      | none => .error .indexError

/-! ### Nearest element -/

/-- `find_nearest` (core_functions.py:342-350). -/
def findNearest (array : List ℚ) (value : ℚ) : Except PyErr ℚ :=
  match argmin (array.map fun x => |x - value|) with
  | .error e => .error e
  | .ok idx => match array[idx]? with
    | some x => .ok x
    | none => .error .indexError

/-- `define_window` (core_functions.py:288-291), given the mean of the waveform (`np.mean` of an empty
waveform is NaN, and `argmax` then fails). -/
def defineWindow (wf : List ℚ) (windowSize : Nat) : Except PyErr (Nat × Nat) :=
  let mean := wf.sum / wf.length
  match argmax (wf.map fun x => |x - mean|) with
  | .error e => .error e
  | .ok peak => .ok (max 0 (peak - windowSize), min wf.length (peak + windowSize))

/-- `overflow_protection` (core_functions.py:363-370): value, and whether a warning is emitted. -/
def overflowProtection (value upper : ℚ) : ℚ × Bool :=
  if value > upper then (upper, true) else (value, false)

end Verif.Core
