import Verif.Model.PMaps
/-!
# Model of `invisible_cities/filters` and of the trigger selection of diomira
-/
namespace Verif.Filters
open Verif.Core Verif.PMaps

/-- `S12SelectorOutput` (filters/s1s2_filter.py:13-34). -/
structure SelectorOutput where
  passed : Bool
  s1Peaks : List Bool
  s2Peaks : List Bool
deriving DecidableEq, Repr

/-- The common part of `__and__` and `__or__` (filters/s1s2_filter.py:36-54): `ValueError` on different lengths, otherwise element by element. -/
def SelectorOutput.combine (op : Bool → Bool → Bool) (a b : SelectorOutput) : Except PyErr SelectorOutput :=
  if a.s1Peaks.length ≠ b.s1Peaks.length ∨ a.s2Peaks.length ≠ b.s2Peaks.length then .error .valueError
  else .ok ⟨op a.passed b.passed, List.zipWith op a.s1Peaks b.s1Peaks, List.zipWith op a.s2Peaks b.s2Peaks⟩

/-- `__and__` (filters/s1s2_filter.py:36-43). -/
def SelectorOutput.and (a b : SelectorOutput) : Except PyErr SelectorOutput := combine Bool.and a b
/-- `__or__` (filters/s1s2_filter.py:46-53). -/
def SelectorOutput.or (a b : SelectorOutput) : Except PyErr SelectorOutput := combine Bool.or a b

/-- The keyword arguments of `S12Selector` (filters/s1s2_filter.py:76-89): ranges given by their two ends. -/
structure SelectorConf where
  s1n : ℚ × ℚ
  s1e : ℚ × ℚ
  s1w : ℚ × ℚ
  s1h : ℚ × ℚ
  s1Ethr : ℚ
  s2n : ℚ × ℚ
  s2e : ℚ × ℚ
  s2w : ℚ × ℚ
  s2h : ℚ × ℚ
  nsi : ℚ × ℚ
  s2Ethr : ℚ
deriving DecidableEq, Repr

/-- `S12Selector` (filters/s1s2_filter.py:66-89). -/
structure Selector where
  s1n : MinMax
  s1e : MinMax
  s1w : MinMax
  s1h : MinMax
  s1Ethr : ℚ
  s2n : MinMax
  s2e : MinMax
  s2w : MinMax
  s2h : MinMax
  nsi : MinMax
  s2Ethr : ℚ

/-- `S12Selector.__init__` (filters/s1s2_filter.py:76-89). -/
def Selector.mk? (c : SelectorConf) : Except PyErr Selector := do
  let s1n ← MinMax.mk? c.s1n.1 c.s1n.2
  let s1e ← MinMax.mk? c.s1e.1 c.s1e.2
  let s1w ← MinMax.mk? c.s1w.1 c.s1w.2
  let s1h ← MinMax.mk? c.s1h.1 c.s1h.2
  let s2n ← MinMax.mk? c.s2n.1 c.s2n.2
  let s2e ← MinMax.mk? c.s2e.1 c.s2e.2
  let s2w ← MinMax.mk? c.s2w.1 c.s2w.2
  let s2h ← MinMax.mk? c.s2h.1 c.s2h.2
  let nsi ← MinMax.mk? c.nsi.1 c.nsi.2
  pure ⟨s1n, s1e, s1w, s1h, c.s1Ethr, s2n, s2e, s2w, s2h, nsi, c.s2Ethr⟩

/-- `valid_peak` (filters/s1s2_filter.py:91-107).  `height` was computed when the peak was built; the model computes it here. -/
def validPeak (thr : ℚ) (energy width height : MinMax) (nsipm : Option MinMax) (p : Peak) : Except PyErr Bool :=
  match p.height with
  | .error e => .error e
  | .ok h =>
    let f1 := energy.contains (p.energyAbove thr)
    let f2 := width.contains (p.widthAbove thr)
    let f3 := height.contains h
    let f4 := match nsipm with
      | none => true
      | some n => n.contains p.sipms.ids.length
    .ok (f1 && f2 && f3 && f4)

/-- `select_s1` (filters/s1s2_filter.py:129-139, 109-127). -/
def Selector.selectS1 (s : Selector) (peaks : List Peak) : Except PyErr (List Bool) :=
  peaks.mapM (validPeak s.s1Ethr s.s1e s.s1w s.s1h none)

/-- `select_s2` (filters/s1s2_filter.py:141-152, 109-127). -/
def Selector.selectS2 (s : Selector) (peaks : List Peak) : Except PyErr (List Bool) :=
  peaks.mapM (validPeak s.s2Ethr s.s2e s.s2w s.s2h (some s.nsi))

/-- `np.count_nonzero` of flags. -/
def countTrue (flags : List Bool) : Nat := flags.countP (fun b => b)

/-- `pmap_filter` (filters/s1s2_filter.py:173-190), also `peak_classifier` (cities/components.py:934-941). -/
def pmapFilter (s : Selector) (s1s s2s : List Peak) : Except PyErr SelectorOutput :=
  match s.selectS1 s1s, s.selectS2 s2s with
  | .error e, _ => .error e
  | _, .error e => .error e
  | .ok f1, .ok f2 => .ok ⟨s.s1n.contains (countTrue f1) && s.s2n.contains (countTrue f2), f1, f2⟩

/-! ### Trigger -/

/-- `TriggerParams` (evm/ic_containers.py:29, built in cities/diomira.py:196-200), the fields used by the filter. -/
structure TriggerParams where
  minChannels : Int
  charge : MinMax
  height : MinMax
  width : MinMax

/-- The three comparisons of `trigger_filter` (filters/trigger_filters.py:23-25). -/
def TriggerParams.accepts (t : TriggerParams) (p : Peak) : Except PyErr Bool :=
  match p.height with
  | .error e => .error e
  | .ok h => .ok (decide (t.width.min < p.width) && decide (p.width ≤ t.width.max) &&
      (decide (t.charge.min < p.totalEnergy) && decide (p.totalEnergy ≤ t.charge.max)) &&
      (decide (t.height.min < h) && decide (h ≤ t.height.max)))

/-- The loop over the peaks of a channel (filters/trigger_filters.py:22-29): `none` when the filter returned `True`, otherwise the counter. -/
def triggerPeaks (t : TriggerParams) : List Peak → Int → Except PyErr (Option Int)
  | [], n => .ok (some n)
  | p :: ps, n =>
    match t.accepts p with
    | .error e => .error e
    | .ok true => if n + 1 = t.minChannels then .ok none else triggerPeaks t ps (n + 1)
    | .ok false => triggerPeaks t ps n

/-- The loop over the channels (filters/trigger_filters.py:21-30). -/
def triggerChannels (t : TriggerParams) : List (Nat × List Peak) → Int → Except PyErr Bool
  | [], _ => .ok false
  | (_, ps) :: rest, n =>
    match triggerPeaks t ps n with
    | .error e => .error e
    | .ok none => .ok true
    | .ok (some n) => triggerChannels t rest n

/-- `trigger_filter` (filters/trigger_filters.py:10-31): a dictionary from channels to peaks. -/
def triggerFilter (t : TriggerParams) (peakData : List (Nat × List Peak)) : Except PyErr Bool := triggerChannels t peakData 0

/-- `select_trigger_filter` for the type "S2" (cities/diomira.py:187-201): charge and height are scaled by the ratio between data and simulation. -/
def selectTrigger (minChannels : Int) (ratio : ℚ) (height charge width : ℚ × ℚ) : Except PyErr TriggerParams := do
  let height ← MinMax.mk? height.1 height.2
  let charge ← MinMax.mk? charge.1 charge.2
  let width ← MinMax.mk? width.1 width.2
  let charge ← charge.mul ratio
  let height ← height.mul ratio
  pure ⟨minChannels, charge, height, width⟩

end Verif.Filters
