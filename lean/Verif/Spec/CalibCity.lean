import Verif.Model.CalibCity
import Verif.Spec.Peaks
/-!
# Specification of C113: the histograms of the calibration cities
-/
namespace Verif.CalibCity.Spec
open Verif Verif.Peaks

/-- `nb` is the number of bins of width `w` between `a` and `b`: the last edge is the last one before `b`. -/
def Bins (a b w : ℚ) (nb : Nat) : Prop := a + nb * w < b ∧ b ≤ a + (nb + 1) * w

/-- The value is in the bin `k` of `nb`: the last bin has both its ends. -/
def InBin (a w : ℚ) (nb k : Nat) (x : ℚ) : Prop := a + k * w ≤ x ∧ (x < a + (k + 1) * w ∨ k + 1 = nb ∧ x = a + nb * w)

instance (a w : ℚ) (nb k : Nat) (x : ℚ) : Decidable (InBin a w nb k x) := by unfold InBin; infer_instance

/-- The centres of the bins. -/
def centresOf (a w : ℚ) (nb : Nat) : List ℚ := (List.range nb).map fun k : Nat => a + (k + 1 / 2) * w

/-- The number of values in a bin. -/
def inBin (a w : ℚ) (nb k : Nat) (xs : List ℚ) : Nat := (xs.filter fun x => decide (InBin a w nb k x)).length

/-- The histograms of some sensors: `values e s` are the values of the sensor `s` in the element `e` of the list. -/
def Counts {E : Type} (a w : ℚ) (ns nb : Nat) (es : List E) (values : E → Nat → List ℚ) (h : List (List Nat)) : Prop :=
  h.length = ns ∧ ∀ s < ns, ∃ row, h[s]? = some row ∧ row.length = nb ∧ ∀ k < nb, row[k]? = some ((es.map fun e => inBin a w nb k (values e s)).sum)

/-- The mode: the most frequent of the positive values, the smallest one when there are several; zero without them. -/
def IsMode (wf : List Int) (b : ℚ) : Prop :=
  (∀ x ∈ wf, x ≤ 0) ∧ b = 0 ∨ ∃ v ∈ wf, 0 < v ∧ b = v ∧ ∀ u ∈ wf, 0 < u → wf.count u ≤ wf.count v ∧ (wf.count u = wf.count v → v ≤ u)

/-- The median of the samples that are not zero, zero without them. -/
def IsMedian (wf : List Int) (b : ℚ) : Prop :=
  (∃ x ∈ wf, x ≠ 0) ∧ (∃ s : List ℚ, s.Perm ((wf.filter (· ≠ 0)).map fun x : Int => (x : ℚ)) ∧ s.Pairwise (· ≤ ·) ∧
      ((∃ k m, s.length = 2 * k + 1 ∧ s[k]? = some m ∧ b = m) ∨ (∃ k x y, s.length = 2 * k + 2 ∧ s[k]? = some x ∧ s[k + 1]? = some y ∧ b = (x + y) / 2))) ∨
    (∀ x ∈ wf, x = 0) ∧ b = 0

/-- A waveform without its baseline: the samples that are zero stay at zero. -/
def Without (base : List Int → ℚ → Prop) (wf : List Int) (out : List ℚ) : Prop := ∃ b, base wf b ∧ out = wf.map fun x : Int => if x = 0 then 0 else (x : ℚ) - b

/-- A calibrated waveform: without baseline and divided by the gain, zero if the gain is not positive. -/
def Calibrated (base : List Int → ℚ → Prop) (gain : ℚ) (wf : List Int) (out : List ℚ) : Prop :=
  ∃ b, base wf b ∧ out = wf.map fun x : Int => if 0 < gain ∧ x ≠ 0 then ((x : ℚ) - b) / gain else 0

/-- The window of light number `i` in samples of `sampling` nanoseconds, for a start, a width and a period in microseconds. -/
def light (sampling start width period : ℚ) (i : Nat) : Int × Int :=
  (⌊start * 1000 / sampling⌋ + i * ⌈period * 1000 / sampling⌉, ⌊start * 1000 / sampling⌋ + i * ⌈period * 1000 / sampling⌉ + ⌈width * 1000 / sampling⌉)

/-- The dark window: as wide, ending two microseconds before that of light. -/
def dark (sampling start width period : ℚ) (i : Nat) : Int × Int :=
  ((light sampling start width period i).1 - ⌊2000 / sampling⌋ - ⌈width * 1000 / sampling⌉, (light sampling start width period i).1 - ⌊2000 / sampling⌋)

/-- All the windows are in the waveform, and end before its last sample. -/
def Fit (win : Nat → Int × Int) (n length : Nat) : Prop := ∀ i < n, 0 ≤ (win i).1 ∧ (win i).2 < length

/-- The sums of the samples of a waveform in the windows. -/
def sums (win : Nat → Int × Int) (n : Nat) (wf : List ℚ) : List ℚ := (List.range n).map fun i => chargeIn wf (win i).1.toNat (win i).2.toNat

/-- The conditions of the windows of a job: some, not empty, one after the other, and all of them in the waveforms. -/
def GoodWindows (j : Job) (sampling : ℚ) (length : Nat) : Prop :=
  0 < j.nIntegrals ∧ 0 < ⌈j.width * 1000 / sampling⌉ ∧ ⌈j.width * 1000 / sampling⌉ ≤ ⌈j.period * 1000 / sampling⌉ ∧
    Fit (light sampling j.start j.width j.period) j.nIntegrals length ∧ Fit (dark sampling j.start j.width j.period) j.nIntegrals length

/-- The restored waveforms of the PMTs: each from its samples under the average of the first `nBaseline` ones that are not zero, with the coefficients of its row in the database (`Blr.deconvolve` is the restoration of C85). -/
def Restored (j : Job) (raw : List (List Int)) (out : List (List ℚ)) : Prop :=
  raw.length = j.pmts.length ∧ out.length = j.pmts.length ∧ ∀ (i : Nat) (wf : List Int) (p : LoadDb.PmtRow), raw[i]? = some wf → j.pmts[i]? = some p → ∃ cc cb cwf, p.coeffC = some cc ∧ p.coeffBlr = some cb ∧ out[i]? = some cwf ∧
    Blr.deconvolve j.tan cc cb 5 5000 ((wf.map fun x : Int => (x : ℚ)).map fun x => Calib.zmean ((wf.map fun x : Int => (x : ℚ)).take j.nBaseline) - x) = .ok cwf

/-- A waveform minus the sum of its last `n` samples divided by `n`. -/
def MinusAverage (n : Nat) (wf out : List ℚ) : Prop := 0 < n ∧ out.length = wf.length ∧ ∀ (i : Nat) (x : ℚ), wf[i]? = some x → out[i]? = some (x - chargeIn wf (i + 1 - n) (i + 1) / n)

/-- The waveforms of the PMTs in each mode: restored; restored and without their moving average; without their mode. -/
def Processed (j : Job) (mode : PmtMode) (raw : List (List Int)) (out : List (List ℚ)) : Prop :=
  match mode with
  | .gain => Restored j raw out
  | .gainMaw => ∃ cwf, Restored j raw cwf ∧ List.Forall₂ (MinusAverage j.nMaw) cwf out
  | .gainNodeconv => List.Forall₂ (Without IsMode) raw out

end Verif.CalibCity.Spec
