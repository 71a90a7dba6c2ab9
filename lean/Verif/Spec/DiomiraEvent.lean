import Verif.Model.DiomiraEvent
import Verif.Spec.Peaks
import Verif.Spec.Blr
/-!
# Specification of C111: the events of diomira
-/
namespace Verif.DiomiraEvent.Spec
open Verif Verif.Peaks

/-- The samples of a waveform above a threshold. -/
def above (thr : ℚ) (wf : List ℚ) : List Nat := (List.range wf.length).filter fun i => decide (thr < wf.getD i 0)

/-- `w` is the time, in ns, from the start of the first group of `k` samples (of 25 ns) with a positive charge to the end of the last one, among the samples `first, …, last`; zero without such groups. -/
def Lasts (k : Nat) (wf : List ℚ) (first last : Nat) (w : ℚ) : Prop :=
  ((∀ x ∈ binsOf first (last + 1) k wf, x ≤ 0) ∧ w = 0) ∨
  ∃ p q, p ≤ q ∧ (∃ x, (binsOf first (last + 1) k wf)[p]? = some x ∧ 0 < x) ∧ (∃ x, (binsOf first (last + 1) k wf)[q]? = some x ∧ 0 < x) ∧
    (∀ (i : Nat) (x : ℚ), (binsOf first (last + 1) k wf)[i]? = some x → 0 < x → p ≤ i ∧ i ≤ q) ∧
    w = 25 * ((min (last + 1) (first + k * (q + 1)) : Nat) - (first + k * p : Nat) : ℚ)

/-- The piece of a waveform satisfies the trigger: the time it lasts, its charge (that of its groups of samples that are positive) and its height (the largest group) are in their ranges, those of the charge
and of the height being multiplied by the ratio. -/
def Fires (c : TriggerConf) (wf : List ℚ) (piece : List Nat) : Prop :=
  ∃ first last, piece.head? = some first ∧ piece.getLast? = some last ∧
    (∃ w, Lasts c.rebin wf first last w ∧ c.width.1 < w ∧ w ≤ c.width.2) ∧
    (c.charge.1 * c.ratio < ((binsOf first (last + 1) c.rebin wf).filter fun x => decide (0 < x)).sum ∧ ((binsOf first (last + 1) c.rebin wf).filter fun x => decide (0 < x)).sum ≤ c.charge.2 * c.ratio) ∧
    ∃ h ∈ binsOf first (last + 1) c.rebin wf, (∀ x ∈ binsOf first (last + 1) c.rebin wf, x ≤ h) ∧ c.height.1 * c.ratio < h ∧ h ≤ c.height.2 * c.ratio

open Classical in
/-- The number of pieces of a waveform that are in the windows and satisfy the trigger. -/
noncomputable def nFires (c : TriggerConf) (wf : List ℚ) (pieces : List (List Nat)) : Nat :=
  pieces.countP fun p => inWindow c.time.1 c.time.2 c.length.1 c.length.2 25 p && decide (Fires c wf p)

/-- The groups in which the samples above the lowest height are: they are cut where neighbours differ by more than the stride. -/
def Pieces (c : TriggerConf) (wf : List ℚ) (pieces : List (List Nat)) : Prop := IsGrouping (above c.height.1 wf) c.stride pieces

/-- The integer nearest to a number, the even one of two. -/
def Nearest (x : ℚ) (n : Int) : Prop := |x - n| ≤ 1 / 2 ∧ (|x - n| = 1 / 2 → n % 2 = 0)

/-- The integer has 16 bits. -/
def Fits16 (n : Int) : Prop := -32768 ≤ n ∧ n ≤ 32767

/-- The samples stored are the integers nearest to those of the waveform, when they have 16 bits. -/
def Rounded (wf : List ℚ) (stored : List Int) : Prop :=
  stored.length = wf.length ∧ ∀ (k : Nat) (x : ℚ) (n : Int), wf[k]? = some x → Nearest x n → Fits16 n → stored[k]? = some n

/-- The samples stored are those of the waveform without their fractions, when they have 16 bits. -/
def Truncated (wf : List ℚ) (stored : List Int) : Prop :=
  stored.length = wf.length ∧ ∀ (k : Nat) (x : ℚ) (n : Int), wf[k]? = some x → |x - n| < 1 → |(n : ℚ)| ≤ |x| → Fits16 n → stored[k]? = some n

/-- The charge of a sample after its fluctuation, if `d` is drawn for it. -/
def fluctuated (res r d : ℚ) : ℚ := if res = 0 then r else if 0 < r then max d 0 else 0

/-- `x` is the sample `j` of the SiPM `i` before the suppression, in ADC counts: the charge that arrives after its fluctuation, times `adc_to_pes`, plus the noise of the SiPM. -/
def SipmSample (s : Sampling.Sampler) (sigma : List ℚ) (d : SipmDraws) (rd : List (List ℚ)) (i j : Nat) (x : ℚ) : Prop :=
  ∃ adc sg r dr noise, s.adcToPes[i]? = some adc ∧ sigma[i]? = some sg ∧ (rd.getD i [])[j]? = some r ∧ (d.charge.getD i [])[j]? = some dr ∧ ((Sampling.sample s d.bins d.dev).getD i [])[j]? = some noise ∧
    x = fluctuated (if adc = 0 then 0 else sg / adc) r dr * adc + noise

/-- What is done with an event: the raw and the restored waveforms of the PMTs, and the waveforms of the SiPMs if it passes the trigger. -/
structure Done where
  raw : List (List Int)
  blr : List (List Int)
  sipm : Option (List (List Int))

/-- `r` is what the job does with the event `e`. -/
def Processed (j : Job) (t : Option Trigger) (e : Event) (r : Done) : Prop :=
  simulatePmts j.env j.pmts e.draws e.pmt = .ok (r.raw, r.blr) ∧ triggerPass j.tan j.pmts j.conf t r.raw = .ok r.sipm.isSome ∧
    ∀ s, r.sipm = some s → ∃ w, simulateSipms j.sampler j.sigma j.cut j.padding j.cols e.sipmDraws e.sipm = .ok w ∧ List.Forall₂ Truncated w s

/-- The event with its number and what is done with it, if it passes. -/
def passing (x : Event × Done) : Option (Int × List (List Int) × List (List Int) × List (List Int)) :=
  match x.2.sipm with
  | none => none
  | some s => some (x.1.number, x.2.raw, x.2.blr, s)

/-- The output after the events `es`, if `rs` is what is done with them: the decision for every one of them, and the waveforms of those that pass. -/
def Written (es : List Event) (rs : List Done) (o : Out) : Prop :=
  o.triggers = (es.zip rs).map (fun x => (x.1.number, x.2.sipm.isSome)) ∧ o.numbers = ((es.zip rs).filterMap passing).map (fun x => x.1) ∧ o.pmtrwf = ((es.zip rs).filterMap passing).map (fun x => x.2.1) ∧
    o.pmtblr = ((es.zip rs).filterMap passing).map (fun x => x.2.2.1) ∧ o.sipmrwf = ((es.zip rs).filterMap passing).map (fun x => x.2.2.2)

end Verif.DiomiraEvent.Spec
