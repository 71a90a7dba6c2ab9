import Verif.Model.IreneRun
import Verif.Spec.PmapBuild
import Verif.Spec.PMapsIO
import Verif.Spec.Chain
/-!
# Vocabulary for the runs of irene (property C126)
-/
namespace Verif.IreneRun
open Verif.PMaps (Peak Responses)
open Verif.Peaks (IsSelection IsGrouping inWindow chargeIn)
open Verif.PmapBuild (PmtWf activePmts samplesOver Found PmtPart SipmPart)

/-- Raw waveforms of irene. -/
abbrev IreneRaw := Raw (List (List ℚ)) (List (List Int))

/-- A selection of SiPMs that, when it works, gives different sensors and waveforms of the same length as the ones it got. -/
def SelectsRows (n : Nat) (sel : Mat → Except PyErr (List Nat × Mat)) : Prop :=
  ∀ m : Mat, m.WF → m.rows.length = n → ∀ idx m', sel m = .ok (idx, m') → idx.Nodup ∧ m'.ncols = m.ncols ∧ ∀ r ∈ m'.rows, r.length = m.ncols

/-- The identifiers of the sensors fit in the tables of the PMaps and are different. -/
structure Identifiers (pmts : List LoadDb.PmtRow) (sipms : List LoadDb.SipmRow) : Prop where
  fit : ∀ p ∈ pmts, 0 ≤ p.sensor ∧ p.sensor < 256
  different : (pmts.map fun p => p.sensor).Nodup
  few : sipms.length ≤ 65536

/-- The configuration of irene is sound: flags and coefficients of the tables, lengths and strides, a selection that works, and not so many samples that there could be more than 65536 peaks. -/
structure Sound (c : Irene) : Prop where
  flags : PmapBuild.Flags c.pmts c.sipms
  ids : Identifiers c.pmts c.sipms
  conf : PmapBuild.Good c.conf c.n c.nSipm
  selection : IsSelection (c.sipms.filter fun s => decide (s.active ≠ 0)).length c.conf.sel
  rows : SelectsRows (c.sipms.filter fun s => decide (s.active ≠ 0)).length c.conf.sel
  samples : 400 ≤ c.n
  maw : 0 < c.nMaw
  coeffs : ∀ p ∈ c.pmts, p.active = 1 → ∃ cc cb, p.coeffC = some cc ∧ p.coeffBlr = some cb ∧ 0 < cc ∧ cc < 1 ∧ cb ≠ 0
  few1 : c.n ≤ 65536 * (c.conf.s1.stride + 1)
  few2 : c.n ≤ 65536 * (c.conf.s2.stride + 1)

/-- The waveforms of an event have one row per sensor of the tables and the lengths of the run. -/
structure Sized (c : Irene) (r : IreneRaw) : Prop where
  pmts : r.pmt.length = c.pmts.length
  pmtLength : ∀ w ∈ r.pmt, w.length = c.n
  sipms : r.sipm.length = c.sipms.length
  sipmLength : ∀ w ∈ r.sipm, w.length = c.nSipm

/-- The samples of the S1s: those where the sum of the parts of the calibrated waveforms over the moving average is over the threshold. -/
def s1Samples (c : Irene) (ys : List (List ℚ × List ℚ)) : List Nat :=
  samplesOver c.n (fun j => (ys.map fun y => if chargeIn y.1 (j + 1 - c.nMaw) (j + 1) / c.nMaw + c.thrMaw ≤ y.1.getD j 0 then y.2.getD j 0 else 0).sum) c.conf.thr1

/-- The samples of the S2s: those where the sum of the calibrated waveforms is over the threshold. -/
def s2Samples (c : Irene) (ys : List (List ℚ × List ℚ)) : List Nat := samplesOver c.n (fun j => (ys.map fun y => y.2.getD j 0).sum) c.conf.thr2

/-- The PMap of an event: none if there are no samples of one of the two kinds; otherwise the S1s and the S2s of the pieces of the samples, with the charge of the PMTs and the selected SiPMs. -/
def IsPmap (c : Irene) (r : IreneRaw) (p : Option (List Peak × List Peak)) : Prop :=
  ∃ ys, List.Forall₂ (PmtWf c.tan c.nBaseline) (activePmts c.pmts r.pmt) ys ∧
    (p = none ↔ s1Samples c ys = [] ∨ s2Samples c ys = []) ∧
    ∀ s1s s2s, p = some (s1s, s2s) →
      Found c.conf.s1 c.conf.w (s1Samples c ys) (fun piece peak => PmtPart ((activePmts c.pmts r.pmt).map fun x => x.1.sensor.toNat) (ys.map Prod.snd) c.conf.w piece peak ∧ peak.sipms = Responses.empty) s1s ∧
      Found c.conf.s2 c.conf.w (s2Samples c ys) (fun piece peak => PmtPart ((activePmts c.pmts r.pmt).map fun x => x.1.sensor.toNat) (ys.map Prod.snd) c.conf.w piece peak ∧
        SipmPart c.conf c.sipms r.sipm piece peak) s2s

/-- The events with some peak, with their S1s and S2s. -/
def withPeaks {W V : Type} (raws : List (Raw W V)) (pms : List (Option (List Peak × List Peak))) : List (Raw W V × List Peak × List Peak) :=
  (raws.zip pms).filterMap fun x => x.2.bind fun p => if p.1 = [] ∧ p.2 = [] then none else some (x.1, p)

/-- What the next city should read of an event: its peaks (an S2 without SiPMs has the standard empty responses), its number and time. -/
def item {W V : Type} (run : Int) (x : Raw W V × List Peak × List Peak) : Sources.PmapItem := ⟨⟨x.2.1, x.2.2.map PMapsIO.normalSipms⟩, run, x.1.event, x.1.ts⟩

/-- The elements with the flag. -/
def flagged {α : Type} (flags : List Bool) (xs : List α) : List α := ((flags.zip xs).filter fun x => x.1).map fun x => x.2

/-- The charge of the calibrated waveforms of all the PMTs from the first to the last sample of the piece. -/
def pieceCharge (ys : List (List ℚ × List ℚ)) (piece : List Nat) : ℚ := (ys.map fun y => chargeIn y.2 (piece.head?.getD 0) (piece.getLast?.getD 0 + 1)).sum

/-- Waveforms of hypathia. -/
abbrev HypathiaRaw := Raw Mat (List (List ℚ))

/-- The number of samples of the PMTs after the rebinning of hypathia. -/
def samplesAfter (stride n : Nat) : Nat := if 1 < stride then (n + stride - 1) / stride else n

/-- The configuration of hypathia is sound: as for irene, all the PMTs active and a simulation of the PMTs that keeps the shape of the waveforms of `n` samples. -/
structure SoundHypathia (c : Hypathia) (n : Nat) : Prop where
  active : ∀ p ∈ c.pmts, p.active = 1
  flags : PmapBuild.Flags c.pmts c.sipms
  ids : Identifiers c.pmts c.sipms
  conf : PmapBuild.Good c.conf (samplesAfter c.stride n) c.nSipm
  selection : IsSelection (c.sipms.filter fun s => decide (s.active ≠ 0)).length c.conf.sel
  rows : SelectsRows (c.sipms.filter fun s => decide (s.active ≠ 0)).length c.conf.sel
  fluct : ∀ m, m.WF → ∃ r, c.fluct m = .ok r ∧ r.WF ∧ r.rows.length = m.rows.length ∧ r.ncols = m.ncols
  few1 : samplesAfter c.stride n ≤ 65536 * (c.conf.s1.stride + 1)
  few2 : samplesAfter c.stride n ≤ 65536 * (c.conf.s2.stride + 1)

/-- The waveforms of an event have one row per sensor and the lengths of the run, also the simulated ones of the SiPMs. -/
structure SizedHypathia (c : Hypathia) (n : Nat) (r : HypathiaRaw) : Prop where
  pmts : r.pmt.rows.length = c.pmts.length
  shape : r.pmt.WF
  samples : r.pmt.ncols = n
  sim : ∃ sim, c.simSipm r.sipm = .ok sim ∧ sim.length = c.sipms.length ∧ ∀ w ∈ sim, w.length = c.nSipm

end Verif.IreneRun
