import Verif.Spec.Peaks
import Verif.Model.PMaps
import Verif.Model.PmapBuild
/-!
# Vocabulary for the PMap of an event
-/
namespace Verif.PmapBuild
open Verif.Peaks Verif.PMaps

/-- The active PMTs of the table, each with its row of `rows`. -/
def activePmts {α : Type} (pmts : List LoadDb.PmtRow) (rows : List α) : List (LoadDb.PmtRow × α) := (pmts.zip rows).filter fun x => decide (x.1.active ≠ 0)

/-- The flags of the tables are 0 or 1. -/
def Flags (pmts : List LoadDb.PmtRow) (sipms : List LoadDb.SipmRow) : Prop := (∀ p ∈ pmts, p.active = 0 ∨ p.active = 1) ∧ ∀ s ∈ sipms, s.active = 0 ∨ s.active = 1

/-- `y` is the waveform of the PMT with its baseline restored (with its own coefficients), and the same in photoelectrons (with its own gain). -/
def PmtWf (tan : ℚ → ℚ) (nb : Nat) (x : LoadDb.PmtRow × List ℚ) (y : List ℚ × List ℚ) : Prop :=
  (∃ cc cb, x.1.coeffC = some cc ∧ x.1.coeffBlr = some cb ∧ Blr.deconvolve tan cc cb 5 5000 (x.2.map fun v => Calib.zmean (x.2.take nb) - v) = .ok y.1) ∧
  y.2 = y.1.map fun v => if x.1.adcToPes = 0 then 0 else v / |x.1.adcToPes|

/-- The SiPM waveform in photoelectrons: minus the mode, divided by the gain; a sample that is 0 stays 0. -/
def sipmWf (s : LoadDb.SipmRow) (r : List Int) : List ℚ :=
  r.map fun v : Int => if s.adcToPes.getD 0 = 0 ∨ v = 0 then 0 else ((v : ℚ) - Calib.baseline .mode r) / |s.adcToPes.getD 0|

/-- The samples, among the `n` ones, where the signal is over the threshold. -/
def samplesOver (n : Nat) (signal : Nat → ℚ) (thr : ℚ) : List Nat := (List.range n).filter fun j => decide (thr < signal j)

/-- The PMT part of a peak found in the piece: all the PMTs `ids`, with the charge of their waveforms from the first to the last sample. -/
def PmtPart (ids : List Nat) (wfs : List (List ℚ)) (w : ℚ) (piece : List Nat) (peak : Peak) : Prop :=
  ∃ first last, piece.head? = some first ∧ piece.getLast? = some last ∧ peak.pmts.ids = ids ∧
    peak.pmts.wfs.rows.map List.sum = wfs.map (fun r => chargeIn r first (last + 1)) ∧ peak.widths.sum = ((last : ℚ) + 1 - first) * w

/-- The active SiPMs of the table, each with its row of `rows` and its position in the table. -/
def activeSipms (sipms : List LoadDb.SipmRow) (rows : List (List Int)) : List ((LoadDb.SipmRow × List Int) × Nat) :=
  (sipms.zip rows).zipIdx.filter fun x => decide (x.1.1.active ≠ 0)

/-- The SiPM part of a peak: what the selection makes of the waveforms of the active SiPMs in the SiPM samples the piece touches, added up in groups of `k`; each SiPM is identified by its
position in the table. -/
def SipmPart (c : Config) (sipms : List LoadDb.SipmRow) (rows : List (List Int)) (piece : List Nat) (peak : Peak) : Prop :=
  ∃ first last n idx wfs, piece.head? = some first ∧ piece.getLast? = some last ∧
    c.sel ⟨(activeSipms sipms rows).map fun x => binsOf (first / c.ratio) (last / c.ratio + 1) (c.s2.rebin / c.ratio) (sipmWf x.1.1 x.1.2), n⟩ = .ok (idx, ⟨wfs, n⟩) ∧
    peak.sipms.ids = idx.map (fun i => ((activeSipms sipms rows).map Prod.snd).getD i 0) ∧ peak.sipms.wfs = ⟨wfs, n⟩ ∧ n = peak.times.length

/-- Hypotheses on the configuration that make the searches succeed. -/
structure Good (c : Config) (n nSipm : Nat) : Prop where
  rebin1 : 0 < c.s1.rebin
  rebin2 : 0 < c.s2.rebin
  ratio : 0 < c.ratio
  mult : c.ratio ∣ c.s2.rebin
  samples : (n - 1) / c.ratio < nSipm

/-- The peaks of a search in the samples `idx`. -/
def Found (s : Search) (w : ℚ) (idx : List Nat) (R : List Nat → Peak → Prop) (peaks : List Peak) : Prop :=
  ∃ pieces, IsGrouping idx s.stride pieces ∧ List.Forall₂ R (pieces.filter (inWindow s.time.min s.time.max s.length.min s.length.max w)) peaks

end Verif.PmapBuild
