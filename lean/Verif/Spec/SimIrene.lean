import Verif.Model.SimIrene
import Verif.Spec.SimChain
import Verif.Spec.DiomiraChain
import Verif.Spec.IreneRun
/-!
# Vocabulary for the way from the simulated buffers to irene (property C132)
-/
namespace Verif.SimIrene
open Verif.DiomiraEvent Verif.DiomiraEvent.Spec
open Verif.IreneRun (Irene)

/-- The random numbers of an event: as many as samples, `n` in each PMT (the noise of the DAQ and of low frequency), one per sample of each SiPM. -/
structure DrawsSized (n : Nat) (i : Sources.WfItem Mat Unit) (d : PmtDraws × SipmDraws) : Prop where
  daq : ∀ k < i.pmt.rows.length, (d.1.each k).daq.length = n
  low : ∀ k < i.pmt.rows.length, ∀ l, d.1.low k = .ok l → l.length = n
  charge : List.Forall₂ (fun (r c : List ℚ) => c.length = r.length) i.sipm.rows d.2.charge

/-- The tables of diomira have as many SiPMs as those of irene. -/
structure SameSipms (j : Job) (c : Irene) : Prop where
  gains : j.sampler.adcToPes.length = c.sipms.length
  baselines : j.sampler.baselines.length = c.sipms.length
  sigmas : j.sigma.length = c.sipms.length

/-- What is read has the sensors of irene, and the samples of its SiPMs. -/
structure ItemSized (c : Irene) (i : Sources.WfItem Mat Unit) : Prop where
  pmts : i.pmt.rows.length = c.pmts.length
  sipms : i.sipm.rows.length = c.sipms.length
  samples : ∀ r ∈ i.sipm.rows, r.length = c.nSipm

/-- What irene gets (`i`) of what diomira got (`it`): the same number and time, and the waveforms that C111 says. -/
structure Passed (j : Job) (type : Option String) (draws : Sources.WfItem Mat Unit → PmtDraws × SipmDraws) (run : Int) (it : Sources.WfItem Mat Unit)
    (i : Sources.WfItem (List (List Int)) Unit) : Prop where
  event : i.event = it.event
  time : i.timestamp = it.timestamp
  run : i.runNumber = run
  waveforms : ∃ t r, setup j.pmts type j.conf = .ok t ∧ Processed j t ⟨it.event, it.pmt.rows, it.sipm.rows, (draws it).1, (draws it).2⟩ r ∧ i.pmt = r.raw ∧ r.sipm = some i.sipm

end Verif.SimIrene
