import Verif.Model.DiomiraChain
import Verif.Spec.DiomiraEvent
/-!
# Vocabulary for the file of diomira (property C130)
-/
namespace Verif.DiomiraChain
open Verif.DiomiraEvent Verif.DiomiraEvent.Spec

/-- What the next city should get of an event that passes the trigger: its number and time, the simulated waveforms of its PMTs and of its SiPMs. -/
def passedItem (run : Int) (x : (Event × ℚ) × Done) : Option (Sources.WfItem (List (List Int)) Unit) :=
  x.2.sipm.map fun s => ⟨x.2.raw, s, run, x.1.1.number, x.1.2, none, none⟩

/-- The simulated waveforms of an event have the sizes that irene expects. -/
def Fits (c : IreneRun.Irene) (r : Done) : Prop :=
  r.raw.length = c.pmts.length ∧ (∀ w ∈ r.raw, w.length = c.n) ∧ ∀ s, r.sipm = some s → s.length = c.sipms.length ∧ ∀ w ∈ s, w.length = c.nSipm

end Verif.DiomiraChain
