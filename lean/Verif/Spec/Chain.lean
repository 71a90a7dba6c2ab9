import Verif.Model.Chain
import Verif.Spec.Sophronia
import Verif.Spec.Beersheba
import Verif.Props.PMaps
/-!
# Vocabulary for the files between cities (property C125)
-/
namespace Verif.Chain
open Verif.Sophronia (OutHit Written)
open Verif.PMaps (Peak ValidPeak)

/-- The events accepted by sophronia, with what it wrote for each. -/
def accepted (ins : List Input) (ws : List Written) : List (Input × Written) := (ins.zip ws).filter fun p => p.2.passed

/-- The S2s of the event are as irene builds them. -/
structure Good (i : Input) : Prop where
  peaks : ∀ p ∈ i.s2s, ValidPeak p
  number : i.s2s.length ≤ 65536

/-- What the next city should get of an accepted event: its own hits and rows of the kdst, its number and time, and a warning if it has no hits. -/
def item (run : Int) (x : Input × Written) : Sources.HitsItem OutHit KrEvent.Row := ⟨x.2.hits, x.2.kdst, run, x.1.event, x.1.ts, decide (x.2.hits = [])⟩

/-- The energy of the S2s with these flags, as the PMTs see it. -/
def s2Energy (f2 : List Bool) (s2s : List Peak) : ℚ := ((HitBuilder.selectedS2s f2 s2s).map fun x => Sophronia.pmtEnergy x.1).sum

/-- The energy (not corrected) of some deconvolved hits. -/
def decoEnergy (hits : List DeconvSlice.OutHit) : ℚ := (hits.map fun o => o.hit.e.getD 0).sum

end Verif.Chain
