import Verif.Model.PMapsIO
/-!
# Vocabulary for the PMap round trip (C38, C48)
-/
namespace Verif.PMapsIO
open Verif.PMaps

/-- Responses of different sensors, one waveform of `n` samples each, with ids smaller than `bound`. -/
structure GoodResponses (n bound : Nat) (r : Responses) : Prop where
  distinct : r.ids.Nodup
  one_each : r.ids.length = r.wfs.rows.length
  lengths : ∀ wf ∈ r.wfs.rows, wf.length = n
  cols : r.wfs.ncols = n
  ids_fit : ∀ id ∈ r.ids, id < bound

/-- A peak with at least one sample and one width and one sample of each sensor per time. -/
structure GoodPeak (p : Peak) : Prop where
  not_empty : p.times ≠ []
  widths : p.widths.length = p.times.length
  pmts : GoodResponses p.times.length 256 p.pmts

/-- The SiPMs of an S2: none (whatever the shape of the array of waveforms), or good responses. -/
def GoodSipms (p : Peak) : Prop := p.sipms.ids = [] ∨ GoodResponses p.times.length 65536 p.sipms

/-- A PMap with good peaks, at most 65536 of each kind. -/
structure GoodPMap (pm : PMap) : Prop where
  s1s : ∀ p ∈ pm.s1s, GoodPeak p
  s2s : ∀ p ∈ pm.s2s, GoodPeak p ∧ GoodSipms p
  few_s1s : pm.s1s.length ≤ 65536
  few_s2s : pm.s2s.length ≤ 65536

/-- The same peak without SiPMs (those of S1s are not stored). -/
def withoutSipms (p : Peak) : Peak := { p with sipms := Responses.empty }

/-- The same peak, with the standard empty responses when there is no SiPM. -/
def normalSipms (p : Peak) : Peak := { p with sipms := if p.sipms.ids = [] then Responses.empty else p.sipms }

/-- What is expected back: the same PMap up to the SiPMs of the S1s and the representation of no SiPMs. -/
def expected (pm : PMap) : PMap := ⟨pm.s1s.map withoutSipms, pm.s2s.map normalSipms⟩

/-- A PMap with some peak. -/
def PMap.HasPeaks (pm : PMap) : Prop := pm.s1s ≠ [] ∨ pm.s2s ≠ []

end Verif.PMapsIO
