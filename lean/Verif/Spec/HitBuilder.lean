import Verif.Model.HitBuilder
import Verif.Spec.KrEvent
/-!
# Specification of the hits made from a PMap (property C53)
-/
namespace Verif.HitBuilder
open Verif.PMaps Verif.Peaks

/-- Position `i` is the first one set in the flags. -/
def FirstSet (flags : List Bool) (i : Nat) : Prop := flags[i]? = some true ∧ ∀ j < i, flags[j]? = some false

/-- The reference time of the event: the time of the maximum of the first selected S1, or the start of the first selected S2. -/
inductive RefTime (f1 f2 : List Bool) (s1s s2s : List Peak) : ℚ → Prop where
  | s1 {i p t} : FirstSet f1 i → s1s[i]? = some p → p.timeAtMaxEnergy = .ok t → RefTime f1 f2 s1s s2s t
  | s2 {j p t} : (∀ x ∈ f1, x = false) → FirstSet f2 j → s2s[j]? = some p → p.times.head? = some t → RefTime f1 f2 s1s s2s t

/-- The S2s selected by the flags, with their position in the PMap. -/
def selectedS2s (f2 : List Bool) (s2s : List Peak) : List (Peak × Nat) :=
  ((f2.zip s2s).zipIdx.filter fun x => x.1.1).map fun x => (x.1.2, x.2)

/-- The hits of a slice with energy `e`, whose SiPMs are at `xys` with charges `qs`. -/
structure SliceHits (thr : ℚ) (xys : List (ℚ × ℚ)) (qs : List ℚ) (e : ℚ) (rows : List Row) : Prop where
  /-- no SiPM reaches the threshold: one hit without position carries the energy -/
  none : (∀ q ∈ qs, q < thr) → rows.map (fun r => (r.x, r.y, r.q, r.e)) = [(-999999, -999999, -999999, e)]
  /-- otherwise, one hit per SiPM that reaches it, in order -/
  some : (∃ q ∈ qs, thr ≤ q) → rows.map (fun r => ((r.x, r.y), r.q)) = (xys.zip qs).filter fun s => decide (thr ≤ s.2)
  /-- energies are proportional to charges -/
  share : (∃ q ∈ qs, thr ≤ q) → ∀ r ∈ rows, ∀ r' ∈ rows, r.e * r'.q = r'.e * r.q
  /-- and add up to the energy of the slice, but for the epsilon of the division -/
  energy : 0 < thr → |(rows.map Row.e).sum - e| ≤ |e| * Hits.EPSILON / thr

/-- The position of a peak. -/
inductive PeakPos (b : Builder) (q : Peak) (xys : List (ℚ × ℚ)) : ℚ × ℚ → Prop where
  | found {qs c cs} : b.pointCharges q = .ok qs → b.reco xys qs = .ok (c :: cs) → PeakPos b q xys c
  | failed {qs e} : b.pointCharges q = .ok qs → b.reco xys qs = .error e → KrEvent.RecoFailure e → PeakPos b q xys (-999999, -999999)

/-- The hits of a selected peak, number `k` of the PMap: those of each slice of the rebinned peak, in order. -/
def PeakHits (b : Builder) (event : Int) (time tRef : ℚ) (p : Peak) (k : Nat) (rows : List Row) : Prop :=
  ∃ (q : Peak) (xys : List (ℚ × ℚ)) (pos : ℚ × ℚ) (charges : List (List ℚ)) (blocks : List (List Row)),
    rebinPeak p b.rebin = .ok q ∧
    xys.length = q.sipms.ids.length ∧ (∀ (j id : Nat), q.sipms.ids[j]? = some id → xys[j]? = b.xys[id]?) ∧
    PeakPos b q xys pos ∧ b.sliceCharges q = .ok charges ∧
    rows = blocks.flatten ∧ blocks.length = q.times.length ∧ charges.length = q.times.length ∧
    (∀ r ∈ rows, r.event = event ∧ r.time = time ∧ r.npeak = k ∧ r.xpeak = pos.1 ∧ r.ypeak = pos.2) ∧
    ∀ (i : Nat) (t e : ℚ) (qs : List ℚ), q.times[i]? = some t → q.pmts.sumOverSensors[i]? = some e → charges[i]? = some qs →
      ∃ block, blocks[i]? = some block ∧ SliceHits b.qThr xys qs e block ∧ ∀ r ∈ block, r.z = (t - tRef) * b.driftV

end Verif.HitBuilder
