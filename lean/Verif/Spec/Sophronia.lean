import Verif.Model.Sophronia
import Verif.Spec.HitBuilder
import Verif.Spec.KrApply
import Verif.Spec.Clusters
import Verif.Spec.KrEvent
/-!
# Specification of the events of sophronia (property C122)
-/
namespace Verif.Sophronia
open Verif.PMaps Verif.Peaks

/-- The selector accepts the event, and the S1s and S2s with these flags. -/
def Accepted (c : Cfg) (s1s s2s : List Peak) (f1 f2 : List Bool) : Prop :=
  Filters.pmapFilter c.selector s1s s2s = .ok ⟨true, f1, f2⟩

/-- The hits found in the selected S2s of the event, before any merge: for each S2 in order, for each slice in order, the SiPMs over the threshold, or a hit without charge (-999999). -/
def Found (c : Cfg) (f1 f2 : List Bool) (s1s s2s : List Peak) (event : Int) (ts : ℚ) (rows : List HitBuilder.Row) : Prop :=
  ∃ t, HitBuilder.RefTime f1 f2 s1s s2s t ∧ ∃ blocks,
    List.Forall₂ (fun (x : Peak × Nat) rows => HitBuilder.PeakHits c.builder event (ts / 1000) t x.1 x.2 rows) (HitBuilder.selectedS2s f2 s2s) blocks ∧
    rows = blocks.flatten

/-- The hits with charge. -/
def real (rows : List HitBuilder.Row) : List HitBuilder.Row := rows.filter fun r => decide (r.q ≠ -999999)

/-- The hit written has the columns of the hit found; z is converted by the corrections that ask for it. -/
def SameHit (c : Cfg) (r : HitBuilder.Row) (o : OutHit) : Prop :=
  o.event = r.event ∧ o.time = r.time ∧ o.npeak = r.npeak ∧ o.xpeak = r.xpeak ∧ o.ypeak = r.ypeak ∧ o.x = r.x ∧ o.y = r.y ∧ o.q = r.q ∧
    (∀ k, c.corrections = some k → o.z = if k.applyZ then r.z * Wfm.median k.dvs else r.z) ∧ (c.corrections = none → o.z = r.z)

/-- The energy seen by the PMTs in a peak. -/
def pmtEnergy (p : Peak) : ℚ := (p.pmts.wfs.rows.map List.sum).sum

/-- The energy of some hits. -/
def energy (hits : List OutHit) : ℚ := (hits.map fun o => o.e.getD 0).sum

/-- Every slice of the (rebinned) peak has PMT energy. -/
def Bright (rebin : RebinMethod) (p : Peak) : Prop := ∀ q, rebinPeak p rebin = .ok q → ∀ e ∈ q.pmts.sumOverSensors, 0 < e

/-- The map and the parameters of the corrections can be used. -/
structure MapOk (k : Corr) : Prop where
  nearest : KrApply.Nearest k.pick
  noTemp : k.applyTemp = false
  norm : ∃ n, KrApply.normalization k.krmap k.method k.xy = .ok (some n) ∧ n ≠ 0
  bins : ∀ b ∈ k.krmap, b.mu ≠ some 0
  mev : k.mev ≠ 0

/-- A position and event for the clusters. -/
def point (o : OutHit) : Clusters.Hit Unit := ⟨o.event, o.x, o.y, o.z, ()⟩

end Verif.Sophronia
