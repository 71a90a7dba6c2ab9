import Verif.Spec.HitBuilder
import Verif.Model.ClusterHits
/-!
# Specification of the hits made from the clusters of each slice (property C104)
-/
namespace Verif.ClusterHits
open Verif.PMaps Verif.Peaks Verif.HitBuilder

/-- The hits of a slice of energy `e` with SiPMs at `xys` with charges `qs`. -/
structure IsSlice (reco : Reco) (xys : List (ℚ × ℚ)) (qs : List ℚ) (e : ℚ) (hits : List CHit) : Prop where
  /-- the reconstruction fails: one hit without position nor charge carries the energy of the slice -/
  failed : ∀ err, reco xys qs = .error err → hits.map (fun h => (h.x, h.y, h.q, h.nsipm, h.e)) = [(-999999, -999999, -999999, 0, e)]
  /-- otherwise, one hit per cluster, in order, with its position, charge and number of SiPMs -/
  found : ∀ cs, reco xys qs = .ok cs → hits.map (fun h => (h.x, h.y, h.q, h.nsipm)) = cs.map fun c => (c.x, c.y, c.q, c.nsipm)
  /-- its variances too -/
  var : ∀ cs, reco xys qs = .ok cs → hits.map (fun h => (h.vx, h.vy)) = cs.map fun c => (c.vx, c.vy)
  /-- and energies proportional to the charges of the clusters -/
  share : ∀ cs, reco xys qs = .ok cs → ∀ h ∈ hits, ∀ h' ∈ hits, h.e * h'.q = h'.e * h.q
  /-- that add up to the energy of the slice, but for the epsilon of the division -/
  energy : ∀ cs, reco xys qs = .ok cs → 0 < (cs.map XY.Cluster.q).sum → |(hits.map CHit.e).sum - e| ≤ |e| * (Hits.EPSILON / (cs.map XY.Cluster.q).sum)

/-- The hits of a selected peak, number `k` of the PMap: those of each slice of the rebinned peak, in order.  (Energies
and charges of clusters are assumed not to be negative: an energy of exactly -999999 would be taken for a missing one.) -/
def IsPeak (b : Builder) (reco : Reco) (tRef : ℚ) (p : Peak) (k : Nat) (hits : List CHit) : Prop :=
  ∃ (q : Peak) (xys : List (ℚ × ℚ)) (pos : ℚ × ℚ) (charges : List (List ℚ)) (blocks : List (List CHit)),
    rebinPeak p b.rebin = .ok q ∧
    xys.length = q.sipms.ids.length ∧ (∀ (j id : Nat), q.sipms.ids[j]? = some id → xys[j]? = b.xys[id]?) ∧
    PeakPos b q xys pos ∧ b.sliceCharges q = .ok charges ∧
    hits = blocks.flatten ∧ blocks.length = q.times.length ∧ charges.length = q.times.length ∧
    (∀ h ∈ hits, h.npeak = k ∧ h.xpeak = pos.1 ∧ h.ypeak = pos.2) ∧
    ∀ (i : Nat) (t e : ℚ) (qs : List ℚ), q.times[i]? = some t → q.pmts.sumOverSensors[i]? = some e → charges[i]? = some qs →
      ∃ block, blocks[i]? = some block ∧ (0 ≤ e → (∀ cs, reco xys qs = .ok cs → ∀ c ∈ cs, 0 ≤ c.q) → IsSlice reco xys qs e block) ∧ ∀ h ∈ block, h.z = (t - tRef) * b.driftV

end Verif.ClusterHits
