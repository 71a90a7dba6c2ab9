import Verif.Model.Detsim
/-!
# What the S2 simulation should give, in terms of times and light
-/
namespace Verif.Detsim

/-- A time is inside the bin `b` of a waveform that starts at `tmin`. -/
def InBin (tmin bin : ℚ) (b : Nat) (t : ℚ) : Prop := tmin + b * bin ≤ t ∧ t < tmin + (b + 1) * bin

instance (tmin bin : ℚ) (b : Nat) (t : ℚ) : Decidable (InBin tmin bin b t) := by unfold InBin; infer_instance

/-- The time at which an electron emits in the middle of the partition `k` of the EL gap. -/
def emission (lt : LightTable) (dv : ℚ) (e : Electron) (k : Nat) : ℚ := e.t + (k + 1 / 2) * (lt.elGap / lt.nz) / dv

/-- The light of an electron in partition `k` seen by a sensor: none for positions the table does not cover. -/
def seen (lt : LightTable) (e : Electron) (s k : Nat) : ℚ := ((lt.values e.x e.y s).getD []).getD k 0 * e.ph

/-- The light of all the electrons seen by a sensor. -/
def totalSeen (lt : LightTable) (es : List Electron) (s : Nat) : ℚ :=
  (es.map fun e => ((List.range lt.nz).map fun k => seen lt e s k).sum).sum

/-- The geometry is meaningful. -/
structure Geometry (lt : LightTable) (dv bin : ℚ) : Prop where
  nz : 0 < lt.nz
  gap : 0 < lt.elGap
  dv : 0 < dv
  bin : 0 < bin

end Verif.Detsim
