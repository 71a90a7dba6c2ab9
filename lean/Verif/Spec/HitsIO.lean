import Verif.Model.HitsIO
/-!
# Vocabulary for the files of hits and voxels
-/
namespace Verif.HitsIO.Spec

/-- The charge of a row: its energy if the table has no charges. -/
def Charge (c : Cols) (r : Row) (q : ℚ) : Prop := (c.Q = true ∧ q = r.Q) ∨ (c.Q = false ∧ q = r.E)

/-- The time of a row: -1 if the table has no times; a NaN is no time. -/
def TimeIs (c : Cols) (r : Row) (t : ℚ) : Prop := (c.time = true ∧ r.time = some t) ∨ (c.time = false ∧ t = -1)

/-- The row is to be read: unless hits without charge are skipped and this is one. -/
def Kept (c : Cols) (skipNN : Bool) (r : Row) : Prop := skipNN = true → ¬ Charge c r (-999999)

instance (c : Cols) (r : Row) (q : ℚ) : Decidable (Charge c r q) := by unfold Charge; infer_instance
instance (c : Cols) (r : Row) (t : ℚ) : Decidable (TimeIs c r t) := by unfold TimeIs; infer_instance
instance (c : Cols) (s : Bool) (r : Row) : Decidable (Kept c s r) := by unfold Kept; infer_instance

/-- The rows of an event to be read. -/
def rowsOf (c : Cols) (skipNN : Bool) (rows : List Row) (event : Int) : List Row := rows.filter fun r => decide (r.event = event ∧ Kept c skipNN r)

/-- The rows of an event and a time to be read. -/
def selected (c : Cols) (s : Bool) (rows : List Row) (e : Int) (t : ℚ) : List Row :=
  rows.filter fun r => decide (r.event = e ∧ TimeIs c r t ∧ Kept c s r)

/-- The hit says what the row says, with the documented values for the columns that are absent; an energy `NN` is replaced by the charge. -/
structure HitOf (c : Cols) (r : Row) (h : Hit) : Prop where
  npeak : h.npeak = r.npeak
  pos : (h.X, h.Y, h.Z) = (r.X, r.Y, r.Z)
  charge : Charge c r h.Q
  energy : (r.E ≠ -999999 → h.E = r.E) ∧ (r.E = -999999 → h.E = h.Q)
  xpeak : h.Xpeak = if c.Xpeak then r.Xpeak else -1000
  ypeak : h.Ypeak = if c.Ypeak then r.Ypeak else -1000
  ec : h.Ec = if c.Ec then r.Ec else -1
  track : h.track = if c.track then r.track else -1
  ep : h.Ep = if c.Ep then r.Ep else -1
  qc : h.Qc = 0

/-- What a file of hits keeps of a hit. -/
structure SameStored (h g : Hit) : Prop where
  npeak : g.npeak = min h.npeak 65535
  pos : (g.X, g.Y, g.Z) = (h.X, h.Y, h.Z)
  charge : g.Q = h.Q
  energy : g.E = h.E
  peak : (g.Xpeak, g.Ypeak) = (h.Xpeak, h.Ypeak)
  ec : g.Ec = h.Ec
  lost : g.Qc = 0 ∧ g.track = 0 ∧ g.Ep = -1

/-- The row of a voxel with its event, time, number of track and number in the track. -/
def trackRow (event : Int) (time : ℚ) (track voxel : Nat) (v : Voxel) : TrackRow := ⟨event, time, track, voxel, v.X, v.Y, v.Z, v.E⟩

end Verif.HitsIO.Spec
