import Verif.Model.McConvert
import Verif.Spec.Binning
/-!
# Vocabulary for the copies of simulated files of the old format (property C131)
-/
namespace Verif.McConvert

/-- The row of the dataframe for a hit of the event: same numbers; the label loses what follows its 13th character. -/
structure SameHit (event : Int) (o : OldHit) (h : Hit) : Prop where
  event : h.event = event
  particle : h.particle = o.particle
  hit : h.hit = o.hit
  position : (h.x, h.y, h.z) = o.position
  time : h.time = o.time
  energy : h.energy = o.energy
  label : (o.label.length ≤ 13 → h.label = o.label) ∧ (13 < o.label.length → ∃ lost, lost ≠ [] ∧ o.label = h.label ++ lost ∧ h.label.length = 13)

/-- The row of the dataframe for a particle of the event; the columns that the old format lacks are NaN. -/
structure SameParticle (event : Int) (o : OldParticle) (p : Particle) : Prop where
  event : p.event = event
  id : p.id = o.index
  name : o.name.length ≤ 20 → p.name = o.name
  primary : p.primary = true ↔ o.primary ≠ 0
  mother : p.mother = o.mother
  initial : (p.initialX, p.initialY, p.initialZ, p.initialT) = o.initial
  final : (p.finalX, p.finalY, p.finalZ, p.finalT) = o.final
  initialVolume : o.initialVolume.length ≤ 20 → p.initialVolume = o.initialVolume
  finalVolume : o.finalVolume.length ≤ 20 → p.finalVolume = o.finalVolume
  momentum : (p.initialPx, p.initialPy, p.initialPz) = o.momentum
  energy : p.kinEnergy = o.kinEnergy
  creator : o.creator.length ≤ 20 → p.creator = o.creator
  lacking : p.finalPx = none ∧ p.finalPy = none ∧ p.finalPz = none ∧ p.length = none ∧ p.finalProc = none

/-- The row of the response for a signal of the event. -/
structure SameSignal (event : Int) (o : OldSignal) (r : McInfo.SnsRow) : Prop where
  event : r.event = event
  sensor : r.sensor = o.sensor
  bin : r.bin = o.bin
  charge : r.charge = o.charge

/-- The extents of a table (`last x` is the position of the last row of event `x`) go up and end with the table. -/
def Extents {α : Type} (last : Extent → Int) (f : OldFile) (rows : List α) : Prop :=
  List.Pairwise (fun a b : Int => a < b) (f.extents.map last) ∧ (rows = [] ∨ ∃ x ∈ f.extents, last x + 1 = rows.length)

/-- `row` is in the extent of an event: after the last row of the previous one and not after its own last one. -/
def InExtent (last : Extent → Int) (f : OldFile) (row : Nat) (event : Int) : Prop :=
  ∃ (k : Nat) (x : Extent), f.extents[k]? = some x ∧ x.event = event ∧ (row : Int) ≤ last x ∧ ∀ (j : Nat) (y : Extent), j < k → f.extents[j]? = some y → last y < row

/-- `out` has, in order and with the relation `same`, the rows of the table that are in the extent of one of the events. -/
def Copied {α β : Type} (last : Extent → Int) (same : Int → α → β → Prop) (f : OldFile) (rows : List α) (evts : List Int) (out : List β) : Prop :=
  ∃ owners : List Int, owners.length = rows.length ∧ (∀ (i : Nat) (e : Int), owners[i]? = some e → InExtent last f i e) ∧
    List.Forall₂ (fun (x : Int × α) y => same x.1 x.2 y) ((owners.zip rows).filter fun x => decide (x.1 ∈ evts)) out

/-- The events that are copied: those asked for, or all of the extents. -/
def wanted (f : OldFile) (which : Option (List Int)) : List Int := which.getD (f.extents.map Extent.event)

/-- The name that a parameter of the old format takes: those of the samplings of the PMTs and of the SiPMs have a fixed one, the others keep theirs. -/
def Renamed (old new : Binning.Text) : Prop :=
  (Binning.Follows "Pmt".toList "_binning".toList old ∧ new = "PmtR11410_binning".toList) ∨
  (¬ Binning.Follows "Pmt".toList "_binning".toList old ∧ Binning.Follows "SiPM".toList "_binning".toList old ∧ new = "SiPM_binning".toList) ∨
  (¬ Binning.Follows "Pmt".toList "_binning".toList old ∧ ¬ Binning.Follows "SiPM".toList "_binning".toList old ∧ new = old)

end Verif.McConvert
