import Verif.Model.McInfo
/-!
# Vocabulary for the copy of the Monte Carlo information
-/
namespace Verif.McInfo

/-- The events of a file of simulation: those with particles or, if no event has particles, those with a sensor response. -/
def InFile (g : Group) (e : Int) : Prop :=
  if rowsOf g.particles = [] then ∃ r ∈ rowsOf g.response, r.event = e else ∃ r ∈ rowsOf g.particles, r.event = e

instance (g : Group) (e : Int) : Decidable (InFile g e) := by unfold InFile; infer_instance

/-- An event `n` of the output corresponds to the simulated event `e` of the file: through the event map, or because they are the same event of the file. -/
def Corresponds (f : File) (g : Group) (n e : Int) : Prop :=
  match f.eventMap with
  | some m => (n, e) ∈ m
  | none => n = e ∧ InFile g e

instance (f : File) (g : Group) (n e : Int) : Decidable (Corresponds f g n e) := by unfold Corresponds; split <;> infer_instance

/-- The simulated events of the file to be copied. -/
def Wanted (evts : List Int) (f : File) (g : Group) (e : Int) : Prop := ∃ n ∈ evts, Corresponds f g n e

instance (evts : List Int) (f : File) (g : Group) (e : Int) : Decidable (Wanted evts f g e) := by unfold Wanted; infer_instance

/-- The rows of a table of a file that have to be copied, for a file with or without Monte Carlo information. -/
def wantedRows (evts : List Int) (tbl : Group → Option (List Row)) (f : File) : List Row :=
  match f.mc with
  | none => []
  | some g => (rowsOf (tbl g)).filter fun r => decide (Wanted evts f g r.event)

/-- The files with Monte Carlo information. -/
def mcFiles (files : List File) : List (File × Group) := files.filterMap fun f => f.mc.map fun g => (f, g)

/-- The simulated events of a file that are looked for: with an event map, one per selected row of it; otherwise the selected events of the file in increasing order. -/
def lookedFor (evts : List Int) (f : File) (g : Group) : List Int :=
  match f.eventMap with
  | some m => (m.filter fun r => decide (r.1 ∈ evts)).map Prod.snd
  | none => Sources.groupKeys (evts.filter fun e => decide (InFile g e))

/-- The events that a file adds to the event mapping: those of its own mapping that are wanted, or those looked for if it has no mapping. -/
def mappedEvents (evts : List Int) (f : File) (g : Group) : List Int :=
  match g.mapping with
  | some t => (t.rows.map Prod.snd).filter fun e => decide (Wanted evts f g e)
  | none => lookedFor evts f g

/-- The rows of the configuration of a file. -/
def configOf (g : Group) : List Nat := match g.configuration with
  | none => []
  | some t => t.rows.map Prod.snd

/-- A table from a file that was not merged: without `file_index`, or with the same one in all the rows. -/
def OneIndex {α : Type} (t : ITable α) : Prop := t.indexed = false ∨ ∃ k : Int, ∀ r ∈ t.rows, r.1 = k

/-- A file whose events can be found: it has an event map or the tables that give its events. -/
def Readable (f : File) (g : Group) : Prop := f.eventMap ≠ none ∨ ∃ nums, eventNumbers g = .ok nums

end Verif.McInfo
