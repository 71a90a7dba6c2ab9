import Verif.Model.LoadDb
/-!
# Vocabulary of the database
-/
namespace Verif.LoadDb

/-- The run whose constants are used: 3012 for simulation (0), without sign. -/
def effective (run : Int) : Int := if run = 0 then 3012 else |run|

/-- A row of the tables of positions, mappings, masks and gains that is valid for a run: its last run is known. -/
def Closed (run : Int) (r : Runs) : Prop := r.lo ≤ run ∧ ∃ h, r.hi = some h ∧ run ≤ h

/-- A row of the other tables that is valid for a run: perhaps without last run. -/
def Open (run : Int) (r : Runs) : Prop := r.lo ≤ run ∧ ∀ h, r.hi = some h → run ≤ h

/-- In each table at most one row is valid for a sensor or a channel. -/
structure Single (db : Db) (run : Int) : Prop where
  pos : db.pos.Pairwise fun a b => Closed run a.runs → Closed run b.runs → a.sensor ≠ b.sensor
  mapping : db.mapping.Pairwise fun a b => Closed run a.runs → Closed run b.runs → a.sensor ≠ b.sensor
  mask : db.mask.Pairwise fun a b => Closed run a.runs → Closed run b.runs → a.sensor ≠ b.sensor
  gain : db.gain.Pairwise fun a b => Closed run a.runs → Closed run b.runs → a.sensor ≠ b.sensor
  noiseRms : db.noiseRms.Pairwise fun a b => Open run a.runs → Open run b.runs → a.elec ≠ b.elec
  blr : db.blr.Pairwise fun a b => Open run a.runs → Open run b.runs → a.elec ≠ b.elec

/-- A row of the table that satisfies the condition, or nothing if there is none. -/
def Found {α : Type} (rows : List α) (P : α → Prop) (o : Option α) : Prop := (o = none ∧ ∀ a ∈ rows, ¬ P a) ∨ ∃ a ∈ rows, P a ∧ o = some a

/-- A name that begins with PMT, in upper or lower case. -/
def IsPmtName (label : Option String) : Prop := ∃ s a b c rest, label = some s ∧ s.toList = a :: b :: c :: rest ∧ a.toUpper = 'P' ∧ b.toUpper = 'M' ∧ c.toUpper = 'T'

/-- A SiPM with position, gain and channel in a run. -/
def Listed (db : Db) (run : Int) (p : Pos) (g : Gain) (m : Mapping) : Prop :=
  (p ∈ db.pos ∧ g ∈ db.gain ∧ m ∈ db.mapping) ∧ (100 < p.sensor ∧ g.sensor = p.sensor ∧ m.sensor = p.sensor) ∧ Closed run p.runs ∧ Closed run g.runs ∧ Closed run m.runs

/-- There is no measurement of sigma: all are unknown, or all are 0. -/
def NoSigma (db : Db) (run : Int) : Prop := (∀ p g m, Listed db run p g m → g.sigma = none) ∨ (∀ p g m, Listed db run p g m → g.sigma = some 0)

/-- The noise is complete: each sensor with a baseline has one probability for each bin, and there are no others. -/
structure Complete (db : Db) (run : Int) : Prop where
  baseline : db.baseline.Pairwise fun a b => Open run a.runs → Open run b.runs → a.sensor ≠ b.sensor
  single : db.noisePdf.Pairwise fun a b => Open run a.runs → Open run b.runs → ¬ (a.sensor = b.sensor ∧ a.bin = b.bin)
  known : ∀ n ∈ db.noisePdf, Open run n.runs → ∃ b ∈ db.baseline, Open run b.runs ∧ b.sensor = n.sensor
  all : ∀ b ∈ db.baseline, Open run b.runs → ∀ n ∈ db.noisePdf, Open run n.runs → ∃ n' ∈ db.noisePdf, Open run n'.runs ∧ n'.sensor = b.sensor ∧ n'.bin = n.bin

end Verif.LoadDb
