import Verif.Model.BuffyEvent
/-!
# Specification of C107: what is in a buffer
-/
namespace Verif.BuffyEvent
open Verif.Buffers

/-- A configuration that makes sense: the SiPM samples last a whole number of PMT samples and the buffer has room for the pre-trigger and a SiPM sample. -/
structure Pars.Good (p : Pars) (m : Nat) : Prop where
  width : 0 < p.pmtW
  ratio : 0 < m ∧ p.sipmW = m * p.pmtW
  pre : 0 ≤ p.preTrigger
  room : p.preTrigger + p.sipmW ≤ p.bufferLen
  time : 0 < p.maxTime
  thr : 0 ≤ p.thr
  pmts : p.pmtDb.Pairwise (· < ·)
  sipms : p.sipmDb.Pairwise (· < ·)

/-- A response in both planes, of sensors of the detector. -/
structure Seen (p : Pars) (ev : Event) : Prop where
  pmt : ev.pmt ≠ []
  sipm : ev.sipm ≠ []
  pmtIds : ∀ d ∈ ev.pmt, d.sensor ∈ p.pmtDb
  sipmIds : ∀ d ∈ ev.sipm, d.sensor ∈ p.sipmDb

/-- The time of the first charge, and the end of the data: the last charge or the maximum time after the first. -/
def firstTime (ev : Event) : ℚ := min (Voxels.npMin (ev.pmt.map (·.time))) (Voxels.npMin (ev.sipm.map (·.time)))
def lastTime (p : Pars) (ev : Event) : ℚ :=
  min (max (Voxels.npMax (ev.pmt.map (·.time))) (Voxels.npMax (ev.sipm.map (·.time))) + min p.pmtW p.sipmW) (firstTime ev + p.maxTime)

/-- The end of the last sample of width `w`. -/
def lastEdge (p : Pars) (ev : Event) (w : ℚ) : ℚ := ⌈lastTime p ev / w⌉ * w

/-- The sample of width `w` a time belongs to (the last one includes its end). -/
def sampleOf (w last t : ℚ) : Int := if t = last then ⌊t / w⌋ - 1 else ⌊t / w⌋

/-- The charge in the sample `n` (from `n w` to `(n+1) w`). -/
def charge (rows : List Resp) (w last : ℚ) (n : Int) : ℚ :=
  (rows.map fun d => if d.time ≤ last ∧ sampleOf w last d.time = n then d.charge else 0).sum

/-- The charge of one sensor. -/
def chargeOf (rows : List Resp) (s : Nat) (w last : ℚ) (n : Int) : ℚ := charge (rows.filter fun d => d.sensor = s) w last n

/-- A plane of a buffer: a row of `len` samples per sensor of the database, with the charge of that sensor in consecutive samples from `start`. -/
def Plane (rows : List Resp) (db : List Nat) (w last : ℚ) (start : Int) (len : Nat) (m : Mat) : Prop :=
  m.ncols = len ∧ m.rows.length = db.length ∧ ∀ (i s : Nat), db[i]? = some s → ∃ row, m.rows[i]? = some row ∧ row.length = len ∧
    ∀ j < len, row.getD j 0 = truncZ (chargeOf rows s w last (start + j))

/-- The buffer of the trigger in the PMT sample `n`: it starts the pre-trigger, in whole samples, before the SiPM sample of the trigger. -/
structure IsBuffer (p : Pars) (m : Nat) (ev : Event) (n : Int) (time : ℚ) (b : Mat × Mat) : Prop where
  time : time = ev.timestamp + n * p.pmtW
  pmt : Plane ev.pmt p.pmtDb p.pmtW (lastEdge p ev p.pmtW) (n / (m : Int) * m - ⌊p.preTrigger / p.pmtW⌋) ⌊p.bufferLen / p.pmtW⌋.toNat b.1
  sipm : Plane ev.sipm p.sipmDb p.sipmW (lastEdge p ev p.sipmW) (n / (m : Int) - ⌊p.preTrigger / p.sipmW⌋) ⌊p.bufferLen / p.sipmW⌋.toNat b.2

/-- A trigger: a sample with the charge of all the PMTs above threshold, and none like it in the buffer length before. -/
def Trigger (p : Pars) (ev : Event) (n : Int) : Prop :=
  p.thr < charge ev.pmt p.pmtW (lastEdge p ev p.pmtW) n ∧
    ∀ u, p.thr < charge ev.pmt p.pmtW (lastEdge p ev p.pmtW) u → u < n → u + ⌊p.bufferLen / p.pmtW⌋ < n

/-- The row `r` of the four tables is that of the `j`-th trigger of the event, in the PMT sample `n`. -/
def TriggerRow (p : Pars) (m runNumber : Nat) (t : Tables) (ev : Event) (r j : Nat) (n : Int) : Prop :=
  (∃ ns : List Int, ns.Pairwise (· < ·) ∧ (∀ n, n ∈ ns ↔ Trigger p ev n) ∧ ns[j]? = some n) ∧
  ∃ time b, t.events[r]? = some (runNumber, ev.number * maxSubevt p.maxTime p.bufferLen + j, time) ∧
    t.eventMap[r]? = some (ev.number * maxSubevt p.maxTime p.bufferLen + j, ev.number) ∧ t.pmtrd[r]? = some b.1 ∧ t.sipmrd[r]? = some b.2 ∧ IsBuffer p m ev n time b

end Verif.BuffyEvent
