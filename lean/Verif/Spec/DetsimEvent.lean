import Verif.Model.DetsimEvent
import Verif.Spec.Buffers
import Verif.Spec.Detsim
import Verif.Props.S1
import Verif.Props.S2Light
/-!
# Specification of C109: what detsim writes for an event
-/
namespace Verif.DetsimEvent
open Verif.Detsim Verif.Buffers

/-- A configuration that makes sense: the SiPM samples last a whole number of PMT samples, the maximum time a whole number of SiPM samples, the buffer has room for the pre-trigger
and a SiPM sample, the tables are not negative and cover the same PMTs; `T` is the light table of the S1. -/
structure Pars.Good (p : Pars) (m k : Nat) (T : List (ℚ × ℚ × ℚ) → List (List ℚ)) : Prop where
  width : 0 < p.pmtW
  ratio : 0 < m ∧ p.sipmW = m * p.pmtW
  time : 0 < k ∧ p.maxTime = k * p.sipmW
  pre : 0 ≤ p.preTrigger
  room : p.preTrigger + p.sipmW ≤ p.bufferLen
  thr : 0 ≤ p.thr
  pmt : Geometry p.ltPmt p.elDv p.pmtW
  sipm : Geometry p.ltSipm p.elDv p.sipmW
  npmt : 0 < p.npmt ∧ p.ltPmt.nsens = p.npmt
  nsipm : 0 < p.ltSipm.nsens
  pmtValues : ∀ x y s vals, p.ltPmt.values x y s = some vals → ∀ v ∈ vals, 0 ≤ v
  sipmValues : ∀ x y s vals, p.ltSipm.values x y s = some vals → ∀ v ∈ vals, 0 ≤ v
  table : ∀ pos, p.s1Table pos = .ok (T pos) ∧ (T pos).length = pos.length ∧ ∀ row ∈ T pos, ∀ v ∈ row, 0 ≤ v
  scint : 0 ≤ p.limit ∧ ∀ i, 0 ≤ p.frac i

/-- The labels of the volumes in an event: their names, or the first numbers the table gives to them. -/
def Labels (ev : Event) (a b : String) : Prop :=
  match ev.names with
  | none => a = "ACTIVE" ∧ b = "BUFFER"
  | some tab => NumberOf tab "ACTIVE" a ∧ NumberOf tab "BUFFER" b

/-- The first hit of an event. -/
def IsFirst (ev : Event) (f : MCHit) : Prop := f ∈ ev.hits ∧ ∀ h ∈ ev.hits, f.time ≤ h.time

/-- The hits used: those of the maximum time after the first hit, in the active volume or in the buffer; and those that give electrons, only in the active volume. -/
def usedHits (p : Pars) (ev : Event) (f : MCHit) (a b : String) : List MCHit := ev.hits.filter fun h => decide (h.time < f.time + p.maxTime ∧ (h.label = a ∨ h.label = b))
def activeHits (p : Pars) (ev : Event) (f : MCHit) (a : String) : List MCHit := ev.hits.filter fun h => decide (h.time < f.time + p.maxTime ∧ h.label = a)

/-- The time of the beginning of the data, and their length in samples of the SiPMs: from the sample of the first hit used to that in which the last electron leaves the EL gap, or the
maximum time. -/
def IsSpan (p : Pars) (hits : List MCHit) (es : List ElElectron) (tmin : ℚ) (n : Nat) : Prop :=
  (∃ h ∈ hits, (∀ g ∈ hits, h.time ≤ g.time) ∧ tmin = ⌊h.time / p.sipmW⌋ * p.sipmW) ∧
  ∃ e ∈ es, (∀ g ∈ es, g.t ≤ e.t) ∧ n * p.sipmW = min p.maxTime (⌈(e.t + p.ltSipm.elGap / p.elDv) / p.sipmW⌉ * p.sipmW - tmin)

/-- The mean S1 of a PMT in a sample: each hit gives its photons, by the value of the table, by the fraction of the scintillation between its sample and this one. -/
def s1Mean (p : Pars) (photons : List Nat) (table : List (List ℚ)) (hits : List MCHit) (tmin : ℚ) (n : Nat) (s b : Nat) : ℚ :=
  ((List.range hits.length).map fun i : Nat => ((List.range n).map fun a : Nat =>
    if a ≤ b ∧ HitBin tmin p.pmtW n a ((hits.map (·.time)).getD i 0) then
      (photons.getD i 0 : ℚ) * (table.getD i []).getD s 0 * scint p.frac p.limit (n * p.pmtW) p.pmtW (b - a) else 0).sum).sum

/-- An electron at the end of its drift, as a source of light: its position, the time it arrives and its photons. -/
def atEl (e : ElElectron) : Electron := { x := e.x, y := e.y, t := e.t, ph := e.ph }

/-- The S2 light a sensor gets from the partitions of the gap crossed during a sample. -/
def gapLight (lt : LightTable) (dv w tmin : ℚ) (es : List ElElectron) (s b : Nat) : ℚ :=
  (es.map fun e => ((List.range lt.nz).map fun k : Nat => if InBin tmin w b (emission lt dv (atEl e) k) then seen lt (atEl e) s k else 0).sum).sum

/-- The samples a partition of the gap lasts, rounded up. -/
def crossing (lt : LightTable) (dv w : ℚ) : Nat := ⌈lt.elGap / lt.nz / dv / w⌉.toNat

/-- The mean S2 of a sensor in a sample: that of the sample or, if the partitions last longer, of the samples around it, each shared by as many samples as a partition lasts. -/
def s2Mean (lt : LightTable) (dv w tmin : ℚ) (es : List ElElectron) (n : Nat) (s b : Nat) : ℚ :=
  if crossing lt dv w ≤ 1 then gapLight lt dv w tmin es s b
  else ((List.range n).map fun h : Nat => if crossing lt dv w / 2 ≤ h ∧ h ≤ b + crossing lt dv w / 2 ∧ b < h + (crossing lt dv w - crossing lt dv w / 2) then
    gapLight lt dv w tmin es s h / (crossing lt dv w : Nat) else 0).sum

/-- Waveforms with `n` samples for each of `nsens` sensors, given by a function. -/
def Wfs (wfs : List (List ℚ)) (nsens n : Nat) (f : Nat → Nat → ℚ) : Prop :=
  wfs.length = nsens ∧ ∀ s < nsens, ∃ row, wfs[s]? = some row ∧ row.length = n ∧ ∀ b < n, row.getD b 0 = f s b

/-- The waveforms of an event. -/
structure Simulated (p : Pars) (m : Nat) (T : List (ℚ × ℚ × ℚ) → List (List ℚ)) (d : Draws) (hits : List MCHit) (es : List ElElectron) (tmin : ℚ) (n : Nat)
    (pmt sipm : List (List ℚ)) : Prop where
  pmt : Wfs pmt p.npmt (n * m) fun s b =>
    (d.s1 s b (s1Mean p d.photons (T (hits.map fun h => (h.x, h.y, h.z))) hits tmin (n * m) s b) : ℚ) + d.s2 s b (s2Mean p.ltPmt p.elDv p.pmtW tmin es (n * m) s b)
  sipm : Wfs sipm p.ltSipm.nsens n fun s b => (d.sipm s b (s2Mean p.ltSipm p.elDv p.sipmW tmin es n s b) : ℚ)

/-- The charge of all the PMTs in a sample. -/
def charge (pmt : List (List ℚ)) (i : Nat) : ℚ := (pmt.map fun r => r.getD i 0).sum

/-- A trigger: a sample with the charge of all the PMTs above threshold, and none like it in the buffer length before. -/
def Trigger (p : Pars) (pmt : List (List ℚ)) (i : Nat) : Prop :=
  p.thr < charge pmt i ∧ ∀ u, p.thr < charge pmt u → u < i → u + ⌊p.bufferLen / p.pmtW⌋.toNat < i

/-- The time and buffers of the trigger in the PMT sample `i`: they start the pre-trigger, in whole samples, before the SiPM sample of the trigger. -/
structure IsBuffer (p : Pars) (m : Nat) (timestamp : ℚ) (pmt sipm : List (List ℚ)) (i : Nat) (time : ℚ) (b : Mat × Mat) : Prop where
  time : time = timestamp + i * p.pmtW
  pmt : IsWindow pmt ((i / m * m : Nat) - ⌊p.preTrigger / p.pmtW⌋) ⌊p.bufferLen / p.pmtW⌋.toNat b.1
  sipm : IsWindow sipm ((i / m : Nat) - ⌊p.preTrigger / p.sipmW⌋) ⌊p.bufferLen / p.sipmW⌋.toNat b.2

/-- What is assumed of the values drawn in an event with energy in the active volume: the electrons `es` they give (C59) have no negative numbers of photons and do not reach the EL before the
SiPM sample of every hit used; and there is a number of S1 photons per hit. -/
structure Drawn (p : Pars) (d : Draws) (ev : Event) (f : MCHit) (a b : String) (es : List ElElectron) : Prop where
  electrons : simulateElectrons p.sq p.wi p.fano p.dt p.dl p.dv (activeHits p ev f a) d.ions d.lifetimes d.electrons = .ok es
  photons : ∀ e ∈ es, 0 ≤ e.ph
  early : ∀ e ∈ es, ∃ h ∈ usedHits p ev f a b, ⌊h.time / p.sipmW⌋ * p.sipmW ≤ e.t
  s1 : d.photons.length = (usedHits p ev f a b).length

/-- The waveforms of an event with light, of `n` SiPM samples. -/
def IsEvent (p : Pars) (m k : Nat) (T : List (ℚ × ℚ × ℚ) → List (List ℚ)) (d : Draws) (ev : Event) (pmt sipm : List (List ℚ)) : Prop :=
  ∃ f a b es tmin n, Labels ev a b ∧ IsFirst ev f ∧ (∃ h ∈ activeHits p ev f a, h.energy ≠ 0) ∧ Drawn p d ev f a b es ∧ (∃ e ∈ es, 0 < e.ph) ∧
    IsSpan p (usedHits p ev f a b) es tmin n ∧ 0 < n ∧ n ≤ k ∧ Simulated p m T d (usedHits p ev f a b) es tmin n pmt sipm

/-- An event detsim can process: it has hits, volumes with labels, and, if there is energy in the active volume, what is drawn makes sense. -/
def Valid (p : Pars) (d : Draws) (ev : Event) : Prop :=
  ∃ f a b, Labels ev a b ∧ IsFirst ev f ∧ ((∃ h ∈ activeHits p ev f a, h.energy ≠ 0) → ∃ es, Drawn p d ev f a b es)

/-- The row `r` of the four tables is that of the `j`-th trigger of the event, in the PMT sample `i`. -/
def TriggerRow (p : Pars) (m k runNumber : Nat) (T : List (ℚ × ℚ × ℚ) → List (List ℚ)) (t : Tables) (d : Draws) (ev : Event) (r j i : Nat) : Prop :=
  ∃ pmt sipm, IsEvent p m k T d ev pmt sipm ∧ (∃ ns : List Nat, ns.Pairwise (· < ·) ∧ (∀ i, i ∈ ns ↔ Trigger p pmt i) ∧ ns[j]? = some i) ∧
  ∃ time b, t.events[r]? = some (runNumber, ev.number * maxSubevt p.maxTime p.bufferLen + j, time) ∧
    t.eventMap[r]? = some (ev.number * maxSubevt p.maxTime p.bufferLen + j, ev.number) ∧ t.pmtrd[r]? = some b.1 ∧ t.sipmrd[r]? = some b.2 ∧
    IsBuffer p m ev.timestamp pmt sipm i time b

end Verif.DetsimEvent
