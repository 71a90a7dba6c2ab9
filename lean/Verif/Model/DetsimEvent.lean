import Verif.Model.DetsimS1
/-!
# Model of what detsim does with an event (`cities/detsim.py`, `s1_waveforms_creator` of `detsim/detsim_waveforms.py`, `calculate_and_save_buffers` of `cities/components.py`)

The functions are those of `Model/Detsim`, `Model/DetsimS1` and `Model/Buffers`, put together as in the city. What is drawn is an argument: the values
used by the simulation of electrons, the photons of each hit, and a function that gives what the Poisson generator draws for a mean.
Simplifications: those of these models; the S1 light table is a function of the positions; the source, the tables of the filters and the counters are in `Model/Cities`.
-/
namespace Verif.DetsimEvent
open Verif.Detsim Verif.Buffers

/-- The parameters of the city (detsim.py:154-185), after `check_max_time`; `limit` is 2 µs; `frac`, the fraction of scintillation in each bin; `sq`, the square root. -/
structure Pars where
  bufferLen : ℚ
  preTrigger : ℚ
  maxTime : ℚ
  thr : ℚ
  pmtW : ℚ
  sipmW : ℚ
  sq : ℚ → ℚ
  wi : ℚ
  fano : ℚ
  dt : ℚ
  dl : ℚ
  dv : ℚ
  elDv : ℚ
  frac : Nat → ℚ
  limit : ℚ
  ltPmt : LightTable
  ltSipm : LightTable
  s1Table : List (ℚ × ℚ × ℚ) → Except PyErr (List (List ℚ))
  npmt : Nat

/-- What is drawn in an event. -/
structure Draws where
  ions : List IonDraw
  lifetimes : List (List ℚ)
  electrons : List ElDraw
  photons : List Nat
  s1 : Nat → Nat → ℚ → Nat
  s2 : Nat → Nat → ℚ → Nat
  sipm : Nat → Nat → ℚ → Nat

/-- An event of the source: `names` is the table of the volumes in files with numeric labels. -/
structure Event where
  number : Nat
  timestamp : ℚ
  names : Option (List (String × String))
  hits : List MCHit

/-- `np.random.poisson(waveforms)` (detsim.py:138, detsim_waveforms.py:86): `ValueError` for a negative mean. -/
def poisson (draw : Nat → Nat → ℚ → Nat) (wfs : List (List ℚ)) : Except PyErr (List (List ℚ)) :=
  if ∃ row ∈ wfs, ∃ v ∈ row, v < 0 then .error .valueError
  else .ok (wfs.mapIdx fun s row => row.mapIdx fun b v => (draw s b v : ℚ))

/-- The entry of `create_wfs` of an electron (detsim.py:224-226). -/
def toElectron (e : ElElectron) : Electron := ⟨e.x, e.y, e.t, e.ph⟩

/-- `create_s1_waveforms_from_hits` (detsim_waveforms.py:70-86). -/
def s1Wfs (p : Pars) (d : Draws) (hits : List MCHit) (tmin len : ℚ) : Except PyErr (List (List ℚ)) :=
  match p.s1Table (hits.map fun h => (h.x, h.y, h.z)) with
  | .error e => .error e
  | .ok table => match s1Waveform p.frac p.limit (s1Pes (d.photons.map fun n : Nat => (n : ℚ)) table p.npmt) (hits.map (·.time)) len p.pmtW tmin with
    | .error e => .error e
    | .ok w => poisson d.s1 w

/-- `create_s2_waveform` (detsim.py:136-138). -/
def s2Wfs (lt : LightTable) (elDv w : ℚ) (draw : Nat → Nat → ℚ → Nat) (es : List ElElectron) (tmin len : ℚ) : Except PyErr (List (List ℚ)) :=
  match createWfs lt elDv w len tmin (es.map toElectron) with
  | .error e => .error e
  | .ok wfs => poisson draw wfs

/-- `x + y` of two matrices (detsim.py:228-230): other shapes are `ValueError` (numpy would broadcast a single row or column). -/
def addWfs (a b : List (List ℚ)) : Except PyErr (List (List ℚ)) :=
  if a.map List.length = b.map List.length then .ok (List.zipWith (List.zipWith (· + ·)) a b) else .error .valueError

/-- The waveforms of the PMTs (detsim.py:220-232). -/
def pmtWfs (p : Pars) (d : Draws) (hits : List MCHit) (es : List ElElectron) (tmin len : ℚ) : Except PyErr (List (List ℚ)) :=
  match s1Wfs p d hits tmin len with
  | .error e => .error e
  | .ok a => match s2Wfs p.ltPmt p.elDv p.pmtW d.s2 es tmin len with
    | .error e => .error e
    | .ok b => addWfs a b

/-- `wfs.shape[1]`. -/
def ncols (wfs : List (List ℚ)) : Nat := (wfs.headD []).length

/-- `get_bin_edges` (detsim.py:146-149). -/
def binTimes (wfs : List (List ℚ)) (w : ℚ) : List ℚ := (List.range (ncols wfs)).map fun i : Nat => (i : ℚ) * w

/-- What happens to an event: no energy in the active volume (detsim.py:198-201), no light (detsim.py:207-210), no signal (components.py:1393-1396), or the times and buffers of its
triggers. -/
inductive Outcome where
  | noActive
  | dark
  | noSignal
  | triggered (times : List ℚ) (buffers : List (Mat × Mat))
deriving DecidableEq

/-- Times and buffers of the triggers (components.py:1400-1409). -/
def buffers (p : Pars) (timestamp : ℚ) (trg : List Nat) (pmt sipm : List (List ℚ)) : Except PyErr Outcome :=
  match triggerTimes trg timestamp (binTimes pmt p.pmtW) with
  | .error e => .error e
  | .ok times => match positionSignal p.bufferLen p.preTrigger p.pmtW p.sipmW trg (binTimes pmt p.pmtW) pmt (binTimes sipm p.sipmW) sipm with
    | .error e => .error e
    | .ok bufs => .ok (.triggered times bufs)

/-- The signal and its buffers (components.py:1388-1430, without `order_sensors`). -/
def signal (p : Pars) (timestamp : ℚ) (pmt sipm : List (List ℚ)) : Except PyErr Outcome :=
  match signalFinder p.bufferLen p.pmtW p.thr ⟨pmt, ncols pmt⟩ with
  | .error e => .error e
  | .ok trg => if trg = [] then .ok .noSignal else buffers p timestamp trg pmt sipm

/-- The waveforms of an event with light (detsim.py:212-240). -/
def light (p : Pars) (d : Draws) (timestamp : ℚ) (hits : List MCHit) (es : List ElElectron) : Except PyErr Outcome :=
  match bufferTimes p.pmtW p.sipmW p.ltSipm.elGap p.elDv p.maxTime (hits.map (·.time)) (es.map (·.t)) with
  | .error e => .error e
  | .ok (tmin, len) => match pmtWfs p d hits es tmin len with
    | .error e => .error e
    | .ok pmt => match s2Wfs p.ltSipm p.elDv p.sipmW d.sipm es tmin len with
      | .error e => .error e
      | .ok sipm => signal p timestamp pmt sipm

/-- The electrons of an event with energy in the active volume (detsim.py:203-210). -/
def active (p : Pars) (d : Draws) (timestamp : ℚ) (hits act : List MCHit) : Except PyErr Outcome :=
  match simulateElectrons p.sq p.wi p.fano p.dt p.dl p.dv act d.ions d.lifetimes d.electrons with
  | .error e => .error e
  | .ok es => if 0 < (es.map (·.ph)).sum then light p d timestamp hits es else .ok .dark

/-- An event in the pipe of detsim (detsim.py:187-201, 264-283). -/
def event (p : Pars) (d : Draws) (ev : Event) : Except PyErr Outcome :=
  match filterDelayed p.maxTime ev.hits with
  | .error e => .error e
  | .ok kept => match selectHits false ev.names kept with
    | .error e => .error e
    | .ok hits => match selectHits true ev.names hits with
      | .error e => .error e
      | .ok act => if ∃ h ∈ act, h.energy ≠ 0 then active p d ev.timestamp hits act else .ok .noActive

/-- What is given to the writer. -/
def toWrite (x : Event × Outcome) : Option Evt :=
  match x.2 with
  | .triggered times bufs => some ⟨x.1.number, times, bufs⟩
  | _ => none

/-- An event and its outcome. -/
def withOutcome (p : Pars) (x : Event × Draws) : Except PyErr (Event × Outcome) :=
  match event p x.2 x.1 with
  | .error e => .error e
  | .ok o => .ok (x.1, o)

/-- The tables after a run (components.py:1412-1421; rwf_io.py:139-167). -/
def run (p : Pars) (runNumber : Nat) (evs : List (Event × Draws)) : Except PyErr Tables :=
  match evs.mapM (withOutcome p) with
  | .error e => .error e
  | .ok outs => .ok (writeAll runNumber (maxSubevt p.maxTime p.bufferLen) (outs.filterMap toWrite))

end Verif.DetsimEvent
