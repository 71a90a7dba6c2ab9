import Verif.Model.Buffers
/-!
# Model of what buffy does with an event (`cities/buffy.py`, `calculate_and_save_buffers` of `cities/components.py`)

The functions are those of `Model/Buffers`, put together as in the city. Simplifications: those of `Model/Buffers`; the conversion of the buffers to the types of the file is not
modelled; the source, the filters tables and the counters are in `Model/Cities`.
-/
namespace Verif.BuffyEvent
open Verif.Buffers

/-- The parameters of the city, the bin widths of the input and the ids of the sensors of the run (`max_time` after `check_max_time`, buffy.py:65). -/
structure Pars where
  bufferLen : ℚ
  preTrigger : ℚ
  maxTime : ℚ
  thr : ℚ
  pmtW : ℚ
  sipmW : ℚ
  pmtDb : List Nat
  sipmDb : List Nat

/-- `nsamp_pmt`, `nsamp_sipm` (buffy.py:74-75): `int` truncates; positive lengths. -/
def nsamp (bufferLen w : ℚ) : Nat := ⌊bufferLen / w⌋.toNat

/-- The buffers of a trigger, with the sensors in the order of the database (`order_sensors`, buffy.py:90-94; sensor_utils.py:72-81). -/
def orderBuffer (p : Pars) (pmtIds sipmIds : List Nat) (b : Mat × Mat) : Except PyErr (Mat × Mat) :=
  match orderPlane p.pmtDb pmtIds b.1.rows (nsamp p.bufferLen p.pmtW) with
  | .error e => .error e
  | .ok pmts => match orderPlane p.sipmDb sipmIds b.2.rows (nsamp p.bufferLen p.sipmW) with
    | .error e => .error e
    | .ok sipms => .ok (⟨pmts, nsamp p.bufferLen p.pmtW⟩, ⟨sipms, nsamp p.bufferLen p.sipmW⟩)

/-- An event of the source. -/
structure Event where
  number : Nat
  timestamp : ℚ
  pmt : List Resp
  sipm : List Resp

/-- What happens to an event: no response in some plane (buffy.py:96-98), no signal (components.py:1393-1396), or the times and the buffers of its triggers. -/
inductive Outcome where
  | noResponse
  | noSignal
  | triggered (times : List ℚ) (buffers : List (Mat × Mat))
deriving DecidableEq

/-- Times and buffers of the triggers (components.py:1400-1409, 1429). -/
def buffers (p : Pars) (ev : Event) (trg : List Nat) (pmtBins : List ℚ × List Nat × List (List ℚ)) (sipmBins : List ℚ × List Nat × List (List ℚ)) :
    Except PyErr Outcome :=
  match triggerTimes trg ev.timestamp pmtBins.1 with
  | .error e => .error e
  | .ok times => match positionSignal p.bufferLen p.preTrigger p.pmtW p.sipmW trg pmtBins.1 pmtBins.2.2 sipmBins.1 sipmBins.2.2 with
    | .error e => .error e
    | .ok bufs => match bufs.mapM (orderBuffer p pmtBins.2.1 sipmBins.2.1) with
      | .error e => .error e
      | .ok ordered => .ok (.triggered times ordered)

/-- The signal of an event and its buffers (components.py:1388-1391, 1423-1430). -/
def signal (p : Pars) (ev : Event) (pmtBins sipmBins : List ℚ × List Nat × List (List ℚ)) : Except PyErr Outcome :=
  match signalFinder p.bufferLen p.pmtW p.thr ⟨pmtBins.2.2, pmtBins.1.length⟩ with
  | .error e => .error e
  | .ok trg => if trg = [] then .ok .noSignal else buffers p ev trg pmtBins sipmBins

/-- An event in the pipe of buffy (buffy.py:77-98, 127-138). -/
def event (p : Pars) (ev : Event) : Except PyErr Outcome :=
  if ev.pmt = [] ∨ ev.sipm = [] then .ok .noResponse
  else signal p ev
    (binSensors ev.pmt p.pmtW (firstAndLastTimes ev.pmt ev.sipm p.pmtW p.sipmW).1 (firstAndLastTimes ev.pmt ev.sipm p.pmtW p.sipmW).2 p.maxTime)
    (binSensors ev.sipm p.sipmW (firstAndLastTimes ev.pmt ev.sipm p.pmtW p.sipmW).1 (firstAndLastTimes ev.pmt ev.sipm p.pmtW p.sipmW).2 p.maxTime)

/-- What is given to the writer. -/
def toWrite (x : Event × Outcome) : Option Evt :=
  match x.2 with
  | .triggered times bufs => some ⟨x.1.number, times, bufs⟩
  | _ => none

/-- An event and its outcome. -/
def withOutcome (p : Pars) (ev : Event) : Except PyErr (Event × Outcome) :=
  match event p ev with
  | .error e => .error e
  | .ok o => .ok (ev, o)

/-- The tables after a run over some events (components.py:1412-1421; rwf_io.py:139-167). -/
def run (p : Pars) (runNumber : Nat) (evs : List Event) : Except PyErr Tables :=
  match evs.mapM (withOutcome p) with
  | .error e => .error e
  | .ok outs => .ok (writeAll runNumber (maxSubevt p.maxTime p.bufferLen) (outs.filterMap toWrite))

end Verif.BuffyEvent
