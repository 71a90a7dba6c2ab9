import Verif.Model.Dataflow
/-!
# Model of the pipelines of the cities (cities/dorothea.py, sophronia.py, beersheba.py, esmeralda.py, isaura.py, detsim.py, buffy.py, diomira.py, isidora.py)

The components are those of the dataflow model, wired as in the call of `push` of each city.  The physics functions are parameters, total functions of the fields
that the component names in `args` (what a run does when one of them raises is the subject of the general theorems on the dataflow).  The event dictionary is a record: the
fields that the source gives, and the fields written by the components, `none` until they are written; reading a field that is not there is a `KeyError` (`.err 1`).
Not modelled: `print_every` (it prints), the copies of tables after the run, and the bytes of the files: a writer is a sink, and its table is the list of rows of the items it receives.
-/
namespace Verif.Cities
open Verif.Dataflow

/-- Reading a field of the event dictionary (dataflow.py:39-57): `KeyError` if it is not there. -/
def need {β : Type} : Option β → Except Exc β
  | none => .error (.err 1)
  | some b => .ok b

/-- A `map` with `args` and `out` (dataflow.py:64-82) whose arguments are read by `arg` and whose result is written by `out`. -/
def mapField {α β : Type} (i : Nat) (arg : α → Option β) (out : α → β → α) : Net α → Net α :=
  .mapIn i fun x => match arg x with
    | none => .error (.err 1)
    | some b => .ok (out x b)

/-- A sink with `args` (dataflow.py:237-250) around a writer: `row` reads the arguments of the writer. -/
def writer {α β : Type} (i : Nat) (row : α → Option β) : Net α :=
  .sink i fun x => match row x with
    | none => some (.err 1)
    | some _ => none

/-- `fl.filter(lambda x: x is not None, args=...)` (beersheba.py:518, isaura.py:93). -/
def filterSome {α β : Type} (i : Nat) (field : α → Option β) : Net α → Net α :=
  .filter i fun x => .ok (field x).isSome

/-! ## dorothea and sophronia -/

/-- The functions common to dorothea and sophronia: the peak selector and its decision (`peak_classifier`, `attrgetter("passed")`), and the point-like event made
of the event number, the timestamp, the PMap and the selection. -/
structure Select (P S K : Type) where
  classify : P → S
  passed : S → Bool
  build : Int → Int → P → S → K

/-- The functions of the hits of sophronia (sophronia.py:173-199): construction, number of hits that are not NN, merge of NN hits, corrections, clustering. -/
structure HitFns (P S H : Type) where
  make : Int → Int → P → S → H
  valid : H → Nat
  merge : H → H
  correct : H → H
  cluster : H → H

/-- The event dictionary of dorothea (dorothea.py:99-113) and sophronia (sophronia.py:158-206): what the source gives, and the fields `selector_output`, `pmap_passed`,
`pointlike_event`, `hits` and `enough_valid_hits`. -/
structure KrItem (P S K H : Type) where
  event : Int
  time : Int
  pmap : P
  selector : Option S := none
  passed : Option Bool := none
  kr : Option K := none
  hits : Option H := none
  validHits : Option Bool := none
deriving DecidableEq

namespace KrItem
variable {P S K H : Type}
/-- `args=("run_number", "event_number", "timestamp")` of the writer of Run/events; the run number is the same for all. -/
def infoRow (x : KrItem P S K H) : Option (Int × Int) := some (x.event, x.time)
/-- `args=("event_number", "pmap_passed")` (dorothea.py:123, sophronia.py:214-215). -/
def filterRow (x : KrItem P S K H) : Option (Int × Bool) := x.passed.map fun b => (x.event, b)
/-- `args=("event_number", "enough_valid_hits")` (sophronia.py:216-217). -/
def validRow (x : KrItem P S K H) : Option (Int × Bool) := x.validHits.map fun b => (x.event, b)
/-- The event number, collected in `evtnum_list`. -/
def number (x : KrItem P S K H) : Option Int := some x.event
end KrItem

/-- The start of dorothea and sophronia (dorothea.py:128-133, sophronia.py:228-233): 1, 2 `event_count_in`; 3 `classify_peaks`; 4 `pmap_passed`; 5, 6 the branch and writer of
`Filters/s12_selector`; 7 `pmap_select`; 8, 9 `event_count_out`. -/
def selection {P S K H : Type} (f : Select P S K) : List (Net (KrItem P S K H) → Net (KrItem P S K H)) :=
  [spyCount 1 2,
   mapField 3 (fun x => some (f.classify x.pmap)) (fun x s => { x with selector := some s }),
   mapField 4 (fun x => x.selector.map f.passed) (fun x b => { x with passed := some b }),
   .branch 5 (writer 6 KrItem.filterRow),
   .countFilter 7 (fun x => need x.passed),
   spyCount 8 9]

/-- `build_pointlike_event` (dorothea.py:108-111, sophronia.py:200-206). -/
def buildKr {P S K H : Type} (f : Select P S K) : Net (KrItem P S K H) → Net (KrItem P S K H) :=
  mapField 10 (fun x => x.selector.map (f.build x.event x.time x.pmap)) (fun x k => { x with kr := some k })

/-- The pipe of dorothea (dorothea.py:125-141) after its slice: the selection; 10 `build_pointlike_event`; 11 the fork of 12 the collector of event numbers, 13 the writer of
DST/Events and 14 the writer of Run/events. -/
def dorotheaPipe {P S K H : Type} (f : Select P S K) : Net (KrItem P S K H) :=
  pipe (selection f ++ [buildKr f])
       (.fork 11 (.ofList [writer 12 KrItem.number, writer 13 KrItem.kr, writer 14 KrItem.infoRow]))

/-- The pipe of dorothea (dorothea.py:125-141). -/
def dorothea {P S K H : Type} (f : Select P S K) (start : Nat) (stop : Option Nat) (gap : Nat) : Net (KrItem P S K H) :=
  .slice 0 start stop gap true (dorotheaPipe f)

/-- The branch of the hits (sophronia.py:219-220): 20 `make_hits`; 21 `enough_valid_hits`; 22, 23 the branch and writer of `Filters/valid_hit`; 24 `hits_select`; 25, 26, 27 the merge,
the corrections and the clustering; 28 the writer of RECO/Events. -/
def hitsBranch {P S K H : Type} (h : HitFns P S H) : Net (KrItem P S K H) :=
  pipe [mapField 20 (fun x => x.selector.map (h.make x.event x.time x.pmap)) (fun x y => { x with hits := some y }),
        mapField 21 (fun x => x.hits.map fun y => decide (h.valid y > 0)) (fun x b => { x with validHits := some b }),
        .branch 22 (writer 23 KrItem.validRow),
        .countFilter 24 (fun x => need x.validHits),
        mapField 25 (fun x => x.hits.map h.merge) (fun x y => { x with hits := some y }),
        mapField 26 (fun x => x.hits.map h.correct) (fun x y => { x with hits := some y }),
        mapField 27 (fun x => x.hits.map h.cluster) (fun x y => { x with hits := some y })]
       (writer 28 KrItem.hits)

/-- The pipe of sophronia (sophronia.py:224-242) after its slice: the selection; 11 the fork of the kdst branch (10 the point-like event, 13 its writer), the
branch of the hits, 12 the collector of event numbers and 14 the writer of Run/events. -/
def sophroniaPipe {P S K H : Type} (f : Select P S K) (h : HitFns P S H) : Net (KrItem P S K H) :=
  pipe (selection f)
       (.fork 11 (.ofList [pipe [buildKr f] (writer 13 KrItem.kr), hitsBranch h, writer 12 KrItem.number, writer 14 KrItem.infoRow]))

/-- The pipe of sophronia (sophronia.py:224-242). -/
def sophronia {P S K H : Type} (f : Select P S K) (h : HitFns P S H) (start : Nat) (stop : Option Nat) (gap : Nat) : Net (KrItem P S K H) :=
  .slice 0 start stop gap true (sophroniaPipe f h)

/-! ## beersheba -/

/-- The functions of beersheba (beersheba.py:489-512): corrections, threshold, cut of sensors, isolated sensors, size of the dataframe, deconvolution, and the time of the event. -/
structure DecoFns (H D : Type) where
  correct : H → H
  threshold : H → H
  cut : H → H
  drop : H → H
  size : H → Nat
  deconvolve : H → D
  addInfo : Int → D → D

/-- The event dictionary of beersheba: the source gives the hits and the kdst, which may be `None`. -/
structure DecoItem (H D K : Type) where
  event : Int
  time : Int
  hits : H
  kdst : Option K
  passed : Option Bool := none
  deco : Option D := none
deriving DecidableEq

namespace DecoItem
variable {H D K : Type}
/-- `args = ("run_number", "event_number", "timestamp")` (beersheba.py:524). -/
def infoRow (x : DecoItem H D K) : Option (Int × Int) := some (x.event, x.time)
/-- `args=("event_number", "hits_passed_no_hits")` (beersheba.py:528). -/
def filterRow (x : DecoItem H D K) : Option (Int × Bool) := x.passed.map fun b => (x.event, b)
/-- `args = "hits"` of the writer of CHITS/lowTh (beersheba.py:527). -/
def hitsRow (x : DecoItem H D K) : Option H := some x.hits
/-- The event number. -/
def number (x : DecoItem H D K) : Option Int := some x.event
end DecoItem

/-- The pipe of beersheba (beersheba.py:530-553) after its slice: 1, 2 `event_count_in`; 3 `correct_hits`; 4 `threshold_hits`; 5, 6 the branch and writer of CHITS/lowTh; 7 `cut_sensors`;
8 `drop_sensors`; 9 `filter_events_no_hits`; 10, 11 the branch and writer of Filters/nohits; 12 `events_passed_no_hits`; 13 `deconvolve_events`; 14 `add_event_info`; 15, 16
`event_count_out`; 17, 18 the branch and collector of event numbers; 19 the fork of 20 the writer of DECO/Events, 21 the filter and 22 the writer of DST/Events, and 23 the writer of Run/events. -/
def beershebaPipe {H D K : Type} (f : DecoFns H D) : Net (DecoItem H D K) :=
  pipe [spyCount 1 2,
        mapField 3 (fun x => some (f.correct x.hits)) (fun x y => { x with hits := y }),
        mapField 4 (fun x => some (f.threshold x.hits)) (fun x y => { x with hits := y }),
        .branch 5 (writer 6 DecoItem.hitsRow),
        mapField 7 (fun x => some (f.cut x.hits)) (fun x y => { x with hits := y }),
        mapField 8 (fun x => some (f.drop x.hits)) (fun x y => { x with hits := y }),
        mapField 9 (fun x => some (decide (f.size x.hits > 0))) (fun x b => { x with passed := some b }),
        .branch 10 (writer 11 DecoItem.filterRow),
        .countFilter 12 (fun x => need x.passed),
        mapField 13 (fun x => some (f.deconvolve x.hits)) (fun x d => { x with deco := some d }),
        mapField 14 (fun x => x.deco.map (f.addInfo x.time)) (fun x d => { x with deco := some d }),
        spyCount 15 16,
        .branch 17 (writer 18 DecoItem.number)]
       (.fork 19 (.ofList [writer 20 DecoItem.deco, pipe [filterSome 21 DecoItem.kdst] (writer 22 DecoItem.kdst), writer 23 DecoItem.infoRow]))

/-- The pipe of beersheba (beersheba.py:530-553). -/
def beersheba {H D K : Type} (f : DecoFns H D) (start : Nat) (stop : Option Nat) (gap : Nat) : Net (DecoItem H D K) :=
  .slice 0 start stop gap true (beershebaPipe f)

/-! ## esmeralda and isaura -/

/-- The functions of `compute_and_write_tracks_info` (components.py:1641-1705): number of hits, copy of the energy, tracks (topology, hits, out of map), order of the hits, number of
tracks, summary, and the change of types before writing. -/
structure TrackFns (H T U : Type) where
  size : H → Nat
  copyE : H → H
  tracks : H → T × H × Bool
  sort : H → H
  ntracks : T → Nat
  summary : Int → T → H → Bool → U
  change : H → H

/-- The event dictionary of esmeralda and isaura. -/
structure TrackItem (H T U K : Type) where
  event : Int
  time : Int
  hits : H
  kdst : Option K
  hitsPassed : Option Bool := none
  epHits : Option H := none
  topology : Option T := none
  paolina : Option H := none
  outOfMap : Option Bool := none
  topologyPassed : Option Bool := none
  info : Option U := none
deriving DecidableEq

namespace TrackItem
variable {H T U K : Type}
/-- `args` of the writer of Run/events (esmeralda.py:157-158, isaura.py:96). -/
def infoRow (x : TrackItem H T U K) : Option (Int × Int) := some (x.event, x.time)
/-- `args=("event_number", "hits_passed")` (components.py:1678). -/
def hitsRow (x : TrackItem H T U K) : Option (Int × Bool) := x.hitsPassed.map fun b => (x.event, b)
/-- `args=("event_number", "topology_passed")` (components.py:1676). -/
def topologyRow (x : TrackItem H T U K) : Option (Int × Bool) := x.topologyPassed.map fun b => (x.event, b)
/-- `args=('event_number', 'topology_info', 'paolina_hits', 'out_of_map')` (components.py:1671). -/
def summaryArgs (x : TrackItem H T U K) : Option (Int × T × H × Bool) :=
  match x.topology, x.paolina, x.outOfMap with
  | some t, some h, some o => some (x.event, t, h, o)
  | _, _, _ => none
/-- The event number. -/
def number (x : TrackItem H T U K) : Option Int := some x.event
/-- `args="kdst"`: in esmeralda the writer is called even if the kdst is `None`; its row is what it was given. -/
def kdstArg (x : TrackItem H T U K) : Option (Option K) := some x.kdst
end TrackItem

/-- `compute_and_write_tracks_info` (components.py:1645-1704): 30 `filter_events_nohits`; 31, 32 the branch and writer of the filter of hits; 33 `hits_passed`; 34 `copy_Efield`; 35
`create_extract_track_blob_info`; 36 `sort_hits_`; 37 `filter_events_topology`; 38 the fork of 39 `make_final_summary` and 40 its writer, 41 the writer of Filters/topology_select, 42 the
change of types (with the choice of `paolina_hits`: a new object) and 43 the writer of the hits, 44 `events_passed_topology` and 45 the writer of the tracks. -/
def tracksPipe {H T U K : Type} (f : TrackFns H T U) : Net (TrackItem H T U K) :=
  pipe [mapField 30 (fun x => some (decide (f.size x.hits > 0))) (fun x b => { x with hitsPassed := some b }),
        .branch 31 (writer 32 TrackItem.hitsRow),
        .countFilter 33 (fun x => need x.hitsPassed),
        mapField 34 (fun x => some (f.copyE x.hits)) (fun x h => { x with epHits := some h }),
        mapField 35 (fun x => x.epHits.map f.tracks) (fun x r => { x with topology := some r.1, paolina := some r.2.1, outOfMap := some r.2.2 }),
        mapField 36 (fun x => x.paolina.map f.sort) (fun x h => { x with paolina := some h }),
        mapField 37 (fun x => x.topology.map fun t => decide (f.ntracks t > 0)) (fun x b => { x with topologyPassed := some b })]
       (.fork 38 (.ofList [
          pipe [mapField 39 (fun x => x.summaryArgs.map fun a => f.summary a.1 a.2.1 a.2.2.1 a.2.2.2) (fun x u => { x with info := some u })] (writer 40 TrackItem.info),
          writer 41 TrackItem.topologyRow,
          pipe [.map 42 fun x => match x.paolina with
                  | none => .error (.err 1)
                  | some h => .ok { x with paolina := some (f.change h) }] (writer 43 TrackItem.paolina),
          pipe [.countFilter 44 (fun x => need x.topologyPassed)] (writer 45 TrackItem.topology)]))

/-- The pipe of esmeralda (esmeralda.py:175-190) after its slice: 1, 2 `event_count_in`; 3 `correct_hits`; 4 `drop_external_hits`; 5 `threshold_hits`; 6 the fork of the tracks, 7 the writer of
DST/Events, 8 the writer of Run/events, and 9 the fork of 10 the collector of event numbers and 11 `event_count_out`. -/
def esmeraldaPipe {H T U K : Type} (correct drop threshold : H → H) (f : TrackFns H T U) : Net (TrackItem H T U K) :=
  pipe [spyCount 1 2,
        mapField 3 (fun x => some (correct x.hits)) (fun x y => { x with hits := y }),
        mapField 4 (fun x => some (drop x.hits)) (fun x y => { x with hits := y }),
        mapField 5 (fun x => some (threshold x.hits)) (fun x y => { x with hits := y })]
       (.fork 6 (.ofList [tracksPipe f, writer 7 TrackItem.kdstArg, writer 8 TrackItem.infoRow, .fork 9 (.ofList [writer 10 TrackItem.number, .count 11])]))

/-- The pipe of esmeralda (esmeralda.py:175-190). -/
def esmeralda {H T U K : Type} (correct drop threshold : H → H) (f : TrackFns H T U) (start : Nat) (stop : Option Nat) (gap : Nat) : Net (TrackItem H T U K) :=
  .slice 0 start stop gap true (esmeraldaPipe correct drop threshold f)

/-- The pipe of isaura (isaura.py:109-120) after its slice: 1, 2 `event_count_in`; 3, 4 the branch and collector of event numbers; 5, 6 `event_count_out`; 7 the fork of the tracks, 8 the writer of
Run/events, 9 the filter and 10 the writer of DST/Events. -/
def isauraPipe {H T U K : Type} (f : TrackFns H T U) : Net (TrackItem H T U K) :=
  pipe [spyCount 1 2, .branch 3 (writer 4 TrackItem.number), spyCount 5 6]
       (.fork 7 (.ofList [tracksPipe f, writer 8 TrackItem.infoRow, pipe [filterSome 9 TrackItem.kdst] (writer 10 TrackItem.kdst)]))

/-- The pipe of isaura (isaura.py:109-120). -/
def isaura {H T U K : Type} (f : TrackFns H T U) (start : Nat) (stop : Option Nat) (gap : Nat) : Net (TrackItem H T U K) :=
  .slice 0 start stop gap true (isauraPipe f)

/-! ## detsim and buffy -/

/-- The functions of `calculate_and_save_buffers` (components.py:1388-1410): the pulses of the binned waveforms, their number, the times of the events and the buffers. -/
structure BufFns (W L M B : Type) where
  find : W → L
  npulses : L → Nat
  times : L → Int → W → M
  buffers : L → W → B

/-- The event dictionary of detsim and buffy: `input` is what the source gives (hits or sensor response), `active` and `electrons` are the hits in the active volume and the simulated electrons with
their photons (detsim), `wfs` the binned waveforms with their bins.  The random draws of the simulation are part of `input`. -/
structure SimItem (I A E W L M B : Type) where
  event : Int
  time : Int
  input : I
  active : Option A := none
  passedActive : Option Bool := none
  electrons : Option E := none
  enough : Option Bool := none
  eventPassed : Option Bool := none
  wfs : Option W := none
  pulses : Option L := none
  signal : Option Bool := none
  times : Option M := none
  buffers : Option B := none
  ordered : Option B := none
deriving DecidableEq

namespace SimItem
variable {I A E W L M B : Type}
/-- `args=("event_number", "passed_active")` (detsim.py:262). -/
def activeRow (x : SimItem I A E W L M B) : Option (Int × Bool) := x.passedActive.map fun b => (x.event, b)
/-- `args=("event_number", "enough_photons")` (detsim.py:263). -/
def darkRow (x : SimItem I A E W L M B) : Option (Int × Bool) := x.enough.map fun b => (x.event, b)
/-- `args=("event_number", "event_passed")` (buffy.py:116-117). -/
def respRow (x : SimItem I A E W L M B) : Option (Int × Bool) := x.eventPassed.map fun b => (x.event, b)
/-- `args=('event_number', 'passed_signal')` (components.py:1398). -/
def signalRow (x : SimItem I A E W L M B) : Option (Int × Bool) := x.signal.map fun b => (x.event, b)
/-- `args = ("event_number", "evt_times", saved_buffers)` (components.py:1412-1423); `saved_buffers` is `ordered_buffers` if there is a function that orders the sensors. -/
def bufferRow (isOrdered : Bool) (x : SimItem I A E W L M B) : Option (Int × M × B) :=
  match x.times, (if isOrdered then x.ordered else x.buffers) with
  | some m, some b => some (x.event, m, b)
  | _, _ => none
/-- The event number. -/
def number (x : SimItem I A E W L M B) : Option Int := some x.event
/-- Arguments of `trigger_times` (components.py:1400-1402). -/
def timesArgs (x : SimItem I A E W L M B) : Option (L × W) :=
  match x.pulses, x.wfs with
  | some l, some w => some (l, w)
  | _, _ => none
/-- Arguments of the order of the sensors (buffy.py:89-93). -/
def orderArgs (x : SimItem I A E W L M B) : Option (W × B) :=
  match x.wfs, x.buffers with
  | some w, some b => some (w, b)
  | _, _ => none
/-- Arguments of the waveforms of detsim (detsim.py:220-246): hits and electrons. -/
def wfArgs (x : SimItem I A E W L M B) : Option (I × E) := x.electrons.map fun e => (x.input, e)
end SimItem

/-- `calculate_and_save_buffers` (components.py:1388-1434): 40 `find_signal`; 41 `filter_events_signal`; 42, 43 the branch and writer of Filters/signal; 44 `events_passed_signal`; 45
`event_times`; 46 `calculate_buffers`; 47 `order_sensors` if it is given; 48, 49 the branch and writer of the buffers. -/
def buffersPipe {I A E W L M B : Type} (f : BufFns W L M B) (order : Option (W → B → B)) : List (Net (SimItem I A E W L M B) → Net (SimItem I A E W L M B)) :=
  [mapField 40 (fun x => x.wfs.map f.find) (fun x l => { x with pulses := some l }),
   mapField 41 (fun x => x.pulses.map fun l => decide (f.npulses l > 0)) (fun x b => { x with signal := some b }),
   .branch 42 (writer 43 SimItem.signalRow),
   .countFilter 44 (fun x => need x.signal),
   mapField 45 (fun x => x.timesArgs.map fun a => f.times a.1 x.time a.2) (fun x m => { x with times := some m }),
   mapField 46 (fun x => x.timesArgs.map fun a => f.buffers a.1 a.2) (fun x b => { x with buffers := some b })] ++
  (match order with
    | none => []
    | some g => [mapField 47 (fun x => x.orderArgs.map fun a => g a.1 a.2) (fun x b => { x with ordered := some b })]) ++
  [.branch 48 (writer 49 (SimItem.bufferRow order.isSome))]

/-- The functions of detsim (detsim.py:187-246): delayed hits, candidates of S1, active hits, whether any of those has energy, electrons, number of photons, waveforms. -/
structure DetFns (I A E W : Type) where
  delayed : Int → I → I
  candidates : I → I
  active : I → A
  anyEnergy : A → Bool
  simulate : A → E
  photons : E → Nat
  waveforms : I → E → W

/-- The pipe of detsim (detsim.py:264-287) after its slice: 1, 2 `event_count_in`; 3 `filter_delayed_hits`; 4 `select_s1_candidate_hits`; 5 `select_active_hits`; 6 `filter_events_no_active_hits`; 7, 8 the branch
and writer of Filters/active_hits; 9 `events_passed_active_hits`; 10 `simulate_electrons`; 11 `count_photons`; 12, 13 the branch and writer of Filters/dark_events; 14 `dark_events`; 15 the waveforms
(`get_buffer_times_and_length`, `create_pmt_waveforms`, `create_sipm_waveforms` and `get_bin_edges` in one); the buffers; 16 the collector of event numbers. -/
def detsimPipe {I A E W L M B : Type} (d : DetFns I A E W) (f : BufFns W L M B) : Net (SimItem I A E W L M B) :=
  pipe ([spyCount 1 2,
         mapField 3 (fun x => some (d.delayed x.event x.input)) (fun x i => { x with input := i }),
         mapField 4 (fun x => some (d.candidates x.input)) (fun x i => { x with input := i }),
         mapField 5 (fun x => some (d.active x.input)) (fun x a => { x with active := some a }),
         mapField 6 (fun x => x.active.map d.anyEnergy) (fun x b => { x with passedActive := some b }),
         .branch 7 (writer 8 SimItem.activeRow),
         .countFilter 9 (fun x => need x.passedActive),
         mapField 10 (fun x => x.active.map d.simulate) (fun x e => { x with electrons := some e }),
         mapField 11 (fun x => x.electrons.map fun e => decide (d.photons e > 0)) (fun x b => { x with enough := some b }),
         .branch 12 (writer 13 SimItem.darkRow),
         .countFilter 14 (fun x => need x.enough),
         mapField 15 (fun x => x.wfArgs.map fun a => d.waveforms a.1 a.2) (fun x w => { x with wfs := some w })] ++ buffersPipe f none)
       (writer 16 SimItem.number)

/-- The pipe of detsim (detsim.py:264-287). -/
def detsim {I A E W L M B : Type} (d : DetFns I A E W) (f : BufFns W L M B) (start : Nat) (stop : Option Nat) (gap : Nat) : Net (SimItem I A E W L M B) :=
  .slice 0 start stop gap true (detsimPipe d f)

/-- The pipe of buffy (buffy.py:123-141) after its slice: 1, 2 `event_count_in`; 3 `filter_events`; 4, 5 the branch and writer of Filters/detected_events; 6 `events_with_resp`; 7 the binned waveforms
(`extract_tminmax`, `bin_pmt_wf` and `bin_sipm_wf` in one); the buffers with the order of sensors; 16 the collector of event numbers. -/
def buffyPipe {I A E W L M B : Type} (pmtEmpty sipmEmpty : I → Bool) (bin : I → W) (f : BufFns W L M B) (order : W → B → B) : Net (SimItem I A E W L M B) :=
  pipe ([spyCount 1 2,
         mapField 3 (fun x => some (!(pmtEmpty x.input || sipmEmpty x.input))) (fun x b => { x with eventPassed := some b }),
         .branch 4 (writer 5 SimItem.respRow),
         .countFilter 6 (fun x => need x.eventPassed),
         mapField 7 (fun x => some (bin x.input)) (fun x w => { x with wfs := some w })] ++ buffersPipe f (some order))
       (writer 16 SimItem.number)

/-- The pipe of buffy (buffy.py:123-141). -/
def buffy {I A E W L M B : Type} (pmtEmpty sipmEmpty : I → Bool) (bin : I → W) (f : BufFns W L M B) (order : W → B → B) (start : Nat) (stop : Option Nat) (gap : Nat) :
    Net (SimItem I A E W L M B) :=
  .slice 0 start stop gap true (buffyPipe pmtEmpty sipmEmpty bin f order)

/-! ## diomira and isidora -/

/-- The functions of diomira (diomira.py:86-109): response of the PMTs and of their BLR, trigger, decision, response of the SiPMs. -/
structure TrigFns (W T : Type) where
  pmt : W → W × W
  trigger : W → T
  pass : T → Bool
  sipm : W → W

/-- The event dictionary of diomira and isidora.  The random draws of the simulation are part of the waveforms. -/
structure WfItem (W T : Type) where
  event : Int
  time : Int
  pmt : W
  sipm : W
  pmtSim : Option W := none
  blrSim : Option W := none
  trigger : Option T := none
  pass : Option Bool := none
  sipmSim : Option W := none
  cwf : Option W := none
deriving DecidableEq

namespace WfItem
variable {W T : Type}
/-- `args` of the writer of Run/events (diomira.py:127-129, isidora.py:63). -/
def infoRow (x : WfItem W T) : Option (Int × Int) := some (x.event, x.time)
/-- `args=("event_number", "trigger_pass")` (diomira.py:130-131). -/
def triggerRow (x : WfItem W T) : Option (Int × Bool) := x.pass.map fun b => (x.event, b)
/-- `args="sipm"` (isidora.py:59). -/
def sipmRow (x : WfItem W T) : Option W := some x.sipm
/-- The event number. -/
def number (x : WfItem W T) : Option Int := some x.event
end WfItem

/-- The pipe of diomira (diomira.py:137-156) after its slice: 1, 2 `event_count_in`; 3 `simulate_pmt_response_`; 4 `emulate_trigger_`; 5 `trigger_pass`; 6, 7 the branch and writer of Filters/trigger; 8
`trigger_filter`; 9 `simulate_sipm_response_`; 10, 11 the branch and collector of event numbers; 12 the fork of 13, 14, 15 the writers of the waveforms and 16 the writer of Run/events. -/
def diomiraPipe {W T : Type} (f : TrigFns W T) : Net (WfItem W T) :=
  pipe [spyCount 1 2,
        mapField 3 (fun x => some (f.pmt x.pmt)) (fun x r => { x with pmtSim := some r.1, blrSim := some r.2 }),
        mapField 4 (fun x => x.pmtSim.map f.trigger) (fun x t => { x with trigger := some t }),
        mapField 5 (fun x => x.trigger.map f.pass) (fun x b => { x with pass := some b }),
        .branch 6 (writer 7 WfItem.triggerRow),
        .countFilter 8 (fun x => need x.pass),
        mapField 9 (fun x => some (f.sipm x.sipm)) (fun x w => { x with sipmSim := some w }),
        .branch 10 (writer 11 WfItem.number)]
       (.fork 12 (.ofList [writer 13 WfItem.pmtSim, writer 14 WfItem.blrSim, writer 15 WfItem.sipmSim, writer 16 WfItem.infoRow]))

/-- The pipe of diomira (diomira.py:137-156). -/
def diomira {W T : Type} (f : TrigFns W T) (start : Nat) (stop : Option Nat) (gap : Nat) : Net (WfItem W T) :=
  .slice 0 start stop gap true (diomiraPipe f)

/-- The pipe of isidora (isidora.py:69-78) after its slice: 1, 2 `event_count`; 3, 4 the branch and collector of event numbers; 5 the fork of 6 `rwf_to_cwf` and 7 its writer, 8 the writer of the SiPMs and 9 the
writer of Run/events. -/
def isidoraPipe {W T : Type} (deconv : W → W) : Net (WfItem W T) :=
  pipe [spyCount 1 2, .branch 3 (writer 4 WfItem.number)]
       (.fork 5 (.ofList [pipe [mapField 6 (fun x => some (deconv x.pmt)) (fun x w => { x with cwf := some w })] (writer 7 WfItem.cwf),
                          writer 8 WfItem.sipmRow, writer 9 WfItem.infoRow]))

/-- The pipe of isidora (isidora.py:69-78). -/
def isidora {W T : Type} (deconv : W → W) (start : Nat) (stop : Option Nat) (gap : Nat) : Net (WfItem W T) :=
  .slice 0 start stop gap true (isidoraPipe deconv)

/-! ## phyllis, trude and berenice -/

/-- What travels in the pipes of the calibration cities: the event dictionary (`wf` the waveforms of the source, `cwf` the processed ones), waveforms, or the histograms of the sensors. -/
inductive CalVal (W : Type) where
  | event (number time : Int) (wf : W) (cwf : Option W)
  | wf (w : W)
  | hist (h : List (List Nat))
deriving DecidableEq

namespace CalVal
variable {W : Type}
/-- `np.add` of two histograms of the same shape (`reduce(add, np.zeros(shape, dtype=int))`, phyllis.py:112); on anything else nothing is modelled. -/
def add : CalVal W → CalVal W → CalVal W
  | .hist a, .hist b => .hist (List.zipWith (List.zipWith (· + ·)) a b)
  | a, _ => a
/-- `itemgetter("cwf")` (dataflow.py:320-322), or "bls". -/
def pickCwf : CalVal W → Except Exc (CalVal W)
  | .event _ _ _ (some w) => .ok (.wf w)
  | _ => .error (.err 1)
/-- `itemgetter("sipm")`. -/
def pickWf : CalVal W → Except Exc (CalVal W)
  | .event _ _ w _ => .ok (.wf w)
  | _ => .error (.err 1)
/-- A function of waveforms. -/
def onWf (f : W → CalVal W) : CalVal W → Except Exc (CalVal W)
  | .wf w => .ok (f w)
  | _ => .error (.err 1)
/-- `args="pmt", out="cwf"` (phyllis.py:108, trude.py:95). -/
def process (f : W → W) : CalVal W → Except Exc (CalVal W)
  | .event n t w _ => .ok (.event n t w (some (f w)))
  | _ => .error (.err 1)
/-- `args` of the writer of Run/events. -/
def infoRow : CalVal W → Option (Int × Int)
  | .event n t _ _ => some (n, t)
  | _ => none
end CalVal

/-- `np.zeros(shape, dtype=int)` (phyllis.py:112). -/
def zeros (nsensors nbins : Nat) : List (List Nat) := List.replicate nsensors (List.replicate nbins 0)

/-- One target of the fork of a calibration city (phyllis.py:132-133, berenice.py:96-98): pick the field, a function of the waveforms, the histograms, the sum. -/
def accumulate {W : Type} (i : Nat) (pick : CalVal W → Except Exc (CalVal W)) (integrate : W → W) (bin : W → List (List Nat)) (nsensors nbins : Nat) : Net (CalVal W) :=
  pipe [.map i pick, .map (i + 1) (CalVal.onWf fun w => .wf (integrate w)), .map (i + 2) (CalVal.onWf fun w => .hist (bin w))]
       (.reduce (i + 3) (fun a x => .ok (a.add x)) (.hist (zeros nsensors nbins)))

/-- The pipes of phyllis (phyllis.py:126-138) and trude (trude.py:113-125) after the slice: 1, 2 `event_count`; 3 the processing; 4 the fork of 10-13 light, 20-23 dark, and 5 the writer of Run/events. -/
def lightDarkPipe {W : Type} (process light dark : W → W) (bin : W → List (List Nat)) (nsensors nbins : Nat) : Net (CalVal W) :=
  pipe [spyCount 1 2, .mapIn 3 (CalVal.process process)]
       (.fork 4 (.ofList [accumulate 10 CalVal.pickCwf light bin nsensors nbins, accumulate 20 CalVal.pickCwf dark bin nsensors nbins, writer 5 CalVal.infoRow]))

/-- The pipes of phyllis and trude. -/
def lightDark {W : Type} (process light dark : W → W) (bin : W → List (List Nat)) (nsensors nbins : Nat) (start : Nat) (stop : Option Nat) (gap : Nat) : Net (CalVal W) :=
  .slice 0 start stop gap true (lightDarkPipe process light dark bin nsensors nbins)

/-- The pipe of berenice (berenice.py:91-104) after the slice: 1, 2 `event_count`; 4 the fork of 10-13 adc, 20-23 mode, 30-33 median, and 5 the writer of Run/events. -/
def berenicePipe {W : Type} (subtract mode median : W → W) (bin : W → List (List Nat)) (nsensors nbins : Nat) : Net (CalVal W) :=
  pipe [spyCount 1 2]
       (.fork 4 (.ofList [accumulate 10 CalVal.pickWf subtract bin nsensors nbins, accumulate 20 CalVal.pickWf mode bin nsensors nbins,
                          accumulate 30 CalVal.pickWf median bin nsensors nbins, writer 5 CalVal.infoRow]))

/-- The pipe of berenice. -/
def berenice {W : Type} (subtract mode median : W → W) (bin : W → List (List Nat)) (nsensors nbins : Nat) (start : Nat) (stop : Option Nat) (gap : Nat) : Net (CalVal W) :=
  .slice 0 start stop gap true (berenicePipe subtract mode median bin nsensors nbins)

end Verif.Cities
