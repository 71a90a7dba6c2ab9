import Verif.Model.Blr
import Verif.Model.Fee
import Verif.Model.Filters
import Verif.Model.Sampling
import Verif.Model.WfIO
import Verif.Model.Wfm
/-!
# Model of the events of diomira: `cities/diomira.py`

Simplifications: the parameters of the trigger are given as values (the dictionaries are in `Model/CityArgs`); a NULL `Sigma` in the database is read as 0; what is drawn at random is given;
the shapes of the waveforms are those of the arrays of the output (`Model/WfIO`).
-/
namespace Verif.DiomiraEvent
open Verif Verif.Core Verif.PMaps

/-- `trigger_params` and `s2_params`. -/
structure TriggerConf where
  channels : List Int
  minChannels : Int
  ratio : ℚ
  height : ℚ × ℚ
  charge : ℚ × ℚ
  width : ℚ × ℚ
  nBaseline : Nat
  time : ℚ × ℚ
  length : ℚ × ℚ
  stride : Nat
  rebin : Nat

/-- The parameters of the filter and the windows of the search of a trigger "S2". -/
structure Trigger where
  filter : Filters.TriggerParams
  time : MinMax
  length : MinMax

/-- `emulate_trigger` before the events, for the type "S2" (diomira.py:213-227). -/
def setupSearch (pmts : List LoadDb.PmtRow) (c : TriggerConf) (f : Filters.TriggerParams) : Except PyErr (Option Trigger) :=
  match Blr.icIds pmts c.channels with
  | .error e => .error e
  | .ok _ => match MinMax.mk? c.time.1 c.time.2 with
    | .error e => .error e
    | .ok t => match MinMax.mk? c.length.1 c.length.2 with
      | .error e => .error e
      | .ok l => if ∃ ch ∈ c.channels, ch ∉ Blr.activeChannels pmts then .error .valueError else .ok (some ⟨f, t, l⟩)

/-- `select_trigger_filter` and `emulate_trigger` before the events (diomira.py:180-204, 207-227, 248-249); `none` for a trigger that always passes. -/
def setup (pmts : List LoadDb.PmtRow) (type : Option String) (c : TriggerConf) : Except PyErr (Option Trigger) :=
  match type with
  | none => .ok none
  | some t => if t ≠ "S2" then .error .valueError
    else match Filters.selectTrigger c.minChannels c.ratio c.height c.charge c.width with
      | .error e => .error e
      | .ok f => setupSearch pmts c f

/-- `get_indices` and `find_peaks` (diomira.py:231-235), with the default widths of the samples (25 ns); the PMT of the peak is −1, here 0. -/
def findS2 (c : TriggerConf) (t : Trigger) (cwf : List ℚ) : Except PyErr (List Peak) :=
  match Peaks.indicesAndWfAboveThreshold cwf c.height.1 with
  | .error e => .error e
  | .ok iw => Peaks.findPeaks ⟨[cwf], cwf.length⟩ iw.1 t.time t.length c.stride c.rebin [0] 25 40 none

/-- `emulate_trigger_` and `trigger_pass` (diomira.py:95-106, 180-185, 207-211, 237-244): `do_nothing` and `always_pass`, or the peaks and the filter. -/
def triggerPass (tan : ℚ → ℚ) (pmts : List LoadDb.PmtRow) (c : TriggerConf) (t : Option Trigger) (rwfs : List (List Int)) : Except PyErr Bool :=
  match t with
  | none => .ok true
  | some t => match Blr.emulateTrigger tan (findS2 c t) pmts c.channels c.nBaseline (rwfs.map fun w => w.map fun n : Int => (n : ℚ)) with
    | .error e => .error e
    | .ok data => Filters.triggerFilter t.filter (data.map fun p => (p.1.toNat, p.2))

/-- `np.round(x).astype(np.int16)` (diomira.py:175); out of range NumPy does not say what it gives, here the low bits. -/
def toInt16 (x : ℚ) : Int := WfIO.wrap 16 (Sampling.roundEven x)

/-- `compute_pe_resolution` (components.py:909-913). -/
def peResolution (rms adc : ℚ) : ℚ := if adc ≠ 0 then rms / adc else 0

/-- The electronics: `SPE().spe`, the decimation, `v_to_adc()`, `OFFSET`, `ADC_TO_PES`, and the electronics of each PMT. -/
structure Env where
  spe : List ℚ
  decimate : List ℚ → List ℚ
  toAdc : ℚ
  offset : ℚ
  unit : ℚ
  elec : Nat → Fee.Electronics

/-- What is drawn for the PMTs of an event: for each one of them, and the low frequency noise (`Fee.lowNoise`; its frequencies, magnitudes and phases are drawn for each event, sensor_functions.py:51). -/
structure PmtDraws where
  each : Nat → Fee.Draws
  low : Nat → Except PyErr (List ℚ)

/-- A PMT: the constants of `simulate_pmt_response` (diomira.py:166-169; sensor_functions.py:57-64) and its simulation. -/
def pmtStep (env : Env) (pmts : List LoadDb.PmtRow) (draws : PmtDraws) (x : List ℚ × Nat) : Except PyErr (List ℚ × List ℚ) :=
  match pmts[x.2]? with
  | none => .error .indexError
  | some p => match draws.low x.2 with
    | .error e => .error e
    | .ok l => Fee.simulatePmt env.spe env.decimate env.toAdc env.offset (env.elec x.2) (|p.adcToPes| / env.unit) (peResolution (p.sigma.getD 0) |p.adcToPes|) (draws.each x.2) l x.1

/-- `simulate_pmt_response` (diomira.py:165-176): the raw waveforms and those without baseline shift. -/
def simulatePmts (env : Env) (pmts : List LoadDb.PmtRow) (draws : PmtDraws) (rd : List (List ℚ)) : Except PyErr (List (List Int) × List (List Int)) :=
  match rd.zipIdx.mapM (pmtStep env pmts draws) with
  | .error e => .error e
  | .ok out => .ok (out.map fun w => w.1.map toInt16, out.map fun w => w.2.map toInt16)

/-- `map(charge_fluctuation, sipmrd, pe_resolution)` (sensor_functions.py:86): it stops at the shortest. -/
def fluctuate : List (List ℚ) → List (List ℚ) → List ℚ → List (List ℚ)
  | rd :: rds, d :: ds, r :: rs => Detsim.chargeFluctuation rd d r :: fluctuate rds ds rs
  | _, _, _ => []

/-- What is drawn for the SiPMs of an event. -/
structure SipmDraws where
  charge : List (List ℚ)
  bins : List (List Nat)
  dev : Option (List (List ℚ))

/-- `thresholds` (components.py:922). -/
def sipmThresholds (s : Sampling.Sampler) (cut : ℚ) : List ℚ := List.zipWith (fun a b => cut * a + b) s.adcToPes s.baselines

/-- `simulate_sipm_response` (components.py:916-929; sensor_functions.py:80-89); `cols` is the length of the waveforms. -/
def simulateSipms (s : Sampling.Sampler) (sigma : List ℚ) (cut : ℚ) (padding : Int) (cols : Nat) (d : SipmDraws) (rd : List (List ℚ)) : Except PyErr (List (List ℚ)) :=
  match Wfm.toAdc ⟨fluctuate rd d.charge (List.zipWith peResolution sigma s.adcToPes), cols⟩ s.adcToPes with
  | .error e => .error e
  | .ok m => if m.rows.map List.length ≠ (Sampling.sample s d.bins d.dev).map List.length then .error .valueError
    else .ok (Wfm.noiseSuppression (List.zipWith (fun a b => List.zipWith (· + ·) a b) m.rows (Sampling.sample s d.bins d.dev)) (sipmThresholds s cut) (List.replicate m.rows.length padding))

/-- The configuration of a job: the tables, the constants and the trigger. -/
structure Job where
  env : Env
  tan : ℚ → ℚ
  pmts : List LoadDb.PmtRow
  conf : TriggerConf
  sampler : Sampling.Sampler
  sigma : List ℚ
  cut : ℚ
  padding : Int
  cols : Nat

/-- An event of the input, with what is drawn for it. -/
structure Event where
  number : Int
  pmt : List (List ℚ)
  sipm : List (List ℚ)
  draws : PmtDraws
  sipmDraws : SipmDraws

/-- The tables of the output. -/
structure Out where
  triggers : List (Int × Bool)
  numbers : List Int
  pmtrwf : List (List (List Int))
  pmtblr : List (List (List Int))
  sipmrwf : List (List (List Int))

/-- The output file before the events. -/
def Out.empty : Out := ⟨[], [], [], [], []⟩

/-- An event that passed the trigger (diomira.py:147-153): the SiPMs, and everything is written; the waveforms of the SiPMs lose their fractions when they are written (`Model/WfIO`). -/
def passed (j : Job) (e : Event) (w : List (List Int) × List (List Int)) (o : Out) : Out × Except PyErr Unit :=
  match simulateSipms j.sampler j.sigma j.cut j.padding j.cols e.sipmDraws e.sipm with
  | .error err => (o, .error err)
  | .ok s => ({ o with numbers := o.numbers ++ [e.number], pmtrwf := o.pmtrwf ++ [w.1], pmtblr := o.pmtblr ++ [w.2], sipmrwf := o.sipmrwf ++ [s.map fun r => r.map (WfIO.convert 16)] }, .ok ())

/-- An event (diomira.py:142-153). -/
def event (j : Job) (t : Option Trigger) (e : Event) (o : Out) : Out × Except PyErr Unit :=
  match simulatePmts j.env j.pmts e.draws e.pmt with
  | .error err => (o, .error err)
  | .ok w => match triggerPass j.tan j.pmts j.conf t w.1 with
    | .error err => (o, .error err)
    | .ok b => if b then passed j e w { o with triggers := o.triggers ++ [(e.number, true)] } else ({ o with triggers := o.triggers ++ [(e.number, false)] }, .ok ())

/-- The events (diomira.py:136-156): the first error ends the job. -/
def events (j : Job) (t : Option Trigger) : List Event → Out → Out × Except PyErr Unit
  | [], o => (o, .ok ())
  | e :: es, o => match event j t e o with
    | (o', .error err) => (o', .error err)
    | (o', .ok _) => events j t es o'

/-- diomira (diomira.py:67-162): the trigger is set up before the output is opened. -/
def diomira (j : Job) (type : Option String) (es : List Event) : Out × Except PyErr Unit :=
  match setup j.pmts type j.conf with
  | .error e => (.empty, .error e)
  | .ok t => events j t es .empty

end Verif.DiomiraEvent
