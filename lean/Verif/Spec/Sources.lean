import Verif.Model.Sources
import Verif.Spec.PMapsIO
/-!
# Specification of the sources (property C56)
-/
namespace Verif.Sources
open Verif.PMapsIO (unique)

/-- The run number of the file: first row of the table `runInfo`, or else of `RunInfo`. -/
def HasRun (r : Option Run) (n : Int) : Prop :=
  ∃ g, r = some g ∧ ((∃ l, g.runInfo = some (n :: l)) ∨ g.runInfo = none ∧ ∃ l, g.RunInfo = some (n :: l))

/-- The rows of `Run/events`. -/
def HasEvents (r : Option Run) (evs : List (Int × ℚ)) : Prop := ∃ g, r = some g ∧ g.events = some evs

/-- The two tables of waveforms for the given type. -/
def wfTables {W C : Type} (f : WfFile W C) : WfType → Option (List W) × Option (List W)
  | .rwf => (f.pmtrwf, f.sipmrwf)
  | .mcrd => (f.pmtrd, f.sipmrd)
  | .other => (none, none)

/-- A file with all the nodes, which hold as many rows as each other. -/
structure Aligned {W C : Type} (t : WfType) (f : WfFile W C) (run : Int) (pmts sipms : List W) (evs : List (Int × ℚ)) : Prop where
  type : t ≠ .other
  run : HasRun f.run run
  events : HasEvents f.run evs
  tables : wfTables f t = (some pmts, some sipms)
  pmts : pmts.length = evs.length
  sipms : sipms.length = evs.length
  trigger : ∀ l, f.trigger = some l → l.length = evs.length
  channels : ∀ l, f.channels = some l → l.length = evs.length

/-- The value of an optional table at position `k`: `None` when there is no table. -/
def Entry {β : Type} (o : Option (List β)) (k : Nat) (v : Option β) : Prop :=
  (o = none ∧ v = none) ∨ ∃ l b, o = some l ∧ l[k]? = some b ∧ v = some b

/-- The `k`-th item of an aligned file: the `k`-th row of each table. -/
def KthItem {W C : Type} (f : WfFile W C) (run : Int) (pmts sipms : List W) (evs : List (Int × ℚ)) (k : Nat) (x : WfItem W C) : Prop :=
  pmts[k]? = some x.pmt ∧ sipms[k]? = some x.sipm ∧ evs[k]? = some (x.event, x.timestamp) ∧ x.runNumber = run ∧
  Entry f.trigger k x.triggerType ∧ Entry f.channels k x.triggerChannels

/-- Some of the nodes is missing: `Run/events`, the run number, the waveforms. -/
def Lacking {W C : Type} (t : WfType) (f : WfFile W C) : Prop :=
  f.run = none ∨ (∃ g, f.run = some g ∧ (g.events = none ∨ g.runInfo = none ∧ g.RunInfo = none)) ∨
  (t ≠ .other ∧ (∃ n, HasRun f.run n) ∧ ((wfTables f t).1 = none ∨ (wfTables f t).2 = none))

/-- What a file contributes to `wf_from_files`. -/
def WfBlock {W C : Type} (t : WfType) (f : WfFile W C) (b : List (WfItem W C)) : Prop :=
  (Lacking t f ∧ b = []) ∨
  ∃ run pmts sipms evs, Aligned t f run pmts sipms evs ∧ b.length = evs.length ∧ ∀ k x, b[k]? = some x → KthItem f run pmts sipms evs k x

/-- A file of PMaps as written: the rows of `Run/events` and the tables of the same events, in the same order; events with different numbers and some peak. -/
structure Written (f : PmapFile) (run : Int) (evs : List (Int × ℚ × PMapsIO.PMap)) : Prop where
  run : HasRun f.run run
  events : HasEvents f.run (evs.map fun x => (x.1, x.2.1))
  tables : ∃ t, f.pmaps = some t ∧ PMapsIO.storeAll (evs.map fun x => (x.1, x.2.2)) PMapsIO.Tables.empty = .ok t
  good : ∀ x ∈ evs, PMapsIO.GoodPMap x.2.2 ∧ x.2.2.HasPeaks
  distinct : (evs.map Prod.fst).Nodup

/-- A file without the two tables, without events, or without a row with its run number: nothing is read from it. -/
def HitsLacking {R K : Type} (f : HitsFile R K) : Prop :=
  f.hits = none ∨ f.kdst = none ∨ (¬ ∃ n, HasRun f.run n) ∨ ¬ ∃ evs, HasEvents f.run evs

/-- A file with hits, kdst, run number and events. -/
structure HitsNodes {R K : Type} (f : HitsFile R K) (hits : List R) (kdst : List K) (run : Int) (evs : List (Int × ℚ)) : Prop where
  hits : f.hits = some hits
  kdst : f.kdst = some kdst
  run : HasRun f.run run
  events : HasEvents f.run evs

/-- The item of an event: the hits and the kdst rows of that event, in order. -/
def ItemOf {R K : Type} (evR : R → Int) (evK : K → Int) (hits : List R) (kdst : List K) (run : Int) (ev : Int × ℚ) (x : HitsItem R K) : Prop :=
  x.event = ev.1 ∧ x.timestamp = ev.2 ∧ x.runNumber = run ∧ x.hits = hits.filter (fun r => evR r == ev.1) ∧ x.kdst = kdst.filter (fun k => evK k == ev.1) ∧
  (x.warned = true ↔ ∀ r ∈ hits, evR r ≠ ev.1)

/-- What a file contributes to `hits_and_kdst_from_files`. -/
def HitsBlock {R K : Type} (evR : R → Int) (evK : K → Int) (f : HitsFile R K) (b : List (HitsItem R K)) : Prop :=
  (HitsLacking f ∧ b = []) ∨
  ∃ hits kdst run evs, HitsNodes f hits kdst run evs ∧ evs.length = (unique (kdst.map evK)).length ∧ List.Forall₂ (ItemOf evR evK hits kdst run) evs b

/-- The item of an event of deconvolved hits. -/
def DItemOf {R K : Type} (evR : R → Int) (evK : K → Int) (patch : R → R) (hits : List R) (kdst : Option (List K)) (run : Int) (evs : List (Int × ℚ)) (e : Int) (x : DhitsItem R K) : Prop :=
  x.event = e ∧ x.runNumber = run ∧ x.hits = (hits.filter fun r => evR r == e).map patch ∧ x.kdst = kdst.map (List.filter fun k => evK k == e) ∧
  (e, x.timestamp) ∈ evs

end Verif.Sources
