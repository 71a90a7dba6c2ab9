import Verif.Model.PMapsIO
/-!
# Model of the sources of the cities (cities/components.py:447-751)

An input file is a record of the nodes that the sources read; a missing node is `none`.  A group and its node are merged: both
missing give `NoSuchNodeError`.  A source is a generator: the items it gives and the exception that ends it, if any.
Dataframes are lists of rows.  Files that cannot be opened, the dtypes of the columns and the decoding of strings are not modelled.
-/
namespace Verif.Sources
open Verif.PMapsIO (unique)

/-- A generator run to its end: what it yields, and the exception that it raises afterwards. -/
structure Gen (α : Type) where
  items : List α
  exc : Option PyErr
deriving DecidableEq

/-- `tb.exceptions.NoSuchNodeError`. -/
def noSuchNode : PyErr := .other "NoSuchNodeError"
/-- `InvalidInputFileStructure` (core/exceptions.py:11). -/
def invalidFile : PyErr := .other "InvalidInputFileStructure"

/-- `for path in paths: ...` (components.py:535, 569, 593, 629, 665, 685, 719): the first exception ends the generator. -/
def fromFiles {φ α : Type} (f : φ → Gen α) : List φ → Gen α
  | [] => ⟨[], none⟩
  | p :: ps => match (f p).exc with
    | some e => ⟨(f p).items, some e⟩
    | none => ⟨(f p).items ++ (fromFiles f ps).items, (fromFiles f ps).exc⟩

/-- The group `Run`: the two names of the table of run numbers, and the rows `(evt_number, timestamp)` of `events`. -/
structure Run where
  runInfo : Option (List Int)
  RunInfo : Option (List Int)
  events : Option (List (Int × ℚ))
deriving DecidableEq

/-- `table[0]['run_number']`. -/
def firstRow : List Int → Except PyErr Int
  | [] => .error .indexError
  | x :: _ => .ok x

/-- `get_run_number` (components.py:447-451). -/
def getRunNumber : Option Run → Except PyErr Int
  | none => .error noSuchNode
  | some r => match r.runInfo with
    | some l => firstRow l
    | none => match r.RunInfo with
      | some l => firstRow l
      | none => .error noSuchNode

/-- `get_event_info` (components.py:472-473). -/
def getEventInfo : Option Run → Except PyErr (List (Int × ℚ))
  | none => .error noSuchNode
  | some r => match r.events with
    | some l => .ok l
    | none => .error noSuchNode

/-- `check_lengths` (components.py:502-506) on the lengths given by `length_of` (components.py:489-499; `None` for `repeat(None)`). -/
def checkLengths (lengths : List (Option Nat)) : Except PyErr Unit :=
  if ((lengths.filterMap id).zip (lengths.filterMap id).tail).any fun x => x.2 != x.1 then .error invalidFile else .ok ()

/-- A node, or `NoSuchNodeError`. -/
def node {α : Type} : Option α → Except PyErr α
  | none => .error noSuchNode
  | some x => .ok x

/-! ### Waveforms -/

/-- `WfType` (types/symbols.py:166-168); `other` is any other value. -/
inductive WfType where
  | rwf
  | mcrd
  | other
deriving DecidableEq

/-- A file with waveforms: rows of type `W` (one per event), and the optional group `Trigger`. -/
structure WfFile (W C : Type) where
  run : Option Run
  pmtrwf : Option (List W)
  sipmrwf : Option (List W)
  pmtrd : Option (List W)
  sipmrd : Option (List W)
  trigger : Option (List Int)
  channels : Option (List C)

/-- `get_pmt_wfs` (components.py:454-457). -/
def getPmtWfs {W C : Type} (t : WfType) (f : WfFile W C) : Except PyErr (List W) :=
  match t with
  | .rwf => node f.pmtrwf
  | .mcrd => node f.pmtrd
  | .other => .error .typeError

/-- `get_sipm_wfs` (components.py:459-462). -/
def getSipmWfs {W C : Type} (t : WfType) (f : WfFile W C) : Except PyErr (List W) :=
  match t with
  | .rwf => node f.sipmrwf
  | .mcrd => node f.sipmrd
  | .other => .error .typeError

/-- An item of `wf_from_files` (components.py:587-589). -/
structure WfItem (W C : Type) where
  pmt : W
  sipm : W
  runNumber : Int
  event : Int
  timestamp : ℚ
  triggerType : Option Int
  triggerChannels : Option C
deriving DecidableEq

/-- One more argument of `zip`: a table, or `repeat(None)` (components.py:467-468, 583). -/
def zipRepeat {α β : Type} (xs : List α) : Option (List β) → List (α × Option β)
  | none => xs.map fun a => (a, none)
  | some l => (xs.zip l).map fun p => (p.1, some p.2)

/-- The `zip` and the body of the loop (components.py:583-589). -/
def wfItems {W C : Type} (run : Int) (pmts sipms : List W) (events : List (Int × ℚ)) (trg : Option (List Int)) (ch : Option (List C)) :
    List (WfItem W C) :=
  (zipRepeat (zipRepeat (pmts.zip (sipms.zip events)) trg) ch).map fun x =>
    ⟨x.1.1.1, x.1.1.2.1, run, x.1.1.2.2.1, x.1.1.2.2.2, x.1.2, x.2⟩

/-- The part of `wf_from_files` after the nodes are found (components.py:581-589). -/
def wfCheck {W C : Type} (run : Int) (pmts sipms : List W) (events : List (Int × ℚ)) (trg : Option (List Int)) (ch : Option (List C)) :
    Gen (WfItem W C) :=
  match checkLengths [some pmts.length, some sipms.length, some events.length, trg.map List.length, ch.map List.length] with
  | .error e => ⟨[], some e⟩
  | .ok () => ⟨wfItems run pmts sipms events trg ch, none⟩

/-- `except NoSuchNodeError: continue`: nothing, or the exception. -/
def skipNode {α : Type} (e : PyErr) : Gen α := if e = noSuchNode then ⟨[], none⟩ else ⟨[], some e⟩

/-- `except (NoSuchNodeError, IndexError): continue`. -/
def skipNodeOrIndex {α : Type} (e : PyErr) : Gen α := if e = noSuchNode ∨ e = .indexError then ⟨[], none⟩ else ⟨[], some e⟩

/-- One file of `wf_from_files` (components.py:570-589). -/
def wfFile {W C : Type} (t : WfType) (f : WfFile W C) : Gen (WfItem W C) :=
  match getEventInfo f.run with
  | .error e => skipNode e
  | .ok events => match getRunNumber f.run with
    | .error e => skipNode e
    | .ok run => match getPmtWfs t f with
      | .error e => skipNode e
      | .ok pmts => match getSipmWfs t f with
        | .error e => skipNode e
        | .ok sipms => wfCheck run pmts sipms events f.trigger f.channels

/-- `wf_from_files` (components.py:568-589). -/
def wfFromFiles {W C : Type} (t : WfType) (files : List (WfFile W C)) : Gen (WfItem W C) := fromFiles (wfFile t) files

/-! ### PMaps -/

/-- A file with PMaps. -/
structure PmapFile where
  run : Option Run
  pmaps : Option PMapsIO.Tables
deriving DecidableEq

/-- The items of the lazy reader up to its first exception (pmaps_io.py:189-190, 301-310). -/
def lazyItems (t : PMapsIO.Tables) : List Int → Gen (Int × PMapsIO.PMap)
  | [] => ⟨[], none⟩
  | e :: es => match PMapsIO.lazyItem t e with
    | .error err => ⟨[], some err⟩
    | .ok x => ⟨x :: (lazyItems t es).items, (lazyItems t es).exc⟩

/-- `load_pmaps(path, lazy=True)` (pmaps_io.py:176-190, 282-310): a generator; nothing is read, hence nothing raised, before its first item is asked for. -/
def lazyGen (run : List Int) : Option PMapsIO.Tables → Gen (Int × PMapsIO.PMap)
  | none => ⟨[], some noSuchNode⟩
  | some t => match PMapsIO.checkIntegrity run t with
    | .error e => ⟨[], some e⟩
    | .ok () => lazyItems t run

/-- An item of `pmap_from_files` (components.py:612-613). -/
structure PmapItem where
  pmap : PMapsIO.PMap
  runNumber : Int
  event : Int
  timestamp : ℚ
deriving DecidableEq

/-- The loop over `zip(event_info, pmaps)` (components.py:608-613): the generator of PMaps is asked only after a row of `event_info`. -/
def pmapLoop (run : Int) (last : Option PyErr) : List (Int × ℚ) → List (Int × PMapsIO.PMap) → Gen PmapItem
  | [], _ => ⟨[], none⟩
  | _ :: _, [] => ⟨[], last⟩
  | (event, ts) :: rows, (e, pm) :: ps =>
    if event ≠ e then ⟨[], some invalidFile⟩
    else ⟨⟨pm, run, event, ts⟩ :: (pmapLoop run last rows ps).items, (pmapLoop run last rows ps).exc⟩

/-- One file of `pmap_from_files` (components.py:594-613). -/
def pmapFile (f : PmapFile) : Gen PmapItem :=
  match getRunNumber f.run with
  | .error e => skipNodeOrIndex e
  | .ok run => match getEventInfo f.run with
    | .error e => skipNodeOrIndex e
    | .ok events => pmapLoop run (lazyGen (events.map Prod.fst) f.pmaps).exc events (lazyGen (events.map Prod.fst) f.pmaps).items

/-- `pmap_from_files` (components.py:592-613). -/
def pmapFromFiles (files : List PmapFile) : Gen PmapItem := fromFiles pmapFile files

/-! ### Hits and kdst -/

/-- A file with hits: rows of type `R` with an event number, and rows of type `K` of the kdst. -/
structure HitsFile (R K : Type) where
  run : Option Run
  hits : Option (List R)
  kdst : Option (List K)

/-- An item of `hits_and_kdst_from_files` (components.py:653-657), and whether the warning of 650-651 was issued. -/
structure HitsItem (R K : Type) where
  hits : List R
  kdst : List K
  runNumber : Int
  event : Int
  timestamp : ℚ
  warned : Bool
deriving DecidableEq

/-- The body of the loop (components.py:645-657). -/
def hitsItem {R K : Type} (evR : R → Int) (evK : K → Int) (hits : List R) (kdst : List K) (run : Int) (x : Int × ℚ) : HitsItem R K :=
  ⟨hits.filter fun r => evR r == x.1, kdst.filter fun k => evK k == x.1, run, x.1, x.2, (hits.filter fun r => evR r == x.1).length == 0⟩

/-- The check of the lengths and the loop (components.py:643-657). -/
def hitsCheck {R K : Type} (evR : R → Int) (evK : K → Int) (hits : List R) (kdst : List K) (run : Int) (events : List (Int × ℚ)) : Gen (HitsItem R K) :=
  match checkLengths [some events.length, some (unique (kdst.map evK)).length] with
  | .error e => ⟨[], some e⟩
  | .ok () => ⟨events.map (hitsItem evR evK hits kdst run), none⟩

/-- One file of `hits_and_kdst_from_files` (components.py:630-657). -/
def hitsFile {R K : Type} (evR : R → Int) (evK : K → Int) (f : HitsFile R K) : Gen (HitsItem R K) :=
  match node f.hits with
  | .error e => skipNode e
  | .ok hits => match node f.kdst with
    | .error e => skipNode e
    | .ok kdst => match getRunNumber f.run with
      | .error e => skipNodeOrIndex e
      | .ok run => match getEventInfo f.run with
        | .error e => skipNodeOrIndex e
        | .ok events => hitsCheck evR evK hits kdst run events

/-- `hits_and_kdst_from_files` (components.py:616-657). -/
def hitsAndKdstFromFiles {R K : Type} (evR : R → Int) (evK : K → Int) (files : List (HitsFile R K)) : Gen (HitsItem R K) :=
  fromFiles (hitsFile evR evK) files

/-! ### Generic dst -/

/-- A file with a dst of type `D`. -/
structure DstFile (D : Type) where
  run : Option Run
  dst : Option D

/-- An item of `dst_from_files` (components.py:675-679). -/
structure DstItem (D : Type) where
  dst : D
  runNumber : Int
  events : List Int
  timestamps : List ℚ
deriving DecidableEq

/-- One file of `dst_from_files` (components.py:666-679). -/
def dstFile {D : Type} (f : DstFile D) : Gen (DstItem D) :=
  match node f.dst with
  | .error e => skipNodeOrIndex e
  | .ok dst => match getRunNumber f.run with
    | .error e => skipNodeOrIndex e
    | .ok run => match getEventInfo f.run with
      | .error e => skipNodeOrIndex e
      | .ok events => ⟨[⟨dst, run, events.map Prod.fst, events.map Prod.snd⟩], none⟩

/-- `dst_from_files` (components.py:660-679). -/
def dstFromFiles {D : Type} (files : List (DstFile D)) : Gen (DstItem D) := fromFiles dstFile files

/-! ### Deconvolved hits -/

/-- An item of `dhits_from_files` (components.py:747-751); `kdst` is `None` when the file has none. -/
structure DhitsItem (R K : Type) where
  hits : List R
  kdst : Option (List K)
  runNumber : Int
  event : Int
  timestamp : ℚ
deriving DecidableEq

/-- The loop over the events of the deconvolved hits (components.py:734-751).  `patch` is the assignment `Q = E` and the selection of
columns (742-746).  `values[0]` of the timestamps of the event is an `IndexError` when there is none. -/
def dhitsLoop {R K : Type} (evR : R → Int) (evK : K → Int) (patch : R → R) (hits : List R) (kdst : Option (List K)) (run : Int) (events : List (Int × ℚ)) :
    List Int → Gen (DhitsItem R K)
  | [] => ⟨[], none⟩
  | e :: es => match (events.filter fun x => x.1 == e).head? with
    | none => ⟨[], some .indexError⟩
    | some x => ⟨⟨(hits.filter fun r => evR r == e).map patch, kdst.map (List.filter fun k => evK k == e), run, e, x.2⟩ ::
        (dhitsLoop evR evK patch hits kdst run events es).items, (dhitsLoop evR evK patch hits kdst run events es).exc⟩

/-- One file of `dhits_from_files` (components.py:720-751).  `Run/events` is read outside the `try` (733). -/
def dhitsFile {R K : Type} (evR : R → Int) (evK : K → Int) (patch : R → R) (f : HitsFile R K) : Gen (DhitsItem R K) :=
  match node f.hits with
  | .error e => skipNode e
  | .ok hits => match getRunNumber f.run with
    | .error e => skipNodeOrIndex e
    | .ok run => match getEventInfo f.run with
      | .error e => ⟨[], some e⟩
      | .ok events => dhitsLoop evR evK patch hits f.kdst run events (unique (hits.map evR))

/-- `dhits_from_files` (components.py:707-751). -/
def dhitsFromFiles {R K : Type} (evR : R → Int) (evK : K → Int) (patch : R → R) (files : List (HitsFile R K)) : Gen (DhitsItem R K) :=
  fromFiles (dhitsFile evR evK patch) files

/-! ### Monte Carlo -/

/-- Insertion in a sorted list of numbers. -/
def insertSorted (x : Int) : List Int → List Int
  | [] => [x]
  | y :: ys => if x ≤ y then x :: y :: ys else y :: insertSorted x ys

/-- The keys of `groupby(level=0)`: the distinct events in increasing order. -/
def groupKeys (events : List Int) : List Int := (unique events).foldr insertSorted []

/-- One file of `MC_hits_from_files` (components.py:686-704): the pairs of event number and rows of the event. -/
def mcHitsFile {R : Type} (evR : R → Int) : Option (List R) → Gen (Int × List R)
  | none => ⟨[], none⟩
  | some hits => ⟨(groupKeys (hits.map evR)).map fun e => (e, hits.filter fun r => evR r == e), none⟩

/-- `MC_hits_from_files` (components.py:682-704), without the timestamps and the string map. -/
def mcHitsFromFiles {R : Type} (evR : R → Int) (files : List (Option (List R))) : Gen (Int × List R) := fromFiles (mcHitsFile evR) files

/-- A nexus file: its sensor response rows, the identifiers of its PMTs (`none` for the old format), its event numbers. -/
structure SnsFile (R : Type) where
  resp : List R
  pmtIds : Option (List Nat)
  events : List Int

/-- An item of `mcsensors_from_file` (components.py:562-565), without the timestamp. -/
structure SnsItem (R : Type) where
  event : Int
  pmts : List R
  sipms : List R
deriving DecidableEq

/-- The body of the loop over events (components.py:552-565): an event without rows gives empty dataframes. -/
def snsItem {R : Type} (evR : R → Int) (idR : R → Nat) (db : List Nat) (resp : List R) (e : Int) : SnsItem R :=
  ⟨e, (resp.filter fun r => evR r == e).filter fun r => decide (idR r ∈ db), (resp.filter fun r => evR r == e).filter fun r => !decide (idR r ∈ db)⟩

/-- One file of `mcsensors_from_file` (components.py:536-565). -/
def snsFile {R : Type} (evR : R → Int) (idR : R → Nat) (db : List Nat) (f : SnsFile R) : Gen (SnsItem R) :=
  if (f.pmtIds.getD []).all fun i => decide (i ∈ db) then ⟨f.events.map (snsItem evR idR db f.resp), none⟩
  else ⟨[], some (.other "SensorIDMismatch")⟩

/-- `mcsensors_from_file` (components.py:508-565). -/
def mcSensorsFromFile {R : Type} (evR : R → Int) (idR : R → Nat) (db : List Nat) (files : List (SnsFile R)) : Gen (SnsItem R) :=
  fromFiles (snsFile evR idR db) files

end Verif.Sources
