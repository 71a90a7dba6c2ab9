import Verif.Model.Sources
/-!
# Model of the copy of the Monte Carlo information (`io/mcinfo_io.py`, `copy_mc_info` of `cities/components.py`)

A file of the 2020 format is a record of the tables that are read.  A row of a table of events is its event number and a number that stands for the other
columns.  `df_writer` (see `Verif.Model.TableIO`) is here an append: all the files have the same columns.
-/
namespace Verif.McInfo
open Verif.PMapsIO (unique)

/-- A row of `MC/hits`, `MC/particles`, `MC/sns_response` or `MC/generators`: the event (`event_id`, or `evt_number` of the generators) and the rest. -/
structure Row where
  event : Int
  tag : Nat
deriving DecidableEq, Repr

/-- A table that may have the column `file_index`: when it does not, the first components are not used. -/
structure ITable (α : Type) where
  indexed : Bool
  rows : List (Int × α)
deriving DecidableEq, Repr

/-- The group `MC`.  `mapping` is `MC/event_mapping`, with the event of each row; a row of the configuration is a number; the rows of
`strings` (`MC/string_map`) are `name_id` and `name`. -/
structure Group where
  configuration : Option (ITable Nat) := none
  mapping : Option (ITable Int) := none
  generators : Option (List Row) := none
  hits : Option (List Row) := none
  particles : Option (List Row) := none
  positions : Option (List Nat) := none
  response : Option (List Row) := none
  strings : Option (List (Nat × String)) := none

/-- An input file: the group `MC` and the table `Run/eventMap`, with columns `evt_number` and `nexus_evt`. -/
structure File where
  mc : Option Group
  eventMap : Option (List (Int × Int)) := none

/-- What the output file has of these tables.  `mapping` is `none` before the first write; its rows are `file_index` and `event_id`. -/
structure Out where
  eventMap : List (Int × Int) := []
  mapping : Option (List (Int × Int)) := none
  configuration : List (Int × Nat) := []
  generators : List Row := []
  hits : List Row := []
  particles : List Row := []
  positions : List Nat := []
  response : List Row := []
  strings : List String := []
deriving DecidableEq

/-- `get_event_ids_table` (mcinfo_io.py:322-327): sorted, without repetitions; `AttributeError` without the table. -/
def eventIds : Option (List Row) → Except PyErr (List Int)
  | none => .error .attributeError
  | some rows => .ok (Sources.groupKeys (rows.map Row.event))

/-- `get_event_numbers_in_file` (mcinfo_io.py:289-331) for a file of the 2020 format: the events of the particles or, if there are none, of
the sensor response. -/
def eventNumbers (g : Group) : Except PyErr (List Int) :=
  match eventIds g.particles with
  | .error e => .error e
  | .ok [] => eventIds g.response
  | .ok (e :: es) => .ok (e :: es)

/-- `check_last_merge_index` (mcinfo_io.py:79-97): `file_index[-1]` of a table without rows is an `IndexError`. -/
def lastIndex (o : Out) : Except PyErr Int :=
  match o.mapping with
  | none => .ok (-1)
  | some rows => match rows.getLast? with
    | none => .error .indexError
    | some r => .ok r.1

/-- `tbl.replace(dict(file_index=orig), new, inplace=True)` (mcinfo_io.py:67). -/
def replaceIndex {α : Type} (orig new : Int) (rows : List (Int × α)) : List (Int × α) :=
  rows.map fun r => if r.1 = orig then (new, r.2) else r

/-- The loop over the pairs of original and new indices (mcinfo_io.py:66-67). -/
def replaceAll {α : Type} : List (Int × Int) → List (Int × α) → List (Int × α)
  | [], rows => rows
  | (orig, new) :: rest, rows => replaceAll rest (replaceIndex orig new rows)

/-- The original indices with the new ones, `first, first + 1, ...` (mcinfo_io.py:63-66). -/
def renumbering {α : Type} (first : Int) (rows : List (Int × α)) : List (Int × Int) :=
  (unique (rows.map Prod.fst)).zipIdx.map fun (p : Int × Nat) => (p.1, first + (p.2 : Int))

/-- The `try` block (mcinfo_io.py:62-69): the new column `file_index`. -/
def reindex {α : Type} (first : Int) (t : ITable α) : List (Int × α) :=
  if t.indexed then replaceAll (renumbering first t.rows) t.rows else t.rows.map fun r => (first, r.2)

/-- `tbl[tbl.event_id.isin(evt_arr)]` (mcinfo_io.py:177-195). -/
def ofEvents (evts : List Int) (rows : List Row) : List Row := rows.filter fun r => decide (r.event ∈ evts)

/-- The table of the mapping of the selected events (mcinfo_io.py:203, 239-241). -/
def mappingOf (evts : List Int) : Option (ITable Int) → ITable Int
  | some t => ⟨t.indexed, t.rows.filter fun r => decide (r.2 ∈ evts)⟩
  | none => ⟨false, evts.map fun e => (0, e)⟩

/-- The rows of an optional table. -/
def rowsOf {α : Type} (t : Option (List α)) : List α := t.getD []

/-- The configuration with its new index; nothing without the table. -/
def configRows (first : Int) : Option (ITable Nat) → List (Int × Nat)
  | none => []
  | some t => reindex first t

/-- `read_mc_tables` and `write_mctables` (mcinfo_io.py:138-209, 46-75), with the index of the first merged file.  The column `name_id` of the string
map is the index of its dataframe (mcinfo_io.py:970), which `df_writer` does not write (dst_io.py:106). -/
def writeTables (o : Out) (g : Group) (evts : List Int) (first : Int) : Out :=
  { o with
    mapping := some (rowsOf o.mapping ++ reindex first (mappingOf evts g.mapping))
    configuration := o.configuration ++ configRows first g.configuration
    generators := o.generators ++ ofEvents evts (rowsOf g.generators)
    hits := o.hits ++ ofEvents evts (rowsOf g.hits)
    particles := o.particles ++ ofEvents evts (rowsOf g.particles)
    positions := o.positions ++ rowsOf g.positions
    response := o.response ++ ofEvents evts (rowsOf g.response)
    strings := o.strings ++ (rowsOf g.strings).map Prod.snd }

/-- `copy_mc_info` of mcinfo_io (mcinfo_io.py:212-242), for a list of events. -/
def copyFile (o : Out) (g : Group) (evts : List Int) : Except PyErr Out :=
  match lastIndex o with
  | .error e => .error e
  | .ok i => .ok (writeTables o g evts (i + 1))

/-- `copy_mc_info` of mcinfo_io with `which_events = None` (mcinfo_io.py:236-237). -/
def copyWholeFile (o : Out) (g : Group) : Except PyErr Out :=
  match eventNumbers g with
  | .error e => .error e
  | .ok evts => copyFile o g evts

/-- `safe_copy_nexus_eventmap` (mcinfo_io.py:100-135): the output, the event numbers and the nexus events.  `np.intersect1d` gives sorted numbers
without repetitions. -/
def safeCopy (o : Out) (evts : List Int) (eventMap : Option (List (Int × Int))) (g : Group) : Except PyErr (Out × List Int × List Int) :=
  match eventMap with
  | some m => .ok ({ o with eventMap := o.eventMap ++ m.filter fun r => decide (r.1 ∈ evts) },
      (m.filter fun r => decide (r.1 ∈ evts)).map Prod.fst, (m.filter fun r => decide (r.1 ∈ evts)).map Prod.snd)
  | none => match eventNumbers g with
    | .error e => .error e
    | .ok nums => .ok (o, Sources.groupKeys (evts.filter fun e => decide (e ∈ nums)), Sources.groupKeys (evts.filter fun e => decide (e ∈ nums)))

/-- The body of the loop over files (components.py:366-377): the output and the events copied. -/
def copyOne (o : Out) (evts : List Int) (f : File) : Except PyErr (Out × List Int) :=
  match f.mc with
  | none => .ok (o, [])
  | some g => match safeCopy o evts f.eventMap g with
    | .error e => .error e
    | .ok (o1, copied, nexus) => match copyFile o1 g nexus with
      | .error e => .error e
      | .ok o2 => .ok (o2, copied)

/-- The loop over files (components.py:366-377). -/
def copyLoop (evts : List Int) : List File → Out → List Int → Except PyErr (Out × List Int)
  | [], o, copied => .ok (o, copied)
  | f :: fs, o, copied => match copyOne o evts f with
    | .error e => .error e
    | .ok (o', c) => copyLoop evts fs o' (copied ++ c)

/-- `MCEventNotFound` (core/exceptions.py:53). -/
def notFound : PyErr := .other "MCEventNotFound"

/-- `copy_mc_info` of the cities (components.py:339-379): what was written before an exception is kept in the file, so the output is given only on success, except
for `MCEventNotFound`, which is raised at the end: see `written`. -/
def copyMcInfo (files : List File) (o : Out) (evts : List Int) : Except PyErr Out :=
  match copyLoop evts files o [] with
  | .error e => .error e
  | .ok (o', copied) => if evts.all fun e => decide (e ∈ copied) then .ok o' else .error notFound

/-- The state of the output when the loop over the files ends (components.py:366-377). -/
def written (files : List File) (o : Out) (evts : List Int) : Except PyErr Out :=
  match copyLoop evts files o [] with
  | .error e => .error e
  | .ok (o', _) => .ok o'

/-! ### Files of the format previous to 2020 -/

/-- `hits.merge(evt_hit_df, left_index=True, right_index=True, how='left')` (mcinfo_io.py:544-547, 666-669, 815-818): each row, numbered from `i`, with the
event of every row of the extents whose last index is its number, or with NaN if there is none. -/
def mergeFrom {α : Type} (ext : List (Int × Int)) : Nat → List α → List (Option Int × α)
  | _, [] => []
  | i, x :: xs => (match ext.filter fun r => r.1 == (i : Int) with
    | [] => [(none, x)]
    | r :: rs => (r :: rs).map fun s => (some s.2, x)) ++ mergeFrom ext (i + 1) xs

/-- The first value of a column from some row on. -/
def nextValue {α : Type} : List (Option Int × α) → Option Int
  | [] => none
  | (some e, _) :: _ => some e
  | (none, _) :: rest => nextValue rest

/-- `bfill().astype(int)` (mcinfo_io.py:549, 671, 819): the next value; `ValueError` if it is still NaN. -/
def bfill {α : Type} : List (Option Int × α) → Except PyErr (List (Int × α))
  | [] => .ok []
  | (v, x) :: rest => match (match v with | some e => some e | none => nextValue rest), bfill rest with
    | some e, .ok l => .ok ((e, x) :: l)
    | _, .error e => .error e
    | none, _ => .error .valueError

/-- `load_mchits_dfold`, `load_mcparticles_dfold` and `load_mcsensors_dfold` (mcinfo_io.py:510-554, 622-681, 796-822): the rows with their event.  `ext` are the rows
of `MC/extents`: the last index (`last_hit`, `last_particle` or `last_sns_data`) and `evt_number`. -/
def loadOld {α : Type} (ext : List (Int × Int)) (rows : List α) : Except PyErr (List (Int × α)) := bfill (mergeFrom ext 0 rows)

/-- `h5hits[ihit]` for `ihit` in a range (mcinfo_io.py:906-910); negative indices are counted from the end. -/
def readRange {α : Type} (rows : List α) : Int → Nat → Except PyErr (List α)
  | _, 0 => .ok []
  | i, n + 1 => match (if 0 ≤ i then rows[i.toNat]? else if 0 ≤ i + rows.length then rows[(i + rows.length).toNat]? else none) with
    | none => .error .indexError
    | some x => match readRange rows (i + 1) n with
      | .error e => .error e
      | .ok xs => .ok (x :: xs)

/-- `read_mcinfo_evt` (mcinfo_io.py:881-925), the hits (with `return_only_hits`) or the particles of the first row of the extents, from `k` on, with the event.  Beyond the last row:
`IndexError`. -/
def readEvent {α : Type} (ext : List (Int × Int)) (rows : List α) (event : Int) : Nat → Nat → Except PyErr (List α)
  | 0, _ => .error .indexError
  | fuel + 1, k => match ext[k]? with
    | none => .error .indexError
    | some r => if r.2 = event then
        (if rows.length = 0 then .ok []
         else readRange rows (if k = 0 then 0 else ((ext[k - 1]?).map Prod.fst).getD 0 + 1)
           (r.1 + 1 - (if k = 0 then 0 else ((ext[k - 1]?).map Prod.fst).getD 0 + 1)).toNat)
      else readEvent ext rows event fuel (k + 1)

/-- `_read_mchit_info` (mcinfo_io.py:928-953), for the rows of the extents from `k` on: pairs of event and hits (the dictionary keeps the last one of each event). -/
def readHits {α : Type} (ext : List (Int × Int)) (rows : List α) : List Nat → Except PyErr (List (Int × List α))
  | [] => .ok []
  | k :: ks => match ext[k]? with
    | none => .error .indexError
    | some r => match readEvent ext rows r.2 (ext.length + 1) k with
      | .error e => .error e
      | .ok hs => match readHits ext rows ks with
        | .error e => .error e
        | .ok rest => .ok ((r.2, hs) :: rest)

/-! ### Hits as a dictionary -/

/-- A row of the dataframe of hits: its index and the rest. -/
structure HitRow where
  event : Int
  particle : Int
  hit : Int
  tag : Nat
deriving DecidableEq, Repr

/-- `[... hit.iloc[0] ... for _, hit in evt_hits.groupby(level=2)]` (mcinfo_io.py:575-577): the first row of each group of equal `hit_id`. -/
def firstOfEach (rows : List HitRow) : List HitRow :=
  (Sources.groupKeys (rows.map HitRow.hit)).flatMap fun k => ((rows.filter fun r => r.hit == k).head?).toList

/-- `cast_mchits_to_dict` (mcinfo_io.py:557-578). -/
def castHits (rows : List HitRow) : List (Int × List HitRow) :=
  (Sources.groupKeys (rows.map HitRow.event)).map fun e => (e, firstOfEach (rows.filter fun r => r.event == e))

/-! ### Times of the sensor response -/

/-- `str.strip('_binning')` (mcinfo_io.py:712): removes these characters, not the suffix, on both sides. -/
def stripBinning (s : List Char) : List Char :=
  ((s.dropWhile (fun c => "_binning".toList.contains c)).reverse.dropWhile (fun c => "_binning".toList.contains c)).reverse

/-- A row of the sensor response. -/
structure SnsRow where
  event : Int
  sensor : Nat
  bin : Nat
  charge : ℚ
deriving DecidableEq, Repr

/-- A row of the output of `convert_timebin_to_time`; a time is NaN (`none`) when the type of the sensor has no binning. -/
structure TimeRow where
  event : Int
  sensor : Nat
  name : String
  time : Option ℚ
  charge : ℚ
deriving DecidableEq, Repr

/-- `sns_pos.join(sns_bins)` (mcinfo_io.py:873): a left join on the name; the index of `sns_bins` has no repetitions before `strip` (mcinfo_io.py:709), but may have them after it. -/
def joinBins (bins : List (String × ℚ)) (pos : List (Nat × String)) : List (Nat × String × Option ℚ) :=
  pos.flatMap fun p => match bins.filter fun b => b.1 == p.2 with
    | [] => [(p.1, p.2, none)]
    | b :: bs => (b :: bs).map fun c => (p.1, p.2, some c.2)

/-- `convert_timebin_to_time` (mcinfo_io.py:850-878): an inner merge on `sensor_id`. -/
def convertTimes (resp : List SnsRow) (bins : List (String × ℚ)) (pos : List (Nat × String)) : List TimeRow :=
  resp.flatMap fun r => ((joinBins bins pos).filter fun p => p.1 == r.sensor).map fun p =>
    ⟨r.event, r.sensor, p.2.1, p.2.2.map fun w => w * r.bin, r.charge⟩

end Verif.McInfo
