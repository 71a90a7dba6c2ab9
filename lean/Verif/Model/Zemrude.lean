import Verif.Model.Selection
import Verif.Model.KrMap
import Verif.Model.KrApply
import Verif.Model.TimeEvol
/-!
# Model of the city `zemrude` (`cities/zemrude.py`): from the krypton tables to the file with the map

Only the columns that reach the file are modelled, without NaN in the input.  The control plots (two more sinks of the same fork,
that write to another path) are not modelled.  Parameters that are arbitrary functions: the nearest bin of scipy (`pick`), the fit of a bin of
the map (`fit`), the energy given by the gaussian fit to a spectrum or by its median (`energy`).
-/
namespace Verif.Zemrude
open Verif.Voxels (npMax)

/-- A row of the table DST/Events, with the columns Ec and Ec_2 that the city adds. -/
structure Kr where
  event : Int
  time : ℚ
  x : ℚ
  y : ℚ
  z : ℚ
  r : ℚ
  zrms : ℚ
  dt : ℚ
  s1e : ℚ
  s2e : ℚ
  s2t : ℚ
  nsipm : ℚ
  ec : Option ℚ := none
  ec2 : Option ℚ := none
deriving DecidableEq, Repr

/-- The columns used by the selection (icaros/selection_functions.py:90, 146-154). -/
def Kr.sel (k : Kr) : Selection.Row := ⟨k.event, some k.time, some k.zrms, some k.dt, k.ec, some k.s2t, some k.r, some k.nsipm⟩

/-- The columns used by the map (icaros/krmap_functions.py:226-243, 398). -/
def Kr.evt (k : Kr) : KrMap.Evt := ⟨k.x, k.y, k.dt, k.s2e, k.time⟩

/-- The columns used to correct the energy (icaros/correction_functions.py:178). -/
def Kr.hit (k : Kr) : KrApply.Hit := ⟨k.dt, k.x, k.y, k.s2e⟩

/-- The columns used by the time evolution. -/
def Kr.slice (k : Kr) : TimeEvol.Row := ⟨k.event, k.time, some k.x, some k.y, k.dt, k.s1e, k.s2e, k.ec, k.ec2⟩

/-- A bin of the map, as used to correct energies. -/
def binOf (o : KrMap.Out) : KrApply.Bin := ⟨o.k, o.dt, o.x, o.y, o.fit.mu⟩

/-- An input file: its run number (`get_run_number`, components.py:447-451) and its table. -/
structure Input where
  run : Int
  rows : List Kr
deriving DecidableEq, Repr

/-- The configuration of the city (zemrude.py:113-166) that reaches the file. -/
structure Config where
  norm : KrApply.Method
  region : Option KrApply.Region
  cuts : Selection.Cuts
  map : KrMap.Config
  sliceHours : ℚ
  s1DT : ℚ × ℚ

/-- What is not in the repository: libraries and units. -/
structure Env where
  pick : List (ℚ × ℚ × ℚ) → ℚ × ℚ × ℚ → Nat
  fit : List ℚ → KrMap.Fit
  energy : List (Option ℚ) → Option ℚ
  keV : ℚ
  writable : Bool

/-- `apply_correctionmap_inplace_kdst` (correction_functions.py:145-181) with the energies in a column. -/
def correct (v : Env) (c : Config) (krmap : List KrApply.Bin) (put : Kr → Option ℚ → Kr) (dst : List Kr) : Except PyErr (List Kr) :=
  match KrApply.apply3D v.pick v.keV krmap c.norm c.region (some v.keV) (dst.map Kr.hit) with
  | .error e => .error e
  | .ok es => .ok (List.zipWith put dst es)

/-- The column Ec (zemrude.py:169-174). -/
def putEc (k : Kr) (e : Option ℚ) : Kr := { k with ec := e }

/-- The column Ec_2 (zemrude.py:211-216). -/
def putEc2 (k : Kr) (e : Option ℚ) : Kr := { k with ec2 := e }

/-- The selected rows (zemrude.py:177-189): the whole rows whose columns are in the selection (the requirements depend only on those columns, `select_whole`). -/
def select (c : Config) (dst : List Kr) : Except PyErr (List Kr × Selection.Effs) :=
  match Selection.applySelections c.cuts (dst.map Kr.sel) with
  | .error e => .error e
  | .ok (rows, effs) => .ok (dst.filter fun k => decide (k.sel ∈ rows), effs)

/-- The metadata (krmap_functions.py:437-451): extremes, size and indices of the bins, number of rows.  The extremes of no rows are NaN. -/
structure Meta where
  rmax : Option ℚ
  zmax : Option ℚ
  binDt : ℚ
  binXY : ℚ
  dtbins : List Int
  xbins : List Int
  ybins : List Int
  extent : Nat
deriving DecidableEq, Repr

/-- `compute_metadata` (krmap_functions.py:408-453). -/
def metadata (c : Config) (df : List Kr) (krmap : List KrMap.Out) : Meta :=
  ⟨if df = [] then none else some (npMax (df.map Kr.r)), if df = [] then none else some (npMax (df.map Kr.z)),
   (c.map.dt.2 - c.map.dt.1) / c.map.ndt, (c.map.xy.2 - c.map.xy.1) / c.map.nxy,
   PMapsIO.unique (krmap.map KrMap.Out.k), PMapsIO.unique (krmap.map KrMap.Out.i), PMapsIO.unique (krmap.map KrMap.Out.j), df.length⟩

/-- A row of the time evolution: the part of `single`, and the energies with the preliminary map and with the new one (krmap_functions.py:563-596, 614-616). -/
structure Evol where
  base : TimeEvol.Summary
  ecPrelim : Option ℚ
  ecSelf : Option ℚ
deriving DecidableEq, Repr

/-- The analysis of a slice (krmap_functions.py:492-648). -/
def analysis (v : Env) (c : Config) (run : Int) (df : List TimeEvol.Row) : Evol :=
  ⟨TimeEvol.single run c.s1DT df, v.energy (df.map TimeEvol.Row.ec), v.energy (df.map TimeEvol.Row.ec2)⟩

/-- A table of the file: the four that the city writes, or any other one. -/
inductive Table where
  | krmap (rows : List KrMap.Out)
  | evol (rows : List Evol)
  | effs (rows : List Selection.Effs)
  | info (m : Meta)
  | other (n : Nat)
deriving DecidableEq, Repr

/-- A file: its tables by their path. -/
abbrev File := List (String × Table)

/-- The rows of a table after those of another one (`df_writer` with a table that exists, io/dst_io.py:116-125); tables of other types are not castable. -/
def Table.append : Table → Table → Except PyErr Table
  | .krmap a, .krmap b => .ok (.krmap (a ++ b))
  | .evol a, .evol b => .ok (.evol (a ++ b))
  | .effs a, .effs b => .ok (.effs (a ++ b))
  | _, _ => .error (.other "TableMismatch")

/-- `df_writer` (io/dst_io.py:79-132): creates the table or appends to it. -/
def dfWriter (f : File) (path : String) (t : Table) : Except PyErr File :=
  match f.lookup path with
  | none => .ok (f ++ [(path, t)])
  | some old => match old.append t with
    | .error e => .error e
    | .ok new => .ok (f.map fun kv => if kv.1 = path then (path, new) else kv)

/-- A file opened with mode 'w': whatever there was is lost. -/
def openW (_old : File) : File := []

/-- `save_map` (krmap_functions.py:696-726): the metadata with `to_hdf` and mode 'w', then the three tables. -/
def saveMap (old : File) (effs : Selection.Effs) (krmap : List KrMap.Out) (m : Meta) (evol : List Evol) : Except PyErr File :=
  match dfWriter (openW old ++ [("metadata", .info m)]) "data/selection_efficiencies" (.effs [effs]) with
  | .error e => .error e
  | .ok f1 => match dfWriter f1 "krmap/krmap" (.krmap krmap) with
    | .error e => .error e
    | .ok f2 => dfWriter f2 "t_evol/t_evol" (.evol evol)

/-- `load_map` (correction_functions.py:222-228); a path without table is `KeyError`. -/
def loadMap (f : File) : Except PyErr (Table × Table × Table × Table) :=
  match f.lookup "krmap/krmap", f.lookup "t_evol/t_evol", f.lookup "data/selection_efficiencies", f.lookup "metadata" with
  | some a, some b, some c, some d => .ok (a, b, c, d)
  | _, _, _, _ => .error .keyError

/-- What reaches the sinks (zemrude.py:271-282): the only item of the source through the pipe. -/
structure Result where
  effs : Selection.Effs
  krmap : List KrMap.Out
  info : Meta
  corrected : List Kr
  evol : List Evol
deriving DecidableEq, Repr

/-- The pipe (zemrude.py:271-282): preliminary map, selection, map, metadata, correction with the map, time evolution. -/
def process (v : Env) (c : Config) (preMap : List KrApply.Bin) (run : Int) (dst : List Kr) : Except PyErr Result :=
  match correct v c preMap putEc dst with
  | .error e => .error e
  | .ok dst => match select c dst with
    | .error e => .error e
    | .ok (sel, effs) => match KrMap.computeMap v.writable c.map v.fit (sel.map Kr.evt) with
      | .error e => .error e
      | .ok krmap => match correct v c (krmap.map binOf) putEc2 sel with
        | .error e => .error e
        | .ok corrected => match TimeEvol.timeEvol (analysis v c run) c.sliceHours (corrected.map Kr.slice) with
          | .error e => .error e
          | .ok evol => .ok ⟨effs, krmap, metadata c sel krmap, corrected, evol⟩

/-- The source (zemrude.py:38-46): all the tables one after another and the run number of the first file. -/
def source (files : List Input) : Except PyErr (Int × List Kr) :=
  match files with
  | [] => .error .valueError
  | f :: fs => .ok (f.run, (f :: fs).flatMap Input.rows)

/-- The city (zemrude.py:112-282): the file after it, whether it ends or fails.  The file is emptied before anything is read (zemrude.py:269-270). -/
def zemrude (v : Env) (c : Config) (preMap : List KrApply.Bin) (files : List Input) (old : File) : File × Except PyErr Unit :=
  match source files with
  | .error e => (openW old, .error e)
  | .ok (run, dst) => match process v c preMap run dst with
    | .error e => (openW old, .error e)
    | .ok r => match saveMap (openW old) r.effs r.krmap r.info r.evol with
      | .error e => (openW old, .error e)
      | .ok f => (f, .ok ())

end Verif.Zemrude
