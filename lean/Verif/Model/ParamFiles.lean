import Verif.Base
import Verif.Model.Corrections
import Verif.Model.LightTables
/-!
# Model of the reading of files with parameters: correction maps (`reco/corrections.py`) and light tables (`detsim/light_tables.py`)

A file is given by what its tables hold; `none` is a table that is not in the file (`KeyError` in `pd.read_hdf`).
-/
namespace Verif.ParamFiles
open Verif (PyErr)
open Verif.Corrections (Info Table Evol Strategy Options Point)
open Verif.Detsim (LTFun)

/-! ### Correction maps -/

/-- The file of a correction map (corrections.py:55-65).  `evol`: the time evolution, with the error that its reading raises if it cannot be read; `run` is `mapinfo.run_number`. -/
structure MapFile where
  chi2 : Option Table
  e0 : Option Table
  e0u : Option Table
  lt : Option Table
  ltu : Option Table
  mapinfo : Option (Info × Int)
  evol : Except PyErr Evol

/-- `ASectorMap` (corrections.py:17-25). -/
structure SectorMap where
  chi2 : Table
  e0 : Table
  lt : Table
  e0u : Table
  ltu : Table
  info : Info
  run : Int
  evol : Option Evol

/-- `pd.read_hdf(filename, key)`. -/
def readHdf {α : Type} : Option α → Except PyErr α
  | none => .error .keyError
  | some t => .ok t

/-- The time evolution (corrections.py:62-70): only for data, and any error is forgotten. -/
def evolOf (run : Int) (evol : Except PyErr Evol) : Option Evol := if run > 0 then evol.toOption else none

/-- `read_maps` (corrections.py:27-72). -/
def readMaps (f : MapFile) : Except PyErr SectorMap :=
  match readHdf f.chi2, readHdf f.e0, readHdf f.e0u, readHdf f.lt, readHdf f.ltu, readHdf f.mapinfo with
  | .ok chi2, .ok e0, .ok e0u, .ok lt, .ok ltu, .ok (info, run) => .ok ⟨chi2, e0, lt, e0u, ltu, info, run, evolOf run f.evol⟩
  | _, _, _, _, _, _ => .error .keyError

/-- `apply_all_correction` (corrections.py:351-379) and the call of the function given. -/
def applyOne (exp : ℚ → ℚ) (keV : ℚ) (m : SectorMap) (applyTemp : Bool) (s : Strategy) (o : Options) (pts : List Point) : Except PyErr (List (Option ℚ)) :=
  Corrections.applyAll exp keV m.info m.e0 m.info m.lt m.evol applyTemp s o pts

/-! ### Light tables -/

/-- The file of a light table (light_tables.py:41-44): the names of the columns, the rows and the configuration (parameter and value, as text). -/
structure LightFile where
  columns : List String
  rows : List (List ℚ)
  config : List (String × String)
deriving DecidableEq

/-- `config_df.loc[name].value`: `KeyError` without it; a repeated parameter gives a column, that cannot be made a number (`TypeError`). -/
def configValue (config : List (String × String)) (name : String) : Except PyErr String :=
  match config.filter fun p => decide (p.1 = name) with
  | [] => .error .keyError
  | [p] => .ok p.2
  | _ => .error .typeError

/-- `float(config_df.loc[name].value) * units.mm` (light_tables.py:43-44); `parse` is `float`, with `none` for `ValueError`. -/
def configNumber (parse : String → Option ℚ) (mm : ℚ) (config : List (String × String)) (name : String) : Except PyErr ℚ :=
  match configValue config name with
  | .error e => .error e
  | .ok s => match parse s with
    | none => .error .valueError
    | some v => .ok (v * mm)

/-- The value of the user or that of the file (light_tables.py:45-54), with the warning. -/
def choose (user : Option ℚ) (file : ℚ) : ℚ × Bool :=
  match user with
  | none => (file, false)
  | some v => if v ≠ 0 ∧ v ≠ file then (v, true) else (file, false)

/-- What `read_lighttable` gives besides the tables: the gap, the radius and whether it warns of each. -/
structure Sizes where
  elGap : ℚ
  activeR : ℚ
  warnGap : Bool
  warnR : Bool
deriving DecidableEq

/-- `read_lighttable` (light_tables.py:14-57). -/
def readLightTable (parse : String → Option ℚ) (mm : ℚ) (f : LightFile) (elGap activeR : Option ℚ) : Except PyErr Sizes :=
  match configNumber parse mm f.config "EL_GAP", configNumber parse mm f.config "ACTIVE_rad" with
  | .ok gap, .ok r => .ok ⟨(choose elGap gap).1, (choose activeR r).1, (choose elGap gap).2, (choose activeR r).2⟩
  | .error e, _ => .error e
  | .ok _, .error e => .error e

/-- The value of a column in a row. -/
def cell (columns : List String) (row : List ℚ) (name : String) : ℚ := row.getD (columns.idxOf name) 0

/-- The values of the sensors of a row: all the columns but `skip` (light_tables.py:78, 100). -/
def sensorValues (columns : List String) (skip : List String) (row : List ℚ) : List ℚ := ((columns.zip row).filter fun p => decide (p.1 ∉ skip)).map Prod.snd

/-- The table of `create_lighttable_function` (light_tables.py:76-101): without the column of the total, with `z = 1` if it has no `z`.  `KeyError` without one of the columns. -/
def lightFunction (parse : String → Option ℚ) (mm : ℚ) (f : LightFile) (activeR : Option ℚ) : Except PyErr LTFun :=
  match readLightTable parse mm f none activeR with
  | .error e => .error e
  | .ok sizes => match configValue f.config "sensor" with
    | .error e => .error e
    | .ok sensor =>
      if (sensor ++ "_total") ∈ f.columns ∧ "x" ∈ f.columns ∧ "y" ∈ f.columns then
        .ok ⟨f.rows.map fun row => ((cell f.columns row "x", cell f.columns row "y", if "z" ∈ f.columns then cell f.columns row "z" else 1),
              sensorValues f.columns [sensor ++ "_total", "x", "y", "z"] row),
            sizes.activeR, (f.columns.filter fun c => decide (c ∉ [sensor ++ "_total", "x", "y", "z"])).length⟩
      else .error .keyError

/-- The positions of a call (light_tables.py:80-84): one `z` is for all of them; other lengths raise `Exception`. -/
def positions (xs ys zs : List ℚ) : Except PyErr (List (ℚ × ℚ × ℚ)) :=
  if xs.length = ys.length ∧ xs.length = (if zs.length = 1 then xs.length else zs.length) then
    .ok (List.zip xs (List.zip ys (if zs.length = 1 then List.replicate xs.length (zs.getD 0 0) else zs)))
  else .error (.other "Exception")

/-- A call of the function given by `create_lighttable_function` for a table with `z` (light_tables.py:80-92, 115). -/
def callS1 (parse : String → Option ℚ) (mm : ℚ) (f : LightFile) (activeR : Option ℚ) (xs ys zs : List ℚ) : Except PyErr (List (List ℚ)) :=
  match lightFunction parse mm f activeR with
  | .error e => .error e
  | .ok t => match positions xs ys zs with
    | .error e => .error e
    | .ok ps => t.eval ps

/-- A call for a table without `z` (light_tables.py:80-92, 116). -/
def callS2 (parse : String → Option ℚ) (mm : ℚ) (f : LightFile) (activeR : Option ℚ) (xs ys : List ℚ) : Except PyErr (List (List ℚ)) := callS1 parse mm f activeR xs ys [1]

/-- `compute_scintillation_photons` (simulate_s1.py:27-44): `draw i m` is the Poisson variate of the hit `i` for the mean `m`; `ValueError` for negative means (`ws` not null). -/
def scintillation (draw : Nat → ℚ → Nat) (energies : List ℚ) (ws : ℚ) : Except PyErr (List Nat) :=
  if energies.any fun e => decide (e / ws < 0) then .error .valueError
  else .ok (energies.mapIdx fun i e => draw i (e / ws))

end Verif.ParamFiles
