import Verif.Model.TableIO
import Verif.Model.Components
/-!
# Model of what `city` (`cities/components.py`) does after a city has run: configurations and indices

Simplifications: the group config exists if it has tables; the tables of a group are copied in the order of the file (in the code, that of their names); a configuration has some argument (it always has `files_in`); the file names are not modelled;
strings are of ASCII characters.
-/
namespace Verif.CityConfig
open Verif.TableIO Verif.Components

/-- The table of a configuration (components.py:251-255): columns variable and value. -/
def confDF (args : Cfgs) : DF := ⟨[("variable", .obj), ("value", .obj)], (dictToString args).map fun kv => [.text (String.ofList kv.1), .text kv.2]⟩

/-- `write_city_configuration` (components.py:247-257). -/
def writeConf (f : File) (city : String) (args : Cfgs) : File × Except PyErr Unit := dfWriter f (confDF args) ("config", city) 300 none

/-- A table of the group config. -/
def configTable (x : (String × String) × Table) : Option (String × Table) := if x.1.1 = "config" then some (x.1.2, x.2) else none

/-- `fin.root.config`. -/
def configTables (f : File) : List (String × Table) := f.filterMap configTable

/-- The loop of `copy_cities_configuration` (components.py:269-270): `copy_node` does not overwrite. -/
def copyLoop (out : File) : List (String × Table) → File × Except PyErr Unit
  | [] => (out, .ok ())
  | (n, t) :: rest => match out.get ("config", n) with
    | some _ => (out, .error (.other "NodeError"))
    | none => copyLoop (out ++ [(("config", n), t)]) rest

/-- `copy_cities_configuration` (components.py:260-270); without the group, only a warning. -/
def copyConf (fin fout : File) : File × Except PyErr Unit := copyLoop fout (configTables fin)

/-- The indices of a table (components.py:214-216): those of the columns in its attribute; one that does not exist is `KeyError`. -/
def indexTable (x : (String × String) × Table) : Except PyErr (List ((String × String) × String)) :=
  match x.2.index with
  | none => .ok []
  | some cols => if cols.all (fun c => decide (c ∈ x.2.cols.map Prod.fst)) then .ok (cols.map fun c => (x.1, c)) else .error .keyError

/-- `index_tables` (components.py:207-217): the (table, column) indexed. -/
def indexTables (f : File) : Except PyErr (List ((String × String) × String)) :=
  match f.mapM indexTable with
  | .error e => .error e
  | .ok l => .ok l.flatten

/-- The end of a city (components.py:151-154): from the first input file and the output as the city left it, the output and the columns indexed. -/
def finish (city : String) (args : Cfgs) (fin fout : File) : File × Except PyErr (List ((String × String) × String)) :=
  match writeConf fout city args with
  | (f1, .error e) => (f1, .error e)
  | (f1, .ok ()) => match copyConf fin f1 with
    | (f2, .error e) => (f2, .error e)
    | (f2, .ok ()) => (f2, indexTables f2)

/-- A job: the name of a city, its configuration, and what it writes given its input. -/
structure Job where
  city : String
  args : Cfgs
  body : File → File

/-- A chain of jobs, each with the output of the previous one as its only input; it stops at the first error. -/
def chain (f : File) : List Job → File × Except PyErr Unit
  | [] => (f, .ok ())
  | j :: js => match finish j.city j.args f (j.body f) with
    | (g, .error e) => (g, .error e)
    | (g, .ok _) => chain g js

end Verif.CityConfig
