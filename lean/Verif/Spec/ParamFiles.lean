import Verif.Model.ParamFiles
import Verif.Props.LightFunction
/-!
# Vocabulary for the files of parameters
-/
namespace Verif.ParamFiles
open Verif.Detsim (Nearest)

/-- The row holds the value `v` in the column `c`. -/
def HasValue (columns : List String) (row : List ℚ) (c : String) (v : ℚ) : Prop := ∃ k : Nat, columns[k]? = some c ∧ row[k]? = some v

/-- The table: rows as long as the columns, no column repeated. -/
structure Tidy (f : LightFile) : Prop where
  rows : ∀ row ∈ f.rows, row.length = f.columns.length
  names : f.columns.Nodup

/-- The columns of the sensors: neither coordinates nor the total. -/
def sensorColumns (f : LightFile) (sensor : String) : List String := f.columns.filter fun c => decide (c ≠ "x" ∧ c ≠ "y" ∧ c ≠ "z" ∧ c ≠ sensor ++ "_total")

/-- The parameter is in the configuration once, with a number. -/
def Gives (parse : String → Option ℚ) (f : LightFile) (name : String) (v : ℚ) : Prop := ∃ s, f.config.filter (fun p => decide (p.1 = name)) = [(name, s)] ∧ parse s = some v

end Verif.ParamFiles
