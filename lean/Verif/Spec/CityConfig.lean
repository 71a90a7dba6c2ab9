import Verif.Model.CityConfig
/-!
# Specification of C106: the configurations stored in a file
-/
namespace Verif.CityConfig
open Verif.TableIO Verif.Components

/-- What fits in a column of strings. -/
def cut (s : String) : String := String.ofList (s.toList.take 300)

/-- The table where a configuration is stored. -/
def confTable (args : Cfgs) : Table :=
  ⟨[("variable", .str 300), ("value", .str 300)], (dictToString args).map fun kv => [.text (cut (String.ofList kv.1)), .text (cut kv.2)], none⟩

/-- A file: one table per name, and the columns flagged for indexing are columns of their table. -/
structure GoodFile (f : File) : Prop where
  names : (f.map Prod.fst).Nodup
  flags : ∀ k t, f.get k = some t → ∀ cols, t.index = some cols → ∀ c ∈ cols, c ∈ t.cols.map Prod.fst

/-- What a city writes has no configurations (they are added at the end). -/
def NoConfig (f : File) : Prop := ∀ n, f.get ("config", n) = none

/-- The file `g` has the configuration of a city, those of the input, and the tables written by the city. -/
structure Finished (city : String) (args : Cfgs) (fin fout g : File) : Prop where
  own : g.get ("config", city) = some (confTable args)
  history : ∀ n, n ≠ city → g.get ("config", n) = fin.get ("config", n)
  tables : ∀ k, k.1 ≠ "config" → g.get k = fout.get k

end Verif.CityConfig
