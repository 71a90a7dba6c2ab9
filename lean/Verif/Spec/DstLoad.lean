import Verif.Model.DstLoad
/-!
# What is asked of the loading of several tables
-/
namespace Verif.Spec.DstLoad
open Verif Verif.TableIO Verif.DstLoad

/-- A row as the value of each column: none if there is no such column, or no value. -/
def values (j : Joined) (row : List (Option Cell)) (name : String) : Option Cell :=
  ((j.cols.zip row).find? fun x => decide (x.1 = name)).bind Prod.snd

/-- The tables that can be read, in order. -/
def readable (k : String × String) (evts : Option (List ℚ)) (paths : List OnDisk) : List DF :=
  paths.filterMap fun d => match readDst d k evts with
    | .ok t => some t
    | .error _ => none

/-- The value of a key in a dictionary. -/
def lookup {κ α : Type} [DecidableEq κ] (d : List (κ × α)) (k : κ) : Option α := (d.find? fun kv => decide (kv.1 = k)).map Prod.snd

end Verif.Spec.DstLoad
