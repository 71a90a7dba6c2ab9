import Verif.Model.DbCopy
/-!
# Specification of C114: the local copies of the databases
-/
namespace Verif.DbCopy.Spec
open Verif.DbCopy

/-- The rows of each of the tables: those of the server when they were asked for (the `i`-th table at the time `2 i + 1`). -/
def Copied {V : Type} (server : Server V) (tables : List String) (d : Disk V) : Prop :=
  d.length = tables.length ∧ ∀ (i : Nat) (name : String), tables[i]? = some name → ∃ t, server (2 * i + 1) name = some t ∧ d[i]? = some (name, t.rows)

/-- What may be in the file at any time: the first tables whole, and maybe the next one without any row. -/
def Underway {V : Type} (server : Server V) (tables : List String) (d : Disk V) : Prop :=
  ∃ k, (k ≤ tables.length ∧ Copied server (tables.take k) d) ∨ ∃ d' name, tables[k]? = some name ∧ Copied server (tables.take k) d' ∧ d = d' ++ [(name, [])]

/-- SQLite and the server do what they are asked: every table exists all the time, its statement is understood, and its rows fit in it. -/
def Good {V : Type} (env : Env V) (server : Server V) (tables : List String) : Prop :=
  env.reachable = true ∧ ∀ (i : Nat) (name : String), tables[i]? = some name → ∃ t t' n, server (2 * i) name = some t ∧ server (2 * i + 1) name = some t' ∧ env.columns (env.convert t.sql) = some n ∧
    (∀ r ∈ t'.rows, r.length = n) ∧ env.accepts (env.convert t.sql) t'.rows = true

/-- The intervals of runs of the sensors that pass a filter. -/
def Interval {G : Type} (filter : Int → Bool) (rows : List (RunRow G)) (x : Int × Option Int) : Prop := ∃ r ∈ rows, filter r.sensor = true ∧ r.minRun = x.1 ∧ r.maxRun = x.2

/-- The numbers of the runs have less than eight digits. -/
def SmallRuns {G : Type} (rows : List (RunRow G)) : Prop := ∀ r ∈ rows, |r.minRun| < 10000000 ∧ ∀ m, r.maxRun = some m → |m| < 10000000

end Verif.DbCopy.Spec
