import Verif.Model.ChannelParams
/-!
# Vocabulary for the parameters of the sensors
-/
namespace Verif.ChannelParams.Spec

/-- A call of a writer: the sensor and the result of its fit. -/
abbrev Call := Nat × List (String × Cell)

/-- The result of a fit is a dictionary, with names of parameters for keys. -/
def IsFit (c : Call) : Prop := (c.2.map Prod.fst).Nodup ∧ "SensorID" ∉ c.2.map Prod.fst

/-- All the names of the call are columns of the table. -/
def Accepted (cols : List String) (c : Call) : Prop := ∀ k ∈ c.2.map Prod.fst, k ∈ cols

instance (c : Call) : Decidable (IsFit c) := by unfold IsFit; infer_instance
instance (cols : List String) (c : Call) : Decidable (Accepted cols c) := by unfold Accepted; infer_instance

/-- The row has the columns of the table, the sensor of the call and each value given in the call. -/
structure Records (cols : List String) (c : Call) (r : Row) : Prop where
  cols : r.map Prod.fst = cols
  sensor : r.lookup "SensorID" = some (.id c.1)
  given : ∀ p ∈ c.2, r.lookup p.1 = some p.2

/-- What a reader of the parameters `ns` should give for a call: the sensor, and for each parameter its value and its error. -/
structure ReadAs (ns : List String) (c : Call) (o : Nat × List (String × Val) × List (String × Val)) : Prop where
  sensor : o.1 = c.1
  names : o.2.1.map Prod.fst = ns ∧ o.2.2.map Prod.fst = ns
  values : ∀ n ∈ ns, ∃ v e, c.2.lookup n = some (.pair v e) ∧ o.2.1.lookup n = some (.num v) ∧ o.2.2.lookup n = some (.num e)

/-- The call gives a value and an error for each of the parameters. -/
def Gives (ns : List String) (c : Call) : Prop := ∀ n ∈ ns, ∃ v e, c.2.lookup n = some (.pair v e)

/-- A sequence of calls to the writer of a table. -/
def calls (t : Table) (cs : List Call) : Table := cs.foldl (fun t c => (storeFitValues t c.1 c.2).1) t

/-- A sequence of calls to the writers of the tables of a file. -/
def fileCalls (f : List (String × Table)) (cs : List (String × Call)) : List (String × Table) := cs.foldl (fun f c => storeInFile f c.1 c.2.1 c.2.2) f

end Verif.ChannelParams.Spec
