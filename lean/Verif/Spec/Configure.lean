import Verif.Model.Configure
/-!
# Vocabulary for the configuration properties: the log of assignments, and typing of values
-/
namespace Verif.Configure
variable {V : Type}

/-- What happened to the configuration, in order: key, value and file in which the assignment is written;
or deletion of a key. -/
inductive Entry (V : Type) where
  | set (key : String) (value : V) (file : String)
  | del (key : String)

/-- The operations of the log on one key: an assignment (value, file) or a deletion (`none`). -/
def ops (key : String) (log : List (Entry V)) : List (Option (V × String)) :=
  log.filterMap fun
    | .set k v f => if k = key then some (some (v, f)) else none
    | .del k => if k = key then some none else none

/-- Last value assigned to the key, with its file (`none` if never assigned or deleted afterwards). -/
def current (key : String) (log : List (Entry V)) : Option (V × String) := (ops key log).getLast?.join

/-- Assignments directly followed by another assignment (of the same key). -/
def overridden {α : Type} : List (Option α) → List α
  | some a :: some b :: rest => a :: overridden (some b :: rest)
  | _ :: rest => overridden rest
  | [] => []

/-- The log produced by a file: assignments are attributed to the file in which they are written. -/
def logOf (file : String) : Script V → List (Entry V) → List (Entry V) × Option PyErr
  | .done, log => (log, none)
  | .assign key value k, log =>
    logOf file k (log ++ [.set key (value fun k => (current k log).map Prod.fst) file])
  | .del key k, log =>
    if (current key log).isSome then logOf file k (log ++ [.del key]) else (log, some .keyError)
  | .incl name body k, log =>
    match logOf name body log with
    | (log, some e) => (log, some e)
    | (log, none) => logOf file k log
  | .inclMissing _, log => (log, some (.other "FileNotFoundError"))
  | .raise e, log => (log, some e)
  | .tryIncl name body k, log => logOf file k (logOf name body log).1

/-- No file catches the exceptions of a file it includes. -/
def NoTry : Script V → Prop
  | .done => True
  | .assign _ _ k => NoTry k
  | .del _ k => NoTry k
  | .incl _ body k => NoTry body ∧ NoTry k
  | .inclMissing _ => True
  | .raise _ => True
  | .tryIncl _ _ _ => False

/-! ### Typing -/

mutual
/-- The value conforms to the annotation: `bool` only booleans, `int` integers, `float` floats and
integers, a union any alternative, sequences and mappings elementwise, tuples componentwise with the same
number of components. -/
def conforms : Ty → Val → Bool
  | .bool, v => match v with | .bool _ => true | _ => false
  | .int, v => match v with | .int _ => true | _ => false
  | .float, v => match v with | .int _ => true | .float _ => true | _ => false
  | .seqAny, v => match v with | .array _ => true | .list _ => true | .tuple _ => true | .str _ => true | _ => false
  | .cls name, v => v.className == name
  | .missing, _ => false
  | .union ts, v => conformsAny ts v
  | .seq t, v => match v with
    | .list vs => vs.all (conforms t)
    | .tuple vs => vs.all (conforms t)
    | .array vs => vs.all (conforms t)
    | .str s => (s.toList.map fun c => Val.str (String.singleton c)).all (conforms t)
    | _ => false
  | .tuple ts, v => match v with
    | .tuple vs => conformsAll ts vs
    | _ => false
  | .mapping k w, v => match v with
    | .dict kvs => kvs.all fun kv => conforms k kv.1 && conforms w kv.2
    | _ => false
def conformsAny : Tys → Val → Bool
  | .nil, _ => false
  | .cons t ts, v => conforms t v || conformsAny ts v
def conformsAll : Tys → List Val → Bool
  | .nil, [] => true
  | .cons t ts, v :: vs => conforms t v && conformsAll ts vs
  | _, _ => false
end

mutual
/-- The containers in the value have the kind and length that the annotation asks for: sequences for
`Sequence[...]`, tuples of the right length for `Tuple[...]`, dictionaries for `Mapping[...]`. -/
def fits : Ty → Val → Bool
  | .union ts, v => fitsAny ts v
  | .seq t, v => match v with
    | .list vs => vs.all (fits t)
    | .tuple vs => vs.all (fits t)
    | .array vs => vs.all (fits t)
    | .str s => (s.toList.map fun c => Val.str (String.singleton c)).all (fits t)
    | _ => false
  | .tuple ts, v => match v with
    | .tuple vs => fitsAll ts vs
    | _ => false
  | .mapping k w, v => match v with
    | .dict kvs => kvs.all fun kv => fits k kv.1 && fits w kv.2
    | _ => false
  | _, _ => true
def fitsAny : Tys → Val → Bool
  | .nil, _ => true
  | .cons t ts, v => fits t v && fitsAny ts v
def fitsAll : Tys → List Val → Bool
  | .nil, [] => true
  | .cons t ts, v :: vs => fits t v && fitsAll ts vs
  | _, _ => false
end

end Verif.Configure
