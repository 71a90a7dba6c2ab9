import Verif.Base
/-!
# Model of `invisible_cities/core/configure.py`

Dictionaries are partial functions on names (the order of the keys is not modelled).
-/
namespace Verif.Configure
variable {V : Type}

/-! ### `Configuration` -/

/-- `Configuration` (configure.py:260-266). -/
structure Config (V : Type) where
  data : String → Option V
  file : String → Option String
  history : String → List (V × String)
  stack : List String      -- top of the stack first

/-- `__init__` (configure.py:262-266). -/
def Config.new : Config V := ⟨fun _ => none, fun _ => none, fun _ => [], ["<none>"]⟩

/-- `__setitem__` (configure.py:279-283); `_file_stack[-1]` fails on an empty stack (`IndexError`) and
`self._file[key]` on a missing key (`KeyError`). -/
def Config.setitem (c : Config V) (key : String) (value : V) : Except PyErr (Config V) :=
  match c.stack.head? with
  | none => .error .indexError
  | some current =>
    match c.data key with
    | none => .ok { c with data := fun k => if k = key then some value else c.data k,
                           file := fun k => if k = key then some current else c.file k }
    | some old =>
      match c.file key with
      | none => .error .keyError
      | some f => .ok { c with data := fun k => if k = key then some value else c.data k,
                               file := fun k => if k = key then some current else c.file k,
                               history := fun k => if k = key then c.history k ++ [(old, f)] else c.history k }

/-- `__delitem__` (configure.py:286): only `_data` is touched. -/
def Config.delitem (c : Config V) (key : String) : Except PyErr (Config V) :=
  match c.data key with
  | none => .error .keyError
  | some _ => .ok { c with data := fun k => if k = key then none else c.data k }

/-- `push_file`, `pop_file` (configure.py:296-300). -/
def Config.push (c : Config V) (f : String) : Config V := { c with stack := f :: c.stack }
def Config.pop (c : Config V) : Config V := { c with stack := c.stack.tail }

/-- Contents of a configuration file, which is executed with the configuration as local namespace
(configure.py:113): assignments (the value may be computed from the current configuration), `del`, inclusion of
another file given by its name and contents, an arbitrary exception, and an inclusion whose exceptions
are caught. -/
inductive Script (V : Type) where
  | done
  | assign (key : String) (value : (String → Option V) → V) (k : Script V)
  | del (key : String) (k : Script V)
  | incl (name : String) (body : Script V) (k : Script V)
  | inclMissing (name : String)
  | raise (e : PyErr)
  | tryIncl (name : String) (body : Script V) (k : Script V)

/-- Execution of a file; `incl` is `read_included_file` (configure.py:109-115): push, exec, pop, the pop not
being executed if the file raises.  The result is the state reached and the exception, if any. -/
def exec : Script V → Config V → Config V × Option PyErr
  | .done, c => (c, none)
  | .assign key value k, c => match c.setitem key (value c.data) with
    | .error e => (c, some e)
    | .ok c => exec k c
  | .del key k, c => match c.delitem key with
    | .error e => (c, some e)
    | .ok c => exec k c
  | .incl name body k, c =>
    match exec body (c.push name) with
    | (c, some e) => (c, some e)
    | (c, none) => exec k c.pop
  | .inclMissing name, c => (c.push name, some (.other "FileNotFoundError"))
  | .raise e, c => (c, some e)
  | .tryIncl name body k, c =>
    match exec body (c.push name) with
    | (c, some _) => exec k c
    | (c, none) => exec k c.pop

/-- `add_cli` (configure.py:290-294). -/
def addAll : List (String × V) → Config V → Except PyErr (Config V)
  | [], c => .ok c
  | (k, v) :: rest, c => match c.setitem k v with
    | .error e => .error e
    | .ok c => addAll rest c
def Config.addCli (c : Config V) (kvs : List (String × V)) : Except PyErr (Config V) :=
  match addAll kvs (c.push "<command line>") with
  | .error e => .error e
  | .ok c => .ok c.pop

/-- `configure` (configure.py:72-81) given the name and contents of the configuration file and the options
of the command line (`None` for those not given); the logger is not modelled. -/
def configure (name : String) (script : Script V) (cli : List (String × Option V)) : Except PyErr (Config V) :=
  match exec (.incl name script .done) Config.new with
  | (_, some e) => .error e
  | (c, none) => c.addCli (cli.filterMap fun kv => kv.2.map fun v => (kv.1, v))

/-- `as_namespace` (configure.py:268-273) and `ReadOnlyNamespace.__setattr__` (configure.py:253-258). -/
def Config.asNamespace (c : Config V) : String → Option V := c.data
def namespaceSetattr (ns : String → Option V) (_name : String) (_value : V) : (String → Option V) × Option PyErr :=
  (ns, some .typeError)

/-! ### `type_check` -/

/-- Python values, as far as `type_check` distinguishes them. -/
inductive Val where
  | bool (b : Bool)
  | int (i : Int)
  | float (q : ℚ)
  | str (s : String)
  | none
  | list (vs : List Val)
  | tuple (vs : List Val)
  | array (vs : List Val)
  | dict (kvs : List (Val × Val))
  | other (cls : String)
deriving Repr

mutual
/-- Type annotations.  `cls` is any plain class (including `str`, `list`, `dict`, enumerations) or a
subscripted one with another origin (such as `List[str]`); `seqAny` is the bare `Sequence`; `missing` is the
absence of annotation. -/
inductive Ty where
  | bool | int | float
  | seqAny
  | cls (name : String)
  | missing
  | union (ts : Tys)
  | seq (t : Ty)
  | tuple (ts : Tys)
  | mapping (k v : Ty)
inductive Tys where
  | nil
  | cons (t : Ty) (ts : Tys)
end

/-- Class of a value. -/
def Val.className : Val → String
  | .bool _ => "bool" | .int _ => "int" | .float _ => "float" | .str _ => "str" | .none => "NoneType"
  | .list _ => "list" | .tuple _ => "tuple" | .array _ => "ndarray" | .dict _ => "dict" | .other c => c

/-- Iteration over a value (`none`: not iterable, `TypeError`).  A string gives its characters and a
dictionary its keys.  Simplification: other objects are not iterable. -/
def Val.iter : Val → Option (List Val)
  | .str s => some (s.toList.map fun c => .str (String.singleton c))
  | .list vs | .tuple vs | .array vs => some vs
  | .dict kvs => some (kvs.map Prod.fst)
  | _ => Option.none

/-- `value.items()` (`none`: no such attribute). -/
def Val.items : Val → Option (List (Val × Val))
  | .dict kvs => some kvs
  | _ => Option.none

/-- `all(f(x) for x in xs)`: stops at the first false or exception. -/
def allM {α : Type} (f : α → Except PyErr Bool) : List α → Except PyErr Bool
  | [] => .ok true
  | x :: xs => match f x with
    | .error e => .error e
    | .ok false => .ok false
    | .ok true => allM f xs

mutual
/-- `type_check` (configure.py:120-148). -/
def typeCheck : Ty → Val → Except PyErr Bool
  | .bool, v => .ok (match v with | .bool _ => true | _ => false)
  | .int, v => .ok (match v with | .int _ => true | _ => false)
  | .float, v => .ok (match v with | .int _ => true | .float _ => true | _ => false)
  | .seqAny, v => .ok (match v with | .array _ => true | .list _ => true | .tuple _ => true | .str _ => true | _ => false)
  | .cls name, v => .ok (v.className == name)
  | .missing, _ => .ok false
  | .union ts, v => typeCheckAny ts v
  | .seq t, v => match v.iter with
    | some vs => allM (typeCheck t) vs
    | Option.none => .error .typeError
  | .tuple ts, v => match v.iter with
    | some vs => typeCheckZip ts vs
    | Option.none => .error .typeError
  | .mapping k w, v => match v.items with
    | some kvs => allM (fun kv => match typeCheck k kv.1 with
        | .error e => .error e
        | .ok false => .ok false
        | .ok true => typeCheck w kv.2) kvs
    | Option.none => .error .attributeError
/-- `any(type_check(value, t) for t in inner)` (configure.py:143). -/
def typeCheckAny : Tys → Val → Except PyErr Bool
  | .nil, _ => .ok false
  | .cons t ts, v => match typeCheck t v with
    | .error e => .error e
    | .ok true => .ok true
    | .ok false => typeCheckAny ts v
/-- `all(type_check(v, t) for v, t in zip(value, inner))` (configure.py:145). -/
def typeCheckZip : Tys → List Val → Except PyErr Bool
  | .cons t ts, v :: vs => match typeCheck t v with
    | .error e => .error e
    | .ok false => .ok false
    | .ok true => typeCheckZip ts vs
  | _, _ => .ok true
end

/-! ### Signatures -/

/-- A parameter of a function; `positional` when it can be given positionally. -/
structure Param where
  name : String
  ty : Ty
  hasDefault : Bool
  positional : Bool

/-- Loop over the positional values (configure.py:198-206); returns the parameters not yet given. -/
def checkPositional : List Param → List Val → Except PyErr (List Param)
  | p :: ps, v :: vs => match typeCheck p.ty v with
    | .error e => .error e
    | .ok false => .error .valueError
    | .ok true => checkPositional ps vs
  | ps, _ => .ok ps

/-- Loop over the remaining parameters (configure.py:208-224). -/
def checkKeywords (kw : List (String × Val)) : List Param → Except PyErr Unit
  | [] => .ok ()
  | p :: ps => match kw.lookup p.name with
    | Option.none => if p.hasDefault then checkKeywords kw ps else .error .valueError
    | some v => match typeCheck p.ty v with
      | .error e => .error e
      | .ok false => .error .valueError
      | .ok true => checkKeywords kw ps

/-- `compare_signature_to_values` (configure.py:151-229): the result and the names of the keywords warned
about.  Simplification: no `*args`/`**kwargs` parameters; positional parameters come first, as Python requires. -/
def compareSignature (sig : List Param) (pos : List Val) (kw : List (String × Val)) : Except PyErr (List String) :=
  let posPars := sig.filter (·.positional)
  let kwOnly := sig.filter fun p => !p.positional
  if posPars.length < pos.length then .error .valueError
  else match checkPositional posPars pos with
    | .error e => .error e
    | .ok rest => match checkKeywords kw (rest ++ kwOnly) with
      | .error e => .error e
      | .ok () => .ok ((kw.map Prod.fst).filter fun n => !(sig.map (·.name)).contains n)

/-- `check_annotations` (configure.py:232-245): state is `first_time`. -/
def checkedCall {R : Type} (sig : List Param) (f : List Val → List (String × Val) → Except PyErr R)
    (firstTime : Bool) (pos : List Val) (kw : List (String × Val)) : Except PyErr R × List String × Bool :=
  if firstTime then
    match compareSignature sig pos kw with
    | .error e => (.error e, [], false)
    | .ok ws => (f pos kw, ws, false)
  else (f pos kw, [], false)

end Verif.Configure
