import Verif.Model.Dataflow
/-!
# Model of the `args` / `out` / `item` machinery of `invisible_cities/dataflow/dataflow.py`

Items are Python dictionaries.  Values are abstract (`V`); `unpack v` is the list obtained by iterating
over `v` when `v` is iterable.  Simplification: the order of the keys of a dictionary is not modelled.
-/
namespace Verif.Dataflow
variable {V : Type}

/-- A Python dictionary with string keys. -/
abbrev Item (V : Type) := String → Option V

/-- `d[k] = v`. -/
def Item.set (d : Item V) (k : String) (v : V) : Item V := fun k' => if k' = k then some v else d k'

/-- Specification of argument or output names: `None`, one name, or a tuple/list of names
(dataflow.py:48-49 `_exactly_one`, `_more_than_one`). -/
inductive Names where
  | none
  | one (k : String)
  | many (ks : List String)
deriving DecidableEq, Repr

def keyError : Exc := .err 1
def typeError : Exc := .err 2

/-- `(data[arg] for arg in args)` unpacked in a call (dataflow.py:75-76): KeyError if a key is missing. -/
def getArgs (d : Item V) : List String → Except Exc (List V)
  | [] => .ok []
  | k :: ks => match d k with
    | .none => .error keyError
    | some v => match getArgs d ks with
      | .ok vs => .ok (v :: vs)
      | .error e => .error e

/-- `for name, value in zip(out, trans): data[name] = value` (dataflow.py:79-80). -/
def assign (d : Item V) : List String → List V → Item V
  | k :: ks, v :: vs => assign (d.set k v) ks vs
  | _, _ => d

/-- Names of the arguments after `if _exactly_one(args): args = args,` (dataflow.py:64-65);
`None` is not iterable: TypeError when the first item arrives. -/
def Names.toList : Names → Except Exc (List String)
  | .none => .error typeError
  | .one k => .ok [k]
  | .many ks => .ok ks

/-- The function applied in place to each item by `map(op, args=args, out=out)` with at least one of
the two given (dataflow.py:64-81).  `op` receives the list of values and returns one value, which is
unpacked unless `out` is a single name.  Simplification: when the result is not iterable, or `out` is
None, the TypeError is raised after `op` was called, as in the code, but effects of `op` are not modelled. -/
def routeMap (unpack : V → Option (List V)) (op : List V → Except Exc V) (args out : Names) (d : Item V) :
    Except Exc (Item V) :=
  match args.toList with
  | .error e => .error e
  | .ok as =>
    match getArgs d as with
    | .error e => .error e
    | .ok vs =>
      match op vs with
      | .error e => .error e
      | .ok r =>
        match out with
        | .none => .error typeError
        | .one k => .ok (assign d [k] [r])
        | .many ks => match unpack r with
          | .none => .error typeError
          | some rs => .ok (assign d ks rs)

/-- Resolution of `item` (dataflow.py:54-58 and :86-90): it stands for both `args` and `out`, and
excludes them. -/
def resolveItem (args out item : Names) : Except String (Names × Names) :=
  match item with
  | .none => .ok (args, out)
  | k => if args ≠ .none ∨ out ≠ .none then
      .error "ValueError: use of `item` parameter excludes both `args` and `out`"
    else .ok (k, k)

/-- `map(op, args=args, out=out, item=item)` (dataflow.py:53-82).  `op` is given as the function of a
whole item (used when neither args nor out is given) and the function of the list of values. -/
def mkMap (i : Nat) (unpack : V → Option (List V)) (opItem : Item V → Except Exc (Item V))
    (op : List V → Except Exc V) (args out item : Names) : Except String (Net (Item V) → Net (Item V)) :=
  match resolveItem args out item with
  | .error e => .error e
  | .ok (.none, .none) => .ok (.map i opItem)
  | .ok (a, o) => .ok (.mapIn i (routeMap unpack op a o))

/-- The updates applied in place, one per result, by `flatmap(op, args=args, out=out)`
(dataflow.py:100-119).  `op` returns the list of its results. -/
def routeFlatmap (unpack : V → Option (List V)) (op : List V → Except Exc (List V)) (args out : Names) (d : Item V) :
    Except Exc (List (Item V → Item V)) :=
  match args.toList with
  | .error e => .error e
  | .ok as =>
    match getArgs d as with
    | .error e => .error e
    | .ok vs =>
      match op vs with
      | .error e => .error e
      | .ok rs =>
        match out with
        | .none => .error typeError
        | .one k => .ok (rs.map fun r d => assign d [k] [r])
        | .many ks => .ok (rs.map fun r d => assign d ks ((unpack r).getD []))

/-- `filter(pred, args=args)` and the `args` of `count_filter` and `sink` (dataflow.py:132-143,
168-184, 242-249): the predicate sees the values of the keys `args`. -/
def routePred (p : List V → Except Exc Bool) (args : Names) (d : Item V) : Except Exc Bool :=
  match args.toList with
  | .error e => .error e
  | .ok as => match getArgs d as with
    | .error e => .error e
    | .ok vs => p vs

end Verif.Dataflow
