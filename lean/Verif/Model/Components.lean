import Verif.Base
import Verif.Model.Dataflow
/-!
# Model of the city decorator and configuration helpers (`invisible_cities/cities/components.py`)
-/
namespace Verif.Components

/-! ### Event range -/

/-- An element of the `event_range` option: an integer, `None`, or one of the symbols `all`, `last`
(types/symbols.py:36-38). -/
inductive ErElem where
  | int (n : Int)
  | none
  | all
  | last
deriving DecidableEq, Repr

/-- The `event_range` option: not set, a single value or a sequence. -/
inductive ErSpec where
  | unset
  | single (e : ErElem)
  | seq (es : List ErElem)
deriving DecidableEq, Repr

/-- `_check_invalid_event_range_spec` (components.py:273-276).  `er[0]` is only evaluated when `len(er)` is
1 or 2. -/
def invalidSpec (er : List ErElem) : Bool :=
  (er.length != 1 && er.length != 2) || (er.length == 2 && er.contains .all) || er.head? == some .last

/-- `event_range` (components.py:279-291). -/
def eventRange : ErSpec → Except PyErr (List ErElem)
  | .unset => .ok [.none, .int 1]
  | .single e => go [e]
  | .seq es => go es
where
  /-- components.py:285-291 -/
  go (er : List ErElem) : Except PyErr (List ErElem) :=
    if invalidSpec er then .error .valueError
    else match er with
      | [.all] => .ok [.none]
      | [a, .last] => .ok [a, .none]
      | er => .ok er

/-- Command line value (configure.py:36-42): an integer literal or the name of a symbol.  `asInt` stands for
`int(string)`. Simplification: other symbols of `ALL_SYMBOLS` (which are no event range) are not
modelled. -/
def parseErElem (asInt : String → Option Int) (s : String) : Except PyErr ErElem :=
  match asInt s with
  | some n => .ok (.int n)
  | Option.none => if s = "all" then .ok .all else if s = "last" then .ok .last else .error .valueError

/-- An argument of `fl.slice`: symbols cannot be compared with 0 (`TypeError`). -/
def sliceArg : ErElem → Except PyErr (Option Int)
  | .int n => .ok (some n)
  | .none => .ok Option.none
  | _ => .error .typeError

/-- `fl.slice(*event_range, close_all=True)`, the first component of every city pipeline
(e.g. cities/irene.py:149; dataflow.py:326-337): one argument is the stop, two are start and stop. -/
def citySlice {α : Type} (id : Nat) (er : List ErElem) : Except PyErr (Dataflow.Net α → Dataflow.Net α) :=
  match er with
  | [b] => do
    let b ← sliceArg b
    match Dataflow.mkSlice id Option.none b Option.none true with
    | .ok c => .ok c
    | .error _ => .error .valueError
  | [a, b] => do
    let a ← sliceArg a
    let b ← sliceArg b
    match Dataflow.mkSlice id a b Option.none true with
    | .ok c => .ok c
    | .error _ => .error .valueError
  | _ => .error .typeError

/-- A city run as seen by its pipeline: `push(source, pipe(slice(*event_range), rest))`. -/
def cityRun {α : Type} (id : Nat) (spec : ErSpec) (source : List α) (rest : Dataflow.Net α) :
    Except PyErr (Dataflow.Run α) := do
  let er ← eventRange spec
  let c ← citySlice id er
  .ok (Dataflow.push source (c rest))

/-! ### Input files -/

/-- The `files_in` option: a string or a sequence of strings. -/
inductive FilesIn where
  | one (pattern : String)
  | many (patterns : List String)

/-- The globbing loop (components.py:131-136); `glob` is the composition of `expandvars` and `glob.glob`. -/
def globAll (glob : String → List String) : List String → Except PyErr (List String)
  | [] => .ok []
  | p :: ps =>
    if (glob p).length = 0 then .error (.other "FileNotFoundError")
    else match globAll glob ps with
      | .error e => .error e
      | .ok fs => .ok (glob p ++ fs)

/-- `[f for i, f in enumerate(input_files) if f not in input_files[:i]]` (components.py:140). -/
def dropRepeated (fs : List String) : List String :=
  (fs.zipIdx.filter fun fi => !(fs.take fi.2).contains fi.1).map Prod.fst

/-- The treatment of `files_in` by the city decorator (components.py:123-142), with whether a warning is
emitted (`len(set(input_files)) != len(input_files)`). -/
def cityFiles (glob : String → List String) (filesIn : FilesIn) : Except PyErr (List String × Bool) :=
  let patterns := match filesIn with | .one p => [p] | .many ps => ps
  match globAll glob patterns with
  | .error e => .error e
  | .ok fs => if fs.eraseDups.length ≠ fs.length then .ok (dropRepeated fs, true) else .ok (fs, false)

/-! ### Flattening of the configuration -/

/-- A Python string, as a list of characters. -/
abbrev Key := List Char

mutual
/-- A configuration value: a nested dictionary or something else, of which only `str(v)` matters. -/
inductive Cfg where
  | leaf (str : String)
  | dict (items : Cfgs)
/-- The items of a dictionary in insertion order. -/
inductive Cfgs where
  | nil
  | cons (k : Key) (v : Cfg) (rest : Cfgs)
end

/-- `d[k] = v` on a dictionary kept as an association list in insertion order. -/
def dictSet (d : List (Key × String)) (k : Key) (v : String) : List (Key × String) :=
  match d with
  | [] => [(k, v)]
  | (k', v') :: d => if k' = k then (k, v) :: d else (k', v') :: dictSet d k v

/-- `d.update(e)`. -/
def dictUpdate (d e : List (Key × String)) : List (Key × String) := e.foldl (fun d kv => dictSet d kv.1 kv.2) d

/-- `new_key` (components.py:238). -/
def newKey (parent k : Key) : Key := if parent = [] then k else parent ++ '.' :: k

/-- The loop of `dict_to_string` (components.py:236-244) with `flat_dict = acc`. -/
def dictToStringFrom (parent : Key) (acc : List (Key × String)) : Cfgs → List (Key × String)
  | .nil => acc
  | .cons k (.leaf s) rest => dictToStringFrom parent (dictSet acc (newKey parent k) s) rest
  | .cons k (.dict d) rest =>
    dictToStringFrom parent (dictUpdate acc (dictToStringFrom (newKey parent k) [] d)) rest

/-- `dict_to_string` (components.py:220-244). -/
def dictToString (d : Cfgs) (parent : Key := []) : List (Key × String) := dictToStringFrom parent [] d

/-! ### Timestamps -/

/-- The rate used by `create_timestamp` (components.py:177-186), and whether a warning is emitted.  Rates in
units of hertz. -/
def effectiveRate (rate : ℚ) : ℚ × Bool :=
  if rate = 0 then (1 / 2, true) else if rate < 0 then (|rate|, true) else (rate, false)

/-- `create_timestamp(rate)(event_number)` (components.py:188-204); `u` is the value returned by
`np.random.uniform(0, 1)`, so that `np.random.uniform(0, period)` is `u * period`. -/
def createTimestamp (rate : ℚ) (eventNumber u : ℚ) : ℚ :=
  let period := 1 / (effectiveRate rate).1
  |eventNumber * period| + u * period

end Verif.Components
