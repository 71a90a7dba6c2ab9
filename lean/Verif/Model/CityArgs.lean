import Verif.Model.CityConfig
/-!
# Model of what the cities do with the dictionaries of their configuration (`cities/diomira.py`, `cities/beersheba.py`, `cities/detsim.py`, `city` of `cities/components.py`)

The decorator gives the city the values of the configuration and, when it has ended, stores those same objects: dictionaries are kept by reference, so they are modelled as objects of a heap.
Only the operations on dictionaries are modelled; the result of everything else a city does is an argument (`rest`).
Simplifications: keys are strings; of other values only their text and, where the code asks for it, their length or their value; the optional dictionaries of diomira are given.
-/
namespace Verif.CityArgs
open Verif.Components Verif.CityConfig

/-- A value of a dictionary: `None`, an integer, a sequence of some length, something else with its text, or another dictionary. -/
inductive Value where
  | none
  | int (n : Int)
  | seq (len : Nat) (text : String)
  | leaf (text : String)
  | ref (a : Nat)
deriving DecidableEq, Repr

/-- A dictionary, in insertion order. -/
abbrev Obj := List (String × Value)

/-- The dictionaries, by their address. -/
abbrev Heap := List Obj

/-- `d[k]`. -/
def get (h : Heap) (a : Nat) (k : String) : Except PyErr Value :=
  match (h.getD a []).lookup k with
  | .none => .error .keyError
  | .some v => .ok v

/-- The items of a dictionary after `d[k] = v`. -/
def put (o : Obj) (k : String) (v : Value) : Obj :=
  match o with
  | [] => [(k, v)]
  | x :: xs => if x.1 = k then (k, v) :: xs else x :: put xs k v

/-- `d[k] = v`. -/
def setItem (h : Heap) (a : Nat) (k : String) (v : Value) : Heap := h.set a (put (h.getD a []) k v)

/-- The items of a dictionary without a key. -/
def without (o : Obj) (k : String) : Obj := o.filter fun x => decide (x.1 ≠ k)

/-- `d.pop(k)` (beersheba.py:501, 503; diomira.py:217; detsim.py:177-178). -/
def pop (h : Heap) (a : Nat) (k : String) : Heap × Except PyErr Value :=
  match get h a k with
  | .error e => (h, .error e)
  | .ok v => (h.set a (without (h.getD a []) k), .ok v)

/-- `d.pop(k, None)` (beersheba.py:503). -/
def popDefault (h : Heap) (a : Nat) (k : String) : Heap := h.set a (without (h.getD a []) k)

/-- `d.copy()` (detsim.py:172-173): a new dictionary with the same values. -/
def copy (h : Heap) (a : Nat) : Heap × Nat := (h ++ [h.getD a []], h.length)

/-- An argument that is a dictionary (otherwise the check of the annotations raises). -/
def getDict (h : Heap) (a : Nat) (k : String) : Except PyErr Nat :=
  match get h a k with
  | .error e => .error e
  | .ok (.ref b) => .ok b
  | .ok _ => .error .valueError

/-- The keys are read one after another. -/
def readAll (h : Heap) (a : Nat) : List String → Except PyErr Unit
  | [] => .ok ()
  | k :: ks => match get h a k with
    | .error e => .error e
    | .ok _ => readAll h a ks

/-- The keys of `trigger_params` read by `select_trigger_filter` and `emulate_trigger` (diomira.py:187-195, 213-214). -/
def triggerKeys : List String :=
  ["tr_channels", "min_number_channels", "data_mc_ratio", "min_height", "max_height", "min_charge", "max_charge", "min_width", "max_width"]

/-- The keys of `s2_params` read after the baseline (diomira.py:218-223). -/
def s2Keys : List String := ["s2_tmin", "s2_tmax", "s2_stride", "s2_lmin", "s2_lmax", "s2_rebin_stride"]

/-- The operations of diomira on `s2_params` for the trigger S2 (diomira.py:217-223). -/
def diomiraS2 (rest : Except PyErr Unit) (h : Heap) (s : Nat) : Heap × Except PyErr Unit :=
  match pop h s "n_baseline" with
  | (h1, .error e) => (h1, .error e)
  | (h1, .ok _) => match readAll h1 s s2Keys with
    | .error e => (h1, .error e)
    | .ok () => (h1, rest)

/-- diomira (diomira.py:88-103, 178-246), with the dictionary of its arguments. -/
def diomira (rest : Except PyErr Unit) (h : Heap) (a : Nat) : Heap × Except PyErr Unit :=
  match get h a "trigger_type" with
  | .error e => (h, .error e)
  | .ok .none => (h, rest)
  | .ok (.leaf "S2") => match getDict h a "trigger_params" with
    | .error e => (h, .error e)
    | .ok t => match readAll h t triggerKeys with
      | .error e => (h, .error e)
      | .ok () => match getDict h a "s2_params" with
        | .error e => (h, .error e)
        | .ok s => diomiraS2 rest h s
  | .ok _ => (h, .error .valueError)

/-- `len(deconv_params[p]) != deconv_params['n_dim']` (beersheba.py:495-497). -/
def checkLength (h : Heap) (d : Nat) (ndim : Int) (p : String) : Except PyErr Unit :=
  match get h d p with
  | .error e => .error e
  | .ok (.seq n _) => if (n : Int) = ndim then .ok () else .error .valueError
  | .ok _ => .error .typeError

/-- The checks of the dimensions (beersheba.py:495-499). -/
def checkDims (h : Heap) (d : Nat) : Except PyErr Unit :=
  match get h d "n_dim" with
  | .error e => .error e
  | .ok (.int n) => match checkLength h d n "sample_width" with
    | .error e => .error e
    | .ok () => match checkLength h d n "bin_size" with
      | .error e => .error e
      | .ok () => match checkLength h d n "diffusion" with
        | .error e => .error e
        | .ok () => if 2 < n then .error (.other "NotImplementedError") else .ok ()
  | .ok _ => .error .typeError

/-- The arguments of `deconvolve_signal` without and with default (beersheba.py:101-115), besides the table of sensors. -/
def deconvRequired : List String := ["psf_fname", "e_cut", "n_iterations", "iteration_tol", "sample_width", "bin_size", "satellite_params"]
/-- The optional arguments of `deconvolve_signal` (beersheba.py:109-115). -/
def deconvOptional : List String := ["diffusion", "energy_type", "deconv_mode", "n_dim", "cut_type", "inter_method", "n_iterations_g"]

/-- `deconvolve_signal(DataSiPM(...), **deconv_params)` (beersheba.py:508): a missing or unknown argument is `TypeError`. -/
def deconvCall (o : Obj) : Except PyErr Unit :=
  if (∀ k ∈ deconvRequired, k ∈ o.map Prod.fst) ∧ ∀ k ∈ o.map Prod.fst, k ∈ deconvRequired ∨ k ∈ deconvOptional then .ok () else .error .typeError

/-- The rest of the operations of beersheba on `deconv_params` (beersheba.py:501-508). -/
def beershebaPops (rest : Except PyErr Unit) (h : Heap) (d : Nat) : Heap × Except PyErr Unit :=
  match pop h d "q_cut" with
  | (h1, .error e) => (h1, .error e)
  | (h1, .ok _) => match pop h1 d "drop_dist" with
    | (h2, .error e) => (h2, .error e)
    | (h2, .ok _) => match deconvCall ((popDefault h2 d "cluster_size").getD d []) with
      | .error e => (popDefault h2 d "cluster_size", .error e)
      | .ok () => (popDefault h2 d "cluster_size", rest)

/-- The text of a value that is not a dictionary, `str(v)`. -/
def textOf : Value → String
  | .none => "None"
  | .int n => toString n
  | .seq _ t => t
  | .leaf t => t
  | .ref _ => ""

/-- beersheba (beersheba.py:489-508) with the dictionary of its arguments; `expand` is `expandvars`. -/
def beersheba (expand : String → String) (rest : Except PyErr Unit) (h : Heap) (a : Nat) : Heap × Except PyErr Unit :=
  match getDict h a "deconv_params" with
  | .error e => (h, .error e)
  | .ok d => match get h a "satellite_params" with
    | .error e => (h, .error e)
    | .ok sat => match get h d "psf_fname" with
      | .error e => (h, .error e)
      | .ok (.leaf psf) => match checkDims (setItem (setItem h d "psf_fname" (.leaf (expand psf))) d "satellite_params" sat) d with
        | .error e => (setItem (setItem h d "psf_fname" (.leaf (expand psf))) d "satellite_params" sat, .error e)
        | .ok () => beershebaPops rest (setItem (setItem h d "psf_fname" (.leaf (expand psf))) d "satellite_params" sat) d
      | .ok _ => (h, .error .typeError)

/-- The operations of detsim on its copies (detsim.py:175-178); `maxTime` is `check_max_time`. -/
def detsimCopies (maxTime : Value → Value → Value) (rest : Except PyErr Unit) (h : Heap) (b p : Nat) : Heap × Except PyErr Unit :=
  match get h b "max_time" with
  | .error e => (h, .error e)
  | .ok m => match get h b "length" with
    | .error e => (h, .error e)
    | .ok l => match pop (setItem h b "max_time" (maxTime m l)) p "ws" with
      | (h1, .error e) => (h1, .error e)
      | (h1, .ok _) => match pop h1 p "el_drift_velocity" with
        | (h2, .error e) => (h2, .error e)
        | (h2, .ok _) => (h2, rest)

/-- detsim (detsim.py:172-178) with the dictionary of its arguments. -/
def detsim (maxTime : Value → Value → Value) (rest : Except PyErr Unit) (h : Heap) (a : Nat) : Heap × Except PyErr Unit :=
  match getDict h a "buffer_params" with
  | .error e => (h, .error e)
  | .ok b => match getDict (copy h b).1 a "physics_params" with
    | .error e => ((copy h b).1, .error e)
    | .ok p => detsimCopies maxTime rest (copy (copy h b).1 p).1 (copy h b).2 (copy (copy h b).1 p).2

/-- A city without operations on its dictionaries: irene, hypathia, dorothea, sophronia, esmeralda, isaura, eutropia, buffy, phyllis, berenice, isidora, trude, zemrude. -/
def plain (rest : Except PyErr Unit) (h : Heap) (_a : Nat) : Heap × Except PyErr Unit := (h, rest)

/-- The items of a dictionary as seen by `dict_to_string`, given those of the dictionaries inside it. -/
def treeItems (sub : Nat → Except PyErr Cfgs) : Obj → Except PyErr Cfgs
  | [] => .ok .nil
  | (k, .ref b) :: xs => match sub b with
    | .error e => .error e
    | .ok d => match treeItems sub xs with
      | .error e => .error e
      | .ok r => .ok (.cons k.toList (.dict d) r)
  | (k, v) :: xs => match treeItems sub xs with
    | .error e => .error e
    | .ok r => .ok (.cons k.toList (.leaf (textOf v)) r)

/-- A dictionary as seen by `dict_to_string` (components.py:220-244), with the limit of the recursion. -/
def tree : Nat → Heap → Nat → Except PyErr Cfgs
  | 0, _, _ => .error (.other "RecursionError")
  | n + 1, h, a => treeItems (tree n h) (h.getD a [])

/-- A job (components.py:149-154): the dictionaries and the output after it; `fout` is the output as the city leaves it. -/
def job (limit : Nat) (city : String) (body : Heap → Nat → Heap × Except PyErr Unit) (h : Heap) (a : Nat) (fin fout : TableIO.File) :
    Heap × TableIO.File × Except PyErr Unit :=
  match body h a with
  | (h', .error e) => (h', fout, .error e)
  | (h', .ok ()) => match tree limit h' a with
    | .error e => (h', fout, .error e)
    | .ok args => match finish city args fin fout with
      | (g, .error e) => (h', g, .error e)
      | (g, .ok _) => (h', g, .ok ())

/-- Calls of a city, one after another, with the same arguments: the result of each. -/
def calls (body : Heap → Nat → Heap × Except PyErr Unit) (a : Nat) : Nat → Heap → List (Except PyErr Unit)
  | 0, _ => []
  | n + 1, h => (body h a).2 :: calls body a n (body h a).1

end Verif.CityArgs
