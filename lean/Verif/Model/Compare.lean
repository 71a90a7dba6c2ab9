import Verif.Base
import Mathlib.Data.Rat.Defs
import Mathlib.Algebra.Order.Ring.Rat
import Mathlib.Algebra.Order.Group.Unbundled.Abs
/-!
# Model of the comparisons of results (`core/testing_utils.py`)

An assertion is modelled by whether it passes.  Numbers are exact; tolerances that are powers of ten in the libraries are the exact powers of ten.
-/
namespace Verif.Compare
open Verif (PyErr)

/-- A value in a table or an array. -/
inductive Val where
  | nan | pinf | ninf
  | num (q : ℚ)
  | str (s : String)
deriving DecidableEq

/-- Element by element, for the same number of elements (`np.all(x == y)` of arrays of the same shape, `zip` after checking the lengths; testing_utils.py:124-131). -/
def all2 {α : Type} (p : α → α → Bool) : List α → List α → Bool
  | [], [] => true
  | a :: as, b :: bs => p a b && all2 p as bs
  | _, _ => false

/-- `actual == approx(expected, rel, abs)` for scalars (pytest; testing_utils.py:38, 114, 118, 183-189): nothing is close to `nan`, infinities only to themselves. -/
def approxVal (rel abs : ℚ) (actual expected : Val) : Bool :=
  match actual, expected with
  | .num a, .num e => decide (a = e ∨ |e - a| ≤ max (rel * |e|) abs)
  | .pinf, .pinf => true
  | .ninf, .ninf => true
  | .str a, .str b => decide (a = b)
  | _, _ => false

/-- The default tolerances of `approx` (pytest). -/
def approx (actual expected : Val) : Bool := approxVal (1 / 10 ^ 6) (1 / 10 ^ 12) actual expected

/-- `exactly` (testing_utils.py:17-38). -/
def exactly (actual expected : Val) : Bool := approxVal 0 0 actual expected

/-- `np.isclose(a, b, rtol, atol, equal_nan)` (testing_utils.py:155, 168 through `assert_allclose`, 177-179 through `np.allclose`). -/
def isclose (rtol atol : ℚ) (equalNan : Bool) (a b : Val) : Bool :=
  match a, b with
  | .num a, .num b => decide (|a - b| ≤ atol + rtol * |b|)
  | .pinf, .pinf => true
  | .ninf, .ninf => true
  | .nan, .nan => equalNan
  | _, _ => false

/-- `np.allclose` with its defaults (testing_utils.py:177-179, 191-192). -/
def allclose (a b : Val) : Bool := isclose (1 / 10 ^ 5) (1 / 10 ^ 8) false a b

/-- `assert_equal` of numpy, element by element: `nan` is equal to itself (testing_utils.py:156, 169). -/
def same (a b : Val) : Bool := decide (a = b)

/-- An array: shape and values in order. -/
structure Arr where
  shape : List Nat
  vals : List Val
deriving DecidableEq

/-- `a == approx(b)` for arrays (pytest, `ApproxNumpy`; testing_utils.py:113-114, 118): different shapes are different. -/
def approxArr (p : Val → Val → Bool) (a b : Arr) : Bool := decide (a.shape = b.shape) && all2 p a.vals b.vals

/-- `SensorResponses` (evm/pmaps.py): identifiers and waveforms. -/
structure SR where
  ids : Arr
  wfs : Arr
deriving DecidableEq

/-- A peak (evm/pmaps.py, `_Peak`): what it is made from. -/
structure Peak where
  times : Arr
  widths : Arr
  pmts : SR
  sipms : SR
deriving DecidableEq

/-- `PMap` (evm/pmaps.py). -/
structure PMap where
  s1s : List Peak
  s2s : List Peak
deriving DecidableEq

/-- `assert_SensorResponses_equality` (testing_utils.py:109-114). -/
def srEq (a b : SR) : Bool := approxArr exactly a.ids b.ids && approxArr approx a.wfs b.wfs

/-- `assert_Peak_equality` (testing_utils.py:117-120). -/
def peakEq (a b : Peak) : Bool := approxArr approx a.times b.times && srEq a.pmts b.pmts && srEq a.sipms b.sipms

/-- `assert_PMap_equality` (testing_utils.py:123-131). -/
def pmapEq (a b : PMap) : Bool := all2 peakEq a.s1s b.s1s && all2 peakEq a.s2s b.s2s

/-- `dtype.kind`. -/
inductive Kind where
  | f | i | u | b | s
deriving DecidableEq

/-- A type of numpy: kind and size. -/
structure Dtype where
  kind : Kind
  size : Nat
deriving DecidableEq

/-- A column: type, shape inside each row, and the values of all rows. -/
structure Column where
  dtype : Dtype
  sub : List Nat
  vals : List Val
deriving DecidableEq

/-- What is compared: a table with named columns or a plain array. -/
inductive Table where
  | cols (rows : Nat) (cs : List (String × Column))
  | array (rows : Nat) (c : Column)

/-- `len(table), len(table.dtype)` (testing_utils.py:143-144). -/
def shapeOf : Table → Nat × Nat
  | .cols n cs => (n, cs.length)
  | .array n _ => (n, 0)

/-- `assert_allclose` for floats, `assert_equal` for the others (testing_utils.py:154-156, 167-169): the shapes have to be the same; `nan` is equal to itself. -/
def checkValues (rtol atol : ℚ) (g e : Column) : Bool :=
  decide (g.sub = e.sub) && (if g.dtype.kind = .f then all2 (isclose rtol atol true) g.vals e.vals else all2 same g.vals e.vals)

/-- The body of the loop over the columns (testing_utils.py:148-159). -/
def checkColumn (rtol atol : ℚ) (es : List (String × Column)) (p : String × Column) : Bool :=
  match es.lookup p.1 with
  | none => false
  | some e => decide (p.2.dtype.kind = e.dtype.kind) && checkValues rtol atol p.2 e

/-- `assert_tables_equality` (testing_utils.py:137-173). -/
def tablesEq (rtol atol : ℚ) (got expected : Table) : Bool :=
  decide (shapeOf got = shapeOf expected) &&
    match got, expected with
    | .cols _ gs, .cols _ es => gs.all (checkColumn rtol atol es)
    | .cols _ gs, .array _ _ => gs.isEmpty
    | .array _ g, .array _ e => decide (g.dtype = e.dtype) && checkValues rtol atol g e
    | .array _ _, .cols _ _ => false

/-- `BHit` (evm/event_model.py:50-70). -/
structure BHit where
  x : Val
  y : Val
  z : Val
  e : Val

/-- `assert_bhit_equality` (testing_utils.py:190-197). -/
def bhitEq (a b : BHit) : Bool :=
  all2 allclose [a.x, a.y, a.z] [b.x, b.y, b.z] && all2 allclose [a.x, a.y, a.z] [b.x, b.y, b.z] && approx a.e b.e && approx a.x b.x && approx a.y b.y && approx a.z b.z

/-- `assert_MChit_equality` (testing_utils.py:199-201). -/
def mchitEq (a b : BHit) (ta tb : Val) : Bool := bhitEq a b && approx ta tb

/-- `Cluster` (evm/event_model.py:112-155); the last four are computed from the others with roots and angles (not modelled). -/
structure Cluster where
  x : Val
  y : Val
  varx : Val
  vary : Val
  nsipm : Val
  q : Val
  xrms : Val
  yrms : Val
  r : Val
  phi : Val

/-- `assert_cluster_equality` (testing_utils.py:176-188). -/
def clusterEq (a b : Cluster) : Bool :=
  all2 allclose [a.x, a.y] [b.x, b.y] && all2 allclose [a.varx, a.vary] [b.varx, b.vary] && all2 allclose [a.x, a.y] [b.x, b.y] && exactly a.nsipm b.nsipm && approx a.q b.q &&
    approx a.x b.x && approx a.y b.y && approx a.xrms b.xrms && approx a.yrms b.yrms && approx a.r b.r && approx a.phi b.phi

/-- The fields of a `Hit` that are compared (evm/event_model.py:157-172), besides those of the cluster. -/
structure Hit where
  bhit : BHit
  cluster : Cluster
  ec : Val
  xpeak : Val
  ypeak : Val
  npeak : Val

/-- `assert_hit_equality` (testing_utils.py:203-209). -/
def hitEq (a b : Hit) : Bool :=
  bhitEq a.bhit b.bhit && clusterEq a.cluster b.cluster && approx a.ec b.ec && approx a.xpeak b.xpeak && approx a.ypeak b.ypeak && exactly a.npeak b.npeak

/-! ### Data frames -/

/-- A column of a data frame. -/
structure Series where
  dtype : Dtype
  vals : List Val

/-- A data frame: labels of the rows and named columns. -/
structure Df where
  index : List Int
  cols : List (String × Series)

/-- The values of a column in another order of the rows (`reindex_like` of pandas, in `assert_frame_equal(check_like=True)`; testing_utils.py:98-100). -/
def reorder (old new : List Int) (vals : List Val) : List Val :=
  if old = new then vals else new.map fun l => ((old.zip vals).lookup l).getD .nan

/-- The closeness of `pd.testing.assert_frame_equal(check_exact=False)` with its default tolerances (`math.isclose`; testing_utils.py:103-106). -/
def pdClose (a b : Val) : Bool :=
  match a, b with
  | .num a, .num b => decide (|a - b| ≤ max (1 / 10 ^ 5 * max |a| |b|) (1 / 10 ^ 8))
  | a, b => decide (a = b)

/-- The columns of two frames, one by one (`assert_frame_equal`, testing_utils.py:100, 106); repeated labels can only be compared in the same order (`reindex` refuses them). -/
def seriesEq (p : Val → Val → Bool) (d1 d2 : Df) (c : String × Series) : Bool :=
  match d1.cols.lookup c.1 with
  | none => false
  | some s => decide (s.dtype = c.2.dtype) && all2 p (reorder d1.index d2.index s.vals) c.2.vals

/-- `pd.testing.assert_frame_equal(df1, df2, check_dtype=True, check_like=True)` (testing_utils.py:97-106), for frames without repeated columns. -/
def framesEq (p : Val → Val → Bool) (d1 d2 : Df) : Bool :=
  decide (d1.index.Perm d2.index) && decide ((d1.cols.map Prod.fst).Perm (d2.cols.map Prod.fst)) && decide (d1.index = d2.index ∨ d1.index.Nodup) && d2.cols.all (seriesEq p d1 d2)

/-- `assert_dataframes_equal` (testing_utils.py:97-100). -/
def dfEqual (d1 d2 : Df) : Bool := framesEq same d1 d2

/-- `assert_dataframes_close` (testing_utils.py:103-106). -/
def dfClose (d1 d2 : Df) : Bool := framesEq pdClose d1 d2

/-! ### Sequences of close elements -/

/-- `NormMode` (types/symbols.py). -/
inductive NormMode where
  | first | second | sumof | mean

/-- `relative_difference` (core_functions.py:46-53); without a value when it divides by zero (`ZeroDivisionError` for numbers of Python). -/
def relativeDifference (m : NormMode) (x y : ℚ) : Except PyErr ℚ :=
  let den := match m with
    | .first => x
    | .second => y
    | .sumof => x + y
    | .mean => x + y
  if den = 0 then .error .zeroDivision
  else match m with
    | .first => .ok ((x - y) / den)
    | .second => .ok ((x - y) / den)
    | .sumof => .ok ((x - y) / den)
    | .mean => .ok (2 * (x - y) / den)

/-- `rel_diff > t_rel` for one element (testing_utils.py:48, 51): with a null first element numpy gives `nan` or an infinity, positive only for negative elements. -/
def relExceeds (x0 x t : ℚ) : Bool := if x0 = 0 then decide (x < 0) else decide (t < (x0 - x) / x0)

/-- `all_elements_close` (testing_utils.py:41-52). -/
def allElementsClose (xs : List ℚ) (tRel tAbs : ℚ) : Except PyErr Bool :=
  match xs with
  | [] => .error .indexError
  | x0 :: _ => .ok (!(xs.any fun x => relExceeds x0 x tRel) || !(xs.any fun x => decide (tAbs < |x0 - x|)))

end Verif.Compare
