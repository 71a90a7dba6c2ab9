import Verif.Model.Core
/-!
# Model of the functions with fixed parameters and of the fits (`core/fit_functions.py`)

A value is a rational or NaN (`none`).
-/
namespace Verif.FixedPars

/-- A Python function: the names of its arguments (`insp.signature(fn).parameters`), the first one the variable, and its value for the variable and the other arguments. -/
structure Fn (X R : Type) where
  names : List String
  eval : X → List (Option ℚ) → Except PyErr R

/-- The wrapped function: `fn`, and the cells `all_args` and `free_pars` of its closure. -/
structure Fixed (X R : Type) where
  fn : Fn X R
  allArgs : List (Option ℚ)
  free : List Bool

/-- `kwargs.get(k, np.nan)` (fit_functions.py:27). -/
def get (kwargs : List (String × Option ℚ)) (k : String) : Option ℚ := ((kwargs.find? fun e => e.1 == k).map Prod.snd).getD none

/-- `fixed_parameters` (fit_functions.py:20-36): the three checks, and the closure. -/
def fixedParameters {X R : Type} (fn : Fn X R) (kwargs : List (String × Option ℚ)) : Except PyErr (Fixed X R) :=
  if ((fn.names.tail.map (get kwargs)).map Option.isNone).all id then .error .valueError
  else if !((fn.names.tail.map (get kwargs)).map Option.isNone).any id then .error .valueError
  else if (((fn.names.tail.map (get kwargs)).map Option.isNone).count true : Int) > (fn.names.tail.length : Int) - kwargs.length then .error .valueError
  else .ok ⟨fn, fn.names.tail.map (get kwargs), (fn.names.tail.map (get kwargs)).map Option.isNone⟩

/-- The assignment `all_args[free_pars] = pars` with as many values as free parameters. -/
def place : List Bool → List (Option ℚ) → List (Option ℚ) → List (Option ℚ)
  | true :: free, _ :: args, p :: pars => p :: place free args pars
  | false :: free, a :: args, pars => a :: place free args pars
  | _, args, _ => args

/-- `all_args[free_pars] = pars` (fit_functions.py:40): numpy copies a single value in all the places, and raises `ValueError` if the number of values is another one. -/
def assign (free : List Bool) (args pars : List (Option ℚ)) : Except PyErr (List (Option ℚ)) :=
  if pars.length = free.count true then .ok (place free args pars)
  else if pars.length = 1 then .ok (place free args (List.replicate (free.count true) (pars.headD none)))
  else .error .valueError

/-- A call of `fixed_fn` (fit_functions.py:38-45): the value and the new state of the closure. -/
def Fixed.call {X R : Type} (f : Fixed X R) (x : X) (pars : List (Option ℚ)) : Except PyErr R × Fixed X R :=
  match assign f.free f.allArgs pars with
  | .error e => (.error e, f)
  | .ok args => (f.fn.eval x args, { f with allArgs := args })

/-- A sequence of calls, with the results in order. -/
def Fixed.calls {X R : Type} (f : Fixed X R) : List (X × List (Option ℚ)) → List (Except PyErr R)
  | [] => []
  | c :: cs => (f.call c.1 c.2).1 :: (f.call c.1 c.2).2.calls cs

/-- The elements selected by a mask, `new_pars[1:][free_pars]`. -/
def masked {α : Type} : List Bool → List α → List α
  | true :: m, a :: l => a :: masked m l
  | false :: m, _ :: l => masked m l
  | _, _ => []

/-- The names of the arguments of the wrapped function, `fixed_fn.__signature__` (fit_functions.py:51-53). -/
def Fixed.names {X R : Type} (f : Fixed X R) : List String := f.fn.names.take 1 ++ masked f.free f.fn.names.tail

/-- The wrapped function as a function that can be wrapped again; its value is that of a call from its first state (it is the same in any state, theorem `history_independent`). -/
def Fixed.toFn {X R : Type} (f : Fixed X R) : Fn X R := ⟨f.names, fun x pars => (f.call x pars).1⟩

/-! ### Fits -/

/-- One point: x, y and its uncertainty. -/
structure Datum where
  x : ℚ
  y : ℚ
  sigma : ℚ
deriving DecidableEq, Repr

/-- The result of `curve_fit`: the values and the covariance matrix. -/
abbrev Solver := List Datum → (absolute : Bool) → Except PyErr (List ℚ × List (List ℚ))

/-- `FitFunction`: the parameters, the squares of their errors, and the reduced chi-squared (`none`: division by zero). -/
structure Result where
  values : List ℚ
  errors2 : List ℚ
  ndof : Int
  chi2 : Option ℚ
  cov : List (List ℚ)
deriving DecidableEq, Repr

/-- `coref.in_range(x, *fit_range)` (core/core_functions.py:78-80). -/
def selectRange (r : Option (ℚ × ℚ)) (data : List Datum) : List Datum := match r with
  | none => data
  | some r => data.filter fun d => decide (r.1 ≤ d.x) && decide (d.x < r.2)

/-- The squares of `get_errors`: the diagonal of the covariance (fit_functions.py:57-71). -/
def diag (m : List (List ℚ)) : List ℚ := m.zipIdx.map fun r => r.1.getD r.2 0

/-- `get_chi2_and_pvalue` (fit_functions.py:74-106), the reduced chi-squared; the p-value is not modelled. -/
def chi2 (f : ℚ → ℚ) (data : List Datum) (ndof : Int) : Option ℚ :=
  if ndof = 0 then none else some ((data.map fun d => ((d.y - f d.x) / d.sigma) ^ 2).sum / ndof)

/-- `fit` (fit_functions.py:166-226); `hasSigma` says if the argument sigma is given (otherwise the uncertainties of the data are not used), `solve` is `scipy.optimize.curve_fit` with its function, seed and other arguments. -/
def fit (solve : Solver) (f : List ℚ → ℚ → ℚ) (data : List Datum) (hasSigma : Bool) (range : Option (ℚ × ℚ)) : Except PyErr Result :=
  if (if hasSigma then selectRange range data else (selectRange range data).map fun d => { d with sigma := 1 }).any fun d => decide (d.sigma ≤ 0) then .error .valueError
  else match solve (if hasSigma then selectRange range data else (selectRange range data).map fun d => { d with sigma := 1 }) hasSigma with
    | .error e => .error e
    | .ok (vals, cov) => .ok ⟨vals, diag cov, ((selectRange range data).length : Int) - vals.length,
        chi2 (f vals) (if hasSigma then selectRange range data else (selectRange range data).map fun d => { d with sigma := 1 }) (((selectRange range data).length : Int) - vals.length), cov⟩

end Verif.FixedPars
