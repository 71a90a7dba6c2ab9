import Verif.Model.WfIO
/-!
# What is asked of the files of waveforms
-/
namespace Verif.Spec.WfIO
open Verif Verif.WfIO

/-- The element of row `s` and column `t` of an array with two axes. -/
def entry (a : NdArray) (s t : Nat) : Option ℚ :=
  match a.shape with
  | [r, c] => if s < r ∧ t < c then a.data[s * c + t]? else none
  | _ => none

/-- An array with two axes: its data has as many elements as its shape says. -/
def IsMatrix (a : NdArray) (r c : Nat) : Prop := a.shape = [r, c] ∧ a.data.length = r * c

/-- The data of the calls that write to a node arrays with `size` elements, in order. -/
def writtenTo (k : Key) (size : Nat) : List Op → List (List ℚ)
  | [] => []
  | .write k' a :: ops => if k' = k ∧ a.data.length = size then a.data :: writtenTo k size ops else writtenTo k size ops
  | _ :: ops => writtenTo k size ops

/-- The integers that fit in `bits` bits, with sign. -/
def Fits (bits : Nat) (n : Int) : Prop := -(2 ^ (bits - 1)) ≤ n ∧ n < 2 ^ (bits - 1)

/-- The run, event and time of the calls that write events, in order. -/
def eventsOf : List Op → List (Int × Int × Int)
  | [] => []
  | .event r e t :: ops => (r, e, t) :: eventsOf ops
  | _ :: ops => eventsOf ops

/-- A call that writes a row of one of the tables of the run by hand. -/
def byHand : Op → Bool
  | .row k _ => decide (k = (some "Run", "runInfo") ∨ k = (some "Run", "events"))
  | _ => false

/-- The run and the event fit in the columns (32 bits; 64 bits; 64 bits without sign) of their tables. -/
def FitsEvent (x : Int × Int × Int) : Prop :=
  Fits 32 x.1 ∧ Fits 64 x.2.1 ∧ 0 ≤ x.2.2 ∧ x.2.2 < 2 ^ 64

end Verif.Spec.WfIO
