import Verif.Model.PmapFlow
import Verif.Spec.Dataflow
/-!
# Specification of the production of PMaps (property C55)
-/
namespace Verif.PmapFlow
open Verif.Dataflow
variable {W P : Type}

/-- The event has S1-like and S2-like samples over threshold. -/
def over (f : Fns W P) (x : Item W P) : Bool := decide (f.s1Size x.wfs ≠ 0 ∧ f.s2Size x.wfs ≠ 0)

/-- The PMap of the waveforms: SiPM calibration (if any) and peak search. -/
def pmapOf (f : Fns W P) (w : W) : Except Exc P :=
  match f.sipmCal with
  | none => f.build w
  | some g => match g w with
    | .error e => .error e
    | .ok w' => f.build w'

/-- The event is over threshold and its PMap has some peak. -/
def full (f : Fns W P) (x : Item W P) : Bool :=
  over f x && match pmapOf f x.wfs with
    | .ok p => decide (f.nS1 p ≠ 0 ∨ f.nS2 p ≠ 0)
    | .error _ => false

/-- The rows `(event, passed)` of `Filters/s12_indices`. -/
def indexRows (tr : List (Ev (Item W P))) : List (Int × Bool) := (received 3 tr).map fun x => (x.event, decide (x.indicesPass.getD 0 ≠ 0))
/-- The rows `(event, passed)` of `Filters/empty_pmap`. -/
def pmapRows (tr : List (Ev (Item W P))) : List (Int × Bool) := (received 9 tr).map fun x => (x.event, x.pmapsPass.getD false)
/-- The PMaps written, with their event numbers. -/
def pmapsWritten (tr : List (Ev (Item W P))) : List (Int × Option P) := (received 12 tr).map fun x => (x.event, x.pmap)

end Verif.PmapFlow
