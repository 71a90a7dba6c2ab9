import Verif.Model.Selection
import Mathlib.Data.Finset.Card
/-!
# Vocabulary of the selection of krypton events
-/
namespace Verif.Selection

/-- A value that is not NaN, at least `lo` and below `hi`. -/
def Between (lo : ℚ) (v : Option ℚ) (hi : ℚ) : Prop := ∃ x, v = some x ∧ lo ≤ x ∧ x < hi

/-- Inside the diffusion band: the square of the width in z, between the limits for its drift time. -/
def InBand (c : Cuts) (r : Row) : Prop := ∃ z dt, r.zrms = some z ∧ r.dt = some dt ∧ c.bandLow dt ≤ z ^ 2 ∧ z ^ 2 < c.bandUpp dt

/-- The requirements on a row before the selection of events with one row. -/
def Before (c : Cuts) (r : Row) : Prop := InBand c r ∧ Between c.xraysLow r.ec c.xraysHigh ∧ Between c.s2tLow r.s2t c.s2tHigh

/-- `r` is the only row of its event that meets the first requirements. -/
def Alone (c : Cuts) (kdst : List Row) (r : Row) : Prop := ∃ pre post, kdst = pre ++ r :: post ∧ ∀ r' ∈ pre ++ post, r'.event = r.event → ¬ Before c r'

/-- The requirements after it. -/
def After (c : Cuts) (r : Row) : Prop := Between 0 r.r c.rMax ∧ Between c.dtLow r.dt c.dtHigh ∧ Between c.nsipmLow r.nsipm c.nsipmHigh

/-- The rows of a table that meet a condition, in their order. -/
def Kept (P : Row → Prop) (df out : List Row) : Prop := out.Sublist df ∧ ∀ r, r ∈ out ↔ r ∈ df ∧ P r

/-- The number of different events. -/
def numEvents (df : List Row) : Nat := (df.map Row.event).toFinset.card

end Verif.Selection
