import Verif.Numpy
/-!
# Vocabulary for the buffer properties
-/
namespace Verif.Buffers

/-- The charge summed over the sensors in bin `i` exceeds the threshold. -/
def Above (wfs : Mat) (thr : ℚ) (i : Nat) : Prop :=
  i < wfs.ncols ∧ thr < (wfs.rows.map fun r => r.getD i 0).sum

/-- The sample of a waveform at any integer position: zero outside. -/
def sampleAt (r : List ℚ) (j : Int) : ℚ := if 0 ≤ j then r.getD j.toNat 0 else 0

/-- `m` is the piece of `len` samples of the waveforms `rows` starting at sample `start` (zeros outside the data). -/
def IsWindow (rows : List (List ℚ)) (start : Int) (len : Nat) (m : Mat) : Prop :=
  m.ncols = len ∧ m.rows.length = rows.length ∧
  ∀ (i : Nat) r, rows[i]? = some r → ∃ out, m.rows[i]? = some out ∧ out.length = len ∧
    ∀ k < len, out.getD k 0 = sampleAt r (start + k)

end Verif.Buffers
