import Verif.Model.ToyWaveform
/-!
# Vocabulary for the toy waveforms
-/
namespace Verif.ToyWaveform

/-- The trapezoid: zero up to `pre`, a rise to `q` in `rise` samples, `flat` samples at `q`, a fall in `rise` samples and zero. -/
def trapezoid (pre rise flat : Nat) (q : ℚ) (i : Nat) : ℚ :=
  if i ≤ pre then 0
  else if i ≤ pre + rise then q * ((i : ℚ) - pre) / rise
  else if i ≤ pre + rise + flat then q
  else if i ≤ pre + rise + flat + rise then q * ((pre : ℚ) + rise + flat + rise - i) / rise
  else 0

/-- The random numbers that add noise to a sample: one, but two in the last sample of the fall. -/
def noiseAt (pre rise flat : Nat) (draw : Nat → Nat → ℚ) (i : Nat) : ℚ :=
  if i < pre then draw 0 i
  else if i < pre + rise then draw 1 (i - pre)
  else if i < pre + rise + flat then draw 2 (i - (pre + rise))
  else if i < pre + rise + flat + rise then draw 3 (i - (pre + rise + flat))
  else if i = pre + rise + flat + rise then draw 3 rise + draw 4 0
  else draw 4 (i - (pre + rise + flat + rise))

/-- The value of a tooth at its sample `j`. -/
def toothAt (rise flat : Nat) (q : ℚ) (j : Nat) : ℚ :=
  if j < rise then (if rise = 1 then 0 else q * j / ((rise : ℚ) - 1))
  else if j < rise + flat then q
  else (if rise = 1 then q else q * ((rise : ℚ) - 1 - ((j : ℚ) - rise - flat)) / ((rise : ℚ) - 1))

end Verif.ToyWaveform
