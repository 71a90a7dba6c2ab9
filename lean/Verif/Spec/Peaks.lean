import Verif.Numpy
/-!
# Vocabulary for the peak properties
-/
namespace Verif.Peaks

/-- The last sample of `p` and the first of `q` are more than `stride` apart. -/
def Apart (stride : Nat) (p q : List Nat) : Prop := ∀ a ∈ p.getLast?, ∀ b ∈ q.head?, a + stride < b

/-- `pieces` cuts the sequence `idx` in non-empty consecutive groups, exactly where neighbours differ by
more than `stride`. -/
structure IsGrouping (idx : List Nat) (stride : Nat) (pieces : List (List Nat)) : Prop where
  cover : pieces.flatten = idx
  nonempty : ∀ p ∈ pieces, p ≠ []
  inside : ∀ p ∈ pieces, p.IsChain fun a b => b ≤ a + stride
  across : pieces.IsChain (Apart stride)

/-- The slices `[s, e)` tile `[a, n)`: consecutive, disjoint, each containing some sample below `n`, the
last one reaching `n`. -/
def TilesFrom (n : Nat) : Nat → List (Nat × Nat) → Prop
  | a, [] => n ≤ a
  | a, (s, e) :: rest => s = a ∧ s < e ∧ s < n ∧ TilesFrom n e rest

/-- The slices tile the samples `0, …, n-1`. -/
def Tiles (n : Nat) (slices : List (Nat × Nat)) : Prop := TilesFrom n 0 slices

/-- Sum of the samples of `wf` with index in `[lo, hi)`. -/
def chargeIn (wf : List ℚ) (lo hi : Nat) : ℚ :=
  ((List.range wf.length).map fun j => if lo ≤ j ∧ j < hi then wf.getD j 0 else 0).sum

/-- A SiPM selection algorithm for `n` sensors: for any waveforms of them it gives positions of existing sensors and one waveform, of the same length, for each. -/
def IsSelection (n : Nat) (sel : Mat → Except PyErr (List Nat × Mat)) : Prop :=
  ∀ m : Mat, m.WF → m.rows.length = n → ∃ idx rows, sel m = .ok (idx, ⟨rows, m.ncols⟩) ∧ rows.length = idx.length ∧ ∀ i ∈ idx, i < n

/-- The samples `[lo, hi)` of a waveform added up in groups of `k`. -/
def binsOf (lo hi k : Nat) (wf : List ℚ) : List ℚ :=
  (List.range ((hi - lo + k - 1) / k)).map fun b => chargeIn wf (lo + k * b) (min hi (lo + k * (b + 1)))

/-- The piece `[first, …, last]` is in the search window: first and last times within `[tmin, tmax]`, number
of samples within `[lmin, lmax]` (all closed). -/
def inWindow (tmin tmax lmin lmax sampWid : ℚ) (piece : List Nat) : Bool :=
  match piece.head?, piece.getLast? with
  | some first, some last =>
    decide (tmin ≤ first * sampWid) && decide (first * sampWid ≤ tmax) &&
    decide (tmin ≤ last * sampWid) && decide (last * sampWid ≤ tmax) &&
    decide (lmin ≤ (last : ℚ) - first + 1) && decide ((last : ℚ) - first + 1 ≤ lmax)
  | _, _ => false

end Verif.Peaks
