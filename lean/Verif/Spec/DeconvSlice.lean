import Verif.Model.DeconvSlice
import Verif.Spec.DeconvInput
/-!
# Specification of C112: the slices of beersheba
-/
namespace Verif.DeconvSlice.Spec
open Verif Verif.Deconv

/-- The first of the values of a table at the smallest distance of a value. -/
def First (table : List ℚ) (v a : ℚ) : Prop :=
  ∃ i : Nat, table[i]? = some a ∧ (∀ b ∈ table, |a - v| ≤ |b - v|) ∧ ∀ i' < i, ∀ b, table[i']? = some b → |a - v| < |b - v|

/-- The PSF of a slice at `z` of a peak at `(x, y)`: the rows of the table for the nearest `z` (the nearest to zero when the diffusion is deconvolved apart), the nearest `x` and the nearest `y`. -/
def PsfOf (table : List PsfRow) (joint : Bool) (x y z : ℚ) (psf : List PsfRow) : Prop :=
  ∃ z0 x0 y0, First (table.map fun p => p.z) (if joint = true then z else 0) z0 ∧ First (table.map fun p => p.x) x x0 ∧ First (table.map fun p => p.y) y y0 ∧
    psf = table.filter fun p => decide (p.z = z0 ∧ p.x = x0 ∧ p.y = y0)

/-- The number of different values. -/
def distinct (l : List ℚ) : Nat := l.toFinset.card

/-- A PSF as an image: as many rows as different `xr`, as many columns as different `yr`, the values in the order of the table. -/
def Kernel (psf : List PsfRow) (value : PsfRow → ℚ) (k : Img) : Prop :=
  k.h = distinct (psf.map fun p => p.xr) ∧ k.w = distinct (psf.map fun p => p.yr) ∧ k.h * k.w = psf.length ∧
    ∀ i j p, i < k.h → j < k.w → psf[i * k.w + j]? = some p → k.px i j = value p

/-- The hits of a slice of a peak. -/
def sliceOf (hits : List Hit) (k : Int) (z : ℚ) : List Hit := hits.filter fun h => decide (h.row.npeak = k ∧ h.row.z = z)

/-- The hits of a peak. -/
def peakOf (hits : List Hit) (k : Int) : List Hit := hits.filter fun h => decide (h.row.npeak = k)

/-- The charge of some hits. -/
def chargeOf (hits : List Hit) : ℚ := (hits.map fun h => h.row.q).sum

/-- The points of the detector near some hits, along an axis: up to 3/2 widths from the extremes. -/
def near (grid xs : List ℚ) (w : ℚ) : List ℚ := DeconvInput.Spec.region grid xs w

/-- The hits with all the charges multiplied by a number. -/
def scaled (s : ℚ) (hits : List Hit) : List Hit := hits.map fun h => ⟨⟨h.row.label, h.row.event, h.row.time, h.row.npeak, h.row.x, h.row.y, h.row.z, s * h.row.q, h.row.vals⟩, h.xpeak, h.ypeak⟩

/-- A pixel passes the cut: its value, or the ratio of its value to the largest one. -/
def Passes (ps : List Pixel) (cut : ℚ) (t : CutType) (p : Pixel) : Prop :=
  match t with
  | .abs => cut < p.e
  | .rel => ∃ m ∈ ps, (∀ q ∈ ps, q.e ≤ m.e) ∧ m.e ≠ 0 ∧ cut < p.e / m.e

/-- The energy of a peak: the sum of the column. -/
def energyOf (hits : List Hit) (j : Nat) : ℚ := (hits.map fun h => (h.row.vals.getD j none).getD 0).sum

open Classical in
/-- The pixels that pass the cut, in all the slices of a peak. -/
noncomputable def kept (zs : List ℚ) (ps : ℚ → List Pixel) (cut : ℚ) (t : CutType) : List (ℚ × Pixel) :=
  zs.flatMap fun z => ((ps z).filter fun p => decide (Passes (ps z) cut t p)).map fun p => (z, p)

/-- The hit made of a pixel `p` of the slice at `z` of the peak `k`, `v` being the sum of the pixels of the peak. -/
def hitOf (hits : List Hit) (j : Nat) (timestamp : ℚ) (k : Int) (v : ℚ) (z : ℚ) (p : Pixel) : OutHit :=
  ⟨⟨((sliceOf hits k z).map fun h => h.row.event).headD 0, k, p.x, p.y, z, if v = 0 then none else some (round6 (p.e / v * energyOf (peakOf hits k) j))⟩,
    ((peakOf hits k).map fun h => h.xpeak).headD 0, ((peakOf hits k).map fun h => h.ypeak).headD 0, timestamp / 1000⟩

end Verif.DeconvSlice.Spec
