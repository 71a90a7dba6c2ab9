import Verif.Model.Deconv
import Mathlib.Logic.Relation
/-!
# Vocabulary for the cuts before the deconvolution (C46) and the deconvolved hits (C57)
-/
namespace Verif.Deconv

/-- The row but the columns that are redistributed. -/
def Row.fixed (r : Row) : Row := { r with vals := [] }

/-- `out` is the table `kept`, with the total of each column of `df` shared among its rows in proportion to their values.  A column whose kept values add up to zero cannot be
shared and is not finite. -/
def Redistributed (df kept out : List Row) : Prop :=
  out.map Row.fixed = kept.map Row.fixed ∧
  ∀ j : Nat,
    (colSum kept j ≠ 0 → colSum out j = colSum df j ∧
      ∀ (i : Nat) (r r' : Row), kept[i]? = some r → out[i]? = some r' →
        ∀ v : ℚ, r.vals.getD j none = some v → ∃ v' : ℚ, r'.vals.getD j none = some v' ∧ v' * colSum kept j = v * colSum df j) ∧
    (colSum kept j = 0 → ∀ r' ∈ out, r'.vals.getD j none = none)

/-- The two sensors are at different places, at most as far as the diagonal `(dx, dy)`. -/
def NearSensor (dx dy : ℚ) (a b : Row) : Prop := (a.x ≠ b.x ∨ a.y ≠ b.y) ∧ (a.x - b.x) ^ 2 + (a.y - b.y) ^ 2 ≤ dx ^ 2 + dy ^ 2

/-- The hits are linked: at most as far as the diagonal of the box. -/
def CloseHits (d : ℚ × ℚ × ℚ) (df : List Row) (a b : Row) : Prop := a ∈ df ∧ b ∈ df ∧ normDist2 d a b ≤ 3

/-- `c` is the list of the hits of the cluster of `a`. -/
def IsCluster (d : ℚ × ℚ × ℚ) (df : List Row) (a : Row) (c : List Row) : Prop :=
  c.Nodup ∧ ∀ b, b ∈ c ↔ Relation.ReflTransGen (CloseHits d df) a b

/-- `top` is the largest value of the pixels of the image. -/
def IsTop (im : Img) (top : ℚ) : Prop := (∃ i j, i < im.h ∧ j < im.w ∧ im.px i j = top) ∧ ∀ i j, i < im.h → j < im.w → im.px i j ≤ top

/-- A pixel of the image that reaches the cut: with its value, or with the ratio of its value to the largest one. -/
def Bright (im : Img) (cut : ℚ) : CutType → Nat × Nat → Prop
  | .abs, p => p.1 < im.h ∧ p.2 < im.w ∧ cut ≤ im.px p.1 p.2
  | .rel, p => p.1 < im.h ∧ p.2 < im.w ∧ ∃ top, IsTop im top ∧ top ≠ 0 ∧ cut ≤ im.px p.1 p.2 / top

/-- The pixels are in the image, pass the cut and touch, perhaps by a corner. -/
def Touch (im : Img) (cut : ℚ) (t : CutType) (a b : Nat × Nat) : Prop :=
  Bright im cut t a ∧ Bright im cut t b ∧ a.1 ≤ b.1 + 1 ∧ b.1 ≤ a.1 + 1 ∧ a.2 ≤ b.2 + 1 ∧ b.2 ≤ a.2 + 1

/-- The image has at least two separate regions. -/
def Separate (im : Img) (cut : ℚ) (t : CutType) : Prop :=
  ∃ a b, Bright im cut t a ∧ Bright im cut t b ∧ ¬ Relation.ReflTransGen (Touch im cut t) a b

/-- `c` is the list of the pixels of the region of `a`. -/
def IsRegion (im : Img) (cut : ℚ) (t : CutType) (a : Nat × Nat) (c : List (Nat × Nat)) : Prop :=
  c.Nodup ∧ ∀ b, b ∈ c ↔ Relation.ReflTransGen (Touch im cut t) a b

/-- An image without negative pixels. -/
def Img.NonNeg (im : Img) : Prop := ∀ i < im.h, ∀ j < im.w, 0 ≤ im.px i j

/-- The images after each iteration. -/
def iterates (image psf : Img) (s : Satellites) : Nat → Img
  | 0 => initial image
  | n + 1 => iteration image psf s n (iterates image psf s n)

/-- The image the iterate is compared with. -/
def reference (image psf : Img) (s : Satellites) : Nat → Img
  | 0 => image
  | n + 1 => iterates image psf s (n + 1)

end Verif.Deconv
