import Verif.Spec.Deconv
import Mathlib.Algebra.BigOperators.Group.Finset.Basic

/-! Specification of the iterations of `richardson_lucy` (C57), pixel by pixel. -/

namespace Verif.Deconv

/-- The response function at any pair of integers: 0 out of its image. -/
def response (k : Img) (i j : Int) : ℚ := if 0 ≤ i ∧ i < k.h ∧ 0 ≤ j ∧ j < k.w then k.px i.toNat j.toNat else 0

/-- The image blurred by the response function, centred in its pixel `((h - 1) / 2, (w - 1) / 2)`. -/
def blurred (im k : Img) (i j : Nat) : ℚ :=
  ∑ a ∈ Finset.range im.h, ∑ b ∈ Finset.range im.w, im.px a b * response k (i - a + ((k.h - 1) / 2 : Nat)) (j - b + ((k.w - 1) / 2 : Nat))

/-- The pixel after an update: multiplied by what the response function, turned around, gives of the ratios of the image to the blurred one (with zeros replaced by the epsilon of the floats). -/
def updated (image psf im : Img) (i j : Nat) : ℚ :=
  im.px i j * ∑ a ∈ Finset.range image.h, ∑ b ∈ Finset.range image.w, image.px a b / (if blurred im psf a b = 0 then 1 / 2 ^ 52 else blurred im psf a b) *
    response psf ((psf.h : Int) - 1 - (i - a + ((psf.h - 1) / 2 : Nat))) ((psf.w : Int) - 1 - (j - b + ((psf.w - 1) / 2 : Nat)))

/-- A pixel of a small region of an image with other regions. -/
def Satellite (s : Satellites) (im : Img) (p : Nat × Nat) : Prop :=
  Separate im s.cut s.type ∧ Bright im s.cut s.type p ∧ ∃ c, IsRegion im s.cut s.type p c ∧ (c.length : Int) < s.maxSize

/-- `new` is the image after iteration number `n`, from `im`: the update, without its satellites if they are to be removed from this iteration. -/
def Step (image psf : Img) (s : Satellites) (n : Nat) (im new : Img) : Prop :=
  new.h = im.h ∧ new.w = im.w ∧ ∀ i < im.h, ∀ j < im.w,
    (((∃ k, s.start = some k ∧ k ≤ (n : Int)) ∧ Satellite s ⟨im.h, im.w, updated image psf im⟩ (i, j)) → new.px i j = 0) ∧
    (¬ ((∃ k, s.start = some k ∧ k ≤ (n : Int)) ∧ Satellite s ⟨im.h, im.w, updated image psf im⟩ (i, j)) → new.px i j = updated image psf im i j)

/-- Divided by their largest pixels the images differ by less than `thr`: the sum, over the pixels, of the squares of the differences relative to `ref` (where both vanish there is no term; where only `ref`
does it is infinite; and an image of zeros gives no term at all). -/
def Settled (im ref : Img) (thr : ℚ) : Prop :=
  ∃ A R, IsTop im A ∧ IsTop ref R ∧
    (((A = 0 ∨ R = 0) ∧ 0 < thr) ∨
     (A ≠ 0 ∧ R ≠ 0 ∧ (∀ i < im.h, ∀ j < im.w, ref.px i j = 0 → im.px i j = 0) ∧
      ∑ i ∈ Finset.range im.h, ∑ j ∈ Finset.range im.w, (if ref.px i j = 0 then 0 else (im.px i j / A - ref.px i j / R) ^ 2 / (ref.px i j / R)) < thr))

end Verif.Deconv
