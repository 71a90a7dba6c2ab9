import Verif.Props.DeconvImage
import Verif.Spec.Lucy
import Mathlib.Algebra.BigOperators.Group.Finset.Basic
import Mathlib.Algebra.BigOperators.Intervals

/-! C57: the iterations of `richardson_lucy`, pixel by pixel. -/

namespace Verif.Deconv

private theorem range_sum (f : Nat → ℚ) : ∀ n, ((List.range n).map f).sum = ∑ i ∈ Finset.range n, f i
  | 0 => rfl
  | n + 1 => by rw [List.range_succ, Finset.sum_range_succ, List.map_append, List.sum_append, range_sum f n]; simp

private theorem flatMap_sum {α : Type} (g : α → List ℚ) : ∀ l : List α, (l.flatMap g).sum = (l.map fun a => (g a).sum).sum
  | [] => rfl
  | a :: l => by rw [List.flatMap_cons, List.sum_append, flatMap_sum g l]; simp

theorem positions_sum (im : Img) (f : Nat × Nat → ℚ) : (im.positions.map f).sum = ∑ a ∈ Finset.range im.h, ∑ b ∈ Finset.range im.w, f (a, b) := by
  unfold Img.positions
  rw [List.map_flatMap, flatMap_sum, range_sum]
  refine Finset.sum_congr rfl fun a _ => ?_
  rw [List.map_map, range_sum]
  rfl

theorem convPixel_blurred (im k : Img) (i j : Nat) : convPixel im k i j = blurred im k i j := by
  unfold convPixel blurred
  rw [positions_sum]
  refine Finset.sum_congr rfl fun a _ => Finset.sum_congr rfl fun b _ => ?_
  unfold response
  dsimp only
  generalize (k.h - 1) / 2 = m
  generalize (k.w - 1) / 2 = n
  by_cases h : a ≤ i + m ∧ i + m - a < k.h ∧ b ≤ j + n ∧ j + n - b < k.w
  · rw [if_pos h, if_pos (by omega), show ((i : Int) - a + m).toNat = i + m - a by omega, show ((j : Int) - b + n).toNat = j + n - b by omega]
  · rw [if_neg h, if_neg (by omega), mul_zero]

theorem lucy_updated (image psf im : Img) (i j : Nat) : (lucy image psf im).px i j = updated image psf im i j := by
  unfold lucy updated
  dsimp only
  congr 1
  rw [convPixel_blurred]
  unfold blurred
  refine Finset.sum_congr rfl fun a _ => Finset.sum_congr rfl fun b _ => ?_
  have hr : (relativeBlur image (convImg im psf)).px a b = image.px a b / (if blurred im psf a b = 0 then 1 / 2 ^ 52 else blurred im psf a b) := by
    simp only [relativeBlur, convImg, convPixel_blurred, eps]
  rw [hr]
  unfold response mirror blurred
  dsimp only
  generalize (psf.h - 1) / 2 = m
  generalize (psf.w - 1) / 2 = n
  congr 1
  by_cases h : 0 ≤ (i : Int) - a + m ∧ (i : Int) - a + m < psf.h ∧ 0 ≤ (j : Int) - b + n ∧ (j : Int) - b + n < psf.w
  · rw [if_pos h, if_pos (by omega)]
    congr 1 <;> omega
  · rw [if_neg h, if_neg (by omega)]

theorem step_iteration (image psf : Img) (s : Satellites) (n : Nat) (im : Img) : Step image psf s n im (iteration image psf s n im) := by
  have hl : lucy image psf im = ⟨im.h, im.w, updated image psf im⟩ := by
    have : (lucy image psf im).px = updated image psf im := by funext i j; exact lucy_updated image psf im i j
    rw [← this]; rfl
  unfold iteration
  rw [hl]
  cases hs : s.start with
  | none =>
    refine ⟨rfl, rfl, fun i _ j _ => ⟨fun h => ?_, fun _ => rfl⟩⟩
    obtain ⟨⟨k, hk, _⟩, _⟩ := h
    rw [hs] at hk; cases hk
  | some k =>
    dsimp only
    by_cases hk : k ≤ (n : Int)
    · rw [if_pos hk]
      refine ⟨rfl, rfl, fun i _ j _ => ⟨fun h => ?_, fun h => ?_⟩⟩
      · have hm := (satellite_mask ⟨im.h, im.w, updated image psf im⟩ s.maxSize s.cut s.type (i, j)).2 h.2
        simp only [kill, hm, if_true]
      · have hm : satelliteMask ⟨im.h, im.w, updated image psf im⟩ s.maxSize s.cut s.type (i, j) = false := by
          rw [← Bool.not_eq_true]
          intro hc
          exact h ⟨⟨k, hs, hk⟩, (satellite_mask _ _ _ _ _).1 hc⟩
        simp only [kill, hm, if_false, Bool.false_eq_true]
    · rw [if_neg hk]
      refine ⟨rfl, rfl, fun i _ j _ => ⟨fun h => ?_, fun _ => rfl⟩⟩
      obtain ⟨⟨k', hk', hle⟩, _⟩ := h
      rw [hs] at hk'; cases hk'; exact absurd hle hk

theorem converged_iff {im ref : Img} (hh : 0 < im.h) (hw : 0 < im.w) (h1 : ref.h = im.h) (h2 : ref.w = im.w) (thr : ℚ) : converged im ref thr = true ↔ Settled im ref thr := by
  have tA := top_iff (p := (0, 0)) hh hw
  have tR := top_iff (im := ref) (p := (0, 0)) (by rw [h1]; exact hh) (by rw [h2]; exact hw)
  have key : Settled im ref thr ↔ (((maxOf im.values = 0 ∨ maxOf ref.values = 0) ∧ 0 < thr) ∨
     (maxOf im.values ≠ 0 ∧ maxOf ref.values ≠ 0 ∧ (∀ i < im.h, ∀ j < im.w, ref.px i j = 0 → im.px i j = 0) ∧
      ∑ i ∈ Finset.range im.h, ∑ j ∈ Finset.range im.w, (if ref.px i j = 0 then 0 else (im.px i j / maxOf im.values - ref.px i j / maxOf ref.values) ^ 2 / (ref.px i j / maxOf ref.values)) < thr)) := by
    constructor
    · rintro ⟨A, R, hA, hR, h⟩
      rw [tA] at hA
      rw [tR] at hR
      subst hA hR
      exact h
    · intro h
      exact ⟨_, _, (tA _).2 rfl, (tR _).2 rfl, h⟩
  rw [key]
  unfold converged
  rw [Bool.and_eq_true, List.all_eq_true, decide_eq_true_eq, positions_sum]
  by_cases hA : maxOf im.values = 0
  · have : ∀ p, relTerm (normalised im p) (normalised ref p) = some 0 := by intro p; simp [normalised, hA, relTerm]
    simp [this, hA]
  · by_cases hR : maxOf ref.values = 0
    · have : ∀ p, relTerm (normalised im p) (normalised ref p) = some 0 := by intro p; simp [normalised, hA, hR, relTerm]
      simp [this, hR]
    · have ht : ∀ p : Nat × Nat, relTerm (normalised im p) (normalised ref p) = if ref.px p.1 p.2 = 0 then (if im.px p.1 p.2 = 0 then some 0 else none)
          else some ((im.px p.1 p.2 / maxOf im.values - ref.px p.1 p.2 / maxOf ref.values) ^ 2 / (ref.px p.1 p.2 / maxOf ref.values)) := by
        intro p
        simp only [normalised, hA, hR, if_false, relTerm]
        by_cases h0 : ref.px p.1 p.2 = 0
        · simp [h0, hA]
        · rw [if_neg (div_ne_zero h0 hR), if_neg h0]
      simp only [hA, hR, ne_eq, not_false_eq_true, true_and, false_or, or_self, false_and]
      refine and_congr ?_ ?_
      · constructor
        · intro h i hi j hj h0
          have := h (i, j) (mem_positions.2 ⟨hi, hj⟩)
          rw [ht] at this
          by_contra hc
          simp [h0, hc] at this
        · intro h p hp
          rw [ht]
          by_cases h0 : ref.px p.1 p.2 = 0
          · simp [h0, h p.1 (mem_positions.1 hp).1 p.2 (mem_positions.1 hp).2 h0]
          · simp [h0]
      · have : ∀ i j, ((relTerm (normalised im (i, j)) (normalised ref (i, j))).getD 0) =
            (if ref.px i j = 0 then 0 else (im.px i j / maxOf im.values - ref.px i j / maxOf ref.values) ^ 2 / (ref.px i j / maxOf ref.values)) := by
          intro i j
          rw [ht]
          by_cases h0 : ref.px i j = 0
          · simp only [h0, if_true]; split <;> rfl
          · simp [h0]
        simp only [this]

/-- **C57** `richardson_lucy` starts from an image with 1/2 everywhere and returns the one after `k` steps, at most those requested, each one with the formula of the update and the removal of the satellites;
no image before was settled with respect to the previous one (the first one, with respect to the image of the sensors), and if steps are left the last one is. -/
theorem richardson_lucy_steps (image psf : Img) (s : Satellites) (iterations : Nat) (thr : ℚ) (hh : 0 < image.h) (hw : 0 < image.w) :
    ∃ k ≤ iterations, ∃ ims : Nat → Img, ((ims 0).h = image.h ∧ (ims 0).w = image.w ∧ ∀ i j, (ims 0).px i j = 1 / 2) ∧
      (∀ n, Step image psf s n (ims n) (ims (n + 1))) ∧ richardsonLucy image psf s iterations thr = ims k ∧
      (∀ i, i + 1 < k → ¬ Settled (ims (i + 1)) (if i = 0 then image else ims i) thr) ∧
      (k < iterations → ∃ i, k = i + 1 ∧ Settled (ims k) (if i = 0 then image else ims i) thr) := by
  obtain ⟨k, hk, h1, h2, h3⟩ := richardson_lucy image psf s iterations thr
  have href : ∀ i, reference image psf s i = if i = 0 then image else iterates image psf s i := by
    intro i; cases i <;> rfl
  have hshape : ∀ i, (reference image psf s i).h = image.h ∧ (reference image psf s i).w = image.w := by
    intro i
    rw [href]
    split
    · exact ⟨rfl, rfl⟩
    · exact iterates_shape image psf s i
  have hconv : ∀ n i, converged (iterates image psf s n) (reference image psf s i) thr = true ↔ Settled (iterates image psf s n) (if i = 0 then image else iterates image psf s i) thr := by
    intro n i
    obtain ⟨e1, e2⟩ := iterates_shape image psf s n
    rw [converged_iff (by rw [e1]; exact hh) (by rw [e2]; exact hw) (by rw [e1]; exact (hshape i).1) (by rw [e2]; exact (hshape i).2), href]
  refine ⟨k, hk, iterates image psf s, ⟨rfl, rfl, fun _ _ => rfl⟩, fun n => step_iteration image psf s n _, h1, fun i hi => ?_, fun hlt => ?_⟩
  · rw [← hconv, h2 i hi]; simp
  · obtain ⟨i, e, h⟩ := h3 hlt
    exact ⟨i, e, (hconv k i).1 h⟩

/-- The case has pixels, and its first update is the one of the formula. -/
example : 0 < exImg.h ∧ 0 < exImg.w ∧ (richardsonLucy exImg exPsf ⟨none, 0, 0, .abs⟩ 1 0).px 0 0 = 1 / 2 * (5 / (3 / 8) * (1 / 2) + 1 / (1 / 2) * (1 / 4)) := by
  refine ⟨by decide, by decide, by decide +kernel⟩

end Verif.Deconv
