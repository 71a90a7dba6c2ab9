import Verif.Props.Core

/-! C07: centre and width of an interval. -/

namespace Verif.Core

/-- **C07**: the interval is the set of the points at most half its width (`bracket`) away from its centre, and its ends are there; a shift moves the centre and keeps the width, a positive factor multiplies both. -/
theorem minmax_center (lo hi : ℚ) (h : lo ≤ hi) : ∃ m, MinMax.mk? lo hi = .ok m ∧ (∀ x, m.contains x = true ↔ |x - m.center| ≤ m.bracket / 2) ∧
    hi - m.center = m.bracket / 2 ∧ m.center - lo = m.bracket / 2 ∧
    (∀ s, ∃ m', m.add s = .ok m' ∧ m'.center = m.center + s ∧ m'.bracket = m.bracket) ∧
    (∀ f, 0 < f → ∃ m', m.mul f = .ok m' ∧ m'.center = m.center * f ∧ m'.bracket = m.bracket * f) := by
  refine ⟨⟨lo, hi⟩, by simp [MinMax.mk?, h], fun x => ?_, ?_, ?_, fun s => ⟨⟨lo + s, hi + s⟩, by simp [MinMax.add, MinMax.mk?, h], ?_, ?_⟩,
    fun f hf => ⟨⟨lo * f, hi * f⟩, by simp [MinMax.mul, MinMax.mk?, mul_le_mul_of_nonneg_right h hf.le], ?_, ?_⟩⟩
  · simp only [MinMax.contains, MinMax.center, MinMax.bracket, Bool.and_eq_true, decide_eq_true_eq, abs_le]
    constructor
    · rintro ⟨h1, h2⟩; exact ⟨by linarith, by linarith⟩
    · rintro ⟨h1, h2⟩; exact ⟨by linarith, by linarith⟩
  all_goals simp only [MinMax.center, MinMax.bracket]; ring

example : (1 : ℚ) ≤ 3 ∧ (⟨1, 3⟩ : MinMax).center = 2 ∧ (⟨1, 3⟩ : MinMax).bracket = 2 := by decide +kernel

end Verif.Core
