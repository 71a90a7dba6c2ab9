import Verif.Spec.Rounding
import Verif.Props.SignalNoise
import Verif.Model.Deconv
import Verif.Model.Psf

/-! What the roundings of the tables do (C57, C72, C121): nearest multiple, half to even, and therefore within half a unit of the last decimal. -/

namespace Verif.Rounding

theorem rounded_unique {d x y z : ℚ} (hy : Rounded d x y) (hz : Rounded d x z) : y = z := by
  obtain ⟨n, rfl, h1, h2⟩ := hy
  obtain ⟨m, rfl, g1, g2⟩ := hz
  have hn : n = m := by
    by_contra hne
    have a := abs_le.1 h1
    have b := abs_le.1 g1
    rcases lt_or_gt_of_ne hne with h | h
    · have h' : (n : ℚ) + 1 ≤ m := by exact_mod_cast h
      have e1 : x * d - n = 1 / 2 := by linarith
      have e2 : x * d - m = -(1 / 2) := by linarith
      have p1 := h2 (by rw [e1]; norm_num)
      have p2 := g2 (by rw [e2]; norm_num)
      have : (m : ℚ) = n + 1 := by linarith
      have : m = n + 1 := by exact_mod_cast this
      omega
    · have h' : (m : ℚ) + 1 ≤ n := by exact_mod_cast h
      have e1 : x * d - m = 1 / 2 := by linarith
      have e2 : x * d - n = -(1 / 2) := by linarith
      have p1 := g2 (by rw [e1]; norm_num)
      have p2 := h2 (by rw [e2]; norm_num)
      have : (n : ℚ) = m + 1 := by linarith
      have : n = m + 1 := by exact_mod_cast this
      omega
  rw [hn]

/-- **C121**: the positions of the voxels and hits are rounded to the nearest of five decimals, half to even; so they move at most half a unit of the fifth one, and nothing else is that rounding. -/
theorem five_decimals (x y : ℚ) : (Sampling.round5 x = y ↔ Rounded 100000 x y) ∧ |Sampling.round5 x - x| ≤ 1 / 200000 := by
  have h : Rounded 100000 x (Sampling.round5 x) := ⟨_, rfl, SignalNoise.roundEven_nearest (x * 100000)⟩
  refine ⟨⟨fun e => e ▸ h, fun e => rounded_unique h e⟩, ?_⟩
  obtain ⟨n, e, h1, _⟩ := h
  rw [e]
  have := abs_le.1 h1
  exact abs_le.2 ⟨by linarith [this.2], by linarith [this.1]⟩

/-- **C57**: the energies of the deconvolved hits, to the nearest of six decimals. -/
theorem six_decimals (x y : ℚ) : (Deconv.round6 x = y ↔ Rounded 1000000 x y) ∧ |Deconv.round6 x - x| ≤ 1 / 2000000 := by
  have h : Rounded 1000000 x (Deconv.round6 x) := ⟨_, rfl, SignalNoise.roundEven_nearest (x * 1000000)⟩
  refine ⟨⟨fun e => e ▸ h, fun e => rounded_unique h e⟩, ?_⟩
  obtain ⟨n, e, h1, _⟩ := h
  rw [e]
  have := abs_le.1 h1
  exact abs_le.2 ⟨by linarith [this.2], by linarith [this.1]⟩

/-- **C72**: the centres of the sectors of the response function, to the nearest of two decimals. -/
theorem two_decimals (x y : ℚ) : (Psf.round2 x = y ↔ Rounded 100 x y) ∧ |Psf.round2 x - x| ≤ 1 / 200 := by
  have e0 : Psf.round2 x = (Sampling.roundEven (x * 100) : ℚ) / 100 := by
    unfold Psf.round2 Sampling.roundEven
    split
    · rfl
    · split
      · push_cast; rfl
      · split
        · rfl
        · push_cast; rfl
  have h : Rounded 100 x (Psf.round2 x) := ⟨_, e0, SignalNoise.roundEven_nearest (x * 100)⟩
  refine ⟨⟨fun e => e ▸ h, fun e => rounded_unique h e⟩, ?_⟩
  obtain ⟨n, e, h1, _⟩ := h
  rw [e]
  have := abs_le.1 h1
  exact abs_le.2 ⟨by linarith [this.2], by linarith [this.1]⟩

example : Sampling.round5 (123456789 / 10000000) = 1234568 / 100000 ∧ Sampling.round5 (5 / 1000000) = 0 ∧ Psf.round2 (15 / 1000) = 2 / 100 ∧ Deconv.round6 (-1 / 3) = -333333 / 1000000 := by decide +kernel

end Verif.Rounding
