import Verif.Spec.ToyWaveform
import Mathlib.Tactic.Ring
import Mathlib.Tactic.FieldSimp
import Mathlib.Tactic.Linarith
/-!
# C117: the toy waveforms
-/
namespace Verif.ToyWaveform
open Verif (PyErr)

theorem setRange_get {arr vals : List (Option ℚ)} {f : Nat} (h : f + vals.length ≤ arr.length) (i : Nat) :
    (setRange arr f vals)[i]? = if i < f then arr[i]? else if i < f + vals.length then vals[i - f]? else arr[i]? := by
  unfold setRange
  have hl : (arr.take f).length = f := by rw [List.length_take]; omega
  split
  · rw [List.append_assoc, List.getElem?_append_left (by omega), List.getElem?_take_of_lt (by omega)]
  · rw [List.append_assoc, List.getElem?_append_right (by omega), hl]
    split
    · rw [List.getElem?_append_left (by omega)]
    · rw [List.getElem?_append_right (by omega), List.getElem?_drop]
      congr 1
      omega

theorem setRange_length {arr vals : List (Option ℚ)} {f : Nat} (h : f + vals.length ≤ arr.length) : (setRange arr f vals).length = arr.length := by
  unfold setRange
  simp
  omega

theorem line_eq {x x1 y1 x2 y2 : ℚ} (h : x2 - x1 ≠ 0) : line x x1 y1 x2 y2 = some (y1 + (y2 - y1) * (x - x1) / (x2 - x1)) := by
  unfold line
  rw [if_neg h]
  congr 1
  field_simp
  ring

theorem slope_length (w : Par) (draw : Nat → ℚ) (f l : Nat) (y1 y2 : ℚ) : (slope w draw f l y1 y2).length = l + 1 - f := by simp [slope]

theorem slope_get (w : Par) (draw : Nat → ℚ) (f n : Nat) (y1 y2 : ℚ) (hn : 0 < n) (i : Nat) (hi : i ≤ n) :
    (slope w draw f (f + n) y1 y2)[i]? = some (some (y1 + (y2 - y1) * i / n + w.noise * draw i)) := by
  unfold slope
  rw [List.getElem?_map, List.getElem?_range (by omega)]
  have hn' : (n : ℚ) ≠ 0 := by exact_mod_cast (by omega : n ≠ 0)
  have h : ((f + n : Nat) : ℚ) - f ≠ 0 := by push_cast; rw [add_sub_cancel_left]; exact hn'
  rw [Option.map_some, line_eq h, Option.map_some]
  push_cast
  rw [add_sub_cancel_left, add_sub_cancel_left]

section
variable (w : Par) (draw : Nat → Nat → ℚ)

/-- The signal with its noise. -/
theorem signal_get (hr : 0 < w.rise) (ht : 2 * w.rise + w.flat + w.tPre < w.tTot) (i : Nat) : (signal w draw)[i]? =
    if i < w.tPre then some (some 0)
    else if i < w.tPre + w.rise then some (some (w.q * ((i : ℚ) - w.tPre) / w.rise + w.noise * draw 1 (i - w.tPre)))
    else if i < w.tPre + w.rise + w.flat then some (some (w.q + w.noise * draw 2 (i - (w.tPre + w.rise))))
    else if i ≤ w.tPre + w.rise + w.flat + w.rise then some (some (w.q * ((w.tPre : ℚ) + w.rise + w.flat + w.rise - i) / w.rise + w.noise * draw 3 (i - (w.tPre + w.rise + w.flat))))
    else if i < w.tTot then some (some 0) else none := by
  have hz : (zeros w.tTot).length = w.tTot := by simp [zeros]
  have l1 : w.tPre + (slope w (draw 1) w.tPre (w.tPre + w.rise) 0 w.q).length ≤ (zeros w.tTot).length := by rw [slope_length, hz]; omega
  have e1 := setRange_length l1
  have hf : (flatTop w (draw 2) w.flat).length = w.flat := by simp [flatTop]
  have l2 : w.tPre + w.rise + (flatTop w (draw 2) w.flat).length ≤ (setRange (zeros w.tTot) w.tPre (slope w (draw 1) w.tPre (w.tPre + w.rise) 0 w.q)).length := by rw [e1, hf, hz]; omega
  have e2 := setRange_length l2
  unfold signal
  rw [setRange_get (by rw [e2, e1, hz, slope_length]; omega), setRange_get l2, setRange_get l1, slope_length, slope_length, hf]
  have hrq : (w.rise : ℚ) ≠ 0 := by exact_mod_cast (by omega : w.rise ≠ 0)
  have hzero : ∀ j, j < w.tTot → (zeros w.tTot)[j]? = some (some 0) := fun j hj => by unfold zeros; rw [List.getElem?_replicate_of_lt hj]
  by_cases h1 : i < w.tPre
  · have c1 : i < w.tPre + w.rise + w.flat := by omega
    have c2 : i < w.tPre + w.rise := by omega
    simp only [h1, c1, c2, if_true]
    exact hzero i (by omega)
  · by_cases h2 : i < w.tPre + w.rise
    · have c1 : i < w.tPre + w.rise + w.flat := by omega
      have c2 : i < w.tPre + (w.tPre + w.rise + 1 - w.tPre) := by omega
      simp only [h1, h2, c1, c2, if_true, if_false]
      rw [slope_get w (draw 1) w.tPre w.rise 0 w.q hr _ (by omega), Nat.cast_sub (by omega)]
      congr 3
      ring
    · by_cases h3 : i < w.tPre + w.rise + w.flat
      · simp only [h1, h2, h3, if_true, if_false]
        unfold flatTop
        rw [List.getElem?_map, List.getElem?_range (by omega)]
        rfl
      · by_cases h4 : i ≤ w.tPre + w.rise + w.flat + w.rise
        · have c1 : i < w.tPre + w.rise + w.flat + (w.tPre + w.rise + w.flat + w.rise + 1 - (w.tPre + w.rise + w.flat)) := by omega
          simp only [h1, h2, h3, h4, c1, if_true, if_false]
          rw [slope_get w (draw 3) (w.tPre + w.rise + w.flat) w.rise w.q 0 hr _ (by omega), Nat.cast_sub (by omega)]
          push_cast
          congr 3
          field_simp
          ring
        · have c1 : ¬ i < w.tPre + w.rise + w.flat + (w.tPre + w.rise + w.flat + w.rise + 1 - (w.tPre + w.rise + w.flat)) := by omega
          have c2 : ¬ i < w.tPre + (w.tPre + w.rise + 1 - w.tPre) := by omega
          simp only [h1, h2, h3, h4, c1, c2, if_false]
          split
          · rename_i h; exact hzero i h
          · rw [List.getElem?_eq_none (by rw [hz]; omega)]

/-- **C117**: the square waveform exists exactly when it fits (with room after it) in the total time; it has that many samples. -/
theorem square_fits : (∃ wf, squareWaveform w draw = .ok wf) ↔ w.tPre + 2 * w.rise + w.flat < w.tTot := by
  unfold squareWaveform
  split
  · exact ⟨fun _ => by omega, fun _ => ⟨_, rfl⟩⟩
  · refine ⟨?_, fun h => by omega⟩
    rintro ⟨wf, h⟩
    cases h

/-- **C117**: it is the trapezoid plus the noise: one random number in each sample, but two in the last one of the fall. -/
theorem square_trapezoid (hr : 0 < w.rise) {wf : List (Option ℚ)} (h : squareWaveform w draw = .ok wf) :
    wf.length = w.tTot ∧ ∀ i, i < w.tTot → wf[i]? = some (some (trapezoid w.tPre w.rise w.flat w.q i + w.noise * noiseAt w.tPre w.rise w.flat draw i)) := by
  unfold squareWaveform at h
  split at h
  · rename_i ht
    injection h with h
    have hz : (zeros w.tTot).length = w.tTot := by simp [zeros]
    have n0 : (wfNoise w (draw 0) w.tPre).length = w.tPre := by simp [wfNoise]
    have n4 : (wfNoise w (draw 4) (w.tTot - w.tPre - (2 * w.rise + w.flat))).length = w.tTot - w.tPre - (2 * w.rise + w.flat) := by simp [wfNoise]
    have l0 : 0 + (wfNoise w (draw 0) w.tPre).length ≤ (zeros w.tTot).length := by rw [n0, hz]; omega
    have l4 : w.tPre + w.rise + w.flat + w.rise + (wfNoise w (draw 4) (w.tTot - w.tPre - (2 * w.rise + w.flat))).length ≤ (zeros w.tTot).length := by rw [n4, hz]; omega
    have hs : (signal w draw).length = w.tTot := by
      have g := signal_get w draw hr ht
      apply le_antisymm
      · rw [← List.getElem?_eq_none_iff, g, if_neg (by omega), if_neg (by omega), if_neg (by omega), if_neg (by omega), if_neg (by omega)]
      · by_contra hc
        have := g (signal w draw).length
        rw [List.getElem?_eq_none (le_refl _)] at this
        have hlt : (signal w draw).length < w.tTot := by omega
        rw [if_pos hlt] at this
        split_ifs at this <;> cases this
    have hzero : ∀ j, j < w.tTot → (zeros w.tTot)[j]? = some (some 0) := fun j hj => by unfold zeros; rw [List.getElem?_replicate_of_lt hj]
    have hrq : (w.rise : ℚ) ≠ 0 := by exact_mod_cast (by omega : w.rise ≠ 0)
    refine ⟨?_, fun i hi => ?_⟩
    · rw [← h]
      simp only [List.length_zipWith]
      rw [setRange_length l0, setRange_length l4, hs, hz]
      simp
    · rw [← h, List.getElem?_zipWith, List.getElem?_zipWith, setRange_get l0, setRange_get l4, signal_get w draw hr ht, n0, n4, if_neg (Nat.not_lt_zero i)]
      have hwf : ∀ (d : Nat → ℚ) (n j : Nat), j < n → (wfNoise w d n)[j]? = some (some (w.noise * d j)) := by
        intro d n j hj
        unfold wfNoise
        rw [List.getElem?_map, List.getElem?_range hj]
        rfl
      unfold trapezoid noiseAt
      by_cases h1 : i < w.tPre
      · have c1 : i < 0 + w.tPre := by omega
        have c2 : i ≤ w.tPre := by omega
        have c3 : i < w.tPre + w.rise + w.flat + w.rise := by omega
        simp only [h1, c1, c2, c3, if_true]
        rw [hwf _ _ _ (by omega), hzero i hi]
        simp [addOpt]
      · have d1 : ¬ i < 0 + w.tPre := by omega
        by_cases h2 : i < w.tPre + w.rise
        · have c3 : i < w.tPre + w.rise + w.flat + w.rise := by omega
          have c4 : i ≤ w.tPre + w.rise := by omega
          simp only [h1, d1, h2, c3, c4, if_true, if_false]
          rw [hzero i hi]
          by_cases h2' : i ≤ w.tPre
          · have : i = w.tPre := by omega
            subst this
            simp [addOpt]
          · rw [if_neg h2']
            simp [addOpt]
        · have d2 : ¬ i ≤ w.tPre := by omega
          by_cases h3 : i < w.tPre + w.rise + w.flat
          · have c3 : i < w.tPre + w.rise + w.flat + w.rise := by omega
            have c4 : i ≤ w.tPre + w.rise + w.flat := by omega
            simp only [h1, d1, d2, h2, h3, c3, c4, if_true, if_false]
            rw [hzero i hi]
            by_cases h3' : i ≤ w.tPre + w.rise
            · have : i = w.tPre + w.rise := by omega
              subst this
              rw [if_pos (le_refl _)]
              simp only [addOpt]
              push_cast
              congr 2
              field_simp
              ring
            · rw [if_neg h3']
              simp [addOpt]
          · have key : (if i ≤ w.tPre + w.rise then w.q * ((i : ℚ) - w.tPre) / w.rise else if i ≤ w.tPre + w.rise + w.flat then w.q
                else if i ≤ w.tPre + w.rise + w.flat + w.rise then w.q * ((w.tPre : ℚ) + w.rise + w.flat + w.rise - i) / w.rise else 0) =
                if i ≤ w.tPre + w.rise + w.flat + w.rise then w.q * ((w.tPre : ℚ) + w.rise + w.flat + w.rise - i) / w.rise else 0 := by
              by_cases c1 : i ≤ w.tPre + w.rise
              · have e1 : i = w.tPre + w.rise := by omega
                have e2 : w.flat = 0 := by omega
                rw [if_pos c1, if_pos (by omega), e1, e2]
                push_cast
                congr 1
                ring
              · rw [if_neg c1]
                by_cases c2 : i ≤ w.tPre + w.rise + w.flat
                · have e1 : i = w.tPre + w.rise + w.flat := by omega
                  rw [if_pos c2, if_pos (by omega), e1]
                  push_cast
                  field_simp
                  ring
                · rw [if_neg c2]
            rw [key]
            by_cases h4 : i < w.tPre + w.rise + w.flat + w.rise
            · have c4 : i ≤ w.tPre + w.rise + w.flat + w.rise := by omega
              simp only [h1, d1, d2, h2, h3, h4, c4, if_true, if_false]
              rw [hzero i hi]
              simp [addOpt]
            · have c5 : i < w.tPre + w.rise + w.flat + w.rise + (w.tTot - w.tPre - (2 * w.rise + w.flat)) := by omega
              by_cases h5 : i = w.tPre + w.rise + w.flat + w.rise
              · have c4 : i ≤ w.tPre + w.rise + w.flat + w.rise := by omega
                simp only [h1, d1, d2, h2, h3, h4, c4, c5, if_true, if_false]
                rw [hzero i hi, hwf _ _ _ (by omega), if_pos h5, h5]
                have e : w.tPre + w.rise + w.flat + w.rise - (w.tPre + w.rise + w.flat) = w.rise := by omega
                rw [e, Nat.sub_self]
                simp only [addOpt]
                push_cast
                congr 2
                ring
              · have c4 : ¬ i ≤ w.tPre + w.rise + w.flat + w.rise := by omega
                simp only [h1, d1, d2, h2, h3, h4, h5, c4, c5, hi, if_true, if_false]
                rw [hzero i hi, hwf _ _ _ (by omega)]
                simp [addOpt]
  · cases h

end

/-- **C117**: with no rise time there is a NaN at the end of the signal. -/
theorem square_without_rise (w : Par) (draw : Nat → Nat → ℚ) (hr : w.rise = 0) {wf : List (Option ℚ)} (h : squareWaveform w draw = .ok wf) : wf[w.tPre + w.flat]? = some none := by
  unfold squareWaveform at h
  split at h
  · rename_i ht
    injection h with h
    have hz : (zeros w.tTot).length = w.tTot := by simp [zeros]
    have n0 : (wfNoise w (draw 0) w.tPre).length = w.tPre := by simp [wfNoise]
    have n4 : (wfNoise w (draw 4) (w.tTot - w.tPre - (2 * w.rise + w.flat))).length = w.tTot - w.tPre - (2 * w.rise + w.flat) := by simp [wfNoise]
    have l0 : 0 + (wfNoise w (draw 0) w.tPre).length ≤ (zeros w.tTot).length := by rw [n0, hz]; omega
    have l4 : w.tPre + w.rise + w.flat + w.rise + (wfNoise w (draw 4) (w.tTot - w.tPre - (2 * w.rise + w.flat))).length ≤ (zeros w.tTot).length := by rw [n4, hz]; omega
    have l1 : w.tPre + (slope w (draw 1) w.tPre (w.tPre + w.rise) 0 w.q).length ≤ (zeros w.tTot).length := by rw [slope_length, hz]; omega
    have e1 := setRange_length l1
    have hf : (flatTop w (draw 2) w.flat).length = w.flat := by simp [flatTop]
    have l2 : w.tPre + w.rise + (flatTop w (draw 2) w.flat).length ≤ (setRange (zeros w.tTot) w.tPre (slope w (draw 1) w.tPre (w.tPre + w.rise) 0 w.q)).length := by rw [e1, hf, hz]; omega
    have e2 := setRange_length l2
    have hs : (signal w draw)[w.tPre + w.flat]? = some none := by
      unfold signal
      rw [setRange_get (by rw [e2, e1, hz, slope_length]; omega), slope_length, if_neg (by omega), if_pos (by omega)]
      unfold slope
      rw [List.getElem?_map, List.getElem?_range (by omega), hr]
      simp [line]
    obtain ⟨a, ha⟩ : ∃ a, (setRange (zeros w.tTot) 0 (wfNoise w (draw 0) w.tPre))[w.tPre + w.flat]? = some a :=
      ⟨_, List.getElem?_eq_getElem (by rw [setRange_length l0, hz]; omega)⟩
    obtain ⟨b, hb⟩ : ∃ b, (setRange (zeros w.tTot) (w.tPre + w.rise + w.flat + w.rise) (wfNoise w (draw 4) (w.tTot - w.tPre - (2 * w.rise + w.flat))))[w.tPre + w.flat]? = some b :=
      ⟨_, List.getElem?_eq_getElem (by rw [setRange_length l4, hz]; omega)⟩
    rw [← h, List.getElem?_zipWith, List.getElem?_zipWith, hs, ha, hb]
    cases a <;> rfl
  · cases h

/-- A waveform for the examples. -/
def trap : Par := ⟨true, 12, 2, 2, 3, 0, 10⟩

example : (squareWaveform trap (fun _ _ => 1)).toOption = some ([0, 0, 0, 5, 10, 10, 10, 10, 5, 0, 0, 0].map some) ∧
    (squareWaveform ⟨true, 9, 2, 2, 3, 0, 10⟩ (fun _ _ => 1)).toOption = none ∧
    (squareWaveform ⟨true, 6, 1, 0, 2, 0, 10⟩ (fun _ _ => 1)).toOption = some [some 0, some 10, some 10, none, some 0, some 0] := by decide +kernel

/-! ### Sawteeth -/

theorem linspace_length (a b : ℚ) (n : Nat) : (Fee.linspace a b n).length = n := by
  unfold Fee.linspace
  split
  · rename_i h; rw [h]; rfl
  · simp

theorem linspace_get (a b : ℚ) (n i : Nat) (hi : i < n) : (Fee.linspace a b n)[i]? = some (if n = 1 then a else a + i * ((b - a) / ((n : ℚ) - 1))) := by
  unfold Fee.linspace
  split
  · rename_i h
    have : i = 0 := by omega
    subst this
    rfl
  · rw [List.getElem?_map, List.getElem?_range hi]
    rfl

theorem tooth_length (w : Par) : (tooth w).length = 2 * w.rise + w.flat := by
  unfold tooth
  rw [List.length_append, List.length_append, linspace_length, linspace_length, linspace_length]
  omega

theorem tooth_get (w : Par) (j : Nat) (hj : j < 2 * w.rise + w.flat) : (tooth w)[j]? = some (toothAt w.rise w.flat w.q j) := by
  unfold tooth toothAt
  rw [List.append_assoc]
  by_cases h1 : j < w.rise
  · rw [if_pos h1, List.getElem?_append_left (by rw [linspace_length]; exact h1), linspace_get _ _ _ _ h1]
    split
    · rfl
    · congr 1
      ring
  · rw [if_neg h1, List.getElem?_append_right (by rw [linspace_length]; omega), linspace_length]
    by_cases h2 : j < w.rise + w.flat
    · rw [if_pos h2, List.getElem?_append_left (by rw [linspace_length]; omega), linspace_get _ _ _ _ (by omega)]
      split
      · rfl
      · rw [sub_self, zero_div, mul_zero, add_zero]
    · rw [if_neg h2, List.getElem?_append_right (by rw [linspace_length]; omega), linspace_length, linspace_get _ _ _ _ (by omega)]
      split
      · rfl
      · rename_i hr
        congr 1
        have h0 : (w.rise : ℚ) - 1 ≠ 0 := by
          rw [sub_ne_zero]
          exact_mod_cast hr
        rw [Nat.cast_sub (by omega), Nat.cast_sub (by omega)]
        field_simp
        ring

theorem append_at {α : Type} (a b : List α) (k i : Nat) (h : a.length = k) : (a ++ b)[k + i]? = b[i]? := by
  rw [List.getElem?_append_right (by omega), h, Nat.add_sub_cancel_left]

/-- **C117**: the sawteeth waveform has three equal teeth, one after the other, after `t_pre` zeros; all the rest are zeros.  It is refused when the total time is less than `t_pre + 3 (t_rise + 2 t_flat)`, and it
has `3 (t_rise - t_flat)` samples more than the total time. -/
theorem sawteeth_spec (w : Par) : (w.tTot < w.tPre + 3 * (w.rise + 2 * w.flat) → sawteethWaveform w = .error .valueError) ∧
    (w.tPre + 3 * (w.rise + 2 * w.flat) ≤ w.tTot → ∃ wf, sawteethWaveform w = .ok wf ∧ wf.length + 3 * w.flat = w.tTot + 3 * w.rise ∧
      (∀ i, i < w.tPre → wf[i]? = some (some 0)) ∧
      (∀ k j, k < 3 → j < 2 * w.rise + w.flat → wf[w.tPre + k * (2 * w.rise + w.flat) + j]? = some (some (toothAt w.rise w.flat w.q j))) ∧
      ∀ i, w.tPre + 3 * (2 * w.rise + w.flat) ≤ i → i < wf.length → wf[i]? = some (some 0)) := by
  refine ⟨fun h => ?_, fun h => ?_⟩
  · unfold sawteethWaveform
    rw [if_pos (by omega)]
  · unfold sawteethWaveform
    rw [if_neg (by omega)]
    have ht := tooth_length w
    have tg : ∀ j, j < 2 * w.rise + w.flat → ∀ rest : List ℚ, (tooth w ++ rest)[j]? = some (toothAt w.rise w.flat w.q j) := fun j hj rest => by
      rw [List.getElem?_append_left (by omega), tooth_get w j hj]
    refine ⟨_, rfl, ?_, fun i hi => ?_, fun k j hk hj => ?_, fun i h1 h2 => ?_⟩
    · rw [List.length_map]
      simp only [List.length_append, List.length_replicate, ht]
      omega
    · rw [List.getElem?_map, List.append_assoc, List.append_assoc, List.append_assoc, List.getElem?_append_left (by simp [hi]), List.getElem?_replicate_of_lt hi]
      rfl
    · rw [List.getElem?_map, List.append_assoc, List.append_assoc, List.append_assoc, Nat.add_assoc, append_at _ _ _ _ List.length_replicate]
      obtain rfl | rfl | rfl : k = 0 ∨ k = 1 ∨ k = 2 := by omega
      · rw [Nat.zero_mul, Nat.zero_add, tg j hj]
        rfl
      · rw [Nat.one_mul, append_at _ _ _ _ ht, tg j hj]
        rfl
      · have e2 : 2 * (2 * w.rise + w.flat) + j = (2 * w.rise + w.flat) + ((2 * w.rise + w.flat) + j) := by omega
        rw [e2, append_at _ _ _ _ ht, append_at _ _ _ _ ht, tg j hj]
        rfl
    · rw [List.length_map] at h2
      obtain ⟨d, rfl⟩ : ∃ d, i = w.tPre + ((2 * w.rise + w.flat) + ((2 * w.rise + w.flat) + ((2 * w.rise + w.flat) + d))) := ⟨i - (w.tPre + 3 * (2 * w.rise + w.flat)), by omega⟩
      simp only [List.length_append, List.length_replicate, ht] at h2
      rw [List.getElem?_map, List.append_assoc, List.append_assoc, List.append_assoc, append_at _ _ _ _ List.length_replicate, append_at _ _ _ _ ht, append_at _ _ _ _ ht,
        append_at _ _ _ _ ht, List.getElem?_replicate_of_lt (by omega)]
      rfl

/-- **C117**: so it has as many samples as the total time only when the rise and the flat part last the same. -/
theorem sawteeth_length (w : Par) {wf : List (Option ℚ)} (h : sawteethWaveform w = .ok wf) : wf.length = w.tTot ↔ w.rise = w.flat := by
  by_cases hc : w.tPre + 3 * (w.rise + 2 * w.flat) ≤ w.tTot
  · obtain ⟨wf', h1, h2, -⟩ := (sawteeth_spec w).2 hc
    rw [h] at h1
    injection h1 with h1
    subst h1
    omega
  · rw [(sawteeth_spec w).1 (by omega)] at h
    cases h

example : (sawteethWaveform ⟨false, 18, 1, 3, 1, 0, 4⟩).toOption = some ([0, 0, 2, 4, 4, 4, 2, 0, 0, 2, 4, 4, 4, 2, 0, 0, 2, 4, 4, 4, 2, 0, 0, 0].map some) ∧
    (sawteethWaveform ⟨false, 15, 1, 3, 1, 0, 4⟩).toOption = none := by decide +kernel

/-! ### The generator -/

theorem toRow_ok {n : Nat} {ped : Int} {wf row : List Int} (h : toRow n ped wf = .ok row) :
    row.length = n ∧ ((wf.length = n ∧ row = wf.map fun v => v + ped) ∨ ∃ v, wf = [v] ∧ row = List.replicate n (v + ped)) := by
  unfold toRow at h
  split at h
  · rename_i hl
    injection h with h
    subst h
    exact ⟨by simpa using hl, .inl ⟨hl, rfl⟩⟩
  · split at h
    · rename_i _ hl
      injection h with h
      subst h
      obtain ⟨v, rfl⟩ := List.length_eq_one_iff.1 hl
      exact ⟨by simp, .inr ⟨v, rfl, rfl⟩⟩
    · cases h

/-- What is asked of a row: the response to a waveform of some parameters, with the pedestal. -/
def IsRow (n : Nat) (ped : Int) (wf row : List Int) : Prop :=
  row.length = n ∧ ((wf.length = n ∧ row = wf.map fun v => v + ped) ∨ ∃ v, wf = [v] ∧ row = List.replicate n (v + ped))

theorem sensorLoop_spec (resp : List (Option ℚ) → List Int × List Int) (n : Nat) (ped : Int) (random : Bool) : ∀ (draws : List (Nat × (Nat → Nat → ℚ))) (w : Par) (rows : List (List Int × List Int)),
    sensorLoop resp n ped random draws w = .ok rows → List.Forall₂ (fun d row => ∃ pre wf, (random = false → pre = w.tPre) ∧ (random = true → pre < w.tTot / 3 ∧ pre = d.1 % (w.tTot / 3)) ∧
      waveform ⟨w.square, w.tTot, pre, w.rise, w.flat, w.noise, w.q⟩ d.2 = .ok wf ∧ IsRow n ped (resp wf).1 row.1 ∧ IsRow n ped (resp wf).2 row.2) draws rows := by
  intro draws
  induction draws with
  | nil =>
    intro w rows h
    injection h with h
    subst h
    exact .nil
  | cons d draws ih =>
    intro w rows h
    obtain ⟨u, draw⟩ := d
    unfold sensorLoop at h
    cases hr : sensorRows resp n ped random u draw w with
    | error e => rw [hr] at h; cases h
    | ok r =>
      rw [hr] at h
      dsimp only at h
      cases hl : sensorLoop resp n ped random draws r.1 with
      | error e => rw [hl] at h; cases h
      | ok rest =>
        rw [hl] at h
        injection h with h
        subst h
        unfold sensorRows at hr
        cases hs : randomStart random u w with
        | error e => rw [hs] at hr; cases hr
        | ok w' =>
          rw [hs] at hr
          dsimp only at hr
          cases hw : waveform w' draw with
          | error e => rw [hw] at hr; cases hr
          | ok wf =>
            rw [hw] at hr
            dsimp only at hr
            cases hfee : toRow n ped (resp wf).2 with
            | error e => rw [hfee] at hr; cases hr
            | ok fee =>
              rw [hfee] at hr
              cases hblr : toRow n ped (resp wf).1 with
              | error e => rw [hblr] at hr; cases hr
              | ok blr =>
                rw [hblr] at hr
                injection hr with hr
                subst hr
                have hw' : w' = ⟨w.square, w.tTot, w'.tPre, w.rise, w.flat, w.noise, w.q⟩ ∧ (random = false → w'.tPre = w.tPre) ∧
                    (random = true → w'.tPre < w.tTot / 3 ∧ w'.tPre = u % (w.tTot / 3)) := by
                  unfold randomStart at hs
                  cases random with
                  | false =>
                    injection hs with hs
                    subst hs
                    exact ⟨rfl, fun _ => rfl, fun h => by cases h⟩
                  | true =>
                    rw [if_pos rfl] at hs
                    split at hs
                    · cases hs
                    · rename_i h0
                      injection hs with hs
                      subst hs
                      exact ⟨rfl, (fun h => by cases h), fun _ => ⟨Nat.mod_lt _ (by omega), rfl⟩⟩
                obtain ⟨e, hf, ht⟩ := hw'
                refine .cons ⟨w'.tPre, wf, hf, ht, by rw [← e]; exact hw, toRow_ok hblr, toRow_ok hfee⟩ ?_
                refine (ih w' rest hl).imp fun d' row' h' => ?_
                obtain ⟨pre, wf', a1, a2, a3, a4, a5⟩ := h'
                rw [e] at a2 a3
                dsimp only at a2 a3
                refine ⟨pre, wf', fun hr' => (a1 hr').trans (hf hr'), a2, a3, a4, a5⟩

/-- **C117**: the generator gives for each sensor the response of the electronics to a waveform of the given parameters plus the pedestal, in rows of one sample every 25 ns.  With a random start each sensor has its own,
before a third of the total time. -/
theorem generate_spec (resp : List (Option ℚ) → List Int × List Int) (ped : Int) (random : Bool) (draws : List (Nat × (Nat → Nat → ℚ))) (w : Par) (rows : List (List Int × List Int))
    (h : generate resp ped random draws w = .ok rows) : List.Forall₂ (fun d row => ∃ pre wf, (random = false → pre = w.tPre) ∧ (random = true → pre < w.tTot / 3 ∧ pre = d.1 % (w.tTot / 3)) ∧
      (w.square = true → squareWaveform ⟨w.square, w.tTot, pre, w.rise, w.flat, w.noise, w.q⟩ d.2 = .ok wf) ∧ (w.square = false → sawteethWaveform ⟨w.square, w.tTot, pre, w.rise, w.flat, w.noise, w.q⟩ = .ok wf) ∧
      IsRow (w.tTot / 25) ped (resp wf).1 row.1 ∧ IsRow (w.tTot / 25) ped (resp wf).2 row.2) draws rows := by
  refine (sensorLoop_spec resp _ ped random draws w rows h).imp fun d row h' => ?_
  obtain ⟨pre, wf, a1, a2, a3, a4, a5⟩ := h'
  refine ⟨pre, wf, a1, a2, fun hq => ?_, fun hq => ?_, a4, a5⟩
  · unfold waveform at a3
    dsimp only at a3
    rwa [if_pos hq] at a3
  · unfold waveform at a3
    dsimp only at a3
    rw [hq] at a3 ⊢
    exact a3

theorem sensorRows_square {resp : List (Option ℚ) → List Int × List Int} {n : Nat} (hresp : ∀ wf : List (Option ℚ), (resp wf).1.length = (wf.length + 24) / 25 ∧ (resp wf).2.length = (wf.length + 24) / 25)
    (ped : Int) (random : Bool) (u : Nat) (draw : Nat → Nat → ℚ) {w : Par} (hsq : w.square = true) (hn : w.tTot = 25 * n) (hr : 0 < w.rise) (h3 : random = true → 0 < w.tTot / 3)
    (hfit : w.tPre + 2 * w.rise + w.flat < w.tTot) (hfit' : random = true → w.tTot / 3 + 2 * w.rise + w.flat ≤ w.tTot) :
    ∃ r, sensorRows resp n ped random u draw w = .ok r ∧ r.1.square = true ∧ r.1.tTot = w.tTot ∧ r.1.rise = w.rise ∧ r.1.flat = w.flat ∧ r.1.tPre + 2 * w.rise + w.flat < w.tTot := by
  obtain ⟨w', hw', e1, e2, e3, e4, e5⟩ : ∃ w', randomStart random u w = .ok w' ∧ w'.square = true ∧ w'.tTot = w.tTot ∧ w'.rise = w.rise ∧ w'.flat = w.flat ∧ w'.tPre + 2 * w.rise + w.flat < w.tTot := by
    unfold randomStart
    cases random with
    | false => exact ⟨w, rfl, hsq, rfl, rfl, rfl, hfit⟩
    | true =>
      have h0 := h3 rfl
      rw [if_pos rfl, if_neg (by omega)]
      refine ⟨_, rfl, hsq, rfl, rfl, rfl, ?_⟩
      have := Nat.mod_lt u h0
      have := hfit' rfl
      dsimp only
      omega
  obtain ⟨wf, hwf⟩ := (square_fits w' draw).2 (by rw [e2, e3, e4]; omega)
  have hl : wf.length = w.tTot := by rw [(square_trapezoid w' draw (by rw [e3]; exact hr) hwf).1, e2]
  have hw2 : waveform w' draw = .ok wf := by unfold waveform; rw [if_pos e1, hwf]
  have l1 : (resp wf).1.length = n := by rw [(hresp wf).1, hl, hn]; omega
  have l2 : (resp wf).2.length = n := by rw [(hresp wf).2, hl, hn]; omega
  unfold sensorRows toRow
  rw [hw']
  dsimp only
  rw [hw2]
  dsimp only
  rw [if_pos l1, if_pos l2]
  exact ⟨_, rfl, e1, e2, e3, e4, e5⟩

/-- **C117**: when the electronics gives a sample every 25 ns, a square signal that fits after any start makes waveforms for any number of sensors, if the total time is a multiple of 25. -/
theorem generate_square_works {resp : List (Option ℚ) → List Int × List Int} (hresp : ∀ wf : List (Option ℚ), (resp wf).1.length = (wf.length + 24) / 25 ∧ (resp wf).2.length = (wf.length + 24) / 25)
    (ped : Int) (random : Bool) (draws : List (Nat × (Nat → Nat → ℚ))) (w : Par) (hsq : w.square = true) (hn : w.tTot % 25 = 0) (hr : 0 < w.rise)
    (hfit : w.tPre + 2 * w.rise + w.flat < w.tTot) (hfit' : random = true → w.tTot / 3 + 2 * w.rise + w.flat ≤ w.tTot) :
    ∃ rows, generate resp ped random draws w = .ok rows ∧ rows.length = draws.length := by
  unfold generate
  obtain ⟨n, hn⟩ : ∃ n, w.tTot = 25 * n := ⟨w.tTot / 25, by omega⟩
  have hd : w.tTot / 25 = n := by omega
  rw [hd]
  clear hd
  induction draws generalizing w with
  | nil => exact ⟨[], rfl, rfl⟩
  | cons d draws ih =>
    obtain ⟨u, draw⟩ := d
    obtain ⟨r, hr1, e1, e2, e3, e4, e5⟩ := sensorRows_square hresp ped random u draw hsq hn hr (fun _ => by omega) hfit hfit'
    obtain ⟨rest, hrest, hlen⟩ := ih r.1 e1 (by omega) (by omega) (by omega) (by rw [e2, e3, e4]; exact hfit') (by omega)
    refine ⟨r.2 :: rest, ?_, by simp [hlen]⟩
    unfold sensorLoop
    rw [hr1]
    dsimp only
    rw [hrest]

/-- **C117** (finding): with sawteeth whose rise and flat part differ in 9 ns or more the generator never works, if the electronics gives a sample every 25 ns and the total time is a multiple of 25, for some sensor. -/
theorem generate_sawteeth_fails {resp : List (Option ℚ) → List Int × List Int} (hresp : ∀ wf : List (Option ℚ), (resp wf).1.length = (wf.length + 24) / 25 ∧ (resp wf).2.length = (wf.length + 24) / 25)
    (ped : Int) (random : Bool) (d : Nat × (Nat → Nat → ℚ)) (draws : List (Nat × (Nat → Nat → ℚ))) (w : Par) (hsq : w.square = false) (hn : w.tTot % 25 = 0) (hlong : 26 ≤ w.tTot)
    (hd : w.flat + 9 ≤ w.rise ∨ (w.rise + 9 ≤ w.flat)) : ∃ e, generate resp ped random (d :: draws) w = .error e := by
  cases h : generate resp ped random (d :: draws) w with
  | error e => exact ⟨e, rfl⟩
  | ok rows =>
    exfalso
    have hf := generate_spec resp ped random (d :: draws) w rows h
    cases hf with
    | cons hrow _ =>
      obtain ⟨pre, wf, -, -, -, hs, h1, -⟩ := hrow
      have hs := hs hsq
      have hl : wf.length + 3 * w.flat = w.tTot + 3 * w.rise := by
        by_cases hc : pre + 3 * (w.rise + 2 * w.flat) ≤ w.tTot
        · obtain ⟨wf', g1, g2, -⟩ := (sawteeth_spec ⟨w.square, w.tTot, pre, w.rise, w.flat, w.noise, w.q⟩).2 hc
          rw [hs] at g1
          injection g1 with g1
          rw [g1]
          exact g2
        · rw [(sawteeth_spec ⟨w.square, w.tTot, pre, w.rise, w.flat, w.noise, w.q⟩).1 (by dsimp only; omega)] at hs
          cases hs
      have hge : pre + 3 * (w.rise + 2 * w.flat) ≤ w.tTot := by
        by_contra hc
        rw [(sawteeth_spec ⟨w.square, w.tTot, pre, w.rise, w.flat, w.noise, w.q⟩).1 (by dsimp only; omega)] at hs
        cases hs
      have hr := (hresp wf).1
      rcases h1.2 with ⟨g, -⟩ | ⟨v, g, -⟩
      · omega
      · rw [g, List.length_singleton] at hr
        omega

/-- An electronics that keeps one sample of 25. -/
def everyOne (wf : List (Option ℚ)) : List Int × List Int :=
  ((List.range ((wf.length + 24) / 25)).map fun i => ((wf.getD (25 * i) none).getD 0).floor, (List.range ((wf.length + 24) / 25)).map fun _ => 7)

example : (∀ wf : List (Option ℚ), (everyOne wf).1.length = (wf.length + 24) / 25 ∧ (everyOne wf).2.length = (wf.length + 24) / 25) ∧
    (generate everyOne 100 true [(1, fun _ _ => 0), (40, fun _ _ => 0)] ⟨true, 100, 0, 10, 30, 0, 5⟩).toOption = some [([100, 105, 100, 100], [107, 107, 107, 107]), ([100, 105, 103, 100], [107, 107, 107, 107])] ∧
    (generate everyOne 100 false [(1, fun _ _ => 0)] ⟨false, 100, 0, 12, 3, 0, 5⟩).toOption = none := by
  refine ⟨fun wf => by simp [everyOne], by decide +kernel, by decide +kernel⟩

/-! ### The simple deconvolution -/

theorem accumulate_get : ∀ (xs : List ℚ) (a : ℚ) (n : Nat), n < xs.length → (accumulate a xs)[n]? = some (a + (xs.take (n + 1)).sum) := by
  intro xs
  induction xs with
  | nil => intro a n h; cases h
  | cons x xs ih =>
    intro a n h
    unfold accumulate
    cases n with
    | zero => simp
    | succ n =>
      rw [List.getElem?_cons_succ, ih (a + x) n (by simpa using h), List.take_succ_cons, List.sum_cons]
      congr 1
      ring

theorem accumulate_length : ∀ (xs : List ℚ) (a : ℚ), (accumulate a xs).length = xs.length := by
  intro xs
  induction xs with
  | nil => intro a; rfl
  | cons x xs ih => intro a; unfold accumulate; simp [ih]

/-- **C117**: the simple deconvolution adds to each sample (without the mean `m` of the waveform) the sum of the samples up to it, by the coefficient; but the first sample enters that sum multiplied by the coefficient once more. -/
theorem deconv_simple_spec (wfm : List ℚ) (hne : wfm ≠ []) (coef : ℚ) : ∃ (m : ℚ) (res : List ℚ), m * wfm.length = wfm.sum ∧ deconvSimple wfm coef = .ok res ∧ res.length = wfm.length ∧
    ∀ (n : Nat) (v : ℚ), wfm[n]? = some v → res[n]? = some ((v - m) + coef * (coef * (wfm.head hne - m) + ((wfm.tail.take n).map fun u => u - m).sum)) := by
  obtain ⟨x, xs, rfl⟩ := List.exists_cons_of_ne_nil hne
  have hl : ((x :: xs).length : ℚ) ≠ 0 := by exact_mod_cast (by simp : (x :: xs).length ≠ 0)
  generalize hm : (x :: xs).sum / (x :: xs).length = m
  refine ⟨m, List.zipWith (fun s a => s + coef * a) ((x :: xs).map fun v => v - m) ((coef * (x - m)) :: accumulate (coef * (x - m)) (xs.map fun v => v - m)), ?_, ?_, ?_, ?_⟩
  · rw [← hm]; exact div_mul_cancel₀ _ hl
  · unfold deconvSimple
    rw [hm]
    rfl
  · simp [accumulate_length]
  · intro n v hv
    rw [List.getElem?_zipWith, List.getElem?_map, hv]
    cases n with
    | zero => simp
    | succ n =>
      have hn : n < xs.length := by
        rw [List.getElem?_cons_succ] at hv
        exact (List.getElem?_eq_some_iff.1 hv).1
      rw [List.getElem?_cons_succ, accumulate_get _ _ _ (by simpa using hn)]
      simp [List.map_take]

/-- **C117**: it does not depend on the pedestal. -/
theorem deconv_simple_pedestal (wfm : List ℚ) (p coef : ℚ) : deconvSimple (wfm.map fun v => v + p) coef = deconvSimple wfm coef := by
  have hs : ∀ l : List ℚ, (l.map fun v => v + p).sum = l.sum + l.length * p := by
    intro l
    induction l with
    | nil => simp
    | cons a l ih => rw [List.map_cons, List.sum_cons, ih, List.sum_cons, List.length_cons]; push_cast; ring
  have : (wfm.map fun v => v + p).map (fun v => v - (wfm.map fun v => v + p).sum / (wfm.map fun v => v + p).length) = wfm.map fun v => v - wfm.sum / wfm.length := by
    cases wfm with
    | nil => rfl
    | cons a l =>
      have hl : ((a :: l).length : ℚ) ≠ 0 := by exact_mod_cast (by simp : (a :: l).length ≠ 0)
      rw [List.map_map, hs, List.length_map]
      refine List.map_congr_left fun v _ => ?_
      rw [Function.comp_apply, add_div, mul_div_cancel_left₀ _ hl]
      ring
  unfold deconvSimple
  rw [this]

example : (deconvSimple [1, 2, 3] (1 / 2)).toOption = some [-5 / 4, -1 / 4, 5 / 4] ∧ (deconvSimple [] 1).toOption = none := by decide +kernel

end Verif.ToyWaveform
