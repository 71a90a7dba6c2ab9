import Verif.Lemmas.Peaks
/-!
# C13: rebinning times and waveforms
-/
namespace Verif.Peaks
open Verif.Core

/-- **C13** Whenever the slices (given, or the default even ones) tile the samples, rebinning succeeds,
gives one bin per slice, with width and charges the sums over the slice, and conserves the total
charge of each sensor and the total width. -/
theorem rebin_conserves (times widths : List ℚ) (wfs : Mat) (stride : Nat) (slices : List (Nat × Nat))
    (hs : 2 ≤ stride) (ht : times.length = wfs.ncols) (hwf : wfs.WF) (hw : widths.length = times.length)
    (htile : Tiles times.length slices) :
    ∃ ts ws m, rebinTimesAndWaveforms times widths wfs stride (some slices) = .ok (ts, ws, m) ∧
      ts.length = slices.length ∧ ws.length = slices.length ∧ m.ncols = slices.length ∧ m.WF ∧
      m.rows.length = wfs.rows.length ∧
      (∀ (k s e : Nat), slices[k]? = some (s, e) →
        ws[k]? = some (chargeIn widths s e) ∧
        ∀ (n : Nat) (r r' : List ℚ), wfs.rows[n]? = some r → m.rows[n]? = some r' → r'[k]? = some (chargeIn r s e)) ∧
      m.rows.map List.sum = wfs.rows.map List.sum ∧ ws.sum = widths.sum := by
  obtain ⟨ts, h1, h2⟩ := rebin_ok times widths wfs stride (some slices) hs ht (tiles_mem htile)
  refine ⟨ts, _, _, h1, ?_, by simp, rfl, ?_, by simp, ?_, ?_, ?_⟩
  · simpa using h2.length_eq.symm
  · intro r hr
    simp only [List.mem_map] at hr
    obtain ⟨q, _, rfl⟩ := hr
    simp
  · intro k s e hk
    refine ⟨by simp [hk, chargeIn_eq], ?_⟩
    intro n r r' hr hr'
    simp only [List.getElem?_map, hr, Option.map_some, Option.some.injEq] at hr'
    subst hr'
    simp [hk, chargeIn_eq]
  · simp only [List.map_map, Option.getD_some]
    apply List.map_congr_left
    intro r hr
    simp only [Function.comp]
    rw [tiles_sum r 0 slices (by rw [hwf r hr, ← ht]; exact htile)]
    simp
  · simp only [Option.getD_some]
    rw [tiles_sum widths 0 slices (by rw [hw]; exact htile)]
    simp

/-- **C13** Without explicit slices the bins are the even ones, which always tile the samples. -/
theorem rebin_default (times widths : List ℚ) (wfs : Mat) (stride : Nat) (hs : 2 ≤ stride) :
    rebinTimesAndWaveforms times widths wfs stride none =
      rebinTimesAndWaveforms times widths wfs stride (some (getEvenSlices times.length stride)) ∧
    Tiles times.length (getEvenSlices times.length stride) ∧
    ∀ (k : Nat), k < (getEvenSlices times.length stride).length →
      (getEvenSlices times.length stride)[k]? = some (stride * k, stride * (k + 1)) := by
  refine ⟨by simp [rebinTimesAndWaveforms], evenSlices_tiles _ _ (by omega), ?_⟩
  intro k hk
  simp only [getEvenSlices, List.length_map, List.length_range] at hk
  simp [getEvenSlices, hk]

/-- **C13** `stride < 2` returns the input. -/
theorem rebin_identity (times widths : List ℚ) (wfs : Mat) (stride : Nat) (slices : Option (List (Nat × Nat)))
    (hs : stride < 2) : rebinTimesAndWaveforms times widths wfs stride slices = .ok (times, widths, wfs) := by
  simp [rebinTimesAndWaveforms, hs]

/-- **C13** The time of each bin is the mean of the times of the slice weighted by the positive part of
the summed charge (the plain mean when no sample is positive); hence it is between the smallest and the
largest of the times, even of those with positive charge when there are any. -/
theorem rebin_times (times widths : List ℚ) (wfs : Mat) (stride : Nat) (slices : List (Nat × Nat))
    (hs : 2 ≤ stride) (ht : times.length = wfs.ncols) (hwf : wfs.WF) (htile : Tiles times.length slices)
    (ts ws : List ℚ) (m : Mat)
    (hr : rebinTimesAndWaveforms times widths wfs stride (some slices) = .ok (ts, ws, m))
    (k s e : Nat) (hk : slices[k]? = some (s, e)) :
    ∃ v, ts[k]? = some v ∧
      (let q := (pySlice s e wfs.sumSensors).map (max 0)
       (q.sum ≠ 0 → v * q.sum = (List.zipWith (· * ·) (pySlice s e times) q).sum) ∧
       (q.sum = 0 → v * (pySlice s e times).length = (pySlice s e times).sum)) ∧
      (∀ lo hi, (∀ (j : Nat) (x : ℚ), s ≤ j → j < e → times[j]? = some x → lo ≤ x ∧ x ≤ hi) → lo ≤ v ∧ v ≤ hi) ∧
      ((∃ j : Nat, ∃ y : ℚ, s ≤ j ∧ j < e ∧ wfs.sumSensors[j]? = some y ∧ 0 < y) →
        ∀ lo hi, (∀ (j : Nat) (x y : ℚ), s ≤ j → j < e → times[j]? = some x → wfs.sumSensors[j]? = some y → 0 < y →
          lo ≤ x ∧ x ≤ hi) → lo ≤ v ∧ v ≤ hi) := by
  obtain ⟨ts', h1, h2⟩ := rebin_ok times widths wfs stride (some slices) hs ht (tiles_mem htile)
  rw [h1] at hr
  simp only [Except.ok.injEq, Prod.mk.injEq] at hr
  obtain ⟨rfl, _, _⟩ := hr
  simp only [Option.getD_some] at h2
  have hmem := tiles_mem htile (s, e) (List.mem_of_getElem? hk)
  have hlen := h2.length_eq
  have hk' : k < slices.length := (List.getElem?_eq_some_iff.1 hk).1
  obtain ⟨v, hv⟩ : ∃ v, ts'[k]? = some v := ⟨ts'[k]'(by omega), List.getElem?_eq_getElem (by omega)⟩
  have hav := forall₂_getElem? h2 k (s, e) v hk hv
  simp only at hav
  obtain ⟨v', e1, e2, e3, e4⟩ := averageTime_spec (pySlice s e times) (wfs.slice s e)
    (by rw [pySlice_length, ht]; rfl)
    (by intro hc; have := congrArg List.length hc; rw [pySlice_length] at this; simp at this hmem; omega)
  rw [hav] at e1
  simp only [Except.ok.injEq] at e1
  subst e1
  rw [Mat.sumSensors_slice _ hwf] at e2 e3
  refine ⟨v, hv, ⟨?_, ?_⟩, ?_, ?_⟩
  · intro hq
    have : ∃ x ∈ pySlice s e wfs.sumSensors, 0 < x := by
      by_contra hc
      apply hq
      apply List.sum_eq_zero
      intro x hx
      obtain ⟨y, hy, rfl⟩ := List.mem_map.1 hx
      refine max_eq_left (not_lt.1 fun hlt => hc ⟨y, hy, hlt⟩)
    exact (e2 this).1
  · intro hq
    apply e3
    intro hc
    have := (e2 hc).2.1
    exact absurd hq (ne_of_gt this)
  · intro lo hi hb
    apply e4
    intro x hx
    obtain ⟨j, h3, h4, h5⟩ := mem_pySlice.1 hx
    exact hb j x h3 h4 h5
  · rintro ⟨j, y, h3, h4, h5, h6⟩ lo hi hb
    refine (e2 ⟨y, mem_pySlice.2 ⟨j, h3, h4, h5⟩, h6⟩).2.2 lo hi ?_
    intro i x z hx hz hz0
    rw [pySlice_getElem?] at hx hz
    split at hx
    · rename_i hlt
      rw [if_pos hlt] at hz
      exact hb (s + i) x z (by omega) hlt hx hz hz0
    · cases hx

example : rebinTimesAndWaveforms [0, 1, 2, 3, 4] [1, 1, 1, 1, 1] ⟨[[1, 3, -1, -2, 5], [0, 1, 0, 0, 2]], 5⟩ 2 none =
    .ok ([4 / 5, 5 / 2, 4], [2, 2, 1], ⟨[[4, -3, 5], [1, 0, 2]], 3⟩) := by decide +kernel
example : Tiles 5 [(0, 2), (2, 4), (4, 6)] := by simp [Tiles, TilesFrom]
example : Mat.WF ⟨[[1, 3, -1, -2, 5], [0, 1, 0, 0, 2]], 5⟩ := by simp [Mat.WF]

end Verif.Peaks
