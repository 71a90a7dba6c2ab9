import Verif.Props.Seeds
import Verif.Lemmas.Lists
/-!
# C99 The peak of one photoelectron
-/
namespace Verif.Seeds
open Verif Verif.Spec.Seeds

theorem getElem?_of_npTake {α : Type} {xs : List α} {is : List Nat} {ys : List α} (h : npTake xs is = .ok ys) :
    List.Forall₂ (fun i y => xs[i]? = some y) is ys := by
  unfold npTake at h
  rw [mapM_ok_iff] at h
  refine h.imp ?_
  intro i y hi
  split at hi <;> simp_all

theorem forall₂_ex {α β : Type} {R : α → β → Prop} {xs : List α} {ys : List β} (h : List.Forall₂ R xs ys) {i : Nat} {x : α} (hx : xs[i]? = some x) :
    ∃ y, ys[i]? = some y ∧ R x y := by
  have hl := h.length_eq
  have hi : i < ys.length := by
    rw [← hl]
    exact (List.getElem?_eq_some_iff.mp hx).1
  exact ⟨ys[i], List.getElem?_eq_getElem hi, forall₂_getElem? h i x _ hx (List.getElem?_eq_getElem hi)⟩

theorem peaksInRange_spec {v : SensorParams} {bins : List ℚ} {peaks samples : List Nat} (h : peaksInRange v bins peaks = .ok samples) (i : Nat) :
    i ∈ samples ↔ i ∈ peaks ∧ ∃ x, bins[i]? = some x ∧ v.minBinPeak < x ∧ x < v.maxBinPeak := by
  simp only [peaksInRange, map_ok] at h
  obtain ⟨xs, hx, rfl⟩ := h
  have hf := getElem?_of_npTake hx
  clear hx
  induction hf with
  | nil => simp
  | @cons p x ps xs' hpx hf ih =>
    simp only [List.zip_cons_cons, List.filterMap_cons]
    split
    · rename_i heq
      simp only [gt_iff_lt] at heq
      refine Iff.trans ih ?_
      constructor
      · rintro ⟨a, b⟩; exact ⟨List.mem_cons_of_mem _ a, b⟩
      · rintro ⟨a, y, hy, b⟩
        rcases List.mem_cons.mp a with rfl | a
        · rw [hpx] at hy
          cases hy
          simp [b] at heq
        · exact ⟨a, y, hy, b⟩
    · rename_i q heq
      simp only [gt_iff_lt] at heq
      split at heq
      · cases heq
        rw [List.mem_cons, List.mem_cons]
        refine Iff.trans (or_congr Iff.rfl ih) ?_
        constructor
        · rintro (rfl | ⟨a, b⟩)
          · exact ⟨Or.inl rfl, x, hpx, by assumption⟩
          · exact ⟨Or.inr a, b⟩
        · rintro ⟨a | a, b⟩
          · exact Or.inl a
          · exact Or.inr ⟨a, b⟩
      · simp at heq

/-- The bin where the fit of the peak starts: if some of the peaks that were found are strictly between the limits, one of these with the
highest value of the spectrum; otherwise the first bin exactly half way between the limits; if there is none, the last bin. -/
theorem centroid_spec {e : Ext} {v : SensorParams} {bins : List ℚ} {c : Nat} (h : centroid e v bins = .ok c) :
    let inRange (i : Nat) := i ∈ e.findPeaks v.spectra v.peakRange ∧ ∃ x, bins[i]? = some x ∧ v.minBinPeak < x ∧ x < v.maxBinPeak
    (inRange c ∧ ∀ i y z, inRange i → v.spectra[i]? = some y → v.spectra[c]? = some z → y ≤ z) ∨
    ((∀ i, ¬ inRange i) ∧ bins[c]? = some ((v.minBinPeak + v.maxBinPeak) / 2) ∧ ∀ i < c, bins[i]? ≠ some ((v.minBinPeak + v.maxBinPeak) / 2)) ∨
    ((∀ i, ¬ inRange i) ∧ (v.minBinPeak + v.maxBinPeak) / 2 ∉ bins ∧ c = bins.length - 1) := by
  intro inRange
  simp only [centroid, bind_ok] at h
  obtain ⟨samples, hs, h⟩ := h
  have hmem : ∀ i, i ∈ samples ↔ inRange i := peaksInRange_spec hs
  by_cases he : samples = []
  · right
    have hno : ∀ i, ¬ inRange i := by
      intro i hi
      have := (hmem i).mpr hi
      simp [he] at this
    rw [if_pos he] at h
    set w := whereIdx (fun x => decide (x = (v.minBinPeak + v.maxBinPeak) / 2)) bins with hw
    cases hh : w.head? with
    | none =>
      simp only [hh, Except.ok.injEq] at h
      right
      refine ⟨hno, ?_, h.symm⟩
      intro hm
      obtain ⟨i, hi, hi'⟩ := List.getElem_of_mem hm
      have : i ∈ w := by
        rw [hw, whereIdx_mem]
        exact ⟨_, by rw [List.getElem?_eq_getElem hi, hi'], by simp⟩
      rw [List.head?_eq_none_iff] at hh
      rw [hh] at this
      simp at this
    | some i =>
      simp only [hh, Except.ok.injEq] at h
      subst h
      left
      have hi : i ∈ w := List.mem_of_mem_head? hh
      have hi' := hi
      rw [hw, whereIdx_mem] at hi'
      obtain ⟨x, hx, hxe⟩ := hi'
      have hxe' : x = (v.minBinPeak + v.maxBinPeak) / 2 := by simpa using hxe
      refine ⟨hno, by rw [hx, hxe'], ?_⟩
      · intro j hj hjx
        have hjw : j ∈ w := by
          rw [hw, whereIdx_mem]
          exact ⟨_, hjx, by simp⟩
        have hsorted := whereIdx_sorted (fun x => decide (x = (v.minBinPeak + v.maxBinPeak) / 2)) bins
        rw [← hw] at hsorted
        cases hwl : w with
        | nil => rw [hwl] at hjw; simp at hjw
        | cons a t =>
          rw [hwl] at hh hsorted hjw
          simp only [List.head?_cons, Option.some.injEq] at hh
          subst hh
          rcases List.mem_cons.mp hjw with rfl | hjt
          · exact absurd hj (lt_irrefl _)
          · exact absurd (List.rel_of_pairwise_cons hsorted hjt) (by omega)
  · left
    rw [if_neg he] at h
    simp only [bind_ok, item_ok] at h
    obtain ⟨ys, hy, j, hj, hc⟩ := h
    have hf := getElem?_of_npTake hy
    have hm := argmax_spec hj
    refine ⟨(hmem c).mp (List.mem_of_getElem? hc), ?_⟩
    intro i y z hi hyi hzc
    obtain ⟨k, hk, hk'⟩ := List.getElem_of_mem ((hmem i).mpr hi)
    obtain ⟨a, ha, ha'⟩ := forall₂_ex hf (i := k) (x := i) (by rw [List.getElem?_eq_getElem hk, hk'])
    obtain ⟨b, hb, hb'⟩ := forall₂_ex hf (i := j) (x := c) hc
    rw [hyi] at ha'
    rw [hzc] at hb'
    cases ha'
    cases hb'
    obtain ⟨m, hm1, hm2⟩ := hm
    rw [hb] at hm1
    cases hm1
    exact hm2.1 _ (List.mem_of_getElem? ha)

/-- Four bins, the peaks found are the first three, the limits leave the second and the third. -/
example : centroid ⟨fun _ _ => 1, id, fun _ _ => [0, 1, 2], fun _ => .ok 2, fun _ => .ok ⟨0, 0, 0⟩, [], []⟩ ⟨[9, 4, 6, 8], [], 10, 22, 5, 3, 10000⟩ [8, 12, 16, 20] =
    .ok 2 := by decide +kernel

example : centroid sample ⟨[9, 4, 6, 8], [], 10, 22, 5, 3, 10000⟩ [8, 12, 16, 20] = .ok 2 ∧
    centroid sample ⟨[9, 4, 6, 8], [], 10, 22, 5, 3, 10000⟩ [8, 12, 17, 20] = .ok 3 := by decide +kernel

/-- The data of the fit of the peak: the bins at less than the half width before the bin found, that bin, and those after it up to the half width
(not included), with their contents, when there is room before it; the seeds are the content and the position of the bin found and
the deviation of that type of sensor. -/
theorem window {e : Ext} {v : SensorParams} {bins : List ℚ} {c : Nat} {d : FitData} (h : peakFitData e v bins c = .ok d) (hc : v.halfPeakWidth ≤ c) :
    (∀ k, d.x[k]? = if k < 2 * v.halfPeakWidth then bins[c - v.halfPeakWidth + k]? else none) ∧
    (∀ k, d.y[k]? = if k < 2 * v.halfPeakWidth then v.spectra[c - v.halfPeakWidth + k]? else none) ∧
    d.sigma = some (d.y.map e.root) ∧
    ∃ y x, v.spectra[c]? = some y ∧ bins[c]? = some x ∧ d.seed = [y, x, v.p1peSeed] := by
  simp only [peakFitData, bind_ok, map_ok, item_ok] at h
  obtain ⟨y, hy, x, hx, rfl⟩ := h
  have key : ∀ (xs : List ℚ) (k : Nat), (slice ((c : Int) - v.halfPeakWidth) ((c : Int) + v.halfPeakWidth) xs)[k]? =
      if k < 2 * v.halfPeakWidth then xs[c - v.halfPeakWidth + k]? else none := by
    intro xs k
    have h1 : pyBound xs.length ((c : Int) - v.halfPeakWidth) = c - v.halfPeakWidth := by
      unfold pyBound
      rw [if_neg (by omega)]; omega
    have h2 : pyBound xs.length ((c : Int) + v.halfPeakWidth) = c + v.halfPeakWidth := by
      unfold pyBound
      rw [if_neg (by omega)]; omega
    rw [slice, h1, h2, pySlice_getElem?]
    have : c - v.halfPeakWidth + k < c + v.halfPeakWidth ↔ k < 2 * v.halfPeakWidth := by omega
    simp only [this]
  exact ⟨fun k => key bins k, fun k => key v.spectra k, rfl, y, x, hy, hx, rfl⟩

example : peakFitData sample ⟨[9, 4, 6, 8, 1], [], 10, 22, 2, 3, 10000⟩ [8, 12, 16, 20, 24] 2 =
    .ok ⟨[8, 12, 16, 20], [9, 4, 6, 8], [6, 16, 3], some [9, 4, 6, 8]⟩ := by decide +kernel

/-- Without room before the bin found the window is empty (a negative bound counts from the end), if there are at least two half widths of bins: the fit has no data. -/
theorem window_lost {e : Ext} {v : SensorParams} {bins : List ℚ} {c : Nat} {d : FitData} (h : peakFitData e v bins c = .ok d) (hc : c < v.halfPeakWidth)
    (hn : 2 * v.halfPeakWidth ≤ bins.length) (hs : 2 * v.halfPeakWidth ≤ v.spectra.length) : d.x = [] ∧ d.y = [] := by
  simp only [peakFitData, bind_ok, map_ok, item_ok] at h
  obtain ⟨y, hy, x, hx, rfl⟩ := h
  have key : ∀ (xs : List ℚ), 2 * v.halfPeakWidth ≤ xs.length → slice ((c : Int) - v.halfPeakWidth) ((c : Int) + v.halfPeakWidth) xs = [] := by
    intro xs hl
    have h1 : pyBound xs.length ((c : Int) - v.halfPeakWidth) = xs.length + c - v.halfPeakWidth := by
      unfold pyBound
      rw [if_pos (by omega)]; omega
    have h2 : pyBound xs.length ((c : Int) + v.halfPeakWidth) = c + v.halfPeakWidth := by
      unfold pyBound
      rw [if_neg (by omega)]; omega
    rw [slice, h1, h2]
    apply List.eq_nil_of_length_eq_zero
    rw [pySlice_length]
    omega
  exact ⟨key bins hn, key v.spectra hs⟩

example : peakFitData sample ⟨[9, 4, 6, 8, 1], [], 10, 22, 2, 3, 10000⟩ [8, 12, 16, 20, 24] 1 = .ok ⟨[], [], [4, 12, 3], some []⟩ := by decide +kernel

/-- A bin without counts in the window makes the whole calculation fail, since the square root of the content is the error of the fit. -/
theorem empty_bin_raises {e : Ext} {v : SensorParams} {bins : List ℚ} {ped : Gauss} {c : Nat} {d : FitData} (hroot : e.root 0 = 0)
    (hc : centroid e v bins = .ok c) (h : peakFitData e v bins c = .ok d) (h0 : 0 ∈ d.y) : computeSeeds e v bins ped = .error .valueError := by
  have hs : d.sigma = some (d.y.map e.root) := by
    simp only [peakFitData, bind_ok, map_ok, item_ok] at h
    obtain ⟨y, hy, x, hx, rfl⟩ := h
    rfl
  have hany : (d.y.map e.root).any (fun e => decide (e ≤ 0)) = true := by
    rw [List.any_eq_true]
    exact ⟨e.root 0, List.mem_map_of_mem h0, by simp [hroot]⟩
  have : checkSigma e.fitGauss d = .error .valueError := by
    unfold checkSigma
    simp only [hs, hany, if_true]
  simp only [computeSeeds, hc, h, Except.bind, this, Except.map]

example : computeSeeds sample ⟨[9, 4, 0, 8, 1], [], 10, 22, 2, 3, 10000⟩ [8, 12, 16, 20, 24] ⟨1, 2, 3⟩ = .error .valueError ∧
    computeSeeds { sample with fitGauss := fun _ => .ok ⟨1, 20, 5⟩ } ⟨[9, 4, 1, 8, 1], [], 10, 22, 2, 3, 10000⟩ [8, 12, 16, 20, 24] ⟨1, 2, 3⟩ = .ok (18, 16) := by
  decide +kernel

/-- The seeds taken from the fit of the peak: the distance from the pedestal, and the deviation once that of the pedestal is taken away in
quadrature, or one half if the peak is not wider than the pedestal.  The deviation is positive. -/
theorem gain_seeds {e : Ext} {v : SensorParams} {bins : List ℚ} {ped : Gauss} {g : ℚ × ℚ} (h : computeSeeds e v bins ped = .ok g)
    (hr : ∀ x, 0 < x → 0 < e.root x) (hp : 0 ≤ ped.sigma) :
    ∃ c d fitted, centroid e v bins = .ok c ∧ peakFitData e v bins c = .ok d ∧ e.fitGauss d = .ok fitted ∧ (∀ x ∈ d.y, 0 < e.root x) ∧
      g.1 = fitted.mean - ped.mean ∧ 0 < g.2 ∧ (fitted.sigma ≤ ped.sigma → g.2 = 1 / 2) ∧
      (ped.sigma < fitted.sigma → g.2 = e.root (fitted.sigma ^ 2 - ped.sigma ^ 2)) := by
  simp only [computeSeeds, bind_ok, map_ok] at h
  obtain ⟨c, hc, d, hd, f, hf, rfl⟩ := h
  have hs : d.sigma = some (d.y.map e.root) := by
    simp only [peakFitData, bind_ok, map_ok, item_ok] at hd
    obtain ⟨y, hy, x, hx, rfl⟩ := hd
    rfl
  simp only [checkSigma, hs] at hf
  split at hf
  · simp at hf
  · rename_i hany
    refine ⟨c, d, f, hc, hd, hf, ?_, rfl, ?_, ?_, ?_⟩
    · intro x hx
      by_contra hneg
      apply hany
      rw [List.any_eq_true]
      exact ⟨_, List.mem_map_of_mem hx, by simpa using hneg⟩
    · unfold gainSeeds
      simp only
      split
      · norm_num
      · rename_i hlt
        apply hr
        nlinarith [not_le.mp hlt]
    · intro hle
      simp [gainSeeds, hle]
    · intro hlt
      simp [gainSeeds, not_le.mpr hlt]

/-- The data of the fit of `mu`: of a SiPM the bins from -5 to 5, both included; of a PMT those under zero; and, for SiPMs, errors that
are never zero. -/
theorem mu_data {e : Ext} {s : Sensor} {bins spectrum : List ℚ} {ped : Gauss} {d : FitData} (h : muFitData e s bins spectrum ped = .ok d) :
    bins.length = spectrum.length ∧ d.x.length = d.y.length ∧
    (∀ x y, (x, y) ∈ d.x.zip d.y ↔ (x, y) ∈ bins.zip spectrum ∧ ((s = .sipm ∧ -5 ≤ x ∧ x ≤ 5) ∨ (s = .pmt ∧ x < 0))) ∧
    ((∀ x, 0 < x → 0 < e.root x) → (∀ y ∈ spectrum, 0 ≤ y) → ∀ sg, d.sigma = some sg → ∀ u ∈ sg, 0 < u) := by
  have hso : s ≠ .other := by rintro rfl; simp [muFitData] at h
  have h' : (masked (muSelection s) bins spectrum).bind (fun ys =>
      (scaleOf e (muSelection s) bins spectrum ped).map fun dscale =>
        ({ x := bins.filter (muSelection s), y := ys, seed := [dscale], sigma := if s = .sipm then some (poissonSigma e.root 1 ys) else none } : FitData)) = .ok d := by
    cases s
    · exact h
    · exact h
    · simp at hso
  simp only [bind_ok, map_ok] at h'
  obtain ⟨ys, hm, sc, hsc, rfl⟩ := h'
  unfold masked at hm
  split at hm
  · rename_i hl
    simp only [Except.ok.injEq] at hm
    have hzip : (bins.filter (muSelection s)).length = ys.length ∧ (bins.filter (muSelection s)).zip ys = (bins.zip spectrum).filter fun xy => muSelection s xy.1 := by
      subst hm
      clear h hsc
      induction bins generalizing spectrum with
      | nil => simp
      | cons b t ih =>
        cases spectrum with
        | nil => simp at hl
        | cons y u =>
          have := ih (spectrum := u) (by simpa using hl)
          by_cases hb : muSelection s b <;> simp [hb, this]
    have hsel : ∀ x, muSelection s x = true ↔ ((s = .sipm ∧ -5 ≤ x ∧ x ≤ 5) ∨ (s = .pmt ∧ x < 0)) := by
      intro x
      cases s <;> simp [muSelection]
    refine ⟨hl, hzip.1, ?_, ?_⟩
    · intro x y
      rw [hzip.2, List.mem_filter, hsel]
    · intro hroot hpos sg hsg u hu
      simp only at hsg
      split at hsg
      · simp only [Option.some.injEq] at hsg
        subst hsg
        simp only [poissonSigma, List.mem_map] at hu
        obtain ⟨y, hy, rfl⟩ := hu
        split
        · norm_num
        · rename_i hy0
          apply hroot
          have : y ∈ spectrum := by
            rw [← hm] at hy
            obtain ⟨xy, hxy, hxy'⟩ := List.mem_filterMap.mp hy
            split at hxy'
            · cases hxy'
              exact (List.of_mem_zip hxy).2
            · simp at hxy'
          exact lt_of_le_of_ne (hpos y this) (Ne.symm hy0)
      · simp at hsg
  · simp at hm

example : muFitData sample .sipm [-6, -5, 0, 5, 6] [1, 2, 0, 4, 5] ⟨1, 0, 1⟩ = .ok ⟨[-5, 0, 5], [2, 0, 4], [2], some [2, 1, 4]⟩ ∧
    muFitData sample .pmt [-6, -5, 0, 5, 6] [1, 2, 0, 4, 5] ⟨1, 0, 1⟩ = .ok ⟨[-6, -5], [1, 2], [3 / 2], none⟩ := by decide +kernel

end Verif.Seeds
