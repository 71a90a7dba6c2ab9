import Verif.Props.PeakRebin
/-!
# C15, C16, C17: peaks and their rebinning
-/
namespace Verif.PMaps
open Verif.Peaks

/-! ### C15 -/

/-- The lengths match: there are samples, as many as in the PMT waveforms and in the SiPM waveforms unless
these are empty. -/
def LengthsMatch (nTimes nPmts nSipms : Nat) : Prop :=
  nTimes ≠ 0 ∧ nPmts = nTimes ∧ (nSipms = nTimes ∨ nSipms = 0)

/-- **C15** (partial) Construction succeeds iff the lengths match; otherwise it raises, and it raises
`ValueError` provided that there are samples.  Missing: for zero samples the exception should also be
`ValueError`, see `empty_peak_wrong_exception`. -/
theorem peak_validation_partial (times widths : List ℚ) (pmts sipms : Responses) :
    (LengthsMatch times.length pmts.wfs.ncols sipms.wfs.ncols →
      Peak.mk? times widths pmts sipms = .ok ⟨times, widths, pmts, sipms⟩) ∧
    (¬ LengthsMatch times.length pmts.wfs.ncols sipms.wfs.ncols →
      ∃ e, Peak.mk? times widths pmts sipms = .error e ∧ (times ≠ [] → e = .valueError)) := by
  unfold LengthsMatch Peak.mk? checkValidInput
  constructor
  · rintro ⟨h1, h2, h3⟩
    rw [if_neg h1, if_neg (by omega)]
  · intro h
    by_cases h0 : times.length = 0
    · rw [if_pos h0]
      exact ⟨_, rfl, fun hc => absurd (List.eq_nil_of_length_eq_zero h0) hc⟩
    · rw [if_neg h0, if_pos (by omega)]
      exact ⟨_, rfl, fun _ => rfl⟩

/-- **C15** (the code violates the documented behaviour) A peak without samples raises `AttributeError`
rather than `ValueError`: the message refers to a non-existing attribute. -/
theorem empty_peak_wrong_exception (widths : List ℚ) (pmts sipms : Responses) :
    Peak.mk? [] widths pmts sipms = .error .attributeError := rfl

/-- **C15** A peak that could be built has matching lengths. -/
theorem peak_exists_lengths (times widths : List ℚ) (pmts sipms : Responses) (p : Peak)
    (h : Peak.mk? times widths pmts sipms = .ok p) :
    p = ⟨times, widths, pmts, sipms⟩ ∧ LengthsMatch p.times.length p.pmts.wfs.ncols p.sipms.wfs.ncols := by
  by_cases hm : LengthsMatch times.length pmts.wfs.ncols sipms.wfs.ncols
  · rw [(peak_validation_partial times widths pmts sipms).1 hm] at h
    cases h
    exact ⟨rfl, hm⟩
  · obtain ⟨e, he, _⟩ := (peak_validation_partial times widths pmts sipms).2 hm
    rw [he] at h; cases h

/-- **C15** Sensor responses require one waveform per sensor. -/
theorem responses_validation (ids : List Nat) (wfs : Mat) :
    (ids.length = wfs.rows.length → Responses.mk? ids wfs = .ok ⟨ids, wfs⟩) ∧
    (ids.length ≠ wfs.rows.length → Responses.mk? ids wfs = .error .valueError) := by
  simp [Responses.mk?]

example : LengthsMatch 3 3 0 ∧ LengthsMatch 2 2 2 ∧ ¬ LengthsMatch 3 3 2 ∧ ¬ LengthsMatch 0 0 0 := by
  simp [LengthsMatch]

/-! ### C16 -/

theorem whereIdx_getD {α : Type} (p : α → Bool) (xs : List α) (d : α) :
    (whereIdx p xs).map (fun i => xs.getD i d) = xs.filter p := by
  induction xs with
  | nil => rfl
  | cons x xs ih =>
    rw [whereIdx_cons, List.map_append, List.map_map]
    have : (fun i => (x :: xs).getD i d) ∘ (· + 1) = fun i => xs.getD i d := by funext i; simp
    rw [this, ih]
    by_cases h : p x = true
    · simp [h]
    · simp [h]

/-- **C16** The energy above threshold is the sum of the summed samples strictly above it; the same for
the SiPM charge. -/
theorem energyAbove_eq (p : Peak) (thr : ℚ) :
    p.energyAbove thr = (p.pmts.wfs.sumSensors.filter fun x => decide (thr < x)).sum ∧
    p.chargeAbove thr = (p.sipms.wfs.sumSensors.filter fun x => decide (thr < x)).sum := by
  simp only [Peak.energyAbove, Peak.chargeAbove, Responses.whereAbove, Responses.sumOverSensors, whereIdx_getD,
    and_self]

private theorem filter_sum_antitone (xs : List ℚ) {t1 t2 : ℚ} (h0 : 0 ≤ t1) (h : t1 ≤ t2) :
    (xs.filter fun x => decide (t2 < x)).sum ≤ (xs.filter fun x => decide (t1 < x)).sum := by
  induction xs with
  | nil => simp
  | cons x xs ih =>
    simp only [List.filter_cons, decide_eq_true_eq]
    split
    · rename_i h2
      rw [if_pos (lt_of_le_of_lt h h2)]
      simpa using ih
    · split
      · rename_i h1
        rw [List.sum_cons]
        linarith
      · exact ih

/-- **C16** The energy is antitone in the threshold, for non-negative thresholds. -/
theorem energyAbove_antitone (p : Peak) {t1 t2 : ℚ} (h0 : 0 ≤ t1) (h : t1 ≤ t2) :
    p.energyAbove t2 ≤ p.energyAbove t1 ∧ p.chargeAbove t2 ≤ p.chargeAbove t1 := by
  simp only [energyAbove_eq]
  exact ⟨filter_sum_antitone _ h0 h, filter_sum_antitone _ h0 h⟩

/-- **C16** The total energy is the sum of the positive samples; for a valid peak the height exists, is
the largest summed sample and does not exceed the total energy; the time of the maximum is the time of
the first sample with that height. -/
theorem total_energy_height (p : Peak) (hm : LengthsMatch p.times.length p.pmts.wfs.ncols p.sipms.wfs.ncols) :
    p.totalEnergy = (p.pmts.wfs.sumSensors.filter fun x => decide (0 < x)).sum ∧
    ∃ i h t, p.height = .ok h ∧ p.timeAtMaxEnergy = .ok t ∧
      p.pmts.wfs.sumSensors[i]? = some h ∧ p.times[i]? = some t ∧
      (∀ x ∈ p.pmts.wfs.sumSensors, x ≤ h) ∧ (∀ (j : Nat) (x : ℚ), j < i → p.pmts.wfs.sumSensors[j]? = some x → x < h) ∧
      h ≤ p.totalEnergy := by
  refine ⟨(energyAbove_eq p 0).1, ?_⟩
  have hne : p.pmts.wfs.sumSensors ≠ [] := by
    intro hc
    have := congrArg List.length hc
    rw [Mat.sumSensors_length] at this
    simp only [List.length_nil] at this
    have := hm.1; have := hm.2.1; omega
  obtain ⟨i, hi⟩ := argmax_ok hne
  obtain ⟨h, h1, h2, h3⟩ := argmax_spec hi
  have hlt : i < p.times.length := by
    have := (List.getElem?_eq_some_iff.1 h1).1
    rw [Mat.sumSensors_length] at this
    have := hm.2.1; omega
  refine ⟨i, h, p.times[i], ?_, ?_, h1, List.getElem?_eq_getElem hlt, h2, fun j x hj hx => h3 j hj x hx, ?_⟩
  · simp only [Peak.height, Responses.sumOverSensors, hi, List.getD_eq_getElem?_getD, h1, Option.getD_some]
  · simp only [Peak.timeAtMaxEnergy, Responses.sumOverSensors, hi, List.getElem?_eq_getElem hlt]
  · rw [Peak.totalEnergy, (energyAbove_eq p 0).1]
    by_cases hpos : 0 < h
    · have hmem : h ∈ p.pmts.wfs.sumSensors.filter fun x => decide (0 < x) :=
        List.mem_filter.2 ⟨List.mem_of_getElem? h1, by simpa using hpos⟩
      exact List.single_le_sum (fun x hx => by
        have := (List.mem_filter.1 hx).2
        simp only [decide_eq_true_eq] at this
        exact this.le) h hmem
    · have : 0 ≤ (p.pmts.wfs.sumSensors.filter fun x => decide (0 < x)).sum := by
        apply List.sum_nonneg
        intro x hx
        have := (List.mem_filter.1 hx).2
        simp only [decide_eq_true_eq] at this
        exact this.le
      linarith

/-- Sum of a non-negative list over a larger range is larger. -/
theorem chargeIn_mono (w : List ℚ) (hw : ∀ x ∈ w, 0 ≤ x) {a b c d : Nat} (h1 : c ≤ a) (h2 : b ≤ d) :
    chargeIn w a b ≤ chargeIn w c d := by
  unfold chargeIn
  apply List.sum_le_sum
  intro j hj
  have hj' : j < w.length := by simpa using hj
  have h0 : 0 ≤ w.getD j 0 := by
    rw [List.getD_eq_getElem _ _ hj']; exact hw _ (List.getElem_mem _)
  split
  · rw [if_pos (by omega)]
  · split
    · exact h0
    · exact le_refl _

theorem chargeIn_total (w : List ℚ) : chargeIn w 0 w.length = w.sum := by
  rw [chargeIn_eq, pySlice_all _ (le_refl _)]

/-- **C16** The width above threshold is the sum of the widths from the first to the last sample above
threshold, and zero when there is none. -/
theorem widthAbove_spec (p : Peak) (thr : ℚ) :
    ((∀ x ∈ p.pmts.wfs.sumSensors, x ≤ thr) ∧ p.widthAbove thr = 0) ∨
    ∃ first last, p.widthAbove thr = chargeIn p.widths first (last + 1) ∧ first ≤ last ∧
      (∃ x, p.pmts.wfs.sumSensors[first]? = some x ∧ thr < x) ∧
      (∃ x, p.pmts.wfs.sumSensors[last]? = some x ∧ thr < x) ∧
      ∀ (i : Nat) (x : ℚ), p.pmts.wfs.sumSensors[i]? = some x → thr < x → first ≤ i ∧ i ≤ last := by
  have hmem : ∀ i, i ∈ p.pmts.whereAbove thr ↔ ∃ x, p.pmts.wfs.sumSensors[i]? = some x ∧ thr < x := by
    intro i
    rw [Responses.whereAbove, whereIdx_mem]; simp [Responses.sumOverSensors]
  have hsorted : (p.pmts.whereAbove thr).Pairwise (· < ·) := whereIdx_sorted _ _
  unfold Peak.widthAbove
  cases hw : p.pmts.whereAbove thr with
  | nil =>
    left
    refine ⟨?_, by simp⟩
    intro x hx
    by_contra hc
    obtain ⟨i, hi⟩ := List.mem_iff_getElem?.1 hx
    have := (hmem i).2 ⟨x, hi, not_le.1 hc⟩
    rw [hw] at this
    simp at this
  | cons a t =>
    right
    rw [hw] at hsorted hmem
    have hl : (a :: t).getLast? = some ((a :: t).getLast (by simp)) := List.getLast?_eq_some_getLast (by simp)
    simp only [List.head?_cons, hl]
    have hbound : ∀ i ∈ a :: t, a ≤ i ∧ i ≤ (a :: t).getLast (by simp) := by
      intro i hi
      constructor
      · rcases List.mem_cons.1 hi with rfl | h
        · exact le_refl _
        · exact ((List.pairwise_cons.1 hsorted).1 i h).le
      · have hs := hsorted
        rw [← List.dropLast_append_getLast (show a :: t ≠ [] by simp)] at hs hi
        rcases List.mem_append.1 hi with h | h
        · exact ((List.pairwise_append.1 hs).2.2 i h _ (by simp)).le
        · simp only [List.mem_singleton] at h; rw [h]
    refine ⟨a, (a :: t).getLast (by simp), by rw [chargeIn_eq], (hbound _ (List.getLast_mem _)).1, ?_, ?_, ?_⟩
    · exact (hmem a).1 List.mem_cons_self
    · exact (hmem _).1 (List.getLast_mem _)
    · intro i x h1 h2
      exact hbound i ((hmem i).2 ⟨x, h1, h2⟩)

/-- **C16** The width is antitone in the threshold and never exceeds the total width. -/
theorem widthAbove_antitone (p : Peak) (hw : ∀ x ∈ p.widths, 0 ≤ x) {t1 t2 : ℚ} (h : t1 ≤ t2) :
    p.widthAbove t2 ≤ p.widthAbove t1 ∧ p.widthAbove t1 ≤ p.widths.sum ∧ 0 ≤ p.widthAbove t1 := by
  have hle : ∀ (a b : Nat), chargeIn p.widths a b ≤ p.widths.sum := by
    intro a b
    unfold chargeIn
    have e : p.widths.sum = ((List.range p.widths.length).map fun j => p.widths.getD j 0).sum := by
      congr 1
      apply List.ext_getElem
      · simp
      · intro i h1 h2; simp [h1]
    rw [e]
    apply List.sum_le_sum
    intro j hj
    have hj' : j < p.widths.length := by simpa using hj
    split
    · exact le_refl _
    · rw [List.getD_eq_getElem _ _ hj']; exact hw _ (List.getElem_mem _)
  have hsum : 0 ≤ p.widths.sum := List.sum_nonneg hw
  have hnn : ∀ a b, 0 ≤ chargeIn p.widths a b := by
    intro a b
    unfold chargeIn
    apply List.sum_nonneg
    intro x hx
    obtain ⟨j, hj, rfl⟩ := List.mem_map.1 hx
    have hj' : j < p.widths.length := by simpa using hj
    split
    · rw [List.getD_eq_getElem _ _ hj']; exact hw _ (List.getElem_mem _)
    · exact le_refl _
  rcases widthAbove_spec p t1 with ⟨h1, e1⟩ | ⟨f1, l1, e1, o1, x1, y1, b1⟩ <;>
  rcases widthAbove_spec p t2 with ⟨h2, e2⟩ | ⟨f2, l2, e2, o2, x2, y2, b2⟩
  · rw [e1, e2]; exact ⟨le_refl _, hsum, le_refl _⟩
  · obtain ⟨x, hx, hlt⟩ := x2
    have := h1 x (List.mem_of_getElem? hx)
    linarith
  · rw [e1, e2]; exact ⟨hnn _ _, hle _ _, hnn _ _⟩
  · rw [e1, e2]
    refine ⟨chargeIn_mono _ hw ?_ ?_, hle _ _, hnn _ _⟩
    · obtain ⟨x, hx, hlt⟩ := x2
      exact (b1 f2 x hx (lt_of_le_of_lt h hlt)).1
    · obtain ⟨x, hx, hlt⟩ := y2
      have := (b1 l2 x hx (lt_of_le_of_lt h hlt)).2
      omega

/-- **C16** The (squared) rms never fails and is non-negative for non-negative thresholds. -/
theorem varAbove_nonneg (p : Peak) (thr : ℚ) (ht : 0 ≤ thr) : ∃ v, p.varAbove thr = .ok v ∧ 0 ≤ v := by
  simp only [Peak.varAbove]
  split
  · exact ⟨0, rfl, le_refl _⟩
  · rename_i h
    have hnn : ∀ x ∈ (p.pmts.whereAbove thr).map (fun i => p.pmts.sumOverSensors.getD i 0), 0 ≤ x := by
      intro x hx
      rw [Responses.whereAbove, whereIdx_getD] at hx
      have := (List.mem_filter.1 hx).2
      simp only [decide_eq_true_eq] at this
      linarith
    have hpos : 0 < ((p.pmts.whereAbove thr).map (fun i => p.pmts.sumOverSensors.getD i 0)).sum :=
      lt_of_le_of_ne (List.sum_nonneg hnn) (fun hc => h (Or.inr hc.symm))
    obtain ⟨m, v, h1, h2, _⟩ := Core.weightedMeanAndVar_bounds ((p.pmts.whereAbove thr).map fun i => p.times.getD i 0) _
      (by simp) hnn hpos
    rw [h1]
    exact ⟨v, rfl, h2⟩

/-- A peak with three bins and negative samples. -/
def exPeak : Peak := ⟨[10, 20, 30, 40], [1, 2, 3, 4], ⟨[0, 1], ⟨[[1, -3, 5, -1], [1, 1, 2, 0]], 4⟩⟩, ⟨[5], ⟨[[1, 2, 3, 4]], 4⟩⟩⟩
example : LengthsMatch exPeak.times.length exPeak.pmts.wfs.ncols exPeak.sipms.wfs.ncols := by simp [LengthsMatch, exPeak]
example : exPeak.totalEnergy = 9 ∧ exPeak.energyAbove 3 = 7 ∧ exPeak.width = 6 ∧ exPeak.widthAbove 3 = 3 ∧
    exPeak.height = .ok 7 ∧ exPeak.timeAtMaxEnergy = .ok 30 := by decide +kernel

/-! ### C17 -/

private theorem loop_spec (thr : ℚ) (wf : List ℚ) (xs : List ℚ) (i last : Nat) (cum lastSum : ℚ)
    (hx : wf.drop i = xs) (hne : xs ≠ []) (hli : last ≤ i) (hcum : cum - lastSum = (pySlice last i wf).sum) :
    TilesFrom (i + xs.length) last (thresholdLoop thr i cum last lastSum xs) ∧
    thresholdLoop thr i cum last lastSum xs ≠ [] ∧
    ∀ sl ∈ (thresholdLoop thr i cum last lastSum xs).dropLast, thr ≤ (pySlice sl.1 sl.2 wf).sum := by
  induction xs generalizing i last cum lastSum with
  | nil => exact absurd rfl hne
  | cons x xs ih =>
    have hilt : i < wf.length := by
      by_contra hc
      rw [List.drop_of_length_le (by omega)] at hx
      cases hx
    have hx1 : wf.drop (i + 1) = xs := by
      rw [← List.drop_drop, hx]; rfl
    have hwx : pySlice i (i + 1) wf = [x] := by
      rw [pySlice, hx, show i + 1 - i = 1 by omega]; rfl
    have hsum : cum + x - lastSum = (pySlice last (i + 1) wf).sum := by
      rw [← pySlice_append hli (Nat.le_succ i), List.sum_append, ← hcum, hwx]
      simp; ring
    have e : i + (x :: xs).length = i + 1 + xs.length := by simp; omega
    simp only [thresholdLoop]
    by_cases hxs : xs = []
    · subst hxs
      simp only [List.isEmpty_nil, Bool.true_or, if_true, thresholdLoop]
      refine ⟨⟨rfl, by omega, by simp; omega, by simp [TilesFrom]⟩, by simp, by simp⟩
    · have hemp : xs.isEmpty = false := by simp [List.isEmpty_iff, hxs]
      simp only [hemp, Bool.false_or, decide_eq_true_eq]
      split
      · rename_i hthr
        obtain ⟨t1, t2, t3⟩ := ih (i + 1) (i + 1) (cum + x) (cum + x) hx1 hxs (le_refl _) (by simp [pySlice])
        refine ⟨⟨rfl, by omega, by simp; omega, by rw [e]; exact t1⟩, by simp, ?_⟩
        rw [List.dropLast_cons_of_ne_nil t2]
        intro sl hsl
        rcases List.mem_cons.1 hsl with rfl | hsl
        · rw [hsum] at hthr; exact hthr
        · exact t3 sl hsl
      · obtain ⟨t1, t2, t3⟩ := ih (i + 1) last (cum + x) lastSum hx1 hxs (by omega) hsum
        exact ⟨by rw [e]; exact t1, t2, t3⟩

private theorem mergeLast_tiles (wf : List ℚ) (thr : ℚ) (n a : Nat) (sl : List (Nat × Nat)) (h : TilesFrom n a sl) :
    TilesFrom n a (mergeLast wf thr sl) := by
  induction sl generalizing a with
  | nil => exact h
  | cons s rest ih =>
    match rest, ih with
    | [], _ => exact h
    | [t], _ =>
      simp only [mergeLast]
      split
      · obtain ⟨s1, s2⟩ := s
        obtain ⟨t1, t2⟩ := t
        obtain ⟨rfl, h2, h3, h4, h5, h6, h7⟩ := h
        exact ⟨rfl, by simp; omega, h3, h7⟩
      · exact h
    | t :: u :: rest, ih =>
      simp only [mergeLast]
      obtain ⟨s1, s2⟩ := s
      obtain ⟨rfl, h2, h3, h4⟩ := h
      exact ⟨rfl, h2, h3, ih s2 h4⟩

private theorem mergeLast_ne_nil (wf : List ℚ) (thr : ℚ) (t : Nat × Nat) (rest : List (Nat × Nat)) :
    mergeLast wf thr (t :: rest) ≠ [] := by
  match rest with
  | [] => simp [mergeLast]
  | [u] => simp only [mergeLast]; split <;> simp
  | u :: v :: rest => simp [mergeLast]

private theorem mergeLast_above (wf : List ℚ) (thr : ℚ) (n a : Nat) (sl : List (Nat × Nat)) (ht : TilesFrom n a sl)
    (h : ∀ s ∈ sl.dropLast, thr ≤ (pySlice s.1 s.2 wf).sum) :
    (∀ s ∈ (mergeLast wf thr sl).dropLast, thr ≤ (pySlice s.1 s.2 wf).sum) ∧
    ((∀ x ∈ wf, 0 ≤ x) → 1 < (mergeLast wf thr sl).length →
      ∀ s ∈ mergeLast wf thr sl, thr ≤ (pySlice s.1 s.2 wf).sum) ∧
    ((∀ x ∈ wf, 0 ≤ x) → 1 < sl.length → ∀ s ∈ mergeLast wf thr sl, thr ≤ (pySlice s.1 s.2 wf).sum) := by
  induction sl generalizing a with
  | nil => simp [mergeLast]
  | cons s rest ih =>
    match rest, ih with
    | [], _ => simp [mergeLast]
    | [t], _ =>
      have hs := h s (by simp)
      simp only [mergeLast]
      split
      · rename_i hlt
        refine ⟨by simp, by simp, ?_⟩
        intro hnn _ q hq
        simp only [List.mem_singleton] at hq
        subst hq
        obtain ⟨s1, s2⟩ := s
        obtain ⟨t1, t2⟩ := t
        obtain ⟨rfl, h2, h3, rfl, h5, h6, h7⟩ := ht
        simp only at hs ⊢
        rw [← pySlice_append h2.le h5.le, List.sum_append]
        have : 0 ≤ (pySlice t1 t2 wf).sum := by
          apply List.sum_nonneg
          intro x hx
          obtain ⟨j, _, _, hj⟩ := mem_pySlice.1 hx
          exact hnn x (List.mem_of_getElem? hj)
        linarith
      · rename_i hlt
        have hboth : ∀ q ∈ [s, t], thr ≤ (pySlice q.1 q.2 wf).sum := by
          intro q hq
          simp only [List.mem_cons, List.not_mem_nil, or_false] at hq
          rcases hq with rfl | rfl
          · exact hs
          · exact not_lt.1 hlt
        exact ⟨fun q hq => hboth q (List.mem_of_mem_dropLast hq), fun _ _ => hboth, fun _ _ => hboth⟩
    | t :: u :: rest, ih =>
      simp only [mergeLast]
      obtain ⟨s1, s2⟩ := s
      obtain ⟨rfl, h2, h3, h4⟩ := ht
      have hs := h (s1, s2) (by simp)
      obtain ⟨i1, i2, i3⟩ := ih s2 h4 (fun q hq => h q (by
        rw [List.dropLast_cons_of_ne_nil (by simp)]; exact List.mem_cons_of_mem _ hq))
      refine ⟨?_, ?_, ?_⟩
      · rw [List.dropLast_cons_of_ne_nil (mergeLast_ne_nil _ _ _ _)]
        intro q hq
        rcases List.mem_cons.1 hq with rfl | hq
        · exact hs
        · exact i1 q hq
      · intro hnn _ q hq
        rcases List.mem_cons.1 hq with rfl | hq
        · exact hs
        · exact i3 hnn (by simp) q hq
      · intro hnn _ q hq
        rcases List.mem_cons.1 hq with rfl | hq
        · exact hs
        · exact i3 hnn (by simp) q hq

/-- **C17** The even slices tile the samples of the peak. -/
theorem evenSlices_tile (n stride : Nat) (hs : 0 < stride) : Tiles n (getEvenSlices n stride) :=
  evenSlices_tiles n stride hs

/-- **C17** The threshold slices tile the samples of the peak, for any waveform and threshold. -/
theorem thresholdSlices_tile (wf : List ℚ) (thr : ℚ) : Tiles wf.length (getThresholdSlices wf thr) := by
  cases wf with
  | nil => simp [getThresholdSlices, thresholdLoop, mergeLast, Tiles, TilesFrom]
  | cons x xs =>
    have h := (loop_spec thr (x :: xs) (x :: xs) 0 0 0 0 rfl (by simp) (le_refl _) (by simp [pySlice])).1
    have := mergeLast_tiles (x :: xs) thr _ 0 _ h
    simpa [Tiles, getThresholdSlices] using this

/-- **C17** Every threshold slice but the last integrates at least the threshold; for non-negative samples
the last does too, unless it is the only one. -/
theorem thresholdSlices_above (wf : List ℚ) (thr : ℚ) :
    (∀ sl ∈ (getThresholdSlices wf thr).dropLast, thr ≤ chargeIn wf sl.1 sl.2) ∧
    ((∀ x ∈ wf, 0 ≤ x) → 1 < (getThresholdSlices wf thr).length →
      ∀ sl ∈ getThresholdSlices wf thr, thr ≤ chargeIn wf sl.1 sl.2) := by
  cases wf with
  | nil => simp [getThresholdSlices, thresholdLoop, mergeLast]
  | cons x xs =>
    obtain ⟨h1, _, h3⟩ := loop_spec thr (x :: xs) (x :: xs) 0 0 0 0 rfl (by simp) (le_refl _) (by simp [pySlice])
    obtain ⟨g1, g2, _⟩ := mergeLast_above (x :: xs) thr _ 0 _ h1 h3
    simp only [chargeIn_eq]
    exact ⟨g1, g2⟩

example : getThresholdSlices [1, 2, 3, 1, 1, 1, 1] 3 = [(0, 2), (2, 3), (3, 7)] := by decide +kernel
/-- Finding: with negative samples the last slice may be below threshold. -/
example : getThresholdSlices [2, 2, -5] 2 = [(0, 1), (1, 3)] ∧ chargeIn [2, 2, -5] 1 3 = -3 := by decide +kernel

/-- A consistent peak (shapes of a peak built by the code). -/
structure ValidPeak (p : Peak) : Prop where
  nonempty : p.times ≠ []
  widths : p.widths.length = p.times.length
  pmtWF : p.pmts.wfs.WF
  pmtCols : p.pmts.wfs.ncols = p.times.length
  pmtIds : p.pmts.ids.length = p.pmts.wfs.rows.length
  sipm : p.sipms = Responses.empty ∨
    (p.sipms.wfs.WF ∧ p.sipms.wfs.ncols = p.times.length ∧ p.sipms.ids.length = p.sipms.wfs.rows.length ∧ p.sipms.ids ≠ [])

private theorem rebinSlices_spec (p : Peak) (hp : ValidPeak p) (slices : List (Nat × Nat)) (ht : Tiles p.times.length slices) :
    ∃ q, rebinPeakToSlices p slices = .ok q ∧ ValidPeak q ∧ q.times.length = slices.length ∧
      q.pmts.ids = p.pmts.ids ∧ q.sipms.ids = p.sipms.ids ∧
      q.pmts.wfs.rows.map List.sum = p.pmts.wfs.rows.map List.sum ∧
      q.sipms.wfs.rows.map List.sum = p.sipms.wfs.rows.map List.sum ∧
      q.widths.sum = p.widths.sum := by
  have hsl : slices ≠ [] := by
    rintro rfl
    simp only [Tiles, TilesFrom] at ht
    exact hp.nonempty (List.eq_nil_of_length_eq_zero (by omega))
  obtain ⟨ts, ws, m, h1, h2, h3, h4, h5, h6, _, h8, h9⟩ :=
    rebin_conserves p.times p.widths p.pmts.wfs 2 slices (le_refl _) hp.pmtCols.symm hp.pmtWF hp.widths ht
  have hpm : Responses.mk? p.pmts.ids m = .ok ⟨p.pmts.ids, m⟩ := by simp [Responses.mk?, hp.pmtIds, h6]
  have htn : ts ≠ [] := by
    rintro rfl
    exact hsl (List.eq_nil_of_length_eq_zero (by simpa using h2.symm))
  rcases hp.sipm with hs | ⟨s1, s2, s3, s4⟩
  · refine ⟨⟨ts, ws, ⟨p.pmts.ids, m⟩, Responses.empty⟩, ?_, ?_, h2, rfl, by simp [hs], h8, by simp [hs], h9⟩
    · simp only [rebinPeakToSlices, h1, hpm, hs, Responses.empty, List.isEmpty_nil, if_true]
      exact (peak_validation_partial _ _ _ _).1 ⟨by simpa using htn, by simp [h4, h2], Or.inr rfl⟩
    · exact ⟨htn, by simp [h2, h3], h5, by simp [h4, h2], by simp [hp.pmtIds, h6], Or.inl rfl⟩
  · obtain ⟨ts', ws', m', g1, g2, g3, g4, g5, g6, _, g8, g9⟩ :=
      rebin_conserves p.times p.widths p.sipms.wfs 2 slices (le_refl _) s2.symm s1 hp.widths ht
    have hsm : Responses.mk? p.sipms.ids m' = .ok ⟨p.sipms.ids, m'⟩ := by simp [Responses.mk?, s3, g6]
    have hemp : p.sipms.ids.isEmpty = false := by simp [List.isEmpty_iff, s4]
    refine ⟨⟨ts, ws, ⟨p.pmts.ids, m⟩, ⟨p.sipms.ids, m'⟩⟩, ?_, ?_, h2, rfl, rfl, h8, g8, h9⟩
    · simp only [rebinPeakToSlices, h1, hpm, hemp, Bool.false_eq_true, if_false, g1, hsm]
      exact (peak_validation_partial _ _ _ _).1 ⟨by simpa using htn, by simp [h4, h2], Or.inl (by simp [g4, h2])⟩
    · exact ⟨htn, by simp [h2, h3], h5, by simp [h4, h2], by simp [hp.pmtIds, h6],
        Or.inr ⟨g5, by simp [g4, h2], by simp [s3, g6], s4⟩⟩

/-- **C17** Rebinning a peak, by stride or threshold, always succeeds, gives a valid peak and conserves
sensor ids, the energy of each sensor and the total width. -/
theorem rebinPeak_conserves (p : Peak) (hp : ValidPeak p) (method : RebinMethod) :
    ∃ q, rebinPeak p method = .ok q ∧ ValidPeak q ∧
      q.pmts.ids = p.pmts.ids ∧ q.sipms.ids = p.sipms.ids ∧
      q.pmts.wfs.rows.map List.sum = p.pmts.wfs.rows.map List.sum ∧
      q.sipms.wfs.rows.map List.sum = p.sipms.wfs.rows.map List.sum ∧
      q.widths.sum = p.widths.sum := by
  cases method with
  | stride n =>
    simp only [rebinPeak]
    split
    · exact ⟨p, rfl, hp, rfl, rfl, rfl, rfl, rfl⟩
    · obtain ⟨q, h1, h2, _, h4⟩ := rebinSlices_spec p hp _ (evenSlices_tile p.times.length n (by omega))
      exact ⟨q, h1, h2, h4⟩
  | threshold thr =>
    simp only [rebinPeak]
    have ht := thresholdSlices_tile p.pmts.sumOverSensors thr
    rw [Responses.sumOverSensors, Mat.sumSensors_length, hp.pmtCols] at ht
    obtain ⟨q, h1, h2, _, h4⟩ := rebinSlices_spec p hp _ ht
    exact ⟨q, h1, h2, h4⟩

/-- **C17** A stride of at most one returns the same peak; a larger one gives `ceil(n / stride)` bins. -/
theorem rebinPeak_bins (p : Peak) (hp : ValidPeak p) (n : Nat) :
    (n ≤ 1 → rebinPeak p (.stride n) = .ok p) ∧
    (1 < n → ∃ q, rebinPeak p (.stride n) = .ok q ∧
      (q.times.length - 1) * n < p.times.length ∧ p.times.length ≤ q.times.length * n) := by
  refine ⟨fun h => by simp [rebinPeak, h], fun h => ?_⟩
  obtain ⟨q, h1, _, h3, _⟩ := rebinSlices_spec p hp _ (evenSlices_tile p.times.length n (by omega))
  refine ⟨q, by simp only [rebinPeak, if_neg (not_le.2 h), h1], ?_⟩
  rw [h3]
  simp only [getEvenSlices, List.length_map, List.length_range]
  have hn : 0 < p.times.length := List.length_pos_iff.2 hp.nonempty
  have hd := Nat.div_add_mod (p.times.length + n - 1) n
  have hm := Nat.mod_lt (p.times.length + n - 1) (show 0 < n by omega)
  have hq : 0 < (p.times.length + n - 1) / n := Nat.div_pos (by omega) (by omega)
  obtain ⟨k, hk⟩ := Nat.exists_eq_succ_of_ne_zero (Nat.pos_iff_ne_zero.1 hq)
  rw [hk] at hd ⊢
  simp only [Nat.succ_eq_add_one, Nat.add_sub_cancel, Nat.mul_comm n, Nat.add_mul, Nat.one_mul] at hd ⊢
  omega

example : ValidPeak exPeak := by
  refine ⟨by simp [exPeak], rfl, by simp [exPeak, Mat.WF], rfl, rfl, Or.inr ⟨by simp [exPeak, Mat.WF], rfl, rfl, by simp [exPeak]⟩⟩
example : rebinPeak exPeak (.threshold 3) =
    .ok ⟨[230 / 9], [10], ⟨[0, 1], ⟨[[2], [4]], 1⟩⟩, ⟨[5], ⟨[[10]], 1⟩⟩⟩ := by decide +kernel
example : rebinPeak exPeak (.stride 3) =
    .ok ⟨[230 / 9, 40], [6, 4], ⟨[0, 1], ⟨[[3, -1], [4, 0]], 2⟩⟩, ⟨[5], ⟨[[6, 4]], 2⟩⟩⟩ := by decide +kernel

end Verif.PMaps
