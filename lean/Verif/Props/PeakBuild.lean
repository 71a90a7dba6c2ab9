import Verif.Props.PeakRebin
import Verif.Props.PeakSearch
/-!
# C12, C14: building peaks; PMT and SiPM synchronisation
-/
namespace Verif.Peaks
open Verif.Core Verif.PMaps

private theorem even_one (r : List ℚ) :
    (getEvenSlices r.length 1).map (fun sl => (pySlice sl.1 sl.2 r).sum) = r := by
  apply List.ext_getElem?
  intro i
  by_cases h : i < r.length
  · have : pySlice i (i + 1) r = [r[i]] := by
      rw [pySlice, List.drop_eq_getElem_cons h, show i + 1 - i = 1 by omega]; rfl
    simp [getEvenSlices, h, this]
  · simp [getEvenSlices, h]

private theorem mk_ok (ts ws : List ℚ) (p s : Responses) (h0 : ts.length ≠ 0) (h1 : ts.length = p.wfs.ncols)
    (h2 : ts.length = s.wfs.ncols ∨ s.wfs.ncols = 0) : Peak.mk? ts ws p s = .ok ⟨ts, ws, p, s⟩ := by
  have h3 : checkValidInput ts p s = .ok () := by
    unfold checkValidInput
    rw [if_neg h0, if_neg (by omega)]
  simp only [Peak.mk?, h3]

private theorem sum_zeros (n : Nat) : (List.replicate n (0:ℚ)).sum = 0 :=
  List.sum_eq_zero fun _ hx => List.eq_of_mem_replicate hx

/-- Rebinning with any positive stride: the bins are the sums over the even slices. -/
private theorem rebin_pos (times widths : List ℚ) (wfs : Mat) (stride : Nat) (hs : 0 < stride)
    (ht : times.length = wfs.ncols) (hw : widths.length = times.length) (hwf : wfs.WF) :
    ∃ ts, rebinTimesAndWaveforms times widths wfs stride none =
        .ok (ts, (getEvenSlices times.length stride).map (fun sl => (pySlice sl.1 sl.2 widths).sum),
          ⟨wfs.rows.map fun r => (getEvenSlices times.length stride).map
            fun sl => (pySlice sl.1 sl.2 r).sum, (getEvenSlices times.length stride).length⟩) ∧
      ts.length = (getEvenSlices times.length stride).length := by
  by_cases h2 : 2 ≤ stride
  · obtain ⟨ts, h1, h3⟩ := rebin_ok times widths wfs stride none h2 ht
      (tiles_mem (evenSlices_tiles _ _ hs))
    exact ⟨ts, h1, h3.length_eq.symm⟩
  · have : stride = 1 := by omega
    subst this
    refine ⟨times, ?_, by simp [getEvenSlices]⟩
    rw [rebin_identity _ _ _ _ _ (by omega)]
    have e1 := even_one widths
    rw [hw] at e1
    rw [e1]
    have e2 : (wfs.rows.map fun r => (getEvenSlices times.length 1).map fun sl => (pySlice sl.1 sl.2 r).sum) = wfs.rows := by
      conv_rhs => rw [← List.map_id wfs.rows]
      apply List.map_congr_left
      intro r hr
      have := even_one r
      rw [hwf r hr, ← ht] at this
      simpa using this
    rw [e2]
    have e3 : (getEvenSlices times.length 1).length = wfs.ncols := by simp [getEvenSlices, ht]
    rw [e3]

private theorem pySlice_pySlice {α : Type} (a b c d : Nat) (xs : List α) :
    pySlice a b (pySlice c d xs) = pySlice (c + a) (min d (c + b)) xs := by
  apply List.ext_getElem?
  intro i
  simp only [pySlice_getElem?]
  by_cases h1 : a + i < b
  · simp only [h1, if_true, ← Nat.add_assoc]
    by_cases h2 : c + a + i < d
    · rw [if_pos h2, if_pos (by omega)]
    · rw [if_neg h2, if_neg (by omega)]
  · rw [if_neg h1, if_neg (by omega)]

private theorem chargeIn_pad (m i0 i2 lo hi : Nat) (r : List ℚ) (hm : m ≤ i0) :
    (pySlice lo hi (List.replicate m 0 ++ pySlice i0 i2 r)).sum =
      chargeIn r (max i0 (i0 - m + lo)) (min i2 (i0 - m + hi)) := by
  have e : pySlice lo hi (List.replicate m 0 ++ pySlice i0 i2 r) =
      List.replicate (min hi m - lo) 0 ++ pySlice (lo - m) (hi - m) (pySlice i0 i2 r) := by
    simp only [pySlice, List.drop_append, List.take_append, List.drop_replicate, List.take_replicate,
      List.length_drop, List.length_replicate]
    congr 2 <;> omega
  rw [e, List.sum_append, pySlice_pySlice, chargeIn_eq]
  rw [sum_zeros, zero_add]
  by_cases h : m ≤ hi
  · rw [show i0 + (lo - m) = max i0 (i0 - m + lo) by omega, show i0 + (hi - m) = i0 - m + hi by omega]
  · have h1 : pySlice (i0 + (lo - m)) (min i2 (i0 + (hi - m))) r = [] := by
      apply List.eq_nil_of_length_eq_zero; rw [pySlice_length]; omega
    have h2 : pySlice (max i0 (i0 - m + lo)) (min i2 (i0 - m + hi)) r = [] := by
      apply List.eq_nil_of_length_eq_zero; rw [pySlice_length]; omega
    rw [h1, h2]

/-- `pick_slice_and_rebin` in closed form; `m` is the number of padded samples. -/
private theorem pick_ok (indices : List Nat) (times widths : List ℚ) (wfs : Mat) (stride : Nat) (pad : Bool)
    (ratio : Nat) (i0 i1 : Nat) (hh : indices.head? = some i0) (hl : indices.getLast? = some i1) (h01 : i0 ≤ i1)
    (hin : i1 < wfs.ncols) (ht : i1 < times.length) (hw : widths.length = times.length)
    (hwf : wfs.WF) (hs : 0 < stride) :
    let m := if pad then i0 % ratio else 0
    let nb := (m + (i1 + 1 - i0) + stride - 1) / stride
    ∃ ts ws M, pickSliceAndRebin indices times widths wfs stride pad ratio = .ok (ts, ws, M) ∧
      ts.length = nb ∧ ws.length = nb ∧ M.ncols = nb ∧ M.WF ∧ M.rows.length = wfs.rows.length ∧
      M.rows = wfs.rows.map (fun r => (List.range nb).map fun b =>
        chargeIn r (max i0 (i0 - m + stride * b)) (min (i1 + 1) (i0 - m + stride * (b + 1)))) ∧
      M.rows.map List.sum = wfs.rows.map (fun r => chargeIn r i0 (i1 + 1)) ∧
      ws.sum = chargeIn widths i0 (i1 + 1) ∧
      ws = (List.range nb).map (fun b => chargeIn widths (max i0 (i0 - m + stride * b)) (min (i1 + 1) (i0 - m + stride * (b + 1)))) := by
  intro m nb
  have hm : m ≤ i0 := by
    simp only [m]; split
    · exact Nat.mod_le _ _
    · omega
  have hlen : (List.replicate m (0:ℚ) ++ pySlice i0 (i1 + 1) times).length = m + (i1 + 1 - i0) := by
    simp only [List.length_append, List.length_replicate, pySlice_length]; omega
  have hlw : (List.replicate m (0:ℚ) ++ pySlice i0 (i1 + 1) widths).length = m + (i1 + 1 - i0) := by
    simp only [List.length_append, List.length_replicate, pySlice_length]; omega
  have hcall : pickSliceAndRebin indices times widths wfs stride pad ratio =
      rebinTimesAndWaveforms (List.replicate m 0 ++ pySlice i0 (i1 + 1) times)
        (List.replicate m 0 ++ pySlice i0 (i1 + 1) widths) ((wfs.slice i0 (i1 + 1)).padLeft m) stride none := by
    simp only [pickSliceAndRebin, hh, hl]
    cases pad
    · simp [m, Mat.padLeft]
    · simp [m]
  obtain ⟨ts, h1, h2⟩ := rebin_pos (List.replicate m 0 ++ pySlice i0 (i1 + 1) times)
    (List.replicate m 0 ++ pySlice i0 (i1 + 1) widths) ((wfs.slice i0 (i1 + 1)).padLeft m) stride hs
    (by rw [hlen]; simp only [Mat.padLeft, Mat.slice]; omega) (by rw [hlen, hlw])
    (Mat.padLeft_WF (Mat.slice_WF hwf _ _) _)
  rw [hlen] at h1 h2
  have hnb : (getEvenSlices (m + (i1 + 1 - i0)) stride).length = nb := by simp [getEvenSlices, nb]
  have hbounds : stride * nb ≥ m + (i1 + 1 - i0) := by
    have := Nat.div_add_mod (m + (i1 + 1 - i0) + stride - 1) stride
    have := Nat.mod_lt (m + (i1 + 1 - i0) + stride - 1) hs
    simp only [nb]; omega
  have htile := evenSlices_tiles (m + (i1 + 1 - i0)) stride hs
  refine ⟨ts, _, _, by rw [hcall]; exact h1, by rw [h2, hnb], by simp [hnb], hnb, ?_, by simp [Mat.padLeft, Mat.slice], ?_, ?_, ?_, ?_⟩
  · intro r hr
    obtain ⟨q, _, rfl⟩ := List.mem_map.1 hr
    simp
  · simp only [Mat.padLeft, Mat.slice, List.map_map, getEvenSlices]
    apply List.map_congr_left
    intro r _
    simp only [Function.comp]
    apply List.map_congr_left
    intro b _
    exact chargeIn_pad m i0 (i1 + 1) _ _ r hm
  · simp only [Mat.padLeft, Mat.slice, List.map_map]
    apply List.map_congr_left
    intro r hr
    simp only [Function.comp]
    have hrl : (List.replicate m (0:ℚ) ++ pySlice i0 (i1 + 1) r).length = m + (i1 + 1 - i0) := by
      simp only [List.length_append, List.length_replicate, pySlice_length, hwf r hr]; omega
    have := tiles_sum (List.replicate m (0:ℚ) ++ pySlice i0 (i1 + 1) r) 0 _ (by rw [hrl]; exact htile)
    rw [this]
    simp [chargeIn_eq]
  · have := tiles_sum (List.replicate m (0:ℚ) ++ pySlice i0 (i1 + 1) widths) 0 _ (by rw [hlw]; exact htile)
    rw [this]
    simp [chargeIn_eq]
  · simp only [getEvenSlices, List.map_map]
    apply List.map_congr_left
    intro b _
    exact chargeIn_pad m i0 (i1 + 1) _ _ widths hm

private theorem bins_eq (i0 i1 r k : Nat) (h01 : i0 ≤ i1) (hr : 0 < r) (hk : 0 < k) :
    (i0 % r + (i1 + 1 - i0) + r * k - 1) / (r * k) = (i1 / r + 1 - i0 / r + k - 1) / k := by
  have hd := Nat.div_add_mod i0 r
  have h1 : i0 / r ≤ i1 / r := Nat.div_le_div_right h01
  have h2 : r * (i0 / r) ≤ i1 := by omega
  have hrk : 0 < r * k := Nat.mul_pos hr hk
  have e1 : i0 % r + (i1 + 1 - i0) + r * k - 1 = (i1 - r * (i0 / r)) + r * k := by omega
  have e2 : i1 / r + 1 - i0 / r + k - 1 = (i1 / r - i0 / r) + k := by omega
  rw [e1, e2, Nat.add_div_right _ hrk, Nat.add_div_right _ hk, ← Nat.div_div_eq_div_mul,
    Nat.sub_mul_div]

/-- **C14** An S2 with SiPMs, rebinned with a multiple `ratio * k` of the sampling ratio, can always be
built; PMTs and SiPMs have the same number of bins; bin `b` of both covers the SiPM samples
`[A, B)` with `A = i0/ratio + k b`, `B = i0/ratio + k (b+1)`, that is the PMT samples
`[ratio A, ratio B)`, restricted to the samples of the peak; and the PMT charge of each sensor is the
one of the samples of the peak: padding does not change it.  The SiPMs are what the selection makes of the binned waveforms. -/
theorem s2_synchronised (indices : List Nat) (times widths : List ℚ) (ccwf : Mat) (pmtIds : List Nat)
    (ratio k i0 i1 : Nat) (sipmWfs : Mat) (sipmIds : List Nat) (sel : Mat → Except PyErr (List Nat × Mat))
    (hh : indices.head? = some i0) (hl : indices.getLast? = some i1) (h01 : i0 ≤ i1)
    (hr : 0 < ratio) (hk : 0 < k)
    (hin : i1 < ccwf.ncols) (hins : i1 / ratio < sipmWfs.ncols) (ht : times.length = ccwf.ncols)
    (hw : widths.length = times.length) (hwf : ccwf.WF) (hswf : sipmWfs.WF)
    (hids : pmtIds.length = ccwf.rows.length) (hsids : sipmIds.length = sipmWfs.rows.length)
    (hsel : IsSelection sipmWfs.rows.length sel) :
    ∃ p nb, buildPeak indices times widths ccwf pmtIds (ratio * k) ratio (some (sipmWfs, sipmIds, sel)) = .ok p ∧
      0 < nb ∧ p.times.length = nb ∧ p.widths.length = nb ∧ p.pmts.wfs.ncols = nb ∧ p.sipms.wfs.ncols = nb ∧
      p.pmts.ids = pmtIds ∧
      p.pmts.wfs.rows = ccwf.rows.map (fun r => (List.range nb).map fun b =>
        chargeIn r (max i0 (ratio * (i0 / ratio + k * b))) (min (i1 + 1) (ratio * (i0 / ratio + k * (b + 1))))) ∧
      (∃ (idx : List Nat) (rows : List (List ℚ)),
        sel ⟨sipmWfs.rows.map (binsOf (i0 / ratio) (i1 / ratio + 1) k), nb⟩ = .ok (idx, ⟨rows, nb⟩) ∧
        p.sipms.ids = idx.map (fun i => sipmIds.getD i 0) ∧ p.sipms.wfs = ⟨rows, nb⟩) ∧
      p.pmts.wfs.rows.map List.sum = ccwf.rows.map (fun r => chargeIn r i0 (i1 + 1)) ∧
      p.widths.sum = chargeIn widths i0 (i1 + 1) := by
  have hd := Nat.div_add_mod i0 ratio
  obtain ⟨ts, ws, M, h1, h2, h3, h4, h5, h6, h7, h8, h9, -⟩ :=
    pick_ok indices times widths ccwf (ratio * k) true ratio i0 i1 hh hl h01 hin (by omega) hw hwf (Nat.mul_pos hr hk)
  simp only [if_true] at h2 h3 h4 h7
  have hhs : (indices.map (· / ratio)).head? = some (i0 / ratio) := by simp [hh]
  have hls : (indices.map (· / ratio)).getLast? = some (i1 / ratio) := by simp [hl]
  have hle : i1 / ratio ≤ i1 := Nat.div_le_self _ _
  obtain ⟨ts', ws', M', g1, g2, g3, g4, g5, g6, g7, g8, g9, -⟩ :=
    pick_ok (indices.map (· / ratio)) (times.map fun x : ℚ => ((x / (ratio : ℚ)).floor : ℚ))
      (widths.map (· * ratio)) sipmWfs k false 40 (i0 / ratio) (i1 / ratio) hhs hls
      (Nat.div_le_div_right h01) hins (by rw [List.length_map]; omega) (by simp [hw]) hswf hk
  simp only [Bool.false_eq_true, if_false, Nat.zero_add] at g2 g3 g4 g7
  rw [← bins_eq i0 i1 ratio k h01 hr hk] at g2 g3 g4 g7
  obtain ⟨idx, rows, s1, s3, s2⟩ := hsel M' g5 g6
  obtain ⟨ids, t1, t2, t3⟩ := npTake_ok sipmIds idx (by intro i hi; rw [hsids]; exact s2 i hi)
  have hbins : 0 < (i0 % ratio + (i1 + 1 - i0) + ratio * k - 1) / (ratio * k) := by
    apply Nat.div_pos _ (Nat.mul_pos hr hk); omega
  set nb := (i0 % ratio + (i1 + 1 - i0) + ratio * k - 1) / (ratio * k) with hnb
  refine ⟨⟨ts, ws, ⟨pmtIds, M⟩, ⟨ids, ⟨rows, M'.ncols⟩⟩⟩, nb, ?_, hbins, h2, h3, h4, g4, rfl, ?_, ?_, h8, h9⟩
  · have hpm : Responses.mk? pmtIds M = .ok ⟨pmtIds, M⟩ := by simp [Responses.mk?, hids, h6]
    have hsm : Responses.mk? ids ⟨rows, M'.ncols⟩ =
        .ok ⟨ids, ⟨rows, M'.ncols⟩⟩ := by simp [Responses.mk?, t2, s3]
    have hdiv : ratio * k / ratio = k := Nat.mul_div_cancel_left k hr
    have hr0 : ratio ≠ 0 := by omega
    simp only [buildPeak, buildPmtResponses, buildSipmResponses, Option.isSome_some, Bool.true_and, hr0,
      decide_false, Bool.false_eq_true, if_false, h1, hpm, hdiv, g1, s1, t1, hsm]
    exact mk_ok _ _ _ _ (by omega) (by rw [h2, h4]) (Or.inl (by rw [h2]; exact g4.symm))
  · simp only [h7]
    apply List.map_congr_left
    intro r _
    apply List.map_congr_left
    intro b _
    have e1 : ∀ b, i0 - i0 % ratio + ratio * k * b = ratio * (i0 / ratio + k * b) := by
      intro b; rw [Nat.mul_add, ← Nat.mul_assoc]; omega
    rw [e1, e1]
  · refine ⟨idx, rows, ?_, ?_, by rw [g4]⟩
    · rw [← g4, ← s1]
      congr 1
      have e : M'.rows = sipmWfs.rows.map (binsOf (i0 / ratio) (i1 / ratio + 1) k) := by
        rw [g7]
        apply List.map_congr_left
        intro r _
        unfold binsOf
        rw [← bins_eq i0 i1 ratio k h01 hr hk]
        apply List.map_congr_left
        intro b _
        rw [Nat.sub_zero, Nat.max_eq_right (Nat.le_add_right _ _)]
      rw [← e]
    · apply List.ext_getElem?
      intro j
      rw [List.getElem?_map]
      cases hj : idx[j]? with
      | none =>
        have : idx.length ≤ j := by simpa using hj
        simp [List.getElem?_eq_none (show ids.length ≤ j by omega)]
      | some i =>
        have hi : i < sipmIds.length := by rw [hsids]; exact s2 i (List.mem_of_getElem? hj)
        rw [t3 j i hj]
        simp [hi]

/-- The simple selection by integrated charge is a selection. -/
theorem selectWfs_isSelection (thr : ℚ) (n : Nat) : IsSelection n (selectWfsAboveTimeIntegratedThr · thr) := by
  intro m _ hm
  have hlt : ∀ i ∈ whereIdx (fun x => decide (thr ≤ x)) m.sumTimes, i < m.rows.length := by
    intro i hi
    obtain ⟨x, hx, _⟩ := whereIdx_mem.1 hi
    have := (List.getElem?_eq_some_iff.1 hx).1
    simpa [Mat.sumTimes] using this
  obtain ⟨rows, h1, h2, h3⟩ := npTake_ok m.rows _ hlt
  refine ⟨_, rows, ?_, h2, by rw [← hm]; exact hlt⟩
  simp only [selectWfsAboveTimeIntegratedThr, h1]

/-- Without SiPMs (S1, or S2 without SiPM data) the peak can always be built. -/
theorem peak_without_sipms (indices : List Nat) (times widths : List ℚ) (ccwf : Mat) (pmtIds : List Nat)
    (stride ratio i0 i1 : Nat)
    (hh : indices.head? = some i0) (hl : indices.getLast? = some i1) (h01 : i0 ≤ i1) (hs : 0 < stride)
    (hin : i1 < ccwf.ncols) (ht : times.length = ccwf.ncols) (hw : widths.length = times.length) (hwf : ccwf.WF)
    (hids : pmtIds.length = ccwf.rows.length) :
    ∃ p nb, buildPeak indices times widths ccwf pmtIds stride ratio none = .ok p ∧
      0 < nb ∧ p.times.length = nb ∧ p.widths.length = nb ∧ p.pmts.wfs.ncols = nb ∧ p.pmts.ids = pmtIds ∧
      p.sipms = Responses.empty ∧
      p.pmts.wfs.rows = ccwf.rows.map (fun r => (List.range nb).map fun b =>
        chargeIn r (i0 + stride * b) (min (i1 + 1) (i0 + stride * (b + 1)))) ∧
      p.pmts.wfs.rows.map List.sum = ccwf.rows.map (fun r => chargeIn r i0 (i1 + 1)) ∧
      p.widths.sum = chargeIn widths i0 (i1 + 1) ∧
      p.pmts.wfs = ⟨ccwf.rows.map (binsOf i0 (i1 + 1) stride), nb⟩ ∧ p.widths = binsOf i0 (i1 + 1) stride widths := by
  obtain ⟨ts, ws, M, h1, h2, h3, h4, h5, h6, h7, h8, h9, h10⟩ :=
    pick_ok indices times widths ccwf stride false ratio i0 i1 hh hl h01 hin (by omega) hw hwf hs
  simp only [Bool.false_eq_true, if_false, Nat.zero_add] at h2 h3 h4 h7 h10
  have hbins : 0 < (i1 + 1 - i0 + stride - 1) / stride := by
    apply Nat.div_pos _ hs; omega
  have hrows : M.rows = ccwf.rows.map (fun r => (List.range ((i1 + 1 - i0 + stride - 1) / stride)).map fun b =>
      chargeIn r (i0 + stride * b) (min (i1 + 1) (i0 + stride * (b + 1)))) := by
    rw [h7]
    apply List.map_congr_left
    intro r _
    apply List.map_congr_left
    intro b _
    rw [Nat.sub_zero, show max i0 (i0 + stride * b) = i0 + stride * b by omega]
  refine ⟨⟨ts, ws, ⟨pmtIds, M⟩, Responses.empty⟩, _, ?_, hbins, h2, h3, h4, rfl, rfl, hrows, h8, h9, ?_, ?_⟩
  · have hpm : Responses.mk? pmtIds M = .ok ⟨pmtIds, M⟩ := by simp [Responses.mk?, hids, h6]
    simp only [buildPeak, buildPmtResponses, Option.isSome_none, Bool.false_and, Bool.false_eq_true, if_false,
      h1, hpm]
    exact mk_ok _ _ _ _ (by omega) (by rw [h2, h4]) (Or.inr rfl)
  · have hM : M = ⟨M.rows, M.ncols⟩ := rfl
    rw [hM, hrows, h4]
    rfl
  · rw [h10]
    apply List.map_congr_left
    intro b _
    rw [Nat.sub_zero, show max i0 (i0 + stride * b) = i0 + stride * b by omega]

/-! ### The search -/

private theorem isValid_eq (time length : MinMax) (w : ℚ) (p : List Nat) (hp : p ≠ []) :
    isValid time length w p = .ok (inWindow time.min time.max length.min length.max w p) := by
  cases p with
  | nil => exact absurd rfl hp
  | cons a t =>
    have hl : (a :: t).getLast? = some ((a :: t).getLast (by simp)) := List.getLast?_eq_some_getLast (by simp)
    simp only [isValid, inWindow, hl, List.head?_cons, MinMax.contains, Except.ok.injEq]
    rw [show ((((a :: t).getLast (by simp) : Nat) : ℚ) + 1 - (a : ℚ)) = (((a :: t).getLast (by simp) : Nat) : ℚ) - a + 1 by ring]
    simp only [Bool.and_assoc]

private theorem selectPeaks_eq (time length : MinMax) (w : ℚ) (ps : List (List Nat)) (h : ∀ p ∈ ps, p ≠ []) :
    selectPeaks time length w ps = .ok (ps.filter (inWindow time.min time.max length.min length.max w)) := by
  induction ps with
  | nil => rfl
  | cons p ps ih =>
    simp only [selectPeaks, isValid_eq time length w p (h p List.mem_cons_self),
      ih fun q hq => h q (List.mem_cons_of_mem _ hq), List.filter_cons]

private theorem buildAll_forall₂ {f : List Nat → Except PyErr Peak} {ss : List (List Nat)} {ps : List Peak} :
    buildAll f ss = .ok ps ↔ List.Forall₂ (fun s p => f s = .ok p) ss ps := by
  induction ss generalizing ps with
  | nil => simp only [buildAll, List.forall₂_nil_left_iff, Except.ok.injEq]; exact eq_comm
  | cons s ss ih =>
    simp only [buildAll]
    constructor
    · intro h
      cases h1 : f s with
      | error e => rw [h1] at h; cases h
      | ok p =>
        cases h2 : buildAll f ss with
        | error e => rw [h1, h2] at h; cases h
        | ok qs =>
          rw [h1, h2] at h
          cases h
          exact List.Forall₂.cons h1 (ih.1 h2)
    · intro h
      cases h with
      | cons h1 h2 => rw [h1, ih.2 h2]

private theorem buildAll_ok {f : List Nat → Except PyErr Peak} {ss : List (List Nat)} (h : ∀ s ∈ ss, ∃ p, f s = .ok p) :
    ∃ ps, buildAll f ss = .ok ps := by
  induction ss with
  | nil => exact ⟨[], rfl⟩
  | cons s ss ih =>
    obtain ⟨p, hp⟩ := h s List.mem_cons_self
    obtain ⟨ps, hps⟩ := ih fun q hq => h q (List.mem_cons_of_mem _ hq)
    exact ⟨p :: ps, by simp only [buildAll, hp, hps]⟩

theorem chargeIn_replicate (n lo hi : Nat) (w : ℚ) (h1 : lo ≤ hi) (h2 : hi ≤ n) :
    chargeIn (List.replicate n w) lo hi = ((hi : ℚ) - lo) * w := by
  rw [chargeIn_eq]
  have : pySlice lo hi (List.replicate n w) = List.replicate (hi - lo) w := by
    simp [pySlice]; omega
  rw [this]
  have : ∀ k : Nat, (List.replicate k w).sum = (k : ℚ) * w := by
    intro k
    induction k with
    | zero => simp
    | succ k ih => rw [List.replicate_succ, List.sum_cons, ih]; push_cast; ring
  rw [this, Nat.cast_sub h1]

/-- Conditions under which the SiPM part of an S2 can be built (nothing is required without SiPMs). -/
def SipmInput (ccwfs : Mat) (rebinStride ratio : Nat)
    (sipm : Option (Mat × List Nat × (Mat → Except PyErr (List Nat × Mat)))) : Prop :=
  ∀ m ids sel, sipm = some (m, ids, sel) →
    0 < ratio ∧ ratio ∣ rebinStride ∧ m.WF ∧ ids.length = m.rows.length ∧ IsSelection m.rows.length sel ∧
    (ccwfs.ncols - 1) / ratio < m.ncols

/-- **C12** For a non-empty increasing sequence of samples the search succeeds; there is one peak for each
piece of the (unique) grouping that is in the window, in order; its charge in each PMT is the sum of all
samples from the first to the last of the piece, its width their number times the sample width, and its SiPMs (if
any were given) are what the selection makes of the binned charges of the SiPM samples the piece touches; the
ranges of different peaks are disjoint, ordered in time and more than `stride` apart. -/
theorem findPeaks_spec (ccwfs : Mat) (index : List Nat) (time length : MinMax) (stride rebinStride : Nat)
    (pmtIds : List Nat) (w : ℚ) (ratio : Nat)
    (sipm : Option (Mat × List Nat × (Mat → Except PyErr (List Nat × Mat))))
    (hne : index ≠ []) (hinc : index.Pairwise (· < ·)) (hin : ∀ i ∈ index, i < ccwfs.ncols)
    (hwf : ccwfs.WF) (hids : pmtIds.length = ccwfs.rows.length) (hreb : 0 < rebinStride)
    (hsip : SipmInput ccwfs rebinStride ratio sipm) :
    ∃ pieces peaks, IsGrouping index stride pieces ∧
      findPeaks ccwfs index time length stride rebinStride pmtIds w ratio sipm = .ok peaks ∧
      List.Forall₂ (fun piece peak => ∃ first last, piece.head? = some first ∧ piece.getLast? = some last ∧
          first ≤ last ∧ peak.pmts.ids = pmtIds ∧
          peak.pmts.wfs.rows.map List.sum = ccwfs.rows.map (fun r => chargeIn r first (last + 1)) ∧
          peak.widths.sum = ((last : ℚ) + 1 - first) * w ∧
          (sipm = none → peak.sipms = Responses.empty) ∧
          (∀ m ids sel, sipm = some (m, ids, sel) → ∃ (idx : List Nat) (rows : List (List ℚ)),
            sel ⟨m.rows.map (binsOf (first / ratio) (last / ratio + 1) (rebinStride / ratio)), peak.times.length⟩ = .ok (idx, ⟨rows, peak.times.length⟩) ∧
            peak.sipms.ids = idx.map (fun i => ids.getD i 0) ∧ peak.sipms.wfs = ⟨rows, peak.times.length⟩))
        (pieces.filter (inWindow time.min time.max length.min length.max w)) peaks ∧
      (pieces.filter (inWindow time.min time.max length.min length.max w)).Pairwise
        (fun p q => ∀ a ∈ p, ∀ b ∈ q, a + stride < b) := by
  have hg := splitInPeaks_grouping index stride hne
  have hsel := selectPeaks_eq time length w _ hg.nonempty
  have hpiece : ∀ p ∈ splitInPeaks index stride, ∃ i0 i1, p.head? = some i0 ∧ p.getLast? = some i1 ∧ i0 ≤ i1 ∧
      i1 < ccwfs.ncols := by
    intro p hp
    have hpn := hg.nonempty p hp
    refine ⟨p.head hpn, p.getLast hpn, List.head?_eq_some_head hpn, List.getLast?_eq_some_getLast hpn, ?_, ?_⟩
    · have hpw : p.Pairwise (· < ·) := by
        have := hinc
        rw [← hg.cover] at this
        exact (List.pairwise_flatten.1 this).1 p hp
      cases p with
      | nil => exact absurd rfl hpn
      | cons a t =>
        simp only [List.head_cons]
        rcases List.mem_cons.1 (List.getLast_mem hpn) with h | h
        · omega
        · exact Nat.le_of_lt ((List.pairwise_cons.1 hpw).1 _ h)
    · apply hin
      rw [← hg.cover]
      exact List.mem_flatten.2 ⟨p, hp, List.getLast_mem hpn⟩
  have hbuild : ∀ p ∈ splitInPeaks index stride, ∃ peak,
      buildPeak p ((List.range ccwfs.ncols).map fun i => (i : ℚ) * w) (List.replicate ccwfs.ncols w) ccwfs pmtIds
        rebinStride ratio sipm = .ok peak ∧ ∃ first last, p.head? = some first ∧ p.getLast? = some last ∧
          first ≤ last ∧ peak.pmts.ids = pmtIds ∧
          peak.pmts.wfs.rows.map List.sum = ccwfs.rows.map (fun r => chargeIn r first (last + 1)) ∧
          peak.widths.sum = ((last : ℚ) + 1 - first) * w ∧
          (sipm = none → peak.sipms = Responses.empty) ∧
          (∀ m ids sel, sipm = some (m, ids, sel) → ∃ (idx : List Nat) (rows : List (List ℚ)),
            sel ⟨m.rows.map (binsOf (first / ratio) (last / ratio + 1) (rebinStride / ratio)), peak.times.length⟩ = .ok (idx, ⟨rows, peak.times.length⟩) ∧
            peak.sipms.ids = idx.map (fun i => ids.getD i 0) ∧ peak.sipms.wfs = ⟨rows, peak.times.length⟩) := by
    intro p hp
    obtain ⟨i0, i1, h1, h2, h3, h4⟩ := hpiece p hp
    have hwsum : chargeIn (List.replicate ccwfs.ncols w) i0 (i1 + 1) = ((i1 : ℚ) + 1 - i0) * w := by
      rw [chargeIn_replicate _ _ _ _ (by omega) (by omega)]
      push_cast; ring
    cases sipm with
    | none =>
      obtain ⟨peak, nb, b1, _, _, _, _, b6, b7, _, b9, b10, -⟩ := peak_without_sipms p
        ((List.range ccwfs.ncols).map fun i => (i : ℚ) * w) (List.replicate ccwfs.ncols w) ccwfs pmtIds
        rebinStride ratio i0 i1 h1 h2 h3 hreb h4 (by simp) (by simp) hwf hids
      exact ⟨peak, b1, i0, i1, h1, h2, h3, b6, b9, by rw [b10, hwsum], fun _ => b7, fun _ _ _ h => by cases h⟩
    | some ss =>
      obtain ⟨m, ids, sel⟩ := ss
      obtain ⟨s1, ⟨k, rfl⟩, s3, s4, s5, s6⟩ := hsip m ids sel rfl
      obtain ⟨peak, nb, b1, _, b3, _, _, _, b7, _, ⟨idx, rows, d1, d2, d4⟩, b10, b11⟩ := s2_synchronised p
        ((List.range ccwfs.ncols).map fun i => (i : ℚ) * w) (List.replicate ccwfs.ncols w) ccwfs pmtIds
        ratio k i0 i1 m ids sel h1 h2 h3 s1 (Nat.pos_of_mul_pos_left hreb) h4
        (Nat.lt_of_le_of_lt (Nat.div_le_div_right (by omega)) s6) (by simp) (by simp) hwf s3 hids s4 s5
      refine ⟨peak, b1, i0, i1, h1, h2, h3, b7, b10, by rw [b11, hwsum], fun h => (by cases h), fun m' ids' sel' h => ?_⟩
      simp only [Option.some.injEq, Prod.mk.injEq] at h
      obtain ⟨rfl, rfl, rfl⟩ := h
      refine ⟨idx, rows, ?_, d2, by rw [d4, b3]⟩
      rw [b3, Nat.mul_div_cancel_left k s1]
      exact d1
  obtain ⟨peaks, hpk⟩ := buildAll_ok (f := fun p => buildPeak p ((List.range ccwfs.ncols).map fun i => (i : ℚ) * w)
      (List.replicate ccwfs.ncols w) ccwfs pmtIds rebinStride ratio sipm)
    (ss := (splitInPeaks index stride).filter (inWindow time.min time.max length.min length.max w))
    (fun p hp => by
      obtain ⟨peak, h, _⟩ := hbuild p (List.mem_filter.1 hp).1
      exact ⟨peak, h⟩)
  refine ⟨splitInPeaks index stride, peaks, hg, by simp only [findPeaks, hsel, hpk], ?_, ?_⟩
  · have := buildAll_forall₂.1 hpk
    have hmem : ∀ p ∈ (splitInPeaks index stride).filter (inWindow time.min time.max length.min length.max w),
        p ∈ splitInPeaks index stride := fun p hp => (List.mem_filter.1 hp).1
    generalize (splitInPeaks index stride).filter (inWindow time.min time.max length.min length.max w) = ps at this hmem
    clear hpk
    induction this with
    | nil => exact List.Forall₂.nil
    | cons h _ ih =>
      refine List.Forall₂.cons ?_ (ih fun q hq => hmem q (List.mem_cons_of_mem _ hq))
      obtain ⟨peak, g1, g2⟩ := hbuild _ (hmem _ List.mem_cons_self)
      rw [h] at g1
      cases g1
      exact g2
  · exact (grouping_pairwise hg hinc).filter _

/-- Without SiPMs: the waveforms and the widths of each peak are those of its piece, added up in groups of `rebinStride` samples. -/
theorem findPeaks_bins (ccwfs : Mat) (index : List Nat) (time length : MinMax) (stride rebinStride : Nat) (pmtIds : List Nat) (w : ℚ) (ratio : Nat)
    (hne : index ≠ []) (hinc : index.Pairwise (· < ·)) (hin : ∀ i ∈ index, i < ccwfs.ncols) (hwf : ccwfs.WF) (hids : pmtIds.length = ccwfs.rows.length) (hreb : 0 < rebinStride) :
    ∃ pieces peaks, IsGrouping index stride pieces ∧ findPeaks ccwfs index time length stride rebinStride pmtIds w ratio none = .ok peaks ∧
      List.Forall₂ (fun piece peak => ∃ first last, piece.head? = some first ∧ piece.getLast? = some last ∧ first ≤ last ∧ last < ccwfs.ncols ∧ 0 < peak.times.length ∧ peak.widths.length = peak.times.length ∧
          peak.pmts.wfs = ⟨ccwfs.rows.map (binsOf first (last + 1) rebinStride), peak.times.length⟩ ∧
          peak.widths = binsOf first (last + 1) rebinStride (List.replicate ccwfs.ncols w) ∧ peak.sipms = Responses.empty)
        (pieces.filter (inWindow time.min time.max length.min length.max w)) peaks := by
  have hg := splitInPeaks_grouping index stride hne
  have hsel := selectPeaks_eq time length w _ hg.nonempty
  have hbuild : ∀ p ∈ splitInPeaks index stride, ∃ peak,
      buildPeak p ((List.range ccwfs.ncols).map fun i => (i : ℚ) * w) (List.replicate ccwfs.ncols w) ccwfs pmtIds rebinStride ratio none = .ok peak ∧
        ∃ first last, p.head? = some first ∧ p.getLast? = some last ∧ first ≤ last ∧ last < ccwfs.ncols ∧ 0 < peak.times.length ∧ peak.widths.length = peak.times.length ∧
          peak.pmts.wfs = ⟨ccwfs.rows.map (binsOf first (last + 1) rebinStride), peak.times.length⟩ ∧
          peak.widths = binsOf first (last + 1) rebinStride (List.replicate ccwfs.ncols w) ∧ peak.sipms = Responses.empty := by
    intro p hp
    have hpn := hg.nonempty p hp
    have hpw : p.Pairwise (· < ·) := by
      have := hinc
      rw [← hg.cover] at this
      exact (List.pairwise_flatten.1 this).1 p hp
    have h3 : p.head hpn ≤ p.getLast hpn := by
      cases p with
      | nil => exact absurd rfl hpn
      | cons a t =>
        simp only [List.head_cons]
        rcases List.mem_cons.1 (List.getLast_mem hpn) with h | h
        · omega
        · exact Nat.le_of_lt ((List.pairwise_cons.1 hpw).1 _ h)
    have h4 : p.getLast hpn < ccwfs.ncols := by
      apply hin
      rw [← hg.cover]
      exact List.mem_flatten.2 ⟨p, hp, List.getLast_mem hpn⟩
    obtain ⟨peak, nb, b1, b2, b3, b4, _, _, b7, _, _, _, b11, b12⟩ := peak_without_sipms p
      ((List.range ccwfs.ncols).map fun i => (i : ℚ) * w) (List.replicate ccwfs.ncols w) ccwfs pmtIds
      rebinStride ratio _ _ (List.head?_eq_some_head hpn) (List.getLast?_eq_some_getLast hpn) h3 hreb h4 (by simp) (by simp) hwf hids
    exact ⟨peak, b1, _, _, List.head?_eq_some_head hpn, List.getLast?_eq_some_getLast hpn, h3, h4, by omega, by omega, by rw [b11, b3], b12, b7⟩
  obtain ⟨peaks, hpk⟩ := buildAll_ok (f := fun p => buildPeak p ((List.range ccwfs.ncols).map fun i => (i : ℚ) * w)
      (List.replicate ccwfs.ncols w) ccwfs pmtIds rebinStride ratio none)
    (ss := (splitInPeaks index stride).filter (inWindow time.min time.max length.min length.max w))
    (fun p hp => by
      obtain ⟨peak, h, _⟩ := hbuild p (List.mem_filter.1 hp).1
      exact ⟨peak, h⟩)
  refine ⟨splitInPeaks index stride, peaks, hg, by simp only [findPeaks, hsel, hpk], ?_⟩
  have := buildAll_forall₂.1 hpk
  have hmem : ∀ p ∈ (splitInPeaks index stride).filter (inWindow time.min time.max length.min length.max w),
      p ∈ splitInPeaks index stride := fun p hp => (List.mem_filter.1 hp).1
  generalize (splitInPeaks index stride).filter (inWindow time.min time.max length.min length.max w) = ps at this hmem
  clear hpk
  induction this with
  | nil => exact List.Forall₂.nil
  | cons h _ ih =>
    refine List.Forall₂.cons ?_ (ih fun q hq => hmem q (List.mem_cons_of_mem _ hq))
    obtain ⟨peak, g1, g2⟩ := hbuild _ (hmem _ List.mem_cons_self)
    rw [h] at g1
    cases g1
    exact g2

/-- **C12** With no samples at all the search raises `IndexError` (the single empty piece has no first
element): callers must not call it with an empty sequence. -/
theorem findPeaks_empty (ccwfs : Mat) (time length : MinMax) (stride rebinStride : Nat) (pmtIds : List Nat)
    (w : ℚ) (ratio : Nat) (sipm : Option (Mat × List Nat × (Mat → Except PyErr (List Nat × Mat)))) :
    findPeaks ccwfs [] time length stride rebinStride pmtIds w ratio sipm = .error .indexError := by
  simp [findPeaks, splitInPeaks_nil, selectPeaks, isValid]

/-! ### Non-vacuity -/

/-- Two PMTs, ratio 2, rebin stride 4. -/
def exWf : Mat := ⟨[[0, 1, 2, 3, 1, 0, 0, 0, 4, 5], [1, 1, 1, 1, 1, 1, 1, 1, 1, 1]], 10⟩
def exSipm : Mat := ⟨[[1, 2, 3, 4, 5], [0, 0, 0, 0, 1]], 5⟩
example : SipmInput exWf 4 2 (some (exSipm, [7, 8], (selectWfsAboveTimeIntegratedThr · 1))) := by
  rintro m ids sel h
  simp only [Option.some.injEq, Prod.mk.injEq] at h
  obtain ⟨rfl, rfl, rfl⟩ := h
  exact ⟨by decide, by decide, by simp [Mat.WF, exSipm], rfl, selectWfs_isSelection 1 _, by decide⟩
example : exWf.WF := by simp [Mat.WF, exWf]
example : findPeaks exWf [1, 2, 3, 4, 8, 9] ⟨0, 100⟩ ⟨1, 10⟩ 2 4 [0, 1] 25 2
      (some (exSipm, [7, 8], (selectWfsAboveTimeIntegratedThr · 1))) =
    .ok [⟨[500 / 9, 100], [75, 25], ⟨[0, 1], ⟨[[6, 1], [3, 1]], 2⟩⟩, ⟨[7], ⟨[[3, 3]], 2⟩⟩⟩] := by decide +kernel

/-- Finding: the zero padding also pads the *times*; when no sample of the first bin is positive, the
time of the bin is the plain average including the padded zeros, outside the peak: here the peak starts
at 75 (sample 3) and its first time is 75/2. -/
example : findPeaks ⟨[[0, 0, 0, 0, 0, 1]], 6⟩ [3, 4, 5] ⟨0, 1000⟩ ⟨1, 10⟩ 1 2 [0] 25 2
      (some (⟨[[1, 1, 1]], 3⟩, [7], (selectWfsAboveTimeIntegratedThr · 0))) =
    .ok [⟨[75 / 2, 125], [25, 50], ⟨[0], ⟨[[0, 1]], 2⟩⟩, ⟨[7], ⟨[[1, 1]], 2⟩⟩⟩] := by decide +kernel

end Verif.Peaks
