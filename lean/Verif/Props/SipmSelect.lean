import Verif.Model.SipmSelect
import Verif.Spec.SipmSelect
import Verif.Props.Hypathia
import Verif.Props.Wfm
import Verif.Props.Sampling
import Mathlib.Control.Monad.Basic
/-!
# C103: the SiPM selections
-/
namespace Verif.SipmSelect
open Verif.Core (MinMax)
open Verif.Peaks Verif.PMaps Verif.PmapBuild

/-! ### Thresholds -/

theorem keepOver_eq (t : Option ℚ) (x : ℚ) : keepOver t x = if Over t x then x else 0 := by
  cases t with
  | none => rw [if_neg (by rintro ⟨v, h, _⟩; cases h)]; rfl
  | some v =>
    by_cases h : v < x
    · rw [if_pos ⟨v, rfl, h⟩]; simp [keepOver, h]
    · rw [if_neg (by rintro ⟨w, e, h'⟩; cases e; exact h h')]; simp [keepOver, h]

theorem map_keepOver (t : Option ℚ) (r : List ℚ) : r.map (keepOver t) = onlyOver t r := by
  unfold onlyOver
  exact List.map_congr_left fun x _ => keepOver_eq t x

theorem onlyOver_sum (t : Option ℚ) (r : List ℚ) : (onlyOver t r).sum = chargeOver t r := by
  unfold onlyOver chargeOver
  induction r with
  | nil => rfl
  | cons x r ih =>
    by_cases h : Over t x
    · simp [h, ih]
    · simp [h, ih]

/-- The selection with one threshold per row. -/
theorem select_rows (m : Mat) (ts : List (Option ℚ)) (int : ℚ) (hl : ts.length = m.rows.length) :
    ∃ idx rows, selectWfsAboveTimeIntegratedThr ⟨List.zipWith (fun r t => r.map (keepOver t)) m.rows ts, m.ncols⟩ int = .ok (idx, ⟨rows, m.ncols⟩) ∧ idx.Pairwise (· < ·) ∧
      rows.length = idx.length ∧ (∀ i, i ∈ idx ↔ ∃ r t, m.rows[i]? = some r ∧ ts[i]? = some t ∧ int ≤ chargeOver t r) ∧
      ∀ (k i : Nat) r t, idx[k]? = some i → m.rows[i]? = some r → ts[i]? = some t → rows[k]? = some (onlyOver t r) := by
  generalize hz : List.zipWith (fun (r : List ℚ) (t : Option ℚ) => r.map (keepOver t)) m.rows ts = z
  have hget : ∀ (i : Nat) (y : List ℚ), z[i]? = some y ↔ ∃ r t, m.rows[i]? = some r ∧ ts[i]? = some t ∧ y = onlyOver t r := by
    intro i y
    rw [← hz, List.getElem?_zipWith]
    cases h1 : m.rows[i]? <;> cases h2 : ts[i]? <;> simp [eq_comm, map_keepOver]
  have hlt : ∀ i ∈ whereIdx (fun x => decide (int ≤ x)) (z.map List.sum), i < z.length := by
    intro i hi
    obtain ⟨x, hx, _⟩ := whereIdx_mem.1 hi
    have := (List.getElem?_eq_some_iff.1 hx).1
    simpa using this
  obtain ⟨rows, g1, g2, g3⟩ := npTake_ok z _ hlt
  refine ⟨_, rows, by simp only [selectWfsAboveTimeIntegratedThr, Mat.sumTimes, g1], whereIdx_sorted _ _, g2, ?_, ?_⟩
  · intro i
    rw [whereIdx_mem]
    constructor
    · rintro ⟨x, hx, hc⟩
      rw [List.getElem?_map, Option.map_eq_some_iff] at hx
      obtain ⟨y, hy, rfl⟩ := hx
      obtain ⟨r, t, h1, h2, rfl⟩ := (hget i y).1 hy
      rw [onlyOver_sum] at hc
      exact ⟨r, t, h1, h2, by simpa using hc⟩
    · rintro ⟨r, t, h1, h2, h3⟩
      refine ⟨(onlyOver t r).sum, ?_, by rw [onlyOver_sum]; simpa using h3⟩
      rw [List.getElem?_map, (hget i _).2 ⟨r, t, h1, h2, rfl⟩]; rfl
  · intro k i r t hk h1 h2
    rw [g3 k i hk]
    exact (hget i _).2 ⟨r, t, h1, h2, rfl⟩

theorem thrRows_length {n : Nat} {t : Thr} {ts : List (Option ℚ)} (h : thrRows n t = .ok ts) : ts.length = n := by
  cases t with
  | one v => cases h; simp
  | each l =>
    simp only [thrRows] at h
    split at h
    · cases h
    · rename_i h1; cases h; omega

/-- The thresholds fit `n` rows. -/
def Fits (n : Nat) : Thr → Prop
  | .one _ => True
  | .each ts => ts.length = n

theorem fits_rows {n : Nat} {t : Thr} (h : Fits n t) : ∃ ts, thrRows n t = .ok ts := by
  cases t with
  | one v => exact ⟨_, rfl⟩
  | each l => exact ⟨l, by simp only [Fits] at h; simp [thrRows, h]⟩

/-- The threshold of row `i`. -/
def thrAt : Thr → Nat → Option ℚ
  | .one t, _ => some t
  | .each ts, i => ts.getD i none

theorem thrRows_get {n : Nat} {t : Thr} {ts : List (Option ℚ)} (h : thrRows n t = .ok ts) {i : Nat} (hi : i < n) : ts[i]? = some (thrAt t i) := by
  cases t with
  | one v => cases h; simp [hi, thrAt]
  | each l =>
    have hl := thrRows_length h
    simp only [thrRows] at h
    split at h
    · cases h
    · cases h
      have hi' : i < ts.length := by omega
      simp [thrAt, List.getD_eq_getElem?_getD, hi']

theorem thresholdSel_spec {m : Mat} {t : Thr} (int : ℚ) (hf : Fits m.rows.length t) :
    ∃ idx rows, thresholdSel t int m = .ok (idx, ⟨rows, m.ncols⟩) ∧ idx.Pairwise (· < ·) ∧ rows.length = idx.length ∧
      (∀ i, i ∈ idx ↔ ∃ r, m.rows[i]? = some r ∧ int ≤ chargeOver (thrAt t i) r) ∧
      ∀ (k i : Nat) r, idx[k]? = some i → m.rows[i]? = some r → rows[k]? = some (onlyOver (thrAt t i) r) := by
  obtain ⟨ts, hts⟩ := fits_rows hf
  obtain ⟨idx, rows, h1, h2, h3, h4, h5⟩ := select_rows m ts int (thrRows_length hts)
  refine ⟨idx, rows, by simp only [thresholdSel, hts]; exact h1, h2, h3, fun i => ?_, fun k i r hk hr => ?_⟩
  · rw [h4]
    constructor
    · rintro ⟨r, t', a, b, c⟩
      rw [thrRows_get hts (List.getElem?_eq_some_iff.1 a).1] at b
      cases b
      exact ⟨r, a, c⟩
    · rintro ⟨r, a, c⟩
      exact ⟨r, _, a, thrRows_get hts (List.getElem?_eq_some_iff.1 a).1, c⟩
  · exact h5 k i r _ hk hr (thrRows_get hts (List.getElem?_eq_some_iff.1 hr).1)

theorem thresholdSel_isSelection {n : Nat} {t : Thr} (int : ℚ) (hf : Fits n t) : IsSelection n (thresholdSel t int) := by
  intro m _ hm
  subst hm
  obtain ⟨idx, rows, h1, _, h3, h4, _⟩ := thresholdSel_spec (m := m) int hf
  refine ⟨idx, rows, h1, h3, fun i hi => ?_⟩
  obtain ⟨r, hr, _⟩ := (h4 i).1 hi
  exact (List.getElem?_eq_some_iff.1 hr).1

/-- C103: another number of thresholds than of waveforms is a `ValueError`, whatever the waveforms. -/
theorem thresholdSel_mismatch (ts : List (Option ℚ)) (int : ℚ) (m : Mat) (h : ts.length ≠ m.rows.length) : thresholdSel (.each ts) int m = .error .valueError := by
  simp [thresholdSel, thrRows, h]

/-! ### The positions of the active SiPMs -/

theorem active_get {sipms : List LoadDb.SipmRow} {rows : List (List Int)} {x : (LoadDb.SipmRow × List Int) × Nat} :
    x ∈ activeSipms sipms rows ↔ sipms[x.2]? = some x.1.1 ∧ rows[x.2]? = some x.1.2 ∧ x.1.1.active ≠ 0 := by
  obtain ⟨⟨s, r⟩, j⟩ := x
  unfold activeSipms
  rw [List.mem_filter, List.mem_zipIdx_iff_getElem?, List.getElem?_zip_eq_some]
  simp [and_assoc]

theorem active_sorted (sipms : List LoadDb.SipmRow) (rows : List (List Int)) : ((activeSipms sipms rows).map Prod.snd).Pairwise (· < ·) := by
  unfold activeSipms
  rw [zipIdx_where (fun x : LoadDb.SipmRow × List Int => decide (x.1.active ≠ 0)) (sipms.zip rows) 0]
  simpa using whereIdx_sorted _ _

/-- From the rows given to the selection to the table. -/
theorem threshold_part {c : Config} {t : Thr} {int : ℚ} {thr : Nat → Option ℚ} {sipms : List LoadDb.SipmRow} {rows : List (List Int)} {piece : List Nat} {peak : Peak}
    (hc : c.sel = thresholdSel t int) (hf : Fits (activeSipms sipms rows).length t)
    (hthr : ∀ i j, ((activeSipms sipms rows).map Prod.snd)[i]? = some j → thrAt t i = thr j) (h : SipmPart c sipms rows piece peak) :
    ThresholdPart c thr int sipms rows piece peak := by
  obtain ⟨first, last, n, idx, wfs, h1, h2, h3, h4, h5, h6⟩ := h
  obtain ⟨idx', wfs', g1, g2, g3, g4, g5⟩ := thresholdSel_spec
    (m := ⟨(activeSipms sipms rows).map fun x => binsOf (first / c.ratio) (last / c.ratio + 1) (c.s2.rebin / c.ratio) (sipmWf x.1.1 x.1.2), n⟩) (t := t) int (by simpa using hf)
  rw [hc, g1] at h3
  cases h3
  have hpos : ∀ i ∈ idx, ∃ x, (activeSipms sipms rows)[i]? = some x := by
    intro i hi
    obtain ⟨r, hr, _⟩ := (g4 i).1 hi
    simp only [List.getElem?_map, Option.map_eq_some_iff] at hr
    obtain ⟨x, hx, _⟩ := hr
    exact ⟨x, hx⟩
  have hid : ∀ i x, (activeSipms sipms rows)[i]? = some x → ((activeSipms sipms rows).map Prod.snd).getD i 0 = x.2 := by
    intro i x hx
    simp [List.getD_eq_getElem?_getD, hx]
  have hmem : ∀ j, j ∈ peak.sipms.ids ↔ ∃ i x, i ∈ idx ∧ (activeSipms sipms rows)[i]? = some x ∧ x.2 = j := by
    intro j
    rw [h4, List.mem_map]
    constructor
    · rintro ⟨i, hi, rfl⟩
      obtain ⟨x, hx⟩ := hpos i hi
      exact ⟨i, x, hi, hx, (hid i x hx).symm⟩
    · rintro ⟨i, x, hi, hx, rfl⟩
      exact ⟨i, hi, hid i x hx⟩
  refine ⟨first, last, h1, h2, ?_, by rw [h5, h4]; simpa using g3, fun j => ?_, fun k j s r hk hs hr => ?_⟩
  · rw [h4, List.pairwise_map]
    refine List.Pairwise.imp_of_mem ?_ g2
    intro a b ha hb hab
    obtain ⟨x, hx⟩ := hpos a ha
    obtain ⟨y, hy⟩ := hpos b hb
    rw [hid a x hx, hid b y hy]
    have hs := active_sorted sipms rows
    have hA := (List.getElem?_eq_some_iff.1 hx)
    have hB := (List.getElem?_eq_some_iff.1 hy)
    have := List.pairwise_iff_getElem.1 hs a b (by simpa using hA.1) (by simpa using hB.1) hab
    simpa [hA.2, hB.2] using this
  · rw [hmem]
    constructor
    · rintro ⟨i, x, hi, hx, rfl⟩
      obtain ⟨hs, hr, ha⟩ := active_get.1 (List.mem_of_getElem? hx)
      refine ⟨x.1.1, x.1.2, hs, hr, ha, ?_⟩
      obtain ⟨r, hr', hge⟩ := (g4 i).1 hi
      simp only [List.getElem?_map, hx, Option.map_some, Option.some.injEq] at hr'
      subst hr'
      rwa [hthr i x.2 (by rw [List.getElem?_map, hx]; rfl)] at hge
    · rintro ⟨s, r, hs, hr, ha, hge⟩
      have hm : (((s, r), j) : (LoadDb.SipmRow × List Int) × Nat) ∈ activeSipms sipms rows := active_get.2 ⟨hs, hr, ha⟩
      obtain ⟨i, hi⟩ := List.mem_iff_getElem?.1 hm
      refine ⟨i, _, (g4 i).2 ⟨_, by simp only [List.getElem?_map, hi, Option.map_some]; rfl, ?_⟩, hi, rfl⟩
      have e : thrAt t i = thr j := hthr i j (by rw [List.getElem?_map, hi]; rfl)
      rw [e]; exact hge
  · rw [h4, List.getElem?_map, Option.map_eq_some_iff] at hk
    obtain ⟨i, hi, hj⟩ := hk
    obtain ⟨x, hx⟩ := hpos i (List.mem_of_getElem? hi)
    rw [hid i x hx] at hj
    subst hj
    obtain ⟨hs', hr', _⟩ := active_get.1 (List.mem_of_getElem? hx)
    rw [hs'] at hs
    rw [hr'] at hr
    cases hs; cases hr
    rw [h5]
    rw [← hthr i x.2 (by rw [List.getElem?_map, hx]; rfl)]
    exact g5 k i _ hi (by simp only [List.getElem?_map, hx, Option.map_some])

theorem found_imp {s : Search} {w : ℚ} {idx : List Nat} {R S : List Nat → Peak → Prop} {ps : List Peak} (h : ∀ piece peak, R piece peak → S piece peak) (hf : Found s w idx R ps) : Found s w idx S ps := by
  obtain ⟨pieces, h1, h2⟩ := hf
  exact ⟨pieces, h1, h2.imp h⟩

/-! ### The algorithms -/

theorem active_length {sipms : List LoadDb.SipmRow} {rows : List (List Int)} (hl : rows.length = sipms.length) : (activeSipms sipms rows).length = (sipms.filter fun s => decide (s.active ≠ 0)).length := by
  have h1 := zipIdx_fst (fun x : LoadDb.SipmRow × List Int => decide (x.1.active ≠ 0)) (sipms.zip rows) 0
  have h2 := zip_fst (fun s : LoadDb.SipmRow => decide (s.active ≠ 0)) sipms rows hl
  have e1 := congrArg List.length h1
  have e2 := congrArg List.length h2
  rw [List.length_map] at e1 e2
  rw [← e2, ← e1]
  rfl

/-- **C103** With a common threshold, in a run of irene with any pattern of active SiPMs, the SiPMs of every S2 are exactly the active ones whose bins over the threshold add up to at least the threshold of the
S2, with the other bins set to zero. -/
theorem irene_common {std : List ℚ → ℚ} {tan : ℚ → ℚ} {c : Config} {nb nMaw : Nat} {thrMaw : ℚ} {pmts : List LoadDb.PmtRow} {sipms : List LoadDb.SipmRow} {rwf : List (List ℚ)} {n : Nat}
    {sipmRwf : List (List Int)} {nSipm : Nat} {thr thrS2 : ℚ} {noise : Option Sampling.Sampler} (hc : selectAlgorithm std (.threshold .common thr thrS2 noise) = .ok c.sel)
    (hf : Flags pmts sipms) (hP : rwf.length = pmts.length) (hPn : ∀ r ∈ rwf, r.length = n) (hS : sipmRwf.length = sipms.length)
    (hSn : ∀ r ∈ sipmRwf, r.length = nSipm) (hg : Good c n nSipm) (hn : 400 ≤ n) (hm : 0 < nMaw)
    (hco : ∀ p ∈ pmts, p.active = 1 → ∃ cc cb, p.coeffC = some cc ∧ p.coeffBlr = some cb ∧ 0 < cc ∧ cc < 1 ∧ cb ≠ 0) :
    IsPmap tan c nb nMaw thrMaw pmts rwf n (ThresholdPart c (fun _ => some thr) thrS2 sipms sipmRwf) (ireneEvent tan c nb nMaw thrMaw pmts sipms rwf n sipmRwf nSipm) := by
  have hsel : c.sel = thresholdSel (.one thr) thrS2 := by
    cases noise <;> simp [selectAlgorithm, thresholdSelection, actualThr] at hc <;> exact hc.symm
  obtain ⟨ys, hys, s1, s2, e1, e2, h1, h2⟩ := irene_pmap (tan := tan) (c := c) (nb := nb) (nMaw := nMaw) (thrMaw := thrMaw) (pmts := pmts) (sipms := sipms) (rwf := rwf) (n := n)
    (sipmRwf := sipmRwf) (nSipm := nSipm) hf hP hPn hS hSn hg (by rw [hsel]; exact thresholdSel_isSelection _ trivial) hn hm hco
  refine ⟨ys, hys, s1, s2, e1, e2, h1, fun n1 n2 => ?_⟩
  obtain ⟨s1s, s2s, r1, r2, r3⟩ := h2 n1 n2
  refine ⟨s1s, s2s, r1, r2, found_imp (fun piece peak hp => ⟨hp.1, ?_⟩) r3⟩
  exact threshold_part hsel (t := .one thr) trivial (fun _ _ _ => rfl) hp.2

theorem active_all {sipms : List LoadDb.SipmRow} (hall : ∀ s ∈ sipms, s.active = 1) (rows : List (List Int)) : activeSipms sipms rows = (sipms.zip rows).zipIdx := by
  unfold activeSipms
  rw [List.filter_eq_self]
  intro x hx
  have := List.mem_of_getElem? (List.mem_zipIdx_iff_getElem?.1 hx)
  have h1 := hall x.1.1 (List.of_mem_zip (a := x.1.1) (b := x.1.2) this).1
  simp [h1]

/-- **C103** With individual thresholds, if all the SiPMs of the run are active, the same holds with the threshold of each SiPM: that of the fraction `frac` of its own noise (C44). -/
theorem irene_individual {std : List ℚ → ℚ} {tan : ℚ → ℚ} {c : Config} {nb nMaw : Nat} {thrMaw : ℚ} {pmts : List LoadDb.PmtRow} {sipms : List LoadDb.SipmRow} {rwf : List (List ℚ)} {n : Nat}
    {sipmRwf : List (List Int)} {nSipm : Nat} {frac thrS2 : ℚ} {noise : Sampling.Sampler} {ts : List (Option ℚ)} (hthr : Sampling.computeThresholds noise frac 1 = .ok ts) (hts : ts.length = sipms.length)
    (hc : selectAlgorithm std (.threshold .individual frac thrS2 (some noise)) = .ok c.sel) (hall : ∀ s ∈ sipms, s.active = 1)
    (hf : Flags pmts sipms) (hP : rwf.length = pmts.length) (hPn : ∀ r ∈ rwf, r.length = n) (hS : sipmRwf.length = sipms.length)
    (hSn : ∀ r ∈ sipmRwf, r.length = nSipm) (hg : Good c n nSipm) (hn : 400 ≤ n) (hm : 0 < nMaw)
    (hco : ∀ p ∈ pmts, p.active = 1 → ∃ cc cb, p.coeffC = some cc ∧ p.coeffBlr = some cb ∧ 0 < cc ∧ cc < 1 ∧ cb ≠ 0) :
    IsPmap tan c nb nMaw thrMaw pmts rwf n (ThresholdPart c (fun j => ts.getD j none) thrS2 sipms sipmRwf) (ireneEvent tan c nb nMaw thrMaw pmts sipms rwf n sipmRwf nSipm) := by
  have hsel : c.sel = thresholdSel (.each ts) thrS2 := by
    simp [selectAlgorithm, thresholdSelection, actualThr, hthr] at hc
    exact hc.symm
  have hlen : (activeSipms sipms sipmRwf).length = sipms.length := by rw [active_all hall]; simp [hS]
  obtain ⟨ys, hys, s1, s2, e1, e2, h1, h2⟩ := irene_pmap (tan := tan) (c := c) (nb := nb) (nMaw := nMaw) (thrMaw := thrMaw) (pmts := pmts) (sipms := sipms) (rwf := rwf) (n := n)
    (sipmRwf := sipmRwf) (nSipm := nSipm) hf hP hPn hS hSn hg
    (by rw [hsel, ← active_length hS]; exact thresholdSel_isSelection _ (by simp only [Fits]; omega)) hn hm hco
  refine ⟨ys, hys, s1, s2, e1, e2, h1, fun n1 n2 => ?_⟩
  obtain ⟨s1s, s2s, r1, r2, r3⟩ := h2 n1 n2
  refine ⟨s1s, s2s, r1, r2, found_imp (fun piece peak hp => ⟨hp.1, ?_⟩) r3⟩
  refine threshold_part hsel (t := .each ts) (by simp only [Fits]; omega) (fun i j hij => ?_) hp.2
  rw [active_all hall, List.getElem?_map, Option.map_eq_some_iff] at hij
  obtain ⟨x, hx, rfl⟩ := hij
  rw [List.getElem?_zipIdx, Option.map_eq_some_iff] at hx
  obtain ⟨y, _, rfl⟩ := hx
  simp [thrAt]

/-- **C103** Without cut all the active SiPMs are in every S2, with all their bins. -/
theorem irene_no_cut {std : List ℚ → ℚ} {tan : ℚ → ℚ} {c : Config} {nb nMaw : Nat} {thrMaw : ℚ} {pmts : List LoadDb.PmtRow} {sipms : List LoadDb.SipmRow} {rwf : List (List ℚ)} {n : Nat}
    {sipmRwf : List (List Int)} {nSipm : Nat} (hc : selectAlgorithm std .noCut = .ok c.sel)
    (hf : Flags pmts sipms) (hP : rwf.length = pmts.length) (hPn : ∀ r ∈ rwf, r.length = n) (hS : sipmRwf.length = sipms.length)
    (hSn : ∀ r ∈ sipmRwf, r.length = nSipm) (hg : Good c n nSipm) (hn : 400 ≤ n) (hm : 0 < nMaw)
    (hco : ∀ p ∈ pmts, p.active = 1 → ∃ cc cb, p.coeffC = some cc ∧ p.coeffBlr = some cb ∧ 0 < cc ∧ cc < 1 ∧ cb ≠ 0) :
    IsPmap tan c nb nMaw thrMaw pmts rwf n (AllPart c sipms sipmRwf) (ireneEvent tan c nb nMaw thrMaw pmts sipms rwf n sipmRwf nSipm) := by
  have hsel : c.sel = noCutSel := by
    simp [selectAlgorithm] at hc
    exact hc.symm
  obtain ⟨ys, hys, s1, s2, e1, e2, h1, h2⟩ := irene_pmap (tan := tan) (c := c) (nb := nb) (nMaw := nMaw) (thrMaw := thrMaw) (pmts := pmts) (sipms := sipms) (rwf := rwf) (n := n)
    (sipmRwf := sipmRwf) (nSipm := nSipm) hf hP hPn hS hSn hg
    (by
      rw [hsel]
      intro m _ hm
      exact ⟨_, m.rows, rfl, by simp, fun i hi => by rw [← hm]; exact List.mem_range.1 hi⟩) hn hm hco
  refine ⟨ys, hys, s1, s2, e1, e2, h1, fun n1 n2 => ?_⟩
  obtain ⟨s1s, s2s, r1, r2, r3⟩ := h2 n1 n2
  refine ⟨s1s, s2s, r1, r2, found_imp (fun piece peak hp => ⟨hp.1, ?_⟩) r3⟩
  obtain ⟨first, last, k, idx, wfs, g1, g2, g3, g4, g5, g6⟩ := hp.2
  rw [hsel] at g3
  simp only [noCutSel, Except.ok.injEq, Prod.mk.injEq, Mat.mk.injEq] at g3
  obtain ⟨rfl, rfl, _⟩ := g3
  refine ⟨first, last, g1, g2, ?_, by rw [g5]⟩
  rw [g4, List.length_map]
  apply List.ext_getElem (by simp)
  intro i h1 h2
  simp at h1
  simp [h1]

/-! ### What goes wrong with inactive SiPMs -/

theorem findPeaks_sel {m : Mat} {idx : List Nat} {time length : MinMax} {stride rebin ratio : Nat} {ids : List Nat} {w : ℚ} {sm : Mat} {sids : List Nat} {sel : Mat → Except PyErr (List Nat × Mat)}
    {ps : List Peak} (h : findPeaks m idx time length stride rebin ids w ratio (some (sm, sids, sel)) = .ok ps) (hne : ∀ m', m'.rows.length = sm.rows.length → ∃ e, sel m' = .error e) : ps = [] := by
  unfold findPeaks at h
  simp only at h
  split at h
  · cases h
  · rename_i splits _
    cases splits with
    | nil => cases h; rfl
    | cons s ss =>
      simp only [buildAll] at h
      split at h
      · cases h
      · rename_i hb
        unfold buildPeak at hb
        split at hb
        · cases hb
        · split at hb
          · cases hb
          · simp only at hb
            split at hb
            · cases hb
            · rename_i hs
              unfold buildSipmResponses at hs
              split at hs
              · cases hs
              · rename_i hp
                obtain ⟨e, he⟩ := hne _ (pick_rows hp)
                simp only at he
                rw [he] at hs
                cases hs

theorem irene_sel_fails {tan : ℚ → ℚ} {c : Config} {nb nMaw : Nat} {thrMaw : ℚ} {pmts : List LoadDb.PmtRow} {sipms : List LoadDb.SipmRow} {rwf : List (List ℚ)} {n : Nat}
    {sipmRwf : List (List Int)} {nSipm : Nat} (hf : Flags pmts sipms) (hS : sipmRwf.length = sipms.length)
    (hne : ∀ m : Mat, m.rows.length = (sipms.filter fun s => decide (s.active ≠ 0)).length → ∃ e, c.sel m = .error e) {s1s s2s : List Peak}
    (h : ireneEvent tan c nb nMaw thrMaw pmts sipms rwf n sipmRwf nSipm = .ok (some (s1s, s2s))) : s2s = [] := by
  unfold ireneEvent at h
  split at h
  · cases h
  · rename_i mm hmask
    have hm2 : mm.2 = ((sipms.zip sipmRwf).filter fun x => decide (x.1.active ≠ 0)).map Prod.snd := by
      rw [maskSensors_spec] at hmask
      split at hmask
      · cases hmask; rfl
      · cases hmask
    split at h
    · cases h
    · split at h
      · cases h
      · unfold computePmap at h
        split at h
        · cases h
        · rw [hm2] at h
          obtain ⟨cal, hcal, hlen⟩ : ∃ cal, Calib.subtractAndCalibrate .mode (sipmGains sipms) (((sipms.zip sipmRwf).filter fun x => decide (x.1.active ≠ 0)).map Prod.snd) = .ok cal ∧
              cal.length = (sipms.filter fun s => decide (s.active ≠ 0)).length := by
            refine ⟨_, sipm_cal hf.2 hS, ?_⟩
            rw [List.length_map, ← zip_fst (fun s : LoadDb.SipmRow => decide (s.active ≠ 0)) sipms sipmRwf hS, List.length_map]
          rw [hcal] at h
          simp only at h
          split at h
          · cases h
          · rename_i hb
            cases h
            unfold buildPmap getPmap at hb
            split at hb
            · cases hb
            · split at hb
              · cases hb
              · rename_i h2
                cases hb
                exact findPeaks_sel h2 (fun m' hm' => hne m' (by rw [hm']; exact hlen))

theorem inactive_lt {sipms : List LoadDb.SipmRow} (hoff : ∃ s ∈ sipms, s.active = 0) : (sipms.filter fun s => decide (s.active ≠ 0)).length < sipms.length := by
  obtain ⟨s, hs, ha⟩ := hoff
  rcases Nat.lt_or_ge (sipms.filter fun s : LoadDb.SipmRow => decide (s.active ≠ 0)).length sipms.length with h | h
  · exact h
  · have := List.length_filter_eq_length_iff.1 (le_antisymm (List.length_filter_le ..) h) s hs
    simp [ha] at this

/-- **C103 (finding)** With individual thresholds and an inactive SiPM in the run irene never gives a PMap with an S2: there is a threshold for each SiPM of the table but a waveform for each active one. -/
theorem irene_individual_inactive {std : List ℚ → ℚ} {tan : ℚ → ℚ} {c : Config} {nb nMaw : Nat} {thrMaw : ℚ} {pmts : List LoadDb.PmtRow} {sipms : List LoadDb.SipmRow} {rwf : List (List ℚ)} {n : Nat}
    {sipmRwf : List (List Int)} {nSipm : Nat} {frac thrS2 : ℚ} {noise : Sampling.Sampler} {ts : List (Option ℚ)} (hthr : Sampling.computeThresholds noise frac 1 = .ok ts) (hts : ts.length = sipms.length)
    (hc : selectAlgorithm std (.threshold .individual frac thrS2 (some noise)) = .ok c.sel) (hoff : ∃ s ∈ sipms, s.active = 0) (hf : Flags pmts sipms) (hS : sipmRwf.length = sipms.length)
    {s1s s2s : List Peak} (h : ireneEvent tan c nb nMaw thrMaw pmts sipms rwf n sipmRwf nSipm = .ok (some (s1s, s2s))) : s2s = [] := by
  have hsel : c.sel = thresholdSel (.each ts) thrS2 := by
    simp [selectAlgorithm, thresholdSelection, actualThr, hthr] at hc
    exact hc.symm
  refine irene_sel_fails hf hS (fun m hm => ?_) h
  have := inactive_lt hoff
  exact ⟨.valueError, by rw [hsel]; exact thresholdSel_mismatch ts _ _ (by omega)⟩

/-- **C103 (finding)** pyrrha with an inactive SiPM: whatever the waveforms, if the first selection has any SiPM the selection fails; otherwise nothing is selected. -/
theorem pyrrha_inactive {std : List ℚ → ℚ} {nsigma proximity padding : ℚ} {pos : List Wfm.Pos} {sel : Mat → Except PyErr (List Nat × Mat)}
    (hc : selectAlgorithm std (.pyrrha "median_std_method" nsigma proximity padding pos) = .ok sel) {m : Mat} (hm : m.rows.length < pos.length) :
    (∀ (i : Nat) r, m.rows[i]? = some r → Wfm.median m.sumTimes + nsigma * std m.sumTimes ≤ r.sum → sel m = .error .valueError) ∧
    ((∀ r ∈ m.rows, r.sum < Wfm.median m.sumTimes + nsigma * std m.sumTimes) → sel m = .ok ([], ⟨[], m.ncols⟩)) := by
  simp only [selectAlgorithm, Except.ok.injEq] at hc
  subst hc
  have hlen : (Wfm.medianStd std m nsigma).length = m.rows.length := by simp [Wfm.medianStd, Mat.sumTimes]
  have hcm : Wfm.chooseMethod std m "median_std_method" nsigma = .ok (Wfm.medianStd std m nsigma) := by simp [Wfm.chooseMethod]
  unfold pyrrhaSel
  rw [hcm]
  simp only [if_neg (show ¬ (Wfm.medianStd std m nsigma).length = pos.length by omega)]
  constructor
  · intro i r hr hge
    rw [if_pos]
    rw [List.any_eq_true]
    refine ⟨true, ?_, rfl⟩
    unfold Wfm.medianStd
    rw [List.mem_map]
    exact ⟨r.sum, by unfold Mat.sumTimes; exact List.mem_map.2 ⟨r, List.mem_of_getElem? hr, rfl⟩, by simpa using hge⟩
  · intro hlt
    rw [if_neg]
    rw [List.any_eq_true]
    rintro ⟨b, hb, hb'⟩
    unfold Wfm.medianStd at hb
    obtain ⟨q, hq, rfl⟩ := List.mem_map.1 hb
    conv at hq => unfold Mat.sumTimes
    obtain ⟨r, hr, rfl⟩ := List.mem_map.1 hq
    have := hlt r hr
    simp at hb'
    linarith

/-- **C103** pyrrha with as many waveforms as SiPMs in the table: exactly the SiPMs within the padding radius of a SiPM of the first selection (charge of at least the median plus `nsigma` deviations) that has
another one closer than the proximity threshold, with their waveforms. -/
theorem pyrrha_select {std : List ℚ → ℚ} {nsigma proximity padding : ℚ} {pos : List Wfm.Pos} {sel : Mat → Except PyErr (List Nat × Mat)}
    (hc : selectAlgorithm std (.pyrrha "median_std_method" nsigma proximity padding pos) = .ok sel) {m : Mat} (hm : m.rows.length = pos.length) :
    ∃ ids out, sel m = .ok (ids, out) ∧ ids.Pairwise (· < ·) ∧ out.rows.length = ids.length ∧ (∀ (k i : Nat), ids[k]? = some i → out.rows[k]? = m.rows[i]?) ∧
      ∀ j, j ∈ ids ↔ ∃ (i l : Nat) (p q s : Wfm.Pos) (ri rl : List ℚ), m.rows[i]? = some ri ∧ Wfm.median m.sumTimes + nsigma * std m.sumTimes ≤ ri.sum ∧ m.rows[l]? = some rl ∧ Wfm.median m.sumTimes + nsigma * std m.sumTimes ≤ rl.sum ∧ l ≠ i ∧
        pos[i]? = some p ∧ pos[l]? = some s ∧ pos[j]? = some q ∧ Wfm.distance p s < (proximity : ℝ) ∧ Wfm.distance p q ≤ (padding : ℝ) := by
  simp only [selectAlgorithm, Except.ok.injEq] at hc
  subst hc
  have hlen : (Wfm.medianStd std m nsigma).length = pos.length := by simp [Wfm.medianStd, Mat.sumTimes, hm]
  have hcm : Wfm.chooseMethod std m "median_std_method" nsigma = .ok (Wfm.medianStd std m nsigma) := by simp [Wfm.chooseMethod]
  obtain ⟨ids, out, h1, h2, h3, h4, h5⟩ := Wfm.spatial_selection m (Wfm.medianStd std m nsigma) pos proximity padding hlen hm
  refine ⟨ids, out, by unfold pyrrhaSel; rw [hcm]; simp only [if_pos hlen]; exact h1, h2, h3, h4, fun j => ?_⟩
  have hs : ∀ i, Wfm.Selected (Wfm.medianStd std m nsigma) i ↔ ∃ r, m.rows[i]? = some r ∧ Wfm.median m.sumTimes + nsigma * std m.sumTimes ≤ r.sum := by
    intro i
    unfold Wfm.Selected Wfm.medianStd
    rw [List.getElem?_map, Option.map_eq_some_iff]
    conv_lhs => enter [1, a, 1]; unfold Mat.sumTimes
    simp only [List.getElem?_map, Option.map_eq_some_iff]
    constructor
    · rintro ⟨a, ⟨r, hr, rfl⟩, hd⟩; exact ⟨r, hr, by simpa using hd⟩
    · rintro ⟨r, hr, hd⟩; exact ⟨_, ⟨r, hr, rfl⟩, by simpa using hd⟩
  rw [h5 j]
  constructor
  · rintro ⟨i, l, p, q, s, a1, a2, a3, a4, a5, a6, a7, a8⟩
    obtain ⟨ri, b1, b2⟩ := (hs i).1 a1
    obtain ⟨rl, c1, c2⟩ := (hs l).1 a2
    exact ⟨i, l, p, q, s, ri, rl, b1, b2, c1, c2, a3, a4, a5, a6, a7, a8⟩
  · rintro ⟨i, l, p, q, s, ri, rl, b1, b2, c1, c2, a3, a4, a5, a6, a7, a8⟩
    exact ⟨i, l, p, q, s, (hs i).2 ⟨ri, b1, b2⟩, (hs l).2 ⟨rl, c1, c2⟩, a3, a4, a5, a6, a7, a8⟩

/-- **C103 (finding)** Without a detector among the parameters the type of the threshold is ignored: an `individual` one (a fraction) is used as a number of photoelectrons, and an unknown type is accepted. -/
theorem type_ignored (std : List ℚ → ℚ) (ty : ThrType) (thr thrS2 : ℚ) :
    selectAlgorithm std (.threshold ty thr thrS2 none) = selectAlgorithm std (.threshold .common thr thrS2 none) := rfl

/-- **C103** Unknown algorithms, and unknown types of threshold for a detector, are a `ValueError` before any event. -/
theorem unknown_rejected (std : List ℚ → ℚ) (thr thrS2 : ℚ) (noise : Sampling.Sampler) :
    (∃ e, selectAlgorithm std .other = .error e ∧ e = .valueError) ∧ ∃ e, selectAlgorithm std (.threshold .other thr thrS2 (some noise)) = .error e ∧ e = .valueError :=
  ⟨⟨_, rfl, rfl⟩, ⟨_, rfl, rfl⟩⟩

/-! ### Examples -/

set_option synthInstance.maxSize 1000

/-- A common threshold of 3/2 in each bin and of 2 in the S2. -/
def exCommon : Config := { exConfig with sel := thresholdSel (.one (3/2)) 2 }
/-- Individual thresholds from the noise of two SiPMs. -/
def exIndividual : Config := { exConfig with sel := thresholdSel (.each [some 1, none]) 2 }
example : selectAlgorithm (fun _ => 0) (.threshold .common (3/2) 2 (some Sampling.exSampler)) = .ok exCommon.sel := rfl
example : Sampling.computeThresholds Sampling.exSampler (9/10) 1 = .ok [some 1, none] := by decide +kernel
/-- The SiPM of the example (charges 2, in the bin of the peak) passes; with a threshold of 2 in the bin it does not. -/
example : (summary (hypathiaEvent exCommon .ok exSim 1 [exPmt 0 1 1, exPmt 1 1 2] exSipms exMc [] 4)) = some (some ([([0, 1], [7, 7])], [([0, 1], [7, 7], [1], [2])])) ∧
    (summary (hypathiaEvent { exConfig with sel := thresholdSel (.one 2) 2 } .ok exSim 1 [exPmt 0 1 1, exPmt 1 1 2] exSipms exMc [] 4)) = some (some ([([0, 1], [7, 7])], [([0, 1], [7, 7], [], [])])) := by decide +kernel
/-- Individual thresholds: an event of irene with an inactive SiPM raises `ValueError`. -/
example : ireneEvent (fun x => x) exIndividual 100 10 1 exPmts exSipms exRwf 400 exSipmRwf 200 = .error .valueError := by decide +kernel
/-- With both SiPMs active the same event works, and only the first SiPM could be selected (the threshold of the other is infinite). -/
example : (summary (ireneEvent (fun x => x) exIndividual 100 10 1 exPmts [exSipmRow 1000 1, exSipmRow 1001 1] exRwf 400 exSipmRwf.reverse 200)).map
    (fun o => o.map fun p => p.2.map fun x => (x.1, x.2.2)) = some (some [([1], [0], [2])]) := by decide +kernel
example : Fits 2 (.each [some 1, none]) := rfl
example : ∃ s ∈ exSipms, s.active = 0 := ⟨exSipmRow 1000 0, by simp [exSipms], rfl⟩
example : thresholdSel (.each [some 1, some 2, none]) 3 ⟨[[1, 2, 3], [1, 2, 3], [9, 9, 9]], 3⟩ = .ok ([0, 1], ⟨[[0, 2, 3], [0, 0, 3]], 3⟩) := by decide +kernel
/-- pyrrha with an inactive SiPM. -/
example : pyrrhaSel (fun _ => 0) "median_std_method" 1 10 10 [(0, 0), (5, 0), (50, 50)] ⟨[[1], [1]], 1⟩ = .error .valueError ∧
    pyrrhaSel (fun _ => 0) "median_std_method" 1 10 10 [(0, 0), (5, 0), (50, 50)] ⟨[[1], [1], [1]], 1⟩ = .ok ([0, 1], ⟨[[1], [1]], 1⟩) := by decide +kernel

end Verif.SipmSelect
