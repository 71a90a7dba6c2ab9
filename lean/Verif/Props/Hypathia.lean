import Verif.Props.PmapBuild
/-!
# C102: the PMap of an event of hypathia; examples for irene
-/
namespace Verif.PmapBuild
open Verif.Peaks Verif.PMaps Verif.Core

/-- **C102** Rebinning the waveforms: sample `k` of each PMT is the sum of its samples from `stride * k` to `stride * (k + 1)`, and the total charge of each PMT is the same; a stride of 0 or 1 does nothing. -/
theorem rebinPmts_spec (stride : Nat) (m : Mat) (hwf : m.WF) :
    (stride ≤ 1 → rebinPmts stride m = .ok m) ∧
    (1 < stride → ∃ r, rebinPmts stride m = .ok r ∧ r.ncols = (m.ncols + stride - 1) / stride ∧ r.WF ∧ r.rows.length = m.rows.length ∧
      (∀ (i k : Nat) (x y : List ℚ), m.rows[i]? = some x → r.rows[i]? = some y → k < r.ncols → y[k]? = some (chargeIn x (stride * k) (stride * (k + 1)))) ∧
      r.rows.map List.sum = m.rows.map List.sum) := by
  constructor
  · intro h
    unfold rebinPmts
    rw [if_neg (by omega)]
  · intro h
    obtain ⟨d1, d2, d3⟩ := rebin_default (List.replicate m.ncols 0) (List.replicate m.ncols 0) m stride (by omega)
    obtain ⟨ts, ws, r, e1, e2, e3, e4, e5, e6, e7, e8, _⟩ := rebin_conserves (List.replicate m.ncols 0) (List.replicate m.ncols 0) m stride
      (getEvenSlices (List.replicate m.ncols (0 : ℚ)).length stride) (by omega) (by simp) hwf rfl d2
    refine ⟨r, ?_, ?_, e5, e6, fun i k x y hx hy hk => ?_, e8⟩
    · unfold rebinPmts
      rw [if_pos h, d1, e1]
    · rw [e4]; simp [getEvenSlices]
    · exact (e7 k _ _ (d3 k (by omega))).2 i x y hx hy

example : rebinPmts 2 ⟨[[1, 2, 3], [0, 0, 5]], 3⟩ = .ok ⟨[[3, 3], [0, 5]], 2⟩ ∧ rebinPmts 1 ⟨[[1, 2, 3]], 3⟩ = .ok ⟨[[1, 2, 3]], 3⟩ := by decide +kernel

/-- The simulation of the PMTs keeps the shape of the waveforms. -/
def KeepsShape (fluct : Mat → Except PyErr Mat) : Prop := ∀ m, m.WF → ∃ r, fluct m = .ok r ∧ r.WF ∧ r.rows.length = m.rows.length ∧ r.ncols = m.ncols

theorem sum_samples (m : Mat) (thr : ℚ) : above m.sumSensors thr = samplesOver m.ncols (fun j => (m.rows.map fun r => r.getD j 0).sum) thr := by
  unfold Mat.sumSensors
  rw [above_range]

/-- **C102** An event of hypathia when all the PMTs are active: the samples of both kinds are those where the sum over all the PMTs of the fluctuated waveforms is over the thresholds;
the S1s and S2s are those of the pieces in the windows, with all the PMTs and the charge of the waveform of each one, and the S2s have the SiPMs and waveforms that the selection
makes of those of the active SiPMs. -/
theorem hypathia_pmap {c : Config} {fluct : Mat → Except PyErr Mat} {simSipm : List (List ℚ) → Except PyErr (List (List Int))} {stride : Nat} {pmts : List LoadDb.PmtRow}
    {sipms : List LoadDb.SipmRow} {rwf : Mat} {sipmRwf : List (List ℚ)} {nSipm : Nat} {sim : List (List Int)} (hall : ∀ p ∈ pmts, p.active = 1) (hf : Flags pmts sipms) (hP : rwf.rows.length = pmts.length) (hwf : rwf.WF)
    (hfl : KeepsShape fluct) (hsim : simSipm sipmRwf = .ok sim) (hS : sim.length = sipms.length) (hSn : ∀ r ∈ sim, r.length = nSipm)
    (hg : Good c (if 1 < stride then (rwf.ncols + stride - 1) / stride else rwf.ncols) nSipm)
    (hsel : IsSelection (sipms.filter fun s => decide (s.active ≠ 0)).length c.sel) :
    ∃ r ccwf s1 s2, rebinPmts stride rwf = .ok r ∧ fluct r = .ok ccwf ∧ ccwf.rows.length = pmts.length ∧
      s1 = samplesOver ccwf.ncols (fun j => (ccwf.rows.map fun y => y.getD j 0).sum) c.thr1 ∧ s2 = samplesOver ccwf.ncols (fun j => (ccwf.rows.map fun y => y.getD j 0).sum) c.thr2 ∧
      (s1 = [] ∨ s2 = [] → hypathiaEvent c fluct simSipm stride pmts sipms rwf sipmRwf nSipm = .ok none) ∧
      (s1 ≠ [] → s2 ≠ [] → ∃ s1s s2s, hypathiaEvent c fluct simSipm stride pmts sipms rwf sipmRwf nSipm = .ok (some (s1s, s2s)) ∧
        Found c.s1 c.w s1 (fun piece peak => PmtPart (pmts.map fun p => p.sensor.toNat) ccwf.rows c.w piece peak ∧ peak.sipms = Responses.empty) s1s ∧
        Found c.s2 c.w s2 (fun piece peak => PmtPart (pmts.map fun p => p.sensor.toNat) ccwf.rows c.w piece peak ∧ SipmPart c sipms sim piece peak) s2s) := by
  obtain ⟨r, h1, h2, h3, h4⟩ : ∃ r, rebinPmts stride rwf = .ok r ∧ r.WF ∧ r.rows.length = rwf.rows.length ∧ r.ncols = if 1 < stride then (rwf.ncols + stride - 1) / stride else rwf.ncols := by
    by_cases hs : 1 < stride
    · obtain ⟨r, e1, e2, e3, e4, _⟩ := (rebinPmts_spec stride rwf hwf).2 hs
      exact ⟨r, e1, e3, e4, by rw [e2, if_pos hs]⟩
    · exact ⟨rwf, (rebinPmts_spec stride rwf hwf).1 (by omega), hwf, rfl, by rw [if_neg hs]⟩
  obtain ⟨cc, f1, f2, f3, f4⟩ := hfl r h2
  have hids : pmtIds pmts = pmts.map fun p => p.sensor.toNat := by
    unfold pmtIds
    rw [List.filter_eq_self.2 fun p hp => by simp [hall p hp]]
  have hrun : hypathiaEvent c fluct simSipm stride pmts sipms rwf sipmRwf nSipm =
      computePmap c pmts sipms cc (samplesOver cc.ncols (fun j => (cc.rows.map fun y => y.getD j 0).sum) c.thr1, samplesOver cc.ncols (fun j => (cc.rows.map fun y => y.getD j 0).sum) c.thr2)
        (((sipms.zip sim).filter fun x => decide (x.1.active ≠ 0)).map Prod.snd) nSipm := by
    simp only [hypathiaEvent, h1, f1, hsim, maskSensors_ok hP hS, zeroSuppress, sum_samples]
  obtain ⟨k1, k2⟩ := computePmap_spec (c := c) (pmts := pmts) (sipms := sipms) (ccwf := cc)
    (idx := (samplesOver cc.ncols (fun j => (cc.rows.map fun y => y.getD j 0).sum) c.thr1, samplesOver cc.ncols (fun j => (cc.rows.map fun y => y.getD j 0).sum) c.thr2))
    (rows := sim) (nSipm := nSipm) hf.2 hS hSn (by rw [f4, h4]; exact hg) hsel f2 (by rw [hids, List.length_map]; omega)
    (over_sorted ..) (over_sorted ..) (fun i hi => (mem_over.1 hi).1) (fun i hi => (mem_over.1 hi).1)
  refine ⟨r, cc, _, _, h1, f1, by omega, rfl, rfl, fun h => by rw [hrun]; exact k1 h, fun n1 n2 => ?_⟩
  obtain ⟨s1s, s2s, r1, r2, r3⟩ := k2 n1 n2
  rw [hrun, ← hids]
  exact ⟨s1s, s2s, r1, r2, r3⟩

/-! ### Inactive PMTs in hypathia -/

theorem rebin_rows {t w : List ℚ} {m : Mat} {stride : Nat} {sl : Option (List (Nat × Nat))} {r : List ℚ × List ℚ × Mat} (h : rebinTimesAndWaveforms t w m stride sl = .ok r) : r.2.2.rows.length = m.rows.length := by
  unfold rebinTimesAndWaveforms at h
  split at h
  · cases h; rfl
  · simp only at h
    split at h
    · cases h
    · cases h; simp

theorem pick_rows {idx : List Nat} {t w : List ℚ} {m : Mat} {stride ratio : Nat} {pad : Bool} {r : List ℚ × List ℚ × Mat} (h : pickSliceAndRebin idx t w m stride pad ratio = .ok r) : r.2.2.rows.length = m.rows.length := by
  unfold pickSliceAndRebin at h
  split at h
  · simp only at h
    split at h
    · rw [rebin_rows h]; simp [Mat.padLeft, Mat.slice]
    · rw [rebin_rows h]; simp [Mat.slice]
  · cases h

/-- No peak can be built if the number of identifiers is not the number of rows. -/
theorem buildPeak_ids {idx : List Nat} {t w : List ℚ} {m : Mat} {ids : List Nat} {stride ratio : Nat} {sipm : Option (Mat × List Nat × (Mat → Except PyErr (List Nat × Mat)))} {p : Peak}
    (h : buildPeak idx t w m ids stride ratio sipm = .ok p) : ids.length = m.rows.length := by
  unfold buildPeak at h
  split at h
  · cases h
  · split at h
    · cases h
    · rename_i hb
      unfold buildPmtResponses at hb
      split at hb
      · cases hb
      · rename_i hp
        have := pick_rows hp
        split at hb
        · cases hb
        · rename_i hr
          unfold Responses.mk? at hr
          split at hr
          · cases hr
          · simp only at this; omega

theorem findPeaks_ids {m : Mat} {idx : List Nat} {time length : MinMax} {stride rebin ratio : Nat} {ids : List Nat} {w : ℚ} {sipm : Option (Mat × List Nat × (Mat → Except PyErr (List Nat × Mat)))} {ps : List Peak}
    (h : findPeaks m idx time length stride rebin ids w ratio sipm = .ok ps) (hne : ids.length ≠ m.rows.length) : ps = [] := by
  unfold findPeaks at h
  simp only at h
  split at h
  · cases h
  · rename_i splits _
    cases splits with
    | nil => cases h; rfl
    | cons s ss =>
      simp only [buildAll] at h
      split at h
      · cases h
      · rename_i hb
        exact absurd (buildPeak_ids hb) hne

/-- **C102 (finding)** With an inactive PMT hypathia, which masks the waveforms too late, never gives a PMap with a peak: an event either has none or raises an exception. -/
theorem hypathia_inactive {c : Config} {fluct : Mat → Except PyErr Mat} {simSipm : List (List ℚ) → Except PyErr (List (List Int))} {stride : Nat} {pmts : List LoadDb.PmtRow}
    {sipms : List LoadDb.SipmRow} {rwf : Mat} {sipmRwf : List (List ℚ)} {nSipm : Nat} (hoff : ∃ p ∈ pmts, p.active = 0) (hP : rwf.rows.length = pmts.length)
    (hfl : ∀ m r, fluct m = .ok r → r.rows.length = m.rows.length) {s1s s2s : List Peak} (h : hypathiaEvent c fluct simSipm stride pmts sipms rwf sipmRwf nSipm = .ok (some (s1s, s2s))) : s1s = [] ∧ s2s = [] := by
  have hlt : (pmtIds pmts).length < pmts.length := by
    unfold pmtIds
    rw [List.length_map]
    obtain ⟨p, hp, ha⟩ := hoff
    rcases Nat.lt_or_ge (pmts.filter fun p : LoadDb.PmtRow => decide (p.active ≠ 0)).length pmts.length with h | h
    · exact h
    · have := List.length_filter_eq_length_iff.1 (le_antisymm (List.length_filter_le ..) h) p hp
      simp [ha] at this
  unfold hypathiaEvent at h
  split at h
  · cases h
  · rename_i r hr
    split at h
    · cases h
    · rename_i cc hc
      split at h
      · cases h
      · split at h
        · cases h
        · have hrr : r.rows.length = rwf.rows.length := by
            unfold rebinPmts at hr
            split at hr
            · split at hr
              · cases hr
              · rename_i hx
                cases hr
                exact rebin_rows hx
            · cases hr; rfl
          have hne : (pmtIds pmts).length ≠ cc.rows.length := by
            rw [hfl _ _ hc, hrr, hP]; omega
          unfold computePmap at h
          split at h
          · cases h
          · split at h
            · cases h
            · split at h
              · cases h
              · rename_i hb
                cases h
                unfold buildPmap getPmap at hb
                split at hb
                · cases hb
                · rename_i h1
                  split at hb
                  · cases hb
                  · rename_i h2
                    cases hb
                    exact ⟨findPeaks_ids h1 hne, findPeaks_ids h2 hne⟩

/-! ### Examples -/

set_option synthInstance.maxSize 1000

def exPmt (id : Int) (act : Nat) (gain : ℚ) : LoadDb.PmtRow := ⟨id, id + 10, none, act, 0, 0, some (1 / 1000), some (1 / 100), gain, none, none, none, none⟩
def exSipmRow (id : Int) (act : Nat) : LoadDb.SipmRow := ⟨id, id, act, 0, 0, some 2, none, none, none⟩
def exConfig : Config := ⟨⟨⟨0, 1000⟩, ⟨1, 10⟩, 4, 1⟩, ⟨⟨0, 1000⟩, ⟨1, 10⟩, 4, 2⟩, 1, 2, (selectWfsAboveTimeIntegratedThr · 1), 5, 5⟩

/-- Two PMTs, the first one inactive; two SiPMs, the first one inactive. -/
def exPmts : List LoadDb.PmtRow := [exPmt 0 0 1, exPmt 1 1 2]
def exSipms : List LoadDb.SipmRow := [exSipmRow 1000 0, exSipmRow 1001 1]
def exMc : Mat := ⟨[[0, 0, 0, 3, 4, 0, 0, 0], [0, 0, 0, 3, 4, 0, 0, 0]], 8⟩
def exSim (_ : List (List ℚ)) : Except PyErr (List (List Int)) := .ok [[3, 3, 3, 3], [5, 5, 9, 5]]

/-- Identifiers and charges of the peaks of a PMap. -/
def summary (r : Except PyErr (Option (List Peak × List Peak))) : Option (Option (List (List Nat × List ℚ) × List (List Nat × List ℚ × List Nat × List ℚ))) :=
  match r with
  | .error _ => none
  | .ok none => some none
  | .ok (some p) => some (some (p.1.map fun k => (k.pmts.ids, k.pmts.wfs.rows.map List.sum), p.2.map fun k => (k.pmts.ids, k.pmts.wfs.rows.map List.sum, k.sipms.ids, k.sipms.wfs.rows.map List.sum)))

/-- With all the PMTs active the PMap of hypathia has both; the only SiPM is the active one, number 1. -/
example : summary (hypathiaEvent exConfig .ok exSim 1 [exPmt 0 1 1, exPmt 1 1 2] exSipms exMc [] 4) =
    some (some ([([0, 1], [7, 7])], [([0, 1], [7, 7], [1], [2])])) := by decide +kernel
/-- With one inactive hypathia raises `ValueError`. -/
example : hypathiaEvent exConfig .ok exSim 1 exPmts exSipms exMc [] 4 = .error .valueError := by decide +kernel
/-- Rebinned by 2, both PMTs active. -/
example : summary (hypathiaEvent exConfig .ok exSim 2 [exPmt 0 1 1, exPmt 1 1 2] exSipms exMc [] 4) =
    some (some ([([0, 1], [7, 7])], [([0, 1], [7, 7], [], [])])) := by decide +kernel

example : KeepsShape .ok := fun m h => ⟨m, rfl, h, rfl, rfl⟩
example : Good exConfig 8 4 := ⟨by decide, by decide, by decide, by decide, by decide⟩
example : Flags exPmts exSipms ∧ Flags [exPmt 0 1 1, exPmt 1 1 2] exSipms := by unfold Flags; decide

/-- irene: 400 samples, a pulse at the end of the active PMT; the inactive one is not in the PMap. -/
def exRwf : List (List ℚ) := [List.replicate 400 7, List.replicate 396 100 ++ [90, 80, 90, 100]]
def exSipmRwf : List (List Int) := [List.replicate 200 3, List.replicate 198 5 ++ [9, 9]]
example : Good exConfig 400 200 := ⟨by decide, by decide, by decide, by decide, by decide⟩
example : ∀ p ∈ exPmts, p.active = 1 → ∃ cc cb, p.coeffC = some cc ∧ p.coeffBlr = some cb ∧ 0 < cc ∧ cc < 1 ∧ cb ≠ 0 := by
  intro p hp _
  simp only [exPmts, List.mem_cons, List.not_mem_nil, or_false] at hp
  rcases hp with rfl | rfl <;> exact ⟨1 / 100, 1 / 1000, rfl, rfl, by norm_num, by norm_num, by norm_num⟩
example : (summary (ireneEvent (fun x => x) exConfig 100 10 1 exPmts exSipms exRwf 400 exSipmRwf 200)).map (fun o => o.map fun p => (p.1.map Prod.fst, p.2.map fun x => (x.1, x.2.2))) =
    some (some ([[1]], [([1], [1], [2])])) := by decide +kernel

end Verif.PmapBuild
