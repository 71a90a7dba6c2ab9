import Verif.Model.PmapBuild
import Verif.Spec.PmapBuild
import Verif.Props.PeakBuild
import Verif.Props.BlrPmts
import Verif.Props.Calib
/-!
# C102: the PMap of an event
-/
namespace Verif.PmapBuild
open Verif.Peaks Verif.PMaps Verif.Core

/-! ### Masks -/

theorem zip_mask {α β : Type} (f : β → Bool) : ∀ (tbl : List β) (rows : List α),
    (((rows.zip (tbl.map f)).filter fun x => x.2).map fun x => x.1) = ((tbl.zip rows).filter fun x => f x.1).map Prod.snd := by
  intro tbl
  induction tbl with
  | nil => intro rows; simp
  | cons b tbl ih =>
    intro rows
    cases rows with
    | nil => simp
    | cons r rows =>
      have := ih rows
      by_cases h : f b = true <;> simp [h, this]

theorem zip_fst {α β : Type} (f : β → Bool) : ∀ (tbl : List β) (rows : List α), rows.length = tbl.length → ((tbl.zip rows).filter fun x => f x.1).map Prod.fst = tbl.filter f := by
  intro tbl
  induction tbl with
  | nil => intro rows _; simp
  | cons b tbl ih =>
    intro rows hl
    cases rows with
    | nil => simp at hl
    | cons r rows =>
      have := ih rows (by simpa using hl)
      by_cases h : f b = true <;> simp [h, this]

/-- C102: the masker keeps the rows of the active sensors, in the order of the table; an array with another number of rows is an `IndexError`. -/
theorem boolMask_spec {α β : Type} (f : β → Bool) (tbl : List β) (rows : List α) :
    boolMask (tbl.map f) rows = if rows.length = tbl.length then .ok (((tbl.zip rows).filter fun x => f x.1).map Prod.snd) else .error .indexError := by
  unfold boolMask
  rw [List.length_map, zip_mask]
  by_cases h : rows.length = tbl.length
  · rw [if_pos h, if_neg (by omega)]
  · rw [if_neg h, if_pos (by omega)]

example : boolMask [true, false, true] [10, 20, 30] = .ok [10, 30] ∧ boolMask [true, false] [10, 20, 30] = (.error .indexError : Except PyErr (List Nat)) := by decide

theorem maskSensors_ok {α β : Type} {pmts : List LoadDb.PmtRow} {sipms : List LoadDb.SipmRow} {a : List α} {b : List β} (h1 : a.length = pmts.length) (h2 : b.length = sipms.length) :
    maskSensors pmts sipms a b = .ok ((activePmts pmts a).map Prod.snd, ((sipms.zip b).filter fun x => decide (x.1.active ≠ 0)).map Prod.snd) := by
  unfold maskSensors
  rw [boolMask_spec, if_pos h1, boolMask_spec, if_pos h2]
  rfl

/-- C102: what the masker does to the two arrays. -/
theorem maskSensors_spec {α β : Type} (pmts : List LoadDb.PmtRow) (sipms : List LoadDb.SipmRow) (a : List α) (b : List β) :
    maskSensors pmts sipms a b = if a.length = pmts.length ∧ b.length = sipms.length
      then .ok ((activePmts pmts a).map Prod.snd, ((sipms.zip b).filter fun x => decide (x.1.active ≠ 0)).map Prod.snd) else .error .indexError := by
  by_cases h1 : a.length = pmts.length
  · by_cases h2 : b.length = sipms.length
    · rw [maskSensors_ok h1 h2, if_pos ⟨h1, h2⟩]
    · rw [if_neg (fun h => h2 h.2)]
      unfold maskSensors
      rw [boolMask_spec, if_pos h1, boolMask_spec, if_neg h2]
  · rw [if_neg (fun h => h1 h.1)]
    unfold maskSensors
    rw [boolMask_spec, if_neg h1]

/-! ### Samples over threshold -/

theorem above_range (n : Nat) (f : Nat → ℚ) (thr : ℚ) : above ((List.range n).map f) thr = samplesOver n f thr := by
  unfold above samplesOver
  rw [whereIdx_map]
  unfold whereIdx
  rw [List.length_range]
  apply List.filter_congr
  intro i hi
  rw [List.getElem?_range (List.mem_range.1 hi)]
  rfl

theorem mem_over {n : Nat} {f : Nat → ℚ} {thr : ℚ} {j : Nat} : j ∈ samplesOver n f thr ↔ j < n ∧ thr < f j := by
  simp [samplesOver]

theorem over_sorted (n : Nat) (f : Nat → ℚ) (thr : ℚ) : (samplesOver n f thr).Pairwise (· < ·) := List.Pairwise.filter _ List.pairwise_lt_range

/-! ### Calibration -/

theorem calibrateWfs_eq {gains : List ℚ} {wfs : List (List ℚ)} (h : gains.length = wfs.length) : Calib.calibrateWfs gains wfs = .ok (List.zipWith Calib.calibrateWf gains wfs) := by
  unfold Calib.calibrateWfs
  split
  · rename_i g
    match wfs, h with
    | [w], _ => rfl
  · rw [if_neg (by simpa using h)]

theorem abs_ite (x : ℚ) : (if x < 0 then -x else x) = |x| := by
  split
  · rename_i h; rw [abs_of_neg h]
  · rename_i h; rw [abs_of_nonneg (not_lt.1 h)]

theorem gain_eq (x v : ℚ) : (if 0 < |x| then v / |x| else 0) = if x = 0 then 0 else v / |x| := by
  by_cases h : x = 0
  · simp [h]
  · rw [if_pos (abs_pos.2 h), if_neg h]

theorem forall₂_zip {α β : Type} {R : α → β → Prop} {l : List α} {m : List β} (h : List.Forall₂ R l m) : m.length = l.length ∧ ∀ x ∈ l.zip m, R x.1 x.2 := by
  induction h with
  | nil => simp
  | cons h _ ih =>
    refine ⟨by simp [ih.1], ?_⟩
    intro x hx
    rw [List.zip_cons_cons] at hx
    rcases List.mem_cons.1 hx with rfl | hx
    · exact h
    · exact ih.2 x hx

/-- The SiPMs of the event: the calibrated waveforms are those of the active ones, in order. -/
theorem sipm_cal {sipms : List LoadDb.SipmRow} {rows : List (List Int)} (hf : ∀ s ∈ sipms, s.active = 0 ∨ s.active = 1) (hl : rows.length = sipms.length) :
    Calib.subtractAndCalibrate .mode (sipmGains sipms) (((sipms.zip rows).filter fun x => decide (x.1.active ≠ 0)).map Prod.snd) =
      .ok (((sipms.zip rows).filter fun x => decide (x.1.active ≠ 0)).map fun x => sipmWf x.1 x.2) := by
  have hact : (sipms.filter fun s => decide (s.active = 1)) = ((sipms.zip rows).filter fun x => decide (x.1.active ≠ 0)).map Prod.fst := by
    rw [zip_fst (fun s : LoadDb.SipmRow => decide (s.active ≠ 0)) sipms rows hl]
    apply List.filter_congr
    intro s hs
    rcases hf s hs with h | h <;> simp [h]
  unfold Calib.subtractAndCalibrate sipmGains
  rw [hact, calibrateWfs_eq (by simp)]
  congr 1
  generalize ((sipms.zip rows).filter fun x => decide (x.1.active ≠ 0)) = l
  rw [List.map_map, List.map_map, List.zipWith_map, List.zipWith_self]
  apply List.map_congr_left
  rintro ⟨s, r⟩ _
  simp only [Function.comp, Calib.calibrateWf, Calib.subtractBaseline, sipmWf, List.map_map, abs_ite]
  apply List.map_congr_left
  intro v _
  simp only [Function.comp, gain_eq]
  by_cases h1 : s.adcToPes.getD 0 = 0 <;> by_cases h2 : v = 0 <;> simp [h1, h2]

theorem zipIdx_where {α : Type} (p : α → Bool) (l : List α) : ∀ k : Nat, ((l.zipIdx k).filter fun x => p x.1).map Prod.snd = (whereIdx p l).map (· + k) := by
  induction l with
  | nil => intro k; simp [whereIdx_nil]
  | cons x l ih =>
    intro k
    rw [List.zipIdx_cons, List.filter_cons, whereIdx_cons, List.map_append, List.map_map]
    by_cases h : p x = true
    · simp only [h, if_true, List.map_cons, ih]
      simp [Function.comp_def, Nat.add_comm, Nat.add_left_comm]
    · have e := ih (k + 1)
      simp only [h, Bool.false_eq_true, if_false, e]
      simp [Function.comp_def, Nat.add_comm, Nat.add_left_comm]

theorem zipIdx_fst {α : Type} (p : α → Bool) (l : List α) : ∀ k : Nat, ((l.zipIdx k).filter fun x => p x.1).map Prod.fst = l.filter p := by
  induction l with
  | nil => intro k; simp
  | cons x l ih =>
    intro k
    rw [List.zipIdx_cons, List.filter_cons, List.filter_cons]
    by_cases h : p x = true
    · simp [h, ih]
    · simp [h, ih]

/-- Positions and waveforms of the active SiPMs. -/
theorem activeSipms_eq {sipms : List LoadDb.SipmRow} {rows : List (List Int)} (hf : ∀ s ∈ sipms, s.active = 0 ∨ s.active = 1) (hl : rows.length = sipms.length) :
    sipmIds sipms = (activeSipms sipms rows).map Prod.snd ∧ (activeSipms sipms rows).map Prod.fst = (sipms.zip rows).filter fun x => decide (x.1.active ≠ 0) := by
  constructor
  · unfold activeSipms sipmIds
    rw [zipIdx_where (fun x : LoadDb.SipmRow × List Int => decide (x.1.active ≠ 0)) (sipms.zip rows) 0]
    have h1 : sipms = (sipms.zip rows).map Prod.fst := by rw [List.map_fst_zip (by omega)]
    conv_lhs => rw [h1]
    rw [whereIdx_map]
    simp only [Nat.add_zero, List.map_id']
    unfold whereIdx
    apply List.filter_congr
    intro i hi
    have hi' : i < (sipms.zip rows).length := List.mem_range.1 hi
    rw [List.getElem?_eq_getElem hi']
    have hm := List.getElem_mem hi'
    rcases hf _ (List.of_mem_zip (a := (sipms.zip rows)[i].1) (b := (sipms.zip rows)[i].2) hm).1 with h | h <;> simp only [Option.any_some, h] <;> rfl
  · exact zipIdx_fst (fun x : LoadDb.SipmRow × List Int => decide (x.1.active ≠ 0)) (sipms.zip rows) 0

/-! ### The PMap -/

/-- `compute_pmaps` for waveforms with one row per active PMT. -/
theorem computePmap_spec {c : Config} {pmts : List LoadDb.PmtRow} {sipms : List LoadDb.SipmRow} {ccwf : Mat} {idx : List Nat × List Nat} {rows : List (List Int)} {nSipm : Nat}
    (hf : ∀ s ∈ sipms, s.active = 0 ∨ s.active = 1) (hl : rows.length = sipms.length) (hr : ∀ r ∈ rows, r.length = nSipm) (hg : Good c ccwf.ncols nSipm)
    (hsel : IsSelection (sipms.filter fun s => decide (s.active ≠ 0)).length c.sel)
    (hwf : ccwf.WF) (hids : (pmtIds pmts).length = ccwf.rows.length)
    (h1 : idx.1.Pairwise (· < ·)) (h2 : idx.2.Pairwise (· < ·)) (h3 : ∀ i ∈ idx.1, i < ccwf.ncols) (h4 : ∀ i ∈ idx.2, i < ccwf.ncols) :
    (idx.1 = [] ∨ idx.2 = [] → computePmap c pmts sipms ccwf idx (((sipms.zip rows).filter fun x => decide (x.1.active ≠ 0)).map Prod.snd) nSipm = .ok none) ∧
    (idx.1 ≠ [] → idx.2 ≠ [] → ∃ s1s s2s,
      computePmap c pmts sipms ccwf idx (((sipms.zip rows).filter fun x => decide (x.1.active ≠ 0)).map Prod.snd) nSipm = .ok (some (s1s, s2s)) ∧
      Found c.s1 c.w idx.1 (fun piece peak => PmtPart (pmtIds pmts) ccwf.rows c.w piece peak ∧ peak.sipms = Responses.empty) s1s ∧
      Found c.s2 c.w idx.2 (fun piece peak => PmtPart (pmtIds pmts) ccwf.rows c.w piece peak ∧ SipmPart c sipms rows piece peak) s2s) := by
  constructor
  · intro h
    unfold computePmap
    rw [if_pos h]
  · intro n1 n2
    unfold computePmap
    rw [if_neg (by rintro (h | h) <;> contradiction), sipm_cal hf hl]
    obtain ⟨l1, l2⟩ := activeSipms_eq hf hl
    have l3 : ((sipms.zip rows).filter fun x => decide (x.1.active ≠ 0)).length = (sipms.filter fun s => decide (s.active ≠ 0)).length := by
      rw [← zip_fst (fun s : LoadDb.SipmRow => decide (s.active ≠ 0)) sipms rows hl, List.length_map]
    obtain ⟨p1, s1s, a1, a2, a3, _⟩ := findPeaks_spec ccwf idx.1 c.s1.time c.s1.length c.s1.stride c.s1.rebin (pmtIds pmts) c.w c.ratio none n1 h1 h3 hwf hids hg.rebin1
      (fun _ _ _ h => by cases h)
    have hswf : Mat.WF ⟨((sipms.zip rows).filter fun x => decide (x.1.active ≠ 0)).map fun x => sipmWf x.1 x.2, nSipm⟩ := by
      intro r hr'
      obtain ⟨x, hx, rfl⟩ := List.mem_map.1 hr'
      have := hr x.2 (List.of_mem_zip (a := x.1) (List.mem_filter.1 hx).1).2
      simpa [sipmWf] using this
    obtain ⟨p2, s2s, b1, b2, b3, _⟩ := findPeaks_spec ccwf idx.2 c.s2.time c.s2.length c.s2.stride c.s2.rebin (pmtIds pmts) c.w c.ratio
      (some (⟨((sipms.zip rows).filter fun x : LoadDb.SipmRow × List Int => decide (x.1.active ≠ 0)).map fun x : LoadDb.SipmRow × List Int => sipmWf x.1 x.2, nSipm⟩, sipmIds sipms, c.sel)) n2 h2 h4 hwf hids hg.rebin2
      (by
        intro m ids sel h
        simp only [Option.some.injEq, Prod.mk.injEq] at h
        obtain ⟨rfl, rfl, rfl⟩ := h
        refine ⟨hg.ratio, hg.mult, hswf, ?_, ?_, hg.samples⟩
        · rw [l1, List.length_map, List.length_map, ← l2, List.length_map]
        · simp only [List.length_map]
          rw [l3]
          exact hsel)
    refine ⟨s1s, s2s, ?_, ⟨p1, a1, a3.imp ?_⟩, ⟨p2, b1, b3.imp ?_⟩⟩
    · simp only [buildPmap, getPmap, a2, b2]
    · rintro piece peak ⟨first, last, e1, e2, _, e4, e5, e6, e7, _⟩
      exact ⟨⟨first, last, e1, e2, e4, e5, e6⟩, e7 rfl⟩
    · rintro piece peak ⟨first, last, e1, e2, _, e4, e5, e6, _, e8⟩
      obtain ⟨idx', wfs, i1, i2, i3⟩ := e8 _ _ _ rfl
      refine ⟨⟨first, last, e1, e2, e4, e5, e6⟩, first, last, _, idx', wfs, e1, e2, ?_, by rw [← l1]; exact i2, i3, rfl⟩
      rw [← i1, ← l2]
      simp only [List.map_map]
      rfl

/-! ### irene -/

/-- The steps of irene up to the PMap: the waveforms `ys` and the samples over the thresholds. -/
theorem irene_steps {tan : ℚ → ℚ} {c : Config} {nb nMaw : Nat} {thrMaw : ℚ} {pmts : List LoadDb.PmtRow} {sipms : List LoadDb.SipmRow} {rwf : List (List ℚ)} {n : Nat}
    {sipmRwf : List (List Int)} {nSipm : Nat} (hf : Flags pmts sipms) (hP : rwf.length = pmts.length) (hPn : ∀ r ∈ rwf, r.length = n) (hS : sipmRwf.length = sipms.length)
    (hn : 400 ≤ n) (hm : 0 < nMaw)
    (hc : ∀ p ∈ pmts, p.active = 1 → ∃ cc cb, p.coeffC = some cc ∧ p.coeffBlr = some cb ∧ 0 < cc ∧ cc < 1 ∧ cb ≠ 0) :
    ∃ ys : List (List ℚ × List ℚ), List.Forall₂ (PmtWf tan nb) (activePmts pmts rwf) ys ∧ (∀ y ∈ ys, y.1.length = n ∧ y.2.length = n) ∧
      ireneEvent tan c nb nMaw thrMaw pmts sipms rwf n sipmRwf nSipm =
      computePmap c pmts sipms ⟨ys.map Prod.snd, n⟩
        (samplesOver n (fun j => (ys.map fun y => if chargeIn y.1 (j + 1 - nMaw) (j + 1) / nMaw + thrMaw ≤ y.1.getD j 0 then y.2.getD j 0 else 0).sum) c.thr1,
         samplesOver n (fun j => (ys.map fun y => y.2.getD j 0).sum) c.thr2)
        (((sipms.zip sipmRwf).filter fun x => decide (x.1.active ≠ 0)).map Prod.snd) nSipm := by
  have hfst : (activePmts pmts rwf).map Prod.fst = pmts.filter fun p => decide (p.active ≠ 0) := zip_fst (fun p : LoadDb.PmtRow => decide (p.active ≠ 0)) pmts rwf hP
  have hact : (pmts.filter fun p => decide (p.active = 1)) = (activePmts pmts rwf).map Prod.fst := by
    rw [hfst]
    apply List.filter_congr
    intro s hs
    rcases hf.1 s hs with h | h <;> simp [h]
  have hsnd : ∀ r ∈ (activePmts pmts rwf).map Prod.snd, r.length = n := by
    intro r hr
    obtain ⟨x, hx, rfl⟩ := List.mem_map.1 hr
    exact hPn _ (List.of_mem_zip (a := x.1) (List.mem_filter.1 hx).1).2
  have hselP : (if true = true then pmts.filter fun p => decide (Blr.Spec.Active p) else pmts) = (activePmts pmts rwf).map Prod.fst := by
    rw [if_pos rfl, hfst]; rfl
  obtain ⟨cwf, hcwf⟩ := Blr.deconvPmt_works (tan := tan) (pmts := pmts) (n := nb) (mask := true) (rwfs := (activePmts pmts rwf).map Prod.snd) (by rw [hselP]; simp)
    (fun r hr => by rw [hsnd r hr]; exact hn)
    (fun p hp ha => hc p hp (by
      have := ha rfl
      rcases hf.1 p hp with h | h
      · exact absurd h this
      · exact h))
  obtain ⟨d1, _, d3⟩ := Blr.deconvPmt_spec hcwf
  rw [List.length_map] at d1
  have hy : List.Forall₂ (PmtWf tan nb) (activePmts pmts rwf) (List.zipWith (fun (x : LoadDb.PmtRow × List ℚ) cw => (cw, cw.map fun v => if x.1.adcToPes = 0 then 0 else v / |x.1.adcToPes|)) (activePmts pmts rwf) cwf) := by
    rw [List.forall₂_iff_get]
    refine ⟨by simp [d1], fun i hi1 hi2 => ?_⟩
    simp only [List.get_eq_getElem, List.getElem_zipWith]
    refine ⟨?_, rfl⟩
    have e1 : ((activePmts pmts rwf).map Prod.snd)[i]? = some ((activePmts pmts rwf)[i].2) := by simp [hi1]
    have e2 : (if true = true then pmts.filter fun p => decide (Blr.Spec.Active p) else pmts)[i]? = some ((activePmts pmts rwf)[i].1) := by rw [hselP]; simp [hi1]
    obtain ⟨cc, cb, cw, f1, f2, f3, f4⟩ := d3 i _ _ e1 e2
    have : cwf[i] = cw := by
      have hi : i < cwf.length := by omega
      rw [List.getElem?_eq_getElem hi] at f3
      exact Option.some.inj f3
    rw [this]
    exact ⟨cc, cb, f1, f2, f4⟩
  have hlen : ∀ r ∈ cwf, r.length = n := by
    intro r hr
    obtain ⟨i, hi, rfl⟩ := List.getElem_of_mem hr
    have e1 : ((activePmts pmts rwf).map Prod.snd)[i]? = some ((activePmts pmts rwf)[i]'(by omega)).2 := by simp [show i < (activePmts pmts rwf).length by omega]
    have e2 : (if true = true then pmts.filter fun p => decide (Blr.Spec.Active p) else pmts)[i]? = some (((activePmts pmts rwf)[i]'(by omega)).1) := by rw [hselP]; simp [show i < (activePmts pmts rwf).length by omega]
    obtain ⟨cc, cb, cw, _, _, f3, f4⟩ := d3 i _ _ e1 e2
    rw [List.getElem?_eq_getElem hi] at f3
    have f3' := Option.some.inj f3
    rw [f3']
    clear f3 f3'
    unfold Blr.deconvolve at f4
    split at f4
    · cases f4
    · split at f4
      · cases f4
      · split at f4
        · cases f4
        · cases f4
          rw [Blr.recoverAll_length, Blr.clean_length, List.length_map]
          exact hsnd _ (List.mem_of_getElem? e1)
  have hcal : Calib.calibrateWfs (pmtGains pmts) cwf =
      .ok ((List.zipWith (fun (x : LoadDb.PmtRow × List ℚ) cw => (cw, cw.map fun v => if x.1.adcToPes = 0 then 0 else v / |x.1.adcToPes|)) (activePmts pmts rwf) cwf).map Prod.snd) := by
    unfold pmtGains
    rw [hact, calibrateWfs_eq (by simp [d1])]
    congr 1
    rw [List.map_zipWith, List.map_map, List.zipWith_map_left]
    congr 1
    funext x cw
    simp only [Function.comp, Calib.calibrateWf, abs_ite]
    apply List.map_congr_left
    intro v _
    exact gain_eq _ _
  have hfstY : (List.zipWith (fun (x : LoadDb.PmtRow × List ℚ) cw => (cw, cw.map fun v => if x.1.adcToPes = 0 then 0 else v / |x.1.adcToPes|)) (activePmts pmts rwf) cwf).map Prod.fst = cwf := by
    rw [List.map_zipWith]
    apply List.ext_getElem
    · simp [d1]
    · intro i h1 h2; simp
  generalize List.zipWith (fun (x : LoadDb.PmtRow × List ℚ) cw => (cw, cw.map fun v => if x.1.adcToPes = 0 then 0 else v / |x.1.adcToPes|)) (activePmts pmts rwf) cwf = ys at *
  have hylen : ∀ y ∈ ys, y.1.length = n ∧ y.2.length = n := by
    intro y hym
    have h1 : y.1.length = n := hlen _ (by rw [← hfstY]; exact List.mem_map_of_mem hym)
    refine ⟨h1, ?_⟩
    obtain ⟨x, hx⟩ : ∃ x, PmtWf tan nb x y := by
      obtain ⟨i, hi, rfl⟩ := List.getElem_of_mem hym
      exact ⟨_, (List.forall₂_iff_get.1 hy).2 i (by have := hy.length_eq; omega) hi⟩
    rw [hx.2, List.length_map, h1]
  have hrun : ireneEvent tan c nb nMaw thrMaw pmts sipms rwf n sipmRwf nSipm =
      computePmap c pmts sipms ⟨ys.map Prod.snd, n⟩
        (samplesOver n (fun j => (ys.map fun y => if chargeIn y.1 (j + 1 - nMaw) (j + 1) / nMaw + thrMaw ≤ y.1.getD j 0 then y.2.getD j 0 else 0).sum) c.thr1,
         samplesOver n (fun j => (ys.map fun y => y.2.getD j 0).sum) c.thr2)
        (((sipms.zip sipmRwf).filter fun x => decide (x.1.active ≠ 0)).map Prod.snd) nSipm := by
    have hm0 : ¬ nMaw = 0 := by omega
    have hmaw : Calib.calibratePmts (pmtGains pmts) nMaw thrMaw ⟨cwf, n⟩ = .ok (ys.map Prod.snd, List.zipWith (Calib.aboveMaw nMaw thrMaw) cwf (ys.map Prod.snd),
        Mat.sumSensors ⟨ys.map Prod.snd, n⟩, Mat.sumSensors ⟨List.zipWith (Calib.aboveMaw nMaw thrMaw) cwf (ys.map Prod.snd), n⟩) := by
      simp only [Calib.calibratePmts, hm0, if_false, hcal]
    simp only [ireneEvent, maskSensors_ok hP hS, hcwf, hmaw, zeroSuppress, Mat.sumSensors, List.map_map, above_range]
    congr 2
    unfold samplesOver
    apply List.filter_congr
    intro j hj
    have hjn : j < n := List.mem_range.1 hj
    congr 2
    conv_lhs => rw [← hfstY]
    rw [List.zipWith_map, List.zipWith_self]
    show (List.map _ (List.map _ ys)).sum = _
    rw [List.map_map]
    congr 1
    apply List.map_congr_left
    intro y hym
    obtain ⟨y1, y2⟩ := hylen y hym
    simp only [Function.comp, Calib.aboveMaw]
    have hz : (y.1.zip (Calib.maw nMaw y.1))[j]? = some (y.1.getD j 0, chargeIn y.1 (j + 1 - nMaw) (j + 1) / nMaw) := by
      rw [List.getElem?_zip_eq_some]
      refine ⟨?_, Calib.maw_get nMaw y.1 j (by omega)⟩
      rw [List.getD_eq_getElem _ _ (by omega), List.getElem?_eq_getElem (by omega)]
    have hz2 : y.2[j]? = some (y.2.getD j 0) := by
      rw [List.getD_eq_getElem _ _ (by omega), List.getElem?_eq_getElem (by omega)]
    rw [List.getD_eq_getElem?_getD, List.getElem?_zipWith, hz, hz2]
    rfl
  exact ⟨ys, hy, hylen, hrun⟩

/-- **C102** An event of irene.  Let `ys` be, for each active PMT of the table, in order, its own waveform with the baseline restored and then in photoelectrons.  The S2 samples are those
where the sum of the calibrated waveforms is over its threshold, the S1 samples those where the sum of the parts of them over the moving average is.  If there is none of one kind the
event gives no PMap; otherwise the S1s and S2s are those of the pieces of these samples in the windows, with the identifiers of the active PMTs and the charge of the waveform of each
one in the piece, and the S2s have the SiPMs and waveforms that the selection makes of the calibrated waveforms of the active SiPMs. -/
theorem irene_pmap {tan : ℚ → ℚ} {c : Config} {nb nMaw : Nat} {thrMaw : ℚ} {pmts : List LoadDb.PmtRow} {sipms : List LoadDb.SipmRow} {rwf : List (List ℚ)} {n : Nat}
    {sipmRwf : List (List Int)} {nSipm : Nat} (hf : Flags pmts sipms) (hP : rwf.length = pmts.length) (hPn : ∀ r ∈ rwf, r.length = n) (hS : sipmRwf.length = sipms.length)
    (hSn : ∀ r ∈ sipmRwf, r.length = nSipm) (hg : Good c n nSipm) (hsel : IsSelection (sipms.filter fun s => decide (s.active ≠ 0)).length c.sel) (hn : 400 ≤ n) (hm : 0 < nMaw)
    (hc : ∀ p ∈ pmts, p.active = 1 → ∃ cc cb, p.coeffC = some cc ∧ p.coeffBlr = some cb ∧ 0 < cc ∧ cc < 1 ∧ cb ≠ 0) :
    ∃ ys : List (List ℚ × List ℚ), List.Forall₂ (PmtWf tan nb) (activePmts pmts rwf) ys ∧
      ∃ s1 s2, s1 = samplesOver n (fun j => (ys.map fun y => if chargeIn y.1 (j + 1 - nMaw) (j + 1) / nMaw + thrMaw ≤ y.1.getD j 0 then y.2.getD j 0 else 0).sum) c.thr1 ∧
        s2 = samplesOver n (fun j => (ys.map fun y => y.2.getD j 0).sum) c.thr2 ∧
        (s1 = [] ∨ s2 = [] → ireneEvent tan c nb nMaw thrMaw pmts sipms rwf n sipmRwf nSipm = .ok none) ∧
        (s1 ≠ [] → s2 ≠ [] → ∃ s1s s2s, ireneEvent tan c nb nMaw thrMaw pmts sipms rwf n sipmRwf nSipm = .ok (some (s1s, s2s)) ∧
          Found c.s1 c.w s1 (fun piece peak => PmtPart ((activePmts pmts rwf).map fun x => x.1.sensor.toNat) (ys.map Prod.snd) c.w piece peak ∧ peak.sipms = Responses.empty) s1s ∧
          Found c.s2 c.w s2 (fun piece peak => PmtPart ((activePmts pmts rwf).map fun x => x.1.sensor.toNat) (ys.map Prod.snd) c.w piece peak ∧
            SipmPart c sipms sipmRwf piece peak) s2s) := by
  have hfst : (activePmts pmts rwf).map Prod.fst = pmts.filter fun p => decide (p.active ≠ 0) := zip_fst (fun p : LoadDb.PmtRow => decide (p.active ≠ 0)) pmts rwf hP
  obtain ⟨ys, hy, hylen, hrun⟩ := irene_steps (tan := tan) (c := c) (nb := nb) (thrMaw := thrMaw) (sipmRwf := sipmRwf) (nSipm := nSipm) hf hP hPn hS hn hm hc
  have hids : (activePmts pmts rwf).map (fun x => x.1.sensor.toNat) = pmtIds pmts := by
    unfold pmtIds
    rw [← hfst, List.map_map]; rfl
  obtain ⟨k1, k2⟩ := computePmap_spec (c := c) (pmts := pmts) (sipms := sipms) (ccwf := ⟨ys.map Prod.snd, n⟩)
    (idx := (samplesOver n (fun j => (ys.map fun y => if chargeIn y.1 (j + 1 - nMaw) (j + 1) / nMaw + thrMaw ≤ y.1.getD j 0 then y.2.getD j 0 else 0).sum) c.thr1,
         samplesOver n (fun j => (ys.map fun y => y.2.getD j 0).sum) c.thr2)) (rows := sipmRwf) (nSipm := nSipm) hf.2 hS hSn hg hsel
    (by
      intro r hr
      obtain ⟨y, hym, rfl⟩ := List.mem_map.1 hr
      exact (hylen y hym).2)
    (by rw [← hids]; simp [hy.length_eq])
    (over_sorted ..) (over_sorted ..) (fun i hi => (mem_over.1 hi).1) (fun i hi => (mem_over.1 hi).1)
  refine ⟨ys, hy, _, _, rfl, rfl, fun h => by rw [hrun]; exact k1 h, fun n1 n2 => ?_⟩
  obtain ⟨s1s, s2s, r1, r2, r3⟩ := k2 n1 n2
  rw [hids, hrun]
  exact ⟨s1s, s2s, r1, r2, r3⟩

end Verif.PmapBuild
