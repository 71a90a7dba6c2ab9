import Verif.Spec.Buffers
import Verif.Model.Buffers
import Verif.Props.PeakSearch
import Verif.Props.Voxels
/-!
# Properties of the trigger search and of the output buffers (C35, C36, C37)
-/
namespace Verif.Buffers
open Verif.Peaks Verif.Voxels

/-! ### Triggers -/

theorem chain_pred {S : Nat} : ∀ {tl : List Nat} {a : Nat}, (a :: tl).IsChain (fun a b => b ≤ a + S) →
    (a :: tl).Pairwise (· < ·) → ∀ t ∈ tl, ∃ u ∈ a :: tl, u < t ∧ t ≤ u + S := by
  intro tl
  induction tl with
  | nil => intro a _ _ t ht; cases ht
  | cons b tl ih =>
    intro a hc hp t ht
    rw [List.isChain_cons_cons] at hc
    rcases List.mem_cons.1 ht with rfl | ht
    · exact ⟨a, List.mem_cons_self, (List.pairwise_cons.1 hp).1 _ List.mem_cons_self, hc.1⟩
    · obtain ⟨u, hu, h⟩ := ih hc.2 (List.pairwise_cons.1 hp).2 t ht
      exact ⟨u, List.mem_cons_of_mem _ hu, h⟩

theorem heads_spec {S : Nat} : ∀ {pieces : List (List Nat)}, (∀ p ∈ pieces, p ≠ []) →
    (∀ p ∈ pieces, p.IsChain fun a b => b ≤ a + S) → pieces.IsChain (Apart S) → pieces.flatten.Pairwise (· < ·) →
    ∃ trg, pieces.mapM first = .ok trg ∧ trg.Pairwise (· < ·) ∧ trg.head? = pieces.flatten.head? ∧
      ∀ t, t ∈ trg ↔ t ∈ pieces.flatten ∧ ∀ u ∈ pieces.flatten, u < t → u + S < t := by
  intro pieces
  induction pieces with
  | nil => intro _ _ _ _; exact ⟨[], rfl, by simp, by simp, by simp⟩
  | cons p ps ih =>
    intro hne hin hac hs
    obtain ⟨a, tl, rfl⟩ := List.exists_cons_of_ne_nil (hne p List.mem_cons_self)
    have hs' := hs
    rw [List.flatten_cons, List.pairwise_append] at hs
    obtain ⟨hs1, hs2, hs3⟩ := hs
    obtain ⟨trg, h1, h2, h3, h4⟩ := ih (fun q hq => hne q (List.mem_cons_of_mem _ hq))
      (fun q hq => hin q (List.mem_cons_of_mem _ hq)) hac.tail hs2
    have hal : ∀ u ∈ a :: tl, a ≤ u := by
      intro u hu
      rcases List.mem_cons.1 hu with rfl | hu
      · exact le_rfl
      · exact ((List.pairwise_cons.1 hs1).1 u hu).le
    -- every sample of the rest is far from every sample of the first piece
    have far : ∀ u ∈ a :: tl, ∀ t ∈ ps.flatten, u + S < t := by
      intro u hu t ht
      cases ps with
      | nil => cases ht
      | cons q qs =>
        obtain ⟨b, ql, rfl⟩ := List.exists_cons_of_ne_nil (hne q (List.mem_cons_of_mem _ List.mem_cons_self))
        rw [List.isChain_cons_cons] at hac
        have hb : b ≤ t := by
          rw [List.flatten_cons, List.cons_append] at ht hs2
          rcases List.mem_cons.1 ht with rfl | ht
          · exact le_rfl
          · exact ((List.pairwise_cons.1 hs2).1 t ht).le
        have hul : u ≤ (a :: tl).getLast (by simp) := by
          have := List.dropLast_append_getLast (l := a :: tl) (by simp)
          rw [← this] at hu hs1
          rcases List.mem_append.1 hu with hu | hu
          · exact ((List.pairwise_append.1 hs1).2.2 u hu _ (by simp)).le
          · simp at hu; exact hu.le
        have := hac.1 ((a :: tl).getLast (by simp)) (by rw [List.getLast?_eq_getLast_of_ne_nil (by simp)]; rfl) b rfl
        omega
    refine ⟨a :: trg, ?_, ?_, by simp, ?_⟩
    · rw [List.mapM_cons, h1]; rfl
    · rw [List.pairwise_cons]
      exact ⟨fun t ht => hs3 a List.mem_cons_self t ((h4 t).1 ht).1, h2⟩
    · intro t
      simp only [List.flatten_cons, List.mem_append]
      constructor
      · intro ht
        rcases List.mem_cons.1 ht with rfl | ht
        · refine ⟨Or.inl List.mem_cons_self, ?_⟩
          rintro u (hu | hu) hlt
          · have := hal u hu; omega
          · have := hs3 t List.mem_cons_self u hu; omega
        · obtain ⟨g1, g2⟩ := (h4 t).1 ht
          refine ⟨Or.inr g1, ?_⟩
          rintro u (hu | hu) hlt
          · exact far u hu t g1
          · exact g2 u hu hlt
      · rintro ⟨ht | ht, hall⟩
        · rcases List.mem_cons.1 ht with rfl | ht
          · exact List.mem_cons_self
          · obtain ⟨u, hu, h5, h6⟩ := chain_pred (hin _ List.mem_cons_self) hs1 t ht
            have := hall u (Or.inl hu) h5
            omega
        · exact List.mem_cons_of_mem _ ((h4 t).2 ⟨ht, fun u hu => hall u (Or.inr hu)⟩)

theorem mem_above {wfs : Mat} {thr : ℚ} {i : Nat} :
    i ∈ whereIdx (fun x => decide (thr < x)) wfs.sumSensors ↔ Above wfs thr i := by
  rw [whereIdx_mem, Mat.sumSensors_getElem?]
  constructor
  · rintro ⟨x, h1, h2⟩
    split at h1
    · rename_i h
      exact ⟨h, by simp only [Option.some.injEq] at h1; subst h1; simpa using h2⟩
    · cases h1
  · rintro ⟨h1, h2⟩
    exact ⟨_, if_pos h1, by simpa using h2⟩

theorem indices_ok (wf : List ℚ) (thr : ℚ) : ∃ w, indicesAndWfAboveThreshold wf thr =
    .ok (whereIdx (fun x => decide (thr < x)) wf, w) := by
  obtain ⟨ys, h, _⟩ := npTake_ok wf (whereIdx (fun x => decide (thr < x)) wf) (by
    intro i hi
    obtain ⟨x, h, _⟩ := whereIdx_mem.1 hi
    exact (List.getElem?_eq_some_iff.1 h).1)
  exact ⟨ys, by simp [indicesAndWfAboveThreshold, h]⟩

/-- **C35** The triggers are exactly, in increasing order, the bins above threshold with no other bin above threshold
among the `standOff` bins before. -/
theorem findSignalStart_spec (wfs : Mat) (thr : ℚ) (standOff : Nat) :
    ∃ trg, findSignalStart wfs thr standOff = .ok trg ∧ trg.Pairwise (· < ·) ∧
      ∀ t, t ∈ trg ↔ Above wfs thr t ∧ ∀ u, Above wfs thr u → u < t → u + standOff < t := by
  obtain ⟨w, hw⟩ := indices_ok wfs.sumSensors thr
  simp only [findSignalStart, hw]
  split
  · rename_i h0
    have : ∀ i, ¬ Above wfs thr i := fun i hi => by
      rw [← mem_above, List.eq_nil_of_length_eq_zero h0] at hi; cases hi
    exact ⟨[], rfl, by simp, fun t => Iff.intro (fun h => nomatch h) (fun h => absurd h.1 (this t))⟩
  · rename_i h0
    have hg := splitInPeaks_grouping (whereIdx (fun x => decide (thr < x)) wfs.sumSensors) standOff (by
      intro h; rw [h] at h0; exact h0 rfl)
    obtain ⟨trg, h1, h2, _, h4⟩ := heads_spec hg.nonempty hg.inside hg.across (by rw [hg.cover]; exact whereIdx_sorted _ _)
    refine ⟨trg, h1, h2, fun t => ?_⟩
    rw [h4, hg.cover]
    simp only [mem_above]

/-- Three groups of bins above threshold with stand-off 3: bins 1, 3 | 8 | 12, 13. -/
example : findSignalStart ⟨[[0, 5, 0, 5, 0, 0, 0, 0, 5, 0, 0, 0, 5, 9], [0, 1, 0, 1, 0, 0, 0, 0, 1, 0, 0, 0, 1, 1]], 14⟩ 5 3 = .ok [1, 8, 12] := by
  decide +kernel

/-- **C35** Any two triggers differ by more than the stand-off. -/
theorem triggers_apart (wfs : Mat) (thr : ℚ) (standOff : Nat) (trg : List Nat)
    (h : findSignalStart wfs thr standOff = .ok trg) : trg.Pairwise fun a b => a + standOff < b := by
  obtain ⟨trg', h1, h2, h3⟩ := findSignalStart_spec wfs thr standOff
  obtain rfl : trg' = trg := by rw [h1] at h; injection h
  exact h2.imp_of_mem fun {a b} ha hb hlt => ((h3 b).1 hb).2 a ((h3 a).1 ha).1 hlt

example : ∃ trg, findSignalStart ⟨[[9, 0, 0, 9]], 4⟩ 5 2 = .ok trg ∧ trg.length = 2 := ⟨[0, 3], by decide +kernel, rfl⟩

/-- **C35** The triggers found in buffers of length `bufferLen` start more than a buffer length apart. -/
theorem signal_finder_apart (bufferLen w thr : ℚ) (wfs : Mat) (trg : List Nat) (hw : 0 < w) (hB : 0 ≤ bufferLen)
    (h : signalFinder bufferLen w thr wfs = .ok trg) : trg.Pairwise fun a b : Nat => bufferLen < (b : ℚ) * w - (a : ℚ) * w := by
  refine (triggers_apart _ _ _ _ h).imp ?_
  intro a b hab
  have h5 : (0 : ℤ) ≤ ⌊bufferLen / w⌋ := Int.floor_nonneg.2 (div_nonneg hB hw.le)
  have h6 : bufferLen / w < (⌊bufferLen / w⌋ : ℚ) + 1 := Int.lt_floor_add_one _
  have h7 : (⌊bufferLen / w⌋ : ℤ) + 1 ≤ (b : ℤ) - a := by omega
  have h8 : (⌊bufferLen / w⌋ : ℚ) + 1 ≤ (b : ℚ) - a := by exact_mod_cast h7
  have h9 : bufferLen / w < (b : ℚ) - a := by linarith
  rw [div_lt_iff₀ hw] at h9
  linarith [sub_mul (b : ℚ) a w]

example : ∃ trg, signalFinder 5 2 5 ⟨[[9, 0, 9, 0, 0, 9]], 6⟩ = .ok trg ∧ trg = [0, 5] ∧ (0 : ℚ) < 2 := ⟨[0, 5], by decide +kernel, rfl, by decide⟩

/-- **C35** The first trigger is the first bin above threshold. -/
theorem first_trigger (wfs : Mat) (thr : ℚ) (standOff : Nat) (trg : List Nat) (i : Nat)
    (h : findSignalStart wfs thr standOff = .ok trg) (hi : Above wfs thr i) (hmin : ∀ j, Above wfs thr j → i ≤ j) :
    trg.head? = some i := by
  obtain ⟨trg', h1, h2, h3⟩ := findSignalStart_spec wfs thr standOff
  obtain rfl : trg' = trg := by rw [h1] at h; injection h
  have hmem : i ∈ trg' := (h3 i).2 ⟨hi, fun u hu hlt => by have := hmin u hu; omega⟩
  cases trg' with
  | nil => cases hmem
  | cons a tl =>
    have ha := hmin a ((h3 a).1 List.mem_cons_self).1
    rcases List.mem_cons.1 hmem with rfl | hm
    · rfl
    · have := (List.pairwise_cons.1 h2).1 i hm; omega

/-- **C35** Every bin above threshold belongs to the group of some trigger: going back in steps of at most `standOff` over
bins above threshold a trigger is reached. -/
theorem triggers_cover (wfs : Mat) (thr : ℚ) (standOff : Nat) (trg : List Nat) (i : Nat)
    (h : findSignalStart wfs thr standOff = .ok trg) (hi : Above wfs thr i) :
    ∃ t ∈ trg, t ≤ i ∧ Relation.ReflTransGen (fun a b => Above wfs thr b ∧ a < b ∧ b ≤ a + standOff) t i := by
  obtain ⟨trg', h1, h2, h3⟩ := findSignalStart_spec wfs thr standOff
  obtain rfl : trg' = trg := by rw [h1] at h; injection h
  induction i using Nat.strong_induction_on with
  | _ i ih =>
    by_cases hall : ∀ u, Above wfs thr u → u < i → u + standOff < i
    · exact ⟨i, (h3 i).2 ⟨hi, hall⟩, le_rfl, .refl⟩
    · push Not at hall
      obtain ⟨u, hu, hlt, hle⟩ := hall
      obtain ⟨t, ht, h4, h5⟩ := ih u hlt hu
      exact ⟨t, ht, by omega, h5.tail ⟨hi, hlt, hle⟩⟩

/-- **C35** No bin above threshold, no trigger; otherwise at least one. -/
theorem no_signal_no_trigger (wfs : Mat) (thr : ℚ) (standOff : Nat) :
    findSignalStart wfs thr standOff = .ok [] ↔ ∀ i, ¬ Above wfs thr i := by
  obtain ⟨trg, h1, h2, h3⟩ := findSignalStart_spec wfs thr standOff
  constructor
  · intro h i hi
    obtain ⟨t, ht, _⟩ := triggers_cover wfs thr standOff [] i h hi
    cases ht
  · intro h
    rw [h1]
    cases trg with
    | nil => rfl
    | cons a tl => exact absurd ((h3 a).1 List.mem_cons_self).1 (h a)

example : Above ⟨[[0, 9]], 2⟩ 5 1 := by simp [Above]; norm_num

/-! ### Buffers -/

theorem npPad_getD (a b : Nat) (row : List ℚ) (k : Nat) :
    (npPad a b row).getD k 0 = if k < a then 0 else row.getD (k - a) 0 := by
  simp only [npPad, List.getD_eq_getElem?_getD]
  by_cases h1 : k < a
  · rw [List.append_assoc, List.getElem?_append_left (by simpa using h1)]
    simp [h1]
  · rw [List.append_assoc, List.getElem?_append_right (by simpa using h1)]
    simp only [List.length_replicate, h1, if_false]
    by_cases h2 : k - a < row.length
    · rw [List.getElem?_append_left h2]
    · rw [List.getElem?_append_right (by omega), List.getElem?_eq_none (l := row) (by omega), List.getElem?_replicate]
      split <;> rfl

/-- **C36** The buffer of one plane: whatever the position of the trigger in the data, the samples `pre` before it and
`post` from it on, with zeros where there are no data. -/
theorem cut_window (n : Nat) (rows : List (List ℚ)) (trg : Nat) (pre post : Int) (hn : ∀ r ∈ rows, r.length = n) (hne : rows ≠ [])
    (htrg : trg < n) (hpre : 0 ≤ pre) (hlen : 0 ≤ pre + post) (hpost : 0 ≤ trg + post) :
    IsWindow rows (trg - pre) (pre + post).toNat (cut n rows trg pre post) := by
  have hstop : ¬ min (n : Int) (trg + post) < 0 := by omega
  simp only [cut, padSafe, List.map_eq_nil_iff, hne, if_false, hstop]
  refine ⟨?_, by simp, ?_⟩
  · simp only; omega
  · intro i r hr
    have hl := hn r (List.mem_of_getElem? hr)
    refine ⟨_, by simp only [List.map_map]; rw [List.getElem?_map, hr]; rfl, ?_, ?_⟩
    · simp only [Function.comp, npPad, sliceZ, if_neg hstop, List.length_append, List.length_replicate, pySlice_length, hl]
      omega
    · intro k hk
      simp only [Function.comp, npPad_getD, sliceZ, if_neg hstop, sampleAt]
      split
      · rw [if_neg (by omega)]
      · rename_i h1
        rw [if_pos (by omega), List.getD_eq_getElem?_getD, pySlice_getElem?]
        have e : (max 0 ((trg : Int) - pre)).toNat + (k - (-(min 0 ((trg : Int) - pre))).toNat) = ((trg : Int) - pre + k).toNat := by omega
        rw [e]
        split
        · rw [List.getD_eq_getElem?_getD]
        · rename_i h2
          rw [List.getD_eq_getElem?_getD, List.getElem?_eq_none (l := r) (by omega)]

/-- Trigger at bin 1 of 5, 3 samples before and 4 after: two zeros and the five samples. -/
example : cut 5 [[1, 2, 3, 4, 5]] 1 3 4 = ⟨[[0, 0, 1, 2, 3, 4, 5]], 7⟩ := by decide +kernel
example : cut 5 [[1, 2, 3, 4, 5]] 4 1 3 = ⟨[[4, 5, 0, 0]], 4⟩ := by decide +kernel

theorem lastBinBefore_spec {bins : List ℚ} {t : ℚ} {g : Nat} (h : lastBinBefore bins t = .ok g) :
    ∃ b, bins[g]? = some b ∧ b ≤ t ∧ ∀ (j : Nat) c, bins[j]? = some c → c ≤ t → j ≤ g := by
  simp only [lastBinBefore] at h
  split at h
  · cases h
  · rename_i g' hg
    cases h
    have hm := List.mem_of_getLast? hg
    obtain ⟨b, hb, hle⟩ := whereIdx_mem.1 hm
    refine ⟨b, hb, by simpa using hle, fun j c hc hct => ?_⟩
    have hj : j ∈ whereIdx (fun b => decide (b ≤ t)) bins := whereIdx_mem.2 ⟨c, hc, by simpa using hct⟩
    have hs := whereIdx_sorted (fun b => decide (b ≤ t)) bins
    have hne : whereIdx (fun b => decide (b ≤ t)) bins ≠ [] := by intro h; rw [h] at hj; cases hj
    rw [List.getLast?_eq_getLast_of_ne_nil hne, Option.some.injEq] at hg
    rw [← List.dropLast_append_getLast hne] at hj hs
    rcases List.mem_append.1 hj with hj | hj
    · have := (List.pairwise_append.1 hs).2.2 j hj _ List.mem_cons_self; omega
    · simp at hj; omega

theorem lastBinBefore_ok {bins : List ℚ} {t b : ℚ} (h0 : bins[0]? = some b) (hb : b ≤ t) : ∃ g, lastBinBefore bins t = .ok g := by
  have hj : 0 ∈ whereIdx (fun b => decide (b ≤ t)) bins := whereIdx_mem.2 ⟨b, h0, by simpa using hb⟩
  simp only [lastBinBefore]
  cases hg : (whereIdx (fun b => decide (b ≤ t)) bins).getLast? with
  | none => rw [List.getLast?_eq_none_iff] at hg; rw [hg] at hj; cases hj
  | some g => exact ⟨g, rfl⟩

/-- **C36** The buffers of one trigger.  For every trigger bin `trigger` at time `t` and every data length, with
`0 ≤ pre_trigger ≤ buffer_len`: the SiPM bin `g` is the last one starting not after `t`; the PMT buffers are the
`buffer_len // pmt_w` samples starting `pre_trigger // pmt_w` plus the offset to the SiPM bin before the trigger, and the
SiPM buffers the `buffer_len // sipm_w` samples starting `pre_trigger // sipm_w` bins before the bin `g`; zeros outside the
data. -/
theorem generateSlice_spec (bufferLen preTrigger pmtW sipmW : ℚ) (trigger : Nat) (pmtBins : List ℚ) (pmt : List (List ℚ))
    (sipmBins : List ℚ) (sipm : List (List ℚ)) (t b0 : ℚ)
    (hwp : 0 < pmtW) (hws : 0 < sipmW) (hpre : 0 ≤ preTrigger) (hle : preTrigger ≤ bufferLen)
    (ht : pmtBins[trigger]? = some t) (hb0 : sipmBins[0]? = some b0) (hb : b0 ≤ t)
    (hpmt : ∀ r ∈ pmt, r.length = pmtBins.length) (hsipm : ∀ r ∈ sipm, r.length = sipmBins.length)
    (hpne : pmt ≠ []) (hsne : sipm ≠ []) :
    ∃ p s g tg, generateSlice bufferLen preTrigger pmtW sipmW trigger pmtBins pmt sipmBins sipm = .ok (p, s) ∧
      sipmBins[g]? = some tg ∧ tg ≤ t ∧ (∀ (j : Nat) c, sipmBins[j]? = some c → c ≤ t → j ≤ g) ∧
      IsWindow sipm (g - ⌊preTrigger / sipmW⌋) ⌊bufferLen / sipmW⌋.toNat s ∧
      ((⌊(t - tg) / pmtW⌋ : Int) ≤ trigger + ⌊bufferLen / pmtW⌋ - ⌊preTrigger / pmtW⌋ →
        IsWindow pmt (trigger - ⌊preTrigger / pmtW⌋ - ⌊(t - tg) / pmtW⌋) ⌊bufferLen / pmtW⌋.toNat p) := by
  obtain ⟨g, hg⟩ := lastBinBefore_ok hb0 hb
  obtain ⟨tg, h1, h2, h3⟩ := lastBinBefore_spec hg
  have hgd : sipmBins.getD g 0 = tg := by rw [List.getD_eq_getElem?_getD, h1]; rfl
  have hgl : g < sipmBins.length := (List.getElem?_eq_some_iff.1 h1).1
  have htl : trigger < pmtBins.length := (List.getElem?_eq_some_iff.1 ht).1
  have k1 : 0 ≤ ⌊preTrigger / sipmW⌋ := Int.floor_nonneg.2 (by positivity)
  have k2 : 0 ≤ ⌊preTrigger / pmtW⌋ := Int.floor_nonneg.2 (by positivity)
  have k3 : ⌊preTrigger / sipmW⌋ ≤ ⌊bufferLen / sipmW⌋ := Int.floor_le_floor (by gcongr)
  have k4 : ⌊preTrigger / pmtW⌋ ≤ ⌊bufferLen / pmtW⌋ := Int.floor_le_floor (by gcongr)
  have k5 : 0 ≤ ⌊(t - tg) / pmtW⌋ := Int.floor_nonneg.2 (div_nonneg (by linarith) hwp.le)
  refine ⟨_, _, g, tg, by simp only [generateSlice, ht, hg]; rfl, h1, h2, h3, ?_, ?_⟩
  · have := cut_window sipmBins.length sipm g ⌊preTrigger / sipmW⌋ (⌊bufferLen / sipmW⌋ - ⌊preTrigger / sipmW⌋) hsipm hsne hgl
      k1 (by omega) (by omega)
    rw [show ⌊preTrigger / sipmW⌋ + (⌊bufferLen / sipmW⌋ - ⌊preTrigger / sipmW⌋) = ⌊bufferLen / sipmW⌋ by ring] at this
    exact this
  · intro hc
    have := cut_window pmtBins.length pmt trigger (⌊preTrigger / pmtW⌋ + ⌊(t - tg) / pmtW⌋)
      (⌊bufferLen / pmtW⌋ - ⌊preTrigger / pmtW⌋ - ⌊(t - tg) / pmtW⌋) hpmt hpne htl (by omega) (by omega) (by omega)
    rw [show ⌊preTrigger / pmtW⌋ + ⌊(t - tg) / pmtW⌋ + (⌊bufferLen / pmtW⌋ - ⌊preTrigger / pmtW⌋ - ⌊(t - tg) / pmtW⌋) = ⌊bufferLen / pmtW⌋ by ring,
      show (trigger : Int) - (⌊preTrigger / pmtW⌋ + ⌊(t - tg) / pmtW⌋) = trigger - ⌊preTrigger / pmtW⌋ - ⌊(t - tg) / pmtW⌋ by ring] at this
    simp only [preSamples, bufferSamples, hgd]
    exact this

/-- PMT samples of 1, SiPM samples of 4; trigger at PMT bin 6, that is, 2 samples after the start of SiPM bin 1. -/
example : generateSlice 12 4 1 4 6 [0, 1, 2, 3, 4, 5, 6, 7] [[0, 1, 2, 3, 4, 5, 6, 7]] [0, 4] [[10, 20]] =
    .ok (⟨[[0, 1, 2, 3, 4, 5, 6, 7, 0, 0, 0, 0]], 12⟩, ⟨[[10, 20, 0]], 3⟩) := by decide +kernel

/-- **C36** PMT and SiPM buffers start at the same time when the offset between trigger and SiPM bin is a whole number of
PMT samples and the pre-trigger a whole number of SiPM samples, the SiPM width being a multiple of that of the PMTs.
(`t` and `tg` are the times of the trigger bin and of its SiPM bin; the first samples of the windows of
`generateSlice_spec` are at `t - (⌊pre/w_p⌋ + corr) w_p` and `tg - ⌊pre/w_s⌋ w_s`.) -/
theorem buffers_aligned (preTrigger pmtW sipmW t tg : ℚ) (hwp : 0 < pmtW) (hws : 0 < sipmW) (k m : Int) (c : Int)
    (hm : sipmW = m * pmtW) (hk : preTrigger = k * sipmW) (hc : t - tg = c * pmtW) :
    t - (⌊preTrigger / pmtW⌋ + ⌊(t - tg) / pmtW⌋ : Int) * pmtW = tg - ⌊preTrigger / sipmW⌋ * sipmW := by
  have e1 : preTrigger / pmtW = ((k * m : Int) : ℚ) := by rw [hk, hm]; push_cast; field_simp
  have e2 : preTrigger / sipmW = (k : ℚ) := by rw [hk]; field_simp
  have e3 : (t - tg) / pmtW = (c : ℚ) := by rw [hc]; field_simp
  rw [e1, e2, e3, Int.floor_intCast, Int.floor_intCast, Int.floor_intCast]
  push_cast
  rw [hm]
  linarith

example : (100 : ℚ) = (4 : Int) * 25 ∧ (1000 : ℚ) = (10 : Int) * 100 ∧ (175 : ℚ) - 100 = (3 : Int) * 25 := by norm_num

/-- **C36** Exactly by how much they differ otherwise: the difference between the pre-trigger rounded down to whole SiPM
samples and rounded down to whole PMT samples. -/
theorem buffers_offset (preTrigger pmtW sipmW t tg : ℚ) (hwp : 0 < pmtW) (c : Int) (hc : t - tg = c * pmtW) :
    (t - (⌊preTrigger / pmtW⌋ + ⌊(t - tg) / pmtW⌋ : Int) * pmtW) - (tg - ⌊preTrigger / sipmW⌋ * sipmW) =
      ⌊preTrigger / sipmW⌋ * sipmW - ⌊preTrigger / pmtW⌋ * pmtW := by
  have e3 : (t - tg) / pmtW = (c : ℚ) := by rw [hc]; field_simp
  rw [e3, Int.floor_intCast]
  push_cast
  linarith

/-- **C36** (finding) With a pre-trigger that is not a multiple of the SiPM width the buffers start at different times:
here 6 with widths 1 and 4 and trigger at time 8: the PMT buffer starts at 2 and the SiPM buffer at 4. -/
theorem buffers_misaligned : generateSlice 12 6 1 4 8 [0, 1, 2, 3, 4, 5, 6, 7, 8, 9, 10, 11] [[0, 1, 2, 3, 4, 5, 6, 7, 8, 9, 10, 11]]
    [0, 4, 8] [[10, 14, 18]] = .ok (⟨[[2, 3, 4, 5, 6, 7, 8, 9, 10, 11, 0, 0]], 12⟩, ⟨[[14, 18, 0]], 3⟩) := by decide +kernel

/-- **C36** (finding) The condition on the offset is needed: a trigger in the first PMT bin, 3 samples after the start of
its SiPM bin, with pre-trigger equal to the buffer length gives PMT buffers longer than the buffer (a negative end of the
slice counts from the end). -/
theorem negative_stop_longer : ∃ p s, generateSlice 4 4 1 4 0 [3, 4, 5, 6, 7, 8] [[1, 2, 3, 4, 5, 6]] [0, 4] [[7, 7]] = .ok (p, s) ∧
    p.ncols = 10 := ⟨_, _, rfl, by decide +kernel⟩

/-- **C36** (finding) Without SiPM waveforms the number of columns is not that of the buffer. -/
theorem no_sensors_width : ∃ p s, generateSlice 8 4 1 4 4 [0, 1, 2, 3, 4, 5, 6, 7] [[0, 1, 2, 3, 4, 5, 6, 7]] [0, 4] [] = .ok (p, s) ∧
    s.ncols = 1 ∧ p.ncols = 8 := ⟨_, _, rfl, by decide +kernel, by decide +kernel⟩

/-- **C36** One pair of buffers per trigger, in order. -/
theorem positionSignal_each (bufferLen preTrigger pmtW sipmW : ℚ) (triggers : List Nat) (pmtBins : List ℚ) (pmt : List (List ℚ))
    (sipmBins : List ℚ) (sipm : List (List ℚ)) (bufs : List (Mat × Mat))
    (h : positionSignal bufferLen preTrigger pmtW sipmW triggers pmtBins pmt sipmBins sipm = .ok bufs) :
    bufs.length = triggers.length ∧ ∀ (i : Nat) t b, triggers[i]? = some t → bufs[i]? = some b →
      generateSlice bufferLen preTrigger pmtW sipmW t pmtBins pmt sipmBins sipm = .ok b := by
  rw [positionSignal, mapM_ok_iff] at h
  exact ⟨h.length_eq.symm, fun i t b ht hb => forall₂_getElem? h i t b ht hb⟩

example : ∃ bufs, positionSignal 4 1 1 2 [0, 3] [0, 1, 2, 3] [[1, 2, 3, 4]] [0, 2] [[5, 6]] = .ok bufs ∧ bufs.length = 2 :=
  ⟨_, rfl, by decide +kernel⟩

end Verif.Buffers
