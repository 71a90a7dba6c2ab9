import Verif.Props.Fee
import Verif.Props.BlrPmts
/-!
# C89: simulation of the response of the PMTs; C90: low frequency noise
-/
namespace Verif.Fee
open Spec

/-- C89: the raw waveform is the offset minus the signal of the electronics in ADC counts and the noise of the DAQ, plus the low frequency noise; the other one is the signal without coupling nor noise. -/
theorem simulate_spec {spe : List ℚ} {decimate : List ℚ → List ℚ} {toAdc offset : ℚ} {e : Electronics} {cc rms : ℚ} {d : Draws} {low rd rwf blr : List ℚ}
    (h : simulatePmt spe decimate toAdc offset e cc rms d low rd = .ok (rwf, blr)) (hd : d.daq.length = low.length) :
    ∃ fee lpf, signalFee e d.fee (decimate (spePulseFromVector spe (Detsim.chargeFluctuation rd d.charge rms) cc)) = .ok fee ∧
      signalLpf e (decimate (spePulseFromVector spe (Detsim.chargeFluctuation rd d.charge rms) cc)) = .ok lpf ∧ rwf.length = fee.length ∧ blr.length = lpf.length ∧
      (∀ n < fee.length, at' rwf n = offset - (at' fee n * toAdc + at' d.daq n - at' low n)) ∧ (∀ n, at' blr n = at' lpf n * toAdc) := by
  unfold simulatePmt at h
  cases hf : signalFee e d.fee (decimate (spePulseFromVector spe (Detsim.chargeFluctuation rd d.charge rms) cc)) with
  | error err => rw [hf] at h; cases h
  | ok fee =>
    rw [hf] at h
    dsimp only at h
    split at h
    · cases h
    · rename_i hl
      rw [not_not] at hl
      cases hg : signalLpf e (decimate (spePulseFromVector spe (Detsim.chargeFluctuation rd d.charge rms) cc)) with
      | error err => rw [hg] at h; cases h
      | ok lpf =>
        rw [hg] at h
        injection h with h
        injection h with h1 h2
        subst h1 h2
        refine ⟨fee, lpf, rfl, rfl, ?_, List.length_map _, fun n hn => ?_, fun n => at_map (f := fun s => s * toAdc) (zero_mul _) lpf n⟩
        · rw [List.length_zipWith, List.length_zipWith]; omega
        · unfold at'
          rw [List.getD_eq_getElem _ _ (by rw [List.length_zipWith, List.length_zipWith]; omega), List.getElem_zipWith, List.getElem_zipWith, List.getD_eq_getElem _ _ hn, List.getD_eq_getElem _ _ (by omega),
            List.getD_eq_getElem _ _ (by omega)]
          ring

/-- C89: the low frequency noise must have the length of the waveform. -/
theorem simulate_length {spe : List ℚ} {decimate : List ℚ → List ℚ} {toAdc offset : ℚ} {e : Electronics} {cc rms : ℚ} {d : Draws} {low rd fee : List ℚ}
    (h : signalFee e d.fee (decimate (spePulseFromVector spe (Detsim.chargeFluctuation rd d.charge rms) cc)) = .ok fee) (hl : low.length ≠ fee.length) :
    simulatePmt spe decimate toAdc offset e cc rms d low rd = .error .valueError := by
  unfold simulatePmt
  rw [h]
  exact if_pos hl

/-- C89: each PMT is simulated with its own electronics, constants, photoelectrons and noise. -/
theorem simulate_each {spe : List ℚ} {decimate : List ℚ → List ℚ} {toAdc offset : ℚ} {low : Nat → Except PyErr (List ℚ)} {pmts : List (Electronics × ℚ × ℚ × Draws × List ℚ)} {out : List (List ℚ × List ℚ)}
    (h : simulatePmts spe decimate toAdc offset low pmts = .ok out) :
    out.length = pmts.length ∧ ∀ (i : Nat) (e : Electronics) (cc rms : ℚ) (d : Draws) (rd : List ℚ), pmts[i]? = some (e, cc, rms, d, rd) →
      ∃ l w, low i = .ok l ∧ out[i]? = some w ∧ simulatePmt spe decimate toAdc offset e cc rms d l rd = .ok w := by
  obtain ⟨h1, h2⟩ := Blr.mapM_ok_get h
  refine ⟨h1.trans (List.length_zipIdx ..), fun i e cc rms d rd hi => ?_⟩
  obtain ⟨w, hw, hs⟩ := h2 i ((e, cc, rms, d, rd), i) (by rw [List.getElem?_zipIdx, hi]; simp)
  cases hl : low i with
  | error err => simp only [hl] at hs; cases hs
  | ok l => simp only [hl] at hs; exact ⟨l, w, rfl, hw, hs⟩

/-! ### Low frequency noise -/

theorem contributions_get (cos : ℚ → ℚ) (times : List ℚ) (rs : List ℚ) : ∀ (ms ps : List ℚ) (k : Nat), k < rs.length → k < ms.length → k < ps.length →
    (contributions cos times rs ms ps).getD k [] = contribution cos times (rs.getD k 0) (ms.getD k 0) (ps.getD k 0) := by
  induction rs with
  | nil => intro ms ps k h; cases h
  | cons r rs ih =>
    intro ms ps k h1 h2 h3
    cases ms with
    | nil => cases h2
    | cons m ms =>
      cases ps with
      | nil => cases h3
      | cons p ps =>
        rw [contributions]
        cases k with
        | zero => rfl
        | succ k => exact ih ms ps k (by simpa using h1) (by simpa using h2) (by simpa using h3)

theorem tile_length (rots : List ℚ) (n : Nat) : (List.replicate n rots).flatten.length = n * rots.length := by
  rw [List.length_flatten, List.map_replicate, List.sum_replicate, smul_eq_mul]

theorem tile_get (rots : List ℚ) (n b f : Nat) (hb : b < n) (hf : f < rots.length) : (List.replicate n rots).flatten.getD (b * rots.length + f) 0 = rots.getD f 0 := by
  induction n generalizing b with
  | zero => omega
  | succ n ih =>
    rw [List.replicate_succ, List.flatten_cons]
    cases b with
    | zero => rw [Nat.zero_mul, Nat.zero_add, List.getD_append _ _ _ _ hf]
    | succ b =>
      rw [List.getD_append_right _ _ _ _ (by rw [Nat.succ_mul]; omega), ← ih b (by omega)]
      congr 1
      rw [Nat.succ_mul]
      omega

theorem columns_get (g : Nat → List ℚ) (m : Nat) (hg : ∀ b, (g b).length = m) (n : Nat) : ((List.range n).flatMap g).length = n * m ∧ ∀ b f, b < n → f < m → ((List.range n).flatMap g).getD (b * m + f) 0 = (g b).getD f 0 := by
  induction n with
  | zero => exact ⟨by simp, fun b f h => by omega⟩
  | succ n ih =>
    rw [List.range_succ, List.flatMap_append, List.flatMap_singleton]
    refine ⟨by rw [List.length_append, ih.1, hg]; ring, fun b f hb hf => ?_⟩
    by_cases h : b < n
    · rw [List.getD_append _ _ _ _ (by
        rw [ih.1]
        calc b * m + f < b * m + m := by omega
          _ = (b + 1) * m := by ring
          _ ≤ n * m := Nat.mul_le_mul_right m h), ih.2 b f h hf]
    · have : b = n := by omega
      subst this
      rw [List.getD_append_right _ _ _ _ (by rw [ih.1]; omega), ih.1]
      congr 1
      omega

theorem list_sum_range (g : Nat → ℚ) (n : Nat) : ((List.range n).map g).sum = ∑ i ∈ Finset.range n, g i := by
  induction n with
  | zero => simp
  | succ n ih => rw [List.range_succ, List.map_append, List.sum_append, ih, Finset.sum_range_succ]; simp

/-- C90: the noise of a box is the sum over the frequencies of the oscillations with the magnitudes of that box; the frequencies are common to the boxes, the phases are not. -/
theorem box_noise (cos : ℚ → ℚ) (times : List ℚ) {nbox : Nat} {rots : List ℚ} {mags : List (List ℚ)} {phases : List ℚ} (hm : mags.length = rots.length) (hp : phases.length = nbox * rots.length) :
    (boxNoise cos times nbox rots mags phases).length = nbox ∧ ∀ b < nbox, ∃ n, (boxNoise cos times nbox rots mags phases)[b]? = some n ∧ n.length = times.length ∧
      ∀ t < times.length, n.getD t 0 = ∑ f ∈ Finset.range rots.length, 2 * (mags.getD f []).getD b 0 * cos (rots.getD f 0 * times.getD t 0 + phases.getD (b * rots.length + f) 0) := by
  unfold boxNoise
  refine ⟨by rw [List.length_map, List.length_range], fun b hb => ?_⟩
  refine ⟨_, by rw [List.getElem?_map, List.getElem?_range hb]; rfl, by rw [List.length_map, List.length_range], fun t ht => ?_⟩
  have hc := columns_get (fun b => mags.map fun row => row.getD b 0) rots.length (fun b => by rw [List.length_map, hm]) nbox
  rw [List.getD_eq_getElem _ _ (by rw [List.length_map, List.length_range]; exact ht), List.getElem_map, List.getElem_range, list_sum_range]
  refine Finset.sum_congr rfl fun f hf => ?_
  have hf := Finset.mem_range.1 hf
  have hlt : b * rots.length + f < nbox * rots.length :=
    calc b * rots.length + f < b * rots.length + rots.length := by omega
      _ = (b + 1) * rots.length := by ring
      _ ≤ nbox * rots.length := Nat.mul_le_mul_right _ hb
  rw [contributions_get _ _ _ _ _ _ (by rw [tile_length]; exact hlt) (by rw [hc.1]; exact hlt) (by rw [hp]; exact hlt), tile_get _ _ _ _ hb hf, hc.2 b f hb hf]
  unfold contribution
  rw [List.getD_eq_getElem _ _ (by rw [List.length_map]; exact ht), List.getElem_map, List.getD_eq_getElem _ _ ht]
  congr 2
  rw [List.getD_eq_getElem _ _ (by rw [List.length_map]; omega), List.getElem_map, List.getD_eq_getElem mags _ (by omega)]

/-- C90: the noise of a PMT is that of the first box its sensor has (the rows being ordered by sensor), so that two PMTs in the same box have the same noise; a PMT that does not exist, has no box, or has a box without noise is an IndexError. -/
theorem low_noise {mapping : List BoxRow} {sensors : List Int} {noise : List (List ℚ)} {pmt : Nat} {n : List ℚ} :
    lowNoise mapping sensors noise pmt = .ok n ↔ ∃ (s : Int) (i : Nat) (r : BoxRow), sensors[pmt]? = some s ∧ mapping[i]? = some r ∧ r.sensor = s ∧ (∀ j < i, ∀ r' : BoxRow, mapping[j]? = some r' → r'.sensor ≠ s) ∧ noise[r.box]? = some n := by
  unfold lowNoise
  cases hs : sensors[pmt]? with
  | none => simp
  | some s =>
    dsimp only
    cases hf : mapping.find? fun r => decide (r.sensor = s) with
    | none =>
      rw [List.find?_eq_none] at hf
      constructor
      · intro h; cases h
      · rintro ⟨s', i, r, h1, h2, h3, -⟩
        cases h1
        exact absurd h3 (by simpa using hf r (List.mem_of_getElem? h2))
    | some r =>
      obtain ⟨h1, i, hi, h2, h3⟩ := List.find?_eq_some_iff_getElem.1 hf
      have h1 : r.sensor = s := by simpa using h1
      constructor
      · intro h
        cases hn : noise[r.box]? with
        | none => simp only [hn] at h; cases h
        | some m =>
          simp only [hn] at h
          cases h
          refine ⟨s, i, r, rfl, by rw [List.getElem?_eq_getElem hi, h2], h1, fun j hj r' hr => ?_, hn⟩
          have := h3 j hj
          rw [List.getElem?_eq_getElem (by omega)] at hr
          cases hr
          simpa using this
      · rintro ⟨s', i', r', e1, e2, e3, e4, e5⟩
        cases e1
        have hii : i' = i := by
          rcases lt_trichotomy i' i with h | h | h
          · have := h3 i' h
            obtain ⟨hl, he⟩ := List.getElem?_eq_some_iff.1 e2
            rw [he] at this
            simp [e3] at this
          · exact h
          · exact absurd h1 (e4 i h r (by rw [List.getElem?_eq_getElem hi, h2]))
        subst hii
        rw [List.getElem?_eq_getElem hi, h2] at e2
        cases e2
        simp only [e5]

theorem low_noise_error {mapping : List BoxRow} {sensors : List Int} {noise : List (List ℚ)} {pmt : Nat} : (∃ n, lowNoise mapping sensors noise pmt = .ok n) ∨ lowNoise mapping sensors noise pmt = .error .indexError := by
  unfold lowNoise
  cases sensors[pmt]? with
  | none => right; rfl
  | some s =>
    dsimp only
    cases mapping.find? fun r => decide (r.sensor = s) with
    | none => right; rfl
    | some r =>
      dsimp only
      cases noise[r.box]? with
      | none => right; rfl
      | some n => left; exact ⟨n, rfl⟩

/-- C90: the limits between which the frequencies are drawn: intervals of the same width (the difference of the first two frequencies) around each frequency; with fewer than two frequencies it is an IndexError. -/
theorem limits_spec (fs : List ℚ) : (fs.length < 2 → limits fs = .error .indexError) ∧
    (2 ≤ fs.length → ∃ ls, limits fs = .ok ls ∧ ls.length = fs.length ∧ ∀ (i : Nat) (f : ℚ) (l : ℚ × ℚ), fs[i]? = some f → ls[i]? = some l → l.1 + l.2 = 2 * f ∧ l.2 - l.1 = fs.getD 1 0 - fs.getD 0 0) := by
  unfold limits
  rcases fs with _ | ⟨f, _ | ⟨g, fs⟩⟩
  · exact ⟨fun _ => rfl, fun h => by cases h⟩
  · exact ⟨fun _ => rfl, fun h => by simp at h⟩
  · refine ⟨fun h => by simp at h, fun _ => ⟨_, rfl, List.length_map _, fun i x l hx hl => ?_⟩⟩
    rw [List.getElem?_map, hx] at hl
    cases hl
    exact ⟨by ring, by show x + (g - f) / 2 - (x - (g - f) / 2) = g - f; ring⟩

/-- C90: the rows used are those valid for the run (the run 0 is not replaced). -/
theorem low_rows (run : Int) (bs : List BoxRow) (fs : List FreqRow) : (∀ r, r ∈ boxes run bs ↔ r ∈ bs ∧ r.runs.lo ≤ run.natAbs ∧ (∀ h, r.runs.hi = some h → (run.natAbs : Int) ≤ h)) ∧
    (boxes run bs).Pairwise (fun a b => a.sensor ≤ b.sensor) ∧ (∀ r, r ∈ freqs run fs ↔ r ∈ fs ∧ r.runs.lo ≤ run.natAbs ∧ (∀ h, r.runs.hi = some h → (run.natAbs : Int) ≤ h)) ∧ (freqs run fs).Sublist fs := by
  have ho : ∀ r : LoadDb.Runs, LoadDb.openRun run.natAbs r = true ↔ r.lo ≤ run.natAbs ∧ (∀ h, r.hi = some h → (run.natAbs : Int) ≤ h) := by
    intro r
    unfold LoadDb.openRun
    rw [Bool.and_eq_true, decide_eq_true_iff]
    cases r.hi with
    | none => simp
    | some h => simp
  refine ⟨fun r => ?_, ?_, fun r => ?_, List.filter_sublist⟩
  · unfold boxes
    rw [List.mem_insertionSort, List.mem_filter, ho]
  · have : IsTotal BoxRow (fun a b => a.sensor ≤ b.sensor) := ⟨fun a b => le_total _ _⟩
    have : IsTrans BoxRow (fun a b => a.sensor ≤ b.sensor) := ⟨fun a b c => le_trans⟩
    exact List.pairwise_insertionSort _ _
  · unfold freqs
    rw [List.mem_filter, ho]

/-! ### Examples -/

example : spe 12 2 2 = [0, 3, 3, 3, 3, 0] := by decide +kernel

example : spePulseFromVector [1, 2] [1, 0, 0, 5] 2 = [2, 4, 0, 0] := by decide +kernel

example : spePulse [1, 2] 1 3 = .ok [0, 1, 2, 0] := by decide +kernel

example : lfilter ⟨[1, 1], [1, -1]⟩ [1, 0, 0, 2] = .ok [1, 2, 2, 4] := by decide +kernel

def exE : Electronics := ⟨1, 1 / 2, ⟨[1, 1], [2, -1]⟩, 1 / 4, 3, 2, 5, 1 / 3⟩

example : Usable exE.lpf2 := by decide +kernel

/-- The hypotheses of `fee_spec` can be met for every signal. -/
example (x noise : List ℚ) : ∃ l h y z, Response (butterLow exE.w) (List.zipWith (· + ·) x noise) l ∧ Response (butterHigh exE.w) (List.zipWith (· + ·) x noise) h ∧
    Response (butterLow exE.w1) (List.zipWith (fun u v => u * exE.zc + v * exE.a1) l h) y ∧ Response exE.lpf2 y z := by
  obtain ⟨l, -, hl⟩ := lfilter_spec (usable_low exE.w) (List.zipWith (· + ·) x noise)
  obtain ⟨h, -, hh⟩ := lfilter_spec (usable_high exE.w) (List.zipWith (· + ·) x noise)
  obtain ⟨y, -, hy⟩ := lfilter_spec (usable_low exE.w1) (List.zipWith (fun u v => u * exE.zc + v * exE.a1) l h)
  obtain ⟨z, -, hz⟩ := lfilter_spec (show Usable exE.lpf2 by decide +kernel) y
  exact ⟨l, h, y, z, hl, hh, hy, hz⟩

example : (signalFee exE [0, 0, 0] [8, 0, 0]).toOption = some [13 / 3, 155 / 18, 373 / 108] := by decide +kernel

example : simulatePmt [1, 1] id 2 100 exE 1 0 ⟨[0, 0, 0], [0, 0, 0], [1, 0, 0]⟩ [1, 2, 3] [0, 0, 4] = .ok ([100, 102, 103], [0, 0, 0]) := by decide +kernel

example : boxNoise (fun x => x) [0, 1] 2 [3, 5] [[1, 10], [2, 20]] [0, 1, 2, 3] = [[4, 30], [160, 420]] := by decide +kernel

example : lowNoise [⟨⟨0, none⟩, 7, 1⟩] [3, 7] [[4, 30], [160, 420]] 1 = .ok [160, 420] := by decide +kernel

example : limits [1, 3, 5] = .ok [(0, 2), (2, 4), (4, 6)] := by decide +kernel

end Verif.Fee
