import Verif.Model.Wfm
import Verif.Props.PeakBuild
import Mathlib.Analysis.Real.Sqrt
import Mathlib.Data.List.Sort
/-!
# C33, C34: zero suppression and selection of SiPMs
-/
namespace Verif.Wfm

/-! ### C33: specification -/

/-- Sample `i` of the waveform is above threshold. -/
def Above (wf : List ℚ) (thr : ℚ) (i : Nat) : Prop := ∃ x, wf[i]? = some x ∧ thr < x

/-- Sample `j` is at most `before` samples before and at most `after` samples after a sample above threshold. -/
def Near (wf : List ℚ) (thr : ℚ) (before after : Nat) (j : Nat) : Prop := ∃ i, Above wf thr i ∧ i ≤ j + before ∧ j ≤ i + after

/-! ### C33: proofs -/

theorem clearRange_getElem? (mask : List Bool) (a b j : Nat) :
    (clearRange mask a b)[j]? = mask[j]?.map fun m => m && !(decide (a ≤ j) && decide (j < b)) := by
  simp [clearRange, List.getElem?_mapIdx]

theorem foldl_clear (is : List Nat) (lo hi : Nat → Nat) (mask : List Bool) (j : Nat) :
    (is.foldl (fun m i => clearRange m (lo i) (hi i)) mask)[j]? =
      mask[j]?.map fun m => m && !(is.any fun i => decide (lo i ≤ j) && decide (j < hi i)) := by
  induction is generalizing mask with
  | nil => simp
  | cons i is ih =>
    rw [List.foldl_cons, ih, clearRange_getElem?, Option.map_map]
    congr 1
    funext m
    simp only [Function.comp, List.any_cons, Bool.not_or, Bool.and_assoc]

/-- What is kept by `suppress_wf`: a sample above threshold, or one from `padding` samples before to `padding - 1` samples after a sample above threshold, the last sample of the
waveform excluded. -/
def Kept (wf : List ℚ) (thr : ℚ) (padding : Int) (j : Nat) : Prop :=
  Above wf thr j ∨ (0 < padding ∧ j + 1 < wf.length ∧ Near wf thr padding.toNat (padding.toNat - 1) j)

open Classical in
/-- **C33** Exactly what `suppress_wf` does, for every waveform, threshold and padding. -/
theorem suppress_exact (wf : List ℚ) (thr : ℚ) (padding : Int) :
    (suppressWf wf thr padding).length = wf.length ∧
    ∀ (j : Nat) (x : ℚ), wf[j]? = some x → (suppressWf wf thr padding)[j]? = some (if Kept wf thr padding j then x else 0) := by
  have key : ∀ (mask : List Bool), mask.length = wf.length → (∀ (j : Nat) (x : ℚ), wf[j]? = some x → mask[j]? = some (!decide (Kept wf thr padding j))) →
      (List.zipWith (fun x (b : Bool) => if b then 0 else x) wf mask).length = wf.length ∧
      ∀ (j : Nat) (x : ℚ), wf[j]? = some x → (List.zipWith (fun x (b : Bool) => if b then 0 else x) wf mask)[j]? = some (if Kept wf thr padding j then x else 0) := by
    intro mask hl hm
    refine ⟨by simp [hl], ?_⟩
    intro j x hx
    rw [List.getElem?_zipWith, hx, hm j x hx]
    by_cases hk : Kept wf thr padding j <;> simp [hk]
  simp only [suppressWf]
  apply key
  · split
    · have : ∀ (is : List Nat) (lo hi : Nat → Nat) (m : List Bool), (is.foldl (fun m i => clearRange m (lo i) (hi i)) m).length = m.length := by
        intro is lo hi
        induction is with
        | nil => intro m; rfl
        | cons i is ih => intro m; rw [List.foldl_cons, ih]; simp [clearRange]
      rw [this]; simp
    · simp
  · intro j x hx
    have hjlt := (List.getElem?_eq_some_iff.1 hx).1
    split
    · rename_i hp
      rw [foldl_clear, List.getElem?_map, hx]
      simp only [Option.map_some, Option.some.injEq]
      rw [eq_comm, Bool.eq_iff_iff]
      simp only [Bool.not_eq_true', decide_eq_false_iff_not, Bool.and_eq_true, decide_eq_true_eq]
      rw [← Bool.not_eq_true, List.any_eq_true]
      constructor
      · intro hk
        constructor
        · by_contra hc
          exact hk (Or.inl ⟨x, hx, not_le.1 hc⟩)
        · rintro ⟨i, hi, hij⟩
          simp only [Bool.and_eq_true, decide_eq_true_eq, List.length_map] at hij
          apply hk
          right
          obtain ⟨b, hb, hb'⟩ := whereIdx_mem.1 hi
          simp only [List.getElem?_map, Option.map_eq_some_iff] at hb
          obtain ⟨y, hy, rfl⟩ := hb
          simp only [Bool.not_eq_true', decide_eq_false_iff_not, not_le] at hb'
          refine ⟨hp, by omega, i, ⟨y, hy, hb'⟩, by omega, by omega⟩
      · rintro ⟨h1, h2⟩ (⟨y, hy, hy'⟩ | ⟨_, h3, i, ⟨y, hy, hy'⟩, h4, h5⟩)
        · rw [hx] at hy; cases hy; exact absurd h1 (not_le.2 hy')
        · apply h2
          refine ⟨i, whereIdx_mem.2 ⟨false, ?_, rfl⟩, ?_⟩
          · rw [List.getElem?_map, hy]; simp [hy']
          · simp only [Bool.and_eq_true, decide_eq_true_eq, List.length_map]
            omega
    · rename_i hp
      rw [List.getElem?_map, hx]
      simp only [Option.map_some, Option.some.injEq]
      rw [eq_comm, Bool.eq_iff_iff]
      simp only [Bool.not_eq_true', decide_eq_false_iff_not, decide_eq_true_eq]
      constructor
      · intro hk
        by_contra hc
        exact hk (Or.inl ⟨x, hx, not_le.1 hc⟩)
      · rintro h1 (⟨y, hy, hy'⟩ | ⟨h2, _⟩)
        · rw [hx] at hy; cases hy; exact absurd h1 (not_le.2 hy')
        · exact hp h2

/-- **C33** (partial) The result has the same length; a sample above threshold, or at most `padding` samples before or `padding - 1` after one, and which is not the last of the waveform,
is unchanged; a sample further than `padding` samples from all the samples above threshold is zero; each of the others is unchanged or zero.  Missing: the sample exactly `padding` samples after
the signal and the last sample of the waveform, which should be kept as well and are not (`suppress_misses_last`, `suppress_misses_end`). -/
theorem suppress_partial (wf : List ℚ) (thr : ℚ) (padding : Nat) (j : Nat) (x : ℚ) (hx : wf[j]? = some x) :
    (suppressWf wf thr padding).length = wf.length ∧
    (Above wf thr j → (suppressWf wf thr padding)[j]? = some x) ∧
    (0 < padding → j + 1 < wf.length → Near wf thr padding (padding - 1) j → (suppressWf wf thr padding)[j]? = some x) ∧
    (¬ Near wf thr padding padding j → (suppressWf wf thr padding)[j]? = some 0) ∧
    ((suppressWf wf thr padding)[j]? = some x ∨ (suppressWf wf thr padding)[j]? = some 0) := by
  obtain ⟨h1, h2⟩ := suppress_exact wf thr padding
  have h3 := h2 j x hx
  refine ⟨h1, fun ha => ?_, fun hp hl hn => ?_, fun hn => ?_, ?_⟩
  · rw [h3, if_pos (show Kept wf thr padding j from Or.inl ha)]
  · rw [h3, if_pos (show Kept wf thr padding j from Or.inr ⟨by omega, hl, by simpa using hn⟩)]
  · rw [h3, if_neg]
    rintro (ha | ⟨_, _, i, hi, h4, h5⟩)
    · exact hn ⟨j, ha, by omega, by omega⟩
    · simp only [Int.toNat_natCast] at h4 h5
      exact hn ⟨i, hi, h4, by omega⟩
  · rw [h3]
    split
    · exact Or.inl rfl
    · exact Or.inr rfl

/-- **C33** Without padding exactly the samples above threshold are kept. -/
theorem suppress_no_padding (wf : List ℚ) (thr : ℚ) : suppressWf wf thr 0 = wf.map fun x => if thr < x then x else 0 := by
  obtain ⟨h1, h2⟩ := suppress_exact wf thr 0
  apply List.ext_getElem?
  intro j
  cases hx : wf[j]? with
  | none => rw [List.getElem?_map, hx]; simp only [Option.map_none, List.getElem?_eq_none_iff, h1]; simpa using hx
  | some x =>
    rw [h2 j x hx, List.getElem?_map, hx]
    simp only [Option.map_some, Option.some.injEq, Kept, lt_self_iff_false, false_and, or_false, Above, Option.some.injEq, exists_eq_left', hx]

/-- **C33** Suppressing twice is the same as once, for thresholds that are not negative. -/
theorem suppress_idempotent (wf : List ℚ) (thr : ℚ) (ht : 0 ≤ thr) (padding : Int) :
    suppressWf (suppressWf wf thr padding) thr padding = suppressWf wf thr padding := by
  obtain ⟨h1, h2⟩ := suppress_exact wf thr padding
  obtain ⟨h3, h4⟩ := suppress_exact (suppressWf wf thr padding) thr padding
  have ha : ∀ i, Above (suppressWf wf thr padding) thr i ↔ Above wf thr i := by
    intro i
    constructor
    · rintro ⟨y, hy, hy'⟩
      have hlt := (List.getElem?_eq_some_iff.1 hy).1
      have hx := List.getElem?_eq_getElem (show i < wf.length by omega)
      rw [h2 i _ hx] at hy
      split at hy
      · cases hy; exact ⟨_, hx, hy'⟩
      · cases hy; exact absurd hy' (not_lt.2 ht)
    · rintro ⟨y, hy, hy'⟩
      exact ⟨y, by rw [h2 i y hy, if_pos (show Kept wf thr padding i from Or.inl ⟨y, hy, hy'⟩)], hy'⟩
  have hk : ∀ i, Kept (suppressWf wf thr padding) thr padding i ↔ Kept wf thr padding i := by
    intro i; simp only [Kept, Near, ha, h1]
  apply List.ext_getElem?
  intro j
  cases hx : wf[j]? with
  | none =>
    have := List.getElem?_eq_none_iff.1 hx
    rw [List.getElem?_eq_none (by omega), List.getElem?_eq_none (by omega)]
  | some x =>
    have e := h2 j x hx
    rw [h4 j _ e, e]
    by_cases hkj : Kept wf thr padding j
    · rw [if_pos ((hk j).2 hkj)]
    · rw [if_neg (fun h => hkj ((hk j).1 h)), if_neg hkj]

/-- The code violates the documented behaviour: with a padding of one sample, only the sample before the signal is kept. -/
theorem suppress_misses_last : suppressWf [1, 1, 5, 1, 1] 2 1 = [0, 1, 5, 0, 0] := by decide +kernel
/-- The last sample of the waveform is never kept by the padding. -/
theorem suppress_misses_end : suppressWf [1, 1, 5, 1] 2 3 = [1, 1, 5, 0] := by decide +kernel

/-- **C33** One suppressed waveform per sensor, each with its threshold and padding. -/
theorem noise_suppression (wfs : List (List ℚ)) (thrs : List ℚ) (paddings : List Int) (h1 : thrs.length = wfs.length) (h2 : paddings.length = wfs.length) :
    (noiseSuppression wfs thrs paddings).length = wfs.length ∧
    ∀ (i : Nat) (w : List ℚ) (t : ℚ) (p : Int), wfs[i]? = some w → thrs[i]? = some t → paddings[i]? = some p →
      (noiseSuppression wfs thrs paddings)[i]? = some (suppressWf w t p) := by
  refine ⟨by simp [noiseSuppression, h1, h2], ?_⟩
  intro i w t p hw ht hp
  have hz : (thrs.zip paddings)[i]? = some (t, p) := List.getElem?_zip_eq_some.2 ⟨ht, hp⟩
  rw [noiseSuppression, List.getElem?_zipWith, hw, hz]

theorem noise_suppression_single (wfs : List (List ℚ)) (thr : ℚ) (padding : Int) :
    noiseSuppression1 wfs thr padding = wfs.map fun w => suppressWf w thr padding := by
  obtain ⟨h1, h2⟩ := noise_suppression wfs (List.replicate wfs.length thr) (List.replicate wfs.length padding) (by simp) (by simp)
  apply List.ext_getElem?
  intro i
  rw [noiseSuppression1, List.getElem?_map]
  cases hw : wfs[i]? with
  | none =>
    have := List.getElem?_eq_none_iff.1 hw
    rw [List.getElem?_eq_none (by omega)]; rfl
  | some w =>
    have := (List.getElem?_eq_some_iff.1 hw).1
    exact h2 i w thr padding hw (by simp [this]) (by simp [this])

/-- With fewer thresholds than sensors, the last sensors are lost without any error. -/
theorem noise_suppression_loses_sensors : noiseSuppression [[3], [4]] [1] [0, 0] = [[3]] := by decide +kernel

/-- Converting to ADC and back gives the same waveforms, for constants that are not zero; a wrong number of constants is an error. -/
theorem adc_roundtrip (wfs : Mat) (k : List ℚ) :
    (k.length ≠ wfs.rows.length → toAdc wfs k = .error .valueError ∧ toPes wfs k = .error .valueError) ∧
    (k.length = wfs.rows.length → (∀ c ∈ k, c ≠ 0) → ∃ m, toAdc wfs k = .ok m ∧ toPes m k = .ok wfs) := by
  constructor
  · intro h
    simp [toAdc, toPes, scaleRows, h]
  · intro h hk
    refine ⟨_, by simp only [toAdc, scaleRows, ne_eq, h, not_true_eq_false, if_false]; rfl, ?_⟩
    simp only [toPes, scaleRows, List.length_zipWith, ne_eq, h, min_self, not_true_eq_false, if_false]
    congr 1
    cases wfs with
    | mk rows n =>
      simp only at h
      congr 1
      simp only
      clear n
      induction rows generalizing k with
      | nil => simp
      | cons r rows ih =>
        cases k with
        | nil => simp at h
        | cons c k =>
          simp only [List.zipWith_cons_cons]
          rw [ih k (fun c hc => hk c (List.mem_cons_of_mem _ hc)) (by simpa using h)]
          congr 1
          rw [List.map_map]
          have hc := hk c List.mem_cons_self
          conv => rhs; rw [← List.map_id r]
          apply List.map_congr_left
          intro x _
          simp only [Function.comp, id]
          field_simp

/-! ### C34: specification -/

/-- Distance between two sensors. -/
noncomputable def distance (a b : Pos) : ℝ := Real.sqrt (((a.1 : ℝ) - b.1) ^ 2 + ((a.2 : ℝ) - b.2) ^ 2)

/-- Sensor `i` is selected by the mask. -/
def Selected (mask : List Bool) (i : Nat) : Prop := mask[i]? = some true

theorem closer_iff (r : ℚ) (a b : Pos) : closer r a b = true ↔ distance a b < (r : ℝ) := by
  simp only [closer, Bool.and_eq_true, decide_eq_true_eq, distance]
  have e : (((a.1 : ℝ) - b.1) ^ 2 + ((a.2 : ℝ) - b.2) ^ 2) = ((dist2 a b : ℚ) : ℝ) := by simp [dist2]
  rw [e]
  constructor
  · rintro ⟨h1, h2⟩
    rw [Real.sqrt_lt' (by exact_mod_cast h1)]
    exact_mod_cast h2
  · intro h
    have h1 : (0 : ℝ) < r := lt_of_le_of_lt (Real.sqrt_nonneg _) h
    rw [Real.sqrt_lt' h1] at h
    exact ⟨by exact_mod_cast h1, by exact_mod_cast h⟩

theorem within_iff (r : ℚ) (a b : Pos) : within r a b = true ↔ distance a b ≤ (r : ℝ) := by
  simp only [within, Bool.and_eq_true, decide_eq_true_eq, distance]
  have e : (((a.1 : ℝ) - b.1) ^ 2 + ((a.2 : ℝ) - b.2) ^ 2) = ((dist2 a b : ℚ) : ℝ) := by simp [dist2]
  rw [e]
  constructor
  · rintro ⟨h1, h2⟩
    exact Real.sqrt_le_iff.2 ⟨by exact_mod_cast h1, by exact_mod_cast h2⟩
  · intro h
    obtain ⟨h1, h2⟩ := Real.sqrt_le_iff.1 h
    exact ⟨by exact_mod_cast h1, by exact_mod_cast h2⟩

/-! ### C34: isolated sensors -/

theorem killFold (mask : List Bool) (pos : List Pos) (r : ℚ) (is : List Nat) (out : List Bool) :
    (is.foldl (killOne mask pos r) out).length = out.length ∧
    ∀ (i : Nat) (p : Pos), pos[i]? = some p → (is.foldl (killOne mask pos r) out)[i]? =
      if i ∈ is ∧ nNeighbours mask pos r p ≤ 1 then out[i]?.map (fun _ => false) else out[i]? := by
  induction is generalizing out with
  | nil => exact ⟨rfl, fun i p _ => by simp⟩
  | cons k is ih =>
    rw [List.foldl_cons]
    obtain ⟨h1, h2⟩ := ih (killOne mask pos r out k)
    constructor
    · rw [h1]
      unfold killOne
      split
      · rfl
      · split <;> simp
    · intro i p hp
      rw [h2 i p hp]
      by_cases hik : i = k
      · subst hik
        by_cases hn : nNeighbours mask pos r p ≤ 1
        · simp only [killOne, hp, hn, if_true, and_true, List.mem_cons, true_or]
          by_cases hi : i < out.length
          · rw [List.getElem?_set_self hi, List.getElem?_eq_getElem hi]
            split <;> simp
          · rw [List.getElem?_eq_none (by simpa using hi), List.getElem?_eq_none (by omega)]
            simp
        · simp only [killOne, hp, hn, if_false, and_false]
      · have e : (killOne mask pos r out k)[i]? = out[i]? := by
          unfold killOne
          split
          · rfl
          · split
            · rw [List.getElem?_set_ne (Ne.symm hik)]
            · rfl
        rw [e]
        simp [List.mem_cons, hik]

theorem countP_two {α : Type} (c : α → Bool) (l : List α) (i : Nat) (hi : ∃ x, l[i]? = some x ∧ c x = true) :
    1 < l.countP c ↔ ∃ (j : Nat) (x : α), j ≠ i ∧ l[j]? = some x ∧ c x = true := by
  induction l generalizing i with
  | nil => obtain ⟨x, hx, _⟩ := hi; simp at hx
  | cons a l ih =>
    have hpos : 0 < l.countP c ↔ ∃ (j : Nat) (x : α), l[j]? = some x ∧ c x = true := by
      rw [List.countP_pos_iff]
      constructor
      · rintro ⟨x, hx, hc⟩
        obtain ⟨j, hj⟩ := List.mem_iff_getElem?.1 hx
        exact ⟨j, x, hj, hc⟩
      · rintro ⟨j, x, hj, hc⟩
        exact ⟨x, List.mem_of_getElem? hj, hc⟩
    cases i with
    | zero =>
      obtain ⟨x, hx, hc⟩ := hi
      simp at hx
      subst hx
      rw [List.countP_cons_of_pos hc]
      rw [show (1 < l.countP c + 1) ↔ 0 < l.countP c by omega, hpos]
      constructor
      · rintro ⟨j, x, hj, hc⟩
        exact ⟨j + 1, x, by omega, by simpa using hj, hc⟩
      · rintro ⟨j, x, hne, hj, hc⟩
        cases j with
        | zero => exact absurd rfl hne
        | succ j => exact ⟨j, x, by simpa using hj, hc⟩
    | succ i =>
      have hi' : ∃ x, l[i]? = some x ∧ c x = true := by simpa using hi
      by_cases hca : c a = true
      · rw [List.countP_cons_of_pos hca]
        have : 0 < l.countP c := hpos.2 ⟨i, hi'⟩
        constructor
        · intro _
          exact ⟨0, a, by omega, by simp, hca⟩
        · intro _; omega
      · rw [List.countP_cons_of_neg (by simpa using hca), ih i hi']
        constructor
        · rintro ⟨j, x, hne, hj, hc⟩
          exact ⟨j + 1, x, by omega, by simpa using hj, hc⟩
        · rintro ⟨j, x, hne, hj, hc⟩
          cases j with
          | zero => simp at hj; subst hj; exact absurd hc hca
          | succ j => exact ⟨j, x, by omega, by simpa using hj, hc⟩

/-- **C34** Killing the isolated sensors keeps exactly the selected sensors with another selected sensor closer than the proximity threshold. -/
theorem kill_isolated (mask : List Bool) (pos : List Pos) (r : ℚ) (hl : mask.length = pos.length) :
    ∃ out, killIsolated mask pos r = .ok out ∧ out.length = mask.length ∧
      ∀ i, Selected out i ↔ Selected mask i ∧ ∃ j p q, j ≠ i ∧ Selected mask j ∧ pos[i]? = some p ∧ pos[j]? = some q ∧ distance p q < (r : ℝ) := by
  refine ⟨_, by simp only [killIsolated, ne_eq, hl, not_true_eq_false, if_false]; rfl, (killFold _ _ _ _ _).1, ?_⟩
  intro i
  by_cases hi : i < pos.length
  swap
  · constructor
    · intro h
      have := (List.getElem?_eq_some_iff.1 h).1
      rw [(killFold _ _ _ _ _).1] at this
      omega
    · rintro ⟨h, _⟩
      have := (List.getElem?_eq_some_iff.1 h).1
      omega
  have hp := List.getElem?_eq_getElem hi
  generalize hpe : pos[i] = p at hp
  unfold Selected
  rw [(killFold mask pos r _ mask).2 i p hp]
  by_cases hs : mask[i]? = some true
  swap
  · have : i ∉ whereIdx (fun b => b) mask := by
      rw [whereIdx_mem]
      rintro ⟨b, hb, rfl⟩
      exact hs hb
    simp only [this, false_and, if_false, hs]
  have hmem : i ∈ whereIdx (fun b => b) mask := whereIdx_mem.2 ⟨true, hs, rfl⟩
  have hz : ∀ (j : Nat) (x : Bool × Pos), (mask.zip pos)[j]? = some x ↔ mask[j]? = some x.1 ∧ pos[j]? = some x.2 := by
    intro j x; exact List.getElem?_zip_eq_some
  simp only [hmem, true_and, hs, Option.map_some]
  by_cases hr : 0 < r
  · have hself : ∃ x, (mask.zip pos)[i]? = some x ∧ (closer r p x.2 && x.1) = true :=
      ⟨(true, p), (hz i _).2 ⟨hs, hp⟩, by simp [closer, hr, dist2]⟩
    have := countP_two (fun s : Bool × Pos => closer r p s.2 && s.1) (mask.zip pos) i hself
    rw [nNeighbours]
    constructor
    · intro h
      split at h
      · cases h
      · rename_i hn
        obtain ⟨j, x, hne, hx, hc⟩ := this.1 (by omega)
        obtain ⟨h1, h2⟩ := (hz j x).1 hx
        simp only [Bool.and_eq_true] at hc
        exact ⟨j, p, x.2, hne, by rw [h1, hc.2], hp, h2, (closer_iff r p x.2).1 hc.1⟩
    · rintro ⟨j, p', q, hne, h1, h2, h3, h4⟩
      rw [hp] at h2
      cases h2
      have := this.2 ⟨j, (true, q), hne, (hz j _).2 ⟨h1, h3⟩, by simp [(closer_iff r p q).2 h4]⟩
      rw [if_neg (by omega)]
  · have hzero : nNeighbours mask pos r p = 0 := by
      rw [nNeighbours, List.countP_eq_zero]
      intro x _
      simp [closer, hr]
    rw [hzero]
    simp only [zero_le, if_true]
    constructor
    · intro h; cases h
    · rintro ⟨j, p', q, _, _, _, _, h4⟩
      exact absurd ((closer_iff r p' q).2 h4) (by simp [closer, hr])

/-! ### C34: padding -/

theorem padFold (pos : List Pos) (r : ℚ) (is : List Nat) (out : List Bool) (hl : out.length = pos.length) :
    (is.foldl (padOne pos r) out).length = pos.length ∧
    ∀ (j : Nat) (q : Pos), pos[j]? = some q → (is.foldl (padOne pos r) out)[j]? =
      out[j]?.map fun o => o || is.any fun i => (pos[i]?).any fun p => within r p q := by
  induction is generalizing out with
  | nil => exact ⟨hl, fun j q _ => by simp⟩
  | cons k is ih =>
    have hl' : (padOne pos r out k).length = pos.length := by
      unfold padOne
      split
      · exact hl
      · simp [hl]
    rw [List.foldl_cons]
    obtain ⟨h1, h2⟩ := ih _ hl'
    refine ⟨h1, fun j q hq => ?_⟩
    rw [h2 j q hq]
    have hj := (List.getElem?_eq_some_iff.1 hq).1
    have ho := List.getElem?_eq_getElem (show j < out.length by omega)
    have e : (padOne pos r out k)[j]? = out[j]?.map fun o => o || (pos[k]?).any fun p => within r p q := by
      unfold padOne
      cases hk : pos[k]? with
      | none => simp [ho]
      | some p => simp only [List.getElem?_zipWith, ho, hq, Option.map_some, Option.any_some]
    rw [e, Option.map_map]
    congr 1
    funext o
    simp only [Function.comp, List.any_cons, Bool.or_assoc]

/-- **C34** Padding gives exactly the sensors within the radius of some selected sensor. -/
theorem circular_padding (mask : List Bool) (pos : List Pos) (r : ℚ) (hl : mask.length = pos.length) :
    ∃ out, circularPadding mask pos r = .ok out ∧ out.length = mask.length ∧
      ∀ j, Selected out j ↔ ∃ i p q, Selected mask i ∧ pos[i]? = some p ∧ pos[j]? = some q ∧ distance p q ≤ (r : ℝ) := by
  obtain ⟨h1, h2⟩ := padFold pos r (whereIdx (fun b => b) mask) (mask.map fun _ => false) (by simp [hl])
  refine ⟨_, by simp only [circularPadding, ne_eq, hl, not_true_eq_false, if_false]; rfl, by rw [h1, hl], ?_⟩
  intro j
  by_cases hj : j < pos.length
  swap
  · constructor
    · intro h
      have := (List.getElem?_eq_some_iff.1 h).1
      omega
    · rintro ⟨i, p, q, _, _, h, _⟩
      have := (List.getElem?_eq_some_iff.1 h).1
      omega
  have hq := List.getElem?_eq_getElem hj
  generalize hqe : pos[j] = q at hq
  have hm := List.getElem?_eq_getElem (show j < mask.length by omega)
  unfold Selected
  rw [h2 j q hq, List.getElem?_map, hm]
  simp only [Option.map_some, Bool.false_or, Option.some.injEq, List.any_eq_true]
  constructor
  · rintro ⟨i, hi, hc⟩
    obtain ⟨b, hb, rfl⟩ := whereIdx_mem.1 hi
    cases hp : pos[i]? with
    | none => rw [hp] at hc; cases hc
    | some p =>
      rw [hp] at hc
      exact ⟨i, p, q, hb, hp, hq, (within_iff r p q).1 (by simpa using hc)⟩
  · rintro ⟨i, p, q', hi, hp, hq', hd⟩
    rw [hq] at hq'
    cases hq'
    exact ⟨i, whereIdx_mem.2 ⟨true, hi, rfl⟩, by rw [hp]; simpa using (within_iff r p q).2 hd⟩

theorem distance_self (p : Pos) : distance p p = 0 := by simp [distance]

/-- **C34** With a radius that is not negative padding never removes a sensor. -/
theorem padding_superset (mask : List Bool) (pos : List Pos) (r : ℚ) (hr : 0 ≤ r) (hl : mask.length = pos.length) (out : List Bool)
    (h : circularPadding mask pos r = .ok out) (i : Nat) (hi : Selected mask i) : Selected out i := by
  obtain ⟨out', h1, _, h2⟩ := circular_padding mask pos r hl
  rw [h] at h1
  cases h1
  have := (List.getElem?_eq_some_iff.1 hi).1
  have hp := List.getElem?_eq_getElem (show i < pos.length by omega)
  exact (h2 i).2 ⟨i, _, _, hi, hp, hp, by rw [distance_self]; exact_mod_cast hr⟩

/-- **C34** Padding is monotone in the selection and in the radius. -/
theorem padding_monotone (m1 m2 : List Bool) (pos : List Pos) (r1 r2 : ℚ) (hr : r1 ≤ r2) (hl1 : m1.length = pos.length) (hl2 : m2.length = pos.length)
    (hm : ∀ i, Selected m1 i → Selected m2 i) (o1 o2 : List Bool) (h1 : circularPadding m1 pos r1 = .ok o1) (h2 : circularPadding m2 pos r2 = .ok o2)
    (i : Nat) (hi : Selected o1 i) : Selected o2 i := by
  obtain ⟨o1', e1, _, g1⟩ := circular_padding m1 pos r1 hl1
  obtain ⟨o2', e2, _, g2⟩ := circular_padding m2 pos r2 hl2
  rw [h1] at e1; cases e1
  rw [h2] at e2; cases e2
  obtain ⟨k, p, q, h3, h4, h5, h6⟩ := (g1 i).1 hi
  exact (g2 i).2 ⟨k, p, q, hm k h3, h4, h5, h6.trans (by exact_mod_cast hr)⟩

/-- With a negative radius padding removes every sensor. -/
theorem padding_negative (mask : List Bool) (pos : List Pos) (r : ℚ) (hr : r < 0) (hl : mask.length = pos.length) (out : List Bool)
    (h : circularPadding mask pos r = .ok out) (i : Nat) : ¬ Selected out i := by
  obtain ⟨out', h1, _, h2⟩ := circular_padding mask pos r hl
  rw [h] at h1
  cases h1
  rw [h2 i]
  rintro ⟨k, p, q, _, _, _, hd⟩
  have h0 : (0 : ℝ) ≤ distance p q := Real.sqrt_nonneg _
  have : (r : ℝ) < 0 := by exact_mod_cast hr
  linarith

/-! ### C34: first selections -/

/-- **C34** The charge threshold method returns exactly the sensors whose samples above the zeroing threshold add up to at least the integration threshold, with their zeroed
waveforms. -/
theorem charge_threshold (wfs : Mat) (zeroing : List ℚ) (integration : ℚ) (hl : zeroing.length = wfs.rows.length) :
    ∃ ids m, chargeThreshold wfs zeroing integration = .ok (ids, m) ∧ ids.Pairwise (· < ·) ∧ m.rows.length = ids.length ∧
      (∀ i, i ∈ ids ↔ ∃ r t, wfs.rows[i]? = some r ∧ zeroing[i]? = some t ∧ integration ≤ (r.filter fun x => decide (t < x)).sum) ∧
      ∀ (k i : Nat) (r : List ℚ) (t : ℚ), ids[k]? = some i → wfs.rows[i]? = some r → zeroing[i]? = some t → m.rows[k]? = some (r.map fun x => if t < x then x else 0) := by
  have hz : zeroBelow wfs zeroing = .ok ⟨List.zipWith (fun r t => r.map fun x => if t < x then x else 0) wfs.rows zeroing, wfs.ncols⟩ := by
    simp [zeroBelow, hl]
  generalize hzr : List.zipWith (fun r t => r.map fun x => if t < x then x else (0 : ℚ)) wfs.rows zeroing = zr at hz
  have hget : ∀ (i : Nat) (z : List ℚ), zr[i]? = some z ↔ ∃ r t, wfs.rows[i]? = some r ∧ zeroing[i]? = some t ∧ z = r.map fun x => if t < x then x else 0 := by
    intro i z
    rw [← hzr, List.getElem?_zipWith]
    cases h1 : wfs.rows[i]? <;> cases h2 : zeroing[i]? <;> simp [eq_comm]
  have hsum : ∀ (r : List ℚ) (t : ℚ), (r.map fun x => if t < x then x else 0).sum = (r.filter fun x => decide (t < x)).sum := by
    intro r t
    induction r with
    | nil => rfl
    | cons x r ih =>
      by_cases h : t < x
      · simp [h, ih]
      · simp [h, ih]
  have hlt : ∀ i ∈ whereIdx (fun x => decide (integration ≤ x)) (zr.map List.sum), i < zr.length := by
    intro i hi
    obtain ⟨x, hx, _⟩ := whereIdx_mem.1 hi
    have := (List.getElem?_eq_some_iff.1 hx).1
    simpa using this
  obtain ⟨rows, g1, g2, g3⟩ := npTake_ok zr _ hlt
  refine ⟨_, ⟨rows, wfs.ncols⟩, by simp only [chargeThreshold, hz, Peaks.selectWfsAboveTimeIntegratedThr, Mat.sumTimes, g1], whereIdx_sorted _ _, g2, ?_, ?_⟩
  · intro i
    rw [whereIdx_mem]
    constructor
    · rintro ⟨x, hx, hc⟩
      rw [List.getElem?_map, Option.map_eq_some_iff] at hx
      obtain ⟨z, hz1, rfl⟩ := hx
      obtain ⟨r, t, h1, h2, rfl⟩ := (hget i z).1 hz1
      rw [hsum] at hc
      exact ⟨r, t, h1, h2, by simpa using hc⟩
    · rintro ⟨r, t, h1, h2, h3⟩
      refine ⟨(r.map fun x => if t < x then x else 0).sum, ?_, by rw [hsum]; simpa using h3⟩
      rw [List.getElem?_map, (hget i _).2 ⟨r, t, h1, h2, rfl⟩]; rfl
  · intro k i r t hk h1 h2
    have := g3 k i hk
    simp only [this]
    exact (hget i _).2 ⟨r, t, h1, h2, rfl⟩

/-- A wrong number of thresholds is an error. -/
theorem charge_threshold_mismatch (wfs : Mat) (zeroing : List ℚ) (integration : ℚ) (hl : zeroing.length ≠ wfs.rows.length) :
    chargeThreshold wfs zeroing integration = .error .valueError := by simp [chargeThreshold, zeroBelow, hl]

/-- **C34** The median method selects exactly the sensors with a charge of at least the median plus `nsigma` deviations; a larger `nsigma` selects fewer. -/
theorem median_selection (std : List ℚ → ℚ) (hstd : ∀ xs, 0 ≤ std xs) (wfs : Mat) (n1 n2 : ℚ) (h : n1 ≤ n2) (i : Nat) :
    (Selected (medianStd std wfs n1) i ↔ ∃ r, wfs.rows[i]? = some r ∧ median wfs.sumTimes + n1 * std wfs.sumTimes ≤ r.sum) ∧
    (Selected (medianStd std wfs n2) i → Selected (medianStd std wfs n1) i) := by
  have key : ∀ n, Selected (medianStd std wfs n) i ↔ ∃ r, wfs.rows[i]? = some r ∧ median wfs.sumTimes + n * std wfs.sumTimes ≤ r.sum := by
    intro n
    simp only [Selected, medianStd, Mat.sumTimes, List.map_map, List.getElem?_map, Option.map_eq_some_iff, Function.comp]
    constructor
    · rintro ⟨r, h1, h2⟩; exact ⟨r, h1, of_decide_eq_true h2⟩
    · rintro ⟨r, h1, h2⟩; exact ⟨r, h1, decide_eq_true h2⟩
  refine ⟨key n1, ?_⟩
  rw [key, key]
  rintro ⟨r, h1, h2⟩
  refine ⟨r, h1, le_trans ?_ h2⟩
  have := mul_le_mul_of_nonneg_right h (hstd wfs.sumTimes)
  linarith

theorem sortAsc_spec (xs : List ℚ) : (sortAsc xs).Perm xs ∧ (sortAsc xs).Pairwise (· ≤ ·) := by
  have hp : ∀ x ys, (insertAsc x ys).Perm (x :: ys) := by
    intro x ys
    induction ys with
    | nil => exact .refl _
    | cons y ys ih =>
      rw [insertAsc]
      split
      · exact .refl _
      · exact (ih.cons y).trans (.swap _ _ _)
  induction xs with
  | nil => exact ⟨.refl _, .nil⟩
  | cons x xs ih =>
    refine ⟨(hp x _).trans (ih.1.cons x), ?_⟩
    have : ∀ ys : List ℚ, ys.Pairwise (· ≤ ·) → (insertAsc x ys).Pairwise (· ≤ ·) := by
      intro ys
      induction ys with
      | nil => intro _; exact List.pairwise_singleton _ _
      | cons y ys ih2 =>
        intro h
        rw [insertAsc]
        split
        · rename_i hle
          refine List.pairwise_cons.2 ⟨?_, h⟩
          intro z hz
          rcases List.mem_cons.1 hz with rfl | hz
          · exact hle
          · exact hle.trans ((List.pairwise_cons.1 h).1 z hz)
        · rename_i hgt
          refine List.pairwise_cons.2 ⟨?_, ih2 (List.pairwise_cons.1 h).2⟩
          intro z hz
          rcases List.mem_cons.1 ((hp x ys).mem_iff.1 hz) with rfl | hz
          · exact (not_le.1 hgt).le
          · exact (List.pairwise_cons.1 h).1 z hz
    exact this _ ih.2

/-- **C34** The median is the middle of the ordered values: the central one, or the average of the two central ones. -/
theorem median_spec (xs : List ℚ) (hne : xs ≠ []) : ∃ s : List ℚ, s.Perm xs ∧ s.Pairwise (· ≤ ·) ∧
    ((∃ k m, s.length = 2 * k + 1 ∧ s[k]? = some m ∧ median xs = m) ∨
     (∃ k a b, s.length = 2 * k + 2 ∧ s[k]? = some a ∧ s[k + 1]? = some b ∧ median xs = (a + b) / 2)) := by
  obtain ⟨h1, h2⟩ := sortAsc_spec xs
  refine ⟨sortAsc xs, h1, h2, ?_⟩
  have hlen : 0 < (sortAsc xs).length := by
    rw [h1.length_eq]; exact List.length_pos_of_ne_nil hne
  simp only [median]
  by_cases hm : (sortAsc xs).length % 2 = 1
  · left
    have hk : (sortAsc xs).length / 2 < (sortAsc xs).length := by omega
    refine ⟨(sortAsc xs).length / 2, _, by omega, List.getElem?_eq_getElem hk, ?_⟩
    rw [if_pos hm, List.getD_eq_getElem?_getD, List.getElem?_eq_getElem hk]; rfl
  · right
    have hk : (sortAsc xs).length / 2 < (sortAsc xs).length := by omega
    have hk1 : (sortAsc xs).length / 2 - 1 < (sortAsc xs).length := by omega
    have he : (sortAsc xs).length / 2 - 1 + 1 = (sortAsc xs).length / 2 := by omega
    refine ⟨(sortAsc xs).length / 2 - 1, _, _, by omega, List.getElem?_eq_getElem hk1, by rw [he]; exact List.getElem?_eq_getElem hk, ?_⟩
    rw [if_neg hm, List.getD_eq_getElem?_getD, List.getD_eq_getElem?_getD, List.getElem?_eq_getElem hk, List.getElem?_eq_getElem hk1]; rfl

/-- When all the charges are the same (for instance no light) every sensor is selected. -/
theorem median_selects_uniform (std : List ℚ → ℚ) (hstd : ∀ (n : Nat) c, std (List.replicate n c) = 0) (n : Nat) (c nsigma : ℚ) (wfs : Mat)
    (h : wfs.sumTimes = List.replicate n c) (i : Nat) (hi : i < n) : Selected (medianStd std wfs nsigma) i := by
  have hsort : ∀ n, sortAsc (List.replicate n c) = List.replicate n c := by
    intro n
    induction n with
    | zero => rfl
    | succ n ih =>
      rw [List.replicate_succ, sortAsc, ih]
      cases n with
      | zero => rfl
      | succ n => simp [List.replicate_succ, insertAsc]
  have hmed : median (List.replicate n c) = c := by
    unfold median
    simp only [hsort, List.length_replicate]
    have hg : ∀ k, k < n → (List.replicate n c).getD k 0 = c := by
      intro k hk
      simp [List.getD_eq_getElem?_getD, hk]
    split
    · exact hg _ (by omega)
    · rw [hg _ (by omega), hg _ (by omega)]; ring
  rw [Selected, medianStd, h, hmed, hstd]
  simp [hi]

/-- `order` sorts the charges in ascending order (contract of `np.argsort`). -/
def Sorts (order : List Nat) (charges : List ℚ) : Prop :=
  order.Perm (List.range charges.length) ∧ order.Pairwise fun i j => charges.getD i 0 ≤ charges.getD j 0

/-- **C34** For positive `n` the top-n method selects `n` sensors (or all if there are fewer) and no other sensor has a larger charge than a selected one. -/
theorem top_n (order : List Nat) (charges : List ℚ) (n : Nat) (hn : 0 < n) (ho : Sorts order charges) :
    (topN order charges.length n).length = charges.length ∧
    (topN order charges.length n).count true = min n charges.length ∧
    ∀ i j, Selected (topN order charges.length n) i → ¬ Selected (topN order charges.length n) j → j < charges.length → charges.getD j 0 ≤ charges.getD i 0 := by
  obtain ⟨hp, hs⟩ := ho
  have hlen : order.length = charges.length := by simpa using hp.length_eq
  have hnd : order.Nodup := hp.nodup_iff.2 List.nodup_range
  have hlast : lastN order (n : Int) = order.drop (order.length - n) := by
    rw [lastN, if_neg (by omega)]; simp
  have hsel : ∀ i, Selected (topN order charges.length n) i ↔ i ∈ order.drop (order.length - n) := by
    intro i
    have hsub : i ∈ order.drop (order.length - n) → i < charges.length := fun h => by simpa using hp.subset (List.mem_of_mem_drop h)
    by_cases hi : i < charges.length
    · rw [Selected, topN, List.getElem?_map, List.getElem?_range hi, hlast]
      simp
    · constructor
      · intro h
        have := (List.getElem?_eq_some_iff.1 h).1
        simp [topN] at this
        omega
      · intro h; exact absurd (hsub h) hi
  refine ⟨by simp [topN], ?_, ?_⟩
  · have e1 : (topN order charges.length n).count true = (List.range charges.length).countP fun i => decide (i ∈ order.drop (order.length - n)) := by
      rw [topN, List.count, List.countP_map, hlast]
      apply List.countP_congr
      intro i _
      simp
    have e2 : (List.range charges.length).countP (fun i => decide (i ∈ order.drop (order.length - n))) =
        order.countP fun i => decide (i ∈ order.drop (order.length - n)) := (hp.countP_eq _).symm
    have e3 : order.countP (fun i => decide (i ∈ order.drop (order.length - n))) = (order.drop (order.length - n)).length := by
      conv => lhs; rw [← List.take_append_drop (order.length - n) order]
      rw [List.countP_append]
      have hnd' := hnd
      rw [← List.take_append_drop (order.length - n) order, List.nodup_append] at hnd'
      have z : (order.take (order.length - n)).countP (fun i => decide (i ∈ order.drop (order.length - n))) = 0 := by
        rw [List.countP_eq_zero]
        intro i hi
        simp only [decide_eq_true_eq]
        exact fun h => hnd'.2.2 i hi i h rfl
      have z2 : (order.drop (order.length - n)).countP (fun i => decide (i ∈ order.drop (order.length - n))) = (order.drop (order.length - n)).length := by
        rw [List.countP_eq_length]
        intro i hi
        simpa using hi
      simp only [List.take_append_drop] at z z2 ⊢
      omega
    rw [e1, e2, e3, List.length_drop]
    omega
  · intro i j hi hj hjl
    rw [hsel] at hi hj
    have hjm : j ∈ order := hp.mem_iff.2 (by simpa using hjl)
    rw [← List.take_append_drop (order.length - n) order] at hjm hs
    rcases List.mem_append.1 hjm with h | h
    · exact (List.pairwise_append.1 hs).2.2 j h i hi
    · exact absurd h hj

/-- With `n = 0` every sensor is selected. -/
theorem top_zero_selects_all (order : List Nat) (charges : List ℚ) (ho : Sorts order charges) (i : Nat) (hi : i < charges.length) :
    Selected (topN order charges.length 0) i := by
  rw [Selected, topN, List.getElem?_map, List.getElem?_range hi]
  simp [lastN, ho.1.mem_iff, hi]

/-- **C34** The whole selection: the sensors within the padding radius of a sensor of the first selection that is not isolated, with their waveforms. -/
theorem spatial_selection (wfs : Mat) (first : List Bool) (pos : List Pos) (proximity padding : ℚ) (h1 : first.length = pos.length) (h2 : wfs.rows.length = pos.length) :
    ∃ ids m, spatialSelection wfs first pos proximity padding = .ok (ids, m) ∧ ids.Pairwise (· < ·) ∧ m.rows.length = ids.length ∧
      (∀ (k i : Nat), ids[k]? = some i → m.rows[k]? = wfs.rows[i]?) ∧
      ∀ j, j ∈ ids ↔ ∃ i l p q s, Selected first i ∧ Selected first l ∧ l ≠ i ∧ pos[i]? = some p ∧ pos[l]? = some s ∧ pos[j]? = some q ∧
        distance p s < (proximity : ℝ) ∧ distance p q ≤ (padding : ℝ) := by
  obtain ⟨kept, a1, a2, a3⟩ := kill_isolated first pos proximity h1
  obtain ⟨out, b1, b2, b3⟩ := circular_padding kept pos padding (by omega)
  have hlt : ∀ i ∈ whereIdx (fun b => b) out, i < wfs.rows.length := by
    intro i hi
    obtain ⟨b, hb, _⟩ := whereIdx_mem.1 hi
    have := (List.getElem?_eq_some_iff.1 hb).1
    omega
  obtain ⟨rows, g1, g2, g3⟩ := npTake_ok wfs.rows _ hlt
  refine ⟨_, ⟨rows, wfs.ncols⟩, by simp only [spatialSelection, a1, b1, g1], whereIdx_sorted _ _, g2, g3, ?_⟩
  intro j
  have : j ∈ whereIdx (fun b => b) out ↔ Selected out j := by
    rw [whereIdx_mem]
    constructor
    · rintro ⟨b, hb, rfl⟩; exact hb
    · intro h; exact ⟨true, h, rfl⟩
  rw [this, b3]
  constructor
  · rintro ⟨i, p, q, hi, hp, hq, hd⟩
    obtain ⟨c1, l, p', s, c2, c3, c4, c5, c6⟩ := (a3 i).1 hi
    rw [hp] at c4
    cases c4
    exact ⟨i, l, p, q, s, c1, c3, c2, hp, c5, hq, c6, hd⟩
  · rintro ⟨i, l, p, q, s, c1, c2, c3, c4, c5, c6, c7, c8⟩
    exact ⟨i, p, q, (a3 i).2 ⟨c1, l, p, s, c3, c2, c4, c5, c7⟩, c4, c6, c8⟩

/-- The second selection method cannot be chosen: anything but the median method raises `AttributeError`, not the documented `ValueError`. -/
theorem top_n_unreachable (std : List ℚ → ℚ) (wfs : Mat) (method : String) (nsigma : ℚ) (h : method ≠ "median_std_method") :
    chooseMethod std wfs method nsigma = .error .attributeError := by
  simp [chooseMethod, h, selectionMethods]

/-! ### Cases -/

example : suppressWf [0, 3, 1, 1, 1, 9, 2, 1, 1, 1, 1] 2 2 = [0, 3, 1, 1, 1, 9, 2, 0, 0, 0, 0] := by decide +kernel
example : Near [0, 3, 1, 1, 1, 9, 2, 1, 1, 1, 1] 2 2 1 4 := ⟨5, ⟨9, rfl, by norm_num⟩, by norm_num, by norm_num⟩
example : noiseSuppression [[3, 1], [4, 5]] [1, 4] [0, 1] = [[3, 0], [4, 5]] := by decide +kernel
example : ∃ m, toAdc ⟨[[1, 2], [3, 4]], 2⟩ [2, 5] = .ok m ∧ toPes m [2, 5] = .ok ⟨[[1, 2], [3, 4]], 2⟩ := ⟨_, rfl, by decide +kernel⟩
/-- Four sensors on a line; the last one is isolated. -/
example : killIsolated [true, true, false, true] [(0, 0), (10, 0), (20, 0), (40, 0)] 15 = .ok [true, true, false, false] := by decide +kernel
example : circularPadding [true, true, false, false] [(0, 0), (10, 0), (20, 0), (40, 0)] 10 = .ok [true, true, true, false] := by decide +kernel
example : spatialSelection ⟨[[1], [2], [3], [4]], 1⟩ [true, true, false, true] [(0, 0), (10, 0), (20, 0), (40, 0)] 15 10 = .ok ([0, 1, 2], ⟨[[1], [2], [3]], 1⟩) := by
  decide +kernel
example : chargeThreshold ⟨[[1, 5, 2], [3, 1, 0], [9, 0, 0]], 3⟩ [1, 1, 1] 7 = .ok ([0, 2], ⟨[[0, 5, 2], [9, 0, 0]], 3⟩) := by decide +kernel
example : Sorts [1, 2, 0] [9, 1, 3] := ⟨by decide, by decide +kernel⟩
example : topN [1, 2, 0] 3 2 = [true, false, true] := by decide
example : medianStd (fun _ => 2) ⟨[[1], [2], [9]], 1⟩ 3 = [false, false, true] := by decide +kernel

end Verif.Wfm
