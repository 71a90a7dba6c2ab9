import Verif.Props.S2
/-!
# The light of the S2 waveforms, the buffer of an event, and the selection of hits (C45)
-/
namespace Verif.Detsim

/-- **C45** (waveforms).  When a partition of the EL gap is not longer than a bin, `create_wfs` returns the unsmeared waveforms. -/
theorem create_wfs_bins {lt : LightTable} {dv bin : ℚ} (g : Geometry lt dv bin) (hbs : lt.elGap / lt.nz / dv ≤ bin) (buffer tmin : ℚ)
    (es : List Electron) (ht : ∀ e ∈ es, tmin ≤ e.t) :
    ∃ w, createWfs lt dv bin buffer tmin es = .ok w ∧ w.length = lt.nsens ∧
      ∀ s < lt.nsens, (w.getD s []).length = numBins buffer bin ∧ ∀ b < numBins buffer bin, (w.getD s []).getD b 0 =
        (es.map fun e => ((List.range lt.nz).map fun k : Nat => if InBin tmin bin b (emission lt dv e k) then seen lt e s k else 0).sum).sum := by
  obtain ⟨w, h1, h2, h3⟩ := raw_bins g buffer tmin es ht
  have hn : nsmear lt dv bin ≤ 1 := by
    have : ⌈timeBs lt dv bin⌉ ≤ 1 := by
      rw [Int.ceil_le]
      unfold timeBs
      rw [div_le_iff₀ g.bin]
      push_cast
      linarith
    unfold nsmear
    omega
  refine ⟨w, ?_, h2.1, fun s hs => ⟨h2.2 s hs, h3 s hs⟩⟩
  unfold createWfs
  rw [h1]
  simp only [smearWfs]
  rw [if_neg (by omega)]

/-- A light table with two partitions, one sensor; two electrons, one out of reach of the sensor. -/
def ltDemo : LightTable := ⟨1, 2, 10, fun x _ _ => if x < 100 then some [3, 1] else none⟩

example : Geometry ltDemo 5 1 ∧ ltDemo.elGap / ltDemo.nz / 5 ≤ 1 ∧
    createWfs ltDemo 5 1 4 10 [⟨0, 0, 10, 2⟩, ⟨0, 0, 23 / 2, 1⟩, ⟨200, 0, 11, 7⟩] = .ok [[6, 2, 3, 1]] := by
  refine ⟨⟨by decide, by decide +kernel, by decide +kernel, by decide +kernel⟩, by decide +kernel, by decide +kernel⟩

/-- The light is not negative if neither the values of the table nor the photons are. -/
theorem seen_nonneg {lt : LightTable} (hv : ∀ x y s vals, lt.values x y s = some vals → ∀ v ∈ vals, 0 ≤ v) {e : Electron} (he : 0 ≤ e.ph) (s k : Nat) :
    0 ≤ seen lt e s k := by
  unfold seen
  apply mul_nonneg _ (by exact_mod_cast he)
  cases h : lt.values e.x e.y s with
  | none => simp
  | some vals =>
    rw [Option.getD_some, List.getD_eq_getElem?_getD]
    cases h' : vals[k]? with
    | none => simp
    | some v => exact hv _ _ _ _ h v (List.mem_of_getElem? h')

theorem row_nonneg {lt : LightTable} {dv bin tmin : ℚ} {es : List Electron} (hs : ∀ e ∈ es, ∀ s k : Nat, 0 ≤ seen lt e s k) (s b : Nat) :
    0 ≤ (es.map fun e => ((List.range lt.nz).map fun k : Nat => if InBin tmin bin b (emission lt dv e k) then seen lt e s k else 0).sum).sum := by
  apply List.sum_nonneg
  intro v hv
  obtain ⟨e, he, rfl⟩ := List.mem_map.1 hv
  apply List.sum_nonneg
  intro v hv
  obtain ⟨k, _, rfl⟩ := List.mem_map.1 hv
  split
  · exact hs e he s k
  · exact le_refl _

theorem exists_of_sum_ne_zero {α : Type} {xs : List α} {f : α → ℚ} (h : (xs.map f).sum ≠ 0) : ∃ x ∈ xs, f x ≠ 0 := by
  by_contra hc
  push Not at hc
  exact h (sum_zero hc)

/-- The sum of a row of the unsmeared waveforms is all the light, when the emission of every electron ends inside the waveform. -/
theorem raw_total {lt : LightTable} {dv bin : ℚ} (g : Geometry lt dv bin) (buffer tmin : ℚ) (es : List Electron) (ht : ∀ e ∈ es, tmin ≤ e.t)
    (hend : ∀ e ∈ es, e.t + lt.elGap / dv ≤ tmin + numBins buffer bin * bin) {w : List (List ℚ)}
    (hw : rawWfs lt dv bin buffer tmin es = .ok w) {s : Nat} (hs : s < lt.nsens) : (w.getD s []).sum = totalSeen lt es s := by
  obtain ⟨w', h1, h2, h3⟩ := raw_bins g buffer tmin es ht
  obtain rfl : w' = w := by rw [hw] at h1; exact (Except.ok.inj h1).symm
  rw [← Sampling.sum_getD, h2.2 s hs, List.map_congr_left (fun b hb => h3 s hs b (List.mem_range.1 hb)), Hits.sum_comm]
  unfold totalSeen
  congr 1
  apply List.map_congr_left
  intro e he
  rw [Hits.sum_comm]
  congr 1
  apply List.map_congr_left
  intro k hk
  rw [List.mem_range] at hk
  have h4 := g.dv
  have h5 := g.bin
  have h6 := g.gap
  have h7 : (0 : ℚ) < lt.nz := by exact_mod_cast g.nz
  have hlow : tmin ≤ emission lt dv e k := by
    unfold emission
    have := ht e he
    have : 0 ≤ (k + 1 / 2) * (lt.elGap / lt.nz) / dv := by positivity
    linarith
  have hhigh : emission lt dv e k < tmin + numBins buffer bin * bin := by
    have h8 := hend e he
    have h9 : (k + 1 / 2) * (lt.elGap / lt.nz) / dv < lt.elGap / dv := by
      rw [div_lt_div_iff_of_pos_right h4, mul_div_assoc', div_lt_iff₀ h7]
      have hkq : (k : ℚ) + 1 ≤ lt.nz := by exact_mod_cast hk
      nlinarith
    unfold emission
    linarith
  have hf0 : 0 ≤ ⌊(emission lt dv e k - tmin) / bin⌋ := Int.floor_nonneg.2 (div_nonneg (by linarith) h5.le)
  have hfn : ⌊(emission lt dv e k - tmin) / bin⌋ < ((numBins buffer bin : Nat) : Int) := by
    rw [Int.floor_lt, div_lt_iff₀ h5]
    push_cast
    linarith
  rw [show ((List.range (numBins buffer bin)).map fun b : Nat => if InBin tmin bin b (emission lt dv e k) then seen lt e s k else 0) =
    (List.range (numBins buffer bin)).map fun b : Nat => if b = ⌊(emission lt dv e k - tmin) / bin⌋.toNat then (fun _ : Nat => seen lt e s k) b else 0 from
    List.map_congr_left fun b _ => by
      have : InBin tmin bin b (emission lt dv e k) ↔ b = ⌊(emission lt dv e k - tmin) / bin⌋.toNat := by
        rw [InBin_iff h5]; omega
      by_cases hb : b = ⌊(emission lt dv e k - tmin) / bin⌋.toNat
      · rw [if_pos (this.2 hb), if_pos hb]
      · rw [if_neg (fun h => hb (this.1 h)), if_neg hb]]
  rw [Sampling.sum_ite_eq_range _ _ (fun _ : Nat => seen lt e s k), if_pos (by omega)]

/-- **C45** (conservation of light).  When the time of a partition of the gap is at most one bin or a whole number of bins, the values of the table and the photons are not
negative, and all the electrons arrive after the beginning of the waveform and cross the gap before its end, then the waveform of each
sensor holds exactly the light it sees. -/
theorem s2_light_conserved {lt : LightTable} {dv bin : ℚ} (g : Geometry lt dv bin) (N : Nat)
    (hbs : lt.elGap / lt.nz / dv ≤ bin ∨ lt.elGap / lt.nz / dv = N * bin) (buffer tmin : ℚ) (es : List Electron) (hseen : ∀ e ∈ es, ∀ s k, 0 ≤ seen lt e s k)
    (ht : ∀ e ∈ es, tmin ≤ e.t) (hend : ∀ e ∈ es, e.t + lt.elGap / dv ≤ tmin + numBins buffer bin * bin) :
    ∃ w, createWfs lt dv bin buffer tmin es = .ok w ∧ w.length = lt.nsens ∧ ∀ s < lt.nsens,
      (w.getD s []).length = numBins buffer bin ∧ (w.getD s []).sum = totalSeen lt es s := by
  obtain ⟨w, h1, h2, h3⟩ := raw_bins g buffer tmin es ht
  have htot := fun (s : Nat) (hs : s < lt.nsens) => raw_total g buffer tmin es ht hend h1 hs
  have h4 := g.dv
  have h5 := g.bin
  have h6 := g.gap
  have h7 : (0 : ℚ) < lt.nz := by exact_mod_cast g.nz
  refine ⟨smearWfs (nsmear lt dv bin) w, by unfold createWfs; rw [h1], ?_, ?_⟩
  · unfold smearWfs; split <;> simp [h2.1]
  intro s hs
  by_cases hk : 1 < nsmear lt dv bin
  · have htb : timeBs lt dv bin = N := by
      rcases hbs with hbs | hbs
      · exfalso
        have : ⌈timeBs lt dv bin⌉ ≤ 1 := by
          rw [Int.ceil_le]; unfold timeBs; rw [div_le_iff₀ h5]; push_cast; linarith
        unfold nsmear at hk; omega
      · unfold timeBs; rw [hbs]; field_simp
    have hN : nsmear lt dv bin = N := by unfold nsmear; rw [htb]; simp
    rw [hN] at hk ⊢
    have hrow : (smearWfs N w).getD s [] = spreadHistogram (w.getD s []) (N / 2) (N - N / 2) := by
      unfold smearWfs
      rw [if_pos hk]
      have : s < w.length := by rw [h2.1]; exact hs
      simp [List.getElem?_eq_getElem this]
    rw [hrow]
    refine ⟨by rw [(spread_bins _ _ _ (by omega)).1, h2.2 s hs], ?_⟩
    rw [spread_conserves _ _ _ (by omega), htot s hs]
    · intro v hv
      obtain ⟨b, hb, rfl⟩ := List.getElem_of_mem hv
      have hb' : b < numBins buffer bin := by rw [← h2.2 s hs]; exact hb
      have := h3 s hs b hb'
      rw [List.getD_eq_getElem?_getD, List.getElem?_eq_getElem hb, Option.getD_some] at this
      rw [this]
      exact row_nonneg hseen s b
    · intro b hb hne
      rw [h2.2 s hs] at hb ⊢
      rw [h3 s hs b hb] at hne
      obtain ⟨e, he, hne⟩ := exists_of_sum_ne_zero hne
      obtain ⟨k, hk', hne⟩ := exists_of_sum_ne_zero hne
      rw [List.mem_range] at hk'
      have hin : InBin tmin bin b (emission lt dv e k) := by
        by_contra hc
        rw [if_neg hc] at hne
        exact hne rfl
      rw [InBin_iff h5, Int.floor_eq_iff, ← time_eq g, htb] at hin
      push_cast at hin
      have htp : 0 ≤ (e.t - tmin) / bin := div_nonneg (by have := ht e he; linarith) h5.le
      have hup : (e.t - tmin) / bin + N * lt.nz ≤ numBins buffer bin := by
        have h8 := hend e he
        have h9 : (N : ℚ) * lt.nz = lt.elGap / dv / bin := by rw [← htb]; unfold timeBs; field_simp
        rw [h9, ← add_div, div_le_iff₀ h5]
        linarith
      have hkz : (k : ℚ) + 1 ≤ lt.nz := by exact_mod_cast hk'
      have hNq : (0 : ℚ) ≤ N := by positivity
      have hk0 : (0 : ℚ) ≤ k := by positivity
      have hlo2 : (N : ℚ) / 2 < b + 1 := by nlinarith [hin.2]
      have hhi2 : (b : ℚ) ≤ numBins buffer bin - N / 2 := by nlinarith [hin.1]
      have hlo3 : N < 2 * b + 2 := by
        have : (N : ℚ) < 2 * b + 2 := by linarith
        exact_mod_cast this
      have hhi3 : 2 * b + N ≤ 2 * numBins buffer bin := by
        have : (2 : ℚ) * b + N ≤ 2 * numBins buffer bin := by linarith
        exact_mod_cast this
      omega
  · have hsm : smearWfs (nsmear lt dv bin) w = w := by unfold smearWfs; rw [if_neg hk]
    rw [hsm]
    exact ⟨h2.2 s hs, htot s hs⟩

/-- A table as those of the PMTs: one partition, 4 bins long. -/
def ltPmt : LightTable := ⟨1, 1, 10, fun _ _ _ => some [3]⟩

example : Geometry ltPmt (5 / 2) 1 ∧ ltPmt.elGap / ltPmt.nz / (5 / 2) = (4 : Nat) * 1 ∧
    createWfs ltPmt (5 / 2) 1 6 0 [⟨0, 0, 0, 4⟩, ⟨0, 0, 3 / 2, 8⟩] = .ok [[3, 9, 9, 9, 6, 0]] ∧
    totalSeen ltPmt [⟨0, 0, 0, 4⟩, ⟨0, 0, 3 / 2, 8⟩] 0 = 36 := by
  refine ⟨⟨by decide, by decide +kernel, by decide +kernel, by decide +kernel⟩, by decide +kernel, by decide +kernel, by decide +kernel⟩

theorem ltPmt_nonneg : ∀ x y s vals, ltPmt.values x y s = some vals → ∀ v ∈ vals, 0 ≤ v := by
  intro x y s vals h v hv
  cases h
  rw [List.mem_singleton.1 hv]; norm_num

/-- All the hypotheses hold together: both electrons see the table and end inside the waveform. -/
example : ∃ w, createWfs ltPmt (5 / 2) 1 6 0 [⟨0, 0, 0, 4⟩, ⟨0, 0, 3 / 2, 8⟩] = .ok w ∧ w.length = 1 ∧ ∀ s < 1,
    (w.getD s []).length = numBins 6 1 ∧ (w.getD s []).sum = totalSeen ltPmt [⟨0, 0, 0, 4⟩, ⟨0, 0, 3 / 2, 8⟩] s :=
  s2_light_conserved (lt := ltPmt) ⟨by decide, by decide +kernel, by decide +kernel, by decide +kernel⟩ 4 (Or.inr (by decide +kernel)) 6 0
    [⟨0, 0, 0, 4⟩, ⟨0, 0, 3 / 2, 8⟩] (fun e he s k => seen_nonneg ltPmt_nonneg (by
      rcases List.mem_cons.1 he with rfl | he
      · decide
      · rw [List.mem_singleton.1 he]; decide) s k) (by decide +kernel) (by decide +kernel)

/-- **C45** (finding).  When the time of a partition is not a whole number of bins the light of the first electrons is lost:
here 3.5 bins, an electron at the beginning of a waveform much longer than its emission. -/
theorem fractional_smear_loses_light : ∃ (lt : LightTable) (dv : ℚ) (e : Electron), Geometry lt dv 1 ∧ lt.nz = 1 ∧ 0 < totalSeen lt [e] 0 ∧
    e.t + lt.elGap / dv ≤ 100 ∧ createWfs lt dv 1 100 0 [e] = .ok [List.replicate 100 0] := by
  refine ⟨⟨1, 1, 7, fun _ _ _ => some [3]⟩, 2, ⟨0, 0, 0, 1⟩, ⟨by decide, by decide +kernel, by decide +kernel, by decide +kernel⟩, rfl,
    by decide +kernel, by decide +kernel, by decide +kernel⟩

/-- **C45** (finding).  An electron that reaches the EL before the beginning of the waveform (diffusion can move it there) puts its light at
the end of the waveform… -/
theorem early_electron_wraps : createWfs ⟨1, 1, 1, fun _ _ _ => some [3]⟩ 1 1 5 0 [⟨0, 0, -1, 1⟩] = .ok [[0, 0, 0, 0, 3]] := by
  decide +kernel

/-- …or aborts the simulation: in general, when some emission seen by a sensor is earlier than the beginning by more than the length of the waveform. -/
theorem early_electron_raises {lt : LightTable} {dv bin : ℚ} (g : Geometry lt dv bin) (buffer tmin : ℚ) (es : List Electron)
    (h : ∃ e ∈ es, ∃ s < lt.nsens, (lt.values e.x e.y s).isSome ∧ emission lt dv e 0 < tmin - numBins buffer bin * bin) :
    createWfs lt dv bin buffer tmin es = .error .indexError := by
  obtain ⟨e, he, s, hs, hv, hlt⟩ := h
  have : rawWfs lt dv bin buffer tmin es = .error .indexError := by
    unfold rawWfs
    apply foldDeposits_error
    refine ⟨_, (mem_deposits g).2 ⟨e, he, s, hs, hv, 0, g.nz, rfl⟩, ?_⟩
    simp only
    rw [Int.floor_lt, div_lt_iff₀ g.bin]
    push_cast
    linarith
  unfold createWfs
  rw [this]

example : Geometry ltPmt (5 / 2) 1 ∧ (ltPmt.values 0 0 0).isSome ∧ emission ltPmt (5 / 2) ⟨0, 0, -100, 1⟩ 0 < 0 - numBins 6 1 * 1 ∧
    createWfs ltPmt (5 / 2) 1 6 0 [⟨0, 0, -100, 1⟩] = .error .indexError := by
  refine ⟨⟨by decide, by decide +kernel, by decide +kernel, by decide +kernel⟩, by decide, by decide +kernel, by decide +kernel⟩

/-! ### The buffer of an event -/

theorem minOf_spec {xs : List ℚ} {m : ℚ} (h : minOf xs = .ok m) : m ∈ xs ∧ ∀ x ∈ xs, m ≤ x := by
  cases xs with
  | nil => cases h
  | cons x xs =>
    obtain rfl := Except.ok.inj h
    obtain ⟨h1, h2, h3⟩ := Deconv.foldl_min_spec xs x
    refine ⟨?_, ?_⟩
    · rcases h3 with h3 | h3
      · rw [h3]; exact List.mem_cons_self
      · exact List.mem_cons_of_mem _ h3
    · intro y hy
      rcases List.mem_cons.1 hy with rfl | hy
      · exact h1
      · exact h2 y hy

theorem maxOf_spec {xs : List ℚ} {m : ℚ} (h : maxOf xs = .ok m) : m ∈ xs ∧ ∀ x ∈ xs, x ≤ m := by
  cases xs with
  | nil => cases h
  | cons x xs =>
    obtain rfl := Except.ok.inj h
    exact KrEvent.foldl_max_spec xs x

/-- **C45** (buffer).  The waveforms of an event begin at a multiple of the longest bin, less than one such bin before the first hit, and, unless
limited by the maximum length, end after the last electron has crossed the EL gap, in a multiple of the longest bin. -/
theorem buffer_times {pmtW sipmW elGap dv maxLength : ℚ} (hp : 0 < pmtW) {time timesPh : List ℚ} {tmin len : ℚ}
    (h : bufferTimes pmtW sipmW elGap dv maxLength time timesPh = .ok (tmin, len)) :
    (∃ n : Int, tmin = n * max pmtW sipmW) ∧ (∀ t ∈ time, tmin ≤ t) ∧ (∃ t ∈ time, t < tmin + max pmtW sipmW) ∧ len ≤ maxLength ∧
      (len < maxLength → (∃ n : Int, tmin + len = n * max pmtW sipmW) ∧ (∀ t ∈ timesPh, t + elGap / dv ≤ tmin + len) ∧
        ∃ t ∈ timesPh, tmin + len < t + elGap / dv + max pmtW sipmW) := by
  have hw : 0 < max pmtW sipmW := lt_of_lt_of_le hp (le_max_left _ _)
  unfold bufferTimes at h
  cases h0 : minOf time with
  | error e => rw [h0] at h; cases h
  | ok t0 =>
    rw [h0] at h
    cases h1 : maxOf timesPh with
    | error e => rw [h1] at h; cases h
    | ok t1 =>
      rw [h1] at h
      have h2 := Except.ok.inj h
      obtain ⟨hm0, hm1⟩ := minOf_spec h0
      obtain ⟨hM0, hM1⟩ := maxOf_spec h1
      generalize max pmtW sipmW = W at h2 hw ⊢
      obtain ⟨h3, h4⟩ := Prod.mk.inj h2
      have hfl : (⌊t0 / W⌋ : ℚ) * W ≤ t0 := by rw [← le_div_iff₀ hw]; exact Int.floor_le _
      have hfl2 : t0 < (⌊t0 / W⌋ : ℚ) * W + W := by
        have := Int.lt_floor_add_one (t0 / W)
        rw [div_lt_iff₀ hw] at this
        linarith
      have hce : t1 + elGap / dv ≤ (⌈(t1 + elGap / dv) / W⌉ : ℚ) * W := by rw [← div_le_iff₀ hw]; exact Int.le_ceil _
      have hce2 : (⌈(t1 + elGap / dv) / W⌉ : ℚ) * W < t1 + elGap / dv + W := by
        have := Int.ceil_lt_add_one ((t1 + elGap / dv) / W)
        have h5 : (⌈(t1 + elGap / dv) / W⌉ : ℚ) - 1 < (t1 + elGap / dv) / W := by linarith
        rw [lt_div_iff₀ hw] at h5
        linarith
      refine ⟨⟨_, h3.symm⟩, ?_, ⟨t0, hm0, by rw [← h3]; exact hfl2⟩, by rw [← h4]; exact min_le_left _ _, ?_⟩
      · intro t ht
        have := hm1 t ht
        rw [← h3]; linarith
      · intro hlt
        have hlen : tmin + len = ⌈(t1 + elGap / dv) / W⌉ * W := by
          rcases min_choice maxLength (⌈(t1 + elGap / dv) / W⌉ * W - ⌊t0 / W⌋ * W) with hmin | hmin
          · rw [hmin] at h4; exact absurd h4 hlt.ne'
          · rw [hmin] at h4; rw [← h4, ← h3]; ring
        rw [hlen]
        refine ⟨⟨_, rfl⟩, ?_, ⟨t1, hM0, hce2⟩⟩
        intro t ht
        have := hM1 t ht
        linarith

/-- **C45** (the whole chain).  With the buffer computed from the hits and the electrons of the event, not limited by the maximum length, no
electron before the beginning, and whole numbers of bins: the waveforms of every sensor hold all its light. -/
theorem event_light_conserved {lt : LightTable} {dv bin : ℚ} (g : Geometry lt dv bin) (N : Nat)
    (hbs : lt.elGap / lt.nz / dv ≤ bin ∨ lt.elGap / lt.nz / dv = N * bin) {pmtW sipmW maxLength : ℚ} (hp : 0 < pmtW) (time : List ℚ)
    (es : List Electron) (hseen : ∀ e ∈ es, ∀ s k, 0 ≤ seen lt e s k) {tmin len : ℚ}
    (hbuf : bufferTimes pmtW sipmW lt.elGap dv maxLength time (es.map (·.t)) = .ok (tmin, len)) (hlen : len < maxLength)
    (ht : ∀ e ∈ es, tmin ≤ e.t) :
    ∃ w, createWfs lt dv bin len tmin es = .ok w ∧ w.length = lt.nsens ∧ ∀ s < lt.nsens,
      (w.getD s []).length = numBins len bin ∧ (w.getD s []).sum = totalSeen lt es s := by
  apply s2_light_conserved g N hbs len tmin es hseen ht
  intro e he
  obtain ⟨_, _, _, _, h5⟩ := buffer_times hp hbuf
  have h6 := (h5 hlen).2.1 e.t (List.mem_map.2 ⟨e, he, rfl⟩)
  have h7 : len ≤ numBins len bin * bin := by
    rw [← div_le_iff₀ g.bin]
    have h8 := Int.le_ceil (len / bin)
    have h9 : (⌈len / bin⌉ : ℚ) ≤ (numBins len bin : ℚ) := by
      unfold numBins
      exact_mod_cast Int.self_le_toNat _
    linarith
  linarith

example : bufferTimes 1 4 ltPmt.elGap (5 / 2) 1000 [3, 5] [6, 15 / 2] = .ok (0, 12) ∧
    createWfs ltPmt (5 / 2) 1 12 0 [⟨0, 0, 6, 4⟩, ⟨0, 0, 15 / 2, 8⟩] = .ok [[0, 0, 0, 0, 0, 0, 3, 9, 9, 9, 6, 0]] := by decide +kernel

example : ∃ w, createWfs ltPmt (5 / 2) 1 12 0 [⟨0, 0, 6, 4⟩, ⟨0, 0, 15 / 2, 8⟩] = .ok w ∧ w.length = 1 ∧ ∀ s < 1,
    (w.getD s []).length = numBins 12 1 ∧ (w.getD s []).sum = totalSeen ltPmt [⟨0, 0, 6, 4⟩, ⟨0, 0, 15 / 2, 8⟩] s :=
  event_light_conserved (lt := ltPmt) (dv := 5 / 2) (bin := 1) ⟨by decide, by decide +kernel, by decide +kernel, by decide +kernel⟩ 4 (Or.inr (by decide +kernel))
    (pmtW := 1) (sipmW := 4) (maxLength := 1000) (by decide +kernel) [3, 5] [⟨0, 0, 6, 4⟩, ⟨0, 0, 15 / 2, 8⟩] (fun e he s k => seen_nonneg ltPmt_nonneg (by
      rcases List.mem_cons.1 he with rfl | he
      · decide
      · rw [List.mem_singleton.1 he]; decide) s k) (by decide +kernel) (by decide +kernel) (by decide +kernel)

/-! ### Hits -/

/-- **C45** (delayed hits).  The hits kept are, in order, those that happen less than the maximum time after the first one. -/
theorem delayed_hits {maxTime : ℚ} {hits kept : List MCHit} (h : filterDelayed maxTime hits = .ok kept) :
    ∃ first ∈ hits, (∀ h ∈ hits, first.time ≤ h.time) ∧ kept = hits.filter fun h => decide (h.time < first.time + maxTime) := by
  unfold filterDelayed at h
  cases h0 : minOf (hits.map (·.time)) with
  | error e => rw [h0] at h; cases h
  | ok t0 =>
    rw [h0] at h
    obtain ⟨h1, h2⟩ := minOf_spec h0
    obtain ⟨f, hf, rfl⟩ := List.mem_map.1 h1
    refine ⟨f, hf, fun x hx => h2 _ (List.mem_map.2 ⟨x, hx, rfl⟩), ?_⟩
    rw [← Except.ok.inj h]
    apply List.filter_congr
    intro x _
    rw [decide_eq_decide]
    constructor <;> intro <;> linarith

/-- Every event with hits is filtered; an event without hits is an error. -/
theorem delayed_hits_total (maxTime : ℚ) (hits : List MCHit) : (∃ kept, filterDelayed maxTime hits = .ok kept) ↔ hits ≠ [] := by
  cases hits with
  | nil => simp [filterDelayed, minOf]
  | cons x xs => simp [filterDelayed, minOf]

example : filterDelayed 5 [⟨0, 0, 0, 1, 3, "ACTIVE"⟩, ⟨0, 0, 0, 1, 8, "ACTIVE"⟩, ⟨0, 0, 0, 1, 7, "BUFFER"⟩] =
    .ok [⟨0, 0, 0, 1, 3, "ACTIVE"⟩, ⟨0, 0, 0, 1, 7, "BUFFER"⟩] := by decide +kernel

/-- **C45** (selection of volumes).  Files with text labels: the hits kept are those in ACTIVE and, unless only active hits are wanted, in BUFFER. -/
theorem select_hits_text (activeOnly : Bool) (hits : List MCHit) :
    selectHits activeOnly none hits = .ok (hits.filter fun h => decide (h.label = "ACTIVE" ∨ (activeOnly = false ∧ h.label = "BUFFER"))) := by
  show Except.ok _ = Except.ok _
  congr 1
  apply List.filter_congr
  intro h _
  cases activeOnly <;> simp

/-- The number of a volume: that of the first entry of the table with its name. -/
def NumberOf (tab : List (String × String)) (name number : String) : Prop :=
  ∃ i : Nat, tab[i]? = some (name, number) ∧ ∀ j < i, ∀ p, tab[j]? = some p → p.1 ≠ name

theorem volumeLabel_iff (tab : List (String × String)) (name number : String) :
    volumeLabel (some tab) name = .ok number ↔ NumberOf tab name number := by
  have hr : volumeLabel (some tab) name = match tab.find? (fun p => p.1 == name) with
    | none => .error .indexError
    | some p => .ok p.2 := rfl
  rw [hr]
  constructor
  · intro h
    cases hf : tab.find? (fun p => p.1 == name) with
    | none => rw [hf] at h; cases h
    | some p =>
      rw [hf] at h
      have hp := Except.ok.inj h
      rw [List.find?_eq_some_iff_getElem] at hf
      obtain ⟨h1, i, hi, h2, h3⟩ := hf
      refine ⟨i, ?_, ?_⟩
      · rw [List.getElem?_eq_getElem hi, h2]
        have : p.1 = name := by simpa using h1
        rw [← this, ← hp]
      · intro j hj q hq
        obtain ⟨hj1, hj2⟩ := List.getElem?_eq_some_iff.1 hq
        have := h3 j hj
        rw [hj2] at this
        simpa using this
  · rintro ⟨i, hi, hfirst⟩
    obtain ⟨hi1, hi2⟩ := List.getElem?_eq_some_iff.1 hi
    have hf : tab.find? (fun p => p.1 == name) = some (name, number) := by
      rw [List.find?_eq_some_iff_getElem]
      refine ⟨by simp, i, hi1, hi2, ?_⟩
      intro j hj
      have := hfirst j hj tab[j] (List.getElem?_eq_getElem _)
      simpa using this
    rw [hf]

/-- …and files with numeric labels: the numbers are those of the first entries of the table of names, which must name both volumes. -/
theorem select_hits_table (activeOnly : Bool) (tab : List (String × String)) (hits kept : List MCHit) :
    selectHits activeOnly (some tab) hits = .ok kept ↔ ∃ a b, NumberOf tab "ACTIVE" a ∧ NumberOf tab "BUFFER" b ∧
      kept = hits.filter fun h => decide (h.label = a ∨ (activeOnly = false ∧ h.label = b)) := by
  have hfil : ∀ a b : String, (hits.filter fun h => decide (h.label = a) || (!activeOnly && decide (h.label = b))) =
      hits.filter fun h => decide (h.label = a ∨ (activeOnly = false ∧ h.label = b)) := by
    intro a b
    apply List.filter_congr
    intro h _
    cases activeOnly <;> simp
  unfold selectHits
  constructor
  · intro h
    cases ha : volumeLabel (some tab) "ACTIVE" with
    | error e => rw [ha] at h; cases h
    | ok a =>
      rw [ha] at h
      cases hb : volumeLabel (some tab) "BUFFER" with
      | error e => rw [hb] at h; cases h
      | ok b =>
        rw [hb] at h
        exact ⟨a, b, (volumeLabel_iff _ _ _).1 ha, (volumeLabel_iff _ _ _).1 hb, by rw [← Except.ok.inj h, ← hfil]⟩
  · rintro ⟨a, b, ha, hb, rfl⟩
    rw [(volumeLabel_iff _ _ _).2 ha, (volumeLabel_iff _ _ _).2 hb, ← hfil]

example : selectHits true (some [("ACTIVE", "7"), ("BUFFER", "9")]) [⟨0, 0, 0, 1, 3, "7"⟩, ⟨0, 0, 0, 1, 8, "9"⟩] = .ok [⟨0, 0, 0, 1, 3, "7"⟩] ∧
    selectHits false (some [("ACTIVE", "7"), ("BUFFER", "9")]) [⟨0, 0, 0, 1, 3, "7"⟩, ⟨0, 0, 0, 1, 8, "9"⟩] =
      .ok [⟨0, 0, 0, 1, 3, "7"⟩, ⟨0, 0, 0, 1, 8, "9"⟩] ∧
    selectHits true (some [("ACTIVE", "7")]) [] = .error .indexError := by decide +kernel

/-! ### Sensors -/

/-- **C45** (charge fluctuation).  Whatever is drawn: the number of samples does not change, samples are never negative (with a non-zero width), samples without
charge stay without charge, and a positive sample becomes what is drawn for it, or zero if that is negative. -/
theorem charge_fluctuation_spec (signal draws : List ℚ) (rms : ℚ) (hl : draws.length = signal.length) (hr : rms ≠ 0) :
    (chargeFluctuation signal draws rms).length = signal.length ∧ (∀ v ∈ chargeFluctuation signal draws rms, 0 ≤ v) ∧
      ∀ (i : Nat) (s d : ℚ), signal[i]? = some s → draws[i]? = some d →
        (chargeFluctuation signal draws rms)[i]? = some (if 0 < s then max d 0 else 0) := by
  unfold chargeFluctuation
  rw [if_neg hr]
  refine ⟨by simp [hl], ?_, ?_⟩
  · intro v hv
    obtain ⟨x, _, rfl⟩ := List.mem_map.1 hv
    split
    · exact le_refl _
    · rename_i h; exact not_lt.1 h
  · intro i s d hs hd
    rw [List.getElem?_map, List.getElem?_zipWith, hs, hd]
    simp only [Option.map_some]
    congr 1
    by_cases h0 : 0 < s
    · rw [if_pos h0, if_pos h0]
      by_cases h1 : d < 0
      · rw [if_pos h1, max_eq_right h1.le]
      · rw [if_neg h1, max_eq_left (not_lt.1 h1)]
    · rw [if_neg h0, if_neg h0]
      by_cases h1 : s < 0
      · rw [if_pos h1]
      · rw [if_neg h1]; linarith

/-- Without width the signal is returned as it is, negative samples included. -/
theorem charge_fluctuation_zero (signal draws : List ℚ) : chargeFluctuation signal draws 0 = signal := by simp [chargeFluctuation]

example : chargeFluctuation [0, 2, 3, -1] [9, 5 / 2, -1, 4] (1 / 10) = [0, 5 / 2, 0, 0] := by decide +kernel

/-- **C45** (sensor ids).  Each channel is replaced by its position in the database, or by −1 if the database does not have it. -/
theorem channel_to_ic {channels wanted : List Nat} {ids : List Int} (h : channelToIC channels wanted = .ok ids) :
    ids.length = wanted.length ∧ ∀ (i c : Nat) (v : Int), wanted[i]? = some c → ids[i]? = some v →
      (v = -1 ∧ c ∉ channels) ∨ ∃ p : Nat, v = p ∧ channels[p]? = some c ∧ ∀ q : Nat, channels[q]? = some c → q = p := by
  unfold channelToIC at h
  by_cases hn : channels.Nodup
  · rw [if_pos hn] at h
    obtain rfl := Except.ok.inj h
    refine ⟨by simp, ?_⟩
    intro i c v hc hv
    rw [List.getElem?_map, hc, Option.map_some] at hv
    have hv := (Option.some.inj hv).symm
    cases hi : channels.idxOf? c with
    | none =>
      rw [hi] at hv
      exact Or.inl ⟨hv, by rw [List.idxOf?_eq_none_iff] at hi; exact hi⟩
    | some p =>
      rw [hi] at hv
      refine Or.inr ⟨p, hv, ?_⟩
      rw [List.idxOf?_eq_some_iff] at hi
      obtain ⟨hp, heq, _⟩ := hi
      have hp2 : channels[p]? = some c := by rw [List.getElem?_eq_getElem hp]; exact congrArg some (by simpa using heq)
      refine ⟨hp2, ?_⟩
      intro q hq
      obtain ⟨hq1, hq2⟩ := List.getElem?_eq_some_iff.1 hq
      have hp3 := (List.getElem?_eq_some_iff.1 hp2).2
      exact (List.nodup_iff_injective_get.1 hn (a₁ := ⟨q, hq1⟩) (a₂ := ⟨p, hp⟩) (by simp [hq2, hp3]) |> Fin.val_eq_of_eq)
  · rw [if_neg hn] at h; cases h

example : channelToIC [10, 30, 20] [20, 99, 10] = .ok [2, -1, 0] ∧ channelToIC [10, 10] [10] = .error (.other "InvalidIndexError") := by
  decide

end Verif.Detsim
