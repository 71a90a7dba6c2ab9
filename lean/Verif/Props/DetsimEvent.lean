import Verif.Spec.DetsimEvent
import Verif.Props.Buffers
import Verif.Props.BufferTables
import Verif.Props.Electrons
import Verif.Props.Binning
/-!
# C109: the buffers written by detsim hold the light of the event
-/
namespace Verif.DetsimEvent
open Verif.Detsim Verif.Buffers

/-! ### Waveforms -/

theorem Wfs.get {wfs : List (List ℚ)} {nsens n : Nat} {f : Nat → Nat → ℚ} (h : Wfs wfs nsens n f) {s : Nat} {row : List ℚ} (hr : wfs[s]? = some row) :
    s < nsens ∧ row.length = n ∧ ∀ b < n, row.getD b 0 = f s b := by
  have hs : s < nsens := by rw [← h.1]; exact (List.getElem?_eq_some_iff.1 hr).1
  obtain ⟨r, h1, h2⟩ := h.2 s hs
  rw [hr] at h1; cases h1
  exact ⟨hs, h2⟩

theorem Wfs.mem {wfs : List (List ℚ)} {nsens n : Nat} {f : Nat → Nat → ℚ} (h : Wfs wfs nsens n f) {row : List ℚ} (hr : row ∈ wfs) : row.length = n := by
  obtain ⟨s, hs⟩ := List.mem_iff_getElem?.1 hr
  exact (h.get hs).2.1

theorem poisson_ok {wfs : List (List ℚ)} {nsens n : Nat} {f : Nat → Nat → ℚ} (h : Wfs wfs nsens n f) (h0 : ∀ s < nsens, ∀ b < n, 0 ≤ f s b)
    (draw : Nat → Nat → ℚ → Nat) : ∃ out, poisson draw wfs = .ok out ∧ Wfs out nsens n fun s b => (draw s b (f s b) : ℚ) := by
  have hno : ¬ ∃ row ∈ wfs, ∃ v ∈ row, v < 0 := by
    rintro ⟨row, hr, v, hv, hlt⟩
    obtain ⟨s, hs⟩ := List.mem_iff_getElem?.1 hr
    obtain ⟨b, hb⟩ := List.mem_iff_getElem?.1 hv
    obtain ⟨h1, h2, h3⟩ := h.get hs
    have hbn : b < n := by rw [← h2]; exact (List.getElem?_eq_some_iff.1 hb).1
    have := h3 b hbn
    rw [List.getD_eq_getElem?_getD, hb, Option.getD_some] at this
    rw [this] at hlt
    exact absurd hlt (not_lt.2 (h0 s h1 b hbn))
  refine ⟨_, by rw [poisson, if_neg hno], by simpa using h.1, ?_⟩
  intro s hs
  obtain ⟨row, h1, h2, h3⟩ := h.2 s hs
  refine ⟨row.mapIdx fun b v => (draw s b v : ℚ), by rw [List.getElem?_mapIdx, h1]; rfl, by simpa using h2, ?_⟩
  intro b hb
  have h4 := h3 b hb
  have hb' : b < row.length := by omega
  rw [List.getD_eq_getElem?_getD, List.getElem?_eq_getElem hb', Option.getD_some] at h4
  rw [List.getD_eq_getElem?_getD, List.getElem?_mapIdx, List.getElem?_eq_getElem hb', Option.map_some, Option.getD_some, h4]

theorem add_ok {a b : List (List ℚ)} {nsens n : Nat} {f g : Nat → Nat → ℚ} (ha : Wfs a nsens n f) (hb : Wfs b nsens n g) :
    ∃ out, addWfs a b = .ok out ∧ Wfs out nsens n fun s i => f s i + g s i := by
  have hl : a.map List.length = b.map List.length := by
    apply List.ext_getElem?
    intro s
    rw [List.getElem?_map, List.getElem?_map]
    by_cases hs : s < nsens
    · obtain ⟨r, h1, h2, _⟩ := ha.2 s hs
      obtain ⟨r', h1', h2', _⟩ := hb.2 s hs
      rw [h1, h1', Option.map_some, Option.map_some, h2, h2']
    · rw [List.getElem?_eq_none (by rw [ha.1]; omega), List.getElem?_eq_none (by rw [hb.1]; omega)]
  refine ⟨_, by rw [addWfs, if_pos hl], by simp [ha.1, hb.1], ?_⟩
  intro s hs
  obtain ⟨r, h1, h2, h3⟩ := ha.2 s hs
  obtain ⟨r', h1', h2', h3'⟩ := hb.2 s hs
  refine ⟨List.zipWith (· + ·) r r', by rw [List.getElem?_zipWith, h1, h1'], by simp [h2, h2'], ?_⟩
  intro i hi
  have e := h3 i hi
  have e' := h3' i hi
  rw [List.getD_eq_getElem?_getD, List.getElem?_eq_getElem (by omega), Option.getD_some] at e e'
  rw [List.getD_eq_getElem?_getD, List.getElem?_zipWith, List.getElem?_eq_getElem (by omega), List.getElem?_eq_getElem (by omega)]
  simp only [Option.getD_some]
  rw [e, e']

theorem sum_zip {α : Type} (g : ℚ × ℚ → ℚ) : ∀ (l : List α) (t v : α → ℚ), ((l.map t).zip (l.map v)).map g = l.map fun x => g (t x, v x)
  | [], _, _ => rfl
  | a :: l, t, v => by simp [sum_zip g l t v]

theorem scint_nonneg {p : Pars} (h : ∀ i, 0 ≤ p.frac i) (buffer bin : ℚ) (i : Nat) : 0 ≤ scint p.frac p.limit buffer bin i := by
  unfold scint; split
  · exact h i
  · exact le_refl _

theorem s1Mean_nonneg {p : Pars} {photons : List Nat} {table : List (List ℚ)} {hits : List MCHit} (ht : ∀ row ∈ table, ∀ v ∈ row, 0 ≤ v)
    (hf : ∀ i, 0 ≤ p.frac i) (tmin : ℚ) (n s b : Nat) : 0 ≤ s1Mean p photons table hits tmin n s b := by
  apply List.sum_nonneg
  intro x hx
  obtain ⟨i, _, rfl⟩ := List.mem_map.1 hx
  apply List.sum_nonneg
  intro x hx
  obtain ⟨a, _, rfl⟩ := List.mem_map.1 hx
  split
  · have hv : 0 ≤ (table.getD i []).getD s 0 := by
      rw [List.getD_eq_getElem?_getD, List.getD_eq_getElem?_getD]
      cases h1 : table[i]? with
      | none => simp
      | some row =>
        rw [Option.getD_some]
        cases h2 : row[s]? with
        | none => simp
        | some v => exact ht row (List.mem_of_getElem? h1) v (List.mem_of_getElem? h2)
    exact mul_nonneg (mul_nonneg (by positivity) hv) (scint_nonneg hf _ _ _)
  · exact le_refl _

theorem range_map_getD {α β : Type} (l : List α) (d : α) (f : α → β) : (List.range l.length).map (fun i : Nat => f (l.getD i d)) = l.map f := by
  apply List.ext_getElem?
  intro i
  rw [List.getElem?_map, List.getElem?_map]
  by_cases hi : i < l.length
  · rw [List.getElem?_range hi, List.getElem?_eq_getElem hi, Option.map_some, Option.map_some, List.getD_eq_getElem?_getD, List.getElem?_eq_getElem hi, Option.getD_some]
  · rw [List.getElem?_eq_none (by simpa using hi), List.getElem?_eq_none (by simpa using hi)]; rfl

/-- The S1 of an event. -/
theorem s1_ok {p : Pars} {m k : Nat} {T : List (ℚ × ℚ × ℚ) → List (List ℚ)} (hp : p.Good m k T) (d : Draws) (hits : List MCHit)
    (hph : d.photons.length = hits.length) (tmin : ℚ) (n : Nat) :
    ∃ out, s1Wfs p d hits tmin (n * p.pmtW) = .ok out ∧
      Wfs out p.npmt n fun s b => (d.s1 s b (s1Mean p d.photons (T (hits.map fun h => (h.x, h.y, h.z))) hits tmin n s b) : ℚ) := by
  obtain ⟨h1, h2, h3⟩ := hp.table (hits.map fun h => (h.x, h.y, h.z))
  generalize T (hits.map fun h => (h.x, h.y, h.z)) = table at h1 h2 h3
  rw [List.length_map] at h2
  have hlenw : ∀ w ∈ s1Pes (d.photons.map fun n : Nat => (n : ℚ)) table p.npmt, w.length = (hits.map (·.time)).length := by
    intro w hw
    obtain ⟨j, _, rfl⟩ := List.mem_map.1 hw
    simp [hph, h2]
  have hposw : ∀ w ∈ s1Pes (d.photons.map fun n : Nat => (n : ℚ)) table p.npmt, ∀ v ∈ w, 0 ≤ v := by
    intro w hw v hv
    obtain ⟨j, _, rfl⟩ := List.mem_map.1 hw
    obtain ⟨i, hi⟩ := List.mem_iff_getElem?.1 hv
    rw [List.getElem?_zipWith] at hi
    cases ha : (d.photons.map fun n : Nat => (n : ℚ))[i]? with
    | none => rw [ha] at hi; simp at hi
    | some q =>
      cases hb : table[i]? with
      | none => rw [ha, hb] at hi; simp at hi
      | some row =>
        rw [ha, hb] at hi
        simp only [Option.some.injEq] at hi
        rw [← hi]
        rw [List.getElem?_map] at ha
        obtain ⟨c, _, rfl⟩ := Option.map_eq_some_iff.1 ha
        refine mul_nonneg (by positivity) ?_
        rw [List.getD_eq_getElem?_getD]
        cases hc : row[j]? with
        | none => simp
        | some v => exact h3 row (List.mem_of_getElem? hb) v (List.mem_of_getElem? hc)
  have hne : s1Pes (d.photons.map fun n : Nat => (n : ℚ)) table p.npmt ≠ [] := by
    intro h
    have := congrArg List.length h
    simp only [s1Pes, List.length_map, List.length_range, List.length_nil] at this
    have := hp.npmt.1; omega
  obtain ⟨w, hw, hl, hspec⟩ := s1_bins p.frac hp.width hp.scint.1 n tmin _ (hits.map (·.time)) hne hlenw hposw
  have hwfs : Wfs w p.npmt n fun s b => s1Mean p d.photons table hits tmin n s b := by
    refine ⟨by rw [hl]; simp [s1Pes], ?_⟩
    intro s hs
    obtain ⟨row, hr, hrl, hrb⟩ := hspec s _ (by rw [s1Pes, List.getElem?_map, List.getElem?_range hs]; rfl)
    refine ⟨row, hr, hrl, ?_⟩
    intro b hb
    rw [hrb b hb]
    have e1 : (hits.map (·.time)) = (List.range hits.length).map fun i : Nat => (hits.map (·.time)).getD i 0 := by
      have := range_map_getD (hits.map (·.time)) 0 id
      simpa using this.symm
    have e2 : List.zipWith (fun n row => n * row.getD s 0) (d.photons.map fun n : Nat => (n : ℚ)) table =
        (List.range hits.length).map fun i : Nat => (d.photons.getD i 0 : ℚ) * (table.getD i []).getD s 0 := by
      apply List.ext_getElem?
      intro i
      by_cases hi : i < hits.length
      · have hi1 : i < d.photons.length := by omega
        have hi2 : i < table.length := by omega
        rw [List.getElem?_zipWith, List.getElem?_map, List.getElem?_map, List.getElem?_range hi, List.getElem?_eq_getElem hi1, List.getElem?_eq_getElem hi2]
        simp [List.getD_eq_getElem?_getD, hi1, hi2]
      · rw [List.getElem?_eq_none (by simp; omega), List.getElem?_eq_none (by simp; omega)]
    beta_reduce
    rw [e2]
    conv_lhs => rw [e1]
    rw [sum_zip]
    rfl
  obtain ⟨out, ho, hwo⟩ := poisson_ok hwfs (fun s _ b _ => s1Mean_nonneg h3 hp.scint.2 _ _ _ _) d.s1
  refine ⟨out, ?_, hwo⟩
  simp only [s1Wfs, h1, hw, ho]

/-- The S2 of an event. -/
theorem s2_ok {lt : LightTable} {dv w : ℚ} (g : Geometry lt dv w) (hv : ∀ x y s vals, lt.values x y s = some vals → ∀ v ∈ vals, 0 ≤ v)
    (draw : Nat → Nat → ℚ → Nat) (es : List ElElectron) (hph : ∀ e ∈ es, 0 ≤ e.ph) {tmin : ℚ} (ht : ∀ e ∈ es, tmin ≤ e.t) (n : Nat) :
    ∃ out, s2Wfs lt dv w draw es tmin (n * w) = .ok out ∧ Wfs out lt.nsens n fun s b => (draw s b (s2Mean lt dv w tmin es n s b) : ℚ) := by
  have hn : numBins (n * w) w = n := by
    unfold numBins; rw [mul_div_cancel_right₀ _ g.bin.ne']; simp
  obtain ⟨raw, h1, h2, h3⟩ := raw_bins g (n * w) tmin (es.map toElectron) (by
    intro e he; obtain ⟨x, hx, rfl⟩ := List.mem_map.1 he; exact ht x hx)
  rw [hn] at h2 h3
  have hlight : ∀ s < lt.nsens, ∀ b < n, (raw.getD s []).getD b 0 = gapLight lt dv w tmin es s b := by
    intro s hs b hb
    rw [h3 s hs b hb, gapLight, List.map_map]; rfl
  have hpos : ∀ s b, 0 ≤ gapLight lt dv w tmin es s b := by
    intro s b
    have := row_nonneg (lt := lt) (dv := dv) (bin := w) (tmin := tmin) (es := es.map toElectron) (by
      intro e he s k
      obtain ⟨x, hx, rfl⟩ := List.mem_map.1 he
      exact seen_nonneg hv (hph x hx) s k) s b
    rw [List.map_map] at this
    exact this
  have hwfs : Wfs (smearWfs (nsmear lt dv w) raw) lt.nsens n fun s b => s2Mean lt dv w tmin es n s b := by
    have hk : nsmear lt dv w = crossing lt dv w := rfl
    rw [hk]
    have hraw : ∀ s < lt.nsens, raw[s]? = some (raw.getD s []) := by
      intro s hs
      have : s < raw.length := by rw [h2.1]; exact hs
      rw [List.getD_eq_getElem?_getD, List.getElem?_eq_getElem this]; rfl
    by_cases hc : 1 < crossing lt dv w
    · refine ⟨by rw [smearWfs, if_pos hc, List.length_map, h2.1], ?_⟩
      intro s hs
      obtain ⟨hl, hb⟩ := spread_bins (raw.getD s []) (crossing lt dv w / 2) (crossing lt dv w - crossing lt dv w / 2) (by omega)
      rw [h2.2 s hs] at hl hb
      refine ⟨_, by rw [smearWfs, if_pos hc, List.getElem?_map, hraw s hs]; rfl, hl, ?_⟩
      intro b hbn
      beta_reduce
      rw [hb b hbn, s2Mean, if_neg (by omega)]
      congr 1
      apply List.map_congr_left
      intro h hh
      rw [hlight s hs h (List.mem_range.1 hh), max_eq_right (hpos s h)]
      congr 4
      omega
    · refine ⟨by rw [smearWfs, if_neg hc, h2.1], ?_⟩
      intro s hs
      refine ⟨_, by rw [smearWfs, if_neg hc]; exact hraw s hs, h2.2 s hs, ?_⟩
      intro b hb
      beta_reduce
      rw [hlight s hs b hb, s2Mean, if_pos (by omega)]
  have hpos2 : ∀ s b, 0 ≤ s2Mean lt dv w tmin es n s b := by
    intro s b
    unfold s2Mean
    split
    · exact hpos s b
    · apply List.sum_nonneg
      intro x hx
      obtain ⟨h, _, rfl⟩ := List.mem_map.1 hx
      split
      · exact div_nonneg (hpos s h) (by positivity)
      · exact le_refl _
  obtain ⟨out, ho, hwo⟩ := poisson_ok hwfs (fun s _ b _ => hpos2 s b) draw
  refine ⟨out, ?_, hwo⟩
  simp only [s2Wfs, createWfs, h1, ho]

/-! ### The span of the data -/

section
variable {p : Pars} {m k : Nat} {T : List (ℚ × ℚ × ℚ) → List (List ℚ)}

theorem Pars.Good.sw (hp : p.Good m k T) : 0 < p.sipmW := hp.sipm.bin

theorem Pars.Good.le (hp : p.Good m k T) : max p.pmtW p.sipmW = p.sipmW := by
  apply max_eq_right
  rw [hp.ratio.2]
  have : (1 : ℚ) ≤ m := by exact_mod_cast hp.ratio.1
  nlinarith [hp.width]

theorem span_ok (hp : p.Good m k T) {hits : List MCHit} {es : List ElElectron} (hh : hits ≠ []) (he : es ≠ [])
    (hearly : ∀ e ∈ es, ∃ h ∈ hits, ⌊h.time / p.sipmW⌋ * p.sipmW ≤ e.t) :
    ∃ tmin n, bufferTimes p.pmtW p.sipmW p.ltSipm.elGap p.elDv p.maxTime (hits.map (·.time)) (es.map (·.t)) = .ok (tmin, (n : Nat) * p.sipmW) ∧
      IsSpan p hits es tmin n ∧ 0 < n ∧ n ≤ k ∧ ∀ e ∈ es, tmin ≤ e.t := by
  have hsw := hp.sw
  obtain ⟨t0, h0⟩ : ∃ t0, minOf (hits.map (·.time)) = .ok t0 := by
    obtain ⟨a, l, rfl⟩ := List.exists_cons_of_ne_nil hh; exact ⟨_, rfl⟩
  obtain ⟨t1, h1⟩ : ∃ t1, maxOf (es.map (·.t)) = .ok t1 := by
    obtain ⟨a, l, rfl⟩ := List.exists_cons_of_ne_nil he; exact ⟨_, rfl⟩
  obtain ⟨hm0, hm1⟩ := minOf_spec h0
  obtain ⟨hM0, hM1⟩ := maxOf_spec h1
  obtain ⟨f, hf, rfl⟩ := List.mem_map.1 hm0
  obtain ⟨l, hl, rfl⟩ := List.mem_map.1 hM0
  have hmin : ∀ e ∈ es, ⌊f.time / p.sipmW⌋ * p.sipmW ≤ e.t := by
    intro e hee
    obtain ⟨h, hhm, hle⟩ := hearly e hee
    refine le_trans ?_ hle
    have h2 : f.time ≤ h.time := hm1 _ (List.mem_map.2 ⟨h, hhm, rfl⟩)
    have h3 : ⌊f.time / p.sipmW⌋ ≤ ⌊h.time / p.sipmW⌋ := Int.floor_le_floor ((div_le_div_iff_of_pos_right hsw).2 h2)
    have h4 : (⌊f.time / p.sipmW⌋ : ℚ) ≤ ⌊h.time / p.sipmW⌋ := by exact_mod_cast h3
    exact mul_le_mul_of_nonneg_right h4 hsw.le
  have hgap : 0 < p.ltSipm.elGap / p.elDv := div_pos hp.sipm.gap hp.sipm.dv
  obtain ⟨c, hc⟩ : ∃ c : Int, c = ⌈(l.t + p.ltSipm.elGap / p.elDv) / p.sipmW⌉ - ⌊f.time / p.sipmW⌋ := ⟨_, rfl⟩
  have hcpos : 0 < c := by
    have h2 : (⌊f.time / p.sipmW⌋ : ℚ) < (l.t + p.ltSipm.elGap / p.elDv) / p.sipmW := by
      rw [lt_div_iff₀ hsw]; linarith [hmin l hl]
    have := Int.lt_ceil.2 h2
    omega
  have hnq : ((min k c.toNat : Nat) : ℚ) * p.sipmW = min p.maxTime (⌈(l.t + p.ltSipm.elGap / p.elDv) / p.sipmW⌉ * p.sipmW - ⌊f.time / p.sipmW⌋ * p.sipmW) := by
    have e1 : (⌈(l.t + p.ltSipm.elGap / p.elDv) / p.sipmW⌉ : ℚ) * p.sipmW - ⌊f.time / p.sipmW⌋ * p.sipmW = (c.toNat : ℚ) * p.sipmW := by
      have : ((c.toNat : Int) : ℚ) = (c : ℚ) := by rw [Int.toNat_of_nonneg hcpos.le]
      have e2 : (c.toNat : ℚ) = (c : ℚ) := by exact_mod_cast this
      rw [e2, hc]; push_cast; ring
    rw [e1, hp.time.2, ← min_mul_of_nonneg _ _ hsw.le]
    push_cast; rfl
  refine ⟨⌊f.time / p.sipmW⌋ * p.sipmW, min k c.toNat, ?_, ⟨⟨f, hf, fun g hg => hm1 _ (List.mem_map.2 ⟨g, hg, rfl⟩), rfl⟩, l, hl,
    fun g hg => hM1 _ (List.mem_map.2 ⟨g, hg, rfl⟩), hnq⟩, ?_, min_le_left _ _, hmin⟩
  · rw [hnq]; simp only [bufferTimes, h0, h1, hp.le]
  · have := hp.time.1; omega

/-! ### The buffers -/

theorem charge_out {pmt : List (List ℚ)} {nsens n : Nat} {f : Nat → Nat → ℚ} (h : Wfs pmt nsens n f) {i : Nat} (hi : n ≤ i) : charge pmt i = 0 := by
  apply List.sum_eq_zero
  intro x hx
  obtain ⟨r, hr, rfl⟩ := List.mem_map.1 hx
  rw [List.getD_eq_getElem?_getD, List.getElem?_eq_none (by rw [h.mem hr]; exact hi)]; rfl

theorem ncols_eq {wfs : List (List ℚ)} {nsens n : Nat} {f : Nat → Nat → ℚ} (h : Wfs wfs nsens n f) (hs : 0 < nsens) : ncols wfs = n := by
  obtain ⟨row, h1, h2, _⟩ := h.2 0 hs
  cases wfs with
  | nil => simp at h1
  | cons a l => simp only [List.getElem?_cons_zero, Option.some.injEq] at h1; rw [ncols, List.headD_cons, h1, h2]

theorem binTimes_get {wfs : List (List ℚ)} {nsens n : Nat} {f : Nat → Nat → ℚ} (h : Wfs wfs nsens n f) (hs : 0 < nsens) (w : ℚ) :
    (binTimes wfs w).length = n ∧ ∀ i < n, (binTimes wfs w)[i]? = some ((i : ℚ) * w) := by
  simp only [binTimes, ncols_eq h hs]
  refine ⟨by simp, fun i hi => ?_⟩
  rw [List.getElem?_map, List.getElem?_range hi]; rfl

theorem slice_ok (hp : p.Good m k T) {pmt sipm : List (List ℚ)} {n : Nat} {f g : Nat → Nat → ℚ} (hP : Wfs pmt p.npmt (n * m) f)
    (hS : Wfs sipm p.ltSipm.nsens n g) {i : Nat} (hi : i < n * m) :
    ∃ b, generateSlice p.bufferLen p.preTrigger p.pmtW p.sipmW i (binTimes pmt p.pmtW) pmt (binTimes sipm p.sipmW) sipm = .ok b ∧
      IsWindow pmt ((i / m * m : Nat) - ⌊p.preTrigger / p.pmtW⌋) ⌊p.bufferLen / p.pmtW⌋.toNat b.1 ∧
      IsWindow sipm ((i / m : Nat) - ⌊p.preTrigger / p.sipmW⌋) ⌊p.bufferLen / p.sipmW⌋.toNat b.2 := by
  have hsw := hp.sw
  have hm := hp.ratio.1
  obtain ⟨hlP, hbP⟩ := binTimes_get hP hp.npmt.1 p.pmtW
  obtain ⟨hlS, hbS⟩ := binTimes_get hS hp.nsipm p.sipmW
  have hn : 0 < n := by
    rcases Nat.eq_zero_or_pos n with h | h
    · subst h; omega
    · exact h
  have hle : ∀ a b : Nat, ((a : ℚ) * p.sipmW ≤ (b : ℚ) * p.pmtW ↔ a * m ≤ b) := by
    intro a b
    rw [hp.ratio.2, ← mul_assoc, mul_le_mul_iff_left₀ hp.width]
    exact_mod_cast Iff.rfl
  have hPne : pmt ≠ [] := by rintro rfl; have := hP.1; have := hp.npmt.1; simp at *; omega
  have hSne : sipm ≠ [] := by rintro rfl; have := hS.1; have := hp.nsipm; simp at *; omega
  obtain ⟨bp, bs, gi, tg, hg, hgt, htg, hmax, hwS, hwP⟩ := generateSlice_spec p.bufferLen p.preTrigger p.pmtW p.sipmW i (binTimes pmt p.pmtW) pmt
    (binTimes sipm p.sipmW) sipm _ _ hp.width hsw hp.pre (by linarith [hp.room]) (hbP i hi) (hbS 0 hn) ((hle 0 i).2 (by omega))
    (fun r hr => by rw [hP.mem hr, hlP]) (fun r hr => by rw [hS.mem hr, hlS]) hPne hSne
  have hgN : gi < n := by have := (List.getElem?_eq_some_iff.1 hgt).1; omega
  have htge : tg = (gi : ℚ) * p.sipmW := by rw [hbS gi hgN] at hgt; exact (Option.some.inj hgt).symm
  have hlo : gi * m ≤ i := by rw [htge, hle] at htg; exact htg
  have hhi : i < (gi + 1) * m := by
    by_cases hlast : gi + 1 < n
    · by_contra hcon
      push Not at hcon
      have := hmax (gi + 1) _ (hbS (gi + 1) hlast) (by rw [hle]; exact hcon)
      omega
    · have : gi + 1 = n := by omega
      rw [this]; exact hi
  have hdiv : i / m = gi := by
    rw [Nat.div_eq_iff hm]
    constructor
    · exact hlo
    · rw [Nat.add_mul] at hhi; omega
  have hcorr : ⌊((i : ℚ) * p.pmtW - tg) / p.pmtW⌋ = (i : Int) - gi * m := by
    have : ((i : ℚ) * p.pmtW - tg) / p.pmtW = ((i - gi * m : Int) : ℚ) := by
      rw [htge, hp.ratio.2, div_eq_iff hp.width.ne']; push_cast; ring
    rw [this, Int.floor_intCast]
  rw [hcorr] at hwP
  refine ⟨(bp, bs), hg, ?_, ?_⟩
  · have h1 : (i - gi * m : Int) ≤ i + ⌊p.bufferLen / p.pmtW⌋ - ⌊p.preTrigger / p.pmtW⌋ := by
      have h2 : ⌊p.preTrigger / p.pmtW⌋ + (m : Int) ≤ ⌊p.bufferLen / p.pmtW⌋ := by
        rw [← Int.floor_add_intCast]
        apply Int.floor_le_floor
        rw [le_div_iff₀ hp.width, add_mul, div_mul_cancel₀ _ hp.width.ne']
        have := hp.room
        rw [hp.ratio.2] at this
        push_cast; linarith
      have h3 : (0 : Int) ≤ (gi : Int) * m := by positivity
      omega
    have h2 := hwP h1
    rw [hdiv]
    have e : (i : Int) - ⌊p.preTrigger / p.pmtW⌋ - (i - gi * m) = ((gi * m : Nat) : Int) - ⌊p.preTrigger / p.pmtW⌋ := by push_cast; ring
    rw [← e]; exact h2
  · rw [hdiv]; exact hwS

theorem buffers_ok (hp : p.Good m k T) {pmt sipm : List (List ℚ)} {n : Nat} {f g : Nat → Nat → ℚ} (hP : Wfs pmt p.npmt (n * m) f)
    (hS : Wfs sipm p.ltSipm.nsens n g) (timestamp : ℚ) (trg : List Nat) (ht : ∀ i ∈ trg, i < n * m) :
    ∃ times bufs, buffers p timestamp trg pmt sipm = .ok (.triggered times bufs) ∧ times.length = trg.length ∧ bufs.length = trg.length ∧
      ∀ (j : Nat) i t b, trg[j]? = some i → times[j]? = some t → bufs[j]? = some b → IsBuffer p m timestamp pmt sipm i t b := by
  have hbins := binTimes_get hP hp.npmt.1 p.pmtW
  have hall : ∀ l : List Nat, (∀ i ∈ l, i < n * m) → ∃ ts bufs, npTake (binTimes pmt p.pmtW) l = .ok ts ∧
      positionSignal p.bufferLen p.preTrigger p.pmtW p.sipmW l (binTimes pmt p.pmtW) pmt (binTimes sipm p.sipmW) sipm = .ok bufs ∧
      ts.length = l.length ∧ bufs.length = l.length ∧
      ∀ (j : Nat) i t b, l[j]? = some i → ts[j]? = some t → bufs[j]? = some b → IsBuffer p m timestamp pmt sipm i (timestamp + t) b := by
    intro l
    induction l with
    | nil => intro _; exact ⟨[], [], rfl, rfl, rfl, rfl, by simp⟩
    | cons a l ih =>
      intro hl
      obtain ⟨ts, bufs, h1, h2, h3, h4, h5⟩ := ih (fun i hi => hl i (by simp [hi]))
      obtain ⟨b, hb, hwP, hwS⟩ := slice_ok hp hP hS (hl a (by simp))
      have ha := hbins.2 a (hl a (by simp))
      refine ⟨(a : ℚ) * p.pmtW :: ts, b :: bufs, ?_, ?_, by simp [h3], by simp [h4], ?_⟩
      · simp only [npTake, List.mapM_cons, ha] at h1 ⊢; rw [h1]; rfl
      · simp only [positionSignal, List.mapM_cons, hb] at h2 ⊢; rw [h2]; rfl
      · intro j i t b' hj ht' hb'
        cases j with
        | zero =>
          simp only [List.getElem?_cons_zero, Option.some.injEq] at hj ht' hb'
          subst hj ht' hb'; exact ⟨rfl, hwP, hwS⟩
        | succ j =>
          simp only [List.getElem?_cons_succ] at hj ht' hb'
          exact h5 j i t b' hj ht' hb'
  obtain ⟨ts, bufs, h1, h2, h3, h4, h5⟩ := hall trg ht
  refine ⟨ts.map (timestamp + ·), bufs, ?_, by simpa using h3, h4, ?_⟩
  · simp only [buffers, triggerTimes, h1, Except.map, h2]
  · intro j i t b hj ht' hb
    rw [List.getElem?_map] at ht'
    obtain ⟨t', ht2, rfl⟩ := Option.map_eq_some_iff.1 ht'
    exact h5 j i t' b hj ht2 hb

theorem signal_ok (hp : p.Good m k T) {pmt sipm : List (List ℚ)} {n : Nat} {f g : Nat → Nat → ℚ} (hP : Wfs pmt p.npmt (n * m) f)
    (hS : Wfs sipm p.ltSipm.nsens n g) (timestamp : ℚ) :
    ∃ trg : List Nat, trg.Pairwise (· < ·) ∧ (∀ i, i ∈ trg ↔ Trigger p pmt i) ∧
      ((trg = [] ∧ signal p timestamp pmt sipm = .ok .noSignal) ∨
       (trg ≠ [] ∧ ∃ times bufs, signal p timestamp pmt sipm = .ok (.triggered times bufs) ∧ times.length = trg.length ∧ bufs.length = trg.length ∧
        ∀ (j : Nat) i t b, trg[j]? = some i → times[j]? = some t → bufs[j]? = some b → IsBuffer p m timestamp pmt sipm i t b)) := by
  obtain ⟨trg, htrg, hsort, hmem⟩ := findSignalStart_spec ⟨pmt, ncols pmt⟩ p.thr ⌊p.bufferLen / p.pmtW⌋.toNat
  have habove : ∀ i, Above ⟨pmt, ncols pmt⟩ p.thr i ↔ p.thr < charge pmt i := by
    intro i
    simp only [Above, ncols_eq hP hp.npmt.1]
    constructor
    · exact fun h => h.2
    · intro h
      refine ⟨?_, h⟩
      by_contra hc
      rw [charge_out hP (by omega)] at h
      exact absurd h (not_lt.2 hp.thr)
  simp only [habove] at hmem
  have hev : signal p timestamp pmt sipm = if trg = [] then .ok .noSignal else buffers p timestamp trg pmt sipm := by
    simp only [signal, signalFinder, htrg]
  refine ⟨trg, hsort, hmem, ?_⟩
  by_cases he : trg = []
  · left; exact ⟨he, by rw [hev, if_pos he]⟩
  · right
    have hlt : ∀ i ∈ trg, i < n * m := by
      intro i hi
      have := ((habove i).2 ((hmem i).1 hi).1).1
      rwa [ncols_eq hP hp.npmt.1] at this
    obtain ⟨times, bufs, h1, h2, h3, h4⟩ := buffers_ok hp hP hS timestamp trg hlt
    exact ⟨he, times, bufs, by rw [hev, if_neg he, h1], h2, h3, h4⟩

/-! ### The event -/

variable {d : Draws} {ev : Event} {f : MCHit} {a b : String} {es : List ElElectron}

theorem light_ok (hp : p.Good m k T) {hits : List MCHit} (hh : hits ≠ []) (he : es ≠ []) (hph : ∀ e ∈ es, 0 ≤ e.ph)
    (hearly : ∀ e ∈ es, ∃ h ∈ hits, ⌊h.time / p.sipmW⌋ * p.sipmW ≤ e.t) (hs1 : d.photons.length = hits.length) (timestamp : ℚ) :
    ∃ tmin n pmt sipm, IsSpan p hits es tmin n ∧ 0 < n ∧ n ≤ k ∧ Simulated p m T d hits es tmin n pmt sipm ∧
      light p d timestamp hits es = signal p timestamp pmt sipm := by
  obtain ⟨tmin, n, hb, hspan, hn, hnk, htmin⟩ := span_ok hp hh he hearly
  obtain ⟨o1, h1, hw1⟩ := s1_ok hp d hits hs1 tmin (n * m)
  obtain ⟨o2, h2, hw2⟩ := s2_ok hp.pmt hp.pmtValues d.s2 es hph htmin (n * m)
  obtain ⟨o3, h3, hw3⟩ := s2_ok hp.sipm hp.sipmValues d.sipm es hph htmin n
  rw [hp.npmt.2] at hw2
  obtain ⟨pmt, h4, hw4⟩ := add_ok hw1 hw2
  have hlen : (n : ℚ) * p.sipmW = ((n * m : Nat) : ℚ) * p.pmtW := by rw [hp.ratio.2]; push_cast; ring
  refine ⟨tmin, n, pmt, o3, hspan, hn, hnk, ⟨hw4, hw3⟩, ?_⟩
  rw [← hlen] at h1 h2
  simp only [light, hb, pmtWfs, h1, h2, h4, h3]

theorem label_ok {name c : String} (h : match ev.names with | none => c = name | some tab => NumberOf tab name c) : volumeLabel ev.names name = .ok c := by
  cases hn : ev.names with
  | none => rw [hn] at h; simp only [volumeLabel]; rw [h]
  | some tab => rw [hn] at h; exact (volumeLabel_iff tab name c).2 h

theorem labels_ok (h : Labels ev a b) : volumeLabel ev.names "ACTIVE" = .ok a ∧ volumeLabel ev.names "BUFFER" = .ok b := by
  unfold Labels at h
  constructor <;> apply label_ok <;> cases hn : ev.names <;> rw [hn] at h
  · exact h.1
  · exact h.1
  · exact h.2
  · exact h.2

theorem delayed_ok (hf : IsFirst ev f) : filterDelayed p.maxTime ev.hits = .ok (ev.hits.filter fun h => decide (h.time < f.time + p.maxTime)) := by
  have hne : ev.hits ≠ [] := List.ne_nil_of_mem hf.1
  obtain ⟨kept, hk⟩ := (delayed_hits_total p.maxTime ev.hits).2 hne
  obtain ⟨g, hg, hmin, hkept⟩ := delayed_hits hk
  have : g.time = f.time := le_antisymm (hmin f hf.1) (hf.2 g hg)
  rw [hk, hkept, this]

theorem event_eq (hl : Labels ev a b) (hf : IsFirst ev f) :
    event p d ev = if ∃ h ∈ activeHits p ev f a, h.energy ≠ 0 then active p d ev.timestamp (usedHits p ev f a b) (activeHits p ev f a) else .ok .noActive := by
  obtain ⟨ha, hb⟩ := labels_ok hl
  have e1 : selectHits false ev.names (ev.hits.filter fun h => decide (h.time < f.time + p.maxTime)) = .ok (usedHits p ev f a b) := by
    simp only [selectHits, ha, hb, List.filter_filter, usedHits]
    congr 1
    apply List.filter_congr
    intro h _
    by_cases h1 : h.time < f.time + p.maxTime <;> by_cases h2 : h.label = a <;> by_cases h3 : h.label = b <;> simp [h1, h2, h3]
  have e2 : selectHits true ev.names (usedHits p ev f a b) = .ok (activeHits p ev f a) := by
    simp only [selectHits, ha, hb, List.filter_filter, usedHits, activeHits]
    congr 1
    apply List.filter_congr
    intro h _
    by_cases h1 : h.time < f.time + p.maxTime <;> by_cases h2 : h.label = a <;> by_cases h3 : h.label = b <;> simp [h1, h2, h3]
  simp only [event, delayed_ok hf, e1, e2]

/-- C109. An event without energy in the active volume, in the maximum time after its first hit, gives nothing. -/
theorem no_energy (hl : Labels ev a b) (hf : IsFirst ev f) (h : ∀ h ∈ activeHits p ev f a, h.energy = 0) : event p d ev = .ok .noActive := by
  rw [event_eq hl hf, if_neg]
  rintro ⟨x, hx, hne⟩
  exact hne (h x hx)

/-- C109. Nor one in which no electron that reaches the EL emits light. -/
theorem no_light (hl : Labels ev a b) (hf : IsFirst ev f) (h : ∃ h ∈ activeHits p ev f a, h.energy ≠ 0) (hd : Drawn p d ev f a b es)
    (hno : ∀ e ∈ es, e.ph = 0) : event p d ev = .ok .dark := by
  rw [event_eq hl hf, if_pos h]
  have : ¬ 0 < (es.map (·.ph)).sum := by
    rw [List.sum_eq_zero]
    · simp
    · intro x hx; obtain ⟨e, he, rfl⟩ := List.mem_map.1 hx; exact hno e he
  simp only [active, hd.electrons, if_neg this]

/-- C109. Any other event has waveforms with the light of its hits and electrons: from the SiPM sample of the first hit used to that in which the last electron leaves the EL gap, or the maximum
time; each sample of a PMT is what is drawn for its mean S1 plus what is drawn for its mean S2, and each sample of a SiPM what is drawn for its mean S2. Its triggers are the samples where
the charge of all the PMTs is above threshold with none like it in the buffer length before. Without any the event has no signal; otherwise it has, for each trigger in order, its time and the
waveforms of both planes from the pre-trigger before the SiPM sample of the trigger. -/
theorem event_spec (hp : p.Good m k T) (hl : Labels ev a b) (hf : IsFirst ev f) (h : ∃ h ∈ activeHits p ev f a, h.energy ≠ 0) (hd : Drawn p d ev f a b es)
    (hlight : ∃ e ∈ es, 0 < e.ph) :
    ∃ tmin n pmt sipm, IsSpan p (usedHits p ev f a b) es tmin n ∧ 0 < n ∧ n ≤ k ∧ Simulated p m T d (usedHits p ev f a b) es tmin n pmt sipm ∧
      ∃ trg : List Nat, trg.Pairwise (· < ·) ∧ (∀ i, i ∈ trg ↔ Trigger p pmt i) ∧
      ((trg = [] ∧ event p d ev = .ok .noSignal) ∨
       (trg ≠ [] ∧ ∃ times bufs, event p d ev = .ok (.triggered times bufs) ∧ times.length = trg.length ∧ bufs.length = trg.length ∧
        ∀ (j : Nat) i t b, trg[j]? = some i → times[j]? = some t → bufs[j]? = some b → IsBuffer p m ev.timestamp pmt sipm i t b)) := by
  obtain ⟨e, he, hepos⟩ := hlight
  have hsum : 0 < (es.map (·.ph)).sum := by
    have h1 := List.single_le_sum (l := es.map (·.ph)) (by
      intro x hx; obtain ⟨y, hy, rfl⟩ := List.mem_map.1 hx; exact hd.photons y hy) e.ph (List.mem_map.2 ⟨e, he, rfl⟩)
    omega
  have hu : usedHits p ev f a b ≠ [] := by
    obtain ⟨x, hx, _⟩ := hd.early e he; exact List.ne_nil_of_mem hx
  obtain ⟨tmin, n, pmt, sipm, h1, h2, h3, h4, h5⟩ := light_ok hp hu (List.ne_nil_of_mem he) hd.photons hd.early hd.s1 ev.timestamp
  have hev : event p d ev = signal p ev.timestamp pmt sipm := by
    rw [event_eq hl hf, if_pos h]
    simp only [active, hd.electrons, if_pos hsum, h5]
  obtain ⟨trg, h6, h7, h8⟩ := signal_ok hp h4.pmt h4.sipm ev.timestamp
  rw [hev]
  exact ⟨tmin, n, pmt, sipm, h1, h2, h3, h4, trg, h6, h7, h8⟩

/-- What can happen to an event detsim can process. -/
theorem event_cases (hp : p.Good m k T) (hv : Valid p d ev) :
    event p d ev = .ok .noActive ∨ event p d ev = .ok .dark ∨
      ∃ pmt sipm, IsEvent p m k T d ev pmt sipm ∧ event p d ev = signal p ev.timestamp pmt sipm ∧ (∃ n ≤ k, ∃ f g, Wfs pmt p.npmt (n * m) f ∧ Wfs sipm p.ltSipm.nsens n g) := by
  obtain ⟨f, a, b, hl, hf, hd⟩ := hv
  by_cases h : ∃ h ∈ activeHits p ev f a, h.energy ≠ 0
  · obtain ⟨es, hd⟩ := hd h
    by_cases hlight : ∃ e ∈ es, 0 < e.ph
    · obtain ⟨e, he, hepos⟩ := hlight
      have hsum : 0 < (es.map (·.ph)).sum := by
        have h1 := List.single_le_sum (l := es.map (·.ph)) (by
          intro x hx; obtain ⟨y, hy, rfl⟩ := List.mem_map.1 hx; exact hd.photons y hy) e.ph (List.mem_map.2 ⟨e, he, rfl⟩)
        omega
      have hu : usedHits p ev f a b ≠ [] := by
        obtain ⟨x, hx, _⟩ := hd.early e he; exact List.ne_nil_of_mem hx
      obtain ⟨tmin, n, pmt, sipm, h1, h2, h3, h4, h5⟩ := light_ok hp hu (List.ne_nil_of_mem he) hd.photons hd.early hd.s1 ev.timestamp
      refine Or.inr (Or.inr ⟨pmt, sipm, ⟨f, a, b, es, tmin, n, hl, hf, h, hd, ⟨e, he, hepos⟩, h1, h2, h3, h4⟩, ?_, n, h3, _, _, h4.pmt, h4.sipm⟩)
      rw [event_eq hl hf, if_pos h]
      simp only [active, hd.electrons, if_pos hsum, h5]
    · push Not at hlight
      exact Or.inr (Or.inl (no_light hl hf h hd fun e he => le_antisymm (hlight e he) (hd.photons e he)))
  · push Not at h
    exact Or.inl (no_energy hl hf h)

/-! ### A run -/

theorem count_bounded (hp : p.Good m k T) (hlen : p.bufferLen ≤ p.maxTime) {pmt sipm : List (List ℚ)} {n : Nat} {f g : Nat → Nat → ℚ} (hn : n ≤ k)
    (hP : Wfs pmt p.npmt (n * m) f) (hS : Wfs sipm p.ltSipm.nsens n g) (timestamp : ℚ) {times : List ℚ} {bufs : List (Mat × Mat)}
    (h : signal p timestamp pmt sipm = .ok (.triggered times bufs)) : times.length ≤ maxSubevt p.maxTime p.bufferLen := by
  have hB : 0 < p.bufferLen := by linarith [hp.room, hp.pre, hp.sw]
  obtain ⟨trg, htrg, hsort, hmem⟩ := findSignalStart_spec ⟨pmt, ncols pmt⟩ p.thr ⌊p.bufferLen / p.pmtW⌋.toNat
  have hcol := ncols_eq hP hp.npmt.1
  have hb := triggers_bounded p.bufferLen p.maxTime p.pmtW p.thr ⟨pmt, ncols pmt⟩ trg hp.width hB hlen (by
    show ((ncols pmt : ℚ) - 1) * p.pmtW ≤ p.maxTime
    rw [hcol, hp.time.2, hp.ratio.2]
    have h1 : (n : ℚ) ≤ k := by exact_mod_cast hn
    have h2 : (0 : ℚ) ≤ m := by positivity
    have h3 := hp.width
    push_cast
    nlinarith [mul_le_mul_of_nonneg_right h1 h2, mul_le_mul_of_nonneg_right (mul_le_mul_of_nonneg_right h1 h2) h3.le]) htrg
  obtain ⟨trg', hsort', hmem', hcase⟩ := signal_ok hp hP hS timestamp
  have htt : trg' = trg := by
    have hperm : trg'.Perm trg := (List.perm_ext_iff_of_nodup (hsort'.imp fun h => ne_of_lt h) (hsort.imp fun h => ne_of_lt h)).2 (by
      intro i
      rw [hmem', hmem]
      simp only [Above, hcol]
      constructor
      · rintro ⟨h1, h2⟩
        refine ⟨⟨?_, h1⟩, fun u hu => h2 u hu.2⟩
        by_contra hc
        rw [charge_out hP (by omega)] at h1
        exact absurd h1 (not_lt.2 hp.thr)
      · rintro ⟨⟨_, h1⟩, h2⟩
        refine ⟨h1, fun u hu => h2 u ⟨?_, hu⟩⟩
        by_contra hc
        rw [charge_out hP (by omega)] at hu
        exact absurd hu (not_lt.2 hp.thr))
    exact hperm.eq_of_pairwise (fun a b _ _ h1 h2 => absurd h1 (not_lt.2 h2.le)) hsort' hsort
  subst htt
  rcases hcase with ⟨_, h'⟩ | ⟨_, ts, bs, h', h1, _⟩
  · rw [h'] at h; cases h
  · rw [h'] at h; cases h; omega

/-- C109. A run over events with hits never fails: if the events have different numbers, those of the buffers are all different, their nexus event is the quotient by the maximum number of buffers
per event, and the rows of the tables are the triggers of the events, each with its number, its time and its buffers, at the same position of the four tables. -/
theorem run_spec (hp : p.Good m k T) (hlen : p.bufferLen ≤ p.maxTime) (runNumber : Nat) (evs : List (Event × Draws))
    (hv : ∀ x ∈ evs, Valid p x.2 x.1) (hnum : (evs.map (·.1.number)).Nodup) :
    ∃ t, run p runNumber evs = .ok t ∧ ((t.events.map (·.2.1)).Nodup ∧ ((evs.map (·.1.number)).Pairwise (· < ·) → (t.events.map (·.2.1)).Pairwise (· < ·))) ∧ t.events.map (·.2.1) = t.eventMap.map (·.1) ∧
      t.pmtrd.length = t.events.length ∧ t.sipmrd.length = t.events.length ∧
      (∀ row ∈ t.eventMap, row.2 = row.1 / maxSubevt p.maxTime p.bufferLen) ∧
      (∀ r < t.events.length, ∃ x ∈ evs, ∃ j i, TriggerRow p m k runNumber T t x.2 x.1 r j i) ∧
      ∀ x ∈ evs, event p x.2 x.1 = .ok .noActive ∨ event p x.2 x.1 = .ok .dark ∨
        ∃ pmt sipm, IsEvent p m k T x.2 x.1 pmt sipm ∧ ∀ ns : List Nat, ns.Pairwise (· < ·) → (∀ i, i ∈ ns ↔ Trigger p pmt i) → ∀ (j : Nat) i, ns[j]? = some i →
          ∃ r, TriggerRow p m k runNumber T t x.2 x.1 r j i := by
  have hok : ∀ x ∈ evs, ∃ y, withOutcome p x = .ok y := by
    intro x hx
    have : ∃ o, event p x.2 x.1 = .ok o := by
      rcases event_cases hp (hv x hx) with h | h | ⟨pmt, sipm, _, h, n, hn, f, g, hP, hS⟩
      · exact ⟨_, h⟩
      · exact ⟨_, h⟩
      · obtain ⟨_, _, _, ⟨_, h'⟩ | ⟨_, ts, bs, h', _⟩⟩ := signal_ok hp hP hS x.1.timestamp
        · exact ⟨_, h.trans h'⟩
        · exact ⟨_, h.trans h'⟩
    obtain ⟨o, ho⟩ := this
    exact ⟨_, by simp only [withOutcome, ho]; rfl⟩
  obtain ⟨outs, houts⟩ := mapM_ok hok
  have hf := mapM_ok_iff.1 houts
  have hnums : outs.map (·.1.number) = evs.map (·.1.number) := by
    clear houts hok hnum hv
    induction hf with
    | nil => rfl
    | @cons a b l₁ l₂ h _ ih =>
      unfold withOutcome at h
      cases he : event p a.2 a.1 with
      | error e => rw [he] at h; cases h
      | ok o => rw [he] at h; cases h; simp [ih]
  have hout : ∀ y ∈ outs, ∃ x ∈ evs, y.1 = x.1 ∧ event p x.2 x.1 = .ok y.2 := by
    intro y hy
    obtain ⟨x, hx, h⟩ := Binning.f2_right hf hy
    unfold withOutcome at h
    cases he : event p x.2 x.1 with
    | error e => rw [he] at h; cases h
    | ok o => rw [he] at h; cases h; exact ⟨x, hx, rfl, he⟩
  have hin : ∀ x ∈ evs, ∀ o, event p x.2 x.1 = .ok o → (x.1, o) ∈ outs := by
    intro x hx o ho
    obtain ⟨y, hy, h⟩ := Binning.f2_left hf hx
    simp only [withOutcome, ho] at h
    cases h; exact hy
  have htrig : ∀ e ∈ outs.filterMap toWrite, ∃ x ∈ evs, e.nexus = x.1.number ∧ event p x.2 x.1 = .ok (.triggered e.times e.buffers) := by
    intro e he
    obtain ⟨y, hy, hye⟩ := List.mem_filterMap.1 he
    obtain ⟨x, hx, h1, h2⟩ := hout y hy
    unfold toWrite at hye
    cases hy2 : y.2 with
    | noActive => rw [hy2] at hye; cases hye
    | dark => rw [hy2] at hye; cases hye
    | noSignal => rw [hy2] at hye; cases hye
    | triggered ts bs =>
      rw [hy2] at hye h2
      cases hye
      exact ⟨x, hx, by rw [h1], h2⟩
  have hspec : ∀ x ∈ evs, ∀ ts bs, event p x.2 x.1 = .ok (.triggered ts bs) → ts.length ≤ maxSubevt p.maxTime p.bufferLen ∧ ∃ pmt sipm, IsEvent p m k T x.2 x.1 pmt sipm ∧
      ∃ ns : List Nat, ns.Pairwise (· < ·) ∧ (∀ i, i ∈ ns ↔ Trigger p pmt i) ∧ ts.length = ns.length ∧ bs.length = ns.length ∧
        ∀ (j : Nat) i t b, ns[j]? = some i → ts[j]? = some t → bs[j]? = some b → IsBuffer p m x.1.timestamp pmt sipm i t b := by
    intro x hx ts bs h
    rcases event_cases hp (hv x hx) with h' | h' | ⟨pmt, sipm, hie, h', n, hn, f, g, hP, hS⟩
    · rw [h'] at h; cases h
    · rw [h'] at h; cases h
    · rw [h'] at h
      refine ⟨count_bounded hp hlen hn hP hS _ h, pmt, sipm, hie, ?_⟩
      obtain ⟨ns, h1, h2, ⟨_, h3⟩ | ⟨_, ts', bs', h3, h4, h5, h6⟩⟩ := signal_ok hp hP hS x.1.timestamp
      · rw [h3] at h; cases h
      · rw [h3] at h; cases h
        exact ⟨ns, h1, h2, h4, h5, h6⟩
  have hl : ∀ e ∈ outs.filterMap toWrite, e.times.length = e.buffers.length := by
    intro e he
    obtain ⟨x, hx, _, h⟩ := htrig e he
    obtain ⟨_, _, _, _, ns, _, _, h1, h2, _⟩ := hspec x hx _ _ h
    omega
  have hmax : ∀ e ∈ outs.filterMap toWrite, e.times.length ≤ maxSubevt p.maxTime p.bufferLen := by
    intro e he
    obtain ⟨x, hx, _, h⟩ := htrig e he
    exact (hspec x hx _ _ h).1
  have hsub : ((outs.filterMap toWrite).map (·.nexus)).Sublist (outs.map (·.1.number)) := by
    clear hnums hout hin htrig hl hmax houts hf
    induction outs with
    | nil => exact List.Sublist.refl _
    | cons x xs ih =>
      rw [List.filterMap_cons]
      unfold toWrite at ih ⊢
      cases hx2 : x.2 with
      | noActive => exact ih.trans (List.sublist_cons_self _ _)
      | dark => exact ih.trans (List.sublist_cons_self _ _)
      | noSignal => exact ih.trans (List.sublist_cons_self _ _)
      | triggered ts bs => simpa using ih
  rw [hnums] at hsub
  have hnd : ((outs.filterMap toWrite).map (·.nexus)).Nodup := hsub.nodup hnum
  obtain ⟨ha1, ha2, ha3⟩ := tables_aligned runNumber (maxSubevt p.maxTime p.bufferLen) _ hl
  refine ⟨_, by simp only [run, houts], ⟨event_numbers_unique _ _ _ hl hmax hnd, fun ho => rows_in_order _ _ _ hl hmax (ho.sublist hsub)⟩, ha1, ha2, ha3, nexus_event_recovered _ _ _ hl hmax, ?_, ?_⟩
  · intro r hr
    obtain ⟨e, he, j, t, b, ht, hb, hr1, hr2, hr3, hr4⟩ := row_trigger runNumber (maxSubevt p.maxTime p.bufferLen) _ hl hr
    obtain ⟨x, hx, hnx, h⟩ := htrig e he
    obtain ⟨_, pmt, sipm, hie, ns, h1, h2, h3, h4, h5⟩ := hspec x hx _ _ h
    have hj : j < e.times.length := (List.getElem?_eq_some_iff.1 ht).1
    rw [hnx] at hr1 hr2
    exact ⟨x, hx, j, ns[j]'(by omega), pmt, sipm, hie, ⟨ns, h1, h2, List.getElem?_eq_getElem _⟩, t, b, hr1, hr2, hr3, hr4,
      h5 j _ _ _ (List.getElem?_eq_getElem (by omega)) ht hb⟩
  · intro x hx
    rcases event_cases hp (hv x hx) with h' | h' | ⟨pmt, sipm, hie, h', n, hn, f, g, hP, hS⟩
    · exact Or.inl h'
    · exact Or.inr (Or.inl h')
    · refine Or.inr (Or.inr ⟨pmt, sipm, hie, ?_⟩)
      intro ns hsort hmem j i hj
      obtain ⟨ns', h1, h2, hcase⟩ := signal_ok hp hP hS x.1.timestamp
      have hns : ns' = ns := by
        have hperm : ns'.Perm ns := (List.perm_ext_iff_of_nodup (h1.imp fun h => ne_of_lt h) (hsort.imp fun h => ne_of_lt h)).2 (fun i => by rw [h2, hmem])
        exact hperm.eq_of_pairwise (fun a b _ _ h1 h2 => absurd h1 (not_lt.2 h2.le)) h1 hsort
      subst hns
      rcases hcase with ⟨h0, _⟩ | ⟨_, ts, bs, h3, h4, h5, h6⟩
      · rw [h0] at hj; cases hj
      · have hjl : j < ns'.length := (List.getElem?_eq_some_iff.1 hj).1
        have hmemE : (⟨x.1.number, ts, bs⟩ : Evt) ∈ outs.filterMap toWrite :=
          List.mem_filterMap.2 ⟨_, hin x hx _ (h'.trans h3), rfl⟩
        have hjt : j < ts.length := by omega
        have hjb : j < bs.length := by omega
        obtain ⟨r, hr1, hr2, hr3, hr4⟩ := trigger_row runNumber (maxSubevt p.maxTime p.bufferLen) _ hl hmemE (List.getElem?_eq_getElem hjt) (List.getElem?_eq_getElem hjb)
        exact ⟨r, pmt, sipm, hie, ⟨ns', hsort, hmem, hj⟩, _, _, hr1, hr2, hr3, hr4, h6 j _ _ _ hj (List.getElem?_eq_getElem hjt) (List.getElem?_eq_getElem hjb)⟩

end

/-! ### Examples -/

def exT (pos : List (ℚ × ℚ × ℚ)) : List (List ℚ) := pos.map fun _ => [1 / 2]
def exLt (n : Nat) : LightTable := ⟨n, 1, 1, fun x _ _ => if x < 100 then some [3] else none⟩
def exPars : Pars := ⟨6, 2, 16, 3, 1, 2, fun _ => 0, 1, 0, 0, 0, 1, 1, fun i => if i = 0 then 1 else 0, 2, exLt 1, exLt 2, fun pos => .ok (exT pos), 1⟩

theorem exLt_nonneg (n : Nat) : ∀ x y s vals, (exLt n).values x y s = some vals → ∀ v ∈ vals, 0 ≤ v := by
  intro x y s vals h v hv
  simp only [exLt] at h
  split at h
  · cases h; rw [List.mem_singleton.1 hv]; norm_num
  · cases h

theorem exPars_good : exPars.Good 2 8 exT where
  width := by norm_num [exPars]
  ratio := by norm_num [exPars]
  time := by norm_num [exPars]
  pre := by norm_num [exPars]
  room := by norm_num [exPars]
  thr := by norm_num [exPars]
  pmt := ⟨by decide, by decide +kernel, by decide +kernel, by decide +kernel⟩
  sipm := ⟨by decide, by decide +kernel, by decide +kernel, by decide +kernel⟩
  npmt := by decide
  nsipm := by decide
  pmtValues := exLt_nonneg 1
  sipmValues := exLt_nonneg 2
  table := by
    intro pos
    refine ⟨rfl, by simp [exT], ?_⟩
    intro row hr v hv
    obtain ⟨_, _, rfl⟩ := List.mem_map.1 hr
    rw [List.mem_singleton.1 hv]; norm_num
  scint := ⟨by decide +kernel, fun i => by show 0 ≤ (if i = 0 then (1 : ℚ) else 0); split <;> norm_num⟩

/-- Two hits in the active volume, one in the buffer, one elsewhere and one after the maximum time. -/
def exEv : Event := ⟨7, 1000, none, [⟨0, 0, 4, 2, 31, "ACTIVE"⟩, ⟨0, 0, 10, 1, 32, "ACTIVE"⟩, ⟨0, 0, 0, 5, 31, "BUFFER"⟩, ⟨0, 0, 0, 5, 31, "CATHODE"⟩, ⟨0, 0, 4, 2, 47, "ACTIVE"⟩]⟩
def exDraw (_ _ : Nat) (v : ℚ) : Nat := ⌊v⌋.toNat
def exD : Draws := ⟨[⟨2, 0⟩, ⟨1, 0⟩], [[100, 100], [100]], [⟨0, 0, 0, 1⟩, ⟨0, 0, 0, 2⟩, ⟨0, 0, 0, 2⟩], [2, 2, 4], exDraw, exDraw, exDraw⟩
def exEs : List ElElectron := [⟨0, 0, 4, 35, 1⟩, ⟨0, 0, 4, 35, 2⟩, ⟨0, 0, 10, 42, 2⟩]

theorem ex_drawn : Drawn exPars exD exEv ⟨0, 0, 4, 2, 31, "ACTIVE"⟩ "ACTIVE" "BUFFER" exEs :=
  ⟨by decide +kernel, by decide +kernel, by decide +kernel, by decide +kernel⟩

/-- `event_spec` and `run_spec` apply: the S1 is not above the threshold, and there is a trigger for each of the two groups of electrons. -/
example : exPars.Good 2 8 exT ∧ Labels exEv "ACTIVE" "BUFFER" ∧ IsFirst exEv ⟨0, 0, 4, 2, 31, "ACTIVE"⟩ ∧
    (∃ h ∈ activeHits exPars exEv ⟨0, 0, 4, 2, 31, "ACTIVE"⟩ "ACTIVE", h.energy ≠ 0) ∧ Valid exPars exD exEv ∧ (∃ e ∈ exEs, 0 < e.ph) ∧
    exPars.bufferLen ≤ exPars.maxTime ∧
    event exPars exD exEv = .ok (.triggered [1005, 1012]
      [(⟨[[1, 0, 0, 9, 0, 0]], 6⟩, ⟨[[0, 9, 0], [0, 9, 0]], 3⟩), (⟨[[0, 0, 6, 0, 0, 0]], 6⟩, ⟨[[0, 6, 0], [0, 6, 0]], 3⟩)]) := by
  have hf : IsFirst exEv ⟨0, 0, 4, 2, 31, "ACTIVE"⟩ := by unfold IsFirst; decide +kernel
  exact ⟨exPars_good, ⟨rfl, rfl⟩, hf, by decide +kernel, ⟨_, _, _, ⟨rfl, rfl⟩, hf, fun _ => ⟨_, ex_drawn⟩⟩, by decide +kernel, by decide +kernel, by decide +kernel⟩

/-- `no_energy` and `no_light` apply to other events. -/
example : (∀ h ∈ activeHits exPars ⟨7, 1000, none, [⟨0, 0, 0, 5, 31, "BUFFER"⟩]⟩ ⟨0, 0, 0, 5, 31, "BUFFER"⟩ "ACTIVE", h.energy = 0) ∧
    event exPars exD ⟨7, 1000, none, [⟨0, 0, 0, 5, 31, "BUFFER"⟩]⟩ = .ok .noActive ∧
    event exPars { exD with electrons := [⟨0, 0, 0, 0⟩] } exEv = .ok .dark := by decide +kernel

/-- The events of the example, 100 later. -/
def exLate : Event := { exEv with hits := exEv.hits.map fun h => { h with time := h.time + 100 } }

/-- C109 (finding). The times of the triggers are counted from the beginning of the data of the event, which is not recorded: the same event 100 later, with the same timestamp, gives the same times. -/
theorem start_not_recorded : exLate.timestamp = exEv.timestamp ∧ exLate.hits = exEv.hits.map (fun h => { h with time := h.time + 100 }) ∧
    event exPars exD exLate = event exPars exD exEv ∧ ∃ ts bs, event exPars exD exEv = .ok (.triggered ts bs) := by
  refine ⟨rfl, rfl, by decide +kernel, [1005, 1012], [(⟨[[1, 0, 0, 9, 0, 0]], 6⟩, ⟨[[0, 9, 0], [0, 9, 0]], 3⟩), (⟨[[0, 0, 6, 0, 0, 0]], 6⟩, ⟨[[0, 6, 0], [0, 6, 0]], 3⟩)], by decide +kernel⟩

/-- C109 (finding). An electron that diffusion puts before the beginning of the data (here 3 before the first hit): its light goes to the end of the data, where it gives a trigger although no
electron emits then. -/
theorem early_light : ∃ bs es, simulateElectrons (fun z => z) 1 0 0 1 1 (activeHits exPars exEv ⟨0, 0, 4, 2, 31, "ACTIVE"⟩ "ACTIVE") exD.ions exD.lifetimes
      [⟨0, 0, -7 / 4, 2⟩, ⟨0, 0, 0, 2⟩, ⟨0, 0, 0, 0⟩] = .ok es ∧ (∀ e ∈ es, 0 < e.ph → e.t < 36) ∧
    event { exPars with sq := fun z => z, dl := 1 } { exD with electrons := [⟨0, 0, -7 / 4, 2⟩, ⟨0, 0, 0, 2⟩, ⟨0, 0, 0, 0⟩] } exEv = .ok (.triggered [1005, 1012] bs) :=
  ⟨[(⟨[[1, 0, 0, 6, 0, 0]], 6⟩, ⟨[[0, 6, 0], [0, 6, 0]], 3⟩), (⟨[[0, 0, 6, 0, 0, 0]], 6⟩, ⟨[[0, 6, 0], [0, 6, 0]], 3⟩)],
    [⟨0, 0, -3, 28, 2⟩, ⟨0, 0, 4, 35, 2⟩, ⟨0, 0, 10, 42, 0⟩], by decide +kernel, by decide +kernel, by decide +kernel⟩

end Verif.DetsimEvent
