import Verif.Model.DetsimS1
import Verif.Lemmas.Wfs
import Verif.Lemmas.Hist
import Verif.Lemmas.Lists
/-!
# S1 waveforms of the detector simulation (C58)
-/
namespace Verif.Detsim

/-- A time is in the bin `b` of a histogram of `n` bins: the last bin includes its end. -/
def HitBin (start bin : ℚ) (n b : Nat) (t : ℚ) : Prop :=
  b < n ∧ start + b * bin ≤ t ∧ (t < start + (b + 1) * bin ∨ (b + 1 = n ∧ t = start + n * bin))

instance (start bin : ℚ) (n b : Nat) (t : ℚ) : Decidable (HitBin start bin n b t) := by unfold HitBin; infer_instance

/-- The distribution of the scintillation in bins: `frac i` in the bins up to `limit` or the end of the buffer, nothing after. -/
def scint (frac : Nat → ℚ) (limit buffer bin : ℚ) (i : Nat) : ℚ := if (i : ℚ) * bin < min limit buffer then frac i else 0

theorem s1Step_spec {wf p out : List ℚ} {idx : Nat} (hi : idx < wf.length) (hp : p.length = wf.length + 1) (ho : out.length = wf.length) :
    ∃ out', s1Step wf p out idx = .ok out' ∧ out'.length = wf.length ∧ ∀ b < wf.length, out'.getD b 0 =
      out.getD b 0 + if idx ≤ b then wf.getD idx 0 * p.getD (b - idx) 0 else 0 := by
  unfold s1Step addInPlace
  have hl : ((p.take (p.length - (idx + 1))).map (wf.getD idx 0 * ·)).length = (out.drop idx).length := by simp; omega
  rw [if_pos hl]
  refine ⟨_, rfl, by simp; omega, ?_⟩
  intro b hb
  by_cases h : idx ≤ b
  · rw [if_pos h, List.getD_eq_getElem?_getD, List.getElem?_append_right (by simp; omega), List.getElem?_zipWith, List.getElem?_drop,
      List.getElem?_map, List.getElem?_take]
    have h1 : (out.take idx).length = idx := by simp; omega
    rw [h1, show idx + (b - idx) = b by omega, if_pos (by omega)]
    have h2 : b < out.length := by omega
    have h3 : b - idx < p.length := by omega
    rw [List.getElem?_eq_getElem h2, List.getElem?_eq_getElem h3, List.getD_eq_getElem _ _ h2, List.getD_eq_getElem _ _ h3]
    rfl
  · rw [if_neg h, List.getD_eq_getElem?_getD, List.getElem?_append_left (by simp; omega), List.getElem?_take, if_pos (by omega),
      ← List.getD_eq_getElem?_getD, add_zero]

theorem s1Loop_spec {wf p : List ℚ} (hp : p.length = wf.length + 1) (idx : List Nat) : ∀ {out : List ℚ}, out.length = wf.length →
    (∀ i ∈ idx, i < wf.length) → ∃ out', idx.foldlM (s1Step wf p) out = .ok out' ∧ out'.length = wf.length ∧ ∀ b < wf.length,
      out'.getD b 0 = out.getD b 0 + (idx.map fun i : Nat => if i ≤ b then wf.getD i 0 * p.getD (b - i) 0 else 0).sum := by
  induction idx with
  | nil => intro out ho _; exact ⟨out, rfl, ho, by simp⟩
  | cons i idx ih =>
    intro out ho hi
    obtain ⟨o1, h1, h2, h3⟩ := s1Step_spec (hi i List.mem_cons_self) hp ho
    obtain ⟨o2, h4, h5, h6⟩ := ih h2 (fun j hj => hi j (List.mem_cons_of_mem _ hj))
    refine ⟨o2, ?_, h5, ?_⟩
    · rw [List.foldlM_cons, h1]; exact h4
    · intro b hb
      rw [h6 b hb, h3 b hb, List.map_cons, List.sum_cons]; ring

theorem sum_whereIdx (wf : List ℚ) (f : Nat → ℚ) :
    ((whereIdx (fun v => decide (0 < v)) wf).map f).sum = ((List.range wf.length).map fun i : Nat => if 0 < wf.getD i 0 then f i else 0).sum := by
  unfold whereIdx
  rw [show ((List.range wf.length).filter fun i => (wf[i]?).any fun v => decide (0 < v)) =
    (List.range wf.length).filter fun i => decide (0 < wf.getD i 0) from by
    apply List.filter_congr
    intro i hi
    have hi' := List.mem_range.1 hi
    simp [List.getElem?_eq_getElem hi']]
  exact Hits.sum_filter_ite _ (fun i => 0 < wf.getD i 0) f

theorem s1Row_spec {wf p : List ℚ} (hp : p.length = wf.length + 1) : ∃ out, s1Row p wf = .ok out ∧ out.length = wf.length ∧
    ∀ b < wf.length, out.getD b 0 = ((List.range wf.length).map fun i : Nat => if i ≤ b then max 0 (wf.getD i 0) * p.getD (b - i) 0 else 0).sum := by
  obtain ⟨out, h1, h2, h3⟩ := s1Loop_spec hp (whereIdx (fun v => decide (0 < v)) wf) (out := List.replicate wf.length 0) (by simp)
    (fun i hi => by rw [whereIdx_mem] at hi; obtain ⟨x, hx, _⟩ := hi; exact (List.getElem?_eq_some_iff.1 hx).1)
  refine ⟨out, h1, h2, ?_⟩
  intro b hb
  rw [h3 b hb, sum_whereIdx]
  have : (List.replicate wf.length (0 : ℚ)).getD b 0 = 0 := by simp [List.getElem?_replicate, hb]
  rw [this, zero_add]
  congr 1
  apply List.map_congr_left
  intro i _
  by_cases h : 0 < wf.getD i 0
  · rw [if_pos h, max_eq_right h.le]
  · rw [if_neg h, max_eq_left (not_lt.1 h)]; simp

theorem arange_grid {a w : ℚ} (hw : 0 < w) (n : Nat) : Buffers.arange a (a + n * w + w) w = grid a w n := by
  unfold Buffers.arange grid
  rw [show (a + n * w + w - a) / w = ((n + 1 : Nat) : ℚ) by push_cast; field_simp; ring]
  simp

theorem arange_count {L w : ℚ} (hw : 0 < w) (i : Nat) (hL : 0 ≤ L) : i < (Buffers.arange 0 (L + w) w).length - 1 ↔ (i : ℚ) * w < L := by
  unfold Buffers.arange
  rw [List.length_map, List.length_range, sub_zero, show (L + w) / w = L / w + 1 by field_simp]
  rw [Int.ceil_add_one]
  have h0 : 0 ≤ ⌈L / w⌉ := Int.ceil_nonneg (div_nonneg hL hw.le)
  rw [show (⌈L / w⌉ + 1).toNat - 1 = ⌈L / w⌉.toNat by omega]
  rw [← lt_div_iff₀ hw]
  constructor
  · intro h
    have : (i : Int) < ⌈L / w⌉ := by omega
    rw [Int.lt_ceil] at this
    exact_mod_cast this
  · intro h
    have : (i : Int) < ⌈L / w⌉ := by rw [Int.lt_ceil]; exact_mod_cast h
    omega

theorem s1Pdf_spec (frac : Nat → ℚ) {limit bin : ℚ} (hb : 0 < bin) (hl : 0 ≤ limit) (n : Nat) :
    (s1Pdf frac limit (n * bin) bin).length = n + 1 ∧ ∀ j ≤ n, (s1Pdf frac limit (n * bin) bin).getD j 0 = scint frac limit (n * bin) bin j := by
  have hfl : ⌊(n : ℚ) * bin / bin⌋.toNat = n := by rw [mul_div_assoc, div_self hb.ne', mul_one]; simp
  unfold s1Pdf
  refine ⟨by rw [List.length_map, List.length_range, hfl], ?_⟩
  intro j hj
  rw [hfl, List.getD_eq_getElem?_getD, List.getElem?_map, List.getElem?_range (by omega)]
  simp only [Option.map_some, Option.getD_some]
  unfold scint
  have hL : 0 ≤ min limit (n * bin) := le_min hl (by positivity)
  by_cases h : (j : ℚ) * bin < min limit (n * bin)
  · rw [if_pos h, if_pos ((arange_count hb j hL).2 h)]
  · rw [if_neg h, if_neg (fun hc => h ((arange_count hb j hL).1 hc))]

theorem s1Hist_spec {start bin : ℚ} (hb : 0 < bin) (n : Nat) (hits : List (ℚ × ℚ)) :
    (s1Hist (s1Edges start (n * bin) bin) hits).length = n ∧ ∀ b < n, (s1Hist (s1Edges start (n * bin) bin) hits).getD b 0 =
      (hits.map fun h => if HitBin start bin n b h.1 then h.2 else 0).sum := by
  have he : s1Edges start (n * bin) bin = grid start bin n := arange_grid hb n
  have hlen : (grid start bin n).length = n + 1 := by simp [grid]
  unfold s1Hist
  rw [he, hlen]
  refine ⟨by simp, ?_⟩
  intro b hbn
  rw [List.getD_eq_getElem?_getD, List.getElem?_map, List.getElem?_range (by omega)]
  simp only [Option.map_some, Option.getD_some]
  rw [Hits.sum_filter_ite]
  congr 1
  apply List.map_congr_left
  intro h _
  have := histBin_grid (x := h.1) (a := start) (n := n) (k := b) hb
  by_cases hc : HitBin start bin n b h.1
  · rw [if_pos hc, if_pos (this.2 hc)]
  · rw [if_neg hc, if_neg (fun hh => hc (this.1 hh))]

theorem hist_nonneg {hits : List (ℚ × ℚ)} (h0 : ∀ h ∈ hits, 0 ≤ h.2) (p : ℚ × ℚ → Prop) [DecidablePred p] :
    0 ≤ (hits.map fun h => if p h then h.2 else 0).sum := by
  apply List.sum_nonneg
  intro v hv
  obtain ⟨h, hh, rfl⟩ := List.mem_map.1 hv
  split
  · exact h0 h hh
  · exact le_refl _

/-- **C58** (S1).  With a buffer of a whole number of bins, each PMT gets a waveform with that number of bins; bin `b` holds, for each hit of the
buffer that happens in an earlier (or the same) bin `a`, its photoelectrons times the fraction of the scintillation after `b − a` bins. -/
theorem s1_bins (frac : Nat → ℚ) {limit bin : ℚ} (hb : 0 < bin) (hl : 0 ≤ limit) (n : Nat) (start : ℚ) (pes : List (List ℚ)) (times : List ℚ)
    (hpes : pes ≠ []) (hlen : ∀ w ∈ pes, w.length = times.length) (hpos : ∀ w ∈ pes, ∀ v ∈ w, 0 ≤ v) :
    ∃ out, s1Waveform frac limit pes times (n * bin) bin start = .ok out ∧ out.length = pes.length ∧
      ∀ (k : Nat) (w : List ℚ), pes[k]? = some w → ∃ row, out[k]? = some row ∧ row.length = n ∧ ∀ b < n, row.getD b 0 =
        ((times.zip w).map fun h => ((List.range n).map fun a : Nat =>
          if a ≤ b ∧ HitBin start bin n a h.1 then h.2 * scint frac limit (n * bin) bin (b - a) else 0).sum).sum := by
  obtain ⟨hp1, hp2⟩ := s1Pdf_spec frac hb hl n (limit := limit)
  have hrow : ∀ w ∈ pes, ∃ row, s1Row (s1Pdf frac limit (n * bin) bin) (s1Hist (s1Edges start (n * bin) bin) (times.zip w)) = .ok row ∧
      row.length = n ∧ ∀ b < n, row.getD b 0 = ((times.zip w).map fun h => ((List.range n).map fun a : Nat =>
          if a ≤ b ∧ HitBin start bin n a h.1 then h.2 * scint frac limit (n * bin) bin (b - a) else 0).sum).sum := by
    intro w hw
    obtain ⟨hh1, hh2⟩ := s1Hist_spec hb n (times.zip w) (start := start)
    have hnn : ∀ h ∈ times.zip w, 0 ≤ h.2 := fun h hh => hpos w hw _ (List.of_mem_zip hh).2
    obtain ⟨row, h1, h2, h3⟩ := s1Row_spec (wf := s1Hist (s1Edges start (n * bin) bin) (times.zip w))
      (p := s1Pdf frac limit (n * bin) bin) (by rw [hh1, hp1])
    refine ⟨row, h1, by rw [h2, hh1], ?_⟩
    intro b hbn
    rw [h3 b (by rw [hh1]; exact hbn), hh1, Hits.sum_comm (times.zip w)]
    congr 1
    apply List.map_congr_left
    intro a ha
    have ha' := List.mem_range.1 ha
    by_cases hab : a ≤ b
    · rw [if_pos hab, hh2 a ha', max_eq_right (hist_nonneg hnn (fun h => HitBin start bin n a h.1)), hp2 (b - a) (by omega),
        ← List.sum_map_mul_right]
      congr 1
      apply List.map_congr_left
      intro h _
      by_cases hc : HitBin start bin n a h.1
      · rw [if_pos hc, if_pos ⟨hab, hc⟩]
      · rw [if_neg hc, if_neg (fun hx => hc hx.2), zero_mul]
    · rw [if_neg hab]
      symm
      apply List.sum_eq_zero
      intro v hv
      obtain ⟨h, _, rfl⟩ := List.mem_map.1 hv
      rw [if_neg (fun hx => hab hx.1)]
  obtain ⟨out, hout⟩ := mapM_ok (f := fun w => s1Row (s1Pdf frac limit (n * bin) bin) (s1Hist (s1Edges start (n * bin) bin) (times.zip w)))
    (xs := pes) (fun w hw => by obtain ⟨r, h, _⟩ := hrow w hw; exact ⟨r, h⟩)
  have hf := mapM_ok_iff.1 hout
  refine ⟨out, ?_, hf.length_eq.symm, ?_⟩
  · unfold s1Waveform
    rw [if_neg (by rintro (h | h); exact hpes h; exact h hlen)]
    exact hout
  · intro k w hk
    have hkl : k < out.length := by rw [← hf.length_eq]; exact (List.getElem?_eq_some_iff.1 hk).1
    have hr2 := forall₂_getElem? hf k w out[k] hk (List.getElem?_eq_getElem hkl)
    have hr1 := List.getElem?_eq_getElem hkl
    generalize out[k] = row at hr1 hr2
    obtain ⟨row', h1, h2, h3⟩ := hrow w (List.mem_of_getElem? hk)
    obtain rfl : row = row' := by have := hr2.symm.trans h1; exact Except.ok.inj this
    exact ⟨row, hr1, h2, h3⟩

/-- Two PMTs, three hits (one outside), a scintillation over three bins. -/
example : s1Waveform (fun i => if i = 0 then 1 / 2 else 1 / 4) 3 [[8, 4, 100], [0, 4, 0]] [1, 5 / 2, 17] (4 * 1) 1 0 =
    .ok [[0, 4, 4, 3], [0, 0, 2, 1]] := by decide +kernel

theorem sum_le_of_cut (f : Nat → ℚ) (n a : Nat) (ha : a ≤ n) :
    ((List.range n).map fun b : Nat => if a ≤ b then f (b - a) else 0).sum = ((List.range (n - a)).map f).sum := by
  induction n with
  | zero => simp
  | succ n ih =>
    rw [List.range_succ, List.map_append, List.sum_append]
    simp only [List.map_cons, List.map_nil, List.sum_cons, List.sum_nil, add_zero]
    by_cases h : a ≤ n
    · rw [ih h, if_pos h, show n + 1 - a = (n - a) + 1 by omega, List.range_succ, List.map_append, List.sum_append]
      simp
    · have : a = n + 1 := by omega
      subst this
      rw [if_neg h, add_zero, Nat.sub_self]
      simp only [List.range_zero, List.map_nil, List.sum_nil]
      apply List.sum_eq_zero
      intro v hv
      obtain ⟨b, hb, rfl⟩ := List.mem_map.1 hv
      rw [if_neg (by have := List.mem_range.1 hb; omega)]

/-- **C58** (S1 totals).  The charge of the S1 waveform of a PMT: each hit inside the buffer gives its photoelectrons times the part of the
scintillation that fits between its bin and the end of the buffer; hits outside the buffer give nothing. -/
theorem s1_total (frac : Nat → ℚ) {limit bin : ℚ} (hb : 0 < bin) (hl : 0 ≤ limit) (n : Nat) (start : ℚ) (pes : List (List ℚ)) (times : List ℚ)
    (hlen : ∀ w ∈ pes, w.length = times.length) (hpos : ∀ w ∈ pes, ∀ v ∈ w, 0 ≤ v) {out : List (List ℚ)}
    (h : s1Waveform frac limit pes times (n * bin) bin start = .ok out) {k : Nat} {w row : List ℚ} (hk : pes[k]? = some w) (hr : out[k]? = some row) :
    row.sum = ((times.zip w).map fun h => ((List.range n).map fun a : Nat => if HitBin start bin n a h.1 then
      h.2 * ((List.range (n - a)).map (scint frac limit (n * bin) bin)).sum else 0).sum).sum := by
  have hpes : pes ≠ [] := by rintro rfl; simp at hk
  obtain ⟨out', h1, _, h3⟩ := s1_bins frac hb hl n start pes times hpes hlen hpos
  obtain rfl : out' = out := by rw [h] at h1; exact (Except.ok.inj h1).symm
  obtain ⟨row', h4, h5, h6⟩ := h3 k w hk
  obtain rfl : row' = row := by rw [hr] at h4; exact (Option.some.inj h4).symm
  rw [← Sampling.sum_getD, h5, List.map_congr_left (fun b hb' => h6 b (List.mem_range.1 hb')), Hits.sum_comm]
  congr 1
  apply List.map_congr_left
  intro hit _
  rw [Hits.sum_comm]
  congr 1
  apply List.map_congr_left
  intro a ha
  have ha' := List.mem_range.1 ha
  by_cases hc : HitBin start bin n a hit.1
  · rw [if_pos hc, ← sum_le_of_cut _ n a ha'.le, ← List.sum_map_mul_left]
    congr 1
    apply List.map_congr_left
    intro b _
    by_cases hab : a ≤ b
    · rw [if_pos ⟨hab, hc⟩, if_pos hab]
    · rw [if_neg (fun hx => hab hx.1), if_neg hab, mul_zero]
  · rw [if_neg hc]
    apply List.sum_eq_zero
    intro v hv
    obtain ⟨b, _, rfl⟩ := List.mem_map.1 hv
    rw [if_neg (fun hx => hc hx.2)]

/-- **C58** (S1, finding).  When the length of the buffer is not a whole number of bins the simulation fails as soon as a PMT sees light before the
last two bins. -/
theorem s1_fractional_buffer (frac : Nat → ℚ) (limit : ℚ) {bin buffer : ℚ} (hb : 0 < bin) (n : Nat) (h1 : n * bin < buffer) (h2 : buffer < (n + 1) * bin)
    (wf : List ℚ) (hwf : wf.length = n + 1) {a : Nat} {v : ℚ} (ha : a + 1 < n) (hv : wf[a]? = some v) (hp : 0 < v) :
    s1Row (s1Pdf frac limit buffer bin) wf = .error .valueError := by
  have hfl : ⌊buffer / bin⌋ = (n : Int) := by
    rw [Int.floor_eq_iff, le_div_iff₀ hb, div_lt_iff₀ hb]
    push_cast
    exact ⟨h1.le, h2⟩
  have hplen : (s1Pdf frac limit buffer bin).length = n + 1 := by unfold s1Pdf; rw [hfl]; simp
  generalize s1Pdf frac limit buffer bin = p at hplen ⊢
  have hgen : ∀ (idx : List Nat) (out : List ℚ), out.length = n + 1 → (∀ i ∈ idx, i < n + 1) → (∃ i ∈ idx, i + 1 < n) →
      idx.foldlM (s1Step wf p) out = .error .valueError := by
    intro idx
    induction idx with
    | nil => rintro out _ _ ⟨i, hi, _⟩; cases hi
    | cons i idx ih =>
      intro out ho hi hex
      rw [List.foldlM_cons]
      have hstep : ∀ e, s1Step wf p out i = .error e → e = .valueError := by
        intro e he
        unfold s1Step addInPlace at he
        split at he
        · rename_i e' heq
          split at heq
          · cases heq
          · split at heq
            · cases heq
            · have h1 := Except.error.inj heq
              have h2 := Except.error.inj he
              rw [← h2, ← h1]
        · cases he
      cases hs : s1Step wf p out i with
      | error e => rw [hstep e hs]; rfl
      | ok out' =>
        have hib := hi i List.mem_cons_self
        have hlen : out'.length = n + 1 := by
          unfold s1Step at hs
          cases hadd : addInPlace (out.drop i) ((p.take (p.length - (i + 1))).map (wf.getD i 0 * ·)) with
          | error e => rw [hadd] at hs; cases hs
          | ok t =>
            rw [hadd] at hs
            have : t.length = (out.drop i).length := by
              unfold addInPlace at hadd
              split at hadd
              · rename_i heq
                rw [← Except.ok.inj hadd, List.length_zipWith, heq, Nat.min_self]
              · split at hadd
                · rw [← Except.ok.inj hadd, List.length_map]
                · cases hadd
            rw [← Except.ok.inj hs, List.length_append, this, List.length_take, List.length_drop, ho]
            omega
        have hnot : ¬ i + 1 < n := by
          intro hlt
          have herr : s1Step wf p out i = .error .valueError := by
            unfold s1Step addInPlace
            rw [if_neg (by simp only [List.length_map, List.length_take, List.length_drop]; omega),
              if_neg (by simp only [List.length_map, List.length_take]; omega)]
          rw [herr] at hs; cases hs
        obtain ⟨j, hj, hjn⟩ := hex
        rcases List.mem_cons.1 hj with rfl | hj
        · exact absurd hjn hnot
        · exact ih out' hlen (fun k hk => hi k (List.mem_cons_of_mem _ hk)) ⟨j, hj, hjn⟩
  unfold s1Row
  apply hgen
  · simp [hwf]
  · intro i hi
    rw [whereIdx_mem] at hi
    obtain ⟨x, hx, _⟩ := hi
    have := (List.getElem?_eq_some_iff.1 hx).1
    omega
  · exact ⟨a, whereIdx_mem.2 ⟨v, hv, by simpa using hp⟩, ha⟩

example : s1Waveform (fun _ => 1) 3 [[8]] [1] (9 / 2) 1 0 = .error .valueError := by decide +kernel

/-- **C58** (photoelectrons).  The photoelectrons of PMT `k` for hit `i`: the photons of the hit times the value of the table. -/
theorem s1_pes (photons : List ℚ) (table : List (List ℚ)) (npmt : Nat) : (s1Pes photons table npmt).length = npmt ∧
    ∀ (k i : Nat) (n : ℚ) (row : List ℚ), k < npmt → photons[i]? = some n → table[i]? = some row →
      ∃ r, (s1Pes photons table npmt)[k]? = some r ∧ r[i]? = some (n * row.getD k 0) := by
  refine ⟨by simp [s1Pes], ?_⟩
  intro k i n row hk hn ht
  refine ⟨_, by rw [s1Pes, List.getElem?_map, List.getElem?_range hk]; rfl, ?_⟩
  rw [List.getElem?_zipWith, hn, ht]

example : s1Pes [10, 20] [[1 / 2, 1], [0, 3]] 2 = [[5, 0], [10, 60]] := by decide +kernel

end Verif.Detsim
