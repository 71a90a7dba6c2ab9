import Verif.Props.SpeResponse
import Verif.Props.Fee
/-!
# C96: the spectrum by convolutions of the dark spectrum

The spectrum of `i` photons is the dark spectrum convolved `i` times with that of one photon; distances are counted from the last bin not above zero,
so the result is in its place only if zero is the centre of that bin.
-/
namespace Verif.Spe
open Verif.Spe.Spec Verif.Fee.Spec

theorem countP_split (bins : List ℚ) : below bins + above bins = bins.length := by
  unfold below above
  induction bins with
  | nil => rfl
  | cons b bs ih =>
    rw [List.countP_cons, List.countP_cons, List.length_cons]
    by_cases hb : b ≤ 0
    · rw [if_pos (by simpa using hb), if_neg (by simpa using hb)]; omega
    · rw [if_neg (by simpa using hb), if_pos (by simpa using hb)]; omega

/-- C96: the padding makes as many bins not above zero as above. -/
theorem getPadding_spec (bins : List ℚ) :
    below bins + (getPadding bins).1 = above bins + (getPadding bins).2 ∧ ((getPadding bins).1 = 0 ∨ (getPadding bins).2 = 0) := by
  have h1 : (bins.filter fun b => decide (b ≤ 0)).length = below bins := (List.countP_eq_length_filter ..).symm
  have h2 : (bins.filter fun b => decide (b > 0)).length = above bins := (List.countP_eq_length_filter ..).symm
  unfold getPadding
  simp only [h1, h2]
  omega

theorem at_lt {xs : List ℚ} {n : Nat} (h : xs.length ≤ n) : at' xs n = 0 := by
  unfold at'
  rw [List.getD_eq_getElem?_getD, List.getElem?_eq_none h]; rfl

theorem at_padZeros (pad : Nat × Nat) (xs : List ℚ) (m : Nat) : at' (padZeros pad xs) m = if pad.1 ≤ m then at' xs (m - pad.1) else 0 := by
  unfold at' padZeros
  simp only [List.getD_eq_getElem?_getD]
  by_cases h : pad.1 ≤ m
  · rw [if_pos h, List.append_assoc, List.getElem?_append_right (by simpa using h), List.length_replicate]
    by_cases h2 : m - pad.1 < xs.length
    · rw [List.getElem?_append_left h2]
    · rw [List.getElem?_append_right (by omega), List.getElem?_eq_none (l := xs) (by omega), List.getElem?_replicate]
      split <;> rfl
  · rw [if_neg h, List.append_assoc, List.getElem?_append_left (by simpa using h), List.getElem?_replicate]
    split <;> rfl

/-- The value at a distance from the bin `z`. -/
theorem centred_eq (z : Int) (xs : List ℚ) (m : Nat) : centred z xs ((m : Int) - z) = at' xs m := by
  unfold centred at'
  have h : (m : Int) - z + z = m := by omega
  rw [h, if_pos (by omega), Int.toNat_natCast]

theorem centred_pad (pad : Nat × Nat) (z0 : Int) (xs : List ℚ) (x : Int) : centred (z0 + pad.1) (padZeros pad xs) x = centred z0 xs x := by
  unfold centred
  by_cases h : 0 ≤ x + (z0 + pad.1)
  · rw [if_pos h]
    have := at_padZeros pad xs (x + (z0 + pad.1)).toNat
    unfold at' at this
    rw [this]
    by_cases h2 : 0 ≤ x + z0
    · rw [if_pos h2, if_pos (by omega)]
      congr 1
      omega
    · rw [if_neg h2, if_neg (by omega)]
  · rw [if_neg h, if_neg (by omega)]

/-- The centre of the convolution of two arrays with `2 M` elements, as a sum over distances to the element `M - 1`. -/
theorem sameConv_spec {M : Nat} (hM : 0 < M) {a v : List ℚ} (ha : a.length = 2 * M) (hv : v.length = 2 * M) :
    ∃ c, sameConv a v = .ok c ∧ c.length = 2 * M ∧ ∀ m, m < 2 * M → at' c m =
      ∑ y ∈ Finset.Icc (1 - (M : Int)) M, centred ((M : Int) - 1) a y * centred ((M : Int) - 1) v ((m : Int) - ((M : Int) - 1) - y) := by
  have hane : a ≠ [] := by intro h; rw [h] at ha; simp at ha; omega
  have hvne : v ≠ [] := by intro h; rw [h] at hv; simp at hv; omega
  have hlen := Fee.convolve_length hane hvne
  unfold sameConv
  rw [if_neg (by omega), ha, hv, min_self, max_self]
  have hoff : (2 * M - 1) / 2 = M - 1 := by omega
  rw [hoff]
  refine ⟨_, rfl, by rw [List.length_take, List.length_drop, hlen]; omega, ?_⟩
  intro m hm
  have hat : at' (((Fee.convolve a v).drop (M - 1)).take (2 * M)) m = at' (Fee.convolve a v) (M - 1 + m) := by
    unfold at'
    simp only [List.getD_eq_getElem?_getD, List.getElem?_take, hm, if_true, List.getElem?_drop]
  rw [hat, Fee.at_convolve]
  -- the sum over the distances is a sum over the indices of `a`
  have hidx : ∑ y ∈ Finset.Icc (1 - (M : Int)) M, centred ((M : Int) - 1) a y * centred ((M : Int) - 1) v ((m : Int) - ((M : Int) - 1) - y)
      = ∑ i ∈ Finset.range (2 * M), at' a i * (if i ≤ M - 1 + m then at' v (M - 1 + m - i) else 0) := by
    symm
    apply Finset.sum_nbij' (fun i : Nat => (i : Int) - ((M : Int) - 1)) (fun y : Int => (y + ((M : Int) - 1)).toNat)
    · intro i hi
      rw [Finset.mem_range] at hi
      rw [Finset.mem_Icc]
      omega
    · intro y hy
      rw [Finset.mem_Icc] at hy
      rw [Finset.mem_range]
      omega
    · intro i _
      omega
    · intro y hy
      rw [Finset.mem_Icc] at hy
      omega
    · intro i _
      rw [centred_eq]
      congr 1
      by_cases h : i ≤ M - 1 + m
      · rw [if_pos h]
        have : (m : Int) - ((M : Int) - 1) - ((i : Int) - ((M : Int) - 1)) = ((M - 1 + m - i : Nat) : Int) - ((M : Int) - 1) := by omega
        rw [this, centred_eq]
      · rw [if_neg h]
        unfold centred
        rw [if_neg (by omega)]
  rw [hidx]
  have hz : ∀ i, ¬ i < 2 * M → at' a i = 0 := fun i hi => at_lt (by omega)
  by_cases hcase : M - 1 + m + 1 ≤ 2 * M
  · rw [← Finset.sum_subset (s₁ := Finset.range (M - 1 + m + 1)) (s₂ := Finset.range (2 * M))
      (by intro x hx; rw [Finset.mem_range] at hx ⊢; omega)
      (by intro x _ hx; rw [Finset.mem_range] at hx; rw [if_neg (by omega), mul_zero])]
    refine Finset.sum_congr rfl fun i hi => ?_
    rw [Finset.mem_range] at hi
    rw [if_pos (by omega)]
  · rw [← Finset.sum_subset (s₁ := Finset.range (2 * M)) (s₂ := Finset.range (M - 1 + m + 1))
      (by intro x hx; rw [Finset.mem_range] at hx ⊢; omega)
      (by intro x _ hx; rw [Finset.mem_range] at hx; rw [hz x hx, zero_mul])]
    refine Finset.sum_congr rfl fun i hi => ?_
    rw [Finset.mem_range] at hi
    rw [if_pos (by omega)]

theorem getD_zipWith_add (f : ℚ → ℚ → ℚ) {s c : List ℚ} (h : c.length = s.length) {j : Nat} (hj : j < s.length) :
    (List.zipWith f s c).getD j 0 = f (s.getD j 0) (c.getD j 0) := by
  have hc : j < c.length := by omega
  simp only [List.getD_eq_getElem?_getD, List.getElem?_zipWith, List.getElem?_eq_getElem hj, List.getElem?_eq_getElem hc, Option.getD_some]

theorem folds_outside (M : Int) (d g : Int → ℚ) (hd : ∀ x, ¬ (1 - M ≤ x ∧ x ≤ M) → d x = 0) : ∀ (i : Nat) (x : Int), ¬ (1 - M ≤ x ∧ x ≤ M) → folds M d g i x = 0 := by
  intro i x hx
  cases i with
  | zero => exact hd x hx
  | succ i => rw [folds, if_neg hx]

/-- The loop of convolutions. -/
theorem convLoop_spec {M L pad : Nat} (hM : 0 < M) {pe areas : List ℚ} (hpe : pe.length = 2 * M) (hpad : pad + L ≤ 2 * M) (d : Int → ℚ)
    (hd : ∀ x, ¬ (1 - (M : Int) ≤ x ∧ x ≤ M) → d x = 0) :
    ∀ (cnt i : Nat) (conv signal : List ℚ), conv.length = 2 * M → (∀ x, centred ((M : Int) - 1) conv x = folds M d (centred ((M : Int) - 1) pe) i x) → signal.length = L →
    ∃ out, convLoop pe areas pad (pad + L) (List.range' (i + 1) cnt) conv signal = .ok out ∧ out.length = L ∧
      ∀ j, j < L → out.getD j 0 = signal.getD j 0 + ∑ k ∈ Finset.Ico (i + 1) (i + 1 + cnt), areas.getD k 0 * folds M d (centred ((M : Int) - 1) pe) k (((pad + j : Nat) : Int) - ((M : Int) - 1)) := by
  intro cnt
  induction cnt with
  | zero =>
    intro i conv signal _ _ hs
    exact ⟨signal, rfl, hs, fun j _ => by simp⟩
  | succ cnt ih =>
    intro i conv signal hc hrep hs
    obtain ⟨c, h1, h2, h3⟩ := sameConv_spec hM hc hpe
    have hrep2 : ∀ x, centred ((M : Int) - 1) c x = folds M d (centred ((M : Int) - 1) pe) (i + 1) x := by
      intro x
      by_cases hx : 1 - (M : Int) ≤ x ∧ x ≤ M
      · obtain ⟨m, hm⟩ : ∃ m : Nat, x = (m : Int) - ((M : Int) - 1) := ⟨(x + ((M : Int) - 1)).toNat, by omega⟩
        rw [hm, centred_eq, h3 m (by omega), folds, if_pos (by omega)]
        refine Finset.sum_congr rfl fun y _ => ?_
        rw [hrep y]
      · rw [folds_outside _ _ _ hd _ _ hx]
        unfold centred
        by_cases hx2 : 0 ≤ x + ((M : Int) - 1)
        · rw [if_pos hx2, List.getD_eq_getElem?_getD, List.getElem?_eq_none (by omega)]; rfl
        · rw [if_neg hx2]
    have hpl : ((c.take (pad + L)).drop pad).length = L := by
      rw [List.length_drop, List.length_take, h2]; omega
    obtain ⟨out, e1, e2, e3⟩ := ih (i + 1) c (List.zipWith (fun s c => s + areas.getD (i + 1) 0 * c) signal ((c.take (pad + L)).drop pad)) h2 hrep2
      (by rw [List.length_zipWith, hpl, hs, min_self])
    refine ⟨out, ?_, e2, fun j hj => ?_⟩
    · rw [List.range'_succ, convLoop]
      simp only [h1, hpl, hs, if_true]
      exact e1
    · rw [e3 j hj, getD_zipWith_add _ (by rw [hpl, hs]) (by omega), Finset.sum_eq_sum_Ico_succ_bot (show i + 1 < i + 1 + (cnt + 1) by omega)]
      have hpiece : ((c.take (pad + L)).drop pad).getD j 0 = folds M d (centred ((M : Int) - 1) pe) (i + 1) (((pad + j : Nat) : Int) - ((M : Int) - 1)) := by
        rw [← hrep2, centred_eq]
        unfold at'
        simp only [List.getD_eq_getElem?_getD, List.getElem?_drop, List.getElem?_take]
        rw [if_pos (by omega)]
      rw [hpiece]
      have : i + 1 + 1 + cnt = i + 1 + (cnt + 1) := by omega
      rw [this]
      ring

/-- C96: the spectrum at each bin is the dark spectrum with the probability of no photons plus, for each number of photons before the first with an area not above the minimum, its area times
the normalised dark spectrum convolved as many times with that of one photon; distances are from the last bin not above zero. -/
theorem darkConvolution_spec (G : ℚ → ℚ → ℚ → ℚ) (fuel : Nat) (bins dark : List ℚ) (a : ℚ) (xs : List ℚ) (scale p0 mean gain gainSigma : ℚ)
    (hne : bins ≠ []) (hdark : dark.length = bins.length) (hxs : xs.length = bins.length) (r : Except PyErr (List ℚ × Nat))
    (h : darkConvolution G fuel bins dark a xs scale p0 mean gain gainSigma = some r) :
    ∃ out, ∃ n : Nat, r = .ok (out, n) ∧ out.length = bins.length ∧ area scale p0 mean n ≤ a ∧ (∀ k < n, a < area scale p0 mean k) ∧
      ∀ j, j < bins.length → out.getD j 0 = p0 * dark.getD j 0 + ∑ i ∈ Finset.Ico 1 n, area scale p0 mean i *
        folds (max (below bins) (above bins) : Nat) (centred ((below bins : Int) - 1) (dark.map fun d => d / dark.sum))
          (centred ((below bins : Int) - 1) (xs.map fun x => if x < 0 then 0 else G gain (gainSigma ^ 2) x)) i ((j : Int) - ((below bins : Int) - 1)) := by
  obtain ⟨hp, hp0⟩ := getPadding_spec bins
  have hsplit := countP_split bins
  have hpos : 0 < bins.length := List.length_pos_iff.mpr hne
  unfold darkConvolution at h
  rw [Option.map_eq_some_iff] at h
  obtain ⟨⟨n, is⟩, hn, heq⟩ := h
  obtain ⟨_, hna, hnk, his⟩ := (number_iff fuel a scale p0 mean n is).mp hn
  -- lengths
  obtain ⟨M, hMdef⟩ : ∃ M : Nat, M = max (below bins) (above bins) := ⟨_, rfl⟩
  have hM : 0 < M := by omega
  have hb1 : below bins + (getPadding bins).1 = M := by omega
  have hb2 : above bins + (getPadding bins).2 = M := by omega
  have hsup : suppressNegative xs (xs.map (G gain (gainSigma ^ 2))) = xs.map fun x => if x < 0 then 0 else G gain (gainSigma ^ 2) x := by
    unfold suppressNegative
    rw [List.zipWith_map_right, List.zipWith_self]
    refine List.map_congr_left fun x _ => ?_
    by_cases hx : x < 0
    · rw [if_pos hx, if_neg (not_le.mpr hx)]
    · rw [if_neg hx, if_pos (not_lt.mp hx)]
  have hlen : ∀ ys : List ℚ, ys.length = bins.length → (padZeros (getPadding bins) ys).length = 2 * M := by
    intro ys hy
    unfold padZeros
    rw [List.length_append, List.length_append, List.length_replicate, List.length_replicate, hy]
    omega
  rw [hsup] at heq
  have hl1 := hlen (dark.map fun d => d / dark.sum) (by simp [hdark])
  have hl2 := hlen (xs.map fun x => if x < 0 then 0 else G gain (gainSigma ^ 2) x) (by simp [hxs])
  have hstop : (padZeros (getPadding bins) (dark.map fun d => d / dark.sum)).length - (getPadding bins).2 = (getPadding bins).1 + bins.length := by
    rw [hl1]; omega
  rw [hstop] at heq
  -- padded and centred functions are the same
  have hz : ((M : Int) - 1) = ((below bins : Int) - 1) + ((getPadding bins).1 : Int) := by omega
  have hcd : ∀ ys : List ℚ, centred ((M : Int) - 1) (padZeros (getPadding bins) ys) = centred ((below bins : Int) - 1) ys := by
    intro ys
    funext x
    rw [hz, centred_pad]
  have hd : ∀ x, ¬ (1 - (M : Int) ≤ x ∧ x ≤ M) → centred ((below bins : Int) - 1) (dark.map fun d => d / dark.sum) x = 0 := by
    intro x hx
    unfold centred
    by_cases h0 : 0 ≤ x + ((below bins : Int) - 1)
    · rw [if_pos h0, List.getD_eq_getElem?_getD, List.getElem?_eq_none (by simp [hdark]; omega)]; rfl
    · rw [if_neg h0]
  obtain ⟨sig, e1, e2, e3⟩ := convLoop_spec (M := M) (L := bins.length) (pad := (getPadding bins).1) hM (areas := is) hl2 (by omega) _ hd (n - 1) 0 _
    (dark.map fun _ => 0) hl1 (fun x => by rw [hcd]; rfl) (by simp [hdark])
  rw [Nat.zero_add] at e1 e3
  simp only [e1] at heq
  refine ⟨_, n, heq.symm, by rw [List.length_zipWith, e2, List.length_map, hdark, min_self], hna, hnk, fun j hj => ?_⟩
  rw [getD_zipWith_add _ (by rw [e2]; simp [hdark]) (by simp [hdark]; omega), e3 j hj]
  have hz0 : (dark.map fun _ => (0 : ℚ)).getD j 0 = 0 := by
    simp only [List.getD_eq_getElem?_getD, List.getElem?_map]
    cases dark[j]? <;> simp
  have hped : (dark.map fun d => p0 * d).getD j 0 = p0 * dark.getD j 0 := by
    simp only [List.getD_eq_getElem?_getD, List.getElem?_map]
    cases dark[j]? <;> simp
  rw [hz0, hped, zero_add, hcd]
  congr 1
  have hIco : Finset.Ico 1 (1 + (n - 1)) = Finset.Ico 1 n := by
    ext k; simp only [Finset.mem_Ico]; omega
  rw [hIco, ← hMdef]
  refine Finset.sum_congr rfl fun k hk => ?_
  rw [Finset.mem_Ico] at hk
  have hak : is.getD k 0 = area scale p0 mean k := by
    rw [his, List.getD_eq_getElem?_getD, List.getElem?_map, List.getElem?_range hk.2]; rfl
  have hx : (((getPadding bins).1 + j : Nat) : Int) - ((M : Int) - 1) = (j : Int) - ((below bins : Int) - 1) := by omega
  rw [hak, hx]

/-- C96: with equally spaced bins, one of them centred at zero, the distances of the theorem are energies. -/
theorem distance_is_energy {bins : List ℚ} {w : ℚ} (hw : 0 < w) {z : Nat} (hz : z < bins.length) (hb : ∀ j, j < bins.length → bins.getD j 0 = ((j : ℚ) - z) * w)
    (j : Nat) (hj : j < bins.length) : below bins = z + 1 ∧ bins.getD j 0 = ((((j : Int) - ((below bins : Int) - 1) : Int)) : ℚ) * w := by
  have hbins : bins = (List.range bins.length).map fun j : Nat => ((j : ℚ) - z) * w := by
    apply List.ext_getElem
    · simp
    · intro i h1 h2
      have := hb i h1
      rw [List.getD_eq_getElem?_getD, List.getElem?_eq_getElem h1, Option.getD_some] at this
      rw [this]; simp
  have hbelow : below bins = z + 1 := by
    unfold below
    rw [hbins, List.countP_map]
    have : ∀ L : Nat, z < L → (List.range L).countP ((fun b : ℚ => decide (b ≤ 0)) ∘ fun j : Nat => ((j : ℚ) - z) * w) = z + 1 := by
      intro L
      induction L with
      | zero => intro h; omega
      | succ L ih =>
        intro h
        have hval : ((((L : Nat) : ℚ) - z) * w ≤ 0) ↔ L ≤ z := by
          constructor
          · intro hle
            by_contra hgt
            have : (z : ℚ) < L := by exact_mod_cast not_le.mp hgt
            have : 0 < ((L : ℚ) - z) * w := mul_pos (by linarith) hw
            linarith
          · intro hle
            have : (L : ℚ) ≤ z := by exact_mod_cast hle
            exact mul_nonpos_of_nonpos_of_nonneg (by linarith) hw.le
        rw [List.range_succ, List.countP_append, List.countP_singleton]
        simp only [Function.comp_apply, hval, decide_eq_true_eq]
        by_cases hzL : z < L
        · rw [ih hzL, if_neg (by omega)]
        · have : z = L := by omega
          subst this
          rw [if_pos (le_refl _)]
          have hall : (List.range z).countP ((fun b : ℚ => decide (b ≤ 0)) ∘ fun j : Nat => ((j : ℚ) - z) * w) = (List.range z).length := by
            rw [List.countP_eq_length]
            intro i hi
            rw [List.mem_range] at hi
            have : (i : ℚ) < z := by exact_mod_cast hi
            simp only [Function.comp_apply, decide_eq_true_eq]
            exact mul_nonpos_of_nonpos_of_nonneg (by linarith) hw.le
          rw [hall, List.length_range]
    exact this _ hz
  refine ⟨hbelow, ?_⟩
  rw [hbelow, hb j hj]
  push_cast
  ring

/-- C96: the search ends for a positive minimum. -/
theorem darkConvolution_terminates (G : ℚ → ℚ → ℚ → ℚ) (bins dark : List ℚ) (a : ℚ) (ha : 0 < a) (xs : List ℚ) (scale p0 mean gain gainSigma : ℚ) :
    ∃ fuel r, darkConvolution G fuel bins dark a xs scale p0 mean gain gainSigma = some r := by
  obtain ⟨fuel, n, is, h⟩ := number_terminates a scale p0 mean ha
  refine ⟨fuel, ?_⟩
  unfold darkConvolution
  rw [h]
  exact ⟨_, rfl⟩

namespace Example
/-- All the light of one photon at its mean. -/
def spike (mu _var x : ℚ) : ℚ := if x = mu then 1 else 0
end Example
open Example

/-- Bins from -1 to 3, dark spectrum at 0, one photon gives 1: the photons are at 1, 2. -/
example : darkConvolution spike 10 [-1, 0, 1, 2, 3] [0, 2, 0, 0, 0] (1/2) [-1, 0, 1, 2, 3] 4 (1/2) 1 1 1 = some (.ok ([0, 1, 2, 1, 0], 3)) := by decide +kernel

example : ∀ j, j < [-1, 0, 1, 2, (3 : ℚ)].length → [-1, 0, 1, 2, (3 : ℚ)].getD j 0 = ((j : ℚ) - (1 : Nat)) * 1 := by decide +kernel

/-- Finding: if zero is not the centre of a bin the spectra are shifted: the dark spectrum at -1/2 and a photon of 3/2 give light at 3/2, not at 1. -/
theorem shifted_bins : darkConvolution spike 10 [-1/2, 1/2, 3/2] [1, 0, 0] 1 [-1/2, 1/2, 3/2] 4 (1/2) 1 (3/2) 1 = some (.ok ([1/2, 0, 2], 2)) := by decide +kernel

end Verif.Spe
