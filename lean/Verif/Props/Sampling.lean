import Verif.Spec.Sampling
import Verif.Lemmas.Lists
import Verif.Lemmas.Hist
/-!
# C44: noise distributions
-/
namespace Verif.Sampling

/-! ### Normalisation -/

theorem sum_map_div (w : List ℚ) (c : ℚ) : (w.map (· / c)).sum = w.sum / c := by
  induction w with
  | nil => simp
  | cons x w ih => rw [List.map_cons, List.sum_cons, ih, List.sum_cons, add_div]

theorem sum_zero_of_nonneg {w : List ℚ} (h : NonNeg w) (hs : w.sum = 0) : ∀ x ∈ w, x = 0 := by
  intro x hx
  have h1 := h x hx
  have h2 := List.single_le_sum h x hx
  rw [hs] at h2
  exact le_antisymm h2 h1

/-- **C44** `normalize_distribution`: weights that add up to one, in the same proportions; weights whose total is zero are left alone, and when none is negative they are all zero. -/
theorem normalize_distribution (w : List ℚ) :
    (normalize w).length = w.length ∧
    (w.sum ≠ 0 → (normalize w).sum = 1) ∧
    (w.sum = 0 → normalize w = w) ∧
    (∀ (i j : Nat), (normalize w).getD i 0 * w.getD j 0 = (normalize w).getD j 0 * w.getD i 0) ∧
    (NonNeg w → NonNeg (normalize w) ∧ (w.sum = 0 → ∀ x ∈ normalize w, x = 0)) := by
  unfold normalize
  by_cases h : w.sum = 0
  · rw [if_neg (show ¬ w.sum ≠ 0 by simpa using h)]
    exact ⟨rfl, fun h' => absurd h h', fun _ => rfl, fun i j => mul_comm _ _, fun hn => ⟨hn, fun hs => sum_zero_of_nonneg hn hs⟩⟩
  · rw [if_pos h]
    have hg : ∀ i : Nat, (w.map (· / w.sum)).getD i 0 = w.getD i 0 / w.sum := by
      intro i
      simp only [List.getD_eq_getElem?_getD, List.getElem?_map]
      cases w[i]? <;> simp
    refine ⟨by simp, fun _ => by rw [sum_map_div, div_self h], fun h' => absurd h' h, fun i j => by rw [hg, hg]; ring, fun hn => ⟨?_, fun hs => absurd hs h⟩⟩
    intro x hx
    obtain ⟨y, hy, rfl⟩ := List.mem_map.1 hx
    exact div_nonneg (hn y hy) (List.sum_nonneg hn)

example : normalize [1, 3, 0] = [1/4, 3/4, 0] ∧ NonNeg [1, 3, 0] := by
  refine ⟨by decide +kernel, ?_⟩
  intro x hx; simp at hx; rcases hx with rfl | rfl | rfl <;> norm_num

/-! ### Quantiles -/

theorem cumsumFrom_get (w : List ℚ) : ∀ (acc : ℚ) (i : Nat), (cumsumFrom acc w)[i]? = if i < w.length then some (acc + massBefore w (i + 1)) else none := by
  induction w with
  | nil => intro acc i; simp [cumsumFrom]
  | cons x w ih =>
    intro acc i
    cases i with
    | zero => simp [cumsumFrom, massBefore]
    | succ i =>
      rw [cumsumFrom, List.getElem?_cons_succ, ih, List.length_cons]
      simp only [Nat.add_lt_add_iff_right, massBefore]
      rw [show (x :: w).take (i + 1 + 1) = x :: w.take (i + 1) from rfl, List.sum_cons, add_assoc]

theorem cumsum_get (w : List ℚ) (i : Nat) : (cumsum w)[i]? = if i < w.length then some (massBefore w (i + 1)) else none := by
  rw [cumsum, cumsumFrom_get]; simp

theorem inverseCdfIndex_iff (w : List ℚ) (p : ℚ) (i : Nat) : inverseCdfIndex (cumsum w) p = .ok i ↔ IsQuantile w p i := by
  unfold inverseCdfIndex IsQuantile
  have hm : ∀ j, j ∈ whereIdx (fun v => decide (p ≤ v)) (cumsum w) ↔ j < w.length ∧ p ≤ massBefore w (j + 1) := by
    intro j
    rw [whereIdx_mem]
    simp only [cumsum_get, decide_eq_true_eq]
    constructor
    · rintro ⟨x, h1, h2⟩
      by_cases hj : j < w.length
      · rw [if_pos hj] at h1; cases h1; exact ⟨hj, h2⟩
      · rw [if_neg hj] at h1; cases h1
    · rintro ⟨h1, h2⟩
      exact ⟨_, if_pos h1, h2⟩
  have hs := whereIdx_sorted (fun v => decide (p ≤ v)) (cumsum w)
  cases hl : whereIdx (fun v => decide (p ≤ v)) (cumsum w) with
  | nil =>
    rw [hl] at hm
    simp only [List.head?_nil, reduceCtorEq, false_iff]
    rintro ⟨h1, h2, _⟩
    exact absurd ((hm i).2 ⟨h1, h2⟩) (by simp)
  | cons a as =>
    rw [hl] at hm hs
    have hs' := List.pairwise_cons.1 hs
    simp only [List.head?_cons, Except.ok.injEq]
    constructor
    · rintro rfl
      obtain ⟨h1, h2⟩ := (hm a).1 List.mem_cons_self
      refine ⟨h1, h2, fun j hj => ?_⟩
      by_contra hc
      have := (hm j).2 ⟨by omega, not_lt.1 hc⟩
      rcases List.mem_cons.1 this with rfl | h
      · omega
      · have := hs'.1 j h; omega
    · rintro ⟨h1, h2, h3⟩
      have hi := (hm i).2 ⟨h1, h2⟩
      rcases List.mem_cons.1 hi with rfl | h
      · rfl
      · have h4 := hs'.1 i h
        have h5 := h3 a h4
        exact absurd ((hm a).1 List.mem_cons_self).2 (not_le.2 h5)

theorem IsQuantile.unique {w : List ℚ} {p : ℚ} {i j : Nat} (h1 : IsQuantile w p i) (h2 : IsQuantile w p j) : i = j := by
  have a := (inverseCdfIndex_iff w p i).2 h1
  have b := (inverseCdfIndex_iff w p j).2 h2
  rw [a] at b; exact Except.ok.inj b

theorem massBefore_mono {w : List ℚ} (hn : NonNeg w) {i j : Nat} (h : i ≤ j) : massBefore w i ≤ massBefore w j := by
  obtain ⟨d, rfl⟩ := Nat.exists_eq_add_of_le h
  unfold massBefore
  rw [List.take_add, List.sum_append]
  have : 0 ≤ ((w.drop i).take d).sum := List.sum_nonneg fun x hx => hn x (List.mem_of_mem_drop (List.mem_of_mem_take hx))
  linarith

theorem cumsum_all_zero {w : List ℚ} (hn : NonNeg w) : ((cumsum w).all fun v => decide (v = 0)) = true ↔ ∀ x ∈ w, x = 0 := by
  rw [List.all_eq_true]
  constructor
  · intro h
    have hs : w.sum = 0 := by
      cases hw : w.length with
      | zero => rw [List.length_eq_zero_iff] at hw; subst hw; rfl
      | succ n =>
        have := h (massBefore w (n + 1)) (List.mem_of_getElem? (i := n) (by rw [cumsum_get, if_pos (by omega)]))
        rw [massBefore, List.take_of_length_le (by omega)] at this
        simpa using this
    exact sum_zero_of_nonneg hn hs
  · intro h v hv
    obtain ⟨i, hi⟩ := List.mem_iff_getElem?.1 hv
    rw [cumsum_get] at hi
    split at hi
    · cases hi
      have : massBefore w (i + 1) = 0 := by
        unfold massBefore
        apply List.sum_eq_zero
        intro x hx
        exact h x (List.mem_of_mem_take hx)
      simpa using this
    · cases hi

/-- **C44** The threshold of a sensor: infinite exactly when all its probabilities are zero; otherwise the first bin where the cumulated probability is at least the percentile;
`IndexError` exactly when there is none, that is when the total probability is less than the percentile. -/
theorem threshold_spec (x w : List ℚ) (p : ℚ) (hl : x.length = w.length) (hn : NonNeg w) :
    ((inverseCdf x (cumsum w) p = .ok none) ↔ ∀ v ∈ w, v = 0) ∧
    (∀ v, inverseCdf x (cumsum w) p = .ok (some v) ↔ (∃ u ∈ w, u ≠ 0) ∧ ∃ i, IsQuantile w p i ∧ x[i]? = some v) ∧
    (∀ e, inverseCdf x (cumsum w) p = .error e ↔ e = .indexError ∧ (∃ u ∈ w, u ≠ 0) ∧ w.sum < p) := by
  have hz := cumsum_all_zero hn
  unfold inverseCdf
  by_cases h : ∀ v ∈ w, v = 0
  · rw [if_pos (hz.2 h)]
    have hne : ¬ ∃ u ∈ w, u ≠ 0 := by rintro ⟨u, hu, hu'⟩; exact hu' (h u hu)
    exact ⟨⟨fun _ => h, fun _ => rfl⟩, fun v => ⟨fun h' => (by cases h'), fun h' => absurd h'.1 hne⟩, fun e => ⟨fun h' => (by cases h'), fun h' => absurd h'.2.1 hne⟩⟩
  · rw [if_neg (fun h' => h (hz.1 h'))]
    have hex : ∃ u ∈ w, u ≠ 0 := by
      by_contra hc
      exact h fun v hv => by_contra fun hv' => hc ⟨v, hv, hv'⟩
    cases hi : inverseCdfIndex (cumsum w) p with
    | ok i =>
      have hq := (inverseCdfIndex_iff w p i).1 hi
      have hlt : i < x.length := by rw [hl]; exact hq.1
      simp only [List.getElem?_eq_getElem hlt]
      refine ⟨⟨fun h' => (by cases h'), fun h' => absurd h' h⟩, fun v => ?_, fun e => ⟨fun h' => (by cases h'), fun h' => ?_⟩⟩
      · constructor
        · intro h'
          simp only [Except.ok.injEq, Option.some.injEq] at h'
          exact ⟨hex, i, hq, by rw [List.getElem?_eq_getElem hlt, h']⟩
        · rintro ⟨_, j, hj, hv⟩
          obtain rfl := hq.unique hj
          rw [List.getElem?_eq_getElem hlt] at hv
          rw [hv]
      · have h1 := hq.2.1
        have h2 := massBefore_mono hn (show i + 1 ≤ w.length from hq.1)
        rw [massBefore, massBefore, List.take_of_length_le le_rfl] at h2
        have h3 := h'.2.2
        rw [massBefore] at h1
        linarith
    | error e =>
      have hnone : ∀ i, ¬ IsQuantile w p i := by
        intro i hq
        rw [(inverseCdfIndex_iff w p i).2 hq] at hi; cases hi
      have hlt : w.sum < p := by
        by_contra hc
        -- the first index whose cumulated probability reaches the percentile
        have hpos : w ≠ [] := by rintro rfl; obtain ⟨u, hu, _⟩ := hex; cases hu
        have hP : ∃ i, i < w.length ∧ p ≤ massBefore w (i + 1) := by
          refine ⟨w.length - 1, Nat.sub_lt (List.length_pos_iff.2 hpos) Nat.one_pos, ?_⟩
          rw [massBefore, List.take_of_length_le (by omega)]
          exact not_lt.1 hc
        let i := Nat.find hP
        have h1 := Nat.find_spec hP
        refine hnone i ⟨h1.1, h1.2, fun j hj => ?_⟩
        by_contra hc'
        exact Nat.find_min hP hj ⟨by have := h1.1; omega, not_lt.1 hc'⟩
      have he : e = .indexError := by
        unfold inverseCdfIndex at hi
        split at hi
        · exact (Except.error.inj hi).symm
        · cases hi
      refine ⟨⟨fun h' => (by cases h'), fun h' => absurd h' h⟩, fun v => ⟨fun h' => (by cases h'), fun h' => ?_⟩, fun e' => ?_⟩
      · obtain ⟨_, i, hq, _⟩ := h'; exact absurd hq (hnone i)
      · simp only [Except.error.injEq]
        exact ⟨fun h' => ⟨h' ▸ he, hex, hlt⟩, fun h' => by rw [h'.1, he]⟩

/-- **C44** With increasing bins, the threshold does not decrease with the percentile. -/
theorem threshold_monotone (x w : List ℚ) (p p' v v' : ℚ) (hx : x.Pairwise (· ≤ ·)) (hl : x.length = w.length) (hn : NonNeg w) (hp : p ≤ p')
    (h1 : inverseCdf x (cumsum w) p = .ok (some v)) (h2 : inverseCdf x (cumsum w) p' = .ok (some v')) : v ≤ v' := by
  obtain ⟨_, i, hi, hv⟩ := ((threshold_spec x w p hl hn).2.1 v).1 h1
  obtain ⟨_, j, hj, hv'⟩ := ((threshold_spec x w p' hl hn).2.1 v').1 h2
  have hij : i ≤ j := by
    by_contra hc
    have := hi.2.2 j (by omega)
    have := hj.2.1
    linarith
  rcases Nat.lt_or_ge i j with h | h
  · obtain ⟨hi1, hi2⟩ := List.getElem?_eq_some_iff.1 hv
    obtain ⟨hj1, hj2⟩ := List.getElem?_eq_some_iff.1 hv'
    rw [← hi2, ← hj2]
    exact List.pairwise_iff_getElem.1 hx i j hi1 hj1 h
  · obtain rfl : i = j := by omega
    rw [hv] at hv'; exact le_of_eq (Option.some.inj hv')

/-- The probability of the bins with `q`. -/
def massWhere (x w : List ℚ) (q : ℚ → Bool) : ℚ := (((x.zip w).filter fun b => q b.1).map Prod.snd).sum

theorem massWhere_prefix (x w : List ℚ) (q : ℚ → Bool) (k : Nat) (hl : x.length = w.length) (hk : k ≤ w.length)
    (h1 : ∀ (i : Nat) v, i < k → x[i]? = some v → q v = true) (h2 : ∀ (i : Nat) v, k ≤ i → x[i]? = some v → q v = false) : massWhere x w q = massBefore w k := by
  unfold massWhere massBefore
  have : (x.zip w).filter (fun b => q b.1) = (x.zip w).take k := by
    conv_lhs => rw [← List.take_append_drop k (x.zip w)]
    rw [List.filter_append]
    have e1 : ((x.zip w).take k).filter (fun b => q b.1) = (x.zip w).take k := by
      rw [List.filter_eq_self]
      intro b hb
      obtain ⟨i, hi⟩ := List.mem_iff_getElem?.1 hb
      rw [List.getElem?_take] at hi
      split at hi
      · rename_i hik
        exact h1 i b.1 hik (List.getElem?_zip_eq_some.1 hi).1
      · cases hi
    have e2 : ((x.zip w).drop k).filter (fun b => q b.1) = [] := by
      rw [List.filter_eq_nil_iff]
      intro b hb
      obtain ⟨i, hi⟩ := List.mem_iff_getElem?.1 hb
      rw [List.getElem?_drop] at hi
      rw [h2 (k + i) b.1 (by omega) (List.getElem?_zip_eq_some.1 hi).1]
      simp
    rw [e1, e2, List.append_nil]
  rw [this, List.map_take, List.map_snd_zip (by omega)]

/-- **C44** What the threshold means: with strictly increasing bins and a positive percentile, the probability at or below the threshold is at least the percentile and the one strictly below it is less. -/
theorem threshold_fraction (x w : List ℚ) (p v : ℚ) (hx : x.Pairwise (· < ·)) (hl : x.length = w.length) (hn : NonNeg w) (hp : 0 < p)
    (h : inverseCdf x (cumsum w) p = .ok (some v)) :
    p ≤ massWhere x w (fun y => decide (y ≤ v)) ∧ massWhere x w (fun y => decide (y < v)) < p := by
  obtain ⟨_, i, hi, hv⟩ := ((threshold_spec x w p hl hn).2.1 v).1 h
  obtain ⟨hi1, hi2⟩ := List.getElem?_eq_some_iff.1 hv
  have hord : ∀ (a b : Nat) (u u' : ℚ), a < b → x[a]? = some u → x[b]? = some u' → u < u' := by
    intro a b u u' hab ha hb
    obtain ⟨ha1, ha2⟩ := List.getElem?_eq_some_iff.1 ha
    obtain ⟨hb1, hb2⟩ := List.getElem?_eq_some_iff.1 hb
    rw [← ha2, ← hb2]
    exact List.pairwise_iff_getElem.1 hx a b ha1 hb1 hab
  refine ⟨?_, ?_⟩
  · rw [massWhere_prefix x w _ (i + 1) hl hi.1]
    · exact hi.2.1
    · intro j u hj hu
      rcases Nat.lt_or_ge j i with h' | h'
      · simpa using (hord j i u v h' hu hv).le
      · obtain rfl : j = i := by omega
        rw [hv] at hu; simpa using (le_of_eq (Option.some.inj hu).symm)
    · intro j u hj hu
      simpa using hord i j v u (by omega) hv hu
  · rw [massWhere_prefix x w _ i hl hi.1.le]
    · rcases Nat.eq_zero_or_pos i with rfl | hpos
      · simpa [massBefore] using hp
      · have := hi.2.2 (i - 1) (by omega)
        rwa [Nat.sub_add_cancel hpos] at this
    · intro j u hj hu
      simpa using hord j i u v hj hu hv
    · intro j u hj hu
      rcases Nat.eq_or_lt_of_le hj with h' | h'
      · subst h'; rw [hv] at hu; simpa using (le_of_eq (Option.some.inj hu))
      · simpa using (hord i j v u h' hv hu).le

example : inverseCdf [-1, 0, 1, 2] (cumsum [1/10, 6/10, 3/10, 0]) (9/10) = .ok (some 1) ∧
    inverseCdf [-1, 0, 1, 2] (cumsum [1/10, 6/10, 3/10, 0]) (1/2) = .ok (some 0) ∧
    inverseCdf [-1, 0] (cumsum [0, 0]) (1/2) = .ok none ∧ inverseCdf [-1, 0] (cumsum [1/4, 1/4]) (9/10) = .error .indexError ∧
    NonNeg [1/10, 6/10, 3/10, 0] ∧ ([-1, 0, 1, 2] : List ℚ).Pairwise (· < ·) := by
  refine ⟨by decide +kernel, by decide +kernel, by decide +kernel, by decide +kernel, ?_, by decide +kernel⟩
  intro x hx; simp at hx; rcases hx with rfl | rfl | rfl | rfl <;> norm_num

/-! ### The sampler -/

/-- The distributions of the sensors and their thresholds: sensors in order, one per row. -/
theorem new_probs (probs : List (List ℚ)) (xbins baselines active adc : List ℚ) (hl : active.length = probs.length) (k : Nat) (w : List ℚ) (a : ℚ)
    (hw : probs[k]? = some w) (ha : active[k]? = some a) :
    (Sampler.new probs xbins baselines active adc).probs[k]? = some (normalize (w.map (· * a))) := by
  simp only [Sampler.new, maskRows, List.getElem?_map, List.getElem?_zipWith, ha, hw, Option.map_some]

theorem masked_row {w : List ℚ} {a : ℚ} (hn : NonNeg w) (ha : 0 ≤ a) :
    NonNeg (normalize (w.map (· * a))) ∧ (normalize (w.map (· * a))).length = w.length ∧
    ((∀ v ∈ normalize (w.map (· * a)), v = 0) ∨ (normalize (w.map (· * a))).sum = 1) := by
  have hn' : NonNeg (w.map (· * a)) := by
    intro x hx; obtain ⟨y, hy, rfl⟩ := List.mem_map.1 hx; exact mul_nonneg (hn y hy) ha
  obtain ⟨h1, h2, h3, _, h5⟩ := normalize_distribution (w.map (· * a))
  refine ⟨(h5 hn').1, by rw [h1, List.length_map], ?_⟩
  by_cases hs : (w.map (· * a)).sum = 0
  · exact .inl ((h5 hn').2 hs)
  · exact .inr (h2 hs)

/-- **C44** `compute_thresholds` never fails for a percentile of at most one: one threshold per sensor, in order; infinite exactly for the sensors whose masked distribution is zero; for the others, the
conversion factor times the bin of the percentile of their normalised distribution. -/
theorem compute_thresholds (probs : List (List ℚ)) (xbins baselines active adc : List ℚ) (cut c : ℚ) (hl : active.length = probs.length)
    (hrow : ∀ w ∈ probs, w.length = xbins.length ∧ NonNeg w) (ha : ∀ a ∈ active, 0 ≤ a) (hc : cut ≤ 1) :
    ∃ thr, computeThresholds (Sampler.new probs xbins baselines active adc) cut c = .ok thr ∧ thr.length = probs.length ∧
      ∀ (k : Nat) (w : List ℚ) (a : ℚ) (t : Option ℚ), probs[k]? = some w → active[k]? = some a → thr[k]? = some t →
        (t = none ↔ a = 0 ∨ ∀ v ∈ w, v = 0) ∧
        (∀ v, t = some v → ∃ i x, IsQuantile (normalize (w.map (· * a))) cut i ∧ xbins[i]? = some x ∧ v = x * c) := by
  have hok : ∀ row ∈ (Sampler.new probs xbins baselines active adc).probs, ∃ t, inverseCdf xbins (cumsum row) cut = .ok t := by
    intro row hr
    simp only [Sampler.new, maskRows, List.mem_map] at hr
    obtain ⟨r, hr, rfl⟩ := hr
    obtain ⟨k, hk⟩ := List.mem_iff_getElem?.1 hr
    rw [List.getElem?_zipWith] at hk
    cases h1 : active[k]? with
    | none => simp [h1] at hk
    | some a => cases h2 : probs[k]? with
      | none => simp [h1, h2] at hk
      | some w =>
        simp only [h1, h2, Option.some.injEq] at hk
        subst hk
        obtain ⟨hwl, hwn⟩ := hrow w (List.mem_of_getElem? h2)
        obtain ⟨m1, m2, m3⟩ := masked_row hwn (ha a (List.mem_of_getElem? h1))
        have hsp := threshold_spec xbins _ cut (by rw [m2, hwl]) m1
        cases he : inverseCdf xbins (cumsum (normalize (w.map (· * a)))) cut with
        | ok t => exact ⟨t, rfl⟩
        | error e =>
          obtain ⟨_, ⟨u, hu, hu'⟩, hlt⟩ := (hsp.2.2 e).1 he
          rcases m3 with m3 | m3
          · exact absurd (m3 u hu) hu'
          · rw [m3] at hlt; linarith
  obtain ⟨out, hout⟩ := mapM_ok hok
  have hf := mapM_ok_iff.1 hout
  have hlen : (Sampler.new probs xbins baselines active adc).probs.length = probs.length := by simp [Sampler.new, maskRows, hl]
  refine ⟨out.map (Option.map (· * c)), ?_, ?_, ?_⟩
  · unfold computeThresholds generalThresholds
    rw [show (Sampler.new probs xbins baselines active adc).xbins = xbins from rfl, hout]
  · rw [List.length_map, ← hf.length_eq, hlen]
  · intro k w a t hw hka ht
    rw [List.getElem?_map, Option.map_eq_some_iff] at ht
    obtain ⟨t0, ht0, rfl⟩ := ht
    have hp := new_probs probs xbins baselines active adc hl k w a hw hka
    have hinv := (forall₂_getElem? hf) k _ _ hp ht0
    obtain ⟨hwl, hwn⟩ := hrow w (List.mem_of_getElem? hw)
    have ha' := ha a (List.mem_of_getElem? hka)
    obtain ⟨m1, m2, m3⟩ := masked_row hwn ha'
    have hsp := threshold_spec xbins _ cut (by rw [m2, hwl]) m1
    have hzero : (∀ v ∈ normalize (w.map (· * a)), v = 0) ↔ a = 0 ∨ ∀ v ∈ w, v = 0 := by
      constructor
      · intro h
        by_cases haz : a = 0
        · exact .inl haz
        · right
          by_cases hs : (w.map (· * a)).sum = 0
          · have hn' : NonNeg (w.map (· * a)) := by
              intro x hx; obtain ⟨y, hy, rfl⟩ := List.mem_map.1 hx; exact mul_nonneg (hwn y hy) ha'
            intro v hv
            have := sum_zero_of_nonneg hn' hs (v * a) (List.mem_map_of_mem hv)
            rcases mul_eq_zero.1 this with h' | h'
            · exact h'
            · exact absurd h' haz
          · have h1 := (normalize_distribution (w.map (· * a))).2.1 hs
            rw [List.sum_eq_zero h] at h1
            exact absurd h1 (by norm_num)
      · intro h
        have hz : ∀ x ∈ w.map (· * a), x = 0 := by
          intro x hx
          obtain ⟨y, hy, rfl⟩ := List.mem_map.1 hx
          rcases h with rfl | h
          · exact mul_zero y
          · rw [h y hy, zero_mul]
        have hs : (w.map (· * a)).sum = 0 := List.sum_eq_zero hz
        rw [(normalize_distribution (w.map (· * a))).2.2.1 hs]
        exact hz
    refine ⟨?_, ?_⟩
    · rw [← hzero, ← hsp.1, hinv]
      cases t0 <;> simp
    · intro v hv
      rw [Option.map_eq_some_iff] at hv
      obtain ⟨x, rfl, rfl⟩ := hv
      obtain ⟨_, i, hq, hx⟩ := (hsp.2.1 x).1 hinv
      exact ⟨i, x, hq, hx, rfl⟩

/-- **C44** `sample`: zeros for masked sensors; for active ones, the baseline plus the gain times a value within the drawn deviation of the centre of the drawn bin. -/
theorem sample_spec (s : Sampler) (draws : List (List Nat)) (dev : Option (List (List ℚ))) (k : Nat) (a : ℚ) (ha : s.active[k]? = some a) :
    ∃ row, (sample s draws dev)[k]? = some row ∧
      (a = 0 → ∀ v ∈ row, v = 0) ∧
      (a = 1 → (∃ u ∈ s.probs.getD k [], u ≠ 0) → ∀ (j i : Nat) (v : ℚ), (draws.getD k [])[j]? = some i → row[j]? = some v →
        ∃ d, v = s.adcToPes.getD k 0 * (s.xbins.getD i 0 + d) + s.baselines.getD k 0 ∧
          (dev = none → d = 0) ∧ ∀ ds, dev = some ds → (ds.getD k [])[j]? = some d) := by
  have hk : k < s.active.length := (List.getElem?_eq_some_iff.1 ha).1
  have hg : s.active.getD k 0 = a := by rw [List.getD_eq_getElem?_getD, ha]; rfl
  refine ⟨sampleRow s k (draws.getD k []) (dev.map fun d => d.getD k []), ?_, ?_, ?_⟩
  · simp [sample, List.getElem?_range, hk]
  · intro h0 v hv
    rw [sampleRow, hg] at hv
    obtain ⟨u, _, rfl⟩ := List.mem_map.1 hv
    rw [h0, mul_zero]
  · intro h1 ⟨u, hu, hu'⟩ j i v hj hv
    rw [sampleRow, hg, h1] at hv
    have hna : ¬ ((s.probs.getD k []).all (fun v => decide (v = 0)) = true) := by
      intro h; exact hu' (by simpa using List.all_eq_true.1 h u hu)
    have hsd : (sampleDiscrete s.xbins (s.probs.getD k []) (draws.getD k []))[j]? = some (s.xbins.getD i 0) := by
      rw [sampleDiscrete, if_neg hna, List.getElem?_map, hj]; rfl
    cases dev with
    | none =>
      simp only [smeared, Option.map_none, List.getElem?_map, hsd, Option.map_some, Option.some.injEq] at hv
      exact ⟨0, by rw [← hv]; ring, fun _ => rfl, fun ds h => by cases h⟩
    | some ds =>
      simp only [smeared, Option.map_some, List.getElem?_map] at hv
      rw [Option.map_eq_some_iff] at hv
      obtain ⟨y, hy, rfl⟩ := hv
      obtain ⟨x, d, hx, hd, rfl⟩ := List.getElem?_zipWith_eq_some.1 hy
      rw [hsd] at hx; cases hx
      refine ⟨d, by ring, fun h => (by cases h), fun ds' h => ?_⟩
      cases h; exact hd

/-- Two sensors, the second one masked. -/
def exSampler : Sampler := Sampler.new [[1, 3, 4], [2, 2, 2]] [-1, 0, 1] [10, 20] [1, 0] [2, 2]

example : computeThresholds exSampler (9/10) 2 = .ok [some 2, none] ∧ (∃ u ∈ exSampler.probs.getD 0 [], u ≠ 0) ∧
    exSampler.active[0]? = some 1 ∧ exSampler.active[1]? = some 0 ∧
    sample exSampler [[2, 0], [1, 1]] (some [[1/4, -1/4], [0, 1/8]]) = [[25/2, 15/2], [0, 0]] :=
  ⟨by decide +kernel, ⟨1/8, by decide +kernel, by decide +kernel⟩, rfl, rfl, by decide +kernel⟩

end Verif.Sampling
