import Verif.Spec.Blr
import Verif.Lemmas.Lists
import Mathlib.Tactic.Linarith
import Mathlib.Tactic.Ring
import Mathlib.Tactic.LinearCombination
import Mathlib.Tactic.FieldSimp
import Mathlib.Tactic.Positivity
import Mathlib.Algebra.Order.Field.Rat
import Mathlib.Algebra.BigOperators.Intervals
import Mathlib.Algebra.Order.Archimedean.Basic
/-!
# C85: restoration of the baseline of a waveform
-/
namespace Verif.Blr
open Spec

theorem ltRoot_iff (s thr : ℚ) {n : ℚ} (hn : 0 ≤ n) : ltRoot s thr n = true ↔ (s : ℝ) < thr * √(n : ℝ) := by
  have hn' : (0 : ℝ) ≤ n := by exact_mod_cast hn
  have hs := Real.sqrt_nonneg (n : ℝ)
  have hq := Real.mul_self_sqrt hn'
  have e : (thr * √(n : ℝ)) * (thr * √(n : ℝ)) = ((thr * thr * n : ℚ) : ℝ) := by
    push_cast
    calc (thr : ℝ) * √(n : ℝ) * (thr * √(n : ℝ)) = thr * thr * (√(n : ℝ) * √(n : ℝ)) := by ring
      _ = _ := by rw [hq]
  have e2 : ((s * s : ℚ) : ℝ) = (s : ℝ) * s := by push_cast; rfl
  unfold ltRoot
  by_cases ht : 0 ≤ thr
  · have ht' : (0 : ℝ) ≤ thr := by exact_mod_cast ht
    have hp := mul_nonneg ht' hs
    rw [if_pos ht, Bool.or_eq_true, decide_eq_true_iff, decide_eq_true_iff]
    constructor
    · rintro (h | h)
      · exact lt_of_lt_of_le (by exact_mod_cast h) hp
      · have h' : (s : ℝ) * s < (thr * √(n : ℝ)) * (thr * √(n : ℝ)) := by rw [e, ← e2]; exact_mod_cast h
        by_contra hc
        exact absurd (mul_self_le_mul_self hp (not_lt.1 hc)) (not_le.2 h')
    · intro h
      rcases lt_or_ge s 0 with h0 | h0
      · exact Or.inl h0
      · right
        have h0' : (0 : ℝ) ≤ s := by exact_mod_cast h0
        have h' := mul_self_lt_mul_self h0' h
        rw [e, ← e2] at h'
        exact_mod_cast h'
  · have ht' : (thr : ℝ) < 0 := by exact_mod_cast not_le.1 ht
    have hp : thr * √(n : ℝ) ≤ 0 := mul_nonpos_of_nonpos_of_nonneg ht'.le hs
    rw [if_neg ht, Bool.and_eq_true, decide_eq_true_iff, decide_eq_true_iff]
    constructor
    · rintro ⟨h0, h⟩
      have h0' : (s : ℝ) < 0 := by exact_mod_cast h0
      have h' : (thr * √(n : ℝ)) * (thr * √(n : ℝ)) < (s : ℝ) * s := by rw [e, ← e2]; exact_mod_cast h
      by_contra hc
      have := mul_self_le_mul_self (neg_nonneg.2 h0'.le) (neg_le_neg (not_lt.1 hc))
      rw [neg_mul_neg, neg_mul_neg] at this
      exact absurd this (not_le.2 h')
    · intro h
      have h0 : (s : ℝ) < 0 := lt_of_lt_of_le h hp
      refine ⟨by exact_mod_cast h0, ?_⟩
      have h' := mul_self_lt_mul_self (neg_nonneg.2 hp) (neg_lt_neg h)
      rw [neg_mul_neg, neg_mul_neg, e, ← e2] at h'
      exact_mod_cast h'

theorem sum_take (f : ℚ → ℚ) (n : Nat) (xs : List ℚ) (h : n ≤ xs.length) : ((xs.take n).map f).sum = ∑ i ∈ Finset.range n, f (samples xs i) := by
  induction n with
  | zero => simp
  | succ n ih =>
    rw [Finset.sum_range_succ, ← ih (by omega), List.take_add_one, List.getElem?_eq_getElem (by omega), List.map_append, List.sum_append]
    simp [samples, List.getD_eq_getElem?_getD, List.getElem?_eq_getElem (show n < xs.length by omega)]

theorem noise_eq {xs : List ℚ} (h : 400 ≤ xs.length) : noise xs = meanSquare (samples xs) := by
  unfold noise meanSquare
  rw [sum_take _ _ _ h]
  simp only [pow_two]

theorem noise_nonneg (xs : List ℚ) : 0 ≤ noise xs := by
  unfold noise
  refine div_nonneg (List.sum_nonneg ?_) (by norm_num)
  intro y hy
  obtain ⟨x, -, rfl⟩ := List.mem_map.1 hy
  exact mul_self_nonneg x

theorem meanSquare_nonneg (x : Nat → ℚ) : 0 ≤ meanSquare x := div_nonneg (Finset.sum_nonneg fun _ _ => sq_nonneg _) (by norm_num)

theorem lfilter_length (b0 b1 a1 : ℚ) (xs : List ℚ) : ∀ xp yp, (lfilterFrom b0 b1 a1 xp yp xs).length = xs.length := by
  induction xs with
  | nil => intros; rfl
  | cons x xs ih => intro xp yp; rw [lfilterFrom, List.length_cons, ih, List.length_cons]

/-- The previous sample, `p` at the start. -/
def prev (p : ℚ) (f : Nat → ℚ) : Nat → ℚ
  | 0 => p
  | n + 1 => f n

theorem lfilter_get (b0 b1 a1 : ℚ) (xs : List ℚ) : ∀ (xp yp : ℚ) (n : Nat), n < xs.length →
    samples (lfilterFrom b0 b1 a1 xp yp xs) n = b0 * samples xs n + b1 * prev xp (samples xs) n - a1 * prev yp (samples (lfilterFrom b0 b1 a1 xp yp xs)) n := by
  induction xs with
  | nil => intro xp yp n h; cases h
  | cons x xs ih =>
    intro xp yp n h
    cases n with
    | zero => simp [lfilterFrom, samples, prev]
    | succ n =>
      have := ih x (b0 * x + b1 * xp - a1 * yp) n (by simpa using h)
      rw [lfilterFrom]
      cases n with
      | zero => simpa [samples, prev] using this
      | succ n => simpa [samples, prev] using this

theorem prev_zero (f : Nat → ℚ) (n : Nat) : prev 0 f n = before f n := by cases n <;> rfl

theorem clean_length (w : ℚ) (xs : List ℚ) : (clean w xs).length = xs.length := lfilter_length ..

theorem clean_spec {w : ℚ} (hw : 1 + w ≠ 0) (xs : List ℚ) : HighPass w xs.length (samples xs) (samples (clean w xs)) := by
  intro n h
  have := lfilter_get (1 / (1 + w)) (-1 / (1 + w)) ((w - 1) / (1 + w)) xs 0 0 n h
  rw [prev_zero, prev_zero] at this
  rw [clean, this]
  field_simp
  ring

/-- A high-pass filter has one response. -/
theorem highPass_unique {k : ℚ} (hk : 1 + k ≠ 0) {N : Nat} {x y z : Nat → ℚ} (hy : HighPass k N x y) (hz : HighPass k N x z) : ∀ n < N, y n = z n := by
  intro n
  induction n with
  | zero =>
    intro h
    have h1 := hy 0 h
    have h2 := hz 0 h
    simp only [before, mul_zero, sub_zero] at h1 h2
    exact mul_left_cancel₀ hk (h1.trans h2.symm)
  | succ n ih =>
    intro h
    have h1 := hy _ h
    have h2 := hz _ h
    simp only [before, ih (by omega)] at h1 h2
    apply mul_left_cancel₀ hk
    linarith

/-- The order of two high-pass filters does not matter. -/
theorem highPass_comm {k w : ℚ} (hw : 1 + w ≠ 0) {N : Nat} {x r y z : Nat → ℚ} (h1 : HighPass k N x r) (h2 : HighPass w N r y) (h3 : HighPass w N x z) : HighPass k N z y := by
  -- both sides satisfy the same recursion with constant `w`
  have key : ∀ n < N, (1 + w) * (((1 + k) * y n - (1 - k) * before y n) - (z n - before z n)) = (1 - w) * (before (fun m => ((1 + k) * y m - (1 - k) * before y m) - (z m - before z m)) n) := by
    intro n hn
    cases n with
    | zero =>
      have a1 := h1 0 hn
      have a2 := h2 0 hn
      have a3 := h3 0 hn
      simp only [before, mul_zero, sub_zero] at *
      linear_combination (1 + k) * a2 + a1 - a3
    | succ n =>
      cases n with
      | zero =>
        have a1 := h1 1 hn
        have a2 := h2 1 hn
        have a3 := h3 1 hn
        have b1 := h1 0 (by omega)
        have b2 := h2 0 (by omega)
        have b3 := h3 0 (by omega)
        simp only [before, mul_zero, sub_zero] at *
        linear_combination (1 + k) * a2 + a1 - a3 - (1 - k) * b2 - b1 + b3
      | succ n =>
        have a1 := h1 (n + 2) hn
        have a2 := h2 (n + 2) hn
        have a3 := h3 (n + 2) hn
        have b1 := h1 (n + 1) (by omega)
        have b2 := h2 (n + 1) (by omega)
        have b3 := h3 (n + 1) (by omega)
        simp only [before] at *
        linear_combination (1 + k) * a2 + a1 - a3 - (1 - k) * b2 - b1 + b3
  intro n
  induction n with
  | zero =>
    intro hn
    have e := (mul_eq_zero.1 ((key 0 hn).trans (mul_zero _))).resolve_left hw
    linarith
  | succ n ih =>
    intro hn
    have e0 : before (fun m => ((1 + k) * y m - (1 - k) * before y m) - (z m - before z m)) (n + 1) = 0 := sub_eq_zero.2 (ih (by omega))
    have e := key _ hn
    rw [e0, mul_zero] at e
    have e := (mul_eq_zero.1 e).resolve_left hw
    linarith

/-- The history of the accumulator and the counter. -/
def history (c thr n : ℚ) (len : Int) (y : Nat → ℚ) : Nat → ℚ × Int
  | 0 => (0, 0)
  | m + 1 => charge c thr n len (history c thr n len y m) (y (m + 1))

theorem recover_length (c thr n : ℚ) (len : Int) (ss : List ℚ) : ∀ st, (recover c thr n len st ss).length = ss.length := by
  induction ss with
  | nil => intro; rfl
  | cons s ss ih => intro st; rw [recover, List.length_cons, ih, List.length_cons]

theorem recover_get (c thr n : ℚ) (len : Int) (y : Nat → ℚ) (ss : List ℚ) : ∀ (k : Nat), (∀ m < ss.length, samples ss m = y (k + 1 + m)) → ∀ m < ss.length,
    samples (recover c thr n len (history c thr n len y k) ss) m = (1 + c / 2) * y (k + 1 + m) + c * (history c thr n len y (k + m)).1 := by
  induction ss with
  | nil => intro k _ m h; cases h
  | cons s ss ih =>
    intro k hy m h
    have h0 : s = y (k + 1) := by simpa [samples] using hy 0 (by simp)
    cases m with
    | zero =>
      simp only [recover, samples, List.getD_cons_zero, Nat.add_zero, ← h0]
      ring
    | succ m =>
      have := ih (k + 1) (fun m hm => by
        have := hy (m + 1) (by simpa using hm)
        rw [show k + 1 + 1 + m = k + 1 + (m + 1) by omega]
        simpa [samples] using this) m (by simpa using h)
      rw [show k + 1 + (m + 1) = k + 1 + 1 + m by omega, show k + (m + 1) = k + 1 + m by omega, ← this]
      simp only [recover, samples, List.getD_cons_succ]
      rw [h0]
      rfl

theorem recoverAll_length (c thr n : ℚ) (len : Int) (ss : List ℚ) : (recoverAll c thr n len ss).length = ss.length := by
  cases ss with
  | nil => rfl
  | cons s ss => rw [recoverAll, List.length_cons, recover_length, List.length_cons]

theorem recoverAll_get (c thr n : ℚ) (len : Int) (ss : List ℚ) :
    samples (recoverAll c thr n len ss) 0 = samples ss 0 ∧
    ∀ m, m + 1 < ss.length → samples (recoverAll c thr n len ss) (m + 1) = (1 + c / 2) * samples ss (m + 1) + c * (history c thr n len (samples ss) m).1 := by
  cases ss with
  | nil => exact ⟨rfl, fun m h => by cases h⟩
  | cons s ss =>
    refine ⟨rfl, fun m h => ?_⟩
    have := recover_get c thr n len (samples (s :: ss)) ss 0 (fun m hm => by rw [show 0 + 1 + m = m + 1 by omega]; rfl) m (by simpa using h)
    rw [show 0 + 1 + m = m + 1 by omega, Nat.zero_add] at this
    rw [← this]
    rfl

theorem history_spec {c thr n : ℚ} (hn : 0 ≤ n) (len : Int) (y : Nat → ℚ) : Accumulator c thr n y fun m => (history c thr n len y m).1 := by
  have iff : ∀ m, (ltRoot (y (m + 1)) thr n && decide ((history c thr n len y m).1 < thr / c)) = true ↔ Discharges c thr n (y (m + 1)) (history c thr n len y m).1 := by
    intro m
    rw [Bool.and_eq_true, ltRoot_iff _ _ hn, decide_eq_true_iff]
    rfl
  refine ⟨rfl, fun m h => ?_, fun m h h1 => ?_, fun m h h1 => ?_⟩
  · show (charge c thr n len (history c thr n len y m) (y (m + 1))).1 = _
    rw [charge, if_neg (fun e => h ((iff m).1 e))]
  · show (charge c thr n len (history c thr n len y m) (y (m + 1))).1 = _
    rw [charge, if_pos ((iff m).2 h), if_pos h1]
  · show (charge c thr n len (history c thr n len y m) (y (m + 1))).1 = _
    rw [charge, if_pos ((iff m).2 h), if_neg (not_lt.2 h1)]

theorem deconvolve_eq {tan : ℚ → ℚ} {cc c thr : ℚ} {len : Int} {xs out : List ℚ} (h : deconvolve tan cc c thr len xs = .ok out) :
    c ≠ 0 ∧ 400 ≤ xs.length ∧ 0 < cc ∧ cc < 1 ∧ out = recoverAll c thr (noise xs) len (clean (tan cc) xs) := by
  unfold deconvolve at h
  split at h
  · cases h
  · split at h
    · cases h
    · split at h
      · cases h
      · rename_i h1 h2 h3
        rw [not_or, not_le, not_le] at h3
        exact ⟨h1, not_lt.1 h2, h3.1, h3.2, (Except.ok.inj h).symm⟩

/-- C85: when it works and what it raises otherwise. -/
theorem deconvolve_errors (tan : ℚ → ℚ) (cc c thr : ℚ) (len : Int) (xs : List ℚ) :
    (c = 0 → deconvolve tan cc c thr len xs = .error .zeroDivision) ∧
    (c ≠ 0 → xs.length < 400 → deconvolve tan cc c thr len xs = .error .indexError) ∧
    (c ≠ 0 → 400 ≤ xs.length → ¬ (0 < cc ∧ cc < 1) → deconvolve tan cc c thr len xs = .error .valueError) ∧
    (c ≠ 0 → 400 ≤ xs.length → 0 < cc → cc < 1 → ∃ out, deconvolve tan cc c thr len xs = .ok out ∧ out.length = xs.length) := by
  refine ⟨fun h => ?_, fun h h1 => ?_, fun h h1 h2 => ?_, fun h h1 h2 h3 => ?_⟩
  · rw [deconvolve, if_pos h]
  · rw [deconvolve, if_neg h, if_pos h1]
  · rw [deconvolve, if_neg h, if_neg (not_lt.2 h1), if_pos]
    by_contra hc
    rw [not_or, not_le, not_le] at hc
    exact h2 hc
  · refine ⟨_, ?_, (recoverAll_length c thr (noise xs) len (clean (tan cc) xs)).trans (clean_length ..)⟩
    rw [deconvolve, if_neg h, if_neg (not_lt.2 h1), if_neg]
    rw [not_or, not_le, not_le]
    exact ⟨h2, h3⟩

/-- C85: the waveform is the cleaned one with its low frequencies restored from the accumulator. -/
theorem deconvolve_spec {tan : ℚ → ℚ} {cc c thr : ℚ} {len : Int} {xs out : List ℚ} (h : deconvolve tan cc c thr len xs = .ok out) (hw : 1 + tan cc ≠ 0) {y : Nat → ℚ}
    (hy : HighPass (tan cc) xs.length (samples xs) y) {a : Nat → ℚ} (ha : Accumulator c thr (meanSquare (samples xs)) y a) :
    out.length = xs.length ∧ samples out 0 = y 0 ∧ ∀ n, n + 1 < xs.length → samples out (n + 1) = (1 + c / 2) * y (n + 1) + c * a n := by
  obtain ⟨hc, hl, -, -, rfl⟩ := deconvolve_eq h
  have hs := highPass_unique hw hy (clean_spec hw xs)
  have hg := recoverAll_get c thr (noise xs) len (clean (tan cc) xs)
  have hh : Accumulator c thr (meanSquare (samples xs)) (samples (clean (tan cc) xs)) fun m => (history c thr (noise xs) len (samples (clean (tan cc) xs)) m).1 := by
    rw [← noise_eq hl]
    exact history_spec (noise_nonneg xs) len _
  have heq : ∀ n < xs.length, a n = (history c thr (noise xs) len (samples (clean (tan cc) xs)) n).1 := by
    intro n
    induction n with
    | zero => intro _; rw [ha.empty, ← hh.empty]
    | succ n ih =>
      intro hn
      have e := ih (by omega)
      have ey := hs _ hn
      by_cases hd : Discharges c thr (meanSquare (samples xs)) (y (n + 1)) (a n)
      · have hd' := hd
        rw [ey, e] at hd'
        by_cases h1 : 1 < a n
        · rw [ha.decay n hd h1, hh.decay n hd' (by rw [← e]; exact h1), e]
        · rw [ha.reset n hd (not_lt.1 h1), hh.reset n hd' (by rw [← e]; exact not_lt.1 h1)]
      · have hd' := hd
        rw [ey, e] at hd'
        rw [ha.add n hd, hh.add n hd', e, ey]
  refine ⟨(recoverAll_length ..).trans (clean_length ..), ?_, fun n hn => ?_⟩
  · rw [hg.1, hs 0 (by omega)]
  · rw [hg.2 n (by rw [clean_length]; exact hn), ← hs _ hn, heq n (by omega)]

/-- The filter and the accumulator of `deconvolve_spec` exist. -/
theorem exists_history (w c thr : ℚ) (hw : 1 + w ≠ 0) (xs : List ℚ) :
    ∃ y a, HighPass w xs.length (samples xs) y ∧ Accumulator c thr (meanSquare (samples xs)) y a :=
  ⟨_, _, clean_spec hw xs, history_spec (meanSquare_nonneg _) 0 _⟩

/-- While it is not discharged the accumulator is the sum of the samples. -/
theorem accumulator_sum {c thr ms : ℚ} {y a : Nat → ℚ} (ha : Accumulator c thr ms y a) (n : Nat)
    (hq : ∀ k, 0 < k → k ≤ n → ¬ Discharges c thr ms (y k) (∑ j ∈ Finset.Ico 1 k, y j)) : a n = ∑ j ∈ Finset.Ico 1 (n + 1), y j := by
  induction n with
  | zero => simp [ha.empty]
  | succ n ih =>
    have e := ih fun k h1 h2 => hq k h1 (by omega)
    rw [ha.add n (by rw [e]; exact hq (n + 1) (by omega) le_rfl), e, Finset.sum_Ico_succ_top (b := n + 1) (by omega)]

/-- C85: while the accumulator is not discharged, the sample is a linear function of the cleaned samples up to it. -/
theorem charging_formula {tan : ℚ → ℚ} {cc c thr : ℚ} {len : Int} {xs out : List ℚ} (h : deconvolve tan cc c thr len xs = .ok out) (hw : 1 + tan cc ≠ 0) {y : Nat → ℚ}
    (hy : HighPass (tan cc) xs.length (samples xs) y) {n : Nat} (hn : n < xs.length) (h0 : 0 < n)
    (hq : ∀ k, 0 < k → k < n → ¬ Discharges c thr (meanSquare (samples xs)) (y k) (∑ j ∈ Finset.Ico 1 k, y j)) :
    samples out n = (1 + c / 2) * y n + c * ∑ j ∈ Finset.Ico 1 n, y j := by
  obtain ⟨m, rfl⟩ : ∃ m, n = m + 1 := ⟨n - 1, by omega⟩
  have ha := history_spec (c := c) (thr := thr) (meanSquare_nonneg (samples xs)) 0 y
  rw [(deconvolve_spec h hw hy ha).2.2 m hn, accumulator_sum ha m fun k h1 h2 => hq k h1 (by omega)]

/-- C85: if the waveform is the response of an AC coupling with constant `c / 2` to a signal that starts at zero, the result is that signal (after the cleaning filter) as long as the accumulator is not discharged. -/
theorem inverts_coupling {tan : ℚ → ℚ} {cc c thr : ℚ} {len : Int} {xs out : List ℚ} (h : deconvolve tan cc c thr len xs = .ok out) (hw : 1 + tan cc ≠ 0) (hp : 0 < c) {x y z : Nat → ℚ}
    (hx : HighPass (c / 2) xs.length x (samples xs)) (h0 : x 0 = 0) (hy : HighPass (tan cc) xs.length (samples xs) y) (hz : HighPass (tan cc) xs.length x z) {n : Nat} (hn : n < xs.length)
    (hq : ∀ k, 0 < k → k < n → ¬ Discharges c thr (meanSquare (samples xs)) (y k) (∑ j ∈ Finset.Ico 1 k, y j)) : samples out n = z n := by
  have hk := highPass_comm hw hx hy hz
  have hl : 0 < xs.length := by omega
  have z0 : z 0 = 0 := by
    have := hz 0 hl
    simp only [before, mul_zero, sub_zero, h0] at this
    exact (mul_eq_zero.1 this).resolve_left hw
  have hc : 1 + c / 2 ≠ 0 := by positivity
  have y0 : y 0 = 0 := by
    have := hk 0 hl
    simp only [before, mul_zero, sub_zero, z0] at this
    exact (mul_eq_zero.1 this).resolve_left hc
  have hsum : ∀ m, m < xs.length → 0 < m → z m = (1 + c / 2) * y m + c * ∑ j ∈ Finset.Ico 1 m, y j := by
    intro m
    induction m with
    | zero => intro _ h; cases h
    | succ m ih =>
      intro hm _
      have e := hk (m + 1) hm
      simp only [before] at e
      cases m with
      | zero => simp only [y0, z0] at e; simp; linarith
      | succ m =>
        rw [Finset.sum_Ico_succ_top (by omega)]
        have e2 := ih (by omega) (by omega)
        linarith
  cases n with
  | zero =>
    have ha := history_spec (c := c) (thr := thr) (meanSquare_nonneg (samples xs)) 0 y
    rw [(deconvolve_spec h hw hy ha).2.1, y0, z0]
  | succ n => rw [charging_formula h hw hy hn (by omega) hq, hsum _ hn (by omega)]

theorem samples_take {xs : List ℚ} {m n : Nat} (h : n < m) : samples (xs.take m) n = samples xs n := by
  unfold samples
  rw [List.getD_eq_getElem?_getD, List.getD_eq_getElem?_getD, List.getElem?_take_of_lt h]

/-- C85: a sample depends only on the ones up to it and the first 400 (from which the noise is measured). -/
theorem causal {tan : ℚ → ℚ} {cc c thr : ℚ} {len : Int} {xs xs' out out' : List ℚ} (h : deconvolve tan cc c thr len xs = .ok out) (h' : deconvolve tan cc c thr len xs' = .ok out')
    (hw : 1 + tan cc ≠ 0) {m : Nat} (hm : 400 ≤ m) (he : xs.take m = xs'.take m) {n : Nat} (hn : n < m) : samples out n = samples out' n := by
  obtain ⟨-, hl, -⟩ := deconvolve_eq h
  obtain ⟨-, hl', -⟩ := deconvolve_eq h'
  have hs : ∀ i < m, samples xs i = samples xs' i := fun i hi => by rw [← samples_take hi, he, samples_take hi]
  have hms : meanSquare (samples xs) = meanSquare (samples xs') := by
    unfold meanSquare
    rw [Finset.sum_congr rfl fun i hi => by rw [hs i (lt_of_lt_of_le (Finset.mem_range.1 hi) hm)]]
  have hlen : min m xs.length = min m xs'.length := by rw [← List.length_take, he, List.length_take]
  -- the same filter and accumulator serve for both up to `m`
  obtain ⟨y, hy, hy'⟩ : ∃ y, HighPass (tan cc) xs.length (samples xs) y ∧ HighPass (tan cc) (min m xs'.length) (samples xs') y := by
    refine ⟨_, clean_spec hw xs, fun i hi => ?_⟩
    have := clean_spec hw xs i (by omega)
    rw [this, hs i (by omega)]
    cases i with
    | zero => rfl
    | succ i => simp only [before]; rw [hs i (by omega)]
  have hu := highPass_unique (N := min m xs'.length) hw hy' (fun i hi => clean_spec hw xs' i (by omega))
  obtain ⟨-, a1, a2⟩ := deconvolve_spec h hw hy (history_spec (meanSquare_nonneg _) 0 y)
  obtain ⟨-, b1, b2⟩ := deconvolve_spec h' hw (clean_spec hw xs') (history_spec (meanSquare_nonneg _) 0 _)
  have hh : ∀ k < min m xs'.length, history c thr (meanSquare (samples xs)) 0 y k = history c thr (meanSquare (samples xs')) 0 (samples (clean (tan cc) xs')) k := by
    intro k
    induction k with
    | zero => intro _; rfl
    | succ k ih =>
      intro hk
      rw [history, history, ih (by omega), hu _ hk, hms]
  by_cases hx : n < xs.length
  · have hx' : n < min m xs'.length := by omega
    cases n with
    | zero => rw [a1, b1, hu 0 hx']
    | succ n => rw [a2 n hx, b2 n (by omega), hu _ hx', hh n (by omega)]
  · have hx' : ¬ n < xs'.length := by omega
    have l1 : out.length ≤ n := by rw [(deconvolve_spec h hw hy (history_spec (meanSquare_nonneg _) 0 y)).1]; omega
    have l2 : out'.length ≤ n := by rw [(deconvolve_spec h' hw (clean_spec hw xs') (history_spec (meanSquare_nonneg _) 0 _)).1]; omega
    unfold samples
    rw [List.getD_eq_default _ _ l1, List.getD_eq_default _ _ l2]

/-- C85 (finding): `accum_discharge_length` has no effect. -/
theorem discharge_length (tan : ℚ → ℚ) (cc c thr : ℚ) (l l' : Int) (xs : List ℚ) : deconvolve tan cc c thr l xs = deconvolve tan cc c thr l' xs := by
  have key : ∀ (ss : List ℚ) (st st' : ℚ × Int), st.1 = st'.1 → recover c thr (noise xs) l st ss = recover c thr (noise xs) l' st' ss := by
    intro ss
    induction ss with
    | nil => intros; rfl
    | cons s ss ih =>
      intro st st' h
      rw [recover, recover, h]
      congr 1
      apply ih
      unfold charge
      rw [h]
      by_cases h1 : (ltRoot s thr (noise xs) && decide (st'.1 < thr / c)) = true
      · rw [if_pos h1, if_pos h1]
        by_cases h2 : 1 < st'.1
        · rw [if_pos h2, if_pos h2]
        · rw [if_neg h2, if_neg h2]
      · rw [if_neg h1, if_neg h1]
  have key2 : ∀ ss : List ℚ, recoverAll c thr (noise xs) l ss = recoverAll c thr (noise xs) l' ss := by
    intro ss
    cases ss with
    | nil => rfl
    | cons s ss => rw [recoverAll, recoverAll, key ss (0, 0) (0, 0) rfl]
  unfold deconvolve
  rw [key2]

/-- An accumulator below its threshold during a quiet signal is empty after a number of samples that depends only on `c` and the threshold. -/
theorem accumulator_empties {c thr : ℚ} (hc : 0 < c) (hc1 : c ≤ 1) (ht : 0 < thr) :
    ∃ M : Nat, ∀ (ms : ℚ) (y a : Nat → ℚ) (n N : Nat), Accumulator c thr ms y a → a n < thr / c → (∀ k, n < k → k < N → (y k : ℝ) < thr * √(ms : ℝ)) → ∀ k, n + M < k → k < N → a k = 0 := by
  have hp : 0 < thr / c := div_pos ht hc
  obtain ⟨M, hM⟩ := exists_pow_lt_of_lt_one (x := c / thr) (div_pos hc ht) (show 1 - c < 1 by linarith)
  refine ⟨M, ?_⟩
  intro ms y a n N ha hn hq
  -- after j samples: empty, or decayed by (1 - c)^j
  have key : ∀ j, n + j < N → (a (n + j) < thr / c ∧ ((0 < j ∧ a (n + j) = 0) ∨ a (n + j) = a n * (1 - c) ^ j)) := by
    intro j
    induction j with
    | zero => intro _; exact ⟨hn, Or.inr (by simp)⟩
    | succ j ih =>
      intro hj
      obtain ⟨h1, h2⟩ := ih (by omega)
      have hd : Discharges c thr ms (y (n + j + 1)) (a (n + j)) := ⟨hq _ (by omega) hj, h1⟩
      by_cases h3 : 1 < a (n + j)
      · have e := ha.decay _ hd h3
        rcases h2 with ⟨-, h2⟩ | h2
        · rw [h2] at h3; exact absurd h3 (by norm_num)
        · rw [show n + (j + 1) = n + j + 1 by omega, e]
          refine ⟨lt_of_le_of_lt ?_ h1, Or.inr ?_⟩
          · calc a (n + j) * (1 - c) ≤ a (n + j) * 1 := mul_le_mul_of_nonneg_left (by linarith) (by linarith)
              _ = a (n + j) := mul_one _
          · rw [h2]; ring
      · have e := ha.reset _ hd (not_lt.1 h3)
        rw [show n + (j + 1) = n + j + 1 by omega, e]
        exact ⟨hp, Or.inl ⟨by omega, rfl⟩⟩
  have small : ∀ j, M ≤ j → n + j < N → a (n + j) ≤ 1 := by
    intro j hj hN
    rcases (key j hN).2 with ⟨-, h⟩ | h
    · rw [h]; norm_num
    · rw [h]
      have p0 : 0 ≤ (1 - c) ^ j := pow_nonneg (by linarith) _
      have p1 : (1 - c) ^ j ≤ (1 - c) ^ M := pow_le_pow_of_le_one (by linarith) (by linarith) hj
      rcases le_or_gt (a n) 0 with h0 | h0
      · exact le_trans (mul_nonpos_of_nonpos_of_nonneg h0 p0) (by norm_num)
      · calc a n * (1 - c) ^ j ≤ thr / c * (1 - c) ^ M := mul_le_mul hn.le p1 p0 hp.le
          _ ≤ thr / c * (c / thr) := mul_le_mul_of_nonneg_left hM.le hp.le
          _ = 1 := by field_simp
  intro k hk hkN
  obtain ⟨j, rfl⟩ : ∃ j, k = n + j + 1 := ⟨k - n - 1, by omega⟩
  exact ha.reset _ ⟨hq _ (by omega) hkN, (key j (by omega)).1⟩ (small j (by omega) (by omega))

/-- C85: after a signal, if the accumulator is below its threshold and the cleaned waveform stays below the trigger, it is restored (it is the cleaned waveform times `1 + c / 2`) after a number of samples that depends only on the parameters. -/
theorem restored {c thr : ℚ} (hc : 0 < c) (hc1 : c ≤ 1) (ht : 0 < thr) :
    ∃ M : Nat, ∀ {tan : ℚ → ℚ} {cc : ℚ} {len : Int} {xs out : List ℚ} {y a : Nat → ℚ} {n : Nat}, deconvolve tan cc c thr len xs = .ok out → 1 + tan cc ≠ 0 →
      HighPass (tan cc) xs.length (samples xs) y → Accumulator c thr (meanSquare (samples xs)) y a → a n < thr / c → (∀ k, n < k → k < xs.length → (y k : ℝ) < thr * √(meanSquare (samples xs) : ℝ)) →
      ∀ k, n + M < k → k < xs.length → samples out k = (1 + c / 2) * y k := by
  obtain ⟨M, hM⟩ := accumulator_empties hc hc1 ht
  refine ⟨M + 1, ?_⟩
  intro tan cc len xs out y a n h hw hy ha hn hq k hk hkN
  obtain ⟨j, rfl⟩ : ∃ j, k = j + 1 := ⟨k - 1, by omega⟩
  rw [(deconvolve_spec h hw hy ha).2.2 j hkN, hM _ y a n _ ha hn hq j (by omega) (by omega), mul_zero, add_zero]

/-- C85 (finding): an accumulator that has reached its threshold is not discharged any more while the cleaned waveform is not negative: the result stays above the threshold for ever, however quiet the waveform. -/
theorem runoff {tan : ℚ → ℚ} {cc c thr : ℚ} {len : Int} {xs out : List ℚ} {y a : Nat → ℚ} {n : Nat} (h : deconvolve tan cc c thr len xs = .ok out) (hw : 1 + tan cc ≠ 0) (hc : 0 < c)
    (hy : HighPass (tan cc) xs.length (samples xs) y) (ha : Accumulator c thr (meanSquare (samples xs)) y a) (hn : thr / c ≤ a n) (hq : ∀ k, n < k → k < xs.length → 0 ≤ y k) :
    ∀ k, n < k → k < xs.length → thr ≤ samples out k := by
  have key : ∀ j, n + j < xs.length → thr / c ≤ a (n + j) := by
    intro j
    induction j with
    | zero => intro _; exact hn
    | succ j ih =>
      intro hj
      have h1 := ih (by omega)
      rw [show n + (j + 1) = n + j + 1 by omega, ha.add _ fun hd => absurd hd.2 (not_lt.2 h1)]
      have := hq (n + j + 1) (by omega) hj
      linarith
  intro k hk hkN
  obtain ⟨j, rfl⟩ : ∃ j, k = n + j + 1 := ⟨k - n - 1, by omega⟩
  rw [(deconvolve_spec h hw hy ha).2.2 (n + j) hkN]
  have h1 := key j (by omega)
  have h2 := hq _ hk hkN
  have h3 : thr ≤ c * a (n + j) := by
    rw [div_le_iff₀ hc] at h1
    linarith
  have h4 : 0 ≤ (1 + c / 2) * y (n + j + 1) := mul_nonneg (by positivity) h2
  linarith

/-! ### Examples -/

/-- A waveform with a pulse after 400 samples; the noise is 0. -/
def exPulse : List ℚ := List.replicate 400 0 ++ [8, 8, 8, 0, 0, 0, 0, 0]

example : (deconvolve (fun _ => 1) (1 / 2) (1 / 2) 5 5000 exPulse).map (·.drop 399) = .ok [0, 5, 2, 2, -3, 1, 1, 1, 1] := by decide +kernel

/-- The accumulator passes its threshold (10) and the result never comes back, the waveform being constant: the cleaned one is zero. -/
def exRunoff : List ℚ := List.replicate 400 0 ++ [24] ++ List.replicate 20 24

example : (deconvolve (fun _ => 1) (1 / 2) (1 / 2) 5 5000 exRunoff).map (·.drop 400) = .ok ([15] ++ List.replicate 20 6) := by decide +kernel

/-- With a noise of 1 the accumulator decays after the pulse. -/
def exDecay : List ℚ := (List.replicate 200 [1, -1]).flatten ++ [17, 17, 17, 17, 17, 17, 17, 17]

/-- A growing signal behind a coupling with constant 1. -/
def exTrue : List ℚ := List.replicate 400 0 ++ [2, 6, 12]

def exRaw : List ℚ := List.replicate 400 0 ++ [1, 2, 3]

instance (k : ℚ) (N : Nat) (x y : Nat → ℚ) : Decidable (HighPass k N x y) := by unfold HighPass; infer_instance

theorem not_discharges {c thr ms s a : ℚ} (hm : 0 ≤ ms) (h : ltRoot s thr ms = false ∨ thr / c ≤ a) : ¬ Discharges c thr ms s a := by
  rintro ⟨h1, h2⟩
  rcases h with h | h
  · rw [← ltRoot_iff _ _ hm, h] at h1; cases h1
  · exact absurd h2 (not_lt.2 h)

/-- The response of the cleaning filter of the examples. -/
def one : ℚ → ℚ := fun _ => 1

theorem ex_raw : HighPass (2 / 2) exRaw.length (samples exTrue) (samples exRaw) := by decide +kernel
theorem ex_true : HighPass (one (1 / 2)) exRaw.length (samples exTrue) (samples (clean 1 exTrue)) := by decide +kernel
theorem ex_clean (xs : List ℚ) : HighPass (one (1 / 2)) xs.length (samples xs) (samples (clean 1 xs)) := clean_spec (w := 1) (by norm_num) xs
theorem ex_one : 1 + one (1 / 2) ≠ 0 := by decide +kernel
theorem ex_ms : meanSquare (samples exRaw) = 0 := by decide +kernel
theorem ex_quiet : ∀ k < 402, ltRoot (samples (clean 1 exRaw) k) 5 0 = false := by decide +kernel
theorem ex_zero : samples exTrue 0 = 0 := by decide +kernel
theorem ex_len : 402 < exRaw.length := by decide +kernel
theorem ex_last : samples (clean 1 exTrue) 402 = 3 := by decide +kernel

/-- The hypotheses of `inverts_coupling` are met: the sample 402 is that of the true signal after the cleaning filter. -/
example : ∃ out, deconvolve one (1 / 2) 2 5 5000 exRaw = .ok out ∧ samples out 402 = 3 := by
  obtain ⟨out, h, -⟩ := (deconvolve_errors one (1 / 2) 2 5 5000 exRaw).2.2.2 (by decide +kernel) (by decide +kernel) (by decide +kernel) (by decide +kernel)
  refine ⟨out, h, ?_⟩
  have hq : ∀ k, 0 < k → k < 402 → ¬ Discharges 2 5 (meanSquare (samples exRaw)) (samples (clean 1 exRaw) k) (∑ j ∈ Finset.Ico 1 k, samples (clean 1 exRaw) j) := by
    rw [ex_ms]
    exact fun k _ h2 => not_discharges le_rfl (Or.inl (ex_quiet k h2))
  exact (inverts_coupling h ex_one (by norm_num) ex_raw ex_zero (ex_clean exRaw) ex_true ex_len hq).trans ex_last

theorem ex_run_ms : meanSquare (samples exRunoff) = 0 := by decide +kernel
theorem ex_run_quiet : ∀ k < 421, ltRoot (samples (clean 1 exRunoff) k) 5 0 = false ∧ 0 ≤ samples (clean 1 exRunoff) k := by decide +kernel
theorem ex_run_sum : 5 / (1 / 2) ≤ ∑ j ∈ Finset.Ico 1 (400 + 1), samples (clean 1 exRunoff) j := by decide +kernel
theorem ex_run_len : exRunoff.length = 421 := by decide +kernel

/-- The hypotheses of `runoff` are met by `exRunoff` from the sample 400. -/
example : ∃ out, deconvolve one (1 / 2) (1 / 2) 5 5000 exRunoff = .ok out ∧ ∀ k, 400 < k → k < 421 → 5 ≤ samples out k := by
  obtain ⟨out, h, -⟩ := (deconvolve_errors one (1 / 2) (1 / 2) 5 5000 exRunoff).2.2.2 (by decide +kernel) (by decide +kernel) (by decide +kernel) (by decide +kernel)
  obtain ⟨a, ha⟩ : ∃ a, Accumulator (1 / 2) 5 (meanSquare (samples exRunoff)) (samples (clean 1 exRunoff)) a := ⟨_, history_spec (meanSquare_nonneg _) 0 _⟩
  have hs := accumulator_sum ha 400 (by
    rw [ex_run_ms]
    exact fun k _ h2 => not_discharges le_rfl (Or.inl (ex_run_quiet k (by omega)).1))
  refine ⟨out, h, fun k h1 h2 => runoff h ex_one (by norm_num) (ex_clean exRunoff) ha (n := 400) ?_ ?_ k h1 (by rw [ex_run_len]; exact h2)⟩
  · rw [hs]; exact ex_run_sum
  · rw [ex_run_len]; exact fun k _ h2 => (ex_run_quiet k h2).2

theorem ex_dec_ms : meanSquare (samples exDecay) = 1 := by decide +kernel
theorem ex_dec_quiet : ∀ k < 408, k ≠ 400 → ltRoot (samples (clean 1 exDecay) k) 5 1 = true := by decide +kernel
theorem ex_dec_peak : ltRoot (samples (clean 1 exDecay) 400) 5 1 = false ∧ samples (clean 1 exDecay) 400 < 5 / (1 / 2) := by decide +kernel
theorem ex_dec_len : exDecay.length = 408 := by decide +kernel

/-- The hypotheses of `restored` are met by `exDecay` from the sample 400. -/
example : ∃ M : Nat, ∃ out, deconvolve one (1 / 2) (1 / 2) 5 5000 exDecay = .ok out ∧ ∀ k, 400 + M < k → k < exDecay.length → samples out k = (1 + 1 / 2 / 2) * samples (clean 1 exDecay) k := by
  obtain ⟨out, h, -⟩ := (deconvolve_errors one (1 / 2) (1 / 2) 5 5000 exDecay).2.2.2 (by decide +kernel) (by decide +kernel) (by decide +kernel) (by decide +kernel)
  obtain ⟨M, hM⟩ := restored (c := 1 / 2) (thr := 5) (by norm_num) (by norm_num) (by norm_num)
  obtain ⟨a, ha⟩ : ∃ a, Accumulator (1 / 2) 5 (meanSquare (samples exDecay)) (samples (clean 1 exDecay)) a := ⟨_, history_spec (meanSquare_nonneg _) 0 _⟩
  have hq : ∀ k, k ≠ 400 → k < 408 → (samples (clean 1 exDecay) k : ℝ) < ((5 : ℚ) : ℝ) * √(meanSquare (samples exDecay) : ℝ) := by
    intro k h1 h2
    rw [ex_dec_ms, ← ltRoot_iff _ _ (by norm_num)]
    exact ex_dec_quiet k h2 h1
  have h0 : ∀ k < 400, a k = 0 := by
    intro k
    induction k with
    | zero => intro _; exact ha.empty
    | succ k ih =>
      intro hk
      have e := ih (by omega)
      exact ha.reset k ⟨hq _ (by omega) (by omega), by rw [e]; norm_num⟩ (by rw [e]; norm_num)
  refine ⟨M, out, h, hM h ex_one (ex_clean exDecay) ha (n := 400) ?_ ?_⟩
  · rw [ha.add 399 (by rw [ex_dec_ms]; exact not_discharges (by norm_num) (Or.inl ex_dec_peak.1)), h0 399 (by omega), zero_add]
    exact ex_dec_peak.2
  · rw [ex_dec_len]
    exact fun k h1 h2 => hq k (by omega) h2

end Verif.Blr
