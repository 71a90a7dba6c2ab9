import Verif.Spec.Fee
import Mathlib.RingTheory.PowerSeries.Inverse
import Mathlib.Algebra.BigOperators.NatAntidiagonal
import Mathlib.Tactic.Linarith
import Mathlib.Tactic.Ring
import Mathlib.Tactic.FieldSimp
import Mathlib.Algebra.Order.Field.Rat
/-!
# C88: pulses and filters of the electronics of the PMTs
-/
namespace Verif.Fee
open Spec PowerSeries

/-- The series of the values of a list. -/
noncomputable def ser (xs : List ℚ) : PowerSeries ℚ := PowerSeries.mk (at' xs)

theorem coeff_ser (xs : List ℚ) (n : Nat) : coeff n (ser xs) = at' xs n := coeff_mk n _

theorem at_nil (n : Nat) : at' [] n = 0 := by simp [at']
theorem at_zero (x : ℚ) (xs : List ℚ) : at' (x :: xs) 0 = x := rfl
theorem at_succ (x : ℚ) (xs : List ℚ) (n : Nat) : at' (x :: xs) (n + 1) = at' xs n := rfl
theorem at_ge {xs : List ℚ} {n : Nat} (h : xs.length ≤ n) : at' xs n = 0 := List.getD_eq_default _ _ h
theorem at_map {f : ℚ → ℚ} (h : f 0 = 0) (xs : List ℚ) (n : Nat) : at' (xs.map f) n = f (at' xs n) := by
  unfold at'
  rw [List.getD_eq_getElem?_getD, List.getD_eq_getElem?_getD, List.getElem?_map]
  cases xs[n]? with
  | none => exact h.symm
  | some => rfl

theorem ext_at {xs ys : List ℚ} (hl : xs.length = ys.length) (h : ∀ n < xs.length, at' xs n = at' ys n) : xs = ys := by
  refine List.ext_getElem hl fun n h1 h2 => ?_
  have := h n h1
  unfold at' at this
  rwa [List.getD_eq_getElem _ _ h1, List.getD_eq_getElem _ _ h2] at this

theorem ser_nil : ser [] = 0 := by ext n; rw [coeff_ser, at_nil]; rfl

theorem ser_cons (x : ℚ) (xs : List ℚ) : ser (x :: xs) = C x + X * ser xs := by
  ext n
  rw [coeff_ser, map_add, coeff_C]
  cases n with
  | zero => simp [at_zero]
  | succ n => rw [at_succ, coeff_succ_X_mul, coeff_ser]; simp

theorem ser_map_mul (x : ℚ) (ys : List ℚ) : ser (ys.map fun y => x * y) = C x * ser ys := by
  ext n
  rw [coeff_ser, at_map (mul_zero x), coeff_C_mul, coeff_ser]

theorem at_addLong (xs : List ℚ) : ∀ (ys : List ℚ) (n : Nat), at' (addLong xs ys) n = at' xs n + at' ys n := by
  induction xs with
  | nil => intro ys n; rw [addLong, at_nil, zero_add]
  | cons x xs ih =>
    intro ys n
    cases ys with
    | nil => rw [addLong, at_nil, add_zero]; simp
    | cons y ys =>
      rw [addLong]
      cases n with
      | zero => rfl
      | succ n => exact ih ys n

theorem addLong_length (xs : List ℚ) : ∀ ys : List ℚ, (addLong xs ys).length = max xs.length ys.length := by
  induction xs with
  | nil => intro ys; simp [addLong]
  | cons x xs ih =>
    intro ys
    cases ys with
    | nil => simp [addLong]
    | cons y ys => rw [addLong, List.length_cons, ih, List.length_cons, List.length_cons]; omega

theorem ser_addLong (xs ys : List ℚ) : ser (addLong xs ys) = ser xs + ser ys := by
  ext n
  rw [coeff_ser, at_addLong, map_add, coeff_ser, coeff_ser]

/-- The convolution is the product of the series. -/
theorem ser_convolve (xs : List ℚ) (ys : List ℚ) : ser (convolve xs ys) = ser xs * ser ys := by
  induction xs with
  | nil => rw [convolve, ser_nil, zero_mul]
  | cons x xs ih =>
    cases ys with
    | nil => simp [convolve, ser_nil]
    | cons y ys =>
      cases xs with
      | nil =>
        rw [convolve, ser_map_mul, ser_cons x [], ser_nil, mul_zero, add_zero]
        · simp
      | cons x' xs =>
        rw [convolve, ser_addLong, ser_map_mul, ser_cons 0, ih, ser_cons x (x' :: xs)]
        · rw [map_zero, zero_add, add_mul, mul_assoc]
        · simp
        · simp

theorem convolve_length {xs ys : List ℚ} (hx : xs ≠ []) (hy : ys ≠ []) : (convolve xs ys).length = xs.length + ys.length - 1 := by
  induction xs with
  | nil => exact absurd rfl hx
  | cons x xs ih =>
    cases ys with
    | nil => exact absurd rfl hy
    | cons y ys =>
      cases xs with
      | nil => simp [convolve]
      | cons x' xs =>
        rw [convolve]
        · rw [addLong_length, List.length_cons, ih (by simp)]
          simp
          omega
        · simp
        · simp

theorem convolve_nil_right (xs : List ℚ) : convolve xs [] = [] := by
  cases xs with
  | nil => rfl
  | cons x xs => cases xs <;> rfl

theorem coeff_mul_range (f g : PowerSeries ℚ) (n : Nat) : coeff n (f * g) = ∑ i ∈ Finset.range (n + 1), coeff i f * coeff (n - i) g := by
  rw [coeff_mul, Finset.Nat.sum_antidiagonal_eq_sum_range_succ fun i j => coeff i f * coeff j g]

/-- The values of the convolution. -/
theorem at_convolve (xs ys : List ℚ) (n : Nat) : at' (convolve xs ys) n = ∑ i ∈ Finset.range (n + 1), at' xs i * at' ys (n - i) := by
  rw [← coeff_ser, ser_convolve, coeff_mul_range]
  simp only [coeff_ser]

theorem sum_addLong (xs : List ℚ) : ∀ ys : List ℚ, (addLong xs ys).sum = xs.sum + ys.sum := by
  induction xs with
  | nil => intro ys; simp [addLong]
  | cons x xs ih =>
    intro ys
    cases ys with
    | nil => simp [addLong]
    | cons y ys => rw [addLong, List.sum_cons, ih, List.sum_cons, List.sum_cons]; ring

theorem sum_map_mul (x : ℚ) (ys : List ℚ) : (ys.map fun y => x * y).sum = x * ys.sum := by
  induction ys with
  | nil => simp
  | cons y ys ih => rw [List.map_cons, List.sum_cons, ih, List.sum_cons]; ring

/-- The sum of the convolution. -/
theorem sum_convolve (xs ys : List ℚ) : (convolve xs ys).sum = xs.sum * ys.sum := by
  induction xs with
  | nil => simp [convolve]
  | cons x xs ih =>
    cases ys with
    | nil => simp [convolve]
    | cons y ys =>
      cases xs with
      | nil => rw [convolve]; · rw [sum_map_mul]; simp
               · simp
      | cons x' xs =>
        rw [convolve]
        · rw [sum_addLong, sum_map_mul, List.sum_cons (a := 0), ih, List.sum_cons (a := x)]; ring
        · simp
        · simp

/-! ### Pulses -/

theorem sum_linspace_pair (A : ℚ) (n : Nat) : (linspace 0 A n).sum + (linspace A 0 n).sum = A * n := by
  unfold linspace
  by_cases h : n = 1
  · subst h; simp
  · rw [if_neg h, if_neg h, ← List.sum_map_add]
    have : (fun i : Nat => (0 + (i : ℚ) * ((A - 0) / ((n : ℚ) - 1))) + (A + (i : ℚ) * ((0 - A) / ((n : ℚ) - 1)))) = fun _ => A := by
      funext i
      ring
    rw [this, List.map_const', List.sum_replicate, List.length_range, nsmul_eq_mul, mul_comm]

/-- C88: the area of the pulse of a photoelectron is its charge, for whole numbers of nanoseconds. -/
theorem spe_area (charge : ℚ) (slope flat : Nat) (h : 0 < slope + flat) : (spe charge slope flat).sum = charge := by
  unfold spe
  rw [List.sum_append, List.sum_append, List.sum_replicate]
  have hs : ⌊(slope : ℚ)⌋.toNat = slope := by rw [Int.floor_natCast]; rfl
  have hf : ⌊(flat : ℚ)⌋.toNat = flat := by rw [Int.floor_natCast]; rfl
  rw [hs, hf]
  have hp := sum_linspace_pair (charge / (slope + flat)) slope
  have hne : (slope + flat : ℚ) ≠ 0 := by
    have : (0 : ℚ) < ((slope + flat : Nat) : ℚ) := by exact_mod_cast h
    push_cast at this
    exact this.ne'
  have : charge / (slope + flat) * slope + flat * (charge / (slope + flat)) = charge := by field_simp
  rw [nsmul_eq_mul]
  linarith

theorem linspace_length (a b : ℚ) (n : Nat) : (linspace a b n).length = n := by
  unfold linspace
  split
  · rename_i h; rw [h]; rfl
  · rw [List.length_map, List.length_range]

/-- C88: its length. -/
theorem spe_length (charge : ℚ) (slope flat : Nat) : (spe charge slope flat).length = 2 * slope + flat := by
  unfold spe
  have hs : ⌊(slope : ℚ)⌋.toNat = slope := by rw [Int.floor_natCast]; rfl
  have hf : ⌊(flat : ℚ)⌋.toNat = flat := by rw [Int.floor_natCast]; rfl
  rw [hs, hf, List.length_append, List.length_append, linspace_length, linspace_length, List.length_replicate]
  omega

theorem at_take {xs : List ℚ} {m n : Nat} : at' (xs.take m) n = if n < m then at' xs n else 0 := by
  unfold at'
  rw [List.getD_eq_getElem?_getD, List.getD_eq_getElem?_getD, List.getElem?_take]
  split <;> rfl

theorem dropTail_eq {cnt : List ℚ} {k : Nat} (hk : 2 ≤ k) : dropTail cnt k = cnt.take (cnt.length - (k - 1)) := by
  unfold dropTail
  rw [if_neg (by omega), if_neg (by omega)]

/-- C88: the train of pulses has the length of the vector, and each photoelectron except those in the last samples gives its pulse. -/
theorem pulses_spec {s cnt : List ℚ} {norm : ℚ} (hs : 2 ≤ s.length) (hc : s.length ≤ cnt.length) :
    (spePulseFromVector s cnt norm).length = cnt.length ∧
    (∀ n, at' (spePulseFromVector s cnt norm) n = norm * ∑ i ∈ Finset.range (n + 1), (if i + s.length ≤ cnt.length then at' cnt i * at' s (n - i) else 0)) ∧
    (spePulseFromVector s cnt norm).sum = (cnt.take (cnt.length - (s.length - 1))).sum * (s.sum * norm) := by
  unfold spePulseFromVector
  rw [dropTail_eq hs]
  have hne : s.map (fun x => x * norm) ≠ [] := by
    intro h
    rw [List.map_eq_nil_iff] at h
    rw [h] at hs
    cases hs
  have hne2 : cnt.take (cnt.length - (s.length - 1)) ≠ [] := by
    intro h
    rcases List.take_eq_nil_iff.1 h with h | h
    · omega
    · rw [h, List.length_nil] at hc; omega
  refine ⟨?_, fun n => ?_, ?_⟩
  · rw [convolve_length hne2 hne, List.length_map, List.length_take]
    omega
  · rw [at_convolve, Finset.mul_sum]
    refine Finset.sum_congr rfl fun i _ => ?_
    rw [at_take, at_map (f := fun x => x * norm) (zero_mul norm)]
    by_cases h : i + s.length ≤ cnt.length
    · rw [if_pos h, if_pos (by omega)]; ring
    · rw [if_neg h, if_neg (by omega)]; ring
  · rw [sum_convolve]
    congr 1
    rw [show (fun x : ℚ => x * norm) = fun x => norm * x from funext fun x => mul_comm _ _, sum_map_mul, mul_comm]

/-- C88 (finding): the photoelectrons in the last samples (as many as the length of the pulse minus one) give no signal at all. -/
theorem pulses_lost {s cnt cnt' : List ℚ} {norm : ℚ} (hs : 2 ≤ s.length) (hl : cnt.length = cnt'.length) (h : ∀ i, i + s.length ≤ cnt.length → at' cnt i = at' cnt' i) :
    spePulseFromVector s cnt norm = spePulseFromVector s cnt' norm := by
  unfold spePulseFromVector
  rw [dropTail_eq hs, dropTail_eq hs, hl]
  congr 1
  refine ext_at (by rw [List.length_take, List.length_take, hl]) fun n hn => ?_
  rw [List.length_take] at hn
  rw [at_take, at_take, if_pos (by omega), if_pos (by omega), h n (by omega)]

theorem at_delta (nmax n i : Nat) (h : n < nmax) : at' ((List.replicate nmax (0 : ℚ)).set n 1) i = if i = n then 1 else 0 := by
  unfold at'
  rw [List.getD_eq_getElem?_getD, List.getElem?_set]
  by_cases hi : n = i
  · subst hi
    rw [if_pos rfl, if_pos (by rw [List.length_replicate]; exact h), if_pos rfl]; rfl
  · rw [if_neg hi, if_neg (Ne.symm hi), List.getElem?_replicate]
    split <;> rfl

/-- C88: a single pulse is the pulse displaced. -/
theorem pulse_spec (s : List ℚ) {n nmax : Nat} (h : n < nmax) (hs : s ≠ []) : ∃ out, spePulse s n nmax = .ok out ∧ out.length = nmax + s.length - 1 ∧ ∀ k, at' out k = if n ≤ k then at' s (k - n) else 0 := by
  refine ⟨_, by rw [spePulse, if_neg (not_le.2 h)], ?_, fun k => ?_⟩
  · rw [convolve_length _ hs, List.length_set, List.length_replicate]
    intro he
    have := congrArg List.length he
    rw [List.length_set, List.length_replicate] at this
    simp at this
    omega
  · rw [at_convolve]
    simp only [at_delta _ _ _ h, ite_mul, one_mul, zero_mul]
    rw [Finset.sum_ite_eq' (Finset.range (k + 1)) n fun i => at' s (k - i)]
    by_cases hk : n ≤ k
    · rw [if_pos (Finset.mem_range.2 (by omega)), if_pos hk]
    · rw [if_neg (by rw [Finset.mem_range]; omega), if_neg hk]

theorem pulse_out (s : List ℚ) {n nmax : Nat} (h : nmax ≤ n) : spePulse s n nmax = .error .indexError := by rw [spePulse, if_pos h]

/-- C88: the area of a train of pulses. -/
theorem train_area (s : List ℚ) {nmin nmax len : Nat} (h1 : nmin ≤ nmax) (h2 : nmax < len) : (spePulseTrain s nmin nmax len).sum = (nmax + 1 - nmin : Nat) * s.sum := by
  unfold spePulseTrain
  rw [sum_convolve]
  congr 1
  unfold train
  have : ∀ m : Nat, ((List.range m).map fun i : Nat => if nmin ≤ i ∧ i ≤ nmax then (1 : ℚ) else 0).sum = ((min m (nmax + 1) - nmin : Nat) : ℚ) := by
    intro m
    induction m with
    | zero => simp
    | succ m ih =>
      rw [List.range_succ, List.map_append, List.sum_append, ih]
      simp only [List.map_cons, List.map_nil, List.sum_cons, List.sum_nil, add_zero]
      by_cases h : nmin ≤ m ∧ m ≤ nmax
      · rw [if_pos h, show min (m + 1) (nmax + 1) - nmin = (min m (nmax + 1) - nmin) + 1 by omega]; push_cast; ring
      · rw [if_neg h, add_zero]
        congr 1
        omega
  rw [this, show min len (nmax + 1) - nmin = nmax + 1 - nmin by omega]

/-! ### Filters -/

theorem dot_nil (xs : List ℚ) : dot xs [] = 0 := by unfold dot; rw [List.zipWith_nil_right]; rfl

theorem dot_cons (b : List ℚ) (x : ℚ) (xs : List ℚ) : dot b (x :: xs) = at' b 0 * x + dot b.tail xs := by
  cases b with
  | nil => unfold dot; simp [at']
  | cons y b => unfold dot; simp [at']

theorem at_tail (b : List ℚ) (n : Nat) : at' b.tail n = at' b (n + 1) := by
  cases b with
  | nil => simp [at']
  | cons y b => rfl

theorem at_append_left {xs ys : List ℚ} {n : Nat} (h : n < xs.length) : at' (xs ++ ys) n = at' xs n := by
  unfold at'
  rw [List.getD_eq_getElem?_getD, List.getD_eq_getElem?_getD, List.getElem?_append_left h]

theorem at_append_right (xs ys : List ℚ) (n : Nat) : at' (xs ++ ys) (xs.length + n) = at' ys n := by
  unfold at'
  rw [List.getD_eq_getElem?_getD, List.getD_eq_getElem?_getD, List.getElem?_append_right (by omega)]
  congr 2
  omega

/-- The product with the previous values. -/
theorem dot_reverse (xs : List ℚ) : ∀ b : List ℚ, dot b xs.reverse = ∑ i ∈ Finset.range xs.length, at' b i * at' xs (xs.length - 1 - i) := by
  induction xs using List.reverseRecOn with
  | nil => intro b; simp [dot_nil]
  | append_singleton xs x ih =>
    intro b
    rw [List.reverse_append, List.reverse_singleton, List.singleton_append, dot_cons, ih, List.length_append, List.length_singleton, Finset.sum_range_succ', add_comm]
    congr 1
    · refine Finset.sum_congr rfl fun i hi => ?_
      have := Finset.mem_range.1 hi
      rw [at_tail, at_append_left (by omega)]
      congr 2
      omega
    · have := at_append_right xs [x] 0
      rw [show xs.length + 1 - 1 - 0 = xs.length + 0 by omega, this]
      rfl

theorem lfilterGo_length (b a : List ℚ) (a0 : ℚ) (xs : List ℚ) : ∀ xr yr, (lfilterGo b a a0 xr yr xs).length = xs.length := by
  induction xs with
  | nil => intros; rfl
  | cons x xs ih => intro xr yr; rw [lfilterGo, List.length_cons, ih, List.length_cons]

theorem lfilterGo_spec (b a : List ℚ) {a0 : ℚ} (h0 : a0 ≠ 0) (xs : List ℚ) : ∀ (P Q : List ℚ), P.length = Q.length → ∀ n, P.length ≤ n → n < P.length + xs.length →
    ∑ i ∈ Finset.range (n + 1), at' (a0 :: a) i * at' (Q ++ lfilterGo b a a0 P.reverse Q.reverse xs) (n - i) = ∑ i ∈ Finset.range (n + 1), at' b i * at' (P ++ xs) (n - i) := by
  induction xs with
  | nil => intro P Q _ n h1 h2; simp at h2; omega
  | cons x xs ih =>
    intro P Q hl n h1 h2
    rw [lfilterGo]
    generalize hy : (dot b (x :: P.reverse) - dot a Q.reverse) / a0 = y
    by_cases hn : n = P.length
    · subst hn
      have e1 : dot b (x :: P.reverse) = ∑ i ∈ Finset.range (P.length + 1), at' b i * at' (P ++ [x]) (P.length - i) := by
        have := dot_reverse (P ++ [x]) b
        rw [List.reverse_append, List.reverse_singleton, List.singleton_append, List.length_append, List.length_singleton] at this
        exact this
      have e2 := dot_reverse Q a
      rw [Finset.sum_range_succ']
      have e3 : ∀ i ∈ Finset.range P.length, at' (a0 :: a) (i + 1) * at' (Q ++ y :: lfilterGo b a a0 (x :: P.reverse) (y :: Q.reverse) xs) (P.length - (i + 1)) = at' a i * at' Q (Q.length - 1 - i) := by
        intro i hi
        have := Finset.mem_range.1 hi
        rw [at_succ, at_append_left (by omega)]
        congr 2
        omega
      rw [Finset.sum_congr rfl e3, hl, ← e2, at_zero]
      have e4 := at_append_right Q (y :: lfilterGo b a a0 (x :: P.reverse) (y :: Q.reverse) xs) 0
      rw [show Q.length - 0 = Q.length + 0 by omega, e4, at_zero]
      have e5 : ∑ i ∈ Finset.range (Q.length + 1), at' b i * at' (P ++ x :: xs) (Q.length - i) = dot b (x :: P.reverse) := by
        rw [e1, hl]
        refine Finset.sum_congr rfl fun i hi => ?_
        congr 1
        rw [show P ++ x :: xs = (P ++ [x]) ++ xs by simp, at_append_left (by rw [List.length_append, List.length_singleton]; omega)]
      rw [e5, ← hy]
      field_simp
      ring
    · have := ih (P ++ [x]) (Q ++ [y]) (by simp [hl]) n (by simp; omega) (by simp at h2 ⊢; omega)
      rw [List.reverse_append, List.reverse_append] at this
      simpa using this

/-- C88: `lfilter` computes the response of the filter, and fails only if the first coefficient of `a` is zero or missing. -/
theorem lfilter_spec {f : Filter} (hf : Usable f) (xs : List ℚ) : ∃ ys, lfilter f xs = .ok ys ∧ Response f xs ys := by
  unfold Usable at hf
  unfold lfilter
  obtain ⟨b, a⟩ := f
  cases a with
  | nil => exact absurd (at_nil 0) hf
  | cons a0 a =>
    dsimp only
    rw [at_zero] at hf
    rw [if_neg hf]
    refine ⟨_, rfl, lfilterGo_length .., fun n hn => ?_⟩
    exact lfilterGo_spec b a hf xs [] [] rfl n (by simp) (by simpa using hn)

theorem lfilter_error {f : Filter} (hf : ¬ Usable f) (xs : List ℚ) : lfilter f xs = .error .valueError := by
  unfold Usable at hf
  unfold lfilter
  obtain ⟨b, a⟩ := f
  cases a with
  | nil => rfl
  | cons a0 a =>
    dsimp only
    rw [at_zero, not_not] at hf
    rw [if_pos hf]

/-- Equality of the first `N` coefficients. -/
def Upto (N : Nat) (f g : PowerSeries ℚ) : Prop := ∀ n < N, coeff n f = coeff n g

theorem Upto.mul {N : Nat} {f g f' g' : PowerSeries ℚ} (h : Upto N f g) (h' : Upto N f' g') : Upto N (f * f') (g * g') := by
  intro n hn
  rw [coeff_mul_range, coeff_mul_range]
  refine Finset.sum_congr rfl fun i hi => ?_
  have := Finset.mem_range.1 hi
  rw [h i (by omega), h' (n - i) (by omega)]

theorem Upto.refl {N : Nat} (f : PowerSeries ℚ) : Upto N f f := fun _ _ => rfl
theorem Upto.symm {N : Nat} {f g : PowerSeries ℚ} (h : Upto N f g) : Upto N g f := fun n hn => (h n hn).symm
theorem Upto.trans {N : Nat} {f g h : PowerSeries ℚ} (h1 : Upto N f g) (h2 : Upto N g h) : Upto N f h := fun n hn => (h1 n hn).trans (h2 n hn)

theorem Upto.cancel {N : Nat} {a f g : PowerSeries ℚ} (ha : coeff 0 a ≠ 0) (h : Upto N (a * f) (a * g)) : Upto N f g := by
  have hc : constantCoeff a ≠ 0 := by rwa [← coeff_zero_eq_constantCoeff_apply]
  have := (Upto.refl (N := N) a⁻¹).mul h
  rwa [← mul_assoc, ← mul_assoc, PowerSeries.inv_mul_cancel a hc, one_mul, one_mul] at this

theorem response_iff {f : Filter} {x y : List ℚ} (hl : y.length = x.length) : Response f x y ↔ Upto x.length (ser f.a * ser y) (ser f.b * ser x) := by
  constructor
  · intro h n hn
    rw [coeff_mul_range, coeff_mul_range]
    simp only [coeff_ser]
    exact h.samples n hn
  · intro h
    refine ⟨hl, fun n hn => ?_⟩
    have := h n hn
    rw [coeff_mul_range, coeff_mul_range] at this
    simpa only [coeff_ser] using this

theorem usable_coeff {f : Filter} (h : Usable f) : coeff 0 (ser f.a) ≠ 0 := by rw [coeff_ser]; exact h

/-- C88: there is only one response. -/
theorem response_unique {f : Filter} (hf : Usable f) {x y z : List ℚ} (hy : Response f x y) (hz : Response f x z) : y = z := by
  refine ext_at (hy.length.trans hz.length.symm) fun n hn => ?_
  have := Upto.cancel (usable_coeff hf) (((response_iff hy.length).1 hy).trans ((response_iff hz.length).1 hz).symm) n (by rw [← hy.length]; exact hn)
  simpa only [coeff_ser] using this

theorem lfilter_iff {f : Filter} (hf : Usable f) (x y : List ℚ) : lfilter f x = .ok y ↔ Response f x y := by
  obtain ⟨z, hz, hr⟩ := lfilter_spec hf x
  constructor
  · intro h
    rw [hz] at h
    exact Except.ok.inj h ▸ hr
  · intro h
    rw [hz, response_unique hf h hr]

/-- C88: the filter with the products of the coefficients is the cascade of the two filters. -/
theorem cascade {f g : Filter} {x y z : List ℚ} (hy : Response f x y) (hz : Response g y z) : Response ⟨convolve f.b g.b, convolve f.a g.a⟩ x z := by
  rw [response_iff (hz.length.trans hy.length)]
  dsimp only
  rw [ser_convolve, ser_convolve]
  have h1 := (response_iff hy.length).1 hy
  have h2 := (response_iff hz.length).1 hz
  rw [hy.length] at h2
  have e1 := (Upto.refl (N := x.length) (ser f.a)).mul h2
  have e2 := (Upto.refl (N := x.length) (ser g.b)).mul h1
  rw [mul_assoc]
  refine e1.trans ?_
  rw [← mul_assoc, mul_comm (ser f.a), mul_assoc, mul_comm (ser f.b), mul_assoc]
  exact e2

theorem usable_convolve {f g : Filter} (hf : Usable f) (hg : Usable g) : at' (convolve f.a g.a) 0 ≠ 0 := by
  rw [at_convolve]
  simpa using ⟨hf, hg⟩

/-- The first coefficient decides: the filters of first order can be used. -/
theorem usable_high (w : ℚ) : Usable (butterHigh w) := one_ne_zero
theorem usable_low (w : ℚ) : Usable (butterLow w) := one_ne_zero

theorem response_scale {f : Filter} {x y : List ℚ} (h : Response f x y) (c : ℚ) : Response ⟨f.b.map fun v => c * v, f.a⟩ x (y.map fun v => c * v) := by
  have hl : (y.map fun v => c * v).length = x.length := by rw [List.length_map, h.length]
  rw [response_iff hl]
  dsimp only
  rw [ser_map_mul, ser_map_mul]
  have := (Upto.refl (N := x.length) (C c)).mul ((response_iff h.length).1 h)
  rwa [← mul_assoc, mul_comm (C c) (ser f.a), mul_assoc, ← mul_assoc (C c)] at this

theorem at_zipWith {g : ℚ → ℚ → ℚ} {xs ys : List ℚ} (h0 : g 0 0 = 0) (h : xs.length = ys.length) (n : Nat) : at' (List.zipWith g xs ys) n = g (at' xs n) (at' ys n) := by
  by_cases hn : n < xs.length
  · unfold at'
    rw [List.getD_eq_getElem _ _ (by rw [List.length_zipWith]; omega), List.getD_eq_getElem _ _ hn, List.getD_eq_getElem _ _ (by omega), List.getElem_zipWith]
  · rw [at_ge (by rw [List.length_zipWith]; omega), at_ge (by omega), at_ge (by omega), h0]

theorem ser_comb (c d : ℚ) {xs ys : List ℚ} (h : xs.length = ys.length) : ser (List.zipWith (fun x y => x * c + y * d) xs ys) = C c * ser xs + C d * ser ys := by
  ext n
  rw [coeff_ser, at_zipWith (by simp) h, map_add, coeff_C_mul, coeff_C_mul, coeff_ser, coeff_ser]
  ring

/-- C88: the response is linear in the signal. -/
theorem response_linear {f : Filter} {x x' y y' : List ℚ} (h : Response f x y) (h' : Response f x' y') (hl : x.length = x'.length) (c d : ℚ) :
    Response f (List.zipWith (fun u v => u * c + v * d) x x') (List.zipWith (fun u v => u * c + v * d) y y') := by
  have hly : y.length = y'.length := by rw [h.length, h'.length, hl]
  have hz : (List.zipWith (fun u v => u * c + v * d) x x').length = x.length := by rw [List.length_zipWith]; omega
  have hlz : (List.zipWith (fun u v => u * c + v * d) y y').length = (List.zipWith (fun u v => u * c + v * d) x x').length := by rw [hz, List.length_zipWith, h.length, h'.length]; omega
  rw [response_iff hlz, hz, ser_comb c d hl, ser_comb c d hly]
  have e1 := (response_iff h.length).1 h
  have e2 := (response_iff h'.length).1 h'
  intro n hn
  have e3 := e1 n hn
  have e4 := e2 n (by omega)
  rw [mul_add, mul_add, map_add, map_add]
  rw [mul_left_comm, mul_left_comm (ser f.a), mul_left_comm (ser f.b) (C c), mul_left_comm (ser f.b) (C d), coeff_C_mul, coeff_C_mul, coeff_C_mul, coeff_C_mul, e3, e4]

/-- C88: causality: the first samples of the response are the response to the first samples. -/
theorem response_take {f : Filter} {x y : List ℚ} (h : Response f x y) (m : Nat) : Response f (x.take m) (y.take m) := by
  refine ⟨by rw [List.length_take, List.length_take, h.length], fun n hn => ?_⟩
  rw [List.length_take] at hn
  have := h.samples n (by omega)
  have e : ∀ l : List ℚ, ∀ i, at' (l.take m) (n - i) = at' l (n - i) := fun l i => by rw [at_take, if_pos (by omega)]
  simp only [e]
  exact this

/-- C88: a delay of the signal delays the response. -/
theorem response_delay {f : Filter} {x y : List ℚ} (h : Response f x y) : Response f (0 :: x) (0 :: y) := by
  have hl : (0 :: y : List ℚ).length = (0 :: x : List ℚ).length := by rw [List.length_cons, List.length_cons, h.length]
  rw [response_iff hl, ser_cons, ser_cons, map_zero, zero_add, zero_add]
  have e := (response_iff h.length).1 h
  intro n hn
  rw [mul_left_comm, mul_left_comm (ser f.b)]
  cases n with
  | zero => simp
  | succ n => rw [coeff_succ_X_mul, coeff_succ_X_mul]; exact e n (by simpa using hn)

/-- C88: the signal without coupling is the gain times the two low-pass filters one after the other. -/
theorem lpf_spec {e : Electronics} (he : Usable e.lpf2) {x y z : List ℚ} (h1 : Response (butterLow e.w1) x y) (h2 : Response e.lpf2 y z) : signalLpf e x = .ok (z.map fun v => e.gain * v) := by
  unfold signalLpf
  rw [lfilter_iff]
  · exact response_scale (cascade h1 h2) e.gain
  · exact usable_convolve (usable_low e.w1) he

/-- C88: the signal of the electronics is `A2` times the two low-pass filters, one after the other, of the sum of `ZC` times the low frequencies and `A1` times the high frequencies of the input with noise. -/
theorem fee_spec {e : Electronics} (he : Usable e.lpf2) {noise x l h y z : List ℚ} (hl : Response (butterLow e.w) (List.zipWith (· + ·) x noise) l) (hh : Response (butterHigh e.w) (List.zipWith (· + ·) x noise) h)
    (h1 : Response (butterLow e.w1) (List.zipWith (fun u v => u * e.zc + v * e.a1) l h) y) (h2 : Response e.lpf2 y z) : signalFee e noise x = .ok (z.map fun v => e.a2 * v) := by
  unfold signalFee
  rw [lfilter_iff]
  · refine response_scale (f := ⟨convolve (convolve (List.zipWith (fun l h => l * e.zc + h * e.a1) (butterLow e.w).b (butterHigh e.w).b) (butterLow e.w1).b) e.lpf2.b,
      convolve (convolve (butterHigh e.w).a (butterLow e.w1).a) e.lpf2.a⟩) ?_ e.a2
    refine cascade (f := ⟨convolve (List.zipWith (fun l h => l * e.zc + h * e.a1) (butterLow e.w).b (butterHigh e.w).b) (butterLow e.w1).b, convolve (butterHigh e.w).a (butterLow e.w1).a⟩) ?_ h2
    refine cascade (f := ⟨List.zipWith (fun l h => l * e.zc + h * e.a1) (butterLow e.w).b (butterHigh e.w).b, (butterHigh e.w).a⟩) ?_ h1
    have hlh : l.length = h.length := by rw [hl.length, hh.length]
    have hz : (List.zipWith (fun u v => u * e.zc + v * e.a1) l h).length = (List.zipWith (· + ·) x noise).length := by rw [List.length_zipWith, hl.length, hh.length, min_self]
    rw [response_iff hz]
    dsimp only
    rw [ser_comb _ _ hlh, ser_comb _ _ (show (butterLow e.w).b.length = (butterHigh e.w).b.length from rfl)]
    have e1 := (response_iff hl.length).1 hl
    have e2 := (response_iff hh.length).1 hh
    intro n hn
    have e3 := e1 n hn
    have e4 := e2 n hn
    rw [show (butterLow e.w).a = (butterHigh e.w).a from rfl] at e3
    rw [mul_add, add_mul, map_add, map_add, mul_left_comm, mul_left_comm (ser (butterHigh e.w).a), coeff_C_mul, coeff_C_mul, e3, e4, mul_assoc, mul_assoc, coeff_C_mul, coeff_C_mul]
  · have h1 : Usable ⟨[], convolve (butterHigh e.w).a (butterLow e.w1).a⟩ := usable_convolve (f := butterHigh e.w) (g := butterLow e.w1) (usable_high _) (usable_low _)
    exact usable_convolve h1 he

/-- C88: the low and the high frequencies add up to the signal. -/
theorem low_plus_high {w : ℚ} (hw : 1 + w ≠ 0) {x l h : List ℚ} (hl : Response (butterLow w) x l) (hh : Response (butterHigh w) x h) : List.zipWith (· + ·) l h = x := by
  have hlh : l.length = h.length := by rw [hl.length, hh.length]
  have hz : (List.zipWith (· + ·) l h).length = x.length := by rw [List.length_zipWith, hl.length, hh.length, min_self]
  refine response_unique (usable_high w) (f := ⟨(butterHigh w).a, (butterHigh w).a⟩) (x := x) ?_ ?_
  · rw [response_iff hz]
    dsimp only
    have es : ser (List.zipWith (· + ·) l h) = ser l + ser h := by
      ext n
      rw [coeff_ser, at_zipWith (by simp) hlh, map_add, coeff_ser, coeff_ser]
    rw [es, mul_add]
    have e1 := (response_iff hl.length).1 hl
    have e2 := (response_iff hh.length).1 hh
    have eb : ser (butterHigh w).a = ser (butterLow w).b + ser (butterHigh w).b := by
      ext n
      rw [coeff_ser, map_add, coeff_ser, coeff_ser]
      rcases n with _ | _ | n
      · show (1 : ℚ) = w / (1 + w) + 1 / (1 + w)
        field_simp
        ring
      · show (w - 1) / (1 + w) = w / (1 + w) + -1 / (1 + w)
        ring
      · rw [at_ge (by simp [butterHigh]), at_ge (by simp [butterLow]), at_ge (by simp [butterHigh])]; ring
    intro n hn
    have e3 := e1 n hn
    have e4 := e2 n hn
    rw [show (butterLow w).a = (butterHigh w).a from rfl] at e3
    rw [map_add, e3, e4, eb, add_mul, map_add]
  · rw [response_iff rfl]
    exact Upto.refl _

/-- The cleaning filter is the first stage of the baseline restoration. -/
theorem clean_eq (e : Electronics) (xs : List ℚ) : signalClean e xs = .ok (Blr.clean e.wc xs) := by
  unfold signalClean
  rw [lfilter_iff (usable_high _)]
  have key : ∀ (b0 b1 a1 : ℚ) (xs : List ℚ) (xp yp : ℚ) (P Q : List ℚ), Blr.lfilterFrom b0 b1 a1 xp yp xs = lfilterGo [b0, b1] [a1] 1 (xp :: P) (yp :: Q) xs := by
    intro b0 b1 a1 xs
    induction xs with
    | nil => intros; rfl
    | cons x xs ih =>
      intro xp yp P Q
      rw [Blr.lfilterFrom, lfilterGo]
      have : (dot [b0, b1] (x :: xp :: P) - dot [a1] (yp :: Q)) / 1 = b0 * x + b1 * xp - a1 * yp := by simp [dot]
      rw [this, ← ih]
  have key0 : Blr.clean e.wc xs = lfilterGo (butterHigh e.wc).b [(e.wc - 1) / (1 + e.wc)] 1 [] [] xs := by
    unfold Blr.clean
    cases xs with
    | nil => rfl
    | cons x xs =>
      rw [Blr.lfilterFrom, lfilterGo]
      have : (dot (butterHigh e.wc).b [x] - dot [(e.wc - 1) / (1 + e.wc)] []) / 1 = 1 / (1 + e.wc) * x + -1 / (1 + e.wc) * 0 - (e.wc - 1) / (1 + e.wc) * 0 := by simp [dot, butterHigh]
      rw [this, key _ _ _ _ _ _ [] []]
      rfl
  rw [key0]
  exact (lfilter_iff (usable_high _) _ _).1 (by unfold lfilter butterHigh; simp)

end Verif.Fee
