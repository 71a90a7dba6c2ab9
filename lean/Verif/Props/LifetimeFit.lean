import Verif.Spec.LifetimeFit
import Verif.Props.Wfm
import Verif.Props.Core
import Verif.Lemmas.Edges
/-!
# C116: the fits of the lifetime and of the drift velocity
-/
namespace Verif.LifetimeFit
open Verif (PyErr)

section
variable {K : Type} [Field K] [LinearOrder K]

theorem foldl_min (xs : List K) : ∀ x : K, Smallest (x :: xs) (xs.foldl min x) := by
  induction xs with
  | nil => intro x; exact ⟨by simp, by simp⟩
  | cons y ys ih =>
    intro x
    obtain ⟨h1, h2⟩ := ih (min x y)
    refine ⟨?_, fun v hv => ?_⟩
    · rcases List.mem_cons.1 h1 with h | h
      · rw [List.foldl_cons, h]
        rcases min_choice x y with h | h <;> rw [h] <;> simp
      · rw [List.foldl_cons]; simp [h]
    · rw [List.foldl_cons]
      have := h2 (min x y) (by simp)
      rcases List.mem_cons.1 hv with rfl | hv
      · exact this.trans (min_le_left _ _)
      · rcases List.mem_cons.1 hv with rfl | hv
        · exact this.trans (min_le_right _ _)
        · exact h2 v (List.mem_cons_of_mem _ hv)

theorem foldl_max (xs : List K) : ∀ x : K, Largest (x :: xs) (xs.foldl max x) := by
  induction xs with
  | nil => intro x; exact ⟨by simp, by simp⟩
  | cons y ys ih =>
    intro x
    obtain ⟨h1, h2⟩ := ih (max x y)
    refine ⟨?_, fun v hv => ?_⟩
    · rcases List.mem_cons.1 h1 with h | h
      · rw [List.foldl_cons, h]
        rcases max_choice x y with h | h <;> rw [h] <;> simp
      · rw [List.foldl_cons]; simp [h]
    · rw [List.foldl_cons]
      have := h2 (max x y) (by simp)
      rcases List.mem_cons.1 hv with rfl | hv
      · exact (le_max_left _ _).trans this
      · rcases List.mem_cons.1 hv with rfl | hv
        · exact (le_max_right _ _).trans this
        · exact h2 v (List.mem_cons_of_mem _ hv)

theorem smallest_unique {l : List K} {a b : K} (ha : Smallest l a) (hb : Smallest l b) : a = b := le_antisymm (ha.2 b hb.1) (hb.2 a ha.1)

theorem largest_unique {l : List K} {a b : K} (ha : Largest l a) (hb : Largest l b) : a = b := le_antisymm (hb.2 a ha.1) (ha.2 b hb.1)

theorem minOf_of {l : List K} {m : K} (h : Smallest l m) : minOf l = .ok m := by
  cases l with
  | nil => exact absurd h.1 (by simp)
  | cons x xs => exact congrArg Except.ok (smallest_unique (foldl_min xs x) h)

theorem maxOf_of {l : List K} {m : K} (h : Largest l m) : maxOf l = .ok m := by
  cases l with
  | nil => exact absurd h.1 (by simp)
  | cons x xs => exact congrArg Except.ok (largest_unique (foldl_max xs x) h)

/-- The seed of the straight line from the extremes. -/
theorem linSeed_eq {x y : List K} {x0 x1 y0 y1 : K} (h0 : Smallest x x0) (h1 : Largest x x1) (g0 : Smallest y y0) (g1 : Largest y y1) :
    linSeed x y = .ok (linSeedOf x0 x1 y0 y1 y) := by
  unfold linSeed
  rw [minOf_of h0, maxOf_of h1, minOf_of g0, maxOf_of g1]

variable [IsStrictOrderedRing K]

/-- **C116**: the seed of the straight line goes through the corner of the smallest `x` and the smallest `y` and that of the largest ones, whatever the order of the data, so its slope is
never negative; if all the `x` are equal it is the constant mean of the `y`. -/
theorem line_through_corners {x y : List K} {x0 x1 y0 y1 : K} (h0 : Smallest x x0) (h1 : Largest x x1) (g0 : Smallest y y0) (g1 : Largest y y1) :
    ∃ a b, linSeed x y = .ok (a, b) ∧ 0 ≤ b ∧ (x0 < x1 → a + b * x0 = y0 ∧ a + b * x1 = y1) ∧ (x0 = x1 → b = 0 ∧ a * y.length = y.sum) := by
  refine ⟨(linSeedOf x0 x1 y0 y1 y).1, (linSeedOf x0 x1 y0 y1 y).2, linSeed_eq h0 h1 g0 g1, ?_, fun h => ?_, fun h => ?_⟩
  · unfold linSeedOf
    split
    · exact le_refl _
    · exact div_nonneg (sub_nonneg.2 (g0.2 _ g1.1)) (sub_nonneg.2 (h0.2 _ h1.1))
  · have hne : x1 - x0 ≠ 0 := sub_ne_zero.2 (ne_of_gt h)
    unfold linSeedOf
    rw [if_neg (ne_of_gt h)]
    constructor
    · ring
    · field_simp; ring
  · unfold linSeedOf
    rw [if_pos h.symm]
    refine ⟨rfl, ?_⟩
    have : (y.length : K) ≠ 0 := by
      have : y.length ≠ 0 := fun h => by rw [List.length_eq_zero_iff.1 h] at g0; exact absurd g0.1 (by simp)
      exact_mod_cast this
    exact div_mul_cancel₀ _ this

example : (linSeed [(3 : ℚ), 1, 2] [10, 30, 20]).toOption = some (0, 10) ∧ (linSeed [(2 : ℚ), 2] [10, 30]).toOption = some (20, 0) := by
  decide +kernel

/-- **C116**: without data there is no seed: `ValueError`. -/
theorem no_data_no_seed (log : K → K) (y : List K) (t : FitType) : seedFunction log t [] y = .error .valueError := by
  cases t
  · rfl
  · unfold seedFunction expoSeed sortedPairs
    rfl
  · rfl

/-- **C116**: for points on a line that does not decrease, with some different `x`, the seed is the line; on a line that decreases the seed has the opposite slope. -/
theorem line_exact {x : List K} {a b x0 x1 : K} (h0 : Smallest x x0) (h1 : Largest x x1) (hne : x0 < x1) :
    (0 ≤ b → linSeed x (x.map fun v => a + b * v) = .ok (a, b)) ∧
    (b < 0 → ∃ a', linSeed x (x.map fun v => a + b * v) = .ok (a', -b)) := by
  have hd : x1 - x0 ≠ 0 := sub_ne_zero.2 (ne_of_gt hne)
  constructor
  · intro hb
    have g0 : Smallest (x.map fun v => a + b * v) (a + b * x0) := by
      refine ⟨List.mem_map.2 ⟨x0, h0.1, rfl⟩, fun v hv => ?_⟩
      obtain ⟨w, hw, rfl⟩ := List.mem_map.1 hv
      exact add_le_add_right (mul_le_mul_of_nonneg_left (h0.2 w hw) hb) a
    have g1 : Largest (x.map fun v => a + b * v) (a + b * x1) := by
      refine ⟨List.mem_map.2 ⟨x1, h1.1, rfl⟩, fun v hv => ?_⟩
      obtain ⟨w, hw, rfl⟩ := List.mem_map.1 hv
      exact add_le_add_right (mul_le_mul_of_nonneg_left (h1.2 w hw) hb) a
    rw [linSeed_eq h0 h1 g0 g1]
    unfold linSeedOf
    rw [if_neg (ne_of_gt hne)]
    have hs : (a + b * x1 - (a + b * x0)) / (x1 - x0) = b := by field_simp; ring
    rw [hs]
    congr 2
    ring
  · intro hb
    have g0 : Smallest (x.map fun v => a + b * v) (a + b * x1) := by
      refine ⟨List.mem_map.2 ⟨x1, h1.1, rfl⟩, fun v hv => ?_⟩
      obtain ⟨w, hw, rfl⟩ := List.mem_map.1 hv
      exact add_le_add_right (mul_le_mul_of_nonpos_left (h1.2 w hw) hb.le) a
    have g1 : Largest (x.map fun v => a + b * v) (a + b * x0) := by
      refine ⟨List.mem_map.2 ⟨x0, h0.1, rfl⟩, fun v hv => ?_⟩
      obtain ⟨w, hw, rfl⟩ := List.mem_map.1 hv
      exact add_le_add_right (mul_le_mul_of_nonpos_left (h0.2 w hw) hb.le) a
    rw [linSeed_eq h0 h1 g0 g1]
    unfold linSeedOf
    rw [if_neg (ne_of_gt hne)]
    have hs : (a + b * x0 - (a + b * x1)) / (x1 - x0) = -b := by field_simp; ring
    rw [hs]
    exact ⟨_, rfl⟩

example : Smallest [(1 : ℚ), 2, 3] 1 ∧ Largest [(1 : ℚ), 2, 3] 3 ∧ (linSeed [(1 : ℚ), 2, 3] [30, 20, 10]).toOption = some (0, 10) := by
  refine ⟨⟨by decide, by decide⟩, ⟨by decide, by decide⟩, by decide +kernel⟩

theorem polynom_cons (x c : K) (cs : List K) : polynom x (c :: cs) = c + polynom x cs * x := rfl

/-- **C116**: the polynomial is the sum of the coefficients by the powers. -/
theorem polynom_powers (x : K) (coeffs : List K) : polynom x coeffs = (coeffs.zipIdx.map fun p : K × Nat => p.1 * x ^ p.2).sum := by
  have : ∀ (cs : List K) (k : Nat), ((cs.zipIdx k).map fun p : K × Nat => p.1 * x ^ p.2).sum = polynom x cs * x ^ k := by
    intro cs
    induction cs with
    | nil => intro k; simp [polynom]
    | cons c cs ih =>
      intro k
      rw [List.zipIdx_cons, List.map_cons, List.sum_cons, ih (k + 1), polynom_cons]
      ring
  rw [this coeffs 0]
  ring

example : polynom (2 : ℚ) [1, 2, 3] = 17 := by decide +kernel

/-! ### The exponential seed -/

theorem pairLe_total (a b : K × K) : pairLe a b ∨ pairLe b a := by
  unfold pairLe
  rcases lt_trichotomy a.1 b.1 with h | h | h
  · exact .inl (.inl h)
  · rcases le_total a.2 b.2 with h' | h'
    · exact .inl (.inr ⟨h, h'⟩)
    · exact .inr (.inr ⟨h.symm, h'⟩)
  · exact .inr (.inl h)

theorem pairLe_trans (a b c : K × K) (h : pairLe a b) (h' : pairLe b c) : pairLe a c := by
  unfold pairLe at *
  rcases h with h | ⟨h, h1⟩ <;> rcases h' with h' | ⟨h', h2⟩
  · exact .inl (h.trans h')
  · exact .inl (h' ▸ h)
  · exact .inl (h ▸ h')
  · exact .inr ⟨h.trans h', h1.trans h2⟩

instance : Std.Total (pairLe (K := K)) := ⟨pairLe_total⟩
instance : IsTrans (K × K) (pairLe (K := K)) := ⟨pairLe_trans⟩

/-- The first and the last pair in order. -/
theorem sortedPairs_ends (x y : List K) (hne : x.zip y ≠ []) : ∃ a b, (sortedPairs x y).head? = some a ∧ (sortedPairs x y).getLast? = some b ∧
    a ∈ x.zip y ∧ b ∈ x.zip y ∧ (∀ p ∈ x.zip y, pairLe a p) ∧ (∀ p ∈ x.zip y, pairLe p b) := by
  have hp : (sortedPairs x y).Perm (x.zip y) := List.perm_insertionSort _ _
  have hs : (sortedPairs x y).Pairwise pairLe := List.pairwise_insertionSort _ _
  have hn : sortedPairs x y ≠ [] := fun h => hne (by rw [h] at hp; exact hp.nil_eq.symm)
  obtain ⟨c, cs, hc⟩ := List.exists_cons_of_ne_nil hn
  refine ⟨c, (sortedPairs x y).getLast hn, by rw [hc]; rfl, List.getLast?_eq_some_getLast hn,
    hp.mem_iff.1 (by rw [hc]; simp), hp.mem_iff.1 (List.getLast_mem hn), fun p hpm => ?_, fun p hpm => ?_⟩
  · have hm := hp.mem_iff.2 hpm
    rw [hc] at hs hm
    rcases List.mem_cons.1 hm with rfl | hm
    · exact .inr ⟨rfl, le_refl _⟩
    · exact (List.pairwise_cons.1 hs).1 p hm
  · have hm := hp.mem_iff.2 hpm
    rw [← List.dropLast_append_getLast hn] at hs hm
    rcases List.mem_append.1 hm with hm | hm
    · exact (List.pairwise_append.1 hs).2.2 p hm _ (by simp)
    · rw [List.mem_singleton] at hm
      rw [hm]
      exact .inr ⟨rfl, le_refl _⟩

end

/-! ### Lifetimes -/

theorem zip_decay {e0 τ : ℝ} : ∀ {evts : List (Evt ℝ)}, Decay e0 τ evts → ∀ {p : ℝ × ℝ}, p ∈ (evts.map Evt.dt).zip (evts.map Evt.energy) →
    p.1 ∈ evts.map Evt.dt ∧ p.2 = e0 * Real.exp (-p.1 / τ) := by
  intro evts h p hp
  induction evts with
  | nil => cases hp
  | cons e es ih =>
    rw [List.map_cons, List.map_cons, List.zip_cons_cons] at hp
    rcases List.mem_cons.1 hp with rfl | hp
    · exact ⟨by simp, h e (by simp)⟩
    · obtain ⟨h1, h2⟩ := ih (fun x hx => h x (List.mem_cons_of_mem _ hx)) hp
      exact ⟨by rw [List.map_cons]; exact List.mem_cons_of_mem _ h1, h2⟩

theorem zip_times {evts : List (Evt ℝ)} {t : ℝ} (ht : t ∈ evts.map Evt.dt) : ∃ p ∈ (evts.map Evt.dt).zip (evts.map Evt.energy), p.1 = t := by
  obtain ⟨e, he, rfl⟩ := List.mem_map.1 ht
  refine ⟨(e.dt, e.energy), ?_, rfl⟩
  rw [List.zip_map']
  exact List.mem_map.2 ⟨e, he, rfl⟩

/-- **C116**: for energies that decay with a lifetime, the seed of the exponential fit is the energy at the shortest drift time `t0` and the lifetime by `t1 / (t1 - t0)`, with `t1` the longest one:
the right values when the shortest drift time is 0. -/
theorem expo_seed_decay {e0 τ t0 t1 : ℝ} (he : 0 < e0) (hτ : τ ≠ 0) {evts : List (Evt ℝ)} (hd : Decay e0 τ evts) (h0 : Smallest (evts.map Evt.dt) t0)
    (h1 : Largest (evts.map Evt.dt) t1) (hne : t0 < t1) :
    seedFunction Real.log .expo (fitVariables Real.log .expo evts).1 (fitVariables Real.log .expo evts).2 = .ok (e0 * Real.exp (-t0 / τ), some (τ * (t1 / (t1 - t0)))) ∧
    (t0 = 0 → seedFunction Real.log .expo (fitVariables Real.log .expo evts).1 (fitVariables Real.log .expo evts).2 = .ok (e0, some τ)) := by
  have key : seedFunction Real.log .expo (fitVariables Real.log .expo evts).1 (fitVariables Real.log .expo evts).2 = .ok (e0 * Real.exp (-t0 / τ), some (τ * (t1 / (t1 - t0)))) := by
    unfold seedFunction fitVariables expoSeed
    dsimp only
    have hz : (evts.map Evt.dt).zip (evts.map Evt.energy) ≠ [] := by
      obtain ⟨p, hp, -⟩ := zip_times h0.1
      exact List.ne_nil_of_mem hp
    obtain ⟨a, b, ha, hb, ham, hbm, hal, hbl⟩ := sortedPairs_ends _ _ hz
    rw [ha, hb]
    dsimp only
    obtain ⟨ha1, ha2⟩ := zip_decay hd ham
    obtain ⟨hb1, hb2⟩ := zip_decay hd hbm
    have e1 : a.1 = t0 := by
      obtain ⟨p, hp, hpt⟩ := zip_times h0.1
      refine le_antisymm ?_ (h0.2 _ ha1)
      rw [← hpt]
      rcases hal p hp with h | h
      · exact h.le
      · exact h.1.le
    have e2 : b.1 = t1 := by
      obtain ⟨p, hp, hpt⟩ := zip_times h1.1
      refine le_antisymm (h1.2 _ hb1) ?_
      rw [← hpt]
      rcases hbl p hp with h | h
      · exact h.le
      · exact h.1.le
    rw [e1] at ha2
    rw [e2] at hb2
    have pa : 0 < a.2 := by rw [ha2]; exact mul_pos he (Real.exp_pos _)
    have pb : 0 < b.2 := by rw [hb2]; exact mul_pos he (Real.exp_pos _)
    rw [if_neg (by rintro (h | h) <;> linarith)]
    have hlog : Real.log (b.2 / a.2) = -(t1 - t0) / τ := by
      have : b.2 / a.2 = Real.exp (-(t1 - t0) / τ) := by
        rw [ha2, hb2, mul_div_mul_left _ _ (ne_of_gt he), ← Real.exp_sub]
        congr 1
        ring
      rw [this, Real.log_exp]
    have hdt : t1 - t0 ≠ 0 := sub_ne_zero.2 (ne_of_gt hne)
    rw [hlog, if_neg (div_ne_zero (neg_ne_zero.2 hdt) hτ), e2, ha2]
    congr 3
    field_simp
  refine ⟨key, fun h => ?_⟩
  rw [key, h]
  have : t1 ≠ 0 := by rw [h] at hne; exact ne_of_gt hne
  simp [this]

theorem map_neg_log {e0 τ : ℝ} (he : 0 < e0) {evts : List (Evt ℝ)} (hd : Decay e0 τ evts) :
    (evts.map fun e => -Real.log e.energy) = (evts.map Evt.dt).map fun v => -Real.log e0 + 1 / τ * v := by
  rw [List.map_map]
  refine List.map_congr_left fun e h => ?_
  rw [hd e h, Real.log_mul (ne_of_gt he) (Real.exp_ne_zero _), Real.log_exp, Function.comp_apply]
  ring

/-- **C116**: for energies that decay with a lifetime the seed of the log-linear fit is exact: its line goes through every point and `transform_parameters` gives the energy and the lifetime. -/
theorem loglin_exact {e0 τ t0 t1 : ℝ} (he : 0 < e0) (hτ : 0 < τ) {evts : List (Evt ℝ)} (hd : Decay e0 τ evts) (h0 : Smallest (evts.map Evt.dt) t0)
    (h1 : Largest (evts.map Evt.dt) t1) (hne : t0 < t1) :
    ∃ a b, seedFunction Real.log .logLin (fitVariables Real.log .logLin evts).1 (fitVariables Real.log .logLin evts).2 = .ok (a, some b) ∧
      (∀ e ∈ evts, fitFunction Real.exp .logLin e.dt a b = -Real.log e.energy) ∧
      ∀ ua ub cov, (transform Real.exp a b ua ub cov).e0 = e0 ∧ (transform Real.exp a b ua ub cov).lt = some τ := by
  refine ⟨-Real.log e0, 1 / τ, ?_, fun e hm => ?_, fun ua ub cov => ?_⟩
  · unfold seedFunction fitVariables
    dsimp only
    rw [map_neg_log he hd, (line_exact h0 h1 hne).1 (by positivity)]
  · rw [hd e hm, Real.log_mul (ne_of_gt he) (Real.exp_ne_zero _), Real.log_exp]
    unfold fitFunction polynom
    simp only [List.foldr_cons, List.foldr_nil]
    ring
  · unfold transform
    dsimp only
    rw [neg_neg, Real.exp_log he, if_neg (one_div_ne_zero (ne_of_gt hτ)), one_div_one_div]
    exact ⟨rfl, rfl⟩

/-- **C116**: the exponential seed looks only at the pairs of the shortest and of the longest `x` (with the smallest and the largest `y` if there are several): `ValueError` if one of their values is not positive; otherwise
the value is that of the first one, and the lifetime is infinite exactly when the two values are equal. -/
theorem expo_seed_ends (x y : List ℝ) (hne : x.zip y ≠ []) : ∃ a b, a ∈ x.zip y ∧ b ∈ x.zip y ∧
    (∀ p ∈ x.zip y, a.1 ≤ p.1 ∧ p.1 ≤ b.1 ∧ (p.1 = a.1 → a.2 ≤ p.2) ∧ (p.1 = b.1 → p.2 ≤ b.2)) ∧
    (a.2 ≤ 0 ∨ b.2 ≤ 0 → seedFunction Real.log .expo x y = .error .valueError) ∧
    (0 < a.2 → 0 < b.2 → ∃ lt, seedFunction Real.log .expo x y = .ok (a.2, lt) ∧ (lt = none ↔ a.2 = b.2)) := by
  obtain ⟨a, b, ha, hb, ham, hbm, hal, hbl⟩ := sortedPairs_ends x y hne
  refine ⟨a, b, ham, hbm, fun p hp => ⟨?_, ?_, fun h => ?_, fun h => ?_⟩, fun h => ?_, fun h1 h2 => ?_⟩
  · rcases hal p hp with h | h
    · exact h.le
    · exact h.1.le
  · rcases hbl p hp with h | h
    · exact h.le
    · exact h.1.le
  · rcases hal p hp with h' | h'
    · exact absurd h (ne_of_gt h')
    · exact h'.2
  · rcases hbl p hp with h' | h'
    · exact absurd h (ne_of_lt h')
    · exact h'.2
  · unfold seedFunction expoSeed
    dsimp only
    rw [ha, hb]
    dsimp only
    rw [if_pos h]
  · unfold seedFunction expoSeed
    dsimp only
    rw [ha, hb]
    dsimp only
    rw [if_neg (by rintro (h | h) <;> linarith)]
    refine ⟨_, rfl, ?_⟩
    have hq : 0 < b.2 / a.2 := div_pos h2 h1
    have hlog : Real.log (b.2 / a.2) = 0 ↔ a.2 = b.2 := by
      constructor
      · intro h
        rcases Real.log_eq_zero.1 h with h | h | h
        · linarith
        · rw [div_eq_one_iff_eq (ne_of_gt h1)] at h; exact h.symm
        · linarith
      · intro h
        rw [h, div_self (ne_of_gt h2), Real.log_one]
    rw [← hlog]
    split <;> simp_all

example : (expoSeed (fun v : ℚ => v - 1) [2, 0, 1] [5, 10, 20]).toOption = some (10, some 4) ∧ (expoSeed (fun v : ℚ => v - 1) [2, 0, 1] [5, -10, 20]).toOption = none := by decide +kernel

/-- The events of the examples: lifetime 2, at drift times 0 and 2. -/
noncomputable def decaying : List (Evt ℝ) := [⟨0, 10⟩, ⟨2, 10 * Real.exp (-1)⟩]

example : Decay 10 2 decaying ∧ Smallest (decaying.map Evt.dt) 0 ∧ Largest (decaying.map Evt.dt) 2 := by
  unfold decaying
  refine ⟨?_, ⟨by simp, by simp⟩, ⟨by simp, by simp⟩⟩
  intro e he
  rcases List.mem_cons.1 he with rfl | he
  · norm_num
  · rw [List.mem_singleton] at he
    subst he
    norm_num

/-- **C116**: the seed of the linear fit of the energies (not of their logarithms) has a slope that is not negative, for decaying energies that of a growth. -/
theorem linear_seed_grows {x y : List ℝ} {a b : ℝ} (h : seedFunction Real.log .linear x y = .ok (a, some b)) : 0 ≤ b := by
  unfold seedFunction at h
  dsimp only at h
  cases hs : linSeed x y with
  | error e => rw [hs] at h; cases h
  | ok s =>
    rw [hs] at h
    have hx : x ≠ [] := by rintro rfl; cases hs
    have hy : y ≠ [] := by
      rintro rfl
      cases x with
      | nil => exact hx rfl
      | cons x xs => cases hs
    obtain ⟨x', xs, rfl⟩ := List.exists_cons_of_ne_nil hx
    obtain ⟨y', ys, rfl⟩ := List.exists_cons_of_ne_nil hy
    obtain ⟨a', b', e, hb, -⟩ := line_through_corners (foldl_min xs x') (foldl_max xs x') (foldl_min ys y') (foldl_max ys y')
    rw [hs] at e
    injection h with h
    injection h with h1 h2
    injection h2 with h2
    injection e with e
    rw [← h2, e]
    exact hb

example : seedFunction Real.log .linear [0, 2] [(10 : ℝ), 4] = .ok (4, some 3) := by
  unfold seedFunction
  dsimp only
  have h0 : Smallest [(0 : ℝ), 2] 0 := ⟨by simp, by simp⟩
  have h1 : Largest [(0 : ℝ), 2] 2 := ⟨by simp, by simp⟩
  have g0 : Smallest [(10 : ℝ), 4] 4 := ⟨by simp, by simp; norm_num⟩
  have g1 : Largest [(10 : ℝ), 4] 10 := ⟨by simp, by simp; norm_num⟩
  rw [linSeed_eq h0 h1 g0 g1]
  unfold linSeedOf
  norm_num

/-- **C116**: `transform_parameters` propagates the errors and the covariance to first order: with the derivatives `d` of the energy `exp(-a)` and `d'` of the lifetime `1/b`, the errors are `|d| ua` and
`|d'| ub` and the covariance `d d' cov`. -/
theorem transform_errors (a b ua ub cov : ℝ) (hb : b ≠ 0) (hua : 0 ≤ ua) (hub : 0 ≤ ub) : ∃ d d', HasDerivAt (fun v => Real.exp (-v)) d a ∧ HasDerivAt (fun v => 1 / v) d' b ∧
    (transform Real.exp a b ua ub cov).ue0 = |d| * ua ∧ (transform Real.exp a b ua ub cov).ult = some (|d'| * ub) ∧ (transform Real.exp a b ua ub cov).cov = some (d * d' * cov) := by
  refine ⟨-Real.exp (-a), -(b ^ 2)⁻¹, ?_, ?_, ?_, ?_, ?_⟩
  · have := (hasDerivAt_neg a).exp
    simpa using this
  · simpa using hasDerivAt_inv hb
  · unfold transform
    dsimp only
    rw [abs_mul, abs_neg, abs_of_nonneg hua]
  · unfold transform
    dsimp only
    rw [if_neg hb, abs_mul, abs_of_nonneg hub, abs_neg, one_div, inv_pow]
  · unfold transform
    dsimp only
    rw [if_neg hb, one_div, inv_pow]
    congr 1
    ring

/-- **C116**: the function of the exponential fit with energy `e0` and lifetime `τ` is the decay; those of the others are the line. -/
theorem fit_functions (x p q : ℝ) : fitFunction Real.exp .expo x p q = p * Real.exp (-x / q) ∧ fitFunction Real.exp .linear x p q = p + q * x ∧
    fitFunction Real.exp .logLin x p q = p + q * x := by
  unfold fitFunction expo polynom
  refine ⟨?_, ?_, ?_⟩
  · dsimp only
    rw [div_neg, neg_div]
  · simp only [List.foldr_cons, List.foldr_nil]; ring
  · simp only [List.foldr_cons, List.foldr_nil]; ring

/-- **C116**: the sigmoid is `offset + scale / 2` at its inflection, lies strictly between `offset` and `offset + scale` and grows with `x` when the scale and the slope are positive. -/
theorem sigmoid_shape (scale inflection slope offset : ℝ) (hs : 0 < scale) :
    sigmoid Real.exp inflection scale inflection slope offset = offset + scale / 2 ∧
    (∀ x, offset < sigmoid Real.exp x scale inflection slope offset ∧ sigmoid Real.exp x scale inflection slope offset < offset + scale) ∧
    (0 < slope → ∀ x x', x < x' → sigmoid Real.exp x scale inflection slope offset < sigmoid Real.exp x' scale inflection slope offset) := by
  unfold sigmoid
  refine ⟨?_, fun x => ⟨?_, ?_⟩, fun hl x x' hx => ?_⟩
  · rw [sub_self, mul_zero, Real.exp_zero]; ring
  · have := Real.exp_pos (-slope * (x - inflection))
    have : 0 < scale / (1 + Real.exp (-slope * (x - inflection))) := by positivity
    linarith
  · have h := Real.exp_pos (-slope * (x - inflection))
    have : scale / (1 + Real.exp (-slope * (x - inflection))) < scale := div_lt_self hs (by linarith)
    linarith
  · have h1 : Real.exp (-slope * (x' - inflection)) < Real.exp (-slope * (x - inflection)) := Real.exp_lt_exp.2 (by nlinarith)
    have h0 := Real.exp_pos (-slope * (x' - inflection))
    have : scale / (1 + Real.exp (-slope * (x - inflection))) < scale / (1 + Real.exp (-slope * (x' - inflection))) :=
      div_lt_div_of_pos_left hs (by linarith) (by linarith)
    linarith

/-! ### Gaussian fits and drift velocity -/

theorem counts_spec {edges : List ℚ} (hs : edges.Pairwise (· < ·)) (data : List ℚ) : IsHistogram edges data (counts edges data) := by
  refine ⟨by simp [counts], fun b hb lo hi hlo hhi => ?_⟩
  simp only [counts, List.getElem_map, List.getElem_range]
  refine List.countP_congr fun d _ => ?_
  rw [decide_eq_true_iff, decide_eq_true_iff, Voxels.histBin_sorted hs]
  constructor
  · rintro ⟨x, y, h1, h2, h3, h4⟩
    rw [hlo] at h1
    rw [hhi] at h2
    injection h1 with h1
    injection h2 with h2
    subst h1 h2
    exact ⟨h3, h4⟩
  · rintro ⟨h3, h4⟩
    exact ⟨lo, hi, hlo, hhi, h3, h4⟩

theorem centres_spec (edges : List ℚ) : IsCentres edges (Core.shiftToBinCenters edges) :=
  ⟨(Core.shift_midpoints edges).1, fun b lo hi h1 h2 => ((Core.shift_midpoints edges).2 b lo hi h1 h2).1⟩

theorem foldl_maxN (xs : List Nat) : ∀ x : Nat, xs.foldl max x ∈ x :: xs ∧ ∀ v ∈ x :: xs, v ≤ xs.foldl max x := by
  induction xs with
  | nil => intro x; exact ⟨by simp, by simp⟩
  | cons y ys ih =>
    intro x
    obtain ⟨h1, h2⟩ := ih (max x y)
    rw [List.foldl_cons]
    refine ⟨?_, fun v hv => ?_⟩
    · rcases List.mem_cons.1 h1 with h | h
      · rw [h]
        rcases max_choice x y with h | h <;> rw [h] <;> simp
      · simp [h]
    · have := h2 (max x y) (by simp)
      rcases List.mem_cons.1 hv with rfl | hv
      · exact (le_max_left _ _).trans this
      · rcases List.mem_cons.1 hv with rfl | hv
        · exact (le_max_right _ _).trans this
        · exact h2 v (List.mem_cons_of_mem _ hv)

theorem foldl_minN (xs : List Nat) : ∀ x : Nat, xs.foldl min x ∈ x :: xs ∧ ∀ v ∈ x :: xs, xs.foldl min x ≤ v := by
  induction xs with
  | nil => intro x; exact ⟨by simp, by simp⟩
  | cons y ys ih =>
    intro x
    obtain ⟨h1, h2⟩ := ih (min x y)
    rw [List.foldl_cons]
    refine ⟨?_, fun v hv => ?_⟩
    · rcases List.mem_cons.1 h1 with h | h
      · rw [h]
        rcases min_choice x y with h | h <;> rw [h] <;> simp
      · simp [h]
    · have := h2 (min x y) (by simp)
      rcases List.mem_cons.1 hv with rfl | hv
      · exact this.trans (min_le_left _ _)
      · rcases List.mem_cons.1 hv with rfl | hv
        · exact this.trans (min_le_right _ _)
        · exact h2 v (List.mem_cons_of_mem _ hv)

theorem maxCount_ok {y : List Nat} (h : y ≠ []) : ∃ m, maxCount y = .ok m ∧ m ∈ y ∧ ∀ k ∈ y, k ≤ m := by
  obtain ⟨x, xs, rfl⟩ := List.exists_cons_of_ne_nil h
  exact ⟨_, rfl, (foldl_maxN xs x).1, (foldl_maxN xs x).2⟩

theorem minCount_ok {y : List Nat} (h : y ≠ []) : ∃ m, minCount y = .ok m ∧ m ∈ y ∧ ∀ k ∈ y, m ≤ k := by
  obtain ⟨x, xs, rfl⟩ := List.exists_cons_of_ne_nil h
  exact ⟨_, rfl, (foldl_minN xs x).1, (foldl_minN xs x).2⟩

theorem counts_ne {edges : List ℚ} (h : 2 ≤ edges.length) (data : List ℚ) : counts edges data ≠ [] := by
  intro hc
  have := congrArg List.length hc
  simp [counts] at this
  omega

theorem increasing_ok : ∀ {edges : List ℚ}, edges.Pairwise (· < ·) → (edges.zip edges.tail).any (fun p => decide (p.2 < p.1)) = false := by
  intro edges hs
  rw [List.any_eq_false]
  intro p hp
  rw [decide_eq_true_iff, not_lt]
  obtain ⟨i, hi, rfl⟩ := List.getElem_of_mem hp
  rw [List.length_zip, List.length_tail] at hi
  rw [List.getElem_zip]
  dsimp only
  rw [List.getElem_tail]
  exact (List.pairwise_iff_getElem.1 hs i (i + 1) (by omega) (by omega) (by omega)).le

theorem edgesOf_increasing {edges : List ℚ} (hs : edges.Pairwise (· < ·)) (data : List ℚ) : edgesOf data (.edges edges) = .ok edges := by
  unfold edgesOf
  dsimp only
  rw [increasing_ok hs]
  rfl

/-- **C116**: the seed of a gaussian: its mean is the median of the centres, its standard deviation 2 % of it and its height the largest count. -/
theorem gauss_seed_height {root : ℚ} (hr : root ≠ 0) {x : List ℚ} {y : List Nat} {rel : ℚ} {s : ℚ × ℚ × ℚ} (h : gaussSeed root x y rel = .ok s) :
    s.2.1 = Wfm.median x ∧ s.2.2 = rel * s.2.1 ∧ (s.2.2 ≠ 0 → ∃ m, m ∈ y ∧ (∀ k ∈ y, k ≤ m) ∧ peakOf root s = m) := by
  unfold gaussSeed at h
  cases y with
  | nil => cases h
  | cons k ks =>
    unfold maxCount at h
    injection h with h
    subst h
    refine ⟨rfl, rfl, fun hne => ⟨_, (foldl_maxN ks k).1, (foldl_maxN ks k).2, ?_⟩⟩
    unfold peakOf
    dsimp only at hne ⊢
    rw [mul_assoc, mul_div_assoc, div_self (mul_ne_zero hr hne), mul_one]

example : (gaussSeed 5 [9, 10, 11] [1, 7, 2] (1 / 10)).toOption = some (35, 10, 1) ∧ peakOf 5 (35, 10, 1) = 7 := by decide +kernel

/-- **C116**: `quick_gauss_fit` fits the number of values of each bin at the middle of the bin, with the seed above and, if asked, with the square root of the counts as errors (3 for an empty bin);
it gives what the minimisation gives unless some parameter has not moved from the seed (`RuntimeError`). -/
theorem quick_gauss (root : ℚ) (sqrt : Nat → ℚ) (fit : Fit (ℚ × ℚ × ℚ)) (data : List ℚ) {edges : List ℚ} (hs : edges.Pairwise (· < ·)) (hn : 2 ≤ edges.length) (sigma : Bool) :
    ∃ x y m, IsCentres edges x ∧ IsHistogram edges data y ∧ m ∈ y ∧ (∀ k ∈ y, k ≤ m) ∧
      ∀ a mu sd u, a = m * root * sd → mu = Wfm.median x → sd = 2 / 100 * mu → u = (if sigma then some (y.map fun k => if k = 0 then 3 else sqrt k) else none) →
        (∀ f, fit x y (a, mu, sd) u = .ok f → f.1.1 ≠ a → f.1.2.1 ≠ mu → f.1.2.2 ≠ sd → quickGauss root sqrt fit data (.edges edges) sigma = .ok f) ∧
        (∀ f, fit x y (a, mu, sd) u = .ok f → (f.1.1 = a ∨ f.1.2.1 = mu ∨ f.1.2.2 = sd) → quickGauss root sqrt fit data (.edges edges) sigma = .error runtimeError) ∧
        (∀ e, fit x y (a, mu, sd) u = .error e → quickGauss root sqrt fit data (.edges edges) sigma = .error e) := by
  obtain ⟨m, hm, h1, h2⟩ := maxCount_ok (counts_ne hn data)
  refine ⟨Core.shiftToBinCenters edges, counts edges data, m, centres_spec edges, counts_spec hs data, h1, h2, fun a mu sd u ha hmu hsd hu => ?_⟩
  subst hmu hsd ha hu
  have hq : quickGauss root sqrt fit data (.edges edges) sigma = quickGaussOf root sqrt fit edges data sigma := by
    unfold quickGauss
    rw [edgesOf_increasing hs]
  rw [hq]
  unfold quickGaussOf gaussSeed
  rw [hm]
  unfold poissonSigma
  refine ⟨fun f hf n1 n2 n3 => ?_, fun f hf h => ?_, fun e he => ?_⟩
  · dsimp only
    rw [hf]
    dsimp only
    rw [if_pos ⟨n1, n2, n3⟩]
  · dsimp only
    rw [hf]
    dsimp only
    rw [if_neg (by rintro ⟨n1, n2, n3⟩; rcases h with h | h | h <;> contradiction)]
  · dsimp only
    rw [he]

/-- A minimisation for the examples. -/
def someFit : Fit (ℚ × ℚ × ℚ) := fun x y s _ => if x = [1, 3] ∧ y = [2, 1] then .ok ((s.1 + 1, s.2.1 + 1, s.2.2 + 1), s) else .error runtimeError

example : ([0, 2, 4] : List ℚ).Pairwise (· < ·) ∧
    (quickGauss 5 (fun n => n) someFit [0, 1, 4] (.edges [0, 2, 4]) false).toOption = some ((7 / 5, 3, 26 / 25), (2 / 5, 2, 1 / 25)) := by decide +kernel

theorem linspace_increasing {a b : ℚ} (h : a < b) (n : Nat) : (Voxels.linspace a b n).Pairwise (· < ·) := by
  unfold Voxels.linspace
  rw [List.pairwise_map]
  refine List.pairwise_lt_range.imp_of_mem fun {i j} hi hj hij => ?_
  have hn : (0 : ℚ) < n := by
    have := List.mem_range.1 hj
    exact_mod_cast (by omega : 0 < n)
  have : (0 : ℚ) < (b - a) / n := div_pos (sub_pos.2 h) hn
  have hij' : (i : ℚ) < j := by exact_mod_cast hij
  nlinarith

/-- **C116**: with a number of bins, they are equal and go from the smallest to the largest value, so every value is in one. -/
theorem bins_by_number {data : List ℚ} {lo hi : ℚ} (hlo : Smallest data lo) (hhi : Largest data hi) (hne : lo < hi) (n : Nat) (hn : 0 < n) :
    ∃ edges, edgesOf data (.number n) = .ok edges ∧ edges.Pairwise (· < ·) ∧ edges.length = n + 1 ∧
      (∀ (i : Nat) (e : ℚ), edges[i]? = some e → e = lo + (i : ℚ) * ((hi - lo) / n)) ∧ edges[0]? = some lo ∧ edges[n]? = some hi := by
  obtain ⟨k, rfl⟩ : ∃ k, n = k + 1 := ⟨n - 1, by omega⟩
  cases data with
  | nil => exact absurd hlo.1 (by simp)
  | cons d ds =>
    have e1 : ds.foldl min d = lo := smallest_unique (foldl_min ds d) hlo
    have e2 : ds.foldl max d = hi := largest_unique (foldl_max ds d) hhi
    refine ⟨Voxels.linspace lo hi (k + 1), ?_, linspace_increasing hne _, by simp [Voxels.linspace], fun i e he => ?_, ?_, ?_⟩
    · unfold edgesOf
      dsimp only
      rw [e1, e2, if_neg (ne_of_lt hne)]
    · unfold Voxels.linspace at he
      rw [List.getElem?_map] at he
      by_cases hi' : i < k + 1 + 1
      · rw [List.getElem?_range hi'] at he
        injection he with he
        exact he.symm
      · rw [List.getElem?_eq_none (by rw [List.length_range]; omega)] at he
        cases he
    · unfold Voxels.linspace
      rw [List.getElem?_map, List.getElem?_range (by omega)]
      simp
    · unfold Voxels.linspace
      rw [List.getElem?_map, List.getElem?_range (by omega)]
      have : ((k + 1 : Nat) : ℚ) ≠ 0 := by exact_mod_cast Nat.succ_ne_zero k
      simp only [Option.map_some]
      congr 1
      field_simp
      ring

example : (edgesOf [3, 1, 5] (.number 2)).toOption = some [1, 3, 5] := by decide +kernel

/-- **C116**: the drift velocity is the position of the cathode (1192.37) over the inflection of the sigmoid fitted to the number of events by drift time, with its relative error; the seed, when none is given, is
the largest count, the mean of the edges, a slope of 1/2 and the smallest count; NaN if the minimisation does not converge; other errors are not hidden. -/
theorem drift_velocity (sqrt : Nat → ℚ) (fit : Fit (ℚ × ℚ × ℚ × ℚ)) (data : List ℚ) {edges : List ℚ} (hs : edges.Pairwise (· < ·)) (hn : 2 ≤ edges.length) (seed : Option (ℚ × ℚ × ℚ × ℚ)) :
    ∃ x y lo hi, IsCentres edges x ∧ IsHistogram edges data y ∧ lo ∈ y ∧ hi ∈ y ∧ (∀ k ∈ y, lo ≤ k ∧ k ≤ hi) ∧
      ∀ s u, s = seed.getD ((hi : ℚ), edges.sum / edges.length, 1 / 2, (lo : ℚ)) → u = (y.map fun k => if k = 0 then 3 else sqrt k) →
        (∀ f, fit x y s (some u) = .ok f → f.1.2.1 ≠ 0 →
          ∃ v du, driftV sqrt fit data edges seed = .ok (some v, some du) ∧ v * f.1.2.1 = 119237 / 100 ∧ du * f.1.2.1 = v * f.2.2.1) ∧
        (fit x y s (some u) = .error runtimeError → driftV sqrt fit data edges seed = .ok (none, none)) ∧
        (∀ e, e ≠ runtimeError → fit x y s (some u) = .error e → driftV sqrt fit data edges seed = .error e) := by
  obtain ⟨hi, hm, h1, h2⟩ := maxCount_ok (counts_ne hn data)
  obtain ⟨lo, hl, g1, g2⟩ := minCount_ok (counts_ne hn data)
  refine ⟨Core.shiftToBinCenters edges, counts edges data, lo, hi, centres_spec edges, counts_spec hs data, g1, h1, fun k hk => ⟨g2 k hk, h2 k hk⟩, fun s u hs' hu => ?_⟩
  have hseed : driftSeed edges (counts edges data) seed = .ok s := by
    rw [hs']
    cases seed with
    | some q => rfl
    | none =>
      unfold driftSeed
      dsimp only
      rw [hm, hl]
      rfl
  have hd : driftV sqrt fit data edges seed = match fit (Core.shiftToBinCenters edges) (counts edges data) s (some u) with
      | .error e => if e = runtimeError then .ok (none, none) else .error e
      | .ok f => .ok (velocity f.1.2.1 f.2.2.1) := by
    unfold driftV
    rw [edgesOf_increasing hs]
    dsimp only
    rw [hseed]
    dsimp only
    rw [hu]
    rfl
  rw [hd]
  refine ⟨fun f hf hne => ?_, fun h => ?_, fun e he h => ?_⟩
  · rw [hf]
    refine ⟨(118737 / 100 + 10 / 2) / f.1.2.1, (118737 / 100 + 10 / 2) / f.1.2.1 / f.1.2.1 * f.2.2.1, ?_, ?_, ?_⟩
    · dsimp only
      unfold velocity
      rw [if_neg hne]
    · rw [div_mul_cancel₀ _ hne]; norm_num
    · field_simp
  · rw [h]
    dsimp only
    rw [if_pos rfl]
  · rw [h]
    dsimp only
    rw [if_neg he]

/-- A minimisation for the examples: the inflection stays at the seed, with an error of 1. -/
def sigmoidFit : Fit (ℚ × ℚ × ℚ × ℚ) := fun x y s u => if x = [1, 3] ∧ y = [2, 0] ∧ u = some [2, 3] then .ok (s, (1, 1, 1, 1)) else .error runtimeError

example : (driftV (fun n => n) sigmoidFit [0, 1] [0, 2, 4] none).toOption = some (some (119237 / 200), some (119237 / 400)) ∧
    (driftV (fun n => n) sigmoidFit [3] [0, 2, 4] none).toOption = some (none, none) := by decide +kernel

end Verif.LifetimeFit
