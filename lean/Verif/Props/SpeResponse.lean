import Verif.Model.SpeResponse
import Verif.Spec.SpeResponse
import Mathlib.Topology.Algebra.Order.Floor
import Mathlib.Algebra.BigOperators.Intervals
import Mathlib.Topology.Instances.Real.Lemmas
import Mathlib.Algebra.Order.Archimedean.Real.Basic
import Mathlib.Tactic.Linarith
import Mathlib.Tactic.FieldSimp
import Mathlib.Tactic.Ring
import Mathlib.Tactic.Positivity
/-!
# C95: how many gaussians, and their sum
-/
namespace Verif.Spe
open Verif.Spe.Spec

theorem poisson_area (scale p0 mean : ℚ) (k : Nat) : scale * poissonFactor p0 k mean = area scale p0 mean k := by
  unfold poissonFactor area; ring

theorem gaussLoop_iff (m : ℚ) (f : Nat → ℚ) : ∀ (fuel k : Nat) (acc : List ℚ) (n : Nat) (is : List ℚ), gaussLoop m f fuel k acc = some (n, is) ↔
    k ≤ n ∧ n < k + fuel ∧ f n ≤ m ∧ (∀ j, k ≤ j → j < n → m < f j) ∧ is = acc ++ (List.range' k (n - k)).map f := by
  intro fuel
  induction fuel with
  | zero =>
    intro k acc n is
    rw [gaussLoop]
    simp only [reduceCtorEq, false_iff]
    omega
  | succ fuel ih =>
    intro k acc n is
    rw [gaussLoop]
    by_cases hk : f k ≤ m
    · rw [if_pos hk]
      simp only [Option.some.injEq, Prod.mk.injEq]
      constructor
      · rintro ⟨rfl, rfl⟩
        exact ⟨le_refl _, by omega, hk, fun j h1 h2 => by omega, by simp⟩
      · rintro ⟨h1, h2, h3, h4, h5⟩
        have : n = k := by
          by_contra hne
          exact absurd (h4 k (le_refl _) (by omega)) (not_lt.mpr hk)
        subst this
        refine ⟨rfl, ?_⟩
        rw [h5]; simp
    · rw [if_neg hk, ih]
      constructor
      · rintro ⟨h1, h2, h3, h4, h5⟩
        refine ⟨by omega, by omega, h3, ?_, ?_⟩
        · intro j hj1 hj2
          by_cases hjk : j = k
          · subst hjk; exact not_le.mp hk
          · exact h4 j (by omega) hj2
        · rw [h5]
          have : n - k = (n - (k + 1)) + 1 := by omega
          rw [this, List.range'_succ, List.map_cons, List.append_assoc]
          rfl
      · rintro ⟨h1, h2, h3, h4, h5⟩
        have hne : n ≠ k := by rintro rfl; exact hk h3
        refine ⟨by omega, by omega, h3, fun j hj1 hj2 => h4 j (by omega) hj2, ?_⟩
        rw [h5]
        have : n - k = (n - (k + 1)) + 1 := by omega
        rw [this, List.range'_succ, List.map_cons, List.append_assoc]
        rfl

/-- C95: the number of gaussians is the first one whose area does not exceed the minimum, and the areas are those before it. -/
theorem number_iff (fuel : Nat) (minI scale p0 mean : ℚ) (n : Nat) (is : List ℚ) :
    numberOfGaussians fuel minI scale p0 mean = some (n, is) ↔
      n < fuel ∧ area scale p0 mean n ≤ minI ∧ (∀ k < n, minI < area scale p0 mean k) ∧ is = (List.range n).map (area scale p0 mean) := by
  unfold numberOfGaussians
  rw [gaussLoop_iff]
  have : (fun k => scale * poissonFactor p0 k mean) = area scale p0 mean := funext fun k => poisson_area scale p0 mean k
  simp only [this, poisson_area, Nat.zero_le, true_and, Nat.zero_add, List.nil_append, Nat.sub_zero, forall_true_left, List.range_eq_range']

theorem area_succ (scale p0 mean : ℚ) (k : Nat) : area scale p0 mean (k + 1) = area scale p0 mean k * (mean / (k + 1)) := by
  unfold area
  rw [Nat.factorial_succ, pow_succ]
  push_cast
  have h1 : ((k : ℚ) + 1) ≠ 0 := by positivity
  have h2 : ((k.factorial : Nat) : ℚ) ≠ 0 := by positivity
  field_simp

theorem area_nonneg {scale p0 mean : ℚ} (hs : 0 ≤ scale) (hp : 0 ≤ p0) (hm : 0 ≤ mean) (k : Nat) : 0 ≤ area scale p0 mean k := by
  unfold area; positivity

/-- C95: if the area without photons exceeds the minimum, the gaussians counted are exactly all those that exceed it. -/
theorem number_exact {fuel : Nat} {minI scale p0 mean : ℚ} {n : Nat} {is : List ℚ} (hs : 0 ≤ scale) (hp : 0 ≤ p0) (hm : 0 ≤ mean)
    (h0 : minI < area scale p0 mean 0) (h : numberOfGaussians fuel minI scale p0 mean = some (n, is)) (k : Nat) :
    minI < area scale p0 mean k ↔ k < n := by
  obtain ⟨_, h1, h2, _⟩ := (number_iff fuel minI scale p0 mean n is).mp h
  refine ⟨?_, h2 k⟩
  intro hk
  by_contra hn
  have hpos : 0 < n := by
    rcases Nat.eq_zero_or_pos n with rfl | h
    · exact absurd h0 (not_lt.mpr h1)
    · exact h
  obtain ⟨m, rfl⟩ : ∃ m, n = m + 1 := ⟨n - 1, by omega⟩
  have hlt : area scale p0 mean (m + 1) < area scale p0 mean m := lt_of_le_of_lt h1 (h2 m (by omega))
  have hmean : mean < m + 1 := by
    by_contra hge
    rw [not_lt] at hge
    rw [area_succ] at hlt
    have ha := area_nonneg (scale := scale) (p0 := p0) (mean := mean) hs hp hm m
    have : 1 ≤ mean / ((m : ℚ) + 1) := by rw [le_div_iff₀ (by positivity)]; linarith
    nlinarith
  have hdec : ∀ j, m + 1 ≤ j → area scale p0 mean j ≤ area scale p0 mean (m + 1) := by
    intro j hj
    induction j, hj using Nat.le_induction with
    | base => exact le_refl _
    | succ j hj ih =>
      rw [area_succ]
      have ha := area_nonneg (scale := scale) (p0 := p0) (mean := mean) hs hp hm j
      have hj' : (m : ℚ) + 1 ≤ j := by exact_mod_cast hj
      have : mean / ((j : ℚ) + 1) ≤ 1 := by rw [div_le_iff₀ (by positivity)]; linarith
      have h3 : area scale p0 mean j * (mean / ((j : ℚ) + 1)) ≤ area scale p0 mean j := by
        have := mul_le_mul_of_nonneg_left this ha
        simpa using this
      linarith
  have := hdec k (by omega)
  linarith

/-- C95: with a positive minimum the search ends. -/
theorem number_terminates (minI scale p0 mean : ℚ) (hmin : 0 < minI) : ∃ fuel n is, numberOfGaussians fuel minI scale p0 mean = some (n, is) := by
  have hex : ∃ k, area scale p0 mean k ≤ minI := by
    have ht : Filter.Tendsto (fun k : Nat => (scale : ℝ) * ((p0 : ℝ) * ((mean : ℝ) ^ k / (k.factorial : ℝ)))) Filter.atTop (nhds ((scale : ℝ) * ((p0 : ℝ) * 0))) :=
      ((FloorSemiring.tendsto_pow_div_factorial_atTop (mean : ℝ)).const_mul _).const_mul _
    rw [mul_zero, mul_zero] at ht
    have hev := ht.eventually (gt_mem_nhds (show (0 : ℝ) < (minI : ℝ) by exact_mod_cast hmin))
    obtain ⟨k, hk⟩ := hev.exists
    refine ⟨k, ?_⟩
    have : ((area scale p0 mean k : ℚ) : ℝ) < (minI : ℝ) := by
      unfold area
      push_cast
      rw [mul_div_assoc]
      exact hk
    exact le_of_lt (by exact_mod_cast this)
  classical
  refine ⟨Nat.find hex + 1, Nat.find hex, (List.range (Nat.find hex)).map (area scale p0 mean), ?_⟩
  rw [number_iff]
  exact ⟨by omega, Nat.find_spec hex, fun k hk => not_le.mp (Nat.find_min hex hk), rfl⟩

/-- C95: with a negative minimum it never ends. -/
theorem number_diverges {minI scale p0 mean : ℚ} (hs : 0 ≤ scale) (hp : 0 ≤ p0) (hm : 0 ≤ mean) (hmin : minI < 0) (fuel : Nat) :
    numberOfGaussians fuel minI scale p0 mean = none := by
  cases h : numberOfGaussians fuel minI scale p0 mean with
  | none => rfl
  | some r =>
    obtain ⟨_, h1, _⟩ := (number_iff fuel minI scale p0 mean r.1 r.2).mp h
    have := area_nonneg (scale := scale) (p0 := p0) (mean := mean) hs hp hm r.1
    linarith

/-- Areas 2, 2, 1, 1/3, 1/12, ... with a minimum of 1/2: three gaussians. -/
example : numberOfGaussians 10 (1/2) 4 (1/2) 1 = some (3, [2, 2, 1]) := by decide +kernel

/-- Finding: with a large mean the area without photons is below the minimum, and there are no gaussians although those of some photons exceed it. -/
theorem large_mean_no_gaussians : numberOfGaussians 10 (1/2) 1 (1/10) 6 = some (0, []) ∧ 1/2 < area 1 (1/10) 6 1 := by decide +kernel

theorem component_at (G : ℚ → ℚ → ℚ → ℚ) (xs : List ℚ) (p : Pars) (areas : List ℚ) (i j : Nat) (x : ℚ) (hj : xs[j]? = some x) :
    (component G xs p areas i)[j]? = some (areas.getD i 0 * contribution G p.pedestalMean p.pedestalSigma p.gain p.gainSigma i x) := by
  unfold component contribution
  by_cases hi : i = 0
  · subst hi
    simp [hj]
  · simp only [hi, ne_eq, not_false_eq_true, if_true, true_and, List.getElem?_map, suppressNegative, List.getElem?_zipWith, hj, Option.map_some]
    by_cases hx : x < 0
    · rw [if_pos hx, if_neg (not_le.mpr hx)]
    · rw [if_neg hx, if_pos (not_lt.mp hx)]

theorem component_length (G : ℚ → ℚ → ℚ → ℚ) (xs : List ℚ) (p : Pars) (areas : List ℚ) (i : Nat) : (component G xs p areas i).length = xs.length := by
  unfold component
  by_cases hi : i = 0 <;> simp [hi, suppressNegative]

theorem foldl_addArray (L : Nat) : ∀ (cs : List (List ℚ)) (a : List ℚ), a.length = L → (∀ c ∈ cs, c.length = L) →
    ∃ out, cs.foldl addArray (some a) = some out ∧ out.length = L ∧ ∀ j, j < L → out.getD j 0 = a.getD j 0 + (cs.map fun c => c.getD j 0).sum := by
  intro cs
  induction cs with
  | nil => intro a ha _; exact ⟨a, rfl, ha, fun j _ => by simp⟩
  | cons c cs ih =>
    intro a ha hc
    rw [List.forall_mem_cons] at hc
    obtain ⟨out, h1, h2, h3⟩ := ih (List.zipWith (· + ·) a c) (by rw [List.length_zipWith, ha, hc.1, min_self]) hc.2
    refine ⟨out, h1, h2, fun j hj => ?_⟩
    rw [h3 j hj, List.map_cons, List.sum_cons]
    have hja : j < a.length := by omega
    have hjc : j < c.length := by omega
    have : (List.zipWith (· + ·) a c).getD j 0 = a.getD j 0 + c.getD j 0 := by
      simp [List.getD_eq_getElem?_getD, List.getElem?_zipWith, List.getElem?_eq_getElem hja, List.getElem?_eq_getElem hjc]
    rw [this]; ring

theorem sumArrays_spec (L : Nat) (cs : List (List ℚ)) (hc : ∀ c ∈ cs, c.length = L) :
    (cs = [] → sumArrays cs = none) ∧ (cs ≠ [] → ∃ out, sumArrays cs = some out ∧ out.length = L ∧ ∀ j, j < L → out.getD j 0 = (cs.map fun c => c.getD j 0).sum) := by
  refine ⟨by rintro rfl; rfl, ?_⟩
  intro hne
  cases cs with
  | nil => exact absurd rfl hne
  | cons c cs =>
    rw [List.forall_mem_cons] at hc
    obtain ⟨out, h1, h2, h3⟩ := foldl_addArray L cs c hc.1 hc.2
    exact ⟨out, h1, h2, fun j hj => by rw [h3 j hj, List.map_cons, List.sum_cons]⟩

/-- C95: exactly one of the number of gaussians and the minimum area must be given. -/
theorem mode_spec (n : Option Int) (m : Option ℚ) :
    (n.isSome = m.isSome → mode n m = .error .valueError) ∧ (∀ k, n = some k → m = none → mode n m = .ok (.number k)) ∧ (∀ a, n = none → m = some a → mode n m = .ok (.area a)) := by
  refine ⟨?_, ?_, ?_⟩
  · cases n <;> cases m <;> simp [mode]
  · rintro k rfl rfl; rfl
  · rintro a rfl rfl; rfl

theorem areas_of {fuel : Nat} {m : Mode} {p : Pars} {n : Int} {is : List ℚ} (h : integrals fuel m p = some (n, is)) :
    is = (List.range n.toNat).map (area p.scale p.p0 p.mean) := by
  have hf : (fun k => p.scale * poissonFactor p.p0 k p.mean) = area p.scale p.p0 p.mean := funext fun k => poisson_area _ _ _ k
  cases m with
  | number k =>
    simp only [integrals, Option.some.injEq, Prod.mk.injEq] at h
    obtain ⟨rfl, rfl⟩ := h
    rw [hf]
  | area a =>
    simp only [integrals, Option.map_eq_some_iff, Prod.mk.injEq] at h
    obtain ⟨r, hr, rfl, rfl⟩ := h
    rw [((number_iff fuel a p.scale p.p0 p.mean r.1 r.2).mp hr).2.2.2]
    simp

theorem list_sum_range' (f : Nat → ℚ) : ∀ (k a : Nat), ((List.range' a k).map f).sum = ∑ i ∈ Finset.Ico a (a + k), f i := by
  intro k
  induction k with
  | zero => intro a; simp
  | succ k ih =>
    intro a
    rw [List.range'_succ, List.map_cons, List.sum_cons, ih, Finset.sum_eq_sum_Ico_succ_bot (show a < a + (k + 1) by omega)]
    have : a + (k + 1) = a + 1 + k := by omega
    rw [this]

/-- C95: the spectrum is the sum of the gaussians from the first to the last, each with its Poisson area and without light at negative
energies (but the pedestal); if there are none it is the number 0.  The number of gaussians is reported. -/
theorem sumOfGaussians_spec (G : ℚ → ℚ → ℚ → ℚ) (fuel first : Nat) (m : Mode) (xs : List ℚ) (p : Pars) (out : Option (List ℚ)) (n : Int)
    (h : sumOfGaussians G fuel first m xs p = some (out, n)) :
    (∀ k, m = .number k → n = k) ∧
    (∀ a, m = .area a → ∃ (n' : Nat), n = (n' : Int) ∧ area p.scale p.p0 p.mean n' ≤ a ∧ ∀ k < n', a < area p.scale p.p0 p.mean k) ∧
    (n ≤ first → out = none) ∧
    (first < n → ∃ ys, out = some ys ∧ ys.length = xs.length ∧ ∀ j x, xs[j]? = some x →
      ys.getD j 0 = ∑ i ∈ Finset.Ico first n.toNat, area p.scale p.p0 p.mean i * contribution G p.pedestalMean p.pedestalSigma p.gain p.gainSigma i x) := by
  unfold sumOfGaussians at h
  rw [Option.map_eq_some_iff] at h
  obtain ⟨⟨n2, is⟩, hi, heq⟩ := h
  simp only [Prod.mk.injEq] at heq
  obtain ⟨rfl, rfl⟩ := heq
  have hareas := areas_of hi
  refine ⟨?_, ?_, ?_, ?_⟩
  · rintro k rfl
    simp only [integrals, Option.some.injEq, Prod.mk.injEq] at hi
    exact hi.1.symm
  · rintro a rfl
    simp only [integrals, Option.map_eq_some_iff, Prod.mk.injEq] at hi
    obtain ⟨r, hr, rfl, rfl⟩ := hi
    obtain ⟨_, h2, h3, _⟩ := (number_iff fuel a p.scale p.p0 p.mean r.1 r.2).mp hr
    exact ⟨r.1, rfl, h2, h3⟩
  · intro hle
    have : n2.toNat - first = 0 := by omega
    rw [this]
    rfl
  · intro hlt
    obtain ⟨ys, h1, h2, h3⟩ := (sumArrays_spec xs.length ((List.range' first (n2.toNat - first)).map (component G xs p is))
      (by intro c hc; obtain ⟨i, _, rfl⟩ := List.mem_map.mp hc; exact component_length G xs p is i)).2
      (by
        have : n2.toNat - first = (n2.toNat - first - 1) + 1 := by omega
        rw [this, List.range'_succ]; simp)
    refine ⟨ys, h1, h2, fun j x hj => ?_⟩
    have hjl : j < xs.length := by
      by_contra hn
      rw [List.getElem?_eq_none (by omega)] at hj
      cases hj
    rw [h3 j hjl, List.map_map]
    have : ∀ i ∈ List.range' first (n2.toNat - first), ((fun c : List ℚ => c.getD j 0) ∘ component G xs p is) i
        = area p.scale p.p0 p.mean i * contribution G p.pedestalMean p.pedestalSigma p.gain p.gainSigma i x := by
      intro i hi2
      rw [List.mem_range'_1] at hi2
      simp only [Function.comp_apply, List.getD_eq_getElem?_getD, component_at G xs p is i j x hj, Option.getD_some]
      rw [hareas]
      rw [List.getElem?_map, List.getElem?_range (by omega)]
      simp
    rw [List.map_congr_left this, list_sum_range']
    have : first + (n2.toNat - first) = n2.toNat := by omega
    rw [this]

/-- C95: the search of `sumOfGaussians` with a positive minimum ends. -/
theorem sumOfGaussians_terminates (G : ℚ → ℚ → ℚ → ℚ) (first : Nat) (a : ℚ) (ha : 0 < a) (xs : List ℚ) (p : Pars) :
    ∃ fuel out n, sumOfGaussians G fuel first (.area a) xs p = some (out, n) := by
  obtain ⟨fuel, n, is, h⟩ := number_terminates a p.scale p.p0 p.mean ha
  refine ⟨fuel, sumArrays ((List.range' first ((n : Int).toNat - first)).map (component G xs p is)), (n : Int), ?_⟩
  unfold sumOfGaussians integrals
  simp only [h, Option.map_some]

/-- C95: the spectrum with a measured pedestal: the pedestal with the probability of no photons, and the gaussians from one photon. -/
theorem scaledDarkPedestal_spec (G : ℚ → ℚ → ℚ → ℚ) (fuel : Nat) (dark : List ℚ) (a : ℚ) (xs : List ℚ) (p : Pars) (hl : dark.length = xs.length) (r : Except PyErr (List ℚ × Int))
    (h : scaledDarkPedestal G fuel dark a xs p = some r) :
    ∃ out, ∃ n : Nat, r = .ok (out, (n : Int)) ∧ out.length = xs.length ∧ area p.scale p.p0 p.mean n ≤ a ∧ (∀ k < n, a < area p.scale p.p0 p.mean k) ∧
      ∀ j x, xs[j]? = some x → out.getD j 0 = p.p0 * dark.getD j 0
        + ∑ i ∈ Finset.Ico 1 n, area p.scale p.p0 p.mean i * contribution G p.pedestalMean p.pedestalSigma p.gain p.gainSigma i x := by
  unfold scaledDarkPedestal at h
  rw [Option.map_eq_some_iff] at h
  obtain ⟨⟨s, n⟩, hs, heq⟩ := h
  obtain ⟨_, hn, h1, h2⟩ := sumOfGaussians_spec G fuel 1 (.area a) xs p s n hs
  obtain ⟨n', rfl, hna, hnk⟩ := hn a rfl
  have hped : ∀ j, (dark.map fun d => p.p0 * d).getD j 0 = p.p0 * dark.getD j 0 := by
    intro j
    simp only [List.getD_eq_getElem?_getD, List.getElem?_map]
    cases dark[j]? <;> simp
  by_cases hle : (n' : Int) ≤ (1 : Nat)
  · have := h1 hle
    subst this
    simp only [addPedestal] at heq
    refine ⟨_, n', heq.symm, by simp [hl], hna, hnk, fun j x _ => ?_⟩
    rw [hped]
    have : Finset.Ico 1 n' = ∅ := by
      rw [Finset.Ico_eq_empty_iff]; push_cast at hle; omega
    rw [this]; simp
  · obtain ⟨ys, rfl, hyl, hy⟩ := h2 (not_le.mp hle)
    simp only [addPedestal, List.length_map, hyl, hl, if_true] at heq
    refine ⟨_, n', heq.symm, by simp [hl, hyl], hna, hnk, fun j x hj => ?_⟩
    have hjl : j < xs.length := by
      by_contra hn
      rw [List.getElem?_eq_none (by omega)] at hj
      cases hj
    have hz : (List.zipWith (· + ·) (dark.map fun d => p.p0 * d) ys).getD j 0 = (dark.map fun d => p.p0 * d).getD j 0 + ys.getD j 0 := by
      have h1 : j < (dark.map fun d => p.p0 * d).length := by simp; omega
      have h2 : j < ys.length := by omega
      simp only [List.getD_eq_getElem?_getD, List.getElem?_zipWith, List.getElem?_eq_getElem h1, List.getElem?_eq_getElem h2, Option.getD_some]
    rw [hz, hped, hy j x hj]
    simp

namespace Example
/-- A triangle in place of a gaussian. -/
def tri (mu var x : ℚ) : ℚ := if x < mu then (if mu - x < var then var - (mu - x) else 0) else if x - mu < var then var - (x - mu) else 0
def pars : Pars := ⟨4, 1/2, 1, 0, 1, 1, 1⟩
end Example
open Example

example : sumOfGaussians tri 10 0 (.area (1/2)) [-1, 0, 1, 2] pars = some (some [0, 5, 6, 5], 3) := by decide +kernel
example : scaledDarkPedestal tri 10 [2, 4, 2, 0] (1/2) [-1, 0, 1, 2] pars = some (.ok ([1, 5, 7, 5], 3)) := by decide +kernel

/-- Without gaussians the sum is the number 0, not an array. -/
example : sumOfGaussians tri 10 0 (.area 5) [-1, 0, 1, 2] pars = some (none, 0) := by decide +kernel

end Verif.Spe
