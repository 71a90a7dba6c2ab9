import Verif.Model.Seeds
import Verif.Spec.Seeds
import Mathlib.Control.Monad.Basic
import Mathlib.Tactic
/-!
# C99 Seeds and bounds of the calibration fits
-/
namespace Verif.Seeds
open Verif Verif.Spec.Seeds

theorem bind_ok {α β : Type} {x : Except PyErr α} {f : α → Except PyErr β} {b : β} :
    x.bind f = .ok b ↔ ∃ a, x = .ok a ∧ f a = .ok b := by
  cases x <;> simp [Except.bind]

theorem map_ok {α β : Type} {x : Except PyErr α} {f : α → β} {b : β} : x.map f = .ok b ↔ ∃ a, x = .ok a ∧ f a = b := by
  cases x <;> simp [Except.map]

theorem item_ok {α : Type} {xs : List α} {i : Nat} {x : α} : item xs i = .ok x ↔ xs[i]? = some x := by
  unfold item; split <;> simp_all

theorem masked_sum {p : ℚ → Prop} [DecidablePred p] {bins ys zs : List ℚ} (h : masked (fun x => decide (p x)) bins ys = .ok zs) :
    zs.sum = sumWhere p bins ys := by
  unfold masked at h
  split at h
  · simp only [Except.ok.injEq] at h
    subst h
    unfold sumWhere
    induction bins.zip ys with
    | nil => rfl
    | cons a t ih =>
      by_cases hp : p a.1 <;> simp_all
  · simp at h

theorem filter_map_sum (p : ℚ → Prop) [DecidablePred p] (f : ℚ → ℚ) (bins : List ℚ) :
    ((bins.filter fun x => decide (p x)).map f).sum = sumWhere p bins (bins.map f) := by
  unfold sumWhere
  induction bins with
  | nil => rfl
  | cons a t ih => by_cases hp : p a <;> simp_all

/-- The spectrum of a PMT is searched after taking the pedestal away: each value has lost the pedestal of its bin, in the scale that leaves nothing,
in total, in the bins under zero. -/
theorem pedestal_removed {e : Ext} {bins spectrum : List ℚ} {ped : Gauss} {v : SensorParams} (h : sensorValues e .pmt bins spectrum ped = .ok v) :
    v.spectra.length = bins.length ∧
    (sumWhere (· < 0) bins (bins.map (e.gauss ped)) ≠ 0 → sumWhere (· < 0) bins v.spectra = 0) ∧
    ∃ scale, ∀ (i : Nat) (x y : ℚ), bins[i]? = some x → spectrum[i]? = some y → v.spectra[i]? = some (y - scale * e.gauss ped x) := by
  simp only [sensorValues, scaleOf, map_ok] at h
  obtain ⟨scale, ⟨ys, hm, hs⟩, rfl⟩ := h
  have hl : bins.length = spectrum.length := by
    unfold masked at hm; split at hm
    · assumption
    · simp at hm
  refine ⟨by simp [hl], ?_, scale, ?_⟩
  · intro hne
    rw [masked_sum hm, filter_map_sum] at hs
    have key : sumWhere (· < 0) bins (List.zipWith (fun y x => y - e.gauss ped x * scale) spectrum bins) =
        sumWhere (· < 0) bins spectrum - sumWhere (· < 0) bins (bins.map (e.gauss ped)) * scale := by
      clear hs hne hm
      unfold sumWhere
      induction bins generalizing spectrum with
      | nil => simp
      | cons b t ih =>
        cases spectrum with
        | nil => simp at hl
        | cons s u =>
          have := @ih u (by simpa using hl)
          by_cases hb : b < 0 <;> simp [hb] at this ⊢ <;> linarith
    rw [key, ← hs]
    field_simp
    ring
  · intro i x y hx hy
    simp [List.getElem?_zipWith, hx, hy, mul_comm]

example : sensorValues ⟨fun g x => if x < 0 then g.area else 0, id, fun _ _ => [], fun _ => .ok 0, fun _ => .ok ⟨0, 0, 0⟩, [], []⟩ .pmt [-2, -1, 0, 3] [4, 8, 7, 2] ⟨1, 0, 1⟩ =
    .ok ⟨[-2, 2, 7, 2], (List.range 10).map (10 + ·), 15, 50, 10, 7, 10000⟩ := by decide +kernel

/-- The seed of the number of photoelectrons is what the fit gives, or one thousandth if the fit gives a negative number: it is never negative. -/
theorem mu_seed (mu : ℚ) : 0 ≤ positiveMu mu ∧ (0 ≤ mu → positiveMu mu = mu) ∧ (mu < 0 → positiveMu mu = 1 / 1000) := by
  unfold positiveMu
  refine ⟨?_, fun h => by simp [not_lt.mpr h], fun h => by simp [h]⟩
  split
  · norm_num
  · simpa using ‹¬ mu < 0›

example : positiveMu (-3) = 1 / 1000 ∧ positiveMu 2 = 2 := by decide +kernel

/-- What `seeds_and_bounds` returns, from the total of the spectrum, the fit of `mu` and the seeds of the gain. -/
theorem seeds_of {e : Ext} {s : Sensor} {ch : Int} {bins spectrum : List ℚ} {ped errs : Gauss} {free db : Bool} {b : Bounded}
    (h : seedsAndBounds e s ch bins spectrum ped errs free db = .ok b) :
    ∃ v g mu, sensorValues e s bins spectrum ped = .ok v ∧ gainOf e s db ch v bins ped = .ok g ∧ poissonMuSeed e s bins spectrum ped = .ok mu ∧
      b = assemble spectrum.sum (positiveMu mu) g.1 g.2 (if free then some (pedestalValues ped v.limPed errs) else none) := by
  simp only [seedsAndBounds, bind_ok, map_ok] at h
  obtain ⟨v, hv, g, hg, mu, hmu, rfl⟩ := h
  exact ⟨v, g, mu, hv, hg, hmu, rfl⟩

/-- With the pedestal fixed: four seeds (total of the spectrum, `mu`, gain and its deviation), and they are within their bounds exactly if
the total is not negative, `mu` at most 10000, the gain from 0 to 10000 and its deviation from 0.001 to 10000. -/
theorem seeds_fixed_pedestal {e : Ext} {s : Sensor} {ch : Int} {bins spectrum : List ℚ} {ped errs : Gauss} {db : Bool} {b : Bounded}
    (h : seedsAndBounds e s ch bins spectrum ped errs false db = .ok b) :
    ∃ mu gain gainSigma, 0 ≤ mu ∧ b.seed = [spectrum.sum, mu, gain, gainSigma] ∧
      (Feasible b.seed b.low b.upp ↔ 0 ≤ spectrum.sum ∧ mu ≤ 10000 ∧ (0 ≤ gain ∧ gain ≤ 10000) ∧ 1 / 1000 ≤ gainSigma ∧ gainSigma ≤ 10000) := by
  obtain ⟨v, g, mu, _, _, _, rfl⟩ := seeds_of h
  refine ⟨positiveMu mu, g.1, g.2, (mu_seed mu).1, rfl, ?_⟩
  have h0 := (mu_seed mu).1
  constructor
  · rintro ⟨_, _, hf⟩
    have f0 := hf 0 _ _ rfl rfl
    have f1 := hf 1 _ _ rfl rfl
    have f2 := hf 2 _ _ rfl rfl
    have f3 := hf 3 _ _ rfl rfl
    exact ⟨f0.1, f1.2 _ rfl, ⟨f2.1, f2.2 _ rfl⟩, f3.1, f3.2 _ rfl⟩
  · rintro ⟨a, b, c, d, f⟩
    refine ⟨rfl, rfl, ?_⟩
    intro i s l hs hl
    match i with
    | 0 => simp_all [assemble]
    | 1 => simp_all [assemble]
    | 2 => simp_all [assemble]
    | 3 => simp_all [assemble]
    | n + 4 => simp [assemble] at hs

/-- With the pedestal free: six seeds.  The bounds of the mean and the deviation of the pedestal are transposed: the mean is kept between its own minimum
and the minimum of the deviation, and the deviation between the maximum of the mean and its own maximum. -/
theorem seeds_free_pedestal {e : Ext} {s : Sensor} {ch : Int} {bins spectrum : List ℚ} {ped errs : Gauss} {db : Bool} {b : Bounded}
    (h : seedsAndBounds e s ch bins spectrum ped errs true db = .ok b) :
    ∃ mu gain gainSigma, 0 ≤ mu ∧ b.seed = [spectrum.sum, mu, ped.mean, ped.sigma, gain, gainSigma] ∧
      (Feasible b.seed b.low b.upp ↔ 0 ≤ spectrum.sum ∧ mu ≤ 10000 ∧
        (0 ≤ errs.mean ∧ (ped.mean ≤ ped.sigma - 10000 * errs.sigma ∨ ped.mean ≤ 1 / 1000)) ∧
        (ped.mean + 10000 * errs.mean ≤ ped.sigma ∧ 0 ≤ errs.sigma) ∧
        (0 ≤ gain ∧ gain ≤ 10000) ∧ 1 / 1000 ≤ gainSigma ∧ gainSigma ≤ 10000) := by
  obtain ⟨v, g, mu, hv, _, _, rfl⟩ := seeds_of h
  have hlim : v.limPed = 10000 := by
    cases s
    · simp only [sensorValues, Except.ok.injEq] at hv; subst hv; rfl
    · simp only [sensorValues, map_ok] at hv
      obtain ⟨_, _, rfl⟩ := hv; rfl
    · simp [sensorValues] at hv
  refine ⟨positiveMu mu, g.1, g.2, (mu_seed mu).1, rfl, ?_⟩
  have h0 := (mu_seed mu).1
  constructor
  · rintro ⟨_, _, hf⟩
    have f0 := hf 0 _ _ rfl rfl
    have f1 := hf 1 _ _ rfl rfl
    have f2 := hf 2 _ _ rfl rfl
    have f3 := hf 3 _ _ rfl rfl
    have f4 := hf 4 _ _ rfl rfl
    have f5 := hf 5 _ _ rfl rfl
    have u2 := f2.2 _ rfl
    have u3 := f3.2 _ rfl
    simp only [pedestalValues, hlim] at f2 f3 u2 u3
    refine ⟨f0.1, f1.2 _ rfl, ⟨by linarith [f2.1], ?_⟩, ⟨f3.1, by linarith⟩, ⟨f4.1, f4.2 _ rfl⟩, f5.1, f5.2 _ rfl⟩
    split at u2
    · exact Or.inl u2
    · exact Or.inr u2
  · rintro ⟨a, b, ⟨c1, c2⟩, ⟨c3, c4⟩, c, d, f⟩
    refine ⟨rfl, rfl, ?_⟩
    intro i s l hs hl
    match i with
    | 0 => simp_all [assemble]
    | 1 => simp_all [assemble]
    | 2 =>
      simp only [assemble, pedestalValues, if_true, List.getElem?_cons_succ, List.getElem?_cons_zero, Option.some.injEq, hlim] at hs hl ⊢
      subst hs hl
      refine ⟨by linarith, ?_⟩
      rintro u rfl
      split <;> rcases c2 with c2 | c2 <;> linarith
    | 3 =>
      simp only [assemble, pedestalValues, if_true, List.getElem?_cons_succ, List.getElem?_cons_zero, Option.some.injEq, hlim] at hs hl ⊢
      subst hs hl
      refine ⟨c3, ?_⟩
      rintro u rfl
      linarith
    | 4 => simp_all [assemble]
    | 5 => simp_all [assemble]
    | n + 6 => simp [assemble] at hs

/-- A case: three bins, gain of the data base, fit of `mu` that gives 2. -/
def sample : Ext := ⟨fun _ _ => 1, id, fun _ _ => [], fun _ => .ok 2, fun _ => .ok ⟨0, 0, 0⟩, [(16, 2), (17, 3)], [(24, 9)]⟩

example : seedsAndBounds sample .sipm 1 [-1, 0, 7] [4, 5, 6] ⟨1, 0, 5⟩ ⟨1 / 1000, 1 / 1000, 1 / 1000⟩ false true =
    .ok ⟨[15, 2, 17, 3], [0, 0, 0, 1 / 1000], [none, some 10000, some 10000, some 10000]⟩ := by decide +kernel

/-- A pedestal with mean 0 and deviation 5, both known to one thousandth: the seeds are refused, since the deviation is asked to be at least 10. -/
theorem transposed_bounds :
    ∃ b, seedsAndBounds sample .sipm 1 [-1, 0, 7] [4, 5, 6] ⟨1, 0, 5⟩ ⟨1 / 1000, 1 / 1000, 1 / 1000⟩ true true = .ok b ∧ ¬ Feasible b.seed b.low b.upp := by
  refine ⟨⟨[15, 2, 0, 5, 17, 3], [0, 0, -10, 10, 0, 1 / 1000], [none, some 10000, some (1 / 1000), some 15, some 10000, some 10000]⟩, by decide +kernel, ?_⟩
  rintro ⟨_, _, hf⟩
  have := (hf 3 5 10 rfl rfl).1
  norm_num at this

/-- Seeds of the data base: those of the row at that position, from the end if it is negative, whatever the identifiers of the sensors are. -/
theorem seeds_by_position (e : Ext) (s : Sensor) (ch : Int) (rows : List (ℚ × ℚ)) (hs : s = .sipm ∧ rows = e.dataSiPM ∨ s = .pmt ∧ rows = e.dataPMT)
    (g : ℚ × ℚ) :
    seedsDb e s ch = .ok g ↔ (0 ≤ ch ∧ rows[ch.toNat]? = some g) ∨ (ch < 0 ∧ 0 ≤ ch + rows.length ∧ rows[(ch + rows.length).toNat]? = some g) := by
  have key : seedsDb e s ch = iloc rows ch := by rcases hs with ⟨rfl, rfl⟩ | ⟨rfl, rfl⟩ <;> rfl
  rw [key]
  unfold iloc
  by_cases h : ch < 0
  · by_cases h' : ch + rows.length < 0
    · have h1 : ¬ 0 ≤ ch := by omega
      have h2 : ¬ 0 ≤ ch + rows.length := by omega
      simp [h, h', h1, h2]
    · have h1 : ¬ 0 ≤ ch := by omega
      have h2 : 0 ≤ ch + rows.length := by omega
      simp [h, h', item_ok, h1, h2]
  · have h1 : 0 ≤ ch := by omega
    simp [h, item_ok, h1]

example : seedsDb sample .sipm 1000 = .error .indexError ∧ seedsDb sample .sipm (-1) = .ok (17, 3) := by decide +kernel

/-- No seeds for anything that is not a SiPM or a PMT. -/
theorem other_sensor (e : Ext) (ch : Int) (bins spectrum : List ℚ) (ped errs : Gauss) (free db : Bool) :
    seedsAndBounds e .other ch bins spectrum ped errs free db = .error .valueError := rfl

end Verif.Seeds
