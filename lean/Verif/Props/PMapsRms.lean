import Verif.Props.PMaps

/-! C10 and C16: the formula of the rms of a peak, and of the unbiased variances. -/

namespace Verif.PMaps

/-- The pairs at the positions where the second list passes are those whose second element passes. -/
private theorem picked_pairs (q : ℚ → Bool) : ∀ (ts ws : List ℚ), ts.length = ws.length →
    (whereIdx q ws).map (fun i => (ts.getD i 0, ws.getD i 0)) = (ts.zip ws).filter fun x => q x.2
  | [], [], _ => rfl
  | t :: ts, w :: ws, h => by
    rw [whereIdx_cons, List.map_append, List.map_map]
    have : (fun i => ((t :: ts).getD i 0, (w :: ws).getD i 0)) ∘ (· + 1) = fun i => (ts.getD i 0, ws.getD i 0) := by funext i; simp
    rw [this, picked_pairs q ts ws (by simpa using h)]
    by_cases hq : q w = true
    · simp [hq]
    · simp [hq]

private theorem zipWith_pairs {α β γ : Type} (f : α → β → γ) : ∀ l : List (α × β), List.zipWith f (l.map Prod.fst) (l.map Prod.snd) = l.map fun x => f x.1 x.2
  | [] => rfl
  | x :: l => by simp [zipWith_pairs f l]

private theorem zipWith_pairs' {α β γ δ : Type} (g : α → δ) (f : δ → β → γ) : ∀ l : List (α × β), List.zipWith f ((l.map Prod.fst).map g) (l.map Prod.snd) = l.map fun x => f (g x.1) x.2
  | [] => rfl
  | x :: l => by simpa using zipWith_pairs' g f l

/-- **C16** The square of the rms above threshold: of the samples (time and energy) strictly above it, if there are at least two and their energy is not zero, the mean of the squares of the distances
of their times to their mean time, both weighted with the energy; and 0 otherwise. -/
theorem varAbove_formula (p : Peak) (hl : p.times.length = p.pmts.wfs.sumSensors.length) (thr : ℚ) (above : List (ℚ × ℚ))
    (ha : above = (p.times.zip p.pmts.wfs.sumSensors).filter fun x => decide (thr < x.2)) :
    ((above.length < 2 ∨ (above.map Prod.snd).sum = 0) → p.varAbove thr = .ok 0) ∧
    (2 ≤ above.length → (above.map Prod.snd).sum ≠ 0 → ∃ mean, mean * (above.map Prod.snd).sum = (above.map fun x => x.1 * x.2).sum ∧
      p.varAbove thr = .ok ((above.map fun x => (x.1 - mean) ^ 2 * x.2).sum / (above.map Prod.snd).sum)) := by
  have hp := picked_pairs (fun x => decide (thr < x)) p.times p.pmts.wfs.sumSensors hl
  rw [← ha] at hp
  have h1 : (p.pmts.whereAbove thr).map (fun i => p.times.getD i 0) = above.map Prod.fst := by
    rw [← hp, List.map_map]; rfl
  have h2 : (p.pmts.whereAbove thr).map (fun i => p.pmts.sumOverSensors.getD i 0) = above.map Prod.snd := by
    rw [← hp, List.map_map]; rfl
  have h3 : (p.pmts.whereAbove thr).length = above.length := by
    rw [← hp, List.length_map]; rfl
  simp only [Peak.varAbove, h1, h2, h3]
  refine ⟨fun h => by rw [if_pos h], fun hge hne => ?_⟩
  rw [if_neg (by rintro (h | h); exact absurd hge (by omega); exact hne h), Core.wmv_eq _ _ (by simp) hne]
  refine ⟨Core.dot (above.map Prod.fst) (above.map Prod.snd) / (above.map Prod.snd).sum, ?_, ?_⟩
  · rw [div_mul_cancel₀ _ hne, Core.dot, zipWith_pairs]
  · dsimp only
    rw [Core.dot, zipWith_pairs']

example : exPeak.times.length = exPeak.pmts.wfs.sumSensors.length ∧ exPeak.varAbove 1 = .ok (5600 / 81) ∧ exPeak.varAbove 3 = .ok 0 := by
  decide +kernel

end Verif.PMaps

namespace Verif.Core

/-- **C10** The unbiased variances: multiplied by `W / (W - 1)` if the weights are numbers of times, and by `W² / (W² - ∑ w²)` if they are only relative. -/
theorem weighted_unbiased (data weights : List ℚ) (hl : data.length = weights.length) (hs : weights.sum ≠ 0) : ∃ mean var, weightedMeanAndVar data weights = .ok (mean, var) ∧
    (weights.sum ≠ 1 → ∃ v, weightedMeanAndVar data weights true true = .ok (mean, v) ∧ v * (weights.sum - 1) = var * weights.sum) ∧
    (weights.sum ^ 2 ≠ (weights.map (· ^ 2)).sum → ∃ v, weightedMeanAndVar data weights true false = .ok (mean, v) ∧ v * (weights.sum ^ 2 - (weights.map (· ^ 2)).sum) = var * weights.sum ^ 2) := by
  refine ⟨_, _, wmv_eq data weights hl hs, fun h => ?_, fun h => ?_⟩
  · refine ⟨_, by simp only [weightedMeanAndVar, average_eq _ _ hl hs, average_eq (data.map fun x => (x - dot data weights / weights.sum) ^ 2) weights (by simpa using hl) hs]; rfl, ?_⟩
    generalize dot (data.map fun x => (x - dot data weights / weights.sum) ^ 2) weights = D
    have h' : weights.sum - 1 ≠ 0 := sub_ne_zero.2 h
    field_simp
  · refine ⟨_, by simp only [weightedMeanAndVar, average_eq _ _ hl hs, average_eq (data.map fun x => (x - dot data weights / weights.sum) ^ 2) weights (by simpa using hl) hs]; rfl, ?_⟩
    generalize dot (data.map fun x => (x - dot data weights / weights.sum) ^ 2) weights = D
    have h' : weights.sum ^ 2 - (weights.map (· ^ 2)).sum ≠ 0 := sub_ne_zero.2 h
    have h2 : 1 - (weights.map (· ^ 2)).sum / weights.sum ^ 2 = (weights.sum ^ 2 - (weights.map (· ^ 2)).sum) / weights.sum ^ 2 := by field_simp
    rw [h2]
    field_simp

example : weightedMeanAndVar [1, 3] [1, 3] true true = .ok (5 / 2, 1) ∧ weightedMeanAndVar [1, 3] [1, 3] true false = .ok (5 / 2, 2) := by decide +kernel

end Verif.Core
