import Verif.Model.Voxels
import Verif.Props.Hits
import Verif.Props.Voxels
/-!
# Helper lemmas on histograms
-/
namespace Verif
open Verif.Voxels

theorem sum_ite_some (o : Option Nat) (n : Nat) (q : ℚ) :
    ((List.range n).map fun k => if o = some k then q else 0).sum = if ∃ k < n, o = some k then q else 0 := by
  induction n with
  | zero => simp
  | succ n ih =>
    rw [List.range_succ, List.map_append, List.sum_append, ih]
    simp only [List.map_cons, List.map_nil, List.sum_cons, List.sum_nil, add_zero]
    by_cases h1 : o = some n
    · have h2 : ¬ ∃ k < n, o = some k := by
        rintro ⟨k, hk, hk2⟩; rw [h1] at hk2; injection hk2; omega
      rw [if_neg h2, if_pos h1, if_pos ⟨n, by omega, h1⟩, zero_add]
    · rw [if_neg h1, add_zero]
      by_cases h2 : ∃ k < n, o = some k
      · rw [if_pos h2, if_pos (by obtain ⟨k, hk, h⟩ := h2; exact ⟨k, by omega, h⟩)]
      · rw [if_neg h2, if_neg]
        rintro ⟨k, hk, h⟩
        by_cases hkn : k = n
        · exact h1 (hkn ▸ h)
        · exact h2 ⟨k, by omega, h⟩

/-- Summing the bins of a histogram: the entries that are in some bin. -/
theorem sum_bins {α : Type} (data : List α) (b : α → Option Nat) (n : Nat) (f : α → ℚ) :
    ((List.range n).map fun k => ((data.filter fun d => decide (b d = some k)).map f).sum).sum =
      (data.map fun d => if ∃ k < n, b d = some k then f d else 0).sum := by
  simp only [Hits.sum_filter_ite]
  rw [Hits.sum_comm]
  simp only [sum_ite_some]

/-- Edges `a + i s` for `i = 0, …, n`. -/
def grid (a s : ℚ) (n : Nat) : List ℚ := (List.range (n + 1)).map fun i : Nat => a + i * s

theorem grid_last (a s : ℚ) (n : Nat) : (grid a s n).getLast? = some (a + n * s) := by
  unfold grid; rw [List.range_succ, List.map_append]; simp

theorem grid_search {a s x : ℚ} {n k : Nat} (hs : 0 < s) (hk : k ≤ n + 1) (h1 : ∀ i : Nat, i < k → a + i * s ≤ x)
    (h2 : ∀ i : Nat, i ≤ n → k ≤ i → x < a + i * s) : searchRight (grid a s n) x = k := by
  unfold searchRight grid
  rw [List.countP_map]
  apply countP_range hk
  intro i hi
  simp only [Function.comp, decide_eq_true_eq]
  constructor
  · intro h
    by_contra hc
    have := h2 i (by omega) (by omega)
    linarith
  · exact h1 i

/-- The bin of a histogram with edges `a, a + s, …, a + n s`. -/
theorem histBin_grid {a s x : ℚ} {n k : Nat} (hs : 0 < s) :
    histBin (grid a s n) x = some k ↔
      k < n ∧ a + k * s ≤ x ∧ (x < a + (k + 1) * s ∨ (k + 1 = n ∧ x = a + n * s)) := by
  have hlen : (grid a s n).length = n + 1 := by simp [grid]
  have mono : ∀ {i j : Nat}, i ≤ j → a + i * s ≤ a + j * s := by
    intro i j h
    have : (i : ℚ) ≤ j := by exact_mod_cast h
    have := mul_le_mul_of_nonneg_right this hs.le
    linarith
  have smono : ∀ {i j : Nat}, i < j → a + i * s < a + j * s := by
    intro i j h
    have : (i : ℚ) < j := by exact_mod_cast h
    have := mul_lt_mul_of_pos_right this hs
    linarith
  simp only [histBin, grid_last, hlen, Option.some.injEq]
  rcases lt_or_ge x a with hx | hx
  · have hc : searchRight (grid a s n) x = 0 := by
      apply grid_search hs (by omega) (by intro i hi; omega)
      intro i _ _
      have := mono (Nat.zero_le i)
      simp at this; linarith
    have hne : ¬ a + n * s = x := by
      have := mono (Nat.zero_le n)
      simp at this; intro h; linarith
    rw [hc, if_neg hne]
    constructor
    · intro h; simp at h
    · rintro ⟨_, h, _⟩
      have := mono (Nat.zero_le k)
      simp at this; linarith
  · rcases lt_trichotomy x (a + n * s) with hlt | heq | hgt
    · obtain ⟨j, hj, h1, h2⟩ := exists_cell a s x n hs hx hlt
      have hc : searchRight (grid a s n) x = j + 1 := by
        apply grid_search hs (by omega)
        · intro i hi; exact (mono (by omega : i ≤ j)).trans h1
        · intro i _ hi
          have := mono hi
          push_cast at this; linarith
      rw [hc, if_neg (show ¬ a + n * s = x by intro h; linarith), if_pos (by omega)]
      simp only [Nat.add_sub_cancel, Option.some.injEq]
      constructor
      · rintro rfl; exact ⟨hj, h1, Or.inl h2⟩
      · rintro ⟨h3, h4, h5 | h5⟩
        · exact cell_unique hs h1 h2 h4 h5
        · exfalso; linarith [h5.2]
    · have hc : searchRight (grid a s n) x = n + 1 := by
        apply grid_search hs le_rfl
        · intro i hi; rw [heq]; exact mono (by omega)
        · intro i h1 h2; omega
      rw [hc, if_pos heq.symm]
      simp only [Nat.add_sub_cancel]
      constructor
      · intro h
        split at h
        · rename_i h1
          simp only [Option.some.injEq] at h
          refine ⟨by omega, ?_, Or.inr ⟨by omega, heq⟩⟩
          rw [heq]; exact mono (by omega)
        · cases h
      · rintro ⟨h3, h4, h5 | h5⟩
        · exfalso
          have := mono (by omega : k + 1 ≤ n)
          push_cast at this; linarith
        · rw [if_pos (by omega)]; simp only [Option.some.injEq]; omega
    · have hc : searchRight (grid a s n) x = n + 1 := by
        apply grid_search hs le_rfl
        · intro i hi; exact (mono (by omega : i ≤ n)).trans hgt.le
        · intro i h1 h2; omega
      rw [hc, if_neg (show ¬ a + n * s = x by intro h; linarith), if_neg (by omega)]
      constructor
      · intro h; cases h
      · rintro ⟨h3, h4, h5 | h5⟩
        · exfalso
          have := mono (by omega : k + 1 ≤ n)
          push_cast at this; linarith
        · exfalso; linarith [h5.2]

/-- An entry is in some bin exactly when it is between the first and the last edge (both included), if there are bins. -/
theorem histBin_grid_some {a s x : ℚ} {n : Nat} (hs : 0 < s) (hn : 0 < n) :
    (∃ k < n, histBin (grid a s n) x = some k) ↔ a ≤ x ∧ x ≤ a + n * s := by
  constructor
  · rintro ⟨k, hk, h⟩
    rw [histBin_grid hs] at h
    obtain ⟨h1, h2, h3⟩ := h
    have p1 : (0 : ℚ) ≤ k * s := by positivity
    refine ⟨by linarith, ?_⟩
    rcases h3 with h3 | h3
    · have : ((k : ℚ) + 1) ≤ n := by exact_mod_cast h1
      have := mul_le_mul_of_nonneg_right this hs.le
      linarith
    · exact h3.2.le
  · rintro ⟨h1, h2⟩
    rcases lt_or_eq_of_le h2 with h2 | h2
    · obtain ⟨j, hj, h3, h4⟩ := exists_cell a s x n hs h1 h2
      exact ⟨j, hj, (histBin_grid hs).2 ⟨hj, h3, Or.inl h4⟩⟩
    · refine ⟨n - 1, by omega, (histBin_grid hs).2 ⟨by omega, ?_, Or.inr ⟨by omega, h2⟩⟩⟩
      have : ((n - 1 : ℕ) : ℚ) ≤ n := by exact_mod_cast Nat.sub_le _ _
      have := mul_le_mul_of_nonneg_right this hs.le
      linarith

end Verif
