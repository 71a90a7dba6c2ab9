import Verif.Model.Voxels
/-!
# Searching in sorted edges
-/
namespace Verif.Voxels

theorem lt_searchRight {e : List ℚ} (hs : e.Pairwise (· ≤ ·)) (x : ℚ) (i : Nat) : i < searchRight e x ↔ ∃ a, e[i]? = some a ∧ a ≤ x := by
  induction e generalizing i with
  | nil => simp [searchRight]
  | cons a as ih =>
    rw [List.pairwise_cons] at hs
    have ih' := ih hs.2
    by_cases ha : a ≤ x
    · have e1 : searchRight (a :: as) x = searchRight as x + 1 := by simp [searchRight, List.countP_cons, ha]
      rw [e1]
      cases i with
      | zero => simp [ha]
      | succ i => simpa using ih' i
    · have e1 : searchRight (a :: as) x = 0 := by
        rw [searchRight, List.countP_eq_zero]
        intro b hb
        rcases List.mem_cons.1 hb with rfl | hb
        · simpa using ha
        · have := hs.1 b hb
          simp only [decide_eq_true_eq, not_le]
          linarith [not_le.1 ha]
      rw [e1]
      refine ⟨fun h => absurd h (by omega), ?_⟩
      rintro ⟨b, hb, hbx⟩
      have hmem : b ∈ a :: as := List.mem_of_getElem? hb
      rcases List.mem_cons.1 hmem with rfl | hm
      · exact absurd hbx ha
      · exact absurd ((hs.1 b hm).trans hbx) ha

theorem searchRight_le (e : List ℚ) (x : ℚ) : searchRight e x ≤ e.length := List.countP_le_length

/-- The number of edges up to a value. -/
theorem searchRight_eq {e : List ℚ} (hs : e.Pairwise (· ≤ ·)) {x a : ℚ} {k : Nat} (ha : e[k]? = some a) (h1 : a ≤ x) (h2 : ∀ b, e[k + 1]? = some b → x < b) :
    searchRight e x = k + 1 := by
  have hl : k < searchRight e x := (lt_searchRight hs x k).2 ⟨a, ha, h1⟩
  have hr : ¬ k + 1 < searchRight e x := by
    rw [lt_searchRight hs]
    rintro ⟨b, hb, hbx⟩
    exact absurd (h2 b hb) (not_lt.2 hbx)
  omega

/-- The bin of a histogram with arbitrary increasing edges. -/
theorem histBin_sorted {e : List ℚ} (hs : e.Pairwise (· < ·)) (x : ℚ) (k : Nat) :
    histBin e x = some k ↔ ∃ a b, e[k]? = some a ∧ e[k + 1]? = some b ∧ a ≤ x ∧ (x < b ∨ (x = b ∧ k + 2 = e.length)) := by
  have hle : e.Pairwise (· ≤ ·) := hs.imp fun h => h.le
  have hmono : ∀ (i j : Nat) (a b : ℚ), i < j → e[i]? = some a → e[j]? = some b → a < b := by
    intro i j a b hij ha hb
    obtain ⟨hi, rfl⟩ := List.getElem?_eq_some_iff.1 ha
    obtain ⟨hj, rfl⟩ := List.getElem?_eq_some_iff.1 hb
    exact List.pairwise_iff_getElem.1 hs i j hi hj hij
  have hlast : e.getLast? = e[e.length - 1]? := List.getLast?_eq_getElem?
  simp only [histBin]
  by_cases hx : e.getLast? = some x
  · simp only [if_pos hx]
    rw [hlast] at hx
    have hpos : 0 < e.length := by
      obtain ⟨h, _⟩ := List.getElem?_eq_some_iff.1 hx
      omega
    have hc : searchRight e x = e.length := by
      have := searchRight_eq hle hx (le_refl x) (fun b hb => by
        obtain ⟨h, _⟩ := List.getElem?_eq_some_iff.1 hb
        omega)
      omega
    rw [hc]
    by_cases h2 : 2 ≤ e.length
    · rw [if_pos ⟨by omega, by omega⟩, Option.some.injEq]
      constructor
      · rintro rfl
        have e0 : e.length - 1 - 1 < e.length := by omega
        refine ⟨e[e.length - 1 - 1], x, List.getElem?_eq_getElem e0, ?_, ?_, .inr ⟨rfl, by omega⟩⟩
        · rw [show e.length - 1 - 1 + 1 = e.length - 1 by omega]; exact hx
        · exact (hmono _ _ _ _ (by omega : e.length - 1 - 1 < e.length - 1) (List.getElem?_eq_getElem e0) hx).le
      · rintro ⟨a, b, ha, hb, h3, h4 | ⟨rfl, h4⟩⟩
        · obtain ⟨h5, _⟩ := List.getElem?_eq_some_iff.1 hb
          rcases Nat.lt_or_ge (k + 1) (e.length - 1) with h6 | h6
          · exact absurd (hmono _ _ _ _ h6 hb hx) (not_lt.2 h4.le)
          · rw [show k + 1 = e.length - 1 by omega, hx] at hb
            simp only [Option.some.injEq] at hb
            subst hb
            exact absurd h4 (lt_irrefl _)
        · omega
    · rw [if_neg (by omega)]
      constructor
      · intro h; cases h
      · rintro ⟨a, b, ha, hb, _⟩
        obtain ⟨h5, _⟩ := List.getElem?_eq_some_iff.1 hb
        omega
  · simp only [if_neg hx]
    constructor
    · intro h
      split at h
      · rename_i hk
        rw [Option.some.injEq] at h
        obtain ⟨a, ha, h1⟩ := (lt_searchRight hle x k).1 (by omega)
        have h5 : k + 1 < e.length := by omega
        refine ⟨a, e[k + 1], ha, List.getElem?_eq_getElem h5, h1, .inl ?_⟩
        by_contra hn
        have := (lt_searchRight hle x (k + 1)).2 ⟨_, List.getElem?_eq_getElem h5, not_lt.1 hn⟩
        omega
      · cases h
    · rintro ⟨a, b, ha, hb, h3, h4⟩
      obtain ⟨h5, h6⟩ := List.getElem?_eq_some_iff.1 hb
      have hlt : x < b := by
        rcases h4 with h4 | ⟨rfl, h4⟩
        · exact h4
        · rw [hlast, show e.length - 1 = k + 1 by omega] at hx
          exact absurd hb hx
      have hc := searchRight_eq hle ha h3 (fun c hc => by rw [hb] at hc; simp only [Option.some.injEq] at hc; rw [← hc]; exact hlt)
      rw [hc, if_pos ⟨by omega, by omega⟩]
      simp

/-- The points of `np.linspace` are increasing. -/
theorem linspace_sorted {a b : ℚ} {n : Nat} (h : a < b) (hn : 0 < n) : (linspace a b n).Pairwise (· < ·) := by
  rw [linspace, List.pairwise_map]
  have hn' : (0 : ℚ) < n := by exact_mod_cast hn
  have hs : 0 < (b - a) / n := div_pos (by linarith) hn'
  refine List.pairwise_lt_range.imp ?_
  intro i j hij
  have : (i : ℚ) < j := by exact_mod_cast hij
  nlinarith

end Verif.Voxels
