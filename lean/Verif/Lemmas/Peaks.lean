import Verif.Model.Peaks
import Verif.Spec.Peaks
import Verif.Lemmas.Lists
import Verif.Props.Core
/-!
# Helper lemmas for peak rebinning
-/
namespace Verif.Peaks
open Verif.Core

theorem chargeIn_eq (wf : List ℚ) (lo hi : Nat) : chargeIn wf lo hi = (pySlice lo hi wf).sum := by
  induction wf generalizing lo hi with
  | nil => simp [chargeIn, pySlice]
  | cons x wf ih =>
    have e : chargeIn (x :: wf) lo hi = (if lo = 0 ∧ 0 < hi then x else 0) + chargeIn wf (lo - 1) (hi - 1) := by
      simp only [chargeIn, List.length_cons, List.range_succ_eq_map, List.map_cons, List.sum_cons, List.map_map]
      congr 1
      · simp
      · congr 1
        apply List.map_congr_left
        intro j _
        simp only [Function.comp, List.getD_cons_succ]
        by_cases h : lo ≤ j + 1 ∧ j + 1 < hi
        · rw [if_pos h, if_pos (by omega)]
        · rw [if_neg h, if_neg (by omega)]
    rw [e, ih]
    cases lo with
    | zero =>
      cases hi with
      | zero => simp [pySlice]
      | succ hi => simp [pySlice]
    | succ lo =>
      simp [pySlice, Nat.sub_sub, Nat.add_comm 1 lo]

theorem tiles_flatten {α : Type} (xs : List α) (a : Nat) (slices : List (Nat × Nat)) (h : TilesFrom xs.length a slices) :
    (slices.map fun sl => pySlice sl.1 sl.2 xs).flatten = xs.drop a := by
  induction slices generalizing a with
  | nil => simp only [TilesFrom] at h; simp [List.drop_of_length_le h]
  | cons s rest ih =>
    obtain ⟨s, e⟩ := s
    obtain ⟨rfl, h2, _, h4⟩ := h
    simp only [List.map_cons, List.flatten_cons, ih e h4]
    by_cases he : e ≤ xs.length
    · rw [← pySlice_to_end xs (le_refl _), pySlice_append h2.le he, pySlice_to_end xs (le_refl _)]
    · rw [pySlice_to_end xs (by omega), List.drop_of_length_le (by omega : xs.length ≤ e)]; simp

theorem tiles_sum (xs : List ℚ) (a : Nat) (slices : List (Nat × Nat)) (h : TilesFrom xs.length a slices) :
    (slices.map fun sl => (pySlice sl.1 sl.2 xs).sum).sum = (xs.drop a).sum := by
  rw [← tiles_flatten xs a slices h, List.sum_flatten, List.map_map]
  rfl

theorem evenSlices_tiles (n stride : Nat) (hs : 0 < stride) : Tiles n (getEvenSlices n stride) := by
  have key : ∀ m a, n ≤ stride * (a + m) → (m ≠ 0 → stride * (a + m - 1) < n) →
      TilesFrom n (stride * a) ((List.range m).map fun i => (stride * (a + i), stride * (a + i + 1))) := by
    intro m
    induction m with
    | zero => intro a h _; simpa [TilesFrom] using h
    | succ m ih =>
      intro a h1 h2
      rw [List.range_succ_eq_map, List.map_cons, List.map_map]
      have h2 := h2 (by omega)
      refine ⟨by simp, ?_, ?_, ?_⟩
      · exact Nat.mul_lt_mul_of_pos_left (by omega) hs
      · refine Nat.lt_of_le_of_lt ?_ h2
        exact Nat.mul_le_mul_left _ (by omega)
      · have := ih (a + 1) (by rw [show a + 1 + m = a + (m + 1) by omega]; exact h1) (fun hm => by
          rw [show a + 1 + m - 1 = a + (m + 1) - 1 by omega]; exact h2)
        convert this using 2
        funext i
        simp only [Function.comp, Nat.succ_eq_add_one]
        rw [show a + (i + 1) = a + 1 + i by omega]
  have h := key ((n + stride - 1) / stride) 0 ?_ ?_
  · simpa [Tiles, getEvenSlices] using h
  · rw [Nat.zero_add]
    have := Nat.div_add_mod (n + stride - 1) stride
    have := Nat.mod_lt (n + stride - 1) hs
    omega
  · intro hm
    rw [Nat.zero_add]
    have h1 := Nat.div_add_mod (n + stride - 1) stride
    have h2 : stride * ((n + stride - 1) / stride - 1) + stride = stride * ((n + stride - 1) / stride) := by
      obtain ⟨q, hq⟩ := Nat.exists_eq_succ_of_ne_zero hm
      rw [hq]; simp [Nat.mul_succ]
    have h3 : n ≠ 0 := by
      rintro rfl
      apply hm
      rw [Nat.div_eq_of_lt (by omega)]
    omega

theorem tiles_mem {n a : Nat} {slices : List (Nat × Nat)} (h : TilesFrom n a slices) :
    ∀ sl ∈ slices, sl.1 < sl.2 ∧ sl.1 < n := by
  induction slices generalizing a with
  | nil => simp
  | cons s rest ih =>
    obtain ⟨s, e⟩ := s
    obtain ⟨rfl, h2, h3, h4⟩ := h
    intro sl hsl
    rcases List.mem_cons.1 hsl with rfl | hsl
    · exact ⟨h2, h3⟩
    · exact ih h4 sl hsl

/-! Weighted averages over the slice -/

theorem dot_le' (d w : List ℚ) (hl : d.length = w.length) (hw : ∀ x ∈ w, 0 ≤ x) (hi : ℚ)
    (h : ∀ (i : Nat) (x y : ℚ), d[i]? = some x → w[i]? = some y → y ≠ 0 → x ≤ hi) : dot d w ≤ hi * w.sum := by
  induction d generalizing w with
  | nil => cases w <;> simp_all [dot]
  | cons a d ih =>
    cases w with
    | nil => simp at hl
    | cons b w =>
      have := ih w (by simpa using hl) (fun x hx => hw x (List.mem_cons_of_mem _ hx))
        (fun i x y h1 h2 => h (i + 1) x y (by simpa using h1) (by simpa using h2))
      have hb := hw b List.mem_cons_self
      have hab : a * b ≤ hi * b := by
        by_cases hb0 : b = 0
        · simp [hb0]
        · exact mul_le_mul_of_nonneg_right (h 0 a b rfl rfl hb0) hb
      rw [dot_cons, List.sum_cons]
      linarith

theorem le_dot' (d w : List ℚ) (hl : d.length = w.length) (hw : ∀ x ∈ w, 0 ≤ x) (lo : ℚ)
    (h : ∀ (i : Nat) (x y : ℚ), d[i]? = some x → w[i]? = some y → y ≠ 0 → lo ≤ x) : lo * w.sum ≤ dot d w := by
  induction d generalizing w with
  | nil => cases w <;> simp_all [dot]
  | cons a d ih =>
    cases w with
    | nil => simp at hl
    | cons b w =>
      have := ih w (by simpa using hl) (fun x hx => hw x (List.mem_cons_of_mem _ hx))
        (fun i x y h1 h2 => h (i + 1) x y (by simpa using h1) (by simpa using h2))
      have hb := hw b List.mem_cons_self
      have hab : lo * b ≤ a * b := by
        by_cases hb0 : b = 0
        · simp [hb0]
        · exact mul_le_mul_of_nonneg_right (h 0 a b rfl rfl hb0) hb
      rw [dot_cons, List.sum_cons]
      linarith

theorem sum_pos_of_any {s : List ℚ} (h0 : ∀ x ∈ s, 0 ≤ x) (h : s.any (· ≠ 0) = true) : 0 < s.sum := by
  induction s with
  | nil => simp at h
  | cons a s ih =>
    have ha := h0 a List.mem_cons_self
    have hs : 0 ≤ s.sum := List.sum_nonneg fun x hx => h0 x (List.mem_cons_of_mem _ hx)
    rw [List.sum_cons]
    by_cases ha0 : a = 0
    · subst ha0
      have := ih (fun x hx => h0 x (List.mem_cons_of_mem _ hx)) (by simpa using h)
      linarith
    · have : 0 < a := lt_of_le_of_ne ha (Ne.symm ha0)
      linarith

/-- The average time of a slice: the weighted or plain mean, and its bounds. -/
theorem averageTime_spec (t : List ℚ) (e : Mat) (hl : t.length = e.ncols) (hne : t ≠ []) :
    ∃ v, averageTime t e = .ok v ∧
      ((∃ x ∈ e.sumSensors, 0 < x) →
        v * (e.sumSensors.map (max 0)).sum = dot t (e.sumSensors.map (max 0)) ∧
        0 < (e.sumSensors.map (max 0)).sum ∧
        ∀ lo hi, (∀ (i : Nat) (x y : ℚ), t[i]? = some x → e.sumSensors[i]? = some y → 0 < y → lo ≤ x ∧ x ≤ hi) →
          lo ≤ v ∧ v ≤ hi) ∧
      ((¬ ∃ x ∈ e.sumSensors, 0 < x) → v * t.length = t.sum) ∧
      ∀ lo hi, (∀ x ∈ t, lo ≤ x ∧ x ≤ hi) → lo ≤ v ∧ v ≤ hi := by
  have hany : (e.sumSensors.map (max 0)).any (· ≠ 0) = true ↔ ∃ x ∈ e.sumSensors, 0 < x := by
    simp only [List.any_map, List.any_eq_true, Function.comp, decide_eq_true_eq]
    constructor
    · rintro ⟨x, hx, h⟩
      refine ⟨x, hx, ?_⟩
      by_contra hc
      exact h (max_eq_left (not_lt.1 hc))
    · rintro ⟨x, hx, h⟩
      exact ⟨x, hx, by rw [max_eq_right h.le]; exact ne_of_gt h⟩
  have hs0 : ∀ x ∈ e.sumSensors.map (max 0), 0 ≤ x := by
    intro x hx
    obtain ⟨y, _, rfl⟩ := List.mem_map.1 hx
    exact le_max_left _ _
  have hlen : t.length = (e.sumSensors.map (max 0)).length := by
    rw [List.length_map, Mat.sumSensors_length, hl]
  unfold averageTime
  by_cases h : (e.sumSensors.map (max 0)).any (· ≠ 0) = true
  · have hpos := sum_pos_of_any hs0 h
    simp only [h, if_true]
    rw [average_eq _ _ hlen (ne_of_gt hpos)]
    refine ⟨_, rfl, fun _ => ⟨?_, hpos, ?_⟩, fun hc => absurd (hany.1 h) hc, ?_⟩
    · field_simp
    · intro lo hi hb
      have hb' : ∀ (i : Nat) x y, t[i]? = some x → (e.sumSensors.map (max 0))[i]? = some y → y ≠ 0 → lo ≤ x ∧ x ≤ hi := by
        intro i x y h1 h2 h3
        rw [List.getElem?_map] at h2
        obtain ⟨z, hz, rfl⟩ := Option.map_eq_some_iff.1 h2
        refine hb i x z h1 hz ?_
        by_contra hc
        exact h3 (max_eq_left (not_lt.1 hc))
      constructor
      · rw [le_div_iff₀ hpos]
        exact le_dot' _ _ hlen hs0 lo fun i x y h1 h2 h3 => (hb' i x y h1 h2 h3).1
      · rw [div_le_iff₀ hpos]
        exact dot_le' _ _ hlen hs0 hi fun i x y h1 h2 h3 => (hb' i x y h1 h2 h3).2
    · intro lo hi hb
      constructor
      · rw [le_div_iff₀ hpos]
        exact le_dot _ _ hlen hs0 lo fun x hx => (hb x hx).1
      · rw [div_le_iff₀ hpos]
        exact dot_le _ _ hlen hs0 hi fun x hx => (hb x hx).2
  · rw [if_neg h]
    have hn : (0 : ℚ) < t.length := by
      have := List.length_pos_iff.2 hne
      exact_mod_cast this
    refine ⟨_, rfl, fun hc => absurd (hany.2 hc) h, fun _ => by field_simp, ?_⟩
    intro lo hi hb
    constructor
    · rw [le_div_iff₀ hn]
      have : ∀ l : List ℚ, (∀ x ∈ l, lo ≤ x) → lo * l.length ≤ l.sum := by
        intro l
        induction l with
        | nil => simp
        | cons a l ih =>
          intro hl
          have h1 := ih fun x hx => hl x (List.mem_cons_of_mem _ hx)
          have h2 := hl a List.mem_cons_self
          simp only [List.length_cons, List.sum_cons, Nat.cast_add, Nat.cast_one]
          linarith
      exact this t fun x hx => (hb x hx).1
    · rw [div_le_iff₀ hn]
      have : ∀ l : List ℚ, (∀ x ∈ l, x ≤ hi) → l.sum ≤ hi * l.length := by
        intro l
        induction l with
        | nil => simp
        | cons a l ih =>
          intro hl
          have h1 := ih fun x hx => hl x (List.mem_cons_of_mem _ hx)
          have h2 := hl a List.mem_cons_self
          simp only [List.length_cons, List.sum_cons, Nat.cast_add, Nat.cast_one]
          linarith
      exact this t fun x hx => (hb x hx).2

/-- Rebinning over non-empty slices never fails; explicit result. -/
theorem rebin_ok (times widths : List ℚ) (wfs : Mat) (stride : Nat) (slices : Option (List (Nat × Nat)))
    (hs : 2 ≤ stride) (ht : times.length = wfs.ncols)
    (hne : ∀ sl ∈ slices.getD (getEvenSlices times.length stride), sl.1 < sl.2 ∧ sl.1 < times.length) :
    ∃ ts, rebinTimesAndWaveforms times widths wfs stride slices =
        .ok (ts, (slices.getD (getEvenSlices times.length stride)).map (fun sl => (pySlice sl.1 sl.2 widths).sum),
          ⟨wfs.rows.map fun r => (slices.getD (getEvenSlices times.length stride)).map
            fun sl => (pySlice sl.1 sl.2 r).sum, (slices.getD (getEvenSlices times.length stride)).length⟩) ∧
      List.Forall₂ (fun sl t => averageTime (pySlice sl.1 sl.2 times) (wfs.slice sl.1 sl.2) = .ok t)
        (slices.getD (getEvenSlices times.length stride)) ts := by
  have hall : ∀ sl ∈ slices.getD (getEvenSlices times.length stride),
      ∃ y, averageTime (pySlice sl.1 sl.2 times) (wfs.slice sl.1 sl.2) = .ok y := by
    intro sl hsl
    obtain ⟨h1, h2⟩ := hne sl hsl
    obtain ⟨v, hv, _⟩ := averageTime_spec (pySlice sl.1 sl.2 times) (wfs.slice sl.1 sl.2)
      (by rw [pySlice_length, ht]; rfl)
      (by intro hc; have := congrArg List.length hc; rw [pySlice_length] at this; simp at this; omega)
    exact ⟨v, hv⟩
  obtain ⟨ts, hts⟩ := mapM_ok hall
  refine ⟨ts, ?_, mapM_ok_iff.1 hts⟩
  simp only [rebinTimesAndWaveforms, if_neg (show ¬ stride < 2 by omega), hts]

end Verif.Peaks
