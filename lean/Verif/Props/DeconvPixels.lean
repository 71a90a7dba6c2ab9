import Verif.Props.DeconvInput
/-!
# C98: the input of the deconvolution without interpolation
-/
namespace Verif.DeconvInput
open Verif.Voxels Verif.Buffers Verif.Core Spec

/-- The edges around increasing points. -/
theorem binedges_get {g e : List ℚ} (h : binedgesFromBincenters g none = .ok e) (h2 : 2 ≤ g.length) :
    e.length = g.length + 1 ∧ ∀ k < g.length, e[k]? = some (low g k) ∧ e[k + 1]? = some (high g k) := by
  obtain ⟨lo, hi, f, l, hf, hl, hn, _, rfl⟩ := binedges_shape h
  obtain ⟨rfl, rfl⟩ := hn rfl
  have hlen : (List.zipWith (fun b a => (b + a) / 2) g.tail g.dropLast).length = g.length - 1 := by simp
  have hd : ∀ k (hk : k < g.length), g.getD k 0 = g[k] := by
    intro k hk
    rw [List.getD_eq_getElem?_getD, List.getElem?_eq_getElem hk]; rfl
  have hmid : ∀ k, k + 1 < g.length → (List.zipWith (fun b a => (b + a) / 2) g.tail g.dropLast)[k]? = some ((g.getD k 0 + g.getD (k + 1) 0) / 2) := by
    intro k hk
    rw [List.getElem?_eq_getElem (by omega), List.getElem_zipWith, List.getElem_tail, List.getElem_dropLast, hd k (by omega), hd (k + 1) hk, add_comm]
  have h0 : lo = g.getD 0 0 := by
    rw [List.head?_eq_getElem?] at hf
    rw [List.getD_eq_getElem?_getD, hf]; rfl
  have hlast : hi = g.getD (g.length - 1) 0 := by
    rw [List.getLast?_eq_getElem?] at hl
    rw [List.getD_eq_getElem?_getD, hl]; rfl
  refine ⟨by simp; omega, ?_⟩
  intro k hk
  constructor
  · rcases k with _ | k
    · simp [low, h0]
    · rw [List.cons_append, List.getElem?_cons_succ, List.getElem?_append_left (by omega), hmid k hk]
      simp [low]
  · rw [List.cons_append, List.getElem?_cons_succ]
    by_cases hk1 : k + 1 = g.length
    · rw [List.getElem?_append_right (by omega), hlen, high, if_pos hk1]
      have : k - (g.length - 1) = 0 := by omega
      rw [this, hlast]
      have : g.length - 1 = k := by omega
      rw [this]; rfl
    · rw [List.getElem?_append_left (by omega), hmid k (by omega), high, if_neg hk1]

theorem strict_edges {g e : List ℚ} (h : binedgesFromBincenters g none = .ok e) (h2 : 2 ≤ g.length) (hs : g.Pairwise (· < ·)) : e.Pairwise (· < ·) := by
  obtain ⟨hl, hk⟩ := binedges_get h h2
  have hmono : ∀ i j, i < j → j < g.length → g.getD i 0 < g.getD j 0 := by
    intro i j hij hj
    rw [List.getD_eq_getElem?_getD, List.getD_eq_getElem?_getD, List.getElem?_eq_getElem hj, List.getElem?_eq_getElem (by omega)]
    exact List.pairwise_iff_getElem.1 hs i j _ _ hij
  have hstep : ∀ k < g.length, low g k < high g k := by
    intro k hk
    simp only [low, high]
    rcases Nat.eq_zero_or_pos k with rfl | h0
    · rw [if_pos rfl, if_neg (by omega)]
      have := hmono 0 1 (by omega) (by omega)
      linarith
    · have h3 := hmono (k - 1) k (by omega) hk
      rw [if_neg (by omega)]
      split
      · linarith
      · have := hmono k (k + 1) (by omega) (by omega)
        linarith
  rw [← List.isChain_iff_pairwise, List.isChain_iff_getElem]
  intro i hi
  have hi' : i < g.length := by omega
  obtain ⟨h3, h4⟩ := hk i hi'
  have e3 := (List.getElem?_eq_some_iff.1 h3).2
  have e4 := (List.getElem?_eq_some_iff.1 h4).2
  rw [e3, e4]
  exact hstep i hi'

theorem binedges_bin {g e : List ℚ} (h : binedgesFromBincenters g none = .ok e) (h2 : 2 ≤ g.length) (hs : g.Pairwise (· < ·)) (x : ℚ) :
    (∀ k < e.length - 1, histBin e x = some k ↔ low g k ≤ x ∧ (x < high g k ∨ x = high g k ∧ k + 1 = g.length)) ∧
    ((∃ a ∈ g, ∃ b ∈ g, a ≤ x ∧ x ≤ b) → ∃ k < e.length - 1, histBin e x = some k) := by
  obtain ⟨hl, hk⟩ := binedges_get h h2
  have hse := strict_edges h h2 hs
  constructor
  · intro k hkl
    obtain ⟨h3, h4⟩ := hk k (by omega)
    rw [histBin_sorted hse]
    constructor
    · rintro ⟨a, b, ha, hb, h5, h6⟩
      rw [h3] at ha; rw [h4] at hb
      cases ha; cases hb
      refine ⟨h5, h6.imp id fun h6 => ⟨h6.1, by omega⟩⟩
    · rintro ⟨h5, h6⟩
      exact ⟨_, _, h3, h4, h5, h6.imp id fun h6 => ⟨h6.1, by omega⟩⟩
  · rintro ⟨a, ha, b, hb, hax, hxb⟩
    have hle : e.Pairwise (· ≤ ·) := hse.imp fun h => h.le
    have hgle : ∀ i j, i ≤ j → j < g.length → g.getD i 0 ≤ g.getD j 0 := by
      intro i j hij hj
      rcases Nat.eq_or_lt_of_le hij with rfl | hij
      · exact le_rfl
      · rw [List.getD_eq_getElem?_getD, List.getD_eq_getElem?_getD, List.getElem?_eq_getElem hj, List.getElem?_eq_getElem (by omega)]
        exact (List.pairwise_iff_getElem.1 hs i j _ _ hij).le
    have hmem : ∀ y ∈ g, g.getD 0 0 ≤ y ∧ y ≤ g.getD (g.length - 1) 0 := by
      intro y hy
      obtain ⟨i, hi, rfl⟩ := List.getElem_of_mem hy
      have e1 : g[i] = g.getD i 0 := by rw [List.getD_eq_getElem?_getD, List.getElem?_eq_getElem hi]; rfl
      rw [e1]
      exact ⟨hgle 0 i (by omega) hi, hgle i _ (by omega) (by omega)⟩
    have hx0 : low g 0 ≤ x := by
      simp only [low, if_true]
      exact (hmem a ha).1.trans hax
    have hxl : x ≤ high g (g.length - 1) := by
      rw [high, if_pos (by omega)]
      exact hxb.trans (hmem b hb).2
    have e0 := (hk 0 (by omega)).1
    have el := (hk (g.length - 1) (by omega)).2
    have e1 : g.length - 1 + 1 = g.length := by omega
    rw [e1] at el
    have hpos : 0 < searchRight e x := (lt_searchRight hle x 0).2 ⟨_, e0, hx0⟩
    have hlast : e.getLast? = some (high g (g.length - 1)) := by
      rw [List.getLast?_eq_getElem?, hl]; exact el
    have hsl : searchRight e x ≤ e.length := List.countP_le_length
    by_cases hxe : x = high g (g.length - 1)
    · have hfull : searchRight e x = e.length := by
        have : g.length < searchRight e x := (lt_searchRight hle x g.length).2 ⟨_, el, hxe.ge⟩
        omega
      refine ⟨g.length - 1, by omega, ?_⟩
      rw [histBin]
      have hq : e.getLast? = some x := by rw [hlast, hxe]
      simp only [if_pos hq, hfull]
      rw [if_pos (by omega)]
      congr 1; omega
    · have hnf : searchRight e x < e.length := by
        by_contra hge
        have : g.length < searchRight e x := by omega
        obtain ⟨c, hc, hcx⟩ := (lt_searchRight hle x g.length).1 this
        rw [el] at hc
        cases hc
        exact hxe (le_antisymm hxl hcx)
      refine ⟨searchRight e x - 1, by omega, ?_⟩
      rw [histBin]
      have : ¬ (e.getLast? = some x) := by rw [hlast]; simpa using Ne.symm hxe
      simp only [if_neg this]
      rw [if_pos (by omega)]

theorem shift_getD {e : List ℚ} {a b : ℚ} {k : Nat} (ha : e[k]? = some a) (hb : e[k + 1]? = some b) : (shiftToBinCenters e).getD k 0 = (a + b) / 2 := by
  rw [List.getD_eq_getElem?_getD, ((shift_midpoints e).2 k a b ha hb).1]; rfl

theorem inCell_zip {δ : Type} (D : List δ) (c : List Nat) (g : δ → List ℚ) (x : δ → ℚ) :
    inCell (D.map g) c (D.map x) = (D.zip c).all fun q => decide (low (g q.1) q.2 ≤ x q.1 ∧ (x q.1 < high (g q.1) q.2 ∨ x q.1 = high (g q.1) q.2 ∧ q.2 + 1 = (g q.1).length)) := by
  induction D generalizing c with
  | nil => simp [inCell]
  | cons d D ih =>
    cases c with
    | nil => simp [inCell]
    | cons k c =>
      have := ih c
      simp only [inCell] at this ⊢
      simp only [List.map_cons, List.zip_cons_cons, List.all_cons, this]

theorem middle_zip {δ : Type} (D : List δ) (c : List Nat) (g : δ → List ℚ) : middle (D.map g) c = (D.zip c).map fun q => (low (g q.1) q.2 + high (g q.1) q.2) / 2 := by
  induction D generalizing c with
  | nil => simp [middle]
  | cons d D ih =>
    cases c with
    | nil => simp [middle]
    | cons k c =>
      have := ih c
      simp only [middle] at this ⊢
      simp only [List.map_cons, List.zip_cons_cons, this]

/-- **C98**: without interpolation the image has a cell for each point of the detector in the region of the hits, with the charge of the hits in the cell, and the middle of
the cell as its position; when the hits are between points of the region, all the charge is in the image. -/
theorem input_pixels (gd : Method → List (List ℚ) → List ℚ → Except PyErr (List ℚ → Option ℚ)) (widths : List ℚ)
    (grids data : List (List ℚ)) (weight : List ℚ) (h : Fit widths grids data weight) (gs : List (List ℚ)) (hgs : gs = regions grids data widths)
    (hs : ∀ g ∈ gs, g.Pairwise (· < ·) ∧ 2 ≤ g.length) (cs : List (List Nat)) (hcs : cs = product (gs.map fun g => List.range g.length)) :
    deconvolutionInput gd .nointerpolation widths grids data weight = .ok (cs.map (fun c => charge data weight (inCell gs c)), cs.map (middle gs)) ∧
    ((∀ p ∈ data.zip gs, ∀ x ∈ p.1, ∃ a ∈ p.2, ∃ b ∈ p.2, a ≤ x ∧ x ≤ b) → (cs.map fun c => charge data weight (inCell gs c)).sum = weight.sum) := by
  obtain ⟨D, hD, h1, h2, h3, h4⟩ := by_dim h
  set G : List ℚ × ℚ × List ℚ → List ℚ := fun d => region d.2.2 d.1 d.2.1 with hG
  have hreg : gs = D.map G := by rw [hgs, regions, ← hD]
  have hs' : ∀ d ∈ D, (G d).Pairwise (· < ·) ∧ 2 ≤ (G d).length := by
    intro d hd
    exact hs _ (by rw [hreg]; exact List.mem_map_of_mem hd)
  have hE : ∀ d ∈ D, ∃ e, binedgesFromBincenters (G d) none = .ok e := by
    intro d hd
    rw [binedges_accepts]
    refine ⟨?_, (hs' d hd).1, fun _ _ h => by cases h⟩
    intro h0
    have := (hs' d hd).2
    rw [h0] at this
    simp at this
  set E : List ℚ × ℚ × List ℚ → List ℚ := fun d => (binedgesFromBincenters (G d) none).toOption.getD [] with hEdef
  have hE : ∀ d ∈ D, binedgesFromBincenters (G d) none = .ok (E d) := by
    intro d hd
    obtain ⟨e, he⟩ := hE d hd
    simp only [hEdef, he, Except.toOption, Option.getD_some]
  have hEl : ∀ d ∈ D, (E d).length - 1 = (G d).length := by
    intro d hd
    have := (binedges_get (hE d hd) (hs' d hd).2).1
    omega
  have hcells : cells (D.map E) = cs := by
    rw [hcs, hreg, cells, List.map_map, List.map_map]
    congr 1
    apply List.map_congr_left
    intro d hd
    simp only [Function.comp, hEl d hd]
  have hcell : ∀ i, ∀ c ∈ cs, cellOf (D.map E) (hit data i) = some c ↔ inCell gs c (hit data i) = true := by
    intro i c hc
    rw [h1, zip_point, hreg, inCell_zip D c G fun d => d.1.getD i 0]
    apply cellOf_iff D E (fun d => d.1.getD i 0)
      (fun d k => decide (low (G d) k ≤ d.1.getD i 0 ∧ (d.1.getD i 0 < high (G d) k ∨ d.1.getD i 0 = high (G d) k ∧ k + 1 = (G d).length))) _ (by rw [hcells]; exact hc)
    intro d hd k hk
    rw [decide_eq_true_eq]
    exact (binedges_bin (hE d hd) (hs' d hd).2 (hs' d hd).1 _).1 k hk
  have hvals : cs.map (fun c => charge data weight (inCell gs c)) = (cells (D.map E)).map (content (D.map E) data weight) := by
    rw [hcells]
    apply List.map_congr_left
    intro c hc
    rw [charge, content]
    congr 2
    apply List.filter_congr
    intro i hi
    rw [Bool.eq_iff_iff, decide_eq_true_eq, point_hit]
    exact (hcell i c hc).symm
  constructor
  · have hr : ranges data widths = .ok (D.map fun d => extent d.1 d.2.1) := by rw [h1, h2]; exact ranges_ok h.some D h4
    have hb : allBins .nointerpolation (D.map fun d => extent d.1 d.2.1) widths grids = .ok (D.map E) := by
      rw [allBins, if_pos rfl, h3, List.zip_map']
      apply mapM_map_ok
      intro d hd
      rw [inside_region]
      exact hE d hd
    have hh : histogramdd (D.map E) data weight = .ok (cs.map fun c => charge data weight (inCell gs c)) := by
      rw [histogramdd, if_neg, if_neg, if_neg, hvals]
      · rw [List.any_map]
        simp only [Bool.not_eq_true, List.any_eq_false]
        intro d hd
        simp only [Function.comp, Bool.not_eq_true, List.any_eq_false]
        rintro ⟨a, b⟩ hab
        have hse := strict_edges (hE d hd) (hs' d hd).2 (hs' d hd).1
        obtain ⟨k, hk⟩ := List.mem_iff_getElem?.1 hab
        obtain ⟨g1, g2⟩ := List.getElem?_zip_eq_some.1 hk
        rw [List.getElem?_tail] at g2
        obtain ⟨l1, rfl⟩ := List.getElem?_eq_some_iff.1 g1
        obtain ⟨l2, rfl⟩ := List.getElem?_eq_some_iff.1 g2
        simp only [decide_eq_false_iff_not, not_lt]
        exact (List.pairwise_iff_getElem.1 hse k (k + 1) l1 l2 (by omega)).le
      · simp only [Bool.not_eq_true, List.any_eq_false]
        intro c hc
        simp [h.hits c hc]
      · rw [h1]; simp
    rw [deconvolutionInput, hr, Except.bind, hb]
    simp only [Except.bind, hh, if_true]
    congr 2
    have e1 : (D.map E).map shiftToBinCenters = D.map fun d => (List.range (G d).length).map fun k => (low (G d) k + high (G d) k) / 2 := by
      rw [List.map_map]
      apply List.map_congr_left
      intro d hd
      rw [Function.comp_apply, ← range_getD (shiftToBinCenters (E d)) 0, (shift_midpoints _).1, hEl d hd]
      apply List.map_congr_left
      intro k hk
      obtain ⟨g1, g2⟩ := (binedges_get (hE d hd) (hs' d hd).2).2 k (List.mem_range.1 hk)
      exact shift_getD g1 g2
    rw [e1, product_map D (fun d => List.range (G d).length) fun d k => (low (G d) k + high (G d) k) / 2, hcs, hreg, List.map_map]
    apply List.map_congr_left
    intro c _
    exact (middle_zip D c G).symm
  · intro hcov
    rw [hvals]
    have := sum_cells (cells (D.map E)) (cells_nodup _) (List.range weight.length) (fun i => cellOf (D.map E) (point data i)) (fun i => weight.getD i 0)
    unfold content
    rw [this, ← sum_weight weight]
    congr 2
    rw [List.filter_eq_self]
    intro i hi
    rw [decide_eq_true_eq, point_hit, h1, zip_point]
    apply cellOf_some
    intro d hd
    apply (binedges_bin (hE d hd) (hs' d hd).2 (hs' d hd).1 _).2
    have hx : d.1.getD i 0 ∈ d.1 := by
      have : i < d.1.length := by rw [(h4 d hd).1]; exact List.mem_range.1 hi
      rw [List.getD_eq_getElem?_getD, List.getElem?_eq_getElem this]
      exact List.getElem_mem this
    refine hcov (d.1, G d) ?_ _ hx
    rw [hreg]
    have hz : data.zip (D.map G) = D.map fun d => (d.1, G d) := by
      conv_lhs => rw [h1]
      rw [List.zip_map']
    rw [hz]
    exact List.mem_map_of_mem hd

/-! Two hits on a line of pitch 10 and a detector with points every 5. -/

/-- No interpolation is done. -/
def noGrid : Method → List (List ℚ) → List ℚ → Except PyErr (List ℚ → Option ℚ) := fun _ _ _ => .error .valueError

/-- Interpolation that gives everywhere the total charge. -/
def sumGrid : Method → List (List ℚ) → List ℚ → Except PyErr (List ℚ → Option ℚ) := fun _ _ vs => .ok fun _ => some vs.sum

example : Fit [10] [[0, 5, 10, 15, 20, 25, 30, 35, 40]] [[10, 20]] [3, 4] := by
  refine ⟨rfl, rfl, ?_, by decide, ?_⟩
  · simp
  · simp

example : regions [[0, 5, 10, 15, 20, 25, 30, 35, 40]] [[10, 20]] [10] = [[0, 5, 10, 15, 20, 25, 30, 35]] := by decide +kernel

example : deconvolutionInput noGrid .nointerpolation [10] [[0, 5, 10, 15, 20, 25, 30, 35, 40]] [[10, 20]] [3, 4] =
    .ok ([0, 0, 3, 0, 4, 0, 0, 0], [[5 / 4], [5], [10], [15], [20], [25], [30], [135 / 4]]) := by decide +kernel

example : deconvolutionInput sumGrid .cubic [10] [[0, 5, 10]] [[10, 20]] [3, 4] = .ok ([7, 7, 7], [[0], [5], [10]]) := by decide +kernel

/-- In two dimensions. -/
example : deconvolutionInput noGrid .nointerpolation [2, 2] [[0, 2], [0, 2]] [[0, 2, 2], [2, 0, 0]] [3, 4, 5] =
    .ok ([0, 3, 9, 0], [[1 / 2, 1 / 2], [1 / 2, 3 / 2], [3 / 2, 1 / 2], [3 / 2, 3 / 2]]) := by decide +kernel

/-- Finding (C98): the positions given for the cells at the border of the region are not the points of the detector (the last one is at 35, not at 33.75). -/
theorem border_displaced : ∃ (grids data : List (List ℚ)) (weight : List ℚ) (hs : List ℚ) (pts : List (List ℚ)), Fit [10] grids data weight ∧
    deconvolutionInput noGrid .nointerpolation [10] grids data weight = .ok (hs, pts) ∧ pts ≠ product (regions grids data [10]) := by
  refine ⟨[[0, 5, 10, 15, 20, 25, 30, 35, 40]], [[10, 20]], [3, 4], [0, 0, 3, 0, 4, 0, 0, 0], [[5 / 4], [5], [10], [15], [20], [25], [30], [135 / 4]], ⟨rfl, rfl, ?_, by decide, ?_⟩,
    by decide +kernel, by decide +kernel⟩
  · simp
  · simp

/-- **C98**: the inner cells, in the middle of equally spaced points, are at the points of the detector. -/
theorem inner_cell {g : List ℚ} {s : ℚ} {k : Nat} (h0 : 0 < k) (hk : k + 1 < g.length) (h1 : g.getD (k - 1) 0 = g.getD k 0 - s) (h2 : g.getD (k + 1) 0 = g.getD k 0 + s) :
    (low g k + high g k) / 2 = g.getD k 0 := by
  rw [low, high, if_neg (by omega), if_neg (by omega), h1, h2]
  ring

example : (low [0, 5, 10] 1 + high [0, 5, 10] 1) / 2 = 5 := by decide +kernel

/-- Finding (C98): a hit that is not between points of the detector is lost. -/
theorem charge_lost : deconvolutionInput noGrid .nointerpolation [10] [[0, 10, 20]] [[10, 24]] [3, 4] = .ok ([0, 3, 0], [[5 / 2], [10], [35 / 2]]) := by decide +kernel

/-- **C98**: without hits there is no input. -/
theorem input_empty (gd : Method → List (List ℚ) → List ℚ → Except PyErr (List ℚ → Option ℚ)) (m : Method) (w : ℚ) (ws : List ℚ) (grids data : List (List ℚ)) (weight : List ℚ) :
    deconvolutionInput gd m (w :: ws) grids ([] :: data) weight = .error .valueError := by
  rw [deconvolutionInput, ranges, List.zip_cons_cons, List.mapM_cons]
  rfl

end Verif.DeconvInput
