import Verif.Spec.DeconvInput
import Verif.Lemmas.Hist
import Verif.Lemmas.Edges
import Verif.Lemmas.Lists
import Verif.Props.Core
import Verif.Props.PaolinaTracks
import Mathlib.Control.Monad.Basic
/-!
# C98: the input of the deconvolution
-/
namespace Verif.DeconvInput
open Verif.Voxels Verif.Buffers Verif.Core Spec

theorem mem_product {α : Type} {ls : List (List α)} {c : List α} : c ∈ product ls ↔ List.Forall₂ (fun a l => a ∈ l) c ls := by
  induction ls generalizing c with
  | nil => simp [product]
  | cons l ls ih =>
    simp only [product, List.mem_flatMap, List.mem_map]
    constructor
    · rintro ⟨x, hx, t, ht, rfl⟩
      exact .cons hx (ih.1 ht)
    · intro h
      cases h with
      | cons h1 h2 => exact ⟨_, h1, _, ih.2 h2, rfl⟩

theorem product_nodup {α : Type} {ls : List (List α)} (h : ∀ l ∈ ls, l.Nodup) : (product ls).Nodup := by
  induction ls with
  | nil => simp [product]
  | cons l ls ih =>
    have ih := ih fun x hx => h x (List.mem_cons_of_mem _ hx)
    rw [product, List.nodup_flatMap]
    constructor
    · intro x _
      exact ih.map fun a b hab => (List.cons.inj hab).2
    · refine (h l List.mem_cons_self).imp ?_
      intro a b hab
      rw [Function.onFun, List.disjoint_left]
      intro t ht1 ht2
      obtain ⟨u, _, rfl⟩ := List.mem_map.1 ht1
      obtain ⟨v, _, hv⟩ := List.mem_map.1 ht2
      exact hab (List.cons.inj hv).1.symm

/-- Points by cell. -/
theorem product_map {δ α β : Type} (D : List δ) (ks : δ → List α) (f : δ → α → β) :
    product (D.map fun d => (ks d).map (f d)) = (product (D.map ks)).map fun c => (D.zip c).map fun q => f q.1 q.2 := by
  induction D with
  | nil => simp [product]
  | cons d D ih =>
    simp only [List.map_cons, product, ih, List.flatMap_map, List.map_flatMap]
    congr 1
    funext x
    rw [List.map_map, List.map_map]
    congr 1

theorem sum_cells {κ : Type} [DecidableEq κ] (cs : List κ) (hn : cs.Nodup) (is : List Nat) (cell : Nat → Option κ) (f : Nat → ℚ) :
    (cs.map fun c => ((is.filter fun i => decide (cell i = some c)).map f).sum).sum = ((is.filter fun i => decide (∃ c ∈ cs, cell i = some c)).map f).sum := by
  induction cs with
  | nil => simp
  | cons c cs ih =>
    rw [List.map_cons, List.sum_cons, ih (List.nodup_cons.1 hn).2]
    rw [Hits.sum_filter_ite, Hits.sum_filter_ite, Hits.sum_filter_ite, ← List.sum_map_add]
    congr 1
    apply List.map_congr_left
    intro i _
    have hc := (List.nodup_cons.1 hn).1
    by_cases h : cell i = some c
    · simp [h, hc]
    · simp [h]

theorem point_hit (data : List (List ℚ)) : point data = hit data := rfl

theorem cellOf_iff {δ : Type} (D : List δ) (e : δ → List ℚ) (x : δ → ℚ) (P : δ → Nat → Bool) (h : ∀ d ∈ D, ∀ k < (e d).length - 1, histBin (e d) (x d) = some k ↔ P d k = true)
    {c : List Nat} (hc : c ∈ cells (D.map e)) : cellOf (D.map e) (D.map x) = some c ↔ ((D.zip c).all fun q => P q.1 q.2) = true := by
  rw [cells, mem_product] at hc
  induction D generalizing c with
  | nil =>
    cases hc
    simp [cellOf]
  | cons d D ih =>
    rw [List.map_cons, List.map_cons] at hc
    cases hc with
    | @cons k _ c' _ h1 h2 =>
      have ih := ih (fun d hd => h d (List.mem_cons_of_mem _ hd)) h2
      have h0 := h d List.mem_cons_self k (List.mem_range.1 h1)
      simp only [cellOf, List.map_cons, List.zip_cons_cons, List.mapM_cons, List.all_cons, Bool.and_eq_true] at ih ⊢
      rw [← ih, ← h0]
      cases histBin (e d) (x d) with
      | none => simp
      | some k' =>
        cases (List.mapM (fun q : List ℚ × ℚ => histBin q.1 q.2) ((D.map e).zip (D.map x))) with
        | none => simp
        | some t => simp

/-- The arguments by dimension. -/
theorem by_dim {widths : List ℚ} {grids data : List (List ℚ)} {weight : List ℚ} (h : Fit widths grids data weight) :
    ∃ D : List (List ℚ × ℚ × List ℚ), D = data.zip (widths.zip grids) ∧ data = D.map (fun d => d.1) ∧ widths = D.map (fun d => d.2.1) ∧ grids = D.map (fun d => d.2.2) ∧
      ∀ d ∈ D, d.1.length = weight.length ∧ 0 < d.2.1 := by
  have h1 := h.dims
  have h2 := h.grid
  refine ⟨data.zip (widths.zip grids), rfl, ?_, ?_, ?_, ?_⟩
  · rw [List.map_fst_zip]; simp; omega
  · have : (fun d : List ℚ × ℚ × List ℚ => d.2.1) = Prod.fst ∘ Prod.snd := rfl
    rw [this, ← List.map_map, List.map_snd_zip (by simp; omega), List.map_fst_zip (by omega)]
  · have : (fun d : List ℚ × ℚ × List ℚ => d.2.2) = Prod.snd ∘ Prod.snd := rfl
    rw [this, ← List.map_map, List.map_snd_zip (by simp; omega), List.map_snd_zip (by omega)]
  · intro d hd
    have := List.of_mem_zip hd
    exact ⟨h.hits _ this.1, h.pos _ (List.of_mem_zip this.2).1⟩

theorem mapM_map_ok {δ β γ : Type} (D : List δ) (g : δ → β) (f : β → Except PyErr γ) (r : δ → γ) (h : ∀ d ∈ D, f (g d) = .ok (r d)) : (D.map g).mapM f = .ok (D.map r) := by
  rw [mapM_ok_iff, List.forall₂_map_left_iff, List.forall₂_map_right_iff, List.forall₂_same]
  exact h

theorem ranges_ok {weight : List ℚ} (hw : weight ≠ []) (D : List (List ℚ × ℚ × List ℚ)) (h : ∀ d ∈ D, d.1.length = weight.length ∧ 0 < d.2.1) :
    ranges (D.map fun d => d.1) (D.map fun d => d.2.1) = .ok (D.map fun d => extent d.1 d.2.1) := by
  rw [ranges, List.zip_map']
  apply mapM_map_ok
  intro d hd
  rw [if_neg]
  intro h0
  have := (h d hd).1
  rw [h0] at this
  exact hw (List.length_eq_zero_iff.1 this.symm)

theorem inside_region (d : List ℚ × ℚ × List ℚ) : inside (extent d.1 d.2.1) d.2.2 = region d.2.2 d.1 d.2.1 := by
  rw [inside, region, extent, inRange]
  generalize d.2.2 = g
  induction g with
  | nil => rfl
  | cons x g ih =>
    rw [List.map_cons, List.zip_cons_cons]
    by_cases hx : npMin d.1 - 3 / 2 * d.2.1 ≤ x ∧ x < npMax d.1 + 3 / 2 * d.2.1 + 1 / 2 ^ 23
    · rw [List.filter_cons_of_pos (by simpa [eps32] using hx), List.filter_cons_of_pos (by simpa using hx), List.map_cons, ih]
    · rw [List.filter_cons_of_neg (by simpa [eps32] using hx), List.filter_cons_of_neg (by simpa using hx), ih]

theorem arange_grid {a b s : ℚ} (hs : 0 < s) (h : a < b) : arange a b s = grid a s (⌈(b - a) / s⌉.toNat - 1) ∧ 1 ≤ ⌈(b - a) / s⌉.toNat := by
  have hp : 0 < (b - a) / s := div_pos (by linarith) hs
  have h1 : 1 ≤ ⌈(b - a) / s⌉.toNat := by
    have := Int.ceil_pos.2 hp
    omega
  refine ⟨?_, h1⟩
  rw [arange, grid, Nat.sub_add_cancel h1]

theorem shift_arange {a b s : ℚ} (hs : 0 < s) : shiftToBinCenters (arange a b s) = (List.range (⌈(b - s / 2 - (a + s / 2)) / s⌉.toNat)).map fun j : Nat => a + s / 2 + j * s := by
  have hc : ⌈(b - s / 2 - (a + s / 2)) / s⌉.toNat = ⌈(b - a) / s⌉.toNat - 1 := by
    have : (b - s / 2 - (a + s / 2)) / s = (b - a) / s - 1 := by field_simp; ring
    rw [this, Int.ceil_sub_one]
    omega
  apply List.ext_getElem?
  intro k
  rw [shift_getElem?, hc, arange]
  by_cases hk : k < ⌈(b - a) / s⌉.toNat - 1
  · have h1 : k < ⌈(b - a) / s⌉.toNat := by omega
    have h2 : k + 1 < ⌈(b - a) / s⌉.toNat := by omega
    simp only [List.getElem?_map, List.getElem?_range hk, List.getElem?_range h1, List.getElem?_range h2, Option.map_some]
    push_cast
    congr 1
    ring
  · have h2 : ¬ k + 1 < ⌈(b - a) / s⌉.toNat := by omega
    have h3 : (List.range ⌈(b - a) / s⌉.toNat)[k + 1]? = none := by simp; omega
    have h4 : (List.range (⌈(b - a) / s⌉.toNat - 1))[k]? = none := by simp; omega
    simp only [List.getElem?_map, h3, h4, Option.map_none]
    cases (List.range ⌈(b - a) / s⌉.toNat)[k]? <;> rfl

/-- The edges of one dimension. -/
def edges (d : List ℚ × ℚ × List ℚ) : List ℚ := arange (extent d.1 d.2.1).1 (extent d.1 d.2.1).2 d.2.1

theorem extremes {c : List ℚ} {x : ℚ} (hx : x ∈ c) : npMin c ≤ x ∧ x ≤ npMax c := ⟨npMin_le hx, le_npMax hx⟩

theorem edges_centres {d : List ℚ × ℚ × List ℚ} (hw : 0 < d.2.1) : shiftToBinCenters (edges d) = axis d.1 d.2.1 := by
  rw [edges, shift_arange hw, axis, extent]
  simp only [eps32]
  have e1 : npMin d.1 - 3 / 2 * d.2.1 + d.2.1 / 2 = npMin d.1 - d.2.1 := by ring
  have e2 : npMax d.1 + 3 / 2 * d.2.1 + 1 / 2 ^ 23 - d.2.1 / 2 = npMax d.1 + d.2.1 + 1 / 2 ^ 23 := by ring
  rw [e1, e2]

/-- The bin of a hit in one dimension. -/
theorem edges_bin {d : List ℚ × ℚ × List ℚ} (hw : 0 < d.2.1) {x : ℚ} (hx : x ∈ d.1) :
    (∀ k < (edges d).length - 1, histBin (edges d) x = some k ↔ (axis d.1 d.2.1).getD k 0 - d.2.1 / 2 ≤ x ∧ x < (axis d.1 d.2.1).getD k 0 + d.2.1 / 2) ∧
    ∃ k < (edges d).length - 1, histBin (edges d) x = some k := by
  obtain ⟨hlo, hhi⟩ := extremes hx
  have hab : (extent d.1 d.2.1).1 < (extent d.1 d.2.1).2 := by
    simp only [extent, eps32]; norm_num; linarith
  obtain ⟨hg, h1⟩ := arange_grid hw hab
  set N := ⌈((extent d.1 d.2.1).2 - (extent d.1 d.2.1).1) / d.2.1⌉.toNat with hN
  have hNge : ((extent d.1 d.2.1).2 - (extent d.1 d.2.1).1) / d.2.1 ≤ (N : ℚ) := by
    have := Int.le_ceil (((extent d.1 d.2.1).2 - (extent d.1 d.2.1).1) / d.2.1)
    have h2 : (⌈((extent d.1 d.2.1).2 - (extent d.1 d.2.1).1) / d.2.1⌉ : ℚ) ≤ (N : ℚ) := by
      have : ⌈((extent d.1 d.2.1).2 - (extent d.1 d.2.1).1) / d.2.1⌉ ≤ (N : Int) := by omega
      exact_mod_cast this
    linarith
  rw [div_le_iff₀ hw] at hNge
  have hcast : ((N - 1 : Nat) : ℚ) = N - 1 := by push_cast [h1]; ring
  have hlast : x < (extent d.1 d.2.1).1 + ((N - 1 : Nat) : ℚ) * d.2.1 := by
    rw [hcast]
    simp only [extent, eps32] at hNge ⊢
    norm_num at hNge ⊢
    nlinarith
  have hlen : (edges d).length - 1 = N - 1 := by rw [edges, hg]; simp [grid]
  have hkey : ∀ k, histBin (edges d) x = some k ↔ k < N - 1 ∧ (extent d.1 d.2.1).1 + k * d.2.1 ≤ x ∧ x < (extent d.1 d.2.1).1 + (k + 1) * d.2.1 := by
    intro k
    rw [edges, hg, histBin_grid hw]
    constructor
    · rintro ⟨g1, g2, g3 | ⟨_, g3⟩⟩
      · exact ⟨g1, g2, g3⟩
      · exact absurd g3 (ne_of_lt hlast)
    · rintro ⟨g1, g2, g3⟩
      exact ⟨g1, g2, .inl g3⟩
  constructor
  · intro k hk
    rw [hlen] at hk
    have hax : (axis d.1 d.2.1).getD k 0 = npMin d.1 - d.2.1 + k * d.2.1 := by
      have hl : (axis d.1 d.2.1).length = N - 1 := by rw [← edges_centres hw, (shift_midpoints _).1, hlen]
      have hk' : k < ⌈(npMax d.1 + d.2.1 + 1 / 2 ^ 23 - (npMin d.1 - d.2.1)) / d.2.1⌉.toNat := by
        have := hl
        rw [axis, List.length_map, List.length_range] at this
        omega
      rw [axis, List.getD_eq_getElem?_getD, List.getElem?_map, List.getElem?_range hk']
      rfl
    rw [hkey, hax]
    simp only [extent]
    constructor
    · rintro ⟨_, g2, g3⟩; constructor <;> linarith
    · rintro ⟨g2, g3⟩; exact ⟨hk, by linarith, by linarith⟩
  · rw [hlen]
    obtain ⟨k, hk, hb⟩ := (histBin_grid_some (a := (extent d.1 d.2.1).1) (s := d.2.1) (x := x) (n := N - 1) hw (by
      rcases Nat.eq_zero_or_pos (N - 1) with h0 | h0
      · rw [h0] at hlast
        simp only [extent] at hlast
        norm_num at hlast
        linarith
      · exact h0)).2 ⟨by simp only [extent]; linarith, hlast.le⟩
    exact ⟨k, hk, by rw [edges, hg]; exact hb⟩

theorem edges_sorted {d : List ℚ × ℚ × List ℚ} (hw : 0 < d.2.1) : ((edges d).zip (edges d).tail).any (fun p => decide (p.2 < p.1)) = false := by
  rw [List.any_eq_false]
  rintro ⟨a, b⟩ hab
  obtain ⟨k, hk⟩ := List.mem_iff_getElem?.1 hab
  obtain ⟨h1, h2⟩ := List.getElem?_zip_eq_some.1 hk
  rw [List.getElem?_tail] at h2
  simp only [edges, arange, List.getElem?_map, Option.map_eq_some_iff] at h1 h2
  obtain ⟨i, hi, rfl⟩ := h1
  obtain ⟨j, hj, rfl⟩ := h2
  rw [List.getElem?_eq_some_iff] at hi hj
  obtain ⟨_, hi⟩ := hi
  obtain ⟨_, hj⟩ := hj
  simp only [List.getElem_range] at hi hj
  subst hi; subst hj
  simp only [decide_eq_true_eq, not_lt]
  push_cast
  linarith

theorem clip_max (v : Option ℚ) : clip v = max (v.getD 0) 0 := by
  cases v with
  | none => simp [clip]
  | some v =>
    simp only [clip, Option.getD_some]
    split
    · next h => rw [max_eq_right h.le]
    · next h => rw [max_eq_left (not_lt.1 h)]

theorem zip_point {D : List (List ℚ × ℚ × List ℚ)} (i : Nat) : hit (D.map fun d => d.1) i = D.map fun d => d.1.getD i 0 := by
  rw [hit, List.map_map]; rfl

theorem range_getD {α : Type} (l : List α) (z : α) : (List.range l.length).map (fun k => l.getD k z) = l := by
  apply List.ext_getElem?
  intro k
  rw [List.getElem?_map]
  by_cases hk : k < l.length
  · rw [List.getElem?_range hk, Option.map_some, List.getD_eq_getElem?_getD, List.getElem?_eq_getElem hk]; rfl
  · rw [List.getElem?_eq_none (by simpa using hk), List.getElem?_eq_none (by omega)]; rfl

theorem sum_weight (weight : List ℚ) : ((List.range weight.length).map fun i => weight.getD i 0).sum = weight.sum := by
  rw [range_getD]

theorem all_zip_map {δ : Type} (D : List δ) (c : List Nat) (w x : δ → ℚ) (f : δ → Nat → ℚ) :
    inBox (D.map w) ((D.zip c).map fun q => f q.1 q.2) (D.map x) = (D.zip c).all fun q => decide (f q.1 q.2 - w q.1 / 2 ≤ x q.1 ∧ x q.1 < f q.1 q.2 + w q.1 / 2) := by
  induction D generalizing c with
  | nil => simp [inBox]
  | cons d D ih =>
    cases c with
    | nil => simp [inBox]
    | cons k c =>
      have := ih c
      simp only [inBox] at this ⊢
      simp only [List.map_cons, List.zip_cons_cons, List.all_cons, this]

theorem cellOf_some {δ : Type} (D : List δ) (e : δ → List ℚ) (x : δ → ℚ) (h : ∀ d ∈ D, ∃ k < (e d).length - 1, histBin (e d) (x d) = some k) :
    ∃ c ∈ cells (D.map e), cellOf (D.map e) (D.map x) = some c := by
  induction D with
  | nil => exact ⟨[], by simp [cells, product], by simp [cellOf]⟩
  | cons d D ih =>
    obtain ⟨c, h1, h2⟩ := ih fun d hd => h d (List.mem_cons_of_mem _ hd)
    obtain ⟨k, h3, h4⟩ := h d List.mem_cons_self
    refine ⟨k :: c, ?_, ?_⟩
    · rw [cells, mem_product] at h1 ⊢
      exact .cons (List.mem_range.2 h3) h1
    · simp only [cellOf] at h2
      simp only [cellOf, List.map_cons, List.zip_cons_cons, List.mapM_cons, h4, h2]
      rfl

theorem cells_nodup (bins : List (List ℚ)) : (cells bins).Nodup := by
  apply product_nodup
  intro l hl
  obtain ⟨e, _, rfl⟩ := List.mem_map.1 hl
  exact List.nodup_range

/-- **C98**: with interpolation the hits are first binned on the axes of the sensors: each is in one box and all the charge is there; then the charge is interpolated at the points of
the detector in the region of the hits, without NaNs or negative values. -/
theorem input_interpolated (gd : Method → List (List ℚ) → List ℚ → Except PyErr (List ℚ → Option ℚ)) (m : Method) (hm : m ≠ .nointerpolation) (widths : List ℚ)
    (grids data : List (List ℚ)) (weight : List ℚ) (h : Fit widths grids data weight) (pts : List (List ℚ)) (vals : List ℚ)
    (hp : pts = product ((data.zip widths).map fun p => axis p.1 p.2)) (hv : vals = pts.map fun p => charge data weight (inBox widths p)) :
    deconvolutionInput gd m widths grids data weight =
      (gd m pts vals).map (fun f => ((product (regions grids data widths)).map (fun p => max ((f p).getD 0) 0), product (regions grids data widths))) ∧
    (∀ i < weight.length, ∃ p ∈ pts, inBox widths p (hit data i) = true) ∧ vals.sum = weight.sum := by
  obtain ⟨D, hD, h1, h2, h3, h4⟩ := by_dim h
  have hz : data.zip widths = D.map fun d => (d.1, d.2.1) := by rw [h1, h2, List.zip_map']
  have hreg : regions grids data widths = D.map fun d => region d.2.2 d.1 d.2.1 := by rw [regions, ← hD]
  rw [hreg]
  have hpts : pts = (cells (D.map edges)).map fun c => (D.zip c).map fun q => (axis q.1.1 q.1.2.1).getD q.2 0 := by
    rw [hp, hz, List.map_map, cells, List.map_map]
    rw [← product_map D ((fun e : List ℚ => List.range (e.length - 1)) ∘ edges) (fun d k => (axis d.1 d.2.1).getD k 0)]
    congr 1
    apply List.map_congr_left
    intro d hd
    have hl : (edges d).length - 1 = (axis d.1 d.2.1).length := by rw [← edges_centres (h4 d hd).2, (shift_midpoints _).1]
    simp only [Function.comp, hl]
    exact (range_getD _ _).symm
  have hmem : ∀ i < weight.length, ∀ d ∈ D, d.1.getD i 0 ∈ d.1 := by
    intro i hi d hd
    have : i < d.1.length := by rw [(h4 d hd).1]; exact hi
    rw [List.getD_eq_getElem?_getD, List.getElem?_eq_getElem this]
    exact List.getElem_mem this
  have hcell : ∀ i < weight.length, ∀ c ∈ cells (D.map edges),
      cellOf (D.map edges) (hit data i) = some c ↔ inBox widths ((D.zip c).map fun q => (axis q.1.1 q.1.2.1).getD q.2 0) (hit data i) = true := by
    intro i hi c hc
    rw [h1, h2, zip_point, all_zip_map D c (fun d => d.2.1) (fun d => d.1.getD i 0) fun d k => (axis d.1 d.2.1).getD k 0]
    apply cellOf_iff D edges (fun d => d.1.getD i 0)
      (fun d k => decide ((axis d.1 d.2.1).getD k 0 - d.2.1 / 2 ≤ d.1.getD i 0 ∧ d.1.getD i 0 < (axis d.1 d.2.1).getD k 0 + d.2.1 / 2)) _ hc
    intro d hd k hk
    rw [decide_eq_true_eq]
    exact (edges_bin (h4 d hd).2 (hmem i hi d hd)).1 k hk
  have hsome : ∀ i < weight.length, ∃ c ∈ cells (D.map edges), cellOf (D.map edges) (hit data i) = some c := by
    intro i hi
    rw [h1, zip_point]
    apply cellOf_some
    intro d hd
    exact (edges_bin (h4 d hd).2 (hmem i hi d hd)).2
  have hvals : vals = (cells (D.map edges)).map (content (D.map edges) data weight) := by
    rw [hv, hpts, List.map_map]
    apply List.map_congr_left
    intro c hc
    rw [Function.comp_apply, charge, content]
    congr 2
    apply List.filter_congr
    intro i hi
    rw [Bool.eq_iff_iff, decide_eq_true_eq, point_hit]
    exact (hcell i (List.mem_range.1 hi) c hc).symm
  refine ⟨?_, ?_, ?_⟩
  · have hr : ranges data widths = .ok (D.map fun d => extent d.1 d.2.1) := by rw [h1, h2]; exact ranges_ok h.some D h4
    have hb : allBins m (D.map fun d => extent d.1 d.2.1) widths grids = .ok (D.map edges) := by
      rw [allBins, if_neg hm, h2, List.zip_map']
      apply mapM_map_ok
      intro d hd
      rw [regular, if_neg (ne_of_gt (h4 d hd).2)]
      rfl
    have hh : histogramdd (D.map edges) data weight = .ok vals := by
      rw [histogramdd, if_neg, if_neg, if_neg, hvals]
      · rw [List.any_map]
        simp only [Bool.not_eq_true, List.any_eq_false]
        intro d hd
        simp only [Function.comp, Bool.not_eq_true]
        exact edges_sorted (h4 d hd).2
      · simp only [Bool.not_eq_true, List.any_eq_false]
        intro c hc
        simp [h.hits c hc]
      · rw [h1]; simp
    rw [deconvolutionInput, hr, Except.bind, hb]
    simp only [Except.bind, hh, if_neg hm]
    have e1 : product ((D.map edges).map shiftToBinCenters) = pts := by
      rw [hp, hz, List.map_map, List.map_map]
      congr 1
      apply List.map_congr_left
      intro d hd
      exact edges_centres (h4 d hd).2
    have e2 : ((D.map fun d => extent d.1 d.2.1).zip grids).map (fun p => inside p.1 p.2) = D.map fun d => region d.2.2 d.1 d.2.1 := by
      rw [h3, List.zip_map', List.map_map]
      apply List.map_congr_left
      intro d _
      exact inside_region d
    rw [e1, e2]
    simp only [clip_max]
  · intro i hi
    obtain ⟨c, hc, he⟩ := hsome i hi
    refine ⟨_, ?_, (hcell i hi c hc).1 he⟩
    rw [hpts]
    exact List.mem_map_of_mem hc
  · rw [hvals]
    have := sum_cells (cells (D.map edges)) (cells_nodup _) (List.range weight.length) (fun i => cellOf (D.map edges) (point data i)) (fun i => weight.getD i 0)
    unfold content
    rw [this, ← sum_weight weight]
    congr 2
    rw [List.filter_eq_self]
    intro i hi
    rw [decide_eq_true_eq]
    exact hsome i (List.mem_range.1 hi)

end Verif.DeconvInput
