import Verif.Spec.Profile
import Verif.Lemmas.FrameNat
import Verif.Props.KrMap
import Verif.Props.Corrections
/-!
# C79: profiles
-/
namespace Verif.Profile
open Verif.Voxels Verif.Frame
open Verif.KrMap (InPart digitize_iff inPart_range centre part_unique)

theorem within_iff {r : ℚ × ℚ} {v : ℚ} : within r v = true ↔ r.1 ≤ v ∧ v < r.2 := by simp [within]

theorem match_range (yr : Option (ℚ × ℚ)) (v : ℚ) : withinOpt yr v = true ↔ InRange yr v := by
  cases yr with
  | none => simp [InRange, withinOpt]
  | some r =>
    rcases r with ⟨lo, hi⟩
    rw [withinOpt, within_iff, InRange]
    constructor
    · intro h _ _ e; cases e; exact h
    · intro h; exact h lo hi rfl

theorem dev2_eq (std : Bool) (vs : List ℚ) : dev2 std vs = deviation2 std vs := by
  rw [dev2, deviation2, var, mean, ← average]
  by_cases h : vs.length ≤ 1
  · rw [if_pos h, if_pos (by omega)]; rfl
  · rw [if_neg h, if_neg (by omega)]
    cases std <;> simp

theorem shift_linspace (r : ℚ × ℚ) (n : Nat) : Core.shiftToBinCenters (linspace r.1 r.2 n) = (List.range n).map fun i : Nat => centre r n i := Corrections.centres_eq

/-- The number of the bin of a value of the range. -/
theorem number_iff {r : ℚ × ℚ} {n : Nat} (hr : r.1 < r.2) (hn : 0 < n) {v : ℚ} (hv : r.1 ≤ v ∧ v < r.2) (k : Nat) :
    (searchRight (linspace r.1 r.2 n) v : Int) = (k : Int) + 1 ↔ k < n ∧ InPart r n k v := by
  rw [← digitize_iff hr hn hv k]
  omega

theorem number_exists {r : ℚ × ℚ} {n : Nat} (hr : r.1 < r.2) (hn : 0 < n) {v : ℚ} (hv : r.1 ≤ v ∧ v < r.2) : ∃ k : Nat, (searchRight (linspace r.1 r.2 n) v : Int) = (k : Int) + 1 := by
  obtain ⟨k, hk, _⟩ := part_unique hr hn hv
  exact ⟨k, (number_iff hr hn hv k).2 hk⟩

theorem mem_select {r : ℚ × ℚ} {yr : Option (ℚ × ℚ)} {data : List (ℚ × ℚ)} {p : ℚ × ℚ} : p ∈ select r yr data ↔ p ∈ data ∧ (r.1 ≤ p.1 ∧ p.1 < r.2) ∧ InRange yr p.2 := by
  rw [select, List.mem_filter, List.mem_filter, within_iff, match_range, and_assoc]

theorem groups_eq {r : ℚ × ℚ} {n : Nat} (hr : r.1 < r.2) (hn : 0 < n) (yr : Option (ℚ × ℚ)) (data : List (ℚ × ℚ)) :
    ∃ ks : List Nat, ks.Pairwise (· < ·) ∧ (∀ k, k ∈ ks ↔ k < n ∧ values data n r yr k ≠ []) ∧ groups r n (select r yr data) = ks.map fun k : Nat => ((k : Int) + 1, values data n r yr k) := by
  obtain ⟨ks, h1, h2, h3⟩ := groupBy_nat (fun p : ℚ × ℚ => (searchRight (linspace r.1 r.2 n) p.1 : Int)) (select r yr data) (by
    intro p hp
    exact number_exists hr hn (mem_select.1 hp).2.1)
  have hv : ∀ k : Nat, k < n → ((select r yr data).filter fun p => decide ((searchRight (linspace r.1 r.2 n) p.1 : Int) = (k : Int) + 1)).map Prod.snd = values data n r yr k := by
    intro k hk
    rw [values, select, List.filter_filter, List.filter_filter]
    congr 1
    apply List.filter_congr
    intro p _
    rw [Bool.eq_iff_iff, Bool.and_eq_true, Bool.and_eq_true, decide_eq_true_iff, decide_eq_true_iff, within_iff, match_range]
    constructor
    · rintro ⟨⟨g1, g2⟩, g3⟩
      exact ⟨((number_iff hr hn g3 k).1 g1).2, g2⟩
    · rintro ⟨g1, g2⟩
      have := inPart_range hr hk g1
      exact ⟨⟨(number_iff hr hn this k).2 ⟨hk, g1⟩, g2⟩, this⟩
  have hks : ∀ k, k ∈ ks ↔ k < n ∧ values data n r yr k ≠ [] := by
    intro k
    rw [h2]
    constructor
    · rintro ⟨p, hp, he⟩
      obtain ⟨g1, g2, g3⟩ := mem_select.1 hp
      have hk := (number_iff hr hn g2 k).1 he
      refine ⟨hk.1, ?_⟩
      rw [← hv k hk.1]
      intro h0
      rw [List.map_eq_nil_iff, List.filter_eq_nil_iff] at h0
      exact h0 p hp (decide_eq_true he)
    · rintro ⟨hk, hne⟩
      rw [← hv k hk, Ne, List.map_eq_nil_iff, List.filter_eq_nil_iff] at hne
      push Not at hne
      obtain ⟨p, hp, he⟩ := hne
      exact ⟨p, hp, of_decide_eq_true he⟩
  refine ⟨ks, h1, hks, ?_⟩
  rw [groups, h3, List.map_map]
  apply List.map_congr_left
  intro k hk
  simp only [Function.comp_apply, List.headD_cons]
  rw [hv k ((hks k).1 hk).1]

theorem mapM_some {α β : Type} (f : α → Option β) (g : α → β) : ∀ (l : List α), (∀ a ∈ l, f a = some (g a)) → l.mapM f = some (l.map g)
  | [], _ => rfl
  | a :: l, h => by
    rw [List.mapM_cons, h a (by simp), mapM_some f g l (fun b hb => h b (List.mem_cons_of_mem _ hb))]
    rfl

/-- **C79** The profile without empty bins: one point for each bin (closed on the left) of the range that has points (with y in its range), in order: the centre of the bin, and the average and deviation of the values y. -/
theorem profile_dropped (data : List (ℚ × ℚ)) (n : Nat) (hn : 0 < n) (lo hi : ℚ) (hr : lo < hi) (yr : Option (ℚ × ℚ)) (std : Bool) :
    ∃ ks : List Nat, ks.Pairwise (· < ·) ∧ (∀ k, k ∈ ks ↔ k < n ∧ values data n (lo, hi) yr k ≠ []) ∧
      profileX data n (some (lo, hi)) yr std true = .ok (ks.map fun k : Nat => ⟨centre (lo, hi) n k, some (average (values data n (lo, hi) yr k)), deviation2 std (values data n (lo, hi) yr k)⟩) := by
  obtain ⟨ks, h1, h2, h3⟩ := groups_eq (r := (lo, hi)) hr hn yr data
  refine ⟨ks, h1, h2, ?_⟩
  rw [profileX]
  simp only [rangeOf, if_true]
  rw [h3, shift_linspace (lo, hi) n, mapM_some _ (fun g : Int × List ℚ => (⟨centre (lo, hi) n (g.1 - 1).toNat, some (mean g.2), dev2 std g.2⟩ : Point))]
  · simp only [List.map_map]
    congr 1
    apply List.map_congr_left
    intro k _
    simp only [Function.comp_apply, dev2_eq]
    rw [show ((k : Int) + 1 - 1).toNat = k by omega]
    rfl
  · intro g hg
    obtain ⟨k, hk, rfl⟩ := List.mem_map.1 hg
    have hkn := ((h2 k).1 hk).1
    simp only
    rw [show ((k : Int) + 1 - 1).toNat = k by omega, List.getElem?_map, List.getElem?_range hkn]
    rfl

example : profileX [(1, 5), (7, 9), (0, 7), (10, 100), (6, 1)] 5 (some (0, 10)) none true true = .ok [⟨1, some 6, some 2⟩, ⟨7, some 5, some 32⟩] := by decide +kernel

/-- **C79** The profile with all the bins: one point for each, with NaN in those that are empty. -/
theorem profile_full (data : List (ℚ × ℚ)) (n : Nat) (hn : 0 < n) (lo hi : ℚ) (hr : lo < hi) (yr : Option (ℚ × ℚ)) (std : Bool) :
    profileX data n (some (lo, hi)) yr std false = .ok ((List.range n).map fun k : Nat => ⟨centre (lo, hi) n k,
      if values data n (lo, hi) yr k = [] then none else some (average (values data n (lo, hi) yr k)), deviation2 std (values data n (lo, hi) yr k)⟩) := by
  obtain ⟨ks, h1, h2, h3⟩ := groups_eq (r := (lo, hi)) hr hn yr data
  rw [profileX]
  simp only [rangeOf, Bool.false_eq_true, if_false]
  rw [h3, shift_linspace (lo, hi) n]
  congr 1
  apply List.ext_getElem?
  intro k
  rw [List.getElem?_map, List.getElem?_map, List.getElem?_zipIdx, List.getElem?_map]
  by_cases hk : k < n
  · rw [List.getElem?_range hk]
    simp only [Option.map_some, Nat.zero_add, Option.some.injEq]
    by_cases hv : values data n (lo, hi) yr k = []
    · have hnone : (ks.map fun k : Nat => ((k : Int) + 1, values data n (lo, hi) yr k)).find? (fun g => decide (g.1 = (k : Int) + 1)) = none := by
        rw [List.find?_eq_none]
        intro g hg he
        obtain ⟨k', hk', rfl⟩ := List.mem_map.1 hg
        have : k' = k := by
          have := of_decide_eq_true he
          simp only at this
          omega
        subst this
        exact ((h2 k').1 hk').2 hv
      rw [hnone, hv]
      rfl
    · have hsome : (ks.map fun k : Nat => ((k : Int) + 1, values data n (lo, hi) yr k)).find? (fun g => decide (g.1 = (k : Int) + 1)) = some ((k : Int) + 1, values data n (lo, hi) yr k) := by
        cases hf : (ks.map fun k : Nat => ((k : Int) + 1, values data n (lo, hi) yr k)).find? (fun g => decide (g.1 = (k : Int) + 1)) with
        | none =>
          rw [List.find?_eq_none] at hf
          exact absurd (decide_eq_true rfl) (hf _ (List.mem_map_of_mem ((h2 k).2 ⟨hk, hv⟩)))
        | some g =>
          have he : g.1 = (k : Int) + 1 := by simpa using List.find?_some hf
          obtain ⟨k', _, rfl⟩ := List.mem_map.1 (List.mem_of_find?_eq_some hf)
          have : k' = k := by
            simp only at he
            omega
          rw [this]
      rw [hsome, if_neg hv]
      simp only [dev2_eq]
      rfl
  · rw [List.getElem?_eq_none (by simpa using hk)]
    rfl

example : profileX [(1, 5), (7, 9), (0, 7), (10, 100), (6, 1)] 5 (some (0, 10)) (some (0, 8)) false false =
    .ok [⟨1, some 6, some 1⟩, ⟨3, none, none⟩, ⟨5, none, none⟩, ⟨7, some 1, none⟩, ⟨9, none, none⟩] := by decide +kernel

/-- **C79** Each point with x and y in the ranges is in exactly one bin. -/
theorem profile_partition (data : List (ℚ × ℚ)) (n : Nat) (hn : 0 < n) (lo hi : ℚ) (hr : lo < hi) (yr : Option (ℚ × ℚ)) :
    ((List.range n).flatMap (values data n (lo, hi) yr)).Perm ((data.filter fun p => decide ((lo ≤ p.1 ∧ p.1 < hi) ∧ InRange yr p.2)).map Prod.snd) := by
  have hp := Sources.perm_groups (fun p : ℚ × ℚ => (searchRight (linspace lo hi n) p.1 : Int)) ((List.range n).map fun k : Nat => (k : Int) + 1)
    (data.filter fun p => decide ((lo ≤ p.1 ∧ p.1 < hi) ∧ InRange yr p.2)) (by
      rw [List.nodup_map_iff_inj_on List.nodup_range]
      intro a _ b _ h
      omega) (by
      intro p hp
      rw [List.mem_filter, decide_eq_true_iff] at hp
      obtain ⟨k, hk, _⟩ := part_unique (r := (lo, hi)) hr hn hp.2.1
      exact List.mem_map.2 ⟨k, List.mem_range.2 hk.1, ((number_iff (r := (lo, hi)) hr hn hp.2.1 k).2 hk).symm⟩)
  have hp2 := hp.map Prod.snd
  refine List.Perm.trans (List.Perm.of_eq ?_) hp2
  rw [List.map_flatten, List.map_map, List.map_map, List.flatMap_def]
  congr 1
  apply List.map_congr_left
  intro k hk
  simp only [Function.comp_apply, values]
  rw [List.filter_filter]
  congr 1
  apply List.filter_congr
  intro p _
  rw [Bool.eq_iff_iff, Bool.and_eq_true, decide_eq_true_iff, beq_iff_eq, decide_eq_true_iff]
  constructor
  · rintro ⟨g1, g2⟩
    have := inPart_range (r := (lo, hi)) hr (List.mem_range.1 hk) g1
    exact ⟨(number_iff (r := (lo, hi)) hr hn this k).2 ⟨List.mem_range.1 hk, g1⟩, this, g2⟩
  · rintro ⟨g1, g2, g3⟩
    exact ⟨((number_iff (r := (lo, hi)) hr hn g2 k).1 g1).2, g3⟩

example : ((List.range 5).flatMap (values [(1, 5), (7, 9), (0, 7), (10, 100), (6, 1)] 5 (0, 10) none)) = [5, 7, 9, 1] := by decide +kernel

/-- **C79** Without a range, that of the data is used, and so the points at the maximum are ignored, although the documentation says that the range is that of the data. -/
theorem default_range (data : List (ℚ × ℚ)) (n : Nat) (yr : Option (ℚ × ℚ)) (std drop : Bool) (first last : ℚ × ℚ) (hf : first ∈ data) (hl : last ∈ data) (hmin : ∀ p ∈ data, first.1 ≤ p.1) (hmax : ∀ p ∈ data, p.1 ≤ last.1) :
    profileX data n none yr std drop = profileX data n (some (first.1, last.1)) yr std drop := by
  have hne : data.map Prod.fst ≠ [] := by
    intro h
    rw [List.map_eq_nil_iff] at h
    rw [h] at hf
    cases hf
  have h1 : npMin (data.map Prod.fst) = first.1 := by
    obtain ⟨e, he, h⟩ := List.mem_map.1 (Paolina.npMin_mem (xs := data.map Prod.fst) hne)
    exact le_antisymm (npMin_le (List.mem_map_of_mem hf)) (h ▸ hmin e he)
  have h2 : npMax (data.map Prod.fst) = last.1 := by
    obtain ⟨e, he, h⟩ := List.mem_map.1 (Paolina.npMax_mem (xs := data.map Prod.fst) hne)
    exact le_antisymm (h ▸ hmax e he) (le_npMax (List.mem_map_of_mem hl))
  rw [profileX, profileX, rangeOf, rangeOf]
  simp only [if_neg hne, h1, h2]

example : profileX [(0, 5), (5, 7), (10, 100)] 2 none none true false = .ok [⟨5 / 2, some 5, none⟩, ⟨15 / 2, some 7, none⟩] := by decide +kernel

/-- **C79** The profile in the other axis is that of the points reflected. -/
theorem profileY_spec (data : List (ℚ × ℚ)) (n : Nat) (yr xr : Option (ℚ × ℚ)) (std drop : Bool) : profileY data n yr xr std drop = profileX (data.map fun p => (p.2, p.1)) n yr xr std drop := rfl

example : profileY [(5, 0), (7, 5), (100, 10)] 2 none none true false = .ok [⟨5 / 2, some 5, none⟩, ⟨15 / 2, some 7, none⟩] := by decide +kernel

/-! ### In two dimensions -/

theorem groups3_find {rx ry : ℚ × ℚ} {nx ny : Nat} (hx : rx.1 < rx.2) (hy : ry.1 < ry.2) (hnx : 0 < nx) (hny : 0 < ny) (zr : Option (ℚ × ℚ)) (data : List Triple) {i j : Nat} (hi : i < nx) (hj : j < ny) :
    ((groups3 rx ry nx ny (select3 rx ry zr data)).find? fun g => decide (g.1 = [(i : Int) + 1, (j : Int) + 1])) =
      if values3 data nx ny rx ry zr i j = [] then none else some ([(i : Int) + 1, (j : Int) + 1], values3 data nx ny rx ry zr i j) := by
  have hv : ((select3 rx ry zr data).filter fun p => decide ([(searchRight (linspace rx.1 rx.2 nx) p.x : Int), (searchRight (linspace ry.1 ry.2 ny) p.y : Int)] = [(i : Int) + 1, (j : Int) + 1])).map Triple.z =
      values3 data nx ny rx ry zr i j := by
    rw [values3, select3, List.filter_filter, List.filter_filter]
    congr 1
    apply List.filter_congr
    intro p _
    rw [Bool.eq_iff_iff, Bool.and_eq_true, Bool.and_eq_true, Bool.and_eq_true, decide_eq_true_iff, decide_eq_true_iff, within_iff, within_iff, match_range, List.cons.injEq, List.cons.injEq]
    constructor
    · rintro ⟨⟨⟨g1, g2, _⟩, g3⟩, g4, g5⟩
      exact ⟨((number_iff hx hnx g4 i).1 g1).2, ((number_iff hy hny g5 j).1 g2).2, g3⟩
    · rintro ⟨g1, g2, g3⟩
      have e1 := inPart_range hx hi g1
      have e2 := inPart_range hy hj g2
      exact ⟨⟨⟨(number_iff hx hnx e1 i).2 ⟨hi, g1⟩, (number_iff hy hny e2 j).2 ⟨hj, g2⟩, rfl⟩, g3⟩, e1, e2⟩
  have hg : ∀ g ∈ groups3 rx ry nx ny (select3 rx ry zr data), g.1 = [(i : Int) + 1, (j : Int) + 1] → g.2 = values3 data nx ny rx ry zr i j ∧ g.2 ≠ [] := by
    intro g hg he
    obtain ⟨g', hg', rfl⟩ := List.mem_map.1 hg
    obtain ⟨e1, e2, _⟩ := mem_groupBy hg'
    simp only at he ⊢
    rw [he] at e1
    refine ⟨by rw [← hv, e1], by simpa using e2⟩
  by_cases hne : values3 data nx ny rx ry zr i j = []
  · rw [if_pos hne, List.find?_eq_none]
    intro g hgm he
    have := hg g hgm (of_decide_eq_true he)
    exact this.2 (this.1.trans hne)
  · rw [if_neg hne]
    cases hf : (groups3 rx ry nx ny (select3 rx ry zr data)).find? fun g => decide (g.1 = [(i : Int) + 1, (j : Int) + 1]) with
    | none =>
      rw [List.find?_eq_none] at hf
      exfalso
      rw [← hv] at hne
      obtain ⟨p, hp⟩ := List.exists_mem_of_ne_nil _ (fun h => hne (by rw [h]; rfl) :
        ((select3 rx ry zr data).filter fun p => decide ([(searchRight (linspace rx.1 rx.2 nx) p.x : Int), (searchRight (linspace ry.1 ry.2 ny) p.y : Int)] = [(i : Int) + 1, (j : Int) + 1])) ≠ [])
      rw [List.mem_filter, decide_eq_true_iff] at hp
      have hk : [(i : Int) + 1, (j : Int) + 1] ∈ groupKeys ((select3 rx ry zr data).map fun p : Triple => [(searchRight (linspace rx.1 rx.2 nx) p.x : Int), (searchRight (linspace ry.1 ry.2 ny) p.y : Int)]) :=
        mem_groupKeys.2 (List.mem_map.2 ⟨p, hp.1, hp.2⟩)
      exact hf _ (List.mem_map_of_mem (List.mem_map_of_mem hk)) (decide_eq_true rfl)
    | some g =>
      have he : g.1 = [(i : Int) + 1, (j : Int) + 1] := by simpa using List.find?_some hf
      have := hg g (List.mem_of_find?_eq_some hf) he
      congr 1
      exact Prod.ext he this.1

/-- **C79** In two dimensions: the centres of the bins, and for each bin the average and the deviation of its values; 0 in the empty bins, and deviation 0 with only one value.  If there are no points in the ranges it
raises `ValueError`. -/
theorem profileXY_spec (data : List Triple) (nx ny : Nat) (hnx : 0 < nx) (hny : 0 < ny) (rx ry : ℚ × ℚ) (hx : rx.1 < rx.2) (hy : ry.1 < ry.2) (zr : Option (ℚ × ℚ)) (std : Bool) :
    ((¬ ∃ p ∈ data, (rx.1 ≤ p.x ∧ p.x < rx.2) ∧ (ry.1 ≤ p.y ∧ p.y < ry.2) ∧ InRange zr p.z) → profileXY data nx ny (some rx) (some ry) zr std = .error .valueError) ∧
    ((∃ p ∈ data, (rx.1 ≤ p.x ∧ p.x < rx.2) ∧ (ry.1 ≤ p.y ∧ p.y < ry.2) ∧ InRange zr p.z) → ∃ g, profileXY data nx ny (some rx) (some ry) zr std = .ok g ∧
      g.xs = (List.range nx).map (fun i : Nat => centre rx nx i) ∧ g.ys = (List.range ny).map (fun j : Nat => centre ry ny j) ∧
      g.mean = (List.range nx).map (fun i => (List.range ny).map fun j => average (values3 data nx ny rx ry zr i j)) ∧
      g.dev2 = (List.range nx).map (fun i => (List.range ny).map fun j => (deviation2 std (values3 data nx ny rx ry zr i j)).getD 0)) := by
  have hmem : ∀ p, p ∈ select3 rx ry zr data ↔ p ∈ data ∧ (rx.1 ≤ p.x ∧ p.x < rx.2) ∧ (ry.1 ≤ p.y ∧ p.y < ry.2) ∧ InRange zr p.z := by
    intro p
    rw [select3, List.mem_filter, List.mem_filter, Bool.and_eq_true, within_iff, within_iff, match_range, and_assoc, and_assoc]
  have hnil : groups3 rx ry nx ny (select3 rx ry zr data) = [] ↔ select3 rx ry zr data = [] := by
    rw [groups3, List.map_eq_nil_iff]
    constructor
    · intro h
      have := groupBy_perm (fun p : Triple => [(searchRight (linspace rx.1 rx.2 nx) p.x : Int), (searchRight (linspace ry.1 ry.2 ny) p.y : Int)]) (select3 rx ry zr data)
      rw [h] at this
      exact this.symm.eq_nil
    · intro h; rw [h]; rfl
  rw [profileXY]
  simp only [rangeOf]
  constructor
  · intro h
    rw [if_pos]
    rw [hnil, List.eq_nil_iff_forall_not_mem]
    intro p hp
    exact h ⟨p, (hmem p).1 hp⟩
  · rintro ⟨p, hp⟩
    rw [if_neg (by rw [hnil]; exact List.ne_nil_of_mem ((hmem p).2 hp))]
    have hfill : ∀ f : List ℚ → ℚ, f [] = 0 → fill nx ny (groups3 rx ry nx ny (select3 rx ry zr data)) f = (List.range nx).map fun i => (List.range ny).map fun j => f (values3 data nx ny rx ry zr i j) := by
      intro f hf0
      rw [fill]
      apply List.map_congr_left
      intro i hi
      apply List.map_congr_left
      intro j hj
      rw [groups3_find hx hy hnx hny zr data (List.mem_range.1 hi) (List.mem_range.1 hj)]
      by_cases hv : values3 data nx ny rx ry zr i j = []
      · rw [if_pos hv, hv, hf0]
      · rw [if_neg hv]
    refine ⟨_, rfl, shift_linspace rx nx, shift_linspace ry ny, hfill mean (by simp [mean]), ?_⟩
    have := hfill (fun vs => (dev2 std vs).getD 0) (by simp [dev2, var])
    simp only [dev2_eq] at this
    simp only [dev2_eq]
    exact this

example : profileXY [⟨1, 1, 5⟩, ⟨6, 1, 3⟩, ⟨1, 2, 9⟩, ⟨10, 1, 50⟩] 2 1 (some (0, 10)) (some (0, 10)) none true = .ok ⟨[5 / 2, 15 / 2], [5], [[7], [3]], [[8], [0]]⟩ := by decide +kernel

/-- **C79** An empty bin cannot be told from a bin of average 0, and asking for the range of the data fails with one point. -/
theorem empty_bins_are_zero :
    (profileXY [⟨1, 1, 5⟩] 2 1 (some (0, 10)) (some (0, 10)) none true).toOption.map Grid.mean = some [[5], [0]] ∧
    (profileXY [⟨1, 1, 5⟩, ⟨6, 1, 0⟩] 2 1 (some (0, 10)) (some (0, 10)) none true).toOption.map Grid.mean = some [[5], [0]] ∧
    profileXY [⟨1, 1, 5⟩] 2 1 none none none true = .error .valueError := by decide +kernel

end Verif.Profile
