import Verif.Spec.Corrections
import Verif.Props.KrMap
import Verif.Props.Core
import Verif.Props.Wfm
/-!
# C78: corrections with maps
-/
namespace Verif.Corrections
open Verif.Voxels
open Verif.KrMap (InPart digitize_iff inPart_range linspace_get centre)

theorem within_iff {v lo hi : ℚ} : within v lo hi = true ↔ lo ≤ v ∧ v < hi := by simp [within]

/-! ### Coefficients -/

/-- **C78** The coefficient of a position inside the map is that of its bin. -/
theorem coefficient_inside {info : Info} (hp : Proper info) {values : Table} (hs : IsShape info values) {x y : ℚ} {i j : Nat} (h : InBin info i j x y) :
    coefficient info values x y = .ok (bin values i j) := by
  obtain ⟨h1, h2, h3, h4⟩ := hp
  obtain ⟨hi, hj, hx, hy⟩ := h
  have hx' := inPart_range (r := (info.xmin, info.xmax)) h1 hi hx
  have hy' := inPart_range (r := (info.ymin, info.ymax)) h2 hj hy
  have ex : searchRight (linspace info.xmin info.xmax info.nx) x - 1 = i := by
    have := (digitize_iff (r := (info.xmin, info.xmax)) h1 h3 hx' i).2 ⟨hi, hx⟩
    simp only at this
    omega
  have ey : searchRight (linspace info.ymin info.ymax info.ny) y - 1 = j := by
    have := (digitize_iff (r := (info.ymin, info.ymax)) h2 h4 hy' j).2 ⟨hj, hy⟩
    simp only at this
    omega
  rw [coefficient, if_pos (by rw [Bool.and_eq_true, within_iff, within_iff]; exact ⟨hx', hy'⟩), ex, ey]
  have hjl : j < values.length := by rw [hs.1]; exact hj
  have hil : i < values[j].length := by rw [hs.2 _ (List.getElem_mem hjl)]; exact hi
  simp only [List.getElem?_eq_getElem hjl, List.getElem?_eq_getElem hil, bin, List.getD_eq_getElem?_getD, Option.getD_some]

example : coefficient ⟨0, 10, 0, 30, 2, 3⟩ [[some 1, some 2], [some 3, none], [some 5, some 6]] 5 20 = .ok (some 6) := by decide +kernel

/-- **C78** The coefficient of a position outside the map is NaN. -/
theorem coefficient_outside (info : Info) (values : Table) (x y : ℚ) (h : ¬ ((info.xmin ≤ x ∧ x < info.xmax) ∧ info.ymin ≤ y ∧ y < info.ymax)) : coefficient info values x y = .ok none := by
  rw [coefficient, if_neg]
  rwa [Bool.and_eq_true, within_iff, within_iff]

example : coefficient ⟨0, 10, 0, 30, 2, 3⟩ [[some 1, some 2], [some 3, none], [some 5, some 6]] 10 20 = .ok none := coefficient_outside _ _ _ _ (by decide +kernel)

theorem exists_bin {info : Info} (hp : Proper info) {x y : ℚ} (hx : info.xmin ≤ x ∧ x < info.xmax) (hy : info.ymin ≤ y ∧ y < info.ymax) : ∃ i j, InBin info i j x y := by
  obtain ⟨h1, h2, h3, h4⟩ := hp
  obtain ⟨i, ⟨hi, hxi⟩, _⟩ := KrMap.part_unique (r := (info.xmin, info.xmax)) h1 h3 hx
  obtain ⟨j, ⟨hj, hyj⟩, _⟩ := KrMap.part_unique (r := (info.ymin, info.ymax)) h2 h4 hy
  exact ⟨i, j, hi, hj, hxi, hyj⟩

theorem coefficient_ok {info : Info} (hp : Proper info) {values : Table} (hs : IsShape info values) (x y : ℚ) : ∃ v, coefficient info values x y = .ok v := by
  by_cases h : (info.xmin ≤ x ∧ x < info.xmax) ∧ info.ymin ≤ y ∧ y < info.ymax
  · obtain ⟨i, j, hb⟩ := exists_bin hp h.1 h.2
    exact ⟨_, coefficient_inside hp hs hb⟩
  · exact ⟨_, coefficient_outside _ _ _ _ h⟩

/-! ### Time evolution -/

theorem interpFrom_between {x : ℚ} : ∀ {l : List (ℚ × ℚ)} {k : Nat} {a fa b fb : ℚ}, l.Pairwise (fun p q => p.1 < q.1) → l[k]? = some (a, fa) → l[k + 1]? = some (b, fb) → a ≤ x → x < b →
    interpFrom x l = (fb - fa) / (b - a) * (x - a) + fa
  | [], _, _, _, _, _, _, h, _, _, _ => by simp at h
  | [p], k, _, _, _, _, _, _, h, _, _ => by simp at h
  | (a0, f0) :: (b0, g0) :: rest, 0, a, fa, b, fb, hs, h1, h2, h3, h4 => by
    simp only [List.getElem?_cons_zero, List.getElem?_cons_succ, Option.some.injEq, Prod.mk.injEq, Nat.zero_add] at h1 h2
    obtain ⟨rfl, rfl⟩ := h1
    obtain ⟨rfl, rfl⟩ := h2
    rw [interpFrom, if_pos h4]
  | (a0, f0) :: (b0, g0) :: rest, k + 1, a, fa, b, fb, hs, h1, h2, h3, h4 => by
    rw [List.getElem?_cons_succ] at h1 h2
    have hb : b0 ≤ a := by
      cases k with
      | zero => simp at h1; exact h1.1.le
      | succ k =>
        rw [List.getElem?_cons_succ] at h1
        have := (List.pairwise_cons.1 (List.pairwise_cons.1 hs).2).1 _ (List.mem_of_getElem? h1)
        exact this.le
    rw [interpFrom, if_neg (by linarith)]
    exact interpFrom_between (List.pairwise_cons.1 hs).2 h1 h2 h3 h4

theorem interpFrom_after {x : ℚ} : ∀ {l : List (ℚ × ℚ)} {a fa : ℚ}, l.Pairwise (fun p q => p.1 < q.1) → l.getLast? = some (a, fa) → a ≤ x → interpFrom x l = fa
  | [], _, _, _, h, _ => by simp at h
  | [p], a, fa, _, h, _ => by
    simp only [List.getLast?_singleton, Option.some.injEq] at h
    rw [h, interpFrom]
  | (a0, f0) :: (b0, g0) :: rest, a, fa, hs, h, hx => by
    rw [List.getLast?_cons_cons] at h
    have hb : b0 ≤ a := by
      cases rest with
      | nil => simp at h; exact h.1.le
      | cons c cs =>
        rw [List.getLast?_cons_cons] at h
        exact ((List.pairwise_cons.1 (List.pairwise_cons.1 hs).2).1 _ (List.mem_of_getLast? h)).le
    rw [interpFrom, if_neg (by linarith)]
    exact interpFrom_after (List.pairwise_cons.1 hs).2 h hx

/-- **C78** The interpolation in time: it goes through the points given, linear between them and constant outside. -/
theorem interp_spec {xp fp : List ℚ} (hl : xp.length = fp.length) (hne : xp ≠ []) (hs : xp.Pairwise (· < ·)) : ∃ f, IsInterp xp fp f ∧ ∀ x, interp x xp fp = .ok (f x) := by
  obtain ⟨a0, xs, rfl⟩ := List.exists_cons_of_ne_nil hne
  cases fp with
  | nil => simp at hl
  | cons f0 fs =>
    have hsz : ((a0 :: xs).zip (f0 :: fs)).Pairwise (fun p q => p.1 < q.1) := by
      rw [← List.pairwise_map (f := Prod.fst) (R := fun p q : ℚ => p < q), List.map_fst_zip hl.le]
      exact hs
    have hget : ∀ (k : Nat) a fa, (a0 :: xs)[k]? = some a → (f0 :: fs)[k]? = some fa → ((a0 :: xs).zip (f0 :: fs))[k]? = some (a, fa) := by
      intro k a fa h1 h2
      rw [List.getElem?_zip_eq_some]
      exact ⟨h1, h2⟩
    have hmin : ∀ (k : Nat) a, (a0 :: xs)[k]? = some a → a0 ≤ a := by
      intro k a hk
      rcases List.mem_cons.1 (List.mem_of_getElem? hk) with rfl | hm
      · exact le_rfl
      · exact ((List.pairwise_cons.1 hs).1 a hm).le
    have hlast : ∀ a fa, (a0 :: xs)[(a0 :: xs).length - 1]? = some a → (f0 :: fs)[(f0 :: fs).length - 1]? = some fa → ((a0 :: xs).zip (f0 :: fs)).getLast? = some (a, fa) := by
      intro a fa h1 h2
      rw [List.getLast?_eq_getElem?, List.length_zip, hl, min_self]
      exact hget _ _ _ (by rw [← hl]; exact h1) h2
    have hafter : ∀ a fa x, (a0 :: xs)[(a0 :: xs).length - 1]? = some a → (f0 :: fs)[(f0 :: fs).length - 1]? = some fa → a ≤ x →
        (if x < a0 then f0 else interpFrom x ((a0 :: xs).zip (f0 :: fs))) = fa := by
      intro a fa x h1 h2 hx
      rw [if_neg (by have := hmin _ _ h1; linarith)]
      exact interpFrom_after hsz (hlast a fa h1 h2) hx
    have hin : ∀ (k : Nat) a b fa fb x, (a0 :: xs)[k]? = some a → (a0 :: xs)[k + 1]? = some b → (f0 :: fs)[k]? = some fa → (f0 :: fs)[k + 1]? = some fb → a ≤ x → x < b →
        (if x < a0 then f0 else interpFrom x ((a0 :: xs).zip (f0 :: fs))) = fa + (fb - fa) * ((x - a) / (b - a)) := by
      intro k a b fa fb x h1 h2 h3 h4 h5 h6
      rw [if_neg (by have := hmin _ _ h1; linarith), interpFrom_between hsz (hget _ _ _ h1 h3) (hget _ _ _ h2 h4) h5 h6]
      ring
    have hnode : ∀ (k : Nat) b fb, (a0 :: xs)[k]? = some b → (f0 :: fs)[k]? = some fb → (if b < a0 then f0 else interpFrom b ((a0 :: xs).zip (f0 :: fs))) = fb := by
      intro k b fb h1 h2
      by_cases hk : k + 1 < (a0 :: xs).length
      · have hk' : k + 1 < (f0 :: fs).length := hl ▸ hk
        have hlt : b < (a0 :: xs)[k + 1] := by
          obtain ⟨h, rfl⟩ := List.getElem?_eq_some_iff.1 h1
          exact List.pairwise_iff_getElem.1 hs _ _ _ _ (by omega)
        rw [hin k b _ fb _ b h1 (List.getElem?_eq_getElem hk) h2 (List.getElem?_eq_getElem hk') le_rfl hlt]
        simp
      · have hk1 := (List.getElem?_eq_some_iff.1 h1).1
        have e : k = (a0 :: xs).length - 1 := by omega
        subst e
        exact hafter b fb b h1 (by rw [← hl]; exact h2) le_rfl
    refine ⟨fun x => if x < a0 then f0 else interpFrom x ((a0 :: xs).zip (f0 :: fs)), ⟨?_, ?_, hafter⟩, ?_⟩
    · intro a fa x h1 h2 hx
      simp only [List.getElem?_cons_zero, Option.some.injEq] at h1 h2
      subst h1 h2
      rcases lt_or_eq_of_le hx with h | rfl
      · rw [if_pos h]
      · exact hnode 0 x f0 rfl rfl
    · intro k a b fa fb x h1 h2 h3 h4 h5 h6
      rcases lt_or_eq_of_le h6 with h | rfl
      · exact hin k a b fa fb x h1 h2 h3 h4 h5 h
      · rw [hnode (k + 1) x fb h2 h4]
        have hlt : a < x := by
          obtain ⟨h, rfl⟩ := List.getElem?_eq_some_iff.1 h1
          obtain ⟨h', rfl⟩ := List.getElem?_eq_some_iff.1 h2
          exact List.pairwise_iff_getElem.1 hs _ _ _ _ (by omega)
        rw [div_self (by linarith)]
        ring
    · intro x
      rw [interp, if_neg (by simpa using hl)]
      rfl

example : ([0, 5, 10, 15, 30, 40] : List ℚ).map (fun x => (interp x [5, 10, 30] [1, 3, 7]).toOption) = [some 1, some 1, some 3, some 4, some 7, some 7] := by decide +kernel

/-- **C78** The factor of the time evolution: the interpolated parameter over its average, weighted with the inverse of the uncertainties. -/
theorem timeFactor_spec {ts par parU : List ℚ} (hl : ts.length = par.length) (hu : parU.length = par.length) (hne : ts ≠ []) (hs : ts.Pairwise (· < ·)) (hpos : ∀ u ∈ parU, 0 < u) :
    ∃ f, IsInterp ts par f ∧ ∀ t, timeFactor t ts par parU =
      .ok (if (List.zipWith (fun p u => p / u) par parU).sum = 0 then none else some (f t * (parU.map fun u => 1 / u).sum / (List.zipWith (fun p u => p / u) par parU).sum)) := by
  obtain ⟨f, hf, hi⟩ := interp_spec hl hne hs
  refine ⟨f, hf, fun t => ?_⟩
  have hw : 0 < (parU.map fun u => 1 / u).sum := by
    have hne' : parU ≠ [] := by
      intro h0
      rw [h0] at hu
      exact hne (List.eq_nil_of_length_eq_zero (by simp_all))
    refine List.sum_pos _ ?_ (by simpa using hne')
    intro v hv
    obtain ⟨u, hu', rfl⟩ := List.mem_map.1 hv
    exact one_div_pos.2 (hpos u hu')
  have hz : List.zipWith (· * ·) par (parU.map fun u => 1 / u) = List.zipWith (fun p u => p / u) par parU := by
    rw [List.zipWith_map_right]
    congr 1
    funext p u
    rw [mul_one_div]
  rw [timeFactor, Core.average, if_neg (by simpa using hu.symm), if_neg hw.ne', hz, hi]
  show Except.ok _ = _
  congr 1
  by_cases h0 : (List.zipWith (fun p u => p / u) par parU).sum = 0
  · rw [if_pos h0, if_pos (by rw [h0]; simp)]
  · rw [if_neg h0, if_neg (div_ne_zero h0 hw.ne'), div_div_eq_mul_div]

example : timeFactor 15 [10, 20] [4, 8] [1, 2] = .ok (some (9 / 8)) := by decide +kernel

theorem interpFrom_const {x p : ℚ} : ∀ {l : List (ℚ × ℚ)}, l ≠ [] → (∀ q ∈ l, q.2 = p) → interpFrom x l = p
  | [], h, _ => absurd rfl h
  | [q], _, h => by
    rw [interpFrom]
    exact h q (by simp)
  | (a, fa) :: (b, fb) :: rest, _, h => by
    have h1 : fa = p := h (a, fa) (by simp)
    have h2 : fb = p := h (b, fb) (by simp)
    rw [interpFrom]
    split
    · rw [h1, h2]; ring
    · exact interpFrom_const (by simp) (fun q hq => h q (List.mem_cons_of_mem _ hq))

/-- **C78** Without evolution there is no correction: if the parameter is constant the factor is 1 at any time. -/
theorem constant_evolution {ts par parU : List ℚ} {p : ℚ} (hp : p ≠ 0) (hl : ts.length = par.length) (hu : parU.length = par.length) (hne : ts ≠ []) (hpos : ∀ u ∈ parU, 0 < u) (hc : ∀ v ∈ par, v = p) (t : ℚ) :
    timeFactor t ts par parU = .ok (some 1) := by
  obtain ⟨a0, xs, rfl⟩ := List.exists_cons_of_ne_nil hne
  cases par with
  | nil => simp at hl
  | cons f0 fs =>
    have hw : 0 < (parU.map fun u => 1 / u).sum := by
      have hne' : parU ≠ [] := by
        intro h0
        rw [h0] at hu
        simp at hu
      refine List.sum_pos _ ?_ (by simpa using hne')
      intro v hv
      obtain ⟨u, hu', rfl⟩ := List.mem_map.1 hv
      exact one_div_pos.2 (hpos u hu')
    have hz : ∀ (a b : List ℚ), a.length = b.length → (∀ v ∈ a, v = p) → (List.zipWith (· * ·) a b).sum = p * b.sum := by
      intro a
      induction a with
      | nil => intro b hb _; simp at hb; simp [List.eq_nil_of_length_eq_zero hb.symm]
      | cons v vs ih =>
        intro b hb hv
        cases b with
        | nil => simp at hb
        | cons w ws =>
          rw [List.zipWith_cons_cons, List.sum_cons, List.sum_cons, ih ws (by simpa using hb) (fun v' hv' => hv v' (List.mem_cons_of_mem _ hv')), hv v (by simp)]
          ring
    have hlz := hz (f0 :: fs) (parU.map fun u => 1 / u) (by simpa using hu.symm) hc
    have hint : interp t (a0 :: xs) (f0 :: fs) = .ok p := by
      rw [interp, if_neg (by simpa using hl)]
      show Except.ok _ = _
      congr 1
      split
      · exact hc f0 (by simp)
      · apply interpFrom_const (by simp)
        intro q hq
        have : q ∈ (a0 :: xs).zip (f0 :: fs) := hq
        exact hc q.2 (List.of_mem_zip this).2
    rw [timeFactor, Core.average, if_neg (by simpa using hu.symm), if_neg hw.ne', hlz, hint, mul_div_assoc, div_self hw.ne', mul_one]
    show Except.ok _ = _
    rw [if_neg hp, div_self hp]

example : timeFactor 15 [10, 20] [4, 4] [1, 2] = .ok (some 1) := constant_evolution (p := 4) (ts := [10, 20]) (par := [4, 4]) (parU := [1, 2]) (by norm_num) rfl rfl (by simp) (by decide +kernel) (by decide +kernel) 15

/-! ### Normalization -/

theorem mask_range {α : Type} (p : Nat → Bool) : ∀ (xs : List α) (d : α), mask ((List.range xs.length).map p) xs = ((List.range xs.length).filter p).map fun i => xs.getD i d := by
  intro xs d
  induction xs using List.reverseRecOn with
  | nil => rfl
  | append_singleton xs x ih =>
    have hz : (xs ++ [x]).zip ((List.range (xs ++ [x]).length).map p) = xs.zip ((List.range xs.length).map p) ++ [(x, p xs.length)] := by
      rw [List.length_append, List.length_singleton, List.range_succ, List.map_append, List.map_singleton, List.zip_append (by simp)]
      rfl
    rw [mask, hz, List.filter_append, List.map_append]
    rw [mask] at ih
    rw [ih, List.length_append, List.length_singleton, List.range_succ, List.filter_append, List.map_append]
    congr 1
    · apply List.map_congr_left
      intro i hi
      rw [List.mem_filter, List.mem_range] at hi
      rw [List.getD_eq_getElem?_getD, List.getD_eq_getElem?_getD, List.getElem?_append_left hi.1]
    · cases h : p xs.length
      · simp [h]
      · simp [h]

theorem centres_eq {lo hi : ℚ} {n : Nat} : centres lo hi n = (List.range n).map fun i : Nat => centre (lo, hi) n i := by
  apply List.ext_getElem?
  intro k
  rw [centres, Core.shift_getElem?]
  by_cases hk : k < n
  · rw [linspace_get (by omega), linspace_get (by omega), List.getElem?_map, List.getElem?_range hk]
    simp only [centre, Option.map_some, Option.some.injEq]
    push_cast
    ring
  · have h1 : (linspace lo hi n)[k + 1]? = none := by
      rw [List.getElem?_eq_none_iff]
      simp [linspace]
      omega
    have h2 : ((List.range n).map fun i : Nat => centre (lo, hi) n i)[k]? = none := by
      rw [List.getElem?_eq_none_iff]
      simp
      omega
    rw [h1, h2]
    split <;> simp_all

theorem fits_iff {info : Info} {values : Table} : fits info values = true ↔ IsShape info values := by
  simp [fits, IsShape]

theorem getD_shape {info : Info} {values : Table} (hs : IsShape info values) {j : Nat} (hj : j < info.ny) : (values.getD j []).length = info.nx := by
  have hj' : j < values.length := hs.1 ▸ hj
  rw [List.getD_eq_getElem?_getD, List.getElem?_eq_getElem hj']
  exact hs.2 _ (List.getElem_mem hj')

theorem selectRect_eq {info : Info} {values : Table} (hs : IsShape info values) (xr yr : ℚ × ℚ) :
    selectRect info values xr yr = ((List.range info.ny).filter fun j => within (centre (info.ymin, info.ymax) info.ny j) yr.1 yr.2).map fun j =>
      ((List.range info.nx).filter fun i => within (centre (info.xmin, info.xmax) info.nx i) xr.1 xr.2).map fun i => bin values i j := by
  rw [selectRect, centres_eq, centres_eq, List.map_map, List.map_map]
  have h1 := mask_range (fun j => within (centre (info.ymin, info.ymax) info.ny j) yr.1 yr.2) values []
  rw [hs.1] at h1
  rw [show ((fun y => within y yr.1 yr.2) ∘ fun i : Nat => centre (info.ymin, info.ymax) info.ny i) = fun j => within (centre (info.ymin, info.ymax) info.ny j) yr.1 yr.2 from rfl, h1, List.map_map]
  apply List.map_congr_left
  intro j hj
  rw [List.mem_filter, List.mem_range] at hj
  have h2 := mask_range (fun i => within (centre (info.xmin, info.xmax) info.nx i) xr.1 xr.2) (values.getD j []) none
  rw [getD_shape hs hj.1] at h2
  exact h2

theorem selectRect_flatten {info : Info} {values : Table} (hs : IsShape info values) (xr yr : ℚ × ℚ) :
    (selectRect info values xr yr).flatten = chosen info values fun x y => within x xr.1 xr.2 && within y yr.1 yr.2 := by
  rw [selectRect_eq hs, chosen, ← List.flatMap_def]
  induction List.range info.ny with
  | nil => rfl
  | cons j js ih =>
    rw [List.filter_cons, List.flatMap_cons]
    by_cases hy : within (centre (info.ymin, info.ymax) info.ny j) yr.1 yr.2 = true
    · rw [if_pos hy, List.flatMap_cons, ih]
      simp only [hy, Bool.and_true]
    · rw [if_neg hy, ih]
      rw [Bool.not_eq_true] at hy
      simp [hy]

theorem selectDisc_eq {info : Info} {values : Table} (hs : IsShape info values) (o : ℚ × ℚ) (radius : ℚ) :
    selectDisc info values o radius = chosen info values fun x y => within ((x - o.1) ^ 2 + (y - o.2) ^ 2) 0 (radius ^ 2) := by
  rw [selectDisc, centres_eq, centres_eq, chosen, List.flatMap_def]
  congr 1
  apply List.ext_getElem?
  intro j
  rw [List.getElem?_map, List.getElem?_map]
  by_cases hj : j < info.ny
  · have hj' : j < values.length := hs.1 ▸ hj
    rw [List.getElem?_range hj, (List.getElem?_zip_eq_some (l₁ := (List.range info.ny).map fun i : Nat => centre (info.ymin, info.ymax) info.ny i) (l₂ := values) (i := j)
      (z := (centre (info.ymin, info.ymax) info.ny j, values[j]))).2 ⟨by rw [List.getElem?_map, List.getElem?_range hj]; rfl, List.getElem?_eq_getElem hj'⟩]
    simp only [Option.map_some, Option.some.injEq, List.map_map]
    have h2 := mask_range (fun i => within ((centre (info.xmin, info.xmax) info.nx i - o.1) ^ 2 + (centre (info.ymin, info.ymax) info.ny j - o.2) ^ 2) 0 (radius ^ 2)) (values.getD j []) none
    rw [getD_shape hs hj] at h2
    rw [show values[j] = values.getD j [] by rw [List.getD_eq_getElem?_getD, List.getElem?_eq_getElem hj']; rfl]
    exact h2
  · rw [List.getElem?_eq_none (by simp; omega), List.getElem?_eq_none (by simp; omega)]
    rfl

/-- The median of values none of which is NaN, or NaN. -/
theorem npMedian_spec (vs : List (Option ℚ)) : npMedian vs = if vs = [] ∨ none ∈ vs then none else some (Wfm.median (vs.filterMap id)) := rfl

/-- **C78** The normalization of the map: the maximum, mean or median of its values that are not NaN, the energy of krypton, or a value of the user. -/
theorem normalization_simple (keV : ℚ) (info : Info) (values : Table) (o : Options) (vs : List ℚ) (hvs : vs = values.flatten.filterMap id) (hne : vs ≠ []) :
    (∃ m ∈ vs, (∀ v ∈ vs, v ≤ m) ∧ normalization keV info values .max o = .ok (some m)) ∧ normalization keV info values .mean o = .ok (some (vs.sum / vs.length)) ∧
    normalization keV info values .median o = .ok (some (Wfm.median vs)) ∧ normalization keV info values .kr o = .ok (some (415575 / 10000 * keV)) ∧
    (∀ v, o.value = some v → normalization keV info values .custom o = .ok (some v)) ∧ (o.value = none → normalization keV info values .custom o = .error .valueError) := by
  subst hvs
  refine ⟨⟨npMax (values.flatten.filterMap id), Paolina.npMax_mem hne, fun v hv => le_npMax hv, ?_⟩, ?_, ?_, rfl, ?_, ?_⟩
  · simp only [normalization, if_neg hne]
  · simp only [normalization, mean?, if_neg hne]
  · simp only [normalization, npMedian]
    rw [if_neg (by simpa using hne), List.filterMap_map]
    simp
  · intro v hv
    simp only [normalization, hv]
  · intro hv
    simp only [normalization, hv]

example : normalization 1 ⟨0, 10, 0, 30, 2, 3⟩ [[some 1, some 2], [some 4, none], [some 5, some 6]] .median {} = .ok (some 4) := by decide +kernel

/-- **C78** The normalization of a rectangle: the median of the bins with their centre in it; NaN if there are none or one of them is NaN, but `ValueError` if no row of the map is in the rectangle.  That of a circle
(open), `ValueError` if there are none. -/
theorem normalization_region (keV : ℚ) (info : Info) (values : Table) (hs : IsShape info values) :
    (∀ o xr yr, o.rect = some (xr, yr) → normalization keV info values .region o =
      (if ∃ j < info.ny, yr.1 ≤ centre (info.ymin, info.ymax) info.ny j ∧ centre (info.ymin, info.ymax) info.ny j < yr.2
       then .ok (npMedian (chosen info values fun x y => decide ((xr.1 ≤ x ∧ x < xr.2) ∧ yr.1 ≤ y ∧ y < yr.2))) else .error .valueError)) ∧
    (∀ o c radius, o.rect = none → o.disc = some (c, radius) → normalization keV info values .region o =
      (if chosen info values (fun x y => decide ((x - c.1) ^ 2 + (y - c.2) ^ 2 < radius ^ 2)) = [] then .error .valueError
       else .ok (npMedian (chosen info values fun x y => decide ((x - c.1) ^ 2 + (y - c.2) ^ 2 < radius ^ 2))))) ∧
    (∀ o : Options, o.rect = none → o.disc = none → normalization keV info values .region o = .error .valueError) := by
  refine ⟨?_, ?_, ?_⟩
  · intro o xr yr ho
    have hf : (!fits info values) = false := by rw [fits_iff.2 hs]; rfl
    have e : (fun x y : ℚ => within x xr.1 xr.2 && within y yr.1 yr.2) = fun x y => decide ((xr.1 ≤ x ∧ x < xr.2) ∧ yr.1 ≤ y ∧ y < yr.2) := by
      funext x y
      simp [within, Bool.decide_and]
    simp only [normalization, ho, hf, selectRect_flatten hs, e, Bool.false_eq_true, if_false]
    by_cases hj : ∃ j < info.ny, yr.1 ≤ centre (info.ymin, info.ymax) info.ny j ∧ centre (info.ymin, info.ymax) info.ny j < yr.2
    · rw [if_pos hj, if_neg]
      obtain ⟨j, h1, h2⟩ := hj
      rw [selectRect_eq hs, List.map_eq_nil_iff, List.filter_eq_nil_iff]
      intro h
      exact h j (List.mem_range.2 h1) (within_iff.2 h2)
    · rw [if_neg hj, if_pos]
      rw [selectRect_eq hs, List.map_eq_nil_iff, List.filter_eq_nil_iff]
      intro j h1 h2
      exact hj ⟨j, List.mem_range.1 h1, within_iff.1 h2⟩
  · intro o c radius h1 h2
    have hf : (!fits info values) = false := by rw [fits_iff.2 hs]; rfl
    have e : (fun x y : ℚ => within ((x - c.1) ^ 2 + (y - c.2) ^ 2) 0 (radius ^ 2)) = fun x y => decide ((x - c.1) ^ 2 + (y - c.2) ^ 2 < radius ^ 2) := by
      funext x y
      have : 0 ≤ (x - c.1) ^ 2 + (y - c.2) ^ 2 := by positivity
      simp [within, this]
    simp only [normalization, h1, h2, hf, selectDisc_eq hs, e, Bool.false_eq_true, if_false]
  · intro o h1 h2
    simp only [normalization, h1, h2]

example : normalization 1 ⟨0, 10, 0, 30, 2, 3⟩ [[some 1, some 2], [some 4, none], [some 5, some 6]] .region { rect := some ((0, 6), 6, 40) } = .ok (some (9 / 2)) ∧
    normalization 1 ⟨0, 10, 0, 30, 2, 3⟩ [[some 1, some 2], [some 4, none], [some 5, some 6]] .region { disc := some ((0, 0), 10) } = .ok (some (3 / 2)) := by decide +kernel

/-- **C78** A rectangle without bins raises `ValueError` if it has no rows, but gives NaN if it has rows and no columns; a NaN bin in the region makes the normalization NaN. -/
theorem region_without_columns :
    normalization 1 ⟨0, 10, 0, 30, 2, 3⟩ [[some 1, some 2], [some 4, none], [some 5, some 6]] .region { rect := some ((0, 6), 40, 50) } = .error .valueError ∧
    normalization 1 ⟨0, 10, 0, 30, 2, 3⟩ [[some 1, some 2], [some 4, none], [some 5, some 6]] .region { rect := some ((20, 26), 6, 40) } = .ok none ∧
    normalization 1 ⟨0, 10, 0, 30, 2, 3⟩ [[some 1, some 2], [some 4, none], [some 5, some 6]] .region { rect := some ((0, 10), 0, 40) } = .ok none := by decide +kernel

theorem median_scale {c : ℚ} (hc : 0 < c) (xs : List ℚ) : Wfm.median (xs.map (c * ·)) = c * Wfm.median xs := by
  have hsort : Wfm.sortAsc (xs.map (c * ·)) = (Wfm.sortAsc xs).map (c * ·) := by
    obtain ⟨h1, h2⟩ := Wfm.sortAsc_spec (xs.map (c * ·))
    obtain ⟨h3, h4⟩ := Wfm.sortAsc_spec xs
    refine List.Perm.eq_of_pairwise (le := (· ≤ ·)) (fun a b _ _ hab hba => le_antisymm hab hba) h2 ?_ (h1.trans (h3.symm.map _))
    rw [List.pairwise_map]
    exact h4.imp fun h => mul_le_mul_of_nonneg_left h hc.le
  have hg : ∀ (l : List ℚ) (k : Nat), (l.map (c * ·)).getD k 0 = c * l.getD k 0 := by
    intro l k
    rw [List.getD_eq_getElem?_getD, List.getD_eq_getElem?_getD, List.getElem?_map]
    cases l[k]? <;> simp
  simp only [Wfm.median, hsort, List.length_map, hg]
  split <;> ring

theorem valid_scaled (c : ℚ) (values : Table) : (scaled c values).flatten.filterMap id = (values.flatten.filterMap id).map (c * ·) := by
  have : (scaled c values).flatten = values.flatten.map fun v => v.map (c * ·) := by rw [scaled, List.map_flatten]
  rw [this]
  induction values.flatten with
  | nil => rfl
  | cons v vs ih => cases v <;> simp_all

theorem npMax_scale {c : ℚ} (hc : 0 < c) {xs : List ℚ} (hne : xs ≠ []) : npMax (xs.map (c * ·)) = c * npMax xs := by
  apply le_antisymm
  · obtain ⟨x, hx, h⟩ := List.mem_map.1 (Paolina.npMax_mem (xs := xs.map (c * ·)) (by simpa using hne))
    rw [← h]
    exact mul_le_mul_of_nonneg_left (le_npMax hx) hc.le
  · exact le_npMax (List.mem_map_of_mem (Paolina.npMax_mem hne))

theorem mask_map {α β : Type} (g : α → β) (m : List Bool) (xs : List α) : mask m (xs.map g) = (mask m xs).map g := by
  induction xs generalizing m with
  | nil => simp [mask]
  | cons x xs ih =>
    cases m with
    | nil => simp [mask]
    | cons b bs =>
      have := ih bs
      simp only [mask] at this ⊢
      rw [List.map_cons, List.zip_cons_cons, List.zip_cons_cons, List.filter_cons, List.filter_cons]
      cases b <;> simp [this]

theorem npMedian_scale {c : ℚ} (hc : 0 < c) (vs : List (Option ℚ)) : npMedian (vs.map fun v => v.map (c * ·)) = (npMedian vs).map (c * ·) := by
  have h1 : (none ∈ vs.map fun v : Option ℚ => v.map (c * ·)) ↔ none ∈ vs := by simp
  have h2 : (vs.map fun v : Option ℚ => v.map (c * ·)).filterMap id = (vs.filterMap id).map (c * ·) := by
    induction vs with
    | nil => rfl
    | cons v vs ih => cases v <;> simp_all
  simp only [npMedian, h1, h2, List.map_eq_nil_iff, median_scale hc]
  split <;> rfl

theorem fits_scaled (c : ℚ) (info : Info) (values : Table) : fits info (scaled c values) = fits info values := by
  simp [fits, scaled, List.all_map, Function.comp_def]

theorem selectRect_scaled (c : ℚ) (info : Info) (values : Table) (xr yr : ℚ × ℚ) : selectRect info (scaled c values) xr yr = scaled c (selectRect info values xr yr) := by
  simp only [selectRect, scaled, mask_map, List.map_map]
  apply List.map_congr_left
  intro row _
  simp only [Function.comp_apply, mask_map]

theorem selectDisc_scaled (c : ℚ) (info : Info) (values : Table) (o : ℚ × ℚ) (r : ℚ) : selectDisc info (scaled c values) o r = (selectDisc info values o r).map fun v => v.map (c * ·) := by
  rw [selectDisc, selectDisc, scaled, List.map_flatten, List.zip_map_right, List.map_map, List.map_map]
  congr 1
  apply List.map_congr_left
  intro p _
  simp only [Function.comp_apply, Prod.map_snd, Prod.map_fst, id, mask_map]

/-- **C78** The normalization of a map with other units: that of the map, in the new units (except for the energy of krypton or a value of the user). -/
theorem normalization_scaled (keV : ℚ) (info : Info) (values : Table) {c : ℚ} (hc : 0 < c) (s : Strategy) (hs : s ≠ .kr ∧ s ≠ .custom) (o : Options) :
    normalization keV info (scaled c values) s o = (normalization keV info values s o).map fun n => n.map (c * ·) := by
  have hmap : ∀ (b : Prop) [Decidable b] (x y : Except PyErr (Option ℚ)), (if b then x else y).map (fun n => n.map (c * ·)) = if b then x.map (fun n => n.map (c * ·)) else y.map fun n => n.map (c * ·) := by
    intro b _ x y
    split <;> rfl
  cases s with
  | kr => exact absurd rfl hs.1
  | custom => exact absurd rfl hs.2
  | max =>
    simp only [normalization, valid_scaled, List.map_eq_nil_iff]
    by_cases h : values.flatten.filterMap id = []
    · rw [if_pos h, if_pos h]; rfl
    · rw [if_neg h, if_neg h, npMax_scale hc h]; rfl
  | mean =>
    simp only [normalization, valid_scaled, mean?, List.map_eq_nil_iff, List.length_map]
    by_cases h : values.flatten.filterMap id = []
    · rw [if_pos h, if_pos h]; rfl
    · rw [if_neg h, if_neg h, List.sum_map_mul_left, List.map_id', mul_div_assoc]; rfl
  | median =>
    simp only [normalization, valid_scaled, List.map_map]
    have := npMedian_scale hc ((values.flatten.filterMap id).map some)
    rw [List.map_map] at this
    rw [show (some ∘ fun x : ℚ => c * x) = (fun v : Option ℚ => v.map (c * ·)) ∘ some from rfl, this]
    rfl
  | region =>
    rcases o with ⟨rect, disc, value⟩
    have hf : ∀ T : Table, (scaled c T).flatten = T.flatten.map fun v => v.map (c * ·) := fun T => by rw [scaled, List.map_flatten]
    have hn : ∀ T : Table, scaled c T = [] ↔ T = [] := fun T => by rw [scaled, List.map_eq_nil_iff]
    cases rect with
    | some r =>
      simp only [normalization, fits_scaled, selectRect_scaled, hn, hf, npMedian_scale hc, hmap]
      rfl
    | none =>
      cases disc with
      | none => rfl
      | some d =>
        simp only [normalization, fits_scaled, selectDisc_scaled, List.map_eq_nil_iff, npMedian_scale hc, hmap]
        rfl

example : normalization 1 ⟨0, 10, 0, 30, 2, 3⟩ (scaled 3 [[some 1, some 2], [some 4, none], [some 5, some 6]]) .region { rect := some ((0, 6), 6, 40) } = .ok (some (27 / 2)) := by decide +kernel

/-! ### The correction -/

/-- **C78** The factor of each hit inside the maps: the normalization over the coefficient of the bin (corrected by its evolution), times the exponential of z over the lifetime of the bin (corrected by its evolution). -/
theorem factor_inside (exp : ℚ → ℚ) (keV : ℚ) {info0 infoL : Info} (hp0 : Proper info0) (hpL : Proper infoL) {e0 lt : Table} (hs0 : IsShape info0 e0) (hsL : IsShape infoL lt) (table : Option Evol) (applyTemp : Bool)
    (s : Strategy) (o : Options) {n : ℚ} (hn : normalization keV info0 e0 s o = .ok (some n)) (ht : applyTemp = true → table ≠ none) (pts : List Point)
    (hpts : ∀ p ∈ pts, ∃ i j i' j' a b f g, InBin info0 i j p.x p.y ∧ bin e0 i j = some a ∧ InBin infoL i' j' p.x p.y ∧ bin lt i' j' = some b ∧ a * f ≠ 0 ∧ b * g ≠ 0 ∧
      (if applyTemp then ∀ ev, table = some ev → timeFactor p.t ev.ts ev.e0 ev.e0u = .ok (some f) ∧ timeFactor p.t ev.ts ev.lt ev.ltu = .ok (some g) else f = 1 ∧ g = 1)) :
    ∃ out, applyAll exp keV info0 e0 infoL lt table applyTemp s o pts = .ok out ∧
      List.Forall₂ (fun p r => ∃ i j i' j' a b f g, InBin info0 i j p.x p.y ∧ bin e0 i j = some a ∧ InBin infoL i' j' p.x p.y ∧ bin lt i' j' = some b ∧
        (if applyTemp then ∀ ev, table = some ev → timeFactor p.t ev.ts ev.e0 ev.e0u = .ok (some f) ∧ timeFactor p.t ev.ts ev.lt ev.ltu = .ok (some g) else f = 1 ∧ g = 1) ∧
        r = some (n / (a * f) * exp (p.z / (b * g)))) pts out := by
  rw [applyAll, hn]
  have hc : ¬ (applyTemp = true ∧ table = none) := fun h => ht h.1 h.2
  simp only [if_neg hc]
  clear hc hn
  induction pts with
  | nil => exact ⟨[], rfl, .nil⟩
  | cons p ps ih =>
    obtain ⟨out, h1, h2⟩ := ih (fun q hq => hpts q (List.mem_cons_of_mem _ hq))
    obtain ⟨i, j, i', j', a, b, f, g, g1, g2, g3, g4, g5, g6, g7⟩ := hpts p List.mem_cons_self
    have htot : total exp (some n) info0 e0 infoL lt (if applyTemp then table else none) p = .ok (some (n / (a * f) * exp (p.z / (b * g)))) := by
      rw [total, coefficient_inside hp0 hs0 g1, coefficient_inside hpL hsL g3, g2, g4]
      have hfin : fmul (fmul (fdiv (some 1) (fmul (some a) (some f))) ((fdiv (some p.z) (fmul (some b) (some g))).map exp)) (some n) = some (n / (a * f) * exp (p.z / (b * g))) := by
        simp only [fmul, fdiv, if_neg g5, if_neg g6, Option.map_some]
        congr 1
        ring
      cases applyTemp with
      | false =>
        obtain ⟨rfl, rfl⟩ := g7
        simp only [Bool.false_eq_true, if_false, e0Factor, ltFactor]
        rw [← hfin]
        rfl
      | true =>
        obtain ⟨ev, rfl⟩ := Option.ne_none_iff_exists'.1 (ht rfl)
        obtain ⟨k1, k2⟩ := g7 ev rfl
        simp only [if_true, e0Factor, ltFactor, k1, k2]
        rw [← hfin]
        rfl
    refine ⟨_, by rw [List.mapM_cons, htot, h1]; rfl, .cons ⟨i, j, i', j', a, b, f, g, g1, g2, g3, g4, g7, rfl⟩ h2⟩

example : applyAll (fun z => 1 + z) 1 ⟨0, 10, 0, 10, 1, 1⟩ [[some 4]] ⟨0, 10, 0, 10, 1, 1⟩ [[some 10]] (some ⟨[0, 10], [4, 4], [1, 1], [10, 30], [1, 1]⟩) true .max {} [⟨5, 5, 20, 5⟩, ⟨5, 15, 20, 5⟩] = .ok [some 3, none] := by
  decide +kernel

/-- **C78** The factor of a hit outside one of the maps is NaN (without time evolution). -/
theorem factor_outside (exp : ℚ → ℚ) (norm : Option ℚ) {info0 infoL : Info} (hp0 : Proper info0) (hpL : Proper infoL) {e0 lt : Table} (hs0 : IsShape info0 e0) (hsL : IsShape infoL lt) (p : Point)
    (h : ¬ ((info0.xmin ≤ p.x ∧ p.x < info0.xmax) ∧ info0.ymin ≤ p.y ∧ p.y < info0.ymax) ∨ ¬ ((infoL.xmin ≤ p.x ∧ p.x < infoL.xmax) ∧ infoL.ymin ≤ p.y ∧ p.y < infoL.ymax)) :
    total exp norm info0 e0 infoL lt none p = .ok none := by
  obtain ⟨v, hv⟩ := coefficient_ok hp0 hs0 p.x p.y
  obtain ⟨w, hw⟩ := coefficient_ok hpL hsL p.x p.y
  rcases h with h | h
  · rw [total, hw, coefficient_outside _ _ _ _ h]
    rfl
  · rw [total, hv, coefficient_outside _ _ _ _ h]
    show Except.ok (fmul (fmul (fdiv (some 1) (fmul v (some 1))) ((fdiv (some p.z) (fmul none (some 1))).map exp)) norm) = _
    generalize (fdiv (some 1) (fmul v (some 1))) = q
    cases q <;> rfl

example : Proper ⟨0, 10, 0, 10, 1, 1⟩ ∧ IsShape ⟨0, 10, 0, 10, 1, 1⟩ [[some 4]] := by
  refine ⟨⟨by decide +kernel, by decide +kernel, by decide, by decide⟩, rfl, by simp⟩

/-- **C78** The time correction without a table of time evolution raises `TimeEvolutionTableMissing`. -/
theorem missing_table (exp : ℚ → ℚ) (keV : ℚ) (info0 : Info) (e0 : Table) (infoL : Info) (lt : Table) (s : Strategy) (o : Options) (pts : List Point) (n : Option ℚ) (hn : normalization keV info0 e0 s o = .ok n) (dt : ℚ) :
    applyAll exp keV info0 e0 infoL lt none true s o pts = .error (.other "TimeEvolutionTableMissing") ∧ toZ none dt = .error (.other "TimeEvolutionTableMissing") := by
  refine ⟨?_, rfl⟩
  rw [applyAll, hn]
  simp

example : normalization 1 ⟨0, 10, 0, 10, 1, 1⟩ [[some 4]] .max {} = .ok (some 4) := by decide +kernel

/-- **C78** The factors do not depend on the units of the map of energies: multiplying it by a constant does not change them (except with the energy of krypton or a value of the user). -/
theorem factor_scaled (exp : ℚ → ℚ) (keV : ℚ) (info0 infoL : Info) (e0 lt : Table) (table : Option Evol) (applyTemp : Bool) {c : ℚ} (hc : 0 < c) (s : Strategy) (hs : s ≠ .kr ∧ s ≠ .custom) (o : Options) (pts : List Point) :
    applyAll exp keV info0 (scaled c e0) infoL lt table applyTemp s o pts = applyAll exp keV info0 e0 infoL lt table applyTemp s o pts := by
  have hcoef : ∀ x y, coefficient info0 (scaled c e0) x y = (coefficient info0 e0 x y).map fun v => v.map (c * ·) := by
    intro x y
    rw [coefficient, coefficient]
    split
    · rw [scaled, List.getElem?_map]
      cases e0[searchRight (linspace info0.ymin info0.ymax info0.ny) y - 1]? with
      | none => rfl
      | some row =>
        simp only [Option.map_some, List.getElem?_map]
        cases row[searchRight (linspace info0.xmin info0.xmax info0.nx) x - 1]? <;> rfl
    · rfl
  have hmul : ∀ (n a f w : Option ℚ), fmul (fmul (fdiv (some 1) (fmul (a.map (c * ·)) f)) w) (n.map (c * ·)) = fmul (fmul (fdiv (some 1) (fmul a f)) w) n := by
    intro n a f w
    cases a with
    | none => rfl
    | some a =>
      cases f with
      | none => rfl
      | some f =>
        simp only [Option.map_some, fmul, fdiv]
        by_cases h0 : a * f = 0
        · rw [if_pos h0, if_pos (by rw [mul_assoc, h0, mul_zero])]
        · rw [if_neg h0, if_neg (by rw [mul_assoc]; exact mul_ne_zero hc.ne' h0)]
          cases w with
          | none => rfl
          | some w =>
            cases n with
            | none => rfl
            | some n =>
              simp only [Option.map_some]
              congr 1
              have := hc.ne'
              field_simp
  rw [applyAll, applyAll, normalization_scaled keV info0 e0 hc s hs o]
  cases hn : normalization keV info0 e0 s o with
  | error e => rfl
  | ok n =>
    by_cases hb : applyTemp = true ∧ table = none
    · simp only [Except.map, if_pos hb]
    · simp only [Except.map, if_neg hb]
      congr 1
      funext p
      rw [total, total, hcoef]
      cases coefficient info0 e0 p.x p.y with
      | error e => rfl
      | ok a =>
        show (e0Factor _ p.t >>= fun f0 => coefficient infoL lt p.x p.y >>= fun cL => ltFactor _ p.t >>= fun fL =>
          pure (fmul (fmul (fdiv (some 1) (fmul (a.map (c * ·)) f0)) ((fdiv (some p.z) (fmul cL fL)).map exp)) (n.map (c * ·)))) = _
        simp only [hmul]
        rfl

example : applyAll (fun z => 1 + z) 1 ⟨0, 10, 0, 10, 1, 1⟩ (scaled 7 [[some 4]]) ⟨0, 10, 0, 10, 1, 1⟩ [[some 10]] none false .max {} [⟨5, 5, 20, 5⟩, ⟨5, 15, 20, 5⟩] = .ok [some 3, none] := by
  decide +kernel

/-- **C78** The conversion of drift time to z uses the average drift velocity. -/
theorem toZ_spec (dvs : List ℚ) (hne : dvs ≠ []) (dt : ℚ) : toZ (some dvs) dt = .ok (some (dt * (dvs.sum / dvs.length))) := by
  simp only [toZ, mean?, if_neg hne, fmul]

example : toZ (some [1, 3]) 5 = .ok (some 10) := by decide +kernel

end Verif.Corrections
