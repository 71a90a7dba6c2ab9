import Verif.Props.Psf
import Verif.Props.PaolinaTracks
/-!
# C73: hits prepared for the point spread function; C72: division in slices and sectors
-/
namespace Verif.Psf
open Verif.Frame
open Verif.Voxels (histBin linspace linspace_sorted)

/-! ### Slices and sectors -/

theorem within_iff {x lo hi : ℚ} : within x lo hi = true ↔ lo ≤ x ∧ x < hi := by simp [within]

theorem filter_two {α : Type} (l : List α) (p q r : α → Bool) (h : ∀ x ∈ l, r x = (p x || q x)) (hd : ∀ x ∈ l, p x = true → q x = false) :
    (l.filter p ++ l.filter q).Perm (l.filter r) := by
  induction l with
  | nil => exact .refl _
  | cons a l ih =>
    have ih := ih (fun x hx => h x (List.mem_cons_of_mem _ hx)) (fun x hx => hd x (List.mem_cons_of_mem _ hx))
    have h1 := h a List.mem_cons_self
    have h2 := hd a List.mem_cons_self
    cases hp : p a with
    | true =>
      have hq := h2 hp
      rw [hp, hq] at h1
      simp only [List.filter_cons, hp, hq, h1]
      simpa using ih.cons a
    | false =>
      cases hq : q a with
      | true =>
        rw [hp, hq] at h1
        simp only [List.filter_cons, hp, hq, h1]
        simp only [Bool.false_or, if_true, Bool.false_eq_true, if_false]
        exact (List.perm_middle.trans (ih.cons a))
      | false =>
        rw [hp, hq] at h1
        simp only [List.filter_cons, hp, hq, h1]
        simpa using ih

/-- Consecutive intervals divide the total one. -/
theorem intervals_partition {R : Type} (f : R → ℚ → ℚ → Bool) (hf : ∃ v : R → Option ℚ, ∀ r a b, f r a b = true ↔ ∃ x, v r = some x ∧ a ≤ x ∧ x < b) (rows : List R) :
    ∀ (bins : List ℚ) (lo hi : ℚ), bins.Pairwise (· ≤ ·) → bins.head? = some lo → bins.getLast? = some hi →
      ((intervals bins).flatMap fun b => rows.filter fun r => f r b.1 b.2).Perm (rows.filter fun r => f r lo hi) := by
  obtain ⟨v, hv⟩ := hf
  have hfalse : ∀ r a b, f r a b = false ↔ ¬ ∃ x, v r = some x ∧ a ≤ x ∧ x < b := by
    intro r a b; rw [← hv, Bool.not_eq_true]
  intro bins
  induction bins with
  | nil => intro lo hi _ h; simp at h
  | cons a bins ih =>
    intro lo hi hs hlo hhi
    simp only [List.head?_cons, Option.some.injEq] at hlo
    subst hlo
    cases bins with
    | nil =>
      simp only [List.getLast?_singleton, Option.some.injEq] at hhi
      subst hhi
      have : rows.filter (fun r => f r a a) = [] := by
        rw [List.filter_eq_nil_iff]
        intro r _ h
        obtain ⟨x, _, h1, h2⟩ := (hv r a a).1 h
        linarith
      rw [this]
      exact .refl _
    | cons b bins =>
      have hl : (b :: bins).getLast? = some hi := by simpa [List.getLast?_cons_cons] using hhi
      have ih := ih b hi (List.pairwise_cons.1 hs).2 rfl hl
      have hab : a ≤ b := (List.pairwise_cons.1 hs).1 b List.mem_cons_self
      have hbh : b ≤ hi := by
        have hm := List.mem_of_getLast? hl
        rcases List.mem_cons.1 hm with rfl | hm
        · exact le_refl _
        · exact (List.pairwise_cons.1 (List.pairwise_cons.1 hs).2).1 _ hm
      have e : intervals (a :: b :: bins) = (a, b) :: intervals (b :: bins) := rfl
      rw [e, List.flatMap_cons]
      refine (List.Perm.append_left _ ih).trans (filter_two rows _ _ _ ?_ ?_)
      · intro r _
        rw [Bool.eq_iff_iff, Bool.or_eq_true, hv, hv, hv]
        constructor
        · rintro ⟨x, h, h1, h2⟩
          by_cases hx : x < b
          · exact .inl ⟨x, h, h1, hx⟩
          · exact .inr ⟨x, h, not_lt.1 hx, h2⟩
        · rintro (⟨x, h, h1, h2⟩ | ⟨x, h, h1, h2⟩)
          · exact ⟨x, h, h1, lt_of_lt_of_le h2 hbh⟩
          · exact ⟨x, h, hab.trans h1, h2⟩
      · intro r _ h
        obtain ⟨x, h, h1, h2⟩ := (hv r a b).1 h
        rw [hfalse]
        rintro ⟨x', h', h3, h4⟩
        rw [h] at h'
        simp only [Option.some.injEq] at h'
        subst h'
        linarith

theorem flatten_nonempty {α β γ : Type} (l : List α) (f : α → List β) (g : α → List β → γ) (s : γ → List β) (hs : ∀ a b, s (g a b) = b) :
    ((l.filterMap fun a => if (f a).isEmpty then none else some (g a (f a))).map s).flatten = l.flatMap f := by
  induction l with
  | nil => rfl
  | cons a l ih =>
    rw [List.flatMap_cons, ← ih, List.filterMap_cons]
    by_cases h : (f a).isEmpty = true
    · simp only [h, if_true]
      rw [List.isEmpty_iff.1 h, List.nil_append]
    · simp only [h, if_false, Bool.false_eq_true]
      rw [List.map_cons, List.flatten_cons, hs]

theorem mem_intervals {bins : List ℚ} {a b : ℚ} : (a, b) ∈ intervals bins ↔ ∃ k : Nat, bins[k]? = some a ∧ bins[k + 1]? = some b := by
  rw [intervals, List.mem_iff_getElem?]
  simp only [List.getElem?_zip_eq_some, List.getElem?_tail]

/-- **C72** The slices in z: one for each interval between consecutive limits that has hits, named by its centre and with the hits of the interval (closed on the left) in their order;
each hit between the first and the last limit is in exactly one slice. -/
theorem slices_in_z (zbins : List ℚ) (hits : List Hit) :
    (∀ z slice, (z, slice) ∈ splitZ zbins hits ↔ slice ≠ [] ∧ ∃ k a b, zbins[k]? = some a ∧ zbins[k + 1]? = some b ∧ z = (a + b) / 2 ∧
      slice = hits.filter fun h => decide (a ≤ h.z ∧ h.z < b)) ∧
    ∀ lo hi, zbins.Pairwise (· ≤ ·) → zbins.head? = some lo → zbins.getLast? = some hi →
      ((splitZ zbins hits).map Prod.snd).flatten.Perm (hits.filter fun h => decide (lo ≤ h.z ∧ h.z < hi)) := by
  have hw : ∀ a b : ℚ, (fun h : Hit => within h.z a b) = fun h => decide (a ≤ h.z ∧ h.z < b) := by
    intro a b; funext h; rw [Bool.eq_iff_iff, within_iff, decide_eq_true_eq]
  constructor
  · intro z slice
    rw [splitZ, List.mem_filterMap]
    constructor
    · rintro ⟨⟨a, b⟩, hb, h⟩
      obtain ⟨k, h1, h2⟩ := mem_intervals.1 hb
      split at h
      · cases h
      · rename_i hne
        simp only [Option.some.injEq, Prod.mk.injEq] at h
        obtain ⟨rfl, rfl⟩ := h
        refine ⟨fun h0 => hne (by rw [h0]; rfl), k, a, b, h1, h2, rfl, by rw [hw]⟩
    · rintro ⟨hne, k, a, b, h1, h2, rfl, h3⟩
      refine ⟨(a, b), mem_intervals.2 ⟨k, h1, h2⟩, ?_⟩
      rw [hw, ← h3, if_neg]
      rw [List.isEmpty_iff]; exact hne
  · intro lo hi hs h1 h2
    rw [splitZ, flatten_nonempty (intervals zbins) (fun b => hits.filter fun h => within h.z b.1 b.2) (fun b l => ((b.1 + b.2) / 2, l)) Prod.snd (fun _ _ => rfl)]
    rw [← hw]
    exact intervals_partition (fun (h : Hit) a b => within h.z a b) ⟨fun h => some h.z, fun h a b => by simp [within_iff]⟩ hits zbins lo hi hs h1 h2

example : splitZ [0, 10, 20, 30] [⟨0, 0, 0, 1, 1, 10, 5, 0, 0⟩, ⟨0, 0, 0, 1, 1, 30, 7, 0, 0⟩, ⟨0, 0, 0, 2, 1, 4, 6, 0, 0⟩] =
    [(5, [⟨0, 0, 0, 2, 1, 4, 6, 0, 0⟩]), (15, [⟨0, 0, 0, 1, 1, 10, 5, 0, 0⟩])] := by decide +kernel

theorem inSector_iff {b c : ℚ × ℚ} {r : Norm} : inSector b c r = true ↔
    (∃ x, r.xpeak = some x ∧ b.1 ≤ x ∧ x < b.2) ∧ ∃ y, r.ypeak = some y ∧ c.1 ≤ y ∧ y < c.2 := by
  rw [inSector, Bool.and_eq_true]
  apply and_congr
  · cases r.xpeak <;> simp [within_iff]
  · cases r.ypeak <;> simp [within_iff]

/-- **C72** The sectors in x and y: one for each rectangle that has rows, named by its centre rounded to hundredths, with the rows of the peaks in the rectangle; each row with its peak in the total area is
in exactly one sector. -/
theorem sectors_in_xy (xs ys : List ℚ) (rows : List Norm) :
    (∀ x y part, (x, y, part) ∈ splitXY xs ys rows ↔ part ≠ [] ∧ ∃ i a b j c d, xs[i]? = some a ∧ xs[i + 1]? = some b ∧ ys[j]? = some c ∧ ys[j + 1]? = some d ∧
      x = round2 ((a + b) / 2) ∧ y = round2 ((c + d) / 2) ∧ part = rows.filter (inSector (a, b) (c, d))) ∧
    ∀ x0 x1 y0 y1, xs.Pairwise (· ≤ ·) → ys.Pairwise (· ≤ ·) → xs.head? = some x0 → xs.getLast? = some x1 → ys.head? = some y0 → ys.getLast? = some y1 →
      ((splitXY xs ys rows).map fun t => t.2.2).flatten.Perm (rows.filter (inSector (x0, x1) (y0, y1))) := by
  constructor
  · intro x y part
    rw [splitXY, List.mem_flatMap]
    simp only [List.mem_filterMap]
    constructor
    · rintro ⟨⟨a, b⟩, hb, ⟨c, d⟩, hc, h⟩
      obtain ⟨i, h1, h2⟩ := mem_intervals.1 hb
      obtain ⟨j, h3, h4⟩ := mem_intervals.1 hc
      split at h
      · cases h
      · rename_i hne
        simp only [Option.some.injEq, Prod.mk.injEq] at h
        obtain ⟨rfl, rfl, rfl⟩ := h
        exact ⟨fun h0 => hne (by rw [h0]; rfl), i, a, b, j, c, d, h1, h2, h3, h4, rfl, rfl, rfl⟩
    · rintro ⟨hne, i, a, b, j, c, d, h1, h2, h3, h4, rfl, rfl, h5⟩
      refine ⟨(a, b), mem_intervals.2 ⟨i, h1, h2⟩, (c, d), mem_intervals.2 ⟨j, h3, h4⟩, ?_⟩
      rw [← h5, if_neg]
      rw [List.isEmpty_iff]; exact hne
  · intro x0 x1 y0 y1 hxs hys h1 h2 h3 h4
    have e : ((splitXY xs ys rows).map fun t => t.2.2).flatten = (intervals xs).flatMap fun b => (intervals ys).flatMap fun c => rows.filter (inSector b c) := by
      rw [splitXY, List.map_flatMap, List.flatten_eq_flatMap, List.flatMap_assoc]
      apply List.flatMap_congr
      intro b _
      rw [← List.flatten_eq_flatMap]
      exact flatten_nonempty (intervals ys) (fun c => rows.filter (inSector b c)) (fun c l => (round2 ((b.1 + b.2) / 2), round2 ((c.1 + c.2) / 2), l)) (fun t => t.2.2) (fun _ _ => rfl)
    rw [e]
    have hin : ∀ b : ℚ × ℚ, ((intervals ys).flatMap fun c => rows.filter (inSector b c)).Perm (rows.filter (inSector b (y0, y1))) := by
      intro b
      have := intervals_partition (fun (r : Norm) (a a' : ℚ) => inSector b (a, a') r)
        ⟨fun r => if (∃ x, r.xpeak = some x ∧ b.1 ≤ x ∧ x < b.2) then r.ypeak else none, fun r a a' => by
          rw [inSector_iff]
          by_cases h : ∃ x, r.xpeak = some x ∧ b.1 ≤ x ∧ x < b.2
          · simp only [h, if_true, true_and]
          · simp only [h, if_false, false_and]
            simp⟩ rows ys y0 y1 hys h3 h4
      exact this
    refine (List.Perm.flatMap_left _ fun b _ => hin b).trans ?_
    exact intervals_partition (fun (r : Norm) (a a' : ℚ) => inSector (a, a') (y0, y1) r)
        ⟨fun r => if (∃ y, r.ypeak = some y ∧ y0 ≤ y ∧ y < y1) then r.xpeak else none, fun r a a' => by
          rw [inSector_iff]
          by_cases h : ∃ y, r.ypeak = some y ∧ y0 ≤ y ∧ y < y1
          · simp only [h, if_true, and_true]
          · simp only [h, if_false, and_false]
            simp⟩ rows xs x0 x1 hxs h1 h2

example : (splitXY [0, 10, 20] [0, 5] [⟨1, 1, 0, 3, some 1, some 10, some 2⟩, ⟨1, 1, 0, 3, some 1, some 20, some 2⟩]) = [(15, 5/2, [⟨1, 1, 0, 3, some 1, some 10, some 2⟩])] := by decide +kernel

/-- **C72** Narrow sectors share their name: the points of two different sectors are averaged together in the accumulated table. -/
theorem narrow_sectors_collapse : (splitXY [0, 1/200, 1/100] [0, 5] [⟨1, 1, 0, 3, some 1, some 0, some 2⟩, ⟨1, 1, 0, 3, some 1, some (1/200), some 2⟩]).map (fun t => (t.1, t.2.1)) =
    [(0, 5/2), (1/100, 5/2)] ∧
    (splitXY [0, 1/400, 1/200] [0, 5] [⟨1, 1, 0, 3, some 1, some 0, some 2⟩, ⟨1, 1, 0, 3, some 1, some (1/400), some 2⟩]).map (fun t => (t.1, t.2.1)) = [(0, 5/2), (0, 5/2)] := by
  decide +kernel

/-! ### The hits of a peak -/

theorem mem_firstRows {rows : List Row} {r : Row} (h : r ∈ firstRows rows) : r.key ∈ rows.map Row.key ∧ ∃ r0 rs, rows.filter (fun s => decide (s.key = r.key)) = r0 :: rs ∧
    r.q = r0.q ∧ r.xpeak = firstValid ((r0 :: rs).map Row.xpeak) ∧ r.ypeak = firstValid ((r0 :: rs).map Row.ypeak) := by
  obtain ⟨g, hg, h⟩ := List.mem_filterMap.1 h
  obtain ⟨h1, h2, h3⟩ := mem_groupBy hg
  cases hg2 : g.2 with
  | nil => exact absurd hg2 h2
  | cons r0 rs =>
    rw [hg2] at h
    simp only [Option.some.injEq] at h
    have hk : r.key = g.1 := by
      rw [← h3 r0 (by rw [hg2]; exact List.mem_cons_self), ← h]; rfl
    refine ⟨?_, r0, rs, ?_, ?_, ?_, ?_⟩
    · rw [hk, ← h3 r0 (by rw [hg2]; exact List.mem_cons_self)]
      have : r0 ∈ g.2 := by rw [hg2]; exact List.mem_cons_self
      rw [h1] at this
      exact List.mem_map_of_mem (List.mem_of_mem_filter this)
    · rw [hk, ← h1, hg2]
    all_goals rw [← h]

theorem firstRows_keys (rows : List Row) : (firstRows rows).map Row.key = groupKeys (rows.map Row.key) := by
  rw [firstRows, groupBy, List.filterMap_map]
  have hall : ∀ k ∈ groupKeys (rows.map Row.key), k ∈ rows.map Row.key := fun k hk => mem_groupKeys.1 hk
  revert hall
  generalize groupKeys (rows.map Row.key) = ks
  intro hall
  induction ks with
  | nil => rfl
  | cons k ks ih =>
    obtain ⟨r, hr, rfl⟩ := List.mem_map.1 (hall k List.mem_cons_self)
    rw [List.filterMap_cons, Function.comp_apply]
    cases hf : rows.filter (fun s => decide (s.key = r.key)) with
    | nil =>
      have : r ∈ rows.filter (fun s => decide (s.key = r.key)) := List.mem_filter.2 ⟨hr, by simp⟩
      rw [hf] at this; cases this
    | cons r0 rs =>
      have hr0 : r0.key = r.key := by
        have : r0 ∈ rows.filter (fun s => decide (s.key = r.key)) := by rw [hf]; exact List.mem_cons_self
        simpa using (List.mem_filter.1 this).2
      have ih := ih fun k hk => hall k (List.mem_cons_of_mem _ hk)
      simp only [List.map_cons] at ih ⊢
      rw [ih, ← hr0]
      rfl

theorem fillPeaks_const {rows : List Row} {xp yp : ℚ} (hx : ∀ r ∈ rows, r.xpeak = some xp ∨ r.xpeak = none) (hy : ∀ r ∈ rows, r.ypeak = some yp ∨ r.ypeak = none)
    (hxm : ∃ r ∈ rows, r.xpeak = some xp) (hym : ∃ r ∈ rows, r.ypeak = some yp) : fillPeaks rows = rows.map fun r => { r with xpeak := some xp, ypeak := some yp } := by
  have h1 := fill_const (v := xp) (vals := rows.map Row.xpeak) (by simpa using hx) (by
    obtain ⟨r, hr, h⟩ := hxm
    exact h ▸ List.mem_map_of_mem hr)
  have h2 := fill_const (v := yp) (vals := rows.map Row.ypeak) (by simpa using hy) (by
    obtain ⟨r, hr, h⟩ := hym
    exact h ▸ List.mem_map_of_mem hr)
  rw [fillPeaks, h1, h2]
  simp only [List.length_map]
  generalize hn : rows.length = n
  induction rows generalizing n with
  | nil => simp
  | cons r rows ih =>
    cases n with
    | zero => simp at hn
    | succ n =>
      simp only [List.replicate_succ, List.zip_cons_cons, List.map_cons]
      congr 1
      have := ih
      clear ih h1 h2 hx hy hxm hym
      simp only [List.length_cons, Nat.add_right_cancel_iff] at hn
      clear this
      induction rows generalizing n with
      | nil => simp
      | cons s rows ih2 =>
        cases n with
        | zero => simp at hn
        | succ n =>
          simp only [List.replicate_succ, List.zip_cons_cons, List.map_cons]
          congr 1
          exact ih2 n (by simpa using hn)

/-- The rows before the normalization. -/
theorem combined_spec (halfx halfy : ℚ) (db : List (ℚ × ℚ)) (h : Hit) (hs : List Hit) (hpk : ∀ h' ∈ hs, h'.xpeak = h.xpeak ∧ h'.ypeak = h.ypeak) :
    ∃ zmin, (∃ h' ∈ h :: hs, h'.z = zmin) ∧ (∀ h' ∈ h :: hs, zmin ≤ h'.z) ∧ ((combined halfx halfy db (h :: hs)).map Row.key).Nodup ∧
      (∀ x y z, [x, y, z] ∈ (combined halfx halfy db (h :: hs)).map Row.key ↔ (∃ h' ∈ h :: hs, h'.x = x ∧ h'.y = y ∧ h'.z = z) ∨
        (z = zmin ∧ (x, y) ∈ sensorsNear halfx halfy db h)) ∧
      ∀ r ∈ combined halfx halfy db (h :: hs), r.xpeak = some h.xpeak ∧ r.ypeak = some h.ypeak ∧
        ((∃ h' rest, ((h :: hs).filter fun h' => decide ((h'.x, h'.y, h'.z) = (r.x, r.y, r.z))) = h' :: rest ∧ r.q = h'.q) ∨
         (((h :: hs).filter fun h' => decide ((h'.x, h'.y, h'.z) = (r.x, r.y, r.z))) = [] ∧ r.q = 0)) := by
  set zmin := Voxels.npMin ((h :: hs).map Hit.z) with hz
  obtain ⟨m1, m2⟩ : (∃ h' ∈ h :: hs, h'.z = zmin) ∧ ∀ h' ∈ h :: hs, zmin ≤ h'.z := by
    have g1 := Paolina.npMin_mem (xs := (h :: hs).map Hit.z) (by simp)
    constructor
    · obtain ⟨h', hm, he⟩ := List.mem_map.1 g1
      exact ⟨h', hm, he⟩
    · intro h' hm
      exact Voxels.npMin_le (List.mem_map_of_mem hm)
  set sens := (sensorsNear halfx halfy db h).map fun s => (⟨s.1, s.2, zmin, 0, none, none⟩ : Row) with hsens
  set all := (h :: hs).map Hit.row ++ sens with hall
  have hpk' : ∀ h' ∈ h :: hs, h'.xpeak = h.xpeak ∧ h'.ypeak = h.ypeak := by
    intro h' hm
    rcases List.mem_cons.1 hm with rfl | hm
    · exact ⟨rfl, rfl⟩
    · exact hpk h' hm
  have hallx : ∀ r ∈ all, (r.xpeak = some h.xpeak ∧ r.ypeak = some h.ypeak) ∨ (r.xpeak = none ∧ r.ypeak = none) := by
    intro r hr
    rcases List.mem_append.1 hr with hr | hr
    · obtain ⟨h', hm, rfl⟩ := List.mem_map.1 hr
      obtain ⟨e1, e2⟩ := hpk' h' hm
      exact .inl ⟨by rw [Hit.row, e1], by rw [Hit.row, e2]⟩
    · obtain ⟨s, _, rfl⟩ := List.mem_map.1 hr
      exact .inr ⟨rfl, rfl⟩
  have hfx : ∀ r ∈ firstRows all, r.xpeak = some h.xpeak ∨ r.xpeak = none := by
    intro r hr
    obtain ⟨_, r0, rs, hf, _, hxp, _⟩ := mem_firstRows hr
    have hsub : ∀ s ∈ r0 :: rs, s ∈ all := fun s hs' => by rw [← hf] at hs'; exact List.mem_of_mem_filter hs'
    rw [hxp]
    by_cases hex : some h.xpeak ∈ (r0 :: rs).map Row.xpeak
    · exact .inl (firstValid_some (by
        intro w hw
        obtain ⟨s, hs', rfl⟩ := List.mem_map.1 hw
        rcases hallx s (hsub s hs') with e | e
        · exact .inl e.1
        · exact .inr e.1) hex)
    · exact .inr (firstValid_none (by
        intro w hw
        obtain ⟨s, hs', rfl⟩ := List.mem_map.1 hw
        rcases hallx s (hsub s hs') with e | e
        · exact absurd (e.1 ▸ hw) hex
        · exact e.1))
  have hfy : ∀ r ∈ firstRows all, r.ypeak = some h.ypeak ∨ r.ypeak = none := by
    intro r hr
    obtain ⟨_, r0, rs, hf, _, _, hyp⟩ := mem_firstRows hr
    have hsub : ∀ s ∈ r0 :: rs, s ∈ all := fun s hs' => by rw [← hf] at hs'; exact List.mem_of_mem_filter hs'
    rw [hyp]
    by_cases hex : some h.ypeak ∈ (r0 :: rs).map Row.ypeak
    · exact .inl (firstValid_some (by
        intro w hw
        obtain ⟨s, hs', rfl⟩ := List.mem_map.1 hw
        rcases hallx s (hsub s hs') with e | e
        · exact .inl e.2
        · exact .inr e.2) hex)
    · exact .inr (firstValid_none (by
        intro w hw
        obtain ⟨s, hs', rfl⟩ := List.mem_map.1 hw
        rcases hallx s (hsub s hs') with e | e
        · exact absurd (e.2 ▸ hw) hex
        · exact e.2))
  have hrow : ∃ r ∈ firstRows all, r.xpeak = some h.xpeak ∧ r.ypeak = some h.ypeak := by
    have hk : h.row.key ∈ (firstRows all).map Row.key := by
      rw [firstRows_keys, mem_groupKeys]
      exact List.mem_map_of_mem (List.mem_append_left _ (List.mem_map_of_mem List.mem_cons_self))
    obtain ⟨r, hr, hrk⟩ := List.mem_map.1 hk
    obtain ⟨_, r0, rs, hf, _, hxp, hyp⟩ := mem_firstRows hr
    have hmem : h.row ∈ r0 :: rs := by
      rw [← hf]
      exact List.mem_filter.2 ⟨List.mem_append_left _ (List.mem_map_of_mem List.mem_cons_self), by simp [hrk]⟩
    have hsub : ∀ s ∈ r0 :: rs, s ∈ all := fun s hs' => by rw [← hf] at hs'; exact List.mem_of_mem_filter hs'
    refine ⟨r, hr, ?_, ?_⟩
    · rw [hxp]
      refine firstValid_some ?_ (List.mem_map_of_mem (f := Row.xpeak) hmem)
      intro w hw
      obtain ⟨s, hs', rfl⟩ := List.mem_map.1 hw
      rcases hallx s (hsub s hs') with e | e
      · exact .inl e.1
      · exact .inr e.1
    · rw [hyp]
      refine firstValid_some ?_ (List.mem_map_of_mem (f := Row.ypeak) hmem)
      intro w hw
      obtain ⟨s, hs', rfl⟩ := List.mem_map.1 hw
      rcases hallx s (hsub s hs') with e | e
      · exact .inl e.2
      · exact .inr e.2
  obtain ⟨r0, hr0, hr0x, hr0y⟩ := hrow
  have hc : combined halfx halfy db (h :: hs) = (firstRows all).map fun r => { r with xpeak := some h.xpeak, ypeak := some h.ypeak } := by
    rw [combined]
    exact fillPeaks_const hfx hfy ⟨r0, hr0, hr0x⟩ ⟨r0, hr0, hr0y⟩
  have hck : (combined halfx halfy db (h :: hs)).map Row.key = groupKeys (all.map Row.key) := by
    rw [hc, List.map_map, ← firstRows_keys]
    rfl
  refine ⟨zmin, m1, m2, ?_, ?_, ?_⟩
  · rw [hck]; exact groupKeys_nodup _
  · intro x y z
    rw [hck, mem_groupKeys, hall, List.map_append, List.mem_append]
    apply or_congr
    · simp only [List.mem_map, exists_exists_and_eq_and]
      simp [Hit.row, Row.key]
    · rw [hsens]
      simp only [List.mem_map, exists_exists_and_eq_and]
      constructor
      · rintro ⟨s, hs', he⟩
        simp only [Row.key, List.cons.injEq, and_true] at he
        obtain ⟨rfl, rfl, rfl⟩ := he
        exact ⟨rfl, hs'⟩
      · rintro ⟨rfl, hs'⟩
        exact ⟨(x, y), hs', rfl⟩
  · intro r hr
    rw [hc] at hr
    obtain ⟨r1, hr1, rfl⟩ := List.mem_map.1 hr
    refine ⟨rfl, rfl, ?_⟩
    obtain ⟨_, r2, rs, hf, hq, _⟩ := mem_firstRows hr1
    rw [hall, List.filter_append, List.filter_map] at hf
    have ef : ((fun s : Row => decide (s.key = r1.key)) ∘ Hit.row) = fun h' => decide ((h'.x, h'.y, h'.z) = (r1.x, r1.y, r1.z)) := by
      funext h'
      simp [Hit.row, Row.key, Function.comp]
    rw [ef] at hf
    simp only
    cases hh : (h :: hs).filter (fun h' => decide ((h'.x, h'.y, h'.z) = (r1.x, r1.y, r1.z))) with
    | nil =>
      right
      refine ⟨rfl, ?_⟩
      rw [hh, List.map_nil, List.nil_append] at hf
      have : r2 ∈ sens := by
        have : r2 ∈ sens.filter (fun s => decide (s.key = r1.key)) := by rw [hf]; exact List.mem_cons_self
        exact List.mem_of_mem_filter this
      obtain ⟨s, _, rfl⟩ := List.mem_map.1 this
      exact hq
    | cons h' rest =>
      left
      refine ⟨h', rest, rfl, ?_⟩
      rw [hh, List.map_cons, List.cons_append, List.cons.injEq] at hf
      rw [hq, ← hf.1]
      rfl

/-- The charge of different positions is kept. -/
theorem combined_charge (halfx halfy : ℚ) (db : List (ℚ × ℚ)) (h : Hit) (hs : List Hit) (hpk : ∀ h' ∈ hs, h'.xpeak = h.xpeak ∧ h'.ypeak = h.ypeak)
    (hnd : ((h :: hs).map fun h' => (h'.x, h'.y, h'.z)).Nodup) : ((combined halfx halfy db (h :: hs)).map Row.q).sum = ((h :: hs).map Hit.q).sum := by
  obtain ⟨zmin, _, _, hn, hk, hq⟩ := combined_spec halfx halfy db h hs hpk
  set rows := combined halfx halfy db (h :: hs) with hrows
  have hq' : ∀ r ∈ rows, r.q = (((h :: hs).filter fun h' => decide ((h'.x, h'.y, h'.z) = (r.x, r.y, r.z))).map Hit.q).sum := by
    intro r hr
    obtain ⟨_, _, h1 | h1⟩ := hq r hr
    · obtain ⟨h', rest, hf, he⟩ := h1
      have hn2 : (((h :: hs).filter fun h' => decide ((h'.x, h'.y, h'.z) = (r.x, r.y, r.z))).map fun h' => (h'.x, h'.y, h'.z)).Nodup :=
        hnd.sublist (List.filter_sublist.map _)
      have hr' : rest = [] := by
        cases rest with
        | nil => rfl
        | cons h2 rest =>
          have e1 : h' ∈ (h :: hs).filter fun h' => decide ((h'.x, h'.y, h'.z) = (r.x, r.y, r.z)) := by rw [hf]; simp
          have e2 : h2 ∈ (h :: hs).filter fun h' => decide ((h'.x, h'.y, h'.z) = (r.x, r.y, r.z)) := by rw [hf]; simp
          have e1' := of_decide_eq_true (List.mem_filter.1 e1).2
          have e2' := of_decide_eq_true (List.mem_filter.1 e2).2
          rw [hf, List.map_cons, List.map_cons, List.nodup_cons, e1', e2'] at hn2
          exact absurd List.mem_cons_self hn2.1
      rw [hf, hr', he]
      simp
    · rw [h1.1, h1.2]; rfl
  rw [List.map_congr_left hq']
  have hsum : ∀ (hits : List Hit), (∀ h' ∈ hits, [h'.x, h'.y, h'.z] ∈ rows.map Row.key) →
      (rows.map fun r => ((hits.filter fun h' => decide ((h'.x, h'.y, h'.z) = (r.x, r.y, r.z))).map Hit.q).sum).sum = (hits.map Hit.q).sum := by
    intro hits
    induction hits with
    | nil => intro _; simp
    | cons a hits ih =>
      intro hm
      have e : ∀ r : Row, (((a :: hits).filter fun h' => decide ((h'.x, h'.y, h'.z) = (r.x, r.y, r.z))).map Hit.q).sum =
          (if [a.x, a.y, a.z] = r.key then a.q else 0) + ((hits.filter fun h' => decide ((h'.x, h'.y, h'.z) = (r.x, r.y, r.z))).map Hit.q).sum := by
        intro r
        rw [List.filter_cons]
        have e3 : ([a.x, a.y, a.z] = r.key) ↔ ((a.x, a.y, a.z) = (r.x, r.y, r.z)) := by simp [Row.key]
        by_cases h3 : (a.x, a.y, a.z) = (r.x, r.y, r.z)
        · rw [if_pos (by simpa using h3), if_pos (e3.2 h3)]; simp
        · rw [if_neg (by simpa using h3), if_neg (fun h => h3 (e3.1 h))]; simp
      rw [List.map_congr_left fun r _ => e r, List.sum_map_add, ih fun h' hm' => hm h' (List.mem_cons_of_mem _ hm')]
      rw [List.map_cons, List.sum_cons]
      congr 1
      have hone : ∀ (l : List Row), (l.map Row.key).Nodup → [a.x, a.y, a.z] ∈ l.map Row.key → (l.map fun r => if [a.x, a.y, a.z] = r.key then a.q else 0).sum = a.q := by
        intro l
        induction l with
        | nil => intro _ h; simp at h
        | cons r l ihl =>
          intro hn hm
          rw [List.map_cons, List.nodup_cons] at hn
          rw [List.map_cons, List.sum_cons]
          by_cases he : [a.x, a.y, a.z] = r.key
          · rw [if_pos he]
            have : (l.map fun r => if [a.x, a.y, a.z] = r.key then a.q else 0).sum = 0 := by
              apply List.sum_eq_zero
              intro v hv
              obtain ⟨r', hr', rfl⟩ := List.mem_map.1 hv
              rw [if_neg]
              intro he'
              exact hn.1 (he ▸ he' ▸ List.mem_map_of_mem hr')
            rw [this, add_zero]
          · rw [if_neg he, zero_add]
            rcases List.mem_cons.1 hm with h4 | h4
            · exact absurd h4 he
            · exact ihl hn.2 h4
      exact hone rows hn (hm a List.mem_cons_self)
  exact hsum (h :: hs) fun h' hm => (hk h'.x h'.y h'.z).2 (.inl ⟨h', hm, rfl, rfl, rfl⟩)

/-- The sensors of the database in the square around the peak, closed on the left. -/
theorem mem_sensorsNear {dx dy : ℚ} {db : List (ℚ × ℚ)} {h : Hit} {s : ℚ × ℚ} : s ∈ sensorsNear dx dy db h ↔
    s ∈ db ∧ h.xpeak - dx ≤ s.1 ∧ s.1 < h.xpeak + dx ∧ h.ypeak - dy ≤ s.2 ∧ s.2 < h.ypeak + dy := by
  simp [sensorsNear, within_iff, and_assoc]

/-- **C73** The rows of a peak prepared for the PSF: one row for each position with a hit and for each sensor of the database in the rectangle around the peak, at the lowest z; with the charge of the (first) hit of the
position or 0, the peak position of the hits, and normalized charges that add up to 1.  If no position has two hits the normalized charge is the fraction of the charge of the peak. -/
theorem peak_prepared (halfx halfy : ℚ) (db : List (ℚ × ℚ)) (h : Hit) (hs : List Hit) (hpk : ∀ h' ∈ hs, h'.xpeak = h.xpeak ∧ h'.ypeak = h.ypeak)
    (hnd : ((h :: hs).map fun h' => (h'.x, h'.y, h'.z)).Nodup) (htot : ((h :: hs).map Hit.q).sum ≠ 0) :
    ((addEmpty halfx halfy db (h :: hs)).map fun r => (r.x, r.y, r.z)).Nodup ∧
    (∃ zmin, (∃ h' ∈ h :: hs, h'.z = zmin) ∧ (∀ h' ∈ h :: hs, zmin ≤ h'.z) ∧
      ∀ x y z, (∃ r ∈ addEmpty halfx halfy db (h :: hs), r.x = x ∧ r.y = y ∧ r.z = z) ↔ (∃ h' ∈ h :: hs, h'.x = x ∧ h'.y = y ∧ h'.z = z) ∨
        (z = zmin ∧ (x, y) ∈ db ∧ h.xpeak - halfx ≤ x ∧ x < h.xpeak + halfx ∧ h.ypeak - halfy ≤ y ∧ y < h.ypeak + halfy)) ∧
    (∀ r ∈ addEmpty halfx halfy db (h :: hs), r.xpeak = some h.xpeak ∧ r.ypeak = some h.ypeak ∧ r.normQ = some (r.q / ((h :: hs).map Hit.q).sum) ∧
      ((∃ h' ∈ h :: hs, h'.x = r.x ∧ h'.y = r.y ∧ h'.z = r.z ∧ r.q = h'.q) ∨ ((∀ h' ∈ h :: hs, ¬ (h'.x = r.x ∧ h'.y = r.y ∧ h'.z = r.z)) ∧ r.q = 0))) ∧
    ((addEmpty halfx halfy db (h :: hs)).map fun r => r.normQ.getD 0).sum = 1 := by
  have htot' := combined_charge halfx halfy db h hs hpk hnd
  obtain ⟨zmin, m1, m2, hn, hk, hq⟩ := combined_spec halfx halfy db h hs hpk
  have hadd : addEmpty halfx halfy db (h :: hs) = (combined halfx halfy db (h :: hs)).map fun r =>
      (⟨r.x, r.y, r.z, r.q, some (r.q / ((h :: hs).map Hit.q).sum), r.xpeak, r.ypeak⟩ : Norm) := by
    rw [addEmpty]
    apply List.map_congr_left
    intro r _
    rw [htot', if_neg htot]
  rw [hadd]
  refine ⟨?_, ⟨zmin, m1, m2, ?_⟩, ?_, ?_⟩
  · rw [List.map_map]
    have : (combined halfx halfy db (h :: hs)).map Row.key = ((combined halfx halfy db (h :: hs)).map ((fun r : Norm => (r.x, r.y, r.z)) ∘
        fun r : Row => (⟨r.x, r.y, r.z, r.q, some (r.q / ((h :: hs).map Hit.q).sum), r.xpeak, r.ypeak⟩ : Norm))).map fun t => [t.1, t.2.1, t.2.2] := by
      rw [List.map_map]; rfl
    rw [this] at hn
    exact List.Nodup.of_map _ hn
  · intro x y z
    have := hk x y z
    rw [mem_sensorsNear] at this
    rw [← this]
    simp [Row.key]
  · intro r hr
    obtain ⟨r1, hr1, rfl⟩ := List.mem_map.1 hr
    obtain ⟨h1, h2, h3⟩ := hq r1 hr1
    refine ⟨h1, h2, rfl, ?_⟩
    rcases h3 with ⟨h', rest, hf, he⟩ | ⟨hf, he⟩
    · left
      have : h' ∈ (h :: hs).filter fun h' => decide ((h'.x, h'.y, h'.z) = (r1.x, r1.y, r1.z)) := by rw [hf]; exact List.mem_cons_self
      obtain ⟨g1, g2⟩ := List.mem_filter.1 this
      simp only [Prod.mk.injEq, decide_eq_true_eq] at g2
      exact ⟨h', g1, g2.1, g2.2.1, g2.2.2, he⟩
    · right
      refine ⟨?_, he⟩
      intro h' hm hp
      have : h' ∈ (h :: hs).filter fun h' => decide ((h'.x, h'.y, h'.z) = (r1.x, r1.y, r1.z)) := List.mem_filter.2 ⟨hm, by simp [hp]⟩
      rw [hf] at this
      cases this
  · rw [List.map_map]
    have : ((fun r : Norm => r.normQ.getD 0) ∘ fun r : Row => (⟨r.x, r.y, r.z, r.q, some (r.q / ((h :: hs).map Hit.q).sum), r.xpeak, r.ypeak⟩ : Norm)) =
        fun r : Row => r.q / ((h :: hs).map Hit.q).sum := rfl
    rw [this]
    have e : ∀ (l : List Row) (c : ℚ), (l.map fun r => r.q / c).sum = (l.map Row.q).sum / c := by
      intro l c
      induction l with
      | nil => simp
      | cons a l ih => simp only [List.map_cons, List.sum_cons]; rw [ih]; ring
    rw [e, htot', div_self htot]

example : addEmpty 5 5 [(0, 0), (4, 0), (5, 0), (-5, 0)] [⟨1, 0, 0, 0, 0, 7, 3, 0, 0⟩, ⟨1, 0, 0, 10, 0, 8, 1, 0, 0⟩] =
    [⟨-5, 0, 7, 0, some 0, some 0, some 0⟩, ⟨0, 0, 7, 3, some (3/4), some 0, some 0⟩, ⟨4, 0, 7, 0, some 0, some 0, some 0⟩, ⟨10, 0, 8, 1, some (1/4), some 0, some 0⟩] := by decide +kernel

/-- **C73** Each event, time and peak is prepared on its own; the peaks are in the increasing order of event, time and number. -/
theorem peaks_independent (halfx halfy : ℚ) (db : List (ℚ × ℚ)) (hits : List Hit) : ∃ peaks : List (List Hit), process halfx halfy db hits = peaks.flatMap (addEmpty halfx halfy db) ∧
    peaks.flatten.Perm hits ∧ (∀ p ∈ peaks, ∃ h ∈ p, p = hits.filter fun h' => decide (h'.event = h.event ∧ h'.time = h.time ∧ h'.npeak = h.npeak)) ∧
    (∀ h ∈ hits, ∃ p ∈ peaks, h ∈ p) ∧ peaks.Pairwise fun p p' => ∀ h ∈ p, ∀ h' ∈ p', (h.event, h.time, h.npeak) ≠ (h'.event, h'.time, h'.npeak) := by
  refine ⟨(groupBy Hit.key hits).map Prod.snd, ?_, groupBy_perm _ _, ?_, ?_, ?_⟩
  · rw [process, List.flatMap_map]
  · intro p hp
    obtain ⟨g, hg, rfl⟩ := List.mem_map.1 hp
    obtain ⟨h1, h2, h3⟩ := mem_groupBy hg
    obtain ⟨h, hh⟩ := List.exists_mem_of_ne_nil _ h2
    refine ⟨h, hh, ?_⟩
    have e : (fun r : Hit => decide (r.key = g.1)) = fun h' => decide (h'.event = h.event ∧ h'.time = h.time ∧ h'.npeak = h.npeak) := by
      funext r
      rw [← h3 h hh, Bool.eq_iff_iff, decide_eq_true_eq, decide_eq_true_eq]
      simp [Hit.key]
    rw [← e]
    exact h1
  · intro h hh
    have := (groupBy_perm Hit.key hits).mem_iff.2 hh
    obtain ⟨p, hp, hm⟩ := List.mem_flatten.1 this
    exact ⟨p, hp, hm⟩
  · rw [List.pairwise_map, groupBy, List.pairwise_map]
    refine (groupKeys_nodup (hits.map Hit.key)).imp ?_
    intro a b hab h hh h' hh' he
    have e1 := of_decide_eq_true (List.mem_filter.1 hh).2
    have e2 := of_decide_eq_true (List.mem_filter.1 hh').2
    simp only [Prod.mk.injEq] at he
    apply hab
    rw [← e1, ← e2]
    simp [Hit.key, he]

example : (process 1 1 [] [⟨2, 0, 0, 0, 0, 7, 3, 0, 0⟩, ⟨1, 0, 0, 10, 0, 8, 1, 0, 0⟩, ⟨2, 0, 0, 5, 0, 7, 1, 0, 0⟩]).map (fun r => (r.x, r.normQ)) = [(10, some 1), (0, some (3/4)), (5, some (1/4))] := by decide +kernel

/-- **C73** Two hits of a peak in the same position: only the charge of the first one counts. -/
theorem repeated_position_loses_charge : (addEmpty 5 5 [] [⟨1, 0, 0, 0, 0, 7, 3, 0, 0⟩, ⟨1, 0, 0, 0, 0, 7, 5, 0, 0⟩, ⟨1, 0, 0, 10, 0, 7, 1, 0, 0⟩]).map (fun r => (r.x, r.normQ)) =
    [(0, some (3/4)), (10, some (1/4))] := by decide +kernel

/-- **C73** A sensor with a signal that is not at the lowest z gets a second row, without charge. -/
theorem sensor_twice : (addEmpty 5 5 [(0, 0)] [⟨1, 0, 0, 0, 0, 8, 3, 0, 0⟩, ⟨1, 0, 0, 10, 0, 7, 1, 0, 0⟩]).map (fun r => (r.x, r.z, r.q)) = [(0, 7, 0), (0, 8, 3), (10, 7, 1)] := by decide +kernel

/-- **C73** A peak without charge: all its normalized charges are NaN. -/
theorem chargeless_peak (halfx halfy : ℚ) (db : List (ℚ × ℚ)) (h : Hit) (hs : List Hit) (hpk : ∀ h' ∈ hs, h'.xpeak = h.xpeak ∧ h'.ypeak = h.ypeak)
    (hnd : ((h :: hs).map fun h' => (h'.x, h'.y, h'.z)).Nodup) (htot : ((h :: hs).map Hit.q).sum = 0) : ∀ r ∈ addEmpty halfx halfy db (h :: hs), r.normQ = none := by
  intro r hr
  rw [addEmpty] at hr
  obtain ⟨r1, _, rfl⟩ := List.mem_map.1 hr
  simp only [combined_charge halfx halfy db h hs hpk hnd, htot, if_true]

example : (addEmpty 5 5 [(1, 1)] [⟨1, 0, 0, 0, 0, 8, 0, 0, 0⟩]).map (fun r => (r.x, r.normQ)) = [(0, none), (1, none)] := by decide +kernel

/-! ### The whole city -/

theorem point_relative (r : Norm) : r.point = relative r := by
  rw [Norm.point, relative]
  cases r.xpeak <;> cases r.ypeak <;> rfl

theorem filePsfs_chunks (c : Config) (db : List (ℚ × ℚ)) (hits : List Hit) : filePsfs c db hits =
    (fileChunks c db hits).mapM fun ch => buildPsf (Config.edges c.binSize c.xrange) (Config.edges c.binSize c.yrange) ch.x ch.y ch.z ch.pts := by
  have hp : (Norm.point : Norm → Option Point) = relative := funext point_relative
  rw [filePsfs, fileChunks, hp]
  generalize splitZ c.zbins hits = sl
  have : ∀ (l : List (ℚ × ℚ × ℚ × List Norm)), l.mapM (fun u => buildPsf (Config.edges c.binSize c.xrange) (Config.edges c.binSize c.yrange) u.2.1 u.2.2.1 u.1 (u.2.2.2.filterMap relative)) =
      (l.map fun u => (⟨u.2.1, u.2.2.1, u.1, u.2.2.2.filterMap relative⟩ : Chunk)).mapM
        fun ch => buildPsf (Config.edges c.binSize c.xrange) (Config.edges c.binSize c.yrange) ch.x ch.y ch.z ch.pts := by
    intro l
    induction l with
    | nil => rfl
    | cons a l ih => simp only [List.map_cons, List.mapM_cons, ih]
  rw [this, List.map_flatMap]
  congr 1
  apply List.flatMap_congr
  intro s _
  rw [List.map_map]
  rfl

theorem edges_sorted {size : ℚ} {r : ℚ × ℚ} (hs : 0 < size) (hr : size ≤ r.2 - r.1) : (Config.edges size r).Pairwise (· < ·) := by
  refine linspace_sorted (by linarith) ?_
  have : (1 : ℤ) ≤ ⌊(r.2 - r.1) / size⌋ := by
    rw [Int.le_floor, le_div_iff₀ hs]
    push_cast
    linarith
  omega

/-- **C72** The table of eutropia: with the same number of bins in x and y, one row for each bin of each slice and sector with hits, that has the number of points of all the files and events
that fall in it and the average of their normalized charges. -/
theorem eutropia_table (c : Config) (db : List (ℚ × ℚ)) (files : List (List Hit)) (hsize : 0 < c.binSize) (hx : c.binSize ≤ c.xrange.2 - c.xrange.1) (hy : c.binSize ≤ c.yrange.2 - c.yrange.1)
    (hn : ⌊(c.xrange.2 - c.xrange.1) / c.binSize⌋ = ⌊(c.yrange.2 - c.yrange.1) / c.binSize⌋) (hne : files.flatMap (fileChunks c db) ≠ [])
    (hq : ∀ f ∈ files, ∀ ch ∈ fileChunks c db f, ∀ p ∈ ch.pts, p.2.2 ≠ none) :
    ∃ t, eutropia c db files = .ok (some t) ∧ (t.map Cell.key).Nodup ∧
      (∀ d ∈ t, ∃ f ∈ files, ∃ ch ∈ fileChunks c db f, ∃ i j xr yr, IsCentre (Config.edges c.binSize c.xrange) i xr ∧ IsCentre (Config.edges c.binSize c.yrange) j yr ∧ d.At xr yr ch.x ch.y ch.z) ∧
      ∀ f ∈ files, ∀ ch ∈ fileChunks c db f, ∀ i j xr yr, IsCentre (Config.edges c.binSize c.xrange) i xr → IsCentre (Config.edges c.binSize c.yrange) j yr →
        ∃ d ∈ t, d.At xr yr ch.x ch.y ch.z ∧ ∃ ps, Sample (Config.edges c.binSize c.xrange) (Config.edges c.binSize c.yrange) (files.flatMap (fileChunks c db)) ch.x ch.y ch.z i j ps ∧
          d.nevt = ps.length ∧ d.factor = if ps = [] then 0 else (ps.map fun p => p.2.2.getD 0).sum / ps.length := by
  have hlen : (Config.edges c.binSize c.xrange).length = (Config.edges c.binSize c.yrange).length := by
    rw [Config.edges, Config.edges, hn, linspace, linspace]
    simp
  obtain ⟨psfs, t, h1, h2, h3, h4, h5⟩ := accumulated_average _ _ (edges_sorted hsize hx) (edges_sorted hsize hy) hlen (files.flatMap (fileChunks c db)) hne (by
    intro ch hch
    obtain ⟨f, hf, hm⟩ := List.mem_flatMap.1 hch
    exact hq f hf ch hm)
  refine ⟨t, ?_, h3, ?_, ?_⟩
  · have hfl : ∀ (files : List (List Hit)) (ps : List (List Cell)), (files.flatMap (fileChunks c db)).mapM
        (fun ch => buildPsf (Config.edges c.binSize c.xrange) (Config.edges c.binSize c.yrange) ch.x ch.y ch.z ch.pts) = .ok ps →
        ∃ pss, files.mapM (filePsfs c db) = .ok pss ∧ pss.flatten = ps := by
      intro files
      induction files with
      | nil => intro ps h; exact ⟨[], rfl, by simp only [List.flatMap_nil, List.mapM_nil] at h; cases h; rfl⟩
      | cons f fs ih =>
        intro ps h
        rw [List.flatMap_cons, mapM_ok_iff] at h
        have h6 := List.forall₂_take_append _ _ _ h.flip
        have h7 := List.forall₂_drop_append _ _ _ h.flip
        replace h6 := h6.flip
        replace h7 := h7.flip
        obtain ⟨pss, h8, h9⟩ := ih _ (mapM_ok_iff.2 h7)
        refine ⟨ps.take (fileChunks c db f).length :: pss, ?_, ?_⟩
        · rw [List.mapM_cons, filePsfs_chunks, mapM_ok_iff.2 h6, h8]
          rfl
        · rw [List.flatten_cons, h9, List.take_append_drop]
    obtain ⟨pss, h6, h7⟩ := hfl files psfs h1
    rw [eutropia, h6]
    simp only [h7, h2]
  · intro d hd
    obtain ⟨ch, hch, g⟩ := h4 d hd
    obtain ⟨f, hf, hm⟩ := List.mem_flatMap.1 hch
    exact ⟨f, hf, ch, hm, g⟩
  · intro f hf ch hch
    exact h5 ch (List.mem_flatMap.2 ⟨f, hf, hch⟩)

example : eutropia ⟨(-10, 10), (-10, 10), [0, 10], [-10, 10], [-10, 10], 10⟩ [(0, 0), (6, 0)] [[⟨1, 0, 0, 0, 0, 7, 3, 0, 0⟩, ⟨1, 0, 0, 6, 0, 7, 1, 0, 0⟩], [⟨2, 0, 0, 0, 0, 7, 3, 0, 0⟩]] =
    .ok (some [⟨-5, -5, 0, 0, 0, 5, 0, 0⟩, ⟨-5, 5, 0, 0, 0, 5, 0, 0⟩, ⟨5, -5, 0, 0, 0, 5, 0, 0⟩, ⟨5, 5, 0, 0, 0, 5, 1/2, 4⟩]) := by decide +kernel

/-- **C72** Without hits in the slices and sectors there is no table at all. -/
theorem eutropia_nothing (c : Config) (db : List (ℚ × ℚ)) (files : List (List Hit)) (h : files.flatMap (fileChunks c db) = []) : eutropia c db files = .ok none := by
  have : ∃ pss, files.mapM (filePsfs c db) = .ok pss ∧ pss.flatten = [] := by
    induction files with
    | nil => exact ⟨[], rfl, rfl⟩
    | cons f fs ih =>
      rw [List.flatMap_cons, List.append_eq_nil_iff] at h
      obtain ⟨pss, h1, h2⟩ := ih h.2
      refine ⟨[] :: pss, ?_, by simpa using h2⟩
      rw [List.mapM_cons, filePsfs_chunks, h.1, h1]
      rfl
  obtain ⟨pss, h1, h2⟩ := this
  rw [eutropia, h1]
  simp only [h2]
  rfl

example : eutropia ⟨(-10, 10), (-10, 10), [0, 10], [-10, 10], [-10, 10], 10⟩ [] [[⟨1, 0, 0, 0, 0, 17, 3, 0, 0⟩]] = .ok none := by decide +kernel

end Verif.Psf
