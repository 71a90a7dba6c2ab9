import Verif.Spec.Psf
import Verif.Lemmas.Frame
import Verif.Lemmas.Edges
import Verif.Props.Core
import Verif.Lemmas.Lists
/-!
# C72: accumulated point spread functions
-/
namespace Verif.Psf
open Verif.Frame
open Verif.Voxels (histBin histBin_sorted)

/-- The sum of a table by keys. -/
def merge (rows : List Cell) : List Cell := (groupBy Cell.key rows).filterMap fun g => sumGroup g.1 g.2

theorem nat_sum_zero {l : List Cell} (h : (l.map Cell.nevt).sum = 0) : (l.map Cell.charge).sum = 0 := by
  induction l with
  | nil => rfl
  | cons c l ih =>
    simp only [List.map_cons, List.sum_cons] at h ⊢
    have h1 : c.nevt = 0 := by omega
    rw [ih (by omega), Cell.charge, h1]
    simp

theorem sumGroup_key {c : Cell} {rows : List Cell} : ∃ d, sumGroup c.key rows = some d ∧ d.key = c.key ∧ d.nevt = (rows.map Cell.nevt).sum ∧
    d.factor * d.nevt = (rows.map Cell.charge).sum ∧ (d.nevt = 0 → d.factor = 0) := by
  refine ⟨_, rfl, rfl, rfl, ?_, ?_⟩
  · by_cases h : (rows.map Cell.nevt).sum = 0
    · simp only [h, if_true, nat_sum_zero h]; simp
    · simp only [h, if_false]
      have : (((rows.map Cell.nevt).sum : Nat) : ℚ) ≠ 0 := by exact_mod_cast h
      field_simp
  · intro h
    simp only at h
    simp [h]

theorem merge_eq (rows : List Cell) : ∃ f : List ℚ → Cell, merge rows = (groupKeys (rows.map Cell.key)).map f ∧
    ∀ k ∈ groupKeys (rows.map Cell.key), (f k).key = k ∧ (f k).nevt = entriesAt rows k ∧ (f k).factor * (f k).nevt = chargeAt rows k ∧ ((f k).nevt = 0 → (f k).factor = 0) := by
  refine ⟨fun k => (sumGroup k (rows.filter fun r => decide (r.key = k))).getD ⟨0, 0, 0, 0, 0, 0, 0, 0⟩, ?_, ?_⟩
  · rw [merge, groupBy, List.filterMap_map]
    have hall : ∀ k ∈ groupKeys (rows.map Cell.key), ∃ c : Cell, c.key = k := by
      intro k hk
      obtain ⟨c, _, h⟩ := List.mem_map.1 (mem_groupKeys.1 hk)
      exact ⟨c, h⟩
    revert hall
    generalize groupKeys (rows.map Cell.key) = ks
    intro hall
    induction ks with
    | nil => rfl
    | cons k ks ih =>
      obtain ⟨c, rfl⟩ := hall k List.mem_cons_self
      obtain ⟨d, hd, _⟩ := @sumGroup_key c (rows.filter fun r => decide (r.key = c.key))
      rw [List.filterMap_cons, Function.comp_apply]
      simp only [hd, List.map_cons, Option.getD_some]
      rw [ih fun k hk => hall k (List.mem_cons_of_mem _ hk)]
  · intro k hk
    obtain ⟨c, _, rfl⟩ := List.mem_map.1 (mem_groupKeys.1 hk)
    obtain ⟨d, hd, h1, h2, h3, h4⟩ := @sumGroup_key c (rows.filter fun r => decide (r.key = c.key))
    simp only [hd, Option.getD_some]
    exact ⟨h1, h2, h3, h4⟩

theorem merge_keys (rows : List Cell) : (merge rows).map Cell.key = groupKeys (rows.map Cell.key) := by
  obtain ⟨f, h1, h2⟩ := merge_eq rows
  rw [h1, List.map_map]
  conv_rhs => rw [← List.map_id (groupKeys (rows.map Cell.key))]
  exact List.map_congr_left fun k hk => (h2 k hk).1

theorem merge_cell {rows : List Cell} {c : Cell} (h : c ∈ merge rows) :
    c.nevt = entriesAt rows c.key ∧ c.factor * c.nevt = chargeAt rows c.key ∧ (c.nevt = 0 → c.factor = 0) := by
  obtain ⟨f, h1, h2⟩ := merge_eq rows
  rw [h1] at h
  obtain ⟨k, hk, rfl⟩ := List.mem_map.1 h
  obtain ⟨h3, h4, h5, h6⟩ := h2 k hk
  rw [h3]
  exact ⟨h4, h5, h6⟩

/-- A cell is determined by its key, its entries and its charge. -/
theorem cell_ext {c d : Cell} (hk : c.key = d.key) (hn : c.nevt = d.nevt) (hc : c.factor * c.nevt = d.factor * d.nevt)
    (h1 : c.nevt = 0 → c.factor = 0) (h2 : d.nevt = 0 → d.factor = 0) : c = d := by
  have hf : c.factor = d.factor := by
    by_cases h : c.nevt = 0
    · rw [h1 h, h2 (hn ▸ h)]
    · have h' : (c.nevt : ℚ) ≠ 0 := by exact_mod_cast h
      rw [← hn] at hc
      exact mul_right_cancel₀ h' hc
  obtain ⟨a1, a2, a3, a4, a5, a6, a7, a8⟩ := c
  obtain ⟨b1, b2, b3, b4, b5, b6, b7, b8⟩ := d
  simp only [Cell.key, List.cons.injEq] at hk
  simp only at hn hf
  simp [hn, hf, hk]

theorem merge_congr {r1 r2 : List Cell} (hk : ∀ k, k ∈ r1.map Cell.key ↔ k ∈ r2.map Cell.key) (hn : ∀ k, entriesAt r1 k = entriesAt r2 k)
    (hc : ∀ k, chargeAt r1 k = chargeAt r2 k) : merge r1 = merge r2 := by
  obtain ⟨f, h1, h2⟩ := merge_eq r1
  obtain ⟨g, h3, h4⟩ := merge_eq r2
  have e := groupKeys_congr hk
  rw [h1, h3, ← e]
  apply List.map_congr_left
  intro k hm
  obtain ⟨a1, a2, a3, a4⟩ := h2 k hm
  obtain ⟨b1, b2, b3, b4⟩ := h4 k (e ▸ hm)
  exact cell_ext (a1.trans b1.symm) (by rw [a2, b2, hn]) (by rw [a3, b3, hc]) a4 b4

theorem entriesAt_append (a b : List Cell) (k : List ℚ) : entriesAt (a ++ b) k = entriesAt a k + entriesAt b k := by simp [entriesAt]
theorem chargeAt_append (a b : List Cell) (k : List ℚ) : chargeAt (a ++ b) k = chargeAt a k + chargeAt b k := by simp [chargeAt]

theorem at_nodup {t : List Cell} (hn : (t.map Cell.key).Nodup) {c : Cell} (hc : c ∈ t) : t.filter (fun d => decide (d.key = c.key)) = [c] := by
  induction t with
  | nil => cases hc
  | cons d t ih =>
    rw [List.map_cons, List.nodup_cons] at hn
    rcases List.mem_cons.1 hc with rfl | hc
    · rw [List.filter_cons, if_pos (by simp)]
      congr 1
      rw [List.filter_eq_nil_iff]
      intro e he
      simp only [decide_eq_true_eq]
      intro h
      exact hn.1 (h ▸ List.mem_map_of_mem he)
    · rw [List.filter_cons, if_neg]
      · exact ih hn.2 hc
      · simp only [decide_eq_true_eq]
        intro h
        exact hn.1 (h ▸ List.mem_map_of_mem hc)

theorem at_missing {t : List Cell} {k : List ℚ} (h : k ∉ t.map Cell.key) : t.filter (fun d => decide (d.key = k)) = [] := by
  rw [List.filter_eq_nil_iff]
  intro d hd
  simp only [decide_eq_true_eq]
  intro hk
  exact h (hk ▸ List.mem_map_of_mem hd)

/-- The sum by keys keeps the entries and the charge of every key. -/
theorem merge_totals (rows : List Cell) (k : List ℚ) : entriesAt (merge rows) k = entriesAt rows k ∧ chargeAt (merge rows) k = chargeAt rows k := by
  by_cases hk : k ∈ rows.map Cell.key
  · have hk' : k ∈ (merge rows).map Cell.key := by rw [merge_keys, mem_groupKeys]; exact hk
    obtain ⟨c, hc, rfl⟩ := List.mem_map.1 hk'
    obtain ⟨h1, h2, _⟩ := merge_cell hc
    have hn : ((merge rows).map Cell.key).Nodup := by rw [merge_keys]; exact groupKeys_nodup _
    rw [← h1, ← h2]
    simp [entriesAt, chargeAt, at_nodup hn hc]
  · have hk' : k ∉ (merge rows).map Cell.key := by rw [merge_keys, mem_groupKeys]; exact hk
    simp [entriesAt, chargeAt, at_missing hk, at_missing hk']

theorem combine_some (a b : List Cell) : combine (some a) b = some (merge (a ++ b)) := rfl

theorem merge_merge (a b : List Cell) : merge (merge a ++ b) = merge (a ++ b) := by
  apply merge_congr
  · intro k
    rw [List.map_append, List.map_append, List.mem_append, List.mem_append, merge_keys, mem_groupKeys]
  · intro k; rw [entriesAt_append, entriesAt_append, (merge_totals a k).1]
  · intro k; rw [chargeAt_append, chargeAt_append, (merge_totals a k).2]

theorem accumulate_two (p q : List Cell) (ps : List (List Cell)) : accumulate (p :: q :: ps) = some (merge (p ++ q ++ ps.flatten)) := by
  rw [accumulate, List.foldl_cons, List.foldl_cons]
  have : ∀ (ps : List (List Cell)) (a : List Cell), ps.foldl combine (some (merge a)) = some (merge (a ++ ps.flatten)) := by
    intro ps
    induction ps with
    | nil => intro a; simp
    | cons r rs ih =>
      intro a
      rw [List.foldl_cons, combine_some, merge_merge, ih, List.flatten_cons, List.append_assoc]
  rw [show combine (combine none p) q = some (merge (p ++ q)) from rfl, this]

/-- **C72** Whatever the number of tables, the accumulated table has one row for each bin and sector of the tables, with the sum of the entries and the average of the factors weighted by the entries;
for a single table this needs that its rows have different keys, as those of `buildPsf`. -/
theorem accumulate_spec (psfs : List (List Cell)) (hne : psfs ≠ []) (h1 : ∀ p, psfs = [p] → (p.map Cell.key).Nodup ∧ ∀ c ∈ p, c.nevt = 0 → c.factor = 0) :
    ∃ t, accumulate psfs = some t ∧ (t.map Cell.key).Nodup ∧ (∀ k, k ∈ t.map Cell.key ↔ ∃ p ∈ psfs, k ∈ p.map Cell.key) ∧
      ∀ c ∈ t, c.nevt = (psfs.map fun p => entriesAt p c.key).sum ∧ c.factor * c.nevt = (psfs.map fun p => chargeAt p c.key).sum ∧ (c.nevt = 0 → c.factor = 0) := by
  match psfs, hne, h1 with
  | [p], _, h1 =>
    obtain ⟨hn, h0⟩ := h1 p rfl
    refine ⟨p, rfl, hn, fun k => by simp, fun c hc => ⟨?_, ?_, h0 c hc⟩⟩
    · simp [entriesAt, at_nodup hn hc]
    · simp [chargeAt, at_nodup hn hc]
  | p :: q :: ps, _, _ =>
    have hfl : p ++ q ++ ps.flatten = (p :: q :: ps).flatten := by simp
    have he : ∀ (l : List (List Cell)) k, entriesAt l.flatten k = (l.map fun p => entriesAt p k).sum := by
      intro l k
      induction l with
      | nil => rfl
      | cons a l ih => rw [List.flatten_cons, entriesAt_append, ih]; rfl
    have hc : ∀ (l : List (List Cell)) k, chargeAt l.flatten k = (l.map fun p => chargeAt p k).sum := by
      intro l k
      induction l with
      | nil => rfl
      | cons a l ih => rw [List.flatten_cons, chargeAt_append, ih]; rfl
    refine ⟨merge (p ++ q ++ ps.flatten), accumulate_two p q ps, ?_, ?_, ?_⟩
    · rw [merge_keys]; exact groupKeys_nodup _
    · intro k
      rw [merge_keys, mem_groupKeys, hfl, List.map_flatten, List.mem_flatten]
      simp only [List.mem_map, exists_exists_and_eq_and]
    · intro c hc'
      obtain ⟨a, b, d⟩ := merge_cell hc'
      rw [hfl] at a b
      exact ⟨a.trans (he _ _), b.trans (hc _ _), d⟩

example : accumulate [[⟨0, 0, 0, 1, 1, 5, 1/2, 2⟩], [⟨0, 0, 0, 1, 1, 5, 1/4, 6⟩, ⟨1, 0, 0, 1, 1, 5, 0, 0⟩]] =
    some [⟨0, 0, 0, 1, 1, 5, 5/16, 8⟩, ⟨1, 0, 0, 1, 1, 5, 0, 0⟩] := by decide +kernel

/-- **C72** The order of two or more tables (of the files, slices and sectors) does not matter. -/
theorem accumulate_order (p q : List Cell) (ps : List (List Cell)) (psfs : List (List Cell)) (h : psfs.Perm (p :: q :: ps)) : accumulate psfs = accumulate (p :: q :: ps) := by
  match psfs, h with
  | [], h => exact absurd h.length_eq (by simp)
  | [_], h => exact absurd h.length_eq (by simp)
  | a :: b :: cs, h =>
    rw [accumulate_two, accumulate_two]
    have e1 : a ++ b ++ cs.flatten = (a :: b :: cs).flatten := by simp
    have e2 : p ++ q ++ ps.flatten = (p :: q :: ps).flatten := by simp
    rw [e1, e2]
    have hp : (a :: b :: cs).flatten.Perm (p :: q :: ps).flatten := h.flatten
    congr 1
    apply merge_congr
    · intro k; exact (hp.map _).mem_iff
    · intro k; exact ((hp.filter _).map _).sum_nat
    · intro k; exact ((hp.filter _).map _).sum_eq

example : accumulate [[⟨1, 0, 0, 1, 1, 5, 1/4, 6⟩], [⟨0, 0, 0, 1, 1, 5, 1/2, 2⟩]] = accumulate [[⟨0, 0, 0, 1, 1, 5, 1/2, 2⟩], [⟨1, 0, 0, 1, 1, 5, 1/4, 6⟩]] := by decide +kernel

/-! ### From the points to the table -/

theorem centre_iff {e : List ℚ} {k : Nat} {c : ℚ} : (Core.shiftToBinCenters e)[k]? = some c ↔ IsCentre e k c := by
  rw [Core.shift_getElem?, IsCentre]
  cases h1 : e[k]? with
  | none => simp
  | some a =>
    cases h2 : e[k + 1]? with
    | none => simp
    | some b =>
      simp only [Option.some.injEq]
      exact ⟨fun h => ⟨a, b, rfl, rfl, h.symm⟩, fun ⟨a', b', ha, hb, h⟩ => by rw [ha, hb]; exact h.symm⟩

theorem centres_sorted {e : List ℚ} (hs : e.Pairwise (· < ·)) : (Core.shiftToBinCenters e).Pairwise (· < ·) := by
  rw [List.pairwise_iff_getElem]
  intro i j hi hj hij
  obtain ⟨a, b, ha, hb, h1⟩ := centre_iff.1 (List.getElem?_eq_getElem hi)
  obtain ⟨c, d, hc, hd, h2⟩ := centre_iff.1 (List.getElem?_eq_getElem hj)
  rw [h1, h2]
  obtain ⟨hi1, rfl⟩ := List.getElem?_eq_some_iff.1 ha
  obtain ⟨hi2, rfl⟩ := List.getElem?_eq_some_iff.1 hb
  obtain ⟨hj1, rfl⟩ := List.getElem?_eq_some_iff.1 hc
  obtain ⟨hj2, rfl⟩ := List.getElem?_eq_some_iff.1 hd
  have g := List.pairwise_iff_getElem.1 hs
  have := g i j hi1 hj1 hij
  have := g (i + 1) (j + 1) hi2 hj2 (by omega)
  linarith

theorem centre_inj {e : List ℚ} (hs : e.Pairwise (· < ·)) {i j : Nat} {c : ℚ} (h1 : IsCentre e i c) (h2 : IsCentre e j c) : i = j := by
  rw [← centre_iff] at h1 h2
  obtain ⟨hi, h1⟩ := List.getElem?_eq_some_iff.1 h1
  obtain ⟨hj, h2⟩ := List.getElem?_eq_some_iff.1 h2
  have g := List.pairwise_iff_getElem.1 (centres_sorted hs)
  rcases lt_trichotomy i j with h | h | h
  · exact absurd (g i j hi hj h) (by rw [h1, h2]; exact lt_irrefl _)
  · exact h
  · exact absurd (g j i hj hi h) (by rw [h1, h2]; exact lt_irrefl _)

theorem at_key {c : Cell} {xr yr x y z : ℚ} : c.At xr yr x y z ↔ c.key = [xr, yr, 0, x, y, z] := by
  simp [Cell.At, Cell.key]

theorem build_ok {ex ey : List ℚ} (hx : ex.Pairwise (· < ·)) (hy : ey.Pairwise (· < ·)) (hl : ex.length = ey.length) (x y z : ℚ) (pts : List Point) :
    ∃ p, buildPsf ex ey x y z pts = .ok p ∧ (p.map Cell.key).Nodup ∧
      (∀ c ∈ p, ∃ i j xr yr, IsCentre ex i xr ∧ IsCentre ey j yr ∧ c.At xr yr x y z ∧ c.nevt = (inBin ex ey pts i j).length ∧ c.factor = binFactor (inBin ex ey pts i j)) ∧
      ∀ i j xr yr, IsCentre ex i xr → IsCentre ey j yr →
        ∃ c ∈ p, c.At xr yr x y z ∧ c.nevt = (inBin ex ey pts i j).length ∧ c.factor = binFactor (inBin ex ey pts i j) := by
  have hlen : (Core.shiftToBinCenters ex).length = (Core.shiftToBinCenters ey).length := by
    rw [(Core.shift_midpoints ex).1, (Core.shift_midpoints ey).1, hl]
  refine ⟨_, by rw [buildPsf, if_neg (not_not.2 hlen)], ?_, ?_, ?_⟩
  · have hxn : (Core.shiftToBinCenters ex).Nodup := (centres_sorted hx).imp fun h => h.ne
    have hyn : (Core.shiftToBinCenters ey).Nodup := (centres_sorted hy).imp fun h => h.ne
    rw [List.map_flatMap]
    have e : ((Core.shiftToBinCenters ex).zipIdx.flatMap fun a => ((Core.shiftToBinCenters ey).zipIdx.map fun b =>
        (⟨a.1, b.1, 0, x, y, z, binFactor (inBin ex ey pts a.2 b.2), (inBin ex ey pts a.2 b.2).length⟩ : Cell)).map Cell.key) =
        (((Core.shiftToBinCenters ex).product (Core.shiftToBinCenters ey)).map fun ab => [ab.1, ab.2, 0, x, y, z]) := by
      have hz : ∀ (l : List ℚ) (g : ℚ → List ℚ), (l.zipIdx.map fun b => g b.1) = l.map g := by
        intro l g
        conv_rhs => rw [← List.zipIdx_map_fst 0 l]
        rw [List.map_map]; rfl
      have hz2 : ∀ (l : List ℚ) (g : ℚ → List (List ℚ)), (l.zipIdx.flatMap fun b => g b.1) = l.flatMap g := by
        intro l g
        conv_rhs => rw [← List.zipIdx_map_fst 0 l]
        rw [List.flatMap_map]
      rw [List.product, List.map_flatMap, ← hz2 (Core.shiftToBinCenters ex)]
      apply List.flatMap_congr
      intro a _
      rw [List.map_map, List.map_map, ← hz (Core.shiftToBinCenters ey)]
      rfl
    rw [e]
    refine List.Nodup.map ?_ (hxn.product hyn)
    intro ab cd h
    simp only [List.cons.injEq] at h
    exact Prod.ext h.1 h.2.1
  · intro c hc
    obtain ⟨a, ha, hc⟩ := List.mem_flatMap.1 hc
    obtain ⟨b, hb, rfl⟩ := List.mem_map.1 hc
    exact ⟨a.2, b.2, a.1, b.1, centre_iff.1 (List.mem_zipIdx_iff_getElem?.1 ha), centre_iff.1 (List.mem_zipIdx_iff_getElem?.1 hb), ⟨rfl, rfl, rfl, rfl, rfl, rfl⟩, rfl, rfl⟩
  · intro i j xr yr hi hj
    refine ⟨⟨xr, yr, 0, x, y, z, binFactor (inBin ex ey pts i j), (inBin ex ey pts i j).length⟩, ?_, ⟨rfl, rfl, rfl, rfl, rfl, rfl⟩, rfl, rfl⟩
    exact List.mem_flatMap.2 ⟨(xr, i), List.mem_zipIdx_iff_getElem?.2 (centre_iff.2 hi),
      List.mem_map.2 ⟨(yr, j), List.mem_zipIdx_iff_getElem?.2 (centre_iff.2 hj), rfl⟩⟩

theorem binFactor_charge {pts : List Point} (h : ∀ p ∈ pts, p.2.2 ≠ none) : binFactor pts * (pts.length : ℚ) = (pts.map fun p => p.2.2.getD 0).sum := by
  rw [binFactor]
  by_cases h0 : pts.length = 0
  · rw [if_pos (.inl h0), h0, List.length_eq_zero_iff.1 h0]; simp
  · rw [if_neg]
    · have : (pts.length : ℚ) ≠ 0 := by exact_mod_cast h0
      field_simp
    · rintro (h1 | h1)
      · exact h0 h1
      · obtain ⟨p, hp, hn⟩ := List.any_eq_true.1 h1
        exact h p hp (by simpa using hn)

/-- **C72** The accumulated table has one row for each bin and sector; the row has the number of points of all the tables that fall in the bin and sector, and the average of their charges (0 without points).
The points are those of the chunks: how they are distributed in files or chunks does not matter. -/
theorem accumulated_average (ex ey : List ℚ) (hx : ex.Pairwise (· < ·)) (hy : ey.Pairwise (· < ·)) (hl : ex.length = ey.length) (chunks : List Chunk) (hne : chunks ≠ [])
    (hq : ∀ ch ∈ chunks, ∀ p ∈ ch.pts, p.2.2 ≠ none) :
    ∃ psfs t, chunks.mapM (fun ch => buildPsf ex ey ch.x ch.y ch.z ch.pts) = .ok psfs ∧ accumulate psfs = some t ∧ (t.map Cell.key).Nodup ∧
      (∀ c ∈ t, ∃ ch ∈ chunks, ∃ i j xr yr, IsCentre ex i xr ∧ IsCentre ey j yr ∧ c.At xr yr ch.x ch.y ch.z) ∧
      ∀ ch ∈ chunks, ∀ i j xr yr, IsCentre ex i xr → IsCentre ey j yr → ∃ c ∈ t, c.At xr yr ch.x ch.y ch.z ∧
        ∃ ps, Sample ex ey chunks ch.x ch.y ch.z i j ps ∧ c.nevt = ps.length ∧ c.factor = if ps = [] then 0 else (ps.map fun p => p.2.2.getD 0).sum / ps.length := by
  obtain ⟨psfs, hpsfs⟩ := mapM_ok (f := fun ch : Chunk => buildPsf ex ey ch.x ch.y ch.z ch.pts) (xs := chunks)
    (fun ch _ => by obtain ⟨p, hp, _⟩ := build_ok hx hy hl ch.x ch.y ch.z ch.pts; exact ⟨p, hp⟩)
  have hf := mapM_ok_iff.1 hpsfs
  have hb : ∀ (ch : Chunk) (p : List Cell), buildPsf ex ey ch.x ch.y ch.z ch.pts = .ok p → (p.map Cell.key).Nodup ∧
      (∀ c ∈ p, ∃ i j xr yr, IsCentre ex i xr ∧ IsCentre ey j yr ∧ c.At xr yr ch.x ch.y ch.z ∧ c.nevt = (inBin ex ey ch.pts i j).length ∧ c.factor = binFactor (inBin ex ey ch.pts i j)) ∧
      ∀ i j xr yr, IsCentre ex i xr → IsCentre ey j yr →
        ∃ c ∈ p, c.At xr yr ch.x ch.y ch.z ∧ c.nevt = (inBin ex ey ch.pts i j).length ∧ c.factor = binFactor (inBin ex ey ch.pts i j) := by
    intro ch p hp
    obtain ⟨p', hp', h⟩ := build_ok hx hy hl ch.x ch.y ch.z ch.pts
    rw [hp] at hp'
    simp only [Except.ok.injEq] at hp'
    rw [hp']; exact h
  have hnonempty : psfs ≠ [] := by
    intro h
    rw [h] at hf
    exact hne (List.forall₂_nil_right_iff.1 hf)
  obtain ⟨t, ht, hn, hk, hc⟩ := accumulate_spec psfs hnonempty (fun p hp => by
    rw [hp] at hf
    obtain ⟨ch, chs, h1, h2, rfl⟩ := List.forall₂_cons_right_iff.1 hf
    obtain ⟨g1, g2, _⟩ := hb ch p h1
    refine ⟨g1, fun c hc h0 => ?_⟩
    obtain ⟨i, j, _, _, _, _, _, hnev, hfac⟩ := g2 c hc
    rw [hfac, binFactor, if_pos (.inl (by omega))])
  -- entries and charge of one chunk
  have hone : ∀ (ch : Chunk) (p : List Cell), ch ∈ chunks → buildPsf ex ey ch.x ch.y ch.z ch.pts = .ok p → ∀ i j xr yr x y z, IsCentre ex i xr → IsCentre ey j yr →
      entriesAt p [xr, yr, 0, x, y, z] = (ch.pts.filter fun q => decide (ch.x = x ∧ ch.y = y ∧ ch.z = z) && (histBin ex q.1 == some i && histBin ey q.2.1 == some j)).length ∧
      chargeAt p [xr, yr, 0, x, y, z] = ((ch.pts.filter fun q => decide (ch.x = x ∧ ch.y = y ∧ ch.z = z) && (histBin ex q.1 == some i && histBin ey q.2.1 == some j)).map
        fun q => q.2.2.getD 0).sum := by
    intro ch p hch hp i j xr yr x y z hi hj
    obtain ⟨g1, g2, g3⟩ := hb ch p hp
    by_cases hm : ch.x = x ∧ ch.y = y ∧ ch.z = z
    · obtain ⟨rfl, rfl, rfl⟩ := hm
      obtain ⟨c, hcp, hat, hnev, hfac⟩ := g3 i j xr yr hi hj
      rw [← at_key.1 hat, entriesAt, chargeAt, at_nodup g1 hcp]
      have e : (ch.pts.filter fun q => decide (ch.x = ch.x ∧ ch.y = ch.y ∧ ch.z = ch.z) && (histBin ex q.1 == some i && histBin ey q.2.1 == some j)) = inBin ex ey ch.pts i j := by
        rw [inBin]; simp
      rw [e]
      have hq' : ∀ q ∈ inBin ex ey ch.pts i j, q.2.2 ≠ none := fun q hq'' => hq ch hch q (List.mem_of_mem_filter hq'')
      refine ⟨by simp [hnev], ?_⟩
      rw [← binFactor_charge hq']
      simp [hnev, hfac]
    · have hmiss : [xr, yr, 0, x, y, z] ∉ p.map Cell.key := by
        intro h
        obtain ⟨c, hcp, hck⟩ := List.mem_map.1 h
        obtain ⟨_, _, xr', yr', _, _, hat, _⟩ := g2 c hcp
        rw [at_key.1 hat] at hck
        simp only [List.cons.injEq] at hck
        exact hm ⟨hck.2.2.2.1, hck.2.2.2.2.1, hck.2.2.2.2.2.1⟩
      have e : (ch.pts.filter fun q => decide (ch.x = x ∧ ch.y = y ∧ ch.z = z) && (histBin ex q.1 == some i && histBin ey q.2.1 == some j)) = [] := by
        rw [List.filter_eq_nil_iff]
        intro q _
        simp [hm]
      rw [entriesAt, chargeAt, at_missing hmiss, e]
      simp
  refine ⟨psfs, t, hpsfs, ht, hn, ?_, ?_⟩
  · intro c hct
    obtain ⟨p, hp, hkp⟩ := (hk c.key).1 (List.mem_map_of_mem hct)
    obtain ⟨k, hkp'⟩ := List.getElem?_of_mem hp
    obtain ⟨ch, hch, hbuild⟩ : ∃ ch ∈ chunks, buildPsf ex ey ch.x ch.y ch.z ch.pts = .ok p := by
      have : ∀ {l1 : List Chunk} {l2 : List (List Cell)}, List.Forall₂ (fun (ch : Chunk) p => buildPsf ex ey ch.x ch.y ch.z ch.pts = .ok p) l1 l2 → p ∈ l2 →
          ∃ ch ∈ l1, buildPsf ex ey ch.x ch.y ch.z ch.pts = .ok p := by
        intro l1 l2 h
        induction h with
        | nil => intro h; cases h
        | cons h1 _ ih =>
          intro hm
          rcases List.mem_cons.1 hm with rfl | hm
          · exact ⟨_, List.mem_cons_self, h1⟩
          · obtain ⟨ch, h2, h3⟩ := ih hm
            exact ⟨ch, List.mem_cons_of_mem _ h2, h3⟩
      exact this hf hp
    obtain ⟨d, hd, hdk⟩ := List.mem_map.1 hkp
    obtain ⟨i, j, xr, yr, h1, h2, h3, _⟩ := (hb ch p hbuild).2.1 d hd
    exact ⟨ch, hch, i, j, xr, yr, h1, h2, at_key.2 (hdk ▸ at_key.1 h3)⟩
  · intro ch hch i j xr yr hi hj
    obtain ⟨p, hp, hbuild⟩ : ∃ p ∈ psfs, buildPsf ex ey ch.x ch.y ch.z ch.pts = .ok p := by
      have : ∀ {l1 : List Chunk} {l2 : List (List Cell)}, List.Forall₂ (fun (ch : Chunk) p => buildPsf ex ey ch.x ch.y ch.z ch.pts = .ok p) l1 l2 → ch ∈ l1 →
          ∃ p ∈ l2, buildPsf ex ey ch.x ch.y ch.z ch.pts = .ok p := by
        intro l1 l2 h
        induction h with
        | nil => intro h; cases h
        | cons h1 _ ih =>
          intro hm
          rcases List.mem_cons.1 hm with rfl | hm
          · exact ⟨_, List.mem_cons_self, h1⟩
          · obtain ⟨ch, h2, h3⟩ := ih hm
            exact ⟨ch, List.mem_cons_of_mem _ h2, h3⟩
      exact this hf hch
    obtain ⟨d, hd, hat, _⟩ := (hb ch p hbuild).2.2 i j xr yr hi hj
    have hkey : [xr, yr, 0, ch.x, ch.y, ch.z] ∈ t.map Cell.key := (hk _).2 ⟨p, hp, at_key.1 hat ▸ List.mem_map_of_mem hd⟩
    obtain ⟨c, hct, hck⟩ := List.mem_map.1 hkey
    obtain ⟨h1, h2, h3⟩ := hc c hct
    refine ⟨c, hct, at_key.2 hck, chunks.flatMap fun ch' => ch'.pts.filter fun q => decide (ch'.x = ch.x ∧ ch'.y = ch.y ∧ ch'.z = ch.z) && (histBin ex q.1 == some i && histBin ey q.2.1 == some j), ?_, ?_⟩
    · refine ⟨fun ch' q => decide (ch'.x = ch.x ∧ ch'.y = ch.y ∧ ch'.z = ch.z) && (histBin ex q.1 == some i && histBin ey q.2.1 == some j), ?_, rfl⟩
      intro ch' q
      rw [Bool.and_eq_true, Bool.and_eq_true, beq_iff_eq, beq_iff_eq, decide_eq_true_eq, histBin_sorted hx, histBin_sorted hy]
      rfl
    · have hsum : ∀ {l1 : List Chunk} {l2 : List (List Cell)}, List.Forall₂ (fun (ch : Chunk) p => buildPsf ex ey ch.x ch.y ch.z ch.pts = .ok p) l1 l2 → l1 ⊆ chunks →
          (l2.map fun p => entriesAt p [xr, yr, 0, ch.x, ch.y, ch.z]).sum =
            (l1.flatMap fun ch' => ch'.pts.filter fun q => decide (ch'.x = ch.x ∧ ch'.y = ch.y ∧ ch'.z = ch.z) && (histBin ex q.1 == some i && histBin ey q.2.1 == some j)).length ∧
          (l2.map fun p => chargeAt p [xr, yr, 0, ch.x, ch.y, ch.z]).sum =
            ((l1.flatMap fun ch' => ch'.pts.filter fun q => decide (ch'.x = ch.x ∧ ch'.y = ch.y ∧ ch'.z = ch.z) && (histBin ex q.1 == some i && histBin ey q.2.1 == some j)).map
              fun q => q.2.2.getD 0).sum := by
        intro l1 l2 h
        induction h with
        | nil => intro _; exact ⟨rfl, rfl⟩
        | cons g1 _ ih =>
          intro hsub
          obtain ⟨i1, i2⟩ := ih fun _ hm => hsub (List.mem_cons_of_mem _ hm)
          obtain ⟨o1, o2⟩ := hone _ _ (hsub List.mem_cons_self) g1 i j xr yr ch.x ch.y ch.z hi hj
          simp only [List.map_cons, List.sum_cons, List.flatMap_cons, List.length_append, List.map_append, List.sum_append]
          rw [i1, i2, o1, o2]
          exact ⟨rfl, rfl⟩
      obtain ⟨s1, s2⟩ := hsum hf (fun _ h => h)
      rw [hck, s1] at h1
      rw [hck, s2] at h2
      refine ⟨h1, ?_⟩
      split
      · rename_i h0
        exact h3 (by rw [h1, h0]; rfl)
      · rename_i h0
        have : (c.nevt : ℚ) ≠ 0 := by
          rw [h1]
          exact_mod_cast fun h => h0 (List.length_eq_zero_iff.1 h)
        rw [← h2, ← h1]
        field_simp

example : [(⟨1, 1, 5, [(-1, 0, some (1/4)), (1, 1, some (3/4))]⟩ : Chunk), ⟨1, 1, 5, [(-1, 1, some (1/2))]⟩].mapM (fun ch => buildPsf [-2, 0, 2] [-2, 0, 2] ch.x ch.y ch.z ch.pts) =
    .ok [[⟨-1, -1, 0, 1, 1, 5, 0, 0⟩, ⟨-1, 1, 0, 1, 1, 5, 1/4, 1⟩, ⟨1, -1, 0, 1, 1, 5, 0, 0⟩, ⟨1, 1, 0, 1, 1, 5, 3/4, 1⟩],
         [⟨-1, -1, 0, 1, 1, 5, 0, 0⟩, ⟨-1, 1, 0, 1, 1, 5, 1/2, 1⟩, ⟨1, -1, 0, 1, 1, 5, 0, 0⟩, ⟨1, 1, 0, 1, 1, 5, 0, 0⟩]] := by decide +kernel

/-- **C72** Without the hypothesis on the charges the average is wrong: a single event without charge (its normalized charges are NaN) makes 0 the factor of its bins for the whole sector of the file, and its
entries are counted. -/
theorem chargeless_event_spoils_bin : buildPsf [-1, 1] [-1, 1] 0 0 0 [(0, 0, some 1), (0, 0, none)] = .ok [⟨0, 0, 0, 0, 0, 0, 0, 2⟩] := by decide +kernel

/-- **C72** Different numbers of bins in x and y raise `ValueError`. -/
theorem different_bins_fail (ex ey : List ℚ) (hx : ex ≠ []) (hy : ey ≠ []) (h : ex.length ≠ ey.length) (x y z : ℚ) (pts : List Point) :
    buildPsf ex ey x y z pts = .error .valueError := by
  rw [buildPsf, if_pos]
  rw [(Core.shift_midpoints ex).1, (Core.shift_midpoints ey).1]
  have := List.length_pos_of_ne_nil hx
  have := List.length_pos_of_ne_nil hy
  omega

example : buildPsf [0, 1, 2] [0, 1] 0 0 0 [] = .error .valueError := by decide +kernel

end Verif.Psf
