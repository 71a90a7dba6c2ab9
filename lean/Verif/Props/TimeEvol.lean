import Verif.Spec.TimeEvol
import Verif.Lemmas.Frame
import Verif.Lemmas.Edges
import Verif.Props.PaolinaTracks
import Mathlib.Data.Finset.Card
/-!
# C77: time evolution
-/
namespace Verif.TimeEvol
open Verif.Voxels Verif.Frame

theorem arange_sorted {a b s : ℚ} (hs : 0 < s) : (arange a b s).Pairwise (· ≤ ·) := by
  rw [arange, List.pairwise_map]
  refine List.pairwise_lt_range.imp ?_
  intro i j hij
  have : (i : ℚ) < j := by exact_mod_cast hij
  nlinarith

/-- The slice of a time: it exists and is unique. -/
theorem exists_slice {t0 s t : ℚ} (hs : 0 < s) (ht : t0 ≤ t) : ∃ q, InSlice t0 s q t := by
  refine ⟨⌊(t - t0) / s⌋.toNat, ?_⟩
  have h0 : 0 ≤ (t - t0) / s := div_nonneg (by linarith) hs.le
  have h1 : ((⌊(t - t0) / s⌋.toNat : Nat) : ℚ) = (⌊(t - t0) / s⌋ : ℤ) := by
    have : ((⌊(t - t0) / s⌋.toNat : Nat) : ℤ) = ⌊(t - t0) / s⌋ := Int.toNat_of_nonneg (Int.floor_nonneg.2 h0)
    exact_mod_cast this
  have h2 := Int.floor_le ((t - t0) / s)
  have h3 := Int.lt_floor_add_one ((t - t0) / s)
  rw [InSlice, h1]
  rw [le_div_iff₀ hs] at h2
  rw [div_lt_iff₀ hs] at h3
  constructor <;> linarith

theorem slice_unique {t0 s t : ℚ} (hs : 0 < s) {q q' : Nat} (h : InSlice t0 s q t) (h' : InSlice t0 s q' t) : q = q' := by
  have key : ∀ {a b : Nat}, InSlice t0 s a t → InSlice t0 s b t → a ≤ b := by
    intro a b ha hb
    by_contra hc
    have : (b : ℚ) + 1 ≤ a := by exact_mod_cast (by omega : b + 1 ≤ a)
    have h1 := ha.1
    have h2 := hb.2
    nlinarith
  exact le_antisymm (key h h') (key h' h)

theorem sliceOf_iff {s : ℚ} (hs : 0 < s) {rows : List Row} {r : Row} (hr : r ∈ rows) (q : Nat) :
    sliceOf s rows r = (q : Int) + 1 ↔ InSlice (npMin (rows.map Row.time)) s q r.time := by
  have key : ∀ q : Nat, InSlice (npMin (rows.map Row.time)) s q r.time → sliceOf s rows r = (q : Int) + 1 := by
    intro q hq
    have hmax : r.time ≤ npMax (rows.map Row.time) := le_npMax (List.mem_map_of_mem hr)
    rw [sliceOf]
    have hlen : q < ⌈(npMax (rows.map Row.time) + s - npMin (rows.map Row.time)) / s⌉.toNat := by
      rw [Int.lt_toNat, Int.lt_ceil, lt_div_iff₀ hs]
      have := hq.1
      push_cast
      linarith
    have := searchRight_eq (x := r.time) (arange_sorted (a := npMin (rows.map Row.time)) (b := npMax (rows.map Row.time) + s) hs) (k := q) (a := npMin (rows.map Row.time) + q * s)
      (by rw [arange, List.getElem?_map, List.getElem?_range hlen]; rfl) hq.1 (by
        intro b hb
        rw [arange, List.getElem?_map, Option.map_eq_some_iff] at hb
        obtain ⟨i, hi, rfl⟩ := hb
        obtain ⟨_, rfl⟩ := List.getElem?_eq_some_iff.1 hi
        rw [List.getElem_range]
        have := hq.2
        push_cast
        exact this)
    rw [this]
    push_cast
    rfl
  refine ⟨fun h => ?_, key q⟩
  obtain ⟨q', hq'⟩ := exists_slice hs (npMin_le (List.mem_map_of_mem (f := Row.time) hr))
  have := key q' hq'
  have : q' = q := by omega
  exact this ▸ hq'

/-- **C77** The time evolution has one row for each slice of the given duration (from the first event) that has some event, in order of time: the analysis of the rows of the slice, in their order; each row of
the input is in exactly one of them. -/
theorem slices_spec {S : Type} (f : List Row → S) (hours : ℚ) (hh : 0 < hours) (rows : List Row) (first : Row) (hf : first ∈ rows) (hmin : ∀ r ∈ rows, first.time ≤ r.time) :
    ∃ qs : List Nat, qs.Pairwise (· < ·) ∧ (∀ q, q ∈ qs ↔ ∃ r ∈ rows, InSlice first.time (hours * 3600) q r.time) ∧
      timeEvol f hours rows = .ok (qs.map fun q => f (slice first.time (hours * 3600) q rows)) ∧
      (qs.flatMap fun q => slice first.time (hours * 3600) q rows).Perm rows := by
  have hs : 0 < hours * 3600 := by linarith
  have hne : rows ≠ [] := List.ne_nil_of_mem hf
  have hm : npMin (rows.map Row.time) = first.time := by
    obtain ⟨e, he, h⟩ := List.mem_map.1 (Paolina.npMin_mem (xs := rows.map Row.time) (by simpa using hne))
    exact le_antisymm (npMin_le (List.mem_map_of_mem hf)) (h ▸ hmin e he)
  have hi : ∀ r ∈ rows, ∀ q : Nat, sliceOf (hours * 3600) rows r = (q : Int) + 1 ↔ InSlice first.time (hours * 3600) q r.time := fun r hr q => hm ▸ sliceOf_iff hs hr q
  have hex : ∀ r ∈ rows, ∃ q : Nat, sliceOf (hours * 3600) rows r = (q : Int) + 1 := by
    intro r hr
    obtain ⟨q, hq⟩ := exists_slice hs (hmin r hr)
    exact ⟨q, (hi r hr q).2 hq⟩
  have hkeys : ∀ k ∈ groupKeys (rows.map fun r => [sliceOf (hours * 3600) rows r]), ∃ q : Nat, k = [(q : Int) + 1] := by
    intro k hk
    obtain ⟨r, hr, rfl⟩ := List.mem_map.1 (mem_groupKeys.1 hk)
    obtain ⟨q, hq⟩ := hex r hr
    exact ⟨q, by rw [hq]⟩
  have hslice : ∀ q : Nat, (rows.filter fun r => decide ([sliceOf (hours * 3600) rows r] = [(q : Int) + 1])) = slice first.time (hours * 3600) q rows := by
    intro q
    apply List.filter_congr
    intro r hr
    rw [Bool.eq_iff_iff, decide_eq_true_iff, decide_eq_true_iff, ← hi r hr q]
    simp
  let num : List Int → Nat := fun k => (k.headD 0).toNat - 1
  have hnum : ∀ k ∈ groupKeys (rows.map fun r => [sliceOf (hours * 3600) rows r]), k = [(num k : Int) + 1] := by
    intro k hk
    obtain ⟨q, rfl⟩ := hkeys k hk
    have : num [(q : Int) + 1] = q := by
      show ((q : Int) + 1).toNat - 1 = q
      omega
    rw [this]
  refine ⟨(groupKeys (rows.map fun r => [sliceOf (hours * 3600) rows r])).map num, ?_, ?_, ?_, ?_⟩
  · rw [List.pairwise_map]
    have h1 := groupKeys_sorted (rows.map fun r => [sliceOf (hours * 3600) rows r])
    have h2 := groupKeys_nodup (rows.map fun r => [sliceOf (hours * 3600) rows r])
    refine List.Pairwise.imp_of_mem ?_ (h1.and h2)
    intro a b ha hb ⟨hle, hne⟩
    rw [hnum a ha, hnum b hb] at hle hne
    have hne' : ((num a : Int) + 1) ≠ (num b : Int) + 1 := fun h => hne (by rw [h])
    rw [lexLe, if_neg hne', decide_eq_true_eq] at hle
    omega
  · intro q
    rw [List.mem_map]
    constructor
    · rintro ⟨k, hk, rfl⟩
      obtain ⟨r, hr, hrk⟩ := List.mem_map.1 (mem_groupKeys.1 hk)
      refine ⟨r, hr, (hi r hr _).1 ?_⟩
      have h := hnum k hk
      rw [← hrk] at h ⊢
      exact (List.cons.inj h).1
    · rintro ⟨r, hr, hq⟩
      refine ⟨[(q : Int) + 1], mem_groupKeys.2 (List.mem_map.2 ⟨r, hr, by rw [(hi r hr q).2 hq]⟩), ?_⟩
      show ((q : Int) + 1).toNat - 1 = q
      omega
  · rw [timeEvol, if_neg hne, if_neg hs.ne', groupBy, List.map_map, List.map_map]
    congr 1
    apply List.map_congr_left
    intro k hk
    simp only [Function.comp_apply]
    rw [← hslice, ← hnum k hk]
  · have h := groupBy_perm (fun r => [sliceOf (hours * 3600) rows r]) rows
    rw [groupBy, List.map_map] at h
    rw [List.flatMap_map, List.flatMap_def]
    refine List.Perm.trans (List.Perm.of_eq ?_) h
    congr 1
    apply List.map_congr_left
    intro k hk
    simp only [Function.comp_apply]
    rw [← hslice, ← hnum k hk]

example : (timeEvol (fun l => l.map Row.event) 1 [⟨1, 100, none, none, 0, 0, 0, none, none⟩, ⟨3, 7300, none, none, 0, 0, 0, none, none⟩, ⟨2, 3699, none, none, 0, 0, 0, none, none⟩, ⟨4, 3700, none, none, 0, 0, 0, none, none⟩, ⟨5, 20000, none, none, 0, 0, 0, none, none⟩]).toOption =
    some [[1, 2], [4], [3], [5]] := by decide +kernel

/-- **C77** Without rows it raises `ValueError`; with null slices, `ZeroDivisionError`. -/
theorem slices_errors {S : Type} (f : List Row → S) (hours : ℚ) (rows : List Row) :
    timeEvol f hours [] = .error .valueError ∧ (rows ≠ [] → timeEvol f 0 rows = .error .zeroDivision) := by
  refine ⟨rfl, fun h => ?_⟩
  rw [timeEvol, if_neg h, if_pos (by norm_num)]

example : timeEvol (fun l => l.map Row.event) 0 [⟨1, 100, none, none, 0, 0, 0, none, none⟩] = .error .zeroDivision := (slices_errors _ 0 _).2 (by simp)

/-! ### The analysis of a slice -/

/-- **C77** A slice: the time of its first event, its number of different events, the rate (events over the time between the first and the last one), and the averages of the energies: that of the S2
with all its rows, that of the S1 with those close to the cathode. -/
theorem single_spec (run : Int) (s1DT : ℚ × ℚ) (df : List Row) (first last : Row) (hf : first ∈ df) (hl : last ∈ df) (hmin : ∀ r ∈ df, first.time ≤ r.time) (hmax : ∀ r ∈ df, r.time ≤ last.time) :
    (single run s1DT df).run = run ∧ (single run s1DT df).ts = first.time ∧ (single run s1DT df).nevents = (df.map Row.event).toFinset.card ∧
    (single run s1DT df).rate = (if first.time = last.time then none else some ((df.map Row.event).toFinset.card / (last.time - first.time))) ∧
    (single run s1DT df).s2e = some ((df.map Row.s2e).sum / df.length) ∧
    (∀ cath, cath = df.filter (fun r => decide (s1DT.1 ≤ r.dt ∧ r.dt < s1DT.2)) →
      (single run s1DT df).s1e = if cath = [] then none else some ((cath.map Row.s1e).sum / cath.length)) := by
  have hne : df ≠ [] := List.ne_nil_of_mem hf
  have hm : npMin (df.map Row.time) = first.time := by
    obtain ⟨e, he, h⟩ := List.mem_map.1 (Paolina.npMin_mem (xs := df.map Row.time) (by simpa using hne))
    exact le_antisymm (npMin_le (List.mem_map_of_mem hf)) (h ▸ hmin e he)
  have hM : npMax (df.map Row.time) = last.time := by
    obtain ⟨e, he, h⟩ := List.mem_map.1 (Paolina.npMax_mem (xs := df.map Row.time) (by simpa using hne))
    exact le_antisymm (h ▸ hmax e he) (le_npMax (List.mem_map_of_mem hl))
  have hu : (PMapsIO.unique (df.map Row.event)).length = (df.map Row.event).toFinset.card := by
    rw [List.card_toFinset]
    refine List.Perm.length_eq ?_
    rw [List.perm_ext_iff_of_nodup (PMapsIO.unique_nodup _) (List.nodup_dedup _)]
    intro a
    rw [PMapsIO.mem_unique, List.mem_dedup]
  refine ⟨rfl, hm, hu, ?_, ?_, ?_⟩
  · rw [single]
    simp only [hm, hM, hu]
    by_cases h : first.time = last.time
    · rw [if_pos h, if_pos (by rw [h]; ring)]
    · rw [if_neg h, if_neg (fun h0 => h (by linarith))]
  · rw [single]
    simp only [mean?]
    rw [if_neg (by simpa using hne), List.length_map]
  · rintro cath rfl
    rw [single]
    simp only [mean?, ← Bool.decide_and, List.map_eq_nil_iff, List.length_map]

example : single 7 (10, 20) [⟨1, 100, none, none, 12, 6, 50, none, none⟩, ⟨1, 100, none, none, 20, 8, 70, none, none⟩, ⟨2, 104, none, none, 15, 10, 60, none, none⟩] = ⟨7, 100, 2, some (1 / 2), some 60, some 8⟩ := by decide +kernel

/-- **C77** If the rows of an event have the same time, the numbers of events of the slices add up to the number of events. -/
theorem events_conserved (run : Int) (s1DT : ℚ × ℚ) (hours : ℚ) (hh : 0 < hours) (rows : List Row) (hne : rows ≠ []) (ht : ∀ r ∈ rows, ∀ r' ∈ rows, r.event = r'.event → r.time = r'.time) (out : List Summary)
    (h : timeEvol (single run s1DT) hours rows = .ok out) : (out.map Summary.nevents).sum = (rows.map Row.event).toFinset.card := by
  obtain ⟨first, hf, hmin⟩ : ∃ first ∈ rows, ∀ r ∈ rows, first.time ≤ r.time := by
    obtain ⟨e, he, h⟩ := List.mem_map.1 (Paolina.npMin_mem (xs := rows.map Row.time) (by simpa using hne))
    exact ⟨e, he, fun r hr => h ▸ npMin_le (List.mem_map_of_mem hr)⟩
  obtain ⟨qs, h1, h2, h3, h4⟩ := slices_spec (single run s1DT) hours hh rows first hf hmin
  rw [h] at h3
  obtain rfl := Except.ok.inj h3
  have hu : ∀ l : List Row, (single run s1DT l).nevents = (l.map Row.event).toFinset.card := by
    intro l
    show (PMapsIO.unique (l.map Row.event)).length = _
    rw [List.card_toFinset]
    refine List.Perm.length_eq ?_
    rw [List.perm_ext_iff_of_nodup (PMapsIO.unique_nodup _) (List.nodup_dedup _)]
    intro a
    rw [PMapsIO.mem_unique, List.mem_dedup]
  rw [List.map_map]
  have hs : 0 < hours * 3600 := by linarith
  have hnd : qs.Nodup := h1.imp fun h => h.ne
  have hb : (rows.map Row.event).toFinset = qs.toFinset.biUnion fun q => ((slice first.time (hours * 3600) q rows).map Row.event).toFinset := by
    ext e
    simp only [List.mem_toFinset, Finset.mem_biUnion]
    have := (h4.map Row.event).mem_iff (a := e)
    rw [← this, List.map_flatMap, List.mem_flatMap]
  rw [hb, Finset.card_biUnion, List.sum_toFinset _ hnd]
  · congr 1
    apply List.map_congr_left
    intro q _
    exact hu _
  · intro q hq q' hq' hqq
    rw [Function.onFun, Finset.disjoint_left]
    intro e he he'
    rw [List.mem_toFinset, List.mem_map] at he he'
    obtain ⟨r, hr, rfl⟩ := he
    obtain ⟨r', hr', hee⟩ := he'
    rw [slice, List.mem_filter, decide_eq_true_eq] at hr hr'
    have := ht r hr.1 r' hr'.1 hee.symm
    rw [← this] at hr'
    exact hqq (slice_unique hs hr.2 hr'.2)

example : ((timeEvol (single 7 (10, 20)) 1 [⟨1, 100, none, none, 12, 6, 50, none, none⟩, ⟨1, 100, none, none, 20, 8, 70, none, none⟩, ⟨2, 5000, none, none, 15, 10, 60, none, none⟩]).toOption.map fun l => l.map Summary.nevents) = some [1, 1] := by
  decide +kernel

/-! ### Region -/

/-- **C77** The region of the lifetime: the rows inside the square (closed on the left) or the circle (closed), in their order; rows with an unknown position are out. -/
theorem region_spec (x0 y0 : ℚ) (shape : Shape) (size : ℚ) (df : List Row) :
    (region x0 y0 shape size df).Sublist df ∧ ∀ r, r ∈ region x0 y0 shape size df ↔ r ∈ df ∧ InRegion x0 y0 shape size r := by
  refine ⟨List.filter_sublist, fun r => ?_⟩
  rw [region, List.mem_filter]
  refine and_congr_right fun _ => ?_
  rw [InRegion]
  cases hx : r.x with
  | none => simp
  | some x =>
    cases hy : r.y with
    | none => simp
    | some y =>
      cases shape with
      | circle => simp
      | square =>
        simp only [Bool.and_eq_true, decide_eq_true_eq, Option.some.injEq]
        constructor
        · rintro ⟨⟨h1, h2⟩, h3, h4⟩
          exact ⟨x, y, rfl, rfl, ⟨by linarith, by linarith⟩, by linarith, by linarith⟩
        · rintro ⟨_, _, rfl, rfl, ⟨h1, h2⟩, h3, h4⟩
          exact ⟨⟨by linarith, by linarith⟩, by linarith, by linarith⟩

example : (region 0 0 .square 5 [⟨1, 0, some (-5), some 3, 0, 0, 0, none, none⟩, ⟨2, 0, some 5, some 3, 0, 0, 0, none, none⟩, ⟨3, 0, none, some 3, 0, 0, 0, none, none⟩]).map Row.event = [1] ∧
    (region 0 0 .circle 5 [⟨1, 0, some (-5), some 3, 0, 0, 0, none, none⟩, ⟨2, 0, some 4, some 3, 0, 0, 0, none, none⟩, ⟨3, 0, none, some 3, 0, 0, 0, none, none⟩]).map Row.event = [2] := by decide +kernel

end Verif.TimeEvol
