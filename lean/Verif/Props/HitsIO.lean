import Verif.Spec.HitsIO
import Verif.Lemmas.Frame
import Mathlib.Tactic.Linarith
/-!
# C91: reading hits

Every event is read with the hits of its rows, in their order; with several times for an event only the hits of the last time
that has any are read.
-/
namespace Verif.HitsIO
open Verif.HitsIO.Spec

theorem lookup_setKey {β : Type} (d : List (Int × β)) (k e : Int) (v : β) : (Blr.setKey d k v).lookup e = if e = k then some v else d.lookup e := by
  have hmap : ∀ d : List (Int × β), (d.map fun p => if p.1 = k then (k, v) else p).lookup e
      = if e = k then (if k ∈ d.map Prod.fst then some v else none) else d.lookup e := by
    intro d
    induction d with
    | nil => simp
    | cons p ps ih =>
      rw [List.map_cons, List.lookup_cons, ih, List.lookup_cons]
      by_cases hp : p.1 = k
      · rw [if_pos hp]
        by_cases he : e = k
        · simp [he, hp]
        · have hb : (e == k) = false := by simpa using he
          simp [he, hp, hb]
      · rw [if_neg hp]
        by_cases he : e = k
        · subst he
          have : (e == p.1) = false := by simpa using fun h => hp h.symm
          have hm : (e ∈ List.map Prod.fst (p :: ps)) ↔ e ∈ List.map Prod.fst ps := by
            rw [List.map_cons, List.mem_cons]
            exact ⟨fun h => h.resolve_left (Ne.symm hp), Or.inr⟩
          simp only [this, if_true, hm]
        · simp [he]
  have happ : ∀ d : List (Int × β), k ∉ d.map Prod.fst → (d ++ [(k, v)]).lookup e = if e = k then some v else d.lookup e := by
    intro d
    induction d with
    | nil =>
      intro _
      by_cases he : e = k
      · simp [he]
      · have hb : (e == k) = false := by simpa using he
        simp [he, List.lookup_cons, hb]
    | cons p ps ih =>
      intro h
      simp only [List.map_cons, List.mem_cons, not_or] at h
      rw [List.cons_append, List.lookup_cons, ih h.2, List.lookup_cons]
      by_cases he : e = k
      · subst he
        have : (e == p.1) = false := by simpa using h.1
        simp [this]
      · simp [he]
  unfold Blr.setKey
  by_cases h : k ∈ d.map Prod.fst
  · rw [if_pos h, hmap, if_pos h]
  · rw [if_neg h, happ d h]

/-- The event of a group. -/
private abbrev evt (g : List ℚ × List Row) : Int := ⌊g.1.getD 0 0⌋

theorem foldl_lookup (c : Cols) (s : Bool) (e : Int) (gs : List (List ℚ × List Row)) (d : List (Int × HitColl)) :
    (gs.foldl (addGroup c s) d).lookup e =
      match gs.reverse.find? (fun g => decide (evt g = e ∧ groupHits c s g.2 ≠ [])) with
      | some g => some ⟨e, g.1.getD 1 0, groupHits c s g.2⟩
      | none => d.lookup e := by
  induction gs using List.reverseRecOn with
  | nil => rfl
  | append_singleton gs g ih =>
    rw [List.foldl_append, List.reverse_append, List.foldl_cons, List.foldl_nil, List.reverse_singleton, List.singleton_append, List.find?_cons]
    unfold addGroup
    by_cases hh : groupHits c s g.2 = []
    · have : (groupHits c s g.2).length = 0 := by rw [hh]; rfl
      simp only [this, ne_eq, not_true_eq_false, if_false, hh, and_false, decide_false]
      exact ih
    · have : (groupHits c s g.2).length ≠ 0 := fun h => hh (List.length_eq_zero_iff.mp h)
      simp only [if_pos this]
      rw [lookup_setKey]
      by_cases he : e = evt g
      · rw [if_pos he, decide_eq_true (And.intro he.symm hh)]
        simp only [he]
      · rw [if_neg he, decide_eq_false (fun h => he h.1.symm)]
        exact ih

theorem find_last {α : Type} {le : α → α → Prop} (hr : ∀ a, le a a) {p : α → Bool} {g : α} : ∀ {gs : List α}, gs.Pairwise le → gs.reverse.find? p = some g →
    g ∈ gs ∧ p g = true ∧ ∀ g' ∈ gs, p g' = true → le g' g := by
  intro gs
  induction gs with
  | nil => intro _ h; simp at h
  | cons x xs ih =>
    intro hs h
    rw [List.pairwise_cons] at hs
    rw [List.reverse_cons, List.find?_append] at h
    cases hx : xs.reverse.find? p with
    | some g2 =>
      rw [hx] at h
      simp only [Option.some_or, Option.some.injEq] at h
      subst h
      obtain ⟨a1, a2, a3⟩ := ih hs.2 hx
      refine ⟨List.mem_cons_of_mem _ a1, a2, ?_⟩
      intro g' hg' hp
      rcases List.mem_cons.mp hg' with rfl | hg'
      · exact hs.1 _ a1
      · exact a3 g' hg' hp
    | none =>
      rw [hx] at h
      simp only [Option.none_or] at h
      rw [List.find?_cons] at h
      cases hpx : p x with
      | false => simp [hpx] at h
      | true =>
        simp only [hpx, Option.some.injEq] at h
        subst h
        refine ⟨List.mem_cons_self, hpx, ?_⟩
        intro g' hg' hp
        rcases List.mem_cons.mp hg' with rfl | hg'
        · exact hr _
        · rw [List.find?_eq_none] at hx
          exact absurd hp (by simpa using hx g' (by simpa using hg'))

theorem timeOf_iff {c : Cols} {r : Row} {t : ℚ} : timeOf c r = some t ↔ TimeIs c r t := by
  unfold timeOf attr TimeIs
  cases c.time <;> simp [eq_comm]

theorem charge_iff {c : Cols} {r : Row} {q : ℚ} : chargeOf c r = q ↔ Charge c r q := by
  unfold chargeOf attr Charge
  cases c.Q <;> simp [eq_comm]

theorem kept_iff {c : Cols} {s : Bool} {r : Row} : (!(s && decide (chargeOf c r = NN))) = decide (Kept c s r) := by
  have : (chargeOf c r = NN) ↔ Charge c r (-999999) := charge_iff
  unfold Kept
  by_cases h : chargeOf c r = NN
  · have h2 := this.mp h
    cases s <;> simp [h, h2]
  · have h2 : ¬ Charge c r (-999999) := fun x => h (this.mpr x)
    cases s <;> simp [h, h2]

/-- C91: the hit of a row has the values of the row, with the documented defaults. -/
theorem mkHit_spec (c : Cols) (r : Row) : HitOf c r (mkHit c r) := by
  refine ⟨rfl, rfl, charge_iff.mp rfl, ⟨fun h => ?_, fun h => ?_⟩, rfl, rfl, rfl, rfl, rfl, rfl⟩
  · exact if_neg h
  · exact if_pos h

/-- A hit is determined by its row. -/
theorem hitOf_unique {c : Cols} {r : Row} {h g : Hit} (a : HitOf c r h) (b : HitOf c r g) : h = g := by
  obtain ⟨a1, a2, a3, a4, a5, a6, a7, a8, a9, a10⟩ := a
  obtain ⟨b1, b2, b3, b4, b5, b6, b7, b8, b9, b10⟩ := b
  have hq : h.Q = g.Q := (charge_iff.mpr a3).symm.trans (charge_iff.mpr b3)
  have he : h.E = g.E := by
    by_cases hn : r.E = -999999
    · rw [a4.2 hn, b4.2 hn, hq]
    · rw [a4.1 hn, b4.1 hn]
  simp only [Prod.mk.injEq] at a2 b2
  cases h; cases g
  simp_all

private def grouped (c : Cols) (rows : List Row) := Frame.groupBy (keyOf c) (rows.filter fun r => (timeOf c r).isSome)

theorem grouped_mem {c : Cols} {s : Bool} {rows : List Row} {g : List ℚ × List Row} (h : g ∈ grouped c rows) :
    ∃ (e : Int) (t : ℚ), g.1 = [(e : ℚ), t] ∧ groupHits c s g.2 = (selected c s rows e t).map (mkHit c) := by
  unfold grouped Frame.groupBy at h
  rw [List.mem_map] at h
  obtain ⟨k, hk, rfl⟩ := h
  rw [Frame.mem_groupKeys, List.mem_map] at hk
  obtain ⟨r, hr, rfl⟩ := hk
  rw [List.mem_filter] at hr
  obtain ⟨t, ht⟩ := Option.isSome_iff_exists.mp hr.2
  refine ⟨r.event, t, by simp [keyOf, ht], ?_⟩
  unfold groupHits selected
  rw [List.filter_filter, List.filter_filter]
  congr 1
  refine List.filter_congr fun x hx => ?_
  rw [kept_iff]
  unfold keyOf
  rw [ht]
  cases hxt : timeOf c x with
  | none =>
    have : ¬ TimeIs c x t := fun hc => by rw [← timeOf_iff, hxt] at hc; simp at hc
    simp [this]
  | some t2 =>
    have : TimeIs c x t ↔ t2 = t := by rw [← timeOf_iff, hxt, Option.some.injEq]
    simp only [Option.getD_some, List.cons.injEq, Int.cast_inj, and_true, Option.isSome_some, Bool.and_true, this]
    rw [← Bool.decide_and]
    congr 1
    apply propext
    tauto

theorem grouped_exists {c : Cols} {s : Bool} {rows : List Row} {e : Int} {t : ℚ} (h : selected c s rows e t ≠ []) :
    ∃ g ∈ grouped c rows, g.1 = [(e : ℚ), t] := by
  obtain ⟨r, hr⟩ := List.exists_mem_of_ne_nil _ h
  unfold selected at hr
  rw [List.mem_filter, decide_eq_true_eq] at hr
  obtain ⟨hr, he, ht, _⟩ := hr
  have ht' := timeOf_iff.mpr ht
  refine ⟨_, List.mem_map.mpr ⟨[(e : ℚ), t], ?_, rfl⟩, rfl⟩
  rw [Frame.mem_groupKeys, List.mem_map]
  refine ⟨r, List.mem_filter.mpr ⟨hr, by rw [ht']; rfl⟩, ?_⟩
  simp [keyOf, he, ht']

theorem grouped_sorted (c : Cols) (rows : List Row) : (grouped c rows).Pairwise fun a b => Frame.lexLe a.1 b.1 = true := by
  unfold grouped Frame.groupBy
  rw [List.pairwise_map]
  exact Frame.groupKeys_sorted _

/-- C91: what is read for an event, in general: the hits of the last of its times that has hits. -/
theorem hitsFromDf_spec (c : Cols) (skipNN : Bool) (rows : List Row) (e : Int) (hc : HitColl) :
    (hitsFromDf c skipNN rows).lookup e = some hc ↔
      ∃ t, hc = ⟨e, t, (selected c skipNN rows e t).map (mkHit c)⟩ ∧ selected c skipNN rows e t ≠ []
        ∧ ∀ t', t < t' → selected c skipNN rows e t' = [] := by
  have key : ∀ g, (grouped c rows).reverse.find? (fun g => decide (evt g = e ∧ groupHits c skipNN g.2 ≠ [])) = some g →
      ∃ t, g.1.getD 1 0 = t ∧ groupHits c skipNN g.2 = (selected c skipNN rows e t).map (mkHit c) ∧ selected c skipNN rows e t ≠ []
        ∧ ∀ t', t < t' → selected c skipNN rows e t' = [] := by
    intro g hg
    obtain ⟨h1, h2, h3⟩ := find_last (le := fun a b : List ℚ × List Row => Frame.lexLe a.1 b.1 = true)
      (fun a => by rcases Frame.lexLe_total a.1 a.1 with h | h <;> exact h) (grouped_sorted c rows) hg
    obtain ⟨e1, t, hk, hh⟩ := grouped_mem (s := skipNN) h1
    rw [decide_eq_true_eq] at h2
    have he : e1 = e := by
      have := h2.1
      simp only [evt, hk, List.getD_cons_zero, Int.floor_intCast] at this
      exact this
    subst he
    refine ⟨t, by rw [hk]; rfl, hh, ?_, ?_⟩
    · intro hn
      apply h2.2
      rw [hh, hn]; rfl
    · intro t' htt
      by_contra hn
      obtain ⟨g', hg', hk'⟩ := grouped_exists hn
      have hp : decide (evt g' = e1 ∧ groupHits c skipNN g'.2 ≠ []) = true := by
        rw [decide_eq_true_eq]
        obtain ⟨e2, t2, hk2, hh2⟩ := grouped_mem (s := skipNN) hg'
        rw [hk'] at hk2
        simp only [List.cons.injEq, Int.cast_inj, and_true] at hk2
        rw [← hk2.1, ← hk2.2] at hh2
        refine ⟨by simp [evt, hk'], ?_⟩
        rw [hh2]
        intro hz
        exact hn (List.map_eq_nil_iff.mp hz)
      have := h3 g' hg' hp
      rw [hk, hk'] at this
      simp only [Frame.lexLe, if_true] at this
      split at this
      · linarith
      · rw [decide_eq_true_eq] at this
        linarith
  unfold hitsFromDf
  rw [foldl_lookup]
  change (match (grouped c rows).reverse.find? _ with | some g => _ | none => _) = some hc ↔ _
  constructor
  · intro h
    cases hf : (grouped c rows).reverse.find? (fun g => decide (evt g = e ∧ groupHits c skipNN g.2 ≠ [])) with
    | none => rw [hf] at h; simp at h
    | some g =>
      rw [hf] at h
      simp only [Option.some.injEq] at h
      obtain ⟨t, h1, h2, h3, h4⟩ := key g hf
      refine ⟨t, ?_, h3, h4⟩
      rw [← h, h1, h2]
  · rintro ⟨t, rfl, h3, h4⟩
    obtain ⟨g', hg', hk'⟩ := grouped_exists h3
    cases hf : (grouped c rows).reverse.find? (fun g => decide (evt g = e ∧ groupHits c skipNN g.2 ≠ [])) with
    | none =>
      rw [List.find?_eq_none] at hf
      exfalso
      apply hf g' (by simpa using hg')
      rw [decide_eq_true_eq]
      obtain ⟨e2, t2, hk2, hh2⟩ := grouped_mem (s := skipNN) hg'
      rw [hk'] at hk2
      simp only [List.cons.injEq, Int.cast_inj, and_true] at hk2
      rw [← hk2.1, ← hk2.2] at hh2
      refine ⟨by simp [evt, hk'], ?_⟩
      rw [hh2]
      intro hz
      exact h3 (List.map_eq_nil_iff.mp hz)
    | some g =>
      obtain ⟨t2, h1, h2, h5, h6⟩ := key g hf
      have : t = t2 := by
        rcases lt_trichotomy t t2 with h | h | h
        · exact absurd (h4 _ h) h5
        · exact h
        · exact absurd (h6 _ h) h3
      subst this
      simp only [h1, h2]

/-- C91: if all the rows of an event have the same time, all its hits are read, in order. -/
theorem event_complete (c : Cols) (skipNN : Bool) (rows : List Row) (e : Int) (t : ℚ) (ht : ∀ r ∈ rows, r.event = e → TimeIs c r t) :
    (hitsFromDf c skipNN rows).lookup e =
      if rowsOf c skipNN rows e = [] then none else some ⟨e, t, (rowsOf c skipNN rows e).map (mkHit c)⟩ := by
  have hsel : selected c skipNN rows e t = rowsOf c skipNN rows e := by
    unfold selected rowsOf
    refine List.filter_congr fun r hr => ?_
    congr 1
    apply propext
    constructor
    · rintro ⟨a, _, b⟩; exact ⟨a, b⟩
    · rintro ⟨a, b⟩; exact ⟨a, ht r hr a, b⟩
  have hoth : ∀ t', t' ≠ t → selected c skipNN rows e t' = [] := by
    intro t' hne
    unfold selected
    rw [List.filter_eq_nil_iff]
    intro r hr hd
    rw [decide_eq_true_eq] at hd
    have h1 := timeOf_iff.mpr (ht r hr hd.1)
    have h2 := timeOf_iff.mpr hd.2.1
    rw [h1] at h2
    exact hne (Option.some.inj h2).symm
  by_cases hn : rowsOf c skipNN rows e = []
  · rw [if_pos hn]
    cases hl : (hitsFromDf c skipNN rows).lookup e with
    | none => rfl
    | some hc =>
      obtain ⟨t', _, h2, _⟩ := (hitsFromDf_spec c skipNN rows e hc).mp hl
      by_cases h : t' = t
      · subst h; rw [hsel] at h2; exact absurd hn h2
      · exact absurd (hoth _ h) h2
  · rw [if_neg hn, hitsFromDf_spec]
    refine ⟨t, by rw [hsel], by rw [hsel]; exact hn, fun t' h => hoth t' (ne_of_gt h)⟩

theorem keys_setKey {β : Type} (d : List (Int × β)) (k : Int) (v : β) :
    (Blr.setKey d k v).map Prod.fst = if k ∈ d.map Prod.fst then d.map Prod.fst else d.map Prod.fst ++ [k] := by
  unfold Blr.setKey
  by_cases h : k ∈ d.map Prod.fst
  · rw [if_pos h, if_pos h, List.map_map]
    refine List.map_congr_left fun p _ => ?_
    by_cases hp : p.1 = k
    · simp [hp]
    · simp [hp]
  · rw [if_neg h, if_neg h, List.map_append]; rfl

theorem keys_sorted_aux (c : Cols) (s : Bool) : ∀ (gs : List (List ℚ × List Row)) (d : List (Int × HitColl)),
    gs.Pairwise (fun a b => evt a ≤ evt b) → (∀ k ∈ d.map Prod.fst, ∀ g ∈ gs, k ≤ evt g) → (d.map Prod.fst).Pairwise (· < ·) →
    ((gs.foldl (addGroup c s) d).map Prod.fst).Pairwise (· < ·) := by
  intro gs
  induction gs with
  | nil => intro d _ _ h; exact h
  | cons g gs ih =>
    intro d hs hb hd
    rw [List.pairwise_cons] at hs
    rw [List.foldl_cons]
    apply ih _ hs.2
    · intro k hk g' hg'
      unfold addGroup at hk
      simp only at hk
      split at hk
      · rw [keys_setKey] at hk
        split at hk
        · exact hb k hk g' (List.mem_cons_of_mem _ hg')
        · rcases List.mem_append.mp hk with hk | hk
          · exact hb k hk g' (List.mem_cons_of_mem _ hg')
          · rw [List.mem_singleton] at hk
            rw [hk]; exact hs.1 g' hg'
      · exact hb k hk g' (List.mem_cons_of_mem _ hg')
    · unfold addGroup
      simp only
      split
      · rw [keys_setKey]
        split
        · exact hd
        · rename_i hn
          rw [List.pairwise_append]
          refine ⟨hd, List.pairwise_singleton _ _, ?_⟩
          intro a ha b hb'
          rw [List.mem_singleton] at hb'
          subst hb'
          exact lt_of_le_of_ne (hb a ha g List.mem_cons_self) (fun h => hn (h ▸ ha))
      · exact hd

/-- C91: the events are in increasing order, each once. -/
theorem keys_sorted (c : Cols) (skipNN : Bool) (rows : List Row) : ((hitsFromDf c skipNN rows).map Prod.fst).Pairwise (· < ·) := by
  unfold hitsFromDf
  apply keys_sorted_aux
  · apply List.Pairwise.imp_of_mem _ (grouped_sorted c rows)
    intro a b ha hb h
    obtain ⟨e1, t1, h1, _⟩ := grouped_mem (s := skipNN) ha
    obtain ⟨e2, t2, h2, _⟩ := grouped_mem (s := skipNN) hb
    rw [h1, h2] at h
    simp only [evt, h1, h2, List.getD_cons_zero, Int.floor_intCast]
    simp only [Frame.lexLe] at h
    split at h
    · rename_i he
      exact le_of_eq (by exact_mod_cast he)
    · rw [decide_eq_true_eq] at h
      exact_mod_cast h
  · intro k hk; simp at hk
  · exact List.Pairwise.nil

/-- C91: no table, or an empty one, gives no events; skipping is the option of the general function. -/
theorem loadHits_spec (c : Cols) (skipNN : Bool) (rows : List Row) :
    loadHits c skipNN none = [] ∧ loadHits c skipNN (some rows) = hitsFromDf c skipNN rows ∧ loadHitsSkippingNN c (some rows) = hitsFromDf c true rows := by
  have : ∀ s, loadHits c s (some rows) = hitsFromDf c s rows := by
    intro s
    unfold loadHits
    cases rows with
    | nil => rfl
    | cons r rs => simp
  exact ⟨rfl, this skipNN, this true⟩

namespace Example
def row (e : Int) (t : Option ℚ) (x q en : ℚ) : Row := ⟨e, t, 0, x, 0, 0, q, en, 1, 2, 3, 4, 5⟩
def full : Cols := ⟨true, true, true, true, true, true, true⟩
end Example
open Example

/-- Two events, mixed; one hit without charge. -/
example : ((hitsFromDf full true [row 7 (some 10) 1 5 6, row 3 (some 4) 2 5 6, row 7 (some 10) 3 (-999999) 6]).map fun p => (p.1, p.2.time, p.2.hits.map (·.X)))
    = [(3, 4, [2]), (7, 10, [1])] := by decide +kernel

/-- The hypothesis of `event_complete` is met. -/
example : ∀ r ∈ [row 7 (some 10) 1 5 6, row 3 (some 4) 2 5 6, row 7 (some 10) 3 (-999999) 6], r.event = 7 → TimeIs full r 10 := by decide +kernel

/-- Finding: with two times for one event the hits of the first are lost, and so are those with a NaN time. -/
theorem two_times_lost : ((hitsFromDf full false [row 7 (some 10) 1 5 6, row 7 (some 11) 2 5 6, row 7 none 3 5 6]).map fun p => (p.1, p.2.time, p.2.hits.map (·.X)))
    = [(7, 11, [2])] := by decide +kernel

/-- Finding: a hit with energy `NN` is read with its charge as energy. -/
theorem energy_nn_replaced : (mkHit full (row 7 none 1 5 (-999999))).E = 5 := by decide +kernel

end Verif.HitsIO
