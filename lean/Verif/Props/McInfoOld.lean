import Verif.Spec.McInfo
import Verif.Lemmas.Tables
import Verif.Props.Sources
/-!
# C63: files previous to 2020; C64: hits as a dictionary; C65: times of the sensor response
-/
namespace Verif.McInfo
open Verif.PMapsIO (unique)

/-- The row number `i` is in the extent of the event `e`: it is not after the last row of the event and it is after the last rows of the events before it. -/
def Owns (ext : List (Int × Int)) (i : Nat) (e : Int) : Prop :=
  ∃ (k : Nat) (r : Int × Int), ext[k]? = some r ∧ r.2 = e ∧ (i : Int) ≤ r.1 ∧ ∀ (j : Nat) (s : Int × Int), j < k → ext[j]? = some s → s.1 < (i : Int)

/-- The first extent that reaches the row `i`. -/
def owner (ext : List (Int × Int)) (i : Nat) : Option (Int × Int) := ext.find? fun r => decide ((i : Int) ≤ r.1)

theorem owner_owns {ext : List (Int × Int)} {i : Nat} {r : Int × Int} (h : owner ext i = some r) : Owns ext i r.2 := by
  unfold owner at h
  rw [List.find?_eq_some_iff_getElem] at h
  obtain ⟨h1, k, hk, h2, h3⟩ := h
  refine ⟨k, r, by rw [List.getElem?_eq_getElem hk, h2], rfl, by simpa using h1, ?_⟩
  intro j s hj hs
  obtain ⟨hl, hs⟩ := List.getElem?_eq_some_iff.1 hs
  have := h3 j hj
  rw [hs] at this
  simpa using this

/-- The rows of the extents that end at the row `i`. -/
def ending (ext : List (Int × Int)) (i : Nat) : List (Int × Int) := ext.filter fun r => r.1 == (i : Int)

theorem owner_succ {ext : List (Int × Int)} {i : Nat} (h : ending ext i = []) : owner ext i = owner ext (i + 1) := by
  unfold owner
  have hne : ∀ r ∈ ext, r.1 ≠ (i : Int) := by
    intro r hr he
    have : r ∈ ending ext i := List.mem_filter.2 ⟨hr, by simp [he]⟩
    rw [h] at this
    cases this
  induction ext with
  | nil => rfl
  | cons r rs ih =>
    have h0 := hne r List.mem_cons_self
    have h1 : (decide ((i : Int) ≤ r.1)) = decide (((i + 1 : Nat) : Int) ≤ r.1) := by
      rw [decide_eq_decide]; push_cast; omega
    rw [List.find?_cons, List.find?_cons, h1, ih _ fun s hs => hne s (List.mem_cons_of_mem _ hs)]
    rw [ending, List.filter_eq_nil_iff]
    intro s hs
    simpa using hne s (List.mem_cons_of_mem _ hs)

theorem owner_ending {i : Nat} {r : Int × Int} {rs : List (Int × Int)} : ∀ {ext : List (Int × Int)}, ext.Pairwise (fun a b => a.1 ≤ b.1) → ending ext i = r :: rs →
    owner ext i = some r := by
  intro ext
  induction ext with
  | nil => intro _ h; cases h
  | cons s ss ih =>
    intro hp h
    unfold owner
    rw [List.find?_cons]
    unfold ending at h
    by_cases hs : s.1 = (i : Int)
    · have hb : (s.1 == (i : Int)) = true := by simpa using hs
      rw [List.filter_cons, if_pos hb] at h
      cases h
      have hd : decide ((i : Int) ≤ r.1) = true := by simp [hs]
      rw [hd]
    · have hb : ¬ (s.1 == (i : Int)) = true := by simpa using hs
      rw [List.filter_cons, if_neg hb] at h
      have hr : r ∈ ss ∧ r.1 = (i : Int) := by
        have := List.mem_filter.1 (h ▸ List.mem_cons_self : r ∈ ss.filter fun r => r.1 == (i : Int))
        exact ⟨this.1, by simpa using this.2⟩
      have h2 : decide ((i : Int) ≤ s.1) = false := by
        have := (List.pairwise_cons.1 hp).1 r hr.1
        rw [decide_eq_false_iff_not]
        omega
      rw [h2]
      exact ih (List.pairwise_cons.1 hp).2 h

theorem mergeFrom_cons {α : Type} (ext : List (Int × Int)) (i : Nat) (x : α) (xs : List α) :
    mergeFrom ext i (x :: xs) = (match ending ext i with
      | [] => [(none, x)]
      | r :: rs => (r :: rs).map fun s => (some s.2, x)) ++ mergeFrom ext (i + 1) xs := rfl

theorem next_owner {α : Type} {ext : List (Int × Int)} (hp : ext.Pairwise fun a b => a.1 ≤ b.1) : ∀ (rows : List α) (i : Nat),
    (rows ≠ [] ∧ ∃ r ∈ ext, r.1 + 1 = (i : Int) + rows.length) →
    ∃ r, owner ext i = some r ∧ nextValue (mergeFrom ext i rows) = some r.2 := by
  intro rows
  induction rows with
  | nil => rintro i ⟨h, _⟩; exact absurd rfl h
  | cons x xs ih =>
    rintro i ⟨_, r, hr, he⟩
    rw [mergeFrom_cons]
    cases hf : ending ext i with
    | nil =>
      have hxs : xs ≠ [] := by
        rintro rfl
        have : r ∈ ending ext i := List.mem_filter.2 ⟨hr, by simp at he ⊢; omega⟩
        rw [hf] at this
        cases this
      obtain ⟨s, h1, h2⟩ := ih (i + 1) ⟨hxs, r, hr, by rw [he]; push_cast [List.length_cons]; omega⟩
      exact ⟨s, by rw [owner_succ hf, h1], h2⟩
    | cons s ss => exact ⟨s, owner_ending hp hf, rfl⟩

/-- What is given to the row `i`: its event, and then the other events that end in it. -/
def given (ext : List (Int × Int)) (i : Nat) : List Int := ((owner ext i).map Prod.snd).toList ++ ((ending ext i).tail).map Prod.snd

theorem bfill_some {α : Type} (es : List Int) (x : α) (l : List (Option Int × α)) {m : List (Int × α)} (h : bfill l = .ok m) :
    bfill (es.map (fun e => (some e, x)) ++ l) = .ok (es.map (fun e => (e, x)) ++ m) := by
  induction es with
  | nil => exact h
  | cons e es ih =>
    change (match some e, bfill (es.map (fun e => (some e, x)) ++ l) with
      | some e, .ok l => Except.ok ((e, x) :: l)
      | _, .error e => .error e
      | none, _ => .error .valueError) = _
    rw [ih]
    rfl

theorem loadFrom_blocks {α : Type} {ext : List (Int × Int)} (hp : ext.Pairwise fun a b => a.1 ≤ b.1) : ∀ (rows : List α) (i : Nat),
    (rows = [] ∨ ∃ r ∈ ext, r.1 + 1 = (i : Int) + rows.length) →
    bfill (mergeFrom ext i rows) = .ok ((rows.zipIdx i).flatMap fun p => (given ext p.2).map fun e => (e, p.1)) := by
  intro rows
  induction rows with
  | nil => intro i _; rfl
  | cons x xs ih =>
    intro i h
    obtain ⟨r, hr, he⟩ := h.resolve_left (by simp)
    have hrest := ih (i + 1) (by
      cases xs with
      | nil => exact .inl rfl
      | cons y ys => exact .inr ⟨r, hr, by rw [he]; push_cast [List.length_cons]; omega⟩)
    rw [List.zipIdx_cons, List.flatMap_cons, mergeFrom_cons]
    obtain ⟨s, hs, hn⟩ := next_owner hp (x :: xs) i ⟨by simp, r, hr, he⟩
    rw [mergeFrom_cons] at hn
    cases hf : ending ext i with
    | nil =>
      rw [hf] at hn
      change nextValue (mergeFrom ext (i + 1) xs) = some s.2 at hn
      change (match nextValue (mergeFrom ext (i + 1) xs), bfill (mergeFrom ext (i + 1) xs) with
        | some e, .ok l => Except.ok ((e, x) :: l)
        | _, .error e => .error e
        | none, _ => .error .valueError) = _
      rw [hn, hrest]
      simp [given, hs, hf]
    | cons a as =>
      have ho := owner_ending hp hf
      have hg : given ext i = (a :: as).map Prod.snd := by simp [given, ho, hf]
      have := bfill_some ((a :: as).map Prod.snd) x _ hrest
      rw [List.map_map] at this
      rw [hg]
      exact this

/-- **C63**, what the loaders of old files do, for extents in order whose last one ends at the last row: each row is given to the event whose extent has it and, in addition, a
copy of it to each of the events that follow and have no rows. -/
theorem old_rows_blocks {α : Type} (ext : List (Int × Int)) (rows : List α) (hp : ext.Pairwise fun a b => a.1 ≤ b.1)
    (hl : rows = [] ∨ ∃ r ∈ ext, r.1 + 1 = rows.length) :
    loadOld ext rows = .ok (rows.zipIdx.flatMap fun p => (given ext p.2).map fun e => (e, p.1)) := by
  refine loadFrom_blocks hp rows 0 ?_
  rcases hl with h | ⟨r, h1, h2⟩
  · exact .inl h
  · exact .inr ⟨r, h1, by rw [h2]; simp⟩

theorem ending_strict {ext : List (Int × Int)} (hp : ext.Pairwise fun a b => a.1 < b.1) (i : Nat) : (ending ext i).tail = [] := by
  have hs : (ending ext i).Pairwise fun a b => a.1 < b.1 := hp.sublist List.filter_sublist
  cases he : ending ext i with
  | nil => rfl
  | cons a as =>
    cases as with
    | nil => rfl
    | cons b bs =>
      rw [he] at hs
      have h1 := (List.pairwise_cons.1 hs).1 b List.mem_cons_self
      have h2 : ∀ x ∈ ending ext i, x.1 = (i : Int) := fun x hx => by simpa using (List.mem_filter.1 hx).2
      rw [he] at h2
      have := h2 a List.mem_cons_self
      have := h2 b (List.mem_cons_of_mem _ List.mem_cons_self)
      omega

theorem owner_exists {ext : List (Int × Int)} {i n : Nat} (h : ∃ r ∈ ext, r.1 + 1 = (n : Int)) (hi : i < n) : ∃ r, owner ext i = some r := by
  obtain ⟨r, hr, he⟩ := h
  cases ho : owner ext i with
  | some s => exact ⟨s, rfl⟩
  | none =>
    have := List.find?_eq_none.1 ho r hr
    simp at this
    omega

theorem flatMap_single {α β : Type} {f : α → List β} {g : α → β} {l : List α} (h : ∀ a ∈ l, f a = [g a]) : l.flatMap f = l.map g := by
  induction l with
  | nil => rfl
  | cons a l ih =>
    rw [List.flatMap_cons, h a List.mem_cons_self, ih fun b hb => h b (List.mem_cons_of_mem _ hb)]
    rfl

/-- **C63** (partial: when every event has some row): the loaders of hits, particles and sensor data of old files give every row once, in order, each with the event whose extent
has it. -/
theorem old_rows_partial {α : Type} (ext : List (Int × Int)) (rows : List α) (hp : ext.Pairwise fun a b => a.1 < b.1)
    (hl : rows = [] ∨ ∃ r ∈ ext, r.1 + 1 = rows.length) :
    ∃ l, loadOld ext rows = .ok l ∧ l.map Prod.snd = rows ∧ ∀ (i : Nat) (p : Int × α), l[i]? = some p → Owns ext i p.1 := by
  refine ⟨rows.zipIdx.map fun p => (((owner ext p.2).map Prod.snd).getD 0, p.1), ?_, ?_, ?_⟩
  · rw [old_rows_blocks ext rows (hp.imp fun h => le_of_lt h) hl]
    congr 1
    apply flatMap_single
    rintro ⟨x, i⟩ hx
    have hi : i < rows.length := (List.getElem?_eq_some_iff.1 (List.mem_zipIdx_iff_getElem?.1 hx)).1
    obtain ⟨r, hr⟩ := owner_exists (hl.resolve_left (by rintro rfl; simp at hi)) hi
    simp [given, ending_strict hp, hr]
  · rw [List.map_map]
    exact List.zipIdx_map_fst 0 rows
  · intro i p h
    simp only [List.getElem?_map, List.getElem?_zipIdx, Option.map_map, Option.map_eq_some_iff] at h
    obtain ⟨x, hx, rfl⟩ := h
    have hi : i < rows.length := (List.getElem?_eq_some_iff.1 hx).1
    obtain ⟨r, hr⟩ := owner_exists (hl.resolve_left (by rintro rfl; simp at hi)) hi
    simpa [hr] using owner_owns hr

example : ([(1, 40), (2, 41), (5, 42)] : List (Int × Int)).Pairwise (fun a b => a.1 < b.1) ∧
    (loadOld [(1, 40), (2, 41), (5, 42)] ['a', 'b', 'c', 'd', 'e', 'f']).toOption =
      some [(40, 'a'), (40, 'b'), (41, 'c'), (42, 'd'), (42, 'e'), (42, 'f')] := by decide

/-- Not in general: an event without rows after the row `i` is given a copy of it. -/
theorem empty_event_gets_a_row {α : Type} (ext : List (Int × Int)) (rows : List α) (hp : ext.Pairwise fun a b => a.1 ≤ b.1)
    (hl : ∃ r ∈ ext, r.1 + 1 = rows.length) {k : Nat} {r s : Int × Int} (hr : ext[k]? = some r) (hs : ext[k + 1]? = some s) (he : r.1 = s.1)
    {i : Nat} {x : α} (hi : (i : Int) = r.1) (hx : rows[i]? = some x) :
    ∃ l, loadOld ext rows = .ok l ∧ (s.2, x) ∈ l := by
  refine ⟨_, old_rows_blocks ext rows hp (.inr hl), ?_⟩
  rw [List.mem_flatMap]
  refine ⟨(x, i), List.mem_zipIdx_iff_getElem?.2 hx, List.mem_map.2 ⟨s.2, ?_, rfl⟩⟩
  have hsub : [r, s].Sublist ext := by
    have h1 : ext.drop k = r :: ext.drop (k + 1) := by
      rw [List.drop_eq_getElem_cons (List.getElem?_eq_some_iff.1 hr).1, (List.getElem?_eq_some_iff.1 hr).2]
    have h2 : ext.drop (k + 1) = s :: ext.drop (k + 2) := by
      rw [List.drop_eq_getElem_cons (List.getElem?_eq_some_iff.1 hs).1, (List.getElem?_eq_some_iff.1 hs).2]
    have : [r, s].Sublist (ext.drop k) := by
      rw [h1, h2]
      exact ((List.nil_sublist _).cons_cons s).cons_cons r
    exact this.trans (List.drop_sublist _ _)
  have hf : [r, s].Sublist (ending ext i) := by
    have := hsub.filter fun r => r.1 == (i : Int)
    rwa [List.filter_cons, if_pos (by simp [hi]), List.filter_cons, if_pos (by simp [hi, he]), List.filter_nil] at this
  unfold given
  apply List.mem_append_right
  refine List.mem_map.2 ⟨s, ?_, rfl⟩
  cases hq : ending ext i with
  | nil => rw [hq] at hf; cases hf
  | cons a as =>
    rw [hq] at hf
    exact (hf.tail : [s].Sublist as).subset List.mem_cons_self

example : (loadOld [(1, 40), (1, 41), (2, 42)] ['a', 'b', 'c']).toOption = some [(40, 'a'), (40, 'b'), (41, 'b'), (42, 'c')] := by decide

theorem bfill_error {α : Type} (l m : List (Option Int × α)) (h : bfill m = .error .valueError) : bfill (l ++ m) = .error .valueError := by
  induction l with
  | nil => exact h
  | cons p l ih =>
    obtain ⟨v, x⟩ := p
    rw [List.cons_append]
    unfold bfill
    rw [ih]
    cases v with
    | some e => rfl
    | none =>
      cases nextValue (l ++ m) with
      | some e => rfl
      | none => rfl

/-- **C63**: a table with rows after the end of all the extents, or whose extents end after it, is refused. -/
theorem old_rows_refused {α : Type} (ext : List (Int × Int)) (rows : List α) (hne : rows ≠ []) (h : ∀ r ∈ ext, r.1 + 1 ≠ rows.length) :
    loadOld ext rows = .error .valueError := by
  have key : ∀ (rows : List α) (i : Nat), rows ≠ [] → (∀ r ∈ ext, r.1 + 1 ≠ (i : Int) + rows.length) → bfill (mergeFrom ext i rows) = .error .valueError := by
    intro rows
    induction rows with
    | nil => intro i h _; exact absurd rfl h
    | cons x xs ih =>
      intro i _ h
      rw [mergeFrom_cons]
      cases xs with
      | nil =>
        have hf : ending ext i = [] := by
          rw [ending, List.filter_eq_nil_iff]
          intro r hr
          have := h r hr
          simp at this ⊢
          omega
        rw [hf]
        rfl
      | cons y ys =>
        exact bfill_error _ _ (ih (i + 1) (by simp) fun r hr => by have := h r hr; push_cast [List.length_cons] at this ⊢; omega)
  exact key rows 0 hne fun r hr => by simpa using h r hr

example : loadOld [(1, 40)] ['a', 'b', 'c'] = .error .valueError := rfl

/-! The dictionary read event by event. -/

theorem readRange_spec {α : Type} (rows : List α) : ∀ (n i : Nat), i + n ≤ rows.length → readRange rows i n = .ok ((rows.drop i).take n) := by
  intro n
  induction n with
  | zero => intro i _; simp [readRange]
  | succ n ih =>
    intro i h
    have hi : i < rows.length := by omega
    unfold readRange
    rw [if_pos (show (0 : Int) ≤ (i : Int) by omega)]
    simp only [Int.toNat_natCast, List.getElem?_eq_getElem hi]
    have := ih (i + 1) (by omega)
    push_cast at this
    rw [this, List.drop_eq_getElem_cons hi, List.take_succ_cons]

/-- Where the rows of the `k`-th event start. -/
def startOf (ext : List (Int × Int)) (k : Nat) : Nat := if k = 0 then 0 else ((((ext[k - 1]?).map Prod.fst).getD 0) + 1).toNat

/-- **C63**: the reader of the hits of old files event by event gives, for each row of the extents, the event with the rows between the end of the previous event and its own end, for extents in order
within the table: also when events have no hits. -/
theorem read_hits_events {α : Type} (ext : List (Int × Int)) (rows : List α) (hp : ext.Pairwise fun a b => a.1 ≤ b.1)
    (hb : ∀ r ∈ ext, -1 ≤ r.1 ∧ r.1 < rows.length) :
    readHits ext rows (List.range ext.length) =
      .ok (ext.zipIdx.map fun p => (p.1.2, (rows.drop (startOf ext p.2)).take ((p.1.1 + 1).toNat - startOf ext p.2))) := by
  have key : ∀ (suffix : List (Int × Int)) (k : Nat), ext.drop k = suffix →
      readHits ext rows (List.range' k suffix.length) =
        .ok ((suffix.zipIdx k).map fun p => (p.1.2, (rows.drop (startOf ext p.2)).take ((p.1.1 + 1).toNat - startOf ext p.2))) := by
    intro suffix
    induction suffix with
    | nil => intro k _; rfl
    | cons r rs ih =>
      intro k hk
      have hk' : ext[k]? = some r := by rw [← List.head?_drop, hk]; rfl
      have hrest := ih (k + 1) (by rw [← List.drop_drop, hk]; rfl)
      rw [List.length_cons, List.range'_succ, List.zipIdx_cons, List.map_cons]
      unfold readHits
      rw [hk']
      have hr := hb r (List.mem_of_getElem? hk')
      have hst : (if k = 0 then (0 : Int) else ((ext[k - 1]?).map Prod.fst).getD 0 + 1) = (startOf ext k : Int) ∧
          (startOf ext k : Int) ≤ r.1 + 1 := by
        unfold startOf
        by_cases h0 : k = 0
        · simp only [h0, if_true]
          exact ⟨rfl, by push_cast; omega⟩
        · rw [if_neg h0, if_neg h0]
          have hkl := (List.getElem?_eq_some_iff.1 hk').1
          have hlt : k - 1 < ext.length := by omega
          rw [List.getElem?_eq_getElem hlt]
          have h1 := hb ext[k - 1] (List.getElem_mem _)
          have h2 := List.pairwise_iff_getElem.1 hp (k - 1) k hlt hkl (by omega)
          have h3 : ext[k].1 = r.1 := by rw [(List.getElem?_eq_some_iff.1 hk').2]
          simp only [Option.map_some, Option.getD_some]
          constructor <;> omega
      have hev : readEvent ext rows r.2 (ext.length + 1) k = .ok ((rows.drop (startOf ext k)).take ((r.1 + 1).toNat - startOf ext k)) := by
        unfold readEvent
        rw [hk']
        simp only [if_true]
        by_cases hz : rows.length = 0
        · rw [if_pos hz, List.length_eq_zero_iff.1 hz]
          simp
        · rw [if_neg hz, hst.1]
          have hn : (r.1 + 1 - (startOf ext k : Int)).toNat = (r.1 + 1).toNat - startOf ext k := by omega
          rw [hn]
          exact readRange_spec rows _ _ (by omega)
      simp only [hev, hrest]
  have := key ext 0 rfl
  rwa [← List.range_eq_range'] at this

example : (readHits [(1, 40), (1, 41), (2, 42)] ['a', 'b', 'c'] (List.range 3)).toOption = some [(40, ['a', 'b']), (41, []), (42, ['c'])] := by decide

/-! ### C64 -/

theorem head_of_group {rows : List HitRow} {k : Int} (h : k ∈ rows.map HitRow.hit) : ∃ r, (rows.filter fun r => r.hit == k).head? = some r ∧ r ∈ rows ∧ r.hit = k := by
  obtain ⟨s, hs, rfl⟩ := List.mem_map.1 h
  cases hf : rows.filter fun r => r.hit == s.hit with
  | nil =>
    have : s ∈ rows.filter fun r => r.hit == s.hit := List.mem_filter.2 ⟨hs, by simp⟩
    rw [hf] at this
    cases this
  | cons r rs =>
    have hm := List.mem_filter.1 (hf ▸ List.mem_cons_self : r ∈ rows.filter fun r => r.hit == s.hit)
    exact ⟨r, rfl, hm.1, by simpa using hm.2⟩

/-- **C64**, what is kept: one hit for each hit number, in increasing order, each of them a hit of the event. -/
theorem cast_event (rows : List HitRow) :
    (firstOfEach rows).map HitRow.hit = Sources.groupKeys (rows.map HitRow.hit) ∧ ∀ r ∈ firstOfEach rows, r ∈ rows := by
  unfold firstOfEach
  have hk := Sources.groupKeys_spec (rows.map HitRow.hit)
  constructor
  · rw [List.map_flatMap]
    have : ∀ ks : List Int, (∀ k ∈ ks, k ∈ rows.map HitRow.hit) →
        ks.flatMap (fun k => (((rows.filter fun r => r.hit == k).head?).toList).map HitRow.hit) = ks := by
      intro ks
      induction ks with
      | nil => intro _; rfl
      | cons k ks ih =>
        intro h
        obtain ⟨r, h1, _, h3⟩ := head_of_group (h k List.mem_cons_self)
        rw [List.flatMap_cons, ih fun j hj => h j (List.mem_cons_of_mem _ hj), h1]
        simp [h3]
    exact this _ fun k hk' => (hk.2 k).1 hk'
  · intro r hr
    obtain ⟨k, hk', hr⟩ := List.mem_flatMap.1 hr
    obtain ⟨s, h1, h2, _⟩ := head_of_group ((hk.2 k).1 hk')
    rw [h1] at hr
    simp at hr
    rw [hr]
    exact h2

/-- **C64** (partial: when the hits of each event have different numbers): the dictionary has the events of the table in increasing order, each with all its hits. -/
theorem cast_hits_partial (rows : List HitRow) (h : ∀ e, ((rows.filter fun r => r.event == e).map HitRow.hit).Nodup) :
    (castHits rows).map Prod.fst = Sources.groupKeys (rows.map HitRow.event) ∧
    ∀ p ∈ castHits rows, p.2.Perm (rows.filter fun r => r.event == p.1) ∧ (p.2.map HitRow.hit).Pairwise (· < ·) := by
  refine ⟨by simp [castHits, List.map_map, Function.comp_def], ?_⟩
  intro p hp
  obtain ⟨e, _, rfl⟩ := List.mem_map.1 hp
  obtain ⟨h1, h2⟩ := cast_event (rows.filter fun r => r.event == e)
  have hk := Sources.groupKeys_spec ((rows.filter fun r => r.event == e).map HitRow.hit)
  have hlt : ((firstOfEach (rows.filter fun r => r.event == e)).map HitRow.hit).Pairwise (· < ·) := h1 ▸ hk.1
  refine ⟨?_, hlt⟩
  have hnd : (firstOfEach (rows.filter fun r => r.event == e)).Nodup := List.Nodup.of_map _ (hlt.imp fun h => ne_of_lt h)
  refine (List.perm_ext_iff_of_nodup hnd (List.Nodup.of_map _ (h e))).2 fun r => ⟨h2 r, fun hr => ?_⟩
  have hm : r.hit ∈ (firstOfEach (rows.filter fun r => r.event == e)).map HitRow.hit := by
    rw [h1, hk.2]
    exact List.mem_map.2 ⟨r, hr, rfl⟩
  obtain ⟨s, hs, hsr⟩ := List.mem_map.1 hm
  have : s = r := List.inj_on_of_nodup_map (h e) (h2 s hs) hr hsr
  rwa [← this]

example : ∀ e, (([⟨0, 1, 0, 5⟩, ⟨0, 2, 1, 6⟩, ⟨1, 1, 0, 7⟩] : List HitRow).filter fun r => r.event == e).map HitRow.hit |>.Nodup := by
  intro e
  by_cases h0 : (0 : Int) = e
  · subst h0; decide
  · by_cases h1 : (1 : Int) = e
    · subst h1; decide
    · simp [h0, h1]
example : castHits [⟨0, 2, 1, 6⟩, ⟨0, 1, 0, 5⟩, ⟨1, 1, 0, 7⟩] = [(0, [⟨0, 1, 0, 5⟩, ⟨0, 2, 1, 6⟩]), (1, [⟨1, 1, 0, 7⟩])] := by decide

/-- Not in general: of several hits of an event with the same number, which different particles may have, only one is kept. -/
theorem cast_loses_hits (rows : List HitRow) (e : Int) (he : e ∈ rows.map HitRow.event) :
    ∃ hs, (e, hs) ∈ castHits rows ∧ hs.length = (unique ((rows.filter fun r => r.event == e).map HitRow.hit)).length := by
  refine ⟨firstOfEach (rows.filter fun r => r.event == e), List.mem_map.2 ⟨e, ((Sources.groupKeys_spec _).2 e).2 he, rfl⟩, ?_⟩
  have h1 := congrArg List.length (cast_event (rows.filter fun r => r.event == e)).1
  rw [List.length_map] at h1
  rw [h1]
  refine List.Perm.length_eq ((List.perm_ext_iff_of_nodup ((Sources.groupKeys_spec _).1.imp fun h => ne_of_lt h) (PMapsIO.unique_nodup _)).2 fun x => ?_)
  rw [(Sources.groupKeys_spec _).2, PMapsIO.mem_unique]

example : castHits [⟨0, 1, 0, 5⟩, ⟨0, 2, 0, 6⟩, ⟨0, 2, 1, 7⟩] = [(0, [⟨0, 1, 0, 5⟩, ⟨0, 2, 1, 7⟩])] := by decide

/-! ### C65 -/

theorem filter_key {α β : Type} [BEq α] [LawfulBEq α] {xs : List (α × β)} (h : (xs.map Prod.fst).Nodup) {a : α} {b : β} (hm : (a, b) ∈ xs) :
    xs.filter (fun p => p.1 == a) = [(a, b)] := by
  induction xs with
  | nil => cases hm
  | cons x xs ih =>
    rw [List.map_cons, List.nodup_cons] at h
    rcases List.mem_cons.1 hm with rfl | hm
    · have : xs.filter (fun p => p.1 == a) = [] := by
        rw [List.filter_eq_nil_iff]
        intro p hp hpa
        exact h.1 (List.mem_map.2 ⟨p, hp, by simpa using hpa⟩)
      simp [this]
    · have hx : x.1 ≠ a := fun hx => h.1 (hx ▸ List.mem_map.2 ⟨(a, b), hm, rfl⟩)
      rw [List.filter_cons, if_neg (by simpa using hx)]
      exact ih h.2 hm

theorem joinBins_spec (bins : List (String × ℚ)) (hb : (bins.map Prod.fst).Nodup) (pos : List (Nat × String)) :
    joinBins bins pos = pos.map fun p => (p.1, p.2, ((bins.filter fun b => b.1 == p.2).head?).map Prod.snd) := by
  unfold joinBins
  induction pos with
  | nil => rfl
  | cons p pos ih =>
    rw [List.flatMap_cons, List.map_cons, ih]
    cases hf : bins.filter fun b => b.1 == p.2 with
    | nil => rfl
    | cons b bs =>
      have hbm := List.mem_filter.1 (hf ▸ List.mem_cons_self : b ∈ bins.filter fun b => b.1 == p.2)
      have hp : b.1 = p.2 := by simpa using hbm.2
      have := filter_key hb (a := b.1) (b := b.2) hbm.1
      rw [hp, hf] at this
      rw [(List.cons.inj this).2]
      rfl

/-- **C65**: when each sensor has one position and each type one width, every row of the sensor response is kept, in order, its time being the bin times the width of the
type of its sensor (NaN for a type without width). -/
theorem times_of_bins (resp : List SnsRow) (bins : List (String × ℚ)) (pos : List (Nat × String)) (hb : (bins.map Prod.fst).Nodup) (hp : (pos.map Prod.fst).Nodup)
    (hin : ∀ r ∈ resp, r.sensor ∈ pos.map Prod.fst) :
    List.Forall₂ (fun (r : SnsRow) (t : TimeRow) => t.event = r.event ∧ t.sensor = r.sensor ∧ t.charge = r.charge ∧ (r.sensor, t.name) ∈ pos ∧
      ((∃ w, (t.name, w) ∈ bins ∧ t.time = some (w * r.bin)) ∨ (t.name ∉ bins.map Prod.fst ∧ t.time = none))) resp (convertTimes resp bins pos) := by
  unfold convertTimes
  rw [joinBins_spec bins hb]
  induction resp with
  | nil => exact .nil
  | cons r resp ih =>
    obtain ⟨⟨s, name⟩, hs, hsr⟩ := List.mem_map.1 (hin r List.mem_cons_self)
    change s = r.sensor at hsr
    subst hsr
    have hf : (pos.map fun p => (p.1, p.2, ((bins.filter fun b => b.1 == p.2).head?).map Prod.snd)).filter (fun p => p.1 == r.sensor) =
        [(r.sensor, name, ((bins.filter fun b => b.1 == name).head?).map Prod.snd)] := by
      apply filter_key
      · rw [List.map_map]; exact hp
      · exact List.mem_map.2 ⟨(r.sensor, name), hs, rfl⟩
    rw [List.flatMap_cons, hf]
    refine .cons ⟨rfl, rfl, rfl, hs, ?_⟩ (ih fun x hx => hin x (List.mem_cons_of_mem _ hx))
    cases hc : bins.filter fun b => b.1 == name with
    | nil =>
      refine .inr ⟨fun hm => ?_, by simp⟩
      obtain ⟨b, hb1, hb2⟩ := List.mem_map.1 hm
      have hm : b ∈ bins.filter fun b => b.1 == name := List.mem_filter.2 ⟨hb1, by simpa using hb2⟩
      rw [hc] at hm
      cases hm
    | cons b bs =>
      have hbm := List.mem_filter.1 (hc ▸ List.mem_cons_self : b ∈ bins.filter fun b => b.1 == name)
      have hn : b.1 = name := by simpa using hbm.2
      exact .inl ⟨b.2, by rw [← hn]; exact hbm.1, by simp⟩

example : ((([("SiPM", 1000), ("Pmt", 100)] : List (String × ℚ)).map Prod.fst).Nodup) ∧
    convertTimes [⟨0, 7, 3, 2⟩, ⟨1, 8, 4, 1⟩] [("SiPM", 1000), ("Pmt", 100)] [(8, "SiPM"), (7, "Pmt")] =
      [⟨0, 7, "Pmt", some 300, 2⟩, ⟨1, 8, "SiPM", some 4000, 1⟩] := by decide +kernel

/-- The rows of sensors without position are lost. -/
theorem no_position_no_row (resp : List SnsRow) (bins : List (String × ℚ)) (pos : List (Nat × String)) (t : TimeRow) (ht : t ∈ convertTimes resp bins pos) :
    ∃ r ∈ resp, r.sensor ∈ pos.map Prod.fst ∧ t.event = r.event ∧ t.sensor = r.sensor ∧ t.charge = r.charge := by
  obtain ⟨r, hr, h⟩ := List.mem_flatMap.1 ht
  obtain ⟨q, hq, rfl⟩ := List.mem_map.1 h
  obtain ⟨hq1, hq2⟩ := List.mem_filter.1 hq
  obtain ⟨p, hp, hqp⟩ := List.mem_flatMap.1 hq1
  have hpq : q.1 = p.1 := by
    cases hf : bins.filter fun b => b.1 == p.2 with
    | nil => rw [hf] at hqp; rw [List.mem_singleton.1 hqp]
    | cons b bs =>
      rw [hf] at hqp
      obtain ⟨c, _, rfl⟩ := List.mem_map.1 hqp
      rfl
  have : q.1 = r.sensor := by simpa using hq2
  exact ⟨r, hr, List.mem_map.2 ⟨p, hp, by rw [← hpq, this]⟩, rfl, rfl, rfl⟩

/-- **C65** (partial: for names that do not start or end with one of the characters of `_binning`): the type of the sensors is the name of the parameter without the suffix. -/
theorem strip_binning_partial (name : List Char) (hne : name ≠ []) (hf : ¬ (name.head hne ∈ "_binning".toList)) (hl : ¬ (name.getLast hne ∈ "_binning".toList)) :
    stripBinning (name ++ "_binning".toList) = name := by
  unfold stripBinning
  have h1 : (name ++ "_binning".toList).dropWhile (fun c => "_binning".toList.contains c) = name ++ "_binning".toList := by
    cases name with
    | nil => exact absurd rfl hne
    | cons c cs =>
      rw [List.cons_append, List.dropWhile_cons, if_neg (by simpa using hf)]
  rw [h1, List.reverse_append]
  have h2 : ("_binning".toList.reverse ++ name.reverse).dropWhile (fun c => "_binning".toList.contains c) = name.reverse.dropWhile (fun c => "_binning".toList.contains c) := by
    rw [List.dropWhile_append]
    have : ("_binning".toList.reverse).dropWhile (fun c => "_binning".toList.contains c) = [] := by decide
    rw [this]
    rfl
  rw [h2]
  have h3 : name.reverse.dropWhile (fun c => "_binning".toList.contains c) = name.reverse := by
    have hr : name.reverse ≠ [] := by simpa using hne
    have hh : name.reverse.head hr = name.getLast hne := by rw [List.head_reverse]
    cases hq : name.reverse with
    | nil => exact absurd hq hr
    | cons c cs =>
      have hc : c = name.getLast hne := by rw [← hh]; simp [hq]
      rw [List.dropWhile_cons, if_neg (by rw [hc]; simpa using hl)]
  rw [h3, List.reverse_reverse]

example : stripBinning "PmtR11410_binning".toList = "PmtR11410".toList ∧ stripBinning "SiPM_binning".toList = "SiPM".toList := by decide

/-- Not in general: other names are shortened, and different types may become the same. -/
theorem strip_binning_wrong : stripBinning "SiPMIn_binning".toList = "SiPMI".toList ∧ stripBinning "big_PMT_binning".toList = "PMT".toList ∧
    stripBinning "PMT_binning".toList = "PMT".toList := by decide

end Verif.McInfo
