import Verif.Spec.DstLoad
import Verif.Lemmas.Tables
import Verif.Lemmas.Lists
import Mathlib.Tactic
/-!
# C101 Loading tables of several files, and selecting events
-/
namespace Verif.DstLoad
open Verif Verif.TableIO Verif.Spec.DstLoad
open Verif.PMapsIO (unique mem_unique unique_nodup)

theorem values_map {cols : List String} (f : String → Option Cell) (rows : List (List (Option Cell))) (name : String) :
    values ⟨cols, rows⟩ (cols.map f) name = if name ∈ cols then f name else none := by
  unfold values
  simp only
  induction cols with
  | nil => simp
  | cons c t ih =>
    simp only [List.map_cons, List.zip_cons_cons, List.find?_cons]
    by_cases h : c = name
    · simp [h]
    · have h' : ¬ name = c := fun e => h e.symm
      simp only [h, decide_false, List.mem_cons, h', false_or]
      exact ih

theorem cellOf_none {cols : List (String × DType)} {row : List Cell} {name : String} (h : name ∉ cols.map Prod.fst) : cellOf cols row name = none := by
  unfold cellOf
  rw [Option.map_eq_none_iff, List.find?_eq_none]
  intro x hx
  simp only [beq_iff_eq]
  rintro rfl
  exact h (List.of_mem_zip hx).1

/-- Tables put together: the columns are those of all the tables, each once; the rows are those of the first table, then those of the second, and so on,
each with its own values under the names of the columns, and no value in the columns that its table does not have. -/
theorem concat_spec {tables : List (Option DF)} {j : Joined} (h : concat tables = .ok j) :
    (∃ t, some t ∈ tables) ∧ j.cols.Nodup ∧ (∀ c, c ∈ j.cols ↔ ∃ t, some t ∈ tables ∧ c ∈ t.cols.map Prod.fst) ∧
    j.rows.map (values j) = (tables.filterMap id).flatMap fun t => t.rows.map (cellOf t.cols) := by
  unfold concat at h
  simp only at h
  split at h
  · simp at h
  · rename_i hne
    simp only [Except.ok.injEq] at h
    subst h
    have hmem : ∀ t, t ∈ tables.filterMap id ↔ some t ∈ tables := by
      intro t; simp
    refine ⟨?_, unique_nodup _, ?_, ?_⟩
    · obtain ⟨t, ht⟩ := List.exists_mem_of_ne_nil _ hne
      exact ⟨t, (hmem t).mp ht⟩
    · intro c
      simp only [mem_unique, List.mem_flatMap]
      simp only [hmem]
    · simp only [List.map_flatMap, List.map_map]
      apply List.flatMap_congr
      intro t ht
      apply List.map_congr_left
      intro r hr
      funext name
      simp only [Function.comp_apply]
      rw [values_map]
      split
      · rfl
      · rename_i hn
        rw [cellOf_none]
        intro hc
        exact hn (by rw [mem_unique, List.mem_flatMap]; exact ⟨t, ht, hc⟩)

theorem concat_ok {tables : List (Option DF)} (h : ∃ t, some t ∈ tables) : ∃ j, concat tables = .ok j := by
  obtain ⟨t, ht⟩ := h
  unfold concat
  simp only
  rw [if_neg]
  · exact ⟨_, rfl⟩
  · intro he
    have : t ∈ tables.filterMap id := by simpa using ht
    rw [he] at this
    simp at this

theorem loadOne_strict (k : String × String) (evts : Option (List ℚ)) (d : OnDisk) : loadOne false k evts d = (readDst d k evts).map some := by
  unfold loadOne
  cases readDst d k evts <;> simp [Except.map]

theorem mapM_strict (k : String × String) (evts : Option (List ℚ)) (paths : List OnDisk) :
    paths.mapM (loadOne false k evts) = (paths.mapM fun d => readDst d k evts).map (·.map some) := by
  induction paths with
  | nil => rfl
  | cons d t ih =>
    simp only [List.mapM_cons, ih, loadOne_strict]
    cases readDst d k evts with
    | error e => rfl
    | ok x =>
      cases t.mapM fun d => readDst d k evts with
      | error e => rfl
      | ok xs => rfl

/-- Loading several files succeeds exactly if there is some and all can be read; then all the rows are there, in the order of the files. -/
theorem load_all (k : String × String) (evts : Option (List ℚ)) (paths : List OnDisk) :
    ((∃ j, loadDsts false k evts paths = .ok j) ↔ paths ≠ [] ∧ ∀ d ∈ paths, ∃ t, readDst d k evts = .ok t) ∧
    ∀ j, loadDsts false k evts paths = .ok j →
      j.rows.map (values j) = (readable k evts paths).flatMap fun t => t.rows.map (cellOf t.cols) := by
  have hread : ∀ ts, (paths.mapM fun d => readDst d k evts) = .ok ts → readable k evts paths = ts := by
    intro ts hts
    rw [mapM_ok_iff] at hts
    unfold readable
    clear * - hts
    induction hts with
    | nil => rfl
    | cons h _ ih => simp only [List.filterMap_cons, h, ih]
  constructor
  · constructor
    · rintro ⟨j, hj⟩
      unfold loadDsts at hj
      rw [mapM_strict] at hj
      cases hts : paths.mapM fun d => readDst d k evts with
      | error e => rw [hts] at hj; simp [Except.map, Except.bind] at hj
      | ok ts =>
        rw [hts] at hj
        simp only [Except.map, Except.bind] at hj
        obtain ⟨⟨t, ht⟩, _⟩ := concat_spec hj
        rw [mapM_ok_iff] at hts
        refine ⟨?_, ?_⟩
        · rintro rfl
          cases hts
          simp at ht
        · intro d hd
          obtain ⟨i, hi, hi'⟩ := List.getElem_of_mem hd
          have hl := hts.length_eq
          have := forall₂_getElem? hts i d ts[i] (by rw [List.getElem?_eq_getElem hi, hi']) (List.getElem?_eq_getElem (hl ▸ hi))
          exact ⟨_, this⟩
    · rintro ⟨hne, hall⟩
      obtain ⟨ts, hts⟩ := mapM_ok hall
      obtain ⟨d, t, rfl⟩ := List.exists_cons_of_ne_nil hne
      have : ∃ x, x ∈ ts := by
        rw [mapM_ok_iff] at hts
        cases hts with
        | cons h _ => exact ⟨_, List.mem_cons_self ..⟩
      obtain ⟨x, hx⟩ := this
      obtain ⟨j, hj⟩ := concat_ok (tables := ts.map some) ⟨x, by simpa using hx⟩
      refine ⟨j, ?_⟩
      unfold loadDsts
      rw [mapM_strict, hts]
      exact hj
  · intro j hj
    unfold loadDsts at hj
    rw [mapM_strict] at hj
    cases hts : paths.mapM fun d => readDst d k evts with
    | error e => rw [hts] at hj; simp [Except.map, Except.bind] at hj
    | ok ts =>
      rw [hts] at hj
      simp only [Except.map, Except.bind] at hj
      rw [(concat_spec hj).2.2.2, hread ts hts]
      simp

/-- With the errors ignored, the files that are missing, corrupted or without the table are left out without a trace in the result: it is that of the files that can be read. -/
theorem load_ignoring {k : String × String} {evts : Option (List ℚ)} {paths : List OnDisk}
    (h : ∀ d ∈ paths, ∀ e, readDst d k evts = .error e → ignored e = true) :
    loadDsts true k evts paths = concat ((readable k evts paths).map some) := by
  have key : ∀ ps : List OnDisk, (∀ d ∈ ps, ∀ e, readDst d k evts = .error e → ignored e = true) →
      ∃ ts, ps.mapM (loadOne true k evts) = .ok ts ∧ ts.filterMap id = readable k evts ps := by
    intro ps
    induction ps with
    | nil => intro _; exact ⟨[], rfl, rfl⟩
    | cons d t ih =>
      intro hp
      obtain ⟨ts, h1, h2⟩ := ih fun d hd => hp d (List.mem_cons_of_mem _ hd)
      cases hr : readDst d k evts with
      | ok x =>
        refine ⟨some x :: ts, ?_, ?_⟩
        · simp only [List.mapM_cons, h1, loadOne, hr]; rfl
        · simp only [List.filterMap_cons, id, readable, hr]
          exact congrArg (x :: ·) h2
      | error e =>
        have := hp d (by simp) e hr
        refine ⟨none :: ts, ?_, ?_⟩
        · simp only [List.mapM_cons, h1, loadOne, hr, this]; rfl
        · simp only [List.filterMap_cons, id, readable, hr]
          exact h2
  obtain ⟨ts, h1, h2⟩ := key paths h
  unfold loadDsts
  rw [h1]
  simp only [Except.bind]
  unfold concat
  have : ((readable k evts paths).map some).filterMap id = readable k evts paths := by simp
  rw [h2, this]

/-- If nothing can be read it is an error, also with the errors ignored. -/
theorem nothing_read {k : String × String} {evts : Option (List ℚ)} {paths : List OnDisk}
    (h : ∀ d ∈ paths, ∃ e, readDst d k evts = .error e ∧ ignored e = true) : loadDsts true k evts paths = .error .valueError := by
  rw [load_ignoring]
  · have : readable k evts paths = [] := by
      unfold readable
      rw [List.filterMap_eq_nil_iff]
      intro d hd
      obtain ⟨e, he, _⟩ := h d hd
      simp [he]
    rw [this]
    rfl
  · intro d hd e he
    obtain ⟨e', he', hi⟩ := h d hd
    rw [he] at he'
    cases he'
    exact hi

def fileA : File := [(("DST", "Events"), ⟨[("event", .int), ("x", .float)], [[.num 1, .num 10], [.num 2, .num 20]], none⟩)]
def fileB : File := [(("DST", "Events"), ⟨[("y", .float), ("event", .int)], [[.num 30, .num 3]], none⟩)]

example : loadDsts false ("DST", "Events") none [.file fileA, .file fileB] =
    .ok ⟨["event", "x", "y"], [[some (.num 1), some (.num 10), none], [some (.num 2), some (.num 20), none], [some (.num 3), none, some (.num 30)]]⟩ := by
  decide +kernel

example : loadDsts true ("DST", "Events") (some [2, 3]) [.missing, .file fileA, .corrupted, .file []] = .ok ⟨["event", "x"], [[some (.num 2), some (.num 20)]]⟩ ∧
    loadDsts false ("DST", "Events") none [.missing, .file fileA] = .error (.other "IOError") := by
  decide +kernel

/-- **C101** With the errors ignored, what is left out is exactly a path without file, a file that is not HDF5 and a file without the table; the missing column of events is the only error left. -/
theorem left_out (k : String × String) (evts : Option (List ℚ)) (d : OnDisk) :
    (loadOne true k evts d = .ok none ↔ d = .missing ∨ d = .corrupted ∨ ∃ f, d = .file f ∧ f.get k = none) ∧
    ∀ e, loadOne true k evts d = .error e ↔ e = .keyError ∧ evts ≠ none ∧ ∃ f t, d = .file f ∧ f.get k = some t ∧ "event" ∉ t.cols.map Prod.fst := by
  have i1 : ignored (.other "IOError") = true := by decide
  have i2 : ignored (.other "HDF5ExtError") = true := by decide
  have i3 : ignored (.other "NoSuchNodeError") = true := by decide
  have i4 : ignored .keyError = false := by decide
  cases d with
  | missing => simp [loadOne, readDst, i1]
  | corrupted => simp [loadOne, readDst, i2]
  | file f =>
    cases hk : f.get k with
    | none => simp [loadOne, readDst, loadDst, hk, i3]
    | some t =>
      cases evts with
      | none => simp [loadOne, readDst, loadDst, hk]
      | some es =>
        by_cases hc : "event" ∈ t.cols.map Prod.fst
        · simp only [loadOne, readDst, loadDst, hk, hc, if_true]
          simp at hc
          simp [hk, hc]
        · simp only [loadOne, readDst, loadDst, hk, hc, if_false, i4]
          simp only [List.mem_map] at hc
          simp [hk, eq_comm]
          intro x hx
          exact hc ⟨_, hx, rfl⟩

/-- A table without a column of events cannot be read by a list of events, and that error is not ignored. -/
theorem no_events_column {f : File} {k : String × String} {t : Table} (h : f.get k = some t) (hc : "event" ∉ t.cols.map Prod.fst) (ids : List ℚ) (b : Bool) :
    loadOne b k (some ids) (.file f) = .error .keyError := by
  have : readDst (.file f) k (some ids) = .error .keyError := by
    simp only [readDst, loadDst, h]
    rw [if_neg hc]
  have hi : ignored .keyError = false := by decide
  simp [loadOne, this, hi]

/-- Reading by a list of events is the same as reading everything and selecting by the list. -/
theorem read_then_select {f : File} {k : String × String} {t : Table} (h : f.get k = some t) (hc : "event" ∈ t.cols.map Prod.fst) (ids : List ℚ) :
    ∃ all, loadDst f k none = .ok all ∧ loadDst f k (some ids) = .ok (eventSelection all ids) := by
  refine ⟨⟨t.cols, t.rows⟩, by simp only [loadDst, h], ?_⟩
  simp only [loadDst, h, eventSelection]
  rw [if_pos hc, if_pos hc]

/-- The selection of events keeps, in order, the rows of those events; a table without a column of events is returned whole. -/
theorem event_selection (df : DF) (ids : List ℚ) :
    (eventSelection df ids).cols = df.cols ∧
    ("event" ∈ df.cols.map Prod.fst → (eventSelection df ids).rows.Sublist df.rows ∧
      ∀ r, r ∈ (eventSelection df ids).rows ↔ r ∈ df.rows ∧ ∃ x ∈ ids, cellOf df.cols r "event" = some (.num x)) ∧
    ("event" ∉ df.cols.map Prod.fst → eventSelection df ids = df) := by
  unfold eventSelection
  refine ⟨by split <;> rfl, ?_, fun h => by rw [if_neg h]⟩
  intro h
  rw [if_pos h]
  refine ⟨List.filter_sublist, ?_⟩
  intro r
  rw [List.mem_filter]
  apply and_congr_right
  intro _
  unfold rowInEvents
  split
  · rename_i x heq
    simp only [decide_eq_true_eq]
    constructor
    · intro hx; exact ⟨x, hx, heq⟩
    · rintro ⟨y, hy, he⟩
      rw [heq] at he
      cases he
      exact hy
  · rename_i hne
    simp only [Bool.false_eq_true, false_iff]
    rintro ⟨x, _, hx⟩
    exact hne x hx

example : eventSelection ⟨[("event", .int), ("x", .float)], [[.num 1, .num 10], [.num 2, .num 20], [.num 1, .num 30]]⟩ [1, 5] =
    ⟨[("event", .int), ("x", .float)], [[.num 1, .num 10], [.num 1, .num 30]]⟩ := by decide +kernel

theorem lookup_filter_key {κ α : Type} [DecidableEq κ] (p : κ → Bool) (d : List (κ × α)) (k : κ) :
    lookup (dictFilterKey p d) k = if p k then lookup d k else none := by
  unfold lookup dictFilterKey
  induction d with
  | nil => simp
  | cons a t ih =>
    by_cases ha : a.1 = k
    · subst ha
      by_cases hp : p a.1
      · simp [hp]
      · simp only [hp, Bool.false_eq_true, if_false] at ih ⊢
        simpa [hp] using ih
    · by_cases hp : p a.1
      · simp only [List.filter_cons, hp, if_true, List.find?_cons, ha, decide_false]
        exact ih
      · simp only [List.filter_cons, hp, List.find?_cons, ha, decide_false]
        exact ih

/-- The selection of PMaps keeps those of the events of the list, the same and in the same order, and no other. -/
theorem pmap_selection {α : Type} (d : List (Int × α)) (ids : List Int) (k : Int) :
    lookup (pmapSelection d ids) k = (if k ∈ ids then lookup d k else none) ∧ (pmapSelection d ids).Sublist d := by
  refine ⟨?_, List.filter_sublist⟩
  unfold pmapSelection
  rw [lookup_filter_key]
  simp

example : pmapSelection [(4, "a"), (7, "b"), (9, "c")] [9, 4, 5] = [(4, "a"), (9, "c")] := by decide

/-- `dict_map` keeps the keys and applies the function to the value of each; `dict_filter_by_value` keeps the items whose values satisfy the condition. -/
theorem dict_functions {κ α β : Type} [DecidableEq κ] (f : α → β) (p : α → Bool) (d : List (κ × α)) (hd : (d.map Prod.fst).Nodup) (k : κ) :
    (dictMap f d).map Prod.fst = d.map Prod.fst ∧ lookup (dictMap f d) k = (lookup d k).map f ∧
    lookup (dictFilterValue p d) k = (lookup d k).filter p := by
  refine ⟨by simp [dictMap], ?_, ?_⟩
  · unfold lookup dictMap
    induction d with
    | nil => simp
    | cons a t ih =>
      by_cases ha : a.1 = k
      · simp [ha]
      · have := ih (by simpa using (List.nodup_cons.mp hd).2)
        simp only [List.map_cons, List.find?_cons, ha, decide_false]
        exact this
  · unfold lookup dictFilterValue
    induction d with
    | nil => simp
    | cons a t ih =>
      have hd' := List.nodup_cons.mp (show (a.1 :: t.map Prod.fst).Nodup from hd)
      have := ih hd'.2
      by_cases ha : a.1 = k
      · subst ha
        have hnone : t.find? (fun kv => decide (kv.1 = a.1)) = none := by
          rw [List.find?_eq_none]
          intro x hx
          simp only [decide_eq_true_eq]
          intro h
          exact hd'.1 (h ▸ List.mem_map_of_mem hx)
        by_cases hp : p a.2
        · simp [hp, Option.filter]
        · rw [hnone] at this
          simp only [List.filter_cons, hp, List.find?_cons, decide_true, Option.map_some]
          refine Eq.trans this ?_
          simp [Option.filter, hp]
      · by_cases hp : p a.2
        · simp only [List.filter_cons, hp, if_true, List.find?_cons, ha, decide_false]
          exact this
        · simp only [List.filter_cons, hp, List.find?_cons, ha, decide_false]
          exact this

example : dictFilterValue (fun x : Nat => decide (x > 3)) (dictMap (· + 1) [("a", 2), ("b", 3), ("c", 8)]) = [("b", 4), ("c", 9)] := by decide

theorem mapped_cell (f : Cell → Cell) (field name : String) (names : List String) (r : List Cell) (hl : names.length = r.length) :
    ((names.zip ((names.zip r).map fun nc => if nc.1 = field then f nc.2 else nc.2)).find? (fun x => x.1 == name)).map (·.2) =
      if name = field then (((names.zip r).find? (fun x => x.1 == name)).map (·.2)).map f else ((names.zip r).find? (fun x => x.1 == name)).map (·.2) := by
  induction names generalizing r with
  | nil => simp
  | cons c t ih =>
    cases r with
    | nil => simp at hl
    | cons x u =>
      have key := ih u (by simpa using hl)
      simp only [List.zip_cons_cons, List.map_cons, List.find?_cons]
      by_cases hc : c = name
      · subst hc
        by_cases hf : c = field <;> simp [hf]
      · have : (c == name) = false := by simpa using hc
        simp only [this]
        exact key

/-- `df_map` changes the values of its column, each by the function, and nothing else. -/
theorem df_map {f : Cell → Cell} {df out : DF} {field : String} (h : dfMap f df field = .ok out) (hr : ∀ r ∈ df.rows, r.length = df.cols.length) :
    out.cols = df.cols ∧ List.Forall₂ (fun r r' => ∀ name, cellOf df.cols r' name = if name = field then (cellOf df.cols r name).map f else cellOf df.cols r name) df.rows out.rows := by
  unfold dfMap at h
  split at h
  · simp only [Except.ok.injEq] at h
    subst h
    refine ⟨rfl, ?_⟩
    rw [List.forall₂_map_right_iff, List.forall₂_same]
    intro r hmem name
    have hl : (df.cols.map Prod.fst).length = r.length := by simp [hr r hmem]
    exact mapped_cell f field name _ r hl
  · simp at h

example : dfMap (fun _ => .num 0) ⟨[("event", .int), ("x", .float)], [[.num 1, .num 10], [.num 2, .num 20]]⟩ "x" =
    .ok ⟨[("event", .int), ("x", .float)], [[.num 1, .num 0], [.num 2, .num 0]]⟩ := by decide +kernel

end Verif.DstLoad
