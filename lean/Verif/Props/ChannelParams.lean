import Verif.Spec.ChannelParams
import Verif.Lemmas.Lists
/-!
# C94: parameters of the sensors are read as they were stored
-/
namespace Verif.ChannelParams
open Verif.ChannelParams.Spec

theorem keys_put {β : Type} (d : List (String × β)) (k : String) (v : β) :
    (put d k v).map Prod.fst = if k ∈ d.map Prod.fst then d.map Prod.fst else d.map Prod.fst ++ [k] := by
  unfold put
  by_cases h : k ∈ d.map Prod.fst
  · rw [if_pos h, if_pos h, List.map_map]
    refine List.map_congr_left fun p _ => ?_
    by_cases hp : p.1 = k
    · simp [hp]
    · simp [hp]
  · rw [if_neg h, if_neg h, List.map_append]; rfl

theorem lookup_put {β : Type} (d : List (String × β)) (k e : String) (v : β) : (put d k v).lookup e = if e = k then some v else d.lookup e := by
  have hmap : ∀ d : List (String × β), (d.map fun p => if p.1 = k then (k, v) else p).lookup e
      = if e = k then (if k ∈ d.map Prod.fst then some v else none) else d.lookup e := by
    intro d
    induction d with
    | nil => simp
    | cons p ps ih =>
      rw [List.map_cons, List.lookup_cons, ih, List.lookup_cons]
      by_cases hp : p.1 = k
      · rw [if_pos hp]
        by_cases he : e = k
        · simp [he, hp]
        · have hb : (e == k) = false := by simpa using he
          simp [he, hp, hb]
      · rw [if_neg hp]
        by_cases he : e = k
        · subst he
          have : (e == p.1) = false := by simpa using fun h => hp h.symm
          have hm : (e ∈ List.map Prod.fst (p :: ps)) ↔ e ∈ List.map Prod.fst ps := by
            rw [List.map_cons, List.mem_cons]
            exact ⟨fun h => h.resolve_left (Ne.symm hp), Or.inr⟩
          simp only [this, if_true, hm]
        · simp [he]
  have happ : ∀ d : List (String × β), k ∉ d.map Prod.fst → (d ++ [(k, v)]).lookup e = if e = k then some v else d.lookup e := by
    intro d
    induction d with
    | nil =>
      intro _
      by_cases he : e = k
      · simp [he]
      · have hb : (e == k) = false := by simpa using he
        simp [he, List.lookup_cons, hb]
    | cons p ps ih =>
      intro h
      simp only [List.map_cons, List.mem_cons, not_or] at h
      rw [List.cons_append, List.lookup_cons, ih h.2, List.lookup_cons]
      by_cases he : e = k
      · subst he
        have : (e == p.1) = false := by simpa using h.1
        simp [this]
      · simp [he]
  unfold put
  by_cases h : k ∈ d.map Prod.fst
  · rw [if_pos h, hmap, if_pos h]
  · rw [if_neg h, happ d h]

theorem lookup_of_mem {β : Type} {d : List (String × β)} (hnd : (d.map Prod.fst).Nodup) {p : String × β} (hp : p ∈ d) : d.lookup p.1 = some p.2 := by
  induction d with
  | nil => cases hp
  | cons q d ih =>
    rw [List.map_cons, List.nodup_cons] at hnd
    rw [List.lookup_cons]
    rcases List.mem_cons.mp hp with rfl | hp
    · simp
    · have : (p.1 == q.1) = false := by
        simp only [beq_eq_false_iff_ne, ne_eq]
        intro h
        exact hnd.1 (h ▸ List.mem_map_of_mem hp)
      rw [this]
      exact ih hnd.2 hp

theorem mem_of_lookup {β : Type} {d : List (String × β)} {k : String} {v : β} (h : d.lookup k = some v) : (k, v) ∈ d := by
  induction d with
  | nil => simp at h
  | cons q d ih =>
    rw [List.lookup_cons] at h
    by_cases hk : k = q.1
    · have : (k == q.1) = true := by simpa using hk
      rw [this] at h
      simp only [Option.some.injEq] at h
      rw [← h, hk]
      exact List.mem_cons_self
    · have : (k == q.1) = false := by simpa using hk
      rw [this] at h
      exact List.mem_cons_of_mem _ (ih h)

theorem putParams_eq : ∀ (names : List String) (d : List (String × Col)) (i : Nat), names.Nodup → (∀ n ∈ names, n ∉ d.map Prod.fst) →
    putParams d i names = d ++ (names.zipIdx i).map fun x => (x.1, ⟨x.2 + 1, .pair 0 0⟩) := by
  intro names
  induction names with
  | nil => intro d i _ _; simp [putParams]
  | cons n ns ih =>
    intro d i hnd hd
    rw [List.nodup_cons] at hnd
    have hput : put d n ⟨i + 1, .pair 0 0⟩ = d ++ [(n, ⟨i + 1, .pair 0 0⟩)] := by
      unfold put; rw [if_neg (hd n List.mem_cons_self)]
    rw [putParams, hput, ih _ _ hnd.2, List.zipIdx_cons, List.map_cons, List.append_assoc]
    · rfl
    · intro m hm
      rw [List.map_append, List.mem_append, not_or]
      refine ⟨hd m (List.mem_cons_of_mem _ hm), ?_⟩
      simp only [List.map_cons, List.map_nil, List.mem_singleton]
      intro h
      exact hnd.1 (h ▸ hm)

theorem zipIdx_fst_map {α β : Type} (f : α → β) (xs : List α) (i : Nat) : (xs.zipIdx i).map (fun x => f x.1) = xs.map f := by
  induction xs generalizing i with
  | nil => rfl
  | cons x xs ih => rw [List.zipIdx_cons, List.map_cons, ih, List.map_cons]

/-- C94: the columns of a table are the sensor, the parameters in their order and the covariance, with zeros for defaults. -/
theorem columns_spec (names : List String) (cov : Option (Nat × Nat)) (hnd : names.Nodup) (hid : "SensorID" ∉ names)
    (hcov : cov.isSome → "covariance" ∉ names) :
    (newTable (makeTableDictionary names cov)).default =
        ("SensorID", .id 0) :: names.map (fun n => (n, .pair 0 0)) ++ (cov.toList.map fun s => ("covariance", zeros s))
      ∧ (newTable (makeTableDictionary names cov)).rows = []
      ∧ (newTable (makeTableDictionary names cov)).pending = (newTable (makeTableDictionary names cov)).default := by
  refine ⟨?_, rfl, rfl⟩
  have hp := putParams_eq names [("SensorID", ⟨0, .id 0⟩)] 0 hnd (by
    intro n hn; simp only [List.map_cons, List.map_nil, List.mem_singleton]; intro h; exact hid (h ▸ hn))
  have hsorted : ∀ (xs : List (String × Col)), xs.Pairwise (fun a b => a.2.pos ≤ b.2.pos) → xs.insertionSort (fun a b => a.2.pos ≤ b.2.pos) = xs := by
    intro xs h
    exact List.Pairwise.insertionSort_eq h
  have hzip : ∀ (ns : List String) (i : Nat), ((ns.zipIdx i).map fun x => ((x.1, ⟨x.2 + 1, .pair 0 0⟩) : String × Col)).Pairwise (fun a b => a.2.pos ≤ b.2.pos)
      ∧ ∀ y ∈ ((ns.zipIdx i).map fun x => ((x.1, ⟨x.2 + 1, .pair 0 0⟩) : String × Col)), i + 1 ≤ y.2.pos ∧ y.2.pos ≤ i + ns.length := by
    intro ns
    induction ns with
    | nil => intro i; simp
    | cons n ns ih =>
      intro i
      obtain ⟨h1, h2⟩ := ih (i + 1)
      rw [List.zipIdx_cons, List.map_cons]
      refine ⟨List.pairwise_cons.mpr ⟨fun y hy => ?_, h1⟩, ?_⟩
      · have := (h2 y hy).1
        simp only; omega
      · intro y hy
        rcases List.mem_cons.mp hy with rfl | hy
        · simp only [List.length_cons]; omega
        · have := h2 y hy
          simp only [List.length_cons]; omega
  obtain ⟨h1, h2⟩ := hzip names 0
  unfold newTable makeTableDictionary
  simp only
  rw [hp]
  cases cov with
  | none =>
    simp only [Option.toList_none, List.map_nil, List.append_nil]
    rw [hsorted]
    · rw [List.singleton_append, List.map_cons, List.map_map]
      congr 1
      exact zipIdx_fst_map (fun n => (n, Cell.pair 0 0)) names 0
    · rw [List.singleton_append, List.pairwise_cons]
      exact ⟨fun y hy => by have := (h2 y hy).1; simp only; omega, h1⟩
  | some s =>
    have hput : put ([("SensorID", (⟨0, .id 0⟩ : Col))] ++ (names.zipIdx 0).map fun x => (x.1, ⟨x.2 + 1, .pair 0 0⟩)) "covariance" ⟨names.length + 1, zeros s⟩
        = ([("SensorID", (⟨0, .id 0⟩ : Col))] ++ (names.zipIdx 0).map fun x => (x.1, ⟨x.2 + 1, .pair 0 0⟩)) ++ [("covariance", ⟨names.length + 1, zeros s⟩)] := by
      unfold put
      rw [if_neg]
      rw [List.map_append, List.map_map]
      have : (Prod.fst ∘ fun x : String × Nat => ((x.1, ⟨x.2 + 1, .pair 0 0⟩) : String × Col)) = fun x => id x.1 := rfl
      rw [this, zipIdx_fst_map id names 0, List.map_id]
      simp only [List.map_cons, List.map_nil, List.singleton_append, List.mem_cons, not_or]
      exact ⟨by decide, hcov rfl⟩
    simp only
    rw [hput, hsorted]
    · rw [List.map_append, List.map_append, List.map_map]
      simp only [List.map_cons, List.map_nil, Option.toList_some, List.singleton_append]
      congr 2
      exact zipIdx_fst_map (fun n => (n, Cell.pair 0 0)) names 0
    · rw [List.pairwise_append]
      refine ⟨?_, List.pairwise_singleton _ _, ?_⟩
      · rw [List.singleton_append, List.pairwise_cons]
        exact ⟨fun y hy => by have := (h2 y hy).1; simp only; omega, h1⟩
      · intro a ha b hb
        rw [List.mem_singleton] at hb
        subst hb
        rw [List.singleton_append, List.mem_cons] at ha
        rcases ha with rfl | ha
        · simp
        · have := (h2 a ha).2
          simp only; omega

example : ["poisson_mu", "gain"].Nodup ∧ "SensorID" ∉ ["poisson_mu", "gain"] ∧ "covariance" ∉ ["poisson_mu", "gain"] := by decide

theorem setCells_keys : ∀ (fit : List (String × Cell)) (row : Row), (setCells row fit).1.map Prod.fst = row.map Prod.fst := by
  intro fit
  induction fit with
  | nil => intro row; rfl
  | cons kv fit ih =>
    intro row
    obtain ⟨k, v⟩ := kv
    rw [setCells, setCell]
    by_cases h : k ∈ row.map Prod.fst
    · rw [if_pos h]
      simp only
      rw [ih, keys_put, if_pos h]
    · rw [if_neg h]

theorem setCells_fails : ∀ (fit : List (String × Cell)) (row : Row), (setCells row fit).2 = false ↔ ∀ k ∈ fit.map Prod.fst, k ∈ row.map Prod.fst := by
  intro fit
  induction fit with
  | nil => intro row; simp [setCells]
  | cons kv fit ih =>
    intro row
    obtain ⟨k, v⟩ := kv
    rw [setCells, setCell]
    by_cases h : k ∈ row.map Prod.fst
    · rw [if_pos h]
      simp only
      rw [ih, keys_put, if_pos h, List.map_cons, List.forall_mem_cons]
      exact ⟨fun x => ⟨h, x⟩, fun x => x.2⟩
    · rw [if_neg h, List.map_cons, List.forall_mem_cons]
      simp only [Bool.true_eq_false, false_iff]
      exact fun x => h x.1

theorem setCells_lookup : ∀ (fit : List (String × Cell)) (row : Row), (fit.map Prod.fst).Nodup → (∀ k ∈ fit.map Prod.fst, k ∈ row.map Prod.fst) →
    ∀ k, (setCells row fit).1.lookup k = match fit.lookup k with | some v => some v | none => row.lookup k := by
  intro fit
  induction fit with
  | nil => intro row _ _ k; rfl
  | cons kv fit ih =>
    intro row hnd hall k
    obtain ⟨a, v⟩ := kv
    rw [List.map_cons, List.nodup_cons] at hnd
    rw [List.map_cons, List.forall_mem_cons] at hall
    rw [setCells, setCell, if_pos hall.1]
    simp only
    rw [ih _ hnd.2 (by rw [keys_put, if_pos hall.1]; exact hall.2), List.lookup_cons, lookup_put]
    by_cases hk : k = a
    · subst hk
      have : fit.lookup k = none := by
        cases hl : fit.lookup k with
        | none => rfl
        | some w => exact absurd (List.mem_map_of_mem (f := Prod.fst) (mem_of_lookup hl)) hnd.1
      simp [this]
    · have : (k == a) = false := by simpa using hk
      rw [if_neg hk, this]

/-- The invariant of a table. -/
def Good (t : Table) : Prop := t.pending.map Prod.fst = t.colnames ∧ "SensorID" ∈ t.colnames

theorem keys_id {t : Table} (hg : Good t) (n : Nat) : (put t.pending "SensorID" (.id n)).map Prod.fst = t.colnames := by
  rw [keys_put, hg.1, if_pos hg.2]

theorem store_good {t : Table} (hg : Good t) (c : Call) : Good (storeFitValues t c.1 c.2).1 ∧ (storeFitValues t c.1 c.2).1.default = t.default := by
  unfold storeFitValues
  simp only
  split
  · refine ⟨⟨?_, hg.2⟩, rfl⟩
    change (setCells _ c.2).1.map Prod.fst = _
    rw [setCells_keys, keys_id hg]; rfl
  · exact ⟨⟨rfl, hg.2⟩, rfl⟩

/-- C94: a call with names of columns only appends one row, with the sensor and the values given. -/
theorem store_accepted {t : Table} (hg : Good t) (c : Call) (hf : IsFit c) (ha : Accepted t.colnames c) :
    (storeFitValues t c.1 c.2).2 = none ∧ ∃ r, (storeFitValues t c.1 c.2).1.rows = t.rows ++ [r] ∧ Records t.colnames c r
      ∧ (∀ k, k ∉ "SensorID" :: c.2.map Prod.fst → r.lookup k = t.pending.lookup k) ∧ (storeFitValues t c.1 c.2).1.pending = t.default := by
  have hk := keys_id hg c.1
  have hall : ∀ k ∈ c.2.map Prod.fst, k ∈ (put t.pending "SensorID" (.id c.1)).map Prod.fst := by rw [hk]; exact ha
  have hno := (setCells_fails c.2 (put t.pending "SensorID" (.id c.1))).mpr hall
  have hlk := setCells_lookup c.2 (put t.pending "SensorID" (.id c.1)) hf.1 hall
  unfold storeFitValues
  simp only [hno, Bool.false_eq_true, if_false]
  refine ⟨trivial, _, rfl, ⟨by rw [setCells_keys, hk], ?_, ?_⟩, ?_, trivial⟩
  · rw [hlk, lookup_put, if_pos rfl]
    have : c.2.lookup "SensorID" = none := by
      cases hl : c.2.lookup "SensorID" with
      | none => rfl
      | some w => exact absurd (List.mem_map_of_mem (f := Prod.fst) (mem_of_lookup hl)) hf.2
    rw [this]
  · intro p hp
    rw [hlk, lookup_of_mem hf.1 hp]
  · intro k hn
    rw [List.mem_cons, not_or] at hn
    rw [hlk, lookup_put, if_neg hn.1]
    have : c.2.lookup k = none := by
      cases hl : c.2.lookup k with
      | none => rfl
      | some w => exact absurd (List.mem_map_of_mem (f := Prod.fst) (mem_of_lookup hl)) hn.2
    rw [this]

/-- C94: a call with a name that is not a column is a KeyError and appends nothing. -/
theorem store_rejected {t : Table} (hg : Good t) (c : Call) (ha : ¬ Accepted t.colnames c) :
    (storeFitValues t c.1 c.2).2 = some .keyError ∧ (storeFitValues t c.1 c.2).1.rows = t.rows := by
  have hyes : (setCells (put t.pending "SensorID" (.id c.1)) c.2).2 = true := by
    rw [← Bool.not_eq_false, setCells_fails, keys_id hg]
    exact ha
  unfold storeFitValues
  simp only [hyes, if_true]
  exact ⟨trivial, trivial⟩

theorem calls_good {t : Table} (hg : Good t) (cs : List Call) : Good (calls t cs) ∧ (calls t cs).default = t.default := by
  induction cs generalizing t with
  | nil => exact ⟨hg, rfl⟩
  | cons c cs ih =>
    obtain ⟨h1, h2⟩ := store_good hg c
    obtain ⟨h3, h4⟩ := ih h1
    exact ⟨h3, h4.trans h2⟩

/-- C94: after any sequence of calls, with errors or not, the rows are those of the accepted calls, in order. -/
theorem history (t : Table) (hg : Good t) (hr : t.rows = []) (cs : List Call) (hf : ∀ c ∈ cs, IsFit c) :
    List.Forall₂ (Records t.colnames) (cs.filter fun c => decide (Accepted t.colnames c)) (calls t cs).rows := by
  have : ∀ (cs : List Call) (t : Table), Good t → (∀ c ∈ cs, IsFit c) →
      ∃ new, (calls t cs).rows = t.rows ++ new ∧ List.Forall₂ (Records t.colnames) (cs.filter fun c => decide (Accepted t.colnames c)) new := by
    intro cs
    induction cs with
    | nil => intro t _ _; exact ⟨[], by simp [calls], List.Forall₂.nil⟩
    | cons c cs ih =>
      intro t hg hf
      rw [List.forall_mem_cons] at hf
      obtain ⟨hg2, hd⟩ := store_good hg c
      obtain ⟨new, h1, h2⟩ := ih _ hg2 hf.2
      have hcol : (storeFitValues t c.1 c.2).1.colnames = t.colnames := by unfold Table.colnames; rw [hd]
      rw [hcol] at h2
      rw [List.filter_cons]
      by_cases ha : Accepted t.colnames c
      · obtain ⟨_, r, hrow, hrec, _⟩ := store_accepted hg c hf.1 ha
        rw [decide_eq_true ha, if_pos rfl]
        refine ⟨r :: new, ?_, List.Forall₂.cons hrec h2⟩
        change (calls (storeFitValues t c.1 c.2).1 cs).rows = _
        rw [h1, hrow, List.append_assoc]; rfl
      · rw [decide_eq_false ha]
        refine ⟨new, ?_, by simpa using h2⟩
        change (calls (storeFitValues t c.1 c.2).1 cs).rows = _
        rw [h1, (store_rejected hg c ha).2]
  obtain ⟨new, h1, h2⟩ := this cs t hg hf
  rw [h1, hr, List.nil_append]
  exact h2

/-- C94: if no call failed, the parameters that are not given are zeros. -/
theorem missing_default (t : Table) (hg : Good t) (hr : t.rows = []) (hp : t.pending = t.default) (cs : List Call) (hf : ∀ c ∈ cs, IsFit c)
    (ha : ∀ c ∈ cs, Accepted t.colnames c) :
    List.Forall₂ (fun c r => ∀ k, k ∉ "SensorID" :: c.2.map Prod.fst → r.lookup k = t.default.lookup k) cs (calls t cs).rows := by
  have : ∀ (cs : List Call) (t : Table), Good t → t.pending = t.default → (∀ c ∈ cs, IsFit c) → (∀ c ∈ cs, Accepted t.colnames c) →
      ∃ new, (calls t cs).rows = t.rows ++ new ∧ List.Forall₂ (fun c r => ∀ k, k ∉ "SensorID" :: c.2.map Prod.fst → r.lookup k = t.default.lookup k) cs new := by
    intro cs
    induction cs with
    | nil => intro t _ _ _ _; exact ⟨[], by simp [calls], List.Forall₂.nil⟩
    | cons c cs ih =>
      intro t hg hp hf ha
      rw [List.forall_mem_cons] at hf ha
      obtain ⟨hg2, hd⟩ := store_good hg c
      have hcol : (storeFitValues t c.1 c.2).1.colnames = t.colnames := by unfold Table.colnames; rw [hd]
      obtain ⟨_, r, hrow, _, hmiss, hpend⟩ := store_accepted hg c hf.1 ha.1
      obtain ⟨new, h1, h2⟩ := ih _ hg2 (by rw [hpend, hd]) hf.2 (by rw [hcol]; exact ha.2)
      rw [hd] at h2
      refine ⟨r :: new, ?_, List.Forall₂.cons (by rw [← hp]; exact hmiss) h2⟩
      change (calls (storeFitValues t c.1 c.2).1 cs).rows = _
      rw [h1, hrow, List.append_assoc]; rfl
  obtain ⟨new, h1, h2⟩ := this cs t hg hp hf ha
  rw [h1, hr, List.nil_append]
  exact h2

theorem newTable_good (names : List String) (cov : Option (Nat × Nat)) (hnd : names.Nodup) (hid : "SensorID" ∉ names)
    (hcov : cov.isSome → "covariance" ∉ names) :
    Good (newTable (makeTableDictionary names cov)) ∧ (newTable (makeTableDictionary names cov)).colnames = "SensorID" :: names ++ (cov.toList.map fun _ => "covariance") := by
  obtain ⟨h1, h2, h3⟩ := columns_spec names cov hnd hid hcov
  have hc : (newTable (makeTableDictionary names cov)).colnames = "SensorID" :: names ++ (cov.toList.map fun _ => "covariance") := by
    unfold Table.colnames
    rw [h1, List.map_append, List.map_cons, List.map_map, List.map_map]
    congr 2
    exact (List.map_congr_left fun n _ => rfl).trans (List.map_id names)
  exact ⟨⟨by rw [h3]; rfl, by rw [hc]; simp⟩, hc⟩

namespace Example
def table : Table := newTable (makeTableDictionary ["gain", "mu"] none)
def good : Call := (12, [("gain", .pair 3 (1/2)), ("mu", .pair 1 (1/4))])
def bad : Call := (13, [("gain", .pair 7 7), ("typo", .pair 1 1)])
def short : Call := (14, [("mu", .pair 2 2)])
end Example
open Example

example : Good table ∧ table.rows = [] ∧ table.pending = table.default ∧ IsFit good ∧ IsFit bad ∧ Accepted table.colnames good ∧ ¬ Accepted table.colnames bad := by
  unfold Good; decide +kernel

/-- Finding: a parameter that is not given takes the value of an earlier call that failed. -/
theorem failed_call_leaks : (calls table [good, bad, short]).rows =
    [[("SensorID", .id 12), ("gain", .pair 3 (1/2)), ("mu", .pair 1 (1/4))], [("SensorID", .id 14), ("gain", .pair 7 7), ("mu", .pair 2 2)]] := by decide +kernel

end Verif.ChannelParams
