import Verif.Props.ChannelParams
import Mathlib.Control.Monad.Basic
/-!
# C94: readers of the parameters of the sensors
-/
namespace Verif.ChannelParams
open Verif.ChannelParams.Spec

theorem pae_spec (missing : PyErr) (row : Row) : ∀ (ns : List String) (ps es : List (String × Val)), ns.Nodup → (∀ n ∈ ns, n ∉ ps.map Prod.fst ∧ n ∉ es.map Prod.fst) →
    (∀ n ∈ ns, ∃ v e, row.lookup n = some (.pair v e)) →
    ∃ ps' es', parametersAndErrors missing row ns ps es = .ok (ps ++ ps', es ++ es') ∧ ps'.map Prod.fst = ns ∧ es'.map Prod.fst = ns
      ∧ ∀ n ∈ ns, ∃ v e, row.lookup n = some (.pair v e) ∧ ps'.lookup n = some (.num v) ∧ es'.lookup n = some (.num e) := by
  intro ns
  induction ns with
  | nil => intro ps es _ _ _; exact ⟨[], [], by simp [parametersAndErrors], rfl, rfl, by simp⟩
  | cons n ns ih =>
    intro ps es hnd hfresh hrow
    rw [List.nodup_cons] at hnd
    rw [List.forall_mem_cons] at hfresh hrow
    obtain ⟨v, e, hve⟩ := hrow.1
    have hp : ∀ (ps : List (String × Val)) (v : Val), n ∉ ps.map Prod.fst → put ps n v = ps ++ [(n, v)] := by
      intro ps v h; unfold put; rw [if_neg h]
    have hmem : ∀ (ps : List (String × Val)) (v : Val), (∀ m ∈ ns, m ∉ ps.map Prod.fst) → ∀ m ∈ ns, m ∉ (ps ++ [(n, v)]).map Prod.fst := by
      intro ps v h m hm
      rw [List.map_append, List.mem_append, not_or]
      refine ⟨h m hm, ?_⟩
      simp only [List.map_cons, List.map_nil, List.mem_singleton]
      intro hmn; exact hnd.1 (hmn ▸ hm)
    obtain ⟨ps', es', h1, h2, h3, h4⟩ := ih (ps ++ [(n, .num v)]) (es ++ [(n, .num e)]) hnd.2
      (fun m hm => ⟨hmem ps _ (fun m hm => (hfresh.2 m hm).1) m hm, hmem es _ (fun m hm => (hfresh.2 m hm).2) m hm⟩) hrow.2
    refine ⟨(n, .num v) :: ps', (n, .num e) :: es', ?_, by rw [List.map_cons, h2], by rw [List.map_cons, h3], ?_⟩
    · rw [parametersAndErrors]
      simp only [hve, items]
      rw [hp _ _ hfresh.1.1, hp _ _ hfresh.1.2, h1, List.append_assoc, List.append_assoc]
      rfl
    · intro m hm
      rcases List.mem_cons.mp hm with rfl | hm
      · exact ⟨v, e, hve, by simp, by simp⟩
      · obtain ⟨v', e', a, b, c⟩ := h4 m hm
        have : (m == n) = false := by
          simp only [beq_eq_false_iff_ne, ne_eq]
          intro h; exact hnd.1 (h ▸ hm)
        exact ⟨v', e', a, by rw [List.lookup_cons, this]; exact b, by rw [List.lookup_cons, this]; exact c⟩

theorem readRow_spec {cols : List String} {c : Call} {r : Row} {ns : List String} (hnd : ns.Nodup) (hr : Records cols c r) (hg : Gives ns c) :
    ∃ o, readRow ns r = .ok o ∧ ReadAs ns c o := by
  have hrow : ∀ n ∈ ns, ∃ v e, r.lookup n = some (.pair v e) := by
    intro n hn
    obtain ⟨v, e, h⟩ := hg n hn
    exact ⟨v, e, hr.given _ (mem_of_lookup h)⟩
  obtain ⟨ps, es, h1, h2, h3, h4⟩ := pae_spec .keyError r ns [] [] hnd (by simp) hrow
  refine ⟨(c.1, ps, es), ?_, rfl, ⟨h2, h3⟩, ?_⟩
  · unfold readRow sensorId
    rw [hr.sensor]
    simp only [h1, List.nil_append]
  · intro n hn
    obtain ⟨v, e, a, b, d⟩ := h4 n hn
    obtain ⟨v', e', h'⟩ := hg n hn
    have := hr.given _ (mem_of_lookup h')
    simp only at this
    rw [a] at this
    simp only [Option.some.injEq, Cell.pair.injEq] at this
    exact ⟨v', e', h', by rw [← this.1]; exact b, by rw [← this.2]; exact d⟩

theorem mapM_forall₂ {α β γ : Type} {f : α → Except PyErr β} {R : γ → α → Prop} {S : γ → β → Prop} :
    ∀ {cs : List γ} {xs : List α}, List.Forall₂ R cs xs → (∀ c ∈ cs, ∀ x, R c x → ∃ y, f x = .ok y ∧ S c y) → ∃ ys, xs.mapM f = .ok ys ∧ List.Forall₂ S cs ys := by
  intro cs xs h
  induction h with
  | nil => intro _; exact ⟨[], rfl, List.Forall₂.nil⟩
  | @cons c x cs xs hcx _ ih =>
    intro hall
    rw [List.forall_mem_cons] at hall
    obtain ⟨y, hy, hs⟩ := hall.1 x hcx
    obtain ⟨ys, hys, hss⟩ := ih hall.2
    refine ⟨y :: ys, ?_, List.Forall₂.cons hs hss⟩
    rw [List.mapM_cons, hy, hys]
    rfl

/-- C94: the reader of a table gives, for each call in order, the sensor and the value and the error of each parameter asked. -/
theorem allChannelValueReader_spec (t : Table) (hg : Good t) (hr : t.rows = []) (cs : List Call) (hf : ∀ c ∈ cs, IsFit c) (ns : List String) (hnd : ns.Nodup)
    (hgive : ∀ c ∈ cs, Accepted t.colnames c → Gives ns c) :
    ∃ out, allChannelValueReader (calls t cs) ns = .ok out ∧ List.Forall₂ (ReadAs ns) (cs.filter fun c => decide (Accepted t.colnames c)) out := by
  apply mapM_forall₂ (history t hg hr cs hf)
  intro c hc x hx
  rw [List.mem_filter, decide_eq_true_eq] at hc
  exact readRow_spec hnd hx (hgive c hc.1 hc.2)

theorem calls_colnames {t : Table} (hg : Good t) (cs : List Call) : (calls t cs).colnames = t.colnames := by
  unfold Table.colnames; rw [(calls_good hg cs).2]

theorem lookup_storeInFile (f : List (String × Table)) (name n : String) (c : Call) :
    (storeInFile f name c.1 c.2).lookup n = if n = name then (f.lookup n).map fun t => (storeFitValues t c.1 c.2).1 else f.lookup n := by
  unfold storeInFile
  induction f with
  | nil => simp
  | cons p f ih =>
    rw [List.map_cons, List.lookup_cons, ih, List.lookup_cons]
    by_cases hp : p.1 = name
    · rw [if_pos hp]
      simp only
      by_cases hn : n = p.1
      · have : (n == p.1) = true := by simpa using hn
        simp only [this, if_pos (hn.trans hp), Option.map_some]
      · have : (n == p.1) = false := by simpa using hn
        rw [this]
    · rw [if_neg hp]
      by_cases hn : n = p.1
      · have : (n == p.1) = true := by simpa using hn
        have h2 : ¬ n = name := by rw [hn]; exact hp
        simp only [this, if_neg h2]
      · have : (n == p.1) = false := by simpa using hn
        rw [this]

/-- C94: a table of a file has the rows of the calls of its own writer, whatever is written in the others. -/
theorem tables_independent (cs : List (String × Call)) : ∀ (f : List (String × Table)) (n : String),
    (fileCalls f cs).lookup n = (f.lookup n).map fun t => calls t ((cs.filter fun c => c.1 == n).map Prod.snd) := by
  induction cs with
  | nil => intro f n; simp [fileCalls, calls]
  | cons c cs ih =>
    intro f n
    change (fileCalls (storeInFile f c.1 c.2.1 c.2.2) cs).lookup n = _
    rw [ih, lookup_storeInFile, List.filter_cons]
    by_cases h : n = c.1
    · rw [if_pos h, if_pos (by simpa using h.symm), Option.map_map]
      rfl
    · rw [if_neg h, if_neg (by simpa using fun x => h x.symm)]

/-- C94: reading all the parameters of a table without covariance. -/
theorem generatorParamReader_spec (names : List String) (hnd : names.Nodup) (hid : "SensorID" ∉ names) (f : List (String × Table)) (n : String)
    (hn : f.lookup n = some (newTable (makeTableDictionary names none))) (cs : List (String × Call)) (hf : ∀ c ∈ cs, IsFit c.2)
    (hgive : ∀ c ∈ cs, c.1 = n → Accepted ("SensorID" :: names) c.2 → Gives names c.2) :
    ∃ out, generatorParamReader (some (fileCalls f cs)) n = .ok out ∧
      List.Forall₂ (ReadAs names) (((cs.filter fun c => c.1 == n).map Prod.snd).filter fun c => decide (Accepted ("SensorID" :: names) c)) out := by
  obtain ⟨hg, hcol⟩ := newTable_good names none hnd hid (by simp)
  simp only [Option.toList_none, List.map_nil, List.append_nil] at hcol
  have hl := tables_independent cs f n
  rw [hn] at hl
  simp only [Option.map_some] at hl
  unfold generatorParamReader findTable
  simp only [hl]
  rw [calls_colnames hg, hcol, List.drop_one, List.tail_cons]
  obtain ⟨out, h1, h2⟩ := allChannelValueReader_spec _ hg (columns_spec names none hnd hid (by simp)).2.1 ((cs.filter fun c => c.1 == n).map Prod.snd)
    (by
      intro c hc
      obtain ⟨c', hc', rfl⟩ := List.mem_map.mp hc
      exact hf c' (List.mem_filter.mp hc').1) names hnd
    (by
      intro c hc ha
      obtain ⟨c', hc', rfl⟩ := List.mem_map.mp hc
      rw [List.mem_filter] at hc'
      rw [hcol] at ha
      exact hgive c' hc'.1 (by simpa using hc'.2) ha)
  rw [hcol] at h2
  exact ⟨out, h1, h2⟩

/-- C94: reading some of the parameters of a table of a file; a table that is not there ends the program. -/
theorem subsetParamReader_spec (f : File) (n : String) (ns : List String) :
    (∀ ts t, f = some ts → ts.lookup n = some t → subsetParamReader f n ns = allChannelValueReader t ns) ∧
    ((f = none ∨ ∃ ts, f = some ts ∧ ts.lookup n = none) → subsetParamReader f n ns = .error (.other "SystemExit") ∧ generatorParamReader f n = .error (.other "SystemExit")) := by
  constructor
  · rintro ts t rfl h
    unfold subsetParamReader findTable
    simp only [h]
  · rintro (rfl | ⟨ts, rfl, h⟩)
    · exact ⟨rfl, rfl⟩
    · unfold subsetParamReader generatorParamReader findTable
      simp only [h]
      exact ⟨trivial, trivial⟩

theorem forall₂_filter {cols : List String} {channel : Nat} : ∀ {cs : List Call} {rows : List Row}, List.Forall₂ (Records cols) cs rows →
    List.Forall₂ (Records cols) (cs.filter fun c => decide (c.1 = channel)) (rows.filter fun r => decide (r.lookup "SensorID" = some (.id channel))) := by
  intro cs rows h
  induction h with
  | nil => exact List.Forall₂.nil
  | @cons c r cs rows hcr _ ih =>
    rw [List.filter_cons, List.filter_cons, hcr.sensor]
    by_cases hc : c.1 = channel
    · rw [if_pos (by simpa using hc), if_pos (by simpa using hc)]
      exact List.Forall₂.cons hcr ih
    · rw [if_neg (by simpa using hc), if_neg (by simpa using hc)]
      exact ih

/-- C94: reading one sensor: its values if it was stored once; otherwise the program ends. -/
theorem singleChannelValueReader_spec (t : Table) (hg : Good t) (hr : t.rows = []) (cs : List Call) (hf : ∀ c ∈ cs, IsFit c) (channel : Nat) (ns : List String) (hnd : ns.Nodup) :
    (∀ c, (cs.filter fun c => decide (Accepted t.colnames c ∧ c.1 = channel)) = [c] → Gives ns c →
      ∃ o, singleChannelValueReader channel (calls t cs) ns = .ok o ∧ ReadAs ns c (channel, o)) ∧
    ((cs.filter fun c => decide (Accepted t.colnames c ∧ c.1 = channel)).length ≠ 1 → singleChannelValueReader channel (calls t cs) ns = .error (.other "SystemExit")) := by
  have h := forall₂_filter (channel := channel) (history t hg hr cs hf)
  have hff : ((cs.filter fun c => decide (Accepted t.colnames c)).filter fun c => decide (c.1 = channel)) = cs.filter fun c => decide (Accepted t.colnames c ∧ c.1 = channel) := by
    rw [List.filter_filter]
    refine List.filter_congr fun c _ => ?_
    rw [Bool.and_comm, Bool.decide_and]
  rw [hff] at h
  constructor
  · intro c hc hgive
    have hch : c.1 = channel := by
      have : c ∈ cs.filter fun c => decide (Accepted t.colnames c ∧ c.1 = channel) := by rw [hc]; exact List.mem_singleton_self c
      rw [List.mem_filter, decide_eq_true_eq] at this
      exact this.2.2
    rw [hc] at h
    cases hrows : (calls t cs).rows.filter fun r => decide (r.lookup "SensorID" = some (.id channel)) with
    | nil => rw [hrows] at h; cases h
    | cons r rs =>
      rw [hrows] at h
      cases h with
      | cons hcr hnil =>
        cases hnil
        have hrow : ∀ n ∈ ns, ∃ v e, r.lookup n = some (.pair v e) := by
          intro n hn
          obtain ⟨v, e, h⟩ := hgive n hn
          exact ⟨v, e, hcr.given _ (mem_of_lookup h)⟩
        obtain ⟨ps, es, h1, h2, h3, h4⟩ := pae_spec .valueError r ns [] [] hnd (by simp) hrow
        refine ⟨(ps, es), ?_, hch.symm, ⟨h2, h3⟩, ?_⟩
        · unfold singleChannelValueReader
          simp only [hrows, h1, List.nil_append]
        · intro n hn
          obtain ⟨v, e, a, b, d⟩ := h4 n hn
          obtain ⟨v', e', h'⟩ := hgive n hn
          have := hcr.given _ (mem_of_lookup h')
          simp only at this
          rw [a] at this
          simp only [Option.some.injEq, Cell.pair.injEq] at this
          exact ⟨v', e', h', by rw [← this.1]; exact b, by rw [← this.2]; exact d⟩
  · intro hne
    have hlen := h.length_eq
    unfold singleChannelValueReader
    cases hrows : (calls t cs).rows.filter fun r => decide (r.lookup "SensorID" = some (.id channel)) with
    | nil => rfl
    | cons r rs =>
      cases rs with
      | nil => rw [hrows] at hlen; exact absurd hlen hne
      | cons r2 rs => rfl

/-- C94: a table that exists is not replaced; a new one is added to those of the file. -/
theorem createParamTable_spec (f : File) (sensorType func : String) (d : List (String × Col)) :
    ("FIT_" ++ sensorType ++ "_" ++ func ∈ (f.getD []).map Prod.fst → createParamTable f sensorType func d = (some (f.getD []), some (.other "NodeError"))) ∧
    ("FIT_" ++ sensorType ++ "_" ++ func ∉ (f.getD []).map Prod.fst →
      createParamTable f sensorType func d = (some (f.getD [] ++ [("FIT_" ++ sensorType ++ "_" ++ func, newTable d)]), none)) := by
  unfold createParamTable
  exact ⟨fun h => by simp only [if_pos h], fun h => by simp only [if_neg h]⟩

open Example

set_option synthInstance.maxSize 1000

/-- The file of the examples: two tables. -/
example : createParamTable (createParamTable none "pmt" "intgau" (makeTableDictionary ["gain", "mu"] none)).1 "sipm" "intgau" (makeTableDictionary ["gain", "mu"] none)
    = (some [("FIT_pmt_intgau", table), ("FIT_sipm_intgau", table)], none) := by decide +kernel

/-- Reading after a call that failed. -/
example : generatorParamReader (some (fileCalls [("FIT_pmt_intgau", table), ("FIT_sipm_intgau", table)] [("FIT_pmt_intgau", good), ("FIT_sipm_intgau", bad), ("FIT_pmt_intgau", bad)])) "FIT_pmt_intgau"
    = .ok [(12, [("gain", .num 3), ("mu", .num 1)], [("gain", .num (1/2)), ("mu", .num (1/4))])] := by decide +kernel

example : Gives ["gain", "mu"] good := by
  intro n hn
  simp only [List.mem_cons, List.not_mem_nil, or_false] at hn
  rcases hn with rfl | rfl
  · exact ⟨3, 1/2, by decide +kernel⟩
  · exact ⟨1, 1/4, by decide +kernel⟩

example : ([good, bad].filter fun c => decide (Accepted table.colnames c ∧ c.1 = 12)) = [good] := by decide +kernel

/-- Finding: with a covariance the reader of all the parameters gives two rows of the matrix as its value and error. -/
theorem covariance_as_parameter :
    generatorParamReader (some [("t", (storeFitValues (newTable (makeTableDictionary ["mu"] (some (2, 2)))) 5 [("mu", .pair 1 2), ("covariance", .mat [[1, 2], [3, 4]])]).1)]) "t"
    = .ok [(5, [("mu", .num 1), ("covariance", .row [1, 2])], [("mu", .num 2), ("covariance", .row [3, 4])])] := by decide +kernel

/-- Finding: with one parameter the covariance has one row and the reader fails. -/
theorem covariance_one_parameter :
    generatorParamReader (some [("t", (storeFitValues (newTable (makeTableDictionary ["mu"] (some (1, 1)))) 5 [("mu", .pair 1 2), ("covariance", .mat [[4]])]).1)]) "t"
    = .error .indexError := by decide +kernel

end Verif.ChannelParams
