import Verif.Spec.CityConfig
import Verif.Props.TableIO
import Verif.Props.Components
/-!
# C106: the configurations of the cities of a chain
-/
namespace Verif.CityConfig
open Verif.TableIO Verif.Components

/-! ### Files -/

theorem get_none {f : File} {k : String × String} : f.get k = none ↔ k ∉ f.map Prod.fst := by
  simp only [File.get, Option.map_eq_none_iff, List.find?_eq_none, List.mem_map, not_exists, not_and]
  constructor
  · intro h x hx hk; exact h x hx (by simp [hk])
  · intro h x hx hk; exact h x hx (by simpa using hk)

theorem get_some {f : File} (hn : (f.map Prod.fst).Nodup) {k : String × String} {t : Table} : f.get k = some t ↔ (k, t) ∈ f := by
  induction f with
  | nil => simp [File.get]
  | cons x xs ih =>
    simp only [List.map_cons, List.nodup_cons] at hn
    simp only [File.get, List.find?_cons] at ih ⊢
    by_cases hx : x.1 = k
    · subst hx
      simp only [beq_self_eq_true, Option.map_some, Option.some.injEq, List.mem_cons]
      constructor
      · rintro rfl; exact Or.inl rfl
      · rintro (h | h)
        · rw [← h]
        · exact absurd (List.mem_map.2 ⟨_, h, rfl⟩) hn.1
    · have hb : (x.1 == k) = false := by simpa using hx
      rw [hb]
      simp only [ih hn.2, List.mem_cons]
      constructor
      · exact Or.inr
      · rintro (h | h)
        · exact absurd (by rw [← h]) hx
        · exact h

theorem set_new {f : File} {k : String × String} (t : Table) (h : f.get k = none) : f.set k t = f ++ [(k, t)] := by
  induction f with
  | nil => rfl
  | cons x xs ih =>
    rw [get_none] at h
    simp only [List.map_cons, List.mem_cons, not_or] at h
    have hb : (x.1 == k) = false := by simpa using fun e => h.1 e.symm
    simp [File.set, hb, ih (get_none.2 h.2)]

theorem get_append (f g : File) (k : String × String) : (f ++ g : File).get k = (f.get k).or (g.get k) := by
  simp only [File.get, List.find?_append]
  cases List.find? (fun x => x.1 == k) f <;> simp

/-! ### The configuration of the city -/

theorem castRow_conf (a b : String) : castRow [("variable", .obj), ("value", .obj)] [("variable", .str 300), ("value", .str 300)] [.text a, .text b] = .ok [.text (cut a), .text (cut b)] := by
  simp [castRow, castColumn, cellOf, castCell, cut, List.mapM_cons]
  rfl

theorem writeConf_new {f : File} {city : String} (args : Cfgs) (h : f.get ("config", city) = none) :
    writeConf f city args = (f ++ [(("config", city), confTable args)], .ok ()) := by
  have ho : openTable f (confDF args) ("config", city) 300 = ⟨[("variable", .str 300), ("value", .str 300)], [], none⟩ := by
    simp only [openTable, h]; rfl
  have hc : checkCastability (confDF args).cols [("variable", .str 300), ("value", .str 300)] = .ok () := by
    show checkCastability [("variable", .obj), ("value", .obj)] [("variable", .str 300), ("value", .str 300)] = .ok ()
    decide
  have hr : (confDF args).rows.mapM (castRow (confDF args).cols [("variable", .str 300), ("value", .str 300)]) = .ok (confTable args).rows := by
    simp only [confDF, confTable]
    induction dictToString args with
    | nil => rfl
    | cons x xs ih => simp only [List.map_cons, List.mapM_cons, castRow_conf, ih]; rfl
  unfold writeConf dfWriter
  simp only [ho, hc, hr, List.nil_append, flagIndex]
  by_cases he : (confDF args).rows.length ≠ 0
  · rw [if_pos he, set_new _ h]; rfl
  · rw [if_neg he, set_new _ h]
    have he' : dictToString args = [] := by
      simp only [confDF, List.length_map, ne_eq, List.length_eq_zero_iff, not_not] at he; exact he
    simp [confTable, he']

/-! ### The configurations of the input -/

theorem configTables_mem {f : File} {n : String} {t : Table} : (n, t) ∈ configTables f ↔ (("config", n), t) ∈ f := by
  simp only [configTables, List.mem_filterMap, configTable]
  constructor
  · rintro ⟨⟨⟨g, m⟩, u⟩, hx, h⟩
    simp only at h
    split at h
    · simp only [Option.some.injEq, Prod.mk.injEq] at h; rename_i hg; rw [← h.1, ← h.2, ← hg]; exact hx
    · cases h
  · intro h; exact ⟨_, h, by simp⟩

theorem configTables_nodup {f : File} (hn : (f.map Prod.fst).Nodup) : ((configTables f).map Prod.fst).Nodup := by
  induction f with
  | nil => simp [configTables]
  | cons x xs ih =>
    simp only [List.map_cons, List.nodup_cons] at hn
    obtain ⟨⟨g, n⟩, t⟩ := x
    simp only [configTables, List.filterMap_cons, configTable] at ih ⊢
    by_cases hg : g = "config"
    · subst hg
      simp only [if_true, List.map_cons, List.nodup_cons]
      refine ⟨?_, ih hn.2⟩
      intro hm
      obtain ⟨⟨m, u⟩, hm', hmn⟩ := List.mem_map.1 hm
      simp only at hmn; subst hmn
      have h1 : (("config", m), u) ∈ xs := configTables_mem.1 hm'
      exact hn.1 (List.mem_map.2 ⟨_, h1, rfl⟩)
    · simp only [hg, if_false]; exact ih hn.2

def node (x : String × Table) : (String × String) × Table := (("config", x.1), x.2)

theorem copyLoop_ok (l : List (String × Table)) : ∀ (out : File), (l.map Prod.fst).Nodup →
    (∀ n ∈ l.map Prod.fst, out.get ("config", n) = none) → copyLoop out l = (out ++ l.map node, .ok ()) := by
  induction l with
  | nil => intro out _ _; simp [copyLoop]
  | cons x xs ih =>
    intro out hn hf
    simp only [List.map_cons, List.nodup_cons] at hn
    simp only [copyLoop, hf x.1 (by simp)]
    rw [ih _ hn.2]
    · simp [node]
    · intro n hm
      rw [get_append, hf n (by simp [hm]), Option.none_or, get_none]
      simp only [List.map_cons, List.map_nil, List.mem_singleton, Prod.mk.injEq, true_and]
      rintro rfl; exact hn.1 hm

theorem copyLoop_stop (l : List (String × Table)) : ∀ (out : File), (∃ n ∈ l.map Prod.fst, out.get ("config", n) ≠ none) →
    ∃ h : List (String × Table), (∀ x ∈ h, x ∈ l) ∧ copyLoop out l = (out ++ h.map node, .error (.other "NodeError")) := by
  induction l with
  | nil => rintro out ⟨n, hn, _⟩; cases hn
  | cons x xs ih =>
    rintro out ⟨n, hn, hg⟩
    simp only [copyLoop]
    cases hx : out.get ("config", x.1) with
    | some t => exact ⟨[], by simp, by simp⟩
    | none =>
      have hnx : n ∈ xs.map Prod.fst := by
        simp only [List.map_cons, List.mem_cons] at hn
        rcases hn with rfl | hn
        · exact absurd hx hg
        · exact hn
      obtain ⟨h, hh, he⟩ := ih (out ++ [(("config", x.1), x.2)]) ⟨n, hnx, by
        rw [get_append]; cases h2 : out.get ("config", n) with
        | none => exact absurd h2 hg
        | some t => simp⟩
      refine ⟨x :: h, ?_, ?_⟩
      · intro y hy
        rcases List.mem_cons.1 hy with rfl | hy
        · simp
        · exact List.mem_cons_of_mem _ (hh y hy)
      · simp only [he]; simp [node]

theorem nodes_get {f : File} (hn : (f.map Prod.fst).Nodup) (n : String) : File.get ((configTables f).map node) ("config", n) = f.get ("config", n) := by
  have hnd : (((configTables f).map node).map Prod.fst).Nodup := by
    have : ((configTables f).map node).map Prod.fst = ((configTables f).map Prod.fst).map fun n => ("config", n) := by
      simp [node, Function.comp_def]
    rw [this]
    exact (configTables_nodup hn).map (fun a b h => by simpa using h)
  apply Option.ext
  intro t
  rw [get_some hnd, get_some hn]
  simp only [List.mem_map, node, Prod.mk.injEq]
  constructor
  · rintro ⟨⟨m, u⟩, hm, ⟨_, rfl⟩, rfl⟩; exact configTables_mem.1 hm
  · intro h; exact ⟨(n, t), configTables_mem.2 h, by simp⟩

theorem nodes_other (l : List (String × Table)) {k : String × String} (hk : k.1 ≠ "config") : File.get (l.map node) k = none := by
  rw [get_none]
  simp only [List.map_map, List.mem_map, Function.comp, node, not_exists, not_and]
  rintro x _ rfl; exact hk rfl

/-! ### Indices -/

theorem indexTables_ok {f : File} (h : GoodFile f) :
    ∃ idx, indexTables f = .ok idx ∧ ∀ k c, (k, c) ∈ idx ↔ ∃ t cols, f.get k = some t ∧ t.index = some cols ∧ c ∈ cols := by
  have hone : ∀ x ∈ f, ∃ l, indexTable x = .ok l ∧ ∀ k c, (k, c) ∈ l ↔ k = x.1 ∧ ∃ cols, x.2.index = some cols ∧ c ∈ cols := by
    intro x hx
    have hg : f.get x.1 = some x.2 := (get_some h.names).2 hx
    unfold indexTable
    cases hi : x.2.index with
    | none => exact ⟨[], rfl, by simp⟩
    | some cols =>
      have hc : cols.all (fun c => decide (c ∈ x.2.cols.map Prod.fst)) = true := by
        rw [List.all_eq_true]; intro c hc; exact decide_eq_true (h.flags _ _ hg _ hi c hc)
      refine ⟨cols.map fun c => (x.1, c), by simp only [hc, if_true], ?_⟩
      intro k c
      simp only [List.mem_map, Prod.mk.injEq, Option.some.injEq]
      constructor
      · rintro ⟨c', hc', rfl, rfl⟩; exact ⟨rfl, cols, rfl, hc'⟩
      · rintro ⟨rfl, cols', rfl, hc⟩; exact ⟨c, hc, rfl, rfl⟩
  have hall : ∀ (g : File), (∀ x ∈ g, x ∈ f) → ∃ l, g.mapM indexTable = .ok l ∧
      ∀ k c, (k, c) ∈ l.flatten ↔ ∃ x ∈ g, k = x.1 ∧ ∃ cols, x.2.index = some cols ∧ c ∈ cols := by
    intro g
    induction g with
    | nil => intro _; exact ⟨[], rfl, by simp⟩
    | cons x xs ih =>
      intro hg
      obtain ⟨l, hl, hm⟩ := hone x (hg x (by simp))
      obtain ⟨ls, hls, hms⟩ := ih (fun y hy => hg y (by simp [hy]))
      refine ⟨l :: ls, by simp only [List.mapM_cons, hl, hls]; rfl, ?_⟩
      intro k c
      simp only [List.flatten_cons, List.mem_append, hm, hms, List.mem_cons, exists_eq_or_imp]
  obtain ⟨l, hl, hm⟩ := hall f (fun _ h => h)
  refine ⟨l.flatten, by simp only [indexTables, hl], ?_⟩
  intro k c
  rw [hm]
  constructor
  · rintro ⟨x, hx, rfl, cols, hi, hc⟩; exact ⟨x.2, cols, (get_some h.names).2 hx, hi, hc⟩
  · rintro ⟨t, cols, ht, hi, hc⟩; exact ⟨(k, t), (get_some h.names).1 ht, rfl, cols, hi, hc⟩

/-- A flag of a column that the table does not have: `KeyError`, after everything is written. -/
theorem missing_index {f : File} {k : String × String} {t : Table} {cols : List String} {c : String} (hk : (k, t) ∈ f) (hi : t.index = some cols) (hc : c ∈ cols)
    (hno : c ∉ t.cols.map Prod.fst) : indexTables f = .error .keyError := by
  have hx : indexTable (k, t) = .error .keyError := by
    have : cols.all (fun c => decide (c ∈ t.cols.map Prod.fst)) = false := by
      rw [List.all_eq_false]; exact ⟨c, hc, by simpa using hno⟩
    simp only [indexTable, hi, this]; rfl
  have hany : ∀ x e, indexTable x = .error e → e = .keyError := by
    intro x e h
    unfold indexTable at h
    split at h
    · cases h
    · split at h
      · cases h
      · injection h with h; exact h.symm
  have : f.mapM indexTable = .error .keyError := by
    induction f with
    | nil => cases hk
    | cons y ys ih =>
      rw [List.mapM_cons]
      cases hy : indexTable y with
      | error e => rw [hany y e hy]; rfl
      | ok l =>
        have hne : (k, t) ≠ y := by rintro rfl; rw [hx] at hy; cases hy
        rcases List.mem_cons.1 hk with h | h
        · exact absurd h hne
        · simp only [ih h]; rfl
  simp only [indexTables, this]
example : indexTables [(("g", "t"), ⟨[("event", .int)], [], some ["evt"]⟩)] = .error .keyError := by decide

/-! ### The end of a city -/

/-- C106. When a city ends and its name is not in the history of its first input file, the output has the tables written by the city, its configuration and every
configuration of the input, unchanged; and exactly the columns flagged for it are indexed. -/
theorem finish_ok (city : String) (args : Cfgs) (fin fout : File) (hi : GoodFile fin) (ho : GoodFile fout) (hno : NoConfig fout)
    (hnew : fin.get ("config", city) = none) :
    ∃ g idx, finish city args fin fout = (g, .ok idx) ∧ Finished city args fin fout g ∧ GoodFile g ∧
      ∀ k c, (k, c) ∈ idx ↔ ∃ t cols, g.get k = some t ∧ t.index = some cols ∧ c ∈ cols := by
  have hcopy : copyConf fin (fout ++ [(("config", city), confTable args)]) =
      ((fout ++ [(("config", city), confTable args)]) ++ (configTables fin).map node, .ok ()) := by
    apply copyLoop_ok _ _ (configTables_nodup hi.names)
    intro n hn
    obtain ⟨⟨m, t⟩, hm, rfl⟩ := List.mem_map.1 hn
    rw [get_append, hno, Option.none_or, get_none]
    simp only [List.map_cons, List.map_nil, List.mem_singleton, Prod.mk.injEq, true_and]
    rintro rfl
    rw [(get_some hi.names).2 (configTables_mem.1 hm)] at hnew; cases hnew
  have hno' : ∀ n, fout.get ("config", n) = none := hno
  have hone : ∀ k, File.get [(("config", city), confTable args)] k = if k = ("config", city) then some (confTable args) else none := by
    intro k
    by_cases hk : k = ("config", city)
    · subst hk; simp [File.get]
    · rw [if_neg hk, get_none]; simpa using hk
  let g : File := (fout ++ [(("config", city), confTable args)]) ++ (configTables fin).map node
  have hfin : Finished city args fin fout g := by
    refine ⟨?_, ?_, ?_⟩
    · simp only [g, get_append, hno', hone]; simp
    · intro n hn
      simp only [g, get_append, hno', hone, nodes_get hi.names]; simp [hn]
    · intro k hk
      have : k ≠ ("config", city) := by rintro rfl; exact hk rfl
      simp only [g, get_append, hone, nodes_other _ hk, if_neg this]; simp
  have hg : GoodFile g := by
    refine ⟨?_, ?_⟩
    · have hn1 : (((configTables fin).map node).map Prod.fst).Nodup := by
        have : ((configTables fin).map node).map Prod.fst = ((configTables fin).map Prod.fst).map fun n => ("config", n) := by
          simp [node, Function.comp_def]
        rw [this]
        exact (configTables_nodup hi.names).map (fun a b h => by simpa using h)
      simp only [g, List.map_append, List.map_cons, List.map_nil]
      rw [List.nodup_append, List.nodup_append]
      refine ⟨⟨ho.names, by simp, ?_⟩, hn1, ?_⟩
      · rintro a ha b hb rfl
        simp only [List.mem_singleton] at hb; subst hb
        exact get_none.1 (hno city) ha
      · rintro a ha b hb rfl
        simp only [List.map_map, List.mem_map, Function.comp, node] at hb
        obtain ⟨⟨n, t⟩, hm, rfl⟩ := hb
        rcases List.mem_append.1 ha with ha | ha
        · exact get_none.1 (hno n) ha
        · simp only [List.mem_singleton, Prod.mk.injEq, true_and] at ha
          subst ha
          rw [(get_some hi.names).2 (configTables_mem.1 hm)] at hnew; cases hnew
    · intro k t hk cols hc c hcm
      obtain ⟨a, n⟩ := k
      by_cases ha : a = "config"
      · subst ha
        by_cases hn : n = city
        · subst hn; rw [hfin.own] at hk; cases hk; cases hc
        · rw [hfin.history n hn] at hk; exact hi.flags _ _ hk _ hc c hcm
      · rw [hfin.tables _ ha] at hk; exact ho.flags _ _ hk _ hc c hcm
  obtain ⟨idx, hidx, hmem⟩ := indexTables_ok hg
  refine ⟨g, idx, ?_, hfin, hg, hmem⟩
  simp only [finish, writeConf_new args (hno city), hcopy]
  rw [show (fout ++ [(("config", city), confTable args)]) ++ (configTables fin).map node = g from rfl, hidx]

/-- C106. If the input was already processed by the same city, the end of the city fails with `NodeError`: the output has the tables of the city and its configuration, but the
history is not complete (it has nothing but configurations of the input) and nothing is indexed. -/
theorem finish_repeated (city : String) (args : Cfgs) (fin fout : File) (hi : GoodFile fin) (hno : NoConfig fout)
    (hold : fin.get ("config", city) ≠ none) :
    ∃ g, finish city args fin fout = (g, .error (.other "NodeError")) ∧ g.get ("config", city) = some (confTable args) ∧
      (∀ k, k.1 ≠ "config" → g.get k = fout.get k) ∧
      (∀ n, n ≠ city → g.get ("config", n) = none ∨ g.get ("config", n) = fin.get ("config", n)) := by
  obtain ⟨t0, ht0⟩ := Option.ne_none_iff_exists'.1 hold
  have hm0 := configTables_mem.2 ((get_some hi.names).1 ht0)
  have hno' : ∀ n, fout.get ("config", n) = none := hno
  have hone : ∀ k, File.get [(("config", city), confTable args)] k = if k = ("config", city) then some (confTable args) else none := by
    intro k
    by_cases hk : k = ("config", city)
    · subst hk; simp [File.get]
    · rw [if_neg hk, get_none]; simpa using hk
  obtain ⟨h, hsub, hcopy⟩ := copyLoop_stop (configTables fin) (fout ++ [(("config", city), confTable args)])
    ⟨city, List.mem_map.2 ⟨_, hm0, rfl⟩, by rw [get_append, hno', hone]; simp⟩
  refine ⟨_, by simp only [finish, writeConf_new args (hno city), copyConf, hcopy]; rfl, ?_, ?_, ?_⟩
  · simp only [get_append, hno', hone]; simp
  · intro k hk
    have : k ≠ ("config", city) := by rintro rfl; exact hk rfl
    simp only [get_append, hone, nodes_other _ hk, if_neg this]; simp
  · intro n hn
    simp only [get_append, hno', hone]
    simp only [Prod.mk.injEq, hn, and_false, if_false, Option.none_or]
    cases hg : File.get (h.map node) ("config", n) with
    | none => exact Or.inl rfl
    | some t =>
      right
      have hmem : (("config", n), t) ∈ h.map node := by
        unfold File.get at hg
        obtain ⟨x, hx, rfl⟩ := Option.map_eq_some_iff.1 hg
        have h1 : x.1 = ("config", n) := by simpa using List.find?_some hx
        rw [← h1]; exact List.mem_of_find?_eq_some hx
      obtain ⟨⟨m, u⟩, hm, he⟩ := List.mem_map.1 hmem
      simp only [node, Prod.mk.injEq, true_and] at he
      obtain ⟨rfl, rfl⟩ := he
      exact ((get_some hi.names).2 (configTables_mem.1 (hsub _ hm))).symm

/-- C106. Whatever the cities of a chain write, as long as they have different names, the chain ends and the last file has the configuration of every city of the chain, and
those of the first file. -/
theorem chain_history (js : List Job) : ∀ (f : File), GoodFile f → (js.map Job.city).Nodup →
    (∀ j ∈ js, f.get ("config", j.city) = none) → (∀ j ∈ js, ∀ g, GoodFile g → GoodFile (j.body g) ∧ NoConfig (j.body g)) →
    ∃ g, chain f js = (g, .ok ()) ∧ GoodFile g ∧ (∀ j ∈ js, g.get ("config", j.city) = some (confTable j.args)) ∧
      ∀ n, n ∉ js.map Job.city → g.get ("config", n) = f.get ("config", n) := by
  induction js with
  | nil => intro f hf _ _ _; exact ⟨f, rfl, hf, by simp, by simp⟩
  | cons j js ih =>
    intro f hf hnd hnew hb
    simp only [List.map_cons, List.nodup_cons] at hnd
    obtain ⟨hg1, hn1⟩ := hb j (by simp) f hf
    obtain ⟨g, idx, hfi, hfin, hgood, _⟩ := finish_ok j.city j.args f (j.body f) hf hg1 hn1 (hnew j (by simp))
    obtain ⟨g', hch, hgood', hall, hrest⟩ := ih g hgood hnd.2 (by
      intro i hi'
      have : i.city ≠ j.city := fun e => hnd.1 (e ▸ List.mem_map.2 ⟨i, hi', rfl⟩)
      rw [hfin.history _ this]; exact hnew i (by simp [hi'])) (fun i hi' => hb i (by simp [hi']))
    refine ⟨g', by simp only [chain, hfi, hch], hgood', ?_, ?_⟩
    · intro i hi'
      rcases List.mem_cons.1 hi' with rfl | hi'
      · rw [hrest _ hnd.1]; exact hfin.own
      · exact hall i hi'
    · intro n hn
      simp only [List.map_cons, List.mem_cons, not_or] at hn
      rw [hrest n hn.2, hfin.history n hn.1]

/-- C106. Every argument of a city is a row of its table: the path of its keys joined by dots and its value as text, each cut at 300 characters, and
there is nothing else. -/
theorem conf_rows (args : Cfgs) (hc : args.Clean) (row : List Cell) :
    row ∈ (confTable args).rows ↔ ∃ p v, HasLeaf args p v ∧ row = [.text (cut (String.ofList (dotted p))), .text (cut v)] := by
  simp only [confTable, List.mem_map]
  constructor
  · rintro ⟨⟨s, v⟩, hm, rfl⟩
    obtain ⟨p, hp, rfl⟩ := ((dictToString_spec args hc).1 s v).1 hm
    exact ⟨p, v, hp, rfl⟩
  · rintro ⟨p, v, hp, rfl⟩
    exact ⟨(dotted p, v), ((dictToString_spec args hc).1 _ _).2 ⟨p, hp, rfl⟩, rfl⟩

/-- C106. Text of up to 300 characters is stored whole; of a longer one only the first 300 are, so that two that differ after them are stored alike. -/
theorem cut_spec (s : String) : (s.length ≤ 300 → cut s = s) ∧ (300 < s.length → (cut s).length = 300 ∧ cut s ≠ s) ∧
    ∀ a b c : List Char, a.length = 300 → cut (String.ofList (a ++ b)) = cut (String.ofList (a ++ c)) := by
  refine ⟨?_, ?_, ?_⟩
  · intro h
    rw [cut, List.take_of_length_le (by rw [String.length_toList]; exact h), String.ofList_toList]
  · intro h
    have hl : 300 ≤ s.toList.length := by rw [String.length_toList]; omega
    have h1 : (cut s).length = 300 := by rw [← String.length_toList]; simp [cut, List.length_take]; omega
    exact ⟨h1, fun e => by rw [e] at h1; omega⟩
  · intro a b c h
    simp [cut, ← h]

/-! ### Examples -/

def exArgs : Cfgs := .cons "run".toList (.leaf "1") (.cons "p".toList (.dict (.cons "k".toList (.leaf "x") .nil)) .nil)
def exIn : File := [(("DST", "Events"), ⟨[("event", .int)], [[.num 1]], none⟩), (("config", "irene"), ⟨[("variable", .str 300), ("value", .str 300)], [[.text "a", .text "b"]], none⟩)]
def exOut : File := [(("RECO", "Events"), ⟨[("event", .int), ("X", .float)], [[.num 1, .num 2]], some ["event"]⟩)]

theorem exIn_good : GoodFile exIn := ⟨by decide, by
  intro k t hk cols hc
  have hm := (get_some (f := exIn) (by decide)).1 hk
  simp only [exIn, List.mem_cons, Prod.mk.injEq, List.not_mem_nil, or_false] at hm
  rcases hm with ⟨_, rfl⟩ | ⟨_, rfl⟩ <;> cases hc⟩

theorem exOut_good : GoodFile exOut ∧ NoConfig exOut := ⟨⟨by decide, by
  intro k t hk cols hc
  have hm := (get_some (f := exOut) (by decide)).1 hk
  simp only [exOut, List.mem_cons, Prod.mk.injEq, List.not_mem_nil, or_false] at hm
  obtain ⟨_, rfl⟩ := hm
  cases hc; decide⟩, by intro n; rw [get_none]; simp [exOut]⟩

/-- `finish_ok` applies, and its result has four tables. -/
example : exIn.get ("config", "penthesilea") = none ∧ ((finish "penthesilea" exArgs exIn exOut).1.map Prod.fst) =
    [("RECO", "Events"), ("config", "penthesilea"), ("config", "irene")] ∧
    (finish "penthesilea" exArgs exIn exOut).1.get ("config", "penthesilea") = some ⟨[("variable", .str 300), ("value", .str 300)], [[.text "run", .text "1"], [.text "p.k", .text "x"]], none⟩ := by
  refine ⟨by decide, by decide, by decide⟩

/-- `finish_repeated` applies: irene again. -/
example : exIn.get ("config", "irene") ≠ none ∧ (finish "irene" exArgs exIn exOut).1.map Prod.fst = [("RECO", "Events"), ("config", "irene")] := by
  refine ⟨by decide, by decide⟩

/-- `chain_history` applies to two jobs. -/
example : ∃ g, chain exIn [⟨"penthesilea", exArgs, fun _ => exOut⟩, ⟨"esmeralda", .nil, fun _ => exOut⟩] = (g, .ok ()) ∧
    g.get ("config", "penthesilea") = some (confTable exArgs) ∧ g.get ("config", "irene") = exIn.get ("config", "irene") := by
  obtain ⟨g, h1, _, h3, h4⟩ := chain_history [⟨"penthesilea", exArgs, fun _ => exOut⟩, ⟨"esmeralda", .nil, fun _ => exOut⟩] exIn exIn_good (by decide)
    (by intro j hj; simp only [List.mem_cons, List.not_mem_nil, or_false] at hj; rcases hj with rfl | rfl <;> decide)
    (by intro j hj g _; simp only [List.mem_cons, List.not_mem_nil, or_false] at hj; rcases hj with rfl | rfl <;> exact exOut_good)
  exact ⟨g, h1, h3 ⟨"penthesilea", exArgs, fun _ => exOut⟩ List.mem_cons_self, h4 _ (by decide)⟩

example : exArgs.Clean := by simp [exArgs, Cfgs.Clean, Cfg.Clean, Cfgs.keys]

/-- Two values longer than the column that are stored alike. -/
example : cut (String.ofList (List.replicate 300 'a' ++ "b".toList)) = cut (String.ofList (List.replicate 300 'a' ++ "c".toList)) :=
  (cut_spec "").2.2 _ _ _ List.length_replicate

end Verif.CityConfig
