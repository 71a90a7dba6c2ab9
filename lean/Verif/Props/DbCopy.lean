import Verif.Spec.DbCopy
import Mathlib.Tactic.Linarith
import Mathlib.Tactic.Push
/-!
# C114: the local copies of the databases
-/
namespace Verif.DbCopy
open Verif Verif.DbCopy.Spec

variable {V : Type}

theorem copied_nil (server : Server V) : Copied server [] [] := ⟨rfl, fun i name h => by simp at h⟩

theorem copied_snoc {server : Server V} {pre : List String} {d : Disk V} {name : String} {t : ServerTable V} (h : Copied server pre d) (ht : server (2 * pre.length + 1) name = some t) : Copied server (pre ++ [name]) (d ++ [(name, t.rows)]) := by
  obtain ⟨h1, h2⟩ := h
  refine ⟨by simp [h1], fun i n hi => ?_⟩
  by_cases hl : i < pre.length
  · rw [List.getElem?_append_left hl] at hi
    obtain ⟨t', a, b⟩ := h2 i n hi
    exact ⟨t', a, by rw [List.getElem?_append_left (by omega)]; exact b⟩
  · have he : i = pre.length := by
      have := (List.getElem?_eq_some_iff.1 hi).1
      rw [List.length_append, List.length_singleton] at this
      omega
    subst he
    rw [List.getElem?_append_right (Nat.le_refl _), Nat.sub_self] at hi
    obtain rfl : name = n := by simpa using hi
    exact ⟨t, ht, by rw [List.getElem?_append_right (by omega), h1, Nat.sub_self]; rfl⟩

/-- What a turn of the loop may do. -/
theorem copyTable_cases (env : Env V) (server : Server V) (k : Nat) (name : String) (disk : Disk V) :
    (∃ e, copyTable env server k name disk = ([], .error e)) ∨ (∃ e, copyTable env server k name disk = ([disk ++ [(name, [])]], .error e)) ∨
    ∃ t ds, server (2 * k + 1) name = some t ∧ copyTable env server k name disk = ((disk ++ [(name, [])]) :: ds, .ok ()) ∧ (ds = [] ∧ t.rows = [] ∨ ds = [disk ++ [(name, t.rows)]]) := by
  unfold copyTable
  split
  · exact .inl ⟨_, rfl⟩
  · split
    · exact .inl ⟨_, rfl⟩
    · split
      · exact .inl ⟨_, rfl⟩
      · split
        · exact .inr (.inl ⟨_, rfl⟩)
        · rename_i data hdata
          split
          · rename_i hr
            exact .inr (.inr ⟨data, [], hdata, rfl, .inl ⟨rfl, hr⟩⟩)
          · rename_i r rs hr
            split
            · exact .inr (.inl ⟨_, rfl⟩)
            · split
              · exact .inr (.inr ⟨data, _, hdata, rfl, .inr (by rw [hr])⟩)
              · exact .inr (.inl ⟨_, rfl⟩)

theorem copyTables_cons (env : Env V) (server : Server V) (k : Nat) (name : String) (rest : List String) (disk : Disk V) : copyTables env server k (name :: rest) disk =
    match copyTable env server k name disk with
    | (ds, .error e) => (ds, .error e)
    | (ds, .ok _) => match copyTables env server (k + 1) rest (ds.getLastD disk) with
      | (ds', r) => (ds ++ ds', r) := rfl

theorem underway_whole {server : Server V} {pre rest : List String} {d : Disk V} (h : Copied server pre d) : Underway server (pre ++ rest) d :=
  ⟨pre.length, .inl ⟨by simp, by rw [List.take_left]; exact h⟩⟩

theorem underway_next {server : Server V} {pre rest : List String} {name : String} {d : Disk V} (h : Copied server pre d) : Underway server (pre ++ name :: rest) (d ++ [(name, [])]) :=
  ⟨pre.length, .inr ⟨d, name, by simp, by rw [List.take_left]; exact h, rfl⟩⟩

theorem tables_run (env : Env V) (server : Server V) (rest : List String) : ∀ (pre : List String) (disk : Disk V), Copied server pre disk →
    (∀ d ∈ (copyTables env server pre.length rest disk).1, Underway server (pre ++ rest) d) ∧
    ((copyTables env server pre.length rest disk).2 = .ok () → Copied server (pre ++ rest) ((copyTables env server pre.length rest disk).1.getLastD disk)) := by
  induction rest with
  | nil =>
    intro pre disk h
    refine ⟨fun d hd => (by cases hd), fun _ => ?_⟩
    rw [List.append_nil]
    exact h
  | cons name rest ih =>
    intro pre disk h
    rw [copyTables_cons]
    rcases copyTable_cases env server pre.length name disk with ⟨e, he⟩ | ⟨e, he⟩ | ⟨t, ds, ht, he, hds⟩
    · rw [he]
      exact ⟨fun d hd => (by cases hd), fun h => (by cases h)⟩
    · rw [he]
      refine ⟨fun d hd => ?_, fun h => (by cases h)⟩
      rw [List.mem_singleton] at hd
      subst hd
      exact underway_next h
    · rw [he]
      dsimp only
      have hc := copied_snoc h ht
      have hlast : ((disk ++ [(name, [])]) :: ds).getLastD disk = disk ++ [(name, t.rows)] := by
        rcases hds with ⟨rfl, hr⟩ | rfl
        · rw [hr]; rfl
        · rfl
      have hst : ∀ d ∈ (disk ++ [(name, [])]) :: ds, Underway server (pre ++ name :: rest) d := by
        intro d hd
        rcases List.mem_cons.1 hd with rfl | hd
        · exact underway_next h
        · rcases hds with ⟨rfl, _⟩ | rfl
          · cases hd
          · rw [List.mem_singleton] at hd
            subst hd
            have := underway_whole (rest := rest) hc
            rwa [List.append_assoc] at this
      have ih' := ih (pre ++ [name]) (disk ++ [(name, t.rows)]) hc
      rw [List.length_append, List.length_singleton, List.append_assoc, List.singleton_append] at ih'
      rw [hlast]
      refine ⟨fun d hd => ?_, fun hr => ?_⟩
      · rcases List.mem_append.1 hd with hd | hd
        · exact hst d hd
        · exact ih'.1 d hd
      · have hi := ih'.2 hr
        generalize (copyTables env server (pre.length + 1) rest (disk ++ [(name, t.rows)])).1 = x at hi
        rcases List.eq_nil_or_concat x with rfl | ⟨x', y, rfl⟩
        · rw [List.append_nil, hlast]
          exact hi
        · rw [List.concat_eq_append] at hi ⊢
          rw [← List.append_assoc, List.getLastD_concat]
          rw [List.getLastD_concat] at hi
          exact hi

theorem loadDB_reachable {env : Env V} (server : Server V) (tables : List String) (old : Disk V) (hr : env.removable = true) (hc : env.reachable = true) :
    loadDB env server tables old = ([] :: (copyTables env server 0 tables []).1, (copyTables env server 0 tables []).2) := by
  unfold loadDB
  rw [if_pos hc, if_pos hr]

/-- C114: whenever the download is interrupted, the file has the first tables whole and at most one more, without rows. -/
theorem any_time {env : Env V} {server : Server V} {tables : List String} {old d : Disk V} (hr : env.removable = true) (hd : d ∈ (loadDB env server tables old).1) : Underway server tables d := by
  have h0 : Underway server tables ([] : Disk V) := underway_whole (pre := []) (copied_nil server)
  by_cases hc : env.reachable = true
  · rw [loadDB_reachable server tables old hr hc] at hd
    rcases List.mem_cons.1 hd with rfl | hd
    · exact h0
    · exact (tables_run env server tables [] [] (copied_nil server)).1 d hd
  · unfold loadDB at hd
    rw [if_neg hc, if_pos hr, List.mem_singleton] at hd
    subst hd
    exact h0

/-- C114: when it ends well, all the tables are whole. -/
theorem whole_copy {env : Env V} {server : Server V} {tables : List String} {old : Disk V} {ds : List (Disk V)} (hr : env.removable = true) (h : loadDB env server tables old = (ds, .ok ())) :
    ∃ d, ds.getLast? = some d ∧ Copied server tables d := by
  by_cases hc : env.reachable = true
  · rw [loadDB_reachable server tables old hr hc] at h
    obtain ⟨rfl, h2⟩ := Prod.mk.inj h
    have := (tables_run env server tables [] [] (copied_nil server)).2 h2
    refine ⟨_, ?_, this⟩
    rw [List.getLast?_cons, List.getLastD_eq_getLast?]
    rfl
  · unfold loadDB at h
    rw [if_neg hc] at h
    cases (Prod.mk.inj h).2

/-- C114: if the server does not change, the copy is what it has. -/
theorem same_server {server : Server V} {tables : List String} {d : Disk V} {s : String → Option (ServerTable V)} (hs : ∀ t, server t = s) (h : Copied server tables d) :
    d.map Prod.fst = tables ∧ ∀ x ∈ d, ∃ t, s x.1 = some t ∧ x.2 = t.rows := by
  obtain ⟨h1, h2⟩ := h
  constructor
  · apply List.ext_getElem?
    intro i
    rw [List.getElem?_map]
    by_cases hi : i < tables.length
    · obtain ⟨t, _, hd⟩ := h2 i _ (List.getElem?_eq_getElem hi)
      rw [hd, List.getElem?_eq_getElem hi]
      rfl
    · rw [List.getElem?_eq_none (by omega), List.getElem?_eq_none (by omega)]
      rfl
  · intro x hx
    obtain ⟨i, hi⟩ := List.getElem?_of_mem hx
    have hl := (List.getElem?_eq_some_iff.1 hi).1
    obtain ⟨t, ht, hd⟩ := h2 i _ (List.getElem?_eq_getElem (by omega))
    rw [hd, Option.some.injEq] at hi
    rw [hs] at ht
    subst hi
    exact ⟨t, ht, rfl⟩

theorem copyTable_good {env : Env V} {server : Server V} {k : Nat} {name : String} {disk : Disk V} {t t' : ServerTable V} {n : Nat} (h1 : server (2 * k) name = some t) (h2 : server (2 * k + 1) name = some t')
    (h3 : env.columns (env.convert t.sql) = some n) (h4 : ∀ r ∈ t'.rows, r.length = n) (h5 : env.accepts (env.convert t.sql) t'.rows = true) (hn : name ∉ disk.map Prod.fst) :
    ∃ ds, copyTable env server k name disk = ((disk ++ [(name, [])]) :: ds, .ok ()) := by
  unfold copyTable
  rw [h1]
  dsimp only
  rw [h3]
  dsimp only
  rw [if_neg hn, h2]
  dsimp only
  cases hr : t'.rows with
  | nil => exact ⟨_, rfl⟩
  | cons r rs =>
    dsimp only
    rw [hr] at h4 h5
    rw [if_neg, if_pos h5]
    · exact ⟨_, rfl⟩
    · rintro (h | h)
      · exact h (h4 r (List.mem_cons_self ..))
      · rw [List.any_eq_true] at h
        obtain ⟨x, hx, hd⟩ := h
        exact of_decide_eq_true hd ((h4 x hx).trans (h4 r (List.mem_cons_self ..)).symm)

theorem tables_good {env : Env V} {server : Server V} : ∀ (rest pre : List String) (disk : Disk V), (pre ++ rest).Nodup → Copied server pre disk → (∀ (i : Nat) (name : String), (pre ++ rest)[i]? = some name → ∃ t t' n, server (2 * i) name = some t ∧ server (2 * i + 1) name = some t' ∧
    env.columns (env.convert t.sql) = some n ∧ (∀ r ∈ t'.rows, r.length = n) ∧ env.accepts (env.convert t.sql) t'.rows = true) → (copyTables env server pre.length rest disk).2 = .ok () := by
  intro rest
  induction rest with
  | nil => intro pre disk _ _ _; rfl
  | cons name rest ih =>
    intro pre disk hn hc hg
    obtain ⟨t, t', n, g1, g2, g3, g4, g5⟩ := hg pre.length name (by simp)
    have hnot : name ∉ disk.map Prod.fst := by
      intro hm
      obtain ⟨x, hx, rfl⟩ := List.mem_map.1 hm
      obtain ⟨i, hi⟩ := List.getElem?_of_mem hx
      have hl := (List.getElem?_eq_some_iff.1 hi).1
      obtain ⟨_, _, hd⟩ := hc.2 i _ (List.getElem?_eq_getElem (by rw [← hc.1]; exact hl))
      rw [hi, Option.some.injEq] at hd
      have hmem : x.1 ∈ pre := by rw [hd]; exact List.getElem_mem _
      exact (List.nodup_append.1 hn).2.2 _ hmem _ (List.mem_cons_self ..) rfl
    obtain ⟨ds, hds⟩ := copyTable_good g1 g2 g3 g4 g5 hnot
    rw [copyTables_cons]
    rcases copyTable_cases env server pre.length name disk with ⟨e, he⟩ | ⟨e, he⟩ | ⟨u, ds', hu, he, hds'⟩
    · rw [hds] at he; cases he
    · rw [hds] at he; cases (Prod.mk.inj he).2
    · rw [he]
      dsimp only
      have hlast : ((disk ++ [(name, [])]) :: ds').getLastD disk = disk ++ [(name, u.rows)] := by
        rcases hds' with ⟨rfl, hr⟩ | rfl
        · rw [hr]; rfl
        · rfl
      rw [hlast]
      have := ih (pre ++ [name]) (disk ++ [(name, u.rows)]) (by rw [List.append_assoc]; exact hn) (copied_snoc hc hu) (by rw [List.append_assoc]; exact hg)
      rw [List.length_append, List.length_singleton] at this
      exact this

/-- C114: the download ends well. -/
theorem download_works {env : Env V} {server : Server V} {tables : List String} (old : Disk V) (hr : env.removable = true) (hn : tables.Nodup) (hg : Good env server tables) : ∃ ds, loadDB env server tables old = (ds, .ok ()) := by
  rw [loadDB_reachable server tables old hr hg.1]
  exact ⟨_, Prod.ext rfl (tables_good tables [] [] hn (copied_nil server) hg.2)⟩

/-- C114: what was in the file does not matter. -/
theorem fresh_start {env : Env V} (server : Server V) (tables : List String) (old old' : Disk V) (hr : env.removable = true) : loadDB env server tables old = loadDB env server tables old' := by
  unfold loadDB
  rw [if_pos hr, if_pos hr]

/-- C114 (finding): without the server, the local copy is lost. -/
theorem unreachable_server {env : Env V} (server : Server V) (tables : List String) (old : Disk V) (hr : env.removable = true) (hc : env.reachable = false) :
    loadDB env server tables old = ([[]], .error (.other "OperationalError")) := by
  unfold loadDB
  rw [hc, if_neg (by decide), if_pos hr]

/-- C114: if the old file cannot be removed, and has the first table, nothing is written. -/
theorem not_removed {env : Env V} (server : Server V) {name : String} {tables : List String} {old : Disk V} (hr : env.removable = false) (hn : name ∈ old.map Prod.fst) : ∃ e, loadDB env server (name :: tables) old = ([old], .error e) := by
  unfold loadDB
  by_cases hc : env.reachable = true
  · rw [if_pos hc, hr, if_neg (by decide), copyTables_cons]
    have : ∃ e, copyTable env server 0 name old = ([], .error e) := by
      unfold copyTable
      split
      · exact ⟨_, rfl⟩
      · split
        · exact ⟨_, rfl⟩
        · rw [if_pos hn]
          exact ⟨_, rfl⟩
    obtain ⟨e, he⟩ := this
    rw [he]
    exact ⟨e, rfl⟩
  · rw [if_neg hc, hr, if_neg (by decide)]
    exact ⟨_, rfl⟩

/-! ### The program -/

/-- C114: the databases are downloaded in order; the first failure ends the program, and the files of the databases after it are not touched. -/
theorem load_order (env : String → Env V) (server : String → Server V) (old : String → Disk V) (dbs : List (String × List String)) :
    ∃ k ≤ dbs.length, (loadAll env server old dbs).1 = (dbs.take k).flatMap (fun x => (loadDB (env x.1) (server x.1) x.2 (old x.1)).1.map fun d => (x.1, d)) ∧
      ((loadAll env server old dbs).2 = .ok () → k = dbs.length ∧ ∀ x ∈ dbs, (loadDB (env x.1) (server x.1) x.2 (old x.1)).2 = .ok ()) ∧
      ∀ e, (loadAll env server old dbs).2 = .error e → ∃ i x, k = i + 1 ∧ dbs[i]? = some x ∧ (loadDB (env x.1) (server x.1) x.2 (old x.1)).2 = .error e ∧ ∀ y ∈ dbs.take i, (loadDB (env y.1) (server y.1) y.2 (old y.1)).2 = .ok () := by
  induction dbs with
  | nil => exact ⟨0, Nat.le_refl _, rfl, fun _ => ⟨rfl, fun x hx => (by cases hx)⟩, fun e h => (by cases h)⟩
  | cons x rest ih =>
    obtain ⟨name, tables⟩ := x
    have hcons : loadAll env server old ((name, tables) :: rest) = match loadDB (env name) (server name) tables (old name) with
      | (ds, .error e) => (ds.map fun d => (name, d), .error e)
      | (ds, .ok _) => match loadAll env server old rest with
        | (ds', r) => (ds.map (fun d => (name, d)) ++ ds', r) := rfl
    rw [hcons]
    cases hl : loadDB (env name) (server name) tables (old name) with
    | mk ds r =>
      cases r with
      | error e =>
        dsimp only
        refine ⟨1, by simp, by simp [hl], fun h => (by cases h), fun e' he => ?_⟩
        obtain rfl := Except.error.inj he
        exact ⟨0, (name, tables), rfl, rfl, by rw [hl], fun y hy => (by simp at hy)⟩
      | ok u =>
        dsimp only
        obtain ⟨k, hk, h1, h2, h3⟩ := ih
        refine ⟨k + 1, by simpa using hk, ?_, fun h => ?_, fun e he => ?_⟩
        · rw [List.take_succ_cons, List.flatMap_cons, h1, hl]
        · obtain ⟨e1, e2⟩ := h2 h
          refine ⟨by rw [e1]; rfl, fun y hy => ?_⟩
          rcases List.mem_cons.1 hy with rfl | hy
          · show (loadDB (env name) (server name) tables (old name)).2 = _
            rw [hl]
          · exact e2 y hy
        · obtain ⟨i, x, rfl, hx, hf, hall⟩ := h3 e he
          refine ⟨i + 1, x, rfl, hx, hf, fun y hy => ?_⟩
          rw [List.take_succ_cons] at hy
          rcases List.mem_cons.1 hy with rfl | hy
          · show (loadDB (env name) (server name) tables (old name)).2 = _
            rw [hl]
          · exact hall y hy

/-- C114: the name of something else is a KeyError, and no file is touched. -/
theorem unknown_database (env : String → Env V) (server : String → Server V) (old : String → Disk V) {name : String} (h : name ∉ ["NEWDB", "DEMOPPDB", "NEXT100DB", "Flex100DB"]) :
    main env server old (some name) = ([], .error .keyError) := by
  have : tableDict.find? (fun x => x.1 == name) = none := by
    rw [List.find?_eq_none]
    intro x hx
    simp only [tableDict, List.mem_cons, List.not_mem_nil, or_false] at hx h
    rcases hx with rfl | rfl | rfl | rfl <;> simp only [beq_iff_eq] <;> intro he <;> subst he <;> simp at h
  unfold main
  dsimp only
  rw [this]

/-- C114: with the name of a database only its file is written, with its tables. -/
theorem one_database (env : String → Env V) (server : String → Server V) (old : String → Disk V) {name : String} (h : name ∈ ["NEWDB", "DEMOPPDB", "NEXT100DB", "Flex100DB"]) :
    ∃ extra, extra = (if name = "NEXT100DB" then ["Activity", "Efficiency"] else []) ∧
      main env server old (some name) =
        ((loadDB (env name) (server name) (["DetectorGeo", "PmtBlr", "ChannelGain", "ChannelMapping", "ChannelMask", "PmtNoiseRms", "ChannelPosition", "SipmBaseline", "SipmNoisePDF", "PMTFEMapping", "PMTFELowFrequencyNoise"] ++ extra) (old name)).1.map fun d => (name, d),
         (loadDB (env name) (server name) (["DetectorGeo", "PmtBlr", "ChannelGain", "ChannelMapping", "ChannelMask", "PmtNoiseRms", "ChannelPosition", "SipmBaseline", "SipmNoisePDF", "PMTFEMapping", "PMTFELowFrequencyNoise"] ++ extra) (old name)).2) := by
  refine ⟨_, rfl, ?_⟩
  have hload : ∀ tables : List String, loadAll env server old [(name, tables)] = ((loadDB (env name) (server name) tables (old name)).1.map fun d => (name, d), (loadDB (env name) (server name) tables (old name)).2) := by
    intro tables
    have hcons : loadAll env server old [(name, tables)] = match loadDB (env name) (server name) tables (old name) with
      | (ds, .error e) => (ds.map fun d => (name, d), .error e)
      | (ds, .ok _) => (ds.map (fun d => (name, d)) ++ [], .ok ()) := rfl
    rw [hcons]
    cases loadDB (env name) (server name) tables (old name) with
    | mk ds r =>
      cases r with
      | error e => rfl
      | ok u => dsimp only; rw [List.append_nil]
  have hmain : ∀ tables, tableDict.find? (fun x => x.1 == name) = some (name, tables) → main env server old (some name) = loadAll env server old [(name, tables)] := by
    intro tables ht
    unfold main
    dsimp only
    rw [ht]
  simp only [List.mem_cons, List.not_mem_nil, or_false] at h
  rcases h with rfl | rfl | rfl | rfl
  · rw [hmain commonTables rfl, hload]; rfl
  · rw [hmain commonTables rfl, hload]; rfl
  · rw [hmain (commonTables ++ ["Activity", "Efficiency"]) rfl, hload]; rfl
  · rw [hmain commonTables rfl, hload]; rfl

/-! ### The check -/

theorem mem_intervals {G : Type} (filter : Int → Bool) (rows : List (RunRow G)) (x : Int × Option Int) : x ∈ intervals filter rows ↔ Interval filter rows x := by
  unfold intervals Interval
  rw [List.mem_mergeSort, List.mem_dedup, List.mem_map]
  constructor
  · rintro ⟨r, hr, rfl⟩
    obtain ⟨h1, h2⟩ := List.mem_filter.1 hr
    exact ⟨r, h1, h2, rfl, rfl⟩
  · rintro ⟨r, h1, h2, h3, h4⟩
    exact ⟨r, List.mem_filter.2 ⟨h1, h2⟩, Prod.ext h3 h4⟩

theorem runLe_trans (a b c : Int × Option Int) : runLe a b = true → runLe b c = true → runLe a c = true := by
  obtain ⟨a1, a2⟩ := a; obtain ⟨b1, b2⟩ := b; obtain ⟨c1, c2⟩ := c
  unfold runLe
  cases a2 <;> cases b2 <;> cases c2 <;> simp <;> omega

theorem runLe_total (a b : Int × Option Int) : (runLe a b || runLe b a) = true := by
  obtain ⟨a1, a2⟩ := a; obtain ⟨b1, b2⟩ := b
  unfold runLe
  cases a2 <;> cases b2 <;> simp <;> omega

theorem runLe_antisymm (a b : Int × Option Int) : runLe a b = true → runLe b a = true → a = b := by
  obtain ⟨a1, a2⟩ := a; obtain ⟨b1, b2⟩ := b
  unfold runLe
  cases a2 <;> cases b2 <;> simp [Prod.ext_iff] <;> omega

theorem runLe_first {a b : Int × Option Int} (h : runLe a b = true) : a.1 ≤ b.1 := by
  unfold runLe at h
  rw [Bool.or_eq_true, Bool.and_eq_true] at h
  rcases h with h | ⟨h, _⟩
  · exact le_of_lt (of_decide_eq_true h)
  · exact le_of_eq (of_decide_eq_true h)

theorem intervals_sorted {G : Type} (filter : Int → Bool) (rows : List (RunRow G)) : (intervals filter rows).Pairwise fun a b => runLe a b = true :=
  List.pairwise_mergeSort runLe_trans runLe_total _

theorem intervals_nodup {G : Type} (filter : Int → Bool) (rows : List (RunRow G)) : (intervals filter rows).Nodup :=
  ((List.mergeSort_perm _ _).nodup_iff).2 (List.nodup_dedup _)

theorem intervals_eq {G : Type} {filter : Int → Bool} {rows rows' : List (RunRow G)} (h : ∀ x, Interval filter rows x ↔ Interval filter rows' x) : intervals filter rows = intervals filter rows' := by
  have hp : (intervals filter rows).Perm (intervals filter rows') := (List.perm_ext_iff_of_nodup (intervals_nodup ..) (intervals_nodup ..)).2 fun x => by rw [mem_intervals, mem_intervals, h]
  exact hp.eq_of_pairwise (fun a b _ _ h1 h2 => runLe_antisymm a b h1 h2) (intervals_sorted ..) (intervals_sorted ..)

theorem close_eq {a b : Int} (hb : |b| < 10000000) : close a b = true ↔ a = b := by
  unfold close
  rw [decide_eq_true_eq]
  constructor
  · intro h
    have hb' : |(b : ℚ)| < 10000000 := by exact_mod_cast hb
    have h1 : |((a : ℚ) - b)| < 1 := by linarith
    have h2 : |a - b| < 1 := by exact_mod_cast h1
    have := Int.abs_lt_one_iff.1 h2
    omega
  · rintro rfl
    rw [sub_self, abs_zero]
    positivity

theorem all_close {l l' : List (Int × Option Int)} (hs : ∀ x ∈ l', |x.1| < 10000000 ∧ ∀ m, x.2 = some m → |m| < 10000000) :
    (l.length = l'.length ∧ (l.zip l').all (fun x => close x.1.1 x.2.1 && closeOpt x.1.2 x.2.2) = true) ↔ l = l' := by
  induction l generalizing l' with
  | nil =>
    cases l' with
    | nil => simp
    | cons b l' => simp
  | cons a l ih =>
    cases l' with
    | nil => simp
    | cons b l' =>
      obtain ⟨b1, b2⟩ := b
      obtain ⟨a1, a2⟩ := a
      obtain ⟨s1, s2⟩ := hs (b1, b2) (List.mem_cons_self ..)
      have ih' := ih (l' := l') fun x hx => hs x (List.mem_cons_of_mem _ hx)
      have hopt : closeOpt a2 b2 = true ↔ a2 = b2 := by
        cases a2 with
        | none => cases b2 <;> simp [closeOpt]
        | some x =>
          cases b2 with
          | none => simp [closeOpt]
          | some y =>
            unfold closeOpt
            dsimp only
            rw [close_eq (s2 y rfl), Option.some.injEq]
      simp only [List.length_cons, List.zip_cons_cons, List.all_cons, Bool.and_eq_true, List.cons.injEq, Prod.mk.injEq, close_eq s1, hopt, Nat.add_right_cancel_iff]
      rw [← ih']
      tauto

theorem small_intervals {G : Type} {filter : Int → Bool} {rows : List (RunRow G)} (h : SmallRuns rows) : ∀ x ∈ intervals filter rows, |x.1| < 10000000 ∧ ∀ m, x.2 = some m → |m| < 10000000 := by
  intro x hx
  obtain ⟨r, hr, _, h1, h2⟩ := (mem_intervals ..).1 hx
  obtain ⟨s1, s2⟩ := h r hr
  rw [← h1, ← h2]
  exact ⟨s1, s2⟩

/-- C114: the check of a table passes when the server and the copy have the same intervals of runs; it gives the last run in which one starts. -/
theorem check_runs {G : Type} {filter : Int → Bool} {mysql sqlite : List (RunRow G)} (hs : SmallRuns sqlite) :
    ((∀ x, Interval filter mysql x ↔ Interval filter sqlite x) → ∃ last, checkRuns filter mysql sqlite = .ok last ∧ (last = none ↔ ∀ r ∈ sqlite, filter r.sensor = false) ∧
      ∀ m, last = some m → (∃ r ∈ sqlite, filter r.sensor = true ∧ r.minRun = m) ∧ ∀ r ∈ sqlite, filter r.sensor = true → r.minRun ≤ m) ∧
    ((¬ ∀ x, Interval filter mysql x ↔ Interval filter sqlite x) → checkRuns filter mysql sqlite = .error .assertion) := by
  constructor
  · intro h
    have he := intervals_eq h
    refine ⟨_, by unfold checkRuns; rw [if_pos ((all_close (small_intervals hs)).2 he)], ?_, ?_⟩
    · rw [Option.map_eq_none_iff, List.getLast?_eq_none_iff]
      constructor
      · intro hn r hr
        by_contra hf
        have : (r.minRun, r.maxRun) ∈ intervals filter sqlite := (mem_intervals ..).2 ⟨r, hr, by simpa using hf, rfl, rfl⟩
        rw [hn] at this
        cases this
      · intro hn
        rw [List.eq_nil_iff_forall_not_mem]
        intro x hx
        obtain ⟨r, hr, hf, _⟩ := (mem_intervals ..).1 hx
        rw [hn r hr] at hf
        cases hf
    · intro m hm
      obtain ⟨x, hx, rfl⟩ := Option.map_eq_some_iff.1 hm
      obtain ⟨pre, hpre⟩ := List.getLast?_eq_some_iff.1 hx
      have hmem : x ∈ intervals filter sqlite := by rw [hpre]; simp
      obtain ⟨r, hr, hf, h1, _⟩ := (mem_intervals ..).1 hmem
      refine ⟨⟨r, hr, hf, h1⟩, fun r hr hf => ?_⟩
      have hr' : (r.minRun, r.maxRun) ∈ intervals filter sqlite := (mem_intervals ..).2 ⟨r, hr, hf, rfl, rfl⟩
      have hsort := intervals_sorted filter sqlite
      rw [hpre] at hr' hsort
      rcases List.mem_append.1 hr' with h | h
      · exact runLe_first ((List.pairwise_append.1 hsort).2.2 _ h x (by simp))
      · rw [List.mem_singleton] at h
        rw [← h]
  · intro h
    unfold checkRuns
    rw [if_neg]
    intro hc
    have he := (all_close (small_intervals hs)).1 hc
    exact h fun x => by rw [← mem_intervals, ← mem_intervals, he]

/-- C114 (finding): the check of a table does not look at the values, nor at the sensor 100. -/
theorem check_blind {G : Type} {mysql sqlite mysql' : List (RunRow G)} (h : (mysql.filter fun r => decide (r.sensor ≠ 100)).map (fun r => (r.sensor, r.minRun, r.maxRun)) = (mysql'.filter fun r => decide (r.sensor ≠ 100)).map fun r => (r.sensor, r.minRun, r.maxRun)) :
    checkTable mysql sqlite = checkTable mysql' sqlite := by
  have key : ∀ f : Int → Bool, f 100 = false → intervals f mysql = intervals f mysql' := by
    intro f hf
    have hgen : ∀ rows : List (RunRow G), ((rows.filter fun r => f r.sensor).map fun r => (r.minRun, r.maxRun)) =
        (((rows.filter fun r => decide (r.sensor ≠ 100)).map fun r => (r.sensor, r.minRun, r.maxRun)).filter fun y => f y.1).map fun y => (y.2.1, y.2.2) := by
      intro rows
      rw [List.filter_map, List.map_map, List.filter_filter]
      congr 1
      apply List.filter_congr
      intro r _
      by_cases hr : r.sensor = 100
      · rw [hr]; simp [hf]
      · simp [hr]
    unfold intervals
    rw [hgen mysql, hgen mysql', h]
  unfold checkTable checkRuns
  rw [key _ (by decide), key _ (by decide)]

/-! ### Examples -/

/-- A server with two tables; a row is added to the second one after the first question about it. -/
def exServer : Server Int := fun t name => if name = "A" then some ⟨"a", [[1, 2], [3, 4]]⟩ else if name = "B" then some ⟨"b", if t < 3 then [[5, 6]] else [[5, 6], [7, 8]]⟩ else none

def exEnv : Env Int := ⟨true, true, id, fun _ => some 2, fun _ _ => true⟩

example : loadDB exEnv exServer ["A", "B"] [("old", [[9]])] =
    ([[], [("A", [])], [("A", [[1, 2], [3, 4]])], [("A", [[1, 2], [3, 4]]), ("B", [])], [("A", [[1, 2], [3, 4]]), ("B", [[5, 6], [7, 8]])]], .ok ()) := rfl

example : ∃ ds, loadDB exEnv exServer ["A", "B"] [("old", [[9]])] = (ds, .ok ()) :=
  download_works _ rfl (by decide) ⟨rfl, fun i name h => by
    match i with
    | 0 => obtain rfl : "A" = name := by simpa using h
           exact ⟨_, _, 2, rfl, rfl, rfl, by decide, rfl⟩
    | 1 => obtain rfl : "B" = name := by simpa using h
           exact ⟨_, _, 2, rfl, rfl, rfl, by decide, rfl⟩
    | i + 2 => simp at h⟩

/-- A table that is not in the server: the first one is there, whole; the old copy is not. -/
example : loadDB exEnv exServer ["A", "C"] [("old", [[9]])] = ([[], [("A", [])], [("A", [[1, 2], [3, 4]])]], .error (.other "ProgrammingError")) := rfl

example : Underway exServer ["A", "B"] [("A", [[1, 2], [3, 4]]), ("B", [])] := any_time (env := exEnv) (old := []) rfl (by decide)

example : loadDB { exEnv with reachable := false } exServer ["A"] [("A", [[9]])] = ([[]], .error (.other "OperationalError")) := unreachable_server _ _ _ rfl rfl

example : ∃ e, loadDB { exEnv with removable := false } exServer ["A", "B"] [("A", [[9]])] = ([[("A", [[9]])]], .error e) := not_removed _ rfl (by decide)

/-- The tables are copied at different times: a copy may be of no state of the server at all. -/
example : ∃ (server : Server Int) (ds : List (Disk Int)) (d : Disk Int), loadDB exEnv server ["A", "B"] [] = (ds, .ok ()) ∧ ds.getLast? = some d ∧ ¬ ∃ t, ∀ x ∈ d, ∃ u, server t x.1 = some u ∧ x.2 = u.rows :=
  ⟨fun t _ => some ⟨"", if t < 2 then [[0, 0]] else [[1, 1]]⟩, _, _, rfl, rfl, by
    rintro ⟨t, h⟩
    obtain ⟨u, hu, hr⟩ := h ("A", [[0, 0]]) (by decide)
    obtain ⟨v, hv, hs⟩ := h ("B", [[1, 1]]) (by decide)
    by_cases ht : t < 2
    · simp only [ht, if_true, Option.some.injEq] at hv
      rw [← hv] at hs
      exact absurd hs (by decide)
    · simp only [ht, if_false, Option.some.injEq] at hu
      rw [← hu] at hr
      exact absurd hr (by decide)⟩

example : main (fun _ => exEnv) (fun _ => exServer) (fun _ => []) (some "NEW") = ([], .error .keyError) := unknown_database _ _ _ (by decide)

/-- Without arguments and without the server: the first file is emptied, the others are not touched. -/
example : main (fun _ => { exEnv with reachable := false }) (fun _ => exServer) (fun _ => [("A", [[9]])]) none = ([("NEWDB", [])], .error (.other "OperationalError")) := rfl

def exGains : List (RunRow ℚ) := [⟨1, 0, some 10, 20⟩, ⟨1, 11, none, 21⟩, ⟨1000, 0, none, 15⟩, ⟨2, 11, none, 22⟩]

/-- Other gains, and other runs of the sensor 100. -/
def exOther : List (RunRow ℚ) := [⟨1, 0, some 10, 0⟩, ⟨100, 7, none, 9⟩, ⟨1, 11, none, 0⟩, ⟨1000, 0, none, 0⟩, ⟨2, 11, none, 0⟩]

example : checkTable exOther exGains = checkTable exGains exGains := check_blind rfl

example : ∃ last, checkRuns (fun s => decide (s < 100)) exGains exGains = .ok last ∧ last = some 11 := by
  obtain ⟨last, h1, h2, h3⟩ := (check_runs (filter := fun s => decide (s < 100)) (mysql := exGains) (sqlite := exGains) (by
    intro r hr
    simp only [exGains, List.mem_cons, List.not_mem_nil, or_false] at hr
    rcases hr with rfl | rfl | rfl | rfl <;> exact ⟨by decide, by intro m hm; revert hm; simp <;> (rintro rfl; decide)⟩)).1 fun _ => Iff.rfl
  refine ⟨last, h1, ?_⟩
  cases last with
  | none => exact absurd (h2.1 rfl ⟨1, 0, some 10, 20⟩ (by simp [exGains])) (by decide)
  | some m =>
    obtain ⟨⟨r, hr, hf, rfl⟩, hmax⟩ := h3 m rfl
    have := hmax ⟨1, 11, none, 21⟩ (by simp [exGains]) (by decide)
    simp only [exGains, List.mem_cons, List.not_mem_nil, or_false] at hr
    rcases hr with rfl | rfl | rfl | rfl
    · exact absurd this (by decide)
    · rfl
    · exact absurd hf (by decide)
    · rfl

end Verif.DbCopy
