import Verif.Spec.LoadDb
import Verif.Lemmas.Tables
/-!
# C82: tables of sensors of the database; C83: noise of the SiPMs; C84: versions of the radioactivity data
-/
namespace Verif.LoadDb

theorem runOf_eq (run : Int) : runOf run = effective run := by
  rw [runOf, effective]
  split_ifs with h
  · rfl
  · rw [Int.natCast_natAbs]

theorem closedRun_iff {run : Int} {r : Runs} : closedRun run r = true ↔ Closed run r := by
  rw [closedRun, Closed, Bool.and_eq_true, decide_eq_true_iff]
  cases r.hi <;> simp

theorem openRun_iff {run : Int} {r : Runs} : openRun run r = true ↔ Open run r := by
  rw [openRun, Open, Bool.and_eq_true, decide_eq_true_iff]
  cases r.hi <;> simp

theorem likePmt_iff {l : Option String} : likePmt l = true ↔ IsPmtName l := by
  cases l with
  | none => simp [likePmt, IsPmtName]
  | some s =>
    rw [likePmt, decide_eq_true_iff]
    constructor
    · intro h
      match hs : s.toList, h with
      | a :: b :: c :: rest, h =>
        simp only [List.take_succ_cons, List.take_zero, List.map_cons, List.map_nil, List.cons.injEq, and_true] at h
        exact ⟨s, a, b, c, rest, rfl, hs, h⟩
      | [], h => simp at h
      | [a], h => simp at h
      | [a, b], h => simp at h
    · rintro ⟨s', a, b, c, rest, he, hl, h1, h2, h3⟩
      cases he
      rw [hl]
      simp [h1, h2, h3]

theorem mem_left {α : Type} {rows : List α} {p : α → Bool} {o : Option α} : o ∈ left rows p ↔ Found rows (fun a => p a = true) o := by
  rw [left, Found]
  split_ifs with h
  · rw [List.mem_singleton]
    rw [List.filter_eq_nil_iff] at h
    constructor
    · rintro rfl
      exact Or.inl ⟨rfl, h⟩
    · rintro (⟨h1, _⟩ | ⟨a, ha, hp, _⟩)
      · exact h1
      · exact absurd hp (h a ha)
  · rw [List.mem_map]
    constructor
    · rintro ⟨a, ha, rfl⟩
      rw [List.mem_filter] at ha
      exact Or.inr ⟨a, ha.1, ha.2, rfl⟩
    · rintro (⟨_, hn⟩ | ⟨a, ha, hp, rfl⟩)
      · exact absurd (List.filter_eq_nil_iff.2 hn) h
      · exact ⟨a, List.mem_filter.2 ⟨ha, hp⟩, rfl⟩

theorem left_ne_nil {α : Type} (rows : List α) (p : α → Bool) : left rows p ≠ [] := by
  rw [left]
  split_ifs with h
  · simp
  · simpa using h

theorem found_filter {α : Type} {rows : List α} {v p : α → Bool} {V P : α → Prop} (hv : ∀ a, v a = true ↔ V a) (hp : ∀ a, p a = true ↔ P a) {o : Option α} :
    Found (rows.filter v) (fun a => p a = true) o ↔ Found rows (fun a => P a ∧ V a) o := by
  constructor
  · rintro (⟨h1, h2⟩ | ⟨a, ha, h1, h2⟩)
    · refine Or.inl ⟨h1, fun a ha h => h2 a (List.mem_filter.2 ⟨ha, (hv a).2 h.2⟩) ((hp a).2 h.1)⟩
    · rw [List.mem_filter] at ha
      exact Or.inr ⟨a, ha.1, ⟨(hp a).1 h1, (hv a).1 ha.2⟩, h2⟩
  · rintro (⟨h1, h2⟩ | ⟨a, ha, h1, h2⟩)
    · refine Or.inl ⟨h1, fun a ha h => ?_⟩
      rw [List.mem_filter] at ha
      exact h2 a ha.1 ⟨(hp a).1 h, (hv a).1 ha.2⟩
    · exact Or.inr ⟨a, List.mem_filter.2 ⟨ha, (hv a).2 h1.2⟩, (hp a).2 h1.1, h2⟩

theorem found_key {α : Type} {rows : List α} {v : α → Bool} {V : α → Prop} {key : α → Int} {k : Int} (hv : ∀ a, v a = true ↔ V a) {o : Option α} :
    Found (rows.filter v) (fun a => k = key a) o ↔ Found rows (fun a => key a = k ∧ V a) o := by
  have := found_filter (rows := rows) (v := v) (p := fun a => decide (k = key a)) (P := fun a => key a = k) hv (fun a => by rw [decide_eq_true_iff, eq_comm]) (o := o)
  simpa only [decide_eq_true_iff] using this

/-- At most one match in a table with a single valid row per key. -/
theorem filter_short {α κ : Type} [DecidableEq κ] {rows : List α} {v : α → Bool} {V : α → Prop} (hv : ∀ a, v a = true ↔ V a) {key : α → κ} (h : rows.Pairwise fun a b => V a → V b → key a ≠ key b) (k : κ) :
    ((rows.filter v).filter fun a => decide (k = key a)).length ≤ 1 := by
  have hp : ((rows.filter v).filter fun a => decide (k = key a)).Pairwise fun _ _ => False := by
    apply List.Pairwise.imp_of_mem (R := fun a b => V a → V b → key a ≠ key b)
    · intro a b ha hb hab
      rw [List.mem_filter, List.mem_filter, decide_eq_true_iff] at ha hb
      exact hab ((hv a).1 ha.1.2) ((hv b).1 hb.1.2) (ha.2.symm.trans hb.2)
    · exact (h.filter _).filter _
  match hl : (rows.filter v).filter fun a => decide (k = key a), hp with
  | [], _ => simp
  | [_], _ => simp
  | a :: b :: l, hp => exact absurd ((List.pairwise_cons.1 hp).1 b (by simp)) id

theorem left_length {α : Type} {rows : List α} {p : α → Bool} (h : (rows.filter p).length ≤ 1) : (left rows p).length = 1 := by
  rw [left]
  split_ifs with h0
  · rfl
  · rw [List.length_map]
    have := List.length_pos_iff.2 h0
    omega

theorem flatMap_length_le {α β : Type} {l : List α} {f : α → List β} (hl : l.length ≤ 1) (hf : ∀ a ∈ l, (f a).length ≤ 1) : (l.flatMap f).length ≤ 1 := by
  match l, hl with
  | [], _ => simp
  | [a], _ => simpa using hf a (by simp)

theorem sublist_keys {α β κ : Type} {f : α → List β} {g : β → κ} {h : α → κ} : ∀ {l : List α}, (∀ a ∈ l, (f a).length ≤ 1 ∧ ∀ b ∈ f a, g b = h a) → ((l.flatMap f).map g).Sublist (l.map h)
  | [], _ => by simp
  | a :: l, hl => by
    rw [List.flatMap_cons, List.map_append, List.map_cons, ← List.singleton_append (l := l.map h)]
    apply List.Sublist.append
    · obtain ⟨h1, h2⟩ := hl a (by simp)
      match hf : f a with
      | [] => simp
      | [b] => rw [List.map_cons, List.map_nil, h2 b (by rw [hf]; simp)]
      | b :: c :: m => rw [hf] at h1; simp at h1
    · exact sublist_keys fun b hb => hl b (List.mem_cons_of_mem _ hb)

theorem sorted_strict {R : Type} (key : R → Int) (rows : List R) (h : (rows.map key).Nodup) : ((rows.insertionSort fun a b => key a ≤ key b).map key).Pairwise (· < ·) := by
  have hs : (rows.insertionSort fun a b => key a ≤ key b).Pairwise fun a b => key a ≤ key b := by
    haveI : IsTotal R fun a b => key a ≤ key b := ⟨fun a b => le_total _ _⟩
    haveI : IsTrans R fun a b => key a ≤ key b := ⟨fun a b c => le_trans⟩
    exact List.pairwise_insertionSort _ rows
  have hn : ((rows.insertionSort fun a b => key a ≤ key b).map key).Nodup := ((List.perm_insertionSort _ rows).map key).nodup_iff.2 h
  rw [List.pairwise_map]
  rw [List.Nodup, List.pairwise_map] at hn
  exact (hs.and hn).imp fun h => lt_of_le_of_ne h.1 h.2

/-! ### PMTs -/

/-- **C82** The rows of the table of PMTs: each one is made of a position (of a sensor below 100, named PMT) and a channel valid for the run; it is active if the sensor is not masked; and it has the gain (in absolute value), the noise and the
coefficients valid for the run, if they exist; without gain the conversion is 0. -/
theorem pmt_rows (db : Db) (run : Int) (r : PmtRow) : r ∈ dataPMT db run ↔
    ∃ (p : Pos) (m : Mapping) (n : Option NoiseRms) (k : Option Mask) (g : Option Gain) (b : Option Blr),
      (p ∈ db.pos ∧ m ∈ db.mapping) ∧ (p.sensor < 100 ∧ m.sensor = p.sensor) ∧ Closed (effective run) p.runs ∧ Closed (effective run) m.runs ∧ IsPmtName p.label ∧
      Found db.noiseRms (fun n => n.elec = m.elec ∧ Open (effective run) n.runs) n ∧
      Found db.mask (fun k => k.sensor = p.sensor ∧ Closed (effective run) k.runs) k ∧
      Found db.gain (fun g => g.sensor = p.sensor ∧ Closed (effective run) g.runs) g ∧
      Found db.blr (fun b => b.elec = m.elec ∧ Open (effective run) b.runs) b ∧
      r = { sensor := p.sensor, channel := m.elec, label := p.label, active := if k.isSome then 0 else 1, x := p.x, y := p.y, coeffBlr := b.bind (·.blr), coeffC := b.bind (·.c),
            adcToPes := ((g.bind (·.centroid)).map abs).getD 0, adcToPesErr := g.bind (·.errCentroid), noiseRms := n.bind (·.rms), sigma := g.bind (·.sigma), errSigma := g.bind (·.errSigma) } := by
  have hC : ∀ r : Runs, closedRun (runOf run) r = true ↔ Closed (effective run) r := fun r => by rw [runOf_eq]; exact closedRun_iff
  have hO : ∀ r : Runs, openRun (runOf run) r = true ↔ Open (effective run) r := fun r => by rw [runOf_eq]; exact openRun_iff
  have hk : ∀ k : Option Mask, (if k = none then (1 : Nat) else 0) = if k.isSome then 0 else 1 := by intro k; cases k <;> simp
  simp only [dataPMT, List.mem_insertionSort, List.mem_flatMap, List.mem_map, List.mem_filter, Bool.and_eq_true, decide_eq_true_iff, mem_left, likePmt_iff, hC]
  constructor
  · rintro ⟨p, ⟨h1, ⟨h2, h3⟩, h4⟩, m, ⟨h5, h6, h7⟩, n, h8, k, h9, g, h10, b, h11, rfl⟩
    refine ⟨p, m, n, k, g, b, ⟨h1, h5⟩, ⟨h2, h6.symm⟩, h3, h7, h4, ?_, ?_, ?_, ?_, ?_⟩
    · exact (found_key (key := NoiseRms.elec) (fun a => hO a.runs)).1 h8
    · exact (found_key (key := Mask.sensor) (fun a => hC a.runs)).1 h9
    · exact (found_key (key := Gain.sensor) (fun a => hC a.runs)).1 h10
    · exact (found_key (key := Blr.elec) (fun a => hO a.runs)).1 h11
    · rw [hk]
  · rintro ⟨p, m, n, k, g, b, ⟨h1, h5⟩, ⟨h2, h6⟩, h3, h7, h4, h8, h9, h10, h11, rfl⟩
    refine ⟨p, ⟨h1, ⟨h2, h3⟩, h4⟩, m, ⟨h5, h6.symm, h7⟩, n, ?_, k, ?_, g, ?_, b, ?_, ?_⟩
    · exact (found_key (key := NoiseRms.elec) (fun a => hO a.runs)).2 h8
    · exact (found_key (key := Mask.sensor) (fun a => hC a.runs)).2 h9
    · exact (found_key (key := Gain.sensor) (fun a => hC a.runs)).2 h10
    · exact (found_key (key := Blr.elec) (fun a => hO a.runs)).2 h11
    · rw [hk]

theorem found_exists {α : Type} (rows : List α) (P : α → Prop) : ∃ o, Found rows P o := by
  by_cases h : ∃ a ∈ rows, P a
  · obtain ⟨a, ha, hp⟩ := h
    exact ⟨some a, Or.inr ⟨a, ha, hp, rfl⟩⟩
  · push Not at h
    exact ⟨none, Or.inl ⟨rfl, h⟩⟩

/-- **C82** A PMT with position and channel is in the table (whatever the other tables), and no other sensor is. -/
theorem pmt_sensors (db : Db) (run : Int) (s : Int) : s ∈ (dataPMT db run).map PmtRow.sensor ↔
    s < 100 ∧ (∃ p ∈ db.pos, p.sensor = s ∧ Closed (effective run) p.runs ∧ IsPmtName p.label) ∧ ∃ m ∈ db.mapping, m.sensor = s ∧ Closed (effective run) m.runs := by
  rw [List.mem_map]
  constructor
  · rintro ⟨r, hr, rfl⟩
    obtain ⟨p, m, n, k, g, b, ⟨h1, h2⟩, ⟨h3, h4⟩, h5, h6, h7, _, _, _, _, rfl⟩ := (pmt_rows db run r).1 hr
    exact ⟨h3, ⟨p, h1, rfl, h5, h7⟩, m, h2, h4, h6⟩
  · rintro ⟨hs, ⟨p, hp, rfl, h1, h2⟩, m, hm, h3, h4⟩
    obtain ⟨n, hn⟩ := found_exists db.noiseRms fun n => n.elec = m.elec ∧ Open (effective run) n.runs
    obtain ⟨k, hk⟩ := found_exists db.mask fun k => k.sensor = p.sensor ∧ Closed (effective run) k.runs
    obtain ⟨g, hg⟩ := found_exists db.gain fun g => g.sensor = p.sensor ∧ Closed (effective run) g.runs
    obtain ⟨b, hb⟩ := found_exists db.blr fun b => b.elec = m.elec ∧ Open (effective run) b.runs
    exact ⟨_, (pmt_rows db run _).2 ⟨p, m, n, k, g, b, ⟨hp, hm⟩, ⟨hs, h3⟩, h1, h4, h2, hn, hk, hg, hb, rfl⟩, rfl⟩

/-- **C82** If at most one row of each table is valid for each sensor or channel, there is one row for each PMT, in the order of the sensors. -/
theorem pmt_single (db : Db) (run : Int) (h : Single db (effective run)) : ((dataPMT db run).map PmtRow.sensor).Pairwise (· < ·) := by
  have hC : ∀ r : Runs, closedRun (runOf run) r = true ↔ Closed (effective run) r := fun r => by rw [runOf_eq]; exact closedRun_iff
  have hO : ∀ r : Runs, openRun (runOf run) r = true ↔ Open (effective run) r := fun r => by rw [runOf_eq]; exact openRun_iff
  rw [dataPMT]
  apply sorted_strict PmtRow.sensor
  refine List.Sublist.nodup (sublist_keys (h := Pos.sensor) ?_) ?_
  · intro p _
    constructor
    · have hm : (db.mapping.filter fun m => decide (p.sensor = m.sensor) && closedRun (runOf run) m.runs).length ≤ 1 := by
        have := filter_short (key := Mapping.sensor) (fun m => hC m.runs) h.mapping p.sensor
        rwa [List.filter_filter] at this
      refine flatMap_length_le hm ?_
      intro m _
      refine flatMap_length_le (le_of_eq (left_length (filter_short (key := NoiseRms.elec) (fun n => hO n.runs) h.noiseRms m.elec))) ?_
      intro n _
      refine flatMap_length_le (le_of_eq (left_length (filter_short (key := Mask.sensor) (fun n => hC n.runs) h.mask p.sensor))) ?_
      intro k _
      refine flatMap_length_le (le_of_eq (left_length (filter_short (key := Gain.sensor) (fun n => hC n.runs) h.gain p.sensor))) ?_
      intro g _
      rw [List.length_map]
      exact le_of_eq (left_length (filter_short (key := Blr.elec) (fun n => hO n.runs) h.blr m.elec))
    · intro r hr
      simp only [List.mem_flatMap, List.mem_map] at hr
      obtain ⟨m, _, n, _, k, _, g, _, b, _, rfl⟩ := hr
      rfl
  · rw [List.Nodup, List.pairwise_map]
    apply List.Pairwise.imp_of_mem (R := fun a b : Pos => Closed (effective run) a.runs → Closed (effective run) b.runs → a.sensor ≠ b.sensor) _ (h.pos.filter _)
    intro a b ha hb hab
    simp only [List.mem_filter, Bool.and_eq_true, hC] at ha hb
    exact hab ha.2.1.2 hb.2.1.2

/-- **C82** The sign of the run does not matter, and the run 0 is that of the constants for simulation, 3012. -/
theorem run_number (db : Db) (run : Int) : dataPMT db (-run) = dataPMT db run ∧ dataSiPM db (-run) = dataSiPM db run ∧ dataPMT db 0 = dataPMT db 3012 ∧ dataSiPM db 0 = dataSiPM db 3012 := by
  have h : runOf (-run) = runOf run := by
    rw [runOf, runOf]
    split_ifs with h1 h2 h2
    · rfl
    · omega
    · omega
    · rw [Int.natAbs_neg]
  refine ⟨by rw [dataPMT, dataPMT, h], ?_, rfl, rfl⟩
  rw [dataSiPM, dataSiPM, querySiPM, querySiPM, h]

/-! ### SiPMs -/

theorem query_rows (db : Db) (run : Int) (r : SipmRow) : r ∈ querySiPM db run ↔
    ∃ (p : Pos) (g : Gain) (m : Mapping) (k : Option Mask), Listed db (effective run) p g m ∧ Found db.mask (fun k => k.sensor = p.sensor ∧ Closed (effective run) k.runs) k ∧
      r = ⟨p.sensor, m.elec, if k.isSome then 0 else 1, p.x, p.y, g.centroid, g.errCentroid, g.sigma, g.errSigma⟩ := by
  have hC : ∀ r : Runs, closedRun (runOf run) r = true ↔ Closed (effective run) r := fun r => by rw [runOf_eq]; exact closedRun_iff
  have hk : ∀ k : Option Mask, (if k = none then (1 : Nat) else 0) = if k.isSome then 0 else 1 := by intro k; cases k <;> simp
  simp only [querySiPM, Listed, List.mem_insertionSort, List.mem_flatMap, List.mem_map, List.mem_filter, Bool.and_eq_true, decide_eq_true_iff, mem_left, hC]
  constructor
  · rintro ⟨p, ⟨h1, h2, h3⟩, g, ⟨h4, h5, h6⟩, m, ⟨h7, h8, h9⟩, k, h10, rfl⟩
    refine ⟨p, g, m, k, ⟨⟨h1, h4, h7⟩, ⟨h2, h5.symm, h8.symm⟩, h3, h6, h9⟩, ?_, by rw [hk]⟩
    exact (found_key (key := Mask.sensor) (fun a => hC a.runs)).1 h10
  · rintro ⟨p, g, m, k, ⟨⟨h1, h4, h7⟩, ⟨h2, h5, h8⟩, h3, h6, h9⟩, h10, rfl⟩
    refine ⟨p, ⟨h1, h2, h3⟩, g, ⟨h4, h5.symm, h6⟩, m, ⟨h7, h8.symm, h9⟩, k, ?_, by rw [hk]⟩
    exact (found_key (key := Mask.sensor) (fun a => hC a.runs)).2 h10

theorem anySigma_iff (db : Db) (run : Int) : anySigma (querySiPM db run) = true ↔ ¬ NoSigma db (effective run) := by
  have hrow : ∀ P : Option ℚ → Prop, (∀ r ∈ querySiPM db run, P r.sigma) ↔ ∀ p g m, Listed db (effective run) p g m → P g.sigma := by
    intro P
    constructor
    · intro h p g m hl
      obtain ⟨k, hk⟩ := found_exists db.mask fun k => k.sensor = p.sensor ∧ Closed (effective run) k.runs
      exact h _ ((query_rows db run _).2 ⟨p, g, m, k, hl, hk, rfl⟩)
    · intro h r hr
      obtain ⟨p, g, m, k, hl, _, rfl⟩ := (query_rows db run r).1 hr
      exact h p g m hl
  rw [NoSigma, ← hrow fun o => o = none, ← hrow fun o => o = some 0, anySigma, Bool.and_eq_true, Bool.not_eq_true', not_or, ← Bool.not_eq_true, List.all_eq_true, List.any_eq_true]
  simp only [decide_eq_true_iff]
  push Not
  rfl

/-- **C82** The rows of the table of SiPMs: each one is made of a position (of a sensor above 100), a gain and a channel valid for the run; it is active if the sensor is not masked.  If there is no measurement of sigma in the table, it is 2.24 for all. -/
theorem sipm_rows (db : Db) (run : Int) (r : SipmRow) : r ∈ dataSiPM db run ↔
    ∃ (p : Pos) (g : Gain) (m : Mapping) (k : Option Mask) (sigma : Option ℚ), Listed db (effective run) p g m ∧ Found db.mask (fun k => k.sensor = p.sensor ∧ Closed (effective run) k.runs) k ∧
      (NoSigma db (effective run) → sigma = some (56 / 25)) ∧ (¬ NoSigma db (effective run) → sigma = g.sigma) ∧
      r = { sensor := p.sensor, channel := m.elec, active := if k.isSome then 0 else 1, x := p.x, y := p.y, adcToPes := g.centroid, adcToPesErr := g.errCentroid, sigma := sigma, errSigma := g.errSigma } := by
  rw [dataSiPM]
  by_cases hs : NoSigma db (effective run)
  · rw [if_neg (fun h => (anySigma_iff db run).1 h hs), List.mem_map]
    constructor
    · rintro ⟨r', hr', rfl⟩
      obtain ⟨p, g, m, k, h1, h2, rfl⟩ := (query_rows db run r').1 hr'
      exact ⟨p, g, m, k, some (224 / 100), h1, h2, fun _ => by norm_num, fun h => absurd hs h, rfl⟩
    · rintro ⟨p, g, m, k, sigma, h1, h2, h3, _, rfl⟩
      refine ⟨_, (query_rows db run _).2 ⟨p, g, m, k, h1, h2, rfl⟩, ?_⟩
      rw [h3 hs]
      norm_num
  · rw [if_pos ((anySigma_iff db run).2 hs), query_rows]
    constructor
    · rintro ⟨p, g, m, k, h1, h2, rfl⟩
      exact ⟨p, g, m, k, g.sigma, h1, h2, fun h => absurd h hs, fun _ => rfl, rfl⟩
    · rintro ⟨p, g, m, k, sigma, h1, h2, _, h3, rfl⟩
      exact ⟨p, g, m, k, h1, h2, by rw [h3 hs]⟩

theorem sipm_sensors_eq (db : Db) (run : Int) : (dataSiPM db run).map SipmRow.sensor = (querySiPM db run).map SipmRow.sensor := by
  rw [dataSiPM]
  split_ifs
  · rfl
  · rw [List.map_map]; rfl

/-- **C82** A SiPM is in the table if it has position, gain and channel: one without a gain valid for the run is not. -/
theorem sipm_sensors (db : Db) (run : Int) (s : Int) : s ∈ (dataSiPM db run).map SipmRow.sensor ↔
    100 < s ∧ (∃ p ∈ db.pos, p.sensor = s ∧ Closed (effective run) p.runs) ∧ (∃ g ∈ db.gain, g.sensor = s ∧ Closed (effective run) g.runs) ∧ ∃ m ∈ db.mapping, m.sensor = s ∧ Closed (effective run) m.runs := by
  rw [sipm_sensors_eq, List.mem_map]
  constructor
  · rintro ⟨r, hr, rfl⟩
    obtain ⟨p, g, m, k, ⟨⟨h1, h4, h7⟩, ⟨h2, h5, h8⟩, h3, h6, h9⟩, _, rfl⟩ := (query_rows db run r).1 hr
    exact ⟨h2, ⟨p, h1, rfl, h3⟩, ⟨g, h4, h5, h6⟩, m, h7, h8, h9⟩
  · rintro ⟨h2, ⟨p, h1, rfl, h3⟩, ⟨g, h4, h5, h6⟩, m, h7, h8, h9⟩
    obtain ⟨k, hk⟩ := found_exists db.mask fun k => k.sensor = p.sensor ∧ Closed (effective run) k.runs
    exact ⟨_, (query_rows db run _).2 ⟨p, g, m, k, ⟨⟨h1, h4, h7⟩, ⟨h2, h5, h8⟩, h3, h6, h9⟩, hk, rfl⟩, rfl⟩

/-- **C82** If at most one row of each table is valid for each sensor, there is one row for each SiPM, in the order of the sensors. -/
theorem sipm_single (db : Db) (run : Int) (h : Single db (effective run)) : ((dataSiPM db run).map SipmRow.sensor).Pairwise (· < ·) := by
  have hC : ∀ r : Runs, closedRun (runOf run) r = true ↔ Closed (effective run) r := fun r => by rw [runOf_eq]; exact closedRun_iff
  rw [sipm_sensors_eq, querySiPM]
  apply sorted_strict SipmRow.sensor
  refine List.Sublist.nodup (sublist_keys (h := Pos.sensor) ?_) ?_
  · intro p _
    constructor
    · have hm := filter_short (key := Mapping.sensor) (fun m => hC m.runs) h.mapping p.sensor
      rw [List.filter_filter] at hm
      have hg := filter_short (key := Gain.sensor) (fun m => hC m.runs) h.gain p.sensor
      rw [List.filter_filter] at hg
      refine flatMap_length_le hg ?_
      intro g _
      refine flatMap_length_le hm ?_
      intro m _
      rw [List.length_map]
      exact le_of_eq (left_length (filter_short (key := Mask.sensor) (fun n => hC n.runs) h.mask p.sensor))
    · intro r hr
      simp only [List.mem_flatMap, List.mem_map] at hr
      obtain ⟨m, _, n, _, k, _, rfl⟩ := hr
      rfl
  · rw [List.Nodup, List.pairwise_map]
    apply List.Pairwise.imp_of_mem (R := fun a b : Pos => Closed (effective run) a.runs → Closed (effective run) b.runs → a.sensor ≠ b.sensor) _ (h.pos.filter _)
    intro a b ha hb hab
    simp only [List.mem_filter, Bool.and_eq_true, hC] at ha hb
    exact hab ha.2.2 hb.2.2

/-- A small database. -/
def sample : Db where
  pos := [⟨⟨0, some 9999⟩, 1, some "PMT1", 1, 2⟩, ⟨⟨0, some 9999⟩, 0, some "pmt0", 0, 0⟩, ⟨⟨0, some 9999⟩, 2, some "LED", 0, 0⟩, ⟨⟨5000, some 9999⟩, 3, some "PMT3", 0, 0⟩,
    ⟨⟨0, some 9999⟩, 1001, none, 10, 0⟩, ⟨⟨0, some 9999⟩, 1000, none, 0, 0⟩, ⟨⟨0, some 9999⟩, 1002, none, 20, 0⟩, ⟨⟨0, some 9999⟩, 100, some "PMT100", 0, 0⟩]
  mapping := [⟨⟨0, some 9999⟩, 0, 7⟩, ⟨⟨0, some 9999⟩, 1, 8⟩, ⟨⟨0, some 9999⟩, 2, 9⟩, ⟨⟨0, some 9999⟩, 1000, 50⟩, ⟨⟨0, some 9999⟩, 1001, 51⟩, ⟨⟨0, some 9999⟩, 1002, 52⟩, ⟨⟨0, some 9999⟩, 100, 53⟩]
  mask := [⟨⟨0, some 9999⟩, 1001⟩, ⟨⟨0, some 10⟩, 0⟩]
  gain := [⟨⟨0, some 9999⟩, 1, some (-20), some 1, none, none⟩, ⟨⟨0, some 9999⟩, 1000, some 15, none, none, none⟩, ⟨⟨0, some 9999⟩, 1001, some 16, none, none, none⟩, ⟨⟨0, none⟩, 1002, some 17, none, none, none⟩, ⟨⟨0, some 9999⟩, 100, some 1, none, none, none⟩]
  noiseRms := [⟨⟨0, none⟩, 8, some (1 / 2)⟩]
  blr := [⟨⟨0, none⟩, 7, some (1 / 1000), some (1 / 100000)⟩]
  baseline := [⟨⟨0, none⟩, 1001, 5⟩, ⟨⟨0, none⟩, 1000, 4⟩]
  noisePdf := [⟨⟨0, none⟩, 1001, 1, 1 / 4⟩, ⟨⟨0, none⟩, 1000, 1, 1 / 3⟩, ⟨⟨0, none⟩, 1000, 0, 2 / 3⟩, ⟨⟨0, none⟩, 1001, 0, 3 / 4⟩]

example : dataPMT sample (-3500) = [⟨0, 7, some "pmt0", 1, 0, 0, some (1 / 1000), some (1 / 100000), 0, none, none, none, none⟩, ⟨1, 8, some "PMT1", 1, 1, 2, none, none, 20, some 1, some (1 / 2), none, none⟩] := by
  decide +kernel

example : dataSiPM sample 0 = [⟨1000, 50, 1, 0, 0, some 15, none, some (56 / 25), none⟩, ⟨1001, 51, 0, 10, 0, some 16, none, some (56 / 25), none⟩] := by decide +kernel

example : Single sample (effective 0) := by
  constructor <;> simp [sample, effective, Closed, Open]

/-- **C82** If two rows of the mask are valid for a sensor, the sensor is twice in the table; sensor 100 is in none; a gain without last run is not used (the SiPM disappears), and a noise without last run is. -/
theorem repeated_rows :
    ((dataPMT { sample with mask := [⟨⟨0, some 9999⟩, 0⟩, ⟨⟨3000, some 4000⟩, 0⟩] } 3500).map fun r => (r.sensor, r.active)) = [(0, 0), (0, 0), (1, 1)] ∧
    (100 ∉ (dataPMT sample 3500).map PmtRow.sensor ∧ 100 ∉ (dataSiPM sample 3500).map SipmRow.sensor) ∧
    ((dataSiPM sample 3500).map SipmRow.sensor = [1000, 1001]) := by decide +kernel

/-! ### Noise of the SiPMs -/

theorem nodup_keys {α κ : Type} {rows : List α} {v : α → Bool} {V : α → Prop} (hv : ∀ a, v a = true ↔ V a) {key : α → κ} (h : rows.Pairwise fun a b => V a → V b → key a ≠ key b) : ((rows.filter v).map key).Nodup := by
  rw [List.Nodup, List.pairwise_map]
  apply List.Pairwise.imp_of_mem (R := fun a b => V a → V b → key a ≠ key b) _ (h.filter _)
  intro a b ha hb hab
  rw [List.mem_filter, hv] at ha hb
  exact hab ha.2 hb.2

/-- The rows of a table with one row for each pair of keys, in order. -/
theorem sorted_grid (N : List NoisePdf) (S : List Int) (E : List ℚ) (hN : (N.map fun n => (n.sensor, n.bin)).Nodup) (hS : S.Pairwise (· < ·)) (hE : E.Pairwise (· < ·))
    (hin : ∀ n ∈ N, n.sensor ∈ S ∧ n.bin ∈ E) (hall : ∀ s ∈ S, ∀ e ∈ E, ∃ n ∈ N, n.sensor = s ∧ n.bin = e) :
    ∃ pick : Int → ℚ → NoisePdf, (∀ s ∈ S, ∀ e ∈ E, pick s e ∈ N ∧ (pick s e).sensor = s ∧ (pick s e).bin = e) ∧ N.insertionSort pdfLe = S.flatMap fun s => E.map (pick s) := by
  classical
  let pick : Int → ℚ → NoisePdf := fun s e => if h : ∃ n ∈ N, n.sensor = s ∧ n.bin = e then h.choose else ⟨⟨0, none⟩, s, e, 0⟩
  have hp : ∀ s ∈ S, ∀ e ∈ E, pick s e ∈ N ∧ (pick s e).sensor = s ∧ (pick s e).bin = e := by
    intro s hs e he
    have h := hall s hs e he
    simp only [pick, dif_pos h]
    exact h.choose_spec
  refine ⟨pick, hp, ?_⟩
  have hinj : ∀ a ∈ N, ∀ b ∈ N, a.sensor = b.sensor → a.bin = b.bin → a = b := fun a ha b hb h1 h2 => List.inj_on_of_nodup_map hN ha hb (Prod.ext h1 h2)
  have hT : (S.flatMap fun s => E.map (pick s)).Pairwise fun a b => pdfLe a b ∧ a ≠ b := by
    rw [List.pairwise_flatMap]
    constructor
    · intro s hs
      rw [List.pairwise_map]
      refine List.Pairwise.imp_of_mem ?_ hE
      intro e e' he he' hlt
      obtain ⟨_, h2, h3⟩ := hp s hs e he
      obtain ⟨_, h2', h3'⟩ := hp s hs e' he'
      refine ⟨Or.inr ⟨h2.trans h2'.symm, by rw [h3, h3']; exact le_of_lt hlt⟩, ?_⟩
      intro h
      rw [h, h3'] at h3
      exact absurd h3 (ne_of_gt hlt)
    · refine List.Pairwise.imp_of_mem ?_ hS
      intro s s' hs hs' hlt a ha b hb
      obtain ⟨e, he, rfl⟩ := List.mem_map.1 ha
      obtain ⟨e', he', rfl⟩ := List.mem_map.1 hb
      obtain ⟨_, h2, _⟩ := hp s hs e he
      obtain ⟨_, h2', _⟩ := hp s' hs' e' he'
      refine ⟨Or.inl (by rw [h2, h2']; exact hlt), ?_⟩
      intro h
      rw [h, h2'] at h2
      exact absurd h2 (ne_of_gt hlt)
  have hmem : ∀ n, n ∈ N ↔ n ∈ S.flatMap fun s => E.map (pick s) := by
    intro n
    rw [List.mem_flatMap]
    constructor
    · intro hn
      obtain ⟨h1, h2⟩ := hin n hn
      obtain ⟨g1, g2, g3⟩ := hp _ h1 _ h2
      exact ⟨n.sensor, h1, List.mem_map.2 ⟨n.bin, h2, hinj _ g1 _ hn g2 g3⟩⟩
    · rintro ⟨s, hs, h⟩
      obtain ⟨e, he, rfl⟩ := List.mem_map.1 h
      exact (hp s hs e he).1
  have hperm : (N.insertionSort pdfLe).Perm (S.flatMap fun s => E.map (pick s)) := by
    refine (List.perm_insertionSort _ N).trans ?_
    rw [List.perm_ext_iff_of_nodup (List.Nodup.of_map _ hN) (hT.imp fun h => h.2)]
    exact hmem
  have hsort : (N.insertionSort pdfLe).Pairwise pdfLe := by
    haveI : IsTotal NoisePdf pdfLe := ⟨fun a b => by
      rw [pdfLe, pdfLe]
      rcases lt_trichotomy a.sensor b.sensor with h | h | h
      · exact Or.inl (Or.inl h)
      · rcases le_total a.bin b.bin with h' | h'
        · exact Or.inl (Or.inr ⟨h, h'⟩)
        · exact Or.inr (Or.inr ⟨h.symm, h'⟩)
      · exact Or.inr (Or.inl h)⟩
    haveI : IsTrans NoisePdf pdfLe := ⟨fun a b c h1 h2 => by
      rw [pdfLe] at h1 h2 ⊢
      rcases h1 with h1 | ⟨h1, h1'⟩ <;> rcases h2 with h2 | ⟨h2, h2'⟩
      · exact Or.inl (lt_trans h1 h2)
      · exact Or.inl (by omega)
      · exact Or.inl (by omega)
      · exact Or.inr ⟨h1.trans h2, le_trans h1' h2'⟩⟩
    exact List.pairwise_insertionSort _ N
  refine List.Perm.eq_of_pairwise ?_ hsort (hT.imp fun h => h.1) hperm
  intro a b ha hb h1 h2
  have ha' := (List.mem_insertionSort _).1 ha
  have hb' := (hmem b).2 hb
  rw [pdfLe] at h1 h2
  have hs : a.sensor = b.sensor := by omega
  refine hinj a ha' b hb' hs ?_
  rcases h1 with h1 | ⟨_, h1⟩
  · omega
  · rcases h2 with h2 | ⟨_, h2⟩
    · omega
    · exact le_antisymm h1 h2

/-- **C83** If the tables of noise are complete for the run, the bins are all the energies, in order, and for each sensor (in order) its baseline and for each bin its probability. -/
theorem noise_spec (db : Db) (run : Int) (h : Complete db |run|) :
    ∃ noise bins baselines, sipmNoise db run = .ok (noise, bins, baselines) ∧
      bins.Pairwise (· < ·) ∧ (∀ e, e ∈ bins ↔ ∃ n ∈ db.noisePdf, Open |run| n.runs ∧ n.bin = e) ∧
      ∃ sensors : List Int, sensors.Pairwise (· < ·) ∧ (∀ s, s ∈ sensors ↔ ∃ b ∈ db.baseline, Open |run| b.runs ∧ b.sensor = s) ∧
        baselines.length = sensors.length ∧ noise.rows.length = sensors.length ∧ noise.ncols = bins.length ∧
        ∀ (i : Nat) (s : Int), sensors[i]? = some s → (∃ b ∈ db.baseline, Open |run| b.runs ∧ b.sensor = s ∧ baselines[i]? = some b.energy) ∧
          ∃ row, noise.rows[i]? = some row ∧ row.length = bins.length ∧ ∀ (j : Nat) (e : ℚ), bins[j]? = some e → ∃ n ∈ db.noisePdf, Open |run| n.runs ∧ n.sensor = s ∧ n.bin = e ∧ row[j]? = some n.prob := by
  have hO : ∀ r : Runs, openRun run.natAbs r = true ↔ Open |run| r := fun r => by rw [← Int.natCast_natAbs]; exact openRun_iff
  have hB := nodup_keys (key := Baseline.sensor) (fun b => hO b.runs) h.baseline
  have hN : ((db.noisePdf.filter fun n => openRun run.natAbs n.runs).map fun n => (n.sensor, n.bin)).Nodup := by
    apply nodup_keys (fun n : NoisePdf => hO n.runs)
    exact h.single.imp fun hab ha hb he => hab ha hb ⟨congrArg Prod.fst he, congrArg Prod.snd he⟩
  have hS := sorted_strict Baseline.sensor _ hB
  have hEs : (((db.noisePdf.filter fun n => openRun run.natAbs n.runs).map NoisePdf.bin).dedup.insertionSort (· ≤ ·)).Pairwise (· < ·) := by
    have h1 := List.pairwise_insertionSort (α := ℚ) (· ≤ ·) ((db.noisePdf.filter fun n => openRun run.natAbs n.runs).map NoisePdf.bin).dedup
    have h2 : (((db.noisePdf.filter fun n => openRun run.natAbs n.runs).map NoisePdf.bin).dedup.insertionSort (· ≤ ·)).Nodup := (List.perm_insertionSort _ _).nodup_iff.2 (List.nodup_dedup _)
    exact (h1.and h2).imp fun h => lt_of_le_of_ne h.1 h.2
  have hEm : ∀ e, e ∈ ((db.noisePdf.filter fun n => openRun run.natAbs n.runs).map NoisePdf.bin).dedup.insertionSort (· ≤ ·) ↔ ∃ n ∈ db.noisePdf, Open |run| n.runs ∧ n.bin = e := by
    intro e
    rw [List.mem_insertionSort, List.mem_dedup, List.mem_map]
    constructor
    · rintro ⟨n, hn, rfl⟩
      rw [List.mem_filter, hO] at hn
      exact ⟨n, hn.1, hn.2, rfl⟩
    · rintro ⟨n, h1, h2, rfl⟩
      exact ⟨n, List.mem_filter.2 ⟨h1, (hO _).2 h2⟩, rfl⟩
  have hSm : ∀ s, s ∈ ((db.baseline.filter fun b => openRun run.natAbs b.runs).insertionSort fun a b => a.sensor ≤ b.sensor).map Baseline.sensor ↔ ∃ b ∈ db.baseline, Open |run| b.runs ∧ b.sensor = s := by
    intro s
    rw [List.mem_map]
    constructor
    · rintro ⟨b, hb, rfl⟩
      rw [List.mem_insertionSort, List.mem_filter, hO] at hb
      exact ⟨b, hb.1, hb.2, rfl⟩
    · rintro ⟨b, h1, h2, rfl⟩
      exact ⟨b, by rw [List.mem_insertionSort, List.mem_filter, hO]; exact ⟨h1, h2⟩, rfl⟩
  obtain ⟨pick, hp1, hp2⟩ := sorted_grid _ _ _ hN hS hEs (by
    intro n hn
    rw [List.mem_filter, hO] at hn
    rw [hSm, hEm]
    exact ⟨h.known n hn.1 hn.2, n, hn.1, hn.2, rfl⟩) (by
    intro s hs e he
    rw [hSm] at hs
    rw [hEm] at he
    obtain ⟨b, hb1, hb2, rfl⟩ := hs
    obtain ⟨n, hn1, hn2, rfl⟩ := he
    obtain ⟨n', h1, h2, h3, h4⟩ := h.all b hb1 hb2 n hn1 hn2
    exact ⟨n', List.mem_filter.2 ⟨h1, (hO _).2 h2⟩, h3, h4⟩)
  generalize hSd : ((db.baseline.filter fun b => openRun run.natAbs b.runs).insertionSort fun a b => a.sensor ≤ b.sensor).map Baseline.sensor = S at *
  generalize hEd : ((db.noisePdf.filter fun n => openRun run.natAbs n.runs).map NoisePdf.bin).dedup.insertionSort (· ≤ ·) = E at *
  have hl1 : (db.baseline.filter fun b => openRun run.natAbs b.runs).length = S.length := by rw [← hSd, List.length_map, List.length_insertionSort]
  have hl2 : ((db.noisePdf.filter fun n => openRun run.natAbs n.runs).map NoisePdf.bin).dedup.length = E.length := by rw [← hEd, List.length_insertionSort]
  have hres : PMapsIO.reshape S.length E.length ((S.flatMap fun s => E.map (pick s)).map NoisePdf.prob) = .ok ⟨S.map fun s => E.map fun e => (pick s e).prob, E.length⟩ := by
    have := PMapsIO.reshape_flatten (n := E.length) (S.map fun s => E.map fun e => (pick s e).prob) (by
      intro r hr
      obtain ⟨s, _, rfl⟩ := List.mem_map.1 hr
      rw [List.length_map])
    rw [List.length_map] at this
    rw [← this]
    congr 1
    rw [List.flatMap_def, List.map_flatten, List.map_map]
    congr 1
    apply List.map_congr_left
    intro s _
    simp only [Function.comp_apply, List.map_map]
    rfl
  refine ⟨⟨S.map fun s => E.map fun e => (pick s e).prob, E.length⟩, E, ((db.baseline.filter fun b => openRun run.natAbs b.runs).insertionSort fun a b => a.sensor ≤ b.sensor).map Baseline.energy,
    by rw [sipmNoise, hl1, hl2, hp2, hres]; simp only [hEd], hEs, hEm, S, hS, hSm, ?_, ?_, rfl, ?_⟩
  · rw [List.length_map, List.length_insertionSort, hl1]
  · simp
  · intro i s hi
    constructor
    · rw [← hSd, List.getElem?_map] at hi
      cases hb : ((db.baseline.filter fun b => openRun run.natAbs b.runs).insertionSort fun a b => a.sensor ≤ b.sensor)[i]? with
      | none => rw [hb] at hi; cases hi
      | some b =>
        rw [hb] at hi
        have hbm := List.mem_of_getElem? hb
        rw [List.mem_insertionSort, List.mem_filter, hO] at hbm
        refine ⟨b, hbm.1, hbm.2, Option.some.inj hi, ?_⟩
        rw [List.getElem?_map, hb]
        rfl
    · refine ⟨E.map fun e => (pick s e).prob, by rw [List.getElem?_map, hi]; rfl, by rw [List.length_map], ?_⟩
      intro j e hj
      obtain ⟨g1, g2, g3⟩ := hp1 s (List.mem_of_getElem? hi) e (List.mem_of_getElem? hj)
      rw [List.mem_filter, hO] at g1
      exact ⟨pick s e, g1.1, g1.2, g2, g3, by rw [List.getElem?_map, hj]; rfl⟩

example : sipmNoise sample (-1) = .ok (⟨[[2 / 3, 1 / 3], [3 / 4, 1 / 4]], 2⟩, [0, 1], [4, 5]) := by decide +kernel

example : Complete sample 1 := by
  constructor
  · simp [sample]
  · simp [sample]
  · simp [sample, Open]
  · simp [sample, Open]

/-- **C83** An incomplete table is noticed only by the number of rows: `ValueError` if it is not the number of baselines times that of bins, and if the numbers agree the noise of one sensor can be given to another. -/
theorem noise_incomplete :
    (∀ db run, (db.noisePdf.filter fun n => openRun |run| n.runs).length ≠ (db.baseline.filter fun b => openRun |run| b.runs).length * ((db.noisePdf.filter fun n => openRun |run| n.runs).map NoisePdf.bin).dedup.length →
      sipmNoise db run = .error .valueError) ∧
    sipmNoise { sample with baseline := [⟨⟨0, none⟩, 1000, 4⟩, ⟨⟨0, none⟩, 2000, 5⟩] } 1 = sipmNoise sample 1 := by
  constructor
  · intro db run hne
    rw [sipmNoise, PMapsIO.reshape, if_pos]
    rw [List.length_map, List.length_insertionSort, Int.natCast_natAbs]
    exact hne
  · decide +kernel

/-- **C83** The constants of simulation (run 0) are not used for the noise, although they are for the sensors. -/
theorem noise_run_zero :
    ∃ db : Db, (dataSiPM db 0 = dataSiPM db 3012 ∧ (dataSiPM db 0).length = 1) ∧ sipmNoise db 3012 = .ok (⟨[[1]], 1⟩, [0], [4]) ∧ sipmNoise db 0 = .ok (⟨[], 0⟩, [], []) := by
  refine ⟨⟨[⟨⟨3000, some 9999⟩, 1000, none, 0, 0⟩], [⟨⟨3000, some 9999⟩, 1000, 50⟩], [], [⟨⟨3000, some 9999⟩, 1000, some 15, none, none, none⟩], [], [], [⟨⟨3000, none⟩, 1000, 4⟩], [⟨⟨3000, none⟩, 1000, 0, 1⟩]⟩, ?_⟩
  decide +kernel

/-! ### Versions -/

theorem best_spec (rows : List Versioned) (init : Option Versioned) :
    match rows.foldl better init with
    | none => init = none ∧ rows = []
    | some b => (b ∈ rows ∨ init = some b) ∧ (∀ r ∈ rows, r.version ≤ b.version) ∧ ∀ c, init = some c → c.version ≤ b.version := by
  induction rows generalizing init with
  | nil => cases init <;> simp
  | cons r rows ih =>
    rw [List.foldl_cons]
    cases init with
    | none =>
      have := ih (some r)
      simp only [better]
      split
      · next h => rw [h] at this; simp at this
      · next b h =>
        rw [h] at this
        obtain ⟨h1, h2, h3⟩ := this
        refine ⟨Or.inl ?_, ?_, by simp⟩
        · rcases h1 with h1 | h1
          · exact List.mem_cons_of_mem _ h1
          · rw [Option.some.inj h1]; simp
        · intro q hq
          rcases List.mem_cons.1 hq with rfl | hq
          · exact h3 _ rfl
          · exact h2 q hq
    | some c =>
      simp only [better]
      by_cases hc : c.version < r.version
      · rw [if_pos hc]
        have := ih (some r)
        split
        · next h => rw [h] at this; simp at this
        · next b h =>
          rw [h] at this
          obtain ⟨h1, h2, h3⟩ := this
          refine ⟨Or.inl ?_, ?_, ?_⟩
          · rcases h1 with h1 | h1
            · exact List.mem_cons_of_mem _ h1
            · rw [Option.some.inj h1]; simp
          · intro q hq
            rcases List.mem_cons.1 hq with rfl | hq
            · exact h3 _ rfl
            · exact h2 q hq
          · intro d hd
            cases hd
            exact le_trans (le_of_lt hc) (h3 _ rfl)
      · rw [if_neg hc]
        have := ih (some c)
        split
        · next h => rw [h] at this; simp at this
        · next b h =>
          rw [h] at this
          obtain ⟨h1, h2, h3⟩ := this
          refine ⟨?_, ?_, h3⟩
          · rcases h1 with h1 | h1
            · exact Or.inl (List.mem_cons_of_mem _ h1)
            · exact Or.inr h1
          · intro q hq
            rcases List.mem_cons.1 hq with rfl | hq
            · exact le_trans (not_lt.1 hc) (h3 _ rfl)
            · exact h2 q hq

/-- **C84** For each volume and isotope with some version not above the one asked there is one entry, with the value of the largest of these versions. -/
theorem version_spec (rows : List Versioned) (version : Int) (hu : rows.Pairwise fun a b => ¬ (a.volume = b.volume ∧ a.isotope = b.isotope ∧ a.version = b.version)) :
    ((lastVersion rows version).map fun e => (e.1, e.2.1)).Nodup ∧
    ∀ v i x, (v, i, x) ∈ lastVersion rows version ↔
      ∃ r ∈ rows, (r.volume = v ∧ r.isotope = i ∧ r.value = x) ∧ r.version ≤ version ∧ ∀ r' ∈ rows, r'.volume = v → r'.isotope = i → r'.version ≤ version → r'.version ≤ r.version := by
  have hfound : ∀ k : String × String, k ∈ ((rows.filter fun r => decide (r.version ≤ version)).map fun r => (r.volume, r.isotope)).dedup →
      ∃ b : Versioned, ((rows.filter fun r => decide (r.version ≤ version)).filter fun r => decide ((r.volume, r.isotope) = k)).foldl better none = some b ∧ b ∈ rows ∧ b.version ≤ version ∧ (b.volume, b.isotope) = k ∧
        ∀ r' ∈ rows, r'.version ≤ version → (r'.volume, r'.isotope) = k → r'.version ≤ b.version := by
    intro k hk
    have hb := best_spec ((rows.filter fun r => decide (r.version ≤ version)).filter fun r => decide ((r.volume, r.isotope) = k)) none
    split at hb
    · next h =>
      exfalso
      rw [List.mem_dedup, List.mem_map] at hk
      obtain ⟨r, hr, he⟩ := hk
      rw [List.filter_eq_nil_iff] at hb
      exact hb.2 r hr (decide_eq_true he)
    · next b h =>
      obtain ⟨h1, h2, _⟩ := hb
      rcases h1 with h1 | h1
      · rw [List.mem_filter, List.mem_filter, decide_eq_true_iff, decide_eq_true_iff] at h1
        exact ⟨b, h, h1.1.1, h1.1.2, h1.2, fun r' a1 a2 a3 => h2 r' (List.mem_filter.2 ⟨List.mem_filter.2 ⟨a1, decide_eq_true a2⟩, decide_eq_true a3⟩)⟩
      · cases h1
  constructor
  · rw [lastVersion, List.map_filterMap]
    have hsome : ∀ l : List (String × String), (∀ k ∈ l, k ∈ ((rows.filter fun r => decide (r.version ≤ version)).map fun r => (r.volume, r.isotope)).dedup) →
        (l.filterMap fun k => Option.map (fun e : String × String × ℚ => (e.1, e.2.1)) ((((rows.filter fun r => decide (r.version ≤ version)).filter fun r => decide ((r.volume, r.isotope) = k)).foldl better none).map fun r => (k.1, k.2, r.value))) = l := by
      intro l
      induction l with
      | nil => intro _; rfl
      | cons k l ih =>
        intro hl
        obtain ⟨b, hb, _⟩ := hfound k (hl k (by simp))
        rw [List.filterMap_cons, hb]
        simp only [Option.map_some]
        rw [ih fun k' hk' => hl k' (List.mem_cons_of_mem _ hk')]
    rw [hsome _ fun k hk => hk]
    exact List.nodup_dedup _
  · intro v i x
    rw [lastVersion, List.mem_filterMap]
    constructor
    · rintro ⟨k, hk, h⟩
      obtain ⟨b, hb, h1, h2, h3, h4⟩ := hfound k hk
      rw [hb, Option.map_some, Option.some.injEq] at h
      cases k with
      | mk kv ki =>
        simp only [Prod.mk.injEq] at h h3
        obtain ⟨rfl, rfl, rfl⟩ := h
        exact ⟨b, h1, ⟨h3.1, h3.2, rfl⟩, h2, fun r' a1 a2 a3 a4 => h4 r' a1 a4 (Prod.ext a2 a3)⟩
    · rintro ⟨r, hr, ⟨rfl, rfl, rfl⟩, hv, hmax⟩
      have hk : (r.volume, r.isotope) ∈ ((rows.filter fun r => decide (r.version ≤ version)).map fun r => (r.volume, r.isotope)).dedup := by
        rw [List.mem_dedup]
        exact List.mem_map.2 ⟨r, List.mem_filter.2 ⟨hr, decide_eq_true hv⟩, rfl⟩
      obtain ⟨b, hb, h1, h2, h3, h4⟩ := hfound _ hk
      refine ⟨_, hk, ?_⟩
      rw [hb, Option.map_some]
      have hbr : b = r := by
        by_contra hne
        have hver : b.version = r.version := le_antisymm (hmax b h1 (congrArg Prod.fst h3) (congrArg Prod.snd h3) h2) (h4 r hr hv rfl)
        haveI : Std.Symm fun a b : Versioned => ¬ (a.volume = b.volume ∧ a.isotope = b.isotope ∧ a.version = b.version) := ⟨fun a b hab hba => hab ⟨hba.1.symm, hba.2.1.symm, hba.2.2.symm⟩⟩
        exact hu.forall h1 hr hne ⟨congrArg Prod.fst h3, congrArg Prod.snd h3, hver⟩
      rw [hbr]

example : lastVersion [⟨"ANODE", "Bi214", 1, 0⟩, ⟨"ANODE", "Bi214", 2, 1⟩, ⟨"ANODE", "Bi214", 3, 3⟩, ⟨"VESSEL", "Tl208", 5, 2⟩, ⟨"VESSEL", "Bi214", 7, 3⟩] 2 = [("ANODE", "Bi214", 2), ("VESSEL", "Tl208", 5)] := by decide +kernel

/-- **C84** Without version, the largest one of the activities is used for both tables. -/
theorem version_default (activity efficiency : List Versioned) (hne : activity ≠ []) (h0 : ∀ r ∈ activity, 0 ≤ r.version) :
    ∃ r ∈ activity, (∀ r' ∈ activity, r'.version ≤ r.version) ∧ radioactivity activity efficiency none = radioactivity activity efficiency (some r.version) := by
  have hspec : ∀ (l : List Int) (m : Int), m ≤ l.foldl max m ∧ (∀ v ∈ l, v ≤ l.foldl max m) ∧ (l.foldl max m = m ∨ l.foldl max m ∈ l) := by
    intro l
    induction l with
    | nil => intro m; simp
    | cons a l ih =>
      intro m
      obtain ⟨h1, h2, h3⟩ := ih (max m a)
      rw [List.foldl_cons]
      refine ⟨le_trans (le_max_left _ _) h1, ?_, ?_⟩
      · intro v hv
        rcases List.mem_cons.1 hv with rfl | hv
        · exact le_trans (le_max_right _ _) h1
        · exact h2 v hv
      · rcases h3 with h3 | h3
        · rcases max_choice m a with hm | hm
          · exact Or.inl (h3.trans hm)
          · exact Or.inr (by rw [h3, hm]; simp)
        · exact Or.inr (List.mem_cons_of_mem _ h3)
  obtain ⟨_, h2, h3⟩ := hspec (activity.map Versioned.version) (-1)
  obtain ⟨a, ha⟩ := List.exists_mem_of_ne_nil _ hne
  rcases h3 with h3 | h3
  · have := h2 a.version (List.mem_map_of_mem ha)
    have := h0 a ha
    omega
  · obtain ⟨r, hr, he⟩ := List.mem_map.1 h3
    refine ⟨r, hr, ?_, ?_⟩
    · intro r' hr'
      rw [he]
      exact h2 _ (List.mem_map_of_mem hr')
    · rw [radioactivity, radioactivity, Option.getD_none, Option.getD_some, defaultVersion, he]

/-- **C84** So an efficiency newer than all the activities is not used by default. -/
theorem version_efficiency : radioactivity [⟨"ANODE", "Bi214", 1, 0⟩] [⟨"ANODE", "Bi214", 10, 0⟩, ⟨"ANODE", "Bi214", 20, 1⟩] none = ([("ANODE", "Bi214", 1)], [("ANODE", "Bi214", 10)]) := by decide +kernel

end Verif.LoadDb
