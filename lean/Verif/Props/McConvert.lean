import Verif.Spec.McConvert
import Verif.Props.McInfoOld
import Verif.Props.Binning
/-!
# C131: the Monte Carlo truth in both formats, and copies of files of the old one
-/
namespace Verif.McConvert
open Verif.Binning (Text)

theorem sameHit (r : Int × OldHit) : SameHit r.1 r.2 (newHit r) where
  event := rfl
  particle := rfl
  hit := rfl
  position := rfl
  time := rfl
  energy := rfl
  label := by
    refine ⟨fun h => List.take_of_length_le h, fun h => ⟨r.2.label.drop 13, ?_, (List.take_append_drop 13 _).symm, ?_⟩⟩
    · intro hn
      rw [List.drop_eq_nil_iff] at hn
      omega
    · change (r.2.label.take 13).length = 13
      rw [List.length_take]
      omega

theorem sameParticle (r : Int × OldParticle) : SameParticle r.1 r.2 (newParticle r) where
  event := rfl
  id := rfl
  name := fun h => List.take_of_length_le h
  primary := by simp [newParticle]
  mother := rfl
  initial := rfl
  final := rfl
  initialVolume := fun h => List.take_of_length_le h
  finalVolume := fun h => List.take_of_length_le h
  momentum := rfl
  energy := rfl
  creator := fun h => List.take_of_length_le h
  lacking := ⟨rfl, rfl, rfl, rfl, rfl⟩

theorem sameSignal (r : Int × OldSignal) : SameSignal r.1 r.2 (newSignal r) := ⟨rfl, rfl, rfl, rfl⟩

theorem copyTable_ok {α β : Type} {t : Option α} {load : Except PyErr β} {r : Option β} (h : copyTable t load = .ok r) :
    (t = none → r = none) ∧ (∀ x, t = some x → ∃ l, load = .ok l ∧ r = some l) := by
  cases t with
  | none => cases h; exact ⟨fun _ => rfl, fun x hx => by cases hx⟩
  | some x =>
    cases load with
    | error e => cases h
    | ok l =>
      cases h
      exact ⟨fun hn => (by cases hn), fun y _ => ⟨l, rfl, rfl⟩⟩

theorem convert_cases {float unit : Text → Option ℚ} {f : OldFile} {which : Option (List Int)} {db : Option (List Nat)} {g : NewFile} (h : convert float unit f which db = .ok g) :
    ∃ config hits particles positions response, copyTable f.config (loadConfig (.old f)) = .ok config ∧ copyTable f.hits (loadHits (.old f)) = .ok hits ∧
      copyTable f.particles (loadParticles (.old f)) = .ok particles ∧ copyTable f.positions (loadPositions float unit (.old f) db) = .ok positions ∧
      copyTable f.waveforms (loadRaw (.old f)) = .ok response ∧
      g.config = config.map (fun c => c.map fun r => (0, r)) ∧ g.mapping = some ((wanted f which).map fun e => (0, e)) ∧ g.generators = select Prod.fst (wanted f which) f.generators ∧
      g.hits = select Hit.event (wanted f which) hits ∧ g.particles = select Particle.event (wanted f which) particles ∧ g.positions = positions ∧
      g.response = select McInfo.SnsRow.event (wanted f which) response := by
  have h : readTables float unit f (wanted f which) db = .ok g := by cases which <;> exact h
  unfold readTables at h
  cases h1 : copyTable f.config (loadConfig (.old f)) with
  | error e => simp only [h1] at h; cases h
  | ok config =>
  cases h2 : copyTable f.hits (loadHits (.old f)) with
  | error e => simp only [h1, h2] at h; cases h
  | ok hits =>
  cases h3 : copyTable f.particles (loadParticles (.old f)) with
  | error e => simp only [h1, h2, h3] at h; cases h
  | ok particles =>
  cases h4 : copyTable f.positions (loadPositions float unit (.old f) db) with
  | error e => simp only [h1, h2, h3, h4] at h; cases h
  | ok positions =>
  cases h5 : copyTable f.waveforms (loadRaw (.old f)) with
  | error e => simp only [h1, h2, h3, h4, h5] at h; cases h
  | ok response =>
  simp only [h1, h2, h3, h4, h5] at h
  cases h
  exact ⟨_, _, _, _, _, rfl, rfl, rfl, rfl, rfl, rfl, rfl, rfl, rfl, rfl, rfl, rfl⟩

theorem oldRows_some {α β : Type} {last : Extent → Int} {cols : Int × α → β} {f : OldFile} {t : Option (List α)} {l : List β} (h : oldRows last cols f t = .ok l) : ∃ rows, t = some rows := by
  cases t with
  | none => cases h
  | some rows => exact ⟨rows, rfl⟩

theorem need_ok {α : Type} {t : Option α} {x : α} (h : need t = .ok x) : t = some x := by
  cases t with
  | none => cases h
  | some y => cases h; rfl

theorem times_filter (evts : List Int) (bins : List (Text × ℚ)) (pos : List (Nat × Text)) : ∀ resp : List McInfo.SnsRow,
    Binning.times (resp.filter fun r => decide (r.event ∈ evts)) bins pos = (Binning.times resp bins pos).filter fun t => decide (t.event ∈ evts)
  | [] => rfl
  | r :: rs => by
    have ih := times_filter evts bins pos rs
    unfold Binning.times McInfo.convertTimes at ih ⊢
    rw [List.flatMap_cons, List.filter_append, ← ih]
    by_cases h : r.event ∈ evts
    · rw [List.filter_cons_of_pos (by simpa using h), List.flatMap_cons]
      congr 1
      symm
      rw [List.filter_eq_self]
      intro t ht
      obtain ⟨p, _, rfl⟩ := List.mem_map.1 ht
      simpa using h
    · rw [List.filter_cons_of_neg (by simpa using h)]
      conv_lhs => rw [← List.nil_append (List.flatMap _ _)]
      congr 1
      symm
      rw [List.filter_eq_nil_iff]
      intro t ht
      obtain ⟨p, _, rfl⟩ := List.mem_map.1 ht
      simpa using h

/-- C131. The copy of an old file reads as the file, restricted to the events: hits, particles, response, generators, configuration and sampling widths; with the database also the positions of the sensors and the times
of the response, which the copy gives without it.  The mapping has the events, with the index of the configuration. -/
theorem converted {float unit : Text → Option ℚ} {f : OldFile} {which : Option (List Int)} {db : Option (List Nat)} {g : NewFile} (h : convert float unit f which db = .ok g) :
    (∀ l, loadHits (.old f) = .ok l → loadHits (.new g) = .ok (l.filter fun r => decide (r.event ∈ wanted f which))) ∧
    (∀ l, loadParticles (.old f) = .ok l → loadParticles (.new g) = .ok (l.filter fun r => decide (r.event ∈ wanted f which))) ∧
    (∀ l, loadRaw (.old f) = .ok l → loadRaw (.new g) = .ok (l.filter fun r => decide (r.event ∈ wanted f which))) ∧
    (∀ l, loadGenerators (.old f) = .ok l → loadGenerators (.new g) = .ok (l.filter fun r => decide (r.1 ∈ wanted f which))) ∧
    (∀ l, loadConfig (.old f) = .ok l → loadConfig (.new g) = .ok l) ∧
    (∀ l, loadBins float unit (.old f) = .ok l → loadBins float unit (.new g) = .ok l) ∧
    (∀ l, loadPositions float unit (.old f) db = .ok l → loadPositions float unit (.new g) none = .ok l) ∧
    (∀ l, f.positions ≠ none → loadTimes float unit (.old f) db = .ok l → loadTimes float unit (.new g) none = .ok (l.filter fun r => decide (r.event ∈ wanted f which))) ∧
    g.mapping = some ((wanted f which).map fun e => (0, e)) ∧ ∀ c, g.config = some c → ∀ r ∈ c, r.1 = 0 := by
  obtain ⟨config, hits, particles, positions, response, c1, c2, c3, c4, c5, g1, g2, g3, g4, g5, g6, g7⟩ := convert_cases h
  have config_ok : ∀ l, loadConfig (.old f) = .ok l → loadConfig (.new g) = .ok l := by
    intro l hl
    cases hc : f.config with
    | none =>
      unfold loadConfig at hl
      dsimp only at hl
      rw [hc] at hl
      cases hl
    | some c =>
      obtain ⟨l', e1, e2⟩ := (copyTable_ok c1).2 c hc
      rw [hl] at e1
      cases e1
      unfold loadConfig
      dsimp only
      rw [g1, e2]
      simp [need, Function.comp_def]
  have bins_ok : ∀ l, loadBins float unit (.old f) = .ok l → loadBins float unit (.new g) = .ok l := by
    intro l hl
    unfold loadBins at hl ⊢
    cases hc : loadConfig (.old f) with
    | error e => rw [hc] at hl; cases hl
    | ok c =>
      rw [hc] at hl
      rw [config_ok c hc]
      exact hl
  have raw_ok : ∀ l, loadRaw (.old f) = .ok l → loadRaw (.new g) = .ok (l.filter fun r => decide (r.event ∈ wanted f which)) := by
    intro l hl
    obtain ⟨rows, hr⟩ := oldRows_some hl
    obtain ⟨l', e1, e2⟩ := (copyTable_ok c5).2 rows hr
    rw [hl] at e1
    cases e1
    unfold loadRaw
    dsimp only
    rw [g7, e2]
    rfl
  have pos_ok : ∀ l, loadPositions float unit (.old f) db = .ok l → loadPositions float unit (.new g) none = .ok l := by
    intro l hl
    cases hp : f.positions with
    | none =>
      unfold loadPositions oldPositions at hl
      dsimp only at hl
      rw [hp] at hl
      cases hl
    | some p =>
      obtain ⟨l', e1, e2⟩ := (copyTable_ok c4).2 p hp
      rw [hl] at e1
      cases e1
      unfold loadPositions
      dsimp only
      rw [g6, e2]
      rfl
  refine ⟨?_, ?_, raw_ok, ?_, config_ok, bins_ok, pos_ok, ?_, g2, ?_⟩
  · intro l hl
    obtain ⟨rows, hr⟩ := oldRows_some hl
    obtain ⟨l', e1, e2⟩ := (copyTable_ok c2).2 rows hr
    rw [hl] at e1
    cases e1
    unfold loadHits
    dsimp only
    rw [g4, e2]
    rfl
  · intro l hl
    obtain ⟨rows, hr⟩ := oldRows_some hl
    obtain ⟨l', e1, e2⟩ := (copyTable_ok c3).2 rows hr
    rw [hl] at e1
    cases e1
    unfold loadParticles
    dsimp only
    rw [g5, e2]
    rfl
  · intro l hl
    have := need_ok hl
    unfold loadGenerators
    dsimp only
    rw [g3, this]
    rfl
  · intro l hpos hl
    unfold loadTimes at hl ⊢
    cases hr : loadRaw (.old f) with
    | error e => rw [hr] at hl; cases hl
    | ok resp =>
      rw [hr] at hl
      rw [raw_ok resp hr]
      cases db with
      | none => cases hl
      | some ids =>
        dsimp only at hl ⊢
        unfold timesOf at hl ⊢
        cases hb : loadBins float unit (.old f) with
        | error e => rw [hb] at hl; cases hl
        | ok bins =>
          rw [hb] at hl
          rw [bins_ok bins hb]
          dsimp only at hl ⊢
          cases hp : loadPositions float unit (.old f) (some ids) with
          | error e => rw [hp] at hl; cases hl
          | ok pos =>
            rw [hp] at hl
            rw [pos_ok pos hp]
            dsimp only at hl ⊢
            cases hl
            rw [times_filter]
  · intro c hc r hr
    rw [g1] at hc
    cases config with
    | none => cases hc
    | some c' =>
      cases hc
      obtain ⟨x, _, rfl⟩ := List.mem_map.1 hr
      rfl

/-- C131. The copy is made whenever every table of the file can be read. -/
theorem convert_ok (float unit : Text → Option ℚ) (f : OldFile) (which : Option (List Int)) (db : Option (List Nat))
    (h1 : f.hits ≠ none → ∃ l, loadHits (.old f) = .ok l) (h2 : f.particles ≠ none → ∃ l, loadParticles (.old f) = .ok l)
    (h3 : f.waveforms ≠ none → ∃ l, loadRaw (.old f) = .ok l) (h4 : f.positions ≠ none → ∃ l, loadPositions float unit (.old f) db = .ok l) : ∃ g, convert float unit f which db = .ok g := by
  have key : ∀ {α β : Type} (t : Option α) (load : Except PyErr β), (t ≠ none → ∃ l, load = .ok l) → ∃ r, copyTable t load = .ok r := by
    intro α β t load h
    cases t with
    | none => exact ⟨none, rfl⟩
    | some x =>
      obtain ⟨l, hl⟩ := h (by simp)
      exact ⟨some l, by rw [hl]; rfl⟩
  obtain ⟨_, e1⟩ := key f.config (loadConfig (.old f)) (by
    intro hc
    cases h : f.config with
    | none => exact absurd h hc
    | some c => exact ⟨_, by unfold loadConfig; dsimp only; rw [h]; rfl⟩)
  obtain ⟨_, e2⟩ := key f.hits _ h1
  obtain ⟨_, e3⟩ := key f.particles _ h2
  obtain ⟨_, e4⟩ := key f.positions _ h4
  obtain ⟨_, e5⟩ := key f.waveforms _ h3
  have : ∀ evts, ∃ g, readTables float unit f evts db = .ok g := by
    intro evts
    unfold readTables
    simp only [e1, e2, e3, e4, e5]
    exact ⟨_, rfl⟩
  cases which with
  | none => exact this _
  | some evts => exact this evts

theorem old_rows_copied {α β : Type} {last : Extent → Int} {cols : Int × α → β} {same : Int → α → β → Prop} (event : β → Int) (hs : ∀ r, same r.1 r.2 (cols r)) (he : ∀ r, event (cols r) = r.1)
    {f : OldFile} {rows : List α} (h : Extents last f rows) :
    ∃ l, oldRows last cols f (some rows) = .ok l ∧ ∀ evts, Copied last same f rows evts (l.filter fun r => decide (event r ∈ evts)) := by
  obtain ⟨hp, hl⟩ := h
  have hpw : (f.extents.map fun x => (last x, x.event)).Pairwise fun a b => a.1 < b.1 := by
    rw [List.pairwise_map] at hp ⊢
    exact hp
  obtain ⟨l, e1, e2, e3⟩ := McInfo.old_rows_partial (f.extents.map fun x => (last x, x.event)) rows hpw (by
    rcases hl with h | ⟨x, h1, h2⟩
    · exact .inl h
    · exact .inr ⟨_, List.mem_map.2 ⟨x, h1, rfl⟩, h2⟩)
  refine ⟨l.map cols, ?_, ?_⟩
  · unfold oldRows
    simp only [need, e1]
  · intro evts
    refine ⟨l.map Prod.fst, ?_, ?_, ?_⟩
    · rw [List.length_map, ← e2, List.length_map]
    · intro i e hi
      rw [List.getElem?_map] at hi
      cases hli : l[i]? with
      | none => rw [hli] at hi; cases hi
      | some p =>
        rw [hli] at hi
        cases hi
        obtain ⟨k, r, r1, r2, r3, r4⟩ := e3 i p hli
        rw [List.getElem?_map] at r1
        cases hk : f.extents[k]? with
        | none => rw [hk] at r1; cases r1
        | some x =>
          rw [hk] at r1
          cases r1
          refine ⟨k, x, hk, r2, r3, fun j y hj hy => ?_⟩
          exact r4 j (last y, y.event) hj (by rw [List.getElem?_map, hy]; rfl)
    · have hz : (l.map Prod.fst).zip rows = l := by
        rw [← e2]
        exact (List.zip_of_prod rfl rfl).symm
      rw [hz, List.filter_map, List.forall₂_map_right_iff]
      have hf : (fun r => decide (event r ∈ evts)) ∘ cols = fun x : Int × α => decide (x.1 ∈ evts) := by
        funext x
        simp [he]
      rw [hf, List.forall₂_same]
      exact fun x _ => hs x

/-- C131. If the extents of a table go up and end with it, the copy has exactly the rows of the events, in order, with the event in whose extent they are and all their columns. -/
theorem copied_rows {float unit : Text → Option ℚ} {f : OldFile} {which : Option (List Int)} {db : Option (List Nat)} {g : NewFile} (h : convert float unit f which db = .ok g) :
    (∀ rows, f.hits = some rows → Extents Extent.lastHit f rows → ∃ out, g.hits = some out ∧ Copied Extent.lastHit SameHit f rows (wanted f which) out) ∧
    (∀ rows, f.particles = some rows → Extents Extent.lastParticle f rows → ∃ out, g.particles = some out ∧ Copied Extent.lastParticle SameParticle f rows (wanted f which) out) ∧
    (∀ rows, f.waveforms = some rows → Extents Extent.lastSns f rows → ∃ out, g.response = some out ∧ Copied Extent.lastSns SameSignal f rows (wanted f which) out) := by
  obtain ⟨c1, c2, c3, _⟩ := converted h
  refine ⟨?_, ?_, ?_⟩
  · intro rows hr he
    obtain ⟨l, e1, e2⟩ := old_rows_copied Hit.event sameHit (fun _ => rfl) he
    have := c1 l (by unfold loadHits; dsimp only; rw [hr]; exact e1)
    exact ⟨_, need_ok this, e2 _⟩
  · intro rows hr he
    obtain ⟨l, e1, e2⟩ := old_rows_copied Particle.event sameParticle (fun _ => rfl) he
    have := c2 l (by unfold loadParticles; dsimp only; rw [hr]; exact e1)
    exact ⟨_, need_ok this, e2 _⟩
  · intro rows hr he
    obtain ⟨l, e1, e2⟩ := old_rows_copied McInfo.SnsRow.event sameSignal (fun _ => rfl) he
    have := c3 l (by unfold loadRaw; dsimp only; rw [hr]; exact e1)
    exact ⟨_, need_ok this, e2 _⟩

/-- C131. The copy made without a database has no sensors: the response of the copy has no times, for any file, with no error. -/
theorem no_database_no_times {float unit : Text → Option ℚ} {f : OldFile} {which : Option (List Int)} {g : NewFile} (h : convert float unit f which none = .ok g) (hp : f.positions ≠ none) (hw : f.waveforms ≠ none)
    {bins : List (Text × ℚ)} (hb : loadBins float unit (.old f) = .ok bins) (db : Option (List Nat)) : loadTimes float unit (.new g) db = .ok [] := by
  have hpos : loadPositions float unit (.old f) none = .ok [] := by
    unfold loadPositions oldPositions
    dsimp only
    cases h : f.positions with
    | none => exact absurd h hp
    | some l => cases l <;> rfl
  obtain ⟨_, _, c3, _, _, c6, c7, _⟩ := converted h
  have hraw : ∃ l, loadRaw (.old f) = .ok l := by
    obtain ⟨_, _, _, _, _, _, _, _, _, k5, _⟩ := convert_cases h
    cases hx : f.waveforms with
    | none => exact absurd hx hw
    | some l =>
      obtain ⟨l', e, _⟩ := (copyTable_ok k5).2 l hx
      exact ⟨l', e⟩
  obtain ⟨l, hl⟩ := hraw
  have p := c7 [] hpos
  unfold loadTimes
  rw [c3 l hl]
  dsimp only
  unfold timesOf
  rw [c6 bins hb]
  have p' : loadPositions float unit (.new g) db = .ok [] := p
  rw [p']
  dsimp only
  congr 1
  unfold Binning.times McInfo.convertTimes McInfo.joinBins
  simp

/-! ## A case -/

theorem renamed_iff (k n : Text) : Renamed k n ↔ Binning.oldKey k = n := by
  obtain ⟨h1, h2, h3⟩ := Binning.oldKey_spec k
  by_cases hp : Binning.Follows "Pmt".toList "_binning".toList k
  · rw [h1 hp]
    constructor
    · rintro (⟨_, h⟩ | ⟨h, _⟩ | ⟨h, _⟩)
      · exact h.symm
      · exact absurd hp h
      · exact absurd hp h
    · intro h; exact Or.inl ⟨hp, h.symm⟩
  · by_cases hs : Binning.Follows "SiPM".toList "_binning".toList k
    · rw [h2 hp hs]
      constructor
      · rintro (⟨h, _⟩ | ⟨_, _, h⟩ | ⟨_, h, _⟩)
        · exact absurd h hp
        · exact h.symm
        · exact absurd hs h
      · intro h; exact Or.inr (Or.inl ⟨hp, hs, h.symm⟩)
    · rw [h3 hp hs]
      constructor
      · rintro (⟨h, _⟩ | ⟨_, h, _⟩ | ⟨_, _, h⟩)
        · exact absurd h hp
        · exact absurd h hs
        · exact h.symm
      · intro h; exact Or.inr (Or.inr ⟨hp, hs, h.symm⟩)

/-- C131. The configuration read from a file of the old format: every parameter once, renamed, with the first of its values. -/
theorem old_configuration (f : OldFile) (raw : List (Text × Text)) (h : f.config = some raw) :
    ∃ c, loadConfig (.old f) = .ok c ∧ (c.map Prod.fst).Nodup ∧
      ∀ k v, (k, v) ∈ c ↔ ∃ l k₀ r, raw = l ++ (k₀, v) :: r ∧ Renamed k₀ k ∧ ∀ x ∈ l, ¬ Renamed x.1 k := by
  refine ⟨Binning.firsts [] (raw.map fun r => (Binning.oldKey r.1, r.2)), by unfold loadConfig; dsimp only; rw [h]; rfl, Binning.firsts_nodup _ _, fun k v => ?_⟩
  rw [Binning.mem_firsts]
  simp only [List.not_mem_nil, not_false_eq_true, true_and]
  constructor
  · rintro ⟨a, b, hab, hno⟩
    obtain ⟨l, m, rfl, hl, hm⟩ := List.map_eq_append_iff.1 hab
    obtain ⟨x, r, rfl, hx, hr⟩ := List.map_eq_cons_iff.1 hm
    injection hx with hx1 hx2
    refine ⟨l, x.1, r, by rw [← hx2], (renamed_iff _ _).2 hx1, fun y hy hc => ?_⟩
    exact hno (List.mem_map.2 ⟨(Binning.oldKey y.1, y.2), by rw [← hl]; exact List.mem_map.2 ⟨y, hy, rfl⟩, (renamed_iff _ _).1 hc⟩)
  · rintro ⟨l, k₀, r, rfl, hk, hno⟩
    refine ⟨l.map fun r => (Binning.oldKey r.1, r.2), r.map fun r => (Binning.oldKey r.1, r.2), ?_, ?_⟩
    · rw [List.map_append, List.map_cons, (renamed_iff _ _).1 hk]
    · intro hm
      obtain ⟨y, hy, hc⟩ := List.mem_map.1 hm
      obtain ⟨x, hx, rfl⟩ := List.mem_map.1 hy
      exact hno x hx ((renamed_iff _ _).2 hc)

/-- C131. The sensors read from a file of the old format: those of its table, in order and with their positions; the ones that are PMTs of the database have the name of the first sampling of PMTs of the
configuration, and the others that of the first one that is not of PMTs. -/
theorem old_sensors (float unit : Text → Option ℚ) (f : OldFile) (ids : List Nat) (pos : List (Nat × ℚ × ℚ × ℚ)) (h : f.positions = some pos) (hne : pos ≠ []) (out : List Position) :
    loadPositions float unit (.old f) (some ids) = .ok out ↔
      ∃ bins p s, loadBins float unit (.old f) = .ok bins ∧ Binning.FirstNamed (fun m => "Pmt".toList <:+: m) bins p ∧ Binning.FirstNamed (fun m => ¬ "Pmt".toList <:+: m) bins s ∧
        List.Forall₂ (fun (x : Nat × ℚ × ℚ × ℚ) (o : Position) => (o.sensor, o.x, o.y, o.z) = x ∧ (x.1 ∈ ids → o.name = p.1) ∧ (x.1 ∉ ids → o.name = s.1)) pos out := by
  have key : ∀ p s : Text × ℚ, pos.map (fun x => (⟨x.1, if x.1 ∈ ids then p.1 else s.1, x.2.1, x.2.2.1, x.2.2.2⟩ : Position)) = out ↔
      List.Forall₂ (fun (x : Nat × ℚ × ℚ × ℚ) (o : Position) => (o.sensor, o.x, o.y, o.z) = x ∧ (x.1 ∈ ids → o.name = p.1) ∧ (x.1 ∉ ids → o.name = s.1)) pos out := by
    intro p s
    clear h hne
    induction pos generalizing out with
    | nil => constructor
             · rintro rfl; exact List.Forall₂.nil
             · intro h; cases h; rfl
    | cons x xs ih =>
      constructor
      · rintro rfl
        refine List.Forall₂.cons ⟨rfl, fun hx => if_pos hx, fun hx => if_neg hx⟩ ((ih _).1 rfl)
      · intro h
        cases h with
        | cons h1 h2 =>
          rename_i o os
          obtain ⟨e, e1, e2⟩ := h1
          rw [List.map_cons, (ih _).2 h2]
          obtain ⟨i, n, a, b, c⟩ := o
          subst e
          congr 2
          by_cases hi : i ∈ ids
          · rw [if_pos hi]; exact (e1 hi).symm
          · rw [if_neg hi]; exact (e2 hi).symm
  obtain ⟨y, ys, rfl⟩ := List.exists_cons_of_ne_nil hne
  have hb : ∀ (q : Text → Bool) (bins : List (Text × ℚ)) b, (bins.filter fun b => q b.1).head? = some b ↔ Binning.FirstNamed (fun m => q m = true) bins b := by
    intro q bins b
    rw [List.head?_filter, List.find?_eq_some_iff_append]
    constructor
    · rintro ⟨h1, l, r, h2, h3⟩; exact ⟨l, r, h2, h1, fun x hx => by simpa using h3 x hx⟩
    · rintro ⟨l, r, h2, h1, h3⟩; exact ⟨h1, l, r, h2, fun x hx => by simpa using h3 x hx⟩
  have hp : ∀ bins b, (bins.filter fun b => Binning.has "Pmt".toList b.1).head? = some b ↔ Binning.FirstNamed (fun m => "Pmt".toList <:+: m) bins b := by
    intro bins b
    rw [hb (fun m => Binning.has "Pmt".toList m)]
    simp only [Binning.has, decide_eq_true_eq]
  have hs : ∀ bins b, (bins.filter fun b => !Binning.has "Pmt".toList b.1).head? = some b ↔ Binning.FirstNamed (fun m => ¬ "Pmt".toList <:+: m) bins b := by
    intro bins b
    rw [hb (fun m => !Binning.has "Pmt".toList m)]
    simp only [Binning.has, Bool.not_eq_true', decide_eq_false_iff_not]
  have hunf : loadPositions float unit (.old f) (some ids) = match loadBins float unit (.old f) with
      | .error e => .error e
      | .ok bins => namePositions bins ids (y :: ys) := by
    unfold loadPositions oldPositions
    dsimp only
    rw [h]
    rfl
  rw [hunf]
  cases hl : loadBins float unit (.old f) with
  | error e => simp
  | ok bins =>
    simp only [Except.ok.injEq, exists_eq_left', exists_and_left]
    unfold namePositions
    constructor
    · intro hok
      cases h1 : (bins.filter fun b => Binning.has "Pmt".toList b.1).head? with
      | none => rw [h1] at hok; cases hok
      | some p =>
        rw [h1] at hok
        dsimp only at hok
        cases h2 : (bins.filter fun b => !Binning.has "Pmt".toList b.1).head? with
        | none => rw [h2] at hok; cases hok
        | some s =>
          rw [h2] at hok
          dsimp only at hok
          injection hok with hok
          exact ⟨p, (hp _ _).1 h1, s, (hs _ _).1 h2, (key p s).1 hok⟩
    · rintro ⟨p, g1, s, g2, g3⟩
      rw [(hp _ _).2 g1, (hs _ _).2 g2]
      dsimp only
      rw [(key p s).2 g3]

/-- An old file with two events; the label of the second hit has 14 characters. -/
def exFile : OldFile where
  extents := [⟨4, 0, 0, 1⟩, ⟨9, 2, 1, 2⟩]
  config := some [("/G/PmtR11410/time_binning".toList, "25 ns".toList), ("/G/SiPMSensl/time_binning".toList, "1 mus".toList)]
  hits := some [⟨(1, 2, 3), 10, 1 / 2, "ACTIVE".toList, 1, 0⟩, ⟨(4, 5, 6), 11, 1 / 4, "FIELD_CAGE_GAS".toList, 1, 0⟩, ⟨(7, 8, 9), 12, 1, "ACTIVE".toList, 2, 0⟩]
  particles := some [⟨1, "e-".toList, 1, 0, (0, 0, 1, 0), (1, 1, 1, 5), "ACTIVE".toList, "ACTIVE".toList, (1, 0, 0), 2, "none".toList⟩,
    ⟨2, "gamma".toList, 0, 1, (0, 2, 1, 0), (1, 3, 1, 5), "ACTIVE".toList, "ACTIVE".toList, (0, 1, 0), 1, "none".toList⟩]
  positions := some [(2, 1, 1, 0), (1000, 2, 2, 5)]
  waveforms := some [⟨1000, 3, 1⟩, ⟨2, 4, 2⟩, ⟨2, 6, 7⟩]

example : Extents Extent.lastHit exFile [0, 1, 2] ∧ Extents Extent.lastParticle exFile [0, 1] ∧ Extents Extent.lastSns exFile [0, 1, 2] := by
  unfold Extents
  decide

example : (convert Binning.floatEx Binning.unitEx exFile (some [9]) (some [0, 1, 2])).toOption.isSome = true := by decide +kernel

/-- The copy of event 9: its hits, with the long label without its end, and the times of its response. -/
example : (convert Binning.floatEx Binning.unitEx exFile (some [9]) (some [0, 1, 2])).toOption.map (fun g => ((loadHits (.new g)).toOption, (loadTimes Binning.floatEx Binning.unitEx (.new g) none).toOption, g.mapping)) =
    some (some [⟨9, 1, 0, 4, 5, 6, 11, 1 / 4, "FIELD_CAGE_GA".toList⟩, ⟨9, 2, 0, 7, 8, 9, 12, 1, "ACTIVE".toList⟩], some [⟨9, 2, "PmtR11410", some 150, 7⟩], some [(0, 9)]) := by decide +kernel

/-- The same times, and those of the other event, in the old file. -/
example : (loadTimes Binning.floatEx Binning.unitEx (.old exFile) (some [0, 1, 2])).toOption =
    some [⟨4, 1000, "SiPM", some 3000, 1⟩, ⟨4, 2, "PmtR11410", some 100, 2⟩, ⟨9, 2, "PmtR11410", some 150, 7⟩] := by decide +kernel

/-- Without a database the copy has the response but none of its times. -/
example : (convert Binning.floatEx Binning.unitEx exFile none none).toOption.map (fun g => ((loadRaw (.new g)).toOption.map List.length, (loadTimes Binning.floatEx Binning.unitEx (.new g) none).toOption)) = some (some 3, some []) := by decide +kernel

/-- The sensors of the file, with the database, and its parameters. -/
example : exFile.positions = some [(2, 1, 1, 0), (1000, 2, 2, 5)] ∧ (loadPositions Binning.floatEx Binning.unitEx (.old exFile) (some [0, 1, 2])).toOption =
    some [⟨2, "PmtR11410".toList, 1, 1, 0⟩, ⟨1000, "SiPM".toList, 2, 2, 5⟩] ∧ (loadConfig (.old exFile)).toOption = some [("PmtR11410_binning".toList, "25 ns".toList), ("SiPM_binning".toList, "1 mus".toList)] :=
  ⟨rfl, by decide +kernel, by decide +kernel⟩

end Verif.McConvert
