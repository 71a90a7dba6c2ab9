import Verif.Spec.Isaura
import Verif.Props.Esmeralda
/-!
# The events of isaura (property C123)
-/
namespace Verif.Isaura
open Verif.Esmeralda (Written Topo topology sumOf Sorted outIdent Result topology_spec place)
open Verif.Paolina

/-- The conditions of the theorems: a sensible configuration of the topology and positive energies. -/
structure Conditions (p : Params) (hits : List InHit) : Prop where
  sizes : p.Ok
  paths : GoodPaths p.paths
  scan : ∀ r, p.scanRadius = some r → 0 ≤ r
  energies : ∀ h ∈ hits, 0 < h.e

theorem hits_positive {p : Params} {hits : List InHit} (hc : Conditions p hits) : ∀ k ∈ hits.map toHit, ∃ e ec, k.e = some e ∧ 0 < e ∧ k.ec = some ec ∧ 0 < ec := by
  intro k hk
  obtain ⟨h, hh, rfl⟩ := List.mem_map.1 hk
  exact ⟨h.e, h.e, rfl, hc.energies h hh, rfl, hc.energies h hh⟩

theorem event_topo {p : Params} (event : Int) {hits : List InHit} (hc : Conditions p hits) (hne : hits ≠ []) :
    ∃ w outs oom, isauraEvent p event hits = .ok w ∧ Topo (cfg p) event (hits.map toHit) w outs oom :=
  topology_spec (c := cfg p) hc.sizes hc.paths hc.scan event (by simpa using hne) (hits_positive hc)

/-- **C123**: every event is processed; an event without hits would only leave a rejection in the filter of hits. -/
theorem event_ends {p : Params} (event : Int) {hits : List InHit} (hc : Conditions p hits) :
    (∃ w, isauraEvent p event hits = .ok w ∧ (w.hitsPassed = true ↔ hits ≠ [])) ∧ (hits = [] → isauraEvent p event hits = .ok ⟨false, none, [], [], []⟩) := by
  have h0 : hits = [] → isauraEvent p event hits = .ok ⟨false, none, [], [], []⟩ := by rintro rfl; rfl
  refine ⟨?_, h0⟩
  by_cases hne : hits = []
  · exact ⟨_, h0 hne, by simp [hne]⟩
  · obtain ⟨w, _, _, e, t⟩ := event_topo event hc hne
    exact ⟨w, e, by simp [t.passed, hne]⟩

/-- **C123**: the hits written are those of the input, once each, with their energy as `Q`, `E` and `Ec` and their position (rounded to 5 decimals unless there are more than the topology admits), sorted by Z, X and Y. -/
theorem event_hits {p : Params} {event : Int} {hits : List InHit} (hc : Conditions p hits) {w : Written} (h : isauraEvent p event hits = .ok w) :
    (w.hits.map outIdent).Perm (hits.map (ident (decide (hits.length ≤ p.maxHits)))) ∧ Sorted w.hits ∧ ∀ r ∈ w.hits, r.e = some r.q ∧ r.ec = some r.q ∧ 0 < r.q := by
  by_cases hne : hits = []
  · subst hne
    cases h
    exact ⟨.refl _, .nil, fun r hr => by cases hr⟩
  · obtain ⟨w', outs, oom, e, t⟩ := event_topo event hc hne
    rw [e] at h; cases h
    refine ⟨?_, by rw [t.hits]; exact Esmeralda.sorted_rows _ _, ?_⟩
    · have hb := t.base.map fun q => q.1
      rw [List.map_map, List.map_map, List.map_map] at hb
      refine List.Perm.trans hb (.of_eq ?_)
      apply List.map_congr_left
      intro a _
      unfold ident
      by_cases hle : hits.length ≤ p.maxHits
      · simp [hle, place, cfg, toHit]
      · simp [hle, place, cfg, toHit]
    · intro r hr
      have := t.base.subset (List.mem_map.2 ⟨r, hr, rfl⟩)
      obtain ⟨k, hk, hke⟩ := List.mem_map.1 this
      obtain ⟨g, hg, rfl⟩ := List.mem_map.1 hk
      have e1 : r.e = some g.e := (congrArg (fun q => q.2.1) hke).symm
      have e2 : r.ec = some g.e := (congrArg (fun q => q.2.2) hke).symm
      have e3 : r.q = g.e := (congrArg (fun q => q.1.q) hke).symm
      exact ⟨by rw [e1, e3], by rw [e2, e3], by rw [e3]; exact hc.energies g hg⟩

/-- **C123**: with no more hits than admitted there is at least a track, and the energies of the tracks add up to the energy of the event; the tracks are numbered by decreasing energy, the hits and the energy of a track are those of the hits written
with its number, and the other hits (number -1) have no energy in the topology.  With more hits, there are no tracks, and the event does not pass the filter of topology. -/
theorem event_topology {p : Params} {event : Int} {hits : List InHit} (hc : Conditions p hits) {w : Written} (h : isauraEvent p event hits = .ok w) (hne : hits ≠ []) :
    (hits.length ≤ p.maxHits →
      w.topologyPassed = some true ∧ w.tracks ≠ [] ∧ w.tracks.Pairwise (fun a b => b.energy ≤ a.energy) ∧
      (w.tracks.map TrackRow.energy).sum = (hits.map InHit.e).sum ∧
      (∀ (i : Nat) (row : TrackRow), w.tracks[i]? = some row → row.event = event ∧ row.id = i ∧ row.nTracks = w.tracks.length ∧ 0 < row.energy ∧
        row.nHits = (w.hits.filter fun r => r.track == (i : Int)).length ∧ row.energy = sumOf ((w.hits.filter fun r => r.track == (i : Int)).map fun r => r.ep)) ∧
      ∀ r ∈ w.hits, (r.track = -1 ∧ r.ep = none) ∨ ∃ (i : Nat) (e : ℚ), i < w.tracks.length ∧ r.track = i ∧ r.ep = some e ∧ 0 < e) ∧
    (p.maxHits < hits.length → w.topologyPassed = some false ∧ w.tracks = [] ∧ ∀ r ∈ w.hits, r.track = -1 ∧ r.ep = some r.q) := by
  obtain ⟨w', outs, oom, e, t⟩ := event_topo event hc hne
  have hh := event_hits hc h
  rw [e] at h; cases h
  obtain ⟨h1, h2⟩ := t.tracks hc.sizes (by simpa using hne) (hits_positive hc)
  rw [List.length_map] at h1 h2
  refine ⟨fun hle => ?_, fun hlt => ?_⟩
  · obtain ⟨a1, a2, a3, a4, a5, a6⟩ := h1 hle
    refine ⟨a1, a2, a3, ?_, a5, a6⟩
    rw [a4]
    unfold sumOf
    rw [(t.ecs.1.map fun x => x.getD 0).sum_eq, List.map_map, List.map_map]
    rfl
  · obtain ⟨a1, a2, a3⟩ := h2 hlt
    exact ⟨a1, a2, fun r hr => ⟨(a3 r hr).1, by rw [(a3 r hr).2]; exact (hh.2.2 r hr).2.1⟩⟩

/-- **C123**: the summary of an event with hits: one row, with the number of tracks and of hits, their energy and their limits.  The flag of hits out of the map only says that there are too many hits. -/
theorem event_summary {p : Params} {event : Int} {hits : List InHit} (hc : Conditions p hits) {w : Written} (h : isauraEvent p event hits = .ok w) (hne : hits ≠ []) :
    ∃ s, w.summary = [s] ∧ s.event = event ∧ s.nTracks = w.tracks.length ∧ s.nHits = hits.length ∧ s.energy = (hits.map InHit.e).sum ∧
      (s.outOfMap = true ↔ p.maxHits < hits.length) ∧
      ∀ r ∈ w.hits, s.min.x ≤ r.x ∧ r.x ≤ s.max.x ∧ s.min.y ≤ r.y ∧ r.y ≤ s.max.y ∧ s.min.z ≤ r.z ∧ r.z ≤ s.max.z := by
  obtain ⟨w', outs, oom, e, t⟩ := event_topo event hc hne
  have hh := (event_hits hc h).1.length_eq
  rw [e] at h; cases h
  obtain ⟨s, g1, g2, g3, g4, g5, g6, g7⟩ := t.summary_row (by simpa using hne) (hits_positive hc)
  rw [List.length_map] at g6
  rw [List.length_map, List.length_map] at hh
  refine ⟨s, g1, g2, g3, by rw [g4, hh], ?_, g6, g7⟩
  rw [g5]
  unfold sumOf
  rw [(t.ecs.1.map fun x => x.getD 0).sum_eq, List.map_map, List.map_map]
  rfl

/-! ### The tables that can be read -/

theorem mem_assign {cols : List String} {c d : String} : d ∈ assign cols c ↔ d ∈ cols ∨ d = c := by
  unfold assign
  split
  · constructor
    · exact .inl
    · rintro (h | rfl)
      · exact h
      · assumption
  · simp

theorem select_iff {cols names out : List String} : select cols names = .ok out ↔ (∀ c ∈ names, c ∈ cols) ∧ out = names := by
  unfold select
  by_cases h : names.all fun c => cols.contains c
  · rw [if_pos h]
    constructor
    · intro e; cases e
      exact ⟨by simpa using h, rfl⟩
    · rintro ⟨_, rfl⟩; rfl
  · rw [if_neg h]
    constructor
    · intro e; cases e
    · rintro ⟨h', _⟩
      exact absurd (by simpa using h') h

/-- **C123**: exactly the tables with the columns needed can be read. -/
theorem readable_iff (cols : List String) : (∃ out, readColumns cols = .ok out) ↔ Readable cols := by
  unfold readColumns Readable
  by_cases hE : "E" ∈ cols
  · rw [if_pos hE]
    by_cases hX : "Xpeak" ∈ cols
    · rw [if_pos (mem_assign.2 (.inl hX))]
      simp only [select_iff, exists_and_left, exists_eq, and_true, mem_assign]
      simp [hE, hX]
      aesop
    · rw [if_neg (by rw [mem_assign]; simp [hX])]
      simp only [select_iff, exists_and_left, exists_eq, and_true, mem_assign]
      simp [hE, hX]
  · rw [if_neg hE]
    simp [hE]

/-- **C123 (finding)**: the tables that beersheba writes cannot be read: they have `Xpeak`, and not `Ec`, `track_id` and `Ep`. -/
theorem beersheba_refused : readColumns decoColumns = .error .keyError ∧
    (["event", "time", "npeak", "Xpeak", "Ypeak", "X", "Y", "Z", "Q", "E", "Ec", "track_id", "Ep"].filter fun c => decide (c ∉ decoColumns)) = ["Q", "Ec", "track_id", "Ep"] := by decide

/-! ### A concrete case -/

def caseEvent : List InHit := [⟨0, 0, 10, 0, 10, 8⟩, ⟨1, 0, 0, 0, 10, 6⟩, ⟨2, 0, 10, 10, 10, 2⟩, ⟨3, 1, 100, 100, 60, 3⟩]

example : Conditions ShortestPaths.taxiParams caseEvent :=
  ⟨⟨by decide +kernel, by decide +kernel, by decide +kernel⟩, ShortestPaths.paths_contract ShortestPaths.taxi_symm ShortestPaths.taxi_pos, fun _ h => (by cases h), by decide +kernel⟩
example : (Esmeralda.writtenOf (isauraEvent ShortestPaths.taxiParams 7 caseEvent)).map (fun w => (w.hitsPassed, w.topologyPassed, w.tracks.map TrackRow.energy)) = some (true, some true, [16, 3]) := by decide +kernel
example : (Esmeralda.writtenOf (isauraEvent ShortestPaths.taxiParams 7 caseEvent)).map (fun w => w.hits.map fun r => (r.info, r.x, r.q, r.track)) =
    some [(1, 0, 6, 0), (0, 10, 8, 0), (2, 10, 2, -1), (3, 100, 3, 1)] := by decide +kernel
example : Readable ["event", "npeak", "X", "Y", "Z", "E"] := by unfold Readable; decide
example : Readable ["event", "time", "npeak", "Xpeak", "Ypeak", "X", "Y", "Z", "Q", "E", "Ec", "track_id", "Ep"] ∧ ¬ Readable decoColumns := by unfold Readable; decide

end Verif.Isaura
