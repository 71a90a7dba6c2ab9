import Verif.Props.HitsIO
import Verif.Lemmas.Tables
/-!
# C92, C93: files of hits and of voxels are round trips

C92 for hits, up to what the table does not hold; C93 for voxels and tracks.
-/
namespace Verif.HitsIO
open Verif.HitsIO.Spec

theorem storeAll_eq (cs : List HitColl) (table : List Row) : cs.foldl storeHits table = table ++ cs.flatMap fun hc => hc.hits.map (storeHit hc) := by
  induction cs generalizing table with
  | nil => simp
  | cons hc cs ih => rw [List.foldl_cons, ih, List.flatMap_cons, storeHits, List.append_assoc]

theorem kept_false (c : Cols) (r : Row) : Kept c false r := by intro h; cases h

/-- C92: hits stored event by event are read back: event, time and the hits in order, with peak number (up to 65535), positions, charge and energies; `Qc`, the
track and `Ep` are not kept.  An event without hits is not in the file.  (A hit has energy `NN` only if its charge is `NN`, by construction.) -/
theorem hits_round_trip (cs : List HitColl) (hnd : (cs.map (·.event)).Nodup) (hwf : ∀ hc ∈ cs, ∀ h ∈ hc.hits, h.E = -999999 → h.Q = -999999) :
    (∀ hc ∈ cs, hc.hits = [] → (hitsFromDf tableCols false (cs.foldl storeHits [])).lookup hc.event = none) ∧
    (∀ hc ∈ cs, hc.hits ≠ [] → ∃ hits, (hitsFromDf tableCols false (cs.foldl storeHits [])).lookup hc.event = some ⟨hc.event, hc.time, hits⟩
      ∧ List.Forall₂ SameStored hc.hits hits) ∧
    (∀ e, e ∉ cs.map (·.event) → (hitsFromDf tableCols false (cs.foldl storeHits [])).lookup e = none) := by
  rw [storeAll_eq, List.nil_append]
  have hblk : ∀ hc ∈ cs, rowsOf tableCols false (cs.flatMap fun hc => hc.hits.map (storeHit hc)) hc.event = hc.hits.map (storeHit hc) := by
    intro hc hhc
    have := PMapsIO.filter_blocks (fun r : Row => r.event) (fun hc : HitColl => hc.hits.map (storeHit hc)) (fun hc : HitColl => hc.event) cs
      (by
        intro a _ b hb
        obtain ⟨h, _, rfl⟩ := List.mem_map.mp hb
        rfl) hnd hc hhc
    rw [← this]
    unfold rowsOf
    refine List.filter_congr fun r _ => ?_
    rw [Bool.eq_iff_iff]
    simp [kept_false]
  have htime : ∀ hc ∈ cs, ∀ r ∈ (cs.flatMap fun hc => hc.hits.map (storeHit hc)), r.event = hc.event → TimeIs tableCols r hc.time := by
    intro hc hhc r hr he
    obtain ⟨hc2, hhc2, hr⟩ := List.mem_flatMap.mp hr
    obtain ⟨h, _, rfl⟩ := List.mem_map.mp hr
    have : hc2 = hc := List.inj_on_of_nodup_map hnd hhc2 hhc he
    subst this
    exact Or.inl ⟨rfl, rfl⟩
  refine ⟨?_, ?_, ?_⟩
  · intro hc hhc hn
    rw [event_complete _ _ _ _ _ (htime hc hhc), hblk hc hhc, hn]
    rfl
  · intro hc hhc hn
    refine ⟨(hc.hits.map (storeHit hc)).map (mkHit tableCols), ?_, ?_⟩
    · rw [event_complete _ _ _ _ _ (htime hc hhc), hblk hc hhc, if_neg (by simpa using hn)]
    · rw [List.map_map, List.forall₂_map_right_iff, List.forall₂_same]
      intro h hh
      refine ⟨rfl, rfl, rfl, ?_, rfl, rfl, rfl, rfl, rfl⟩
      change energyOf h.Q h.E = h.E
      unfold energyOf NN
      by_cases hE : h.E = -999999
      · rw [if_pos hE, hE, hwf hc hhc h hh hE]
      · rw [if_neg hE]
  · intro e he
    cases hl : (hitsFromDf tableCols false (cs.flatMap fun hc => hc.hits.map (storeHit hc))).lookup e with
    | none => rfl
    | some x =>
      obtain ⟨t, _, h2, _⟩ := (hitsFromDf_spec _ _ _ e x).mp hl
      obtain ⟨r, hr⟩ := List.exists_mem_of_ne_nil _ h2
      unfold selected at hr
      rw [List.mem_filter, decide_eq_true_eq] at hr
      obtain ⟨hc2, hhc2, hr2⟩ := List.mem_flatMap.mp hr.1
      obtain ⟨h, _, rfl⟩ := List.mem_map.mp hr2
      exact absurd (List.mem_map.mpr ⟨hc2, hhc2, hr.2.1⟩) he

/-- The hypothesis of `hits_round_trip` holds for every hit that is read. -/
theorem read_hit_wf (c : Cols) (r : Row) (h : (mkHit c r).E = -999999) : (mkHit c r).Q = -999999 := by
  change energyOf (chargeOf c r) r.E = -999999 at h
  change chargeOf c r = -999999
  unfold energyOf at h
  split at h
  · exact h
  · rename_i hn; exact absurd h hn

namespace Example
def h1 : Hit := ⟨70000, 1, 2, 3, 4, 5, 6, 7, 8, 9, 2, 11⟩
def stored : List HitColl := [⟨9, 1/2, [h1, { h1 with X := 5 }]⟩, ⟨3, 1, []⟩, ⟨4, 2, [h1]⟩]
end Example
open Example

/-- A round trip: the peak number, `Qc`, track and `Ep` are lost. -/
example : ((hitsFromDf tableCols false (stored.foldl storeHits [])).map fun p => (p.1, p.2.time, p.2.hits.map fun h => [(h.npeak : ℚ), h.X, h.E, h.Ec, h.Qc, h.track, h.Ep]))
    = [(4, 2, [[65535, 1, 6, 9, 0, 0, -1]]), (9, 1/2, [[65535, 1, 6, 9, 0, 0, -1], [65535, 5, 6, 9, 0, 0, -1]])] := by decide +kernel

example : (stored.map (·.event)).Nodup ∧ ∀ hc ∈ stored, ∀ h ∈ hc.hits, h.E = -999999 → h.Q = -999999 := by decide +kernel

theorem loadVoxels_lookup (e : Int) : ∀ (rows : List (Int × Voxel)) (d : List (Int × VoxelColl)),
    (loadVoxels rows d).lookup e = match d.lookup e, rows.filter (fun r => r.1 == e) with
      | none, [] => none
      | none, r :: rs => some ⟨(r :: rs).map Prod.snd, 0⟩
      | some c, rs => some { c with voxels := c.voxels ++ rs.map Prod.snd } := by
  intro rows
  induction rows with
  | nil =>
    intro d
    rw [loadVoxels, List.filter_nil]
    cases d.lookup e <;> simp
  | cons r rows ih =>
    intro d
    obtain ⟨k, v⟩ := r
    rw [loadVoxels, ih, lookup_setKey]
    by_cases hk : e = k
    · subst hk
      rw [if_pos rfl, List.filter_cons]
      simp only [beq_self_eq_true, if_true]
      cases d.lookup e with
      | none => simp [mkVoxels]
      | some c => simp
    · rw [if_neg hk, List.filter_cons]
      have : (k == e) = false := by simpa using fun h => hk h.symm
      simp only [this, Bool.false_eq_true, if_false]

theorem loadVoxels_keys : ∀ (rows : List (Int × Voxel)) (d : List (Int × VoxelColl)), (d.map Prod.fst).Nodup → ((loadVoxels rows d).map Prod.fst).Nodup := by
  intro rows
  induction rows with
  | nil => intro d h; exact h
  | cons r rows ih =>
    intro d h
    obtain ⟨k, v⟩ := r
    rw [loadVoxels]
    apply ih
    rw [keys_setKey]
    split
    · exact h
    · rename_i hn
      rw [List.nodup_append]
      refine ⟨h, List.nodup_singleton _, ?_⟩
      intro a ha b hb
      rw [List.mem_singleton] at hb
      subst hb
      intro hab
      exact hn (hab ▸ ha)

/-- C93: whatever the sequence of writes, the voxels read for an event are all those written for it, in order; events without voxels are not in the file. -/
theorem voxels_round_trip (ws : List (Int × List Voxel)) (e : Int) :
    ((loadVoxels (ws.foldl (fun t w => writeVoxels t w.1 w.2) []) []).lookup e).map (·.voxels) =
      (match ((ws.filter fun w => w.1 == e).flatMap Prod.snd) with
        | [] => none
        | v :: vs => some (v :: vs)) ∧
    ((loadVoxels (ws.foldl (fun t w => writeVoxels t w.1 w.2) []) []).map Prod.fst).Nodup := by
  refine ⟨?_, loadVoxels_keys _ _ List.nodup_nil⟩
  rw [loadVoxels_lookup]
  have : ∀ (ws : List (Int × List Voxel)) (t : List (Int × Voxel)), ((ws.foldl (fun t w => writeVoxels t w.1 w.2) t).filter fun r => r.1 == e).map Prod.snd
      = (t.filter fun r => r.1 == e).map Prod.snd ++ ((ws.filter fun w => w.1 == e).flatMap Prod.snd) := by
    intro ws
    induction ws with
    | nil => intro t; simp
    | cons w ws ih =>
      intro t
      rw [List.foldl_cons, ih, writeVoxels, List.filter_append, List.map_append, List.append_assoc]
      congr 1
      rw [List.filter_cons]
      by_cases hw : w.1 = e
      · have : (List.map (fun v => (w.1, v)) w.2).filter (fun r => r.1 == e) = List.map (fun v => (w.1, v)) w.2 := by
          rw [List.filter_eq_self]
          intro r hr
          obtain ⟨v, _, rfl⟩ := List.mem_map.mp hr
          simpa using hw
        rw [this, if_pos (by simpa using hw), List.flatMap_cons, List.map_map]
        congr 1
        simp [Function.comp_def]
      · have : (List.map (fun v => (w.1, v)) w.2).filter (fun r => r.1 == e) = [] := by
          rw [List.filter_eq_nil_iff]
          intro r hr
          obtain ⟨v, _, rfl⟩ := List.mem_map.mp hr
          simpa using hw
        rw [this, if_neg (by simpa using hw)]
        rfl
  have h := this ws []
  rw [List.filter_nil, List.map_nil, List.nil_append] at h
  rw [← h]
  cases (ws.foldl (fun t w => writeVoxels t w.1 w.2) []).filter (fun r => r.1 == e) with
  | nil => rfl
  | cons r rs => rfl

/-- C93: finding: the energy of every collection that is read is zero, as it is computed before the voxels are added. -/
theorem voxels_energy_lost (rows : List (Int × Voxel)) (e : Int) (c : VoxelColl) (h : (loadVoxels rows []).lookup e = some c) : c.E = 0 := by
  rw [loadVoxels_lookup] at h
  cases hf : rows.filter (fun r => r.1 == e) with
  | nil => rw [hf] at h; simp at h
  | cons r rs =>
    rw [hf] at h
    simp only [List.lookup_nil, Option.some.injEq] at h
    rw [← h]

namespace Example
def v1 : Voxel := ⟨1, 2, 3, 4, (1, 1, 1)⟩
end Example

/-- Two writes for event 5. -/
example : ((loadVoxels ([(5, [v1]), (2, []), (7, [v1]), (5, [{ v1 with X := 9 }])].foldl (fun t w => writeVoxels t w.1 w.2) []) []).map
    fun p => (p.1, p.2.voxels.map (·.X), p.2.E)) = [(5, [1, 9], 0), (7, [1], 0)] := by decide +kernel

theorem storeVoxels_spec : ∀ (vs : List Voxel) (row : TrackRow) (j : Nat),
    (storeVoxels row j vs).1 = vs.zipIdx.map fun x => if x.2 = 0 then trackRow row.event row.time row.track j x.1 else trackRow 0 0 0 (j + x.2) x.1 := by
  intro vs
  induction vs with
  | nil => intro row j; rfl
  | cons v vs ih =>
    intro row j
    rw [storeVoxels, List.zipIdx_cons, List.map_cons]
    simp only [ih, if_true]
    congr 1
    rw [List.zipIdx_eq_map_add (i := 0 + 1), List.map_map]
    refine List.map_congr_left fun x _ => ?_
    simp only [Function.comp_apply, Nat.zero_add]
    have h1 : ¬ (1 + x.2 = 0) := by omega
    have h2 : j + 1 + x.2 = j + (1 + x.2) := by omega
    rw [if_neg h1, ← h2]
    by_cases hx : x.2 = 0
    · rw [if_pos hx, hx]; rfl
    · rw [if_neg hx]

theorem storeTracks_from (event : Int) (time : ℚ) : ∀ (ts : List (List Voxel)) (row : TrackRow) (i : Nat),
    storeTracks event time row i ts = (ts.zipIdx i).flatMap fun t => t.1.zipIdx.map fun x =>
      if x.2 = 0 then trackRow event time t.2 0 x.1 else trackRow 0 0 0 x.2 x.1 := by
  intro ts
  induction ts with
  | nil => intro row i; rfl
  | cons t ts ih =>
    intro row i
    rw [storeTracks, List.zipIdx_cons, List.flatMap_cons, ih]
    simp only [storeVoxels_spec, Nat.zero_add]

/-- C93: one row per voxel of each track, in order; only the row of the first voxel of a track has the event, the time and the number of the track. -/
theorem storeTracks_spec (event : Int) (time : ℚ) (ts : List (List Voxel)) :
    storeTracks event time TrackRow.empty 0 ts = ts.zipIdx.flatMap fun t => t.1.zipIdx.map fun x =>
      if x.2 = 0 then trackRow event time t.2 0 x.1 else trackRow 0 0 0 x.2 x.1 := storeTracks_from event time ts TrackRow.empty 0

/-- Finding: the second voxel of each track is stored as belonging to event 0. -/
theorem tracks_event_lost : (storeTracks 8 1 TrackRow.empty 0 [[v1, v1], [v1, v1, v1]]).map (fun r => (r.event, r.time, r.track, r.voxel))
    = [(8, 1, 0, 0), (0, 0, 0, 1), (8, 1, 1, 0), (0, 0, 0, 1), (0, 0, 0, 2)] := by decide +kernel

end Verif.HitsIO
