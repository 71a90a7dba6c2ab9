import Verif.Model.Paolina
import Verif.Props.DropVoxels
import Verif.Props.Voxels
import Verif.Props.Tracks
import Verif.Props.Blobs
import Verif.Props.Sources
/-!
# C50: the topological reconstruction of an event
-/
namespace Verif.Paolina
open Verif.Voxels Verif.Tracks

/-! ### Specification -/

/-- What identifies a row of hits: everything but the energy. -/
def key (h : EHit) : ℚ × ℚ × ℚ × Nat := (h.x, h.y, h.z, h.tag)

/-- The hits of the output with a given `track_id`. -/
def withTrack (outs : List OutHit) (i : Int) : List OutHit := outs.filter fun o => o.track == i

/-- The energy of rows (NaN counts as nothing). -/
def energyOf (hs : List EHit) : ℚ := (hs.map fun h => h.ep.getD 0).sum

/-- The hits that will be used: some are inside the map, and those have positive energies. -/
structure Usable (hits : List EHit) : Prop where
  some_in : ∃ h ∈ hits, h.ep ≠ none
  pos : ∀ h ∈ hits, ∀ e, h.ep = some e → 0 < e

/-- Positive voxel sizes. -/
structure Params.Ok (p : Params) : Prop where
  dx : 0 < p.dx
  dy : 0 < p.dy
  dz : 0 < p.dz

/-! ### Lemmas -/

def pkey (h : PHit) : ℚ × ℚ × ℚ × Nat := (h.x, h.y, h.z, h.tag)

theorem key_round_ep (h : EHit) : (roundHit h).ep = h.ep := rfl

theorem usable_round {hits : List EHit} (h : Usable hits) : Usable (hits.map roundHit) := by
  refine ⟨?_, ?_⟩
  · obtain ⟨g, hg, he⟩ := h.some_in
    exact ⟨roundHit g, List.mem_map.2 ⟨g, hg, rfl⟩, he⟩
  · intro g hg e he
    obtain ⟨g', hg', rfl⟩ := List.mem_map.1 hg
    exact h.pos g' hg' e he

/-- The voxels contain all the hits, each once. -/
theorem voxelize_perm (hits : List PHit) (dx dy dz : ℚ) (strict : Bool) (hx : 0 < dx) (hy : 0 < dy) (hz : 0 < dz)
    (vs : List Voxel) (h : voxelizeHits hits dx dy dz strict = .ok vs) (hpos : ∀ p ∈ hits, 0 < p.e) :
    (vs.flatMap Voxel.hits).Perm hits := by
  have hne : hits ≠ [] := by rintro rfl; cases h
  obtain ⟨nx, ny, nz, cell, mk, s, h1, h2, h3, h4, _⟩ := voxelize_cells (strict := strict) hx hy hz hne
  rw [h1] at h; cases h
  refine List.Perm.trans ?_ (Sources.perm_groups cell (cells nx ny nz) hits (cells_nodup nx ny nz) h2)
  rw [List.flatMap_map]
  have : ∀ cs : List (Nat × Nat × Nat), (∀ c ∈ cs, c ∈ cells nx ny nz) →
      ((cs.filter fun c => decide (total (hits.filter fun h => cell h == c) ≠ 0)).flatMap fun c => (mk c).hits) =
      (cs.map fun c => hits.filter fun h => cell h == c).flatten := by
    intro cs
    induction cs with
    | nil => intro _; rfl
    | cons c cs ih =>
      intro hm
      have ih := ih fun c' hc' => hm c' (List.mem_cons_of_mem _ hc')
      have he := (h3 c (hm c List.mem_cons_self)).2.1
      by_cases hc : total (hits.filter fun h => cell h == c) = 0
      · rw [List.filter_cons_of_neg (by simpa using hc), ih, List.map_cons, List.flatten_cons]
        have : (hits.filter fun h => cell h == c) = [] := by
          rw [List.eq_nil_iff_forall_not_mem]
          intro q hq
          have h1 : q.e ≤ total (hits.filter fun h => cell h == c) := by
            apply List.single_le_sum
            · intro x hx
              obtain ⟨r, hr, rfl⟩ := List.mem_map.1 hx
              exact (hpos r (List.mem_filter.1 hr).1).le
            · exact List.mem_map.2 ⟨q, hq, rfl⟩
          have := hpos q (List.mem_filter.1 hq).1
          linarith
        rw [this, List.nil_append]
      · rw [List.filter_cons_of_pos (by simpa using hc), List.flatMap_cons, ih, List.map_cons, List.flatten_cons, he]
  rw [this _ fun c hc => hc]
  apply List.Perm.of_eq
  congr 1
  apply List.map_congr_left
  intro c _
  apply List.filter_congr
  intro q _
  rw [Bool.eq_iff_iff]
  simp

theorem nodesOf_vox (vs : List Voxel) : (nodesOf vs).map Node.vox = vs := by
  unfold nodesOf
  rw [List.map_map]
  show (vs.zipIdx.map fun q => q.1) = vs
  simp

theorem nodesOf_ids (vs : List Voxel) : ((nodesOf vs).map Node.id).Nodup := by
  unfold nodesOf
  rw [List.map_map]
  show (vs.zipIdx.map fun q => q.2).Nodup
  rw [show (vs.zipIdx.map fun q => q.2) = vs.zipIdx.map Prod.snd from rfl, List.zipIdx_map_snd]
  exact List.nodup_range'

theorem hitsOf_nodesOf (vs : List Voxel) : hitsOf (nodesOf vs) = vs.flatMap Voxel.hits := by
  conv_rhs => rw [← nodesOf_vox vs]
  rw [List.flatMap_map]; rfl

/-- The rows of the hits are not changed by `drop_end_point_voxels`. -/
theorem hitsOf_shape (vs : List Node) : (hitsOf (vs.map shape)).map pkey = (hitsOf vs).map pkey := by
  induction vs with
  | nil => rfl
  | cons v vs ih =>
    simp only [hitsOf, List.map_cons, List.flatMap_cons, List.map_append] at ih ⊢
    rw [ih]
    congr 1
    simp [shape, pkey, Function.comp_def]

theorem hitsOf_perm {vs ws : List Node} (h : vs.Perm ws) : (hitsOf vs).Perm (hitsOf ws) := h.flatMap_right _

theorem sortTracks_perm (ts : List (List Node)) : (sortTracks ts).Perm ts := List.perm_insertionSort _ _

theorem sortTracks_sorted (ts : List (List Node)) : (sortTracks ts).Pairwise fun a b => trackEnergy b ≤ trackEnergy a := by
  haveI : IsTrans (List Node) fun a b => trackEnergy b ≤ trackEnergy a := ⟨fun a b c h1 h2 => h2.trans h1⟩
  haveI : Std.Total fun a b : List Node => trackEnergy b ≤ trackEnergy a := ⟨fun a b => le_total _ _⟩
  exact List.pairwise_insertionSort _ ts

theorem trackEnergy_eq (t : List Node) : trackEnergy t = total (hitsOf t) := by
  unfold trackEnergy hitsOf total
  induction t with
  | nil => rfl
  | cons v t ih => simp only [List.map_cons, List.sum_cons, List.flatMap_cons, List.map_append, List.sum_append, ih]

/-- What happens in a call that processes the hits. -/
structure Reco (p : Params) (event : Int) (hits : List EHit) (rows : List TrackRow) (outs : List OutHit) (vs : List Voxel) (kept dropped : List Node) : Prop where
  vox : voxelizeHits ((inMap hits).map toPHit) p.dx p.dy p.dz p.strict = .ok vs
  drop : dropEndPointVoxels p.drop (nodesOf vs) = .done kept dropped
  rows : trackRows p event (sizeOf vs) (sortTracks (makeTrackGraphs kept .corner)) = .ok rows
  outs : outs = (outMap hits).map noTrack ++ (hitsOf dropped).map (fun h => noTrack (fromDropped h)) ++ trackHits (sortTracks (makeTrackGraphs kept .corner))

theorem process_reco {p : Params} {event : Int} {hits : List EHit} {rows : List TrackRow} {outs : List OutHit} {oom : Bool}
    (hu : Usable hits) (h : process p event hits = .returns rows outs oom) :
    (∃ vs kept dropped, Reco p event hits rows outs vs kept dropped) ∧ oom = !(outMap hits).isEmpty := by
  obtain ⟨g, hg, hge⟩ := hu.some_in
  obtain ⟨e, he⟩ := Option.ne_none_iff_exists'.1 hge
  have hgi : g ∈ inMap hits := List.mem_filter.2 ⟨hg, by simp [he]⟩
  have hpos := hu.pos g hg e he
  unfold process at h
  rw [if_neg] at h
  · split at h
    · cases h
    · rename_i vs hv
      split at h
      · cases h
      · cases h
      · rename_i kept dropped hd
        unfold finish at h
        split at h
        · cases h
        · rename_i rows' hr
          cases h
          exact ⟨⟨vs, kept, dropped, hv, hd, hr, rfl⟩, rfl⟩
  · have h1 : (inMap hits).isEmpty = false := by
      cases hc : inMap hits with
      | nil => rw [hc] at hgi; cases hgi
      | cons _ _ => rfl
    have h2 : (inMap hits).any (fun h => decide (0 < h.ep.getD 0)) = true := List.any_eq_true.2 ⟨g, hgi, by simp [he, hpos]⟩
    simp [h1, h2]

section reco
variable {p : Params} {event : Int} {hits : List EHit} {rows : List TrackRow} {outs : List OutHit} {vs : List Voxel} {kept dropped : List Node}

theorem Reco.inMap_pos (hu : Usable hits) : ∀ q ∈ (inMap hits).map toPHit, 0 < q.e := by
  intro q hq
  obtain ⟨h, hh, rfl⟩ := List.mem_map.1 hq
  obtain ⟨h1, h2⟩ := List.mem_filter.1 hh
  obtain ⟨e, he⟩ := Option.isSome_iff_exists.1 h2
  have := hu.pos h h1 e he
  simp [toPHit, he, this]

theorem Reco.kept_ids (r : Reco p event hits rows outs vs kept dropped) : (kept.map Node.id).Nodup := by
  have := (drop_partition (nodesOf_ids vs) r.drop).map Node.id
  rw [List.map_map, List.map_map, show (Node.id ∘ shape) = Node.id from rfl] at this
  have hn := this.nodup_iff.2 (nodesOf_ids vs)
  rw [List.map_append] at hn
  exact (List.nodup_append.1 hn).1

theorem Reco.kept_nodup (r : Reco p event hits rows outs vs kept dropped) : kept.Nodup := List.Nodup.of_map _ r.kept_ids

/-- The tracks put together are the voxels kept. -/
theorem Reco.tracks_perm (r : Reco p event hits rows outs vs kept dropped) :
    (sortTracks (makeTrackGraphs kept .corner)).flatten.Perm kept :=
  ((sortTracks_perm _).flatten).trans (tracks_partition kept r.kept_nodup .corner).1

theorem flatMap_hitsOf (ts : List (List Node)) : ts.flatMap hitsOf = hitsOf ts.flatten := by
  induction ts with
  | nil => rfl
  | cons t ts ih => simp only [List.flatMap_cons, ih, List.flatten_cons, hitsOf, List.flatMap_append]

theorem trackHits_hits (ts : List (List Node)) : (trackHits ts).map OutHit.hit = (hitsOf ts.flatten).map fromPHit := by
  unfold trackHits
  rw [List.map_flatMap]
  simp only [List.map_map, Function.comp_def]
  rw [← flatMap_hitsOf, List.map_flatMap]
  have : ∀ k : Nat, ((ts.zipIdx k).flatMap fun q => (hitsOf q.1).map fun h => fromPHit h) = ts.flatMap fun t => (hitsOf t).map fromPHit := by
    induction ts with
    | nil => intro k; rfl
    | cons t ts ih => intro k; simp only [List.zipIdx_cons, List.flatMap_cons, ih]
  exact this 0

theorem inMap_outMap (hits : List EHit) : (outMap hits ++ inMap hits).Perm hits := by
  unfold outMap inMap
  have := List.filter_append_perm (fun h : EHit => h.ep.isNone) hits
  convert this using 2
  apply List.filter_congr
  intro h _
  cases h.ep <;> rfl

theorem Reco.hits_perm (hp : p.Ok) (hu : Usable hits) (r : Reco p event hits rows outs vs kept dropped) :
    (outs.map fun o => key o.hit).Perm (hits.map key) := by
  have h1 := voxelize_perm _ _ _ _ _ hp.dx hp.dy hp.dz vs r.vox (Reco.inMap_pos hu)
  have h2 := (hitsOf_perm (drop_partition (nodesOf_ids vs) r.drop)).map pkey
  rw [hitsOf_shape, hitsOf_shape, hitsOf_nodesOf] at h2
  have h3 : ((hitsOf dropped).map pkey ++ (hitsOf (sortTracks (makeTrackGraphs kept .corner)).flatten).map pkey).Perm ((inMap hits).map key) := by
    have e : (inMap hits).map key = ((inMap hits).map toPHit).map pkey := by rw [List.map_map]; rfl
    rw [e]
    refine List.Perm.trans ?_ (h2.trans (h1.map pkey))
    have : hitsOf (kept ++ dropped) = hitsOf kept ++ hitsOf dropped := List.flatMap_append
    rw [this, List.map_append]
    refine List.Perm.trans ?_ List.perm_append_comm
    exact ((hitsOf_perm r.tracks_perm).map pkey).append_left _
  rw [r.outs, List.map_append, List.map_append, List.map_map, List.map_map, List.append_assoc]
  have e1 : (trackHits (sortTracks (makeTrackGraphs kept .corner))).map (fun o => key o.hit) =
      (hitsOf (sortTracks (makeTrackGraphs kept .corner)).flatten).map pkey := by
    have := congrArg (List.map key) (trackHits_hits (sortTracks (makeTrackGraphs kept .corner)))
    rw [List.map_map, List.map_map] at this
    exact this
  rw [e1]
  have e2 : ((fun o : OutHit => key o.hit) ∘ noTrack) = key := rfl
  have e3 : ((fun o : OutHit => key o.hit) ∘ fun h => noTrack (fromDropped h)) = pkey := rfl
  rw [e2, e3]
  refine (h3.append_left _).trans ?_
  rw [← List.map_append]
  exact (inMap_outMap hits).map key

end reco

/-! ### Positive energies -/

def PosHits (vs : List Node) : Prop := ∀ v ∈ vs, ∀ h ∈ v.vox.hits, 0 < h.e

theorem sum_pos_of {l : List PHit} (hne : l ≠ []) (h : ∀ q ∈ l, 0 < q.e) : 0 < (l.map PHit.e).sum := by
  cases l with
  | nil => exact absurd rfl hne
  | cons q qs =>
    have h1 := h q List.mem_cons_self
    have h2 : 0 ≤ (qs.map PHit.e).sum := List.sum_nonneg (by
      intro x hx
      obtain ⟨r, hr, rfl⟩ := List.mem_map.1 hx
      exact (h r (List.mem_cons_of_mem _ hr)).le)
    rw [List.map_cons, List.sum_cons]; linarith

theorem dropVoxel_pos {p : DropParams} {vs vs' : List Node} {the : Node} (hv : PosHits vs) (hthe : the.vox.hits ≠ []) (he : 0 < the.vox.e)
    (h : dropVoxel p vs the = .ok vs') : PosHits vs' := by
  unfold dropVoxel at h
  rw [if_neg (by simpa using hthe)] at h
  simp only [dropWithHits] at h
  split at h
  · cases h
  rename_i bary _
  split at h
  · cases h
  split at h
  · cases h
  rename_i minDist _
  split at h
  · cases h
  rename_i htot
  cases h
  generalize hclose : (fun h : PHit => isclose (p.dist (hitPos h) bary) minDist) = close at htot ⊢
  generalize hT : ((vs.filter fun v => neighbours the.vox v.vox).map fun v => ((v.vox.hits.filter close).map PHit.e).sum).sum = T at htot ⊢
  have hT0 : 0 < T := by
    apply lt_of_le_of_ne _ (Ne.symm htot)
    rw [← hT]
    apply List.sum_nonneg
    intro x hx
    obtain ⟨v, hv', rfl⟩ := List.mem_map.1 hx
    apply List.sum_nonneg
    intro y hy
    obtain ⟨q, hq, rfl⟩ := List.mem_map.1 hy
    exact (hv v (List.mem_filter.1 hv').1 q (List.mem_filter.1 hq).1).le
  have hk : 0 < 1 + the.vox.e / T := by
    have := div_pos he hT0
    linarith
  intro v hv' q hq
  obtain ⟨w, hw, rfl⟩ := List.mem_map.1 hv'
  split at hq
  · simp only [recompute, scaleHits, List.mem_map] at hq
    obtain ⟨q', hq', rfl⟩ := hq
    have := hv w hw q' hq'
    simp only
    split
    · exact mul_pos this hk
    · exact this
  · exact hv w hw q hq

theorem drop_pos {p : DropParams} {vs kept dropped : List Node} (hid : (vs.map Node.id).Nodup) (hv : FromHits vs) (hpos : PosHits vs)
    (h : dropEndPointVoxels p vs = .done kept dropped) : PosHits kept := by
  obtain ⟨_, h⟩ := dropEnd_loop h
  have := dropLoop_inv (p := p) (fun st => (st.voxels.map Node.id).Nodup ∧ FromHits st.voxels ∧ PosHits st.voxels)
    (fun s _ id _ st st' ext hI hD => by
      have hx := hI.2.1 ext hD.mem
      obtain ⟨h1, h2⟩ := dropVoxel_fromHits (fun v hv => hI.2.1 v (List.mem_filter.1 hv).1) hx.1 hD.moved
      refine ⟨hD.ids hI.1, h1, ?_⟩
      refine dropVoxel_pos (fun v hv => hI.2.2 v (List.mem_filter.1 hv).1) hx.1 ?_ hD.moved
      rw [hx.2]
      exact sum_pos_of hx.1 (hI.2.2 ext hD.mem)) ⟨hid, hv, hpos⟩ h
  exact this.1.2.2

theorem mem_nodesOf {vs : List Voxel} {v : Node} (h : v ∈ nodesOf vs) : v.vox ∈ vs := by
  have : v.vox ∈ (nodesOf vs).map Node.vox := List.mem_map.2 ⟨v, h, rfl⟩
  rwa [nodesOf_vox] at this

theorem voxels_fromHits {hits : List PHit} {dx dy dz : ℚ} {strict : Bool} (hx : 0 < dx) (hy : 0 < dy) (hz : 0 < dz)
    {vs : List Voxel} (h : voxelizeHits hits dx dy dz strict = .ok vs) (hpos : ∀ p ∈ hits, 0 < p.e) :
    FromHits (nodesOf vs) ∧ PosHits (nodesOf vs) := by
  have hne : hits ≠ [] := by rintro rfl; cases h
  obtain ⟨vs', s, h1, _, _, _, _, _, h2⟩ := voxelize_spec hits dx dy dz strict hx hy hz hne
  rw [h1] at h; cases h
  constructor
  · intro v hv
    obtain ⟨_, h3, h4, _, _⟩ := h2 _ (mem_nodesOf hv)
    refine ⟨?_, h3⟩
    intro hc
    rw [hc] at h3
    exact h4 (by rw [h3]; rfl)
  · intro v hv q hq
    exact hpos q ((h2 _ (mem_nodesOf hv)).2.2.2.1.subset hq)

/-! ### The rows -/

theorem trackRow_ok {p : Params} {event : Int} {n : Nat} {size : Point} {id : Nat} {t : List Node} {row : TrackRow}
    (h : trackRow p event n size id t = .ok row) : ∃ ave a b len b1 b2, averagePosition (hitsOf t) = .ok ave ∧
      findExtremaAndLength (p.paths t) = .ok (some (a, b), len) ∧ blobs t (p.paths t) p.blobRadius p.scanRadius p.diag = .ok (b1, b2) ∧
      row = makeRow p event n size id t ave a b len b1 b2 := by
  unfold trackRow at h
  split at h
  · cases h
  rename_i ave h1
  split at h
  · cases h
  · cases h
  rename_i a b len h2
  split at h
  · cases h
  rename_i b1 b2 h3
  cases h
  exact ⟨ave, a, b, len, b1, b2, h1, h2, h3, rfl⟩

theorem trackRows_ok {p : Params} {event : Int} {size : Point} {ts : List (List Node)} {rows : List TrackRow}
    (h : trackRows p event size ts = .ok rows) : rows.length = ts.length ∧
      ∀ (i : Nat) (row : TrackRow), rows[i]? = some row → ∃ t, ts[i]? = some t ∧ trackRow p event ts.length size i t = .ok row := by
  unfold trackRows at h
  rw [mapM_ok_iff] at h
  have hl := h.length_eq
  rw [List.length_zipIdx] at hl
  refine ⟨hl.symm, ?_⟩
  intro i row hr
  have hi : i < ts.length := by
    have := (List.getElem?_eq_some_iff.1 hr).1
    omega
  have ht : ts[i]? = some ts[i] := List.getElem?_eq_getElem hi
  refine ⟨ts[i], ht, ?_⟩
  have hz : ts.zipIdx[i]? = some (ts[i], i) := by
    rw [List.getElem?_zipIdx, ht]; simp
  exact forall₂_getElem? h i _ _ hz hr

/-- The hits with a track number are those of that track. -/
theorem trackHits_filter (ts : List (List Node)) (i : Nat) (t : List Node) (h : ts[i]? = some t) :
    (trackHits ts).filter (fun o => o.track == (i : Int)) = (hitsOf t).map fun q => ⟨fromPHit q, i⟩ := by
  unfold trackHits
  have : ∀ (ts : List (List Node)) (k : Nat), k ≤ i → ts[i - k]? = some t →
      ((ts.zipIdx k).flatMap fun q => (hitsOf q.1).map fun h => (⟨fromPHit h, q.2⟩ : OutHit)).filter (fun o => o.track == (i : Int)) =
        (hitsOf t).map fun q => ⟨fromPHit q, i⟩ := by
    intro ts
    induction ts with
    | nil => intro k _ h; simp at h
    | cons u us ih =>
      intro k hk h
      rw [List.zipIdx_cons, List.flatMap_cons, List.filter_append]
      by_cases hki : k = i
      · subst hki
        rw [Nat.sub_self, List.getElem?_cons_zero] at h
        have hut := Option.some.inj h
        subst hut
        have h1 : ((hitsOf u).map fun h => (⟨fromPHit h, (k : Int)⟩ : OutHit)).filter (fun o => o.track == (k : Int)) = (hitsOf u).map fun h => ⟨fromPHit h, k⟩ := by
          rw [List.filter_eq_self]
          intro o ho
          obtain ⟨q, _, rfl⟩ := List.mem_map.1 ho
          simp
        have h2 : ((us.zipIdx (k + 1)).flatMap fun q => (hitsOf q.1).map fun h => (⟨fromPHit h, q.2⟩ : OutHit)).filter (fun o => o.track == (k : Int)) = [] := by
          rw [List.filter_eq_nil_iff]
          intro o ho
          obtain ⟨q, hq, ho⟩ := List.mem_flatMap.1 ho
          obtain ⟨g, _, rfl⟩ := List.mem_map.1 ho
          have hq' : k + 1 ≤ q.2 := (List.mem_zipIdx hq).1
          simp only [beq_iff_eq]
          omega
        rw [h1, h2, List.append_nil]
      · have h1 : ((hitsOf u).map fun h => (⟨fromPHit h, (k : Int)⟩ : OutHit)).filter (fun o => o.track == (i : Int)) = [] := by
          rw [List.filter_eq_nil_iff]
          intro o ho
          obtain ⟨q, _, rfl⟩ := List.mem_map.1 ho
          simp only [beq_iff_eq]
          omega
        rw [h1, List.nil_append]
        apply ih (k + 1) (by omega)
        rw [show i - k = (i - (k + 1)) + 1 by omega, List.getElem?_cons_succ] at h
        exact h
  exact this ts 0 (Nat.zero_le _) h

theorem withTrack_reco {p : Params} {event : Int} {hits : List EHit} {rows : List TrackRow} {outs : List OutHit} {vs : List Voxel} {kept dropped : List Node}
    (r : Reco p event hits rows outs vs kept dropped) {i : Nat} {t : List Node} (h : (sortTracks (makeTrackGraphs kept .corner))[i]? = some t) :
    withTrack outs i = (hitsOf t).map fun q => ⟨fromPHit q, i⟩ := by
  unfold withTrack
  rw [r.outs, List.filter_append, List.filter_append, trackHits_filter _ i t h]
  have h1 : ((outMap hits).map noTrack).filter (fun o => o.track == (i : Int)) = [] := by
    rw [List.filter_eq_nil_iff]
    intro o ho
    obtain ⟨q, _, rfl⟩ := List.mem_map.1 ho
    simp only [noTrack, beq_iff_eq]
    omega
  have h2 : ((hitsOf dropped).map fun h => noTrack (fromDropped h)).filter (fun o => o.track == (i : Int)) = [] := by
    rw [List.filter_eq_nil_iff]
    intro o ho
    obtain ⟨q, _, rfl⟩ := List.mem_map.1 ho
    simp only [noTrack, beq_iff_eq]
    omega
  rw [h1, h2]; rfl

theorem extract_process {p : Params} {event : Int} {hits : List EHit} {rows : List TrackRow} {outs : List OutHit} {oom : Bool}
    (hlen : hits.length ≤ p.maxHits) (hu : Usable hits) (h : extract p event hits = .returns rows outs oom) :
    (∃ vs kept dropped, Reco p event (hits.map roundHit) rows outs vs kept dropped) ∧ oom = !(outMap (hits.map roundHit)).isEmpty := by
  unfold extract at h
  rw [if_neg (by omega), if_neg] at h
  · exact process_reco (usable_round hu) h
  · obtain ⟨g, hg, _⟩ := hu.some_in
    cases hits with
    | nil => cases hg
    | cons _ _ => simp

/-- A track: non-empty, all its voxels were kept. -/
theorem track_of {kept : List Node} (hn : kept.Nodup) {i : Nat} {t : List Node} (h : (sortTracks (makeTrackGraphs kept .corner))[i]? = some t) :
    t ≠ [] ∧ ∀ v ∈ t, v ∈ kept := by
  have hm : t ∈ makeTrackGraphs kept .corner := (sortTracks_perm _).mem_iff.1 (List.mem_of_getElem? h)
  obtain ⟨h1, h2⟩ := tracks_partition kept hn .corner
  exact ⟨h2 t hm, fun v hv => h1.mem_iff.1 (List.mem_flatten.2 ⟨t, hm, hv⟩)⟩

theorem hitsOf_ne {kept t : List Node} (hk : FromHits kept) (ht : t ≠ [] ∧ ∀ v ∈ t, v ∈ kept) : hitsOf t ≠ [] := by
  obtain ⟨h1, h2⟩ := ht
  cases t with
  | nil => exact absurd rfl h1
  | cons v t =>
    have := (hk v (h2 v List.mem_cons_self)).1
    intro hc
    rw [hitsOf, List.flatMap_cons, List.append_eq_nil_iff] at hc
    exact this hc.1

theorem hitsOf_pos {kept t : List Node} (hk : PosHits kept) (ht : ∀ v ∈ t, v ∈ kept) : ∀ q ∈ hitsOf t, 0 < q.e := by
  intro q hq
  obtain ⟨v, hv, hq⟩ := List.mem_flatMap.1 hq
  exact hk v (ht v hv) q hq

theorem length_hitsOf (t : List Node) : (t.map fun v => v.vox.hits.length).sum = (hitsOf t).length := by
  rw [hitsOf, List.length_flatMap]

theorem Reco.facts {p : Params} {event : Int} {hits : List EHit} {rows : List TrackRow} {outs : List OutHit} {vs : List Voxel} {kept dropped : List Node}
    (hp : p.Ok) (hu : Usable hits) (r : Reco p event hits rows outs vs kept dropped) : FromHits kept ∧ PosHits kept ∧ totalEnergy kept = totalEnergy (nodesOf vs) := by
  obtain ⟨h1, h2⟩ := voxels_fromHits hp.dx hp.dy hp.dz r.vox (Reco.inMap_pos hu)
  obtain ⟨h3, h4⟩ := drop_conserves_hits (nodesOf_ids vs) h1 r.drop
  exact ⟨h3, drop_pos (nodesOf_ids vs) h1 h2 r.drop, h4⟩

/-! ### C50 -/

/-- **C50** Every hit of the event is in the output exactly once, at its (rounded) position. -/
theorem extract_hits {p : Params} (hp : p.Ok) {event : Int} {hits : List EHit} (hu : Usable hits) (hlen : hits.length ≤ p.maxHits)
    {rows : List TrackRow} {outs : List OutHit} {oom : Bool} (h : extract p event hits = .returns rows outs oom) :
    (outs.map fun o => key o.hit).Perm (hits.map fun g => key (roundHit g)) := by
  obtain ⟨⟨vs, kept, dropped, r⟩, _⟩ := extract_process hlen hu h
  have := r.hits_perm hp (usable_round hu)
  rwa [List.map_map] at this

/-- **C50** The flag tells whether some hit is outside the map. -/
theorem extract_flag {p : Params} {event : Int} {hits : List EHit} (hu : Usable hits) (hlen : hits.length ≤ p.maxHits)
    {rows : List TrackRow} {outs : List OutHit} {oom : Bool} (h : extract p event hits = .returns rows outs oom) :
    oom = true ↔ ∃ g ∈ hits, g.ep = none := by
  obtain ⟨_, ho⟩ := extract_process hlen hu h
  rw [ho]
  simp only [Bool.not_eq_true', List.isEmpty_eq_false_iff_exists_mem, outMap, List.mem_filter, List.mem_map]
  constructor
  · rintro ⟨g, ⟨g', hg', rfl⟩, hg⟩
    exact ⟨g', hg', by simpa [roundHit] using hg⟩
  · rintro ⟨g, hg, he⟩
    exact ⟨roundHit g, ⟨g, hg, rfl⟩, by simp [roundHit, he]⟩

/-- **C50** The tracks: there is at least one; they are numbered from zero in the order of decreasing energy; the number of hits and the energy of a track are those
of the hits of the output with its number, which are at least one, with positive energy. -/
theorem extract_tracks {p : Params} (hp : p.Ok) {event : Int} {hits : List EHit} (hu : Usable hits) (hlen : hits.length ≤ p.maxHits)
    {rows : List TrackRow} {outs : List OutHit} {oom : Bool} (h : extract p event hits = .returns rows outs oom) :
    rows ≠ [] ∧ rows.Pairwise (fun a b => b.energy ≤ a.energy) ∧
    (∀ (i : Nat) (row : TrackRow), rows[i]? = some row → row.event = event ∧ row.id = i ∧ row.nTracks = rows.length ∧ 0 < row.nVoxels ∧
      0 < row.nHits ∧ row.nHits = (withTrack outs i).length ∧ 0 < row.energy ∧ row.energy = energyOf ((withTrack outs i).map OutHit.hit)) := by
  obtain ⟨⟨vs, kept, dropped, r⟩, _⟩ := extract_process hlen hu h
  obtain ⟨f1, f2, _⟩ := r.facts hp (usable_round hu)
  obtain ⟨g1, g2⟩ := trackRows_ok r.rows
  refine ⟨?_, ?_, ?_⟩
  · intro hc
    rw [hc, List.length_nil, eq_comm, List.length_eq_zero_iff] at g1
    have := r.tracks_perm
    rw [g1, List.flatten_nil] at this
    exact drop_keeps (nodesOf_ids vs) r.drop this.symm.eq_nil
  · rw [List.pairwise_iff_getElem]
    intro i j hi hj hij
    obtain ⟨t, ht, hr⟩ := g2 i rows[i] (List.getElem?_eq_getElem hi)
    obtain ⟨t', ht', hr'⟩ := g2 j rows[j] (List.getElem?_eq_getElem hj)
    obtain ⟨_, _, _, _, _, _, _, _, _, e⟩ := trackRow_ok hr
    obtain ⟨_, _, _, _, _, _, _, _, _, e'⟩ := trackRow_ok hr'
    rw [e, e']
    have hs := List.pairwise_iff_getElem.1 (sortTracks_sorted (makeTrackGraphs kept .corner)) i j (by omega) (by omega) hij
    rw [(List.getElem?_eq_some_iff.1 ht).2, (List.getElem?_eq_some_iff.1 ht').2] at hs
    exact hs
  · intro i row hrow
    obtain ⟨t, ht, hr⟩ := g2 i row hrow
    obtain ⟨_, _, _, _, _, _, _, _, _, e⟩ := trackRow_ok hr
    have tk := track_of r.kept_nodup ht
    have hw := withTrack_reco r ht
    have hne := hitsOf_ne f1 tk
    have hpos := hitsOf_pos f2 tk.2
    rw [e, hw]
    refine ⟨rfl, rfl, g1.symm, List.length_pos_iff.2 tk.1, ?_, ?_, ?_, ?_⟩
    · show 0 < (t.map fun v => v.vox.hits.length).sum
      rw [length_hitsOf]; exact List.length_pos_iff.2 hne
    · show (t.map fun v => v.vox.hits.length).sum = _
      rw [length_hitsOf, List.length_map]
    · show 0 < trackEnergy t
      rw [trackEnergy_eq]; exact sum_pos_of hne hpos
    · show trackEnergy t = _
      rw [trackEnergy_eq, energyOf, List.map_map, List.map_map]
      rfl

/-- **C50** A hit of the output either has the number of one of the tracks and a positive energy, or has number -1 and no energy. -/
theorem extract_track_id {p : Params} (hp : p.Ok) {event : Int} {hits : List EHit} (hu : Usable hits) (hlen : hits.length ≤ p.maxHits)
    {rows : List TrackRow} {outs : List OutHit} {oom : Bool} (h : extract p event hits = .returns rows outs oom) :
    ∀ o ∈ outs, (o.track = -1 ∧ o.hit.ep = none) ∨ ∃ (i : Nat) (e : ℚ), i < rows.length ∧ o.track = i ∧ o.hit.ep = some e ∧ 0 < e := by
  obtain ⟨⟨vs, kept, dropped, r⟩, _⟩ := extract_process hlen hu h
  obtain ⟨f1, f2, _⟩ := r.facts hp (usable_round hu)
  obtain ⟨g1, _⟩ := trackRows_ok r.rows
  intro o ho
  rw [r.outs, List.mem_append, List.mem_append] at ho
  rcases ho with (ho | ho) | ho
  · obtain ⟨q, hq, rfl⟩ := List.mem_map.1 ho
    have hn : q.ep = none := by simpa using (List.mem_filter.1 hq).2
    exact Or.inl ⟨rfl, hn⟩
  · obtain ⟨q, hq, rfl⟩ := List.mem_map.1 ho
    exact Or.inl ⟨rfl, rfl⟩
  · obtain ⟨q, hq, ho⟩ := List.mem_flatMap.1 ho
    obtain ⟨g, hg, rfl⟩ := List.mem_map.1 ho
    have hz := List.mem_zipIdx hq
    have ht : (sortTracks (makeTrackGraphs kept .corner))[q.2]? = some q.1 := by
      rw [List.getElem?_eq_some_iff]
      exact ⟨by omega, by simpa using hz.2.2.symm⟩
    exact Or.inr ⟨q.2, g.e, by omega, rfl, rfl, hitsOf_pos f2 (track_of r.kept_nodup ht).2 g hg⟩

/-- **C50** The energies of the tracks add up to the energy of the hits inside the map. -/
theorem extract_energy {p : Params} (hp : p.Ok) {event : Int} {hits : List EHit} (hu : Usable hits) (hlen : hits.length ≤ p.maxHits)
    {rows : List TrackRow} {outs : List OutHit} {oom : Bool} (h : extract p event hits = .returns rows outs oom) :
    (rows.map TrackRow.energy).sum = energyOf hits := by
  obtain ⟨⟨vs, kept, dropped, r⟩, _⟩ := extract_process hlen hu h
  obtain ⟨f1, f2, f3⟩ := r.facts hp (usable_round hu)
  obtain ⟨g1, g2⟩ := trackRows_ok r.rows
  have e1 : rows.map TrackRow.energy = (sortTracks (makeTrackGraphs kept .corner)).map trackEnergy := by
    apply List.ext_getElem
    · simp [g1]
    · intro i hi hi'
      rw [List.getElem_map, List.getElem_map]
      have hi2 : i < rows.length := by simpa using hi
      obtain ⟨t, ht, hr⟩ := g2 i rows[i] (List.getElem?_eq_getElem hi2)
      obtain ⟨_, _, _, _, _, _, _, _, _, e⟩ := trackRow_ok hr
      rw [e, (List.getElem?_eq_some_iff.1 ht).2]
      rfl
  have e2 : ∀ ts : List (List Node), (ts.map trackEnergy).sum = trackEnergy ts.flatten := by
    intro ts
    induction ts with
    | nil => rfl
    | cons t ts ih => rw [List.map_cons, List.sum_cons, ih, List.flatten_cons]; simp [trackEnergy]
  have e3 : trackEnergy kept = totalEnergy kept := by
    unfold trackEnergy totalEnergy
    congr 1
    apply List.map_congr_left
    intro v hv
    rw [(f1 v hv).2]
  rw [e1, e2, show trackEnergy (sortTracks (makeTrackGraphs kept .corner)).flatten = trackEnergy kept from (r.tracks_perm.map _).sum_eq, e3, f3]
  have e4 : totalEnergy (nodesOf vs) = (vs.map Voxel.e).sum := by
    conv_rhs => rw [← nodesOf_vox vs]
    rw [List.map_map]; rfl
  rw [e4, voxelize_energy _ _ _ _ _ hp.dx hp.dy hp.dz vs r.vox]
  have e5 : ∀ hs : List EHit, total ((inMap (hs.map roundHit)).map toPHit) = energyOf hs := by
    intro hs
    induction hs with
    | nil => rfl
    | cons g gs ih =>
      simp only [inMap, List.map_cons, energyOf, total] at ih ⊢
      cases hge : g.ep with
      | none =>
        rw [List.filter_cons_of_neg (by simp [roundHit, hge])]
        simp only [Option.getD_none, List.sum_cons, zero_add]
        exact ih
      | some e =>
        rw [List.filter_cons_of_pos (by simp [roundHit, hge])]
        simp only [List.map_cons, List.sum_cons, Option.getD_some]
        rw [ih]
        simp [toPHit, roundHit, hge]
  exact e5 hits

/-- **C50** Too many hits: nothing is done, all the hits are returned without track and the flag is set. -/
theorem extract_too_many (p : Params) (event : Int) (hits : List EHit) (h : p.maxHits < hits.length) :
    extract p event hits = .returns [] (hits.map noTrack) true := by
  unfold extract
  rw [if_pos h]

end Verif.Paolina
