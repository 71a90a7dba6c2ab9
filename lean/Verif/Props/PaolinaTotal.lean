import Verif.Props.PaolinaTracks
/-!
# C50: the reconstruction succeeds; cases
-/
namespace Verif.Paolina
open Verif.Voxels Verif.Tracks

/-! ### Specification -/

/-- Voxels of a grid: at different positions, and of the same size. -/
def Grid (vs : List Node) : Prop := (vs.map fun v => (v.vox.x, v.vox.y, v.vox.z)).Nodup ∧ ∃ s : ℚ × ℚ × ℚ, ∀ v ∈ vs, (v.vox.sx, v.vox.sy, v.vox.sz) = s

/-- The contract of `shortest_paths`, for the tracks made of voxels of a grid: a complete table of distances, symmetric, zero from a voxel to itself and positive between different ones. -/
def GoodPaths (paths : List Node → Table Node) : Prop := ∀ vs : List Node, vs.Nodup → Grid vs → ∀ t ∈ makeTrackGraphs vs .corner, ∃ dist : Node → Node → ℚ, IsTable (paths t) t dist ∧
  (∀ a ∈ t, ∀ b ∈ t, dist a b = dist b a) ∧ (∀ a ∈ t, dist a a = 0) ∧ (∀ a ∈ t, ∀ b ∈ t, a ≠ b → 0 < dist a b)

/-! ### Lemmas -/

theorem Grid.of_subperm {vs ws : List Node} (h : Grid vs) (hs : (ws.map shape).Subperm (vs.map shape)) : Grid ws := by
  obtain ⟨l, hl, hsub⟩ := hs
  have e : ∀ us : List Node, (us.map fun v => (v.vox.x, v.vox.y, v.vox.z)) = (us.map shape).map fun v => (v.vox.x, v.vox.y, v.vox.z) := by
    intro us; rw [List.map_map]; rfl
  refine ⟨?_, ?_⟩
  · rw [e, (hl.symm.map _).nodup_iff]
    have := h.1
    rw [e] at this
    exact this.sublist (hsub.map _)
  · obtain ⟨s, hs⟩ := h.2
    refine ⟨s, fun v hv => ?_⟩
    have h1 : shape v ∈ vs.map shape := hsub.subset (hl.symm.subset (List.mem_map.2 ⟨v, hv, rfl⟩))
    obtain ⟨u, hu, hue⟩ := List.mem_map.1 h1
    have h2 := hs u hu
    have h3 : (v.vox.sx, v.vox.sy, v.vox.sz) = ((shape v).vox.sx, (shape v).vox.sy, (shape v).vox.sz) := rfl
    rw [h3, ← hue]
    exact h2

/-- The voxels of an event are those of a grid. -/
theorem voxels_grid {hits : List PHit} {dx dy dz : ℚ} {strict : Bool} (hx : 0 < dx) (hy : 0 < dy) (hz : 0 < dz)
    {vs : List Voxel} (h : voxelizeHits hits dx dy dz strict = .ok vs) : Grid (nodesOf vs) := by
  have hne : hits ≠ [] := by rintro rfl; cases h
  obtain ⟨nx, ny, nz, cell, mk, s, h1, h2, h3, h4, _⟩ := voxelize_cells (strict := strict) hx hy hz hne
  rw [h1] at h; cases h
  refine ⟨?_, ?_⟩
  · have e : ∀ us : List Voxel, ((nodesOf us).map fun v => (v.vox.x, v.vox.y, v.vox.z)) = us.map fun v => (v.x, v.y, v.z) := by
      intro us
      have := congrArg (List.map fun v : Voxel => (v.x, v.y, v.z)) (nodesOf_vox us)
      rw [← this, List.map_map]; rfl
    rw [e, List.map_map, List.nodup_map_iff_inj_on ((cells_nodup nx ny nz).filter _)]
    intro c hc c' hc' he
    exact h4 c (List.mem_filter.1 hc).1 c' (List.mem_filter.1 hc').1 he
  · refine ⟨(s .x, s .y, s .z), fun v hv => ?_⟩
    obtain ⟨c, hc, hce⟩ := List.mem_map.1 (mem_nodesOf hv)
    have := (h3 c (List.mem_filter.1 hc).1).2.2.1
    rw [← hce]
    rw [← this]
    rfl

theorem extrema_exist {t : List Node} {table : Table Node} {dist : Node → Node → ℚ} (h : IsTable table t dist)
    (symm : ∀ a ∈ t, ∀ b ∈ t, dist a b = dist b a) (self : ∀ a ∈ t, dist a a = 0)
    (pos : ∀ a ∈ t, ∀ b ∈ t, a ≠ b → 0 < dist a b) (hne : t ≠ []) :
    ∃ a b l, findExtremaAndLength table = .ok (some (a, b), l) ∧ a ∈ t ∧ b ∈ t := by
  by_cases two : 2 ≤ t.length
  · obtain ⟨a, b, h1, h2, h3, _, _⟩ := extrema_spec table t dist h symm self pos two
    exact ⟨a, b, _, h1, h2, h3⟩
  · have hk := h.keys_perm
    clear h symm self pos
    match t, hne, two, hk with
    | _ :: _ :: _, _, two, _ => exact absurd (by simp) two
    | [v], _, _, hk =>
      have hk := List.perm_singleton.1 hk
      match table, hk with
      | [(v', row)], hk =>
        simp only [List.map_cons, List.map_nil, List.cons.injEq, and_true] at hk
        subst hk
        exact ⟨v', v', 0, rfl, by simp, by simp⟩

theorem highestNode_ok {t : List Node} {table : Table Node} {dist : Node → Node → ℚ} (h : IsTable table t dist) {n : Node} (hn : n ∈ t) (self : dist n n = 0)
    (big small : ℚ) (hbig : 0 ≤ big) : ∃ m, highestNode t n table big small = .ok m ∧ m ∈ t := by
  obtain ⟨row, hr, hl⟩ := table_lookup h hn
  have hcand : ((t.map fun v => (v, dist n v)).filter fun p => decide (p.2 ≤ big)).map Prod.fst = t.filter fun v => decide (dist n v ≤ big) := by
    rw [List.filter_map, List.map_map]
    simp [Function.comp_def]
  simp only [highestNode, hr, distancesTo_ok hl, hcand]
  have hin : n ∈ t.filter fun v => decide (dist n v ≤ big) := List.mem_filter.2 ⟨hn, by simpa [self] using hbig⟩
  cases hc : t.filter fun v => decide (dist n v ≤ big) with
  | nil => rw [hc] at hin; cases hin
  | cons m ms =>
    refine ⟨_, rfl, ?_⟩
    obtain ⟨i1, _, _⟩ := maxBy_spec (fun v => energyWithin ((table.lookup v).getD []) small) ms m
    have hsub : ∀ v ∈ m :: ms, v ∈ t := fun v hv => by rw [← hc] at hv; exact (List.mem_filter.1 hv).1
    rcases i1 with e | e
    · rw [e]; exact hsub m List.mem_cons_self
    · exact hsub _ (List.mem_cons_of_mem _ e)

theorem blobs_ok {t : List Node} {table : Table Node} {dist : Node → Node → ℚ} (h : IsTable table t dist)
    (symm : ∀ a ∈ t, ∀ b ∈ t, dist a b = dist b a) (self : ∀ a ∈ t, dist a a = 0)
    (pos : ∀ a ∈ t, ∀ b ∈ t, a ≠ b → 0 < dist a b) (hne : t ≠ []) (radius : ℚ) (big : Option ℚ) (hbig : ∀ r, big = some r → 0 ≤ r) (diag : Node → ℚ) :
    ∃ b1 b2, blobs t table radius big diag = .ok (b1, b2) := by
  obtain ⟨a, b, l, hf, ha, hb⟩ := extrema_exist h symm self pos hne
  have core : ∀ a ∈ t, ∀ b ∈ t, ∃ ha hb, hitsInBlob t table radius a diag = .ok ha ∧ hitsInBlob t table radius b diag = .ok hb := by
    intro a ha b hb
    obtain ⟨hsa, ea, _⟩ := hitsInBlob_spec h radius diag ha
    obtain ⟨hsb, eb, _⟩ := hitsInBlob_spec h radius diag hb
    exact ⟨hsa, hsb, ea, eb⟩
  cases big with
  | none =>
    obtain ⟨hsa, hsb, ea, eb⟩ := core a ha b hb
    simp only [blobs, hf, ea, eb]
    repeat' split
    all_goals exact ⟨_, _, rfl⟩
  | some r =>
    obtain ⟨a', e1, ha'⟩ := highestNode_ok h ha (self a ha) r radius (hbig r rfl)
    obtain ⟨b', e2, hb'⟩ := highestNode_ok h hb (self b hb) r radius (hbig r rfl)
    obtain ⟨hsa, hsb, ea, eb⟩ := core a' ha' b' hb'
    simp only [blobs, hf, e1, e2, ea, eb]
    repeat' split
    all_goals exact ⟨_, _, rfl⟩

theorem averagePosition_defined {hs : List PHit} (hne : hs ≠ []) (hpos : ∀ q ∈ hs, 0 < q.e) : ∃ p, averagePosition hs = .ok p := by
  unfold averagePosition
  simp only
  rw [if_neg (sum_pos_of hne hpos).ne']
  exact ⟨_, rfl⟩

theorem isclose_self (a : ℚ) : isclose a a = true := by
  unfold isclose
  rw [decide_eq_true_eq, sub_self, abs_zero]
  positivity

theorem neighbours_self (v : Voxel) (c : Contiguity) : neighbours v v c = true := by
  unfold neighbours
  rw [decide_eq_true_eq]
  simp only [sub_self, zero_div]
  cases c <;> norm_num [Contiguity.value]

theorem pyMin_ok {xs : List ℚ} (h : xs ≠ []) : ∃ m ∈ xs, pyMin xs = .ok m := by
  cases xs with
  | nil => exact absurd rfl h
  | cons x xs => exact ⟨npMin (x :: xs), npMin_mem h, rfl⟩

/-- Dropping a voxel with hits succeeds if another voxel is its neighbour. -/
theorem dropVoxel_ok {p : DropParams} {vs : List Node} {the : Node} (hv : FromHits vs) (hp : PosHits vs) (hthe : the.vox.hits ≠ []) (hpos : ∀ q ∈ the.vox.hits, 0 < q.e)
    (hn : ∃ v ∈ vs, neighbours the.vox v.vox = true) : ∃ vs', dropVoxel p vs the = .ok vs' := by
  unfold dropVoxel
  rw [if_neg (by simpa using hthe)]
  obtain ⟨bary, hb⟩ := averagePosition_defined hthe hpos
  simp only [dropWithHits, hb]
  obtain ⟨v0, hv0, hn0⟩ := hn
  obtain ⟨mins, hm⟩ := mapM_ok (f := fun v : Node => pyMin (v.vox.hits.map fun h => p.dist (hitPos h) bary))
    (xs := vs.filter fun v => neighbours the.vox v.vox) (fun v hvm => by
      obtain ⟨m, _, e⟩ := pyMin_ok (xs := v.vox.hits.map fun h => p.dist (hitPos h) bary) (by simpa using (hv v (List.mem_filter.1 hvm).1).1)
      exact ⟨m, e⟩)
  rw [hm]
  rw [mapM_ok_iff] at hm
  have hmne : mins ≠ [] := by
    intro hc
    have hl := hm.length_eq
    rw [hc, List.length_nil, List.length_eq_zero_iff] at hl
    have : v0 ∈ vs.filter fun v => neighbours the.vox v.vox := List.mem_filter.2 ⟨hv0, hn0⟩
    rw [hl] at this; cases this
  obtain ⟨m, hmm, hmin⟩ := pyMin_ok hmne
  simp only [hmin]
  rw [if_neg]
  · exact ⟨_, rfl⟩
  · obtain ⟨i, hi⟩ := List.mem_iff_getElem?.1 hmm
    obtain ⟨v1, hv1⟩ : ∃ v1, (vs.filter fun v => neighbours the.vox v.vox)[i]? = some v1 := by
      have hl := hm.length_eq
      have := (List.getElem?_eq_some_iff.1 hi).1
      exact ⟨_, List.getElem?_eq_getElem (by omega)⟩
    have he := forall₂_getElem? hm i _ _ hv1 hi
    have hv1m := List.mem_of_getElem? hv1
    have hv1v := (List.mem_filter.1 hv1m).1
    have hne1 := (hv v1 hv1v).1
    obtain ⟨m', hm'm, e'⟩ := pyMin_ok (xs := v1.vox.hits.map fun h => p.dist (hitPos h) bary) (by simpa using hne1)
    rw [e'] at he
    cases he
    obtain ⟨q, hq, hqe⟩ := List.mem_map.1 hm'm
    apply ne_of_gt
    have hin : ∀ v ∈ vs.filter (fun v => neighbours the.vox v.vox), 0 ≤ ((v.vox.hits.filter fun h : PHit => isclose (p.dist (hitPos h) bary) m).map PHit.e).sum := by
      intro v hvm
      apply List.sum_nonneg
      intro y hy
      obtain ⟨g, hg, rfl⟩ := List.mem_map.1 hy
      exact (hp v (List.mem_filter.1 hvm).1 g (List.mem_filter.1 hg).1).le
    have h1 : ((v1.vox.hits.filter fun h : PHit => isclose (p.dist (hitPos h) bary) m).map PHit.e).sum ≤
        ((vs.filter fun v => neighbours the.vox v.vox).map fun v => ((v.vox.hits.filter fun h : PHit => isclose (p.dist (hitPos h) bary) m).map PHit.e).sum).sum := by
      apply List.single_le_sum
      · intro x hx
        obtain ⟨v, hvm, rfl⟩ := List.mem_map.1 hx
        exact hin v hvm
      · exact List.mem_map.2 ⟨v1, hv1m, rfl⟩
    have h2 : 0 < ((v1.vox.hits.filter fun h : PHit => isclose (p.dist (hitPos h) bary) m).map PHit.e).sum := by
      apply sum_pos_of
      · apply List.ne_nil_of_mem (a := q)
        exact List.mem_filter.2 ⟨hq, by rw [hqe]; exact isclose_self m⟩
      · intro g hg
        exact hp v1 hv1v g (List.mem_filter.1 hg).1
    linarith

/-- The voxels of a pass. -/
structure Good (st : DState) : Prop where
  ids : (st.voxels.map Node.id).Nodup
  hits : FromHits st.voxels
  pos : PosHits st.voxels
  grid : Grid st.voxels

theorem Good.step {p : DropParams} {id : Nat} {st st' : DState} {ext : Node} (hI : Good st) (hD : Drop p id st st' ext) : Good st' := by
  have hx := hI.hits ext hD.mem
  obtain ⟨h1, h2⟩ := dropVoxel_fromHits (fun v hv => hI.hits v (List.mem_filter.1 hv).1) hx.1 hD.moved
  refine ⟨hD.ids hI.ids, h1, ?_, ?_⟩
  rotate_left
  · refine hI.grid.of_subperm ?_
    rw [dropVoxel_shape hD.moved]
    exact (List.filter_sublist.map _).subperm
  refine dropVoxel_pos (fun v hv => hI.pos v (List.mem_filter.1 hv).1) hx.1 ?_ hD.moved
  rw [hx.2]
  exact sum_pos_of hx.1 (hI.pos ext hD.mem)

theorem tryDrop_ok {p : DropParams} (hc : p.contiguity = .corner) {st : DState} (hI : Good st) (id : Nat) :
    ∃ st' m, tryDrop p st id = .ok (st', m) ∧ Good st' := by
  have key : ∀ st' m, tryDrop p st id = .ok (st', m) → Good st' := by
    intro st' m h
    rcases tryDrop_cases h with ⟨e, _, _⟩ | ⟨_, ext, D⟩
    · rw [e]; exact hI
    · exact hI.step D
  have : ∃ st' m, tryDrop p st id = .ok (st', m) := by
    unfold tryDrop
    split
    · exact ⟨_, _, rfl⟩
    · rename_i ext hf
      have hm := List.mem_of_find?_eq_some hf
      have hid : ext.id = id := by simpa using List.find?_some hf
      split
      · split
        · rename_i hcount
          have hx := hI.hits ext hm
          have hn : ∃ v ∈ st.voxels.filter (fun v => v.id != id), neighbours ext.vox v.vox = true := by
            by_contra hno
            push Not at hno
            rw [hc] at hcount
            have : (st.voxels.countP fun v => neighbours ext.vox v.vox) ≤ 1 := by
              rw [List.countP_eq_length_filter]
              have hsub : ∀ v ∈ st.voxels.filter (fun v => neighbours ext.vox v.vox), v = ext := by
                intro v hv
                obtain ⟨h1, h2⟩ := List.mem_filter.1 hv
                by_contra hne
                have hvi : v.id ≠ id := fun he => hne (List.inj_on_of_nodup_map hI.ids h1 hm (he.trans hid.symm))
                exact hno v (List.mem_filter.2 ⟨h1, by simpa using hvi⟩) h2
              have hnd : (st.voxels.filter fun v => neighbours ext.vox v.vox).Nodup := (List.Nodup.of_map _ hI.ids).filter _
              rw [List.eq_replicate_of_mem hsub] at hnd
              exact List.nodup_replicate.1 hnd
            omega
          obtain ⟨vs', hd⟩ := dropVoxel_ok (p := p) (vs := st.voxels.filter fun v => v.id != id) (the := ext)
            (fun v hv => hI.hits v (List.mem_filter.1 hv).1) (fun v hv => hI.pos v (List.mem_filter.1 hv).1) hx.1 (hI.pos ext hm) hn
          rw [hd]
          exact ⟨_, _, rfl⟩
        · exact ⟨_, _, rfl⟩
      · exact ⟨_, _, rfl⟩
  obtain ⟨st', m, h⟩ := this
  exact ⟨st', m, h, key st' m h⟩

theorem passTracks_ok {p : DropParams} (hc : p.contiguity = .corner) (hg : GoodPaths p.paths) : ∀ (ts : List (List Node)), (∀ t ∈ ts, (∃ vs : List Node, vs.Nodup ∧ Grid vs ∧ t ∈ makeTrackGraphs vs .corner) ∧ t ≠ [] ∧ t.Nodup) →
    ∀ (st : DState) (m : Bool), Good st → ∃ st' m', passTracks p ts st m = .ok (st', m') ∧ Good st'
  | [], _, st, m, hI => ⟨st, m, rfl, hI⟩
  | t :: ts, hts, st, m, hI => by
    rw [passTracks]
    have ih := passTracks_ok hc hg ts fun t' ht' => hts t' (List.mem_cons_of_mem _ ht')
    split
    · exact ih st m hI
    · obtain ⟨⟨vs, v1, v2, v3⟩, h1, h2⟩ := hts t List.mem_cons_self
      obtain ⟨dist, d1, d2, d3, d4⟩ := hg vs v1 v2 t v3
      obtain ⟨a, b, l, hf, _, _⟩ := extrema_exist d1 d2 d3 d4 h1
      rw [hf]
      obtain ⟨st1, m1, e1, g1⟩ := tryDrop_ok hc hI a.id
      obtain ⟨st2, m2, e2, g2⟩ := tryDrop_ok hc g1 b.id
      simp only [e1, e2]
      exact ih st2 _ g2

theorem tracks_good {vs : List Node} (hn : vs.Nodup) (c : Contiguity) : ∀ t ∈ makeTrackGraphs vs c, t ≠ [] ∧ t.Nodup := by
  obtain ⟨h1, h2⟩ := tracks_partition vs hn c
  intro t ht
  refine ⟨h2 t ht, ?_⟩
  have := h1.nodup_iff.2 hn
  rw [List.nodup_flatten] at this
  exact this.1 t ht

theorem Good.tracks {st : DState} (hI : Good st) : ∀ t ∈ makeTrackGraphs st.voxels .corner,
    (∃ vs : List Node, vs.Nodup ∧ Grid vs ∧ t ∈ makeTrackGraphs vs .corner) ∧ t ≠ [] ∧ t.Nodup :=
  fun t ht => ⟨⟨st.voxels, List.Nodup.of_map _ hI.ids, hI.grid, ht⟩, tracks_good (List.Nodup.of_map _ hI.ids) .corner t ht⟩

theorem dropLoop_ok {p : DropParams} (hc : p.contiguity = .corner) (hg : GoodPaths p.paths) (st : DState) (hI : Good st) :
    ∃ kept dropped, dropLoop p st = .done kept dropped := by
  induction st using dropLoop.induct p with
  | case1 st e he =>
    obtain ⟨_, _, h, _⟩ := passTracks_ok hc hg (makeTrackGraphs st.voxels p.contiguity) (by rw [hc]; exact hI.tracks) st false hI
    rw [he] at h; cases h
  | case2 st st' hlt hp ih =>
    obtain ⟨_, _, h, g⟩ := passTracks_ok hc hg (makeTrackGraphs st.voxels p.contiguity) (by rw [hc]; exact hI.tracks) st false hI
    rw [hp] at h
    cases h
    obtain ⟨k, d, hd⟩ := ih g
    refine ⟨k, d, ?_⟩
    rw [dropLoop]
    simpa only [hp, if_pos, hlt] using hd
  | case3 st st' hlt hp =>
    exfalso
    have := dropLoop_ends (p := p) st
    rw [dropLoop] at this
    simp [hp, hlt] at this
  | case4 st st' m hp hm =>
    rw [dropLoop]
    simp [hp, hm]

/-- **C30** Dropping the end-point voxels never fails on the voxels of a grid made from hits with positive energies. -/
theorem drop_succeeds {p : DropParams} (hc : p.contiguity = .corner) (hg : GoodPaths p.paths) {vs : List Node} (hne : vs ≠ []) (hid : (vs.map Node.id).Nodup)
    (hf : FromHits vs) (hpos : ∀ v ∈ vs, ∀ h ∈ v.vox.hits, 0 < h.e) (hgrid : Grid vs) : ∃ kept dropped, dropEndPointVoxels p vs = .done kept dropped := by
  unfold dropEndPointVoxels
  rw [if_neg (by simpa using hne)]
  exact dropLoop_ok hc hg ⟨vs, []⟩ ⟨hid, hf, hpos, hgrid⟩

/-! ### C50 -/

/-- **C50** The reconstruction succeeds for hits with positive energies, whatever their positions. -/
theorem extract_succeeds {p : Params} (hp : p.Ok) (hg : GoodPaths p.paths) (hs : ∀ r, p.scanRadius = some r → 0 ≤ r) (event : Int) {hits : List EHit} (hu : Usable hits) :
    ∃ rows outs oom, extract p event hits = .returns rows outs oom := by
  unfold extract
  split
  · exact ⟨_, _, _, rfl⟩
  rw [if_neg (by obtain ⟨g, hg', _⟩ := hu.some_in; cases hits with | nil => cases hg' | cons _ _ => simp)]
  have hu := usable_round hu
  generalize hits.map roundHit = hits at hu
  unfold process
  split
  · exact ⟨_, _, _, rfl⟩
  have hpos := Reco.inMap_pos hu
  have hne : (inMap hits).map toPHit ≠ [] := by
    obtain ⟨g, hg', he⟩ := hu.some_in
    apply List.ne_nil_of_mem (a := toPHit g)
    exact List.mem_map.2 ⟨g, List.mem_filter.2 ⟨hg', Option.isSome_iff_ne_none.2 he⟩, rfl⟩
  obtain ⟨vs, s, hv, _⟩ := voxelize_spec _ p.dx p.dy p.dz p.strict hp.dx hp.dy hp.dz hne
  have hperm := voxelize_perm _ _ _ _ _ hp.dx hp.dy hp.dz vs hv hpos
  have hvne : vs ≠ [] := by
    rintro rfl
    exact hne hperm.symm.eq_nil
  obtain ⟨f1, f2⟩ := voxels_fromHits hp.dx hp.dy hp.dz hv hpos
  have hnn : nodesOf vs ≠ [] := by
    intro hc
    have := nodesOf_vox vs
    rw [hc] at this
    exact hvne this.symm
  obtain ⟨kept, dropped, hd⟩ := drop_succeeds (p := p.drop) rfl hg hnn (nodesOf_ids vs) f1 f2 (voxels_grid hp.dx hp.dy hp.dz hv)
  simp only [hv, hd]
  unfold finish
  have k1 := (drop_conserves_hits (nodesOf_ids vs) f1 hd).1
  have k2 := drop_pos (nodesOf_ids vs) f1 f2 hd
  have hkn : kept.Nodup := by
    have := (drop_partition (nodesOf_ids vs) hd).map Node.id
    rw [List.map_map, List.map_map, show (Node.id ∘ shape) = Node.id from rfl] at this
    have hn := this.nodup_iff.2 (nodesOf_ids vs)
    rw [List.map_append] at hn
    exact List.Nodup.of_map _ (List.nodup_append.1 hn).1
  have hkg : Grid kept := (voxels_grid hp.dx hp.dy hp.dz hv).of_subperm (by
    have := drop_partition (nodesOf_ids vs) hd
    rw [List.map_append] at this
    exact ⟨kept.map shape, .refl _, (List.sublist_append_left _ _)⟩ |> fun h => List.Subperm.trans h this.subperm)
  have : ∃ rows, trackRows p event (sizeOf vs) (sortTracks (makeTrackGraphs kept .corner)) = .ok rows := by
    unfold trackRows
    apply mapM_ok
    intro q hq
    have hz := List.mem_zipIdx hq
    have ht : (sortTracks (makeTrackGraphs kept .corner))[q.2]? = some q.1 := by
      rw [List.getElem?_eq_some_iff]
      exact ⟨by omega, by simpa using hz.2.2.symm⟩
    have tk := track_of hkn ht
    have hm : q.1 ∈ makeTrackGraphs kept .corner := (sortTracks_perm _).mem_iff.1 (List.mem_of_getElem? ht)
    obtain ⟨ave, ha⟩ := averagePosition_defined (hitsOf_ne k1 tk) (hitsOf_pos k2 tk.2)
    obtain ⟨t1, t2⟩ := tracks_good hkn .corner q.1 hm
    obtain ⟨dist, d1, d2, d3, d4⟩ := hg kept hkn hkg q.1 hm
    obtain ⟨a, b, l, hf, _, _⟩ := extrema_exist d1 d2 d3 d4 t1
    obtain ⟨b1, b2, hb⟩ := blobs_ok d1 d2 d3 d4 t1 p.blobRadius p.scanRadius hs p.diag
    refine ⟨makeRow p event (sortTracks (makeTrackGraphs kept .corner)).length (sizeOf vs) q.2 q.1 ave a b l b1 b2, ?_⟩
    unfold trackRow
    simp only [ha, hf, hb]
  obtain ⟨rows, hr⟩ := this
  simp only [hr]
  exact ⟨_, _, _, rfl⟩

/-- **C50** The extremes of a track: the hits of track `i` are those of some voxels `t`; the two extremes are positions of voxels of `t`, different ones if there are two or more; the length is
the distance between them along the track, and no two voxels of `t` are farther apart. -/
theorem extract_extremes {p : Params} (hp : p.Ok) (hg : GoodPaths p.paths) {event : Int} {hits : List EHit} (hu : Usable hits) (hlen : hits.length ≤ p.maxHits)
    {rows : List TrackRow} {outs : List OutHit} {oom : Bool} (h : extract p event hits = .returns rows outs oom) :
    ∀ (i : Nat) (row : TrackRow), rows[i]? = some row → ∃ (t : List Node) (dist : Node → Node → ℚ) (a b : Node),
      (withTrack outs i).map OutHit.hit = (hitsOf t).map fromPHit ∧ row.nVoxels = t.length ∧ t.Nodup ∧ IsTable (p.paths t) t dist ∧
      a ∈ t ∧ b ∈ t ∧ (2 ≤ t.length → a ≠ b) ∧ row.extreme1 = ⟨a.vox.x, a.vox.y, a.vox.z⟩ ∧ row.extreme2 = ⟨b.vox.x, b.vox.y, b.vox.z⟩ ∧
      row.length = dist a b ∧ ∀ u ∈ t, ∀ v ∈ t, dist u v ≤ row.length := by
  obtain ⟨⟨vs, kept, dropped, r⟩, _⟩ := extract_process hlen hu h
  obtain ⟨_, g2⟩ := trackRows_ok r.rows
  intro i row hrow
  obtain ⟨t, ht, hr⟩ := g2 i row hrow
  obtain ⟨ave, a, b, len, b1, b2, _, hf, _, e⟩ := trackRow_ok hr
  have hm : t ∈ makeTrackGraphs kept .corner := (sortTracks_perm _).mem_iff.1 (List.mem_of_getElem? ht)
  obtain ⟨t1, t2⟩ := tracks_good r.kept_nodup .corner t hm
  have hkg : Grid kept := (voxels_grid hp.dx hp.dy hp.dz r.vox).of_subperm (by
    have := drop_partition (nodesOf_ids vs) r.drop
    rw [List.map_append] at this
    exact ⟨kept.map shape, .refl _, (List.sublist_append_left _ _)⟩ |> fun h => List.Subperm.trans h this.subperm)
  obtain ⟨dist, d1, d2, d3, d4⟩ := hg kept r.kept_nodup hkg t hm
  have hw : (withTrack outs i).map OutHit.hit = (hitsOf t).map fromPHit := by
    rw [withTrack_reco r ht, List.map_map]; rfl
  by_cases two : 2 ≤ t.length
  · obtain ⟨a', b', h1, h2, h3, h4, h5⟩ := extrema_spec (p.paths t) t dist d1 d2 d3 d4 two
    rw [h1] at hf
    cases hf
    subst e
    exact ⟨t, dist, a, b, hw, rfl, t2, d1, h2, h3, fun _ => h4, rfl, rfl, rfl, h5⟩
  · obtain ⟨v, rfl⟩ : ∃ v, t = [v] := by
      match t, t1, two with
      | [v], _, _ => exact ⟨v, rfl⟩
      | _ :: _ :: _, _, two => exact absurd (by simp) two
    have hk := List.perm_singleton.1 d1.keys_perm
    have hp : ∃ row', p.paths [v] = [(v, row')] := by
      generalize p.paths [v] = tb at hk
      match tb, hk with
      | [(v', row')], hk =>
        simp only [List.map_cons, List.map_nil, List.cons.injEq, and_true] at hk
        subst hk
        exact ⟨row', rfl⟩
    obtain ⟨row', hp⟩ := hp
    rw [hp] at hf
    cases hf
    subst e
    refine ⟨[a], dist, a, a, hw, rfl, t2, d1, by simp, by simp, fun h2 => absurd h2 two, rfl, rfl, (d3 a (by simp)).symm, ?_⟩
    intro u hu w hw
    rw [List.mem_singleton.1 hu, List.mem_singleton.1 hw]
    exact (d3 a (by simp)).le

/-! ### Cases -/

/-- A distance between different voxels that is never zero. -/
def caseDist (a b : Node) : ℚ := if a = b then 0 else 1 + |a.vox.x - b.vox.x|
def casePaths (t : List Node) : Table Node := t.map fun v => (v, t.map fun w => (w, caseDist v w))

theorem lookup_map {t : List Node} {f : Node → ℚ} {b : Node} (h : b ∈ t) : (t.map fun w => (w, f w)).lookup b = some (f b) := by
  induction t with
  | nil => cases h
  | cons v t ih =>
    rw [List.map_cons, List.lookup_cons]
    by_cases hv : b = v
    · subst hv; simp
    · have : (b == v) = false := by simpa using hv
      rw [this]
      exact ih ((List.mem_cons.1 h).resolve_left hv)

theorem casePaths_good : GoodPaths casePaths := by
  intro vs hv _ t ht
  have hn := (tracks_good hv .corner t ht).2
  refine ⟨caseDist, ⟨?_, hn, ?_⟩, ?_, ?_, ?_⟩
  · refine .of_eq ?_
    unfold casePaths; rw [List.map_map]; simp [Function.comp_def]
  · intro p hp b hb
    obtain ⟨v, _, rfl⟩ := List.mem_map.1 hp
    exact lookup_map hb
  · intro a _ b _
    unfold caseDist
    by_cases h : a = b
    · subst h; rfl
    · rw [if_neg h, if_neg (Ne.symm h), abs_sub_comm]
  · intro a _; simp [caseDist]
  · intro a _ b _ h
    unfold caseDist
    rw [if_neg h]
    positivity

def caseParams : Params :=
  { dx := 10, dy := 10, dz := 10, strict := true, threshold := 5, minVoxels := 3, blobRadius := 12, scanRadius := none, maxHits := 100
    paths := casePaths, dist := fun a b => |a.x - b.x|, diag := fun _ => 17, rad := fun x y => |x| + |y| }

/-- Four hits in a line, one of them weak at the end, one far away and one outside of the map. -/
def caseHits : List EHit := [⟨0, 0, 0, some 1, 0⟩, ⟨10, 0, 0, some 20, 1⟩, ⟨20, 0, 0, some 30, 2⟩, ⟨30, 0, 0, some 30, 3⟩, ⟨100, 0, 0, some 8, 4⟩, ⟨7, 7, 7, none, 5⟩]

example : caseParams.Ok := ⟨by decide +kernel, by decide +kernel, by decide +kernel⟩
example : GoodPaths caseParams.paths := casePaths_good
example : ∀ r, caseParams.scanRadius = some r → 0 ≤ r := fun _ h => by cases h
example : Usable caseHits := ⟨⟨⟨0, 0, 0, some 1, 0⟩, by decide +kernel, by decide⟩, by decide +kernel⟩
example : caseHits.length ≤ caseParams.maxHits := by decide
example : (caseHits.map fun g => key (roundHit g)).Nodup := by decide +kernel

/-- What a call returns. -/
def rowsOf : Outcome → List TrackRow
  | .returns rows _ _ => rows
  | _ => []
def outsOf : Outcome → List OutHit
  | .returns _ outs _ => outs
  | _ => []

example : (rowsOf (extract caseParams 7 caseHits)).map (fun r => (r.id, r.energy, r.nHits, r.nVoxels)) = [(0, 81, 3, 3), (1, 8, 1, 1)] ∧
    (outsOf (extract caseParams 7 caseHits)).map (fun o => (o.hit.tag, o.track)) = [(5, -1), (0, -1), (1, 0), (2, 0), (3, 0), (4, 1)] := by decide +kernel

example : (rowsOf (extract caseParams 7 caseHits)).map (fun r => decide (r.extreme1.x + 19 < r.extreme2.x ∧ 20 < r.length)) = [true, false] := by decide +kernel

/-- No usable energy: the hits outside of the map are not in the output. -/
theorem early_return_loses_hits : extract caseParams 7 [⟨0, 0, 0, some 0, 0⟩, ⟨1, 0, 0, none, 1⟩] = .returns [] [⟨⟨0, 0, 0, some 0, 0⟩, -1⟩] true := by decide +kernel

/-- All the hits outside of the map: none of them is in the output, and so the event has no summary. -/
theorem all_out_of_map_lost : extract caseParams 7 [⟨0, 0, 0, none, 0⟩, ⟨1, 0, 0, none, 1⟩] = .returns [] [] true := by decide +kernel

/-- A hit without energy, alone in its voxel, is not in the output. -/
theorem zero_energy_hit_lost : ∃ rows, extract caseParams 7 [⟨0, 0, 0, some 10, 0⟩, ⟨50, 0, 0, some 0, 1⟩] = .returns rows [⟨⟨0, 0, 0, some 10, 0⟩, 0⟩] false :=
  ⟨rowsOf (extract caseParams 7 [⟨0, 0, 0, some 10, 0⟩, ⟨50, 0, 0, some 0, 1⟩]), by decide +kernel⟩

/-- Equal rows: each one of the first blob is merged with each one of the second, and the overlap is larger than both blobs. -/
theorem equal_rows_overlap : (rowsOf (extract caseParams 7 [⟨0, 0, 0, some 10, 0⟩, ⟨0, 0, 0, some 10, 0⟩])).map (fun r => (r.eBlob1, r.eBlob2, r.overlap)) =
    [(20, 20, 40)] := by decide +kernel

/-- No hits: `IndexError`. -/
theorem extract_no_hits (p : Params) (event : Int) : extract p event [] = .raises .indexError := by
  unfold extract
  simp

example : eventSummary (fun x y => x + y) 3 1 [⟨0, 0, 0, some 1⟩, ⟨3, 0, 6, some 2⟩] false =
    .ok [⟨3, 3, -1, 1, 2, some ⟨2, 0, 4⟩, some 2, ⟨0, 0, 0⟩, 0, ⟨3, 0, 6⟩, 3, false⟩] := by decide +kernel
example : ∀ h ∈ [(⟨0, 0, 0, some 1⟩ : SHit), ⟨3, 0, 6, some 2⟩], ∃ e, h.ec = some e ∧ 0 < e := by
  intro h hh
  simp only [List.mem_cons, List.not_mem_nil, or_false] at hh
  rcases hh with rfl | rfl
  · exact ⟨1, rfl, by norm_num⟩
  · exact ⟨2, rfl, by norm_num⟩
example : ∃ g ∈ [(⟨0, 0, 0, some 1⟩ : SHit), ⟨3, 0, 6, none⟩], g.ec = none := ⟨_, by simp; right; rfl, rfl⟩
example : ([(⟨0, 0, 0, some 1⟩ : SHit), ⟨3, 0, 6, some (-1)⟩].map fun h => h.ec.getD 0).sum = 0 := by decide +kernel
example : sortHits [⟨⟨1, 0, 2, none, 0⟩, 0⟩, ⟨⟨5, 0, 1, none, 1⟩, 0⟩, ⟨⟨4, 7, 1, none, 2⟩, 0⟩] =
    [⟨⟨4, 7, 1, none, 2⟩, 0⟩, ⟨⟨5, 0, 1, none, 1⟩, 0⟩, ⟨⟨1, 0, 2, none, 0⟩, 0⟩] := by decide +kernel

end Verif.Paolina
