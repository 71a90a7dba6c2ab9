import Verif.Props.Paolina
/-!
# C50: geometry and blobs of the tracks, event summary
-/
namespace Verif.Paolina
open Verif.Voxels Verif.Tracks

/-! ### Specification -/

/-- `lo` and `hi` are the smallest and the largest value of `f` over some rows. -/
structure Range (f : EHit → ℚ) (hs : List EHit) (lo hi : ℚ) : Prop where
  bounds : ∀ h ∈ hs, lo ≤ f h ∧ f h ≤ hi
  low : ∃ h ∈ hs, f h = lo
  high : ∃ h ∈ hs, f h = hi

/-- `m` is the average of `f` over some rows, weighted with the energy, and it lies between `lo` and `hi`. -/
structure Mean (f : EHit → ℚ) (hs : List EHit) (lo hi m : ℚ) : Prop where
  avg : m * energyOf hs = (hs.map fun h => f h * h.ep.getD 0).sum
  low : lo ≤ m
  high : m ≤ hi

/-! ### Lemmas -/

theorem npMin_mem {xs : List ℚ} (h : xs ≠ []) : npMin xs ∈ xs := by
  induction xs with
  | nil => exact absurd rfl h
  | cons y ys ih =>
    cases ys with
    | nil => simp [npMin]
    | cons z zs =>
      simp only [npMin]
      rcases min_choice y (npMin (z :: zs)) with e | e
      · rw [e]; exact List.mem_cons_self
      · rw [e]; exact List.mem_cons_of_mem _ (ih (by simp))

theorem npMax_mem {xs : List ℚ} (h : xs ≠ []) : npMax xs ∈ xs := by
  induction xs with
  | nil => exact absurd rfl h
  | cons y ys ih =>
    cases ys with
    | nil => simp [npMax]
    | cons z zs =>
      simp only [npMax]
      rcases max_choice y (npMax (z :: zs)) with e | e
      · rw [e]; exact List.mem_cons_self
      · rw [e]; exact List.mem_cons_of_mem _ (ih (by simp))

theorem mean_bounds {α : Type} {f w : α → ℚ} {hs : List α} {lo hi : ℚ} (hw : ∀ h ∈ hs, 0 ≤ w h) (hf : ∀ h ∈ hs, lo ≤ f h ∧ f h ≤ hi) :
    lo * (hs.map w).sum ≤ (hs.map fun h => f h * w h).sum ∧ (hs.map fun h => f h * w h).sum ≤ hi * (hs.map w).sum := by
  induction hs with
  | nil => simp
  | cons h hs ih =>
    have ih := ih (fun g hg => hw g (List.mem_cons_of_mem _ hg)) fun g hg => hf g (List.mem_cons_of_mem _ hg)
    have h1 := hf h List.mem_cons_self
    have h2 := hw h List.mem_cons_self
    simp only [List.map_cons, List.sum_cons]
    have h3 := mul_le_mul_of_nonneg_right h1.1 h2
    have h4 := mul_le_mul_of_nonneg_right h1.2 h2
    constructor <;> nlinarith [ih.1, ih.2]

/-- The smallest value, the largest and the average of the hits of a track. -/
theorem range_mean {f : EHit → ℚ} {g : PHit → ℚ} (hfg : ∀ q, f (fromPHit q) = g q) {hs : List PHit} (hne : hs ≠ []) (hpos : ∀ q ∈ hs, 0 < q.e) :
    Range f (hs.map fromPHit) (npMin (hs.map g)) (npMax (hs.map g)) ∧
    Mean f (hs.map fromPHit) (npMin (hs.map g)) (npMax (hs.map g)) ((hs.map fun q => g q * q.e).sum / (hs.map PHit.e).sum) := by
  have hb : ∀ q ∈ hs, npMin (hs.map g) ≤ g q ∧ g q ≤ npMax (hs.map g) := fun q hq =>
    ⟨npMin_le (List.mem_map.2 ⟨q, hq, rfl⟩), le_npMax (List.mem_map.2 ⟨q, hq, rfl⟩)⟩
  have hw := sum_pos_of hne hpos
  have e1 : energyOf (hs.map fromPHit) = (hs.map PHit.e).sum := by
    unfold energyOf; rw [List.map_map]; rfl
  have e2 : ((hs.map fromPHit).map fun h => f h * h.ep.getD 0).sum = (hs.map fun q => g q * q.e).sum := by
    rw [List.map_map]
    congr 1
    apply List.map_congr_left
    intro q _
    show f (fromPHit q) * q.e = _
    rw [hfg]
  have hm := mean_bounds (f := g) (w := PHit.e) (fun q hq => (hpos q hq).le) hb
  refine ⟨⟨?_, ?_, ?_⟩, ⟨?_, ?_, ?_⟩⟩
  · intro h hh
    obtain ⟨q, hq, rfl⟩ := List.mem_map.1 hh
    rw [hfg]; exact hb q hq
  · obtain ⟨q, hq, e⟩ := List.mem_map.1 (npMin_mem (xs := hs.map g) (by simpa using hne))
    exact ⟨_, List.mem_map.2 ⟨q, hq, rfl⟩, by rw [hfg, e]⟩
  · obtain ⟨q, hq, e⟩ := List.mem_map.1 (npMax_mem (xs := hs.map g) (by simpa using hne))
    exact ⟨_, List.mem_map.2 ⟨q, hq, rfl⟩, by rw [hfg, e]⟩
  · rw [e1, e2, div_mul_cancel₀ _ hw.ne']
  · rw [le_div_iff₀ hw]; exact hm.1
  · rw [div_le_iff₀ hw]; exact hm.2

theorem averagePosition_ok {hs : List PHit} {p : Point} (h : averagePosition hs = .ok p) :
    p = ⟨(hs.map fun h => h.x * h.e).sum / (hs.map PHit.e).sum, (hs.map fun h => h.y * h.e).sum / (hs.map PHit.e).sum,
      (hs.map fun h => h.z * h.e).sum / (hs.map PHit.e).sum⟩ := by
  unfold averagePosition at h
  simp only at h
  split at h
  · cases h
  · cases h; rfl

theorem hitsInBlob_sub {track : List Node} {table : Table Node} {radius : ℚ} {n : Node} {diag : Node → ℚ} {hs : List PHit}
    (h : hitsInBlob track table radius n diag = .ok hs) : hs.Sublist (hitsOf track) ∧
      ∀ q ∈ hs, (q.x - (blobCentre n).x) ^ 2 + (q.y - (blobCentre n).y) ^ 2 + (q.z - (blobCentre n).z) ^ 2 < radius ^ 2 := by
  unfold hitsInBlob at h
  split at h
  · cases h
  rename_i row _
  split at h
  · cases h
  rename_i ds hd
  cases h
  have hfst : ds.map Prod.fst = track := by
    unfold distancesTo at hd
    rw [mapM_ok_iff] at hd
    clear * - hd
    induction hd with
    | nil => rfl
    | cons h1 _ ih =>
      rw [List.map_cons, ih]
      split at h1
      · cases h1
      · cases h1; rfl
  constructor
  · rw [← hfst, hitsOf, List.flatMap_map]
    clear * -
    induction ds with
    | nil => exact List.Sublist.refl _
    | cons d ds ih =>
      rw [List.flatMap_cons, List.flatMap_cons]
      apply List.Sublist.append _ ih
      split
      · exact List.filter_sublist
      · exact List.nil_sublist _
  · intro q hq
    obtain ⟨d, _, hq⟩ := List.mem_flatMap.1 hq
    split at hq
    · have := (List.mem_filter.1 hq).2
      simp only [decide_eq_true_eq] at this
      exact this.2
    · cases hq

theorem blobs_energy {track : List Node} {table : Table Node} {radius : ℚ} {big : Option ℚ} {diag : Node → ℚ} {b1 b2 : BlobInfo}
    (h : blobs track table radius big diag = .ok (b1, b2)) (hh : b1.hits ≠ [] ∨ b2.hits ≠ []) : b1.e = total b1.hits ∧ b2.e = total b2.hits := by
  have sh : ∀ ha hb : List PHit, (ha ≠ [] ∨ hb ≠ []) → (ha.length != 0 || hb.length != 0) = true := by
    intro ha hb hh
    rcases hh with hh | hh
    · have : ha.length ≠ 0 := by simpa using hh
      simp [this, hh]
    · have : hb.length ≠ 0 := by simpa using hh
      simp [this, hh]
  have core : ∀ (ha hb : List PHit) (ea eb : ℚ) (ca cb : Point) (va vb : ℚ), ((ha.length != 0 || hb.length != 0) = true → ea = va) →
      ((ha.length != 0 || hb.length != 0) = true → eb = vb) →
      (if ea < eb then (Except.ok (⟨eb, hb, cb⟩, ⟨ea, ha, ca⟩) : Except PyErr (BlobInfo × BlobInfo)) else .ok (⟨ea, ha, ca⟩, ⟨eb, hb, cb⟩)) = .ok (b1, b2) →
      (b1.e = vb ∧ b1.hits = hb ∧ b2.e = va ∧ b2.hits = ha) ∨ (b1.e = va ∧ b1.hits = ha ∧ b2.e = vb ∧ b2.hits = hb) := by
    intro ha hb ea eb ca cb va vb h1 h2 h
    split at h
    · simp only [Except.ok.injEq, Prod.mk.injEq] at h
      obtain ⟨rfl, rfl⟩ := h
      have hs := sh ha hb hh.symm
      exact Or.inl ⟨h2 hs, rfl, h1 hs, rfl⟩
    · simp only [Except.ok.injEq, Prod.mk.injEq] at h
      obtain ⟨rfl, rfl⟩ := h
      have hs := sh ha hb hh
      exact Or.inr ⟨h1 hs, rfl, h2 hs, rfl⟩
  unfold blobs at h
  split at h
  · cases h
  · cases h
  · split at h
    · cases h
    · rename_i a b _
      split at h
      · cases h
      · cases h
      · rename_i ha hb h1 h2
        rcases core ha hb _ _ _ _ (total ha) (total hb) (fun hs => by rw [if_pos hs]; rfl) (fun hs => by rw [if_pos hs]; rfl) h with ⟨x1, x2, x3, x4⟩ | ⟨x1, x2, x3, x4⟩
        · rw [x1, x2, x3, x4]; exact ⟨rfl, rfl⟩
        · rw [x1, x2, x3, x4]; exact ⟨rfl, rfl⟩

/-- With rows that are all different, the merged rows are the common ones. -/
theorem overlap_common {a b : List PHit} (hb : b.Nodup) : overlapEnergy a b = total (a.filter fun h => decide (h ∈ b)) := by
  have one : ∀ (h : PHit) (b : List PHit), b.Nodup → (b.map fun g => if h = g then h.e else 0).sum = if h ∈ b then h.e else 0 := by
    intro h b
    induction b with
    | nil => intro _; rfl
    | cons g b ih =>
      intro hn
      rw [List.nodup_cons] at hn
      rw [List.map_cons, List.sum_cons, ih hn.2]
      by_cases hg : h = g
      · subst hg; simp [hn.1]
      · simp [hg]
  unfold overlapEnergy total
  induction a with
  | nil => rfl
  | cons h a ih =>
    rw [List.map_cons, List.sum_cons, ih, one h b hb]
    by_cases hm : h ∈ b
    · rw [List.filter_cons_of_pos (by simpa using hm), if_pos hm, List.map_cons, List.sum_cons]
    · rw [List.filter_cons_of_neg (by simpa using hm), if_neg hm, zero_add]

/-! ### C50 -/

/-- **C50** The limits and the averages of a track (positions along the three axes, and radius) are those of its hits, and the averages are between the limits; the
voxels have positive size, at most the requested one (plus the small margin). -/
theorem extract_geometry {p : Params} (hp : p.Ok) {event : Int} {hits : List EHit} (hu : Usable hits) (hlen : hits.length ≤ p.maxHits)
    {rows : List TrackRow} {outs : List OutHit} {oom : Bool} (h : extract p event hits = .returns rows outs oom) :
    ∀ (i : Nat) (row : TrackRow), rows[i]? = some row → ∀ hs, hs = (withTrack outs i).map OutHit.hit →
      Range EHit.x hs row.min.x row.max.x ∧ Range EHit.y hs row.min.y row.max.y ∧ Range EHit.z hs row.min.z row.max.z ∧
      Range (fun h => p.rad h.x h.y) hs row.rMin row.rMax ∧
      Mean EHit.x hs row.min.x row.max.x row.ave.x ∧ Mean EHit.y hs row.min.y row.max.y row.ave.y ∧ Mean EHit.z hs row.min.z row.max.z row.ave.z ∧
      Mean (fun h => p.rad h.x h.y) hs row.rMin row.rMax row.rAve := by
  obtain ⟨⟨vs, kept, dropped, r⟩, _⟩ := extract_process hlen hu h
  obtain ⟨f1, f2, _⟩ := r.facts hp (usable_round hu)
  obtain ⟨_, g2⟩ := trackRows_ok r.rows
  rintro i row hrow hs rfl
  obtain ⟨t, ht, hr⟩ := g2 i row hrow
  obtain ⟨ave, _, _, _, _, _, ha, _, _, e⟩ := trackRow_ok hr
  have tk := track_of r.kept_nodup ht
  have hne := hitsOf_ne f1 tk
  have hpos := hitsOf_pos f2 tk.2
  have ha := averagePosition_ok ha
  have hw : (withTrack outs i).map OutHit.hit = (hitsOf t).map fromPHit := by
    rw [withTrack_reco r ht, List.map_map]; rfl
  rw [hw, e]
  subst ha
  obtain ⟨x1, x2⟩ := range_mean (f := EHit.x) (g := PHit.x) (fun _ => rfl) hne hpos
  obtain ⟨y1, y2⟩ := range_mean (f := EHit.y) (g := PHit.y) (fun _ => rfl) hne hpos
  obtain ⟨z1, z2⟩ := range_mean (f := EHit.z) (g := PHit.z) (fun _ => rfl) hne hpos
  obtain ⟨r1, r2⟩ := range_mean (f := fun h => p.rad h.x h.y) (g := fun q => p.rad q.x q.y) (fun _ => rfl) hne hpos
  exact ⟨x1, y1, z1, r1, x2, y2, z2, r2⟩

/-- **C50** The voxel size stored with each track is positive and at most the requested one (plus the small margin). -/
theorem extract_voxel_size {p : Params} (hp : p.Ok) {event : Int} {hits : List EHit} (hu : Usable hits) (hlen : hits.length ≤ p.maxHits)
    {rows : List TrackRow} {outs : List OutHit} {oom : Bool} (h : extract p event hits = .returns rows outs oom) :
    ∀ row ∈ rows, 0 < row.voxSize.x ∧ row.voxSize.x ≤ p.dx + 2 * eps ∧ 0 < row.voxSize.y ∧ row.voxSize.y ≤ p.dy + 2 * eps ∧
      0 < row.voxSize.z ∧ row.voxSize.z ≤ p.dz + 2 * eps := by
  obtain ⟨⟨vs, kept, dropped, r⟩, _⟩ := extract_process hlen hu h
  obtain ⟨_, g2⟩ := trackRows_ok r.rows
  intro row hrow
  obtain ⟨i, hi⟩ := List.mem_iff_getElem?.1 hrow
  obtain ⟨t, ht, hr⟩ := g2 i row hi
  obtain ⟨_, _, _, _, _, _, _, _, _, e⟩ := trackRow_ok hr
  rw [e]
  have hv := r.vox
  have hne : (inMap (hits.map roundHit)).map toPHit ≠ [] := by
    intro hc
    rw [hc] at hv
    cases hv
  obtain ⟨vs', s, h1, sx, sy, sz, ⟨lx, ly, lz⟩, _, h2⟩ := voxelize_spec _ p.dx p.dy p.dz p.strict hp.dx hp.dy hp.dz hne
  rw [h1] at hv
  cases hv
  have hvne : vs ≠ [] := by
    rintro rfl
    have hd := r.drop
    cases hd
  cases vs with
  | nil => exact absurd rfl hvne
  | cons v vs =>
    have hs := (h2 v List.mem_cons_self).1
    have ex : v.sx = s .x := congrFun hs .x
    have ey : v.sy = s .y := congrFun hs .y
    have ez : v.sz = s .z := congrFun hs .z
    show 0 < v.sx ∧ v.sx ≤ _ ∧ 0 < v.sy ∧ v.sy ≤ _ ∧ 0 < v.sz ∧ v.sz ≤ _
    rw [ex, ey, ez]
    exact ⟨sx, lx, sy, ly, sz, lz⟩

/-- **C50** The blobs of a track: the first one has the larger energy; each is made of hits of the track closer than the blob radius to its centre, and its energy is
theirs, if there are any; when no two hits are equal the overlap is the energy of the hits that are in both, so it is at most the energy of any of them. -/
theorem extract_blobs {p : Params} (hp : p.Ok) {event : Int} {hits : List EHit} (hu : Usable hits) (hlen : hits.length ≤ p.maxHits)
    {rows : List TrackRow} {outs : List OutHit} {oom : Bool} (h : extract p event hits = .returns rows outs oom) :
    ∀ (i : Nat) (row : TrackRow), rows[i]? = some row → row.eBlob2 ≤ row.eBlob1 ∧ ∃ h1 h2 : List EHit,
      h1.Sublist ((withTrack outs i).map OutHit.hit) ∧ h2.Sublist ((withTrack outs i).map OutHit.hit) ∧
      (∀ q ∈ h1, (q.x - row.blob1.x) ^ 2 + (q.y - row.blob1.y) ^ 2 + (q.z - row.blob1.z) ^ 2 < p.blobRadius ^ 2) ∧
      (∀ q ∈ h2, (q.x - row.blob2.x) ^ 2 + (q.y - row.blob2.y) ^ 2 + (q.z - row.blob2.z) ^ 2 < p.blobRadius ^ 2) ∧
      (h1 ≠ [] ∨ h2 ≠ [] → row.eBlob1 = energyOf h1 ∧ row.eBlob2 = energyOf h2 ∧ row.eBlob1 ≤ row.energy) ∧
      ((hits.map fun g => key (roundHit g)).Nodup → row.overlap = energyOf (h1.filter fun g => decide (g ∈ h2)) ∧
        (h1 ≠ [] ∨ h2 ≠ [] → row.overlap ≤ row.eBlob1 ∧ row.overlap ≤ row.eBlob2)) := by
  have hperm := extract_hits hp hu hlen h
  obtain ⟨⟨vs, kept, dropped, r⟩, _⟩ := extract_process hlen hu h
  obtain ⟨f1, f2, _⟩ := r.facts hp (usable_round hu)
  obtain ⟨_, g2⟩ := trackRows_ok r.rows
  intro i row hrow
  obtain ⟨t, ht, hr⟩ := g2 i row hrow
  obtain ⟨ave, a, b, len, b1, b2, _, _, hb, e⟩ := trackRow_ok hr
  have tk := track_of r.kept_nodup ht
  have hpos := hitsOf_pos f2 tk.2
  obtain ⟨o1, ⟨n1, c1, k1⟩, ⟨n2, c2, k2⟩⟩ := blobs_order _ _ _ _ _ _ _ hb
  obtain ⟨s1, d1⟩ := hitsInBlob_sub k1
  obtain ⟨s2, d2⟩ := hitsInBlob_sub k2
  have hw : (withTrack outs i).map OutHit.hit = (hitsOf t).map fromPHit := by
    rw [withTrack_reco r ht, List.map_map]; rfl
  have en : ∀ hs : List PHit, energyOf (hs.map fromPHit) = total hs := by
    intro hs
    unfold energyOf total
    rw [List.map_map]; rfl
  have sub_le : ∀ {l m : List PHit}, l.Sublist m → (∀ q ∈ m, 0 < q.e) → total l ≤ total m := by
    intro l m hs
    induction hs with
    | slnil => intro _; exact le_refl _
    | cons q _ ih =>
      intro hq
      have h1 := ih fun q' hq' => hq q' (List.mem_cons_of_mem _ hq')
      have h2 := hq q List.mem_cons_self
      simp only [total, List.map_cons, List.sum_cons] at h1 ⊢
      linarith
    | cons_cons q _ ih =>
      intro hq
      have h1 := ih fun q' hq' => hq q' (List.mem_cons_of_mem _ hq')
      simp only [total, List.map_cons, List.sum_cons] at h1 ⊢
      linarith
  rw [hw, e]
  refine ⟨o1, b1.hits.map fromPHit, b2.hits.map fromPHit, s1.map _, s2.map _, ?_, ?_, ?_, ?_⟩
  · intro q hq
    obtain ⟨q', hq', rfl⟩ := List.mem_map.1 hq
    have := d1 q' hq'
    rw [← c1] at this
    exact this
  · intro q hq
    obtain ⟨q', hq', rfl⟩ := List.mem_map.1 hq
    have := d2 q' hq'
    rw [← c2] at this
    exact this
  · intro hh
    rw [en, en]
    obtain ⟨x1, x2⟩ := blobs_energy hb (by simpa using hh)
    refine ⟨x1, x2, ?_⟩
    show b1.e ≤ trackEnergy t
    rw [x1, trackEnergy_eq]
    exact sub_le s1 hpos
  · intro hn
    have hn' : (hitsOf t).Nodup := by
      have h1 := hperm.nodup_iff.2 hn
      have h2 : ((withTrack outs i).map fun o => key o.hit).Nodup := h1.sublist (List.filter_sublist.map _)
      have h3 : ((withTrack outs i).map fun o => key o.hit) = (hitsOf t).map pkey := by
        rw [withTrack_reco r ht, List.map_map]; rfl
      rw [h3] at h2
      exact List.Nodup.of_map _ h2
    have hov : row.overlap = total (b1.hits.filter fun h => decide (h ∈ b2.hits)) := by
      rw [e]; exact overlap_common (hn'.sublist s2)
    rw [e] at hov
    have hinj : Function.Injective fromPHit := by
      intro u v huv
      cases u; cases v
      simp only [fromPHit, EHit.mk.injEq, Option.some.injEq] at huv
      simp only [PHit.mk.injEq]
      exact huv
    have e1 : (b1.hits.map fromPHit).filter (fun g => decide (g ∈ b2.hits.map fromPHit)) = (b1.hits.filter fun h => decide (h ∈ b2.hits)).map fromPHit := by
      rw [List.filter_map]
      congr 1
      apply List.filter_congr
      intro q _
      simp only [Function.comp]
      congr 1
      rw [List.mem_map_of_injective hinj]
    rw [e1, en]
    refine ⟨hov, ?_⟩
    intro hh
    obtain ⟨x1, x2⟩ := blobs_energy hb (by simpa using hh)
    rw [hov]
    refine ⟨?_, ?_⟩
    · show _ ≤ b1.e
      rw [x1]; exact sub_le List.filter_sublist fun q hq => hpos q (s1.subset hq)
    · show _ ≤ b2.e
      rw [x2]
      have hsub : (b1.hits.filter fun h => decide (h ∈ b2.hits)).Subperm b2.hits :=
        List.subperm_of_subset ((hn'.sublist s1).sublist List.filter_sublist) fun q hq => by simpa using (List.mem_filter.1 hq).2
      obtain ⟨l, hl, hs⟩ := hsub
      have : total l = total (b1.hits.filter fun h => decide (h ∈ b2.hits)) := (hl.map PHit.e).sum_eq
      rw [← this]
      exact sub_le hs fun q hq => hpos q (s2.subset hq)

/-! ### Event summary -/

/-- **C50** An event without hits has no summary. -/
theorem summary_empty (rad : ℚ → ℚ → ℚ) (event : Int) (n : Nat) (oom : Bool) : eventSummary rad event n [] oom = .ok [] := rfl

/-- **C50** The summary of an event whose hits all have an energy, not adding up to zero: one row, with the number of tracks and of hits, the total energy, the limits and
the weighted averages, which are between the limits if the energies are positive. -/
theorem summary_spec (rad : ℚ → ℚ → ℚ) (event : Int) (n : Nat) (hits : List SHit) (oom : Bool) (hne : hits ≠ []) (hall : ∀ h ∈ hits, ∃ e, h.ec = some e ∧ 0 < e) :
    ∃ s ave rAve, eventSummary rad event n hits oom = .ok [s] ∧ s.event = event ∧ s.nTracks = n ∧ s.nHits = hits.length ∧ s.outOfMap = oom ∧
      s.energy = (hits.map fun h => h.ec.getD 0).sum ∧ s.ave = some ave ∧ s.rAve = some rAve ∧
      (∀ h ∈ hits, s.min.x ≤ h.x ∧ h.x ≤ s.max.x ∧ s.min.y ≤ h.y ∧ h.y ≤ s.max.y ∧ s.min.z ≤ h.z ∧ h.z ≤ s.max.z ∧ s.rMin ≤ rad h.x h.y ∧ rad h.x h.y ≤ s.rMax) ∧
      (s.min.x ≤ ave.x ∧ ave.x ≤ s.max.x ∧ s.min.y ≤ ave.y ∧ ave.y ≤ s.max.y ∧ s.min.z ≤ ave.z ∧ ave.z ≤ s.max.z ∧ s.rMin ≤ rAve ∧ rAve ≤ s.rMax) ∧
      ave.x * s.energy = (hits.map fun h => h.x * h.ec.getD 0).sum ∧ ave.y * s.energy = (hits.map fun h => h.y * h.ec.getD 0).sum ∧
      ave.z * s.energy = (hits.map fun h => h.z * h.ec.getD 0).sum ∧ rAve * s.energy = (hits.map fun h => rad h.x h.y * h.ec.getD 0).sum := by
  have hw : ∀ h ∈ hits, 0 < h.ec.getD 0 := by
    intro h hh
    obtain ⟨e, he, hp⟩ := hall h hh
    simpa [he] using hp
  have hsum : 0 < sumEc hits := by
    unfold sumEc
    cases hits with
    | nil => exact absurd rfl hne
    | cons h hs =>
      have h1 := hw h List.mem_cons_self
      have h2 : 0 ≤ (hs.map fun h => h.ec.getD 0).sum := List.sum_nonneg (by
        intro x hx
        obtain ⟨r, hr, rfl⟩ := List.mem_map.1 hx
        exact (hw r (List.mem_cons_of_mem _ hr)).le)
      rw [List.map_cons, List.sum_cons]; linarith
  have hany : (hits.any fun h => h.ec.isNone) = false := by
    rw [List.any_eq_false]
    intro h hh
    obtain ⟨e, he, _⟩ := hall h hh
    simp [he]
  have havg : ∀ f : SHit → ℚ, averageEc f hits = .ok (some ((hits.map fun h => f h * h.ec.getD 0).sum / sumEc hits)) := by
    intro f
    unfold averageEc
    rw [if_neg (by simp [hany]), if_neg hsum.ne']
  have hb : ∀ f : SHit → ℚ, (∀ h ∈ hits, npMin (hits.map f) ≤ f h ∧ f h ≤ npMax (hits.map f)) ∧
      npMin (hits.map f) ≤ (hits.map fun h => f h * h.ec.getD 0).sum / sumEc hits ∧ (hits.map fun h => f h * h.ec.getD 0).sum / sumEc hits ≤ npMax (hits.map f) := by
    intro f
    have h1 : ∀ h ∈ hits, npMin (hits.map f) ≤ f h ∧ f h ≤ npMax (hits.map f) := fun h hh =>
      ⟨npMin_le (List.mem_map.2 ⟨h, hh, rfl⟩), le_npMax (List.mem_map.2 ⟨h, hh, rfl⟩)⟩
    have hm := mean_bounds (f := f) (w := fun h : SHit => h.ec.getD 0) (fun h hh => (hw h hh).le) h1
    refine ⟨h1, ?_, ?_⟩
    · rw [le_div_iff₀ hsum]; exact hm.1
    · rw [div_le_iff₀ hsum]; exact hm.2
  have hx := hb SHit.x
  have hy := hb SHit.y
  have hz := hb SHit.z
  have hr := hb fun h => rad h.x h.y
  unfold eventSummary
  rw [if_neg (by simpa using hne)]
  simp only [havg]
  refine ⟨_, _, _, rfl, rfl, rfl, rfl, rfl, rfl, rfl, rfl, ?_, ?_, ?_, ?_, ?_, ?_⟩
  · intro h hh
    exact ⟨(hx.1 h hh).1, (hx.1 h hh).2, (hy.1 h hh).1, (hy.1 h hh).2, (hz.1 h hh).1, (hz.1 h hh).2, (hr.1 h hh).1, (hr.1 h hh).2⟩
  · exact ⟨hx.2.1, hx.2.2, hy.2.1, hy.2.2, hz.2.1, hz.2.2, hr.2.1, hr.2.2⟩
  · exact div_mul_cancel₀ _ hsum.ne'
  · exact div_mul_cancel₀ _ hsum.ne'
  · exact div_mul_cancel₀ _ hsum.ne'
  · exact div_mul_cancel₀ _ hsum.ne'

/-- **C50** One hit outside the map (no `Ec`) is enough to lose the averages of the event; energy, limits and counts are kept. -/
theorem summary_out_of_map (rad : ℚ → ℚ → ℚ) (event : Int) (n : Nat) (hits : List SHit) (oom : Bool) (h : ∃ g ∈ hits, g.ec = none) :
    ∃ s, eventSummary rad event n hits oom = .ok [s] ∧ s.ave = none ∧ s.rAve = none ∧ s.nHits = hits.length ∧ s.energy = (hits.map fun h => h.ec.getD 0).sum := by
  obtain ⟨g, hg, he⟩ := h
  have hany : (hits.any fun h => h.ec.isNone) = true := List.any_eq_true.2 ⟨g, hg, by simp [he]⟩
  have havg : ∀ f : SHit → ℚ, averageEc f hits = .ok none := by
    intro f
    unfold averageEc
    rw [if_pos hany]
  unfold eventSummary
  rw [if_neg (by cases hits with | nil => cases hg | cons _ _ => simp)]
  simp only [havg]
  exact ⟨_, rfl, rfl, rfl, rfl, rfl⟩

/-- **C50** Energies that add up to zero: `ZeroDivisionError`. -/
theorem summary_zero (rad : ℚ → ℚ → ℚ) (event : Int) (n : Nat) (hits : List SHit) (oom : Bool) (hne : hits ≠ []) (hall : ∀ h ∈ hits, h.ec ≠ none)
    (h0 : (hits.map fun h => h.ec.getD 0).sum = 0) : eventSummary rad event n hits oom = .error .zeroDivision := by
  have hany : (hits.any fun h => h.ec.isNone) = false := by
    rw [List.any_eq_false]
    intro h hh
    simpa using hall h hh
  have havg : ∀ f : SHit → ℚ, averageEc f hits = .error .zeroDivision := by
    intro f
    unfold averageEc
    rw [if_neg (by simp [hany]), if_pos (show sumEc hits = 0 from h0)]
  unfold eventSummary
  rw [if_neg (by simpa using hne)]
  simp only [havg]

/-- **C50** Sorting the hits keeps them all, and orders them by `Z`, then `X`, then `Y`. -/
theorem sortHits_spec (hits : List OutHit) : (sortHits hits).Perm hits ∧
    (sortHits hits).Pairwise fun a b => a.hit.z < b.hit.z ∨ (a.hit.z = b.hit.z ∧ (a.hit.x < b.hit.x ∨ (a.hit.x = b.hit.x ∧ a.hit.y ≤ b.hit.y))) := by
  refine ⟨List.perm_insertionSort _ _, ?_⟩
  haveI : IsTrans OutHit fun a b => hitLe a.hit b.hit := ⟨by
    intro a b c h1 h2
    unfold hitLe at *
    rcases h1 with h1 | ⟨h1, h1'⟩
    · rcases h2 with h2 | ⟨h2, _⟩
      · exact Or.inl (h1.trans h2)
      · exact Or.inl (h2 ▸ h1)
    · rcases h2 with h2 | ⟨h2, h2'⟩
      · exact Or.inl (h1 ▸ h2)
      · refine Or.inr ⟨h1.trans h2, ?_⟩
        rcases h1' with h1' | ⟨h1', g1⟩
        · rcases h2' with h2' | ⟨h2', _⟩
          · exact Or.inl (h1'.trans h2')
          · exact Or.inl (h2' ▸ h1')
        · rcases h2' with h2' | ⟨h2', g2⟩
          · exact Or.inl (h1' ▸ h2')
          · exact Or.inr ⟨h1'.trans h2', g1.trans g2⟩⟩
  haveI : Std.Total fun a b : OutHit => hitLe a.hit b.hit := ⟨by
    intro a b
    unfold hitLe
    rcases lt_trichotomy a.hit.z b.hit.z with h | h | h
    · exact Or.inl (Or.inl h)
    · rcases lt_trichotomy a.hit.x b.hit.x with g | g | g
      · exact Or.inl (Or.inr ⟨h, Or.inl g⟩)
      · rcases le_total a.hit.y b.hit.y with k | k
        · exact Or.inl (Or.inr ⟨h, Or.inr ⟨g, k⟩⟩)
        · exact Or.inr (Or.inr ⟨h.symm, Or.inr ⟨g.symm, k⟩⟩)
      · exact Or.inr (Or.inr ⟨h.symm, Or.inl g⟩)
    · exact Or.inr (Or.inl h)⟩
  exact List.pairwise_insertionSort (fun a b : OutHit => hitLe a.hit b.hit) hits

end Verif.Paolina
