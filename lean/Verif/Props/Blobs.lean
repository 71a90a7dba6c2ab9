import Verif.Props.Tracks
import Verif.Props.Voxels
/-!
# C29: extremes, length and blobs of a track
-/
namespace Verif.Tracks
open Verif.Voxels

/-! ### Specification -/

section spec
variable {α : Type} [DecidableEq α]

/-- `table` is a complete table of the distances `dist` between the keys (in any order: `shortest_paths` sorts them). -/
structure IsTable (table : Table α) (keys : List α) (dist : α → α → ℚ) : Prop where
  keys_perm : (table.map Prod.fst).Perm keys
  nodup : keys.Nodup
  complete : ∀ p ∈ table, ∀ b ∈ keys, p.2.lookup b = some (dist p.1 b)

/-- A walk in the graph along edges with weight `w`, and its length. -/
inductive Walk (g : Graph α) (w : α → α → ℚ) : α → α → ℚ → Prop where
  | here (a : α) : a ∈ g.nodes → Walk g w a a 0
  | step {a b c : α} {l : ℚ} : Walk g w a b l → Adj g b c → Walk g w a c (l + w b c)

/-- `dist` gives the length of a shortest walk between any two of the nodes (contract of `nx.all_pairs_dijkstra_path_length`). -/
structure Shortest (g : Graph α) (w : α → α → ℚ) (nodes : List α) (dist : α → α → ℚ) : Prop where
  attained : ∀ a ∈ nodes, ∀ b ∈ nodes, Walk g w a b (dist a b)
  shortest : ∀ a ∈ nodes, ∀ b ∈ nodes, ∀ l, Walk g w a b l → dist a b ≤ l

end spec

/-- `b` is the blob around the voxel `n`: its centre, and exactly the hits of the track in voxels close enough along the track that are
closer to the centre than the radius. -/
structure IsBlob (track : List Node) (dist : Node → Node → ℚ) (radius : ℚ) (diag : Node → ℚ) (n : Node) (b : BlobInfo) : Prop where
  centre : b.centre = blobCentre n
  hits : b.hits = track.flatMap fun v => v.vox.hits.filter fun h => decide (dist n v < radius + diag n ∧ 0 < radius ∧
    (h.x - b.centre.x) ^ 2 + (h.y - b.centre.y) ^ 2 + (h.z - b.centre.z) ^ 2 < radius ^ 2)

/-! ### Extremes -/

section extrema
variable {α : Type} [DecidableEq α]

theorem combinations2_map {β : Type} (f : α → β) : ∀ l : List α, combinations2 (l.map f) = (combinations2 l).map fun p => (f p.1, f p.2)
  | [] => rfl
  | x :: xs => by
    rw [List.map_cons, combinations2, combinations2, combinations2_map f xs, List.map_append, List.map_map, List.map_map]
    rfl

theorem extremaLoop_spec {dist : α → α → ℚ} : ∀ (ps : List ((α × List (α × ℚ)) × (α × List (α × ℚ)))) (best : Option (α × α)) (m : ℚ),
    (∀ p ∈ ps, p.1.2.lookup p.2.1 = some (dist p.1.1 p.2.1)) →
    ∃ best' m', extremaLoop ps best m = .ok (best', m') ∧ m ≤ m' ∧ (∀ p ∈ ps, dist p.1.1 p.2.1 ≤ m') ∧
      ((best' = best ∧ m' = m) ∨ ∃ p ∈ ps, best' = some (p.1.1, p.2.1) ∧ m' = dist p.1.1 p.2.1) := by
  intro ps
  induction ps with
  | nil => intro best m _; exact ⟨best, m, rfl, le_rfl, by simp, Or.inl ⟨rfl, rfl⟩⟩
  | cons p ps ih =>
    intro best m h
    obtain ⟨⟨v1, row⟩, ⟨v2, row2⟩⟩ := p
    have hp := h _ List.mem_cons_self
    simp only at hp
    have hps := fun p hp => h p (List.mem_cons_of_mem _ hp)
    simp only [extremaLoop, hp]
    split
    · rename_i hlt
      obtain ⟨b', m', e, h1, h2, h3⟩ := ih (some (v1, v2)) (dist v1 v2) hps
      refine ⟨b', m', e, hlt.le.trans h1, ?_, ?_⟩
      · intro q hq
        rcases List.mem_cons.1 hq with rfl | hq
        · exact h1
        · exact h2 q hq
      · rcases h3 with ⟨rfl, rfl⟩ | ⟨q, hq, h3⟩
        · exact Or.inr ⟨_, List.mem_cons_self, rfl, rfl⟩
        · exact Or.inr ⟨q, List.mem_cons_of_mem _ hq, h3⟩
    · rename_i hlt
      obtain ⟨b', m', e, h1, h2, h3⟩ := ih best m hps
      refine ⟨b', m', e, h1, ?_, ?_⟩
      · intro q hq
        rcases List.mem_cons.1 hq with rfl | hq
        · exact (not_lt.1 hlt).trans h1
        · exact h2 q hq
      · rcases h3 with h3 | ⟨q, hq, h3⟩
        · exact Or.inl h3
        · exact Or.inr ⟨q, List.mem_cons_of_mem _ hq, h3⟩

/-- **C29** No voxels: `NoVoxels`; one voxel: both extremes are that voxel and the length is zero. -/
theorem extrema_trivial (v : α) (row : List (α × ℚ)) :
    findExtremaAndLength ([] : Table α) = .error (.other "NoVoxels") ∧ findExtremaAndLength [(v, row)] = .ok (some (v, v), 0) := ⟨rfl, rfl⟩

theorem mem_keys_of_comb {table : Table α} {keys : List α} {dist : α → α → ℚ} (h : IsTable table keys dist)
    {p : (α × List (α × ℚ)) × (α × List (α × ℚ))} (hp : p ∈ combinations2 table) :
    p.1.1 ∈ keys ∧ p.2.1 ∈ keys ∧ p.1.2.lookup p.2.1 = some (dist p.1.1 p.2.1) := by
  have hm := mem_combinations2 hp
  have h1 : p.1.1 ∈ keys := h.keys_perm.mem_iff.1 (List.mem_map.2 ⟨_, hm.1, rfl⟩)
  have h2 : p.2.1 ∈ keys := h.keys_perm.mem_iff.1 (List.mem_map.2 ⟨_, hm.2, rfl⟩)
  exact ⟨h1, h2, h.complete _ hm.1 _ h2⟩

/-- The extremes when the keys are in the order of the table. -/
theorem extrema_spec_aux (table : Table α) (keys : List α) (dist : α → α → ℚ) (h : IsTable table keys dist) (hk : table.map Prod.fst = keys)
    (symm : ∀ a ∈ keys, ∀ b ∈ keys, dist a b = dist b a) (self : ∀ a ∈ keys, dist a a = 0)
    (pos : ∀ a ∈ keys, ∀ b ∈ keys, a ≠ b → 0 < dist a b) (two : 2 ≤ keys.length) :
    ∃ a b, findExtremaAndLength table = .ok (some (a, b), dist a b) ∧ a ∈ keys ∧ b ∈ keys ∧ a ≠ b ∧
      ∀ u ∈ keys, ∀ v ∈ keys, dist u v ≤ dist a b := by
  have hlen : 2 ≤ table.length := by rw [← hk] at two; simpa using two
  have hfind : findExtremaAndLength table = extremaLoop (combinations2 table) none 0 := by
    match table, hlen with
    | _ :: _ :: _, _ => rfl
  obtain ⟨best, m, e, h0, h1, h2⟩ := extremaLoop_spec (dist := dist) (combinations2 table) none 0 fun p hp => (mem_keys_of_comb h hp).2.2
  have hcov : ∀ u ∈ keys, ∀ v ∈ keys, u ≠ v → dist u v ≤ m := by
    intro u hu v hv hne
    have hkc : combinations2 keys = (combinations2 table).map fun p => (p.1.1, p.2.1) := by
      rw [← hk, combinations2_map]
    rcases combinations2_complete hu hv hne with hc | hc
    · rw [hkc] at hc
      obtain ⟨p, hp, he⟩ := List.mem_map.1 hc
      have := h1 p hp
      simp only [Prod.mk.injEq] at he
      rw [he.1, he.2] at this
      exact this
    · rw [hkc] at hc
      obtain ⟨p, hp, he⟩ := List.mem_map.1 hc
      have := h1 p hp
      simp only [Prod.mk.injEq] at he
      rw [he.1, he.2] at this
      rw [symm u hu v hv]
      exact this
  have hnodup := h.nodup
  rcases h2 with ⟨rfl, rfl⟩ | ⟨p, hp, rfl, rfl⟩
  · exfalso
    match keys, two, hnodup, pos, hcov with
    | a :: b :: _, _, hnodup, pos, hcov =>
      have hne : a ≠ b := by
        rw [List.nodup_cons] at hnodup
        rintro rfl
        exact hnodup.1 List.mem_cons_self
      have l1 := pos a (by simp) b (by simp) hne
      have l2 := hcov a (by simp) b (by simp) hne
      linarith
  · obtain ⟨k1, k2, _⟩ := mem_keys_of_comb h hp
    have hne : p.1.1 ≠ p.2.1 := by
      have : (p.1.1, p.2.1) ∈ combinations2 keys := by
        rw [← hk, combinations2_map]; exact List.mem_map.2 ⟨p, hp, rfl⟩
      clear * - this hnodup
      induction keys with
      | nil => cases this
      | cons x xs ih =>
        rw [List.nodup_cons] at hnodup
        rw [combinations2, List.mem_append] at this
        rcases this with ht | ht
        · obtain ⟨y, hy, he⟩ := List.mem_map.1 ht
          simp only [Prod.mk.injEq] at he
          rw [← he.1, ← he.2]
          rintro rfl
          exact hnodup.1 hy
        · exact ih hnodup.2 ht
    refine ⟨p.1.1, p.2.1, by rw [hfind, e], k1, k2, hne, ?_⟩
    intro u hu v hv
    by_cases huv : u = v
    · subst huv; rw [self u hu]; exact h0
    · exact hcov u hu v hv huv

/-- **C29** Two or more voxels at positive distances: the extremes are different voxels of the track, the length is their distance, and
no two voxels are farther apart. -/
theorem extrema_spec (table : Table α) (keys : List α) (dist : α → α → ℚ) (h : IsTable table keys dist)
    (symm : ∀ a ∈ keys, ∀ b ∈ keys, dist a b = dist b a) (self : ∀ a ∈ keys, dist a a = 0)
    (pos : ∀ a ∈ keys, ∀ b ∈ keys, a ≠ b → 0 < dist a b) (two : 2 ≤ keys.length) :
    ∃ a b, findExtremaAndLength table = .ok (some (a, b), dist a b) ∧ a ∈ keys ∧ b ∈ keys ∧ a ≠ b ∧
      ∀ u ∈ keys, ∀ v ∈ keys, dist u v ≤ dist a b := by
  have hp := h.keys_perm
  obtain ⟨a, b, h1, h2, h3, h4, h5⟩ := extrema_spec_aux table (table.map Prod.fst) dist ⟨.refl _, hp.nodup_iff.2 h.nodup, fun p hq b hb => h.complete p hq b (hp.mem_iff.1 hb)⟩ rfl
    (fun a ha b hb => symm a (hp.mem_iff.1 ha) b (hp.mem_iff.1 hb)) (fun a ha => self a (hp.mem_iff.1 ha))
    (fun a ha b hb => pos a (hp.mem_iff.1 ha) b (hp.mem_iff.1 hb)) (by rw [hp.length_eq]; exact two)
  exact ⟨a, b, h1, hp.mem_iff.1 h2, hp.mem_iff.1 h3, h4, fun u hu v hv => h5 u (hp.mem_iff.2 hu) v (hp.mem_iff.2 hv)⟩

/-- Without positive distances no extreme is found (and the callers fail with `AttributeError`). -/
theorem extrema_degenerate (a b : α) (ra rb : List (α × ℚ)) (d : ℚ) (hd : d ≤ 0) (h : ra.lookup b = some d) :
    findExtremaAndLength [(a, ra), (b, rb)] = .ok (none, 0) := by
  simp [findExtremaAndLength, combinations2, extremaLoop, h, hd.not_gt]

/-- Walks can be reversed. -/
theorem walk_nodes {g : Graph α} {w : α → α → ℚ} {a b : α} {l : ℚ} (h : Walk g w a b l) : a ∈ g.nodes ∧ b ∈ g.nodes := by
  induction h with
  | here h => exact ⟨h, h⟩
  | step _ h2 ih => exact ⟨ih.1, h2.2.1⟩

theorem walk_append {g : Graph α} {w : α → α → ℚ} {a b c : α} {l m : ℚ} (h1 : Walk g w a b l) (h2 : Walk g w b c m) : Walk g w a c (l + m) := by
  induction h2 with
  | here _ => rw [add_zero]; exact h1
  | step _ h3 ih => rw [← add_assoc]; exact ih.step h3

theorem walk_reverse {g : Graph α} {w : α → α → ℚ} (hw : ∀ a b, w a b = w b a) {a b : α} {l : ℚ} (h : Walk g w a b l) : Walk g w b a l := by
  induction h with
  | here h => exact .here _ h
  | @step b c l h1 h2 ih =>
    have := walk_append ((Walk.here c h2.2.1).step h2.symm) ih
    rw [zero_add, hw c b, add_comm] at this
    exact this

theorem walk_pos {g : Graph α} {w : α → α → ℚ} (hw : ∀ a ∈ g.nodes, ∀ b ∈ g.nodes, a ≠ b → 0 < w a b) (hself : ∀ a, 0 ≤ w a a) {a b : α} {l : ℚ} (h : Walk g w a b l) :
    0 ≤ l ∧ (a ≠ b → 0 < l) := by
  induction h with
  | here h => exact ⟨le_rfl, fun h => absurd rfl h⟩
  | @step b c l h1 h2 ih =>
    by_cases hbc : b = c
    · subst hbc
      have := hself b
      exact ⟨by linarith [ih.1], fun hne => by linarith [ih.2 hne]⟩
    · have := hw b h2.1 c h2.2.1 hbc
      exact ⟨by linarith [ih.1], fun _ => by linarith [ih.1]⟩

/-- **C29** The length of a track (with the distances along the track of networkx) is the largest, over all pairs of its voxels, of the
lengths of the shortest walks between them, and it is realised by the extremes. -/
theorem track_length (g : Graph α) (w : α → α → ℚ) (hsym : ∀ a b, w a b = w b a) (hpos : ∀ a ∈ g.nodes, ∀ b ∈ g.nodes, a ≠ b → 0 < w a b) (hself : ∀ a, 0 ≤ w a a)
    (nodes : List α) (hsub : ∀ a ∈ nodes, a ∈ g.nodes) (dist : α → α → ℚ) (hd : Shortest g w nodes dist) (table : Table α) (ht : IsTable table nodes dist)
    (two : 2 ≤ nodes.length) :
    ∃ a b l, findExtremaAndLength table = .ok (some (a, b), l) ∧ a ∈ nodes ∧ b ∈ nodes ∧ a ≠ b ∧
      Walk g w a b l ∧ (∀ m, Walk g w a b m → l ≤ m) ∧ ∀ u ∈ nodes, ∀ v ∈ nodes, ∃ m ≤ l, Walk g w u v m := by
  obtain ⟨a, b, h1, h2, h3, h4, h5⟩ := extrema_spec table nodes dist ht
    (fun u hu v hv => le_antisymm (hd.shortest u hu v hv _ (walk_reverse hsym (hd.attained v hv u hu)))
      (hd.shortest v hv u hu _ (walk_reverse hsym (hd.attained u hu v hv))))
    (fun u hu => le_antisymm (hd.shortest u hu u hu 0 (.here u (hsub u hu))) (walk_pos hpos hself (hd.attained u hu u hu)).1)
    (fun u hu v hv hne => (walk_pos hpos hself (hd.attained u hu v hv)).2 hne) two
  exact ⟨a, b, _, h1, h2, h3, h4, hd.attained a h2 b h3, hd.shortest a h2 b h3,
    fun u hu v hv => ⟨dist u v, h5 u hu v hv, hd.attained u hu v hv⟩⟩

theorem table_lookup {table : Table α} {keys : List α} {dist : α → α → ℚ} (h : IsTable table keys dist) {a : α} (ha : a ∈ keys) :
    ∃ row, table.lookup a = some row ∧ ∀ b ∈ keys, row.lookup b = some (dist a b) := by
  obtain ⟨he, _, hc⟩ := h
  have hm : a ∈ table.map Prod.fst := he.mem_iff.2 ha
  clear he ha
  induction table with
  | nil => cases hm
  | cons p t ih =>
    obtain ⟨k, row⟩ := p
    by_cases hk : a = k
    · subst hk
      exact ⟨row, by simp, hc _ List.mem_cons_self⟩
    · have hm' : a ∈ t.map Prod.fst := by
        rw [List.map_cons] at hm
        exact (List.mem_cons.1 hm).resolve_left hk
      obtain ⟨r, hr, h2⟩ := ih (fun p hp => hc p (List.mem_cons_of_mem _ hp)) hm'
      refine ⟨r, ?_, h2⟩
      rw [List.lookup_cons]
      have : (a == k) = false := by simpa using hk
      rw [this]; exact hr

end extrema

/-! ### Blobs -/

theorem distancesTo_ok {row : List (Node × ℚ)} {dist : Node → ℚ} {vs : List Node} (hl : ∀ v ∈ vs, row.lookup v = some (dist v)) :
    distancesTo row vs = .ok (vs.map fun v => (v, dist v)) := by
  unfold distancesTo
  rw [mapM_ok_iff]
  induction vs with
  | nil => exact .nil
  | cons v vs ih =>
    refine .cons ?_ (ih fun u hu => hl u (List.mem_cons_of_mem _ hu))
    rw [hl v List.mem_cons_self]

theorem hitsInBlob_spec {track : List Node} {table : Table Node} {dist : Node → Node → ℚ} (h : IsTable table track dist)
    (radius : ℚ) (diag : Node → ℚ) {n : Node} (hn : n ∈ track) :
    ∃ hs, hitsInBlob track table radius n diag = .ok hs ∧
      hs = track.flatMap fun v => v.vox.hits.filter fun h => decide (dist n v < radius + diag n ∧ 0 < radius ∧
        (h.x - (blobCentre n).x) ^ 2 + (h.y - (blobCentre n).y) ^ 2 + (h.z - (blobCentre n).z) ^ 2 < radius ^ 2) := by
  obtain ⟨row, hr, hl⟩ := table_lookup h hn
  refine ⟨_, by simp only [hitsInBlob, hr, distancesTo_ok hl]; rfl, ?_⟩
  rw [List.flatMap_map, List.flatMap, List.flatMap]
  congr 1
  apply List.map_congr_left
  intro v _
  split
  · rename_i hlt
    unfold hitsWithin
    apply List.filter_congr
    intro p _
    simp [hlt]
  · rename_i hlt
    symm
    rw [List.filter_eq_nil_iff]
    intro p _
    simp [hlt]

/-- **C29** The two blobs: the more energetic is first; each is the blob around one of the two voxels `n1`, `n2` in which the search
ends; these are the extremes of the track, in one order or the other, unless a bigger radius is given.  The energy of a blob is that of its
hits, if any of the two blobs has hits. -/
theorem blobs_spec (track : List Node) (table : Table Node) (dist : Node → Node → ℚ) (h : IsTable table track dist)
    (symm : ∀ a ∈ track, ∀ b ∈ track, dist a b = dist b a) (self : ∀ a ∈ track, dist a a = 0)
    (pos : ∀ a ∈ track, ∀ b ∈ track, a ≠ b → 0 < dist a b) (hne : track ≠ []) (radius : ℚ) (diag : Node → ℚ) :
    ∃ a b b1 b2, a ∈ track ∧ b ∈ track ∧ (∀ u ∈ track, ∀ v ∈ track, dist u v ≤ dist a b) ∧
      blobs track table radius none diag = .ok (b1, b2) ∧ b2.e ≤ b1.e ∧
      ((IsBlob track dist radius diag a b1 ∧ IsBlob track dist radius diag b b2) ∨
       (IsBlob track dist radius diag b b1 ∧ IsBlob track dist radius diag a b2)) ∧
      (b1.hits ≠ [] ∨ b2.hits ≠ [] → b1.e = total b1.hits ∧ b2.e = total b2.hits) := by
  have hex : ∃ a b l, findExtremaAndLength table = .ok (some (a, b), l) ∧ a ∈ track ∧ b ∈ track ∧ ∀ u ∈ track, ∀ v ∈ track, dist u v ≤ dist a b := by
    by_cases two : 2 ≤ track.length
    · obtain ⟨a, b, h1, h2, h3, _, h5⟩ := extrema_spec table track dist h symm self pos two
      exact ⟨a, b, _, h1, h2, h3, h5⟩
    · have hk := h.keys_perm
      clear h symm self pos
      match track, hne, two, hk with
      | _ :: _ :: _, _, two, _ => exact absurd (by simp) two
      | [v], _, _, hk =>
        have hk := List.perm_singleton.1 hk
        match table, hk with
        | [(v', row)], hk =>
          simp only [List.map_cons, List.map_nil, List.cons.injEq, and_true] at hk
          subst hk
          refine ⟨v', v', 0, rfl, by simp, by simp, ?_⟩
          intro u hu w hw
          rw [List.mem_singleton] at hu hw
          subst hu; subst hw; exact le_rfl
  obtain ⟨a, b, l, hf, ha, hb, hmax⟩ := hex
  obtain ⟨hsa, ea, eha⟩ := hitsInBlob_spec h radius diag ha
  obtain ⟨hsb, eb, ehb⟩ := hitsInBlob_spec h radius diag hb
  have blobA : ∀ e, IsBlob track dist radius diag a ⟨e, hsa, blobCentre a⟩ := fun e => ⟨rfl, eha⟩
  have blobB : ∀ e, IsBlob track dist radius diag b ⟨e, hsb, blobCentre b⟩ := fun e => ⟨rfl, ehb⟩
  simp only [blobs, hf, ea, eb]
  have some_hits : (hsa ≠ [] ∨ hsb ≠ []) → (hsa.length != 0 || hsb.length != 0) = true := by
    rintro (hh | hh)
    · have : hsa.length ≠ 0 := by simpa using hh
      simp [this, hh]
    · have : hsb.length ≠ 0 := by simpa using hh
      simp [this, hh]
  by_cases hlt : (if (hsa.length != 0 || hsb.length != 0) = true then (hsa.map PHit.e).sum else energyWithin ((table.lookup a).getD []) radius) <
      (if (hsa.length != 0 || hsb.length != 0) = true then (hsb.map PHit.e).sum else energyWithin ((table.lookup b).getD []) radius)
  · rw [if_pos hlt]
    refine ⟨a, b, _, _, ha, hb, hmax, rfl, hlt.le, Or.inr ⟨blobB _, blobA _⟩, ?_⟩
    intro hh
    simp only at hh
    rw [or_comm] at hh
    simp only [some_hits hh, if_true, total]
    exact ⟨trivial, trivial⟩
  · rw [if_neg hlt]
    refine ⟨a, b, _, _, ha, hb, hmax, rfl, not_lt.1 hlt, Or.inl ⟨blobA _, blobB _⟩, ?_⟩
    intro hh
    simp only at hh
    simp only [some_hits hh, if_true, total]
    exact ⟨trivial, trivial⟩

/-- **C29** Whatever the radii, the first blob returned has at least the energy of the second, and each blob has its own hits and centre: those
found around the same voxel. -/
theorem blobs_order (track : List Node) (table : Table Node) (radius : ℚ) (big : Option ℚ) (diag : Node → ℚ) (b1 b2 : BlobInfo)
    (h : blobs track table radius big diag = .ok (b1, b2)) :
    b2.e ≤ b1.e ∧ (∃ n, b1.centre = blobCentre n ∧ hitsInBlob track table radius n diag = .ok b1.hits) ∧
    ∃ n, b2.centre = blobCentre n ∧ hitsInBlob track table radius n diag = .ok b2.hits := by
  have core : ∀ (a b : Node) (ha hb : List PHit) (ea eb : ℚ), hitsInBlob track table radius a diag = .ok ha → hitsInBlob track table radius b diag = .ok hb →
      (if ea < eb then (Except.ok (⟨eb, hb, blobCentre b⟩, ⟨ea, ha, blobCentre a⟩) : Except PyErr (BlobInfo × BlobInfo))
        else .ok (⟨ea, ha, blobCentre a⟩, ⟨eb, hb, blobCentre b⟩)) = .ok (b1, b2) →
      b2.e ≤ b1.e ∧ (∃ n, b1.centre = blobCentre n ∧ hitsInBlob track table radius n diag = .ok b1.hits) ∧
      ∃ n, b2.centre = blobCentre n ∧ hitsInBlob track table radius n diag = .ok b2.hits := by
    intro a b ha hb ea eb h1 h2 h
    split at h
    · rename_i hlt
      simp only [Except.ok.injEq, Prod.mk.injEq] at h
      obtain ⟨rfl, rfl⟩ := h
      exact ⟨hlt.le, ⟨b, rfl, h2⟩, ⟨a, rfl, h1⟩⟩
    · rename_i hlt
      simp only [Except.ok.injEq, Prod.mk.injEq] at h
      obtain ⟨rfl, rfl⟩ := h
      exact ⟨not_lt.1 hlt, ⟨a, rfl, h1⟩, ⟨b, rfl, h2⟩⟩
  unfold blobs at h
  split at h
  · cases h
  · cases h
  · split at h
    · cases h
    · rename_i a b _
      split at h
      · cases h
      · cases h
      · rename_i ha hb h1 h2
        exact core _ _ _ _ _ _ h1 h2 h

theorem maxBy_spec (key : Node → ℚ) : ∀ (ns : List Node) (b : Node), (maxBy key b ns = b ∨ maxBy key b ns ∈ ns) ∧ key b ≤ key (maxBy key b ns) ∧
    ∀ n ∈ ns, key n ≤ key (maxBy key b ns) := by
  intro ns
  induction ns with
  | nil => intro b; simp [maxBy]
  | cons n ns ih =>
    intro b
    rw [maxBy]
    split
    · rename_i hlt
      obtain ⟨i1, i2, i3⟩ := ih n
      refine ⟨Or.inr ?_, hlt.le.trans i2, ?_⟩
      · rcases i1 with h | h
        · rw [h]; exact List.mem_cons_self
        · exact List.mem_cons_of_mem _ h
      · intro m hm
        rcases List.mem_cons.1 hm with rfl | hm
        · exact i2
        · exact i3 m hm
    · rename_i hlt
      obtain ⟨i1, i2, i3⟩ := ih b
      refine ⟨?_, i2, ?_⟩
      · rcases i1 with h | h
        · exact Or.inl h
        · exact Or.inr (List.mem_cons_of_mem _ h)
      · intro m hm
        rcases List.mem_cons.1 hm with rfl | hm
        · exact (not_lt.1 hlt).trans i2
        · exact i3 m hm

/-- Energy of the voxels of the track at less than a distance. -/
def energyAround (track : List Node) (dist : Node → Node → ℚ) (radius : ℚ) (n : Node) : ℚ :=
  ((track.filter fun v => decide (dist n v < radius)).map fun v => v.vox.e).sum

/-- **C29** With a bigger radius, the blob is centred in a voxel within that radius of the extreme with the largest energy around it.  (The rows of
the table are assumed to be in the order of the track, as sums do not depend on it.) -/
theorem highestNode_spec (track : List Node) (table : Table Node) (dist : Node → Node → ℚ) (h : IsTable table track dist)
    (hrow : ∀ p ∈ table, p.2 = track.map fun v => (v, dist p.1 v)) (extreme : Node) (he : extreme ∈ track) (self : dist extreme extreme = 0)
    (big small : ℚ) (hbig : 0 ≤ big) :
    ∃ n, highestNode track extreme table big small = .ok n ∧ n ∈ track ∧ dist extreme n ≤ big ∧
      ∀ m ∈ track, dist extreme m ≤ big → energyAround track dist small m ≤ energyAround track dist small n := by
  obtain ⟨row, hr, hl⟩ := table_lookup h he
  have hcand : ((track.map fun v => (v, dist extreme v)).filter fun p => decide (p.2 ≤ big)).map Prod.fst = track.filter fun v => decide (dist extreme v ≤ big) := by
    rw [List.filter_map, List.map_map]
    simp [Function.comp_def]
  have henergy : ∀ v ∈ track, energyWithin ((table.lookup v).getD []) small = energyAround track dist small v := by
    intro v hv
    obtain ⟨r, hr', _⟩ := table_lookup h hv
    have hmem : (v, r) ∈ table := by
      clear * - hr'
      induction table with
      | nil => cases hr'
      | cons p t ih =>
        obtain ⟨k, r'⟩ := p
        rw [List.lookup_cons] at hr'
        by_cases hk : v = k
        · subst hk
          simp at hr'
          subst hr'; exact List.mem_cons_self
        · have : (v == k) = false := by simpa using hk
          rw [this] at hr'
          exact List.mem_cons_of_mem _ (ih hr')
    rw [hr']
    have := hrow _ hmem
    simp only at this
    simp only [Option.getD_some, this, energyWithin, energyAround]
    rw [List.filter_map, List.map_map]
    rfl
  simp only [highestNode, hr, distancesTo_ok hl, hcand]
  have hin : extreme ∈ track.filter fun v => decide (dist extreme v ≤ big) := List.mem_filter.2 ⟨he, by simpa [self] using hbig⟩
  cases hc : track.filter fun v => decide (dist extreme v ≤ big) with
  | nil => rw [hc] at hin; cases hin
  | cons n ns =>
    obtain ⟨i1, i2, i3⟩ := maxBy_spec (fun v => energyWithin ((table.lookup v).getD []) small) ns n
    set r := maxBy (fun v => energyWithin ((table.lookup v).getD []) small) n ns with hrdef
    have hrm : r ∈ track.filter fun v => decide (dist extreme v ≤ big) := by
      rw [hc]
      rcases i1 with h | h
      · rw [h]; exact List.mem_cons_self
      · exact List.mem_cons_of_mem _ h
    have hrt := (List.mem_filter.1 hrm).1
    refine ⟨r, rfl, hrt, by simpa using (List.mem_filter.1 hrm).2, ?_⟩
    intro m hm hmb
    have hmc : m ∈ n :: ns := by rw [← hc]; exact List.mem_filter.2 ⟨hm, by simpa using hmb⟩
    rw [← henergy m hm, ← henergy r hrt]
    rcases List.mem_cons.1 hmc with rfl | h
    · exact i2
    · exact i3 m h

/-- Three voxels in a row, the first two with a hit each. -/
def rowTrack : List Node := [⟨0, ⟨0, 0, 0, 1, 1, 1, 1, [⟨0, 0, 0, 1, 0⟩]⟩⟩, ⟨1, ⟨1, 0, 0, 2, 1, 1, 1, [⟨1, 0, 0, 2, 1⟩]⟩⟩,
  ⟨2, ⟨2, 0, 0, 3, 1, 1, 1, [⟨2, 0, 0, 3, 2⟩]⟩⟩]

def rowDist (a b : Node) : ℚ := |a.vox.x - b.vox.x|

def rowTable : Table Node := rowTrack.map fun a => (a, rowTrack.map fun b => (b, rowDist a b))

example : findExtremaAndLength rowTable = .ok (some (rowTrack[0], rowTrack[2]), 2) := by decide +kernel
example : blobs rowTrack rowTable (1 / 2) none (fun _ => 2) = .ok (⟨3, [⟨2, 0, 0, 3, 2⟩], ⟨2, 0, 0⟩⟩, ⟨1, [⟨0, 0, 0, 1, 0⟩], ⟨0, 0, 0⟩⟩) := by decide +kernel
example : IsTable rowTable rowTrack rowDist :=
  ⟨.of_eq (by decide +kernel), by decide +kernel, by decide +kernel⟩
example : (∀ a ∈ rowTrack, ∀ b ∈ rowTrack, rowDist a b = rowDist b a) ∧ (∀ a ∈ rowTrack, rowDist a a = 0) ∧
    (∀ a ∈ rowTrack, ∀ b ∈ rowTrack, a ≠ b → 0 < rowDist a b) ∧ rowTrack ≠ [] ∧ 2 ≤ rowTrack.length ∧
    ∀ p ∈ rowTable, p.2 = rowTrack.map fun v => (v, rowDist p.1 v) := by decide +kernel

theorem rowDist_walk {g : Graph Node} {a b : Node} {l : ℚ} (h : Walk g rowDist a b l) : rowDist a b ≤ l := by
  induction h with
  | here _ => simp [rowDist]
  | step _ _ ih =>
    refine le_trans ?_ (add_le_add_left ih _)
    unfold rowDist
    exact abs_sub_le ..

example : Shortest (trackGraph rowTrack .corner) rowDist rowTrack rowDist := by
  refine ⟨?_, fun a _ b _ l h => rowDist_walk h⟩
  have step1 : ∀ a b, Adj (trackGraph rowTrack .corner) a b → Walk (trackGraph rowTrack .corner) rowDist a b (rowDist a b) := by
    intro a b h
    have := (Walk.here (w := rowDist) a h.1).step h
    rwa [zero_add] at this
  have h01 := step1 rowTrack[0] rowTrack[1] ⟨by decide +kernel, by decide +kernel, by decide +kernel⟩
  have h12 := step1 rowTrack[1] rowTrack[2] ⟨by decide +kernel, by decide +kernel, by decide +kernel⟩
  have hs : ∀ a b, rowDist a b = rowDist b a := fun a b => abs_sub_comm ..
  have h02 := walk_append h01 h12
  have e02 : rowDist rowTrack[0] rowTrack[1] + rowDist rowTrack[1] rowTrack[2] = rowDist rowTrack[0] rowTrack[2] := by decide +kernel
  rw [e02] at h02
  have h10 := walk_reverse hs h01
  have h21 := walk_reverse hs h12
  have h20 := walk_reverse hs h02
  rw [hs] at h10 h21 h20
  have self : ∀ a ∈ rowTrack, Walk (trackGraph rowTrack .corner) rowDist a a (rowDist a a) := by
    intro a ha
    have : rowDist a a = 0 := by simp [rowDist]
    rw [this]
    exact .here _ ha
  have hall : ∀ a ∈ rowTrack, a = rowTrack[0] ∨ a = rowTrack[1] ∨ a = rowTrack[2] := by decide +kernel
  intro a ha b hb
  rcases hall a ha with h | h | h <;> rcases hall b hb with h' | h' | h' <;> subst h <;> subst h'
  · exact self _ ha
  · exact h01
  · exact h02
  · exact h10
  · exact self _ ha
  · exact h12
  · exact h20
  · exact h21
  · exact self _ ha

end Verif.Tracks
