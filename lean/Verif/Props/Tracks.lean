import Verif.Model.Tracks
import Verif.Lemmas.Lists
import Mathlib.Logic.Relation
import Mathlib.Data.List.Perm.Basic
/-!
# C28: tracks are the connected components of the voxels
-/
namespace Verif.Tracks
open Verif.Voxels

/-- Square of the distance between two voxels in units of a size. -/
def normDist2 (s : ℚ × ℚ × ℚ) (a b : Voxel) : ℚ :=
  ((a.x - b.x) / s.1) ^ 2 + ((a.y - b.y) / s.2.1) ^ 2 + ((a.z - b.z) / s.2.2) ^ 2

/-- Two voxels of the collection are linked: their distance in units of their common size is below the contiguity. -/
def Linked (voxels : List Node) (s : ℚ × ℚ × ℚ) (c : Contiguity) (a b : Node) : Prop :=
  a ∈ voxels ∧ b ∈ voxels ∧ normDist2 s a.vox b.vox < c.value ^ 2

/-- All voxels have the same size. -/
def CommonSize (voxels : List Node) (s : ℚ × ℚ × ℚ) : Prop := ∀ v ∈ voxels, (v.vox.sx, v.vox.sy, v.vox.sz) = s

/-! ### Graphs -/

section graph
variable {α : Type} [DecidableEq α]

theorem mem_combinations2 {l : List α} {a b : α} (h : (a, b) ∈ combinations2 l) : a ∈ l ∧ b ∈ l := by
  induction l with
  | nil => cases h
  | cons x xs ih =>
    rw [combinations2, List.mem_append] at h
    rcases h with h | h
    · obtain ⟨y, hy, he⟩ := List.mem_map.1 h
      cases he
      exact ⟨List.mem_cons_self, List.mem_cons_of_mem _ hy⟩
    · exact ⟨List.mem_cons_of_mem _ (ih h).1, List.mem_cons_of_mem _ (ih h).2⟩

theorem combinations2_complete {l : List α} {a b : α} (ha : a ∈ l) (hb : b ∈ l) (hne : a ≠ b) :
    (a, b) ∈ combinations2 l ∨ (b, a) ∈ combinations2 l := by
  induction l with
  | nil => cases ha
  | cons x xs ih =>
    rw [combinations2, List.mem_append, List.mem_append]
    rcases List.mem_cons.1 ha with h1 | h1 <;> rcases List.mem_cons.1 hb with h2 | h2
    · exact absurd (h1.trans h2.symm) hne
    · exact Or.inl (Or.inl (List.mem_map.2 ⟨b, h2, by rw [h1]⟩))
    · exact Or.inr (Or.inl (List.mem_map.2 ⟨a, h1, by rw [h2]⟩))
    · replace ha := h1
      replace hb := h2
      rcases ih ha hb with h | h
      · exact Or.inl (Or.inr h)
      · exact Or.inr (Or.inr h)

/-- Adjacency restricted to the nodes. -/
def Adj (g : Graph α) (a b : α) : Prop := a ∈ g.nodes ∧ b ∈ g.nodes ∧ g.adj a b = true

theorem adj_symm {g : Graph α} {a b : α} (h : g.adj a b = true) : g.adj b a = true := by
  simp only [Graph.adj, decide_eq_true_eq] at h ⊢
  exact h.symm

theorem Adj.symm {g : Graph α} {a b : α} (h : Adj g a b) : Adj g b a := ⟨h.2.1, h.1, adj_symm h.2.2⟩

theorem reach_symm {g : Graph α} {a b : α} (h : Relation.ReflTransGen (Adj g) a b) : Relation.ReflTransGen (Adj g) b a := by
  induction h with
  | refl => exact .refl
  | tail _ h2 ih => exact .head h2.symm ih

theorem mem_nextLevel {g : Graph α} {seen level : List α} {w : α} :
    w ∈ nextLevel g seen level ↔ w ∈ g.nodes ∧ w ∉ seen ∧ ∃ v ∈ level, g.adj v w = true := by
  simp [nextLevel]

theorem bfs_spec (g : Graph α) (hg : g.nodes.Nodup) (seen level : List α) (h1 : ∀ v ∈ seen, v ∈ g.nodes) (h2 : ∀ v ∈ level, v ∈ seen) (h3 : seen.Nodup)
    (h4 : ∀ v ∈ seen, v ∉ level → ∀ w ∈ g.nodes, g.adj v w = true → w ∈ seen) :
    (∀ v ∈ seen, v ∈ bfs g seen level) ∧ (bfs g seen level).Nodup ∧ (∀ v ∈ bfs g seen level, v ∈ g.nodes) ∧
    (∀ v ∈ bfs g seen level, ∀ w, Adj g v w → w ∈ bfs g seen level) ∧
    (∀ w ∈ bfs g seen level, ∃ v ∈ seen, Relation.ReflTransGen (Adj g) v w) := by
  induction seen, level using bfs.induct g with
  | case1 seen level hnil =>
    rw [bfs, dif_pos hnil]
    refine ⟨fun v h => h, h3, h1, ?_, fun w hw => ⟨w, hw, .refl⟩⟩
    intro v hv w hw
    by_cases hl : v ∈ level
    · by_contra hws
      have : w ∈ nextLevel g seen level := mem_nextLevel.2 ⟨hw.2.1, hws, v, hl, hw.2.2⟩
      rw [hnil] at this; cases this
    · exact h4 v hv hl w hw.2.1 hw.2.2
  | case2 seen level hne ih =>
    rw [bfs, dif_neg hne]
    have := ih ?_ ?_ ?_ ?_
    · obtain ⟨i1, i2, i3, i4, i5⟩ := this
      refine ⟨fun v h => i1 v (List.mem_append_left _ h), i2, i3, i4, ?_⟩
      intro w hw
      obtain ⟨v, hv, hr⟩ := i5 w hw
      rcases List.mem_append.1 hv with hv | hv
      · exact ⟨v, hv, hr⟩
      · obtain ⟨hv1, hv2, u, hu, huv⟩ := mem_nextLevel.1 hv
        exact ⟨u, h2 u hu, .head ⟨h1 u (h2 u hu), hv1, huv⟩ hr⟩
    · intro v hv
      rcases List.mem_append.1 hv with hv | hv
      · exact h1 v hv
      · exact (mem_nextLevel.1 hv).1
    · exact fun v hv => List.mem_append_right _ hv
    · rw [List.nodup_append]
      refine ⟨h3, List.Nodup.filter _ hg, ?_⟩
      rintro a ha b hb rfl
      exact (mem_nextLevel.1 hb).2.1 ha
    · intro v hv hnl w hw hvw
      rcases List.mem_append.1 hv with hv | hv
      · by_cases hws : w ∈ seen
        · exact List.mem_append_left _ hws
        · by_cases hl : v ∈ level
          · exact List.mem_append_right _ (mem_nextLevel.2 ⟨hw, hws, v, hl, hvw⟩)
          · exact List.mem_append_left _ (h4 v hv hl w hw hvw)
      · exact absurd hv hnl

theorem bfs_component (g : Graph α) (hg : g.nodes.Nodup) (v : α) (hv : v ∈ g.nodes) :
    (bfs g [v] [v]).Nodup ∧ ∀ w, w ∈ bfs g [v] [v] ↔ Relation.ReflTransGen (Adj g) v w := by
  obtain ⟨i1, i2, i3, i4, i5⟩ := bfs_spec g hg [v] [v] (by simpa using hv) (by simp) (by simp) (by
    intro u hu hnl; exact absurd hu hnl)
  refine ⟨i2, fun w => ⟨?_, ?_⟩⟩
  · intro hw
    obtain ⟨u, hu, hr⟩ := i5 w hw
    rw [List.mem_singleton] at hu
    subst hu; exact hr
  · intro h
    induction h with
    | refl => exact i1 v (by simp)
    | tail _ h2 ih => exact i4 _ ih _ h2

theorem components_spec (g : Graph α) (hg : g.nodes.Nodup) : ∀ (vs seen : List α), (∀ v ∈ vs, v ∈ g.nodes) →
    (∀ v ∈ seen, ∀ w, Adj g v w → w ∈ seen) →
    (components g vs seen).flatten.Nodup ∧ (∀ v ∈ (components g vs seen).flatten, v ∉ seen ∧ v ∈ g.nodes) ∧
    (∀ v ∈ vs, v ∈ seen ∨ v ∈ (components g vs seen).flatten) ∧
    (∀ t ∈ components g vs seen, ∃ v, v ∈ t ∧ ∀ w, w ∈ t ↔ Relation.ReflTransGen (Adj g) v w) := by
  intro vs
  induction vs with
  | nil => intro seen _ _; simp [components]
  | cons v vs ih =>
    intro seen hvs hclosed
    rw [components]
    split
    · rename_i hseen
      obtain ⟨i1, i2, i3, i4⟩ := ih seen (fun w hw => hvs w (List.mem_cons_of_mem _ hw)) hclosed
      refine ⟨i1, i2, ?_, i4⟩
      intro w hw
      rcases List.mem_cons.1 hw with rfl | hw
      · exact Or.inl hseen
      · exact i3 w hw
    · rename_i hseen
      have hvn := hvs v List.mem_cons_self
      obtain ⟨c1, c2⟩ := bfs_component g hg v hvn
      have hcn : ∀ w ∈ bfs g [v] [v], w ∈ g.nodes := by
        intro w hw
        rcases Relation.ReflTransGen.cases_tail ((c2 w).1 hw) with h | ⟨u, _, h⟩
        · rw [h]; exact hvn
        · exact h.2.1
      have hdisj : ∀ w ∈ bfs g [v] [v], w ∉ seen := by
        intro w hw hws
        have hr := reach_symm ((c2 w).1 hw)
        have : ∀ u, Relation.ReflTransGen (Adj g) w u → u ∈ seen := by
          intro u hu
          induction hu with
          | refl => exact hws
          | tail _ h2 ihu => exact hclosed _ ihu _ h2
        exact hseen (this v hr)
      obtain ⟨i1, i2, i3, i4⟩ := ih (seen ++ bfs g [v] [v]) (fun w hw => hvs w (List.mem_cons_of_mem _ hw)) (by
        intro a ha w hw
        rcases List.mem_append.1 ha with ha | ha
        · exact List.mem_append_left _ (hclosed a ha w hw)
        · exact List.mem_append_right _ ((c2 w).2 (((c2 a).1 ha).tail hw)))
      simp only [List.flatten_cons]
      refine ⟨?_, ?_, ?_, ?_⟩
      · rw [List.nodup_append]
        refine ⟨c1, i1, ?_⟩
        rintro a ha b hb rfl
        exact (i2 a hb).1 (List.mem_append_right _ ha)
      · intro w hw
        rcases List.mem_append.1 hw with hw | hw
        · exact ⟨hdisj w hw, hcn w hw⟩
        · exact ⟨fun h => (i2 w hw).1 (List.mem_append_left _ h), (i2 w hw).2⟩
      · intro w hw
        rcases List.mem_cons.1 hw with rfl | hw
        · exact Or.inr (List.mem_append_left _ ((c2 w).2 .refl))
        · rcases i3 w hw with h | h
          · rcases List.mem_append.1 h with h | h
            · exact Or.inl h
            · exact Or.inr (List.mem_append_left _ h)
          · exact Or.inr (List.mem_append_right _ h)
      · intro t ht
        rcases List.mem_cons.1 ht with rfl | ht
        · exact ⟨v, (c2 v).2 .refl, c2⟩
        · exact i4 t ht

end graph

/-! ### Voxels -/

/-- The neighbour relation of `make_track_graphs`: in each pair the size is that of the first voxel. -/
theorem neighbours_common {voxels : List Node} {s : ℚ × ℚ × ℚ} (hs : CommonSize voxels s) (c : Contiguity) {a : Node} (ha : a ∈ voxels) (b : Voxel) :
    neighbours a.vox b c = true ↔ normDist2 s a.vox b < c.value ^ 2 := by
  have := hs a ha
  subst this
  simp [neighbours, normDist2]

theorem normDist2_symm (s : ℚ × ℚ × ℚ) (a b : Voxel) : normDist2 s a b = normDist2 s b a := by
  unfold normDist2
  rw [← neg_sub b.x a.x, ← neg_sub b.y a.y, ← neg_sub b.z a.z, neg_div, neg_div, neg_div, neg_sq, neg_sq, neg_sq]

/-- **C28** For voxels of a common size the neighbour relation is symmetric (and each voxel is a neighbour of itself). -/
theorem neighbours_symm (a b : Voxel) (hx : a.sx = b.sx) (hy : a.sy = b.sy) (hz : a.sz = b.sz) (c : Contiguity) :
    neighbours a b c = neighbours b a c ∧ neighbours a a c = true := by
  have h := normDist2_symm (a.sx, a.sy, a.sz) a b
  simp only [normDist2] at h
  constructor
  · simp only [neighbours]
    rw [h, hx, hy, hz]
  · cases c <;> simp [neighbours, Contiguity.value] <;> norm_num

theorem adj_linked {voxels : List Node} {s : ℚ × ℚ × ℚ} (hs : CommonSize voxels s) {c : Contiguity} {a b : Node} (hne : a ≠ b) :
    Adj (trackGraph voxels c) a b ↔ Linked voxels s c a b := by
  simp only [Adj, trackGraph, Linked, Graph.adj, decide_eq_true_eq, List.mem_filter]
  constructor
  · rintro ⟨ha, hb, h | h⟩
    · exact ⟨ha, hb, (neighbours_common hs c ha _).1 h.2⟩
    · exact ⟨ha, hb, by rw [normDist2_symm]; exact (neighbours_common hs c hb _).1 h.2⟩
  · rintro ⟨ha, hb, h⟩
    refine ⟨ha, hb, ?_⟩
    rcases combinations2_complete ha hb hne with h1 | h1
    · exact Or.inl ⟨h1, (neighbours_common hs c ha _).2 h⟩
    · exact Or.inr ⟨h1, (neighbours_common hs c hb _).2 (by rw [normDist2_symm]; exact h)⟩

theorem reach_linked {voxels : List Node} {s : ℚ × ℚ × ℚ} (hs : CommonSize voxels s) {c : Contiguity} {a b : Node} :
    Relation.ReflTransGen (Adj (trackGraph voxels c)) a b ↔ Relation.ReflTransGen (Linked voxels s c) a b := by
  constructor
  · intro h
    induction h with
    | refl => exact .refl
    | @tail u v _ h2 ih =>
      by_cases huv : u = v
      · subst huv; exact ih
      · exact ih.tail ((adj_linked hs huv).1 h2)
  · intro h
    induction h with
    | refl => exact .refl
    | @tail u v _ h2 ih =>
      by_cases huv : u = v
      · subst huv; exact ih
      · exact ih.tail ((adj_linked hs huv).2 h2)

/-- **C28** Each voxel is in exactly one track, and no track is empty (whatever the sizes). -/
theorem tracks_partition (voxels : List Node) (hn : voxels.Nodup) (c : Contiguity) :
    (makeTrackGraphs voxels c).flatten.Perm voxels ∧ ∀ t ∈ makeTrackGraphs voxels c, t ≠ [] := by
  obtain ⟨i1, i2, i3, i4⟩ := components_spec (trackGraph voxels c) hn voxels [] (fun v hv => hv) (by simp)
  refine ⟨?_, ?_⟩
  · apply (List.perm_ext_iff_of_nodup i1 hn).2
    intro a
    constructor
    · exact fun h => (i2 a h).2
    · intro h
      rcases i3 a h with h | h
      · cases h
      · exact h
  · intro t ht
    obtain ⟨v, hv, _⟩ := i4 t ht
    exact List.ne_nil_of_mem hv

/-- **C28** Two voxels are in the same track iff there is a chain of neighbouring voxels linking them. -/
theorem same_track_iff (voxels : List Node) (hn : voxels.Nodup) (s : ℚ × ℚ × ℚ) (hs : CommonSize voxels s) (c : Contiguity)
    (a b : Node) (ha : a ∈ voxels) :
    (∃ t ∈ makeTrackGraphs voxels c, a ∈ t ∧ b ∈ t) ↔ Relation.ReflTransGen (Linked voxels s c) a b := by
  obtain ⟨i1, i2, i3, i4⟩ := components_spec (trackGraph voxels c) hn voxels [] (fun v hv => hv) (by simp)
  rw [← reach_linked hs]
  constructor
  · rintro ⟨t, ht, h1, h2⟩
    obtain ⟨v, _, hv⟩ := i4 t ht
    exact (reach_symm ((hv a).1 h1)).trans ((hv b).1 h2)
  · intro h
    rcases i3 a ha with h' | h'
    · cases h'
    · obtain ⟨t, ht, hat⟩ := List.mem_flatten.1 h'
      obtain ⟨v, _, hv⟩ := i4 t ht
      exact ⟨t, ht, hat, (hv b).2 (((hv a).1 hat).trans h)⟩

/-- **C28** A larger contiguity only merges tracks: each track is contained in a track of the larger contiguity. -/
theorem tracks_mono (voxels : List Node) (hn : voxels.Nodup) (s : ℚ × ℚ × ℚ) (hs : CommonSize voxels s) (c c' : Contiguity)
    (hc : c.value ≤ c'.value) : ∀ t ∈ makeTrackGraphs voxels c, ∃ t' ∈ makeTrackGraphs voxels c', ∀ v ∈ t, v ∈ t' := by
  intro t ht
  obtain ⟨i1, i2, i3, i4⟩ := components_spec (trackGraph voxels c) hn voxels [] (fun v hv => hv) (by simp)
  obtain ⟨v, hv, hvr⟩ := i4 t ht
  have hvn : v ∈ voxels := (i2 v (List.mem_flatten.2 ⟨t, ht, hv⟩)).2
  have hpos : 0 ≤ c.value := by cases c <;> simp [Contiguity.value] <;> norm_num
  obtain ⟨j1, j2, j3, j4⟩ := components_spec (trackGraph voxels c') hn voxels [] (fun v hv => hv) (by simp)
  rcases j3 v hvn with h | h
  · cases h
  obtain ⟨t', ht', hvt'⟩ := List.mem_flatten.1 h
  refine ⟨t', ht', fun w hw => ?_⟩
  obtain ⟨u, _, hu⟩ := j4 t' ht'
  rw [hu]
  refine ((hu v).1 hvt').trans ?_
  have hr := (reach_linked hs).1 ((hvr w).1 hw)
  rw [reach_linked hs]
  have step : ∀ a b, Linked voxels s c a b → Linked voxels s c' a b := by
    rintro a b ⟨h1, h2, h3⟩
    exact ⟨h1, h2, h3.trans_le (by nlinarith)⟩
  exact Relation.ReflTransGen.mono step _ _ hr

/-- **C28** On a grid of voxels (positions differing by a whole number of sizes) the contiguities mean what their names say: sharing
a face, at least an edge, at least a corner (or being the same voxel). -/
theorem contiguity_on_grid (a b : Voxel) (i j k : Int) (hx : a.sx ≠ 0) (hy : a.sy ≠ 0) (hz : a.sz ≠ 0)
    (ex : b.x = a.x + i * a.sx) (ey : b.y = a.y + j * a.sy) (ez : b.z = a.z + k * a.sz) :
    (neighbours a b .face = true ↔ |i| + |j| + |k| ≤ 1) ∧
    (neighbours a b .edge = true ↔ |i| + |j| + |k| ≤ 2 ∧ |i| ≤ 1 ∧ |j| ≤ 1 ∧ |k| ≤ 1) ∧
    (neighbours a b .corner = true ↔ |i| ≤ 1 ∧ |j| ≤ 1 ∧ |k| ≤ 1) := by
  have hd : ∀ c : Contiguity, neighbours a b c = true ↔ ((i ^ 2 + j ^ 2 + k ^ 2 : Int) : ℚ) < c.value ^ 2 := by
    intro c
    simp only [neighbours, decide_eq_true_eq, ex, ey, ez]
    have e1 : (a.x - (a.x + i * a.sx)) / a.sx = -i := by field_simp; ring
    have e2 : (a.y - (a.y + j * a.sy)) / a.sy = -j := by field_simp; ring
    have e3 : (a.z - (a.z + k * a.sz)) / a.sz = -k := by field_simp; ring
    rw [e1, e2, e3]
    push_cast
    rw [neg_sq, neg_sq, neg_sq]
  have bound : ∀ (m : Int) (q : ℚ) (N : Int), (N : ℚ) < q → q ≤ N + 1 → ((m : ℚ) < q ↔ m ≤ N) := by
    intro m q N h1 h2
    constructor
    · intro h
      have : (m : ℚ) < ((N + 1 : Int) : ℚ) := by push_cast; linarith
      have := Int.cast_lt.1 this
      omega
    · intro h
      have : (m : ℚ) ≤ (N : ℚ) := by exact_mod_cast h
      linarith
  have small : ∀ n : Int, (|n| ≤ 1 → n ^ 2 = |n|) ∧ (2 ≤ |n| → 4 ≤ n ^ 2) := by
    intro n
    constructor
    · intro h
      rw [abs_le] at h
      have : n = -1 ∨ n = 0 ∨ n = 1 := by omega
      rcases this with rfl | rfl | rfl <;> simp
    · intro h
      rw [← sq_abs]
      nlinarith
  have nn : ∀ n : Int, 0 ≤ |n| ∧ 0 ≤ n ^ 2 := fun n => ⟨abs_nonneg n, sq_nonneg n⟩
  have hi := small i
  have hj := small j
  have hk := small k
  have ni := nn i
  have nj := nn j
  have nk := nn k
  refine ⟨?_, ?_, ?_⟩
  · rw [hd, bound _ _ 1 (by norm_num [Contiguity.value]) (by norm_num [Contiguity.value])]
    generalize |i| = I at *; generalize |j| = J at *; generalize |k| = K at *
    generalize i ^ 2 = I2 at *; generalize j ^ 2 = J2 at *; generalize k ^ 2 = K2 at *
    omega
  · rw [hd, bound _ _ 2 (by norm_num [Contiguity.value]) (by norm_num [Contiguity.value])]
    generalize |i| = I at *; generalize |j| = J at *; generalize |k| = K at *
    generalize i ^ 2 = I2 at *; generalize j ^ 2 = J2 at *; generalize k ^ 2 = K2 at *
    omega
  · rw [hd, bound _ _ 3 (by norm_num [Contiguity.value]) (by norm_num [Contiguity.value])]
    generalize |i| = I at *; generalize |j| = J at *; generalize |k| = K at *
    generalize i ^ 2 = I2 at *; generalize j ^ 2 = J2 at *; generalize k ^ 2 = K2 at *
    omega

/-- A voxel of unit size without hits. -/
def unitVoxel (id : Nat) (x y z e : ℚ) : Node := ⟨id, ⟨x, y, z, e, 1, 1, 1, []⟩⟩

/-- Four voxels in two tracks. -/
def exampleVoxels : List Node := [unitVoxel 0 0 0 0 1, unitVoxel 1 5 5 5 2, unitVoxel 2 1 1 1 3, unitVoxel 3 2 1 1 4]

example : (makeTrackGraphs exampleVoxels .corner).map (·.map Node.id) = [[0, 2, 3], [1]] ∧
    (makeTrackGraphs exampleVoxels .face).map (·.map Node.id) = [[0], [1], [2, 3]] := by decide +kernel
example : exampleVoxels.Nodup ∧ CommonSize exampleVoxels (1, 1, 1) ∧ Contiguity.face.value ≤ Contiguity.corner.value := by
  refine ⟨by decide +kernel, ?_, by decide +kernel⟩
  intro v hv
  simp [exampleVoxels] at hv
  rcases hv with rfl | rfl | rfl | rfl <;> rfl

/-- With voxels of different sizes the relation is not symmetric and tracks depend on the order of the voxels. -/
theorem different_sizes_depend_on_order :
    (makeTrackGraphs [⟨0, ⟨0, 0, 0, 1, 1, 1, 1, []⟩⟩, ⟨1, ⟨3, 0, 0, 1, 5, 5, 5, []⟩⟩] .corner).length = 2 ∧
    (makeTrackGraphs [⟨1, ⟨3, 0, 0, 1, 5, 5, 5, []⟩⟩, ⟨0, ⟨0, 0, 0, 1, 1, 1, 1, []⟩⟩] .corner).length = 1 := by decide +kernel

end Verif.Tracks
