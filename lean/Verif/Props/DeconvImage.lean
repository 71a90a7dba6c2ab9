import Verif.Spec.Deconv
import Verif.Props.Tracks
import Verif.Props.Hits
/-!
# C57: satellites and the Richardson-Lucy iteration
-/
namespace Verif.Deconv
open Verif.Tracks (Graph components combinations2 Adj)

/-! ### Components of a graph -/

section graph
variable {α : Type} [DecidableEq α]

theorem components_facts (g : Graph α) (hg : g.nodes.Nodup) :
    (∀ a ∈ g.nodes, ∃ t ∈ components g g.nodes [], a ∈ t) ∧
    (∀ t ∈ components g g.nodes [], t.Nodup ∧ t ≠ [] ∧ ∀ a ∈ t, a ∈ g.nodes ∧ ∀ b, b ∈ t ↔ Relation.ReflTransGen (Adj g) a b) ∧
    (2 ≤ (components g g.nodes []).length ↔ ∃ a ∈ g.nodes, ∃ b ∈ g.nodes, ¬ Relation.ReflTransGen (Adj g) a b) := by
  obtain ⟨i1, i2, i3, i4⟩ := Tracks.components_spec g hg g.nodes [] (fun v hv => hv) (by simp)
  have hcover : ∀ a ∈ g.nodes, ∃ t ∈ components g g.nodes [], a ∈ t := by
    intro a ha
    rcases i3 a ha with h | h
    · cases h
    · exact List.mem_flatten.1 h
  have hcomp : ∀ t ∈ components g g.nodes [], t.Nodup ∧ t ≠ [] ∧ ∀ a ∈ t, a ∈ g.nodes ∧ ∀ b, b ∈ t ↔ Relation.ReflTransGen (Adj g) a b := by
    intro t ht
    obtain ⟨v, hv, hvr⟩ := i4 t ht
    refine ⟨(List.nodup_flatten.1 i1).1 t ht, List.ne_nil_of_mem hv, fun a ha => ⟨(i2 a (List.mem_flatten.2 ⟨t, ht, ha⟩)).2, fun b => ?_⟩⟩
    rw [hvr]
    have hva := (hvr a).1 ha
    exact ⟨fun h => (Tracks.reach_symm hva).trans h, fun h => hva.trans h⟩
  refine ⟨hcover, hcomp, ?_⟩
  have hdis := (List.nodup_flatten.1 i1).2
  constructor
  · intro h2
    obtain ⟨t1, t2, rest, he⟩ : ∃ t1 t2 rest, components g g.nodes [] = t1 :: t2 :: rest := by
      match hc : components g g.nodes [], h2 with
      | t1 :: t2 :: rest, _ => exact ⟨t1, t2, rest, rfl⟩
    have m1 : t1 ∈ components g g.nodes [] := by rw [he]; simp
    have m2 : t2 ∈ components g g.nodes [] := by rw [he]; simp
    obtain ⟨a, ha⟩ := List.exists_mem_of_ne_nil _ (hcomp t1 m1).2.1
    obtain ⟨b, hb⟩ := List.exists_mem_of_ne_nil _ (hcomp t2 m2).2.1
    refine ⟨a, ((hcomp t1 m1).2.2 a ha).1, b, ((hcomp t2 m2).2.2 b hb).1, fun h => ?_⟩
    have hb1 := (((hcomp t1 m1).2.2 a ha).2 b).2 h
    rw [he, List.pairwise_cons] at hdis
    exact hdis.1 t2 (by simp) hb1 hb
  · rintro ⟨a, ha, b, hb, hn⟩
    obtain ⟨ta, hta, haa⟩ := hcover a ha
    obtain ⟨tb, htb, hbb⟩ := hcover b hb
    by_contra hlt
    have : ta = tb := by
      match hc : components g g.nodes [] with
      | [] => rw [hc] at hta; cases hta
      | [t] =>
        rw [hc] at hta htb
        rw [List.mem_singleton.1 hta, List.mem_singleton.1 htb]
      | _ :: _ :: _ => rw [hc] at hlt; simp at hlt
    subst this
    exact hn ((((hcomp ta hta).2.2 a haa).2 b).1 hbb)

end graph

/-! ### Satellites -/

theorem mem_positions {im : Img} {p : Nat × Nat} : p ∈ im.positions ↔ p.1 < im.h ∧ p.2 < im.w := by
  obtain ⟨i, j⟩ := p
  simp only [Img.positions, List.mem_flatMap, List.mem_map, List.mem_range, Prod.mk.injEq]
  constructor
  · rintro ⟨a, ha, b, hb, rfl, rfl⟩; exact ⟨ha, hb⟩
  · rintro ⟨h1, h2⟩; exact ⟨i, h1, j, h2, rfl, rfl⟩

theorem positions_nodup (im : Img) : im.positions.Nodup := by
  unfold Img.positions
  rw [List.nodup_flatMap]
  refine ⟨fun i _ => List.Nodup.map (fun a b h => (Prod.mk.inj h).2) List.nodup_range, ?_⟩
  refine List.Pairwise.imp_of_mem ?_ List.nodup_range
  intro a b _ _ hab x h1 h2
  obtain ⟨j, _, rfl⟩ := List.mem_map.1 h1
  obtain ⟨j', _, he⟩ := List.mem_map.1 h2
  exact hab (Prod.mk.inj he).1.symm

private theorem foldl_max_spec : ∀ (xs : List ℚ) (a : ℚ), (xs.foldl max a = a ∨ xs.foldl max a ∈ xs) ∧ a ≤ xs.foldl max a ∧ ∀ x ∈ xs, x ≤ xs.foldl max a
  | [], a => ⟨.inl rfl, le_rfl, by simp⟩
  | y :: ys, a => by
    obtain ⟨h1, h2, h3⟩ := foldl_max_spec ys (max a y)
    rw [List.foldl_cons]
    refine ⟨?_, le_trans (le_max_left _ _) h2, ?_⟩
    · rcases h1 with h | h
      · rcases max_choice a y with e | e
        · exact .inl (by rw [h, e])
        · exact .inr (by rw [h, e]; exact List.mem_cons_self)
      · exact .inr (List.mem_cons_of_mem _ h)
    · intro x hx
      rcases List.mem_cons.1 hx with rfl | hx
      · exact le_trans (le_max_right _ _) h2
      · exact h3 x hx

/-- The largest value of an image with pixels is that of `max()`. -/
theorem top_iff {im : Img} {p : Nat × Nat} (h1 : p.1 < im.h) (h2 : p.2 < im.w) (top : ℚ) : IsTop im top ↔ top = maxOf im.values := by
  have hmem : ∀ x, x ∈ im.values ↔ ∃ i j, i < im.h ∧ j < im.w ∧ im.px i j = x := by
    intro x
    unfold Img.values
    rw [List.mem_map]
    constructor
    · rintro ⟨q, hq, rfl⟩
      exact ⟨q.1, q.2, (mem_positions.1 hq).1, (mem_positions.1 hq).2, rfl⟩
    · rintro ⟨i, j, hi, hj, rfl⟩
      exact ⟨(i, j), mem_positions.2 ⟨hi, hj⟩, rfl⟩
  have hx := (hmem (im.px p.1 p.2)).2 ⟨p.1, p.2, h1, h2, rfl⟩
  have hs : maxOf im.values ∈ im.values ∧ ∀ x ∈ im.values, x ≤ maxOf im.values := by
    cases hv : im.values with
    | nil => rw [hv] at hx; cases hx
    | cons x xs =>
      obtain ⟨g1, g2, g3⟩ := foldl_max_spec xs x
      refine ⟨?_, ?_⟩
      · rcases g1 with h | h
        · exact List.mem_cons.2 (.inl h)
        · exact List.mem_cons_of_mem _ h
      · intro y hy
        rcases List.mem_cons.1 hy with rfl | hy
        · exact g2
        · exact g3 y hy
  constructor
  · rintro ⟨he, hle⟩
    obtain ⟨i, j, hi, hj, e⟩ := (hmem _).1 hs.1
    exact le_antisymm (hs.2 _ ((hmem _).2 he)) (by rw [← e]; exact hle i j hi hj)
  · rintro rfl
    exact ⟨(hmem _).1 hs.1, fun i j hi hj => hs.2 _ ((hmem _).2 ⟨i, j, hi, hj, rfl⟩)⟩

theorem bright_iff {im : Img} {cut : ℚ} {t : CutType} {p : Nat × Nat} : Bright im cut t p ↔ p.1 < im.h ∧ p.2 < im.w ∧ passes im cut t p = true := by
  cases t with
  | abs => simp [Bright, passes]
  | rel =>
    simp only [Bright, passes, Bool.and_eq_true, decide_eq_true_eq]
    refine and_congr_right fun h1 => and_congr_right fun h2 => ?_
    constructor
    · rintro ⟨top, ht, h0, hc⟩
      rw [(top_iff h1 h2 top).1 ht] at h0 hc
      exact ⟨h0, hc⟩
    · rintro ⟨h0, hc⟩
      exact ⟨_, (top_iff h1 h2 _).2 rfl, h0, hc⟩

theorem mem_nodes {im : Img} {cut : ℚ} {t : CutType} {p : Nat × Nat} : p ∈ (pixelGraph im cut t).nodes ↔ Bright im cut t p := by
  simp [pixelGraph, mem_positions, bright_iff, and_assoc]

theorem nodes_nodup (im : Img) (cut : ℚ) (t : CutType) : (pixelGraph im cut t).nodes.Nodup := (positions_nodup im).filter _

theorem adj_touch {im : Img} {cut : ℚ} {t : CutType} {a b : Nat × Nat} (hne : a ≠ b) : Adj (pixelGraph im cut t) a b ↔ Touch im cut t a b := by
  have hedge : ∀ {a b : Nat × Nat}, (a, b) ∈ (pixelGraph im cut t).edges → a.1 ≤ b.1 + 1 ∧ b.1 ≤ a.1 + 1 ∧ a.2 ≤ b.2 + 1 ∧ b.2 ≤ a.2 + 1 := by
    intro a b h
    have := (List.mem_filter.1 h).2
    simp only [pixelNeighbours, Bool.and_eq_true, decide_eq_true_eq] at this
    obtain ⟨⟨⟨⟨_, h1⟩, h2⟩, h3⟩, h4⟩ := this
    exact ⟨h1, h2, h3, h4⟩
  constructor
  · rintro ⟨ha, hb, h⟩
    simp only [Graph.adj, decide_eq_true_eq] at h
    refine ⟨mem_nodes.1 ha, mem_nodes.1 hb, ?_⟩
    rcases h with h | h
    · exact hedge h
    · obtain ⟨h1, h2, h3, h4⟩ := hedge h
      exact ⟨h2, h1, h4, h3⟩
  · rintro ⟨ha, hb, h1, h2, h3, h4⟩
    have ha' := mem_nodes.2 ha
    have hb' := mem_nodes.2 hb
    refine ⟨ha', hb', ?_⟩
    simp only [Graph.adj, decide_eq_true_eq]
    rcases Tracks.combinations2_complete ha' hb' hne with h | h
    · exact .inl (List.mem_filter.2 ⟨h, by simp only [pixelNeighbours, Bool.and_eq_true, decide_eq_true_eq]; exact ⟨⟨⟨⟨hne, h1⟩, h2⟩, h3⟩, h4⟩⟩)
    · exact .inr (List.mem_filter.2 ⟨h, by simp only [pixelNeighbours, Bool.and_eq_true, decide_eq_true_eq]; exact ⟨⟨⟨⟨hne.symm, h2⟩, h1⟩, h4⟩, h3⟩⟩)

theorem reach_touch {im : Img} {cut : ℚ} {t : CutType} {a b : Nat × Nat} :
    Relation.ReflTransGen (Adj (pixelGraph im cut t)) a b ↔ Relation.ReflTransGen (Touch im cut t) a b := by
  constructor
  · intro h
    induction h with
    | refl => exact .refl
    | @tail u v _ h2 ih =>
      by_cases he : u = v
      · subst he; exact ih
      · exact ih.tail ((adj_touch he).1 h2)
  · intro h
    induction h with
    | refl => exact .refl
    | @tail u v _ h2 ih =>
      by_cases he : u = v
      · subst he; exact ih
      · exact ih.tail ((adj_touch he).2 h2)

/-- **C57** A pixel is masked exactly when it passes the cut, its region has less pixels than the maximum size of a satellite, and the image has more than one region. -/
theorem satellite_mask (im : Img) (maxSize : Int) (cut : ℚ) (t : CutType) (p : Nat × Nat) :
    satelliteMask im maxSize cut t p = true ↔
      Separate im cut t ∧ Bright im cut t p ∧ ∃ c, IsRegion im cut t p c ∧ (c.length : Int) < maxSize := by
  obtain ⟨f1, f2, f3⟩ := components_facts (pixelGraph im cut t) (nodes_nodup im cut t)
  have hsep : 2 ≤ (regions im cut t).length ↔ Separate im cut t := by
    rw [regions, f3]
    simp only [mem_nodes, reach_touch]
    exact ⟨fun ⟨a, ha, b, hb, h⟩ => ⟨a, b, ha, hb, h⟩, fun ⟨a, b, ha, hb, h⟩ => ⟨a, ha, b, hb, h⟩⟩
  unfold satelliteMask
  by_cases h : (regions im cut t).length + 1 ≤ 2
  · rw [if_pos h]
    simp only [Bool.false_eq_true, false_iff]
    rintro ⟨h1, _⟩
    have := hsep.2 h1; omega
  · rw [if_neg h, List.any_eq_true]
    simp only [Bool.and_eq_true, decide_eq_true_eq]
    constructor
    · rintro ⟨c, hc, hp, hl⟩
      obtain ⟨c1, _, c3⟩ := f2 c hc
      refine ⟨hsep.1 (by omega), mem_nodes.1 (c3 p hp).1, c, ⟨c1, fun b => ?_⟩, hl⟩
      rw [(c3 p hp).2 b, reach_touch]
    · rintro ⟨_, hb, c, hc, hl⟩
      obtain ⟨t', ht', hp⟩ := f1 p (mem_nodes.2 hb)
      obtain ⟨c1, _, c3⟩ := f2 t' ht'
      refine ⟨t', ht', hp, ?_⟩
      have : t'.Perm c := by
        rw [List.perm_ext_iff_of_nodup c1 hc.1]
        intro b
        rw [(c3 p hp).2 b, reach_touch, hc.2]
      rw [this.length_eq]; exact hl

theorem touch_symm {im : Img} {cut : ℚ} {t : CutType} {a b : Nat × Nat} (h : Touch im cut t a b) : Touch im cut t b a :=
  ⟨h.2.1, h.1, h.2.2.2.1, h.2.2.1, h.2.2.2.2.2, h.2.2.2.2.1⟩

theorem touch_reach_symm {im : Img} {cut : ℚ} {t : CutType} {a b : Nat × Nat} (h : Relation.ReflTransGen (Touch im cut t) a b) : Relation.ReflTransGen (Touch im cut t) b a := by
  induction h with
  | refl => exact .refl
  | tail _ h2 ih => exact .head (touch_symm h2) ih

/-- Pixels of the same region are masked together. -/
theorem mask_region (im : Img) (maxSize : Int) (cut : ℚ) (t : CutType) {p q : Nat × Nat} (hq : Bright im cut t q) (h : Relation.ReflTransGen (Touch im cut t) p q) :
    satelliteMask im maxSize cut t p = true → satelliteMask im maxSize cut t q = true := by
  rw [satellite_mask, satellite_mask]
  rintro ⟨h1, _, c, hc, hl⟩
  refine ⟨h1, hq, c, ⟨hc.1, fun b => ?_⟩, hl⟩
  rw [hc.2]
  exact ⟨fun h' => (touch_reach_symm h).trans h', fun h' => h.trans h'⟩

/-- **C57** After satellites are removed (absolute, positive cut) none is left: either the image had at most one region and is unchanged, or all its regions have at least the maximum size. -/
theorem kill_leaves_no_satellites (s : Satellites) (im : Img) (ht : s.type = .abs) (hc : 0 < s.cut) :
    (¬ Separate im s.cut .abs ∧ ∀ i j, (kill s im).px i j = im.px i j) ∨
    (∀ p c, Bright (kill s im) s.cut .abs p → IsRegion (kill s im) s.cut .abs p c → s.maxSize ≤ c.length) := by
  by_cases hsep : Separate im s.cut .abs
  · right
    intro p c hp hcr
    have hbright : ∀ q, Bright (kill s im) s.cut .abs q ↔ Bright im s.cut .abs q ∧ satelliteMask im s.maxSize s.cut .abs q = false := by
      intro q
      simp only [Bright, kill, ht]
      by_cases hm : satelliteMask im s.maxSize s.cut .abs q = true
      · rw [if_pos hm]
        constructor
        · rintro ⟨_, _, h⟩; linarith
        · rintro ⟨_, h⟩; rw [hm] at h; cases h
      · rw [if_neg hm]
        rw [Bool.not_eq_true] at hm
        tauto
    have htouch : ∀ a b, Touch (kill s im) s.cut .abs a b ↔ Touch im s.cut .abs a b ∧ satelliteMask im s.maxSize s.cut .abs a = false ∧ satelliteMask im s.maxSize s.cut .abs b = false := by
      intro a b
      have ha := hbright a
      have hb := hbright b
      unfold Touch
      rw [ha, hb]
      tauto
    have hpm := (hbright p).1 hp
    have hreach : ∀ q, Relation.ReflTransGen (Touch (kill s im) s.cut .abs) p q ↔ Relation.ReflTransGen (Touch im s.cut .abs) p q := by
      intro q
      constructor
      · intro h
        induction h with
        | refl => exact .refl
        | tail _ h2 ih => exact ih.tail ((htouch _ _).1 h2).1
      · intro h
        induction h with
        | refl => exact .refl
        | @tail u v h1 h2 ih =>
          refine ih.tail ((htouch u v).2 ⟨h2, ?_, ?_⟩)
          · by_contra hm
            rw [Bool.not_eq_false] at hm
            have := mask_region im s.maxSize s.cut .abs hpm.1 (touch_reach_symm h1) hm
            rw [hpm.2] at this; cases this
          · by_contra hm
            rw [Bool.not_eq_false] at hm
            have := mask_region im s.maxSize s.cut .abs hpm.1 (touch_reach_symm (h1.tail h2)) hm
            rw [hpm.2] at this; cases this
    by_contra hlt
    have : satelliteMask im s.maxSize s.cut .abs p = true := by
      rw [satellite_mask]
      exact ⟨hsep, hpm.1, c, ⟨hcr.1, fun b => by rw [hcr.2, hreach]⟩, by omega⟩
    rw [hpm.2] at this; cases this
  · left
    refine ⟨hsep, fun i j => ?_⟩
    have : satelliteMask im s.maxSize s.cut s.type (i, j) = false := by
      by_contra hm
      rw [Bool.not_eq_false, ht, satellite_mask] at hm
      exact hsep hm.1
    simp [kill, this]

/-! ### The iteration -/

theorem maxSum_nonneg {l : List ℚ} (h : ∀ x ∈ l, 0 ≤ x) : 0 ≤ l.sum := List.sum_nonneg h

theorem convPixel_nonneg {im k : Img} (h1 : im.NonNeg) (h2 : k.NonNeg) (i j : Nat) : 0 ≤ convPixel im k i j := by
  unfold convPixel
  apply List.sum_nonneg
  intro x hx
  obtain ⟨p, hp, rfl⟩ := List.mem_map.1 hx
  obtain ⟨a, b⟩ := mem_positions.1 hp
  split
  · rename_i hc
    exact mul_nonneg (h1 _ a _ b) (h2 _ hc.2.1 _ hc.2.2.2)
  · exact le_rfl

theorem eps_pos : 0 < eps := by unfold eps; norm_num

theorem mirror_nonneg {k : Img} (h : k.NonNeg) : (mirror k).NonNeg := by
  intro i hi j hj
  simp only [mirror] at hi hj ⊢
  exact h _ (by omega) _ (by omega)

theorem relativeBlur_nonneg {image x : Img} (h1 : image.NonNeg) (h2 : ∀ i j, 0 ≤ x.px i j) : (relativeBlur image x).NonNeg := by
  intro i hi j hj
  simp only [relativeBlur]
  apply div_nonneg (h1 i hi j hj)
  split
  · exact eps_pos.le
  · exact h2 i j

theorem lucy_nonneg {image psf im : Img} (h1 : image.NonNeg) (h2 : psf.NonNeg) (h3 : im.NonNeg) : (lucy image psf im).NonNeg := by
  intro i hi j hj
  simp only [lucy] at hi hj ⊢
  exact mul_nonneg (h3 i hi j hj) (convPixel_nonneg (relativeBlur_nonneg h1 fun i j => convPixel_nonneg h3 h2 i j) (mirror_nonneg h2) i j)

theorem kill_nonneg {s : Satellites} {im : Img} (h : im.NonNeg) : (kill s im).NonNeg := by
  intro i hi j hj
  simp only [kill] at hi hj ⊢
  split
  · exact le_rfl
  · exact h i hi j hj

/-- The loop returns one of the iterates: the first that has converged, or the last. -/
theorem loop_spec (image psf : Img) (s : Satellites) (thr : ℚ) : ∀ (fuel n : Nat),
    ∃ k ≤ fuel, lucyLoop image psf s thr fuel n (iterates image psf s n) (reference image psf s n) = iterates image psf s (n + k) ∧
      (∀ i, i + 1 < k → converged (iterates image psf s (n + i + 1)) (reference image psf s (n + i)) thr = false) ∧
      (k < fuel → ∃ i, k = i + 1 ∧ converged (iterates image psf s (n + k)) (reference image psf s (n + i)) thr = true)
  | 0, n => ⟨0, le_rfl, rfl, by intro i hi; omega, by intro h; omega⟩
  | fuel + 1, n => by
    rw [lucyLoop]
    by_cases hc : converged (iteration image psf s n (iterates image psf s n)) (reference image psf s n) thr = true
    · rw [if_pos hc]
      exact ⟨1, by omega, rfl, by intro i hi; omega, fun _ => ⟨0, rfl, hc⟩⟩
    · rw [if_neg hc]
      obtain ⟨k, hk, h1, h2, h3⟩ := loop_spec image psf s thr fuel (n + 1)
      refine ⟨k + 1, by omega, ?_, ?_, ?_⟩
      · rw [show n + (k + 1) = n + 1 + k by omega]; exact h1
      · intro i hi
        cases i with
        | zero => exact Bool.eq_false_iff.2 hc
        | succ i =>
          have := h2 i (by omega)
          rw [show n + (i + 1) + 1 = n + 1 + i + 1 by omega, show n + (i + 1) = n + 1 + i by omega]
          exact this
      · intro hlt
        obtain ⟨i, rfl, hi⟩ := h3 (by omega)
        refine ⟨i + 1, rfl, ?_⟩
        rw [show n + (i + 1 + 1) = n + 1 + (i + 1) by omega, show n + (i + 1) = n + 1 + i by omega]
        exact hi

/-- **C57** `richardson_lucy` returns the iterate after `k` iterations, at most the number requested: no previous one had converged, and if iterations are left this one has. -/
theorem richardson_lucy (image psf : Img) (s : Satellites) (iterations : Nat) (thr : ℚ) :
    ∃ k ≤ iterations, richardsonLucy image psf s iterations thr = iterates image psf s k ∧
      (∀ i, i + 1 < k → converged (iterates image psf s (i + 1)) (reference image psf s i) thr = false) ∧
      (k < iterations → ∃ i, k = i + 1 ∧ converged (iterates image psf s k) (reference image psf s i) thr = true) := by
  obtain ⟨k, h1, h2, h3, h4⟩ := loop_spec image psf s thr iterations 0
  simp only [Nat.zero_add] at h2 h3 h4
  exact ⟨k, h1, h2, h3, h4⟩

theorem iteration_cases (image psf : Img) (s : Satellites) (n : Nat) (im : Img) :
    (iteration image psf s n im = lucy image psf im ∨ iteration image psf s n im = kill s (lucy image psf im)) ∧
    (∀ k, s.start = some k → k ≤ n → iteration image psf s n im = kill s (lucy image psf im)) := by
  unfold iteration
  cases hs : s.start with
  | none => exact ⟨.inl rfl, fun k hk => by cases hk⟩
  | some k =>
    refine ⟨?_, fun k' hk' hn => ?_⟩
    · simp only
      split
      · exact .inr rfl
      · exact .inl rfl
    · cases hk'
      simp only [if_pos hn]

theorem iterates_shape (image psf : Img) (s : Satellites) (n : Nat) : (iterates image psf s n).h = image.h ∧ (iterates image psf s n).w = image.w := by
  induction n with
  | zero => exact ⟨rfl, rfl⟩
  | succ n ih =>
    rw [iterates]
    rcases (iteration_cases image psf s n (iterates image psf s n)).1 with h | h <;> rw [h] <;> exact ih

/-- **C57** Without negative pixels in the image and in the response function there are none in the result, which has the shape of the image. -/
theorem richardson_lucy_nonneg (image psf : Img) (s : Satellites) (iterations : Nat) (thr : ℚ) (h1 : image.NonNeg) (h2 : psf.NonNeg) :
    (richardsonLucy image psf s iterations thr).NonNeg ∧ (richardsonLucy image psf s iterations thr).h = image.h ∧ (richardsonLucy image psf s iterations thr).w = image.w := by
  obtain ⟨k, hk, h, hx, hy⟩ := richardson_lucy image psf s iterations thr
  rw [h]
  refine ⟨?_, iterates_shape image psf s k⟩
  clear h hx hy hk
  induction k with
  | zero => intro i _ j _; simp only [iterates, initial]; norm_num
  | succ k ih =>
    have ih' := ih
    rw [iterates]
    rcases (iteration_cases image psf s k (iterates image psf s k)).1 with h | h <;> rw [h]
    · exact lucy_nonneg h1 h2 ih'
    · exact kill_nonneg (lucy_nonneg h1 h2 ih')

/-- **C57** A pixel that becomes zero (a satellite, for instance) stays zero in all later iterations. -/
theorem zero_stays_zero (image psf : Img) (s : Satellites) (n m : Nat) (hm : n ≤ m) (i j : Nat) (h : (iterates image psf s n).px i j = 0) : (iterates image psf s m).px i j = 0 := by
  induction m, hm using Nat.le_induction with
  | base => exact h
  | succ m _ ih =>
    have hl : (lucy image psf (iterates image psf s m)).px i j = 0 := by simp only [lucy]; rw [ih, zero_mul]
    rw [iterates]
    rcases (iteration_cases image psf s m (iterates image psf s m)).1 with h | h <;> rw [h]
    · exact hl
    · simp only [kill]; split
      · rfl
      · exact hl

/-- **C57** With the satellite killer on since iteration `start` (absolute, positive cut), the result of more iterations has no satellites, unless it is the update of an image with at most one region. -/
theorem richardson_lucy_no_satellites (image psf : Img) (s : Satellites) (n : Nat) (k : Int) (hs : s.start = some k) (hk : k ≤ n) (ht : s.type = .abs) (hc : 0 < s.cut) :
    (¬ Separate (lucy image psf (iterates image psf s n)) s.cut .abs) ∨
    (∀ p c, Bright (iterates image psf s (n + 1)) s.cut .abs p → IsRegion (iterates image psf s (n + 1)) s.cut .abs p c → s.maxSize ≤ c.length) := by
  rw [iterates, (iteration_cases image psf s n (iterates image psf s n)).2 k hs hk]
  rcases kill_leaves_no_satellites s (lucy image psf (iterates image psf s n)) ht hc with h | h
  · exact .inl h.1
  · exact .inr h

/-- The sum of the pixels. -/
def Img.total (im : Img) : ℚ := (im.positions.map fun p => im.px p.1 p.2).sum

/-- **C57** One update keeps the charge (response function with odd sides): the total of the new image is that of the pixels of the original image which the blurred iterate reaches.  In particular it is the total of the image
when the blurred iterate vanishes nowhere the image does not. -/
theorem lucy_conserves (image psf im : Img) (m n : Nat) (hh : psf.h = 2 * m + 1) (hw : psf.w = 2 * n + 1) (h1 : im.h = image.h) (h2 : im.w = image.w) :
    (lucy image psf im).total = (image.positions.map fun p => if convPixel im psf p.1 p.2 = 0 then 0 else image.px p.1 p.2).sum ∧
    ((∀ p ∈ image.positions, convPixel im psf p.1 p.2 = 0 → image.px p.1 p.2 = 0) → (lucy image psf im).total = image.total) := by
  have hpos : im.positions = image.positions := by unfold Img.positions; rw [h1, h2]
  have key : (lucy image psf im).total = (image.positions.map fun p => if convPixel im psf p.1 p.2 = 0 then 0 else image.px p.1 p.2).sum := by
    unfold Img.total
    rw [show (lucy image psf im).positions = image.positions from hpos]
    have hmir : ∀ q : Nat × Nat, convPixel (relativeBlur image (convImg im psf)) (mirror psf) q.1 q.2 = (image.positions.map fun p =>
        if p.1 ≤ q.1 + (psf.h - 1) / 2 ∧ q.1 + (psf.h - 1) / 2 - p.1 < psf.h ∧ p.2 ≤ q.2 + (psf.w - 1) / 2 ∧ q.2 + (psf.w - 1) / 2 - p.2 < psf.w then
          (relativeBlur image (convImg im psf)).px p.1 p.2 * psf.px (psf.h - 1 - (q.1 + (psf.h - 1) / 2 - p.1)) (psf.w - 1 - (q.2 + (psf.w - 1) / 2 - p.2)) else 0).sum := fun _ => rfl
    simp only [lucy, hmir]
    simp only [← List.sum_map_mul_left]
    rw [Hits.sum_comm]
    congr 1
    apply List.map_congr_left
    intro p _
    have e1 : ∀ q : Nat × Nat,
        im.px q.1 q.2 * (if p.1 ≤ q.1 + (psf.h - 1) / 2 ∧ q.1 + (psf.h - 1) / 2 - p.1 < psf.h ∧ p.2 ≤ q.2 + (psf.w - 1) / 2 ∧ q.2 + (psf.w - 1) / 2 - p.2 < psf.w then
          (relativeBlur image (convImg im psf)).px p.1 p.2 * psf.px (psf.h - 1 - (q.1 + (psf.h - 1) / 2 - p.1)) (psf.w - 1 - (q.2 + (psf.w - 1) / 2 - p.2)) else 0) =
        (relativeBlur image (convImg im psf)).px p.1 p.2 *
          (if q.1 ≤ p.1 + (psf.h - 1) / 2 ∧ p.1 + (psf.h - 1) / 2 - q.1 < psf.h ∧ q.2 ≤ p.2 + (psf.w - 1) / 2 ∧ p.2 + (psf.w - 1) / 2 - q.2 < psf.w then
            im.px q.1 q.2 * psf.px (p.1 + (psf.h - 1) / 2 - q.1) (p.2 + (psf.w - 1) / 2 - q.2) else 0) := by
      intro q
      rw [hh, hw]
      by_cases hc : p.1 ≤ q.1 + (2 * m + 1 - 1) / 2 ∧ q.1 + (2 * m + 1 - 1) / 2 - p.1 < 2 * m + 1 ∧ p.2 ≤ q.2 + (2 * n + 1 - 1) / 2 ∧ q.2 + (2 * n + 1 - 1) / 2 - p.2 < 2 * n + 1
      · rw [if_pos hc, if_pos (by omega), show 2 * m + 1 - 1 - (q.1 + (2 * m + 1 - 1) / 2 - p.1) = p.1 + (2 * m + 1 - 1) / 2 - q.1 by omega,
          show 2 * n + 1 - 1 - (q.2 + (2 * n + 1 - 1) / 2 - p.2) = p.2 + (2 * n + 1 - 1) / 2 - q.2 by omega]
        ring
      · rw [if_neg hc, if_neg (by omega), mul_zero, mul_zero]
    simp only [e1]
    rw [List.sum_map_mul_left]
    have e2 : (image.positions.map fun q : Nat × Nat => if q.1 ≤ p.1 + (psf.h - 1) / 2 ∧ p.1 + (psf.h - 1) / 2 - q.1 < psf.h ∧ q.2 ≤ p.2 + (psf.w - 1) / 2 ∧ p.2 + (psf.w - 1) / 2 - q.2 < psf.w then
            im.px q.1 q.2 * psf.px (p.1 + (psf.h - 1) / 2 - q.1) (p.2 + (psf.w - 1) / 2 - q.2) else 0).sum = convPixel im psf p.1 p.2 := by
      rw [convPixel, hpos]
    rw [e2]
    have hb : (relativeBlur image (convImg im psf)).px p.1 p.2 = image.px p.1 p.2 / (if convPixel im psf p.1 p.2 = 0 then eps else convPixel im psf p.1 p.2) := rfl
    rw [hb]
    generalize convPixel im psf p.1 p.2 = x
    by_cases hz : x = 0
    · subst hz; rw [if_pos rfl, mul_zero, if_pos rfl]
    · rw [if_neg hz, if_neg hz, div_mul_cancel₀ _ hz]
  refine ⟨key, fun h => ?_⟩
  rw [key, Img.total]
  congr 1
  apply List.map_congr_left
  intro p hp
  by_cases hz : convPixel im psf p.1 p.2 = 0
  · rw [if_pos hz, h p hp hz]
  · rw [if_neg hz]

/-! ### Examples -/

/-- A region of two pixels and a single pixel apart. -/
def exImg : Img := ⟨2, 4, fun i j => if (i, j) = (0, 0) ∨ (i, j) = (1, 1) then 5 else if (i, j) = (0, 3) then 4 else 1⟩
def exSat : Satellites := ⟨some 0, 2, 3, .abs⟩
def exPsf : Img := ⟨1, 3, fun _ j => if j = 1 then 1/2 else 1/4⟩

example : (exImg.positions.filter fun p => satelliteMask exImg 2 3 .abs p) = [(0, 3)] ∧ (kill exSat exImg).values = [5, 1, 1, 0, 1, 5, 1, 1] ∧ exSat.type = .abs ∧ 0 < exSat.cut := by
  exact ⟨by decide +kernel, by decide +kernel, rfl, by decide +kernel⟩
/-- Small regions are all removed when there are several, even the brightest, and kept when alone. -/
example : (exImg.positions.filter fun p => satelliteMask exImg 9 3 .abs p) = [(0, 0), (0, 3), (1, 1)] ∧ (exImg.positions.filter fun p => satelliteMask exImg 9 (9/2) .abs p) = [] := by
  exact ⟨by decide +kernel, by decide +kernel⟩
example : (richardsonLucy exImg exPsf ⟨none, 0, 0, .abs⟩ 1 0).total = exImg.total ∧ exPsf.h = 2 * 0 + 1 ∧ exPsf.w = 2 * 1 + 1 ∧
    (∀ p ∈ exImg.positions, convPixel (initial exImg) exPsf p.1 p.2 ≠ 0) := by
  refine ⟨by decide +kernel, rfl, rfl, by decide +kernel⟩
example : exImg.NonNeg ∧ exPsf.NonNeg := by
  refine ⟨fun i _ j _ => ?_, fun i _ j _ => ?_⟩
  · simp only [exImg]; split
    · norm_num
    · split <;> norm_num
  · simp only [exPsf]; split <;> norm_num

end Verif.Deconv
