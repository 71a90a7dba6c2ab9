import Verif.Spec.Deconv
import Verif.Props.Tracks
import Verif.Props.SamplingMulti
import Verif.Props.Sources
/-!
# C46: the cuts before the deconvolution
-/
namespace Verif.Deconv
open Verif.PMapsIO (unique)
open Verif.Tracks (Graph components combinations2 Adj)

/-! ### Redistribution -/

theorem rescale_val (df kept : List Row) (r : Row) (j : Nat) : (rescale df kept r).vals.getD j none = mulOpt (r.vals.getD j none) (factor df kept j) := by
  simp only [rescale, List.getD_eq_getElem?_getD, List.getElem?_mapIdx]
  cases r.vals[j]? <;> simp [mulOpt]

theorem redistribute_spec (df kept : List Row) : Redistributed df kept (redistribute df kept) := by
  refine ⟨?_, fun j => ⟨fun hk => ⟨?_, ?_⟩, fun hk => ?_⟩⟩
  · simp only [redistribute, List.map_map]
    rfl
  · have hf : factor df kept j = some (colSum df j / colSum kept j) := if_neg hk
    have : ∀ r : Row, ((rescale df kept r).vals.getD j none).getD 0 = (r.vals.getD j none).getD 0 * (colSum df j / colSum kept j) := by
      intro r
      rw [rescale_val, hf]
      cases r.vals.getD j none <;> simp [mulOpt]
    rw [colSum, redistribute, List.map_map]
    simp only [Function.comp_def, this]
    rw [List.sum_map_mul_right]
    exact mul_div_cancel₀ _ hk
  · intro i r r' hr hr' v hv
    rw [redistribute, List.getElem?_map, hr] at hr'
    cases hr'
    refine ⟨v * (colSum df j / colSum kept j), ?_, ?_⟩
    · rw [rescale_val, hv, factor, if_neg hk]; rfl
    · rw [mul_assoc, div_mul_cancel₀ _ hk]
  · intro r' hr'
    obtain ⟨r, _, rfl⟩ := List.mem_map.1 hr'
    rw [rescale_val, factor, if_pos hk]
    cases r.vals.getD j none <;> rfl

/-- **C46** A cut keeps exactly the rows that pass it, in order, and shares the total of each column among them; nothing is left when no row passes. -/
theorem cut_and_redistribute (p : Row → Bool) (df : List Row) : Redistributed df (df.filter p) (cutAndRedistribute p df) := by
  unfold cutAndRedistribute
  split
  · rename_i h
    rw [List.length_eq_zero_iff] at h
    rw [h]
    exact ⟨rfl, fun j => ⟨fun hk => absurd (by simp [colSum]) hk, fun _ r hr => by cases hr⟩⟩
  · exact redistribute_spec df _

/-- Three hits with energies 1, 2 and 5; the last column has no value for the second. -/
def exRows : List Row := [⟨0, 1, 2, 0, 0, 0, 0, 10, [some 1, some 4]⟩, ⟨1, 1, 2, 0, 10, 0, 0, 3, [some 2, none]⟩, ⟨2, 1, 2, 0, 90, 0, 0, 20, [some 5, some (-4)]⟩]

example : (cutAndRedistribute (fun r => decide (5 < r.q)) exRows).map Row.vals = [[some (4/3), none], [some (20/3), none]] ∧
    colSum (exRows.filter fun r => decide (5 < r.q)) 0 ≠ 0 ∧ colSum (exRows.filter fun r => decide (5 < r.q)) 1 = 0 := by
  exact ⟨by decide +kernel, by decide +kernel, by decide +kernel⟩

/-! ### Isolated sensors -/

theorem dist2_pos (a b : Row) : 0 < dist2 a b ↔ (a.x ≠ b.x ∨ a.y ≠ b.y) := by
  unfold dist2
  constructor
  · intro h
    by_contra hc
    simp only [not_or, not_not] at hc
    rw [hc.1, hc.2] at h
    simp at h
  · rintro (h | h)
    · have := pow_pos (abs_pos.2 (sub_ne_zero.2 h)) 2
      rw [sq_abs] at this
      have := sq_nonneg (a.y - b.y)
      linarith
    · have := pow_pos (abs_pos.2 (sub_ne_zero.2 h)) 2
      rw [sq_abs] at this
      have := sq_nonneg (a.x - b.x)
      linarith

theorem foldl_min_spec (xs : List ℚ) : ∀ d : ℚ, xs.foldl min d ≤ d ∧ (∀ x ∈ xs, xs.foldl min d ≤ x) ∧ (xs.foldl min d = d ∨ xs.foldl min d ∈ xs) := by
  induction xs with
  | nil => intro d; simp
  | cons x xs ih =>
    intro d
    obtain ⟨h1, h2, h3⟩ := ih (min d x)
    refine ⟨le_trans h1 (min_le_left _ _), ?_, ?_⟩
    · intro y hy
      rcases List.mem_cons.1 hy with rfl | hy
      · exact le_trans h1 (min_le_right _ _)
      · exact h2 y hy
    · rcases h3 with h3 | h3
      · rcases min_choice d x with h | h
        · exact .inl (by rw [List.foldl_cons, h3, h])
        · refine .inr ?_
          rw [List.foldl_cons, h3, h]
          exact List.mem_cons_self
      · exact .inr (List.mem_cons_of_mem _ h3)

/-- The closest sensor at another place. -/
theorem closest2_spec (df : List Row) (r : Row) :
    (∀ m, closest2 df r = .ok m → ∀ c, m ≤ c ↔ ∃ b ∈ df, 0 < dist2 r b ∧ dist2 r b ≤ c) ∧
    ((∃ b ∈ df, 0 < dist2 r b) → ∃ m, closest2 df r = .ok m) := by
  unfold closest2
  have hm : ∀ d, d ∈ ((df.map (dist2 r)).filter fun d => decide (0 < d)) ↔ ∃ b ∈ df, 0 < dist2 r b ∧ dist2 r b = d := by
    intro d
    simp only [List.mem_filter, List.mem_map, decide_eq_true_eq]
    constructor
    · rintro ⟨⟨b, hb, rfl⟩, h⟩; exact ⟨b, hb, h, rfl⟩
    · rintro ⟨b, hb, h, rfl⟩; exact ⟨⟨b, hb, rfl⟩, h⟩
  cases hl : ((df.map (dist2 r)).filter fun d => decide (0 < d)) with
  | nil =>
    rw [hl] at hm
    refine ⟨fun m h => (by cases h), ?_⟩
    rintro ⟨b, hb, h⟩
    exact absurd ((hm _).2 ⟨b, hb, h, rfl⟩) (by simp)
  | cons d ds =>
    rw [hl] at hm
    refine ⟨fun m h c => ?_, fun _ => ⟨_, rfl⟩⟩
    obtain ⟨h1, h2, h3⟩ := foldl_min_spec ds d
    cases h
    constructor
    · intro hc
      have hmem : ds.foldl min d ∈ d :: ds := by
        rcases h3 with h3 | h3
        · rw [h3]; exact List.mem_cons_self
        · exact List.mem_cons_of_mem _ h3
      obtain ⟨b, hb, hp, he⟩ := (hm _).1 hmem
      exact ⟨b, hb, hp, he ▸ hc⟩
    · rintro ⟨b, hb, hp, hc⟩
      rcases List.mem_cons.1 ((hm _).2 ⟨b, hb, hp, rfl⟩) with h | h
      · exact le_trans (h ▸ h1) hc
      · exact le_trans (h2 _ h) hc

open Classical in
/-- **C46** `drop_isolated_sensors` never fails; it keeps exactly the sensors that have another one, at another place, within the distance, and shares the columns among them. -/
theorem drop_isolated_sensors (dx dy : ℚ) (df : List Row) :
    ∃ out, dropIsolatedSensors dx dy df = .ok out ∧
      Redistributed df (df.filter fun a => decide (∃ b ∈ df, NearSensor dx dy a b)) out := by
  unfold dropIsolatedSensors
  by_cases hany : ∃ a ∈ df, ∃ b ∈ df, 0 < dist2 a b
  · have hcond : ¬ (df.all (fun a => df.all fun b => !decide (0 < dist2 a b)) = true) := by
      obtain ⟨a, ha, b, hb, h⟩ := hany
      intro hc
      have := List.all_eq_true.1 (List.all_eq_true.1 hc a ha) b hb
      simp at this
      exact absurd h (not_lt.2 this)
    rw [if_neg hcond]
    have hok : ∀ r ∈ df, ∃ m, closest2 df r = .ok m := by
      intro r hr
      apply (closest2_spec df r).2
      obtain ⟨a, ha, b, hb, h⟩ := hany
      by_cases hra : 0 < dist2 r a
      · exact ⟨a, ha, hra⟩
      · refine ⟨b, hb, ?_⟩
        rw [dist2_pos] at hra h ⊢
        simp only [not_or, not_not] at hra
        rw [hra.1, hra.2]; exact h
    obtain ⟨cl, hcl⟩ := mapM_ok hok
    have hf := mapM_ok_iff.1 hcl
    rw [hcl]
    refine ⟨_, rfl, ?_⟩
    have : ((df.zip cl).filter fun rc => decide (rc.2 ≤ dx ^ 2 + dy ^ 2)).map Prod.fst = df.filter fun a => decide (∃ b ∈ df, NearSensor dx dy a b) := by
      have hgen : ∀ (l : List Row) (c : List ℚ), List.Forall₂ (fun x y => closest2 df x = .ok y) l c →
          ((l.zip c).filter fun rc => decide (rc.2 ≤ dx ^ 2 + dy ^ 2)).map Prod.fst = l.filter fun a => decide (∃ b ∈ df, NearSensor dx dy a b) := by
        intro l c h
        induction h with
        | nil => rfl
        | @cons a m l c h1 _ ih =>
          have hiff : m ≤ dx ^ 2 + dy ^ 2 ↔ ∃ b ∈ df, NearSensor dx dy a b := by
            rw [(closest2_spec df a).1 m h1]
            constructor
            · rintro ⟨b, hb, h2, h3⟩
              exact ⟨b, hb, (dist2_pos a b).1 h2, h3⟩
            · rintro ⟨b, hb, h2, h3⟩
              exact ⟨b, hb, (dist2_pos a b).2 h2, h3⟩
          rw [List.zip_cons_cons, List.filter_cons, List.filter_cons]
          by_cases hm : m ≤ dx ^ 2 + dy ^ 2
          · rw [if_pos (by simpa using hm), if_pos (by simpa using hiff.1 hm), List.map_cons, ih]
          · rw [if_neg (by simpa using hm), if_neg (fun h => hm (hiff.2 (of_decide_eq_true h))), ih]
      exact hgen df cl hf
    rw [this]
    exact redistribute_spec df _
  · have hcond : df.all (fun a => df.all fun b => !decide (0 < dist2 a b)) = true := by
      rw [List.all_eq_true]; intro a ha
      rw [List.all_eq_true]; intro b hb
      by_contra hc
      exact hany ⟨a, ha, b, hb, by simpa using hc⟩
    rw [if_pos hcond]
    refine ⟨[], rfl, ?_⟩
    have : df.filter (fun a => decide (∃ b ∈ df, NearSensor dx dy a b)) = [] := by
      rw [List.filter_eq_nil_iff]
      intro a ha hc
      obtain ⟨b, hb, h1, _⟩ := of_decide_eq_true hc
      exact hany ⟨a, ha, b, hb, (dist2_pos a b).2 h1⟩
    rw [this]
    exact ⟨rfl, fun j => ⟨fun hk => absurd (by simp [colSum]) hk, fun _ r hr => by cases hr⟩⟩

example : (dropIsolatedSensors 10 10 exRows).map (·.map fun r => (r.label, r.vals)) = .ok [(0, [some (8/3), some 0]), (1, [some (16/3), none])] := by decide +kernel
/-- Hits of the same sensor are not neighbours: a single sensor is isolated however many hits it has. -/
example : dropIsolatedSensors 10 10 [⟨0, 1, 2, 0, 0, 0, 0, 10, [some 1]⟩, ⟨1, 1, 2, 0, 0, 0, 5, 10, [some 1]⟩] = .ok [] := by decide +kernel

/-! ### Isolated clusters -/

section clusters
variable {d : ℚ × ℚ × ℚ} {df : List Row}

theorem label_inj (hl : (df.map Row.label).Nodup) {a b : Row} (ha : a ∈ df) (hb : b ∈ df) (h : a.label = b.label) : a = b :=
  List.inj_on_of_nodup_map hl ha hb h

theorem normDist2_symm (d : ℚ × ℚ × ℚ) (a b : Row) : normDist2 d a b = normDist2 d b a := by
  unfold normDist2
  rw [← neg_sub b.x a.x, ← neg_sub b.y a.y, ← neg_sub b.z a.z, neg_div, neg_div, neg_div, neg_sq, neg_sq, neg_sq]

theorem mem_closePairs {l l' : Int} : (l, l') ∈ closePairs d df ↔ ∃ p ∈ combinations2 df, normDist2 d p.1 p.2 ≤ 3 ∧ p.1.label = l ∧ p.2.label = l' := by
  simp only [closePairs, List.mem_map, List.mem_filter, decide_eq_true_eq, Prod.mk.injEq]
  constructor
  · rintro ⟨p, ⟨h1, h2⟩, h3, h4⟩; exact ⟨p, h1, h2, h3, h4⟩
  · rintro ⟨p, h1, h2, h3, h4⟩; exact ⟨p, ⟨h1, h2⟩, h3, h4⟩

theorem edge_nodes {l l' : Int} (h : (l, l') ∈ closePairs d df) : l ∈ (clusterGraph d df).nodes ∧ l' ∈ (clusterGraph d df).nodes := by
  simp only [clusterGraph, PMapsIO.mem_unique, List.mem_append, List.mem_flatMap]
  exact ⟨.inr ⟨_, h, by simp⟩, .inr ⟨_, h, by simp⟩⟩

theorem adj_rows {l l' : Int} (h : Adj (clusterGraph d df) l l') : ∃ a b, CloseHits d df a b ∧ a.label = l ∧ b.label = l' := by
  obtain ⟨_, _, h⟩ := h
  simp only [Graph.adj, decide_eq_true_eq] at h
  rcases h with h | h
  · obtain ⟨p, hp, h2, h3, h4⟩ := mem_closePairs.1 h
    have := Tracks.mem_combinations2 (a := p.1) (b := p.2) hp
    exact ⟨p.1, p.2, ⟨this.1, this.2, h2⟩, h3, h4⟩
  · obtain ⟨p, hp, h2, h3, h4⟩ := mem_closePairs.1 h
    have := Tracks.mem_combinations2 (a := p.1) (b := p.2) hp
    exact ⟨p.2, p.1, ⟨this.2, this.1, by rw [normDist2_symm]; exact h2⟩, h4, h3⟩

theorem rows_adj {a b : Row} (h : CloseHits d df a b) (hne : a ≠ b) : Adj (clusterGraph d df) a.label b.label := by
  obtain ⟨ha, hb, hd⟩ := h
  rcases Tracks.combinations2_complete ha hb hne with h | h
  · have he := mem_closePairs.2 ⟨_, h, hd, rfl, rfl⟩
    obtain ⟨n1, n2⟩ := edge_nodes he
    exact ⟨n1, n2, by simp only [Graph.adj, decide_eq_true_eq]; exact .inl he⟩
  · have he := mem_closePairs.2 ⟨_, h, by rw [normDist2_symm]; exact hd, rfl, rfl⟩
    obtain ⟨n1, n2⟩ := edge_nodes he
    exact ⟨n2, n1, by simp only [Graph.adj, decide_eq_true_eq]; exact .inr he⟩

theorem reach_mem {a b : Row} (ha : a ∈ df) (h : Relation.ReflTransGen (CloseHits d df) a b) : b ∈ df := by
  induction h with
  | refl => exact ha
  | tail _ h2 _ => exact h2.2.1

theorem reach_iff (hl : (df.map Row.label).Nodup) {a : Row} (ha : a ∈ df) (l : Int) :
    Relation.ReflTransGen (Adj (clusterGraph d df)) a.label l ↔ ∃ b, b.label = l ∧ Relation.ReflTransGen (CloseHits d df) a b := by
  constructor
  · intro h
    induction h with
    | refl => exact ⟨a, rfl, .refl⟩
    | tail _ h2 ih =>
      obtain ⟨b, hb, hr⟩ := ih
      obtain ⟨u, v, huv, hu, hv⟩ := adj_rows h2
      have : u = b := label_inj hl huv.1 (reach_mem ha hr) (by rw [hu, hb])
      subst this
      exact ⟨v, hv, hr.tail huv⟩
  · rintro ⟨b, rfl, h⟩
    induction h with
    | refl => exact .refl
    | @tail u v _ h2 ih =>
      by_cases he : u = v
      · subst he; exact ih
      · exact ih.tail (rows_adj h2 he)

open Classical in
theorem exists_cluster (hn : df.Nodup) {a : Row} (ha : a ∈ df) : ∃ c, IsCluster d df a c :=
  ⟨df.filter fun b => decide (Relation.ReflTransGen (CloseHits d df) a b), hn.filter _, fun b => by
    simp only [List.mem_filter, decide_eq_true_eq]
    exact ⟨fun h => h.2, fun h => ⟨reach_mem ha h, h⟩⟩⟩

/-- The components of the graph are, as sets of labels, the clusters of hits; the nodes which are not labels are alone. -/
theorem component_iff (hl : (df.map Row.label).Nodup) :
    (∀ t ∈ components (clusterGraph d df) (clusterGraph d df).nodes [], t.Nodup ∧ (2 ≤ t.length → ∃ a ∈ df, ∃ c, IsCluster d df a c ∧ t.Perm (c.map Row.label))) ∧
    (∀ a ∈ df, ∀ c, IsCluster d df a c → 2 ≤ c.length →
      ∃ t ∈ components (clusterGraph d df) (clusterGraph d df).nodes [], t.Perm (c.map Row.label)) ∧
    (components (clusterGraph d df) (clusterGraph d df).nodes []).flatten.Nodup := by
  have hn : df.Nodup := List.Nodup.of_map _ hl
  have hg : (clusterGraph d df).nodes.Nodup := PMapsIO.unique_nodup _
  obtain ⟨i1, i2, i3, i4⟩ := Tracks.components_spec (clusterGraph d df) hg (clusterGraph d df).nodes [] (fun v hv => hv) (by simp)
  have key : ∀ t ∈ components (clusterGraph d df) (clusterGraph d df).nodes [], ∀ a ∈ df, a.label ∈ t → ∀ c, IsCluster d df a c → t.Perm (c.map Row.label) := by
    intro t ht a ha hat c hc
    obtain ⟨v, hv, hvr⟩ := i4 t ht
    have hnd : t.Nodup := (List.nodup_flatten.1 i1).1 t ht
    have hcl : (c.map Row.label).Nodup := by
      apply List.Nodup.map_on _ hc.1
      intro x hx y hy he
      exact label_inj hl (reach_mem ha ((hc.2 x).1 hx)) (reach_mem ha ((hc.2 y).1 hy)) he
    rw [List.perm_ext_iff_of_nodup hnd hcl]
    intro l
    have h1 : l ∈ t ↔ Relation.ReflTransGen (Adj (clusterGraph d df)) a.label l := by
      rw [hvr]
      have hva := (hvr a.label).1 hat
      exact ⟨fun h => (Tracks.reach_symm hva).trans h, fun h => hva.trans h⟩
    rw [h1, reach_iff hl ha, List.mem_map]
    constructor
    · rintro ⟨b, hb, hr⟩; exact ⟨b, (hc.2 b).2 hr, hb⟩
    · rintro ⟨b, hb, he⟩; exact ⟨b, he, (hc.2 b).1 hb⟩
  refine ⟨fun t ht => ⟨(List.nodup_flatten.1 i1).1 t ht, fun h2 => ?_⟩, ?_, i1⟩
  · obtain ⟨v, hv, hvr⟩ := i4 t ht
    have hnd : t.Nodup := (List.nodup_flatten.1 i1).1 t ht
    -- another node, so an edge from `v`
    have : ∃ w ∈ t, w ≠ v := by
      by_contra hc
      have hall : ∀ w ∈ t, w = v := fun w hw => by_contra fun h => hc ⟨w, hw, h⟩
      have hsub : t.length ≤ [v].length := (List.subperm_of_subset hnd (by intro w hw; rw [hall w hw]; simp)).length_le
      simp at hsub; omega
    obtain ⟨w, hw, hwv⟩ := this
    have hr := (hvr w).1 hw
    rcases Relation.ReflTransGen.cases_head hr with h | ⟨u, hu, _⟩
    · exact absurd h.symm hwv
    · obtain ⟨a, b, hab, ha, _⟩ := adj_rows hu
      obtain ⟨c, hc⟩ := exists_cluster (d := d) hn hab.1
      exact ⟨a, hab.1, c, hc, key t ht a hab.1 (ha ▸ hv) c hc⟩
  · intro a ha c hc h2
    have : ∃ b ∈ c, b ≠ a := by
      by_contra hcn
      have hall : ∀ w ∈ c, w = a := fun w hw => by_contra fun h => hcn ⟨w, hw, h⟩
      have hsub : c.length ≤ [a].length := (List.subperm_of_subset hc.1 (by intro w hw; rw [hall w hw]; simp)).length_le
      simp at hsub; omega
    obtain ⟨b, hb, hba⟩ := this
    have hr := (reach_iff hl ha b.label).2 ⟨b, rfl, (hc.2 b).1 hb⟩
    have hnode : a.label ∈ (clusterGraph d df).nodes := by
      rcases Relation.ReflTransGen.cases_head hr with h | ⟨u, hu, _⟩
      · exact absurd (label_inj hl ha (reach_mem ha ((hc.2 b).1 hb)) h).symm hba
      · exact hu.1
    rcases i3 a.label hnode with h | h
    · cases h
    · obtain ⟨t, ht, hat⟩ := List.mem_flatten.1 h
      exact ⟨t, ht, key t ht a ha hat c hc⟩

theorem filter_label (hl : (df.map Row.label).Nodup) {a : Row} (ha : a ∈ df) : (df.filter fun r => decide (r.label = a.label)) = [a] := by
  have hn : df.Nodup := List.Nodup.of_map _ hl
  have hp : (df.filter fun r => decide (r.label = a.label)).Perm [a] := by
    rw [List.perm_ext_iff_of_nodup (hn.filter _) (by simp)]
    intro b
    simp only [List.mem_filter, decide_eq_true_eq, List.mem_singleton]
    constructor
    · rintro ⟨h1, h2⟩; exact label_inj hl h1 ha h2
    · rintro rfl; exact ⟨ha, rfl⟩
  exact List.perm_singleton.1 hp

theorem loc_ok (hl : (df.map Row.label).Nodup) : ∀ labels : List Int, (∀ l ∈ labels, ∃ a ∈ df, a.label = l) →
    ∃ rows : List Row, loc df labels = .ok rows ∧ rows.map Row.label = labels ∧ ∀ r ∈ rows, r ∈ df := by
  intro labels h
  have hf : ∃ rows : List Row, labels.mapM (locLabel df) = .ok (rows.map fun r => [r]) ∧ rows.map Row.label = labels ∧ ∀ r ∈ rows, r ∈ df := by
    induction labels with
    | nil => exact ⟨[], rfl, rfl, by simp⟩
    | cons l ls ih =>
      obtain ⟨rows, h1, h2, h3⟩ := ih fun l' hl' => h l' (List.mem_cons_of_mem _ hl')
      obtain ⟨a, ha, rfl⟩ := h l List.mem_cons_self
      refine ⟨a :: rows, ?_, by rw [List.map_cons, h2], ?_⟩
      · rw [List.mapM_cons, locLabel, filter_label hl ha, h1]; rfl
      · intro r hr
        rcases List.mem_cons.1 hr with rfl | hr
        · exact ha
        · exact h3 r hr
  obtain ⟨rows, h1, h2, h3⟩ := hf
  refine ⟨rows, ?_, h2, h3⟩
  rw [loc, h1]
  simp only [Except.ok.injEq]
  rw [← List.flatMap_def, List.flatMap_singleton']

open Classical in
/-- **C46** `drop_isolated_clusters`, for rows with different labels and at least one hit: the hits of the clusters of more than `nhits` hits are kept, all of them and
no others, in some order, and share the columns; `TypeError` exactly when there is no such cluster. -/
theorem drop_isolated_clusters (iter : List Int → List Int) (hiter : ∀ l, (iter l).Perm l) (d : ℚ × ℚ × ℚ) (nhits : Int) (df : List Row)
    (hl : (df.map Row.label).Nodup) (hn : 1 ≤ nhits) :
    ((∃ a ∈ df, ∃ c, IsCluster d df a c ∧ nhits < c.length) →
      ∃ out kept, dropIsolatedClusters iter d nhits df = .ok out ∧ Redistributed df kept out ∧
        kept.Perm (df.filter fun a => decide (∃ c, IsCluster d df a c ∧ nhits < c.length))) ∧
    ((¬ ∃ a ∈ df, ∃ c, IsCluster d df a c ∧ nhits < c.length) → dropIsolatedClusters iter d nhits df = .error .typeError) := by
  have hnd : df.Nodup := List.Nodup.of_map _ hl
  obtain ⟨k1, k2, k3⟩ := component_iff (d := d) hl
  have hmemB : ∀ t, t ∈ bigClusters d nhits df ↔ t ∈ components (clusterGraph d df) (clusterGraph d df).nodes [] ∧ nhits < (t.length : Int) := by
    intro t; simp [bigClusters]
  have hlab : ∀ l, l ∈ (bigClusters d nhits df).flatten ↔ ∃ a ∈ df, a.label = l ∧ ∃ c, IsCluster d df a c ∧ nhits < c.length := by
    intro l
    rw [List.mem_flatten]
    constructor
    · rintro ⟨t, ht, hlt⟩
      obtain ⟨ht1, ht2⟩ := (hmemB t).1 ht
      obtain ⟨a, ha, c, hc, hp⟩ := (k1 t ht1).2 (by omega)
      obtain ⟨b, hb, rfl⟩ := List.mem_map.1 ((hp.mem_iff).1 hlt)
      refine ⟨b, reach_mem ha ((hc.2 b).1 hb), rfl, c, ⟨hc.1, fun x => ?_⟩, by rw [hp.length_eq, List.length_map] at ht2; exact ht2⟩
      rw [hc.2]
      have hab := (hc.2 b).1 hb
      have hsymm : Relation.ReflTransGen (CloseHits d df) b a := by
        have hgen : ∀ x y, Relation.ReflTransGen (CloseHits d df) x y → Relation.ReflTransGen (CloseHits d df) y x := by
          intro x y h
          induction h with
          | refl => exact .refl
          | tail _ h2 ih => exact .head ⟨h2.2.1, h2.1, by rw [normDist2_symm]; exact h2.2.2⟩ ih
        exact hgen a b hab
      exact ⟨fun h => hsymm.trans h, fun h => hab.trans h⟩
    · rintro ⟨a, ha, rfl, c, hc, hlen⟩
      obtain ⟨t, ht, hp⟩ := k2 a ha c hc (by omega)
      refine ⟨t, (hmemB t).2 ⟨ht, by rw [hp.length_eq, List.length_map]; exact hlen⟩, ?_⟩
      rw [hp.mem_iff]
      exact List.mem_map_of_mem ((hc.2 a).2 .refl)
  have hBn : (bigClusters d nhits df).flatten.Nodup := k3.sublist (List.Sublist.flatten List.filter_sublist)
  constructor
  · rintro ⟨a, ha, hc⟩
    have hne : ¬ (bigClusters d nhits df).length = 0 := by
      intro h0
      rw [List.length_eq_zero_iff] at h0
      have := (hlab a.label).2 ⟨a, ha, rfl, hc⟩
      rw [h0] at this
      simp at this
    have hp := hiter (bigClusters d nhits df).flatten
    obtain ⟨rows, h1, h2, h3⟩ := loc_ok hl (iter (bigClusters d nhits df).flatten) (by
      intro l hl'
      obtain ⟨b, hb, he, _⟩ := (hlab l).1 ((hp.mem_iff).1 hl')
      exact ⟨b, hb, he⟩)
    refine ⟨redistribute df rows, rows, ?_, redistribute_spec df rows, ?_⟩
    · rw [dropIsolatedClusters, if_neg hne, h1]
    · have hrn : rows.Nodup := by
        apply List.Nodup.of_map Row.label
        rw [h2]; exact hp.nodup_iff.2 hBn
      rw [List.perm_ext_iff_of_nodup hrn (hnd.filter _)]
      intro b
      simp only [List.mem_filter, decide_eq_true_eq]
      have hb : b ∈ rows ↔ b ∈ df ∧ b.label ∈ (bigClusters d nhits df).flatten := by
        rw [← hp.mem_iff, ← h2]
        constructor
        · intro h; exact ⟨h3 b h, List.mem_map_of_mem h⟩
        · rintro ⟨h4, h5⟩
          obtain ⟨b', hb', he⟩ := List.mem_map.1 h5
          rwa [label_inj hl (h3 b' hb') h4 he] at hb'
      rw [hb, hlab]
      constructor
      · rintro ⟨h4, a', ha', he, hc'⟩
        have := label_inj hl ha' h4 he
        subst this
        exact ⟨h4, hc'⟩
      · rintro ⟨h4, hc'⟩; exact ⟨h4, b, h4, rfl, hc'⟩
  · intro hno
    have : bigClusters d nhits df = [] := by
      rw [List.eq_nil_iff_forall_not_mem]
      intro t ht
      obtain ⟨ht1, ht2⟩ := (hmemB t).1 ht
      obtain ⟨a, ha, c, hc, hp⟩ := (k1 t ht1).2 (by omega)
      exact hno ⟨a, ha, c, hc, by rw [hp.length_eq, List.length_map] at ht2; exact ht2⟩
    rw [dropIsolatedClusters, this]; rfl

end clusters

/-- Four hits, the first three in a row and one apart, with labels that are not positions. -/
def exHits : List Row := [⟨7, 1, 2, 0, 0, 0, 0, 10, [some 1]⟩, ⟨3, 1, 2, 0, 10, 0, 0, 3, [some 2]⟩, ⟨9, 1, 2, 0, 90, 0, 0, 20, [some 6]⟩, ⟨8, 1, 2, 0, 20, 0, 5, 20, [some 3]⟩]

example : (dropIsolatedClusters id (10, 10, 10) 1 exHits).map (·.map fun r => (r.label, r.vals)) = .ok [(3, [some 4]), (7, [some 2]), (8, [some 6])] ∧
    (exHits.map Row.label).Nodup ∧ dropIsolatedClusters id (10, 10, 10) 3 exHits = .error .typeError := by
  exact ⟨by decide +kernel, by decide +kernel, by decide +kernel⟩

/-- Without the condition on the number of hits: with `nhits = 0` an isolated hit is lost, and labels that are not positions are a `KeyError`. -/
theorem zero_nhits_uses_positions : dropIsolatedClusters id (10, 10, 10) 0 exHits = .error .keyError := by decide +kernel

end Verif.Deconv
