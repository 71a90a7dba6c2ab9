import Verif.Spec.Clusters
import Verif.Lemmas.Dbscan
import Verif.Lemmas.Frame
import Verif.Lemmas.Lists
import Mathlib.Control.Monad.Basic
import Mathlib.Tactic.Linarith
import Mathlib.Tactic.Ring
/-!
# C97: clusters of hits
-/
namespace Verif.Clusters
open Verif.Frame Spec

theorem graph_of {pts : List (ℚ × ℚ × ℚ)} : Graph pts.length (neighbours pts) := by
  have hs : ∀ p q, dist2 p q = dist2 q p := by intro p q; simp only [dist2]; ring
  refine ⟨?_, ?_, ?_⟩
  · intro i _ j hj
    exact List.mem_range.1 (List.mem_filter.1 hj).1
  · intro i hi j hj
    have := (List.mem_filter.1 hj).2
    rw [hs] at this
    exact List.mem_filter.2 ⟨List.mem_range.2 hi, this⟩
  · intro i hi
    refine List.mem_filter.2 ⟨List.mem_range.2 hi, ?_⟩
    simp only [dist2, sub_self]
    norm_num

theorem mem_neighbours {α : Type} {sxy sz : ℚ} {hits : List (Hit α)} {i j : Nat} (hi : i < hits.length) :
    j ∈ neighbours (hits.map (coords sxy sz)) i ↔ Near sxy sz hits i j := by
  rw [neighbours, List.mem_filter, List.mem_range, List.length_map, decide_eq_true_eq]
  have hg : ∀ (k : Nat) (hk : k < hits.length), (hits.map (coords sxy sz)).getD k (0, 0, 0) = coords sxy sz hits[k] := by
    intro k hk
    rw [List.getD_eq_getElem?_getD, List.getElem?_map, List.getElem?_eq_getElem hk]; rfl
  have hd : ∀ a b : Hit α, dist2 (coords sxy sz a) (coords sxy sz b) ≤ (9 / 5) ^ 2 ↔ Close sxy sz a b := by
    intro a b
    simp only [dist2, coords, Close, sub_div]
  constructor
  · rintro ⟨hj, h⟩
    rw [hg i hi, hg j hj, hd] at h
    exact ⟨_, _, List.getElem?_eq_getElem hi, List.getElem?_eq_getElem hj, h⟩
  · rintro ⟨a, b, ha, hb, h⟩
    obtain ⟨h1, rfl⟩ := List.getElem?_eq_some_iff.1 ha
    obtain ⟨h2, rfl⟩ := List.getElem?_eq_some_iff.1 hb
    refine ⟨h2, ?_⟩
    rw [hg i hi, hg j h2, hd]
    exact h

theorem near_lt {α : Type} {sxy sz : ℚ} {hits : List (Hit α)} {i j : Nat} (h : Near sxy sz hits i j) : i < hits.length ∧ j < hits.length := by
  obtain ⟨a, b, ha, hb, _⟩ := h
  exact ⟨(List.getElem?_eq_some_iff.1 ha).1, (List.getElem?_eq_some_iff.1 hb).1⟩

theorem core_iff {α : Type} {m : Int} {sxy sz : ℚ} {hits : List (Hit α)} {i : Nat} (hm : 1 ≤ m) :
    Dense m sxy sz hits i ↔ i < hits.length ∧ m ≤ (neighbours (hits.map (coords sxy sz)) i).length := by
  constructor
  · rintro ⟨js, h1, h2, h3, h4⟩
    obtain ⟨j, hj⟩ := List.exists_mem_of_ne_nil js h3
    have hi := (near_lt (h4 j hj)).1
    refine ⟨hi, h2.trans ?_⟩
    have hsub : js ⊆ neighbours (hits.map (coords sxy sz)) i := fun k hk => (mem_neighbours hi).2 (h4 k hk)
    exact_mod_cast (List.subperm_of_subset h1 hsub).length_le
  · rintro ⟨hi, h⟩
    refine ⟨neighbours (hits.map (coords sxy sz)) i, List.Nodup.filter _ List.nodup_range, h, ?_, fun j hj => (mem_neighbours hi).1 hj⟩
    intro h0
    rw [h0] at h
    simp at h
    omega

/-- **C97**: the labels of the hits of an event: two dense hits are in the same cluster exactly when a chain of close dense hits joins them. -/
theorem event_clusters {α : Type} (m : Int) (sxy sz : ℚ) (hits : List (Hit α)) (hm : 1 ≤ m) (h1 : sxy ≠ 0) (h2 : sz ≠ 0) :
    ∃ labels : List Int, tagEvent m sxy sz hits = .ok (hits.zip labels) ∧ labels.length = hits.length ∧ IsClustering m sxy sz hits fun i => labels.getD i 0 := by
  have hlen : (hits.map (coords sxy sz)).length = hits.length := List.length_map ..
  obtain ⟨c, ho⟩ := dbscanInner_out (n := (hits.map (coords sxy sz)).length)
    (core := fun i => decide (m ≤ (neighbours (hits.map (coords sxy sz)) i).length)) graph_of
  change Out _ _ _ _ (dbscan m (hits.map (coords sxy sz))) c at ho
  generalize hlabels : dbscan m (hits.map (coords sxy sz)) = labels at ho
  rw [hlen] at ho
  have hcore : ∀ i, i < hits.length → (decide (m ≤ (neighbours (hits.map (coords sxy sz)) i).length) = true ↔ Dense m sxy sz hits i) := by
    intro i hi
    rw [decide_eq_true_eq, core_iff hm]
    exact ⟨fun h => ⟨hi, h⟩, fun h => h.2⟩
  have hdl : ∀ {i}, Dense m sxy sz hits i → i < hits.length := fun h => ((core_iff hm).1 h).1
  have hns : ∀ {i j}, Near sxy sz hits i j → Near sxy sz hits j i := by
    intro i j h
    have hl := near_lt h
    rw [← mem_neighbours hl.2]
    exact (graph_of).symm i (by rw [hlen]; exact hl.1) j ((mem_neighbours hl.1).2 h)
  have hconn : Conn hits.length (fun i => decide (m ≤ (neighbours (hits.map (coords sxy sz)) i).length)) (neighbours (hits.map (coords sxy sz))) = Linked m sxy sz hits := by
    funext a b
    have : Step hits.length (fun i => decide (m ≤ (neighbours (hits.map (coords sxy sz)) i).length)) (neighbours (hits.map (coords sxy sz))) =
        fun a b => Dense m sxy sz hits a ∧ Dense m sxy sz hits b ∧ Near sxy sz hits a b := by
      funext a b
      apply propext
      constructor
      · rintro ⟨g1, g2, g3, g4⟩
        have hn := (mem_neighbours g1).1 g4
        exact ⟨(hcore a g1).1 g2, (hcore b (near_lt hn).2).1 g3, hn⟩
      · rintro ⟨g1, g2, g3⟩
        exact ⟨hdl g1, (hcore a (hdl g1)).2 g1, (hcore b (hdl g2)).2 g2, (mem_neighbours (hdl g1)).2 g3⟩
    rw [Conn, this]
    rfl
  have hlab : ∀ i, Dense m sxy sz hits i → labels.getD i 0 ≠ -1 := fun i h => ho.done i (hdl h) (hdl h) ((hcore i (hdl h)).2 h)
  have hborder : ∀ i < hits.length, labels.getD i 0 ≠ -1 → ∃ j, Dense m sxy sz hits j ∧ Near sxy sz hits i j ∧ labels.getD j 0 = labels.getD i 0 := by
    intro i hi h
    obtain ⟨k, g1, g2, g3, g4⟩ := ho.border i hi h
    exact ⟨k, (hcore k g1).1 g2, hns ((mem_neighbours g1).1 g3), g4⟩
  refine ⟨labels, ?_, ho.len, ?_, ?_, hborder, ?_, ?_, ?_⟩
  · rw [tagEvent, if_neg (by simp only [h1, h2, or_false, not_lt]; exact hm)]
    rw [show dbscan m (hits.map (coords sxy sz)) = labels from hlabels]
  · intro i hi
    constructor
    · rintro h ⟨j, g1, g2⟩
      exact ho.clo j (hdl g1) ((hcore j (hdl g1)).2 g1) (hlab j g1) i ((mem_neighbours (hdl g1)).2 (hns g2)) h
    · intro h
      by_contra hne
      obtain ⟨j, g1, g2, _⟩ := hborder i hi hne
      exact h ⟨j, g1, g2⟩
  · intro i j g1 g2
    rw [← hconn]
    exact ho.same i (hdl g1) j (hdl g2) ((hcore i (hdl g1)).2 g1) ((hcore j (hdl g2)).2 g2) (hlab i g1) (hlab j g2)
  · intro i j g1 g2
    exact ho.least i (near_lt g2).1 j (hdl g1) ((hcore j (hdl g1)).2 g1) ((mem_neighbours (near_lt g2).1).2 g2) (hlab j g1)
  · intro i hi
    show -1 ≤ labels.getD i 0
    rcases ho.val i hi with h | h <;> omega
  · intro i hi h
    obtain ⟨j, g1, g2, g3, g4⟩ := ho.order i hi h
    exact ⟨j, (hcore j g1).1 g2, g3, fun k hk he => g4 k (hdl hk) ((hcore k (hdl hk)).2 hk) he⟩

/-- Three hits in a row and another one far away; with two hits required the last one is noise. -/
def line : List (Hit Unit) := [⟨1, 0, 0, 0, ()⟩, ⟨1, 10, 0, 0, ()⟩, ⟨1, 90, 0, 0, ()⟩, ⟨1, 20, 10, 0, ()⟩]

example : tagEvent 2 10 5 line = .ok (line.zip [0, 0, -1, 0]) := by decide +kernel

/-- **C97**: numbers of hits below one and scales of 0 are refused. -/
theorem event_refused {α : Type} (m : Int) (sxy sz : ℚ) (hits : List (Hit α)) : tagEvent m sxy sz hits = .error .valueError ↔ m < 1 ∨ sxy = 0 ∨ sz = 0 := by
  rw [tagEvent]
  split
  · next h => exact ⟨fun _ => h, fun _ => rfl⟩
  · next h => exact ⟨fun hh => (nomatch hh), fun hh => absurd hh h⟩

example : tagEvent 0 10 5 line = .error .valueError := by decide +kernel
example : tagEvent 2 0 5 line = .error .valueError := by decide +kernel

theorem filter_groups {κ ρ : Type} [DecidableEq κ] (ks : List κ) (hn : ks.Nodup) (f : κ → List ρ) (t : ρ → κ) (hf : ∀ k ∈ ks, ∀ r ∈ f k, t r = k) (k : κ) :
    ((ks.map f).flatten).filter (fun r => decide (t r = k)) = if k ∈ ks then f k else [] := by
  induction ks with
  | nil => simp
  | cons a ks ih =>
    have ih := ih (List.nodup_cons.1 hn).2 fun x hx => hf x (List.mem_cons_of_mem _ hx)
    rw [List.map_cons, List.flatten_cons, List.filter_append, ih]
    have ha := hf a List.mem_cons_self
    rcases eq_or_ne a k with rfl | hak
    · have h1 : (f a).filter (fun r => decide (t r = a)) = f a := List.filter_eq_self.2 fun r hr => by simp [ha r hr]
      rw [h1, if_neg (List.nodup_cons.1 hn).1, if_pos List.mem_cons_self, List.append_nil]
    · have h1 : (f a).filter (fun r => decide (t r = k)) = [] := List.filter_eq_nil_iff.2 fun r hr => by simp [ha r hr, hak]
      rw [h1, List.nil_append]
      have : (k ∈ a :: ks) ↔ k ∈ ks := by simp [List.mem_cons, Ne.symm hak]
      simp only [this]

/-- Two tables sorted by a column with the same rows for each value of the column are equal. -/
theorem eq_of_filters {ρ : Type} (t : ρ → Int) : ∀ (l1 l2 : List ρ), l1.Pairwise (fun a b => t a ≤ t b) → l2.Pairwise (fun a b => t a ≤ t b) →
    (∀ e, l1.filter (fun r => decide (t r = e)) = l2.filter (fun r => decide (t r = e))) → l1 = l2
  | [], [], _, _, _ => rfl
  | [], b :: l2, _, _, h => by have := h (t b); simp at this
  | a :: l1, [], _, _, h => by have := h (t a); simp at this
  | a :: l1, b :: l2, h1, h2, h => by
    have hb : t b ≤ t a := by
      have : a ∈ (b :: l2).filter (fun r => decide (t r = t a)) := by rw [← h]; simp
      rcases List.mem_cons.1 (List.mem_filter.1 this).1 with rfl | hm
      · exact le_rfl
      · exact (List.pairwise_cons.1 h2).1 a hm
    have ha : t a ≤ t b := by
      have : b ∈ (a :: l1).filter (fun r => decide (t r = t b)) := by rw [h]; simp
      rcases List.mem_cons.1 (List.mem_filter.1 this).1 with rfl | hm
      · exact le_rfl
      · exact (List.pairwise_cons.1 h1).1 b hm
    have hab : t a = t b := le_antisymm ha hb
    have heq : a = b := by
      have := h (t a)
      rw [List.filter_cons_of_pos (by simp), List.filter_cons_of_pos (by simp [hab])] at this
      exact (List.cons.inj this).1
    subst heq
    congr 1
    apply eq_of_filters t l1 l2 (List.pairwise_cons.1 h1).2 (List.pairwise_cons.1 h2).2
    intro e
    have := h e
    by_cases he : t a = e
    · rw [List.filter_cons_of_pos (by simp [he]), List.filter_cons_of_pos (by simp [he])] at this
      exact (List.cons.inj this).2
    · rwa [List.filter_cons_of_neg (by simp [he]), List.filter_cons_of_neg (by simp [he])] at this

/-- **C97**: for hits in any order, the table has every hit once, with the events in increasing order, and the labels of the hits of each event are those of the event alone.
The index is that of the input, position by position. -/
theorem tagger_events {ι α : Type} (m : Int) (sxy sz : ℚ) (df : List (ι × Hit α)) (hm : 1 ≤ m) (h1 : sxy ≠ 0) (h2 : sz ≠ 0) :
    ∃ rows : List (Hit α × Int), clusterTagger m sxy sz df = .ok ((df.map Prod.fst).zip rows) ∧ (rows.map Prod.fst).Perm (df.map Prod.snd) ∧
      (rows.map Prod.fst).Pairwise (fun a b => a.event ≤ b.event) ∧
      ∀ e, ∃ labels : List Int, rows.filter (fun r => decide (r.1.event = e)) = ((df.map Prod.snd).filter fun h => decide (h.event = e)).zip labels ∧
        labels.length = ((df.map Prod.snd).filter fun h => decide (h.event = e)).length ∧
        IsClustering m sxy sz ((df.map Prod.snd).filter fun h => decide (h.event = e)) fun i => labels.getD i 0 := by
  set hits := df.map Prod.snd with hhits
  set key : Hit α → List Int := fun h => [h.event] with hkey
  set ks := groupKeys (hits.map key) with hks
  choose lab hlab1 hlab2 hlab3 using fun g : List (Hit α) => event_clusters m sxy sz g hm h1 h2
  set f : List Int → List (Hit α × Int) := fun k => (hits.filter fun r => decide (key r = k)).zip (lab (hits.filter fun r => decide (key r = k))) with hf
  have hmap : (groupBy key hits).mapM (fun g => tagEvent m sxy sz g.2) = .ok (ks.map f) := by
    rw [mapM_ok_iff, groupBy, ← hks]
    rw [List.forall₂_map_left_iff, List.forall₂_map_right_iff, List.forall₂_same]
    intro k _
    exact hlab1 _
  have hfst : ∀ k, (f k).map Prod.fst = hits.filter fun r => decide (key r = k) := by
    intro k
    exact List.map_fst_zip (by rw [hlab2])
  have hkr : ∀ k, ∀ r ∈ f k, key r.1 = k := by
    intro k r hr
    have : r.1 ∈ hits.filter fun r => decide (key r = k) := by rw [← hfst]; exact List.mem_map_of_mem hr
    simpa using (List.mem_filter.1 this).2
  have hjoin : ((ks.map f).flatten).map Prod.fst = ((groupBy key hits).map Prod.snd).flatten := by
    rw [List.map_flatten, groupBy, ← hks, List.map_map, List.map_map]
    congr 1
    apply List.map_congr_left
    intro k _
    exact hfst k
  refine ⟨(ks.map f).flatten, ?_, ?_, ?_, ?_⟩
  · rw [clusterTagger]
    split
    · next h0 => subst h0; rfl
    · rw [hmap]; rfl
  · rw [hjoin]
    exact groupBy_perm key hits
  · rw [List.map_flatten, List.pairwise_flatten]
    constructor
    · intro l hl
      rw [List.map_map] at hl
      obtain ⟨k, _, rfl⟩ := List.mem_map.1 hl
      rw [Function.comp_apply, hfst]
      refine List.Pairwise.imp_of_mem ?_ (List.pairwise_of_forall (R := fun _ _ => True) fun _ _ => trivial)
      intro a b ha hb _
      have e1 : key a = k := by simpa using (List.mem_filter.1 ha).2
      have e2 : key b = k := by simpa using (List.mem_filter.1 hb).2
      have : [a.event] = [b.event] := e1.trans e2.symm
      simp only [List.cons.injEq, and_true] at this
      exact this.le
    · rw [List.map_map, List.pairwise_map]
      refine List.Pairwise.imp_of_mem ?_ (groupKeys_sorted (hits.map key))
      intro a b _ _ hab x hx y hy
      rw [Function.comp_apply, hfst] at hx hy
      have e1 : key x = a := by simpa using (List.mem_filter.1 hx).2
      have e2 : key y = b := by simpa using (List.mem_filter.1 hy).2
      rw [← e1, ← e2, hkey] at hab
      simp only [lexLe] at hab
      split at hab
      · next h => exact h.le
      · simpa using hab
  · intro e
    refine ⟨lab (hits.filter fun h => decide (h.event = e)), ?_, hlab2 _, hlab3 _⟩
    have hfe : (hits.filter fun r => decide (key r = [e])) = hits.filter fun h => decide (h.event = e) := by
      apply List.filter_congr
      intro r _
      simp [hkey]
    have := filter_groups ks (groupKeys_nodup _) f (fun r => key r.1) (fun k _ r hr => hkr k r hr) [e]
    have hl : (fun r : Hit α × Int => decide (key r.1 = [e])) = fun r => decide (r.1.event = e) := by
      funext r; simp [hkey]
    rw [hl] at this
    rw [this]
    split
    · show (hits.filter fun r => decide (key r = [e])).zip (lab (hits.filter fun r => decide (key r = [e]))) = _
      rw [hfe]
    · next hn =>
      have h0 : (hits.filter fun h => decide (h.event = e)) = [] := by
        rw [List.filter_eq_nil_iff]
        intro r hr he
        apply hn
        rw [hks, mem_groupKeys, List.mem_map]
        exact ⟨r, hr, by simpa [hkey] using he⟩
      rw [h0]; rfl

/-- Hits of two events, in order. -/
def two : List (String × Hit String) := [("a", ⟨1, 0, 0, 0, "p"⟩), ("b", ⟨1, 10, 0, 0, "q"⟩), ("c", ⟨2, 20, 0, 0, "r"⟩), ("d", ⟨2, 90, 0, 0, "s"⟩)]

example : clusterTagger 2 10 5 two = .ok [("a", ⟨1, 0, 0, 0, "p"⟩, 0), ("b", ⟨1, 10, 0, 0, "q"⟩, 0), ("c", ⟨2, 20, 0, 0, "r"⟩, -1), ("d", ⟨2, 90, 0, 0, "s"⟩, -1)] := by
  decide +kernel

/-- **C97**: hits given by increasing event keep their places and their indices, each with a label. -/
theorem tagger_sorted {ι α : Type} (m : Int) (sxy sz : ℚ) (df : List (ι × Hit α)) (hm : 1 ≤ m) (h1 : sxy ≠ 0) (h2 : sz ≠ 0)
    (hs : df.Pairwise fun a b => a.2.event ≤ b.2.event) :
    ∃ labels : List Int, labels.length = df.length ∧ clusterTagger m sxy sz df = .ok ((df.zip labels).map fun r => (r.1.1, r.1.2, r.2)) := by
  obtain ⟨rows, g1, g2, g3, g4⟩ := tagger_events m sxy sz df hm h1 h2
  have he : rows.map Prod.fst = df.map Prod.snd := by
    refine eq_of_filters (fun h : Hit α => h.event) _ _ g3 (List.pairwise_map.2 hs) ?_
    intro e
    obtain ⟨labels, k1, k2, _⟩ := g4 e
    have : (rows.map Prod.fst).filter (fun r => decide (r.event = e)) = (rows.filter fun r => decide (r.1.event = e)).map Prod.fst := by
      rw [List.filter_map]; rfl
    rw [this, k1, List.map_fst_zip (by rw [k2])]
  have hlen : rows.length = df.length := by simpa using congrArg List.length he
  refine ⟨rows.map Prod.snd, by rw [List.length_map, hlen], ?_⟩
  rw [g1]
  congr 1
  apply List.ext_getElem?
  intro k
  have hk := congrArg (fun l => l[k]?) he
  simp only [List.getElem?_map] at hk
  rw [List.getElem?_map]
  rcases lt_or_ge k df.length with h | h
  · have h' : k < rows.length := by omega
    rw [List.getElem?_eq_getElem h, List.getElem?_eq_getElem h'] at hk
    simp only [Option.map_some, Option.some.injEq] at hk
    rw [List.getElem?_eq_getElem (by simp [h, h']), List.getElem?_eq_getElem (by simp [h, h'])]
    simp only [List.getElem_zip, List.getElem_map, Option.map_some]
    rw [← hk]
  · rw [List.getElem?_eq_none (by simp; omega), List.getElem?_eq_none (by simp; omega)]
    rfl

example : two.Pairwise fun a b => a.2.event ≤ b.2.event := by decide

/-- Finding (C97): when the hits are not given by increasing event, the index of a hit is given to another one: "a" and "b" are exchanged. -/
theorem tagger_misplaced : clusterTagger 2 10 5 [("a", (⟨2, 0, 0, 0, "p"⟩ : Hit String)), ("b", ⟨1, 10, 0, 0, "q"⟩)] =
    .ok [("a", ⟨1, 10, 0, 0, "q"⟩, -1), ("b", ⟨2, 0, 0, 0, "p"⟩, -1)] := by decide +kernel

/-- **C97**: without hits, no parameter is looked at. -/
theorem tagger_empty {ι α : Type} (m : Int) (sxy sz : ℚ) : clusterTagger m sxy sz ([] : List (ι × Hit α)) = .ok [] := by
  rw [clusterTagger, if_pos rfl]

/-- **C97**: wrong parameters are refused. -/
theorem tagger_refused {ι α : Type} (m : Int) (sxy sz : ℚ) (df : List (ι × Hit α)) (hne : df ≠ []) (h : m < 1 ∨ sxy = 0 ∨ sz = 0) :
    clusterTagger m sxy sz df = .error .valueError := by
  rw [clusterTagger, if_neg hne]
  have hg : groupBy (fun h : Hit α => [h.event]) (df.map Prod.snd) ≠ [] := by
    intro h0
    have := groupBy_perm (fun h : Hit α => [h.event]) (df.map Prod.snd)
    rw [h0] at this
    exact hne (List.length_eq_zero_iff.1 (by simpa using this.length_eq.symm))
  obtain ⟨g, gs, hgs⟩ := List.exists_cons_of_ne_nil hg
  rw [hgs, List.mapM_cons, (event_refused m sxy sz g.2).2 h]
  rfl

example : clusterTagger 0 10 5 two = .error .valueError := by decide +kernel

end Verif.Clusters
