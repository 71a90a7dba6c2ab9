import Verif.Props.Deconv
/-!
# C46: the cuts applied to events
-/
namespace Verif.Deconv
open Verif.PMapsIO (unique)

/-- The row but its label. -/
def Row.unlabelled (r : Row) : Row := { r with label := 0 }

/-- The hits of one peak. -/
def peak (df : List Row) (k : Key) : List Row := df.filter fun r => r.key == k

theorem insertKey_perm (k : Key) (l : List Key) : (insertKey k l).Perm (k :: l) := by
  induction l with
  | nil => exact .refl _
  | cons j js ih =>
    rw [insertKey]
    split
    · exact .refl _
    · exact (ih.cons j).trans (.swap k j js)

theorem groupKeys_perm (df : List Row) : (groupKeys df).Perm (unique (df.map Row.key)) := by
  unfold groupKeys
  induction unique (df.map Row.key) with
  | nil => exact .refl _
  | cons k ks ih => exact (insertKey_perm k _).trans (ih.cons k)

theorem groupKeys_nodup (df : List Row) : (groupKeys df).Nodup := (groupKeys_perm df).nodup_iff.2 (PMapsIO.unique_nodup _)

theorem mem_groupKeys {df : List Row} {k : Key} : k ∈ groupKeys df ↔ k ∈ df.map Row.key := by
  rw [(groupKeys_perm df).mem_iff, PMapsIO.mem_unique]

theorem mem_peak {df : List Row} {k : Key} {r : Row} : r ∈ peak df k ↔ r ∈ df ∧ r.key = k := by simp [peak]

theorem resetIndex_unlabelled (df : List Row) : (resetIndex df).map Row.unlabelled = df.map Row.unlabelled := by
  apply List.ext_getElem?
  intro i
  simp only [resetIndex, List.getElem?_map, List.getElem?_mapIdx]
  cases df[i]? <;> rfl

theorem peak_unlabelled (df : List Row) (k : Key) : (peak df k).map Row.unlabelled = (df.map Row.unlabelled).filter fun r => r.key == k := by
  unfold peak
  rw [List.filter_map]
  rfl

theorem peak_resetIndex (df : List Row) (k : Key) : (peak (resetIndex df) k).map Row.unlabelled = (peak df k).map Row.unlabelled := by
  rw [peak_unlabelled, peak_unlabelled, resetIndex_unlabelled]

/-- Groups treated one by one: each gives its own result. -/
theorem applyGroups_spec (f : List Row → Except PyErr (List Row)) (P : List Row → List Row → Prop) (df : List Row)
    (hf : ∀ k ∈ df.map Row.key, ∃ g, f (peak df k) = .ok g ∧ P (peak df k) g)
    (hkey : ∀ rows g, P rows g → ∀ r ∈ g, ∃ r0 ∈ rows, r.key = r0.key) :
    ∃ out, applyGroups f df = .ok out ∧ out.map Row.label = (List.range out.length).map Int.ofNat ∧ (∀ r ∈ out, r.key ∈ df.map Row.key) ∧
      ∀ k ∈ df.map Row.key, ∃ g, f (peak df k) = .ok g ∧ P (peak df k) g ∧ (peak out k).map Row.unlabelled = g.map Row.unlabelled := by
  classical
  choose! g hg1 hg2 using hf
  have hm : (groupKeys df).mapM (fun k => f (df.filter fun r => r.key == k)) = .ok ((groupKeys df).map g) := by
    rw [mapM_ok_iff]
    have : ∀ ks : List Key, (∀ k ∈ ks, k ∈ df.map Row.key) → List.Forall₂ (fun k y => f (df.filter fun r => r.key == k) = .ok y) ks (ks.map g) := by
      intro ks
      induction ks with
      | nil => intro _; exact .nil
      | cons k ks ih =>
        intro h
        exact .cons (hg1 k (h k List.mem_cons_self)) (ih fun k' hk' => h k' (List.mem_cons_of_mem _ hk'))
    exact this _ fun k hk => mem_groupKeys.1 hk
  have hgk : ∀ k ∈ groupKeys df, ∀ r ∈ g k, r.key = k := by
    intro k hk r hr
    obtain ⟨r0, hr0, he⟩ := hkey _ _ (hg2 k (mem_groupKeys.1 hk)) r hr
    rw [he]; exact (mem_peak.1 hr0).2
  refine ⟨resetIndex ((groupKeys df).map g).flatten, ?_, ?_, ?_, ?_⟩
  · unfold applyGroups; rw [hm]
  · apply List.ext_getElem?
    intro i
    simp only [resetIndex, List.getElem?_map, List.getElem?_mapIdx, List.length_mapIdx]
    by_cases hi : i < ((groupKeys df).map g).flatten.length
    · rw [List.getElem?_eq_getElem hi, List.getElem?_range hi]; rfl
    · rw [List.getElem?_eq_none (not_lt.1 hi), List.getElem?_eq_none (by simpa using not_lt.1 hi)]; rfl
  · intro r hr
    obtain ⟨i, hi⟩ := List.mem_iff_getElem?.1 hr
    rw [resetIndex, List.getElem?_mapIdx, Option.map_eq_some_iff] at hi
    obtain ⟨r0, hr0, rfl⟩ := hi
    obtain ⟨l, hl, hrl⟩ := List.mem_flatten.1 (List.mem_of_getElem? hr0)
    obtain ⟨k, hk, rfl⟩ := List.mem_map.1 hl
    have := hgk k hk r0 hrl
    show r0.key ∈ _
    rw [this]; exact mem_groupKeys.1 hk
  · intro k hk
    refine ⟨g k, hg1 k hk, hg2 k hk, ?_⟩
    rw [peak_resetIndex, peak, ← List.flatMap_def]
    have := PMapsIO.filter_blocks Row.key g id (groupKeys df) (by intro a ha b hb; exact hgk a ha b hb) (by rw [List.map_id]; exact groupKeys_nodup df) k (mem_groupKeys.2 hk)
    have hb : ((groupKeys df).flatMap g).filter (fun r => r.key == k) = g k := by
      conv_rhs => rw [← this]
      apply List.filter_congr
      intro r _
      rw [Bool.eq_iff_iff]
      simp
    rw [hb]

/-- The rows of a redistributed table are those kept. -/
theorem redistributed_key {df kept out : List Row} (h : Redistributed df kept out) : ∀ r ∈ out, ∃ r0 ∈ kept, r.key = r0.key := by
  intro r hr
  have : r.fixed ∈ kept.map Row.fixed := h.1 ▸ List.mem_map_of_mem hr
  obtain ⟨r0, hr0, he⟩ := List.mem_map.1 this
  exact ⟨r0, hr0, (congrArg Row.key he).symm⟩

theorem applyGroups_nil (f : List Row → Except PyErr (List Row)) : applyGroups f [] = .ok [] := rfl

/-- **C46** `cut_over_Q` never fails; in every peak of every event the hits with more charge than the cut are kept and share the columns of their peak; peaks without such hits
disappear, and the rows are numbered again. -/
theorem cut_over_Q (qcut : ℚ) (df : List Row) :
    ∃ out, cutOverQ qcut df = .ok out ∧ out.map Row.label = (List.range out.length).map Int.ofNat ∧ (∀ r ∈ out, r.key ∈ df.map Row.key) ∧
      ∀ k ∈ df.map Row.key, ∃ g, Redistributed (peak df k) ((peak df k).filter fun r => decide (qcut < r.q)) g ∧
        (peak out k).map Row.unlabelled = g.map Row.unlabelled := by
  unfold cutOverQ
  split
  · rename_i h0
    rw [List.length_eq_zero_iff] at h0
    subst h0
    exact ⟨[], rfl, rfl, by simp, by simp⟩
  · obtain ⟨out, h1, h2, h3, h4⟩ := applyGroups_spec (fun g => .ok (cutAndRedistribute (fun r => decide (qcut < r.q)) g))
      (fun rows g => Redistributed rows (rows.filter fun r => decide (qcut < r.q)) g) df
      (fun k _ => ⟨_, rfl, cut_and_redistribute _ _⟩)
      (fun rows g h r hr => by
        obtain ⟨r0, hr0, he⟩ := redistributed_key h r hr
        exact ⟨r0, (List.mem_filter.1 hr0).1, he⟩)
    refine ⟨out, h1, h2, h3, fun k hk => ?_⟩
    obtain ⟨g, _, h6, h7⟩ := h4 k hk
    exact ⟨g, h6, h7⟩

theorem colSum_unlabelled {a b : List Row} (h : a.map Row.unlabelled = b.map Row.unlabelled) (j : Nat) : colSum a j = colSum b j := by
  have : ∀ l : List Row, colSum l j = ((l.map Row.unlabelled).map fun r => (r.vals.getD j none).getD 0).sum := by
    intro l; rw [colSum, List.map_map]; rfl
  rw [this, this, h]

/-- **C46** Energy conservation of the charge cut: the total of a column in a peak does not change, provided the hits that pass the cut have some. -/
theorem cut_over_Q_conserves (qcut : ℚ) (df out : List Row) (h : cutOverQ qcut df = .ok out) (k : Key) (hk : k ∈ df.map Row.key) (j : Nat)
    (hpos : colSum ((peak df k).filter fun r => decide (qcut < r.q)) j ≠ 0) : colSum (peak out k) j = colSum (peak df k) j := by
  obtain ⟨out', h1, _, _, h4⟩ := cut_over_Q qcut df
  rw [h] at h1; cases h1
  obtain ⟨g, h5, h6⟩ := h4 k hk
  rw [colSum_unlabelled h6 j]
  exact ((h5.2 j).1 hpos).1

open Classical in
/-- **C46** `drop_isolated` with two distances never fails; in every peak the sensors with another one within the distance are kept and share the columns of the peak. -/
theorem drop_isolated_two (iter : List Int → List Int) (dx dy : ℚ) (nhits : Option Int) (df : List Row) :
    ∃ out, dropIsolated iter [dx, dy] nhits df = .ok out ∧ (∀ r ∈ out, r.key ∈ df.map Row.key) ∧
      ∀ k ∈ df.map Row.key, ∃ g, Redistributed (peak df k) ((peak df k).filter fun a => decide (∃ b ∈ peak df k, NearSensor dx dy a b)) g ∧
        (peak out k).map Row.unlabelled = g.map Row.unlabelled := by
  unfold dropIsolated
  split
  · rename_i dx' dy' n he
    simp only [List.cons.injEq, and_true] at he
    obtain ⟨rfl, rfl⟩ := he
    split
    · rename_i h0
      rw [List.length_eq_zero_iff] at h0
      subst h0
      exact ⟨[], rfl, by simp, by simp⟩
    · obtain ⟨out, h1, _, h3, h4⟩ := applyGroups_spec (dropIsolatedSensors dx dy)
        (fun rows g => Redistributed rows (rows.filter fun a => decide (∃ b ∈ rows, NearSensor dx dy a b)) g) df
        (fun k _ => drop_isolated_sensors dx dy _)
        (fun rows g h r hr => by
          obtain ⟨r0, hr0, he⟩ := redistributed_key h r hr
          exact ⟨r0, (List.mem_filter.1 hr0).1, he⟩)
      refine ⟨out, h1, h3, fun k hk => ?_⟩
      obtain ⟨g, _, h6, h7⟩ := h4 k hk
      exact ⟨g, h6, h7⟩
  · rename_i he; cases he
  · rename_i he; cases he
  · rename_i h1 _ _
    exact absurd rfl (h1 dx dy)

open Classical in
/-- **C46** `drop_isolated` with three distances, for rows with different labels and `nhits` at least one: when every peak has a cluster of more than `nhits` hits, in every peak exactly
the hits of such clusters are kept and they share the columns of the peak; when one has none, `TypeError`. -/
theorem drop_isolated_three (iter : List Int → List Int) (hiter : ∀ l, (iter l).Perm l) (dx dy dz : ℚ) (nhits : Int) (df : List Row)
    (hl : (df.map Row.label).Nodup) (hn : 1 ≤ nhits) :
    ((∀ k ∈ df.map Row.key, ∃ a ∈ peak df k, ∃ c, IsCluster (dx, dy, dz) (peak df k) a c ∧ nhits < c.length) →
      ∃ out, dropIsolated iter [dx, dy, dz] (some nhits) df = .ok out ∧ (∀ r ∈ out, r.key ∈ df.map Row.key) ∧
        ∀ k ∈ df.map Row.key, ∃ g kept, Redistributed (peak df k) kept g ∧
          kept.Perm ((peak df k).filter fun a => decide (∃ c, IsCluster (dx, dy, dz) (peak df k) a c ∧ nhits < c.length)) ∧
          (peak out k).map Row.unlabelled = g.map Row.unlabelled) ∧
    ((∃ k ∈ df.map Row.key, ¬ ∃ a ∈ peak df k, ∃ c, IsCluster (dx, dy, dz) (peak df k) a c ∧ nhits < c.length) →
      dropIsolated iter [dx, dy, dz] (some nhits) df = .error .typeError) := by
  have hlp : ∀ k, ((peak df k).map Row.label).Nodup := fun k => hl.sublist (List.filter_sublist.map _)
  constructor
  · intro h
    rw [show dropIsolated iter [dx, dy, dz] (some nhits) df = if df.length = 0 then .ok df else applyGroups (dropIsolatedClusters iter (dx, dy, dz) nhits) df from rfl]
    split
    · rename_i h0
      rw [List.length_eq_zero_iff] at h0
      subst h0
      exact ⟨[], rfl, by simp, by simp⟩
    · obtain ⟨out, h1, _, h3, h4⟩ := applyGroups_spec (dropIsolatedClusters iter (dx, dy, dz) nhits)
        (fun rows g => ∃ kept, Redistributed rows kept g ∧ kept.Perm (rows.filter fun a => decide (∃ c, IsCluster (dx, dy, dz) rows a c ∧ nhits < c.length))) df
        (fun k hk => by
          obtain ⟨out, kept, g1, g2, g3⟩ := (drop_isolated_clusters iter hiter (dx, dy, dz) nhits (peak df k) (hlp k) hn).1 (h k hk)
          exact ⟨out, g1, kept, g2, g3⟩)
        (fun rows g h r hr => by
          obtain ⟨kept, g2, g3⟩ := h
          obtain ⟨r0, hr0, he⟩ := redistributed_key g2 r hr
          exact ⟨r0, (List.mem_filter.1 ((g3.mem_iff).1 hr0)).1, he⟩)
      refine ⟨out, h1, h3, fun k hk => ?_⟩
      obtain ⟨g, _, ⟨kept, g2, g3⟩, h7⟩ := h4 k hk
      exact ⟨g, kept, g2, g3, h7⟩
  · rintro ⟨k, hk, hno⟩
    have hne : ¬ df.length = 0 := by
      intro h0
      rw [List.length_eq_zero_iff] at h0
      subst h0
      cases hk
    unfold dropIsolated
    simp only [if_neg hne]
    unfold applyGroups
    cases hm : (groupKeys df).mapM (fun k => dropIsolatedClusters iter (dx, dy, dz) nhits (df.filter fun r => r.key == k)) with
    | ok gs =>
      have hf := mapM_ok_iff.1 hm
      obtain ⟨i, hi⟩ := List.mem_iff_getElem?.1 (mem_groupKeys.2 hk)
      have hlt : i < gs.length := by rw [← hf.length_eq]; exact (List.getElem?_eq_some_iff.1 hi).1
      have hR := forall₂_getElem? hf i k gs[i] hi (List.getElem?_eq_getElem hlt)
      rw [show (df.filter fun r => r.key == k) = peak df k from rfl, (drop_isolated_clusters iter hiter (dx, dy, dz) nhits (peak df k) (hlp k) hn).2 hno] at hR
      cases hR
    | error e =>
      obtain ⟨k', hk', he⟩ := Sampling.mapM_error hm
      rw [show (df.filter fun r => r.key == k') = peak df k' from rfl] at he
      by_cases hc : ∃ a ∈ peak df k', ∃ c, IsCluster (dx, dy, dz) (peak df k') a c ∧ nhits < c.length
      · obtain ⟨out, _, g1, _⟩ := (drop_isolated_clusters iter hiter (dx, dy, dz) nhits (peak df k') (hlp k') hn).1 hc
        rw [g1] at he; cases he
      · rw [(drop_isolated_clusters iter hiter (dx, dy, dz) nhits (peak df k') (hlp k') hn).2 hc] at he
        cases he; rfl

/-- **C46** The parameters of `drop_isolated`: three distances need a number of hits; other numbers of distances are an error. -/
theorem drop_isolated_parameters (iter : List Int → List Int) (df : List Row) :
    (∀ dx dy dz, dropIsolated iter [dx, dy, dz] none df = .error .typeError) ∧
    (∀ ds n, ds.length ≠ 2 → ds.length ≠ 3 → dropIsolated iter ds n df = .error .valueError) := by
  refine ⟨fun _ _ _ => rfl, fun ds n h2 h3 => ?_⟩
  match ds with
  | [] => rfl
  | [_] => rfl
  | [_, _] => exact absurd rfl h2
  | [_, _, _] => exact absurd rfl h3
  | _ :: _ :: _ :: _ :: _ => rfl

/-- Two peaks of an event. -/
def exEvent : List Row := [⟨0, 1, 2, 0, 0, 0, 0, 10, [some 1, some 2]⟩, ⟨1, 1, 2, 1, 10, 0, 0, 3, [some 2, some 2]⟩, ⟨2, 1, 2, 0, 10, 0, 0, 2, [some 5, some 6]⟩, ⟨3, 1, 2, 1, 0, 0, 0, 9, [some 4, some 2]⟩]

example : (cutOverQ 5 exEvent).map (·.map fun r => (r.label, r.npeak, r.vals)) = .ok [(0, 0, [some 6, some 8]), (1, 1, [some 6, some 4])] ∧
    (1, 2, 0) ∈ exEvent.map Row.key ∧ colSum ((peak exEvent (1, 2, 0)).filter fun r => decide (5 < r.q)) 0 ≠ 0 ∧
    (dropIsolated id [10, 10, 10] (some 1) exEvent).map (·.map fun r => (r.label, r.npeak)) = .ok [(0, 0), (1, 0), (2, 1), (3, 1)] ∧
    dropIsolated id [10, 10, 10] (some 2) exEvent = .error .typeError ∧ (exEvent.map Row.label).Nodup := by
  refine ⟨by decide +kernel, by decide +kernel, by decide +kernel, by decide +kernel, by decide +kernel, by decide +kernel⟩

end Verif.Deconv
