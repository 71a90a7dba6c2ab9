import Verif.Spec.Sophronia
import Verif.Props.Esmeralda
import Verif.Props.HitBuilder
import Verif.Props.KrApply
import Verif.Props.Clusters
import Verif.Props.KrEvent
import Verif.Props.Filters
/-!
# The events of sophronia (property C122)
-/
namespace Verif.Hits

/-! ### Merge of the NN hits inside each peak -/

theorem nearest_peak {k : Nat} {real : List Hit} {nn h : Hit} (hn : nn.npeak = k) :
    Nearest true (real.filter fun h => h.npeak == k) nn h ↔ Nearest true real nn h := by
  unfold Nearest Eligible
  constructor
  · rintro ⟨h1, h2, h3⟩
    refine ⟨(List.mem_filter.1 h1).1, h2, fun h' hm he => h3 h' (List.mem_filter.2 ⟨hm, ?_⟩) he⟩
    rw [he rfl, hn]; simp
  · rintro ⟨h1, h2, h3⟩
    refine ⟨List.mem_filter.2 ⟨h1, ?_⟩, h2, fun h' hm he => h3 h' (List.mem_filter.1 hm).1 he⟩
    rw [h2 rfl, hn]; simp

theorem received_peak {col : Hit → Fl} {k : Nat} {real : List Hit} {nn h : Hit} (hn : nn.npeak = k) :
    received col true (real.filter fun h => h.npeak == k) nn h = received col true real nn h := by
  unfold received
  have e : ((real.filter fun h => h.npeak == k).filter fun h' => decide (Nearest true (real.filter fun h => h.npeak == k) nn h')) =
      real.filter fun h' => decide (Nearest true real nn h') := by
    rw [List.filter_filter]
    apply List.filter_congr
    intro h' _
    rw [Bool.eq_iff_iff, Bool.and_eq_true, decide_eq_true_eq, decide_eq_true_eq, nearest_peak hn]
    refine ⟨fun h => h.1, fun h => ⟨h, ?_⟩⟩
    rw [h.2.1 rfl, hn]; simp
  rw [e]
  simp only [nearest_peak hn]

theorem gain_peak {col : Hit → Fl} {k : Nat} {real nns : List Hit} {h : Hit} (hk : h.npeak = k) :
    gain col true real nns h = gain col true (real.filter fun h => h.npeak == k) (nns.filter fun h => h.npeak == k) h := by
  unfold gain
  generalize (some 0 : Fl) = c
  induction nns generalizing c with
  | nil => rfl
  | cons n nns ih =>
    rw [List.foldl_cons, List.filter_cons]
    by_cases hn : n.npeak = k
    · rw [if_pos (by simp [hn]), List.foldl_cons, received_peak hn]
      exact ih _
    · have h0 : received col true real n h = some 0 := by
        unfold received
        rw [if_neg]
        rintro ⟨_, h2, _⟩
        exact hn ((h2 rfl).symm.trans hk)
      rw [if_neg (by simpa using hn), h0, Fl.add_zero']
      exact ih _

/-- Merging inside each peak: the hits of a peak are those of the merge of its own hits. -/
theorem mergeNN_peak (hasEc : Bool) (k : Nat) (hits : List Hit) :
    (mergeNN true hasEc hits).filter (fun h => h.npeak == k) = mergeNN true hasEc (hits.filter fun h => h.npeak == k) := by
  have e1 : ((hits.filter fun h => h.npeak == k).filter fun h => !h.isNN) = (hits.filter fun h => !h.isNN).filter fun h => h.npeak == k := by
    rw [List.filter_filter, List.filter_filter]; exact List.filter_congr fun h _ => Bool.and_comm _ _
  have e2 : ((hits.filter fun h => h.npeak == k).filter Hit.isNN) = (hits.filter Hit.isNN).filter fun h => h.npeak == k := by
    rw [List.filter_filter, List.filter_filter]; exact List.filter_congr fun h _ => Bool.and_comm _ _
  rw [mergeNN_formula, mergeNN_formula, e1, e2, List.filter_map]
  apply List.map_congr_left
  intro h hm
  have hk : h.npeak = k := by simpa using (List.mem_filter.1 hm).2
  rw [gain_peak hk (col := Hit.e), gain_peak hk (col := Hit.ec)]

/-- Energies that are positive, but for the hits without charge: every one can be given to some other. -/
theorem mergeable_pos {sp : Bool} {L : List Hit} (hp : PosCol Hit.e L) (hr : ∀ h ∈ L, ∃ k ∈ L, k.isNN = false ∧ (sp = true → k.npeak = h.npeak)) :
    Mergeable Hit.e sp L := by
  refine ⟨fun k hk => by obtain ⟨v, hv, _⟩ := hp.val k hk; rw [hv]; rfl, fun nn hnn _ => ?_⟩
  obtain ⟨k, hk, hk1, hk2⟩ := hr nn hnn
  obtain ⟨h, hh⟩ := exists_nearest (sp := sp) (nn := nn) (real := L.filter fun h => !h.isNN) ⟨k, List.mem_filter.2 ⟨hk, by simp [hk1]⟩, hk2⟩
  exact (nearest_total_pos hp hh).ne'

end Verif.Hits

namespace Verif.Sophronia
open Verif.PMaps Verif.Peaks Verif.HitBuilder
open Verif.Hits (Fl EPSILON total)

/-! ### Merge -/

theorem filterMap_all {α β : Type} (f : α → Option β) : ∀ (l : List α), (∀ x ∈ l, (f x).isSome) → List.Forall₂ (fun x y => f x = some y) l (l.filterMap f)
  | [], _ => .nil
  | a :: l, h => by
    obtain ⟨b, hb⟩ := Option.isSome_iff_exists.1 (h a List.mem_cons_self)
    rw [List.filterMap_cons_some hb]
    exact .cons hb (filterMap_all f l fun x hx => h x (List.mem_cons_of_mem _ hx))

theorem forall₂_trans {α β γ : Type} {R : α → β → Prop} {S : β → γ → Prop} {T : α → γ → Prop} {l1 : List α} {l2 : List β} {l3 : List γ}
    (h : ∀ a b c, a ∈ l1 → R a b → S b c → T a c) (h1 : List.Forall₂ R l1 l2) (h2 : List.Forall₂ S l2 l3) : List.Forall₂ T l1 l3 := by
  induction h1 generalizing l3 with
  | nil => cases h2; exact .nil
  | cons r _ ih =>
    cases h2 with
    | cons s h2 => exact .cons (h _ _ _ List.mem_cons_self r s) (ih (fun a b c ha => h a b c (List.mem_cons_of_mem _ ha)) h2)

theorem forall₂_and {α β : Type} {R S : α → β → Prop} {l1 : List α} {l2 : List β} (h1 : List.Forall₂ R l1 l2) (h2 : List.Forall₂ S l1 l2) :
    List.Forall₂ (fun a b => R a b ∧ S a b) l1 l2 := by
  induction h1 with
  | nil => exact .nil
  | cons r _ ih =>
    cases h2 with
    | cons s h2 => exact .cons ⟨r, s⟩ (ih h2)

theorem zipIdx_filter_fst {α : Type} (p : α → Bool) (l : List α) (n : Nat) : ((l.zipIdx n).filter fun x => p x.1).map Prod.fst = l.filter p := by
  induction l generalizing n with
  | nil => rfl
  | cons a l ih =>
    rw [List.zipIdx_cons, List.filter_cons, List.filter_cons]
    by_cases h : p a = true <;> simp [h, ih]

theorem real_hits (rows : List Row) : ((rows.zipIdx.map toHit).filter fun h => !h.isNN) = (rows.zipIdx.filter fun p => decide (p.1.q ≠ -999999)).map toHit := by
  rw [List.filter_map]
  congr 1
  apply List.filter_congr
  intro p _
  rw [Bool.eq_iff_iff]
  simp [toHit, Hits.Hit.isNN, Hits.NN]

theorem merge_rel (sp : Bool) (rows : List Row) :
    List.Forall₂ (fun h o => rows[h.info]?.map (fun r => ofRow r h.e) = some o) (Hits.mergeNN sp false (rows.zipIdx.map toHit)) (merge sp rows) := by
  refine filterMap_all _ _ ?_
  intro h hh
  obtain ⟨g, hg, hs, _⟩ := KrEvent.forall₂_mem_right (Hits.mergeNN_same_hits sp false (rows.zipIdx.map toHit)).1 hh
  obtain ⟨p, hp, rfl⟩ := List.mem_map.1 (List.mem_filter.1 hg).1
  have hp' := List.mem_zipIdx_iff_getElem?.1 hp
  have : h.info = p.2 := hs.1.symm
  rw [this, hp']; rfl

theorem merge_rows (sp : Bool) (rows : List Row) : List.Forall₂ (fun r o => o = ofRow r o.e) (real rows) (merge sp rows) := by
  have h1 := (Hits.mergeNN_same_hits sp false (rows.zipIdx.map toHit)).1
  rw [real_hits, List.forall₂_map_left_iff] at h1
  have h2 : List.Forall₂ (fun (p : Row × Nat) o => o = ofRow p.1 o.e) (rows.zipIdx.filter fun p => decide (p.1.q ≠ -999999)) (merge sp rows) := by
    refine forall₂_trans ?_ h1 (merge_rel sp rows)
    rintro p h o hp ⟨hs, _⟩ ho
    have hp' := List.mem_zipIdx_iff_getElem?.1 (List.mem_filter.1 hp).1
    rw [show h.info = p.2 from hs.1.symm, hp'] at ho
    simp only [Option.map_some, Option.some.injEq] at ho
    rw [← ho]; rfl
  rw [real, ← zipIdx_filter_fst _ rows 0, List.forall₂_map_left_iff]
  exact h2

theorem merge_energies (sp : Bool) (rows : List Row) :
    List.Forall₂ (fun (h : Hits.Hit) o => o.e = h.e ∧ o.npeak = h.npeak) (Hits.mergeNN sp false (rows.zipIdx.map toHit)) (merge sp rows) := by
  have h0 := merge_rel sp rows
  have key : ∀ h ∈ Hits.mergeNN sp false (rows.zipIdx.map toHit), ∃ r, rows[h.info]? = some r ∧ h.npeak = r.npeak := by
    intro h hh
    obtain ⟨g, hg, hs, _⟩ := KrEvent.forall₂_mem_right (Hits.mergeNN_same_hits sp false (rows.zipIdx.map toHit)).1 hh
    obtain ⟨p, hp, rfl⟩ := List.mem_map.1 (List.mem_filter.1 hg).1
    exact ⟨p.1, by rw [← hs.1]; exact List.mem_zipIdx_iff_getElem?.1 hp, hs.2.1.symm⟩
  revert key
  generalize Hits.mergeNN sp false (rows.zipIdx.map toHit) = hs at h0
  generalize merge sp rows = os at h0
  induction h0 with
  | nil => exact fun _ => .nil
  | cons h _ ih =>
    intro key
    refine .cons ?_ (ih fun h hh => key h (List.mem_cons_of_mem _ hh))
    obtain ⟨r, hr1, hr2⟩ := key _ List.mem_cons_self
    rw [hr1, Option.map_some, Option.some.injEq] at h
    rw [← h]
    exact ⟨rfl, hr2.symm⟩

theorem sum_of_rel {hs : List Hits.Hit} {os : List OutHit} (h : List.Forall₂ (fun (h : Hits.Hit) o => o.e = h.e ∧ o.npeak = h.npeak) hs os) :
    energy os = total Hits.Hit.e hs ∧ ∀ k : Nat, energy (os.filter fun o => o.npeak == k) = total Hits.Hit.e (hs.filter fun h => h.npeak == k) := by
  induction h with
  | nil => exact ⟨rfl, fun _ => rfl⟩
  | @cons a b as bs h _ ih =>
    refine ⟨?_, fun k => ?_⟩
    · have := ih.1
      simp only [energy, total, List.map_cons, List.sum_cons, h.1] at this ⊢
      rw [this]
    · have := ih.2 k
      simp only [List.filter_cons, h.2]
      split
      · simp only [energy, total, List.map_cons, List.sum_cons, h.1] at this ⊢
        rw [this]
      · exact this

theorem total_rows (rows : List Row) : total Hits.Hit.e (rows.zipIdx.map toHit) = (rows.map Row.e).sum := by
  rw [total, List.map_map]
  have : ((fun h : Hits.Hit => (h.e).getD 0) ∘ toHit) = fun p : Row × Nat => p.1.e := rfl
  rw [this]
  congr 1
  rw [show (fun p : Row × Nat => p.1.e) = Row.e ∘ Prod.fst from rfl, ← List.map_map, List.zipIdx_map_fst]

/-- Energies of rows that can be merged: not negative, and positive for the hits with charge. -/
def PosRows (rows : List Row) : Prop := ∀ r ∈ rows, 0 ≤ r.e ∧ (r.q ≠ -999999 → 0 < r.e)

theorem posCol_rows {rows : List Row} (h : PosRows rows) : Hits.PosCol Hits.Hit.e (rows.zipIdx.map toHit) := by
  refine ⟨fun k hk => ?_⟩
  obtain ⟨p, hp, rfl⟩ := List.mem_map.1 hk
  have hm : p.1 ∈ rows := List.mem_of_getElem? (List.mem_zipIdx_iff_getElem?.1 hp)
  refine ⟨p.1.e, rfl, (h _ hm).1, fun hn => (h _ hm).2 ?_⟩
  simpa [toHit, Hits.Hit.isNN, Hits.NN] using hn

theorem mem_tagged {rows : List Row} {r : Row} (h : r ∈ rows) : ∃ k ∈ rows.zipIdx.map toHit, k.q = r.q ∧ k.npeak = r.npeak := by
  obtain ⟨i, hi⟩ := List.mem_iff_getElem?.1 h
  exact ⟨toHit (r, i), List.mem_map_of_mem (List.mem_zipIdx_iff_getElem?.2 hi), rfl, rfl⟩

theorem merge_total {sp : Bool} {rows : List Row} (h : PosRows rows) (hr : ∀ r ∈ rows, ∃ r' ∈ rows, r'.q ≠ -999999 ∧ (sp = true → r'.npeak = r.npeak)) :
    energy (merge sp rows) = (rows.map Row.e).sum := by
  rw [(sum_of_rel (merge_energies sp rows)).1, Hits.mergeNN_conserves_E, total_rows]
  refine Hits.mergeable_pos (posCol_rows h) fun k hk => ?_
  obtain ⟨p, hp, rfl⟩ := List.mem_map.1 hk
  obtain ⟨r', h1, h2, h3⟩ := hr p.1 (List.mem_of_getElem? (List.mem_zipIdx_iff_getElem?.1 hp))
  obtain ⟨k, g1, g2, g3⟩ := mem_tagged h1
  refine ⟨k, g1, ?_, fun hs => g3.trans (h3 hs)⟩
  simp [Hits.Hit.isNN, Hits.NN, g2, h2]

theorem merge_total_peak {rows : List Row} (h : PosRows rows) (k : Nat) (hr : ∃ r ∈ rows, r.q ≠ -999999 ∧ r.npeak = k) :
    energy ((merge true rows).filter fun o => o.npeak == k) = ((rows.filter fun r => r.npeak == k).map Row.e).sum := by
  rw [(sum_of_rel (merge_energies true rows)).2 k, Hits.mergeNN_peak, Hits.mergeNN_conserves_E]
  · rw [total, List.filter_map, List.map_map]
    have : ((fun h : Hits.Hit => (h.e).getD 0) ∘ toHit) = fun p : Row × Nat => p.1.e := rfl
    rw [this, show (fun p : Row × Nat => p.1.e) = Row.e ∘ Prod.fst from rfl, ← List.map_map]
    have e := zipIdx_filter_fst (fun r : Row => r.npeak == k) rows 0
    rw [← e]; rfl
  · obtain ⟨r, h1, h2, h3⟩ := hr
    obtain ⟨g, g1, g2, g3⟩ := mem_tagged h1
    refine Hits.mergeable_pos ⟨fun x hx => (posCol_rows h).val x (List.mem_filter.1 hx).1⟩ fun x hx => ?_
    refine ⟨g, List.mem_filter.2 ⟨g1, by rw [g3, h3]; simp⟩, by simp [Hits.Hit.isNN, Hits.NN, g2, h2], fun _ => ?_⟩
    rw [g3, h3]; exact (by simpa using (List.mem_filter.1 hx).2 : x.npeak = k).symm

theorem merge_pos {sp : Bool} {rows : List Row} (h : PosRows rows) : ∀ o ∈ merge sp rows, ∃ e, o.e = some e ∧ 0 < e := by
  intro o ho
  obtain ⟨x, hx, hxe, _⟩ := KrEvent.forall₂_mem_right (merge_energies sp rows) ho
  rw [hxe]
  rw [Hits.mergeNN_formula] at hx
  obtain ⟨g, hg, rfl⟩ := List.mem_map.1 hx
  obtain ⟨g1, g2⟩ := List.mem_filter.1 hg
  obtain ⟨v1, e1, p1⟩ := Hits.gain_pos (posCol_rows h) (sp := sp) g1
  obtain ⟨a, ha, _, a2⟩ := (posCol_rows h).val g g1
  refine ⟨a + v1, ?_, by have := a2 (by simpa using g2); linarith⟩
  simp only [e1, ha, Hits.Fl.add]

/-! ### Corrections and clusters -/

theorem correctHits_rows {k : Corr} {rows out : List KrApply.HitRow}
    (h : (KrApply.correctHits k.pick k.keV k.mev k.krmap k.dvs k.applyTemp k.method k.xy k.applyZ rows).2 = .ok out) :
    List.Forall₂ (fun r o => o.z = if k.applyZ then r.z * Wfm.median k.dvs else r.z) rows out := by
  rw [KrApply.correctHits] at h
  cases h1 : KrApply.correctRows k.pick k.keV k.mev k.krmap k.method k.xy rows with
  | error e => simp [h1] at h
  | ok mid =>
    simp only [h1] at h
    have hm : List.Forall₂ (fun (r o : KrApply.HitRow) => o.z = r.z) rows mid := by
      rw [KrApply.correctRows] at h1
      split at h1
      · cases h1
      · rename_i ecs hec
        simp only [Except.ok.injEq] at h1
        subst h1
        have hl : ecs.length = rows.length := by
          rw [KrApply.apply3D] at hec
          split at hec
          · cases hec
          · split at hec
            · cases hec
            · simp only [Except.ok.injEq] at hec; rw [← hec]; simp
        clear h hec
        induction rows generalizing ecs with
        | nil => exact .nil
        | cons r rows ih =>
          cases ecs with
          | nil => cases hl
          | cons e ecs => exact .cons rfl (ih ecs (by simpa using hl))
    split at h
    · cases h
    · simp only [Except.ok.injEq] at h
      subst h
      cases k.applyZ with
      | false => simpa using hm
      | true =>
        simp only [if_true, List.forall₂_map_right_iff]
        exact hm.imp fun r o hz => by rw [hz]

/-- What the corrections leave as it was. -/
theorem correct_rel {k : Option Corr} {hs mid : List OutHit} (h : correct k hs = .ok mid) :
    List.Forall₂ (fun (a o : OutHit) => o.event = a.event ∧ o.time = a.time ∧ o.npeak = a.npeak ∧ o.xpeak = a.xpeak ∧ o.ypeak = a.ypeak ∧ o.x = a.x ∧ o.y = a.y ∧ o.q = a.q ∧
      o.e = a.e ∧ o.cluster = a.cluster ∧ (∀ k', k = some k' → o.z = if k'.applyZ then a.z * Wfm.median k'.dvs else a.z) ∧ (k = none → o.z = a.z ∧ o.ec = a.ec)) hs mid := by
  cases k with
  | none =>
    simp only [correct, Except.ok.injEq] at h
    subst h
    exact List.forall₂_same.2 fun a _ => ⟨rfl, rfl, rfl, rfl, rfl, rfl, rfl, rfl, rfl, rfl, (fun k' hk => by cases hk), fun _ => ⟨rfl, rfl⟩⟩
  | some k =>
    simp only [correct] at h
    split at h
    · cases h
    · rename_i rows hr
      simp only [Except.ok.injEq] at h
      subst h
      have := correctHits_rows hr
      rw [List.forall₂_map_left_iff] at this
      clear hr
      induction this with
      | nil => exact .nil
      | cons hz _ ih =>
        refine .cons ⟨rfl, rfl, rfl, rfl, rfl, rfl, rfl, rfl, rfl, rfl, fun k' hk => ?_, fun hk => (by cases hk)⟩ ih
        cases hk
        exact hz

/-- The clusters of hits of one event. -/
theorem cluster_rel {p : Option ClusterPars} {ev : Int} {mid out : List OutHit} (hev : ∀ h ∈ mid, h.event = ev) (hne : mid ≠ []) (h : cluster p mid = .ok out) :
    (p = none → out = mid) ∧ ∀ p', p = some p' → (1 ≤ p'.minSamples ∧ p'.scaleXY ≠ 0 ∧ p'.scaleZ ≠ 0) ∧
      ∃ labels : List Int, labels.length = mid.length ∧ out = List.zipWith withCluster mid labels ∧
        Clusters.Spec.IsClustering p'.minSamples p'.scaleXY p'.scaleZ (mid.map point) fun i => labels.getD i 0 := by
  cases p with
  | none =>
    simp only [cluster, Except.ok.injEq] at h
    exact ⟨fun _ => h.symm, fun p' hp => by cases hp⟩
  | some p =>
    refine ⟨fun hp => (by cases hp), fun p' hp => ?_⟩
    cases hp
    simp only [cluster] at h
    have hdf : mid.map toCluster ≠ [] := by simpa using hne
    by_cases hbad : p.minSamples < 1 ∨ p.scaleXY = 0 ∨ p.scaleZ = 0
    · rw [Clusters.tagger_refused _ _ _ _ hdf hbad] at h
      cases h
    · simp only [not_or, not_lt] at hbad
      refine ⟨hbad, ?_⟩
      obtain ⟨rows, g1, g2, g3, g4⟩ := Clusters.tagger_events p.minSamples p.scaleXY p.scaleZ (mid.map toCluster) hbad.1 hbad.2.1 hbad.2.2
      rw [g1] at h
      simp only [Except.ok.injEq] at h
      obtain ⟨labels, k1, k2, k3⟩ := g4 ev
      have hsnd : (mid.map toCluster).map Prod.snd = mid.map point := by simp [List.map_map, Function.comp_def, toCluster, point]
      have hfst : (mid.map toCluster).map Prod.fst = mid := by simp [List.map_map, Function.comp_def, toCluster]
      rw [hsnd] at g2 k1 k2 k3
      have hfall : (mid.map point).filter (fun h => decide (h.event = ev)) = mid.map point := by
        rw [List.filter_eq_self]
        intro x hx
        obtain ⟨o, ho, rfl⟩ := List.mem_map.1 hx
        exact decide_eq_true (hev o ho)
      rw [hfall] at k1 k2 k3
      have hrall : rows.filter (fun r => decide (r.1.event = ev)) = rows := by
        rw [List.filter_eq_self]
        intro x hx
        have : x.1 ∈ mid.map point := g2.mem_iff.1 (List.mem_map_of_mem hx)
        obtain ⟨o, ho, h1⟩ := List.mem_map.1 this
        rw [← h1]
        exact decide_eq_true (hev o ho)
      rw [hrall] at k1
      rw [hfst] at h
      have hl : labels.length = mid.length := by simpa using k2
      refine ⟨labels, hl, ?_, k3⟩
      rw [← h, k1]
      clear h k1 k2 k3 hrall hfall hfst hsnd g1 g2 g3 g4 hev hne hdf
      induction mid generalizing labels with
      | nil => rfl
      | cons a mid ih =>
        cases labels with
        | nil => cases hl
        | cons l labels =>
          have := ih labels (by simpa using hl)
          simp only [List.map_cons, List.zip_cons_cons, List.zipWith_cons_cons] at this ⊢
          rw [this]

/-! ### The branches -/

theorem hitsBranch_ok {c : Cfg} {f1 f2 : List Bool} {s1s s2s : List Peak} {ev : Int} {ts : ℚ} {v : Bool} {hits : List OutHit}
    (h : hitsBranch c f1 f2 s1s s2s ev ts = .ok (v, hits)) :
    ∃ rows, build c.builder f1 f2 s1s s2s ev ts = .ok rows ∧ v = decide (real rows ≠ []) ∧
      ((real rows = [] ∧ hits = []) ∨ (real rows ≠ [] ∧ ∃ mid, correct c.corrections (merge c.samePeak rows) = .ok mid ∧ cluster c.clustering mid = .ok hits)) := by
  rw [hitsBranch] at h
  split at h
  · cases h
  · rename_i rows hr
    refine ⟨rows, hr, ?_⟩
    have hc : countValid rows = 0 ↔ real rows = [] := by
      rw [countValid, real, List.countP_eq_length_filter, List.length_eq_zero_iff]; rfl
    split at h
    · rename_i h0
      simp only [Except.ok.injEq, Prod.mk.injEq] at h
      have := hc.1 h0
      exact ⟨by rw [← h.1]; simp [this], .inl ⟨this, h.2.symm⟩⟩
    · rename_i h0
      have h1 : real rows ≠ [] := fun hh => h0 (hc.2 hh)
      split at h
      · cases h
      · rename_i mid hm
        split at h
        · cases h
        · rename_i out ho
          simp only [Except.ok.injEq, Prod.mk.injEq] at h
          refine ⟨by rw [← h.1]; simp [h1], .inr ⟨h1, mid, hm, ?_⟩⟩
          rw [ho, h.2]

theorem event_ok {c : Cfg} {s1s s2s : List Peak} {ev : Int} {ts : ℚ} {out : Written} {f1 f2 : List Bool} (ha : Accepted c s1s s2s f1 f2)
    (h : sophroniaEvent c s1s s2s ev ts = .ok out) :
    out.passed = true ∧ kdstBranch c f1 f2 s1s s2s ev ts = .ok out.kdst ∧ ∃ v, out.validHits = some v ∧ hitsBranch c f1 f2 s1s s2s ev ts = .ok (v, out.hits) := by
  rw [sophroniaEvent, show Filters.pmapFilter c.selector s1s s2s = .ok ⟨true, f1, f2⟩ from ha] at h
  simp only [Bool.not_true, Bool.false_eq_true, if_false] at h
  split at h
  · cases h
  · rename_i k hk
    split at h
    · cases h
    · rename_i v hits hh
      simp only [Except.ok.injEq] at h
      subst h
      exact ⟨rfl, hk, v, rfl, hh⟩

theorem found_event {c : Cfg} {f1 f2 : List Bool} {s1s s2s : List Peak} {ev : Int} {ts : ℚ} {rows : List Row} (h : Found c f1 f2 s1s s2s ev ts rows) : ∀ r ∈ rows, r.event = ev := by
  obtain ⟨t, _, blocks, h2, rfl⟩ := h
  intro r hr
  obtain ⟨bl, hb1, hb2⟩ := List.mem_flatten.1 hr
  obtain ⟨x, hx, q, xys, pos, charges, bs, _, _, _, _, _, _, _, _, h8, _⟩ := KrEvent.forall₂_mem_right h2 hb1
  exact (h8 r hb2).1

theorem forall₂_event {R : Row → OutHit → Prop} {rows : List Row} {os : List OutHit} {ev : Int} (h : List.Forall₂ R rows os) (hR : ∀ r o, R r o → o.event = r.event)
    (he : ∀ r ∈ rows, r.event = ev) : ∀ o ∈ os, o.event = ev := by
  intro o ho
  obtain ⟨r, hr, hro⟩ := KrEvent.forall₂_mem_right h ho
  rw [hR _ _ hro, he _ hr]

/-- The stages of the hits of an event with hits of some charge. -/
theorem event_stages {c : Cfg} (hb : Sized c.builder) {s1s s2s : List Peak} {ev : Int} {ts : ℚ} {out : Written} {f1 f2 : List Bool} (ha : Accepted c s1s s2s f1 f2)
    (hv : ∀ x ∈ selectedS2s f2 s2s, ValidPeak x.1) (hn : s2s.length ≤ 65536) (h : sophroniaEvent c s1s s2s ev ts = .ok out) :
    ∃ rows, build c.builder f1 f2 s1s s2s ev ts = .ok rows ∧ Found c f1 f2 s1s s2s ev ts rows ∧ out.passed = true ∧ out.validHits = some (decide (real rows ≠ [])) ∧
      ((real rows = [] ∧ out.hits = []) ∨ (real rows ≠ [] ∧ ∃ mid, correct c.corrections (merge c.samePeak rows) = .ok mid ∧ cluster c.clustering mid = .ok out.hits ∧
        mid ≠ [] ∧ (∀ o ∈ mid, o.event = ev) ∧ List.Forall₂ (fun r o => o = ofRow r o.e) (real rows) (merge c.samePeak rows))) := by
  obtain ⟨h1, _, v, h2, h3⟩ := event_ok ha h
  obtain ⟨rows, g1, g2, g3⟩ := hitsBranch_ok h3
  have hf : Found c f1 f2 s1s s2s ev ts rows := build_spec hb hv hn g1
  refine ⟨rows, g1, hf, h1, by rw [h2, g2], ?_⟩
  rcases g3 with g3 | ⟨g3, mid, g4, g5⟩
  · exact .inl g3
  · have hm := merge_rows c.samePeak rows
    have hc := correct_rel g4
    have e1 : ∀ o ∈ merge c.samePeak rows, o.event = ev :=
      forall₂_event hm (fun r o hro => by rw [hro]; rfl) fun r hr => found_event hf r (List.mem_filter.1 hr).1
    refine .inr ⟨g3, mid, g4, g5, ?_, ?_, hm⟩
    · intro h0
      have := hm.length_eq.trans hc.length_eq
      rw [h0] at this
      exact g3 (List.length_eq_zero_iff.1 this)
    · intro o ho
      obtain ⟨a, ha, hao⟩ := KrEvent.forall₂_mem_right hc ho
      rw [hao.1, e1 _ ha]

theorem zipWith_rel {mid : List OutHit} {labels : List Int} (h : labels.length = mid.length) :
    List.Forall₂ (fun (a o : OutHit) => ∃ l : Int, o = withCluster a l) mid (List.zipWith withCluster mid labels) := by
  induction mid generalizing labels with
  | nil => exact .nil
  | cons a mid ih =>
    cases labels with
    | nil => cases h
    | cons l labels => exact .cons ⟨l, rfl⟩ (ih (by simpa using h))

/-- What the clusters leave as it was. -/
theorem cluster_keep {p : Option ClusterPars} {ev : Int} {mid out : List OutHit} (hev : ∀ h ∈ mid, h.event = ev) (hne : mid ≠ []) (h : cluster p mid = .ok out) :
    List.Forall₂ (fun (a o : OutHit) => o.event = a.event ∧ o.time = a.time ∧ o.npeak = a.npeak ∧ o.xpeak = a.xpeak ∧ o.ypeak = a.ypeak ∧ o.x = a.x ∧ o.y = a.y ∧ o.z = a.z ∧
      o.q = a.q ∧ o.e = a.e ∧ o.ec = a.ec ∧ (p = none → o.cluster = a.cluster)) mid out := by
  obtain ⟨h1, h2⟩ := cluster_rel hev hne h
  cases p with
  | none =>
    rw [h1 rfl]
    exact List.forall₂_same.2 fun a _ => ⟨rfl, rfl, rfl, rfl, rfl, rfl, rfl, rfl, rfl, rfl, rfl, fun _ => rfl⟩
  | some p =>
    obtain ⟨_, labels, hl, ho, _⟩ := h2 p rfl
    rw [ho]
    refine (zipWith_rel hl).imp ?_
    rintro a o ⟨l, rfl⟩
    exact ⟨rfl, rfl, rfl, rfl, rfl, rfl, rfl, rfl, rfl, rfl, rfl, fun h => by cases h⟩

/-- From the merge to the table. -/
theorem merge_keep {c : Cfg} {hs mid out : List OutHit} {ev : Int} (h1 : correct c.corrections hs = .ok mid) (h2 : cluster c.clustering mid = .ok out) (h3 : mid ≠ [])
    (h4 : ∀ o ∈ mid, o.event = ev) :
    List.Forall₂ (fun (a o : OutHit) => o.event = a.event ∧ o.time = a.time ∧ o.npeak = a.npeak ∧ o.xpeak = a.xpeak ∧ o.ypeak = a.ypeak ∧ o.x = a.x ∧ o.y = a.y ∧ o.q = a.q ∧
      o.e = a.e ∧ (∀ k, c.corrections = some k → o.z = if k.applyZ then a.z * Wfm.median k.dvs else a.z) ∧ (c.corrections = none → o.z = a.z ∧ o.ec = a.ec) ∧
      (c.clustering = none → o.cluster = a.cluster)) hs out := by
  refine forall₂_trans ?_ (correct_rel h1) (cluster_keep h4 h3 h2)
  rintro a b o _ ⟨a1, a2, a3, a4, a5, a6, a7, a8, a9, a10, a11, a12⟩ ⟨b1, b2, b3, b4, b5, b6, b7, b8, b9, b10, b11, b12⟩
  exact ⟨b1.trans a1, b2.trans a2, b3.trans a3, b4.trans a4, b5.trans a5, b6.trans a6, b7.trans a7, b9.trans a8, b10.trans a9, fun k hk => b8.trans (a11 k hk),
    fun hk => ⟨b8.trans (a12 hk).1, b11.trans (a12 hk).2⟩, fun hk => (b12 hk).trans a10⟩

/-! ### Theorems -/

/-- **C122**: an event rejected by the selector leaves its flag and nothing else. -/
theorem event_rejected {c : Cfg} {s1s s2s : List Peak} {ev : Int} {ts : ℚ} {f1 f2 : List Bool} (h : Filters.pmapFilter c.selector s1s s2s = .ok ⟨false, f1, f2⟩) :
    sophroniaEvent c s1s s2s ev ts = .ok ⟨false, [], none, []⟩ := by
  rw [sophroniaEvent, h]; rfl

/-- **C122**: the hits written are the hits with charge found in the selected S2s, in order, with the same columns; the flag of valid hits tells if there is any. -/
theorem event_hits {c : Cfg} (hb : Sized c.builder) {s1s s2s : List Peak} {ev : Int} {ts : ℚ} {out : Written} {f1 f2 : List Bool} (ha : Accepted c s1s s2s f1 f2)
    (hv : ∀ x ∈ selectedS2s f2 s2s, ValidPeak x.1) (hn : s2s.length ≤ 65536) (h : sophroniaEvent c s1s s2s ev ts = .ok out) :
    out.passed = true ∧ ∃ rows, Found c f1 f2 s1s s2s ev ts rows ∧ out.validHits = some (decide (∃ r ∈ rows, r.q ≠ -999999)) ∧
      List.Forall₂ (SameHit c) (rows.filter fun r => decide (r.q ≠ -999999)) out.hits ∧
      (c.corrections = none → ∀ o ∈ out.hits, o.ec = none) ∧ (c.clustering = none → ∀ o ∈ out.hits, o.cluster = none) := by
  obtain ⟨rows, _, hf, h1, h2, h3⟩ := event_stages hb ha hv hn h
  refine ⟨h1, rows, hf, ?_, ?_⟩
  · rw [h2]
    congr 1
    rw [decide_eq_decide, Ne, real, List.filter_eq_nil_iff]
    push Not
    simp
  · rcases h3 with ⟨h3, h4⟩ | ⟨h3, mid, g1, g2, g3, g4, g5⟩
    · rw [h4]
      change List.Forall₂ (SameHit c) (real rows) [] ∧ _
      rw [h3]
      exact ⟨.nil, by simp, by simp⟩
    · have hall := forall₂_trans (T := fun r o => SameHit c r o ∧ (c.corrections = none → o.ec = none) ∧ (c.clustering = none → o.cluster = none)) ?_ g5
        (merge_keep g1 g2 g3 g4)
      · exact ⟨hall.imp fun _ _ h => h.1, fun hx o ho => by obtain ⟨r, _, hr⟩ := KrEvent.forall₂_mem_right hall ho; exact hr.2.1 hx,
          fun hx o ho => by obtain ⟨r, _, hr⟩ := KrEvent.forall₂_mem_right hall ho; exact hr.2.2 hx⟩
      · rintro r a o _ ha ⟨b1, b2, b3, b4, b5, b6, b7, b8, b9, b10, b11, b12⟩
        rw [ha] at b1 b2 b3 b4 b5 b6 b7 b8 b10 b11 b12
        exact ⟨⟨b1, b2, b3, b4, b5, b6, b7, b8, b10, fun hk => (b11 hk).1⟩, fun hk => (b11 hk).2, b12⟩

/-! ### Energies -/

theorem sliceRows_pos {b : Builder} {event : Int} {time : ℚ} {k : Nat} {pos : ℚ × ℚ} {xys : List (ℚ × ℚ)} {z e : ℚ} {qs : List ℚ} {rows : List Row} (ht : 0 < b.qThr) (he : 0 < e)
    (h : sliceRows b event time k pos xys z e qs = .ok rows) : ∀ r ∈ rows, 0 < r.e := by
  rw [sliceRows] at h
  split at h
  · cases h
  simp only [Except.ok.injEq] at h
  subst h
  intro r hr
  obtain ⟨x, hx, rfl⟩ := List.mem_map.1 hr
  change 0 < x.2.2.2
  rw [Hits.sipmsAboveThreshold] at hx
  split at hx
  · rw [List.mem_singleton] at hx; rw [hx]; exact he
  · generalize hsel : (List.zipWith (fun xy q => (xy.1, xy.2, q)) xys qs).filter (fun s => decide (b.qThr ≤ s.2.2)) = sel at hx
    have hq : ∀ q ∈ sel.map fun s => s.2.2, 0 < q := by
      intro q hq
      obtain ⟨s, hs, rfl⟩ := List.mem_map.1 hq
      rw [← hsel] at hs
      exact lt_of_lt_of_le ht (by simpa using (List.mem_filter.1 hs).2)
    have hpos : ∀ v ∈ Hits.eFromQ (sel.map fun s => s.2.2) e, 0 < v := by
      intro v hv
      obtain ⟨q, hq', rfl⟩ := List.mem_map.1 hv
      have hs : 0 ≤ (sel.map fun s => s.2.2).sum := List.sum_nonneg fun x hx => (hq x hx).le
      have := Hits.EPSILON_pos
      exact div_pos (mul_pos (hq q hq') he) (by linarith)
    rw [List.mem_iff_getElem?] at hx
    obtain ⟨i, hi⟩ := hx
    rw [List.getElem?_zipWith_eq_some] at hi
    obtain ⟨s, v, h1, h2, rfl⟩ := hi
    exact hpos v (List.mem_of_getElem? h2)

theorem peakRows_pos {b : Builder} (ht : 0 < b.qThr) {event : Int} {time s1t : ℚ} {k : Nat} {p : Peak} (hp : Bright b.rebin p) {blocks : List (List Row)}
    (h : peakRows b event time s1t k p = .ok blocks) : ∀ bl ∈ blocks, ∀ r ∈ bl, 0 < r.e := by
  cases h0 : rebinPeak p b.rebin with
  | error e => simp [peakRows, h0, bind, Except.bind] at h
  | ok q =>
  simp only [peakRows, h0, bind, Except.bind] at h
  cases h1 : KrEvent.positions b.xys q.sipms with
  | error e => simp [h1] at h
  | ok xys =>
  simp only [h1] at h
  cases h2 : b.pointCharges q with
  | error e => simp [h2] at h
  | ok qs =>
  simp only [h2] at h
  cases h3 : globalReco b xys qs with
  | error e => simp [h3] at h
  | ok pos =>
  simp only [h3] at h
  cases h4 : b.sliceCharges q with
  | error e => simp [h4] at h
  | ok charges =>
  simp only [h4] at h
  have hf := mapM_ok_iff.1 h
  intro bl hbl
  obtain ⟨s, hs, hsl⟩ := KrEvent.forall₂_mem_right hf hbl
  refine sliceRows_pos ht (hp q h0 _ ?_) hsl
  exact (List.of_mem_zip (List.of_mem_zip hs).2).1

theorem peaksRows_pos {b : Builder} (ht : 0 < b.qThr) {event : Int} {time s1t : ℚ} : ∀ (l : List ((Bool × Peak) × Nat)) {out : List (List Row)},
    (∀ x ∈ l, x.1.1 = true → Bright b.rebin x.1.2) → peaksRows b event time s1t l = .ok out → ∀ bl ∈ out, ∀ r ∈ bl, 0 < r.e
  | [], out, _, h => by
    simp only [peaksRows, Except.ok.injEq] at h
    subst h
    simp
  | ((passed, p), k) :: rest, out, hp, h => by
    rw [peaksRows] at h
    have hp' : ∀ x ∈ rest, x.1.1 = true → Bright b.rebin x.1.2 := fun x hx => hp x (List.mem_cons_of_mem _ hx)
    split at h
    · exact peaksRows_pos ht rest hp' h
    · rename_i hpass
      split at h
      · cases h
      · rename_i a ha
        split at h
        · cases h
        · rename_i d hd
          simp only [Except.ok.injEq] at h
          subst h
          intro bl hbl
          rcases List.mem_append.1 hbl with hbl | hbl
          · exact peakRows_pos ht (hp _ List.mem_cons_self (by simpa using hpass)) ha bl hbl
          · exact peaksRows_pos ht rest hp' hd bl hbl

theorem build_pos {b : Builder} (ht : 0 < b.qThr) {f1 f2 : List Bool} {s1s s2s : List Peak} {event : Int} {ts : ℚ} {rows : List Row}
    (hp : ∀ x ∈ selectedS2s f2 s2s, Bright b.rebin x.1) (h : build b f1 f2 s1s s2s event ts = .ok rows) : ∀ r ∈ rows, 0 < r.e := by
  rw [build] at h
  split at h
  · cases h
  · split at h
    · cases h
    · cases h
    · rename_i hits _ hh
      simp only [Except.ok.injEq] at h
      subst h
      intro r hr
      obtain ⟨r', hr', rfl⟩ := List.mem_map.1 hr
      obtain ⟨bl, hb1, hb2⟩ := List.mem_flatten.1 hr'
      refine peaksRows_pos ht _ ?_ hh bl hb1 r' hb2
      intro x hx hpx
      exact hp (x.1.2, x.2) (List.mem_map.2 ⟨x, List.mem_filter.2 ⟨hx, hpx⟩, rfl⟩)

theorem bright_energy {m : RebinMethod} {p q : Peak} (hv : ValidPeak p) (hp : Bright m p) (hq : rebinPeak p m = .ok q) : (q.pmts.sumOverSensors.map abs).sum = pmtEnergy p := by
  obtain ⟨q', g1, g2, _, _, g5, _, _⟩ := rebinPeak_conserves p hv m
  rw [hq, Except.ok.injEq] at g1
  subst g1
  have hsum : q.pmts.sumOverSensors.sum = pmtEnergy p := by
    rw [pmtEnergy, Responses.sumOverSensors, Mat.sum_sumSensors _ g2.pmtWF, Mat.sumTimes, g5]
  rw [← hsum]
  congr 1
  rw [List.map_congr_left (g := id), List.map_id]
  intro e he
  exact abs_of_pos (hp q hq e he)

/-- The hits found in the selected S2s carry their energy. -/
theorem found_energy {c : Cfg} (ht : 0 < c.qThr) {f1 f2 : List Bool} {s1s s2s : List Peak} {ev : Int} {ts : ℚ} {rows : List Row} (h : Found c f1 f2 s1s s2s ev ts rows)
    (hv : ∀ x ∈ selectedS2s f2 s2s, ValidPeak x.1) (hp : ∀ x ∈ selectedS2s f2 s2s, Bright c.rebin x.1) :
    |(rows.map Row.e).sum - ((selectedS2s f2 s2s).map fun x => pmtEnergy x.1).sum| ≤ ((selectedS2s f2 s2s).map fun x => pmtEnergy x.1).sum * (EPSILON / c.qThr) ∧
    ∀ x ∈ selectedS2s f2 s2s, |((rows.filter fun r => r.npeak == x.2).map Row.e).sum - pmtEnergy x.1| ≤ pmtEnergy x.1 * (EPSILON / c.qThr) := by
  obtain ⟨t, _, blocks, h1, rfl⟩ := h
  refine ⟨?_, fun x hx => ?_⟩
  · revert hv hp
    generalize selectedS2s f2 s2s = xs at h1
    induction h1 with
    | nil => intro _ _; simp
    | @cons x rows xs blocks hx _ ih =>
      intro hv hp
      have := ih (fun y hy => hv y (List.mem_cons_of_mem _ hy)) (fun y hy => hp y (List.mem_cons_of_mem _ hy))
      obtain ⟨q, hq, he⟩ := peakHits_energy (b := c.builder) ht (hv x List.mem_cons_self) hx
      rw [bright_energy (hv x List.mem_cons_self) (hp x List.mem_cons_self) hq] at he
      simp only [List.flatten_cons, List.map_append, List.sum_append, List.map_cons, List.sum_cons]
      rw [add_sub_add_comm, add_mul]
      exact (abs_add_le _ _).trans (add_le_add he this)
  · obtain ⟨q, hq, he⟩ := peakHits_energy (b := c.builder) ht (hv x hx) (filter_blocks_npeak h1 (selectedS2s_idx f2 s2s) hx)
    rw [bright_energy (hv x hx) (hp x hx) hq] at he
    exact he

theorem energy_of_rel {as os : List OutHit} (h : List.Forall₂ (fun (a o : OutHit) => o.e = a.e ∧ o.npeak = a.npeak) as os) :
    energy os = energy as ∧ ∀ k : Nat, energy (os.filter fun o => o.npeak == k) = energy (as.filter fun o => o.npeak == k) := by
  induction h with
  | nil => exact ⟨rfl, fun _ => rfl⟩
  | @cons a b as bs h _ ih =>
    refine ⟨?_, fun k => ?_⟩
    · have := ih.1
      simp only [energy, List.map_cons, List.sum_cons, h.1] at this ⊢
      rw [this]
    · have := ih.2 k
      simp only [List.filter_cons, h.2]
      split
      · simp only [energy, List.map_cons, List.sum_cons, h.1] at this ⊢
        rw [this]
      · exact this

/-- **C122**: the hits of an event with some hit of charge have positive energies; they carry the energy seen by the PMTs in the selected S2s, and if NN hits are merged in the same peak, those of each
S2 with hits carry the energy of that S2; up to the epsilon of the division. -/
theorem event_energy {c : Cfg} (hb : Sized c.builder) (ht : 0 < c.qThr) {s1s s2s : List Peak} {ev : Int} {ts : ℚ} {out : Written} {f1 f2 : List Bool} (ha : Accepted c s1s s2s f1 f2)
    (hv : ∀ x ∈ selectedS2s f2 s2s, ValidPeak x.1) (hn : s2s.length ≤ 65536) (hp : ∀ x ∈ selectedS2s f2 s2s, Bright c.rebin x.1)
    (h : sophroniaEvent c s1s s2s ev ts = .ok out) (hval : out.validHits = some true) :
    out.hits ≠ [] ∧ (∀ o ∈ out.hits, ∃ e, o.e = some e ∧ 0 < e) ∧
    (c.samePeak = false → |energy out.hits - ((selectedS2s f2 s2s).map fun x => pmtEnergy x.1).sum| ≤ ((selectedS2s f2 s2s).map fun x => pmtEnergy x.1).sum * (EPSILON / c.qThr)) ∧
    (c.samePeak = true → ∀ x ∈ selectedS2s f2 s2s, (∃ o ∈ out.hits, o.npeak = x.2) →
      |energy (out.hits.filter fun o => o.npeak == x.2) - pmtEnergy x.1| ≤ pmtEnergy x.1 * (EPSILON / c.qThr)) := by
  obtain ⟨rows, g0, hf, _, h2, h3⟩ := event_stages hb ha hv hn h
  rcases h3 with ⟨h3, _⟩ | ⟨h3, mid, g1, g2, g3, g4, g5⟩
  · rw [hval] at h2; simp [h3] at h2
  have hk := merge_keep g1 g2 g3 g4
  have hpos : PosRows rows := fun r hr => by
    have := build_pos (b := c.builder) ht hp g0 r hr
    exact ⟨this.le, fun _ => this⟩
  have he := energy_of_rel (hk.imp fun a o h => And.intro h.2.2.2.2.2.2.2.2.1 h.2.2.1)
  obtain ⟨e1, e2⟩ := found_energy ht hf hv hp
  obtain ⟨r0, hr0⟩ := List.exists_mem_of_ne_nil _ h3
  have hr0' := List.mem_filter.1 hr0
  refine ⟨?_, fun o ho => ?_, fun hs => ?_, fun hs x hx ho => ?_⟩
  · intro h0
    have := g5.length_eq.trans hk.length_eq
    rw [h0] at this
    exact h3 (List.length_eq_zero_iff.1 this)
  · obtain ⟨a, ha, hao⟩ := KrEvent.forall₂_mem_right hk ho
    rw [hao.2.2.2.2.2.2.2.2.1]
    exact merge_pos hpos a ha
  · rw [he.1, hs, merge_total hpos]
    · exact e1
    · exact fun r _ => ⟨r0, hr0'.1, by simpa using hr0'.2, fun h => by cases h⟩
  · rw [he.2, hs, merge_total_peak hpos]
    · exact e2 x hx
    · obtain ⟨o, ho1, ho2⟩ := ho
      obtain ⟨a, ha, hao⟩ := KrEvent.forall₂_mem_right hk ho1
      obtain ⟨r, hr, hra⟩ := KrEvent.forall₂_mem_right g5 ha
      have hr' := List.mem_filter.1 hr
      refine ⟨r, hr'.1, by simpa using hr'.2, ?_⟩
      rw [← ho2, hao.2.2.1, hra]; rfl

/-! ### Corrections, clusters and point-like events -/

theorem zipWith_row {R : KrApply.HitRow → KrApply.HitRow → Prop} {as : List OutHit} {rows : List KrApply.HitRow} (h : List.Forall₂ R (as.map toRow) rows) :
    List.Forall₂ (fun a o => ∃ r, R (toRow a) r ∧ o = withRow a r) as (List.zipWith withRow as rows) := by
  rw [List.forall₂_map_left_iff] at h
  induction h with
  | nil => exact .nil
  | cons h _ ih => exact .cons ⟨_, h, rfl⟩ ih

/-- **C122**: with corrections, `Ec` is the energy of the hit divided by that of the nearest bin of the map to the hit found (before z is converted), times 41.55 keV. -/
theorem event_corrected {c : Cfg} (hb : Sized c.builder) {s1s s2s : List Peak} {ev : Int} {ts : ℚ} {out : Written} {f1 f2 : List Bool} (ha : Accepted c s1s s2s f1 f2)
    (hv : ∀ x ∈ selectedS2s f2 s2s, ValidPeak x.1) (hn : s2s.length ≤ 65536) {k : Corr} (hk : c.corrections = some k) (hm : MapOk k)
    (h : sophroniaEvent c s1s s2s ev ts = .ok out) :
    ∃ rows, Found c f1 f2 s1s s2s ev ts rows ∧ List.Forall₂ (fun r o => SameHit c r o ∧ ∀ e, o.e = some e → ∃ b mu, KrApply.IsNearestBin k.krmap ⟨r.z, r.x, r.y, e⟩ b mu ∧
      o.ec = some (some (e / mu * (4155 / 100 * k.keV) / k.mev))) (rows.filter fun r => decide (r.q ≠ -999999)) out.hits := by
  obtain ⟨rows, _, hf, _, _, h3⟩ := event_stages hb ha hv hn h
  refine ⟨rows, hf, ?_⟩
  rcases h3 with ⟨h3, h4⟩ | ⟨h3, mid, g1, g2, g3, g4, g5⟩
  · rw [h4]
    change List.Forall₂ _ (real rows) []
    rw [h3]
    exact .nil
  · have hkeep := merge_keep g1 g2 g3 g4
    obtain ⟨n, hn1, hn0⟩ := hm.norm
    obtain ⟨crows, k1, k2⟩ := KrApply.corrected_hits hm.nearest k.keV k.mev k.krmap k.dvs k.method k.xy k.applyZ n hn1 hn0 hm.bins hm.mev ((merge c.samePeak rows).map toRow)
    rw [hk] at g1
    simp only [correct] at g1
    rw [hm.noTemp, k1] at g1
    simp only [Except.ok.injEq] at g1
    have hec := zipWith_row k2
    rw [g1] at hec
    have hec2 := forall₂_trans (T := fun (a o : OutHit) => ∀ e, a.e = some e → ∃ b mu, KrApply.IsNearestBin k.krmap ⟨a.z, a.x, a.y, e⟩ b mu ∧
      o.ec = some (some (e / mu * (4155 / 100 * k.keV) / k.mev))) ?_ hec (cluster_keep g4 g3 g2)
    · have hboth := forall₂_and hkeep hec2
      refine forall₂_trans ?_ g5 hboth
      rintro r a o _ ha ⟨⟨b1, b2, b3, b4, b5, b6, b7, b8, b9, b10, b11, b12⟩, hb⟩
      rw [b9]
      rw [ha] at b1 b2 b3 b4 b5 b6 b7 b8 b10 b11 b12
      refine ⟨⟨b1, b2, b3, b4, b5, b6, b7, b8, b10, fun hk => (b11 hk).1⟩, fun e he => ?_⟩
      obtain ⟨b, mu, h1, h2⟩ := hb e he
      rw [ha] at h1
      exact ⟨b, mu, h1, h2⟩
    · rintro a d o _ ⟨r, ⟨_, _, r3, _, b, mu, hb, hmu⟩, rfl⟩ ho e he
      refine ⟨b, mu, ?_, ?_⟩
      · exact hb
      · rw [ho.2.2.2.2.2.2.2.2.2.2.1]
        simp only [withRow, he, Option.bind_some]
        rw [hmu]
        simp only [toRow, he, Option.getD_some]

/-- **C122**: with clustering parameters, the column `cluster` holds the labels of a clustering of the hits written. -/
theorem event_clusters {c : Cfg} (hb : Sized c.builder) {s1s s2s : List Peak} {ev : Int} {ts : ℚ} {out : Written} {f1 f2 : List Bool} (ha : Accepted c s1s s2s f1 f2)
    (hv : ∀ x ∈ selectedS2s f2 s2s, ValidPeak x.1) (hn : s2s.length ≤ 65536) {p : ClusterPars} (hp : c.clustering = some p)
    (h : sophroniaEvent c s1s s2s ev ts = .ok out) (hval : out.validHits = some true) :
    ∃ labels : List Int, out.hits.map OutHit.cluster = labels.map some ∧
      Clusters.Spec.IsClustering p.minSamples p.scaleXY p.scaleZ (out.hits.map point) fun i => labels.getD i 0 := by
  obtain ⟨rows, _, hf, _, h2, h3⟩ := event_stages hb ha hv hn h
  rcases h3 with ⟨h3, _⟩ | ⟨h3, mid, g1, g2, g3, g4, g5⟩
  · rw [hval] at h2; simp [h3] at h2
  obtain ⟨_, labels, hl, ho, hcl⟩ := (cluster_rel g4 g3 g2).2 p hp
  have e1 : out.hits.map OutHit.cluster = labels.map some ∧ out.hits.map point = mid.map point := by
    rw [ho]
    clear ho hcl g1 g2 g3 g4
    induction mid generalizing labels with
    | nil => cases labels with
      | nil => exact ⟨rfl, rfl⟩
      | cons l labels => cases hl
    | cons a mid ih =>
      cases labels with
      | nil => cases hl
      | cons l labels =>
        obtain ⟨i1, i2⟩ := ih labels (by simpa using hl)
        simp only [List.zipWith_cons_cons, List.map_cons, i1, i2]
        exact ⟨rfl, rfl⟩
  refine ⟨labels, e1.1, ?_⟩
  rw [e1.2]
  exact hcl

theorem selected_eq (f2 : List Bool) (s2s : List Peak) : KrEvent.selected f2 s2s = (selectedS2s f2 s2s).map Prod.fst := by
  rw [KrEvent.selected, selectedS2s, List.map_map]
  have := zipIdx_filter_fst (fun x : Bool × Peak => x.1) (f2.zip s2s) 0
  rw [← this, List.map_map]; rfl

theorem kdst_ok {c : Cfg} {f1 f2 : List Bool} {s1s s2s : List Peak} {ev : Int} {ts : ℚ} {rows : List KrEvent.Row} (h : kdstBranch c f1 f2 s1s s2s ev ts = .ok rows) :
    ∃ kr, KrEvent.build c.kr f1 f2 s1s s2s ev ts = .ok kr ∧ KrEvent.store kr = (rows, none) := by
  rw [kdstBranch] at h
  split at h
  · cases h
  · rename_i kr hk
    refine ⟨kr, hk, ?_⟩
    split at h
    · cases h
    · rename_i hs
      cases h
      exact hs

theorem reco_unique {b : KrEvent.Builder} {p : Peak} {r r' : Option KrEvent.Cluster} (h : KrEvent.IsReco b p r) (h' : KrEvent.IsReco b p r') : r = r' := by
  cases h with
  | found a1 a2 a3 =>
    cases h' with
    | found b1 b2 b3 =>
      rw [a1] at b1; cases b1
      rw [a2] at b2; cases b2
      rw [a3] at b3; cases b3
      rfl
    | failed b1 b2 b3 b4 =>
      rw [a1] at b1; cases b1
      rw [a2] at b2; cases b2
      rw [a3] at b3; cases b3
  | failed a1 a2 a3 a4 =>
    cases h' with
    | found b1 b2 b3 =>
      rw [a1] at b1; cases b1
      rw [a2] at b2; cases b2
      rw [a3] at b3; cases b3
    | failed b1 b2 b3 b4 => rfl

/-- **C122**: an event that is processed has a selected S2, and all of them are reconstructed; its point-like event is a row for each pair of a selected S1 and a selected S2 (for each S2 if no S1 is
selected), with the quantities of its peaks. -/
theorem event_kdst {c : Cfg} {s1s s2s : List Peak} {ev : Int} {ts : ℚ} {out : Written} {f1 f2 : List Bool} (ha : Accepted c s1s s2s f1 f2)
    (hf1 : s1s.length ≤ 65535) (hf2 : s2s.length ≤ 65535) (hns : ∀ xys qs cs, c.kr.reco xys qs = .ok cs → ∀ k ∈ cs, 0 ≤ k.nsipm ∧ k.nsipm ≤ 65535)
    (h : sophroniaEvent c s1s s2s ev ts = .ok out) :
    KrEvent.selected f2 s2s ≠ [] ∧ (∀ p ∈ KrEvent.selected f2 s2s, ∃ k, KrEvent.IsReco c.kr p (some k)) ∧
    out.kdst.length = max (KrEvent.selected f1 s1s).length 1 * (KrEvent.selected f2 s2s).length ∧
    ∀ (j : Nat) p2, (KrEvent.selected f2 s2s)[j]? = some p2 →
      (KrEvent.selected f1 s1s = [] → ∃ r k, out.kdst[j]? = some r ∧ r.event = ev ∧ r.s1Peak = 65535 ∧ r.s2Peak = j ∧ KrEvent.IsReco c.kr p2 (some k) ∧
        KrEvent.S2Values c.kr p2 (some k) r.s2 r.nsipm) ∧
      ∀ (i : Nat) p1, (KrEvent.selected f1 s1s)[i]? = some p1 → ∃ r k, out.kdst[i * (KrEvent.selected f2 s2s).length + j]? = some r ∧ r.event = ev ∧ r.s1Peak = i ∧ r.s2Peak = j ∧
        KrEvent.S1Values p1 r.s1 ∧ KrEvent.IsReco c.kr p2 (some k) ∧ KrEvent.S2Values c.kr p2 (some k) r.s2 r.nsipm ∧ KrEvent.PairValues c.kr p1 p2 (some k) r.dt r.z := by
  obtain ⟨_, hk, _⟩ := event_ok ha h
  obtain ⟨kr, k1, k2⟩ := kdst_ok hk
  have hl : ∀ (f : List Bool) (ps : List Peak), (KrEvent.selected f ps).length ≤ ps.length := by
    intro f ps
    rw [KrEvent.selected, List.length_map]
    refine (List.length_filter_le _ _).trans ?_
    rw [List.length_zip]; omega
  obtain ⟨b1, b2, b3, b4, b5, b6, b7⟩ := KrEvent.build_spec k1
  have hfit : KrEvent.Fits kr := ⟨by rw [b3]; exact (hl f1 s1s).trans hf1, by rw [b4]; exact (hl f2 s2s).trans hf2⟩
  have hne : KrEvent.selected f2 s2s ≠ [] := by
    intro h0
    have := KrEvent.store_no_s2 b5 hfit (by rw [b4, h0]; rfl)
    rw [k2] at this
    cases congrArg Prod.snd this
  have hreco : ∀ p ∈ KrEvent.selected f2 s2s, ∃ k, KrEvent.IsReco c.kr p (some k) := by
    intro p hp
    obtain ⟨j, hj⟩ := List.mem_iff_getElem?.1 hp
    obtain ⟨reco, v, n, r1, r2, _, r4, _⟩ := b7 j p hj
    cases reco with
    | some k => exact ⟨k, r1⟩
    | none =>
      have hn := r2.2.2.2.2.2.2
      rw [hn] at r4
      obtain ⟨rows, hs, _⟩ := KrEvent.store_failed_reco b5 hfit r4
      rw [k2] at hs
      cases congrArg Prod.snd hs
  have hreco' : ∀ p ∈ KrEvent.selected f2 s2s, ∀ r, KrEvent.IsReco c.kr p r → ∃ k, r = some k ∧ 0 ≤ k.nsipm ∧ k.nsipm ≤ 65535 := by
    intro p hp r hr
    obtain ⟨k, hk⟩ := hreco p hp
    refine ⟨k, reco_unique hr hk, ?_⟩
    cases hk with
    | found _ _ a3 => exact hns _ _ _ a3 k List.mem_cons_self
  obtain ⟨rows, s1, s2, s3⟩ := KrEvent.build_store_partial k1 hne ((hl f1 s1s).trans hf1) ((hl f2 s2s).trans hf2) hreco'
  rw [k2] at s1
  cases s1
  refine ⟨hne, hreco, s2, fun j p2 hj => ⟨fun h0 => ?_, (s3 j p2 hj).2⟩⟩
  obtain ⟨r, k, t1, t2, t3, t4, _, _, _, t8, t9⟩ := (s3 j p2 hj).1 h0
  exact ⟨r, k, t1, t2, t3, t4, t8, t9⟩

/-- **C122 (finding)**: an event accepted without any selected S2 is not processed. -/
theorem no_s2_fails {c : Cfg} {s1s s2s : List Peak} {ev : Int} {ts : ℚ} {f1 f2 : List Bool} (ha : Accepted c s1s s2s f1 f2) (hf1 : s1s.length ≤ 65535) (hf2 : s2s.length ≤ 65535)
    (h : ∀ x ∈ f2, x = false) (out : Written) : sophroniaEvent c s1s s2s ev ts ≠ .ok out := by
  intro ho
  obtain ⟨_, hk, _⟩ := event_ok ha ho
  obtain ⟨kr, k1, k2⟩ := kdst_ok hk
  obtain ⟨b1, b2, b3, b4, b5, _⟩ := KrEvent.build_spec k1
  have hl : ∀ (f : List Bool) (ps : List Peak), (KrEvent.selected f ps).length ≤ ps.length := by
    intro f ps
    rw [KrEvent.selected, List.length_map]
    refine (List.length_filter_le _ _).trans ?_
    rw [List.length_zip]; omega
  have h0 : KrEvent.selected f2 s2s = [] := by
    rw [KrEvent.selected, List.map_eq_nil_iff, List.filter_eq_nil_iff]
    intro x hx
    rw [h _ (List.of_mem_zip hx).1]
    simp
  have := KrEvent.store_no_s2 b5 ⟨by rw [b3]; exact (hl f1 s1s).trans hf1, by rw [b4]; exact (hl f2 s2s).trans hf2⟩ (by rw [b4, h0]; rfl)
  rw [k2] at this
  cases congrArg Prod.snd this

/-- **C122 (finding)**: with temporal corrections, no event with hits of some charge is processed. -/
theorem temporal_fails {c : Cfg} (hb : Sized c.builder) {s1s s2s : List Peak} {ev : Int} {ts : ℚ} {f1 f2 : List Bool} (ha : Accepted c s1s s2s f1 f2)
    (hv : ∀ x ∈ selectedS2s f2 s2s, ValidPeak x.1) (hn : s2s.length ≤ 65536) {k : Corr} (hk : c.corrections = some k) (ht : k.applyTemp = true) (out : Written)
    (h : sophroniaEvent c s1s s2s ev ts = .ok out) : out.validHits = some false ∧ out.hits = [] := by
  obtain ⟨rows, _, hf, _, h2, h3⟩ := event_stages hb ha hv hn h
  rcases h3 with ⟨h3, h4⟩ | ⟨h3, mid, g1, g2, g3, g4, g5⟩
  · exact ⟨by rw [h2, h3]; rfl, h4⟩
  · exfalso
    rw [hk] at g1
    simp only [correct] at g1
    obtain ⟨e, he, _⟩ := KrApply.temporal_correction_fails k.pick k.keV k.mev k.krmap k.dvs k.method k.xy k.applyZ ((merge c.samePeak rows).map toRow)
    rw [ht, he] at g1
    cases g1

/-- **C122**: the call of the city rebins as configured: every `rebin` slices, or until the threshold `rebin`. -/
theorem rebin_in_city (p : Peak) (n : Nat) (x : ℚ) :
    rebinInSophronia (.number n) (.method false) p = rebinPeak p (.stride n) ∧ rebinInSophronia (.number x) (.method true) p = rebinPeak p (.threshold x) := by
  refine ⟨?_, rfl⟩
  simp only [rebinInSophronia, rebinInBuilder, rebinPeakArgs]
  by_cases h : (n : ℚ) ≤ 1
  · rw [if_pos h, rebinPeak, if_pos (by exact_mod_cast h)]
  · rw [if_neg h, if_pos (by simp)]
    simp

/-- **C122 (finding)**: the two parameters are exchanged in the builder of hits: called with the names that its documentation gives them it always raises. -/
theorem rebin_names_exchanged (p : Peak) (threshold : Bool) (x : ℚ) : rebinInBuilder (.method threshold) (.number x) p = .error .typeError := rfl

/-! ### The events that are processed -/

theorem addS1s_ok : ∀ (l : List (Bool × Peak)) (ev : KrEvent.KrEvent), (∀ x ∈ l, x.1 = true → Filters.Built x.2) → ∃ ev', KrEvent.addS1s ev l = .ok ev'
  | [], ev, _ => ⟨ev, rfl⟩
  | (passed, p) :: rest, ev, h => by
    have h' : ∀ x ∈ rest, x.1 = true → Filters.Built x.2 := fun x hx => h x (List.mem_cons_of_mem _ hx)
    rw [KrEvent.addS1s]
    cases passed with
    | false => simpa using addS1s_ok rest ev h'
    | true =>
      obtain ⟨_, i, ht, t, h1, h2, _⟩ := total_energy_height p (h _ List.mem_cons_self rfl)
      simp only [Bool.not_true, Bool.false_eq_true, if_false, KrEvent.addS1, h1, h2]
      exact addS1s_ok rest _ h'

/-- A selected S2 that the city can process. -/
structure GoodEventS2 (c : Cfg) (p : Peak) : Prop where
  built : Filters.Built p
  good : GoodS2 c.builder p
  reco : ∀ xys, KrEvent.positions c.kr.xys p.sipms = .ok xys → ∃ k ks, c.kr.reco xys p.sipms.sumOverTimes = .ok (k :: ks) ∧ 0 ≤ k.nsipm ∧ k.nsipm ≤ 65535

theorem addS2_ok {c : Cfg} (hc : c.kr.charges = rawPoint) {p : Peak} (h : GoodEventS2 c p) (ev : KrEvent.KrEvent) : ∃ ev', KrEvent.addS2 c.kr ev p = .ok ev' := by
  obtain ⟨_, i, ht, t, h1, h2, _⟩ := total_energy_height p h.built
  have hne : p.sipms ≠ Responses.empty := fun h0 => h.good.sipms (by rw [h0]; rfl)
  obtain ⟨xys, hx, _⟩ := npTake_ok c.kr.xys p.sipms.ids h.good.inDb
  have hpos : KrEvent.positions c.kr.xys p.sipms = .ok xys := by rw [KrEvent.positions, if_neg hne]; exact hx
  obtain ⟨k, ks, hk, _⟩ := h.reco xys hpos
  obtain ⟨s1, s2, s3, s4⟩ := h.good.valid.sipm.resolve_left hne
  have hq : ∃ x xs, p.sipms.sumOverTimes = x :: xs := by
    apply List.exists_cons_of_ne_nil
    rw [Responses.sumOverTimes, Mat.sumTimes, Ne, List.map_eq_nil_iff]
    intro h0
    rw [h0] at s3
    exact s4 (List.length_eq_zero_iff.1 s3)
  obtain ⟨x, xs, hq⟩ := hq
  rw [hq] at hk
  simp only [KrEvent.addS2, h1, h2, hpos, hc, rawPoint, hq, KrEvent.recoS2, hk, KrEvent.pyMax, bind, Except.bind]
  exact ⟨_, rfl⟩

theorem addS2s_ok {c : Cfg} (hc : c.kr.charges = rawPoint) : ∀ (l : List (Bool × Peak)) (ev : KrEvent.KrEvent), (∀ x ∈ l, x.1 = true → GoodEventS2 c x.2) →
    ∃ ev', KrEvent.addS2s c.kr ev l = .ok ev'
  | [], ev, _ => ⟨ev, rfl⟩
  | (passed, p) :: rest, ev, h => by
    have h' : ∀ x ∈ rest, x.1 = true → GoodEventS2 c x.2 := fun x hx => h x (List.mem_cons_of_mem _ hx)
    rw [KrEvent.addS2s]
    cases passed with
    | false => simpa using addS2s_ok hc rest ev h'
    | true =>
      obtain ⟨ev', h1⟩ := addS2_ok hc (h _ List.mem_cons_self rfl) ev
      simp only [Bool.not_true, Bool.false_eq_true, if_false, h1]
      exact addS2s_ok hc rest ev' h'

theorem mem_selected {f : List Bool} {ps : List Peak} {x : Bool × Peak} (h : x ∈ f.zip ps) (h1 : x.1 = true) : x.2 ∈ KrEvent.selected f ps :=
  List.mem_map.2 ⟨x, List.mem_filter.2 ⟨h, h1⟩, rfl⟩

theorem whereIdx_cons_of {f : List Bool} {i : Nat} {l : List Nat} (h : whereIdx id f = i :: l) : f[i]? = some true :=
  (whereIdx_first h).1

theorem s1Time_ok {f1 f2 : List Bool} {s1s s2s : List Peak} (h1 : f1.length = s1s.length) (hb : ∀ p ∈ s1s, Filters.Built p) (h2 : ∀ x ∈ selectedS2s f2 s2s, ValidPeak x.1)
    (hl : f2.length = s2s.length) (hne : selectedS2s f2 s2s ≠ []) : ∃ t, s1Time f1 f2 s1s s2s = .ok t := by
  rw [s1Time]
  cases hw : whereIdx id f1 with
  | cons i l =>
    have hi := whereIdx_cons_of hw
    have hi' : i < s1s.length := by rw [← h1]; exact (List.getElem?_eq_some_iff.1 hi).1
    dsimp only
    rw [List.getElem?_eq_getElem hi']
    obtain ⟨_, _, _, t, _, ht, _⟩ := total_energy_height _ (hb _ (List.getElem_mem hi'))
    exact ⟨t, ht⟩
  | nil =>
    cases hw2 : whereIdx id f2 with
    | nil =>
      exfalso
      have hall := whereIdx_none hw2
      apply hne
      rw [selectedS2s, List.map_eq_nil_iff, List.filter_eq_nil_iff]
      intro x hx
      have := hall _ (List.of_mem_zip (PMapsIO.fst_mem_of_zipIdx hx)).1
      rw [this]; simp
    | cons j l =>
      have hj := whereIdx_cons_of hw2
      have hj' : j < s2s.length := by rw [← hl]; exact (List.getElem?_eq_some_iff.1 hj).1
      dsimp only
      rw [List.getElem?_eq_getElem hj']
      have hm : (s2s[j], j) ∈ selectedS2s f2 s2s := by
        refine List.mem_map.2 ⟨((true, s2s[j]), j), List.mem_filter.2 ⟨?_, rfl⟩, rfl⟩
        exact List.mem_zipIdx_iff_getElem?.2 (List.getElem?_zip_eq_some.2 ⟨hj, List.getElem?_eq_getElem hj'⟩)
      obtain ⟨t, ts, hts⟩ := List.exists_cons_of_ne_nil (h2 _ hm).nonempty
      dsimp only at hts ⊢
      rw [hts]
      exact ⟨t, rfl⟩

theorem recoOk_of {c : Cfg} (h : ∀ xys qs, (∃ k ks, c.kr.reco xys qs = .ok (k :: ks)) ∨ ∃ e, c.kr.reco xys qs = .error e ∧ KrEvent.RecoFailure e) : RecoOk c.builder := by
  intro xys qs
  rcases h xys qs with ⟨k, ks, hk⟩ | ⟨e, he, hf⟩
  · exact .inl ⟨(k.x, k.y), ks.map fun k => (k.x, k.y), by simp [Cfg.builder, hk]⟩
  · exact .inr ⟨e, by simp [Cfg.builder, he], hf⟩

/-- **C122**: an event whose selected S2s are reconstructed is always processed, if the map and the parameters of the clusters can be used. -/
theorem event_ends {c : Cfg} (hraw : c.kr.charges = rawPoint ∧ c.slices = rawSlices) {s1s s2s : List Peak} (ev : Int) (ts : ℚ) {f1 f2 : List Bool} (ha : Accepted c s1s s2s f1 f2)
    (hl : f1.length = s1s.length ∧ f2.length = s2s.length) (hn : s1s.length ≤ 65535 ∧ s2s.length ≤ 65535) (hb : ∀ p ∈ s1s, Filters.Built p)
    (hs : KrEvent.selected f2 s2s ≠ []) (hg : ∀ p ∈ KrEvent.selected f2 s2s, GoodEventS2 c p)
    (hr : ∀ xys qs, (∃ k ks, c.kr.reco xys qs = .ok (k :: ks)) ∨ ∃ e, c.kr.reco xys qs = .error e ∧ KrEvent.RecoFailure e)
    (hk : ∀ k, c.corrections = some k → MapOk k) (hp : ∀ p, c.clustering = some p → 1 ≤ p.minSamples ∧ p.scaleXY ≠ 0 ∧ p.scaleZ ≠ 0) :
    ∃ out, sophroniaEvent c s1s s2s ev ts = .ok out := by
  have hg' : ∀ x ∈ selectedS2s f2 s2s, GoodEventS2 c x.1 := fun x hx => hg _ (by rw [selected_eq]; exact List.mem_map_of_mem hx)
  have hs' : selectedS2s f2 s2s ≠ [] := fun h0 => hs (by rw [selected_eq, h0]; rfl)
  -- the point-like event
  have hk1 : ∃ rows, kdstBranch c f1 f2 s1s s2s ev ts = .ok rows := by
    obtain ⟨e1, h1⟩ := addS1s_ok (f1.zip s1s) (KrEvent.KrEvent.new ev (ts * (1 / 1000))) fun x hx _ => hb _ (List.of_mem_zip hx).2
    obtain ⟨e2, h2⟩ := addS2s_ok hraw.1 (f2.zip s2s) e1 fun x hx h => hg _ (mem_selected hx h)
    have hbu : KrEvent.build c.kr f1 f2 s1s s2s ev ts = .ok e2 := by rw [KrEvent.build, h1]; exact h2
    have hll : ∀ (f : List Bool) (ps : List Peak), (KrEvent.selected f ps).length ≤ ps.length := by
      intro f ps
      rw [KrEvent.selected, List.length_map]
      refine (List.length_filter_le _ _).trans ?_
      rw [List.length_zip]; omega
    obtain ⟨rows, hst, _⟩ := KrEvent.build_store_partial hbu hs ((hll f1 s1s).trans hn.1) ((hll f2 s2s).trans hn.2) (by
      intro p hpm r hrr
      cases hrr with
      | @found xys qs k ks a1 a2 a3 =>
        obtain ⟨k', ks', h3, h4⟩ := (hg p hpm).reco xys a1
        rw [hraw.1] at a2
        cases a2
        rw [h3] at a3
        cases a3
        exact ⟨_, rfl, h4⟩
      | @failed xys qs e a1 a2 a3 a4 =>
        obtain ⟨k', ks', h3, h4⟩ := (hg p hpm).reco xys a1
        rw [hraw.1] at a2
        cases a2
        rw [h3] at a3
        cases a3)
    exact ⟨rows, by rw [kdstBranch, hbu]; simp only [hst]⟩
  obtain ⟨kdst, hk1⟩ := hk1
  -- the hits
  have hh : ∃ v hits, hitsBranch c f1 f2 s1s s2s ev ts = .ok (v, hits) := by
    obtain ⟨t, ht⟩ := s1Time_ok hl.1 hb (fun x hx => (hg' x hx).good.valid) hl.2 hs'
    obtain ⟨rows, hbd⟩ := build_succeeds (b := c.builder) hraw.1 hraw.2 (recoOk_of hr) (event := ev) (ts := ts) ht hs' fun x hx => (hg' x hx).good
    have hf : Found c f1 f2 s1s s2s ev ts rows := build_spec (sized_raw hraw.2) (fun x hx => (hg' x hx).good.valid) (by omega) hbd
    rw [hitsBranch, hbd]
    dsimp only
    by_cases h0 : countValid rows = 0
    · exact ⟨false, [], by rw [if_pos h0]⟩
    · rw [if_neg h0]
      have hc : ∃ mid, correct c.corrections (merge c.samePeak rows) = .ok mid := by
        cases hcc : c.corrections with
        | none => exact ⟨_, rfl⟩
        | some k =>
          have hm := hk k hcc
          obtain ⟨n, hn1, hn0⟩ := hm.norm
          obtain ⟨crows, k1, _⟩ := KrApply.corrected_hits hm.nearest k.keV k.mev k.krmap k.dvs k.method k.xy k.applyZ n hn1 hn0 hm.bins hm.mev ((merge c.samePeak rows).map toRow)
          simp only [correct]
          rw [hm.noTemp, k1]
          exact ⟨_, rfl⟩
      obtain ⟨mid, hc⟩ := hc
      rw [hc]
      dsimp only
      have hcl : ∃ hits, cluster c.clustering mid = .ok hits := by
        cases hcc : c.clustering with
        | none => exact ⟨_, rfl⟩
        | some p =>
          obtain ⟨p1, p2, p3⟩ := hp p hcc
          obtain ⟨crows, g1, _⟩ := Clusters.tagger_events p.minSamples p.scaleXY p.scaleZ (mid.map toCluster) p1 p2 p3
          simp only [cluster]
          rw [g1]
          exact ⟨_, rfl⟩
      obtain ⟨hits, hcl⟩ := hcl
      rw [hcl]
      exact ⟨true, hits, rfl⟩
  obtain ⟨v, hits, hh⟩ := hh
  refine ⟨⟨true, kdst, some v, hits⟩, ?_⟩
  rw [sophroniaEvent, show Filters.pmapFilter c.selector s1s s2s = .ok ⟨true, f1, f2⟩ from ha]
  simp only [Bool.not_true, Bool.false_eq_true, if_false, hk1, hh]

/-! ### A concrete case -/

/-- A selector with the same range of every quantity: none, or any. -/
def exSel (lo hi : ℚ) : Filters.Selector := ⟨⟨0, 10⟩, ⟨0, hi⟩, ⟨0, hi⟩, ⟨0, hi⟩, 0, ⟨lo, 10⟩, ⟨0, hi⟩, ⟨0, hi⟩, ⟨0, hi⟩, ⟨0, 10⟩, 0⟩
def exReco (xys : List (ℚ × ℚ)) (qs : List ℚ) : Except PyErr (List KrEvent.Cluster) :=
  match xys with
  | [] => .error (.other "SipmEmptyList")
  | c :: _ => .ok [⟨2, qs.sum, c.1, c.2, 0, 0, 0, 0⟩]
def exKr : KrEvent.Builder := ⟨1, [(0, 0), (10, 0), (20, 0)], rawPoint, exReco, fun _ => 1⟩
def exCorr (temp : Bool) : Corr := ⟨KrApply.firstNearest, 1/1000, 1, [⟨0, 5, 0, 0, some 100⟩, ⟨1, 15, 10, 0, some 50⟩], [2, 3, 1], temp, .maximum, none, true⟩
def exCfg (same : Bool) (k : Option Corr) (p : Option ClusterPars) : Cfg := ⟨exSel 1 1000000, exKr, .stride 2, 5, rawSlices, same, k, p⟩
/-- An S2 whose SiPMs see little light. -/
def exDim : Peak := ⟨[10, 20, 30], [10, 10, 10], ⟨[0, 1], ⟨[[1, 2, 4], [3, 4, 5]], 3⟩⟩, ⟨[0, 2], ⟨[[1, 1, 1], [1, 0, 1]], 3⟩⟩⟩

theorem exS1_built : Filters.Built exS1 := by simp [Filters.Built, LengthsMatch, exS1, Responses.empty]
theorem exS2_valid : ValidPeak exS2 := ⟨by simp [exS2], rfl, by simp [exS2, Mat.WF], rfl, rfl, Or.inr ⟨by simp [exS2, Mat.WF], rfl, rfl, by simp [exS2]⟩⟩
theorem exDim_valid : ValidPeak exDim := ⟨by simp [exDim], rfl, by simp [exDim, Mat.WF], rfl, rfl, Or.inr ⟨by simp [exDim, Mat.WF], rfl, rfl, by simp [exDim]⟩⟩
theorem ex_selected : selectedS2s [true, true] [exS2, exDim] = [(exS2, 0), (exDim, 1)] := by decide +kernel
/-- The hypotheses of the theorems hold for an event with an S1, an S2 with hits and an S2 without. -/
example : ∀ (same : Bool) (k : Option Corr) (p : Option ClusterPars), Accepted (exCfg same k p) [exS1] [exS2, exDim] [true] [true, true] ∧ Sized (exCfg same k p).builder := by
  intro same k p
  refine ⟨?_, sized_raw rfl⟩
  unfold Accepted
  have h : Filters.pmapFilter (exSel 1 1000000) [exS1] [exS2, exDim] = .ok ⟨true, [true], [true, true]⟩ := by decide +kernel
  exact h
example : ∀ x ∈ selectedS2s [true, true] [exS2, exDim], ValidPeak x.1 ∧ Bright (.stride 2) x.1 := by
  rw [ex_selected]
  have hb : ∀ p ∈ [exS2, exDim], Bright (.stride 2) p := by
    intro p hp q hq
    have hall : ∀ p ∈ [exS2, exDim], ((rebinPeak p (.stride 2)).toOption.map fun q => q.pmts.sumOverSensors.all fun e => decide (0 < e)) = some true := by decide +kernel
    have := hall p hp
    rw [hq] at this
    simpa [Except.toOption] using this
  intro x hx
  rcases List.mem_cons.1 hx with rfl | hx
  · exact ⟨exS2_valid, hb _ List.mem_cons_self⟩
  · cases List.mem_singleton.1 hx
    exact ⟨exDim_valid, hb _ (List.mem_cons_of_mem _ List.mem_cons_self)⟩
example : MapOk (exCorr false) := ⟨KrApply.firstNearest_spec, rfl, ⟨100, by decide +kernel, by norm_num⟩, by decide +kernel, by decide +kernel⟩
example : ∀ p ∈ [exS2, exDim], GoodEventS2 (exCfg true none none) p := by
  have h : ∀ xys qs, xys ≠ [] → ∃ k ks, exReco xys qs = .ok (k :: ks) ∧ 0 ≤ k.nsipm ∧ k.nsipm ≤ 65535 := by
    intro xys qs hx
    obtain ⟨c, l, rfl⟩ := List.exists_cons_of_ne_nil hx
    exact ⟨_, _, rfl, by norm_num, by norm_num⟩
  intro p hp
  have hp' : p = exS2 ∨ p = exDim := by simpa using hp
  rcases hp' with rfl | rfl
  · refine ⟨by simp [Filters.Built, LengthsMatch, exS2], ⟨exS2_valid, by simp [exS2], by simp [exS2, exCfg, exKr, Cfg.builder]⟩, ?_⟩
    intro xys hx
    have h0 : KrEvent.positions exKr.xys exS2.sipms = .ok [(0, 0), (20, 0)] := by decide +kernel
    cases h0.symm.trans hx
    exact h [(0, 0), (20, 0)] _ (List.cons_ne_nil _ _)
  · refine ⟨by simp [Filters.Built, LengthsMatch, exDim], ⟨exDim_valid, by simp [exDim], by simp [exDim, exCfg, exKr, Cfg.builder]⟩, ?_⟩
    intro xys hx
    have h0 : KrEvent.positions exKr.xys exDim.sipms = .ok [(0, 0), (20, 0)] := by decide +kernel
    cases h0.symm.trans hx
    exact h [(0, 0), (20, 0)] _ (List.cons_ne_nil _ _)
example : ((sophroniaEvent (exCfg false (some (exCorr false)) (some ⟨1, 15, 15⟩)) [exS1] [exS2, exDim] 7 3000).toOption.map fun o =>
    (o.passed, o.kdst.length, o.validHits)) = some (true, 2, some true) := by decide +kernel
example : ((sophroniaEvent (exCfg false (some (exCorr false)) (some ⟨1, 15, 15⟩)) [exS1] [exS2, exDim] 7 3000).toOption.map fun o =>
    o.hits.map fun h => (h.npeak, h.x, h.z, h.q)) = some [(0, 0, 28, 6), (0, 20, 28, 10)] := by decide +kernel
example : ((sophroniaEvent (exCfg false (some (exCorr false)) (some ⟨1, 15, 15⟩)) [exS1] [exS2, exDim] 7 3000).toOption.map fun o => o.hits.map fun h => (h.e, h.ec, h.cluster)) =
    some [(some (2053641430080946197 / 144115188075855874), some (some (1706576028397266289707 / 288230376151711748000000)), some 0),
      (some (3422735716801576995 / 144115188075855874), some (some (568858676132422096569 / 28823037615171174800000)), some 0)] := by decide +kernel
/-- An event whose S2s have no hit of charge. -/
example : ((sophroniaEvent (exCfg true (some (exCorr true)) none) [exS1] [exDim] 7 3000).toOption.map fun o => (o.passed, o.validHits, o.hits.length)) = some (true, some false, 0) := by
  decide +kernel
/-- A rejected event. -/
example : Filters.pmapFilter (exSel 1 1000000) [exS1] [] = .ok ⟨false, [true], []⟩ := by decide +kernel
/-- An event accepted without S2s. -/
example : Filters.pmapFilter (exSel 0 1000000) [exS1] [] = .ok ⟨true, [true], []⟩ := by decide +kernel
/-- **C122 (finding)**: if NN hits are merged in the same peak, the energy of an S2 without hits of charge is lost: here 19 of 38. -/
theorem dim_peak_lost : ((sophroniaEvent (exCfg true none none) [exS1] [exS2, exDim] 7 3000).toOption.map fun o => (decide (energy o.hits ≤ 19), pmtEnergy exS2 + pmtEnergy exDim)) =
    some (true, 38) := by decide +kernel

end Verif.Sophronia
