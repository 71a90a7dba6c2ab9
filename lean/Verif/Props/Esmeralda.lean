import Verif.Spec.Esmeralda
import Verif.Props.Hits
import Verif.Props.KrApply
import Verif.Props.PaolinaPaths
import Verif.Props.Sources
/-!
# C121: the events of esmeralda
-/
namespace Verif.Hits

/-- What thresholding does not change. -/
def idn (h : Hit) : Nat × Nat × ℚ × ℚ × ℚ × ℚ := (h.info, h.npeak, h.x, h.y, h.z, h.q)

theorem sameHit_idn {a b : Hit} (h : SameHit a b) : idn a = idn b := by
  obtain ⟨h1, h2, h3, h4, h5, h6, _⟩ := h
  unfold idn; rw [h1, h2, h3, h4, h5, h6]

theorem forall₂_idn {as bs : List Hit} (h : List.Forall₂ SameHit as bs) : as.map idn = bs.map idn := by
  induction h with
  | nil => rfl
  | cons h _ ih => rw [List.map_cons, List.map_cons, ih, sameHit_idn h]

theorem NN_neg : NN < 0 := by unfold NN; norm_num

theorem notNN_of_le {th : ℚ} (ht : 0 < th) {h : Hit} (hq : th ≤ h.q) : h.isNN = false := by
  unfold Hit.isNN
  rw [beq_eq_false_iff_ne]
  intro hc
  have := NN_neg
  rw [hc] at hq; linarith

theorem slice_real {th : ℚ} (ht : 0 < th) {slice out : List Hit} (h : SliceResult th slice out) :
    (out.filter fun h => !h.isNN).map idn = (slice.filter fun h => decide (th ≤ h.q)).map idn := by
  by_cases hs : ∃ h ∈ slice, th ≤ h.q
  · have hf := h.kept hs
    rw [forall₂_idn hf]
    congr 1
    rw [List.filter_eq_self]
    intro k hk
    have : idn k ∈ (slice.filter fun h => decide (th ≤ h.q)).map idn := by rw [forall₂_idn hf]; exact List.mem_map.2 ⟨k, hk, rfl⟩
    obtain ⟨g, hg, hge⟩ := List.mem_map.1 this
    have h1 : th ≤ g.q := by simpa using (List.mem_filter.1 hg).2
    have h2 : g.q = k.q := by have := congrArg (fun t => t.2.2.2.2.2) hge; exact this
    rw [notNN_of_le ht (h2 ▸ h1)]; rfl
  · push Not at hs
    obtain ⟨k, hk, hn, _⟩ := h.nn hs
    have e : slice.filter (fun h => decide (th ≤ h.q)) = [] := by
      rw [List.filter_eq_nil_iff]; intro g hg; simpa using hs g hg
    rw [hk, e]
    simp [hn]

theorem flatten_real {th : ℚ} (ht : 0 < th) (L : List Hit) {zs : List ℚ} {outs : List (List Hit)}
    (h : List.Forall₂ (fun z out => SliceResult th (L.filter fun h => decide (h.z = z)) out) zs outs) :
    (outs.flatten.filter fun h => !h.isNN).map idn =
      ((zs.map fun z => (L.filter fun h => decide (th ≤ h.q)).filter fun h => h.z == z).flatten).map idn := by
  induction h with
  | nil => rfl
  | cons h _ ih =>
    rw [List.flatten_cons, List.filter_append, List.map_append, ih, List.map_cons, List.flatten_cons, List.map_append, slice_real ht h]
    congr 2
    rw [List.filter_filter, List.filter_filter]
    apply List.filter_congr
    intro g _
    rw [Bool.and_comm]
    congr 1

/-- The hits left by the threshold are those that reach it, once each. -/
theorem thresholder_hits {th : ℚ} (ht : 0 < th) (sp : Bool) (L : List Hit) :
    ∃ out, hitsThresholder th sp L = .ok out ∧ (out.map idn).Perm ((L.filter fun h => decide (th ≤ h.q)).map idn) := by
  obtain ⟨zs, outs, h1, h2, h3, h4⟩ := thresholdHits_spec th ht L
  refine ⟨mergeNN sp true outs.flatten, by simp [hitsThresholder, h1], ?_⟩
  have hm := (mergeNN_same_hits sp true outs.flatten).1
  have e : (mergeNN sp true outs.flatten).map idn = (outs.flatten.filter fun h => !h.isNN).map idn :=
    (forall₂_idn (hm.imp fun _ _ h => h.1)).symm
  rw [e, flatten_real ht L h4]
  refine (Sources.perm_groups Hit.z zs _ ?_ ?_).map idn
  · exact h2.imp fun h => ne_of_lt h
  · intro h hh
    exact (h3 _).2 ⟨h, (List.mem_filter.1 hh).1, rfl⟩

/-- The energies of a hit are numbers, not negative, and positive unless it is NN. -/
structure PosE (h : Hit) : Prop where
  e : ∃ v, h.e = some v ∧ 0 ≤ v ∧ (h.isNN = false → 0 < v)
  ec : ∃ v, h.ec = some v ∧ 0 ≤ v ∧ (h.isNN = false → 0 < v)

theorem total_nonneg {col : Hit → Fl} {L : List Hit} (h : ∀ k ∈ L, 0 ≤ (col k).getD 0) : 0 ≤ total col L := by
  unfold total
  apply List.sum_nonneg
  intro x hx
  obtain ⟨k, hk, rfl⟩ := List.mem_map.1 hx
  exact h k hk

theorem applyThreshold_pos {th : ℚ} (ht : 0 < th) {slice out : List Hit} (h : applyThreshold th slice = .ok out)
    (he : ∀ k ∈ slice, 0 ≤ k.e.getD 0 ∧ 0 ≤ k.ec.getD 0) : ∀ k ∈ out, PosE k := by
  have r1 : 0 ≤ nansum (slice.map Hit.e) := by rw [nansum_eq_total]; exact total_nonneg fun k hk => (he k hk).1
  have r2 : 0 ≤ nansum (slice.map Hit.ec) := by rw [nansum_eq_total]; exact total_nonneg fun k hk => (he k hk).2
  have hp := EPSILON_pos
  unfold applyThreshold at h
  dsimp only at h
  split at h
  · cases slice with
    | nil => cases h
    | cons first rest =>
      cases h
      intro k hk
      rw [List.mem_singleton.1 hk]
      have : ∀ h : Hit, h.q = NN → h.isNN = true := fun h hq => by simp [Hit.isNN, hq]
      refine ⟨⟨_, rfl, r1, fun hn => ?_⟩, ⟨_, rfl, r2, fun hn => ?_⟩⟩ <;> · rw [this _ rfl] at hn; cases hn
  · cases h
    intro k hk
    obtain ⟨g, hg, rfl⟩ := List.mem_map.1 hk
    have hq : th ≤ g.q := by simpa using (List.mem_filter.1 hg).2
    have hsum : 0 < ((slice.filter fun h => decide (th ≤ h.q)).map Hit.q).sum + EPSILON := by
      have : 0 ≤ ((slice.filter fun h => decide (th ≤ h.q)).map Hit.q).sum := List.sum_nonneg (by
        intro x hx
        obtain ⟨f, hf, rfl⟩ := List.mem_map.1 hx
        have : th ≤ f.q := by simpa using (List.mem_filter.1 hf).2
        linarith)
      linarith
    have hf : 0 < g.q / (((slice.filter fun h => decide (th ≤ h.q)).map Hit.q).sum + EPSILON) := div_pos (by linarith) hsum
    have p1 : 0 < g.q / (((slice.filter fun h => decide (th ≤ h.q)).map Hit.q).sum + EPSILON) * (nansum (slice.map Hit.e) + EPSILON) := mul_pos hf (by linarith)
    have p2 : 0 < g.q / (((slice.filter fun h => decide (th ≤ h.q)).map Hit.q).sum + EPSILON) * (nansum (slice.map Hit.ec) + EPSILON) := mul_pos hf (by linarith)
    exact ⟨⟨_, rfl, p1.le, fun _ => p1⟩, ⟨_, rfl, p2.le, fun _ => p2⟩⟩

theorem thresholdHits_pos {th : ℚ} (ht : 0 < th) {L mid : List Hit} (h : thresholdHits th L = .ok mid)
    (he : ∀ k ∈ L, 0 ≤ k.e.getD 0 ∧ 0 ≤ k.ec.getD 0) : ∀ k ∈ mid, PosE k := by
  unfold thresholdHits at h
  rw [if_neg (not_le.2 ht)] at h
  split at h
  · cases h
  · rename_i slices hs
    cases h
    rw [mapM_ok_iff] at hs
    intro k hk
    obtain ⟨s, hsm, hks⟩ := List.mem_flatten.1 hk
    obtain ⟨i, hi⟩ := List.mem_iff_getElem?.1 hsm
    obtain ⟨z, hz⟩ : ∃ z, (groupKeys L)[i]? = some z := by
      have hl := hs.length_eq
      have := (List.getElem?_eq_some_iff.1 hi).1
      exact ⟨_, List.getElem?_eq_getElem (by omega)⟩
    have := forall₂_getElem? hs i _ _ hz hi
    exact applyThreshold_pos ht this (fun g hg => he g (List.mem_filter.1 hg).1) k hks

theorem exists_nearest {sp : Bool} {nn : Hit} : ∀ {real : List Hit}, (∃ h ∈ real, Eligible sp nn h) → ∃ h, Nearest sp real nn h := by
  intro real ⟨h0, hm0, he0⟩
  have hne : ((candidates sp real nn).map fun h => |h.z - nn.z|) ≠ [] := by
    apply List.ne_nil_of_mem
    exact List.mem_map.2 ⟨h0, mem_candidates.2 ⟨hm0, he0⟩, rfl⟩
  cases hmin : minDz (candidates sp real nn) nn with
  | none => unfold minDz at hmin; rw [List.min?_eq_none_iff] at hmin; exact absurd hmin hne
  | some m =>
    have hmm := List.min?_eq_some_iff.1 hmin
    obtain ⟨k, hk, hkm⟩ := List.mem_map.1 hmm.1
    obtain ⟨hk1, hk2⟩ := mem_candidates.1 hk
    refine ⟨k, hk1, hk2, fun h' hm' he' => ?_⟩
    have : m ≤ |h'.z - nn.z| := hmm.2 _ (List.mem_map.2 ⟨h', mem_candidates.2 ⟨hm', he'⟩, rfl⟩)
    have h0 := abs_nonneg (h'.z - nn.z)
    rw [hkm]
    have : (0:ℚ) ≤ 1 / 10 ^ 8 + 1 / 10 ^ 5 * |h'.z - nn.z| := by positivity
    linarith

/-- The positive part of a column. -/
structure PosCol (col : Hit → Fl) (mid : List Hit) : Prop where
  val : ∀ k ∈ mid, ∃ v, col k = some v ∧ 0 ≤ v ∧ (k.isNN = false → 0 < v)

theorem nearest_total_pos {col : Hit → Fl} {mid : List Hit} (hp : PosCol col mid) {sp : Bool} {nn h : Hit}
    (hn : Nearest sp (mid.filter fun h => !h.isNN) nn h) :
    0 < total col ((mid.filter fun h => !h.isNN).filter fun h' => decide (Nearest sp (mid.filter fun h => !h.isNN) nn h')) := by
  have hpos : ∀ k ∈ (mid.filter fun h => !h.isNN).filter fun h' => decide (Nearest sp (mid.filter fun h => !h.isNN) nn h'), 0 < (col k).getD 0 := by
    intro k hk
    obtain ⟨h1, h2⟩ := List.mem_filter.1 (List.mem_filter.1 hk).1
    obtain ⟨v, hv, _, hv2⟩ := hp.val k h1
    rw [hv]; exact hv2 (by simpa using h2)
  have hm : h ∈ (mid.filter fun h => !h.isNN).filter fun h' => decide (Nearest sp (mid.filter fun h => !h.isNN) nn h') :=
    List.mem_filter.2 ⟨hn.1, by simpa using hn⟩
  unfold total
  have h1 := List.single_le_sum (l := ((mid.filter fun h => !h.isNN).filter fun h' => decide (Nearest sp (mid.filter fun h => !h.isNN) nn h')).map fun h => (col h).getD 0)
    (by intro x hx; obtain ⟨k, hk, rfl⟩ := List.mem_map.1 hx; exact (hpos k hk).le) _ (List.mem_map.2 ⟨h, hm, rfl⟩)
  exact lt_of_lt_of_le (hpos h hm) h1

theorem received_pos {col : Hit → Fl} {mid : List Hit} (hp : PosCol col mid) {sp : Bool} {nn h : Hit} (hnn : nn ∈ mid) (hm : h ∈ mid) :
    ∃ v, received col sp (mid.filter fun h => !h.isNN) nn h = some v ∧ 0 ≤ v := by
  unfold received
  split
  · rename_i hn
    have ht := nearest_total_pos hp hn
    obtain ⟨a, ha, ha0, _⟩ := hp.val nn hnn
    obtain ⟨b, hb, hb0, _⟩ := hp.val h hm
    rw [ha, hb]
    simp only [Fl.mul, Fl.div]
    rw [if_neg ht.ne']
    exact ⟨_, rfl, div_nonneg (mul_nonneg ha0 hb0) ht.le⟩
  · exact ⟨0, rfl, le_refl _⟩

theorem gain_pos {col : Hit → Fl} {mid : List Hit} (hp : PosCol col mid) {sp : Bool} {h : Hit} (hm : h ∈ mid) :
    ∃ v, gain col sp (mid.filter fun h => !h.isNN) (mid.filter Hit.isNN) h = some v ∧ 0 ≤ v := by
  unfold gain
  have : ∀ (nns : List Hit) (c : ℚ), 0 ≤ c → (∀ n ∈ nns, n ∈ mid) →
      ∃ v, nns.foldl (fun c nn => Fl.add c (received col sp (mid.filter fun h => !h.isNN) nn h)) (some c) = some v ∧ 0 ≤ v := by
    intro nns
    induction nns with
    | nil => intro c hc _; exact ⟨c, rfl, hc⟩
    | cons n nns ih =>
      intro c hc hn
      obtain ⟨v, hv, hv0⟩ := received_pos hp (sp := sp) (hn n List.mem_cons_self) hm
      rw [List.foldl_cons, hv]
      exact ih (c + v) (by linarith) fun k hk => hn k (List.mem_cons_of_mem _ hk)
  exact this _ 0 (le_refl _) fun n hn => (List.mem_filter.1 hn).1

theorem mergeNN_pos {mid : List Hit} (h : ∀ k ∈ mid, PosE k) (sp : Bool) : ∀ k ∈ mergeNN sp true mid, ∃ e ec, k.e = some e ∧ 0 < e ∧ k.ec = some ec ∧ 0 < ec := by
  intro k hk
  rw [mergeNN_formula] at hk
  obtain ⟨g, hg, rfl⟩ := List.mem_map.1 hk
  obtain ⟨g1, g2⟩ := List.mem_filter.1 hg
  have g3 : g.isNN = false := by simpa using g2
  obtain ⟨v1, e1, p1⟩ := gain_pos (col := Hit.e) ⟨fun k hk => (h k hk).e⟩ (sp := sp) g1
  obtain ⟨v2, e2, p2⟩ := gain_pos (col := Hit.ec) ⟨fun k hk => (h k hk).ec⟩ (sp := sp) g1
  obtain ⟨a, ha, _, a2⟩ := (h g g1).e
  obtain ⟨b, hb, _, b2⟩ := (h g g1).ec
  refine ⟨a + v1, b + v2, ?_, by have := a2 g3; linarith, ?_, by have := b2 g3; linarith⟩
  · simp only [e1, ha, Fl.add]
  · simp only [if_true, e2, hb, Fl.add]

/-- Every slice below the threshold has some hit to give its energy to. -/
theorem mergeable_of {th : ℚ} (ht : 0 < th) {sp : Bool} {L mid : List Hit} (h : thresholdHits th L = .ok mid)
    (hrec : ∀ h ∈ L, ∃ k ∈ L, th ≤ k.q ∧ (sp = true → k.npeak = h.npeak)) {col : Hit → Fl} (hp : PosCol col mid) : Mergeable col sp mid := by
  obtain ⟨zs, outs, h1, h2, h3, h4⟩ := thresholdHits_spec th ht L
  rw [h] at h1
  cases h1
  refine ⟨fun k hk => by obtain ⟨v, hv, _⟩ := hp.val k hk; rw [hv]; rfl, ?_⟩
  intro nn hnn hisnn
  obtain ⟨s, hs, hns⟩ := List.mem_flatten.1 hnn
  obtain ⟨i, hi⟩ := List.mem_iff_getElem?.1 hs
  obtain ⟨z, hz⟩ : ∃ z, zs[i]? = some z := by
    have hl := h4.length_eq
    have := (List.getElem?_eq_some_iff.1 hi).1
    exact ⟨_, List.getElem?_eq_getElem (by omega)⟩
  have hr := forall₂_getElem? h4 i _ _ hz hi
  -- the peak of the NN hit is that of some hit
  obtain ⟨g, hg, hgp⟩ : ∃ g ∈ L, nn.npeak = g.npeak := by
    by_cases hsv : ∃ k ∈ L.filter (fun h => decide (h.z = z)), th ≤ k.q
    · have hm : idn nn ∈ s.map idn := List.mem_map.2 ⟨nn, hns, rfl⟩
      rw [← forall₂_idn (hr.kept hsv)] at hm
      obtain ⟨g, hg, hge⟩ := List.mem_map.1 hm
      exact ⟨g, (List.mem_filter.1 (List.mem_filter.1 hg).1).1, by have := congrArg (fun t => t.2.1) hge; exact this.symm⟩
    · push Not at hsv
      obtain ⟨k, hk, _, _, _, _, _, first, hf, _, hnp, _⟩ := hr.nn hsv
      rw [hk] at hns
      rw [List.mem_singleton.1 hns]
      exact ⟨first, (List.mem_filter.1 (List.mem_of_mem_head? hf)).1, hnp⟩
  obtain ⟨k, hk, hkq, hkp⟩ := hrec g hg
  -- it is left by the threshold
  have hreal : idn k ∈ (outs.flatten.filter fun h => !h.isNN).map idn := by
    rw [flatten_real ht L h4]
    refine List.mem_map.2 ⟨k, List.mem_flatten.2 ⟨_, List.mem_map.2 ⟨k.z, (h3 _).2 ⟨k, hk, rfl⟩, rfl⟩, ?_⟩, rfl⟩
    exact List.mem_filter.2 ⟨List.mem_filter.2 ⟨hk, by simpa using hkq⟩, by simp⟩
  obtain ⟨k', hk', hke⟩ := List.mem_map.1 hreal
  have hkn : k'.npeak = k.npeak := by have := congrArg (fun t => t.2.1) hke; exact this
  obtain ⟨n, hn⟩ := exists_nearest (sp := sp) (nn := nn) (real := outs.flatten.filter fun h => !h.isNN) ⟨k', hk', fun hsp => by rw [hkn, hkp hsp, hgp]⟩
  exact (nearest_total_pos hp hn).ne'

theorem slices_bound {L : List Hit} {th : ℚ} (col : Hit → Fl) (hcol : ∀ k ∈ L, 0 ≤ (col k).getD 0) {zs : List ℚ} (hz : ∀ z, z ∈ zs ↔ ∃ h ∈ L, h.z = z) (hn : zs.Nodup)
    (hsum : (zs.map fun z => total col (L.filter fun h => decide (h.z = z))).sum = total col L) :
    (zs.map fun z => 1 + |total col (L.filter fun h => decide (h.z = z))| / th).sum ≤ L.length + total col L / th := by
  have e : (zs.map fun z => 1 + |total col (L.filter fun h => decide (h.z = z))| / th).sum = zs.length + total col L / th := by
    rw [← hsum]
    clear hsum hz hn
    induction zs with
    | nil => simp
    | cons z zs ih =>
      rw [List.map_cons, List.sum_cons, ih, List.map_cons, List.sum_cons, abs_of_nonneg (total_nonneg fun k hk => hcol k (List.mem_filter.1 hk).1)]
      push_cast [List.length_cons]
      ring
  rw [e]
  have : zs.length ≤ L.length := by
    have h1 : zs ⊆ L.map Hit.z := by
      intro z hz'
      obtain ⟨h, hh, rfl⟩ := (hz z).1 hz'
      exact List.mem_map.2 ⟨h, hh, rfl⟩
    have := (List.subperm_of_subset hn h1).length_le
    simpa using this
  have : (zs.length : ℚ) ≤ L.length := by exact_mod_cast this
  linarith

/-- The threshold keeps the energies, raw and corrected, up to the documented epsilon. -/
theorem thresholder_energy {th : ℚ} (ht : 0 < th) (sp : Bool) (L : List Hit) (he : ∀ k ∈ L, 0 ≤ k.e.getD 0 ∧ 0 ≤ k.ec.getD 0) :
    ∃ out, hitsThresholder th sp L = .ok out ∧ (∀ k ∈ out, ∃ e ec, k.e = some e ∧ 0 < e ∧ k.ec = some ec ∧ 0 < ec) ∧
      ((∀ h ∈ L, ∃ k ∈ L, th ≤ k.q ∧ (sp = true → k.npeak = h.npeak)) →
        |total Hit.e out - total Hit.e L| ≤ EPSILON * (L.length + total Hit.e L / th) ∧
        |total Hit.ec out - total Hit.ec L| ≤ EPSILON * (L.length + total Hit.ec L / th)) := by
  obtain ⟨mid, zs, h1, h2, h3, h4, h5⟩ := thresholdHits_total th ht L
  have hpos := thresholdHits_pos ht h1 he
  refine ⟨mergeNN sp true mid, by simp [hitsThresholder, h1], mergeNN_pos hpos sp, fun hrec => ?_⟩
  have m1 := mergeable_of ht h1 hrec (col := Hit.e) ⟨fun k hk => (hpos k hk).e⟩
  have m2 := mergeable_of ht h1 hrec (col := Hit.ec) ⟨fun k hk => (hpos k hk).ec⟩
  rw [mergeNN_conserves_E sp true mid m1, mergeNN_conserves_Ec sp mid m2]
  obtain ⟨zs', outs, g1, g2, g3, g4⟩ := thresholdHits_spec th ht L
  have hp : zs.Perm zs' := (List.perm_ext_iff_of_nodup h3 (g2.imp fun h => ne_of_lt h)).2 fun z => by rw [h2, g3]
  have hs : ∀ col : Hit → Fl, (zs.map fun z => total col (L.filter fun h => decide (h.z = z))).sum = total col L := by
    intro col
    rw [(hp.map _).sum_eq]
    exact total_slices col L zs' g2 fun h hh => (g3 _).2 ⟨h, hh, rfl⟩
  exact ⟨h4.trans (mul_le_mul_of_nonneg_left (slices_bound Hit.e (fun k hk => (he k hk).1) h2 h3 (hs _)) EPSILON_pos.le),
    h5.trans (mul_le_mul_of_nonneg_left (slices_bound Hit.ec (fun k hk => (he k hk).2) h2 h3 (hs _)) EPSILON_pos.le)⟩

end Verif.Hits

namespace Verif.Esmeralda
open Verif.Paolina Verif.Tracks
open Verif.Hits (idn total EPSILON)

/-! ### The selection of hits -/

/-- A hit and the same hit once corrected. -/
structure CorrectedHit (c : Cfg) (h : InHit) (k : Hits.Hit) : Prop where
  info : k.info = h.info
  npeak : k.npeak = h.npeak
  x : k.x = h.x
  y : k.y = h.y
  z : k.z = driftZ c h
  q : k.q = h.q
  e : k.e = some h.e
  ec : ∃ v, k.ec = some v ∧ IsCorrected c h v

theorem correct_spec {c : Cfg} (hm : MapOk c) (hits : List InHit) : ∃ ks, correct c hits = .ok ks ∧ List.Forall₂ (CorrectedHit c) hits ks := by
  obtain ⟨n, hn, hn0⟩ := hm.norm
  obtain ⟨rows, h1, h2⟩ := KrApply.corrected_hits hm.nearest c.keV c.mev c.krmap c.dvs c.method c.xy c.applyZ n hn hn0
    (fun b hb hc => by have := hm.bins b hb 0 hc; exact absurd this (lt_irrefl _)) hm.mev.ne' (hits.map toRow)
  unfold correct
  rw [hm.noTemp, h1]
  refine ⟨_, rfl, ?_⟩
  clear h1
  rw [List.forall₂_map_left_iff] at h2
  induction h2 with
  | nil => exact .nil
  | cons h _ ih =>
    rw [List.zipWith_cons_cons]
    refine .cons ?_ ih
    obtain ⟨a1, a2, a3, a4, b, mu, hb, he⟩ := h
    refine ⟨rfl, rfl, a1, a2, ?_, rfl, ?_, _, he, b, mu, hb, rfl⟩
    · show _ = _
      unfold withRow driftZ
      dsimp only
      rw [a4]
      rfl
    · unfold withRow
      dsimp only
      rw [a3]
      rfl

theorem corrected_nonneg {c : Cfg} (hm : MapOk c) {h : InHit} {v : ℚ} (he : 0 ≤ h.e) (hv : IsCorrected c h v) : 0 ≤ v := by
  obtain ⟨b, mu, hb, rfl⟩ := hv
  have := hm.bins b hb.1 mu hb.2.1
  have := hm.keV
  have := hm.mev
  positivity

theorem drop_spec {c : Cfg} {hits : List InHit} {ks : List Hits.Hit} (h : List.Forall₂ (CorrectedHit c) hits ks) :
    List.Forall₂ (CorrectedHit c) (hits.filter fun h => decide (Inside c h)) (dropHits c.fiducialR ks) := by
  unfold dropHits
  induction h with
  | nil => exact .nil
  | @cons a b as bs h _ ih =>
    by_cases hi : Inside c a
    · have hb : b.x ^ 2 + b.y ^ 2 < c.fiducialR ^ 2 := by rw [h.x, h.y]; exact hi
      rw [List.filter_cons_of_pos (by simpa using hi), List.filter_cons_of_pos (by simpa using hb)]
      exact .cons h ih
    · have hb : ¬ b.x ^ 2 + b.y ^ 2 < c.fiducialR ^ 2 := by rw [h.x, h.y]; exact hi
      rw [List.filter_cons_of_neg (by simpa using hi), List.filter_cons_of_neg (by simpa using hb)]
      exact ih

/-- What identifies a hit, as for the threshold. -/
def hitId (c : Cfg) (h : InHit) : Nat × Nat × ℚ × ℚ × ℚ × ℚ := (h.info, h.npeak, h.x, h.y, driftZ c h, h.q)

theorem corrected_idn {c : Cfg} {hits : List InHit} {ks : List Hits.Hit} (h : List.Forall₂ (CorrectedHit c) hits ks) (th : ℚ) :
    (ks.filter fun k => decide (th ≤ k.q)).map idn = (hits.filter fun h => decide (th ≤ h.q)).map (hitId c) := by
  induction h with
  | nil => rfl
  | @cons a b as bs h _ ih =>
    by_cases hq : th ≤ a.q
    · rw [List.filter_cons_of_pos (by simpa [h.q] using hq), List.filter_cons_of_pos (by simpa using hq), List.map_cons, List.map_cons, ih]
      congr 1
      unfold idn hitId
      rw [h.info, h.npeak, h.x, h.y, h.z, h.q]
    · rw [List.filter_cons_of_neg (by simpa [h.q] using hq), List.filter_cons_of_neg (by simpa using hq), ih]

/-- Corrected energies of some hits, in order. -/
def IsEnergies (c : Cfg) (hits : List InHit) (ecs : List ℚ) : Prop := List.Forall₂ (IsCorrected c) hits ecs

theorem corrected_totals {c : Cfg} {hits : List InHit} {ks : List Hits.Hit} (h : List.Forall₂ (CorrectedHit c) hits ks) :
    total Hits.Hit.e ks = (hits.map fun h => h.e).sum ∧ ∃ ecs : List ℚ, List.Forall₂ (IsCorrected c) hits ecs ∧ total Hits.Hit.ec ks = ecs.sum := by
  induction h with
  | nil => exact ⟨rfl, [], .nil, rfl⟩
  | @cons a b as bs h _ ih =>
    obtain ⟨i1, ecs, i2, i3⟩ := ih
    obtain ⟨v, hv, hc⟩ := h.ec
    refine ⟨?_, v :: ecs, .cons hc i2, ?_⟩
    · unfold total at i1 ⊢
      rw [List.map_cons, List.sum_cons, i1, h.e, List.map_cons, List.sum_cons]; rfl
    · unfold total at i3 ⊢
      rw [List.map_cons, List.sum_cons, i3, hv, List.sum_cons]; rfl

/-- The hits selected for the topology. -/
theorem select_spec {c : Cfg} (hm : MapOk c) (ht : 0 < c.threshold) {hits : List InHit} (he : ∀ h ∈ hits, 0 ≤ h.e) :
    ∃ hs, select c hits = .ok hs ∧ (hs.map idn).Perm ((hits.filter fun h => decide (Survives c h)).map (hitId c)) ∧
      (∀ k ∈ hs, ∃ e ec, k.e = some e ∧ 0 < e ∧ k.ec = some ec ∧ 0 < ec) ∧
      (Receivers c hits → ∃ ecs : List ℚ, List.Forall₂ (IsCorrected c) (hits.filter fun h => decide (Inside c h)) ecs ∧
        |total Hits.Hit.e hs - ((hits.filter fun h => decide (Inside c h)).map fun h => h.e).sum| ≤
          EPSILON * ((hits.filter fun h => decide (Inside c h)).length + ((hits.filter fun h => decide (Inside c h)).map fun h => h.e).sum / c.threshold) ∧
        |total Hits.Hit.ec hs - ecs.sum| ≤ EPSILON * ((hits.filter fun h => decide (Inside c h)).length + ecs.sum / c.threshold)) := by
  obtain ⟨ks, hk, hf⟩ := correct_spec hm hits
  have hd := drop_spec hf
  have hpos : ∀ k ∈ dropHits c.fiducialR ks, 0 ≤ k.e.getD 0 ∧ 0 ≤ k.ec.getD 0 := by
    intro k hk
    obtain ⟨i, hi⟩ := List.mem_iff_getElem?.1 hk
    obtain ⟨a, ha⟩ : ∃ a, (hits.filter fun h => decide (Inside c h))[i]? = some a := by
      have hl := hd.length_eq
      have := (List.getElem?_eq_some_iff.1 hi).1
      exact ⟨_, List.getElem?_eq_getElem (by omega)⟩
    have := forall₂_getElem? hd i _ _ ha hi
    have h0 := he a (List.mem_filter.1 (List.mem_of_getElem? ha)).1
    obtain ⟨v, hv, hc⟩ := this.ec
    rw [this.e, hv]
    exact ⟨h0, corrected_nonneg hm h0 hc⟩
  obtain ⟨out, h1, h2⟩ := Hits.thresholder_hits ht c.samePeak (dropHits c.fiducialR ks)
  obtain ⟨out', h3, h4, h5⟩ := Hits.thresholder_energy ht c.samePeak (dropHits c.fiducialR ks) hpos
  have : out' = out := by rw [h1] at h3; cases h3; rfl
  subst this
  refine ⟨out', by unfold select; rw [hk]; dsimp only; rw [h1], ?_, h4, ?_⟩
  · rw [corrected_idn hd] at h2
    have e : (hits.filter fun h => decide (Survives c h)) = (hits.filter fun h => decide (Inside c h)).filter fun h => decide (c.threshold ≤ h.q) := by
      rw [List.filter_filter]
      apply List.filter_congr
      intro h _
      rw [Bool.eq_iff_iff]
      simp only [Bool.and_eq_true, decide_eq_true_eq]
      exact And.comm
    rw [e]
    exact h2
  · intro hrec
    have hrec' : ∀ h ∈ dropHits c.fiducialR ks, ∃ k ∈ dropHits c.fiducialR ks, c.threshold ≤ k.q ∧ (c.samePeak = true → k.npeak = h.npeak) := by
      intro k hk
      obtain ⟨i, hi⟩ := List.mem_iff_getElem?.1 hk
      obtain ⟨a, ha⟩ : ∃ a, (hits.filter fun h => decide (Inside c h))[i]? = some a := by
        have hl := hd.length_eq
        have := (List.getElem?_eq_some_iff.1 hi).1
        exact ⟨_, List.getElem?_eq_getElem (by omega)⟩
      have hka := forall₂_getElem? hd i _ _ ha hi
      obtain ⟨m1, m2⟩ := List.mem_filter.1 (List.mem_of_getElem? ha)
      obtain ⟨b, hb, hbs, hbp⟩ := hrec a m1 (by simpa using m2)
      have hbm : b ∈ hits.filter fun h => decide (Inside c h) := List.mem_filter.2 ⟨hb, by simpa using hbs.1⟩
      obtain ⟨j, hj⟩ := List.mem_iff_getElem?.1 hbm
      obtain ⟨g, hg⟩ : ∃ g, (dropHits c.fiducialR ks)[j]? = some g := by
        have hl := hd.length_eq
        have := (List.getElem?_eq_some_iff.1 hj).1
        exact ⟨_, List.getElem?_eq_getElem (by omega)⟩
      have hgb := forall₂_getElem? hd j _ _ hj hg
      exact ⟨g, List.mem_of_getElem? hg, by rw [hgb.q]; exact hbs.2, fun hsp => by rw [hgb.npeak, hka.npeak]; exact hbp hsp⟩
    obtain ⟨g1, g2⟩ := h5 hrec'
    obtain ⟨t1, ecs, t2, t3⟩ := corrected_totals hd
    have hl : (dropHits c.fiducialR ks).length = (hits.filter fun h => decide (Inside c h)).length := hd.length_eq.symm
    rw [t1, hl] at g1
    rw [t3, hl] at g2
    exact ⟨ecs, t2, g1, g2⟩

/-! ### The topology -/

theorem epHits_usable {hs : List Hits.Hit} (hne : hs ≠ []) (hp : ∀ k ∈ hs, ∃ e ec, k.e = some e ∧ 0 < e ∧ k.ec = some ec ∧ 0 < ec) : Usable (epHits hs) := by
  have hmem : ∀ o ∈ epHits hs, ∃ k ∈ hs, o.ep = k.ec := by
    intro o ho
    obtain ⟨p, hp', rfl⟩ := List.mem_map.1 ho
    have := List.mem_zipIdx hp'
    exact ⟨p.1, by rw [this.2.2]; exact List.getElem_mem _, rfl⟩
  constructor
  · have hne' : epHits hs ≠ [] := by
      intro hc
      apply hne
      have := congrArg List.length hc
      simpa [epHits] using this
    obtain ⟨o, ho⟩ := List.exists_mem_of_ne_nil _ hne'
    obtain ⟨k, hk, e⟩ := hmem o ho
    obtain ⟨_, ec, _, _, h3, _⟩ := hp k hk
    exact ⟨o, ho, by rw [e, h3]; simp⟩
  · intro o ho e he
    obtain ⟨k, hk, e'⟩ := hmem o ho
    obtain ⟨_, ec, _, _, h3, h4⟩ := hp k hk
    rw [e', h3] at he
    cases he; exact h4

theorem epHits_length (hs : List Hits.Hit) : (epHits hs).length = hs.length := by simp [epHits]

/-- The columns of a written row that do not come from the topology, from the key of a hit. -/
def baseRow (hs : List Hits.Hit) (k : ℚ × ℚ × ℚ × Nat) : Option (Ident × Hits.Fl × Hits.Fl) :=
  (hs[k.2.2.2]?).map fun h => (⟨h.info, h.npeak, k.1, k.2.1, k.2.2.1, h.q⟩, h.e, h.ec)

def rowBase (r : OutRow) : Ident × Hits.Fl × Hits.Fl := (outIdent r, r.e, r.ec)

theorem rows_base (hs : List Hits.Hit) (outs : List OutHit) :
    (outs.filterMap (outRow hs)).map rowBase = (outs.map fun o => key o.hit).filterMap (baseRow hs) := by
  rw [List.map_filterMap, List.filterMap_map]
  congr 1
  funext o
  simp only [Function.comp_def, outRow, baseRow, key, Option.map_map]
  rfl

theorem base_of_hits (hs : List Hits.Hit) (f : ℚ → ℚ) :
    ((epHits hs).map fun g => ((f g.x, f g.y, f g.z, g.tag) : ℚ × ℚ × ℚ × Nat)).filterMap (baseRow hs) =
      hs.map fun h => ((⟨h.info, h.npeak, f h.x, f h.y, f h.z, h.q⟩ : Ident), h.e, h.ec) := by
  unfold epHits
  rw [List.map_map, List.filterMap_map]
  have : ∀ (pre post : List Hits.Hit), pre ++ post = hs →
      (post.zipIdx pre.length).filterMap ((baseRow hs) ∘ ((fun g : EHit => ((f g.x, f g.y, f g.z, g.tag) : ℚ × ℚ × ℚ × Nat)) ∘ fun p : Hits.Hit × Nat => ⟨p.1.x, p.1.y, p.1.z, p.1.ec, p.2⟩)) =
      post.map fun h => ((⟨h.info, h.npeak, f h.x, f h.y, f h.z, h.q⟩ : Ident), h.e, h.ec) := by
    intro pre post
    induction post generalizing pre with
    | nil => intro _; rfl
    | cons h post ih =>
      intro e
      have hget : hs[pre.length]? = some h := by rw [← e]; simp
      rw [List.zipIdx_cons, List.filterMap_cons_some (b := ((⟨h.info, h.npeak, f h.x, f h.y, f h.z, h.q⟩ : Ident), h.e, h.ec))]
      · rw [List.map_cons]
        congr 1
        have := ih (pre ++ [h]) (by rw [← e]; simp)
        rw [List.length_append, List.length_singleton] at this
        exact this
      · simp only [Function.comp_def, baseRow, hget, Option.map_some]
  exact this [] hs rfl

theorem sorted_rows (hs : List Hits.Hit) (outs : List OutHit) : Sorted ((sortHits outs).filterMap (outRow hs)) := by
  unfold Sorted
  refine List.Pairwise.filterMap _ (R := fun a b : OutHit => a.hit.z < b.hit.z ∨ (a.hit.z = b.hit.z ∧ (a.hit.x < b.hit.x ∨ (a.hit.x = b.hit.x ∧ a.hit.y ≤ b.hit.y)))) ?_ (sortHits_spec outs).2
  intro a b h a' ha b' hb
  unfold outRow at ha hb
  simp only [Option.map_eq_some_iff] at ha hb
  obtain ⟨_, _, rfl⟩ := ha
  obtain ⟨_, _, rfl⟩ := hb
  exact h

/-- The tags of the hits are positions. -/
theorem rows_exist {hs : List Hits.Hit} {outs : List OutHit} {f : ℚ → ℚ}
    (h : (outs.map fun o => key o.hit).Perm ((epHits hs).map fun g => ((f g.x, f g.y, f g.z, g.tag) : ℚ × ℚ × ℚ × Nat))) : ∀ o ∈ outs, ∃ r, outRow hs o = some r := by
  intro o ho
  have : key o.hit ∈ (epHits hs).map fun g => ((f g.x, f g.y, f g.z, g.tag) : ℚ × ℚ × ℚ × Nat) := h.subset (List.mem_map.2 ⟨o, ho, rfl⟩)
  obtain ⟨g, hg, hge⟩ := List.mem_map.1 this
  obtain ⟨p, hp, rfl⟩ := List.mem_map.1 hg
  have hz := List.mem_zipIdx hp
  have ht : p.2 = o.hit.tag := by have := congrArg (fun t => t.2.2.2) hge; exact this
  unfold outRow
  rw [List.getElem?_eq_getElem (by rw [← ht]; omega)]
  exact ⟨_, rfl⟩

theorem track_rows {hs : List Hits.Hit} {outs : List OutHit} (h : ∀ o ∈ outs, ∃ r, outRow hs o = some r) (i : Int) :
    ((outs.filterMap (outRow hs)).filter fun r => r.track == i).map (fun r => r.ep) = (withTrack outs i).map fun o => o.hit.ep := by
  unfold withTrack
  induction outs with
  | nil => rfl
  | cons o outs ih =>
    obtain ⟨r, hr⟩ := h o List.mem_cons_self
    have ih := ih fun o ho => h o (List.mem_cons_of_mem _ ho)
    have e : r.ep = o.hit.ep ∧ r.track = o.track := by
      unfold outRow at hr
      rw [Option.map_eq_some_iff] at hr
      obtain ⟨_, _, rfl⟩ := hr
      exact ⟨rfl, rfl⟩
    rw [List.filterMap_cons_some hr]
    by_cases ht : o.track = i
    · rw [List.filter_cons_of_pos (by simp [e.2, ht]), List.filter_cons_of_pos (by simp [ht]), List.map_cons, List.map_cons, ih, e.1]
    · rw [List.filter_cons_of_neg (by simp [e.2, ht]), List.filter_cons_of_neg (by simp [ht]), ih]

/-- The position written. -/
def place (c : Cfg) (n : Nat) : ℚ → ℚ := if n ≤ c.paolina.maxHits then Sampling.round5 else id

/-- What is written for the hits `hs`, in terms of the topology found. -/
structure Topo (c : Cfg) (event : Int) (hs : List Hits.Hit) (w : Written) (outs : List OutHit) (oom : Bool) : Prop where
  found : extract c.paolina event (epHits hs) = .returns w.tracks outs oom
  passed : w.hitsPassed = true
  topo : w.topologyPassed = some (!w.tracks.isEmpty)
  hits : w.hits = (sortHits outs).filterMap (outRow hs)
  summary : eventSummary c.paolina.rad event w.tracks.length (w.hits.map sHit) oom = .ok w.summary
  keys : (outs.map fun o => key o.hit).Perm ((epHits hs).map fun g => ((place c hs.length g.x, place c hs.length g.y, place c hs.length g.z, g.tag) : ℚ × ℚ × ℚ × Nat))

theorem Topo.base {c : Cfg} {event : Int} {hs : List Hits.Hit} {w : Written} {outs : List OutHit} {oom : Bool} (t : Topo c event hs w outs oom) :
    (w.hits.map rowBase).Perm (hs.map fun h => ((⟨h.info, h.npeak, place c hs.length h.x, place c hs.length h.y, place c hs.length h.z, h.q⟩ : Ident), h.e, h.ec)) := by
  rw [t.hits, rows_base, ← base_of_hits hs (place c hs.length)]
  exact ((((sortHits_spec outs).1.map _).trans t.keys).filterMap _)

theorem Topo.ecs {c : Cfg} {event : Int} {hs : List Hits.Hit} {w : Written} {outs : List OutHit} {oom : Bool} (t : Topo c event hs w outs oom) :
    (w.hits.map fun r => r.ec).Perm (hs.map fun h => h.ec) ∧ (w.hits.map fun r => r.e).Perm (hs.map fun h => h.e) := by
  have h1 := t.base.map fun p => p.2.2
  have h2 := t.base.map fun p => p.2.1
  rw [List.map_map, List.map_map] at h1 h2
  exact ⟨h1, h2⟩

theorem extract_keys {c : Cfg} (hp : c.paolina.Ok) {event : Int} {hs : List Hits.Hit} (hu : Usable (epHits hs)) {rows : List TrackRow} {outs : List OutHit} {oom : Bool}
    (h : extract c.paolina event (epHits hs) = .returns rows outs oom) :
    (outs.map fun o => key o.hit).Perm ((epHits hs).map fun g => ((place c hs.length g.x, place c hs.length g.y, place c hs.length g.z, g.tag) : ℚ × ℚ × ℚ × Nat)) := by
  by_cases hl : hs.length ≤ c.paolina.maxHits
  · have := extract_hits hp hu (by rw [epHits_length]; exact hl) h
    unfold place
    rw [if_pos hl]
    exact this
  · rw [extract_too_many c.paolina event (epHits hs) (by rw [epHits_length]; omega)] at h
    cases h
    unfold place
    rw [if_neg hl, List.map_map]
    exact .of_eq rfl

theorem topology_spec {c : Cfg} (hp : c.paolina.Ok) (hg : GoodPaths c.paolina.paths) (hscan : ∀ r, c.paolina.scanRadius = some r → 0 ≤ r) (event : Int) {hs : List Hits.Hit} (hne : hs ≠ [])
    (hpos : ∀ k ∈ hs, ∃ e ec, k.e = some e ∧ 0 < e ∧ k.ec = some ec ∧ 0 < ec) :
    ∃ w outs oom, topology c event hs = .ok w ∧ Topo c event hs w outs oom := by
  have hu := epHits_usable hne hpos
  obtain ⟨rows, outs, oom, hx⟩ := extract_succeeds hp hg hscan event hu
  have hk := extract_keys hp hu hx
  unfold topology
  rw [if_neg (by simpa using hne), hx]
  dsimp only
  unfold writeTopology
  have hb := (rows_base hs (sortHits outs))
  have hperm : (((sortHits outs).filterMap (outRow hs)).map rowBase).Perm
      (hs.map fun h => ((⟨h.info, h.npeak, place c hs.length h.x, place c hs.length h.y, place c hs.length h.z, h.q⟩ : Ident), h.e, h.ec)) := by
    rw [hb, ← base_of_hits hs (place c hs.length)]
    exact ((((sortHits_spec outs).1.map _).trans hk).filterMap _)
  obtain ⟨s, ave, rAve, hsum, _⟩ := summary_spec c.paolina.rad event rows.length (((sortHits outs).filterMap (outRow hs)).map sHit) oom
    (by
      intro hc
      have h0 := hperm.length_eq
      have h1 := congrArg List.length hc
      rw [List.length_map] at h0 h1
      rw [List.length_nil] at h1
      rw [h1, List.length_map] at h0
      exact hne (List.length_eq_zero_iff.1 h0.symm))
    (by
      intro k hk
      obtain ⟨r, hr, rfl⟩ := List.mem_map.1 hk
      have := hperm.subset (List.mem_map.2 ⟨r, hr, rfl⟩)
      obtain ⟨h, hh, he⟩ := List.mem_map.1 this
      obtain ⟨_, ec, _, _, h3, h4⟩ := hpos h hh
      have e : r.ec = h.ec := by have := congrArg (fun p => p.2.2) he; exact this.symm
      exact ⟨ec, by show r.ec = _; rw [e, h3], h4⟩)
  rw [hsum]
  exact ⟨_, outs, oom, rfl, hx, rfl, rfl, rfl, hsum, hk⟩

theorem Topo.tracks {c : Cfg} {event : Int} {hs : List Hits.Hit} {w : Written} {outs : List OutHit} {oom : Bool} (t : Topo c event hs w outs oom) (hp' : c.paolina.Ok) (hne : hs ≠ [])
    (h3 : ∀ k ∈ hs, ∃ e ec, k.e = some e ∧ 0 < e ∧ k.ec = some ec ∧ 0 < ec) :
    (hs.length ≤ c.paolina.maxHits →
      w.topologyPassed = some true ∧ w.tracks ≠ [] ∧ w.tracks.Pairwise (fun a b => b.energy ≤ a.energy) ∧
      (w.tracks.map TrackRow.energy).sum = sumOf (w.hits.map fun r => r.ec) ∧
      (∀ (i : Nat) (row : TrackRow), w.tracks[i]? = some row → row.event = event ∧ row.id = i ∧ row.nTracks = w.tracks.length ∧ 0 < row.energy ∧
        row.nHits = (w.hits.filter fun r => r.track == (i : Int)).length ∧ row.energy = sumOf ((w.hits.filter fun r => r.track == (i : Int)).map fun r => r.ep)) ∧
      ∀ r ∈ w.hits, (r.track = -1 ∧ r.ep = none) ∨ ∃ (i : Nat) (e : ℚ), i < w.tracks.length ∧ r.track = i ∧ r.ep = some e ∧ 0 < e) ∧
    (c.paolina.maxHits < hs.length →
      w.topologyPassed = some false ∧ w.tracks = [] ∧ ∀ r ∈ w.hits, r.track = -1 ∧ r.ep = r.ec) := by
  have hu := epHits_usable hne h3
  have hso := (sortHits_spec outs).1
  have hrows : ∀ o ∈ sortHits outs, ∃ r, outRow hs o = some r := fun o ho => rows_exist t.keys o (hso.subset ho)
  refine ⟨fun hle => ?_, fun hlt => ?_⟩
  · have hle' : (epHits hs).length ≤ c.paolina.maxHits := by rw [epHits_length]; exact hle
    obtain ⟨k1, k2, k3⟩ := extract_tracks hp' hu hle' t.found
    have k4 := extract_track_id hp' hu hle' t.found
    have k5 := extract_energy hp' hu hle' t.found
    have hf : ∀ i : Nat, ((w.hits.filter fun r => r.track == (i : Int)).map fun r => r.ep).Perm ((withTrack outs i).map fun o => o.hit.ep) := by
      intro i
      rw [t.hits, track_rows hrows]
      unfold withTrack
      exact (hso.filter _).map _
    refine ⟨?_, k1, k2, ?_, ?_, ?_⟩
    · rw [t.topo]
      cases hw : w.tracks with
      | nil => exact absurd hw k1
      | cons _ _ => rfl
    · rw [k5]
      unfold energyOf sumOf
      rw [(t.ecs.1.map fun x => x.getD 0).sum_eq, List.map_map]
      unfold epHits
      rw [List.map_map]
      have : ∀ (l : List Hits.Hit) (n : Nat), ((l.zipIdx n).map ((fun h : EHit => h.ep.getD 0) ∘ fun p : Hits.Hit × Nat => ⟨p.1.x, p.1.y, p.1.z, p.1.ec, p.2⟩)) = l.map fun h => h.ec.getD 0 := by
        intro l
        induction l with
        | nil => intro n; rfl
        | cons a l ih => intro n; rw [List.zipIdx_cons, List.map_cons, List.map_cons, ih]; rfl
      rw [this]
      rfl
    · intro i row hr
      obtain ⟨a1, a2, a3, _, _, a6, a7, a8⟩ := k3 i row hr
      refine ⟨a1, a2, a3, a7, ?_, ?_⟩
      · have := (hf i).length_eq
        rw [List.length_map, List.length_map] at this
        rw [a6, this]
      · rw [a8]
        unfold energyOf sumOf
        rw [((hf i).map fun x => x.getD 0).sum_eq, List.map_map, List.map_map]
        rfl
    · intro r hr
      rw [t.hits] at hr
      obtain ⟨o, ho, hor⟩ := List.mem_filterMap.1 hr
      unfold outRow at hor
      rw [Option.map_eq_some_iff] at hor
      obtain ⟨_, _, rfl⟩ := hor
      exact k4 o (hso.subset ho)
  · have hx := extract_too_many c.paolina event (epHits hs) (by rw [epHits_length]; exact hlt)
    have hfd := t.found
    rw [hx] at hfd
    simp only [Outcome.returns.injEq] at hfd
    obtain ⟨f1, f2, f3⟩ := hfd
    refine ⟨by rw [t.topo, ← f1]; rfl, f1.symm, ?_⟩
    intro r hr
    rw [t.hits] at hr
    obtain ⟨o, ho, hor⟩ := List.mem_filterMap.1 hr
    unfold outRow at hor
    rw [Option.map_eq_some_iff] at hor
    obtain ⟨k, hk, rfl⟩ := hor
    have := hso.subset ho
    rw [← f2] at this
    obtain ⟨g, hg, rfl⟩ := List.mem_map.1 this
    refine ⟨rfl, ?_⟩
    obtain ⟨p, hp, rfl⟩ := List.mem_map.1 hg
    have hz := List.mem_zipIdx hp
    have : hs[p.2]? = some p.1 := by
      rw [List.getElem?_eq_some_iff]
      exact ⟨by omega, by simpa using hz.2.2.symm⟩
    have hk' : hs[p.2]? = some k := hk
    rw [this] at hk'
    cases hk'
    rfl

theorem Topo.positive {c : Cfg} {event : Int} {hs : List Hits.Hit} {w : Written} {outs : List OutHit} {oom : Bool} (t : Topo c event hs w outs oom)
    (h3 : ∀ k ∈ hs, ∃ e ec, k.e = some e ∧ 0 < e ∧ k.ec = some ec ∧ 0 < ec) : ∀ r ∈ w.hits, ∃ e ec, r.e = some e ∧ 0 < e ∧ r.ec = some ec ∧ 0 < ec := by
  intro r hr
  have := t.base.subset (List.mem_map.2 ⟨r, hr, rfl⟩)
  obtain ⟨k, hk, hke⟩ := List.mem_map.1 this
  obtain ⟨a, b, k1, k2, k3, k4⟩ := h3 k hk
  have e1 : r.e = k.e := by have := congrArg (fun p => p.2.1) hke; exact this.symm
  have e2 : r.ec = k.ec := by have := congrArg (fun p => p.2.2) hke; exact this.symm
  exact ⟨a, b, by rw [e1, k1], k2, by rw [e2, k3], k4⟩

theorem Topo.summary_row {c : Cfg} {event : Int} {hs : List Hits.Hit} {w : Written} {outs : List OutHit} {oom : Bool} (t : Topo c event hs w outs oom) (hne : hs ≠ [])
    (h3 : ∀ k ∈ hs, ∃ e ec, k.e = some e ∧ 0 < e ∧ k.ec = some ec ∧ 0 < ec) :
    ∃ s, w.summary = [s] ∧ s.event = event ∧ s.nTracks = w.tracks.length ∧ s.nHits = w.hits.length ∧ s.energy = sumOf (w.hits.map fun r => r.ec) ∧
      (s.outOfMap = true ↔ c.paolina.maxHits < hs.length) ∧
      ∀ r ∈ w.hits, s.min.x ≤ r.x ∧ r.x ≤ s.max.x ∧ s.min.y ≤ r.y ∧ r.y ≤ s.max.y ∧ s.min.z ≤ r.z ∧ r.z ≤ s.max.z := by
  have hu := epHits_usable hne h3
  have hpos := t.positive h3
  obtain ⟨s, ave, rAve, g1, g2, g3, g4, g5, g6, _, _, g9, _⟩ := summary_spec c.paolina.rad event w.tracks.length (w.hits.map sHit) oom
    (by
      intro hc
      have h0 := t.base.length_eq
      have h1 := congrArg List.length hc
      rw [List.length_map] at h0 h1
      rw [List.length_nil] at h1
      rw [h1, List.length_map] at h0
      exact hne (List.length_eq_zero_iff.1 h0.symm))
    (by
      intro k hk
      obtain ⟨r, hr, rfl⟩ := List.mem_map.1 hk
      obtain ⟨_, ec, _, _, h3, h4⟩ := hpos r hr
      exact ⟨ec, h3, h4⟩)
  have hsum := t.summary
  rw [g1] at hsum
  simp only [Except.ok.injEq] at hsum
  refine ⟨s, hsum.symm, g2, g3, by rw [g4, List.length_map], ?_, ?_, ?_⟩
  · rw [g6, List.map_map]; unfold sumOf; rw [List.map_map]; rfl
  · rw [g5]
    by_cases hle : hs.length ≤ c.paolina.maxHits
    · have := extract_flag hu (by rw [epHits_length]; exact hle) t.found
      rw [this]
      constructor
      · rintro ⟨g, hg, hge⟩
        obtain ⟨p, hp, rfl⟩ := List.mem_map.1 hg
        have hz := List.mem_zipIdx hp
        obtain ⟨_, ec, _, _, h4, _⟩ := h3 p.1 (by rw [hz.2.2]; exact List.getElem_mem _)
        have : p.1.ec = none := hge
        rw [h4] at this; cases this
      · intro hlt; omega
    · have hx := extract_too_many c.paolina event (epHits hs) (by rw [epHits_length]; omega)
      have hfd := t.found
      rw [hx] at hfd
      simp only [Outcome.returns.injEq] at hfd
      rw [← hfd.2.2]
      exact ⟨fun _ => by omega, fun _ => rfl⟩
  · intro r hr
    obtain ⟨a1, a2, a3, a4, a5, a6, _⟩ := g9 (sHit r) (List.mem_map.2 ⟨r, hr, rfl⟩)
    exact ⟨a1, a2, a3, a4, a5, a6⟩

/-! ### C121 -/

/-- The conditions of the theorems: a map that can be applied, a positive threshold, a sensible configuration of the topology and energies that are not negative. -/
structure Conditions (c : Cfg) (hits : List InHit) : Prop where
  map : MapOk c
  threshold : 0 < c.threshold
  sizes : c.paolina.Ok
  paths : GoodPaths c.paolina.paths
  scan : ∀ r, c.paolina.scanRadius = some r → 0 ≤ r
  energies : ∀ h ∈ hits, 0 ≤ h.e

theorem event_cases {c : Cfg} {event : Int} {hits : List InHit} (hc : Conditions c hits) :
    (∀ h ∈ hits, ¬ Survives c h) ∧ esmeraldaEvent c event hits = .ok ⟨false, none, [], [], []⟩ ∨
    (∃ h ∈ hits, Survives c h) ∧ ∃ hs w outs oom, select c hits = .ok hs ∧ esmeraldaEvent c event hits = .ok w ∧ Topo c event hs w outs oom ∧
      hs.length = (hits.filter fun h => decide (Survives c h)).length ∧ hs ≠ [] := by
  obtain ⟨hs, h1, h2, h3, _⟩ := select_spec hc.map hc.threshold hc.energies
  have hl : hs.length = (hits.filter fun h => decide (Survives c h)).length := by simpa using h2.length_eq
  unfold esmeraldaEvent
  rw [h1]
  dsimp only
  by_cases hex : ∃ h ∈ hits, Survives c h
  · right
    refine ⟨hex, ?_⟩
    obtain ⟨h, hh, hsv⟩ := hex
    have hne : hs ≠ [] := by
      intro he
      rw [he, List.length_nil] at hl
      have : h ∈ hits.filter fun h => decide (Survives c h) := List.mem_filter.2 ⟨hh, by simpa using hsv⟩
      rw [List.length_eq_zero_iff.1 hl.symm] at this; cases this
    obtain ⟨w, outs, oom, e, t⟩ := topology_spec hc.sizes hc.paths hc.scan event hne h3
    exact ⟨hs, w, outs, oom, rfl, e, t, hl, hne⟩
  · left
    push Not at hex
    refine ⟨hex, ?_⟩
    have : hits.filter (fun h => decide (Survives c h)) = [] := by
      rw [List.filter_eq_nil_iff]; intro h hh; simpa using hex h hh
    rw [this, List.length_nil] at hl
    rw [List.length_eq_zero_iff.1 hl]
    rfl

/-- **C121**: every event ends. -/
theorem event_ends {c : Cfg} (event : Int) {hits : List InHit} (hc : Conditions c hits) : ∃ w, esmeraldaEvent c event hits = .ok w := by
  rcases event_cases (event := event) hc with ⟨_, h⟩ | ⟨_, _, w, _, _, _, h, _⟩
  · exact ⟨_, h⟩
  · exact ⟨w, h⟩

/-- **C121**: an event without hits inside and over the threshold only leaves a rejection in the filter of hits. -/
theorem event_rejected {c : Cfg} (event : Int) {hits : List InHit} (hc : Conditions c hits) (h : ∀ h ∈ hits, ¬ Survives c h) :
    esmeraldaEvent c event hits = .ok ⟨false, none, [], [], []⟩ := by
  rcases event_cases (event := event) hc with ⟨_, h'⟩ | ⟨⟨k, hk, hs⟩, _⟩
  · exact h'
  · exact absurd hs (h k hk)

/-- **C121**: the hits written are those of the input inside the fiducial radius with a charge that reaches the threshold, once each, with their charge, peak and position (rounded to 5 decimals unless there are more than the
topology admits), sorted by Z, X and Y, all with positive energies; the event passes the filter if there is any. -/
theorem event_hits {c : Cfg} {event : Int} {hits : List InHit} (hc : Conditions c hits) {w : Written} (h : esmeraldaEvent c event hits = .ok w) :
    (w.hitsPassed = true ↔ ∃ h ∈ hits, Survives c h) ∧
    (w.hits.map outIdent).Perm ((hits.filter fun h => decide (Survives c h)).map
      (inIdent c (decide ((hits.filter fun h => decide (Survives c h)).length ≤ c.paolina.maxHits)))) ∧
    Sorted w.hits ∧ ∀ r ∈ w.hits, ∃ e ec, r.e = some e ∧ 0 < e ∧ r.ec = some ec ∧ 0 < ec := by
  rcases event_cases (event := event) hc with ⟨hn, e⟩ | ⟨hex, hs, w', outs, oom, hsel, e, t, hl, hne⟩
  · rw [e] at h; cases h
    have : hits.filter (fun h => decide (Survives c h)) = [] := by
      rw [List.filter_eq_nil_iff]; intro h hh; simpa using hn h hh
    rw [this]
    refine ⟨⟨fun h => (by cases h), fun ⟨k, hk, hs⟩ => absurd hs (hn k hk)⟩, .refl _, .nil, fun r hr => by cases hr⟩
  · rw [e] at h; cases h
    obtain ⟨hs', h1, h2, h3, _⟩ := select_spec hc.map hc.threshold hc.energies
    rw [hsel] at h1; cases h1
    refine ⟨⟨fun _ => hex, fun _ => t.passed⟩, ?_, by rw [t.hits]; exact sorted_rows _ _, ?_⟩
    · have hb := t.base.map fun p => p.1
      rw [List.map_map, List.map_map] at hb
      refine List.Perm.trans hb ?_
      have h4 := h2.map fun t : Nat × Nat × ℚ × ℚ × ℚ × ℚ => (⟨t.1, t.2.1, place c hs.length t.2.2.1, place c hs.length t.2.2.2.1, place c hs.length t.2.2.2.2.1, t.2.2.2.2.2⟩ : Ident)
      rw [List.map_map, List.map_map] at h4
      refine List.Perm.trans h4 (.of_eq ?_)
      apply List.map_congr_left
      intro a _
      unfold inIdent place
      rw [← hl]
      by_cases hle : hs.length ≤ c.paolina.maxHits
      · simp [hle, hitId]
      · simp [hle, hitId]
    · intro r hr
      have := t.base.subset (List.mem_map.2 ⟨r, hr, rfl⟩)
      obtain ⟨k, hk, hke⟩ := List.mem_map.1 this
      obtain ⟨a, b, k1, k2, k3, k4⟩ := h3 k hk
      have e1 : r.e = k.e := by have := congrArg (fun p => p.2.1) hke; exact this.symm
      have e2 : r.ec = k.ec := by have := congrArg (fun p => p.2.2) hke; exact this.symm
      exact ⟨a, b, by rw [e1, k1], k2, by rw [e2, k3], k4⟩

/-- **C121**: no energy is lost inside the fiducial radius: if every hit has some hit over the threshold (of its peak, if so asked for) to give its energy to, the energy of the hits written is that of all the hits inside, and their corrected energy is the sum of
the corrected energies of all the hits inside, up to the documented epsilon. -/
theorem event_energy {c : Cfg} {event : Int} {hits : List InHit} (hc : Conditions c hits) {w : Written} (h : esmeraldaEvent c event hits = .ok w)
    (hex : ∃ h ∈ hits, Survives c h) (hrec : Receivers c hits) :
    ∃ ecs : List ℚ, List.Forall₂ (IsCorrected c) (hits.filter fun h => decide (Inside c h)) ecs ∧
      |sumOf (w.hits.map fun r => r.e) - ((hits.filter fun h => decide (Inside c h)).map fun h => h.e).sum| ≤
        1 / 2 ^ 52 * ((hits.filter fun h => decide (Inside c h)).length + ((hits.filter fun h => decide (Inside c h)).map fun h => h.e).sum / c.threshold) ∧
      |sumOf (w.hits.map fun r => r.ec) - ecs.sum| ≤ 1 / 2 ^ 52 * ((hits.filter fun h => decide (Inside c h)).length + ecs.sum / c.threshold) := by
  rcases event_cases (event := event) hc with ⟨hn, _⟩ | ⟨_, hs, w', outs, oom, hsel, e, t, _, _⟩
  · obtain ⟨k, hk, hs⟩ := hex
    exact absurd hs (hn k hk)
  · rw [e] at h; cases h
    obtain ⟨hs', h1, h2, h3, h4⟩ := select_spec hc.map hc.threshold hc.energies
    rw [hsel] at h1; cases h1
    obtain ⟨ecs, g1, g2, g3⟩ := h4 hrec
    refine ⟨ecs, g1, ?_, ?_⟩
    · have : sumOf (w.hits.map fun r => r.e) = total Hits.Hit.e hs := by
        unfold sumOf total
        rw [(t.ecs.2.map fun x => x.getD 0).sum_eq, List.map_map]; rfl
      rw [this]; exact g2
    · have : sumOf (w.hits.map fun r => r.ec) = total Hits.Hit.ec hs := by
        unfold sumOf total
        rw [(t.ecs.1.map fun x => x.getD 0).sum_eq, List.map_map]; rfl
      rw [this]; exact g3

/-- **C121**: the topology of an event with hits.  With no more hits than admitted there is at least a track, and the energies of the tracks add up to the corrected energy of the hits written; the tracks are numbered by decreasing energy, the hits and the energy
of a track are those of the hits written with its number, and the other hits written (number -1) have no energy in the topology.  With more hits, there are no tracks, and the event does not pass the filter of topology. -/
theorem event_topology {c : Cfg} {event : Int} {hits : List InHit} (hc : Conditions c hits) {w : Written} (h : esmeraldaEvent c event hits = .ok w) (hex : ∃ h ∈ hits, Survives c h) :
    ((hits.filter fun h => decide (Survives c h)).length ≤ c.paolina.maxHits →
      w.topologyPassed = some true ∧ w.tracks ≠ [] ∧ w.tracks.Pairwise (fun a b => b.energy ≤ a.energy) ∧
      (w.tracks.map TrackRow.energy).sum = sumOf (w.hits.map fun r => r.ec) ∧
      (∀ (i : Nat) (row : TrackRow), w.tracks[i]? = some row → row.event = event ∧ row.id = i ∧ row.nTracks = w.tracks.length ∧ 0 < row.energy ∧
        row.nHits = (w.hits.filter fun r => r.track == (i : Int)).length ∧ row.energy = sumOf ((w.hits.filter fun r => r.track == (i : Int)).map fun r => r.ep)) ∧
      ∀ r ∈ w.hits, (r.track = -1 ∧ r.ep = none) ∨ ∃ (i : Nat) (e : ℚ), i < w.tracks.length ∧ r.track = i ∧ r.ep = some e ∧ 0 < e) ∧
    (c.paolina.maxHits < (hits.filter fun h => decide (Survives c h)).length →
      w.topologyPassed = some false ∧ w.tracks = [] ∧ ∀ r ∈ w.hits, r.track = -1 ∧ r.ep = r.ec) := by
  rcases event_cases (event := event) hc with ⟨hn, _⟩ | ⟨_, hs, w', outs, oom, hsel, e, t, hl, hne⟩
  · obtain ⟨k, hk, hs⟩ := hex
    exact absurd hs (hn k hk)
  · rw [e] at h; cases h
    obtain ⟨hs', h1, h2, h3, _⟩ := select_spec hc.map hc.threshold hc.energies
    rw [hsel] at h1; cases h1
    rw [← hl]
    exact t.tracks hc.sizes hne h3

/-- **C121**: the summary of an event with hits: one row, with the number of tracks and of hits written, their corrected energy and their limits.  The flag of hits out of the map only says that there are too many hits. -/
theorem event_summary {c : Cfg} {event : Int} {hits : List InHit} (hc : Conditions c hits) {w : Written} (h : esmeraldaEvent c event hits = .ok w) (hex : ∃ h ∈ hits, Survives c h) :
    ∃ s, w.summary = [s] ∧ s.event = event ∧ s.nTracks = w.tracks.length ∧ s.nHits = w.hits.length ∧ s.energy = sumOf (w.hits.map fun r => r.ec) ∧
      (s.outOfMap = true ↔ c.paolina.maxHits < (hits.filter fun h => decide (Survives c h)).length) ∧
      ∀ r ∈ w.hits, s.min.x ≤ r.x ∧ r.x ≤ s.max.x ∧ s.min.y ≤ r.y ∧ r.y ≤ s.max.y ∧ s.min.z ≤ r.z ∧ r.z ≤ s.max.z := by
  rcases event_cases (event := event) hc with ⟨hn, _⟩ | ⟨_, hs, w', outs, oom, hsel, e, t, hl, hne⟩
  · obtain ⟨k, hk, hs⟩ := hex
    exact absurd hs (hn k hk)
  · rw [e] at h; cases h
    obtain ⟨hs', h1, h2, h3, _⟩ := select_spec hc.map hc.threshold hc.energies
    rw [hsel] at h1; cases h1
    rw [← hl]
    exact t.summary_row hne h3

/-- **C121**: with the temporal correction no event is processed. -/
theorem event_temporal {c : Cfg} (event : Int) (hits : List InHit) (h : c.applyTemp = true) : ∃ e, esmeraldaEvent c event hits = .raises e := by
  obtain ⟨e, he, _⟩ := KrApply.temporal_correction_fails c.pick c.keV c.mev c.krmap c.dvs c.method c.xy c.applyZ (hits.map toRow)
  refine ⟨e, ?_⟩
  unfold esmeraldaEvent select correct
  rw [h, he]

/-! ### A case -/

def caseCfg : Cfg :=
  { pick := KrApply.firstNearest, keV := 1 / 1000, mev := 1, krmap := [⟨0, 5, 0, 0, some 100⟩, ⟨1, 50, 0, 0, some 50⟩], dvs := [2, 2, 3], applyTemp := false, method := .maximum, xy := none
    applyZ := true, fiducialR := 100, threshold := 5, samePeak := true, paolina := ShortestPaths.taxiParams }

/-- Two slices of a peak, one of them below the threshold, a hit outside and one NN. -/
def caseEvent : List InHit :=
  [⟨0, 0, 10, 0, 10, 8, 1000⟩, ⟨0, 0, 0, 0, 10, 6, 500⟩, ⟨0, 0, 10, 10, 10, 2, 100⟩, ⟨0, 0, 10, 0, 12, 3, 300⟩, ⟨0, 0, 200, 0, 10, 50, 900⟩, ⟨0, 0, -999999, -999999, 14, -999999, 700⟩]

theorem case_conditions : Conditions caseCfg caseEvent where
  map := ⟨KrApply.firstNearest_spec, rfl, ⟨100, by decide +kernel, by decide +kernel⟩, by
    intro b hb mu hmu
    simp only [caseCfg, List.mem_cons, List.not_mem_nil, or_false] at hb
    rcases hb with rfl | rfl <;> · cases hmu; norm_num, by decide +kernel, by decide +kernel⟩
  threshold := by decide +kernel
  sizes := ⟨by decide +kernel, by decide +kernel, by decide +kernel⟩
  paths := ShortestPaths.paths_contract ShortestPaths.taxi_symm ShortestPaths.taxi_pos
  scan := fun _ h => by cases h
  energies := by decide +kernel

example : ∃ h ∈ caseEvent, Survives caseCfg h := by decide +kernel
example : Receivers caseCfg caseEvent := by unfold Receivers; decide +kernel
example : ∀ h ∈ [(⟨0, 0, 200, 0, 10, 50, 900⟩ : InHit)], ¬ Survives caseCfg h := by decide +kernel

def writtenOf : Result → Option Written
  | .ok w => some w
  | _ => none

example : (writtenOf (esmeraldaEvent caseCfg 7 caseEvent)).map (fun w => (w.hitsPassed, w.topologyPassed, w.tracks.length)) = some (true, some true, 1) := by decide +kernel
example : (writtenOf (esmeraldaEvent caseCfg 7 caseEvent)).map (fun w => w.hits.map fun r => (r.x, r.z, r.q, r.track)) = some [(0, 20, 6, 0), (10, 20, 8, 0)] := by decide +kernel

/-- The energy of a hit NN of the input is lost: it is never inside the fiducial radius (the threshold and the merging come later). -/
theorem input_NN_lost : (writtenOf (esmeraldaEvent caseCfg 7 caseEvent)).map (fun w => decide (sumOf (w.hits.map fun r => r.e) < 1901)) = some true := by decide +kernel

end Verif.Esmeralda
