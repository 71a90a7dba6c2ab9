import Verif.Spec.ClusterHits
import Verif.Props.HitBuilder
import Verif.Props.XY
/-!
# C104: hits from the clusters of each slice
-/
namespace Verif.ClusterHits
open Verif.PMaps Verif.Peaks Verif.HitBuilder

theorem not_NN {x : ℚ} (h : 0 ≤ x) : x ≠ Hits.NN := by
  intro e
  rw [e] at h
  unfold Hits.NN at h
  norm_num at h

theorem eFromQ_nonneg {qs : List ℚ} (hq : ∀ q ∈ qs, 0 ≤ q) {e : ℚ} (he : 0 ≤ e) : ∀ x ∈ Hits.eFromQ qs e, 0 ≤ x := by
  intro x hx
  obtain ⟨q, hm, rfl⟩ := List.mem_map.1 hx
  exact div_nonneg (mul_nonneg (hq q hm) he) (add_nonneg (List.sum_nonneg hq) Hits.EPSILON_pos.le)

/-- The hits of the clusters of a slice, with non-negative energies. -/
theorem hits_eq (k : Nat) (z : ℚ) (pos : ℚ × ℚ) : ∀ (cs : List XY.Cluster) (es : List ℚ), (∀ x ∈ es, 0 ≤ x) →
    List.zipWith (fun c en => newHit k c z en pos) cs es = List.zipWith (fun (c : XY.Cluster) en => (⟨k, c.x, c.y, c.vx, c.vy, c.nsipm, c.q, z, en, pos.1, pos.2⟩ : CHit)) cs es
  | [], _, _ => by simp
  | _ :: _, [], _ => by simp
  | c :: cs, e :: es, h => by
    rw [List.zipWith_cons_cons, List.zipWith_cons_cons, hits_eq k z pos cs es (fun x hx => h x (List.mem_cons_of_mem _ hx))]
    simp [newHit, not_NN (h e List.mem_cons_self)]

theorem sliceHits_spec {reco : Reco} {k : Nat} {pos : ℚ × ℚ} {xys : List (ℚ × ℚ)} {z e : ℚ} {qs : List ℚ} {hits : List CHit} (h : sliceHits reco k pos xys z e qs = .ok hits) :
    (0 ≤ e → (∀ cs, reco xys qs = .ok cs → ∀ c ∈ cs, 0 ≤ c.q) → IsSlice reco xys qs e hits) ∧ ∀ r ∈ hits, r.npeak = k ∧ r.xpeak = pos.1 ∧ r.ypeak = pos.2 ∧ r.z = z := by
  unfold sliceHits at h
  cases hr : reco xys qs with
  | error err =>
    simp only [hr] at h
    split at h
    · cases h
      refine ⟨fun he _ => ⟨fun _ _ => ?_, fun cs hc => ?_, fun cs hc => ?_, fun cs hc => ?_, fun cs hc => ?_⟩, ?_⟩
      · simp only [List.map_cons, List.map_nil, newHit, if_neg (not_NN he)]; rfl
      all_goals first | (rw [hr] at hc; cases hc) | skip
      intro r hm
      rw [List.mem_singleton] at hm
      subst hm
      exact ⟨rfl, rfl, rfl, rfl⟩
    · cases h
  | ok cs =>
    simp only [hr, Except.ok.injEq] at h
    subst h
    have hlen : (Hits.eFromQ (cs.map XY.Cluster.q) e).length = cs.length := by simp [Hits.eFromQ]
    constructor
    · intro he hq
      rw [hits_eq k z pos cs _ (eFromQ_nonneg (by
        intro q hm
        obtain ⟨c, hc, rfl⟩ := List.mem_map.1 hm
        exact hq cs rfl c hc) he)]
      have hz : List.zipWith (fun (c : XY.Cluster) en => (⟨k, c.x, c.y, c.vx, c.vy, c.nsipm, c.q, z, en, pos.1, pos.2⟩ : CHit)) cs (Hits.eFromQ (cs.map XY.Cluster.q) e) =
          cs.map fun c => ⟨k, c.x, c.y, c.vx, c.vy, c.nsipm, c.q, z, c.q * e / ((cs.map XY.Cluster.q).sum + Hits.EPSILON), pos.1, pos.2⟩ := by
        unfold Hits.eFromQ
        rw [List.map_map, List.zipWith_map_right, List.zipWith_self]
        rfl
      rw [hz]
      refine ⟨fun err hc => (by rw [hr] at hc; cases hc), fun cs' hc => ?_, fun cs' hc => ?_, fun cs' hc => ?_, fun cs' hc => ?_⟩
      · rw [hr] at hc; cases hc
        rw [List.map_map]; rfl
      · rw [hr] at hc; cases hc
        rw [List.map_map]; rfl
      · intro a ha b hb
        obtain ⟨x, _, rfl⟩ := List.mem_map.1 ha
        obtain ⟨y, _, rfl⟩ := List.mem_map.1 hb
        simp only
        ring
      · rw [hr] at hc; cases hc
        intro hpos
        have hne : (cs.map XY.Cluster.q).sum + Hits.EPSILON ≠ 0 := by have := Hits.EPSILON_pos; linarith
        have hs := (Hits.eFromQ_spec (cs.map XY.Cluster.q) e hne).2.2
        have hm : (List.map CHit.e (cs.map fun c => (⟨k, c.x, c.y, c.vx, c.vy, c.nsipm, c.q, z, c.q * e / ((cs.map XY.Cluster.q).sum + Hits.EPSILON), pos.1, pos.2⟩ : CHit))) =
            Hits.eFromQ (cs.map XY.Cluster.q) e := by
          unfold Hits.eFromQ
          rw [List.map_map, List.map_map]; rfl
        rw [hm, hs]
        have hE := Hits.EPSILON_pos
        rw [show e - e * Hits.EPSILON / ((cs.map XY.Cluster.q).sum + Hits.EPSILON) - e = -(e * (Hits.EPSILON / ((cs.map XY.Cluster.q).sum + Hits.EPSILON))) by ring, abs_neg, abs_mul]
        apply mul_le_mul_of_nonneg_left _ (abs_nonneg e)
        rw [abs_of_nonneg (by positivity)]
        exact div_le_div_of_nonneg_left hE.le hpos (by linarith)
    · intro r hm
      obtain ⟨i, hi⟩ := List.mem_iff_getElem?.1 hm
      rw [List.getElem?_zipWith] at hi
      split at hi
      · cases hi
        exact ⟨rfl, rfl, rfl, rfl⟩
      · cases hi

theorem peakHits_spec {b : Builder} (hb : Sized b) {reco : Reco} {s1t : ℚ} {k : Nat} {p : Peak} (hp : ValidPeak p) {blocks : List (List CHit)}
    (h : peakHits b reco s1t k p = .ok blocks) : IsPeak b reco s1t p k blocks.flatten := by
  obtain ⟨q, hq, hv, -⟩ := rebinPeak_conserves p hp b.rebin
  simp only [peakHits, hq] at h
  cases h1 : KrEvent.positions b.xys q.sipms with
  | error e => simp [h1] at h
  | ok xys =>
  simp only [h1] at h
  cases h2 : b.pointCharges q with
  | error e => simp [h2] at h
  | ok qs =>
  simp only [h2] at h
  cases h3 : globalReco b xys qs with
  | error e => simp [h3] at h
  | ok pos =>
  simp only [h3] at h
  cases h4 : b.sliceCharges q with
  | error e => simp [h4] at h
  | ok charges =>
  simp only [h4] at h
  obtain ⟨hne, hl, hpos⟩ := positions_spec h1
  have hids : q.sipms.ids ≠ [] := by
    rcases hv.sipm with h5 | ⟨_, _, _, h6⟩
    · exact absurd h5 hne
    · exact h6
  have hcl := hb q hv hids charges h4
  have hf := mapM_ok_iff.1 h
  have hsl : q.pmts.sumOverSensors.length = q.times.length := by rw [Responses.sumOverSensors, Mat.sumSensors_length, hv.pmtCols]
  have hbl : blocks.length = q.times.length := by
    rw [← hf.length_eq]; simp [hcl, hsl]
  refine ⟨q, xys, pos, charges, blocks, hq, hl, fun j id hj => (hpos j id hj).1, globalReco_spec h2 h3, h4, rfl, hbl, hcl, ?_, ?_⟩
  · intro r hr
    obtain ⟨bl, hbm, hrb⟩ := List.mem_flatten.1 hr
    obtain ⟨s, _, hs⟩ := KrEvent.forall₂_mem_right hf hbm
    obtain ⟨a, b', c, _⟩ := (sliceHits_spec hs).2 r hrb
    exact ⟨a, b', c⟩
  · intro i t e cs ht he hc
    have : ((q.times.map fun t => (t - s1t) * 1 * b.driftV).zip (q.pmts.sumOverSensors.zip charges))[i]? =
        some ((t - s1t) * 1 * b.driftV, e, cs) := by
      simp only [List.getElem?_zip_eq_some, List.getElem?_map, ht, he, hc, Option.map_some, true_and, and_self]
    obtain ⟨bl, hbl', hs⟩ := KrEvent.forall₂_get hf this
    refine ⟨bl, hbl', (sliceHits_spec hs).1, fun r hr => ?_⟩
    have := ((sliceHits_spec hs).2 r hr).2.2.2
    rw [this]; ring

theorem peaksHits_spec {b : Builder} (hb : Sized b) {reco : Reco} {s1t : ℚ} : ∀ (l : List ((Bool × Peak) × Nat)) {out : List (List CHit)},
    (∀ x ∈ l, x.1.1 = true → ValidPeak x.1.2) → peaksHits b reco s1t l = .ok out →
    ∃ blocks, List.Forall₂ (fun (x : Peak × Nat) hits => IsPeak b reco s1t x.1 x.2 hits)
      ((l.filter fun x => x.1.1).map fun x => (x.1.2, x.2)) blocks ∧ out.flatten = blocks.flatten
  | [], out, _, h => by
    simp only [peaksHits, Except.ok.injEq] at h
    subst h
    exact ⟨[], .nil, rfl⟩
  | ((passed, p), k) :: rest, out, hv, h => by
    have hrest : ∀ x ∈ rest, x.1.1 = true → ValidPeak x.1.2 := fun x hx => hv x (List.mem_cons_of_mem _ hx)
    rw [peaksHits] at h
    cases passed with
    | false =>
      simp only [Bool.not_false, if_true] at h
      simpa using peaksHits_spec hb rest hrest h
    | true =>
      simp only [Bool.not_true, Bool.false_eq_true, if_false] at h
      cases h1 : peakHits b reco s1t k p with
      | error e => simp [h1] at h
      | ok a =>
        simp only [h1] at h
        cases h2 : peaksHits b reco s1t rest with
        | error e => simp [h2] at h
        | ok c =>
          simp only [h2, Except.ok.injEq] at h
          subst h
          obtain ⟨blocks, g1, g2⟩ := peaksHits_spec hb rest hrest h2
          refine ⟨a.flatten :: blocks, ?_, by simp [g2]⟩
          rw [List.filter_cons_of_pos rfl, List.map_cons]
          exact .cons (peakHits_spec hb (hv _ List.mem_cons_self rfl) h1) g1

/-- **C104** The collection of hits of an event: its event number and its time in ms; the hits of the selected S2s, in order, with the number of the peak in the PMap, its overall position and, slice by slice,
either one hit per cluster or one without position that carries the energy. -/
theorem build_spec {b : Builder} (hb : Sized b) {reco : Reco} {f1 f2 : List Bool} {s1s s2s : List Peak} {event : Int} {ts : ℚ} {out : Collection}
    (hv : ∀ x ∈ selectedS2s f2 s2s, ValidPeak x.1) (h : build b reco f1 f2 s1s s2s event ts = .ok out) :
    out.event = event ∧ out.time = ts / 1000 ∧ ∃ t, RefTime f1 f2 s1s s2s t ∧ ∃ blocks,
      List.Forall₂ (fun (x : Peak × Nat) hits => IsPeak b reco t x.1 x.2 hits) (selectedS2s f2 s2s) blocks ∧ out.hits = blocks.flatten := by
  rw [build] at h
  cases h1 : s1Time f1 f2 s1s s2s with
  | error e => simp [h1] at h
  | ok t =>
    simp only [h1] at h
    cases h2 : peaksHits b reco t (f2.zip s2s).zipIdx with
    | error e => rw [h2] at h; cases h
    | ok hits =>
      simp only [h2, Except.ok.injEq] at h
      subst h
      have hv' : ∀ x ∈ (f2.zip s2s).zipIdx, x.1.1 = true → ValidPeak x.1.2 := fun x hx hp =>
        hv (x.1.2, x.2) (List.mem_map.2 ⟨x, List.mem_filter.2 ⟨hx, hp⟩, rfl⟩)
      obtain ⟨blocks, g1, g2⟩ := peaksHits_spec hb _ hv' h2
      exact ⟨rfl, by simp only; ring, t, s1Time_spec h1, blocks, g1, g2⟩

/-- **C104** The energy of the hits of a peak is that of the peak, but for the epsilon, when the charge of the clusters of each slice is at least `qmin`. -/
theorem peak_energy {b : Builder} {reco : Reco} {t : ℚ} {p : Peak} {k : Nat} {hits : List CHit} {qmin : ℚ} (hq0 : 0 < qmin) (hp : ValidPeak p)
    (hpos : ∀ q, rebinPeak p b.rebin = .ok q → ∀ e ∈ q.pmts.sumOverSensors, 0 ≤ e)
    (hr : ∀ xys qs cs, reco xys qs = .ok cs → (∀ c ∈ cs, 0 ≤ c.q) ∧ qmin ≤ (cs.map XY.Cluster.q).sum) (h : IsPeak b reco t p k hits) :
    |(hits.map CHit.e).sum - (p.pmts.wfs.rows.map List.sum).sum| ≤ (p.pmts.wfs.rows.map List.sum).sum * (Hits.EPSILON / qmin) := by
  obtain ⟨q, xys, pos, charges, blocks, h1, _, _, _, _, h6, h7, hcl, _, h9⟩ := h
  obtain ⟨q', g1, g2, _, _, g5, _, _⟩ := rebinPeak_conserves p hp b.rebin
  rw [h1, Except.ok.injEq] at g1
  subst g1
  have hsl : q.pmts.sumOverSensors.length = q.times.length := by rw [Responses.sumOverSensors, Mat.sumSensors_length, g2.pmtCols]
  have hE := Hits.EPSILON_pos
  have hF : List.Forall₂ (fun (bl : List CHit) e => |(bl.map CHit.e).sum - e| ≤ |e| * (Hits.EPSILON / qmin)) blocks q.pmts.sumOverSensors := by
    rw [List.forall₂_iff_get]
    refine ⟨by omega, fun i hi1 hi2 => ?_⟩
    have hi2' : i < q.pmts.sumOverSensors.length := hi2
    have hi3 : i < q.times.length := by omega
    have hi4 : i < charges.length := by omega
    obtain ⟨bl, b1, b2, _⟩ := h9 i q.times[i] q.pmts.sumOverSensors[i] charges[i] (List.getElem?_eq_getElem hi3) (List.getElem?_eq_getElem hi2') (List.getElem?_eq_getElem hi4)
    have e0 := hpos q h1 q.pmts.sumOverSensors[i] (List.getElem_mem hi2')
    have hs := b2 e0 (fun cs hc => (hr _ _ cs hc).1)
    have hb : blocks.get ⟨i, hi1⟩ = bl := by
      rw [List.getElem?_eq_getElem hi1, Option.some.injEq] at b1
      exact b1
    rw [hb]
    change |(bl.map CHit.e).sum - q.pmts.sumOverSensors[i]| ≤ |q.pmts.sumOverSensors[i]| * _
    cases hc : reco xys charges[i] with
    | error err =>
      have := congrArg (List.map fun x : ℚ × ℚ × ℚ × Nat × ℚ => x.2.2.2.2) (hs.failed err hc)
      rw [List.map_map] at this
      have e : bl.map CHit.e = [q.pmts.sumOverSensors[i]] := this
      rw [e]
      simp only [List.sum_cons, List.sum_nil, add_zero, sub_self, abs_zero]
      positivity
    | ok cs =>
      obtain ⟨r1, r2⟩ := hr _ _ cs hc
      refine (hs.energy cs hc (by linarith)).trans (mul_le_mul_of_nonneg_left ?_ (abs_nonneg _))
      exact div_le_div_of_nonneg_left hE.le hq0 r2
  have := flatten_sum_le CHit.e (Hits.EPSILON / qmin) blocks q.pmts.sumOverSensors hF
  rw [h6]
  have habs : (q.pmts.sumOverSensors.map abs).sum = q.pmts.sumOverSensors.sum := by
    have : q.pmts.sumOverSensors.map abs = q.pmts.sumOverSensors.map id := List.map_congr_left fun e he => abs_of_nonneg (hpos q h1 e he)
    rw [this, List.map_id]
  have hsum : q.pmts.sumOverSensors.sum = (p.pmts.wfs.rows.map List.sum).sum := by
    rw [Responses.sumOverSensors, Mat.sum_sumSensors _ g2.pmtWF, Mat.sumTimes, g5]
  rw [habs, hsum] at this
  exact this

/-- An event with a selected S1 and no selected S2 has no hits (`sipms_as_hits` fails for it). -/
theorem build_no_s2 {b : Builder} {reco : Reco} {f1 f2 : List Bool} {s1s s2s : List Peak} {event : Int} {ts t : ℚ} (ht : s1Time f1 f2 s1s s2s = .ok t)
    (h : ∀ x ∈ f2, x = false) : build b reco f1 f2 s1s s2s event ts = .ok ⟨event, ts / 1000, []⟩ := by
  have key : ∀ (l : List ((Bool × Peak) × Nat)) (a : ℚ), (∀ x ∈ l, x.1.1 = false) → peaksHits b reco a l = .ok [] := by
    intro l a hl
    induction l with
    | nil => rfl
    | cons x l ih =>
      obtain ⟨⟨p, q⟩, k⟩ := x
      have : p = false := hl _ List.mem_cons_self
      subst this
      simpa [peaksHits] using ih (fun x hx => hl x (List.mem_cons_of_mem _ hx))
  rw [build, ht]
  simp only
  rw [key]
  · simp only [List.flatten_nil, mul_one_div]
  · intro x hx
    exact h _ (List.of_mem_zip (PMapsIO.fst_mem_of_zipIdx hx)).1

/-- **C104** With a reconstruction that gives clusters or fails with an exception of its own, and raw charges, an event whose reference time exists always gives its hits. -/
theorem build_succeeds {b : Builder} {reco : Reco} (h1 : b.pointCharges = rawPoint) (h2 : b.sliceCharges = rawSlices) (hr : RecoOk b)
    (hs : ∀ xys qs, (∃ cs, reco xys qs = .ok cs) ∨ ∃ e, reco xys qs = .error e ∧ KrEvent.RecoFailure e) {f1 f2 : List Bool}
    {s1s s2s : List Peak} {event : Int} {ts t : ℚ} (ht : s1Time f1 f2 s1s s2s = .ok t) (hg : ∀ x ∈ selectedS2s f2 s2s, GoodS2 b x.1) :
    ∃ out, build b reco f1 f2 s1s s2s event ts = .ok out := by
  have hslice : ∀ k pos xys z e qs, ∃ hits, sliceHits reco k pos xys z e qs = .ok hits := by
    intro k pos xys z e qs
    rcases hs xys qs with ⟨cs, hc⟩ | ⟨err, hc, hx⟩
    · exact ⟨_, by simp only [sliceHits, hc]; rfl⟩
    · exact ⟨_, by simp only [sliceHits, hc, (KrEvent.recoFail_iff _).2 hx, if_true]; rfl⟩
  have hpeak : ∀ k p, GoodS2 b p → ∃ blocks, peakHits b reco t k p = .ok blocks := by
    intro k p hp
    obtain ⟨q, hq, hv, _, g4, _⟩ := rebinPeak_conserves p hp.valid b.rebin
    have hids : q.sipms.ids ≠ [] := by rw [g4]; exact hp.sipms
    have hne : q.sipms ≠ Responses.empty := fun h => hids (by rw [h]; rfl)
    obtain ⟨xys, hx, hxl, _⟩ := npTake_ok b.xys q.sipms.ids (fun i hi => hp.inDb i (by rw [← g4]; exact hi))
    have hgr : ∃ pos, globalReco b xys q.sipms.sumOverTimes = .ok pos := by
      rcases hr xys q.sipms.sumOverTimes with ⟨c, cs, h⟩ | ⟨e, h, he⟩
      · exact ⟨c, by simp [globalReco, h]⟩
      · exact ⟨(Hits.NN, Hits.NN), by simp only [globalReco, h, (KrEvent.recoFail_iff _).2 he, if_true]⟩
    obtain ⟨pos, hgr⟩ := hgr
    simp only [peakHits, hq, KrEvent.positions, hne, if_false, hx, h1, rawPoint, hgr, h2, rawSlices]
    exact mapM_ok fun s _ => hslice _ _ _ _ _ _
  have hpeaks : ∀ l : List ((Bool × Peak) × Nat), (∀ x ∈ l, x.1.1 = true → GoodS2 b x.1.2) → ∃ out, peaksHits b reco t l = .ok out := by
    intro l
    induction l with
    | nil => intro _; exact ⟨[], rfl⟩
    | cons x l ih =>
      intro hl
      obtain ⟨⟨passed, p⟩, k⟩ := x
      obtain ⟨out, ho⟩ := ih (fun x hx => hl x (List.mem_cons_of_mem _ hx))
      cases passed with
      | false => exact ⟨out, by simpa [peaksHits] using ho⟩
      | true =>
        obtain ⟨a, ha⟩ := hpeak k p (hl _ List.mem_cons_self rfl)
        exact ⟨a ++ out, by simp [peaksHits, ha, ho]⟩
  obtain ⟨out, ho⟩ := hpeaks (f2.zip s2s).zipIdx (fun x hx hp => hg (x.1.2, x.2) (List.mem_map.2 ⟨x, List.mem_filter.2 ⟨hx, hp⟩, rfl⟩))
  exact ⟨_, by rw [build, ht]; simp only [ho]; rfl⟩

/-- **C104** With the barycenter of the SiPMs over `qthr > 0` there is exactly one hit per slice: at the barycenter of the SiPMs that reach the threshold, with their charge, of at least `qthr`; or without position if there
is none. -/
theorem bary_slice {qthr : ℚ} (hq : 0 < qthr) (xys : List (ℚ × ℚ)) (qs : List ℚ) (hl : qs.length = xys.length) (hq0 : ∀ q ∈ qs, 0 ≤ q) :
    ((∀ q ∈ qs, q < qthr) → ∃ e, baryReco qthr xys qs = .error e ∧ KrEvent.RecoFailure e) ∧
    ((∃ q ∈ qs, qthr ≤ q) → ∃ c, baryReco qthr xys qs = .ok [c] ∧ c.q = (qs.filter fun q => decide (qthr ≤ q)).sum ∧ qthr ≤ c.q ∧ c.nsipm = (qs.filter fun q => decide (qthr ≤ q)).length ∧
      c.x * c.q = (((xys.zip qs).filter fun s => decide (qthr ≤ s.2)).map fun s => s.1.1 * s.2).sum ∧ c.y * c.q = (((xys.zip qs).filter fun s => decide (qthr ≤ s.2)).map fun s => s.1.2 * s.2).sum) := by
  set sip : List XY.Sipm := (xys.zip qs).map fun s => ⟨s.1.1, s.1.2, s.2⟩ with hsip
  have he : baryReco qthr xys qs = XY.barycenter sip qthr := by
    rw [hsip, baryReco, List.zip, List.map_zipWith]
  have hqs : sip.map XY.Sipm.q = qs := by
    rw [hsip, List.map_map]
    exact List.map_snd_zip (by omega)
  have hmem : ∀ q, q ∈ qs ↔ ∃ s ∈ sip, s.q = q := by
    intro q
    rw [← hqs, List.mem_map]
  have hch : XY.charge sip = qs.sum := by rw [XY.charge, hqs]
  have hfil : (sip.filter fun s => decide (qthr ≤ s.q)) = (((xys.zip qs).filter fun s => decide (qthr ≤ s.2)).map fun s => ⟨s.1.1, s.1.2, s.2⟩) := by
    rw [hsip, List.filter_map]; rfl
  have hfq : (sip.filter fun s => decide (qthr ≤ s.q)).map XY.Sipm.q = qs.filter fun q => decide (qthr ≤ q) := by
    conv_rhs => rw [← hqs, List.filter_map]
    rfl
  obtain ⟨b1, b2, b3, _, b5⟩ := XY.barycenter_spec sip qthr
  rw [he]
  refine ⟨fun hall => ?_, fun ⟨q0, hm, hle⟩ => ?_⟩
  · by_cases hn : sip = []
    · exact ⟨_, b1 hn, by simp [KrEvent.RecoFailure]⟩
    · by_cases h0 : XY.charge sip = 0
      · exact ⟨_, b2 hn h0, by simp [KrEvent.RecoFailure]⟩
      · exact ⟨_, b3 h0 (fun s hs => hall _ ((hmem _).2 ⟨s, hs, rfl⟩)), by simp [KrEvent.RecoFailure]⟩
  · have hle' : q0 ≤ (qs.filter fun q => decide (qthr ≤ q)).sum :=
      List.single_le_sum (fun x hx => hq0 x (List.mem_of_mem_filter hx)) q0 (List.mem_filter.2 ⟨hm, by simpa using hle⟩)
    have hpos : 0 < qs.sum := by
      have := List.single_le_sum hq0 q0 hm
      linarith
    have hf : XY.charge (sip.filter fun s => decide (qthr ≤ s.q)) = (qs.filter fun q => decide (qthr ≤ q)).sum := by
      rw [XY.charge, hfq]
    obtain ⟨c, hc, hS⟩ := b5 (by rw [hch]; linarith) (by rw [hf]; linarith)
    have hcq : c.q = (qs.filter fun q => decide (qthr ≤ q)).sum := by rw [hS.q, hf]
    refine ⟨c, hc, hcq, by rw [hcq]; linarith, by rw [hS.n, ← hfq, List.length_map], ?_, ?_⟩
    · rw [hS.x, hfil, List.map_map]
      congr 1
      exact List.map_congr_left fun s _ => mul_comm _ _
    · rw [hS.y, hfil, List.map_map]
      congr 1
      exact List.map_congr_left fun s _ => mul_comm _ _

/-- **C104** What `peak_energy` needs of the reconstruction, for the barycenter with any positive threshold. -/
theorem bary_charge {qthr : ℚ} (hq : 0 < qthr) (xys : List (ℚ × ℚ)) (qs : List ℚ) (cs : List XY.Cluster) (h : baryReco qthr xys qs = .ok cs) :
    (∀ c ∈ cs, 0 ≤ c.q) ∧ qthr ≤ (cs.map XY.Cluster.q).sum := by
  unfold baryReco at h
  generalize List.zipWith (fun (p : ℚ × ℚ) (q : ℚ) => (⟨p.1, p.2, q⟩ : XY.Sipm)) xys qs = sip at h
  cases ht : XY.thresholdCheck sip qthr with
  | error e => simp [XY.barycenter, ht] at h
  | ok above =>
    obtain ⟨c, hc, hS, _, hne⟩ := XY.barycenter_ok ht
    rw [hc, Except.ok.injEq] at h
    subst h
    have hab := (XY.thresholdCheck_ok ht).1
    have hge : ∀ s ∈ above, qthr ≤ s.q := fun s hs => by
      rw [hab] at hs
      simpa using (List.mem_filter.1 hs).2
    obtain ⟨s, hs⟩ := List.exists_mem_of_ne_nil _ hne
    have h0 : ∀ q ∈ above.map XY.Sipm.q, 0 ≤ q := fun q hm => by
      obtain ⟨t, ht, rfl⟩ := List.mem_map.1 hm
      exact hq.le.trans (hge t ht)
    have h1 : s.q ≤ c.q := by
      rw [hS.q]
      exact List.single_le_sum h0 s.q (List.mem_map_of_mem hs)
    have h2 := hge s hs
    refine ⟨fun c' hc' => ?_, ?_⟩
    · rw [List.mem_singleton] at hc'
      subst hc'
      linarith
    · simp only [List.map_cons, List.map_nil, List.sum_cons, List.sum_nil]
      linarith

/-! ### Non-vacuity -/

example : (match build exB (baryReco 5) [true] [false, true] [exS1] [exS1, exS2] 7 3000 with
    | .ok c => decide (c.event = 7 ∧ c.time = 3 ∧ c.hits.map (fun h => (h.npeak, h.x, h.q, h.z)) = [(1, 25 / 2, 16, 14), (1, -999999, -999999, 28)])
    | .error _ => false) = true := by decide +kernel

/-- Two clusters in a slice: the energy is shared. -/
example : (match sliceHits (fun _ _ => .ok [⟨1, 0, 0, 0, 0, 1⟩, ⟨3, 10, 5, 0, 0, 2⟩]) 4 (1, 2) [] 7 20 [] with
    | .ok hits => decide (hits.map (fun h => (h.npeak, h.x, h.y, h.z)) = [(4, 0, 0, 7), (4, 10, 5, 7)] ∧ (hits.map CHit.e).map (fun e => decide (4 < e ∧ e < 6)) = [true, false])
    | .error _ => false) = true := by decide +kernel

example : ∀ q, rebinPeak exS2 exB.rebin = .ok q → ∀ e ∈ q.pmts.sumOverSensors, 0 ≤ e := by
  have h : (match rebinPeak exS2 exB.rebin with | .ok q => q.pmts.sumOverSensors.all (fun e => decide (0 ≤ e)) | .error _ => false) = true := by decide +kernel
  intro q hq e he
  rw [hq] at h
  simpa using List.all_eq_true.1 h e he
example : ∃ out, build exB (baryReco 1) [true] [false, true] [exS1] [exS1, exS2] 7 3000 = .ok out := by
  cases h : build exB (baryReco 1) [true] [false, true] [exS1] [exS1, exS2] 7 3000 with
  | ok out => exact ⟨out, rfl⟩
  | error e =>
    have : (match build exB (baryReco 1) [true] [false, true] [exS1] [exS1, exS2] 7 3000 with | .ok _ => true | .error _ => false) = true := by decide +kernel
    rw [h] at this
    cases this
example : s1Time [true] [false] [exS1] [exS2] = .ok 2 ∧ ∀ x ∈ [false], x = false := by decide +kernel
example : (match baryReco 2 [(0, 0), (10, 0), (20, 5)] [1, 6, 2] with | .ok cs => decide (cs = [⟨8, 25 / 2, 5 / 4, 75 / 4, 75 / 16, 2⟩]) | .error _ => false) = true ∧
    (match baryReco 20 [(0, 0), (10, 0), (20, 5)] [1, 6, 2] with | .ok _ => false | .error e => decide (e = .other "SipmEmptyListAboveQthr")) = true := by decide +kernel

end Verif.ClusterHits
