import Verif.Spec.HitBuilder
import Verif.Props.Hits
import Verif.Props.PMaps
import Verif.Props.KrEvent
import Verif.Props.PMapsIO
/-!
# C53: the hits of an event are those of its selected S2s
-/
namespace Verif.HitBuilder
open Verif.PMaps Verif.Peaks

/-- For a peak with SiPMs, the charge function gives one list of charges per slice. -/
def Sized (b : Builder) : Prop :=
  ∀ q, ValidPeak q → q.sipms.ids ≠ [] → ∀ charges, b.sliceCharges q = .ok charges → charges.length = q.times.length

theorem sized_raw {b : Builder} (h : b.sliceCharges = rawSlices) : Sized b := by
  intro q hq hne charges hc
  rw [h] at hc
  simp only [rawSlices, Except.ok.injEq] at hc
  rw [← hc]
  rcases hq.sipm with h1 | ⟨_, h2, _⟩
  · rw [h1] at hne; exact absurd rfl hne
  · simp [h2]

theorem whereIdx_first {fl : List Bool} {i : Nat} {l : List Nat} (h : whereIdx id fl = i :: l) : FirstSet fl i := by
  have hi : i ∈ whereIdx id fl := by rw [h]; exact List.mem_cons_self
  obtain ⟨x, hx, hp⟩ := whereIdx_mem.1 hi
  refine ⟨by rw [hx]; simpa using hp, fun j hj => ?_⟩
  have hlt := (List.getElem?_eq_some_iff.1 hx).1
  have hjl : j < fl.length := by omega
  rw [List.getElem?_eq_getElem hjl]
  cases hv : fl[j] with
  | false => rfl
  | true =>
    have hm : j ∈ whereIdx id fl := whereIdx_mem.2 ⟨true, by rw [List.getElem?_eq_getElem hjl, hv], rfl⟩
    have hs := whereIdx_sorted id fl
    rw [h] at hm hs
    rcases List.mem_cons.1 hm with rfl | hm
    · omega
    · have := (List.pairwise_cons.1 hs).1 j hm; omega

theorem whereIdx_none {fl : List Bool} (h : whereIdx id fl = []) : ∀ x ∈ fl, x = false := by
  intro x hx
  obtain ⟨j, hj⟩ := List.getElem?_of_mem hx
  cases x with
  | false => rfl
  | true =>
    have : j ∈ whereIdx id fl := whereIdx_mem.2 ⟨true, hj, rfl⟩
    rw [h] at this; cases this

theorem s1Time_spec {f1 f2 : List Bool} {s1s s2s : List Peak} {t : ℚ} (h : s1Time f1 f2 s1s s2s = .ok t) : RefTime f1 f2 s1s s2s t := by
  rw [s1Time] at h
  cases h1 : whereIdx id f1 with
  | cons i l =>
    simp only [h1] at h
    cases h2 : s1s[i]? with
    | none => simp [h2] at h
    | some p => simp only [h2] at h; exact .s1 (whereIdx_first h1) h2 h
  | nil =>
    simp only [h1] at h
    cases h2 : whereIdx id f2 with
    | nil => simp [h2] at h
    | cons j l =>
      simp only [h2] at h
      cases h3 : s2s[j]? with
      | none => simp [h3] at h
      | some p =>
        simp only [h3] at h
        cases h4 : p.times with
        | nil => simp [h4] at h
        | cons t' l' =>
          simp only [h4, Except.ok.injEq] at h
          subst h
          exact .s2 (whereIdx_none h1) (whereIdx_first h2) h3 (by simp [h4])

theorem positions_spec {xys : List (ℚ × ℚ)} {r : Responses} {out : List (ℚ × ℚ)} (h : KrEvent.positions xys r = .ok out) :
    r ≠ Responses.empty ∧ out.length = r.ids.length ∧ ∀ (j id : Nat), r.ids[j]? = some id → out[j]? = xys[id]? ∧ id < xys.length := by
  rw [KrEvent.positions] at h
  split at h
  · cases h
  · rename_i hne
    refine ⟨hne, ?_⟩
    rw [npTake] at h
    have hf := mapM_ok_iff.1 h
    refine ⟨hf.length_eq.symm, fun j id hj => ?_⟩
    obtain ⟨y, hy, hxy⟩ := KrEvent.forall₂_get hf hj
    cases hc : xys[id]? with
    | none => simp [hc] at hxy
    | some v =>
      simp only [hc, Except.ok.injEq] at hxy
      exact ⟨by rw [hy, hxy], (List.getElem?_eq_some_iff.1 hc).1⟩

theorem sliceRows_spec {b : Builder} {event : Int} {time : ℚ} {k : Nat} {pos : ℚ × ℚ} {xys : List (ℚ × ℚ)} {z e : ℚ} {qs : List ℚ}
    {rows : List Row} (h : sliceRows b event time k pos xys z e qs = .ok rows) :
    SliceHits b.qThr xys qs e rows ∧ ∀ r ∈ rows, r.event = event ∧ r.time = time ∧ r.npeak = k ∧ r.xpeak = pos.1 ∧ r.ypeak = pos.2 ∧ r.z = z := by
  rw [sliceRows] at h
  split at h
  · cases h
  rename_i hlen
  have hlen : qs.length = xys.length := not_not.1 hlen
  simp only [Except.ok.injEq] at h
  set sipms := List.zipWith (fun (xy : ℚ × ℚ) q => (xy.1, xy.2, q)) xys qs with hs
  have hz : sipms = (xys.zip qs).map fun s => (s.1.1, s.1.2, s.2) := by rw [hs, List.zip, List.map_zipWith]
  have hmem : ∀ q, (∃ s ∈ sipms, s.2.2 = q) ↔ q ∈ qs := by
    intro q
    have h2 : qs = (xys.zip qs).map Prod.snd := (List.map_snd_zip (by omega)).symm
    rw [hz]; conv_rhs => rw [h2]
    simp
  have hsnd : (∃ s ∈ sipms, b.qThr ≤ s.2.2) ↔ ∃ q ∈ qs, b.qThr ≤ q :=
    ⟨fun ⟨s, h1, h2⟩ => ⟨_, (hmem _).1 ⟨s, h1, rfl⟩, h2⟩, fun ⟨q, h1, h2⟩ => by
      obtain ⟨s, h3, rfl⟩ := (hmem q).2 h1; exact ⟨s, h3, h2⟩⟩
  subst h
  refine ⟨⟨?_, ?_, ?_, ?_⟩, ?_⟩
  · intro hn
    rw [Hits.sipmsAboveThreshold_none sipms b.qThr e (fun s hs' => hn _ ((hmem _).1 ⟨s, hs', rfl⟩))]
    rfl
  · intro hn
    have h1 := (Hits.sipmsAboveThreshold_some sipms b.qThr e (hsnd.2 hn)).1
    have h2 := congrArg (List.map fun (s : ℚ × ℚ × ℚ) => ((s.1, s.2.1), s.2.2)) h1
    rw [List.map_map] at h2
    rw [List.map_map]
    refine Eq.trans ?_ (h2.trans ?_)
    · rfl
    · rw [hz, List.filter_map, List.map_map]
      rw [List.map_congr_left (g := id) (by intro a _; rfl), List.map_id]
      rfl
  · intro hn r hr r' hr'
    obtain ⟨a, ha, rfl⟩ := List.mem_map.1 hr
    obtain ⟨a', ha', rfl⟩ := List.mem_map.1 hr'
    exact (Hits.sipmsAboveThreshold_some sipms b.qThr e (hsnd.2 hn)).2.1 a ha a' ha'
  · intro ht
    have := Hits.slice_total 0 0 ⟨z, e, sipms⟩ b.qThr ht
    simpa [Hits.total, List.map_map, Function.comp_def] using this
  · intro r hr
    obtain ⟨a, _, rfl⟩ := List.mem_map.1 hr
    exact ⟨rfl, rfl, rfl, rfl, rfl, rfl⟩

theorem globalReco_spec {b : Builder} {q : Peak} {xys : List (ℚ × ℚ)} {qs : List ℚ} {pos : ℚ × ℚ} (hq : b.pointCharges q = .ok qs)
    (h : globalReco b xys qs = .ok pos) : PeakPos b q xys pos := by
  rw [globalReco] at h
  cases hr : b.reco xys qs with
  | error e =>
    simp only [hr] at h
    split at h
    · rename_i hf
      cases h
      exact .failed hq hr ((KrEvent.recoFail_iff _).1 hf)
    · cases h
  | ok cs =>
    cases cs with
    | nil => simp [hr] at h
    | cons c cs => simp only [hr, Except.ok.injEq] at h; subst h; exact .found hq hr

theorem peakRows_spec {b : Builder} (hb : Sized b) {event : Int} {time s1t : ℚ} {k : Nat} {p : Peak} (hp : ValidPeak p) {blocks : List (List Row)}
    (h : peakRows b event time s1t k p = .ok blocks) : PeakHits b event time s1t p k blocks.flatten ∧ blocks ≠ [] := by
  obtain ⟨q, hq, hv, -⟩ := rebinPeak_conserves p hp b.rebin
  simp only [peakRows, hq, bind, Except.bind] at h
  cases h1 : KrEvent.positions b.xys q.sipms with
  | error e => simp [h1] at h
  | ok xys =>
  simp only [h1] at h
  cases h2 : b.pointCharges q with
  | error e => simp [h2] at h
  | ok qs =>
  simp only [h2] at h
  cases h3 : globalReco b xys qs with
  | error e => simp [h3] at h
  | ok pos =>
  simp only [h3] at h
  cases h4 : b.sliceCharges q with
  | error e => simp [h4] at h
  | ok charges =>
  simp only [h4] at h
  obtain ⟨hne, hl, hpos⟩ := positions_spec h1
  have hids : q.sipms.ids ≠ [] := by
    rcases hv.sipm with h5 | ⟨_, _, _, h6⟩
    · exact absurd h5 hne
    · exact h6
  have hcl := hb q hv hids charges h4
  have hf := mapM_ok_iff.1 h
  have hsl : q.pmts.sumOverSensors.length = q.times.length := by rw [Responses.sumOverSensors, Mat.sumSensors_length, hv.pmtCols]
  have hbl : blocks.length = q.times.length := by
    rw [← hf.length_eq]; simp [hcl, hsl]
  refine ⟨⟨q, xys, pos, charges, blocks, hq, hl, fun j id hj => (hpos j id hj).1, globalReco_spec h2 h3, h4, rfl, hbl, hcl, ?_, ?_⟩, ?_⟩
  · intro r hr
    obtain ⟨bl, hbm, hrb⟩ := List.mem_flatten.1 hr
    obtain ⟨s, _, hs⟩ := KrEvent.forall₂_mem_right hf hbm
    obtain ⟨a, b', c, d, e, _⟩ := (sliceRows_spec hs).2 r hrb
    exact ⟨a, b', c, d, e⟩
  · intro i t e cs ht he hc
    have : ((q.times.map fun t => (t - s1t) * 1 * b.driftV).zip (q.pmts.sumOverSensors.zip charges))[i]? =
        some ((t - s1t) * 1 * b.driftV, e, cs) := by
      simp only [List.getElem?_zip_eq_some, List.getElem?_map, ht, he, hc, Option.map_some, true_and, and_self]
    obtain ⟨bl, hbl', hs⟩ := KrEvent.forall₂_get hf this
    refine ⟨bl, hbl', (sliceRows_spec hs).1, fun r hr => ?_⟩
    have := ((sliceRows_spec hs).2 r hr).2.2.2.2.2
    rw [this]; ring
  · intro hc
    rw [hc] at hbl
    exact hv.nonempty (List.eq_nil_of_length_eq_zero hbl.symm)

theorem peaksRows_spec {b : Builder} (hb : Sized b) {event : Int} {time s1t : ℚ} : ∀ (l : List ((Bool × Peak) × Nat)) {out : List (List Row)},
    (∀ x ∈ l, x.1.1 = true → ValidPeak x.1.2) → peaksRows b event time s1t l = .ok out →
    ∃ blocks, List.Forall₂ (fun (x : Peak × Nat) rows => PeakHits b event time s1t x.1 x.2 rows)
      ((l.filter fun x => x.1.1).map fun x => (x.1.2, x.2)) blocks ∧ out.flatten = blocks.flatten ∧ (out = [] ↔ blocks = [])
  | [], out, _, h => by
    simp only [peaksRows, Except.ok.injEq] at h
    subst h
    exact ⟨[], .nil, rfl, by simp⟩
  | ((passed, p), k) :: rest, out, hv, h => by
    have hrest : ∀ x ∈ rest, x.1.1 = true → ValidPeak x.1.2 := fun x hx => hv x (List.mem_cons_of_mem _ hx)
    rw [peaksRows] at h
    cases passed with
    | false =>
      simp only [Bool.not_false, if_true] at h
      simpa using peaksRows_spec hb rest hrest h
    | true =>
      simp only [Bool.not_true, Bool.false_eq_true, if_false] at h
      cases h1 : peakRows b event time s1t k p with
      | error e => simp [h1] at h
      | ok a =>
        simp only [h1] at h
        cases h2 : peaksRows b event time s1t rest with
        | error e => simp [h2] at h
        | ok c =>
          simp only [h2, Except.ok.injEq] at h
          subst h
          obtain ⟨blocks, g1, g2, g3⟩ := peaksRows_spec hb rest hrest h2
          obtain ⟨k1, k2⟩ := peakRows_spec hb (hv _ List.mem_cons_self rfl) h1
          refine ⟨a.flatten :: blocks, ?_, by simp [g2], by simp [k2]⟩
          rw [List.filter_cons_of_pos rfl, List.map_cons]
          exact .cons k1 g1

theorem castPeak_id {r : Row} (h : r.npeak < 65536) : castPeak r = r := by simp [castPeak, Nat.mod_eq_of_lt h]

theorem peakHits_npeak {b : Builder} {event : Int} {time t : ℚ} {p : Peak} {k : Nat} {rows : List Row} (h : PeakHits b event time t p k rows) :
    ∀ r ∈ rows, r.npeak = k := by
  obtain ⟨q, xys, pos, charges, blocks, _, _, _, _, _, _, _, _, h8, _⟩ := h
  exact fun r hr => (h8 r hr).2.2.1

theorem selectedS2s_lt {f2 : List Bool} {s2s : List Peak} {x : Peak × Nat} (h : x ∈ selectedS2s f2 s2s) :
    x.2 < s2s.length ∧ f2[x.2]? = some true ∧ s2s[x.2]? = some x.1 := by
  obtain ⟨y, hy, rfl⟩ := List.mem_map.1 h
  obtain ⟨h1, h2⟩ := List.mem_filter.1 hy
  have h3 := List.getElem?_zip_eq_some.1 (List.mem_zipIdx_iff_getElem?.1 h1)
  refine ⟨?_, ?_, h3.2⟩
  · exact (List.getElem?_eq_some_iff.1 h3.2).1
  · rw [h3.1]; simpa using h2

/-- **C53** The hits of an event are those of the selected S2s, in order, and nothing else; z is measured from the reference time. -/
theorem build_spec {b : Builder} (hb : Sized b) {f1 f2 : List Bool} {s1s s2s : List Peak} {event : Int} {ts : ℚ} {rows : List Row}
    (hv : ∀ x ∈ selectedS2s f2 s2s, ValidPeak x.1) (hn : s2s.length ≤ 65536) (h : build b f1 f2 s1s s2s event ts = .ok rows) :
    ∃ t, RefTime f1 f2 s1s s2s t ∧ ∃ blocks,
      List.Forall₂ (fun (x : Peak × Nat) rows => PeakHits b event (ts / 1000) t x.1 x.2 rows) (selectedS2s f2 s2s) blocks ∧
      rows = blocks.flatten := by
  rw [build] at h
  cases h1 : s1Time f1 f2 s1s s2s with
  | error e => simp [h1] at h
  | ok t =>
    simp only [h1] at h
    cases h2 : peaksRows b event (ts * (1 / 1000)) t (f2.zip s2s).zipIdx with
    | error e => rw [h2] at h; cases h
    | ok hits =>
      simp only [h2] at h
      have hv' : ∀ x ∈ (f2.zip s2s).zipIdx, x.1.1 = true → ValidPeak x.1.2 := fun x hx hp =>
        hv (x.1.2, x.2) (List.mem_map.2 ⟨x, List.mem_filter.2 ⟨hx, hp⟩, rfl⟩)
      obtain ⟨blocks, g1, g2, -⟩ := peaksRows_spec hb _ hv' h2
      have hr : rows = hits.flatten.map castPeak := by
        cases hits with
        | nil => simp at h
        | cons a l => simp only [Except.ok.injEq] at h; exact h.symm
      have hts : ts * (1 / 1000) = ts / 1000 := by ring
      rw [hts] at g1
      refine ⟨t, s1Time_spec h1, blocks, g1, ?_⟩
      rw [hr, g2]
      rw [List.map_congr_left (g := id), List.map_id]
      intro r hr'
      obtain ⟨bl, hb1, hb2⟩ := List.mem_flatten.1 hr'
      obtain ⟨x, hx, hx2⟩ := KrEvent.forall₂_mem_right g1 hb1
      apply castPeak_id
      rw [peakHits_npeak hx2 r hb2]
      have := (selectedS2s_lt hx).1
      omega

theorem flatten_sum_le {α : Type} (f : α → ℚ) (eps : ℚ) : ∀ (bs : List (List α)) (es : List ℚ),
    List.Forall₂ (fun b e => |(b.map f).sum - e| ≤ |e| * eps) bs es → |(bs.flatten.map f).sum - es.sum| ≤ (es.map abs).sum * eps
  | [], [], _ => by simp
  | b :: bs, e :: es, .cons h1 h2 => by
    have := flatten_sum_le f eps bs es h2
    simp only [List.flatten_cons, List.map_append, List.sum_append, List.sum_cons, List.map_cons]
    rw [add_sub_add_comm, add_mul]
    exact (abs_add_le _ _).trans (add_le_add h1 this)

/-- The hits of a peak carry its energy. -/
theorem peakHits_energy {b : Builder} (ht : 0 < b.qThr) {event : Int} {time t : ℚ} {p : Peak} {k : Nat} {rows : List Row} (hp : ValidPeak p)
    (h : PeakHits b event time t p k rows) : ∃ q, rebinPeak p b.rebin = .ok q ∧
      |(rows.map Row.e).sum - (p.pmts.wfs.rows.map List.sum).sum| ≤ (q.pmts.sumOverSensors.map abs).sum * (Hits.EPSILON / b.qThr) := by
  obtain ⟨q, xys, pos, charges, blocks, h1, h2, _, h4, h5, h6, h7, hcl, _, h9⟩ := h
  obtain ⟨q', g1, g2, _, _, g5, _, _⟩ := rebinPeak_conserves p hp b.rebin
  rw [h1, Except.ok.injEq] at g1
  subst g1
  refine ⟨q, h1, ?_⟩
  have hsum : q.pmts.sumOverSensors.sum = (p.pmts.wfs.rows.map List.sum).sum := by
    rw [Responses.sumOverSensors, Mat.sum_sumSensors _ g2.pmtWF, Mat.sumTimes, g5]
  have hsl : q.pmts.sumOverSensors.length = q.times.length := by rw [Responses.sumOverSensors, Mat.sumSensors_length, g2.pmtCols]
  rw [← hsum, h6]
  apply flatten_sum_le
  rw [List.forall₂_iff_get]
  refine ⟨by rw [h7, hsl], fun i hi1 hi2 => ?_⟩
  have hi3 : i < q.times.length := by omega
  have hi4 : i < charges.length := by omega
  obtain ⟨bl, k1, k2, _⟩ := h9 i _ _ _ (List.getElem?_eq_getElem hi3) (List.getElem?_eq_getElem hi2) (List.getElem?_eq_getElem hi4)
  rw [List.getElem?_eq_getElem hi1, Option.some.injEq] at k1
  simp only [List.get_eq_getElem]
  rw [k1]
  have := k2.energy ht
  rwa [mul_div_assoc] at this

theorem selectedS2s_idx (f2 : List Bool) (s2s : List Peak) : ((selectedS2s f2 s2s).map Prod.snd).Nodup := by
  simp only [selectedS2s, List.map_map]
  have h1 : ((f2.zip s2s).zipIdx.map Prod.snd).Nodup := by
    rw [PMapsIO.zipIdx_snd]; exact List.nodup_range
  exact h1.sublist ((List.filter_sublist (l := (f2.zip s2s).zipIdx)).map Prod.snd)

theorem filter_blocks_npeak {b : Builder} {event : Int} {time t : ℚ} {xs : List (Peak × Nat)} {blocks : List (List Row)}
    (h : List.Forall₂ (fun (x : Peak × Nat) rows => PeakHits b event time t x.1 x.2 rows) xs blocks) (hnd : (xs.map Prod.snd).Nodup)
    {x : Peak × Nat} (hx : x ∈ xs) : PeakHits b event time t x.1 x.2 (blocks.flatten.filter fun r => r.npeak == x.2) := by
  induction h with
  | nil => cases hx
  | @cons y rows ys bs h1 h2 ih =>
    rw [List.map_cons, List.nodup_cons] at hnd
    rw [List.flatten_cons, List.filter_append]
    rcases List.mem_cons.1 hx with rfl | hx
    · rw [List.filter_eq_self.2 (fun r hr => by simp [peakHits_npeak h1 r hr])]
      have : bs.flatten.filter (fun r => r.npeak == x.2) = [] := by
        rw [List.filter_eq_nil_iff]
        intro r hr
        obtain ⟨bl, hb1, hb2⟩ := List.mem_flatten.1 hr
        obtain ⟨z, hz, hz2⟩ := KrEvent.forall₂_mem_right h2 hb1
        rw [peakHits_npeak hz2 r hb2]
        intro hc
        exact hnd.1 (List.mem_map.2 ⟨z, hz, by simpa using hc⟩)
      rw [this, List.append_nil]
      exact h1
    · have : rows.filter (fun r => r.npeak == x.2) = [] := by
        rw [List.filter_eq_nil_iff]
        intro r hr
        rw [peakHits_npeak h1 r hr]
        intro hc
        exact hnd.1 (List.mem_map.2 ⟨x, hx, by simpa using (beq_iff_eq.1 hc).symm⟩)
      rw [this, List.nil_append]
      exact ih hnd.2 hx

/-- **C53** Every hit carries the number of a selected S2; the hits with the number of a selected S2 are the hits of that S2, and
carry the whole energy seen by the PMTs in it (up to the epsilon of the division, relative to the energies of the slices). -/
theorem build_energy {b : Builder} (hb : Sized b) (ht : 0 < b.qThr) {f1 f2 : List Bool} {s1s s2s : List Peak} {event : Int} {ts : ℚ} {rows : List Row}
    (hv : ∀ x ∈ selectedS2s f2 s2s, ValidPeak x.1) (hn : s2s.length ≤ 65536) (h : build b f1 f2 s1s s2s event ts = .ok rows) :
    (∀ r ∈ rows, f2[r.npeak]? = some true ∧ r.npeak < s2s.length) ∧
    ∀ (k : Nat) (p : Peak), f2[k]? = some true → s2s[k]? = some p →
      ∃ q, rebinPeak p b.rebin = .ok q ∧
        |((rows.filter fun r => r.npeak == k).map Row.e).sum - (p.pmts.wfs.rows.map List.sum).sum| ≤
          (q.pmts.sumOverSensors.map abs).sum * (Hits.EPSILON / b.qThr) := by
  obtain ⟨t, _, blocks, h1, h2⟩ := build_spec hb hv hn h
  subst h2
  refine ⟨fun r hr => ?_, fun k p hk hp => ?_⟩
  · obtain ⟨bl, hb1, hb2⟩ := List.mem_flatten.1 hr
    obtain ⟨x, hx, hx2⟩ := KrEvent.forall₂_mem_right h1 hb1
    rw [peakHits_npeak hx2 r hb2]
    have := selectedS2s_lt hx
    exact ⟨this.2.1, this.1⟩
  · have hx : (p, k) ∈ selectedS2s f2 s2s := by
      refine List.mem_map.2 ⟨((true, p), k), List.mem_filter.2 ⟨?_, rfl⟩, rfl⟩
      exact List.mem_zipIdx_iff_getElem?.2 (List.getElem?_zip_eq_some.2 ⟨hk, hp⟩)
    exact peakHits_energy ht (hv _ hx) (filter_blocks_npeak h1 (selectedS2s_idx f2 s2s) hx)

/-- An S2 that the builder can process: consistent, with SiPMs that are in the database. -/
structure GoodS2 (b : Builder) (p : Peak) : Prop where
  valid : ValidPeak p
  sipms : p.sipms.ids ≠ []
  inDb : ∀ i ∈ p.sipms.ids, i < b.xys.length

/-- The reconstruction gives at least one cluster, or fails with an exception of its own. -/
def RecoOk (b : Builder) : Prop := ∀ xys qs, (∃ c cs, b.reco xys qs = .ok (c :: cs)) ∨ ∃ e, b.reco xys qs = .error e ∧ KrEvent.RecoFailure e

theorem peakRows_ok {b : Builder} (h1 : b.pointCharges = rawPoint) (h2 : b.sliceCharges = rawSlices) (hr : RecoOk b) {event : Int} {time s1t : ℚ} {k : Nat}
    {p : Peak} (hp : GoodS2 b p) : ∃ blocks, peakRows b event time s1t k p = .ok blocks := by
  obtain ⟨q, hq, hv, _, g4, _⟩ := rebinPeak_conserves p hp.valid b.rebin
  have hids : q.sipms.ids ≠ [] := by rw [g4]; exact hp.sipms
  obtain ⟨s1, s2, s3, _⟩ := hv.sipm.resolve_left (fun h => hids (by rw [h]; rfl))
  have hne : q.sipms ≠ Responses.empty := fun h => hids (by rw [h]; rfl)
  obtain ⟨xys, hx, hxl, _⟩ := npTake_ok b.xys q.sipms.ids (fun i hi => hp.inDb i (by rw [← g4]; exact hi))
  have hg : ∃ pos, globalReco b xys q.sipms.sumOverTimes = .ok pos := by
    rcases hr xys q.sipms.sumOverTimes with ⟨c, cs, h⟩ | ⟨e, h, he⟩
    · exact ⟨c, by simp [globalReco, h]⟩
    · exact ⟨(Hits.NN, Hits.NN), by simp only [globalReco, h, (KrEvent.recoFail_iff _).2 he, if_true]⟩
  obtain ⟨pos, hg⟩ := hg
  simp only [peakRows, hq, bind, Except.bind, KrEvent.positions, hne, if_false, hx, h1, rawPoint, hg, h2, rawSlices]
  refine mapM_ok fun s hs => ?_
  have hm : s.2.2 ∈ (List.range q.sipms.wfs.ncols).map fun j => q.sipms.wfs.rows.map fun r => r.getD j 0 := by
    have := List.of_mem_zip (List.of_mem_zip hs).2
    exact this.2
  obtain ⟨j, _, hj⟩ := List.mem_map.1 hm
  rw [sliceRows, if_neg (by rw [← hj, List.length_map, hxl, s3]; simp)]
  exact ⟨_, rfl⟩

theorem peaksRows_ok {b : Builder} (h1 : b.pointCharges = rawPoint) (h2 : b.sliceCharges = rawSlices) (hr : RecoOk b) {event : Int} {time s1t : ℚ} :
    ∀ (l : List ((Bool × Peak) × Nat)), (∀ x ∈ l, x.1.1 = true → GoodS2 b x.1.2) → ∃ out, peaksRows b event time s1t l = .ok out
  | [], _ => ⟨[], rfl⟩
  | ((false, p), k) :: rest, h => by
    obtain ⟨out, ho⟩ := peaksRows_ok h1 h2 hr (event := event) (time := time) (s1t := s1t) rest (fun x hx => h x (List.mem_cons_of_mem _ hx))
    exact ⟨out, by simpa [peaksRows] using ho⟩
  | ((true, p), k) :: rest, h => by
    obtain ⟨out, ho⟩ := peaksRows_ok h1 h2 hr (event := event) (time := time) (s1t := s1t) rest (fun x hx => h x (List.mem_cons_of_mem _ hx))
    obtain ⟨a, ha⟩ := peakRows_ok h1 h2 hr (event := event) (time := time) (s1t := s1t) (k := k) (h _ List.mem_cons_self rfl)
    exact ⟨a ++ out, by simp [peaksRows, ha, ho]⟩

/-- **C53** With raw charges, an event whose reference time exists and in which some S2 is selected always gives hits, if its selected S2s
have SiPM data. -/
theorem build_succeeds {b : Builder} (h1 : b.pointCharges = rawPoint) (h2 : b.sliceCharges = rawSlices) (hr : RecoOk b) {f1 f2 : List Bool}
    {s1s s2s : List Peak} {event : Int} {ts t : ℚ} (ht : s1Time f1 f2 s1s s2s = .ok t) (hs : selectedS2s f2 s2s ≠ [])
    (hg : ∀ x ∈ selectedS2s f2 s2s, GoodS2 b x.1) : ∃ rows, build b f1 f2 s1s s2s event ts = .ok rows := by
  have hg' : ∀ x ∈ (f2.zip s2s).zipIdx, x.1.1 = true → GoodS2 b x.1.2 := fun x hx hp =>
    hg (x.1.2, x.2) (List.mem_map.2 ⟨x, List.mem_filter.2 ⟨hx, hp⟩, rfl⟩)
  obtain ⟨out, ho⟩ := peaksRows_ok h1 h2 hr (event := event) (time := ts * (1 / 1000)) (s1t := t) _ hg'
  obtain ⟨blocks, g1, _, g3⟩ := peaksRows_spec (sized_raw h2) _ (fun x hx hp => (hg' x hx hp).valid) ho
  have hne : out ≠ [] := fun hc => by
    rw [g3] at hc
    rw [hc] at g1
    exact hs (List.forall₂_nil_right_iff.1 g1)
  cases out with
  | nil => exact absurd rfl hne
  | cons a l => exact ⟨_, by rw [build, ht]; simp only [ho]; rfl⟩

/-- Finding: an event with a selected S1 but no selected S2 cannot be processed (`pd.concat` of nothing). -/
theorem build_no_s2 {b : Builder} {f1 f2 : List Bool} {s1s s2s : List Peak} {event : Int} {ts t : ℚ} (ht : s1Time f1 f2 s1s s2s = .ok t)
    (h : ∀ x ∈ f2, x = false) : build b f1 f2 s1s s2s event ts = .error .valueError := by
  have key : ∀ (l : List ((Bool × Peak) × Nat)) (e : Int) (a c : ℚ), (∀ x ∈ l, x.1.1 = false) → peaksRows b e a c l = .ok [] := by
    intro l e a c hl
    induction l with
    | nil => rfl
    | cons x l ih =>
      obtain ⟨⟨p, q⟩, k⟩ := x
      have : p = false := hl _ List.mem_cons_self
      subst this
      simpa [peaksRows] using ih (fun x hx => hl x (List.mem_cons_of_mem _ hx))
  rw [build, ht]
  simp only
  rw [key]
  intro x hx
  exact h _ (List.of_mem_zip (PMapsIO.fst_mem_of_zipIdx hx)).1

/-- Finding: a selected S2 without SiPM data stops the processing. -/
theorem build_no_sipms {b : Builder} {f1 f2 : List Bool} {s1s s2s : List Peak} {event : Int} {ts t : ℚ} {p : Peak}
    (ht : s1Time f1 (true :: f2) s1s (p :: s2s) = .ok t) (hp : ValidPeak p) (h : p.sipms = Responses.empty) :
    build b f1 (true :: f2) s1s (p :: s2s) event ts = .error .indexError := by
  obtain ⟨q, hq, hv, _, g4, _⟩ := rebinPeak_conserves p hp b.rebin
  have hne : q.sipms = Responses.empty := hv.sipm.resolve_right (fun hc => hc.2.2.2 (by rw [g4, h]; rfl))
  rw [build, ht]
  simp [peaksRows, peakRows, hq, bind, Except.bind, KrEvent.positions, hne]

/-! ### A concrete case -/

def exB : Builder :=
  { driftV := 1, rebin := .stride 2, qThr := 5, xys := [(0, 0), (10, 0), (20, 0)], pointCharges := rawPoint, sliceCharges := rawSlices,
    reco := fun xys _ => match xys with | [] => .error (.other "SipmEmptyList") | c :: _ => .ok [c] }
def exS1 : Peak := ⟨[1, 2], [25, 25], ⟨[0, 3], ⟨[[1, 2], [3, 4]], 2⟩⟩, Responses.empty⟩
def exS2 : Peak := ⟨[10, 20, 30], [10, 10, 10], ⟨[0, 1], ⟨[[1, 2, 4], [3, 4, 5]], 3⟩⟩, ⟨[0, 2], ⟨[[3, 3, 4], [10, 0, 1]], 3⟩⟩⟩

example : Sized exB ∧ RecoOk exB ∧ GoodS2 exB exS2 ∧ (∀ x ∈ selectedS2s [false, true] [exS1, exS2], GoodS2 exB x.1) ∧
    selectedS2s [false, true] [exS1, exS2] = [(exS2, 1)] ∧ s1Time [true] [false, true] [exS1] [exS1, exS2] = .ok 2 := by
  have hg : GoodS2 exB exS2 := ⟨⟨by simp [exS2], rfl, by simp [exS2, Mat.WF], rfl, rfl, Or.inr ⟨by simp [exS2, Mat.WF], rfl, rfl, by simp [exS2]⟩⟩,
    by simp [exS2], by simp [exS2, exB]⟩
  have hs : selectedS2s [false, true] [exS1, exS2] = [(exS2, 1)] := by decide +kernel
  refine ⟨sized_raw rfl, ?_, hg, ?_, hs, by decide +kernel⟩
  · intro xys qs
    cases xys with
    | nil => exact Or.inr ⟨_, rfl, by simp [KrEvent.RecoFailure]⟩
    | cons c l => exact Or.inl ⟨c, [], rfl⟩
  · rw [hs]; simpa using hg

example : (match build exB [true] [false, true] [exS1] [exS1, exS2] 7 3000 with
    | .ok rows => rows.map (fun r => (r.npeak, r.x, r.z, r.q)) | .error _ => []) =
    [(1, 0, 14, 6), (1, 20, 14, 10), (1, -999999, 28, -999999)] := by decide +kernel
example : s1Time [true] [false] [exS1] [exS2] = .ok 2 ∧ s1Time [false] [true] [exS1] [exS1] = .ok 1 := by decide +kernel
example : ValidPeak exS1 := ⟨by simp [exS1], rfl, by simp [exS1, Mat.WF], rfl, rfl, Or.inl rfl⟩

end Verif.HitBuilder
