import Verif.Spec.IreneRun
import Verif.Props.PmapBuild
import Verif.Props.PeakBuild
import Verif.Props.PeakSearch
import Verif.Props.SipmSelect
import Verif.Props.Sources
import Verif.Props.PMapsIO
import Verif.Props.Chain
import Verif.Props.Hypathia
/-!
# The runs of irene and their files (property C126)
-/
namespace Verif.IreneRun
open Verif.PMaps (Peak Responses ValidPeak)
open Verif.Peaks
open Verif.PMapsIO (GoodPeak GoodResponses GoodSipms GoodPMap)

/-! ### The shape of the peaks -/

theorem rebin_shape {t w t' w' : List ℚ} {m m' : Mat} {stride : Nat} (h : rebinTimesAndWaveforms t w m stride none = .ok (t', w', m')) (hm : m.WF) (hw : w.length = t.length) :
    m'.WF ∧ m'.rows.length = m.rows.length ∧ w'.length = t'.length := by
  unfold rebinTimesAndWaveforms at h
  split at h
  · cases h; exact ⟨hm, rfl, hw⟩
  · dsimp only at h
    split at h
    · cases h
    · rename_i ts hts
      cases h
      have := (mapM_ok_iff.1 hts).length_eq
      refine ⟨?_, by simp, by simpa using this⟩
      intro r hr
      obtain ⟨x, _, rfl⟩ := List.mem_map.1 hr
      simp

theorem pick_shape {indices : List Nat} {t w t' w' : List ℚ} {m m' : Mat} {stride ratio : Nat} {pad : Bool} (h : pickSliceAndRebin indices t w m stride pad ratio = .ok (t', w', m'))
    (hm : m.WF) (hw : w.length = t.length) : m'.WF ∧ m'.rows.length = m.rows.length ∧ w'.length = t'.length := by
  unfold pickSliceAndRebin at h
  split at h
  · rename_i i0 i1 _ _
    dsimp only at h
    have hs := Mat.slice_WF hm i0 (i1 + 1)
    have hl : (pySlice i0 (i1 + 1) w).length = (pySlice i0 (i1 + 1) t).length := by simp [pySlice, hw]
    split at h
    · obtain ⟨a, b, c⟩ := rebin_shape h (Mat.padLeft_WF hs _) (by simp [hl])
      exact ⟨a, by rw [b]; simp [Mat.padLeft, Mat.slice], c⟩
    · obtain ⟨a, b, c⟩ := rebin_shape h hs hl
      exact ⟨a, by rw [b]; simp [Mat.slice], c⟩
  · cases h

theorem mk_shape {ids : List Nat} {m : Mat} {r : Responses} (h : Responses.mk? ids m = .ok r) : r = ⟨ids, m⟩ ∧ ids.length = m.rows.length := by
  unfold Responses.mk? at h
  split at h
  · cases h
  · rename_i hl
    cases h
    exact ⟨rfl, not_not.1 hl⟩

theorem peak_shape {t w : List ℚ} {a b : Responses} {p : Peak} (h : Peak.mk? t w a b = .ok p) : p = ⟨t, w, a, b⟩ ∧ t ≠ [] ∧ a.wfs.ncols = t.length := by
  unfold Peak.mk? at h
  split at h
  · cases h
  · rename_i hc
    cases h
    unfold PMaps.checkValidInput at hc
    split at hc
    · cases hc
    · rename_i h0
      split at hc
      · cases hc
      · rename_i h1
        push Not at h1
        exact ⟨rfl, fun h => h0 (by rw [h]; rfl), h1.1.symm⟩

theorem take_nodup {ids : List Nat} (hd : ids.Nodup) {idx out : List Nat} (hi : idx.Nodup) (h : npTake ids idx = .ok out) : out.Nodup ∧ ∀ x ∈ out, x ∈ ids := by
  unfold npTake at h
  have hf := mapM_ok_iff.1 h
  have hg : List.Forall₂ (fun i x => ids[i]? = some x) idx out := hf.imp fun i x hx => by
    cases hc : ids[i]? with
    | none => rw [hc] at hx; cases hx
    | some y => rw [hc] at hx; cases hx; rfl
  clear h hf
  induction hg with
  | nil => simp
  | @cons i x idx out h1 h2 ih =>
    obtain ⟨ha, hb⟩ := List.nodup_cons.1 hi
    obtain ⟨k1, k2⟩ := ih hb
    refine ⟨List.nodup_cons.2 ⟨fun hx => ha ?_, k1⟩, ?_⟩
    · obtain ⟨j, hj, hjx⟩ : ∃ j ∈ idx, ids[j]? = some x := KrEvent.forall₂_mem_right h2 hx
      obtain ⟨hi1, e1⟩ := List.getElem?_eq_some_iff.1 h1
      obtain ⟨hj1, e2⟩ := List.getElem?_eq_some_iff.1 hjx
      have : i = j := (List.Nodup.getElem_inj_iff hd).1 (e1.trans e2.symm)
      rw [this]; exact hj
    · intro y hy
      rcases List.mem_cons.1 hy with rfl | hy
      · exact List.mem_of_getElem? h1
      · exact k2 y hy

/-- A peak that is built has the shape that the tables need. -/
theorem buildPeak_shape {indices : List Nat} {times widths : List ℚ} {ccwf : Mat} {ids : List Nat} {stride ratio : Nat} {sipm : Option (Mat × List Nat × (Mat → Except PyErr (List Nat × Mat)))} {p : Peak}
    (h : buildPeak indices times widths ccwf ids stride ratio sipm = .ok p) (hwf : ccwf.WF) (hw : widths.length = times.length) (hid : ids.Nodup) (hlt : ∀ i ∈ ids, i < 256)
    (hs : ∀ m sids sel, sipm = some (m, sids, sel) → m.WF ∧ sids.Nodup ∧ (∀ i ∈ sids, i < 65536) ∧ SelectsRows m.rows.length sel) :
    GoodPeak p ∧ (sipm = none → p.sipms = Responses.empty) ∧ (sipm.isSome = true → p.sipms.wfs.ncols = p.times.length → GoodSipms p) := by
  unfold buildPeak at h
  split at h
  · cases h
  split at h
  · cases h
  · rename_i t w pmts hpm
    have hp : pmts = ⟨ids, pmts.wfs⟩ ∧ ids.length = pmts.wfs.rows.length ∧ pmts.wfs.WF ∧ w.length = t.length := by
      unfold buildPmtResponses at hpm
      split at hpm
      · cases hpm
      · rename_i t0 w0 m0 hpick
        split at hpm
        · cases hpm
        · rename_i r0 hr0
          cases hpm
          obtain ⟨e1, e2⟩ := mk_shape hr0
          obtain ⟨s1, s2, s3⟩ := pick_shape hpick hwf hw
          subst e1
          exact ⟨rfl, e2, s1, s3⟩
    obtain ⟨hp1, hp2, hp3, hp4⟩ := hp
    have good : ∀ {b : Responses}, Peak.mk? t w pmts b = .ok p → p = ⟨t, w, pmts, b⟩ ∧ GoodPeak p := by
      intro b hb
      obtain ⟨rfl, q2, q3⟩ := peak_shape hb
      refine ⟨rfl, q2, hp4, ?_⟩
      rw [hp1]
      exact ⟨hid, hp2, fun wf hm => (hp3 wf hm).trans q3, q3, hlt⟩
    split at h
    · obtain ⟨rfl, g⟩ := good h
      exact ⟨g, fun _ => rfl, fun h => by cases h⟩
    · rename_i m sids sel _
      obtain ⟨f1, f2, f3, f4⟩ := hs m sids sel rfl
      split at h
      · cases h
      · rename_i sp hsp
        obtain ⟨rfl, g⟩ := good h
        refine ⟨g, fun h => (by cases h), fun _ hn => ?_⟩
        right
        dsimp only at hn ⊢
        unfold buildSipmResponses at hsp
        split at hsp
        · cases hsp
        · rename_i t1 w1 m1 hpick
          obtain ⟨s1, s2, _⟩ := pick_shape hpick f1 (by simp [hw])
          split at hsp
          · cases hsp
          · rename_i idx m2 hsel
            obtain ⟨g1, g2, g3⟩ := f4 _ s1 s2 _ _ hsel
            split at hsp
            · cases hsp
            · rename_i out hout
              obtain ⟨rfl, e2⟩ := mk_shape hsp
              obtain ⟨u1, u2⟩ := take_nodup f2 g1 hout
              exact ⟨u1, e2, fun r hr => (g3 r hr).trans (g2.symm.trans hn), hn, fun i hi => f3 i (u2 i hi)⟩


theorem buildAll_ok {f : List Nat → Except PyErr Peak} : ∀ {l : List (List Nat)} {ps : List Peak}, buildAll f l = .ok ps → ∀ p ∈ ps, ∃ x ∈ l, f x = .ok p
  | [], ps, h, p, hp => by cases h; cases hp
  | x :: l, ps, h, p, hp => by
    rw [buildAll] at h
    split at h
    · cases h
    · rename_i q hq
      split at h
      · cases h
      · rename_i qs hqs
        cases h
        rcases List.mem_cons.1 hp with rfl | hp
        · exact ⟨x, List.mem_cons_self, hq⟩
        · obtain ⟨y, hy, e⟩ := buildAll_ok hqs p hp
          exact ⟨y, List.mem_cons_of_mem _ hy, e⟩

theorem findPeaks_shape {ccwf : Mat} {index : List Nat} {time length : Core.MinMax} {stride rebin : Nat} {ids : List Nat} {w : ℚ} {ratio : Nat} {sipm : Option (Mat × List Nat × (Mat → Except PyErr (List Nat × Mat)))}
    {peaks : List Peak} (h : findPeaks ccwf index time length stride rebin ids w ratio sipm = .ok peaks) (hwf : ccwf.WF) (hid : ids.Nodup) (hlt : ∀ i ∈ ids, i < 256)
    (hs : ∀ m sids sel, sipm = some (m, sids, sel) → m.WF ∧ sids.Nodup ∧ (∀ i ∈ sids, i < 65536) ∧ SelectsRows m.rows.length sel) :
    ∀ p ∈ peaks, GoodPeak p ∧ (sipm = none → p.sipms = Responses.empty) ∧ (sipm.isSome = true → p.sipms.wfs.ncols = p.times.length → GoodSipms p) := by
  intro p hp
  unfold findPeaks at h
  dsimp only at h
  split at h
  · cases h
  · obtain ⟨x, _, hx⟩ := buildAll_ok h p hp
    exact buildPeak_shape hx hwf (by simp) hid hlt hs

/-- Pieces more than `stride` apart in `n` samples are not many. -/
theorem few_pieces {stride n : Nat} : ∀ (ps : List (List Nat)) (lo : Nat), lo ≤ n → (∀ p ∈ ps, p ≠ []) → (∀ p ∈ ps, ∀ a ∈ p, lo ≤ a ∧ a < n) → (ps.Pairwise fun p q => ∀ a ∈ p, ∀ b ∈ q, a + stride < b) →
    ps.length * (stride + 1) ≤ n - lo + stride
  | [], lo, _, _, _, _ => by simp
  | p :: ps, lo, hlo, h1, h2, h3 => by
    obtain ⟨a, ha⟩ := List.exists_mem_of_ne_nil _ (h1 p List.mem_cons_self)
    obtain ⟨a1, a2⟩ := h2 p List.mem_cons_self a ha
    rw [List.pairwise_cons] at h3
    by_cases hn : a + stride + 1 ≤ n
    · have := few_pieces ps (a + stride + 1) hn (fun q hq => h1 q (List.mem_cons_of_mem _ hq))
        (fun q hq b hb => ⟨h3.1 q hq a ha b hb, (h2 q (List.mem_cons_of_mem _ hq) b hb).2⟩) h3.2
      rw [List.length_cons, Nat.succ_mul]
      omega
    · have : ps = [] := by
        cases ps with
        | nil => rfl
        | cons q qs =>
          obtain ⟨b, hb⟩ := List.exists_mem_of_ne_nil _ (h1 q (by simp))
          have := h3.1 q (by simp) a ha b hb
          have := (h2 q (by simp) b hb).2
          omega
      subst this
      simp
      omega

theorem few_found {s : PmapBuild.Search} {w : ℚ} {idx : List Nat} {R : List Nat → Peak → Prop} {ps : List Peak} (h : PmapBuild.Found s w idx R ps) {n : Nat} (hs : idx.Pairwise (· < ·))
    (hn : ∀ i ∈ idx, i < n) (hf : n ≤ 65536 * (s.stride + 1)) : ps.length ≤ 65536 := by
  obtain ⟨pieces, hg, hp⟩ := h
  have h1 := hp.length_eq
  have h2 := List.length_filter_le (inWindow s.time.min s.time.max s.length.min s.length.max w) pieces
  have h3 := few_pieces (stride := s.stride) (n := n) pieces 0 (Nat.zero_le _) hg.nonempty
    (fun p hp a ha => ⟨Nat.zero_le _, hn a (by rw [← hg.cover]; exact List.mem_flatten.2 ⟨p, hp, ha⟩)⟩) (grouping_pairwise hg hs)
  have h4 : pieces.length * (s.stride + 1) < 65537 * (s.stride + 1) := by rw [Nat.succ_mul 65536]; omega
  have := Nat.lt_of_mul_lt_mul_right h4
  omega

theorem pmtIds_good {pmts : List LoadDb.PmtRow} {sipms : List LoadDb.SipmRow} (h : Identifiers pmts sipms) : (PmapBuild.pmtIds pmts).Nodup ∧ ∀ i ∈ PmapBuild.pmtIds pmts, i < 256 := by
  unfold PmapBuild.pmtIds
  constructor
  · rw [List.nodup_map_iff_inj_on ((List.Nodup.of_map _ h.different).filter _)]
    intro x hx y hy hxy
    have hx := (List.mem_filter.1 hx).1
    have hy := (List.mem_filter.1 hy).1
    have := h.fit x hx
    have := h.fit y hy
    exact List.inj_on_of_nodup_map h.different hx hy (by omega)
  · intro i hi
    obtain ⟨p, hp, rfl⟩ := List.mem_map.1 hi
    have := h.fit p (List.mem_filter.1 hp).1
    omega

theorem sipmIds_good {pmts : List LoadDb.PmtRow} {sipms : List LoadDb.SipmRow} (h : Identifiers pmts sipms) : (PmapBuild.sipmIds sipms).Nodup ∧ ∀ i ∈ PmapBuild.sipmIds sipms, i < 65536 := by
  have e : PmapBuild.sipmIds sipms = ((sipms.zipIdx 0).filter fun x => decide (x.1.active = 1)).map Prod.snd := by
    rw [PmapBuild.zipIdx_where (fun s : LoadDb.SipmRow => decide (s.active = 1))]
    simp [PmapBuild.sipmIds]
  rw [e]
  constructor
  · have hn : ((sipms.zipIdx 0).map Prod.snd).Nodup := by
      rw [List.zipIdx_map_snd]
      exact List.nodup_range'
    exact hn.sublist (List.filter_sublist.map _)
  · intro i hi
    obtain ⟨x, hx, rfl⟩ := List.mem_map.1 hi
    have := List.snd_lt_of_mem_zipIdx (List.mem_filter.1 hx).1
    have := h.few
    omega

/-- The PMap of an event has the shape that the tables need. -/
theorem computePmap_shape {c : PmapBuild.Config} {pmts : List LoadDb.PmtRow} {sipms : List LoadDb.SipmRow} {ccwf : Mat} {idx : List Nat × List Nat} {rows : List (List Int)} {nSipm : Nat} {s1s s2s : List Peak}
    (h : PmapBuild.computePmap c pmts sipms ccwf idx (((sipms.zip rows).filter fun x => decide (x.1.active ≠ 0)).map Prod.snd) nSipm = .ok (some (s1s, s2s)))
    (hf : ∀ s ∈ sipms, s.active = 0 ∨ s.active = 1) (hl : rows.length = sipms.length) (hr : ∀ r ∈ rows, r.length = nSipm) (hwf : ccwf.WF) (hid : Identifiers pmts sipms)
    (hsel : SelectsRows (sipms.filter fun s => decide (s.active ≠ 0)).length c.sel) :
    (∀ p ∈ s1s, GoodPeak p ∧ p.sipms = Responses.empty) ∧ ∀ p ∈ s2s, GoodPeak p ∧ (p.sipms.wfs.ncols = p.times.length → GoodSipms p) := by
  unfold PmapBuild.computePmap at h
  split at h
  · cases h
  rw [PmapBuild.sipm_cal hf hl] at h
  dsimp only at h
  split at h
  · cases h
  rename_i pq hpq
  cases h
  unfold PmapBuild.buildPmap PmapBuild.getPmap at hpq
  split at hpq
  · cases hpq
  rename_i a ha
  split at hpq
  · cases hpq
  rename_i b hb
  cases hpq
  obtain ⟨i1, i2⟩ := pmtIds_good hid
  obtain ⟨j1, j2⟩ := sipmIds_good hid
  constructor
  · intro p hp
    obtain ⟨k1, k2, _⟩ := findPeaks_shape ha hwf i1 i2 (fun _ _ _ h => by cases h) p hp
    exact ⟨k1, k2 rfl⟩
  · intro p hp
    obtain ⟨k1, _, k3⟩ := findPeaks_shape hb hwf i1 i2 (by
      intro m ids sel h
      simp only [Option.some.injEq, Prod.mk.injEq] at h
      obtain ⟨rfl, rfl, rfl⟩ := h
      refine ⟨?_, j1, j2, ?_⟩
      · intro r hr'
        obtain ⟨x, hx, rfl⟩ := List.mem_map.1 hr'
        have := hr x.2 (List.of_mem_zip (a := x.1) (List.mem_filter.1 hx).1).2
        simpa [PmapBuild.sipmWf] using this
      · have l3 : ((sipms.zip rows).filter fun x => decide (x.1.active ≠ 0)).length = (sipms.filter fun s => decide (s.active ≠ 0)).length := by
          rw [← PmapBuild.zip_fst (fun s : LoadDb.SipmRow => decide (s.active ≠ 0)) sipms rows hl, List.length_map]
        simp only [List.length_map]
        rw [l3]
        exact hsel) p hp
    exact ⟨k1, k3 rfl⟩


/-- **C126**: an event of irene with waveforms of the right sizes always has its PMap, and it can be stored. -/
theorem irene_event {c : Irene} (hc : Sound c) {r : IreneRaw} (hr : Sized c r) :
    ∃ p, c.pmap r.pmt r.sipm = .ok p ∧ IsPmap c r p ∧ ∀ s1s s2s, p = some (s1s, s2s) → GoodPMap ⟨s1s, s2s⟩ ∧ ∀ x ∈ s1s, x.sipms = Responses.empty := by
  have hfst : (PmapBuild.activePmts c.pmts r.pmt).map Prod.fst = c.pmts.filter fun p => decide (p.active ≠ 0) :=
    PmapBuild.zip_fst (fun p : LoadDb.PmtRow => decide (p.active ≠ 0)) c.pmts r.pmt hr.pmts
  obtain ⟨ys, hy, hylen, hrun⟩ := PmapBuild.irene_steps (tan := c.tan) (c := c.conf) (nb := c.nBaseline) (thrMaw := c.thrMaw) (sipmRwf := r.sipm) (nSipm := c.nSipm) hc.flags hr.pmts hr.pmtLength hr.sipms
    hc.samples hc.maw hc.coeffs
  have hids : (PmapBuild.activePmts c.pmts r.pmt).map (fun x => x.1.sensor.toNat) = PmapBuild.pmtIds c.pmts := by
    unfold PmapBuild.pmtIds
    rw [← hfst, List.map_map]; rfl
  have hwf : Mat.WF ⟨ys.map Prod.snd, c.n⟩ := by
    intro r hr
    obtain ⟨y, hym, rfl⟩ := List.mem_map.1 hr
    exact (hylen y hym).2
  have s1 : (s1Samples c ys).Pairwise (· < ·) := PmapBuild.over_sorted ..
  have s2 : (s2Samples c ys).Pairwise (· < ·) := PmapBuild.over_sorted ..
  have n1 : ∀ i ∈ s1Samples c ys, i < c.n := fun i hi => (PmapBuild.mem_over.1 hi).1
  have n2 : ∀ i ∈ s2Samples c ys, i < c.n := fun i hi => (PmapBuild.mem_over.1 hi).1
  have hrun' : c.pmap r.pmt r.sipm = PmapBuild.computePmap c.conf c.pmts c.sipms ⟨ys.map Prod.snd, c.n⟩ (s1Samples c ys, s2Samples c ys)
      (((c.sipms.zip r.sipm).filter fun x => decide (x.1.active ≠ 0)).map Prod.snd) c.nSipm := hrun
  clear hrun
  generalize e1 : s1Samples c ys = a1 at *
  generalize e2 : s2Samples c ys = a2 at *
  obtain ⟨k1, k2⟩ := PmapBuild.computePmap_spec (c := c.conf) (pmts := c.pmts) (sipms := c.sipms) (ccwf := ⟨ys.map Prod.snd, c.n⟩) (idx := (a1, a2)) (rows := r.sipm) (nSipm := c.nSipm)
    hc.flags.2 hr.sipms hr.sipmLength hc.conf hc.selection hwf (by rw [← hids]; simp [hy.length_eq]) s1 s2 n1 n2
  by_cases hn : a1 = [] ∨ a2 = []
  · refine ⟨none, hrun'.trans (k1 hn), ⟨ys, hy, ?_, fun _ _ h => by cases h⟩, fun _ _ h => by cases h⟩
    rw [e1, e2]
    exact ⟨fun _ => hn, fun _ => rfl⟩
  · push Not at hn
    obtain ⟨s1s, s2s, r1, r2, r3⟩ := k2 hn.1 hn.2
    have hsh := computePmap_shape r1 hc.flags.2 hr.sipms hr.sipmLength hwf hc.ids hc.rows
    refine ⟨some (s1s, s2s), hrun'.trans r1, ⟨ys, hy, ?_, ?_⟩, ?_⟩
    · rw [e1, e2]
      exact ⟨fun h => (by cases h), fun h => (by rcases h with h | h; exacts [absurd h hn.1, absurd h hn.2])⟩
    · intro _ _ h
      cases h
      rw [e1, e2, hids]
      exact ⟨r2, r3⟩
    · intro _ _ h
      cases h
      refine ⟨⟨fun p hp => (hsh.1 p hp).1, fun p hp => ⟨(hsh.2 p hp).1, (hsh.2 p hp).2 ?_⟩, few_found r2 s1 n1 hc.few1, few_found r3 s2 n2 hc.few2⟩, fun p hp => (hsh.1 p hp).2⟩
      obtain ⟨_, _, hf⟩ := r3
      obtain ⟨_, _, _, hs⟩ := KrEvent.forall₂_mem_right hf hp
      obtain ⟨_, _, n, _, _, _, _, _, _, e3, e4⟩ := hs
      rw [e3, ← e4]

/-! ### The run -/

theorem run_events {W V : Type} {f : W → V → Except PyErr (Option (List Peak × List Peak))} {raws : List (Raw W V)} {pms : List (Option (List Peak × List Peak))}
    (h : List.Forall₂ (fun (r : Raw W V) p => f r.pmt r.sipm = .ok p) raws pms) : raws.mapM (runEvent f) = .ok (pms.map filterPmap) := by
  rw [mapM_ok_iff]
  rw [List.forall₂_map_right_iff]
  exact h.imp fun r p hp => by rw [runEvent, hp]

theorem rows_of {W V : Type} (raws : List (Raw W V)) (pms : List (Option (List Peak × List Peak))) :
    indicesRows (raws.zip (pms.map filterPmap)) = (raws.zip pms).map (fun x => (x.1.event, x.2.isSome)) ∧
    peaksRows (raws.zip (pms.map filterPmap)) = (raws.zip pms).filterMap (fun x => x.2.map fun p => (x.1.event, decide (p.1 ≠ [] ∨ p.2 ≠ []))) ∧
    pmapRows (raws.zip (pms.map filterPmap)) = (withPeaks raws pms).map (fun x => (x.1.event, ⟨x.2.1, x.2.2⟩)) ∧
    eventRows (raws.zip (pms.map filterPmap)) = (withPeaks raws pms).map (fun x => (x.1.event, x.1.ts)) := by
  unfold indicesRows peaksRows pmapRows eventRows withPeaks
  induction raws generalizing pms with
  | nil => simp
  | cons r raws ih =>
    cases pms with
    | nil => simp
    | cons p pms =>
      obtain ⟨i1, i2, i3, i4⟩ := ih pms
      simp only [List.map_cons, List.zip_cons_cons, List.filterMap_cons]
      rw [i1, i2, i3, i4]
      cases p with
      | none => simp [filterPmap]
      | some p =>
        obtain ⟨a, b⟩ := p
        by_cases h : a = [] ∧ b = []
        · obtain ⟨rfl, rfl⟩ := h
          simp [filterPmap]
        · have h' : a ≠ [] ∨ b ≠ [] := by
            by_contra hc
            push Not at hc
            exact h hc
          simp [filterPmap, h, h']

/-- A run whose events have PMaps that can be stored. -/
theorem cityRun_spec {W V : Type} {f : W → V → Except PyErr (Option (List Peak × List Peak))} {raws : List (Raw W V)} {pms : List (Option (List Peak × List Peak))} (run : Int)
    (h : List.Forall₂ (fun (r : Raw W V) p => f r.pmt r.sipm = .ok p) raws pms)
    (hg : ∀ s1s s2s, some (s1s, s2s) ∈ pms → GoodPMap ⟨s1s, s2s⟩ ∧ ∀ x ∈ s1s, x.sipms = Responses.empty) :
    ∃ out, cityRun f run raws = .ok out ∧ out.indices = (raws.zip pms).map (fun x => (x.1.event, x.2.isSome)) ∧
      out.peaks = (raws.zip pms).filterMap (fun x => x.2.map fun p => (x.1.event, decide (p.1 ≠ [] ∨ p.2 ≠ []))) ∧
      (((withPeaks raws pms).map fun x => x.1.event).Nodup → Sources.pmapFile out.file = ⟨(withPeaks raws pms).map (item run), none⟩) := by
  obtain ⟨r1, r2, r3, r4⟩ := rows_of raws pms
  have hmem : ∀ x ∈ withPeaks raws pms, some x.2 ∈ pms ∧ (x.2.1 ≠ [] ∨ x.2.2 ≠ []) := by
    intro x hx
    obtain ⟨y, hy, e⟩ := List.mem_filterMap.1 hx
    obtain ⟨p, hp, e⟩ := Option.bind_eq_some_iff.1 e
    split at e
    · cases e
    · rename_i hne
      cases e
      refine ⟨?_, ?_⟩
      · rw [← hp]; exact (List.of_mem_zip (a := y.1) (b := y.2) hy).2
      · by_contra hc
        push Not at hc
        exact hne hc
  have hgood : ∀ x ∈ (withPeaks raws pms).map (fun x => (x.1.event, (⟨x.2.1, x.2.2⟩ : PMapsIO.PMap))), GoodPMap x.2 := by
    intro x hx
    obtain ⟨y, hy, rfl⟩ := List.mem_map.1 hx
    exact (hg _ _ (hmem y hy).1).1
  obtain ⟨t, ht⟩ := PMapsIO.write_succeeds _ hgood
  have hrun := run_events h
  refine ⟨⟨_, _, ⟨some ⟨some (List.replicate ((withPeaks raws pms).map fun x => (x.1.event, x.1.ts)).length run), none, some ((withPeaks raws pms).map fun x => (x.1.event, x.1.ts))⟩, some t⟩⟩, ?_, rfl, rfl, ?_⟩
  · unfold cityRun
    simp only [hrun]
    rw [r1, r2, r3, r4, ht]
  · intro hd
    dsimp only
    by_cases h0 : withPeaks raws pms = []
    · rw [h0]
      rfl
    · have hw : Sources.Written ⟨some ⟨some (List.replicate ((withPeaks raws pms).map fun x => (x.1.event, x.1.ts)).length run), none, some ((withPeaks raws pms).map fun x => (x.1.event, x.1.ts))⟩, some t⟩ run
          ((withPeaks raws pms).map fun x => (x.1.event, x.1.ts, ⟨x.2.1, x.2.2⟩)) := by
        constructor
        · refine ⟨_, rfl, Or.inl ?_⟩
          cases hA : withPeaks raws pms with
          | nil => exact absurd hA h0
          | cons y ys => exact ⟨_, rfl⟩
        · exact ⟨_, rfl, by simp [Function.comp_def]⟩
        · refine ⟨t, rfl, ?_⟩
          rw [List.map_map]
          exact ht
        · intro x hx
          obtain ⟨y, hy, rfl⟩ := List.mem_map.1 hx
          exact ⟨(hg _ _ (hmem y hy).1).1, (hmem y hy).2⟩
        · rw [List.map_map]
          exact hd
      rw [Sources.pmapFile_written hw, List.map_map]
      congr 1
      apply List.map_congr_left
      intro x hx
      have hs1 : x.2.1.map PMapsIO.withoutSipms = x.2.1 := by
        conv_rhs => rw [← List.map_id x.2.1]
        apply List.map_congr_left
        intro p hp
        have := (hg _ _ (hmem x hx).1).2 p hp
        cases p
        simp only at this
        simp [PMapsIO.withoutSipms, this]
      simp only [Function.comp, item, PMapsIO.expected, hs1]

/-! ### The selections of SiPMs -/

theorem take_mem {α : Type} {xs out : List α} {idx : List Nat} (h : npTake xs idx = .ok out) : ∀ x ∈ out, x ∈ xs := by
  unfold npTake at h
  intro x hx
  obtain ⟨i, _, hi⟩ := KrEvent.forall₂_mem_right (mapM_ok_iff.1 h) hx
  cases hc : xs[i]? with
  | none => rw [hc] at hi; cases hi
  | some y => rw [hc] at hi; cases hi; exact List.mem_of_getElem? hc

theorem integrated_rows {m : Mat} (hm : m.WF) {int : ℚ} {idx : List Nat} {m' : Mat} (h : selectWfsAboveTimeIntegratedThr m int = .ok (idx, m')) :
    idx.Nodup ∧ m'.ncols = m.ncols ∧ ∀ r ∈ m'.rows, r.length = m.ncols := by
  unfold selectWfsAboveTimeIntegratedThr at h
  dsimp only at h
  split at h
  · cases h
  · rename_i rows hr
    cases h
    exact ⟨(whereIdx_sorted _ _).imp Nat.ne_of_lt, rfl, fun r hm' => hm r (take_mem hr r hm')⟩

/-- **C126**: all the algorithms that irene can be configured with select different SiPMs and keep the lengths of the waveforms. -/
theorem algorithm_rows {std : List ℚ → ℚ} {algo : SipmSelect.Algo} {sel : Mat → Except PyErr (List Nat × Mat)} (h : SipmSelect.selectAlgorithm std algo = .ok sel) (n : Nat) : SelectsRows n sel := by
  intro m hm _ idx m' hs
  have hthr : ∀ t int, SipmSelect.thresholdSel t int m = .ok (idx, m') → idx.Nodup ∧ m'.ncols = m.ncols ∧ ∀ r ∈ m'.rows, r.length = m.ncols := by
    intro t int hs
    unfold SipmSelect.thresholdSel at hs
    split at hs
    · cases hs
    · rename_i ts _
      have hwf : Mat.WF ⟨List.zipWith (fun r t => r.map (SipmSelect.keepOver t)) m.rows ts, m.ncols⟩ := by
       intro r hr
       obtain ⟨a, ha, b, hb, rfl⟩ : ∃ a ∈ m.rows, ∃ b ∈ ts, (fun r t => r.map (SipmSelect.keepOver t)) a b = r := by
        rw [← List.map_uncurry_zip_eq_zipWith] at hr
        obtain ⟨⟨a, b⟩, hab, rfl⟩ := List.mem_map.1 hr
        exact ⟨a, (List.of_mem_zip hab).1, b, (List.of_mem_zip hab).2, rfl⟩
       simpa using hm a ha
      exact integrated_rows hwf hs
  cases algo with
  | threshold ty thr thrS2 noise =>
    simp only [SipmSelect.selectAlgorithm, SipmSelect.thresholdSelection] at h
    split at h
    · cases h; exact hthr _ _ hs
    · split at h
      · cases h
      · cases h; exact hthr _ _ hs
  | pyrrha method nsigma proximity padding pos =>
    simp only [SipmSelect.selectAlgorithm] at h
    cases h
    unfold SipmSelect.pyrrhaSel at hs
    split at hs
    · cases hs
    · split at hs
      · unfold Wfm.spatialSelection at hs
        split at hs
        · cases hs
        · split at hs
          · cases hs
          · dsimp only at hs
            split at hs
            · cases hs
            · rename_i rows hr
              cases hs
              exact ⟨(whereIdx_sorted _ _).imp Nat.ne_of_lt, rfl, fun r hm' => hm r (take_mem hr r hm')⟩
      · split at hs
        · cases hs
        · cases hs
          exact ⟨List.nodup_nil, rfl, fun r hr => by cases hr⟩
  | noCut =>
    simp only [SipmSelect.selectAlgorithm] at h
    cases h
    unfold SipmSelect.noCutSel at hs
    cases hs
    exact ⟨List.nodup_range, rfl, hm⟩
  | other => simp [SipmSelect.selectAlgorithm] at h

/-! ### The files of irene -/

theorem all_events {c : Irene} (hc : Sound c) : ∀ {raws : List IreneRaw}, (∀ r ∈ raws, Sized c r) → ∃ pms, List.Forall₂ (fun (r : IreneRaw) p => c.pmap r.pmt r.sipm = .ok p) raws pms ∧
    List.Forall₂ (IsPmap c) raws pms ∧ ∀ s1s s2s, some (s1s, s2s) ∈ pms → GoodPMap ⟨s1s, s2s⟩ ∧ ∀ x ∈ s1s, x.sipms = Responses.empty
  | [], _ => ⟨[], .nil, .nil, fun _ _ h => by cases h⟩
  | r :: raws, h => by
    obtain ⟨p, h1, h2, h3⟩ := irene_event hc (h r List.mem_cons_self)
    obtain ⟨pms, i1, i2, i3⟩ := all_events hc (raws := raws) fun x hx => h x (List.mem_cons_of_mem _ hx)
    refine ⟨p :: pms, .cons h1 i1, .cons h2 i2, fun s1s s2s hm => ?_⟩
    rcases List.mem_cons.1 hm with rfl | hm
    · exact h3 _ _ rfl
    · exact i3 _ _ hm

theorem withPeaks_events {W V : Type} (raws : List (Raw W V)) (pms : List (Option (List Peak × List Peak))) (h : (raws.map fun r => r.event).Nodup) :
    ((withPeaks raws pms).map fun x => x.1.event).Nodup := by
  have hs : List.Sublist ((withPeaks raws pms).map fun x => x.1.event) (raws.map fun r => r.event) := by
    clear h
    unfold withPeaks
    induction raws generalizing pms with
    | nil => simp
    | cons r raws ih =>
      cases pms with
      | nil => simp
      | cons p pms =>
        rw [List.zip_cons_cons, List.filterMap_cons, List.map_cons]
        split
        · exact (ih pms).cons _
        · rename_i b hb
          obtain ⟨q, _, hq⟩ := Option.bind_eq_some_iff.1 hb
          split at hq
          · cases hq
          · cases hq
            exact (ih pms).cons₂ _
  exact h.sublist hs

/-- **C126**: a run of irene over events of the right sizes and with different numbers ends without errors.  Each event has its own PMap, or none; the table `s12_indices` has a row per event telling
whether it has samples over both thresholds, `empty_pmap` a row per event of those telling whether it has peaks, and from the file the next city reads exactly the events with peaks, in order, with
their own number, time and peaks. -/
theorem irene_run {c : Irene} (hc : Sound c) {raws : List IreneRaw} (hr : ∀ r ∈ raws, Sized c r) (hd : (raws.map fun r => r.event).Nodup) (run : Int) :
    ∃ pms out, List.Forall₂ (IsPmap c) raws pms ∧ ireneRun c run raws = .ok out ∧
      out.indices = (raws.zip pms).map (fun x => (x.1.event, x.2.isSome)) ∧
      out.peaks = (raws.zip pms).filterMap (fun x => x.2.map fun p => (x.1.event, decide (p.1 ≠ [] ∨ p.2 ≠ []))) ∧
      Sources.pmapFromFiles [out.file] = ⟨(withPeaks raws pms).map (item run), none⟩ := by
  obtain ⟨pms, h1, h2, h3⟩ := all_events hc hr
  obtain ⟨out, o1, o2, o3, o4⟩ := cityRun_spec run h1 h3
  refine ⟨pms, out, h2, o1, o2, o3, ?_⟩
  have o4 := o4 (withPeaks_events raws pms hd)
  unfold Sources.pmapFromFiles
  simp [Sources.fromFiles, o4]

/-- **C126**: from the files of several runs the next city reads the events of all of them, file after file. -/
theorem irene_files (runs : List (Irene × Int × List IreneRaw)) (h : ∀ r ∈ runs, Sound r.1 ∧ (∀ x ∈ r.2.2, Sized r.1 x) ∧ (r.2.2.map fun x => x.event).Nodup) :
    ∃ outs : List (Output × List (Option (List Peak × List Peak))),
      List.Forall₂ (fun r o => ireneRun r.1 r.2.1 r.2.2 = .ok o.1 ∧ List.Forall₂ (IsPmap r.1) r.2.2 o.2) runs outs ∧
      Sources.pmapFromFiles (outs.map fun o => o.1.file) = ⟨(runs.zip outs).flatMap fun x => (withPeaks x.1.2.2 x.2.2).map (item x.1.2.1), none⟩ := by
  have key : ∃ outs : List (Output × List (Option (List Peak × List Peak))),
      List.Forall₂ (fun (r : Irene × Int × List IreneRaw) (o : Output × List (Option (List Peak × List Peak))) => ireneRun r.1 r.2.1 r.2.2 = .ok o.1 ∧ List.Forall₂ (IsPmap r.1) r.2.2 o.2) runs outs ∧
      outs.map (fun o => Sources.pmapFile o.1.file) = (runs.zip outs).map fun x => ⟨(withPeaks x.1.2.2 x.2.2).map (item x.1.2.1), none⟩ := by
    induction runs with
    | nil => exact ⟨[], .nil, rfl⟩
    | cons r runs ih =>
      obtain ⟨hs, hz, hd⟩ := h r List.mem_cons_self
      obtain ⟨outs, i1, i2⟩ := ih fun x hx => h x (List.mem_cons_of_mem _ hx)
      obtain ⟨pms, h1, h2, h3⟩ := all_events hs hz
      obtain ⟨out, o1, _, _, o4⟩ := cityRun_spec r.2.1 h1 h3
      refine ⟨(out, pms) :: outs, .cons ⟨o1, h2⟩ i1, ?_⟩
      rw [List.map_cons, List.zip_cons_cons, List.map_cons, i2]
      congr 1
      exact o4 (withPeaks_events r.2.2 pms hd)
  obtain ⟨outs, h1, h2⟩ := key
  refine ⟨outs, h1, ?_⟩
  have hl := h1.length_eq
  have hn : ∀ p ∈ outs.map (fun o => o.1.file), (Sources.pmapFile p).exc = none := by
    intro p hp
    obtain ⟨o, ho, rfl⟩ := List.mem_map.1 hp
    have : Sources.pmapFile o.1.file ∈ outs.map (fun o => Sources.pmapFile o.1.file) := List.mem_map_of_mem ho
    rw [h2] at this
    obtain ⟨x, _, hx⟩ := List.mem_map.1 this
    rw [← hx]
  have e1 := (Sources.fromFiles_none Sources.pmapFile _).2 hn
  have e2 := Sources.fromFiles_items Sources.pmapFile _ hn
  have e3 : ((outs.map fun o => o.1.file).map fun p => (Sources.pmapFile p).items) = (runs.zip outs).map fun x => (withPeaks x.1.2.2 x.2.2).map (item x.1.2.1) := by
    have : ((outs.map fun o => o.1.file).map fun p => (Sources.pmapFile p).items) = (outs.map fun o => Sources.pmapFile o.1.file).map fun g => g.items := by simp [Function.comp_def]
    rw [this, h2, List.map_map]
    rfl
  rw [e3] at e2
  unfold Sources.pmapFromFiles
  cases hg : Sources.fromFiles Sources.pmapFile (outs.map fun o => o.1.file) with
  | mk items exc =>
    rw [hg] at e1 e2
    simp only at e1 e2
    rw [e1, e2, List.flatMap]

/-! ### The runs of hypathia -/

theorem hypathia_event {c : Hypathia} {n : Nat} (hc : SoundHypathia c n) {r : HypathiaRaw} (hr : SizedHypathia c n r) :
    ∃ p, c.pmap r.pmt r.sipm = .ok p ∧ ∀ s1s s2s, p = some (s1s, s2s) → GoodPMap ⟨s1s, s2s⟩ ∧ ∀ x ∈ s1s, x.sipms = Responses.empty := by
  obtain ⟨sim, hsim, hS, hSn⟩ := hr.sim
  obtain ⟨q, h1, h2, h3, h4⟩ : ∃ q, PmapBuild.rebinPmts c.stride r.pmt = .ok q ∧ q.WF ∧ q.rows.length = r.pmt.rows.length ∧ q.ncols = samplesAfter c.stride n := by
    unfold samplesAfter
    rw [← hr.samples]
    by_cases hs : 1 < c.stride
    · obtain ⟨q, e1, e2, e3, e4, _⟩ := (PmapBuild.rebinPmts_spec c.stride r.pmt hr.shape).2 hs
      exact ⟨q, e1, e3, e4, by rw [e2, if_pos hs]⟩
    · exact ⟨r.pmt, (PmapBuild.rebinPmts_spec c.stride r.pmt hr.shape).1 (by omega), hr.shape, rfl, by rw [if_neg hs]⟩
  obtain ⟨cc, f1, f2, f3, f4⟩ := hc.fluct q h2
  have hids : PmapBuild.pmtIds c.pmts = c.pmts.map fun p => p.sensor.toNat := by
    unfold PmapBuild.pmtIds
    rw [List.filter_eq_self.2 fun p hp => by simp [hc.active p hp]]
  obtain ⟨a1, ha1⟩ : ∃ a1, a1 = PmapBuild.samplesOver cc.ncols (fun j => (cc.rows.map fun y => y.getD j 0).sum) c.conf.thr1 := ⟨_, rfl⟩
  obtain ⟨a2, ha2⟩ : ∃ a2, a2 = PmapBuild.samplesOver cc.ncols (fun j => (cc.rows.map fun y => y.getD j 0).sum) c.conf.thr2 := ⟨_, rfl⟩
  have hrun : c.pmap r.pmt r.sipm = PmapBuild.computePmap c.conf c.pmts c.sipms cc (a1, a2) (((c.sipms.zip sim).filter fun x => decide (x.1.active ≠ 0)).map Prod.snd) c.nSipm := by
    simp only [Hypathia.pmap, PmapBuild.hypathiaEvent, h1, f1, hsim, PmapBuild.maskSensors_ok hr.pmts hS, PmapBuild.zeroSuppress, PmapBuild.sum_samples, ha1, ha2]
  have s1 : a1.Pairwise (· < ·) := by rw [ha1]; exact PmapBuild.over_sorted ..
  have s2 : a2.Pairwise (· < ·) := by rw [ha2]; exact PmapBuild.over_sorted ..
  have n1 : ∀ i ∈ a1, i < cc.ncols := by rw [ha1]; exact fun i hi => (PmapBuild.mem_over.1 hi).1
  have n2 : ∀ i ∈ a2, i < cc.ncols := by rw [ha2]; exact fun i hi => (PmapBuild.mem_over.1 hi).1
  have en : cc.ncols = samplesAfter c.stride n := by rw [f4, h4]
  obtain ⟨k1, k2⟩ := PmapBuild.computePmap_spec (c := c.conf) (pmts := c.pmts) (sipms := c.sipms) (ccwf := cc) (idx := (a1, a2)) (rows := sim) (nSipm := c.nSipm)
    hc.flags.2 hS hSn (by rw [en]; exact hc.conf) hc.selection f2 (by rw [hids, List.length_map, f3, h3, hr.pmts]) s1 s2 n1 n2
  by_cases hn : a1 = [] ∨ a2 = []
  · exact ⟨none, hrun.trans (k1 hn), fun _ _ h => by cases h⟩
  · push Not at hn
    obtain ⟨s1s, s2s, r1, r2, r3⟩ := k2 hn.1 hn.2
    have hsh := computePmap_shape r1 hc.flags.2 hS hSn f2 hc.ids hc.rows
    refine ⟨some (s1s, s2s), hrun.trans r1, ?_⟩
    intro _ _ h
    cases h
    refine ⟨⟨fun p hp => (hsh.1 p hp).1, fun p hp => ⟨(hsh.2 p hp).1, (hsh.2 p hp).2 ?_⟩, few_found r2 s1 n1 (by rw [en]; exact hc.few1), few_found r3 s2 n2 (by rw [en]; exact hc.few2)⟩, fun p hp => (hsh.1 p hp).2⟩
    obtain ⟨_, _, hf⟩ := r3
    obtain ⟨_, _, _, hs⟩ := KrEvent.forall₂_mem_right hf hp
    obtain ⟨_, _, n, _, _, _, _, _, _, e3, e4⟩ := hs
    rw [e3, ← e4]

/-- **C126**: the same for hypathia when all the PMTs are active (the PMap of each event is that of `hypathia_pmap`). -/
theorem hypathia_run {c : Hypathia} {n : Nat} (hc : SoundHypathia c n) {raws : List HypathiaRaw} (hr : ∀ r ∈ raws, SizedHypathia c n r) (hd : (raws.map fun r => r.event).Nodup) (run : Int) :
    ∃ pms out, List.Forall₂ (fun (r : HypathiaRaw) p => PmapBuild.hypathiaEvent c.conf c.fluct c.simSipm c.stride c.pmts c.sipms r.pmt r.sipm c.nSipm = .ok p) raws pms ∧ hypathiaRun c run raws = .ok out ∧
      out.indices = (raws.zip pms).map (fun x => (x.1.event, x.2.isSome)) ∧
      out.peaks = (raws.zip pms).filterMap (fun x => x.2.map fun p => (x.1.event, decide (p.1 ≠ [] ∨ p.2 ≠ []))) ∧
      Sources.pmapFromFiles [out.file] = ⟨(withPeaks raws pms).map (item run), none⟩ := by
  obtain ⟨pms, h1, h3⟩ : ∃ pms, List.Forall₂ (fun (r : HypathiaRaw) p => c.pmap r.pmt r.sipm = .ok p) raws pms ∧
      ∀ s1s s2s, some (s1s, s2s) ∈ pms → GoodPMap ⟨s1s, s2s⟩ ∧ ∀ x ∈ s1s, x.sipms = Responses.empty := by
    clear hd
    induction raws with
    | nil => exact ⟨[], .nil, fun _ _ h => by cases h⟩
    | cons r raws ih =>
      obtain ⟨p, h1, h3⟩ := hypathia_event hc (hr r List.mem_cons_self)
      obtain ⟨pms, i1, i3⟩ := ih fun x hx => hr x (List.mem_cons_of_mem _ hx)
      refine ⟨p :: pms, .cons h1 i1, fun s1s s2s hm => ?_⟩
      rcases List.mem_cons.1 hm with rfl | hm
      · exact h3 _ _ rfl
      · exact i3 _ _ hm
  obtain ⟨out, o1, o2, o3, o4⟩ := cityRun_spec run h1 h3
  refine ⟨pms, out, h1, o1, o2, o3, ?_⟩
  have o4 := o4 (withPeaks_events raws pms hd)
  unfold Sources.pmapFromFiles
  simp [Sources.fromFiles, o4]

/-! ### From the waveforms to the hits -/

theorem normal_valid {p : Peak} (hg : GoodPeak p) (hs : GoodSipms p) : ValidPeak (PMapsIO.normalSipms p) := by
  refine ⟨hg.not_empty, hg.widths, fun r hr => (hg.pmts.lengths r hr).trans hg.pmts.cols.symm, hg.pmts.cols, hg.pmts.one_each, ?_⟩
  unfold PMapsIO.normalSipms
  dsimp only
  by_cases h : p.sipms.ids = []
  · rw [if_pos h]; exact Or.inl rfl
  · rw [if_neg h]
    right
    rcases hs with hs | hs
    · exact absurd hs h
    · exact ⟨fun r hr => (hs.lengths r hr).trans hs.cols.symm, hs.cols, hs.one_each, h⟩

theorem selected_energy {f2 : List Bool} {s2s : List Peak} {pieces : List (List Nat)} {ys : List (List ℚ × List ℚ)} {g : Peak → Peak} (hg : ∀ p, (g p).pmts = p.pmts)
    (h : List.Forall₂ (fun piece (p : Peak) => Sophronia.pmtEnergy p = pieceCharge ys piece) pieces s2s) :
    Chain.s2Energy f2 (s2s.map g) = ((flagged f2 pieces).map (pieceCharge ys)).sum := by
  have e : Chain.s2Energy f2 (s2s.map g) = ((KrEvent.selected f2 (s2s.map g)).map Sophronia.pmtEnergy).sum := by
    rw [Sophronia.selected_eq, List.map_map]; rfl
  rw [e]
  clear e
  unfold KrEvent.selected flagged
  congr 1
  induction h generalizing f2 with
  | nil => simp
  | @cons a b l m h1 _ ih =>
    cases f2 with
    | nil => simp
    | cons f f2 =>
      rw [List.map_cons, List.zip_cons_cons, List.zip_cons_cons, List.filter_cons, List.filter_cons]
      have hb : Sophronia.pmtEnergy (g b) = pieceCharge ys a := by rw [← h1]; unfold Sophronia.pmtEnergy; rw [hg]
      cases f with
      | true => simp only [if_true, List.map_cons, ih, hb]
      | false => simpa using ih

/-- **C126**: the S2s that sophronia reads from the file of irene are consistent, and the energy of any choice of them is the charge of the calibrated waveforms of the PMTs in their pieces. -/
theorem irene_for_sophronia {c : Irene} (hc : Sound c) {r : IreneRaw} (hr : Sized c r) {s1s s2s : List Peak} (h : c.pmap r.pmt r.sipm = .ok (some (s1s, s2s))) :
    Chain.Good ⟨r.event, r.ts, s1s, s2s.map PMapsIO.normalSipms⟩ ∧
    ∃ ys pieces, List.Forall₂ (PmapBuild.PmtWf c.tan c.nBaseline) (PmapBuild.activePmts c.pmts r.pmt) ys ∧ IsGrouping (s2Samples c ys) c.conf.s2.stride pieces ∧
      (pieces.filter (inWindow c.conf.s2.time.min c.conf.s2.time.max c.conf.s2.length.min c.conf.s2.length.max c.conf.w)).length = s2s.length ∧
      ∀ f2, Chain.s2Energy f2 (s2s.map PMapsIO.normalSipms) =
        ((flagged f2 (pieces.filter (inWindow c.conf.s2.time.min c.conf.s2.time.max c.conf.s2.length.min c.conf.s2.length.max c.conf.w))).map (pieceCharge ys)).sum := by
  obtain ⟨p, h1, h2, h3⟩ := irene_event hc hr
  rw [h] at h1
  cases h1
  obtain ⟨g, _⟩ := h3 _ _ rfl
  refine ⟨⟨?_, ?_⟩, ?_⟩
  · intro p hp
    obtain ⟨q, hq, rfl⟩ := List.mem_map.1 hp
    exact normal_valid (g.s2s q hq).1 (g.s2s q hq).2
  · simpa using g.few_s2s
  · obtain ⟨ys, hy, _, hf⟩ := h2
    obtain ⟨_, pieces, k1, k2⟩ := hf _ _ rfl
    refine ⟨ys, pieces, hy, k1, k2.length_eq, fun f2 => selected_energy (fun p => rfl) (k2.imp ?_)⟩
    rintro piece peak ⟨⟨first, last, e1, e2, _, e4, _⟩, _⟩
    unfold Sophronia.pmtEnergy pieceCharge
    rw [e4, e1, e2, List.map_map]
    rfl

/-- **C126**: no energy is lost from the waveforms to the hits of sophronia: the energy of the hits of an event is the charge of the calibrated waveforms of the PMTs in the selected S2s, up to the epsilon
of the division. -/
theorem waveforms_to_hits {c : Irene} (hc : Sound c) {r : IreneRaw} (hr : Sized c r) {s1s s2s : List Peak} (h : c.pmap r.pmt r.sipm = .ok (some (s1s, s2s)))
    {sc : Sophronia.Cfg} (hb : HitBuilder.Sized sc.builder) (hq : 0 < sc.qThr) (hsp : sc.samePeak = false) {f1 f2 : List Bool}
    (ha : Sophronia.Accepted sc s1s (s2s.map PMapsIO.normalSipms) f1 f2) (hl : ∀ p ∈ s2s.map PMapsIO.normalSipms, Sophronia.Bright sc.rebin p)
    {w : Sophronia.Written} (hw : Sophronia.sophroniaEvent sc s1s (s2s.map PMapsIO.normalSipms) r.event r.ts = .ok w) (hval : w.validHits = some true) :
    ∃ ys pieces, List.Forall₂ (PmapBuild.PmtWf c.tan c.nBaseline) (PmapBuild.activePmts c.pmts r.pmt) ys ∧ IsGrouping (s2Samples c ys) c.conf.s2.stride pieces ∧
      |Sophronia.energy w.hits - ((flagged f2 (pieces.filter (inWindow c.conf.s2.time.min c.conf.s2.time.max c.conf.s2.length.min c.conf.s2.length.max c.conf.w))).map (pieceCharge ys)).sum| ≤
        ((flagged f2 (pieces.filter (inWindow c.conf.s2.time.min c.conf.s2.time.max c.conf.s2.length.min c.conf.s2.length.max c.conf.w))).map (pieceCharge ys)).sum * (1 / 2 ^ 52 / sc.qThr) := by
  obtain ⟨hg, ys, pieces, hy, hp, _, he⟩ := irene_for_sophronia hc hr h
  obtain ⟨_, _, h1, _⟩ := Sophronia.event_energy hb hq ha (fun x hx => hg.peaks _ (Chain.selected_mem hx)) hg.number (fun x hx => hl _ (Chain.selected_mem hx)) hw hval
  have h1 := h1 hsp
  rw [show Hits.EPSILON = 1 / 2 ^ 52 from rfl] at h1
  refine ⟨ys, pieces, hy, hp, ?_⟩
  rw [← he f2]
  exact h1

theorem withPeaks_mem {W V : Type} {raws : List (Raw W V)} {pms : List (Option (List Peak × List Peak))} {x : Raw W V × List Peak × List Peak} (h : x ∈ withPeaks raws pms) :
    (x.1, some x.2) ∈ raws.zip pms := by
  unfold withPeaks at h
  obtain ⟨⟨r, p⟩, hy, e⟩ := List.mem_filterMap.1 h
  cases p with
  | none => simp at e
  | some p =>
    simp only [Option.bind_some] at e
    split at e
    · cases e
    · cases e; exact hy

/-- **C126**: from the waveforms to the city after sophronia, through the two files.  The events that sophronia gets are those of irene with peaks, and their S2s are consistent; whatever sophronia accepts of
them, the next city does not refuse its file, and reads all the accepted events with their hits if any of them has hits. -/
theorem through_sophronia {c : Irene} (hc : Sound c) {raws : List IreneRaw} (hr : ∀ r ∈ raws, Sized c r) (hd : (raws.map fun r => r.event).Nodup) (run : Int) :
    ∃ pms out, List.Forall₂ (IsPmap c) raws pms ∧ ireneRun c run raws = .ok out ∧
      inputs (Sources.pmapFromFiles [out.file]).items = (withPeaks raws pms).map (fun x => ⟨x.1.event, x.1.ts, x.2.1, x.2.2.map PMapsIO.normalSipms⟩) ∧
      (∀ i ∈ inputs (Sources.pmapFromFiles [out.file]).items, Chain.Good i) ∧
      ∀ sc ws, HitBuilder.Sized sc.builder → Chain.sophroniaRun sc (inputs (Sources.pmapFromFiles [out.file]).items) = .ok ws → ∀ run2,
        (Chain.nextSource [Chain.sophroniaFile run2 (inputs (Sources.pmapFromFiles [out.file]).items) ws]).exc = none ∧
        (Chain.nextSource [Chain.sophroniaFile run2 (inputs (Sources.pmapFromFiles [out.file]).items) ws]).items =
          if ∃ x ∈ Chain.accepted (inputs (Sources.pmapFromFiles [out.file]).items) ws, x.2.hits ≠ [] then
            (Chain.accepted (inputs (Sources.pmapFromFiles [out.file]).items) ws).map (Chain.item run2) else [] := by
  obtain ⟨pms, h1, h2, h3⟩ := all_events hc hr
  obtain ⟨out, o1, _, _, o4⟩ := cityRun_spec run h1 h3
  have o4 := o4 (withPeaks_events raws pms hd)
  have hin : inputs (Sources.pmapFromFiles [out.file]).items = (withPeaks raws pms).map (fun x => ⟨x.1.event, x.1.ts, x.2.1, x.2.2.map PMapsIO.normalSipms⟩) := by
    unfold Sources.pmapFromFiles inputs
    simp [Sources.fromFiles, o4, item]
  have hgood : ∀ i ∈ inputs (Sources.pmapFromFiles [out.file]).items, Chain.Good i := by
    rw [hin]
    intro i hi
    obtain ⟨x, hx, rfl⟩ := List.mem_map.1 hi
    have hz := withPeaks_mem hx
    have hp : c.pmap x.1.pmt x.1.sipm = .ok (some x.2) := by
      have key : ∀ (l : List IreneRaw) m, List.Forall₂ (fun (r : IreneRaw) p => c.pmap r.pmt r.sipm = .ok p) l m → ∀ y ∈ l.zip m, c.pmap y.1.pmt y.1.sipm = .ok y.2 := by
        intro l m hlm
        induction hlm with
        | nil => intro y hy; cases hy
        | cons h _ ih =>
          intro y hy
          rcases List.mem_cons.1 hy with rfl | hy
          · exact h
          · exact ih y hy
      exact key _ _ h1 _ hz
    exact (irene_for_sophronia hc (hr x.1 (List.of_mem_zip hz).1) hp).1
  refine ⟨pms, out, h2, o1, hin, hgood, fun sc ws hb hs run2 => ?_⟩
  have hn : ((Chain.accepted (inputs (Sources.pmapFromFiles [out.file]).items) ws).map fun x => x.1.event).Nodup := by
    have hev : ((inputs (Sources.pmapFromFiles [out.file]).items).map fun i => i.event).Nodup := by
      rw [hin, List.map_map]
      exact withPeaks_events raws pms hd
    have hsub : List.Sublist ((Chain.accepted (inputs (Sources.pmapFromFiles [out.file]).items) ws).map fun x => x.1.event) (((inputs (Sources.pmapFromFiles [out.file]).items).zip ws).map fun x => x.1.event) :=
      List.Sublist.map _ List.filter_sublist
    have hz : ∀ (l : List Chain.Input) (m : List Sophronia.Written), List.Sublist ((l.zip m).map fun x => x.1.event) (l.map fun i => i.event) := by
      intro l
      induction l with
      | nil => intro m; simp
      | cons a l ih =>
        intro m
        cases m with
        | nil => simp
        | cons b m => simpa using ih m
    exact (hsub.trans (hz _ _)).nodup hev
  obtain ⟨r1, r2⟩ := Chain.read_back hb [(run2, inputs (Sources.pmapFromFiles [out.file]).items, ws)] (by simpa using hgood) (by simpa using hs) (by simpa using hn)
  refine ⟨r1, ?_⟩
  rw [show [Chain.sophroniaFile run2 (inputs (Sources.pmapFromFiles [out.file]).items) ws] = List.map (fun r : Int × List Chain.Input × List Sophronia.Written => Chain.sophroniaFile r.1 r.2.1 r.2.2)
    [(run2, inputs (Sources.pmapFromFiles [out.file]).items, ws)] from rfl, r2]
  by_cases hx : ∃ x ∈ Chain.accepted (inputs (Sources.pmapFromFiles [out.file]).items) ws, x.2.hits ≠ []
  · rw [if_pos hx]
    have hany : (Chain.accepted (inputs (Sources.pmapFromFiles [out.file]).items) ws).any (fun x => decide (x.2.hits ≠ [])) = true := by simpa using hx
    rw [List.filter_cons, if_pos hany]
    simp
  · rw [if_neg hx]
    have hany : ¬ (Chain.accepted (inputs (Sources.pmapFromFiles [out.file]).items) ws).any (fun x => decide (x.2.hits ≠ [])) = true := by simpa using hx
    rw [List.filter_cons, if_neg hany]
    simp

/-- **C126**: no energy is lost from the waveforms to the deconvolved hits of beersheba: under the conditions of `Chain.deconvolved_energy`, their energy is the charge of the calibrated waveforms of the PMTs in
the selected S2s, up to the rounding to six decimals and the documented epsilons. -/
theorem waveforms_to_deconvolved {c : Irene} (hc : Sound c) {r : IreneRaw} (hr : Sized c r) {s1s s2s : List Peak} (h : c.pmap r.pmt r.sipm = .ok (some (s1s, s2s)))
    {sc : Sophronia.Cfg} (hb : HitBuilder.Sized sc.builder) (hq : 0 < sc.qThr) (hsp : sc.samePeak = false) {f1 f2 : List Bool}
    (ha : Sophronia.Accepted sc s1s (s2s.map PMapsIO.normalSipms) f1 f2) (hl : ∀ p ∈ s2s.map PMapsIO.normalSipms, Sophronia.Bright sc.rebin p)
    {w : Sophronia.Written} (hw : Sophronia.sophroniaEvent sc s1s (s2s.map PMapsIO.normalSipms) r.event r.ts = .ok w)
    {b : Beersheba.Cfg} (hbc : Beersheba.Conditions b (Chain.nextHits w.hits)) (hbp : b.samePeak = false) (hcol : b.column = 0) (hthr : ∃ o ∈ w.hits, b.threshold ≤ o.q)
    {time : ℚ} {xy : Int → ℚ × ℚ} {out : Beersheba.Written} (ho : Beersheba.beershebaEvent b r.event time r.ts xy (Chain.nextHits w.hits) = .ok out)
    (hv : ∀ o ∈ out.deco, o.hit.e ≠ none) (hpk : ∀ a ∈ out.lowTh, ∃ o ∈ out.deco, o.hit.npeak = (a.npeak : Int)) :
    ∃ ys pieces charge, List.Forall₂ (PmapBuild.PmtWf c.tan c.nBaseline) (PmapBuild.activePmts c.pmts r.pmt) ys ∧ IsGrouping (s2Samples c ys) c.conf.s2.stride pieces ∧
      charge = ((flagged f2 (pieces.filter (inWindow c.conf.s2.time.min c.conf.s2.time.max c.conf.s2.length.min c.conf.s2.length.max c.conf.w))).map (pieceCharge ys)).sum ∧
      |Chain.decoEnergy out.deco - charge| ≤ out.deco.length / 2000000 + 1 / 2 ^ 52 * (w.hits.length + Sophronia.energy w.hits / b.threshold) + charge * (1 / 2 ^ 52 / sc.qThr) := by
  obtain ⟨hg, ys, pieces, hy, hp, _, he⟩ := irene_for_sophronia hc hr h
  refine ⟨ys, pieces, _, hy, hp, rfl, ?_⟩
  rw [← he f2]
  exact Chain.deconvolved_energy (i := ⟨r.event, r.ts, s1s, s2s.map PMapsIO.normalSipms⟩) hb hq hsp hg (fun x hx => hl x hx) ha hw hbc hbp hcol hthr ho hv hpk

/-! ### A concrete case: an event with an S1 and an S2, one whose pulse is out of the windows, and one without pulses -/

def caseConf : PmapBuild.Config := ⟨⟨⟨0, 395⟩, ⟨1, 10⟩, 4, 1⟩, ⟨⟨0, 395⟩, ⟨1, 10⟩, 4, 2⟩, 1, 2, (selectWfsAboveTimeIntegratedThr · 1), 5, 5⟩
def caseSipms : List LoadDb.SipmRow := [PmapBuild.exSipmRow 1000 1, PmapBuild.exSipmRow 1001 1]
def caseIrene : Irene := ⟨fun x => x, caseConf, 100, 10, 1, PmapBuild.exPmts, caseSipms, 400, 200⟩
def casePulse : IreneRaw := ⟨7, 3000, [List.replicate 400 7, List.replicate 387 100 ++ [60, 20, 40] ++ List.replicate 10 100], [List.replicate 193 3 ++ [5, 8, 3, 3, 3, 3, 3], List.replicate 193 5 ++ [9, 11, 5, 5, 5, 5, 5]]⟩
def caseLate : IreneRaw := ⟨8, 4000, PmapBuild.exRwf, PmapBuild.exSipmRwf⟩
def caseFlat : IreneRaw := ⟨9, 5000, [List.replicate 400 7, List.replicate 400 100], PmapBuild.exSipmRwf⟩
def caseRaws : List IreneRaw := [casePulse, caseLate, caseFlat]

theorem case_sound : Sound caseIrene where
  flags := by
    constructor
    · intro p hp
      simp only [caseIrene, PmapBuild.exPmts, List.mem_cons, List.not_mem_nil, or_false] at hp
      rcases hp with rfl | rfl <;> decide
    · intro p hp
      simp only [caseIrene, caseSipms, List.mem_cons, List.not_mem_nil, or_false] at hp
      rcases hp with rfl | rfl <;> decide
  ids := ⟨by
    intro p hp
    simp only [caseIrene, PmapBuild.exPmts, List.mem_cons, List.not_mem_nil, or_false] at hp
    rcases hp with rfl | rfl <;> decide, by decide, by decide⟩
  conf := ⟨by decide, by decide, by decide, by decide, by decide⟩
  selection := selectWfs_isSelection 1 _
  rows := fun m hm _ idx m' h => integrated_rows hm h
  samples := by decide
  maw := by decide
  coeffs := by
    intro p hp _
    simp only [caseIrene, PmapBuild.exPmts, List.mem_cons, List.not_mem_nil, or_false] at hp
    rcases hp with rfl | rfl <;> exact ⟨1 / 100, 1 / 1000, rfl, rfl, by norm_num, by norm_num, by norm_num⟩
  few1 := by decide
  few2 := by decide

theorem case_sized : ∀ r ∈ caseRaws, Sized caseIrene r := by
  have h : caseRaws.all (fun r => decide (r.pmt.length = 2) && r.pmt.all (fun w => decide (w.length = 400)) && decide (r.sipm.length = 2) && r.sipm.all fun w => decide (w.length = 200)) = true := by decide +kernel
  intro r hr
  have := List.all_eq_true.1 h r hr
  simp only [Bool.and_eq_true, decide_eq_true_eq, List.all_eq_true] at this
  obtain ⟨⟨⟨h1, h2⟩, h3⟩, h4⟩ := this
  exact ⟨h1, h2, h3, h4⟩

example : (caseRaws.map fun r => r.event).Nodup := by decide
def caseSophronia : Sophronia.Cfg :=
  ⟨Sophronia.exSel 1 1000000, ⟨1, [(1 / 2, 1 / 2), (3 / 2, 1 / 2), (9, 9)], HitBuilder.rawPoint, Sophronia.exReco, fun _ => 1⟩, .stride 2, 2, HitBuilder.rawSlices, false, none, none⟩
def casePeaks : List Peak × List Peak :=
  ([⟨[387, 388, 389], [1, 1, 1], ⟨[1], ⟨[[2001 / 101, 400402 / 10201, 58949003 / 2060602]], 3⟩⟩, Responses.empty⟩],
    [⟨[387, 54313069319 / 139830207], [1, 2], ⟨[1], ⟨[[2001 / 101, 139830207 / 2060602]], 2⟩⟩, ⟨[0, 1], ⟨[[1, 5 / 2], [2, 3]], 2⟩⟩⟩])

theorem ok_of_toOption {α : Type} {x : Except PyErr α} {a : α} (h : x.toOption = some a) : x = .ok a := by
  cases x with
  | error e => cases h
  | ok b => cases h; rfl

theorem case_pulse : caseIrene.pmap casePulse.pmt casePulse.sipm = .ok (some casePeaks) := ok_of_toOption (by decide +kernel)
theorem case_late : caseIrene.pmap caseLate.pmt caseLate.sipm = .ok (some ([], [])) := ok_of_toOption (by decide +kernel)
theorem case_flat : caseIrene.pmap caseFlat.pmt caseFlat.sipm = .ok none := ok_of_toOption (by decide +kernel)

theorem cityRun_congr {W V : Type} {f g : W → V → Except PyErr (Option (List Peak × List Peak))} {raws : List (Raw W V)} (h : ∀ r ∈ raws, f r.pmt r.sipm = g r.pmt r.sipm) (run : Int) :
    cityRun f run raws = cityRun g run raws := by
  have e : raws.mapM (runEvent f) = raws.mapM (runEvent g) := by
    induction raws with
    | nil => rfl
    | cons r raws ih =>
      rw [List.mapM_cons, List.mapM_cons, ih fun x hx => h x (List.mem_cons_of_mem _ hx)]
      unfold runEvent
      rw [h r List.mem_cons_self]
  unfold cityRun
  rw [e]

/-- The PMaps of the three events, without the computation. -/
def casePmap (pmt : List (List ℚ)) (_ : List (List Int)) : Except PyErr (Option (List Peak × List Peak)) :=
  .ok (if pmt = casePulse.pmt then some casePeaks else if pmt = caseLate.pmt then some ([], []) else none)

theorem case_run : ireneRun caseIrene 3 caseRaws = cityRun casePmap 3 caseRaws := by
  refine cityRun_congr (fun r hr => ?_) 3
  have h1 : ¬ caseLate.pmt = casePulse.pmt := by decide +kernel
  have h2 : ¬ caseFlat.pmt = casePulse.pmt := by decide +kernel
  have h3 : ¬ caseFlat.pmt = caseLate.pmt := by decide +kernel
  unfold casePmap
  simp only [caseRaws, List.mem_cons, List.not_mem_nil, or_false] at hr
  rcases hr with rfl | rfl | rfl
  · rw [case_pulse, if_pos rfl]
  · rw [case_late, if_neg h1, if_pos rfl]
  · rw [case_flat, if_neg h2, if_neg h3]

example : (ireneRun caseIrene 3 caseRaws).toOption.map (fun o => ((o.indices, o.peaks), (Sources.pmapFromFiles [o.file]).items.map fun i => (i.event, i.timestamp))) =
    some (([(7, true), (8, true), (9, false)], [(7, true), (8, false)]), [(7, 3000)]) := by rw [case_run]; decide +kernel
example : HitBuilder.Sized caseSophronia.builder := HitBuilder.sized_raw rfl
example : Filters.pmapFilter caseSophronia.selector casePeaks.1 (casePeaks.2.map PMapsIO.normalSipms) = .ok ⟨true, [true], [true]⟩ := by decide +kernel
example : ∀ p ∈ casePeaks.2.map PMapsIO.normalSipms, ((rebinPeak p caseSophronia.rebin).toOption.map fun q => q.pmts.sumOverSensors.all fun e => decide (0 < e)) = some true := by decide +kernel
example : (Sophronia.sophroniaEvent caseSophronia casePeaks.1 (casePeaks.2.map PMapsIO.normalSipms) 7 3000).toOption.map (fun w => (w.validHits, w.hits.map fun h => (h.x, h.y, h.q))) = some (some true, [(1 / 2, 1 / 2, 7 / 2), (3 / 2, 1 / 2, 5)]) := by decide +kernel
example : casePeaks.2.map Sophronia.pmtEnergy = [2001 / 101 + 139830207 / 2060602] := by decide +kernel
/-- The hypotheses of `waveforms_to_deconvolved` hold for this event with the configuration of beersheba of `Chain`, with a lower threshold: all its hits are over it and the only peak is deconvolved. -/
def caseBeersheba : Beersheba.Cfg := { Chain.caseBeersheba with threshold := 1, qCut := 1 }
def caseHits : List Sophronia.OutHit := ((Sophronia.sophroniaEvent caseSophronia casePeaks.1 (casePeaks.2.map PMapsIO.normalSipms) 7 3000).toOption.map fun w => w.hits).getD []
example : caseHits.all (fun o => decide (caseBeersheba.threshold ≤ o.q)) = true := by decide +kernel
example : Beersheba.Conditions caseBeersheba (Chain.nextHits caseHits) where
  map := ⟨KrApply.firstNearest_spec, rfl, ⟨100, by decide +kernel, by decide +kernel⟩, by
    intro b hb mu hmu
    simp only [caseBeersheba, Chain.caseBeersheba, List.mem_cons, List.not_mem_nil, or_false] at hb
    rcases hb with rfl | rfl <;> · cases hmu; norm_num, by decide +kernel, by decide +kernel⟩
  threshold := by decide +kernel
  energies := by decide +kernel
  size := fun _ h => by cases h
  order := fun _ => List.Perm.refl _
example : (Beersheba.beershebaEvent caseBeersheba 7 3 3000 (fun _ => (1, 1)) (Chain.nextHits caseHits)).toOption.map (fun o => o.deco.map fun d => (d.hit.npeak, d.hit.x, d.hit.e)) =
    some [(0, 1 / 2, some (7391851 / 200000)), (0, 3 / 2, some (37818773 / 1000000)), (0, 5 / 2, some (3223191 / 250000))] := by decide +kernel
example : (Beersheba.beershebaEvent caseBeersheba 7 3 3000 (fun _ => (1, 1)) (Chain.nextHits caseHits)).toOption.map (fun o => o.lowTh.map fun a => (a.npeak, a.q)) =
    some [(0, 7 / 2), (0, 5)] := by decide +kernel
example : SipmSelect.selectAlgorithm (fun _ => 0) .noCut = .ok SipmSelect.noCutSel := rfl

/-- From the waveforms to the city after sophronia: of the event with peaks, which is accepted, it reads the hits. -/
example : (ireneRun caseIrene 3 caseRaws).toOption.bind (fun o => (Chain.sophroniaRun caseSophronia (inputs (Sources.pmapFromFiles [o.file]).items)).toOption.map fun ws =>
    (Chain.nextSource [Chain.sophroniaFile 3 (inputs (Sources.pmapFromFiles [o.file]).items) ws]).items.map fun i => (i.event, i.timestamp, i.hits.length, i.kdst.length)) = some [(7, 3000, 2, 1)] := by
  rw [case_run]; decide +kernel

def caseHypathia : Hypathia := ⟨⟨⟨⟨0, 1000⟩, ⟨1, 10⟩, 4, 1⟩, ⟨⟨0, 1000⟩, ⟨1, 10⟩, 4, 2⟩, 1, 2, (selectWfsAboveTimeIntegratedThr · 1), 5, 5⟩, fun m => .ok m, PmapBuild.exSim, 1,
  [PmapBuild.exPmt 0 1 1, PmapBuild.exPmt 1 1 2], PmapBuild.exSipms, 4⟩

example : SoundHypathia caseHypathia 8 where
  active := by decide
  flags := ⟨by decide, by decide⟩
  ids := ⟨by decide, by decide, by decide⟩
  conf := ⟨by decide, by decide, by decide, by decide, by decide⟩
  selection := selectWfs_isSelection 1 _
  rows := fun m hm _ idx m' h => integrated_rows hm h
  fluct := fun m hm => ⟨m, rfl, hm, rfl, rfl⟩
  few1 := by decide
  few2 := by decide
example : SizedHypathia caseHypathia 8 ⟨4, 100, PmapBuild.exMc, []⟩ := ⟨rfl, by unfold Mat.WF; decide, rfl, _, rfl, by decide, by decide⟩
example : (hypathiaRun caseHypathia (-1) [⟨4, 100, PmapBuild.exMc, []⟩]).toOption.map (fun o => (o.indices, o.peaks)) = some ([(4, true)], [(4, true)]) := by decide +kernel
example : (hypathiaRun caseHypathia (-1) [⟨4, 100, PmapBuild.exMc, []⟩]).toOption.map (fun o => (Sources.pmapFromFiles [o.file]).items.map fun i => (i.event, i.pmap.s1s.length, i.pmap.s2s.length)) =
    some [(4, 1, 1)] := by decide +kernel

end Verif.IreneRun
