import Verif.Spec.PMapsIO
import Verif.Lemmas.Tables
/-!
# C38, C48: PMaps written and read back
-/
namespace Verif.PMapsIO
open Verif.PMaps

/-! ### The rows of one peak -/

def sumBlock (p : Peak) (k : Nat) (e : Int) : List SumRow :=
  p.times.zipIdx.map fun x => ⟨e, k, x.1, p.widths.getD x.2 0, p.pmts.sumOverSensors.getD x.2 0⟩

def sensorBlock (r : Responses) (k : Nat) (e : Int) : List SensorRow :=
  (r.ids.zip r.wfs.rows).flatMap fun x => x.2.map fun en => ⟨e, k, x.1, en⟩

theorem waveform_zip {r : Responses} (hnd : r.ids.Nodup) (hlen : r.ids.length = r.wfs.rows.length)
    {x : Nat × List ℚ} (hx : x ∈ r.ids.zip r.wfs.rows) : waveform r x.1 = .ok x.2 := by
  have hmap : (r.ids.zip r.wfs.rows).map Prod.fst = r.ids := List.map_fst_zip (by omega)
  unfold waveform
  have hsome : ∃ y, (r.ids.zip r.wfs.rows).reverse.find? (fun y => y.1 == x.1) = some y := by
    rw [← Option.isSome_iff_exists, List.find?_isSome]
    exact ⟨x, by simpa using hx, by simp⟩
  obtain ⟨y, hy⟩ := hsome
  rw [hy]
  have hy1 : y.1 = x.1 := by simpa using List.find?_some hy
  have hy2 : y ∈ r.ids.zip r.wfs.rows := by simpa using List.mem_of_find?_eq_some hy
  have : y = x := List.inj_on_of_nodup_map (f := Prod.fst) (by rw [hmap]; exact hnd) hy2 hx hy1
  rw [this]

theorem mapM_of_forall {α β : Type} {f : α → Except PyErr β} {g : α → β} {xs : List α}
    (h : ∀ x ∈ xs, f x = .ok (g x)) : xs.mapM f = .ok (xs.map g) := by
  rw [mapM_ok_iff, List.forall₂_map_right_iff, List.forall₂_same]
  exact h

theorem sensorRows_mapM {n b : Nat} {r : Responses} (h : GoodResponses n b r) {k : Nat} (e : Int) :
    ∃ rows, r.ids.mapM (sensorRows b r k e) = .ok rows ∧
      rows.flatten = sensorBlock r (storedPeakNumber k) e := by
  have hmap : (r.ids.zip r.wfs.rows).map Prod.fst = r.ids := List.map_fst_zip (by rw [h.one_each])
  refine ⟨(r.ids.zip r.wfs.rows).map fun x => x.2.map fun en => ⟨e, storedPeakNumber k, x.1, en⟩, ?_, ?_⟩
  · rw [mapM_ok_iff]
    conv => arg 2; rw [← hmap]
    rw [List.forall₂_map_left_iff, List.forall₂_map_right_iff, List.forall₂_same]
    intro x hx
    unfold sensorRows
    rw [waveform_zip h.distinct h.one_each hx]
    have : x.1 ∈ r.ids := by rw [← hmap]; exact List.mem_map_of_mem hx
    simp [Nat.mod_eq_of_lt (h.ids_fit _ this)]
  · rw [sensorBlock, List.flatMap_def]

theorem storePeak_good (si : Bool) {p : Peak} (h : GoodPeak p) (hs : si = true → GoodSipms p) (k : Nat) (e : Int) :
    storePeak si p k e = .ok ⟨sumBlock p (storedPeakNumber k) e, sensorBlock p.pmts (storedPeakNumber k) e,
      if si then sensorBlock p.sipms (storedPeakNumber k) e else []⟩ := by
  have h1 : p.times.zipIdx.mapM (sumRow p k e) = .ok (sumBlock p (storedPeakNumber k) e) := by
    refine mapM_of_forall fun x hx => ?_
    have hx2 : x.2 < p.times.length := by
      have := List.snd_lt_of_mem_zipIdx hx
      simpa using this
    unfold sumRow
    have ha : x.2 < p.widths.length := by rw [h.widths]; exact hx2
    have hb : x.2 < p.pmts.sumOverSensors.length := by
      rw [Responses.sumOverSensors, Mat.sumSensors_length, h.pmts.cols]; exact hx2
    rw [List.getElem?_eq_getElem ha, List.getElem?_eq_getElem hb]
    simp [List.getD_eq_getElem?_getD, ha, hb]
  obtain ⟨rows, hr, hrf⟩ := sensorRows_mapM h.pmts (k := k) e
  unfold storePeak
  rw [h1]
  simp only
  rw [hr]
  simp only
  cases si with
  | false => simp [hrf]
  | true =>
    rcases hs rfl with hs | hs
    · have : sensorBlock p.sipms (storedPeakNumber k) e = [] := by simp [sensorBlock, hs]
      simp only [hs, this, hrf, if_true]
      rfl
    · obtain ⟨rs, hr', hrf'⟩ := sensorRows_mapM hs (k := k) e
      simp only [if_true]
      rw [hr']
      simp [hrf, hrf']

/-! ### The rows of one event and of all -/

/-- The tables written block by block. -/
def blocks {α : Type} (fs1 : α → List SumRow) (fs2 : α → List SumRow) (fsi fs1i fs2i : α → List SensorRow)
    (xs : List α) : Tables :=
  ⟨xs.flatMap fs1, xs.flatMap fs2, xs.flatMap fsi, xs.flatMap fs1i, xs.flatMap fs2i⟩

def Tables.append (a b : Tables) : Tables :=
  ⟨a.s1 ++ b.s1, a.s2 ++ b.s2, a.si ++ b.si, a.s1i ++ b.s1i, a.s2i ++ b.s2i⟩

def eventTables (e : Int) (pm : PMap) : Tables :=
  ⟨pm.s1s.zipIdx.flatMap fun x => sumBlock x.1 (storedPeakNumber x.2) e,
   pm.s2s.zipIdx.flatMap fun x => sumBlock x.1 (storedPeakNumber x.2) e,
   pm.s2s.zipIdx.flatMap fun x => sensorBlock x.1.sipms (storedPeakNumber x.2) e,
   pm.s1s.zipIdx.flatMap fun x => sensorBlock x.1.pmts (storedPeakNumber x.2) e,
   pm.s2s.zipIdx.flatMap fun x => sensorBlock x.1.pmts (storedPeakNumber x.2) e⟩

theorem storeS1s_good (e : Int) : ∀ (xs : List (Peak × Nat)) (t : Tables), (∀ x ∈ xs, GoodPeak x.1) →
    storeS1s e xs t = .ok (t.append ⟨xs.flatMap fun x => sumBlock x.1 (storedPeakNumber x.2) e, [], [],
      xs.flatMap fun x => sensorBlock x.1.pmts (storedPeakNumber x.2) e, []⟩) := by
  intro xs
  induction xs with
  | nil => intro t _; simp [storeS1s, Tables.append]
  | cons x xs ih =>
    intro t h
    obtain ⟨p, n⟩ := x
    simp only [storeS1s]
    rw [storePeak_good false (h (p, n) (by simp)) (by simp)]
    simp only
    rw [ih _ (fun y hy => h y (by simp [hy]))]
    simp [Tables.append]

theorem storeS2s_good (e : Int) : ∀ (xs : List (Peak × Nat)) (t : Tables),
    (∀ x ∈ xs, GoodPeak x.1 ∧ GoodSipms x.1) →
    storeS2s e xs t = .ok (t.append ⟨[], xs.flatMap fun x => sumBlock x.1 (storedPeakNumber x.2) e,
      xs.flatMap fun x => sensorBlock x.1.sipms (storedPeakNumber x.2) e, [],
      xs.flatMap fun x => sensorBlock x.1.pmts (storedPeakNumber x.2) e⟩) := by
  intro xs
  induction xs with
  | nil => intro t _; simp [storeS2s, Tables.append]
  | cons x xs ih =>
    intro t h
    obtain ⟨p, n⟩ := x
    simp only [storeS2s]
    rw [storePeak_good true (h (p, n) (by simp)).1 (fun _ => (h (p, n) (by simp)).2)]
    simp only
    rw [ih _ (fun y hy => h y (by simp [hy]))]
    simp [Tables.append]

theorem fst_mem_of_zipIdx {α : Type} {xs : List α} {x : α × Nat} (h : x ∈ xs.zipIdx) : x.1 ∈ xs := by
  exact List.fst_mem_of_mem_zipIdx h

theorem storePmap_good (t : Tables) {pm : PMap} (h : GoodPMap pm) (e : Int) :
    storePmap t pm e = .ok (t.append (eventTables e pm)) := by
  unfold storePmap
  rw [storeS1s_good e _ t (fun x hx => h.s1s _ (fst_mem_of_zipIdx hx))]
  simp only
  rw [storeS2s_good e _ _ (fun x hx => h.s2s _ (fst_mem_of_zipIdx hx))]
  simp [Tables.append, eventTables]

def allTables (evs : List (Int × PMap)) : Tables :=
  ⟨evs.flatMap fun x => (eventTables x.1 x.2).s1, evs.flatMap fun x => (eventTables x.1 x.2).s2,
   evs.flatMap fun x => (eventTables x.1 x.2).si, evs.flatMap fun x => (eventTables x.1 x.2).s1i,
   evs.flatMap fun x => (eventTables x.1 x.2).s2i⟩

theorem storeAll_good : ∀ (evs : List (Int × PMap)) (t : Tables), (∀ x ∈ evs, GoodPMap x.2) →
    storeAll evs t = .ok (t.append (allTables evs)) := by
  intro evs
  induction evs with
  | nil => intro t _; simp [storeAll, Tables.append, allTables]
  | cons x xs ih =>
    intro t h
    obtain ⟨e, pm⟩ := x
    simp only [storeAll]
    rw [storePmap_good t (h (e, pm) (by simp))]
    simp only
    rw [ih _ (fun y hy => h y (by simp [hy]))]
    simp [Tables.append, allTables]

/-! ### Reading -/

theorem sumBlock_times (p : Peak) (k : Nat) (e : Int) : (sumBlock p k e).map (·.time) = p.times := by
  simp [sumBlock, Function.comp_def]

theorem zipIdx_getD {n : Nat} (xs : List ℚ) (ys : List ℚ) (h : xs.length = ys.length) :
    (ys.zipIdx n).map (fun x => xs.getD (x.2 - n) 0) = xs := by
  apply List.ext_getElem
  · simp [h]
  · intro i h1 h2
    simp [h2]

theorem sumBlock_widths {p : Peak} (h : GoodPeak p) (k : Nat) (e : Int) :
    (sumBlock p k e).map (·.bwidth) = p.widths := by
  have := zipIdx_getD (n := 0) p.widths p.times h.widths
  simpa [sumBlock, Function.comp_def] using this

theorem sumBlock_key (p : Peak) (k : Nat) (e : Int) : ∀ r ∈ sumBlock p k e, r.event = e ∧ r.peak = k := by
  intro r hr
  obtain ⟨x, _, rfl⟩ := List.mem_map.1 hr
  exact ⟨rfl, rfl⟩

theorem sensorBlock_key (p : Responses) (k : Nat) (e : Int) :
    ∀ r ∈ sensorBlock p k e, r.event = e ∧ r.peak = k := by
  intro r hr
  obtain ⟨x, _, hx⟩ := List.mem_flatMap.1 hr
  obtain ⟨y, _, rfl⟩ := List.mem_map.1 hx
  exact ⟨rfl, rfl⟩

theorem sensorBlock_ene {n b : Nat} {r : Responses} (h : GoodResponses n b r) (k : Nat) (e : Int) :
    (sensorBlock r k e).map (·.ene) = r.wfs.rows.flatten := by
  simp only [sensorBlock, List.map_flatMap, List.map_map, Function.comp_def, List.map_id']
  rw [List.flatMap_def, List.map_snd_zip (by rw [h.one_each])]

theorem sensorBlock_ids {n b : Nat} {r : Responses} (h : GoodResponses n b r) (hn : n ≠ 0) (k : Nat) (e : Int) :
    unique ((sensorBlock r k e).map (·.sensor)) = r.ids := by
  simp only [sensorBlock, List.map_flatMap, List.map_map, Function.comp_def]
  have hmap : (r.ids.zip r.wfs.rows).map Prod.fst = r.ids := List.map_fst_zip (by rw [h.one_each])
  rw [unique_blocks _ Prod.fst]
  · exact hmap
  · intro x hx
    have hw : x.2.length = n := h.lengths _ (List.of_mem_zip hx).2
    refine ⟨?_, ?_⟩
    · intro hc
      rw [List.map_eq_nil_iff] at hc
      rw [hc] at hw; simp at hw; omega
    · intro y hy
      obtain ⟨z, _, rfl⟩ := List.mem_map.1 hy; rfl
  · rw [hmap]; exact h.distinct

theorem build_good {n b : Nat} {r : Responses} (h : GoodResponses n b r) :
    reshape r.ids.length n r.wfs.rows.flatten = .ok r.wfs := by
  rw [h.one_each, reshape_flatten _ h.lengths]
  congr 1
  rw [← h.cols]

theorem buildPmt_good {p : Peak} (h : GoodPeak p) (k : Nat) (e : Int) :
    buildPmtResponses (sumBlock p k e) (sensorBlock p.pmts k e) = .ok (p.times, p.widths, p.pmts) := by
  have hn : p.times.length ≠ 0 := by simpa using h.not_empty
  unfold buildPmtResponses
  rw [sensorBlock_ids h.pmts hn, sumBlock_times, sumBlock_widths h, sensorBlock_ene h.pmts, build_good h.pmts]
  simp [Responses.mk?, h.pmts.one_each]

theorem buildSipm_good {p : Peak} (h : GoodPeak p) (hs : GoodSipms p) (k : Nat) (e : Int) :
    buildSipmResponses (sensorBlock p.sipms k e) =
      .ok (if p.sipms.ids = [] then Responses.empty else p.sipms) := by
  have hn : p.times.length ≠ 0 := by simpa using h.not_empty
  by_cases h0 : p.sipms.ids = []
  · simp [sensorBlock, h0, buildSipmResponses]
  · have hg : GoodResponses p.times.length 65536 p.sipms := by
      rcases hs with hs | hs
      · exact absurd hs h0
      · exact hs
    have hlen : (sensorBlock p.sipms k e).length = p.sipms.ids.length * p.times.length := by
      have := congrArg List.length (sensorBlock_ene hg k e)
      rw [List.length_map, length_flatten_const _ hg.lengths] at this
      rw [this, hg.one_each]
    have hpos : 0 < p.sipms.ids.length := List.length_pos_iff.2 h0
    unfold buildSipmResponses
    rw [if_neg (by rw [hlen]; exact Nat.mul_ne_zero hpos.ne' hn), sensorBlock_ids hg hn, List.length_map, hlen,
      Nat.mul_div_cancel_left _ hpos, sensorBlock_ene hg, build_good hg, if_neg h0]
    simp [Responses.mk?, hg.one_each]

theorem peak_ok {p : Peak} (h : GoodPeak p) (s : Responses) (hs : s.wfs.ncols = p.times.length ∨ s.wfs.ncols = 0) :
    Peak.mk? p.times p.widths p.pmts s = .ok { p with sipms := s } := by
  have hn : p.times.length ≠ 0 := by simpa using h.not_empty
  have := h.pmts.cols
  unfold Peak.mk? checkValidInput
  rw [if_neg hn, if_neg (by omega)]

/-! #### one event -/

theorem stored_of_lt {n : Nat} (h : n < 65536) : storedPeakNumber n = n := by
  unfold storedPeakNumber; rw [if_neg (by omega)]

theorem zipIdx_snd {α : Type} (xs : List α) : xs.zipIdx.map (·.2) = List.range xs.length := by
  rw [show (fun x : α × Nat => x.2) = Prod.snd from rfl]
  simp [List.range_eq_range']

theorem stored_nodup {α : Type} (xs : List α) (h : xs.length ≤ 65536) :
    (xs.zipIdx.map fun x => storedPeakNumber x.2) = List.range xs.length := by
  rw [← zipIdx_snd]
  refine List.map_congr_left fun x hx => ?_
  have := List.snd_lt_of_mem_zipIdx hx
  exact stored_of_lt (by omega)

theorem sum_numbers (xs : List Peak) (h : xs.length ≤ 65536) (hg : ∀ p ∈ xs, GoodPeak p) (e : Int) :
    unique ((xs.zipIdx.flatMap fun x => sumBlock x.1 (storedPeakNumber x.2) e).map (·.peak)) =
      List.range xs.length := by
  rw [List.map_flatMap, unique_blocks _ (fun x => storedPeakNumber x.2), stored_nodup xs h]
  · intro x hx
    refine ⟨?_, ?_⟩
    · intro hc
      have := (hg _ (fst_mem_of_zipIdx hx)).not_empty
      rw [List.map_eq_nil_iff, sumBlock, List.map_eq_nil_iff, List.zipIdx_eq_nil_iff] at hc
      exact this hc
    · intro k hk
      obtain ⟨r, hr, rfl⟩ := List.mem_map.1 hk
      exact (sumBlock_key _ _ _ r hr).2
  · rw [stored_nodup xs h]; exact List.nodup_range

theorem sel_peak {β : Type} (key : β → Nat) (f : Peak × Nat → List β) (xs : List Peak) (h : xs.length ≤ 65536)
    (hf : ∀ x, ∀ r ∈ f x, key r = storedPeakNumber x.2) {i : Nat} (hi : i < xs.length) :
    (xs.zipIdx.flatMap f).filter (fun r => key r == i) = f (xs[i], i) := by
  have := filter_blocks key f (fun x => storedPeakNumber x.2) xs.zipIdx (fun a _ => hf a)
    (by rw [stored_nodup xs h]; exact List.nodup_range) (xs[i], i)
    (by rw [List.mk_mem_zipIdx_iff_getElem?]; simp [hi])
  rwa [stored_of_lt (by omega : i < 65536)] at this

theorem mapM_range {f : Nat → Except PyErr Peak} {g : Peak → Peak} (xs : List Peak)
    (h : ∀ i (hi : i < xs.length), f i = .ok (g xs[i])) : (List.range xs.length).mapM f = .ok (xs.map g) := by
  rw [mapM_ok_iff, List.forall₂_iff_get]
  refine ⟨by simp, ?_⟩
  intro i h1 h2
  simp only [List.get_eq_getElem, List.getElem_range, List.getElem_map]
  exact h i (by simpa using h1)

theorem pmapOfRows_good (e : Int) {pm : PMap} (h : GoodPMap pm) :
    pmapOfRows (eventTables e pm) = .ok (expected pm) := by
  have hs1 : s1sFromDf (eventTables e pm).s1 (eventTables e pm).s1i = .ok (pm.s1s.map withoutSipms) := by
    unfold s1sFromDf
    simp only [eventTables]
    rw [sum_numbers _ h.few_s1s h.s1s]
    refine mapM_range _ fun i hi => ?_
    unfold s1FromDf
    rw [sel_peak _ _ _ h.few_s1s (fun x r hr => (sumBlock_key _ _ _ r hr).2) hi,
      sel_peak _ _ _ h.few_s1s (fun x r hr => (sensorBlock_key _ _ _ r hr).2) hi]
    have hg := h.s1s _ (List.getElem_mem hi)
    rw [buildPmt_good hg]
    simp only
    rw [peak_ok hg _ (Or.inr rfl)]
    rfl
  have hs2 : s2sFromDf (eventTables e pm).s2 (eventTables e pm).s2i (eventTables e pm).si =
      .ok (pm.s2s.map normalSipms) := by
    unfold s2sFromDf
    simp only [eventTables]
    rw [sum_numbers _ h.few_s2s (fun p hp => (h.s2s p hp).1)]
    refine mapM_range _ fun i hi => ?_
    unfold s2FromDf
    rw [sel_peak _ _ _ h.few_s2s (fun x r hr => (sumBlock_key _ _ _ r hr).2) hi,
      sel_peak _ (fun x : Peak × Nat => sensorBlock x.1.pmts (storedPeakNumber x.2) e) _ h.few_s2s
        (fun x r hr => (sensorBlock_key _ _ _ r hr).2) hi,
      sel_peak _ (fun x : Peak × Nat => sensorBlock x.1.sipms (storedPeakNumber x.2) e) _ h.few_s2s
        (fun x r hr => (sensorBlock_key _ _ _ r hr).2) hi]
    obtain ⟨hg, hs⟩ := h.s2s _ (List.getElem_mem hi)
    rw [buildPmt_good hg]
    simp only
    rw [buildSipm_good hg hs]
    simp only
    rw [peak_ok hg]
    · rfl
    · split
      · exact Or.inr rfl
      · rename_i hne
        rcases hs with hs | hs
        · exact absurd hs hne
        · exact Or.inl hs.cols
  unfold pmapOfRows
  rw [hs1]
  simp only
  rw [hs2]
  rfl

/-! #### all events -/

theorem eventTables_keys (e : Int) (pm : PMap) :
    (∀ r ∈ (eventTables e pm).s1, r.event = e) ∧ (∀ r ∈ (eventTables e pm).s2, r.event = e) ∧
    (∀ r ∈ (eventTables e pm).si, r.event = e) ∧ (∀ r ∈ (eventTables e pm).s1i, r.event = e) ∧
    (∀ r ∈ (eventTables e pm).s2i, r.event = e) := by
  refine ⟨?_, ?_, ?_, ?_, ?_⟩ <;> intro r hr <;> obtain ⟨x, _, hx⟩ := List.mem_flatMap.1 hr
  · exact (sumBlock_key _ _ _ r hx).1
  · exact (sumBlock_key _ _ _ r hx).1
  · exact (sensorBlock_key _ _ _ r hx).1
  · exact (sensorBlock_key _ _ _ r hx).1
  · exact (sensorBlock_key _ _ _ r hx).1

theorem ofEvent_allTables {evs : List (Int × PMap)} (hnd : (evs.map Prod.fst).Nodup) {x : Int × PMap} (hx : x ∈ evs) :
    (allTables evs).ofEvent x.1 = eventTables x.1 x.2 := by
  simp only [Tables.ofEvent, allTables]
  rw [filter_blocks _ _ Prod.fst evs (fun a _ => (eventTables_keys a.1 a.2).1) hnd x hx,
    filter_blocks _ (fun x : Int × PMap => (eventTables x.1 x.2).s2) Prod.fst evs (fun a _ => (eventTables_keys a.1 a.2).2.1) hnd x hx,
    filter_blocks _ _ Prod.fst evs (fun a _ => (eventTables_keys a.1 a.2).2.2.1) hnd x hx,
    filter_blocks _ (fun x : Int × PMap => (eventTables x.1 x.2).s1i) Prod.fst evs (fun a _ => (eventTables_keys a.1 a.2).2.2.2.1) hnd x hx,
    filter_blocks _ (fun x : Int × PMap => (eventTables x.1 x.2).s2i) Prod.fst evs (fun a _ => (eventTables_keys a.1 a.2).2.2.2.2) hnd x hx]

theorem eventTables_events (e : Int) {pm : PMap} (h : GoodPMap pm) :
    (∀ e' ∈ (eventTables e pm).events, e' = e) ∧ ((eventTables e pm).events ≠ [] ↔ pm.HasPeaks) := by
  refine ⟨?_, ?_⟩
  · intro e' he
    rcases List.mem_append.1 he with he | he <;> obtain ⟨r, hr, rfl⟩ := List.mem_map.1 he
    · exact (eventTables_keys e pm).1 r hr
    · exact (eventTables_keys e pm).2.1 r hr
  · have key : ∀ (ps : List Peak), (∀ p ∈ ps, GoodPeak p) →
        ((ps.zipIdx.flatMap fun x => sumBlock x.1 (storedPeakNumber x.2) e) = [] ↔ ps = []) := by
      intro ps hps
      rw [List.flatMap_eq_nil_iff]
      constructor
      · intro hall
        cases ps with
        | nil => rfl
        | cons p ps =>
          exfalso
          have h0 := hall (p, 0) (by simp)
          have := (hps p (by simp)).not_empty
          rw [sumBlock, List.map_eq_nil_iff, List.zipIdx_eq_nil_iff] at h0
          exact this h0
      · rintro rfl; simp
    have k1 := key pm.s1s h.s1s
    have k2 := key pm.s2s (fun p hp => (h.s2s p hp).1)
    unfold PMap.HasPeaks Tables.events
    simp only [eventTables, ne_eq, List.append_eq_nil_iff, List.map_eq_nil_iff, k1, k2]
    tauto

theorem mem_events_allTables {evs : List (Int × PMap)} (hg : ∀ x ∈ evs, GoodPMap x.2) (e : Int) :
    e ∈ (allTables evs).events ↔ ∃ pm, (e, pm) ∈ evs ∧ pm.HasPeaks := by
  have : e ∈ (allTables evs).events ↔ ∃ x ∈ evs, e ∈ (eventTables x.1 x.2).events := by
    simp only [Tables.events, allTables, List.map_flatMap, List.mem_append, List.mem_flatMap]
    constructor
    · rintro (⟨x, hx, h⟩ | ⟨x, hx, h⟩)
      · exact ⟨x, hx, Or.inl h⟩
      · exact ⟨x, hx, Or.inr h⟩
    · rintro ⟨x, hx, h | h⟩
      · exact Or.inl ⟨x, hx, h⟩
      · exact Or.inr ⟨x, hx, h⟩
  rw [this]
  constructor
  · rintro ⟨⟨e', pm⟩, hx, he⟩
    obtain ⟨h1, h2⟩ := eventTables_events e' (hg _ hx)
    obtain rfl := h1 e he
    exact ⟨pm, hx, h2.1 (List.ne_nil_of_mem he)⟩
  · rintro ⟨pm, hx, hp⟩
    obtain ⟨h1, h2⟩ := eventTables_events e (hg _ hx)
    obtain ⟨e', he'⟩ := List.exists_mem_of_ne_nil _ (h2.2 hp)
    have := h1 e' he'
    subst this
    exact ⟨_, hx, he'⟩

/-! ### The claims -/

/-- **C38** Writing good PMaps never fails. -/
theorem write_succeeds (evs : List (Int × PMap)) (hg : ∀ x ∈ evs, GoodPMap x.2) :
    ∃ t, storeAll evs Tables.empty = .ok t := ⟨_, storeAll_good evs _ hg⟩

/-- **C38** The reader refuses the file exactly when the event numbers of the run table and those of the
events with some peak are not the same. -/
theorem read_refused_iff (evs : List (Int × PMap)) (hg : ∀ x ∈ evs, GoodPMap x.2) (run : List Int) (t : Tables)
    (ht : storeAll evs Tables.empty = .ok t) :
    checkIntegrity run t = .error (.other "InvalidInputFileStructure") ↔
      ¬ ∀ e, e ∈ run ↔ ∃ pm, (e, pm) ∈ evs ∧ pm.HasPeaks := by
  rw [storeAll_good evs _ hg] at ht
  obtain rfl : Tables.append Tables.empty (allTables evs) = t := by injection ht
  have h0 : Tables.append Tables.empty (allTables evs) = allTables evs := by simp [Tables.append, Tables.empty]
  rw [h0]
  unfold checkIntegrity
  have hm := mem_events_allTables hg
  have : ((∀ e ∈ run, e ∈ (allTables evs).events) ∧ (∀ e ∈ (allTables evs).events, e ∈ run)) ↔
      ∀ e, e ∈ run ↔ ∃ pm, (e, pm) ∈ evs ∧ pm.HasPeaks := by
    constructor
    · rintro ⟨h1, h2⟩ e
      rw [← hm]; exact ⟨h1 e, h2 e⟩
    · intro h
      exact ⟨fun e he => (hm e).2 ((h e).1 he), fun e he => (h e).2 ((hm e).1 he)⟩
  rw [← this]
  split <;> simp_all

theorem forall₂_left {α β : Type} {R : α → β → Prop} {xs : List α} {ys : List β} (h : List.Forall₂ R xs ys)
    {i : Nat} {y : β} (hy : ys[i]? = some y) : ∃ x, xs[i]? = some x ∧ R x y := by
  have hlt : i < xs.length := by rw [h.length_eq]; exact (List.getElem?_eq_some_iff.1 hy).1
  exact ⟨xs[i], List.getElem?_eq_getElem hlt, forall₂_getElem? h i _ _ (List.getElem?_eq_getElem hlt) hy⟩

theorem check_ok_of {run : List Int} {t : Tables}
    (h : checkIntegrity run t ≠ .error (.other "InvalidInputFileStructure")) : checkIntegrity run t = .ok () := by
  unfold checkIntegrity at h ⊢
  split
  · rfl
  · rename_i hc; rw [if_neg hc] at h; exact absurd rfl h

/-- **C38** Round trip, eager reader: the dictionary has exactly one entry per event with peaks, with the
same peaks in the same order (up to the SiPMs of S1s, which are not stored). -/
theorem roundtrip_eager (evs : List (Int × PMap)) (hg : ∀ x ∈ evs, GoodPMap x.2) (hnd : (evs.map Prod.fst).Nodup)
    (run : List Int) (hrun : ∀ e, e ∈ run ↔ ∃ pm, (e, pm) ∈ evs ∧ pm.HasPeaks) (t : Tables)
    (ht : storeAll evs Tables.empty = .ok t) :
    ∃ out, loadEager run t = .ok out ∧ (out.map Prod.fst).Nodup ∧
      ∀ e pm', (e, pm') ∈ out ↔ ∃ pm, (e, pm) ∈ evs ∧ pm.HasPeaks ∧ pm' = expected pm := by
  have hck : checkIntegrity run t = .ok () := by
    exact check_ok_of fun hc => (read_refused_iff evs hg run t ht).1 hc hrun
  rw [storeAll_good evs _ hg] at ht
  obtain rfl : Tables.append Tables.empty (allTables evs) = t := by injection ht
  have h0 : Tables.append Tables.empty (allTables evs) = allTables evs := by simp [Tables.append, Tables.empty]
  rw [h0] at hck ⊢
  have hentry : ∀ e ∈ unique (allTables evs).events, ∃ pm, (e, pm) ∈ evs ∧ pm.HasPeaks ∧
      eagerEntry (allTables evs) e = .ok (e, expected pm) := by
    intro e he
    rw [mem_unique, mem_events_allTables hg] at he
    obtain ⟨pm, hx, hp⟩ := he
    refine ⟨pm, hx, hp, ?_⟩
    unfold eagerEntry
    rw [ofEvent_allTables hnd hx, pmapOfRows_good _ (hg _ hx)]
  obtain ⟨out, hout⟩ := mapM_ok (f := eagerEntry (allTables evs)) (xs := unique (allTables evs).events)
    (fun e he => by obtain ⟨pm, _, _, h⟩ := hentry e he; exact ⟨_, h⟩)
  refine ⟨out, ?_, ?_, ?_⟩
  · unfold loadEager; rw [hck]; exact hout
  · have hf := mapM_ok_iff.1 hout
    have : out.map Prod.fst = unique (allTables evs).events := by
      have : List.Forall₂ (fun e x => e = Prod.fst x) (unique (allTables evs).events) out := by
        refine List.Forall₂.imp ?_ hf
        intro e x hx
        unfold eagerEntry at hx
        split at hx
        · cases hx
        · injection hx with hx; rw [← hx]
      rw [← List.forall₂_eq_eq_eq, List.forall₂_map_left_iff]
      exact this.flip.imp fun _ _ h => h.symm
    rw [this]; exact unique_nodup _
  · intro e pm'
    have hf := mapM_ok_iff.1 hout
    have hinj : ∀ {pm pm2 : PMap}, (e, pm) ∈ evs → (e, pm2) ∈ evs → pm = pm2 := by
      intro pm pm2 h1 h2
      have := List.inj_on_of_nodup_map (f := Prod.fst) hnd h1 h2 rfl
      injection this
    constructor
    · intro h
      obtain ⟨i, hi⟩ := List.mem_iff_getElem?.1 h
      obtain ⟨e0, he0, hee⟩ := forall₂_left hf hi
      obtain ⟨pm, h1, h2, h3⟩ := hentry e0 (List.mem_of_getElem? he0)
      rw [h3] at hee
      injection hee with hee
      injection hee with ha hb
      subst ha
      exact ⟨pm, h1, h2, hb.symm⟩
    · rintro ⟨pm, hx, hp, rfl⟩
      have hmem : e ∈ unique (allTables evs).events := by
        rw [mem_unique, mem_events_allTables hg]; exact ⟨pm, hx, hp⟩
      obtain ⟨pm2, h1, _, h3⟩ := hentry e hmem
      obtain rfl := hinj hx h1
      obtain ⟨i, hi⟩ := List.mem_iff_getElem?.1 hmem
      have hlen := hf.length_eq
      have hlt : i < out.length := by
        rw [← hlen]; exact (List.getElem?_eq_some_iff.1 hi).1
      obtain ⟨e0, he0, hee⟩ := forall₂_left hf (List.getElem?_eq_getElem hlt)
      rw [hi] at he0
      injection he0 with he0
      subst he0
      rw [h3] at hee
      injection hee with hee
      rw [hee]
      exact List.getElem_mem _

/-- **C38** Round trip, lazy reader: when every event of the run table has peaks, the reader gives, in order,
the requested range of events, each with the same peaks in the same order. -/
theorem roundtrip_lazy (evs : List (Int × PMap)) (hg : ∀ x ∈ evs, GoodPMap x.2) (hnd : (evs.map Prod.fst).Nodup)
    (hp : ∀ x ∈ evs, x.2.HasPeaks) (t : Tables) (ht : storeAll evs Tables.empty = .ok t)
    (skip : Nat) (n : Option Nat) :
    loadLazy (evs.map Prod.fst) t skip n =
      .ok ((pySlice skip (skip + n.getD evs.length) evs).map fun x => (x.1, expected x.2)) := by
  have hck : checkIntegrity (evs.map Prod.fst) t = .ok () := by
    have hall : ∀ e, e ∈ evs.map Prod.fst ↔ ∃ pm, (e, pm) ∈ evs ∧ pm.HasPeaks := by
      intro e
      constructor
      · intro he
        obtain ⟨x, hx, rfl⟩ := List.mem_map.1 he
        exact ⟨x.2, hx, hp x hx⟩
      · rintro ⟨pm, hx, _⟩
        exact List.mem_map_of_mem (f := Prod.fst) hx
    exact check_ok_of fun hc => (read_refused_iff evs hg _ t ht).1 hc hall
  rw [storeAll_good evs _ hg] at ht
  obtain rfl : Tables.append Tables.empty (allTables evs) = t := by injection ht
  have h0 : Tables.append Tables.empty (allTables evs) = allTables evs := by simp [Tables.append, Tables.empty]
  rw [h0] at hck ⊢
  unfold loadLazy
  rw [hck]
  simp only
  have hslice : pySlice skip (skip + n.getD (evs.map Prod.fst).length) (evs.map Prod.fst) =
      (pySlice skip (skip + n.getD evs.length) evs).map Prod.fst := by
    simp [pySlice, List.map_take, List.map_drop]
  rw [hslice, mapM_ok_iff, List.forall₂_map_left_iff, List.forall₂_map_right_iff, List.forall₂_same]
  intro x hx
  have hx' : x ∈ evs := List.mem_of_mem_drop (List.mem_of_mem_take hx)
  unfold lazyItem
  rw [ofEvent_allTables hnd hx', pmapOfRows_good _ (hg _ hx')]
  obtain ⟨h1, h2⟩ := eventTables_events x.1 (hg _ hx')
  have hne := h2.2 (hp x hx')
  obtain ⟨e', he'⟩ : ∃ e', (eventTables x.1 x.2).events.head? = some e' := by
    cases hh : (eventTables x.1 x.2).events with
    | nil => exact absurd hh hne
    | cons a as => exact ⟨a, rfl⟩
  rw [he', h1 e' (List.mem_of_mem_head? he')]

/-- **C38** Reading all lazily or eagerly gives the same PMap for each event. -/
theorem lazy_eq_eager (evs : List (Int × PMap)) (hg : ∀ x ∈ evs, GoodPMap x.2) (hnd : (evs.map Prod.fst).Nodup)
    (hp : ∀ x ∈ evs, x.2.HasPeaks) (t : Tables) (ht : storeAll evs Tables.empty = .ok t) :
    ∃ eager lzy, loadEager (evs.map Prod.fst) t = .ok eager ∧ loadLazy (evs.map Prod.fst) t 0 none = .ok lzy ∧
      ∀ x, x ∈ eager ↔ x ∈ lzy := by
  have hall : ∀ e, e ∈ evs.map Prod.fst ↔ ∃ pm, (e, pm) ∈ evs ∧ pm.HasPeaks := by
    intro e
    constructor
    · intro he
      obtain ⟨x, hx, rfl⟩ := List.mem_map.1 he
      exact ⟨x.2, hx, hp x hx⟩
    · rintro ⟨pm, hx, _⟩
      exact List.mem_map_of_mem (f := Prod.fst) hx
  obtain ⟨out, h1, _, h3⟩ := roundtrip_eager evs hg hnd _ hall t ht
  refine ⟨out, _, h1, roundtrip_lazy evs hg hnd hp t ht 0 none, ?_⟩
  rintro ⟨e, pm'⟩
  rw [h3, Option.getD_none, Nat.zero_add, pySlice_all _ le_rfl, List.mem_map]
  constructor
  · rintro ⟨pm, hx, _, rfl⟩; exact ⟨(e, pm), hx, rfl⟩
  · rintro ⟨x, hx, hxe⟩
    injection hxe with ha hb
    subst ha hb
    exact ⟨x.2, hx, hp x hx, rfl⟩

/-- **C38** When the S1s have no SiPMs, as those built by the peak finder, and the S2s have some SiPM, what is
expected back is identical to what was written. -/
theorem expected_id (pm : PMap) (h1 : ∀ p ∈ pm.s1s, p.sipms = Responses.empty) (h2 : ∀ p ∈ pm.s2s, p.sipms.ids ≠ []) :
    expected pm = pm := by
  have e1 : pm.s1s.map withoutSipms = pm.s1s := by
    conv => rhs; rw [← List.map_id pm.s1s]
    refine List.map_congr_left fun p hp => ?_
    simp [withoutSipms, ← h1 p hp]
  have e2 : pm.s2s.map normalSipms = pm.s2s := by
    conv => rhs; rw [← List.map_id pm.s2s]
    refine List.map_congr_left fun p hp => ?_
    simp [normalSipms, h2 p hp]
  unfold expected
  rw [e1, e2]

/-- Two events, one with an S1 and two S2s, the other with one S2 without SiPMs. -/
def exS1 : Peak := ⟨[1, 2], [25, 25], ⟨[0, 3], ⟨[[1, 2], [3, 4]], 2⟩⟩, Responses.empty⟩
def exS2a : Peak := ⟨[5], [1000], ⟨[0, 3], ⟨[[7], [8]], 1⟩⟩, ⟨[1002, 1001], ⟨[[9], [6]], 1⟩⟩⟩
def exS2b : Peak := ⟨[8, 9, 10], [1000, 1000, 500], ⟨[0, 3], ⟨[[1, 2, 3], [4, 5, 6]], 3⟩⟩, ⟨[], ⟨[], 3⟩⟩⟩
def exEvs : List (Int × PMap) := [(17, ⟨[exS1], [exS2a, exS2b]⟩), (4, ⟨[], [exS2b]⟩)]

theorem exEvs_good : (∀ x ∈ exEvs, GoodPMap x.2) ∧ (exEvs.map Prod.fst).Nodup ∧ ∀ x ∈ exEvs, x.2.HasPeaks := by
  have hr : ∀ (n b : Nat) (r : Responses), (r.ids.Nodup ∧ r.ids.length = r.wfs.rows.length ∧
      (∀ wf ∈ r.wfs.rows, wf.length = n) ∧ r.wfs.ncols = n ∧ ∀ id ∈ r.ids, id < b) → GoodResponses n b r :=
    fun n b r h => ⟨h.1, h.2.1, h.2.2.1, h.2.2.2.1, h.2.2.2.2⟩
  have h1 : GoodPeak exS1 := ⟨by decide, rfl, hr _ _ _ (by decide)⟩
  have h2 : GoodPeak exS2a := ⟨by decide, rfl, hr _ _ _ (by decide)⟩
  have h2' : GoodSipms exS2a := Or.inr (hr _ _ _ (by decide))
  have h3 : GoodPeak exS2b := ⟨by decide, rfl, hr _ _ _ (by decide)⟩
  have h3' : GoodSipms exS2b := Or.inl rfl
  refine ⟨?_, by decide, ?_⟩
  · intro x hx
    rcases List.mem_cons.1 hx with rfl | hx
    · refine ⟨?_, ?_, by decide, by decide⟩
      · intro p hp; simp at hp; subst hp; exact h1
      · intro p hp; simp at hp
        rcases hp with rfl | rfl
        · exact ⟨h2, h2'⟩
        · exact ⟨h3, h3'⟩
    · simp at hx; subst hx
      refine ⟨by simp, ?_, by decide, by decide⟩
      intro p hp; simp at hp; subst hp; exact ⟨h3, h3'⟩
  · intro x hx
    rcases List.mem_cons.1 hx with rfl | hx
    · exact Or.inl (by decide)
    · simp at hx; subst hx; exact Or.inr (by decide)

/-- The hypotheses of the round trip theorems hold for these events, and the readers give them back. -/
example : ∃ t, storeAll exEvs Tables.empty = .ok t ∧ t.s2.length = 7 ∧ t.si.length = 2 ∧
    loadLazy [17, 4] t 0 none = .ok [(17, ⟨[exS1], [exS2a, normalSipms exS2b]⟩), (4, ⟨[], [normalSipms exS2b]⟩)] ∧
    loadLazy [17, 4] t 1 (some 5) = .ok [(4, ⟨[], [normalSipms exS2b]⟩)] :=
  ⟨allTables exEvs, by rw [storeAll_good _ _ exEvs_good.1]; rfl, by decide +kernel, by decide +kernel, by decide +kernel,
    by decide +kernel⟩

/-- **C38** (limit of the format) An event without peaks in the run table makes the whole file unreadable. -/
theorem event_without_peaks_blocks_reading (evs : List (Int × PMap)) (hg : ∀ x ∈ evs, GoodPMap x.2)
    (hnd : (evs.map Prod.fst).Nodup) (run : List Int) (e : Int) (pm : PMap) (he : (e, pm) ∈ evs)
    (hne : ¬ pm.HasPeaks) (her : e ∈ run) (t : Tables) (ht : storeAll evs Tables.empty = .ok t) :
    loadEager run t = .error (.other "InvalidInputFileStructure") ∧
    ∀ skip n, loadLazy run t skip n = .error (.other "InvalidInputFileStructure") := by
  have h : checkIntegrity run t = .error (.other "InvalidInputFileStructure") := by
    rw [read_refused_iff evs hg run t ht]
    intro hc
    obtain ⟨pm2, h1, h2⟩ := (hc e).1 her
    have := List.inj_on_of_nodup_map (f := Prod.fst) hnd he h1 rfl
    injection this with _ h3
    exact hne (h3 ▸ h2)
  unfold loadEager loadLazy
  rw [h]
  exact ⟨rfl, fun _ _ => rfl⟩

example : ¬ (⟨[], []⟩ : PMap).HasPeaks ∧ GoodPMap ⟨[], []⟩ :=
  ⟨by simp [PMap.HasPeaks], ⟨by simp, by simp, by simp, by simp⟩⟩

/-- **C38** (limit) Two responses of the same sensor: the waveform of the first one is lost and the peak cannot
be read back. -/
theorem repeated_ids_break_roundtrip :
    ∃ t, storeAll [(0, ⟨[⟨[1], [25], ⟨[5, 5], ⟨[[2], [3]], 1⟩⟩, Responses.empty⟩], []⟩)] Tables.empty = .ok t ∧
      t.s1i = [⟨0, 0, 5, 3⟩, ⟨0, 0, 5, 3⟩] ∧ loadEager [0] t = .error .valueError :=
  ⟨⟨[⟨0, 0, 1, 25, 5⟩], [], [], [⟨0, 0, 5, 3⟩, ⟨0, 0, 5, 3⟩], []⟩, by decide +kernel, rfl, by decide +kernel⟩

/-! ### C48 -/

/-- **C48** The stored peak number always fits in the column, it is the number itself up to the limit and the
limit beyond it. -/
theorem storedPeakNumber_spec (n : Nat) :
    storedPeakNumber n < 2 ^ 16 ∧ (n < 2 ^ 16 → storedPeakNumber n = n) ∧
    (2 ^ 16 ≤ n → storedPeakNumber n = 2 ^ 16 - 1) := by
  unfold storedPeakNumber
  split <;> omega

/-- **C48** Different peaks below the limit keep different numbers. -/
theorem storedPeakNumber_inj {m n : Nat} (hm : m < 2 ^ 16) (hn : n < 2 ^ 16)
    (h : storedPeakNumber m = storedPeakNumber n) : m = n := by
  rw [(storedPeakNumber_spec m).2.1 hm, (storedPeakNumber_spec n).2.1 hn] at h
  exact h

/-- **C48** All the rows written for a peak carry its stored number and its event number. -/
theorem rows_carry_number (si : Bool) (p : Peak) (k : Nat) (e : Int) (r : PeakRows)
    (h : storePeak si p k e = .ok r) :
    (∀ x ∈ r.sum, x.event = e ∧ x.peak = storedPeakNumber k) ∧
    (∀ x ∈ r.pmt, x.event = e ∧ x.peak = storedPeakNumber k) ∧
    (∀ x ∈ r.sipm, x.event = e ∧ x.peak = storedPeakNumber k) := by
  have hsum : ∀ rows, p.times.zipIdx.mapM (sumRow p k e) = .ok rows →
      ∀ x ∈ rows, x.event = e ∧ x.peak = storedPeakNumber k := by
    intro rows hr x hx
    obtain ⟨i, hi⟩ := List.mem_iff_getElem?.1 hx
    obtain ⟨y, _, hy⟩ := forall₂_left (mapM_ok_iff.1 hr) hi
    unfold sumRow at hy
    split at hy
    · injection hy with hy; rw [← hy]; exact ⟨rfl, rfl⟩
    · cases hy
  have hsens : ∀ (b : Nat) (q : Responses) rows, q.ids.mapM (sensorRows b q k e) = .ok rows →
      ∀ x ∈ rows.flatten, x.event = e ∧ x.peak = storedPeakNumber k := by
    intro b q rows hr x hx
    obtain ⟨row, hrow, hx⟩ := List.mem_flatten.1 hx
    obtain ⟨i, hi⟩ := List.mem_iff_getElem?.1 hrow
    obtain ⟨y, _, hy⟩ := forall₂_left (mapM_ok_iff.1 hr) hi
    unfold sensorRows at hy
    split at hy
    · cases hy
    · injection hy with hy; rw [← hy] at hx
      obtain ⟨z, _, rfl⟩ := List.mem_map.1 hx; exact ⟨rfl, rfl⟩
  unfold storePeak at h
  split at h
  · cases h
  · rename_i rows hrows
    split at h
    · cases h
    · rename_i pm hpm
      cases si with
      | false =>
        simp only [Bool.false_eq_true, if_false] at h
        injection h with h
        subst h
        exact ⟨hsum _ hrows, hsens _ _ _ hpm, by simp⟩
      | true =>
        simp only [if_true] at h
        split at h
        · cases h
        · rename_i sis hsis
          injection h with h
          subst h
          exact ⟨hsum _ hrows, hsens _ _ _ hpm, hsens _ _ _ hsis⟩

example : storePeak true exS2a 70000 3 = .ok ⟨[⟨3, 65535, 5, 1000, 15⟩],
    [⟨3, 65535, 0, 7⟩, ⟨3, 65535, 3, 8⟩], [⟨3, 65535, 1002, 9⟩, ⟨3, 65535, 1001, 6⟩]⟩ := by decide +kernel

/-- **C48** (limit) Beyond the limit all the peaks get the same number and cannot be told apart. -/
theorem peaks_beyond_limit_merge {m n : Nat} (hm : 2 ^ 16 - 1 ≤ m) (hn : 2 ^ 16 - 1 ≤ n) :
    storedPeakNumber m = storedPeakNumber n := by
  unfold storedPeakNumber
  split <;> split <;> omega

end Verif.PMapsIO
