import Verif.Props.CalibCities
import Mathlib.Tactic.FinCases
/-!
# C113: berenice, and the failures of the calibration cities
-/
namespace Verif.CalibCity
open Verif Verif.Calib Verif.CalibCity.Spec

/-- The calibrated waveforms of an event. -/
def CalibratedAll (base : List Int → ℚ → Prop) (gains : List ℚ) (wfs : List (List Int)) (out : List (List ℚ)) : Prop :=
  List.Forall₂ (fun (x : ℚ × List Int) o => Calibrated base x.1 x.2 o) (gains.zip wfs) out

theorem calibrated_all {m : BlsMode} {base : List Int → ℚ → Prop} (hb : ∀ wf, base wf (baseline m wf)) {gains : List ℚ} {wfs : List (List Int)} (hl : gains.length = wfs.length) :
    ∃ out, subtractAndCalibrate m gains wfs = .ok out ∧ out.length = wfs.length ∧ CalibratedAll base gains wfs out := by
  obtain ⟨out, h1, h2, h3⟩ := (calibration_spec gains (wfs.map (subtractBaseline m))).1 (by simpa using hl)
  rw [List.length_map] at h2
  refine ⟨out, h1, h2, ?_⟩
  unfold CalibratedAll
  rw [List.forall₂_iff_get]
  refine ⟨by rw [List.length_zip]; omega, fun i hi hi' => ?_⟩
  rw [List.length_zip] at hi
  simp only [List.get_eq_getElem, List.getElem_zip]
  have hs := h3 i (gains[i]'(by omega)) (subtractBaseline m (wfs[i]'(by omega))) (List.getElem?_eq_getElem _) (by rw [List.getElem?_map, List.getElem?_eq_getElem (by omega)]; rfl)
  rw [List.getElem?_eq_getElem hi', Option.some.injEq] at hs
  refine ⟨_, hb _, ?_⟩
  rw [hs]
  by_cases hg : 0 < gains[i]'(by omega)
  · rw [if_pos hg]
    unfold subtractBaseline
    rw [List.map_map]
    apply List.map_congr_left
    intro x _
    by_cases hx : x = 0
    · simp [hx]
    · simp [hx, hg]
  · rw [if_neg hg]
    symm
    rw [List.eq_replicate_iff]
    refine ⟨by simp [subtractBaseline], fun b hb => ?_⟩
    obtain ⟨x, _, rfl⟩ := List.mem_map.1 hb
    rw [if_neg fun h => hg h.1]

/-- The values of an accumulator on the processed waveforms. -/
theorem forall₂_ok_choice {α β : Type} {r : α → β → Prop} {l : List α} (h : ∀ a ∈ l, ∃ b, r a b) : ∃ m, List.Forall₂ r l m := by
  induction l with
  | nil => exact ⟨[], .nil⟩
  | cons a l ih =>
    obtain ⟨b, hb⟩ := h a (List.mem_cons_self ..)
    obtain ⟨m, hm⟩ := ih fun x hx => h x (List.mem_cons_of_mem _ hx)
    exact ⟨b :: m, .cons hb hm⟩

theorem same_events {es : List Event} {ws : List (List (List Int))} (h : List.Forall₂ (fun e w => (Except.ok e.sipm : Except PyErr _) = .ok w) es ws) : ws = es.map (·.sipm) := by
  induction h with
  | nil => rfl
  | cons h _ ih => rw [ih, ← Except.ok.inj h]; rfl

/-- C113: what berenice writes: in `adc` the samples of each SiPM without its mode, in `mode` and `median` the calibrated ones. -/
theorem berenice_spec {j : Job} {es : List Event} {o : Out} (hw : 0 < j.binWidth) (hgn : j.gains.length = j.nSipm) (hs : ∀ e ∈ es, e.sipm.length = j.nSipm) (h : berenice j es = (some o, .ok ())) :
    ∃ nb, 0 < nb ∧ Bins j.minBin j.maxBin j.binWidth nb ∧ o.rows = es.map (fun e => (e.run, e.number, e.time)) ∧
      ∃ adcs modes medians, List.Forall₂ (fun e p => List.Forall₂ (Without IsMode) e.sipm p) es adcs ∧
        List.Forall₂ (fun e p => List.Forall₂ (fun (x : ℚ × List Int) o => Calibrated IsMode x.1 x.2 o) (j.gains.zip e.sipm) p) es modes ∧
        List.Forall₂ (fun e p => List.Forall₂ (fun (x : ℚ × List Int) o => Calibrated IsMedian x.1 x.2 o) (j.gains.zip e.sipm) p) es medians ∧
        ∃ a m d, o.hists = [("adc", centresOf j.minBin j.binWidth nb, a), ("mode", centresOf j.minBin j.binWidth nb, m), ("median", centresOf j.minBin j.binWidth nb, d)] ∧
          Counts j.minBin j.binWidth j.nSipm nb adcs (fun p s => p.getD s []) a ∧ Counts j.minBin j.binWidth j.nSipm nb modes (fun p s => p.getD s []) m ∧
          Counts j.minBin j.binWidth j.nSipm nb medians (fun p s => p.getD s []) d := by
  unfold berenice at h
  cases hb : binEdges j.minBin j.maxBin j.binWidth with
  | error e => rw [hb] at h; cases h
  | ok edges =>
    rw [hb] at h
    dsimp only at h
    cases hpr : produce (fun e : Event => .ok e.sipm) [("adc", fun w => histogram edges (w.map (subtractBaseline .mode))), ("mode", calibrated .mode j.gains edges), ("median", calibrated .median j.gains edges)] j.nSipm edges es with
    | mk o' r =>
      rw [hpr] at h
      obtain ⟨h1, h2⟩ := Prod.mk.inj h
      obtain rfl := Option.some.inj h1
      dsimp only at h2
      subst h2
      obtain ⟨hns, nb, hnb, hbins, rfl, hrows, ws, hws, hlen, hh⟩ := produce_ok hw hb (by simp) hpr
      obtain rfl := same_events hws
      obtain ⟨a, a1, a2, a3, a4⟩ := hh 0 _ _ rfl
      obtain ⟨m, m1, m2, m3, m4⟩ := hh 1 _ _ rfl
      obtain ⟨d, d1, d2, d3, d4⟩ := hh 2 _ _ rfl
      have hwl : ∀ w ∈ es.map (·.sipm), w.length = j.nSipm := by
        intro w hw
        obtain ⟨e, he, rfl⟩ := List.mem_map.1 hw
        exact hs e he
      -- the accumulator of calibrated waveforms
      have hcal : ∀ (b : BlsMode) (base : List Int → ℚ → Prop), (∀ wf, base wf (baseline b wf)) → ∀ (hs' : List Hist) (hist : Hist),
          List.Forall₂ (fun w h => calibrated b j.gains (grid j.minBin j.binWidth nb) w = .ok h) (es.map (·.sipm)) hs' → fold (zeros j.nSipm nb) hs' = .ok hist →
          ∃ ps, List.Forall₂ (fun e p => CalibratedAll base j.gains e.sipm p) es ps ∧ Counts j.minBin j.binWidth j.nSipm nb ps (fun p s => p.getD s []) hist := by
        intro b base hbase hs' hist f1 f2
        have hval : ∀ w ∈ es.map (·.sipm), ∃ out, subtractAndCalibrate b j.gains w = .ok out ∧ out.length = j.nSipm ∧ CalibratedAll base j.gains w out := by
          intro w hww
          obtain ⟨out, o1, o2, o3⟩ := calibrated_all hbase (gains := j.gains) (wfs := w) (by rw [hwl w hww, hgn])
          exact ⟨out, o1, by rw [o2, hwl w hww], o3⟩
        have hc := fold_counts (ns := j.nSipm) (a := j.minBin) hw (fun w => ((subtractAndCalibrate b j.gains w).toOption).getD []) (by
          intro w hww
          obtain ⟨out, o1, o2, _⟩ := hval w hww
          rw [o1]
          exact o2) (by
          intro w hww h hh
          obtain ⟨out, o1, _, _⟩ := hval w hww
          unfold calibrated at hh
          rw [o1] at hh ⊢
          exact (histogram_ok hh).1) f1 f2
        refine ⟨(es.map (·.sipm)).map fun w => ((subtractAndCalibrate b j.gains w).toOption).getD [], ?_, (counts_map _ _ _ _).2 hc⟩
        rw [List.map_map, List.forall₂_map_right_iff, List.forall₂_same]
        intro e he
        obtain ⟨out, o1, _, o3⟩ := hval e.sipm (List.mem_map_of_mem he)
        show CalibratedAll base j.gains e.sipm (((subtractAndCalibrate b j.gains e.sipm).toOption).getD [])
        rw [o1]
        exact o3
      obtain ⟨modes, p1, p2⟩ := hcal .mode IsMode mode_baseline m2 m m3 m4
      obtain ⟨medians, q1, q2⟩ := hcal .median IsMedian median_baseline d2 d d3 d4
      have hc := fold_counts (ns := j.nSipm) (a := j.minBin) hw (fun w : List (List Int) => w.map (subtractBaseline .mode)) (by
        intro w hww
        rw [List.length_map]
        exact hwl w hww) (by
        intro w hww h hh
        exact (histogram_ok hh).1) a3 a4
      refine ⟨nb, hnb, hbins, hrows, (es.map (·.sipm)).map fun w => w.map (subtractBaseline .mode), modes, medians, ?_, p1, q1, a, m, d, ?_, (counts_map _ _ _ _).2 hc, p2, q2⟩
      · rw [List.map_map, List.forall₂_map_right_iff, List.forall₂_same]
        intro e _
        exact forall₂_map_self _ without_mode _
      · match hl : o'.hists with
        | [x, y, z] =>
          rw [hl] at a1 m1 d1
          simp only [List.getElem?_cons_zero, List.getElem?_cons_succ, Option.some.injEq] at a1 m1 d1
          rw [a1, m1, d1]
        | [] => rw [hl] at hlen; simp at hlen
        | [_] => rw [hl] at hlen; simp at hlen
        | [_, _] => rw [hl] at hlen; simp at hlen
        | _ :: _ :: _ :: _ :: _ => rw [hl] at hlen; simp at hlen

/-- C113: berenice ends well for any events with as many SiPMs as the database has. -/
theorem berenice_works {j : Job} {es : List Event} (hw : 0 < j.binWidth) (hb : j.minBin + j.binWidth < j.maxBin) (hn : 0 < j.nSipm) (hgn : j.gains.length = j.nSipm) (hs : ∀ e ∈ es, e.sipm.length = j.nSipm) :
    ∃ o, berenice j es = (some o, .ok ()) := by
  obtain ⟨nb, hnb, hbe⟩ := edges_works hw hb
  have hcl : (centres (grid j.minBin j.binWidth nb)).length = nb := by rw [centres_grid]; simp [centresOf]
  have hh : ∀ wfs : List (List ℚ), wfs.length = j.nSipm → ∃ h, histogram (grid j.minBin j.binWidth nb) wfs = .ok h ∧ h.length = j.nSipm ∧ ∀ r ∈ h, r.length = nb := by
    intro wfs hl
    refine ⟨_, histogram_works hw _ (by omega), by simp [binWaveforms, hl], ?_⟩
    intro r hr
    simp only [binWaveforms, List.mem_map] at hr
    obtain ⟨wf, _, rfl⟩ := hr
    simp [grid]
  have hc : ∀ (b : BlsMode) (base : List Int → ℚ → Prop), (∀ wf, base wf (baseline b wf)) → ∀ w : List (List Int), w.length = j.nSipm →
      ∃ h, calibrated b j.gains (grid j.minBin j.binWidth nb) w = .ok h ∧ h.length = j.nSipm ∧ ∀ r ∈ h, r.length = nb := by
    intro b base hbase w hwl
    obtain ⟨out, o1, o2, _⟩ := calibrated_all hbase (gains := j.gains) (wfs := w) (by rw [hwl, hgn])
    unfold calibrated
    rw [o1]
    exact hh out (by rw [o2, hwl])
  unfold berenice
  rw [hbe]
  dsimp only
  obtain ⟨o, ho⟩ := produce_works (process := fun e : Event => .ok e.sipm) (branches := [("adc", fun w => histogram (grid j.minBin j.binWidth nb) (w.map (subtractBaseline .mode))), ("mode", calibrated .mode j.gains (grid j.minBin j.binWidth nb)), ("median", calibrated .median j.gains (grid j.minBin j.binWidth nb))]) (es := es) hn hnb hcl (by
    intro e he
    refine ⟨_, rfl, fun b hb => ?_⟩
    simp only [List.mem_cons, List.not_mem_nil, or_false] at hb
    rcases hb with rfl | rfl | rfl
    · exact hh _ (by rw [List.length_map]; exact hs e he)
    · exact hc .mode IsMode mode_baseline _ (hs e he)
    · exact hc .median IsMedian median_baseline _ (hs e he))
  rw [ho]
  exact ⟨o, rfl⟩

/-- C113: berenice fails with a ValueError in the first event, and writes nothing, if the gains are neither one nor as many as the SiPMs of the event. -/
theorem berenice_gains {j : Job} {e : Event} {es : List Event} (hw : 0 < j.binWidth) (hb : j.minBin + j.binWidth < j.maxBin) (hn : 0 < j.nSipm) (hs : e.sipm.length = j.nSipm) (hg : j.gains.length ≠ e.sipm.length) (hg1 : j.gains.length ≠ 1) :
    berenice j (e :: es) = (some ⟨[], []⟩, .error .valueError) := by
  obtain ⟨nb, hnb, hbe⟩ := edges_works hw hb
  have hcl : (centres (grid j.minBin j.binWidth nb)).length = nb := by rw [centres_grid]; simp [centresOf]
  unfold berenice
  rw [hbe]
  dsimp only
  unfold produce
  rw [loop_cons]
  have h1 : ∃ h, accumulate e.sipm ((fun w : List (List Int) => histogram (grid j.minBin j.binWidth nb) (w.map (subtractBaseline .mode))), zeros j.nSipm (centres (grid j.minBin j.binWidth nb)).length) = .ok h := by
    unfold accumulate
    dsimp only
    rw [histogram_works hw _ (by rw [List.length_map]; omega)]
    dsimp only
    unfold addHist
    rw [if_pos (by simp [zeros, binWaveforms, hs])]
    exact ⟨_, rfl⟩
  obtain ⟨h, h1⟩ := h1
  have h2 : accumulate e.sipm (calibrated .mode j.gains (grid j.minBin j.binWidth nb), zeros j.nSipm (centres (grid j.minBin j.binWidth nb)).length) = .error .valueError := by
    unfold accumulate
    dsimp only
    unfold calibrated subtractAndCalibrate
    rw [(calibration_spec j.gains (e.sipm.map (subtractBaseline .mode))).2 (by rw [List.length_map]; exact hg) hg1]
  simp only [List.map_cons, List.map_nil, List.zip_cons_cons, List.mapM_cons, h1, h2, bind, Except.bind]

/-! ### phyllis -/

/-- C113: phyllis ends well for events of the shape of the first file: with all the PMTs active in the mode without deconvolution, with good coefficients and waveforms of 400 samples in the others. -/
theorem phyllis_works {j : Job} {mode : PmtMode} {es : List Event} (hw : 0 < j.binWidth) (hb : j.minBin + j.binWidth < j.maxBin) (hg : GoodWindows j 25 j.pmtLength) (hn : 0 < j.pmts.length)
    (hs : ∀ e ∈ es, e.pmt.length = j.pmts.length ∧ e.pmtLength = j.pmtLength ∧ ∀ wf ∈ e.pmt, wf.length = e.pmtLength)
    (hd : mode ≠ .gainNodeconv → 400 ≤ j.pmtLength ∧ ∀ p ∈ j.pmts, ∃ cc cb, p.coeffC = some cc ∧ p.coeffBlr = some cb ∧ 0 < cc ∧ cc < 1 ∧ cb ≠ 0) (hm : mode = .gainMaw → 0 < j.nMaw)
    (ha : mode = .gainNodeconv → ∀ p ∈ j.pmts, p.active ≠ 0) : ∃ o, phyllis j mode es = (some o, .ok ()) := by
  refine lightDark_works hw hb hg hn fun e he => ?_
  obtain ⟨h1, h2, h3⟩ := hs e he
  have hok : ∃ m, phyllisProcess j mode e = .ok m := by
    have hdec : mode ≠ .gainNodeconv → ∃ cwf, Blr.deconvPmt j.tan j.pmts j.nBaseline false (e.pmt.map fun w => w.map fun x : Int => (x : ℚ)) = .ok cwf := by
      intro hm
      obtain ⟨d1, d2⟩ := hd hm
      refine Blr.deconvPmt_works (by simpa using h1) ?_ fun p hp _ => d2 p hp
      intro rwf hr
      obtain ⟨wf, hwf, rfl⟩ := List.mem_map.1 hr
      rw [List.length_map, h3 wf hwf]
      omega
    cases mode with
    | gain =>
      obtain ⟨cwf, hc⟩ := hdec (by decide)
      unfold phyllisProcess
      dsimp only
      rw [hc]
      exact ⟨_, rfl⟩
    | gainMaw =>
      obtain ⟨cwf, hc⟩ := hdec (by decide)
      have hmaw : ∀ l : List (List ℚ), ∃ out, l.mapM (subtractMaw j.nMaw) = .ok out := by
        intro l
        induction l with
        | nil => exact ⟨[], rfl⟩
        | cons x l ih =>
          obtain ⟨y, hy, _⟩ := (subtract_maw_spec j.nMaw x).2 (hm rfl)
          obtain ⟨o, ho⟩ := ih
          exact ⟨y :: o, by rw [List.mapM_cons, hy, ho]; rfl⟩
      obtain ⟨out, hout⟩ := hmaw cwf
      unfold phyllisProcess
      dsimp only
      rw [hc]
      dsimp only
      rw [hout]
      exact ⟨_, rfl⟩
    | gainNodeconv =>
      unfold phyllisProcess
      dsimp only
      rw [rowAt_works _ (by
        intro i hi
        rw [List.length_map, h1]
        have := (List.mem_filter.1 hi).1
        simpa using this)]
      exact ⟨_, rfl⟩
  obtain ⟨m, hm⟩ := hok
  obtain ⟨_, p2, p3⟩ := processed_of (fun h => ⟨ha h, h1⟩) hm
  exact ⟨m, hm, by rw [p3, h2], p2⟩

/-! ### Failures -/

/-- The possible outputs of a failed job: those of a failed set-up (none at all), of a failed event (the rows of the events before it, no histogram), or of failed writing of the histograms at the end. -/
def FailedOutput (es : List Event) (o : Option Out) : Prop :=
  o = none ∨ (∃ k < es.length, o = some ⟨(es.take k).map (fun e => (e.run, e.number, e.time)), []⟩) ∨ ∃ hs, o = some ⟨es.map (fun e => (e.run, e.number, e.time)), hs⟩

theorem failed_produce {W : Type} {process : Event → Except PyErr W} {branches : List (String × (W → Except PyErr Hist))} {ns : Nat} {edges : List ℚ} {es : List Event} {o : Out} {err : PyErr}
    (h : produce process branches ns edges es = (o, .error err)) : FailedOutput es (some o) := by
  rcases produce_error h with ⟨k, hk, rfl⟩ | hr
  · exact .inr (.inl ⟨k, hk, rfl⟩)
  · exact .inr (.inr ⟨o.hists, by rw [← hr]⟩)

theorem lightDark_failed {j : Job} {pre : String} {ns length : Nat} {sampling : ℚ} {process : Event → Except PyErr Mat} {es : List Event} {o : Option Out} {err : PyErr}
    (h : lightDark j pre ns length sampling process es = (o, .error err)) : FailedOutput es o := by
  unfold lightDark at h
  split at h
  · exact .inl (Prod.mk.inj h).1.symm
  · split at h
    · exact .inl (Prod.mk.inj h).1.symm
    · split at h
      rename_i hp
      obtain ⟨rfl, rfl⟩ := Prod.mk.inj h
      exact failed_produce hp

/-- C113: a job that fails has lost every histogram unless all the events were processed; the rows of Run are those of the events before the failure. -/
theorem failed_job (j : Job) (es : List Event) (o : Option Out) (err : PyErr) :
    ((∃ mode, phyllis j mode es = (o, .error err)) ∨ (∃ mode, trude j mode es = (o, .error err)) ∨ berenice j es = (o, .error err)) →
    o = none ∨ (∃ k < es.length, o = some ⟨(es.take k).map (fun e => (e.run, e.number, e.time)), []⟩) ∨ ∃ hs, o = some ⟨es.map (fun e => (e.run, e.number, e.time)), hs⟩ := by
  rintro (⟨mode, h⟩ | ⟨mode, h⟩ | h)
  · exact lightDark_failed h
  · exact lightDark_failed h
  · unfold berenice at h
    split at h
    · exact .inl (Prod.mk.inj h).1.symm
    · split at h
      rename_i hp
      obtain ⟨rfl, rfl⟩ := Prod.mk.inj h
      exact failed_produce hp

/-- C113: with bins of no width the three cities fail before the file is created. -/
theorem no_width {j : Job} (es : List Event) (h : j.binWidth = 0) : (∀ mode, phyllis j mode es = (none, .error .zeroDivision)) ∧ (∀ mode, trude j mode es = (none, .error .zeroDivision)) ∧ berenice j es = (none, .error .zeroDivision) := by
  have hb : binEdges j.minBin j.maxBin j.binWidth = .error .zeroDivision := by unfold binEdges; rw [if_pos h]
  refine ⟨fun mode => ?_, fun mode => ?_, ?_⟩
  · unfold phyllis lightDark; rw [hb]
  · unfold trude lightDark; rw [hb]
  · unfold berenice; rw [hb]

/-! ### Examples -/

/-- Two SiPMs of ten samples, one window of two samples of light and one of darkness. -/
def exSipm : Job := { pmts := [], gains := [2, 1], tan := fun x => x, pmtLength := 0, nSipm := 2, sipmLength := 10, minBin := 0, maxBin := 9, binWidth := 2, nIntegrals := 1, start := 6, width := 2, period := 4, nBaseline := 0, nMaw := 0 }

def exEvent1 : Event := ⟨7, 1, 100, [], 0, [[1, 1, 3, 2, 1, 1, 6, 1, 1, 1], [2, 2, 2, 4, 2, 2, 3, 4, 2, 2]], 10⟩

def exEvent2 : Event := ⟨7, 2, 200, [], 0, [[1, 1, 3, 2, 1, 1, 6, 1, 1, 1], [2, 2, 2, 2, 2, 2, 2, 2, 2, 2]], 10⟩

theorem exSipm_windows : GoodWindows exSipm 1000 10 := by
  refine ⟨by decide, by decide +kernel, by decide +kernel, ?_, ?_⟩ <;> (intro i hi; have h0 : i = 0 := by (have : i < 1 := hi); omega) <;> subst h0 <;> refine ⟨?_, ?_⟩ <;> decide +kernel

/-- The output as a comparable value. -/
def summary (x : Option Out × Except PyErr Unit) : Option Out × Bool := (x.1, x.2.toOption.isSome)

/-- Three bins from the four edges 0, 2, 4, 6, 8 below 9: four bins. The integrals of light are 5 and 5 in the first sensor, 3 and 0 in the second. -/
example : summary (trude exSipm .subtractMode [exEvent1, exEvent2]) =
    (some ⟨[(7, 1, 100), (7, 2, 200)], [("sipm_spe", [1, 3, 5, 7], [[0, 0, 2, 0], [1, 1, 0, 0]]), ("sipm_dark", [1, 3, 5, 7], [[0, 2, 0, 0], [1, 1, 0, 0]])]⟩, true) := by decide +kernel

example : ∃ o, trude exSipm .subtractMode [exEvent1, exEvent2] = (some o, .ok ()) :=
  trude_works (.inl rfl) (by decide +kernel) (by decide +kernel) exSipm_windows (by decide) (by intro e he; fin_cases he <;> exact ⟨rfl, rfl⟩)

example : trude exSipm .subtractMeanCalibrate [exEvent1, exEvent2] = (some ⟨[], []⟩, .error .typeError) :=
  trude_calibrate ⟨by decide, by decide⟩ (by decide +kernel) exSipm_windows

example : summary (berenice exSipm [exEvent1]) =
    (some ⟨[(7, 1, 100)], [("adc", [1, 3, 5, 7], [[8, 1, 1, 0], [8, 2, 0, 0]]), ("mode", [1, 3, 5, 7], [[9, 1, 0, 0], [8, 2, 0, 0]]), ("median", [1, 3, 5, 7], [[9, 1, 0, 0], [8, 2, 0, 0]])]⟩, true) := by decide +kernel

example : ∃ o, berenice exSipm [exEvent1, exEvent2] = (some o, .ok ()) :=
  berenice_works (by decide +kernel) (by decide +kernel) (by decide) rfl (by intro e he; fin_cases he <;> rfl)

/-- The database with three SiPMs, the file with two. -/
example : berenice { exSipm with gains := [2, 1, 1] } [exEvent1] = (some ⟨[], []⟩, .error .valueError) :=
  berenice_gains (by decide +kernel) (by decide +kernel) (by decide) rfl (by decide) (by decide)

example : berenice { exSipm with binWidth := 0 } [exEvent1] = (none, .error .zeroDivision) := (no_width _ rfl).2.2

/-- A second event with another number of SiPMs: the row of the first one is in the file, and no histogram. -/
example : summary (berenice exSipm [exEvent1, ⟨7, 2, 200, [], 0, [], 10⟩]) = (some ⟨[(7, 1, 100)], []⟩, false) := by decide +kernel

def exRow (active : Nat) : LoadDb.PmtRow := Blr.exPmt 0 10 active

/-- Two PMTs of 500 samples, one window of one sample (25 ns) of light and one of darkness. -/
def exPmtJob (a b : Nat) : Job := { pmts := [exRow a, exRow b], gains := [], tan := Blr.one, pmtLength := 100, nSipm := 0, sipmLength := 0, minBin := 0, maxBin := 9, binWidth := 2, nIntegrals := 1, start := 9 / 4, width := 1 / 40, period := 1 / 40, nBaseline := 10, nMaw := 4 }

theorem exPmt_windows' : GoodWindows (exPmtJob 1 1) 25 100 := by
  refine ⟨by decide, by decide +kernel, by decide +kernel, ?_, ?_⟩ <;> (intro i hi; have h0 : i = 0 := by (have : i < 1 := hi); omega) <;> subst h0 <;> refine ⟨?_, ?_⟩ <;> decide +kernel

theorem exPmt_windows (a b : Nat) : GoodWindows (exPmtJob a b) 25 100 := exPmt_windows'

def exPmtEvent : Event := ⟨7, 1, 100, [List.replicate 90 1 ++ 4 :: List.replicate 9 1, List.replicate 90 2 ++ 8 :: List.replicate 9 2], 100, [], 0⟩

/-- The integrals of light are 3 and 6. -/
example : summary (phyllis (exPmtJob 1 1) .gainNodeconv [exPmtEvent]) =
    (some ⟨[(7, 1, 100)], [("pmt_spe", [1, 3, 5, 7], [[0, 1, 0, 0], [0, 0, 0, 1]]), ("pmt_dark", [1, 3, 5, 7], [[1, 0, 0, 0], [1, 0, 0, 0]])]⟩, true) := by decide +kernel

example : ∃ o, phyllis (exPmtJob 1 1) .gainNodeconv [exPmtEvent] = (some o, .ok ()) :=
  phyllis_works (by decide +kernel) (by decide +kernel) (exPmt_windows 1 1) (by decide) (by intro e he; fin_cases he; exact ⟨rfl, rfl, by decide⟩) (fun h => absurd rfl h) (fun h => nomatch h) (fun _ p hp => by fin_cases hp <;> decide)

/-- Only the second PMT is active: the first one gets its histogram. -/
example : summary (phyllis (exPmtJob 0 1) .gainNodeconv [exPmtEvent]) =
    (some ⟨[(7, 1, 100)], [("pmt_spe", [1, 3, 5, 7], [[0, 0, 0, 1], [0, 0, 0, 1]]), ("pmt_dark", [1, 3, 5, 7], [[1, 0, 0, 0], [1, 0, 0, 0]])]⟩, true) := by decide +kernel

example : phyllis (exPmtJob 0 0) .gainNodeconv [exPmtEvent] = (some ⟨[], []⟩, .error .valueError) :=
  phyllis_inactive (by decide +kernel) (exPmt_windows 0 0) rfl rfl (by decide) (by decide)

/-- The restored waveforms: 500 samples, a pulse of 3 counts in the second PMT. -/
def exLong : Job := { exPmtJob 1 0 with pmtLength := 500, start := 10 }

def exLongEvent : Event := ⟨7, 3, 300, [List.replicate 500 7, List.replicate 400 7 ++ 3 :: List.replicate 99 7], 500, [], 0⟩

theorem exLong_windows : GoodWindows exLong 25 500 := by
  refine ⟨by decide, by decide +kernel, by decide +kernel, ?_, ?_⟩ <;> (intro i hi; have h0 : i = 0 := by (have : i < 1 := hi); omega) <;> subst h0 <;> refine ⟨?_, ?_⟩ <;> decide +kernel

example : ∃ o, phyllis exLong .gainMaw [exLongEvent] = (some o, .ok ()) :=
  phyllis_works (by decide +kernel) (by decide +kernel) exLong_windows (by decide) (by intro e he; fin_cases he; exact ⟨rfl, rfl, by decide +kernel⟩)
    (fun _ => ⟨by decide, fun p hp => by fin_cases hp <;> exact ⟨1 / 2, 1 / 2, rfl, rfl, by decide +kernel, by decide +kernel, by decide +kernel⟩⟩) (fun _ => by decide) (fun h => nomatch h)

end Verif.CalibCity
