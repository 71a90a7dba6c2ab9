import Verif.Spec.DiomiraChain
import Verif.Props.DiomiraRun
import Verif.Props.SimChain
/-!
# C130: from diomira to irene, through the file
-/
namespace Verif.DiomiraChain
open Verif.DiomiraEvent Verif.DiomiraEvent.Spec
open Verif.Sources (wfFile wfItems fromFiles)
open Verif.IreneRun (Irene Sound Sized IsPmap ireneRun)

theorem rows_eq (run : Int) : ∀ (es : List (Event × ℚ)) (rs : List Done),
    (((es.zip (((es.map Prod.fst).zip rs).map fun x => (x.1.number, x.2.sipm.isSome))).filter fun x => x.2.2).map fun x => (x.1.1.number, x.1.2)) =
        ((es.zip rs).filterMap (passedItem run)).map (fun i => (i.event, i.timestamp)) ∧
    (((es.map Prod.fst).zip rs).filterMap passing).map (fun x => x.2.1) = ((es.zip rs).filterMap (passedItem run)).map (fun i => i.pmt) ∧
    (((es.map Prod.fst).zip rs).filterMap passing).map (fun x => x.2.2.2) = ((es.zip rs).filterMap (passedItem run)).map (fun i => i.sipm)
  | [], _ => by simp
  | _ :: _, [] => by simp
  | e :: es, r :: rs => by
    obtain ⟨h1, h2, h3⟩ := rows_eq run es rs
    cases hs : r.sipm with
    | none =>
      refine ⟨?_, ?_, ?_⟩
      · simpa [passedItem, hs] using h1
      · simpa [passedItem, passing, hs] using h2
      · simpa [passedItem, passing, hs] using h3
    | some s =>
      refine ⟨?_, ?_, ?_⟩
      · simpa [passedItem, hs] using h1
      · simpa [passedItem, passing, hs] using h2
      · simpa [passedItem, passing, hs] using h3

theorem items_back (run : Int) : ∀ (is : List (Sources.WfItem (List (List Int)) Unit)), (∀ i ∈ is, i.runNumber = run ∧ i.triggerType = none ∧ i.triggerChannels = none) →
    wfItems run (is.map fun i => i.pmt) (is.map fun i => i.sipm) (is.map fun i => (i.event, i.timestamp)) none none = is
  | [], _ => rfl
  | i :: is, h => by
    have ih := items_back run is fun x hx => h x (List.mem_cons_of_mem _ hx)
    obtain ⟨h1, h2, h3⟩ := h i List.mem_cons_self
    unfold wfItems Sources.zipRepeat at ih ⊢
    simp only [List.map_cons, List.zip_cons_cons, List.map_map] at ih ⊢
    rw [ih, ← h1]
    congr 1
    cases i
    simp_all

theorem passed_run {run : Int} {l : List ((Event × ℚ) × Done)} : ∀ i ∈ l.filterMap (passedItem run), i.runNumber = run ∧ i.triggerType = none ∧ i.triggerChannels = none := by
  intro i hi
  obtain ⟨x, _, hx⟩ := List.mem_filterMap.1 hi
  unfold passedItem at hx
  cases hs : x.2.sipm with
  | none => rw [hs] at hx; cases hx
  | some s => rw [hs] at hx; cases hx; exact ⟨rfl, rfl, rfl⟩

/-- C130. After a job of diomira that ends, the next city gets, in order, exactly the events that pass the trigger, each with its own number, time and waveforms; if none passes, reading the file is an
`IndexError`. -/
theorem diomira_read {j : Job} {type : Option String} {es : List (Event × ℚ)} {o : Out} (h : diomira j type (es.map Prod.fst) = (o, .ok ())) (run : Int) :
    ∃ t rs, setup j.pmts type j.conf = .ok t ∧ List.Forall₂ (fun (e : Event × ℚ) r => Processed j t e.1 r) es rs ∧
      ((∃ r ∈ rs, r.sipm ≠ none) → nextSource run es o = ⟨(es.zip rs).filterMap (passedItem run), none⟩) ∧
      ((∀ r ∈ rs, r.sipm = none) → nextSource run es o = ⟨[], some .indexError⟩) := by
  obtain ⟨t, rs, h1, h2, w1, _, w3, _, w5⟩ := DiomiraEvent.run_spec h
  rw [List.forall₂_map_left_iff] at h2
  obtain ⟨r1, r2, r3⟩ := rows_eq run es rs
  have e1 : eventRows es o = ((es.zip rs).filterMap (passedItem run)).map fun i => (i.event, i.timestamp) := by
    unfold eventRows
    rw [w1, r1]
  have hone : nextSource run es o = wfFile .rwf (diomiraFile run es o) := by
    unfold nextSource Sources.wfFromFiles
    simp only [fromFiles]
    cases hf : wfFile .rwf (diomiraFile run es o) with
    | mk items exc => cases exc <;> simp
  have hfile : diomiraFile run es o = ⟨some ⟨some (((es.zip rs).filterMap (passedItem run)).map fun _ => run), none, some (((es.zip rs).filterMap (passedItem run)).map fun i => (i.event, i.timestamp))⟩,
      some (((es.zip rs).filterMap (passedItem run)).map fun i => i.pmt), some (((es.zip rs).filterMap (passedItem run)).map fun i => i.sipm), none, none, none, none⟩ := by
    unfold diomiraFile
    rw [e1, w3, w5, r2, r3, List.map_map]
    rfl
  have hb := items_back run ((es.zip rs).filterMap (passedItem run)) passed_run
  refine ⟨t, rs, h1, h2, ?_, ?_⟩
  · rintro ⟨r, hr, hs⟩
    rw [hone, hfile]
    have hne : (es.zip rs).filterMap (passedItem run) ≠ [] := by
      obtain ⟨k, hk⟩ := List.mem_iff_getElem?.1 hr
      have hl := h2.length_eq
      have hlt : k < es.length := hl ▸ (List.getElem?_eq_some_iff.1 hk).1
      cases hs' : r.sipm with
      | none => exact absurd hs' hs
      | some s =>
        have hm : (es[k], r) ∈ es.zip rs := List.mem_of_getElem? (i := k) (List.getElem?_zip_eq_some.2 ⟨List.getElem?_eq_getElem hlt, hk⟩)
        intro hn
        have : (⟨r.raw, s, run, es[k].1.number, es[k].2, none, none⟩ : Sources.WfItem (List (List Int)) Unit) ∈ (es.zip rs).filterMap (passedItem run) :=
          List.mem_filterMap.2 ⟨_, hm, by simp [passedItem, hs']⟩
        rw [hn] at this
        cases this
    generalize (es.zip rs).filterMap (passedItem run) = is at *
    cases is with
    | nil => exact absurd rfl hne
    | cons i is =>
      unfold wfFile
      simp only [Sources.getEventInfo, Sources.getRunNumber, Sources.firstRow, Sources.getPmtWfs, Sources.getSipmWfs, Sources.node, Sources.wfCheck, List.map_cons]
      simp only [List.map_cons] at hb
      rw [hb]
      simp [Sources.checkLengths]
  · intro hno
    rw [hone, hfile]
    have hnil : (es.zip rs).filterMap (passedItem run) = [] := by
      rw [List.filterMap_eq_nil_iff]
      intro x hx
      have := hno x.2 (List.of_mem_zip hx).2
      unfold passedItem
      rw [this]
      rfl
    rw [hnil]
    unfold wfFile
    simp only [List.map_nil, Sources.getEventInfo, Sources.getRunNumber, Sources.firstRow, Sources.skipNode]
    simp [Sources.noSuchNode]

theorem passed_numbers (run : Int) : ∀ (es : List (Event × ℚ)) (rs : List Done), (((es.zip rs).filterMap (passedItem run)).map fun i => i.event).Sublist (es.map fun e => e.1.number)
  | [], _ => by simp
  | _ :: _, [] => by simp
  | e :: es, r :: rs => by
    have ih := passed_numbers run es rs
    cases hs : r.sipm with
    | none => simpa [passedItem, hs] using ih.cons _
    | some s => simpa [passedItem, hs] using ih.cons_cons e.1.number

/-- C130. irene processes the file of diomira to its end if the simulated waveforms have the sizes of its configuration and the events have different numbers: each event that passes the trigger has its row in the table of flags, its PMap is
the one of C126 for the waveforms stored, and the city after irene reads it with the number and time of the event. -/
theorem diomira_to_irene {j : Job} {type : Option String} {es : List (Event × ℚ)} {o : Out} (h : diomira j type (es.map Prod.fst) = (o, .ok ())) (run : Int)
    (hd : (es.map fun e => e.1.number).Nodup) {c : Irene} (hc : Sound c) (hpass : ∃ x ∈ o.triggers, x.2 = true)
    (hfit : ∀ t e r, setup j.pmts type j.conf = .ok t → e ∈ es → Processed j t e.1 r → Fits c r) :
    ∃ pms out, (nextSource run es o).exc = none ∧ List.Forall₂ (IsPmap c) ((nextSource run es o).items.map toRaw) pms ∧
      ireneRun c run ((nextSource run es o).items.map toRaw) = .ok out ∧
      out.indices = ((nextSource run es o).items.zip pms).map (fun x => (x.1.event, x.2.isSome)) ∧
      Sources.pmapFromFiles [out.file] = ⟨(IreneRun.withPeaks ((nextSource run es o).items.map toRaw) pms).map (IreneRun.item run), none⟩ := by
  obtain ⟨t, rs, h1, h2, h3, _⟩ := diomira_read h run
  have hsome : ∃ r ∈ rs, r.sipm ≠ none := by
    obtain ⟨t', rs', g1, g2, w1, _⟩ := DiomiraEvent.run_spec h
    obtain ⟨x, hx, hb⟩ := hpass
    by_contra hno
    push Not at hno
    obtain ⟨_, _, k1, k2, _, k4⟩ := diomira_read h run
    rw [h1] at g1
    cases g1
    have hrow : ∀ (l : List (Event × ℚ)) (as bs : List Done), List.Forall₂ (fun (e : Event × ℚ) r => Processed j t e.1 r) l as → List.Forall₂ (fun (e : Event × ℚ) r => Processed j t e.1 r) l bs →
        ∀ r ∈ bs, (∀ a ∈ as, a.sipm = none) → r.sipm = none := by
      intro l as bs ha hb r hr hn
      obtain ⟨k, hk⟩ := List.mem_iff_getElem?.1 hr
      have hlt : k < l.length := hb.length_eq ▸ (List.getElem?_eq_some_iff.1 hk).1
      have hka : k < as.length := ha.length_eq ▸ hlt
      have pa := List.forall₂_iff_get.1 ha |>.2 k hlt hka
      have hkb := (List.getElem?_eq_some_iff.1 hk).1
      have pb := List.forall₂_iff_get.1 hb |>.2 k hlt hkb
      have e := pa.1.symm.trans pb.1
      have hraw : (as.get ⟨k, hka⟩).raw = (bs.get ⟨k, hkb⟩).raw := (Prod.mk.inj (Except.ok.inj e)).1
      have q1 := pa.2.1
      have q2 := pb.2.1
      rw [hraw, q2] at q1
      have q3 : (bs.get ⟨k, hkb⟩).sipm.isSome = (as.get ⟨k, hka⟩).sipm.isSome := Except.ok.inj q1
      rw [hn _ (List.get_mem _ _)] at q3
      have hr' : bs.get ⟨k, hkb⟩ = r := (List.getElem?_eq_some_iff.1 hk).2
      rw [hr'] at q3
      cases hh : r.sipm with
      | none => rfl
      | some s => rw [hh] at q3; cases q3
    rw [List.forall₂_map_left_iff] at g2
    rw [w1] at hx
    obtain ⟨y, hy, rfl⟩ := List.mem_map.1 hx
    have := hrow es rs rs' h2 g2 y.2 (List.of_mem_zip hy).2 hno
    rw [this] at hb
    cases hb
  rw [h3 hsome]
  dsimp only
  obtain ⟨pms, out, o1, o2, o3, _, o5⟩ := IreneRun.irene_run hc (raws := ((es.zip rs).filterMap (passedItem run)).map toRaw) (by
    intro r hr
    obtain ⟨i, hi, rfl⟩ := List.mem_map.1 hr
    obtain ⟨x, hx, hxi⟩ := List.mem_filterMap.1 hi
    obtain ⟨k, hk⟩ := List.mem_iff_getElem?.1 hx
    rw [List.getElem?_zip_eq_some] at hk
    have hk1 := (List.getElem?_eq_some_iff.1 hk.1)
    have hk2 := (List.getElem?_eq_some_iff.1 hk.2)
    have hp := List.forall₂_iff_get.1 h2 |>.2 k hk1.1 hk2.1
    have hp' : Processed j t x.1.1 x.2 := by
      have a1 : es.get ⟨k, hk1.1⟩ = x.1 := hk1.2
      have a2 : rs.get ⟨k, hk2.1⟩ = x.2 := hk2.2
      rwa [a1, a2] at hp
    obtain ⟨f1, f2, f3⟩ := hfit t x.1 x.2 h1 (List.of_mem_zip hx).1 hp'
    unfold passedItem at hxi
    cases hs : x.2.sipm with
    | none => rw [hs] at hxi; cases hxi
    | some s =>
      rw [hs] at hxi
      cases hxi
      obtain ⟨f4, f5⟩ := f3 s hs
      refine ⟨by simpa [toRaw] using f1, ?_, f4, f5⟩
      intro w hw
      obtain ⟨v, hv, rfl⟩ := List.mem_map.1 hw
      rw [List.length_map]
      exact f2 v hv) (by
    rw [List.map_map]
    exact (passed_numbers run es rs).nodup hd) run
  refine ⟨pms, out, rfl, o1, o2, ?_, o5⟩
  rw [o3, List.zip_map_left, List.map_map]
  rfl

/-! ## A case -/

/-- Two events with a pulse in both PMTs. -/
def exTimed : List (Event × ℚ) := [(exEvent 1 [exPulse, exPulse], 100), (exEvent 2 [exPulse, exPulse], 250)]

/-- irene with waveforms of 403 samples, and SiPMs of 3. -/
def exIrene : Irene := ⟨fun x => x, ⟨⟨⟨0, 395⟩, ⟨1, 10⟩, 4, 1⟩, ⟨⟨0, 395⟩, ⟨1, 200⟩, 4, 150⟩, 1, 150, (Peaks.selectWfsAboveTimeIntegratedThr · 1), 5, 5⟩, 100, 10, 1, PmapBuild.exPmts, IreneRun.caseSipms, 403, 3⟩

example : Sound exIrene where
  flags := IreneRun.case_sound.flags
  ids := IreneRun.case_sound.ids
  conf := ⟨by decide, by decide, by decide, by decide, by decide⟩
  selection := IreneRun.case_sound.selection
  rows := IreneRun.case_sound.rows
  samples := by decide
  maw := by decide
  coeffs := IreneRun.case_sound.coeffs
  few1 := by decide
  few2 := by decide

example : (exTimed.map fun e => e.1.number).Nodup := by decide

/-- The job ends and the events pass. -/
example : exSummary (diomira exJob none (exTimed.map Prod.fst)) = ([(1, true), (2, true)], [1, 2], [[[0, 16, 0], [0, 0, 42]], [[0, 16, 0], [0, 0, 42]]], none) := by decide +kernel

/-- The sizes are those of the configuration. -/
example : ∀ t e r, setup exJob.pmts none exJob.conf = .ok t → e ∈ exTimed → Processed exJob t e.1 r → Fits exIrene r := by
  intro t e r _ he hp
  have hs : simulateSipms exSampler [1, 0] (1 / 2) 0 3 ⟨[[0, 3 / 2, 0], [0, 0, 2]], [[0, 0, 0], [0, 0, 0]], none⟩ [[0, 1, 0], [0, 0, 2]] = .ok [[0, 16, 0], [0, 0, 42]] := by decide +kernel
  obtain ⟨p1, _, p3⟩ := hp
  simp only [exTimed, List.mem_cons, List.not_mem_nil, or_false] at he
  have key : simulatePmts exEnv Blr.exPmts (exDraws [exPulse, exPulse]) [exNone, exNone] = .ok (r.raw, r.blr) ∧
      ∀ s, r.sipm = some s → ∃ w, simulateSipms exSampler [1, 0] (1 / 2) 0 3 ⟨[[0, 3 / 2, 0], [0, 0, 2]], [[0, 0, 0], [0, 0, 0]], none⟩ [[0, 1, 0], [0, 0, 2]] = .ok w ∧ List.Forall₂ Truncated w s := by
    rcases he with rfl | rfl <;> exact ⟨p1, p3⟩
  obtain ⟨q1, q3⟩ := key
  rw [ex_pulse] at q1
  have hraw := (Prod.mk.inj (Except.ok.inj q1)).1
  refine ⟨by rw [← hraw]; rfl, ?_, ?_⟩
  · intro w hw
    rw [← hraw] at hw
    simp only [List.mem_cons, List.not_mem_nil, or_false, or_self] at hw
    subst hw
    rw [List.length_append, List.length_replicate]
    rfl
  · intro s hsome
    obtain ⟨w, hw, hf⟩ := q3 s hsome
    rw [hs] at hw
    cases hw
    refine ⟨hf.length_eq.symm, ?_⟩
    cases hf with
    | cons a hf =>
      cases hf with
      | cons b hf =>
        cases hf
        intro v hv
        simp only [List.mem_cons, List.not_mem_nil, or_false] at hv
        rcases hv with rfl | rfl
        · exact a.1
        · exact b.1

/-- The next city gets both events; none after a trigger that none passes. -/
example : (((nextSource 7 exTimed (diomira exJob none (exTimed.map Prod.fst)).1).items.map fun i => (i.event, i.timestamp, i.runNumber)) = [(1, 100, 7), (2, 250, 7)]) ∧
    ((nextSource 7 exTimed (diomira exJob none (exTimed.map Prod.fst)).1).items.map fun i => i.sipm) = [[[0, 16, 0], [0, 0, 42]], [[0, 16, 0], [0, 0, 42]]] ∧
    (nextSource 7 exTimed (diomira exJob3 (some "S2") (exTimed.map Prod.fst)).1).exc = some .indexError := by refine ⟨?_, ?_, ?_⟩ <;> decide +kernel

end Verif.DiomiraChain
