import Verif.Spec.Dorothea
import Verif.Props.KrEvent
import Verif.Props.Sophronia
import Verif.Props.Chain
import Verif.Props.IreneRun
/-!
# C127: dorothea
-/
namespace Verif.Dorothea
open Verif.PMaps Verif.Peaks

theorem built_of {p : Peak} (h : ValidPeak p) : Filters.Built p := by
  refine ⟨fun h0 => h.nonempty (List.length_eq_zero_iff.1 h0), h.pmtCols, ?_⟩
  rcases h.sipm with h | h
  · rw [h]; exact Or.inr rfl
  · exact Or.inl h.2.1

theorem makeRow_head {ev : KrEvent.KrEvent} {i j : Nat} {r : KrEvent.Row} (h : KrEvent.makeRow ev i j = .ok r) : r.event = ev.event ∧ r.time = ev.time := by
  unfold KrEvent.makeRow at h
  simp only [Chain.bindE] at h
  obtain ⟨_, _, _, _, _, _, _, _, _, _, _, _, _, _, _, _, _, _, _, _, _, _, _, _, _, _, _, _, _, _, _, _, _, _, _, _, _, _, _, _, _, _, _, _, _, _, _, _, _, _, h⟩ := h
  cases h
  exact ⟨rfl, rfl⟩

theorem storePairs_head {ev : KrEvent.KrEvent} : ∀ (ps : List (Nat × Nat)), ∀ r ∈ (KrEvent.storePairs ev ps).1, r.event = ev.event ∧ r.time = ev.time
  | [], r, h => by cases h
  | (i, j) :: ps, r, h => by
    rw [KrEvent.storePairs] at h
    cases hm : KrEvent.makeRow ev i j with
    | error e => rw [hm] at h; cases h
    | ok x =>
      rw [hm] at h
      rcases List.mem_cons.1 h with rfl | h
      · exact makeRow_head hm
      · exact storePairs_head ps r h

theorem selected_length (f : List Bool) (ps : List Peak) : (KrEvent.selected f ps).length ≤ ps.length := by
  rw [KrEvent.selected, List.length_map]
  refine (List.length_filter_le _ _).trans ?_
  rw [List.length_zip]; omega

theorem selected_mem {f : List Bool} {ps : List Peak} {p : Peak} (h : p ∈ KrEvent.selected f ps) : p ∈ ps := by
  obtain ⟨x, hx, rfl⟩ := List.mem_map.1 h
  exact (List.of_mem_zip (List.mem_filter.1 hx).1).2

theorem addS2_ok {c : Cfg} (hc : GivesCharges c) {p : Peak} (hp : ValidPeak p) (h : Located c p) (ev : KrEvent.KrEvent) : ∃ ev', KrEvent.addS2 c.kr ev p = .ok ev' := by
  obtain ⟨_, i, ht, t, h1, h2, _⟩ := total_energy_height p (built_of hp)
  obtain ⟨k, hk, _⟩ := h
  cases hk with
  | @found xys qs _ cs a1 a2 a3 =>
    have hne : p.sipms ≠ Responses.empty := by
      intro h0
      rw [KrEvent.positions, if_pos h0] at a1
      cases a1
    obtain ⟨x, xs, hq⟩ := List.exists_cons_of_ne_nil (hc p qs hp hne a2)
    subst hq
    simp only [KrEvent.addS2, h1, h2, a1, a2, KrEvent.recoS2, a3, KrEvent.pyMax, bind, Except.bind]
    exact ⟨_, rfl⟩

theorem addS2s_ok {c : Cfg} (hc : GivesCharges c) : ∀ (l : List (Bool × Peak)) (ev : KrEvent.KrEvent), (∀ x ∈ l, x.1 = true → ValidPeak x.2 ∧ Located c x.2) →
    ∃ ev', KrEvent.addS2s c.kr ev l = .ok ev'
  | [], ev, _ => ⟨ev, rfl⟩
  | (passed, p) :: rest, ev, h => by
    have h' : ∀ x ∈ rest, x.1 = true → ValidPeak x.2 ∧ Located c x.2 := fun x hx => h x (List.mem_cons_of_mem _ hx)
    rw [KrEvent.addS2s]
    cases passed with
    | false => simpa using addS2s_ok hc rest ev h'
    | true =>
      obtain ⟨ev', h1⟩ := addS2_ok hc (h _ List.mem_cons_self rfl).1 (h _ List.mem_cons_self rfl).2 ev
      simp only [Bool.not_true, Bool.false_eq_true, if_false, h1]
      exact addS2s_ok hc rest ev' h'

/-- An accepted event whose S2s are located. -/
theorem located_ok {c : Cfg} (hc : GivesCharges c) {i : Chain.Input} (hi : Good i) {f1 f2 : List Bool} (ha : Accepted c i f1 f2) (hne : KrEvent.selected f2 i.s2s ≠ [])
    (hl : ∀ p ∈ KrEvent.selected f2 i.s2s, Located c p) : ∃ rows, event c i = ⟨some true, rows, true, none⟩ ∧ IsKdst c i f1 f2 rows := by
  obtain ⟨e1, h1⟩ := Sophronia.addS1s_ok (f1.zip i.s1s) (KrEvent.KrEvent.new i.event (i.ts * (1 / 1000))) fun x hx _ => built_of (hi.s1s _ (List.of_mem_zip hx).2)
  obtain ⟨e2, h2⟩ := addS2s_ok hc (f2.zip i.s2s) e1 fun x hx h => ⟨hi.s2s _ (List.of_mem_zip hx).2, hl _ (Sophronia.mem_selected hx h)⟩
  have hbu : KrEvent.build c.kr f1 f2 i.s1s i.s2s i.event i.ts = .ok e2 := by rw [KrEvent.build, h1]; exact h2
  obtain ⟨rows, hst, hlen, hrows⟩ := KrEvent.build_store_partial hbu hne ((selected_length f1 i.s1s).trans hi.few.1) ((selected_length f2 i.s2s).trans hi.few.2) (by
    intro p hp r hr
    obtain ⟨k, hk, hk'⟩ := hl p hp
    exact ⟨k, Sophronia.reco_unique hr hk, hk'⟩)
  obtain ⟨b1, b2, _⟩ := KrEvent.build_spec hbu
  refine ⟨rows, ?_, hlen, ?_, fun j p2 hj h0 => (hrows j p2 hj).1 h0, fun j p2 hj => (hrows j p2 hj).2⟩
  · unfold event
    rw [show Filters.pmapFilter c.selector i.s1s i.s2s = .ok ⟨true, f1, f2⟩ from ha]
    simp only [Bool.not_true, Bool.false_eq_true, if_false, hbu, hst]
  · intro r hr
    have := storePairs_head (ev := KrEvent.fillDefaults e2) (KrEvent.pairs e2) r (by
      have e : KrEvent.storePairs (KrEvent.fillDefaults e2) (KrEvent.pairs e2) = (rows, none) := hst
      rw [e]; exact hr)
    rw [← b1, ← b2]
    exact this

/-- An accepted event that is not located entirely. -/
theorem not_located {c : Cfg} {i : Chain.Input} (hi : Good i) (hns : ∀ xys qs cs, c.kr.reco xys qs = .ok cs → ∀ k ∈ cs, 0 ≤ k.nsipm ∧ k.nsipm ≤ 65535) {f1 f2 : List Bool} (ha : Accepted c i f1 f2)
    (hl : ¬ (KrEvent.selected f2 i.s2s ≠ [] ∧ ∀ p ∈ KrEvent.selected f2 i.s2s, Located c p)) :
    ∃ rows e, event c i = ⟨some true, rows, false, some e⟩ ∧ ∀ r ∈ rows, r.event = i.event := by
  unfold event
  rw [show Filters.pmapFilter c.selector i.s1s i.s2s = .ok ⟨true, f1, f2⟩ from ha]
  dsimp only
  rw [if_neg (by simp)]
  cases hbu : KrEvent.build c.kr f1 f2 i.s1s i.s2s i.event i.ts with
  | error e => exact ⟨[], e, rfl, fun r hr => by cases hr⟩
  | ok ev =>
    dsimp only
    obtain ⟨b1, b2, b3, b4, b5, b6, b7⟩ := KrEvent.build_spec hbu
    have hfit : KrEvent.Fits ev := ⟨by rw [b3]; exact (selected_length f1 i.s1s).trans hi.few.1, by rw [b4]; exact (selected_length f2 i.s2s).trans hi.few.2⟩
    have hexc : ∃ rows e, KrEvent.store ev = (rows, some e) := by
      by_cases hne : KrEvent.selected f2 i.s2s = []
      · exact ⟨_, _, KrEvent.store_no_s2 b5 hfit (by rw [b4, hne]; rfl)⟩
      · have hx : ∃ p ∈ KrEvent.selected f2 i.s2s, ¬ Located c p := by
          by_contra hcon
          exact hl ⟨hne, fun p hp => by by_contra hn; exact hcon ⟨p, hp, hn⟩⟩
        obtain ⟨p, hp, hn⟩ := hx
        obtain ⟨j, hj⟩ := List.mem_iff_getElem?.1 hp
        obtain ⟨reco, v, n, r1, r2, _, r4, _⟩ := b7 j p hj
        cases reco with
        | some k =>
          exact absurd ⟨k, r1, (by cases r1 with | found _ _ a3 => exact hns _ _ _ a3 k List.mem_cons_self)⟩ hn
        | none =>
          have hn := r2.2.2.2.2.2.2
          rw [hn] at r4
          obtain ⟨rows, hs, _⟩ := KrEvent.store_failed_reco b5 hfit r4
          exact ⟨rows, _, hs⟩
    obtain ⟨rows, e, hst⟩ := hexc
    rw [hst]
    refine ⟨rows, e, rfl, fun r hr => ?_⟩
    have := storePairs_head (ev := KrEvent.fillDefaults ev) (KrEvent.pairs ev) r (by
      have e' : KrEvent.storePairs (KrEvent.fillDefaults ev) (KrEvent.pairs ev) = (rows, some e) := hst
      rw [e']; exact hr)
    rw [← b1]
    exact this.1

theorem rejected_out {c : Cfg} {i : Chain.Input} (h : Rejected c i) : event c i = ⟨some false, [], false, none⟩ := by
  obtain ⟨f1, f2, h⟩ := h
  unfold event
  rw [h]
  rfl

theorem decided {c : Cfg} {conf : Filters.SelectorConf} (hs : Filters.Selector.mk? conf = .ok c.selector) {i : Chain.Input} (hi : Good i) : Rejected c i ∨ ∃ f1 f2, Accepted c i f1 f2 := by
  obtain ⟨⟨b, f1, f2⟩, h, _⟩ := Filters.pmap_filter conf c.selector hs i.s1s i.s2s (fun p hp => built_of (hi.s1s p hp)) (fun p hp => built_of (hi.s2s p hp))
  cases b with
  | false => exact Or.inl ⟨f1, f2, h⟩
  | true => exact Or.inr ⟨f1, f2, h⟩

theorem rejected_not {c : Cfg} {i : Chain.Input} {f1 f2 : List Bool} (h : Accepted c i f1 f2) : ¬ Rejected c i := by
  rintro ⟨g1, g2, h'⟩
  rw [show Filters.pmapFilter c.selector i.s1s i.s2s = .ok ⟨true, f1, f2⟩ from h] at h'
  cases h'

/-- **C127**: the flag of an event says if the numbers of selected S1s and S2s are in their ranges, a peak being selected if its energy, width, height and (for S2s) number of SiPMs are. -/
theorem event_flag {c : Cfg} {conf : Filters.SelectorConf} (hs : Filters.Selector.mk? conf = .ok c.selector) {i : Chain.Input} (hi : Good i) :
    ∃ f1 f2 b, List.Forall₂ (fun p (b : Bool) => b = true ↔ Filters.Satisfies conf.s1Ethr conf.s1e conf.s1w conf.s1h none p) i.s1s f1 ∧
      List.Forall₂ (fun p (b : Bool) => b = true ↔ Filters.Satisfies conf.s2Ethr conf.s2e conf.s2w conf.s2h (some conf.nsi) p) i.s2s f2 ∧
      (b = true ↔ Filters.Within conf.s1n (f1.count true) ∧ Filters.Within conf.s2n (f2.count true)) ∧
      (event c i).flag = some b ∧ (b = true ↔ Accepted c i f1 f2) ∧ (b = false ↔ Rejected c i) := by
  obtain ⟨⟨b, f1, f2⟩, h, h1, h2, h3⟩ := Filters.pmap_filter conf c.selector hs i.s1s i.s2s (fun p hp => built_of (hi.s1s p hp)) (fun p hp => built_of (hi.s2s p hp))
  refine ⟨f1, f2, b, h1, h2, h3, ?_, ?_, ?_⟩
  · unfold event
    rw [h]
    cases b with
    | false => rfl
    | true =>
      dsimp only
      rw [if_neg (by simp)]
      split
      · rfl
      · split <;> rfl
  · unfold Accepted
    rw [h]
    constructor
    · rintro rfl; rfl
    · intro h; cases h; rfl
  · constructor
    · rintro rfl; exact ⟨f1, f2, h⟩
    · rintro ⟨g1, g2, hg⟩
      rw [h] at hg; cases hg; rfl

/-- **C127**: an event is processed if and only if it is rejected or it has selected S2s, all of them located; it is then written as it should. -/
theorem event_processed {c : Cfg} {conf : Filters.SelectorConf} (hs : Filters.Selector.mk? conf = .ok c.selector) (hc : GivesCharges c)
    (hns : ∀ xys qs cs, c.kr.reco xys qs = .ok cs → ∀ k ∈ cs, 0 ≤ k.nsipm ∧ k.nsipm ≤ 65535) {i : Chain.Input} (hi : Good i) :
    ((event c i).exc = none ↔ Processable c i) ∧ (Processable c i → ∃ w, IsWritten c i w ∧ (event c i).rows = w.getD [] ∧ (event c i).info = w.isSome) := by
  rcases decided hs hi with hr | ⟨f1, f2, ha⟩
  · rw [rejected_out hr]
    exact ⟨⟨fun _ => Or.inl hr, fun _ => rfl⟩, fun _ => ⟨none, Or.inl ⟨rfl, hr⟩, rfl, rfl⟩⟩
  · by_cases hl : KrEvent.selected f2 i.s2s ≠ [] ∧ ∀ p ∈ KrEvent.selected f2 i.s2s, Located c p
    · obtain ⟨rows, h1, h2⟩ := located_ok hc hi ha hl.1 hl.2
      rw [h1]
      exact ⟨⟨fun _ => Or.inr ⟨f1, f2, ha, hl⟩, fun _ => rfl⟩, fun _ => ⟨some rows, Or.inr ⟨f1, f2, rows, rfl, ha, h2⟩, rfl, rfl⟩⟩
    · have hnp : ¬ Processable c i := by
        rintro (h | ⟨g1, g2, h, h'⟩)
        · exact rejected_not ha h
        · have : Filters.pmapFilter c.selector i.s1s i.s2s = .ok ⟨true, g1, g2⟩ := h
          rw [show Filters.pmapFilter c.selector i.s1s i.s2s = .ok ⟨true, f1, f2⟩ from ha] at this
          cases this
          exact hl h'
      obtain ⟨rows, e, h1, _⟩ := not_located hi hns ha hl
      rw [h1]
      exact ⟨⟨fun h => (by cases h), fun h => absurd h hnp⟩, fun h => absurd h hnp⟩

/-- **C127 (finding)**: an accepted event with no selected S2, with an S2 without SiPMs or with one that is not located ends the run; its flag is already in the filter. -/
theorem event_fails {c : Cfg} (hns : ∀ xys qs cs, c.kr.reco xys qs = .ok cs → ∀ k ∈ cs, 0 ≤ k.nsipm ∧ k.nsipm ≤ 65535) {i : Chain.Input} (hi : Good i) {f1 f2 : List Bool} (ha : Accepted c i f1 f2)
    (h : KrEvent.selected f2 i.s2s = [] ∨ ∃ p ∈ KrEvent.selected f2 i.s2s, p.sipms = Responses.empty ∨ KrEvent.IsReco c.kr p none) :
    ∃ e, (event c i).exc = some e ∧ (event c i).flag = some true ∧ (event c i).info = false := by
  have hl : ¬ (KrEvent.selected f2 i.s2s ≠ [] ∧ ∀ p ∈ KrEvent.selected f2 i.s2s, Located c p) := by
    rintro ⟨h1, h2⟩
    rcases h with h | ⟨p, hp, h | h⟩
    · exact h1 h
    · obtain ⟨k, hk, _⟩ := h2 p hp
      cases hk with
      | found a1 _ _ =>
        rw [KrEvent.positions, if_pos h] at a1
        cases a1
    · obtain ⟨k, hk, _⟩ := h2 p hp
      have := Sophronia.reco_unique h hk
      cases this
  obtain ⟨rows, e, h1, _⟩ := not_located hi hns ha hl
  rw [h1]
  exact ⟨e, rfl, rfl, rfl⟩

/-- The run up to the first event that fails. -/
theorem run_split (c : Cfg) (run : Int) : ∀ ins : List Chain.Input,
    ∃ done rest, ins = done ++ rest ∧ (∀ i ∈ done, (event c i).exc = none) ∧
      ((rest = [] ∧ dorotheaRun c run ins = ⟨done.flatMap (fun i => ((event c i).flag.map fun b => (i.event, b)).toList), done.flatMap (fun i => (event c i).rows),
          done.flatMap (fun i => if (event c i).info then [(i.event, i.ts)] else []), done.flatMap (fun i => if (event c i).info then [run] else []), none⟩) ∨
        ∃ i tl e, rest = i :: tl ∧ (event c i).exc = some e ∧ dorotheaRun c run ins =
          ⟨done.flatMap (fun i => ((event c i).flag.map fun b => (i.event, b)).toList) ++ ((event c i).flag.map fun b => (i.event, b)).toList, done.flatMap (fun i => (event c i).rows) ++ (event c i).rows,
            done.flatMap (fun i => if (event c i).info then [(i.event, i.ts)] else []) ++ (if (event c i).info then [(i.event, i.ts)] else []),
            done.flatMap (fun i => if (event c i).info then [run] else []) ++ (if (event c i).info then [run] else []), some e⟩)
  | [] => ⟨[], [], rfl, fun _ h => (by cases h), Or.inl ⟨rfl, rfl⟩⟩
  | i :: ins => by
    cases he : (event c i).exc with
    | some e =>
      refine ⟨[], i :: ins, rfl, fun _ h => (by cases h), Or.inr ⟨i, ins, e, rfl, he, ?_⟩⟩
      rw [dorotheaRun]
      simp only [he, List.flatMap_nil, List.nil_append]
    | none =>
      obtain ⟨done, rest, h1, h2, h3⟩ := run_split c run ins
      refine ⟨i :: done, rest, by rw [h1]; rfl, ?_, ?_⟩
      · intro x hx
        rcases List.mem_cons.1 hx with rfl | hx
        · exact he
        · exact h2 x hx
      · rcases h3 with ⟨r, h3⟩ | ⟨j, tl, e, r, hj, h3⟩
        · refine Or.inl ⟨r, ?_⟩
          rw [dorotheaRun]
          simp only [he, h3, List.flatMap_cons]
        · refine Or.inr ⟨j, tl, e, r, hj, ?_⟩
          rw [dorotheaRun]
          simp only [he, h3, List.flatMap_cons, List.append_assoc]

/-- **C127**: a run.  The events are processed in order up to the first one that cannot be processed, if any.  For those before it the filter has a row with their number and flag, the kdst the rows of the
accepted ones, one event after the other, and `Run/events` the numbers and times of the accepted ones.  The event that stops the run has its flag in the filter and maybe some of its rows in
the kdst, but it is not in `Run/events`. -/
theorem dorothea_run {c : Cfg} {conf : Filters.SelectorConf} (hs : Filters.Selector.mk? conf = .ok c.selector) (hc : GivesCharges c)
    (hns : ∀ xys qs cs, c.kr.reco xys qs = .ok cs → ∀ k ∈ cs, 0 ≤ k.nsipm ∧ k.nsipm ≤ 65535) (run : Int) {ins : List Chain.Input} (hi : ∀ i ∈ ins, Good i) :
    ∃ done rest ws extra more, ins = done ++ rest ∧ List.Forall₂ (IsWritten c) done ws ∧
      (dorotheaRun c run ins).flags = (done.zip ws).map (fun x => (x.1.event, x.2.isSome)) ++ extra ∧
      (dorotheaRun c run ins).kdst = ws.flatMap (fun w => w.getD []) ++ more ∧
      (dorotheaRun c run ins).events = ((done.zip ws).filter fun x => x.2.isSome).map (fun x => (x.1.event, x.1.ts)) ∧
      (dorotheaRun c run ins).runs = ((done.zip ws).filter fun x => x.2.isSome).map (fun _ => run) ∧
      ((dorotheaRun c run ins).exc = none → rest = [] ∧ extra = [] ∧ more = []) ∧
      ∀ e, (dorotheaRun c run ins).exc = some e → ∃ i tl, rest = i :: tl ∧ ¬ Processable c i ∧ extra = [(i.event, true)] ∧ ∀ r ∈ more, r.event = i.event := by
  obtain ⟨done, rest, h1, h2, h3⟩ := run_split c run ins
  have hd : ∀ i ∈ done, Good i := fun i hm => hi i (by rw [h1]; exact List.mem_append_left _ hm)
  have key : ∀ l : List Chain.Input, (∀ i ∈ l, Good i) → (∀ i ∈ l, (event c i).exc = none) → ∃ ws, List.Forall₂ (IsWritten c) l ws ∧
      l.flatMap (fun i => ((event c i).flag.map fun b => (i.event, b)).toList) = (l.zip ws).map (fun x => (x.1.event, x.2.isSome)) ∧
      l.flatMap (fun i => (event c i).rows) = ws.flatMap (fun w => w.getD []) ∧
      l.flatMap (fun i => if (event c i).info then [(i.event, i.ts)] else []) = ((l.zip ws).filter fun x => x.2.isSome).map (fun x => (x.1.event, x.1.ts)) ∧
      l.flatMap (fun i => if (event c i).info then [run] else []) = ((l.zip ws).filter fun x => x.2.isSome).map (fun _ => run) := by
    intro l
    induction l with
    | nil => intro _ _; exact ⟨[], .nil, rfl, rfl, rfl, rfl⟩
    | cons i l ih =>
      intro hg he
      obtain ⟨ws, i1, i2, i3, i4, i5⟩ := ih (fun x hx => hg x (List.mem_cons_of_mem _ hx)) (fun x hx => he x (List.mem_cons_of_mem _ hx))
      obtain ⟨p1, p2⟩ := event_processed hs hc hns (hg i List.mem_cons_self)
      obtain ⟨w, w1, w2, w3⟩ := p2 (p1.1 (he i List.mem_cons_self))
      have hf : (event c i).flag = some w.isSome := by
        obtain ⟨f1, f2, b, _, _, _, q4, q5, q6⟩ := event_flag hs (hg i List.mem_cons_self)
        rw [q4]
        rcases w1 with ⟨rfl, hr⟩ | ⟨g1, g2, rows, rfl, ha, _⟩
        · rw [q6.2 hr]; rfl
        · cases b with
          | true => rfl
          | false => exact absurd (q6.1 rfl) (rejected_not ha)
      refine ⟨w :: ws, .cons w1 i1, ?_, ?_, ?_, ?_⟩
      · rw [List.flatMap_cons, hf, i2]; rfl
      · rw [List.flatMap_cons, i3, w2]; rfl
      · rw [List.flatMap_cons, i4, w3]
        cases w <;> rfl
      · rw [List.flatMap_cons, i5, w3]
        cases w <;> rfl
  obtain ⟨ws, k1, k2, k3, k4, k5⟩ := key done hd h2
  rcases h3 with ⟨hr, h3⟩ | ⟨i, tl, e, hr, hei, h3⟩
  · refine ⟨done, rest, ws, [], [], h1, k1, ?_⟩
    rw [h3]
    exact ⟨by rw [List.append_nil]; exact k2, by rw [List.append_nil]; exact k3, k4, k5, fun _ => ⟨hr, rfl, rfl⟩, fun e h => by cases h⟩
  · have hgi : Good i := hi i (by rw [h1, hr]; simp)
    obtain ⟨p1, _⟩ := event_processed hs hc hns hgi
    have hnp : ¬ Processable c i := by
      intro h
      rw [p1.2 h] at hei
      cases hei
    rcases decided hs hgi with hrej | ⟨f1, f2, ha⟩
    · exact absurd (Or.inl hrej) hnp
    · obtain ⟨rows, e', q1, q2⟩ := not_located hgi hns ha (fun h => hnp (Or.inr ⟨f1, f2, ha, h⟩))
      refine ⟨done, rest, ws, [(i.event, true)], rows, h1, k1, ?_⟩
      rw [h3, q1]
      refine ⟨by rw [← k2]; rfl, by rw [← k3], by simpa using k4, by simpa using k5, fun h => (by cases h), fun e'' h => ?_⟩
      exact ⟨i, tl, hr, hnp, rfl, q2⟩

/-! ### From the waveforms to the kdst -/

theorem selected_rel {α : Type} {R : α → Peak → Prop} {xs : List α} {ps : List Peak} (h : List.Forall₂ R xs ps) (f : List Bool) : List.Forall₂ R (IreneRun.flagged f xs) (KrEvent.selected f ps) := by
  unfold IreneRun.flagged KrEvent.selected
  induction h generalizing f with
  | nil => simp
  | cons h1 _ ih =>
    cases f with
    | nil => simp
    | cons b f =>
      rw [List.zip_cons_cons, List.zip_cons_cons, List.filter_cons, List.filter_cons]
      cases b with
      | true => simp only [if_true, List.map_cons]; exact .cons h1 (ih f)
      | false => simpa using ih f

/-- A row of the kdst belongs to a selected S2. -/
theorem row_peak {c : Cfg} {i : Chain.Input} {f1 f2 : List Bool} {rows : List KrEvent.Row} (h : IsKdst c i f1 f2 rows) {r : KrEvent.Row} (hr : r ∈ rows) :
    ∃ p2, (KrEvent.selected f2 i.s2s)[r.s2Peak]? = some p2 ∧ ∃ k, KrEvent.S2Values c.kr p2 (some k) r.s2 r.nsipm := by
  obtain ⟨n, hn⟩ := List.mem_iff_getElem?.1 hr
  have hlt : n < rows.length := (List.getElem?_eq_some_iff.1 hn).1
  rw [h.number] at hlt
  by_cases h0 : KrEvent.selected f1 i.s1s = []
  · rw [h0] at hlt
    have hlt : n < (KrEvent.selected f2 i.s2s).length := by simpa using hlt
    obtain ⟨r', k, e1, _, _, e4, _, _, _, _, e9⟩ := h.noS1 n _ (List.getElem?_eq_getElem hlt) h0
    rw [hn] at e1
    cases e1
    rw [e4]
    exact ⟨_, List.getElem?_eq_getElem hlt, k, e9⟩
  · have hpos : 0 < (KrEvent.selected f1 i.s1s).length := List.length_pos_iff.2 h0
    rw [Nat.max_eq_left hpos] at hlt
    have hm : 0 < (KrEvent.selected f2 i.s2s).length := by
      rcases Nat.eq_zero_or_pos (KrEvent.selected f2 i.s2s).length with hz | hz
      · rw [hz] at hlt; simp at hlt
      · exact hz
    have hj : n % (KrEvent.selected f2 i.s2s).length < (KrEvent.selected f2 i.s2s).length := Nat.mod_lt _ hm
    have hi : n / (KrEvent.selected f2 i.s2s).length < (KrEvent.selected f1 i.s1s).length := Nat.div_lt_of_lt_mul (by rw [Nat.mul_comm]; exact hlt)
    obtain ⟨r', k, e1, _, _, e4, _, _, e7, _⟩ := h.pair _ _ (List.getElem?_eq_getElem hj) _ _ (List.getElem?_eq_getElem hi)
    rw [Nat.div_add_mod', hn] at e1
    cases e1
    rw [e4]
    exact ⟨_, List.getElem?_eq_getElem hj, k, e7⟩

theorem total_pmt {p : Peak} (h : ValidPeak p) : Sophronia.pmtEnergy p ≤ p.totalEnergy ∧ ((∀ x ∈ p.pmts.wfs.sumSensors, 0 ≤ x) → p.totalEnergy = Sophronia.pmtEnergy p) := by
  have e1 : p.pmts.wfs.sumSensors.sum = Sophronia.pmtEnergy p := by
    rw [Mat.sum_sumSensors _ h.pmtWF]; rfl
  obtain ⟨e2, _⟩ := total_energy_height p (built_of h)
  rw [← e1, e2]
  generalize p.pmts.wfs.sumSensors = xs
  clear e1 e2 h
  induction xs with
  | nil => simp
  | cons x xs ih =>
    rw [List.filter_cons]
    by_cases hx : 0 < x
    · rw [if_pos (by simpa using hx), List.sum_cons, List.sum_cons]
      exact ⟨by linarith [ih.1], fun h => by rw [ih.2 fun y hy => h y (List.mem_cons_of_mem _ hy)]⟩
    · rw [if_neg (by simpa using hx), List.sum_cons]
      refine ⟨by linarith [ih.1, not_lt.1 hx], fun h => ?_⟩
      have : x = 0 := le_antisymm (not_lt.1 hx) (h x List.mem_cons_self)
      rw [ih.2 fun y hy => h y (List.mem_cons_of_mem _ hy), this, zero_add]

/-- **C127**: from the waveforms to the kdst.  The events of irene are as dorothea needs them, and the energy of a row of the kdst is that of the selected S2 with its number: at least the charge of the calibrated waveforms of
the PMTs in the piece of the S2, and exactly that charge if the sum of the PMTs is not negative in any sample of the peak. -/
theorem irene_for_dorothea {c : IreneRun.Irene} (hc : IreneRun.Sound c) {r : IreneRun.IreneRaw} (hr : IreneRun.Sized c r) {s1s s2s : List Peak} (h : c.pmap r.pmt r.sipm = .ok (some (s1s, s2s)))
    (few : s1s.length ≤ 65535 ∧ s2s.length ≤ 65535) :
    Good ⟨r.event, r.ts, s1s, s2s.map PMapsIO.normalSipms⟩ ∧
    ∃ ys pieces, List.Forall₂ (PmapBuild.PmtWf c.tan c.nBaseline) (PmapBuild.activePmts c.pmts r.pmt) ys ∧ IsGrouping (IreneRun.s2Samples c ys) c.conf.s2.stride pieces ∧
      ∀ dc f1 f2 rows, IsKdst dc ⟨r.event, r.ts, s1s, s2s.map PMapsIO.normalSipms⟩ f1 f2 rows → ∀ x ∈ rows, ∃ piece p e,
        (IreneRun.flagged f2 (pieces.filter (inWindow c.conf.s2.time.min c.conf.s2.time.max c.conf.s2.length.min c.conf.s2.length.max c.conf.w)))[x.s2Peak]? = some piece ∧
        (KrEvent.selected f2 s2s)[x.s2Peak]? = some p ∧ x.s2 .e = some e ∧ IreneRun.pieceCharge ys piece ≤ e ∧
        ((∀ y ∈ p.pmts.wfs.sumSensors, 0 ≤ y) → e = IreneRun.pieceCharge ys piece) := by
  obtain ⟨p, h1, h2, h3⟩ := IreneRun.irene_event hc hr
  rw [h] at h1
  cases h1
  obtain ⟨g, ge⟩ := h3 _ _ rfl
  have hgood : Good ⟨r.event, r.ts, s1s, s2s.map PMapsIO.normalSipms⟩ := by
    refine ⟨fun p hp => ?_, fun p hp => ?_, by simpa using few⟩
    · have gp := g.s1s p hp
      exact ⟨gp.not_empty, gp.widths, fun r hr => (gp.pmts.lengths r hr).trans gp.pmts.cols.symm, gp.pmts.cols, gp.pmts.one_each, Or.inl (ge p hp)⟩
    · obtain ⟨q, hq, rfl⟩ := List.mem_map.1 hp
      exact IreneRun.normal_valid (g.s2s q hq).1 (g.s2s q hq).2
  refine ⟨hgood, ?_⟩
  obtain ⟨ys, hy, _, hf⟩ := h2
  obtain ⟨_, pieces, k1, k2⟩ := hf _ _ rfl
  refine ⟨ys, pieces, hy, k1, fun dc f1 f2 rows hk x hx => ?_⟩
  have hrel : List.Forall₂ (fun piece (p : Peak) => Sophronia.pmtEnergy p = IreneRun.pieceCharge ys piece) (pieces.filter (inWindow c.conf.s2.time.min c.conf.s2.time.max c.conf.s2.length.min c.conf.s2.length.max c.conf.w)) s2s := by
    refine k2.imp ?_
    rintro piece peak ⟨⟨first, last, e1, e2, _, e4, _⟩, _⟩
    unfold Sophronia.pmtEnergy IreneRun.pieceCharge
    rw [e4, e1, e2, List.map_map]
    rfl
  have hsel := selected_rel hrel f2
  obtain ⟨p2, hp2, k, _, _, he, _⟩ := row_peak hk hx
  have hmap : KrEvent.selected f2 (s2s.map PMapsIO.normalSipms) = (KrEvent.selected f2 s2s).map PMapsIO.normalSipms := by
    unfold KrEvent.selected
    rw [List.zip_map_right, List.filter_map, List.map_map, List.map_map]
    rfl
  rw [hmap, List.getElem?_map] at hp2
  obtain ⟨q, hq, hqp⟩ := Option.map_eq_some_iff.1 hp2
  obtain ⟨piece, hpc, hpe⟩ : ∃ piece, (IreneRun.flagged f2 (pieces.filter (inWindow c.conf.s2.time.min c.conf.s2.time.max c.conf.s2.length.min c.conf.s2.length.max c.conf.w)))[x.s2Peak]? = some piece ∧
      Sophronia.pmtEnergy q = IreneRun.pieceCharge ys piece := by
    obtain ⟨piece, e1, e2⟩ := KrEvent.forall₂_get hsel.flip hq
    exact ⟨piece, e1, e2⟩
  have hv := total_pmt (hgood.s2s _ (List.mem_map_of_mem (selected_mem (List.mem_iff_getElem?.2 ⟨_, hq⟩))))
  rw [hqp] at hv
  have ep : Sophronia.pmtEnergy p2 = Sophronia.pmtEnergy q := by rw [← hqp]; rfl
  have es : p2.pmts = q.pmts := by rw [← hqp]; rfl
  rw [ep, hpe, es] at hv
  exact ⟨piece, q, _, hpc, hq, he, hv.1, hv.2⟩

/-! ### A concrete case -/

/-- Any peak is selected; events need one S2 at least, if `lo` is 1. -/
def caseSel (lo : ℚ) : Filters.SelectorConf := ⟨(0, 10), (0, 1000000), (0, 1000000), (0, 1000000), 0, (lo, 10), (0, 1000000), (0, 1000000), (0, 1000000), (0, 10), 0⟩
def caseCfg (lo : ℚ) : Cfg := ⟨Sophronia.exSel lo 1000000, ⟨1, [(1 / 2, 1 / 2), (3 / 2, 1 / 2), (9, 9)], HitBuilder.rawPoint, Sophronia.exReco, fun _ => 1⟩⟩
def caseInputs : List Chain.Input := [⟨7, 3000, IreneRun.casePeaks.1, IreneRun.casePeaks.2.map PMapsIO.normalSipms⟩, ⟨8, 4000, IreneRun.casePeaks.1, []⟩, ⟨9, 5000, [], IreneRun.casePeaks.2⟩]

example : (Filters.Selector.mk? (caseSel 1)).toOption.isSome = true := by decide +kernel
theorem case_charges (lo : ℚ) : GivesCharges (caseCfg lo) := by
  intro p qs hp hne h
  cases h
  obtain ⟨_, _, s3, s4⟩ := hp.sipm.resolve_left hne
  rw [Responses.sumOverTimes, Mat.sumTimes, Ne, List.map_eq_nil_iff]
  intro h0
  rw [h0] at s3
  exact s4 (List.length_eq_zero_iff.1 s3)
example (lo : ℚ) : ∀ xys qs cs, (caseCfg lo).kr.reco xys qs = .ok cs → ∀ k ∈ cs, 0 ≤ k.nsipm ∧ k.nsipm ≤ 65535 := by
  intro xys qs cs h k hk
  cases xys with
  | nil => cases h
  | cons x xs =>
    cases h
    cases List.mem_singleton.1 hk
    exact ⟨by norm_num, by norm_num⟩
theorem case_good : ∀ i ∈ caseInputs, Good i := by
  have h := (irene_for_dorothea IreneRun.case_sound (IreneRun.case_sized IreneRun.casePulse (by simp [IreneRun.caseRaws])) IreneRun.case_pulse (by decide)).1
  intro i hi
  simp only [caseInputs, List.mem_cons, List.not_mem_nil, or_false] at hi
  rcases hi with rfl | rfl | rfl
  · exact h
  · exact ⟨h.s1s, (fun p hp => by cases hp), (by decide)⟩
  · exact ⟨(fun p hp => by cases hp), (fun p hp => h.s2s p hp), (by decide)⟩
/-- The second event is rejected if an S2 is needed, and stops the run otherwise. -/
example : (dorotheaRun (caseCfg 1) 3 caseInputs).flags = [(7, true), (8, false), (9, true)] := by decide +kernel
example : (dorotheaRun (caseCfg 1) 3 caseInputs).events = [(7, 3000), (9, 5000)] ∧ (dorotheaRun (caseCfg 1) 3 caseInputs).exc = none := by decide +kernel
example : (dorotheaRun (caseCfg 1) 3 caseInputs).kdst.map (fun r => (r.event, r.s1Peak, r.s2Peak, r.s2 .e, r.s2 .x)) =
    [(7, 0, 0, some (180654609 / 2060602), some (1 / 2)), (9, 65535, 0, some (180654609 / 2060602), some (1 / 2))] := by decide +kernel
example : (dorotheaRun (caseCfg 0) 3 caseInputs).flags = [(7, true), (8, true)] := by decide +kernel
example : (dorotheaRun (caseCfg 0) 3 caseInputs).events = [(7, 3000)] ∧ (dorotheaRun (caseCfg 0) 3 caseInputs).exc = some .typeError := by decide +kernel

end Verif.Dorothea
