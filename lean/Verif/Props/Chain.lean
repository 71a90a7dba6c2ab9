import Verif.Spec.Chain
import Verif.Props.Sophronia
import Verif.Props.Beersheba
import Verif.Props.Sources
/-!
# The files between sophronia and the next city (property C125)
-/
namespace Verif.Chain
open Verif.Sophronia (OutHit Written Accepted sophroniaEvent)
open Verif.PMaps (Peak ValidPeak)

/-! ### What is written for an event -/

theorem bindE {α β : Type} {x : Except PyErr α} {f : α → Except PyErr β} {b : β} : (x >>= f) = .ok b ↔ ∃ a, x = .ok a ∧ f a = .ok b := by
  cases x <;> simp [bind, Except.bind]

theorem makeRow_event {ev : KrEvent.KrEvent} {i j : Nat} {r : KrEvent.Row} (h : KrEvent.makeRow ev i j = .ok r) : r.event = ev.event := by
  unfold KrEvent.makeRow at h
  simp only [bindE] at h
  obtain ⟨_, _, _, _, _, _, _, _, _, _, _, _, _, _, _, _, _, _, _, _, _, _, _, _, _, _, _, _, _, _, _, _, _, _, _, _, _, _, _, _, _, _, _, _, _, _, _, _, _, _, h⟩ := h
  cases h
  rfl

theorem storePairs_event {ev : KrEvent.KrEvent} : ∀ (ps : List (Nat × Nat)) {rows : List KrEvent.Row}, KrEvent.storePairs ev ps = (rows, none) → rows.length = ps.length ∧ ∀ r ∈ rows, r.event = ev.event
  | [], rows, h => by cases h; exact ⟨rfl, fun _ h => by cases h⟩
  | (i, j) :: ps, rows, h => by
    rw [KrEvent.storePairs] at h
    cases hm : KrEvent.makeRow ev i j with
    | error e => rw [hm] at h; cases h
    | ok r =>
      rw [hm] at h
      dsimp only at h
      obtain ⟨h1, h2⟩ := Prod.mk.inj h
      have ih := storePairs_event ps (rows := (KrEvent.storePairs ev ps).1) (by rw [← h2])
      subst h1
      refine ⟨by simp [ih.1], fun x hx => ?_⟩
      rcases List.mem_cons.1 hx with rfl | hx
      · exact makeRow_event hm
      · exact ih.2 x hx

theorem kdst_event {c : Sophronia.Cfg} {f1 f2 : List Bool} {s1s s2s : List Peak} {ev : Int} {ts : ℚ} {rows : List KrEvent.Row} (h : Sophronia.kdstBranch c f1 f2 s1s s2s ev ts = .ok rows) :
    rows ≠ [] ∧ ∀ r ∈ rows, r.event = ev := by
  obtain ⟨kr, h1, h2⟩ := Sophronia.kdst_ok h
  obtain ⟨e, _⟩ := KrEvent.build_spec h1
  rw [KrEvent.store] at h2
  obtain ⟨l1, l2⟩ := storePairs_event _ h2
  refine ⟨?_, fun r hr => (l2 r hr).trans e⟩
  intro h0
  rw [h0] at l1
  have : (KrEvent.pairs kr).length = max kr.nS1 1 * max kr.nS2 1 := KrEvent.length_pairs _ _
  rw [this] at l1
  have : 0 < max kr.nS1 1 * max kr.nS2 1 := Nat.mul_pos (by omega) (by omega)
  simp at l1

/-- What is written for an event, as far as the files are concerned. -/
structure Facts (i : Input) (w : Written) : Prop where
  rejected : w.passed = false → w.hits = [] ∧ w.kdst = []
  kdst : w.passed = true → w.kdst ≠ []
  hitEvents : ∀ o ∈ w.hits, o.event = i.event
  kdstEvents : ∀ r ∈ w.kdst, r.event = i.event
  valid : w.validHits = some true ↔ w.hits ≠ []

theorem event_facts {c : Sophronia.Cfg} (hb : HitBuilder.Sized c.builder) {i : Input} (hi : Good i) {w : Written} (h : sophroniaEvent c i.s1s i.s2s i.event i.ts = .ok w) : Facts i w := by
  cases hs : Filters.pmapFilter c.selector i.s1s i.s2s with
  | error e => rw [sophroniaEvent, hs] at h; cases h
  | ok sel =>
    obtain ⟨p, f1, f2⟩ := sel
    cases p with
    | false =>
      rw [Sophronia.event_rejected hs] at h
      cases h
      exact ⟨fun _ => ⟨rfl, rfl⟩, fun h => (by cases h), fun _ h => (by cases h), fun _ h => (by cases h), ⟨fun h => (by cases h), fun h => absurd rfl h⟩⟩
    | true =>
      have ha : Accepted c i.s1s i.s2s f1 f2 := hs
      have hv : ∀ x ∈ HitBuilder.selectedS2s f2 i.s2s, ValidPeak x.1 := by
        intro x hx
        obtain ⟨y, hy, rfl⟩ := List.mem_map.1 hx
        have := List.fst_mem_of_mem_zipIdx (List.mem_filter.1 hy).1
        exact hi.peaks _ (List.of_mem_zip (a := y.1.1) (b := y.1.2) this).2
      obtain ⟨_, hk, _⟩ := Sophronia.event_ok ha h
      obtain ⟨k1, k2⟩ := kdst_event hk
      obtain ⟨rows, _, hf, hp, hval, hh⟩ := Sophronia.event_stages hb ha hv hi.number h
      obtain ⟨_, rows', hf', _, hsame, _⟩ := Sophronia.event_hits hb ha hv hi.number h
      refine ⟨fun h => (by rw [hp] at h; cases h), fun _ => k1, ?_, k2, ?_⟩
      · intro o ho
        obtain ⟨r, hr, hro⟩ := KrEvent.forall₂_mem_right hsame ho
        rw [hro.1]
        exact Sophronia.found_event hf' r (List.mem_filter.1 hr).1
      · rw [hval]
        rcases hh with ⟨h1, h2⟩ | ⟨h1, mid, _, h3, h4, h5, _⟩
        · simp [h1, h2]
        · have := (Sophronia.cluster_keep h5 h4 h3).length_eq
          simp only [h1, ne_eq, not_false_eq_true, decide_true, true_iff]
          intro h0
          rw [h0] at this
          exact h4 (List.length_eq_zero_iff.1 this)

/-! ### The tables -/

theorem run_facts {c : Sophronia.Cfg} (hb : HitBuilder.Sized c.builder) {ins : List Input} (hi : ∀ i ∈ ins, Good i) {ws : List Written} (h : sophroniaRun c ins = .ok ws) :
    ins.length = ws.length ∧ ∀ x ∈ ins.zip ws, Facts x.1 x.2 := by
  have hf : List.Forall₂ (fun (i : Input) w => sophroniaEvent c i.s1s i.s2s i.event i.ts = .ok w) ins ws := mapM_ok_iff.1 h
  refine ⟨hf.length_eq, ?_⟩
  clear h
  induction hf with
  | nil => intro x hx; cases hx
  | @cons i w ins ws h1 _ ih =>
    intro x hx
    rw [List.zip_cons_cons] at hx
    rcases List.mem_cons.1 hx with rfl | hx
    · exact event_facts hb (hi i List.mem_cons_self) h1
    · exact ih (fun j hj => hi j (List.mem_cons_of_mem _ hj)) x hx

/-- The rows of all the events are those of the accepted ones. -/
theorem flatMap_accepted {β : Type} (f : Written → List β) {ins : List Input} {ws : List Written} (hl : ins.length = ws.length) (hf : ∀ x ∈ ins.zip ws, x.2.passed = false → f x.2 = []) :
    ws.flatMap f = (accepted ins ws).flatMap fun x => f x.2 := by
  unfold accepted
  induction ins generalizing ws with
  | nil =>
    cases ws with
    | nil => rfl
    | cons w ws => cases hl
  | cons i ins ih =>
    cases ws with
    | nil => cases hl
    | cons w ws =>
      rw [List.zip_cons_cons] at hf ⊢
      have := ih (ws := ws) (by simpa using hl) fun x hx => hf x (List.mem_cons_of_mem _ hx)
      rw [List.flatMap_cons, this]
      cases hp : w.passed with
      | false => rw [hf (i, w) List.mem_cons_self hp, List.filter_cons_of_neg (by simp [hp])]; rfl
      | true => rw [List.filter_cons_of_pos (by simp [hp]), List.flatMap_cons]

/-- The rows of the table with the number of an event are those written for it. -/
theorem filter_event {β : Type} (f : Input × Written → List β) (ev : β → Int) : ∀ (A : List (Input × Written)), (A.map fun x => x.1.event).Nodup → (∀ x ∈ A, ∀ b ∈ f x, ev b = x.1.event) →
    ∀ x ∈ A, ((A.flatMap f).filter fun b => ev b == x.1.event) = f x
  | [], _, _, x, hx => by cases hx
  | y :: A, hn, he, x, hx => by
    rw [List.map_cons, List.nodup_cons] at hn
    rw [List.flatMap_cons, List.filter_append]
    rcases List.mem_cons.1 hx with rfl | hx
    · have h1 : (f x).filter (fun b => ev b == x.1.event) = f x := List.filter_eq_self.2 fun b hb => by simp [he x List.mem_cons_self b hb]
      have h2 : (A.flatMap f).filter (fun b => ev b == x.1.event) = [] := by
        rw [List.filter_eq_nil_iff]
        intro b hb
        obtain ⟨z, hz, hb⟩ := List.mem_flatMap.1 hb
        rw [he z (List.mem_cons_of_mem _ hz) b hb]
        intro h
        exact hn.1 (List.mem_map.2 ⟨z, hz, by simpa using h⟩)
      rw [h1, h2, List.append_nil]
    · have h1 : (f y).filter (fun b => ev b == x.1.event) = [] := by
        rw [List.filter_eq_nil_iff]
        intro b hb
        rw [he y List.mem_cons_self b hb]
        intro h
        exact hn.1 (List.mem_map.2 ⟨x, hx, by simpa using (beq_iff_eq.1 h).symm⟩)
      rw [h1, List.nil_append]
      exact filter_event f ev A hn.2 (fun z hz => he z (List.mem_cons_of_mem _ hz)) x hx

/-- The number of different events of the kdst is that of the accepted events exactly if these are different. -/
theorem unique_events {β : Type} (f : Input × Written → List β) (ev : β → Int) (A : List (Input × Written)) (hne : ∀ x ∈ A, f x ≠ []) (he : ∀ x ∈ A, ∀ b ∈ f x, ev b = x.1.event) :
    A.length = (PMapsIO.unique ((A.flatMap f).map ev)).length ↔ (A.map fun x => x.1.event).Nodup := by
  have hm : ∀ e, e ∈ PMapsIO.unique ((A.flatMap f).map ev) ↔ e ∈ (A.map fun x => x.1.event) := by
    intro e
    rw [PMapsIO.mem_unique, List.mem_map, List.mem_map]
    constructor
    · rintro ⟨b, hb, rfl⟩
      obtain ⟨x, hx, hb⟩ := List.mem_flatMap.1 hb
      exact ⟨x, hx, (he x hx b hb).symm⟩
    · rintro ⟨x, hx, rfl⟩
      obtain ⟨b, hb⟩ := List.exists_mem_of_ne_nil _ (hne x hx)
      exact ⟨b, List.mem_flatMap.2 ⟨x, hx, hb⟩, he x hx b hb⟩
  have hp : (PMapsIO.unique ((A.flatMap f).map ev)).Perm (A.map fun x => x.1.event).dedup := by
    refine (List.perm_ext_iff_of_nodup (PMapsIO.unique_nodup _) (List.nodup_dedup _)).2 fun e => ?_
    rw [hm, List.mem_dedup]
  rw [hp.length_eq]
  constructor
  · intro h
    rw [← List.dedup_eq_self]
    refine (List.dedup_sublist _).eq_of_length ?_
    rw [← h, List.length_map]
  · intro h
    rw [List.dedup_eq_self.2 h, List.length_map]

theorem some_valid {ins : List Input} {ws : List Written} (hl : ins.length = ws.length) (hf : ∀ x ∈ ins.zip ws, Facts x.1 x.2) :
    (ws.any fun w => w.validHits == some true) = true ↔ ∃ x ∈ accepted ins ws, x.2.hits ≠ [] := by
  rw [List.any_eq_true]
  constructor
  · rintro ⟨w, hw, h⟩
    have hw' : w ∈ (ins.zip ws).map Prod.snd := by rw [List.map_snd_zip (by omega)]; exact hw
    obtain ⟨x, hx, rfl⟩ := List.mem_map.1 hw'
    have hv := (hf x hx).valid.1 (beq_iff_eq.1 h)
    refine ⟨x, List.mem_filter.2 ⟨hx, ?_⟩, hv⟩
    cases hp : x.2.passed with
    | true => rfl
    | false => exact absurd ((hf x hx).rejected hp).1 hv
  · rintro ⟨x, hx, h⟩
    have hx := (List.mem_filter.1 hx).1
    exact ⟨x.2, (List.of_mem_zip (a := x.1) (b := x.2) hx).2, by rw [(hf x hx).valid.2 h]; rfl⟩

/-- What one file of sophronia gives to the next city. -/
theorem file_read {run : Int} {ins : List Input} {ws : List Written} (hl : ins.length = ws.length) (hf : ∀ x ∈ ins.zip ws, Facts x.1 x.2) :
    Sources.hitsFile OutHit.event KrEvent.Row.event (sophroniaFile run ins ws) =
      if ∃ x ∈ accepted ins ws, x.2.hits ≠ [] then
        if ((accepted ins ws).map fun x => x.1.event).Nodup then ⟨(accepted ins ws).map (item run), none⟩ else ⟨[], some Sources.invalidFile⟩
      else ⟨[], none⟩ := by
  have hA : ∀ x ∈ accepted ins ws, Facts x.1 x.2 ∧ x.2.passed = true := fun x hx => ⟨hf x (List.mem_filter.1 hx).1, (List.mem_filter.1 hx).2⟩
  have e1 := flatMap_accepted (fun w => w.hits) hl fun x hx h => ((hf x hx).rejected h).1
  have e2 := flatMap_accepted (fun w => w.kdst) hl fun x hx h => ((hf x hx).rejected h).2
  have e3 : eventRows ins ws = (accepted ins ws).map fun x => (x.1.event, x.1.ts) := rfl
  have hv := some_valid hl hf
  generalize hAA : accepted ins ws = A at hA e1 e2 e3 hv ⊢
  unfold sophroniaFile
  rw [e1, e2, e3]
  by_cases hx : ∃ x ∈ A, x.2.hits ≠ []
  · rw [if_pos (hv.2 hx), if_pos hx]
    obtain ⟨x0, hx0, _⟩ := hx
    cases A with
    | nil => cases hx0
    | cons y B =>
      generalize hBB : y :: B = A at *
      have hrep : List.replicate (A.map fun x => (x.1.event, x.1.ts)).length run = run :: List.replicate B.length run := by rw [← hBB]; simp [List.replicate_succ]
      unfold Sources.hitsFile
      rw [hrep]
      change Sources.hitsCheck OutHit.event KrEvent.Row.event (A.flatMap fun x => x.2.hits) (A.flatMap fun x => x.2.kdst) run (A.map fun x => (x.1.event, x.1.ts)) = _
      have hu := unique_events (fun x => x.2.kdst) KrEvent.Row.event A (fun x hx => (hA x hx).1.kdst (hA x hx).2) fun x hx => (hA x hx).1.kdstEvents
      rcases Sources.hitsCheck_cases OutHit.event KrEvent.Row.event (A.flatMap fun x => x.2.hits) (A.flatMap fun x => x.2.kdst) run (A.map fun x => (x.1.event, x.1.ts)) with ⟨h1, h2⟩ | ⟨h1, h2⟩
      · rw [List.length_map] at h1
        have hn := hu.1 h1
        rw [h2, if_pos hn, List.map_map]
        congr 1
        apply List.map_congr_left
        intro x hx
        have k1 := filter_event (fun x => x.2.hits) OutHit.event A hn (fun x hx => (hA x hx).1.hitEvents) x hx
        have k2 := filter_event (fun x => x.2.kdst) KrEvent.Row.event A hn (fun x hx => (hA x hx).1.kdstEvents) x hx
        simp only [Function.comp_apply, Sources.hitsItem, item]
        rw [k1, k2]
        congr 1
        rw [Bool.eq_iff_iff]
        simp
      · rw [List.length_map] at h1
        rw [h2, if_neg fun hn => h1 (hu.2 hn)]
  · rw [if_neg hx, if_neg fun h => hx (hv.1 h)]
    unfold Sources.hitsFile
    rfl

/-! ### C125 -/

/-- **C125**: the files of sophronia whose events have different numbers give to the next city, file after file, exactly the accepted events, once each and in order, with their hits, their rows of the kdst, their time and a warning if
they have no hits; a file without any hit gives nothing. -/
theorem read_back {c : Sophronia.Cfg} (hb : HitBuilder.Sized c.builder) (runs : List (Int × List Input × List Written)) (hi : ∀ r ∈ runs, ∀ i ∈ r.2.1, Good i)
    (h : ∀ r ∈ runs, sophroniaRun c r.2.1 = .ok r.2.2) (hd : ∀ r ∈ runs, ((accepted r.2.1 r.2.2).map fun x => x.1.event).Nodup) :
    (nextSource (runs.map fun r => sophroniaFile r.1 r.2.1 r.2.2)).exc = none ∧
    (nextSource (runs.map fun r => sophroniaFile r.1 r.2.1 r.2.2)).items =
      (runs.filter fun r => (accepted r.2.1 r.2.2).any fun x => decide (x.2.hits ≠ [])).flatMap fun r => (accepted r.2.1 r.2.2).map (item r.1) := by
  have hread : ∀ r ∈ runs, Sources.hitsFile OutHit.event KrEvent.Row.event (sophroniaFile r.1 r.2.1 r.2.2) =
      ⟨if (accepted r.2.1 r.2.2).any (fun x => decide (x.2.hits ≠ [])) then (accepted r.2.1 r.2.2).map (item r.1) else [], none⟩ := by
    intro r hr
    obtain ⟨h1, h2⟩ := run_facts hb (hi r hr) (h r hr)
    rw [file_read h1 h2, if_pos (hd r hr)]
    by_cases hx : ∃ x ∈ accepted r.2.1 r.2.2, x.2.hits ≠ []
    · rw [if_pos hx, if_pos (by simpa using hx)]
    · rw [if_neg hx, if_neg (by simpa using hx)]
  have hexc : ∀ f ∈ runs.map fun r => sophroniaFile r.1 r.2.1 r.2.2, (Sources.hitsFile OutHit.event KrEvent.Row.event f).exc = none := by
    intro f hf
    obtain ⟨r, hr, rfl⟩ := List.mem_map.1 hf
    rw [hread r hr]
  refine ⟨(Sources.fromFiles_none _ _).2 hexc, ?_⟩
  refine (Sources.fromFiles_items _ _ hexc).trans ?_
  clear hexc hi h hd
  induction runs with
  | nil => rfl
  | cons r runs ih =>
    have ih := ih fun r hr => hread r (List.mem_cons_of_mem _ hr)
    simp only [List.map_cons, List.flatMap_cons, List.flatten_cons] at ih ⊢
    rw [hread r List.mem_cons_self, ih]
    by_cases hx : (accepted r.2.1 r.2.2).any (fun x => decide (x.2.hits ≠ [])) = true
    · rw [if_pos hx, List.filter_cons_of_pos (p := fun r : Int × List Input × List Written => (accepted r.2.1 r.2.2).any fun x => decide (x.2.hits ≠ [])) hx, List.flatMap_cons]
    · rw [if_neg hx, List.filter_cons_of_neg (p := fun r : Int × List Input × List Written => (accepted r.2.1 r.2.2).any fun x => decide (x.2.hits ≠ [])) hx, List.nil_append]

/-- **C125 (finding)**: two accepted events with the same number (two input files, for example) make a file that the next city refuses, without processing any of its events. -/
theorem repeated_refused {c : Sophronia.Cfg} (hb : HitBuilder.Sized c.builder) {run : Int} {ins : List Input} (hi : ∀ i ∈ ins, Good i) {ws : List Written} (h : sophroniaRun c ins = .ok ws)
    (hx : ∃ x ∈ accepted ins ws, x.2.hits ≠ []) (hd : ¬ ((accepted ins ws).map fun x => x.1.event).Nodup) (files : List (Sources.HitsFile OutHit KrEvent.Row)) :
    nextSource (sophroniaFile run ins ws :: files) = ⟨[], some (.other "InvalidInputFileStructure")⟩ := by
  obtain ⟨h1, h2⟩ := run_facts hb hi h
  unfold nextSource Sources.hitsAndKdstFromFiles
  rw [Sources.fromFiles, file_read h1 h2, if_pos hx, if_neg hd]
  rfl

/-- The S2s of the event have light in all their slices. -/
def BrightInput (c : Sophronia.Cfg) (i : Input) : Prop := ∀ p ∈ i.s2s, Sophronia.Bright c.rebin p

theorem selected_mem {f2 : List Bool} {s2s : List Peak} {x : Peak × Nat} (hx : x ∈ HitBuilder.selectedS2s f2 s2s) : x.1 ∈ s2s := by
  obtain ⟨y, hy, rfl⟩ := List.mem_map.1 hx
  have := List.fst_mem_of_mem_zipIdx (List.mem_filter.1 hy).1
  exact (List.of_mem_zip (a := y.1.1) (b := y.1.2) this).2

theorem next_energies {c : Sophronia.Cfg} (hb : HitBuilder.Sized c.builder) (hq : 0 < c.qThr) {i : Input} (hi : Good i) (hl : BrightInput c i) {w : Written}
    (h : sophroniaEvent c i.s1s i.s2s i.event i.ts = .ok w) : (∀ k ∈ nextHits w.hits, 0 < k.e) ∧ ((nextHits w.hits).map fun k => k.e).sum = Sophronia.energy w.hits := by
  constructor
  · intro k hk
    obtain ⟨p, hp, rfl⟩ := List.mem_map.1 hk
    have hp := List.fst_mem_of_mem_zipIdx hp
    have hval := (event_facts hb hi h).valid.2 (List.ne_nil_of_mem hp)
    cases hs : Filters.pmapFilter c.selector i.s1s i.s2s with
    | error e => rw [sophroniaEvent, hs] at h; cases h
    | ok sel =>
      obtain ⟨b, f1, f2⟩ := sel
      cases b with
      | false =>
        rw [Sophronia.event_rejected hs] at h
        cases h
        cases hp
      | true =>
        obtain ⟨_, h2, _⟩ := Sophronia.event_energy hb hq (show Accepted c i.s1s i.s2s f1 f2 from hs) (fun x hx => hi.peaks _ (selected_mem hx)) hi.number (fun x hx => hl _ (selected_mem hx)) h hval
        obtain ⟨e, he, hpos⟩ := h2 _ hp
        show 0 < p.1.e.getD 0
        rw [he]; exact hpos
  · unfold nextHits Sophronia.energy
    rw [List.map_map]
    have : (fun k : Esmeralda.InHit => k.e) ∘ (fun p : OutHit × Nat => (⟨p.2, p.1.npeak, p.1.x, p.1.y, p.1.z, p.1.q, p.1.e.getD 0⟩ : Esmeralda.InHit)) = (fun o : OutHit => o.e.getD 0) ∘ Prod.fst := rfl
    rw [this, ← List.map_map, List.zipIdx_map_fst]

/-- **C125**: esmeralda processes every event that sophronia leaves, also those without hits. -/
theorem esmeralda_ends {c : Sophronia.Cfg} (hb : HitBuilder.Sized c.builder) (hq : 0 < c.qThr) {i : Input} (hi : Good i) (hl : BrightInput c i) {w : Written}
    (h : sophroniaEvent c i.s1s i.s2s i.event i.ts = .ok w) {e : Esmeralda.Cfg} (hm : Esmeralda.MapOk e) (ht : 0 < e.threshold) (hs : e.paolina.Ok) (hp : Paolina.GoodPaths e.paolina.paths)
    (hr : ∀ r, e.paolina.scanRadius = some r → 0 ≤ r) : ∃ out, Esmeralda.esmeraldaEvent e i.event (nextHits w.hits) = .ok out :=
  Esmeralda.event_ends i.event ⟨hm, ht, hs, hp, hr, fun k hk => ((next_energies hb hq hi hl h).1 k hk).le⟩

/-- **C125**: every hit that beersheba writes over its threshold is a SiPM found by sophronia in a selected S2 of the pmap, with its position, peak and charge. -/
theorem beersheba_sources {c : Sophronia.Cfg} (hb : HitBuilder.Sized c.builder) (hq : 0 < c.qThr) {i : Input} (hi : Good i) (hl : BrightInput c i) {f1 f2 : List Bool} (ha : Accepted c i.s1s i.s2s f1 f2) {w : Written}
    (h : sophroniaEvent c i.s1s i.s2s i.event i.ts = .ok w) {b : Beersheba.Cfg} (hc : Beersheba.Conditions b (nextHits w.hits)) {time : ℚ} {xy : Int → ℚ × ℚ} {out : Beersheba.Written}
    (ho : Beersheba.beershebaEvent b i.event time i.ts xy (nextHits w.hits) = .ok out) :
    ∃ rows, Sophronia.Found c f1 f2 i.s1s i.s2s i.event i.ts rows ∧ ∀ k ∈ out.lowTh, b.threshold ≤ k.q ∧ ∃ r ∈ rows, r.q ≠ -999999 ∧ r.npeak = k.npeak ∧ r.x = k.x ∧ r.y = k.y ∧ r.q = k.q := by
  obtain ⟨_, rows, hf, _, hsame, _⟩ := Sophronia.event_hits hb ha (fun x hx => hi.peaks _ (selected_mem hx)) hi.number h
  refine ⟨rows, hf, fun k hk => ?_⟩
  obtain ⟨hp, _⟩ := Beersheba.event_hits hc ho
  obtain ⟨a, ha, hak⟩ := List.mem_map.1 (hp.mem_iff.1 (List.mem_map_of_mem hk))
  obtain ⟨ha, hthr⟩ := List.mem_filter.1 ha
  obtain ⟨p, hpm, rfl⟩ := List.mem_map.1 ha
  obtain ⟨r, hr, hro⟩ := KrEvent.forall₂_mem_right hsame (List.fst_mem_of_mem_zipIdx hpm)
  obtain ⟨hr1, hr2⟩ := List.mem_filter.1 hr
  unfold Beersheba.inCols Beersheba.outCols at hak
  simp only [Prod.mk.injEq] at hak
  obtain ⟨_, k2, k3, k4, _, k6⟩ := hak
  obtain ⟨_, _, s3, _, _, s6, s7, s8, _⟩ := hro
  refine ⟨?_, r, hr1, of_decide_eq_true hr2, ?_, ?_, ?_, ?_⟩
  · rw [← k6]; exact of_decide_eq_true hthr
  · rw [← s3, k2]
  · rw [← s6, k3]
  · rw [← s7, k4]
  · rw [← s8, k6]

/-- **C125**: no energy is lost from the pmap to the deconvolved hits.  If sophronia and beersheba give the energy of the hits without charge, and of those under the threshold, to any other hit of the event, and every peak with hits is deconvolved, the energy of
the deconvolved hits is the energy of the selected S2s seen by the PMTs, up to the rounding to six decimals and the documented epsilons. -/
theorem deconvolved_energy {c : Sophronia.Cfg} (hb : HitBuilder.Sized c.builder) (hq : 0 < c.qThr) (hsp : c.samePeak = false) {i : Input} (hi : Good i) (hl : BrightInput c i) {f1 f2 : List Bool}
    (ha : Accepted c i.s1s i.s2s f1 f2) {w : Written} (h : sophroniaEvent c i.s1s i.s2s i.event i.ts = .ok w) {b : Beersheba.Cfg} (hc : Beersheba.Conditions b (nextHits w.hits)) (hbp : b.samePeak = false)
    (hcol : b.column = 0) (hthr : ∃ o ∈ w.hits, b.threshold ≤ o.q) {time : ℚ} {xy : Int → ℚ × ℚ} {out : Beersheba.Written}
    (ho : Beersheba.beershebaEvent b i.event time i.ts xy (nextHits w.hits) = .ok out) (hv : ∀ o ∈ out.deco, o.hit.e ≠ none) (hpk : ∀ a ∈ out.lowTh, ∃ o ∈ out.deco, o.hit.npeak = (a.npeak : Int)) :
    |decoEnergy out.deco - s2Energy f2 i.s2s| ≤ out.deco.length / 2000000 + 1 / 2 ^ 52 * (w.hits.length + Sophronia.energy w.hits / b.threshold) + s2Energy f2 i.s2s * (1 / 2 ^ 52 / c.qThr) := by
  obtain ⟨o0, ho0, hq0⟩ := hthr
  have hval := (event_facts hb hi h).valid.2 (List.ne_nil_of_mem ho0)
  obtain ⟨_, _, h1, _⟩ := Sophronia.event_energy hb hq ha (fun x hx => hi.peaks _ (selected_mem hx)) hi.number (fun x hx => hl _ (selected_mem hx)) h hval
  have h1 := h1 hsp
  rw [show Hits.EPSILON = 1 / 2 ^ 52 from rfl] at h1
  have hen := (next_energies hb hq hi hl h).2
  have hlen : (nextHits w.hits).length = w.hits.length := by unfold nextHits; simp
  obtain ⟨_, _, h2⟩ := Beersheba.event_hits hc ho
  obtain ⟨_, _, h2, _⟩ := h2 (by
    intro k _
    obtain ⟨n, hn⟩ := List.getElem?_of_mem ho0
    refine ⟨⟨n, o0.npeak, o0.x, o0.y, o0.z, o0.q, o0.e.getD 0⟩, ?_, hq0, fun hh => by rw [hbp] at hh; cases hh⟩
    exact List.mem_map.2 ⟨(o0, n), List.mem_zipIdx_iff_getElem?.2 (by simpa using hn), rfl⟩)
  rw [hen, hlen] at h2
  have h3 := Beersheba.event_total hc (by omega) ho hv hpk
  have e0 : (out.lowTh.map (Beersheba.energyIn b.column)).sum = (out.lowTh.map fun h => h.e.getD 0).sum := by
    congr 1
    apply List.map_congr_left
    intro k _
    rw [Beersheba.energyIn, hcol, if_pos rfl]
  rw [e0] at h3
  unfold decoEnergy s2Energy
  rw [abs_le] at h1 h2 h3 ⊢
  constructor <;> linarith [h1.1, h1.2, h2.1, h2.2, h3.1, h3.2]

/-! ### A concrete case -/

def caseSophronia : Sophronia.Cfg :=
  ⟨Sophronia.exSel 1 1000000, ⟨1, [(1 / 2, 1 / 2), (9, 9), (3 / 2, 1 / 2)], HitBuilder.rawPoint, Sophronia.exReco, fun _ => 1⟩, .stride 2, 5, HitBuilder.rawSlices, false, none, none⟩

def caseBeersheba : Beersheba.Cfg :=
  { pick := KrApply.firstNearest, keV := 1 / 1000, mev := 1, krmap := [⟨0, 5, 0, 0, some 100⟩, ⟨1, 50, 0, 0, some 50⟩], dvs := [2, 2, 3], applyTemp := false, method := .maximum, xy := none
    applyZ := false, threshold := 5, samePeak := false, qCut := 5, distance := [1, 1], clusterSize := none, iter := id, deconv := DeconvSlice.exConf
    grid := [[1 / 2, 3 / 2, 5 / 2, 7 / 2], [1 / 2, 3 / 2]], column := 0 }

/-- An event with hits, one whose S2 leaves no hit with charge, and one that is rejected. -/
def caseInputs : List Input := [⟨7, 3000, [HitBuilder.exS1], [HitBuilder.exS2, Sophronia.exDim]⟩, ⟨8, 4000, [HitBuilder.exS1], [Sophronia.exDim]⟩, ⟨9, 5000, [HitBuilder.exS1], []⟩]

theorem case_good : ∀ i ∈ caseInputs, Good i ∧ BrightInput caseSophronia i := by
  have hv : ∀ p ∈ [HitBuilder.exS2, Sophronia.exDim], ValidPeak p ∧ Sophronia.Bright (.stride 2) p := by
    intro p hp
    have hall : ∀ p ∈ [HitBuilder.exS2, Sophronia.exDim], ((Peaks.rebinPeak p (.stride 2)).toOption.map fun q => q.pmts.sumOverSensors.all fun e => decide (0 < e)) = some true := by decide +kernel
    refine ⟨?_, ?_⟩
    · rcases List.mem_cons.1 hp with rfl | hp
      · exact Sophronia.exS2_valid
      · cases List.mem_singleton.1 hp; exact Sophronia.exDim_valid
    · intro q hq
      have := hall p hp
      rw [hq] at this
      simpa [Except.toOption] using this
  intro i hi
  have hsub : ∀ p ∈ i.s2s, p ∈ [HitBuilder.exS2, Sophronia.exDim] := by
    simp only [caseInputs, List.mem_cons, List.not_mem_nil, or_false] at hi
    rcases hi with rfl | rfl | rfl <;> simp
  have hl : i.s2s.length ≤ 65536 := by
    simp only [caseInputs, List.mem_cons, List.not_mem_nil, or_false] at hi
    rcases hi with rfl | rfl | rfl <;> simp
  exact ⟨⟨fun p hp => (hv p (hsub p hp)).1, hl⟩, fun p hp => (hv p (hsub p hp)).2⟩

example : HitBuilder.Sized caseSophronia.builder := HitBuilder.sized_raw rfl
example : Filters.pmapFilter caseSophronia.selector [HitBuilder.exS1] [HitBuilder.exS2, Sophronia.exDim] = .ok ⟨true, [true], [true, true]⟩ := by decide +kernel
example : (sophroniaRun caseSophronia caseInputs).toOption.map (fun ws => (accepted caseInputs ws).map fun x => (x.1.event, x.2.hits.length, x.2.kdst.length)) = some [(7, 2, 2), (8, 0, 1)] := by decide +kernel
example : (sophroniaRun caseSophronia caseInputs).toOption.map (fun ws => (nextSource [sophroniaFile 3 caseInputs ws]).items.map fun i => (i.event, i.timestamp, i.hits.length, i.kdst.length, i.warned)) =
    some [(7, 3000, 2, 2, false), (8, 4000, 0, 1, true)] := by decide +kernel

/-- The hits of the first event for the next city. -/
def caseHits : List Esmeralda.InHit := (((sophroniaRun caseSophronia caseInputs).toOption.bind fun ws => ws.head?).map fun w => nextHits w.hits).getD []

example : caseHits.length = 2 := by decide +kernel
example : Beersheba.Conditions caseBeersheba caseHits where
  map := ⟨KrApply.firstNearest_spec, rfl, ⟨100, by decide +kernel, by decide +kernel⟩, by
    intro b hb mu hmu
    simp only [caseBeersheba, List.mem_cons, List.not_mem_nil, or_false] at hb
    rcases hb with rfl | rfl <;> · cases hmu; norm_num, by decide +kernel, by decide +kernel⟩
  threshold := by decide +kernel
  energies := by decide +kernel
  size := fun _ h => by cases h
  order := fun _ => List.Perm.refl _
/-- All the hypotheses of `deconvolved_energy` hold, and the energy of the two S2s (38) is that of the deconvolved hits. -/
example : (Beersheba.beershebaEvent caseBeersheba 7 3 3000 (fun _ => (1, 1)) caseHits).toOption.map (fun o => o.deco.map fun d => (d.hit.npeak, d.hit.x, d.hit.e)) =
    some [(0, 1 / 2, some (57 / 4)), (0, 3 / 2, some (95 / 4))] := by decide +kernel
example : (Beersheba.beershebaEvent caseBeersheba 7 3 3000 (fun _ => (1, 1)) caseHits).toOption.map (fun o => o.lowTh.map fun a => (a.npeak, a.q)) = some [(0, 6), (0, 10)] := by decide +kernel
example : s2Energy [true, true] [HitBuilder.exS2, Sophronia.exDim] = 38 := by decide +kernel

/-- Two files of which one repeats an event. -/
def repeatedInputs : List Input := [⟨7, 3000, [HitBuilder.exS1], [HitBuilder.exS2]⟩, ⟨7, 4000, [HitBuilder.exS1], [Sophronia.exDim]⟩]
example : (sophroniaRun caseSophronia repeatedInputs).toOption.map (fun ws => (accepted repeatedInputs ws).map fun x => (x.1.event, x.2.hits.length)) = some [(7, 2), (7, 0)] := by decide +kernel

/-- **C125 (finding)**: an accepted event without hits is given to the next city or not depending on the other events of its file: alone, it is skipped with the whole file and without a warning. -/
theorem lone_event_skipped : (sophroniaRun caseSophronia (caseInputs.drop 1)).toOption.map (fun ws => ((accepted (caseInputs.drop 1) ws).map (fun x => x.1.event), (nextSource [sophroniaFile 3 (caseInputs.drop 1) ws]).items.length,
    (nextSource [sophroniaFile 3 (caseInputs.drop 1) ws]).exc)) = some ([8], 0, none) := by decide +kernel

end Verif.Chain
