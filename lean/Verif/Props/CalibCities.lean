import Verif.Props.CalibCity
/-!
# C113: phyllis, trude and berenice
-/
namespace Verif.CalibCity
open Verif Verif.Calib Verif.CalibCity.Spec

/-- The values of an accumulator when its histograms are those of `vals`. -/
theorem fold_counts {W : Type} {f : W → Except PyErr Hist} {a w : ℚ} {ns nb : Nat} {ws : List W} {hs : List Hist} {hist : Hist} (hw : 0 < w) (vals : W → List (List ℚ)) (hl : ∀ x ∈ ws, (vals x).length = ns)
    (hf : ∀ x ∈ ws, ∀ h, f x = .ok h → h = binWaveforms (grid a w nb) (vals x)) (h1 : List.Forall₂ (fun w h => f w = .ok h) ws hs) (h2 : fold (zeros ns nb) hs = .ok hist) :
    Counts a w ns nb ws (fun x s => (vals x).getD s []) hist := by
  have he : hs = ws.map fun x => binWaveforms (grid a w nb) (vals x) := by
    clear h2 hl
    induction h1 with
    | nil => rfl
    | cons h _ ih =>
      rw [List.map_cons, ← hf _ (List.mem_cons_self ..) _ h, ← ih fun x hx => hf x (List.mem_cons_of_mem _ hx)]
  rw [he, fold_same (ns := ns) _ _ (by simp [zeros]) (by
    intro h hh
    obtain ⟨x, hx, rfl⟩ := List.mem_map.1 hh
    simp [binWaveforms, hl x hx])] at h2
  obtain rfl := Except.ok.inj h2
  exact counts_sum hw ws vals hl

theorem light_window (sampling start width period : ℚ) (i : Nat) : lightWindow (windowsOf sampling start width period) i = light sampling start width period i := rfl

theorem dark_window (sampling start width period : ℚ) (i : Nat) : darkWindow (windowsOf sampling start width period) i = dark sampling start width period i := by
  unfold darkWindow dark light windowsOf
  norm_num

theorem good_limits {j : Job} {sampling : ℚ} {length : Nat} (hg : GoodWindows j sampling length) :
    ∃ l d, validLimits (windowsOf sampling j.start j.width j.period) j.nIntegrals length = .ok (l, d) ∧ ∀ m : Mat, m.ncols = length →
      integrate l m = .ok (m.rows.map (sums (light sampling j.start j.width j.period) j.nIntegrals)) ∧ integrate d m = .ok (m.rows.map (sums (dark sampling j.start j.width j.period) j.nIntegrals)) := by
  obtain ⟨h1, h2, h3, h4, h5⟩ := hg
  have key : ∀ m : Mat, m.ncols = length → ∃ l d, validLimits (windowsOf sampling j.start j.width j.period) j.nIntegrals length = .ok (l, d) ∧
      integrate l m = .ok (m.rows.map (sums (light sampling j.start j.width j.period) j.nIntegrals)) ∧ integrate d m = .ok (m.rows.map (sums (dark sampling j.start j.width j.period) j.nIntegrals)) := by
    intro m hm
    obtain ⟨l, d, e1, e2, e3⟩ := calibration_integrals (windowsOf sampling j.start j.width j.period) j.nIntegrals m h1 h2 h3
      (by intro k hk; rw [dark_window, hm]; exact h5 k hk) (by intro k hk; rw [light_window, hm]; exact h4 k hk)
    simp only [dark_window, light_window] at e2 e3
    rw [hm] at e1
    exact ⟨l, d, e1, e2, e3⟩
  obtain ⟨l, d, e1, _⟩ := key ⟨[], length⟩ rfl
  refine ⟨l, d, e1, fun m hm => ?_⟩
  obtain ⟨l', d', e1', e2, e3⟩ := key m hm
  rw [e1] at e1'
  obtain ⟨rfl, rfl⟩ := Prod.mk.inj (Except.ok.inj e1')
  exact ⟨e2, e3⟩

/-- phyllis and trude, from the processed waveforms. -/
theorem lightDark_spec {j : Job} {pre : String} {ns length : Nat} {sampling : ℚ} {process : Event → Except PyErr Mat} {es : List Event} {o : Out} (hw : 0 < j.binWidth) (hg : GoodWindows j sampling length)
    (hp : ∀ e ∈ es, ∀ m, process e = .ok m → m.ncols = length ∧ m.rows.length = ns) (h : lightDark j pre ns length sampling process es = (some o, .ok ())) :
    0 < ns ∧ ∃ nb, 0 < nb ∧ Bins j.minBin j.maxBin j.binWidth nb ∧ o.rows = es.map (fun e => (e.run, e.number, e.time)) ∧
      ∃ ws, List.Forall₂ (fun e m => process e = .ok m) es ws ∧ ∃ spe drk,
        o.hists = [(pre ++ "_spe", centresOf j.minBin j.binWidth nb, spe), (pre ++ "_dark", centresOf j.minBin j.binWidth nb, drk)] ∧
        Counts j.minBin j.binWidth ns nb ws (fun m s => sums (light sampling j.start j.width j.period) j.nIntegrals (m.rows.getD s [])) spe ∧
        Counts j.minBin j.binWidth ns nb ws (fun m s => sums (dark sampling j.start j.width j.period) j.nIntegrals (m.rows.getD s [])) drk := by
  unfold lightDark at h
  cases hb : binEdges j.minBin j.maxBin j.binWidth with
  | error e => rw [hb] at h; cases h
  | ok edges =>
    rw [hb] at h
    dsimp only at h
    obtain ⟨l, d, e1, e2⟩ := good_limits hg
    rw [e1] at h
    dsimp only at h
    cases hpr : produce process [(pre ++ "_spe", integrals edges l), (pre ++ "_dark", integrals edges d)] ns edges es with
    | mk o' r =>
      rw [hpr] at h
      obtain ⟨h1, h2⟩ := Prod.mk.inj h
      obtain rfl := Option.some.inj h1
      dsimp only at h2
      subst h2
      obtain ⟨hns, nb, hnb, hbins, rfl, hrows, ws, hws, hlen, hh⟩ := produce_ok hw hb (by simp) hpr
      obtain ⟨spe, s1, s2, s3, s4⟩ := hh 0 _ _ rfl
      obtain ⟨drk, d1, d2, d3, d4⟩ := hh 1 _ _ rfl
      have hm : ∀ m ∈ ws, m.ncols = length ∧ m.rows.length = ns := by
        intro m hm
        obtain ⟨i, hi⟩ := List.getElem?_of_mem hm
        obtain ⟨e, he, hpe⟩ : ∃ e, es[i]? = some e ∧ process e = .ok m := by
          have hl := hws.length_eq
          obtain ⟨hi', rfl⟩ := List.getElem?_eq_some_iff.1 hi
          exact ⟨es[i]'(by omega), List.getElem?_eq_getElem _, (List.forall₂_iff_get.1 hws).2 i (by omega) hi'⟩
        exact hp e (List.mem_of_getElem? he) m hpe
      have hsum : ∀ (win : Nat → Int × Int) (m : Mat) (s : Nat), s < m.rows.length → (m.rows.map (sums win j.nIntegrals)).getD s [] = sums win j.nIntegrals (m.rows.getD s []) := by
        intro win m s hs
        rw [List.getD_eq_getElem?_getD, List.getElem?_map, List.getElem?_eq_getElem hs, List.getD_eq_getElem?_getD, List.getElem?_eq_getElem hs]
        rfl
      have hcnt : ∀ (lim : List Int) (win : Nat → Int × Int) (hs : List Hist) (hist : Hist), (∀ m : Mat, m.ncols = length → integrate lim m = .ok (m.rows.map (sums win j.nIntegrals))) →
          List.Forall₂ (fun w h => integrals (grid j.minBin j.binWidth nb) lim w = .ok h) ws hs → fold (zeros ns nb) hs = .ok hist →
          Counts j.minBin j.binWidth ns nb ws (fun m s => sums win j.nIntegrals (m.rows.getD s [])) hist := by
        intro lim win hs hist hi h1 h2
        have hc := fold_counts (nb := nb) (ns := ns) (ws := ws) (a := j.minBin) hw (fun m : Mat => m.rows.map (sums win j.nIntegrals)) (by intro x hx; rw [List.length_map]; exact (hm x hx).2) (by
          intro x hx h hh
          unfold integrals at hh
          rw [hi x (hm x hx).1] at hh
          exact (histogram_ok hh).1) h1 h2
        refine ⟨hc.1, fun s hs' => ?_⟩
        obtain ⟨row, r1, r2, r3⟩ := hc.2 s hs'
        refine ⟨row, r1, r2, fun k hk => ?_⟩
        rw [r3 k hk]
        congr 2
        apply List.map_congr_left
        intro m hmm
        beta_reduce
        rw [hsum win m s (by rw [(hm m hmm).2]; exact hs')]
      refine ⟨hns, nb, hnb, hbins, hrows, ws, hws, spe, drk, ?_, hcnt l _ _ _ (fun m h => (e2 m h).1) s3 s4, hcnt d _ _ _ (fun m h => (e2 m h).2) d3 d4⟩
      match hl : o'.hists with
      | [x, y] =>
        rw [hl] at s1 d1
        simp only [List.getElem?_cons_zero, List.getElem?_cons_succ, Option.some.injEq] at s1 d1
        rw [s1, d1]
      | [] => rw [hl] at hlen; simp at hlen
      | [_] => rw [hl] at hlen; simp at hlen
      | _ :: _ :: _ :: _ => rw [hl] at hlen; simp at hlen

theorem lightDark_works {j : Job} {pre : String} {ns length : Nat} {sampling : ℚ} {process : Event → Except PyErr Mat} {es : List Event} (hw : 0 < j.binWidth) (hb : j.minBin + j.binWidth < j.maxBin) (hg : GoodWindows j sampling length) (hns : 0 < ns)
    (hp : ∀ e ∈ es, ∃ m, process e = .ok m ∧ m.ncols = length ∧ m.rows.length = ns) : ∃ o, lightDark j pre ns length sampling process es = (some o, .ok ()) := by
  obtain ⟨nb, hnb, hbe⟩ := edges_works hw hb
  obtain ⟨l, d, e1, e2⟩ := good_limits hg
  have hcl : (centres (grid j.minBin j.binWidth nb)).length = nb := by rw [centres_grid]; simp [centresOf]
  have hi : ∀ (lim : List Int) (win : Nat → Int × Int), (∀ m : Mat, m.ncols = length → integrate lim m = .ok (m.rows.map (sums win j.nIntegrals))) → ∀ m : Mat, m.ncols = length → m.rows.length = ns →
      ∃ h, integrals (grid j.minBin j.binWidth nb) lim m = .ok h ∧ h.length = ns ∧ ∀ r ∈ h, r.length = nb := by
    intro lim win h m hm hr
    refine ⟨binWaveforms (grid j.minBin j.binWidth nb) (m.rows.map (sums win j.nIntegrals)), ?_, by simp [binWaveforms, hr], ?_⟩
    · unfold integrals
      rw [h m hm]
      exact histogram_works hw _ (by rw [List.length_map, hr]; omega)
    · intro r hr
      simp only [binWaveforms, List.mem_map] at hr
      obtain ⟨wf, _, rfl⟩ := hr
      simp [grid]
  unfold lightDark
  rw [hbe]
  dsimp only
  rw [e1]
  dsimp only
  obtain ⟨o, ho⟩ := produce_works (process := process) (branches := [(pre ++ "_spe", integrals (grid j.minBin j.binWidth nb) l), (pre ++ "_dark", integrals (grid j.minBin j.binWidth nb) d)]) (es := es) hns hnb hcl (by
    intro e he
    obtain ⟨m, hm1, hm2, hm3⟩ := hp e he
    refine ⟨m, hm1, fun b hb => ?_⟩
    rcases List.mem_cons.1 hb with rfl | hb
    · exact hi l _ (fun m h => (e2 m h).1) m hm2 hm3
    · rw [List.mem_singleton] at hb
      subst hb
      exact hi d _ (fun m h => (e2 m h).2) m hm2 hm3)
  rw [ho]
  exact ⟨o, rfl⟩

theorem counts_map {E F : Type} {a w : ℚ} {ns nb : Nat} (g : E → F) (es : List E) (values : F → Nat → List ℚ) (h : Hist) : Counts a w ns nb (es.map g) values h ↔ Counts a w ns nb es (fun e s => values (g e) s) h := by
  unfold Counts
  simp only [List.map_map]
  rfl

theorem forall₂_map_of {α β γ : Type} {r : α → β → Prop} {r' : α → γ → Prop} (g : β → γ) {l : List α} {m : List β} (h : List.Forall₂ r l m) (hi : ∀ a ∈ l, ∀ b, r a b → r' a (g b)) : List.Forall₂ r' l (m.map g) := by
  induction h with
  | nil => exact .nil
  | cons h _ ih => exact .cons (hi _ (List.mem_cons_self ..) _ h) (ih fun a ha => hi a (List.mem_cons_of_mem _ ha))

theorem without_mode (wf : List Int) : Without IsMode wf (subtractBaseline .mode wf) := ⟨_, mode_baseline wf, rfl⟩

theorem without_median (wf : List Int) : Without IsMedian wf (subtractBaseline .median wf) := ⟨_, median_baseline wf, rfl⟩

theorem forall₂_map_self {α β : Type} {r : α → β → Prop} (g : α → β) (h : ∀ a, r a (g a)) (l : List α) : List.Forall₂ r l (l.map g) := by
  rw [List.forall₂_map_right_iff]
  exact List.forall₂_same.2 fun a _ => h a

/-! ### trude -/

/-- C113: what trude writes, in the modes that only subtract the baseline: each count of `sipm_spe` is the number of integrals of the sensor, in all the windows of light of all the events, that are in the bin; the same for
`sipm_dark` and the dark windows. -/
theorem trude_spec {j : Job} {mode : SipmMode} {es : List Event} {o : Out} (hw : 0 < j.binWidth) (hg : GoodWindows j 1000 j.sipmLength) (hs : ∀ e ∈ es, e.sipm.length = j.nSipm ∧ e.sipmLength = j.sipmLength) (hne : es ≠ [])
    (h : trude j mode es = (some o, .ok ())) :
    ∃ base, (mode = .subtractMode ∧ base = IsMode ∨ mode = .subtractMedian ∧ base = IsMedian) ∧ ∃ nb, 0 < nb ∧ Bins j.minBin j.maxBin j.binWidth nb ∧ o.rows = es.map (fun e => (e.run, e.number, e.time)) ∧
      ∃ ps, List.Forall₂ (fun e p => List.Forall₂ (Without base) e.sipm p) es ps ∧ ∃ spe drk,
        o.hists = [("sipm_spe", centresOf j.minBin j.binWidth nb, spe), ("sipm_dark", centresOf j.minBin j.binWidth nb, drk)] ∧
        Counts j.minBin j.binWidth j.nSipm nb ps (fun p s => sums (light 1000 j.start j.width j.period) j.nIntegrals (p.getD s [])) spe ∧
        Counts j.minBin j.binWidth j.nSipm nb ps (fun p s => sums (dark 1000 j.start j.width j.period) j.nIntegrals (p.getD s [])) drk := by
  have hrow : ∀ e ∈ es, ∀ m, trudeProcess mode e = .ok m → m.ncols = j.sipmLength ∧ m.rows.length = j.nSipm := by
    intro e he m hm
    obtain ⟨h1, h2⟩ := hs e he
    cases mode <;> first | (obtain rfl := Except.ok.inj hm; exact ⟨h2, by rw [List.length_map]; exact h1⟩) | cases hm
  obtain ⟨_, nb, hnb, hb, hr, ws, hws, spe, drk, ho, hc1, hc2⟩ := lightDark_spec hw hg hrow h
  have hbase : ∃ base, (mode = .subtractMode ∧ base = IsMode ∨ mode = .subtractMedian ∧ base = IsMedian) ∧ ∀ e m, trudeProcess mode e = .ok m → List.Forall₂ (Without base) e.sipm m.rows := by
    obtain ⟨e, he⟩ := List.exists_mem_of_ne_nil es hne
    have hok : ∃ m, trudeProcess mode e = .ok m := by
      obtain ⟨i, hi⟩ := List.getElem?_of_mem he
      have hl := hws.length_eq
      obtain ⟨hi', rfl⟩ := List.getElem?_eq_some_iff.1 hi
      exact ⟨_, (List.forall₂_iff_get.1 hws).2 i hi' (by omega)⟩
    obtain ⟨m, hm⟩ := hok
    cases mode with
    | subtractMode => exact ⟨IsMode, .inl ⟨rfl, rfl⟩, fun e m hm => by obtain rfl := Except.ok.inj hm; exact forall₂_map_self _ without_mode _⟩
    | subtractMedian => exact ⟨IsMedian, .inr ⟨rfl, rfl⟩, fun e m hm => by obtain rfl := Except.ok.inj hm; exact forall₂_map_self _ without_median _⟩
    | _ => cases hm
  obtain ⟨base, hb1, hb2⟩ := hbase
  exact ⟨base, hb1, nb, hnb, hb, hr, ws.map Mat.rows, forall₂_map_of _ hws fun e _ m hm => hb2 e m hm, spe, drk, ho, (counts_map _ _ _ _).2 hc1, (counts_map _ _ _ _).2 hc2⟩

/-- C113: trude ends well for any events of the shape of the first file, in those modes. -/
theorem trude_works {j : Job} {mode : SipmMode} {es : List Event} (hm : mode = .subtractMode ∨ mode = .subtractMedian) (hw : 0 < j.binWidth) (hb : j.minBin + j.binWidth < j.maxBin) (hg : GoodWindows j 1000 j.sipmLength) (hn : 0 < j.nSipm)
    (hs : ∀ e ∈ es, e.sipm.length = j.nSipm ∧ e.sipmLength = j.sipmLength) : ∃ o, trude j mode es = (some o, .ok ()) := by
  refine lightDark_works hw hb hg hn fun e he => ?_
  obtain ⟨h1, h2⟩ := hs e he
  rcases hm with rfl | rfl
  · exact ⟨_, rfl, h2, by rw [List.length_map]; exact h1⟩
  · exact ⟨_, rfl, h2, by rw [List.length_map]; exact h1⟩

/-- C113: the other four modes, accepted by the city, fail in the first event with a TypeError. -/
theorem trude_calibrate {j : Job} {mode : SipmMode} {e : Event} {es : List Event} (hm : mode ≠ .subtractMode ∧ mode ≠ .subtractMedian) (hw : j.binWidth ≠ 0) (hg : GoodWindows j 1000 j.sipmLength) :
    trude j mode (e :: es) = (some ⟨[], []⟩, .error .typeError) := by
  have hp : trudeProcess mode e = .error .typeError := by
    cases mode <;> first | rfl | exact absurd rfl hm.1 | exact absurd rfl hm.2
  obtain ⟨l, d, e1, _⟩ := good_limits hg
  unfold trude lightDark
  have hb : binEdges j.minBin j.maxBin j.binWidth = .ok ((List.range ⌈(j.maxBin - j.minBin) / j.binWidth⌉.toNat).map fun i : Nat => j.minBin + i * j.binWidth) := by unfold binEdges; rw [if_neg hw]
  rw [hb]
  dsimp only
  rw [e1]
  dsimp only
  unfold produce
  rw [loop_cons, hp]

/-! ### phyllis -/

theorem mapM_rowAt {rows : List (List ℚ)} : ∀ {is : List Nat} {out : List (List ℚ)}, is.mapM (rowAt rows) = .ok out → out = is.map fun i => rows.getD i [] := by
  intro is out h
  obtain ⟨h1, h2⟩ := Blr.mapM_ok_get h
  apply List.ext_getElem?
  intro k
  rw [List.getElem?_map]
  by_cases hk : k < is.length
  · obtain ⟨b, hb, hr⟩ := h2 k is[k] (List.getElem?_eq_getElem hk)
    rw [hb, List.getElem?_eq_getElem hk, Option.map_some]
    unfold rowAt at hr
    rw [List.getD_eq_getElem?_getD]
    cases hx : rows[is[k]]? with
    | none => rw [hx] at hr; cases hr
    | some r => rw [hx] at hr; obtain rfl := Except.ok.inj hr; rfl
  · rw [List.getElem?_eq_none (by omega), List.getElem?_eq_none (by omega)]
    rfl

theorem rowAt_works {rows : List (List ℚ)} (is : List Nat) (h : ∀ i ∈ is, i < rows.length) : is.mapM (rowAt rows) = .ok (is.map fun i => rows.getD i []) := by
  induction is with
  | nil => rfl
  | cons i is ih =>
    have hi := h i (List.mem_cons_self ..)
    have e : rowAt rows i = .ok (rows.getD i []) := by
      unfold rowAt
      rw [List.getElem?_eq_getElem hi, List.getD_eq_getElem?_getD, List.getElem?_eq_getElem hi]
      rfl
    rw [List.mapM_cons, e, ih fun i hi => h i (List.mem_cons_of_mem _ hi)]
    rfl

theorem active_count (pmts : List LoadDb.PmtRow) : (activePositions pmts).length = (pmts.filter fun p => decide (p.active ≠ 0)).length := by
  unfold activePositions
  induction pmts using List.reverseRecOn with
  | nil => rfl
  | append_singleton l p ih =>
    rw [List.length_append, List.length_singleton, List.range_succ, List.filter_append, List.length_append, List.filter_append, List.length_append]
    congr 1
    · rw [← ih]
      congr 1
      apply List.filter_congr
      intro i hi
      rw [List.getElem?_append_left (by simpa using hi)]
    · simp only [List.filter_cons, List.filter_nil, List.getElem?_append_right (Nat.le_refl _), Nat.sub_self, List.getElem?_cons_zero, Option.map_some, Option.getD_some]
      split <;> rfl

theorem all_active {pmts : List LoadDb.PmtRow} (h : ∀ p ∈ pmts, p.active ≠ 0) : activePositions pmts = List.range pmts.length := by
  unfold activePositions
  rw [List.filter_eq_self]
  intro i hi
  rw [List.mem_range] at hi
  rw [List.getElem?_eq_getElem hi]
  simpa using h _ (List.getElem_mem hi)

theorem map_getD_range {α : Type} (l : List α) (d : α) : (List.range l.length).map (fun i => l.getD i d) = l := by
  apply List.ext_getElem?
  intro i
  rw [List.getElem?_map]
  by_cases h : i < l.length
  · rw [List.getElem?_range h, List.getElem?_eq_getElem h, Option.map_some, List.getD_eq_getElem?_getD, List.getElem?_eq_getElem h]
    rfl
  · rw [List.getElem?_eq_none (by simpa using h), List.getElem?_eq_none (by simpa using h)]
    rfl

theorem restored_of {j : Job} {e : Event} {cwf : List (List ℚ)} (h : Blr.deconvPmt j.tan j.pmts j.nBaseline false (e.pmt.map fun w => w.map fun x : Int => (x : ℚ)) = .ok cwf) : Restored j e.pmt cwf := by
  obtain ⟨h1, h2, h3⟩ := Blr.deconvPmt_spec h
  rw [List.length_map] at h1 h2
  refine ⟨h2, by rw [h1]; exact h2, fun i wf p hi hp => ?_⟩
  obtain ⟨cc, cb, cwf, q1, q2, q3, q4⟩ := h3 i (wf.map fun x : Int => (x : ℚ)) p (by rw [List.getElem?_map, hi]; rfl) hp
  exact ⟨cc, cb, cwf, q1, q2, q3, q4⟩

theorem processed_of {j : Job} {mode : PmtMode} {e : Event} {m : Mat} (ha : mode = .gainNodeconv → (∀ p ∈ j.pmts, p.active ≠ 0) ∧ e.pmt.length = j.pmts.length) (h : phyllisProcess j mode e = .ok m) :
    Processed j mode e.pmt m.rows ∧ m.rows.length = j.pmts.length ∧ m.ncols = e.pmtLength := by
  cases mode with
  | gain =>
    unfold phyllisProcess at h
    dsimp only at h
    cases hd : Blr.deconvPmt j.tan j.pmts j.nBaseline false (e.pmt.map fun w => w.map fun x : Int => (x : ℚ)) with
    | error err => rw [hd] at h; cases h
    | ok cwf =>
      rw [hd] at h
      obtain rfl := Except.ok.inj h
      have hr := restored_of hd
      exact ⟨hr, hr.2.1, rfl⟩
  | gainMaw =>
    unfold phyllisProcess at h
    dsimp only at h
    cases hd : Blr.deconvPmt j.tan j.pmts j.nBaseline false (e.pmt.map fun w => w.map fun x : Int => (x : ℚ)) with
    | error err => rw [hd] at h; cases h
    | ok cwf =>
      rw [hd] at h
      dsimp only at h
      cases hm : cwf.mapM (subtractMaw j.nMaw) with
      | error err => rw [hm] at h; cases h
      | ok out =>
        rw [hm] at h
        obtain rfl := Except.ok.inj h
        have hr := restored_of hd
        obtain ⟨m1, m2⟩ := Blr.mapM_ok_get hm
        refine ⟨⟨cwf, hr, List.forall₂_iff_get.2 ⟨m1.symm, fun i h1 h2 => ?_⟩⟩, by show out.length = _; rw [m1]; exact hr.2.1, rfl⟩
        obtain ⟨b, hb, hs⟩ := m2 i cwf[i] (List.getElem?_eq_getElem h1)
        have hbe : out[i] = b := by rw [List.getElem?_eq_getElem h2] at hb; exact Option.some.inj hb
        show MinusAverage j.nMaw cwf[i] out[i]
        rw [hbe]
        have hn : 0 < j.nMaw := by
          rcases Nat.eq_zero_or_pos j.nMaw with h0 | h0
          · rw [(subtract_maw_spec _ _).1 h0] at hs; cases hs
          · exact h0
        obtain ⟨o, o1, o2, o3⟩ := (subtract_maw_spec j.nMaw cwf[i]).2 hn
        rw [hs] at o1
        obtain rfl := Except.ok.inj o1
        exact ⟨hn, o2, o3⟩
  | gainNodeconv =>
    obtain ⟨ha, hl⟩ := ha rfl
    unfold phyllisProcess at h
    dsimp only at h
    rw [all_active ha] at h
    cases hm : (List.range j.pmts.length).mapM (rowAt (e.pmt.map (subtractBaseline .mode))) with
    | error err => rw [hm] at h; cases h
    | ok out =>
      rw [hm] at h
      obtain rfl := Except.ok.inj h
      have ho := mapM_rowAt hm
      have hl2 : (e.pmt.map (subtractBaseline .mode)).length = j.pmts.length := by rw [List.length_map, hl]
      rw [← hl2, map_getD_range] at ho
      subst ho
      exact ⟨forall₂_map_self _ without_mode _, by simpa using hl, rfl⟩

/-- C113: what phyllis writes: the same counts, of the integrals of the processed waveforms of all the PMTs of the database. -/
theorem phyllis_spec {j : Job} {mode : PmtMode} {es : List Event} {o : Out} (hw : 0 < j.binWidth) (hg : GoodWindows j 25 j.pmtLength) (hs : ∀ e ∈ es, e.pmtLength = j.pmtLength)
    (ha : mode = .gainNodeconv → (∀ p ∈ j.pmts, p.active ≠ 0) ∧ ∀ e ∈ es, e.pmt.length = j.pmts.length) (h : phyllis j mode es = (some o, .ok ())) :
    ∃ nb, 0 < nb ∧ Bins j.minBin j.maxBin j.binWidth nb ∧ o.rows = es.map (fun e => (e.run, e.number, e.time)) ∧
      ∃ ps, List.Forall₂ (fun e p => Processed j mode e.pmt p) es ps ∧ ∃ spe drk,
        o.hists = [("pmt_spe", centresOf j.minBin j.binWidth nb, spe), ("pmt_dark", centresOf j.minBin j.binWidth nb, drk)] ∧
        Counts j.minBin j.binWidth j.pmts.length nb ps (fun p s => sums (light 25 j.start j.width j.period) j.nIntegrals (p.getD s [])) spe ∧
        Counts j.minBin j.binWidth j.pmts.length nb ps (fun p s => sums (dark 25 j.start j.width j.period) j.nIntegrals (p.getD s [])) drk := by
  have hpo : ∀ e ∈ es, ∀ m, phyllisProcess j mode e = .ok m → Processed j mode e.pmt m.rows ∧ m.rows.length = j.pmts.length ∧ m.ncols = e.pmtLength :=
    fun e he m hm => processed_of (fun h => ⟨(ha h).1, (ha h).2 e he⟩) hm
  obtain ⟨_, nb, hnb, hb, hr, ws, hws, spe, drk, ho, hc1, hc2⟩ := lightDark_spec hw hg (by intro e he m hm; obtain ⟨_, h2, h3⟩ := hpo e he m hm; exact ⟨by rw [h3]; exact hs e he, h2⟩) h
  exact ⟨nb, hnb, hb, hr, ws.map Mat.rows, forall₂_map_of _ hws fun e he m hm => (hpo e he m hm).1, spe, drk, ho, (counts_map _ _ _ _).2 hc1, (counts_map _ _ _ _).2 hc2⟩

/-- C113: without deconvolution only the active PMTs are processed: if some are not, and more than one is, phyllis fails in the first event. -/
theorem phyllis_inactive {j : Job} {e : Event} {es : List Event} (hw : 0 < j.binWidth) (hg : GoodWindows j 25 j.pmtLength) (hl : e.pmt.length = j.pmts.length) (hs : e.pmtLength = j.pmtLength)
    (h1 : (j.pmts.filter fun p => decide (p.active ≠ 0)).length ≠ j.pmts.length) (h2 : (j.pmts.filter fun p => decide (p.active ≠ 0)).length ≠ 1) :
    phyllis j .gainNodeconv (e :: es) = (some ⟨[], []⟩, .error .valueError) := by
  obtain ⟨l, d, e1, e2⟩ := good_limits hg
  have hb : binEdges j.minBin j.maxBin j.binWidth = .ok ((List.range ⌈(j.maxBin - j.minBin) / j.binWidth⌉.toNat).map fun i : Nat => j.minBin + i * j.binWidth) := by unfold binEdges; rw [if_neg hw.ne']
  have hp : phyllisProcess j .gainNodeconv e = .ok ⟨(activePositions j.pmts).map fun i => (e.pmt.map (subtractBaseline .mode)).getD i [], e.pmtLength⟩ := by
    unfold phyllisProcess
    dsimp only
    rw [rowAt_works _ (by
      intro i hi
      rw [List.length_map, hl]
      have := (List.mem_filter.1 hi).1
      simpa using this)]
  unfold phyllis lightDark
  rw [hb]
  dsimp only
  rw [e1]
  dsimp only
  generalize (List.range ⌈(j.maxBin - j.minBin) / j.binWidth⌉.toNat).map (fun i : Nat => j.minBin + i * j.binWidth) = edges
  have hacc : accumulate (W := Mat) ⟨(activePositions j.pmts).map fun i => (e.pmt.map (subtractBaseline .mode)).getD i [], e.pmtLength⟩ (integrals edges l, zeros j.pmts.length (centres edges).length) = .error .valueError := by
    unfold accumulate
    dsimp only
    unfold integrals
    rw [(e2 ⟨(activePositions j.pmts).map fun i => (e.pmt.map (subtractBaseline .mode)).getD i [], e.pmtLength⟩ hs).1]
    dsimp only
    have hlen := active_count j.pmts
    cases hh : histogram edges (((activePositions j.pmts).map fun i => (e.pmt.map (subtractBaseline .mode)).getD i []).map (sums (light 25 j.start j.width j.period) j.nIntegrals)) with
    | error err =>
      unfold histogram at hh
      split at hh
      · rw [← hh]
      · split at hh
        · rw [← hh]
        · cases hh
    | ok h =>
      obtain ⟨rfl, hne⟩ := histogram_ok hh
      dsimp only
      have hl3 : (binWaveforms edges (((activePositions j.pmts).map fun i => (e.pmt.map (subtractBaseline .mode)).getD i []).map (sums (light 25 j.start j.width j.period) j.nIntegrals))).length = (j.pmts.filter fun p => decide (p.active ≠ 0)).length := by
        unfold binWaveforms
        rw [List.length_map, List.length_map, List.length_map, hlen]
      have hz : (zeros j.pmts.length (centres edges).length).length = j.pmts.length := by simp [zeros]
      have hle : (j.pmts.filter fun p => decide (p.active ≠ 0)).length ≤ j.pmts.length := List.length_filter_le ..
      have hn0 : (j.pmts.filter fun p => decide (p.active ≠ 0)).length ≠ 0 := by
        rw [List.length_map, List.length_map, hlen] at hne
        exact hne
      unfold addHist
      rw [hz, hl3, if_neg (fun h => h1 h.symm), if_neg h2, if_neg (by omega)]
  unfold produce
  rw [loop_cons, hp]
  simp only [List.map_cons, List.map_nil, List.zip_cons_cons, List.mapM_cons, hacc, bind, Except.bind]

theorem fold_one {ns : Nat} (hns : ns ≠ 1) : ∀ (hs : List Hist) (r : List Nat) (out : Hist), (∀ h ∈ hs, h.length = 1) → fold (List.replicate ns r) hs = .ok out → ∃ r', out = List.replicate ns r' := by
  intro hs
  induction hs with
  | nil => intro r out _ h; exact ⟨r, (Except.ok.inj h).symm⟩
  | cons h hs ih =>
    intro r out hl hf
    have e : addHist (List.replicate ns r) h = .ok (List.replicate ns (List.zipWith (· + ·) r (h.getD 0 []))) := by
      unfold addHist
      rw [List.length_replicate, hl h (List.mem_cons_self ..), if_neg hns, if_pos rfl, List.map_replicate]
    rw [fold_cons, e] at hf
    exact ih _ _ (fun x hx => hl x (List.mem_cons_of_mem _ hx)) hf

/-- C113: if only one PMT is active, without deconvolution phyllis ends well, and all the PMTs have the same histogram (the example of `Props/CalibBerenice` shows that it is that of the active one). -/
theorem phyllis_one {j : Job} {es : List Event} {o : Out} (hw : 0 < j.binWidth) (hg : GoodWindows j 25 j.pmtLength) (hs : ∀ e ∈ es, e.pmtLength = j.pmtLength) (hn : j.pmts.length ≠ 1)
    (h1 : (j.pmts.filter fun p => decide (p.active ≠ 0)).length = 1) (h : phyllis j .gainNodeconv es = (some o, .ok ())) : ∀ x ∈ o.hists, ∃ r, x.2.2 = List.replicate j.pmts.length r := by
  unfold phyllis lightDark at h
  cases hb : binEdges j.minBin j.maxBin j.binWidth with
  | error e => rw [hb] at h; cases h
  | ok edges =>
    rw [hb] at h
    dsimp only at h
    obtain ⟨l, d, e1, e2⟩ := good_limits hg
    rw [e1] at h
    dsimp only at h
    cases hpr : produce (phyllisProcess j .gainNodeconv) [("pmt" ++ "_spe", integrals edges l), ("pmt" ++ "_dark", integrals edges d)] j.pmts.length edges es with
    | mk o' r =>
      rw [hpr] at h
      obtain ⟨q1, q2⟩ := Prod.mk.inj h
      obtain rfl := Option.some.inj q1
      dsimp only at q2
      subst q2
      obtain ⟨hns, nb, hnb, hbins, rfl, hrows, ws, hws, hlen, hh⟩ := produce_ok hw hb (by simp) hpr
      have hwl : ∀ m ∈ ws, m.rows.length = 1 ∧ m.ncols = j.pmtLength := by
        intro m hm
        obtain ⟨i, hi⟩ := List.getElem?_of_mem hm
        have hl := hws.length_eq
        obtain ⟨hi', rfl⟩ := List.getElem?_eq_some_iff.1 hi
        have hp := (List.forall₂_iff_get.1 hws).2 i (by omega) hi'
        simp only [List.get_eq_getElem] at hp
        unfold phyllisProcess at hp
        dsimp only at hp
        cases hmm : (activePositions j.pmts).mapM (rowAt (es[i].pmt.map (subtractBaseline .mode))) with
        | error err => rw [hmm] at hp; cases hp
        | ok out =>
          rw [hmm] at hp
          rw [← Except.ok.inj hp]
          refine ⟨?_, hs _ (List.getElem_mem _)⟩
          show out.length = 1
          rw [mapM_rowAt hmm, List.length_map, active_count, h1]
      have hone : ∀ (lim : List Int) (win : Nat → Int × Int), (∀ m : Mat, m.ncols = j.pmtLength → integrate lim m = .ok (m.rows.map (sums win j.nIntegrals))) → ∀ (hs : List Hist) (hist : Hist),
          List.Forall₂ (fun w h => integrals (grid j.minBin j.binWidth nb) lim w = .ok h) ws hs → fold (zeros j.pmts.length nb) hs = .ok hist → ∃ r, hist = List.replicate j.pmts.length r := by
        intro lim win hlim hs' hist f1 f2
        refine fold_one hn hs' _ _ (fun h hh => ?_) f2
        obtain ⟨i, hi⟩ := List.getElem?_of_mem hh
        have hl := f1.length_eq
        obtain ⟨hi', rfl⟩ := List.getElem?_eq_some_iff.1 hi
        have hq := (List.forall₂_iff_get.1 f1).2 i (by omega) hi'
        simp only [List.get_eq_getElem] at hq
        obtain ⟨l1, l2⟩ := hwl (ws[i]'(by omega)) (List.getElem_mem _)
        unfold integrals at hq
        rw [hlim _ l2] at hq
        rw [(histogram_ok hq).1]
        unfold binWaveforms
        rw [List.length_map, List.length_map, l1]
      intro x hx
      obtain ⟨i, hi⟩ := List.getElem?_of_mem hx
      have hil : i < 2 := by have := (List.getElem?_eq_some_iff.1 hi).1; rw [hlen] at this; exact this
      match i, hil with
      | 0, _ =>
        obtain ⟨hist, s1, hs', s3, s4⟩ := hh 0 _ _ rfl
        rw [s1] at hi
        obtain rfl := Option.some.inj hi
        exact hone l _ (fun m h => (e2 m h).1) hs' hist s3 s4
      | 1, _ =>
        obtain ⟨hist, s1, hs', s3, s4⟩ := hh 1 _ _ rfl
        rw [s1] at hi
        obtain rfl := Option.some.inj hi
        exact hone d _ (fun m h => (e2 m h).2) hs' hist s3 s4

end Verif.CalibCity
