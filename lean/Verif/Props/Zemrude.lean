import Verif.Spec.Zemrude
import Verif.Props.Selection
import Verif.Props.KrMap
import Verif.Props.KrApply
import Verif.Props.TimeEvol
import Mathlib.Control.Monad.Basic
/-!
# C105: zemrude
-/
namespace Verif.Zemrude
open Verif.Selection (Before Alone After Kept numEvents)

/-! ### Columns -/

theorem sel_eq : Kr.sel = selCols := rfl
theorem evt_eq : Kr.evt = mapCols := rfl
theorem hit_eq : Kr.hit = hitCols := rfl
theorem slice_eq : Kr.slice = sliceCols := rfl
theorem bin_eq : binOf = binCols := rfl

/-! ### Whole rows -/

/-- The rows selected are those of the selection, with all their columns. -/
theorem select_whole {c : Config} {dst : List Kr} {sel : List Kr} {effs : Selection.Effs} (h : select c dst = .ok (sel, effs)) :
    Selection.applySelections c.cuts (dst.map Kr.sel) = .ok (sel.map Kr.sel, effs) ∧ sel.Sublist dst := by
  unfold select at h
  cases hs : Selection.applySelections c.cuts (dst.map Kr.sel) with
  | error e => simp [hs] at h
  | ok re =>
    obtain ⟨rows, e⟩ := re
    simp only [hs, Except.ok.injEq, Prod.mk.injEq] at h
    obtain ⟨rfl, rfl⟩ := h
    refine ⟨?_, List.filter_sublist⟩
    have h6 : Selection.t6 c.cuts (dst.map Kr.sel) ≠ [] := by
      intro h6
      rw [Selection.apply_error _ _ h6] at hs
      cases hs
    rw [Selection.apply_ok _ _ h6] at hs
    obtain ⟨hr, _⟩ := Prod.mk.inj (Except.ok.inj hs)
    have hf : ∃ p : Selection.Row → Bool, rows = (dst.map Kr.sel).filter p := by
      rw [← hr]
      unfold Selection.t7 Selection.t6 Selection.t5 Selection.t4 Selection.singles Selection.t3 Selection.t2 Selection.t1
      simp only [List.filter_filter]
      exact ⟨_, rfl⟩
    obtain ⟨p, hp⟩ := hf
    have : (dst.filter fun k => decide (k.sel ∈ rows)) = dst.filter fun k => p k.sel := by
      apply List.filter_congr
      intro k hk
      rw [hp, Bool.eq_iff_iff, decide_eq_true_eq, List.mem_filter]
      exact ⟨fun h => h.2, fun h => ⟨List.mem_map_of_mem hk, h⟩⟩
    rw [this]
    have hm : (dst.filter fun k => p k.sel).map Kr.sel = rows := by
      rw [hp, List.filter_map]; rfl
    rw [hm]

theorem sel_time (dst : List Kr) : ∀ r ∈ dst.map Kr.sel, r.time ≠ none := by
  intro r hr
  obtain ⟨k, _, rfl⟩ := List.mem_map.1 hr
  simp [Kr.sel]

/-! ### Corrections -/

theorem correct_spec {v : Env} (hp : KrApply.Nearest v.pick) (hk : v.keV ≠ 0) {c : Config} {krmap : List KrApply.Bin} (hu : Usable c krmap) (put : Kr → Option ℚ → Kr) (dst : List Kr) :
    ∃ out, correct v c krmap put dst = .ok out ∧ List.Forall₂ (fun k k' => ∃ e, CorrectedBy krmap k e ∧ k' = put k e) dst out := by
  obtain ⟨⟨n, hn, hn0⟩, hz⟩ := hu
  obtain ⟨ec, h1, h2⟩ := KrApply.corrected_energy hp v.keV krmap c.norm c.region n hn hn0 hz v.keV hk (dst.map Kr.hit)
  refine ⟨_, by simp only [correct, h1]; rfl, ?_⟩
  rw [List.forall₂_map_left_iff] at h2
  clear h1
  induction h2 with
  | nil => exact .nil
  | cons h _ ih =>
    refine .cons ?_ ih
    obtain ⟨b, mu, hb, he⟩ := h
    refine ⟨_, ⟨b, mu, hb, rfl⟩, ?_⟩
    rw [he]
    congr 2
    rw [div_eq_iff hk]
    simp only [Kr.hit]
    ring

theorem correct_length {v : Env} {c : Config} {krmap : List KrApply.Bin} {put : Kr → Option ℚ → Kr} {dst out : List Kr} (h : correct v c krmap put dst = .ok out) :
    List.Forall₂ (fun k k' => ∃ e, k' = put k e) dst out := by
  unfold correct at h
  cases ha : KrApply.apply3D v.pick v.keV krmap c.norm c.region (some v.keV) (dst.map Kr.hit) with
  | error e => simp [ha] at h
  | ok es =>
    simp only [ha, Except.ok.injEq] at h
    subst h
    have hl : es.length = dst.length := by
      unfold KrApply.apply3D at ha
      split at ha
      · cases ha
      · split at ha
        · cases ha
        · simp only [Except.ok.injEq] at ha
          subst ha
          simp
    rw [List.forall₂_iff_get]
    refine ⟨by simp [hl], fun i h1 h2 => ⟨es[i]'(by omega), by simp⟩⟩

/-! ### The map -/

theorem map_spec {w : Bool} {fit : List ℚ → KrMap.Fit} {c : Config} (hg : Good c) {rows : List Kr} {krmap : List KrMap.Out}
    (h : KrMap.computeMap w c.map fit (rows.map Kr.evt) = .ok krmap) : IsMap fit c.map rows krmap ∧ rows ≠ [] := by
  rw [evt_eq] at h
  have hne : rows.map mapCols ≠ [] := by
    intro h0
    rw [h0, KrMap.computeMap] at h
    split at h
    · cases h
    · simp at h
  refine ⟨?_, by simpa using hne⟩
  obtain ⟨mu, h1, h2, h3⟩ := (KrMap.compute_spec hg.xy hg.dt hg.nxy hg.ndt fit _ hne w).2 krmap h
  obtain ⟨m1, m2⟩ := KrMap.map_rows hg.xy hg.dt hg.nxy hg.ndt fit (rows.map mapCols)
  set full := KrMap.fullMap c.map fit (rows.map mapCols) with hfull
  have hlen : (full.map fun r => r.fit.mu).length = c.map.ndt * c.map.nxy * c.map.nxy := by
    have := congrArg List.length m1
    rw [List.length_map, List.length_map, KrMap.cells_length] at this
    rw [List.length_map, this]
  have hget : ∀ (n : Nat) (o : KrMap.Out), krmap[n]? = some o → ∃ r, full[n]? = some r ∧ o = { r with fit := { r.fit with mu := (mu[n]?).join } } := by
    intro n o ho
    have hn : n < full.length := by
      rw [← h2]
      exact (List.getElem?_eq_some_iff.1 ho).1
    refine ⟨full[n], List.getElem?_eq_getElem hn, ?_⟩
    have := h3 n full[n] (List.getElem?_eq_getElem hn)
    rw [ho, Option.some.injEq] at this
    exact this
  have hkeep : ∀ (n : Nat) (r : KrMap.Out) (m : ℚ), full[n]? = some r → r.fit.mu = some m → (mu[n]?).join = some m := by
    intro n r m hr hm
    have hcell : ∃ p, (KrMap.cells c.map.ndt c.map.nxy c.map.nxy)[n]? = some p := by
      have hn := (List.getElem?_eq_some_iff.1 hr).1
      have hl := congrArg List.length m1
      rw [List.length_map, List.length_map] at hl
      exact ⟨_, List.getElem?_eq_getElem (by omega)⟩
    obtain ⟨⟨k, i, j⟩, hp⟩ := hcell
    obtain ⟨hk, hi, hj⟩ := KrMap.mem_cells.1 (List.mem_of_getElem? hp)
    have hflat : KrMap.flat c.map.nxy c.map.nxy k i j = n := by
      have hc := KrMap.cells_get hk hi hj
      have hnd : (KrMap.cells c.map.ndt c.map.nxy c.map.nxy).Nodup := by
        have := (KrMap.cells_sorted c.map.ndt c.map.nxy c.map.nxy).imp (S := fun a b => a ≠ b) fun h => h.2
        exact List.Nodup.of_map _ this
      exact (List.getElem?_inj (List.getElem?_eq_some_iff.1 hc).1 hnd).1 (hc.trans hp.symm)
    have hv : KrMap.value c.map.nxy c.map.nxy (full.map fun r => r.fit.mu) k i j = some m := by
      rw [KrMap.value, hflat, List.getElem?_map, hr]
      simpa using hm
    have hout : KrMap.value c.map.nxy c.map.nxy mu k i j = some m := by
      cases w with
      | true =>
        obtain ⟨out, o1, _, o3⟩ := KrMap.regularize_spec (nk := c.map.ndt) (ni := c.map.nxy) (nj := c.map.nxy) _ hlen
        rw [h1, Except.ok.injEq] at o1
        subst o1
        rw [(o3 k i j hk hi hj).1 (Or.inl (by rw [hv]; rfl)), hv]
      | false =>
        obtain ⟨o1, o2⟩ := KrMap.regularize_readonly (nk := c.map.ndt) (ni := c.map.nxy) (nj := c.map.nxy) _ hlen
        by_cases hex : ∃ k i j, k < c.map.ndt ∧ KrMap.Inside c.map.nxy c.map.nxy i j ∧ KrMap.value c.map.nxy c.map.nxy (full.map fun r => r.fit.mu) k i j = none ∧
            ((KrMap.around i j).map fun p => KrMap.value c.map.nxy c.map.nxy (full.map fun r => r.fit.mu) k p.1 p.2).countP Option.isNone ≤ 3
        · rw [o1 hex] at h1; cases h1
        · rw [o2 hex, Except.ok.injEq] at h1
          rw [← h1, hv]
    rw [KrMap.value, hflat] at hout
    exact hout
  refine ⟨?_, ?_⟩
  · rw [← m1]
    apply List.ext_getElem?
    intro n
    rw [List.getElem?_map, List.getElem?_map]
    cases ho : krmap[n]? with
    | none =>
      rw [List.getElem?_eq_none_iff] at ho
      rw [List.getElem?_eq_none_iff.2 (by omega)]
    | some o =>
      obtain ⟨r, hr, he⟩ := hget n o ho
      rw [hr, he]; rfl
  · intro o ho
    obtain ⟨n, hn⟩ := List.mem_iff_getElem?.1 ho
    obtain ⟨r, hr, he⟩ := hget n o hn
    obtain ⟨k, i, j, _, _, _, a1, a2, a3, a4, a5, a6, a7⟩ := m2 r (List.mem_of_getElem? hr)
    refine ⟨k, i, j, by rw [he]; exact a1, by rw [he]; exact a2, by rw [he]; exact a3, by rw [he]; exact a4, by rw [he]; exact a5, by rw [he]; exact a6, ?_, ?_⟩
    · intro h0
      rw [he]
      simp only [a7, if_pos h0]
    · intro h0
      rw [if_neg h0] at a7
      refine ⟨by rw [he]; simp only [a7], fun m hm => ?_⟩
      rw [he]
      exact hkeep n r m hr (by rw [a7]; exact hm)

theorem meta_spec {fit : List ℚ → KrMap.Fit} {c : Config} {rows : List Kr} {krmap : List KrMap.Out} (hg : Good c) (hm : IsMap fit c.map rows krmap) (hne : rows ≠ []) :
    IsMeta c.map rows (metadata c rows krmap) := by
  have hmax : ∀ f : Kr → ℚ, ∃ k ∈ rows, Voxels.npMax (rows.map f) = f k ∧ ∀ k' ∈ rows, f k' ≤ f k := by
    intro f
    obtain ⟨k, hk, he⟩ := List.mem_map.1 (Paolina.npMax_mem (xs := rows.map f) (by simpa using hne))
    refine ⟨k, hk, he.symm, fun k' hk' => ?_⟩
    rw [he]
    exact Voxels.le_npMax (List.mem_map_of_mem hk')
  have hbins : ∀ (g : Int × Int × Int → Int) (n : Int), n ∈ krmap.map (fun o => g (o.k, o.i, o.j)) ↔
      ∃ p ∈ KrMap.cells c.map.ndt c.map.nxy c.map.nxy, g ((p.1 : Int), (p.2.1 : Int), (p.2.2 : Int)) = n := by
    intro g n
    have : krmap.map (fun o => g (o.k, o.i, o.j)) = (krmap.map fun o => (o.k, o.i, o.j)).map g := by rw [List.map_map]; rfl
    rw [this, hm.bins, List.map_map, List.mem_map]
    rfl
  refine ⟨rfl, ?_, ?_, ⟨rfl, rfl⟩, ⟨PMapsIO.unique_nodup _, fun n => ?_⟩, ⟨PMapsIO.unique_nodup _, fun n => ?_⟩, ⟨PMapsIO.unique_nodup _, fun n => ?_⟩⟩
  · obtain ⟨k, hk, h1, h2⟩ := hmax Kr.r
    exact ⟨k, hk, by simp only [metadata, if_neg hne, h1], h2⟩
  · obtain ⟨k, hk, h1, h2⟩ := hmax Kr.z
    exact ⟨k, hk, by simp only [metadata, if_neg hne, h1], h2⟩
  · simp only [metadata, PMapsIO.mem_unique]
    rw [hbins (fun p => p.1) n]
    constructor
    · rintro ⟨p, hp, rfl⟩
      exact ⟨p.1, (KrMap.mem_cells.1 hp).1, rfl⟩
    · rintro ⟨k, hk, rfl⟩
      exact ⟨(k, 0, 0), KrMap.mem_cells.2 ⟨hk, hg.nxy, hg.nxy⟩, rfl⟩
  · simp only [metadata, PMapsIO.mem_unique]
    rw [hbins (fun p => p.2.1) n]
    constructor
    · rintro ⟨p, hp, rfl⟩
      exact ⟨p.2.1, (KrMap.mem_cells.1 hp).2.1, rfl⟩
    · rintro ⟨k, hk, rfl⟩
      exact ⟨(0, k, 0), KrMap.mem_cells.2 ⟨hg.ndt, hk, hg.nxy⟩, rfl⟩
  · simp only [metadata, PMapsIO.mem_unique]
    rw [hbins (fun p => p.2.2) n]
    constructor
    · rintro ⟨p, hp, rfl⟩
      exact ⟨p.2.2, (KrMap.mem_cells.1 hp).2.2, rfl⟩
    · rintro ⟨k, hk, rfl⟩
      exact ⟨(0, 0, k), KrMap.mem_cells.2 ⟨hg.ndt, hg.nxy, hk⟩, rfl⟩

/-! ### The pipe -/

/-- **C105** What is saved: the energies of all the rows are corrected with the preliminary map; the map is that of the rows selected with those energies, and so are the metadata and the efficiencies; the same rows are
corrected with the map itself, if it is usable, and divided in slices of time. -/
theorem process_spec {v : Env} (hp : KrApply.Nearest v.pick) (hk : v.keV ≠ 0) {c : Config} (hg : Good c) {preMap : List KrApply.Bin} (hu : Usable c preMap) {run : Int} {dst : List Kr} {r : Result}
    (h : process v c preMap run dst = .ok r) :
    ∃ pre sel, List.Forall₂ (fun k k' => ∃ e, CorrectedBy preMap k e ∧ k' = { k with ec := e }) dst pre ∧
      sel.Sublist pre ∧ Kept (fun s => (Before c.cuts s ∧ Alone c.cuts (pre.map selCols) s) ∧ After c.cuts s) (pre.map selCols) (sel.map selCols) ∧
      r.effs.total = numEvents (sel.map selCols) / numEvents (dst.map selCols) ∧ sel ≠ [] ∧
      r.effs.total = r.effs.band * r.effs.xrays * r.effs.s2t * r.effs.single * r.effs.rmax * r.effs.dt * r.effs.nsipm ∧
      IsMap v.fit c.map sel r.krmap ∧ IsMeta c.map sel r.info ∧
      List.Forall₂ (fun k k' => ∃ e, (Usable c (r.krmap.map binCols) → CorrectedBy (r.krmap.map binCols) k e) ∧ k' = { k with ec2 := e }) sel r.corrected ∧
      ∀ first ∈ sel, (∀ k ∈ sel, first.time ≤ k.time) → ∃ qs : List Nat, qs.Pairwise (· < ·) ∧
        (∀ q, q ∈ qs ↔ ∃ k ∈ sel, TimeEvol.InSlice first.time (c.sliceHours * 3600) q k.time) ∧
        r.evol = qs.map fun q => (fun s => (⟨TimeEvol.single run c.s1DT s, v.energy (s.map TimeEvol.Row.ec), v.energy (s.map TimeEvol.Row.ec2)⟩ : Evol))
          (TimeEvol.slice first.time (c.sliceHours * 3600) q (r.corrected.map sliceCols)) := by
  simp only [← sel_eq, ← slice_eq, ← bin_eq]
  unfold process at h
  obtain ⟨pre, h1, h2⟩ := correct_spec hp hk hu putEc dst
  simp only [h1] at h
  cases h3 : select c pre with
  | error e => simp [h3] at h
  | ok re =>
  obtain ⟨sel, effs⟩ := re
  simp only [h3] at h
  cases h4 : KrMap.computeMap v.writable c.map v.fit (sel.map Kr.evt) with
  | error e => simp [h4] at h
  | ok krmap =>
  simp only [h4] at h
  cases h5 : correct v c (krmap.map binOf) putEc2 sel with
  | error e => simp [h5] at h
  | ok corr =>
  simp only [h5] at h
  cases h6 : TimeEvol.timeEvol (analysis v c run) c.sliceHours (corr.map Kr.slice) with
  | error e => simp [h6] at h
  | ok evol =>
  simp only [h6, Except.ok.injEq] at h
  subst h
  obtain ⟨hs, hsub⟩ := select_whole h3
  obtain ⟨hm, hne⟩ := map_spec hg h4
  have hsel := Selection.selected_rows c.cuts _ (sel_time pre) _ _ hs
  have hnum : numEvents (pre.map Kr.sel) = numEvents (dst.map Kr.sel) := by
    have : (pre.map Kr.sel).map Selection.Row.event = (dst.map Kr.sel).map Selection.Row.event := by
      rw [List.map_map, List.map_map]
      clear h1 h3 hs hsub hsel
      induction h2 with
      | nil => rfl
      | cons hh _ ih =>
        obtain ⟨e, _, rfl⟩ := hh
        rw [List.map_cons, List.map_cons, ih]; rfl
    rw [numEvents, numEvents, this]
  have hcorr : List.Forall₂ (fun k k' => ∃ e, (Usable c (krmap.map binOf) → CorrectedBy (krmap.map binOf) k e) ∧ k' = putEc2 k e) sel corr := by
    by_cases hus : Usable c (krmap.map binOf)
    · obtain ⟨out, o1, o2⟩ := correct_spec hp hk hus putEc2 sel
      rw [h5, Except.ok.injEq] at o1
      subst o1
      exact o2.imp fun k k' ⟨e, a, b⟩ => ⟨e, fun _ => a, b⟩
    · exact (correct_length h5).imp fun k k' ⟨e, b⟩ => ⟨e, fun h => absurd h hus, b⟩
  refine ⟨pre, sel, h2, hsub, hsel.1, ?_, hne, (Selection.efficiencies_multiply c.cuts _ _ _ hs).1, hm, meta_spec hg hm hne, hcorr, ?_⟩
  · obtain ⟨_, _, _, _, _, _, _, _, _, _, _, _, _, _, _, _, _, _, _, _, he⟩ := Selection.efficiencies_spec c.cuts _ (sel_time pre) _ _ hs
    rw [he, hnum]
  · intro first hf hmin
    have hback : ∀ k' ∈ corr, ∃ k ∈ sel, k'.time = k.time := by
      intro k' hk'
      obtain ⟨i, hi⟩ := List.mem_iff_getElem?.1 hk'
      have hi' := (List.getElem?_eq_some_iff.1 hi).1
      rw [List.forall₂_iff_get] at hcorr
      obtain ⟨hl, hc⟩ := hcorr
      obtain ⟨e, _, he⟩ := hc i (by omega) hi'
      have : k' = corr.get ⟨i, hi'⟩ := by simpa using (List.getElem?_eq_some_iff.1 hi).2.symm
      rw [this, he]
      exact ⟨_, List.get_mem _ _, rfl⟩
    have hforth : ∀ k ∈ sel, ∃ k' ∈ corr, k'.time = k.time := by
      intro k hk
      obtain ⟨i, hi⟩ := List.mem_iff_getElem?.1 hk
      have hi' := (List.getElem?_eq_some_iff.1 hi).1
      rw [List.forall₂_iff_get] at hcorr
      obtain ⟨hl, hc⟩ := hcorr
      obtain ⟨e, _, he⟩ := hc i hi' (by omega)
      refine ⟨corr.get ⟨i, by omega⟩, List.get_mem _ _, ?_⟩
      rw [he]
      have : sel.get ⟨i, hi'⟩ = k := by simpa using (List.getElem?_eq_some_iff.1 hi).2
      rw [this]; rfl
    obtain ⟨f', hf', hft⟩ := hforth first hf
    obtain ⟨qs, q1, q2, q3, _⟩ := TimeEvol.slices_spec (analysis v c run) c.sliceHours hg.hours (corr.map Kr.slice) f'.slice (List.mem_map_of_mem hf') (by
      intro s hs
      obtain ⟨k', hk', rfl⟩ := List.mem_map.1 hs
      obtain ⟨k, hk, hkt⟩ := hback k' hk'
      change f'.time ≤ k'.time
      rw [hft, hkt]
      exact hmin k hk)
    have hfs : f'.slice.time = first.time := hft
    rw [hfs] at q2 q3
    rw [h6, Except.ok.injEq] at q3
    refine ⟨qs, q1, fun q => ?_, q3⟩
    rw [q2]
    constructor
    · rintro ⟨s, hs, hq⟩
      obtain ⟨k', hk', rfl⟩ := List.mem_map.1 hs
      obtain ⟨k, hk, hkt⟩ := hback k' hk'
      refine ⟨k, hk, ?_⟩
      rw [← hkt]
      exact hq
    · rintro ⟨k, hk, hq⟩
      obtain ⟨k', hk', hkt⟩ := hforth k hk
      refine ⟨k'.slice, List.mem_map_of_mem hk', ?_⟩
      change TimeEvol.InSlice _ _ _ k'.time
      rw [hkt]
      exact hq

/-! ### The file -/

/-- What the writer does with a table that exists: its rows, then the new ones. -/
theorem dfWriter_appends {f : File} {path : String} {a b : List KrMap.Out} (h : f.lookup path = some (.krmap a)) :
    ∃ g, dfWriter f path (.krmap b) = .ok g ∧ g.lookup path = some (.krmap (a ++ b)) ∧ ∀ p, p ≠ path → g.lookup p = f.lookup p := by
  refine ⟨_, by simp only [dfWriter, h, Table.append]; rfl, ?_⟩
  induction f with
  | nil => simp at h
  | cons x xs ih =>
    obtain ⟨k, t⟩ := x
    rw [List.lookup_cons] at h
    by_cases hk : k = path
    · subst hk
      refine ⟨by simp, fun p hp => ?_⟩
      have hb : (p == k) = false := by simpa using hp
      simp only [List.map_cons, if_true, List.lookup_cons, hb]
      have : ∀ ys : File, (ys.map fun kv => if kv.1 = k then (k, Table.krmap (a ++ b)) else kv).lookup p = ys.lookup p := by
        intro ys
        induction ys with
        | nil => rfl
        | cons y ys ih2 =>
          obtain ⟨m, u⟩ := y
          by_cases hm : m = k
          · subst hm; simp only [List.map_cons, if_true, List.lookup_cons, hb, ih2]
          · simp only [List.map_cons, if_neg hm, List.lookup_cons, ih2]
      exact this xs
    · have hb : (path == k) = false := by simpa using fun e => hk e.symm
      rw [hb] at h
      obtain ⟨i1, i2⟩ := ih h
      refine ⟨by simp only [List.map_cons, if_neg hk, List.lookup_cons, hb]; exact i1, fun p hp => ?_⟩
      simp only [List.map_cons, if_neg hk, List.lookup_cons, i2 p hp]
example : ∃ g, dfWriter [("a", .krmap []), ("b", .other 1)] "a" (.krmap []) = .ok g ∧ g.lookup "a" = some (.krmap []) := ⟨_, rfl, rfl⟩

theorem save_ok (old : File) (effs : Selection.Effs) (krmap : List KrMap.Out) (m : Meta) (evol : List Evol) :
    saveMap old effs krmap m evol = .ok [("metadata", .info m), ("data/selection_efficiencies", .effs [effs]), ("krmap/krmap", .krmap krmap), ("t_evol/t_evol", .evol evol)] := by
  simp [saveMap, openW, dfWriter, List.lookup]

/-- **C105** A job that ends leaves a file with exactly four tables (map, time evolution, efficiencies and metadata), those of all the rows of all the files with the run number of the first one, whatever was in the file before; and
`load_map` gives them back. -/
theorem zemrude_saves {v : Env} {c : Config} {preMap : List KrApply.Bin} {f : Input} {fs : List Input} {r : Result} (h : process v c preMap f.run ((f :: fs).flatMap Input.rows) = .ok r) (old : File) :
    (zemrude v c preMap (f :: fs) old).2 = .ok () ∧ (zemrude v c preMap (f :: fs) old).1.length = 4 ∧
    loadMap (zemrude v c preMap (f :: fs) old).1 = .ok (.krmap r.krmap, .evol r.evol, .effs [r.effs], .info r.info) := by
  have : zemrude v c preMap (f :: fs) old = ([("metadata", .info r.info), ("data/selection_efficiencies", .effs [r.effs]), ("krmap/krmap", .krmap r.krmap), ("t_evol/t_evol", .evol r.evol)], .ok ()) := by
    simp only [zemrude, source, h, save_ok]
  rw [this]
  refine ⟨rfl, rfl, ?_⟩
  simp [loadMap, List.lookup]

/-- **C105** A job that fails leaves an empty file, from which no map can be loaded: if there was a map, it is lost. -/
theorem zemrude_fails {v : Env} {c : Config} {preMap : List KrApply.Bin} {files : List Input} {old : File} {e : PyErr} (h : (zemrude v c preMap files old).2 = .error e) :
    (zemrude v c preMap files old).1 = [] ∧ loadMap (zemrude v c preMap files old).1 = .error .keyError := by
  suffices hs : (zemrude v c preMap files old).1 = [] by
    rw [hs]
    exact ⟨rfl, rfl⟩
  unfold zemrude at h ⊢
  cases h1 : source files with
  | error e => rfl
  | ok p =>
    simp only [h1] at h ⊢
    cases h2 : process v c preMap p.1 p.2 with
    | error e => rfl
    | ok r => simp only [h2, save_ok] at h; cases h

/-- **C105** No event left by the selection: the job fails. -/
theorem no_events_fails {v : Env} {c : Config} {preMap : List KrApply.Bin} {files : List Input} {old : File} (h : ∀ s, ¬ (Before c.cuts s ∧ After c.cuts s)) :
    ∃ e, (zemrude v c preMap files old).2 = .error e := by
  unfold zemrude
  cases h1 : source files with
  | error e => exact ⟨e, rfl⟩
  | ok p =>
    simp only
    cases h2 : process v c preMap p.1 p.2 with
    | error e => exact ⟨e, rfl⟩
    | ok r =>
      exfalso
      unfold process at h2
      split at h2
      · cases h2
      · rename_i pre _
        cases h3 : select c pre with
        | error e => simp [h3] at h2
        | ok re =>
          obtain ⟨sel, effs⟩ := re
          simp only [h3] at h2
          obtain ⟨hs, _⟩ := select_whole h3
          have hk := Selection.selected_rows c.cuts _ (sel_time pre) _ _ hs
          have : sel = [] := by
            cases sel with
            | nil => rfl
            | cons k ks =>
              have := (hk.1.2 k.sel).1 (by simp)
              exact absurd ⟨this.2.1.1, this.2.2⟩ (h _)
          subst this
          simp only [List.map_nil, KrMap.computeMap] at h2
          split at h2
          · cases h2
          · rename_i he
            split at he
            · cases he
            · simp at he


/-! ### Non-vacuity -/

/-- One bin, one event selected of three; preliminary map of one bin. -/
def exCfg : Config := ⟨.maximum, none, ⟨fun _ => 0, fun _ => 100, 0, 1000, 0, 10, 50, 0, 100, 1, 20⟩, ⟨(0, 20), (0, 10), 2, 1, (1, 1000)⟩, 1, (0, 10)⟩

/-- Fit: number of events and sum; energy: the first one. -/
def exEnv : Env := ⟨KrApply.firstNearest, fun l => ⟨some l.length, some l.sum, none, none, none⟩, fun l => l.headD none, 1, true⟩

def exPre : List KrApply.Bin := [⟨0, 5, 10, 10, some 100⟩]

def exFiles : List Input := [⟨7, [{ event := 1, time := 0, x := 5, y := 5, z := 3, r := 7, zrms := 1, dt := 3, s1e := 4, s2e := 200, s2t := 5, nsipm := 4 }]⟩,
  ⟨8, [{ event := 2, time := 3600, x := 15, y := 5, z := 9, r := 8, zrms := 1, dt := 3, s1e := 4, s2e := 50, s2t := 5, nsipm := 4 },
       { event := 3, time := 3600, x := 15, y := 5, z := 9, r := 8, zrms := 1, dt := 3, s1e := 4, s2e := 50, s2t := 5, nsipm := 40 }]⟩]

example : Good exCfg := ⟨by simp [exCfg], by simp [exCfg], by simp [exCfg], by simp [exCfg], by simp [exCfg]⟩
example : Usable exCfg exPre := ⟨⟨100, by decide +kernel, by norm_num⟩, by simp [exPre]⟩
example : exEnv.keV ≠ 0 := by simp [exEnv]

example : (match zemrude exEnv exCfg exPre exFiles [("old", .other 3)] with
    | (f, .ok ()) => match loadMap f with
      | .ok (.krmap m, .evol t, .effs [e], .info i) => decide (m.map (fun o => o.fit.mu) = [some 200, none, some 50, none] ∧
          t.map (fun s => (s.base.run, s.base.nevents, s.ecPrelim)) = [(7, 1, some (831 / 10)), (7, 1, some (831 / 40))] ∧ e.total = 2 / 3 ∧ i.extent = 2 ∧ i.rmax = some 8)
      | _ => false
    | _ => false) = true := by decide +kernel

/-- A failure loses the map of before. -/
example : (zemrude exEnv { exCfg with sliceHours := 0 } exPre exFiles [("krmap/krmap", .krmap [])]) = ([], .error .zeroDivision) := by decide +kernel
example : ∀ s, ¬ (Before { exCfg.cuts with rMax := -1 } s ∧ After { exCfg.cuts with rMax := -1 } s) := by
  rintro s ⟨_, ⟨x, _, h1, h2⟩, _⟩
  have h2' : x < -1 := h2
  linarith

end Verif.Zemrude
