import Verif.Spec.Beersheba
import Verif.Props.Esmeralda
import Verif.Props.Sources
import Verif.Props.DeconvEvents
import Verif.Props.DeconvSliceEvent
/-!
# The events of beersheba (property C124)
-/
namespace Verif.Beersheba
open Verif.Esmeralda (InHit)
open Verif.Deconv (Row colSum Redistributed peak Key cutOverQ dropIsolated)

/-! ### The threshold -/

/-- The configuration of esmeralda with the same corrections and threshold. -/
def esm (c : Cfg) (r : ℚ) : Esmeralda.Cfg := ⟨c.pick, c.keV, c.mev, c.krmap, c.dvs, c.applyTemp, c.method, c.xy, c.applyZ, r, c.threshold, c.samePeak, ShortestPaths.taxiParams⟩

/-- A radius with all the hits inside. -/
theorem exists_radius (hits : List InHit) : ∃ r : ℚ, 0 ≤ r ∧ ∀ h ∈ hits, h.x ^ 2 + h.y ^ 2 < r ^ 2 := by
  induction hits with
  | nil => exact ⟨0, le_refl _, fun h hh => by cases hh⟩
  | cons a l ih =>
    obtain ⟨r, h0, hr⟩ := ih
    refine ⟨max r (a.x ^ 2 + a.y ^ 2 + 1), le_max_of_le_left h0, fun h hh => ?_⟩
    have hp : ∀ x : ℚ, 0 ≤ x → x ≤ max r (a.x ^ 2 + a.y ^ 2 + 1) → x ^ 2 ≤ (max r (a.x ^ 2 + a.y ^ 2 + 1)) ^ 2 := fun x hx hm => pow_le_pow_left₀ hx hm 2
    rcases List.mem_cons.1 hh with rfl | hh
    · have h1 : 0 ≤ h.x ^ 2 + h.y ^ 2 := by positivity
      refine lt_of_lt_of_le ?_ (hp (h.x ^ 2 + h.y ^ 2 + 1) (by linarith) (le_max_right _ _))
      nlinarith
    · exact lt_of_lt_of_le (hr h hh) (hp r h0 (le_max_left _ _))

theorem filter_all {α : Type} (p : α → Bool) : ∀ {l : List α}, (∀ a ∈ l, p a = true) → l.filter p = l := fun h => List.filter_eq_self.2 h

theorem lowThreshold_spec {c : Cfg} (hm : MapOk c) (ht : 0 < c.threshold) {hits : List InHit} (he : ∀ h ∈ hits, 0 ≤ h.e) :
    ∃ hs, lowThreshold c hits = .ok hs ∧ (hs.map outCols).Perm ((hits.filter fun h => decide (c.threshold ≤ h.q)).map (inCols c)) ∧
      (∀ k ∈ hs, ∃ e ec, k.e = some e ∧ 0 < e ∧ k.ec = some ec ∧ 0 < ec) ∧
      (Receivers c hits → ∃ ecs : List ℚ, List.Forall₂ (IsCorrected c) hits ecs ∧
        |(hs.map fun h => h.e.getD 0).sum - (hits.map fun h => h.e).sum| ≤ 1 / 2 ^ 52 * (hits.length + (hits.map fun h => h.e).sum / c.threshold) ∧
        |(hs.map fun h => h.ec.getD 0).sum - ecs.sum| ≤ 1 / 2 ^ 52 * (hits.length + ecs.sum / c.threshold)) := by
  obtain ⟨r, _, hr⟩ := exists_radius hits
  have hm' : Esmeralda.MapOk (esm c r) := ⟨hm.nearest, hm.noTemp, hm.norm, hm.bins, hm.keV, hm.mev⟩
  have hin : (hits.filter fun h => decide (Esmeralda.Inside (esm c r) h)) = hits := filter_all _ fun h hh => decide_eq_true (hr h hh)
  have hsv : (hits.filter fun h => decide (Esmeralda.Survives (esm c r) h)) = hits.filter fun h => decide (c.threshold ≤ h.q) := by
    apply List.filter_congr
    intro h hh
    rw [decide_eq_decide]
    exact ⟨fun x => x.2, fun x => ⟨hr h hh, x⟩⟩
  obtain ⟨ks, hk, hf⟩ := Esmeralda.correct_spec hm' hits
  have hd : Esmeralda.dropHits r ks = ks := by
    have h1 := (Esmeralda.drop_spec hf).length_eq
    rw [hin, hf.length_eq] at h1
    exact List.Sublist.eq_of_length List.filter_sublist h1.symm
  obtain ⟨hs, h1, h2, h3, h4⟩ := Esmeralda.select_spec hm' ht he
  rw [hin] at h4
  rw [hsv] at h2
  refine ⟨hs, ?_, h2, h3, fun hrec => ?_⟩
  · rw [Esmeralda.select, hk] at h1
    dsimp only at h1
    rw [show (esm c r).fiducialR = r from rfl, hd] at h1
    rw [Esmeralda.correct] at hk
    rw [lowThreshold]
    revert hk
    show (match (KrApply.correctHits c.pick c.keV c.mev c.krmap c.dvs c.applyTemp c.method c.xy c.applyZ (hits.map Esmeralda.toRow)).2 with
      | .error e => .error e
      | .ok rows => .ok (List.zipWith Esmeralda.withRow hits rows)) = Except.ok ks → _
    cases (KrApply.correctHits c.pick c.keV c.mev c.krmap c.dvs c.applyTemp c.method c.xy c.applyZ (hits.map Esmeralda.toRow)).2 with
    | error e => intro hk; cases hk
    | ok rows =>
      intro hk
      cases hk
      exact h1
  · have hrec' : Esmeralda.Receivers (esm c r) hits := by
      intro h hh _
      obtain ⟨k, hk, g1, g2⟩ := hrec h hh
      exact ⟨k, hk, ⟨hr k hk, g1⟩, g2⟩
    obtain ⟨ecs, g1, g2, g3⟩ := h4 hrec'
    exact ⟨ecs, g1, g2, g3⟩

/-! ### The sensors -/

/-- The energies of a row are positive. -/
def Pos (r : Row) : Prop := ∀ j < 2, ∃ v : ℚ, r.vals.getD j none = some v ∧ 0 < v

theorem colSum_pos {l : List Row} (h : ∀ r ∈ l, Pos r) (hne : l ≠ []) {j : Nat} (hj : j < 2) : 0 < colSum l j := by
  unfold colSum
  apply List.sum_pos
  · intro x hx
    obtain ⟨r, hr, rfl⟩ := List.mem_map.1 hx
    obtain ⟨v, h1, h2⟩ := h r hr j hj
    rw [h1]; exact h2
  · simpa using hne

/-- The columns of a row that the cuts do not change. -/
def cols (r : Row) : Int × ℚ × Int × ℚ × ℚ × ℚ × ℚ := (r.event, r.time, r.npeak, r.x, r.y, r.z, r.q)

/-- A cut of an event: in each peak some rows are kept and share the columns. -/
def Cut (keep : Key → List Row → List Row → Prop) (df out : List Row) : Prop :=
  (∀ r ∈ out, r.key ∈ df.map Row.key) ∧ ∀ k ∈ df.map Row.key, ∃ g kept, Redistributed (peak df k) kept g ∧ keep k (peak df k) kept ∧ (peak out k).map Row.unlabelled = g.map Row.unlabelled

theorem unl_cols {r s : Row} (h : r.unlabelled = s.unlabelled) : cols r = cols s ∧ r.vals = s.vals := by
  have h1 : cols r.unlabelled = cols s.unlabelled := congrArg cols h
  have h2 : r.unlabelled.vals = s.unlabelled.vals := congrArg Row.vals h
  exact ⟨h1, h2⟩

theorem fixed_cols {r s : Row} (h : r.fixed = s.fixed) : cols r = cols s := by
  have h1 : cols r.fixed = cols s.fixed := congrArg cols h
  exact h1

theorem key_of_cols {r s : Row} (h : cols r = cols s) : r.key = s.key := by
  have := congrArg (fun c : Int × ℚ × Int × ℚ × ℚ × ℚ × ℚ => (c.1, c.2.1, c.2.2.1)) h
  exact this

theorem cut_spec {keep : Key → List Row → List Row → Prop} {df out : List Row} (h : Cut keep df out) (hk : ∀ k l l', keep k l l' → ∀ r ∈ l', r ∈ l) (hp : ∀ r ∈ df, Pos r) :
    (∀ r ∈ out, Pos r) ∧ (∀ k ∈ df.map Row.key, ∃ kept, keep k (peak df k) kept ∧ (peak out k).map cols = kept.map cols) ∧
    ∀ k, peak out k ≠ [] → ∀ j < 2, colSum (peak out k) j = colSum (peak df k) j := by
  have hall : ∀ k ∈ df.map Row.key, (∀ r ∈ peak out k, Pos r) ∧ (∃ kept, keep k (peak df k) kept ∧ (peak out k).map cols = kept.map cols) ∧
      (peak out k ≠ [] → ∀ j < 2, colSum (peak out k) j = colSum (peak df k) j) := by
    intro k hkm
    obtain ⟨g, kept, h1, h2, h3⟩ := h.2 k hkm
    have hkept : ∀ r ∈ kept, Pos r := fun r hr => hp r (List.mem_filter.1 (hk k _ _ h2 r hr)).1
    have hpk : ∀ r ∈ peak df k, Pos r := fun r hr => hp r (List.mem_filter.1 hr).1
    have hgl : g.length = kept.length := by have := congrArg List.length h1.1; simpa using this
    have hol : (peak out k).length = g.length := by have := congrArg List.length h3; simpa using this
    have hcols : (peak out k).map cols = kept.map cols := by
      have e1 : (peak out k).map cols = g.map cols := by
        have e : ∀ l : List Row, l.map cols = (l.map Row.unlabelled).map cols := fun l => by rw [List.map_map]; rfl
        rw [e, h3, ← e]
      have e2 : g.map cols = kept.map cols := by
        have e : ∀ l : List Row, l.map cols = (l.map Row.fixed).map cols := fun l => by rw [List.map_map]; rfl
        rw [e, h1.1, ← e]
      rw [e1, e2]
    have hne : peak out k ≠ [] → kept ≠ [] := by
      intro h0 h1
      apply h0
      rw [← List.length_eq_zero_iff, hol, hgl, h1]; rfl
    refine ⟨?_, ⟨kept, h2, hcols⟩, ?_⟩
    · intro r hr j hj
      obtain ⟨i, hi⟩ := List.mem_iff_getElem?.1 hr
      have hil := (List.getElem?_eq_some_iff.1 hi).1
      have hgi : g[i]? = some g[i] := List.getElem?_eq_getElem (by omega)
      have hki : kept[i]? = some kept[i] := List.getElem?_eq_getElem (by omega)
      have hv : r.vals = (g[i]'(by omega)).vals := by
        have e : ((peak out k).map Row.unlabelled)[i]? = (g.map Row.unlabelled)[i]? := by rw [h3]
        rw [List.getElem?_map, List.getElem?_map, hi, hgi] at e
        simp only [Option.map_some, Option.some.injEq] at e
        exact (unl_cols e).2
      have hkn : kept ≠ [] := List.ne_nil_of_mem (List.mem_of_getElem? hki)
      have hK := colSum_pos hkept hkn hj
      obtain ⟨v, v1, v2⟩ := hkept _ (List.mem_of_getElem? hki) j hj
      obtain ⟨v', w1, w2⟩ := ((h1.2 j).1 hK.ne').2 i _ _ hki hgi v v1
      have hS : 0 < colSum (peak df k) j := colSum_pos hpk (List.ne_nil_of_mem (hk k _ _ h2 _ (List.mem_of_getElem? hki))) hj
      refine ⟨v', by rw [hv, w1], ?_⟩
      by_contra hc
      have : v' * colSum kept j ≤ 0 := mul_nonpos_of_nonpos_of_nonneg (not_lt.1 hc) hK.le
      rw [w2] at this
      exact absurd (mul_pos v2 hS) (not_lt.2 this)
    · intro h0 j hj
      rw [Deconv.colSum_unlabelled h3 j]
      exact ((h1.2 j).1 (colSum_pos hkept (hne h0) hj).ne').1
  refine ⟨?_, fun k hk => (hall k hk).2.1, ?_⟩
  · intro r hr
    exact (hall r.key (h.1 r hr)).1 r (List.mem_filter.2 ⟨hr, by simp⟩)
  · intro k h0
    obtain ⟨r, hr⟩ := List.exists_mem_of_ne_nil _ h0
    obtain ⟨hr1, hr2⟩ := List.mem_filter.1 hr
    have hkr : r.key = k := by simpa using hr2
    exact (hall k (by rw [← hkr]; exact h.1 r hr1)).2.2 h0

theorem cut_charge {qcut : ℚ} {df out : List Row} (h : cutOverQ qcut df = .ok out) :
    Cut (fun _ l kept => kept = l.filter fun r => decide (qcut < r.q)) df out ∧ (out.map Row.label).Nodup := by
  obtain ⟨out', h1, h2, h3, h4⟩ := Deconv.cut_over_Q qcut df
  rw [h] at h1; cases h1
  refine ⟨⟨h3, fun k hk => ?_⟩, ?_⟩
  · obtain ⟨g, g1, g2⟩ := h4 k hk
    exact ⟨g, _, g1, rfl, g2⟩
  · rw [h2]
    exact List.Nodup.map (fun a b h => Int.ofNat.inj h) List.nodup_range

open Classical in
theorem cut_isolated {iter : List Int → List Int} (hiter : ∀ l, (iter l).Perm l) {d : List ℚ} {n : Option Int} (hn : ∀ m, n = some m → 1 ≤ m) {df out : List Row} (hl : (df.map Row.label).Nodup)
    (h : dropIsolated iter d n df = .ok out) : Cut (fun _ l kept => ∀ r ∈ kept, r ∈ l) df out := by
  by_cases h2 : d.length = 2
  · match d, h2 with
    | [dx, dy], _ =>
      obtain ⟨out', h1, h3, h4⟩ := Deconv.drop_isolated_two iter dx dy n df
      rw [h] at h1; cases h1
      refine ⟨h3, fun k hk => ?_⟩
      obtain ⟨g, g1, g2⟩ := h4 k hk
      exact ⟨g, _, g1, fun r hr => (List.mem_filter.1 hr).1, g2⟩
  · by_cases h3 : d.length = 3
    · match d, h3 with
      | [dx, dy, dz], _ =>
        cases n with
        | none => rw [(Deconv.drop_isolated_parameters iter df).1] at h; cases h
        | some m =>
          obtain ⟨a1, a2⟩ := Deconv.drop_isolated_three iter hiter dx dy dz m df hl (hn m rfl)
          by_cases hc : ∀ k ∈ df.map Row.key, ∃ a ∈ peak df k, ∃ c, Deconv.IsCluster (dx, dy, dz) (peak df k) a c ∧ m < c.length
          · obtain ⟨out', h1, h3, h4⟩ := a1 hc
            rw [h] at h1; cases h1
            refine ⟨h3, fun k hk => ?_⟩
            obtain ⟨g, kept, g1, g2, g3⟩ := h4 k hk
            exact ⟨g, kept, g1, fun r hr => (List.mem_filter.1 (g2.subset hr)).1, g3⟩
          · push Not at hc
            obtain ⟨k, hk, hc⟩ := hc
            rw [a2 ⟨k, hk, fun ⟨a, ha, c, hcl, hm⟩ => absurd hm (not_lt.2 (hc a ha c hcl))⟩] at h
            cases h
    · rw [(Deconv.drop_isolated_parameters iter df).2 d n h2 h3] at h
      cases h

theorem mem_peak {df : List Row} {k : Key} {r : Row} : r ∈ peak df k ↔ r ∈ df ∧ r.key = k := by
  rw [peak, List.mem_filter]; simp

theorem sum_peak {event : Int} {time : ℚ} (hs : List Hits.Hit) (k : Int) {j : Nat} (hj : j < 2) :
    colSum (peak (hs.map (toRow event time)) (event, time, k)) j = ((hs.filter fun h => decide ((h.npeak : Int) = k)).map (energyIn j)).sum := by
  unfold colSum peak
  rw [List.filter_map, List.map_map]
  have hf : (fun r : Row => r.key == (event, time, k)) ∘ toRow event time = fun h : Hits.Hit => decide ((h.npeak : Int) = k) := by
    funext h
    rw [Bool.eq_iff_iff]
    simp [toRow, Row.key]
  rw [hf]
  congr 1
  apply List.map_congr_left
  intro h _
  have : j = 0 ∨ j = 1 := by omega
  rcases this with rfl | rfl <;> rfl

/-- What the cuts leave. -/
theorem sensors_spec {c : Cfg} (hiter : ∀ l, (c.iter l).Perm l) (hn : ∀ m, c.clusterSize = some m → 1 ≤ m) {event : Int} {time : ℚ} {hs : List Hits.Hit} {rows : List Row}
    (hp : ∀ k ∈ hs, ∃ e ec, k.e = some e ∧ 0 < e ∧ k.ec = some ec ∧ 0 < ec) (h : sensors c event time hs = .ok rows) :
    (∀ r ∈ rows, Pos r ∧ ∃ a ∈ hs, c.qCut < a.q ∧ cols r = cols (toRow event time a)) ∧
    ∀ k : Int, (∃ r ∈ rows, r.npeak = k) → ∀ j < 2, colSum (rows.filter fun r => decide (r.npeak = k)) j = ((hs.filter fun h => decide ((h.npeak : Int) = k)).map (energyIn j)).sum := by
  rw [sensors] at h
  cases h1 : cutOverQ c.qCut (hs.map (toRow event time)) with
  | error e => rw [h1] at h; cases h
  | ok mid =>
    rw [h1] at h
    dsimp only at h
    obtain ⟨c1, hl⟩ := cut_charge h1
    have c2 := cut_isolated hiter hn hl h
    have hp0 : ∀ r ∈ hs.map (toRow event time), Pos r := by
      intro r hr
      obtain ⟨a, ha, rfl⟩ := List.mem_map.1 hr
      obtain ⟨e, ec, g1, g2, g3, g4⟩ := hp a ha
      intro j hj
      have : j = 0 ∨ j = 1 := by omega
      rcases this with rfl | rfl
      · exact ⟨e, g1, g2⟩
      · exact ⟨ec, g3, g4⟩
    obtain ⟨s1, s2, s3⟩ := cut_spec c1 (fun k l l' he r hr => by rw [he] at hr; exact (List.mem_filter.1 hr).1) hp0
    obtain ⟨t1, t2, t3⟩ := cut_spec c2 (fun k l l' he r hr => he r hr) s1
    have hmid : ∀ r ∈ mid, ∃ a ∈ hs, c.qCut < a.q ∧ cols r = cols (toRow event time a) := by
      intro r hr
      obtain ⟨kept, rfl, hk⟩ := s2 r.key (c1.1 r hr)
      have : cols r ∈ (peak mid r.key).map cols := List.mem_map.2 ⟨r, mem_peak.2 ⟨hr, rfl⟩, rfl⟩
      rw [hk] at this
      obtain ⟨r', hr', he⟩ := List.mem_map.1 this
      obtain ⟨hr1, hr2⟩ := List.mem_filter.1 hr'
      obtain ⟨a, ha, rfl⟩ := List.mem_map.1 (mem_peak.1 hr1).1
      exact ⟨a, ha, of_decide_eq_true hr2, he.symm⟩
    have hrows : ∀ r ∈ rows, ∃ a ∈ hs, c.qCut < a.q ∧ cols r = cols (toRow event time a) := by
      intro r hr
      obtain ⟨kept, hkept, hk⟩ := t2 r.key (c2.1 r hr)
      have : cols r ∈ (peak rows r.key).map cols := List.mem_map.2 ⟨r, mem_peak.2 ⟨hr, rfl⟩, rfl⟩
      rw [hk] at this
      obtain ⟨r', hr', he⟩ := List.mem_map.1 this
      obtain ⟨a, ha, g1, g2⟩ := hmid r' (mem_peak.1 (hkept r' hr')).1
      exact ⟨a, ha, g1, by rw [← he, g2]⟩
    refine ⟨fun r hr => ⟨t1 r hr, hrows r hr⟩, ?_⟩
    intro k hk j hj
    have hkey : ∀ r ∈ rows, r.key = (event, time, r.npeak) := by
      intro r hr
      obtain ⟨a, _, _, g⟩ := hrows r hr
      have e1 : r.event = event := congrArg Prod.fst g
      have e2 : r.time = time := congrArg (fun p => p.2.1) g
      rw [Row.key, e1, e2]
    have hpk : rows.filter (fun r => decide (r.npeak = k)) = peak rows (event, time, k) := by
      unfold peak
      apply List.filter_congr
      intro r hr
      rw [hkey r hr]
      simp [BEq.beq]
    have hne : peak rows (event, time, k) ≠ [] := by
      obtain ⟨r, hr, rfl⟩ := hk
      exact List.ne_nil_of_mem (mem_peak.2 ⟨hr, hkey r hr⟩)
    have hne' : peak mid (event, time, k) ≠ [] := by
      obtain ⟨r, hr, rfl⟩ := hk
      obtain ⟨kept, hkept, hkk⟩ := t2 r.key (c2.1 r hr)
      have : cols r ∈ (peak rows r.key).map cols := List.mem_map.2 ⟨r, mem_peak.2 ⟨hr, rfl⟩, rfl⟩
      rw [hkk] at this
      obtain ⟨r', hr', _⟩ := List.mem_map.1 this
      rw [← hkey r hr]
      exact List.ne_nil_of_mem (hkept r' hr')
    rw [hpk, t3 _ hne j hj, s3 _ hne' j hj, sum_peak hs k hj]

theorem sensors_two {c : Cfg} {dx dy : ℚ} (hd : c.distance = [dx, dy]) (event : Int) (time : ℚ) {hs : List Hits.Hit} (hp : ∀ k ∈ hs, ∃ e ec, k.e = some e ∧ 0 < e ∧ k.ec = some ec ∧ 0 < ec) :
    ∃ rows, sensors c event time hs = .ok rows ∧ (rows ≠ [] ↔ ∃ a ∈ hs, ∃ b ∈ hs, Partners c.qCut dx dy a b) := by
  classical
  obtain ⟨mid, h1, _, h3, h4⟩ := Deconv.cut_over_Q c.qCut (hs.map (toRow event time))
  obtain ⟨rows, k1, k2, k3⟩ := Deconv.drop_isolated_two c.iter dx dy c.clusterSize mid
  refine ⟨rows, by rw [sensors, h1, hd]; exact k1, ?_⟩
  obtain ⟨c1, hl⟩ := cut_charge h1
  have hp0 : ∀ r ∈ hs.map (toRow event time), Pos r := by
    intro r hr
    obtain ⟨a, ha, rfl⟩ := List.mem_map.1 hr
    obtain ⟨e, ec, g1, g2, g3, g4⟩ := hp a ha
    intro j hj
    have : j = 0 ∨ j = 1 := by omega
    rcases this with rfl | rfl
    · exact ⟨e, g1, g2⟩
    · exact ⟨ec, g3, g4⟩
  obtain ⟨s1, s2, _⟩ := cut_spec c1 (fun k l l' he r hr => by rw [he] at hr; exact (List.mem_filter.1 hr).1) hp0
  have c2 : Cut (fun _ l kept => kept = l.filter fun a => decide (∃ b ∈ l, Deconv.NearSensor dx dy a b)) mid rows := by
    refine ⟨k2, fun k hk => ?_⟩
    obtain ⟨g, g1, g2⟩ := k3 k hk
    exact ⟨g, _, g1, rfl, g2⟩
  obtain ⟨_, t2, _⟩ := cut_spec c2 (fun k l l' he r hr => by rw [he] at hr; exact (List.mem_filter.1 hr).1) s1
  have hmid : ∀ r ∈ mid, ∃ a ∈ hs, c.qCut < a.q ∧ cols r = cols (toRow event time a) := by
    intro r hr
    obtain ⟨kept, rfl, hk⟩ := s2 r.key (c1.1 r hr)
    have : cols r ∈ (peak mid r.key).map cols := List.mem_map.2 ⟨r, mem_peak.2 ⟨hr, rfl⟩, rfl⟩
    rw [hk] at this
    obtain ⟨r', hr', he⟩ := List.mem_map.1 this
    obtain ⟨hr1, hr2⟩ := List.mem_filter.1 hr'
    obtain ⟨a, ha, rfl⟩ := List.mem_map.1 (mem_peak.1 hr1).1
    exact ⟨a, ha, of_decide_eq_true hr2, he.symm⟩
  constructor
  · intro hne
    obtain ⟨r, hr⟩ := List.exists_mem_of_ne_nil _ hne
    obtain ⟨kept, rfl, hk⟩ := t2 r.key (c2.1 r hr)
    have : cols r ∈ (peak rows r.key).map cols := List.mem_map.2 ⟨r, mem_peak.2 ⟨hr, rfl⟩, rfl⟩
    rw [hk] at this
    obtain ⟨r', hr', he⟩ := List.mem_map.1 this
    obtain ⟨hr1, hr2⟩ := List.mem_filter.1 hr'
    obtain ⟨b, hb, hnear⟩ := of_decide_eq_true hr2
    obtain ⟨a1, ha1, q1, e1⟩ := hmid r' (mem_peak.1 hr1).1
    obtain ⟨b1, hb1, q2, e2⟩ := hmid b (mem_peak.1 hb).1
    have hkey : r'.key = b.key := by rw [(mem_peak.1 hr1).2, (mem_peak.1 hb).2]
    have hnp : ((a1.npeak : Nat) : Int) = b1.npeak := by
      have f1 : r'.npeak = a1.npeak := congrArg (fun p => p.2.2.1) e1
      have f2 : b.npeak = b1.npeak := congrArg (fun p => p.2.2.1) e2
      have f3 : r'.npeak = b.npeak := congrArg (fun p => p.2.2) hkey
      rw [← f1, ← f2, f3]
    have x1 : r'.x = a1.x := congrArg (fun p => p.2.2.2.1) e1
    have y1 : r'.y = a1.y := congrArg (fun p => p.2.2.2.2.1) e1
    have x2 : b.x = b1.x := congrArg (fun p => p.2.2.2.1) e2
    have y2 : b.y = b1.y := congrArg (fun p => p.2.2.2.2.1) e2
    rw [Deconv.NearSensor, x1, y1, x2, y2] at hnear
    exact ⟨a1, ha1, b1, hb1, by exact_mod_cast hnp, q1, q2, hnear⟩
  · rintro ⟨a, ha, b, hb, hnp, q1, q2, hnear⟩
    have hka : (toRow event time a).key = (toRow event time b).key := by simp [toRow, Row.key, hnp]
    have hkm : (toRow event time a).key ∈ (hs.map (toRow event time)).map Row.key := List.mem_map_of_mem (List.mem_map_of_mem ha)
    obtain ⟨kept, rfl, hk⟩ := s2 _ hkm
    have hin : ∀ d ∈ hs, c.qCut < d.q → (toRow event time d).key = (toRow event time a).key → ∃ r ∈ peak mid (toRow event time a).key, cols r = cols (toRow event time d) := by
      intro d hd hq hkd
      have : cols (toRow event time d) ∈ (peak mid (toRow event time a).key).map cols := by
        rw [hk]
        exact List.mem_map_of_mem (List.mem_filter.2 ⟨mem_peak.2 ⟨List.mem_map_of_mem hd, hkd⟩, decide_eq_true hq⟩)
      obtain ⟨r, hr, he⟩ := List.mem_map.1 this
      exact ⟨r, hr, he⟩
    obtain ⟨ra, hra, ea⟩ := hin a ha q1 rfl
    obtain ⟨rb, hrb, eb⟩ := hin b hb q2 hka.symm
    obtain ⟨kept, rfl, hk2⟩ := t2 (toRow event time a).key (List.mem_map.2 ⟨ra, (mem_peak.1 hra).1, (mem_peak.1 hra).2⟩)
    have x1 : ra.x = a.x := congrArg (fun p => p.2.2.2.1) ea
    have y1 : ra.y = a.y := congrArg (fun p => p.2.2.2.2.1) ea
    have x2 : rb.x = b.x := congrArg (fun p => p.2.2.2.1) eb
    have y2 : rb.y = b.y := congrArg (fun p => p.2.2.2.2.1) eb
    have hmem : cols ra ∈ (peak rows (toRow event time a).key).map cols := by
      rw [hk2]
      refine List.mem_map_of_mem (List.mem_filter.2 ⟨hra, decide_eq_true ⟨rb, hrb, ?_⟩⟩)
      rw [Deconv.NearSensor, x1, y1, x2, y2]
      exact hnear
    obtain ⟨r, hr, _⟩ := List.mem_map.1 hmem
    exact List.ne_nil_of_mem (mem_peak.1 hr).1

/-! ### C124 -/

/-- The conditions of the theorems: a map that can be applied, a positive threshold, energies that are not negative and, if clusters are asked for, of at least one hit. -/
structure Conditions (c : Cfg) (hits : List InHit) : Prop where
  map : MapOk c
  threshold : 0 < c.threshold
  energies : ∀ h ∈ hits, 0 ≤ h.e
  size : ∀ m, c.clusterSize = some m → 1 ≤ m
  order : ∀ l, (c.iter l).Perm l

theorem event_stages {c : Cfg} {event : Int} {time ts : ℚ} {xy : Int → ℚ × ℚ} {hits : List InHit} {w : Written} (h : beershebaEvent c event time ts xy hits = .ok w) :
    lowThreshold c hits = .ok w.lowTh ∧ ∃ rows, sensors c event time w.lowTh = .ok rows ∧
      (rows = [] ∧ w.passed = false ∧ w.deco = [] ∨ rows ≠ [] ∧ w.passed = true ∧ DeconvSlice.event c.deconv c.grid c.column ts (rows.map (toDeconv xy)) = .ok w.deco) := by
  rw [beershebaEvent] at h
  cases h1 : lowThreshold c hits with
  | error e => rw [h1] at h; cases h
  | ok hs =>
    rw [h1] at h
    dsimp only at h
    cases h2 : sensors c event time hs with
    | error e => rw [h2] at h; cases h
    | ok rows =>
      rw [h2] at h
      dsimp only at h
      by_cases h0 : rows.length = 0
      · rw [if_pos h0] at h
        cases h
        exact ⟨rfl, rows, h2, .inl ⟨List.length_eq_zero_iff.1 h0, rfl, rfl⟩⟩
      · rw [if_neg h0] at h
        cases h3 : DeconvSlice.event c.deconv c.grid c.column ts (rows.map (toDeconv xy)) with
        | error e => rw [h3] at h; cases h
        | ok deco =>
          rw [h3] at h
          cases h
          exact ⟨rfl, rows, h2, .inr ⟨fun h => h0 (by rw [h]; rfl), rfl, h3⟩⟩

/-- **C124**: the hits over the threshold that are written are exactly those of the input with a charge that reaches it, once each, with their peak, position and charge, and positive energies; if every hit has one over the threshold to give its
energy to, their energy and corrected energy are those of all the hits, up to the documented epsilon. -/
theorem event_hits {c : Cfg} {event : Int} {time ts : ℚ} {xy : Int → ℚ × ℚ} {hits : List InHit} (hc : Conditions c hits) {w : Written} (h : beershebaEvent c event time ts xy hits = .ok w) :
    (w.lowTh.map outCols).Perm ((hits.filter fun h => decide (c.threshold ≤ h.q)).map (inCols c)) ∧
      (∀ k ∈ w.lowTh, ∃ e ec, k.e = some e ∧ 0 < e ∧ k.ec = some ec ∧ 0 < ec) ∧
      (Receivers c hits → ∃ ecs : List ℚ, List.Forall₂ (IsCorrected c) hits ecs ∧
        |(w.lowTh.map fun h => h.e.getD 0).sum - (hits.map fun h => h.e).sum| ≤ 1 / 2 ^ 52 * (hits.length + (hits.map fun h => h.e).sum / c.threshold) ∧
        |(w.lowTh.map fun h => h.ec.getD 0).sum - ecs.sum| ≤ 1 / 2 ^ 52 * (hits.length + ecs.sum / c.threshold)) := by
  obtain ⟨hs, h1, h2⟩ := lowThreshold_spec hc.map hc.threshold hc.energies
  obtain ⟨g1, _⟩ := event_stages h
  rw [h1] at g1
  cases g1
  exact h2

/-- **C124**: with two distances, the event goes on exactly if two of those hits, of the same peak, are over the cut in charge and near each other; otherwise nothing is deconvolved.  It always does, unless the deconvolution fails. -/
theorem event_passed {c : Cfg} (event : Int) (time ts : ℚ) (xy : Int → ℚ × ℚ) {hits : List InHit} (hc : Conditions c hits) {dx dy : ℚ} (hd : c.distance = [dx, dy]) :
    (∀ w, beershebaEvent c event time ts xy hits = .ok w → (w.passed = true ↔ ∃ a ∈ w.lowTh, ∃ b ∈ w.lowTh, Partners c.qCut dx dy a b) ∧ (w.passed = false → w.deco = [])) ∧
    ((∀ l, l ≠ [] → ∃ out, DeconvSlice.event c.deconv c.grid c.column ts l = .ok out) → ∃ w, beershebaEvent c event time ts xy hits = .ok w) := by
  obtain ⟨hs, h1, _, h3, _⟩ := lowThreshold_spec hc.map hc.threshold hc.energies
  obtain ⟨rows, k1, k2⟩ := sensors_two hd event time h3
  refine ⟨fun w h => ?_, fun hdec => ?_⟩
  · obtain ⟨g1, rows', g2, g3⟩ := event_stages h
    rw [h1] at g1
    cases g1
    rw [k1] at g2
    cases g2
    rcases g3 with ⟨e1, e2, e3⟩ | ⟨e1, e2, e3⟩
    · rw [e2, ← k2]
      exact ⟨by simp [e1], fun _ => e3⟩
    · rw [e2, ← k2]
      exact ⟨by simp [e1], fun h => by cases h⟩
  · rw [beershebaEvent, h1]
    dsimp only
    rw [k1]
    dsimp only
    by_cases h0 : rows.length = 0
    · rw [if_pos h0]; exact ⟨_, rfl⟩
    · rw [if_neg h0]
      obtain ⟨out, ho⟩ := hdec (rows.map (toDeconv xy)) (by intro h; apply h0; rw [List.length_eq_zero_iff, ← List.map_eq_nil_iff, h])
      rw [ho]
      exact ⟨_, rfl⟩

/-- **C124**: the deconvolved hits of a peak share all the energy (corrected or not, as configured) of the hits of the peak over the threshold, up to the rounding to six decimals: none is lost with the sensors that are dropped. -/
theorem event_energy {c : Cfg} {event : Int} {time ts : ℚ} {xy : Int → ℚ × ℚ} {hits : List InHit} (hc : Conditions c hits) (hcol : c.column < 2) {w : Written}
    (h : beershebaEvent c event time ts xy hits = .ok w) (k : Int) (hv : ∀ o ∈ w.deco, o.hit.npeak = k → o.hit.e ≠ none) (hne : ∃ o ∈ w.deco, o.hit.npeak = k) :
    |((w.deco.filter fun o => decide (o.hit.npeak = k)).map fun o => o.hit.e.getD 0).sum - ((w.lowTh.filter fun h => decide ((h.npeak : Int) = k)).map (energyIn c.column)).sum| ≤
      (w.deco.filter fun o => decide (o.hit.npeak = k)).length / 2000000 := by
  obtain ⟨hs, h1, _, h3, _⟩ := lowThreshold_spec hc.map hc.threshold hc.energies
  obtain ⟨g1, rows, g2, g3⟩ := event_stages h
  rw [h1] at g1
  cases g1
  rcases g3 with ⟨_, _, e3⟩ | ⟨_, _, e3⟩
  · rw [e3] at hne
    obtain ⟨o, ho, _⟩ := hne
    cases ho
  · obtain ⟨s1, s2⟩ := sensors_spec hc.order hc.size h3 g2
    have hk : ∃ r ∈ rows, r.npeak = k := by
      obtain ⟨ks, _, hks, zs, ps, _, ho⟩ := DeconvSlice.event_spec e3
      obtain ⟨o, hom, hok⟩ := hne
      rw [ho] at hom
      obtain ⟨k', hk', hom⟩ := List.mem_flatMap.1 hom
      obtain ⟨x, _, rfl⟩ := List.mem_map.1 hom
      have : k' = k := hok
      subst this
      obtain ⟨a, ha, hak⟩ := (hks k').1 hk'
      obtain ⟨r, hr, rfl⟩ := List.mem_map.1 ha
      exact ⟨r, hr, hak⟩
    have := DeconvSlice.event_energy e3 k (by
      obtain ⟨r, hr, hk⟩ := hk
      exact ⟨_, List.mem_map_of_mem hr, hk⟩) hv hne
    rw [← s2 k hk c.column hcol]
    have hen : DeconvSlice.Spec.energyOf (DeconvSlice.Spec.peakOf (rows.map (toDeconv xy)) k) c.column = colSum (rows.filter fun r => decide (r.npeak = k)) c.column := by
      unfold DeconvSlice.Spec.energyOf DeconvSlice.Spec.peakOf colSum
      rw [List.filter_map, List.map_map]
      rfl
    rw [hen] at this
    exact this

/-- **C124**: every deconvolved hit has the event and the time of the event, the position of its peak, and the peak and the Z of a hit over the threshold and over the cut in charge. -/
theorem event_sources {c : Cfg} {event : Int} {time ts : ℚ} {xy : Int → ℚ × ℚ} {hits : List InHit} (hc : Conditions c hits) {w : Written}
    (h : beershebaEvent c event time ts xy hits = .ok w) :
    ∀ o ∈ w.deco, o.hit.event = event ∧ o.time = ts / 1000 ∧ o.xpeak = (xy o.hit.npeak).1 ∧ o.ypeak = (xy o.hit.npeak).2 ∧
      ∃ a ∈ w.lowTh, c.qCut < a.q ∧ (a.npeak : Int) = o.hit.npeak ∧ a.z = o.hit.z := by
  obtain ⟨hs, h1, _, h3, _⟩ := lowThreshold_spec hc.map hc.threshold hc.energies
  obtain ⟨g1, rows, g2, g3⟩ := event_stages h
  rw [h1] at g1
  cases g1
  rcases g3 with ⟨_, _, e3⟩ | ⟨_, _, e3⟩
  · intro o ho
    rw [e3] at ho
    cases ho
  · obtain ⟨s1, _⟩ := sensors_spec hc.order hc.size h3 g2
    obtain ⟨ks, _, hks, zs, ps, hz, ho⟩ := DeconvSlice.event_spec e3
    intro o hom
    rw [ho] at hom
    obtain ⟨k, hk, hom⟩ := List.mem_flatMap.1 hom
    obtain ⟨x, hx, rfl⟩ := List.mem_map.1 hom
    unfold DeconvSlice.Spec.kept at hx
    obtain ⟨z, hzm, hx⟩ := List.mem_flatMap.1 hx
    obtain ⟨p, _, rfl⟩ := List.mem_map.1 hx
    obtain ⟨a, ha, hak, haz⟩ := ((hz k hk).2.1 z).1 hzm
    obtain ⟨r, hr, rfl⟩ := List.mem_map.1 ha
    have hak : r.npeak = k := hak
    have haz : r.z = z := haz
    obtain ⟨_, a, ha', hq, hcols⟩ := s1 r hr
    have hsl : ∃ y l, DeconvSlice.Spec.sliceOf (rows.map (toDeconv xy)) k z = y :: l := by
      apply List.exists_cons_of_ne_nil
      exact List.ne_nil_of_mem (List.mem_filter.2 ⟨List.mem_map_of_mem hr, decide_eq_true ⟨hak, haz⟩⟩)
    have hpk : ∃ y l, DeconvSlice.Spec.peakOf (rows.map (toDeconv xy)) k = y :: l := by
      apply List.exists_cons_of_ne_nil
      exact List.ne_nil_of_mem (List.mem_filter.2 ⟨List.mem_map_of_mem hr, decide_eq_true hak⟩)
    obtain ⟨y, l, hsl⟩ := hsl
    obtain ⟨y', l', hpk⟩ := hpk
    have hy : y ∈ DeconvSlice.Spec.sliceOf (rows.map (toDeconv xy)) k z := by rw [hsl]; exact List.mem_cons_self
    have hy' : y' ∈ DeconvSlice.Spec.peakOf (rows.map (toDeconv xy)) k := by rw [hpk]; exact List.mem_cons_self
    obtain ⟨hy1, hy2⟩ := List.mem_filter.1 hy
    obtain ⟨hy1', hy2'⟩ := List.mem_filter.1 hy'
    obtain ⟨ry, hry, rfl⟩ := List.mem_map.1 hy1
    obtain ⟨ry', hry', rfl⟩ := List.mem_map.1 hy1'
    have hnp : ry'.npeak = k := of_decide_eq_true hy2'
    obtain ⟨_, b, _, _, hb⟩ := s1 ry hry
    have hev : ry.event = event := congrArg Prod.fst hb
    refine ⟨?_, rfl, ?_, ?_, a, ha', hq, ?_, ?_⟩
    · show ((DeconvSlice.Spec.sliceOf (rows.map (toDeconv xy)) k z).map fun h => h.row.event).headD 0 = event
      rw [hsl]; exact hev
    · show ((DeconvSlice.Spec.peakOf (rows.map (toDeconv xy)) k).map fun h => h.xpeak).headD 0 = (xy k).1
      rw [hpk, ← hnp]; rfl
    · show ((DeconvSlice.Spec.peakOf (rows.map (toDeconv xy)) k).map fun h => h.ypeak).headD 0 = (xy k).2
      rw [hpk, ← hnp]; rfl
    · show (a.npeak : Int) = k
      rw [← hak]
      exact (congrArg (fun p => p.2.2.1) hcols).symm
    · show a.z = z
      rw [← haz]
      exact (congrArg (fun p => p.2.2.2.2.2.1) hcols).symm

/-- **C124**: if every peak with hits over the threshold has deconvolved hits, all of them with an energy, no energy of the event is lost. -/
theorem event_total {c : Cfg} {event : Int} {time ts : ℚ} {xy : Int → ℚ × ℚ} {hits : List InHit} (hc : Conditions c hits) (hcol : c.column < 2) {w : Written}
    (h : beershebaEvent c event time ts xy hits = .ok w) (hv : ∀ o ∈ w.deco, o.hit.e ≠ none) (hpk : ∀ a ∈ w.lowTh, ∃ o ∈ w.deco, o.hit.npeak = (a.npeak : Int)) :
    |(w.deco.map fun o => o.hit.e.getD 0).sum - (w.lowTh.map (energyIn c.column)).sum| ≤ w.deco.length / 2000000 := by
  have hsrc := event_sources hc h
  have key : ∀ ks : List Int, (∀ k ∈ ks, ∃ o ∈ w.deco, o.hit.npeak = k) →
      |(((ks.map fun k => w.deco.filter fun o => o.hit.npeak == k).flatten).map fun o => o.hit.e.getD 0).sum -
        (((ks.map fun k => w.lowTh.filter fun a => (a.npeak : Int) == k).flatten).map (energyIn c.column)).sum| ≤
        ((ks.map fun k => w.deco.filter fun o => o.hit.npeak == k).flatten).length / 2000000 := by
    intro ks
    induction ks with
    | nil => intro _; simp
    | cons k ks ih =>
      intro hk
      have h1 := ih fun k' hk' => hk k' (List.mem_cons_of_mem _ hk')
      have h2 := event_energy hc hcol h k (fun o ho _ => hv o ho) (hk k List.mem_cons_self)
      simp only [List.map_cons, List.flatten_cons, List.map_append, List.sum_append, List.length_append, Nat.cast_add, add_div]
      have e1 : (w.deco.filter fun o => o.hit.npeak == k) = w.deco.filter fun o => decide (o.hit.npeak = k) := List.filter_congr fun o _ => by rw [Bool.eq_iff_iff]; simp
      have e2 : (w.lowTh.filter fun a => (a.npeak : Int) == k) = w.lowTh.filter fun a => decide ((a.npeak : Int) = k) := List.filter_congr fun o _ => by rw [Bool.eq_iff_iff]; simp
      rw [e1, e2]
      rw [abs_le] at h1 h2 ⊢
      constructor <;> linarith [h1.1, h1.2, h2.1, h2.2]
  have hks : ∀ k ∈ (w.lowTh.map fun a => (a.npeak : Int)).dedup, ∃ o ∈ w.deco, o.hit.npeak = k := by
    intro k hk
    obtain ⟨a, ha, rfl⟩ := List.mem_map.1 (List.mem_dedup.1 hk)
    exact hpk a ha
  have h0 := key _ hks
  have p1 := Sources.perm_groups (fun o : DeconvSlice.OutHit => o.hit.npeak) (w.lowTh.map fun a => (a.npeak : Int)).dedup w.deco (List.nodup_dedup _) (by
    intro o ho
    obtain ⟨_, _, _, _, a, ha, _, hn, _⟩ := hsrc o ho
    exact List.mem_dedup.2 (List.mem_map.2 ⟨a, ha, hn⟩))
  have p2 := Sources.perm_groups (fun a : Hits.Hit => (a.npeak : Int)) (w.lowTh.map fun a => (a.npeak : Int)).dedup w.lowTh (List.nodup_dedup _) (by
    intro a ha
    exact List.mem_dedup.2 (List.mem_map_of_mem ha))
  rw [(p1.map _).sum_eq, (p2.map _).sum_eq, p1.length_eq] at h0
  exact h0

/-- **C124**: with interpolation, every deconvolved hit is at a point of the detector, and along each axis there are hits over the threshold and the cut, of the same peak and the same Z, that are at most 3/2 bins (and 2⁻²³) away on
each side. -/
theorem event_positions {c : Cfg} {event : Int} {time ts : ℚ} {xy : Int → ℚ × ℚ} {hits : List InHit} (hc : Conditions c hits) {gx gy : List ℚ} (hg : c.grid = [gx, gy]) (hm : c.deconv.method ≠ .nointerpolation)
    (hw : 0 < c.deconv.widths.1 ∧ 0 < c.deconv.widths.2) {w : Written} (h : beershebaEvent c event time ts xy hits = .ok w) :
    ∀ o ∈ w.deco, o.hit.x ∈ gx ∧ o.hit.y ∈ gy ∧ ∃ a ∈ w.lowTh, ∃ b ∈ w.lowTh, ∃ a' ∈ w.lowTh, ∃ b' ∈ w.lowTh,
      (∀ s ∈ [a, b, a', b'], c.qCut < s.q ∧ (s.npeak : Int) = o.hit.npeak ∧ s.z = o.hit.z) ∧
      a.x - 3 / 2 * c.deconv.widths.1 ≤ o.hit.x ∧ o.hit.x < b.x + 3 / 2 * c.deconv.widths.1 + 1 / 2 ^ 23 ∧
      a'.y - 3 / 2 * c.deconv.widths.2 ≤ o.hit.y ∧ o.hit.y < b'.y + 3 / 2 * c.deconv.widths.2 + 1 / 2 ^ 23 := by
  obtain ⟨hs, h1, _, h3, _⟩ := lowThreshold_spec hc.map hc.threshold hc.energies
  obtain ⟨g1, rows, g2, g3⟩ := event_stages h
  rw [h1] at g1
  cases g1
  rcases g3 with ⟨_, _, e3⟩ | ⟨_, _, e3⟩
  · intro o ho
    rw [e3] at ho
    cases ho
  · obtain ⟨s1, _⟩ := sensors_spec hc.order hc.size h3 g2
    rw [hg] at e3
    intro o ho
    obtain ⟨p1, _, p3, p4⟩ := DeconvSlice.event_positions e3 hm hw o ho
    generalize hsl : DeconvSlice.Spec.sliceOf (rows.map (toDeconv xy)) o.hit.npeak o.hit.z = sl at p1 p3 p4
    have hsrc : ∀ y ∈ sl, ∃ a ∈ w.lowTh, (c.qCut < a.q ∧ (a.npeak : Int) = o.hit.npeak ∧ a.z = o.hit.z) ∧ a.x = y.row.x ∧ a.y = y.row.y := by
      intro y hy
      rw [← hsl] at hy
      obtain ⟨hy1, hy2⟩ := List.mem_filter.1 hy
      obtain ⟨r, hr, rfl⟩ := List.mem_map.1 hy1
      obtain ⟨k1, k2⟩ := of_decide_eq_true hy2
      obtain ⟨_, a, ha, hq, hcols⟩ := s1 r hr
      refine ⟨a, ha, ⟨hq, ?_, ?_⟩, ?_, ?_⟩
      · rw [← k1]; exact (congrArg (fun p => p.2.2.1) hcols).symm
      · rw [← k2]; exact (congrArg (fun p => p.2.2.2.2.2.1) hcols).symm
      · exact (congrArg (fun p => p.2.2.2.1) hcols).symm
      · exact (congrArg (fun p => p.2.2.2.2.1) hcols).symm
    obtain ⟨q1, q2⟩ := List.mem_filter.1 p3
    obtain ⟨q3, q4⟩ := of_decide_eq_true q2
    obtain ⟨r1, r2⟩ := List.mem_filter.1 p4
    obtain ⟨r3, r4⟩ := of_decide_eq_true r2
    obtain ⟨y1, m1, n1⟩ := List.mem_map.1 (Verif.Paolina.npMin_mem (xs := sl.map fun h => h.row.x) (by simpa using p1))
    obtain ⟨y2, m2, n2⟩ := List.mem_map.1 (Verif.Paolina.npMax_mem (xs := sl.map fun h => h.row.x) (by simpa using p1))
    obtain ⟨y3, m3, n3⟩ := List.mem_map.1 (Verif.Paolina.npMin_mem (xs := sl.map fun h => h.row.y) (by simpa using p1))
    obtain ⟨y4, m4, n4⟩ := List.mem_map.1 (Verif.Paolina.npMax_mem (xs := sl.map fun h => h.row.y) (by simpa using p1))
    obtain ⟨a, ha, ka, xa, _⟩ := hsrc y1 m1
    obtain ⟨b, hb, kb, xb, _⟩ := hsrc y2 m2
    obtain ⟨a', ha', ka', _, xa'⟩ := hsrc y3 m3
    obtain ⟨b', hb', kb', _, xb'⟩ := hsrc y4 m4
    refine ⟨q1, r1, a, ha, b, hb, a', ha', b', hb', ?_, ?_, ?_, ?_, ?_⟩
    · intro s hs
      simp only [List.mem_cons, List.not_mem_nil, or_false] at hs
      rcases hs with rfl | rfl | rfl | rfl <;> assumption
    · rw [xa, n1]; exact q3
    · rw [xb, n2]; exact q4
    · rw [xa', n3]; exact r3
    · rw [xb', n4]; exact r4

/-! ### A concrete case -/

def caseCfg : Cfg :=
  { pick := KrApply.firstNearest, keV := 1 / 1000, mev := 1, krmap := [⟨0, 5, 0, 0, some 100⟩, ⟨1, 50, 0, 0, some 50⟩], dvs := [2, 2, 3], applyTemp := false, method := .maximum, xy := none
    applyZ := true, threshold := 5, samePeak := true, qCut := 6, distance := [1, 1], clusterSize := none, iter := id, deconv := DeconvSlice.exConf
    grid := [[1 / 2, 3 / 2, 5 / 2, 7 / 2], [1 / 2, 3 / 2]], column := 1 }

/-- Two neighbours over the cut, one hit below it and one below the threshold. -/
def caseEvent : List InHit :=
  [⟨0, 0, 3 / 2, 1 / 2, 10, 8, 1000⟩, ⟨0, 0, 1 / 2, 1 / 2, 10, 9, 500⟩, ⟨0, 0, 3 / 2, 3 / 2, 10, 6, 100⟩, ⟨0, 0, 7 / 2, 1 / 2, 10, 3, 300⟩]

/-- Two hits over the cut, too far from each other. -/
def farEvent : List InHit := [⟨0, 0, 1 / 2, 1 / 2, 10, 8, 1000⟩, ⟨0, 0, 7 / 2, 1 / 2, 10, 9, 500⟩]

theorem case_conditions : Conditions caseCfg caseEvent where
  map := ⟨KrApply.firstNearest_spec, rfl, ⟨100, by decide +kernel, by decide +kernel⟩, by
    intro b hb mu hmu
    simp only [caseCfg, List.mem_cons, List.not_mem_nil, or_false] at hb
    rcases hb with rfl | rfl <;> · cases hmu; norm_num, by decide +kernel, by decide +kernel⟩
  threshold := by decide +kernel
  energies := by decide +kernel
  size := fun _ h => by cases h
  order := fun _ => List.Perm.refl _

example : Receivers caseCfg caseEvent := by unfold Receivers; decide +kernel

def seen (c : Cfg) (hits : List InHit) : Option Written := (beershebaEvent c 7 3 5000 (fun _ => (1, 1)) hits).toOption

example : (seen caseCfg caseEvent).map (fun w => w.passed) = some true := by decide +kernel
example : (seen caseCfg caseEvent).map (fun w => w.lowTh.map fun h => (h.x, h.y, h.z, h.q)) = some [(3 / 2, 1 / 2, 20, 8), (1 / 2, 1 / 2, 20, 9), (3 / 2, 3 / 2, 20, 6)] := by decide +kernel
example : (seen caseCfg caseEvent).map (fun w => w.deco.map fun o => (o.hit.x, o.hit.y, o.hit.z, o.hit.e)) = some [(1 / 2, 1 / 2, 20, some (52243 / 125000)), (3 / 2, 1 / 2, 20, some (185753 / 500000))] := by decide +kernel
example : (seen caseCfg farEvent).map (fun w => (w.passed, w.lowTh.length, w.deco.length)) = some (false, 2, 0) := by decide +kernel
example : ∃ gx gy, caseCfg.grid = [gx, gy] ∧ caseCfg.deconv.method ≠ .nointerpolation := ⟨_, _, rfl, by decide⟩

/-- The same with three distances and clusters of more than three hits. -/
def threeCfg : Cfg :=
  { pick := KrApply.firstNearest, keV := 1 / 1000, mev := 1, krmap := [⟨0, 5, 0, 0, some 100⟩, ⟨1, 50, 0, 0, some 50⟩], dvs := [2, 2, 3], applyTemp := false, method := .maximum, xy := none
    applyZ := true, threshold := 5, samePeak := true, qCut := 6, distance := [1, 1, 1], clusterSize := some 3, iter := id, deconv := DeconvSlice.exConf
    grid := [[1 / 2, 3 / 2, 5 / 2, 7 / 2], [1 / 2, 3 / 2]], column := 1 }

/-- C124, against "otherwise nothing is deconvolved" with three distances: an event without a large enough cluster is not filtered, the city fails (`TypeError`). -/
theorem three_distances_fail : (match beershebaEvent threeCfg 7 3 5000 (fun _ => (1, 1)) caseEvent with | .error .typeError => true | _ => false) = true := by decide +kernel

end Verif.Beersheba
