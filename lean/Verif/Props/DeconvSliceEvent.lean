import Verif.Props.DeconvSlice
import Verif.Props.Sources
/-!
# C112: the events of beersheba
-/
namespace Verif.DeconvSlice
open Verif Verif.Deconv Verif.DeconvInput Spec
open Verif.PMapsIO (unique mem_unique unique_nodup)
open Verif.Voxels (npMin npMax)
open Verif.Buffers (arange)

/-- C112: the points of the detector along an axis: from half a bin after the lowest SiPM, in steps of a bin, while they are less than half a bin (and 2⁻²³) before the highest. -/
theorem grid_spec (coords : List ℚ) (bs : ℚ) (hne : coords ≠ []) (hb : 0 < bs) :
    ∃ n, axisGrid coords bs = .ok ((List.range n).map fun i : Nat => npMin coords + bs / 2 + i * bs) ∧ ∀ i : Nat, i < n ↔ npMin coords + bs / 2 + i * bs < npMax coords - bs / 2 + 1 / 2 ^ 23 := by
  refine ⟨⌈(npMax coords - bs / 2 + 1 / 2 ^ 23 - (npMin coords + bs / 2)) / bs⌉.toNat, ?_, fun i => ?_⟩
  · unfold axisGrid regular arange eps32
    rw [if_neg (by simpa using hne), if_neg hb.ne']
  · rw [Int.lt_toNat, Int.lt_ceil, lt_div_iff₀ hb]
    push_cast
    constructor <;> intro h <;> linarith

/-- C112: the grid of the detector: along x with the bin of x and the x of the SiPMs, and the same for y. -/
theorem grid_both (sipms : List (ℚ × ℚ)) (bins : ℚ × ℚ) (hne : sipms ≠ []) (hx : 0 < bins.1) (hy : 0 < bins.2) :
    ∃ n m, detGrid sipms bins = .ok [(List.range n).map fun i : Nat => npMin (sipms.map Prod.fst) + bins.1 / 2 + i * bins.1, (List.range m).map fun i : Nat => npMin (sipms.map Prod.snd) + bins.2 / 2 + i * bins.2] ∧
      (∀ i : Nat, i < n ↔ npMin (sipms.map Prod.fst) + bins.1 / 2 + i * bins.1 < npMax (sipms.map Prod.fst) - bins.1 / 2 + 1 / 2 ^ 23) ∧
      ∀ i : Nat, i < m ↔ npMin (sipms.map Prod.snd) + bins.2 / 2 + i * bins.2 < npMax (sipms.map Prod.snd) - bins.2 / 2 + 1 / 2 ^ 23 := by
  obtain ⟨n, h1, h2⟩ := grid_spec (sipms.map Prod.fst) bins.1 (by simpa using hne) hx
  obtain ⟨m, h3, h4⟩ := grid_spec (sipms.map Prod.snd) bins.2 (by simpa using hne) hy
  refine ⟨n, m, ?_, h2, h4⟩
  unfold detGrid
  rw [h1]
  dsimp only
  rw [h3]

theorem near_sub {grid xs : List ℚ} {w g : ℚ} (h : g ∈ near grid xs w) : g ∈ grid ∧ npMin xs - 3 / 2 * w ≤ g ∧ g < npMax xs + 3 / 2 * w + 1 / 2 ^ 23 := by
  unfold near DeconvInput.Spec.region at h
  simpa using h

/-! ### Lists of results -/

/-- The value, or another one if there is an error. -/
def getOk {α β : Type} (d : β) (f : α → Except PyErr β) (a : α) : β :=
  match f a with
  | .ok b => b
  | .error _ => d

theorem getOk_ok {α β : Type} {d b : β} {f : α → Except PyErr β} {a : α} (h : f a = .ok b) : getOk d f a = b := by unfold getOk; rw [h]

theorem mapM_getOk {α β : Type} (d : β) {f : α → Except PyErr β} {l : List α} {out : List β} (h : l.mapM f = .ok out) : (∀ a ∈ l, f a = .ok (getOk d f a)) ∧ out = l.map (getOk d f) := by
  obtain ⟨hl, hg⟩ := Blr.mapM_ok_get h
  have hv : ∀ (a : α) (b : β), f a = .ok b → getOk d f a = b := fun a b hb => by unfold getOk; rw [hb]
  constructor
  · intro a ha
    obtain ⟨i, hi⟩ := List.getElem?_of_mem ha
    obtain ⟨b, _, hb⟩ := hg i a hi
    rw [hv a b hb, hb]
  · apply List.ext_getElem?
    intro i
    rw [List.getElem?_map]
    cases hi : l[i]? with
    | none => rw [List.getElem?_eq_none (by rw [hl]; exact List.getElem?_eq_none_iff.1 hi)]; rfl
    | some a =>
      obtain ⟨b, h1, hb⟩ := hg i a hi
      rw [h1, Option.map_some, hv a b hb]

/-! ### The hits -/

theorem passes_iff (ps : List Pixel) (cut : ℚ) (t : CutType) (p : Pixel) (hp : p ∈ ps) : selected ps cut t p = true ↔ Passes ps cut t p := by
  cases t with
  | abs => simp [selected, Passes]
  | rel =>
    have hne : ps.map Pixel.e ≠ [] := by
      intro h
      rw [List.map_eq_nil_iff] at h
      rw [h] at hp
      cases hp
    obtain ⟨h1, h2⟩ := maxOf_spec _ hne
    obtain ⟨m, hm, he⟩ := List.mem_map.1 h1
    simp only [selected, Bool.and_eq_true, decide_eq_true_eq, Passes]
    constructor
    · rintro ⟨a, b⟩
      exact ⟨m, hm, fun q hq => by rw [he]; exact h2 _ (List.mem_map_of_mem hq), by rw [he]; exact a, by rw [he]; exact b⟩
    · rintro ⟨m', hm', hmax, h0, hc⟩
      have : m'.e = maxOf (ps.map Pixel.e) := le_antisymm (h2 _ (List.mem_map_of_mem hm')) (by rw [← he]; exact hmax m hm)
      rw [← this]
      exact ⟨h0, hc⟩

theorem sortedUnique_sorted (xs : List ℚ) : (sortedUnique xs).Pairwise (· < ·) := by
  have hins : ∀ (x : ℚ) (l : List ℚ), l.Pairwise (· ≤ ·) → (insertQ x l).Pairwise (· ≤ ·) := by
    intro x l
    induction l with
    | nil => intro _; simp [insertQ]
    | cons y ys ih =>
      intro h
      rw [insertQ]
      split
      · rename_i hxy
        refine List.Pairwise.cons ?_ h
        intro b hb
        rcases List.mem_cons.1 hb with rfl | hb
        · exact hxy
        · exact le_trans hxy (List.rel_of_pairwise_cons h hb)
      · rename_i hxy
        refine List.Pairwise.cons ?_ (ih (List.Pairwise.of_cons h))
        intro b hb
        rcases List.mem_cons.1 ((insertQ_perm x ys).mem_iff.1 hb) with rfl | hb
        · exact (not_le.1 hxy).le
        · exact List.rel_of_pairwise_cons h hb
  have hf : ∀ l : List ℚ, (l.foldr insertQ []).Perm l ∧ (l.foldr insertQ []).Pairwise (· ≤ ·) := by
    intro l
    induction l with
    | nil => exact ⟨List.Perm.refl _, List.Pairwise.nil⟩
    | cons a l ih => exact ⟨(insertQ_perm _ _).trans (ih.1.cons a), hins _ _ ih.2⟩
  obtain ⟨h1, h2⟩ := hf (unique xs)
  have hn : (sortedUnique xs).Nodup := h1.nodup_iff.2 (unique_nodup xs)
  exact (List.Pairwise.and h2 hn).imp fun h => lt_of_le_of_ne h.1 h.2

theorem peak_filter (hits : List Hit) (k : Int) : (hits.filter fun h => h.row.npeak == k) = peakOf hits k := by
  unfold peakOf
  exact List.filter_congr fun h _ => by rw [Bool.eq_iff_iff]; simp

theorem slice_filter (hits : List Hit) (k : Int) (z : ℚ) : ((peakOf hits k).filter fun h => h.row.z == z) = sliceOf hits k z := by
  unfold peakOf Spec.sliceOf
  rw [List.filter_filter]
  exact List.filter_congr fun h _ => by rw [Bool.eq_iff_iff]; simp [and_comm]

theorem flatMap_map_inner {α β γ : Type} (l : List α) (f : α → List β) (g : β → γ) : (l.flatMap f).map g = l.flatMap fun a => (f a).map g := List.map_flatMap ..

open Classical in
theorem sliceHits_ok {c : Conf} {grid : List (List ℚ)} {hits : List Hit} {k : Int} {z : ℚ} {out : List DHit} (h : sliceHits c grid (((peakOf hits k).map fun h => h.row.q).sum) (peakOf hits k) z = .ok out) :
    ∃ ps, slice c grid (chargeOf (peakOf hits k)) (Spec.sliceOf hits k z) z = .ok ps ∧
      out = (ps.filter fun p => decide (Passes ps c.cut c.cutType p)).map fun p => (⟨((Spec.sliceOf hits k z).map fun h => h.row.event).headD 0, ((Spec.sliceOf hits k z).map fun h => h.row.npeak).headD 0, p.x, p.y, z, some p.e⟩ : DHit) := by
  unfold sliceHits at h
  rw [slice_filter] at h
  change (match slice c grid (chargeOf (peakOf hits k)) (Spec.sliceOf hits k z) z with
    | .error e => .error e
    | .ok ps => if c.cutType = .rel ∧ ps = [] then .error .valueError else .ok (createDf ((Spec.sliceOf hits k z).map Hit.row) z ps c.cut c.cutType)) = Except.ok out at h
  cases hs : slice c grid (chargeOf (peakOf hits k)) (Spec.sliceOf hits k z) z with
  | error e => rw [hs] at h; cases h
  | ok ps =>
    rw [hs] at h
    dsimp only at h
    split at h
    · cases h
    · refine ⟨ps, rfl, ?_⟩
      rw [← Except.ok.inj h]
      unfold createDf
      rw [List.map_map, List.map_map]
      have hf : ps.filter (selected ps c.cut c.cutType) = ps.filter fun p => decide (Passes ps c.cut c.cutType p) :=
        List.filter_congr fun p hp => by rw [Bool.eq_iff_iff, passes_iff ps _ _ p hp, decide_eq_true_eq]
      rw [hf]
      rfl

open Classical in
/-- A peak: its slices and the hits made of them. -/
theorem peak_ok {c : Conf} {grid : List (List ℚ)} {j : Nat} {hits : List Hit} {k : Int} {out : List (DHit × ℚ × ℚ)} (h : peak c grid j k (peakOf hits k) = .ok out) :
    ∃ zs : List ℚ, zs.Pairwise (· < ·) ∧ (∀ z, z ∈ zs ↔ ∃ h ∈ hits, h.row.npeak = k ∧ h.row.z = z) ∧ ∃ ps : ℚ → List Pixel,
      (∀ z ∈ zs, slice c grid (chargeOf (peakOf hits k)) (Spec.sliceOf hits k z) z = .ok (ps z)) ∧
      ∀ ts, out.map (fun h => (⟨{ h.1 with e := h.1.e.map round6 }, h.2.1, h.2.2, ts / 1000⟩ : OutHit)) =
        (kept zs ps c.cut c.cutType).map fun x => hitOf hits j ts k ((kept zs ps c.cut c.cutType).map fun y => y.2.e).sum x.1 x.2 := by
  unfold peak at h
  cases hm : (sortedUnique ((peakOf hits k).map fun h => h.row.z)).mapM (sliceHits c grid (((peakOf hits k).map fun h => h.row.q).sum) (peakOf hits k)) with
  | error e => rw [hm] at h; cases h
  | ok slices =>
    rw [hm] at h
    obtain ⟨g1, g2⟩ := mapM_getOk [] hm
    have hout := (Except.ok.inj h).symm
    clear h
    refine ⟨sortedUnique ((peakOf hits k).map fun h => h.row.z), sortedUnique_sorted _, ?_, getOk [] fun z => slice c grid (chargeOf (peakOf hits k)) (Spec.sliceOf hits k z) z, ?_, ?_⟩
    · intro z
      rw [mem_sortedUnique, List.mem_map]
      unfold peakOf
      simp only [List.mem_filter, decide_eq_true_eq, and_assoc]
    · intro z hz
      obtain ⟨ps, h1, _⟩ := sliceHits_ok (g1 z hz)
      rw [getOk_ok (f := fun z => slice c grid (chargeOf (peakOf hits k)) (Spec.sliceOf hits k z) z) h1]
      exact h1
    · intro ts
      have hsl : ∀ z ∈ sortedUnique ((peakOf hits k).map fun h => h.row.z), getOk [] (sliceHits c grid (((peakOf hits k).map fun h => h.row.q).sum) (peakOf hits k)) z =
          ((getOk [] (fun z => slice c grid (chargeOf (peakOf hits k)) (Spec.sliceOf hits k z) z) z).filter fun p => decide (Passes (getOk [] (fun z => slice c grid (chargeOf (peakOf hits k)) (Spec.sliceOf hits k z) z) z) c.cut c.cutType p)).map
            fun p => (⟨((Spec.sliceOf hits k z).map fun h => h.row.event).headD 0, ((Spec.sliceOf hits k z).map fun h => h.row.npeak).headD 0, p.x, p.y, z, some p.e⟩ : DHit) := by
        intro z hz
        obtain ⟨ps, h1, h2⟩ := sliceHits_ok (g1 z hz)
        rw [getOk_ok (f := fun z => slice c grid (chargeOf (peakOf hits k)) (Spec.sliceOf hits k z) z) h1]
        exact h2
      generalize hps : (getOk [] fun z => slice c grid (chargeOf (peakOf hits k)) (Spec.sliceOf hits k z) z) = ps at *
      generalize hzs : sortedUnique ((peakOf hits k).map fun h => h.row.z) = zs at *
      have hflat : (slices.flatten.map fun h => ({ h with npeak := k } : DHit)) = (kept zs ps c.cut c.cutType).map fun x => (⟨((Spec.sliceOf hits k x.1).map fun h => h.row.event).headD 0, k, x.2.x, x.2.y, x.1, some x.2.e⟩ : DHit) := by
        rw [g2, ← List.flatMap_def, kept, List.map_flatMap, List.map_flatMap]
        refine List.flatMap_congr ?_
        intro z hz
        rw [hsl z hz, List.map_map, List.map_map]
        rfl
      rw [hflat] at hout
      rw [hout]
      unfold distributeEnergy
      rw [List.map_map, List.map_map, List.map_map]
      have htot : total ((kept zs ps c.cut c.cutType).map fun x => (⟨((Spec.sliceOf hits k x.1).map fun h => h.row.event).headD 0, k, x.2.x, x.2.y, x.1, some x.2.e⟩ : DHit)) = ((kept zs ps c.cut c.cutType).map fun y => y.2.e).sum := by
        unfold total
        rw [List.map_map]
        rfl
      rw [htot]
      have hcol : colSum ((peakOf hits k).map Hit.row) j = energyOf (peakOf hits k) j := by
        unfold colSum energyOf
        rw [List.map_map]
        rfl
      rw [hcol]
      apply List.map_congr_left
      intro x _
      simp only [Function.comp, hitOf]
      by_cases hv : ((kept zs ps c.cut c.cutType).map fun y => y.2.e).sum = 0
      · rw [if_pos hv, if_pos hv]
        rfl
      · rw [if_neg hv, if_neg hv]
        rfl

open Classical in
/-- C112: the output of an event: peak by peak and slice by slice, in increasing order, the pixels of each slice that pass the cut, in their order; each has the event of the slice, the position of the first hit of the peak, and the part of the
energy of the peak that its value is of the values of all those of the peak, rounded to six decimals. -/
theorem event_spec {c : Conf} {grid : List (List ℚ)} {j : Nat} {ts : ℚ} {hits : List Hit} {out : List OutHit} (h : event c grid j ts hits = .ok out) :
    ∃ ks : List Int, ks.Pairwise (· < ·) ∧ (∀ k, k ∈ ks ↔ ∃ h ∈ hits, h.row.npeak = k) ∧ ∃ (zs : Int → List ℚ) (ps : Int → ℚ → List Pixel),
      (∀ k ∈ ks, (zs k).Pairwise (· < ·) ∧ (∀ z, z ∈ zs k ↔ ∃ h ∈ hits, h.row.npeak = k ∧ h.row.z = z) ∧
        ∀ z ∈ zs k, slice c grid (chargeOf (peakOf hits k)) (Spec.sliceOf hits k z) z = .ok (ps k z)) ∧
      out = ks.flatMap fun k => (kept (zs k) (ps k) c.cut c.cutType).map fun x => hitOf hits j ts k ((kept (zs k) (ps k) c.cut c.cutType).map fun y => y.2.e).sum x.1 x.2 := by
  unfold event at h
  obtain ⟨s1, s2⟩ := Sources.groupKeys_spec (hits.map fun h => h.row.npeak)
  generalize hks : Sources.groupKeys (hits.map fun h => h.row.npeak) = ks at *
  cases hm : ks.mapM (fun k => peak c grid j k (hits.filter fun h => h.row.npeak == k)) with
  | error e => rw [hm] at h; cases h
  | ok peaks =>
    rw [hm] at h
    obtain ⟨g1, g2⟩ := mapM_getOk [] hm
    have hall : ∀ k ∈ ks, ∃ zs : List ℚ, zs.Pairwise (· < ·) ∧ (∀ z, z ∈ zs ↔ ∃ h ∈ hits, h.row.npeak = k ∧ h.row.z = z) ∧ ∃ ps : ℚ → List Pixel,
        (∀ z ∈ zs, slice c grid (chargeOf (peakOf hits k)) (Spec.sliceOf hits k z) z = .ok (ps z)) ∧
        ∀ ts, (getOk [] (fun k => peak c grid j k (hits.filter fun h => h.row.npeak == k)) k).map (fun h => (⟨{ h.1 with e := h.1.e.map round6 }, h.2.1, h.2.2, ts / 1000⟩ : OutHit)) =
          (kept zs ps c.cut c.cutType).map fun x => hitOf hits j ts k ((kept zs ps c.cut c.cutType).map fun y => y.2.e).sum x.1 x.2 := by
      intro k hk
      have := g1 k hk
      rw [peak_filter] at this
      exact peak_ok this
    choose! zs hz1 hz2 ps hp1 hp2 using hall
    refine ⟨ks, s1, fun k => by rw [s2, List.mem_map], zs, ps, fun k hk => ⟨hz1 k hk, hz2 k hk, hp1 k hk⟩, ?_⟩
    have hfl : peaks.flatten.map (fun h => (⟨{ h.1 with e := h.1.e.map round6 }, h.2.1, h.2.2, ts / 1000⟩ : OutHit)) =
        ks.flatMap fun k => (kept (zs k) (ps k) c.cut c.cutType).map fun x => hitOf hits j ts k ((kept (zs k) (ps k) c.cut c.cutType).map fun y => y.2.e).sum x.1 x.2 := by
      rw [g2, ← List.flatMap_def, List.map_flatMap]
      exact List.flatMap_congr fun k hk => hp2 k hk ts
    cases peaks with
    | nil => cases h
    | cons p l => exact (Except.ok.inj h).symm.trans hfl

/-- C112: with interpolation, every deconvolved hit is in a slice of its peak, at a point of the detector that is at most 3/2 widths (and 2⁻²³) beyond the hits of the slice, along each axis. -/
theorem event_positions {c : Conf} {gx gy : List ℚ} {j : Nat} {ts : ℚ} {hits : List Hit} {out : List OutHit} (h : event c [gx, gy] j ts hits = .ok out) (hm : c.method ≠ .nointerpolation) (hw : 0 < c.widths.1 ∧ 0 < c.widths.2) :
    ∀ o ∈ out, Spec.sliceOf hits o.hit.npeak o.hit.z ≠ [] ∧ o.time = ts / 1000 ∧ o.hit.x ∈ near gx ((Spec.sliceOf hits o.hit.npeak o.hit.z).map fun h => h.row.x) c.widths.1 ∧
      o.hit.y ∈ near gy ((Spec.sliceOf hits o.hit.npeak o.hit.z).map fun h => h.row.y) c.widths.2 := by
  classical
  obtain ⟨ks, _, _, zs, ps, hk, rfl⟩ := event_spec h
  intro o ho
  obtain ⟨k, hkm, ho⟩ := List.mem_flatMap.1 ho
  obtain ⟨x, hx, rfl⟩ := List.mem_map.1 ho
  obtain ⟨_, hz, hp⟩ := hk k hkm
  unfold kept at hx
  obtain ⟨z, hzm, hx⟩ := List.mem_flatMap.1 hx
  obtain ⟨p, hpm, rfl⟩ := List.mem_map.1 hx
  have hpm := (List.mem_filter.1 hpm).1
  have hne : Spec.sliceOf hits k z ≠ [] := by
    obtain ⟨a, ha, h1, h2⟩ := (hz z).1 hzm
    exact List.ne_nil_of_mem (List.mem_filter.2 ⟨ha, by simp [h1, h2]⟩)
  obtain ⟨_, _, image, _, im, _, _, e1, e2, _, _, _, e3, e4⟩ := slice_spec (hp z hzm) hm hne hw
  obtain ⟨n, hn⟩ := List.getElem?_of_mem hpm
  have hlt : n < image.h * image.w := by rw [← e3]; exact (List.getElem?_eq_some_iff.1 hn).1
  have hw0 : 0 < image.w := Nat.pos_of_ne_zero fun h0 => by rw [h0] at hlt; simp at hlt
  have hi : n / image.w < image.h := Nat.div_lt_of_lt_mul (by rw [Nat.mul_comm]; exact hlt)
  have hj : n % image.w < image.w := Nat.mod_lt _ hw0
  have ga := List.getElem?_eq_getElem (l := near gx ((Spec.sliceOf hits k z).map fun h => h.row.x) c.widths.1) (by rw [← e1]; exact hi)
  have gb := List.getElem?_eq_getElem (l := near gy ((Spec.sliceOf hits k z).map fun h => h.row.y) c.widths.2) (by rw [← e2]; exact hj)
  have := e4 _ _ _ _ ga gb
  rw [show n / image.w * image.w + n % image.w = n by rw [Nat.mul_comm]; exact Nat.div_add_mod n image.w, hn] at this
  have hpe := Option.some.inj this
  refine ⟨hne, rfl, ?_, ?_⟩
  · show p.x ∈ _
    rw [hpe]
    exact List.getElem_mem _
  · show p.y ∈ _
    rw [hpe]
    exact List.getElem_mem _

/-- C112: the energy of a peak of the output is that of the peak of the input, up to half a unit of the sixth decimal per hit, unless the values of its pixels add up to zero. -/
theorem event_energy {c : Conf} {grid : List (List ℚ)} {j : Nat} {ts : ℚ} {hits : List Hit} {out : List OutHit} (h : event c grid j ts hits = .ok out) (k : Int) (hk : ∃ h ∈ hits, h.row.npeak = k)
    (hv : ∀ o ∈ out, o.hit.npeak = k → o.hit.e ≠ none) (hne : ∃ o ∈ out, o.hit.npeak = k) :
    |((out.filter fun o => decide (o.hit.npeak = k)).map fun o => o.hit.e.getD 0).sum - energyOf (peakOf hits k) j| ≤ (out.filter fun o => decide (o.hit.npeak = k)).length / 2000000 := by
  classical
  obtain ⟨ks, hs, hmem, zs, ps, _, rfl⟩ := event_spec h
  have hkm := (hmem k).2 hk
  -- the hits of the peak
  have hf : ∀ (l : List Int), l.Pairwise (· < ·) → ∀ (F : Int → List OutHit), (∀ a ∈ l, ∀ o ∈ F a, o.hit.npeak = a) → k ∈ l → ((l.flatMap F).filter fun o => decide (o.hit.npeak = k)) = F k := by
    intro l hl F
    induction l with
    | nil => intro _ h; cases h
    | cons a l ih =>
      intro hF hka
      rw [List.flatMap_cons, List.filter_append]
      rcases List.mem_cons.1 hka with rfl | hkl
      · have h1 : ((F k).filter fun o => decide (o.hit.npeak = k)) = F k := List.filter_eq_self.2 fun o ho => decide_eq_true (hF k List.mem_cons_self o ho)
        have h2 : ((l.flatMap F).filter fun o => decide (o.hit.npeak = k)) = [] := by
          rw [List.filter_eq_nil_iff]
          intro o ho
          obtain ⟨b, hb, ho⟩ := List.mem_flatMap.1 ho
          have := hF b (List.mem_cons_of_mem _ hb) o ho
          have hlt := List.rel_of_pairwise_cons hl hb
          simp only [decide_eq_true_eq]
          omega
        rw [h1, h2, List.append_nil]
      · have h1 : ((F a).filter fun o => decide (o.hit.npeak = k)) = [] := by
          rw [List.filter_eq_nil_iff]
          intro o ho
          have := hF a List.mem_cons_self o ho
          have hlt := List.rel_of_pairwise_cons hl hkl
          simp only [decide_eq_true_eq]
          omega
        rw [h1, List.nil_append, ih (List.Pairwise.of_cons hl) (fun b hb => hF b (List.mem_cons_of_mem _ hb)) hkl]
  have hfk := hf ks hs (fun k => (kept (zs k) (ps k) c.cut c.cutType).map fun x => hitOf hits j ts k ((kept (zs k) (ps k) c.cut c.cutType).map fun y => y.2.e).sum x.1 x.2)
    (by intro a _ o ho; obtain ⟨x, _, rfl⟩ := List.mem_map.1 ho; rfl) hkm
  rw [hfk, List.length_map, List.map_map]
  generalize hK : kept (zs k) (ps k) c.cut c.cutType = K at *
  have hvz : (K.map fun y => y.2.e).sum ≠ 0 := by
    intro h0
    obtain ⟨o, ho, hok⟩ := hne
    have hom : o ∈ (ks.flatMap fun k => (kept (zs k) (ps k) c.cut c.cutType).map fun x => hitOf hits j ts k ((kept (zs k) (ps k) c.cut c.cutType).map fun y => y.2.e).sum x.1 x.2).filter fun o => decide (o.hit.npeak = k) :=
      List.mem_filter.2 ⟨ho, decide_eq_true hok⟩
    have hno := hv o ho hok
    rw [hfk] at hom
    obtain ⟨x, _, rfl⟩ := List.mem_map.1 hom
    exact hno (if_pos h0)
  have hsum : ∀ (v S : ℚ) (l : List (ℚ × Pixel)), |(l.map fun x => round6 (x.2.e / v * S)).sum - (l.map fun x => x.2.e).sum / v * S| ≤ l.length / 2000000 := by
    intro v S l
    induction l with
    | nil => simp
    | cons x l ih =>
      simp only [List.map_cons, List.sum_cons, List.length_cons, add_div, add_mul]
      have := round6_close (x.2.e / v * S)
      push_cast
      rw [abs_le] at ih this ⊢
      constructor <;> linarith [ih.1, ih.2, this.1, this.2]
  have := hsum (K.map fun y => y.2.e).sum (energyOf (peakOf hits k) j) K
  rw [div_self hvz, one_mul] at this
  have he : (K.map ((fun o : OutHit => o.hit.e.getD 0) ∘ fun x => hitOf hits j ts k ((K.map fun y => y.2.e).sum) x.1 x.2)) = K.map fun x => round6 (x.2.e / (K.map fun y => y.2.e).sum * energyOf (peakOf hits k) j) := by
    apply List.map_congr_left
    intro x _
    simp only [Function.comp, hitOf, if_neg hvz, Option.getD_some]
  rw [he]
  exact this

/-- C112: if a slice fails the event fails, and nothing of it is written. -/
theorem event_fails {c : Conf} {grid : List (List ℚ)} {j : Nat} {ts : ℚ} {hits : List Hit} {k : Int} {z : ℚ} {e : PyErr} (hz : ∃ h ∈ hits, h.row.npeak = k ∧ h.row.z = z)
    (h : slice c grid (chargeOf (peakOf hits k)) (Spec.sliceOf hits k z) z = .error e) : ∃ e', event c grid j ts hits = .error e' := by
  cases ho : event c grid j ts hits with
  | error e' => exact ⟨e', rfl⟩
  | ok out =>
    obtain ⟨ks, _, hk, zs, ps, hp, _⟩ := event_spec ho
    obtain ⟨a, ha, h1, h2⟩ := hz
    obtain ⟨_, g2, g3⟩ := hp k ((hk k).2 ⟨a, ha, h1⟩)
    rw [g3 z ((g2 z).2 ⟨a, ha, h1, h2⟩)] at h
    cases h

/-- C112: an event without hits is an error. -/
theorem event_empty (c : Conf) (grid : List (List ℚ)) (j : Nat) (ts : ℚ) : event c grid j ts [] = .error .valueError := rfl

/-! ### Scale of the charges -/

theorem slice_scale {s : ℚ} (hs : s ≠ 0) (c : Conf) (grid : List (List ℚ)) (total : ℚ) (hits : List Hit) (z : ℚ) : slice c grid (s * total) (scaled s hits) z = slice c grid total hits z := by
  have hx : (scaled s hits).map (fun h => h.row.x) = hits.map fun h => h.row.x := by unfold scaled; rw [List.map_map]; rfl
  have hy : (scaled s hits).map (fun h => h.row.y) = hits.map fun h => h.row.y := by unfold scaled; rw [List.map_map]; rfl
  have hq : (scaled s hits).map (fun h => h.row.q / (s * total)) = hits.map fun h => h.row.q / total := by
    unfold scaled
    rw [List.map_map]
    apply List.map_congr_left
    intro h _
    simp only [Function.comp]
    exact mul_div_mul_left _ _ hs
  have hpx : (scaled s hits).map Hit.xpeak = hits.map Hit.xpeak := by unfold scaled; rw [List.map_map]; rfl
  have hpy : (scaled s hits).map Hit.ypeak = hits.map Hit.ypeak := by unfold scaled; rw [List.map_map]; rfl
  unfold slice selectPsf coords
  rw [hx, hy, hq, hpx, hpy]

theorem scaled_filter (s : ℚ) (p : Row → Bool) (hp : ∀ r : Row, ∀ q : ℚ, p ⟨r.label, r.event, r.time, r.npeak, r.x, r.y, r.z, q, r.vals⟩ = p r) (hits : List Hit) :
    ((scaled s hits).filter fun h => p h.row) = scaled s (hits.filter fun h => p h.row) := by
  unfold scaled
  rw [List.filter_map]
  congr 1
  exact List.filter_congr fun h _ => hp h.row _

/-- C112: the charges matter only as fractions: multiplying all those of the event by the same number, not zero, changes nothing. -/
theorem event_scale {s : ℚ} (hs : s ≠ 0) (c : Conf) (grid : List (List ℚ)) (j : Nat) (ts : ℚ) (hits : List Hit) : event c grid j ts (scaled s hits) = event c grid j ts hits := by
  have hpk : ∀ (hits : List Hit) (k : Int), peak c grid j k (scaled s hits) = peak c grid j k hits := by
    intro hits k
    have hz : (scaled s hits).map (fun h => h.row.z) = hits.map fun h => h.row.z := by unfold scaled; rw [List.map_map]; rfl
    have hq : ((scaled s hits).map fun h => h.row.q).sum = s * (hits.map fun h => h.row.q).sum := by
      unfold scaled
      rw [List.map_map, ← List.sum_map_mul_left]
      rfl
    have hpx : (scaled s hits).map Hit.xpeak = hits.map Hit.xpeak := by unfold scaled; rw [List.map_map]; rfl
    have hpy : (scaled s hits).map Hit.ypeak = hits.map Hit.ypeak := by unfold scaled; rw [List.map_map]; rfl
    have hsl : sliceHits c grid (s * (hits.map fun h => h.row.q).sum) (scaled s hits) = sliceHits c grid (hits.map fun h => h.row.q).sum hits := by
      funext z
      unfold sliceHits
      rw [scaled_filter s (fun r => r.z == z) (fun _ _ => rfl), slice_scale hs]
      have hdf : ∀ (l : List Hit) (ps : List Pixel), createDf ((scaled s l).map Hit.row) z ps c.cut c.cutType = createDf (l.map Hit.row) z ps c.cut c.cutType := by
        intro l ps
        unfold createDf
        have h1 : ((scaled s l).map Hit.row).map Row.event = (l.map Hit.row).map Row.event := by unfold scaled; simp only [List.map_map]; rfl
        have h2 : ((scaled s l).map Hit.row).map Row.npeak = (l.map Hit.row).map Row.npeak := by unfold scaled; simp only [List.map_map]; rfl
        rw [h1, h2]
      simp only [hdf]
    have hde : ∀ hs', distributeEnergy hs' ((scaled s hits).map Hit.row) j = distributeEnergy hs' (hits.map Hit.row) j := by
      intro hs'
      unfold distributeEnergy
      have : colSum ((scaled s hits).map Hit.row) j = colSum (hits.map Hit.row) j := by unfold colSum scaled; simp only [List.map_map]; rfl
      rw [this]
    unfold peak
    rw [hz, hq, hpx, hpy, hsl]
    simp only [hde]
  have hn : (scaled s hits).map (fun h => h.row.npeak) = hits.map fun h => h.row.npeak := by unfold scaled; rw [List.map_map]; rfl
  unfold event
  rw [hn]
  have : (fun k => peak c grid j k ((scaled s hits).filter fun h => h.row.npeak == k)) = fun k => peak c grid j k (hits.filter fun h => h.row.npeak == k) := by
    funext k
    rw [scaled_filter s (fun r => r.npeak == k) (fun _ _ => rfl), hpk]
  rw [this]

/-! ### Examples -/

def exPsf : List PsfRow := [⟨5, 0, 0, -1, 0, 1 / 4⟩, ⟨5, 0, 0, 0, 0, 1 / 2⟩, ⟨5, 0, 0, 1, 0, 1 / 4⟩, ⟨9, 0, 0, -1, 0, 0⟩, ⟨9, 0, 0, 0, 0, 1⟩, ⟨9, 0, 0, 1, 0, 0⟩]

/-- Interpolation with the value at the nearest of the points. -/
def exGrid (_ : Method) (pts : List (List ℚ)) (vals : List ℚ) : Except PyErr (List ℚ → Option ℚ) := .ok fun p => ((pts.zip vals).find? fun x => decide (|x.1.getD 0 0 - p.getD 0 0| ≤ 1 / 2 ∧ |x.1.getD 1 0 - p.getD 1 0| ≤ 1 / 2)).map Prod.snd

def exConf : Conf := ⟨exPsf, [(0, 0), (4, 2)], true, .nearest, (1, 1), (1, 1), 1, 1, 0, ⟨none, 0, 0, .abs⟩, 1 / 100, .abs, exGrid, fun _ => .ok fun _ => 1⟩

def exHit (k : Int) (x y z q e : ℚ) : Hit := ⟨⟨0, 7, 0, k, x, y, z, q, [some e]⟩, 1, 1⟩

example : detGrid [(0, 0), (4, 2)] (1, 1) = .ok [[1 / 2, 3 / 2, 5 / 2, 7 / 2], [1 / 2, 3 / 2]] := by decide +kernel

def exHits : List Hit := [exHit 0 (3 / 2) (1 / 2) 5 3 10, exHit 0 (1 / 2) (1 / 2) 9 1 20]

example : selectPsf exConf [exHit 0 (3 / 2) (1 / 2) 6 3 10] 6 = .ok (exPsf.take 3) ∧ (reshapePsf (exPsf.take 3) ((exPsf.take 3).map PsfRow.factor)).toOption.isSome = true := by decide +kernel

/-- What is seen of an event: nothing if it fails. -/
def exOut (c : Conf) (hits : List Hit) : Option (List (ℚ × ℚ × ℚ × Option ℚ)) :=
  (event c [[1 / 2, 3 / 2, 5 / 2, 7 / 2], [1 / 2, 3 / 2]] 0 5000 hits).toOption.map (List.map fun o => (o.hit.z, o.hit.x, o.hit.y, o.hit.e))

/-- The mode `separate` with a diffusion that depends on `z`. -/
def exSeparate : Conf := ⟨exPsf, [(0, 0), (4, 2)], false, .nearest, (1, 1), (1, 1), 1, 1, 0, ⟨none, 0, 0, .abs⟩, 1 / 100, .abs, exGrid, fun z => .ok fun p => if p.1 = 0 then z else 1⟩

/-- Two slices of a peak of 30: the energy is shared among the pixels of both in the proportions of the charges, 3 to 1. With the position of the peak changing within a slice, and without hits, the event fails. -/
theorem ex_event : exOut exConf exHits = some [(5, 1 / 2, 1 / 2, some (45 / 8)), (5, 3 / 2, 1 / 2, some (45 / 4)), (5, 5 / 2, 1 / 2, some (45 / 8)), (9, 1 / 2, 1 / 2, some (15 / 2))] ∧ exOut exConf (exHits ++ [⟨⟨0, 7, 0, 0, 3 / 2, 3 / 2, 5, 3, [some 10]⟩, 9, 9⟩]) = none ∧ exOut exConf [] = none := by
  refine ⟨?_, ?_, ?_⟩ <;> decide +kernel

/-- The mode `separate`: both slices use the PSF nearest to `z = 0`, and are deconvolved again. -/
theorem ex_separate : exOut exSeparate exHits = some [(5, 1 / 2, 1 / 2, some (6294643 / 1000000)), (5, 3 / 2, 1 / 2, some (4955357 / 500000)), (5, 5 / 2, 1 / 2, some (6294643 / 1000000)), (9, 1 / 2, 1 / 2, some (19 / 4)), (9, 3 / 2, 1 / 2, some (11 / 4))] := by decide +kernel

end Verif.DeconvSlice
